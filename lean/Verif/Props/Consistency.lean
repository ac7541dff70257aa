import Verif.Props.Locality
import Verif.Props.MeasurementErrors

/-!
# Property C140: with dense measurements the extensions find the true speeds
-/

set_option linter.unusedSectionVars false

namespace Verif.Ext

open Verif.Interp

variable {K : Type} [Field K] [LinearOrder K] [IsStrictOrderedRing K]

/-- All values returned by the interpolator lie between bounds of the speeds given to it. -/
def Between (interpolate : List (Pt K × K) → K × K → Except PyErr K) : Prop :=
  ∀ l g x, l ≠ [] → interpolate l g = .ok x → ∀ lo hi, (∀ p ∈ l, lo ≤ p.1.2 ∧ p.1.2 ≤ hi) → lo ≤ x ∧ x ≤ hi

/-- A wind is stored in the data, or it is not. -/
theorem stored_or_not (pts : List (Pt K)) (g : K × K) : (∃ v, FirstStored pts g v) ∨ NotStored pts g := by
  induction pts with
  | nil => right; intro p hp; simp at hp
  | cons p ps ih =>
    by_cases h : p.1 = g
    · left
      refine ⟨p.2, 0, by simp [← h], by simp⟩
    · rcases ih with ⟨v, i, hi, hb⟩ | ih
      · left
        refine ⟨v, i + 1, by simpa using hi, ?_⟩
        intro j q hj hq
        cases j with
        | zero =>
          simp only [List.getElem?_cons_zero, Option.some.injEq] at hq
          rw [← hq]; exact h
        | succ j => exact hb j q (by omega) (by simpa using hq)
      · right
        intro q hq
        rcases List.mem_cons.1 hq with rfl | hq
        · exact h
        · exact ih q hq

theorem FirstStored.mem {pts : List (Pt K)} {g : K × K} {v : K} (h : FirstStored pts g v) : (g, v) ∈ pts := by
  obtain ⟨i, hi, -⟩ := h
  exact List.mem_of_getElem? hi

/-- **C140.** The default interpolator of the extensions (with the default factor 1) always succeeds and its values are
between those of the data. -/
theorem C140_mean {norm : K × K → K} (hn : IsDist norm) {distr : K → K → K} (hd : ∀ d w, 0 < distr d w) :
    Between (meanOf norm 1 distr) ∧ ∀ l g, l ≠ [] → ∃ x, meanOf norm 1 distr l g = .ok x := by
  have key : ∀ l g, l ≠ [] → ∃ x, meanOf norm 1 distr l g = .ok x ∧ InRange (l.map Prod.fst) x := by
    intro l g hl
    rcases stored_or_not (l.map Prod.fst) g with ⟨v, hv⟩ | h
    · refine ⟨v, C21_exact hn 1 distr _ hv, fun lo hi hb => ?_⟩
      exact hb _ (FirstStored.mem hv)
    · exact C21_in_range hn hd (by simpa using hl) (by simp) h
  refine ⟨fun l g x hl hx lo hi hb => ?_, fun l g hl => (key l g hl).imp fun x hx => hx.1⟩
  obtain ⟨y, hy, hr⟩ := key l g hl
  rw [hx, Except.ok.injEq] at hy
  subst hy
  exact hr lo hi fun p hp => by
    obtain ⟨q, hq, rfl⟩ := List.mem_map.1 hp
    exact hb q hq

/-- `IDWInterpolator` (`/repo/hrosailing/processing/interpolator.py:100-139`) as an interpolator of the
extensions; no number (`nan`) counts as an error. -/
def idwOf (norm : K × K → K) (p : Nat) (l : List (Pt K × K)) (g : K × K) : Except PyErr K :=
  match idw norm p (l.map Prod.fst) g with
  | .ok (some x) => .ok x
  | .ok none => .error .otherError
  | .error e => .error e

/-- `ImprovedIDWInterpolator` (`/repo/hrosailing/processing/interpolator.py:288-319`) as an interpolator of the
extensions; no number (`nan`) counts as an error. -/
def improvedOf (norm : K × K → K) (l : List (Pt K × K)) (g : K × K) : Except PyErr K :=
  match improved norm (l.map Prod.fst) g with
  | .ok (some x) => .ok x
  | .ok none => .error .otherError
  | .error e => .error e

/-- **C140.** The same for `IDWInterpolator`, with any power. -/
theorem C140_idw {norm : K × K → K} (hn : IsDist norm) (p : Nat) :
    Between (idwOf norm p) ∧ ∀ l g, l ≠ [] → ∃ x, idwOf norm p l g = .ok x := by
  have key : ∀ l g, l ≠ [] → ∃ x, idwOf norm p l g = .ok x ∧ InRange (l.map Prod.fst) x := by
    intro l g hl
    rcases stored_or_not (l.map Prod.fst) g with ⟨v, hv⟩ | h
    · refine ⟨v, by simp only [idwOf, C20_exact hn p hv], fun lo hi hb => ?_⟩
      exact hb _ (FirstStored.mem hv)
    · obtain ⟨v, hv, hr, -⟩ := C20_mean hn p (by simpa using hl) h
      exact ⟨v, by simp only [idwOf, hv], hr⟩
  refine ⟨fun l g x hl hx lo hi hb => ?_, fun l g hl => (key l g hl).imp fun x hx => hx.1⟩
  obtain ⟨y, hy, hr⟩ := key l g hl
  rw [hx, Except.ok.injEq] at hy
  subst hy
  exact hr lo hi fun p hp => by
    obtain ⟨q, hq, rfl⟩ := List.mem_map.1 hp
    exact hb q hq

/-- **C140.** Whenever `ImprovedIDWInterpolator` gives a number (see C22 for when it does), it is between those of the
data. -/
theorem C140_improved {norm : K × K → K} (hn : IsDist norm) : Between (improvedOf norm) := by
  intro l g x hl hx lo hi hb
  have hr : InRange (l.map Prod.fst) x := by
    rcases stored_or_not (l.map Prod.fst) g with ⟨v, hv⟩ | h
    · simp only [improvedOf, C22_exact hn hv, Except.ok.injEq] at hx
      subst hx
      intro lo hi hb
      exact hb _ (FirstStored.mem hv)
    · by_cases he : ∃ p ∈ l.map Prod.fst, ∃ q ∈ l.map Prod.fst, norm (p.1 - g) < norm (q.1 - g)
      · obtain ⟨p, hp, q, hq, hpq⟩ := he
        obtain ⟨v, hv, hr⟩ := C22_in_range_partial hn h hp hq hpq
        simp only [improvedOf, hv, Except.ok.injEq] at hx
        rw [← hx]
        exact hr
      · push Not at he
        obtain ⟨p, ps, rfl⟩ := List.exists_cons_of_ne_nil hl
        have := C22_equidistant_false hn (pts := (p :: ps).map Prod.fst) (by simp) h (r := norm (p.1.1 - g)) fun q hq =>
          le_antisymm (he p.1 (by simp) q hq) (he q hq p.1 (by simp))
        simp only [improvedOf, this] at hx
        cases hx
  exact hr lo hi fun p hp => by
    obtain ⟨q, hq, rfl⟩ := List.mem_map.1 hp
    exact hb q hq

/-- The data are measurements of the function `f` with errors of at most `δ`. -/
def Measures (f : K × K → K) (δ : K) (points : List (Pt K × K)) : Prop := ∀ p ∈ points, |p.1.2 - f p.1.1| ≤ δ

/-- **C140.** The error at a wind with measurements in its neighbourhood is at most the error of the measurements plus the
variation of the true speed over the measurements in the neighbourhood. -/
theorem C140_value {interpolate : List (Pt K × K) → K × K → Except PyErr K} (hi : Between interpolate) {f : K × K → K}
    {δ ω : K} {points : List (Pt K × K)} (hm : Measures f δ points) {nbh : K × K → Bool} {g : K × K}
    (hne : ∃ p ∈ points, nbh (p.1.1 - g) = true) (hω : ∀ p ∈ points, nbh (p.1.1 - g) = true → |f p.1.1 - f g| ≤ ω) {x : K}
    (hx : interpolatePoint nbh interpolate points g = .ok (g, x)) : |x - f g| ≤ ω + δ := by
  set l := points.filter fun p => nbh (p.1.1 - g) with hl
  have hln : l ≠ [] := by
    obtain ⟨p, hp, hpn⟩ := hne
    have : p ∈ l := List.mem_filter.2 ⟨hp, hpn⟩
    exact List.ne_nil_of_mem this
  have hx' : interpolate l g = .ok x := by
    unfold interpolatePoint at hx
    rw [← hl] at hx
    revert hx
    obtain ⟨p, ps, he⟩ := List.exists_cons_of_ne_nil hln
    rw [he]
    simp only
    cases h : interpolate (p :: ps) g with
    | error e => intro hx; simp [bind, Except.bind] at hx
    | ok y =>
      intro hx
      simp only [bind, Except.bind, Except.ok.injEq, Prod.mk.injEq, true_and] at hx
      rw [hx]
  have := hi l g x hln hx' (f g - (ω + δ)) (f g + (ω + δ)) fun p hp => by
    obtain ⟨hp1, hp2⟩ := List.mem_filter.1 hp
    have h1 := abs_le.1 (hm p hp1)
    have h2 := abs_le.1 (hω p hp1 hp2)
    exact ⟨by linarith [h1.1, h2.1], by linarith [h1.2, h2.2]⟩
  exact abs_le.2 ⟨by linarith [this.1], by linarith [this.2]⟩

/-- The function changes by at most `L` times the distance. -/
def Lip (norm : K × K → K) (L : K) (f : K × K → K) : Prop := ∀ u g, |f u - f g| ≤ L * norm (u - g)

/-- **C140.** With a `Ball` of radius `r`: error at most `L r + δ`. -/
theorem C140_ball (norm : Nbh.Norm K) {d : K × K → K} (hd : ∀ pts, norm.array pts = .ok (pts.map d))
    {interpolate : List (Pt K × K) → K × K → Except PyErr K} (hi : Between interpolate) {f : K × K → K} {L δ r : K}
    (hL : 0 ≤ L) (hf : Lip d L f) {points : List (Pt K × K)} (hm : Measures f δ points) {g : K × K}
    (hne : ∃ p ∈ points, d (p.1.1 - g) ≤ r) {x : K}
    (hx : interpolatePointMask (Nbh.ball norm r) interpolate points g = .ok (g, x)) : |x - f g| ≤ L * r + δ := by
  rw [C131_ball norm hd] at hx
  refine C140_value hi hm (by simpa using hne) (fun p _ hp => ?_) hx
  exact (hf _ _).trans (mul_le_mul_of_nonneg_left (by simpa using hp) hL)

/-- In a sorted list with more than `n` entries of at most `ρ`, the entry at `n` is at most `ρ`. -/
theorem getElem?_le_of_count {s : List K} (hs : s.Pairwise (· ≤ ·)) {ρ : K} {n : Nat}
    (h : n < s.countP fun y => decide (y ≤ ρ)) : ∃ r, s[n]? = some r ∧ r ≤ ρ := by
  induction s generalizing n with
  | nil => simp at h
  | cons y s ih =>
    rw [List.pairwise_cons] at hs
    have hy : y ≤ ρ := by
      by_contra hy
      rw [List.countP_eq_zero.2] at h
      · omega
      · intro z hz
        have : y ≤ z := by
          rcases List.mem_cons.1 hz with rfl | hz
          · exact le_refl _
          · exact hs.1 z hz
        simpa using lt_of_lt_of_le (not_le.1 hy) this
    cases n with
    | zero => exact ⟨y, rfl, hy⟩
    | succ n =>
      rw [List.countP_cons_of_pos (by simpa using hy)] at h
      obtain ⟨r, h1, h2⟩ := ih hs.2 (n := n) (by omega)
      exact ⟨r, by simpa using h1, h2⟩

/-- If at least `m` measurements have distance at most `ρ` from a wind, a `ScalingBall` holding `m` points is there a ball
of a radius of at most `ρ` containing a measurement. -/
theorem scalingBall_radius (norm : K × K → K) {m : Nat} (hm0 : 0 < m)
    (interpolate : List (Pt K × K) → K × K → Except PyErr K) {points : List (Pt K × K)} {g : K × K} {ρ : K}
    (hne : m ≤ points.countP fun p => decide (norm (p.1.1 - g) ≤ ρ)) :
    ∃ r ≤ ρ, (∃ p ∈ points, norm (p.1.1 - g) ≤ r) ∧
      interpolatePointMask (Nbh.scalingBall norm m) interpolate points g =
        interpolatePoint (fun x => decide (norm x ≤ r)) interpolate points g := by
  set d : Pt K × K → K := fun p => norm (p.1.1 - g) with hd
  have hlen : points.length ≠ 0 := by
    have := List.countP_le_length (p := fun p => decide (norm (p.1.1 - g) ≤ ρ)) (l := points)
    omega
  have hmap : (points.map fun p => p.1.1 - g).map norm = points.map d := by simp [hd, Function.comp_def]
  obtain ⟨r, h1, h2⟩ := getElem?_le_of_count (s := (points.map d).insertionSort (· ≤ ·)) (ρ := ρ) (n := m - 1)
    (List.pairwise_insertionSort _ _) (by
      rw [(List.perm_insertionSort _ _).countP_eq, List.countP_map]
      have : ((fun y => decide (y ≤ ρ)) ∘ d) = fun p : Pt K × K => decide (norm (p.1.1 - g) ≤ ρ) := rfl
      rw [this]
      omega)
  have hmem : r ∈ points.map d := (List.perm_insertionSort _ _).subset (List.mem_of_getElem? h1)
  have hpy : pyIndex ((points.map d).insertionSort (· ≤ ·)) ((m : Int) - 1) = some r := by
    have h0 : (0 : Int) ≤ (m : Int) - 1 := by omega
    have h1' : ((m : Int) - 1).toNat = m - 1 := by omega
    simp only [pyIndex, h0, if_true, h1', h1]
  obtain ⟨p, hp, hpr⟩ := List.mem_map.1 hmem
  refine ⟨r, h2, ⟨p, hp, hpr.le⟩, ?_⟩
  apply interpolatePointMask_eq
  have hl' : ¬ (points.map fun p => p.1.1 - g).length = 0 := by simpa using hlen
  simp only [Nbh.scalingBall, hl', if_false, hmap, hpy, List.map_map]
  rfl

/-- **C140.** With a `ScalingBall` holding `m` points: if at least `m` measurements have distance at most `ρ` from a wind,
the error there is at most `L ρ + δ`. So the errors go down to those of the measurements as the data get dense. -/
theorem C140_scaling_ball (norm : K × K → K) {m : Nat} (hm0 : 0 < m)
    {interpolate : List (Pt K × K) → K × K → Except PyErr K} (hi : Between interpolate) {f : K × K → K} {L δ ρ : K}
    (hL : 0 ≤ L) (hf : Lip norm L f) {points : List (Pt K × K)} (hm : Measures f δ points) {g : K × K}
    (hne : m ≤ points.countP fun p => decide (norm (p.1.1 - g) ≤ ρ)) {x : K}
    (hx : interpolatePointMask (Nbh.scalingBall norm m) interpolate points g = .ok (g, x)) : |x - f g| ≤ L * ρ + δ := by
  obtain ⟨r, h2, hex, key⟩ := scalingBall_radius norm hm0 interpolate hne
  rw [key] at hx
  refine C140_value hi hm (by simpa using hex) (fun p _ hp => ?_) hx
  exact (hf _ _).trans (mul_le_mul_of_nonneg_left ((by simpa using hp : norm (p.1.1 - g) ≤ r).trans h2) hL)

/-- **C140.** For any true speeds which are continuous at a wind `g`: given `ε`, if at least `m` measurements are near enough
to `g`, the error there is at most `ε` plus the error of the measurements. -/
theorem C140_limit (norm : K × K → K) {m : Nat} (hm0 : 0 < m)
    {interpolate : List (Pt K × K) → K × K → Except PyErr K} (hi : Between interpolate) {f : K × K → K} {g : K × K}
    (hf : ∀ ε > 0, ∃ ρ > 0, ∀ u, norm (u - g) ≤ ρ → |f u - f g| ≤ ε) {ε : K} (hε : 0 < ε) :
    ∃ ρ > 0, ∀ (δ : K) (points : List (Pt K × K)), Measures f δ points →
      m ≤ points.countP (fun p => decide (norm (p.1.1 - g) ≤ ρ)) →
      ∀ x, interpolatePointMask (Nbh.scalingBall norm m) interpolate points g = .ok (g, x) → |x - f g| ≤ ε + δ := by
  obtain ⟨ρ, hρ, hc⟩ := hf ε hε
  refine ⟨ρ, hρ, fun δ points hm hne x hx => ?_⟩
  obtain ⟨r, h2, hex, key⟩ := scalingBall_radius norm hm0 interpolate hne
  rw [key] at hx
  exact C140_value hi hm (by simpa using hex) (fun p _ hp => hc _ ((by simpa using hp : norm (p.1.1 - g) ≤ r).trans h2)) hx

section Tables

variable [FloorRing K]

/-- **C140.** Tables made from measurements of `f`, with the default interpolator: every entry with a measurement in its
ball of radius `r` differs from the true speed by at most `L r + δ`, and the entries without any are 0. -/
theorem C140_table {norm : K × K → K} (hn : IsDist norm) {distr : K → K → K} (hd : ∀ d w, 0 < distr d w) {f : K × K → K}
    {L δ r : K} (hL : 0 ≤ L) (hf : Lip norm L f) {points : List (Pt K × K)} (hm : Measures f δ points)
    {ws wa : List K} (hws : ws ≠ []) (hwa : wa ≠ []) (h0 : ∀ w ∈ ws, 0 ≤ w) (hwsn : ws.Nodup)
    (hwan : (wa.map fun a => pmod a 360).Nodup) :
    ∃ t, tableProcess (.pair (.values ws) (.values wa)) (fun x => decide (norm x ≤ r)) (meanOf norm 1 distr) points = .ok t ∧
      ∀ w ∈ ws, ∀ a ∈ wa,
        ((∃ p ∈ points, norm (p.1.1 - (w, pmod a 360)) ≤ r) →
          ∃ x, t.get w (pmod a 360) = .ok x ∧ |x - f (w, pmod a 360)| ≤ L * r + δ) ∧
        ((∀ p ∈ points, r < norm (p.1.1 - (w, pmod a 360))) → t.get w (pmod a 360) = .ok 0) := by
  obtain ⟨hb, hs⟩ := C140_mean hn hd
  set nbh : K × K → Bool := fun x => decide (norm x ≤ r) with hnbh
  have hv : ∀ g : K × K, ∃ x, IsValue nbh (meanOf norm 1 distr) points g x := by
    intro g
    by_cases he : ∃ p ∈ points, nbh (p.1.1 - g) = true
    · obtain ⟨p, hp, hpn⟩ := he
      obtain ⟨x, hx⟩ := hs (points.filter fun p => nbh (p.1.1 - g)) g
        (List.ne_nil_of_mem (List.mem_filter.2 ⟨hp, hpn⟩))
      refine ⟨x, fun h => ?_, fun _ => hx⟩
      rw [h p hp] at hpn
      exact absurd hpn (by simp)
    · exact ⟨0, fun _ => rfl, fun h => absurd h he⟩
  choose v hv using hv
  obtain ⟨t, t1, -, -, t2⟩ := C82_given hws hwa h0 hwsn hwan (v := v) fun w _ a _ => hv (w, pmod a 360)
  refine ⟨t, t1, fun w hw a ha => ⟨fun he => ⟨_, t2 w hw a ha, ?_⟩, fun he => ?_⟩⟩
  · refine C140_value hb hm (by simpa [hnbh] using he) (fun p _ hp => ?_) (interpolatePoint_eq (hv _))
    exact (hf _ _).trans (mul_le_mul_of_nonneg_left (by simpa [hnbh] using hp) hL)
  · rw [t2 w hw a ha, (hv (w, pmod a 360)).1 fun p hp => by simpa [hnbh] using he p hp]

end Tables

theorem isDist_max : IsDist (K := ℚ) (fun x => max |x.1| |x.2|) := by
  refine ⟨fun x => le_max_of_le_left (abs_nonneg _), fun x => ⟨fun h => ?_, fun h => by simp [h]⟩⟩
  have h1 : |x.1| ≤ 0 := by rw [← h]; exact le_max_left _ _
  have h2 : |x.2| ≤ 0 := by rw [← h]; exact le_max_right _ _
  exact Prod.ext (abs_nonpos_iff.1 h1) (abs_nonpos_iff.1 h2)

/-- Measurements for the example. -/
def samplePoints : List (Pt ℚ × ℚ) := [(((10, 90), 51 / 10), 1), (((12, 90), 59 / 10), 1), (((20, 90), 10), 1)]

/-- The value obtained from them. -/
def idwSample : ℚ := 11 / 2

/-- Two measurements of `f(ws, wa) = ws / 2`, which changes by at most half the distance, near the wind (11, 90). -/
example : |idwSample - 11 / 2| ≤ 1 / 2 * 1 + 1 / 10 :=
  C140_scaling_ball (fun x : ℚ × ℚ => max |x.1| |x.2|) (m := 2) (by norm_num) (C140_idw isDist_max 1).1
    (f := fun u => u.1 / 2) (L := 1 / 2) (δ := 1 / 10) (ρ := 1) (by norm_num)
    (fun u g => by
      have : u.1 / 2 - g.1 / 2 = 1 / 2 * (u - g).1 := by simp; ring
      simp only [this, abs_mul]
      rw [abs_of_pos (by norm_num : (0 : ℚ) < 1 / 2)]
      exact mul_le_mul_of_nonneg_left (le_max_left _ _) (by norm_num))
    (points := samplePoints) (by unfold Measures; decide +kernel) (g := (11, 90)) (by decide +kernel) (by decide +kernel)

/-- `ws / 2` changes by at most half the distance. -/
theorem lip_half : Lip (K := ℚ) (fun x => max |x.1| |x.2|) (1 / 2) (fun u => u.1 / 2) := fun u g => by
  have : u.1 / 2 - g.1 / 2 = 1 / 2 * (u - g).1 := by simp; ring
  simp only [this, abs_mul]
  rw [abs_of_pos (by norm_num : (0 : ℚ) < 1 / 2)]
  exact mul_le_mul_of_nonneg_left (le_max_left _ _) (by norm_num)

/-- The weighted mean of the same measurements stays between them, and so do the other two methods. -/
example : (∃ x, meanOf (K := ℚ) (fun x => max |x.1| |x.2|) 1 (fun d w => |d| + |w| + 1) samplePoints (11, 90) = .ok x) ∧
    Between (K := ℚ) (meanOf (fun x => max |x.1| |x.2|) 1 fun d w => |d| + |w| + 1) ∧
    Between (K := ℚ) (improvedOf fun x => max |x.1| |x.2|) :=
  ⟨(C140_mean isDist_max fun d w => by positivity).2 _ _ (by simp [samplePoints]), (C140_mean isDist_max fun d w => by positivity).1, C140_improved isDist_max⟩

/-- One neighbourhood fixed in advance: the two measurements at most 1 away from the wind (11, 90). -/
example : |idwSample - 11 / 2| ≤ 1 / 2 + 1 / 10 :=
  C140_value (C140_idw isDist_max 1).1 (f := fun u => u.1 / 2) (points := samplePoints) (by unfold Measures; decide +kernel)
    (nbh := fun x => decide (max |x.1| |x.2| ≤ 1)) (g := (11, 90)) (by decide +kernel) (by decide +kernel) (by decide +kernel)

/-- With two measurements near enough the value comes as near to the truth as is wanted. -/
example : ∃ ρ > 0, ∀ (δ : ℚ) (points : List (Pt ℚ × ℚ)), Measures (fun u => u.1 / 2) δ points →
    2 ≤ points.countP (fun p => decide (max |(p.1.1 - ((11, 90) : ℚ × ℚ)).1| |(p.1.1 - ((11, 90) : ℚ × ℚ)).2| ≤ ρ)) →
    ∀ x, interpolatePointMask (Nbh.scalingBall (fun x => max |x.1| |x.2|) 2) (idwOf (fun x => max |x.1| |x.2|) 1) points (11, 90) =
      .ok ((11, 90), x) → |x - (11 : ℚ) / 2| ≤ 1 / 10 + δ :=
  C140_limit (fun x : ℚ × ℚ => max |x.1| |x.2|) (m := 2) (by norm_num) (C140_idw isDist_max 1).1 (f := fun u => u.1 / 2)
    (g := (11, 90)) (fun ε hε => ⟨ε, hε, fun u hu => (lip_half u (11, 90)).trans (by linarith)⟩) (by norm_num)

/-- A table of the winds 10 and 12 at 90 and 180 degrees from the same measurements. -/
example : ∃ t, tableProcess (.pair (.values [10, 12]) (.values [90, 180])) (fun x => decide (max |x.1| |x.2| ≤ 1))
      (meanOf (fun x => max |x.1| |x.2|) 1 fun d w => |d| + |w| + 1) samplePoints = .ok t ∧
    (∃ x : ℚ, t.get 10 (pmod 90 360) = .ok x ∧ |x - 10 / 2| ≤ 1 / 2 * 1 + 1 / 10) ∧ t.get 12 (pmod 180 360) = .ok 0 := by
  obtain ⟨t, h1, h2⟩ := C140_table isDist_max (distr := fun d w => |d| + |w| + 1) (fun d w => by positivity) (L := 1 / 2)
    (δ := 1 / 10) (r := 1) (by norm_num) lip_half (points := samplePoints) (by unfold Measures; decide +kernel)
    (ws := [10, 12]) (wa := [90, 180]) (by simp) (by simp) (by simp) (by decide +kernel) (by decide +kernel)
  exact ⟨t, h1, (h2 10 (by simp) 90 (by simp)).1 (by decide +kernel), (h2 12 (by simp) 180 (by simp)).2 (by decide +kernel)⟩

end Verif.Ext
