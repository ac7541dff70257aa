import Verif.Model.FloatImproved
import Verif.Props.FloatIdw
import Verif.Props.FloatText

/-!
# Property C192: improved inverse distance weighting in double precision
-/

set_option linter.unusedSectionVars false

namespace Verif.F64

open Verif.Interp

section

variable {K : Type} [Field K] [LinearOrder K] [IsStrictOrderedRing K] [FloorRing K]

/-- The largest double below a positive double `r` is at most `(1 - 2^-53) r`. -/
theorem double_below {d r : K} (hd : 0 < d) (hdr : d < r) (h1 : fl d = d) (h2 : fl r = r) : d ≤ (1 - u K) * r := by
  obtain ⟨m, k, rfl, m1, m2⟩ := Verif.FloatText.double_form (hd.trans hdr) h2
  obtain ⟨n, j, rfl, n1, n2⟩ := Verif.FloatText.double_form hd h1
  have hk := two_zpow_pos (K := K) k
  have hj := two_zpow_pos (K := K) j
  have m1' : (2 ^ 52 : K) ≤ m := by exact_mod_cast m1
  have m2' : (m : K) ≤ 2 ^ 53 - 1 := by exact_mod_cast m2
  have n1' : (2 ^ 52 : K) ≤ n := by exact_mod_cast n1
  have n2' : (n : K) ≤ 2 ^ 53 - 1 := by exact_mod_cast n2
  have hu : u K = 1 / 2 ^ 53 := by unfold u; norm_num
  rcases lt_trichotomy j k with h | h | h
  · have h3 : (2 : K) ^ j ≤ 2 ^ (k - 1) := zpow_le_zpow_right₀ (by norm_num) (by omega)
    have h4 : (2 : K) ^ k = 2 ^ (k - 1) * 2 := by
      rw [← zpow_add_one₀ (by norm_num : (2 : K) ≠ 0)]
      congr 1
      ring
    have h5 : (n : K) * 2 ^ j ≤ (2 ^ 53 - 1) * 2 ^ (k - 1) :=
      mul_le_mul n2' h3 hj.le (by norm_num)
    have h6 : (2 ^ 52 : K) * 2 ^ k ≤ m * 2 ^ k := mul_le_mul_of_nonneg_right m1' hk.le
    have h7 : (1 - u K) * (2 ^ 52 * 2 ^ k) ≤ (1 - u K) * (m * 2 ^ k) :=
      mul_le_mul_of_nonneg_left h6 (by rw [hu]; norm_num)
    refine le_trans (h5.trans (le_of_eq ?_)) h7
    rw [h4, hu]
    ring
  · subst h
    have h3 : (n : K) < m := lt_of_mul_lt_mul_right hdr hj.le
    have h4 : n + 1 ≤ m := Int.cast_lt.1 h3
    have h5 : (n : K) + 1 ≤ m := by exact_mod_cast h4
    have h6 : (n : K) ≤ (1 - u K) * m := by
      rw [hu]
      linarith
    calc (n : K) * 2 ^ j ≤ (1 - u K) * m * 2 ^ j := mul_le_mul_of_nonneg_right h6 hj.le
      _ = _ := by ring
  · exfalso
    have h3 : (2 : K) ^ (k + 1) ≤ 2 ^ j := zpow_le_zpow_right₀ (by norm_num) (by omega)
    rw [zpow_add_one₀ (by norm_num : (2 : K) ≠ 0)] at h3
    have h5 : (m : K) * 2 ^ k ≤ (2 ^ 53 - 1) * 2 ^ k := mul_le_mul_of_nonneg_right m2' hk.le
    have h6 : (2 ^ 52 : K) * (2 ^ k * 2) ≤ n * 2 ^ j := mul_le_mul n1' h3 (by positivity) (le_trans (by norm_num) n1')
    linarith

/-- Quotients of different doubles are not rounded to one. -/
theorem fl_div_lt {d r : K} (hd : 0 < d) (hdr : d < r) (h1 : fl d = d) (h2 : fl r = r) : fl (d / r) < 1 := by
  have hr : 0 < r := hd.trans hdr
  have h3 : d / r ≤ 1 - u K := (div_le_iff₀ hr).2 (double_below hd hdr h1 h2)
  have h4 : fl (1 - u K) = 1 - u K := by
    have := fl_exact (K := K) (m := 2 ^ 53 - 1) (k := -53) (by norm_num)
    have e : ((2 ^ 53 - 1 : ℤ) : K) * 2 ^ (-53 : ℤ) = 1 - u K := by
      unfold u
      norm_num
    rwa [e] at this
  have h5 := fl_mono h3
  rw [h4] at h5
  have := u_pos (K := K)
  linarith

theorem square_nonneg (x : K) : 0 ≤ square x := fl_nonneg (mul_self_nonneg x)

theorem square_eq_zero {x : K} : square x = 0 ↔ x = 0 := by simp [square, fl_eq_zero]

theorem fl_four_pos {r : K} (hr : 0 < r) : 0 < fl (27 / fl (4 * r)) := fl_pos (div_pos (by norm_num) (fl_pos (by linarith)))

/-- The weights vanish exactly for the points that are farthest away. -/
theorem setWeight_eq_zero {r d : K} (hd : 0 < d) (hdr : d ≤ r) (h1 : fl d = d) (h2 : fl r = r) :
    setWeight r d = 0 ↔ d = r := by
  have hr : 0 < r := lt_of_lt_of_le hd hdr
  have h3 : fl (r / 3) < r := by
    have h4 := fl_upper (K := K) (x := r / 3) (by positivity)
    have h5 := u_tiny (K := K)
    have h6 : u K * (r / 3) ≤ 1 / 4 * (r / 3) := mul_le_mul_of_nonneg_right (by linarith [u_small (K := K)]) (by positivity)
    rw [add_mul, one_mul] at h4
    linarith
  unfold setWeight
  constructor
  · intro h
    by_contra hne
    have hlt : d < r := lt_of_le_of_ne hdr hne
    by_cases hc : d ≤ fl (r / 3)
    · rw [if_pos ⟨hd, hc⟩, fl_eq_zero] at h
      exact absurd h (by positivity)
    · rw [if_neg (by tauto), if_pos ⟨not_le.1 hc, hdr⟩, fl_eq_zero, mul_eq_zero, square_eq_zero] at h
      rcases h with h | h
      · exact (fl_four_pos hr).ne' h
      · rw [fl_eq_zero] at h
        exact absurd (fl_div_lt hd hlt h1 h2) (by linarith)
  · rintro rfl
    rw [if_neg (by rintro ⟨-, h⟩; linarith), if_pos ⟨h3, le_rfl⟩, div_self hr.ne', fl_one, sub_self, fl_zero,
      square_eq_zero.2 rfl, mul_zero, fl_zero]

/-- A calculated sum of numbers which are not negative is zero exactly if all of them are. -/
theorem Summed.eq_zero {l : List K} {s : K} (h : Summed l s) (h0 : ∀ x ∈ l, 0 ≤ x) : 0 ≤ s ∧ (s = 0 ↔ ∀ x ∈ l, x = 0) := by
  induction h with
  | one x => exact ⟨h0 x (by simp), by simp⟩
  | perm hp _ ih =>
    obtain ⟨i1, i2⟩ := ih fun x hx => h0 x (hp.mem_iff.1 hx)
    exact ⟨i1, i2.trans ⟨fun h x hx => h x (hp.mem_iff.2 hx), fun h x hx => h x (hp.mem_iff.1 hx)⟩⟩
  | @add l m a b _ _ i1 i2 =>
    obtain ⟨a1, a2⟩ := i1 fun x hx => h0 x (List.mem_append_left _ hx)
    obtain ⟨b1, b2⟩ := i2 fun x hx => h0 x (List.mem_append_right _ hx)
    refine ⟨fl_nonneg (add_nonneg a1 b1), ?_⟩
    rw [fl_eq_zero, add_eq_zero_iff_of_nonneg a1 b1, a2, b2]
    simp only [List.mem_append]
    exact ⟨fun h x hx => hx.elim (h.1 x) (h.2 x), fun h => ⟨fun x hx => h x (.inl hx), fun x hx => h x (.inr hx)⟩⟩

theorem Summed.some {l : List K} (h : l ≠ []) : ∃ s, Summed l s := by
  induction l with
  | nil => exact absurd rfl h
  | cons a l ih =>
    by_cases hl : l = []
    · subst hl
      exact ⟨_, .one a⟩
    · obtain ⟨s, hs⟩ := ih hl
      exact ⟨_, .add (.one a) hs⟩

/-- What is calculated away from the measured winds. -/
theorem improved_away {norm : K × K → K} (hn : IsDist norm) {pts : List (Pt K)} (hp : pts ≠ []) {g : K × K}
    (h : NotStored pts g) : ∃ q ∈ pts, (∀ p ∈ pts, rdist norm (p.1 - g) ≤ rdist norm (q.1 - g)) ∧ ∀ r,
      (Improved norm pts g r ↔
        ∃ s, Summed (((dists (rdist norm) pts g).map (setWeight (rdist norm (q.1 - g)))).map square) s ∧
          if s = 0 then r = .ok none
          else ∃ y, Dotted ((((dists (rdist norm) pts g).map (setWeight (rdist norm (q.1 - g)))).map fun w =>
            fl (square w / s)).zip (pts.map Prod.snd)) y ∧ r = .ok (some y)) := by
  obtain ⟨a, l, rfl⟩ := List.exists_cons_of_ne_nil hp
  have hd : dists (rdist norm) (a :: l) g = rdist norm (a.1 - g) :: dists (rdist norm) l g := rfl
  have hm := maxOf_mem (rdist norm (a.1 - g)) (dists (rdist norm) l g)
  have hle := le_maxOf (rdist norm (a.1 - g)) (dists (rdist norm) l g)
  rw [← hd] at hm hle
  obtain ⟨q, hq, he⟩ := List.mem_map.1 hm
  refine ⟨q, hq, fun p hpm => ?_, fun r => ?_⟩
  · have := hle _ (List.mem_map.2 ⟨p, hpm, rfl⟩)
    rwa [← he] at this
  · have he' : rdist norm (q.1 - g) = maxOf (rdist norm (a.1 - g)) (dists (rdist norm) l g) := he
    rw [he']
    unfold Improved
    rw [firstAtZero_notStored (rdist_isDist hn) h, hd]
    rfl

/-- **C192.** Without measurements a `ValueError` is raised; otherwise there is a result. -/
theorem C192_defined (norm : K × K → K) (pts : List (Pt K)) (g : K × K) :
    (pts = [] → ∀ r, Improved norm pts g r ↔ r = .error .valueError) ∧
      (pts ≠ [] → ∃ v, Improved norm pts g (.ok v)) := by
  constructor
  · rintro rfl r
    simp [Improved, firstAtZero, setWeights, dists]
  · intro hp
    obtain ⟨a, l, rfl⟩ := List.exists_cons_of_ne_nil hp
    have hd : dists (rdist norm) (a :: l) g = rdist norm (a.1 - g) :: dists (rdist norm) l g := rfl
    unfold Improved
    split
    · exact ⟨_, rfl⟩
    · rw [hd]
      simp only [setWeights]
      rw [← hd]
      set wts := (dists (rdist norm) (a :: l) g).map (setWeight (maxOf (rdist norm (a.1 - g)) (dists (rdist norm) l g)))
      have hne : wts ≠ [] := by simp [wts, dists]
      obtain ⟨s, hs⟩ := Summed.some (l := wts.map square) (by simpa using hne)
      by_cases h0 : s = 0
      · exact ⟨none, s, hs, by rw [if_pos h0]⟩
      · obtain ⟨y, hy⟩ := Dotted.exists (l := (wts.map fun w => fl (square w / s)).zip ((a :: l).map Prod.snd))
          (by simp [wts, dists])
        exact ⟨some y, s, hs, by rw [if_neg h0]; exact ⟨y, hy, rfl⟩⟩

/-- **C192.** At a measured wind the measured speed is returned, exactly. -/
theorem C192_stored {norm : K × K → K} (hn : IsDist norm) {pts : List (Pt K)} {g : K × K} {v : K} (h : FirstStored pts g v)
    {r : Except PyErr (Option K)} : Improved norm pts g r ↔ r = .ok (some v) := by
  simp [Improved, firstAtZero_stored (rdist_isDist hn) h]

theorem improved_weights {norm : K × K → K} (hn : IsDist norm) (hf : ∀ x, fl (norm x) = norm x) {pts : List (Pt K)}
    {g : K × K} (h : NotStored pts g) {q : Pt K} (hq : ∀ p ∈ pts, rdist norm (p.1 - g) ≤ rdist norm (q.1 - g)) {s : K}
    (hs : Summed (((dists (rdist norm) pts g).map (setWeight (rdist norm (q.1 - g)))).map square) s) :
    0 ≤ s ∧ (s = 0 ↔ ∀ p ∈ pts, rdist norm (p.1 - g) = rdist norm (q.1 - g)) := by
  obtain ⟨h1, h2⟩ := hs.eq_zero (by
    intro x hx
    obtain ⟨y, -, rfl⟩ := List.mem_map.1 hx
    exact square_nonneg y)
  refine ⟨h1, h2.trans ?_⟩
  simp only [dists, List.map_map, List.mem_map, Function.comp_apply, forall_exists_index, and_imp,
    forall_apply_eq_imp_iff₂, square_eq_zero]
  refine forall_congr' fun p => forall_congr' fun hp => ?_
  exact setWeight_eq_zero (dist_pos (rdist_isDist hn) h p hp) (hq p hp) (hf _) (hf _)

/-- **C192.** Away from the measured winds the result is `nan` exactly if all calculated distances are equal, in whichever
order the weights are added. -/
theorem C192_nan {norm : K × K → K} (hn : IsDist norm) (hf : ∀ x, fl (norm x) = norm x) {pts : List (Pt K)} (hp : pts ≠ [])
    {g : K × K} (h : NotStored pts g) {r : Except PyErr (Option K)} (hr : Improved norm pts g r) :
    r = .ok none ↔ ∀ p ∈ pts, ∀ q ∈ pts, rdist norm (p.1 - g) = rdist norm (q.1 - g) := by
  obtain ⟨q, hq, hmax, he⟩ := improved_away hn hp h
  obtain ⟨s, hs, hr⟩ := (he r).1 hr
  obtain ⟨-, h0⟩ := improved_weights hn hf h hmax hs
  have e : (∀ p ∈ pts, rdist norm (p.1 - g) = rdist norm (q.1 - g)) ↔
      ∀ p ∈ pts, ∀ q ∈ pts, rdist norm (p.1 - g) = rdist norm (q.1 - g) :=
    ⟨fun h p hp q' hq' => (h p hp).trans (h q' hq').symm, fun h p hp => h p hp q hq⟩
  rw [← e, ← h0]
  by_cases hz : s = 0
  · rw [if_pos hz] at hr
    exact ⟨fun _ => hz, fun _ => hr⟩
  · rw [if_neg hz] at hr
    obtain ⟨y, -, rfl⟩ := hr
    simp [hz]

/-- **C192.** Otherwise the result is a number, and it leaves the range of the measured speeds by at most `14 n / 2^53` of the
largest of them. -/
theorem C192_range {norm : K × K → K} (hn : IsDist norm) (hf : ∀ x, fl (norm x) = norm x) {pts : List (Pt K)} {g : K × K}
    (h : NotStored pts g) {p q : Pt K} (hp : p ∈ pts) (hq : q ∈ pts) (hpq : rdist norm (p.1 - g) ≠ rdist norm (q.1 - g))
    {B : K} (hB : ∀ p ∈ pts, |p.2| ≤ B) (hlen : pts.length ≤ 2 ^ 49) {r : Except PyErr (Option K)}
    (hr : Improved norm pts g r) :
    ∃ y, r = .ok (some y) ∧ ∀ lo hi, (∀ p ∈ pts, lo ≤ p.2 ∧ p.2 ≤ hi) →
      lo - 14 * pts.length * u K * B ≤ y ∧ y ≤ hi + 14 * pts.length * u K * B := by
  have hne : pts ≠ [] := List.ne_nil_of_mem hp
  obtain ⟨m, hm, hmax, he⟩ := improved_away hn hne h
  obtain ⟨s, hs, hr⟩ := (he r).1 hr
  obtain ⟨hs0, h0⟩ := improved_weights hn hf h hmax hs
  have hz : s ≠ 0 := fun hz => hpq ((h0.1 hz p hp).trans (h0.1 hz q hq).symm)
  rw [if_neg hz] at hr
  obtain ⟨y, hy, rfl⟩ := hr
  set wts := (dists (rdist norm) pts g).map (setWeight (rdist norm (m.1 - g))) with hwts
  have hwl : (wts.map square).length = pts.length := by simp [hwts, dists]
  have hnn : ∀ x ∈ wts.map square, 0 ≤ x := by
    intro x hx
    obtain ⟨y, -, rfl⟩ := List.mem_map.1 hx
    exact square_nonneg y
  have hsum : 0 < (wts.map square).sum := by
    have h1 : ¬ ∀ x ∈ wts.map square, x = 0 := fun hc => hz ((hs.eq_zero hnn).2.2 hc)
    push Not at h1
    obtain ⟨x, hx, hx0⟩ := h1
    exact sum_pos_of_mem hnn hx (lt_of_le_of_ne (hnn x hx) (Ne.symm hx0))
  have hnear : Near 0 (wts.map square) (wts.map square) :=
    List.forall₂_same.2 fun x hx => ⟨hnn x hx, by simp⟩
  have hx' : normalisedDot (wts.map square) (pts.map Prod.snd) =
      some (dot (wts.map square) (pts.map Prod.snd) / (wts.map square).sum) := by
    simp only [normalisedDot, hsum.ne', if_false, dot_map_div]
  have hmean : IdwMean (wts.map square) (pts.map Prod.snd) y := by
    refine ⟨s, hs, ?_⟩
    rw [List.map_map]
    exact hy
  have herr := hmean.error (by rw [hwl, List.length_map]) (B := B) (by
    intro a ha
    obtain ⟨p, hpm, rfl⟩ := List.mem_map.1 ha
    exact hB p hpm) hnear le_rfl (by norm_num) (by rw [hwl]; exact hlen) hx'
  rw [hwl, mul_zero, zero_add] at herr
  refine ⟨y, rfl, fun lo hi hb => ?_⟩
  obtain ⟨b1, b2⟩ := mean_bounds (v := wts.map square) (w := pts.map Prod.snd) (by rw [hwl, List.length_map]) hnn hsum
    (lo := lo) (hi := hi)
    (by intro x hx; obtain ⟨q, hq, rfl⟩ := List.mem_map.1 hx; exact (hb q hq).1)
    (by intro x hx; obtain ⟨q, hq, rfl⟩ := List.mem_map.1 hx; exact (hb q hq).2)
  obtain ⟨c1, c2⟩ := abs_le.1 herr
  exact ⟨by linarith, by linarith⟩

end

/-- The maximum of the absolute values, rounded. -/
theorem isDist_flmax : IsDist fun x : ℚ × ℚ => fl (max |x.1| |x.2|) := by
  refine ⟨fun x => fl_nonneg (le_max_of_le_left (abs_nonneg _)), fun x => ?_⟩
  rw [fl_eq_zero]
  constructor
  · intro h
    have h1 := le_max_left |x.1| |x.2|
    have h2 := le_max_right |x.1| |x.2|
    rw [h] at h1 h2
    exact Prod.ext (abs_nonpos_iff.1 h1) (abs_nonpos_iff.1 h2)
  · rintro rfl
    simp

theorem isDist_flscaled : IsDist scaledEuclidean := by
  refine ⟨fun x => fl_nonneg (Real.sqrt_nonneg _), fun x => ?_⟩
  have h40 : fl (1 / 40 : ℝ) ≠ 0 := by rw [Ne, fl_eq_zero]; norm_num
  have h360 : fl (1 / 360 : ℝ) ≠ 0 := by rw [Ne, fl_eq_zero]; norm_num
  have hnn : ∀ a : ℝ, 0 ≤ fl (a * a) := fun a => fl_nonneg (mul_self_nonneg a)
  unfold scaledEuclidean
  simp only
  rw [fl_eq_zero, Real.sqrt_eq_zero (fl_nonneg (add_nonneg (hnn _) (hnn _))), fl_eq_zero,
    add_eq_zero_iff_of_nonneg (hnn _) (hnn _)]
  simp only [fl_eq_zero, mul_self_eq_zero, mul_eq_zero, h40, h360, false_or]
  exact ⟨fun h => Prod.ext h.1 h.2, fun h => by simp [h]⟩

/-- **C192.** With the default norm: `nan` exactly if all calculated distances are equal, otherwise a number in the range of
the measured speeds, up to the rounding of the sums. -/
theorem C192_default {pts : List (Pt ℝ)} (hp : pts ≠ []) {g : ℝ × ℝ} (h : NotStored pts g) {B : ℝ}
    (hB : ∀ p ∈ pts, |p.2| ≤ B) (hlen : pts.length ≤ 2 ^ 49) {r : Except PyErr (Option ℝ)}
    (hr : Improved scaledEuclidean pts g r) :
    ((∀ p ∈ pts, ∀ q ∈ pts, rdist scaledEuclidean (p.1 - g) = rdist scaledEuclidean (q.1 - g)) ∧ r = .ok none) ∨
    ∃ y, r = .ok (some y) ∧ ∀ lo hi, (∀ p ∈ pts, lo ≤ p.2 ∧ p.2 ≤ hi) →
      lo - 14 * pts.length * u ℝ * B ≤ y ∧ y ≤ hi + 14 * pts.length * u ℝ * B := by
  have hf : ∀ x, fl (scaledEuclidean x) = scaledEuclidean x := fun x => fl_fl _
  by_cases hc : ∀ p ∈ pts, ∀ q ∈ pts, rdist scaledEuclidean (p.1 - g) = rdist scaledEuclidean (q.1 - g)
  · exact .inl ⟨hc, (C192_nan isDist_flscaled hf hp h hr).2 hc⟩
  · push Not at hc
    obtain ⟨p, hp, q, hq, hpq⟩ := hc
    exact .inr (C192_range isDist_flscaled hf h hp hq hpq hB hlen hr)

/-- **C192.** The calculated distances matter: two points have different distances, so that the exact interpolation gives the
speed of the closer one, but the rounded distances are equal and the result is `nan`. -/
theorem C192_matters : improved (K := ℚ) (fun x => max |x.1| |x.2|) [((1 / 2 ^ 60, 0), 5), ((2, 0), 7)] (1, 0) = .ok (some 5) ∧
    ∀ r, Improved (K := ℚ) (fun x => fl (max |x.1| |x.2|)) [((1 / 2 ^ 60, 0), 5), ((2, 0), 7)] (1, 0) r → r = .ok none := by
  refine ⟨by decide +kernel, fun r hr => ?_⟩
  refine (C192_nan isDist_flmax (fun x => fl_fl _) (by simp) (by unfold NotStored; decide +kernel) hr).2 ?_
  decide +kernel

example : NotStored (K := ℚ) [((0, 0), 1), ((3, 0), 7)] (1, 0) ∧
    rdist (fun x : ℚ × ℚ => fl (max |x.1| |x.2|)) ((0, 0) - (1, 0)) ≠ rdist (fun x => fl (max |x.1| |x.2|)) ((3, 0) - (1, 0)) :=
  ⟨by unfold NotStored; decide +kernel, by decide +kernel⟩

/-- A result: the farthest point has no weight. -/
example : Improved (K := ℚ) (fun x => fl (max |x.1| |x.2|)) [((0, 0), 1), ((3, 0), 7)] (1, 0) (.ok (some 1)) := by
  have e1 : firstAtZero (rdist fun x : ℚ × ℚ => fl (max |x.1| |x.2|)) (1, 0) [((0, 0), 1), ((3, 0), 7)] = none := by
    decide +kernel
  have e2 : (setWeights (dists (rdist fun x : ℚ × ℚ => fl (max |x.1| |x.2|)) [((0, 0), 1), ((3, 0), 7)] (1, 0))).toOption =
      some [27 / 32, 0] := by
    decide +kernel
  have e3 : setWeights (dists (rdist fun x : ℚ × ℚ => fl (max |x.1| |x.2|)) [((0, 0), 1), ((3, 0), 7)] (1, 0)) =
      .ok [27 / 32, 0] := by
    revert e2
    generalize setWeights (dists (rdist fun x : ℚ × ℚ => fl (max |x.1| |x.2|)) [((0, 0), 1), ((3, 0), 7)] (1, 0)) = w
    cases w <;> simp [Except.toOption]
  unfold Improved
  rw [e1]
  simp only [e3]
  refine ⟨fl (square (27 / 32) + square 0), .add (.one _) (.one _), ?_⟩
  rw [if_neg (by decide +kernel)]
  exact ⟨_, .add (.one _) (.one _), by decide +kernel⟩

end Verif.F64
