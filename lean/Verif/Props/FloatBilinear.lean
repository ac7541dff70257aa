import Verif.Model.FloatBilinear
import Verif.Props.FloatWeather
import Verif.Props.MeasurementErrors

/-!
# Property C157: bilinear interpolation in double precision
-/

set_option linter.unusedSectionVars false

namespace Verif.F64

open Verif.Interp (Pt BilErr SameWinds SameResult Slower Stored bsInGrid maxSmaller minBigger maxSmaller_cases
  minBigger_cases bsInGrid_related bsInGrid_stored maxSmaller_self minBigger_self)

variable {K : Type} [Field K] [LinearOrder K] [IsStrictOrderedRing K] [FloorRing K]

/-! ## Lemmas -/

theorem same_bind {ε : Type} {R S : K → K → Prop} {a b : Except ε K} (h : SameResult R a b) {f f' : K → Except ε K}
    (hf : ∀ x y, R x y → SameResult S (f x) (f' y)) : SameResult S (a >>= f) (b >>= f') := by
  cases a <;> cases b <;> simp only [SameResult] at h
  · subst h; exact rfl
  · exact hf _ _ h

theorem gridFactor_spec {x lo up : K} (h1 : lo < x) (h2 : x < up) :
    0 ≤ gridFactor x lo up ∧ gridFactor x lo up ≤ 1 ∧ 0 ≤ (x - lo) / (up - lo) ∧ (x - lo) / (up - lo) ≤ 1 ∧
      |gridFactor x lo up - (x - lo) / (up - lo)| ≤ 4 * u K := by
  have h := lamb_spec (x := -x) (y := -lo) (z := -up) (neg_lt_neg h2) (neg_lt_neg h1)
  have e1 : -x - -lo = -(x - lo) := by ring
  have e2 : -up - -lo = -(up - lo) := by ring
  have el : lamb (-x) (-up) (-lo) = gridFactor x lo up := by
    rw [lamb, gridFactor, e1, e2, fl_neg, fl_neg, neg_div_neg_eq]
  rwa [el, e1, e2, neg_div_neg_eq] at h

/-- The neighbouring grid values are the value itself or enclose it. -/
theorem enclosed {l : List K} {x lo up : K} (h1 : maxSmaller l x = .ok lo) (h2 : minBigger l x = .ok up) :
    (lo = x ∧ up = x) ∨ (lo < x ∧ x < up) := by
  rcases maxSmaller_cases l x with ⟨a, ha, hax, hamax, e1⟩ | ⟨-, e1⟩
  swap
  · rw [e1] at h1; simp at h1
  rcases minBigger_cases l x with ⟨b, hb, hbx, hbmin, e2⟩ | ⟨-, e2⟩
  swap
  · rw [e2] at h2; simp at h2
  rw [e1, Except.ok.injEq] at h1
  rw [e2, Except.ok.injEq] at h2
  subst h1 h2
  rcases eq_or_lt_of_le hax with rfl | h
  · exact .inl ⟨rfl, le_antisymm (hbmin _ ha le_rfl) hbx⟩
  · rcases eq_or_lt_of_le hbx with rfl | h'
    · exact absurd (hamax _ hb le_rfl) (not_le.2 h)
    · exact .inr ⟨h, h'⟩

/-- The calculated number is close to the exact one, which is bounded. -/
def CloseTo (E M : K) (y x : K) : Prop := |y - x| ≤ E ∧ |x| ≤ M

theorem gridMix_close {x lo up a b a' b' E M : K} (h1 : lo < x) (h2 : x < up) (ha : CloseTo E M a' a)
    (hb : CloseTo E M b' b) :
    CloseTo (E * (1 + 4 * u K) + 12 * u K * M) M (gridMix (gridFactor x lo up) a' b')
      ((1 - (x - lo) / (up - lo)) * a + (x - lo) / (up - lo) * b) := by
  obtain ⟨m0, m1, l0, l1, hm⟩ := gridFactor_spec h1 h2
  have := combine_step l0 l1 m0 m1 hm hb.2 ha.2 hb.1 ha.1
  rw [CloseTo, gridMix, add_comm (fl (fl (1 - _) * a')), add_comm ((1 - _) * a)]
  exact this

theorem gridMix_mono {x lo up a b a' b' : K} (h1 : lo < x) (h2 : x < up) (ha : a ≤ a') (hb : b ≤ b') :
    gridMix (gridFactor x lo up) a b ≤ gridMix (gridFactor x lo up) a' b' := by
  obtain ⟨m0, m1, -⟩ := gridFactor_spec h1 h2
  exact fl_mono (add_le_add (fl_mono (mul_le_mul_of_nonneg_left ha (fl_nonneg (by linarith))))
    (fl_mono (mul_le_mul_of_nonneg_left hb m0)))

theorem bsInGrid_bounded {pts : List (Pt K)} {M : K} (hM : ∀ p ∈ pts, |p.2| ≤ M) (x y : K) :
    SameResult (CloseTo 0 M) (bsInGrid pts x y) (bsInGrid pts x y) := by
  unfold bsInGrid
  cases h : pts.filter (fun p => decide (p.1.1 = x) && decide (p.1.2 = y)) with
  | nil => exact rfl
  | cons p l =>
    have : p ∈ pts := List.mem_of_mem_filter (h ▸ List.mem_cons_self)
    exact ⟨by simp, hM p this⟩

theorem convex1d_close {pts : List (Pt K)} {M : K} (hM0 : 0 ≤ M) (hM : ∀ p ∈ pts, |p.2| ≤ M) {x y lo up : K}
    (h : (lo = y ∧ up = y) ∨ (lo < y ∧ y < up)) :
    SameResult (CloseTo (12 * u K * M) M) (convex1d pts x y lo up) (Interp.convex1d pts x y lo up) := by
  unfold convex1d Interp.convex1d
  refine same_bind (bsInGrid_bounded hM _ _) fun zl zl' hl => same_bind (bsInGrid_bounded hM _ _) fun zu zu' hu => ?_
  rcases h with ⟨rfl, rfl⟩ | ⟨h1, h2⟩
  · simp only [if_true]
    have := mul_nonneg (mul_nonneg (by norm_num : (0 : K) ≤ 12) (u_pos (K := K)).le) hM0
    exact ⟨hl.1.trans this, hl.2⟩
  · simp only [(h1.trans h2).ne, if_false]
    have := gridMix_close h1 h2 hl hu
    rw [zero_mul, zero_add] at this
    exact this

theorem bilinear_close {pts : List (Pt K)} {M : K} (hM0 : 0 ≤ M) (hM : ∀ p ∈ pts, |p.2| ≤ M) (g : K × K) :
    SameResult (CloseTo (25 * u K * M) M) (bilinear pts g) (Interp.bilinear pts g) := by
  unfold bilinear Interp.bilinear
  cases e1 : maxSmaller (pts.map fun p : Pt K => p.1.1) g.1 with
  | error e => exact rfl
  | ok a =>
  cases e2 : minBigger (pts.map fun p : Pt K => p.1.1) g.1 with
  | error e => exact rfl
  | ok b =>
  cases e3 : maxSmaller (pts.map fun p : Pt K => p.1.2) g.2 with
  | error e => exact rfl
  | ok c =>
  cases e4 : minBigger (pts.map fun p : Pt K => p.1.2) g.2 with
  | error e => exact rfl
  | ok d =>
  have hcd := enclosed e3 e4
  have hu := u_pos (K := K)
  have hu' := u_tiny (K := K)
  refine same_bind (convex1d_close hM0 hM hcd) fun zl zl' hl => same_bind (convex1d_close hM0 hM hcd)
    fun zu zu' hu => ?_
  rcases enclosed e1 e2 with ⟨rfl, rfl⟩ | ⟨h1, h2⟩
  · simp only [if_true]
    have : 12 * u K * M ≤ 25 * u K * M := by
      have : 0 ≤ u K * M := by positivity
      nlinarith
    exact ⟨hl.1.trans this, hl.2⟩
  · simp only [(h1.trans h2).ne', if_false]
    have := gridMix_close h1 h2 hl hu
    refine ⟨this.1.trans ?_, this.2⟩
    have h0 : 0 ≤ u K * M := by positivity
    have e : 12 * u K * M * (1 + 4 * u K) + 12 * u K * M = (24 + 48 * u K) * (u K * M) := by ring
    rw [e]
    have e' : 25 * u K * M = 25 * (u K * M) := by ring
    rw [e']
    exact mul_le_mul_of_nonneg_right (by linarith) h0

theorem convex1d_mono {pts pts' : List (Pt K)} (hs : SameWinds (· ≤ ·) pts pts') {x y lo up : K}
    (h : (lo = y ∧ up = y) ∨ (lo < y ∧ y < up)) :
    SameResult (· ≤ ·) (convex1d pts x y lo up) (convex1d pts' x y lo up) := by
  unfold convex1d
  refine same_bind (bsInGrid_related hs _ _) fun zl zl' hl => same_bind (bsInGrid_related hs _ _) fun zu zu' hu => ?_
  rcases h with ⟨rfl, rfl⟩ | ⟨h1, h2⟩
  · simp only [if_true]
    exact hl
  · simp only [(h1.trans h2).ne, if_false]
    exact gridMix_mono h1 h2 hl hu

theorem bilinear_mono {pts pts' : List (Pt K)} (hs : SameWinds (· ≤ ·) pts pts') (g : K × K) :
    SameResult (· ≤ ·) (bilinear pts g) (bilinear pts' g) := by
  have f1 : (pts'.map fun p : Pt K => p.1.1) = pts.map fun p : Pt K => p.1.1 := by
    have := congrArg (List.map Prod.fst) hs.winds.symm
    simpa only [List.map_map, Function.comp_def] using this
  have f2 : (pts'.map fun p : Pt K => p.1.2) = pts.map fun p : Pt K => p.1.2 := by
    have := congrArg (List.map Prod.snd) hs.winds.symm
    simpa only [List.map_map, Function.comp_def] using this
  unfold bilinear
  rw [f1, f2]
  cases e1 : maxSmaller (pts.map fun p : Pt K => p.1.1) g.1 with
  | error e => exact rfl
  | ok a =>
  cases e2 : minBigger (pts.map fun p : Pt K => p.1.1) g.1 with
  | error e => exact rfl
  | ok b =>
  cases e3 : maxSmaller (pts.map fun p : Pt K => p.1.2) g.2 with
  | error e => exact rfl
  | ok c =>
  cases e4 : minBigger (pts.map fun p : Pt K => p.1.2) g.2 with
  | error e => exact rfl
  | ok d =>
  have hcd := enclosed e3 e4
  refine same_bind (convex1d_mono hs hcd) fun zl zl' hl => same_bind (convex1d_mono hs hcd) fun zu zu' hu => ?_
  rcases enclosed e1 e2 with ⟨rfl, rfl⟩ | ⟨h1, h2⟩
  · simp only [if_true]
    exact hl
  · simp only [(h1.trans h2).ne', if_false]
    exact gridMix_mono h1 h2 hl hu

/-- The exact value is between bounds of all speeds. -/
theorem exact_range {pts : List (Pt K)} {lo hi : K} (h : ∀ p ∈ pts, lo ≤ p.2 ∧ p.2 ≤ hi) {g : K × K} {x : K}
    (hx : Interp.bilinear pts g = .ok x) : lo ≤ x ∧ x ≤ hi := by
  have hc : ∀ b : K, Interp.bilinear (pts.map fun q => (q.1, 0 * q.2 + b)) g = .ok b := by
    intro b
    rw [Interp.C120_units_bilinear, hx]
    simp [Except.map]
  constructor
  · have hs : Slower (pts.map fun q => (q.1, 0 * q.2 + lo)) pts := by
      rw [Slower, List.forall₂_map_left_iff, List.forall₂_same]
      exact fun p hp => ⟨rfl, by simpa using (h p hp).1⟩
    obtain ⟨y, hy, hle⟩ := Interp.C130_bilinear_faster hs g (hc lo)
    rw [hx, Except.ok.injEq] at hy
    rwa [hy]
  · have hs : Slower pts (pts.map fun q => (q.1, 0 * q.2 + hi)) := by
      rw [Slower, List.forall₂_map_right_iff, List.forall₂_same]
      exact fun p hp => ⟨rfl, by simpa using (h p hp).2⟩
    obtain ⟨y, hy, hle⟩ := Interp.C130_bilinear_faster hs g hx
    rw [hc, Except.ok.injEq] at hy
    rwa [hy]

/-! ## The theorems -/

/-- **C157.** The calculation raises an exception exactly if the grid does not contain the wind or one of the corners of
its cell, and then the same exception as exact arithmetic would: no rounding error and no division lets it fail. -/
theorem C157_raises (pts : List (Pt K)) (g : K × K) (e : BilErr) :
    bilinear pts g = .error e ↔ Interp.bilinear pts g = .error e := by
  obtain ⟨M, hM0, hM⟩ : ∃ M : K, 0 ≤ M ∧ ∀ p ∈ pts, |p.2| ≤ M := by
    induction pts with
    | nil => exact ⟨0, le_rfl, by simp⟩
    | cons p l ih =>
      obtain ⟨M, h0, h⟩ := ih
      exact ⟨max M |p.2|, le_max_of_le_left h0, by
        simp only [List.mem_cons, forall_eq_or_imp]
        exact ⟨le_max_right _ _, fun q hq => (h q hq).trans (le_max_left _ _)⟩⟩
  have := bilinear_close hM0 hM g
  cases h1 : bilinear pts g <;> cases h2 : Interp.bilinear pts g <;> rw [h1, h2] at this <;>
    simp only [SameResult] at this <;> simp [this]

/-- **C157.** The calculated speed differs from the exact bilinear interpolant by at most `25 · 2⁻⁵³` times the largest
speed. -/
theorem C157_error {pts : List (Pt K)} {M : K} (hM : ∀ p ∈ pts, |p.2| ≤ M) {g : K × K} {y : K}
    (hy : bilinear pts g = .ok y) : ∃ x, Interp.bilinear pts g = .ok x ∧ |y - x| ≤ 25 * 2 ^ (-53 : ℤ) * M := by
  have hM0 : 0 ≤ M := by
    cases pts with
    | nil => simp [bilinear, maxSmaller, bind, Except.bind] at hy
    | cons p l => exact (abs_nonneg _).trans (hM p (List.mem_cons_self ..))
  have := bilinear_close hM0 hM g
  rw [hy] at this
  cases h2 : Interp.bilinear pts g with
  | error e => rw [h2] at this; exact this.elim
  | ok x => rw [h2] at this; exact ⟨x, rfl, this.1⟩

/-- **C157.** At the winds of the grid the stored speeds are returned, without any error. -/
theorem C157_stored {pts : List (Pt K)} {x y z : K} (h : Stored pts x y z) : bilinear pts (x, y) = .ok z := by
  have e1 := maxSmaller_self h.mem_ws
  have e2 := minBigger_self h.mem_ws
  have e3 := maxSmaller_self h.mem_wa
  have e4 := minBigger_self h.mem_wa
  simp only [Interp.wsOf, Interp.waOf] at e1 e2 e3 e4
  simp [bilinear, e1, e2, e3, e4, convex1d, bsInGrid_stored h, pure, Except.pure, bind, Except.bind]

/-- **C157.** Faster speeds never make a calculated speed slower, in spite of the rounding. -/
theorem C157_faster {pts pts' : List (Pt K)} (h : Slower pts pts') (g : K × K) {x : K} (hx : bilinear pts g = .ok x) :
    ∃ y, bilinear pts' g = .ok y ∧ x ≤ y := (bilinear_mono h g).ok.1 x hx

/-- **C157.** From speeds which are not negative no negative speed is calculated. -/
theorem C157_nonneg {pts : List (Pt K)} (h : ∀ p ∈ pts, 0 ≤ p.2) {g : K × K} {y : K} (hy : bilinear pts g = .ok y) :
    0 ≤ y := by
  have hs : Slower (pts.map fun q => (q.1, (0 : K))) pts := by
    rw [Slower, List.forall₂_map_left_iff, List.forall₂_same]
    exact fun p hp => ⟨rfl, h p hp⟩
  have hm := bilinear_mono hs g
  rw [hy] at hm
  cases hz : bilinear (pts.map fun q => (q.1, (0 : K))) g with
  | error e => rw [hz] at hm; exact hm.elim
  | ok z =>
    rw [hz] at hm
    have h0 : ∀ p ∈ pts.map fun q => (q.1, (0 : K)), p.2 = 0 := by
      intro p hp
      obtain ⟨q, -, rfl⟩ := List.mem_map.1 hp
      rfl
    obtain ⟨x, hx, he⟩ := C157_error (M := 0) (fun p hp => by rw [h0 p hp, abs_zero]) hz
    have hx0 := exact_range (lo := 0) (hi := 0) (fun p hp => by rw [h0 p hp]; exact ⟨le_rfl, le_rfl⟩) hx
    have : z = 0 := by
      have e : x = 0 := le_antisymm hx0.2 hx0.1
      rw [e, mul_zero, sub_zero] at he
      exact abs_eq_zero.1 (le_antisymm he (abs_nonneg _))
    rw [this] at hm
    exact hm

/-- **C157.** The range of the speeds is left by at most `25 · 2⁻⁵³` times the largest speed. -/
theorem C157_range {pts : List (Pt K)} {lo hi M : K} (h : ∀ p ∈ pts, lo ≤ p.2 ∧ p.2 ≤ hi) (hM : ∀ p ∈ pts, |p.2| ≤ M)
    {g : K × K} {y : K} (hy : bilinear pts g = .ok y) :
    lo - 25 * 2 ^ (-53 : ℤ) * M ≤ y ∧ y ≤ hi + 25 * 2 ^ (-53 : ℤ) * M := by
  obtain ⟨x, hx, he⟩ := C157_error hM hy
  obtain ⟨h1, h2⟩ := exact_range h hx
  obtain ⟨h3, h4⟩ := abs_le.1 he
  generalize 25 * 2 ^ (-53 : ℤ) * M = c at *
  exact ⟨by linarith, by linarith⟩

/-- **C157.** Some tolerance is needed: with 3 knots at all winds of the table the boat calculated in between sails
`3.0000000000000004` knots. -/
theorem C157_outside :
    let pts : List (Pt ℚ) := [((5, 40), 3), ((5, 80), 3), ((10, 40), 3), ((10, 80), 3)]
    (∀ p ∈ pts, p.2 = 3) ∧ bilinear pts (6, 40) = .ok (3 + 1 / 2 ^ 51) := by
  decide +kernel

example : bilinear ([((0, 0), 1), ((0, 2), 2), ((4, 0), 3), ((4, 2), 8)] : List (Pt ℚ)) (1, 1) = .ok (5 / 2) := by
  decide +kernel

example : ∃ y, bilinear ([((5, 40), 3), ((5, 80), 4), ((10, 40), 5), ((10, 80), 7)] : List (Pt ℚ)) (6, 50) = .ok y ∧
    y ≠ 37 / 10 ∧ |y - 37 / 10| ≤ 1 / 2 ^ 48 := by
  refine ⟨_, rfl, ?_⟩
  decide +kernel

example : bilinear ([((5, 40), 3), ((5, 80), 4), ((10, 40), 5)] : List (Pt ℚ)) (6, 50) = .error .noGrid := by
  decide +kernel

end Verif.F64
