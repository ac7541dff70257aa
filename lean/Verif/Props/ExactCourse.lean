import Verif.Props.Course

/-!
# C74: exactly when `_right_handing_course` returns the course
-/

namespace Verif.Course

/-- The square of the sine of the angle between two places is the sum of the squares of the components of the course. -/
theorem course_norm (p q d : ℝ) :
    (Real.cos p * Real.sin q - Real.sin p * Real.cos q * Real.cos d) ^ 2 + (Real.sin d * Real.cos q) ^ 2
      = 1 - (Real.cos d * Real.cos p * Real.cos q + Real.sin p * Real.sin q) ^ 2 := by
  have h1 := Real.sin_sq_add_cos_sq p
  have h2 := Real.sin_sq_add_cos_sq q
  have h3 := Real.sin_sq_add_cos_sq d
  have e1 : Real.sin d ^ 2 = 1 - Real.cos d ^ 2 := by linarith
  have e2 : Real.sin p ^ 2 = 1 - Real.cos p ^ 2 := by linarith
  have e3 : Real.sin q ^ 2 = 1 - Real.cos q ^ 2 := by linarith
  have : (Real.cos p * Real.sin q - Real.sin p * Real.cos q * Real.cos d) ^ 2 + (Real.sin d * Real.cos q) ^ 2
      + (Real.cos d * Real.cos p * Real.cos q + Real.sin p * Real.sin q) ^ 2
      = Real.sin q ^ 2 * (Real.sin p ^ 2 + Real.cos p ^ 2)
        + Real.cos q ^ 2 * (Real.sin d ^ 2 + Real.cos d ^ 2 * (Real.sin p ^ 2 + Real.cos p ^ 2)) := by ring
  rw [h1, mul_one, mul_one, h3, mul_one, h2] at this
  linarith

/-- **C74.** For places that are neither equal nor opposite, the course of `_right_handing_course` is the initial course of the
great circle exactly if the destination is not to the west, and the start is on the equator, or the destination at 45 degrees
north (or its opposite), or the two remaining cases in which the wrong term of the denominator has no effect: courses due east
with a denominator below 1, and denominators of opposite sign. -/
theorem C74_course_exactly (a b : ℝ × ℝ)
    (h : (Real.cos (b.1 - a.1) * Real.cos a.2 * Real.cos b.2 + Real.sin a.2 * Real.sin b.2) ^ 2 < 1) :
    rightHandingCourse a b = some (trueCourse a b) ↔
      0 ≤ Real.sin (b.1 - a.1) * Real.cos b.2 ∧
      (Real.sin a.2 = 0 ∨ Real.cos b.2 = Real.sin b.2 ∨
        2 * Real.cos (b.1 - a.1) * Real.cos a.2 * Real.cos b.2 + Real.sin a.2 * (Real.cos b.2 + Real.sin b.2) = 0 ∨
        Real.cos a.2 * Real.sin b.2 = Real.sin a.2 * Real.cos b.2 * Real.cos (b.1 - a.1) ∧
          (Real.cos (b.1 - a.1) * Real.cos a.2 * Real.cos b.2 + Real.sin a.2 * Real.cos b.2) ^ 2 < 1) := by
  obtain ⟨x, p⟩ := a
  obtain ⟨y, q⟩ := b
  simp only at h ⊢
  have hn := course_norm p q (y - x)
  have hcos : Real.cos (x - y) = Real.cos (y - x) := by rw [← Real.cos_neg, neg_sub]
  have hfac : (Real.cos (y - x) * Real.cos p * Real.cos q + Real.sin p * Real.cos q) ^ 2
      = (Real.cos (y - x) * Real.cos p * Real.cos q + Real.sin p * Real.sin q) ^ 2 ↔
      Real.sin p = 0 ∨ Real.cos q = Real.sin q ∨
        2 * Real.cos (y - x) * Real.cos p * Real.cos q + Real.sin p * (Real.cos q + Real.sin q) = 0 := by
    rw [← sub_eq_zero]
    have : (Real.cos (y - x) * Real.cos p * Real.cos q + Real.sin p * Real.cos q) ^ 2
        - (Real.cos (y - x) * Real.cos p * Real.cos q + Real.sin p * Real.sin q) ^ 2
        = Real.sin p * ((Real.cos q - Real.sin q) *
          (2 * Real.cos (y - x) * Real.cos p * Real.cos q + Real.sin p * (Real.cos q + Real.sin q))) := by ring
    rw [this, mul_eq_zero, mul_eq_zero, sub_eq_zero]
  rw [← or_assoc, ← or_assoc, or_assoc (a := Real.sin p = 0), ← hfac]
  have hNN : Real.cos p * Real.sin q - Real.cos (y - x) * Real.cos q * Real.sin p
      = Real.cos p * Real.sin q - Real.sin p * Real.cos q * Real.cos (y - x) := by ring
  unfold rightHandingCourse trueCourse
  simp only [hcos, hNN]
  rw [← sub_eq_zero (a := Real.cos p * Real.sin q)]
  set N := Real.cos p * Real.sin q - Real.sin p * Real.cos q * Real.cos (y - x)
  set E := Real.sin (y - x) * Real.cos q
  set D := Real.cos (y - x) * Real.cos p * Real.cos q + Real.sin p * Real.cos q
  set C := Real.cos (y - x) * Real.cos p * Real.cos q + Real.sin p * Real.sin q
  have hS : 0 < N ^ 2 + E ^ 2 := by rw [hn]; linarith
  have hz : (⟨N, E⟩ : ℂ) ≠ 0 := by
    intro hz
    have h1 := congrArg Complex.re hz
    have h2 := congrArg Complex.im hz
    simp only [Complex.zero_re, Complex.zero_im] at h1 h2
    rw [h1, h2] at hS
    norm_num at hS
  have hnorm : ‖(⟨N, E⟩ : ℂ)‖ = Real.sqrt (N ^ 2 + E ^ 2) := by
    rw [Complex.norm_def, Complex.normSq_mk]
    congr 1
    ring
  have hcosarg : Real.cos (Complex.arg ⟨N, E⟩) = N / Real.sqrt (N ^ 2 + E ^ 2) := by
    rw [Complex.cos_arg hz, hnorm]
  have hsq : 0 < Real.sqrt (N ^ 2 + E ^ 2) := Real.sqrt_pos.mpr hS
  have habs : |N| ≤ Real.sqrt (N ^ 2 + E ^ 2) := by
    rw [← Real.sqrt_sq_eq_abs]
    exact Real.sqrt_le_sqrt (by nlinarith [sq_nonneg E])
  constructor
  · intro hr
    split_ifs at hr with c1 c2
    rw [not_le] at c1
    rw [not_or, not_lt, not_lt] at c2
    have hr := Option.some.inj hr
    have hE : 0 ≤ E := by
      have : 0 ≤ Complex.arg ⟨N, E⟩ := by rw [← hr]; exact Real.arccos_nonneg _
      exact Complex.arg_nonneg_iff.mp this
    refine ⟨hE, ?_⟩
    rw [← hr, Real.cos_arccos c2.1 c2.2] at hcosarg
    by_cases hN : N = 0
    · exact Or.inr ⟨hN, by linarith⟩
    · left
      have hs : 0 < Real.sqrt (1 - D ^ 2) := Real.sqrt_pos.mpr c1
      rw [div_eq_div_iff hs.ne' hsq.ne'] at hcosarg
      have := mul_left_cancel₀ hN hcosarg
      have h2 := congrArg (fun t => t ^ 2) this
      simp only [Real.sq_sqrt hS.le, Real.sq_sqrt c1.le] at h2
      linarith
  · rintro ⟨hE, hd⟩
    have c1 : ¬ 1 - D ^ 2 ≤ 0 := by
      rcases hd with hd | ⟨-, hd⟩
      · rw [hd]; linarith
      · linarith
    have hq : N / Real.sqrt (1 - D ^ 2) = N / Real.sqrt (N ^ 2 + E ^ 2) := by
      rcases hd with hd | ⟨hN, -⟩
      · rw [hn, hd]
      · rw [hN, zero_div, zero_div]
    have hb : -1 ≤ N / Real.sqrt (N ^ 2 + E ^ 2) ∧ N / Real.sqrt (N ^ 2 + E ^ 2) ≤ 1 := by
      rw [← abs_le, abs_div, abs_of_pos hsq, div_le_one hsq]
      exact habs
    rw [if_neg c1, hq, if_neg (by rw [not_or, not_lt, not_lt]; exact hb), ← hcosarg,
      Real.arccos_cos (Complex.arg_nonneg_iff.mpr hE) (Complex.arg_le_pi _)]

/-- Case for `C74_course_exactly`: from a place south of the equator to the north, the course is wrong. -/
example : rightHandingCourse (0, -(Real.pi / 6)) (0, 0) ≠ some (trueCourse (0, -(Real.pi / 6)) (0, 0)) := by
  rw [Ne, C74_course_exactly _ _ (by
    simp only [sub_self, Real.cos_zero, Real.sin_zero, Real.cos_neg, Real.cos_pi_div_six]
    have := Real.sq_sqrt (show (0 : ℝ) ≤ 3 by norm_num)
    nlinarith)]
  have hs : 1 < Real.sqrt 3 := by
    rw [Real.lt_sqrt] <;> norm_num
  simp only [sub_self, Real.cos_zero, Real.sin_zero, Real.cos_neg, Real.cos_pi_div_six, Real.sin_neg, Real.sin_pi_div_six]
  rintro ⟨-, h | h | h | ⟨h, -⟩⟩
  · norm_num at h
  · norm_num at h
  · linarith
  · norm_num at h

end Verif.Course
