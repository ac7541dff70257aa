import Mathlib.Analysis.Convex.SpecificFunctions.Deriv
import Mathlib.Analysis.SpecialFunctions.Trigonometric.DerivHyp
import Mathlib.Analysis.SpecialFunctions.Trigonometric.Inverse

/-!
# Inequalities between trigonometric and hyperbolic functions

The angle between two points of the unit sphere is at most the distance of their images under the Mercator projection.
-/

namespace Verif.Mercator

open Real Set

theorem sin_cosh_sub_pos {b : ℝ} (h0 : 0 < b) (h1 : b ≤ π / 2) : 0 < sin b * cosh b - cos b * sinh b := by
  have hd : ∀ x, HasDerivAt (fun x => sin x * cosh x - cos x * sinh x) (2 * (sin x * sinh x)) x := fun x => by
    have := ((hasDerivAt_sin x).mul (hasDerivAt_cosh x)).sub ((hasDerivAt_cos x).mul (hasDerivAt_sinh x))
    have e : cos x * cosh x + sin x * sinh x - (-sin x * sinh x + cos x * cosh x) = 2 * (sin x * sinh x) := by ring
    rw [← e]
    exact this
  have hm : StrictMonoOn (fun x => sin x * cosh x - cos x * sinh x) (Icc 0 (π / 2)) := by
    apply strictMonoOn_of_deriv_pos (convex_Icc _ _)
    · exact fun x _ => (hd x).continuousAt.continuousWithinAt
    · intro x hx
      rw [interior_Icc] at hx
      rw [(hd x).deriv]
      have := sin_pos_of_pos_of_lt_pi hx.1 (by linarith [hx.2, pi_pos])
      have := sinh_pos_iff.2 hx.1
      positivity
  have := hm ⟨le_rfl, by positivity⟩ ⟨h0.le, h1⟩ h0
  simpa using this

theorem cos_mul_cosh_lt_pos {b : ℝ} (h0 : 0 < b) (h1 : b ≤ π / 2) : cos b * cosh b < 1 := by
  have hd : ∀ x, HasDerivAt (fun x => cos x * cosh x) (-(sin x * cosh x - cos x * sinh x)) x := fun x => by
    have := (hasDerivAt_cos x).mul (hasDerivAt_cosh x)
    have e : -sin x * cosh x + cos x * sinh x = -(sin x * cosh x - cos x * sinh x) := by ring
    rw [← e]
    exact this
  have hm : StrictAntiOn (fun x => cos x * cosh x) (Icc 0 (π / 2)) := by
    apply strictAntiOn_of_deriv_neg (convex_Icc _ _)
    · exact fun x _ => (hd x).continuousAt.continuousWithinAt
    · intro x hx
      rw [interior_Icc] at hx
      rw [(hd x).deriv]
      linarith [sin_cosh_sub_pos hx.1 hx.2.le]
  have := hm ⟨le_rfl, by positivity⟩ ⟨h0.le, h1⟩ h0
  simpa using this

theorem cos_mul_cosh_lt {b : ℝ} (h0 : b ≠ 0) (h1 : |b| ≤ π / 2) : cos b * cosh b < 1 := by
  have := cos_mul_cosh_lt_pos (abs_pos.2 h0) h1
  rwa [cos_abs, cosh_abs] at this

theorem sin_div_antitone {x y : ℝ} (hx : 0 < x) (hxy : x ≤ y) (hy : y ≤ π) : sin y / y ≤ sin x / x := by
  have hy0 : 0 < y := hx.trans_le hxy
  have := strictConcaveOn_sin_Icc.concaveOn.2 (show y ∈ Icc 0 π from ⟨hy0.le, hy⟩) (show (0 : ℝ) ∈ Icc 0 π from ⟨le_rfl, pi_pos.le⟩)
    (show 0 ≤ x / y by positivity) (show 0 ≤ 1 - x / y by rw [sub_nonneg, div_le_one hy0]; exact hxy) (by ring)
  simp only [smul_eq_mul, sin_zero, mul_zero, add_zero] at this
  rw [div_mul_cancel₀ _ hy0.ne'] at this
  rw [le_div_iff₀ hx]
  calc sin y / y * x = x / y * sin y := by ring
    _ ≤ _ := this

theorem convexOn_cos_sqrt : ConvexOn ℝ (Icc 0 (π ^ 2)) fun s => cos √s := by
  apply MonotoneOn.convexOn_of_deriv (convex_Icc _ _)
  · exact (continuous_cos.comp continuous_sqrt).continuousOn
  · intro x hx
    rw [interior_Icc] at hx
    exact ((hasDerivAt_cos _).comp x (hasDerivAt_sqrt hx.1.ne')).differentiableAt.differentiableWithinAt
  · have hd : ∀ x ∈ Ioo 0 (π ^ 2), deriv (fun s => cos √s) x = -(sin √x / √x) / 2 := fun x hx => by
      have : deriv (fun s => cos √s) x = -sin √x * (1 / (2 * √x)) :=
        ((hasDerivAt_cos _).comp x (hasDerivAt_sqrt hx.1.ne')).deriv
      rw [this]
      have : 0 < √x := sqrt_pos.2 hx.1
      field_simp
    intro x hx y hy hxy
    rw [interior_Icc] at hx hy
    rw [hd x hx, hd y hy]
    have := sin_div_antitone (sqrt_pos.2 hx.1) (sqrt_le_sqrt hxy) (by
      rw [sqrt_le_left pi_pos.le]; exact hy.2.le)
    linarith

/-- The hypotenuse of a right-angled triangle on the unit sphere is at most that of the plane triangle. -/
theorem cos_sqrt_le {a b : ℝ} (h : √(a ^ 2 + b ^ 2) ≤ π / 2) : cos √(a ^ 2 + b ^ 2) ≤ cos a * cos b := by
  have h2 : a ^ 2 + b ^ 2 ≤ (π / 2) ^ 2 := (sqrt_le_left (by positivity)).1 h
  have hp : (a + b) ^ 2 ≤ π ^ 2 := by nlinarith [sq_nonneg (a - b), sq_nonneg π]
  have hq : (a - b) ^ 2 ≤ π ^ 2 := by nlinarith [sq_nonneg (a + b), sq_nonneg π]
  have := convexOn_cos_sqrt.2 (show (a + b) ^ 2 ∈ Icc 0 (π ^ 2) from ⟨sq_nonneg _, hp⟩)
    (show (a - b) ^ 2 ∈ Icc 0 (π ^ 2) from ⟨sq_nonneg _, hq⟩)
    (show (0 : ℝ) ≤ 1 / 2 by norm_num) (show (0 : ℝ) ≤ 1 / 2 by norm_num) (by norm_num)
  simp only [smul_eq_mul, sqrt_sq_eq_abs, cos_abs] at this
  rw [cos_add, cos_sub] at this
  have e : 1 / 2 * (a + b) ^ 2 + 1 / 2 * (a - b) ^ 2 = a ^ 2 + b ^ 2 := by ring
  rw [e] at this
  linarith

theorem cos_sqrt_le_div {a b : ℝ} (h : √(a ^ 2 + b ^ 2) ≤ π / 2) : cos √(a ^ 2 + b ^ 2) * cosh b ≤ cos a := by
  have hr := cos_sqrt_le h
  have h2 : a ^ 2 + b ^ 2 ≤ (π / 2) ^ 2 := (sqrt_le_left (by positivity)).1 h
  have ha : |a| ≤ π / 2 := abs_le_of_sq_le_sq (by nlinarith [sq_nonneg b]) (by positivity)
  have hb : |b| ≤ π / 2 := abs_le_of_sq_le_sq (by nlinarith [sq_nonneg a]) (by positivity)
  have hca : 0 ≤ cos a := cos_nonneg_of_mem_Icc (abs_le.1 ha)
  have hc := cosh_pos b
  have h1 : cos b * cosh b ≤ 1 := by
    by_cases hb0 : b = 0
    · simp [hb0]
    · exact (cos_mul_cosh_lt hb0 hb).le
  calc cos √(a ^ 2 + b ^ 2) * cosh b ≤ cos a * cos b * cosh b := mul_le_mul_of_nonneg_right hr hc.le
    _ = cos a * (cos b * cosh b) := by ring
    _ ≤ cos a * 1 := mul_le_mul_of_nonneg_left h1 hca
    _ = cos a := mul_one _

theorem cos_sqrt_lt_div {a b : ℝ} (hb0 : b ≠ 0) (h : √(a ^ 2 + b ^ 2) ≤ π / 2) :
    cos √(a ^ 2 + b ^ 2) * cosh b < cos a := by
  have hr := cos_sqrt_le h
  have h2 : a ^ 2 + b ^ 2 ≤ (π / 2) ^ 2 := (sqrt_le_left (by positivity)).1 h
  have hb2 : 0 < b ^ 2 := by positivity
  have ha : |a| < π / 2 := abs_lt_of_sq_lt_sq (by nlinarith) (by positivity)
  have hb : |b| ≤ π / 2 := abs_le_of_sq_le_sq (by nlinarith [sq_nonneg a]) (by positivity)
  have hca : 0 < cos a := cos_pos_of_mem_Ioo (abs_lt.1 ha)
  have hc := cosh_pos b
  have h1 := cos_mul_cosh_lt hb0 hb
  calc cos √(a ^ 2 + b ^ 2) * cosh b ≤ cos a * cos b * cosh b := mul_le_mul_of_nonneg_right hr hc.le
    _ = cos a * (cos b * cosh b) := by ring
    _ < cos a * 1 := mul_lt_mul_of_pos_left h1 hca
    _ = cos a := mul_one _

/-- The cosine of the angle between two points of the sphere whose images on the map have the heights `y` and `z` and the
horizontal distance `d`. -/
noncomputable def cosAngle (y z d : ℝ) : ℝ := (sinh y * sinh z + cos d) / (cosh y * cosh z)

theorem one_sub_cosAngle (y z d : ℝ) : (1 - cosAngle y z d) * (cosh y * cosh z) = cosh (y - z) - cos d := by
  have := cosh_pos y
  have := cosh_pos z
  unfold cosAngle
  rw [sub_mul, div_mul_cancel₀ _ (by positivity), cosh_sub]
  ring

theorem one_add_cosAngle (y z d : ℝ) : (1 + cosAngle y z d) * (cosh y * cosh z) = cosh (y + z) + cos d := by
  have := cosh_pos y
  have := cosh_pos z
  unfold cosAngle
  rw [add_mul, div_mul_cancel₀ _ (by positivity), cosh_add]
  ring

theorem cosh_mul_cosh (y z : ℝ) : cosh y * cosh z * 2 = cosh (y + z) + cosh (y - z) := by
  rw [cosh_add, cosh_sub]; ring

theorem cosh_half (u : ℝ) : cosh u = 2 * cosh (u / 2) ^ 2 - 1 := by
  have := cosh_two_mul (u / 2)
  have h2 := cosh_sq (u / 2)
  rw [show 2 * (u / 2) = u by ring] at this
  linarith

theorem sqrt_half (d u : ℝ) : √((d / 2) ^ 2 + (u / 2) ^ 2) = √(d ^ 2 + u ^ 2) / 2 := by
  rw [show (d / 2) ^ 2 + (u / 2) ^ 2 = (d ^ 2 + u ^ 2) / 2 ^ 2 by ring, sqrt_div (by positivity), sqrt_sq (by norm_num)]

/-- The comparison of the cosines below half a turn; the gap is that of the half angles and that of the heights. -/
theorem cos_le_cosAngle {y z d : ℝ} (h : √(d ^ 2 + (y - z) ^ 2) ≤ π) :
    cos √(d ^ 2 + (y - z) ^ 2) ≤ cosAngle y z d ∧
    (cos √(d ^ 2 + (y - z) ^ 2) = cosAngle y z d → y = z ∧ (y = 0 ∨ d = 0)) := by
  set u := y - z with hu
  set r := √(d ^ 2 + u ^ 2) with hr
  have hP : 0 < cosh y * cosh z := mul_pos (cosh_pos _) (cosh_pos _)
  have h1 := one_sub_cosAngle y z d
  have hyz := cosh_mul_cosh y z
  rw [← hu] at h1 hyz
  have hcu := cosh_half u
  have hcd : cos d = 2 * cos (d / 2) ^ 2 - 1 := by rw [← cos_two_mul]; congr 1; ring
  have hcr : cos r = 2 * cos (r / 2) ^ 2 - 1 := by rw [← cos_two_mul]; congr 1; ring
  have hsq := sqrt_half d u
  rw [← hr] at hsq
  have hr2 : √((d / 2) ^ 2 + (u / 2) ^ 2) ≤ π / 2 := by rw [hsq]; linarith
  have hr0 : 0 ≤ r := sqrt_nonneg _
  have hcr0 : 0 ≤ cos (r / 2) := cos_nonneg_of_mem_Icc ⟨by linarith [pi_pos], by linarith⟩
  have hlt := cos_sqrt_le_div hr2
  rw [hsq] at hlt
  have hC := one_le_cosh (u / 2)
  have hS := one_le_cosh (y + z)
  have hsqle : cos (r / 2) ^ 2 * cosh (u / 2) ^ 2 ≤ cos (d / 2) ^ 2 := by
    rw [← mul_pow]; exact pow_le_pow_left₀ (by positivity) hlt 2
  -- the gap
  have hgap : (cosAngle y z d - cos r) * (cosh y * cosh z) =
      (cosh (y + z) - 1) * (1 - cos (r / 2) ^ 2) + 2 * (cos (d / 2) ^ 2 - cos (r / 2) ^ 2 * cosh (u / 2) ^ 2) := by
    rw [hcr]
    linear_combination (-1) * h1 + hcd + (1 - cos (r / 2) ^ 2) * hyz - cos (r / 2) ^ 2 * hcu
  have hs1 : 0 ≤ 1 - cos (r / 2) ^ 2 := by nlinarith [sin_sq_add_cos_sq (r / 2), sq_nonneg (sin (r / 2))]
  have ha : 0 ≤ (cosh (y + z) - 1) * (1 - cos (r / 2) ^ 2) := mul_nonneg (by linarith) hs1
  constructor
  · have : 0 ≤ (cosAngle y z d - cos r) * (cosh y * cosh z) := by rw [hgap]; linarith
    linarith [nonneg_of_mul_nonneg_left this hP]
  · intro he
    rw [he, sub_self, zero_mul] at hgap
    have hu0 : u = 0 := by
      by_contra hne
      have hs := cos_sqrt_lt_div (b := u / 2) (div_ne_zero hne (by norm_num)) hr2
      rw [hsq] at hs
      have : cos (r / 2) ^ 2 * cosh (u / 2) ^ 2 < cos (d / 2) ^ 2 := by
        rw [← mul_pow]; exact pow_lt_pow_left₀ hs (by positivity) (by norm_num)
      linarith
    have hyz' : y = z := sub_eq_zero.1 (hu ▸ hu0)
    refine ⟨hyz', ?_⟩
    have hz : (cosh (y + z) - 1) * (1 - cos (r / 2) ^ 2) = 0 := by linarith
    rcases mul_eq_zero.1 hz with h' | h'
    · left
      by_contra hy
      have : 1 < cosh (y + z) := one_lt_cosh.2 (by rw [← hyz', ← two_mul]; exact mul_ne_zero two_ne_zero hy)
      linarith
    · right
      have hs : sin (r / 2) ^ 2 = 0 := by linarith [sin_sq_add_cos_sq (r / 2)]
      have hs : sin (r / 2) = 0 := pow_eq_zero_iff (by norm_num) |>.1 hs
      have hrz : r = 0 := by
        by_contra hne
        have := sin_pos_of_pos_of_lt_pi (x := r / 2) (by have := lt_of_le_of_ne hr0 (Ne.symm hne); linarith)
          (by linarith [pi_pos])
        linarith
      have : d ^ 2 + u ^ 2 = 0 := by
        have := (sqrt_eq_zero (by positivity)).1 (hr ▸ hrz)
        exact this
      have : d ^ 2 = 0 := by nlinarith [sq_nonneg d, sq_nonneg u]
      exact pow_eq_zero_iff (by norm_num) |>.1 this

theorem cosAngle_abs_le (y z d : ℝ) : -1 ≤ cosAngle y z d ∧ cosAngle y z d ≤ 1 := by
  have hP : 0 < cosh y * cosh z := mul_pos (cosh_pos _) (cosh_pos _)
  have h1 := one_sub_cosAngle y z d
  have h2 := one_add_cosAngle y z d
  have c1 := one_le_cosh (y - z)
  have c2 := one_le_cosh (y + z)
  have : 0 ≤ 1 - cosAngle y z d := nonneg_of_mul_nonneg_left (by rw [h1]; linarith [cos_le_one d]) hP
  have : 0 ≤ 1 + cosAngle y z d := nonneg_of_mul_nonneg_left (by rw [h2]; linarith [neg_one_le_cos d]) hP
  constructor <;> linarith

theorem arccos_le (y z d : ℝ) : arccos (cosAngle y z d) ≤ √(d ^ 2 + (y - z) ^ 2) := by
  by_cases h : √(d ^ 2 + (y - z) ^ 2) ≤ π
  · rw [← arccos_cos (sqrt_nonneg _) h]
    exact arccos_le_arccos (cos_le_cosAngle h).1
  · exact (arccos_le_pi _).trans (le_of_not_ge h)

/-- Equality holds only for the same point, and on the equator up to half a turn. -/
theorem arccos_eq_iff (y z d : ℝ) :
    arccos (cosAngle y z d) = √(d ^ 2 + (y - z) ^ 2) ↔ y = z ∧ (d = 0 ∨ y = 0 ∧ |d| ≤ π) := by
  constructor
  · intro h
    have hpi : √(d ^ 2 + (y - z) ^ 2) ≤ π := h ▸ arccos_le_pi _
    have hc : cos √(d ^ 2 + (y - z) ^ 2) = cosAngle y z d := by
      rw [← h, cos_arccos (cosAngle_abs_le y z d).1 (cosAngle_abs_le y z d).2]
    obtain ⟨hyz, h'⟩ := (cos_le_cosAngle hpi).2 hc
    refine ⟨hyz, ?_⟩
    rcases h' with h0 | h0
    · right
      refine ⟨h0, ?_⟩
      rwa [hyz, sub_self, zero_pow two_ne_zero, add_zero, sqrt_sq_eq_abs] at hpi
    · exact Or.inl h0
  · rintro ⟨rfl, h⟩
    rw [sub_self, zero_pow two_ne_zero, add_zero, sqrt_sq_eq_abs]
    have hP : 0 < cosh y * cosh y := mul_pos (cosh_pos _) (cosh_pos _)
    rcases h with rfl | ⟨rfl, hd⟩
    · have h1 := one_sub_cosAngle y y 0
      rw [sub_self, cosh_zero, cos_zero, sub_self] at h1
      have : 1 - cosAngle y y 0 = 0 := (mul_eq_zero.1 h1).resolve_right hP.ne'
      rw [show cosAngle y y 0 = 1 by linarith, arccos_one, abs_zero]
    · have : cosAngle 0 0 d = cos |d| := by simp [cosAngle]
      rw [this, arccos_cos (abs_nonneg _) hd]

end Verif.Mercator
