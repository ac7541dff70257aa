import Verif.Props.AgreeCruise
import Mathlib.Analysis.SpecialFunctions.Arsinh
import Mathlib.Analysis.SpecialFunctions.Trigonometric.ArctanDeriv

/-!
# C175: the distance on the map

`cost_cruise` measures the way between two places in the projection, `isochrone` returns a length in the projection.
-/

namespace Verif.Course

/-- The second coordinate of the projection without the factor 69. -/
noncomputable def stretch (long : ℝ) : ℝ := Real.arsinh (Real.tan (Real.pi * long / 180))

theorem totalS_eq (a b : ℝ × ℝ) :
    totalS a b = 69 * Real.sqrt ((b.1 - a.1) ^ 2 + (stretch b.2 - stretch a.2) ^ 2) := by
  have e : totalS a b = Real.sqrt (69 ^ 2 * ((b.1 - a.1) ^ 2 + (stretch b.2 - stretch a.2) ^ 2)) := by
    simp only [totalS, Cruising.mercator, stretch]
    congr 1
    ring
  rw [e, Real.sqrt_mul (by norm_num), Real.sqrt_sq (by norm_num)]

theorem totalS_dist (a b : ℝ × ℝ) :
    totalS a b = 69 * ‖(⟨b.1, stretch b.2⟩ : ℂ) - ⟨a.1, stretch a.2⟩‖ := by
  rw [totalS_eq, Complex.norm_eq_sqrt_sq_add_sq]
  simp

/-- **C175.** The way back is as long as the way there. -/
theorem C175_symmetric (a b : ℝ × ℝ) : totalS a b = totalS b a := by
  rw [totalS_dist, totalS_dist, norm_sub_rev]

/-- **C175.** A detour is never shorter. -/
theorem C175_triangle (a b c : ℝ × ℝ) : totalS a c ≤ totalS a b + totalS b c := by
  simp only [totalS_dist]
  rw [← mul_add]
  refine mul_le_mul_of_nonneg_left ?_ (by norm_num)
  rw [add_comm]
  exact norm_sub_le_norm_sub_add_norm_sub _ _ _

/-- **C175.** The same step in the first coordinate changes no distance. -/
theorem C175_shift (a b : ℝ × ℝ) (d : ℝ) : totalS (a.1 + d, a.2) (b.1 + d, b.2) = totalS a b := by
  simp only [totalS_eq, add_sub_add_right_eq_sub]

theorem stretch_inj {x y : ℝ} : stretch x = stretch y ↔ Real.tan (Real.pi * x / 180) = Real.tan (Real.pi * y / 180) :=
  Real.arsinh_injective.eq_iff

/-- **C175**, exactly: the places at distance zero. -/
theorem C175_zero_exactly (a b : ℝ × ℝ) :
    totalS a b = 0 ↔ a.1 = b.1 ∧ Real.tan (Real.pi * a.2 / 180) = Real.tan (Real.pi * b.2 / 180) := by
  rw [totalS_dist, ← stretch_inj]
  simp only [mul_eq_zero, norm_eq_zero, sub_eq_zero, Complex.ext_iff]
  norm_num
  constructor
  · rintro ⟨h, h'⟩; exact ⟨h.symm, h'.symm⟩
  · rintro ⟨h, h'⟩; exact ⟨h.symm, h'.symm⟩

/-- **C175**, the part which holds: between the second coordinates -90 and 90 only a place itself is at distance zero. -/
theorem C175_zero_partial {a b : ℝ × ℝ} (ha : -90 < a.2 ∧ a.2 < 90) (hb : -90 < b.2 ∧ b.2 < 90) :
    totalS a b = 0 ↔ a = b := by
  rw [C175_zero_exactly]
  constructor
  · rintro ⟨h1, h2⟩
    have hp := Real.pi_pos
    have h3 := Real.injOn_tan (x₁ := Real.pi * a.2 / 180) (x₂ := Real.pi * b.2 / 180)
      ⟨by nlinarith [ha.1], by nlinarith [ha.2]⟩ ⟨by nlinarith [hb.1], by nlinarith [hb.2]⟩ h2
    refine Prod.ext h1 ?_
    have h4 : Real.pi * a.2 = Real.pi * b.2 := by linarith
    exact mul_left_cancel₀ hp.ne' h4
  · rintro rfl
    exact ⟨rfl, rfl⟩

/-- **C175** is false: opposite places of the equator are at distance zero. -/
theorem C175_opposite_false (x : ℝ) {y : ℝ} (_ : Real.cos (Real.pi * y / 180) ≠ 0) :
    totalS (x, y) (x, y + 180) = 0 := by
  rw [C175_zero_exactly]
  refine ⟨rfl, ?_⟩
  have e : Real.pi * (x, y + 180).2 / 180 = Real.pi * y / 180 + Real.pi := by
    show Real.pi * (y + 180) / 180 = _
    ring
  rw [e, Real.tan_add_pi]

/-- **C175.** A degree of the first coordinate counts 69. -/
theorem C175_first (x x' y : ℝ) : totalS (x, y) (x', y) = 69 * |x' - x| := by
  rw [totalS_eq]
  simp [Real.sqrt_sq_eq_abs]

/-- **C175.** The distance of places with the same first coordinate. -/
theorem C175_second (x y y' : ℝ) : totalS (x, y) (x, y') = 69 * |stretch y' - stretch y| := by
  rw [totalS_eq]
  simp [Real.sqrt_sq_eq_abs]

theorem stretch_deriv {l : ℝ} (hc : 0 < Real.cos (Real.pi * l / 180)) :
    HasDerivAt stretch (Real.pi / 180 / Real.cos (Real.pi * l / 180)) l := by
  have h1 : HasDerivAt (fun l : ℝ => Real.pi * l / 180) (Real.pi / 180) l := by
    have := ((hasDerivAt_id l).const_mul Real.pi).div_const 180
    simpa using this
  have h2 := (Real.hasDerivAt_tan hc.ne').comp l h1
  have h3 := (Real.hasDerivAt_arsinh (Real.tan (Real.pi * l / 180))).comp l h2
  refine h3.congr_deriv ?_
  have hs : Real.sqrt (1 + Real.tan (Real.pi * l / 180) ^ 2) = (Real.cos (Real.pi * l / 180))⁻¹ := by
    rw [← Real.inv_sqrt_one_add_tan_sq hc, inv_inv]
  rw [hs]
  field_simp

/-- **C175.** Steps of the second coordinate are stretched: the distance of places nearby, divided by the difference of
their second coordinates, tends to `69 π / 180` divided by the cosine of the second coordinate. -/
theorem C175_scale (x : ℝ) {l : ℝ} (hc : 0 < Real.cos (Real.pi * l / 180)) :
    Filter.Tendsto (fun h => totalS (x, l) (x, l + h) / |h|) (nhdsWithin 0 {0}ᶜ)
      (nhds (69 * (Real.pi / 180 / Real.cos (Real.pi * l / 180)))) := by
  have h := (hasDerivAt_iff_tendsto_slope_zero.1 (stretch_deriv hc)).abs.const_mul 69
  rw [abs_of_nonneg (by positivity : (0 : ℝ) ≤ Real.pi / 180 / Real.cos (Real.pi * l / 180))] at h
  refine h.congr fun t => ?_
  rw [C175_second, smul_eq_mul, abs_mul, abs_inv]
  ring

/-- **C175** is false: near the second coordinate 0 a degree of it counts less than 2, a degree of the first coordinate
counts 69. -/
theorem C175_degrees_false (x : ℝ) :
    ∃ δ > 0, ∀ h, h ≠ 0 → |h| < δ → totalS (x, 0) (x, h) < 2 * |h| ∧ totalS (x, 0) (x + h, 0) = 69 * |h| := by
  have h1 := C175_scale x (l := 0) (by simp)
  have hlt : 69 * (Real.pi / 180 / Real.cos (Real.pi * 0 / 180)) < 2 := by
    simp only [mul_zero, zero_div, Real.cos_zero, div_one]
    nlinarith [Real.pi_lt_four]
  have h2 := h1.eventually (gt_mem_nhds hlt)
  rw [eventually_nhdsWithin_iff, Metric.eventually_nhds_iff] at h2
  obtain ⟨δ, hδ, h3⟩ := h2
  refine ⟨δ, hδ, fun h hne hlt' => ⟨?_, ?_⟩⟩
  · have h4 := h3 (y := h) (by simpa [Real.dist_eq] using hlt') hne
    rw [div_lt_iff₀ (abs_pos.2 hne), zero_add] at h4
    exact h4
  · rw [C175_first, add_sub_cancel_left]

/-- **C175**, exactly: where small steps of both coordinates count alike. -/
theorem C175_degrees_exactly (x : ℝ) {l : ℝ} (hc : 0 < Real.cos (Real.pi * l / 180)) :
    Filter.Tendsto (fun h => totalS (x, l) (x, l + h) / totalS (x, l) (x + h, l)) (nhdsWithin 0 {0}ᶜ) (nhds 1) ↔
      Real.cos (Real.pi * l / 180) = Real.pi / 180 := by
  have h1 := (C175_scale x hc).div_const 69
  have h2 : Filter.Tendsto (fun h => totalS (x, l) (x, l + h) / totalS (x, l) (x + h, l)) (nhdsWithin 0 {0}ᶜ)
      (nhds (Real.pi / 180 / Real.cos (Real.pi * l / 180))) := by
    have e : 69 * (Real.pi / 180 / Real.cos (Real.pi * l / 180)) / 69 = Real.pi / 180 / Real.cos (Real.pi * l / 180) := by
      ring
    rw [e] at h1
    refine h1.congr fun h => ?_
    rw [C175_first, add_sub_cancel_left, div_div, mul_comm |h|]
  constructor
  · intro h
    have := tendsto_nhds_unique h h2
    rw [eq_div_iff hc.ne', one_mul] at this
    exact this
  · intro h
    rw [h, div_self (by positivity : Real.pi / 180 ≠ 0)] at h2
    exact h2

theorem stretch_zero : stretch 0 = 0 := by simp [stretch]

theorem stretch_neg (l : ℝ) : stretch (-l) = -stretch l := by
  unfold stretch
  rw [mul_neg, neg_div, Real.tan_neg, Real.arsinh_neg]

/-- **C175** is false: turning the globe changes distances. Places 60 degrees apart with the second coordinates 0 and 60
are further apart than those with -30 and 30. -/
theorem C175_turn_false (x : ℝ) : totalS (x, -30) (x, 30) < totalS (x, 0) (x, 60) := by
  have e3 : Real.tan (Real.pi * 30 / 180) = 1 / Real.sqrt 3 := by
    rw [← Real.tan_pi_div_six]; congr 1; ring
  have e6 : Real.tan (Real.pi * 60 / 180) = Real.sqrt 3 := by
    rw [← Real.tan_pi_div_three]; congr 1; ring
  have hs : (0 : ℝ) < Real.sqrt 3 := by positivity
  have hsq : Real.sqrt 3 ^ 2 = 3 := Real.sq_sqrt (by norm_num)
  have h30 : 0 ≤ stretch 30 := by unfold stretch; rw [Real.arsinh_nonneg_iff, e3]; positivity
  have h60 : 0 ≤ stretch 60 := by unfold stretch; rw [Real.arsinh_nonneg_iff, e6]; positivity
  have key : 2 * stretch 30 < stretch 60 := by
    rw [← Real.sinh_lt_sinh, Real.sinh_two_mul]
    unfold stretch
    rw [Real.sinh_arsinh, Real.sinh_arsinh, Real.cosh_arsinh, e3, e6]
    have hc : Real.sqrt (1 + (1 / Real.sqrt 3) ^ 2) = 2 / Real.sqrt 3 := by
      rw [Real.sqrt_eq_iff_mul_self_eq (by positivity) (by positivity)]
      field_simp
      nlinarith
    rw [hc]
    have e : 2 * (1 / Real.sqrt 3) * (2 / Real.sqrt 3) = 4 / 3 := by
      field_simp
      nlinarith
    rw [e]
    nlinarith
  rw [C175_second, C175_second, stretch_neg, stretch_zero, sub_zero, sub_neg_eq_add, abs_of_nonneg h60,
    abs_of_nonneg (by linarith)]
  linarith

example : totalS (10, 20) (13, 20) = 69 * |(13 : ℝ) - 10| := C175_first 10 13 20

example : totalS (1, 20) (1, 30) = 0 ↔ ((1, 20) : ℝ × ℝ) = (1, 30) :=
  C175_zero_partial ⟨by norm_num, by norm_num⟩ ⟨by norm_num, by norm_num⟩

example : ∃ l : ℝ, 0 < Real.cos (Real.pi * l / 180) ∧ Real.cos (Real.pi * l / 180) = Real.pi / 180 := by
  refine ⟨180 * Real.arccos (Real.pi / 180) / Real.pi, ?_⟩
  have e : Real.pi * (180 * Real.arccos (Real.pi / 180) / Real.pi) / 180 = Real.arccos (Real.pi / 180) := by
    field_simp
  rw [e, Real.cos_arccos (by linarith [Real.pi_pos]) (by linarith [Real.pi_lt_four])]
  exact ⟨by positivity, rfl⟩

end Verif.Course
