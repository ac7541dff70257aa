import Mathlib.Analysis.Real.Pi.Bounds
import Mathlib.Tactic.Linarith
import Mathlib.Tactic.LinearCombination
import Mathlib.Tactic.FieldSimp
import Verif.Lemmas.Mod
import Verif.Model.Course
import Verif.Props.Cruising

set_option linter.unusedSectionVars false

/-! # C73–C76: wind relative to north, course and distance, isochrones, and the cost of a cruise -/

namespace Verif.Course

open Curve (deg2rad rad2deg)

/-! ### C73 -/

/-- **C73.** For wind given by its angle to the boat, the speed is kept and the angle is reduced to `[0, 360)`. -/
theorem C73_wa_hdt (ws wa hdt : ℝ) : ∃ ndir, windRelativeToNorth (.wsWaHdt ws wa hdt) = .ok (ws, ndir) ∧
    0 ≤ ndir ∧ ndir < 360 ∧ ∃ k : ℤ, ndir + wa = hdt + k * 360 := by
  refine ⟨_, rfl, pmod_nonneg _ (by norm_num), pmod_lt _ (by norm_num), ?_⟩
  refine ⟨-⌊(hdt - wa) / 360⌋, ?_⟩
  unfold pmod
  push_cast
  ring

example : windRelativeToNorth (.wsWaHdt 10 90 45) = .ok (10, 315) := by
  have : pmod ((45 : ℝ) - 90) 360 = 315 := by
    have := pmod_add_mul (315 : ℝ) (show (0 : ℝ) < 360 by norm_num) (-1)
    rw [pmod_of_mem (x := (315 : ℝ)) (by norm_num) (by norm_num)] at this
    rw [← this]; norm_num
  simp only [windRelativeToNorth, this]

/-- **C73.** The speed and the angle to north given directly are not changed. -/
theorem C73_wan (ws wan : ℝ) : windRelativeToNorth (.wsWan ws wan) = .ok (ws, wan) := rfl

/-- **C73.** Other formats raise `AttributeError`. -/
theorem C73_unsupported : windRelativeToNorth .other = .error .attributeError := rfl

/-- **C73** (partial: measured from east). Wind given by its components is turned into its speed and the angle against
the first component. -/
theorem C73_components_partial (u v : ℝ) : ∃ ws ndir, windRelativeToNorth (.uvGrd u v) = .ok (ws, ndir) ∧ 0 ≤ ws ∧
    -180 < ndir ∧ ndir ≤ 180 ∧ ws * Real.cos (ndir * Real.pi / 180) = u ∧ ws * Real.sin (ndir * Real.pi / 180) = v := by
  have hpi := Real.pi_pos
  refine ⟨_, _, rfl, Real.sqrt_nonneg _, ?_, ?_, ?_, ?_⟩
  · have := Complex.neg_pi_lt_arg ⟨u, v⟩
    rw [div_mul_eq_mul_div, lt_div_iff₀ hpi]; nlinarith
  · have := Complex.arg_le_pi ⟨u, v⟩
    rw [div_mul_eq_mul_div, div_le_iff₀ hpi]; nlinarith
  all_goals
    have e : 180 / Real.pi * Complex.arg ⟨u, v⟩ * Real.pi / 180 = Complex.arg ⟨u, v⟩ := by field_simp
    have hn : Real.sqrt (u ^ 2 + v ^ 2) = ‖(⟨u, v⟩ : ℂ)‖ := by
      rw [Complex.norm_eq_sqrt_sq_add_sq]
    rw [e, hn]
  · exact Complex.norm_mul_cos_arg ⟨u, v⟩
  · exact Complex.norm_mul_sin_arg ⟨u, v⟩

theorem arg_of_north : Complex.arg ⟨0, 1⟩ = Real.pi / 2 := Complex.arg_I

theorem arg_of_south : Complex.arg ⟨0, -1⟩ = -(Real.pi / 2) := by
  have : (⟨0, -1⟩ : ℂ) = -Complex.I := by apply Complex.ext <;> simp
  rw [this, Complex.arg_neg_I]

theorem arg_of_east : Complex.arg ⟨1, 0⟩ = 0 := Complex.arg_one

/-- **C73 is false** for components: the angle may be negative, although it is documented to lie between 0 and 360. -/
theorem C73_range_false : ∃ u v ws ndir : ℝ, windRelativeToNorth (.uvGrd u v) = .ok (ws, ndir) ∧ ndir < 0 := by
  refine ⟨0, -1, _, _, rfl, ?_⟩
  rw [arg_of_south]
  have := Real.pi_pos
  have e : 180 / Real.pi * -(Real.pi / 2) = -90 := by field_simp; norm_num
  rw [e]; norm_num

/-- **C73 is false** for components: the angles of wind towards north and wind towards east are interchanged (90 and 0),
so the angle is not relative to north, whichever orientation is used for wind directions (towards or from). -/
theorem C73_north_false : windRelativeToNorth (.uvGrd 0 1) = .ok (1, 90) ∧ windRelativeToNorth (.uvGrd 1 0) = .ok (1, 0) := by
  constructor
  · unfold windRelativeToNorth
    simp only
    rw [arg_of_north]
    have := Real.pi_pos
    have e : 180 / Real.pi * (Real.pi / 2) = 90 := by field_simp; norm_num
    rw [e]; norm_num
  · unfold windRelativeToNorth
    simp only
    rw [arg_of_east]
    norm_num

/-- **C73.** Weather data is turned into the wind speed and an angle in `[0, 360)`. -/
theorem C73_weather (u v hdt : ℝ) : (uvgridToTw u v hdt).1 ^ 2 = u ^ 2 + v ^ 2 ∧ 0 ≤ (uvgridToTw u v hdt).1 ∧
    0 ≤ (uvgridToTw u v hdt).2 ∧ (uvgridToTw u v hdt).2 < 360 ∧
    -- the angle is the heading minus the direction (from the first component, backwards) the wind comes from
    (uvgridToTw u v hdt).1 * Real.cos ((hdt - (uvgridToTw u v hdt).2) * Real.pi / 180) = -u ∧
    (uvgridToTw u v hdt).1 * Real.sin ((hdt - (uvgridToTw u v hdt).2) * Real.pi / 180) = -v := by
  have hpi := Real.pi_pos
  refine ⟨Real.sq_sqrt (by positivity), Real.sqrt_nonneg _, pmod_nonneg _ (by norm_num), pmod_lt _ (by norm_num), ?_⟩
  have hn : Real.sqrt (u ^ 2 + v ^ 2) = ‖(⟨u, v⟩ : ℂ)‖ := by
    rw [Complex.norm_eq_sqrt_sq_add_sq]
  have hang : ∃ k : ℤ, (hdt - (uvgridToTw u v hdt).2) * Real.pi / 180
      = Complex.arg ⟨u, v⟩ + Real.pi + k * (2 * Real.pi) := by
    unfold uvgridToTw pmod
    simp only
    set A := Complex.arg ⟨u, v⟩
    set k1 := ⌊(180 + 180 / Real.pi * A) / 360⌋
    set k2 := ⌊(hdt - (180 + 180 / Real.pi * A - 360 * (k1 : ℝ))) / 360⌋
    refine ⟨k2 - k1, ?_⟩
    push_cast
    field_simp
    ring
  obtain ⟨k, hk⟩ := hang
  have h1 : (uvgridToTw u v hdt).1 = ‖(⟨u, v⟩ : ℂ)‖ := hn
  rw [hk, h1]
  constructor
  · rw [Real.cos_add_int_mul_two_pi, Real.cos_add_pi, mul_neg, Complex.norm_mul_cos_arg]
  · rw [Real.sin_add_int_mul_two_pi, Real.sin_add_pi, mul_neg, Complex.norm_mul_sin_arg]

example : (uvgridToTw 3 4 90).1 = 5 := by
  unfold uvgridToTw
  simp only
  rw [show (3 : ℝ) ^ 2 + 4 ^ 2 = 5 ^ 2 by norm_num, Real.sqrt_sq (by norm_num)]

theorem cos_360_lt : Real.cos 360 < 1 := by
  apply lt_of_le_of_ne (Real.cos_le_one _)
  intro h
  rw [Real.cos_eq_one_iff] at h
  obtain ⟨k, hk⟩ := h
  have h1 := Real.pi_gt_d2
  have h2 := Real.pi_lt_d2
  have hk57 : (57 : ℝ) < k := by
    by_contra hcon
    rw [not_lt] at hcon
    nlinarith
  have hk58 : (k : ℝ) < 58 := by
    by_contra hcon
    rw [not_lt] at hcon
    nlinarith
  have a1 : 57 < k := by exact_mod_cast hk57
  have a2 : k < 58 := by exact_mod_cast hk58
  omega

/-- **C73 is false** for `cruise`: the wind direction in degrees is used as radians, so that wind directions differing by
a full circle give different headings. -/
theorem C73_degrees_false : cruiseHeading 0 0 = 180 ∧ cruiseHeading 0 360 ≠ cruiseHeading 0 0 := by
  have h0 : cruiseHeading 0 0 = 180 := by
    unfold cruiseHeading rad2deg
    rw [Real.cos_zero, Real.sin_zero, mul_zero, add_zero, mul_one, Real.arccos_one]; norm_num
  refine ⟨h0, ?_⟩
  rw [h0]
  unfold cruiseHeading rad2deg
  rw [Real.cos_zero, Real.sin_zero, zero_mul, add_zero, one_mul]
  have hpos : 0 < Real.arccos (Real.cos 360) := Real.arccos_pos.mpr cos_360_lt
  have hpi := Real.pi_pos
  have : 0 < Real.arccos (Real.cos 360) * 180 / Real.pi := by positivity
  linarith

/-! ### C74 -/

/-- **C74.** The distance is symmetric. -/
theorem C74_symmetric (a b : ℝ × ℝ) : ellipsoidDistance a b = ellipsoidDistance b a := by
  unfold ellipsoidDistance
  have h1 : (b.2 + a.2) / 2 = (a.2 + b.2) / 2 := by ring
  have h2 : (b.2 - a.2) / 2 = -((a.2 - b.2) / 2) := by ring
  have h3 : (b.1 - a.1) / 2 = -((a.1 - b.1) / 2) := by ring
  simp only [h1, h2, h3, Real.sin_neg, Real.cos_neg, neg_mul, mul_neg, neg_sq]

/-- **C74 is false**: the distance of a place to itself is `nan`. -/
theorem C74_same_place_false (a : ℝ × ℝ) : ellipsoidDistance a a = none := by
  unfold ellipsoidDistance
  simp only
  rw [if_pos]
  left
  simp

/-- **C74 is false** along the equator: the distance is too short by the factor `π / 180`, because an angle in radians is
converted from degrees to radians. -/
theorem C74_equator_false (x y : ℝ) (h0 : 0 < y - x) (h1 : y - x < Real.pi) :
    ellipsoidDistance (x, 0) (y, 0) = some (Real.pi / 180 * (40075.017 * (y - x) / (2 * Real.pi))) := by
  have hpi := Real.pi_pos
  unfold ellipsoidDistance circumference
  simp only [add_zero, zero_div, sub_zero, Real.sin_zero, Real.cos_zero, zero_mul, one_mul]
  set L := (x - y) / 2 with hL
  have hs : Real.sin L < 0 := Real.sin_neg_of_neg_of_neg_pi_lt (by rw [hL]; linarith) (by rw [hL]; linarith)
  have hc : 0 < Real.cos L := Real.cos_pos_of_mem_Ioo ⟨by rw [hL]; linarith, by rw [hL]; linarith⟩
  rw [if_neg (by
    rw [not_or]
    constructor
    · intro h; have : Real.sin L ^ 2 = 0 := by linarith
      exact hs.ne (pow_eq_zero_iff (by norm_num) |>.mp this)
    · intro h; have : Real.cos L ^ 2 = 0 := by linarith
      exact hc.ne' (pow_eq_zero_iff (by norm_num) |>.mp this))]
  have e1 : Real.sqrt ((0 ^ 2 + Real.sin L ^ 2) / (Real.cos L ^ 2 + 0 ^ 2)) = Real.tan (-L) := by
    rw [show ((0 : ℝ) ^ 2 + Real.sin L ^ 2) / (Real.cos L ^ 2 + 0 ^ 2) = Real.tan (-L) ^ 2 by
      rw [Real.tan_neg, neg_sq, Real.tan_eq_sin_div_cos, div_pow]; norm_num]
    apply Real.sqrt_sq
    rw [Real.tan_neg, Real.tan_eq_sin_div_cos]
    have := div_neg_of_neg_of_pos hs hc
    linarith
  rw [e1, Real.arctan_tan (by rw [hL]; linarith) (by rw [hL]; linarith)]
  simp only [ne_eq, OfNat.ofNat_ne_zero, not_false_eq_true, zero_pow, mul_zero, sub_zero, add_zero, mul_one,
    Option.some.injEq]
  unfold deg2rad
  rw [hL]
  field_simp
  ring

example : ellipsoidDistance (0, 0) (Real.pi / 2, 0)
    = some (Real.pi / 180 * (40075.017 * (Real.pi / 2 - 0) / (2 * Real.pi))) :=
  C74_equator_false 0 (Real.pi / 2) (by have := Real.pi_pos; linarith) (by have := Real.pi_pos; linarith)

/-- **C74 is false** along meridians: the same factor is missing, and the most of the correction for the flattening of the
earth is too large by the factor `180 / π`. -/
theorem C74_meridian_false (x : ℝ) {y : ℝ} (h0 : 0 < y) (h1 : y < Real.pi / 2) :
    ellipsoidDistance (x, y) (x, -y) = some (Real.pi / 180 * (40075.017 * (y - -y) / (2 * Real.pi)) *
      (1 - 1 / 298.257223563 * ((3 * (180 / Real.pi) * (Real.sin y * Real.cos y / y) + 1) / 2))) := by
  have hpi := Real.pi_pos
  have hs : 0 < Real.sin y := Real.sin_pos_of_pos_of_lt_pi h0 (by linarith)
  have hc : 0 < Real.cos y := Real.cos_pos_of_mem_Ioo ⟨by linarith, h1⟩
  unfold ellipsoidDistance flattening circumference
  simp only [add_neg_cancel, zero_div, sub_self, Real.sin_zero, Real.cos_zero, zero_mul, mul_one, mul_zero, one_mul,
    sub_neg_eq_add, add_self_div_two]
  rw [if_neg (by
    rw [not_or]
    exact ⟨by positivity, by positivity⟩)]
  have e1 : Real.sqrt ((Real.sin y ^ 2 + 0 ^ 2) / (Real.cos y ^ 2 + 0 ^ 2)) = Real.tan y := by
    rw [show (Real.sin y ^ 2 + 0 ^ 2) / (Real.cos y ^ 2 + 0 ^ 2) = Real.tan y ^ 2 by
      rw [Real.tan_eq_sin_div_cos, div_pow]; norm_num]
    apply Real.sqrt_sq
    rw [Real.tan_eq_sin_div_cos]
    positivity
  have e2 : Real.sqrt ((Real.sin y ^ 2 + 0 ^ 2) * (Real.cos y ^ 2 + 0 ^ 2)) = Real.sin y * Real.cos y := by
    rw [show (Real.sin y ^ 2 + 0 ^ 2) * (Real.cos y ^ 2 + 0 ^ 2) = (Real.sin y * Real.cos y) ^ 2 by ring]
    exact Real.sqrt_sq (by positivity)
  rw [e1, e2, Real.arctan_tan (by linarith) h1]
  simp only [Option.some.injEq]
  unfold deg2rad
  field_simp
  ring

example : (0 : ℝ) < 1 ∧ (1 : ℝ) < Real.pi / 2 := ⟨by norm_num, by have := Real.pi_gt_three; linarith⟩

/-- The course from north, clockwise, to a place that is north of `a` by `n` and east of it by `e` on the tangent plane. -/
noncomputable def trueCourse (a b : ℝ × ℝ) : ℝ :=
  Complex.arg ⟨Real.cos a.2 * Real.sin b.2 - Real.sin a.2 * Real.cos b.2 * Real.cos (b.1 - a.1),
    Real.sin (b.1 - a.1) * Real.cos b.2⟩

/-- **C74** (partial: for starts on the equator and destinations in the east). The course is the initial course of the
great circle. -/
theorem C74_course_partial (x : ℝ) (b : ℝ × ℝ) (he : 0 ≤ Real.sin (b.1 - x)) (hlat : 0 < Real.cos b.2)
    (hne : Real.sin b.2 ≠ 0 ∨ 0 < Real.sin (b.1 - x)) :
    rightHandingCourse (x, 0) b = some (trueCourse (x, 0) b) := by
  have hcos : Real.cos (x - b.1) = Real.cos (b.1 - x) := by rw [← Real.cos_neg]; congr 1; ring
  have s1 := Real.sin_sq_add_cos_sq (b.1 - x)
  have s2 := Real.sin_sq_add_cos_sq b.2
  set z : ℂ := ⟨Real.sin b.2, Real.sin (b.1 - x) * Real.cos b.2⟩ with hz
  have htc : trueCourse (x, 0) b = Complex.arg z := by
    unfold trueCourse
    simp [hz]
  have hsum : Real.sin b.2 ^ 2 + (Real.sin (b.1 - x) * Real.cos b.2) ^ 2
      = 1 - (Real.cos (b.1 - x) * Real.cos b.2) ^ 2 := by
    have : (Real.sin (b.1 - x) * Real.cos b.2) ^ 2 + (Real.cos (b.1 - x) * Real.cos b.2) ^ 2 = Real.cos b.2 ^ 2 := by
      calc _ = (Real.sin (b.1 - x) ^ 2 + Real.cos (b.1 - x) ^ 2) * Real.cos b.2 ^ 2 := by ring
        _ = _ := by rw [s1, one_mul]
    linarith
  have hpos : 0 < 1 - (Real.cos (b.1 - x) * Real.cos b.2) ^ 2 := by
    rw [← hsum]
    rcases hne with h | h
    · have := sq_pos_of_ne_zero h
      have := sq_nonneg (Real.sin (b.1 - x) * Real.cos b.2)
      linarith
    · have := sq_nonneg (Real.sin b.2)
      have : 0 < (Real.sin (b.1 - x) * Real.cos b.2) ^ 2 := by positivity
      linarith
  have hnorm : ‖z‖ = Real.sqrt (1 - (Real.cos (b.1 - x) * Real.cos b.2) ^ 2) := by
    rw [Complex.norm_eq_sqrt_sq_add_sq, ← hsum]
  have hz0 : z ≠ 0 := by
    intro h
    rw [h, norm_zero] at hnorm
    have := Real.sqrt_pos.mpr hpos
    linarith
  have harg : Complex.arg z = Real.arccos (z.re / ‖z‖) :=
    Complex.arg_of_im_nonneg_of_ne_zero (mul_nonneg he hlat.le) hz0
  unfold rightHandingCourse
  simp only [Real.cos_zero, Real.sin_zero, one_mul, mul_zero, sub_zero, mul_one, zero_mul, add_zero, hcos]
  rw [if_neg (not_le.mpr hpos), if_neg]
  · rw [htc, harg, hnorm]
  · rw [← hnorm]
    have := Complex.abs_re_div_norm_le_one z
    rw [abs_le] at this
    rw [not_or, not_lt, not_lt]
    exact this

example : rightHandingCourse (0, 0) (Real.pi / 2, 0) = some (trueCourse (0, 0) (Real.pi / 2, 0)) :=
  C74_course_partial 0 (Real.pi / 2, 0) (by simp) (by simp) (by right; simp)

/-- **C74 is false** off the equator: the course from 45 degrees south to the equator is 45 degrees instead of north. -/
theorem C74_course_false : rightHandingCourse (0, -(Real.pi / 4)) (0, 0) = some (Real.pi / 4) ∧
    trueCourse (0, -(Real.pi / 4)) (0, 0) = 0 := by
  have h2 : (0 : ℝ) < Real.sqrt 2 := Real.sqrt_pos.mpr (by norm_num)
  have hsq := Real.mul_self_sqrt (show (0 : ℝ) ≤ 2 by norm_num)
  constructor
  · unfold rightHandingCourse
    simp only [Real.cos_neg, Real.sin_neg, Real.cos_zero, Real.sin_zero, sub_zero, Real.cos_pi_div_four,
      Real.sin_pi_div_four, mul_zero, one_mul, mul_one, zero_sub, neg_neg]
    rw [show Real.sqrt 2 / 2 + -(Real.sqrt 2 / 2) = 0 by ring]
    rw [show (1 : ℝ) - 0 ^ 2 = 1 by norm_num, Real.sqrt_one, div_one, if_neg (by norm_num), if_neg]
    · rw [← Real.cos_pi_div_four, Real.arccos_cos (by positivity) (by have := Real.pi_pos; linarith)]
    · rw [not_or, not_lt, not_lt]
      constructor
      · linarith
      · nlinarith
  · unfold trueCourse
    simp only [Real.sin_neg, Real.cos_neg, Real.cos_zero, Real.sin_zero, sub_zero, mul_zero, Real.sin_pi_div_four,
      zero_sub, mul_one, neg_neg, zero_mul]
    have : (⟨Real.sqrt 2 / 2, 0⟩ : ℂ) = ((Real.sqrt 2 / 2 : ℝ) : ℂ) := rfl
    rw [this, Complex.arg_ofReal_of_nonneg (by positivity)]

/-- **C74 is false**: courses to the west are confused with courses to the east. -/
theorem C74_west_false (x lat d lat' : ℝ) :
    rightHandingCourse (x, lat) (x - d, lat') = rightHandingCourse (x, lat) (x + d, lat') := by
  unfold rightHandingCourse
  have h1 : x - (x - d) = d := by ring
  have h2 : x - (x + d) = -d := by ring
  simp only [h1, h2, Real.cos_neg]

/-! ### C75 -/

/-- **C75** (partial: only the length). On the map of the projection the end is as far from the start as the distance
returned. -/
theorem C75_length_partial (start : ℝ × ℝ) (direction s : ℝ) :
    let p := Cruising.mercator start.1 start
    let q := Cruising.mercator start.1 (isoEnd start direction s)
    (q.1 - p.1) ^ 2 + (q.2 - p.2) ^ 2 = s ^ 2 := by
  intro p q
  have hq : q = (p.1 + s * (isoDirection direction).1, p.2 + s * (isoDirection direction).2) :=
    Cruising.C46_inverse start.1 _ _
  rw [hq]
  have := Real.sin_sq_add_cos_sq (Real.pi * (1 / 2 - direction / 180))
  simp only [isoDirection, add_sub_cancel_left]
  linear_combination s ^ 2 * this

/-- **C75 is false**: travelling north (direction 0) does not change the latitude, the first coordinate. -/
theorem C75_north_false (start : ℝ × ℝ) (s : ℝ) : (isoEnd start 0 s).1 = start.1 := by
  unfold isoEnd isoDirection Cruising.inverseMercator Cruising.mercator
  simp only [zero_div, sub_zero]
  rw [show Real.pi * (1 / 2) = Real.pi / 2 by ring, Real.cos_pi_div_two]
  ring

/-- **C75 is false**: travelling east (direction 90) changes the latitude and not the longitude. -/
theorem C75_east_false (start : ℝ × ℝ) (s : ℝ) (h1 : -90 < start.2) (h2 : start.2 < 90) :
    isoEnd start 90 s = (start.1 + s / 69, start.2) := by
  unfold isoEnd isoDirection
  simp only
  rw [show Real.pi * (1 / 2 - 90 / 180) = 0 by ring, Real.cos_zero, Real.sin_zero, mul_zero, add_zero, mul_one]
  have h := Cruising.C46_round_trip_partial start.1 start.1 start.2 h1 h2
  have e2 := congrArg Prod.snd h
  unfold Cruising.inverseMercator at e2 ⊢
  ext
  · simp [Cruising.mercator]; ring
  · exact e2

example : isoEnd (50, 10) 90 69 = (51, 10) := by
  rw [C75_east_false (50, 10) 69 (by norm_num) (by norm_num)]; norm_num

/-! ### C76 -/

theorem trapezoid_const (c : ℝ) (x : ℝ) (l : List ℝ) :
    trapezoid ((x :: l).map fun x => (x, c)) = c * ((x :: l).getLast (by simp) - x) := by
  induction l generalizing x with
  | nil => simp [trapezoid]
  | cons y l ih =>
    simp only [List.map_cons] at ih ⊢
    unfold trapezoid
    rw [ih y, List.getLast_cons (a := x) (l := y :: l) (by simp)]
    ring

theorem trapezoid_mono {l : List (ℝ × ℝ × ℝ)} (hs : (l.map (·.1)).Pairwise (· ≤ ·)) (h : ∀ n ∈ l, n.2.1 ≤ n.2.2) :
    trapezoid (l.map fun n => (n.1, n.2.1)) ≤ trapezoid (l.map fun n => (n.1, n.2.2)) := by
  induction l with
  | nil => simp [trapezoid]
  | cons a l ih =>
    cases l with
    | nil => simp [trapezoid]
    | cons b l =>
      simp only [List.map_cons] at ih hs ⊢
      unfold trapezoid
      have hab : a.1 ≤ b.1 := (List.pairwise_cons.mp hs).1 b.1 (by simp)
      have h1 := ih (List.pairwise_cons.mp hs).2 (fun n hn => h n (List.mem_cons_of_mem _ hn))
      have h2 := h a (by simp)
      have h3 := h b (by simp)
      have : (b.1 - a.1) * (a.2.1 + b.2.1) ≤ (b.1 - a.1) * (a.2.2 + b.2.2) :=
        mul_le_mul_of_nonneg_left (by linarith) (by linarith)
      linarith

section
variable {P : Type} {place : ℝ → P} {abs : ℝ → ℝ → ℝ} {total : ℝ}

/-- **C76.** Without a density, the cost only depends on the time of arrival and the distance; by default it is the time
of arrival. -/
theorem C76_absolute (nodes : List (ℝ × ℝ)) (last : ℝ × ℝ) :
    costCruise (nodes ++ [last]) place total abs none = .ok (abs last.2 total) ∧
    costCruise (nodes ++ [last]) place total (fun t _ => t) none = .ok last.2 := by
  unfold costCruise
  rw [List.getLast?_concat]
  exact ⟨rfl, rfl⟩

/-- **C76.** A constant density is multiplied by the distance: the default method integrates over the distance, not over
the time. -/
theorem C76_constant (nodes : List (ℝ × ℝ)) (t tl : ℝ) (c : ℝ) :
    costCruise ((0, t) :: (nodes ++ [(total, tl)])) place total abs (some fun _ _ => c)
      = .ok (abs tl total + c * total) := by
  unfold costCruise
  rw [← List.cons_append, List.getLast?_concat]
  simp only
  have h := trapezoid_const c 0 ((nodes ++ [(total, tl)]).map (·.1))
  have e : (((0 : ℝ) :: (nodes ++ [(total, tl)]).map (·.1)).map fun x => (x, c))
      = ((0, t) :: nodes ++ [(total, tl)]).map fun n => (n.1, c) := by
    simp [List.map_map, Function.comp_def]
  rw [e] at h
  rw [h]
  congr 3
  have : ((0 : ℝ) :: (nodes ++ [(total, tl)]).map (·.1)).getLast (by simp) = total := by
    rw [List.getLast_cons (by simp)]
    simp
  rw [this, sub_zero]

/-- **C76.** A density which is nowhere higher does not make the cruise more expensive. -/
theorem C76_monotone {nodes : List (ℝ × ℝ)} (hs : (nodes.map (·.1)).Pairwise (· ≤ ·)) {d d' : ℝ → P → ℝ}
    (h : ∀ t p, d t p ≤ d' t p) {x x' : ℝ} (hx : costCruise nodes place total abs (some d) = .ok x)
    (hx' : costCruise nodes place total abs (some d') = .ok x') : x ≤ x' := by
  unfold costCruise at hx hx'
  cases hl : nodes.getLast? with
  | none => rw [hl] at hx; cases hx
  | some last =>
    rw [hl] at hx hx'
    simp only [Except.ok.injEq] at hx hx'
    subst hx hx'
    have := trapezoid_mono (l := nodes.map fun n => (n.1, d n.2 (place n.1), d' n.2 (place n.1)))
      (by rw [List.map_map]; exact hs) (by
        intro n hn
        obtain ⟨m, -, rfl⟩ := List.mem_map.mp hn
        exact h _ _)
    rw [List.map_map, List.map_map] at this
    simp only [Function.comp_def] at this
    linarith

example : costCruise [(0, 0), (1, 2), (3, 5)] (fun s => s) 3 (fun t s => t + s) none = .ok 8 := by
  have := (C76_absolute (place := fun s : ℝ => s) (abs := fun t s => t + s) (total := 3) [(0, 0), (1, 2)] (3, 5)).1
  norm_num at this
  exact this

example : costCruise [(0, 0), (1, 2), (3, 5)] (fun s => s) 3 (fun t _ => t) (some fun _ _ => 7) = .ok 26 := by
  have := C76_constant (place := fun s : ℝ => s) (abs := fun t _ => t) (total := 3) [(1, 2)] 0 5 7
  norm_num at this
  exact this

end

/-- **C76.** The way starts at the start and ends at the destination. -/
theorem C76_ends (start stop : ℝ × ℝ) (h : totalS start stop ≠ 0) :
    position start stop 0 = some (Cruising.mercator ((start.1 + stop.1) / 2) start) ∧
    position start stop (totalS start stop) = some (Cruising.mercator ((start.1 + stop.1) / 2) stop) := by
  unfold position
  simp only
  rw [if_neg h, if_neg h, zero_div, div_self h]
  constructor
  · congr 1; ext <;> simp
  · congr 1; ext <;> simp

/-- **C76.** Equal steps of distance are equal steps on the map: the way from one distance to another is as long as their
difference. -/
theorem C76_way (start stop : ℝ × ℝ) (s s' : ℝ) {p p' : ℝ × ℝ} (hp : position start stop s = some p)
    (hp' : position start stop s' = some p') : (p'.1 - p.1) ^ 2 + (p'.2 - p.2) ^ 2 = (s' - s) ^ 2 := by
  unfold position at hp hp'
  simp only at hp hp'
  split at hp
  · cases hp
  · rename_i h
    rw [if_neg h] at hp'
    simp only [Option.some.injEq] at hp hp'
    subst hp hp'
    have hsq : totalS start stop ^ 2 = ((Cruising.mercator ((start.1 + stop.1) / 2) stop).1
        - (Cruising.mercator ((start.1 + stop.1) / 2) start).1) ^ 2
        + ((Cruising.mercator ((start.1 + stop.1) / 2) stop).2
        - (Cruising.mercator ((start.1 + stop.1) / 2) start).2) ^ 2 := by
      unfold totalS
      exact Real.sq_sqrt (by positivity)
    simp only
    set dx := (Cruising.mercator ((start.1 + stop.1) / 2) stop).1 - (Cruising.mercator ((start.1 + stop.1) / 2) start).1
    set dy := (Cruising.mercator ((start.1 + stop.1) / 2) stop).2 - (Cruising.mercator ((start.1 + stop.1) / 2) start).2
    have e : ∀ (a b : ℝ), (b + s' / totalS start stop * a - (b + s / totalS start stop * a))
        = (s' - s) / totalS start stop * a := by intro a b; ring
    rw [e, e]
    have : ((s' - s) / totalS start stop * dx) ^ 2 + ((s' - s) / totalS start stop * dy) ^ 2
        = ((s' - s) / totalS start stop) ^ 2 * totalS start stop ^ 2 := by rw [hsq]; ring
    rw [this, div_pow, div_mul_cancel₀ _ (pow_ne_zero 2 h)]

/-- **C76 is false** if the start is the destination: the way is not defined (`nan`). -/
theorem C76_same_place_false (start : ℝ × ℝ) (s : ℝ) : position start start s = none := by
  unfold position
  simp [totalS]

example : totalS (0, 0) (1, 0) = 69 := by
  unfold totalS Cruising.mercator
  simp only
  norm_num
  rw [show (4761 : ℝ) = 69 ^ 2 by norm_num, Real.sqrt_sq (by norm_num)]

end Verif.Course
