import Verif.Model.FloatCruise
import Verif.Props.Convex
import Verif.Props.FloatGlobe

/-!
# Property C160: recommended courses in double precision
-/

namespace Verif.F64

open Verif.Convex (Direction chooseEdge findEdge speedAt speedAt_eq)

/-! ## Lemmas -/

/-- The factor in `np.rad2deg`. -/
theorem deg_factor : fl (180 / fl Real.pi) = ((1007958012753983 / 2 ^ 44 : ℚ) : ℝ) := by
  rw [fl_pi]
  have := fl_eq_of_rat (x := 180 / (884279719003555 / 2 ^ 48)) (y := 1007958012753983 / 2 ^ 44) (by decide +kernel)
  rw [← this]
  norm_num

/-- `np.rad2deg(np.deg2rad(x))` for rational numbers. -/
def backRat (x : ℚ) : ℚ := fl (fl (x * (5030569068109113 / 2 ^ 58)) * (1007958012753983 / 2 ^ 44))

theorem thereAndBack_rat (x : ℚ) : thereAndBack x = backRat x := by
  unfold thereAndBack toDeg toRad backRat
  rw [rad_factor, deg_factor, ← Rat.cast_mul, fl_cast, ← Rat.cast_mul, fl_cast]

theorem thereAndBack_nat (m : ℕ) : thereAndBack m = backRat m := by
  rw [← thereAndBack_rat]
  simp

theorem speedAt_missing {n : Nat} {wa bsp : Fin n → ℝ} {x : ℝ} (h : ∀ i, wa i ≠ x) : speedAt wa bsp x = .error .typeError := by
  unfold speedAt
  rw [List.filter_eq_nil_iff.2 fun i _ => by simpa using h i]

/-! ## Conversion to radians and back -/

/-- **C160**: angles converted to radians and back are nearly the same, -/
theorem C160_close (x : ℝ) : |thereAndBack x - x| ≤ 5 * 2 ^ (-53 : ℤ) * |x| := by
  change _ ≤ 5 * u ℝ * |x|
  have hu := u_pos (K := ℝ)
  have hu' := u_million
  have hx := abs_nonneg x
  unfold thereAndBack toDeg toRad
  rw [rad_factor, deg_factor]
  obtain ⟨c, hc⟩ : ∃ c : ℝ, c = ((5030569068109113 / 2 ^ 58 : ℚ) : ℝ) := ⟨_, rfl⟩
  obtain ⟨r, hr⟩ : ∃ r : ℝ, r = ((1007958012753983 / 2 ^ 44 : ℚ) : ℝ) := ⟨_, rfl⟩
  have hcr : |c * r - 1| ≤ 2 * u ℝ := by
    rw [hc, hr]
    unfold u
    rw [abs_le]
    norm_num
  have c0 : 0 < c := by rw [hc]; norm_num
  have r0 : 0 < r := by rw [hr]; norm_num
  rw [← hc, ← hr]
  have h1 : |fl (x * c) * r - x| ≤ 4 * u ℝ * |x| - u ℝ * |x| / 2 := by
    have e : fl (x * c) * r - x = (fl (x * c) - x * c) * r + x * (c * r - 1) := by ring
    rw [e]
    refine (abs_add_le _ _).trans ?_
    rw [abs_mul, abs_mul, abs_of_pos r0]
    have a := mul_le_mul_of_nonneg_right (fl_error' (x * c)) r0.le
    rw [abs_mul, abs_of_pos c0] at a
    have b := mul_le_mul_of_nonneg_left hcr hx
    have cr : c * r ≤ 1 + 2 * u ℝ := by linarith [(abs_le.1 hcr).2]
    have d : u ℝ * |x| * (c * r) ≤ u ℝ * |x| * (1 + 2 * u ℝ) := mul_le_mul_of_nonneg_left cr (by positivity)
    have f : u ℝ * |x| * u ℝ ≤ u ℝ * |x| * (1 / 10 ^ 6) := mul_le_mul_of_nonneg_left hu' (by positivity)
    nlinarith
  refine (fl_close h1 le_rfl).trans ?_
  have f : u ℝ * (u ℝ * |x|) ≤ 1 / 10 ^ 6 * (u ℝ * |x|) := mul_le_mul_of_nonneg_right hu' (by positivity)
  nlinarith

/-- **C160**: are in the same order, -/
theorem C160_mono {x y : ℝ} (h : x ≤ y) : thereAndBack x ≤ thereAndBack y := by
  unfold thereAndBack toDeg toRad
  rw [rad_factor, deg_factor]
  refine fl_mono (mul_le_mul_of_nonneg_right (fl_mono (mul_le_mul_of_nonneg_right h ?_)) ?_) <;> norm_num

/-- **C160**: and changes do not depend on factors 2. -/
theorem C160_scale (x : ℝ) (k : ℤ) : thereAndBack (x * 2 ^ k) = thereAndBack x * 2 ^ k := by
  unfold thereAndBack toDeg toRad
  rw [mul_right_comm x, fl_scale, mul_right_comm _ ((2 : ℝ) ^ k), fl_scale]

/-- **C160**: of the multiples of 5 degrees exactly these are changed by the conversion to radians and back. -/
theorem C160_five_degrees {m : ℕ} (hm : m < 72) :
    thereAndBack ((5 * m : ℕ) : ℝ) ≠ ((5 * m : ℕ) : ℝ) ↔
      5 * m ∈ [15, 30, 60, 105, 120, 125, 210, 240, 245, 250, 255] := by
  rw [thereAndBack_nat]
  have : ∀ m < 72, backRat ((5 * m : ℕ) : ℚ) ≠ ((5 * m : ℕ) : ℚ) ↔
      5 * m ∈ [15, 30, 60, 105, 120, 125, 210, 240, 245, 250, 255] := by decide +kernel
  rw [← this m hm]
  exact_mod_cast Iff.rfl

/-- **C160**: 15 degrees and its multiples by powers of 2 are changed. -/
theorem C160_fifteen (k : ℤ) : thereAndBack (15 * 2 ^ k) < 15 * 2 ^ k := by
  rw [C160_scale]
  refine mul_lt_mul_of_pos_right ?_ (two_zpow_pos k)
  have h := thereAndBack_nat 15
  have e : backRat ((15 : ℕ) : ℚ) = 8444249301319679 / 2 ^ 49 := by decide +kernel
  rw [e] at h
  norm_num at h ⊢
  rw [h]
  norm_num

/-! ## Recommended courses -/

section
variable {n : Nat} {σ : Type} [DecidableEq σ] {vertices : List (Fin n)} {wa bsp : Fin n → ℝ} {info : Option (Fin n → σ)}
  {prop : Fin n → Fin n → Except PyErr (Option ℝ)} {direction dist : ℝ}

/-- The angles of the directions are converted angles of the slice. -/
theorem directions_angle {ds : List (Direction σ)} (h : directions vertices wa info prop direction = .ok ds) :
    (∃ i, ∃ d, ds = [d] ∧ d.angle = thereAndBack (wa i)) ∨
    ∃ i1 i2 d1 d2, ds = [d1, d2] ∧ d1.angle = thereAndBack (wa i1) ∧ d2.angle = thereAndBack (wa i2) ∧
      ∃ lam, prop i1 i2 = .ok lam ∧ d1.proportion = lam ∧ d2.proportion = lam.map fun l => fl (1 - l) := by
  unfold directions at h
  split at h
  · cases h
  · rename_i i1 i2 hc
    simp only at h
    split at h
    · simp only [Except.ok.injEq] at h
      exact Or.inl ⟨i1, _, h.symm, rfl⟩
    · split at h
      · cases h
      · rename_i lam hl
        simp only [Except.ok.injEq] at h
        exact Or.inr ⟨i1, i2, _, _, h.symm, rfl, rfl, lam, hl, rfl, rfl⟩

/-- **C160**: recommended angles differ from angles of the slice by rounding errors only. -/
theorem C160_angles {ds : List (Direction σ)} (h : directions vertices wa info prop direction = .ok ds) :
    ∀ d ∈ ds, ∃ i, |d.angle - wa i| ≤ 5 * 2 ^ (-53 : ℤ) * |wa i| := by
  rcases directions_angle h with ⟨i, d, rfl, e⟩ | ⟨i1, i2, d1, d2, rfl, e1, e2, -⟩
  · intro x hx
    rw [List.mem_singleton] at hx
    rw [hx, e]
    exact ⟨i, C160_close _⟩
  · intro x hx
    simp only [List.mem_cons, List.not_mem_nil, or_false] at hx
    rcases hx with rfl | rfl
    · rw [e1]; exact ⟨i1, C160_close _⟩
    · rw [e2]; exact ⟨i2, C160_close _⟩

/-- **C160, partial**: if no angle of the slice is changed by the conversion to radians and back, and a single course is
recommended, then `cruise` returns it, and the duration is right up to rounding. Missing: other slices, see
`C160_cruise_false`. -/
theorem C160_single_partial (hwa : Function.Injective wa) (hback : ∀ i, thereAndBack (wa i) = wa i) {d : Direction σ}
    (h : directions vertices wa info prop direction = .ok [d]) (hb : ∀ i, 0 < bsp i) (hdist : 0 ≤ dist) :
    ∃ i t, cruise vertices wa bsp info prop direction dist = .ok [(wa i, some t)] ∧ 0 ≤ t ∧
      |t * bsp i - dist| ≤ 2 ^ (-53 : ℤ) * dist := by
  rcases directions_angle h with ⟨i, d', e, ha⟩ | ⟨i1, i2, d1, d2, e, -⟩
  · simp only [List.cons.injEq, and_true] at e
    subst e
    rw [hback] at ha
    refine ⟨i, fl (dist / bsp i), ?_, fl_nonneg (div_nonneg hdist (hb i).le), ?_⟩
    · unfold cruise
      rw [h]
      simp only [times]
      rw [ha, speedAt_eq hwa]
      simp only [if_neg (hb i).ne']
    · have e := fl_error' (dist / bsp i)
      rw [abs_of_nonneg (div_nonneg hdist (hb i).le)] at e
      have e2 := mul_le_mul_of_nonneg_right e (hb i).le
      rw [← abs_of_pos (hb i), ← abs_mul, abs_of_pos (hb i), sub_mul, mul_assoc, div_mul_cancel₀ _ (hb i).ne'] at e2
      exact e2
  · simp at e

/-- **C160, partial**: if no angle of the slice is changed by the conversion to radians and back, and two courses are
recommended, then `cruise` returns both, and the legs add up to the distance up to rounding. Missing: other slices, see
`C160_cruise_false`. -/
theorem C160_two_partial (hwa : Function.Injective wa) (hback : ∀ i, thereAndBack (wa i) = wa i) {d1 d2 : Direction σ}
    (h : directions vertices wa info prop direction = .ok [d1, d2]) (hb : ∀ i, 0 < bsp i) (hdist : 0 ≤ dist)
    (hprop : ∀ i j lam, prop i j = .ok lam → ∃ l, lam = some l ∧ 0 ≤ l ∧ l ≤ 1) :
    ∃ i1 i2 t1 t2, cruise vertices wa bsp info prop direction dist = .ok [(wa i1, some t1), (wa i2, some t2)] ∧
      0 ≤ t1 ∧ 0 ≤ t2 ∧ |t1 * bsp i1 + t2 * bsp i2 - dist| ≤ 5 * 2 ^ (-53 : ℤ) * dist := by
  change ∃ i1 i2 t1 t2, _ ∧ _ ∧ _ ∧ _ ≤ 5 * u ℝ * dist
  have hu := u_pos (K := ℝ)
  have hu' := u_million
  rcases directions_angle h with ⟨i, d', e, ha⟩ | ⟨i1, i2, d1', d2', e, a1, a2, lam, hl, p1, p2⟩
  · simp at e
  · simp only [List.cons.injEq, and_true] at e
    obtain ⟨rfl, rfl⟩ := e
    obtain ⟨l, rfl, l0, l1⟩ := hprop i1 i2 lam hl
    rw [Option.map_some] at p2
    rw [hback] at a1 a2
    obtain ⟨m, hm⟩ : ∃ m, m = fl (1 - l) := ⟨_, rfl⟩
    have m0 : 0 ≤ m := by rw [hm]; exact fl_nonneg (by linarith)
    have hlm : 0 < l * bsp i1 + m * bsp i2 := by
      rcases lt_or_eq_of_le l0 with hp | hp
      · have := mul_pos hp (hb i1)
        have := mul_nonneg m0 (hb i2).le
        linarith
      · have : m = 1 := by rw [hm, ← hp, sub_zero, fl_one]
        rw [← hp, this]
        linarith [hb i2]
    have x0 : 0 ≤ l * bsp i1 := mul_nonneg l0 (hb i1).le
    have y0 : 0 ≤ m * bsp i2 := mul_nonneg m0 (hb i2).le
    have ex := fl_error' (l * bsp i1)
    have ey := fl_error' (m * bsp i2)
    rw [abs_of_nonneg x0] at ex
    rw [abs_of_nonneg y0] at ey
    obtain ⟨S, hS⟩ : ∃ S, S = l * bsp i1 + m * bsp i2 := ⟨_, rfl⟩
    rw [← hS] at hlm
    have es : |fl (l * bsp i1) + fl (m * bsp i2) - S| ≤ u ℝ * S := by
      rw [abs_le] at *
      constructor <;> rw [hS] <;> nlinarith [ex.1, ex.2, ey.1, ey.2]
    have es2 := fl_close es (abs_of_pos hlm).le
    obtain ⟨s, hs⟩ : ∃ s, s = fl (fl (l * bsp i1) + fl (m * bsp i2)) := ⟨_, rfl⟩
    rw [← hs] at es2
    have uu : u ℝ * u ℝ ≤ 1 / 10 ^ 6 * u ℝ := mul_le_mul_of_nonneg_right hu' hu.le
    have es3 : |s - S| ≤ 21 / 10 * u ℝ * S := by
      refine es2.trans ?_
      have := mul_le_mul_of_nonneg_right uu hlm.le
      nlinarith [mul_pos hu hlm]
    have s0 : 0 < s := by
      have := (abs_le.1 es3).1
      have h3 : 21 / 10 * u ℝ * S ≤ 1 / 2 * S := mul_le_mul_of_nonneg_right (by linarith) hlm.le
      linarith
    obtain ⟨t, ht⟩ : ∃ t, t = fl (dist / s) := ⟨_, rfl⟩
    have q0 : 0 ≤ dist / s := div_nonneg hdist s0.le
    have t0 : 0 ≤ t := by rw [ht]; exact fl_nonneg q0
    have et := fl_error' (dist / s)
    rw [← ht, abs_of_nonneg q0] at et
    have et2 : |t * s - dist| ≤ u ℝ * dist := by
      have := mul_le_mul_of_nonneg_right et s0.le
      rw [← abs_of_pos s0, ← abs_mul, abs_of_pos s0, sub_mul, mul_assoc, div_mul_cancel₀ _ s0.ne'] at this
      exact this
    have f1 := fl_error' (l * t)
    have f2 := fl_error' (m * t)
    rw [abs_of_nonneg (mul_nonneg l0 t0)] at f1
    rw [abs_of_nonneg (mul_nonneg m0 t0)] at f2
    refine ⟨i1, i2, fl (l * t), fl (m * t), ?_, fl_nonneg (mul_nonneg l0 t0), fl_nonneg (mul_nonneg m0 t0), ?_⟩
    · unfold cruise
      rw [h]
      simp only [times]
      rw [a1, a2, speedAt_eq hwa, speedAt_eq hwa, p1, p2]
      simp only
      rw [← hm, ← hs, if_neg s0.ne', ← ht]
      rfl
    · have g1 := mul_le_mul_of_nonneg_right f1 (hb i1).le
      have g2 := mul_le_mul_of_nonneg_right f2 (hb i2).le
      rw [← abs_of_pos (hb i1), ← abs_mul, abs_of_pos (hb i1)] at g1
      rw [← abs_of_pos (hb i2), ← abs_mul, abs_of_pos (hb i2)] at g2
      have g3 : |fl (l * t) * bsp i1 + fl (m * t) * bsp i2 - t * S| ≤ u ℝ * (t * S) := by
        have e1 : fl (l * t) * bsp i1 + fl (m * t) * bsp i2 - t * S
            = (fl (l * t) - l * t) * bsp i1 + (fl (m * t) - m * t) * bsp i2 := by rw [hS]; ring
        rw [e1]
        refine (abs_add_le _ _).trans ((add_le_add g1 g2).trans (le_of_eq ?_))
        rw [hS]; ring
      have g4 : |t * S - t * s| ≤ 22 / 10 * u ℝ * (t * s) := by
        rw [← mul_sub, abs_mul, abs_of_nonneg t0, abs_sub_comm]
        have h3 : |s - S| ≤ 22 / 10 * u ℝ * s := by
          have := (abs_le.1 es3).1
          have : S ≤ 101 / 100 * s := by
            have h3 : 21 / 10 * u ℝ * S ≤ 1 / 1000 * S := mul_le_mul_of_nonneg_right (by linarith) hlm.le
            linarith
          have h4 := mul_le_mul_of_nonneg_left this (by positivity : 0 ≤ 21 / 10 * u ℝ)
          have h5 := mul_pos hu s0
          nlinarith
        have := mul_le_mul_of_nonneg_left h3 t0
        linarith
      have g5 : t * s ≤ dist + u ℝ * dist := by linarith [(abs_le.1 et2).2]
      have g6 : u ℝ * dist ≤ 1 / 10 ^ 6 * dist := mul_le_mul_of_nonneg_right hu' hdist
      have g7 : u ℝ * (t * s) ≤ u ℝ * (101 / 100 * dist) := mul_le_mul_of_nonneg_left (by linarith) hu.le
      have g8 : t * S ≤ 102 / 100 * dist := by
        have h6 := (abs_le.1 g4).2
        have h7 : u ℝ * (101 / 100 * dist) ≤ 1 / 10 ^ 6 * (101 / 100 * dist) := mul_le_mul_of_nonneg_right hu' (by positivity)
        linarith
      have g9 : u ℝ * (t * S) ≤ u ℝ * (102 / 100 * dist) := mul_le_mul_of_nonneg_left g8 hu.le
      have g10 : 0 ≤ u ℝ * dist := by positivity
      rw [abs_le] at *
      constructor <;> linarith [g3.1, g3.2, g4.1, g4.2, et2.1, et2.2]

/-- **C160**: if an angle of a recommended direction was changed by the conversion, so that it is not among the angles of the
slice, `cruise` raises `TypeError`. -/
theorem C160_missing {d : Direction σ} {ds : List (Direction σ)}
    (h : directions vertices wa info prop direction = .ok (d :: ds)) (hn : ∀ i, wa i ≠ d.angle) :
    cruise vertices wa bsp info prop direction dist = .error .typeError := by
  unfold cruise
  rw [h]
  cases ds with
  | nil => simp only [times, speedAt_missing hn]
  | cons d2 ds => simp only [times, speedAt_missing hn]

end

/-- A diagram with the angles 30, 90, 180 and 270 degrees. -/
noncomputable def angles30 : Fin 4 → ℝ := ![30, 90, 180, 270]

/-- A diagram with the angles 45, 90 and 120 degrees. -/
noncomputable def angles120 : Fin 3 → ℝ := ![45, 90, 120]

theorem back_30 : thereAndBack 30 = ((8444249301319679 / 2 ^ 48 : ℚ) : ℝ) := by
  have h := thereAndBack_nat 30
  have e : backRat ((30 : ℕ) : ℚ) = 8444249301319679 / 2 ^ 48 := by decide +kernel
  rw [e] at h
  simpa using h

theorem back_of {m : ℕ} (h : backRat (m : ℚ) = m) : thereAndBack (m : ℝ) = m := by
  rw [thereAndBack_nat, h]; simp

theorem back_90 : thereAndBack 90 = 90 := by simpa using back_of (m := 90) (by decide +kernel)

theorem back_45 : thereAndBack 45 = 45 := by simpa using back_of (m := 45) (by decide +kernel)

theorem back_120 : thereAndBack 120 < 120 := by
  have := C160_fifteen 3
  norm_num at this
  exact this

/-- **C160 is false** for slices with an angle of 30 degrees: `cruise` looks for the course 29.999999999999996 recommended by
`convex_direction` in the slice and raises `TypeError`, e.g. for the heading 60 and the angles 30, 90, 180 and 270 degrees,
whatever the boat speeds are. In exact arithmetic the course is found. -/
theorem C160_cruise_false (bsp : Fin 4 → ℝ) (prop : Fin 4 → Fin 4 → Except PyErr (Option ℝ)) (dist : ℝ) :
    cruise (σ := Unit) [0, 1, 2, 3] angles30 bsp none prop 60 dist = .error .typeError ∧
    Convex.convexDirection (σ := Unit) [0, 1, 2, 3] angles30 bsp none 60 = .ok [⟨30, some 1, none⟩] ∧
    (bsp 0 ≠ 0 → Convex.cruiseTimes (σ := Unit) angles30 bsp dist [⟨30, some 1, none⟩] = .ok [(30, some (dist / bsp 0))]) := by
  have hs : ([0, 1, 2, 3] : List (Fin 4)).insertionSort (· ≤ ·) = [0, 1, 2, 3] := by decide
  refine ⟨?_, ?_, ?_⟩
  · refine C160_missing (d := ⟨thereAndBack 30, some 1, none⟩) (ds := []) ?_ ?_
    · unfold directions
      have hc : chooseEdge (fun i => thereAndBack (angles30 i)) 60 (([0, 1, 2, 3] : List (Fin 4)).insertionSort (· ≤ ·))
          = .ok (0, 1) := by
        rw [hs]
        unfold chooseEdge findEdge
        rw [if_pos]
        change thereAndBack 30 ≤ 60 ∧ 60 ≤ thereAndBack 90
        rw [back_30, back_90]
        norm_num
      rw [hc]
      simp [angles30]
    · intro i
      simp only [back_30]
      fin_cases i <;> simp [angles30] <;> norm_num
  · unfold Convex.convexDirection
    have hc : chooseEdge angles30 60 (([0, 1, 2, 3] : List (Fin 4)).insertionSort (· ≤ ·)) = .ok (0, 1) := by
      rw [hs]
      unfold chooseEdge findEdge
      rw [if_pos]
      simp [angles30]
      norm_num
    rw [hc]
    simp [angles30]
  · intro hb
    have hinj : Function.Injective angles30 := by
      intro i j
      fin_cases i <;> fin_cases j <;> simp [angles30]
    have h := speedAt_eq (bsp := bsp) hinj 0
    have e : angles30 0 = 30 := rfl
    rw [e] at h
    unfold Convex.cruiseTimes
    simp only [h, if_neg hb]

/-- **C160 is false** at the border of diagrams: a diagram for the angles 45, 90 and 120 degrees is said not to support the
direction of 120 degrees. -/
theorem C160_border_false (prop : Fin 3 → Fin 3 → Except PyErr (Option ℝ)) (bsp : Fin 3 → ℝ) :
    directions (σ := Unit) [0, 1, 2] angles120 none prop 120 = .error .valueError ∧
    Convex.convexDirection (σ := Unit) [0, 1, 2] angles120 bsp none 120 = .ok [⟨90, some 1, none⟩] := by
  have hs : ([0, 1, 2] : List (Fin 3)).insertionSort (· ≤ ·) = [0, 1, 2] := by decide
  have h120 := back_120
  have h0 : 0 ≤ thereAndBack 120 := by
    have := C160_mono (show (45 : ℝ) ≤ 120 by norm_num)
    rw [back_45] at this
    linarith
  constructor
  · unfold directions
    have hc : chooseEdge (fun i => thereAndBack (angles120 i)) 120 (([0, 1, 2] : List (Fin 3)).insertionSort (· ≤ ·))
        = .error .valueError := by
      rw [hs]
      have hf : findEdge (fun i => thereAndBack (angles120 i)) 120 ([0, 1, 2] : List (Fin 3)) = none := by
        unfold findEdge
        rw [if_neg]
        · unfold findEdge
          rw [if_neg]
          · rfl
          · change ¬(thereAndBack 90 ≤ 120 ∧ 120 ≤ thereAndBack 120)
            intro h
            linarith [h.2]
        · change ¬(thereAndBack 45 ≤ 120 ∧ 120 ≤ thereAndBack 90)
          rw [back_90]
          norm_num
      unfold chooseEdge
      rw [hf]
      simp only [List.head?_cons, List.getLast?_cons_cons, List.getLast?_singleton]
      rw [if_pos]
      change |thereAndBack 45 - thereAndBack 120| < 180
      rw [back_45, abs_lt]
      constructor <;> linarith
    rw [hc]
  · unfold Convex.convexDirection
    have hc : chooseEdge angles120 120 (([0, 1, 2] : List (Fin 3)).insertionSort (· ≤ ·)) = .ok (1, 2) := by
      rw [hs]
      unfold chooseEdge
      have hf : findEdge angles120 120 ([0, 1, 2] : List (Fin 3)) = some (1, 2) := by
        unfold findEdge
        rw [if_neg]
        · unfold findEdge
          rw [if_pos]
          change (90 : ℝ) ≤ 120 ∧ (120 : ℝ) ≤ 120
          norm_num
        · change ¬((45 : ℝ) ≤ 120 ∧ (120 : ℝ) ≤ 90)
          norm_num
      rw [hf]
    rw [hc]
    simp [angles120]

/-! ## Examples -/

/-- The diagram with 45, 90 and 180 degrees meets the hypotheses of `C160_single_partial`. -/
example (bsp : Fin 3 → ℝ) (hb : ∀ i, 0 < bsp i) :
    ∃ i t, cruise (σ := Unit) [0, 1, 2] ![45, 90, 180] bsp none (fun _ _ => .ok (some (1 / 2))) 60 10 =
      .ok [((![45, 90, 180] : Fin 3 → ℝ) i, some t)] ∧ 0 ≤ t ∧ |t * bsp i - 10| ≤ 2 ^ (-53 : ℤ) * 10 := by
  have h180 : thereAndBack 180 = 180 := by simpa using back_of (m := 180) (by decide +kernel)
  have hs : ([0, 1, 2] : List (Fin 3)).insertionSort (· ≤ ·) = [0, 1, 2] := by decide
  have hback : ∀ i, thereAndBack ((![45, 90, 180] : Fin 3 → ℝ) i) = (![45, 90, 180] : Fin 3 → ℝ) i := by
    intro i
    fin_cases i
    · exact back_45
    · exact back_90
    · exact h180
  refine C160_single_partial (d := ⟨45, some 1, none⟩) ?_ hback ?_ hb (by norm_num)
  · intro i j
    fin_cases i <;> fin_cases j <;> simp
  · unfold directions
    simp only [hback]
    have hc : chooseEdge (![45, 90, 180] : Fin 3 → ℝ) 60 (([0, 1, 2] : List (Fin 3)).insertionSort (· ≤ ·)) = .ok (0, 1) := by
      rw [hs]
      unfold chooseEdge findEdge
      rw [if_pos]
      change (45 : ℝ) ≤ 60 ∧ (60 : ℝ) ≤ 90
      norm_num
    rw [hc]
    simp

/-- With two sails, both courses are recommended, which meets the hypotheses of `C160_two_partial`. -/
example (bsp : Fin 3 → ℝ) (hb : ∀ i, 0 < bsp i) :
    ∃ i1 i2 t1 t2, cruise [0, 1, 2] ![45, 90, 180] bsp (some ![true, false, false]) (fun _ _ => .ok (some (1 / 2))) 60 10 =
      .ok [((![45, 90, 180] : Fin 3 → ℝ) i1, some t1), ((![45, 90, 180] : Fin 3 → ℝ) i2, some t2)] ∧ 0 ≤ t1 ∧ 0 ≤ t2 ∧
      |t1 * bsp i1 + t2 * bsp i2 - 10| ≤ 5 * 2 ^ (-53 : ℤ) * 10 := by
  have h180 : thereAndBack 180 = 180 := by simpa using back_of (m := 180) (by decide +kernel)
  have hs : ([0, 1, 2] : List (Fin 3)).insertionSort (· ≤ ·) = [0, 1, 2] := by decide
  have hback : ∀ i, thereAndBack ((![45, 90, 180] : Fin 3 → ℝ) i) = (![45, 90, 180] : Fin 3 → ℝ) i := by
    intro i
    fin_cases i
    · exact back_45
    · exact back_90
    · exact h180
  refine C160_two_partial (d1 := ⟨45, some (1 / 2), some true⟩) (d2 := ⟨90, some (fl (1 - 1 / 2)), some false⟩) ?_ hback ?_ hb
    (by norm_num) ?_
  · intro i j
    fin_cases i <;> fin_cases j <;> simp
  · unfold directions
    simp only [hback]
    have hc : chooseEdge (![45, 90, 180] : Fin 3 → ℝ) 60 (([0, 1, 2] : List (Fin 3)).insertionSort (· ≤ ·)) = .ok (0, 1) := by
      rw [hs]
      unfold chooseEdge findEdge
      rw [if_pos]
      change (45 : ℝ) ≤ 60 ∧ (60 : ℝ) ≤ 90
      norm_num
    rw [hc]
    simp
  · intro i j lam h
    simp only [Except.ok.injEq] at h
    exact ⟨1 / 2, h.symm, by norm_num, by norm_num⟩

/-- Sixty degrees come back smaller; no larger angle comes back below them. -/
example : thereAndBack 60 < 60 ∧ thereAndBack 60 ≤ thereAndBack 61 := by
  refine ⟨?_, C160_mono (by norm_num)⟩
  have h := C160_fifteen 2
  norm_num at h
  exact h

/-- Of the angles 60 and 90 the first does not come back, the second does. -/
example : thereAndBack ((5 * 12 : ℕ) : ℝ) ≠ ((5 * 12 : ℕ) : ℝ) ∧ ¬ thereAndBack ((5 * 18 : ℕ) : ℝ) ≠ ((5 * 18 : ℕ) : ℝ) :=
  ⟨(C160_five_degrees (by norm_num)).2 (by decide), fun h => absurd ((C160_five_degrees (by norm_num)).1 h) (by decide)⟩

end Verif.F64
