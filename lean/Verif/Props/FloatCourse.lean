import Verif.Model.FloatCourse
import Verif.Model.Course
import Verif.Props.FloatCruise

/-!
# Property C164: the heading of `cruise` in double precision
-/

namespace Verif.F64

open Verif.Convex (Direction speedAt)
open Verif.Curve (rad2deg)

variable {sinD cosD acosD : ℝ → ℝ} {ε κ : ℝ}

/-! ## Lemmas -/

/-- Bound for the error of the cosine of the angle between course and wind. -/
noncomputable def courseError (ε : ℝ) : ℝ := 4 * ε + 4 * u ℝ

theorem Trig.course (h : Trig sinD cosD acosD ε κ) (hε : ε ≤ 1 / 8) (rhc wdir : ℝ) :
    |courseCosine sinD cosD rhc wdir - (Real.cos rhc * Real.cos wdir + Real.sin rhc * Real.sin wdir)| ≤ courseError ε := by
  have hu := u_pos (K := ℝ)
  have hu' := u_million
  have e0 := h.nonneg
  have mul1 : ∀ {s t : ℝ}, |s| ≤ 1 → |t| ≤ 1 → |s * t| ≤ 1 := fun hs ht => by
    rw [abs_mul]; exact mul_le_one₀ hs (abs_nonneg _) ht
  have c := fl_small (mul1 (h.cos_le rhc) (h.cos_le wdir))
    (product_close (h.cos_le rhc) (Real.abs_cos_le_one wdir) (h.cos rhc) (h.cos wdir))
  have s := fl_small (mul1 (h.sin_le rhc) (h.sin_le wdir))
    (product_close (h.sin_le rhc) (Real.abs_sin_le_one wdir) (h.sin rhc) (h.sin wdir))
  have t := abs_add_le (fl (cosD rhc * cosD wdir) - Real.cos rhc * Real.cos wdir)
    (fl (sinD rhc * sinD wdir) - Real.sin rhc * Real.sin wdir)
  rw [show fl (cosD rhc * cosD wdir) - Real.cos rhc * Real.cos wdir + (fl (sinD rhc * sinD wdir) - Real.sin rhc * Real.sin wdir) =
    fl (cosD rhc * cosD wdir) + fl (sinD rhc * sinD wdir) - (Real.cos rhc * Real.cos wdir + Real.sin rhc * Real.sin wdir) by ring] at t
  have b : |Real.cos rhc * Real.cos wdir + Real.sin rhc * Real.sin wdir| ≤ 1 := by
    rw [← Real.cos_sub]
    exact Real.abs_cos_le_one _
  have r := fl_close (C := 4 * ε + 2 * u ℝ) (t.trans (by linarith)) b
  unfold courseCosine courseError
  have h1 : u ℝ * (4 * ε) ≤ u ℝ * (1 / 2) := mul_le_mul_of_nonneg_left (by linarith) hu.le
  have h2 : u ℝ * u ℝ ≤ u ℝ * (1 / 10 ^ 6) := mul_le_mul_of_nonneg_left hu' hu.le
  have e : u ℝ * (1 + (4 * ε + 2 * u ℝ)) = u ℝ + u ℝ * (4 * ε) + 2 * (u ℝ * u ℝ) := by ring
  linarith

/-- The factor of `np.rad2deg`. -/
theorem degFactor_close : |fl (180 / fl Real.pi) - 180 / Real.pi| ≤ 2 * u ℝ * (180 / Real.pi) := by
  have hp := Real.pi_pos
  have h1 := Real.pi_gt_d20
  have h2 := Real.pi_lt_d20
  rw [deg_factor, ← sub_nonneg]
  have e : ∀ c : ℝ, c - 180 / Real.pi = (c * Real.pi - 180) / Real.pi := fun c => by field_simp
  rw [e, abs_div, abs_of_pos hp, sub_nonneg, ← mul_div_assoc]
  refine div_le_div_of_nonneg_right ?_ hp.le
  unfold u
  rw [abs_le]
  constructor <;> norm_num at h1 h2 ⊢ <;> linarith

theorem toDeg_close {a : ℝ} : |toDeg a - a * (180 / Real.pi)| ≤ 4 * u ℝ * (|a| * (180 / Real.pi)) := by
  have hu := u_pos (K := ℝ)
  have hu' := u_million
  have hp := Real.pi_pos
  have a0 := abs_nonneg a
  have c : |a * fl (180 / fl Real.pi) - a * (180 / Real.pi)| ≤ 2 * u ℝ * (|a| * (180 / Real.pi)) := by
    rw [← mul_sub, abs_mul]
    have := mul_le_mul_of_nonneg_left degFactor_close a0
    linarith
  have b : |a * (180 / Real.pi)| ≤ |a| * (180 / Real.pi) := by
    rw [abs_mul, abs_of_pos (a := 180 / Real.pi) (by positivity)]
  have r := fl_close c b
  obtain ⟨B, hB⟩ : ∃ B, B = |a| * (180 / Real.pi) := ⟨_, rfl⟩
  have B0 : 0 ≤ B := by rw [hB]; positivity
  rw [← hB] at r ⊢
  unfold toDeg
  have h2 : u ℝ * (u ℝ * B) ≤ u ℝ * B * (1 / 10 ^ 6) := by
    calc u ℝ * (u ℝ * B) = u ℝ * B * u ℝ := by ring
      _ ≤ _ := mul_le_mul_of_nonneg_left hu' (by positivity)
  have e : u ℝ * (B + 2 * u ℝ * B) = u ℝ * B + 2 * (u ℝ * (u ℝ * B)) := by ring
  have : 0 ≤ u ℝ * B := by positivity
  linarith

/-! ## The theorems -/

/-- **C164**: a calculated heading differs from the exact one by at most this bound. -/
theorem C164_error (h : Trig sinD cosD acosD ε κ) (hε : ε ≤ 1 / 8) {rhc wdir x : ℝ}
    (hx : cruiseHeading sinD cosD acosD rhc wdir = some x) :
    |x - Course.cruiseHeading rhc wdir| ≤ 58 * (κ + Real.pi * Real.sqrt (courseError ε / 2)) + 1000 * 2 ^ (-53 : ℤ) := by
  change _ ≤ _ + 1000 * u ℝ
  have hu := u_pos (K := ℝ)
  have hu' := u_million
  have hp := Real.pi_pos
  have c := h.course hε rhc wdir
  obtain ⟨q, hq⟩ : ∃ q, q = courseCosine sinD cosD rhc wdir := ⟨_, rfl⟩
  obtain ⟨D, hD⟩ : ∃ D, D = Real.cos rhc * Real.cos wdir + Real.sin rhc * Real.sin wdir := ⟨_, rfl⟩
  rw [← hq, ← hD] at c
  unfold cruiseHeading at hx
  simp only [← hq] at hx
  split at hx
  · cases hx
  · rename_i hn
    rw [not_or, not_lt, not_lt] at hn
    simp only [Option.some.injEq] at hx
    have hD1 : |D| ≤ 1 := by rw [hD, ← Real.cos_sub]; exact Real.abs_cos_le_one _
    have d1 := h.acos q hn.1 hn.2
    have d2 := arccos_close hn.1 hn.2 (abs_le.1 hD1).1 (abs_le.1 hD1).2
    have d3 : Real.sqrt (|q - D| / 2) ≤ Real.sqrt (courseError ε / 2) := Real.sqrt_le_sqrt (by linarith)
    have d4 := mul_le_mul_of_nonneg_left d3 hp.le
    obtain ⟨E, hE⟩ : ∃ E, E = κ + Real.pi * Real.sqrt (courseError ε / 2) := ⟨_, rfl⟩
    have d5 : |acosD q - Real.arccos D| ≤ E := by
      have := abs_add_le (acosD q - Real.arccos q) (Real.arccos q - Real.arccos D)
      rw [sub_add_sub_cancel] at this
      linarith
    have E0 : 0 ≤ E := (abs_nonneg _).trans d5
    obtain ⟨A, hA⟩ : ∃ A, A = 180 / Real.pi := ⟨_, rfl⟩
    have A0 : 0 < A := by rw [hA]; positivity
    have A1 : A ≤ 573 / 10 := by
      rw [hA, div_le_iff₀ hp]
      linarith [Real.pi_gt_d4]
    have Api : A * Real.pi = 180 := by rw [hA]; field_simp
    have t0 := Real.arccos_nonneg D
    have t1 := Real.arccos_le_pi D
    have a1 : |acosD q| ≤ Real.pi + E := by
      have := abs_add_le (acosD q - Real.arccos D) (Real.arccos D)
      rw [sub_add_cancel, abs_of_nonneg t0] at this
      linarith
    have f1 := toDeg_close (a := acosD q)
    rw [← hA] at f1
    have f2 : |acosD q * A - Real.arccos D * A| ≤ E * A := by
      rw [← sub_mul, abs_mul, abs_of_pos A0]
      exact mul_le_mul_of_nonneg_right d5 A0.le
    have f3 : 4 * u ℝ * (|acosD q| * A) ≤ 720 * u ℝ + 4 * u ℝ * (E * A) := by
      have := mul_le_mul_of_nonneg_left (mul_le_mul_of_nonneg_right a1 A0.le) (show 0 ≤ 4 * u ℝ by linarith)
      have e : 4 * u ℝ * ((Real.pi + E) * A) = 4 * u ℝ * (A * Real.pi) + 4 * u ℝ * (E * A) := by ring
      rw [e, Api] at this
      linarith
    obtain ⟨G, hG⟩ : ∃ G, G = E * A := ⟨_, rfl⟩
    have G0 : 0 ≤ G := by rw [hG]; positivity
    have G1 : G ≤ E * (573 / 10) := by rw [hG]; exact mul_le_mul_of_nonneg_left A1 E0
    rw [← hG] at f2 f3
    have uG : u ℝ * G ≤ 1 / 10 ^ 6 * G := mul_le_mul_of_nonneg_right hu' G0
    have uG0 : 0 ≤ u ℝ * G := by positivity
    have f4 : |180 - toDeg (acosD q) - (180 - Real.arccos D * A)| ≤ 720 * u ℝ + 4 * (u ℝ * G) + G := by
      have := abs_add_le (toDeg (acosD q) - acosD q * A) (acosD q * A - Real.arccos D * A)
      rw [sub_add_sub_cancel] at this
      rw [show 180 - toDeg (acosD q) - (180 - Real.arccos D * A) = -(toDeg (acosD q) - Real.arccos D * A) by ring, abs_neg]
      linarith
    have f5 : |180 - Real.arccos D * A| ≤ 180 := by
      have h1 : 0 ≤ Real.arccos D * A := by positivity
      have h2 : Real.arccos D * A ≤ 180 := by
        rw [← Api, mul_comm A]
        exact mul_le_mul_of_nonneg_right t1 A0.le
      rw [abs_le]
      constructor <;> linarith
    have f6 := fl_close f4 f5
    rw [← hE]
    have e1 : Course.cruiseHeading rhc wdir = 180 - Real.arccos D * A := by
      unfold Course.cruiseHeading rad2deg
      rw [← hD, hA]
      ring
    rw [e1, ← hx]
    have e2 : u ℝ * (180 + (720 * u ℝ + 4 * (u ℝ * G) + G)) = 180 * u ℝ + 720 * (u ℝ * u ℝ) + 4 * (u ℝ * (u ℝ * G)) + u ℝ * G := by ring
    have uu : u ℝ * u ℝ ≤ u ℝ * (1 / 10 ^ 6) := mul_le_mul_of_nonneg_left hu' hu.le
    have uuG : u ℝ * (u ℝ * G) ≤ 1 / 10 ^ 6 * (u ℝ * G) := mul_le_mul_of_nonneg_right hu' uG0
    linarith

/-- **C164**: with accurate functions the error is less than a hundred thousandth of a degree. -/
theorem C164_degrees (h : Trig sinD cosD acosD (2 ^ (-53 : ℤ)) (2 ^ (-50 : ℤ))) {rhc wdir x : ℝ}
    (hx : cruiseHeading sinD cosD acosD rhc wdir = some x) : |x - Course.cruiseHeading rhc wdir| ≤ 1 / 10 ^ 5 := by
  refine (C164_error h (by norm_num) hx).trans ?_
  have hs : Real.sqrt (courseError (2 ^ (-53 : ℤ)) / 2) ≤ 22 / 10 ^ 9 := by
    refine Real.sqrt_le_iff.2 ⟨by norm_num, ?_⟩
    unfold courseError u
    norm_num
  have hp := Real.pi_lt_d2
  have hp0 := Real.pi_pos
  have := mul_le_mul hp.le hs (Real.sqrt_nonneg _) (by norm_num)
  norm_num at this ⊢
  linarith

/-- **C164** (partial): the heading is a number unless the boat is to go almost exactly with or against the wind. -/
theorem C164_defined_partial (h : Trig sinD cosD acosD ε κ) (hε : ε ≤ 1 / 8) {rhc wdir : ℝ}
    (hc : |Real.cos (rhc - wdir)| ≤ 1 - courseError ε) : ∃ x, cruiseHeading sinD cosD acosD rhc wdir = some x := by
  have c := abs_le.1 (h.course hε rhc wdir)
  rw [Real.cos_sub, abs_le] at hc
  unfold cruiseHeading
  simp only
  rw [if_neg]
  · exact ⟨_, rfl⟩
  · rw [not_or, not_lt, not_lt]
    constructor <;> linarith [c.1, c.2]

theorem toDeg_pi : toDeg (fl Real.pi) = 180 := by
  unfold toDeg
  rw [deg_factor, fl_pi, ← Rat.cast_mul, fl_cast]
  have : fl ((884279719003555 / 2 ^ 48 : ℚ) * (1007958012753983 / 2 ^ 44)) = 180 := by decide +kernel
  rw [this]
  norm_num

theorem toDeg_mono {x y : ℝ} (h : x ≤ y) : toDeg x ≤ toDeg y := by
  unfold toDeg
  rw [deg_factor]
  exact fl_mono (mul_le_mul_of_nonneg_right h (by norm_num))

/-- **C164**: headings are from 0 to 180 degrees, if the arc cosine is from 0 to the double next to `π`. -/
theorem C164_range (ha : ∀ t, -1 ≤ t → t ≤ 1 → 0 ≤ acosD t ∧ acosD t ≤ fl Real.pi) {rhc wdir x : ℝ}
    (hx : cruiseHeading sinD cosD acosD rhc wdir = some x) : 0 ≤ x ∧ x ≤ 180 := by
  unfold cruiseHeading at hx
  simp only at hx
  split at hx
  · cases hx
  · rename_i hn
    rw [not_or, not_lt, not_lt] at hn
    simp only [Option.some.injEq] at hx
    obtain ⟨a0, a1⟩ := ha _ hn.1 hn.2
    have b1 := toDeg_mono a1
    rw [toDeg_pi] at b1
    have b0 := toDeg_mono a0
    rw [show toDeg 0 = 0 by simp [toDeg, fl_zero]] at b0
    have f180 : fl (180 : ℝ) = 180 := by
      have := fl_int (K := ℝ) (m := 180) (by norm_num)
      exact_mod_cast this
    rw [← hx]
    refine ⟨fl_nonneg (by linarith), ?_⟩
    have := fl_mono (show 180 - toDeg (acosD (courseCosine sinD cosD rhc wdir)) ≤ 180 by linarith)
    rwa [f180] at this

/-- **C164**: course and wind can be exchanged. -/
theorem C164_symmetric (rhc wdir : ℝ) :
    cruiseHeading sinD cosD acosD rhc wdir = cruiseHeading sinD cosD acosD wdir rhc := by
  unfold cruiseHeading courseCosine
  rw [mul_comm (cosD rhc), mul_comm (sinD rhc)]

/-! ## Courses with the wind -/

/-- The double next to 0.025. -/
noncomputable def smallAngle : ℝ := ((3602879701896397 / 2 ^ 57 : ℚ) : ℝ)

theorem smallAngle_eq : smallAngle = fl (1 / 40 : ℝ) := by
  have := fl_eq_of_rat (x := 1 / 40) (y := 3602879701896397 / 2 ^ 57) (by decide +kernel)
  unfold smallAngle
  rw [← this]
  norm_num

theorem cos_smallAngle : fl (Real.cos smallAngle) = ((4502192325786191 / 2 ^ 52 : ℚ) : ℝ) := by
  have h := (trig_taylor (x := smallAngle) (by unfold smallAngle; rw [abs_le]; norm_num)).1
  unfold smallAngle at h ⊢
  rw [abs_of_pos (a := ((3602879701896397 / 2 ^ 57 : ℚ) : ℝ)) (by norm_num)] at h
  refine fl_between (lo := 4502192325786191 / 2 ^ 52 - 3 / 2 ^ 56) (hi := 4502192325786191 / 2 ^ 52 - 1 / 2 ^ 55) ?_ ?_
    (by decide +kernel) (by decide +kernel)
  · have := (abs_le.1 h).1
    refine le_trans ?_ (le_sub_iff_add_le.1 this)
    norm_num
  · have := (abs_le.1 h).2
    refine (sub_le_iff_le_add.1 this).trans ?_
    norm_num

theorem sin_smallAngle : fl (Real.sin smallAngle) = ((3602504413655399 / 2 ^ 57 : ℚ) : ℝ) := by
  have h := (trig_taylor (x := smallAngle) (by unfold smallAngle; rw [abs_le]; norm_num)).2
  unfold smallAngle at h ⊢
  rw [abs_of_pos (a := ((3602879701896397 / 2 ^ 57 : ℚ) : ℝ)) (by norm_num)] at h
  refine fl_between (lo := 3602504413655399 / 2 ^ 57 - 1 / 2 ^ 60) (hi := 3602504413655399 / 2 ^ 57) ?_ ?_
    (by decide +kernel) (by decide +kernel)
  · have := (abs_le.1 h).1
    refine le_trans ?_ (le_sub_iff_add_le.1 this)
    norm_num
  · have := (abs_le.1 h).2
    refine (sub_le_iff_le_add.1 this).trans ?_
    norm_num

/-- **C164 is false** for courses exactly along the direction of the wind: if sine and cosine of 0.025 are correctly rounded, then
the calculated cosine of the angle between the course 0.025 and the wind direction 0.025 is more than 1 and the heading is `nan`.
In exact arithmetic it is 180 degrees. -/
theorem C164_same_false (hc : cosD smallAngle = fl (Real.cos smallAngle)) (hs : sinD smallAngle = fl (Real.sin smallAngle)) :
    cruiseHeading sinD cosD acosD smallAngle smallAngle = none ∧ Course.cruiseHeading smallAngle smallAngle = 180 := by
  constructor
  · have hq : courseCosine sinD cosD smallAngle smallAngle = ((4503599627370497 / 2 ^ 52 : ℚ) : ℝ) := by
      unfold courseCosine
      rw [hc, hs, cos_smallAngle, sin_smallAngle, ← Rat.cast_mul, ← Rat.cast_mul, fl_cast, fl_cast, ← Rat.cast_add, fl_cast]
      congr 1
      decide +kernel
    unfold cruiseHeading
    simp only [hq]
    rw [if_pos (Or.inr (by norm_num))]
  · unfold Course.cruiseHeading rad2deg
    rw [← Real.cos_sub, sub_self, Real.cos_zero, Real.arccos_one]
    norm_num

section
variable {n : Nat} {σ : Type} [DecidableEq σ] {vertices : List (Fin n)} {wa bsp : Fin n → ℝ} {info : Option (Fin n → σ)}
  {prop : ℝ → Fin n → Fin n → Except PyErr (Option ℝ)} {singular : Fin n → Fin n → Bool} {rhc wdir dist : ℝ}

/-- **C164**: what `cruise` does in this case: it raises an error, or recommends the first vertex of the hull alone (if the hull
has two vertices only, as neighbours), or the first and the last vertex with unknown times. -/
theorem C164_cruise_nan (hn : cruiseHeading sinD cosD acosD rhc wdir = none) {l : List (ℝ × Option ℝ)}
    (h : cruiseCourse sinD cosD acosD vertices wa bsp info prop singular rhc wdir dist = .ok l) :
    (∃ i1 i2 : Fin n, i1 ∈ vertices ∧ i2 ∈ vertices ∧ ((i1 : Nat) + 1 = i2 ∨ (i2 : Nat) + 1 = i1) ∧
      l.map Prod.fst = [thereAndBack (wa i1)]) ∨
    ∃ i1 i2 : Fin n, i1 ∈ vertices ∧ i2 ∈ vertices ∧ l = [(thereAndBack (wa i1), none), (thereAndBack (wa i2), none)] := by
  unfold cruiseCourse at h
  rw [hn] at h
  simp only at h
  split at h
  · cases h
  · rename_i ds hds
    unfold directionsNan at hds
    simp only at hds
    split at hds
    · rename_i i1 i2 h1 h2
      have m1 : i1 ∈ vertices := (List.mem_insertionSort _).1 (List.mem_of_mem_head? h1)
      have m2 : i2 ∈ vertices := (List.mem_insertionSort _).1 (List.mem_of_mem_getLast? h2)
      split at hds
      · cases hds
      · split at hds
        · rename_i hadj
          cases hds
          refine Or.inl ⟨i1, i2, m1, m2, hadj.1, ?_⟩
          simp only [times] at h
          split at h
          · cases h
          · cases h
            rfl
        · split at hds
          · cases hds
          · cases hds
            refine Or.inr ⟨i1, i2, m1, m2, ?_⟩
            simp only [times] at h
            split at h
            · cases h
              rfl
            · cases h
            · cases h
    · cases hds

/-- **C164**: otherwise it is `cruise` for the calculated heading. -/
theorem C164_cruise_number {x : ℝ} (hx : cruiseHeading sinD cosD acosD rhc wdir = some x) :
    cruiseCourse sinD cosD acosD vertices wa bsp info prop singular rhc wdir dist =
      cruise vertices wa bsp info (prop x) x dist := by
  unfold cruiseCourse
  rw [hx]

/-- **C164 is false** for diagrams with angles from less than 180 degrees: `cruise` raises `ValueError` for a boat going exactly
with the wind, as if this direction were not supported. -/
theorem C164_unsupported_false (hn : cruiseHeading sinD cosD acosD rhc wdir = none) {i : Fin n} (hi : i ∈ vertices)
    (hw : ∀ i ∈ vertices, ∀ j ∈ vertices, |thereAndBack (wa i) - thereAndBack (wa j)| < 180) :
    cruiseCourse sinD cosD acosD vertices wa bsp info prop singular rhc wdir dist = .error .valueError := by
  have hne : vertices.insertionSort (· ≤ ·) ≠ [] := by
    intro e
    have := (List.mem_insertionSort (· ≤ ·)).2 hi
    rw [e] at this
    cases this
  obtain ⟨i1, h1⟩ : ∃ i1, (vertices.insertionSort (· ≤ ·)).head? = some i1 := ⟨_, List.head?_eq_some_head hne⟩
  obtain ⟨i2, h2⟩ : ∃ i2, (vertices.insertionSort (· ≤ ·)).getLast? = some i2 := ⟨_, List.getLast?_eq_some_getLast hne⟩
  have m1 : i1 ∈ vertices := (List.mem_insertionSort _).1 (List.mem_of_mem_head? h1)
  have m2 : i2 ∈ vertices := (List.mem_insertionSort _).1 (List.mem_of_mem_getLast? h2)
  unfold cruiseCourse directionsNan
  rw [hn]
  simp only [h1, h2, if_pos (hw i1 m1 i2 m2)]

end

/-! ## Examples -/

/-- The hypotheses for correctly rounded functions. -/
example : cruiseHeading (fun x => fl (Real.sin x)) (fun x => fl (Real.cos x)) Real.arccos smallAngle smallAngle = none :=
  (C164_same_false rfl rfl).1

/-- A course at a right angle to the wind has a heading. -/
example : ∃ x, cruiseHeading (fun x => fl (Real.sin x)) (fun x => fl (Real.cos x)) Real.arccos (Real.pi / 2) 0 = some x := by
  refine C164_defined_partial trig_rounded (by norm_num) ?_
  rw [sub_zero, Real.cos_pi_div_two, abs_zero, sub_nonneg]
  unfold courseError u
  norm_num

/-- A course at a right angle to the wind with correctly rounded functions: near the exact course, and between 0 and 180 degrees. -/
example : ∃ x, cruiseHeading (fun x => fl (Real.sin x)) (fun x => fl (Real.cos x)) Real.arccos (Real.pi / 2) 0 = some x ∧
    |x - Course.cruiseHeading (Real.pi / 2) 0| ≤ 58 * (2 ^ (-50 : ℤ) + Real.pi * Real.sqrt (courseError (2 ^ (-53 : ℤ)) / 2)) +
      1000 * 2 ^ (-53 : ℤ) ∧ |x - Course.cruiseHeading (Real.pi / 2) 0| ≤ 1 / 10 ^ 5 := by
  have ht : Trig (fun x => fl (Real.sin x)) (fun x => fl (Real.cos x)) Real.arccos (2 ^ (-53 : ℤ)) (2 ^ (-50 : ℤ)) :=
    ⟨trig_rounded.sin, trig_rounded.cos, trig_rounded.sin_le, trig_rounded.cos_le, fun t _ _ => by simp⟩
  obtain ⟨x, hx⟩ := C164_defined_partial ht (by norm_num) (rhc := Real.pi / 2) (wdir := 0) (by
    rw [sub_zero, Real.cos_pi_div_two, abs_zero, sub_nonneg]
    unfold courseError u
    norm_num)
  exact ⟨x, hx, C164_error ht (by norm_num) hx, C164_degrees ht hx⟩

end Verif.F64
