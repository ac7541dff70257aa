import Verif.Props.Wind

/-!
# Property C125: the wind triangle
-/

namespace Verif.Wind

open Verif.Curve (rad2deg deg2rad)

/-- The angle between the wind and the bow, from 0 (head wind) to 180 (tail wind). -/
noncomputable def offBow (a : ℝ) : ℝ := min a (360 - a)

theorem cos_offBow (a : ℝ) : Real.cos (deg2rad (offBow a)) = Real.cos (deg2rad a) := by
  unfold offBow
  rcases min_choice a (360 - a) with h | h
  · rw [h]
  · rw [h, deg2rad_360_sub, Real.cos_two_pi_sub]

theorem offBow_le_of_cos {a b : ℝ} (ha : 0 ≤ a ∧ a ≤ 360) (hb : 0 ≤ b ∧ b ≤ 360)
    (h : Real.cos (deg2rad b) ≤ Real.cos (deg2rad a)) : offBow a ≤ offBow b := by
  have hp := Real.pi_pos
  have mem : ∀ x : ℝ, 0 ≤ x ∧ x ≤ 360 → deg2rad (offBow x) ∈ Set.Icc (0 : ℝ) Real.pi := by
    intro x hx
    have h0 : 0 ≤ offBow x := le_min hx.1 (by linarith [hx.2])
    have h1 : offBow x ≤ 180 := by
      unfold offBow
      rcases le_total x 180 with h | h
      · exact (min_le_left _ _).trans h
      · exact (min_le_right _ _).trans (by linarith)
    unfold deg2rad
    constructor
    · positivity
    · nlinarith
  rw [← cos_offBow a, ← cos_offBow b] at h
  have := (Real.strictAntiOn_cos.le_iff_ge (mem b hb) (mem a ha)).1 h
  unfold deg2rad at this
  nlinarith

theorem cos_pmod (wa : ℝ) : Real.cos (deg2rad (pmod wa 360)) = Real.cos (deg2rad wa) := by
  have : deg2rad (pmod wa 360) = deg2rad wa - (⌊wa / 360⌋ : Int) * (2 * Real.pi) := by
    unfold deg2rad pmod; ring
  rw [this, Real.cos_sub_int_mul_two_pi]

theorem sin_pmod (wa : ℝ) : Real.sin (deg2rad (pmod wa 360)) = Real.sin (deg2rad wa) := by
  have : deg2rad (pmod wa 360) = deg2rad wa - (⌊wa / 360⌋ : Int) * (2 * Real.pi) := by
    unfold deg2rad pmod; ring
  rw [this, Real.sin_sub_int_mul_two_pi]

theorem speed_sq (d : Dir) (ws wa b : ℝ) : (convertRow d ws wa b).1 ^ 2 =
    ws ^ 2 + b ^ 2 + 2 * d.value * ws * b * Real.cos (deg2rad wa) := by
  simp only [convertRow]
  rw [convertSpeed_sq, cos_pmod, sin_pmod]
  have h1 := d.value_sq
  have h2 := Real.sin_sq_add_cos_sq (deg2rad wa)
  linear_combination b ^ 2 * h1 + ws ^ 2 * h2

theorem speed_nonneg (d : Dir) (ws wa b : ℝ) : 0 ≤ (convertRow d ws wa b).1 := Real.sqrt_nonneg _

/-- **C125.** The converted wind speed is at least the difference and at most the sum of wind speed and boat speed. -/
theorem C125_speed (d : Dir) {ws : ℝ} (hws : 0 ≤ ws) (wa b : ℝ) :
    |ws - (|b|)| ≤ (convertRow d ws wa b).1 ∧ (convertRow d ws wa b).1 ≤ ws + |b| := by
  have h := speed_sq d ws wa b
  have h0 := speed_nonneg d ws wa b
  have hb := abs_nonneg b
  have hv : |d.value| = 1 := by cases d <;> simp [Dir.value]
  have hc : |d.value * b * Real.cos (deg2rad wa)| ≤ |b| := by
    rw [abs_mul, abs_mul, hv, one_mul]
    exact mul_le_of_le_one_right hb (Real.abs_cos_le_one _)
  have hb2 : |b| ^ 2 = b ^ 2 := sq_abs b
  obtain ⟨h1, h2⟩ := abs_le.1 hc
  constructor
  · apply abs_le_of_sq_le_sq _ h0
    rw [h]
    nlinarith
  · refine (le_abs_self _).trans (abs_le_of_sq_le_sq ?_ (by positivity))
    rw [h]
    nlinarith

example : 5 ≤ (convertRow .toApparent 10 90 5).1 ∧ (convertRow .toApparent 10 90 5).1 ≤ 15 := by
  have := C125_speed .toApparent (show (0 : ℝ) ≤ 10 by norm_num) 90 5
  norm_num at this
  exact this

/-- **C125.** A boat at rest feels the true wind. -/
theorem C125_rest (d : Dir) {ws : ℝ} (hws : 0 < ws) (wa : ℝ) :
    convertRow d ws wa 0 = (ws, some (pmod wa 360), 0) := by
  have hne : (convertRow d ws wa 0).1 = ws := by
    have h := speed_sq d ws wa 0
    have : (convertRow d ws wa 0).1 ^ 2 = ws ^ 2 := by rw [h]; ring
    exact (pow_left_inj₀ (speed_nonneg _ _ _ _) hws.le (by norm_num)).1 this
  obtain ⟨w, a, h1, hw, ha0, ha1, -⟩ := C36_round_trip d (wa := wa) (b := 0) hws (by rw [hne]; exact hws.ne')
  obtain ⟨w', a', h1', hw', ha0', ha1', hcos, hsin⟩ := C36_vector d (ws := ws) (wa := wa) (b := 0)
    (by rw [hne]; exact hws.ne') hws.le
  have e : (w', some a', (0 : ℝ)) = (w, some a, (0 : ℝ)) := by rw [← h1, ← h1']
  simp only [Prod.mk.injEq, Option.some.injEq, and_true] at e
  obtain ⟨rfl, rfl⟩ := e
  have hww : w' = ws := by rw [h1] at hne; exact hne
  rw [hww] at hcos hsin h1
  have hc : Real.cos (deg2rad a') = Real.cos (deg2rad (pmod wa 360)) := by
    rw [cos_pmod]
    exact mul_left_cancel₀ hws.ne' (by linarith)
  have hs : Real.sin (deg2rad a') = Real.sin (deg2rad (pmod wa 360)) := by
    rw [sin_pmod]
    exact mul_left_cancel₀ hws.ne' hsin
  have hp0 := pmod_nonneg wa (show (0 : ℝ) < 360 by norm_num)
  have hp1 := pmod_lt wa (show (0 : ℝ) < 360 by norm_num)
  rcases angle_unique hp0 hp1 ha0 ha1.le hc hs with h | ⟨_, h⟩
  · rw [h1, h]
  · linarith

example : convertRow .toApparent 10 (-45) 0 = (10, some (pmod (-45) 360), 0) := C125_rest _ (by norm_num) _

/-- **C125.** Speeds may be given in any unit: multiplying wind speed and boat speed by a positive number multiplies the
converted wind speed and leaves the angle as it is. -/
theorem C125_units (d : Dir) {c : ℝ} (hc : 0 < c) (ws wa b : ℝ) :
    convertRow d (c * ws) wa (c * b) =
      (c * (convertRow d ws wa b).1, (convertRow d ws wa b).2.1, c * b) := by
  have hs : ∀ α, convertSpeed d (c * ws) α (c * b) = c * convertSpeed d ws α b := by
    intro α
    unfold convertSpeed
    have : (c * ws) ^ 2 + (c * b) ^ 2 + 2 * d.value * (c * ws) * (c * b) * Real.cos α =
        c ^ 2 * (ws ^ 2 + b ^ 2 + 2 * d.value * ws * b * Real.cos α) := by ring
    rw [this, Real.sqrt_mul (by positivity), Real.sqrt_sq hc.le]
  simp only [convertRow, hs, Prod.mk.injEq, true_and, and_true]
  unfold convertAngle
  simp only [mul_eq_zero, hc.ne', false_or]
  split
  · rfl
  · rename_i h
    have : (c * ws * Real.cos (deg2rad (pmod wa 360)) + d.value * (c * b)) /
        (c * convertSpeed d ws (deg2rad (pmod wa 360)) b) =
        (ws * Real.cos (deg2rad (pmod wa 360)) + d.value * b) / convertSpeed d ws (deg2rad (pmod wa 360)) b := by
      have e : c * ws * Real.cos (deg2rad (pmod wa 360)) + d.value * (c * b) =
          c * (ws * Real.cos (deg2rad (pmod wa 360)) + d.value * b) := by ring
      rw [e, mul_div_mul_left _ _ hc.ne']
    simp only [this]

/-- **C125.** Full turns do not matter. -/
theorem C125_period (d : Dir) (ws wa b : ℝ) (k : Int) : convertRow d ws (wa + 360 * k) b = convertRow d ws wa b := by
  simp only [convertRow, pmod_add_mul wa (show (0 : ℝ) < 360 by norm_num) k]

/-- **C125.** Port and starboard: the mirrored wind is converted to the mirrored result. (A wind from ahead or from behind
is its own mirror image.) -/
theorem C125_mirror (d : Dir) {ws wa b w a : ℝ} (h0 : pmod wa 360 ≠ 0) (h180 : pmod wa 360 ≠ 180)
    (h : convertRow d ws wa b = (w, some a, b)) : convertRow d ws (-wa) b = (w, some (360 - a), b) := by
  have hp0 := pmod_nonneg wa (show (0 : ℝ) < 360 by norm_num)
  have hp1 := pmod_lt wa (show (0 : ℝ) < 360 by norm_num)
  have hm : pmod (-wa) 360 = 360 - pmod wa 360 := by
    have h1 : pmod (360 - pmod wa 360) 360 = 360 - pmod wa 360 :=
      pmod_of_mem (by linarith) (by linarith [lt_of_le_of_ne hp0 (Ne.symm h0)])
    rw [pmod_neg_pmod wa (show (0 : ℝ) < 360 by norm_num)] at h1
    rw [← h1, pmod_eq_iff _ _ (show (0 : ℝ) < 360 by norm_num)]
    exact ⟨-1, by push_cast; ring⟩
  simp only [convertRow, hm] at h ⊢
  generalize pmod wa 360 = α at *
  have hs : convertSpeed d ws (deg2rad (360 - α)) b = convertSpeed d ws (deg2rad α) b := by
    unfold convertSpeed
    rw [deg2rad_360_sub, Real.cos_two_pi_sub]
  simp only [Prod.mk.injEq, and_true] at h ⊢
  rw [hs]
  refine ⟨h.1, ?_⟩
  have h2 := h.2
  unfold convertAngle at h2 ⊢
  split at h2
  · simp at h2
  · rename_i hne
    rw [if_neg hne]
    simp only [deg2rad_360_sub, Real.cos_two_pi_sub, Option.some.injEq] at h2 ⊢
    rw [← h2]
    rcases lt_or_gt_of_ne h180 with hlt | hgt
    · have h3 : ¬ α > 180 := not_lt.2 hlt.le
      have h4 : 360 - α > 180 := by linarith
      simp only [h3, h4, decide_true, decide_false, if_true, Bool.false_eq_true, if_false]
    · have h4 : ¬ 360 - α > 180 := by linarith
      simp only [hgt, h4, decide_true, decide_false, if_true, Bool.false_eq_true, if_false]
      ring

example : ∃ w a, convertRow .toApparent 10 90 5 = (w, some a, 5) ∧
    convertRow .toApparent 10 (-90) 5 = (w, some (360 - a), 5) := by
  have e : pmod (90 : ℝ) 360 = 90 := pmod_of_mem (by norm_num) (by norm_num)
  have hne : (convertRow .toApparent 10 90 5).1 ≠ 0 := by
    have := (C125_speed .toApparent (show (0 : ℝ) ≤ 10 by norm_num) 90 5).1
    have h5 : |(10 : ℝ) - (|5|)| = 5 := by norm_num
    rw [h5] at this
    intro h
    rw [h] at this
    norm_num at this
  obtain ⟨w, a, h, _⟩ := C36_vector .toApparent hne (by norm_num)
  exact ⟨w, a, h, C125_mirror _ (by rw [e]; norm_num) (by rw [e]; norm_num) h⟩

/-- Adding head wind turns a wind towards the bow. -/
theorem forward_core {ws b c W : ℝ} (hws : 0 ≤ ws) (hb : 0 ≤ b) (hc : c ^ 2 ≤ 1) (hW : 0 ≤ W)
    (h : W ^ 2 = ws ^ 2 + b ^ 2 + 2 * ws * b * c) : W * c ≤ ws * c + b := by
  have hc' : |c| ≤ 1 := (sq_le_one_iff_abs_le_one c).1 hc
  obtain ⟨hc1, hc2⟩ := abs_le.1 hc'
  rcases le_total 0 c with hc0 | hc0
  · have hle : W ≤ ws + b := by
      refine (le_abs_self _).trans (abs_le_of_sq_le_sq ?_ (by linarith))
      nlinarith [mul_nonneg hws hb]
    nlinarith [mul_nonneg hb (sub_nonneg.2 hc2)]
  · rcases le_total 0 (ws * c + b) with h1 | h1
    · nlinarith [mul_nonneg hW (neg_nonneg.2 hc0)]
    · have hsq : (ws * c + b) ^ 2 ≤ (W * c) ^ 2 := by
        have e : (W * c) ^ 2 - (ws * c + b) ^ 2 = -(b * (1 - c ^ 2) * (b + 2 * ws * c)) := by
          rw [mul_pow, h]; ring
        have : b + 2 * ws * c ≤ 0 := by linarith
        nlinarith [mul_nonneg (mul_nonneg hb (sub_nonneg.2 hc)) (neg_nonneg.2 this)]
      have hn : W * c ≤ 0 := mul_nonpos_of_nonneg_of_nonpos hW hc0
      have := abs_le_of_sq_le_sq (a := -(ws * c + b)) (b := -(W * c)) (by nlinarith) (by linarith)
      linarith [(abs_le.1 this).2]

/-- **C125.** The apparent wind comes from further ahead than the true wind, if the boat does not move backwards. -/
theorem C125_forward {ws wa b w a : ℝ} (hws : 0 ≤ ws) (hb : 0 ≤ b)
    (h : convertRow .toApparent ws wa b = (w, some a, b)) : offBow a ≤ offBow (pmod wa 360) := by
  have hne : (convertRow .toApparent ws wa b).1 ≠ 0 := by
    intro h0
    have : (convertRow .toApparent ws wa b).2.1 = none := by
      simp only [convertRow] at h0 ⊢
      rw [convertAngle, if_pos h0]
    rw [h] at this
    simp at this
  obtain ⟨w', a', h1, hw, ha0, ha1, hcos, _⟩ := C36_vector .toApparent hne hws
  rw [h] at h1
  simp only [Prod.mk.injEq, Option.some.injEq, and_true] at h1
  obtain ⟨rfl, rfl⟩ := h1
  have hp0 := pmod_nonneg wa (show (0 : ℝ) < 360 by norm_num)
  have hp1 := pmod_lt wa (show (0 : ℝ) < 360 by norm_num)
  apply offBow_le_of_cos ⟨ha0, ha1⟩ ⟨hp0, hp1.le⟩
  rw [cos_pmod]
  have hsq := speed_sq .toApparent ws wa b
  rw [h] at hsq
  simp only [Dir.value] at hsq hcos
  have := forward_core hws hb (Real.cos_sq_le_one (deg2rad wa)) hw.le (by linarith)
  have h3 : w * Real.cos (deg2rad wa) ≤ w * Real.cos (deg2rad a) := by linarith
  exact le_of_mul_le_mul_left h3 hw

/-- **C125.** The faster the boat, the further ahead the apparent wind. -/
theorem C125_faster {ws wa b b' w w' a a' : ℝ} (hws : 0 ≤ ws) (hb : b ≤ b')
    (h : convertRow .toApparent ws wa b = (w, some a, b)) (h' : convertRow .toApparent ws wa b' = (w', some a', b')) :
    offBow a' ≤ offBow a := by
  have ne : ∀ {b w a : ℝ}, convertRow .toApparent ws wa b = (w, some a, b) → (convertRow .toApparent ws wa b).1 ≠ 0 := by
    intro b w a h h0
    have : (convertRow .toApparent ws wa b).2.1 = none := by
      simp only [convertRow] at h0 ⊢
      rw [convertAngle, if_pos h0]
    rw [h] at this
    simp at this
  obtain ⟨w1, a1, h1, hw, ha0, ha1, hcos, hsin⟩ := C36_vector .toApparent (ne h) hws
  rw [h] at h1
  simp only [Prod.mk.injEq, Option.some.injEq, and_true] at h1
  obtain ⟨rfl, rfl⟩ := h1
  obtain ⟨w2, a2, h2, hw', ha0', ha1', hcos', hsin'⟩ := C36_vector .toApparent (ne h') hws
  rw [h'] at h2
  simp only [Prod.mk.injEq, Option.some.injEq, and_true] at h2
  obtain ⟨rfl, rfl⟩ := h2
  simp only [Dir.value, one_mul] at hcos hcos'
  apply offBow_le_of_cos ⟨ha0', ha1'⟩ ⟨ha0, ha1⟩
  have hW : w' ^ 2 = w ^ 2 + (b' - b) ^ 2 + 2 * w * (b' - b) * Real.cos (deg2rad a) := by
    have e1 : w' ^ 2 = (w' * Real.cos (deg2rad a')) ^ 2 + (w' * Real.sin (deg2rad a')) ^ 2 := by
      linear_combination -w' ^ 2 * Real.sin_sq_add_cos_sq (deg2rad a')
    have e2 : w ^ 2 = (w * Real.cos (deg2rad a)) ^ 2 + (w * Real.sin (deg2rad a)) ^ 2 := by
      linear_combination -w ^ 2 * Real.sin_sq_add_cos_sq (deg2rad a)
    rw [e1, e2, hcos', hsin', hsin, hcos]
    linear_combination -2 * (b' - b) * hcos
  have := forward_core hw.le (sub_nonneg.2 hb) (Real.cos_sq_le_one (deg2rad a)) hw'.le hW
  have h3 : w' * Real.cos (deg2rad a) ≤ w' * Real.cos (deg2rad a') := by linarith
  exact le_of_mul_le_mul_left h3 hw'

example : ∃ w a w' a' : ℝ, convertRow .toApparent 10 90 5 = (w, some a, 5) ∧
    convertRow .toApparent 10 90 7 = (w', some a', 7) ∧ offBow a' ≤ offBow a ∧ offBow a ≤ offBow (pmod 90 360) := by
  have ne : ∀ b : ℝ, 0 ≤ b → b < 10 → (convertRow .toApparent 10 90 b).1 ≠ 0 := by
    intro b h0 h1
    have := (C125_speed .toApparent (show (0 : ℝ) ≤ 10 by norm_num) 90 b).1
    have h5 : 0 < |(10 : ℝ) - (|b|)| := by
      rw [abs_of_nonneg h0]
      exact abs_pos.2 (by linarith)
    exact (lt_of_lt_of_le h5 this).ne'
  obtain ⟨w, a, h, _⟩ := C36_vector .toApparent (ne 5 (by norm_num) (by norm_num)) (by norm_num)
  obtain ⟨w', a', h', _⟩ := C36_vector .toApparent (ne 7 (by norm_num) (by norm_num)) (by norm_num)
  exact ⟨w, a, w', a', h, h', C125_faster (by norm_num) (by norm_num) h h', C125_forward (by norm_num) (by norm_num) h⟩

end Verif.Wind
