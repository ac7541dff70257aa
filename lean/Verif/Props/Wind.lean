import Verif.Lemmas.Mod
import Verif.Model.Wind

/-!
# Properties C36 and C62: conversion of winds
-/

namespace Verif.Wind

open Verif.Curve (rad2deg deg2rad)

theorem Dir.value_sq (d : Dir) : d.value ^ 2 = 1 := by cases d <;> norm_num [Dir.value]

theorem rad2deg_deg2rad (x : ℝ) : rad2deg (deg2rad x) = x := by
  have := Real.pi_ne_zero
  unfold rad2deg deg2rad
  field_simp

theorem deg2rad_rad2deg (x : ℝ) : deg2rad (rad2deg x) = x := by
  have := Real.pi_ne_zero
  unfold rad2deg deg2rad
  field_simp

theorem deg2rad_360_sub (x : ℝ) : deg2rad (360 - x) = 2 * Real.pi - deg2rad x := by
  unfold deg2rad; ring

/-- The other frame. -/
def Dir.flip : Dir → Dir
  | .toTrue => .toApparent
  | .toApparent => .toTrue

theorem Dir.flip_value (d : Dir) : d.flip.value = -d.value := by cases d <;> simp [Dir.flip, Dir.value]

theorem convertSpeed_sq (d : Dir) (ws a b : ℝ) :
    convertSpeed d ws a b ^ 2 = (ws * Real.cos a + d.value * b) ^ 2 + (ws * Real.sin a) ^ 2 := by
  have h : ws ^ 2 + b ^ 2 + 2 * d.value * ws * b * Real.cos a =
      (ws * Real.cos a + d.value * b) ^ 2 + (ws * Real.sin a) ^ 2 := by
    have h1 := d.value_sq
    have h2 := Real.sin_sq_add_cos_sq a
    linear_combination (-b ^ 2) * h1 - ws ^ 2 * h2
  rw [convertSpeed, Real.sq_sqrt (by rw [h]; positivity), h]

theorem sin_deg_nonneg {a : ℝ} (h0 : 0 ≤ a) (h1 : a ≤ 180) : 0 ≤ Real.sin (deg2rad a) := by
  have hp := Real.pi_pos
  apply Real.sin_nonneg_of_nonneg_of_le_pi
  · unfold deg2rad; positivity
  · unfold deg2rad; nlinarith

theorem sin_deg_neg {a : ℝ} (h0 : 180 < a) (h1 : a < 360) : Real.sin (deg2rad a) < 0 := by
  have hp := Real.pi_pos
  have : Real.sin (deg2rad (360 - a)) > 0 := by
    apply Real.sin_pos_of_pos_of_lt_pi
    · unfold deg2rad
      have : 0 < 360 - a := by linarith
      positivity
    · unfold deg2rad; nlinarith
  rw [deg2rad_360_sub, Real.sin_two_pi_sub] at this
  linarith

/-- **C36.** The converted wind is the vector sum of the wind and the (positive or negative) head wind of the boat:
wind speed and wind angle are polar coordinates of this sum. -/
theorem C36_vector (d : Dir) {ws wa b : ℝ} (hc : (convertRow d ws wa b).1 ≠ 0) (hws : 0 ≤ ws) :
    ∃ w a, convertRow d ws wa b = (w, some a, b) ∧ 0 < w ∧ 0 ≤ a ∧ a ≤ 360 ∧
      w * Real.cos (deg2rad a) = ws * Real.cos (deg2rad wa) + d.value * b ∧
      w * Real.sin (deg2rad a) = ws * Real.sin (deg2rad wa) := by
  have hp := Real.pi_pos
  have hcos : Real.cos (deg2rad wa) = Real.cos (deg2rad (pmod wa 360)) := by
    have : deg2rad (pmod wa 360) = deg2rad wa - (⌊wa / 360⌋ : Int) * (2 * Real.pi) := by
      unfold deg2rad pmod; ring
    rw [this, Real.cos_sub_int_mul_two_pi]
  have hsin : Real.sin (deg2rad wa) = Real.sin (deg2rad (pmod wa 360)) := by
    have : deg2rad (pmod wa 360) = deg2rad wa - (⌊wa / 360⌋ : Int) * (2 * Real.pi) := by
      unfold deg2rad pmod; ring
    rw [this, Real.sin_sub_int_mul_two_pi]
  rw [hcos, hsin]
  have h0 := pmod_nonneg wa (show (0 : ℝ) < 360 by norm_num)
  have h1 := pmod_lt wa (show (0 : ℝ) < 360 by norm_num)
  simp only [convertRow] at hc ⊢
  generalize pmod wa 360 = α at hc h0 h1 ⊢
  have hsq := convertSpeed_sq d ws (deg2rad α) b
  have hnn : 0 ≤ convertSpeed d ws (deg2rad α) b := Real.sqrt_nonneg _
  generalize hW : convertSpeed d ws (deg2rad α) b = W at hc hsq hnn ⊢
  have hW0 : 0 < W := lt_of_le_of_ne hnn (Ne.symm hc)
  simp only [convertAngle, if_neg hc]
  set X := ws * Real.cos (deg2rad α) + d.value * b with hX
  have hle : |X| ≤ W := by
    apply abs_le_of_sq_le_sq _ hnn
    nlinarith [sq_nonneg (ws * Real.sin (deg2rad α))]
  have ht1 : X / W ≤ 1 := by rw [div_le_one hW0]; exact (abs_le.1 hle).2
  have ht2 : -1 ≤ X / W := by rw [le_div_iff₀ hW0]; linarith [(abs_le.1 hle).1]
  have e1 : (if X / W > 1 then 1 else X / W) = X / W := if_neg (not_lt.2 ht1)
  have e2 : (if X / W < -1 then -1 else X / W) = X / W := if_neg (not_lt.2 ht2)
  simp only [e1, e2]
  have hWcos : W * Real.cos (Real.arccos (X / W)) = X := by
    rw [Real.cos_arccos ht2 ht1]; field_simp
  have hWsin : W * Real.sin (Real.arccos (X / W)) = |ws * Real.sin (deg2rad α)| := by
    rw [Real.sin_arccos]
    have : 1 - (X / W) ^ 2 = ((ws * Real.sin (deg2rad α)) / W) ^ 2 := by
      field_simp
      linarith
    rw [this, Real.sqrt_sq_eq_abs, abs_div, abs_of_pos hW0]
    field_simp
  have ha0 : 0 ≤ rad2deg (Real.arccos (X / W)) := by
    have := Real.arccos_nonneg (X / W)
    unfold rad2deg; positivity
  have ha1 : rad2deg (Real.arccos (X / W)) ≤ 180 := by
    have := Real.arccos_le_pi (X / W)
    unfold rad2deg
    rw [div_le_iff₀ hp]
    linarith
  by_cases hα : α > 180
  · refine ⟨W, 360 - rad2deg (Real.arccos (X / W)), by simp [hα], hW0, by linarith, by linarith, ?_, ?_⟩
    · rw [deg2rad_360_sub, deg2rad_rad2deg, Real.cos_two_pi_sub, hWcos]
    · rw [deg2rad_360_sub, deg2rad_rad2deg, Real.sin_two_pi_sub, mul_neg, hWsin, abs_of_nonpos]
      · ring
      · exact mul_nonpos_of_nonneg_of_nonpos hws (sin_deg_neg hα h1).le
  · refine ⟨W, rad2deg (Real.arccos (X / W)), by simp [hα], hW0, ha0, by linarith, ?_, ?_⟩
    · rw [deg2rad_rad2deg, hWcos]
    · rw [deg2rad_rad2deg, hWsin, abs_of_nonneg]
      exact mul_nonneg hws (sin_deg_nonneg h0 (not_lt.1 hα))

theorem angle_unique {a a' : ℝ} (h0 : 0 ≤ a) (h1 : a < 360) (h0' : 0 ≤ a') (h1' : a' ≤ 360)
    (hc : Real.cos (deg2rad a') = Real.cos (deg2rad a)) (hs : Real.sin (deg2rad a') = Real.sin (deg2rad a)) :
    a' = a ∨ a = 0 ∧ a' = 360 := by
  have hp := Real.pi_pos
  have hcd : Real.cos (deg2rad a' - deg2rad a) = 1 := by
    rw [Real.cos_sub, hc, hs]
    have := Real.sin_sq_add_cos_sq (deg2rad a)
    linarith [this, sq (Real.sin (deg2rad a)), sq (Real.cos (deg2rad a))]
  obtain ⟨n, hn⟩ := (Real.cos_eq_one_iff _).1 hcd
  have hd : a' - a = 360 * n := by
    unfold deg2rad at hn
    have : Real.pi * (a' - a) = Real.pi * (360 * n) := by linarith
    exact mul_left_cancel₀ hp.ne' this
  have hn1 : n < 2 := by
    have : (n : ℝ) < 2 := by linarith
    exact_mod_cast this
  have hn2 : -1 < n := by
    have : (-1 : ℝ) < n := by linarith
    exact_mod_cast this
  have : n = 0 ∨ n = 1 := by omega
  rcases this with rfl | rfl
  · left; push_cast at hd; linarith
  · right; push_cast at hd; constructor <;> linarith

theorem angle_le_180 {d : Dir} {ws wa b w a : ℝ} (h : convertRow d ws wa b = (w, some a, b))
    (hwa : ¬ pmod wa 360 > 180) : a ≤ 180 := by
  have hle : ∀ x : ℝ, rad2deg (Real.arccos x) ≤ 180 := by
    intro x
    have := Real.arccos_le_pi x
    have := Real.pi_pos
    unfold rad2deg
    rw [div_le_iff₀ this]
    linarith
  have h := congrArg (fun x => x.2.1) h
  simp only [convertRow, convertAngle] at h
  split at h
  · cases h
  · simp only [hwa, decide_false, Bool.false_eq_true, if_false, Option.some.injEq] at h
    rw [← h]
    exact hle _

/-- **C36.** If the converted wind speed is not zero then converting a wind and converting the result back gives the wind
with its angle reduced modulo 360. -/
theorem C36_round_trip (d : Dir) {ws wa b : ℝ} (hws : 0 < ws) (hc : (convertRow d ws wa b).1 ≠ 0) :
    ∃ w a, convertRow d ws wa b = (w, some a, b) ∧ 0 < w ∧ 0 ≤ a ∧ a < 360 ∧
      convertRow d.flip w a b = (ws, some (pmod wa 360), b) := by
  obtain ⟨w, a, h1, hw, ha0, ha1, hcos, hsin⟩ := C36_vector d hc hws.le
  have hp0 := pmod_nonneg wa (show (0 : ℝ) < 360 by norm_num)
  have hp1 := pmod_lt wa (show (0 : ℝ) < 360 by norm_num)
  have red : ∃ k : Int, deg2rad (pmod wa 360) = deg2rad wa - k * (2 * Real.pi) :=
    ⟨⌊wa / 360⌋, by unfold deg2rad pmod; ring⟩
  obtain ⟨k, hk⟩ := red
  have hsp : Real.sin (deg2rad (pmod wa 360)) = Real.sin (deg2rad wa) := by
    rw [hk, Real.sin_sub_int_mul_two_pi]
  have hcp : Real.cos (deg2rad (pmod wa 360)) = Real.cos (deg2rad wa) := by
    rw [hk, Real.cos_sub_int_mul_two_pi]
  -- the angle is above 180 iff it was
  have h180 : pmod wa 360 > 180 ↔ a > 180 ∧ a < 360 := by
    constructor
    · intro h
      have hs := sin_deg_neg h hp1
      rw [hsp] at hs
      have hneg : w * Real.sin (deg2rad a) < 0 := by rw [hsin]; exact mul_neg_of_pos_of_neg hws hs
      constructor
      · by_contra hcon
        have := mul_nonneg hw.le (sin_deg_nonneg ha0 (not_lt.1 hcon))
        linarith
      · rcases lt_or_eq_of_le ha1 with h | h
        · exact h
        · rw [h] at hneg
          have : deg2rad 360 = 2 * Real.pi := by unfold deg2rad; ring
          rw [this, Real.sin_two_pi] at hneg
          linarith
    · intro ⟨h, h'⟩
      by_contra hcon
      have hs := sin_deg_nonneg hp0 (not_lt.1 hcon)
      rw [hsp] at hs
      have := mul_neg_of_pos_of_neg hw (sin_deg_neg h h')
      have := mul_nonneg hws.le hs
      linarith
  have ha360 : a < 360 := by
    rcases lt_or_eq_of_le ha1 with h | h
    · exact h
    · exfalso
      have hnot : ¬ pmod wa 360 > 180 := fun hh => absurd (h180.1 hh).2 (by rw [h]; exact lt_irrefl _)
      have := angle_le_180 h1 hnot
      linarith
  refine ⟨w, a, h1, hw, ha0, ha360, ?_⟩
  -- the speed of the wind converted back
  have hpa : pmod a 360 = a := pmod_of_mem ha0 ha360
  have hspeed : (convertRow d.flip w a b).1 = ws := by
    simp only [convertRow, hpa]
    have := convertSpeed_sq d.flip w (deg2rad a) b
    rw [Dir.flip_value, hcos, hsin] at this
    have h2 := Real.sin_sq_add_cos_sq (deg2rad wa)
    have h3 : convertSpeed d.flip w (deg2rad a) b ^ 2 = ws ^ 2 := by
      rw [this]
      linear_combination ws ^ 2 * h2
    exact (pow_left_inj₀ (Real.sqrt_nonneg _) hws.le (by norm_num)).1 h3
  obtain ⟨w2, a2, g1, gw, g0, g360, gcos, gsin⟩ := C36_vector d.flip (ws := w) (wa := a) (b := b)
    (by rw [hspeed]; exact hws.ne') hw.le
  have hw2 : w2 = ws := by rw [g1] at hspeed; exact hspeed
  rw [hw2] at gcos gsin g1
  rw [Dir.flip_value, hcos] at gcos
  rw [hsin] at gsin
  have gc : Real.cos (deg2rad a2) = Real.cos (deg2rad (pmod wa 360)) := by
    rw [hcp]
    exact mul_left_cancel₀ hws.ne' (by linarith)
  have gs : Real.sin (deg2rad a2) = Real.sin (deg2rad (pmod wa 360)) := by
    rw [hsp]
    exact mul_left_cancel₀ hws.ne' gsin
  rcases angle_unique hp0 hp1 g0 g360 gc gs with h | ⟨h, h'⟩
  · rw [g1, h]
  · exfalso
    have hnot : ¬ a > 180 := fun hh => by
      have := h180.2 ⟨hh, ha360⟩
      rw [h] at this
      linarith
    have := angle_le_180 g1 (by rw [hpa]; exact hnot)
    linarith

theorem finite_some (l : List (ℝ × ℝ × ℝ)) : finite (l.map fun r => (r.1, some r.2.1, r.2.2)) = .ok l := by
  induction l with
  | nil => rfl
  | cons r l ih => simp only [List.map_cons, finite, ih]

/-- **C36.** Converting an array of winds and converting the result back gives the same array with reduced wind
angles, if all wind speeds and all converted wind speeds are positive. -/
theorem C36_arrays (d : Dir) {l : List (ℝ × ℝ × ℝ)} (hne : l ≠ []) (hpos : ∀ r ∈ l, 0 < r.1)
    (hconv : ∀ r ∈ l, (convertRow d r.1 r.2.1 r.2.2).1 ≠ 0) :
    ∃ m, convertWind d (l.map fun r => (r.1, some r.2.1, r.2.2)) = .ok m ∧ m.length = l.length ∧
      convertWind d.flip m = .ok (l.map fun r => (r.1, some (pmod r.2.1 360), r.2.2)) := by
  have key : ∀ l : List (ℝ × ℝ × ℝ), (∀ r ∈ l, 0 < r.1) → (∀ r ∈ l, (convertRow d r.1 r.2.1 r.2.2).1 ≠ 0) →
      ∃ m : List (ℝ × ℝ × ℝ), l.map (fun r => convertRow d r.1 r.2.1 r.2.2) = m.map (fun r => (r.1, some r.2.1, r.2.2)) ∧
        (∀ r ∈ m, 0 < r.1) ∧ m.length = l.length ∧
        m.map (fun r => convertRow d.flip r.1 r.2.1 r.2.2) = l.map fun r => (r.1, some (pmod r.2.1 360), r.2.2) := by
    intro l
    induction l with
    | nil => intro _ _; exact ⟨[], rfl, by simp, rfl, rfl⟩
    | cons r l ih =>
      intro h1 h2
      obtain ⟨m, e1, e2, e3, e4⟩ := ih (fun x hx => h1 x (List.mem_cons_of_mem _ hx))
        (fun x hx => h2 x (List.mem_cons_of_mem _ hx))
      obtain ⟨w, a, g1, g2, -, -, g3⟩ := C36_round_trip d (h1 r List.mem_cons_self) (h2 r List.mem_cons_self)
      refine ⟨(w, a, r.2.2) :: m, by simp [g1, e1], ?_, by simp [e3], by simp [g3, e4]⟩
      intro x hx
      rcases List.mem_cons.1 hx with rfl | hx
      · exact g2
      · exact e2 x hx
  obtain ⟨m, e1, e2, e3, e4⟩ := key l hpos hconv
  have hm : m ≠ [] := by
    intro h
    rw [h] at e3
    exact hne (List.length_eq_zero_iff.1 e3.symm)
  have hneg : ∀ k : List (ℝ × ℝ × ℝ), (∀ r ∈ k, 0 < r.1) → ¬ ∃ r ∈ k, r.1 < 0 := by
    rintro k hk ⟨r, hr, h⟩
    exact absurd (hk r hr) (not_lt.2 h.le)
  have hstep : ∀ (d : Dir) (k : List (ℝ × ℝ × ℝ)), k ≠ [] → (∀ r ∈ k, 0 < r.1) →
      convertWind d (k.map fun r => (r.1, some r.2.1, r.2.2)) = .ok (k.map fun r => convertRow d r.1 r.2.1 r.2.2) := by
    intro d k hk hk'
    simp only [convertWind, finite_some, List.isEmpty_iff, hk, if_false, hneg k hk']
  refine ⟨_, hstep d l hne hpos, by simp, ?_⟩
  rw [e1, hstep d.flip m hm e2, e4]

/-- **C36.** Arrays containing a negative wind speed raise `TypeError`. -/
theorem C36_negative (d : Dir) {l : List (ℝ × ℝ × ℝ)} (h : ∃ r ∈ l, r.1 < 0) :
    convertWind d (l.map fun r => (r.1, some r.2.1, r.2.2)) = .error .typeError := by
  have hne : l ≠ [] := by rintro rfl; simp at h
  simp only [convertWind, finite_some, List.isEmpty_iff, hne, if_false, if_pos h]

/-- **C36.** If wind and boat cancel then the wind angle is undefined (`nan`). -/
theorem C36_cancel {ws : ℝ} : (convertRow .toTrue ws 0 ws) = (0, none, ws) := by
  have h : pmod (0 : ℝ) 360 = 0 := pmod_of_mem le_rfl (by norm_num)
  have h2 : convertSpeed .toTrue ws 0 ws = 0 := by
    have := convertSpeed_sq .toTrue ws 0 ws
    simp [Dir.value] at this
    exact this
  have h3 : deg2rad 0 = 0 := by simp [deg2rad]
  simp only [convertRow, h, h3, h2, convertAngle, if_true]

/-- The hypotheses of the round trip hold for wind from abeam. -/
example : (convertRow .toApparent 3 90 4).1 ≠ 0 := by
  have h : pmod (90 : ℝ) 360 = 90 := pmod_of_mem (by norm_num) (by norm_num)
  have h3 : deg2rad 90 = Real.pi / 2 := by unfold deg2rad; ring
  simp only [convertRow, h, h3, convertSpeed, Real.cos_pi_div_two]
  norm_num [Real.sqrt_eq_zero']

/-! ### C62 -/

/-- **C62.** The array of the caller is not changed if all its wind angles are in `[0, 360)`. -/
theorem C62_unchanged_partial {wind : List (ℝ × ℝ × ℝ)} (h : ∀ r ∈ wind, 0 ≤ r.2.1 ∧ r.2.1 < 360) :
    callerArray wind = wind := by
  unfold callerArray
  split
  · rfl
  · conv_rhs => rw [← List.map_id wind]
    apply List.map_congr_left
    intro r hr
    rw [pmod_of_mem (h r hr).1 (h r hr).2]
    rfl

/-- **C62** is false in general: negative wind angles in the array of the caller are overwritten. -/
theorem C62_changed_false {ws wa b : ℝ} (h0 : 0 ≤ ws) (h1 : wa < 0) : callerArray [(ws, wa, b)] ≠ [(ws, wa, b)] := by
  have h := pmod_nonneg wa (show (0 : ℝ) < 360 by norm_num)
  simp only [callerArray, List.mem_singleton, exists_eq_left, not_lt.2 h0, if_false, List.map_cons, List.map_nil, ne_eq,
    List.cons.injEq, Prod.mk.injEq, true_and, and_true]
  intro he
  linarith

/-- **C62.** Exactly when the array of the caller is left alone: if a wind speed is negative (then the conversion raises
before anything is written) or if all wind angles are in `[0, 360)`. -/
theorem C62_exactly (wind : List (ℝ × ℝ × ℝ)) :
    callerArray wind = wind ↔ (∃ r ∈ wind, r.1 < 0) ∨ ∀ r ∈ wind, 0 ≤ r.2.1 ∧ r.2.1 < 360 := by
  constructor
  · intro h
    by_cases hn : ∃ r ∈ wind, r.1 < 0
    · exact .inl hn
    · right
      rw [callerArray, if_neg hn] at h
      intro r hr
      conv_rhs at h => rw [← List.map_id wind]
      have he := List.map_inj_left.1 h r hr
      have : pmod r.2.1 360 = r.2.1 := congrArg (fun x => x.2.1) he
      rw [← this]
      exact ⟨pmod_nonneg _ (by norm_num), pmod_lt _ (by norm_num)⟩
  · rintro (h | h)
    · rw [callerArray, if_pos h]
    · exact C62_unchanged_partial h

example : callerArray [(10, 359, 5), (12, 0, 6)] = [(10, 359, 5), (12, 0, 6)] :=
  (C62_exactly _).2 (.inr (by simp; norm_num))

end Verif.Wind
