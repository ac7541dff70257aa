import Mathlib.Tactic.Linarith
import Verif.Props.CruiseSym

/-!
# Exact conditions for C44 and C45: boats that stand still
-/

set_option linter.unusedSectionVars false

namespace Verif.Cruising

variable {K : Type} [Field K] [LinearOrder K] [IsStrictOrderedRing K]

/-- **C44.** The time per distance is not smaller for a slower boat exactly if the slower boat moves or both stand still. -/
theorem C44_exactly {b b' : K} (h0 : 0 ≤ b) (h : b ≤ b') : invSpeed b' ≤ invSpeed b ↔ 0 < b ∨ b' = 0 := by
  constructor
  · intro hi
    rcases h0.lt_or_eq with h1 | rfl
    · exact .inl h1
    · right
      by_contra hb
      have hpos : 0 < b' := lt_of_le_of_ne h (Ne.symm hb)
      simp only [invSpeed, hb, ne_eq, not_false_eq_true, if_true, not_true_eq_false, if_false] at hi
      have := div_pos one_pos hpos
      linarith
  · rintro (h1 | rfl)
    · have h2 : 0 < b' := h1.trans_le h
      simp only [invSpeed, h1.ne', h2.ne', ne_eq, not_false_eq_true, if_true]
      exact one_div_le_one_div_of_le h1 h
    · rw [le_antisymm h h0]

example : invSpeed (4 : ℚ) ≤ invSpeed 2 ∧ ¬ invSpeed (4 : ℚ) ≤ invSpeed 0 :=
  ⟨(C44_exactly (by norm_num) (by norm_num)).2 (Or.inl (by norm_num)),
    fun h => absurd ((C44_exactly (by norm_num) (by norm_num)).1 h) (by norm_num)⟩

/-- Without a positive budget the loop does not end, whatever the boat does. -/
theorem no_budget (dtds : K → K → K) {total : K} (h0 : total ≤ 0) {minNodes : Nat} (hn : 0 < minNodes) (fuel : Nat) :
    isochrone dtds total minNodes fuel = none := by
  have key : ∀ fuel (st : Iso K), st.t = 0 → st.steps = 0 → isoLoop dtds total minNodes fuel st = none := by
    intro fuel
    induction fuel with
    | zero => intro st _ _; rfl
    | succ fuel ih =>
      intro st ht hs
      rw [isoLoop, if_pos (Or.inr (by omega)), if_pos (by rw [ht]; exact h0)]
      exact ih _ rfl rfl
  rw [isochrone, if_neg (by omega), key fuel _ rfl rfl]

/-- **C45 is false** where the boat gets into a calm: if it stands still from the distance `S` on, and gets there before the end
of the budget, then the loop does not end. -/
theorem C45_into_calm_diverges {dtds : K → K → K} {total M S : K} (h0 : 0 < total) (hM0 : 0 ≤ M) (hS : 0 ≤ S)
    {minNodes : Nat} (hn : 0 < minNodes) (hM : ∀ s t, s < S → dtds s t ≤ M) (hcalm : ∀ s t, S ≤ s → dtds s t = invSpeed 0)
    (hbudget : M * (S + 5 * total / minNodes) < total) (fuel : Nat) : isochrone dtds total minNodes fuel = none := by
  have hn' : (0 : K) < minNodes := by exact_mod_cast hn
  have hstep : 0 < 5 * total / (minNodes : K) := by positivity
  have key : ∀ fuel (st : Iso K), st.step = 5 * total / minNodes → st.t ≤ M * st.s →
      st.t ≤ M * (S + 5 * total / minNodes) → isoLoop dtds total minNodes fuel st = none := by
    intro fuel
    induction fuel with
    | zero => intro st _ _ _; rfl
    | succ fuel ih =>
      intro st h1 h2 h3
      have ht : st.t < total := h3.trans_lt hbudget
      rw [isoLoop, if_pos (Or.inl ht), if_neg (not_le.2 ht)]
      by_cases hs : st.s < S
      · have hd := mul_le_mul_of_nonneg_right (hM st.s st.t hs) hstep.le
        have hms : M * st.s ≤ M * S := mul_le_mul_of_nonneg_left hs.le hM0
        refine ih _ h1 ?_ ?_
        · simp only [advance, h1]
          linarith
        · simp only [advance, h1]
          linarith
      · have hd : dtds st.s st.t = 0 := by
          rw [hcalm _ _ (not_lt.1 hs)]
          simp [invSpeed]
        refine ih _ h1 ?_ ?_
        · simp only [advance, h1, hd, zero_mul, add_zero]
          have := mul_nonneg hM0 hstep.le
          linarith
        · simpa only [advance, hd, zero_mul, add_zero] using h3
  rw [isochrone, if_neg (by omega), key fuel _ rfl (by simp [isoStart])]
  simp only [isoStart]
  have := mul_nonneg hM0 (add_nonneg hS hstep.le)
  linarith

section archimedean

variable [Archimedean K]

/-- **C45.** With the same boat speed everywhere `isochrone` returns exactly if the budget and the speed are positive, and then
the distance is their product. -/
theorem C45_exactly (b total : K) {minNodes : Nat} (hn : 0 < minNodes) :
    (∃ fuel x, isochrone (fun _ _ => invSpeed b) total minNodes fuel = some x) ↔ 0 < total ∧ 0 < b := by
  constructor
  · rintro ⟨fuel, x, h⟩
    by_contra hc
    rw [not_and_or, not_lt, not_lt] at hc
    by_cases h0 : total ≤ 0
    · rw [no_budget _ h0 hn] at h
      simp at h
    have h0 := not_le.1 h0
    have hb : b ≤ 0 := hc.resolve_left (not_le.2 h0)
    have hi : invSpeed b ≤ 0 := by
      unfold invSpeed
      split
      · exact div_nonpos_of_nonneg_of_nonpos zero_le_one hb
      · exact le_refl _
    have hn' : (0 : K) < minNodes := by exact_mod_cast hn
    have key : ∀ fuel (st : Iso K), 0 < st.step → st.t ≤ 0 →
        isoLoop (fun _ _ => invSpeed b) total minNodes fuel st = none := by
      intro fuel
      induction fuel with
      | zero => intro st _ _; rfl
      | succ fuel ih =>
        intro st h1 h2
        have ht : st.t < total := h2.trans_lt h0
        rw [isoLoop, if_pos (Or.inl ht), if_neg (not_le.2 ht)]
        refine ih _ h1 ?_
        simp only [advance]
        have := mul_nonpos_of_nonpos_of_nonneg hi h1.le
        linarith
    rw [isochrone, if_neg (by omega), key fuel _ (by simp only [isoStart]; positivity) (by simp [isoStart])] at h
    simp at h
  · rintro ⟨h0, hb⟩
    have hi : 0 < invSpeed b := by
      simp only [invSpeed, hb.ne', ne_eq, not_false_eq_true, if_true]
      positivity
    obtain ⟨fuel, s, h⟩ := C45_terminates_partial (dtds := fun _ _ => invSpeed b) h0 hi (fun _ _ => le_refl _)
      (fun _ _ => le_refl _) hn
    exact ⟨fuel, _, h 0⟩

/-- **C45.** … and then the distance is the product of speed and time. -/
theorem C45_distance {b total : K} {minNodes : Nat} (hn : 0 < minNodes) {fuel : Nat} {x : Except PyErr K}
    (h : isochrone (fun _ _ => invSpeed b) total minNodes fuel = some x) : x = .ok (b * total) := by
  obtain ⟨h0, hb⟩ := (C45_exactly b total hn).1 ⟨fuel, x, h⟩
  have hi : invSpeed b = 1 / b := by simp [invSpeed, hb.ne']
  rw [C122_constant (by rw [hi]; positivity) (by omega) h0 h, hi]
  congr 1
  field_simp

end archimedean

/-- 4 knots for one mile, then calm. -/
example (fuel : Nat) : isochrone (fun s _ => if s < 1 then 1 / 4 else invSpeed 0 : Rat → Rat → Rat) 1 100 fuel = none :=
  C45_into_calm_diverges (M := 1 / 4) (S := 1) (by norm_num) (by norm_num) (by norm_num) (by norm_num)
    (fun s _ h => by rw [if_pos h]) (fun s _ h => by rw [if_neg (not_lt.2 h)]) (by norm_num) fuel

example : isochrone (fun _ _ => invSpeed 4 : Rat → Rat → Rat) 1 4 100 = some (.ok 4) := by decide +kernel

end Verif.Cruising
