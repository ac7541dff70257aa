import Verif.Model.FloatCurve
import Verif.Props.Curve
import Verif.Props.FloatFilter
import Verif.Props.FloatMean

/-!
# Property C191: symmetrised curves are means of both sides
-/

namespace Verif.Curve

/-- **C191.** Symmetrising a symmetrised curve changes nothing. -/
theorem C191_idempotent (f : ℝ → ℝ → ℝ) : symFunc (symFunc f) = symFunc f := by
  funext ws wa
  simp only [symFunc, sub_sub_cancel]
  ring

example : symFunc (fun ws wa => ws * wa) 2 30 = 360 ∧ (fun ws wa => ws * wa : ℝ → ℝ → ℝ) 2 30 = 60 := by
  constructor <;> norm_num [symFunc]

/-- **C191.** Exactly the symmetric curves are not changed by symmetrising. -/
theorem C191_fixed (f : ℝ → ℝ → ℝ) : symFunc f = f ↔ ∀ ws wa, f ws (360 - wa) = f ws wa := by
  constructor
  · intro h ws wa
    have h1 := congrFun (congrFun h ws) wa
    simp only [symFunc] at h1
    linarith
  · intro h
    funext ws wa
    simp only [symFunc, h]
    ring

example : (∀ ws wa : ℝ, (fun ws wa => ws * (wa - 180) ^ 2) ws (360 - wa) = (fun ws wa => ws * (wa - 180) ^ 2) ws wa) ∧
    ¬ ∀ ws wa : ℝ, (fun ws wa => ws * wa) ws (360 - wa) = (fun ws wa => ws * wa) ws wa := by
  refine ⟨fun ws wa => by ring, fun h => ?_⟩
  have := h 1 0
  norm_num at this

/-- **C191.** The values of the symmetrised curve are between those of the two sides, and a curve which is nowhere slower than
another one is so after symmetrising. -/
theorem C191_between (f g : ℝ → ℝ → ℝ) (ws wa : ℝ) :
    (min (f ws wa) (f ws (360 - wa)) ≤ symFunc f ws wa ∧ symFunc f ws wa ≤ max (f ws wa) (f ws (360 - wa))) ∧
    ((∀ a, f ws a ≤ g ws a) → symFunc f ws wa ≤ symFunc g ws wa) := by
  refine ⟨⟨?_, ?_⟩, fun h => ?_⟩
  · simp only [symFunc]
    linarith [min_le_left (f ws wa) (f ws (360 - wa)), min_le_right (f ws wa) (f ws (360 - wa))]
  · simp only [symFunc]
    linarith [le_max_left (f ws wa) (f ws (360 - wa)), le_max_right (f ws wa) (f ws (360 - wa))]
  · simp only [symFunc]
    linarith [h wa, h (360 - wa)]

end Verif.Curve

namespace Verif.F64

variable {K : Type} [Field K] [LinearOrder K] [IsStrictOrderedRing K] [FloorRing K] [Archimedean K]

/-- The angles with 44 binary digits after the point, for example all multiples of one half, one quarter, … of a degree. -/
def OnGrid (a : K) : Prop := ∃ m : ℤ, a = m * 2 ^ (-44 : ℤ)

theorem grid_exact {a : K} (h : OnGrid a) (h0 : 0 ≤ a) (h1 : a ≤ 360) : fl a = a ∧ fl (360 - a) = 360 - a ∧ OnGrid (360 - a) := by
  obtain ⟨m, rfl⟩ := h
  have hp : (0 : K) < 2 ^ (-44 : ℤ) := two_zpow_pos _
  have e360 : (360 : K) = ((360 * 2 ^ 44 : ℤ) : K) * 2 ^ (-44 : ℤ) := by
    push_cast
    rw [zpow_neg]
    norm_num
  have e : (360 : K) - (m : K) * 2 ^ (-44 : ℤ) = ((360 * 2 ^ 44 - m : ℤ) : K) * 2 ^ (-44 : ℤ) := by
    rw [e360]
    push_cast
    ring
  have hm0 : 0 ≤ m := by
    have : (0 : K) ≤ m := nonneg_of_mul_nonneg_left h0 hp
    exact_mod_cast this
  have hm1 : m ≤ 360 * 2 ^ 44 := by
    rw [e360] at h1
    have := le_of_mul_le_mul_right h1 hp
    exact_mod_cast this
  refine ⟨fl_exact ?_, ?_, _, e⟩
  · rw [abs_of_nonneg hm0]
    omega
  · rw [e]
    refine fl_exact ?_
    rw [abs_of_nonneg (by omega)]
    omega

theorem fl_half_mul (x : K) : fl (1 / 2 * x) = 1 / 2 * fl x := by
  have := fl_scale x (-1)
  rw [zpow_neg_one] at this
  rw [one_div, mul_comm, this, mul_comm]

/-- **C191.** In double precision the values of the symmetrised curve are between those of the two sides, too. -/
theorem C191_double_between {f : K → K → K} (hf : ∀ w a, fl (f w a) = f w a) (ws wa : K) :
    min (f ws wa) (f ws (fl (360 - wa))) ≤ symFunc f ws wa ∧ symFunc f ws wa ≤ max (f ws wa) (f ws (fl (360 - wa))) := by
  have key : ∀ x : K, fl x = x → fl (1 / 2 * fl (2 * x)) = x := by
    intro x hx
    rw [fl_half_mul, fl_fl, ← fl_half_mul, ← mul_assoc, show (1 / 2 : K) * 2 = 1 by norm_num, one_mul, hx]
  have hd : fl (min (f ws wa) (f ws (fl (360 - wa)))) = min (f ws wa) (f ws (fl (360 - wa))) := by
    rcases min_choice (f ws wa) (f ws (fl (360 - wa))) with h | h <;> rw [h, hf]
  have hD : fl (max (f ws wa) (f ws (fl (360 - wa)))) = max (f ws wa) (f ws (fl (360 - wa))) := by
    rcases max_choice (f ws wa) (f ws (fl (360 - wa))) with h | h <;> rw [h, hf]
  have hmono : ∀ {x y : K}, x ≤ y → fl (1 / 2 * fl x) ≤ fl (1 / 2 * fl y) := by
    intro x y h
    exact fl_mono (mul_le_mul_of_nonneg_left (fl_mono h) (by norm_num))
  unfold symFunc
  constructor
  · conv_lhs => rw [← key _ hd]
    refine hmono ?_
    linarith [min_le_left (f ws wa) (f ws (fl (360 - wa))), min_le_right (f ws wa) (f ws (fl (360 - wa)))]
  · conv_rhs => rw [← key _ hD]
    refine hmono ?_
    linarith [le_max_left (f ws wa) (f ws (fl (360 - wa))), le_max_right (f ws wa) (f ws (fl (360 - wa)))]

/-- **C191.** In double precision the symmetrised curve has the same value at an angle and at its mirror image, and symmetrising twice
changes nothing, if the angle has at most 44 binary digits after the point. -/
theorem C191_double_symmetric (f : K → K → K) (ws : K) {wa : K} (h : OnGrid wa) (h0 : 0 ≤ wa) (h1 : wa ≤ 360) :
    symFunc f ws (fl (360 - wa)) = symFunc f ws wa ∧ symFunc (symFunc f) ws wa = symFunc f ws wa := by
  obtain ⟨e1, e2, e3⟩ := grid_exact h h0 h1
  have hs : symFunc f ws (fl (360 - wa)) = symFunc f ws wa := by
    unfold symFunc
    rw [e2, sub_sub_cancel, e1, add_comm]
  refine ⟨hs, ?_⟩
  have hd : fl (symFunc f ws wa) = symFunc f ws wa := by
    unfold symFunc
    exact fl_fl _
  have e : symFunc (symFunc f) ws wa = fl (1 / 2 * fl (symFunc f ws wa + symFunc f ws (fl (360 - wa)))) := rfl
  rw [e, hs, fl_half_mul, fl_fl, ← fl_half_mul, ← two_mul, ← mul_assoc, show (1 / 2 : K) * 2 = 1 by norm_num, one_mul, hd]

example : OnGrid (65 / 2 : ℚ) ∧ symFunc (fun _ a => if a = 65 / 2 then 3 else 1) 6 (fl (360 - 65 / 2)) = (2 : ℚ) := by
  refine ⟨⟨65 * 2 ^ 43, by norm_num⟩, by decide +kernel⟩

/-- **C191.** For other angles the value on the other side can be different: 360 - (360 - 32.09) is rounded to another number. -/
theorem C191_double_needed :
    symFunc (fun _ a => if a = fl (3209 / 100) then 1 else 0) 6 (fl (3209 / 100)) = (1 / 2 : ℚ) ∧
    symFunc (fun _ a => if a = fl (3209 / 100) then 1 else 0) 6 (fl (360 - fl (3209 / 100))) = (0 : ℚ) := by
  decide +kernel

end Verif.F64
