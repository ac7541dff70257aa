import Verif.Model.Round
import Mathlib.Tactic.Linarith
import Mathlib.Tactic.NormNum
import Mathlib.Tactic.Push
import Mathlib.Tactic.Positivity
import Mathlib.Algebra.Order.Floor.Ring

namespace Verif

variable {K : Type} [Field K] [LinearOrder K] [IsStrictOrderedRing K] [FloorRing K]

/-- Rounding moves a number by at most one half. -/
theorem pyRound_spec (x : K) : (pyRound x : K) - 1 / 2 ≤ x ∧ x ≤ (pyRound x : K) + 1 / 2 := by
  have h1 := Int.floor_le x
  have h2 := Int.lt_floor_add_one x
  simp only [pyRound]
  split_ifs <;> push_cast <;> constructor <;> linarith

theorem pyRound_int (n : ℤ) : pyRound (n : K) = n := by
  simp [pyRound]

theorem pyRound_mono {x y : K} (h : x ≤ y) : pyRound x ≤ pyRound y := by
  by_contra hc
  have hc' : pyRound y + 1 ≤ pyRound x := by omega
  have hk : (pyRound y : K) + 1 ≤ (pyRound x : K) := by exact_mod_cast hc'
  have a := pyRound_spec x
  have b := pyRound_spec y
  have hxy : x = y := le_antisymm h (by linarith)
  subst hxy
  omega

end Verif
