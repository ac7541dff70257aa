import Verif.Lemmas.Float64
import Mathlib.Data.Rat.Floor
import Mathlib.Data.Rat.Cast.Order

/-!
# Rounding rational numbers in larger fields
-/

namespace Verif.F64

variable {K : Type} [Field K] [LinearOrder K] [IsStrictOrderedRing K] [FloorRing K]

theorem pyRound_cast (q : ℚ) : pyRound (q : K) = pyRound q := by
  have h : ⌊(q : K)⌋ = ⌊q⌋ := Rat.floor_cast q
  have c1 : (q : K) - (⌊q⌋ : K) < 1 / 2 ↔ q - (⌊q⌋ : ℚ) < 1 / 2 := by
    rw [← Rat.cast_lt (K := K)]; push_cast; rfl
  have c2 : 1 / 2 < (q : K) - (⌊q⌋ : K) ↔ 1 / 2 < q - (⌊q⌋ : ℚ) := by
    rw [← Rat.cast_lt (K := K)]; push_cast; rfl
  simp only [pyRound, h, c1, c2]

theorem log_cast (q : ℚ) (hq : 0 < q) : Int.log 2 (q : K) = Int.log 2 q := by
  have hq' : (0 : K) < q := by exact_mod_cast hq
  have a1 := Int.zpow_log_le_self (b := 2) (by norm_num) hq
  have a2 := Int.lt_zpow_succ_log_self (b := 2) (by norm_num) q
  refine le_antisymm ?_ ?_
  · have : (q : K) < (2 : ℕ) ^ (Int.log 2 q + 1) := by
      have h := (Rat.cast_lt (K := K)).2 a2
      push_cast at h ⊢
      exact h
    have := (Int.lt_zpow_iff_log_lt (b := 2) (by norm_num) hq').1 this
    omega
  · refine (Int.zpow_le_iff_le_log (b := 2) (by norm_num) hq').1 ?_
    have h := (Rat.cast_le (K := K)).2 a1
    push_cast at h ⊢
    exact h

/-- Rounding a rational number gives the same result in every field. -/
theorem fl_cast (q : ℚ) : fl (q : K) = ((fl q : ℚ) : K) := by
  by_cases h : q = 0
  · simp [h, fl]
  · have h' : (q : K) ≠ 0 := by exact_mod_cast h
    have hl : Int.log 2 |(q : K)| = Int.log 2 |q| := by
      rw [← Rat.cast_abs]
      exact log_cast _ (abs_pos.2 h)
    unfold fl
    rw [if_neg h, if_neg h']
    simp only [hl]
    push_cast
    congr 2
    rw [← pyRound_cast (K := K)]
    push_cast
    rfl

end Verif.F64
