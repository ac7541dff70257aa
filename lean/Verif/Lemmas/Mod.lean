import Mathlib.Tactic.Ring
import Mathlib.Tactic.Linarith
import Mathlib.Tactic.FieldSimp
import Mathlib.Tactic.LinearCombination
import Verif.Model.Mod

/-! # Lemmas on the python operator `%` -/

namespace Verif

variable {K : Type} [Field K] [LinearOrder K] [IsStrictOrderedRing K] [FloorRing K]

theorem pmod_nonneg (x : K) {m : K} (hm : 0 < m) : 0 ≤ pmod x m := by
  have h := Int.floor_le (x / m)
  rw [le_div_iff₀ hm] at h
  simp only [pmod]
  linarith

theorem pmod_lt (x : K) {m : K} (hm : 0 < m) : pmod x m < m := by
  have h := Int.lt_floor_add_one (x / m)
  rw [div_lt_iff₀ hm] at h
  simp only [pmod]
  linarith

theorem pmod_of_mem {x m : K} (h0 : 0 ≤ x) (h1 : x < m) : pmod x m = x := by
  have hm : 0 < m := lt_of_le_of_lt h0 h1
  have : ⌊x / m⌋ = 0 := by
    rw [Int.floor_eq_iff]
    simp only [Int.cast_zero, zero_add]
    exact ⟨by positivity, (div_lt_one hm).2 h1⟩
  simp [pmod, this]

theorem pmod_add_mul (x : K) {m : K} (hm : 0 < m) (k : Int) : pmod (x + m * k) m = pmod x m := by
  have hne : m ≠ 0 := ne_of_gt hm
  have : (x + m * k) / m = x / m + k := by field_simp
  simp only [pmod, this, Int.floor_add_intCast]
  push_cast
  ring

theorem pmod_pmod (x : K) {m : K} (hm : 0 < m) : pmod (pmod x m) m = pmod x m :=
  pmod_of_mem (pmod_nonneg x hm) (pmod_lt x hm)

theorem pmod_self {m : K} (hm : 0 < m) : pmod m m = 0 := by
  simp [pmod, div_self (ne_of_gt hm)]

/-- Two numbers have the same remainder exactly if they differ by an integer multiple. -/
theorem pmod_eq_iff (x y : K) {m : K} (hm : 0 < m) : pmod x m = pmod y m ↔ ∃ k : Int, x = y + m * k := by
  constructor
  · intro h
    refine ⟨⌊x / m⌋ - ⌊y / m⌋, ?_⟩
    simp only [pmod] at h
    push_cast
    linear_combination h
  · rintro ⟨k, rfl⟩
    exact pmod_add_mul y hm k

/-- The mirrored angle of the remainder. -/
theorem pmod_neg_pmod (x : K) {m : K} (hm : 0 < m) : pmod (m - pmod x m) m = pmod (m - x) m := by
  rw [pmod_eq_iff _ _ hm]
  exact ⟨⌊x / m⌋, by simp only [pmod]; ring⟩

end Verif
