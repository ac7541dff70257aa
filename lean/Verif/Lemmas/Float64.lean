import Verif.Lemmas.Round
import Verif.Model.Float64
import Mathlib.Tactic.Linarith
import Mathlib.Tactic.NormNum
import Mathlib.Tactic.Ring
import Mathlib.Tactic.FieldSimp
import Mathlib.Tactic.Positivity

/-!
# Lemmas about rounding to double precision
-/

namespace Verif.F64

variable {K : Type} [Field K] [LinearOrder K] [IsStrictOrderedRing K] [FloorRing K]

theorem two_zpow_pos (e : ℤ) : (0 : K) < 2 ^ e := zpow_pos (by norm_num) e

/-- The exponent of a number. -/
theorem log_bounds {x : K} (hx : x ≠ 0) :
    (2 : K) ^ (52 : ℤ) ≤ |x| / 2 ^ (Int.log 2 |x| - 52) ∧ |x| / 2 ^ (Int.log 2 |x| - 52) < 2 ^ (53 : ℤ) := by
  have hp := abs_pos.2 hx
  have h1 := Int.zpow_log_le_self (b := 2) (by norm_num) hp
  have h2 := Int.lt_zpow_succ_log_self (b := 2) (by norm_num) |x|
  push_cast at h1 h2
  set e := Int.log 2 |x|
  rw [le_div_iff₀ (two_zpow_pos _), div_lt_iff₀ (two_zpow_pos _), ← zpow_add₀ (by norm_num), ← zpow_add₀ (by norm_num)]
  rw [show 52 + (e - 52) = e by ring, show 53 + (e - 52) = e + 1 by ring]
  exact ⟨h1, h2⟩

theorem fl_zero : fl (0 : K) = 0 := by simp [fl]

/-- The relative error is at most `2^-53`. -/
theorem fl_error (x : K) : |fl x - x| ≤ 2 ^ (-53 : ℤ) * |x| := by
  by_cases hx : x = 0
  · simp [fl, hx]
  obtain ⟨h1, -⟩ := log_bounds hx
  simp only [fl, if_neg hx]
  set e := Int.log 2 |x| - 52
  have hp := two_zpow_pos (K := K) e
  have hr := pyRound_spec (x / 2 ^ e)
  rw [le_div_iff₀ hp] at h1
  have hx' : x = x / 2 ^ e * 2 ^ e := by field_simp
  have key : |(pyRound (x / 2 ^ e) : K) * 2 ^ e - x| ≤ 1 / 2 * 2 ^ e := by
    conv_lhs => rw [hx', mul_div_assoc, div_self hp.ne', mul_one, ← sub_mul, abs_mul, abs_of_pos hp]
    exact mul_le_mul_of_nonneg_right (abs_le.2 ⟨by linarith, by linarith⟩) hp.le
  refine key.trans ?_
  have : (2 : K) ^ (-53 : ℤ) * (2 ^ (52 : ℤ) * 2 ^ e) ≤ 2 ^ (-53 : ℤ) * |x| :=
    mul_le_mul_of_nonneg_left h1 (two_zpow_pos _).le
  refine le_trans (le_of_eq ?_) this
  rw [← mul_assoc]
  norm_num

/-- Numbers with at most 53 significant bits are not changed. -/
theorem fl_exact {m k : ℤ} (hm : |m| < 2 ^ 53) : fl ((m : K) * 2 ^ k) = (m : K) * 2 ^ k := by
  by_cases hx : (m : K) * 2 ^ k = 0
  · rw [hx, fl_zero]
  obtain ⟨h1, -⟩ := log_bounds hx
  simp only [fl, if_neg hx]
  set e := Int.log 2 |(m : K) * 2 ^ k| - 52
  have hp := two_zpow_pos (K := K) e
  have hke : e ≤ k := by
    by_contra hc
    push Not at hc
    rw [le_div_iff₀ hp, abs_mul, abs_of_pos (two_zpow_pos (K := K) k)] at h1
    have hm' : |(m : K)| < 2 ^ (53 : ℤ) := by
      have : ((|m| : ℤ) : K) < ((2 ^ 53 : ℤ) : K) := by exact_mod_cast hm
      rw [Int.cast_abs] at this
      refine this.trans_le ?_
      norm_num
    have h2 : (2 : K) ^ (52 : ℤ) * 2 ^ (k + 1) ≤ 2 ^ (52 : ℤ) * 2 ^ e :=
      mul_le_mul_of_nonneg_left (zpow_le_zpow_right₀ (by norm_num) (by omega)) (two_zpow_pos _).le
    have h3 : |(m : K)| * 2 ^ k < 2 ^ (53 : ℤ) * 2 ^ k := mul_lt_mul_of_pos_right hm' (two_zpow_pos k)
    have h4 : (2 : K) ^ (52 : ℤ) * 2 ^ (k + 1) = 2 ^ (53 : ℤ) * 2 ^ k := by
      rw [zpow_add₀ (by norm_num)]
      norm_num
      ring
    linarith
  obtain ⟨d, hd⟩ := Int.eq_ofNat_of_zero_le (sub_nonneg.2 hke)
  have hint : (m : K) * 2 ^ k / 2 ^ e = ((m * 2 ^ d : ℤ) : K) := by
    rw [mul_div_assoc, ← zpow_sub₀ (by norm_num), hd]
    push_cast
    rw [zpow_natCast]
  rw [hint, pyRound_int, ← hint]
  field_simp

/-- Integers below `2^53` are doubles. -/
theorem fl_int {m : ℤ} (hm : |m| < 2 ^ 53) : fl (m : K) = m := by
  have := fl_exact (K := K) (k := 0) hm
  simpa using this

theorem pyRound_neg (x : K) : pyRound (-x) = -pyRound x := by
  have h1 := Int.floor_le x
  have h2 := Int.lt_floor_add_one x
  by_cases hx : x = (⌊x⌋ : K)
  · rw [hx, ← Int.cast_neg, pyRound_int, pyRound_int]
  · have hlt : (⌊x⌋ : K) < x := lt_of_le_of_ne h1 (Ne.symm hx)
    have hf : ⌊-x⌋ = -⌊x⌋ - 1 := by
      rw [Int.floor_eq_iff]
      push_cast
      constructor <;> linarith
    simp only [pyRound, hf]
    push_cast
    generalize ⌊x⌋ = f at *
    by_cases a : x - f < 1 / 2
    · rw [if_neg (by linarith), if_pos (by linarith), if_pos a]
      ring
    · by_cases b : 1 / 2 < x - f
      · rw [if_pos (by linarith), if_neg a, if_pos b]
        ring
      · rw [if_neg (by linarith), if_neg (by linarith), if_neg a, if_neg b]
        split <;> split <;> omega

theorem fl_neg (x : K) : fl (-x) = -fl x := by
  unfold fl
  by_cases hx : x = 0
  · simp [hx]
  · rw [if_neg hx, if_neg (neg_ne_zero.2 hx)]
    simp only [abs_neg]
    rw [neg_div, pyRound_neg]
    push_cast
    ring

theorem fl_nonneg {x : K} (hx : 0 ≤ x) : 0 ≤ fl x := by
  unfold fl
  split
  · exact le_rfl
  · refine mul_nonneg ?_ (two_zpow_pos _).le
    have : pyRound (0 : K) ≤ pyRound (x / 2 ^ (Int.log 2 |x| - 52)) :=
      pyRound_mono (div_nonneg hx (two_zpow_pos _).le)
    have h0 : pyRound (0 : K) = 0 := by exact_mod_cast pyRound_int (K := K) 0
    rw [h0] at this
    exact_mod_cast this

theorem fl_mono_pos {x y : K} (hx : 0 < x) (h : x ≤ y) : fl x ≤ fl y := by
  have hy : 0 < y := hx.trans_le h
  obtain ⟨-, hx2⟩ := log_bounds hx.ne'
  obtain ⟨hy1, -⟩ := log_bounds hy.ne'
  unfold fl
  rw [if_neg hx.ne', if_neg hy.ne']
  simp only
  rw [abs_of_pos hx, abs_of_pos hy] at *
  have hl : Int.log 2 x ≤ Int.log 2 y := Int.log_mono_right hx h
  rcases hl.eq_or_lt with hl | hl
  · rw [hl]
    refine mul_le_mul_of_nonneg_right ?_ (two_zpow_pos _).le
    exact_mod_cast pyRound_mono (div_le_div_of_nonneg_right h (two_zpow_pos _).le)
  · set ex := Int.log 2 x - 52
    set ey := Int.log 2 y - 52
    have h1 : (pyRound (x / 2 ^ ex) : K) ≤ 2 ^ (53 : ℤ) := by
      have : pyRound (x / 2 ^ ex) ≤ pyRound (((2 ^ 53 : ℤ) : ℤ) : K) := pyRound_mono (hx2.le.trans (by norm_num))
      rw [pyRound_int] at this
      have h' : ((pyRound (x / 2 ^ ex) : ℤ) : K) ≤ ((2 ^ 53 : ℤ) : K) := by exact_mod_cast this
      exact h'.trans (by norm_num)
    have h2 : (2 : K) ^ (52 : ℤ) ≤ pyRound (y / 2 ^ ey) := by
      have : pyRound (((2 ^ 52 : ℤ) : ℤ) : K) ≤ pyRound (y / 2 ^ ey) := pyRound_mono (le_trans (by norm_num) hy1)
      rw [pyRound_int] at this
      have h' : ((2 ^ 52 : ℤ) : K) ≤ ((pyRound (y / 2 ^ ey) : ℤ) : K) := by exact_mod_cast this
      exact le_trans (by norm_num) h'
    calc (pyRound (x / 2 ^ ex) : K) * 2 ^ ex ≤ 2 ^ (53 : ℤ) * 2 ^ ex :=
          mul_le_mul_of_nonneg_right h1 (two_zpow_pos _).le
      _ = 2 ^ (52 : ℤ) * 2 ^ (ex + 1) := by rw [zpow_add₀ (by norm_num : (2 : K) ≠ 0) ex 1]; norm_num; ring
      _ ≤ 2 ^ (52 : ℤ) * 2 ^ ey := mul_le_mul_of_nonneg_left (zpow_le_zpow_right₀ (by norm_num) (by omega))
          (two_zpow_pos _).le
      _ ≤ _ := mul_le_mul_of_nonneg_right h2 (two_zpow_pos _).le

/-- Rounding is monotone. -/
theorem fl_mono {x y : K} (h : x ≤ y) : fl x ≤ fl y := by
  rcases lt_trichotomy x 0 with hx | hx | hx
  · rcases lt_or_ge y 0 with hy | hy
    · have := fl_mono_pos (x := -y) (y := -x) (by linarith) (by linarith)
      rw [fl_neg, fl_neg] at this
      linarith
    · have h1 := fl_nonneg (x := -x) (by linarith)
      rw [fl_neg] at h1
      linarith [fl_nonneg hy]
  · rw [hx, fl_zero]
    exact fl_nonneg (by linarith)
  · exact fl_mono_pos hx h

end Verif.F64
