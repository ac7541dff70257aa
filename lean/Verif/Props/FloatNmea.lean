import Mathlib.Data.Rat.Floor
import Verif.Model.FloatNmea
import Verif.Props.FloatWind
import Verif.Props.Nmea

/-!
# Property C161: positions of NMEA sentences in double precision
-/

namespace Verif.F64

variable {K : Type} [Field K] [LinearOrder K] [IsStrictOrderedRing K] [FloorRing K]

open Verif.Nmea (trunc fromNmea)

/-! ## Lemmas -/

theorem u_trillion : u K ≤ 1 / 10 ^ 12 := by
  unfold u
  norm_num

theorem fl_natCast {m : ℕ} (hm : m < 2 ^ 53) : fl (m : K) = m := by
  have := fl_int (K := K) (m := (m : ℤ)) (by rw [abs_of_nonneg (by positivity)]; exact_mod_cast hm)
  simpa using this

/-- The number of the sentence for `D` degrees and `m` minutes. -/
def nmeaText (D : ℕ) (m : K) : K := 100 * (D : K) + m

theorem value_bounds {D : ℕ} (hD : D ≤ 180) {m : K} (h0 : 0 ≤ m) (h1 : m ≤ 60) :
    100 * (D : K) ≤ fl (nmeaText D m) ∧ fl (nmeaText D m) ≤ 100 * (D : K) + 60 := by
  have a : fl (100 * (D : K)) = 100 * (D : K) := by
    have := fl_natCast (K := K) (m := 100 * D) (by omega)
    push_cast at this
    exact this
  have b : fl (100 * (D : K) + 60) = 100 * (D : K) + 60 := by
    have := fl_natCast (K := K) (m := 100 * D + 60) (by omega)
    push_cast at this
    exact this
  constructor
  · rw [← a]; exact fl_mono (by unfold nmeaText; linarith)
  · rw [← b]; exact fl_mono (by unfold nmeaText; linarith)

/-- **C161**: the degrees are split off exactly. -/
theorem C161_degrees {D : ℕ} (hD : D ≤ 180) {m : K} (h0 : 0 ≤ m) (h1 : m ≤ 60) :
    trunc (fl (fl (nmeaText D m) / 100)) = (D : ℤ) := by
  obtain ⟨a, b⟩ := value_bounds hD h0 h1
  have hD' : (D : K) ≤ 180 := by exact_mod_cast hD
  have hD0 : (0 : K) ≤ D := by positivity
  have c : (D : K) ≤ fl (fl (nmeaText D m) / 100) := by
    conv_lhs => rw [← fl_natCast (K := K) (m := D) (by omega)]
    exact fl_mono (by linarith)
  have d : fl (fl (nmeaText D m) / 100) < D + 1 := by
    have h := fl_mono (show fl (nmeaText D m) / 100 ≤ (D : K) + 6 / 10 by linarith)
    have e := (abs_le.1 (fl_error' ((D : K) + 6 / 10))).2
    rw [abs_of_nonneg (by linarith)] at e
    have := mul_le_mul (u_trillion (K := K)) (show (D : K) + 6 / 10 ≤ 181 by linarith) (by linarith) (by norm_num)
    norm_num at this
    linarith
  unfold trunc
  rw [if_pos (hD0.trans c), Int.floor_eq_iff]
  push_cast
  exact ⟨c, d⟩

theorem position_eq {D : ℕ} (hD : D ≤ 180) {m : K} (h0 : 0 ≤ m) (h1 : m ≤ 60) :
    position (nmeaText D m) = fl ((D : K) + fl (fl (fl (nmeaText D m) - 100 * (D : K)) / 60)) := by
  unfold position
  simp only [C161_degrees hD h0 h1]
  push_cast
  rfl

/-- The minutes are not negative and at most 60. -/
theorem minutes_bounds {D : ℕ} (hD : D ≤ 180) {m : K} (h0 : 0 ≤ m) (h1 : m ≤ 60) :
    0 ≤ fl (fl (nmeaText D m) - 100 * (D : K)) ∧ fl (fl (nmeaText D m) - 100 * (D : K)) ≤ 60 := by
  obtain ⟨a, b⟩ := value_bounds hD h0 h1
  refine ⟨fl_nonneg (by linarith), ?_⟩
  have := fl_mono (show fl (nmeaText D m) - 100 * (D : K) ≤ 60 by linarith)
  have h60 := fl_natCast (K := K) (m := 60) (by norm_num)
  push_cast at h60
  rwa [h60] at this

theorem hours_bounds {D : ℕ} (hD : D ≤ 180) {m : K} (h0 : 0 ≤ m) (h1 : m ≤ 60) :
    0 ≤ fl (fl (fl (nmeaText D m) - 100 * (D : K)) / 60) ∧ fl (fl (fl (nmeaText D m) - 100 * (D : K)) / 60) ≤ 1 := by
  obtain ⟨a, b⟩ := minutes_bounds hD h0 h1
  refine ⟨fl_nonneg (by linarith), ?_⟩
  have := fl_mono (show fl (fl (nmeaText D m) - 100 * (D : K)) / 60 ≤ 1 by linarith)
  rwa [fl_one] at this

/-! ## The theorems -/

/-- **C161**: a position of `D` degrees and `m` minutes is `D + m / 60` up to `(3 D + 5) * 2^-53`, which is less than
`10^-13` degrees. -/
theorem C161_error {D : ℕ} (hD : D ≤ 180) {m : K} (h0 : 0 ≤ m) (h1 : m ≤ 60) :
    |position (nmeaText D m) - ((D : K) + m / 60)| ≤ (3 * (D : K) + 5) * 2 ^ (-53 : ℤ) ∧
    (3 * (D : K) + 5) * 2 ^ (-53 : ℤ) < 1 / 10 ^ 13 := by
  have hu := u_pos (K := K)
  have hD' : (D : K) ≤ 180 := by exact_mod_cast hD
  have hD0 : (0 : K) ≤ D := by positivity
  constructor
  · change _ ≤ _ * u K
    rw [position_eq hD h0 h1]
    obtain ⟨a0, a1⟩ := value_bounds hD h0 h1
    obtain ⟨b0, b1⟩ := minutes_bounds hD h0 h1
    obtain ⟨c0, c1⟩ := hours_bounds hD h0 h1
    have e1 := fl_error' (nmeaText D m)
    have e2 := fl_error' (fl (nmeaText D m) - 100 * (D : K))
    have e3 := fl_error' (fl (fl (nmeaText D m) - 100 * (D : K)) / 60)
    have e4 := fl_error' ((D : K) + fl (fl (fl (nmeaText D m) - 100 * (D : K)) / 60))
    rw [abs_of_nonneg (show 0 ≤ nmeaText D m by unfold nmeaText; positivity)] at e1
    rw [abs_of_nonneg (by linarith : 0 ≤ fl (nmeaText D m) - 100 * (D : K))] at e2
    rw [abs_of_nonneg (by positivity : 0 ≤ fl (fl (nmeaText D m) - 100 * (D : K)) / 60)] at e3
    rw [abs_of_nonneg (by linarith : 0 ≤ (D : K) + fl (fl (fl (nmeaText D m) - 100 * (D : K)) / 60))] at e4
    have f1 : u K * nmeaText D m ≤ u K * (100 * (D : K) + 60) :=
      mul_le_mul_of_nonneg_left (by unfold nmeaText; linarith) hu.le
    have f2 : u K * (fl (nmeaText D m) - 100 * (D : K)) ≤ u K * 60 := mul_le_mul_of_nonneg_left (by linarith) hu.le
    have f3 : u K * (fl (fl (nmeaText D m) - 100 * (D : K)) / 60) ≤ u K * 1 :=
      mul_le_mul_of_nonneg_left (by linarith) hu.le
    have f4 : u K * ((D : K) + fl (fl (fl (nmeaText D m) - 100 * (D : K)) / 60)) ≤ u K * ((D : K) + 1) :=
      mul_le_mul_of_nonneg_left (by linarith) hu.le
    have f5 : 0 ≤ u K * (D : K) := by positivity
    have hn : nmeaText D m = 100 * (D : K) + m := rfl
    rw [abs_le] at *
    constructor <;> linarith [e1.1, e1.2, e2.1, e2.2, e3.1, e3.2, e4.1, e4.2]
  · change _ * u K < _
    have h : u K ≤ 1 / 2 ^ 53 := by unfold u; norm_num
    have := mul_le_mul (show 3 * (D : K) + 5 ≤ 545 by linarith) h hu.le (by norm_num)
    norm_num at this ⊢
    linarith

/-- **C161**: the exact position is the one of the exact model. -/
theorem C161_exact {D : ℕ} {m : K} (h0 : 0 ≤ m) (h1 : m < 60) :
    fromNmea (nmeaText D m) = (D : K) + m / 60 := Nmea.C50_position D h0 h1

/-- **C161**: positions do not leave the degree of the sentence. -/
theorem C161_range {D : ℕ} (hD : D ≤ 180) {m : K} (h0 : 0 ≤ m) (h1 : m ≤ 60) :
    (D : K) ≤ position (nmeaText D m) ∧ position (nmeaText D m) ≤ (D : K) + 1 := by
  rw [position_eq hD h0 h1]
  obtain ⟨c0, c1⟩ := hours_bounds hD h0 h1
  have a := fl_natCast (K := K) (m := D) (by omega)
  have b := fl_natCast (K := K) (m := D + 1) (by omega)
  push_cast at b
  constructor
  · calc (D : K) = fl (D : K) := a.symm
      _ ≤ _ := fl_mono (by linarith)
  · calc _ ≤ fl ((D : K) + 1) := fl_mono (by linarith)
      _ = _ := b

/-- **C161**: positions are in the order of the numbers of the sentences. -/
theorem C161_mono {D E : ℕ} (hD : D ≤ 180) (hE : E ≤ 180) {m k : K} (h0 : 0 ≤ m) (h1 : m ≤ 60) (k0 : 0 ≤ k) (k1 : k ≤ 60)
    (h : nmeaText D m ≤ nmeaText E k) : position (nmeaText D m) ≤ position (nmeaText E k) := by
  rcases lt_trichotomy D E with hlt | rfl | hlt
  · have h2 : (D : K) + 1 ≤ E := by exact_mod_cast hlt
    exact (C161_range hD h0 h1).2.trans (h2.trans (C161_range hE k0 k1).1)
  · rw [position_eq hD h0 h1, position_eq hE k0 k1]
    refine fl_mono (add_le_add_right (fl_mono (div_le_div_of_nonneg_right (fl_mono ?_) (by norm_num))) _)
    linarith [fl_mono h]
  · exfalso
    have h2 : (E : K) + 1 ≤ D := by exact_mod_cast hlt
    unfold nmeaText at h
    linarith

/-- **C161**: whole degrees are exact. -/
theorem C161_whole {D : ℕ} (hD : D ≤ 180) : position (nmeaText D (0 : K)) = D := by
  have a := fl_natCast (K := K) (m := D) (by omega)
  have b := fl_natCast (K := K) (m := 100 * D) (by omega)
  push_cast at b
  rw [position_eq hD le_rfl (by norm_num)]
  simp only [nmeaText, add_zero, b, sub_self, fl_zero, zero_div]
  exact a

/-! ## Examples -/

/-- 54 degrees and 12.5 minutes. -/
example : |position (nmeaText 54 (25 / 2 : ℚ)) - (54 + 25 / 2 / 60)| ≤ 167 * 2 ^ (-53 : ℤ) := by
  have := (C161_error (K := ℚ) (D := 54) (by norm_num) (m := 25 / 2) (by norm_num) (by norm_num)).1
  norm_num at this ⊢
  exact this

/-- The last place of 180 degrees. -/
example : position (nmeaText 179 (59999999 / 1000000 : ℚ)) ≤ 180 := by
  have := (C161_range (K := ℚ) (D := 179) (by norm_num) (m := 59999999 / 1000000) (by norm_num) (by norm_num)).2
  norm_num at this ⊢
  exact this

example : position (nmeaText 54 (1 : ℚ)) ≤ position (nmeaText 54 (2 : ℚ)) :=
  C161_mono (by norm_num) (by norm_num) (by norm_num) (by norm_num) (by norm_num) (by norm_num) (by norm_num [nmeaText])

end Verif.F64
