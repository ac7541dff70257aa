import Verif.Model.Hours
import Verif.Lemmas.Round
import Verif.Lemmas.FloatCast
import Verif.Props.FloatMean
import Verif.Props.FloatText

/-!
# Property C187: times during a cruise
-/

namespace Verif.F64

variable {K : Type} [Field K] [LinearOrder K] [IsStrictOrderedRing K] [FloorRing K]

theorem integral_neg (x : K) : integral (-x) = -integral x := by
  unfold integral
  rcases lt_trichotomy x 0 with h | h | h
  · rw [if_pos (by linarith), if_neg (not_le.2 h), Int.floor_neg]
  · simp [h]
  · rw [if_neg (by linarith), if_pos h.le, Int.ceil_neg]

theorem hours_neg (t : K) : hours (-t) = -hours t := by
  unfold hours
  rw [integral_neg, ← pyRound_neg]
  congr 1
  have : (3600000000 : K) * (-t - ((-integral t : ℤ) : K)) = -(3600000000 * (t - integral t)) := by push_cast; ring
  rw [this, fl_neg]
  push_cast
  ring

theorem hour_exact : fl (3600000000 : K) = 3600000000 := by
  have := fl_int (K := K) (m := 3600000000) (by norm_num)
  simpa using this

theorem hours_mono_nonneg {t t' : K} (h0 : 0 ≤ t) (h : t ≤ t') : hours t ≤ hours t' := by
  unfold hours
  refine pyRound_mono ?_
  rw [integral, if_pos h0, integral, if_pos (h0.trans h)]
  rcases (Int.floor_le_floor h).eq_or_lt with e | l
  · rw [e]
    have := fl_mono (K := K) (x := 3600000000 * (t - ⌊t'⌋)) (y := 3600000000 * (t' - ⌊t'⌋)) (by linarith)
    linarith
  · have h1 : fl (3600000000 * (t - ⌊t⌋)) ≤ 3600000000 := by
      have := fl_mono (K := K) (x := 3600000000 * (t - ⌊t⌋)) (y := 3600000000) (by linarith [Int.lt_floor_add_one t])
      rwa [hour_exact] at this
    have h2 : 0 ≤ fl (3600000000 * (t' - ⌊t'⌋)) := fl_nonneg (by linarith [Int.floor_le t'])
    have h3 : (⌊t⌋ : K) + 1 ≤ ⌊t'⌋ := by exact_mod_cast l
    linarith

theorem hours_zero : hours (0 : K) = 0 := by
  have : integral (0 : K) = 0 := by simp [integral]
  rw [hours, this]
  simp only [Int.cast_zero, zero_mul, sub_self, mul_zero, fl_zero, add_zero]
  exact_mod_cast pyRound_int (K := K) 0

/-- **C187.** Later points of the way have later times: the times of a cruise are in order. -/
theorem C187_order {t t' : K} (h : t ≤ t') : hours t ≤ hours t' := by
  rcases le_total 0 t with h0 | h0
  · exact hours_mono_nonneg h0 h
  · rcases le_total 0 t' with h1 | h1
    · have h2 := hours_mono_nonneg le_rfl h1
      have h3 := hours_mono_nonneg (K := K) (t := 0) (t' := -t) le_rfl (by linarith)
      rw [hours_neg] at h3
      rw [hours_zero] at h2 h3
      omega
    · have := hours_mono_nonneg (K := K) (t := -t') (t' := -t) (by linarith) (by linarith)
      rw [hours_neg, hours_neg] at this
      omega

theorem abs_fraction (t : K) : |t - integral t| ≤ 1 := by
  unfold integral
  split_ifs with h
  · rw [abs_of_nonneg (by linarith [Int.floor_le t])]
    linarith [Int.lt_floor_add_one t]
  · rw [abs_of_nonpos (by linarith [Int.le_ceil t])]
    linarith [Int.ceil_lt_add_one t]

theorem hours_split (t : K) : |(integral t : K) * 3600000000 + fl (3600000000 * (t - integral t)) - 3600000000 * t| ≤ 1 / 2 ^ 21 := by
  have h1 := fl_error (K := K) (3600000000 * (t - integral t))
  have e : (integral t : K) * 3600000000 + fl (3600000000 * (t - integral t)) - 3600000000 * t =
      fl (3600000000 * (t - integral t)) - 3600000000 * (t - integral t) := by ring
  rw [e]
  refine h1.trans ?_
  rw [abs_mul, abs_of_nonneg (by norm_num : (0 : K) ≤ 3600000000)]
  have h2 : (2 : K) ^ (-53 : ℤ) * (3600000000 * |t - integral t|) ≤ 2 ^ (-53 : ℤ) * (3600000000 * 1) :=
    mul_le_mul_of_nonneg_left (by linarith [abs_fraction t]) (by positivity)
  refine h2.trans ?_
  norm_num

/-- **C187.** The time differs from the exact time at most by half of a microsecond, apart from a tiny error of rounding. -/
theorem C187_error (t : K) : |(hours t : K) - 3600000000 * t| ≤ 1 / 2 + 1 / 2 ^ 21 := by
  obtain ⟨h1, h2⟩ := pyRound_spec (K := K) ((integral t : K) * 3600000000 + fl (3600000000 * (t - integral t)))
  have h3 := abs_le.1 (hours_split t)
  change |((pyRound ((integral t : K) * 3600000000 + fl (3600000000 * (t - integral t))) : ℤ) : K) - 3600000000 * t| ≤ _
  generalize (integral t : K) * 3600000000 + fl (3600000000 * (t - integral t)) = y at *
  rw [abs_le]
  constructor <;> linarith [h3.1, h3.2]

/-- **C187.** Points of the way which are further apart than one microsecond (and the errors of rounding) have different times. -/
theorem C187_apart {t t' : K} (h : 1 + 1 / 2 ^ 20 < 3600000000 * (t' - t)) : hours t < hours t' := by
  have h1 := (abs_le.1 (C187_error t)).2
  have h2 := (abs_le.1 (C187_error t')).1
  have h3 : (hours t : K) < hours t' := by linarith
  exact_mod_cast h3

/-- **C187.** Whole hours, halves, quarters, and in general numbers of hours which are whole numbers of microseconds exactly, are
converted without error. -/
theorem C187_whole {t : K} {n : ℤ} (h : 3600000000 * t = n) : hours t = n := by
  have h1 := (abs_le.1 (hours_split t))
  unfold hours
  refine FloatText.pyRound_near ?_
  rw [abs_lt, ← h]
  constructor <;> linarith [h1.1, h1.2, (by norm_num : (1 : K) / 2 ^ 21 < 1 / 2)]

/-- **C187.** The double nearest to a number of microseconds (up to `2 ^ 50` of them, about 35 years) is converted to this number. -/
theorem C187_restored {n : ℤ} (hn : |n| ≤ 2 ^ 50) : hours (fl ((n : K) / 3600000000)) = n := by
  have h1 := hours_split (fl ((n : K) / 3600000000))
  have h2 := fl_error (K := K) ((n : K) / 3600000000)
  have hn' : |(n : K)| ≤ 2 ^ 50 := by exact_mod_cast hn
  rw [abs_div, abs_of_nonneg (by norm_num : (0 : K) ≤ 3600000000)] at h2
  generalize ht : fl ((n : K) / 3600000000) = t at *
  have h3 : |3600000000 * t - n| ≤ 1 / 8 := by
    have e : 3600000000 * t - n = 3600000000 * (t - (n : K) / 3600000000) := by
      field_simp
    rw [e, abs_mul, abs_of_nonneg (by norm_num : (0 : K) ≤ 3600000000)]
    have h4 := mul_le_mul_of_nonneg_left h2 (by norm_num : (0 : K) ≤ 3600000000)
    have h5 : (3600000000 : K) * (2 ^ (-53 : ℤ) * (|(n : K)| / 3600000000)) = 2 ^ (-53 : ℤ) * |(n : K)| := by
      field_simp
    rw [h5] at h4
    have h6 := mul_le_mul_of_nonneg_left hn' (by positivity : (0 : K) ≤ 2 ^ (-53 : ℤ))
    have h7 : (2 : K) ^ (-53 : ℤ) * 2 ^ 50 = 1 / 8 := by norm_num
    linarith
  unfold hours
  refine FloatText.pyRound_near ?_
  have h1' := abs_le.1 h1
  have h3' := abs_le.1 h3
  rw [abs_lt]
  constructor <;> linarith [h1'.1, h1'.2, h3'.1, h3'.2, (by norm_num : (1 : K) / 2 ^ 21 < 1 / 4)]

/-- **C187.** The time is the start plus the number of microseconds; it is refused exactly if it (or the time passed) leaves the range of
`datetime` (`timedelta`). -/
theorem C187_later (start : ℤ) (t : K) :
    (later start t = .ok (start + hours t) ∨ later start t = .error .otherError) ∧
    ((∃ d, later start t = .ok d) ↔ (-999999999 * 86400000000 ≤ hours t ∧ hours t < 1000000000 * 86400000000) ∧
      0 ≤ start + hours t ∧ start + hours t < 3652059 * 86400000000) := by
  unfold later
  split_ifs with h1 h2
  · refine ⟨Or.inr rfl, ?_⟩
    simp only [reduceCtorEq, exists_false, false_iff]
    omega
  · refine ⟨Or.inr rfl, ?_⟩
    simp only [reduceCtorEq, exists_false, false_iff]
    omega
  · refine ⟨Or.inl rfl, ?_⟩
    simp only [Except.ok.injEq, exists_eq', true_iff]
    omega

/-- **C187.** The times at the nodes of a solution are in order, begin at the start and stay within the range if the last one does. -/
theorem C187_times {start : ℤ} (h0 : 0 ≤ start) {ts : List K} (hs : ts.Pairwise (· ≤ ·)) (hn : ∀ t ∈ ts, 0 ≤ t) {last : K}
    (hl : ∀ t ∈ ts, t ≤ last) (hr : start + hours last < 3652059 * 86400000000) :
    (∀ t ∈ ts, later start t = .ok (start + hours t) ∧ start ≤ start + hours t) ∧
      (ts.map fun t => start + hours t).Pairwise (· ≤ ·) := by
  constructor
  · intro t ht
    have h1 := C187_order (hn t ht)
    have h2 := C187_order (hl t ht)
    rw [hours_zero] at h1
    refine ⟨?_, by omega⟩
    obtain ⟨h3, h4⟩ := C187_later start t
    rcases h3 with h3 | h3
    · exact h3
    · obtain ⟨d, hd⟩ := h4.2 (by omega)
      rw [h3] at hd
      cases hd
  · rw [List.pairwise_map]
    exact hs.imp fun h => by have := C187_order h; omega

/-- Two and a quarter hours; 1.1 hours, which is no double; and the beginning of 2022 plus half an hour. -/
example : hours (9 / 4 : ℚ) = 8100000000 ∧ 3600000000 * (9 / 4 : ℚ) = (8100000000 : ℤ) ∧ hours (fl (11 / 10 : ℚ)) = 3960000000 ∧
    later 63776592000000000 (1 / 2 : ℚ) = .ok 63776593800000000 := by
  refine ⟨by decide +kernel, by norm_num, by decide +kernel, by decide +kernel⟩

/-- Times less than a microsecond apart coincide: one and two tenths of a microsecond. -/
example : hours (1 / 36000000000 : ℚ) = hours (2 / 36000000000 : ℚ) ∧ (1 / 36000000000 : ℚ) < 2 / 36000000000 := by
  refine ⟨by decide +kernel, by norm_num⟩

example : (1 : ℚ) + 1 / 2 ^ 20 < 3600000000 * (1 / 1000 - 0) ∧ |(3960000000 : ℤ)| ≤ 2 ^ 50 ∧
    [(0 : ℚ), 1 / 2, 1].Pairwise (· ≤ ·) ∧ 63776592000000000 + hours (1 : ℚ) < 3652059 * 86400000000 := by
  refine ⟨by norm_num, by norm_num, by norm_num, by decide +kernel⟩

end Verif.F64
