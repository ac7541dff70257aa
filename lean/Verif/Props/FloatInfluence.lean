import Verif.Lemmas.Mod
import Verif.Model.FloatInfluence
import Verif.Props.Float64
import Verif.Props.Influence

/-!
# Properties of the correction of wind angles in double precision (C168)
-/

namespace Verif.F64

open Verif.Influence

/-- The absolute error of numbers below `2^(e+1)`. -/
theorem fl_error_below {x : ℚ} {e : ℤ} (h : |x| < 2 ^ (e + 1)) : |fl x - x| ≤ 2 ^ (e - 53) := by
  by_cases hx : x = 0
  · simp only [hx, fl_zero, sub_self, abs_zero]
    exact (two_zpow_pos _).le
  have hl : Int.log 2 |x| ≤ e := by
    have := (Int.lt_zpow_iff_log_lt (b := 2) (by norm_num) (x := e + 1) (abs_pos.2 hx)).1 (by exact_mod_cast h)
    omega
  simp only [fl, if_neg hx]
  set k := Int.log 2 |x| - 52
  have hp := two_zpow_pos (K := ℚ) k
  have hr := pyRound_spec (x / 2 ^ k)
  have hx' : x = x / 2 ^ k * 2 ^ k := by field_simp
  have key : |(pyRound (x / 2 ^ k) : ℚ) * 2 ^ k - x| ≤ 1 / 2 * 2 ^ k := by
    conv_lhs => rw [hx', mul_div_assoc, div_self hp.ne', mul_one, ← sub_mul, abs_mul, abs_of_pos hp]
    exact mul_le_mul_of_nonneg_right (abs_le.2 ⟨by linarith, by linarith⟩) hp.le
  refine key.trans ?_
  have e1 : (1 : ℚ) / 2 * 2 ^ k = 2 ^ (k - 1) := by
    rw [zpow_sub₀ (G₀ := ℚ) (by norm_num) k 1, zpow_one]
    ring
  rw [e1]
  exact zpow_le_zpow_right₀ (by norm_num) (by omega)

/-- Rounding angles. -/
theorem fl_error_512 {x : ℚ} (h : |x| < 512) : |fl x - x| ≤ 1 / 2 ^ 45 := by
  have := fl_error_below (e := 8) (x := x) (h.trans_le (by norm_num))
  refine this.trans (by norm_num)

theorem fl_error_1024 {x : ℚ} (h : |x| < 1024) : |fl x - x| ≤ 1 / 2 ^ 44 := by
  have := fl_error_below (e := 9) (x := x) (h.trans_le (by norm_num))
  refine this.trans (by norm_num)

/-- `% 360` of a negative double is the exact remainder, rounded. -/
theorem mod_negative {x : ℚ} (hx : x < 0) : mod x 360 = fl (pmod x 360) := by
  simp only [mod, fmod, if_neg (not_le.2 hx)]
  by_cases hz : pmod (-x) 360 = 0
  · have : pmod x 360 = 0 := by
      have h1 : pmod x 360 = pmod 0 360 := by
        rw [pmod_eq_iff _ _ (by norm_num)]
        refine ⟨-⌊-x / 360⌋, ?_⟩
        simp only [pmod] at hz
        push_cast
        linarith
      rw [h1, pmod_of_mem (by norm_num) (by norm_num)]
    rw [hz, this]
    simp [fl_zero]
  · have hp := lt_of_le_of_ne (pmod_nonneg (-x) (m := 360) (by norm_num)) (Ne.symm hz)
    rw [if_pos (by linarith), pmod_neg hz]
    congr 1
    ring

theorem fl_360 : fl (360 : ℚ) = 360 := by
  have := fl_int (K := ℚ) (m := 360) (by norm_num)
  exact_mod_cast this

/-- `% 360` is within `2^-45` of the exact remainder, and from 0 to 360. -/
theorem mod_close (x : ℚ) : |mod x 360 - pmod x 360| ≤ 1 / 2 ^ 45 ∧ 0 ≤ mod x 360 ∧ mod x 360 ≤ 360 := by
  have h0 := pmod_nonneg x (m := 360) (by norm_num)
  have h1 := pmod_lt x (m := 360) (by norm_num)
  rcases le_or_gt 0 x with hx | hx
  · obtain ⟨e, a, b⟩ := C146_nonneg hx
    rw [e] at *
    exact ⟨by simp, a, b.le⟩
  · rw [mod_negative hx]
    refine ⟨fl_error_512 (abs_lt.2 ⟨by linarith, by linarith⟩), fl_nonneg h0, ?_⟩
    have := fl_mono h1.le
    rwa [fl_360] at this

theorem pmod_turns (x : ℚ) : ∃ k : ℤ, pmod x 360 = x + 360 * k :=
  ⟨-⌊x / 360⌋, by simp only [pmod]; push_cast; ring⟩

/-- **C168.** The result of `% 360` is below 360 exactly for the angles from 0 on and for the negative ones which are more than
`2^-45` degrees below the next multiple of 360. -/
theorem C168_range_exactly (x : ℚ) :
    mod x 360 < 360 ↔ 0 ≤ x ∨ pmod x 360 < 360 - 1 / 2 ^ 45 := by
  have h0 := pmod_nonneg x (m := 360) (by norm_num)
  have h1 := pmod_lt x (m := 360) (by norm_num)
  rcases le_or_gt 0 x with hx | hx
  · exact ⟨fun _ => Or.inl hx, fun _ => (C146_nonneg hx).2.2⟩
  rw [mod_negative hx]
  constructor
  · intro h
    right
    by_contra hc
    have a := fl_mono (not_lt.1 hc)
    have b : fl (360 - 1 / 2 ^ 45 : ℚ) = 360 := by decide +kernel
    rw [b] at a
    linarith
  · rintro (h | h)
    · linarith
    · have e := (abs_le.1 (fl_error_512 (x := pmod x 360) (abs_lt.2 ⟨by linarith, by linarith⟩))).2
      linarith

example : mod (-1 / 2 ^ 45) 360 = 360 ∧ mod (-3 / 2 ^ 46) 360 < 360 :=
  ⟨by decide +kernel, (C168_range_exactly _).2 (Or.inr (by decide +kernel))⟩

theorem removeShift_close {wa shift : ℚ} (ha : 0 ≤ wa ∧ wa ≤ 360) (hs : |shift| ≤ 360) :
    ∃ k : ℤ, |removeShift shift wa - (wa - shift + 360 * k)| ≤ 1 / 2 ^ 43 := by
  obtain ⟨hs1, hs2⟩ := abs_le.1 hs
  obtain ⟨k, hk⟩ := pmod_turns (fl (wa - shift))
  have e1 := abs_le.1 (fl_error_1024 (x := wa - shift) (abs_lt.2 ⟨by linarith, by linarith⟩))
  have e2 := abs_le.1 (mod_close (fl (wa - shift))).1
  refine ⟨k, ?_⟩
  unfold removeShift
  rw [hk] at e2
  rw [abs_le]
  constructor
  · have : (1 : ℚ) / 2 ^ 45 + 1 / 2 ^ 44 ≤ 1 / 2 ^ 43 := by norm_num
    linarith
  · have : (1 : ℚ) / 2 ^ 45 + 1 / 2 ^ 44 ≤ 1 / 2 ^ 43 := by norm_num
    linarith

theorem addShift_close {wa shift : ℚ} (ha : 0 ≤ wa ∧ wa ≤ 360) (hs : |shift| ≤ 360) :
    ∃ k : ℤ, |addShift shift wa - (wa + shift + 360 * k)| ≤ 1 / 2 ^ 44 := by
  obtain ⟨hs1, hs2⟩ := abs_le.1 hs
  obtain ⟨k, hk⟩ := pmod_turns (fl (wa + shift))
  refine ⟨k, ?_⟩
  unfold addShift
  rcases le_or_gt 0 (fl (wa + shift)) with h0 | h0
  · have e1 := fl_error_1024 (x := wa + shift) (abs_lt.2 ⟨by linarith, by linarith⟩)
    rw [(C146_nonneg h0).1, hk]
    convert e1 using 1
    congr 1
    ring
  · have hneg : wa + shift < 0 := by
      by_contra hc
      exact absurd (fl_nonneg (not_lt.1 hc)) (not_le.2 h0)
    have e1 := abs_le.1 (fl_error_512 (x := wa + shift) (abs_lt.2 ⟨by linarith, by linarith⟩))
    have e2 := abs_le.1 (mod_close (fl (wa + shift))).1
    rw [hk] at e2
    have : (1 : ℚ) / 2 ^ 45 + 1 / 2 ^ 45 ≤ 1 / 2 ^ 44 := by norm_num
    rw [abs_le]
    constructor
    · linarith
    · linarith

/-- **C168.** The corrected wind angles are from 0 to 360 and, up to whole turns, within `2^-43` degrees of the exact ones; wind speeds
and boat speeds are unchanged. -/
theorem C168_remove {shift : ℚ} (hs : |shift| ≤ 360) {rows : List (Row ℚ)} (h : ∀ r ∈ rows, 0 ≤ r.wa ∧ r.wa ≤ 360) :
    ∃ out, correctingRemove shift (.rows rows) = .ok out ∧ out.length = rows.length ∧
      ∀ (i : Nat) (r r' : Row ℚ), rows[i]? = some r → out[i]? = some r' →
        r'.ws = r.ws ∧ r'.bsp = r.bsp ∧ 0 ≤ r'.wa ∧ r'.wa ≤ 360 ∧
          ∃ k : ℤ, |r'.wa - (r.wa - shift + 360 * k)| ≤ 1 / 2 ^ 43 := by
  refine ⟨_, rfl, by simp, ?_⟩
  intro i r r' h1 h2
  rw [List.getElem?_map, h1, Option.map_some, Option.some.injEq] at h2
  subst h2
  have hc := mod_close (fl (r.wa - shift))
  exact ⟨rfl, rfl, hc.2.1, hc.2.2, removeShift_close (h r (List.mem_of_getElem? h1)) hs⟩

/-- **C168.** Wind angles from which the correction was removed and to which it is added again are, up to whole turns, the measured
ones with an error of at most `3 * 2^-44` degrees. -/
theorem C168_restored {shift wa : ℚ} (hs : |shift| ≤ 360) (ha : 0 ≤ wa ∧ wa ≤ 360) :
    ∃ k : ℤ, |addShift shift (removeShift shift wa) - (wa + 360 * k)| ≤ 3 / 2 ^ 44 := by
  have hc := mod_close (fl (wa - shift))
  obtain ⟨k, hk⟩ := removeShift_close ha hs
  obtain ⟨l, hl⟩ := addShift_close (wa := removeShift shift wa) ⟨hc.2.1, hc.2.2⟩ hs
  refine ⟨k + l, ?_⟩
  rw [abs_le] at *
  have : (1 : ℚ) / 2 ^ 43 + 1 / 2 ^ 44 = 3 / 2 ^ 44 := by norm_num
  push_cast
  constructor
  · linarith [hk.1, hl.1]
  · linarith [hk.2, hl.2]

/-- **C168.** The diagram is evaluated at these wind angles. -/
theorem C168_undone {shift : ℚ} (hs : |shift| ≤ 360) (f : ℚ → ℚ → ℚ) {rows out : List (Row ℚ)}
    (h : ∀ r ∈ rows, 0 ≤ r.wa ∧ r.wa ≤ 360) (ho : correctingRemove shift (.rows rows) = .ok out) :
    ∃ angles : List ℚ, correctingAdd shift (fun ws wa => .ok (f ws wa)) (.many (out.map (·.ws)) (out.map (·.wa))) =
        .ok (.many (List.zipWith f (rows.map (·.ws)) angles)) ∧ angles.length = rows.length ∧
      ∀ (i : Nat) (r : Row ℚ) (a : ℚ), rows[i]? = some r → angles[i]? = some a →
        0 ≤ a ∧ a ≤ 360 ∧ ∃ k : ℤ, |a - (r.wa + 360 * k)| ≤ 3 / 2 ^ 44 := by
  refine ⟨rows.map fun r => addShift shift (removeShift shift r.wa), ?_, by simp, ?_⟩
  · simp only [correctingRemove, Except.ok.injEq] at ho
    subst ho
    simp only [correctingAdd]
    rw [evalAll_ok]
    simp only [Except.map]
    congr 2
    clear h
    induction rows with
    | nil => rfl
    | cons r rs ih => simpa using ih
  · intro i r a h1 h2
    rw [List.getElem?_map, h1, Option.map_some, Option.some.injEq] at h2
    subst h2
    have hc := mod_close (fl (removeShift shift r.wa + shift))
    exact ⟨hc.2.1, hc.2.2, C168_restored hs (h r (List.mem_of_getElem? h1))⟩

example : correctingRemove 30 (.rows [⟨10, 40, 5⟩, ⟨12, 10, 4⟩]) = .ok [⟨10, 10, 5⟩, ⟨12, 340, 4⟩] ∧
    ∃ angles : List ℚ, correctingAdd 30 (fun ws wa => .ok (ws + wa)) (.many [10, 12] [10, 340]) =
      .ok (.many (List.zipWith (fun ws wa => ws + wa) [10, 12] angles)) ∧ angles.length = 2 := by
  have h : correctingRemove 30 (.rows [⟨10, 40, 5⟩, ⟨12, 10, 4⟩]) = .ok [⟨10, 10, 5⟩, ⟨12, 340, 4⟩] := by
    simp only [correctingRemove, List.map_cons, List.map_nil, show removeShift 30 40 = 10 by decide +kernel,
      show removeShift 30 10 = 340 by decide +kernel]
  obtain ⟨angles, h1, h2, -⟩ := C168_undone (shift := 30) (by norm_num) (fun ws wa => ws + wa)
    (rows := [⟨10, 40, 5⟩, ⟨12, 10, 4⟩]) (by simp; norm_num) h
  exact ⟨h, angles, h1, h2⟩

/-- **C168.** For whole degrees the correction is exact, and it is undone exactly. -/
theorem C168_integers {n s : ℤ} (hn : |n| < 2 ^ 51) (hs : |s| < 2 ^ 51) :
    removeShift s n = (((n - s) % 360 : ℤ) : ℚ) ∧ addShift s (removeShift s n) = ((n % 360 : ℤ) : ℚ) := by
  obtain ⟨a, b⟩ := abs_lt.1 hn
  obtain ⟨c, d⟩ := abs_lt.1 hs
  have h1 : removeShift s n = (((n - s) % 360 : ℤ) : ℚ) := by
    unfold removeShift
    rw [← Int.cast_sub, fl_int (abs_lt.2 ⟨by omega, by omega⟩), C146_integers]
  refine ⟨h1, ?_⟩
  have h2 := Int.emod_nonneg (n - s) (b := 360) (by norm_num)
  have h3 := Int.emod_lt_of_pos (n - s) (b := 360) (by norm_num)
  unfold addShift
  rw [h1, ← Int.cast_add, fl_int (abs_lt.2 ⟨by omega, by omega⟩), C146_integers]
  congr 1
  omega

example : removeShift 30 10 = 340 ∧ addShift 30 340 = 10 := by decide +kernel

/-- **C168 is false** as equality: the wind angle 0.7 corrected by 0.8 is not restored. -/
theorem C168_restored_false : addShift (fl (8 / 10)) (removeShift (fl (8 / 10)) (fl (7 / 10))) ≠ fl (7 / 10) := by
  decide +kernel

/-- **C168 is false** for the range: corrected by a slightly larger angle, a wind angle becomes 360, whereas equal angles give 0. -/
theorem C168_range_false : removeShift (1 / 2 ^ 50 + 1 / 2) (1 / 2) = 360 ∧ removeShift (1 / 2) (1 / 2) = 0 := by
  decide +kernel

end Verif.F64
