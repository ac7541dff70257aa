import Verif.Lemmas.Filter

/-!
# Properties C11 and C12: the filters
-/

set_option linter.unusedSectionVars false

namespace Verif.Filter

variable {K : Type} [Field K] [LinearOrder K] [IsStrictOrderedRing K] [FloorRing K]

/-- The number of points discarded by a mask. -/
def discarded (mask : List Bool) : Nat := mask.count false

/-! ## C11 -/

/-- **C11.** The mask has one entry per point and is upward closed: a point at least as heavy as a kept
point is kept. -/
theorem C11_upward_closed (percent : K) (wts : List K) :
    (quantileFilter percent wts).1.length = wts.length ∧
    ∀ (i j : Nat) (x y : K), (quantileFilter percent wts).1[i]? = some true → wts[i]? = some x → wts[j]? = some y → x ≤ y →
      (quantileFilter percent wts).1[j]? = some true := by
  by_cases h : wts.length = 0
  · have : wts = [] := List.length_eq_zero_iff.1 h
    subst this
    simp [quantileFilter]
  · simp only [quantileFilter, h, if_false]
    refine ⟨by simp, ?_⟩
    intro i j x y hi hx hy hxy
    simp only [List.getElem?_map, hx, hy, Option.map_some, Option.some.injEq, decide_eq_true_eq] at hi ⊢
    exact le_trans hi hxy

/-- **C11.** Every point of maximal weight is kept; in particular not all points are discarded. -/
theorem C11_keeps_maximum {percent : K} (h0 : 0 ≤ percent) (h1 : percent ≤ 100) {wts : List K} {i : Nat}
    {m : K} (hi : wts[i]? = some m) (hm : ∀ x ∈ wts, x ≤ m) :
    (quantileFilter percent wts).1[i]? = some true := by
  have hw : wts ≠ [] := by rintro rfl; simp at hi
  have hl : ¬ wts.length = 0 := by simpa using hw
  simp only [quantileFilter, hl, if_false, List.getElem?_map, hi, Option.map_some, Option.some.injEq,
    decide_eq_true_eq]
  exact exists_ge_percentile hw h0 h1 hm

/-- **C11** (partial: the documented bound "less than the given percentage" is false, see
`C11_percentage_false`). At most `⌈(n - 1) * percent / 100⌉` of `n` points are discarded; this is the exact
number if no two points have the same weight. -/
theorem C11_number_partial {percent : K} (h0 : 0 ≤ percent) (h1 : percent ≤ 100) {wts : List K}
    (hw : wts ≠ []) :
    (discarded (quantileFilter percent wts).1 : Int) ≤ ⌈((wts.length : K) - 1) * percent / 100⌉ ∧
    (wts.Nodup → (discarded (quantileFilter percent wts).1 : Int) =
      ⌈((wts.length : K) - 1) * percent / 100⌉) := by
  have hl : ¬ wts.length = 0 := by simpa using hw
  have e : discarded (quantileFilter percent wts).1 =
      wts.countP fun x => decide (x < percentile wts percent) := by
    simp only [discarded, quantileFilter, hl, if_false, List.count_eq_countP, List.countP_map]
    apply List.countP_congr
    intro x _
    simp [Function.comp]
  rw [e]
  exact countP_lt_percentile hw h0 h1

/-- **C11.** `QuantileFilter(0)` discards nothing. -/
theorem C11_zero_percent (wts : List K) : discarded (quantileFilter 0 wts).1 = 0 := by
  by_cases hw : wts = []
  · subst hw; rfl
  · have := (C11_number_partial (percent := 0) (le_refl 0) (by norm_num) hw).1
    simp at this
    omega

example : (quantileFilter (50 : Rat) [3, 1, 2, 4]).1 = [true, false, false, true] := by decide +kernel
example : ∀ x ∈ [3, 1, 2, 4], x ≤ (4 : Rat) := by decide +kernel

/-- **C11 is false** as far as the documented percentage is concerned: with ten points and 15 percent, two
points (20 percent) are discarded. -/
theorem C11_percentage_false : ¬ ∀ (percent : Rat) (wts : List Rat), 0 ≤ percent → percent ≤ 100 → wts ≠ [] →
    100 * (discarded (quantileFilter percent wts).1 : Rat) ≤ percent * wts.length := by
  intro h
  have := h 15 [1, 2, 3, 4, 5, 6, 7, 8, 9, 10] (by norm_num) (by norm_num) (by simp)
  revert this
  decide +kernel

/-- **C11.** Percentages outside of `[0, 100]` are rejected and all others accepted. -/
theorem C11_init (percent : K) :
    quantileInit percent = (if 0 ≤ percent ∧ percent ≤ 100 then .ok percent else .error .valueError) := by
  unfold quantileInit
  by_cases h : percent < 0 ∨ percent > 100
  · rw [if_pos h, if_neg]
    rintro ⟨h1, h2⟩
    rcases h with h | h
    · exact absurd h1 (not_le.2 h)
    · exact absurd h2 (not_le.2 h)
  · rw [if_neg h, if_pos]
    push Not at h
    exact h

/-! ## C12 -/

/-- **C12.** `BoundFilter` keeps exactly the points whose weight lies between the bounds. -/
theorem C12_bounds (lower upper : K) (wts : List K) :
    (boundFilter lower upper wts).1.length = wts.length ∧
    ∀ (i : Nat) (x : K), wts[i]? = some x →
      ((boundFilter lower upper wts).1[i]? = some true ↔ lower ≤ x ∧ x ≤ upper) := by
  refine ⟨by simp [boundFilter], ?_⟩
  intro i x hx
  simp [boundFilter, List.getElem?_zipWith, hx]

/-- **C12.** Bounds in the wrong order are rejected and all others accepted. -/
theorem C12_init (lower upper : K) :
    boundInit lower upper = if lower ≤ upper then .ok (lower, upper) else .error .valueError := by
  unfold boundInit
  by_cases h : upper < lower
  · rw [if_pos h, if_neg (not_le.2 h)]
  · rw [if_neg h, if_pos (not_lt.1 h)]

example : boundInit (1 : Rat) 1 = .ok (1, 1) ∧ boundInit (1 : Rat) (1/2) = .error .valueError := by decide +kernel

/-- **C12.** The statistics recorded for a mask count the discarded and the kept points and add up to the
number of points. -/
theorem C12_statistics (mask : List Bool) :
    (statistics mask).nFiltered = mask.count false ∧ (statistics mask).nRows = mask.count true ∧
    (statistics mask).nFiltered + (statistics mask).nRows = mask.length := by
  have h1 : (mask.filter fun f => ! f).length = mask.count false := by
    rw [List.count_eq_countP, List.countP_eq_length_filter]
    congr 1
    apply List.filter_congr
    intro x _; cases x <;> rfl
  have h2 : mask.count true + mask.count false = mask.length := by
    induction mask with
    | nil => rfl
    | cons b l ih =>
      have ih := ih (by
        rw [List.count_eq_countP, List.countP_eq_length_filter]
        congr 1
        apply List.filter_congr
        intro x _; cases x <;> rfl)
      cases b <;> simp <;> omega
  refine ⟨by simp [statistics, h1], ?_, by simp [statistics]⟩
  simp only [statistics, h1]
  omega

/-- **C12.** Both filters record the statistics of the mask they return; `QuantileFilter` records nothing for
an empty set of points. -/
theorem C12_recorded (percent lower upper : K) (wts : List K) :
    (boundFilter lower upper wts).2 = statistics (boundFilter lower upper wts).1 ∧
    (quantileFilter percent wts).2 =
      if wts = [] then none else some (statistics (quantileFilter percent wts).1) := by
  refine ⟨rfl, ?_⟩
  cases wts <;> simp [quantileFilter]

example : boundFilter (1/2 : Rat) 1 [0, 1/2, 3/4, 2] = ([false, true, true, false], ⟨2, 2⟩) := by decide +kernel

end Verif.Filter
