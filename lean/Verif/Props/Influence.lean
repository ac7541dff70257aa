import Mathlib.Data.Rat.Floor
import Mathlib.Algebra.Order.Floor.Ring
import Mathlib.Tactic.Linarith
import Mathlib.Tactic.Ring
import Verif.Lemmas.Mod
import Verif.Model.Influence

/-!
# Properties C48, C68: influence models
-/

set_option linter.unusedSectionVars false

namespace Verif.Influence

section
variable {K : Type} [Field K] [LinearOrder K] [IsStrictOrderedRing K] [FloorRing K]

/-! ### C48 -/

/-- If the diagram gives `f ws wa` everywhere, all winds of a list are evaluated in order. -/
theorem evalAll_ok (f : K → K → K) (l : List (K × K)) :
    evalAll (fun ws wa => .ok (f ws wa)) l = .ok (l.map fun w => f w.1 w.2) := by
  induction l with
  | nil => rfl
  | cons w rest ih => obtain ⟨ws, wa⟩ := w; simp [evalAll, ih]

/-- **C48.** Removing the influence gives, in every row, the angle minus the shift modulo 360 and keeps wind speed and
boat speed. -/
theorem C48_remove (shift : K) (rows : List (Row K)) :
    ∃ out, correctingRemove shift (.rows rows) = .ok out ∧ out.length = rows.length ∧
      ∀ (i : Nat) (r r' : Row K), rows[i]? = some r → out[i]? = some r' →
        r'.ws = r.ws ∧ r'.bsp = r.bsp ∧ 0 ≤ r'.wa ∧ r'.wa < 360 ∧ ∃ k : ℤ, r'.wa = r.wa - shift + 360 * k := by
  refine ⟨_, rfl, by simp, ?_⟩
  intro i r r' h h'
  rw [List.getElem?_map, h, Option.map_some, Option.some.injEq] at h'
  subst h'
  refine ⟨rfl, rfl, pmod_nonneg _ (by norm_num), pmod_lt _ (by norm_num), ⟨-⌊(r.wa - shift) / 360⌋, ?_⟩⟩
  simp only [pmod]
  push_cast
  ring

/-- **C48** (partial: lists; for single values see `C48_single_false`). Adding the influence to a list of winds evaluates
the diagram at the corrected angles. -/
theorem C48_add_partial (shift : K) (f : K → K → K) (ws wa : List K) :
    correctingAdd shift (fun ws wa => .ok (f ws wa)) (.many ws wa) =
      .ok (.many ((ws.zip wa).map fun w => f w.1 (pmod (w.2 + shift) 360))) := by
  simp [correctingAdd, evalAll_ok, Except.map, Function.comp_def]

/-- **C48** (partial: lists). Adding the influence to data from which it was removed evaluates the diagram at the
measured winds. -/
theorem C48_undone_partial (shift : K) (f : K → K → K) (rows out : List (Row K))
    (h : correctingRemove shift (.rows rows) = .ok out) :
    correctingAdd shift (fun ws wa => .ok (f ws wa)) (.many (out.map (·.ws)) (out.map (·.wa))) =
      .ok (.many (rows.map fun r => f r.ws (pmod r.wa 360))) := by
  rw [C48_add_partial]
  simp only [correctingRemove, Except.ok.injEq] at h
  subst h
  congr 2
  induction rows with
  | nil => rfl
  | cons r rest ih =>
    simp only [List.map_cons, List.zip_cons_cons, ih, List.cons.injEq, and_true]
    congr 1
    have : pmod (r.wa - shift) 360 + shift = r.wa + 360 * ((-⌊(r.wa - shift) / 360⌋ : ℤ) : K) := by
      unfold pmod; push_cast; ring
    rw [this]
    exact pmod_add_mul _ (by norm_num) _

example : correctingAdd (30 : Rat) (fun _ wa => .ok wa) (.many [10, 10] [340, 20]) = .ok (.many [10, 50]) := by
  decide +kernel

example : correctingRemove (30 : Rat) (.rows [⟨10, 20, 5⟩]) = .ok [⟨10, 350, 5⟩] := by decide +kernel

/-- **C48** is false for a single wind: the shift is ignored. -/
theorem C48_single_false (shift shift' : K) (pd : K → K → Except PyErr K) (ws wa : K) :
    correctingAdd shift pd (.one ws wa) = correctingAdd shift' pd (.one ws wa) := rfl

/-- **C48** is false for a single wind: list and single value give different speeds. -/
theorem C48_single_differs_false : ∃ (pd : Rat → Rat → Except PyErr Rat),
    correctingAdd 30 pd (.many [10] [40]) = .ok (.many [70]) ∧ correctingAdd 30 pd (.one 10 40) = .ok (.one 40) :=
  ⟨fun _ wa => .ok wa, by decide +kernel, by decide +kernel⟩

/-- **C48** is false for a single measurement: the influence cannot be removed. -/
theorem C48_remove_single_false (shift : K) (r : Row K) :
    correctingRemove shift (.single r) = .error .indexError := rfl

/-- **C48.** The identity model evaluates the diagram at the given winds; the same as correcting by 0 if the angles are in
`[0, 360)`. -/
theorem C48_identity (pd : K → K → Except PyErr K) (w : WindData K)
    (h : ∀ ws wa, w = .many ws wa → ∀ a ∈ wa, 0 ≤ a ∧ a < 360) : correctingAdd 0 pd w = identityAdd pd w := by
  cases w with
  | one ws wa => rfl
  | many ws wa =>
    have : ((ws.zip wa).map fun w => (w.1, pmod (w.2 + 0) 360)) = ws.zip wa := by
      conv_rhs => rw [← List.map_id (ws.zip wa)]
      apply List.map_congr_left
      intro p hp
      obtain ⟨h1, h2⟩ := h ws wa rfl p.2 (List.of_mem_zip hp).2
      rw [add_zero, pmod_of_mem h1 h2]
      rfl
    simp only [correctingAdd, identityAdd, this]

example : correctingAdd 0 (fun ws wa => .ok (ws * wa)) (.many [10, 12] [90, (120 : ℚ)]) =
    identityAdd (fun ws wa => .ok (ws * wa)) (.many [10, 12] [90, 120]) :=
  C48_identity _ _ fun ws wa h a ha => by
    cases h
    simp only [List.mem_cons, List.not_mem_nil, or_false] at ha
    rcases ha with rfl | rfl <;> norm_num

end

/-! ### C68 -/

theorem minKey_spec (key : ℝ → ℝ) (best : ℝ) (l : List ℝ) :
    minKey key best l ∈ best :: l ∧ ∀ x ∈ best :: l, key (minKey key best l) ≤ key x := by
  induction l generalizing best with
  | nil => simp [minKey]
  | cons y rest ih =>
    unfold minKey
    split
    · rename_i h
      obtain ⟨h1, h2⟩ := ih y
      refine ⟨List.mem_cons_of_mem _ h1, ?_⟩
      intro x hx
      rcases List.mem_cons.1 hx with rfl | hx
      · exact (h2 y (by simp)).trans h.le
      · exact h2 x hx
    · rename_i h
      obtain ⟨h1, h2⟩ := ih best
      refine ⟨?_, ?_⟩
      · rcases List.mem_cons.1 h1 with h1 | h1
        · rw [h1]; simp
        · exact List.mem_cons_of_mem _ (List.mem_cons_of_mem _ h1)
      · intro x hx
        rcases List.mem_cons.1 hx with rfl | hx
        · exact h2 x (by simp)
        · rcases List.mem_cons.1 hx with rfl | hx
          · exact (h2 best (by simp)).trans (not_lt.1 h)
          · exact h2 x (List.mem_cons_of_mem _ hx)

/-- The sampled angles. -/
def IsSample (a : ℝ) : Prop := ∃ i : Nat, i < 3600 ∧ a = (i : ℝ) * (359 / 3599)

theorem mem_linspace {n : Nat} (hn : 2 ≤ n) (a : ℝ) :
    a ∈ Injector.linspace (0 : ℝ) 359 n ↔ ∃ i : Nat, i < n ∧ a = (i : ℝ) * (359 / ((n : ℝ) - 1)) := by
  rw [Injector.linspace, if_neg (by omega)]
  simp only [List.mem_map, List.mem_range, zero_add, sub_zero]
  constructor
  · rintro ⟨i, hi, rfl⟩; exact ⟨i, hi, rfl⟩
  · rintro ⟨i, hi, rfl⟩; exact ⟨i, hi, rfl⟩

theorem mem_sample (a : ℝ) : a ∈ Injector.linspace (0 : ℝ) 359 (10 * 360) ↔ IsSample a := by
  rw [mem_linspace (by norm_num)]
  have : (((10 * 360 : Nat) : ℝ) - 1) = 3599 := by push_cast; norm_num
  rw [this]
  rfl

theorem firstMin_spec (key : ℝ → ℝ) {l : List ℝ} {a : ℝ} (ha : a ∈ l) :
    firstMin key l ∈ l ∧ ∀ x ∈ l, key (firstMin key l) ≤ key x := by
  cases l with
  | nil => simp at ha
  | cons x rest => exact minKey_spec key x rest

/-- **C68** (partial: with the distance of angles used by the code, which is not the distance on the circle, see
`C68_circle_false`). The fitted shift is one of the 3600 sampled angles and no sampled angle has a lower density of
measurements; the shift is between 0 and 359. -/
theorem C68_lowest_partial {interval : ℝ} (_ : interval ≠ 0) (data : List (ℝ × ℝ)) :
    IsSample (fit interval data) ∧ 0 ≤ fit interval data ∧ fit interval data ≤ 359 ∧
    ∀ a, IsSample a → density interval data (fit interval data) ≤ density interval data a := by
  have hs : fit interval data ∈ Injector.linspace (0 : ℝ) 359 (10 * 360) ∧
      ∀ x ∈ Injector.linspace (0 : ℝ) 359 (10 * 360), density interval data (fit interval data) ≤ density interval data x :=
    firstMin_spec (density interval data) ((mem_sample 0).2 ⟨0, by norm_num, by simp⟩)
  have h1 : IsSample (fit interval data) := (mem_sample _).1 hs.1
  refine ⟨h1, ?_, ?_, fun a ha => hs.2 a ((mem_sample a).2 ha)⟩
  · obtain ⟨i, -, e⟩ := h1
    rw [e]; exact mul_nonneg (Nat.cast_nonneg i) (by norm_num)
  · obtain ⟨i, hi, e⟩ := h1
    rw [e]
    have : (i : ℝ) ≤ 3599 := by exact_mod_cast (by omega : i ≤ 3599)
    nlinarith

/-- Distance of two angles on the circle. -/
noncomputable def circleGap (a b : ℝ) : ℝ := min (pmod (a - b) 360) (360 - pmod (a - b) 360)

/-- Density of measurements with respect to the distance on the circle. -/
noncomputable def circleDensity (interval : ℝ) (data : List (ℝ × ℝ)) (wa : ℝ) : ℝ :=
  (data.map fun d => d.2 * Real.exp (-((circleGap wa d.1 / interval) ^ 2))).sum

/-- **C68** is false for the distance on the circle: if the only measurement is at 359 degrees, the fitted shift is 0 degrees
though there are sampled angles of lower density. -/
theorem C68_circle_false {interval : ℝ} (hi : 0 < interval) :
    fit interval [(359, 10)] = 0 ∧
    ∃ a, IsSample a ∧ circleDensity interval [(359, 10)] a < circleDensity interval [(359, 10)] (fit interval [(359, 10)]) := by
  have hfit : fit interval [(359, 10)] = 0 := by
    obtain ⟨⟨i, hi', e⟩, h0, h359, hmin⟩ := C68_lowest_partial hi.ne' [(359, 10)]
    have := hmin 0 ⟨0, by norm_num, by simp⟩
    set s := fit interval [(359, 10)] with hs
    simp only [density, List.map_cons, List.map_nil, List.sum_cons, List.sum_nil, add_zero] at this
    have h1 := Real.exp_le_exp.1 (le_of_mul_le_mul_left this (by norm_num))
    have g1 : gap s 359 = 359 - s := by
      rw [gap, abs_sub_comm, abs_of_nonneg (by linarith), pmod_of_mem (by linarith) (by linarith)]
    have g0 : gap 0 359 = 359 := by
      rw [gap, abs_sub_comm, abs_of_nonneg (by norm_num), pmod_of_mem (by norm_num) (by norm_num)]
      norm_num
    rw [g1, g0] at h1
    have h2 : (359 / interval) ^ 2 ≤ ((359 - s) / interval) ^ 2 := by linarith
    rw [div_pow, div_pow, div_le_div_iff_of_pos_right (by positivity)] at h2
    nlinarith
  refine ⟨hfit, ((1800 : Nat) : ℝ) * (359 / 3599), ⟨1800, by norm_num, rfl⟩, ?_⟩
  rw [hfit]
  simp only [circleDensity, List.map_cons, List.map_nil, List.sum_cons, List.sum_nil, add_zero]
  apply mul_lt_mul_of_pos_left _ (by norm_num)
  rw [Real.exp_lt_exp, neg_lt_neg_iff]
  have e0 : circleGap 0 359 = 1 := by
    have : pmod (0 - 359 : ℝ) 360 = 1 := by
      have e : (0 - 359 : ℝ) = 1 + 360 * ((-1 : ℤ) : ℝ) := by norm_num
      rw [e, pmod_add_mul _ (by norm_num), pmod_of_mem (by norm_num) (by norm_num)]
    rw [circleGap, this]; norm_num
  have e1 : 1 < circleGap (((1800 : Nat) : ℝ) * (359 / 3599)) 359 := by
    have : pmod (((1800 : Nat) : ℝ) * (359 / 3599) - 359 : ℝ) 360 = 1 + 1800 * (359 / 3599) := by
      have e : (((1800 : Nat) : ℝ) * (359 / 3599) - 359 : ℝ) = 1 + 1800 * (359 / 3599) + 360 * ((-1 : ℤ) : ℝ) := by
        push_cast; norm_num
      rw [e, pmod_add_mul _ (by norm_num), pmod_of_mem (by norm_num) (by norm_num)]
    rw [circleGap, this]
    norm_num
  rw [e0, div_pow, div_pow, div_lt_div_iff_of_pos_right (by positivity)]
  nlinarith

example : ∃ s, fit 30 [(359, 10)] = s ∧ s = 0 := ⟨_, rfl, (C68_circle_false (by norm_num)).1⟩

end Verif.Influence
