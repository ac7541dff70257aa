import Mathlib.Tactic.Linarith
import Mathlib.Tactic.Positivity
import Mathlib.Tactic.FieldSimp
import Mathlib.Tactic.IntervalCases
import Mathlib.Algebra.BigOperators.Fin
import Mathlib.Algebra.Order.BigOperators.Group.List
import Verif.Model.WeigherData
import Verif.Lemmas.Round

set_option linter.unusedSectionVars false

/-! # C78: the statistics of weighers -/

namespace Verif.Weigher

variable {K : Type} [Field K] [LinearOrder K] [IsStrictOrderedRing K] [FloorRing K]

theorem round2_spec (x : K) : |round2 x - x| ≤ 1 / 200 ∧ ∃ k : ℤ, round2 x = (k : K) / 100 := by
  obtain ⟨h1, h2⟩ := pyRound_spec (100 * x)
  refine ⟨?_, ⟨_, rfl⟩⟩
  unfold round2
  rw [abs_le]
  constructor <;> linarith

theorem round2_nonneg {x : K} (h : 0 ≤ x) : 0 ≤ round2 x := by
  have := pyRound_mono (show ((0 : ℤ) : K) ≤ 100 * x by push_cast; linarith)
  rw [pyRound_int] at this
  exact div_nonneg (by exact_mod_cast this) (by norm_num)

theorem round2_le {x : K} (h : x ≤ 100) : round2 x ≤ 100 := by
  have := pyRound_mono (show 100 * x ≤ ((10000 : ℤ) : K) by push_cast; linarith)
  rw [pyRound_int] at this
  have h3 : (pyRound (100 * x) : K) ≤ ((10000 : ℤ) : K) := by exact_mod_cast this
  unfold round2
  rw [div_le_iff₀ (by norm_num)]
  refine h3.trans ?_
  norm_num

theorem foldl_min_spec (w : K) (ws : List K) :
    ws.foldl min w ∈ w :: ws ∧ ∀ x ∈ w :: ws, ws.foldl min w ≤ x := by
  induction ws generalizing w with
  | nil => simp
  | cons y ws ih =>
    obtain ⟨h1, h2⟩ := ih (min w y)
    rw [List.foldl_cons]
    refine ⟨?_, ?_⟩
    · rcases List.mem_cons.mp h1 with h | h
      · rw [h]; rcases min_choice w y with e | e <;> simp [e]
      · simp [h]
    · intro x hx
      have hm := h2 (min w y) (by simp)
      rcases List.mem_cons.mp hx with rfl | hx
      · exact hm.trans (min_le_left _ _)
      · rcases List.mem_cons.mp hx with rfl | hx
        · exact hm.trans (min_le_right _ _)
        · exact h2 x (by simp [hx])

theorem foldl_max_spec (w : K) (ws : List K) :
    ws.foldl max w ∈ w :: ws ∧ ∀ x ∈ w :: ws, x ≤ ws.foldl max w := by
  induction ws generalizing w with
  | nil => simp
  | cons y ws ih =>
    obtain ⟨h1, h2⟩ := ih (max w y)
    rw [List.foldl_cons]
    refine ⟨?_, ?_⟩
    · rcases List.mem_cons.mp h1 with h | h
      · rw [h]; rcases max_choice w y with e | e <;> simp [e]
      · simp [h]
    · intro x hx
      have hm := h2 (max w y) (by simp)
      rcases List.mem_cons.mp hx with rfl | hx
      · exact (le_max_left _ _).trans hm
      · rcases List.mem_cons.mp hx with rfl | hx
        · exact (le_max_right _ _).trans hm
        · exact h2 x (by simp [hx])

theorem sum_bounds {a b : K} {l : List K} (h : ∀ x ∈ l, a ≤ x ∧ x ≤ b) :
    (l.length : K) * a ≤ l.sum ∧ l.sum ≤ (l.length : K) * b := by
  induction l with
  | nil => simp
  | cons x l ih =>
    obtain ⟨h1, h2⟩ := ih (fun y hy => h y (by simp [hy]))
    obtain ⟨h3, h4⟩ := h x (by simp)
    simp only [List.length_cons, List.sum_cons, Nat.cast_add, Nat.cast_one]
    constructor <;> linarith

/-- **C78.** The average, minimum and maximum of the weights. -/
theorem C78_bounds {weights : List K} (hne : weights ≠ []) :
    ∃ avg mn mx, (weightStats weights).average = some avg ∧ (weightStats weights).minimal = some mn ∧
      (weightStats weights).maximal = some mx ∧ mn ∈ weights ∧ mx ∈ weights ∧ (∀ w ∈ weights, mn ≤ w ∧ w ≤ mx) ∧
      mn ≤ avg ∧ avg ≤ mx ∧ avg * weights.length = weights.sum := by
  cases weights with
  | nil => exact absurd rfl hne
  | cons w ws =>
    obtain ⟨a1, a2⟩ := foldl_min_spec w ws
    obtain ⟨b1, b2⟩ := foldl_max_spec w ws
    have hpos : (0 : K) < ((w :: ws).length : K) := by
      have : 0 < (w :: ws).length := by simp
      exact_mod_cast this
    obtain ⟨c1, c2⟩ := sum_bounds (fun x hx => ⟨a2 x hx, b2 x hx⟩)
    refine ⟨_, _, _, rfl, rfl, rfl, a1, b1, fun x hx => ⟨a2 x hx, b2 x hx⟩, ?_, ?_, ?_⟩
    · rw [le_div_iff₀ hpos, mul_comm]; exact c1
    · rw [div_le_iff₀ hpos, mul_comm]; exact c2
    · exact div_mul_cancel₀ _ hpos.ne'

/-- **C78.** The entry of each tenth of the span is the percentage of the weights in it (including both ends), rounded to
two decimal places. -/
theorem C78_quantiles {weights : List K} {mn mx : K} (hmn : (weightStats weights).minimal = some mn)
    (hmx : (weightStats weights).maximal = some mx) :
    ∃ qs, (weightStats weights).quantiles = some qs ∧ qs.length = 10 ∧ ∀ (i : Nat) (q : K), qs[i]? = some q →
      0 ≤ q ∧ q ≤ 100 ∧ (∃ k : ℤ, q = (k : K) / 100) ∧
      |q - 100 * ((weights.filter fun w => decide (w ≤ mn + (mx - mn) * ((i : K) + 1) / 10) &&
          decide (mn + (mx - mn) * (i : K) / 10 ≤ w)).length : K) / (weights.length : K)| ≤ 1 / 200 := by
  cases weights with
  | nil => cases hmn
  | cons w ws =>
    cases hmn
    cases hmx
    refine ⟨_, rfl, by simp, ?_⟩
    intro i q hq
    rw [List.getElem?_map] at hq
    have hi : i < 10 := by
      by_contra h
      rw [List.getElem?_eq_none (by simpa using h)] at hq
      cases hq
    rw [List.getElem?_range hi] at hq
    simp only [Option.map_some, Option.some.injEq] at hq
    subst hq
    unfold quantile
    have hpos : (0 : K) < ((w :: ws).length : K) := by
      have : 0 < (w :: ws).length := by simp
      exact_mod_cast this
    refine ⟨round2_nonneg (by positivity), round2_le ?_, (round2_spec _).2, (round2_spec _).1⟩
    rw [div_le_iff₀ hpos]
    apply mul_le_mul_of_nonneg_left _ (by norm_num)
    exact_mod_cast List.length_filter_le _ _

theorem exists_tenth {mn mx w : K} (h0 : mn ≤ w) (h1 : w ≤ mx) : ∃ i : Nat, i < 10 ∧
    (w ≤ mn + (mx - mn) * ((i : K) + 1) / 10 ∧ mn + (mx - mn) * (i : K) / 10 ≤ w) := by
  have h9 : ∃ i : Nat, w ≤ mn + (mx - mn) * ((i : K) + 1) / 10 := ⟨9, by push_cast; linarith⟩
  classical
  refine ⟨Nat.find h9, ?_, Nat.find_spec h9, ?_⟩
  · have : Nat.find h9 ≤ 9 := Nat.find_min' h9 (by push_cast; linarith)
    omega
  · by_cases h : Nat.find h9 = 0
    · rw [h]; simpa using h0
    · have hm := Nat.find_min h9 (m := Nat.find h9 - 1) (by omega)
      rw [not_le] at hm
      have e : (((Nat.find h9 - 1 : ℕ) : K) + 1) = (Nat.find h9 : K) := by
        rw [Nat.cast_sub (by omega)]; push_cast; ring
      rw [e] at hm
      exact hm.le

theorem count_sum (p : Nat → K → Bool) (l : List K) (n : Nat) (h : ∀ w ∈ l, ∃ i < n, p i w = true) :
    l.length ≤ ((List.range n).map fun i => (l.filter (p i)).length).sum := by
  induction l with
  | nil => simp
  | cons w l ih =>
    have h1 := ih (fun v hv => h v (by simp [hv]))
    obtain ⟨i, hi, hp⟩ := h w (by simp)
    have h2 : ((List.range n).map fun i => ((w :: l).filter (p i)).length).sum
        = ((List.range n).map fun i => (l.filter (p i)).length).sum
          + ((List.range n).map fun i => if p i w = true then 1 else 0).sum := by
      rw [← List.sum_map_add]
      congr 1
      apply List.map_congr_left
      intro j _
      rw [List.filter_cons]
      split_ifs <;> simp
    rw [h2]
    have h3 : 1 ≤ ((List.range n).map fun i => if p i w = true then 1 else 0).sum := by
      have : (1 : Nat) ∈ (List.range n).map fun i => if p i w = true then 1 else 0 :=
        List.mem_map.mpr ⟨i, by simpa using hi, by simp [hp]⟩
      exact List.single_le_sum (by simp) _ this
    rw [List.length_cons]
    omega

/-- **C78** (partial: they may add up to more). Every weight lies in one of the tenths: up to rounding, the percentages
add up to at least 100. -/
theorem C78_cover_partial {weights : List K} {qs : List K} (hq : (weightStats weights).quantiles = some qs) :
    100 - 1 / 20 ≤ qs.sum := by
  cases weights with
  | nil => cases hq
  | cons w ws =>
    cases hq
    set l := w :: ws with hl
    set mn := ws.foldl min w
    set mx := ws.foldl max w
    have hpos : (0 : K) < (l.length : K) := by
      have : 0 < l.length := by simp [hl]
      exact_mod_cast this
    set p : Nat → K → Bool := fun i w => decide (w ≤ mn + (mx - mn) * ((i : K) + 1) / 10) &&
      decide (mn + (mx - mn) * (i : K) / 10 ≤ w) with hp
    have hc := count_sum p l 10 (by
      intro v hv
      obtain ⟨i, hi, e1, e2⟩ := exists_tenth ((foldl_min_spec w ws).2 v hv) ((foldl_max_spec w ws).2 v hv)
      exact ⟨i, hi, by simp [hp, mn, mx, e1, e2]⟩)
    have hstep : ∀ i, 100 * ((l.filter (p i)).length : K) / (l.length : K) - 1 / 200 ≤ quantile l mn (mx - mn) i := by
      intro i
      have := (abs_le.mp (round2_spec (100 * ((l.filter (p i)).length : K) / (l.length : K))).1).1
      unfold quantile
      linarith
    have hc' : (l.length : K) ≤ ((((List.range 10).map fun i => (l.filter (p i)).length).sum : ℕ) : K) := by
      exact_mod_cast hc
    simp only [List.range_succ, List.range_zero, List.nil_append, List.cons_append, List.map_cons, List.map_nil,
      List.sum_cons, List.sum_nil, Nat.cast_add, Nat.cast_zero, add_zero] at hc' ⊢
    have hsum : 100 ≤ 100 * ((l.filter (p 0)).length : K) / (l.length : K) + (100 * ((l.filter (p 1)).length : K) / (l.length : K)
        + (100 * ((l.filter (p 2)).length : K) / (l.length : K) + (100 * ((l.filter (p 3)).length : K) / (l.length : K)
        + (100 * ((l.filter (p 4)).length : K) / (l.length : K) + (100 * ((l.filter (p 5)).length : K) / (l.length : K)
        + (100 * ((l.filter (p 6)).length : K) / (l.length : K) + (100 * ((l.filter (p 7)).length : K) / (l.length : K)
        + (100 * ((l.filter (p 8)).length : K) / (l.length : K) + 100 * ((l.filter (p 9)).length : K) / (l.length : K))))))))) := by
      simp only [← add_div]
      rw [le_div_iff₀ hpos]
      linarith
    have s0 := hstep 0
    have s1 := hstep 1
    have s2 := hstep 2
    have s3 := hstep 3
    have s4 := hstep 4
    have s5 := hstep 5
    have s6 := hstep 6
    have s7 := hstep 7
    have s8 := hstep 8
    have s9 := hstep 9
    linarith

/-- **C78 is false**: weights between two tenths are counted twice, so the percentages may add up to more than 100. -/
theorem C78_sum_false : ∃ weights qs : List ℚ, (weightStats weights).quantiles = some qs ∧ 133 < qs.sum :=
  ⟨[0, 1 / 2, 1], [100 / 3 - 1 / 300, 0, 0, 0, 100 / 3 - 1 / 300, 100 / 3 - 1 / 300, 0, 0, 0, 100 / 3 - 1 / 300],
    by decide +kernel, by norm_num⟩

theorem foldl_min_replicate (c : K) (n : Nat) : (List.replicate n c).foldl min c = c := by
  induction n with
  | zero => rfl
  | succ n ih => rw [List.replicate_succ, List.foldl_cons, min_self, ih]

theorem foldl_max_replicate (c : K) (n : Nat) : (List.replicate n c).foldl max c = c := by
  induction n with
  | zero => rfl
  | succ n ih => rw [List.replicate_succ, List.foldl_cons, max_self, ih]

/-- **C78 is false** for equal weights, e.g. of `AllOneWeigher`: each of the ten tenths contains 100 percent. -/
theorem C78_equal_false (c : K) (n : Nat) :
    (weightStats (List.replicate (n + 1) c)).quantiles = some (List.replicate 10 100) := by
  rw [List.replicate_succ]
  unfold weightStats
  simp only [foldl_min_replicate, foldl_max_replicate, sub_self]
  rw [← List.replicate_succ]
  congr 1
  rw [List.eq_replicate_iff]
  refine ⟨by simp, ?_⟩
  intro b hb
  obtain ⟨i, -, rfl⟩ := List.mem_map.mp hb
  unfold quantile
  rw [List.filter_eq_self.mpr (by
    intro a ha
    rw [List.eq_of_mem_replicate ha]
    simp)]
  have hpos : ((List.replicate (n + 1) c).length : K) ≠ 0 := by
    rw [List.length_replicate]; exact_mod_cast Nat.succ_ne_zero n
  rw [mul_div_assoc, div_self hpos, mul_one]
  unfold round2
  rw [show (100 * 100 : K) = ((10000 : ℤ) : K) by push_cast; norm_num, pyRound_int]
  norm_num

/-- **C78.** Without weights there are no statistics, and no exception is raised. -/
theorem C78_empty : weightStats ([] : List K) = ⟨none, none, none, none⟩ := rfl

example : weightStats ([1, 3 / 10, 0, 2 / 5, 1 / 3] : List ℚ) =
    ⟨some (61 / 150), some 0, some 1, some [20, 0, 20, 60, 20, 0, 0, 0, 0, 20]⟩ := by decide +kernel

end Verif.Weigher
