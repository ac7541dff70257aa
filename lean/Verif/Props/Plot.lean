import Mathlib.Data.List.Induction
import Mathlib.Data.Rat.Defs
import Mathlib.Algebra.Order.Ring.Rat
import Mathlib.Tactic.FieldSimp
import Mathlib.Tactic.Linarith
import Verif.Lemmas.Dict
import Verif.Model.Plot

/-!
# Properties C49, C69: plotted segments, colour gradients
-/

set_option linter.unusedSectionVars false

namespace Verif.Plot

section
variable {L : Type} [DecidableEq L]

/-! ### C49 -/

/-- The positions of a label. -/
def positions (info : List L) (l : L) : List Nat := (info.zipIdx.filter fun e => e.1 = l).map Prod.snd

/-- The points with a given label. -/
def labelled {α : Type} (points : List α) (info : List L) (l : L) : List α :=
  ((points.zip info).filter fun e => e.2 = l).map Prod.fst

theorem positions_snoc (info : List L) (x l : L) :
    positions (info ++ [x]) l = positions info l ++ if x = l then [info.length] else [] := by
  simp only [positions, List.zipIdx_append, List.filter_append, List.map_append, List.zipIdx_singleton]
  congr 1
  by_cases h : x = l <;> simp [h]

/-- The loop collects the positions of every label, each label once. -/
theorem foldl_addIndex (info : List L) :
    (Dict.keys (info.zipIdx.foldl addIndex [])).Nodup ∧
    (∀ l, l ∈ Dict.keys (info.zipIdx.foldl addIndex []) ↔ l ∈ info) ∧
    ∀ l is, Dict.get? (info.zipIdx.foldl addIndex []) l = some is → is = positions info l := by
  induction info using List.reverseRecOn with
  | nil => simp [Dict.keys]
  | append_singleton info x ih =>
    obtain ⟨h1, h2, h3⟩ := ih
    rw [List.zipIdx_append, List.foldl_append]
    simp only [List.zipIdx_singleton, List.foldl_cons, List.foldl_nil]
    generalize hd : List.foldl addIndex [] info.zipIdx = d at *
    simp only [Nat.zero_add]
    unfold addIndex
    simp only
    cases hg : Dict.get? d x with
    | none =>
      simp only
      have hx : x ∉ info := by rw [← h2, ← Dict.get?_eq_none_iff]; exact hg
      refine ⟨Dict.nodup_keys_set d x _ h1, ?_, ?_⟩
      · intro l
        rw [Dict.mem_keys_set, h2]
        simp [or_comm, eq_comm]
      · intro l is hl
        rw [Dict.get?_set] at hl
        rw [positions_snoc]
        split at hl
        · rename_i e
          subst e
          simp only [Option.some.injEq] at hl
          subst hl
          have : positions info x = [] := by
            simp only [positions, List.map_eq_nil_iff, List.filter_eq_nil_iff]
            intro a ha
            simp only [decide_eq_true_eq]
            intro e
            exact hx (e ▸ (List.fst_mem_of_mem_zipIdx ha))
          simp [this]
        · rename_i e
          simp [h3 l is hl, e]
    | some is0 =>
      simp only
      have hx : x ∈ Dict.keys d := (Dict.mem_keys_iff d x).2 ⟨_, hg⟩
      refine ⟨Dict.nodup_keys_set d x _ h1, ?_, ?_⟩
      · intro l
        rw [Dict.mem_keys_set, h2]
        simp [or_comm, eq_comm]
      · intro l is hl
        rw [Dict.get?_set] at hl
        rw [positions_snoc]
        split at hl
        · rename_i e
          subst e
          simp only [Option.some.injEq] at hl
          subst hl
          simp [h3 x is0 hg]
        · rename_i e
          simp [h3 l is hl, e]

/-- Picking the positions of a label gives the points with this label. -/
theorem pick_positions {α : Type} (points : List α) (info : List L) (h : points.length = info.length) (l : L) :
    pick points (positions info l) = .ok (labelled points info l) := by
  have key : ∀ (pre : List α) (points : List α) (info : List L), points.length = info.length →
      pick (pre ++ points) (((info.zipIdx pre.length).filter fun e => e.1 = l).map Prod.snd) =
        .ok (labelled points info l) := by
    intro pre points info h
    induction info generalizing pre points with
    | nil => cases points <;> simp_all [pick, labelled]
    | cons x info ih =>
      cases points with
      | nil => simp at h
      | cons p points =>
        have hih := ih (pre ++ [p]) points (by simpa using h)
        simp only [List.append_assoc, List.cons_append, List.nil_append, List.length_append, List.length_cons,
          List.length_nil, Nat.zero_add] at hih
        simp only [List.zipIdx_cons, List.filter_cons, labelled, List.zip_cons_cons]
        by_cases e : x = l
        · simp only [e, decide_true, if_true, List.map_cons, pick]
          rw [List.getElem?_append_right (Nat.le_refl _)]
          simp only [Nat.sub_self, List.getElem?_cons_zero, hih]
          rfl
        · simp only [e, decide_false, Bool.false_eq_true, if_false]
          exact hih
  have := key [] points info h
  simpa [positions] using this

theorem pickAll_positions {α : Type} (points : List α) (info : List L) (h : points.length = info.length)
    (ls : List L) : pickAll points (ls.map (positions info)) =
      .ok ((ls.map fun l => (labelled points info l).map some ++ [none]).flatten) := by
  induction ls with
  | nil => rfl
  | cons l ls ih => simp [pickAll, pick_positions points info h, ih]

/-- Segments, one after the other, separated by a gap. -/
def separated {α : Type} : List (List α) → List (Option α)
  | [] => []
  | [s] => s.map some
  | s :: rest => s.map some ++ [none] ++ separated rest

theorem dropLast_flatten {α : Type} (ls : List (List α)) :
    ((ls.map fun s => s.map some ++ [none]).flatten).dropLast = separated ls := by
  induction ls with
  | nil => rfl
  | cons s rest ih =>
    cases rest with
    | nil => simp [separated]
    | cons t rest =>
      rw [separated, ← ih, List.map_cons, List.flatten_cons, List.dropLast_append_of_ne_nil]
      · simp
      · simp

/-- The segments of a list of points with labels. -/
theorem merge_intervals {α : Type} (points : List α) (info : List L) (h : points.length = info.length) :
    ∃ labels : List L, labels.Nodup ∧ (∀ l, l ∈ labels ↔ l ∈ info) ∧
      merge points (infoIntervals info) = .ok (separated (labels.map (labelled points info))) := by
  obtain ⟨h1, h2, h3⟩ := foldl_addIndex info
  refine ⟨_, h1, h2, ?_⟩
  have e : infoIntervals info = (Dict.keys (info.zipIdx.foldl addIndex [])).map (positions info) := by
    rw [infoIntervals, Dict.keys, List.map_map]
    apply List.map_congr_left
    rintro ⟨l, is⟩ hmem
    exact h3 l is (Dict.get?_of_mem h1 hmem)
  rw [merge, e]
  split
  · rename_i h0
    rw [List.length_map] at h0
    rw [List.length_eq_zero_iff.1 h0]
    rfl
  · rw [pickAll_positions points info h]
    simp only [Except.map]
    rw [← dropLast_flatten, List.map_map]
    rfl

variable {K : Type} [LinearOrder K]

/-- **C49** (partial: the wind angles of the slice must be in ascending order, see `C49_false`). Every sail gets exactly one
segment, which consists of the points of this sail in order of their angles; the segments are separated by gaps. -/
theorem C49_segments_partial {points : List (K × K)} {info : List L} (h : points.length = info.length)
    (hs : points.Pairwise fun p q => p.1 ≤ q.1) :
    ∃ labels : List L, labels.Nodup ∧ (∀ l, l ∈ labels ↔ l ∈ info) ∧
      drawn points info = .ok (separated (labels.map (labelled points info))) := by
  rw [drawn, List.Pairwise.insertionSort_eq hs]
  exact merge_intervals points info h

example : drawn [((10 : Rat), (3 : Rat)), (20, 4), (30, 5)] ["jib", "spi", "jib"] =
    .ok [some (10, 3), some (30, 5), none, some (20, 4)] := by decide +kernel

/-- **C49** is false for slices with unsorted angles, as given by diagrams of several sails: here both points of the
segment drawn for the sail `jib` belong to the other sail. -/
theorem C49_false :
    ∃ (points : List (Rat × Rat)) (info : List String), points.length = info.length ∧
      labelled points info "jib" = [(100, 3), (140, 4)] ∧
      drawn points info = .ok [some (30, 5), some (40, 6), none, some (100, 3), some (140, 4)] ∧
      info = ["jib", "jib", "spi", "spi"] :=
  ⟨[(100, 3), (140, 4), (30, 5), (40, 6)], ["jib", "jib", "spi", "spi"], by decide +kernel, by decide +kernel,
    by decide +kernel, rfl⟩

end

/-! ### C69 -/

section
variable {K : Type} [Field K] [LinearOrder K] [IsStrictOrderedRing K]

theorem coefficients_get {gradient : List K} {i : Nat} {x : Option K} (h : (coefficients gradient)[i]? = some x) :
    ∃ g lo hi, gradient[i]? = some g ∧ gradient.min? = some lo ∧ gradient.max? = some hi ∧
      x = if hi - lo = 0 then none else some ((g - lo) / (hi - lo)) := by
  unfold coefficients at h
  split at h
  · rename_i lo hi h1 h2
    rw [List.getElem?_map, Option.map_eq_some_iff] at h
    obtain ⟨g, hg, hx⟩ := h
    exact ⟨g, lo, hi, hg, h1, h2, hx.symm⟩
  · simp at h

/-- **C69** (partial: at least two different values, see `C69_equal_false`). The coefficients of a gradient are between 0 and
1, the smallest value gets 0, the largest gets 1, and they are ordered as the values. -/
theorem C69_coefficients_partial {gradient : List K} {lo hi : K} (hlo : lo ∈ gradient) (hhi : hi ∈ gradient)
    (hlt : lo < hi) :
    (coefficients gradient).length = gradient.length ∧
    (∀ (i : Nat) (x : Option K), (coefficients gradient)[i]? = some x → ∃ c, x = some c ∧ 0 ≤ c ∧ c ≤ 1) ∧
    (∀ (i : Nat) (g : K), gradient[i]? = some g → (∀ g' ∈ gradient, g ≤ g') → (coefficients gradient)[i]? = some (some 0)) ∧
    (∀ (i : Nat) (g : K), gradient[i]? = some g → (∀ g' ∈ gradient, g' ≤ g) → (coefficients gradient)[i]? = some (some 1)) ∧
    (∀ (i j : Nat) (g g' c c' : K), gradient[i]? = some g → gradient[j]? = some g' → g ≤ g' →
      (coefficients gradient)[i]? = some (some c) → (coefficients gradient)[j]? = some (some c') → c ≤ c') := by
  have hne : gradient ≠ [] := List.ne_nil_of_mem hlo
  obtain ⟨mn, hmn⟩ : ∃ a, gradient.min? = some a := by
    cases h : gradient.min? with
    | none => rw [List.min?_eq_none_iff] at h; exact absurd h hne
    | some a => exact ⟨a, rfl⟩
  obtain ⟨mx, hmx⟩ : ∃ a, gradient.max? = some a := by
    cases h : gradient.max? with
    | none => rw [List.max?_eq_none_iff] at h; exact absurd h hne
    | some a => exact ⟨a, rfl⟩
  have h1 := (List.min?_eq_some_iff.1 hmn)
  have h2 := (List.max?_eq_some_iff.1 hmx)
  have hpos : 0 < mx - mn := sub_pos.2 (lt_of_le_of_lt (h1.2 lo hlo) (lt_of_lt_of_le hlt (h2.2 hi hhi)))
  have e : coefficients gradient = gradient.map fun g => some ((g - mn) / (mx - mn)) := by
    unfold coefficients
    simp only [hmn, hmx, hpos.ne', if_false]
  rw [e]
  refine ⟨by simp, ?_, ?_, ?_, ?_⟩
  · intro i x hx
    rw [List.getElem?_map, Option.map_eq_some_iff] at hx
    obtain ⟨g, hg, rfl⟩ := hx
    have hm := List.mem_of_getElem? hg
    refine ⟨_, rfl, div_nonneg (sub_nonneg.2 (h1.2 g hm)) hpos.le, ?_⟩
    rw [div_le_one hpos]
    have := h2.2 g hm
    linarith
  · intro i g hg hmin
    have : g = mn := le_antisymm (hmin mn h1.1) (h1.2 g (List.mem_of_getElem? hg))
    simp [hg, this]
  · intro i g hg hmax
    have : g = mx := le_antisymm (h2.2 g (List.mem_of_getElem? hg)) (hmax mx h2.1)
    simp [hg, this, div_self hpos.ne']
  · intro i j g g' c c' hg hg' hle hc hc'
    simp only [List.getElem?_map, hg, hg', Option.map_some, Option.some.injEq] at hc hc'
    subst hc hc'
    exact div_le_div_of_nonneg_right (by linarith) hpos.le

/-- **C69.** A mixed colour lies between the two given colours, and the coefficients 0 and 1 give these. -/
theorem C69_colors {a b : List K} (h : a.length = b.length) :
    mixColor a b 0 = a ∧ mixColor a b 1 = b ∧
    ∀ c, 0 ≤ c → c ≤ 1 → (mixColor a b c).length = a.length ∧ ∀ (i : Nat) (x y z : K), a[i]? = some x → b[i]? = some y →
      (mixColor a b c)[i]? = some z → min x y ≤ z ∧ z ≤ max x y := by
  refine ⟨?_, ?_, ?_⟩
  · apply List.ext_getElem
    · simp [mixColor, h]
    · intro i h1 h2; simp [mixColor]
  · apply List.ext_getElem
    · simp [mixColor, h]
    · intro i h1 h2; simp [mixColor]
  · intro c h0 h1
    refine ⟨by simp [mixColor, h], ?_⟩
    intro i x y z hx hy hz
    simp only [mixColor, List.getElem?_zipWith, hx, hy, Option.some.injEq] at hz
    subst hz
    have hx1 := min_le_left x y
    have hy1 := min_le_right x y
    have hx2 := le_max_left x y
    have hy2 := le_max_right x y
    constructor
    · nlinarith
    · nlinarith

example : coefficients [(6 : Rat), 8, 10] = [some 0, some (1 / 2), some 1] := by decide +kernel

/-- **C69** is false if all values are equal: then there are no coefficients. -/
theorem C69_equal_false (g : K) (n : Nat) : coefficients (List.replicate (n + 1) g) = List.replicate (n + 1) none := by
  have h1 : (List.replicate (n + 1) g).min? = some g := by
    rw [List.min?_eq_some_iff]; simp
  have h2 : (List.replicate (n + 1) g).max? = some g := by
    rw [List.max?_eq_some_iff]; simp
  unfold coefficients
  simp only [h1, h2, sub_self, if_true]
  simp

end

end Verif.Plot
