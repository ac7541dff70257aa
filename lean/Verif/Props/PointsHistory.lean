import Verif.Model.PointsHistory
import Verif.Props.WeightedPoints

/-!
# Property C188: weighted points are lists of pairs, under every history
-/

namespace Verif.WPoints

variable {κ V τ : Type} [DecidableEq κ]

/-- A statement about a list of pairs of a point and its weight. -/
inductive PairOp (α : Type)
  | keep (m : List Bool)
  | append (l : List (α × Rat))

/-- What a statement means for a list of pairs: a mask of the right length keeps the pairs where it is true, any other mask is refused;
appending always works. -/
def PairOp.meaning {α : Type} (l : List (α × Rat)) : PairOp α → List (α × Rat) × Option PyErr
  | .keep m => if m.length = l.length then (((l.zip m).filter Prod.snd).map Prod.fst, none) else (l, some .indexError)
  | .append l' => (l ++ l', none)

/-- What a sequence of statements means for a list of pairs. -/
def meaning {α : Type} (l : List (α × Rat)) : List (PairOp α) → List (α × Rat) × List (Option PyErr)
  | [] => (l, [])
  | op :: ops => ((meaning (op.meaning l).1 ops).1, (op.meaning l).2 :: (meaning (op.meaning l).1 ops).2)

/-- An array of weighted points with `n` columns. -/
def IsArray (n : Nat) (wp : WPoints κ V τ) (l : List (List V × Rat)) : Prop :=
  ∃ rows w, wp = ⟨.array rows, w⟩ ∧ rows.length = w.length ∧ (∀ r ∈ rows, r.length = n) ∧ l = rows.zip w

/-- The same statement for arrays with `n` columns and for lists of pairs. -/
inductive ArrayOp (n : Nat) : Op κ V τ → PairOp (List V) → Prop
  | mask (m : List Bool) : ArrayOp n (.mask m) (.keep m)
  | extend {other : WPoints κ V τ} {l : List (List V × Rat)} (h : IsArray n other l) : ArrayOp n (.extend other) (.append l)

/-- A column of a dictionary of weighted points whose lists have equal lengths. -/
def IsColumn (k : κ) (wp : WPoints κ V τ) (l : List (V × Rat)) : Prop :=
  ∃ d w c, wp = ⟨.dict d, w⟩ ∧ (∀ p ∈ d, p.2.length = w.length) ∧ d.get? k = some c ∧ l = c.zip w

/-- The same statement for dictionaries with the key `k` and for lists of pairs. -/
inductive ColumnOp (k : κ) : Op κ V τ → PairOp V → Prop
  | mask (m : List Bool) : ColumnOp k (.mask m) (.keep m)
  | extend {other : WPoints κ V τ} {l : List (V × Rat)} (h : IsColumn k other l) : ColumnOp k (.extend other) (.append l)

variable [DecidableEq τ] [HasType V τ]

theorem step_array {n : Nat} {wp : WPoints κ V τ} {l : List (List V × Rat)} (h : IsArray n wp l) {op : Op κ V τ}
    {q : PairOp (List V)} (ho : ArrayOp n op q) : IsArray n (step wp op).1 (q.meaning l).1 ∧ (step wp op).2 = (q.meaning l).2 := by
  obtain ⟨rows, w, rfl, hl, hn, rfl⟩ := h
  cases ho with
  | mask m =>
    have hz : (rows.zip w).length = w.length := by simp [hl]
    by_cases hm : m.length = w.length
    · have e : getItem (κ := κ) (τ := τ) ⟨.array rows, w⟩ m = .ok ⟨.array (Data.select m rows), Data.select m w⟩ := by
        simp [getItem, npMask_ok hm, npMask_ok (hm.trans hl.symm)]
      simp only [step, e, PairOp.meaning, if_pos (hm.trans hz.symm), and_true]
      refine ⟨_, _, rfl, length_select_eq m _ _ hl, ?_, ?_⟩
      · intro r hr
        simp only [Data.select, List.mem_map, List.mem_filter] at hr
        obtain ⟨p, ⟨hp, -⟩, rfl⟩ := hr
        exact hn _ (List.of_mem_zip hp).1
      · exact (select_zip m _ _ hl).symm
    · have e := C10_mask_wrong_length (κ := κ) (τ := τ) (wp := ⟨.array rows, w⟩) hm
      have hne : ¬ m.length = (rows.zip w).length := by rwa [hz]
      simp only [step, e, PairOp.meaning, if_neg hne, and_true]
      exact ⟨_, _, rfl, hl, hn, rfl⟩
  | extend h =>
    obtain ⟨rows', w', rfl, hl', hn', rfl⟩ := h
    have hs : sameWidth rows rows' = true := by
      cases rows with
      | nil => rfl
      | cons a rows =>
        cases rows' with
        | nil => rfl
        | cons b rows' => simp [sameWidth, hn a (by simp), hn' b (by simp)]
    have e : extend (κ := κ) (τ := τ) ⟨.array rows, w⟩ ⟨.array rows', w'⟩ = .ok ⟨.array (rows ++ rows'), w ++ w'⟩ := by
      simp [extend, hs]
    simp only [step, e, PairOp.meaning, and_true]
    refine ⟨_, _, rfl, by simp [hl, hl'], ?_, (List.zip_append hl).symm⟩
    intro r hr
    rcases List.mem_append.1 hr with hr | hr
    · exact hn r hr
    · exact hn' r hr

/-- **C188.** An array of weighted points is a list of pairs of a point and a weight: after every sequence of masks and extensions by
arrays with the same number of columns it holds the pairs one gets by doing the same with the list, and exactly the masks of a wrong
length raise. -/
theorem C188_array {n : Nat} {wp : WPoints κ V τ} {l : List (List V × Rat)} (h : IsArray n wp l) {ops : List (Op κ V τ)}
    {qs : List (PairOp (List V))} (ho : List.Forall₂ (ArrayOp n) ops qs) :
    IsArray n (run wp ops).1 (meaning l qs).1 ∧ (run wp ops).2 = (meaning l qs).2 := by
  induction ho generalizing wp l with
  | nil => exact ⟨h, rfl⟩
  | cons h1 _ ih =>
    obtain ⟨h2, h3⟩ := step_array h h1
    obtain ⟨h4, h5⟩ := ih h2
    exact ⟨h4, by simp only [run, meaning, h3, h5]⟩

theorem step_column {k : κ} {wp : WPoints κ V τ} {l : List (V × Rat)} (h : IsColumn k wp l) {op : Op κ V τ}
    {q : PairOp V} (ho : ColumnOp k op q) : IsColumn k (step wp op).1 (q.meaning l).1 ∧ (step wp op).2 = (q.meaning l).2 := by
  obtain ⟨d, w, c, rfl, hl, hc, rfl⟩ := h
  have hcl : c.length = w.length := hl _ (Dict.mem_of_get? hc)
  cases ho with
  | mask m =>
    have hz : (c.zip w).length = w.length := by simp [hcl]
    by_cases hm : m.length = w.length
    · have e : getItem (κ := κ) (τ := τ) ⟨.dict d, w⟩ m = .ok ⟨.dict (Dict.mapVals (Data.select m) d), Data.select m w⟩ := by
        simp [getItem, npMask_ok hm, maskDict_ok (fun p hp => hm.trans (hl p hp).symm)]
      simp only [step, e, PairOp.meaning, if_pos (hm.trans hz.symm), and_true]
      refine ⟨_, _, Data.select m c, rfl, ?_, by simp [hc], (select_zip m _ _ hcl).symm⟩
      simp only [Dict.mapVals, List.mem_map]
      rintro p ⟨q, hq, rfl⟩
      exact length_select_eq m _ _ (hl q hq)
    · have e := C10_mask_wrong_length (κ := κ) (τ := τ) (wp := ⟨.dict d, w⟩) hm
      have hne : ¬ m.length = (c.zip w).length := by rwa [hz]
      simp only [step, e, PairOp.meaning, if_neg hne, and_true]
      exact ⟨_, _, _, rfl, hl, hc, rfl⟩
  | extend h =>
    obtain ⟨d', w', c', rfl, hl', hc', rfl⟩ := h
    simp only [step, extend, PairOp.meaning, and_true]
    refine ⟨_, _, c ++ c', rfl, ?_, by simp [get?_joinDict, hc, hc'], (List.zip_append hcl).symm⟩
    simp only [joinDict, List.mem_filterMap, Option.map_eq_some_iff]
    rintro p ⟨q, hq, x, hx, rfl⟩
    simp [hl q hq, hl' _ (Dict.mem_of_get? hx)]

/-- **C188.** Every column that a dictionary of weighted points and all extensions have in common is a list of pairs in the same way. -/
theorem C188_column {k : κ} {wp : WPoints κ V τ} {l : List (V × Rat)} (h : IsColumn k wp l) {ops : List (Op κ V τ)}
    {qs : List (PairOp V)} (ho : List.Forall₂ (ColumnOp k) ops qs) :
    IsColumn k (run wp ops).1 (meaning l qs).1 ∧ (run wp ops).2 = (meaning l qs).2 := by
  induction ho generalizing wp l with
  | nil => exact ⟨h, rfl⟩
  | cons h1 _ ih =>
    obtain ⟨h2, h3⟩ := step_column h h1
    obtain ⟨h4, h5⟩ := ih h2
    exact ⟨h4, by simp only [run, meaning, h3, h5]⟩

/-- The pairs which a sequence of statements can bring in: those of the beginning and those appended. -/
def brought {α : Type} (l : List (α × Rat)) (qs : List (PairOp α)) : List (α × Rat) :=
  l ++ qs.flatMap fun q => match q with
    | .keep _ => []
    | .append l' => l'

/-- **C188.** No history invents or reorders pairs: what is left is a sublist of the points of the beginning followed by those appended,
each with its own weight. -/
theorem C188_sublist {α : Type} (l : List (α × Rat)) (qs : List (PairOp α)) : (meaning l qs).1.Sublist (brought l qs) := by
  induction qs generalizing l with
  | nil => simp [meaning, brought]
  | cons q qs ih =>
    simp only [meaning]
    refine (ih _).trans ?_
    cases q with
    | keep m =>
      simp only [brought, List.flatMap_cons, List.nil_append]
      refine List.Sublist.append ?_ (List.Sublist.refl _)
      simp only [PairOp.meaning]
      split_ifs with h
      · have := (List.filter_sublist (l := l.zip m) (p := Prod.snd)).map Prod.fst
        rwa [List.map_fst_zip h.ge] at this
      · exact List.Sublist.refl _
    | append l' =>
      simp [brought, PairOp.meaning, List.append_assoc]

/-- **C188.** A wrong mask raises `IndexError` and changes nothing, whatever the kind of the points. -/
theorem C188_refused {wp : WPoints κ V τ} {m : List Bool} (h : m.length ≠ wp.weights.length) :
    step wp (.mask m) = (wp, some .indexError) := by
  simp [step, C10_mask_wrong_length h]

/-- **C188.** A statement which raises changes nothing, whatever the kind of the points. -/
theorem C188_unchanged {wp : WPoints κ V τ} {op : Op κ V τ} (h : (step wp op).2 ≠ none) : (step wp op).1 = wp := by
  cases op with
  | mask m =>
    simp only [step] at h ⊢
    split <;> simp_all
  | extend o =>
    simp only [step] at h ⊢
    split <;> simp_all

/-- Two points, one of them dropped, another one appended, and a mask of the old length refused. -/
example : IsArray (κ := String) (τ := Ty) 1 ⟨.array [[Val.int 1], [.int 2]], [1, 1 / 2]⟩ [([.int 1], 1), ([.int 2], 1 / 2)] ∧
    List.Forall₂ (ArrayOp (κ := String) (V := Val) (τ := Ty) 1)
      [.mask [false, true], .extend ⟨.array [[.int 3]], [1 / 3]⟩, .mask [true, true, true]]
      [.keep [false, true], .append [([.int 3], 1 / 3)], .keep [true, true, true]] ∧
    meaning [([Val.int 1], 1), ([.int 2], 1 / 2)] [.keep [false, true], .append [([.int 3], 1 / 3)], .keep [true, true, true]] =
      ([([.int 2], 1 / 2), ([.int 3], 1 / 3)], [none, none, some .indexError]) := by
  refine ⟨⟨_, _, rfl, rfl, by simp, rfl⟩, ?_, by decide +kernel⟩
  refine .cons (.mask _) (.cons (.extend ⟨_, _, rfl, rfl, by simp, rfl⟩) (.cons (.mask _) .nil))

example : IsColumn (τ := Ty) "a" ⟨.dict [("a", [Val.int 1, .int 2]), ("b", [.int 3, .int 4])], [1, 1 / 2]⟩
      [(.int 1, 1), (.int 2, 1 / 2)] ∧
    ColumnOp (τ := Ty) "a" (.extend ⟨.dict [("a", [Val.int 5])], [1 / 3]⟩) (.append [(.int 5, 1 / 3)]) := by
  refine ⟨⟨_, _, _, rfl, by simp, rfl, rfl⟩, .extend ⟨_, _, _, rfl, by simp, rfl, rfl⟩⟩

example : (step (κ := String) (τ := Ty) ⟨.array [[Val.int 1]], [1]⟩ (.extend ⟨.array [[.int 1, .int 2]], [1]⟩)).2 ≠ none ∧
    [true, false].length ≠ (⟨.array [[Val.int 1]], [1]⟩ : WPoints String Val Ty).weights.length := by
  refine ⟨by decide +kernel, by decide⟩

end Verif.WPoints
