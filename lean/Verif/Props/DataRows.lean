import Verif.Props.Data
import Verif.Lemmas.Fold
import Verif.Model.DataRows

/-!
# Properties C96 and C97: reading rows of a table, and subscripts
-/

namespace Verif.Rows

set_option linter.unusedSectionVars false

variable {κ V τ : Type} [DecidableEq κ] [DecidableEq τ] [HasType V τ]

/-- The entries of the columns `ks` in row `i`. -/
def cells (D : Data κ V τ) (ks : List κ) (i : Nat) : List (Option V) :=
  ks.map fun k => (((D.cols.get? k).bind fun c => c[i]?).getD none)

theorem entry_of {D : Data κ V τ} {key : κ} {c : List (Option V)} (hc : D.cols.get? key = some c) {i : Nat} (hi : i < c.length) :
    entry D i key = .ok (((D.cols.get? key).bind fun c => c[i]?).getD none) := by
  unfold entry
  rw [hc]
  simp [pyIndex, hi]

theorem cells_of {D : Data κ V τ} (h : Data.Reachable D) {ks : List κ} (hks : ∀ k ∈ ks, k ∈ D.keys) {i : Nat}
    (hi : (i : Int) < D.nRows) : (ks.mapM fun key => entry D i key) = .ok (cells D ks i) := by
  unfold cells
  apply mapM_ok_of
  intro k hk
  obtain ⟨c, hc⟩ := (Dict.mem_keys_iff _ _).1 (hks k hk)
  have hlen := h.rect.eq k c hc
  refine entry_of hc ?_
  have : (i : Int) < D.maxLen := hi
  omega

/-- **C96**: the rows as lists are the entries of the given columns (which exist), in the given order, for all rows. -/
theorem C96_lists {D : Data κ V τ} (h : Data.Reachable D) {ks : List κ} (hks : ∀ k ∈ ks, k ∈ D.keys) :
    listRows D (.many ks) = .ok ((List.range D.nRows.toNat).map (cells D ks)) := by
  unfold listRows
  refine mapM_ok_of fun i hi => ?_
  simp only [Keys.at]
  refine cells_of h hks ?_
  have := List.mem_range.1 hi
  simp only [Data.nRows]
  omega

/-- **C96**: without the argument `keys` the rows contain the entries of all columns, in the order of the columns. -/
theorem C96_default {D : Data κ V τ} (h : Data.Reachable D) :
    listRows D .default = .ok ((List.range D.nRows.toNat).map (cells D D.keys)) ∧
      (∀ (j : Nat) k c, D.keys[j]? = some k → D.cols.get? k = some c → ∀ (i : Nat), (i : Int) < D.nRows →
        (cells D D.keys i)[j]? = c[i]?) := by
  constructor
  · exact C96_lists h (ks := D.keys) fun k hk => hk
  · intro j k c hj hc i hi
    have hlen := h.rect.eq k c hc
    have hic : i < c.length := by
      have : (i : Int) < D.maxLen := hi
      omega
    simp [cells, hj, hc, hic]

/-- **C96**: a missing column raises an exception. -/
theorem C96_missing {D : Data κ V τ} {ks : List κ} {k : κ} (hk : k ∈ ks) (hn : k ∉ D.keys) (hrow : 0 < D.nRows) :
    ∃ e, listRows D (.many ks) = .error e := by
  unfold listRows
  have h0 : 0 ∈ List.range D.maxLen.toNat := by
    have : 0 < D.maxLen := hrow
    exact List.mem_range.2 (by omega)
  have : entry D ((0 : Nat) : Int) k = .error .keyError := by
    unfold entry
    rw [(Dict.get?_eq_none_iff _ _).2 hn]
  obtain ⟨e, he⟩ := mapM_error_of (f := fun key => entry D ((0 : Nat) : Int) key) hk this
  exact mapM_error_of h0 he

/-- A table with two columns and three rows. -/
def exTable : Data String Val Ty :=
  (Data.update Data.empty [("a", .list [some (.int 1), some (.int 2), none]), ("b", .list [some (.int 4), some (.int 5),
    some (.int 6)])] false).1

theorem exTable_reachable : Data.Reachable exTable :=
  .update .empty (d := [("a", .list [some (.int 1), some (.int 2), none]), ("b", .list [some (.int 4), some (.int 5),
    some (.int 6)])]) (compress := false) (by decide)

example : listRows exTable (.many ["b", "a"]) = .ok [[some (.int 4), some (.int 1)], [some (.int 5), some (.int 2)],
    [some (.int 6), none]] := by decide +kernel

example : ∃ e, listRows exTable (.many ["b", "c"]) = .error e :=
  C96_missing (k := "c") (by simp) (by decide) (by decide)

/-- The entry of a single column in a dictionary built from pairs. -/
theorem foldl_set_get {α : Type} (l : List (κ × α)) : ∀ (d : Dict κ α) (k : κ) (v : α), (∀ p ∈ l, p.1 = k → p.2 = v) →
    (l.foldl (fun d p => Dict.set d p.1 p.2) d).get? k = if k ∈ l.map (·.1) then some v else d.get? k := by
  induction l with
  | nil => intro d k v _; simp
  | cons p l ih =>
    intro d k v h
    simp only [List.foldl_cons]
    rw [ih _ k v fun q hq => h q (by simp [hq])]
    by_cases hp : p.1 = k
    · have := h p (by simp) hp
      subst this hp
      simp
    · by_cases hl : k ∈ l.map (·.1)
      · rw [if_pos hl, if_pos (by simp only [List.map_cons, List.mem_cons]; exact .inr hl)]
      · rw [if_neg hl, if_neg (by simp only [List.map_cons, List.mem_cons, not_or]; exact ⟨Ne.symm hp, hl⟩)]
        rw [Dict.get?_set_ne _ _ hp]

/-- **C96**: the rows as dictionaries contain exactly the given columns with the entries of the row. -/
theorem C96_dicts {D : Data κ V τ} (h : Data.Reachable D) {ks : List κ} (hks : ∀ k ∈ ks, k ∈ D.keys) :
    ∃ rows, dictRows D (.many ks) = .ok rows ∧ rows.length = D.nRows.toNat ∧
      ∀ (i : Nat) row, rows[i]? = some row → ∀ k, row.get? k = if k ∈ ks then (D.cols.get? k).bind fun c => c[i]? else none := by
  have hrow : ∀ (i : Nat), (i : Int) < D.nRows → (do
      let row ← ks.mapM fun key => do
        let v ← entry D (i : Int) key
        return (key, v)
      return row.foldl (fun d p => Dict.set d p.1 p.2) ([] : Dict κ (Option V)) : Except PyErr (Dict κ (Option V))) =
        .ok ((ks.map fun k => (k, ((D.cols.get? k).bind fun c => c[i]?).getD none)).foldl
          (fun d p => Dict.set d p.1 p.2) []) := by
    intro i hi
    rw [mapM_ok_of (g := fun k => (k, ((D.cols.get? k).bind fun c => c[i]?).getD none))]
    · rfl
    · intro k hk
      obtain ⟨c, hc⟩ := (Dict.mem_keys_iff _ _).1 (hks k hk)
      have hlen := h.rect.eq k c hc
      rw [entry_of hc (by have : (i : Int) < D.maxLen := hi; omega)]
      rfl
  refine ⟨_, mapM_ok_of fun i hi => hrow i ?_, by simp [Data.nRows], ?_⟩
  · have := List.mem_range.1 hi
    simp only [Data.nRows]
    omega
  · intro i row hi k
    have hlt : i < D.maxLen.toNat := by
      have := (List.getElem?_eq_some_iff.1 hi).1
      simpa using this
    rw [List.getElem?_map, List.getElem?_range hlt] at hi
    simp only [Option.map_some, Option.some.injEq] at hi
    rw [← hi, foldl_set_get _ _ k (((D.cols.get? k).bind fun c => c[i]?).getD none)]
    · have hm : (ks.map fun k => (k, ((D.cols.get? k).bind fun c => c[i]?).getD none)).map (·.1) = ks := by
        rw [List.map_map]
        exact List.map_id'' (fun _ => rfl) ks
      rw [hm]
      by_cases hk : k ∈ ks
      · rw [if_pos hk, if_pos hk]
        obtain ⟨c, hc⟩ := (Dict.mem_keys_iff _ _).1 (hks k hk)
        have hlen := h.rect.eq k c hc
        have : i < c.length := by omega
        simp [hc, this]
      · rw [if_neg hk, if_neg hk]; rfl
    · intro p hp e
      obtain ⟨k', _, rfl⟩ := List.mem_map.1 hp
      simp only at e
      subst e
      rfl

example : dictRows exTable (.many ["b"]) = .ok [[("b", some (.int 4))], [("b", some (.int 5))], [("b", some (.int 6))]] := by
  decide +kernel

/-- **C96 is false** for an iterator of column names, though any iterable is documented: only the first row contains the
columns, all other rows are empty. -/
theorem C96_iterator_false {D : Data κ V τ} (h : Data.Reachable D) {ks : List κ} (hks : ∀ k ∈ ks, k ∈ D.keys) :
    listRows D (.once ks) = .ok ((List.range D.nRows.toNat).map fun (i : Nat) => if i = 0 then cells D ks 0 else []) := by
  unfold listRows
  refine mapM_ok_of fun i hi => ?_
  have hlt := List.mem_range.1 hi
  cases i with
  | zero =>
    simp only [Keys.at]
    exact cells_of h hks (by simp only [Data.nRows]; omega)
  | succ i => rfl

example : listRows exTable (.once ["b"]) = .ok [[some (.int 4)], [], []] := by decide +kernel

/-! ### `return_type=tuple` -/

theorem read_last (D : Data κ V τ) (ks : List κ) (g : Gen) {j : Nat} (hj : j < g.yielded) (hu : j ∉ g.used) :
    readTuple D ks g j = ks.mapM fun key => entry D ((g.yielded - 1 : Nat) : Int) key := by
  unfold readTuple
  rw [if_pos hj, if_neg hu]

theorem uses_now {D : Data κ V τ} (h : Data.Reachable D) {ks : List κ} (hks : ∀ k ∈ ks, k ∈ D.keys) :
    ∀ (m n : Nat) (g : Gen), g.yielded = n → (∀ j ∈ g.used, j < n) → n + m = D.nRows.toNat →
      tupleUses D ks g (((List.range' n m).map fun j => [Use.next, .read j]).flatten) =
        (List.range' n m).map fun j => .ok (cells D ks j) := by
  intro m
  induction m with
  | zero => intro n g _ _ _; rfl
  | succ m ih =>
    intro n g hg hu hn
    simp only [List.range'_succ, List.map_cons, List.flatten_cons, List.cons_append, List.nil_append, tupleUses]
    simp only [Data.nRows] at hn
    have hlt : g.yielded < D.maxLen.toNat := by omega
    rw [if_pos hlt]
    congr 1
    · rw [read_last]
      · simp only [hg, Nat.add_sub_cancel]
        exact cells_of h hks (by simp only [Data.nRows]; omega)
      · simp only; omega
      · intro hm
        have := hu n hm
        omega
    · refine ih (n + 1) _ (by simp only; omega) ?_ (by simp only [Data.nRows]; omega)
      intro j hj
      simp only [List.mem_cons] at hj
      rcases hj with rfl | hj
      · omega
      · have := hu j hj
        omega

/-- **C96**, tuples, for programs which read each row before they ask for the next one (e.g. in a `for` loop): they get the
entries of this row. What is missing: the rows are not tuples, see `C96_tuples_false` and `C96_reread_false`. -/
theorem C96_tuples_partial {D : Data κ V τ} (h : Data.Reachable D) {ks : List κ} (hks : ∀ k ∈ ks, k ∈ D.keys) :
    tupleUses D ks ⟨0, []⟩ (((List.range D.nRows.toNat).map fun j => [Use.next, .read j]).flatten) =
      (List.range D.nRows.toNat).map fun j => .ok (cells D ks j) := by
  have := uses_now h hks D.nRows.toNat 0 ⟨0, []⟩ rfl (by simp) (by omega)
  simpa [List.range_eq_range'] using this

example : tupleUses exTable ["a", "b"] ⟨0, []⟩ [.next, .read 0, .next, .read 1] =
    [.ok [some (.int 1), some (.int 4)], .ok [some (.int 2), some (.int 5)]] := by decide +kernel

theorem uses_next (D : Data κ V τ) (ks : List κ) (us : List Use) : ∀ (m : Nat) (g : Gen), g.yielded + m = D.maxLen.toNat →
    tupleUses D ks g (List.replicate m .next ++ us) = tupleUses D ks { g with yielded := D.maxLen.toNat } us := by
  intro m
  induction m with
  | zero => intro g hg; simp only [List.replicate_zero, List.nil_append]; congr 1; cases g; simp only at hg ⊢; congr 1
  | succ m ih =>
    intro g hg
    simp only [List.replicate_succ, List.cons_append, tupleUses]
    rw [if_pos (by omega), ih _ (by simp only; omega)]

theorem uses_late {D : Data κ V τ} (h : Data.Reachable D) {ks : List κ} (hks : ∀ k ∈ ks, k ∈ D.keys) :
    ∀ (m n : Nat) (g : Gen), g.yielded = D.maxLen.toNat → (∀ j ∈ g.used, j < n) → n + m = D.maxLen.toNat →
      tupleUses D ks g ((List.range' n m).map Use.read) = List.replicate m (.ok (cells D ks (D.maxLen.toNat - 1))) := by
  intro m
  induction m with
  | zero => intro n g _ _ _; rfl
  | succ m ih =>
    intro n g hg hu hn
    simp only [List.range'_succ, List.map_cons, tupleUses, List.replicate_succ]
    congr 1
    · rw [read_last]
      · rw [hg]
        exact cells_of h hks (by simp only [Data.nRows]; omega)
      · omega
      · intro hm
        have := hu n hm
        omega
    · refine ih (n + 1) _ hg ?_ (by omega)
      intro j hj
      simp only [List.mem_cons] at hj
      rcases hj with rfl | hj
      · omega
      · have := hu j hj
        omega

/-- **C96 is false** for tuples: if the rows are collected first, as in `list(data.rows(return_type=tuple))`, then every
single one of them has the entries of the last row. -/
theorem C96_tuples_false {D : Data κ V τ} (h : Data.Reachable D) {ks : List κ} (hks : ∀ k ∈ ks, k ∈ D.keys) :
    tupleUses D ks ⟨0, []⟩ (List.replicate D.nRows.toNat .next ++ (List.range D.nRows.toNat).map .read) =
      List.replicate D.nRows.toNat (.ok (cells D ks (D.nRows.toNat - 1))) := by
  simp only [Data.nRows]
  rw [uses_next D ks _ _ _ (by simp), List.range_eq_range']
  exact uses_late h hks _ 0 _ rfl (by simp) (by omega)

example : tupleUses exTable ["a", "b"] ⟨0, []⟩ [.next, .next, .next, .read 0, .read 1, .read 2] =
    [.ok [none, some (.int 6)], .ok [none, some (.int 6)], .ok [none, some (.int 6)]] := by decide +kernel

/-- **C96 is false** for tuples: a row can be read only once, afterwards it is empty. -/
theorem C96_reread_false (D : Data κ V τ) (ks : List κ) (g : Gen) {j : Nat} (hj : j < g.yielded) :
    ∃ first, tupleUses D ks g [.read j, .read j] = [first, .ok []] := by
  refine ⟨readTuple D ks g j, ?_⟩
  simp only [tupleUses]
  congr 1
  simp [readTuple, hj]

/-! ### Subscripts -/

/-- **C97**: `data[key]` for the name of a column is this column; for a name which does not exist a `KeyError` is raised. -/
theorem C97_column (D : Data κ V τ) (k : κ) :
    (∀ c, D.cols.get? k = some c → getItem D (.str k) = .ok (.column c)) ∧
      (k ∉ D.keys → getItem D (.str k) = .error .keyError) := by
  constructor
  · intro c hc
    simp only [getItem]
    rw [hc]
  · intro hk
    simp only [getItem]
    rw [(Dict.get?_eq_none_iff _ _).2 hk]

theorem rowAt_of {D : Data κ V τ} {i : Int} {n : Nat} (h : ∀ p ∈ D.cols, pyIndex p.2 i = p.2[n]? ∧ n < p.2.length) :
    ∃ r, D.rowAt i = some r ∧ Dict.keys r = D.keys ∧ r = D.cols.map fun p => (p.1, (p.2[n]?).getD none) := by
  refine ⟨D.cols.map fun p => (p.1, (p.2[n]?).getD none), ?_, ?_, rfl⟩
  · unfold Data.rowAt
    generalize D.cols = cols at h
    induction cols with
    | nil => rfl
    | cons p cols ih =>
      have := ih fun q hq => h q (by simp [hq])
      rw [List.mapM_cons, this, (h p (by simp)).1]
      have hlt := (h p (by simp)).2
      simp [hlt]
  · simp [Dict.keys, Data.keys]

/-- **C97**: `data[i]` for an integer is the `i`-th row, counted from the end if `i` is negative; for an integer which is
not between `-n` and `n - 1` an `IndexError` is raised. -/
theorem C97_row {D : Data κ V τ} (h : Data.Reachable D) (i : Nat) (hi : (i : Int) < D.nRows) :
    getItem D (.int i) = .ok (.row (D.cols.map fun p => (p.1, (p.2[i]?).getD none))) ∧
      getItem D (.int (i - D.nRows)) = .ok (.row (D.cols.map fun p => (p.1, (p.2[i]?).getD none))) := by
  have hlen : ∀ p ∈ D.cols, (p.2.length : Int) = D.nRows := by
    intro p hp
    exact h.rect.eq p.1 p.2 (Dict.get?_of_mem h.rect.nodup hp)
  constructor
  · obtain ⟨r, hr, _, rfl⟩ := rowAt_of (D := D) (i := i) (n := i) fun p hp => by
      have := hlen p hp
      refine ⟨by simp [pyIndex], by omega⟩
    simp only [getItem]
    rw [hr]
  · obtain ⟨r, hr, _, rfl⟩ := rowAt_of (D := D) (i := i - D.nRows) (n := i) fun p hp => by
      have := hlen p hp
      refine ⟨?_, by omega⟩
      unfold pyIndex
      rw [if_neg (by omega), if_pos (by omega)]
      congr 1
      omega
    simp only [getItem]
    rw [hr]

theorem C97_no_row {D : Data κ V τ} (h : Data.Reachable D) (hne : D.keys ≠ []) (i : Int) (hi : i < -D.nRows ∨ D.nRows ≤ i) :
    getItem D (.int i) = .error .indexError := by
  have hlen : ∀ p ∈ D.cols, (p.2.length : Int) = D.nRows := by
    intro p hp
    exact h.rect.eq p.1 p.2 (Dict.get?_of_mem h.rect.nodup hp)
  have : D.rowAt i = none := by
    unfold Data.rowAt
    cases hc : D.cols with
    | nil => exact absurd (by simp [Data.keys, hc]) hne
    | cons p cols =>
      have hp := hlen p (by simp [hc])
      have : pyIndex p.2 i = none := by
        unfold pyIndex
        by_cases h0 : 0 ≤ i
        · rw [if_pos h0]
          apply List.getElem?_eq_none
          omega
        · rw [if_neg h0, if_neg (by omega)]
      rw [List.mapM_cons, this]
      rfl
  simp only [getItem]
  rw [this]

example : getItem exTable (.int (-1)) = .ok (.row [("a", none), ("b", some (.int 6))]) := by decide +kernel

/-- **C97**: a list, tuple or array of booleans (of python or numpy) is a mask. -/
theorem C97_mask (D : Data κ V τ) (m : List Bool) :
    getItem D (.many (m.map .bool)) = .ok (.table (D.getItem (.mask m))) ∧
      getItem D (.many (m.map .numpyBool)) = .ok (.table (D.getItem (.mask m))) := by
  cases m with
  | nil => exact ⟨rfl, rfl⟩
  | cons b m =>
    constructor
    · simp only [List.map_cons, getItem, Data.getItem, List.map_map]
      congr 3
      simp only [Elem.truth, List.cons.injEq, true_and]
      exact List.map_id'' (fun _ => rfl) m
    · simp only [List.map_cons, getItem, Data.getItem, List.map_map]
      congr 3
      simp only [Elem.truth, List.cons.injEq, true_and]
      exact List.map_id'' (fun _ => rfl) m

theorem any_is (k : κ) (ks : List κ) : ((ks.map Elem.str).any (·.is k)) = decide (k ∈ ks) := by
  induction ks with
  | nil => rfl
  | cons k' ks ih =>
    simp only [List.map_cons, List.any_cons, ih, Elem.is, List.mem_cons, Bool.decide_or]
    congr 1
    simp only [eq_comm]

/-- **C97**, for strings of python: a list of column names selects these columns. What is missing: arrays of strings, see
`C97_numpy_strings_false`. -/
theorem C97_columns_partial (D : Data κ V τ) (ks : List κ) :
    getItem D (.many (ks.map .str)) = .ok (.table (D.getItem (.keys ks))) := by
  cases ks with
  | nil => rfl
  | cons k ks =>
    have := any_is (κ := κ)
    simp only [List.map_cons, getItem, Data.getItem, Data.getSlice]
    congr 2
    have e : ∀ k', (Elem.str k :: ks.map Elem.str).any (·.is k') = decide (k' ∈ k :: ks) := fun k' => any_is k' (k :: ks)
    simp only [e]

/-- **C97**: strings of python and numpy may be mixed, if the first one is a string of python. -/
theorem C97_mixed (D : Data κ V τ) (k : κ) (ks : List (κ × Bool)) :
    getItem D (.many (.str k :: ks.map fun p => if p.2 then .numpyStr p.1 else .str p.1)) =
      .ok (.table (D.getItem (.keys (k :: ks.map Prod.fst)))) := by
  simp only [getItem, Data.getItem, Data.getSlice]
  congr 2
  have e : ∀ k', (Elem.str k :: ks.map fun p => if p.2 then Elem.numpyStr p.1 else Elem.str p.1).any (·.is k') =
      decide (k' ∈ k :: ks.map Prod.fst) := by
    intro k'
    have h0 : ((Elem.str k :: ks.map fun p => if p.2 then Elem.numpyStr p.1 else Elem.str p.1).any (·.is k')) =
        (((k :: ks.map Prod.fst).map Elem.str).any (·.is k')) := by
      simp only [List.map_cons, List.any_cons, List.map_map, List.any_map]
      congr 1
      refine List.any_congr rfl fun p => ?_
      simp only [Function.comp_apply]
      split <;> rfl
    rw [h0, any_is]
  simp only [e]

example : getItem exTable (.many [.str "b", .numpyStr "a"]) = .ok (.table (exTable.getItem (.keys ["b", "a"]))) :=
  C97_mixed exTable "b" [("a", true)]

/-- **C97 is false** for arrays of strings, though "an array like of strings" is documented: the elements of a numpy array
have another type than `str`, so that a `TypeError` is raised, even if all columns exist. -/
theorem C97_numpy_strings_false (D : Data κ V τ) (k : κ) (ks : List κ) :
    getItem D (.many ((k :: ks).map .numpyStr)) = .error .typeError := rfl

/-- **C97 is false** for integers of numpy (and for slices): a `TypeError` is raised. -/
theorem C97_numpy_integer_false (D : Data κ V τ) : getItem D .single = .error .typeError := rfl

/-- **C97 is false** for iterators, though the error message names "iterables": the first element is lost, e.g. the mask is
moved by one row, and if the first column of the table was selected it is missing; each test consumes elements, so also
other columns are lost and the types of the columns are. -/
theorem C97_iterator_false :
    ((getItem exTable (.once [.bool true, .bool false, .bool true])).toOption.map fun
      | .table D => D.cols
      | _ => []) = some [("a", [some (.int 2)]), ("b", [])] ∧
    ((getItem exTable (.once [.str "a", .str "b"])).toOption.map fun
      | .table D => (D.cols, D.types)
      | _ => ([], [])) = some ([], []) ∧
    ((getItem exTable (.once [.str "b", .str "b", .str "a"])).toOption.map fun
      | .table D => (D.cols.keys, D.types)
      | _ => ([], [])) = some (["a"], []) := by
  refine ⟨?_, ?_, ?_⟩ <;> decide +kernel

/-- **C97**: `data[True]` is no mask, but the row with number one. -/
theorem C97_boolean (D : Data κ V τ) (b : Bool) : getItem D (.bool b) = getItem D (.int (if b then 1 else 0)) := rfl

example : getItem exTable (.many [.bool true, .bool false, .bool true]) = .ok (.table (exTable.getItem (.mask [true, false, true]))) :=
  (C97_mask exTable [true, false, true]).1

end Verif.Rows
