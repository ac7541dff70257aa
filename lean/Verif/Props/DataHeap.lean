import Verif.Lemmas.DataHeap
import Verif.Model.Val

/-!
# Property C95: tables are independent of each other

Programs which work with several lists and several `Data` objects: changing one of them does not change the others, i.e. the
program behaves as if lists and tables were values. This also justifies `Verif.Model.Data`, where columns are values.
-/

namespace Verif.Heap

set_option linter.unusedSectionVars false

variable {κ V τ : Type} [DecidableEq κ] [DecidableEq τ] [HasType V τ]

/-- **C95**, for all programs which do not use `get_slice` (`data[keys]`) and `extend` and never update an object with
itself: all tables and lists of the program, and all exceptions, are the same as if tables and lists were values. What is
missing: these statements may share lists, see `C95_slice_false`, `C95_extend_false` and `C95_self_false`. -/
theorem C95_programs_partial (as : List (Action κ V τ)) (h : ∀ a ∈ as, a.unshared = true) :
    ((World.mk [] [] [] : World κ V τ).run as).1.view = ((Values.mk [] [] : Values κ V τ).run as).1 ∧
      ((World.mk [] [] [] : World κ V τ).run as).2 = ((Values.mk [] [] : Values κ V τ).run as).2 := by
  have hw : Apart (World.mk [] [] [] : World κ V τ) :=
    ⟨by simp, by simp, by simp, by simp, by simp⟩
  exact (run_sim as _ hw h).2

/-- The object changed by a statement. -/
def Action.target : Action κ V τ → Option Nat
  | .update i _ _ => some i
  | .updateFrom i _ => some i
  | .deleteRows i _ => some i
  | .deleteCol i _ => some i
  | .rename i _ _ => some i
  | .filterTypes i _ => some i
  | .fill i _ _ => some i
  | .append i _ _ => some i
  | .extend i _ _ => some i
  | _ => none

theorem values_untouched (w : Values κ V τ) (a : Action κ V τ) {j : Nat} {D : Data κ V τ} (hj : w.objs[j]? = some D)
    (ht : a.target ≠ some j) : (w.step a).1.objs[j]? = some D := by
  have hm : ∀ (i : Nat) (f : Data κ V τ → Res (Data κ V τ)), i ≠ j → (w.method i f).1.objs[j]? = some D := by
    intro i f hij
    unfold Values.method
    split
    · exact hj
    · simp [hij, hj]
  have hlt : j < w.objs.length := (List.getElem?_eq_some_iff.1 hj).1
  have hc : ∀ (i : Nat) (f : Data κ V τ → Data κ V τ), (w.create i f).1.objs[j]? = some D := by
    intro i f
    unfold Values.create
    split
    · exact hj
    · simp only [List.getElem?_append_left hlt]; exact hj
  cases a with
  | newList l => exact hj
  | push i v =>
    simp only [Values.step]
    split <;> exact hj
  | newData => simp only [Values.step, List.getElem?_append_left hlt]; exact hj
  | update i d c => exact hm i _ (by simpa [Action.target] using ht)
  | updateFrom i k =>
    simp only [Values.step]
    split
    · exact hj
    · exact hm i _ (by simpa [Action.target] using ht)
  | mask i m => exact hc i _
  | deleteRows i idx => exact hm i _ (by simpa [Action.target] using ht)
  | deleteCol i k => exact hm i _ (by simpa [Action.target] using ht)
  | rename i o n => exact hm i _ (by simpa [Action.target] using ht)
  | filterTypes i ts => exact hm i _ (by simpa [Action.target] using ht)
  | fill i l ks => exact hm i _ (by simpa [Action.target] using ht)
  | append i k v => exact hm i _ (by simpa [Action.target] using ht)
  | slice i ks => exact hc i _
  | extend i k l =>
    simp only [Values.step]
    split
    · exact hj
    · exact hm i _ (by simpa [Action.target] using ht)

/-- **C95**: after any such program, a further statement changes at most the table it is called for; all other tables are
exactly as before. -/
theorem C95_others_partial (as : List (Action κ V τ)) (h : ∀ a ∈ as, a.unshared = true) (a : Action κ V τ)
    (ha : a.unshared = true) (j : Nat) (ht : a.target ≠ some j) {D : Data κ V τ}
    (hj : ((World.mk [] [] [] : World κ V τ).run as).1.view.objs[j]? = some D) :
    (((World.mk [] [] [] : World κ V τ).run as).1.step a).1.view.objs[j]? = some D := by
  have hw : Apart (World.mk [] [] [] : World κ V τ) :=
    ⟨by simp, by simp, by simp, by simp, by simp⟩
  obtain ⟨h1, _, _⟩ := run_sim as _ hw h
  obtain ⟨_, h2, _⟩ := step_sim h1 ha
  rw [h2]
  exact values_untouched _ a hj ht

/-- **C95**: filling a table from a dictionary of lists (`update`, `from_dict`) copies the lists; appending to them afterwards
does not change the table, and the table does not change the lists. -/
theorem C95_lists_partial (as : List (Action κ V τ)) (h : ∀ a ∈ as, a.unshared = true) (i : Nat) (v : Option V) :
    (((World.mk [] [] [] : World κ V τ).run as).1.step (.push i v)).1.view.objs =
      ((World.mk [] [] [] : World κ V τ).run as).1.view.objs := by
  have hw : Apart (World.mk [] [] [] : World κ V τ) :=
    ⟨by simp, by simp, by simp, by simp, by simp⟩
  obtain ⟨h1, _, _⟩ := run_sim as _ hw h
  obtain ⟨_, h2, _⟩ := step_sim h1 (a := .push i v) rfl
  rw [h2]
  simp only [Values.step]
  split <;> rfl

/-- The start of a program. -/
abbrev start : World String Val Ty := ⟨[], [], []⟩

/-- A list is created, a table is filled with it, and a second table with the same list. -/
example : ((start.run [.newList [some (.int 1), none], .newData, .update 0 [("a", .list 0)] false, .newData,
    .update 1 [("a", .list 0), ("b", .scalar none)] false, .append 1 "a" (some (.int 7)), .push 0 none]).1.view.objs.map
      fun D => D.cols) =
    [[("a", [some (.int 1), none])], [("a", [some (.int 1), none, some (.int 7)]), ("b", [none, none])]] := by decide +kernel

example : ∀ a ∈ ([.newList [some (.int 1), none], .newData, .update 0 [("a", .list 0)] false, .newData, .updateFrom 1 0,
    .append 1 "a" none] : List (Action String Val Ty)), a.unshared = true := by decide

/-- **C95 is false** for `get_slice` and `data[keys]`: appending to the reduced table `data[["a"]]` lengthens the column of
the table `data`, which then has a column with three entries, though its number of rows is two. -/
theorem C95_slice_false : ∃ as : List (Action String Val Ty), ∃ a : Action String Val Ty, a.target = some 1 ∧
    ((start.run as).1.view.objs[0]?.map fun D => (D.cols, D.nRows)) = some ([("a", [some (.int 1), some (.int 2)])], 2) ∧
    (((start.run as).1.step a).1.view.objs[0]?.map fun D => (D.cols, D.nRows)) =
      some ([("a", [some (.int 1), some (.int 2), some (.int 3)])], 2) := by
  refine ⟨[.newList [some (.int 1), some (.int 2)], .newData, .update 0 [("a", .list 0)] false, .slice 0 ["a"]],
    .append 1 "a" (some (.int 3)), ?_, ?_, ?_⟩ <;> decide +kernel

/-- **C95 is false** for `extend` with a new key: the table takes the list of the caller as its column, which changes with
the list... -/
theorem C95_extend_false : ∃ as : List (Action String Val Ty),
    ((start.run as).1.view.objs[0]?.map fun D => (D.cols, D.nRows)) = some ([("a", [some (.int 1)])], 1) ∧
    (((start.run as).1.step (.push 0 (some (.int 2)))).1.view.objs[0]?.map fun D => (D.cols, D.nRows)) =
      some ([("a", [some (.int 1), some (.int 2)])], 1) := by
  refine ⟨[.newList [some (.int 1)], .newData, .extend 0 "a" 0], ?_, ?_⟩ <;> decide +kernel

/-- … and the list of the caller is changed by later statements for the table: **C95 is false** in this direction, too. -/
theorem C95_caller_false : ∃ as : List (Action String Val Ty),
    (start.run as).1.view.lists = [[some (.int 1)]] ∧
    ((start.run as).1.step (.append 0 "a" (some (.int 2)))).1.view.lists = [[some (.int 1), some (.int 2)]] := by
  refine ⟨[.newList [some (.int 1)], .newData, .extend 0 "a" 0], ?_, ?_⟩ <;> decide +kernel

/-- **C95 is false** for `data.update(data)`: the columns are lengthened with `None` before they are read, so that a table
with a column shorter than its number of rows ends up with other rows than the same table updated with a copy of itself. -/
theorem C95_self_false : ∃ as : List (Action String Val Ty), (∀ a ∈ as, a.unshared = true) ∧
    (((start.run as).1.step (.updateFrom 0 0)).1.view.objs[0]?.map fun D => D.cols) =
      some [("a", [some (.int 1), none, some (.int 1), none])] ∧
    (((start.run as).1.view.step (.updateFrom 0 0)).1.objs[0]?.map fun D => D.cols) =
      some [("a", [some (.int 1), none, some (.int 1)])] := by
  refine ⟨[.newData, .append 0 "a" (some (.int 1)), .append 0 "b" none, .append 0 "b" none, .deleteCol 0 "b"],
    ?_, ?_, ?_⟩ <;> decide +kernel

end Verif.Heap
