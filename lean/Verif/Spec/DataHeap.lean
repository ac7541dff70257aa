import Verif.Model.DataHeap

/-!
# Programs working with values

The meaning a user expects of a program working with several lists and `Data` objects: all of them are values, a statement
changes only the object it is called for.
-/

namespace Verif.Heap

variable {κ V τ : Type} [DecidableEq κ] [DecidableEq τ] [HasType V τ]

/-- The lists and tables of a program. -/
structure Values (κ V τ : Type) where
  objs : List (Data κ V τ)
  lists : List (List (Option V))
  deriving DecidableEq, Repr

def Values.arg (w : Values κ V τ) : Source V → Verif.Arg V
  | .list i =>
    match w.lists[i]? with
    | some l => .list l
    | none => .scalar none
  | .scalar v => .scalar v

def Values.method (w : Values κ V τ) (i : Nat) (f : Data κ V τ → Res (Data κ V τ)) : Res (Values κ V τ) :=
  match w.objs[i]? with
  | none => (w, some .otherError)
  | some D => ({ w with objs := w.objs.set i (f D).1 }, (f D).2)

def Values.create (w : Values κ V τ) (i : Nat) (f : Data κ V τ → Data κ V τ) : Res (Values κ V τ) :=
  match w.objs[i]? with
  | none => (w, some .otherError)
  | some D => ({ w with objs := w.objs ++ [f D] }, none)

def Values.step (w : Values κ V τ) : Action κ V τ → Res (Values κ V τ)
  | .newList l => ({ w with lists := w.lists ++ [l] }, none)
  | .push i v =>
    match w.lists[i]? with
    | none => (w, some .otherError)
    | some l => ({ w with lists := w.lists.set i (l ++ [v]) }, none)
  | .newData => ({ w with objs := w.objs ++ [Data.empty] }, none)
  | .update i d compress => w.method i fun D => D.update (Dict.mapVals w.arg d) compress
  | .updateFrom i j =>
    match w.objs[j]? with
    | none => (w, some .otherError)
    | some other => w.method i fun D => D.updateData other
  | .mask i m => w.create i fun D => D.maskRows m
  | .deleteRows i idx => w.method i fun D => (D.deleteRows idx, none)
  | .deleteCol i k => w.method i fun D => D.deleteCol k
  | .rename i old new => w.method i fun D => D.rename old new
  | .filterTypes i ts => w.method i fun D => D.filterTypes ts
  | .fill i len ks => w.method i fun D => D.fill len ks
  | .append i k v => w.method i fun D => D.append k v
  | .slice i ks => w.create i fun D => D.getSlice ks
  | .extend i k j =>
    match w.lists[j]? with
    | none => (w, some .otherError)
    | some l => w.method i fun D => D.extend k l

def Values.run : Values κ V τ → List (Action κ V τ) → Values κ V τ × List (Option PyErr)
  | w, [] => (w, [])
  | w, a :: as => ((Values.run (w.step a).1 as).1, (w.step a).2 :: (Values.run (w.step a).1 as).2)

/-- What the user sees of the lists and objects of a program. -/
def World.view (w : World κ V τ) : Values κ V τ :=
  ⟨w.objs.map fun o => Heap.view (w.store, o), w.lists.map (deref w.store)⟩

/-- The statements which share no lists: all but `get_slice`, `extend` and the update of an object with itself. -/
def Action.unshared : Action κ V τ → Bool
  | .slice _ _ => false
  | .extend _ _ _ => false
  | .updateFrom i j => decide (i ≠ j)
  | _ => true

end Verif.Heap
