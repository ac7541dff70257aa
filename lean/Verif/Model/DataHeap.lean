import Verif.Model.Data

/-!
# `hrosailing.core.data.Data` with shared columns

A finer model of the class `Data` (`/repo/hrosailing/core/data.py`), in which python lists are objects that can be shared
and changed in place. A list is referred to by its position in the store of all lists ever created. The operations follow
`Verif.Model.Data` line by line, the difference is which lists are created, shared or changed.
-/

namespace Verif.Heap

open Verif.Data (getType maskList dropIdx maxColLen)

/-- All lists (`/repo/hrosailing/core/data.py:35`, the values of `_data`, and the lists of the caller); a reference to a
list is its position. -/
abbrev Store (V : Type) := List (List (Option V))

/-- The content of a list (e.g. `/repo/hrosailing/core/data.py:540`). -/
def deref {V : Type} (s : Store V) (r : Nat) : List (Option V) := s.getD r []

/-- A `Data` object (`/repo/hrosailing/core/data.py:34-37`) whose columns are references to lists. -/
structure Obj (κ τ : Type) where
  cols : Dict κ Nat
  types : Dict κ (Option τ)
  maxLen : Int
  deriving DecidableEq, Repr

/-- The store and the object a method is called for (`/repo/hrosailing/core/data.py:34-37`). -/
abbrev St (κ V τ : Type) := Store V × Obj κ τ

variable {κ V τ : Type} [DecidableEq κ] [DecidableEq τ] [HasType V τ]

/-- What the user sees of an object (`/repo/hrosailing/core/data.py:34-37`, `:538-541`). -/
def view (st : St κ V τ) : Data κ V τ := ⟨Dict.mapVals (deref st.1) st.2.cols, st.2.types, st.2.maxLen⟩

/-- `Data()` (`/repo/hrosailing/core/data.py:34-37`). -/
def Obj.empty : Obj κ τ := ⟨[], [], 0⟩

/-- `extend` (`/repo/hrosailing/core/data.py:150-177`) with the list `src`: the list of an existing column is changed in
place, a new column is the very list `src`. -/
def extend (st : St κ V τ) (key : κ) (src : Nat) : Res (St κ V τ) :=
  match getType (deref st.1 src) with
  | .error e => (st, some e)
  | .ok dt =>
    match st.2.cols.get? key with
    | some r =>
      match st.2.types.get? key with
      | none => (st, some .keyError)
      | some t =>
        let types := if t = none then st.2.types.set key dt else st.2.types
        let t' := if t = none then dt else t
        if dt ≠ none ∧ dt ≠ t' then ((st.1, { st.2 with types := types }), some .valueError)
        else ((st.1.set r (deref st.1 r ++ deref st.1 src),
          { st.2 with types := types, maxLen := max st.2.maxLen ((deref st.1 r ++ deref st.1 src).length : Int) }), none)
    | none =>
      ((st.1, { cols := st.2.cols.set key src, types := st.2.types.set key dt,
                maxLen := max st.2.maxLen ((deref st.1 src).length : Int) }), none)

/-- `append` (`/repo/hrosailing/core/data.py:219-234`): `[data]` is a new list. -/
def append (st : St κ V τ) (key : κ) (v : Option V) : Res (St κ V τ) :=
  extend (st.1 ++ [[v]], st.2) key st.1.length

/-- Body of the loop of `fill` (`/repo/hrosailing/core/data.py:256-262`). -/
def fillKey (len : Int) (st : St κ V τ) (key : κ) : Res (St κ V τ) :=
  let col := match st.2.cols.get? key with
    | some r => deref st.1 r
    | none => []
  let new := col ++ List.replicate (max 0 (len - (col.length : Int))).toNat none
  let st' : St κ V τ := match st.2.cols.get? key with
    | some r => (st.1.set r new, st.2)
    | none => (st.1 ++ [new], { st.2 with cols := st.2.cols.set key st.1.length })
  match getType new with
  | .error e => (st', some e)
  | .ok t => ((st'.1, { st'.2 with types := st'.2.types.set key t }), none)

/-- `fill` (`/repo/hrosailing/core/data.py:236-262`). -/
def fill (st : St κ V τ) (len : Int) (ks : List κ) : Res (St κ V τ) := Res.forEach (fillKey len) ks st

/-- Values of the dictionary given to `update` (`/repo/hrosailing/core/data.py:213`): a list or a single entry. -/
inductive Arg (V : Type)
  | list (src : Nat)
  | scalar (v : Option V)
  deriving DecidableEq, Repr

/-- Body of the loop of `_unsafe_update` (`/repo/hrosailing/core/data.py:212-216`). -/
def putArg (st : St κ V τ) (p : κ × Arg V) : Res (St κ V τ) :=
  match p.2 with
  | .list src => extend st p.1 src
  | .scalar v => append st p.1 v

/-- `_unsafe_update` (`/repo/hrosailing/core/data.py:211-217`). -/
def unsafeUpdate (st : St κ V τ) (d : Dict κ (Arg V)) : Res (St κ V τ) :=
  (Res.forEach putArg d st).andThen fun st' => fill st' st'.2.maxLen (Dict.keys st'.2.cols)

/-- `all(self[key][-1] is None for key in data_dict.keys())` (`/repo/hrosailing/core/data.py:205`). -/
def allLastNone (st : St κ V τ) : List κ → Except PyErr Bool
  | [] => .ok true
  | k :: ks =>
    match st.2.cols.get? k with
    | none => .error .keyError
    | some r =>
      match pyIndex (deref st.1 r) (-1) with
      | none => .error .indexError
      | some (some _) => .ok false
      | some none => allLastNone st ks

/-- `self._data[key] = self._data[key][:-1]` (`/repo/hrosailing/core/data.py:206-207`): a new list. -/
def dropLastKey (st : St κ V τ) (k : κ) : Res (St κ V τ) :=
  match st.2.cols.get? k with
  | none => (st, some .keyError)
  | some r => ((st.1 ++ [(deref st.1 r).dropLast], { st.2 with cols := st.2.cols.set k st.1.length }), none)

/-- `update` for a dictionary (`/repo/hrosailing/core/data.py:179-209`). -/
def update (st : St κ V τ) (d : Dict κ (Arg V)) (compress : Bool) : Res (St κ V τ) :=
  (fill st st.2.maxLen (Dict.keys d ++ Dict.keys st.2.cols)).andThen fun st =>
    if ¬ compress ∨ st.2.maxLen = 0 then unsafeUpdate st d
    else
      match allLastNone st (Dict.keys d) with
      | .error e => (st, some e)
      | .ok true => (Res.forEach dropLastKey (Dict.keys d) st).andThen fun st => unsafeUpdate st d
      | .ok false => unsafeUpdate st d

/-- `update` for a `Data` object (`/repo/hrosailing/core/data.py:193-197`): `data_dict.data` (lines 74-79) is a copy of the
dictionary, but not of the columns. -/
def updateData (st : St κ V τ) (other : Obj κ τ) : Res (St κ V τ) :=
  update st (Dict.mapVals Arg.list other.cols) false

/-- `filter_types` (`/repo/hrosailing/core/data.py:264-275`). -/
def filterTypes (st : St κ V τ) (ts : List (Option τ)) : Res (St κ V τ) :=
  Res.forEach (fun (st : St κ V τ) k =>
    match st.2.types.get? k with
    | none => (st, some .keyError)
    | some t => if t ∈ ts then (st, none)
        else ((st.1, { st.2 with cols := st.2.cols.del k, types := st.2.types.del k }), none)) (Dict.keys st.2.cols) st

/-- `delete` for a column name (`/repo/hrosailing/core/data.py:311-313`). -/
def deleteCol (st : St κ V τ) (k : κ) : Res (St κ V τ) :=
  match st.2.cols.get? k with
  | none => (st, some .keyError)
  | some _ =>
    match st.2.types.get? k with
    | none => ((st.1, { st.2 with cols := st.2.cols.del k }), some .keyError)
    | some _ => ((st.1, { st.2 with cols := st.2.cols.del k, types := st.2.types.del k }), none)

/-- `rename` (`/repo/hrosailing/core/data.py:277-300`): the column remains the same list. -/
def rename (st : St κ V τ) (old new : κ) : Res (St κ V τ) :=
  if old = new then (st, none)
  else if new ∈ Dict.keys st.2.cols then (st, some .valueError)
  else
    match st.2.cols.get? old with
    | none => (st, some .keyError)
    | some r =>
      match st.2.types.get? old with
      | none => ((st.1, { st.2 with cols := st.2.cols.set new r }), some .keyError)
      | some t =>
        deleteCol (st.1, { st.2 with cols := st.2.cols.set new r, types := st.2.types.set new t }) old

/-- A dictionary of new lists made from the columns by `f` (`/repo/hrosailing/core/data.py:322-325`, `:527-530`): the
lists are added to the store, the `n`-th column refers to the `n`-th of them. -/
def fresh (f : List (Option V) → List (Option V)) : Store V → Dict κ Nat → Store V × Dict κ Nat
  | s, [] => (s, [])
  | s, (k, r) :: d => ((fresh f (s ++ [f (deref s r)]) d).1, (k, s.length) :: (fresh f (s ++ [f (deref s r)]) d).2)

/-- `delete` for a list of row indices (`/repo/hrosailing/core/data.py:316-318`, `:322-327`): all columns are new lists. -/
def deleteRows (st : St κ V τ) (idx : List Int) : St κ V τ :=
  if idx = [] then st
  else ((fresh (dropIdx idx 0) st.1 st.2.cols).1,
    { st.2 with cols := (fresh (dropIdx idx 0) st.1 st.2.cols).2, maxLen := st.2.maxLen - idx.length })

/-- `_mask_rows` (`/repo/hrosailing/core/data.py:518-536`): a new object with new lists. -/
def maskRows (st : St κ V τ) (mask : List Bool) : St κ V τ :=
  ((fresh (maskList mask) st.1 st.2.cols).1,
    { cols := (fresh (maskList mask) st.1 st.2.cols).2, types := st.2.types,
      maxLen := maxColLen (Dict.mapVals (fun r => maskList mask (deref st.1 r)) st.2.cols) })

/-- `get_slice` (`/repo/hrosailing/core/data.py:493-516`): a new object, whose columns are the lists of the old one
(lines 506-508; `_force_set`, lines 464-471). -/
def getSlice (st : St κ V τ) (ks : List κ) : St κ V τ :=
  let cols := Dict.filterItems (fun k _ => decide (k ∈ ks)) st.2.cols
  (st.1, { cols := cols, types := Dict.filterItems (fun k _ => decide (k ∈ ks)) st.2.types,
           maxLen := maxColLen (Dict.mapVals (deref st.1) cols) })

/-! ### Programs working with several objects -/

/-- Values of the dictionary given to `update` by a program (`/repo/hrosailing/core/data.py:213`): one of the lists of the
program or a single entry. -/
inductive Source (V : Type)
  | list (i : Nat)
  | scalar (v : Option V)
  deriving DecidableEq, Repr

/-- The statements of a program which uses lists and `Data` objects; objects and lists are numbered in the order of their
creation (`/repo/hrosailing/core/data.py:150-548`). -/
inductive Action (κ V τ : Type)
  /-- the program creates a list -/
  | newList (l : List (Option V))
  /-- the program appends to one of its lists -/
  | push (i : Nat) (v : Option V)
  /-- `Data()` -/
  | newData
  /-- `update` with a dictionary (also `from_dict`) -/
  | update (i : Nat) (d : Dict κ (Source V)) (compress : Bool)
  /-- `update` with another object (also `concatenate`) -/
  | updateFrom (i j : Nat)
  /-- `data[mask]` -/
  | mask (i : Nat) (m : List Bool)
  | deleteRows (i : Nat) (idx : List Int)
  | deleteCol (i : Nat) (k : κ)
  | rename (i : Nat) (old new : κ)
  | filterTypes (i : Nat) (ts : List (Option τ))
  | fill (i : Nat) (len : Int) (ks : List κ)
  | append (i : Nat) (k : κ) (v : Option V)
  /-- `get_slice`, `data[keys]` -/
  | slice (i : Nat) (ks : List κ)
  /-- `extend` with one of the lists of the program -/
  | extend (i : Nat) (k : κ) (j : Nat)
  deriving DecidableEq, Repr

/-- The state of a program: the store, the objects and the lists of the program (`/repo/hrosailing/core/data.py:34-37`). -/
structure World (κ V τ : Type) where
  store : Store V
  objs : List (Obj κ τ)
  lists : List Nat
  deriving DecidableEq, Repr

/-- The dictionary given to `update` (`/repo/hrosailing/core/data.py:179-209`); for a list which does not exist `None` is
taken. -/
def World.arg (w : World κ V τ) : Source V → Arg V
  | .list i =>
    match w.lists[i]? with
    | some r => .list r
    | none => .scalar none
  | .scalar v => .scalar v

/-- A method which changes the `i`-th object (`/repo/hrosailing/core/data.py:150-327`). -/
def World.method (w : World κ V τ) (i : Nat) (f : St κ V τ → Res (St κ V τ)) : Res (World κ V τ) :=
  match w.objs[i]? with
  | none => (w, some .otherError)
  | some o => ({ w with store := (f (w.store, o)).1.1, objs := w.objs.set i (f (w.store, o)).1.2 }, (f (w.store, o)).2)

/-- A method which creates an object from the `i`-th one (`/repo/hrosailing/core/data.py:493-548`). -/
def World.create (w : World κ V τ) (i : Nat) (f : St κ V τ → St κ V τ) : Res (World κ V τ) :=
  match w.objs[i]? with
  | none => (w, some .otherError)
  | some o => ({ w with store := (f (w.store, o)).1, objs := w.objs ++ [(f (w.store, o)).2] }, none)

/-- One statement (`/repo/hrosailing/core/data.py:150-548`). -/
def World.step (w : World κ V τ) : Action κ V τ → Res (World κ V τ)
  | .newList l => ({ w with store := w.store ++ [l], lists := w.lists ++ [w.store.length] }, none)
  | .push i v =>
    match w.lists[i]? with
    | none => (w, some .otherError)
    | some r => ({ w with store := w.store.set r (deref w.store r ++ [v]) }, none)
  | .newData => ({ w with objs := w.objs ++ [Obj.empty] }, none)
  | .update i d compress => w.method i fun st => Heap.update st (Dict.mapVals w.arg d) compress
  | .updateFrom i j =>
    match w.objs[j]? with
    | none => (w, some .otherError)
    | some other => w.method i fun st => updateData st other
  | .mask i m => w.create i fun st => maskRows st m
  | .deleteRows i idx => w.method i fun st => (Heap.deleteRows st idx, none)
  | .deleteCol i k => w.method i fun st => Heap.deleteCol st k
  | .rename i old new => w.method i fun st => Heap.rename st old new
  | .filterTypes i ts => w.method i fun st => Heap.filterTypes st ts
  | .fill i len ks => w.method i fun st => Heap.fill st len ks
  | .append i k v => w.method i fun st => Heap.append st k v
  | .slice i ks => w.create i fun st => getSlice st ks
  | .extend i k j =>
    match w.lists[j]? with
    | none => (w, some .otherError)
    | some r => w.method i fun st => Heap.extend st k r

/-- A program: all states and exceptions; exceptions are caught and the program continues
(`/repo/hrosailing/core/data.py:150-548`). -/
def World.run : World κ V τ → List (Action κ V τ) → World κ V τ × List (Option PyErr)
  | w, [] => (w, [])
  | w, a :: as => ((World.run (w.step a).1 as).1, (w.step a).2 :: (World.run (w.step a).1 as).2)

end Verif.Heap
