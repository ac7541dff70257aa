import Verif.Model.Py
import Verif.Model.Dict

/-!
# `hrosailing.core.data.Data`

Model of the class `Data` of `/repo/hrosailing/core/data.py`. The key type `κ`, the type `V` of (non-`None`)
entries and the type `τ` of python types are arbitrary; `Option V` is an entry that might be `None`.
Simplification: lists are values, i.e. aliasing of column lists between different objects is not modelled here; see
`Verif.Model.DataHeap` for that, and property C95 for the programs to which this makes no difference.
-/

namespace Verif

/-- The python function `type` (`/repo/hrosailing/core/data.py:435`, `:437`). -/
class HasType (V : Type) (τ : outParam Type) where
  typeOf : V → τ

export HasType (typeOf)

/-- The attributes `_data`, `_types`, `_max_len` of `Data` (`/repo/hrosailing/core/data.py:34-37`). `_max_len`
is an integer since `delete` (line 327) can make it negative. -/
structure Data (κ V τ : Type) where
  cols : Dict κ (List (Option V))
  types : Dict κ (Option τ)
  maxLen : Int
  deriving DecidableEq, Repr

/-- Values of the dictionary given to `update`: a list or a single entry
(`/repo/hrosailing/core/data.py:213`, `isinstance(val, list)`). -/
inductive Arg (V : Type)
  | list (l : List (Option V))
  | scalar (v : Option V)
  deriving DecidableEq, Repr

namespace Data

variable {κ V τ : Type} [DecidableEq κ] [DecidableEq τ] [HasType V τ]

/-- `Data()` (`/repo/hrosailing/core/data.py:34-37`). -/
def empty : Data κ V τ := ⟨[], [], 0⟩

/-- `keys` (`/repo/hrosailing/core/data.py:39-46`). -/
def keys (D : Data κ V τ) : List κ := Dict.keys D.cols

/-- `n_rows` (`/repo/hrosailing/core/data.py:60-65`). -/
def nRows (D : Data κ V τ) : Int := D.maxLen

/-- Loop of `_get_type` (`/repo/hrosailing/core/data.py:431-442`) with the value of `curr_type`. -/
def getTypeAux : Option τ → List (Option V) → Except PyErr (Option τ)
  | cur, [] => .ok cur
  | cur, none :: l => getTypeAux cur l
  | none, some v :: l => getTypeAux (some (typeOf v)) l
  | some t, some v :: l => if typeOf v ≠ t then .error .valueError else getTypeAux (some t) l

/-- `_get_type` (`/repo/hrosailing/core/data.py:429-443`). -/
def getType (l : List (Option V)) : Except PyErr (Option τ) := getTypeAux none l

/-- `extend` (`/repo/hrosailing/core/data.py:150-177`). -/
def extend (D : Data κ V τ) (key : κ) (l : List (Option V)) : Res (Data κ V τ) :=
  match getType l with
  | .error e => (D, some e)
  | .ok dt =>
    match D.cols.get? key with
    | some old =>
      match D.types.get? key with
      | none => (D, some .keyError)
      | some t =>
        let types := if t = none then D.types.set key dt else D.types
        let t' := if t = none then dt else t
        if dt ≠ none ∧ dt ≠ t' then ({ D with types := types }, some .valueError)
        else ({ cols := D.cols.set key (old ++ l), types := types,
                maxLen := max D.maxLen ((old ++ l).length : Int) }, none)
    | none =>
      ({ cols := D.cols.set key l, types := D.types.set key dt,
         maxLen := max D.maxLen (l.length : Int) }, none)

/-- `append` (`/repo/hrosailing/core/data.py:219-234`). -/
def append (D : Data κ V τ) (key : κ) (v : Option V) : Res (Data κ V τ) := extend D key [v]

/-- Body of the loop of `fill` (`/repo/hrosailing/core/data.py:256-262`). -/
def fillKey (len : Int) (D : Data κ V τ) (key : κ) : Res (Data κ V τ) :=
  let col := (D.cols.get? key).getD []
  let fillLen := (max 0 (len - (col.length : Int))).toNat
  let new := col ++ List.replicate fillLen none
  match getType new with
  | .error e => ({ D with cols := D.cols.set key new }, some e)
  | .ok t => ({ D with cols := D.cols.set key new, types := D.types.set key t }, none)

/-- `fill` with explicit arguments (`/repo/hrosailing/core/data.py:236-262`). -/
def fill (D : Data κ V τ) (len : Int) (ks : List κ) : Res (Data κ V τ) :=
  Res.forEach (fillKey len) ks D

/-- Body of the loop of `_unsafe_update` (`/repo/hrosailing/core/data.py:212-216`). -/
def putArg (D : Data κ V τ) (p : κ × Arg V) : Res (Data κ V τ) :=
  match p.2 with
  | .list l => extend D p.1 l
  | .scalar v => append D p.1 v

/-- `_unsafe_update` (`/repo/hrosailing/core/data.py:211-217`); `fill()` uses the default arguments
`self._max_len` and `self.keys()` (lines 252-255). -/
def unsafeUpdate (D : Data κ V τ) (d : Dict κ (Arg V)) : Res (Data κ V τ) :=
  (Res.forEach putArg d D).andThen fun D' => fill D' D'.maxLen D'.keys

/-- The generator `all(self[key][-1] is None for key in data_dict.keys())`
(`/repo/hrosailing/core/data.py:205`) with short circuit evaluation. -/
def allLastNone (D : Data κ V τ) : List κ → Except PyErr Bool
  | [] => .ok true
  | k :: ks =>
    match D.cols.get? k with
    | none => .error .keyError
    | some c =>
      match pyIndex c (-1) with
      | none => .error .indexError
      | some (some _) => .ok false
      | some none => allLastNone D ks

/-- Body of the loop `self._data[key] = self._data[key][:-1]` (`/repo/hrosailing/core/data.py:206-207`). -/
def dropLastKey (D : Data κ V τ) (k : κ) : Res (Data κ V τ) :=
  match D.cols.get? k with
  | none => (D, some .keyError)
  | some c => ({ D with cols := D.cols.set k c.dropLast }, none)

/-- `update` for a dictionary (`/repo/hrosailing/core/data.py:179-209`). -/
def update (D : Data κ V τ) (d : Dict κ (Arg V)) (compress : Bool) : Res (Data κ V τ) :=
  (fill D D.maxLen (Dict.keys d ++ D.keys)).andThen fun D =>
    if ¬ compress ∨ D.maxLen = 0 then unsafeUpdate D d
    else
      match allLastNone D (Dict.keys d) with
      | .error e => (D, some e)
      | .ok true => (Res.forEach dropLastKey (Dict.keys d) D).andThen fun D => unsafeUpdate D d
      | .ok false => unsafeUpdate D d

/-- `update` for a `Data` object (`/repo/hrosailing/core/data.py:193-197`): the flag `compress` is
ignored. -/
def updateData (D : Data κ V τ) (other : Data κ V τ) : Res (Data κ V τ) :=
  update D (Dict.mapVals Arg.list other.cols) false

/-- `filter_types` (`/repo/hrosailing/core/data.py:264-275`). -/
def filterTypes (D : Data κ V τ) (ts : List (Option τ)) : Res (Data κ V τ) :=
  Res.forEach (fun (D : Data κ V τ) k =>
    match D.types.get? k with
    | none => (D, some .keyError)
    | some t => if t ∈ ts then (D, none)
        else ({ D with cols := D.cols.del k, types := D.types.del k }, none)) D.keys D

/-- `delete` for a column name (`/repo/hrosailing/core/data.py:311-313`). -/
def deleteCol (D : Data κ V τ) (k : κ) : Res (Data κ V τ) :=
  match D.cols.get? k with
  | none => (D, some .keyError)
  | some _ =>
    match D.types.get? k with
    | none => ({ D with cols := D.cols.del k }, some .keyError)
    | some _ => ({ D with cols := D.cols.del k, types := D.types.del k }, none)

/-- `[v for i, v in enumerate(value) if i not in key]` (`/repo/hrosailing/core/data.py:323`), where the
enumeration starts with `i`. -/
def dropIdx {α : Type} (idx : List Int) : Nat → List α → List α
  | _, [] => []
  | i, v :: l => if (i : Int) ∈ idx then dropIdx idx (i + 1) l else v :: dropIdx idx (i + 1) l

/-- `delete` for a list of row indices (`/repo/hrosailing/core/data.py:316-318`, `:322-327`); a single integer
is the list with one element (lines 314-315). -/
def deleteRows (D : Data κ V τ) (idx : List Int) : Data κ V τ :=
  if idx = [] then D
  else { D with cols := Dict.mapVals (dropIdx idx 0) D.cols, maxLen := D.maxLen - idx.length }

/-- `rename` (`/repo/hrosailing/core/data.py:277-300`). -/
def rename (D : Data κ V τ) (old new : κ) : Res (Data κ V τ) :=
  if old = new then (D, none)
  else if new ∈ D.keys then (D, some .valueError)
  else
    match D.cols.get? old with
    | none => (D, some .keyError)
    | some c =>
      match D.types.get? old with
      | none => ({ D with cols := D.cols.set new c }, some .keyError)
      | some t =>
        deleteCol { D with cols := D.cols.set new c, types := D.types.set new t } old

/-- `max(len(field) for field in data.values())`, or 0 if there is none
(`/repo/hrosailing/core/data.py:512-515`, `:531-534`). -/
def maxColLen (cols : Dict κ (List (Option V))) : Int :=
  cols.foldr (fun p m => max (p.2.length : Int) m) 0

/-- `[entry for entry, choose in zip(value, mask) if choose]` (`/repo/hrosailing/core/data.py:527`). -/
def maskList {α : Type} : List Bool → List α → List α
  | b :: m, x :: l => if b then x :: maskList m l else maskList m l
  | _, _ => []

/-- `_mask_rows` (`/repo/hrosailing/core/data.py:518-536`). -/
def maskRows (D : Data κ V τ) (mask : List Bool) : Data κ V τ :=
  let cols := Dict.mapVals (maskList mask) D.cols
  { cols := cols, types := D.types, maxLen := maxColLen cols }

/-- `get_slice` (`/repo/hrosailing/core/data.py:493-516`); `slice_` is given as a list of keys. -/
def getSlice (D : Data κ V τ) (ks : List κ) : Data κ V τ :=
  let cols := Dict.filterItems (fun k _ => decide (k ∈ ks)) D.cols
  { cols := cols, types := Dict.filterItems (fun k _ => decide (k ∈ ks)) D.types,
    maxLen := maxColLen cols }

/-- The iterables accepted by `__getitem__` (`/repo/hrosailing/core/data.py:543-550`): python cannot distinguish
an empty list of keys from an empty mask. -/
inductive Item (κ : Type)
  | mask (m : List Bool)
  | keys (ks : List κ)
  deriving DecidableEq, Repr

/-- `__getitem__` for iterables (`/repo/hrosailing/core/data.py:543-550`): dispatch on the type of the first
element, an empty iterable is treated as a mask. -/
def getItem (D : Data κ V τ) : Item κ → Data κ V τ
  | .mask m => maskRows D m
  | .keys [] => maskRows D []
  | .keys (k :: ks) => getSlice D (k :: ks)

/-- `__getitem__` for an integer, `{key: val[item] for key, val in self._data.items()}`
(`/repo/hrosailing/core/data.py:542`); `none` stands for `IndexError`. -/
def rowAt (D : Data κ V τ) (i : Int) : Option (Dict κ (Option V)) :=
  D.cols.mapM fun p => (pyIndex p.2 i).map fun v => (p.1, v)

/-- `list(data.rows())` resp. `list(data)` (`/repo/hrosailing/core/data.py:81-115`, `:559-561`) for the default
arguments; `none` stands for `IndexError`. -/
def rows (D : Data κ V τ) : Option (List (Dict κ (Option V))) :=
  (List.range D.maxLen.toNat).mapM fun (i : Nat) => D.rowAt i

/-- `concatenate` (`/repo/hrosailing/core/data.py:445-462`). -/
def concatenate (l : List (Data κ V τ)) : Res (Data κ V τ) :=
  Res.forEach updateData l empty

/-- `from_dict` (`/repo/hrosailing/core/data.py:473-491`). -/
def fromDict (d : Dict κ (Arg V)) : Res (Data κ V τ) := update empty d false

/-! ### strip -/

/-- `strip("cols")` (`/repo/hrosailing/core/data.py:341-346`). -/
def stripCols (D : Data κ V τ) : Data κ V τ :=
  { D with cols := Dict.filterItems (fun _ v => ! v.all Option.isNone) D.cols }

/-- `all(value[i] is None for key, value in self._data.items())` (`/repo/hrosailing/core/data.py:352-355`,
`:357-360`) with short circuit evaluation. -/
def allNoneAt : Dict κ (List (Option V)) → Int → Except PyErr Bool
  | [], _ => .ok true
  | (_, c) :: d, i =>
    match pyIndex c i with
    | none => .error .indexError
    | some (some _) => .ok false
    | some none => allNoneAt d i

/-- The `while` loops of `strip("rows")` (`/repo/hrosailing/core/data.py:352-356` with `step = 1` and
`:357-361` with `step = -1`), run for at most `fuel` iterations; `none` means that the loop is still
running. -/
def scanLoop (cols : Dict κ (List (Option V))) (step : Int) : Nat → Int → Option (Except PyErr Int)
  | 0, _ => none
  | fuel + 1, i =>
    match allNoneAt cols i with
    | .error e => some (.error e)
    | .ok false => some (.ok i)
    | .ok true => scanLoop cols step fuel (i + step)

/-- Normalisation of a bound of a python slice of a list of length `n`: negative bounds count from the
end (used for `/repo/hrosailing/core/data.py:363`). -/
def sliceBound (n : Nat) (b : Int) : Nat := if b < 0 then (b + n).toNat else b.toNat

/-- `value[a : b]` (`/repo/hrosailing/core/data.py:363`). -/
def pySlice {α : Type} (l : List α) (a b : Int) : List α :=
  (l.take (sliceBound l.length b)).drop (sliceBound l.length a)

/-- `strip("rows")` (`/repo/hrosailing/core/data.py:347-365`), both loops run for at most `fuel` iterations.
Note that `_max_len` is not changed. -/
def stripRows (fuel : Nat) (D : Data κ V τ) : Option (Res (Data κ V τ)) :=
  match scanLoop D.cols 1 fuel 0 with
  | none => none
  | some (.error e) => some (D, some e)
  | some (.ok a) =>
    match scanLoop D.cols (-1) fuel (D.maxLen - 1) with
    | none => none
    | some (.error e) => some (D, some e)
    | some (.ok b) =>
      some ({ D with cols := Dict.mapVals (fun c => pySlice c a (b + 1)) D.cols }, none)

/-- `strip("all")` (`/repo/hrosailing/core/data.py:366-368`). -/
def stripAll (fuel : Nat) (D : Data κ V τ) : Option (Res (Data κ V τ)) := stripRows fuel (stripCols D)

end Data
end Verif
