import Verif.Model.Data

/-!
# `Data.rows` and `Data.__getitem__` with all kinds of arguments

Model of `rows` (`/repo/hrosailing/core/data.py:81-115`) for the three return types, and of `__getitem__`
(`/repo/hrosailing/core/data.py:538-554`) for all kinds of subscripts.
-/

namespace Verif.Rows

variable {κ V τ : Type} [DecidableEq κ] [DecidableEq τ] [HasType V τ]

/-- `self._data[key][i]` (`/repo/hrosailing/core/data.py:107-111`). -/
def entry (D : Data κ V τ) (i : Int) (key : κ) : Except PyErr (Option V) :=
  match D.cols.get? key with
  | none => .error .keyError
  | some c =>
    match pyIndex c i with
    | none => .error .indexError
    | some v => .ok v

/-- The argument `keys` (`/repo/hrosailing/core/data.py:81`, `:104-105`): not given, a collection which can be iterated
repeatedly, or an iterator, e.g. a generator. -/
inductive Keys (κ : Type)
  | default
  | many (ks : List κ)
  | once (ks : List κ)
  deriving DecidableEq, Repr

/-- What `for key in keys` yields in the `i`-th row (`/repo/hrosailing/core/data.py:104-111`): an iterator is exhausted
after the first row. -/
def Keys.at (D : Data κ V τ) : Keys κ → Nat → List κ
  | .default, _ => D.keys
  | .many ks, _ => ks
  | .once ks, 0 => ks
  | .once _, _ + 1 => []

/-- `list(data.rows(keys, return_type=list))` (`/repo/hrosailing/core/data.py:106-111`). -/
def listRows (D : Data κ V τ) (keys : Keys κ) : Except PyErr (List (List (Option V))) :=
  (List.range D.maxLen.toNat).mapM fun (i : Nat) => (keys.at D i).mapM fun key => entry D i key

/-- `list(data.rows(keys, return_type=dict))` (`/repo/hrosailing/core/data.py:106-108`). -/
def dictRows (D : Data κ V τ) (keys : Keys κ) : Except PyErr (List (Dict κ (Option V))) :=
  (List.range D.maxLen.toNat).mapM fun (i : Nat) => do
    let row ← (keys.at D i).mapM fun key => do
      let v ← entry D i key
      return (key, v)
    return row.foldl (fun d p => Dict.set d p.1 p.2) []

/-- What a program does with `rows = data.rows(keys, return_type=tuple)` (`/repo/hrosailing/core/data.py:109`): ask for the
next row, or read all entries of the `j`-th row it got. -/
inductive Use
  | next
  | read (j : Nat)
  deriving DecidableEq, Repr

/-- The state of the generator `rows` (`/repo/hrosailing/core/data.py:106-109`): how many rows were yielded, and which of
them were read. -/
structure Gen where
  yielded : Nat
  used : List Nat
  deriving DecidableEq, Repr

/-- Reading the `j`-th row for `return_type=tuple` (`/repo/hrosailing/core/data.py:109`). The row is no tuple but the
generator `(self._data[key][i] for key in keys)`; it uses the value that `i` has when it is read, i.e. the number of the
row which was yielded last. A generator which was read already is empty. -/
def readTuple (D : Data κ V τ) (ks : List κ) (g : Gen) (j : Nat) : Except PyErr (List (Option V)) :=
  if j < g.yielded then
    if j ∈ g.used then .ok []
    else ks.mapM fun key => entry D ((g.yielded - 1 : Nat) : Int) key
  else .error .otherError

/-- A program which uses the rows (`/repo/hrosailing/core/data.py:106-109`): the results of all `read`s. -/
def tupleUses (D : Data κ V τ) (ks : List κ) : Gen → List Use → List (Except PyErr (List (Option V)))
  | _, [] => []
  | g, .next :: us => tupleUses D ks (if g.yielded < D.maxLen.toNat then { g with yielded := g.yielded + 1 } else g) us
  | g, .read j :: us => readTuple D ks g j :: tupleUses D ks { g with used := j :: g.used } us

/-! ### Subscription -/

/-- The elements of an iterable given to `__getitem__` (`/repo/hrosailing/core/data.py:543-548`): booleans and strings of
python and of numpy, or something else. -/
inductive Elem (κ : Type)
  | bool (b : Bool)
  | numpyBool (b : Bool)
  | str (k : κ)
  | numpyStr (k : κ)
  | other
  deriving DecidableEq, Repr

/-- The subscripts (`/repo/hrosailing/core/data.py:538-545`): strings, integers (`True` and `False` are integers in python,
too), collections, iterators, and things which cannot be iterated, e.g. integers of numpy and slices. -/
inductive Index (κ : Type)
  | str (k : κ)
  | int (i : Int)
  | bool (b : Bool)
  | many (l : List (Elem κ))
  | once (l : List (Elem κ))
  | single
  deriving DecidableEq, Repr

/-- The results of `__getitem__` (`/repo/hrosailing/core/data.py:538-554`). -/
inductive Got (κ V τ : Type)
  | column (c : List (Option V))
  | row (r : Dict κ (Option V))
  | table (D : Data κ V τ)
  deriving DecidableEq, Repr

/-- The truth value of an element (`if choose`, `/repo/hrosailing/core/data.py:527`); other objects than booleans are
assumed to be true, as nonempty strings are. -/
def Elem.truth : Elem κ → Bool
  | .bool b => b
  | .numpyBool b => b
  | _ => true

/-- `key == element` (`key in slice_`, `/repo/hrosailing/core/data.py:507`, `:510`). -/
def Elem.is (key : κ) : Elem κ → Bool
  | .str k => decide (k = key)
  | .numpyStr k => decide (k = key)
  | _ => false

/-- `{key: value for key, value in d.items() if key in slice_}` (`/repo/hrosailing/core/data.py:506-511`) for an iterator
`slice_`: `in` takes elements from it until the key is found; the rest of the iterator is returned, too. -/
def takeFrom {α : Type} : Dict κ α → List (Elem κ) → Dict κ α × List (Elem κ)
  | [], l => ([], l)
  | (k, v) :: d, l =>
    if l.any (·.is k) then
      ((k, v) :: (takeFrom d ((l.dropWhile fun e => !e.is k).drop 1)).1, (takeFrom d ((l.dropWhile fun e => !e.is k).drop 1)).2)
    else ((takeFrom d []).1, (takeFrom d []).2)

/-- `__getitem__` (`/repo/hrosailing/core/data.py:538-554`). For iterators the first element is lost when its type is
determined (lines 543-545). -/
def getItem (D : Data κ V τ) : Index κ → Except PyErr (Got κ V τ)
  | .str k =>
    match D.cols.get? k with
    | none => .error .keyError
    | some c => .ok (.column c)
  | .int i =>
    match D.rowAt i with
    | none => .error .indexError
    | some r => .ok (.row r)
  | .bool b =>
    match D.rowAt (if b then 1 else 0) with
    | none => .error .indexError
    | some r => .ok (.row r)
  | .single => .error .typeError
  | .many l =>
    match l with
    | [] => .ok (.table (D.maskRows []))
    | .bool _ :: _ => .ok (.table (D.maskRows (l.map Elem.truth)))
    | .numpyBool _ :: _ => .ok (.table (D.maskRows (l.map Elem.truth)))
    | .str _ :: _ =>
      let cols := Dict.filterItems (fun k _ => l.any (·.is k)) D.cols
      .ok (.table ⟨cols, Dict.filterItems (fun k _ => l.any (·.is k)) D.types, Data.maxColLen cols⟩)
    | _ => .error .typeError
  | .once l =>
    match l with
    | [] => .ok (.table (D.maskRows []))
    | .bool _ :: rest => .ok (.table { D with cols := maskAll rest D.cols, maxLen := Data.maxColLen (maskAll rest D.cols) })
    | .numpyBool _ :: rest =>
      .ok (.table { D with cols := maskAll rest D.cols, maxLen := Data.maxColLen (maskAll rest D.cols) })
    | .str _ :: rest =>
      .ok (.table ⟨(takeFrom D.cols rest).1, (takeFrom D.types (takeFrom D.cols rest).2).1,
        Data.maxColLen (takeFrom D.cols rest).1⟩)
    | _ => .error .typeError
where
  /-- `{key: [entry for entry, choose in zip(value, mask) if choose] for …}` (`/repo/hrosailing/core/data.py:527-530`) for
  an iterator `mask`: `zip` takes elements until the column is exhausted, and one more element is not taken since the
  column comes first; the other columns get what is left. -/
  maskAll : List (Elem κ) → Dict κ (List (Option V)) → Dict κ (List (Option V))
    | _, [] => []
    | m, (k, c) :: d => (k, Data.maskList (m.map Elem.truth) c) :: maskAll (m.drop c.length) d

end Verif.Rows
