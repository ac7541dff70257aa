import Verif.Model.Py
import Verif.Model.Injector
import Verif.Model.TableText

/-!
# Polar diagrams in general, and diagrams of several sails

Model of `/repo/hrosailing/polardiagram/_basepolardiagram.py` and
`/repo/hrosailing/polardiagram/_polardiagrammultisails.py`.
-/

namespace Verif.Diagram

open Verif.Injector (linspace)

variable {K : Type} [Field K] [LinearOrder K]

/-- The argument `ws` of `get_slices` (`/repo/hrosailing/polardiagram/_basepolardiagram.py:100-117`): `None`, a number,
an iterable of numbers, or anything else. -/
inductive WsArg (K : Type)
  | default
  | number (w : K)
  | list (l : List K)
  | other

/-- `_get_windspeeds` for an iterable of numbers (`/repo/hrosailing/polardiagram/_basepolardiagram.py:118-128`). -/
def spread (l : List K) : Option Int → Except PyErr (List K)
  | none => .ok l
  | some n =>
    if n ≤ 0 then .error .valueError
    else
      match l.getLast? with
      | none => .error .indexError
      | some last =>
        .ok ((l.zip l.tail).flatMap (fun p => (linspace p.1 p.2 (n + 2).toNat).dropLast) ++ [last])

/-- `_get_windspeeds` (`/repo/hrosailing/polardiagram/_basepolardiagram.py:100-128`); `defaults` are the
`default_slices`. -/
def windSpeeds (defaults : List K) (ws : WsArg K) (nSteps : Option Int) : Except PyErr (List K) :=
  match ws with
  | .default => spread defaults nSteps
  | .number w => .ok [w]
  | .list l => spread l nSteps
  | .other => .error .typeError

/-- The argument `wind` of `get_points` (`/repo/hrosailing/polardiagram/_basepolardiagram.py:130-151`): an array given
by its rows and the number of its columns, a tuple of arrays, or anything else. -/
inductive WindArg (K : Type)
  | array (cols : Nat) (rows : List (List K))
  | tuple (l : List (List K))
  | other

/-- `_get_wind` (`/repo/hrosailing/polardiagram/_basepolardiagram.py:130-151`). -/
def getWind : WindArg K → Except PyErr (List (K × K))
  | .array cols rows =>
    if cols = 2 then .ok (rows.map fun r => (r.getD 0 0, r.getD 1 0))
    else if rows.length = 2 then
      .ok ((List.range cols).map fun j => ((rows.getD 0 []).getD j 0, (rows.getD 1 []).getD j 0))
    else .error .valueError
  | .tuple l =>
    if l.length ≠ 2 then .error .valueError
    else .ok ((l.getD 1 []).flatMap fun a => (l.getD 0 []).map fun w => (w, a))
  | .other => .error .typeError

/-- `[self(wa, ws) for wa, ws in wind]` together with the winds
(`/repo/hrosailing/polardiagram/_basepolardiagram.py:217-218`). -/
def evalWinds (call : K → K → Except PyErr K) : List (K × K) → Except PyErr (List ((K × K) × K))
  | [] => .ok []
  | p :: l =>
    match call p.1 p.2 with
    | .error e => .error e
    | .ok b =>
      match evalWinds call l with
      | .error e => .error e
      | .ok r => .ok ((p, b) :: r)

/-- `get_points` (`/repo/hrosailing/polardiagram/_basepolardiagram.py:190-218`) for `wind` other than `None`. -/
def getPoints (call : K → K → Except PyErr K) (wind : WindArg K) : Except PyErr (List ((K × K) × K)) :=
  match getWind wind with
  | .error e => .error e
  | .ok w => evalWinds call w

/-! ### Several sails -/

/-- What is used of the diagram of one sail (`/repo/hrosailing/polardiagram/_polardiagrammultisails.py:99-100`,
`:136`): evaluation, and slices given by their columns. -/
structure Sail (K : Type) where
  call : K → K → Except PyErr K
  slices : List K → List (List ((K × K) × K))

/-- The names of the sails (`/repo/hrosailing/polardiagram/_polardiagrammultisails.py:50-61`) for `n` diagrams;
`numbered i` is `f"Sail {i}"`. -/
def sailNames {σ : Type} (numbered : Nat → σ) (n : Nat) : Option (List σ) → List σ
  | none => (List.range n).map numbered
  | some sails =>
    if sails.length < n then sails ++ (List.range' sails.length (n - sails.length)).map numbered
    else if sails.length > n then sails.take n
    else sails

/-- `__getitem__` (`/repo/hrosailing/polardiagram/_polardiagrammultisails.py:72-79`). -/
def getItem {σ δ : Type} [DecidableEq σ] (sails : List σ) (diagrams : List δ) (item : σ) : Except PyErr δ :=
  if item ∈ sails then
    match diagrams[sails.idxOf item]? with
    | some d => .ok d
    | none => .error .indexError
  else .error .valueError

/-- The values of the diagrams (`/repo/hrosailing/polardiagram/_polardiagrammultisails.py:100`). -/
def callAll (ws wa : K) : List (Sail K) → Except PyErr (List K)
  | [] => .ok []
  | d :: ds =>
    match d.call ws wa with
    | .error e => .error e
    | .ok x =>
      match callAll ws wa ds with
      | .error e => .error e
      | .ok l => .ok (x :: l)

/-- `__call__` (`/repo/hrosailing/polardiagram/_polardiagrammultisails.py:99-100`); `max` of an empty sequence raises
`ValueError`. -/
def multiCall (ds : List (Sail K)) (ws wa : K) : Except PyErr K :=
  match callAll ws wa ds with
  | .error e => .error e
  | .ok [] => .error .valueError
  | .ok (x :: l) => .ok (l.foldl max x)

/-- `zip(*ls)` (`/repo/hrosailing/polardiagram/_polardiagrammultisails.py:139`, `:162`): as many entries as the shortest
list has. -/
def zipStar {α : Type} (ls : List (List α)) : List (List α) :=
  match ls with
  | [] => []
  | l :: ls' => (List.range ((ls'.map List.length).foldl min l.length)).map fun i => ls.filterMap (·[i]?)

/-- `ws_to_slices` (`/repo/hrosailing/polardiagram/_polardiagrammultisails.py:129-141`). -/
def multiSlices (ds : List (Sail K)) (ws : List K) : List (List ((K × K) × K)) :=
  (zipStar (ds.map fun d => d.slices ws)).map List.flatten

/-- `get_slice_info` (`/repo/hrosailing/polardiagram/_polardiagrammultisails.py:143-164`). -/
def sliceInfo {σ : Type} (sails : List σ) (ds : List (Sail K)) (ws : List K) : List (List σ) :=
  (zipStar (ds.map fun d => d.slices ws)).map fun collection =>
    (sails.zip collection).flatMap fun p => List.replicate p.2.length p.1

open Verif.Table (Text writeRows lines readRows)

/-- `_get_sub_csv_path` (`/repo/hrosailing/polardiagram/_polardiagrammultisails.py:190-193`); `show i` is `str(i)`. -/
def subPath (showNat : Nat → Text) (path : Text) (i : Nat) : Text :=
  ['_'].intercalate [(path.splitOn '.').headD [], "sail".toList, showNat i] ++ ".csv".toList

/-- The files: contents of paths (`/repo/hrosailing/polardiagram/_polardiagrammultisails.py:181`). -/
abbrev Files := Text → Option Text

/-- Opening a file with mode "w" and writing (`/repo/hrosailing/polardiagram/_polardiagrammultisails.py:181-184`). -/
def Files.write (fs : Files) (path text : Text) : Files := fun p => if p = path then some text else fs p

/-- The loop of `to_csv` (`/repo/hrosailing/polardiagram/_polardiagrammultisails.py:186-188`); `write` gives the contents
of the file of a diagram. -/
def writeSubs {δ : Type} (showNat : Nat → Text) (write : δ → Text) (path : Text) : Nat → List δ → Files → Files
  | _, [], fs => fs
  | i, d :: ds, fs => writeSubs showNat write path (i + 1) ds (fs.write (subPath showNat path i) (write d))

/-- `to_csv` (`/repo/hrosailing/polardiagram/_polardiagrammultisails.py:166-188`). -/
def multiToCsv {δ : Type} (showNat : Nat → Text) (write : δ → Text) (sails : List Text) (ds : List δ) (path : Text)
    (fs : Files) : Files :=
  writeSubs showNat write path 0 ds
    (fs.write path (writeRows ':' [["PolarDiagramMultiSails".toList], "Sails".toList :: sails]))

/-- The loop of `__from_csv__` (`/repo/hrosailing/polardiagram/_polardiagrammultisails.py:201-203`); `read` reads the
contents of a file of a diagram; missing files raise some exception. -/
def readSubs {δ : Type} (showNat : Nat → Text) (read : Text → Except PyErr δ) (path : Text) (fs : Files) :
    Nat → List Text → Except PyErr (List δ)
  | _, [] => .ok []
  | i, _ :: sails =>
    match fs (subPath showNat path i) with
    | none => .error .otherError
    | some text =>
      match read text with
      | .error e => .error e
      | .ok d =>
        match readSubs showNat read path fs (i + 1) sails with
        | .error e => .error e
        | .ok ds => .ok (d :: ds)

/-- `from_csv` for diagrams of several sails (`/repo/hrosailing/polardiagram/_polardiagrammultisails.py:195-204`,
`/repo/hrosailing/polardiagram/_reading.py:80-90`). -/
def multiFromCsv {δ : Type} (showNat : Nat → Text) (read : Text → Except PyErr δ) (path : Text) (fs : Files) :
    Except PyErr (List Text × List δ) :=
  match fs path with
  | none => .error .otherError
  | some text =>
    match lines text with
    | [] => .error .otherError
    | first :: ls =>
      if first ≠ "PolarDiagramMultiSails".toList then .error .otherError
      else
        match readRows ':' ls with
        | [] => .error .otherError
        | row :: _ =>
          match readSubs showNat read path fs 0 row.tail with
          | .error e => .error e
          | .ok ds => .ok (row.tail, ds)

end Verif.Diagram
