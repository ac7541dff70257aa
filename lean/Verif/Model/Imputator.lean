import Mathlib.Data.Rat.Defs
import Mathlib.Algebra.Order.Ring.Rat
import Mathlib.Algebra.Order.Ring.Abs
import Verif.Model.Data

/-!
# `hrosailing.processing.imputator`

Model of `/repo/hrosailing/processing/imputator.py`.
-/

namespace Verif.Imputator

/-- The statistics set by `Imputator.set_statistics` (`/repo/hrosailing/processing/imputator.py:27-36`). -/
structure Stats where
  removedCols : Int
  removedRows : Int
  filled : Int
  nRows : Int
  nCols : Int
  deriving DecidableEq, Repr

/-- The indices, starting with `s`, of the elements of a list satisfying a condition:
`[idx for idx, x in enumerate(l) if cond(x)]` (`/repo/hrosailing/processing/imputator.py:57-61`, `:209-211`,
`:221`). -/
def indicesFrom {α : Type} (cond : α → Bool) : Nat → List α → List Nat
  | _, [] => []
  | s, x :: l => if cond x then s :: indicesFrom cond (s + 1) l else indicesFrom cond (s + 1) l

section removeOnly

variable {κ V τ : Type} [DecidableEq κ] [DecidableEq τ] [HasType V τ]

/-- `RemoveOnlyImputator.impute` (`/repo/hrosailing/processing/imputator.py:48-66`). -/
def removeOnly (D : Data κ V τ) : Except PyErr (Data κ V τ × Stats) :=
  match D.rows with
  | none => .error .indexError
  | some rs =>
    let remove := indicesFrom (fun (r : Dict κ (Option V)) => r.any fun p => p.2.isNone) 0 rs
    let D' := D.deleteRows (remove.map Int.ofNat)
    .ok (D', ⟨0, D.nRows - remove.length, 0, D'.nRows, D'.keys.length⟩)

end removeOnly

/-! ### `FillLocalImputator` -/

/-- The `Data` object given to `FillLocalImputator.impute` (`/repo/hrosailing/processing/imputator.py:144-152`): the
column `"datetime"`, with time stamps given by exact numbers, and the other columns. -/
structure Tab (κ V : Type) where
  times : List (Option Rat)
  cols : Dict κ (List (Option V))
  deriving DecidableEq, Repr

/-- The fill functions given to `FillLocalImputator` (`/repo/hrosailing/processing/imputator.py:130-136`). They may
return `None`. -/
structure Fills (κ V : Type) where
  before : κ → V → Rat → Option V
  between : κ → V → V → Rat → Option V
  after : κ → V → Rat → Option V

/-- The default fill functions (`/repo/hrosailing/processing/imputator.py:132-134`). -/
def Fills.default {κ V : Type} : Fills κ V :=
  ⟨fun _ right _ => some right, fun _ left _ _ => some left, fun _ left _ => some left⟩

/-- The inner loop of `_interpolate_datetime` (`/repo/hrosailing/processing/imputator.py:201-203`) for the values
`j = last_i + 1, ..., i - 1`. -/
def affineFill (col : List (Option Rat)) (lastI : Nat) (lastDt : Rat) (i : Nat) (dt : Rat) : List (Option Rat) :=
  (List.range' (lastI + 1) (i - (lastI + 1))).foldl
    (fun c j => c.set j (some (lastDt + ((j : Rat) - lastI) / ((i : Rat) - lastI) * (dt - lastDt)))) col

/-- The loop of `_interpolate_datetime` (`/repo/hrosailing/processing/imputator.py:191-204`): `rest` are the entries
with index `i` and more, `col` is the current column. The entries of `rest` are not changed by earlier
iterations. -/
def interpLoop (maxDiff : Rat) : Nat → List (Option Rat) → Option (Rat × Nat) → List (Option Rat) → List (Option Rat)
  | _, [], _, col => col
  | i, none :: rest, last, col => interpLoop maxDiff (i + 1) rest last col
  | i, some dt :: rest, none, col => interpLoop maxDiff (i + 1) rest (some (dt, i)) col
  | i, some dt :: rest, some (lastDt, lastI), col =>
    if |dt - lastDt| > maxDiff then interpLoop maxDiff (i + 1) rest (some (lastDt, lastI)) col
    else interpLoop maxDiff (i + 1) rest (some (dt, i)) (affineFill col lastI lastDt i dt)

/-- `_interpolate_datetime` (`/repo/hrosailing/processing/imputator.py:190-206`). -/
def interpolateDatetime (maxDiff : Rat) (times : List (Option Rat)) : List (Option Rat) :=
  interpLoop maxDiff 0 times none times

/-- `_get_start_and_end_idx`, first part (`/repo/hrosailing/processing/imputator.py:246-253`); `none` if there is no
such index. All indices are in the range of `times`. -/
def startIdx (maxDiff : Rat) (times : List Rat) (i : Nat) (idx : List Nat) : Option Nat :=
  (idx.filter fun j => decide (j < i) && decide (times.getD i 0 - times.getD j 0 < maxDiff)).max?

/-- `_get_start_and_end_idx`, second part (`/repo/hrosailing/processing/imputator.py:254-261`). -/
def endIdx (maxDiff : Rat) (times : List Rat) (i : Nat) (idx : List Nat) : Option Nat :=
  (idx.filter fun j => decide (j > i) && decide (times.getD j 0 - times.getD i 0 < maxDiff)).min?

/-- One iteration of `_apply_fill_functions` (`/repo/hrosailing/processing/imputator.py:270-305`): `none` if the entry
is left as it is, otherwise the value assigned to it. The values read at `start_idx` and `end_idx` are never
`None`, since these are indices in `idx`. `max_time_diff` is assumed to be non-zero in the divisions (otherwise
there are no such indices in chronological data). -/
def fillEntry {κ V : Type} (f : Fills κ V) (maxDiff : Rat) (times : List Rat) (idx : List Nat) (key : κ)
    (col : List (Option V)) (i : Nat) : Option (Option V) :=
  match startIdx maxDiff times i idx, endIdx maxDiff times i idx with
  | none, none => none
  | none, some e =>
    let mu := (times.getD e 0 - times.getD i 0) / maxDiff
    some ((col.getD e none).bind fun v => f.before key v mu)
  | some s, none =>
    let mu := (times.getD i 0 - times.getD s 0) / maxDiff
    some ((col.getD s none).bind fun v => f.after key v mu)
  | some s, some e =>
    if times.getD e 0 - times.getD s 0 > maxDiff then
      let mu := (times.getD i 0 - times.getD s 0) / maxDiff
      some ((col.getD s none).bind fun v => f.after key v mu)
    else
      let mu := if times.getD e 0 ≠ times.getD s 0 then
          (times.getD i 0 - times.getD s 0) / (times.getD e 0 - times.getD s 0) else 1
      some ((col.getD s none).bind fun v => (col.getD e none).bind fun w => f.between key v w mu)

/-- `_apply_fill_functions` (`/repo/hrosailing/processing/imputator.py:265-305`): the column and the number of filled
entries. -/
def fillLoop {κ V : Type} (f : Fills κ V) (maxDiff : Rat) (times : List Rat) (idx : List Nat) (key : κ) :
    List Nat → List (Option V) × Nat → List (Option V) × Nat
  | [], st => st
  | i :: is, st =>
    if i ∈ idx then fillLoop f maxDiff times idx key is st
    else
      match fillEntry f maxDiff times idx key st.1 i with
      | none => fillLoop f maxDiff times idx key is st
      | some v => fillLoop f maxDiff times idx key is (st.1.set i v, st.2 + 1)

/-- `_interpolate_other` for one column (`/repo/hrosailing/processing/imputator.py:218-233`). -/
def fillCol {κ V : Type} (f : Fills κ V) (maxDiff : Rat) (times : List Rat) (key : κ) (col : List (Option V)) :
    List (Option V) × Nat :=
  fillLoop f maxDiff times (indicesFrom Option.isSome 0 col) key (List.range col.length) (col, 0)

/-- The indices of the rows which still have `None` values (`/repo/hrosailing/processing/imputator.py:175-179`); all
columns have `n` entries. -/
def incomplete {κ V : Type} (n : Nat) (cols : Dict κ (List (Option V))) : List Nat :=
  (List.range n).filter fun i => cols.any fun p => (p.2.getD i none).isNone

/-- The data returned by `FillLocalImputator.impute`: no time stamp is missing
(`/repo/hrosailing/processing/imputator.py:184-188`). -/
structure Result (κ V : Type) where
  times : List Rat
  cols : Dict κ (List (Option V))
  deriving DecidableEq, Repr

/-- `FillLocalImputator.impute` (`/repo/hrosailing/processing/imputator.py:144-188`). `strip("cols")` removes the
columns without values; if this concerns `"datetime"`, the access to it raises `KeyError`. -/
def impute {κ V : Type} (f : Fills κ V) (maxDiff : Rat) (t : Tab κ V) : Except PyErr (Result κ V × Stats) :=
  let cols := Dict.filterItems (fun _ v => ! v.all Option.isNone) t.cols
  if t.times.all Option.isNone then .error .keyError
  else
    let times := interpolateDatetime maxDiff t.times
    let remove := indicesFrom Option.isNone 0 times
    let times := (Data.dropIdx (remove.map Int.ofNat) 0 times).filterMap id
    let cols := Dict.mapVals (Data.dropIdx (remove.map Int.ofNat) 0) cols
    let filled := cols.map fun p => (p.1, fillCol f maxDiff times p.1 p.2)
    let nFilled := (filled.map fun p => p.2.2).sum
    let cols := filled.map fun p => (p.1, p.2.1)
    let remove' := incomplete times.length cols
    let times := Data.dropIdx (remove'.map Int.ofNat) 0 times
    let cols := Dict.mapVals (Data.dropIdx (remove'.map Int.ofNat) 0) cols
    .ok (⟨times, cols⟩, ⟨(t.cols.length : Int) - cols.length, remove.length + remove'.length, nFilled,
      times.length, cols.length + 1⟩)

end Verif.Imputator
