import Mathlib.Data.List.Sort
import Mathlib.Algebra.Order.Floor.Ring
import Verif.Model.Py
import Verif.Model.Mod

/-!
# `PolarDiagramTable`

Model of `/repo/hrosailing/polardiagram/_polardiagramtable.py` over an ordered field with a floor function.
-/

namespace Verif

/-- `PolarDiagramTable` (`/repo/hrosailing/polardiagram/_polardiagramtable.py:163-173`): wind speeds (columns), wind
angles (rows) and boat speeds given by their rows. -/
structure Table (K : Type) where
  ws : List K
  wa : List K
  bsps : List (List K)
  deriving DecidableEq, Repr

namespace Table

variable {K : Type} [Field K] [LinearOrder K] [FloorRing K]

/-- The arguments `ws_resolution` and `wa_resolution` (`/repo/hrosailing/polardiagram/_polardiagramtable.py:718-729`):
`None`, an iterable or a step size. -/
inductive Resolution (K : Type)
  | standard
  | values (l : List K)
  | step (x : K)

/-- `np.arange(start, stop, step)` for a positive step (`/repo/hrosailing/polardiagram/_polardiagramtable.py:770`). -/
def arange (start stop step : K) : List K :=
  (List.range ⌈(stop - start) / step⌉.toNat).map fun (i : Nat) => start + (i : K) * step

/-- `build_wind_speed_resolution` (`/repo/hrosailing/polardiagram/_polardiagramtable.py:676-679`, `:717-770`). -/
def buildWs : Resolution K → Except PyErr (List K)
  | .standard => .ok (arange 2 42 2)
  | .values l => if l.isEmpty then .error .valueError else if l.any (· < 0) then .error .valueError else .ok l
  | .step x => if x ≤ 0 then .error .valueError else if 40 < x then .error .valueError else .ok (arange x 40 x)

/-- `build_wind_angle_resolution` (`/repo/hrosailing/polardiagram/_polardiagramtable.py:682-685`, `:717-770`). -/
def buildWa : Resolution K → Except PyErr (List K)
  | .standard => .ok (arange 0 360 5)
  | .values l => if l.isEmpty then .error .valueError else .ok (l.map fun x => pmod x 360)
  | .step x => if x ≤ 0 then .error .valueError else if 360 < x then .error .valueError else .ok (arange x 360 x)

/-- The transpose of a table with `n` columns (`bsps.T`, `/repo/hrosailing/polardiagram/_polardiagramtable.py:798`,
`:804`). -/
def transpose (n : Nat) (rows : List (List K)) : List (List K) :=
  (List.range n).map fun j => rows.map fun r => r.getD j 0

/-- `sorted(pairs, key=lambda x: x[0])` (`/repo/hrosailing/polardiagram/_polardiagramtable.py:793`, `:798`), a stable
sort. -/
def sortByKey {α : Type} (l : List (K × α)) : List (K × α) := l.insertionSort fun p q => p.1 ≤ q.1

/-- `_sort_table` (`/repo/hrosailing/polardiagram/_polardiagramtable.py:791-805`). -/
def sortTable (ws wa : List K) (bsps : List (List K)) : Table K :=
  let rows := sortByKey (wa.zip bsps)
  let cols := sortByKey (ws.zip (transpose ws.length (rows.map (·.2))))
  ⟨cols.map (·.1), rows.map (·.1), transpose wa.length (cols.map (·.2))⟩

/-- `_incompatible_shapes` (`/repo/hrosailing/polardiagram/_polardiagramtable.py:786-788`) for a list of rows; ragged
lists are rejected earlier with the same exception (line 155). -/
def goodShape (bsps : List (List K)) (ws wa : List K) : Bool :=
  bsps.length = wa.length && bsps.all fun r => r.length = ws.length

/-- `__init__` (`/repo/hrosailing/polardiagram/_polardiagramtable.py:143-173`). If a step size leads to an empty
resolution then unpacking in `_sort_table` raises `ValueError`. -/
def init (wsRes waRes : Resolution K) (bsps : Option (List (List K))) : Except PyErr (Table K) := do
  let ws ← buildWs wsRes
  let wa ← buildWa waRes
  match bsps with
  | none => .ok ⟨ws.insertionSort (· ≤ ·), wa.insertionSort (· ≤ ·),
      List.replicate wa.length (List.replicate ws.length 0)⟩
  | some bsps =>
    if ¬ goodShape bsps ws wa then .error .valueError
    else if ws.isEmpty ∨ wa.isEmpty then .error .valueError
    else .ok (sortTable ws wa bsps)

/-- `_get_indices` after normalisation (`/repo/hrosailing/polardiagram/_polardiagramtable.py:323-330`). -/
def indices (res sel : List K) : Except PyErr (List Nat) :=
  if sel.isEmpty then .error .valueError
  else if ¬ sel.all (fun w => decide (w ∈ res)) then .error .valueError
  else .ok ((List.range res.length).filter fun i => decide (res.getD i 0 ∈ sel))

/-- `_get_indices` for wind speeds (`/repo/hrosailing/polardiagram/_polardiagramtable.py:311-330`, `:773-783`); `none`
stands for `None`. -/
def wsIndices (t : Table K) : Option (List K) → Except PyErr (List Nat)
  | none => .ok (List.range t.ws.length)
  | some sel => if sel.any (· < 0) then .error .valueError else indices t.ws sel

/-- `_get_indices` for wind angles (`/repo/hrosailing/polardiagram/_polardiagramtable.py:311-330`, `:773-783`). -/
def waIndices (t : Table K) : Option (List K) → Except PyErr (List Nat)
  | none => .ok (List.range t.wa.length)
  | some sel => indices t.wa (sel.map fun x => pmod x 360)

/-- `__getitem__` for numbers (`/repo/hrosailing/polardiagram/_polardiagramtable.py:303-309`). If the wind occurs
several times then the fancy indexing gives more than one number (`float` raises `TypeError`) or the index lists do not
fit (`IndexError`). -/
def get (t : Table K) (ws wa : K) : Except PyErr K := do
  let col ← wsIndices t (some [ws])
  let row ← waIndices t (some [wa])
  match row, col with
  | [i], [j] => .ok ((t.bsps.getD i []).getD j 0)
  | _, _ => if row.length = col.length ∨ row.length = 1 ∨ col.length = 1 then .error .typeError else .error .indexError

/-- The points of the table, row by row (`/repo/hrosailing/polardiagram/_polardiagramtable.py:288-291`, `:358-361`). -/
def points (t : Table K) : List ((K × K) × K) :=
  (t.wa.zip t.bsps).flatMap fun p => (t.ws.zip p.2).map fun q => ((q.1, p.1), q.2)

/-- `__call__` for numbers (`/repo/hrosailing/polardiagram/_polardiagramtable.py:247-301`); `interpolate` is applied to
the points of the table in the neighbourhood `nbh` of the wind. -/
def call (interpolate : List ((K × K) × K) → K × K → Except PyErr K) (nbh : K × K → Bool) (t : Table K)
    (ws wa : K) : Except PyErr K :=
  match get t ws wa with
  | .ok x => .ok x
  | .error .typeError | .error .valueError =>
    interpolate (t.points.filter fun p => nbh (p.1.1 - ws, p.1.2 - wa)) (ws, wa)
  | .error e => .error e

/-- `symmetrize` (`/repo/hrosailing/polardiagram/_polardiagramtable.py:493-565`, `:808-817`). -/
def symmetrize (t : Table K) : Except PyErr (Table K) :=
  let wa := t.wa ++ t.wa.reverse.map (360 - ·)
  let bsps := t.bsps ++ t.bsps.reverse
  let mid := wa.idxOf 180
  let p := if 180 ∈ t.wa then (wa.eraseIdx mid, bsps.eraseIdx mid) else (wa, bsps)
  let p := if 0 ∈ t.wa then (p.1.dropLast, p.2.dropLast) else p
  init (.values t.ws) (.values p.1) (some p.2)

/-- The argument `new_bsps` of `change_entries` as an array of dimension one or two
(`/repo/hrosailing/polardiagram/_polardiagramtable.py:630-635`); numbers become arrays of length one. -/
inductive NewBsps (K : Type)
  | d1 (l : List K)
  | d2 (rows : List (List K))

/-- `new_bsps.flat` (`/repo/hrosailing/polardiagram/_polardiagramtable.py:661`). -/
def NewBsps.flat {K : Type} : NewBsps K → List K
  | .d1 l => l
  | .d2 rows => rows.flatten

/-- `new_bsps.shape == (n,)` (`/repo/hrosailing/polardiagram/_polardiagramtable.py:645-649`). -/
def NewBsps.isShape1 {K : Type} (n : Nat) : NewBsps K → Bool
  | .d1 l => l.length = n
  | .d2 _ => false

/-- `new_bsps.shape == (n, m)` (`/repo/hrosailing/polardiagram/_polardiagramtable.py:651`). -/
def NewBsps.isShape2 {K : Type} (n m : Nat) : NewBsps K → Bool
  | .d1 _ => false
  | .d2 rows => rows.length = n && rows.all fun r => r.length = m

/-- Assignment of the next values to the selected entries of a row, returning the remaining values
(`/repo/hrosailing/polardiagram/_polardiagramtable.py:656-661`). -/
def assignRow (cols : List Nat) : Nat → List K → List K → List K × List K
  | _, [], vals => ([], vals)
  | j, x :: row, vals =>
    if j ∈ cols then
      let r := assignRow cols (j + 1) row vals.tail
      (vals.headD x :: r.1, r.2)
    else
      let r := assignRow cols (j + 1) row vals
      (x :: r.1, r.2)

/-- `self._boat_speeds[mask] = new_bsps.flat` (`/repo/hrosailing/polardiagram/_polardiagramtable.py:656-661`). -/
def assign (rows cols : List Nat) : Nat → List (List K) → List K → List (List K)
  | _, [], _ => []
  | i, row :: bsps, vals =>
    if i ∈ rows then
      let r := assignRow cols 0 row vals
      r.1 :: assign rows cols (i + 1) bsps r.2
    else row :: assign rows cols (i + 1) bsps vals

/-- The conditions on the shape (`/repo/hrosailing/polardiagram/_polardiagramtable.py:640-651`). -/
def correctShape (new : NewBsps K) (nws nwa : Nat) : Bool :=
  if nwa = 1 ∧ nws = 1 then new.isShape1 1
  else if nwa = 1 then new.isShape1 nws
  else if nws = 1 then new.isShape1 nwa
  else new.isShape2 nwa nws

/-- `change_entries` (`/repo/hrosailing/polardiagram/_polardiagramtable.py:567-661`). -/
def changeEntries (t : Table K) (new : NewBsps K) (ws wa : Option (List K)) : Res (Table K) :=
  match wsIndices t ws with
  | .error e => (t, some e)
  | .ok cols =>
    match waIndices t wa with
    | .error e => (t, some e)
    | .ok rows =>
      if ¬ correctShape new cols.length rows.length then (t, some .valueError)
      else ({ t with bsps := assign rows cols 0 t.bsps new.flat }, none)

end Table
end Verif
