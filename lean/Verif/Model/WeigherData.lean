import Mathlib.Algebra.Order.Floor.Ring
import Mathlib.Data.Rat.Floor
import Mathlib.Algebra.Order.Archimedean.Basic
import Verif.Model.Weigher
import Verif.Model.Round

/-!
# Statistics of weighers, `CylindricMemberWeigher` for `Data`, `FluctuationWeigher`

Model of `/repo/hrosailing/processing/weigher.py:117-162`, `:384-451`, `:454-546`, `:899-924`. Numbers are exact.
-/

namespace Verif.Weigher

/-! ### Statistics -/

section statistics
variable {K : Type} [Field K] [LinearOrder K] [FloorRing K]

/-- `round(x, 2)` (`/repo/hrosailing/processing/weigher.py:138-153`): the nearest number with two decimal places, ties
to the even one. -/
def round2 (x : K) : K := (pyRound (100 * x) : K) / 100

/-- One entry of `get_quantiles` (`/repo/hrosailing/processing/weigher.py:138-153`). -/
def quantile (weights : List K) (minw span : K) (i : Nat) : K :=
  round2 (100 * ((weights.filter fun w =>
    decide (w ≤ minw + span * ((i : K) + 1) / 10) && decide (minw + span * (i : K) / 10 ≤ w)).length : K)
      / (weights.length : K))

/-- The statistics of a weigher (`/repo/hrosailing/processing/weigher.py:117-162`); `none` is python's `None`, resp. `nan` for the average of no weights. -/
structure WeightStats (K : Type) where
  average : Option K
  minimal : Option K
  maximal : Option K
  quantiles : Option (List K)
  deriving DecidableEq

/-- `Weigher.set_statistics` (`/repo/hrosailing/processing/weigher.py:131-162`): for no weights, `np.min` and `np.max`
raise `ValueError`, the difference of `None` raises `TypeError` and the division by `len(weights)` raises
`ZeroDivisionError`; `safe_operation` turns them into `None` (`/repo/hrosailing/core/computing.py:190-207`). -/
def weightStats : List K → WeightStats K
  | [] => ⟨none, none, none, none⟩
  | w :: ws =>
    let minw := ws.foldl min w
    let maxw := ws.foldl max w
    ⟨some ((w :: ws).sum / ((w :: ws).length : K)), some minw, some maxw,
      some ((List.range 10).map (quantile (w :: ws) minw (maxw - minw)))⟩

end statistics

/-! ### `CylindricMemberWeigher` for `Data` -/

section member
variable {K : Type} [Field K] [LinearOrder K]

/-- `NORM_SCALES[key] if key in NORM_SCALES else 1` (`/repo/hrosailing/processing/weigher.py:921-923`,
`/repo/hrosailing/core/constants.py:106-115`). -/
def normScale (key : String) : K :=
  if key = "TWS" ∨ key = "AWS" then 1 / 20
  else if key = "TWA" ∨ key = "AWA" then 1 / 360
  else if key = "BSP" ∨ key = "SOG" then 1 / 40
  else if key = "lat" ∨ key = "lon" then 1 / 360
  else 1

/-- The norm of a `CylindricMemberWeigher` (`/repo/hrosailing/processing/weigher.py:395-398`): one given by the user, or
the scaled euclidean norm. -/
inductive MemberNorm (K : Type)
  | user (f : List K → K)
  | scaled (scales : List K)

/-- `hrosailing_standard_scaled_euclidean_norm(dimensions)` (`/repo/hrosailing/processing/weigher.py:919-924`). -/
def standardNorm (dims : Option (List String)) : MemberNorm K :=
  .scaled ((dims.getD ["TWS", "TWA"]).map normScale)

/-- `scaled * vec` for one row of `vec` (`/repo/hrosailing/core/computing.py:121-122`): the arrays are broadcast, arrays
of different lengths raise `ValueError` unless one of the lengths is 1. -/
def broadcastMul (scales row : List K) : Except PyErr (List K) :=
  if scales.length = row.length then .ok (List.zipWith (· * ·) scales row)
  else
    match scales, row with
    | [s], row => .ok (row.map (s * ·))
    | scales, [x] => .ok (scales.map (· * x))
    | _, _ => .error .valueError

/-- The norm of one row; `euclid` is the euclidean norm (`/repo/hrosailing/core/computing.py:122`, `:140`). -/
def applyNorm (euclid : List K → K) : MemberNorm K → List K → Except PyErr K
  | .user f, row => .ok (f row)
  | .scaled scales, row =>
    match broadcastMul scales row with
    | .ok r => .ok (euclid r)
    | .error e => .error e

/-- The attributes `_norm` and `_dimensions` (`/repo/hrosailing/processing/weigher.py:392-399`). -/
structure MemberState (K : Type) where
  norm : MemberNorm K
  dims : Option (List String)

/-- `__init__` (`/repo/hrosailing/processing/weigher.py:384-399`) for valid radius and length. -/
def MemberState.init (norm : Option (List K → K)) (dims : Option (List String)) : MemberState K :=
  match norm with
  | some f => ⟨.user f, dims⟩
  | none => ⟨standardNorm dims, dims⟩

/-- A `Data` object, reduced to the columns of type float in the order of the data, which are complete, and the number
of rows (`numerical`, `/repo/hrosailing/core/data.py:48-58`). -/
structure FloatData (K : Type) where
  nRows : Nat
  cols : List (String × List K)

/-- The columns chosen by `_set_points_from_data(data, attributes, reduce=False)`
(`/repo/hrosailing/processing/weigher.py:549-580`): the order is the order of the data (`get_slice`,
`/repo/hrosailing/core/data.py:506-508`); an empty list of attributes is treated as an empty mask of rows. -/
def selectColumns (dims : Option (List String)) (D : FloatData K) : FloatData K :=
  match dims with
  | none => D
  | some [] => ⟨0, D.cols.map fun c => (c.1, [])⟩
  | some ds => ⟨D.nRows, D.cols.filter fun c => decide (c.1 ∈ ds)⟩

/-- `np.column_stack`: row `i` (`/repo/hrosailing/core/data.py:55`). -/
def rowOf (D : FloatData K) (i : Nat) : List K := D.cols.map fun c => c.2.getD i 0

/-- The rows of the array `numerical` (`/repo/hrosailing/core/data.py:53-58`); without columns there are no rows. -/
def pointRows (D : FloatData K) : List (List K) :=
  match D.cols with
  | [] => []
  | _ :: _ => (List.range D.nRows).map (rowOf D)

/-- The last entry, `point[-1]` (`/repo/hrosailing/processing/weigher.py:446`). -/
def lastOf (row : List K) : K := row.getLast?.getD 0

/-- `_count_points_in_cylinder` (`/repo/hrosailing/processing/weigher.py:445-451`). -/
def countMembers (euclid : List K → K) (norm : MemberNorm K) (radius length : K) (rows : List (List K))
    (p : List K) : Except PyErr Nat := do
  let inside ← rows.mapM fun q =>
    match applyNorm euclid norm (List.zipWith (· - ·) q.dropLast p.dropLast) with
    | .ok d => Except.ok (decide (|lastOf q - lastOf p| ≤ length) && decide (d ≤ radius))
    | .error e => .error e
  return (inside.filter id).length

/-- `CylindricMemberWeigher.weigh` for a `Data` object (`/repo/hrosailing/processing/weigher.py:425-451`): the state
afterwards and the weights. Without columns of type float the array of points has no rows
(`/repo/hrosailing/core/data.py:56-57`). -/
def memberWeighData (euclid : List K → K) (radius length : K) (s : MemberState K) (D : FloatData K) :
    MemberState K × Except PyErr (List K) :=
  if D.nRows = 0 then (s, .ok [])
  else
    let E := selectColumns s.dims D
    let s' : MemberState K := { s with dims := some (E.cols.map Prod.fst) }
    let rows := pointRows E
    (s', do
      let counts ← rows.mapM (countMembers euclid s.norm radius length rows)
      return normalize (counts.map fun (c : Nat) => (c : K) - 1))

end member

/-! ### `FluctuationWeigher` -/

/-- `np.std` (`/repo/hrosailing/processing/weigher.py:538`); `none` is the `nan` obtained for no values. -/
noncomputable def stdOf (l : List ℝ) : Option ℝ :=
  match meanOf l with
  | none => none
  | some m => some (Real.sqrt ((l.map fun x => (x - m) ^ 2).sum / l.length))

open Classical in
/-- `start_idx` and `end_idx` (`/repo/hrosailing/processing/weigher.py:525-534`); `min` and `max` of nothing raise
`ValueError`. -/
noncomputable def windowOf (before after : ℝ) (times : List ℝ) (dt : ℝ) : Except PyErr (Nat × Nat) :=
  let idxs := List.range times.length
  match (idxs.filter fun i => decide (times.getD i 0 ≤ dt ∧ dt - times.getD i 0 ≤ before)).head?,
    (idxs.filter fun i => decide (dt ≤ times.getD i 0 ∧ times.getD i 0 - dt ≤ after)).getLast? with
  | some a, some b => .ok (a, b)
  | _, _ => .error .valueError

/-- The body of the loop over the columns (`/repo/hrosailing/processing/weigher.py:537-542`); `none` is `nan`, obtained
for an empty window or for `0 / 0`. -/
noncomputable def fluctuationStep (a b : Nat) (w : Option ℝ) (c : List ℝ × ℝ) : Option ℝ :=
  match stdOf ((c.1.drop a).take (b + 1 - a)) with
  | none => none
  | some std =>
    if c.2 < std then some 0
    else if c.2 = 0 then none
    else w.map (· * ((c.2 - std) / c.2))

/-- The loop over the columns (`/repo/hrosailing/processing/weigher.py:536-542`). -/
noncomputable def fluctuationWeight (a b : Nat) (cols : List (List ℝ × ℝ)) : Option ℝ :=
  cols.foldl (fluctuationStep a b) (some 1)

/-- `upper_bounds` (`/repo/hrosailing/processing/weigher.py:519-521`): the bounds of the attributes that are columns of
type float, in the order of the attributes. -/
def boundsFor (attributes : List String) (bounds : List ℝ) (dims : List String) : Except PyErr (List ℝ) :=
  (attributes.zipIdx.filter fun p => decide (p.1 ∈ dims)).mapM fun p =>
    match bounds[p.2]? with
    | some b => .ok b
    | none => .error .indexError

/-- `FluctuationWeigher.weigh` (`/repo/hrosailing/processing/weigher.py:515-546`); there is a time for every row, and
there are at most as many bounds as columns (attributes are not named twice). -/
noncomputable def fluctuationWeigh (attributes : List String) (before after : ℝ) (bounds : List ℝ)
    (times : List ℝ) (D : FloatData ℝ) : Except PyErr (List (Option ℝ)) :=
  let E := selectColumns (some attributes) D
  match boundsFor attributes bounds (E.cols.map Prod.fst) with
  | .error e => .error e
  | .ok ubs =>
    if E.cols = [] then .ok []
    else
      (times.take E.nRows).mapM fun dt =>
        match windowOf before after times dt with
        | .error e => .error e
        | .ok (a, b) => .ok (fluctuationWeight a b (List.zip (E.cols.map Prod.snd) ubs))

end Verif.Weigher
