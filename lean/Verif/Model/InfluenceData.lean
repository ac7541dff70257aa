import Verif.Model.Py
import Verif.Model.Dict
import Verif.Model.Convex

/-!
# The data influence models work with

Model of `_get_true_wind_data` (`/repo/hrosailing/models/influencemodel.py:230-245`), `data_dict_to_numpy`
(`/repo/hrosailing/core/computing.py:169-187`) and of the way `cruise` prepares and uses influence data
(`/repo/hrosailing/cruising/basics.py:233-265`).
-/

namespace Verif.InflData

variable {K : Type}

/-- A value of the data (`/repo/hrosailing/models/influencemodel.py:233-236`): a list, a one-dimensional array or a single
number. Simplification: no entries are missing. -/
inductive Col (K : Type)
  | list (l : List K)
  | array (l : List K)
  | single (x : K)
  deriving DecidableEq, Repr

/-- The entries as a column of `np.column_stack` (`/repo/hrosailing/core/computing.py:187`); a number is a column with one
entry. -/
def Col.entries : Col K → List K
  | .list l => l
  | .array l => l
  | .single x => [x]

/-- An array with two dimensions, given by its rows, or with one dimension (`/repo/hrosailing/models/influencemodel.py:234`,
`:236`). -/
inductive Out (K : Type)
  | rows (r : List (List K))
  | flat (l : List K)
  deriving DecidableEq, Repr

/-- The rows of three columns (`/repo/hrosailing/core/computing.py:187`). -/
def rows3 : List K → List K → List K → List (List K)
  | a :: as, b :: bs, c :: cs => [a, b, c] :: rows3 as bs cs
  | _, _, _ => []

/-- `data_dict_to_numpy` for three keys (`/repo/hrosailing/core/computing.py:169-187`). -/
def toNumpy (d : Dict String (Col K)) (k1 k2 k3 : String) : Except PyErr (List (List K)) :=
  match d.get? k1, d.get? k2, d.get? k3 with
  | some a, some b, some c =>
    if a.entries.length = b.entries.length ∧ b.entries.length = c.entries.length then
      .ok (rows3 a.entries b.entries c.entries)
    else .error .valueError
  | _, _, _ => .error .keyError

/-- `np.array([data["TWS"], data["TWA"], data[speed]])` (`/repo/hrosailing/models/influencemodel.py:236`): the three values
are the rows. -/
def stack (a b c : Col K) : Except PyErr (Out K) :=
  match a, b, c with
  | .single x, .single y, .single z => .ok (.flat [x, y, z])
  | .single _, _, _ => .error .valueError
  | _, .single _, _ => .error .valueError
  | _, _, .single _ => .error .valueError
  | a, b, c =>
    if a.entries.length = b.entries.length ∧ b.entries.length = c.entries.length then
      .ok (.rows [a.entries, b.entries, c.entries])
    else .error .valueError

/-- `_get_true_wind_data` (`/repo/hrosailing/models/influencemodel.py:230-245`); `toTrue` is
`convert_apparent_wind_to_true`. -/
def trueWindData (toTrue : List (List K) → Except PyErr (List (List K))) (d : Dict String (Col K)) : Except PyErr (Out K) :=
  let speed := if "BSP" ∈ Dict.keys d then "BSP" else "SOG"
  if "TWA" ∈ Dict.keys d ∧ "TWS" ∈ Dict.keys d then
    match d.get? "TWS" with
    | some (.list _) => (toNumpy d "TWS" "TWA" speed).map .rows
    | _ =>
      match d.get? "TWS", d.get? "TWA", d.get? speed with
      | some a, some b, some c => stack a b c
      | _, _, _ => .error .keyError
  else if "AWA" ∈ Dict.keys d ∧ "AWS" ∈ Dict.keys d then
    match toNumpy d "AWS" "AWA" speed with
    | .error e => .error e
    | .ok r => (toTrue r).map .rows
  else .error .valueError

/-! ### `cruise` -/

/-- The values of `influence_data` in `cruise` (`/repo/hrosailing/cruising/basics.py:238-241`): numbers, arrays, and lists
of these. -/
inductive Val (K : Type)
  | num (x : K)
  | array (l : List K)
  | list (l : List (Val K))

/-- The loop and the assignments of `cruise` (`/repo/hrosailing/cruising/basics.py:238-242`): the dictionary of the caller
after the call, which is what `add_influence` gets. `ws` and `wa` are the rows of the slice (line 236). Without a dictionary
`None.items()` raises an `AttributeError`. -/
def prepare (ws wa : List K) : Option (Dict String (Val K)) → Except PyErr (Dict String (Val K))
  | none => .error .attributeError
  | some d => .ok (((Dict.mapVals (fun v => Val.list (List.replicate wa.length v)) d).set "TWS"
      (.list (List.replicate wa.length (.array ws)))).set "TWA" (.array wa))

/-- `PolarDiagramCurve.__call__` for an array of wind speeds and one wind angle
(`/repo/hrosailing/polardiagram/_polardiagramcurve.py:130-145`); the model function acts on each entry. Simplification: `f`
includes the reduction of the angle to a full circle, and wind speeds are not negative. -/
def curveCall (f : K → K → K) (ws : List K) (wa : K) : List K := ws.map fun w => f w wa

/-- `IdentityInfluenceModel.add_influence` (`/repo/hrosailing/models/influencemodel.py:124-130`) for a curve and the data
prepared by `cruise`. -/
def addIdentity (f : K → K → K) (d : Dict String (Val K)) : Except PyErr (List (List K)) :=
  match d.get? "TWS", d.get? "TWA" with
  | some (.list tws), some (.array twa) =>
    (tws.zip twa).mapM fun p =>
      match p.1 with
      | .array ws => .ok (curveCall f ws p.2)
      | .num w => .ok [f w p.2]
      | .list _ => .error .typeError
  | _, _ => .error .typeError

/-- `bsp[np.where(wa == angle)[0]]` (`/repo/hrosailing/cruising/basics.py:255`, `:260`) where `bsp` was flattened
(line 243): all entries at the positions of the angle. -/
def speedsAt [DecidableEq K] (wa bsp : List K) (angle : K) : List K :=
  ((List.range wa.length).filter fun i => decide (wa[i]? = some angle)).filterMap fun i => bsp[i]?

/-- `cruise` with the boat speeds `bspI` of the influence model (`/repo/hrosailing/cruising/basics.py:250-265`): the directions
are those of `convex_direction(pd, ws, heading)`, which gets neither the influence model nor its boat speeds. -/
noncomputable def cruiseInfluence {n : Nat} {σ : Type} [DecidableEq σ] (vert : List (Fin n)) (wa bsp bspI : Fin n → ℝ)
    (sails : Option (Fin n → σ)) (heading dist : ℝ) : Except PyErr (List (ℝ × Option ℝ)) :=
  match Convex.convexDirection vert wa bsp sails heading with
  | .error e => .error e
  | .ok dirs => Convex.cruiseTimes wa bspI dist dirs

end Verif.InflData
