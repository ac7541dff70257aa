import Mathlib.Algebra.Order.Field.Basic
import Verif.Model.Py

/-!
# Representations of components and diagrams

Model of the methods `__repr__` and of the evaluation of what they print as a python expression, with the constructors of the
components. A representation is a call: a class with positional and keyword arguments. Python numbers are printed and read back
unchanged (C151); arrays of at least two numbers are printed by numpy without commas and functions as `<function f at 0x...>`, both
are no python expressions (`Arg.junk`). Functions are printed with their `__name__`.
-/

namespace Verif.Repr

/-- A python number: `int` or `float` (`/repo/hrosailing/processing/interpolator.py:91-92`). -/
inductive Num (K : Type)
  | int (n : Int)
  | flt (x : K)
  deriving DecidableEq, Repr

variable {K F : Type}

/-- The value of a number (`/repo/hrosailing/processing/interpolator.py:88`). -/
def Num.val [IntCast K] : Num K → K
  | .int n => n
  | .flt x => x

/-- The classes (`/repo/hrosailing/processing/interpolator.py:53,142,322,499`, `/repo/hrosailing/processing/weigher.py:216,342`,
`/repo/hrosailing/processing/neighbourhood.py:43,105,180,273,337`, `/repo/hrosailing/processing/filter.py:59,106`,
`/repo/hrosailing/polardiagram/_polardiagramcurve.py:16`, `/repo/hrosailing/polardiagram/_polardiagrampointcloud.py:16`,
`/repo/hrosailing/polardiagram/_polardiagramtable.py:18`). -/
inductive Cls
  | idw | mean | shepard | bilinear | meanWeigher | memberWeigher | ball | scalingBall | ellipsoid | cuboid | polytope | quantile
  | bound | curve | cloud | table
  deriving DecidableEq, Repr

/-- The objects, with the attributes set by their constructors (`/repo/hrosailing/processing/interpolator.py:94-95,206-214,371-374`,
`/repo/hrosailing/processing/weigher.py:260-263,392-399`,
`/repo/hrosailing/processing/neighbourhood.py:74-75,138-143,232-234,299-300,379-380`,
`/repo/hrosailing/processing/filter.py:81,133-134`, `/repo/hrosailing/polardiagram/_polardiagramcurve.py:124-128`,
`/repo/hrosailing/polardiagram/_polardiagrampointcloud.py:141`, `/repo/hrosailing/polardiagram/_polardiagramtable.py:163-167`).
The attribute of an ellipsoid is the inverse of the matrix given. -/
inductive Comp (K F : Type)
  | idw (p : Int) (norm : F)
  | mean (s : Num K) (norm distr : F) (params : List (Num K))
  | shepard (tol slope : Num K) (norm : F)
  | bilinear
  | meanWeigher (radius : Num K) (norm : Option F) (dims : Option (List String))
  | memberWeigher (radius length : Num K) (norm : F) (dims : Option (List String))
  | ball (radius : Num K) (norm : F)
  | scalingBall (minPts : Num K) (norm : F)
  | ellipsoid (T : (K × K) × (K × K)) (norm : F) (radius : Num K)
  | cuboid (norm : F) (size : List (Num K))
  | polytope (mat : List (K × K)) (b : List K)
  | quantile (percent : Num K)
  | bound (lower upper : Num K)
  | curve (f : F) (params : List (Num K)) (radians : Bool)
  | cloud (points : List (K × K × K))
  | table (ws wa : List K) (bsps : List (List K))
  deriving DecidableEq, Repr

/-- A printed argument (`/repo/hrosailing/processing/neighbourhood.py:303`). -/
inductive Arg (K : Type)
  | num (x : Num K)
  | name (s : String)
  | tuple (l : List (Num K))
  | bool (b : Bool)
  | emptyList
  | list (x : K)
  | list2 (x : K)
  | junk
  deriving DecidableEq, Repr

/-- A call with positional (`none`) and keyword arguments (`/repo/hrosailing/processing/neighbourhood.py:78`). -/
structure Call (K : Type) where
  cls : Cls
  args : List (Option String × Arg K)
  deriving DecidableEq, Repr

/-- An array of numbers as printed by numpy (`/repo/hrosailing/polardiagram/_polardiagramtable.py:243`): without commas, so only arrays
with at most one number are expressions. -/
def vecArg : List K → Arg K
  | [] => .emptyList
  | [x] => .list x
  | _ => .junk

/-- An array with two axes as printed by numpy (`/repo/hrosailing/polardiagram/_polardiagramtable.py:244`). -/
def matArg : List (List K) → Arg K
  | [] => .emptyList
  | [[x]] => .list2 x
  | _ => .junk

/-- The methods `__repr__` (`/repo/hrosailing/processing/interpolator.py:97-98,216-221,376-380,502-503`,
`/repo/hrosailing/processing/weigher.py:265-269,401-405`,
`/repo/hrosailing/processing/neighbourhood.py:77-78,145-148,236-240,302-303,382-383`,
`/repo/hrosailing/processing/filter.py:83-84,136-137`, `/repo/hrosailing/polardiagram/_polardiagramcurve.py:124-128`,
`/repo/hrosailing/polardiagram/_polardiagrampointcloud.py:158-159`, `/repo/hrosailing/polardiagram/_polardiagramtable.py:241-245`).
`None` has no `__name__`. A curve without parameters is printed with two commas in a row. -/
def repr (nameOf : F → String) : Comp K F → Except PyErr (Call K)
  | .idw p norm => .ok ⟨.idw, [(some "p", .num (.int p)), (some "norm", .name (nameOf norm))]⟩
  | .mean s norm _ params =>
    .ok ⟨.mean, [(some "s", .num s), (some "norm", .name (nameOf norm)), (some "distribution", .junk),
      (some "params", .tuple params)]⟩
  | .shepard tol slope norm =>
    .ok ⟨.shepard, [(some "tol", .num tol), (some "slope_scal", .num slope), (some "norm", .name (nameOf norm))]⟩
  | .bilinear => .ok ⟨.bilinear, []⟩
  | .meanWeigher _ none _ => .error .attributeError
  | .meanWeigher radius (some norm) _ =>
    .ok ⟨.meanWeigher, [(some "radius", .num radius), (some "norm", .name (nameOf norm))]⟩
  | .memberWeigher radius length norm _ =>
    .ok ⟨.memberWeigher, [(some "radius", .num radius), (some "length", .num length), (some "norm", .name (nameOf norm))]⟩
  | .ball radius norm => .ok ⟨.ball, [(some "norm", .name (nameOf norm)), (some "radius", .num radius)]⟩
  | .scalingBall minPts norm => .ok ⟨.scalingBall, [(some "min_pts", .num minPts), (some "norm", .name (nameOf norm))]⟩
  | .ellipsoid T norm radius =>
    .ok ⟨.ellipsoid, [(some "lin_trans", matArg [[T.1.1, T.1.2], [T.2.1, T.2.2]]), (some "norm", .name (nameOf norm)),
      (some "radius", .num radius)]⟩
  | .cuboid norm size => .ok ⟨.cuboid, [(some "norm", .name (nameOf norm)), (some "attributes", .tuple size)]⟩
  | .polytope mat b => .ok ⟨.polytope, [(some "mat", matArg (mat.map fun r => [r.1, r.2])), (some "b", vecArg b)]⟩
  | .quantile percent => .ok ⟨.quantile, [(some "percent", .num percent)]⟩
  | .bound lower upper => .ok ⟨.bound, [(some "upper_bound", .num upper), (some "lower_bound", .num lower)]⟩
  | .curve f params radians =>
    .ok ⟨.curve, (some "f", .name (nameOf f)) ::
      ((if params = [] then [(none, .junk)] else params.map fun x => (none, .num x)) ++ [(some "radians", .bool radians)])⟩
  | .cloud points => .ok ⟨.cloud, [(some "pts", matArg (points.map fun q => [q.1, q.2.1, q.2.2]))]⟩
  | .table ws wa bsps => .ok ⟨.table, [(none, vecArg ws), (none, vecArg wa), (none, matArg bsps)]⟩

/-- What evaluating a call may raise (`/repo/hrosailing/processing/neighbourhood.py:72`). -/
inductive EvalErr
  | syntax | name | type | value
  deriving DecidableEq, Repr

/-- An evaluated argument (`/repo/hrosailing/processing/neighbourhood.py:68-75`). -/
inductive Val (K F : Type)
  | num (x : Num K)
  | fn (f : F)
  | tuple (l : List (Num K))
  | bool (b : Bool)
  | list (l : List K)
  | list2 (l : List (List K))
  deriving DecidableEq, Repr

/-- Evaluation of an argument (`/repo/hrosailing/processing/neighbourhood.py:78`); `env` are the names that are known. -/
def evalArg (env : String → Option F) : Arg K → Except EvalErr (Val K F)
  | .num x => .ok (.num x)
  | .name s =>
    match env s with
    | some f => .ok (.fn f)
    | none => .error .name
  | .tuple l => .ok (.tuple l)
  | .bool b => .ok (.bool b)
  | .emptyList => .ok (.list [])
  | .list x => .ok (.list [x])
  | .list2 x => .ok (.list2 [[x]])
  | .junk => .error .syntax

/-- Evaluation of all arguments from left to right (`/repo/hrosailing/processing/neighbourhood.py:78`). -/
def evalArgs (env : String → Option F) : List (Option String × Arg K) → Except EvalErr (List (Option String × Val K F))
  | [] => .ok []
  | (k, a) :: l =>
    match evalArg env a with
    | .error e => .error e
    | .ok v =>
      match evalArgs env l with
      | .error e => .error e
      | .ok vs => .ok ((k, v) :: vs)

/-- Positional arguments follow keyword arguments (`/repo/hrosailing/polardiagram/_polardiagramcurve.py:126-127`). -/
def misplaced : List (Option String × Arg K) → Bool
  | [] => false
  | (some _, _) :: l => l.any (fun a => a.1.isNone) || misplaced l
  | (none, _) :: l => misplaced l

/-- The parameters of the constructors, and whether they have no default
(`/repo/hrosailing/processing/interpolator.py:86,195-201,356-362`, `/repo/hrosailing/processing/weigher.py:252,384`,
`/repo/hrosailing/processing/neighbourhood.py:66-70,130-134,212-217,294-298,366-368`, `/repo/hrosailing/processing/filter.py:76,128`,
`/repo/hrosailing/polardiagram/_polardiagrampointcloud.py:133`, `/repo/hrosailing/polardiagram/_polardiagramtable.py:143`). Curves are
not listed, their representations are never expressions. -/
def signature : Cls → List (String × Bool)
  | .idw => [("p", false), ("norm", false)]
  | .mean => [("s", false), ("norm", false), ("distribution", false), ("params", false)]
  | .shepard => [("neighbourhood", true), ("tol", false), ("slope", false), ("norm", false)]
  | .bilinear => []
  | .meanWeigher => [("radius", false), ("norm", false), ("dimensions", false)]
  | .memberWeigher => [("radius", false), ("length", false), ("norm", false), ("dimensions", false)]
  | .ball => [("radius", false), ("norm", false)]
  | .scalingBall => [("min_pts", true), ("norm", false)]
  | .ellipsoid => [("lin_trans", false), ("norm", false), ("radius", false)]
  | .cuboid => [("norm", false), ("dimensions", false)]
  | .polytope => [("mat", false), ("b", false)]
  | .quantile => [("percent", false)]
  | .bound => [("lower_bound", false), ("upper_bound", false)]
  | .curve => []
  | .cloud => [("points", true), ("apparent_wind", false)]
  | .table => [("ws_resolution", false), ("wa_resolution", false), ("bsps", false)]

/-- Binding the arguments to the parameters (`/repo/hrosailing/processing/neighbourhood.py:66-70`): positional ones in their order,
`TypeError` for too many arguments, unknown names, names bound twice and missing arguments. -/
def bindArgs {V : Type} (sig : List (String × Bool)) (args : List (Option String × V)) : Except EvalErr (List (String × V)) :=
  let pos := args.filterMap fun a => if a.1.isNone then some a.2 else none
  let kws := args.filterMap fun a => a.1.map fun k => (k, a.2)
  let bound := ((sig.map Prod.fst).zip pos) ++ kws
  if sig.length < pos.length ∨ (∃ k ∈ kws, k.1 ∉ sig.map Prod.fst) ∨ ¬ (bound.map Prod.fst).Nodup ∨
      (∃ p ∈ sig, p.2 = true ∧ p.1 ∉ bound.map Prod.fst) then .error .type
  else .ok bound

/-- The functions used as defaults (`/repo/hrosailing/processing/interpolator.py:86`, `/repo/hrosailing/processing/weigher.py:396`). -/
structure Lib (F : Type) where
  scaledEuclidean : F
  standard : F

/-- A numeric argument (`/repo/hrosailing/processing/neighbourhood.py:72`). -/
def numArg {V : Type} (get : V → Option (Num K)) (b : List (String × V)) (key : String) (default : Num K) : Except EvalErr (Num K) :=
  match b.lookup key with
  | none => .ok default
  | some v =>
    match get v with
    | some x => .ok x
    | none => .error .type

/-- The number of a value (`/repo/hrosailing/processing/neighbourhood.py:72`). -/
def Val.num? : Val K F → Option (Num K)
  | .num x => some x
  | _ => none

/-- The function given, or the default (`/repo/hrosailing/processing/neighbourhood.py:74`). -/
def fnArg (b : List (String × Val K F)) (key : String) (default : F) : F :=
  match b.lookup key with
  | some (.fn f) => f
  | _ => default

variable [Field K] [LinearOrder K]

/-- The constructors (`/repo/hrosailing/processing/interpolator.py:86-95`, `/repo/hrosailing/processing/weigher.py:252-263,384-399`,
`/repo/hrosailing/processing/neighbourhood.py:66-75,130-143`, `/repo/hrosailing/processing/filter.py:76-81,128-134`). A polytope
without half spaces has a matrix of the wrong shape. The others are not reached from representations that are valid calls, except
for tables of a single wind, which are not considered. -/
def construct (lib : Lib F) (cls : Cls) (b : List (String × Val K F)) : Except EvalErr (Comp K F) :=
  match cls with
  | .idw =>
    match b.lookup "p" with
    | none => .ok (.idw 2 (fnArg b "norm" lib.scaledEuclidean))
    | some (.num (.int p)) => if p < 0 then .error .value else .ok (.idw p (fnArg b "norm" lib.scaledEuclidean))
    | some (.num (.flt p)) => if p < 0 then .error .value else .error .type
    | _ => .error .type
  | .bilinear => .ok .bilinear
  | .meanWeigher =>
    match numArg Val.num? b "radius" (.flt (5 / 100)) with
    | .error e => .error e
    | .ok radius =>
      if radius.val ≤ 0 then .error .value
      else .ok (.meanWeigher radius (match b.lookup "norm" with | some (.fn f) => some f | _ => none) none)
  | .memberWeigher =>
    match numArg Val.num? b "radius" (.flt (5 / 100)), numArg Val.num? b "length" (.flt (5 / 100)) with
    | .ok radius, .ok length =>
      if radius.val ≤ 0 then .error .value
      else if length.val < 0 then .error .value
      else .ok (.memberWeigher radius length (fnArg b "norm" lib.standard) none)
    | _, _ => .error .type
  | .ball =>
    match numArg Val.num? b "radius" (.flt (5 / 100)) with
    | .error e => .error e
    | .ok radius => if radius.val ≤ 0 then .error .value else .ok (.ball radius (fnArg b "norm" lib.scaledEuclidean))
  | .scalingBall =>
    match numArg Val.num? b "min_pts" (.int 1) with
    | .error e => .error e
    | .ok minPts => if minPts.val ≤ 0 then .error .value else .ok (.scalingBall minPts (fnArg b "norm" lib.scaledEuclidean))
  | .quantile =>
    match numArg Val.num? b "percent" (.int 50) with
    | .error e => .error e
    | .ok percent => if percent.val < 0 ∨ 100 < percent.val then .error .value else .ok (.quantile percent)
  | .bound =>
    match numArg Val.num? b "lower_bound" (.flt (1 / 2)), numArg Val.num? b "upper_bound" (.int 1) with
    | .ok lower, .ok upper => if upper.val < lower.val then .error .value else .ok (.bound lower upper)
    | _, _ => .error .type
  | .polytope => .error .value
  | _ => .error .type

/-- The matrix kept by an ellipsoid: `np.linalg.inv` of the given one (`/repo/hrosailing/processing/neighbourhood.py:226-232`);
`ValueError` for singular matrices and radii that are not positive. -/
def mkEllipsoid (A : (K × K) × (K × K)) (norm : F) (radius : Num K) : Except PyErr (Comp K F) :=
  let det := A.1.1 * A.2.2 - A.1.2 * A.2.1
  if det = 0 then .error .valueError
  else if radius.val ≤ 0 then .error .valueError
  else .ok (.ellipsoid ((A.2.2 / det, -A.1.2 / det), (-A.2.1 / det, A.1.1 / det)) norm radius)

/-- `eval` of a representation (`/repo/hrosailing/processing/neighbourhood.py:78`). -/
def eval (lib : Lib F) (env : String → Option F) (c : Call K) : Except EvalErr (Comp K F) :=
  if misplaced c.args = true ∨ ∃ a ∈ c.args, a.2 = .junk then .error .syntax
  else
    match evalArgs env c.args with
    | .error e => .error e
    | .ok vs =>
      match bindArgs (signature c.cls) vs with
      | .error e => .error e
      | .ok b => construct lib c.cls b

end Verif.Repr
