import Mathlib.Analysis.Real.Sqrt
import Mathlib.Analysis.SpecialFunctions.Exp
import Verif.Model.Data
import Verif.Model.Val

/-!
# `hrosailing.processing.weigher`

Model of `/repo/hrosailing/processing/weigher.py`. Numbers are exact: an arbitrary ordered field `K` where only
field operations and comparisons are used, the real numbers for square roots and the exponential function.
-/

namespace Verif.Weigher

/-! ### Cylindric weighers -/

section cylindric

/-- `np.max(weights)` of a non-empty array (`/repo/hrosailing/processing/weigher.py:302`, `:436`). -/
def maxOf {K : Type} [LinearOrder K] : K → List K → K
  | a, [] => a
  | a, b :: l => maxOf (max a b) l

/-- `_normalize(weights, np.max)` (`/repo/hrosailing/processing/weigher.py:333-339`). -/
def normalize {K : Type} [Field K] [LinearOrder K] (weights : List K) : List K :=
  match weights with
  | [] => []
  | a :: l => if maxOf a l = 0 then weights else weights.map (· / maxOf a l)

variable {P : Type} [Sub P]

/-- `_count_points_in_cylinder` (`/repo/hrosailing/processing/weigher.py:445-451`); a point is given by its first
components `P` and its last component. `norm` is the norm used on the first components. -/
def countInCylinder {K : Type} [Field K] [LinearOrder K] (norm : P → K) (radius length : K)
    (points : List (P × K)) (point : P × K) : Nat :=
  (points.filter fun q => decide (|q.2 - point.2| ≤ length) && decide (norm (q.1 - point.1) ≤ radius)).length

/-- `CylindricMemberWeigher.weigh` for an array (`/repo/hrosailing/processing/weigher.py:425-443`). -/
def memberWeigh {K : Type} [Field K] [LinearOrder K] (norm : P → K) (radius length : K)
    (points : List (P × K)) : List K :=
  normalize (points.map fun p => (countInCylinder norm radius length points p : K) - 1)

/-- `np.mean` (`/repo/hrosailing/processing/weigher.py:329-330`); `none` is the `nan` obtained for no values. -/
noncomputable def meanOf (l : List ℝ) : Option ℝ := if l = [] then none else some (l.sum / l.length)

/-- `np.std(points) or 1` (`/repo/hrosailing/processing/weigher.py:325-326`); `none` is `nan`. -/
noncomputable def stdOr1 (l : List ℝ) : Option ℝ :=
  match meanOf l with
  | none => none
  | some m =>
    let s := Real.sqrt ((l.map fun x => (x - m) ^ 2).sum / l.length)
    if s = 0 then some 1 else some s

open Classical in
/-- The boat speeds in the cylinder of infinite height around a point
(`/repo/hrosailing/processing/weigher.py:318-322`). -/
noncomputable def cylinderSpeeds (norm : P → ℝ) (radius : ℝ) (points : List (P × ℝ)) (p : P) : List ℝ :=
  (points.filter fun q => decide (norm (q.1 - p) ≤ radius)).map Prod.snd

/-- `CylindricMeanWeigher._calculate_weight` (`/repo/hrosailing/processing/weigher.py:308-316`); `none` is `nan`. -/
noncomputable def meanRaw (norm : P → ℝ) (radius : ℝ) (points : List (P × ℝ)) (point : P × ℝ) : Option ℝ :=
  match stdOr1 (cylinderSpeeds norm radius points point.1), meanOf (cylinderSpeeds norm radius points point.1) with
  | some s, some m => some (|m - point.2| / s)
  | _, _ => none

/-- `CylindricMeanWeigher.weigh` for an array (`/repo/hrosailing/processing/weigher.py:288-306`); `none` if one of
the weights is `nan`. -/
noncomputable def meanWeigh (norm : P → ℝ) (radius : ℝ) (points : List (P × ℝ)) : Option (List ℝ) :=
  match points.mapM (meanRaw norm radius points) with
  | none => none
  | some raw => some ((normalize raw).map (1 - ·))

end cylindric

/-! ### Weigher arithmetic -/

/-- What the method `weigh` returns (`/repo/hrosailing/processing/weigher.py:172-174`): an array, or (if an array of
two weights has been unpacked) a single number. -/
inductive Out
  | vec (l : List Rat)
  | scalar (q : Rat)
  deriving DecidableEq, Repr

/-- The behaviour of a weigher on points of type `P` (`/repo/hrosailing/processing/weigher.py:32`). -/
abbrev W (P : Type) := List P → Except PyErr Out

/-- `weights, _ = sub_weigher.weigh(points)` (`/repo/hrosailing/processing/weigher.py:172`, `:185-186`): the returned
array itself is unpacked. -/
def unpack : Except PyErr Out → Except PyErr Rat
  | .error e => .error e
  | .ok (.vec [a, _]) => .ok a
  | .ok (.vec _) => .error .valueError
  | .ok (.scalar _) => .error .typeError

/-- `_UnaryMapWeigher.weigh` (`/repo/hrosailing/processing/weigher.py:171-174`). -/
def unaryWeigh {P : Type} (sub : W P) (f : Rat → Rat) : W P := fun pts =>
  match unpack (sub pts) with
  | .error e => .error e
  | .ok a => .ok (.scalar (f a))

/-- `_BinaryMapWeigher.weigh` (`/repo/hrosailing/processing/weigher.py:184-189`). -/
def binaryWeigh {P : Type} (sub other : W P) (f : Rat → Rat → Rat) : W P := fun pts =>
  match unpack (sub pts) with
  | .error e => .error e
  | .ok a =>
    match unpack (other pts) with
    | .error e => .error e
    | .ok b => .ok (.scalar (f a b))

/-- The second operand of an arithmetic operation (`/repo/hrosailing/processing/weigher.py:53-115`); only numbers
and weighers are modelled, arrays are not. -/
inductive Operand (P : Type)
  | weigher (w : W P)
  | number (q : Rat)

/-- `weigher + other` and `other + weigher` (`/repo/hrosailing/processing/weigher.py:53-64`). -/
def add {P : Type} (w : W P) : Operand P → Except PyErr (W P)
  | .weigher v => .ok (binaryWeigh w v (· + ·))
  | .number c => .ok (unaryWeigh w (· + c))

/-- `weigher * other` and `other * weigher` (`/repo/hrosailing/processing/weigher.py:66-77`). -/
def mul {P : Type} (w : W P) : Operand P → Except PyErr (W P)
  | .weigher v => .ok (binaryWeigh w v (· * ·))
  | .number c => .ok (unaryWeigh w (· * c))

/-- `weigher - other` (`/repo/hrosailing/processing/weigher.py:79-87`): numbers are not accepted. -/
def sub {P : Type} (w : W P) : Operand P → Except PyErr (W P)
  | .weigher v => .ok (binaryWeigh w v (· - ·))
  | .number _ => .error .typeError

/-- `-weigher` (`/repo/hrosailing/processing/weigher.py:89-91`). -/
def neg {P : Type} (w : W P) : W P := unaryWeigh w (- ·)

/-- `weigher / other` (`/repo/hrosailing/processing/weigher.py:93-101`); the quotient is only meaningful for non-zero
divisors (numpy returns `inf` or `nan`). -/
def truediv {P : Type} (w : W P) : Operand P → Except PyErr (W P)
  | .weigher v => .ok (binaryWeigh w v (· / ·))
  | .number c => .ok (unaryWeigh w (· / c))

/-- `weigher ** power` for natural numbers (`/repo/hrosailing/processing/weigher.py:113-115`). -/
def pow {P : Type} (w : W P) (k : Nat) : W P := unaryWeigh w (· ^ k)

/-- `other / weigher` (`/repo/hrosailing/processing/weigher.py:103-111`): numbers are not accepted. -/
def rtruediv {P : Type} (w : W P) : Operand P → Except PyErr (W P)
  | .weigher v => .ok (binaryWeigh w v (fun x y => y / x))
  | .number _ => .error .typeError

/-- `AllOneWeigher.weigh` (`/repo/hrosailing/processing/weigher.py:201-213`). -/
def allOne {P : Type} : W P := fun pts => .ok (.vec (List.replicate pts.length 1))

/-! ### The state of the mean weigher -/

/-- The norm used by a weigher: the one given by the user, or the standard norm scaled for certain
attributes (`/repo/hrosailing/processing/weigher.py:319-320`). -/
inductive NormId
  | user
  | scaled (attributes : List String)
  deriving DecidableEq, Repr

/-- The attributes `_norm` and `_dimensions` of `CylindricMeanWeigher` (`/repo/hrosailing/processing/weigher.py:260-263`).
Since `_set_points_from_data` mutates the list it is given, `dims` is the current content of that list. -/
structure MeanState where
  norm : Option NormId
  dims : Option (List String)
  deriving DecidableEq, Repr

/-- Everything the computed weights depend on besides the radius: the norm, the numerical columns and the boat
speed column (`/repo/hrosailing/processing/weigher.py:288-302`). -/
structure Job where
  norm : NormId
  columns : List (String × List (Option Val))
  speeds : List (Option Val)
  deriving DecidableEq

/-- `get_by_type(float)` (`/repo/hrosailing/core/data.py:117-133`, `:53`). -/
def floatColumns (D : Data String Val Ty) : List (String × List (Option Val)) :=
  D.cols.filter fun p => decide (D.types.get? p.1 = some (some Ty.float))

/-- The choice of the boat speed column in `_set_points_from_data` with the in place removal
(`/repo/hrosailing/processing/weigher.py:560-570`): the column and the remaining attributes. `none` for the column
means that the attribute is not a column of the data (`KeyError`). -/
def chooseSpeed (attributes : List String) : Except PyErr (String × List String) :=
  if "BSP" ∈ attributes then .ok ("BSP", attributes.erase "BSP")
  else if "SOG" ∈ attributes then .ok ("SOG", attributes.erase "SOG")
  else .error .valueError

/-- `CylindricMeanWeigher.weigh` for a `Data` object (`/repo/hrosailing/processing/weigher.py:288-306`, `:318-320`,
`:549-580`): the state afterwards and the job that is carried out (`none` for the empty result). The norm is
cached at the first evaluation. -/
def meanWeighData (s : MeanState) (D : Data String Val Ty) : MeanState × Except PyErr (Option Job) :=
  if D.nRows = 0 then (s, .ok none)
  else
    match chooseSpeed (s.dims.getD D.keys) with
    | .error e => (s, .error e)
    | .ok (sp, rest) =>
      match D.cols.get? sp with
      | none => (s, .error .keyError)
      | some speeds =>
        let dims' := s.dims.map fun _ => rest
        let cols := floatColumns (Data.getItem D (.keys rest))
        let norm := s.norm.getD (.scaled (cols.map Prod.fst))
        (⟨some norm, dims'⟩, .ok (some ⟨norm, cols, speeds⟩))

/-! ### Fuzzy logic -/

/-- A fuzzy truth statement (`/repo/hrosailing/processing/weigher.py:614-619`): a function on inputs `X`.
Simplification: it is evaluated on single inputs, not on arrays. -/
abbrev FuzzyBool (X : Type) := X → ℝ

/-- `fuzzy_and` (`/repo/hrosailing/processing/weigher.py:647-667`). -/
noncomputable def FuzzyBool.and {X : Type} (f g : FuzzyBool X) : FuzzyBool X := fun x => min (f x) (g x)

/-- `fuzzy_or` (`/repo/hrosailing/processing/weigher.py:669-689`). -/
noncomputable def FuzzyBool.or {X : Type} (f g : FuzzyBool X) : FuzzyBool X := fun x => max (f x) (g x)

/-- `fuzzy_not` (`/repo/hrosailing/processing/weigher.py:691-704`). -/
noncomputable def FuzzyBool.not {X : Type} (f : FuzzyBool X) : FuzzyBool X := fun x => 1 - f x

/-- `__getitem__` (`/repo/hrosailing/processing/weigher.py:636-642`); `get` is `x ↦ x[item]`. -/
def FuzzyBool.item {X Y : Type} (f : FuzzyBool X) (get : Y → X) : FuzzyBool Y := fun y => f (get y)

/-- `sigmoid` (`/repo/hrosailing/processing/weigher.py:706-737`). -/
noncomputable def sigmoid (center sharpness sigma : ℝ) : FuzzyBool ℝ :=
  fun x => 1 / (1 + Real.exp (sigma * sharpness * (x - center)))

/-- `FuzzyVariable` (`/repo/hrosailing/processing/weigher.py:802-805`) without the key, which does not influence
the sharpness. `S` is the type of sharpness values. -/
structure FuzzyVar (S : Type) where
  sharpness : S
  next : S
  deriving DecidableEq, Repr

/-- `FuzzyVariable(sharpness)` (`/repo/hrosailing/processing/weigher.py:802-805`). -/
def FuzzyVar.init {S : Type} (s : S) : FuzzyVar S := ⟨s, s⟩

/-- The property `sharpness` (`/repo/hrosailing/processing/weigher.py:807-812`): returns the next sharpness and
resets it. -/
def FuzzyVar.take {S : Type} (v : FuzzyVar S) : S × FuzzyVar S := (v.next, { v with next := v.sharpness })

/-- `__call__` (`/repo/hrosailing/processing/weigher.py:845-847`). -/
def FuzzyVar.call {S : Type} (v : FuzzyVar S) (s : S) : FuzzyVar S := { v with next := s }

/-- `x < a`, `x <= a` (`sigma = 1`) and `x > a`, `x >= a` (`sigma = -1`)
(`/repo/hrosailing/processing/weigher.py:814-835`). -/
noncomputable def FuzzyVar.compare (v : FuzzyVar ℝ) (sigma a : ℝ) : FuzzyBool ℝ × FuzzyVar ℝ :=
  (sigmoid a v.take.1 sigma, v.take.2)

/-- `x == a` (`/repo/hrosailing/processing/weigher.py:837-840`). -/
noncomputable def FuzzyVar.eq (v : FuzzyVar ℝ) (a : ℝ) : FuzzyBool ℝ × FuzzyVar ℝ :=
  let (l, v1) := v.compare 1 a
  let (r, v2) := v1.compare (-1) a
  (FuzzyBool.and l r, v2)

/-- The operations on a fuzzy variable (`/repo/hrosailing/processing/weigher.py:821-847`). -/
inductive VarOp (S : Type)
  | call (s : S)
  | compare
  | item
  | eq
  deriving DecidableEq, Repr

/-- One operation on a variable: the sharpness values of the sigmoids that are built resp. (for `item`) of the
variable that is built (`/repo/hrosailing/processing/weigher.py:814-847`). -/
def FuzzyVar.step {S : Type} (v : FuzzyVar S) : VarOp S → List S × FuzzyVar S
  | .call s => ([], v.call s)
  | .compare => ([v.take.1], v.take.2)
  | .item => ([v.take.1], v.take.2)
  | .eq => ([v.take.1, v.take.2.take.1], v.take.2.take.2)

/-- A sequence of operations (`/repo/hrosailing/processing/weigher.py:814-847`). -/
def FuzzyVar.run {S : Type} : FuzzyVar S → List (VarOp S) → List (List S)
  | _, [] => []
  | v, o :: os => (v.step o).1 :: FuzzyVar.run (v.step o).2 os

end Verif.Weigher
