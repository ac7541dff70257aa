import Mathlib.Data.Rat.Defs
import Verif.Model.Data

/-!
# `hrosailing.core.data.WeightedPoints`

Model of `/repo/hrosailing/core/data.py:593-665`.
-/

namespace Verif

/-- The attribute `data` of `WeightedPoints` (`/repo/hrosailing/core/data.py:602-606`): an array given by its
rows, a dictionary of lists or a `Data` object. Simplification: the number of columns of an array without
rows is not recorded. -/
inductive Points (κ V τ : Type)
  | array (rows : List (List V))
  | dict (d : Dict κ (List V))
  | data (D : Data κ V τ)

/-- `WeightedPoints` (`/repo/hrosailing/core/data.py:618-627`); weights are exact rationals. -/
structure WPoints (κ V τ : Type) where
  points : Points κ V τ
  weights : List Rat

namespace WPoints

variable {κ V τ : Type} [DecidableEq κ] [DecidableEq τ] [HasType V τ]

/-- `length` in `__init__` (`/repo/hrosailing/core/data.py:621-624`): `Data` has no `__len__`, so `len` raises
`TypeError`; an empty dictionary raises `IndexError`. -/
def len : Points κ V τ → Except PyErr Nat
  | .array rows => .ok rows.length
  | .dict [] => .error .indexError
  | .dict ((_, c) :: _) => .ok c.length
  | .data _ => .error .typeError

/-- `WeightedPoints(data, weights)` for a scalar weight (`/repo/hrosailing/core/data.py:620-625`). -/
def ofScalar (p : Points κ V τ) (w : Rat) : Except PyErr (WPoints κ V τ) :=
  match len p with
  | .error e => .error e
  | .ok n => .ok ⟨p, List.replicate n w⟩

/-- Boolean mask indexing of a numpy array (`/repo/hrosailing/core/data.py:633`, `:636`, `:638`): `IndexError`
if the mask does not have the length of the array. -/
def npMask {α : Type} (m : List Bool) (l : List α) : Except PyErr (List α) :=
  if m.length = l.length then .ok (Data.maskList m l) else .error .indexError

/-- The dictionary comprehension `{key: list(np.array(value)[mask]) ...}`
(`/repo/hrosailing/core/data.py:632-635`). -/
def maskDict (m : List Bool) : Dict κ (List V) → Except PyErr (Dict κ (List V))
  | [] => .ok []
  | (k, c) :: d =>
    match npMask m c with
    | .error e => .error e
    | .ok c' =>
      match maskDict m d with
      | .error e => .error e
      | .ok d' => .ok ((k, c') :: d')

/-- `__getitem__` (`/repo/hrosailing/core/data.py:629-638`). -/
def getItem (wp : WPoints κ V τ) (m : List Bool) : Except PyErr (WPoints κ V τ) :=
  match wp.points with
  | .dict d =>
    match maskDict m d with
    | .error e => .error e
    | .ok d' =>
      match npMask m wp.weights with
      | .error e => .error e
      | .ok w => .ok ⟨.dict d', w⟩
  | .array rows =>
    match npMask m rows with
    | .error e => .error e
    | .ok rows' =>
      match npMask m wp.weights with
      | .error e => .error e
      | .ok w => .ok ⟨.array rows', w⟩
  | .data D =>
    match npMask m wp.weights with
    | .error e => .error e
    | .ok w => .ok ⟨.data (Data.getItem D (.mask m)), w⟩

/-- `{key: value + other.data[key] for key, value in self.data.items() if key in other.data}`
(`/repo/hrosailing/core/data.py:655-659`). -/
def joinDict (d e : Dict κ (List V)) : Dict κ (List V) :=
  d.filterMap fun p => (e.get? p.1).map fun c => (p.1, p.2 ++ c)

/-- `np.row_stack` accepts the arrays (`/repo/hrosailing/core/data.py:663`): all rows have the same length. -/
def sameWidth (a b : List (List V)) : Bool :=
  match a, b with
  | r :: _, s :: _ => r.length = s.length
  | _, _ => true

/-- `extend` (`/repo/hrosailing/core/data.py:640-665`); data of different kinds is rejected with some
exception (the documentation forbids it). -/
def extend (wp other : WPoints κ V τ) : Except PyErr (WPoints κ V τ) :=
  match wp.points, other.points with
  | .dict d, .dict e => .ok ⟨.dict (joinDict d e), wp.weights ++ other.weights⟩
  | .data D, .data E =>
    match Data.concatenate [D, E] with
    | (_, some e) => .error e
    | (D', none) => .ok ⟨.data D', wp.weights ++ other.weights⟩
  | .array a, .array b =>
    if sameWidth a b then .ok ⟨.array (a ++ b), wp.weights ++ other.weights⟩ else .error .valueError
  | _, _ => .error .otherError

end WPoints
end Verif
