import Verif.Model.Interpolator

/-!
# `ShepardInterpolator`

Model of `/repo/hrosailing/processing/interpolator.py:322-496`. A row consists of a data point, its distance to the
point that is to be interpolated, and its weight. `none` stands for a result that is not a number: every division by
zero on the way ends in `nan`, since `0 / 0` is `nan` and an infinite slope of a data point is multiplied by zero in
line 496. The square root is a parameter.
-/

namespace Verif.Shepard

open Verif.Interp

variable {K : Type} [Field K] [LinearOrder K]

/-- A data point with its distance and its weight (`/repo/hrosailing/processing/interpolator.py:403-410`). -/
abbrev Row (K : Type) := Pt K × K × K

/-- `ShepardInterpolator(neighbourhood, tol, slope)` (`/repo/hrosailing/processing/interpolator.py:356-374`): the checks
of `tol` and `slope`. -/
def init (tol slope : K) : Except PyErr (K × K) :=
  if tol ≤ 0 then .error .valueError else if slope ≤ 0 then .error .valueError else .ok (tol, slope)

/-- One entry of `cosine` (`/repo/hrosailing/processing/interpolator.py:450-455`). The last factor uses the wind speed
of `q`, as the code does. -/
def cosine (g : K × K) (p q : Row K) : K :=
  ((g.1 - p.1.1.1) * (g.1 - q.1.1.1) + (g.2 - p.1.1.2) * (g.2 - q.1.1.1)) / (p.2.1 * q.2.1)

/-- `t[i]` before the division (`/repo/hrosailing/processing/interpolator.py:456`); `rest` are the rows without the
`i`-th one. -/
def turn (g : K × K) (p : Row K) (rest : List (Row K)) : K :=
  (rest.map fun q => q.2.2 * (1 - cosine g p q)).sum

/-- `_include_direction` (`/repo/hrosailing/processing/interpolator.py:445-459`). -/
def includeDirection (g : K × K) (rows : List (Row K)) : Option (List K) :=
  let s := (rows.map fun p => p.2.2).sum
  if s = 0 then none
  else some (rows.mapIdx fun i p => p.2.2 ^ 2 * (1 + turn g p (rows.eraseIdx i) / s))

/-- A neighbourhood as a function from the differences to the mask (`/repo/hrosailing/processing/interpolator.py:469`).
-/
abbrev Nhood (K : Type) := List (Pt K) → Except PyErr (List Bool)

/-- `Ball.is_contained_in` for arrays with three columns (`/repo/hrosailing/processing/neighbourhood.py:80-102`). -/
def ball (norm : Pt K → K) (radius : K) : Nhood K := fun l => .ok (l.map fun d => decide (norm d ≤ radius))

/-- `Ellipsoid.is_contained_in` and `Polytope.is_contained_in` for arrays with three columns
(`/repo/hrosailing/processing/neighbourhood.py:242-270`, `:385-411`): the product of matrices of shapes `(2, 2)` and
`(3, n)` raises `ValueError`. Without rows the result is the constant `True`, which gives an array of shape `(1, 0, 3)`
in line 470, on which the default norm raises `NotImplementedError`. -/
def planar : Nhood K := fun l => match l with
  | [] => .error .otherError
  | _ :: _ => .error .valueError

/-- `pts_i[mask]` and `np.delete(wts, i)[mask]` (`/repo/hrosailing/processing/interpolator.py:470-472`). -/
def masked {α : Type} : List α → List Bool → List α
  | a :: l, b :: m => if b then a :: masked l m else masked l m
  | _, _ => []

/-- `xderiv[i]` and `yderiv[i]` (`/repo/hrosailing/processing/interpolator.py:471-486`); `near` are the rows in the
neighbourhood. -/
def deriv (norm : Pt K → K) (p : Row K) (near : List (Row K)) : Option (K × K) :=
  let s := (near.map fun q => q.2.2).sum
  if s = 0 ∨ (∃ q ∈ near, norm (q.1 - p.1) = 0) then none
  else some
    ((near.map fun q => q.2.2 * (q.1.2 - p.1.2) * (q.1.1.1 - p.1.1.1) / norm (q.1 - p.1) ^ 2).sum / s,
     (near.map fun q => q.2.2 * (q.1.2 - p.1.2) * (q.1.1.2 - p.1.1.2) / norm (q.1 - p.1) ^ 2).sum / s)

/-- One round of the loop of `_determine_slope` (`/repo/hrosailing/processing/interpolator.py:467-486`). -/
def derivAt (nhood : Nhood K) (norm : Pt K → K) (p : Row K) (rest : List (Row K)) : Except PyErr (Option (K × K)) :=
  match nhood (rest.map fun q => q.1 - p.1) with
  | .error e => .error e
  | .ok mask => .ok (deriv norm p (masked rest mask))

/-- The loop of `_determine_slope` (`/repo/hrosailing/processing/interpolator.py:467-486`). -/
def derivs (nhood : Nhood K) (norm : Pt K → K) (rows : List (Row K)) : Except PyErr (List (Option (K × K))) :=
  (rows.mapIdx fun i p => (p, rows.eraseIdx i)).mapM fun c => derivAt nhood norm c.1 c.2

/-- The return value of `_determine_slope` (`/repo/hrosailing/processing/interpolator.py:488-496`), given the
derivatives. -/
def zdelta (sqrt : K → K) (slope : K) (g : K × K) (rows : List (Row K)) (ds : List (K × K)) : Option (List K) :=
  match rows, ds.map fun d => d.1 ^ 2 + d.2 ^ 2 with
  | r :: rs, n :: ns =>
    let z := rs.map fun q => q.1.2
    let m := sqrt (maxOf n ns)
    if m = 0 then none
    else
      let dim := slope * (maxOf r.1.2 z - minOf r.1.2 z) / m
      some (List.zipWith (fun (p : Row K) d =>
        (d.1 * (g.1 - p.1.1.1) + d.2 * (g.2 - p.1.1.2)) * (dim / (dim + p.2.1))) rows ds)
  | _, _ => some []

/-- The rows with the weights computed by `_include_direction` (`/repo/hrosailing/processing/interpolator.py:410`);
weights that are not numbers are left out. -/
def reweighted (rows : List (Row K)) : Option (List K) → List (Row K)
  | some ws => List.zipWith (fun (p : Row K) w => ((p.1, p.2.1, w) : Row K)) rows ws
  | none => rows

/-- The part of `ShepardInterpolator.interpolate` after the computation of the weights with `_set_weights`
(`/repo/hrosailing/processing/interpolator.py:410-428`). -/
def evaluate (nhood : Nhood K) (norm : Pt K → K) (sqrt : K → K) (tol slope : K) (g : K × K) (rows : List (Row K)) :
    Except PyErr (Option K) :=
  let ws := includeDirection g rows
  let rows' := reweighted rows ws
  match derivs nhood norm rows' with
  | .error e => .error e
  | .ok ds =>
    let near := rows.filter fun p => decide (p.2.1 < tol)
    match near with
    | _ :: _ => .ok (some ((near.map fun p => p.1.2).sum / near.length))
    | [] =>
      match ws, ds.mapM id with
      | some ws, some ds =>
        match zdelta sqrt slope g rows' ds with
        | some zd => .ok (normalisedDot ws (List.zipWith (· + ·) (rows.map fun p => p.1.2) zd))
        | none => .ok none
      | _, _ => .ok none

/-- `ShepardInterpolator.interpolate` (`/repo/hrosailing/processing/interpolator.py:382-428`). `norm2` and `norm3` are
the behaviour of the norm on arrays with two and with three columns. -/
def shepard (nhood : Nhood K) (norm2 : K × K → K) (norm3 : Pt K → K) (sqrt : K → K) (tol slope : K)
    (pts : List (Pt K)) (g : K × K) : Except PyErr (Option K) :=
  match firstAtZero norm2 g pts with
  | some z => .ok (some z)
  | none =>
    match setWeights (dists norm2 pts g) with
    | .error e => .error e
    | .ok wts => evaluate nhood norm3 sqrt tol slope g (pts.zip ((dists norm2 pts g).zip wts))

end Verif.Shepard
