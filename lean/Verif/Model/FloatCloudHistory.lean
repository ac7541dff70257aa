import Verif.Model.FloatCloud
import Verif.Model.CloudHistory

/-!
# Sessions with point clouds in double precision

Sequences of calls of `add_points` and `symmetrize` on a point cloud and of writing and reading csv files, where angles are rounded
to the nearest double. The exact versions are `Verif.Cloud.history` and `Verif.Cloud.session`.
-/

namespace Verif.F64

open Verif.Interp
open Verif.Cloud (Step)
open Verif.Table (Text)

/-- `symmetrize` (`/repo/hrosailing/polardiagram/_polardiagrampointcloud.py:272-299`), without the warning, for doubles. -/
def cloudSymmetrize (cloud : List (Pt ℚ)) : List (Pt ℚ) :=
  if cloud.isEmpty then cloud
  else cloudInit (cloud ++ cloud.map fun p => ((p.1.1, fl (360 - p.1.2)), p.2))

/-- `add_points` for true wind (`/repo/hrosailing/polardiagram/_polardiagrampointcloud.py:301-326`) for doubles. -/
def cloudAdd (cloud new : List (Pt ℚ)) : Res (List (Pt ℚ)) :=
  if new.any fun p => decide (p.1.1 ≤ 0) then (cloud, some .valueError)
  else (cloud ++ new.map fun p => ((p.1.1, mod p.1.2 360), p.2), none)

/-- The cloud after a step (`/repo/hrosailing/polardiagram/_polardiagrampointcloud.py:272-326`) for doubles. -/
def cloudStep (cloud : List (Pt ℚ)) : Step ℚ → List (Pt ℚ)
  | .add new => (cloudAdd cloud new).1
  | .symmetrize => cloudSymmetrize cloud

/-- The cloud after several steps (`/repo/hrosailing/polardiagram/_polardiagrampointcloud.py:272-326`) for doubles. -/
def cloudHistory (cloud : List (Pt ℚ)) : List (Step ℚ) → List (Pt ℚ)
  | [] => cloud
  | s :: ss => cloudHistory (cloudStep cloud s) ss

/-- The cloud after several steps for doubles, where `none` stands for `pd.to_csv(file)` and `pd = from_csv(file)`
(`/repo/hrosailing/polardiagram/_polardiagrampointcloud.py:244-270`, `/repo/hrosailing/polardiagram/_reading.py:70-90`). -/
def cloudSession (print : ℚ → Text) (parse : Text → Except PyErr ℚ) (cloud : List (Pt ℚ)) :
    List (Option (Step ℚ)) → Except PyErr (List (Pt ℚ))
  | [] => .ok cloud
  | some s :: ss => cloudSession print parse (cloudStep cloud s) ss
  | none :: ss =>
    match cloudFromCsv parse (Cloud.toCsv print cloud) with
    | .error e => .error e
    | .ok cloud' => cloudSession print parse cloud' ss

end Verif.F64
