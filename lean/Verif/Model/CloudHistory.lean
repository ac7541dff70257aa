import Verif.Model.Pointcloud

/-!
# Histories of point clouds

Sequences of calls of `add_points` and `symmetrize` on a point cloud. A call that raises leaves the cloud as it is; the
user goes on with the next one.
-/

namespace Verif.Cloud

open Verif.Interp

variable {K : Type} [Field K] [LinearOrder K] [FloorRing K]

/-- A step of a session with a point cloud `pd`: `pd.add_points(new)`
(`/repo/hrosailing/polardiagram/_polardiagrampointcloud.py:301-326`) or `pd = pd.symmetrize()`
(`/repo/hrosailing/polardiagram/_polardiagrampointcloud.py:272-297`). -/
inductive Step (K : Type) where
  | add (new : List (Pt K))
  | symmetrize

/-- The cloud after a step (`/repo/hrosailing/polardiagram/_polardiagrampointcloud.py:272-326`). -/
def step (cloud : List (Pt K)) : Step K → List (Pt K)
  | .add new => (addPoints cloud new).1
  | .symmetrize => symmetrize cloud

/-- The cloud after several steps (`/repo/hrosailing/polardiagram/_polardiagrampointcloud.py:272-326`). -/
def history (cloud : List (Pt K)) : List (Step K) → List (Pt K)
  | [] => cloud
  | s :: ss => history (step cloud s) ss

end Verif.Cloud
