import Verif.Model.Diagram
import Verif.Model.Pointcloud
import Verif.Model.Table

/-!
# Arguments and defaults of `get_slices` and `get_points`

Model of the forms the argument `ws` of `get_slices` may take, of `default_slices` and `default_points` of the different
polar diagrams and of the slices of a point cloud with an interpolator (`/repo/hrosailing/polardiagram/`). The wind
speeds derived from a list are modelled in `Verif.Model.Diagram`.

External: `np.array` of an object which is not a sequence is an array without dimensions, over which one cannot iterate.
-/

namespace Verif.Slices

open Verif.Injector (linspace)
open Verif.Diagram (WsArg spread)

variable {K : Type} [Field K] [LinearOrder K]

/-- Forms of the argument `ws` (`/repo/hrosailing/polardiagram/_basepolardiagram.py:57-60`, `:100-117`): `None`; a number
of type `int` or `float`; a number of a type of numpy such as `numpy.int64`, which is neither; a list, tuple or array; an
iterator over numbers; a set of numbers; an iterable containing something else; anything else. -/
inductive Form (K : Type)
  | default
  | number (w : K)
  | numpyNumber (w : K)
  | sequence (l : List K)
  | iterator (l : List K)
  | set (l : List K)
  | mixed
  | other

/-- What `_get_windspeeds` returns (`/repo/hrosailing/polardiagram/_basepolardiagram.py:100-128`): a list or array of wind
speeds, or an array without dimensions. -/
inductive Labels (K : Type)
  | speeds (l : List K)
  | object
  deriving DecidableEq

/-- `_get_windspeeds` (`/repo/hrosailing/polardiagram/_basepolardiagram.py:100-128`). Iterating over a number of numpy
raises `TypeError` in lines 105-113; iterators and sets pass this test, but have no `ws[1:]` (line 125, `TypeError`), and
`np.array` (line 119) does not iterate over them. -/
def windSpeeds (defaults : List K) (ws : Form K) (nSteps : Option Int) : Except PyErr (Labels K) :=
  match ws with
  | .default => (spread defaults nSteps).map .speeds
  | .number w => .ok (.speeds [w])
  | .numpyNumber _ => .error .typeError
  | .sequence l => (spread l nSteps).map .speeds
  | .iterator _ | .set _ =>
    match nSteps with
    | none => .ok .object
    | some n => if n ≤ 0 then .error .valueError else .error .typeError
  | .mixed => .error .typeError
  | .other => .error .typeError

/-- `get_slices` without information (`/repo/hrosailing/polardiagram/_basepolardiagram.py:92-94`, `:98`). Every
implementation of `ws_to_slices` iterates over `ws`. -/
def getSlices {σ : Type} (wsToSlices : List K → Except PyErr (List σ)) (defaults : List K) (ws : Form K)
    (nSteps : Option Int) : Except PyErr (List K × List σ) :=
  match windSpeeds defaults ws nSteps with
  | .error e => .error e
  | .ok .object => .error .typeError
  | .ok (.speeds l) =>
    match wsToSlices l with
    | .error e => .error e
    | .ok slices => .ok (l, slices)

/-- `np.linspace(ws.min(), ws.max(), 20)` (`/repo/hrosailing/polardiagram/_polardiagrampointcloud.py:218-220`,
`/repo/hrosailing/polardiagram/_polardiagrammultisails.py:222-226`); the minimum of an empty array raises `ValueError`. -/
def twenty : List K → Except PyErr (List K)
  | [] => .error .valueError
  | w :: l => .ok (linspace (l.foldl min w) (l.foldl max w) 20)

/-- `PolarDiagramPointcloud.default_slices` (`/repo/hrosailing/polardiagram/_polardiagrampointcloud.py:218-220`). -/
def cloudSlices (cloud : List (Interp.Pt K)) : Except PyErr (List K) := twenty (cloud.map fun p => p.1.1)

/-- `PolarDiagramMultiSails.default_slices` (`/repo/hrosailing/polardiagram/_polardiagrammultisails.py:221-226`);
`np.concatenate` of no arrays raises `ValueError`, too. -/
def multiSlices (defaults : List (List K)) : Except PyErr (List K) := twenty defaults.flatten

/-- `PolarDiagramCurve.default_slices` (`/repo/hrosailing/polardiagram/_polardiagramcurve.py:151-153`). -/
def curveSlices : List K := linspace 5 20 16

/-- `PolarDiagramTable.default_points` (`/repo/hrosailing/polardiagram/_polardiagramtable.py:351-361`) for a table with as
many rows as wind angles and as many columns as wind speeds. -/
def tablePoints (t : Table K) : List ((K × K) × K) :=
  (t.wa.flatMap fun a => t.ws.map fun w => (w, a)).zip t.bsps.flatten

/-- `PolarDiagramCurve.default_points` (`/repo/hrosailing/polardiagram/_polardiagramcurve.py:70-77`). -/
def curvePoints (call : K → K → Except PyErr K) : Except PyErr (List ((K × K) × K)) :=
  Diagram.evalWinds call ((linspace 5 355 144).flatMap fun a => (linspace 5 20 128).map fun w => (w, a))

/-- `PolarDiagramMultiSails.default_points` (`/repo/hrosailing/polardiagram/_polardiagrammultisails.py:102-104`). -/
def multiPoints (points : List (List ((K × K) × K))) : Except PyErr (List ((K × K) × K)) :=
  if points.isEmpty then .error .valueError else .ok points.flatten

/-- A slice of `PolarDiagramPointcloud.ws_to_slices` with an interpolator, given by its rows
(`/repo/hrosailing/polardiagram/_polardiagrampointcloud.py:118-125`): `np.row_stack` of numbers has a row for each of
them. (In recent versions of numpy `np.row_stack` of a generator raises `TypeError`.) -/
def cloudRows (call : K → K → Except PyErr K) (waResolution : Nat) (w : K) : Except PyErr (List (List K)) :=
  (linspace 0 360 waResolution).mapM fun a => (call w a).map fun b => [b]

end Verif.Slices
