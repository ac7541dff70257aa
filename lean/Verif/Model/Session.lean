import Verif.Model.CloudHistory
import Verif.Model.TableHistory
import Verif.Model.TableText

/-!
# Sessions with files

Sequences of calls on a table or a point cloud between which the diagram is written to a csv file and read again. A change or a
symmetrisation that raises leaves the diagram as it is; a file that can not be read ends the session with an exception.
-/

namespace Verif.Table

variable {K : Type} [Field K] [LinearOrder K] [FloorRing K]

/-- A step of a session with a table `pd`: `pd.change_entries(…)`
(`/repo/hrosailing/polardiagram/_polardiagramtable.py:567-661`), `pd = pd.symmetrize()`
(`/repo/hrosailing/polardiagram/_polardiagramtable.py:493-565`) or `pd.to_csv(file, fmt)` and `pd = from_csv(file, fmt)`
(`/repo/hrosailing/polardiagram/_polardiagramtable.py:430-491`, `/repo/hrosailing/polardiagram/_reading.py:70-143`). -/
inductive Step (K : Type) where
  | change (c : Change K)
  | symmetrize
  | file (fmt : Format)

/-- The table after a step (`/repo/hrosailing/polardiagram/_polardiagramtable.py:430-661`). -/
def step (print : K → Text) (parse : Text → Except PyErr K) (t : Table K) : Step K → Except PyErr (Table K)
  | .change c => .ok (changeEntries t c.new c.ws c.wa).1
  | .symmetrize =>
    match symmetrize t with
    | .ok t' => .ok t'
    | .error _ => .ok t
  | .file fmt => fromCsv parse (toCsv print t fmt) fmt

/-- The table after several steps (`/repo/hrosailing/polardiagram/_polardiagramtable.py:430-661`). -/
def session (print : K → Text) (parse : Text → Except PyErr K) (t : Table K) : List (Step K) → Except PyErr (Table K)
  | [] => .ok t
  | s :: ss =>
    match step print parse t s with
    | .error e => .error e
    | .ok t' => session print parse t' ss

end Verif.Table

namespace Verif.Cloud

open Verif.Interp
open Verif.Table (Text)

variable {K : Type} [Field K] [LinearOrder K] [FloorRing K]

/-- The point cloud after several steps (`/repo/hrosailing/polardiagram/_polardiagrampointcloud.py:272-326`), where `none` stands for
`pd.to_csv(file)` and `pd = from_csv(file)` (`/repo/hrosailing/polardiagram/_polardiagrampointcloud.py:244-270`,
`/repo/hrosailing/polardiagram/_reading.py:70-90`). -/
def session (print : K → Text) (parse : Text → Except PyErr K) (cloud : List (Pt K)) :
    List (Option (Step K)) → Except PyErr (List (Pt K))
  | [] => .ok cloud
  | some s :: ss => session print parse (step cloud s) ss
  | none :: ss =>
    match fromCsv parse (toCsv print cloud) with
    | .error e => .error e
    | .ok cloud' => session print parse cloud' ss

end Verif.Cloud
