import Verif.Model.Diagram

/-!
# Several diagrams in files

Sequences of `to_csv` to paths of a file system, and `from_csv` which looks at the first line of a file to find the class. The
diagrams `δ` of single sails are written and read by parameters. Diagrams of several sails contain diagrams of single sails
only. Paths are text; different texts are different files (a path is not resolved).
-/

namespace Verif.Diagram

open Verif.Table (Text lines)

variable {δ : Type}

/-- What is saved: a diagram of one sail or of several sails (`/repo/hrosailing/polardiagram/_polardiagrammultisails.py:50-91`). -/
inductive Saved (δ : Type)
  | single (d : δ)
  | multi (sails : List Text) (ds : List δ)

/-- `str(i)` (`/repo/hrosailing/polardiagram/_polardiagrammultisails.py:192`). -/
def strNat (i : Nat) : Text := Nat.toDigits 10 i

/-- `to_csv` (`/repo/hrosailing/polardiagram/_polardiagrammultisails.py:166-188` for several sails,
`/repo/hrosailing/polardiagram/_polardiagramtable.py:407-445` and the other classes otherwise). -/
def save (write : δ → Text) (path : Text) : Saved δ → Files → Files
  | .single d, fs => fs.write path (write d)
  | .multi sails ds, fs => multiToCsv strNat write sails ds path fs

/-- `from_csv` with the default format (`/repo/hrosailing/polardiagram/_reading.py:73-90`); a missing file raises
`FileNotFoundError`. -/
def load (read : Text → Except PyErr δ) (path : Text) (fs : Files) : Except PyErr (Saved δ) :=
  match fs path with
  | none => .error .otherError
  | some text =>
    if (lines text).head? = some "PolarDiagramMultiSails".toList then
      match multiFromCsv strNat read path fs with
      | .error e => .error e
      | .ok (sails, ds) => .ok (.multi sails ds)
    else
      match read text with
      | .error e => .error e
      | .ok d => .ok (.single d)

/-- A sequence of calls of `to_csv` (`/repo/hrosailing/polardiagram/_polardiagrammultisails.py:166-188`). -/
def saveAll (write : δ → Text) : List (Text × Saved δ) → Files → Files
  | [], fs => fs
  | s :: l, fs => saveAll write l (save write s.1 s.2 fs)

end Verif.Diagram
