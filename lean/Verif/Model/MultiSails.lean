import Verif.Model.Diagram

/-!
# Diagrams of several sails as objects

Model of the constructor, `symmetrize` and `__str__` of
`/repo/hrosailing/polardiagram/_polardiagrammultisails.py`. The diagrams of the sails are members of a type `δ`, the names of
the sails members of a type `σ`.
-/

namespace Verif.Diagram

open Verif.Table (Text)

/-- `PolarDiagramMultiSails` (`/repo/hrosailing/polardiagram/_polardiagrammultisails.py:61-62`). -/
structure MultiSails (δ σ : Type) where
  diagrams : List δ
  sails : List σ
  deriving DecidableEq

namespace MultiSails

variable {δ σ : Type}

/-- `PolarDiagramMultiSails(pds, sails)` (`/repo/hrosailing/polardiagram/_polardiagrammultisails.py:50-62`). -/
def init (numbered : Nat → σ) (pds : List δ) (sails : Option (List σ)) : MultiSails δ σ :=
  ⟨pds, sailNames numbered pds.length sails⟩

/-- `[pd.symmetrize() for pd in self.diagrams]` (`/repo/hrosailing/polardiagram/_polardiagrammultisails.py:218`). -/
def symmetrizeAll (sym : δ → Except PyErr δ) : List δ → Except PyErr (List δ)
  | [] => .ok []
  | d :: ds =>
    match sym d with
    | .error e => .error e
    | .ok d' =>
      match symmetrizeAll sym ds with
      | .error e => .error e
      | .ok ds' => .ok (d' :: ds')

/-- `symmetrize` (`/repo/hrosailing/polardiagram/_polardiagrammultisails.py:206-219`); `sym` is the method `symmetrize` of the
diagrams of the sails. -/
def symmetrize (numbered : Nat → σ) (sym : δ → Except PyErr δ) (m : MultiSails δ σ) : Except PyErr (MultiSails δ σ) :=
  match symmetrizeAll sym m.diagrams with
  | .error e => .error e
  | .ok pds => .ok (init numbered pds (some m.sails))

/-- `__str__` (`/repo/hrosailing/polardiagram/_polardiagrammultisails.py:81-91`); `showName` and `showDiagram` are `str` of the
names and of the diagrams. -/
def str (showName : σ → Text) (showDiagram : δ → Text) (m : MultiSails δ σ) : Text :=
  ((m.sails.map showName).zip (m.diagrams.map showDiagram)).flatMap fun p => p.1 ++ ['\n'] ++ p.2 ++ ['\n', '\n']

end MultiSails

end Verif.Diagram
