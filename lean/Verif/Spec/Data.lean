import Verif.Model.Data

/-!
# Vocabulary for the properties of `Data`

Observations on a `Data` object as a user makes them (columns, measured values) and the elementary list
operations used to state the properties.
-/

namespace Verif

/-- The entries a value of the dictionary given to `Data.update` stands for: a list, or a single entry
(`/repo/hrosailing/core/data.py:211-216`). -/
def Arg.toList {V : Type} : Arg V → List (Option V)
  | .list l => l
  | .scalar v => [v]

namespace Data

variable {κ V τ : Type} [DecidableEq κ]

/-- The column of a key, empty if the key is not present (`data[key]`,
`/repo/hrosailing/core/data.py:538-540`). -/
def colOf (D : Data κ V τ) (k : κ) : List (Option V) := (D.cols.get? k).getD []

/-- The entries that a dictionary `d` contributes to the column `k`
(argument of `/repo/hrosailing/core/data.py:179`). -/
def argOf (d : Dict κ (Arg V)) (k : κ) : List (Option V) := ((d.get? k).map Arg.toList).getD []

/-- The measured values of a column: its entries different from `None`
(`/repo/hrosailing/core/data.py:431-434` skips `None` in the same way). -/
def measured (c : List (Option V)) : List V := c.filterMap id

/-- The elements of a list whose mask entry is true (meaning of `data[mask]`,
`/repo/hrosailing/core/data.py:20`). -/
def select {α : Type} (mask : List Bool) (l : List α) : List α :=
  ((l.zip mask).filter (fun p => p.2)).map Prod.fst

/-- The elements of a list whose position is not listed (meaning of `data.delete(indices)`,
`/repo/hrosailing/core/data.py:302-310`). -/
def without {α : Type} (idx : List Int) (l : List α) : List α :=
  (l.zipIdx.filter (fun p => ¬ (p.2 : Int) ∈ idx)).map Prod.fst

/-- A row all of whose entries are `None` (`/repo/hrosailing/core/data.py:331`). -/
def blankRow (r : Dict κ (Option V)) : Prop := ∀ p ∈ r, p.2 = none

/-- The length of the longest entry list of a dictionary given to `update`
(`/repo/hrosailing/core/data.py:181`). -/
def longest (d : Dict κ (Arg V)) : Nat := d.foldr (fun p m => max p.2.toList.length m) 0

end Data
end Verif
