import Verif.Model.Val

/-!
# Vocabulary for the standard format
-/

namespace Verif

/-- The number a value stands for, if any; `parse` is the meaning of strings
(`float`, `/repo/hrosailing/core/data.py:587`). -/
def numberOf (parse : List Char → Option Rat) : Val → Option Rat
  | .int z => some z
  | .float q => some q
  | .decimal q => some q
  | .str s => parse s
  | _ => none

/-- The moment given by a date and a time in the same row, unknown if one of them is unknown
(`/repo/hrosailing/core/data.py:376`: "date and time fields will be aggregated"). -/
def momentOf : Option Val → Option Val → Option Val
  | some (.date d), some (.time t) => some (.datetime d t)
  | _, _ => none

/-- A column whose measured values are dates (`/repo/hrosailing/core/data.py:408`). -/
def IsDates (c : List (Option Val)) : Prop := ∀ v, some v ∈ c → ∃ d, v = .date d

/-- A column whose measured values are times (`/repo/hrosailing/core/data.py:408`). -/
def IsTimes (c : List (Option Val)) : Prop := ∀ v, some v ∈ c → ∃ t, v = .time t

end Verif
