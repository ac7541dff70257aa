import Mathlib.Algebra.Order.Ring.Rat

/-!
# Vocabulary for the properties of the imputators
-/

namespace Verif.Imputator

/-- The present time stamps do not decrease. -/
def Chronological (l : List (Option Rat)) : Prop :=
  ∀ (i j : Nat) (s t : Rat), i < j → l[i]? = some (some s) → l[j]? = some (some t) → s ≤ t

/-- `s` and `t` are consecutive present time stamps at the positions `a < b`. -/
def Gap (l : List (Option Rat)) (a b : Nat) (s t : Rat) : Prop :=
  a < b ∧ l[a]? = some (some s) ∧ l[b]? = some (some t) ∧ ∀ m, a < m → m < b → l[m]? = some none

/-- All pairs of consecutive present time stamps up to position `b` are at most `maxDiff` apart. -/
def Linked (l : List (Option Rat)) (maxDiff : Rat) (b : Nat) : Prop :=
  ∀ (a' b' : Nat) (s t : Rat), Gap l a' b' s t → b' ≤ b → t - s ≤ maxDiff

end Verif.Imputator
