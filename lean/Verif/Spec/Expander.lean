import Verif.Model.Expander

/-!
# Vocabulary for the properties of the weather expander
-/

namespace Verif.Expander

open Verif.Data

variable {κ V τ : Type} [DecidableEq κ]

/-- The measurements that remain: in the mode `"delete"` those for which the weather model has an answer
(`/repo/hrosailing/pipeline/expander.py:69-75`). -/
def remaining (getW : Place V → Except PyErr (Weather κ V)) (mode : Mode) (ps : List (Place V)) : List (Place V) :=
  match mode with
  | .delete => ps.filter fun p => (getW p).toOption.isSome
  | .ignore => ps

/-- The positions of the places for which the weather model raised (`none_idxs`,
`/repo/hrosailing/pipeline/expander.py:119`). -/
def failed (getW : Place V → Except PyErr (Weather κ V)) (s : Nat) (ps : List (Place V)) : List Nat :=
  ((ps.zipIdx s).filter fun p => (getW p.1).toOption.isNone).map Prod.snd

/-- The entry of the weather at a place under a key; `None` if there is no answer or no such key. -/
def weatherAt (getW : Place V → Except PyErr (Weather κ V)) (k : κ) (p : Place V) : Option V :=
  match getW p with
  | .ok w => (Dict.get? w k).join
  | .error _ => none

/-- The column name under which the weather is stored (`/repo/hrosailing/pipeline/expander.py:130-132`). -/
def stored (dup : κ → κ) (D : Data κ V τ) (k : κ) : κ := if k ∈ D.keys then dup k else k

end Verif.Expander
