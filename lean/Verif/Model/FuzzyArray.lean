import Verif.Model.Py
import Mathlib.Data.Rat.Defs
import Mathlib.Algebra.Order.Ring.Rat

/-!
# Fuzzy statements evaluated on arrays

`FuzzyBool` objects are evaluated by calling them, with a number or with an array of numbers of dimension one. The values are numbers
or arrays of dimension one.
-/

namespace Verif.FuzzyArray

/-- Statements on a variable without key (`/repo/hrosailing/processing/weigher.py:614-634`, `:814-840`): `atom` is a comparison, given
by its truth function on numbers; `x == a` is `and` of two of them. -/
inductive Stmt (K : Type)
  | atom (f : K → K)
  | and (a b : Stmt K)
  | or (a b : Stmt K)
  | not (a : Stmt K)

/-- A number or an array (`/repo/hrosailing/processing/weigher.py:618-619`). -/
inductive Value (K : Type)
  | num (x : K)
  | arr (l : List K)
  deriving DecidableEq, Repr

variable {K : Type} [One K] [Sub K] [Min K] [Max K]

/-- `np.row_stack([u, v])` (`/repo/hrosailing/processing/weigher.py:664`, `:686`): numbers are arrays of shape (1, 1), arrays of length
`n` have shape (1, n). The two rows are paired; different lengths raise `ValueError`. -/
def rowStack : Value K → Value K → Except PyErr (List (K × K))
  | .num x, .num y => .ok [(x, y)]
  | .num x, .arr m => if m.length = 1 then .ok (List.zip [x] m) else .error .valueError
  | .arr l, .num y => if l.length = 1 then .ok (List.zip l [y]) else .error .valueError
  | .arr l, .arr m => if l.length = m.length then .ok (List.zip l m) else .error .valueError

/-- `np.min(concat, axis=0)[0]` resp. `np.max` (`/repo/hrosailing/processing/weigher.py:665`, `:687`): `IndexError` if there are no
columns. -/
def firstOf (op : K → K → K) : List (K × K) → Except PyErr (Value K)
  | [] => .error .indexError
  | c :: _ => .ok (.num (op c.1 c.2))

/-- Calling a `FuzzyBool` with a number or an array (`/repo/hrosailing/processing/weigher.py:618-634`, `:663-667`, `:685-689`, `:704`,
`:730-731`). -/
def eval : Stmt K → Value K → Except PyErr (Value K)
  | .atom f, .num x => .ok (.num (f x))
  | .atom f, .arr l => .ok (.arr (l.map f))
  | .and a b, v =>
    match eval a v with
    | .error e => .error e
    | .ok u =>
      match eval b v with
      | .error e => .error e
      | .ok w =>
        match rowStack u w with
        | .error e => .error e
        | .ok rows => firstOf min rows
  | .or a b, v =>
    match eval a v with
    | .error e => .error e
    | .ok u =>
      match eval b v with
      | .error e => .error e
      | .ok w =>
        match rowStack u w with
        | .error e => .error e
        | .ok rows => firstOf max rows
  | .not a, v =>
    match eval a v with
    | .error e => .error e
    | .ok (.num x) => .ok (.num (1 - x))
    | .ok (.arr l) => .ok (.arr (l.map (1 - ·)))

/-- `FuzzyWeigher.weigh` for an array of dimension two (`/repo/hrosailing/processing/weigher.py:887-888`): the values of the rows. -/
def weighRows (s : Stmt K) : List (List K) → Except PyErr (List (Value K))
  | [] => .ok []
  | r :: rows =>
    match eval s (.arr r) with
    | .error e => .error e
    | .ok v =>
      match weighRows s rows with
      | .error e => .error e
      | .ok vs => .ok (v :: vs)

end Verif.FuzzyArray
