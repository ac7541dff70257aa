/-!
# Common python notions

Exceptions as values, results of mutating methods and list indexing.
-/

namespace Verif

/-- The python exceptions raised by the modelled code (e.g. `ValueError` in
`/repo/hrosailing/core/data.py:166`, `TypeError` in `:198`, `KeyError`/`IndexError` raised implicitly by
subscription in `:540`, `:352`; `RuntimeError` in `/repo/hrosailing/pipeline/pipeline.py:293`). -/
inductive PyErr
  | valueError | typeError | keyError | indexError | runtimeError | zeroDivisionError
  | attributeError | otherError
  deriving DecidableEq, Repr

/-- Outcome of a mutating method: the state of the object afterwards together with the exception that
was raised, if any. (The state is observable also after a caught exception,
e.g. `/repo/hrosailing/core/data.py:164-169`.) -/
abbrev Res (σ : Type) := σ × Option PyErr

namespace Res

/-- Sequential execution of two statements: the second is skipped if the first raised
(plain python semantics, used for `/repo/hrosailing/core/data.py:201-209`). -/
def andThen {σ : Type} (r : Res σ) (f : σ → Res σ) : Res σ :=
  match r with
  | (s, none) => f s
  | (s, some e) => (s, some e)

/-- A python `for` loop over a list with a mutating body, aborted by the first exception
(used for `/repo/hrosailing/core/data.py:212-216` and `:256-262`). -/
def forEach {σ ι : Type} (body : σ → ι → Res σ) : List ι → σ → Res σ
  | [], s => (s, none)
  | x :: xs, s => (body s x).andThen (forEach body xs)

end Res

/-- python subscription `l[i]` of a list with an arbitrary, possibly negative, integer; `none` stands for
`IndexError` (used for `/repo/hrosailing/core/data.py:205`, `:352`, `:358`, `:541`). -/
def pyIndex {α : Type} (l : List α) (i : Int) : Option α :=
  if 0 ≤ i then l[i.toNat]?
  else if 0 ≤ i + l.length then l[(i + l.length).toNat]?
  else none

end Verif
