import Verif.Model.Dict

/-!
# The dictionaries of statistics as objects

Model of `/repo/hrosailing/core/statistics.py` and of the way `/repo/hrosailing/pipeline/pipeline.py` collects the
dictionaries. The dictionaries are objects in a heap: a reference is the position in the heap. Components are numbered.

Simplification: what a method of a component does besides setting its statistics is left out; a call is given by the
keyword arguments of `set_statistics`, or `none` if the method does not call it. Methods that raise are left out.
-/

namespace Verif.StatsObj

variable {V : Type}

/-- The dictionaries and the attributes `_statistics` of the components
(`/repo/hrosailing/core/statistics.py:11-19`). -/
structure World (V : Type) where
  heap : List (Dict String V)
  latest : Nat → Nat

/-- A new dictionary (`/repo/hrosailing/core/statistics.py:12`, `:14`, `/repo/hrosailing/pipeline/pipeline.py:447`, `:544`,
`:558`). -/
def newDict (w : World V) (d : Dict String V) : World V × Nat := (⟨w.heap ++ [d], w.latest⟩, w.heap.length)

/-- `set_statistics(**kwargs)` (`/repo/hrosailing/core/statistics.py:14-19`): the keyword arguments are a new dictionary. -/
def setStatistics (w : World V) (c : Nat) (d : Dict String V) : World V :=
  let (w, r) := newDict w d
  ⟨w.heap, fun c' => if c' = c then r else w.latest c'⟩

/-- `get_latest_statistics` (`/repo/hrosailing/core/statistics.py:21-28`): the dictionary itself, not a copy. -/
def getLatest (w : World V) (c : Nat) : Nat := w.latest c

/-- A method of a component (e.g. `/repo/hrosailing/processing/filter.py:95-100`). -/
def runMethod (w : World V) (c : Nat) : Option (Dict String V) → World V
  | none => w
  | some d => setStatistics w c d

/-- `_collect` (`/repo/hrosailing/pipeline/pipeline.py:522-525`). -/
def collect (w : World V) (c : Nat) (d : Option (Dict String V)) : World V × Nat :=
  let w := runMethod w c d
  (w, getLatest w c)

/-- `d.update(e)` for dictionaries (`/repo/hrosailing/pipeline/pipeline.py:454`). -/
def merge (d : Dict String V) : Dict String V → Dict String V
  | [] => d
  | (k, v) :: e => merge (d.set k v) e

/-- `influence_statistics.update(influence_fit_statistics)` (`/repo/hrosailing/pipeline/pipeline.py:454`), in place. -/
def updateInPlace (w : World V) (r s : Nat) : World V :=
  ⟨w.heap.modify r fun d => merge d (w.heap.getD s []), w.latest⟩

/-- The sources of dictionaries of statistics: `_collect` for a component, or a new dictionary, for a stage which is
switched off or has no data (`/repo/hrosailing/pipeline/pipeline.py:391-397`, `:543-544`, `:555-559`). -/
inductive Call (V : Type)
  | component (c : Nat) (d : Option (Dict String V))
  | fresh (d : Dict String V)

/-- One source (`/repo/hrosailing/pipeline/pipeline.py:522-525`). -/
def runCall (w : World V) : Call V → World V × Nat
  | .component c d => collect w c d
  | .fresh d => newDict w d

/-- Several sources, one after another (`/repo/hrosailing/pipeline/pipeline.py:509-511`). -/
def runCalls (w : World V) : List (Call V) → World V × List Nat
  | [] => (w, [])
  | c :: l =>
    let (w, r) := runCall w c
    let (w, rs) := runCalls w l
    (w, r :: rs)

/-- The calls during `_preprocess` (`/repo/hrosailing/pipeline/pipeline.py:384-483`): before the influence model is used,
by its method `fit` if it is fitted, by its method `remove_influence`, and afterwards. -/
structure Phase (V : Type) where
  before : List (Call V)
  fit : Option (Option (Dict String V))
  remove : Option (Dict String V)
  after : List (Call V)

/-- The references returned by `_preprocess` (`/repo/hrosailing/pipeline/pipeline.py:466-483`). -/
structure Refs where
  before : List Nat
  influence : Nat
  after : List Nat
  deriving DecidableEq, Repr

/-- Fitting the influence model (`/repo/hrosailing/pipeline/pipeline.py:441-447`). -/
def fitCall (w : World V) (infl : Nat) : Option (Option (Dict String V)) → World V × Nat
  | some d => collect w infl d
  | none => newDict w []

/-- `_preprocess` (`/repo/hrosailing/pipeline/pipeline.py:384-483`) for the influence model with number `infl`. -/
def preprocess (w : World V) (infl : Nat) (p : Phase V) : World V × Refs :=
  let (w, before) := runCalls w p.before
  let (w, fitRef) := fitCall w infl p.fit
  let (w, ref) := collect w infl p.remove
  let w := updateInPlace w ref fitRef
  let (w, after) := runCalls w p.after
  (w, ⟨before, ref, after⟩)

end Verif.StatsObj
