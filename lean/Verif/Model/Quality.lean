import Mathlib.Algebra.Order.Group.Unbundled.Abs
import Mathlib.Data.Rat.Floor
import Verif.Model.Round
import Verif.Model.Dict
import Verif.Model.Injector
import Verif.Model.Pointcloud

/-!
# `hrosailing.pipeline.quality_assurance`

Model of `/repo/hrosailing/pipeline/quality_assurance.py`. Polar diagrams are functions of wind speed and wind angle which
may raise.
-/

namespace Verif.Quality

open Verif.Interp

variable {K : Type} [Field K] [LinearOrder K] [FloorRing K]

/-- `diffs` (`/repo/hrosailing/pipeline/quality_assurance.py:65`, `:107`). -/
def differences (pd : K → K → Except PyErr K) (test : List (Pt K)) : Except PyErr (List K) :=
  test.mapM fun p => do
    let v ← pd p.1.1 p.1.2
    .ok |p.2 - v|

/-- `np.mean` of a nonempty list (`/repo/hrosailing/pipeline/quality_assurance.py:69-70`). -/
def mean (l : List K) : K := l.sum / (l.length : K)

/-- The statistics of `MinimalQualityAssurance` (`/repo/hrosailing/pipeline/quality_assurance.py:66-71`). -/
structure Minimal (K : Type) where
  maxError : K
  minError : K
  averageError : K
  averageQuadraticError : K
  deriving DecidableEq, Repr

/-- `MinimalQualityAssurance.check` (`/repo/hrosailing/pipeline/quality_assurance.py:49-72`); `max` of no values raises
`ValueError`. -/
def minimalCheck (pd : K → K → Except PyErr K) (test : List (Pt K)) : Except PyErr (Minimal K) := do
  let diffs ← differences pd test
  match diffs with
  | [] => .error .valueError
  | d :: ds => .ok ⟨ds.foldl max d, ds.foldl min d, mean (d :: ds), mean ((d :: ds).map fun x => x ^ 2)⟩

/-- A value of the statistics: `None`, `nan` or a number (`/repo/hrosailing/core/computing.py:204-207`). -/
inductive Stat (K : Type)
  | missing
  | nan
  | num (x : K)
  deriving DecidableEq, Repr

/-- `safe_operation(max, l)` (`/repo/hrosailing/core/computing.py:190-207`). -/
def safeMax : List K → Stat K
  | [] => .missing
  | x :: xs => .num (xs.foldl max x)

/-- `safe_operation(min, l)` (`/repo/hrosailing/core/computing.py:190-207`). -/
def safeMin : List K → Stat K
  | [] => .missing
  | x :: xs => .num (xs.foldl min x)

/-- `safe_operation(np.mean, l)` (`/repo/hrosailing/core/computing.py:190-207`): the mean of no values is `nan`, without
an exception. -/
def safeMean : List K → Stat K
  | [] => .nan
  | x :: xs => .num (mean (x :: xs))

/-- `zero_diffs` (`/repo/hrosailing/pipeline/quality_assurance.py:108-112`). -/
def zeroValues (pd : K → K → Except PyErr K) : Except PyErr (List K) :=
  ((Injector.linspace 0 20 20).flatMap fun ws => [(ws, 0), (ws, 360)]).mapM fun g => do
    let v ← pd g.1 g.2
    .ok |v|

/-- One step of the loop for `tested_tuples` (`/repo/hrosailing/pipeline/quality_assurance.py:114-119`); `none` is
`np.inf`. -/
def testedStep (d : Dict (ℤ × ℤ) (Option K × K)) (p : Pt K) : Dict (ℤ × ℤ) (Option K × K) :=
  let key := (pyRound p.1.1, pyRound p.1.2)
  let prev : Option K × K := match Dict.get? d key with
    | some v => v
    | none => (none, 0)
  let mn := match prev.1 with
    | some m => min p.2 m
    | none => p.2
  Dict.set d key (some mn, max p.2 prev.2)

/-- `tested_tuples` (`/repo/hrosailing/pipeline/quality_assurance.py:113-119`). -/
def tested (test : List (Pt K)) : Dict (ℤ × ℤ) (Option K × K) := test.foldl testedStep []

/-- The differences of the boat speeds of each of the tuples (`/repo/hrosailing/pipeline/quality_assurance.py:137-140`);
no minimum is infinite. -/
def localDifferences (d : Dict (ℤ × ℤ) (Option K × K)) : List K := d.map fun e => e.2.2 - e.2.1.getD 0

/-- The statistics of `ComformingQualityAssurance` (`/repo/hrosailing/pipeline/quality_assurance.py:121-142`). -/
structure Comforming (K : Type) where
  maxError : Stat K
  minError : Stat K
  averageError : Stat K
  averageQuadraticError : Stat K
  maxZeroVal : Stat K
  minZeroVal : Stat K
  averageZeroVal : Stat K
  averageQuadraticZeroVal : Stat K
  testCovering : Nat
  averageLocalTestDataDifference : Stat K
  deriving DecidableEq, Repr

/-- `ComformingQualityAssurance.check` (`/repo/hrosailing/pipeline/quality_assurance.py:85-143`). -/
def comformingCheck (pd : K → K → Except PyErr K) (test : List (Pt K)) : Except PyErr (Comforming K) := do
  let diffs ← differences pd test
  let zeros ← zeroValues pd
  let tuples := tested test
  .ok {
    maxError := safeMax diffs
    minError := safeMin diffs
    averageError := safeMean diffs
    averageQuadraticError := safeMean (diffs.map fun x => x ^ 2)
    maxZeroVal := safeMax zeros
    minZeroVal := safeMin zeros
    averageZeroVal := safeMean zeros
    averageQuadraticZeroVal := safeMean (zeros.map fun x => x ^ 2)
    testCovering := tuples.length
    averageLocalTestDataDifference := safeMean (localDifferences tuples) }

end Verif.Quality
