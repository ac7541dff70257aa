import Verif.Model.FloatWeigher
import Verif.Model.WeigherData

/-!
# `FluctuationWeigher` in double precision

Model of `/repo/hrosailing/processing/weigher.py:515-546` where the result of each operation is rounded to the nearest double.
Sums are formed in any order (`Summed`). Time stamps and time spans are whole microseconds in python, so their comparisons are
exact (`Weigher.windowOf`). Bounds are not zero (`0 / 0` is `nan`, see C80 and C177).
-/

namespace Verif.F64

/-- `np.std` of doubles (`/repo/hrosailing/processing/weigher.py:538`). -/
def Std (l : List ℝ) (σ : ℝ) : Prop :=
  ∃ m v, Mean l m ∧ Mean (l.map fun x => fl (fl (x - m) * fl (x - m))) v ∧ σ = fl (Real.sqrt v)

section fold

variable {K : Type} [Field K] [LinearOrder K] [IsStrictOrderedRing K] [FloorRing K]

/-- The update of the weight for a standard deviation and an upper bound (`/repo/hrosailing/processing/weigher.py:539-542`). -/
def fluctuationStep (w : K) (c : K × K) : K :=
  if c.1 > c.2 then 0 else fl (w * fl (fl (c.2 - c.1) / c.2))

/-- The loop over the columns (`/repo/hrosailing/processing/weigher.py:536-542`), beginning with the weight 1 of
`/repo/hrosailing/processing/weigher.py:523`. -/
def fluctuationFold (cs : List (K × K)) : K := cs.foldl fluctuationStep 1

end fold

/-- The weight of a row with the given first and last row of the window (`/repo/hrosailing/processing/weigher.py:536-542`); the
columns come with their bounds. -/
def Fluctuation (a b : Nat) (cols : List (List ℝ × ℝ)) (w : ℝ) : Prop :=
  ∃ σs, List.Forall₂ (fun c σ => Std ((c.1.drop a).take (b + 1 - a)) σ) cols σs ∧
    w = fluctuationFold (List.zip σs (cols.map Prod.snd))

/-- `FluctuationWeigher.weigh` (`/repo/hrosailing/processing/weigher.py:515-546`), see `Weigher.fluctuationWeigh`. -/
def FluctuationWeighed (attributes : List String) (before after : ℝ) (bounds : List ℝ) (times : List ℝ)
    (D : Weigher.FloatData ℝ) (ws : List ℝ) : Prop :=
  let E := Weigher.selectColumns (some attributes) D
  ∃ ubs, Weigher.boundsFor attributes bounds (E.cols.map Prod.fst) = .ok ubs ∧ E.cols ≠ [] ∧
    List.Forall₂ (fun dt w => ∃ a b, Weigher.windowOf before after times dt = .ok (a, b) ∧
      Fluctuation a b (List.zip (E.cols.map Prod.snd) ubs) w) (times.take E.nRows) ws

end Verif.F64
