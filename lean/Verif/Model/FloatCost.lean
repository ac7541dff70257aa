import Verif.Model.Course
import Verif.Model.Float64

/-!
# `cost_cruise` in double precision

Model of the places at which `cost_cruise` evaluates the cost density and of the trapezoidal rule
(`/repo/hrosailing/cruising/basics.py:349-387`) where every operation is rounded. The solution of the initial value problem, the
cost functions and the projections are parameters; the times at which the density is evaluated are numbers of hours.
-/

namespace Verif.F64

/-- One coordinate of `proj_start + s / total_s * (proj_end - proj_start)` (`/repo/hrosailing/cruising/basics.py:355`, `:377`) for
the coordinates `a` and `b` of the ends and a distance `total` other than 0. -/
noncomputable def place (a b total s : ℝ) : ℝ := fl (a + fl (fl (s / total) * fl (b - a)))

/-- `d * (y[1:] + y[:-1]) / 2.0` in `scipy.integrate.trapezoid` (`/repo/hrosailing/cruising/basics.py:277`, `:387`), where `d` are the
differences of the distances; a node is a distance with the cost density there. -/
noncomputable def panels : List (ℝ × ℝ) → List ℝ
  | (x, y) :: (x', y') :: rest => fl (fl (fl (x' - x) * fl (y + y')) / 2) :: panels ((x', y') :: rest)
  | _ => []

/-- `integration_method(costs, t_s.t)` for the default `trapezoid` (`/repo/hrosailing/cruising/basics.py:277`, `:387`): `r` is a sum of
the panels in some order; the sum of no numbers is 0. -/
def Integrated (nodes : List (ℝ × ℝ)) (r : ℝ) : Prop := Summed (panels nodes) r ∨ panels nodes = [] ∧ r = 0

/-- `x` is the result of `cost_cruise` after solving the initial value problem (`/repo/hrosailing/cruising/basics.py:369-387`); the
parameters are those of `Verif.Course.costCruise`. -/
def Costs {P : Type} (nodes : List (ℝ × ℝ)) (place : ℝ → P) (total : ℝ) (abs : ℝ → ℝ → ℝ) (dens : Option (ℝ → P → ℝ)) (x : ℝ) : Prop :=
  ∃ last, nodes.getLast? = some last ∧
    match dens with
    | none => x = abs last.2 total
    | some dens => ∃ r, Integrated (nodes.map fun n => (n.1, dens n.2 (place n.1))) r ∧ x = fl (abs last.2 total + r)

end Verif.F64
