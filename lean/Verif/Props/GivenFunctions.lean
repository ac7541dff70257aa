import Verif.Model.GivenFunctions
import Verif.Props.Curve
import Verif.Props.ExactRows
import Mathlib.Tactic.IntervalCases
import Mathlib.Tactic.LinearCombination

/-!
# Property C174: the parameters of the given model functions
-/

namespace Verif.Given

open Verif.Curve
open Verif.Regr (Func initVals Retry)

/-- The numbers of parameters. -/
def Name.count : Name → Nat
  | .concaveDtWa => 11
  | .waSDt => 14
  | .sDtWaGauss => 10
  | .sSDtWaGaussComb => 12
  | .sWaGauss => 11
  | .sWaGaussAndSquare => 10

theorem concave_count (x y : ℝ) (p : List ℝ) : (p.length < 11 → wsConcaveDtWa x y p = .error .indexError) ∧
    (11 ≤ p.length → ∃ v, wsConcaveDtWa x y p = .ok v) := by
  rcases p with _ | ⟨a0, _ | ⟨a1, _ | ⟨a2, _ | ⟨a3, _ | ⟨a4, _ | ⟨a5, _ | ⟨a6, _ | ⟨a7, _ | ⟨a8, _ | ⟨a9, _ | ⟨a10, p⟩⟩⟩⟩⟩⟩⟩⟩⟩⟩⟩ <;>
  simp [wsConcaveDtWa, concaveFunction, invertedShiftedParabola, wsTimesWa, pick, param, bind, Except.bind, pure, Except.pure]

theorem waSDt_count (x y : ℝ) (p : List ℝ) : (p.length < 14 → wsWaSDt x y p = .error .indexError) ∧
    (14 ≤ p.length → ∃ v, wsWaSDt x y p = .ok v) := by
  rcases p with _ | ⟨a0, _ | ⟨a1, _ | ⟨a2, _ | ⟨a3, _ | ⟨a4, _ | ⟨a5, _ | ⟨a6, _ | ⟨a7, _ | ⟨a8, _ | ⟨a9, _ | ⟨a10, _ | ⟨a11, _ | ⟨a12,
    _ | ⟨a13, p⟩⟩⟩⟩⟩⟩⟩⟩⟩⟩⟩⟩⟩⟩ <;>
  simp [wsWaSDt, sShaped, wsTimesWa, pick, param, bind, Except.bind, pure, Except.pure]

theorem sDtWaGauss_count (x y : ℝ) (p : List ℝ) : (p.length < 10 → wsSDtWaGauss x y p = .error .indexError) ∧
    (10 ≤ p.length → ∃ v, wsSDtWaGauss x y p = .ok v) := by
  rcases p with _ | ⟨a0, _ | ⟨a1, _ | ⟨a2, _ | ⟨a3, _ | ⟨a4, _ | ⟨a5, _ | ⟨a6, _ | ⟨a7, _ | ⟨a8, _ | ⟨a9, p⟩⟩⟩⟩⟩⟩⟩⟩⟩⟩ <;>
  simp [wsSDtWaGauss, sShaped, gaussianModel, pick, param, bind, Except.bind, pure, Except.pure]

theorem comb_count (x y : ℝ) (p : List ℝ) : (p.length < 12 → wsSSDtWaGaussComb x y p = .error .indexError) ∧
    (12 ≤ p.length → ∃ v, wsSSDtWaGaussComb x y p = .ok v) := by
  rcases p with _ | ⟨a0, _ | ⟨a1, _ | ⟨a2, _ | ⟨a3, _ | ⟨a4, _ | ⟨a5, _ | ⟨a6, _ | ⟨a7, _ | ⟨a8, _ | ⟨a9, _ | ⟨a10, _ | ⟨a11, p⟩⟩⟩⟩⟩⟩⟩⟩⟩⟩⟩⟩ <;>
  simp [wsSSDtWaGaussComb, sShaped, gaussianModel, wsTimesWa, pick, param, bind, Except.bind, pure, Except.pure]

theorem gauss_count (x y : ℝ) (p : List ℝ) : (p.length < 11 → wsSWaGauss x y p = .error .indexError) ∧
    (11 ≤ p.length → ∃ v, wsSWaGauss x y p = .ok v) := by
  rcases p with _ | ⟨a0, _ | ⟨a1, _ | ⟨a2, _ | ⟨a3, _ | ⟨a4, _ | ⟨a5, _ | ⟨a6, _ | ⟨a7, _ | ⟨a8, _ | ⟨a9, _ | ⟨a10, p⟩⟩⟩⟩⟩⟩⟩⟩⟩⟩⟩ <;>
  simp [wsSWaGauss, sShaped, gaussianModel, param, bind, Except.bind, pure, Except.pure]

theorem square_count (x y : ℝ) (p : List ℝ) : (p.length < 10 → wsSWaGaussAndSquare x y p = .error .indexError) ∧
    (10 ≤ p.length → ∃ v, wsSWaGaussAndSquare x y p = .ok v) := by
  rcases p with _ | ⟨a0, _ | ⟨a1, _ | ⟨a2, _ | ⟨a3, _ | ⟨a4, _ | ⟨a5, _ | ⟨a6, _ | ⟨a7, _ | ⟨a8, _ | ⟨a9, p⟩⟩⟩⟩⟩⟩⟩⟩⟩⟩ <;>
  simp [wsSWaGaussAndSquare, sShaped, gaussianModel, pick, param, bind, Except.bind, pure, Except.pure]

/-- **C174**: each of the six functions has a value exactly if it gets at least 11, 14, 10, 12, 11 resp. 10 parameters, whatever
they are, and raises `IndexError` otherwise. -/
theorem C174_count (f : Name) (x y : ℝ) (p : List ℝ) : (p.length < f.count → f.func x y p = .error .indexError) ∧
    (f.count ≤ p.length → ∃ v, f.func x y p = .ok v) := by
  cases f
  · exact concave_count x y p
  · exact waSDt_count x y p
  · exact sDtWaGauss_count x y p
  · exact comb_count x y p
  · exact gauss_count x y p
  · exact square_count x y p

/-- **C174**: `LeastSquareRegressor` without initial values starts with as many ones as the function reads parameters. -/
theorem C174_initial (f : Name) : ∃ fuel, initVals (vectorised f.func) none fuel = some (.ok (List.replicate f.count 1)) := by
  refine (Regr.C98_exactly (f := vectorised f.func) (show 2 < 3 by decide) _).2 ⟨f.count, rfl, ?_, ?_⟩
  · obtain ⟨v, hv⟩ := (C174_count f 0 0 (List.replicate f.count 1)).2 (by simp)
    exact ⟨[v], by simp [Func.fitting, Func.call, vectorised, hv, bind, Except.bind, pure, Except.pure]⟩
  · intro j hj
    left
    have hv := (C174_count f 0 0 (List.replicate j 1)).1 (by simpa using hj)
    simp [Func.fitting, Func.call, vectorised, hv, bind, Except.bind]

example : ∃ fuel, initVals (vectorised wsSWaGauss) none fuel = some (.ok (List.replicate 11 1)) := C174_initial .sWaGauss

/-- **C174**: fitted are the values of the function itself: with enough parameters the regressor gets for each pair of a wind speed
and a wind angle the value of the function at this wind, in the order of the data. -/
theorem C174_values (f : Name) {params : List ℝ} (hp : f.count ≤ params.length) (wind : List (ℝ × ℝ)) :
    ∃ vs, (vectorised f.func).fitting wind params = .ok vs ∧
      List.Forall₂ (fun p v => f.func p.1 p.2 params = .ok v) wind vs := by
  have h : ∀ wind : List (ℝ × ℝ), ∃ vs, (wind.mapM fun p => f.func p.1 p.2 params) = .ok vs ∧
      List.Forall₂ (fun p v => f.func p.1 p.2 params = .ok v) wind vs := by
    intro wind
    induction wind with
    | nil => exact ⟨[], rfl, .nil⟩
    | cons p wind ih =>
      obtain ⟨vs, h1, h2⟩ := ih
      obtain ⟨v, hv⟩ := (C174_count f p.1 p.2 params).2 hp
      exact ⟨v :: vs, by simp [List.mapM_cons, hv, h1, bind, Except.bind, pure, Except.pure], .cons hv h2⟩
  obtain ⟨vs, h1, h2⟩ := h wind
  refine ⟨vs, ?_, h2⟩
  have hz : (wind.map (·.1)).zip (wind.map (·.2)) = wind := by
    rw [List.zip_map', List.map_id']
  rw [← h1]
  simp only [Func.fitting, Func.call, vectorised, hz]
  simp

example : ∃ vs, (vectorised wsSWaGauss).fitting [(10, 90), (12, 45)] (List.replicate 11 1) = .ok vs ∧
    List.Forall₂ (fun p v => wsSWaGauss p.1 p.2 (List.replicate 11 1) = .ok v) [(10, 90), (12, 45)] vs :=
  C174_values .sWaGauss (by simp [Name.count]) _

/-! ### All parameters matter -/

/-- The `s`-shaped part. -/
noncomputable def sg (a0 a1 a2 a3 x : ℝ) : ℝ := a2 / (1 + Real.exp (a0 - a1 * x)) - a3 * x ^ 2

/-- The bell-shaped part. -/
noncomputable def ga (a b c x : ℝ) : ℝ := a * Real.exp (-(x - b) ^ 2 / (2 * c))

theorem exp_sigma {u v : ℝ} (h : 1 / (1 + Real.exp u) = 1 / (1 + Real.exp v)) : u = v := by
  have hu := Real.exp_pos u
  have hv := Real.exp_pos v
  rw [div_eq_div_iff (by positivity) (by positivity)] at h
  exact Real.exp_injective (by linarith)

theorem sg_matters : sg 1 1 1 1 1 ≠ sg 2 1 1 1 1 ∧ sg 1 1 1 1 1 ≠ sg 1 2 1 1 1 ∧ sg 1 1 1 1 1 ≠ sg 1 1 2 1 1 ∧
    sg 1 1 1 1 1 ≠ sg 1 1 1 2 1 := by
  refine ⟨fun h => ?_, fun h => ?_, fun h => ?_, fun h => ?_⟩
  · have := exp_sigma (u := 1 - 1 * 1) (v := 2 - 1 * 1) (by unfold sg at h; linarith)
    norm_num at this
  · have := exp_sigma (u := 1 - 1 * 1) (v := 1 - 2 * 1) (by unfold sg at h; linarith)
    norm_num at this
  · norm_num [sg] at h
  · norm_num [sg] at h

theorem ga_matters : ga 1 1 1 2 ≠ ga 2 1 1 2 ∧ ga 1 1 1 2 ≠ ga 1 2 1 2 ∧ ga 1 1 1 2 ≠ ga 1 1 2 2 := by
  refine ⟨fun h => ?_, fun h => ?_, fun h => ?_⟩
  · unfold ga at h
    have := Real.exp_pos (-(2 - 1) ^ 2 / (2 * 1))
    linarith
  · unfold ga at h
    have := Real.exp_injective (show Real.exp (-(2 - 1) ^ 2 / (2 * 1)) = Real.exp (-(2 - 2) ^ 2 / (2 * 1)) by linarith)
    norm_num at this
  · unfold ga at h
    have := Real.exp_injective (show Real.exp (-(2 - 1) ^ 2 / (2 * 1)) = Real.exp (-(2 - 1) ^ 2 / (2 * 2)) by linarith)
    norm_num at this

/-- The values of the functions. -/
theorem values (x y a0 a1 a2 a3 a4 a5 a6 a7 a8 a9 a10 a11 a12 a13 : ℝ) :
    wsConcaveDtWa x y [a0, a1, a2, a3, a4, a5, a6, a7, a8, a9, a10] =
      .ok (a0 + a1 * x - a2 * x ^ 2 + a3 * y + a5 * (y - a4) ^ 2 + a6 * x * y + a7 * (360 - y) +
        a9 * ((360 - y) - a8) ^ 2 + a10 * x * (360 - y)) ∧
    wsWaSDt x y [a0, a1, a2, a3, a4, a5, a6, a7, a8, a9, a10, a11, a12, a13] =
      .ok (sg a0 a1 a2 a3 x + sg a4 a5 a6 a7 y + a8 * x * y + sg a9 a10 a11 a12 (360 - y) + a13 * x * (360 - y)) ∧
    wsSDtWaGauss x y [a0, a1, a2, a3, a4, a5, a6, a7, a8, a9] = .ok (sg a0 a1 a2 a3 x + ga a4 a5 a6 y + ga a7 a8 a9 (360 - y)) ∧
    wsSSDtWaGaussComb x y [a0, a1, a2, a3, a4, a5, a6, a7, a8, a9, a10, a11] =
      .ok (sg a0 a1 a2 a3 x + ga a4 a5 a6 y + a7 * x * y + ga a8 a9 a10 (360 - y) + a11 * x * (360 - y)) ∧
    wsSWaGauss x y [a0, a1, a2, a3, a4, a5, a6, a7, a8, a9, a10] =
      .ok (sg a0 a1 a2 a3 x + ga a4 a5 a6 y + ga a8 a9 a10 (360 - y)) ∧
    wsSWaGaussAndSquare x y [a0, a1, a2, a3, a4, a5, a6, a7, a8, a9] =
      .ok ((sg a0 a1 a2 a3 x + x * (ga a4 a5 a6 y + ga a7 a8 a9 (360 - y))) * y * (360 - y)) := by
  obtain ⟨h1, h2, h3, h4, h5⟩ := formulas x y a0 a1 a2 a3 a4 a5 a6 a7 a8 a9 a10 a11 a12 a13
  refine ⟨h1, ?_, h3, h4, ?_, h5⟩
  · rw [h2]
    congr 1
    unfold sg
    ring
  · have h6 := gauss_formula x y a0 a1 a2 a3 a4 a5 a6 a7 a8 a9 a10 0
    have : wsSWaGauss x y [a0, a1, a2, a3, a4, a5, a6, a7, a8, a9, a10] =
        wsSWaGauss x y [a0, a1, a2, a3, a4, a5, a6, a7, a8, a9, a10, 0] := by
      simp [wsSWaGauss, sShaped, gaussianModel, param, bind, Except.bind, pure, Except.pure]
    rw [this, h6]
    rfl

/-- The `i`-th of `n` parameters matters: if it is changed, while the others are one, then the function changes somewhere. -/
def Matters (f : ℝ → ℝ → List ℝ → Except PyErr ℝ) (n i : Nat) : Prop :=
  ∃ x y t u v, f x y (List.replicate n 1) = .ok u ∧ f x y ((List.replicate n 1).set i t) = .ok v ∧ u ≠ v

theorem concave_matters {i : Nat} (hi : i < 11) : Matters wsConcaveDtWa 11 i := by
  interval_cases i
  · exact ⟨1, 3, 2, _, _, (values 1 3 1 1 1 1 1 1 1 1 1 1 1 0 0 0).1, (values 1 3 2 1 1 1 1 1 1 1 1 1 1 0 0 0).1, fun h => absurd h (by norm_num)⟩
  · exact ⟨1, 3, 2, _, _, (values 1 3 1 1 1 1 1 1 1 1 1 1 1 0 0 0).1, (values 1 3 1 2 1 1 1 1 1 1 1 1 1 0 0 0).1, fun h => absurd h (by norm_num)⟩
  · exact ⟨1, 3, 2, _, _, (values 1 3 1 1 1 1 1 1 1 1 1 1 1 0 0 0).1, (values 1 3 1 1 2 1 1 1 1 1 1 1 1 0 0 0).1, fun h => absurd h (by norm_num)⟩
  · exact ⟨1, 3, 2, _, _, (values 1 3 1 1 1 1 1 1 1 1 1 1 1 0 0 0).1, (values 1 3 1 1 1 2 1 1 1 1 1 1 1 0 0 0).1, fun h => absurd h (by norm_num)⟩
  · exact ⟨1, 3, 2, _, _, (values 1 3 1 1 1 1 1 1 1 1 1 1 1 0 0 0).1, (values 1 3 1 1 1 1 2 1 1 1 1 1 1 0 0 0).1, fun h => absurd h (by norm_num)⟩
  · exact ⟨1, 3, 2, _, _, (values 1 3 1 1 1 1 1 1 1 1 1 1 1 0 0 0).1, (values 1 3 1 1 1 1 1 2 1 1 1 1 1 0 0 0).1, fun h => absurd h (by norm_num)⟩
  · exact ⟨1, 3, 2, _, _, (values 1 3 1 1 1 1 1 1 1 1 1 1 1 0 0 0).1, (values 1 3 1 1 1 1 1 1 2 1 1 1 1 0 0 0).1, fun h => absurd h (by norm_num)⟩
  · exact ⟨1, 3, 2, _, _, (values 1 3 1 1 1 1 1 1 1 1 1 1 1 0 0 0).1, (values 1 3 1 1 1 1 1 1 1 2 1 1 1 0 0 0).1, fun h => absurd h (by norm_num)⟩
  · exact ⟨1, 3, 2, _, _, (values 1 3 1 1 1 1 1 1 1 1 1 1 1 0 0 0).1, (values 1 3 1 1 1 1 1 1 1 1 2 1 1 0 0 0).1, fun h => absurd h (by norm_num)⟩
  · exact ⟨1, 3, 2, _, _, (values 1 3 1 1 1 1 1 1 1 1 1 1 1 0 0 0).1, (values 1 3 1 1 1 1 1 1 1 1 1 2 1 0 0 0).1, fun h => absurd h (by norm_num)⟩
  · exact ⟨1, 3, 2, _, _, (values 1 3 1 1 1 1 1 1 1 1 1 1 1 0 0 0).1, (values 1 3 1 1 1 1 1 1 1 1 1 1 2 0 0 0).1, fun h => absurd h (by norm_num)⟩

theorem waSDt_matters {i : Nat} (hi : i < 14) : Matters wsWaSDt 14 i := by
  interval_cases i
  · exact ⟨1, 1, 2, _, _, (values 1 1 1 1 1 1 1 1 1 1 1 1 1 1 1 1).2.1, (values 1 1 2 1 1 1 1 1 1 1 1 1 1 1 1 1).2.1, fun h => sg_matters.1 (by norm_num at h ⊢; linarith)⟩
  · exact ⟨1, 1, 2, _, _, (values 1 1 1 1 1 1 1 1 1 1 1 1 1 1 1 1).2.1, (values 1 1 1 2 1 1 1 1 1 1 1 1 1 1 1 1).2.1, fun h => sg_matters.2.1 (by norm_num at h ⊢; linarith)⟩
  · exact ⟨1, 1, 2, _, _, (values 1 1 1 1 1 1 1 1 1 1 1 1 1 1 1 1).2.1, (values 1 1 1 1 2 1 1 1 1 1 1 1 1 1 1 1).2.1, fun h => sg_matters.2.2.1 (by norm_num at h ⊢; linarith)⟩
  · exact ⟨1, 1, 2, _, _, (values 1 1 1 1 1 1 1 1 1 1 1 1 1 1 1 1).2.1, (values 1 1 1 1 1 2 1 1 1 1 1 1 1 1 1 1).2.1, fun h => sg_matters.2.2.2 (by norm_num at h ⊢; linarith)⟩
  · exact ⟨1, 1, 2, _, _, (values 1 1 1 1 1 1 1 1 1 1 1 1 1 1 1 1).2.1, (values 1 1 1 1 1 1 2 1 1 1 1 1 1 1 1 1).2.1, fun h => sg_matters.1 (by norm_num at h ⊢; linarith)⟩
  · exact ⟨1, 1, 2, _, _, (values 1 1 1 1 1 1 1 1 1 1 1 1 1 1 1 1).2.1, (values 1 1 1 1 1 1 1 2 1 1 1 1 1 1 1 1).2.1, fun h => sg_matters.2.1 (by norm_num at h ⊢; linarith)⟩
  · exact ⟨1, 1, 2, _, _, (values 1 1 1 1 1 1 1 1 1 1 1 1 1 1 1 1).2.1, (values 1 1 1 1 1 1 1 1 2 1 1 1 1 1 1 1).2.1, fun h => sg_matters.2.2.1 (by norm_num at h ⊢; linarith)⟩
  · exact ⟨1, 1, 2, _, _, (values 1 1 1 1 1 1 1 1 1 1 1 1 1 1 1 1).2.1, (values 1 1 1 1 1 1 1 1 1 2 1 1 1 1 1 1).2.1, fun h => sg_matters.2.2.2 (by norm_num at h ⊢; linarith)⟩
  · exact ⟨1, 1, 2, _, _, (values 1 1 1 1 1 1 1 1 1 1 1 1 1 1 1 1).2.1, (values 1 1 1 1 1 1 1 1 1 1 2 1 1 1 1 1).2.1, fun h => by norm_num at h⟩
  · exact ⟨1, 359, 2, _, _, (values 1 359 1 1 1 1 1 1 1 1 1 1 1 1 1 1).2.1, (values 1 359 1 1 1 1 1 1 1 1 1 2 1 1 1 1).2.1, fun h => sg_matters.1 (by norm_num at h ⊢; linarith)⟩
  · exact ⟨1, 359, 2, _, _, (values 1 359 1 1 1 1 1 1 1 1 1 1 1 1 1 1).2.1, (values 1 359 1 1 1 1 1 1 1 1 1 1 2 1 1 1).2.1, fun h => sg_matters.2.1 (by norm_num at h ⊢; linarith)⟩
  · exact ⟨1, 359, 2, _, _, (values 1 359 1 1 1 1 1 1 1 1 1 1 1 1 1 1).2.1, (values 1 359 1 1 1 1 1 1 1 1 1 1 1 2 1 1).2.1, fun h => sg_matters.2.2.1 (by norm_num at h ⊢; linarith)⟩
  · exact ⟨1, 359, 2, _, _, (values 1 359 1 1 1 1 1 1 1 1 1 1 1 1 1 1).2.1, (values 1 359 1 1 1 1 1 1 1 1 1 1 1 1 2 1).2.1, fun h => sg_matters.2.2.2 (by norm_num at h ⊢; linarith)⟩
  · exact ⟨1, 1, 2, _, _, (values 1 1 1 1 1 1 1 1 1 1 1 1 1 1 1 1).2.1, (values 1 1 1 1 1 1 1 1 1 1 1 1 1 1 1 2).2.1, fun h => by norm_num at h⟩

theorem sDtWaGauss_matters {i : Nat} (hi : i < 10) : Matters wsSDtWaGauss 10 i := by
  interval_cases i
  · exact ⟨1, 2, 2, _, _, (values 1 2 1 1 1 1 1 1 1 1 1 1 0 0 0 0).2.2.1, (values 1 2 2 1 1 1 1 1 1 1 1 1 0 0 0 0).2.2.1, fun h => sg_matters.1 (by norm_num at h ⊢; linarith)⟩
  · exact ⟨1, 2, 2, _, _, (values 1 2 1 1 1 1 1 1 1 1 1 1 0 0 0 0).2.2.1, (values 1 2 1 2 1 1 1 1 1 1 1 1 0 0 0 0).2.2.1, fun h => sg_matters.2.1 (by norm_num at h ⊢; linarith)⟩
  · exact ⟨1, 2, 2, _, _, (values 1 2 1 1 1 1 1 1 1 1 1 1 0 0 0 0).2.2.1, (values 1 2 1 1 2 1 1 1 1 1 1 1 0 0 0 0).2.2.1, fun h => sg_matters.2.2.1 (by norm_num at h ⊢; linarith)⟩
  · exact ⟨1, 2, 2, _, _, (values 1 2 1 1 1 1 1 1 1 1 1 1 0 0 0 0).2.2.1, (values 1 2 1 1 1 2 1 1 1 1 1 1 0 0 0 0).2.2.1, fun h => sg_matters.2.2.2 (by norm_num at h ⊢; linarith)⟩
  · exact ⟨1, 2, 2, _, _, (values 1 2 1 1 1 1 1 1 1 1 1 1 0 0 0 0).2.2.1, (values 1 2 1 1 1 1 2 1 1 1 1 1 0 0 0 0).2.2.1, fun h => ga_matters.1 (by norm_num at h ⊢; linarith)⟩
  · exact ⟨1, 2, 2, _, _, (values 1 2 1 1 1 1 1 1 1 1 1 1 0 0 0 0).2.2.1, (values 1 2 1 1 1 1 1 2 1 1 1 1 0 0 0 0).2.2.1, fun h => ga_matters.2.1 (by norm_num at h ⊢; linarith)⟩
  · exact ⟨1, 2, 2, _, _, (values 1 2 1 1 1 1 1 1 1 1 1 1 0 0 0 0).2.2.1, (values 1 2 1 1 1 1 1 1 2 1 1 1 0 0 0 0).2.2.1, fun h => ga_matters.2.2 (by norm_num at h ⊢; linarith)⟩
  · exact ⟨1, 358, 2, _, _, (values 1 358 1 1 1 1 1 1 1 1 1 1 0 0 0 0).2.2.1, (values 1 358 1 1 1 1 1 1 1 2 1 1 0 0 0 0).2.2.1, fun h => ga_matters.1 (by norm_num at h ⊢; linarith)⟩
  · exact ⟨1, 358, 2, _, _, (values 1 358 1 1 1 1 1 1 1 1 1 1 0 0 0 0).2.2.1, (values 1 358 1 1 1 1 1 1 1 1 2 1 0 0 0 0).2.2.1, fun h => ga_matters.2.1 (by norm_num at h ⊢; linarith)⟩
  · exact ⟨1, 358, 2, _, _, (values 1 358 1 1 1 1 1 1 1 1 1 1 0 0 0 0).2.2.1, (values 1 358 1 1 1 1 1 1 1 1 1 2 0 0 0 0).2.2.1, fun h => ga_matters.2.2 (by norm_num at h ⊢; linarith)⟩

theorem comb_matters {i : Nat} (hi : i < 12) : Matters wsSSDtWaGaussComb 12 i := by
  interval_cases i
  · exact ⟨1, 2, 2, _, _, (values 1 2 1 1 1 1 1 1 1 1 1 1 1 1 0 0).2.2.2.1, (values 1 2 2 1 1 1 1 1 1 1 1 1 1 1 0 0).2.2.2.1, fun h => sg_matters.1 (by norm_num at h ⊢; linarith)⟩
  · exact ⟨1, 2, 2, _, _, (values 1 2 1 1 1 1 1 1 1 1 1 1 1 1 0 0).2.2.2.1, (values 1 2 1 2 1 1 1 1 1 1 1 1 1 1 0 0).2.2.2.1, fun h => sg_matters.2.1 (by norm_num at h ⊢; linarith)⟩
  · exact ⟨1, 2, 2, _, _, (values 1 2 1 1 1 1 1 1 1 1 1 1 1 1 0 0).2.2.2.1, (values 1 2 1 1 2 1 1 1 1 1 1 1 1 1 0 0).2.2.2.1, fun h => sg_matters.2.2.1 (by norm_num at h ⊢; linarith)⟩
  · exact ⟨1, 2, 2, _, _, (values 1 2 1 1 1 1 1 1 1 1 1 1 1 1 0 0).2.2.2.1, (values 1 2 1 1 1 2 1 1 1 1 1 1 1 1 0 0).2.2.2.1, fun h => sg_matters.2.2.2 (by norm_num at h ⊢; linarith)⟩
  · exact ⟨1, 2, 2, _, _, (values 1 2 1 1 1 1 1 1 1 1 1 1 1 1 0 0).2.2.2.1, (values 1 2 1 1 1 1 2 1 1 1 1 1 1 1 0 0).2.2.2.1, fun h => ga_matters.1 (by norm_num at h ⊢; linarith)⟩
  · exact ⟨1, 2, 2, _, _, (values 1 2 1 1 1 1 1 1 1 1 1 1 1 1 0 0).2.2.2.1, (values 1 2 1 1 1 1 1 2 1 1 1 1 1 1 0 0).2.2.2.1, fun h => ga_matters.2.1 (by norm_num at h ⊢; linarith)⟩
  · exact ⟨1, 2, 2, _, _, (values 1 2 1 1 1 1 1 1 1 1 1 1 1 1 0 0).2.2.2.1, (values 1 2 1 1 1 1 1 1 2 1 1 1 1 1 0 0).2.2.2.1, fun h => ga_matters.2.2 (by norm_num at h ⊢; linarith)⟩
  · exact ⟨1, 2, 2, _, _, (values 1 2 1 1 1 1 1 1 1 1 1 1 1 1 0 0).2.2.2.1, (values 1 2 1 1 1 1 1 1 1 2 1 1 1 1 0 0).2.2.2.1, fun h => by norm_num at h⟩
  · exact ⟨1, 358, 2, _, _, (values 1 358 1 1 1 1 1 1 1 1 1 1 1 1 0 0).2.2.2.1, (values 1 358 1 1 1 1 1 1 1 1 2 1 1 1 0 0).2.2.2.1, fun h => ga_matters.1 (by norm_num at h ⊢; linarith)⟩
  · exact ⟨1, 358, 2, _, _, (values 1 358 1 1 1 1 1 1 1 1 1 1 1 1 0 0).2.2.2.1, (values 1 358 1 1 1 1 1 1 1 1 1 2 1 1 0 0).2.2.2.1, fun h => ga_matters.2.1 (by norm_num at h ⊢; linarith)⟩
  · exact ⟨1, 358, 2, _, _, (values 1 358 1 1 1 1 1 1 1 1 1 1 1 1 0 0).2.2.2.1, (values 1 358 1 1 1 1 1 1 1 1 1 1 2 1 0 0).2.2.2.1, fun h => ga_matters.2.2 (by norm_num at h ⊢; linarith)⟩
  · exact ⟨1, 2, 2, _, _, (values 1 2 1 1 1 1 1 1 1 1 1 1 1 1 0 0).2.2.2.1, (values 1 2 1 1 1 1 1 1 1 1 1 1 1 2 0 0).2.2.2.1, fun h => by norm_num at h⟩

theorem square_matters {i : Nat} (hi : i < 10) : Matters wsSWaGaussAndSquare 10 i := by
  interval_cases i
  · exact ⟨1, 2, 2, _, _, (values 1 2 1 1 1 1 1 1 1 1 1 1 0 0 0 0).2.2.2.2.2, (values 1 2 2 1 1 1 1 1 1 1 1 1 0 0 0 0).2.2.2.2.2, fun h => sg_matters.1 (by norm_num at h ⊢; linarith)⟩
  · exact ⟨1, 2, 2, _, _, (values 1 2 1 1 1 1 1 1 1 1 1 1 0 0 0 0).2.2.2.2.2, (values 1 2 1 2 1 1 1 1 1 1 1 1 0 0 0 0).2.2.2.2.2, fun h => sg_matters.2.1 (by norm_num at h ⊢; linarith)⟩
  · exact ⟨1, 2, 2, _, _, (values 1 2 1 1 1 1 1 1 1 1 1 1 0 0 0 0).2.2.2.2.2, (values 1 2 1 1 2 1 1 1 1 1 1 1 0 0 0 0).2.2.2.2.2, fun h => sg_matters.2.2.1 (by norm_num at h ⊢; linarith)⟩
  · exact ⟨1, 2, 2, _, _, (values 1 2 1 1 1 1 1 1 1 1 1 1 0 0 0 0).2.2.2.2.2, (values 1 2 1 1 1 2 1 1 1 1 1 1 0 0 0 0).2.2.2.2.2, fun h => sg_matters.2.2.2 (by norm_num at h ⊢; linarith)⟩
  · exact ⟨1, 2, 2, _, _, (values 1 2 1 1 1 1 1 1 1 1 1 1 0 0 0 0).2.2.2.2.2, (values 1 2 1 1 1 1 2 1 1 1 1 1 0 0 0 0).2.2.2.2.2, fun h => ga_matters.1 (by norm_num at h ⊢; linarith)⟩
  · exact ⟨1, 2, 2, _, _, (values 1 2 1 1 1 1 1 1 1 1 1 1 0 0 0 0).2.2.2.2.2, (values 1 2 1 1 1 1 1 2 1 1 1 1 0 0 0 0).2.2.2.2.2, fun h => ga_matters.2.1 (by norm_num at h ⊢; linarith)⟩
  · exact ⟨1, 2, 2, _, _, (values 1 2 1 1 1 1 1 1 1 1 1 1 0 0 0 0).2.2.2.2.2, (values 1 2 1 1 1 1 1 1 2 1 1 1 0 0 0 0).2.2.2.2.2, fun h => ga_matters.2.2 (by norm_num at h ⊢; linarith)⟩
  · exact ⟨1, 358, 2, _, _, (values 1 358 1 1 1 1 1 1 1 1 1 1 0 0 0 0).2.2.2.2.2, (values 1 358 1 1 1 1 1 1 1 2 1 1 0 0 0 0).2.2.2.2.2, fun h => ga_matters.1 (by norm_num at h ⊢; linarith)⟩
  · exact ⟨1, 358, 2, _, _, (values 1 358 1 1 1 1 1 1 1 1 1 1 0 0 0 0).2.2.2.2.2, (values 1 358 1 1 1 1 1 1 1 1 2 1 0 0 0 0).2.2.2.2.2, fun h => ga_matters.2.1 (by norm_num at h ⊢; linarith)⟩
  · exact ⟨1, 358, 2, _, _, (values 1 358 1 1 1 1 1 1 1 1 1 1 0 0 0 0).2.2.2.2.2, (values 1 358 1 1 1 1 1 1 1 1 1 2 0 0 0 0).2.2.2.2.2, fun h => ga_matters.2.2 (by norm_num at h ⊢; linarith)⟩


/-- **C174** (part): every parameter of the five functions other than `ws_s_wa_gauss` matters. -/
theorem C174_matters_partial {f : Name} (hf : f ≠ .sWaGauss) {i : Nat} (hi : i < f.count) : Matters f.func f.count i := by
  cases f
  · exact concave_matters hi
  · exact waSDt_matters hi
  · exact sDtWaGauss_matters hi
  · exact comb_matters hi
  · exact absurd rfl hf
  · exact square_matters hi

/-- **C174 is false** for `ws_s_wa_gauss`: its eighth parameter is fitted, too, but has no influence at all. -/
theorem C174_unused_false (x y t : ℝ) (p : List ℝ) : wsSWaGauss x y (p.set 7 t) = wsSWaGauss x y p := by
  rcases p with _ | ⟨a0, _ | ⟨a1, _ | ⟨a2, _ | ⟨a3, _ | ⟨a4, _ | ⟨a5, _ | ⟨a6, _ | ⟨a7, p⟩⟩⟩⟩⟩⟩⟩⟩ <;>
  simp [wsSWaGauss, sShaped, gaussianModel, param, bind, Except.bind, pure, Except.pure]

/-- **C174**, exactly: all parameters of `ws_s_wa_gauss` but the eighth one matter. -/
theorem C174_gauss_exactly {i : Nat} (hi : i < 11) : Matters wsSWaGauss 11 i ↔ i ≠ 7 := by
  constructor
  · rintro ⟨x, y, t, u, v, h1, h2, hne⟩ rfl
    rw [C174_unused_false, h1] at h2
    exact hne (Except.ok.inj h2)
  · intro h7
    interval_cases i
    · exact ⟨1, 2, 2, _, _, (values 1 2 1 1 1 1 1 1 1 1 1 1 1 0 0 0).2.2.2.2.1, (values 1 2 2 1 1 1 1 1 1 1 1 1 1 0 0 0).2.2.2.2.1, fun h => sg_matters.1 (by norm_num at h ⊢; linarith)⟩
    · exact ⟨1, 2, 2, _, _, (values 1 2 1 1 1 1 1 1 1 1 1 1 1 0 0 0).2.2.2.2.1, (values 1 2 1 2 1 1 1 1 1 1 1 1 1 0 0 0).2.2.2.2.1, fun h => sg_matters.2.1 (by norm_num at h ⊢; linarith)⟩
    · exact ⟨1, 2, 2, _, _, (values 1 2 1 1 1 1 1 1 1 1 1 1 1 0 0 0).2.2.2.2.1, (values 1 2 1 1 2 1 1 1 1 1 1 1 1 0 0 0).2.2.2.2.1, fun h => sg_matters.2.2.1 (by norm_num at h ⊢; linarith)⟩
    · exact ⟨1, 2, 2, _, _, (values 1 2 1 1 1 1 1 1 1 1 1 1 1 0 0 0).2.2.2.2.1, (values 1 2 1 1 1 2 1 1 1 1 1 1 1 0 0 0).2.2.2.2.1, fun h => sg_matters.2.2.2 (by norm_num at h ⊢; linarith)⟩
    · exact ⟨1, 2, 2, _, _, (values 1 2 1 1 1 1 1 1 1 1 1 1 1 0 0 0).2.2.2.2.1, (values 1 2 1 1 1 1 2 1 1 1 1 1 1 0 0 0).2.2.2.2.1, fun h => ga_matters.1 (by norm_num at h ⊢; linarith)⟩
    · exact ⟨1, 2, 2, _, _, (values 1 2 1 1 1 1 1 1 1 1 1 1 1 0 0 0).2.2.2.2.1, (values 1 2 1 1 1 1 1 2 1 1 1 1 1 0 0 0).2.2.2.2.1, fun h => ga_matters.2.1 (by norm_num at h ⊢; linarith)⟩
    · exact ⟨1, 2, 2, _, _, (values 1 2 1 1 1 1 1 1 1 1 1 1 1 0 0 0).2.2.2.2.1, (values 1 2 1 1 1 1 1 1 2 1 1 1 1 0 0 0).2.2.2.2.1, fun h => ga_matters.2.2 (by norm_num at h ⊢; linarith)⟩
    · exact absurd rfl h7
    · exact ⟨1, 358, 2, _, _, (values 1 358 1 1 1 1 1 1 1 1 1 1 1 0 0 0).2.2.2.2.1, (values 1 358 1 1 1 1 1 1 1 1 2 1 1 0 0 0).2.2.2.2.1, fun h => ga_matters.1 (by norm_num at h ⊢; linarith)⟩
    · exact ⟨1, 358, 2, _, _, (values 1 358 1 1 1 1 1 1 1 1 1 1 1 0 0 0).2.2.2.2.1, (values 1 358 1 1 1 1 1 1 1 1 1 2 1 0 0 0).2.2.2.2.1, fun h => ga_matters.2.1 (by norm_num at h ⊢; linarith)⟩
    · exact ⟨1, 358, 2, _, _, (values 1 358 1 1 1 1 1 1 1 1 1 1 1 0 0 0).2.2.2.2.1, (values 1 358 1 1 1 1 1 1 1 1 1 1 2 0 0 0).2.2.2.2.1, fun h => ga_matters.2.2 (by norm_num at h ⊢; linarith)⟩

/-! ### Different parameters with the same function -/

/-- **C174 is false** in that the data determines the parameters of `ws_concave_dt_wa`: two lists of parameters describe the
same function if and only if six combinations of them are equal. In particular every optimum of the regression lies in a family
of optima with five dimensions. -/
theorem C174_concave_exactly (a0 a1 a2 a3 a4 a5 a6 a7 a8 a9 a10 b0 b1 b2 b3 b4 b5 b6 b7 b8 b9 b10 : ℝ) :
    (∀ x y, wsConcaveDtWa x y [a0, a1, a2, a3, a4, a5, a6, a7, a8, a9, a10] =
        wsConcaveDtWa x y [b0, b1, b2, b3, b4, b5, b6, b7, b8, b9, b10]) ↔
      a0 + 360 * a7 + a5 * a4 ^ 2 + a9 * (360 - a8) ^ 2 = b0 + 360 * b7 + b5 * b4 ^ 2 + b9 * (360 - b8) ^ 2 ∧
      a1 + 360 * a10 = b1 + 360 * b10 ∧ a2 = b2 ∧
      a3 - a7 - 2 * a5 * a4 - 2 * a9 * (360 - a8) = b3 - b7 - 2 * b5 * b4 - 2 * b9 * (360 - b8) ∧
      a5 + a9 = b5 + b9 ∧ a6 - a10 = b6 - b10 := by
  constructor
  · intro h
    have key : ∀ x y : ℝ, a0 + a1 * x - a2 * x ^ 2 + a3 * y + a5 * (y - a4) ^ 2 + a6 * x * y + a7 * (360 - y) +
        a9 * ((360 - y) - a8) ^ 2 + a10 * x * (360 - y) = b0 + b1 * x - b2 * x ^ 2 + b3 * y + b5 * (y - b4) ^ 2 + b6 * x * y +
        b7 * (360 - y) + b9 * ((360 - y) - b8) ^ 2 + b10 * x * (360 - y) := by
      intro x y
      have := h x y
      rw [(values x y a0 a1 a2 a3 a4 a5 a6 a7 a8 a9 a10 0 0 0).1, (values x y b0 b1 b2 b3 b4 b5 b6 b7 b8 b9 b10 0 0 0).1] at this
      exact Except.ok.inj this
    have h00 := key 0 0
    have h10 := key 1 0
    have hm0 := key (-1) 0
    have h01 := key 0 1
    have h0m := key 0 (-1)
    have h11 := key 1 1
    refine ⟨?_, ?_, ?_, ?_, ?_, ?_⟩
    · linear_combination h00
    · linear_combination (h10 - hm0) / 2
    · linear_combination (2 * h00 - h10 - hm0) / 2
    · linear_combination (h01 - h0m) / 2
    · linear_combination (h01 + h0m - 2 * h00) / 2
    · linear_combination h11 - h10 - h01 + h00
  · rintro ⟨h1, h2, h3, h4, h5, h6⟩ x y
    rw [(values x y a0 a1 a2 a3 a4 a5 a6 a7 a8 a9 a10 0 0 0).1, (values x y b0 b1 b2 b3 b4 b5 b6 b7 b8 b9 b10 0 0 0).1]
    congr 1
    linear_combination h1 + x * h2 - x ^ 2 * h3 + y * h4 + y ^ 2 * h5 + x * y * h6

/-- **C174 is false** in that different parameters describe different functions: if the two parts of the other functions which
depend on the wind angle are exchanged, with mirrored parameters, then the functions remain the same. -/
theorem C174_mirror_false (x y a0 a1 a2 a3 a4 a5 a7 a8 a11 a12 a13 : ℝ) {a6 a9 a10 : ℝ} (_ : a6 ≠ 0) (_ : a9 ≠ 0) (_ : a10 ≠ 0) :
    wsWaSDt x y [a0, a1, a2, a3, a9 - 360 * a10, -a10, a11, a7, a8, a4 - 360 * a5, -a5, a6, a12, a13] =
      wsWaSDt x y [a0, a1, a2, a3, a4, a5, a6, a7, a8, a9, a10, a11, a12, a13] ∧
    wsSDtWaGauss x y [a0, a1, a2, a3, a7, 360 - a8, a9, a4, 360 - a5, a6] =
      wsSDtWaGauss x y [a0, a1, a2, a3, a4, a5, a6, a7, a8, a9] ∧
    wsSSDtWaGaussComb x y [a0, a1, a2, a3, a8, 360 - a9, a10, a7, a4, 360 - a5, a6, a11] =
      wsSSDtWaGaussComb x y [a0, a1, a2, a3, a4, a5, a6, a7, a8, a9, a10, a11] ∧
    wsSWaGauss x y [a0, a1, a2, a3, a8, 360 - a9, a10, a7, a4, 360 - a5, a6] =
      wsSWaGauss x y [a0, a1, a2, a3, a4, a5, a6, a7, a8, a9, a10] ∧
    wsSWaGaussAndSquare x y [a0, a1, a2, a3, a7, 360 - a8, a9, a4, 360 - a5, a6] =
      wsSWaGaussAndSquare x y [a0, a1, a2, a3, a4, a5, a6, a7, a8, a9] := by
  have g : ∀ a b c y : ℝ, ga a (360 - b) c y = ga a b c (360 - y) := by
    intro a b c y
    unfold ga
    rw [show y - (360 - b) = -(360 - y - b) by ring, neg_sq]
  have g' : ∀ a b c y : ℝ, ga a (360 - b) c (360 - y) = ga a b c y := by
    intro a b c y
    rw [g]
    congr 1
    ring
  have s1 : a9 - 360 * a10 - -a10 * y = a9 - a10 * (360 - y) := by ring
  have s2 : a4 - 360 * a5 - -a5 * (360 - y) = a4 - a5 * y := by ring
  have v := values x y a0 a1 a2 a3 a4 a5 a6 a7 a8 a9 a10 a11 a12 a13
  refine ⟨?_, ?_, ?_, ?_, ?_⟩
  · rw [v.2.1, (values x y a0 a1 a2 a3 (a9 - 360 * a10) (-a10) a11 a7 a8 (a4 - 360 * a5) (-a5) a6 a12 a13).2.1]
    congr 1
    simp only [sg, s1, s2]
    ring
  · rw [v.2.2.1, (values x y a0 a1 a2 a3 a7 (360 - a8) a9 a4 (360 - a5) a6 0 0 0 0).2.2.1, g, g']
    congr 1
    ring
  · rw [v.2.2.2.1, (values x y a0 a1 a2 a3 a8 (360 - a9) a10 a7 a4 (360 - a5) a6 a11 0 0).2.2.2.1, g, g']
    congr 1
    ring
  · rw [v.2.2.2.2.1, (values x y a0 a1 a2 a3 a8 (360 - a9) a10 a7 a4 (360 - a5) a6 0 0 0).2.2.2.2.1, g, g']
    congr 1
    ring
  · rw [v.2.2.2.2.2, (values x y a0 a1 a2 a3 a7 (360 - a8) a9 a4 (360 - a5) a6 0 0 0 0).2.2.2.2.2, g, g']
    congr 1
    ring

/-- The two lists of parameters are different but for symmetric ones. -/
example : ([1, 1, 1, 1, 7, 360 - 8, 9, 4, 360 - 5, 6] : List ℝ) ≠ [1, 1, 1, 1, 4, 5, 6, 7, 8, 9] := by norm_num

example (x y : ℝ) : wsConcaveDtWa x y [0, 1, 1, 2, 4, 5, 6, 7, 8, 9, 10] = wsConcaveDtWa x y [360, 1, 1, 1, 4, 5, 6, 6, 8, 9, 10] :=
  (C174_concave_exactly _ _ _ _ _ _ _ _ _ _ _ _ _ _ _ _ _ _ _ _ _ _).2 (by norm_num) x y

end Verif.Given
