import Verif.Model.CurveExtension
import Verif.Props.Quality
import Verif.Lemmas.Mod

/-!
# Property C106: curves from measurements
-/

namespace Verif.CurveExt

open Verif.Curve (deg2rad rad2deg)
open Verif.Interp (Pt)

/-- **C106**: with wind angles in degrees, the diagram has at each point of the data the value of the fitted function, and
the data is not changed. -/
theorem C106_degrees_partial {fit} {func : ℝ → ℝ → List ℝ → Except PyErr ℝ} {points after : List (Pt ℝ)} {d : Diagram}
    (h : process fit func false points = (.ok d, after)) :
    after = points ∧ ∃ params, fit points = .ok params ∧
      ∀ p ∈ points, 0 ≤ p.1.1 → 0 ≤ p.1.2 → p.1.2 < 360 → d.call p.1.1 p.1.2 = func p.1.1 p.1.2 params := by
  simp only [process, Bool.false_eq_true, if_false] at h
  cases hf : fit points with
  | error e => rw [hf] at h; simp at h
  | ok params =>
    rw [hf] at h
    simp only [Prod.mk.injEq] at h
    refine ⟨h.2.symm, params, rfl, ?_⟩
    have hd : d = ⟨func, params, false⟩ := by
      have h1 := h.1
      unfold Diagram.init at h1
      split at h1 <;> simp at h1
      exact h1.symm
    subst hd
    intro p _ h0 h1 h2
    simp only [Diagram.call, Bool.false_eq_true, if_false]
    rw [if_neg (not_lt.2 h0), pmod_of_mem h1 h2]

/-- **C106**: with wind angles in radians, the function is fitted to the same measurements with angles in radians, and
the diagram, called with radians, has the value of the fitted function at each of them. -/
theorem C106_radians_partial {fit} {func : ℝ → ℝ → List ℝ → Except PyErr ℝ} {points after : List (Pt ℝ)} {d : Diagram}
    (h : process fit func true points = (.ok d, after)) :
    ∃ params, fit (points.map fun p => ((p.1.1, p.1.2 * Real.pi / 180), p.2)) = .ok params ∧
      ∀ p ∈ points, 0 ≤ p.1.1 → 0 ≤ p.1.2 → p.1.2 < 360 →
        d.call p.1.1 (p.1.2 * Real.pi / 180) = func p.1.1 (p.1.2 * Real.pi / 180) params := by
  simp only [process, if_true] at h
  have hpts : toRadians points = points.map fun p => ((p.1.1, p.1.2 * Real.pi / 180), p.2) := rfl
  cases hf : fit (toRadians points) with
  | error e => rw [hf] at h; simp at h
  | ok params =>
    rw [hf] at h
    simp only [Prod.mk.injEq] at h
    refine ⟨params, by rw [← hpts]; exact hf, ?_⟩
    have hd : d = ⟨func, params, true⟩ := by
      have h1 := h.1
      unfold Diagram.init at h1
      split at h1 <;> simp at h1
      exact h1.symm
    subst hd
    intro p _ h0 h1 h2
    simp only [Diagram.call, if_true]
    rw [if_neg (not_lt.2 h0)]
    have : rad2deg (p.1.2 * Real.pi / 180) = p.1.2 := by
      unfold rad2deg
      have := Real.pi_ne_zero
      field_simp
    rw [this, pmod_of_mem h1 h2]
    rfl

/-- **C106**: parameters the function does not accept raise `ValueError`. -/
theorem C106_invalid {fit} {func : ℝ → ℝ → List ℝ → Except PyErr ℝ} {points : List (Pt ℝ)} {radians : Bool} {params : List ℝ}
    (hf : ∀ pts, fit pts = .ok params) (h : func 1 1 params = .error .indexError ∨ func 1 1 params = .error .typeError) :
    (process fit func radians points).1 = .error .valueError := by
  simp only [process, hf, Diagram.init]
  rcases h with h | h <;> rw [h]

/-- **C106 is false** for measurements at 360 degrees: the function is fitted to its value there, but the diagram uses the
value at 0 degrees. -/
theorem C106_full_false {fit} {func : ℝ → ℝ → List ℝ → Except PyErr ℝ} {points after : List (Pt ℝ)} {d : Diagram}
    (h : process fit func false points = (.ok d, after)) {ws : ℝ} (hws : 0 ≤ ws) :
    ∃ params, fit points = .ok params ∧ d.call ws 360 = func ws 0 params := by
  simp only [process, Bool.false_eq_true, if_false] at h
  cases hf : fit points with
  | error e => rw [hf] at h; simp at h
  | ok params =>
    rw [hf] at h
    simp only [Prod.mk.injEq] at h
    refine ⟨params, rfl, ?_⟩
    have hd : d = ⟨func, params, false⟩ := by
      have h1 := h.1
      unfold Diagram.init at h1
      split at h1 <;> simp at h1
      exact h1.symm
    subst hd
    simp only [Diagram.call, Bool.false_eq_true, if_false]
    rw [if_neg (not_lt.2 hws)]
    have : pmod (360 : ℝ) 360 = 0 := by
      unfold pmod
      norm_num
    rw [this]

/-- **C106 is false** for the weighted points of the caller: with radians, their wind angles are changed unless they are
all 0. -/
theorem C106_points_false (fit) (func : ℝ → ℝ → List ℝ → Except PyErr ℝ) {points : List (Pt ℝ)} (h : ∃ p ∈ points, p.1.2 ≠ 0) :
    (process fit func true points).2 = (points.map fun p => ((p.1.1, p.1.2 * Real.pi / 180), p.2)) ∧
      (process fit func true points).2 ≠ points := by
  have h1 : (process fit func true points).2 = (points.map fun p => ((p.1.1, p.1.2 * Real.pi / 180), p.2)) := by
    simp only [process, if_true]
    split <;> rfl
  refine ⟨h1, ?_⟩
  rw [h1]
  intro he
  obtain ⟨p, hp, hne⟩ := h
  have he' : points.map (fun p => ((p.1.1, p.1.2 * Real.pi / 180), p.2)) = points.map id := by rw [he]; simp
  have := List.map_inj_left.1 he' p hp
  simp only [id] at this
  have h2 : p.1.2 * Real.pi / 180 = p.1.2 := congrArg (fun q : Pt ℝ => q.1.2) this
  have hpi := Real.pi_lt_d2
  have h3 : p.1.2 * (Real.pi - 180) = 0 := by linarith
  rcases mul_eq_zero.1 h3 with h3 | h3
  · exact hne h3
  · linarith

/-- **C106 is false** for the quality of curves in radians: `check` gets the wind angles in degrees, so a curve through all
measurements, tested with these measurements, is reported to have errors. -/
theorem C106_quality_false : ∃ (fit : List (Pt ℝ) → Except PyErr (List ℝ)) (func : ℝ → ℝ → List ℝ → Except PyErr ℝ)
    (points after : List (Pt ℝ)) (d : Diagram) (s : Quality.Minimal ℝ),
    process fit func true points = (.ok d, after) ∧ (∀ p ∈ points, d.call p.1.1 (p.1.2 * Real.pi / 180) = .ok p.2) ∧
    Quality.minimalCheck d.call points = .ok s ∧ 0 < s.minError := by
  let func : ℝ → ℝ → List ℝ → Except PyErr ℝ := fun _ wa _ => .ok wa
  let points : List (Pt ℝ) := [((1, 90), Real.pi / 2)]
  have h3 := Real.pi_gt_three
  have h4 := Real.pi_lt_d2
  have hcall : Diagram.call ⟨func, [], true⟩ 1 90 = .ok (90 - 28 * Real.pi) := by
    simp only [Diagram.call, if_true]
    rw [if_neg (by norm_num)]
    have hr : pmod (rad2deg 90) 360 = 90 * 180 / Real.pi - 5040 := by
      unfold rad2deg pmod
      have hfl : ⌊(90 * 180 / Real.pi : ℝ) / 360⌋ = 14 := by
        rw [Int.floor_eq_iff]
        have hpos : 0 < Real.pi := by linarith
        rw [div_div, le_div_iff₀ (by positivity), div_lt_iff₀ (by positivity)]
        constructor
        · push_cast; nlinarith
        · push_cast; nlinarith
      rw [hfl]
      push_cast
      ring
    rw [hr]
    simp only [func, deg2rad]
    congr 1
    field_simp
    ring
  have hgood : Diagram.call ⟨func, [], true⟩ 1 (90 * Real.pi / 180) = .ok (Real.pi / 2) := by
    simp only [Diagram.call, if_true]
    rw [if_neg (by norm_num)]
    have : rad2deg (90 * Real.pi / 180) = 90 := by
      unfold rad2deg
      have := Real.pi_ne_zero
      field_simp
    rw [this, pmod_of_mem (by norm_num) (by norm_num)]
    simp only [func, deg2rad]
    congr 1
    ring
  have hne : Real.pi / 2 - (90 - 28 * Real.pi) ≠ 0 := by
    intro h
    linarith
  refine ⟨fun _ => .ok [], func, points, toRadians points, ⟨func, [], true⟩,
    ⟨|Real.pi / 2 - (90 - 28 * Real.pi)|, |Real.pi / 2 - (90 - 28 * Real.pi)|, |Real.pi / 2 - (90 - 28 * Real.pi)|,
      |Real.pi / 2 - (90 - 28 * Real.pi)| ^ 2⟩, ?_, ?_, ?_, ?_⟩
  · simp only [process, if_true, Diagram.init, func]
  · intro p hp
    simp only [points, List.mem_singleton] at hp
    subst hp
    exact hgood
  · unfold Quality.minimalCheck Quality.differences
    simp only [points, List.mapM_cons, List.mapM_nil, hcall, bind, Except.bind, pure, Except.pure, List.foldl_nil, Quality.mean,
      List.map_cons, List.map_nil, List.sum_cons, List.sum_nil, List.length_cons, List.length_nil, add_zero, Nat.cast_one, zero_add,
      div_one]
  · exact abs_pos.2 hne

/-- A linear function fitted to one measurement. -/
example : (process (fun pts => .ok [(pts.map (·.2)).sum]) (fun ws _ params => .ok (ws * params.sum)) false [((2, 90), 6)]).2 =
    [((2, 90), 6)] ∧
    ∃ d, (process (fun pts => .ok [(pts.map (·.2)).sum]) (fun ws _ params => .ok (ws * params.sum)) false [((2, 90), 6)]).1 = .ok d ∧
      d.call 2 90 = .ok 12 := by
  refine ⟨rfl, ⟨_, _, _⟩, rfl, ?_⟩
  simp [Diagram.call]
  norm_num

end Verif.CurveExt
