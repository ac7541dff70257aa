import Mathlib.Analysis.Real.Pi.Irrational
import Verif.Lemmas.Mod
import Verif.Lemmas.Csv
import Verif.Model.Curve

/-!
# Properties C59, C60, C61: curves and model functions
-/

namespace Verif.Curve

open Verif.Table (Text RoundTrip lines_writeRows parseAll_map readRows_map writeRows lines readRows)
open Verif.Injector (linspace)

/-! ### C59 -/

/-- **C59.** Negative wind speeds raise, other winds are evaluated with the wind angle reduced modulo 360. -/
theorem C59_degrees (f : ℝ → ℝ → ℝ) (ws wa : ℝ) :
    (ws < 0 → call f false ws wa = .error .valueError) ∧
    (0 ≤ ws → ∃ a, 0 ≤ a ∧ a < 360 ∧ (∃ k : Int, wa = a + 360 * k) ∧ call f false ws wa = .ok (f ws a)) := by
  refine ⟨fun h => by simp [call, h], fun h => ⟨pmod wa 360, pmod_nonneg _ (by norm_num), pmod_lt _ (by norm_num),
    ⟨⌊wa / 360⌋, by simp only [pmod]; ring⟩, by simp [call, not_lt.2 h]⟩⟩

example : call (fun w a => w * a) false 2 (-10) = .ok 700 := by
  have h : pmod (-10 : ℝ) 360 = 350 := by
    rw [← pmod_of_mem (show (0 : ℝ) ≤ 350 by norm_num) (show (350 : ℝ) < 360 by norm_num),
      ← pmod_add_mul (-10 : ℝ) (show (0 : ℝ) < 360 by norm_num) 1]
    norm_num
  have h0 : ¬ (2 : ℝ) < 0 := by norm_num
  simp only [call, h0, if_false, Bool.false_eq_true, h]
  norm_num

theorem rad2deg_add (x : ℝ) (k : Int) : rad2deg (x + 2 * Real.pi * k) = rad2deg x + 360 * k := by
  have := Real.pi_ne_zero
  unfold rad2deg
  field_simp
  ring

theorem deg2rad_rad2deg (x : ℝ) : deg2rad (rad2deg x) = x := by
  have := Real.pi_ne_zero
  unfold rad2deg deg2rad
  field_simp

/-- **C59.** For functions of radians the wind angle is given in radians and reduced modulo `2 π`. -/
theorem C59_radians (f : ℝ → ℝ → ℝ) (ws wa : ℝ) :
    (ws < 0 → call f true ws wa = .error .valueError) ∧
    (0 ≤ ws → ∃ a, 0 ≤ a ∧ a < 2 * Real.pi ∧ (∃ k : Int, wa = a + 2 * Real.pi * k) ∧
      call f true ws wa = .ok (f ws a)) := by
  refine ⟨fun h => by simp [call, h], fun h => ⟨deg2rad (pmod (rad2deg wa) 360), ?_, ?_, ⟨⌊rad2deg wa / 360⌋, ?_⟩,
    by simp [call, not_lt.2 h]⟩⟩
  · have := pmod_nonneg (rad2deg wa) (show (0 : ℝ) < 360 by norm_num)
    have := Real.pi_pos
    unfold deg2rad
    positivity
  · have h1 := pmod_lt (rad2deg wa) (show (0 : ℝ) < 360 by norm_num)
    have h2 := Real.pi_pos
    unfold deg2rad
    nlinarith
  · have h1 : rad2deg wa = pmod (rad2deg wa) 360 + 360 * (⌊rad2deg wa / 360⌋ : ℝ) := by
      simp only [pmod]; ring
    have h2 : deg2rad (pmod (rad2deg wa) 360 + 360 * (⌊rad2deg wa / 360⌋ : ℝ)) =
        deg2rad (pmod (rad2deg wa) 360) + 2 * Real.pi * ⌊rad2deg wa / 360⌋ := by
      unfold deg2rad; ring
    rw [← h2, ← h1, deg2rad_rad2deg]

/-- **C59.** The symmetrised curve is symmetric, if the wind angle is given in degrees. -/
theorem C59_symmetric_partial (f : ℝ → ℝ → ℝ) (ws wa : ℝ) :
    call (symFunc f) false ws wa = call (symFunc f) false ws (360 - wa) := by
  unfold call
  split
  · rfl
  · simp only [Bool.false_eq_true, if_false, Except.ok.injEq]
    rw [← pmod_neg_pmod wa (by norm_num)]
    have h1 := pmod_nonneg wa (show (0 : ℝ) < 360 by norm_num)
    have h2 := pmod_lt wa (show (0 : ℝ) < 360 by norm_num)
    by_cases h0 : pmod wa 360 = 0
    · rw [h0, sub_zero, pmod_self (by norm_num)]
    · have : 0 < pmod wa 360 := lt_of_le_of_ne h1 (Ne.symm h0)
      rw [pmod_of_mem (show (0 : ℝ) ≤ 360 - pmod wa 360 by linarith) (by linarith)]
      unfold symFunc
      rw [sub_sub_cancel, add_comm]

/-- **C59.** The symmetrised curve is the mean of the curve at both angles, if the wind angle is given in degrees and
not a multiple of 360. -/
theorem C59_mean_partial (f : ℝ → ℝ → ℝ) {ws wa : ℝ} (hws : 0 ≤ ws) (hwa : pmod wa 360 ≠ 0) :
    ∃ x y, call f false ws wa = .ok x ∧ call f false ws (360 - wa) = .ok y ∧
      call (symFunc f) false ws wa = .ok ((x + y) / 2) := by
  have h1 := pmod_nonneg wa (show (0 : ℝ) < 360 by norm_num)
  have h2 := pmod_lt wa (show (0 : ℝ) < 360 by norm_num)
  have h3 : 0 < pmod wa 360 := lt_of_le_of_ne h1 (Ne.symm hwa)
  have h4 : pmod (360 - wa) 360 = 360 - pmod wa 360 := by
    rw [← pmod_neg_pmod wa (by norm_num)]
    exact pmod_of_mem (by linarith) (by linarith)
  refine ⟨f ws (pmod wa 360), f ws (360 - pmod wa 360), ?_, ?_, ?_⟩
  · simp [call, not_lt.2 hws]
  · simp [call, not_lt.2 hws, h4]
  · simp only [call, not_lt.2 hws, if_false, symFunc, Bool.false_eq_true, Except.ok.injEq]
    ring

example : ∃ x y, call (fun w a => w * a) false 5 40 = .ok x ∧ call (fun w a => w * a) false 5 (360 - 40) = .ok y ∧
    call (symFunc fun w a => w * a) false 5 40 = .ok ((x + y) / 2) :=
  C59_mean_partial _ (by norm_num) (by rw [pmod_of_mem (by norm_num) (by norm_num)]; norm_num)

/-- **C59** is false for functions of radians: the symmetrised version of the function `(wa - π)²`, which is itself
symmetric, is not symmetric. -/
theorem C59_symmetric_radians_false :
    call (symFunc fun _ a => (a - Real.pi) ^ 2) true 1 1 ≠
      call (symFunc fun _ a => (a - Real.pi) ^ 2) true 1 (2 * Real.pi - 1) := by
  have hp := Real.pi_gt_three
  have hp' := Real.pi_lt_four
  have key : ∀ x, 0 ≤ x → x < 2 * Real.pi → deg2rad (pmod (rad2deg x) 360) = x := by
    intro x h0 h1
    rw [pmod_of_mem, deg2rad_rad2deg]
    · unfold rad2deg; positivity
    · unfold rad2deg
      rw [div_lt_iff₀ (by linarith)]
      linarith
  have h1 : ¬ (1 : ℝ) < 0 := by norm_num
  simp only [call, h1, if_false, if_true, key 1 (by norm_num) (by linarith),
    key (2 * Real.pi - 1) (by linarith) (by linarith), symFunc, ne_eq, Except.ok.injEq]
  intro h
  have : (Real.pi - 1) * (180 - Real.pi) = 0 := by linear_combination h / 4
  rcases mul_eq_zero.1 this with h | h <;> linarith

theorem evalAngles_spec {f : ℝ → ℝ → ℝ} {radians : Bool} {ws : ℝ} (hws : 0 ≤ ws) (l : List ℝ) :
    ∃ r, evalAngles f radians ws l = .ok r ∧ r.map Prod.fst = l.map (fun a => (ws, a)) ∧
      ∀ p ∈ r, call f radians ws p.1.2 = .ok p.2 := by
  induction l with
  | nil => exact ⟨[], rfl, rfl, by simp⟩
  | cons a l ih =>
    obtain ⟨r, h1, h2, h3⟩ := ih
    obtain ⟨b, hb⟩ : ∃ b, call f radians ws a = .ok b := by
      cases radians <;> simp [call, not_lt.2 hws]
    refine ⟨((ws, a), b) :: r, by simp only [evalAngles, hb, h1], by simp [h2], ?_⟩
    intro p hp
    rcases List.mem_cons.1 hp with rfl | hp
    · exact hb
    · exact h3 p hp

/-- **C59.** A slice of a curve of degrees has `wa_resolution` points, at evenly spread wind angles from 0 to 360, with
the value of the curve at these angles. -/
theorem C59_slice_partial (f : ℝ → ℝ → ℝ) {ws : ℝ} (hws : 0 ≤ ws) {n : Nat} (hn : 2 ≤ n) :
    ∃ r, slice f false n ws = .ok r ∧ r.length = n ∧
      (∀ i : Nat, i < n → (r.map Prod.fst)[i]? = some (ws, (i : ℝ) * 360 / ((n : ℝ) - 1))) ∧
      ∀ p ∈ r, p.2 = f ws (if p.1.2 = 360 then 0 else p.1.2) := by
  obtain ⟨r, h1, h2, h3⟩ := evalAngles_spec (f := f) (radians := false) hws (linspace 0 360 n)
  have hn1 : n ≠ 1 := by omega
  have hl : linspace (0 : ℝ) 360 n = (List.range n).map fun (i : Nat) => (i : ℝ) * 360 / ((n : ℝ) - 1) := by
    rw [linspace, if_neg hn1]
    apply List.map_congr_left
    intro i _
    ring
  refine ⟨r, h1, ?_, ?_, ?_⟩
  · have := congrArg List.length h2
    simpa [hl] using this
  · intro i hi
    rw [h2, hl]
    simp [hi]
  · intro p hp
    have hm : p.1 ∈ r.map Prod.fst := List.mem_map_of_mem hp
    rw [h2, hl] at hm
    simp only [List.map_map, List.mem_map, List.mem_range, Function.comp_apply] at hm
    obtain ⟨i, hi, hpi⟩ := hm
    have hn2 : (0 : ℝ) < (n : ℝ) - 1 := by
      have : (2 : ℝ) ≤ n := by exact_mod_cast hn
      linarith
    have hi' : (i : ℝ) ≤ (n : ℝ) - 1 := by
      have : (i : ℝ) + 1 ≤ n := by exact_mod_cast hi
      linarith
    have ha : p.1.2 = (i : ℝ) * 360 / ((n : ℝ) - 1) := by rw [← hpi]
    have h0 : 0 ≤ p.1.2 := by rw [ha]; positivity
    have h360 : p.1.2 ≤ 360 := by
      rw [ha, div_le_iff₀ hn2]
      nlinarith
    have hc := h3 p hp
    simp only [call, not_lt.2 hws, if_false, Bool.false_eq_true, Except.ok.injEq] at hc
    rw [← hc]
    split
    · rename_i he
      rw [he, pmod_self (by norm_num)]
    · rename_i he
      rw [pmod_of_mem h0 (lt_of_le_of_ne h360 he)]

example : ∃ r, slice (fun w a => w * a) false 5 10 = .ok r ∧ r.length = 5 ∧
    (∀ i : Nat, i < 5 → (r.map Prod.fst)[i]? = some (10, (i : ℝ) * 360 / (((5 : Nat) : ℝ) - 1))) ∧
    ∀ p ∈ r, p.2 = 10 * (if p.1.2 = 360 then 0 else p.1.2) :=
  C59_slice_partial (fun w a => w * a) (by norm_num) (by norm_num)

/-- **C59** is false for slices of curves of radians: the angles 0, 180, 360 (degrees) of the slice are used as radians.
For the function `wa` the boat speed at 180 degrees is not `π`. -/
theorem C59_slice_radians_false :
    ∃ b0 b1 b2, slice (fun _ a => a) true 3 1 = .ok [((1, 0), b0), ((1, 180), b1), ((1, 360), b2)] ∧
      b1 ≠ deg2rad 180 := by
  obtain ⟨r, h1, h2, h3⟩ := evalAngles_spec (f := fun _ a => a) (radians := true) (ws := 1) (by norm_num)
    (linspace 0 360 3)
  have hl : linspace (0 : ℝ) 360 3 = [0, 180, 360] := by
    rw [linspace, if_neg (by norm_num)]
    simp only [show List.range 3 = [0, 1, 2] from rfl, List.map_cons, List.map_nil]
    norm_num
  rw [hl] at h2
  have hlen : r.length = 3 := by simpa using congrArg List.length h2
  match r, hlen with
  | [p0, p1, p2], _ =>
    simp only [List.map_cons, List.map_nil, List.cons.injEq, and_true] at h2
    obtain ⟨e0, e1, e2⟩ := h2
    refine ⟨p0.2, p1.2, p2.2, ?_, ?_⟩
    · rw [slice, h1, ← e0, ← e1, ← e2]
    · have hc := h3 p1 (by simp)
      rw [e1] at hc
      intro he
      have h10 : ¬ (1 : ℝ) < 0 := by norm_num
      simp only [call, h10, if_false, if_true, he, Except.ok.injEq, pmod] at hc
      have hd : (deg2rad 180 : ℝ) = Real.pi := by unfold deg2rad; ring
      have hx : deg2rad (rad2deg 180 - 360 * (⌊rad2deg 180 / 360⌋ : ℝ)) =
          180 - 2 * Real.pi * (⌊rad2deg 180 / 360⌋ : ℝ) := by
        have := deg2rad_rad2deg 180
        have e : deg2rad (rad2deg 180 - 360 * (⌊rad2deg 180 / 360⌋ : ℝ)) =
          deg2rad (rad2deg 180) - 2 * Real.pi * (⌊rad2deg 180 / 360⌋ : ℝ) := by unfold deg2rad; ring
        rw [e, this]
      rw [hx, hd] at hc
      have hk : (180 : ℝ) = Real.pi * ((1 + 2 * ⌊rad2deg 180 / 360⌋ : Int) : ℝ) := by
        push_cast
        linear_combination hc
      have hk0 : (1 + 2 * ⌊rad2deg 180 / 360⌋ : Int) ≠ 0 := by omega
      have hk0' : (((1 + 2 * ⌊rad2deg 180 / 360⌋ : Int) : ℚ) : ℝ) ≠ 0 := by exact_mod_cast hk0
      apply irrational_pi
      refine ⟨180 / ((1 + 2 * ⌊rad2deg 180 / 360⌋ : Int) : ℚ), ?_⟩
      rw [Rat.cast_div, div_eq_iff hk0']
      push_cast at hk ⊢
      exact hk

/-! ### C60 -/

variable {K : Type} [Field K] [LinearOrder K] [IsStrictOrderedRing K] [FloorRing K]

/-- Writing a curve of a model function with parameters that can be written and read, and reading the file, gives the curve. -/
theorem round_trip_on {P : K → Prop} {print : K → Text} {parse : Text → Except PyErr K}
    (h : Verif.Table.RoundTripOn P print parse)
    {known : Text → Bool} {enough : Text → List K → Bool} {c : Named K} (hk : known c.name = true)
    (he : enough c.name c.params = true) (hname : c.name ≠ [] ∧ ':' ∉ c.name ∧ '\n' ∉ c.name) (hP : ∀ x ∈ c.params, P x) :
    fromCsv parse known enough (toCsv print c) = .ok c := by
  have hg : ∀ r ∈ [["Function".toList, c.name], ["Radians".toList, if c.radians then "True".toList else "False".toList],
      "Parameters".toList :: c.params.map print], r ≠ [] ∧ ∀ f ∈ r, f ≠ [] ∧ ':' ∉ f ∧ '\n' ∉ f := by
    intro r hr
    simp only [List.mem_cons, List.not_mem_nil, or_false] at hr
    rcases hr with rfl | rfl | rfl
    · refine ⟨by simp, fun f hf => ?_⟩
      simp only [List.mem_cons, List.not_mem_nil, or_false] at hf
      rcases hf with rfl | rfl
      · decide
      · exact hname
    · cases c.radians <;> decide
    · refine ⟨by simp, fun f hf => ?_⟩
      rcases List.mem_cons.1 hf with rfl | hf
      · decide
      · obtain ⟨x, hx, rfl⟩ := List.mem_map.1 hf
        have hc := h.clean x (hP x hx)
        refine ⟨h.ne x (hP x hx), ?_, ?_⟩ <;> intro hm <;> have := hc _ hm <;> simp at this
  simp only [fromCsv, toCsv]
  rw [lines_writeRows (by decide) (by
    intro r hr
    rcases List.mem_cons.1 hr with rfl | hr
    · decide
    · exact fun f hf => ((hg r hr).2 f hf).2.2)]
  rw [List.map_cons]
  have hfirst : [':'].intercalate ["PolarDiagramCurve".toList] = "PolarDiagramCurve".toList := by decide
  simp only [hfirst, ne_eq, not_true_eq_false, if_false]
  rw [readRows_map (fun r hr => ⟨(hg r hr).1, fun f hf => ⟨((hg r hr).2 f hf).1, ((hg r hr).2 f hf).2.1⟩⟩)]
  have hrad : ¬ (¬ (if c.radians then "True".toList else "False".toList) = "True".toList ∧
      ¬ (if c.radians then "True".toList else "False".toList) = "False".toList) := by
    cases c.radians <;> decide
  have hrad' : decide ((if c.radians then "True".toList else "False".toList) = "True".toList) = c.radians := by
    cases c.radians <;> decide
  simp only [hrad, if_false, Verif.Table.parseAll_on h.parse_print hP, hk, he, not_true_eq_false, hrad']

/-- **C60.** Writing a curve of a model function to a csv file and reading the file gives the curve. -/
theorem C60_round_trip_partial {print : K → Text} {parse : Text → Except PyErr K} (h : RoundTrip print parse)
    {known : Text → Bool} {enough : Text → List K → Bool} {c : Named K} (hk : known c.name = true)
    (he : enough c.name c.params = true) (hname : c.name ≠ [] ∧ ':' ∉ c.name ∧ '\n' ∉ c.name) :
    fromCsv parse known enough (toCsv print c) = .ok c :=
  round_trip_on h.on hk he hname fun _ _ => trivial

/-- **C60** is false for other functions, for example for every symmetrised curve (whose function is called
`sym_func`): the file cannot be read. -/
theorem C60_unknown_false {print : K → Text} {parse : Text → Except PyErr K} (h : RoundTrip print parse)
    {known : Text → Bool} {enough : Text → List K → Bool} {c : Named K} (hk : known c.name = false)
    (hname : c.name ≠ [] ∧ ':' ∉ c.name ∧ '\n' ∉ c.name) :
    fromCsv parse known enough (toCsv print c) = .error .runtimeError := by
  have h1 := C60_round_trip_partial h (known := fun _ => true) (enough := fun _ _ => true) (c := c) rfl rfl hname
  simp only [fromCsv] at h1 ⊢
  split at h1
  · cases h1
  · split at h1
    · cases h1
    · split at h1
      · split at h1
        · cases h1
        · split at h1
          · cases h1
          · simp only [not_true_eq_false, if_false, Except.ok.injEq] at h1
            subst h1
            simp_all
      · cases h1

/-- A curve in a csv file; numbers are printed as a fixed digit here, only the layout matters. -/
example : toCsv (fun (_ : ℚ) => ['7']) ⟨"ws_s_s_dt_wa_gauss_comb".toList, [1, 2], false⟩ =
    "PolarDiagramCurve\r\nFunction:ws_s_s_dt_wa_gauss_comb\r\nRadians:False\r\nParameters:7:7\r\n".toList := by
  decide +kernel

example : fromCsv (fun _ => .ok (7 : ℚ)) (fun n => n = "f".toList) (fun _ p => decide (p.length = 2))
    "PolarDiagramCurve\r\nFunction:f\r\nRadians:True\r\nParameters:7:7\r\n".toList =
    .ok ⟨"f".toList, [7, 7], true⟩ := by decide +kernel

example : ("sym_func".toList ≠ [] ∧ ':' ∉ "sym_func".toList ∧ '\n' ∉ "sym_func".toList) := by decide

/-! ### C61 -/

/-- The functions with arbitrary parameters, division by zero left aside; see `C61_formulas_partial`. -/
theorem formulas (x y a0 a1 a2 a3 a4 a5 a6 a7 a8 a9 a10 a11 a12 a13 : ℝ) :
    wsConcaveDtWa x y [a0, a1, a2, a3, a4, a5, a6, a7, a8, a9, a10] =
      .ok (a0 + a1 * x - a2 * x ^ 2 + a3 * y + a5 * (y - a4) ^ 2 + a6 * x * y + a7 * (360 - y) +
        a9 * ((360 - y) - a8) ^ 2 + a10 * x * (360 - y)) ∧
    wsWaSDt x y [a0, a1, a2, a3, a4, a5, a6, a7, a8, a9, a10, a11, a12, a13] =
      .ok (a2 / (1 + Real.exp (a0 - a1 * x)) - a3 * x ^ 2 + a6 / (1 + Real.exp (a4 - a5 * y)) - a7 * y ^ 2 +
        a8 * x * y + a11 / (1 + Real.exp (a9 - a10 * (360 - y))) - a12 * (360 - y) ^ 2 + a13 * x * (360 - y)) ∧
    wsSDtWaGauss x y [a0, a1, a2, a3, a4, a5, a6, a7, a8, a9] =
      .ok (a2 / (1 + Real.exp (a0 - a1 * x)) - a3 * x ^ 2 + a4 * Real.exp (-(y - a5) ^ 2 / (2 * a6)) +
        a7 * Real.exp (-((360 - y) - a8) ^ 2 / (2 * a9))) ∧
    wsSSDtWaGaussComb x y [a0, a1, a2, a3, a4, a5, a6, a7, a8, a9, a10, a11] =
      .ok (a2 / (1 + Real.exp (a0 - a1 * x)) - a3 * x ^ 2 + a4 * Real.exp (-(y - a5) ^ 2 / (2 * a6)) + a7 * x * y +
        a8 * Real.exp (-((360 - y) - a9) ^ 2 / (2 * a10)) + a11 * x * (360 - y)) ∧
    wsSWaGaussAndSquare x y [a0, a1, a2, a3, a4, a5, a6, a7, a8, a9] =
      .ok ((a2 / (1 + Real.exp (a0 - a1 * x)) - a3 * x ^ 2 + x * (a4 * Real.exp (-(y - a5) ^ 2 / (2 * a6)) +
        a7 * Real.exp (-((360 - y) - a8) ^ 2 / (2 * a9)))) * y * (360 - y)) := by
  have g : ∀ u v w : ℝ, -(1 / 2) * (u - v) ^ 2 / w = -(u - v) ^ 2 / (2 * w) := by
    intro u v w
    rw [mul_comm 2 w, ← div_div]
    ring
  refine ⟨?_, ?_, ?_, ?_, ?_⟩
  · simp only [wsConcaveDtWa, concaveFunction, invertedShiftedParabola, wsTimesWa, pick, param, bind, Except.bind, pure,
      Except.pure, List.getElem?_cons_zero, List.getElem?_cons_succ, Except.ok.injEq]
    ring
  · simp only [wsWaSDt, sShaped, wsTimesWa, pick, param, bind, Except.bind, pure,
      Except.pure, List.getElem?_cons_zero, List.getElem?_cons_succ, Except.ok.injEq]
    ring
  · simp only [wsSDtWaGauss, sShaped, gaussianModel, pick, param, bind, Except.bind, pure,
      Except.pure, List.getElem?_cons_zero, List.getElem?_cons_succ, g]
  · simp only [wsSSDtWaGaussComb, sShaped, gaussianModel, wsTimesWa, pick, param, bind, Except.bind, pure,
      Except.pure, List.getElem?_cons_zero, List.getElem?_cons_succ, g]
  · simp only [wsSWaGaussAndSquare, sShaped, gaussianModel, pick, param, bind, Except.bind, pure,
      Except.pure, List.getElem?_cons_zero, List.getElem?_cons_succ, g]

/-- **C61.** The documented formulas of five of the model functions are correct. -/
theorem C61_formulas_partial (x y a0 a1 a2 a3 a4 a5 a6 a7 a8 a9 a10 a11 a12 a13 : ℝ) :
    wsConcaveDtWa x y [a0, a1, a2, a3, a4, a5, a6, a7, a8, a9, a10] =
      .ok (a0 + a1 * x - a2 * x ^ 2 + a3 * y + a5 * (y - a4) ^ 2 + a6 * x * y + a7 * (360 - y) +
        a9 * ((360 - y) - a8) ^ 2 + a10 * x * (360 - y)) ∧
    wsWaSDt x y [a0, a1, a2, a3, a4, a5, a6, a7, a8, a9, a10, a11, a12, a13] =
      .ok (a2 / (1 + Real.exp (a0 - a1 * x)) - a3 * x ^ 2 + a6 / (1 + Real.exp (a4 - a5 * y)) - a7 * y ^ 2 +
        a8 * x * y + a11 / (1 + Real.exp (a9 - a10 * (360 - y))) - a12 * (360 - y) ^ 2 + a13 * x * (360 - y)) ∧
    (a6 ≠ 0 → a9 ≠ 0 → wsSDtWaGauss x y [a0, a1, a2, a3, a4, a5, a6, a7, a8, a9] =
      .ok (a2 / (1 + Real.exp (a0 - a1 * x)) - a3 * x ^ 2 + a4 * Real.exp (-(y - a5) ^ 2 / (2 * a6)) +
        a7 * Real.exp (-((360 - y) - a8) ^ 2 / (2 * a9)))) ∧
    (a6 ≠ 0 → a10 ≠ 0 → wsSSDtWaGaussComb x y [a0, a1, a2, a3, a4, a5, a6, a7, a8, a9, a10, a11] =
      .ok (a2 / (1 + Real.exp (a0 - a1 * x)) - a3 * x ^ 2 + a4 * Real.exp (-(y - a5) ^ 2 / (2 * a6)) + a7 * x * y +
        a8 * Real.exp (-((360 - y) - a9) ^ 2 / (2 * a10)) + a11 * x * (360 - y))) ∧
    (a6 ≠ 0 → a9 ≠ 0 → wsSWaGaussAndSquare x y [a0, a1, a2, a3, a4, a5, a6, a7, a8, a9] =
      .ok ((a2 / (1 + Real.exp (a0 - a1 * x)) - a3 * x ^ 2 + x * (a4 * Real.exp (-(y - a5) ^ 2 / (2 * a6)) +
        a7 * Real.exp (-((360 - y) - a8) ^ 2 / (2 * a9)))) * y * (360 - y))) := by
  obtain ⟨h1, h2, h3, h4, h5⟩ := formulas x y a0 a1 a2 a3 a4 a5 a6 a7 a8 a9 a10 a11 a12 a13
  exact ⟨h1, h2, fun _ _ => h3, fun _ _ => h4, fun _ _ => h5⟩

/-- **C61** is false for `ws_s_wa_gauss`: with the nine parameters of the documented formula it raises `IndexError`. -/
theorem C61_gauss_false (x y : ℝ) {params : List ℝ} (h : params.length = 9) :
    wsSWaGauss x y params = .error .indexError := by
  match params, h with
  | [a0, a1, a2, a3, a4, a5, a6, a7, a8], _ =>
    simp [wsSWaGauss, sShaped, gaussianModel, param, bind, Except.bind, pure, Except.pure]

example : wsSWaGauss 10 90 [1, 2, 3, 4, 5, 6, 7, 8, 9] = .error .indexError := C61_gauss_false 10 90 rfl

/-- See `C61_gauss_partial`. -/
theorem gauss_formula (x y a0 a1 a2 a3 a4 a5 a6 a7 a8 a9 a10 a11 : ℝ) :
    wsSWaGauss x y [a0, a1, a2, a3, a4, a5, a6, a7, a8, a9, a10, a11] =
      .ok (a2 / (1 + Real.exp (a0 - a1 * x)) - a3 * x ^ 2 + a4 * Real.exp (-(y - a5) ^ 2 / (2 * a6)) +
        a8 * Real.exp (-((360 - y) - a9) ^ 2 / (2 * a10))) := by
  have g : ∀ u v w : ℝ, -(1 / 2) * (u - v) ^ 2 / w = -(u - v) ^ 2 / (2 * w) := by
    intro u v w
    rw [mul_comm 2 w, ← div_div]
    ring
  simp only [wsSWaGauss, sShaped, gaussianModel, param, bind, Except.bind, pure, Except.pure, List.take, List.drop,
    List.getElem?_cons_zero, List.getElem?_cons_succ, g]

/-- **C61** (partial: not the documented parameters). With twelve parameters `ws_s_wa_gauss` evaluates the documented
formula with the parameters `0, 1, 2, 3, 4, 5, 6, 8, 9, 10`; the parameters 7 and 11 have no influence. -/
theorem C61_gauss_partial (x y a0 a1 a2 a3 a4 a5 a7 a8 a9 a11 : ℝ) {a6 a10 : ℝ} (_ : a6 ≠ 0) (_ : a10 ≠ 0) :
    wsSWaGauss x y [a0, a1, a2, a3, a4, a5, a6, a7, a8, a9, a10, a11] =
      .ok (a2 / (1 + Real.exp (a0 - a1 * x)) - a3 * x ^ 2 + a4 * Real.exp (-(y - a5) ^ 2 / (2 * a6)) +
        a8 * Real.exp (-((360 - y) - a9) ^ 2 / (2 * a10))) := gauss_formula x y a0 a1 a2 a3 a4 a5 a6 a7 a8 a9 a10 a11

example : wsSWaGauss 10 90 [1, 0, 4, 0, 3, 90, 7, 100, 2, 270, 5, 100] = .ok (4 / (1 + Real.exp 1) + 5) := by
  rw [C61_gauss_partial 10 90 1 0 4 0 3 90 100 2 270 100 (by norm_num) (by norm_num)]
  norm_num
  ring

/-- **C61.** The last model function vanishes for wind from ahead, whatever the parameters, as long as the widths of the
gaussians are not 0. -/
theorem C61_square_zero (x a0 a1 a2 a3 a4 a5 a7 a8 : ℝ) {a6 a9 : ℝ} (h6 : a6 ≠ 0) (h9 : a9 ≠ 0) :
    wsSWaGaussAndSquare x 0 [a0, a1, a2, a3, a4, a5, a6, a7, a8, a9] = .ok 0 ∧
    wsSWaGaussAndSquare x 360 [a0, a1, a2, a3, a4, a5, a6, a7, a8, a9] = .ok 0 := by
  have h := fun y => (C61_formulas_partial x y a0 a1 a2 a3 a4 a5 a6 a7 a8 a9 0 0 0 0).2.2.2.2 h6 h9
  rw [h, h]
  simp

example : wsSWaGaussAndSquare 10 0 [1, 2, 3, 4, 5, 0, 7, 8, 9, 10] = .ok 0 :=
  (C61_square_zero 10 1 2 3 4 5 0 8 9 (by norm_num) (by norm_num)).1

end Verif.Curve
