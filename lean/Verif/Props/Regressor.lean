import Verif.Model.Regressor
import Mathlib.Tactic.Ring

/-!
# Properties C98 and C99: regressors
-/

namespace Verif.Regr

set_option linter.unusedSectionVars false

variable {K : Type} [OfNat K 0] [OfNat K 1]

/-! ### C98: number of parameters -/

theorem determine_spec {g : List (K × K) → List K → Except PyErr (List K)} {k : Nat}
    (hlow : ∀ n < k, g [(0, 0)] (List.replicate n 1) = .error .indexError ∨ g [(0, 0)] (List.replicate n 1) = .error .typeError)
    {v : List K} (hk : g [(0, 0)] (List.replicate k 1) = .ok v) :
    ∀ (m n fuel : Nat), n + m = k → m < fuel → determine g fuel (List.replicate n 1) = some (.ok (List.replicate k 1)) := by
  intro m
  induction m with
  | zero =>
    intro n fuel hn hf
    obtain ⟨fuel, rfl⟩ : ∃ j, fuel = j + 1 := ⟨fuel - 1, by omega⟩
    have : n = k := by omega
    subst this
    simp only [determine]
    rw [hk]
  | succ m ih =>
    intro n fuel hn hf
    obtain ⟨fuel, rfl⟩ : ∃ j, fuel = j + 1 := ⟨fuel - 1, by omega⟩
    have := ih (n + 1) fuel (by omega) (by omega)
    rw [List.replicate_succ'] at this
    simp only [determine]
    rcases hlow n (by omega) with h | h <;> rw [h] <;> exact this

/-- **C98**, for model functions `f(ws, wa, *params)` whose body needs `k` parameters (it raises an `IndexError` or a
`TypeError` for fewer ones): the regressor fits exactly `k` parameters, starting with ones. What is missing: functions with
named parameters, see `C98_named_false`, and functions which never succeed, see `C98_error_diverges`. -/
theorem C98_star_partial {f : Func K} (hreq : f.required ≤ 2) (hnamed : f.named < 3) (hstar : f.star = true)
    (hkw : f.keyword = false) {k : Nat}
    (hlow : ∀ p : List K, p.length < k → f.body [0] [0] p = .error .indexError ∨ f.body [0] [0] p = .error .typeError)
    (hk : ∀ p : List K, p.length = k → ∃ v, f.body [0] [0] p = .ok v) {fuel : Nat} (hf : k < fuel) :
    initVals f none fuel = some (.ok (List.replicate k 1)) := by
  have hcall : ∀ p : List K, f.fitting [(0, 0)] p = f.body [0] [0] p := by
    intro p
    unfold Func.fitting Func.call
    rw [if_neg]
    · rfl
    · rw [hstar, hkw]
      simp
      omega
  obtain ⟨v, hv⟩ := hk (List.replicate k 1) (by simp)
  unfold initVals
  simp only
  rw [if_pos hnamed]
  refine determine_spec (fun n hn => ?_) (v := v) ?_ k 0 fuel (by omega) hf
  · rw [hcall]
    exact hlow _ (by simpa using hn)
  · rw [hcall]
    exact hv

/-- `lambda ws, wa, *params: params[0] * ws + params[1]`. -/
def affine : Func ℚ where
  required := 2
  named := 2
  star := true
  keyword := false
  body ws _ params :=
    match params with
    | a :: b :: _ => .ok (ws.map fun w => a * w + b)
    | _ => .error .indexError

example : initVals affine none 3 = some (.ok [1, 1]) :=
  C98_star_partial (f := affine) (k := 2) (by decide) (by decide) rfl rfl
    (fun p hp => by
      match p, hp with
      | [], _ => exact .inl rfl
      | [_], _ => exact .inl rfl)
    (fun p hp => by
      match p, hp with
      | [a, b], _ => exact ⟨_, rfl⟩) (by decide)

/-- What is assumed of `curve_fit`: it evaluates the function at the initial values and does not catch exceptions. -/
def Evaluates (curveFit : (List (K × K) → List K → Except PyErr (List K)) → List (K × K) → List K → List K →
    Except PyErr (List K)) : Prop :=
  ∀ g X y p e, X ≠ [] → g X p = .error e → curveFit g X y p = .error e

/-- **C98 is false** for model functions with named parameters, e.g. `f(ws, wa, a, b)`: without initial values there are
two of them too many (the arguments for wind speeds and wind angles are counted, too), so that fitting any data raises a
`TypeError`. -/
theorem C98_named_false {curveFit} (hcf : Evaluates (K := K) curveFit) {f : Func K} (hnamed : 3 ≤ f.named)
    (hstar : f.star = false) (fuel : Nat) :
    ∃ init, initVals f none fuel = some (.ok init) ∧ init.length = f.named ∧
      ∀ (popt : Option (List K)) (cols : Nat) (rows : List (List K)), 3 ≤ cols → rows ≠ [] →
        fitLS curveFit ⟨f, init, popt⟩ (.array cols rows) = (⟨f, init, popt⟩, some .typeError) := by
  refine ⟨List.replicate f.named 1, ?_, by simp, ?_⟩
  · unfold initVals
    simp only
    rw [if_neg (by omega)]
  · intro popt cols rows hc hr
    simp only [fitLS]
    rw [if_neg (by omega), hcf (e := .typeError)]
    · simpa using hr
    · unfold Func.fitting Func.call
      rw [if_pos]
      right; left
      exact ⟨by simp, hstar⟩

/-- `def f(ws, wa, a, b): return a * ws + b`. -/
def affineNamed : Func ℚ := { affine with required := 4, named := 4, star := false }

example : ∃ init, initVals affineNamed none 0 = some (.ok init) ∧ init.length = 4 :=
  ⟨[1, 1, 1, 1], rfl, rfl⟩

/-- The function given to the regressor works, with the right number of parameters. -/
example : affineNamed.fitting [(2, 30), (3, 60)] [5, 1] = .ok [11, 16] := by decide +kernel

/-- **C98 diverges** for functions which always raise an `IndexError` or a `TypeError`: `LeastSquareRegressor(f)` never
returns, it does not raise the exception. -/
theorem C98_error_diverges {f : Func K} (hnamed : f.named < 3)
    (h : ∀ p : List K, f.fitting [(0, 0)] p = .error .indexError ∨ f.fitting [(0, 0)] p = .error .typeError) :
    ∀ fuel, initVals f none fuel = none := by
  intro fuel
  unfold initVals
  simp only
  rw [if_pos hnamed]
  generalize ([] : List K) = p
  induction fuel generalizing p with
  | zero => rfl
  | succ fuel ih =>
    simp only [determine]
    rcases h p with h | h <;> rw [h] <;> exact ih _

/-- E.g. functions with one argument, and functions with a required keyword-only argument. -/
theorem C98_signature_diverges {f : Func K} (h : (f.named < 2 ∧ f.star = false) ∨ (f.named < 3 ∧ f.keyword = true)) :
    ∀ fuel, initVals f none fuel = none := by
  refine C98_error_diverges (by omega) fun p => .inr ?_
  unfold Func.fitting Func.call
  rw [if_pos]
  rcases h with ⟨h, hs⟩ | ⟨_, hk⟩
  · right; left
    exact ⟨by omega, hs⟩
  · right; right
    exact hk

/-- E.g. a function with a type error in its body. -/
example : ∀ fuel, initVals { affine with body := fun _ _ _ => .error .typeError } none fuel = none := by
  refine C98_error_diverges (f := { affine with body := fun _ _ _ => .error .typeError }) (by decide) fun p => .inr ?_
  unfold Func.fitting Func.call
  split <;> rfl

/-- **C98**: other exceptions of the function are raised when the regressor is created. -/
theorem C98_other {f : Func K} (hnamed : f.named < 3) {e : PyErr} (h : f.fitting [(0, 0)] [] = .error e)
    (hi : e ≠ .indexError) (ht : e ≠ .typeError) (fuel : Nat) : initVals f none (fuel + 1) = some (.error e) := by
  unfold initVals
  simp only
  rw [if_pos hnamed]
  simp only [determine]
  rw [h]
  cases e <;> first | rfl | exact absurd rfl hi | exact absurd rfl ht

/-- **C98**: with given initial values, a function with this number of parameters, and `curve_fit` returning as many
parameters as it gets, the fitted function can be called with the optimal parameters. -/
theorem C98_given {curveFit : (List (K × K) → List K → Except PyErr (List K)) → List (K × K) → List K → List K →
    Except PyErr (List K)} (hlen : ∀ g X y p q, curveFit g X y p = .ok q → q.length = p.length) {f : Func K} {init : List K}
    (hkw : f.keyword = false) (hreq : f.required ≤ init.length + 2) (hnamed : init.length + 2 ≤ f.named ∨ f.star = true)
    (fuel : Nat) {popt : Option (List K)} {d : Input K} {s' : State K}
    (h : fitLS curveFit ⟨f, init, popt⟩ d = (s', none)) :
    initVals f (some init) fuel = some (.ok init) ∧ ∃ p, s'.popt = some p ∧ p.length = init.length ∧
      ∀ ws wa, s'.func.call ws wa p = f.body ws wa p := by
  refine ⟨rfl, ?_⟩
  cases d with
  | list rows => simp [fitLS] at h
  | array cols rows =>
    simp only [fitLS] at h
    split at h
    · simp at h
    · split at h
      · simp at h
      · rename_i p hp
        simp only [Prod.mk.injEq, and_true] at h
        subst h
        have hl := hlen _ _ _ _ _ hp
        refine ⟨p, rfl, hl, fun ws wa => ?_⟩
        unfold Func.call
        rw [if_neg]
        simp only [hkw, hl]
        rintro (h | ⟨h1, h2⟩ | h)
        · omega
        · rcases hnamed with h | h
          · omega
          · rw [h2] at h
            exact Bool.noConfusion h
        · exact Bool.noConfusion h

example : initVals (⟨4, 4, false, false, fun ws _ p => .ok (ws.map (· * p.sum))⟩ : Func ℚ) (some [1, 2]) 5 = some (.ok [1, 2]) ∧
    ∃ p : List ℚ, some [1, 2] = some p ∧ p.length = ([1, 2] : List ℚ).length ∧
      ∀ ws wa, Func.call ⟨4, 4, false, false, fun ws _ p => .ok (ws.map (· * p.sum))⟩ ws wa p = .ok (ws.map (· * p.sum)) :=
  C98_given (K := ℚ) (curveFit := fun _ _ _ p => .ok p) (f := ⟨4, 4, false, false, fun ws _ p => .ok (ws.map (· * p.sum))⟩) (init := [1, 2])
    (fun _ _ _ p q h => by rw [Except.ok.inj h]) rfl (by simp) (Or.inl (by simp)) 5
    (popt := none) (d := .array 3 [[10, 90, 6]]) (s' := ⟨_, [1, 2], some [1, 2]⟩) rfl

/-! ### C99: the data -/

/-- **C99**: a regressor whose fit failed has the same optimal parameters as before. -/
theorem C99_failed (curveFit) (odr) (s : State K) (d : Input K) :
    (∀ s' e, fitLS curveFit s d = (s', some e) → s' = s) ∧ (∀ s' e, fitODR odr s d = (s', some e) → s' = s) := by
  constructor
  · intro s' e h
    cases d with
    | list rows => simp only [fitLS, Prod.mk.injEq] at h; exact h.1.symm
    | array cols rows =>
      simp only [fitLS] at h
      split at h
      · simp only [Prod.mk.injEq] at h; exact h.1.symm
      · split at h
        · simp only [Prod.mk.injEq] at h; exact h.1.symm
        · simp at h
  · intro s' e h
    cases d with
    | list rows => simp only [fitODR, Prod.mk.injEq] at h; exact h.1.symm
    | array cols rows =>
      simp only [fitODR] at h
      split at h
      · simp only [Prod.mk.injEq] at h; exact h.1.symm
      · split at h
        · simp only [Prod.mk.injEq] at h; exact h.1.symm
        · split at h
          · simp only [Prod.mk.injEq] at h; exact h.1.symm
          · simp at h

/-- **C99**: the result of a fit depends only on its data, not on what was fitted before. -/
theorem C99_refit (curveFit) (odr) (f : Func K) (init : List K) (p q : Option (List K)) (d : Input K) :
    ((fitLS curveFit ⟨f, init, p⟩ d).2 = (fitLS curveFit ⟨f, init, q⟩ d).2 ∧ ((fitLS curveFit ⟨f, init, p⟩ d).2 = none →
      fitLS curveFit ⟨f, init, p⟩ d = fitLS curveFit ⟨f, init, q⟩ d)) ∧
    ((fitODR odr ⟨f, init, p⟩ d).2 = (fitODR odr ⟨f, init, q⟩ d).2 ∧ ((fitODR odr ⟨f, init, p⟩ d).2 = none →
      fitODR odr ⟨f, init, p⟩ d = fitODR odr ⟨f, init, q⟩ d)) := by
  constructor
  · cases d with
    | list rows => simp [fitLS]
    | array cols rows =>
      simp only [fitLS]
      split
      · simp
      · split <;> simp
  · cases d with
    | list rows => simp [fitODR]
    | array cols rows =>
      simp only [fitODR]
      split
      · simp
      · split
        · simp
        · split <;> simp

/-- **C99**: data with rows `ws, wa, bsp` is given to `curve_fit` and `ODR` as pairs of wind speed and wind angle (resp.
two columns) and boat speeds, in the same order. -/
theorem C99_data (curveFit) (odr) (s : State K) (pts : List ((K × K) × K)) (hne : pts ≠ []) :
    fitLS curveFit s (.array 3 (pts.map fun p => [p.1.1, p.1.2, p.2])) =
      (match curveFit (fun wind params => s.func.call (wind.map (·.1)) (wind.map (·.2)) params) (pts.map (·.1)) (pts.map (·.2)) s.init with
        | .error e => (s, some e)
        | .ok p => ({ s with popt := some p }, none)) ∧
    fitODR odr s (.array 3 (pts.map fun p => [p.1.1, p.1.2, p.2])) =
      (match odr (fun params x => s.func.call x.1 x.2 params) (pts.map (·.1.1), pts.map (·.1.2)) (pts.map (·.2)) s.init with
        | .error e => (s, some e)
        | .ok p => ({ s with popt := some p }, none)) := by
  constructor
  · simp only [fitLS, List.map_map]
    rfl
  · simp only [fitODR, List.map_map]
    rw [if_neg (by simp), if_neg (by simpa using hne)]
    rfl

/-- **C99**, for `ODRegressor`: arrays of another shape than `(n, 3)` and empty ones raise a `ValueError`. What is missing:
`LeastSquareRegressor`, see `C99_columns_false`. -/
theorem C99_shape_partial (odr) (s : State K) (cols : Nat) (rows : List (List K)) (h : cols ≠ 3 ∨ rows = []) :
    fitODR odr s (.array cols rows) = (s, some .valueError) := by
  simp only [fitODR]
  rcases h with h | h
  · rw [if_pos h]
  · rw [if_pos h]
    split <;> rfl

/-- **C99 is false** for `LeastSquareRegressor`: data with further columns is accepted, all columns but the first three are
ignored. -/
theorem C99_columns_false (curveFit) (s : State K) (cols : Nat) (rows : List (List K)) (hc : 3 ≤ cols)
    (hr : ∀ r ∈ rows, r.length = cols) :
    fitLS curveFit s (.array cols rows) = fitLS curveFit s (.array 3 (rows.map (List.take 3))) := by
  have hs : ∀ r : List K, split (r.take 3) = split r := by
    intro r
    unfold split
    match r with
    | [] => rfl
    | [_] => rfl
    | [_, _] => rfl
    | _ :: _ :: _ :: _ => rfl
  simp only [fitLS, List.map_map]
  rw [if_neg (by omega), if_neg (by omega)]
  have e1 : (fun r : List K => (split r).1) ∘ List.take 3 = fun r => (split r).1 := funext fun r => by simp [hs]
  have e2 : (fun r : List K => (split r).2) ∘ List.take 3 = fun r => (split r).2 := funext fun r => by simp [hs]
  rw [e1, e2]

/-- **C99 is false** for lists of points, though array likes are documented: both regressors raise an exception for them. -/
theorem C99_lists_false (curveFit) (odr) (s : State K) (rows : List (List K)) :
    fitLS curveFit s (.list rows) = (s, some .typeError) ∧ fitODR odr s (.list rows) = (s, some .attributeError) :=
  ⟨rfl, rfl⟩

example : (fitLS (fun _ _ y _ => .ok y) ⟨affine, [1, 1], none⟩ (.array 4 [[2, 30, 5, 7], [3, 60, 6, 8]])).1.popt =
    some [5, 6] := by decide +kernel

end Verif.Regr
