import Mathlib.Analysis.Calculus.Deriv.MeanValue
import Mathlib.Analysis.SpecialFunctions.Exp
import Mathlib.Analysis.SpecialFunctions.Trigonometric.Bounds
import Verif.Props.Cruising

/-!
# C133: isochrone approximates the way really sailed

The boat really is at `x t` at the time `t`, where `x 0 = 0` and `x` has the derivative `b (x t) t`: `b s t` is the speed
of the boat after the distance `s` at the time `t`.
-/

namespace Verif.Cruising

/-- What is assumed of the speed `b s t` of the boat after the distance `s` at the time `t`: it stays between two positive
bounds and changes steadily. -/
structure Steady (b : ℝ → ℝ → ℝ) (lo hi L : ℝ) : Prop where
  lo_pos : 0 < lo
  le : ∀ s t, lo ≤ b s t
  ge : ∀ s t, b s t ≤ hi
  lip : ∀ s s' t t', |b s t - b s' t'| ≤ L * (|s - s'| + |t - t'|)

/-- The way of a boat with the speed `b`. -/
structure Voyage (b : ℝ → ℝ → ℝ) (x : ℝ → ℝ) : Prop where
  start : x 0 = 0
  deriv : ∀ t, HasDerivAt x (b (x t) t) t

theorem Steady.nonneg {b : ℝ → ℝ → ℝ} {lo hi L : ℝ} (h : Steady b lo hi L) : 0 ≤ L := by
  have := (abs_nonneg _).trans (h.lip 0 1 0 0)
  simpa using this

theorem Steady.lo_le_hi {b : ℝ → ℝ → ℝ} {lo hi L : ℝ} (h : Steady b lo hi L) : lo ≤ hi := (h.le 0 0).trans (h.ge 0 0)

/-- On the way, the distance grows like the speed at some time in between. -/
theorem Voyage.between {b : ℝ → ℝ → ℝ} {x : ℝ → ℝ} (hx : Voyage b x) {t u : ℝ} (h : t ≤ u) :
    ∃ c, t ≤ c ∧ c ≤ u ∧ x u - x t = b (x c) c * (u - t) := by
  rcases h.lt_or_eq with h | rfl
  · obtain ⟨c, hc, e⟩ := exists_hasDerivAt_eq_slope x (fun t => b (x t) t) h
      (fun y _ => (hx.deriv y).continuousAt.continuousWithinAt) (fun y _ => hx.deriv y)
    refine ⟨c, hc.1.le, hc.2.le, ?_⟩
    rw [e, div_mul_cancel₀]
    linarith
  · exact ⟨t, le_rfl, le_rfl, by ring⟩

/-- One step of the approximation: after the time `τ ≤ δ` sailed with the speed at its start, the error is still within the
bound. -/
theorem step_error {b : ℝ → ℝ → ℝ} {lo hi L : ℝ} (hb : Steady b lo hi L) {x : ℝ → ℝ} (hx : Voyage b x) {t τ δ s : ℝ}
    (ht : 0 ≤ t) (hτ : 0 ≤ τ) (hδ : τ ≤ δ) (he : |x t - s| ≤ L * (1 + hi) * δ * t * Real.exp (L * t)) :
    |x (t + τ) - (s + b s t * τ)| ≤ L * (1 + hi) * δ * (t + τ) * Real.exp (L * (t + τ)) := by
  have hL := hb.nonneg
  have hhi : 0 < hi := hb.lo_pos.trans_le hb.lo_le_hi
  have hd0 : 0 ≤ δ := hτ.trans hδ
  obtain ⟨c, h1, h2, e⟩ := hx.between (le_add_of_nonneg_right hτ : t ≤ t + τ)
  obtain ⟨d, h3, h4, e'⟩ := hx.between h1
  have hcx : |x c - x t| ≤ hi * τ := by
    rw [e', abs_mul, abs_of_nonneg (sub_nonneg.2 h1), abs_of_nonneg (hb.lo_pos.le.trans (hb.le _ _))]
    exact mul_le_mul (hb.ge _ _) (by linarith) (sub_nonneg.2 h1) hhi.le
  have hct : |c - t| ≤ τ := by rw [abs_of_nonneg (sub_nonneg.2 h1)]; linarith
  have g1 : |b (x c) c - b (x t) t| ≤ L * (1 + hi) * τ :=
    (hb.lip _ _ _ _).trans (by nlinarith [mul_le_mul_of_nonneg_left (add_le_add hcx hct) hL])
  have g2 : |b (x t) t - b s t| ≤ L * |x t - s| := by
    have := hb.lip (x t) s t t
    simpa using this
  have e2 : x (t + τ) - (s + b s t * τ) =
      (x t - s) + (b (x c) c - b (x t) t) * τ + (b (x t) t - b s t) * τ := by
    have : x (t + τ) = x t + b (x c) c * τ := by linarith [e, (by ring : t + τ - t = τ), congrArg (b (x c) c * ·) (by ring : t + τ - t = τ)]
    rw [this]; ring
  have g3 : |x (t + τ) - (s + b s t * τ)| ≤ (1 + L * τ) * |x t - s| + L * (1 + hi) * τ * τ := by
    rw [e2]
    refine (abs_add_le _ _).trans ?_
    refine (add_le_add_left (abs_add_le _ _) _).trans ?_
    rw [abs_mul, abs_mul, abs_of_nonneg hτ]
    nlinarith [mul_le_mul_of_nonneg_right g1 hτ, mul_le_mul_of_nonneg_right g2 hτ]
  refine g3.trans ?_
  have hexp : 1 + L * τ ≤ Real.exp (L * τ) := by linarith [Real.add_one_le_exp (L * τ)]
  have hone : 1 ≤ Real.exp (L * (t + τ)) := Real.one_le_exp (by positivity)
  have hs : Real.exp (L * (t + τ)) = Real.exp (L * τ) * Real.exp (L * t) := by rw [← Real.exp_add]; congr 1; ring
  have hC : 0 ≤ L * (1 + hi) * δ := by positivity
  calc (1 + L * τ) * |x t - s| + L * (1 + hi) * τ * τ
      ≤ Real.exp (L * τ) * (L * (1 + hi) * δ * t * Real.exp (L * t)) + L * (1 + hi) * δ * τ * Real.exp (L * (t + τ)) := by
        apply add_le_add
        · exact mul_le_mul hexp he (abs_nonneg _) (Real.exp_pos _).le
        · have k1 : L * (1 + hi) * τ * τ ≤ L * (1 + hi) * δ * τ :=
            mul_le_mul_of_nonneg_right (mul_le_mul_of_nonneg_left hδ (by positivity)) hτ
          exact k1.trans (le_mul_of_one_le_right (by positivity) hone)
    _ = _ := by rw [hs]; ring

/-- The time per distance used by `isochrone` for a boat with the speed `b`. -/
noncomputable def pace (b : ℝ → ℝ → ℝ) (s t : ℝ) : ℝ := invSpeed (b s t)

theorem pace_eq {b : ℝ → ℝ → ℝ} {lo hi L : ℝ} (hb : Steady b lo hi L) (s t : ℝ) : b s t * pace b s t = 1 ∧ 0 < pace b s t := by
  have h : 0 < b s t := hb.lo_pos.trans_le (hb.le s t)
  unfold pace invSpeed
  rw [if_pos h.ne']
  exact ⟨mul_one_div_cancel h.ne', by positivity⟩

theorem eulerTime_nonneg {b : ℝ → ℝ → ℝ} {lo hi L : ℝ} (hb : Steady b lo hi L) {h : ℝ} (hh : 0 ≤ h) (n : Nat) :
    0 ≤ eulerTime (pace b) h n := by
  induction n with
  | zero => exact le_rfl
  | succ n ih => exact add_nonneg ih (mul_nonneg (pace_eq hb _ _).2.le hh)

/-- The time for the first `n` steps is at least that of the greatest speed. -/
theorem le_eulerTime {b : ℝ → ℝ → ℝ} {lo hi L : ℝ} (hb : Steady b lo hi L) {h : ℝ} (hh : 0 ≤ h) (n : Nat) :
    (n : ℝ) * h ≤ hi * eulerTime (pace b) h n := by
  induction n with
  | zero => simp [eulerTime]
  | succ n ih =>
    have hhi : 0 < hi := hb.lo_pos.trans_le hb.lo_le_hi
    obtain ⟨p1, p2⟩ := pace_eq hb ((n : ℝ) * h) (eulerTime (pace b) h n)
    have : 1 ≤ hi * pace b ((n : ℝ) * h) (eulerTime (pace b) h n) := by
      rw [← p1]; exact mul_le_mul_of_nonneg_right (hb.ge _ _) p2.le
    rw [eulerTime]
    push_cast
    nlinarith [mul_le_mul_of_nonneg_right this hh]

/-- A way sailed at the pace of its start takes at most the time of the slowest speed. -/
theorem pace_le {b : ℝ → ℝ → ℝ} {lo hi L : ℝ} (hb : Steady b lo hi L) (s t : ℝ) : pace b s t ≤ 1 / lo := by
  have h : 0 < b s t := hb.lo_pos.trans_le (hb.le s t)
  unfold pace invSpeed
  rw [if_pos h.ne']
  exact one_div_le_one_div_of_le hb.lo_pos (hb.le s t)

/-- The error after `n` steps. -/
theorem euler_error {b : ℝ → ℝ → ℝ} {lo hi L : ℝ} (hb : Steady b lo hi L) {x : ℝ → ℝ} (hx : Voyage b x) {h : ℝ} (hh : 0 ≤ h)
    (n : Nat) : |x (eulerTime (pace b) h n) - (n : ℝ) * h| ≤
      L * (1 + hi) * (h / lo) * eulerTime (pace b) h n * Real.exp (L * eulerTime (pace b) h n) := by
  induction n with
  | zero => simp [eulerTime, hx.start]
  | succ n ih =>
    obtain ⟨p1, p2⟩ := pace_eq hb ((n : ℝ) * h) (eulerTime (pace b) h n)
    have := step_error hb hx (eulerTime_nonneg hb hh n) (mul_nonneg p2.le hh)
      (by rw [div_eq_mul_one_div, mul_comm h]; exact mul_le_mul_of_nonneg_right (pace_le hb _ _) hh) ih
    rw [← mul_assoc (b _ _), p1, one_mul] at this
    rw [eulerTime]
    convert this using 3
    push_cast; ring

/-- **C133.** The distance returned by `isochrone` differs from the distance really sailed in `total_time` at most by the
given bound, which is proportional to the square of `total_time` and inversely proportional to the number of nodes. -/
theorem C133_error {b : ℝ → ℝ → ℝ} {lo hi L : ℝ} (hb : Steady b lo hi L) {x : ℝ → ℝ} (hx : Voyage b x) {total : ℝ}
    (h0 : 0 < total) {minNodes fuel : Nat} (hn : 2 ≤ minNodes) {s : ℝ}
    (h : isochrone (pace b) total minNodes fuel = some (.ok s)) :
    |s - x total| ≤ L * (1 + hi) * (hi / lo) * total ^ 2 * Real.exp (L * total) / ((minNodes : ℝ) - 1) := by
  have hL := hb.nonneg
  have hlo := hb.lo_pos
  have hhi : 0 < hi := hb.lo_pos.trans_le hb.lo_le_hi
  obtain ⟨step, n, h1, h2, h3, h4, h5, h6⟩ := C45_budget h0 (fun s t => (pace_eq hb s t).2.le) h
  obtain ⟨p1, p2⟩ := pace_eq hb ((n : ℝ) * step) (eulerTime (pace b) step n)
  set t := eulerTime (pace b) step n with htd
  set p := pace b ((n : ℝ) * step) t with hp
  have he := euler_error hb hx h1.le n
  rw [← htd] at he
  have hτ0 : 0 ≤ p * (s - (n : ℝ) * step) := mul_nonneg p2.le (by linarith)
  have hτ : p * (s - (n : ℝ) * step) ≤ step / lo := by
    rw [div_eq_mul_one_div, mul_comm step]
    exact mul_le_mul (pace_le hb _ _) (by linarith) (by linarith) (by positivity)
  have key := step_error hb hx (eulerTime_nonneg hb h1.le n) hτ0 hτ he
  rw [← mul_assoc (b _ _), p1, one_mul, h6, add_sub_cancel, abs_sub_comm] at key
  refine key.trans ?_
  have hm1 : (1 : ℝ) ≤ (minNodes : ℝ) - 1 := by
    have : (2 : ℝ) ≤ minNodes := by exact_mod_cast hn
    linarith
  have hstep : step ≤ hi * total / ((minNodes : ℝ) - 1) := by
    rw [le_div_iff₀ (by linarith)]
    have k1 : ((minNodes : ℝ) - 1) ≤ n := by
      have : (minNodes : ℝ) ≤ (n : ℝ) + 1 := by exact_mod_cast h2
      linarith
    have k2 := le_eulerTime hb h1.le n
    rw [← htd] at k2
    have k3 := mul_le_mul_of_nonneg_left h3.le hhi.le
    nlinarith [mul_le_mul_of_nonneg_left k1 h1.le]
  have : L * (1 + hi) * (step / lo) * total * Real.exp (L * total) ≤
      L * (1 + hi) * (hi * total / ((minNodes : ℝ) - 1) / lo) * total * Real.exp (L * total) := by
    gcongr
  refine this.trans (le_of_eq ?_)
  have : (minNodes : ℝ) - 1 ≠ 0 := by linarith
  field_simp

/-- **C133.** With sufficiently many nodes, the distance is as exact as desired, and it is always returned. -/
theorem C133_limit {b : ℝ → ℝ → ℝ} {lo hi L : ℝ} (hb : Steady b lo hi L) {x : ℝ → ℝ} (hx : Voyage b x) {total : ℝ}
    (h0 : 0 < total) {ε : ℝ} (hε : 0 < ε) : ∃ N : Nat, ∀ minNodes ≥ N,
      (∃ fuel s, isochrone (pace b) total minNodes fuel = some (.ok s)) ∧
      ∀ fuel s, isochrone (pace b) total minNodes fuel = some (.ok s) → |s - x total| ≤ ε := by
  have hL := hb.nonneg
  have hlo := hb.lo_pos
  have hhi : 0 < hi := hb.lo_pos.trans_le hb.lo_le_hi
  obtain ⟨N, hN⟩ := exists_nat_gt (L * (1 + hi) * (hi / lo) * total ^ 2 * Real.exp (L * total) / ε)
  refine ⟨N + 2, fun m hm => ⟨?_, fun fuel s h => ?_⟩⟩
  · obtain ⟨fuel, s, h⟩ := C45_terminates_partial h0 (m := 1 / hi) (M := 1 / lo) (by positivity)
      (fun s t => by
        have : 0 < b s t := hb.lo_pos.trans_le (hb.le s t)
        rw [pace, invSpeed, if_pos this.ne']
        exact one_div_le_one_div_of_le this (hb.ge s t))
      (pace_le hb) (by omega : 0 < m)
    exact ⟨fuel, s, h 0⟩
  · refine (C133_error hb hx h0 (by omega) h).trans ?_
    have : (N : ℝ) ≤ (m : ℝ) - 1 := by
      have : ((N + 2 : Nat) : ℝ) ≤ m := by exact_mod_cast hm
      push_cast at this; linarith
    rw [div_lt_iff₀ hε] at hN
    have hpos : 0 < (m : ℝ) - 1 := by
      have : ((N + 2 : Nat) : ℝ) ≤ m := by exact_mod_cast hm
      push_cast at this
      have : (0 : ℝ) ≤ N := Nat.cast_nonneg N
      linarith
    rw [div_le_iff₀ hpos]
    nlinarith

/-- A boat whose speed goes up and down meets the hypotheses. -/
theorem swell_steady {c : ℝ} (hc : 1 < c) : Steady (fun _ t => c + Real.sin t) (c - 1) (c + 1) 1 := by
  refine ⟨by linarith, fun _ t => by linarith [Real.neg_one_le_sin t], fun _ t => by linarith [Real.sin_le_one t], ?_⟩
  intro s s' t t'
  have h := Real.abs_sin_sub_sin_le t t'
  have e : (c + Real.sin t) - (c + Real.sin t') = Real.sin t - Real.sin t' := by ring
  rw [e]
  linarith [abs_nonneg (s - s')]

theorem swell_voyage (c : ℝ) : Voyage (fun _ t => c + Real.sin t) (fun t => c * t + 1 - Real.cos t) := by
  refine ⟨by simp, fun t => ?_⟩
  have h := (((hasDerivAt_id t).const_mul c).add_const 1).sub (Real.hasDerivAt_cos t)
  have e : c * 1 - -Real.sin t = c + Real.sin t := by ring
  rw [e] at h
  exact h

example {ε : ℝ} (hε : 0 < ε) : ∃ N : Nat, ∀ minNodes ≥ N,
    (∃ fuel s, isochrone (pace fun _ t => 2 + Real.sin t) 1 minNodes fuel = some (.ok s)) ∧
    ∀ fuel s, isochrone (pace fun _ t => 2 + Real.sin t) 1 minNodes fuel = some (.ok s) → |s - (3 - Real.cos 1)| ≤ ε := by
  have := C133_limit (swell_steady one_lt_two) (swell_voyage 2) one_pos hε
  norm_num at this
  exact this

/-! ### C134 -/

/-- A boat which is nowhere and never slower is at no time behind. -/
theorem voyage_le {b b' : ℝ → ℝ → ℝ} {lo hi L : ℝ} (hb : Steady b lo hi L) (hle : ∀ s t, b s t ≤ b' s t) {x x' : ℝ → ℝ}
    (hx : Voyage b x) (hx' : Voyage b' x') {t : ℝ} (ht : 0 ≤ t) : x t ≤ x' t := by
  have hL := hb.nonneg
  have key : ∀ ε > 0, x t - x' t ≤ ε * Real.exp ((L + 1) * t) := by
    intro ε hε
    refine image_le_of_deriv_right_lt_deriv_boundary (f := fun t => x t - x' t) (f' := fun t => b (x t) t - b' (x' t) t)
      (B := fun t => ε * Real.exp ((L + 1) * t)) (B' := fun t => ε * (Real.exp ((L + 1) * t) * (L + 1))) (a := 0) (b := t)
      (fun y _ => ((hx.deriv y).sub (hx'.deriv y)).continuousAt.continuousWithinAt)
      (fun y _ => ((hx.deriv y).sub (hx'.deriv y)).hasDerivWithinAt) ?_ ?_ ?_ ⟨ht, le_rfl⟩
    · simp [hx.start, hx'.start, hε.le]
    · intro y
      have h := ((hasDerivAt_id y).const_mul (L + 1)).exp.const_mul ε
      simpa using h
    · intro y _ he
      have hpos : 0 < x y - x' y := by rw [he]; positivity
      have h1 := (le_abs_self _).trans (hb.lip (x y) (x' y) y y)
      simp only [sub_self, abs_zero, add_zero, abs_of_pos hpos] at h1
      have h2 := hle (x' y) y
      have : ε * (Real.exp ((L + 1) * y) * (L + 1)) = (x y - x' y) * (L + 1) := by rw [he]; ring
      rw [this]
      nlinarith
  by_contra hlt
  push Not at hlt
  have hE := Real.exp_pos ((L + 1) * t)
  have := key ((x t - x' t) / (2 * Real.exp ((L + 1) * t))) (div_pos (by linarith) (by positivity))
  rw [div_mul_eq_mul_div, le_div_iff₀ (by positivity)] at this
  nlinarith

/-- **C134.** With sufficiently many nodes, a boat which is nowhere and never slower gets at least as far, up to any
tolerance. (Without a tolerance this does not hold: `C134_speed_false`.) -/
theorem C134_speed_partial {b b' : ℝ → ℝ → ℝ} {lo hi L lo' hi' L' : ℝ} (hb : Steady b lo hi L) (hb' : Steady b' lo' hi' L')
    (hle : ∀ s t, b s t ≤ b' s t) {x x' : ℝ → ℝ} (hx : Voyage b x) (hx' : Voyage b' x') {total : ℝ} (h0 : 0 < total)
    {ε : ℝ} (hε : 0 < ε) : ∃ N : Nat, ∀ minNodes ≥ N, ∀ fuel fuel' s s',
      isochrone (pace b) total minNodes fuel = some (.ok s) → isochrone (pace b') total minNodes fuel' = some (.ok s') →
      s ≤ s' + ε := by
  obtain ⟨N, hN⟩ := C133_limit hb hx h0 (half_pos hε)
  obtain ⟨N', hN'⟩ := C133_limit hb' hx' h0 (half_pos hε)
  refine ⟨max N N', fun m hm fuel fuel' s s' h h' => ?_⟩
  have h1 := abs_le.1 ((hN m ((le_max_left _ _).trans hm)).2 fuel s h)
  have h2 := abs_le.1 ((hN' m ((le_max_right _ _).trans hm)).2 fuel' s' h')
  have := voyage_le hb hle hx hx' h0.le
  linarith [h1.2, h2.1]

/-- **C134.** With sufficiently many nodes, more time leads further: at least the additional time at the slowest speed, up
to any tolerance. (Without a tolerance this does not hold: `C134_time_false`.) -/
theorem C134_time_partial {b : ℝ → ℝ → ℝ} {lo hi L : ℝ} (hb : Steady b lo hi L) {x : ℝ → ℝ} (hx : Voyage b x)
    {total total' : ℝ} (h0 : 0 < total) (hle : total ≤ total') {ε : ℝ} (hε : 0 < ε) : ∃ N : Nat, ∀ minNodes ≥ N,
      ∀ fuel fuel' s s', isochrone (pace b) total minNodes fuel = some (.ok s) →
      isochrone (pace b) total' minNodes fuel' = some (.ok s') →
      s + lo * (total' - total) ≤ s' + ε ∧ s' ≤ s + hi * (total' - total) + ε := by
  obtain ⟨N, hN⟩ := C133_limit hb hx h0 (half_pos hε)
  obtain ⟨N', hN'⟩ := C133_limit hb hx (h0.trans_le hle) (half_pos hε)
  refine ⟨max N N', fun m hm fuel fuel' s s' h h' => ?_⟩
  have h1 := abs_le.1 ((hN m ((le_max_left _ _).trans hm)).2 fuel s h)
  have h2 := abs_le.1 ((hN' m ((le_max_right _ _).trans hm)).2 fuel' s' h')
  obtain ⟨c, -, -, e⟩ := hx.between hle
  have hd : 0 ≤ total' - total := by linarith
  have e1 := mul_le_mul_of_nonneg_right (hb.le (x c) c) hd
  have e2 := mul_le_mul_of_nonneg_right (hb.ge (x c) c) hd
  exact ⟨by linarith [h1.2, h2.1], by linarith [h1.1, h2.2]⟩

example : ∃ N : Nat, ∀ minNodes ≥ N, ∀ fuel fuel' s s',
    isochrone (pace fun _ t => 2 + Real.sin t) 1 minNodes fuel = some (.ok s) →
    isochrone (pace fun _ t => 3 + Real.sin t) 1 minNodes fuel' = some (.ok s') → s ≤ s' + 1 / 100 :=
  C134_speed_partial (swell_steady (by norm_num)) (swell_steady (by norm_num)) (fun _ _ => by norm_num) (swell_voyage 2)
    (swell_voyage 3) one_pos (by norm_num)

/-- A boat with 10 knots, and 1/10 knot in a calm. -/
def calmSpeed (s : ℚ) : ℚ := if 47 / 10 < s ∧ s < 53 / 10 then 1 / 10 else 10

/-- A slower boat in the same calm. -/
def calmSpeedSlow (s : ℚ) : ℚ :=
  if 47 / 10 < s ∧ s < 53 / 10 then 1 / 10 else if s < 1 then 10 / 3 else if 3 / 2 < s ∧ s < 2 then 1 else 10

/-- **C134** is false without a tolerance: the faster boat runs into a calm which the slower one jumps over, since the step
size depends on the speeds. -/
theorem C134_speed_false : (∀ s, calmSpeedSlow s ≤ calmSpeed s) ∧ ∃ s s' : ℚ,
    isochrone (fun s _ => invSpeed (calmSpeedSlow s)) 1 3 100 = some (.ok s) ∧
    isochrone (fun s _ => invSpeed (calmSpeed s)) 1 3 100 = some (.ok s') ∧ s' < s := by
  refine ⟨fun s => ?_, 70 / 9, 101 / 20, by decide +kernel, by decide +kernel, by norm_num⟩
  unfold calmSpeedSlow calmSpeed
  split_ifs <;> norm_num

/-- **C134** is false without a tolerance: with more time, the steps are longer and lead into the calm. -/
theorem C134_time_false : ∃ s s' : ℚ,
    isochrone (fun s _ => invSpeed (calmSpeed s)) (9 / 10) 3 100 = some (.ok s) ∧
    isochrone (fun s _ => invSpeed (calmSpeed s)) 1 3 100 = some (.ok s') ∧ s' < s :=
  ⟨9, 101 / 20, by decide +kernel, by decide +kernel, by norm_num⟩

end Verif.Cruising
