import Mathlib.Algebra.Order.Archimedean.Basic
import Mathlib.Data.Rat.Floor
import Mathlib.Tactic.FieldSimp
import Mathlib.Tactic.Linarith
import Mathlib.Tactic.Positivity
import Mathlib.Tactic.Ring
import Verif.Model.Cruising

/-!
# Properties C44, C45, C46: time per distance, isochrone, mercator projection
-/

set_option linter.unusedSectionVars false

namespace Verif.Cruising

section speed

variable {K : Type} [Field K] [LinearOrder K] [IsStrictOrderedRing K]

/-! ### C44 -/

/-- **C44** (partial: positive boat speeds; false for boat speed 0, see `C44_calm_false`). A diagram with lower boat
speed gives a larger time per distance. -/
theorem C44_monotone_partial {W : Type} (weather : Except PyErr W) {slow fast : W → Except PyErr K}
    (h : ∀ w, ∃ b b', slow w = .ok b ∧ fast w = .ok b' ∧ 0 < b ∧ b ≤ b') {x y : K}
    (hx : inverseBsp weather slow = .ok x) (hy : inverseBsp weather fast = .ok y) : y ≤ x ∧ 0 < x := by
  unfold inverseBsp at hx hy
  cases weather with
  | error e =>
    cases e <;> simp at hx hy
    subst hx hy
    exact ⟨le_rfl, by norm_num⟩
  | ok w =>
    obtain ⟨b, b', h1, h2, h3, h4⟩ := h w
    simp only [h1, h2, Except.ok.injEq] at hx hy
    subst hx hy
    have h3' : 0 < b' := lt_of_lt_of_le h3 h4
    simp only [invSpeed, h3.ne', h3'.ne', ne_eq, not_false_eq_true, if_true]
    exact ⟨one_div_le_one_div_of_le h3 h4, by positivity⟩

/-- **C44.** The time per distance is the reciprocal of the boat speed, and 1000 hours per nautical mile where the
weather model has no data. -/
theorem C44_values {W : Type} (speed : W → Except PyErr K) :
    inverseBsp (.error .valueError) speed = .ok 1000 ∧
    ∀ w b, speed w = .ok b → 0 < b → ∃ x, inverseBsp (.ok w) speed = .ok x ∧ x * b = 1 := by
  refine ⟨rfl, fun w b h hb => ⟨1 / b, by simp [inverseBsp, h, invSpeed, hb.ne'], by field_simp⟩⟩

example : inverseBsp (.ok ()) (fun _ => .ok (4 : Rat)) = .ok (1 / 4) := by decide +kernel

/-- **C44** is false: a boat that does not move at all needs less time per distance than any moving boat. -/
theorem C44_calm_false {W : Type} (w : W) {b : K} (hb : 0 < b) :
    ∃ x y, inverseBsp (.ok w) (fun _ => .ok (0 : K)) = .ok x ∧ inverseBsp (.ok w) (fun _ => .ok b) = .ok y ∧ x < y :=
  ⟨0, 1 / b, by simp [inverseBsp, invSpeed], by simp [inverseBsp, invSpeed, hb.ne'], by positivity⟩

/-! ### C45 -/

/-- The time needed for the first `n` steps of length `h` (explicit Euler method for `dt/ds`). -/
def eulerTime (dtds : K → K → K) (h : K) : Nat → K
  | 0 => 0
  | n + 1 => eulerTime dtds h n + dtds ((n : K) * h) (eulerTime dtds h n) * h

/-- Invariant of the loop: the state is the `steps`-th state of the Euler method, before which the time is not
exhausted. -/
structure IsoInv (dtds : K → K → K) (total : K) (st : Iso K) : Prop where
  pos : 0 < st.step
  s : st.s = (st.steps : K) * st.step
  t : st.t = eulerTime dtds st.step st.steps
  before : ∀ n < st.steps, eulerTime dtds st.step n < total
  der : ∀ n, st.steps = n + 1 → st.der = dtds ((n : K) * st.step) (eulerTime dtds st.step n)

theorem inv_advance {dtds : K → K → K} {total : K} {st : Iso K} (h : IsoInv dtds total st) (ht : st.t < total) :
    IsoInv dtds total (advance dtds st) := by
  refine ⟨h.pos, ?_, ?_, ?_, ?_⟩
  · simp only [advance, h.s]; push_cast; ring
  · simp only [advance, eulerTime, ← h.s, ← h.t]
  · intro n hn
    simp only [advance] at hn ⊢
    rcases Nat.lt_or_ge n st.steps with h' | h'
    · exact h.before n h'
    · have : n = st.steps := by omega
      subst this; rw [← h.t]; exact ht
  · intro n hn
    simp only [advance, Nat.add_right_cancel_iff] at hn ⊢
    subst hn
    rw [h.s, h.t]

theorem inv_restart {dtds : K → K → K} {total : K} (h0 : 0 < total) {minNodes : Nat} (hm : 0 < minNodes) {st : Iso K}
    (h : IsoInv dtds total st) (hs : 0 < st.steps) : IsoInv dtds total (restart minNodes st) := by
  have : (0 : K) < st.steps := by exact_mod_cast hs
  have : (0 : K) < minNodes := by exact_mod_cast hm
  have hp := h.pos
  refine ⟨by simp only [restart]; positivity, by simp [restart], by simp [restart, eulerTime], ?_, ?_⟩
  · intro n hn; simp [restart] at hn
  · intro n hn; simp [restart] at hn

theorem steps_pos {dtds : K → K → K} {total : K} (h0 : 0 < total) {st : Iso K} (h : IsoInv dtds total st)
    (ht : total ≤ st.t) : 0 < st.steps := by
  rcases Nat.eq_zero_or_pos st.steps with hs | hs
  · rw [h.t, hs] at ht
    simp only [eulerTime] at ht
    exact absurd h0 (not_lt.2 ht)
  · exact hs

theorem isoLoop_inv {dtds : K → K → K} {total : K} (h0 : 0 < total) {minNodes : Nat} (hm : 0 < minNodes) {fuel : Nat}
    {st st' : Iso K} (h : IsoInv dtds total st) (hl : isoLoop dtds total minNodes fuel st = some st') :
    IsoInv dtds total st' ∧ total ≤ st'.t ∧ minNodes ≤ st'.steps := by
  induction fuel generalizing st with
  | zero => simp [isoLoop] at hl
  | succ fuel ih =>
    unfold isoLoop at hl
    split at hl
    · split at hl
      · rename_i ht
        exact ih (inv_restart h0 hm h (steps_pos h0 h ht)) hl
      · rename_i ht
        exact ih (inv_advance h (not_le.1 ht)) hl
    · rename_i hc
      simp only [Option.some.injEq] at hl
      subst hl
      simp only [not_or, not_lt] at hc
      exact ⟨h, hc.1, hc.2⟩

theorem inv_start {dtds : K → K → K} {total : K} (h0 : 0 < total) {minNodes : Nat} (hm : 0 < minNodes) :
    IsoInv dtds total (isoStart total minNodes) := by
  have : (0 : K) < minNodes := by exact_mod_cast hm
  refine ⟨by simp only [isoStart]; positivity, by simp [isoStart], by simp [isoStart, eulerTime], ?_, ?_⟩
  · intro n hn; simp [isoStart] at hn
  · intro n hn; simp [isoStart] at hn

/-- **C45.** If `isochrone` returns a distance `s`, then this distance is reached exactly at `total_time`: for some
step size `h` and a number `n + 1 ≥ min_nodes` of steps, the first `n` steps take less than `total_time`, and travelling
from `n h` to `s ≤ (n + 1) h` with the time per distance of the last step uses up the remaining time. -/
theorem C45_budget {dtds : K → K → K} {total : K} (h0 : 0 < total) (hpos : ∀ s t, 0 ≤ dtds s t) {minNodes fuel : Nat}
    {s : K} (h : isochrone dtds total minNodes fuel = some (.ok s)) :
    ∃ (step : K) (n : Nat), 0 < step ∧ minNodes ≤ n + 1 ∧ eulerTime dtds step n < total ∧
      (n : K) * step < s ∧ s ≤ ((n : K) + 1) * step ∧
      eulerTime dtds step n + dtds ((n : K) * step) (eulerTime dtds step n) * (s - (n : K) * step) = total := by
  unfold isochrone at h
  split at h
  · simp at h
  · rename_i hm
    have hm' : 0 < minNodes := Nat.pos_of_ne_zero hm
    split at h
    · simp at h
    · rename_i st hl
      obtain ⟨i1, i2, i3⟩ := isoLoop_inv h0 hm' (inv_start h0 hm') hl
      split at h
      · simp at h
      · rename_i hd
        simp only [Option.some.injEq, Except.ok.injEq] at h
        obtain ⟨n, hn⟩ : ∃ n, st.steps = n + 1 := ⟨st.steps - 1, by have := steps_pos h0 i1 i2; omega⟩
        have hder := i1.der n hn
        have ht := i1.t
        rw [hn] at ht
        simp only [eulerTime] at ht
        rw [← hder] at ht
        have hs := i1.s
        rw [hn] at hs
        push_cast at hs
        have hb := i1.before n (by omega)
        have hdpos : 0 < st.der := lt_of_le_of_ne (by rw [hder]; exact hpos _ _) (Ne.symm hd)
        have hs' : s = (n : K) * st.step + (total - eulerTime dtds st.step n) / st.der := by
          rw [← h, hs, ht]; field_simp; ring
        refine ⟨st.step, n, i1.pos, by omega, hb, ?_, ?_, ?_⟩
        · rw [hs']
          have : 0 < (total - eulerTime dtds st.step n) / st.der := div_pos (sub_pos.2 hb) hdpos
          linarith
        · rw [hs']
          have : (total - eulerTime dtds st.step n) / st.der ≤ st.step := by
            rw [div_le_iff₀ hdpos]
            rw [ht] at i2
            linarith
          linarith
        · rw [← hder, hs']
          field_simp
          ring

/-! Termination -/

theorem eulerTime_ge {dtds : K → K → K} {h m : K} (hh : 0 < h) (hm : ∀ s t, m ≤ dtds s t) (n : Nat) :
    (n : K) * (m * h) ≤ eulerTime dtds h n := by
  induction n with
  | zero => simp [eulerTime]
  | succ n ih =>
    simp only [eulerTime]
    have := mul_le_mul_of_nonneg_right (hm ((n : K) * h) (eulerTime dtds h n)) hh.le
    push_cast
    linarith

theorem eulerTime_le {dtds : K → K → K} {h M : K} (hh : 0 < h) (hM : ∀ s t, dtds s t ≤ M) (n : Nat) :
    eulerTime dtds h n ≤ (n : K) * (M * h) := by
  induction n with
  | zero => simp [eulerTime]
  | succ n ih =>
    simp only [eulerTime]
    have := mul_le_mul_of_nonneg_right (hM ((n : K) * h) (eulerTime dtds h n)) hh.le
    push_cast
    linarith

/-- More fuel does not change the outcome. -/
theorem isoLoop_mono {dtds : K → K → K} {total : K} {minNodes fuel : Nat} {st st' : Iso K}
    (h : isoLoop dtds total minNodes fuel st = some st') (k : Nat) :
    isoLoop dtds total minNodes (fuel + k) st = some st' := by
  induction fuel generalizing st with
  | zero => simp [isoLoop] at h
  | succ fuel ih =>
    rw [show fuel + 1 + k = (fuel + k) + 1 by omega]
    unfold isoLoop at h ⊢
    split
    · rename_i hc
      simp only [hc, if_true] at h
      split
      · rename_i ht; simp only [ht, if_true] at h; exact ih h
      · rename_i ht; simp only [ht, if_false] at h; exact ih h
    · rename_i hc; simpa only [hc, if_false] using h

variable [Archimedean K]

/-- Each pass of the loop comes to an end: the time is exhausted after finitely many steps. -/
theorem pass_ends {dtds : K → K → K} {total m : K} (hm0 : 0 < m) (hm : ∀ s t, m ≤ dtds s t)
    {minNodes : Nat} {st : Iso K} (h : IsoInv dtds total st) :
    ∃ (k : Nat) (st' : Iso K), IsoInv dtds total st' ∧ st'.step = st.step ∧ total ≤ st'.t ∧
      ∀ fuel, isoLoop dtds total minNodes (k + fuel) st = isoLoop dtds total minNodes fuel st' := by
  obtain ⟨N, hN⟩ := exists_nat_gt (total / (m * st.step))
  have hpos := h.pos
  have hN' : total < (N : K) * (m * st.step) := by rwa [div_lt_iff₀ (by positivity)] at hN
  have key : ∀ (j : Nat) (st : Iso K), IsoInv dtds total st → total < (N : K) * (m * st.step) → N ≤ st.steps + j →
      ∃ (k : Nat) (st' : Iso K), IsoInv dtds total st' ∧ st'.step = st.step ∧ total ≤ st'.t ∧
      ∀ fuel, isoLoop dtds total minNodes (k + fuel) st = isoLoop dtds total minNodes fuel st' := by
    intro j
    induction j with
    | zero =>
      intro st h hN' hj
      refine ⟨0, st, h, rfl, ?_, fun fuel => by rw [Nat.zero_add]⟩
      rw [h.t]
      refine le_trans hN'.le (le_trans ?_ (eulerTime_ge h.pos hm st.steps))
      have : (N : K) ≤ st.steps := by exact_mod_cast hj
      have hp := h.pos
      exact mul_le_mul_of_nonneg_right this (by positivity)
    | succ j ih =>
      intro st h hN' hj
      by_cases ht : total ≤ st.t
      · exact ⟨0, st, h, rfl, ht, fun fuel => by rw [Nat.zero_add]⟩
      · have ht' := not_le.1 ht
        obtain ⟨k, st', a1, a2, a3, a4⟩ := ih (advance dtds st) (inv_advance h ht') hN'
          (by simp only [advance]; omega)
        refine ⟨k + 1, st', a1, a2, a3, fun fuel => ?_⟩
        rw [show k + 1 + fuel = (k + fuel) + 1 by omega, isoLoop, if_pos (Or.inl ht'), if_neg ht]
        exact a4 fuel
  exact key N st h hN' (by omega)

theorem isoLoop_terminates {dtds : K → K → K} {total m M : K} (h0 : 0 < total) (hm0 : 0 < m)
    (hm : ∀ s t, m ≤ dtds s t) (hM : ∀ s t, dtds s t ≤ M) {minNodes : Nat} (hn : 0 < minNodes) {st : Iso K}
    (h : IsoInv dtds total st) : ∃ fuel st', isoLoop dtds total minNodes fuel st = some st' := by
  have hM0 : 0 < M := lt_of_lt_of_le hm0 ((hm 0 0).trans (hM 0 0))
  have hn0 : (0 : K) < minNodes := by exact_mod_cast hn
  set ρ : K := ((minNodes : K) - 1) / minNodes with hρ
  have hρ0 : 0 ≤ ρ := by
    apply div_nonneg _ hn0.le
    have : (1 : K) ≤ minNodes := by exact_mod_cast hn
    linarith
  have hρ1 : ρ < 1 := by rw [hρ, div_lt_one hn0]; linarith
  -- a pass with a small enough step size is the last one
  have last : ∀ st : Iso K, IsoInv dtds total st → total ≤ st.t → st.step * (M * minNodes) ≤ total →
      minNodes ≤ st.steps := by
    intro st h ht hs
    by_contra hc
    push Not at hc
    have h1 : total ≤ (st.steps : K) * (M * st.step) := le_trans ht (by rw [h.t]; exact eulerTime_le h.pos hM _)
    have h2 : (st.steps : K) < minNodes := by exact_mod_cast hc
    have hp := h.pos
    have h3 : (st.steps : K) * (M * st.step) < minNodes * (M * st.step) :=
      mul_lt_mul_of_pos_right h2 (by positivity)
    have h4 : (minNodes : K) * (M * st.step) = st.step * (M * minNodes) := by ring
    linarith
  have passes : ∀ (k : Nat) (st : Iso K), IsoInv dtds total st → st.step * ρ ^ k * (M * minNodes) ≤ total →
      ∃ fuel st', isoLoop dtds total minNodes fuel st = some st' := by
    intro k
    induction k with
    | zero =>
      intro st h hs
      obtain ⟨j, st', a1, a2, a3, a4⟩ := pass_ends (minNodes := minNodes) hm0 hm h
      have := last st' a1 a3 (by rw [a2]; simpa using hs)
      refine ⟨j + 1, st', ?_⟩
      rw [a4, isoLoop, if_neg]
      simp only [not_or, not_lt]
      exact ⟨a3, this⟩
    | succ k ih =>
      intro st h hs
      obtain ⟨j, st', a1, a2, a3, a4⟩ := pass_ends (minNodes := minNodes) hm0 hm h
      by_cases hst : st'.steps < minNodes
      · have hpos := steps_pos h0 a1 a3
        have hr := inv_restart h0 hn a1 hpos
        obtain ⟨fuel, st'', hf⟩ := ih (restart minNodes st') hr (by
          refine le_trans ?_ hs
          simp only [restart, a2]
          have hle : (st'.steps : K) / minNodes ≤ ρ := by
            rw [hρ]
            apply div_le_div_of_nonneg_right _ hn0.le
            have : (st'.steps : K) + 1 ≤ minNodes := by exact_mod_cast hst
            linarith
          have hp := h.pos
          have e : st.step * ρ ^ (k + 1) * (M * minNodes) = st.step * ρ * ρ ^ k * (M * minNodes) := by ring
          rw [e]
          apply mul_le_mul_of_nonneg_right _ (by positivity)
          apply mul_le_mul_of_nonneg_right _ (by positivity)
          exact mul_le_mul_of_nonneg_left hle hp.le)
        refine ⟨j + (fuel + 1), st'', ?_⟩
        rw [a4, isoLoop, if_pos (Or.inr hst), if_pos a3]
        exact hf
      · refine ⟨j + 1, st', ?_⟩
        rw [a4, isoLoop, if_neg]
        simp only [not_or, not_lt]
        exact ⟨a3, not_lt.1 hst⟩
  have hp := h.pos
  have hc : 0 < total / (st.step * (M * minNodes)) := by positivity
  obtain ⟨k, hk⟩ := exists_pow_lt_of_lt_one hc hρ1
  refine passes k st h ?_
  rw [lt_div_iff₀ (by positivity)] at hk
  have : st.step * ρ ^ k * (M * minNodes) = ρ ^ k * (st.step * (M * minNodes)) := by ring
  rw [this]; exact hk.le

/-- **C45** (partial: positive budgets and boat speeds bounded away from 0 and infinity; otherwise see
`C45_zero_budget_diverges`, `C45_calm_diverges`). `isochrone` terminates and returns a distance. -/
theorem C45_terminates_partial {dtds : K → K → K} {total m M : K} (h0 : 0 < total) (hm0 : 0 < m)
    (hm : ∀ s t, m ≤ dtds s t) (hM : ∀ s t, dtds s t ≤ M) {minNodes : Nat} (hn : 0 < minNodes) :
    ∃ fuel s, ∀ k, isochrone dtds total minNodes (fuel + k) = some (.ok s) := by
  obtain ⟨fuel, st, hl⟩ := isoLoop_terminates h0 hm0 hm hM hn (inv_start h0 hn)
  obtain ⟨i1, i2, i3⟩ := isoLoop_inv h0 hn (inv_start h0 hn) hl
  obtain ⟨n, hn'⟩ : ∃ n, st.steps = n + 1 := ⟨st.steps - 1, by have := steps_pos h0 i1 i2; omega⟩
  have hder := i1.der n hn'
  have : st.der ≠ 0 := by rw [hder]; exact (lt_of_lt_of_le hm0 (hm _ _)).ne'
  refine ⟨fuel, (total + st.der * st.s - st.t) / st.der, fun k => ?_⟩
  unfold isochrone
  rw [if_neg (by omega), isoLoop_mono hl k]
  simp [this]

/-- A boat with 4 knots for the first mile and 10 knots afterwards. -/
example : ∃ s, isochrone (fun s _ => if s < 1 then 1 / 4 else 1 / 10 : Rat → Rat → Rat) 1 4 100 = some (.ok s) ∧
    s = 65 / 8 := by
  refine ⟨65 / 8, ?_, rfl⟩
  decide +kernel

/-- **C45** is false for a budget of zero hours: `isochrone` does not return. -/
theorem C45_zero_budget_diverges (dtds : K → K → K) {minNodes : Nat} (hn : 0 < minNodes) (fuel : Nat) :
    isochrone dtds 0 minNodes fuel = none := by
  have key : ∀ fuel (st : Iso K), st.t = 0 → st.steps = 0 → isoLoop dtds 0 minNodes fuel st = none := by
    intro fuel
    induction fuel with
    | zero => intro st _ _; rfl
    | succ fuel ih =>
      intro st ht hs
      rw [isoLoop, if_pos (Or.inr (by omega)), if_pos (by rw [ht])]
      exact ih _ rfl rfl
  rw [isochrone, if_neg (by omega), key fuel _ rfl rfl]

/-- **C45** is false if the boat does not move: with the time per distance 0 used for boat speed 0, `isochrone` does not
return. -/
theorem C45_calm_diverges {total : K} (h0 : 0 < total) {minNodes : Nat} (hn : 0 < minNodes) (fuel : Nat) :
    isochrone (fun _ _ => invSpeed (0 : K)) total minNodes fuel = none := by
  have key : ∀ fuel (st : Iso K), st.t = 0 → isoLoop (fun _ _ => invSpeed (0 : K)) total minNodes fuel st = none := by
    intro fuel
    induction fuel with
    | zero => intro st _; rfl
    | succ fuel ih =>
      intro st ht
      rw [isoLoop, if_pos (Or.inl (by rw [ht]; exact h0)), if_neg (by rw [ht]; exact not_le.2 h0)]
      exact ih _ (by simp [advance, ht, invSpeed])
  rw [isochrone, if_neg (by omega), key fuel _ rfl]

example : isochrone (fun _ _ => invSpeed (0 : ℚ)) 3 100 1000000 = none := C45_calm_diverges (by norm_num) (by norm_num) _

end speed

/-! ### C46 -/

section mercator

theorem tanh_arsinh (u : ℝ) : Real.tanh (Real.arsinh u) = u / Real.sqrt (1 + u ^ 2) := by
  rw [Real.tanh_eq_sinh_div_cosh, Real.sinh_arsinh, Real.cosh_arsinh]

/-- **C46** (partial: longitudes between -90 and 90 only, see `C46_false`). The mercator projection is undone by its
inverse. -/
theorem C46_round_trip_partial (latMp lat long : ℝ) (h1 : -90 < long) (h2 : long < 90) :
    inverseMercator latMp (mercator latMp (lat, long)) = (lat, long) := by
  have hpi := Real.pi_pos
  have hlow : -(Real.pi / 2) < Real.pi * long / 180 := by
    rw [lt_div_iff₀ (by norm_num)]; nlinarith
  have hup : Real.pi * long / 180 < Real.pi / 2 := by
    rw [div_lt_iff₀ (by norm_num)]; nlinarith
  have hcos := Real.cos_pos_of_mem_Ioo ⟨hlow, hup⟩
  have key : Real.tanh (Real.arsinh (Real.tan (Real.pi * long / 180))) = Real.sin (Real.pi * long / 180) := by
    rw [tanh_arsinh]
    have := Real.tan_div_sqrt_one_add_tan_sq hcos
    exact this
  simp only [inverseMercator, mercator]
  refine Prod.ext ?_ ?_
  · simp only; field_simp; ring
  · simp only
    rw [mul_div_assoc, mul_comm (69 : ℝ), div_mul_cancel₀ _ (by norm_num : (69 : ℝ) ≠ 0), key,
      Real.arcsin_sin hlow.le hup.le]
    field_simp

/-- **C46**, the other direction. The inverse of the mercator projection is undone by the projection. -/
theorem C46_inverse (latMp x y : ℝ) : mercator latMp (inverseMercator latMp (x, y)) = (x, y) := by
  have hpi := Real.pi_pos
  simp only [inverseMercator, mercator]
  refine Prod.ext ?_ ?_
  · simp only; field_simp; ring
  · simp only
    have e : Real.pi * (180 / Real.pi * Real.arcsin (Real.tanh (y / 69))) / 180 = Real.arcsin (Real.tanh (y / 69)) := by
      field_simp
    have hc := Real.cosh_pos (y / 69)
    have e2 : Real.sqrt (1 - Real.tanh (y / 69) ^ 2) = 1 / Real.cosh (y / 69) := by
      rw [Real.tanh_eq_sinh_div_cosh]
      have : 1 - (Real.sinh (y / 69) / Real.cosh (y / 69)) ^ 2 = (1 / Real.cosh (y / 69)) ^ 2 := by
        have := Real.cosh_sq (y / 69)
        field_simp
        linarith
      rw [this, Real.sqrt_sq (by positivity)]
    rw [e, Real.tan_arcsin, e2, Real.tanh_eq_sinh_div_cosh]
    have e3 : Real.sinh (y / 69) / Real.cosh (y / 69) / (1 / Real.cosh (y / 69)) = Real.sinh (y / 69) := by
      field_simp
    rw [e3, Real.arsinh_sinh]
    ring

example : inverseMercator 50 (mercator 50 (54, 10)) = (54, 10) := C46_round_trip_partial 50 54 10 (by norm_num) (by norm_num)

/-- **C46** is false for every longitude of absolute value larger than 90 (more than half of the globe). -/
theorem C46_false (latMp lat long : ℝ) (h : 90 < |long|) :
    inverseMercator latMp (mercator latMp (lat, long)) ≠ (lat, long) := by
  intro he
  have h2 := congrArg Prod.snd he
  simp only [inverseMercator] at h2
  have hpi := Real.pi_pos
  have a1 := Real.arcsin_le_pi_div_two (Real.tanh ((mercator latMp (lat, long)).2 / 69))
  have a2 := Real.neg_pi_div_two_le_arcsin (Real.tanh ((mercator latMp (lat, long)).2 / 69))
  have : |long| ≤ 90 := by
    rw [← h2, abs_le]
    constructor
    · have : (-90 : ℝ) = 180 / Real.pi * (-(Real.pi / 2)) := by field_simp; norm_num
      rw [this]
      exact mul_le_mul_of_nonneg_left a2 (by positivity)
    · have : (90 : ℝ) = 180 / Real.pi * (Real.pi / 2) := by field_simp; norm_num
      rw [this]
      exact mul_le_mul_of_nonneg_left a1 (by positivity)
  linarith

example : inverseMercator 0 (mercator 0 (0, 170)) ≠ (0, 170) := C46_false 0 0 170 (by norm_num)

end mercator

end Verif.Cruising
