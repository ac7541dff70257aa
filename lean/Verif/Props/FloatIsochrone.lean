import Verif.Lemmas.Float64
import Verif.Props.FloatMean

/-!
# Property C148: isochrone also returns if it calculates with doubles
-/

namespace Verif.F64

open Verif.Cruising

variable {K : Type} [Field K] [LinearOrder K] [IsStrictOrderedRing K] [FloorRing K]

theorem fl_lower {x : K} (hx : 0 ≤ x) : (1 - u K) * x ≤ fl x := by
  have h := (abs_le.1 (fl_error' x)).1
  rw [abs_of_nonneg hx] at h
  linarith

theorem fl_upper {x : K} (hx : 0 ≤ x) : fl x ≤ (1 + u K) * x := by
  have h := (abs_le.1 (fl_error' x)).2
  rw [abs_of_nonneg hx] at h
  linarith

/-- What is assumed of the time per distance: it is between `a` and `b`, and `a` is not extremely small. -/
structure Sailing (dtds : K → K → K) (m : Nat) (a b : K) : Prop where
  pos : 0 < a
  nodes : 0 < m
  le : ∀ s t, a ≤ dtds s t
  ge : ∀ s t, dtds s t ≤ b
  ratio : 32 * (m * b) ≤ 2 ^ 53 * a
  slow : 3 * (m : K) ≤ 2 ^ 53 * a

section

variable {dtds : K → K → K} {m : Nat} {a b total : K}

theorem u_mul : u K * 2 ^ 53 = 1 := by
  unfold u
  rw [zpow_neg]
  norm_num

theorem Sailing.ab (h : Sailing dtds m a b) : a ≤ b := (h.le 0 0).trans (h.ge 0 0)

theorem Sailing.ratio' (h : Sailing dtds m a b) : 32 * (u K * (m * b)) ≤ a := by
  have := mul_le_mul_of_nonneg_left h.ratio (u_pos (K := K)).le
  rw [← mul_assoc (u K) (2 ^ 53) a, u_mul, one_mul] at this
  linarith [(by ring : u K * (32 * (m * b)) = 32 * (u K * (m * b)))]

theorem Sailing.slow' (h : Sailing dtds m a b) : 3 * (u K * m) ≤ a := by
  have := mul_le_mul_of_nonneg_left h.slow (u_pos (K := K)).le
  rw [← mul_assoc (u K) (2 ^ 53) a, u_mul, one_mul] at this
  linarith [(by ring : u K * (3 * m) = 3 * (u K * m))]

theorem Sailing.um (h : Sailing dtds m a b) : 32 * (u K * m) ≤ 1 := by
  have hb : 0 < b := h.pos.trans_le h.ab
  have h1 := h.ratio'.trans h.ab
  have h2 : 32 * (u K * m) * b ≤ 1 * b := by
    linarith [(by ring : 32 * (u K * m) * b = 32 * (u K * (m * b)))]
  exact le_of_mul_le_mul_right h2 hb

/-- The smallest step size that can occur. -/
def minStep (m : Nat) (b total : K) : K := min (total / (4 * (b * m))) (2 * total / m)

theorem Sailing.minStep_pos (h : Sailing dtds m a b) (ht : 0 < total) : 0 < minStep m b total := by
  have hb : 0 < b := h.pos.trans_le h.ab
  have hm : (0 : K) < m := by exact_mod_cast h.nodes
  exact lt_min (by positivity) (by positivity)

/-- Even the smallest step takes a time that is not lost by rounding. -/
theorem Sailing.gain (h : Sailing dtds m a b) (ht : 0 < total) {x : K} (hx : minStep m b total ≤ x) :
    4 * (u K * total) ≤ 3 / 4 * (a * x) := by
  have ha := h.pos
  have hb : 0 < b := h.pos.trans_le h.ab
  have hm : (0 : K) < m := by exact_mod_cast h.nodes
  refine le_trans ?_ (mul_le_mul_of_nonneg_left (mul_le_mul_of_nonneg_left hx ha.le) (by norm_num))
  rcases min_choice (total / (4 * (b * m))) (2 * total / m) with e | e
  · rw [minStep, e]
    have : 3 / 4 * (a * (total / (4 * (b * m)))) = 3 * a * total / (16 * (b * m)) := by field_simp; ring
    rw [this, le_div_iff₀ (by positivity)]
    have := mul_le_mul_of_nonneg_right h.ratio' ht.le
    have e1 : 32 * (u K * (m * b)) * total = 1 / 2 * (4 * (u K * total) * (16 * (b * m))) := by ring
    have := mul_pos ha ht
    linarith [(by ring : 3 * a * total = 3 * (a * total))]
  · rw [minStep, e]
    have : 3 / 4 * (a * (2 * total / m)) = 3 / 2 * (a * total) / m := by field_simp; ring
    rw [this, le_div_iff₀ hm]
    have := mul_le_mul_of_nonneg_right h.slow' ht.le
    have e1 : 3 * (u K * m) * total = 3 / 4 * (4 * (u K * total) * m) := by ring
    have := mul_pos ha ht
    have := mul_pos (mul_pos (u_pos (K := K)) ht) hm
    linarith [(by ring : 4 * (u K * total) * m = 4 * (u K * total * m))]

/-- The invariant of the loop. -/
structure IsoOk (m : Nat) (a b total : K) (st : Iso K) : Prop where
  step : minStep m b total ≤ st.step
  t_nonneg : 0 ≤ st.t
  t_le : st.t ≤ st.steps * (2 * (b * st.step))
  t_ge : st.steps * (a * st.step / 4) ≤ st.t
  s_nonneg : 0 ≤ st.s
  der : st.steps ≠ 0 → a ≤ st.der

theorem Sailing.step_time (h : Sailing dtds m a b) (ht : 0 < total) {st : Iso K} (hs : minStep m b total ≤ st.step)
    (h0 : 0 ≤ st.t) (hlt : st.t < total) :
    st.t + a * st.step / 4 ≤ (isoAdvance dtds st).t ∧ (isoAdvance dtds st).t ≤ st.t + 2 * (b * st.step) := by
  have ha := h.pos
  have hstep : 0 < st.step := (h.minStep_pos ht).trans_le hs
  have hu := u_pos (K := K)
  have hu4 := u_small (K := K)
  have hg := h.gain ht hs
  simp only [isoAdvance]
  set d := dtds st.s st.t
  have hda : a * st.step ≤ d * st.step := mul_le_mul_of_nonneg_right (h.le _ _) hstep.le
  have hdb : d * st.step ≤ b * st.step := mul_le_mul_of_nonneg_right (h.ge _ _) hstep.le
  have hap := mul_pos ha hstep
  have hd0 : 0 ≤ d * st.step := hap.le.trans hda
  have l := fl_lower hd0
  have r := fl_upper hd0
  set c := fl (d * st.step)
  have l' : 3 / 4 * (d * st.step) ≤ c := le_trans (mul_le_mul_of_nonneg_right (by linarith) hd0) l
  have r' : c ≤ 5 / 4 * (d * st.step) := r.trans (mul_le_mul_of_nonneg_right (by linarith) hd0)
  have hc0 : 0 ≤ c := fl_nonneg hd0
  have e := abs_le.1 (fl_error' (st.t + c))
  rw [abs_of_nonneg (add_nonneg h0 hc0)] at e
  have e1 : u K * (st.t + c) ≤ u K * total + 1 / 4 * c := by
    rw [mul_add]
    exact add_le_add (mul_le_mul_of_nonneg_left hlt.le hu.le) (mul_le_mul_of_nonneg_right hu4 hc0)
  constructor <;> linarith [e.1, e.2]

theorem Sailing.advance_ok (h : Sailing dtds m a b) (ht : 0 < total) {st : Iso K} (hs : IsoOk m a b total st)
    (hlt : st.t < total) : IsoOk m a b total (isoAdvance dtds st) := by
  obtain ⟨h1, h2⟩ := h.step_time ht hs.step hs.t_nonneg hlt
  have hstep : 0 < st.step := (h.minStep_pos ht).trans_le hs.step
  have hap := mul_pos h.pos hstep
  refine ⟨hs.step, by linarith [hs.t_nonneg], ?_, ?_, fl_nonneg (add_nonneg hs.s_nonneg hstep.le), fun _ => h.le _ _⟩
  · refine h2.trans ?_
    simp only [isoAdvance]
    push_cast
    linarith [hs.t_le]
  · refine le_trans ?_ h1
    simp only [isoAdvance]
    push_cast
    linarith [hs.t_ge]

theorem Sailing.restart_ok (h : Sailing dtds m a b) (ht : 0 < total) {st : Iso K} (hs : IsoOk m a b total st)
    (hge : total ≤ st.t) : IsoOk m a b total (isoRestart m st) := by
  have hb : 0 < b := h.pos.trans_le h.ab
  have hm : (0 : K) < m := by exact_mod_cast h.nodes
  have hstep : 0 < st.step := (h.minStep_pos ht).trans_le hs.step
  have hu4 := u_small (K := K)
  refine ⟨?_, le_rfl, by simp [isoRestart], by simp [isoRestart], le_rfl, by simp [isoRestart]⟩
  refine (min_le_left _ _).trans ?_
  simp only [isoRestart]
  have hq : (0 : K) ≤ (st.steps : K) / m := div_nonneg (Nat.cast_nonneg _) hm.le
  have l1 : 3 / 4 * ((st.steps : K) / m) ≤ fl ((st.steps : K) / m) :=
    le_trans (mul_le_mul_of_nonneg_right (by linarith) hq) (fl_lower hq)
  have hp : 0 ≤ st.step * fl ((st.steps : K) / m) := mul_nonneg hstep.le (fl_nonneg hq)
  have l2 : 3 / 4 * (st.step * fl ((st.steps : K) / m)) ≤ fl (st.step * fl ((st.steps : K) / m)) :=
    le_trans (mul_le_mul_of_nonneg_right (by linarith) hp) (fl_lower hp)
  refine le_trans ?_ l2
  refine le_trans ?_ (mul_le_mul_of_nonneg_left (mul_le_mul_of_nonneg_left l1 hstep.le) (by norm_num))
  have h1 := hge.trans hs.t_le
  rw [div_le_iff₀ (by positivity)]
  have e : 3 / 4 * (st.step * (3 / 4 * ((st.steps : K) / m))) * (4 * (b * m)) =
      9 / 8 * (st.steps * (2 * (b * st.step))) := by field_simp; ring
  rw [e]
  linarith

theorem Sailing.start_ok (h : Sailing dtds m a b) (ht : 0 < total) : IsoOk m a b total (isoStart total m) := by
  have hm : (0 : K) < m := by exact_mod_cast h.nodes
  have hu4 := u_small (K := K)
  refine ⟨?_, le_rfl, by simp [isoStart], by simp [isoStart], le_rfl, by simp [isoStart]⟩
  refine (min_le_right _ _).trans ?_
  simp only [isoStart]
  have h5 : 0 ≤ 5 * total := by linarith
  have l1 : 3 / 4 * (5 * total) ≤ fl (5 * total) := le_trans (mul_le_mul_of_nonneg_right (by linarith) h5) (fl_lower h5)
  have hq : 0 ≤ fl (5 * total) / m := div_nonneg (fl_nonneg h5) hm.le
  have l2 : 3 / 4 * (fl (5 * total) / m) ≤ fl (fl (5 * total) / m) :=
    le_trans (mul_le_mul_of_nonneg_right (by linarith) hq) (fl_lower hq)
  refine le_trans ?_ l2
  rw [← mul_div_assoc]
  exact div_le_div_of_nonneg_right (by linarith) hm.le

/-- A restart makes the step size smaller by a fixed factor. -/
theorem Sailing.shrinks (h : Sailing dtds m a b) {st : Iso K} (hstep : 0 < st.step) (hlt : st.steps < m) :
    (isoRestart m st).step ≤ (1 - 1 / (2 * m)) * st.step := by
  have hm : (0 : K) < m := by exact_mod_cast h.nodes
  have hu := u_pos (K := K)
  have hu4 := u_small (K := K)
  have hum := h.um
  simp only [isoRestart]
  have hq : (0 : K) ≤ (st.steps : K) / m := div_nonneg (Nat.cast_nonneg _) hm.le
  have r1 := fl_upper hq
  have hp : 0 ≤ st.step * fl ((st.steps : K) / m) := mul_nonneg hstep.le (fl_nonneg hq)
  refine (fl_upper hp).trans ?_
  have hq1 : (st.steps : K) / m ≤ 1 - 1 / m := by
    rw [div_le_iff₀ hm, sub_mul, one_mul, one_div, inv_mul_cancel₀ hm.ne']
    have : (st.steps : K) + 1 ≤ m := by exact_mod_cast hlt
    linarith
  have key : (1 + u K) * fl ((st.steps : K) / m) ≤ 1 - 1 / (2 * m) := by
    have h1 : (1 + u K) * fl ((st.steps : K) / m) ≤ (1 + u K) * ((1 + u K) * (1 - 1 / m)) :=
      mul_le_mul_of_nonneg_left (r1.trans (mul_le_mul_of_nonneg_left hq1 (by linarith))) (by linarith)
    refine h1.trans ?_
    have hi : u K ≤ 1 / m / 32 := by
      rw [div_div, le_div_iff₀ (by positivity)]
      linarith [(by ring : u K * (m * 32) = 32 * (u K * m))]
    have e2 : (1 : K) / (2 * m) = 1 / m / 2 := by field_simp
    rw [e2]
    have hi0 : (0 : K) < 1 / m := by positivity
    generalize (1 : K) / m = i at *
    generalize u K = v at *
    nlinarith [mul_pos hu hi0, mul_pos hu (mul_pos hu hi0), mul_nonneg hu.le (sub_nonneg.2 hu4)]
  have e : (1 + u K) * (st.step * fl ((st.steps : K) / m)) = (1 + u K) * fl ((st.steps : K) / m) * st.step := by ring
  rw [e]
  exact mul_le_mul_of_nonneg_right key hstep.le

/-- With every step size the time runs out. -/
theorem Sailing.pass (h : Sailing dtds m a b) (ht : 0 < total) {st : Iso K} (hs : IsoOk m a b total st) :
    ∃ (k : Nat) (st' : Iso K), IsoOk m a b total st' ∧ st'.step = st.step ∧ total ≤ st'.t ∧
      ∀ fuel, isoLoop dtds total m (k + fuel) st = isoLoop dtds total m fuel st' := by
  have hstep : 0 < st.step := (h.minStep_pos ht).trans_le hs.step
  have hap := mul_pos h.pos hstep
  obtain ⟨N, hN⟩ := exists_nat_gt ((total - st.t) / (a * st.step / 4))
  rw [div_lt_iff₀ (by linarith)] at hN
  induction N generalizing st with
  | zero =>
    simp only [Nat.cast_zero, zero_mul] at hN
    exact ⟨0, st, hs, rfl, by linarith, fun fuel => by rw [Nat.zero_add]⟩
  | succ N ih =>
    by_cases hlt : st.t < total
    · obtain ⟨h1, -⟩ := h.step_time ht hs.step hs.t_nonneg hlt
      obtain ⟨k, st', a1, a2, a3, a4⟩ := ih (st := isoAdvance dtds st) (h.advance_ok ht hs hlt) hstep hap (by
        push_cast at hN
        have : (isoAdvance dtds st).step = st.step := rfl
        rw [this]
        linarith)
      refine ⟨k + 1, st', a1, a2, a3, fun fuel => ?_⟩
      rw [show k + 1 + fuel = (k + fuel) + 1 by omega, isoLoop, if_pos (Or.inl hlt), if_neg (not_le.2 hlt)]
      exact a4 fuel
    · exact ⟨0, st, hs, rfl, not_lt.1 hlt, fun fuel => by rw [Nat.zero_add]⟩

theorem Sailing.loop (h : Sailing dtds m a b) (ht : 0 < total) {st : Iso K} (hs : IsoOk m a b total st) :
    ∃ (fuel : Nat) (st' : Iso K), IsoOk m a b total st' ∧ total ≤ st'.t ∧ m ≤ st'.steps ∧
      ∀ k, isoLoop dtds total m (fuel + k) st = some st' := by
  have hm : (0 : K) < m := by exact_mod_cast h.nodes
  have h1 : (1 : K) ≤ m := by exact_mod_cast h.nodes
  set q : K := 1 - 1 / (2 * m) with hq
  have hi : (1 : K) / (2 * m) ≤ 1 / 2 := by
    rw [div_le_div_iff₀ (by positivity) (by norm_num)]
    linarith
  have hi0 : (0 : K) < 1 / (2 * m) := by positivity
  have hq0 : 0 < q := by linarith
  have hq1 : q < 1 := by linarith
  have passes : ∀ (k : Nat) (st : Iso K), IsoOk m a b total st → st.step * q ^ k < minStep m b total →
      ∃ (fuel : Nat) (st' : Iso K), IsoOk m a b total st' ∧ total ≤ st'.t ∧ m ≤ st'.steps ∧
        ∀ k, isoLoop dtds total m (fuel + k) st = some st' := by
    intro k
    induction k with
    | zero =>
      intro st hs hk
      rw [pow_zero, mul_one] at hk
      exact absurd hs.step (not_le.2 hk)
    | succ k ih =>
      intro st hs hk
      have hstep : 0 < st.step := (h.minStep_pos ht).trans_le hs.step
      obtain ⟨j, st', a1, a2, a3, a4⟩ := h.pass ht hs
      by_cases hlt : st'.steps < m
      · have sh := h.shrinks (st := st') (by rw [a2]; exact hstep) hlt
        obtain ⟨fuel, st'', b1, b2, b3, b4⟩ := ih (isoRestart m st') (h.restart_ok ht a1 a3) (by
          refine lt_of_le_of_lt ?_ hk
          refine (mul_le_mul_of_nonneg_right sh (pow_pos hq0 k).le).trans (le_of_eq ?_)
          rw [a2, pow_succ, hq]
          ring)
        refine ⟨j + (fuel + 1), st'', b1, b2, b3, fun k => ?_⟩
        rw [show j + (fuel + 1) + k = j + ((fuel + k) + 1) by omega, a4, isoLoop, if_pos (Or.inr hlt), if_pos a3]
        exact b4 k
      · refine ⟨j + 1, st', a1, a3, not_lt.1 hlt, fun k => ?_⟩
        rw [show j + 1 + k = j + (k + 1) by omega, a4, isoLoop, if_neg]
        simp only [not_or, not_lt]
        exact ⟨a3, not_lt.1 hlt⟩
  have hstep : 0 < st.step := (h.minStep_pos ht).trans_le hs.step
  obtain ⟨k, hk⟩ := exists_pow_lt_of_lt_one (div_pos (h.minStep_pos ht) hstep) hq1
  rw [lt_div_iff₀ hstep] at hk
  exact passes k st hs (by linarith [(mul_comm (q ^ k) st.step)])

end

/-- **C148.** Calculating with doubles, `isochrone` returns for every positive budget if the time per distance stays between two
positive bounds `a ≤ b` with `32 * min_nodes * b ≤ 2^53 * a` and `3 * min_nodes ≤ 2^53 * a`, that is, unless the boat is
extremely fast. -/
theorem C148_returns {dtds : K → K → K} {m : Nat} {a b total : K} (h : Sailing dtds m a b) (ht : 0 < total) :
    ∃ fuel s, ∀ k, isochrone dtds total m (fuel + k) = some (.ok s) := by
  obtain ⟨fuel, st, a1, a2, a3, a4⟩ := h.loop ht (h.start_ok ht)
  have hd : st.der ≠ 0 := by
    have := a1.der (by have := h.nodes; omega)
    exact (h.pos.trans_le this).ne'
  refine ⟨fuel, fl (fl (fl (total + fl (st.der * st.s)) - st.t) / st.der), fun k => ?_⟩
  rw [isochrone, if_neg h.nodes.ne', a4]
  simp only [if_neg hd]

/-- Boat speeds between 1/1000 and 1000 knots and up to `10^6` nodes are no problem. -/
example (dtds : ℚ → ℚ → ℚ) (h1 : ∀ s t, 1 / 1000 ≤ dtds s t) (h2 : ∀ s t, dtds s t ≤ 1000) {m : Nat} (hm : 0 < m)
    (hm' : m ≤ 10 ^ 6) : ∃ fuel s, ∀ k, isochrone dtds 24 m (fuel + k) = some (.ok s) := by
  have hq : (m : ℚ) ≤ 10 ^ 6 := by exact_mod_cast hm'
  exact C148_returns (a := 1 / 1000) (b := 1000) ⟨by norm_num, hm, h1, h2, by norm_num; linarith, by norm_num; linarith⟩
    (by norm_num)

/-- Distance and time after `n` steps of length `h`, calculated with doubles. -/
def euler (dtds : K → K → K) (h : K) : Nat → K × K
  | 0 => (0, 0)
  | n + 1 =>
    let p := euler dtds h n
    (fl (p.1 + h), fl (p.2 + fl (dtds p.1 p.2 * h)))

/-- The state of the loop is the state of the Euler method, before which the time is not used up. -/
structure EulerInv (dtds : K → K → K) (total : K) (st : Iso K) : Prop where
  state : (st.s, st.t) = euler dtds st.step st.steps
  before : ∀ n < st.steps, (euler dtds st.step n).2 < total
  der : ∀ n, st.steps = n + 1 → st.der = dtds (euler dtds st.step n).1 (euler dtds st.step n).2

theorem isoLoop_euler {dtds : K → K → K} {total : K} {m : Nat} {fuel : Nat} {st st' : Iso K}
    (hs : EulerInv dtds total st) (h : isoLoop dtds total m fuel st = some st') :
    EulerInv dtds total st' ∧ total ≤ st'.t ∧ m ≤ st'.steps := by
  induction fuel generalizing st with
  | zero => simp [isoLoop] at h
  | succ fuel ih =>
    rw [isoLoop] at h
    split at h
    · split at h
      · exact ih ⟨rfl, by simp [isoRestart], by simp [isoRestart]⟩ h
      · rename_i hlt
        have e := hs.state
        refine ih ⟨?_, ?_, ?_⟩ h
        · simp only [isoAdvance, euler, ← e]
        · intro n hn
          simp only [isoAdvance] at hn ⊢
          rcases Nat.lt_or_ge n st.steps with h' | h'
          · exact hs.before n h'
          · have : n = st.steps := by omega
            rw [this, ← e]
            exact not_le.1 hlt
        · intro n hn
          simp only [isoAdvance, Nat.add_right_cancel_iff] at hn ⊢
          rw [← hn, ← e]
    · rename_i hc
      simp only [not_or, not_lt] at hc
      obtain rfl : st = st' := by simpa using h
      exact ⟨hs, hc.1, hc.2⟩

/-- **C148.** The distance `s` returned fits to the step-wise accounting with doubles up to the roundings of the last formula: for
some step size and a number `n + 1 ≥ min_nodes` of steps, the first `n` steps take less than the budget, all of them at least
the budget, and going back from the end of the last step to `s` gives back the time that is too much. -/
theorem C148_budget {dtds : K → K → K} {total : K} (ht : 0 < total) (hpos : ∀ s t, 0 ≤ dtds s t) {m fuel : Nat} {s : K}
    (h : isochrone dtds total m fuel = some (.ok s)) :
    ∃ (step : K) (n : Nat), m ≤ n + 1 ∧ (euler dtds step n).2 < total ∧ total ≤ (euler dtds step (n + 1)).2 ∧
      let d := dtds (euler dtds step n).1 (euler dtds step n).2
      let p := euler dtds step (n + 1)
      |(p.2 - d * (p.1 - s)) - total| ≤ 6 * 2 ^ (-53 : ℤ) * (total + d * |p.1| + p.2) := by
  unfold isochrone at h
  split at h
  · simp at h
  · split at h
    · simp at h
    · rename_i hm st hl
      obtain ⟨i, h1, h2⟩ := isoLoop_euler ⟨rfl, by simp [isoStart], by simp [isoStart]⟩ hl
      split at h
      · simp at h
      · rename_i hd
        simp only [Option.some.injEq, Except.ok.injEq] at h
        obtain ⟨n, hn⟩ : ∃ n, st.steps = n + 1 := ⟨st.steps - 1, by omega⟩
        have e := i.state
        rw [hn] at e
        have e1 : st.s = (euler dtds st.step (n + 1)).1 := by rw [← e]
        have e2 : st.t = (euler dtds st.step (n + 1)).2 := by rw [← e]
        refine ⟨st.step, n, by omega, i.before n (by omega), by rw [← e2]; exact h1, ?_⟩
        simp only [← e1, ← e2, ← i.der n hn]
        have hd0 : 0 < st.der := lt_of_le_of_ne (by rw [i.der n hn]; exact hpos _ _) (Ne.symm hd)
        change _ ≤ 6 * u K * _
        subst h
        have hu := u_pos (K := K)
        have hu4 := u_small (K := K)
        have t0 : 0 < st.t := ht.trans_le h1
        generalize st.der = d at *
        generalize st.s = S at *
        generalize st.t = t at *
        have g1 := fl_error' (d * S)
        rw [abs_mul, abs_of_pos hd0] at g1
        set X1 := fl (d * S)
        have g2 := fl_error' (total + X1)
        set X2 := fl (total + X1)
        have g3 := fl_error' (X2 - t)
        set X3 := fl (X2 - t)
        have g4 := fl_error' (X3 / d)
        set X4 := fl (X3 / d)
        have g4' : |X4 * d - X3| ≤ u K * |X3| := by
          have e : X4 * d - X3 = (X4 - X3 / d) * d := by field_simp
          rw [e, abs_mul, abs_of_pos hd0]
          refine (mul_le_mul_of_nonneg_right g4 hd0.le).trans (le_of_eq ?_)
          rw [abs_div, abs_of_pos hd0]
          field_simp
        have hA : 0 ≤ d * |S| := mul_nonneg hd0.le (abs_nonneg _)
        have q : ∀ {x y z : K}, |x - y| ≤ u K * z → |y| ≤ z → |x| ≤ 5 / 4 * z := by
          intro x y z hx hy
          have hz : 0 ≤ z := (abs_nonneg _).trans hy
          have : |x| ≤ |x - y| + |y| := by
            have := abs_add_le (x - y) y
            rwa [sub_add_cancel] at this
          linarith [mul_le_mul_of_nonneg_right hu4 hz]
        have b1 : |X1| ≤ 5 / 4 * (d * |S|) := q g1 (by rw [abs_mul, abs_of_pos hd0])
        have b2 : |total + X1| ≤ total + 5 / 4 * (d * |S|) := by
          refine (abs_add_le _ _).trans ?_
          rw [abs_of_pos ht]
          linarith
        have b2' : |X2| ≤ 5 / 4 * |total + X1| := q g2 le_rfl
        have b3 : |X2 - t| ≤ 5 / 4 * (total + 5 / 4 * (d * |S|)) + t := by
          refine (abs_sub _ _).trans ?_
          rw [abs_of_pos t0]
          linarith
        have b3' : |X3| ≤ 5 / 4 * |X2 - t| := q g3 le_rfl
        have e3 : t - d * (S - X4) - total = (X4 * d - X3) + (X3 - (X2 - t)) + (X2 - (total + X1)) + (X1 - d * S) := by ring
        rw [e3]
        refine (abs_add_le _ _).trans ?_
        refine (add_le_add_left (abs_add_le _ _) _).trans ?_
        refine (add_le_add_left (add_le_add_left (abs_add_le _ _) _) _).trans ?_
        have f1 : |X4 * d - X3| + |X3 - (X2 - t)| + |X2 - (total + X1)| + |X1 - d * S| ≤
            u K * (|X3| + |X2 - t| + |total + X1| + d * |S|) := by linarith
        refine f1.trans ?_
        rw [mul_comm (6 : K), mul_assoc]
        refine mul_le_mul_of_nonneg_left ?_ hu.le
        linarith

/-- A concrete voyage of one hour with at least 4 steps: 4 knots for the first mile and 8 knots afterwards. -/
example : ∃ s, isochrone (fun s _ => if s < 1 then 1 / 4 else 1 / 8 : ℚ → ℚ → ℚ) 1 4 100 = some (.ok s) ∧
    isochrone (fun s _ => if s < 1 then 1 / 4 else 1 / 8 : ℚ → ℚ → ℚ) 1 4 100 =
      Cruising.isochrone (fun s _ => if s < 1 then 1 / 4 else 1 / 8 : ℚ → ℚ → ℚ) 1 4 100 := by
  refine ⟨27 / 4, ?_⟩
  decide +kernel

/-- Some bound is needed: a boat that first sails at 10 knots and then with the (absurd) speed of `2^60` knots makes the exact
calculation return, but with doubles the time no longer grows, and `isochrone` does not return. -/
theorem C148_bound_needed (fuel : Nat) :
    isochrone (fun _ t => if t = 0 then 1 / 10 else 1 / 2 ^ 60 : ℚ → ℚ → ℚ) 1 1 fuel = none := by
  have key : ∀ fuel (st : Iso ℚ), st.t = 1 / 2 → st.step = 5 →
      isoLoop (fun _ t => if t = 0 then 1 / 10 else 1 / 2 ^ 60 : ℚ → ℚ → ℚ) 1 1 fuel st = none := by
    intro fuel
    induction fuel with
    | zero => intro st _ _; rfl
    | succ fuel ih =>
      intro st ht hs
      rw [isoLoop, if_pos (Or.inl (by rw [ht]; norm_num)), if_neg (by rw [ht]; norm_num)]
      refine ih _ ?_ hs
      simp only [isoAdvance, ht, hs]
      rw [if_neg (by norm_num)]
      decide +kernel
  have hst : isoStart (1 : ℚ) 1 = ⟨5, 0, 0, 0, 0⟩ := by decide +kernel
  rw [isochrone, if_neg (by norm_num), hst]
  cases fuel with
  | zero => rfl
  | succ fuel =>
    rw [isoLoop, if_pos (Or.inl (by norm_num)), if_neg (by norm_num)]
    rw [key fuel _ (by simp only [isoAdvance, if_true]; decide +kernel) rfl]

end Verif.F64
