import Verif.Model.FloatFluctuation
import Verif.Props.FloatWeigher
import Verif.Props.WeigherData
import Mathlib.Tactic.Linarith
import Mathlib.Tactic.LinearCombination

/-!
# C183: standard deviations and the weights of `FluctuationWeigher` in double precision
-/

namespace Verif.F64

open Verif.Weigher (deviation relu)

/-! ### The error of a standard deviation -/

/-- The sum of squared differences to any number. -/
theorem sum_sq_shift (l : List ℝ) (c d : ℝ) :
    (l.map fun x => (x - c) ^ 2).sum = (l.map fun x => (x - d) ^ 2).sum + 2 * (d - c) * (l.sum - l.length * d) + l.length * (d - c) ^ 2 := by
  induction l with
  | nil => simp
  | cons x l ih =>
    simp only [List.map_cons, List.sum_cons, List.length_cons, Nat.cast_add, Nat.cast_one]
    rw [ih]
    ring

/-- The mean of the squared differences to any number. -/
theorem mean_sq_shift {l : List ℝ} (h : l ≠ []) (c : ℝ) :
    (l.map fun x => (x - c) ^ 2).sum / l.length = deviation l ^ 2 + (l.sum / l.length - c) ^ 2 := by
  have hn : (0 : ℝ) < l.length := by exact_mod_cast List.length_pos_of_ne_nil h
  unfold deviation
  rw [Real.sq_sqrt (div_nonneg (Weigher.sum_sq_nonneg _ _) hn.le), sum_sq_shift l c (l.sum / l.length)]
  generalize (l.map fun x => (x - l.sum / l.length) ^ 2).sum = S
  field_simp
  ring

theorem deviation_le {l : List ℝ} (h : l ≠ []) {M : ℝ} (hM : ∀ x ∈ l, |x| ≤ M) : deviation l ≤ M ∧ |l.sum / l.length| ≤ M := by
  have hn : (0 : ℝ) < l.length := by exact_mod_cast List.length_pos_of_ne_nil h
  have hM0 : 0 ≤ M := by
    obtain ⟨x, l', rfl⟩ := List.exists_cons_of_ne_nil h
    exact (abs_nonneg x).trans (hM x (by simp))
  have e := mean_sq_shift h 0
  have key : (l.map fun x => (x - 0) ^ 2).sum ≤ l.length * M ^ 2 := by
    clear h hn e
    induction l with
    | nil => simp
    | cons x l ih =>
      simp only [List.map_cons, List.sum_cons, List.length_cons, Nat.cast_add, Nat.cast_one]
      have h1 := ih fun y hy => hM y (by simp [hy])
      have h2 : (x - 0) ^ 2 ≤ M ^ 2 := by
        rw [sub_zero, sq_le_sq, abs_of_nonneg hM0]
        exact hM x (by simp)
      linarith
  rw [sub_zero] at e
  have h3 : deviation l ^ 2 + (l.sum / l.length) ^ 2 ≤ M ^ 2 := by
    rw [← e, div_le_iff₀ hn]
    linarith
  constructor
  · exact abs_le_of_sq_le_sq' (by nlinarith [sq_nonneg (l.sum / l.length)]) hM0 |>.2
  · exact abs_le_of_sq_le_sq (by nlinarith [sq_nonneg (deviation l)]) hM0

theorem sum_abs_le {l : List ℝ} {M : ℝ} (hM : ∀ x ∈ l, |x| ≤ M) : (l.map abs).sum ≤ l.length * M := by
  induction l with
  | nil => simp
  | cons x l ih =>
    simp only [List.map_cons, List.sum_cons, List.length_cons, Nat.cast_add, Nat.cast_one]
    have := ih fun y hy => hM y (by simp [hy])
    linarith [hM x (by simp)]

theorem Mean.ne_nil {l : List ℝ} {m : ℝ} (h : Mean l m) : l ≠ [] := by
  obtain ⟨s, hs, -⟩ := h
  have := hs.length_pos
  intro h
  simp [h] at this

theorem Summed.nonneg {l : List ℝ} {s : ℝ} (h : Summed l s) (h0 : ∀ x ∈ l, 0 ≤ x) : 0 ≤ s := by
  induction h with
  | one x => exact h0 x (by simp)
  | perm hp _ ih => exact ih fun x hx => h0 x (hp.mem_iff.mp hx)
  | add _ _ h1 h2 =>
    exact fl_nonneg (add_nonneg (h1 fun x hx => h0 x (List.mem_append_left _ hx)) (h2 fun x hx => h0 x (List.mem_append_right _ hx)))

/-- Small powers. -/
theorem pow_small {n : ℕ} (hn : n ≤ 2 ^ 50) : (1 + u ℝ) ^ n ≤ 1 + 2 * n * u ℝ ∧ 2 * (n : ℝ) * u ℝ ≤ 1 / 4 := by
  have h : (n : ℝ) ≤ 2 ^ 50 := by exact_mod_cast hn
  have hu : u ℝ = 2 ^ (-53 : ℤ) := rfl
  have h2 : 2 * (n : ℝ) * u ℝ ≤ 1 / 4 := by
    rw [hu, show (2 : ℝ) ^ (-53 : ℤ) = 1 / 2 ^ 53 by norm_num]
    linarith
  exact ⟨pow_u_le (by linarith), h2⟩

/-- The error of a mean. -/
theorem Mean.error {l : List ℝ} {m M : ℝ} (h : Mean l m) (hM : ∀ x ∈ l, |x| ≤ M) (hn : l.length + 5 ≤ 2 ^ 50) :
    |m - l.sum / l.length| ≤ 3 * (l.length + 1) * u ℝ * M := by
  have hne := h.ne_nil
  obtain ⟨s, hs, rfl⟩ := h
  have hl : (0 : ℝ) < l.length := by exact_mod_cast List.length_pos_of_ne_nil hne
  have hu := u_pos (K := ℝ)
  have h1 := hs.error
  have h2 := sum_abs_le hM
  obtain ⟨p1, p2⟩ := pow_small (n := l.length) (by omega)
  have hM0 : 0 ≤ M := by
    obtain ⟨x, l', rfl⟩ := List.exists_cons_of_ne_nil hne
    exact (abs_nonneg x).trans (hM x (by simp))
  have h3 : |s - l.sum| ≤ 2 * l.length * u ℝ * (l.length * M) :=
    h1.trans (mul_le_mul (by linarith) h2 (sum_abs_nonneg l) (by positivity))
  have h4 : |s / l.length - l.sum / l.length| ≤ 2 * l.length * u ℝ * M := by
    rw [← sub_div, abs_div, abs_of_pos hl, div_le_iff₀ hl]
    linarith
  have h5 := fl_error' (s / (l.length : ℝ))
  have h6 : |s / l.length| ≤ M + 2 * l.length * u ℝ * M := by
    have := abs_add_le (l.sum / l.length) (s / l.length - l.sum / l.length)
    rw [add_sub_cancel] at this
    linarith [(deviation_le hne hM).2]
  have h7 : |s / l.length| ≤ 5 / 4 * M := by
    have := mul_le_mul_of_nonneg_right p2 hM0
    linarith
  have h8 := mul_le_mul_of_nonneg_left h7 hu.le
  have h9 := abs_add_le (fl (s / l.length) - s / l.length) (s / l.length - l.sum / l.length)
  rw [sub_add_sub_cancel] at h9
  have h10 : 0 ≤ u ℝ * M := by positivity
  have h11 : 0 ≤ (l.length : ℝ) * (u ℝ * M) := by positivity
  linarith

/-- Rounded squares of rounded differences. -/
theorem square_error (y : ℝ) : |fl (fl y * fl y) - y ^ 2| ≤ ((1 + u ℝ) ^ 3 - 1) * y ^ 2 ∧ 0 ≤ fl (fl y * fl y) := by
  have hu := u_pos (K := ℝ)
  have h0 := fl_error' y
  have h1 : |fl y| ≤ (1 + u ℝ) * |y| := by
    have := abs_add_le y (fl y - y)
    rw [add_sub_cancel] at this
    linarith
  have h2 := fl_error' (fl y * fl y)
  have h3 : |fl y * fl y| ≤ (1 + u ℝ) ^ 2 * y ^ 2 := by
    rw [abs_mul, ← sq_abs y]
    calc |fl y| * |fl y| ≤ ((1 + u ℝ) * |y|) * ((1 + u ℝ) * |y|) := mul_le_mul h1 h1 (abs_nonneg _) (by positivity)
      _ = _ := by ring
  have h4 : |fl y * fl y - y ^ 2| ≤ ((1 + u ℝ) ^ 2 - 1) * y ^ 2 := by
    have e : fl y * fl y - y ^ 2 = (fl y - y) * (fl y + y) := by ring
    rw [e, abs_mul]
    have h5 : |fl y + y| ≤ (2 + u ℝ) * |y| := by
      have := abs_add_le (fl y) y
      linarith
    calc |fl y - y| * |fl y + y| ≤ (u ℝ * |y|) * ((2 + u ℝ) * |y|) := mul_le_mul h0 h5 (abs_nonneg _) (by positivity)
      _ = ((1 + u ℝ) ^ 2 - 1) * |y| ^ 2 := by ring
      _ = _ := by rw [sq_abs]
  refine ⟨?_, fl_nonneg (mul_self_nonneg _)⟩
  have h6 := abs_add_le (fl (fl y * fl y) - fl y * fl y) (fl y * fl y - y ^ 2)
  rw [sub_add_sub_cancel] at h6
  have h7 := mul_le_mul_of_nonneg_left h3 hu.le
  have e : ((1 + u ℝ) ^ 3 - 1) * y ^ 2 = u ℝ * ((1 + u ℝ) ^ 2 * y ^ 2) + ((1 + u ℝ) ^ 2 - 1) * y ^ 2 := by ring
  linarith

theorem sum_square_error (l : List ℝ) (m : ℝ) :
    |(l.map fun x => fl (fl (x - m) * fl (x - m))).sum - (l.map fun x => (x - m) ^ 2).sum|
      ≤ ((1 + u ℝ) ^ 3 - 1) * (l.map fun x => (x - m) ^ 2).sum ∧
    ((l.map fun x => fl (fl (x - m) * fl (x - m))).map abs).sum = (l.map fun x => fl (fl (x - m) * fl (x - m))).sum := by
  induction l with
  | nil => simp
  | cons x l ih =>
    obtain ⟨i1, i2⟩ := ih
    obtain ⟨s1, s2⟩ := square_error (x - m)
    simp only [List.map_cons, List.sum_cons]
    refine ⟨?_, by rw [i2, abs_of_nonneg s2]⟩
    have e : ∀ a b c d : ℝ, a + b - (c + d) = (a - c) + (b - d) := fun a b c d => by ring
    rw [e, mul_add]
    exact (abs_add_le _ _).trans (add_le_add s1 i1)

/-- The computed variance has a small relative error, compared to the mean of the squared differences to the computed mean. -/
theorem variance_error {l : List ℝ} {m v : ℝ} (h : Mean (l.map fun x => fl (fl (x - m) * fl (x - m))) v) :
    |v - (l.map fun x => (x - m) ^ 2).sum / l.length| ≤ ((1 + u ℝ) ^ (l.length + 4) - 1) * ((l.map fun x => (x - m) ^ 2).sum / l.length) ∧
    0 ≤ v := by
  have hne : l ≠ [] := by simpa using h.ne_nil
  obtain ⟨s, hs, rfl⟩ := h
  have hl : (0 : ℝ) < l.length := by exact_mod_cast List.length_pos_of_ne_nil hne
  have hu := u_pos (K := ℝ)
  obtain ⟨e1, e2⟩ := sum_square_error l m
  have e3 := hs.error
  rw [e2] at e3
  simp only [List.length_map] at e3 ⊢
  have hQ : 0 ≤ (l.map fun x => (x - m) ^ 2).sum := Weigher.sum_sq_nonneg _ _
  have hS : 0 ≤ (l.map fun x => fl (fl (x - m) * fl (x - m))).sum := by rw [← e2]; exact sum_abs_nonneg _
  set Q := (l.map fun x => (x - m) ^ 2).sum
  set S := (l.map fun x => fl (fl (x - m) * fl (x - m))).sum
  have hp : 1 ≤ (1 + u ℝ) ^ l.length := one_le_pow₀ (by linarith)
  have e4 : S ≤ (1 + u ℝ) ^ 3 * Q := by linarith [(abs_le.mp e1).2]
  have e5 : |s - Q| ≤ ((1 + u ℝ) ^ (l.length + 3) - 1) * Q := by
    have := abs_add_le (s - S) (S - Q)
    rw [sub_add_sub_cancel] at this
    have e6 := mul_le_mul_of_nonneg_left e4 (sub_nonneg.mpr hp)
    rw [pow_add]
    linarith
  have e7 : |s / l.length - Q / l.length| ≤ ((1 + u ℝ) ^ (l.length + 3) - 1) * (Q / l.length) := by
    rw [← sub_div, abs_div, abs_of_pos hl, ← mul_div_assoc]
    exact div_le_div_of_nonneg_right e5 hl.le
  have hq : 0 ≤ Q / l.length := by positivity
  have e8 : |s / l.length| ≤ (1 + u ℝ) ^ (l.length + 3) * (Q / l.length) := by
    have := abs_add_le (Q / l.length) (s / l.length - Q / l.length)
    rw [add_sub_cancel, abs_of_nonneg hq] at this
    linarith
  have e9 := fl_error' (s / (l.length : ℝ))
  constructor
  · have := abs_add_le (fl (s / l.length) - s / l.length) (s / l.length - Q / l.length)
    rw [sub_add_sub_cancel] at this
    have e10 := mul_le_mul_of_nonneg_left e8 hu.le
    rw [pow_succ (1 + u ℝ) (l.length + 3)]
    linarith
  · refine fl_nonneg (div_nonneg ?_ hl.le)
    exact hs.nonneg (by
      intro x hx
      obtain ⟨y, -, rfl⟩ := List.mem_map.mp hx
      exact (square_error _).2)

/-- **C183** (standard deviations). The standard deviation calculated in double precision, in any order of the additions, differs
from the exact one by a small multiple of it, and a small multiple of the largest value. -/
theorem C183_deviation {l : List ℝ} {σ M : ℝ} (h : Std l σ) (hM : ∀ x ∈ l, |x| ≤ M) (hn : l.length + 5 ≤ 2 ^ 50) :
    0 ≤ σ ∧ |σ - deviation l| ≤ 2 * (l.length + 5) * u ℝ * deviation l + 4 * (l.length + 1) * u ℝ * M := by
  obtain ⟨m, v, hm, hv, rfl⟩ := h
  have hne := hm.ne_nil
  have hu := u_pos (K := ℝ)
  have hl : (0 : ℝ) < l.length := by exact_mod_cast List.length_pos_of_ne_nil hne
  have e1 := hm.error hM hn
  obtain ⟨e2, hv0⟩ := variance_error hv
  rw [mean_sq_shift hne] at e2
  have hd := Weigher.deviation_nonneg l
  set d := deviation l
  set c := l.sum / l.length
  have hq : 0 ≤ d ^ 2 + (c - m) ^ 2 := by positivity
  set q := Real.sqrt (d ^ 2 + (c - m) ^ 2) with hqd
  have hq0 : 0 ≤ q := Real.sqrt_nonneg _
  have q2 : q ^ 2 = d ^ 2 + (c - m) ^ 2 := Real.sq_sqrt hq
  rw [← q2] at e2
  have q3 : d ≤ q := abs_le_of_sq_le_sq' (by nlinarith [sq_nonneg (c - m)]) hq0 |>.2
  have q4 : q ≤ d + |c - m| := by
    apply abs_le_of_sq_le_sq' _ (by positivity) |>.2
    rw [q2]
    nlinarith [sq_abs (c - m), mul_nonneg hd (abs_nonneg (c - m))]
  have hp : 1 ≤ (1 + u ℝ) ^ (l.length + 4) := one_le_pow₀ (by linarith)
  set δ := (1 + u ℝ) ^ (l.length + 4) - 1 with hδ
  have hδ0 : 0 ≤ δ := by linarith
  have s0 := Real.sqrt_nonneg v
  have s2 := Real.sq_sqrt hv0
  obtain ⟨v1, v2⟩ := abs_le.mp e2
  have hδ1 : δ ≤ 1 := by
    obtain ⟨p1, p2⟩ := pow_small (n := l.length + 4) (by omega)
    linarith
  have r1 : |Real.sqrt v - q| ≤ δ * q := by
    rw [abs_le]
    constructor
    · have : (1 - δ) * q ≤ Real.sqrt v := by
        apply abs_le_of_sq_le_sq' _ s0 |>.2
        rw [s2, mul_pow]
        have : (1 - δ) ^ 2 ≤ 1 - δ := by nlinarith
        have := mul_le_mul_of_nonneg_right this (sq_nonneg q)
        linarith
      linarith
    · have : Real.sqrt v ≤ (1 + δ) * q := by
        apply abs_le_of_sq_le_sq' _ (by positivity) |>.2
        rw [s2, mul_pow]
        have : 1 + δ ≤ (1 + δ) ^ 2 := by nlinarith
        have := mul_le_mul_of_nonneg_right this (sq_nonneg q)
        linarith
      linarith
  refine ⟨fl_nonneg s0, ?_⟩
  have r2 := fl_error' (Real.sqrt v)
  rw [abs_of_nonneg s0] at r2
  have r3 : |fl (Real.sqrt v) - q| ≤ ((1 + u ℝ) ^ (l.length + 5) - 1) * q := by
    have := abs_add_le (fl (Real.sqrt v) - Real.sqrt v) (Real.sqrt v - q)
    rw [sub_add_sub_cancel] at this
    have e : (1 + u ℝ) ^ (l.length + 5) = (1 + δ) * (1 + u ℝ) := by rw [hδ, pow_succ]; ring
    have h1 : Real.sqrt v ≤ (1 + δ) * q := by linarith [(abs_le.mp r1).2]
    have h2 := mul_le_mul_of_nonneg_left h1 hu.le
    rw [e]
    linarith
  obtain ⟨p1, p2⟩ := pow_small (n := l.length + 5) hn
  have r4 : ((1 + u ℝ) ^ (l.length + 5) - 1) * q ≤ 2 * (l.length + 5) * u ℝ * q := by
    refine mul_le_mul_of_nonneg_right ?_ hq0
    push_cast at p1
    linarith
  have r5 := abs_add_le (fl (Real.sqrt v) - q) (q - d)
  rw [sub_add_sub_cancel, abs_of_nonneg (sub_nonneg.mpr q3)] at r5
  rw [abs_sub_comm] at e1
  push_cast at p2
  have r6 : 2 * (l.length + 5) * u ℝ * q ≤ 2 * (l.length + 5) * u ℝ * d + 1 / 4 * |c - m| := by
    have h1 := mul_le_mul_of_nonneg_left q4 (show 0 ≤ 2 * (l.length + 5) * u ℝ by positivity)
    have h2 := mul_le_mul_of_nonneg_right p2 (abs_nonneg (c - m))
    linarith
  have hM0 : 0 ≤ M := by
    obtain ⟨x, l', rfl⟩ := List.exists_cons_of_ne_nil hne
    exact (abs_nonneg x).trans (hM x (by simp))
  have r7 : 0 ≤ (l.length + 1) * u ℝ * M := by positivity
  linarith

/-! ### Weights -/

theorem relu_lipschitz {b x y : ℝ} (hb : 0 < b) : |relu b x - relu b y| ≤ |x - y| / b := by
  unfold relu
  rw [max_comm 0, max_comm 0]
  refine (abs_max_sub_max_le_abs (1 - x / b) (1 - y / b) 0).trans ?_
  have : 1 - x / b - (1 - y / b) = (y - x) / b := by ring
  rw [this, abs_div, abs_of_pos hb, abs_sub_comm]

/-- The factor of one column. -/
noncomputable def factor (c : ℝ × ℝ) : ℝ := if c.1 > c.2 then 0 else fl (fl (c.2 - c.1) / c.2)

theorem fluctuationStep_eq (w : ℝ) (c : ℝ × ℝ) : fluctuationStep w c = fl (w * factor c) := by
  unfold fluctuationStep factor
  split <;> simp [fl_zero]

theorem factor_spec {c : ℝ × ℝ} (h0 : 0 ≤ c.1) (hb : 0 < c.2) (hd : fl c.2 = c.2) :
    0 ≤ factor c ∧ factor c ≤ 1 ∧ |factor c - relu c.2 c.1| ≤ 3 * u ℝ ∧ (factor c = 0 ↔ c.2 ≤ c.1) ∧ (c.1 = 0 → factor c = 1) := by
  obtain ⟨σ, b⟩ := c
  simp only at h0 hb hd ⊢
  have hu := u_pos (K := ℝ)
  have hu1 := u_small (K := ℝ)
  unfold factor
  simp only
  by_cases h : σ > b
  · rw [if_pos h]
    have : relu b σ = 0 := (Weigher.relu_range hb h0).2.2.2.mpr h.le
    refine ⟨le_rfl, zero_le_one, by rw [this]; simpa using hu.le, by simp [h.le], fun h' => ?_⟩
    linarith
  · rw [if_neg h]
    rw [gt_iff_lt, not_lt] at h
    have hx : 0 ≤ b - σ := by linarith
    have f0 := fl_nonneg hx
    have f1 : fl (b - σ) ≤ b := by
      have := fl_mono (show b - σ ≤ b by linarith)
      rwa [hd] at this
    have g1 : fl (b - σ) / b ≤ 1 := (div_le_one hb).mpr f1
    have g0 : 0 ≤ fl (b - σ) / b := div_nonneg f0 hb.le
    have e : relu b σ = (b - σ) / b := by
      unfold relu
      rw [max_eq_right]
      · rw [sub_div, div_self hb.ne']
      · rw [sub_nonneg, div_le_one hb]; exact h
    refine ⟨fl_nonneg g0, ?_, ?_, ?_, ?_⟩
    · have := fl_mono g1
      rwa [fl_one] at this
    · rw [e]
      have h1 := fl_error' (fl (b - σ) / b)
      rw [abs_of_nonneg g0] at h1
      have h2 : |fl (b - σ) / b - (b - σ) / b| ≤ u ℝ := by
        rw [← sub_div, abs_div, abs_of_pos hb, div_le_iff₀ hb]
        have := fl_error' (b - σ)
        rw [abs_of_nonneg hx] at this
        exact this.trans (mul_le_mul_of_nonneg_left (by linarith) hu.le)
      have h3 := abs_add_le (fl (fl (b - σ) / b) - fl (b - σ) / b) (fl (b - σ) / b - (b - σ) / b)
      rw [sub_add_sub_cancel] at h3
      have h4 := mul_le_mul_of_nonneg_left g1 hu.le
      linarith
    · rw [fl_eq_zero, div_eq_zero_iff, fl_eq_zero, sub_eq_zero]
      constructor
      · rintro (h | h)
        · exact h.le
        · exact absurd h hb.ne'
      · exact fun h' => Or.inl (le_antisymm h' h)
    · rintro rfl
      rw [sub_zero, hd, div_self hb.ne', fl_one]

theorem factor_mono {b σ τ : ℝ} (h : σ ≤ τ) (hb : 0 < b) : factor (τ, b) ≤ factor (σ, b) := by
  unfold factor
  simp only
  by_cases h1 : τ > b
  · rw [if_pos h1]
    split
    · exact le_rfl
    · rename_i h2
      exact fl_nonneg (div_nonneg (fl_nonneg (by linarith)) hb.le)
  · rw [if_neg h1, if_neg (by linarith)]
    exact fl_mono (div_le_div_of_nonneg_right (fl_mono (by linarith)) hb.le)

/-- The weight is a number from 0 to 1, and vanishes exactly if one of the deviations reaches its bound. -/
theorem C183_range {cs : List (ℝ × ℝ)} (h0 : ∀ c ∈ cs, 0 ≤ c.1) (hb : ∀ c ∈ cs, 0 < c.2) (hd : ∀ c ∈ cs, fl c.2 = c.2) :
    0 ≤ fluctuationFold cs ∧ fluctuationFold cs ≤ 1 ∧ (fluctuationFold cs = 0 ↔ ∃ c ∈ cs, c.2 ≤ c.1) ∧
    ((∀ c ∈ cs, c.1 = 0) → fluctuationFold cs = 1) := by
  unfold fluctuationFold
  have key : ∀ (l : List (ℝ × ℝ)) (w : ℝ), (∀ c ∈ l, c ∈ cs) → 0 ≤ w → w ≤ 1 →
      0 ≤ l.foldl fluctuationStep w ∧ l.foldl fluctuationStep w ≤ 1 ∧
      (l.foldl fluctuationStep w = 0 ↔ w = 0 ∨ ∃ c ∈ l, c.2 ≤ c.1) ∧
      (w = 1 → (∀ c ∈ l, c.1 = 0) → l.foldl fluctuationStep w = 1) := by
    intro l
    induction l with
    | nil => intro w _ h1 h2; exact ⟨h1, h2, by simp, fun h _ => h⟩
    | cons c l ih =>
      intro w hl h1 h2
      have hc := hl c (by simp)
      obtain ⟨f0, f1, -, fz, fo⟩ := factor_spec (h0 c hc) (hb c hc) (hd c hc)
      rw [List.foldl_cons, fluctuationStep_eq]
      have g1 : fl (w * factor c) ≤ 1 := by
        have := fl_mono (mul_le_one₀ h2 f0 f1)
        rwa [fl_one] at this
      obtain ⟨i0, i1, iz, io⟩ := ih (fl (w * factor c)) (fun d hd => hl d (by simp [hd])) (fl_nonneg (mul_nonneg h1 f0)) g1
      refine ⟨i0, i1, ?_, ?_⟩
      · rw [iz, fl_eq_zero, mul_eq_zero, fz]
        simp only [List.mem_cons, exists_eq_or_imp, or_assoc]
      · intro hw hz
        refine io ?_ fun d hd => hz d (by simp [hd])
        rw [hw, fo (hz c (by simp)), mul_one, fl_one]
  obtain ⟨k0, k1, kz, ko⟩ := key cs 1 (fun _ h => h) zero_le_one le_rfl
  exact ⟨k0, k1, by rw [kz]; simp, ko rfl⟩

/-- Smaller deviations never give a smaller weight. -/
theorem C183_monotone {bs σs τs : List ℝ} (h : List.Forall₂ (· ≤ ·) σs τs) (h0 : ∀ σ ∈ σs, 0 ≤ σ) (hb : ∀ b ∈ bs, 0 < b)
    (hd : ∀ b ∈ bs, fl b = b) : fluctuationFold (List.zip τs bs) ≤ fluctuationFold (List.zip σs bs) := by
  unfold fluctuationFold
  have key : ∀ (v w : ℝ), 0 ≤ v → v ≤ w → (List.zip τs bs).foldl fluctuationStep v ≤ (List.zip σs bs).foldl fluctuationStep w := by
    induction h generalizing bs with
    | nil => intro v w _ h; simpa using h
    | @cons σ τ σs τs hστ _ ih =>
      intro v w hv hvw
      cases bs with
      | nil => simpa using hvw
      | cons b bs =>
        simp only [List.zip_cons_cons, List.foldl_cons]
        have hb0 := hb b (by simp)
        have hs := h0 σ (by simp)
        obtain ⟨f0, -⟩ := factor_spec (c := (τ, b)) (hs.trans hστ) hb0 (hd b (by simp))
        refine ih (fun x hx => h0 x (by simp [hx])) (fun x hx => hb x (by simp [hx])) (fun x hx => hd x (by simp [hx])) _ _ ?_ ?_
        · rw [fluctuationStep_eq]
          exact fl_nonneg (mul_nonneg hv f0)
        · rw [fluctuationStep_eq, fluctuationStep_eq]
          exact fl_mono (mul_le_mul hvw (factor_mono hστ hb0) f0 (hv.trans hvw))
  exact key 1 1 zero_le_one le_rfl

/-- The error of the weight. -/
theorem fold_error {cols : List (List ℝ × ℝ)} {σs : List ℝ} {a b : Nat} {N M : ℝ}
    (h : List.Forall₂ (fun c σ => Std ((c.1.drop a).take (b + 1 - a)) σ) cols σs) (hb : ∀ c ∈ cols, 0 < c.2)
    (hd : ∀ c ∈ cols, fl c.2 = c.2) (hM : ∀ c ∈ cols, ∀ x ∈ c.1, |x| ≤ M) (hM0 : 0 ≤ M)
    (hN : ∀ c ∈ cols, (c.1.length : ℝ) ≤ N) (hn : ∀ c ∈ cols, c.1.length + 5 ≤ 2 ^ 50) :
    |fluctuationFold (List.zip σs (cols.map Prod.snd)) -
        (cols.map fun c => relu c.2 (deviation ((c.1.drop a).take (b + 1 - a)))).prod|
      ≤ (cols.map fun c => 8 * (N + 2) * u ℝ * M / c.2 + 4 * u ℝ).sum := by
  have hu := u_pos (K := ℝ)
  unfold fluctuationFold
  have key : ∀ (w v e : ℝ), 0 ≤ w → w ≤ 1 → 0 ≤ v → v ≤ 1 → |w - v| ≤ e →
      |(List.zip σs (cols.map Prod.snd)).foldl fluctuationStep w -
        v * (cols.map fun c => relu c.2 (deviation ((c.1.drop a).take (b + 1 - a)))).prod|
      ≤ e + (cols.map fun c => 8 * (N + 2) * u ℝ * M / c.2 + 4 * u ℝ).sum := by
    induction h with
    | nil => intro w v e _ _ _ _ h; simpa using h
    | @cons c σ cols σs hσ _ ih =>
      intro w v e w0 w1 v0 v1 hwv
      simp only [List.map_cons, List.zip_cons_cons, List.foldl_cons, List.prod_cons, List.sum_cons]
      have hb0 := hb c (by simp)
      have hlen : ((c.1.drop a).take (b + 1 - a)).length ≤ c.1.length :=
        ((List.take_sublist _ _).trans (List.drop_sublist _ _)).length_le
      have hmem : ∀ x ∈ (c.1.drop a).take (b + 1 - a), |x| ≤ M :=
        fun x hx => hM c (by simp) x (List.mem_of_mem_drop (List.mem_of_mem_take hx))
      have hcn := hn c (by simp)
      obtain ⟨d0, d1⟩ := C183_deviation hσ hmem (by omega)
      have hne : (c.1.drop a).take (b + 1 - a) ≠ [] := by
        obtain ⟨m, v, hm, -⟩ := hσ
        exact hm.ne_nil
      obtain ⟨d2, -⟩ := deviation_le hne hmem
      have d3 := Weigher.deviation_nonneg ((c.1.drop a).take (b + 1 - a))
      set dev := deviation ((c.1.drop a).take (b + 1 - a))
      set n := ((c.1.drop a).take (b + 1 - a)).length
      have hnN : (n : ℝ) ≤ N := (by exact_mod_cast hlen : (n : ℝ) ≤ c.1.length).trans (hN c (by simp))
      have d4 : |σ - dev| ≤ 8 * (N + 2) * u ℝ * M := by
        have h1 : 2 * ((n : ℝ) + 5) * u ℝ * dev ≤ 2 * (N + 5) * u ℝ * M := by
          refine mul_le_mul ?_ d2 d3 ?_
          · exact mul_le_mul_of_nonneg_right (by linarith) hu.le
          · have : (0 : ℝ) ≤ n := Nat.cast_nonneg _
            have : 0 ≤ N + 5 := by linarith
            positivity
        have h2 : 4 * ((n : ℝ) + 1) * u ℝ * M ≤ 4 * (N + 1) * u ℝ * M :=
          mul_le_mul_of_nonneg_right (mul_le_mul_of_nonneg_right (by linarith) hu.le) hM0
        have h3 : 0 ≤ N * (u ℝ * M) := by
          have : (0 : ℝ) ≤ n := Nat.cast_nonneg _
          have : 0 ≤ N := by linarith
          positivity
        have h4 : 0 ≤ u ℝ * M := by positivity
        linarith
      obtain ⟨f0, f1, f2, -⟩ := factor_spec (c := (σ, c.2)) d0 hb0 (hd c (by simp))
      obtain ⟨r0, r1, -⟩ := Weigher.relu_range hb0 d3
      have f3 : |factor (σ, c.2) - relu c.2 dev| ≤ 8 * (N + 2) * u ℝ * M / c.2 + 3 * u ℝ := by
        have h1 := relu_lipschitz (x := σ) (y := dev) hb0
        have h2 := div_le_div_of_nonneg_right d4 hb0.le
        have h3 := abs_add_le (factor (σ, c.2) - relu c.2 σ) (relu c.2 σ - relu c.2 dev)
        rw [sub_add_sub_cancel] at h3
        simp only at f2
        linarith
      have p0 : 0 ≤ w * factor (σ, c.2) := mul_nonneg w0 f0
      have p1 : w * factor (σ, c.2) ≤ 1 := mul_le_one₀ w1 f0 f1
      have p2 : fl (w * factor (σ, c.2)) ≤ 1 := by
        have := fl_mono p1
        rwa [fl_one] at this
      have p3 : |fl (w * factor (σ, c.2)) - v * relu c.2 dev| ≤ e + (8 * (N + 2) * u ℝ * M / c.2 + 4 * u ℝ) := by
        have h1 := fl_error' (w * factor (σ, c.2))
        rw [abs_of_nonneg p0] at h1
        have h2 := mul_le_mul_of_nonneg_left p1 hu.le
        have h3 : |w * factor (σ, c.2) - v * relu c.2 dev| ≤ |w - v| + |factor (σ, c.2) - relu c.2 dev| := by
          have e1 : w * factor (σ, c.2) - v * relu c.2 dev
              = (w - v) * factor (σ, c.2) + v * (factor (σ, c.2) - relu c.2 dev) := by ring
          rw [e1]
          refine (abs_add_le _ _).trans (add_le_add ?_ ?_)
          · rw [abs_mul, abs_of_nonneg f0]
            exact mul_le_of_le_one_right (abs_nonneg _) f1
          · rw [abs_mul, abs_of_nonneg v0]
            exact mul_le_of_le_one_left (abs_nonneg _) v1
        have h4 := abs_add_le (fl (w * factor (σ, c.2)) - w * factor (σ, c.2)) (w * factor (σ, c.2) - v * relu c.2 dev)
        rw [sub_add_sub_cancel] at h4
        linarith
      rw [fluctuationStep_eq, ← mul_assoc v, ← add_assoc e]
      exact ih (fun d hd' => hb d (by simp [hd'])) (fun d hd' => hd d (by simp [hd'])) (fun d hd' => hM d (by simp [hd']))
        (fun d hd' => hN d (by simp [hd'])) (fun d hd' => hn d (by simp [hd'])) _ _ _ (fl_nonneg p0) p2 (mul_nonneg v0 r0)
        (mul_le_one₀ v1 r0 r1) p3
  have := key 1 1 0 zero_le_one le_rfl zero_le_one le_rfl (by simp)
  rwa [one_mul, zero_add] at this

theorem selected {attributes : List String} (hne : attributes ≠ []) (D : Weigher.FloatData ℝ) :
    Weigher.selectColumns (some attributes) D = ⟨D.nRows, D.cols.filter fun c => decide (c.1 ∈ attributes)⟩ := by
  unfold Weigher.selectColumns
  cases attributes with
  | nil => exact absurd rfl hne
  | cons d ds => rfl

theorem bounds_all {attributes : List String} {bounds : List ℝ} {D : Weigher.FloatData ℝ} (hlen : bounds.length = attributes.length)
    (hall : ∀ k ∈ attributes, k ∈ D.cols.map Prod.fst) :
    Weigher.boundsFor attributes bounds ((D.cols.filter fun c => decide (c.1 ∈ attributes)).map Prod.fst) = .ok bounds :=
  Weigher.boundsFor_all (by
    intro k hk
    obtain ⟨c, hc, rfl⟩ := List.mem_map.mp (hall k hk)
    exact List.mem_map.mpr ⟨c, List.mem_filter.mpr ⟨hc, by simpa using hk⟩, rfl⟩) hlen

theorem Std.exists {l : List ℝ} (h : l ≠ []) : ∃ σ, Std l σ := by
  obtain ⟨m, hm⟩ := Mean.exists h
  obtain ⟨v, hv⟩ := Mean.exists (l := l.map fun x => fl (fl (x - m) * fl (x - m))) (by simpa using h)
  exact ⟨_, m, v, hm, hv, rfl⟩

theorem forall₂_exists {α β : Type} {r : α → β → Prop} {l : List α} (h : ∀ a ∈ l, ∃ b, r a b) : ∃ m, List.Forall₂ r l m := by
  induction l with
  | nil => exact ⟨[], .nil⟩
  | cons a l ih =>
    obtain ⟨b, hb⟩ := h a (by simp)
    obtain ⟨m, hm⟩ := ih fun x hx => h x (by simp [hx])
    exact ⟨b :: m, .cons hb hm⟩

theorem window_ne_nil {a b k n : Nat} {l : List ℝ} (hl : l.length = n) (hak : a ≤ k) (hkb : k ≤ b) (hk : k < n) :
    (l.drop a).take (b + 1 - a) ≠ [] := by
  apply List.ne_nil_of_length_pos
  rw [List.length_take, List.length_drop, hl]
  omega

section weigh

variable {attributes : List String} {before after : ℝ} {bounds : List ℝ} {times : List ℝ} {D : Weigher.FloatData ℝ}

/-- **C183.** There are weights. -/
theorem C183_defined (hb : 0 ≤ before) (ha : 0 ≤ after) (hlen : bounds.length = attributes.length) (hne : attributes ≠ [])
    (hall : ∀ k ∈ attributes, k ∈ D.cols.map Prod.fst) (ht : times.length = D.nRows)
    (hcols : ∀ c ∈ D.cols, c.2.length = D.nRows) : ∃ ws, FluctuationWeighed attributes before after bounds times D ws := by
  unfold FluctuationWeighed
  simp only [selected hne]
  have hcne : (D.cols.filter fun c => decide (c.1 ∈ attributes)) ≠ [] := by
    obtain ⟨d, ds, rfl⟩ := List.exists_cons_of_ne_nil hne
    obtain ⟨c, hc, hcd⟩ := List.mem_map.mp (hall d (by simp))
    exact List.ne_nil_of_mem (List.mem_filter.mpr ⟨hc, by simp [hcd]⟩)
  rw [bounds_all hlen hall]
  rw [List.take_of_length_le (by omega)]
  obtain ⟨ws, hws⟩ := forall₂_exists (l := times) (r := fun dt w => ∃ a b, Weigher.windowOf before after times dt = .ok (a, b) ∧
      Fluctuation a b (List.zip ((D.cols.filter fun c => decide (c.1 ∈ attributes)).map Prod.snd) bounds) w) (by
    intro t htm
    obtain ⟨k, hk⟩ := List.getElem?_of_mem htm
    obtain ⟨a, b, hw, hak, hkb, hbl, -⟩ := Weigher.windowOf_spec hb ha hk
    obtain ⟨σs, hσ⟩ := forall₂_exists (l := List.zip ((D.cols.filter fun c => decide (c.1 ∈ attributes)).map Prod.snd) bounds)
      (r := fun c σ => Std ((c.1.drop a).take (b + 1 - a)) σ) (by
        intro c hc
        obtain ⟨d, hd, hd'⟩ := List.mem_map.mp (List.of_mem_zip hc).1
        exact Std.exists (window_ne_nil (n := D.nRows) (by rw [← hd']; exact hcols d (List.mem_filter.mp hd).1) hak hkb (by omega)))
    exact ⟨_, a, b, hw, σs, hσ, rfl⟩)
  exact ⟨ws, bounds, rfl, hcne, hws⟩

/-- **C183.** The weights are numbers from 0 to 1, one per row, close to the exactly calculated ones: for every attribute the
difference is at most four roundings and `8 * (n + 2)` roundings of the largest absolute value divided by the bound. -/
theorem C183_weights (hb : 0 ≤ before) (ha : 0 ≤ after) (hlen : bounds.length = attributes.length) (hne : attributes ≠ [])
    (hall : ∀ k ∈ attributes, k ∈ D.cols.map Prod.fst) (hpos : ∀ b ∈ bounds, 0 < b) (hd : ∀ b ∈ bounds, fl b = b)
    (ht : times.length = D.nRows) (hcols : ∀ c ∈ D.cols, c.2.length = D.nRows) {M : ℝ} (hM0 : 0 ≤ M)
    (hM : ∀ c ∈ D.cols, ∀ x ∈ c.2, |x| ≤ M) (hn : D.nRows + 5 ≤ 2 ^ 50) {ws : List ℝ}
    (h : FluctuationWeighed attributes before after bounds times D ws) :
    ws.length = D.nRows ∧ (∀ w ∈ ws, 0 ≤ w ∧ w ≤ 1) ∧
    ∃ vs, Weigher.fluctuationWeigh attributes before after bounds times D = .ok vs ∧ vs.length = D.nRows ∧
      ∀ (k : Nat) (w : ℝ), ws[k]? = some w → ∃ v, vs[k]? = some (some v) ∧
        |w - v| ≤ (bounds.map fun b => 8 * (D.nRows + 2) * u ℝ * M / b + 4 * u ℝ).sum := by
  have hu := u_pos (K := ℝ)
  obtain ⟨vs, h1, h2, h3⟩ := Weigher.fluctuationWeigh_rows hb ha hlen hne hall hpos ht hcols
  unfold FluctuationWeighed at h
  simp only [selected hne] at h
  rw [bounds_all hlen hall, List.take_of_length_le (by omega)] at h
  obtain ⟨ubs, hubs, -, hws⟩ := h
  cases hubs
  set z := List.zip ((D.cols.filter fun c => decide (c.1 ∈ attributes)).map Prod.snd) bounds with hz
  have hzp : ∀ c ∈ z, 0 < c.2 := fun c hc => hpos _ (List.of_mem_zip hc).2
  have hzd : ∀ c ∈ z, fl c.2 = c.2 := fun c hc => hd _ (List.of_mem_zip hc).2
  have hzc : ∀ c ∈ z, ∃ d ∈ D.cols, d.2 = c.1 := by
    intro c hc
    obtain ⟨d, hd, hd'⟩ := List.mem_map.mp (List.of_mem_zip hc).1
    exact ⟨d, (List.mem_filter.mp hd).1, hd'⟩
  have hzl : ∀ c ∈ z, c.1.length = D.nRows := by
    intro c hc
    obtain ⟨d, hd, hd'⟩ := hzc c hc
    rw [← hd']; exact hcols d hd
  have hzM : ∀ c ∈ z, ∀ x ∈ c.1, |x| ≤ M := by
    intro c hc
    obtain ⟨d, hd, hd'⟩ := hzc c hc
    rw [← hd']; exact hM d hd
  have hl := hws.length_eq
  have hterm : ∀ b ∈ bounds, 0 ≤ 8 * (D.nRows + 2) * u ℝ * M / b + 4 * u ℝ := by
    intro b hb
    have := hpos b hb
    positivity
  have hsum : (z.map fun c => 8 * ((D.nRows : ℝ) + 2) * u ℝ * M / c.2 + 4 * u ℝ).sum
      ≤ (bounds.map fun b => 8 * (D.nRows + 2) * u ℝ * M / b + 4 * u ℝ).sum := by
    have e : (z.map fun c => 8 * ((D.nRows : ℝ) + 2) * u ℝ * M / c.2 + 4 * u ℝ)
        = (z.map Prod.snd).map fun b => 8 * ((D.nRows : ℝ) + 2) * u ℝ * M / b + 4 * u ℝ := by
      rw [List.map_map]; rfl
    have hsub : (z.map Prod.snd).Sublist bounds := by
      rw [hz]
      generalize (D.cols.filter fun c => decide (c.1 ∈ attributes)).map Prod.snd = l
      clear * -
      induction bounds generalizing l with
      | nil => simp
      | cons b bounds ih =>
        cases l with
        | nil => simp
        | cons a l => simpa using ih l
    rw [e]
    refine (hsub.map _).sum_le_sum ?_
    intro x hx
    obtain ⟨b, hb, rfl⟩ := List.mem_map.mp hx
    exact hterm b hb
  have hrow : ∀ (k : Nat) (w : ℝ), ws[k]? = some w → (0 ≤ w ∧ w ≤ 1) ∧ ∃ v, vs[k]? = some (some v) ∧
        |w - v| ≤ (bounds.map fun b => 8 * (D.nRows + 2) * u ℝ * M / b + 4 * u ℝ).sum := by
    intro k w hw
    have hkw : k < ws.length := by
      by_contra h
      rw [List.getElem?_eq_none (by omega)] at hw
      cases hw
    have hkt : k < times.length := by omega
    have hk := List.getElem?_eq_getElem hkt
    obtain ⟨a, b, e1, e2⟩ := h3 k _ hk
    have hr := hws.get hkt hkw
    rw [List.getElem?_eq_getElem hkw] at hw
    cases hw
    simp only [List.get_eq_getElem] at hr
    obtain ⟨a', b', e3, σs, hσ, e4⟩ := hr
    rw [e1] at e3
    cases e3
    rw [e4]
    refine ⟨?_, _, e2, ?_⟩
    · have hmem : ∀ c ∈ List.zip σs (z.map Prod.snd), 0 ≤ c.1 ∧ c.2 ∈ bounds := by
        intro c hc
        refine ⟨?_, ?_⟩
        · obtain ⟨j, hj, hj'⟩ := List.getElem_of_mem (List.of_mem_zip hc).1
          have hjz : j < z.length := by rw [hσ.length_eq]; exact hj
          have := hσ.get hjz hj
          simp only [List.get_eq_getElem] at this
          rw [hj'] at this
          obtain ⟨m, v, -, -, e⟩ := this
          rw [e]
          exact fl_nonneg (Real.sqrt_nonneg _)
        · obtain ⟨d, hd', e⟩ := List.mem_map.mp (List.of_mem_zip hc).2
          rw [← e]
          exact (List.of_mem_zip hd').2
      obtain ⟨r0, r1, -⟩ := C183_range (cs := List.zip σs (z.map Prod.snd)) (fun c hc => (hmem c hc).1)
        (fun c hc => hpos _ (hmem c hc).2) (fun c hc => hd _ (hmem c hc).2)
      exact ⟨r0, r1⟩
    · exact (fold_error hσ hzp hzd hzM hM0 (fun c hc => by rw [hzl c hc]) (fun c hc => by rw [hzl c hc]; exact hn)).trans hsum
  refine ⟨by omega, ?_, vs, h1, h2, fun k w hw => (hrow k w hw).2⟩
  intro w hw
  obtain ⟨k, hk⟩ := List.getElem?_of_mem hw
  exact (hrow k w hk).1

end weigh

/-- Equal values with few bits have no deviation. -/
theorem C183_constant {l : List ℝ} {σ : ℝ} {m k : ℤ} (h : Std l σ) (hall : ∀ x ∈ l, x = (m : ℝ) * 2 ^ k)
    (hb : (l.length : ℤ) * |m| < 2 ^ 53) : σ = 0 := by
  obtain ⟨c, v, hc, hv, rfl⟩ := h
  have e := hc.equal hall hb
  have hz := hv.zeros (by
    intro x hx
    obtain ⟨y, hy, rfl⟩ := List.mem_map.mp hx
    rw [hall y hy, e, sub_self, fl_zero, mul_zero, fl_zero])
  rw [hz, Real.sqrt_zero, fl_zero]

/-- Other equal values may have one: the calculated deviation of 5.4, 5.4, 5.4 is not zero, and the weight for the bound 1 is less
than one. -/
theorem C183_constant_inexact {σ : ℝ} (h : Std [fl (54 / 10 : ℝ), fl (54 / 10), fl (54 / 10)] σ) :
    σ = 1 / 2 ^ 50 ∧ fluctuationFold [(σ, 1)] = 1 - 1 / 2 ^ 50 := by
  have e : σ = 1 / 2 ^ 50 := by
    obtain ⟨m, v, hm, hv, rfl⟩ := h
    have := std_five_four ⟨m, v, hm, hv, rfl⟩
    split at this
    · norm_num at this
    · rw [this]; norm_num
  refine ⟨e, ?_⟩
  rw [e]
  have h1 := fl_eq_of_rat (x := 1 - 1 / 2 ^ 50) (y := 1 - 1 / 2 ^ 50) (by decide +kernel)
  push_cast at h1
  simp only [fluctuationFold, List.foldl_cons, List.foldl_nil, fluctuationStep]
  rw [if_neg (by norm_num), div_one, one_mul, h1, h1, h1]

/-- Case for `C183_deviation`: the values 3.1 and 5.4. -/
example {σ : ℝ} (h : Std [fl (31 / 10 : ℝ), fl (54 / 10)] σ) :
    |σ - deviation [fl (31 / 10 : ℝ), fl (54 / 10)]| ≤ 2 * ((2 : ℕ) + 5) * u ℝ * deviation [fl (31 / 10 : ℝ), fl (54 / 10)]
      + 4 * ((2 : ℕ) + 1) * u ℝ * 8 := by
  refine (C183_deviation h (M := 8) ?_ (by norm_num)).2
  have h8 : fl (8 : ℝ) = 8 := by
    have := fl_int (K := ℝ) (m := 8) (by norm_num)
    exact_mod_cast this
  have key : ∀ x : ℝ, 0 ≤ x → x ≤ 8 → |fl x| ≤ 8 := by
    intro x h0 h1
    rw [abs_of_nonneg (fl_nonneg h0), ← h8]
    exact fl_mono h1
  intro x hx
  simp only [List.mem_cons, List.not_mem_nil, or_false] at hx
  rcases hx with rfl | rfl <;> exact key _ (by norm_num) (by norm_num)

/-- Case for `C183_range` and `C183_monotone`: deviations 1/2 and 1 with the bounds 2 and 4. -/
example : fluctuationFold [((1 / 2 : ℚ), 2), (1, 4)] = 9 / 16 ∧ fluctuationFold [((1 / 2 : ℚ), 2), (5, 4)] = 0 ∧
    fluctuationFold [((1 : ℚ), 2), (1, 4)] = 3 / 8 ∧ fluctuationFold [(fl (1 / 10 : ℚ), 1), (1, 3)] = fl (6 / 10) := by
  decide +kernel

example : fluctuationFold (List.zip [1, 1] [(2 : ℝ), 4]) ≤ fluctuationFold (List.zip [1 / 2, 1] [(2 : ℝ), 4]) :=
  C183_monotone (by norm_num) (by norm_num) (by norm_num) (by
    have h2 := fl_int (K := ℝ) (m := 2) (by norm_num)
    have h4 := fl_int (K := ℝ) (m := 4) (by norm_num)
    push_cast at h2 h4
    simp [h2, h4])

/-- Case for `C183_weights`: the data set of `C80_weights_partial`. -/
example : ∃ ws, FluctuationWeighed ["A", "B"] 1 0 [2, 4] [0, 1] Weigher.twoColumns ws ∧ ws.length = 2 ∧ ∀ w ∈ ws, 0 ≤ w ∧ w ≤ 1 := by
  have h2 := fl_int (K := ℝ) (m := 2) (by norm_num)
  have h4 := fl_int (K := ℝ) (m := 4) (by norm_num)
  push_cast at h2 h4
  obtain ⟨ws, h⟩ := C183_defined (attributes := ["A", "B"]) (before := 1) (after := 0) (bounds := [2, 4]) (times := [0, 1])
    (D := Weigher.twoColumns) (by norm_num) (by norm_num) rfl (by simp) (by simp [Weigher.twoColumns]) rfl
    (by simp [Weigher.twoColumns])
  obtain ⟨a1, a2, -⟩ := C183_weights (by norm_num) (by norm_num) rfl (by simp) (by simp [Weigher.twoColumns]) (by simp)
    (by simp [h2, h4]) rfl (by simp [Weigher.twoColumns]) (M := 4) (by norm_num) (by simp [Weigher.twoColumns]; norm_num)
    (by simp [Weigher.twoColumns]) h
  exact ⟨ws, h, a1, a2⟩

/-- Case for `C183_constant`: 5.5 knots five times. -/
example {σ : ℝ} (h : Std [11 / 2, 11 / 2, 11 / 2, 11 / 2, 11 / 2] σ) : σ = 0 :=
  C183_constant (m := 11) (k := -1) h (by norm_num) (by norm_num)

end Verif.F64
