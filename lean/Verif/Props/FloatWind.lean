import Verif.Model.FloatWind
import Verif.Props.FloatIdw
import Verif.Props.FloatFilter
import Verif.Props.FloatText
import Verif.Props.FloatWeigher
import Verif.Props.Wind

/-!
# Property C158: conversion of winds in double precision
-/

set_option linter.unusedSectionVars false

namespace Verif.F64

open Verif.Wind (Dir convertRow convertSpeed convertSpeed_sq)
open Verif.Curve (rad2deg deg2rad)

/-! ## Lemmas -/

section

variable {K : Type} [Field K] [LinearOrder K] [IsStrictOrderedRing K] [FloorRing K]

theorem fl_close {x y B C : K} (h : |x - y| ≤ C) (hb : |y| ≤ B) : |fl x - y| ≤ C + u K * (B + C) := by
  have e := fl_error' x
  have h1 : |x| ≤ B + C := by
    have := abs_add_le y (x - y)
    rw [add_sub_cancel] at this
    linarith
  have h2 : |fl x - y| ≤ |fl x - x| + |x - y| := by
    have := abs_add_le (fl x - x) (x - y)
    rwa [sub_add_sub_cancel] at this
  have := mul_le_mul_of_nonneg_left h1 (u_pos (K := K)).le
  linarith

theorem radicand_arith {w ε : K} (h0 : 0 ≤ w) (h1 : w ≤ 1 / 64) (e0 : 0 ≤ ε) (e1 : ε ≤ 1 / 8) :
    (1 + w) * (2 * (2 * w + w ^ 2) + ε + w * (1 + (2 * w + w ^ 2 + ε))) + 2 * w ≤ ε + 8 * w := by
  have a : w * w ≤ w * (1 / 64) := mul_le_mul_of_nonneg_left h1 h0
  have b : w * w * w ≤ w * (1 / 64) * (1 / 64) := mul_le_mul a h1 h0 (by positivity)
  have c : w * w * w * w ≤ w * (1 / 64) * (1 / 64) * (1 / 64) := mul_le_mul b h1 h0 (by positivity)
  have d : w * ε ≤ w * (1 / 8) := mul_le_mul_of_nonneg_left e1 h0
  have e : w * w * ε ≤ w * (1 / 64) * (1 / 8) := mul_le_mul a e1 e0 (by positivity)
  have key : (1 + w) * (2 * (2 * w + w ^ 2) + ε + w * (1 + (2 * w + w ^ 2 + ε))) + 2 * w =
      ε + 7 * w + 9 * (w * w) + 5 * (w * w * w) + w * w * w * w + 2 * (w * ε) + w * w * ε := by ring
  rw [key]
  linarith

/-- The error of the argument of the square root. -/
theorem windRadicand_error {v ws b c k ε : K} (hv : |v| = 1) (hc : |c - k| ≤ ε) (hc1 : |c| ≤ 1) (hk : |k| ≤ 1)
    (hε : ε ≤ 1 / 8) :
    |windRadicand v ws b c - (ws ^ 2 + b ^ 2 + 2 * v * ws * b * k)| ≤ (ε + 8 * u K) * (ws ^ 2 + b ^ 2) := by
  have hu := u_pos (K := K)
  have hu' := u_tiny (K := K)
  have ε0 : 0 ≤ ε := (abs_nonneg _).trans hc
  obtain ⟨A, hA⟩ : ∃ A, A = ws ^ 2 + b ^ 2 := ⟨_, rfl⟩
  have A0 : 0 ≤ A := by rw [hA]; positivity
  have hsq : ∀ x : K, |fl (x * x) - x ^ 2| ≤ u K * x ^ 2 := by
    intro x
    have := fl_error' (x * x)
    rw [abs_mul_self] at this
    rwa [sq]
  have h2 : |2 * v * ws * b| ≤ A := by
    rw [abs_mul, abs_mul, abs_mul, hv, abs_two, hA, ← sq_abs ws, ← sq_abs b]
    nlinarith [sq_nonneg (|ws| - |b|)]
  -- the sum of the squares
  have e1 : |fl (fl (ws * ws) + fl (b * b)) - A| ≤ (2 * u K + u K ^ 2) * A := by
    have h : |fl (ws * ws) + fl (b * b) - A| ≤ u K * A := by
      have := abs_add_le (fl (ws * ws) - ws ^ 2) (fl (b * b) - b ^ 2)
      have e : fl (ws * ws) + fl (b * b) - A = fl (ws * ws) - ws ^ 2 + (fl (b * b) - b ^ 2) := by rw [hA]; ring
      rw [e, hA]
      linarith [hsq ws, hsq b]
    refine (fl_close h (abs_of_nonneg A0).le).trans (le_of_eq (by ring))
  -- the product
  have e2 : |fl (fl (2 * v * ws) * b) - 2 * v * ws * b| ≤ (2 * u K + u K ^ 2) * A := by
    have h : |fl (2 * v * ws) * b - 2 * v * ws * b| ≤ u K * A := by
      rw [← sub_mul, abs_mul]
      have := mul_le_mul_of_nonneg_right (fl_error' (2 * v * ws)) (abs_nonneg b)
      rw [mul_assoc (u K)] at this
      have h2' := h2
      rw [abs_mul] at h2'
      exact this.trans (mul_le_mul_of_nonneg_left h2' hu.le)
    refine (fl_close h h2).trans (le_of_eq (by ring))
  obtain ⟨q, hq⟩ : ∃ q, q = 2 * u K + u K ^ 2 := ⟨_, rfl⟩
  rw [← hq] at e1 e2
  obtain ⟨P, hP⟩ : ∃ P, P = 2 * v * ws * b := ⟨_, rfl⟩
  rw [← hP] at e2 h2
  have hPk : |P * k| ≤ A := by
    rw [abs_mul]
    exact (mul_le_of_le_one_right (abs_nonneg _) hk).trans h2
  have e3 : |fl (fl (fl (2 * v * ws) * b) * c) - P * k| ≤ (q + ε) * A + u K * (A + (q + ε) * A) := by
    refine fl_close ?_ hPk
    have e : fl (fl (2 * v * ws) * b) * c - P * k = (fl (fl (2 * v * ws) * b) - P) * c + P * (c - k) := by ring
    rw [e]
    refine (abs_add_le _ _).trans ?_
    rw [abs_mul, abs_mul]
    have i1 := mul_le_of_le_one_right (abs_nonneg (fl (fl (2 * v * ws) * b) - P)) hc1
    have i2 := mul_le_mul h2 hc (abs_nonneg _) A0
    linarith
  have e4 : |fl (fl (ws * ws) + fl (b * b)) + fl (fl (fl (2 * v * ws) * b) * c) - (A + P * k)| ≤
      q * A + ((q + ε) * A + u K * (A + (q + ε) * A)) := by
    have e : fl (fl (ws * ws) + fl (b * b)) + fl (fl (fl (2 * v * ws) * b) * c) - (A + P * k) =
        fl (fl (ws * ws) + fl (b * b)) - A + (fl (fl (fl (2 * v * ws) * b) * c) - P * k) := by ring
    rw [e]
    exact (abs_add_le _ _).trans (add_le_add e1 e3)
  have hB : |A + P * k| ≤ 2 * A := by
    refine (abs_add_le _ _).trans ?_
    rw [abs_of_nonneg A0]; linarith
  have e5 := fl_close e4 hB
  have key : q * A + ((q + ε) * A + u K * (A + (q + ε) * A)) +
      u K * (2 * A + (q * A + ((q + ε) * A + u K * (A + (q + ε) * A)))) =
      ((1 + u K) * (2 * q + ε + u K * (1 + (q + ε))) + 2 * u K) * A := by ring
  rw [key] at e5
  rw [← hA, ← hP]
  refine (show |windRadicand v ws b c - (A + P * k)| ≤ _ from e5).trans (mul_le_mul_of_nonneg_right ?_ A0)
  rw [hq]
  exact radicand_arith hu.le hu' ε0 hε

end

/-- What is assumed of the mathematical library: the calculated cosine of an angle in degrees has an error of at most `ε`
and is from -1 to 1, and the calculated arc cosine in degrees has an error of at most `κ`. -/
structure Accurate (cosD acosD : ℝ → ℝ) (ε κ : ℝ) : Prop where
  cos : ∀ x, |cosD x - Real.cos (deg2rad x)| ≤ ε
  cos_le : ∀ x, |cosD x| ≤ 1
  acos : ∀ t, -1 ≤ t → t ≤ 1 → |acosD t - rad2deg (Real.arccos t)| ≤ κ
  small : ε ≤ 1 / 8

theorem value_abs (d : Dir) : |d.value| = 1 := by cases d <;> simp [Dir.value]

/-- The converted speed in exact arithmetic. -/
theorem speed_sq (d : Dir) (ws a b : ℝ) :
    convertSpeed d ws a b ^ 2 = ws ^ 2 + b ^ 2 + 2 * d.value * ws * b * Real.cos a := by
  rw [convertSpeed_sq]
  have h1 := d.value_sq
  have h2 := Real.sin_sq_add_cos_sq a
  linear_combination b ^ 2 * h1 + ws ^ 2 * h2

theorem speed_nonneg (d : Dir) (ws a b : ℝ) : 0 ≤ convertSpeed d ws a b := Real.sqrt_nonneg _

theorem speed_le (d : Dir) {ws : ℝ} (hws : 0 ≤ ws) (a b : ℝ) : convertSpeed d ws a b ≤ ws + |b| := by
  have h := speed_sq d ws a b
  have hc := Real.abs_cos_le_one a
  have h2 : 2 * d.value * ws * b * Real.cos a ≤ 2 * ws * |b| := by
    refine (le_abs_self _).trans ?_
    rw [abs_mul, abs_mul, abs_mul, abs_mul, value_abs, abs_two, abs_of_nonneg hws, mul_one]
    exact mul_le_of_le_one_right (by positivity) hc
  refine (sq_le_sq₀ (speed_nonneg ..) (by positivity)).1 ?_
  rw [h, add_sq, sq_abs]
  linarith

variable {cosD acosD : ℝ → ℝ} {ε κ : ℝ}

theorem squares_le {ws : ℝ} (hws : 0 ≤ ws) (b : ℝ) : ws ^ 2 + b ^ 2 ≤ (ws + |b|) ^ 2 := by
  rw [add_sq, sq_abs]
  have := mul_nonneg hws (abs_nonneg b)
  linarith

theorem radicand_close (h : Accurate cosD acosD ε κ) (d : Dir) {ws : ℝ} (hws : 0 ≤ ws) (wa b : ℝ) :
    |windRadicand d.value ws b (cosD wa) - convertSpeed d ws (deg2rad wa) b ^ 2| ≤ (ε + 8 * u ℝ) * (ws + |b|) ^ 2 := by
  rw [speed_sq]
  refine (windRadicand_error (value_abs d) (h.cos wa) (h.cos_le wa) (Real.abs_cos_le_one _) h.small).trans ?_
  have e0 : 0 ≤ ε := (abs_nonneg _).trans (h.cos 0)
  have := u_pos (K := ℝ)
  exact mul_le_mul_of_nonneg_left (squares_le hws b) (by linarith)

/-- The square roots of two numbers which are close to each other. -/
theorem sqrt_close {r w E : ℝ} (hr : 0 ≤ r) (hw : 0 ≤ w) (h : |r - w ^ 2| ≤ E) :
    |Real.sqrt r - w| * w ≤ E ∧ |Real.sqrt r - w| ^ 2 ≤ E := by
  have hs := Real.sqrt_nonneg r
  have e : |Real.sqrt r - w| * (Real.sqrt r + w) ≤ E := by
    rw [← abs_of_nonneg (add_nonneg hs hw), ← abs_mul]
    have : (Real.sqrt r - w) * (Real.sqrt r + w) = r - w ^ 2 := by
      have := Real.sq_sqrt hr
      linear_combination this
    rwa [this]
  have ha := abs_nonneg (Real.sqrt r - w)
  constructor
  · exact (mul_le_mul_of_nonneg_left (by linarith) ha).trans e
  · refine le_trans ?_ e
    rw [sq]
    refine mul_le_mul_of_nonneg_left ?_ ha
    rw [abs_le]
    constructor <;> linarith

theorem windRow_fst {d : Dir} {ws wa b x : ℝ} (hx : (windRow cosD acosD d ws wa b).1 = some x) :
    0 ≤ windRadicand d.value ws b (cosD wa) ∧ x = fl (Real.sqrt (windRadicand d.value ws b (cosD wa))) := by
  unfold windRow at hx
  simp only at hx
  split at hx
  · simp at hx
  · rename_i hn
    exact ⟨not_lt.1 hn, (Option.some.inj hx).symm⟩

theorem pmod_wa {wa : ℝ} (h0 : 0 ≤ wa) (h1 : wa < 360) : pmod wa 360 = wa := pmod_of_mem h0 h1

theorem convertRow_fst (d : Dir) (ws b : ℝ) {wa : ℝ} (h0 : 0 ≤ wa) (h1 : wa < 360) :
    (convertRow d ws wa b).1 = convertSpeed d ws (deg2rad wa) b := by
  simp only [convertRow, pmod_wa h0 h1]

/-- The arc cosine of numbers which are close to each other. -/
theorem arccos_close {x y : ℝ} (hx : -1 ≤ x) (hx' : x ≤ 1) (hy : -1 ≤ y) (hy' : y ≤ 1) :
    |Real.arccos x - Real.arccos y| ≤ Real.pi * Real.sqrt (|x - y| / 2) := by
  have hp := Real.pi_pos
  set a := Real.arccos x with ha
  set b := Real.arccos y with hb
  have a0 : 0 ≤ a := Real.arccos_nonneg x
  have a1 : a ≤ Real.pi := Real.arccos_le_pi x
  have b0 : 0 ≤ b := Real.arccos_nonneg y
  have b1 : b ≤ Real.pi := Real.arccos_le_pi y
  have hcx : Real.cos a = x := Real.cos_arccos hx hx'
  have hcy : Real.cos b = y := Real.cos_arccos hy hy'
  obtain ⟨k, hk⟩ : ∃ k, k = |a - b| / 2 := ⟨_, rfl⟩
  have k0 : 0 ≤ k := by rw [hk]; positivity
  have k1 : k ≤ Real.pi / 2 := by
    rw [hk]
    have : |a - b| ≤ Real.pi := abs_le.2 ⟨by linarith, by linarith⟩
    linarith
  have hm : Real.sin k ≤ Real.sin ((a + b) / 2) := by
    have hle : k ≤ (a + b) / 2 ∧ k ≤ Real.pi - (a + b) / 2 := by
      rw [hk]
      rcases abs_cases (a - b) with ⟨h, -⟩ | ⟨h, -⟩ <;> rw [h] <;> constructor <;> linarith
    by_cases hh : (a + b) / 2 ≤ Real.pi / 2
    · exact Real.sin_le_sin_of_le_of_le_pi_div_two (by linarith) hh hle.1
    · rw [← Real.sin_pi_sub ((a + b) / 2)]
      exact Real.sin_le_sin_of_le_of_le_pi_div_two (by linarith) (by linarith [not_le.1 hh]) hle.2
  have hs : 2 / Real.pi * k ≤ Real.sin k := Real.mul_le_sin k0 k1
  have hs0 : 0 ≤ 2 / Real.pi * k := by positivity
  have hxy : |x - y| = 2 * Real.sin ((a + b) / 2) * Real.sin k := by
    rw [← hcx, ← hcy, Real.cos_sub_cos, abs_mul, abs_mul, abs_neg, abs_two,
      abs_of_nonneg ((hs0.trans hs).trans hm)]
    congr 1
    rw [hk]
    rcases abs_cases (a - b) with ⟨h, -⟩ | ⟨h, h'⟩
    · rw [h, abs_of_nonneg]
      rw [← h, ← hk]; exact hs0.trans hs
    · rw [h, neg_div, Real.sin_neg, abs_of_nonpos]
      have : 0 ≤ Real.sin (-(a - b) / 2) := by rw [← h, ← hk]; exact hs0.trans hs
      rw [neg_div, Real.sin_neg] at this
      linarith
  have h2 : 2 * (2 / Real.pi * k) ^ 2 ≤ |x - y| := by
    rw [hxy]
    have := mul_le_mul (hs.trans hm) hs hs0 ((hs0.trans hs).trans hm)
    nlinarith
  have e : |a - b| = 2 * k := by rw [hk]; ring
  rw [e]
  refine (sq_le_sq₀ (by positivity) (by positivity)).1 ?_
  rw [mul_pow Real.pi, Real.sq_sqrt (by positivity)]
  have e2 : 2 * (2 / Real.pi * k) ^ 2 = 8 * k ^ 2 / Real.pi ^ 2 := by field_simp; ring
  rw [e2, div_le_iff₀ (by positivity)] at h2
  nlinarith

theorem arccos_deg (t : ℝ) : 0 ≤ rad2deg (Real.arccos t) ∧ rad2deg (Real.arccos t) ≤ 180 := by
  have hp := Real.pi_pos
  unfold rad2deg
  constructor
  · have := Real.arccos_nonneg t
    positivity
  · have := Real.arccos_le_pi t
    rw [div_le_iff₀ hp]
    linarith

/-- `temp` after it was restricted to the interval from -1 to 1. -/
noncomputable def clip (t : ℝ) : ℝ :=
  let t := if t > 1 then 1 else t
  if t < -1 then -1 else t

theorem clip_range (t : ℝ) : -1 ≤ clip t ∧ clip t ≤ 1 := by
  unfold clip
  simp only
  split_ifs <;> constructor <;> linarith

theorem clip_close {t s : ℝ} (h0 : -1 ≤ s) (h1 : s ≤ 1) : |clip t - s| ≤ |t - s| := by
  unfold clip
  simp only
  split_ifs with a b b
  · linarith
  · rw [abs_of_nonneg (by linarith), abs_of_nonneg (by linarith)]; linarith
  · rw [abs_of_nonpos (by linarith), abs_of_nonpos (by linarith)]; linarith
  · exact le_rfl

theorem clip_id {t : ℝ} (h0 : -1 ≤ t) (h1 : t ≤ 1) : clip t = t := by
  unfold clip
  simp only [if_neg (not_lt.2 h1), if_neg (not_lt.2 h0)]

/-- The exact dividend. -/
theorem dividend_le (d : Dir) (ws a b : ℝ) : |ws * Real.cos a + d.value * b| ≤ convertSpeed d ws a b := by
  refine abs_le_of_sq_le_sq ?_ (speed_nonneg ..)
  rw [convertSpeed_sq]
  have := sq_nonneg (ws * Real.sin a)
  linarith

/-- The error of the calculated dividend. -/
theorem dividend_close (h : Accurate cosD acosD ε κ) (d : Dir) {ws : ℝ} (hws : 0 ≤ ws) (wa b : ℝ) :
    |fl (fl (ws * cosD wa) + fl (d.value * b)) - (ws * Real.cos (deg2rad wa) + d.value * b)| ≤
      (ε + 3 * u ℝ) * (ws + |b|) := by
  have hu := u_pos (K := ℝ)
  have hu' := u_tiny (K := ℝ)
  have e0 : 0 ≤ ε := (abs_nonneg _).trans (h.cos 0)
  have hs := h.small
  have hb := abs_nonneg b
  have h1 : |fl (ws * cosD wa) - ws * Real.cos (deg2rad wa)| ≤ ws * ε + u ℝ * (ws + ws * ε) := by
    apply fl_close
    · rw [← mul_sub, abs_mul, abs_of_nonneg hws]
      exact mul_le_mul_of_nonneg_left (h.cos wa) hws
    · rw [abs_mul, abs_of_nonneg hws]
      exact mul_le_of_le_one_right hws (Real.abs_cos_le_one _)
  have h2 : |fl (d.value * b) - d.value * b| ≤ u ℝ * |b| := by
    have := fl_error' (d.value * b)
    rwa [abs_mul d.value, value_abs, one_mul] at this
  have h3 : |fl (ws * cosD wa) + fl (d.value * b) - (ws * Real.cos (deg2rad wa) + d.value * b)| ≤
      (ε * (1 + u ℝ) + u ℝ) * (ws + |b|) := by
    have e : fl (ws * cosD wa) + fl (d.value * b) - (ws * Real.cos (deg2rad wa) + d.value * b) =
        fl (ws * cosD wa) - ws * Real.cos (deg2rad wa) + (fl (d.value * b) - d.value * b) := by ring
    rw [e]
    refine ((abs_add_le _ _).trans (add_le_add h1 h2)).trans ?_
    have : 0 ≤ ε * (1 + u ℝ) * |b| := by positivity
    nlinarith
  have hN : |ws * Real.cos (deg2rad wa) + d.value * b| ≤ ws + |b| :=
    (dividend_le d ws (deg2rad wa) b).trans (speed_le d hws (deg2rad wa) b)
  refine (fl_close h3 hN).trans ?_
  have L0 : 0 ≤ ws + |b| := by positivity
  have e : (ε * (1 + u ℝ) + u ℝ) * (ws + |b|) + u ℝ * (ws + |b| + (ε * (1 + u ℝ) + u ℝ) * (ws + |b|)) =
      ((1 + u ℝ) * (ε * (1 + u ℝ) + u ℝ) + u ℝ) * (ws + |b|) := by ring
  rw [e]
  refine mul_le_mul_of_nonneg_right ?_ L0
  have a1 : ε * u ℝ ≤ 1 / 8 * u ℝ := mul_le_mul_of_nonneg_right hs hu.le
  have a2 : u ℝ * u ℝ ≤ 1 / 64 * u ℝ := mul_le_mul_of_nonneg_right hu' hu.le
  have a3 : ε * (u ℝ * u ℝ) ≤ 1 / 8 * (1 / 64 * u ℝ) := mul_le_mul hs a2 (by positivity) (by norm_num)
  have e : (1 + u ℝ) * (ε * (1 + u ℝ) + u ℝ) + u ℝ = ε + 2 * u ℝ + u ℝ * u ℝ + 2 * (ε * u ℝ) + ε * (u ℝ * u ℝ) := by ring
  rw [e]
  linarith

/-- The square root undoes the square of a double. -/
theorem sqrt_square {x : ℝ} (hx : 0 ≤ x) (hd : fl x = x) : fl (Real.sqrt (fl (x * x))) = x := by
  rcases eq_or_lt_of_le hx with rfl | hx
  · simp [fl_zero]
  obtain ⟨m, k, he, hm1, hm2⟩ := Verif.FloatText.double_form hx hd
  have ht : (0 : ℝ) < 2 ^ k := two_zpow_pos (K := ℝ) k
  have c1 : ((2 ^ 52 : ℤ) : ℝ) ≤ (m : ℝ) := Int.cast_le.2 hm1
  have c2 : (m : ℝ) ≤ ((2 ^ 53 - 1 : ℤ) : ℝ) := Int.cast_le.2 hm2
  push_cast at c1 c2
  have m0 : (0 : ℝ) < m := lt_of_lt_of_le (by norm_num) c1
  obtain ⟨y, hy⟩ : ∃ y, y = fl (x * x) := ⟨_, rfl⟩
  have hu := u_pos (K := ℝ)
  have hu53 : u ℝ * 2 ^ 53 = 1 := by unfold u; norm_num
  have hu' := u_tiny (K := ℝ)
  have hxx : 0 < x * x := mul_pos hx hx
  have y0 : 0 ≤ y := by rw [hy]; exact fl_nonneg hxx.le
  have herr : |y - x ^ 2| ≤ u ℝ * x ^ 2 := by
    have := fl_error' (x * x)
    rw [abs_of_pos hxx] at this
    rwa [hy, sq]
  obtain ⟨s, hs⟩ : ∃ s, s = Real.sqrt y := ⟨_, rfl⟩
  have s0 : 0 ≤ s := by rw [hs]; exact Real.sqrt_nonneg y
  have hss : s ^ 2 = y := by rw [hs]; exact Real.sq_sqrt y0
  -- the root is not much smaller than the number
  have hlow : (1 - u ℝ) * x ≤ s := by
    refine (sq_le_sq₀ (mul_nonneg (by linarith) hx.le) s0).1 ?_
    rw [hss, mul_pow]
    have h1 := (abs_le.1 herr).1
    have h2 : (1 - u ℝ) ^ 2 ≤ 1 - u ℝ := by nlinarith
    have h3 := mul_le_mul_of_nonneg_right h2 (sq_nonneg x)
    linarith
  have hnear : |s - x| < 2 ^ k / 2 := by
    have h1 : |s - x| * (s + x) ≤ u ℝ * x ^ 2 := by
      rw [← abs_of_nonneg (add_nonneg s0 hx.le), ← abs_mul]
      have : (s - x) * (s + x) = y - x ^ 2 := by rw [← hss]; ring
      rwa [this]
    have h2 : |s - x| * ((2 - u ℝ) * x) ≤ u ℝ * x * x := by
      have := mul_le_mul_of_nonneg_left (show (2 - u ℝ) * x ≤ s + x by linarith) (abs_nonneg (s - x))
      have e : u ℝ * x * x = u ℝ * x ^ 2 := by ring
      rw [e]; exact this.trans h1
    have h3 : |s - x| * (2 - u ℝ) ≤ u ℝ * x := by
      rw [← mul_assoc] at h2
      exact le_of_mul_le_mul_right h2 hx
    have h4 : u ℝ * x ≤ (1 - u ℝ) * 2 ^ k := by
      rw [he, ← mul_assoc]
      refine mul_le_mul_of_nonneg_right ?_ ht.le
      have := mul_le_mul_of_nonneg_left c2 hu.le
      linarith
    have h5 : (1 - u ℝ) * 2 ^ k < 2 ^ k / 2 * (2 - u ℝ) := by
      have : 0 < u ℝ * 2 ^ k := mul_pos hu ht
      nlinarith
    exact lt_of_mul_lt_mul_right ((h3.trans h4).trans_lt h5) (by linarith)
  have hge : 2 ^ 52 * 2 ^ k ≤ s := by
    refine (sq_le_sq₀ (by positivity) s0).1 ?_
    rw [hss, hy]
    have hex : fl (((2 : ℝ) ^ 52 * 2 ^ k) ^ 2) = ((2 : ℝ) ^ 52 * 2 ^ k) ^ 2 := by
      have := fl_exact (K := ℝ) (m := 1) (k := 2 * (52 + k)) (by norm_num)
      have e : ((2 : ℝ) ^ 52 * 2 ^ k) ^ 2 = ((1 : ℤ) : ℝ) * 2 ^ (2 * (52 + k)) := by
        rw [Int.cast_one, one_mul, mul_comm (2 : ℤ), zpow_mul, zpow_add₀ (by norm_num)]
        norm_num
      rw [e]; exact this
    rw [← hex]
    apply fl_mono
    rw [sq]
    have : (2 : ℝ) ^ 52 * 2 ^ k ≤ x := by rw [he]; exact mul_le_mul_of_nonneg_right (by norm_num; exact c1) ht.le
    exact mul_le_mul this this (by positivity) hx.le
  have hlt : s < 2 ^ 53 * 2 ^ k := by
    have h1 := (abs_lt.1 hnear).2
    have h2 : x ≤ (2 ^ 53 - 1) * 2 ^ k := by rw [he]; exact mul_le_mul_of_nonneg_right (by norm_num; exact c2) ht.le
    linarith
  rw [← hy, ← hs, he]
  exact Verif.FloatText.fl_of_near hge hlt (by rw [← he]; exact hnear)

theorem fl_value_zero (d : Dir) (ws c : ℝ) : fl (fl (fl (2 * d.value * ws) * 0) * c) = 0 := by
  rw [mul_zero, fl_zero, zero_mul, fl_zero]

/-! ## The theorems -/

/-- **C158.** The calculated wind speed is a number, unless wind and boat nearly cancel: if the square of the exact converted
wind speed is at least `ε + 8 · 2⁻⁵³` times the square of the sum of wind speed and boat speed. -/
theorem C158_defined_partial (h : Accurate cosD acosD ε κ) (d : Dir) {ws wa : ℝ} (b : ℝ) (hws : 0 ≤ ws) (h0 : 0 ≤ wa)
    (h1 : wa < 360) (hw : (ε + 8 * 2 ^ (-53 : ℤ)) * (ws + |b|) ^ 2 ≤ (convertRow d ws wa b).1 ^ 2) :
    ∃ x, (windRow cosD acosD d ws wa b).1 = some x ∧ 0 ≤ x := by
  rw [convertRow_fst d ws b h0 h1] at hw
  have hr := (abs_le.1 (radicand_close h d hws wa b)).1
  have hr0 : ¬ windRadicand d.value ws b (cosD wa) < 0 := by
    rw [not_lt]
    have : (ε + 8 * u ℝ) * (ws + |b|) ^ 2 ≤ convertSpeed d ws (deg2rad wa) b ^ 2 := hw
    linarith
  refine ⟨_, ?_, fl_nonneg (Real.sqrt_nonneg (windRadicand d.value ws b (cosD wa)))⟩
  unfold windRow
  simp only [if_neg hr0]

theorem root_le (h : Accurate cosD acosD ε κ) (d : Dir) {ws : ℝ} (hws : 0 ≤ ws) (wa b : ℝ) :
    Real.sqrt (windRadicand d.value ws b (cosD wa)) ≤ 2 * (ws + |b|) := by
  have hr := (abs_le.1 (radicand_close h d hws wa b)).2
  have hl := speed_le d hws (deg2rad wa) b
  have hn := speed_nonneg d ws (deg2rad wa) b
  have hu := u_tiny (K := ℝ)
  have hs := h.small
  have L0 : 0 ≤ ws + |b| := by positivity
  apply Real.sqrt_le_iff.2 ⟨by positivity, ?_⟩
  have h1 : convertSpeed d ws (deg2rad wa) b ^ 2 ≤ (ws + |b|) ^ 2 := by gcongr
  have h2 : (ε + 8 * u ℝ) * (ws + |b|) ^ 2 ≤ 1 * (ws + |b|) ^ 2 :=
    mul_le_mul_of_nonneg_right (by linarith) (sq_nonneg _)
  have : (2 * (ws + |b|)) ^ 2 = 4 * (ws + |b|) ^ 2 := by ring
  rw [this]
  nlinarith [sq_nonneg (ws + |b|)]

/-- **C158.** The error of the calculated wind speed: at most `ε + 10 · 2⁻⁵³` times the sum of wind speed and boat speed if this
sum is not larger than the converted speed, and otherwise in proportion to their ratio. -/
theorem C158_speed (h : Accurate cosD acosD ε κ) (d : Dir) {ws wa b x : ℝ} (hws : 0 ≤ ws) (h0 : 0 ≤ wa) (h1 : wa < 360)
    (hx : (windRow cosD acosD d ws wa b).1 = some x) :
    |x - (convertRow d ws wa b).1| * (convertRow d ws wa b).1 ≤ (ε + 10 * 2 ^ (-53 : ℤ)) * (ws + |b|) ^ 2 := by
  change _ ≤ (ε + 10 * u ℝ) * _
  rw [convertRow_fst d ws b h0 h1]
  obtain ⟨hr, rfl⟩ := windRow_fst hx
  have hc := (sqrt_close hr (speed_nonneg d ws (deg2rad wa) b) (radicand_close h d hws wa b)).1
  have hroot := root_le h d hws wa b
  have hl := speed_le d hws (deg2rad wa) b
  have hn := speed_nonneg d ws (deg2rad wa) b
  set w := convertSpeed d ws (deg2rad wa) b
  set s := Real.sqrt (windRadicand d.value ws b (cosD wa))
  have hf := fl_error' s
  rw [abs_of_nonneg (Real.sqrt_nonneg _ : 0 ≤ s)] at hf
  have ht : |fl s - w| ≤ |fl s - s| + |s - w| := by
    have := abs_add_le (fl s - s) (s - w)
    rwa [sub_add_sub_cancel] at this
  have hu := u_pos (K := ℝ)
  have h2 : |fl s - s| * w ≤ u ℝ * (2 * (ws + |b|)) * (ws + |b|) :=
    mul_le_mul (hf.trans (mul_le_mul_of_nonneg_left hroot hu.le)) hl hn (by positivity)
  have h3 := mul_le_mul_of_nonneg_right ht hn
  nlinarith

/-- **C158.** In any case the error of a calculated wind speed is at most `√(ε + 8 · 2⁻⁵³) + 2 · 2⁻⁵³` times the sum of wind
speed and boat speed (about half of the digits may be lost). -/
theorem C158_speed_always (h : Accurate cosD acosD ε κ) (d : Dir) {ws wa b x : ℝ} (hws : 0 ≤ ws) (h0 : 0 ≤ wa)
    (h1 : wa < 360) (hx : (windRow cosD acosD d ws wa b).1 = some x) :
    |x - (convertRow d ws wa b).1| ≤ (Real.sqrt (ε + 8 * 2 ^ (-53 : ℤ)) + 2 * 2 ^ (-53 : ℤ)) * (ws + |b|) := by
  change _ ≤ (Real.sqrt (ε + 8 * u ℝ) + 2 * u ℝ) * _
  rw [convertRow_fst d ws b h0 h1]
  obtain ⟨hr, rfl⟩ := windRow_fst hx
  have hc := (sqrt_close hr (speed_nonneg d ws (deg2rad wa) b) (radicand_close h d hws wa b)).2
  have hroot := root_le h d hws wa b
  set w := convertSpeed d ws (deg2rad wa) b
  set s := Real.sqrt (windRadicand d.value ws b (cosD wa))
  have hf := fl_error' s
  rw [abs_of_nonneg (Real.sqrt_nonneg _ : 0 ≤ s)] at hf
  have hu := u_pos (K := ℝ)
  have e0 : 0 ≤ ε := (abs_nonneg _).trans (h.cos 0)
  have hsw : |s - w| ≤ Real.sqrt (ε + 8 * u ℝ) * (ws + |b|) := by
    refine (sq_le_sq₀ (abs_nonneg _) (by positivity)).1 ?_
    rw [mul_pow, Real.sq_sqrt (by positivity)]
    exact hc
  have ht : |fl s - w| ≤ |fl s - s| + |s - w| := by
    have := abs_add_le (fl s - s) (s - w)
    rwa [sub_add_sub_cancel] at this
  have := mul_le_mul_of_nonneg_left hroot hu.le
  linarith

/-- **C158.** The calculated wind angle, if the converted speed `w` is at least `σ` times the sum of wind speed and boat speed
(and `σ` is not extremely small): both speed and angle are numbers, and the error of the angle is at most
`180 √(2 (ε + 11 · 2⁻⁵³)) / σ` degrees, plus the error of the arc cosine and of the subtraction from 360. -/
theorem C158_angle_partial (h : Accurate cosD acosD ε κ) (d : Dir) {ws wa b σ : ℝ} (hws : 0 ≤ ws) (h0 : 0 ≤ wa)
    (h1 : wa < 360) (hL : 0 < ws + |b|) (hσ : 0 < σ) (hw : σ * (ws + |b|) ≤ (convertRow d ws wa b).1)
    (hsmall : 2 * (ε + 11 * 2 ^ (-53 : ℤ)) ≤ σ ^ 2) :
    ∃ x a a', windRow cosD acosD d ws wa b = (some x, some a) ∧ (convertRow d ws wa b).2.1 = some a' ∧
      |x - (convertRow d ws wa b).1| ≤ (ε + 10 * 2 ^ (-53 : ℤ)) / σ * (ws + |b|) ∧
      |a - a'| ≤ 180 * Real.sqrt (2 * (ε + 11 * 2 ^ (-53 : ℤ))) / σ + 2 * κ + 360 * 2 ^ (-53 : ℤ) := by
  change 2 * (ε + 11 * u ℝ) ≤ σ ^ 2 at hsmall
  change ∃ x a a', _ ∧ _ ∧ _ ≤ (ε + 10 * u ℝ) / σ * _ ∧
    _ ≤ 180 * Real.sqrt (2 * (ε + 11 * u ℝ)) / σ + 2 * κ + 360 * u ℝ
  have hu := u_pos (K := ℝ)
  have hu' := u_tiny (K := ℝ)
  have e0 : 0 ≤ ε := (abs_nonneg _).trans (h.cos 0)
  have k0 : 0 ≤ κ := (abs_nonneg _).trans (h.acos 0 (by norm_num) (by norm_num))
  obtain ⟨L, hLd⟩ : ∃ L, L = ws + |b| := ⟨_, rfl⟩
  obtain ⟨w, hwd⟩ : ∃ w, w = (convertRow d ws wa b).1 := ⟨_, rfl⟩
  rw [← hwd, ← hLd] at hw
  rw [← hLd] at hL
  have hwd' : w = convertSpeed d ws (deg2rad wa) b := hwd.trans (convertRow_fst d ws b h0 h1)
  have hwL : w ≤ L := by rw [hwd', hLd]; exact speed_le d hws _ b
  have w0 : 0 < w := (mul_pos hσ hL).trans_le hw
  have hσ1 : σ ≤ 1 := by
    by_contra hc
    have := mul_lt_mul_of_pos_right (not_le.1 hc) hL
    linarith
  have hE : (ε + 10 * u ℝ) * L ^ 2 ≤ w ^ 2 / 2 := by
    have a1 : (σ * L) ^ 2 ≤ w ^ 2 := by gcongr
    have a2 : (ε + 10 * u ℝ) * L ^ 2 ≤ σ ^ 2 / 2 * L ^ 2 := mul_le_mul_of_nonneg_right (by linarith) (sq_nonneg _)
    have : (σ * L) ^ 2 = σ ^ 2 * L ^ 2 := by ring
    linarith
  -- the speed
  obtain ⟨x, hx, -⟩ := C158_defined_partial h d b hws h0 h1 (by
    rw [← hLd, ← hwd]
    change (ε + 8 * u ℝ) * L ^ 2 ≤ w ^ 2
    have : (ε + 8 * u ℝ) * L ^ 2 ≤ (ε + 10 * u ℝ) * L ^ 2 := mul_le_mul_of_nonneg_right (by linarith) (sq_nonneg _)
    have := sq_nonneg w
    linarith)
  have hsp : |x - w| * w ≤ (ε + 10 * u ℝ) * L ^ 2 := by
    have := C158_speed h d hws h0 h1 hx
    rw [← hLd, ← hwd] at this
    exact this
  have hxw : |x - w| ≤ w / 2 := by
    by_contra hc
    have := mul_lt_mul_of_pos_right (not_le.1 hc) w0
    have e : w / 2 * w = w ^ 2 / 2 := by ring
    linarith
  have x0 : w / 2 ≤ x := by linarith [(abs_le.1 hxw).1]
  have xpos : 0 < x := by linarith
  have hxL : |x - w| ≤ (ε + 10 * u ℝ) / σ * L := by
    have e1 : |x - w| * (σ * L) ≤ |x - w| * w := mul_le_mul_of_nonneg_left hw (abs_nonneg _)
    have e2 : |x - w| * (σ * L) ≤ (ε + 10 * u ℝ) / σ * L * (σ * L) := by
      have : (ε + 10 * u ℝ) / σ * L * (σ * L) = (ε + 10 * u ℝ) * L ^ 2 := by field_simp
      rw [this]; exact e1.trans hsp
    exact le_of_mul_le_mul_right e2 (mul_pos hσ hL)
  -- the quotient
  obtain ⟨n, hn⟩ : ∃ n, n = fl (fl (ws * cosD wa) + fl (d.value * b)) := ⟨_, rfl⟩
  obtain ⟨N, hN⟩ : ∃ N, N = ws * Real.cos (deg2rad wa) + d.value * b := ⟨_, rfl⟩
  have hnN : |n - N| ≤ (ε + 3 * u ℝ) * L := by rw [hn, hN, hLd]; exact dividend_close h d hws wa b
  have hNw : |N| ≤ w := by rw [hN, hwd']; exact dividend_le d ws _ b
  obtain ⟨t, ht⟩ : ∃ t, t = N / w := ⟨_, rfl⟩
  have hNt : N = t * w := by rw [ht, div_mul_cancel₀ _ w0.ne']
  have ht1 : |t| ≤ 1 := by rw [ht, abs_div, abs_of_pos w0, div_le_one w0]; exact hNw
  obtain ⟨q, hq⟩ : ∃ q, q = n / x := ⟨_, rfl⟩
  have hnq : n = q * x := by rw [hq, div_mul_cancel₀ _ xpos.ne']
  obtain ⟨D, hD⟩ : ∃ D, D = (4 * ε + 26 * u ℝ) / σ ^ 2 := ⟨_, rfl⟩
  have hσ2 : 0 < σ ^ 2 := by positivity
  have hDσ : D * σ ^ 2 = 4 * ε + 26 * u ℝ := by rw [hD, div_mul_cancel₀ _ hσ2.ne']
  have D0 : 0 ≤ D := by rw [hD]; positivity
  have hqt : |q - t| ≤ D := by
    have e1 : (q - t) * x = (n - N) - t * (x - w) := by rw [hnq, hNt]; ring
    have e2 : |q - t| * x ≤ |n - N| + |x - w| := by
      rw [← abs_of_pos xpos, ← abs_mul, e1, abs_of_pos xpos]
      refine (abs_sub _ _).trans (add_le_add le_rfl ?_)
      rw [abs_mul]
      exact mul_le_of_le_one_left (abs_nonneg _) ht1
    have e3 : |q - t| * (w / 2) ≤ |q - t| * x := mul_le_mul_of_nonneg_left x0 (abs_nonneg _)
    -- multiply by `σ² w`
    have e4 : |n - N| * σ ^ 2 ≤ (ε + 3 * u ℝ) * w := by
      have a1 : (ε + 3 * u ℝ) * L * σ ^ 2 ≤ (ε + 3 * u ℝ) * w := by
        have a2 : L * σ ^ 2 ≤ w := by
          have : L * σ ^ 2 = (σ * L) * σ := by ring
          rw [this]
          exact (mul_le_of_le_one_right (by positivity) hσ1).trans hw
        have := mul_le_mul_of_nonneg_left a2 (show 0 ≤ ε + 3 * u ℝ by positivity)
        rwa [← mul_assoc] at this
      exact (mul_le_mul_of_nonneg_right hnN hσ2.le).trans a1
    have e5 : |x - w| * σ ^ 2 ≤ (ε + 10 * u ℝ) * w := by
      have a1 : |x - w| * σ ^ 2 * w ≤ (ε + 10 * u ℝ) * w * w := by
        have a2 : (σ * L) ^ 2 ≤ w ^ 2 := by gcongr
        have a3 : |x - w| * w * σ ^ 2 ≤ (ε + 10 * u ℝ) * L ^ 2 * σ ^ 2 := mul_le_mul_of_nonneg_right hsp hσ2.le
        have a4 := mul_le_mul_of_nonneg_left a2 (show 0 ≤ ε + 10 * u ℝ by positivity)
        have a5 : (ε + 10 * u ℝ) * L ^ 2 * σ ^ 2 = (ε + 10 * u ℝ) * (σ * L) ^ 2 := by ring
        have a6 : (ε + 10 * u ℝ) * w * w = (ε + 10 * u ℝ) * w ^ 2 := by ring
        have a7 : |x - w| * σ ^ 2 * w = |x - w| * w * σ ^ 2 := by ring
        rw [a6, a7]
        exact a3.trans (a5 ▸ a4)
      exact le_of_mul_le_mul_right a1 w0
    have e6 : |q - t| * σ ^ 2 * (w / 2) ≤ D * σ ^ 2 * (w / 2) := by
      have a1 : |q - t| * (w / 2) * σ ^ 2 ≤ (|n - N| + |x - w|) * σ ^ 2 :=
        mul_le_mul_of_nonneg_right (e3.trans e2) hσ2.le
      have a2 : |q - t| * σ ^ 2 * (w / 2) = |q - t| * (w / 2) * σ ^ 2 := by ring
      rw [a2, hDσ]
      refine a1.trans ?_
      rw [add_mul]
      have : (4 * ε + 26 * u ℝ) * (w / 2) = (ε + 3 * u ℝ) * w + (ε + 10 * u ℝ) * w := by ring
      linarith
    exact le_of_mul_le_mul_right (le_of_mul_le_mul_right e6 (by positivity)) hσ2
  have D2 : D ≤ 2 := by
    rw [hD, div_le_iff₀ hσ2]
    linarith
  obtain ⟨E, hEd⟩ : ∃ E, E = 4 * (ε + 11 * u ℝ) / σ ^ 2 := ⟨_, rfl⟩
  have hfl : |fl q - t| ≤ E := by
    refine (fl_close hqt ht1).trans ?_
    have a1 : u ℝ * (1 + D) ≤ u ℝ * 3 := mul_le_mul_of_nonneg_left (by linarith) hu.le
    have a2 : E = D + 18 * u ℝ / σ ^ 2 := by rw [hEd, hD]; ring
    have a3 : 18 * u ℝ ≤ 18 * u ℝ / σ ^ 2 := by
      rw [le_div_iff₀ hσ2]
      exact mul_le_of_le_one_right (by positivity) (by nlinarith)
    linarith
  obtain ⟨l1, l2⟩ := abs_le.1 ht1
  have hcl := (clip_close (t := fl q) l1 l2).trans hfl
  obtain ⟨c1, c2⟩ := clip_range (fl q)
  have hcos : windCosine d.value x ws b (cosD wa) = some (clip (fl q)) := by
    unfold windCosine
    simp only [if_neg xpos.ne', ← hn, ← hq]
    rfl
  have hang : |acosD (clip (fl q)) - rad2deg (Real.arccos t)| ≤ κ + 180 * Real.sqrt (2 * (ε + 11 * u ℝ)) / σ := by
    have a1 := h.acos _ c1 c2
    have a2 := arccos_close c1 c2 l1 l2
    have a3 : Real.sqrt (|clip (fl q) - t| / 2) ≤ Real.sqrt (2 * (ε + 11 * u ℝ)) / σ := by
      rw [Real.sqrt_le_left (by positivity)]
      rw [div_pow, Real.sq_sqrt (by positivity)]
      have : 2 * (ε + 11 * u ℝ) / σ ^ 2 = E / 2 := by rw [hEd]; ring
      rw [this]
      linarith
    have a4 : |rad2deg (Real.arccos (clip (fl q))) - rad2deg (Real.arccos t)| ≤
        180 * Real.sqrt (2 * (ε + 11 * u ℝ)) / σ := by
      have e : rad2deg (Real.arccos (clip (fl q))) - rad2deg (Real.arccos t) =
          180 / Real.pi * (Real.arccos (clip (fl q)) - Real.arccos t) := by
        unfold rad2deg; ring
      have hp := Real.pi_pos
      rw [e, abs_mul, abs_of_pos (by positivity)]
      have := mul_le_mul_of_nonneg_left (a2.trans (mul_le_mul_of_nonneg_left a3 hp.le))
        (show 0 ≤ 180 / Real.pi by positivity)
      refine this.trans (le_of_eq ?_)
      field_simp
    have := abs_add_le (acosD (clip (fl q)) - rad2deg (Real.arccos (clip (fl q))))
      (rad2deg (Real.arccos (clip (fl q))) - rad2deg (Real.arccos t))
    rw [sub_add_sub_cancel] at this
    linarith
  have hrow : windRow cosD acosD d ws wa b =
      (some x, some (if wa > 180 then fl (360 - acosD (clip (fl q))) else acosD (clip (fl q)))) := by
    obtain ⟨r0, rfl⟩ := windRow_fst hx
    unfold windRow
    simp only [if_neg (not_lt.2 r0), hcos, Option.map_some]
  have hex : (convertRow d ws wa b).2.1 =
      some (if wa > 180 then 360 - rad2deg (Real.arccos t) else rad2deg (Real.arccos t)) := by
    have hc0 : convertSpeed d ws (deg2rad wa) b ≠ 0 := by rw [← hwd']; exact w0.ne'
    have he : (if (if t > 1 then 1 else t) < -1 then -1 else if t > 1 then 1 else t) = t := by
      rw [if_neg (not_lt.2 l2), if_neg (not_lt.2 l1)]
    simp only [convertRow, pmod_wa h0 h1, Wind.convertAngle, ← hwd', ← hN, ← ht, he, decide_eq_true_eq]
    rw [if_neg w0.ne']
  refine ⟨x, _, _, hrow, hex, by rw [← hwd, ← hLd]; exact hxL, ?_⟩
  have hr0 := arccos_deg (clip (fl q))
  split_ifs
  · obtain ⟨m1, m2⟩ := abs_le.1 (h.acos _ c1 c2)
    have hy : |360 - acosD (clip (fl q))| ≤ 360 + κ := abs_le.2 ⟨by linarith, by linarith⟩
    have hf := fl_error' (360 - acosD (clip (fl q)))
    have a1 := mul_le_mul_of_nonneg_left hy hu.le
    have a2 := abs_add_le (fl (360 - acosD (clip (fl q))) - (360 - acosD (clip (fl q))))
      (-(acosD (clip (fl q)) - rad2deg (Real.arccos t)))
    rw [abs_neg] at a2
    have e : fl (360 - acosD (clip (fl q))) - (360 - rad2deg (Real.arccos t)) =
        fl (360 - acosD (clip (fl q))) - (360 - acosD (clip (fl q))) + -(acosD (clip (fl q)) - rad2deg (Real.arccos t)) := by
      ring
    rw [e]
    have a3 : u ℝ * κ ≤ κ := mul_le_of_le_one_left k0 (by linarith)
    linarith
  · linarith

/-- **C158.** If the boat does not move then the wind speed is not changed, by no rounding error at all. -/
theorem C158_rest (d : Dir) {ws : ℝ} (hws : 0 ≤ ws) (hd : fl ws = ws) (wa : ℝ) :
    (windRow cosD acosD d ws wa 0).1 = some ws := by
  have hr : windRadicand d.value ws 0 (cosD wa) = fl (ws * ws) := by
    rw [windRadicand, fl_value_zero, mul_zero, fl_zero, add_zero, add_zero, fl_fl, fl_fl]
  unfold windRow
  simp only
  rw [hr, if_neg (not_lt.2 (fl_nonneg (mul_self_nonneg ws))), sqrt_square hws hd]

/-- **C158.** In a calm the converted wind speed is the speed of the boat, without any rounding error. -/
theorem C158_calm (d : Dir) {b : ℝ} (hd : fl b = b) (wa : ℝ) : (windRow cosD acosD d 0 wa b).1 = some |b| := by
  have hr : windRadicand d.value 0 b (cosD wa) = fl (|b| * |b|) := by
    rw [windRadicand, mul_zero, mul_zero, fl_zero, zero_mul, fl_zero, zero_mul, fl_zero, zero_add, add_zero, fl_fl, fl_fl,
      abs_mul_abs_self]
  have hb : fl |b| = |b| := by
    rcases abs_cases b with ⟨h, -⟩ | ⟨h, -⟩
    · rw [h, hd]
    · rw [h, fl_neg, hd]
  unfold windRow
  simp only
  rw [hr, if_neg (not_lt.2 (fl_nonneg (mul_self_nonneg |b|))), sqrt_square (abs_nonneg b) hb]

theorem fl_double (x : ℝ) : fl (2 * x) = 2 * fl x := by
  have := fl_scale x 1
  rw [zpow_one] at this
  rw [mul_comm, this, mul_comm]

/-- **C158.** An apparent wind from ahead which is exactly as fast as the boat gives the true wind speed 0 and no wind angle,
as in exact arithmetic. -/
theorem C158_cancel (hc : cosD 0 = 1) {b : ℝ} (hd : fl b = b) : windRow cosD acosD .toTrue b 0 b = (some 0, none) := by
  have hr : windRadicand Dir.toTrue.value b b (cosD 0) = 0 := by
    rw [windRadicand, hc, mul_one, fl_fl, ← two_mul, fl_double, fl_fl]
    have e1 : fl (2 * Dir.toTrue.value * b) = -(2 * b) := by
      have : 2 * Dir.toTrue.value * b = -(2 * b) := by simp [Dir.value]
      rw [this, fl_neg, fl_double, hd]
    rw [e1]
    have e2 : -(2 * b) * b = -(2 * (b * b)) := by ring
    rw [e2, fl_neg, fl_double, add_neg_cancel, fl_zero]
  have hn : fl (fl (b * 1) + fl (Dir.toTrue.value * b)) = 0 := by
    have : Dir.toTrue.value * b = -b := by simp [Dir.value]
    rw [this, mul_one, fl_neg, hd, add_neg_cancel, fl_zero]
  unfold windRow
  simp only [hr, lt_irrefl, if_false, Real.sqrt_zero, fl_zero]
  unfold windCosine
  simp only [hc, hn, if_true, Option.map_none]

theorem windRadicand_cast (v ws b c : ℚ) :
    windRadicand (v : ℝ) ws b c = ((windRadicand v ws b c : ℚ) : ℝ) := by
  simp only [windRadicand, ← fl_cast, Rat.cast_add, Rat.cast_mul, Rat.cast_ofNat]

/-- **C158 is false** if wind and boat nearly cancel: an apparent wind of 13.4 knots from ahead and a boat speed of 13.4000001
knots give `nan` for the true wind speed and the true wind angle, because the calculated argument of the square root is
negative. In exact arithmetic the true wind has a speed. -/
theorem C158_nan_false (hc : cosD 0 = 1) :
    windRow cosD acosD .toTrue (fl (134 / 10)) 0 (fl (134000001 / 10000000)) = (none, none) ∧
    (convertRow .toTrue (fl (134 / 10)) 0 (fl (134000001 / 10000000))).1 ≠ 0 := by
  have e1 : fl (134 / 10 : ℝ) = ((7543529375845581 / 2 ^ 49 : ℚ) : ℝ) := by
    have := fl_eq_of_rat (x := 134 / 10) (y := 7543529375845581 / 2 ^ 49) (by decide +kernel)
    rw [← this]; norm_num
  have e2 : fl (134000001 / 10000000 : ℝ) = ((7543529432140576 / 2 ^ 49 : ℚ) : ℝ) := by
    have := fl_eq_of_rat (x := 134000001 / 10000000) (y := 7543529432140576 / 2 ^ 49) (by decide +kernel)
    rw [← this]; norm_num
  rw [e1, e2]
  constructor
  · have hr : windRadicand Dir.toTrue.value ((7543529375845581 / 2 ^ 49 : ℚ) : ℝ) ((7543529432140576 / 2 ^ 49 : ℚ) : ℝ)
        (cosD 0) < 0 := by
      have := windRadicand_cast (-1) (7543529375845581 / 2 ^ 49) (7543529432140576 / 2 ^ 49) 1
      rw [hc, show Dir.toTrue.value = ((-1 : ℚ) : ℝ) by simp [Dir.value], show (1 : ℝ) = ((1 : ℚ) : ℝ) by simp, this]
      exact_mod_cast (by decide +kernel :
        windRadicand (-1) (7543529375845581 / 2 ^ 49) (7543529432140576 / 2 ^ 49) (1 : ℚ) < 0)
    unfold windRow
    simp only [if_pos hr]
  · rw [convertRow_fst _ _ _ le_rfl (by norm_num)]
    intro h
    have h2 := speed_sq .toTrue ((7543529375845581 / 2 ^ 49 : ℚ) : ℝ) (deg2rad 0) ((7543529432140576 / 2 ^ 49 : ℚ) : ℝ)
    rw [h] at h2
    have hz : deg2rad 0 = 0 := by simp [deg2rad]
    rw [hz, Real.cos_zero] at h2
    simp only [Dir.value] at h2
    push_cast at h2
    norm_num at h2

/-- Exact functions are accurate. -/
example : Accurate (fun x => Real.cos (deg2rad x)) (fun t => rad2deg (Real.arccos t)) 0 0 where
  cos x := by simp
  cos_le x := Real.abs_cos_le_one _
  acos t _ _ := by simp
  small := by norm_num

/-- An apparent wind of 10 knots from ahead and a boat speed of 5 knots satisfy the conditions with `σ = 1 / 4`. -/
example : (0 : ℝ) < 10 + |5| ∧ 1 / 4 * (10 + |5|) ≤ (convertRow .toTrue 10 0 5).1 ∧
    2 * ((0 : ℝ) + 11 * 2 ^ (-53 : ℤ)) ≤ (1 / 4) ^ 2 := by
  refine ⟨by norm_num, ?_, by norm_num⟩
  rw [convertRow_fst _ _ _ le_rfl (by norm_num)]
  refine (sq_le_sq₀ (by positivity) (speed_nonneg ..)).1 ?_
  rw [speed_sq]
  have hz : deg2rad 0 = 0 := by simp [deg2rad]
  rw [hz, Real.cos_zero]
  norm_num [Dir.value]

/-- A boat at 5 knots in a true wind of 10 knots from ahead: with exact trigonometric functions the converted speed is defined and
near the exact one; at rest and in calm air it is exact. -/
example : (∃ x, (windRow (fun x => Real.cos (deg2rad x)) (fun t => rad2deg (Real.arccos t)) .toTrue 10 0 5).1 = some x ∧
      |x - (convertRow .toTrue 10 0 5).1| * (convertRow .toTrue 10 0 5).1 ≤ (0 + 10 * 2 ^ (-53 : ℤ)) * (10 + |5|) ^ 2) ∧
    (windRow (fun x => Real.cos (deg2rad x)) (fun t => rad2deg (Real.arccos t)) .toTrue 10 77 0).1 = some 10 ∧
    (windRow (fun x => Real.cos (deg2rad x)) (fun t => rad2deg (Real.arccos t)) .toTrue 0 77 5).1 = some |5| := by
  have hA : Accurate (fun x => Real.cos (deg2rad x)) (fun t => rad2deg (Real.arccos t)) 0 0 :=
    ⟨fun x => by simp, fun x => Real.abs_cos_le_one _, fun t _ _ => by simp, by norm_num⟩
  have h10 : fl (10 : ℝ) = 10 := by simpa using fl_int (K := ℝ) (m := 10) (by norm_num)
  have h5 : fl (5 : ℝ) = 5 := by simpa using fl_int (K := ℝ) (m := 5) (by norm_num)
  refine ⟨?_, C158_rest _ (by norm_num) h10 _, C158_calm _ h5 _⟩
  obtain ⟨x, hx, -⟩ := C158_defined_partial hA .toTrue (ws := 10) (wa := 0) 5 (by norm_num) le_rfl (by norm_num) (by
    rw [convertRow_fst _ _ _ le_rfl (by norm_num), speed_sq]
    have hz : deg2rad 0 = 0 := by simp [deg2rad]
    rw [hz, Real.cos_zero]
    norm_num [Dir.value])
  exact ⟨x, hx, C158_speed hA .toTrue (by norm_num) le_rfl (by norm_num) hx⟩

end Verif.F64
