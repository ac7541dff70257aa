import Verif.Lemmas.Float64
import Verif.Props.Interpolator

/-!
# Property C147: rounding hardly changes interpolated values
-/

namespace Verif.F64

open Verif.Interp

variable {K : Type} [Field K] [LinearOrder K] [IsStrictOrderedRing K] [FloorRing K]

/-- The relative error of an operation. -/
def u (K : Type) [Field K] : K := 2 ^ (-53 : ℤ)

theorem u_pos : 0 < u K := two_zpow_pos _

theorem fl_error' (x : K) : |fl x - x| ≤ u K * |x| := fl_error x

theorem u_small : u K ≤ 1 / 4 := by
  unfold u
  norm_num

theorem sum_abs_perm {l m : List K} (h : l.Perm m) : (l.map abs).sum = (m.map abs).sum := (h.map abs).sum_eq

theorem Summed.length_pos {l : List K} {s : K} (h : Summed l s) : 1 ≤ l.length := by
  induction h with
  | one x => simp
  | add _ _ h1 h2 => simp only [List.length_append]; omega
  | perm hp _ h => rw [← hp.length_eq]; exact h

theorem abs_sum_le (l : List K) : |l.sum| ≤ (l.map abs).sum := by
  induction l with
  | nil => simp
  | cons a l ih =>
    simp only [List.sum_cons, List.map_cons]
    exact (abs_add_le _ _).trans (by linarith)

theorem sum_abs_nonneg (l : List K) : 0 ≤ (l.map abs).sum := (abs_nonneg _).trans (abs_sum_le l)

theorem pow_u_mono {p q : ℕ} (h : p ≤ q) : (1 + u K) ^ p ≤ (1 + u K) ^ q :=
  pow_le_pow_right₀ (by linarith [u_pos (K := K)]) h

/-- The error of a sum, whatever the order of the additions. -/
theorem Summed.error {l : List K} {s : K} (h : Summed l s) :
    |s - l.sum| ≤ ((1 + u K) ^ l.length - 1) * (l.map abs).sum := by
  induction h with
  | one x =>
    simp only [List.sum_cons, List.sum_nil, add_zero, sub_self, abs_zero, List.length_singleton, pow_one, List.map_cons,
      List.map_nil]
    exact mul_nonneg (by linarith [u_pos (K := K)]) (abs_nonneg x)
  | perm hp _ h =>
    rw [← hp.sum_eq, ← hp.length_eq, ← sum_abs_perm hp]
    exact h
  | @add l m a b ha hb h1 h2 =>
    have hu := u_pos (K := K)
    have la := ha.length_pos
    have lb := hb.length_pos
    have key : ∀ {p q : List K} {c : K}, 1 ≤ q.length → |c - p.sum| ≤ ((1 + u K) ^ p.length - 1) * (p.map abs).sum →
        u K * |c| + |c - p.sum| ≤ ((1 + u K) ^ (p.length + q.length) - 1) * (p.map abs).sum := by
      intro p q c hq h
      have hS := sum_abs_nonneg p
      have h3 : |c| ≤ (1 + u K) ^ p.length * (p.map abs).sum := by
        have : |c| ≤ |p.sum| + |c - p.sum| := by
          have := abs_add_le p.sum (c - p.sum)
          rwa [add_sub_cancel] at this
        linarith [abs_sum_le p]
      have h4 : (1 + u K) ^ (p.length + 1) ≤ (1 + u K) ^ (p.length + q.length) := pow_u_mono (by omega)
      have h5 := mul_le_mul_of_nonneg_right h4 hS
      have h6 := mul_le_mul_of_nonneg_left h3 hu.le
      rw [pow_succ] at h5
      linarith
    have e1 := key lb h1
    have e2 := key la h2
    rw [add_comm m.length] at e2
    have e0 := fl_error' (a + b)
    have e3 : u K * |a + b| ≤ u K * |a| + u K * |b| := by
      rw [← mul_add]
      exact mul_le_mul_of_nonneg_left (abs_add_le a b) hu.le
    rw [List.sum_append, List.length_append, List.map_append, List.sum_append, mul_add]
    have e4 : |fl (a + b) - (l.sum + m.sum)| ≤ |fl (a + b) - (a + b)| + |a - l.sum| + |b - m.sum| := by
      have : fl (a + b) - (l.sum + m.sum) = (fl (a + b) - (a + b)) + (a - l.sum) + (b - m.sum) := by ring
      rw [this]
      exact abs_add_three _ _ _
    linarith

/-- The weights are not negative, and the calculated weights have relative errors of at most `η`. -/
def Near (η : K) (w w' : List K) : Prop := List.Forall₂ (fun x y => 0 ≤ x ∧ |y - x| ≤ η * x) w w'

theorem Near.sum {η : K} {w w' : List K} (h : Near η w w') :
    0 ≤ w.sum ∧ |w'.sum - w.sum| ≤ η * w.sum ∧ (w'.map abs).sum ≤ (1 + η) * w.sum := by
  induction h with
  | nil => simp
  | @cons x y w w' h _ ih =>
    obtain ⟨i1, i2, i3⟩ := ih
    simp only [List.sum_cons, List.map_cons]
    refine ⟨by linarith, ?_, ?_⟩
    · have : y + w'.sum - (x + w.sum) = (y - x) + (w'.sum - w.sum) := by ring
      rw [this]
      exact (abs_add_le _ _).trans (by linarith [h.2])
    · have : |y| ≤ |x| + |y - x| := by
        have := abs_add_le x (y - x)
        rwa [add_sub_cancel] at this
      rw [abs_of_nonneg h.1] at this
      linarith [h.2]

theorem Near.products {η B : K} {w w' : List K} (h : Near η w w') :
    ∀ {z : List K}, z.length = w.length → (∀ x ∈ z, |x| ≤ B) →
      |(List.zipWith (fun a b => fl (a * b)) z w').sum - dot z w| ≤ B * (((1 + u K) * (1 + η) - 1) * w.sum) ∧
      ((List.zipWith (fun a b => fl (a * b)) z w').map abs).sum ≤ B * ((1 + u K) * (1 + η) * w.sum) ∧
      |dot z w| ≤ B * w.sum := by
  induction h with
  | nil =>
    intro z hz _
    rw [List.length_nil, List.length_eq_zero_iff] at hz
    subst hz
    simp [dot]
  | @cons x y w w' h _ ih =>
    intro z hz hB
    obtain ⟨a, z, rfl⟩ : ∃ a z', z = a :: z' := List.exists_cons_of_length_eq_add_one (by simpa using hz)
    obtain ⟨i1, i2, i3⟩ := ih (z := z) (by simpa using hz) fun x hx => hB x (List.mem_cons_of_mem _ hx)
    have ha := hB a List.mem_cons_self
    have hB0 : 0 ≤ B := (abs_nonneg a).trans ha
    have hu := u_pos (K := K)
    have hy : |y| ≤ (1 + η) * x := by
      have : |y| ≤ |x| + |y - x| := by
        have := abs_add_le x (y - x)
        rwa [add_sub_cancel] at this
      rw [abs_of_nonneg h.1] at this
      linarith [h.2]
    have hay : |a * y| ≤ B * ((1 + η) * x) := by
      rw [abs_mul]
      exact mul_le_mul ha hy (abs_nonneg y) hB0
    have hf := fl_error' (a * y)
    have hfu : |fl (a * y) - a * y| ≤ u K * (B * ((1 + η) * x)) := hf.trans (mul_le_mul_of_nonneg_left hay hu.le)
    have hd : |a * y - a * x| ≤ B * (η * x) := by
      rw [← mul_sub, abs_mul]
      exact mul_le_mul ha h.2 (abs_nonneg _) hB0
    have hax : |a * x| ≤ B * x := by
      rw [abs_mul, abs_of_nonneg h.1]
      exact mul_le_mul_of_nonneg_right ha h.1
    have hdot : dot (a :: z) (x :: w) = a * x + dot z w := by simp [dot]
    simp only [List.zipWith_cons_cons, List.sum_cons, List.map_cons, hdot]
    refine ⟨?_, ?_, ?_⟩
    · have : fl (a * y) + (List.zipWith (fun a b => fl (a * b)) z w').sum - (a * x + dot z w) =
          (fl (a * y) - a * y) + (a * y - a * x) + ((List.zipWith (fun a b => fl (a * b)) z w').sum - dot z w) := by ring
      rw [this]
      refine (abs_add_three _ _ _).trans ?_
      have : B * (((1 + u K) * (1 + η) - 1) * (x + w.sum)) = u K * (B * ((1 + η) * x)) + B * (η * x) +
          B * (((1 + u K) * (1 + η) - 1) * w.sum) := by ring
      rw [this]
      linarith
    · have h1 : |fl (a * y)| ≤ |a * y| + |fl (a * y) - a * y| := by
        have := abs_add_le (a * y) (fl (a * y) - a * y)
        rwa [add_sub_cancel] at this
      have : B * ((1 + u K) * (1 + η) * (x + w.sum)) = B * ((1 + η) * x) + u K * (B * ((1 + η) * x)) +
          B * ((1 + u K) * (1 + η) * w.sum) := by ring
      rw [this]
      linarith
    · refine (abs_add_le _ _).trans ?_
      rw [mul_add]
      linarith

theorem pow_u_le {n : ℕ} (h : 2 * (n : K) * u K ≤ 1) : (1 + u K) ^ n ≤ 1 + 2 * n * u K := by
  induction n with
  | zero => simp
  | succ n ih =>
    have hu := u_pos (K := K)
    push_cast at h ⊢
    have hn : 2 * (n : K) * u K ≤ 1 := by nlinarith
    rw [pow_succ]
    have := mul_le_mul_of_nonneg_right (ih hn) (by linarith : 0 ≤ 1 + u K)
    have h2 := mul_le_mul_of_nonneg_right hn hu.le
    nlinarith

/-- **C147.** The weighted mean calculated with doubles, in any order of the additions and with weights which have relative
errors of at most `η`, differs from the exact weighted mean with the exact weights by at most `12 ((n + 1) / 2^53 + η)` times
the largest absolute value, for up to `2^50 - 1` values. -/
theorem C147_average {z w w' : List K} {η B x y : K} (hz : z.length = w.length) (hB : ∀ a ∈ z, |a| ≤ B) (hw : Near η w w')
    (hη0 : 0 ≤ η) (hη : η ≤ 1 / 8) (hn : w.length + 1 ≤ 2 ^ 50) (hx : average z w = .ok x) (hy : Averaged z w' y) :
    |y - x| ≤ 12 * ((w.length + 1) * u K + η) * B := by
  have hu := u_pos (K := K)
  have hu4 := u_small (K := K)
  obtain ⟨n, d, sn, sd, hd0, rfl⟩ := hy
  have hlen : w'.length = w.length := hw.length_eq.symm
  have hzl : (List.zipWith (fun a b => fl (a * b)) z w').length = w.length := by simp [hz, hlen]
  have hne : 1 ≤ w.length := by have := sd.length_pos; omega
  have hB0 : 0 ≤ B := by
    obtain ⟨a, z', rfl⟩ : ∃ a z', z = a :: z' := List.exists_cons_of_length_pos (by omega)
    exact (abs_nonneg a).trans (hB a List.mem_cons_self)
  obtain ⟨w0, w1, w2⟩ := hw.sum
  obtain ⟨p1, p2, p3⟩ := hw.products hz hB
  have en := sn.error
  have ed := sd.error
  rw [hzl] at en
  rw [hlen] at ed
  have hW : w.sum ≠ 0 := by
    intro h
    simp [average, h] at hx
  have hWp : 0 < w.sum := lt_of_le_of_ne w0 (Ne.symm hW)
  have hx' : x = dot z w / w.sum := by
    simp only [average, if_neg hW, Except.ok.injEq] at hx
    exact hx.symm
  set W := w.sum with hWdef
  set N := dot z w with hN
  set P := (1 + u K) ^ w.length with hP
  have hP1 : 1 ≤ P := one_le_pow₀ (by linarith)
  set E := P * ((1 + u K) * (1 + η)) - 1 with hE
  have hEle : E ≤ 2 * ((w.length + 1) * u K + η) ∧ E ≤ 1 / 2 ∧ u K ≤ E := by
    have hnu : ((w.length + 1 : ℕ) : K) * u K ≤ 1 / 8 := by
      have : ((w.length + 1 : ℕ) : K) ≤ ((2 ^ 50 : ℕ) : K) := by exact_mod_cast hn
      calc ((w.length + 1 : ℕ) : K) * u K ≤ ((2 ^ 50 : ℕ) : K) * u K := mul_le_mul_of_nonneg_right this hu.le
        _ = 1 / 8 := by unfold u; norm_num
    have h1 := pow_u_le (K := K) (n := w.length + 1) (by rw [mul_assoc]; linarith)
    rw [pow_succ] at h1
    push_cast at h1 hnu
    have h2 : E ≤ (1 + 2 * (w.length + 1) * u K) * (1 + η) - 1 := by
      have := mul_le_mul_of_nonneg_right h1 (by linarith : 0 ≤ 1 + η)
      rw [hE]
      linarith
    have h3 : 2 * (w.length + 1) * u K * η ≤ 1 / 4 * η :=
      mul_le_mul_of_nonneg_right (by rw [mul_assoc]; linarith) hη0
    refine ⟨by nlinarith, by nlinarith, ?_⟩
    have h4 : 1 * ((1 + u K) * (1 + η)) ≤ P * ((1 + u K) * (1 + η)) :=
      mul_le_mul_of_nonneg_right hP1 (by positivity)
    have h5 : 0 ≤ u K * η := mul_nonneg hu.le hη0
    rw [hE]
    nlinarith
  obtain ⟨hE1, hE2, hE3⟩ := hEle
  have hE0 : 0 ≤ E := hu.le.trans hE3
  -- the numerator
  have hnum : |n - N| ≤ B * (E * W) := by
    set S := (List.zipWith (fun a b => fl (a * b)) z w').sum
    have h1 := mul_le_mul_of_nonneg_left p2 (by linarith : 0 ≤ P - 1)
    have h2 : |n - N| ≤ |n - S| + |S - N| := by
      have := abs_add_le (n - S) (S - N)
      rwa [sub_add_sub_cancel] at this
    have h3 : B * (E * W) = (P - 1) * (B * ((1 + u K) * (1 + η) * W)) + B * (((1 + u K) * (1 + η) - 1) * W) := by
      rw [hE]; ring
    rw [h3]
    linarith
  -- the denominator
  have hden : |d - W| ≤ E * W := by
    have h1 := mul_le_mul_of_nonneg_left w2 (by linarith : 0 ≤ P - 1)
    have h2 : |d - W| ≤ |d - w'.sum| + |w'.sum - W| := by
      have := abs_add_le (d - w'.sum) (w'.sum - W)
      rwa [sub_add_sub_cancel] at this
    have h3 : (P - 1) * ((1 + η) * W) + η * W ≤ E * W := by
      have h4 : P * (1 + η) * 1 ≤ P * (1 + η) * (1 + u K) :=
        mul_le_mul_of_nonneg_left (by linarith) (by positivity)
      have h5 : ((P - 1) * (1 + η) + η) * W ≤ E * W := by
        refine mul_le_mul_of_nonneg_right ?_ w0
        rw [hE]
        nlinarith
      linarith
    linarith
  have hd1 : 1 / 2 * W ≤ d := by
    have := (abs_le.1 hden).1
    have h2 := mul_le_mul_of_nonneg_right hE2 w0
    linarith
  have hdp : 0 < d := by linarith
  -- the quotient
  have hq : |n / d - x| ≤ 4 * E * B := by
    rw [hx', div_sub_div _ _ hdp.ne' hW, abs_div, abs_of_pos (mul_pos hdp hWp), div_le_iff₀ (mul_pos hdp hWp)]
    have h1 : n * W - d * N = (n - N) * W + N * (W - d) := by ring
    rw [h1]
    have h2 : |(n - N) * W + N * (W - d)| ≤ |n - N| * W + |N| * |W - d| := by
      refine (abs_add_le _ _).trans (le_of_eq ?_)
      rw [abs_mul, abs_mul, abs_of_pos hWp]
    have h3 : |n - N| * W ≤ B * (E * W) * W := mul_le_mul_of_nonneg_right hnum w0
    have h4 : |N| * |W - d| ≤ B * W * (E * W) := by
      rw [abs_sub_comm W d]
      exact mul_le_mul p3 hden (abs_nonneg _) (mul_nonneg hB0 w0)
    have h5 : 4 * E * B * (1 / 2 * W * W) ≤ 4 * E * B * (d * W) :=
      mul_le_mul_of_nonneg_left (mul_le_mul_of_nonneg_right hd1 w0) (by positivity)
    have h6 : B * (E * W) * W + B * W * (E * W) = 4 * E * B * (1 / 2 * W * W) := by ring
    exact h2.trans ((add_le_add h3 h4).trans (h6.le.trans h5))
  have hxB : |x| ≤ B := by
    rw [hx', abs_div, abs_of_pos hWp, div_le_iff₀ hWp]
    exact p3
  have hqB : |n / d| ≤ B + 4 * E * B := by
    have := abs_add_le x (n / d - x)
    rw [add_sub_cancel] at this
    linarith
  have hf := fl_error' (n / d)
  have hf' : |fl (n / d) - n / d| ≤ u K * (B + 4 * E * B) := hf.trans (mul_le_mul_of_nonneg_left hqB hu.le)
  have htot : |fl (n / d) - x| ≤ |fl (n / d) - n / d| + |n / d - x| := by
    have := abs_add_le (fl (n / d) - n / d) (n / d - x)
    rwa [sub_add_sub_cancel] at this
  have hEB : 0 ≤ E * B := mul_nonneg hE0 hB0
  have h6 : u K * (B + 4 * E * B) ≤ E * B + E * B := by
    have a1 : u K * B ≤ E * B := mul_le_mul_of_nonneg_right hE3 hB0
    have a2 : u K * (4 * (E * B)) ≤ 1 / 4 * (4 * (E * B)) := mul_le_mul_of_nonneg_right hu4 (by linarith)
    linarith
  have h7 : 6 * (E * B) ≤ 6 * (2 * ((w.length + 1) * u K + η) * B) := by
    have := mul_le_mul_of_nonneg_right hE1 hB0
    linarith
  linarith

/-- Rounded numbers are doubles. -/
theorem fl_fl (x : K) : fl (fl x) = fl x := by
  by_cases hx : x = 0
  · simp [hx, fl_zero]
  obtain ⟨h1, h2⟩ := log_bounds hx
  have hb : |pyRound (x / 2 ^ (Int.log 2 |x| - 52))| ≤ 2 ^ 53 := by
    have hd : |x / 2 ^ (Int.log 2 |x| - 52)| < 2 ^ (53 : ℤ) := by
      rwa [abs_div, abs_of_pos (two_zpow_pos (K := K) _)]
    have h3 := abs_lt.1 hd
    have h4 : pyRound (x / 2 ^ (Int.log 2 |x| - 52)) ≤ pyRound (((2 ^ 53 : ℤ) : K)) :=
      pyRound_mono (h3.2.le.trans (by norm_num))
    have h5 : pyRound ((-(2 ^ 53) : ℤ) : K) ≤ pyRound (x / 2 ^ (Int.log 2 |x| - 52)) :=
      pyRound_mono (le_trans (by norm_num) h3.1.le)
    rw [pyRound_int] at h4 h5
    exact abs_le.2 ⟨h5, h4⟩
  have hfl : fl x = (pyRound (x / 2 ^ (Int.log 2 |x| - 52)) : K) * 2 ^ (Int.log 2 |x| - 52) := by
    simp only [fl, if_neg hx]
  rw [hfl]
  generalize pyRound (x / 2 ^ (Int.log 2 |x| - 52)) = m at hb
  generalize Int.log 2 |x| - 52 = e
  rcases hb.lt_or_eq with hb | hb
  · exact fl_exact hb
  · have h2 : ∀ (s : ℤ), |s| < 2 ^ 53 → fl ((s * 2 ^ 53 : ℤ) * 2 ^ e : K) = (s * 2 ^ 53 : ℤ) * 2 ^ e := by
      intro s hs
      have h3 : ((s * 2 ^ 53 : ℤ) * 2 ^ e : K) = s * 2 ^ (53 + e) := by
        rw [zpow_add₀ (by norm_num)]
        push_cast
        rw [mul_assoc]
        norm_num
      rw [h3]
      exact fl_exact hs
    rcases (abs_eq (by norm_num)).1 hb with rfl | rfl
    · exact h2 1 (by norm_num)
    · have := h2 (-1) (by norm_num)
      rwa [show (-1 * 2 ^ 53 : ℤ) = -2 ^ 53 by norm_num] at this

/-- **C147.** The value returned by `ArithmeticMeanInterpolator` (with the default factor 1) at a wind which is not among the
data: it is rounded once more in the product with the factor. If the calculated weights have relative errors of at most `η` and the
speeds are at most `B` in absolute value then the error is at most `12 ((n + 1) / 2^53 + η) B`. -/
theorem C147_interpolator {norm : K × K → K} (hn : IsDist norm) {distr : K → K → K} (hd : ∀ d w, 0 < distr d w)
    {pts : List (Pt K)} (hp : pts ≠ []) {weights : List K} (hw : weights.length = pts.length) {g : K × K}
    (h : NotStored pts g) {w' : List K} {η B : K}
    (hw' : Near η (List.zipWith distr (dists norm pts g) weights) w') (hB : ∀ p ∈ pts, |p.2| ≤ B) (hη0 : 0 ≤ η)
    (hη : η ≤ 1 / 8) (hlen : pts.length + 1 ≤ 2 ^ 50) {y : K} (hy : Averaged (pts.map Prod.snd) w' y) :
    ∃ x, arith norm 1 distr pts weights g = .ok x ∧ InRange pts x ∧
      |fl (1 * y) - x| ≤ 12 * ((pts.length + 1) * u K + η) * B := by
  obtain ⟨x, hx, hr⟩ := C21_in_range hn hd hp hw h
  refine ⟨x, hx, hr, ?_⟩
  have hl : (List.zipWith distr (dists norm pts g) weights).length = pts.length := by simp [dists, hw]
  have havg : average (pts.map Prod.snd) (List.zipWith distr (dists norm pts g) weights) = .ok x := by
    have hf := firstAtZero_notStored hn h
    simp only [arith, hf] at hx
    revert hx
    cases average (pts.map Prod.snd) (List.zipWith distr (dists norm pts g) weights) with
    | error e => intro hx; cases hx
    | ok a => intro hx; simpa using hx
  have := C147_average (by rw [hl, List.length_map]) (fun a ha => by
    obtain ⟨p, hp, rfl⟩ := List.mem_map.1 ha
    exact hB p hp) hw' hη0 hη (by rw [hl]; exact hlen) havg hy
  rw [hl] at this
  have hyf : fl (1 * y) = y := by
    obtain ⟨n, d, -, -, -, rfl⟩ := hy
    rw [one_mul, fl_fl]
  rw [hyf]
  exact this

/-- **C147.** So interpolated speeds do not leave the range of the data by more than that. -/
theorem C147_range {norm : K × K → K} (hn : IsDist norm) {distr : K → K → K} (hd : ∀ d w, 0 < distr d w)
    {pts : List (Pt K)} (hp : pts ≠ []) {weights : List K} (hw : weights.length = pts.length) {g : K × K}
    (h : NotStored pts g) {w' : List K} {η B : K}
    (hw' : Near η (List.zipWith distr (dists norm pts g) weights) w') (hB : ∀ p ∈ pts, |p.2| ≤ B) (hη0 : 0 ≤ η)
    (hη : η ≤ 1 / 8) (hlen : pts.length + 1 ≤ 2 ^ 50) {y : K} (hy : Averaged (pts.map Prod.snd) w' y) {lo hi : K}
    (hb : ∀ p ∈ pts, lo ≤ p.2 ∧ p.2 ≤ hi) :
    lo - 12 * ((pts.length + 1) * u K + η) * B ≤ fl (1 * y) ∧ fl (1 * y) ≤ hi + 12 * ((pts.length + 1) * u K + η) * B := by
  obtain ⟨x, -, hr, he⟩ := C147_interpolator hn hd hp hw h hw' hB hη0 hη hlen hy
  have h1 := hr lo hi hb
  have h2 := abs_le.1 he
  exact ⟨by linarith [h1.1, h2.1], by linarith [h1.2, h2.2]⟩

/-- The range itself can be left, so some tolerance is needed: the mean of 0.1 and 0.1, both with the weight 0.1, is
`0.10000000000000002`. -/
theorem C147_outside : ∃ x : ℚ, Averaged [fl (1 / 10), fl (1 / 10)] [fl (1 / 10), fl (1 / 10)] x ∧ fl (1 / 10) < x := by
  refine ⟨_, ⟨_, _, Summed.add (Summed.one _) (Summed.one _), Summed.add (Summed.one _) (Summed.one _), ?_, rfl⟩, ?_⟩ <;>
    decide +kernel

/-- The hypotheses can be met: two speeds with equal weights. -/
example : ∃ y : ℚ, Averaged [3, 6] [1, 1] y ∧ |y - 9 / 2| ≤ 12 * (((2 : Nat) + 1) * u ℚ + 0) * 6 := by
  have hs : Summed [(3 : ℚ), 6] 9 := by
    have := Summed.add (Summed.one (3 : ℚ)) (Summed.one 6)
    rwa [show fl ((3 : ℚ) + 6) = 9 by decide +kernel] at this
  have hw : Summed [(1 : ℚ), 1] 2 := by
    have := Summed.add (Summed.one (1 : ℚ)) (Summed.one 1)
    rwa [show fl ((1 : ℚ) + 1) = 2 by decide +kernel] at this
  have hy : Averaged [(3 : ℚ), 6] [1, 1] (fl (9 / 2)) := by
    refine ⟨9, 2, ?_, hw, by norm_num, rfl⟩
    have e : List.zipWith (fun a b => fl (a * b)) [(3 : ℚ), 6] [1, 1] = [3, 6] := by decide +kernel
    rwa [e]
  exact ⟨_, hy, C147_average (z := [3, 6]) (w := [1, 1]) (w' := [1, 1]) (η := 0) rfl (by simp; norm_num) (by simp [Near]) le_rfl
    (by norm_num) (by norm_num) (by decide +kernel) hy⟩

end Verif.F64
