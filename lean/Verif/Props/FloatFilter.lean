import Verif.Lemmas.Filter
import Verif.Model.FloatWeigher
import Verif.Props.Filter
import Verif.Props.FloatIsochrone
import Verif.Props.FloatWeather

/-!
# Property C155: the quantile filter in double precision
-/

set_option linter.unusedSectionVars false

namespace Verif.F64

open Verif.Filter (srt length_srt srt_mono discarded)

variable {K : Type} [Field K] [LinearOrder K] [IsStrictOrderedRing K] [FloorRing K]

/-- Multiplying by a power of two is exact. -/
theorem fl_scale (x : K) (k : ℤ) : fl (x * 2 ^ k) = fl x * 2 ^ k := by
  by_cases hx : x = 0
  · simp [hx, fl_zero]
  have hp := two_zpow_pos (K := K) k
  have hx' : x * 2 ^ k ≠ 0 := mul_ne_zero hx hp.ne'
  have hl : Int.log 2 |x * 2 ^ k| = Int.log 2 |x| + k := by
    rw [abs_mul, abs_of_pos hp]
    have a0 := abs_pos.2 hx
    have a0' : 0 < |x| * 2 ^ k := mul_pos a0 hp
    have h1 := Int.zpow_log_le_self (b := 2) (by norm_num) a0
    have h2 := Int.lt_zpow_succ_log_self (b := 2) (by norm_num) |x|
    push_cast at h1 h2
    refine le_antisymm ?_ ?_
    · have : |x| * 2 ^ k < ((2 : ℕ) : K) ^ (Int.log 2 |x| + 1 + k) := by
        push_cast
        rw [zpow_add₀ (by norm_num)]
        exact mul_lt_mul_of_pos_right h2 hp
      have := (Int.lt_zpow_iff_log_lt (b := 2) (by norm_num) a0').1 this
      omega
    · refine (Int.zpow_le_iff_le_log (b := 2) (by norm_num) a0').1 ?_
      push_cast
      rw [zpow_add₀ (by norm_num)]
      exact mul_le_mul_of_nonneg_right h1 hp.le
  simp only [fl, if_neg hx, if_neg hx', hl]
  rw [show Int.log 2 |x| + k - 52 = (Int.log 2 |x| - 52) + k by ring, zpow_add₀ (by norm_num : (2 : K) ≠ 0)]
  rw [mul_div_mul_right _ _ hp.ne']
  ring

theorem fl_halved (x : K) : fl (fl x / 2) = fl x / 2 := by
  have := fl_scale (fl x) (-1)
  rw [fl_fl] at this
  have e : fl x / 2 = fl x * 2 ^ (-1 : ℤ) := by
    rw [zpow_neg_one]
    ring
  rw [e, this]

theorem fl_one_half : fl (1 / 2 : K) = 1 / 2 := by
  have := fl_halved (1 : K)
  rwa [fl_one] at this

/-- Half of a difference is not larger than the difference, even after rounding. -/
theorem half_diff {a b t : K} (hab : a ≤ b) (ht : t ≤ 1 / 2) : fl (fl (b - a) * t) ≤ b - a := by
  have d0 : 0 ≤ fl (b - a) := fl_nonneg (by linarith)
  have h1 : fl (fl (b - a) * t) ≤ fl (fl (b - a) / 2) :=
    fl_mono (by have := mul_le_mul_of_nonneg_left ht d0; linarith)
  rw [fl_halved] at h1
  have h2 := fl_upper (K := K) (x := b - a) (by linarith)
  have hu := u_small (K := K)
  have h3 : u K * (b - a) ≤ 1 / 4 * (b - a) := mul_le_mul_of_nonneg_right hu (by linarith)
  linarith

/-- Interpolated values lie between the two values. -/
theorem lerp_mem {a b t : K} (ha : fl a = a) (hb : fl b = b) (hab : a ≤ b) (h0 : 0 ≤ t) (h1 : t ≤ 1) :
    a ≤ lerp a b t ∧ lerp a b t ≤ b := by
  have d0 : 0 ≤ fl (b - a) := fl_nonneg (by linarith)
  unfold lerp
  split
  · rename_i h
    have s0 : 0 ≤ fl (1 - t) := fl_nonneg (by linarith)
    have s1 : fl (1 - t) ≤ 1 / 2 := by
      have := fl_mono (x := 1 - t) (y := 1 / 2) (by linarith)
      rwa [fl_one_half] at this
    have e1 := half_diff hab s1
    have e2 : 0 ≤ fl (fl (b - a) * fl (1 - t)) := fl_nonneg (mul_nonneg d0 s0)
    constructor
    · conv_lhs => rw [← ha]
      exact fl_mono (by linarith)
    · conv_rhs => rw [← hb]
      exact fl_mono (by linarith)
  · rename_i h
    have e1 := half_diff hab (not_le.1 h).le
    have e2 : 0 ≤ fl (fl (b - a) * t) := fl_nonneg (mul_nonneg d0 h0)
    constructor
    · conv_lhs => rw [← ha]
      exact fl_mono (by linarith)
    · conv_rhs => rw [← hb]
      exact fl_mono (by linarith)

theorem lerp_zero {a b : K} (ha : fl a = a) : lerp a b 0 = a := by
  unfold lerp
  rw [if_neg (by norm_num), mul_zero, fl_zero, add_zero, ha]

/-- Interpolated values are different from the smaller value unless the values are very close. -/
theorem lerp_gt {a b t : K} (h0 : 0 ≤ a) (hab : a < b) (ht : 1 / 4 ≤ t) (hg : 8 * u K * b ≤ b - a) :
    a < lerp a b t := by
  have hu0 := u_pos (K := K)
  have hu := u_tiny (K := K)
  have hb0 : 0 < b := lt_of_le_of_lt h0 hab
  have d0 : 0 ≤ fl (b - a) := fl_nonneg (by linarith)
  have hub : 0 < u K * b := mul_pos hu0 hb0
  have dl := fl_lower (K := K) (x := b - a) (by linarith)
  have q1 : u K * (b - a) ≤ 1 / 64 * (b - a) := mul_le_mul_of_nonneg_right hu (by linarith)
  unfold lerp
  split
  · rename_i h
    have s1 : fl (1 - t) ≤ 1 / 2 := by
      have := fl_mono (x := 1 - t) (y := 1 / 2) (by linarith)
      rwa [fl_one_half] at this
    have h1 : fl (fl (b - a) * fl (1 - t)) ≤ fl (fl (b - a) / 2) :=
      fl_mono (by have := mul_le_mul_of_nonneg_left s1 d0; linarith)
    rw [fl_halved] at h1
    have h2 := fl_upper (K := K) (x := b - a) (by linarith)
    have hx : a + (b - a) * (1 / 4) ≤ b - fl (fl (b - a) * fl (1 - t)) := by linarith
    have hm := fl_mono hx
    have hl := fl_lower (K := K) (x := a + (b - a) * (1 / 4)) (by linarith)
    have : u K * (a + (b - a) * (1 / 4)) ≤ u K * b := mul_le_mul_of_nonneg_left (by linarith) hu0.le
    linarith
  · have h1 : fl (b - a) * (1 / 4) ≤ fl (b - a) * t := mul_le_mul_of_nonneg_left ht d0
    have hl1 := fl_lower (K := K) (x := fl (b - a) * t) (by linarith)
    have q2 : u K * (fl (b - a) * t) ≤ 1 / 64 * (fl (b - a) * t) := mul_le_mul_of_nonneg_right hu (by linarith)
    have hx : a + (b - a) * (1 / 5) ≤ a + fl (fl (b - a) * t) := by linarith
    have hm := fl_mono hx
    have hl := fl_lower (K := K) (x := a + (b - a) * (1 / 5)) (by linarith)
    have : u K * (a + (b - a) * (1 / 5)) ≤ u K * b := mul_le_mul_of_nonneg_left (by linarith) hu0.le
    linarith

/-- The rounded position of the percentile. -/
def rpos (w : List K) (p : K) : K := fl (((w.length : K) - 1) * fl (p / 100))

theorem rpos_nonneg {w : List K} (hw : w ≠ []) {p : K} (h0 : 0 ≤ p) : 0 ≤ rpos w p := by
  have h1 : (1 : K) ≤ w.length := by exact_mod_cast List.length_pos_iff.2 hw
  exact fl_nonneg (mul_nonneg (by linarith) (fl_nonneg (by positivity)))

theorem srt_mem {w : List K} {j : Nat} (hj : j < (srt w).length) : (srt w)[j] ∈ w :=
  (List.perm_insertionSort (· ≤ ·) w).mem_iff.1 (List.getElem_mem hj)

/-- The two cases of the percentile. -/
theorem percentile_cases {w : List K} (hw : w ≠ []) {p : K} (h0 : 0 ≤ p) (hd : ∀ x ∈ w, fl x = x) :
    (((w.length : K) - 1 ≤ rpos w p) ∧ ∃ h : w.length - 1 < (srt w).length, percentile w p = (srt w)[w.length - 1]) ∨
    (rpos w p < (w.length : K) - 1 ∧ (⌊rpos w p⌋.toNat : ℤ) = ⌊rpos w p⌋ ∧
      ∃ h : ⌊rpos w p⌋.toNat + 1 < (srt w).length, percentile w p =
        lerp (srt w)[⌊rpos w p⌋.toNat] (srt w)[⌊rpos w p⌋.toNat + 1] (fl (rpos w p - ⌊rpos w p⌋))) := by
  have hlen := List.length_pos_iff.2 hw
  have hls := length_srt w
  have hc : (((w.length - 1 : ℕ)) : K) = (w.length : K) - 1 := by
    rw [Nat.cast_sub hlen, Nat.cast_one]
  have e : percentile w p = if rpos w p ≥ (((w.length - 1 : ℕ)) : K) then
      lerp ((srt w).getD (w.length - 1) 0) ((srt w).getD (w.length - 1) 0) (fl (rpos w p - (((w.length - 1 : ℕ)) : K)))
      else lerp ((srt w).getD ⌊rpos w p⌋.toNat 0) ((srt w).getD (⌊rpos w p⌋.toNat + 1) 0) (fl (rpos w p - ⌊rpos w p⌋)) := rfl
  rw [e, hc]
  split
  · rename_i h
    refine .inl ⟨h, by omega, ?_⟩
    have hlt : w.length - 1 < (srt w).length := by omega
    have hx : (srt w).getD (w.length - 1) 0 = (srt w)[w.length - 1] := by simp [List.getD_eq_getElem?_getD, hlt]
    have hdx := hd _ (srt_mem hlt)
    rw [hx]
    unfold lerp
    simp only [sub_self, fl_zero, zero_mul, sub_zero, add_zero, hdx, ite_self]
  · rename_i h
    have h := not_le.1 h
    have hf := Int.floor_nonneg.2 (rpos_nonneg hw h0)
    have hcast : (⌊rpos w p⌋.toNat : ℤ) = ⌊rpos w p⌋ := Int.toNat_of_nonneg hf
    have hlt : ⌊rpos w p⌋.toNat + 1 < (srt w).length := by
      have h1 := Int.floor_le (rpos w p)
      have h2 : ((⌊rpos w p⌋ + 1 : ℤ) : K) < ((w.length : ℤ) : K) := by push_cast; linarith
      have := Int.cast_lt.1 h2
      omega
    refine .inr ⟨h, hcast, hlt, ?_⟩
    have hx : (srt w).getD (⌊rpos w p⌋.toNat + 1) 0 = (srt w)[⌊rpos w p⌋.toNat + 1] := by
      simp [List.getD_eq_getElem?_getD, hlt]
    have hy : (srt w).getD ⌊rpos w p⌋.toNat 0 = (srt w)[⌊rpos w p⌋.toNat] := by
      simp [List.getD_eq_getElem?_getD, (show ⌊rpos w p⌋.toNat < (srt w).length by omega)]
    rw [hx, hy]

theorem frac_unit (x : K) : 0 ≤ fl (x - ⌊x⌋) ∧ fl (x - ⌊x⌋) ≤ 1 := by
  have h1 := Int.floor_le x
  have h2 := Int.lt_floor_add_one x
  refine ⟨fl_nonneg (by linarith), ?_⟩
  have := fl_mono (x := x - ⌊x⌋) (y := 1) (by linarith)
  rwa [fl_one] at this

/-- The rounded percentile is not above any of the sorted weights from the rounded position on. -/
theorem percentile_le {w : List K} (hw : w ≠ []) {p : K} (h0 : 0 ≤ p) (hd : ∀ x ∈ w, fl x = x) {j : Nat}
    (hj : j < (srt w).length) (hc : ⌈rpos w p⌉ ≤ (j : ℤ) ∨ j + 1 = w.length) : percentile w p ≤ (srt w)[j] := by
  have hls := length_srt w
  rcases percentile_cases hw h0 hd with ⟨h, hlt, e⟩ | ⟨h, hi, hlt, e⟩
  · rw [e]
    refine srt_mono w ?_ hj
    rcases hc with hc | hc
    · have : ((w.length : ℤ) - 1 : ℤ) ≤ ⌈rpos w p⌉ := by
        have h2 := h.trans (Int.le_ceil _)
        have h3 : (((w.length : ℤ) - 1 : ℤ) : K) ≤ (⌈rpos w p⌉ : K) := by push_cast; exact h2
        exact Int.cast_le.1 h3
      omega
    · omega
  · have hlt' : ⌊rpos w p⌋.toNat < (srt w).length := by omega
    by_cases hz : rpos w p = ⌊rpos w p⌋
    · have e0 : rpos w p - (⌊rpos w p⌋ : K) = 0 := sub_eq_zero.2 hz
      rw [e, e0, fl_zero, lerp_zero (hd _ (srt_mem hlt'))]
      refine srt_mono w ?_ hj
      rcases hc with hc | hc
      · have : ⌊rpos w p⌋ ≤ ⌈rpos w p⌉ := Int.floor_le_ceil _
        omega
      · omega
    · obtain ⟨t0, t1⟩ := frac_unit (rpos w p)
      have := (lerp_mem (hd _ (srt_mem hlt')) (hd _ (srt_mem hlt)) (srt_mono w (Nat.le_succ _) hlt) t0 t1).2
      rw [e]
      refine this.trans (srt_mono w ?_ hj)
      rcases hc with hc | hc
      · have hf := Int.floor_le (rpos w p)
        have : ⌊rpos w p⌋ < ⌈rpos w p⌉ := by
          rw [Int.lt_ceil]
          exact lt_of_le_of_ne hf fun h => hz h.symm
        omega
      · omega

/-- **C155.** The mask has one entry per point and is upward closed, and every point of maximal weight is kept, for all
percentages and all doubles: rounding can never discard all points. -/
theorem C155_kept {percent : K} (h0 : 0 ≤ percent) {wts : List K} (hd : ∀ x ∈ wts, fl x = x) :
    (quantileFilter percent wts).length = wts.length ∧
    (∀ (i j : Nat) (x y : K), (quantileFilter percent wts)[i]? = some true → wts[i]? = some x → wts[j]? = some y → x ≤ y →
      (quantileFilter percent wts)[j]? = some true) ∧
    ∀ (i : Nat) (m : K), wts[i]? = some m → (∀ x ∈ wts, x ≤ m) → (quantileFilter percent wts)[i]? = some true := by
  by_cases hw : wts = []
  · subst hw
    simp [quantileFilter]
  have hl : ¬ wts.length = 0 := by simpa using hw
  simp only [quantileFilter, hl, if_false]
  refine ⟨by simp, ?_, ?_⟩
  · intro i j x y hi hx hy hxy
    simp only [List.getElem?_map, hx, hy, Option.map_some, Option.some.injEq, decide_eq_true_eq] at hi ⊢
    exact le_trans hi hxy
  · intro i m hi hm
    simp only [List.getElem?_map, hi, Option.map_some, Option.some.injEq, decide_eq_true_eq]
    have hlt : wts.length - 1 < (srt wts).length := by
      rw [length_srt]
      omega
    exact (percentile_le hw h0 hd hlt (.inr (by omega))).trans (hm _ (srt_mem hlt))

/-- The number of discarded points is at most the rounded position, rounded up. -/
theorem discarded_le {percent : K} (h0 : 0 ≤ percent) {wts : List K} (hw : wts ≠ []) (hd : ∀ x ∈ wts, fl x = x) :
    (discarded (quantileFilter percent wts) : ℤ) ≤ ⌈rpos wts percent⌉ := by
  have hl : ¬ wts.length = 0 := by simpa using hw
  have hls := length_srt wts
  have e : discarded (quantileFilter percent wts) = (srt wts).countP fun x => decide (x < percentile wts percent) := by
    rw [srt, (List.perm_insertionSort (· ≤ ·) wts).countP_eq]
    simp only [discarded, quantileFilter, hl, if_false, List.count_eq_countP, List.countP_map]
    apply List.countP_congr
    intro x _
    simp [Function.comp]
  have hc0 : 0 ≤ ⌈rpos wts percent⌉ := Int.ceil_nonneg (rpos_nonneg hw h0)
  obtain ⟨c, hc⟩ := Int.eq_ofNat_of_zero_le hc0
  rw [e, hc]
  have hsplit : (srt wts).countP (fun x => decide (x < percentile wts percent)) =
      ((srt wts).take c).countP (fun x => decide (x < percentile wts percent)) +
      ((srt wts).drop c).countP (fun x => decide (x < percentile wts percent)) := by
    rw [← List.countP_append, List.take_append_drop]
  have hdrop : ((srt wts).drop c).countP (fun x => decide (x < percentile wts percent)) = 0 := by
    rw [List.countP_eq_zero]
    intro x hx
    obtain ⟨k, hk, rfl⟩ := List.getElem_of_mem hx
    rw [List.getElem_drop]
    have := percentile_le hw h0 hd (j := c + k) (by simp at hk; omega) (.inl (by omega))
    simpa using this
  have htake : ((srt wts).take c).countP (fun x => decide (x < percentile wts percent)) ≤ c :=
    List.countP_le_length.trans (by rw [List.length_take]; omega)
  have : (srt wts).countP (fun x => decide (x < percentile wts percent)) ≤ c := by omega
  exact_mod_cast this

/-- **C155** (partial: the bound of C11 is missed by at most one, see `C155_number_false`). At most
`⌈(n - 1) * percent / 100⌉ + 1` of `n` points are discarded. -/
theorem C155_number_partial {percent : K} (h0 : 0 ≤ percent) (h1 : percent ≤ 100) {wts : List K} (hw : wts ≠ [])
    (hd : ∀ x ∈ wts, fl x = x) (hn : wts.length ≤ 2 ^ 50) :
    (discarded (quantileFilter percent wts) : ℤ) ≤ ⌈((wts.length : K) - 1) * percent / 100⌉ + 1 := by
  refine (discarded_le h0 hw hd).trans ?_
  have hu0 := u_pos (K := K)
  have hu := u_tiny (K := K)
  have hN : (1 : K) ≤ wts.length := by exact_mod_cast List.length_pos_iff.2 hw
  have hN2 : (wts.length : K) ≤ 2 ^ 50 := by exact_mod_cast hn
  have hp0 : 0 ≤ percent / 100 := by positivity
  have hp1 : percent / 100 ≤ 1 := by linarith
  have f1 := fl_upper (K := K) hp0
  have g0 : 0 ≤ fl (percent / 100) := fl_nonneg hp0
  have hx0 : 0 ≤ ((wts.length : K) - 1) * fl (percent / 100) := mul_nonneg (by linarith) g0
  have f2 := fl_upper (K := K) hx0
  have hup : u K * 2 ^ 50 ≤ 1 / 8 := by
    have := u_mul (K := K)
    linarith
  have hk : u K * ((wts.length : K) - 1) ≤ 1 / 8 := by
    have := mul_le_mul_of_nonneg_left (show (wts.length : K) - 1 ≤ 2 ^ 50 by linarith) hu0.le
    linarith
  have b1 : ((wts.length : K) - 1) * fl (percent / 100) ≤
      ((wts.length : K) - 1) * (percent / 100) + 1 / 8 := by
    have a1 := mul_le_mul_of_nonneg_left f1 (show 0 ≤ (wts.length : K) - 1 by linarith)
    have a2 : u K * ((wts.length : K) - 1) * (percent / 100) ≤ 1 / 8 * 1 := mul_le_mul hk hp1 hp0 (by norm_num)
    have a3 : ((wts.length : K) - 1) * ((1 + u K) * (percent / 100)) =
        ((wts.length : K) - 1) * (percent / 100) + u K * ((wts.length : K) - 1) * (percent / 100) := by ring
    linarith
  have b2 : u K * (((wts.length : K) - 1) * fl (percent / 100)) ≤ 1 / 4 := by
    have a1 : fl (percent / 100) ≤ 1 := by
      have := fl_mono hp1
      rwa [fl_one] at this
    have a2 : u K * ((wts.length : K) - 1) * fl (percent / 100) ≤ 1 / 8 * 1 := mul_le_mul hk a1 g0 (by norm_num)
    rw [mul_assoc] at a2
    linarith
  rw [Int.ceil_le]
  have c := Int.le_ceil (((wts.length : K) - 1) * percent / 100)
  rw [mul_div_assoc] at c
  unfold rpos
  push_cast
  rw [mul_div_assoc]
  linarith

/-- The number `0, 1, …, n - 1`, divided by 32. -/
def ramp (n : Nat) : List ℚ := (List.range n).map fun i : Nat => (i : ℚ) / 32

/-- **C155 is false** for some percentages: 28 percent of the 25 gaps between 26 points are 7 gaps, but the position is
rounded to a larger double, and 8 points are discarded (more than 30 percent) instead of 7. -/
theorem C155_number_false : ¬ ∀ (percent : ℚ) (wts : List ℚ), 0 ≤ percent → percent ≤ 100 → (∀ x ∈ wts, fl x = x) →
    discarded (quantileFilter percent wts) = discarded (Filter.quantileFilter percent wts).1 := by
  intro h
  have h1 := h 28 (ramp 26) (by norm_num) (by norm_num) (by decide +kernel)
  have h2 : discarded (quantileFilter 28 (ramp 26)) = 8 ∧ discarded (Filter.quantileFilter 28 (ramp 26)).1 = 7 := by
    decide +kernel
  omega

/-- **C155 is false** for neighbouring doubles: the median of two of them is rounded to the smaller one, and no point is
discarded. -/
theorem C155_close_false : ¬ ∀ wts : List ℚ, (∀ x ∈ wts, fl x = x) →
    quantileFilter 50 wts = (Filter.quantileFilter 50 wts).1 := by
  intro h
  have h1 := h [1 / 2, 1 / 2 + 1 / 2 ^ 53] (by decide +kernel)
  revert h1
  decide +kernel

/-- The weights of two sorted positions decide about the same points if the percentiles lie between them. -/
theorem mask_eq {w : List K} {a b T T' : K} (hsep : ∀ x ∈ w, x ≤ a ∨ b ≤ x) (h1 : a < T) (h2 : T ≤ b) (h1' : a < T')
    (h2' : T' ≤ b) : (w.map fun x => decide (x ≥ T)) = w.map fun x => decide (x ≥ T') := by
  refine List.map_congr_left fun x hx => ?_
  rcases hsep x hx with h | h
  · simp [not_le.2 (lt_of_le_of_lt h h1), not_le.2 (lt_of_le_of_lt h h1')]
  · simp [h2.trans h, h2'.trans h]

/-- The fractional part of a number of quarters. -/
theorem quarter_frac (q : ℕ) : ∃ r : ℕ, r < 4 ∧ (q : K) / 4 - ⌊(q : K) / 4⌋ = (r : K) / 4 := by
  refine ⟨q % 4, Nat.mod_lt _ (by norm_num), ?_⟩
  have hdm : (q : K) = 4 * ((q / 4 : ℕ) : K) + ((q % 4 : ℕ) : K) := by exact_mod_cast (Nat.div_add_mod q 4).symm
  have h4 : ((q % 4 : ℕ) : K) < 4 := by exact_mod_cast Nat.mod_lt q (by norm_num)
  have h0 : (0 : K) ≤ ((q % 4 : ℕ) : K) := Nat.cast_nonneg _
  have hf : ⌊(q : K) / 4⌋ = ((q / 4 : ℕ) : ℤ) := by
    rw [Int.floor_eq_iff]
    constructor
    · rw [Int.cast_natCast]
      linarith
    · rw [Int.cast_natCast]
      linarith
  rw [hf, Int.cast_natCast]
  linarith

/-- **C155** (partial: only quarters as percentages, and the weights must not be too close, see `C155_number_false` and
`C155_close_false`). The quantile filters for 0, 25, 50 (the default), 75 and 100 percent keep exactly the same points as with
exact numbers if different weights differ by at least a relative `2^-50`. -/
theorem C155_quarters_partial {k : ℕ} (hk : k ≤ 4) {wts : List K} (hn : wts.length ≤ 2 ^ 50) (hd : ∀ x ∈ wts, fl x = x)
    (h0 : ∀ x ∈ wts, 0 ≤ x) (hgap : ∀ x ∈ wts, ∀ y ∈ wts, x < y → 2 ^ (-50 : ℤ) * y ≤ y - x) :
    quantileFilter (25 * (k : K)) wts = (Filter.quantileFilter (25 * (k : K)) wts).1 := by
  by_cases hw : wts = []
  · subst hw
    simp [quantileFilter, Filter.quantileFilter]
  have hl : ¬ wts.length = 0 := by simpa using hw
  have hlen := List.length_pos_iff.2 hw
  have hls := length_srt wts
  have hN : ((wts.length : K) - 1) = ((wts.length - 1 : ℕ) : K) := by
    rw [Nat.cast_sub hlen, Nat.cast_one]
  have hp0 : (0 : K) ≤ 25 * k := by positivity
  have hp1 : (25 * k : K) ≤ 100 := by
    have : (k : K) ≤ 4 := by exact_mod_cast hk
    linarith
  -- the position is exact
  have e1 : fl (25 * (k : K) / 100) = (k : K) / 4 := by
    have := fl_exact (K := K) (m := (k : ℤ)) (k := -2) (by rw [Nat.abs_cast]; norm_num; omega)
    have e : 25 * (k : K) / 100 = ((k : ℤ) : K) * 2 ^ (-2 : ℤ) := by
      push_cast
      rw [zpow_neg]
      norm_num
      ring
    rw [e, this, ← e]
    ring
  have e2 : rpos wts (25 * (k : K)) = Filter.pos wts (25 * (k : K)) := by
    unfold rpos Filter.pos
    rw [e1, hN]
    have hb : |(((wts.length - 1) * k : ℕ) : ℤ)| < 2 ^ 53 := by
      rw [Nat.abs_cast]
      have : (wts.length - 1) * k ≤ 2 ^ 50 * 4 := Nat.mul_le_mul (by omega) hk
      have h3 : (wts.length - 1) * k < 2 ^ 53 := by omega
      exact_mod_cast h3
    have := fl_exact (K := K) (k := -2) hb
    have e : ((wts.length - 1 : ℕ) : K) * ((k : K) / 4) = ((((wts.length - 1) * k : ℕ) : ℤ) : K) * 2 ^ (-2 : ℤ) := by
      push_cast
      rw [zpow_neg]
      norm_num
      ring
    rw [e, this, ← e]
    ring
  have hpos : Filter.pos wts (25 * (k : K)) = ((wts.length - 1) * k : ℕ) / 4 := by
    unfold Filter.pos
    rw [hN]
    push_cast
    ring
  have hex : Filter.percentile wts (25 * (k : K)) = (srt wts).getD ⌊Filter.pos wts (25 * (k : K))⌋.toNat 0 +
      (Filter.pos wts (25 * (k : K)) - ⌊Filter.pos wts (25 * (k : K))⌋) *
      ((srt wts).getD (min (⌊Filter.pos wts (25 * (k : K))⌋.toNat + 1) (wts.length - 1)) 0 -
        (srt wts).getD ⌊Filter.pos wts (25 * (k : K))⌋.toNat 0) := rfl
  have hle := Filter.pos_le hw hp1
  have hc := percentile_cases hw hp0 hd
  simp only [quantileFilter, Filter.quantileFilter, hl, if_false]
  simp only [e2] at hc
  rcases hc with ⟨hge, hlt, e⟩ | ⟨hlt, hi, hlt1, e⟩
  · -- the last weight
    have hv : Filter.pos wts (25 * (k : K)) = ((wts.length - 1 : ℕ) : ℤ) := by
      push_cast
      rw [← hN]
      exact le_antisymm hle hge
    have hfl : ⌊Filter.pos wts (25 * (k : K))⌋ = ((wts.length - 1 : ℕ) : ℤ) := by
      rw [hv]
      exact Int.floor_intCast _
    rw [hex, hfl, hv, sub_self, zero_mul, add_zero, e, Int.toNat_natCast]
    simp [List.getD_eq_getElem?_getD, hlt]
  · have hlt0 : ⌊Filter.pos wts (25 * (k : K))⌋.toNat < (srt wts).length := by omega
    have hmin : min (⌊Filter.pos wts (25 * (k : K))⌋.toNat + 1) (wts.length - 1) =
        ⌊Filter.pos wts (25 * (k : K))⌋.toNat + 1 := by omega
    have hx : (srt wts).getD (⌊Filter.pos wts (25 * (k : K))⌋.toNat + 1) 0 =
        (srt wts)[⌊Filter.pos wts (25 * (k : K))⌋.toNat + 1] := by
      simp [List.getD_eq_getElem?_getD, hlt1]
    have hy : (srt wts).getD ⌊Filter.pos wts (25 * (k : K))⌋.toNat 0 =
        (srt wts)[⌊Filter.pos wts (25 * (k : K))⌋.toNat] := by
      simp [List.getD_eq_getElem?_getD, hlt0]
    rw [hmin, hx, hy] at hex
    -- the fraction is a quarter
    obtain ⟨r, hr, hfr⟩ : ∃ r : ℕ, r < 4 ∧ Filter.pos wts (25 * (k : K)) - ⌊Filter.pos wts (25 * (k : K))⌋ = (r : K) / 4 := by
      rw [hpos]
      exact quarter_frac _
    have efr : fl ((r : K) / 4) = (r : K) / 4 := by
      have := fl_exact (K := K) (m := (r : ℤ)) (k := -2) (by rw [Nat.abs_cast]; norm_num; omega)
      have e : (r : K) / 4 = ((r : ℤ) : K) * 2 ^ (-2 : ℤ) := by
        push_cast
        rw [zpow_neg]
        norm_num
        ring
      rw [e, this]
    rw [hfr, efr] at e
    rw [hfr] at hex
    set i := ⌊Filter.pos wts (25 * (k : K))⌋.toNat with hidef
    have hdi := hd _ (srt_mem hlt0)
    have hdj := hd _ (srt_mem hlt1)
    have hij := srt_mono wts (Nat.le_succ i) hlt1
    have hr1 : (r : K) / 4 < 1 := by
      have : (r : K) < 4 := by exact_mod_cast hr
      linarith
    have hr0 : (0 : K) ≤ (r : K) / 4 := by positivity
    obtain ⟨m1, m2⟩ := lerp_mem hdi hdj hij hr0 hr1.le
    rw [e, hex]
    rcases Nat.eq_zero_or_pos r with h | h
    · rw [h, Nat.cast_zero, zero_div, lerp_zero hdi, zero_mul, add_zero]
    · rcases hij.eq_or_lt with heq | hlt2
      · have : lerp (srt wts)[i] (srt wts)[i + 1] ((r : K) / 4) = (srt wts)[i] :=
          le_antisymm (m2.trans heq.symm.le) m1
        have hz : (srt wts)[i + 1] - (srt wts)[i] = 0 := sub_eq_zero.2 heq.symm
        rw [this, hz, mul_zero, add_zero]
      · have hq : (1 : K) / 4 ≤ (r : K) / 4 := by
          have : (1 : K) ≤ r := by exact_mod_cast h
          linarith
        have hg : 8 * u K * (srt wts)[i + 1] ≤ (srt wts)[i + 1] - (srt wts)[i] := by
          have := hgap _ (srt_mem hlt0) _ (srt_mem hlt1) hlt2
          have h8 : 8 * u K = 2 ^ (-50 : ℤ) := by
            unfold u
            rw [zpow_neg, zpow_neg]
            norm_num
          rwa [h8]
        have hgt := lerp_gt (h0 _ (srt_mem hlt0)) hlt2 hq hg
        have hpos2 : 0 < (r : K) / 4 * ((srt wts)[i + 1] - (srt wts)[i]) := mul_pos (by linarith) (by linarith)
        have hle2 : (r : K) / 4 * ((srt wts)[i + 1] - (srt wts)[i]) ≤ 1 * ((srt wts)[i + 1] - (srt wts)[i]) :=
          mul_le_mul_of_nonneg_right hr1.le (by linarith)
        refine mask_eq (a := (srt wts)[i]) (b := (srt wts)[i + 1]) ?_ hgt m2 (by linarith) (by linarith)
        intro x hx
        have hxs : x ∈ srt wts := (List.perm_insertionSort (· ≤ ·) wts).mem_iff.2 hx
        obtain ⟨j, hj, rfl⟩ := List.getElem_of_mem hxs
        rcases Nat.lt_or_ge i j with h | h
        · exact .inr (srt_mono wts (by omega) hj)
        · exact .inl (srt_mono wts h hlt0)

/-- The hypotheses are met by rounded weights. -/
example : (∀ x ∈ [fl (1 / 10 : ℚ), fl (7 / 10), 1, fl (2 / 10), fl (2 / 10), 0], fl x = x ∧ 0 ≤ x) ∧
    (∀ x ∈ [fl (1 / 10 : ℚ), fl (7 / 10), 1, fl (2 / 10), fl (2 / 10), 0],
      ∀ y ∈ [fl (1 / 10 : ℚ), fl (7 / 10), 1, fl (2 / 10), fl (2 / 10), 0], x < y → 2 ^ (-50 : ℤ) * y ≤ y - x) ∧
    quantileFilter (25 * ((3 : ℕ) : ℚ)) [fl (1 / 10 : ℚ), fl (7 / 10), 1, fl (2 / 10), fl (2 / 10), 0] =
      [false, true, true, false, false, false] := by
  decide +kernel

end Verif.F64
