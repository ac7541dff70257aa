import Verif.Lemmas.FloatText
import Verif.Lemmas.Round
import Verif.Props.Curve
import Verif.Props.Pointcloud
import Verif.Props.TableText

/-!
# Property C151: the numbers in csv files
-/

namespace Verif.FloatText

open Verif.F64
open Verif.Table (Text)

section

variable {K : Type} [Field K] [LinearOrder K] [IsStrictOrderedRing K] [FloorRing K]

theorem pyRound_near {r : K} {m : ℤ} (h : |r - m| < 1 / 2) : pyRound r = m := by
  have h1 := pyRound_spec r
  have h2 := abs_lt.1 h
  have a : ((pyRound r : ℤ) : K) < ((m + 1 : ℤ) : K) := by push_cast; linarith
  have b : ((m - 1 : ℤ) : K) < ((pyRound r : ℤ) : K) := by push_cast; linarith
  have a' := Int.cast_lt.1 a
  have b' := Int.cast_lt.1 b
  omega

/-- Numbers that are close to a number with 53 bits are rounded to it. -/
theorem fl_of_near {y : K} {m k : ℤ} (h1 : 2 ^ 52 * 2 ^ k ≤ y) (h2 : y < 2 ^ 53 * 2 ^ k) (h : |y - m * 2 ^ k| < 2 ^ k / 2) :
    fl y = m * 2 ^ k := by
  have hk : (0 : K) < 2 ^ k := two_zpow_pos (K := K) k
  have hy : 0 < y := lt_of_lt_of_le (by positivity) h1
  have hlog : Int.log 2 y = k + 52 := by
    apply le_antisymm
    · have : Int.log 2 y < k + 53 := by
        rw [← Int.lt_zpow_iff_log_lt (by norm_num) hy]
        refine h2.trans_eq ?_
        push_cast
        rw [zpow_add₀ (by norm_num), mul_comm]
        norm_num
      omega
    · rw [← Int.zpow_le_iff_le_log (by norm_num) hy]
      refine le_trans (le_of_eq ?_) h1
      push_cast
      rw [zpow_add₀ (by norm_num), mul_comm]
      norm_num
  unfold fl
  rw [if_neg hy.ne', abs_of_pos hy, hlog]
  simp only [show k + 52 - 52 = k by ring]
  rw [pyRound_near (m := m)]
  have : y / 2 ^ k - m = (y - m * 2 ^ k) / 2 ^ k := by field_simp
  rw [this, abs_div, abs_of_pos hk, div_lt_iff₀ hk]
  linarith

/-- A positive double is a number with exactly 53 bits times a power of two. -/
theorem double_form {x : K} (hx : 0 < x) (hd : fl x = x) :
    ∃ m k : ℤ, x = m * 2 ^ k ∧ 2 ^ 52 ≤ m ∧ m ≤ 2 ^ 53 - 1 := by
  obtain ⟨h1, h2⟩ := log_bounds hx.ne'
  set k := Int.log 2 |x| - 52 with hk
  have hk0 : (0 : K) < 2 ^ k := two_zpow_pos (K := K) k
  have e : fl x = (pyRound (x / 2 ^ k) : K) * 2 ^ k := by
    unfold fl
    rw [if_neg hx.ne']
  rw [hd] at e
  refine ⟨pyRound (x / 2 ^ k), k, e, ?_, ?_⟩
  · rw [abs_of_pos hx] at h1
    have h3 : x / 2 ^ k = (pyRound (x / 2 ^ k) : K) := by
      rw [div_eq_iff hk0.ne']; exact e
    rw [h3] at h1
    norm_num at h1
    have : ((2 ^ 52 : ℤ) : K) ≤ (pyRound (x / 2 ^ k) : K) := by norm_num; exact h1
    exact Int.cast_le.1 this
  · rw [abs_of_pos hx] at h2
    have h3 : x / 2 ^ k = (pyRound (x / 2 ^ k) : K) := by
      rw [div_eq_iff hk0.ne']; exact e
    rw [h3] at h2
    norm_num at h2
    have : (pyRound (x / 2 ^ k) : K) < ((2 ^ 53 : ℤ) : K) := by norm_num; exact h2
    have := Int.cast_lt.1 this
    omega

end

/-- Decimal numbers with 17 digits next to a double are rounded to it. -/
theorem fl_seventeen {x y T : ℚ} (hx : 0 < x) (hd : fl x = x) (hT : T * 10 ^ 16 ≤ x) (hy : |y - x| ≤ T / 2) : fl y = x := by
  obtain ⟨m, k, rfl, hm1, hm2⟩ := double_form hx hd
  have hu : (0 : ℚ) < 2 ^ k := two_zpow_pos k
  set u : ℚ := 2 ^ k with hudef
  have c1 : ((2 ^ 52 : ℤ) : ℚ) ≤ (m : ℚ) := Int.cast_le.2 hm1
  have c2 : (m : ℚ) ≤ ((2 ^ 53 - 1 : ℤ) : ℚ) := Int.cast_le.2 hm2
  norm_num at c1 c2 hT
  have hmu : (m : ℚ) * u ≤ 9007199254740991 * u := mul_le_mul_of_nonneg_right c2 hu.le
  have hmu' : 4503599627370496 * u ≤ (m : ℚ) * u := mul_le_mul_of_nonneg_right c1 hu.le
  have hy' := abs_le.1 hy
  have hT' : T < u := by nlinarith
  rcases le_or_gt (4503599627370496 * u) y with hge | hlt
  · apply fl_of_near
    · norm_num; exact hge
    · norm_num; linarith
    · exact lt_of_le_of_lt hy (by linarith)
  · have hm : m = 2 ^ 52 := by
      by_contra hne
      have h3 : (2 ^ 52 + 1 : ℤ) ≤ m := by omega
      have h4 : ((2 ^ 52 + 1 : ℤ) : ℚ) ≤ (m : ℚ) := Int.cast_le.2 h3
      norm_num at h4
      have := mul_le_mul_of_nonneg_right h4 hu.le
      linarith
    have hmq : (m : ℚ) = 4503599627370496 := by rw [hm]; norm_num
    rw [hmq] at hT hy hy' ⊢
    have hu2 : (2 : ℚ) ^ (k - 1) = u / 2 := by
      rw [zpow_sub₀ (by norm_num), hudef]; norm_num
    have key := fl_of_near (y := y) (m := 2 ^ 53) (k := k - 1) (by rw [hu2]; norm_num; linarith)
      (by rw [hu2]; norm_num; linarith) (by
        rw [hu2]
        push_cast
        rw [show (9007199254740992 : ℚ) * (u / 2) = 4503599627370496 * u by ring]
        exact lt_of_le_of_lt hy (by linarith))
    rw [key, hu2]
    push_cast
    ring

/-- The exponent used for `n` digits. -/
def expo (x : ℚ) (n : Nat) : ℤ := Int.log 10 x - (n - 1 : Nat)

theorem closest_sound {x : ℚ} {n d : Nat} {q : ℤ} (h : closest x n = some (d, q)) :
    fl ((d : ℚ) * 10 ^ q) = x ∧ q = expo x n ∧ d ≤ ⌈x / 10 ^ q⌉₊ := by
  unfold closest at h
  simp only at h
  split at h
  · rename_i h1
    simp only [Bool.and_eq_true, decide_eq_true_eq] at h1
    simp only [Option.some.injEq, Prod.mk.injEq] at h
    obtain ⟨rfl, rfl⟩ := h
    exact ⟨h1.1, rfl, Nat.floor_le_ceil _⟩
  · split at h
    · rename_i h1
      simp only [decide_eq_true_eq] at h1
      simp only [Option.some.injEq, Prod.mk.injEq] at h
      obtain ⟨rfl, rfl⟩ := h
      exact ⟨h1, rfl, le_rfl⟩
    · cases h

theorem closest_complete {x : ℚ} {n : Nat}
    (h : fl ((⌊x / 10 ^ expo x n⌋₊ : ℚ) * 10 ^ expo x n) = x ∨ fl ((⌈x / 10 ^ expo x n⌉₊ : ℚ) * 10 ^ expo x n) = x) :
    (closest x n).isSome = true := by
  unfold closest
  simp only
  change ((if _ then some (⌊x / 10 ^ expo x n⌋₊, expo x n) else if decide (fl ((⌈x / 10 ^ expo x n⌉₊ : ℚ) * 10 ^ expo x n) = x) then
    some (⌈x / 10 ^ expo x n⌉₊, expo x n) else none)).isSome = true
  split
  · rfl
  · rename_i h1
    split
    · rfl
    · rename_i h2
      simp only [decide_eq_true_eq] at h2
      rcases h with h | h
      · exfalso
        apply h1
        have e1 : decide (fl ((⌊x / 10 ^ expo x n⌋₊ : ℚ) * 10 ^ expo x n) = x) = true := decide_eq_true h
        have e2 : decide (fl ((⌈x / 10 ^ expo x n⌉₊ : ℚ) * 10 ^ expo x n) = x) = false := decide_eq_false h2
        unfold expo at e1 e2
        rw [e1, e2]
        rfl
      · exact absurd h h2

theorem closest_seventeen {x : ℚ} (hx : 0 < x) (hd : fl x = x) : (closest x 17).isSome = true := by
  apply closest_complete
  set q := expo x 17 with hq
  have hq0 : (0 : ℚ) < 10 ^ q := zpow_pos (by norm_num) q
  have hT : (10 : ℚ) ^ q * 10 ^ 16 ≤ x := by
    have := Int.zpow_log_le_self (b := 10) (by norm_num) hx
    refine le_trans (le_of_eq ?_) this
    rw [hq, expo]
    push_cast
    rw [← zpow_natCast, ← zpow_add₀ (by norm_num)]
    congr 1
    norm_num
  set r := x / 10 ^ q with hr
  have hr0 : 0 ≤ r := (div_pos hx hq0).le
  have hxr : x = r * 10 ^ q := by rw [hr]; field_simp
  have h1 := Nat.floor_le hr0
  have h2 := Nat.le_ceil r
  have h3 : (⌈r⌉₊ : ℚ) ≤ (⌊r⌋₊ : ℚ) + 1 := by exact_mod_cast Nat.ceil_le_floor_add_one r
  rcases le_total (r - ⌊r⌋₊) (1 / 2) with h | h
  · left
    apply fl_seventeen hx hd hT
    rw [abs_le]
    constructor
    · rw [hxr]; nlinarith
    · rw [hxr]; nlinarith
  · right
    apply fl_seventeen hx hd hT
    rw [abs_le]
    constructor
    · rw [hxr]; nlinarith
    · rw [hxr]; nlinarith

theorem shortest_spec {x : ℚ} (hx : 0 < x) (hd : fl x = x) :
    ∃ d q i, shortest x = some (d, q) ∧ i < 17 ∧ closest x (i + 1) = some (d, q) ∧ ∀ j < i, closest x (j + 1) = none := by
  obtain ⟨c, hc⟩ := Option.isSome_iff_exists.1 (closest_seventeen hx hd)
  have hex : ∃ i, i < 17 ∧ (closest x (i + 1)).isSome = true := ⟨16, by norm_num, by rw [hc]; rfl⟩
  classical
  obtain ⟨hi, hs⟩ := Nat.find_spec hex
  have hmin : ∀ j < Nat.find hex, closest x (j + 1) = none := by
    intro j hj
    have := Nat.find_min hex hj
    by_contra hne
    exact this ⟨hj.trans hi, Option.isSome_iff_ne_none.2 hne⟩
  obtain ⟨⟨d, q⟩, hdq⟩ := Option.isSome_iff_exists.1 hs
  refine ⟨d, q, Nat.find hex, ?_, hi, hdq, hmin⟩
  set i := Nat.find hex with hidef
  clear_value i
  unfold shortest
  obtain ⟨r, hr⟩ : ∃ r, 17 = i + (r + 1) := ⟨16 - i, by omega⟩
  rw [hr, show List.range (i + (r + 1)) = List.range i ++ (List.range (r + 1)).map (i + ·) from List.range_add,
    List.filterMap_append]
  have e : (List.range i).filterMap (fun i => closest x (i + 1)) = [] := by
    rw [List.filterMap_eq_nil_iff]
    intro j hj
    exact hmin j (List.mem_range.1 hj)
  rw [e, List.nil_append, List.range_succ_eq_map, List.map_cons, List.filterMap_cons, add_zero, hdq]
  rfl

/-- The text of a positive double. -/
theorem printPos_spec {x : ℚ} (hx : 0 < x) (hd : fl x = x) :
    ∃ v, unsigned (printPos x) = some v ∧ fl v = x ∧ Good (printPos x) := by
  obtain ⟨d, q, i, h1, -, h2, -⟩ := shortest_spec hx hd
  obtain ⟨h3, -, -⟩ := closest_sound h2
  have hd0 : d ≠ 0 := by
    rintro rfl
    rw [Nat.cast_zero, zero_mul, fl_zero] at h3
    exact hx.ne h3
  obtain ⟨z, e1, e2, e3⟩ := strip_spec d hd0
  have hdig : AllDigits ((Nat.toDigits 10 d).rdropWhile (· = '0')) := by
    intro c hc
    refine allDigits_toDigits d c ?_
    rw [← e1]
    exact List.mem_append_left _ hc
  have hl := unsigned_layout e2 hdig ((Nat.toDigits 10 d).length + q)
  unfold printPos
  rw [h1]
  refine ⟨_, hl.1, ?_, hl.2⟩
  rw [← h3]
  congr 1
  have hlen : ((Nat.toDigits 10 d).length : ℤ) = ((Nat.toDigits 10 d).rdropWhile (· = '0')).length + z := by
    have := congrArg List.length e1
    rw [List.length_append, List.length_replicate] at this
    exact_mod_cast this.symm
  rw [hlen, show ∀ a b c : ℤ, a + b + c - a = b + c by intros; ring, zpow_add₀ (by norm_num), zpow_natCast, ← mul_assoc]
  congr 1
  exact_mod_cast e3

theorem parse_digit {c : Char} {t : Text} (hc : c.isDigit = true) {v : ℚ} (h : unsigned (c :: t) = some v) :
    parse (c :: t) = .ok (fl v) := by
  have h1 : c ≠ '-' := digit_ne hc (by decide)
  have h2 : c ≠ '+' := digit_ne hc (by decide)
  unfold parse
  split
  · rename_i hr
    exact absurd (List.cons.inj hr).1 h1
  · rename_i hr
    exact absurd (List.cons.inj hr).1 h2
  · simp only [h]

theorem parse_minus {t : Text} {v : ℚ} (h : unsigned t = some v) : parse ('-' :: t) = .ok (-fl v) := by
  simp only [parse, h, Option.map_some, fl_neg]

/-- **C151.** The text of a double is not empty, consists of digits and the characters `.`, `e`, `+` and `-`, and reading it gives
the double. -/
theorem C151_number {x : ℚ} (hd : fl x = x) :
    parse (print x) = .ok x ∧ print x ≠ [] ∧ ∀ c ∈ print x, c.isDigit = true ∨ c ∈ ['.', 'e', '+', '-'] := by
  unfold print
  by_cases h0 : x = 0
  · subst h0
    rw [if_pos rfl]
    refine ⟨by decide +kernel, by simp, by decide⟩
  rw [if_neg h0]
  by_cases hneg : x < 0
  · rw [if_pos hneg]
    obtain ⟨v, h1, h2, h3⟩ := printPos_spec (x := -x) (by linarith) (by rw [fl_neg, hd])
    refine ⟨by rw [parse_minus h1, h2, neg_neg], by simp, ?_⟩
    intro c hc
    rcases List.mem_cons.1 hc with rfl | hc
    · exact Or.inr (by simp)
    · exact h3.chars c hc
  · rw [if_neg hneg]
    obtain ⟨v, h1, h2, h3⟩ := printPos_spec (x := x) (lt_of_le_of_ne (not_lt.1 hneg) (Ne.symm h0)) hd
    obtain ⟨c, t, e, hc⟩ := h3.head
    rw [e] at h1 ⊢
    refine ⟨by rw [parse_digit hc h1, h2], by simp, ?_⟩
    rw [← e]
    exact h3.chars

example : fl (fl (1 / 10 : ℚ) + fl (2 / 10)) = fl (fl (1 / 10) + fl (2 / 10)) ∧
    print (fl (fl (1 / 10) + fl (2 / 10))) = "0.30000000000000004".toList ∧ print (fl (-3 / 200000)) = "-1.5e-05".toList ∧
    print (10 ^ 22) = "1e+22".toList ∧ print 360 = "360.0".toList ∧ print (1 / 2 ^ 44) = "5.684341886080802e-14".toList := by
  refine ⟨rfl, ?_, ?_, ?_, ?_, ?_⟩ <;> decide +kernel

/-- Of the decimal numbers with at most `n` digits that are rounded to `x`, there is one next to `x`. -/
theorem closest_of_decimal {x : ℚ} (hx : 0 < x) {n d : Nat} {q : ℤ} (hn : 0 < n) (hdn : d < 10 ^ n) (h : fl ((d : ℚ) * 10 ^ q) = x)
    (hd : fl x = x) : (closest x n).isSome = true := by
  apply closest_complete
  set p := expo x n with hp
  have hp0 : (0 : ℚ) < 10 ^ p := zpow_pos (by norm_num) p
  have hq0 : (0 : ℚ) < 10 ^ q := zpow_pos (by norm_num) q
  have hk := Int.zpow_log_le_self (b := 10) (by norm_num) hx
  have hlog : (((10 : ℕ) : ℚ)) ^ Int.log 10 x = 10 ^ (n - 1) * 10 ^ p := by
    rw [hp, expo]
    push_cast
    rw [← zpow_natCast, ← zpow_add₀ (by norm_num)]
    congr 1
    push_cast [Nat.cast_sub (show 1 ≤ n by omega)]
    ring
  rw [hlog] at hk
  set r := x / 10 ^ p with hr
  have hr0 : 0 ≤ r := (div_pos hx hp0).le
  have hxr : x = r * 10 ^ p := by rw [hr]; field_simp
  have hfl : (⌊r⌋₊ : ℚ) * 10 ^ p ≤ x := by
    conv_rhs => rw [hxr]
    exact mul_le_mul_of_nonneg_right (Nat.floor_le hr0) hp0.le
  have hce : x ≤ (⌈r⌉₊ : ℚ) * 10 ^ p := by
    conv_lhs => rw [hxr]
    exact mul_le_mul_of_nonneg_right (Nat.le_ceil r) hp0.le
  have hdn' : (d : ℚ) + 1 ≤ 10 ^ n := by exact_mod_cast hdn
  rcases lt_or_ge q p with hqp | hqp
  · -- the number has a smaller exponent, so it is at most the power of ten below `x`
    have hsmall : (d : ℚ) * 10 ^ q ≤ 10 ^ (n - 1) * 10 ^ p := by
      have h1 : (10 : ℚ) ^ q * 10 ≤ 10 ^ p := by
        rw [← zpow_add_one₀ (by norm_num)]
        exact zpow_le_zpow_right₀ (by norm_num) (by omega)
      have h2 : (10 : ℚ) ^ n = 10 ^ (n - 1) * 10 := by
        conv_lhs => rw [show n = n - 1 + 1 by omega, pow_succ]
      have h3 : (d : ℚ) * 10 ^ q ≤ 10 ^ n * 10 ^ q := mul_le_mul_of_nonneg_right (by linarith) hq0.le
      rw [h2, mul_assoc, mul_comm 10 ((10 : ℚ) ^ q)] at h3
      exact h3.trans (mul_le_mul_of_nonneg_left h1 (by positivity))
    have hfloor : (10 : ℚ) ^ (n - 1) * 10 ^ p ≤ (⌊r⌋₊ : ℚ) * 10 ^ p := by
      refine mul_le_mul_of_nonneg_right ?_ hp0.le
      have h1 : ((10 ^ (n - 1) : ℕ) : ℚ) ≤ r := by
        rw [hr, le_div_iff₀ hp0]
        push_cast
        exact hk
      have := Nat.le_floor h1
      exact_mod_cast this
    left
    apply le_antisymm
    · calc _ ≤ fl x := fl_mono hfl
        _ = x := hd
    · calc x = fl ((d : ℚ) * 10 ^ q) := h.symm
        _ ≤ _ := fl_mono (hsmall.trans hfloor)
  · -- the number is a multiple of the unit
    obtain ⟨j, rfl⟩ : ∃ j : Nat, q = p + j := ⟨(q - p).toNat, by omega⟩
    have hmul : (d : ℚ) * 10 ^ (p + (j : ℤ)) = ((d * 10 ^ j : ℕ) : ℚ) * 10 ^ p := by
      rw [zpow_add₀ (by norm_num), zpow_natCast]
      push_cast
      ring
    rw [hmul] at h
    rcases le_total (((d * 10 ^ j : ℕ) : ℚ)) r with hle | hge
    · left
      have h1 : ((d * 10 ^ j : ℕ) : ℚ) ≤ (⌊r⌋₊ : ℚ) := by exact_mod_cast Nat.le_floor hle
      apply le_antisymm
      · calc _ ≤ fl x := fl_mono hfl
          _ = x := hd
      · calc x = fl (((d * 10 ^ j : ℕ) : ℚ) * 10 ^ p) := h.symm
          _ ≤ _ := fl_mono (mul_le_mul_of_nonneg_right h1 hp0.le)
    · right
      have h1 : (⌈r⌉₊ : ℚ) ≤ ((d * 10 ^ j : ℕ) : ℚ) := by exact_mod_cast Nat.ceil_le.2 hge
      apply le_antisymm
      · calc _ ≤ fl (((d * 10 ^ j : ℕ) : ℚ) * 10 ^ p) := fl_mono (mul_le_mul_of_nonneg_right h1 hp0.le)
          _ = x := h
      · calc x = fl x := hd.symm
          _ ≤ _ := fl_mono hce

/-- **C151.** No shorter text would do: if a decimal number with at most `n` digits is rounded to the double `x`, then the digits
printed for `x` are at most `n`. -/
theorem C151_shortest {x : ℚ} (hx : 0 < x) (hd : fl x = x) {n d : Nat} {q : ℤ} (hn : 0 < n) (hdn : d < 10 ^ n)
    (h : fl ((d : ℚ) * 10 ^ q) = x) :
    ∃ d' q', shortest x = some (d', q') ∧ ((Nat.toDigits 10 d').rdropWhile (· = '0')).length ≤ n ∧
      ((Nat.toDigits 10 d').rdropWhile (· = '0')).length ≤ 17 := by
  obtain ⟨d', q', i, h1, hi, h2, h3⟩ := shortest_spec hx hd
  have hin : i + 1 ≤ n := by
    by_contra hc
    have := closest_of_decimal hx hn hdn h hd
    have h4 := h3 (n - 1) (by omega)
    rw [show n - 1 + 1 = n by omega] at h4
    rw [h4] at this
    cases this
  obtain ⟨h5, h6, h7⟩ := closest_sound h2
  have hq0 : (0 : ℚ) < 10 ^ q' := zpow_pos (by norm_num) q'
  have hd' : d' ≤ 10 ^ (i + 1) := by
    refine h7.trans (Nat.ceil_le.2 ?_)
    rw [div_le_iff₀ hq0]
    have := (Int.lt_zpow_succ_log_self (b := 10) (by norm_num) x).le
    refine this.trans (le_of_eq ?_)
    rw [h6, expo]
    push_cast
    rw [← zpow_natCast, ← zpow_add₀ (by norm_num)]
    congr 1
    omega
  have hlen : ((Nat.toDigits 10 d').rdropWhile (· = '0')).length ≤ i + 1 := by
    rcases hd'.eq_or_lt with e | hlt
    · have e2 : Nat.toDigits 10 (10 ^ (i + 1)) = '1' :: List.replicate (i + 1) '0' := by
        generalize i + 1 = k
        induction k with
        | zero => decide
        | succ k ih =>
          have := Nat.toDigits_append_toDigits (b := 10) (n := 10 ^ k) (d := 0) (by norm_num) (by positivity) (by norm_num)
          rw [ih] at this
          rw [pow_succ, mul_comm, ← add_zero (10 * 10 ^ k), ← this]
          rw [List.replicate_succ', List.cons_append]
          rfl
      rw [e, e2]
      have e3 : ('1' :: List.replicate (i + 1) '0').rdropWhile (fun c => decide (c = '0')) = ['1'] := by
        unfold List.rdropWhile
        rw [List.reverse_cons, List.reverse_replicate, List.dropWhile_append_of_pos (by
          intro c hc
          simp [List.eq_of_mem_replicate hc])]
        decide
      rw [e3]
      simp
    · exact (List.rdropWhile_prefix _ _).length_le.trans ((Nat.length_toDigits_le_iff (by norm_num) (by omega)).2 hlt)
  exact ⟨d', q', h1, by omega, by omega⟩

/-- The conversions of doubles to text and back satisfy the requirements of the round trips C34, C53 and C60. -/
theorem roundTrip_double : Verif.Table.RoundTripOn (fun x : ℚ => fl x = x) print parse := by
  refine ⟨fun x hx => (C151_number hx).1, fun x hx => (C151_number hx).2.1, ?_⟩
  intro x hx c hc hm
  have hnot : ∀ d ∈ [',', ';', '\t', ' ', '\n', '\r', '"', '#', '°', ':'], d.isDigit = false ∧ d ∉ ['.', 'e', '+', '-'] := by decide
  obtain ⟨h1, h2⟩ := hnot c hm
  rcases (C151_number hx).2.2 c hc with h | h
  · rw [h] at h1; cases h1
  · exact h2 h

/-- **C151.** A table of doubles written to a csv file in any of the four formats is read as the same table, number by number. -/
theorem C151_table {t : Table ℚ} (ht : Verif.Table.Storable t) (hws : ∀ x ∈ t.ws, fl x = x) (hwa : ∀ x ∈ t.wa, fl x = x)
    (hb : ∀ r ∈ t.bsps, ∀ x ∈ r, fl x = x) (fmt : Verif.Table.Format) :
    Verif.Table.fromCsv parse (Verif.Table.toCsv print t fmt) fmt = .ok t :=
  Verif.Table.round_trip_on roundTrip_double ht fl_zero hws hwa hb fmt

/-- A table with the sum of 0.1 and 0.2 in all formats. -/
def exTable : Table ℚ := ⟨[fl (fl (1 / 10) + fl (2 / 10)), 8], [fl (3209 / 100)], [[fl (1 / 3), 1 / 2 ^ 20]]⟩

example : Verif.Table.Storable exTable ∧ (∀ x ∈ exTable.ws, fl x = x) ∧ (∀ x ∈ exTable.wa, fl x = x) ∧
    ∀ r ∈ exTable.bsps, ∀ x ∈ r, fl x = x := by
  refine ⟨⟨?_, ?_, ?_, ?_, ?_, ?_, ?_, ?_⟩, ?_, ?_, ?_⟩ <;> decide +kernel

example : Verif.Table.toCsv print exTable .hro =
    ("PolarDiagramTable\r\nTWS\r\n0.30000000000000004,8.0\r\nTWA\r\n32.09\r\nBSP\r\n0.3333333333333333,".toList ++
      "9.5367431640625e-07\r\n".toList) := by
  decide +kernel

/-- **C151.** A non-empty point cloud of doubles written to a csv file is read as the same cloud. -/
theorem C151_cloud {cloud : List (Interp.Pt ℚ)} (hne : cloud ≠ []) (hn : Verif.Cloud.Normal cloud)
    (hP : ∀ p ∈ cloud, fl p.1.1 = p.1.1 ∧ fl p.1.2 = p.1.2 ∧ fl p.2 = p.2) :
    Verif.Cloud.fromCsv parse (Verif.Cloud.toCsv print cloud) = .ok cloud :=
  Verif.Cloud.round_trip_on roundTrip_double hne hn hP

/-- **C151.** A curve of a model function whose parameters are doubles is read with the same parameters. -/
theorem C151_curve {known : Text → Bool} {enough : Text → List ℚ → Bool} {c : Verif.Curve.Named ℚ} (hk : known c.name = true)
    (he : enough c.name c.params = true) (hname : c.name ≠ [] ∧ ':' ∉ c.name ∧ '\n' ∉ c.name) (hP : ∀ x ∈ c.params, fl x = x) :
    Verif.Curve.fromCsv parse known enough (Verif.Curve.toCsv print c) = .ok c :=
  Verif.Curve.round_trip_on roundTrip_double hk he hname hP

example : Verif.Curve.toCsv print ⟨"ws_s_s_dt_wa_gauss_comb".toList, [fl (1 / 10), -(10 ^ 16), 0], true⟩ =
    "PolarDiagramCurve\r\nFunction:ws_s_s_dt_wa_gauss_comb\r\nRadians:True\r\nParameters:0.1:-1e+16:0.0\r\n".toList := by
  decide +kernel

/-- **C151.** So different tables of doubles have different files. -/
theorem C151_distinct {t t' : Table ℚ} (ht : Verif.Table.Storable t) (ht' : Verif.Table.Storable t')
    (h : ∀ x, (x ∈ t.ws ∨ x ∈ t.wa ∨ ∃ r ∈ t.bsps, x ∈ r) → fl x = x)
    (h' : ∀ x, (x ∈ t'.ws ∨ x ∈ t'.wa ∨ ∃ r ∈ t'.bsps, x ∈ r) → fl x = x) (fmt : Verif.Table.Format)
    (he : Verif.Table.toCsv print t fmt = Verif.Table.toCsv print t' fmt) : t = t' := by
  have h1 := C151_table ht (fun x hx => h x (Or.inl hx)) (fun x hx => h x (Or.inr (Or.inl hx)))
    (fun r hr x hx => h x (Or.inr (Or.inr ⟨r, hr, hx⟩))) fmt
  have h2 := C151_table ht' (fun x hx => h' x (Or.inl hx)) (fun x hx => h' x (Or.inr (Or.inl hx)))
    (fun r hr x hx => h' x (Or.inr (Or.inr ⟨r, hr, hx⟩))) fmt
  rw [he, h2] at h1
  exact (Except.ok.inj h1).symm

end Verif.FloatText
