import Verif.Lemmas.Float64
import Verif.Lemmas.Table
import Mathlib.Tactic.LinearCombination

/-!
# Properties C145 and C146: where rounding decides

The wind speeds of tables with a step size (C145) and the normalisation of wind angles (C146) in double precision arithmetic.
-/

namespace Verif.F64

/-- `m / 2^j` as a double. -/
theorem fl_dyadic {m : ℤ} {j : ℕ} (hm : |m| < 2 ^ 53) : fl ((m : ℚ) / 2 ^ j) = (m : ℚ) / 2 ^ j := by
  have := fl_exact (K := ℚ) (m := m) (k := -(j : ℤ)) hm
  rwa [zpow_neg, zpow_natCast, ← div_eq_mul_inv] at this

/-- The number of values is not changed by rounding the quotient. -/
theorem ceil_fl_div {a m : ℤ} (ha0 : 0 ≤ a) (ha : a < 2 ^ 53) (hm : 0 < m) : ⌈fl ((a : ℚ) / m)⌉ = ⌈(a : ℚ) / m⌉ := by
  have hm' : (0 : ℚ) < m := by exact_mod_cast hm
  have hm1 : (1 : ℚ) ≤ m := by exact_mod_cast hm
  have ha' : (0 : ℚ) ≤ a := by exact_mod_cast ha0
  set q := (a : ℚ) / m with hq
  have hq0 : 0 ≤ q := div_nonneg ha' hm'.le
  have hqa : q ≤ a := div_le_self ha' hm1
  set n := ⌈q⌉ with hn
  have h1 : q ≤ n := Int.le_ceil q
  have h2 : (n : ℚ) - 1 < q := by linarith [Int.ceil_lt_add_one q]
  have hn0 : 0 ≤ n := Int.ceil_nonneg hq0
  have hnb : n < 2 ^ 53 := by
    have : n ≤ a := Int.ceil_le.2 hqa
    omega
  have hfn : fl (n : ℚ) = n := fl_int (abs_lt.2 ⟨by omega, hnb⟩)
  rw [Int.ceil_eq_iff]
  refine ⟨?_, hfn ▸ fl_mono h1⟩
  have hk : (n : ℚ) - 1 + 1 / m ≤ q := by
    have h3 : ((n - 1) * m : ℚ) < a := by
      rw [hq, lt_div_iff₀ hm'] at h2
      exact h2
    have h4 : (n - 1) * m + 1 ≤ a := by
      have : ((n - 1) * m : ℤ) < a := by exact_mod_cast h3
      omega
    have h5 : (((n - 1) * m + 1 : ℤ) : ℚ) ≤ a := by exact_mod_cast h4
    push_cast at h5
    rw [hq, le_div_iff₀ hm', add_mul, one_div, inv_mul_cancel₀ hm'.ne']
    exact h5
  have he := fl_error q
  rw [abs_of_nonneg hq0] at he
  have hsmall : (2 : ℚ) ^ (-53 : ℤ) * q < 1 / m := by
    rw [hq, ← mul_div_assoc, div_lt_div_iff_of_pos_right hm', zpow_neg, inv_mul_lt_iff₀ (by positivity), mul_one]
    have : (a : ℚ) < ((2 ^ 53 : ℤ) : ℚ) := by exact_mod_cast ha
    refine this.trans_le ?_
    norm_num
  have := (abs_le.1 he).1
  generalize (2 : ℚ) ^ (-53 : ℤ) * q = c at *
  linarith

/-- **C145.** If the step size is a fraction `m / 2^j` (for instance 5, 0.5 or 1.25) then the wind speeds and wind angles of
the table are exactly the multiples of the step size below the maximum, in ascending order. -/
theorem C145_dyadic_partial {m : ℤ} {j : ℕ} (hm : 0 < m) (hj : j ≤ 40) {M : ℤ} (hM : M = 40 ∨ M = 360)
    (hs : (m : ℚ) / 2 ^ j ≤ M) : ∃ l, stepsize M ((m : ℚ) / 2 ^ j) = .ok l ∧ l.Pairwise (· < ·) ∧
      ∀ x, x ∈ l ↔ ∃ i : ℕ, 0 < i ∧ x = i * ((m : ℚ) / 2 ^ j) ∧ x < M := by
  set s := (m : ℚ) / 2 ^ j with hsdef
  have hp : (0 : ℚ) < 2 ^ j := by positivity
  have hm' : (0 : ℚ) < m := by exact_mod_cast hm
  have hs0 : 0 < s := div_pos hm' hp
  have hM0 : 0 < M := by omega
  have hbound : M * 2 ^ j < 2 ^ 53 := by
    have : (2 : ℤ) ^ j ≤ 2 ^ 40 := pow_le_pow_right₀ (by norm_num) hj
    rcases hM with rfl | rfl <;> omega
  have hdyn : ∀ c : ℤ, 0 ≤ c → c ≤ M * 2 ^ j → fl ((c : ℚ) / 2 ^ j) = (c : ℚ) / 2 ^ j := fun c h0 h1 =>
    fl_dyadic (abs_lt.2 ⟨by omega, by omega⟩)
  have hmM : m ≤ M * 2 ^ j := by
    rw [hsdef, div_le_iff₀ hp] at hs
    exact_mod_cast hs
  set a := M * 2 ^ j - m with ha
  have hMs : (M : ℚ) - s = (a : ℚ) / 2 ^ j := by
    rw [hsdef, ha]
    push_cast
    field_simp
  have hfl1 : fl ((M : ℚ) - s) = (a : ℚ) / 2 ^ j := by rw [hMs, hdyn a (by omega) (by omega)]
  have hq : (a : ℚ) / 2 ^ j / s = (a : ℚ) / m := by
    rw [hsdef]
    field_simp
  set N := ⌈(a : ℚ) / m⌉.toNat with hN
  have hcnt : ⌈fl (fl ((M : ℚ) - s) / s)⌉.toNat = N := by
    rw [hfl1, hq, ceil_fl_div (by omega) (by omega) hm]
  have hlt : ∀ i : ℕ, i < N ↔ ((i + 1 : ℕ) : ℚ) * s < M := by
    intro i
    rw [hN, Int.lt_toNat, Int.lt_ceil, lt_div_iff₀ hm', hsdef, ← mul_div_assoc, div_lt_iff₀ hp]
    have : (a : ℚ) = M * 2 ^ j - m := by rw [ha]; push_cast; ring
    rw [this]
    push_cast
    constructor <;> intro h <;> linarith
  have hmul : ∀ i : ℕ, i < N → fl (((i + 1 : ℕ) : ℚ) * s) = ((i + 1 : ℕ) : ℚ) * s := by
    intro i hi
    have h := ((hlt i).1 hi).le
    have e : ((i + 1 : ℕ) : ℚ) * s = (((i + 1 : ℕ) * m : ℤ) : ℚ) / 2 ^ j := by
      rw [hsdef]
      push_cast
      ring
    rw [e]
    apply hdyn
    · positivity
    · rw [e, div_le_iff₀ hp] at h
      exact_mod_cast h
  have hval : arange s M s = (List.range N).map fun i : ℕ => ((i + 1 : ℕ) : ℚ) * s := by
    unfold arange
    simp only [hcnt]
    apply List.map_congr_left
    intro i hi
    rw [List.mem_range] at hi
    have h2s : 1 < N → fl (s + s) = s + s := by
      intro h
      have := hmul 1 h
      rw [show ((1 + 1 : ℕ) : ℚ) * s = s + s by push_cast; ring] at this
      exact this
    rcases i with _ | _ | i
    · simp
    · rw [if_neg (by norm_num), if_pos rfl, h2s hi]
      push_cast
      ring
    · rw [if_neg (by omega), if_neg (by omega), h2s (by omega), show s + s - s = s by ring]
      have hfs : fl s = s := hdyn m (by omega) hmM
      rw [hfs, hmul (i + 1) (by omega)]
      have := hmul (i + 1 + 1) hi
      rw [show ((i + 1 + 1 + 1 : ℕ) : ℚ) * s = s + ((i + 1 + 1 : ℕ) : ℚ) * s by push_cast; ring] at this ⊢
      exact this
  refine ⟨_, by rw [stepsize, if_neg (not_le.2 hs0), if_neg (not_lt.2 hs)], ?_, ?_⟩
  · rw [hval, List.pairwise_map]
    refine List.pairwise_lt_range.imp fun h => mul_lt_mul_of_pos_right ?_ hs0
    exact_mod_cast Nat.succ_lt_succ h
  · intro x
    rw [hval, List.mem_map]
    constructor
    · rintro ⟨i, hi, rfl⟩
      exact ⟨i + 1, by omega, rfl, (hlt i).1 (List.mem_range.1 hi)⟩
    · rintro ⟨i, hi, rfl, h⟩
      obtain ⟨i, rfl⟩ := Nat.exists_eq_succ_of_ne_zero hi.ne'
      exact ⟨i, List.mem_range.2 ((hlt i).2 h), rfl⟩

/-- In all cases the step sizes that are not positive or above the maximum are rejected with `ValueError`, and the others are
accepted. -/
theorem C145_accepted (M s : ℚ) : (0 < s ∧ s ≤ M → ∃ l, stepsize M s = .ok l) ∧
    (¬ (0 < s ∧ s ≤ M) → stepsize M s = .error .valueError) := by
  constructor
  · rintro ⟨h0, h1⟩
    exact ⟨_, by rw [stepsize, if_neg (not_le.2 h0), if_neg (not_lt.2 h1)]⟩
  · intro h
    unfold stepsize
    split
    · rfl
    · rw [if_pos]
      by_contra hc
      exact h ⟨by linarith, by linarith⟩

/-- **C145** is false for other step sizes: a table with step size 0.1 for the wind speeds has no entries for the wind speed
0.3 (the nearest wind speed of the table is `0.30000000000000004`), so that looking up the entry raises `ValueError`. -/
theorem C145_lookup_false : ∃ l, stepsize 40 (fl (1 / 10)) = .ok l ∧ (∃ y ∈ l, |y - 3 / 10| ≤ 1 / 10 ^ 16) ∧
    fl (3 / 10) ∉ l ∧ ∀ t : Table ℚ, t.ws = l → ∀ a, Table.get t (fl (3 / 10)) a = .error .valueError := by
  have hno : fl (3 / 10) ∉ arange (fl (1 / 10)) 40 (fl (1 / 10)) := by decide +kernel
  refine ⟨_, by rw [stepsize, if_neg (by decide +kernel), if_neg (by decide +kernel)], ?_, hno, fun t ht a => Table.get_missing (Or.inl (ht ▸ hno))⟩
  exact ⟨fl (3 / 10) + 1 / 2 ^ 54, by decide +kernel, by decide +kernel⟩

/-- **C145** is false for other step sizes: with step size 0.16 the maximum 40, which is to be excluded, is one of the wind
speeds. -/
theorem C145_max_false : ∃ l, stepsize 40 (fl (16 / 100)) = .ok l ∧ 40 ∈ l :=
  ⟨arange (fl (16 / 100)) 40 (fl (16 / 100)), by rw [stepsize, if_neg (by decide +kernel), if_neg (by decide +kernel)],
    by decide +kernel⟩

example : ∃ l, stepsize 40 (1 / 2) = .ok l ∧ 39 + 1 / 2 ∈ l ∧ 40 ∉ l := by
  obtain ⟨l, h1, -, h2⟩ := C145_dyadic_partial (m := 1) (j := 1) (by norm_num) (by norm_num) (M := 40) (Or.inl rfl) (by norm_num)
  refine ⟨l, by simpa using h1, (h2 _).2 ⟨79, by norm_num, by norm_num, by norm_num⟩, fun h => ?_⟩
  obtain ⟨-, -, -, h⟩ := (h2 _).1 h
  norm_num at h

/-! ### Wind angles -/

/-- **C146.** Wind angles from 0 on are normalised as in exact arithmetic, to the range from 0 (included) to 360
(excluded). -/
theorem C146_nonneg {x : ℚ} (hx : 0 ≤ x) : mod x 360 = pmod x 360 ∧ 0 ≤ mod x 360 ∧ mod x 360 < 360 := by
  have h0 := pmod_nonneg x (m := 360) (by norm_num)
  have h1 := pmod_lt x (m := 360) (by norm_num)
  have : mod x 360 = pmod x 360 := by
    simp only [mod, fmod, if_pos hx, if_neg (not_lt.2 h0)]
  rw [this]
  exact ⟨rfl, h0, h1⟩

theorem pmod_neg {x : ℚ} (h : pmod (-x) 360 ≠ 0) : pmod x 360 = 360 - pmod (-x) 360 := by
  have h0 := pmod_nonneg (-x) (m := 360) (by norm_num)
  have h1 := pmod_lt (-x) (m := 360) (by norm_num)
  have h2 := pmod_of_mem (x := 360 - pmod (-x) 360) (m := 360) (by linarith) (by
    have := lt_of_le_of_ne h0 (Ne.symm h)
    linarith)
  rw [← h2, pmod_eq_iff _ _ (by norm_num)]
  refine ⟨-⌊-x / 360⌋ - 1, ?_⟩
  simp only [pmod]
  push_cast
  ring

/-- **C146.** For negative wind angles which are at least `2^-44` degrees away from the multiples of 360, the result is from 0
(included) to 360 (excluded), too, and it is the exact result rounded. -/
theorem C146_negative_partial {x : ℚ} (hx : x < 0) (h : pmod x 360 ≤ 360 - 1 / 2 ^ 44) :
    mod x 360 = fl (pmod x 360) ∧ 0 ≤ mod x 360 ∧ mod x 360 < 360 := by
  have h0 := pmod_nonneg x (m := 360) (by norm_num)
  have hm : mod x 360 = fl (pmod x 360) := by
    simp only [mod, fmod, if_neg (not_le.2 hx)]
    by_cases hz : pmod (-x) 360 = 0
    · have : pmod x 360 = 0 := by
        have h1 : pmod x 360 = pmod 0 360 := by
          rw [pmod_eq_iff _ _ (by norm_num)]
          refine ⟨-⌊-x / 360⌋, ?_⟩
          simp only [pmod] at hz
          push_cast
          linarith
        rw [h1, pmod_of_mem (by norm_num) (by norm_num)]
      rw [hz, this]
      simp [fl_zero]
    · have hp := lt_of_le_of_ne (pmod_nonneg (-x) (m := 360) (by norm_num)) (Ne.symm hz)
      rw [if_pos (by linarith), pmod_neg hz]
      congr 1
      ring
  rw [hm]
  refine ⟨rfl, fl_nonneg h0, (fl_mono h).trans_lt ?_⟩
  have : (360 - 1 / 2 ^ 44 : ℚ) = ((360 * 2 ^ 44 - 1 : ℤ) : ℚ) / 2 ^ 44 := by norm_num
  rw [this, fl_dyadic (by norm_num)]
  norm_num

/-- **C146.** Whole degrees are normalised exactly. -/
theorem C146_integers (n : ℤ) : mod n 360 = ((n % 360 : ℤ) : ℚ) := by
  have hp : pmod (n : ℚ) 360 = ((n % 360 : ℤ) : ℚ) := by
    have h0 := Int.emod_nonneg n (b := 360) (by norm_num)
    have h1 := Int.emod_lt_of_pos n (b := 360) (by norm_num)
    rw [← pmod_of_mem (x := ((n % 360 : ℤ) : ℚ)) (m := 360) (by exact_mod_cast h0) (by exact_mod_cast h1),
      pmod_eq_iff _ _ (by norm_num)]
    refine ⟨n / 360, ?_⟩
    have := Int.emod_add_mul_ediv n 360
    exact_mod_cast this.symm
  rcases le_or_gt 0 n with hn | hn
  · rw [(C146_nonneg (x := n) (by exact_mod_cast hn)).1, hp]
  · have h0 := Int.emod_nonneg n (b := 360) (by norm_num)
    have h1 := Int.emod_lt_of_pos n (b := 360) (by norm_num)
    rw [(C146_negative_partial (x := n) (by exact_mod_cast hn) ?_).1, hp, fl_int (abs_lt.2 ⟨by omega, by omega⟩)]
    rw [hp]
    have : ((n % 360 : ℤ) : ℚ) ≤ ((359 : ℤ) : ℚ) := by exact_mod_cast (by omega : n % 360 ≤ 359)
    refine this.trans ?_
    norm_num

/-- **C146** is false for negative wind angles near 0: `-1e-20` is normalised to 360, which is outside of the range, and
normalising again gives 0. -/
theorem C146_tiny_false : mod (fl (-1 / 10 ^ 20)) 360 = 360 ∧ mod (mod (fl (-1 / 10 ^ 20)) 360) 360 = 0 := by
  constructor <;> decide +kernel

/-- **C146.** So in a table made for the wind angle `-1e-20` the entry is not found at the wind angle 360 (or 0), although it
is the wind angle shown by the table. -/
theorem C146_lookup_false (w x : ℚ) (hw : 0 ≤ w) :
    let t : Table ℚ := ⟨[w], [mod (fl (-1 / 10 ^ 20)) 360], [[x]]⟩
    t.wa = [360] ∧ mod 360 360 ∉ t.wa ∧ Table.get t w 360 = .error .valueError := by
  have h := C146_tiny_false.1
  have h3 : mod 360 360 = 0 := by decide +kernel
  have hp : pmod (360 : ℚ) 360 = 0 := pmod_self (by norm_num)
  refine ⟨by rw [h], by rw [h, h3]; norm_num, Table.get_missing (Or.inr ?_)⟩
  rw [hp]
  simp only [h]
  norm_num

example : mod (-30) 360 = 330 := by decide +kernel

example : mod (fl (-1 / 10)) 360 = fl (3599 / 10) := by decide +kernel

end Verif.F64
