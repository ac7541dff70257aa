import Verif.Props.Float64
import Verif.Props.FloatFilter
import Verif.Props.FloatSymmetry

/-!
# Exact conditions for properties C145 and C146

The errors of the wind speeds of tables with a step size (C145), and the wind angles normalised to 360 (C146).
-/

namespace Verif.F64

/-! ### Wind angles -/

theorem mod_neg_eq {x : ℚ} (hx : x < 0) : mod x 360 = fl (pmod x 360) := by
  simp only [mod, fmod, if_neg (not_le.2 hx)]
  by_cases hz : pmod (-x) 360 = 0
  · have : pmod x 360 = 0 := by
      have h1 : pmod x 360 = pmod 0 360 := by
        rw [pmod_eq_iff _ _ (by norm_num)]
        refine ⟨-⌊-x / 360⌋, ?_⟩
        simp only [pmod] at hz
        push_cast
        linarith
      rw [h1, pmod_of_mem (by norm_num) (by norm_num)]
    rw [hz, this]
    simp [fl_zero]
  · have hp := lt_of_le_of_ne (pmod_nonneg (-x) (m := 360) (by norm_num)) (Ne.symm hz)
    rw [if_pos (by linarith), pmod_neg hz]
    congr 1
    ring

theorem fl_full : fl (360 : ℚ) = 360 := by decide +kernel

/-- Rounding a number below 360 gives 360 if the number is at most `2^-45` away, and a number below 360 otherwise. -/
theorem fl_below_360 {p : ℚ} (h0 : 0 ≤ p) (h1 : p < 360) : (360 - 2 ^ (-45 : ℤ) ≤ p → fl p = 360) ∧
    (p < 360 - 2 ^ (-45 : ℤ) → fl p < 360) := by
  constructor
  · intro h
    refine le_antisymm (fl_full ▸ fl_mono h1.le) ?_
    have : fl (360 - 2 ^ (-45 : ℤ) : ℚ) = 360 := by decide +kernel
    rw [← this]
    exact fl_mono h
  · intro h
    rcases le_or_gt p (360 - 2 ^ (-44 : ℤ)) with hp | hp
    · refine (fl_mono hp).trans_lt ?_
      have : fl (360 - 2 ^ (-44 : ℤ) : ℚ) = 360 - 2 ^ (-44 : ℤ) := by decide +kernel
      rw [this]
      norm_num
    · have hp1 : (256 : ℚ) ≤ p := le_trans (by norm_num) hp.le
      have hpos : (0 : ℚ) < p := by linarith
      have hlog : Int.log 2 |p| = 8 := by
        rw [abs_of_pos hpos]
        refine le_antisymm ?_ ?_
        · have := (Int.lt_zpow_iff_log_lt (b := 2) (x := 9) (by norm_num) hpos).1 (by push_cast; norm_num; linarith)
          omega
        · exact (Int.zpow_le_iff_le_log (b := 2) (x := 8) (by norm_num) hpos).1 (by push_cast; norm_num; exact hp1)
      unfold fl
      rw [if_neg hpos.ne']
      simp only [hlog]
      have hr := (pyRound_spec (p / 2 ^ ((8 : ℤ) - 52))).1
      have e : p / 2 ^ ((8 : ℤ) - 52) < 360 * 2 ^ 44 - 1 / 2 := by
        rw [div_lt_iff₀ (by positivity)]
        refine h.trans_le ?_
        norm_num
      have hlt : (pyRound (p / 2 ^ ((8 : ℤ) - 52)) : ℚ) < ((360 * 2 ^ 44 : ℤ) : ℚ) := by
        push_cast
        linarith
      calc (pyRound (p / 2 ^ ((8 : ℤ) - 52)) : ℚ) * 2 ^ ((8 : ℤ) - 52)
          < ((360 * 2 ^ 44 : ℤ) : ℚ) * 2 ^ ((8 : ℤ) - 52) := mul_lt_mul_of_pos_right hlt (by positivity)
        _ = 360 := by norm_num

/-- **C146.** A wind angle is normalised to 360 instead of a number below 360 exactly if it is negative and lies at most `2^-45`
degrees below a multiple of 360. -/
theorem C146_exactly (x : ℚ) : (mod x 360 = 360 ↔ x < 0 ∧ 360 - 2 ^ (-45 : ℤ) ≤ pmod x 360) ∧
    (mod x 360 < 360 ↔ ¬ (x < 0 ∧ 360 - 2 ^ (-45 : ℤ) ≤ pmod x 360)) ∧ 0 ≤ mod x 360 ∧ mod x 360 ≤ 360 := by
  rcases lt_or_ge x 0 with hx | hx
  · rw [mod_neg_eq hx]
    have h0 := pmod_nonneg x (m := 360) (by norm_num)
    have h1 := pmod_lt x (m := 360) (by norm_num)
    obtain ⟨h2, h3⟩ := fl_below_360 h0 h1
    by_cases hc : 360 - 2 ^ (-45 : ℤ) ≤ pmod x 360
    · have := h2 hc
      exact ⟨⟨fun _ => ⟨hx, hc⟩, fun _ => this⟩, ⟨fun h => absurd this h.ne, fun h => absurd ⟨hx, hc⟩ h⟩, fl_nonneg h0, this.le⟩
    · have := h3 (not_le.1 hc)
      exact ⟨⟨fun h => absurd h this.ne, fun h => absurd h.2 hc⟩, ⟨fun _ h => hc h.2, fun _ => this⟩, fl_nonneg h0, this.le⟩
  · obtain ⟨-, h1, h2⟩ := C146_nonneg hx
    exact ⟨⟨fun h => absurd h h2.ne, fun h => absurd h.1 (not_lt.2 hx)⟩, ⟨fun _ h => absurd h.1 (not_lt.2 hx), fun _ => h2⟩, h1, h2.le⟩

/-- **C146.** For doubles the condition is that the angle lies between `-2^-45` degrees and 0. -/
theorem C146_doubles_exactly {x : ℚ} (hd : fl x = x) : mod x 360 = 360 ↔ -2 ^ (-45 : ℤ) ≤ x ∧ x < 0 := by
  rw [(C146_exactly x).1]
  refine ⟨fun ⟨hx, h⟩ => ⟨?_, hx⟩, fun ⟨h, hx⟩ => ⟨hx, ?_⟩⟩
  · rcases lt_or_ge (-256) x with hs | hs
    · have : pmod x 360 = x + 360 := by
        rw [← pmod_of_mem (x := x + 360) (m := 360) (by linarith) (by linarith), pmod_eq_iff _ _ (by norm_num)]
        exact ⟨-1, by push_cast; ring⟩
      rw [this] at h
      linarith
    · exfalso
      have hpos : 0 < |x| := abs_pos.2 hx.ne
      have hlog : 8 ≤ Int.log 2 |x| := (Int.zpow_le_iff_le_log (b := 2) (x := 8) (by norm_num) hpos).1 (by
        rw [abs_of_neg hx]
        push_cast
        norm_num
        linarith)
      obtain ⟨d, hd'⟩ := Int.eq_ofNat_of_zero_le (sub_nonneg.2 hlog)
      obtain ⟨m, hm⟩ : ∃ m : ℤ, x = m * 2 ^ (-44 : ℤ) := by
        unfold fl at hd
        rw [if_neg hx.ne] at hd
        refine ⟨pyRound (x / 2 ^ (Int.log 2 |x| - 52)) * 2 ^ d, ?_⟩
        conv_lhs => rw [← hd]
        push_cast
        rw [mul_assoc, ← zpow_natCast (2 : ℚ) d, ← zpow_add₀ (by norm_num), ← hd']
        congr 2
        ring
      have h1 := pmod_lt x (m := 360) (by norm_num)
      have hp : pmod x 360 = ((m - 360 * 2 ^ 44 * ⌊x / 360⌋ : ℤ) : ℚ) * 2 ^ (-44 : ℤ) := by
        unfold pmod
        conv_lhs => rw [hm]
        rw [← hm]
        push_cast
        rw [sub_mul, ← hm]
        congr 1
        rw [mul_right_comm]
        norm_num
      set k := m - 360 * 2 ^ 44 * ⌊x / 360⌋
      rw [hp] at h h1
      have hc : (0 : ℚ) < 2 ^ (-44 : ℤ) := by positivity
      have a1 : (k : ℚ) < ((360 * 2 ^ 44 : ℤ) : ℚ) :=
        lt_of_mul_lt_mul_right (h1.trans_le (by norm_num)) hc.le
      have a2 : ((360 * 2 ^ 44 - 1 : ℤ) : ℚ) < (k : ℚ) :=
        lt_of_mul_lt_mul_right (lt_of_lt_of_le (by norm_num) h) hc.le
      have a1' : k < 360 * 2 ^ 44 := by exact_mod_cast a1
      have a2' : 360 * 2 ^ 44 - 1 < k := by exact_mod_cast a2
      omega
  · have hlow : (-1 : ℚ) < x := lt_of_lt_of_le (by norm_num) h
    have : pmod x 360 = x + 360 := by
      rw [← pmod_of_mem (x := x + 360) (m := 360) (by linarith) (by linarith), pmod_eq_iff _ _ (by norm_num)]
      exact ⟨-1, by push_cast; ring⟩
    rw [this]
    linarith

/-- **C146.** Normalising twice gives the same angle as normalising once, except for the angles normalised to 360: these become 0. -/
theorem C146_twice_exactly (x : ℚ) : (mod (mod x 360) 360 = mod x 360 ↔ mod x 360 ≠ 360) ∧
    (mod x 360 = 360 → mod (mod x 360) 360 = 0) := by
  obtain ⟨-, -, h0, h1⟩ := C146_exactly x
  have hm := (C146_nonneg h0).1
  have h360 : pmod (360 : ℚ) 360 = 0 := by decide +kernel
  refine ⟨⟨fun h h' => ?_, fun h => ?_⟩, fun h => ?_⟩
  · rw [hm, h', h360] at h
    norm_num at h
  · rw [hm, pmod_of_mem h0 (lt_of_le_of_ne h1 h)]
  · rw [hm, h, h360]

/-- The smallest angle of this kind, and the next one which is normalised below 360. -/
example : mod (-2 ^ (-45 : ℤ)) 360 = 360 ∧ mod (-2 ^ (-45 : ℤ) - 2 ^ (-97 : ℤ)) 360 = 360 - 2 ^ (-44 : ℤ) ∧
    fl (-2 ^ (-45 : ℤ) : ℚ) = -2 ^ (-45 : ℤ) ∧ fl (-2 ^ (-45 : ℤ) - 2 ^ (-97 : ℤ) : ℚ) = -2 ^ (-45 : ℤ) - 2 ^ (-97 : ℤ) := by
  decide +kernel

/-- For -360 and the double below it. -/
example : mod (-360) 360 = 0 ∧ mod (-360 - 2 ^ (-44 : ℤ)) 360 = 360 - 2 ^ (-44 : ℤ) := by decide +kernel

example : mod (mod (-1 / 10) 360) 360 = mod (-1 / 10) 360 :=
  (C146_twice_exactly _).1.2 fun h => absurd ((C146_exactly _).1.1 h).2 (by decide +kernel)

/-! ### Wind speeds of a step size -/

theorem fl_two_mul {s : ℚ} (hd : fl s = s) : fl (s + s) = s + s := by
  have := fl_scale s 1
  rw [show s + s = s * 2 ^ (1 : ℤ) by norm_num; ring, this, hd]

/-- **C145.** Number `i` of the wind speeds of a step size `s` is `s + i * s` with both operations rounded. -/
theorem C145_values_exactly {M s : ℚ} (hd : fl s = s) (h0 : 0 < s) (h1 : s ≤ M) :
    stepsize M s = .ok ((List.range ⌈fl (fl (M - s) / s)⌉.toNat).map fun i : Nat => fl (s + fl ((i : ℚ) * s))) := by
  unfold stepsize arange
  rw [if_neg (not_le.2 h0), if_neg (not_lt.2 h1)]
  simp only [fl_two_mul hd, add_sub_cancel_right, hd]
  congr 1
  refine List.map_congr_left fun i _ => ?_
  split
  · next h => simp [h, fl_zero, hd]
  · split
    · next h => simp [h, hd, fl_two_mul hd]
    · rfl

theorem fl_upper_add {x : ℚ} (hx : 0 ≤ x) : fl x ≤ x + 2 ^ (-53 : ℤ) * x := by
  have := (abs_le.1 (fl_error x)).2
  rw [abs_of_nonneg hx] at this
  linarith

theorem fl_lower_sub {x : ℚ} (hx : 0 ≤ x) : x - 2 ^ (-53 : ℤ) * x ≤ fl x := by
  have := (abs_le.1 (fl_error x)).1
  rw [abs_of_nonneg hx] at this
  linarith

/-- The quotient deciding about the number of wind speeds. -/
theorem count_close {M s : ℚ} (h0 : 0 < s) (h1 : s ≤ M) :
    fl (fl (M - s) / s) * s ≤ (M - s) * (1 + 3 * 2 ^ (-53 : ℤ)) ∧ (M - s) * (1 - 2 * 2 ^ (-53 : ℤ)) ≤ fl (fl (M - s) / s) * s := by
  have hD : 0 ≤ M - s := sub_nonneg.2 h1
  have a0 := fl_nonneg hD
  have a1 := fl_upper_add hD
  have a2 := fl_lower_sub hD
  have b0 : 0 ≤ fl (M - s) / s := div_nonneg a0 h0.le
  have b1 := mul_le_mul_of_nonneg_right (fl_upper_add b0) h0.le
  have b2 := mul_le_mul_of_nonneg_right (fl_lower_sub b0) h0.le
  have e : fl (M - s) / s * s = fl (M - s) := div_mul_cancel₀ _ h0.ne'
  rw [add_mul, mul_assoc, e] at b1
  rw [sub_mul, mul_assoc, e] at b2
  generalize fl (M - s) = A at *
  generalize fl (A / s) * s = B at *
  generalize M - s = D at *
  norm_num at *
  constructor <;> linarith

/-- **C145.** For every step size that is a double the wind speeds are the multiples of the step size with errors of at most
`3 * 2^-53` times the multiple, and no multiple exceeds the maximal wind speed by more than this. -/
theorem C145_error {M s : ℚ} (hd : fl s = s) (h0 : 0 < s) (h1 : s ≤ M) :
    ∃ l, stepsize M s = .ok l ∧ ∀ (i : ℕ) x, l[i]? = some x →
      |x - ((i : ℚ) + 1) * s| ≤ 3 * 2 ^ (-53 : ℤ) * (((i : ℚ) + 1) * s) ∧ ((i : ℚ) + 1) * s < M * (1 + 3 * 2 ^ (-53 : ℤ)) := by
  refine ⟨_, C145_values_exactly hd h0 h1, fun i x hx => ?_⟩
  simp only [List.getElem?_map, Option.map_eq_some_iff] at hx
  obtain ⟨j, hj, rfl⟩ := hx
  rw [List.getElem?_eq_some_iff] at hj
  obtain ⟨hj1, hj2⟩ := hj
  simp only [List.length_range] at hj1
  simp only [List.getElem_range] at hj2
  subst hj2
  have hi : (0 : ℚ) ≤ i := Nat.cast_nonneg i
  have hlt : (i : ℚ) < fl (fl (M - s) / s) := by
    have : (i : ℤ) < ⌈fl (fl (M - s) / s)⌉ := by omega
    exact_mod_cast Int.lt_ceil.1 this
  have hq := (count_close h0 h1).1
  have hlt' := mul_lt_mul_of_pos_right hlt h0
  have his : 0 ≤ (i : ℚ) * s := mul_nonneg hi h0.le
  constructor
  · have a1 := fl_upper_add his
    have a2 := fl_lower_sub his
    have a0 := fl_nonneg his
    have hsum : 0 ≤ s + fl ((i : ℚ) * s) := by linarith
    have b1 := fl_upper_add hsum
    have b2 := fl_lower_sub hsum
    rw [add_mul, one_mul]
    generalize fl (s + fl ((i : ℚ) * s)) = X at *
    generalize fl ((i : ℚ) * s) = Y at *
    generalize (i : ℚ) * s = Z at *
    rw [abs_le]
    norm_num at *
    constructor <;> linarith
  · rw [add_mul, one_mul]
    generalize fl (fl (M - s) / s) * s = B at *
    generalize (i : ℚ) * s = Z at *
    norm_num at *
    linarith

/-- **C145.** If the step size is at least the `2^50`th part of the maximal wind speed then the wind speeds are strictly increasing and
their number differs from the exact one by at most one. -/
theorem C145_length {M s : ℚ} (hd : fl s = s) (h0 : 0 < s) (h1 : s ≤ M) (h2 : M ≤ 2 ^ 50 * s) :
    ∃ l, stepsize M s = .ok l ∧ l.Pairwise (· < ·) ∧ |(l.length : ℤ) - (⌈M / s⌉ - 1)| ≤ 1 := by
  obtain ⟨l, hl, he⟩ := C145_error hd h0 h1
  refine ⟨l, hl, ?_, ?_⟩
  · rw [List.pairwise_iff_getElem]
    intro i j hi hj hij
    obtain ⟨a1, -⟩ := he i l[i] (List.getElem?_eq_getElem hi)
    obtain ⟨b1, b2⟩ := he j l[j] (List.getElem?_eq_getElem hj)
    have hij' : (i : ℚ) + 1 ≤ j := by exact_mod_cast hij
    have hm := mul_le_mul_of_nonneg_right hij' h0.le
    have hi0 : 0 ≤ (i : ℚ) * s := mul_nonneg (Nat.cast_nonneg i) h0.le
    rw [abs_le] at a1 b1
    rw [add_mul, one_mul] at *
    generalize (i : ℚ) * s = I at *
    generalize (j : ℚ) * s = J at *
    norm_num at *
    linarith
  · rw [C145_values_exactly hd h0 h1, Except.ok.injEq] at hl
    subst hl
    rw [List.length_map, List.length_range]
    obtain ⟨hq1, hq2⟩ := count_close h0 h1
    have hQ0 : 0 ≤ fl (fl (M - s) / s) := fl_nonneg (div_nonneg (fl_nonneg (sub_nonneg.2 h1)) h0.le)
    rw [Int.toNat_of_nonneg (Int.ceil_nonneg hQ0)]
    have e : M / s * s = M := div_mul_cancel₀ _ h0.ne'
    have c1 := Int.le_ceil (M / s)
    have c2 := Int.ceil_lt_add_one (M / s)
    have d1 := Int.le_ceil (fl (fl (M - s) / s))
    have d2 := Int.ceil_lt_add_one (fl (fl (M - s) / s))
    have f1 : fl (fl (M - s) / s) < M / s := by
      refine lt_of_mul_lt_mul_right ?_ h0.le
      rw [e]
      generalize fl (fl (M - s) / s) * s = B at *
      norm_num at *
      linarith
    have f2 : M / s < fl (fl (M - s) / s) + 2 := by
      refine lt_of_mul_lt_mul_right ?_ h0.le
      rw [e, add_mul]
      generalize fl (fl (M - s) / s) * s = B at *
      norm_num at *
      linarith
    generalize fl (fl (M - s) / s) = Q at *
    generalize M / s = R at *
    have g1 : (⌈Q⌉ : ℚ) < ((⌈R⌉ + 1 : ℤ) : ℚ) := by push_cast; linarith
    have g2 : (⌈R⌉ : ℚ) < ((⌈Q⌉ + 3 : ℤ) : ℚ) := by push_cast; linarith
    have g1' : ⌈Q⌉ < ⌈R⌉ + 1 := by exact_mod_cast g1
    have g2' : ⌈R⌉ < ⌈Q⌉ + 3 := by exact_mod_cast g2
    rw [abs_le]
    constructor <;> omega

/-- All step sizes that are not too small, for example one tenth of a knot. -/
example : ∃ l, stepsize 40 (fl (1 / 10)) = .ok l ∧ l.Pairwise (· < ·) ∧ |(l.length : ℤ) - (⌈40 / fl (1 / 10 : ℚ)⌉ - 1)| ≤ 1 :=
  C145_length (by decide +kernel) (by decide +kernel) (by decide +kernel) (by decide +kernel)

/-- One value more than in exact arithmetic, and one less. -/
theorem C145_length_matters : (∃ l, stepsize 40 (fl (16 / 100)) = .ok l ∧ (l.length : ℤ) = ⌈40 / fl (16 / 100 : ℚ)⌉ - 1 + 1) ∧
    ∃ l, stepsize 40 (fl (40 / 19)) = .ok l ∧ (l.length : ℤ) = ⌈40 / fl (40 / 19 : ℚ)⌉ - 1 - 1 := by
  refine ⟨⟨_, C145_values_exactly (by decide +kernel) (by decide +kernel) (by decide +kernel), ?_⟩,
    ⟨_, C145_values_exactly (by decide +kernel) (by decide +kernel) (by decide +kernel), ?_⟩⟩ <;>
  · rw [List.length_map, List.length_range]
    decide +kernel

/-! ### Symmetrised tables -/

open Verif.Table (WF get get_entry decomp goodShape sortTable_spec)

theorem init_wa_perm {ws wa : List ℚ} {bsps : List (List ℚ)} {t : Table ℚ}
    (h : Table.init (.values ws) (.values wa) (some bsps) = .ok t) : t.wa.Perm (wa.map fun a => pmod a 360) := by
  simp only [Table.init, Table.buildWs, Table.buildWa, bind, Except.bind] at h
  split at h
  · simp at h
  · next v hv =>
    split at h
    · simp at h
    · next v' hv' =>
      split at hv'
      · simp at hv'
      · simp only [Except.ok.injEq] at hv'
        subst hv'
        split at h
        · simp at h
        · next hs =>
          split at h
          · simp at h
          · simp only [Except.ok.injEq] at h
            subst h
            exact (sortTable_spec (by simpa using hs)).2.2.1

/-- The angle under which the boat speeds at the angle `a` are stored by `symmetrize`. -/
def image (a : ℚ) : ℚ := pmod (fl (360 - a)) 360

theorem image_zero : image 0 = 0 := by decide +kernel

theorem image_half : image 180 = 180 := by decide +kernel

theorem image_range {a : ℚ} (h0 : 0 ≤ a) (h1 : a ≤ 180) : image a = 0 ∨ 180 ≤ image a := by
  have a1 : (180 : ℚ) ≤ fl (360 - a) := by
    have := fl_mono (show (180 : ℚ) ≤ 360 - a by linarith)
    rwa [fl_180] at this
  have a2 : fl (360 - a) ≤ 360 := by
    have := fl_mono (show 360 - a ≤ (360 : ℚ) by linarith)
    rwa [fl_360] at this
  rcases a2.eq_or_lt with e | e
  · left
    rw [image, e, pmod_self (by norm_num)]
  · right
    rw [image, pmod_of_mem (by linarith) e]
    exact a1

/-- **C150.** The symmetrised table is a table with different wind angles exactly if the rounded mirror images of the wind angles
are different; then the boat speed at each wind angle is unchanged and is found under the rounded mirror image, however close the
angles are. -/
theorem C150_mirror_exactly {t : Table ℚ} (h : WF t) (h180 : ∀ a ∈ t.wa, a ≤ 180) :
    ((∃ t', symmetrize t = .ok t' ∧ WF t') ↔ (t.wa.map image).Nodup) ∧
    ((t.wa.map image).Nodup → ∃ t', symmetrize t = .ok t' ∧ WF t' ∧ t'.ws = t.ws ∧
      (∀ b, b ∈ t'.wa ↔ b ∈ t.wa ∨ ∃ a ∈ t.wa, b = pmod (fl (360 - a)) 360) ∧
      ∀ w ∈ t.ws, ∀ a ∈ t.wa, ∃ x, get t w a = .ok x ∧ get t' w a = .ok x ∧ get t' w (fl (360 - a)) = .ok x) := by
  have hfst : (t.wa.zip t.bsps).map (·.1) = t.wa := List.map_fst_zip (by rw [h.rows])
  obtain ⟨Z, M, H, hP, hZ, hH, hM⟩ := decomp (P := t.wa.zip t.bsps) (by rw [hfst]; exact h.wa_sorted)
    (fun p hp => by
      have : p.1 ∈ t.wa := (List.of_mem_zip hp).1
      exact ⟨h.wa_nonneg _ this, h180 _ this⟩)
  have hpos : (0 : ℚ) < 360 := by norm_num
  rw [symmetrizeD_eq hP h.rows hZ hH hM]
  set F := Z ++ M ++ H ++ M.reverse.map mirrorD with hF
  have hFP : F = t.wa.zip t.bsps ++ M.reverse.map mirrorD := by rw [hF, hP]
  have hwa : t.wa.map (fun a => pmod a 360) = t.wa := by
    conv_rhs => rw [← List.map_id t.wa]
    refine List.map_congr_left fun a ha => ?_
    exact pmod_of_mem (h.wa_nonneg a ha) (h.wa_lt a ha)
  have hmodF : (F.map (·.1)).map (fun a => pmod a 360) = t.wa ++ (M.map fun q => image q.1).reverse := by
    rw [hFP, List.map_append, hfst, List.map_append, hwa]
    congr 1
    rw [List.map_map, List.map_map, ← List.map_reverse]
    rfl
  have hMmem : ∀ q ∈ M, q.1 ∈ t.wa := fun q hq =>
    (List.of_mem_zip (a := q.1) (b := q.2) (by rw [hP]; simp [hq])).1
  have himg : t.wa.map image = (Z.map fun q => q.1) ++ (M.map fun q => image q.1) ++ H.map fun q => q.1 := by
    conv_lhs => rw [← hfst, hP]
    simp only [List.map_append, List.map_map]
    congr 1
    · congr 1
      rcases hZ with rfl | ⟨r, rfl⟩
      · rfl
      · simp [image_zero]
    · rcases hH with rfl | ⟨r, rfl⟩
      · rfl
      · simp [image_half]
  have hwaeq : t.wa = (Z.map fun q => q.1) ++ (M.map fun q => q.1) ++ H.map fun q => q.1 := by
    rw [← hfst, hP]
    simp
  have hwan : t.wa.Nodup := h.wa_sorted.imp fun h => ne_of_lt h
  have hiff : ((F.map (·.1)).map fun a => pmod a 360).Nodup ↔ (t.wa.map image).Nodup := by
    rw [hmodF]
    constructor
    · intro hn
      have hn' : (((M.map fun q => image q.1) ++ ((Z.map fun q => q.1) ++ H.map fun q => q.1))).Nodup := by
        refine List.Nodup.sublist (l₂ := (M.map fun q => image q.1) ++ t.wa) (List.Sublist.append_left ?_ _) ?_
        · rw [hwaeq]
          exact List.Sublist.append (List.sublist_append_left _ _) (List.Sublist.refl _)
        · refine (List.Perm.nodup_iff ?_).1 hn
          exact List.perm_append_comm.trans (List.Perm.append_right _ (List.reverse_perm _))
      rw [himg]
      refine (List.Perm.nodup_iff ?_).1 hn'
      rw [← List.append_assoc]
      exact List.Perm.append_right _ List.perm_append_comm
    · intro hn
      have hinj : ∀ a ∈ t.wa, ∀ b ∈ t.wa, image a = image b → a = b := fun a ha b hb e =>
        List.inj_on_of_nodup_map hn ha hb e
      rw [List.nodup_append]
      refine ⟨hwan, ?_, ?_⟩
      · rw [List.nodup_reverse]
        rw [himg] at hn
        exact (List.nodup_append.1 (List.nodup_append.1 hn).1).2.1
      · intro a ha b hb e
        subst e
        obtain ⟨q, hq, hqa⟩ := List.mem_map.1 (List.mem_reverse.1 hb)
        have hq' := hMmem q hq
        obtain ⟨b1, b2⟩ := hM q hq
        rcases image_range b1.le b2.le with e | e
        · have : a = 0 := by rw [← hqa, e]
          subst this
          exact b1.ne (hinj 0 ha q.1 hq' (by rw [image_zero, e]))
        · have h1 := h180 a ha
          have : a = 180 := le_antisymm h1 (by rw [← hqa]; exact e)
          subst this
          exact b2.ne' (hinj 180 ha q.1 hq' (by rw [image_half, hqa]))
  have main : (t.wa.map image).Nodup → ∃ t', Table.init (.values t.ws) (.values (F.map (·.1))) (some (F.map (·.2))) = .ok t' ∧
      WF t' ∧ t'.ws = t.ws ∧ (∀ b, b ∈ t'.wa ↔ b ∈ t.wa ∨ ∃ a ∈ t.wa, b = pmod (fl (360 - a)) 360) ∧
      ∀ w ∈ t.ws, ∀ a ∈ t.wa, ∃ x, get t w a = .ok x ∧ get t' w a = .ok x ∧ get t' w (fl (360 - a)) = .ok x := by
    intro hn
    obtain ⟨t', h1, h2, h3, h4, h5⟩ := Table.init_spec (ws := t.ws) (wa := F.map (·.1)) (bsps := F.map (·.2)) h.ws_ne
      (by
        rw [hFP, List.map_append, hfst]
        intro hnil
        exact h.wa_ne (List.append_eq_nil_iff.1 hnil).1)
      h.ws_nonneg (h.ws_sorted.imp fun h => ne_of_lt h) (hiff.2 hn) (by simp)
      (by
        intro r hr
        obtain ⟨p, hp, rfl⟩ := List.mem_map.1 hr
        have key : ∀ q ∈ t.wa.zip t.bsps, q.2.length = t.ws.length := fun q hq => h.cols _ (List.of_mem_zip hq).2
        rw [hFP] at hp
        rcases List.mem_append.1 hp with hp | hp
        · exact key p hp
        · obtain ⟨q, hq, rfl⟩ := List.mem_map.1 hp
          exact key q (by rw [hP]; simp [List.mem_reverse.1 hq]))
    rw [hmodF] at h4
    have hget : ∀ p ∈ F, ∀ (j : Nat) (w x : ℚ), t.ws[j]? = some w → p.2[j]? = some x → get t' w p.1 = .ok x := by
      intro p hp j w x hw hx
      obtain ⟨i, hi, hip⟩ := List.getElem_of_mem hp
      have : F[i]? = some p := by rw [List.getElem?_eq_getElem hi, hip]
      exact h5 i j p.1 w x p.2 (by simp [this]) hw (by simp [this]) hx
    refine ⟨t', h1, h2, ?_, ?_, ?_⟩
    · exact h3.eq_of_pairwise' (r := (· < ·)) h2.ws_sorted h.ws_sorted
    · intro b
      rw [h4.mem_iff, List.mem_append]
      refine or_congr_right' fun hb => ?_
      rw [List.mem_reverse, List.mem_map]
      constructor
      · rintro ⟨q, hq, rfl⟩
        exact ⟨q.1, hMmem q hq, rfl⟩
      · rintro ⟨a, ha, rfl⟩
        change image a ∉ _ at hb
        rw [hwaeq, List.mem_append, List.mem_append] at ha
        rcases ha with (ha | ha) | ha
        · exfalso
          have : a = 0 := by
            rcases hZ with rfl | ⟨r, rfl⟩
            · simp at ha
            · simpa using ha
          subst this
          rw [image_zero] at hb
          exact hb (by rw [hwaeq]; simp only [List.mem_append]; exact Or.inl (Or.inl ha))
        · obtain ⟨q, hq, rfl⟩ := List.mem_map.1 ha
          exact ⟨q, hq, rfl⟩
        · exfalso
          have : a = 180 := by
            rcases hH with rfl | ⟨r, rfl⟩
            · simp at ha
            · simpa using ha
          subst this
          rw [image_half] at hb
          exact hb (by rw [hwaeq]; simp only [List.mem_append]; exact Or.inr ha)
    · intro w hw a ha
      obtain ⟨j, hj, rfl⟩ := List.getElem_of_mem hw
      obtain ⟨i, hi, rfl⟩ := List.getElem_of_mem ha
      have hi' : i < t.bsps.length := by rw [h.rows]; exact hi
      have hj' : j < t.bsps[i].length := by rw [h.cols _ (List.getElem_mem _)]; exact hj
      have hai : 0 ≤ t.wa[i] ∧ t.wa[i] < 360 := ⟨h.wa_nonneg _ (List.getElem_mem _), h.wa_lt _ (List.getElem_mem _)⟩
      have hmem : (t.wa[i], t.bsps[i]) ∈ t.wa.zip t.bsps :=
        List.mem_of_getElem? (i := i) (by
          rw [List.getElem?_zip_eq_some]; exact ⟨List.getElem?_eq_getElem hi, List.getElem?_eq_getElem hi'⟩)
      have hmemF : (t.wa[i], t.bsps[i]) ∈ F := by rw [hFP]; exact List.mem_append_left _ hmem
      have ha1 := hget _ hmemF j t.ws[j] _ (List.getElem?_eq_getElem hj) (List.getElem?_eq_getElem hj')
      refine ⟨t.bsps[i][j], ?_, ha1, ?_⟩
      · exact get_entry h (i := i) (j := j) (List.getElem?_eq_getElem hj)
          (by rw [pmod_of_mem hai.1 hai.2]; exact List.getElem?_eq_getElem hi) (List.getElem?_eq_getElem hi')
          (List.getElem?_eq_getElem hj')
      · rw [hP, List.mem_append, List.mem_append] at hmem
        rcases hmem with (hp | hp) | hp
        · have hz : t.wa[i] = 0 := by
            rcases hZ with rfl | ⟨r, rfl⟩
            · simp at hp
            · exact (Prod.mk.inj (List.mem_singleton.1 hp)).1
          rw [hz] at ha1 ⊢
          rw [← ha1]
          simp only [Table.get, Table.waIndices, List.map_cons, List.map_nil, sub_zero, fl_360, pmod_self hpos,
            pmod_of_mem (le_refl (0 : ℚ)) hpos]
        · have hmm : mirrorD (t.wa[i], t.bsps[i]) ∈ F := by
            rw [hFP]
            exact List.mem_append_right _ (List.mem_map_of_mem (List.mem_reverse.2 hp))
          exact hget _ hmm j t.ws[j] _ (List.getElem?_eq_getElem hj) (List.getElem?_eq_getElem hj')
        · have hz : t.wa[i] = 180 := by
            rcases hH with rfl | ⟨r, rfl⟩
            · simp at hp
            · exact (Prod.mk.inj (List.mem_singleton.1 hp)).1
          rw [hz] at ha1 ⊢
          rw [fl_half]
          exact ha1
  refine ⟨⟨?_, fun hn => ?_⟩, main⟩
  · rintro ⟨t', h1, h2⟩
    refine hiff.1 ((init_wa_perm h1).nodup_iff.1 ?_)
    exact h2.wa_sorted.imp fun h => ne_of_lt h
  · obtain ⟨t', h1, h2, -⟩ := main hn
    exact ⟨t', h1, h2⟩

/-- Angles closer than `2^-43` degrees may still be told apart, and others are not. -/
example : ([(10 : ℚ), 10 + 1 / 2 ^ 44].map image).Nodup ∧ ¬ ([(10 : ℚ), 10 + 1 / 2 ^ 46].map image).Nodup := by decide +kernel

example : ∃ t', symmetrize ⟨[6], [1 / 2 ^ 60, 90], [[5], [7]]⟩ = .ok t' ∧ WF t' ∧ get t' 6 0 = .ok 5 := by
  refine ⟨⟨[6], [0, 1 / 2 ^ 60, 90, 270], [[5], [5], [7], [7]]⟩, by decide +kernel, ?_, by decide +kernel⟩
  refine ⟨by decide, by decide +kernel, by decide, by decide +kernel, by decide +kernel, by decide, by decide, by decide, by decide⟩

end Verif.F64
