import Mathlib.Tactic.Linarith
import Mathlib.Tactic.NormNum
import Mathlib.Data.Nat.Cast.Order.Field
import Verif.Model.Extension
import Verif.Lemmas.Round
import Verif.Lemmas.Table
import Verif.Lemmas.Mod
import Verif.Lemmas.Fold

set_option linter.unusedSectionVars false

/-! # C81, C82: extensions -/

namespace Verif.Ext

open Verif.Interp

variable {K : Type} [Field K] [LinearOrder K] [IsStrictOrderedRing K] [FloorRing K]

/-! ## Resolutions -/

theorem mem_pyRange {start stop step : ℤ} (h : 0 < step) (w : ℤ) :
    w ∈ pyRange start stop step ↔ start ≤ w ∧ w < stop ∧ step ∣ w - start := by
  unfold pyRange
  simp only [List.mem_map, List.mem_range]
  have key : ∀ i : Nat, i < ((stop - start + step - 1) / step).toNat ↔ start + (i : ℤ) * step < stop := by
    intro i
    rw [Int.lt_toNat, Int.lt_iff_add_one_le, Int.le_ediv_iff_mul_le h, add_mul, one_mul]
    omega
  constructor
  · rintro ⟨i, hi, rfl⟩
    refine ⟨?_, (key i).1 hi, ?_⟩
    · have := mul_nonneg (Int.natCast_nonneg i) h.le
      linarith
    · rw [add_sub_cancel_left]; exact Dvd.intro_left _ rfl
  · rintro ⟨h1, h2, c, hc⟩
    have hc0 : 0 ≤ c := by
      by_contra hneg
      have : step * c < 0 := mul_neg_of_pos_of_neg h (by omega)
      omega
    refine ⟨c.toNat, ?_, ?_⟩
    · rw [key, Int.toNat_of_nonneg hc0, mul_comm]; omega
    · rw [Int.toNat_of_nonneg hc0, mul_comm]; omega

theorem pyRange_sorted {start stop step : ℤ} (h : 0 < step) : (pyRange start stop step).Pairwise (· < ·) := by
  unfold pyRange
  rw [List.pairwise_map]
  refine List.pairwise_lt_range.imp ?_
  intro a b hab
  have : (a : ℤ) * step < (b : ℤ) * step := mul_lt_mul_of_pos_right (by exact_mod_cast hab) h
  linarith

theorem roundedSpan_eq {l : List K} {lo hi : K} (hlo : lo ∈ l) (hlo' : ∀ y ∈ l, lo ≤ y) (hhi : hi ∈ l)
    (hhi' : ∀ y ∈ l, y ≤ hi) : roundedSpan l = .ok (pyRound lo, pyRound hi) := by
  match l with
  | [] => simp at hlo
  | x :: xs => simp only [roundedSpan, foldl_min_eq hlo hlo', foldl_max_eq hhi hhi']

/-- **C81.** With `"min_max"`, the wind speeds are every second integer from the rounded minimum of the data on, up to the
rounded maximum, in increasing order, and the wind angles are the multiples of 5 from 5 to 355. -/
theorem C81_min_max {points : List (Pt K)} {lo hi : K} (hlo : lo ∈ points.map fun p => p.1.1)
    (hlo' : ∀ p ∈ points, lo ≤ p.1.1) (hhi : hi ∈ points.map fun p => p.1.1) (hhi' : ∀ p ∈ points, p.1.1 ≤ hi) :
    ∃ ws wa, minMaxResolution points = .ok (ws, wa) ∧ ws.Pairwise (· < ·) ∧ wa.Pairwise (· < ·) ∧
      (∀ w, w ∈ ws ↔ pyRound lo ≤ w ∧ w ≤ pyRound hi ∧ 2 ∣ w - pyRound lo) ∧
      (∀ a, a ∈ wa ↔ 5 ≤ a ∧ a ≤ 355 ∧ 5 ∣ a) := by
  have hs := roundedSpan_eq hlo (by simpa using hlo') hhi (by simpa using hhi')
  have he : minMaxResolution points = .ok (pyRange (pyRound lo) (pyRound hi + 1) 2, pyRange 5 356 5) := by
    simp only [minMaxResolution, hs, bind, Except.bind]
  refine ⟨_, _, he, pyRange_sorted (by norm_num),
    pyRange_sorted (by norm_num), fun w => ?_, fun a => ?_⟩
  · rw [mem_pyRange (by norm_num), Int.lt_add_one_iff]
  · rw [mem_pyRange (by norm_num)]; omega

/-- **C81.** Every measured wind speed is at most 3/2 knots away from a wind speed of the `"min_max"` resolution. -/
theorem C81_near {points : List (Pt K)} {ws wa : List ℤ} (h : minMaxResolution points = .ok (ws, wa)) :
    ∀ p ∈ points, ∃ w ∈ ws, |(w : K) - p.1.1| ≤ 3 / 2 := by
  intro p hp
  have hne : points.map (fun p => p.1.1) ≠ [] := by
    intro h; rw [List.map_eq_nil_iff] at h; simp [h] at hp
  obtain ⟨x, xs, hx⟩ := List.exists_cons_of_ne_nil hne
  obtain ⟨lo, hlo⟩ : ∃ lo, lo ∈ points.map (fun p => p.1.1) ∧ ∀ y ∈ points.map (fun p => p.1.1), lo ≤ y := by
    have hm := List.min_mem (l := points.map (fun p => p.1.1)) (by exact hne)
    exact ⟨_, hm, fun y hy => List.min_le_of_mem hy⟩
  obtain ⟨hi, hhi⟩ : ∃ hi, hi ∈ points.map (fun p => p.1.1) ∧ ∀ y ∈ points.map (fun p => p.1.1), y ≤ hi := by
    have hm := List.max_mem (l := points.map (fun p => p.1.1)) (by exact hne)
    exact ⟨_, hm, fun y hy => List.le_max_of_mem hy⟩
  have hm' : ∀ p ∈ points, lo ≤ p.1.1 := fun q hq => hlo.2 _ (List.mem_map_of_mem hq)
  have hM' : ∀ p ∈ points, p.1.1 ≤ hi := fun q hq => hhi.2 _ (List.mem_map_of_mem hq)
  obtain ⟨ws', wa', he, -, -, hmem, -⟩ := C81_min_max hlo.1 hm' hhi.1 hM'
  rw [he] at h
  obtain ⟨rfl, rfl⟩ := Prod.mk.inj (Except.ok.inj h)
  have h1 := pyRound_mono (hm' p hp)
  have h2 := pyRound_mono (hM' p hp)
  obtain ⟨h3, h4⟩ := pyRound_spec p.1.1
  rcases Int.even_or_odd (pyRound p.1.1 - pyRound lo) with he | ho
  · refine ⟨pyRound p.1.1, (hmem _).2 ⟨h1, h2, he.two_dvd⟩, ?_⟩
    rw [abs_le]; constructor <;> linarith
  · obtain ⟨c, hc⟩ := ho
    refine ⟨pyRound p.1.1 - 1, (hmem _).2 ⟨by omega, by omega, ⟨c, by omega⟩⟩, ?_⟩
    push_cast
    rw [abs_le]; constructor <;> linarith

/-- **C81 is false** for the maximum: it is missing in the `"min_max"` resolution whenever the rounded minimum and
maximum have different parity. -/
theorem C81_max_false {points : List (Pt K)} {lo hi : K} (hlo : lo ∈ points.map fun p => p.1.1)
    (hlo' : ∀ p ∈ points, lo ≤ p.1.1) (hhi : hi ∈ points.map fun p => p.1.1) (hhi' : ∀ p ∈ points, p.1.1 ≤ hi)
    (hodd : ¬ 2 ∣ pyRound hi - pyRound lo) :
    ∃ ws wa, minMaxResolution points = .ok (ws, wa) ∧ pyRound hi ∉ ws := by
  obtain ⟨ws, wa, h, -, -, hmem, -⟩ := C81_min_max hlo hlo' hhi hhi'
  exact ⟨ws, wa, h, fun hc => hodd ((hmem _).1 hc).2.2⟩

example : (minMaxResolution [((5, 0), 1), ((10, 0), 1), (((7 : ℚ), (0 : ℚ)), (1 : ℚ))]).map Prod.fst =
    .ok [5, 7, 9] := by decide +kernel

/-- **C81** (partial: entries may be repeated). With `"auto"`, the resolution contains the rounded minimum and maximum of
the data and, of the multiples of `n` above the minimum and not above the maximum, those with at least `threshold` data
between them and the multiple before (starting from the rounded minimum for the first multiple). The last multiple,
if it is not the first one, instead counts the data from it up to the rounded maximum. -/
theorem C81_auto_partial {l : List K} {lo hi : K} {n : ℤ} (hn : 0 < n) (threshold : Nat) (hlo : lo ∈ l)
    (hlo' : ∀ y ∈ l, lo ≤ y) (hhi : hi ∈ l) (hhi' : ∀ y ∈ l, y ≤ hi) :
    ∃ res, extractWind l n threshold = .ok res ∧ ∀ w, w ∈ res ↔ w = pyRound lo ∨ w = pyRound hi ∨
      (pyRound lo < w ∧ w ≤ pyRound hi ∧ n ∣ w ∧
        threshold ≤ (l.filter fun p =>
          if w - n ≤ pyRound lo then decide (((pyRound lo : ℤ) : K) ≤ p) && decide (p ≤ (w : K))
          else if pyRound hi < w + n then decide ((w : K) ≤ p) && decide (p ≤ ((pyRound hi : ℤ) : K))
          else decide (((w - n : ℤ) : K) ≤ p) && decide (p ≤ (w : K))).length) := by
  have hs := roundedSpan_eq hlo hlo' hhi hhi'
  have he : extractWind l n threshold = .ok ([pyRound hi, pyRound lo] ++
      (pyRange ((pyRound lo / n + 1) * n) (pyRound hi / n * n + n) n).filter fun w => decide (threshold ≤
        countNear l n (pyRound lo) (pyRound hi) ((pyRound lo / n + 1) * n) (pyRound hi / n * n) w)) := by
    simp only [extractWind, hs, bind, Except.bind]
  refine ⟨_, he, fun w => ?_⟩
  set a := pyRound lo
  set b := pyRound hi
  have ha1 : a / n * n ≤ a := Int.ediv_mul_le a hn.ne'
  have ha2 : a < (a / n + 1) * n := Int.lt_ediv_add_one_mul_self a hn
  have hb1 : b / n * n ≤ b := Int.ediv_mul_le b hn.ne'
  have hb2 : b < (b / n + 1) * n := Int.lt_ediv_add_one_mul_self b hn
  simp only [List.mem_append, List.mem_cons, List.not_mem_nil, or_false, List.mem_filter, decide_eq_true_eq,
    mem_pyRange hn]
  have hd : n ∣ w - (a / n + 1) * n ↔ n ∣ w := by
    constructor
    · intro h
      have := dvd_add h (Dvd.intro_left (a / n + 1) rfl : n ∣ (a / n + 1) * n)
      simpa using this
    · intro h; exact dvd_sub h (Dvd.intro_left _ rfl)
  rw [hd]
  have hrange : n ∣ w → (((a / n + 1) * n ≤ w ↔ a < w) ∧ (w < b / n * n + n ↔ w ≤ b) ∧
      (w = (a / n + 1) * n ↔ a < w ∧ w - n ≤ a) ∧ (w = b / n * n ↔ w ≤ b ∧ b < w + n)) := by
    rintro ⟨c, rfl⟩
    have e1 : (a / n + 1) * n ≤ n * c ↔ a < n * c := by
      constructor
      · intro h; omega
      · intro h
        have : a / n < c := by
          by_contra hc
          have : n * c ≤ n * (a / n) := Int.mul_le_mul_of_nonneg_left (by omega) hn.le
          rw [mul_comm n (a / n)] at this
          omega
        have := Int.mul_le_mul_of_nonneg_left (show a / n + 1 ≤ c by omega) hn.le
        rw [mul_comm n] at this
        exact this
    have e2 : n * c < b / n * n + n ↔ n * c ≤ b := by
      constructor
      · intro h
        have hcb : c ≤ b / n := by
          by_contra hc
          have := Int.mul_le_mul_of_nonneg_left (show b / n + 1 ≤ c by omega) hn.le
          rw [mul_add, mul_one, mul_comm n (b / n)] at this
          omega
        have := Int.mul_le_mul_of_nonneg_left hcb hn.le
        rw [mul_comm n (b / n)] at this
        omega
      · intro h
        rw [add_mul, one_mul] at hb2
        omega
    have e3 : n * c - n ≤ a ↔ n * c ≤ (a / n + 1) * n := by
      constructor
      · intro h
        have : n * (c - 1) ≤ n * (a / n) := by
          apply Int.mul_le_mul_of_nonneg_left _ hn.le
          rw [Int.le_ediv_iff_mul_le hn, mul_comm, mul_sub, mul_one]; omega
        rw [mul_sub, mul_one, mul_comm n (a / n)] at this
        rw [add_mul, one_mul]; omega
      · intro h
        rw [add_mul, one_mul] at h; omega
    have e4 : b / n * n ≤ n * c ↔ b < n * c + n := by
      constructor
      · intro h
        rw [add_mul, one_mul] at hb2
        omega
      · intro h
        have : b / n ≤ c := by
          have : b / n < c + 1 := by
            rw [Int.ediv_lt_iff_lt_mul hn, add_mul, one_mul, mul_comm]; exact h
          omega
        have := Int.mul_le_mul_of_nonneg_left this hn.le
        rw [mul_comm n (b / n)] at this
        exact this
    refine ⟨e1, e2, ?_, ?_⟩
    · rw [← e1, e3]; omega
    · rw [e4.symm]
      constructor
      · intro h; omega
      · rintro ⟨h1, h2⟩
        have := e2.2 h1
        have h3 : c ≤ b / n := by rw [Int.le_ediv_iff_mul_le hn, mul_comm]; exact h1
        have := Int.mul_le_mul_of_nonneg_left h3 hn.le
        rw [mul_comm n (b / n)] at this
        omega
  constructor
  · rintro ((h | h) | ⟨⟨h1, h2, h3⟩, h4⟩)
    · exact Or.inr (Or.inl h)
    · exact Or.inl h
    · obtain ⟨r1, r2, r3, r4⟩ := hrange h3
      refine Or.inr (Or.inr ⟨r1.1 h1, r2.1 h2, h3, ?_⟩)
      refine h4.trans (le_of_eq ?_)
      unfold countNear
      congr 2
      funext p
      by_cases c1 : w - n ≤ a
      · rw [if_pos (r3.2 ⟨r1.1 h1, c1⟩), if_pos c1, Bool.and_comm]
      · rw [if_neg (fun h => c1 (r3.1 h).2), if_neg c1]
        by_cases c2 : b < w + n
        · rw [if_pos (r4.2 ⟨r2.1 h2, c2⟩), if_pos c2, Bool.and_comm]
        · rw [if_neg (fun h => c2 (r4.1 h).2), if_neg c2, Bool.and_comm]
  · rintro (h | h | ⟨h1, h2, h3, h4⟩)
    · exact Or.inl (Or.inr h)
    · exact Or.inl (Or.inl h)
    · obtain ⟨r1, r2, r3, r4⟩ := hrange h3
      refine Or.inr ⟨⟨r1.2 h1, r2.2 h2, h3⟩, h4.trans (le_of_eq ?_)⟩
      unfold countNear
      congr 2
      funext p
      by_cases c1 : w - n ≤ a
      · rw [if_pos (r3.2 ⟨h1, c1⟩), if_pos c1, Bool.and_comm]
      · rw [if_neg (fun h => c1 (r3.1 h).2), if_neg c1]
        by_cases c2 : b < w + n
        · rw [if_pos (r4.2 ⟨h2, c2⟩), if_pos c2, Bool.and_comm]
        · rw [if_neg (fun h => c2 (r4.1 h).2), if_neg c2, Bool.and_comm]

example : extractWind [(1 : ℚ), 3, 3, 5, 7, 7, 9, 9] 2 2 = .ok [9, 1, 4, 8] := by decide +kernel

/-- **C81.** With `"auto"`, the wind speeds are chosen by the wind speeds of the data, in steps of 2 with at least 100 data,
and the wind angles by the wind angles, in steps of 5 with at least 30 data. -/
theorem C81_auto (points : List (Pt K)) {ws wa : List ℤ} :
    autoResolution points = .ok (ws, wa) ↔ extractWind (points.map fun p => p.1.1) 2 100 = .ok ws ∧
      extractWind (points.map fun p => p.1.2) 5 30 = .ok wa := by
  unfold autoResolution
  cases extractWind (points.map fun p => p.1.1) 2 100 with
  | error e => simp [bind, Except.bind]
  | ok ws' =>
    cases extractWind (points.map fun p => p.1.2) 5 30 with
    | error e => simp [bind, Except.bind]
    | ok wa' => simp [bind, Except.bind]

example : autoResolution [((5, 3), 1), (((7 : ℚ), (40 : ℚ)), (1 : ℚ))] = .ok ([7, 5], [40, 3]) := by decide +kernel

/-- **C81 is false** for `"auto"`: if all wind speeds are rounded to the same number, it occurs twice in the
resolution. -/
theorem C81_equal_false {l : List K} {n : ℤ} {threshold : Nat} {res : List ℤ} (h : extractWind l n threshold = .ok res)
    (heq : ∀ x ∈ l, ∀ y ∈ l, pyRound x = pyRound y) : ¬ res.Nodup := by
  match l with
  | [] => simp [extractWind, roundedSpan, bind, Except.bind] at h
  | x :: xs =>
    have hne : x :: xs ≠ [] := by simp
    have h1 := roundedSpan_eq (List.min_mem hne) (fun y hy => List.min_le_of_mem hy) (List.max_mem hne)
      (fun y hy => List.le_max_of_mem hy)
    simp only [extractWind, h1, bind, Except.bind, Except.ok.injEq] at h
    have := heq _ (List.min_mem hne) _ (List.max_mem hne)
    rw [this] at h
    rw [← h]
    simp

/-- **C81 is false** for `"auto"`: if the rounded maximum is a multiple with enough data, it occurs twice. -/
theorem C81_multiple_false {l : List K} {lo hi : K} {n : ℤ} (hn : 0 < n) {threshold : Nat} {res : List ℤ}
    (h : extractWind l n threshold = .ok res) (hlo : lo ∈ l) (hlo' : ∀ y ∈ l, lo ≤ y) (hhi : hi ∈ l)
    (hhi' : ∀ y ∈ l, y ≤ hi) (hd : n ∣ pyRound hi) (hlt : pyRound lo / n + 1 < pyRound hi / n)
    (hc : threshold ≤ (l.filter fun p => decide (p = ((pyRound hi : ℤ) : K))).length) : ¬ res.Nodup := by
  have hs := roundedSpan_eq hlo hlo' hhi hhi'
  simp only [extractWind, hs, bind, Except.bind, Except.ok.injEq] at h
  have hend : pyRound hi / n * n = pyRound hi := Int.ediv_mul_cancel hd
  have hmul : (pyRound lo / n + 1) * n < pyRound hi / n * n := mul_lt_mul_of_pos_right hlt hn
  rw [← h, hend]
  rw [hend] at hmul
  simp only [List.cons_append, List.nil_append, List.nodup_cons]
  intro hnd
  apply hnd.1
  apply List.mem_cons_of_mem
  rw [List.mem_filter, mem_pyRange hn, decide_eq_true_eq]
  refine ⟨⟨hmul.le, by omega, ?_⟩, hc.trans ?_⟩
  · exact dvd_sub hd (Dvd.intro_left _ rfl)
  · unfold countNear
    simp only [hmul.ne', if_false, if_true]
    have : (fun p : K => decide (p ≤ ((pyRound hi : ℤ) : K)) && decide (((pyRound hi : ℤ) : K) ≤ p)) =
        fun p => decide (p = ((pyRound hi : ℤ) : K)) := by
      funext p
      rw [← Bool.decide_and]
      congr 1
      exact propext le_antisymm_iff.symm
    rw [this]

example : extractWind [(1 : ℚ), 8, 8] 2 2 = .ok [8, 1, 8] := by decide +kernel

/-! ## Values -/

theorem reshape_flatMap (wa ws : List K) (v : K × K → K) :
    reshape wa.length ws.length (wa.flatMap fun a => ws.map fun w => v (w, a)) =
      wa.map fun a => ws.map fun w => v (w, a) := by
  induction wa with
  | nil => rfl
  | cons a wa ih =>
    unfold reshape at ih ⊢
    rw [List.length_cons, List.range_succ_eq_map, List.map_cons, List.map_map, List.map_cons, List.flatMap_cons]
    congr 1
    · simp
    · rw [← ih]
      apply List.map_congr_left
      intro i _
      simp only [Function.comp_apply, Nat.succ_eq_add_one]
      have : (i + 1) * ws.length = (ws.map fun w => v (w, a)).length + i * ws.length := by
        rw [List.length_map, Nat.add_mul]; omega
      rw [this, ← List.drop_drop, List.drop_left]

/-- The value the extensions assign to the wind `g`: 0 if there is no data in its neighbourhood, the interpolation of
exactly the data in the neighbourhood otherwise. -/
def IsValue (nbh : K × K → Bool) (interpolate : List (Pt K × K) → K × K → Except PyErr K) (points : List (Pt K × K))
    (g : K × K) (x : K) : Prop :=
  ((∀ p ∈ points, nbh (p.1.1 - g) = false) → x = 0) ∧
  ((∃ p ∈ points, nbh (p.1.1 - g) = true) → interpolate (points.filter fun p => nbh (p.1.1 - g)) g = .ok x)

theorem interpolatePoint_eq {nbh : K × K → Bool} {interpolate : List (Pt K × K) → K × K → Except PyErr K}
    {points : List (Pt K × K)} {g : K × K} {x : K} (h : IsValue nbh interpolate points g x) :
    interpolatePoint nbh interpolate points g = .ok (g, x) := by
  unfold interpolatePoint
  split
  · rename_i he
    rw [h.1 fun p hp => by simpa using (List.filter_eq_nil_iff.1 he) p hp]
  · rename_i p ps he
    have hp : p ∈ points.filter fun p => nbh (p.1.1 - g) := by rw [he]; exact List.mem_cons_self
    rw [List.mem_filter] at hp
    have := h.2 ⟨p, hp⟩
    rw [he] at this
    rw [this]
    rfl

/-- **C82.** The table produced from data has the wind speeds and wind angles of the resolution, and its entries are the
interpolated values there. -/
theorem C82_table {res : WindResolution K} {nbh : K × K → Bool}
    {interpolate : List (Pt K × K) → K × K → Except PyErr K} {points : List (Pt K × K)} {ws wa : List K}
    (hsize : tableSize (points.map Prod.fst) res = .ok (ws, wa)) (hws : ws ≠ []) (hwa : wa ≠ [])
    (h0 : ∀ w ∈ ws, 0 ≤ w) (hwsn : ws.Nodup) (hwan : (wa.map fun a => pmod a 360).Nodup) {v : K × K → K}
    (hv : ∀ w ∈ ws, ∀ a ∈ wa, IsValue nbh interpolate points (w, a) (v (w, a))) :
    ∃ t, tableProcess res nbh interpolate points = .ok t ∧ t.ws.Perm ws ∧ t.wa.Perm (wa.map fun a => pmod a 360) ∧
      ∀ w ∈ ws, ∀ a ∈ wa, t.get w a = .ok (v (w, a)) := by
  obtain ⟨t, h1, -, h2, h3, h4⟩ := Table.init_spec (bsps := wa.map fun a => ws.map fun w => v (w, a)) hws hwa h0 hwsn
    hwan (by simp) (by simp)
  refine ⟨t, ?_, h2, h3, ?_⟩
  · have hp : interpolatePoints nbh interpolate points (gridPoints ws wa) =
        .ok ((gridPoints ws wa).map fun g => (g, v g)) := by
      apply mapM_ok_of
      intro g hg
      unfold gridPoints at hg
      simp only [List.mem_flatMap, List.mem_map] at hg
      obtain ⟨a, ha, w, hw, rfl⟩ := hg
      exact interpolatePoint_eq (hv w hw a ha)
    have hne : (gridPoints ws wa).map (fun g => (g, v g)) ≠ [] := by
      obtain ⟨a, ha⟩ := List.exists_mem_of_ne_nil _ hwa
      obtain ⟨w, hw⟩ := List.exists_mem_of_ne_nil _ hws
      have : (w, a) ∈ gridPoints ws wa := by
        unfold gridPoints
        simp only [List.mem_flatMap, List.mem_map]
        exact ⟨a, ha, w, hw, rfl⟩
      intro h
      rw [List.map_eq_nil_iff] at h
      rw [h] at this
      simp at this
    have hsnd : ((gridPoints ws wa).map fun g => (g, v g)).map Prod.snd =
        wa.flatMap fun a => ws.map fun w => v (w, a) := by
      unfold gridPoints
      rw [List.map_map, List.map_flatMap]
      simp only [List.map_map]
      rfl
    simp only [tableProcess, hsize, bind, Except.bind, hp]
    split
    · rename_i he; exact absurd he hne
    · rw [hsnd, reshape_flatMap, h1]
  · intro w hw a ha
    obtain ⟨i, hi, hia⟩ := List.getElem_of_mem ha
    obtain ⟨j, hj, hjw⟩ := List.getElem_of_mem hw
    refine h4 i j a w _ (ws.map fun w => v (w, a)) (by rw [List.getElem?_eq_getElem hi, hia])
      (by rw [List.getElem?_eq_getElem hj, hjw]) ?_ ?_
    · simp [List.getElem?_eq_getElem hi, hia]
    · simp [List.getElem?_eq_getElem hj, hjw]

theorem pmod_small (a : ℤ) (h0 : 0 ≤ a) (h1 : a < 360) : pmod (a : K) 360 = (a : K) :=
  pmod_of_mem (by exact_mod_cast h0) (by exact_mod_cast h1)

/-- **C82.** With the default resolution `"min_max"`, data with nonnegative wind speeds gives a table with the
interpolated values at the wind speeds and wind angles described by `C81_min_max`, provided the interpolator
succeeds. -/
theorem C82_min_max {nbh : K × K → Bool} {interpolate : List (Pt K × K) → K × K → Except PyErr K}
    {points : List (Pt K × K)} (hne : points ≠ []) (hpos : ∀ p ∈ points, 0 ≤ p.1.1.1) {v : K × K → K}
    (hv : ∀ g, IsValue nbh interpolate points g (v g)) :
    ∃ ws wa t, minMaxResolution (points.map Prod.fst) = .ok (ws, wa) ∧
      tableProcess .minMax nbh interpolate points = .ok t ∧ t.ws.Perm (ws.map fun (w : ℤ) => (w : K)) ∧
      t.wa.Perm (wa.map fun (a : ℤ) => (a : K)) ∧
      ∀ w ∈ ws, ∀ a ∈ wa, t.get (w : K) (a : K) = .ok (v ((w : K), (a : K))) := by
  have hne' : (points.map Prod.fst).map (fun p => p.1.1) ≠ [] := by simpa using hne
  set l := (points.map Prod.fst).map (fun p => p.1.1) with hl
  have hlo := List.min_mem hne'
  have hhi := List.max_mem hne'
  obtain ⟨ws, wa, he, hs1, hs2, hm1, hm2⟩ := C81_min_max (points := points.map Prod.fst) hlo
    (fun p hp => List.min_le_of_mem (List.mem_map_of_mem (f := fun p : Pt K => p.1.1) hp)) hhi
    (fun p hp => List.le_max_of_mem (List.mem_map_of_mem (f := fun p : Pt K => p.1.1) hp))
  have hlo0 : 0 ≤ pyRound (l.min hne') := by
    obtain ⟨p, hp, hpe⟩ := List.mem_map.1 hlo
    obtain ⟨q, hq, rfl⟩ := List.mem_map.1 hp
    have : (((0 : ℤ) : K)) ≤ l.min hne' := by rw [← hpe]; exact_mod_cast hpos q hq
    have := pyRound_mono this
    rwa [pyRound_int] at this
  have hws0 : ∀ w ∈ ws, 0 ≤ w := fun w hw => hlo0.trans ((hm1 w).1 hw).1
  have hwamod : ((wa.map fun (a : ℤ) => (a : K)).map fun a => pmod a 360) = wa.map fun (a : ℤ) => (a : K) := by
    rw [List.map_map]
    apply List.map_congr_left
    intro a ha
    have := (hm2 a).1 ha
    exact pmod_small a (by omega) (by omega)
  have hinj : Function.Injective fun a : ℤ => (a : K) := Int.cast_injective
  have hmono : pyRound (l.min hne') ≤ pyRound (l.max hne') :=
    pyRound_mono (List.le_max_of_mem hlo)
  obtain ⟨t, h1, h2, h3, h4⟩ := C82_table (res := .minMax) (nbh := nbh) (interpolate := interpolate) (points := points)
    (ws := ws.map fun (w : ℤ) => (w : K)) (wa := wa.map fun (a : ℤ) => (a : K)) (v := v)
    (by simp only [tableSize, he, bind, Except.bind])
    (by
      rw [Ne, List.map_eq_nil_iff]
      intro h
      have := (hm1 (pyRound (l.min hne'))).2 ⟨le_refl _, hmono, by simp⟩
      rw [h] at this
      simp at this)
    (by
      rw [Ne, List.map_eq_nil_iff]
      intro h
      have := (hm2 5).2 ⟨by norm_num, by norm_num, by norm_num⟩
      rw [h] at this
      simp at this)
    (by
      intro w hw
      obtain ⟨k, hk, rfl⟩ := List.mem_map.1 hw
      exact_mod_cast hws0 k hk)
    (List.Nodup.map hinj (hs1.imp fun h => h.ne))
    (by rw [hwamod]; exact List.Nodup.map hinj (hs2.imp fun h => h.ne))
    (fun w _ a _ => hv _)
  rw [hwamod] at h3
  refine ⟨ws, wa, t, he, h1, h2, h3, fun w hw a ha => ?_⟩
  exact h4 _ (List.mem_map_of_mem hw) _ (List.mem_map_of_mem ha)

/-- **C82.** With given wind speeds and wind angles, the table has these (the angles modulo 360) and the interpolated values
there. -/
theorem C82_given {nbh : K × K → Bool} {interpolate : List (Pt K × K) → K × K → Except PyErr K} {points : List (Pt K × K)}
    {ws wa : List K} (hws : ws ≠ []) (hwa : wa ≠ []) (h0 : ∀ w ∈ ws, 0 ≤ w) (hwsn : ws.Nodup)
    (hwan : (wa.map fun a => pmod a 360).Nodup) {v : K × K → K}
    (hv : ∀ w ∈ ws, ∀ a ∈ wa, IsValue nbh interpolate points (w, pmod a 360) (v (w, pmod a 360))) :
    ∃ t, tableProcess (.pair (.values ws) (.values wa)) nbh interpolate points = .ok t ∧ t.ws.Perm ws ∧
      t.wa.Perm (wa.map fun a => pmod a 360) ∧ ∀ w ∈ ws, ∀ a ∈ wa, t.get w (pmod a 360) = .ok (v (w, pmod a 360)) := by
  have hmm : ((wa.map fun a => pmod a 360).map fun a => pmod a 360) = wa.map fun a => pmod a 360 := by
    rw [List.map_map]
    apply List.map_congr_left
    intro a _
    exact pmod_pmod a (by norm_num)
  obtain ⟨t, h1, h2, h3, h4⟩ := C82_table (res := .pair (.values ws) (.values wa)) (nbh := nbh) (interpolate := interpolate)
    (points := points) (ws := ws) (wa := wa.map fun a => pmod a 360) (v := v)
    (by
      have hany : (ws.any fun w => decide (w < 0)) = false := by
        rw [List.any_eq_false]
        intro w hw
        simpa using h0 w hw
      simp [tableSize, Table.buildWs, Table.buildWa, hws, hwa, hany, bind, Except.bind])
    hws (by simpa using hwa) h0 hwsn (by rw [hmm]; exact hwan)
    (by
      intro w hw a ha
      obtain ⟨b, hb, rfl⟩ := List.mem_map.1 ha
      exact hv w hw b hb)
  rw [hmm] at h3
  exact ⟨t, h1, h2, h3, fun w hw a ha => h4 w hw _ (List.mem_map_of_mem (f := fun a => pmod a 360) ha)⟩

example : ((tableProcess (.pair (.values [5, 7]) (.values [450, 30])) (fun d => decide (|d.1| ≤ 1) && decide (|d.2| ≤ 1))
    (fun ps _ => .ok (ps.map fun p => p.1.2).sum) [((((5 : ℚ), 90), 3), 1), (((7, 90), 4), 1)]).bind fun t => t.get 7 90) = .ok 4 := by
  decide +kernel

/-- The case meets the hypotheses of `C82_min_max`. -/
example : ((tableProcess .minMax (fun d => decide (|d.1| ≤ 1) && decide (|d.2| ≤ 1)) (fun ps _ => .ok (ps.map fun p => p.1.2).sum)
    [((((5 : ℚ), 90), 3), 1), (((7, 90), 4), 1)]).bind fun t => t.get 7 90) = .ok 4 := by decide +kernel

/-- **C82 is false** for `"auto"`: with data of a single wind, the table has the wind four times, and looking it up
raises `TypeError`. -/
theorem C82_auto_false : ∃ (points : List (Pt ℚ × ℚ)) (t : Table ℚ),
    tableProcess .auto (fun _ => true) (fun _ _ => .ok 5) points = .ok t ∧ t.ws = [6, 6] ∧ t.wa = [90, 90] ∧
      t.get 6 90 = .error .typeError :=
  ⟨[(((6, 90), 5), 1)], ⟨[6, 6], [90, 90], [[5, 5], [5, 5]]⟩, by decide +kernel⟩

/-- **C82.** The point cloud produced from data consists of the sampled winds with nonnegative wind speed, in their order,
with angles modulo 360 and the interpolated values. -/
theorem C82_cloud {sample : List (Pt K) → Except PyErr (List (K × K))} {nbh : K × K → Bool}
    {interpolate : List (Pt K × K) → K × K → Except PyErr K} {points : List (Pt K × K)} {gs : List (K × K)}
    (hs : sample (points.map Prod.fst) = .ok gs) (hne : gs ≠ []) {v : K × K → K}
    (hv : ∀ g ∈ gs, IsValue nbh interpolate points g (v g)) :
    cloudProcess sample nbh interpolate points =
      .ok ((gs.filter fun g => decide (0 ≤ g.1)).map fun g => ((g.1, pmod g.2 360), v g)) := by
  have hp : interpolatePoints nbh interpolate points gs = .ok (gs.map fun g => (g, v g)) :=
    mapM_ok_of fun g hg => interpolatePoint_eq (hv g hg)
  simp only [cloudProcess, hs, bind, Except.bind, hp]
  split
  · rename_i he; exact absurd (List.map_eq_nil_iff.1 he) hne
  · unfold Cloud.init
    rw [List.filter_map, List.map_map]
    rfl

example : cloudProcess (fun _ => .ok [(3, 400), (-1, 0), (8, 10)]) (fun d => decide (|d.1| ≤ 1))
    (fun ps _ => .ok (ps.map fun p => p.1.2).sum) [((((3 : ℚ), 40), 3), 1)] =
      .ok [((3, 40), 3), ((8, 10), 0)] := by decide +kernel

/-- **C82.** The curve is fitted to the data, with angles in radians if `radians` is set. -/
theorem C82_curve {P : Type} (fit : List (Pt K) → P) (rad : K) (points : List (Pt K)) :
    curveProcess fit rad false points = (fit points, points) ∧
      (curveProcess fit rad true points).1 = fit (points.map fun p => ((p.1.1, rad * p.1.2), p.2)) := ⟨rfl, rfl⟩

/-- **C82 is false** for a second processing of the same data with `radians`: the data of the caller is converted in
place, so that the curve is fitted to angles converted twice. -/
theorem C82_radians_false {P : Type} (fit : List (Pt K) → P) (rad : K) (hrad : rad ≠ 1) {points : List (Pt K)}
    (h : ∃ p ∈ points, p.1.2 ≠ 0) :
    (curveProcess fit rad true points).2 ≠ points ∧
      (curveProcess fit rad true (curveProcess fit rad true points).2).1 =
        fit (points.map fun p => ((p.1.1, rad * (rad * p.1.2)), p.2)) := by
  constructor
  · obtain ⟨p, hp, hp0⟩ := h
    intro he
    simp only [curveProcess, if_true] at he
    have hid : points.map (fun p => (((p.1.1, rad * p.1.2), p.2) : Pt K)) = points.map id := by rw [he]; simp
    have := List.map_inj_left.1 hid p hp
    simp only [id] at this
    have h2 : rad * p.1.2 = p.1.2 := congrArg (fun q : Pt K => q.1.2) this
    exact hrad (mul_right_cancel₀ hp0 (by rw [h2, one_mul]))
  · simp [curveProcess, Function.comp_def]

example : (curveProcess id (1 / 57 : ℚ) true [((6, 90), 5)]).2 ≠ [((6, 90), 5)] := by decide +kernel

end Verif.Ext
