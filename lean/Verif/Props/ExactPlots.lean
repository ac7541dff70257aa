import Verif.Props.CloudText
import Verif.Props.Norms
import Verif.Props.PlotColors
import Verif.Props.Slices
import Verif.Props.WeatherSources

/-!
# Exact conditions for properties C90, C92, C107, C108 and C110
-/

set_option linter.unusedSectionVars false

namespace Verif.Slices

variable {K : Type} [Field K] [LinearOrder K] [IsStrictOrderedRing K]

/-- **C90**, exactly: all points of all clouds with wind speeds from `lo` to `hi` belong to a default slice if and only if these
differ by at most 38 times the range of the slices. -/
theorem C90_cover_exactly [FloorRing K] {lo hi range : K} (hr : 0 ≤ range) (hl : lo ≤ hi) :
    (∀ (cloud : List (Interp.Pt K)) (r : List K), cloudSlices cloud = .ok r → (∃ p ∈ cloud, p.1.1 = lo) → (∃ p ∈ cloud, p.1.1 = hi) →
      (∀ p ∈ cloud, lo ≤ p.1.1 ∧ p.1.1 ≤ hi) → ∀ p ∈ cloud, ∃ s ∈ Cloud.wsToSlices range cloud r, p ∈ s) ↔
      hi - lo ≤ 38 * range := by
  constructor
  · intro h
    by_contra hc
    rw [not_le] at hc
    let mid : Interp.Pt K := ((lo + (hi - lo) / 38, 0), 0)
    let cloud : List (Interp.Pt K) := [((lo, 0), 0), ((hi, 0), 0), mid]
    have hpos : 0 < hi - lo := lt_of_le_of_lt (by positivity) hc
    have hb : ∀ p ∈ cloud, lo ≤ p.1.1 ∧ p.1.1 ≤ hi := by
      intro p hp
      simp only [cloud, mid, List.mem_cons, List.not_mem_nil, or_false] at hp
      rcases hp with rfl | rfl | rfl
      · exact ⟨le_refl _, hl⟩
      · exact ⟨hl, le_refl _⟩
      · exact ⟨by simp only; linarith [div_pos hpos (show (0 : K) < 38 by norm_num)], by
          simp only
          have : (hi - lo) / 38 ≤ hi - lo := div_le_self hpos.le (by norm_num)
          linarith⟩
    obtain ⟨r, lo', hi', h1, ⟨a, ha, ha'⟩, ⟨b, hb1, hb'⟩, h4, h5, -, -, h8⟩ :=
      C90_default_cloud (cloud := cloud) (by simp [cloud])
    have e1 : lo' = lo := by
      have := (hb a ha).1
      have := (h4 ((lo, 0), 0) (by simp [cloud])).1
      simp only at this
      linarith
    have e2 : hi' = hi := by
      have := (hb b hb1).2
      have := (h4 ((hi, 0), 0) (by simp [cloud])).2
      simp only at this
      linarith
    subst e1 e2
    obtain ⟨s, hs, hm⟩ := h cloud r h1 ⟨((lo', 0), 0), by simp [cloud], rfl⟩ ⟨((hi', 0), 0), by simp [cloud], rfl⟩ hb mid
      (by simp [cloud])
    obtain ⟨w, hw, rfl⟩ := List.mem_map.1 hs
    obtain ⟨i, hi, hiw⟩ := List.mem_iff_getElem.1 hw
    have hi20 : i < 20 := by omega
    have := h8 i hi20
    rw [List.getElem?_eq_getElem hi, hiw] at this
    have hw' := Option.some.inj this
    rw [List.mem_filter] at hm
    have hd := of_decide_eq_true hm.2
    simp only [mid] at hd
    rw [hw'] at hd
    have e : lo' + (hi' - lo') / 38 - (lo' + (i : K) * ((hi' - lo') / 19)) = (hi' - lo') / 38 * (1 - 2 * (i : K)) := by
      field_simp
      ring
    rw [e, abs_mul, abs_of_pos (div_pos hpos (by norm_num))] at hd
    have h1 : 1 ≤ |1 - 2 * (i : K)| := by
      rcases Nat.eq_zero_or_pos i with rfl | hi0
      · simp
      · have : (1 : K) ≤ (i : K) := by exact_mod_cast hi0
        rw [abs_of_nonpos (by linarith)]
        linarith
    have h2 : (hi' - lo') / 38 * 1 ≤ (hi' - lo') / 38 * |1 - 2 * (i : K)| :=
      mul_le_mul_of_nonneg_left h1 (div_pos hpos (by norm_num)).le
    have h3 : (hi' - lo') / 38 ≤ range := by linarith
    rw [div_le_iff₀ (by norm_num)] at h3
    linarith
  · intro hw cloud r h _ _ hb p hp
    refine C90_cover_partial hr (fun p hp q hq => ?_) h hp
    have := (hb p hp).2
    have := (hb q hq).1
    linarith

example : ∀ (cloud : List (Interp.Pt ℚ)) (r : List ℚ), cloudSlices cloud = .ok r → (∃ p ∈ cloud, p.1.1 = 2) →
    (∃ p ∈ cloud, p.1.1 = 40) → (∀ p ∈ cloud, 2 ≤ p.1.1 ∧ p.1.1 ≤ 40) →
    ∀ p ∈ cloud, ∃ s ∈ Cloud.wsToSlices 1 cloud r, p ∈ s :=
  (C90_cover_exactly (by norm_num) (by norm_num)).2 (by norm_num)

end Verif.Slices

namespace Verif.Plot

variable {K : Type} [Field K] [LinearOrder K] [IsStrictOrderedRing K]

/-- **C92**, exactly, for lists of names of colours (other than two of them): the legend contains every slice with its colour if
and only if there are at least as many colours as slices. -/
theorem C92_exactly {isColor : List Char → Bool} {l : List (List Char)} (hne : l ≠ []) (hl : ∀ s ∈ l, isColor s = true)
    (labels : List K) (h2 : l.length ≠ 2) :
    (∃ r, sliceColors isColor labels (.list (names l)) = .ok r ∧
      legend isColor labels (.list (names l)) = .ok (.entries (labels.zip r))) ↔ labels.length ≤ l.length := by
  constructor
  · rintro ⟨r, hr, hlg⟩
    by_contra hc
    obtain ⟨r', entries, h3, h4, h5, h6, h7, -⟩ := C92_few_false hne hl (labels := labels) (not_le.1 hc) h2
    rw [h3] at hr
    cases Except.ok.inj hr
    rw [h5] at hlg
    have := Except.ok.inj hlg
    cases this
    rw [List.length_zip, h4, min_self] at h6
    omega
  · intro h
    obtain ⟨r, h3, h4, -⟩ := C92_entries_partial hne hl labels h
    exact ⟨r, h3, h4⟩

example : ¬ ∃ r, sliceColors (fun _ => true) [(2 : ℚ), 4] (.list (names [['r']])) = .ok r ∧
      legend (fun _ => true) [(2 : ℚ), 4] (.list (names [['r']])) = .ok (.entries ([(2 : ℚ), 4].zip r)) :=
  fun h => absurd ((C92_exactly (by simp) (by simp) _ (by simp)).1 h) (by simp)

end Verif.Plot

namespace Verif.Norms

/-- **C107**, exactly: `scaled_norm` of a norm is a norm if and only if no factor is zero. -/
theorem C107_scaled_exactly {norm : List ℝ → ℝ} {scales : List ℝ} (hn : IsNorm scales.length norm) :
    (∃ N, IsNorm scales.length N ∧
      ∀ rows, (∀ r ∈ rows, r.length = scales.length) → scaledNorm norm scales rows = .ok (rows.map N)) ↔
      ∀ s ∈ scales, s ≠ 0 := by
  constructor
  · rintro ⟨N, hN, h⟩ s hs rfl
    obtain ⟨i, hi, he⟩ := List.mem_iff_getElem.1 hs
    let v : List ℝ := (List.range scales.length).map fun j => if j = i then 1 else 0
    have hv : v.length = scales.length := by simp [v]
    have h1 := h [v] (by simpa using hv)
    have h2 : scaledNorm norm scales [v] = .ok [norm (List.zipWith (· * ·) scales v)] := by
      unfold scaledNorm
      have := mapM_ok_of (f := fun row => match Weigher.broadcastMul scales row with
        | .ok r => Except.ok (ε := PyErr) (norm r)
        | .error e => .error e) (g := fun row => norm (List.zipWith (· * ·) scales row)) (l := [v]) (by
          intro r hr
          rw [broadcast_eq (by simp only [List.mem_cons, List.not_mem_nil, or_false] at hr; rw [hr, hv])])
      exact this
    rw [h2] at h1
    have h3 : norm (List.zipWith (· * ·) scales v) = N v := by
      have := Except.ok.inj h1
      simpa using this
    have h4 : norm (List.zipWith (· * ·) scales v) = 0 := by
      rw [hn.definite _ (by simp [hv])]
      intro x hx
      obtain ⟨j, hj, rfl⟩ := List.mem_iff_getElem.1 hx
      simp only [List.getElem_zipWith, v, List.getElem_map, List.getElem_range]
      by_cases hji : j = i
      · subst hji
        rw [he]
        simp
      · simp [hji]
    have h5 := (hN.definite v hv).1 (h3 ▸ h4) 1 (List.mem_map.2 ⟨i, List.mem_range.2 hi, by simp⟩)
    norm_num at h5
  · intro hs
    obtain ⟨N, h1, -, h3⟩ := C107_scaled hn hs
    exact ⟨N, h1, h3⟩

example : ¬ ∃ N, IsNorm 2 N ∧ ∀ rows, (∀ r ∈ rows, r.length = 2) → scaledNorm euclid [1 / 40, 0] rows = .ok (rows.map N) :=
  fun h => absurd rfl ((C107_scaled_exactly (norm := euclid) (scales := [1 / 40, 0]) (C107_euclid 2).1).1 h 0 (by simp))

end Verif.Norms

namespace Verif.Sources

/-- **C108**, exactly: the times of a file in hours resp. seconds are those given in it if and only if all of them are whole
numbers. -/
theorem C108_exactly {strptime : List Char → Fmt → Option ℚ} {s : List Char} {start : ℚ} (h : Accepted strptime s start)
    (plain : List ℚ) :
    (netTimes strptime ("hours since ".toList ++ s) plain = .ok (plain.map fun x => start + 3600 * x) ↔
      ∀ x ∈ plain, ∃ n : ℤ, x = n) ∧
    (netTimes strptime ("seconds since ".toList ++ s) plain = .ok (plain.map fun x => start + x) ↔
      ∀ x ∈ plain, ∃ n : ℤ, x = n) := by
  have e1 : "hours since ".toList = hoursSince := by decide +kernel
  have e2 : "seconds since ".toList = secondsSince := by decide +kernel
  rw [e1, e2]
  have key : ∀ (step : ℚ) (f : ℚ → ℚ), step ≠ 0 → (∀ x, f x = start + x * step) →
      ((Except.ok (ε := PyErr) (plain.map fun x => start + truncate x * step) = .ok (plain.map f)) ↔
        ∀ x ∈ plain, ∃ n : ℤ, x = n) := by
    intro step f hs hf
    constructor
    · intro e x hx
      have e := List.map_inj_left.1 (Except.ok.inj e) x hx
      rw [hf] at e
      have : (truncate x : ℚ) * step = x * step := by linarith
      exact ⟨truncate x, (mul_right_cancel₀ hs this).symm⟩
    · intro hx
      congr 1
      apply List.map_congr_left
      intro x hm
      obtain ⟨n, rfl⟩ := hx x hm
      rw [hf, truncate_int]
  constructor
  · unfold netTimes
    rw [unit_hours]
    simp only [startTime_ok h]
    exact key 3600 _ (by norm_num) fun x => by ring
  · unfold netTimes
    rw [unit_seconds]
    simp only [startTime_ok h]
    exact key 1 _ (by norm_num) fun x => by ring

example : netTimes (fun _ _ => some 100) ("hours since ".toList ++ "x".toList) [0, 1 / 2] ≠
    .ok ([0, 1 / 2].map fun x => 100 + 3600 * x) := by decide +kernel

end Verif.Sources

namespace Verif.CloudText

open Verif.Interp (Pt)

/-- Two numbers which are both negative or not, and are rounded to the same hundredths. -/
def Alike (x y : ℚ) : Prop := (x < 0 ↔ y < 0) ∧ pyRound (|x| * 100) = pyRound (|y| * 100)

theorem hundredths_eq (x : ℚ) : ((hundredths x : ℕ) : ℤ) = pyRound (|x| * 100) := by
  have hpos : 0 ≤ pyRound (|x| * 100) := by
    have := pyRound_mono (show (((0 : ℤ) : ℚ)) ≤ |x| * 100 by push_cast; positivity)
    rwa [pyRound_int] at this
  unfold hundredths
  rw [Int.toNat_of_nonneg hpos]

theorem minus_fixed2 (x : ℚ) : (fixed2 x).head? = some '-' ↔ x < 0 := by
  unfold fixed2
  by_cases hx : x < 0
  · simp [hx]
  · rw [if_neg hx]
    simp only [List.nil_append, hx, iff_false]
    cases hd : Nat.toDigits 10 (hundredths x / 100) with
    | nil => exact absurd hd Nat.toDigits_ne_nil
    | cons c cs =>
      have := Nat.isDigit_of_mem_toDigits (b := 10) (n := hundredths x / 100) (c := c) (by norm_num) (by norm_num) (by rw [hd]; simp)
      simp only [List.cons_append, List.head?_cons, Option.some.injEq]
      rintro rfl
      revert this
      decide

theorem fixed2_eq_iff (x y : ℚ) : fixed2 x = fixed2 y ↔ Alike x y := by
  constructor
  · intro h
    have hs : x < 0 ↔ y < 0 := by rw [← minus_fixed2, ← minus_fixed2, h]
    refine ⟨hs, ?_⟩
    have e := congrArg number h
    rw [number_fixed2, number_fixed2] at e
    rw [← hundredths_eq, ← hundredths_eq]
    by_cases hx : x < 0
    · rw [if_pos hx, if_pos (hs.1 hx)] at e
      have : ((hundredths x : ℕ) : ℚ) = ((hundredths y : ℕ) : ℚ) := by linarith
      exact_mod_cast this
    · rw [if_neg hx, if_neg (fun hy => hx (hs.2 hy))] at e
      have : ((hundredths x : ℕ) : ℚ) = ((hundredths y : ℕ) : ℚ) := by linarith
      exact_mod_cast this
  · rintro ⟨hs, h⟩
    have hh : hundredths x = hundredths y := by
      rw [← hundredths_eq, ← hundredths_eq] at h
      exact_mod_cast h
    unfold fixed2
    rw [hh]
    by_cases hx : x < 0
    · rw [if_pos hx, if_pos (hs.1 hx)]
    · rw [if_neg hx, if_neg (fun hy => hx (hs.2 hy))]

theorem body_eq_iff (p q : Pt ℚ) : body p = body q ↔ Alike p.1.1 q.1.1 ∧ Alike p.1.2 q.1.2 ∧ Alike p.2 q.2 := by
  constructor
  · intro h
    have := congrArg words h
    rw [words_body, words_body] at this
    simp only [List.cons.injEq, and_true] at this
    exact ⟨(fixed2_eq_iff _ _).1 this.1, (fixed2_eq_iff _ _).1 this.2.1, (fixed2_eq_iff _ _).1 this.2.2⟩
  · rintro ⟨h1, h2, h3⟩
    unfold body
    rw [(fixed2_eq_iff _ _).2 h1, (fixed2_eq_iff _ _).2 h2, (fixed2_eq_iff _ _).2 h3]

/-- **C110**, exactly: two point clouds are printed in the same way if and only if they have the same number of points, and the
points at the same place have wind speeds, wind angles and boat speeds with the same sign and the same hundredths when rounded. -/
theorem C110_exactly (c d : List (Pt ℚ)) : str c = str d ↔
    List.Forall₂ (fun p q => Alike p.1.1 q.1.1 ∧ Alike p.1.2 q.1.2 ∧ Alike p.2 q.2) c d := by
  have : str c = str d ↔ c.map body = d.map body := by
    constructor
    · intro h
      have := congrArg (split '\n') h
      rw [split_str, split_str] at this
      simpa using this
    · intro h
      have e : ∀ c : List (Pt ℚ), c.flatMap line = (c.map body).flatMap (· ++ ['\n']) := by
        intro c
        induction c with
        | nil => rfl
        | cons p c ih => simp only [List.flatMap_cons, List.map_cons, ih, line_eq]
      unfold str
      rw [e, e, h]
  rw [this]
  clear this
  induction c generalizing d with
  | nil =>
    cases d with
    | nil => simp
    | cons q d => simp
  | cons p c ih =>
    cases d with
    | nil => simp
    | cons q d =>
      simp only [List.map_cons, List.cons.injEq, List.forall₂_cons, body_eq_iff]
      exact and_congr Iff.rfl (ih d)

example : str [((12, 90), 6)] = str [((12, 90), 6001 / 1000)] ∧ str [((12, 90), 6)] ≠ str [((12, 90), 601 / 100)] := by
  decide +kernel

end Verif.CloudText
