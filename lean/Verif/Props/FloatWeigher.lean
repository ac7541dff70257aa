import Verif.Lemmas.FloatCast
import Verif.Lemmas.Weigher
import Verif.Model.FloatWeigher
import Verif.Props.FloatWeather

/-!
# Property C154: weights in double precision
-/

set_option linter.unusedSectionVars false

namespace Verif.F64

section sums

variable {K : Type} [Field K] [LinearOrder K] [IsStrictOrderedRing K] [FloorRing K]

theorem Summed.exists {l : List K} (h : l ≠ []) : ∃ s, Summed l s := by
  induction l with
  | nil => exact absurd rfl h
  | cons a l ih =>
    by_cases hl : l = []
    · subst hl
      exact ⟨a, .one a⟩
    · obtain ⟨s, hs⟩ := ih hl
      exact ⟨_, Summed.add (Summed.one a) hs⟩

/-- The sum of one, two or three equal numbers. -/
theorem Summed.three {l : List K} {s a : K} (h : Summed l s) (ha : ∀ x ∈ l, x = a) :
    (l.length = 1 → s = a) ∧ (l.length = 2 → s = fl (a + a)) ∧ (l.length = 3 → s = fl (fl (a + a) + a)) := by
  induction h with
  | one x => simpa using ha x (by simp)
  | @add l m x y hl hm h1 h2 =>
    have p1 := hl.length_pos
    have p2 := hm.length_pos
    obtain ⟨a1, a2, -⟩ := h1 fun x hx => ha x (by simp [hx])
    obtain ⟨b1, b2, -⟩ := h2 fun x hx => ha x (by simp [hx])
    simp only [List.length_append]
    refine ⟨fun h => by omega, fun h => ?_, fun h => ?_⟩
    · rw [a1 (by omega), b1 (by omega)]
    · rcases (by omega : l.length = 1 ∧ m.length = 2 ∨ l.length = 2 ∧ m.length = 1) with ⟨c, d⟩ | ⟨c, d⟩
      · rw [a1 c, b2 d, add_comm]
      · rw [a2 c, b1 d]
  | perm hp _ h =>
    rw [← hp.length_eq]
    exact h fun x hx => ha x (hp.mem_iff.1 hx)

/-- Sums of equal numbers with few significant bits are exact. -/
theorem Summed.equal {l : List K} {s : K} {m k : ℤ} (h : Summed l s) (ha : ∀ x ∈ l, x = (m : K) * 2 ^ k)
    (hb : (l.length : ℤ) * |m| < 2 ^ 53) : s = (((l.length : ℤ) * m : ℤ) : K) * 2 ^ k := by
  induction h with
  | one x => simpa using ha x (by simp)
  | @add l l' x y hl hm h1 h2 =>
    have hl' : ((l ++ l').length : ℤ) = l.length + l'.length := by simp
    have c1 : (l.length : ℤ) * |m| ≤ (l ++ l').length * |m| :=
      mul_le_mul_of_nonneg_right (by omega) (abs_nonneg m)
    have c2 : (l'.length : ℤ) * |m| ≤ (l ++ l').length * |m| :=
      mul_le_mul_of_nonneg_right (by omega) (abs_nonneg m)
    have e1 := h1 (fun x hx => ha x (by simp [hx])) (by omega)
    have e2 := h2 (fun x hx => ha x (by simp [hx])) (by omega)
    have e : x + y = ((((l ++ l').length : ℤ) * m : ℤ) : K) * 2 ^ k := by
      rw [e1, e2, hl']
      push_cast
      ring
    rw [e]
    refine fl_exact ?_
    rwa [abs_mul, Nat.abs_cast]
  | perm hp _ h =>
    rw [← hp.length_eq] at hb ⊢
    exact h (fun x hx => ha x (hp.mem_iff.1 hx)) hb

/-- The mean of equal numbers with few significant bits is exact. -/
theorem Mean.equal {l : List K} {a : K} {m k : ℤ} (h : Mean l a) (ha : ∀ x ∈ l, x = (m : K) * 2 ^ k)
    (hb : (l.length : ℤ) * |m| < 2 ^ 53) : a = (m : K) * 2 ^ k := by
  obtain ⟨s, hs, rfl⟩ := h
  have hp := hs.length_pos
  have hn : (l.length : K) ≠ 0 := by
    have : l.length ≠ 0 := by omega
    exact_mod_cast this
  rw [hs.equal ha hb]
  have e : (((l.length : ℤ) * m : ℤ) : K) * 2 ^ k / (l.length : K) = (m : K) * 2 ^ k := by
    push_cast
    field_simp
  rw [e]
  refine fl_exact (lt_of_le_of_lt ?_ hb)
  have : (1 : ℤ) ≤ l.length := by omega
  nlinarith [abs_nonneg m]

theorem Mean.zeros {l : List K} {a : K} (h : Mean l a) (ha : ∀ x ∈ l, x = 0) : a = 0 := by
  have := h.equal (m := 0) (k := 0) (by simpa using ha) (by simp)
  simpa using this

theorem Mean.exists {l : List K} (h : l ≠ []) : ∃ m, Mean l m := by
  obtain ⟨s, hs⟩ := Summed.exists h
  exact ⟨_, s, hs, rfl⟩

/-- The mean of three equal numbers. -/
theorem Mean.three {a m : K} (h : Mean [a, a, a] m) : m = fl (fl (fl (a + a) + a) / 3) := by
  obtain ⟨s, hs, rfl⟩ := h
  have := (hs.three (a := a) (by simp)).2.2 rfl
  rw [this]
  norm_num

/-- What the normalization does. -/
theorem normalize_cases {raw : List K} (h0 : ∀ x ∈ raw, 0 ≤ x) (hne : raw ≠ []) :
    (normalize raw = raw ∧ ∀ x ∈ raw, x = 0) ∨
    ∃ M ∈ raw, 0 < M ∧ (∀ x ∈ raw, x ≤ M) ∧ normalize raw = raw.map fun x => fl (x / M) := by
  match raw, hne with
  | a :: l, _ =>
    have hle := Weigher.le_maxOf a l
    have hmem := Weigher.maxOf_mem a l
    by_cases hm : Weigher.maxOf a l = 0
    · left
      refine ⟨by simp only [normalize, hm, if_true], fun x hx => le_antisymm ?_ (h0 x hx)⟩
      have := hle x hx
      rwa [hm] at this
    · right
      refine ⟨_, hmem, lt_of_le_of_ne (h0 _ hmem) (Ne.symm hm), hle, ?_⟩
      simp only [normalize, hm, if_false]

theorem length_normalize (raw : List K) : (normalize raw).length = raw.length := by
  unfold normalize
  split
  · rfl
  · split <;> simp

end sums

variable {P : Type} [Sub P] {norm : P → ℝ} {radius : ℝ} {points : List (P × ℝ)}

theorem StdOr1.pos {l : List ℝ} {σ : ℝ} (h : StdOr1 l σ) : 0 < σ := by
  obtain ⟨m, v, -, -, rfl⟩ := h
  split
  · norm_num
  · rename_i h
    exact lt_of_le_of_ne (fl_nonneg (Real.sqrt_nonneg _)) (Ne.symm h)

theorem StdOr1.exists {l : List ℝ} (h : l ≠ []) : ∃ σ, StdOr1 l σ := by
  obtain ⟨m, hm⟩ := Mean.exists h
  obtain ⟨v, hv⟩ := Mean.exists (l := l.map fun x => fl (fl (x - m) * fl (x - m))) (by simpa using h)
  exact ⟨_, m, v, hm, hv, rfl⟩

theorem MeanRaw.nonneg {p : P × ℝ} {r : ℝ} (h : MeanRaw norm radius points p r) : 0 ≤ r := by
  obtain ⟨σ, m, hσ, -, rfl⟩ := h
  exact fl_nonneg (div_nonneg (abs_nonneg _) hσ.pos.le)

theorem forall₂_nonneg {pts : List (P × ℝ)} {raw : List ℝ} (h : List.Forall₂ (MeanRaw norm radius points) pts raw) :
    ∀ x ∈ raw, 0 ≤ x := by
  induction h with
  | nil => simp
  | cons h _ ih =>
    intro x hx
    rcases List.mem_cons.1 hx with rfl | hx
    · exact h.nonneg
    · exact ih x hx

/-- **C154.** Weights can always be calculated if every point lies in its own cylinder: no mean of no numbers occurs. -/
theorem C154_defined (hn : ∀ p ∈ points, norm (p.1 - p.1) ≤ radius) : ∃ w, MeanWeighed norm radius points w := by
  have key : ∀ pts : List (P × ℝ), (∀ p ∈ pts, p ∈ points) →
      ∃ raw, List.Forall₂ (MeanRaw norm radius points) pts raw := by
    intro pts hp
    induction pts with
    | nil => exact ⟨[], .nil⟩
    | cons p pts ih =>
      obtain ⟨raw, hr⟩ := ih fun q hq => hp q (by simp [hq])
      have hne : Weigher.cylinderSpeeds norm radius points p.1 ≠ [] := by
        have hpm := hp p (by simp)
        refine List.ne_nil_of_mem (a := p.2) ?_
        simp only [Weigher.cylinderSpeeds, List.mem_map, List.mem_filter, decide_eq_true_eq]
        exact ⟨p, ⟨hpm, hn p hpm⟩, rfl⟩
      obtain ⟨σ, hσ⟩ := StdOr1.exists hne
      obtain ⟨m, hm⟩ := Mean.exists hne
      exact ⟨_, .cons ⟨σ, m, hσ, hm, rfl⟩ hr⟩
  obtain ⟨raw, hr⟩ := key points fun _ h => h
  exact ⟨_, raw, hr, rfl⟩

/-- **C154.** Rounded weights: there is one for each point, all of them lie in `[0, 1]`, some weight is exactly zero or all of
them are exactly one, and a point whose speed differs at most as much from the mean of its cylinder (in units of the standard
deviation) has at least the same weight. -/
theorem C154_weights {w : List ℝ} (h : MeanWeighed norm radius points w) :
    w.length = points.length ∧ (∀ x ∈ w, 0 ≤ x ∧ x ≤ 1) ∧ (points ≠ [] → 0 ∈ w ∨ ∀ x ∈ w, x = 1) ∧
    ∃ raw, List.Forall₂ (MeanRaw norm radius points) points raw ∧
      ∀ (i j : Nat) (x y v v' : ℝ), raw[i]? = some x → raw[j]? = some y → x ≤ y → w[i]? = some v → w[j]? = some v' →
        v' ≤ v := by
  obtain ⟨raw, hr, rfl⟩ := h
  have h0 := forall₂_nonneg hr
  have hlen := hr.length_eq
  by_cases hne : raw = []
  · subst hne
    have : points = [] := by simpa using hlen
    subst this
    exact ⟨rfl, by simp [normalize], by simp, [], hr, by simp⟩
  refine ⟨by rw [List.length_map, length_normalize, hlen], ?_⟩
  rcases normalize_cases h0 hne with ⟨e, hz⟩ | ⟨M, hM, hpos, hle, e⟩
  · rw [e]
    have h1 : ∀ x ∈ raw.map (fun x => fl (1 - x)), x = 1 := by
      intro x hx
      obtain ⟨y, hy, rfl⟩ := List.mem_map.1 hx
      rw [hz y hy, sub_zero, fl_one]
    refine ⟨fun x hx => by rw [h1 x hx]; norm_num, fun _ => .inr h1, raw, hr, ?_⟩
    intro i j x y v v' _ _ _ hv hv'
    rw [h1 v (List.mem_of_getElem? hv), h1 v' (List.mem_of_getElem? hv')]
  · rw [e, List.map_map]
    refine ⟨?_, fun _ => .inl ?_, raw, hr, ?_⟩
    · intro x hx
      obtain ⟨y, hy, rfl⟩ := List.mem_map.1 hx
      simp only [Function.comp]
      have a1 : 0 ≤ fl (y / M) := fl_nonneg (div_nonneg (h0 y hy) hpos.le)
      have a2 : fl (y / M) ≤ 1 := by
        have := fl_mono (x := y / M) (y := 1) ((div_le_one hpos).2 (hle y hy))
        rwa [fl_one] at this
      refine ⟨fl_nonneg (by linarith), ?_⟩
      have := fl_mono (x := 1 - fl (y / M)) (y := 1) (by linarith)
      rwa [fl_one] at this
    · refine List.mem_map.2 ⟨M, hM, ?_⟩
      simp only [Function.comp]
      rw [div_self hpos.ne', fl_one, sub_self, fl_zero]
    · intro i j x y v v' hi hj hxy hv hv'
      simp only [List.getElem?_map, hi, hj, Option.map_some, Option.some.injEq, Function.comp] at hv hv'
      rw [← hv, ← hv']
      refine fl_mono ?_
      have := fl_mono (div_le_div_of_nonneg_right hxy hpos.le)
      linarith

/-- **C154** (partial: the speeds have to have few significant bits, see `C154_uniform_false`). A measurement that agrees
with all other measurements in its cylinder has weight one. This holds if the speed has at most 53 bits even when it is
multiplied by the number of measurements in the cylinder. -/
theorem C154_uniform_partial {w : List ℝ} (h : MeanWeighed norm radius points w) {i : Nat} {p : P × ℝ} {v : ℝ} {m k : ℤ}
    (hi : points[i]? = some p) (hv : w[i]? = some v) (hp : p.2 = (m : ℝ) * 2 ^ k)
    (hall : ∀ x ∈ Weigher.cylinderSpeeds norm radius points p.1, x = p.2)
    (hb : ((Weigher.cylinderSpeeds norm radius points p.1).length : ℤ) * |m| < 2 ^ 53) : v = 1 := by
  obtain ⟨raw, hr, rfl⟩ := h
  have h0 := forall₂_nonneg hr
  have hri : raw[i]? = some 0 := by
    obtain ⟨hlt, hget⟩ := List.getElem?_eq_some_iff.1 hi
    have hlt' : i < raw.length := by rw [← hr.length_eq]; exact hlt
    have := hr.get hlt hlt'
    simp only [List.get_eq_getElem, hget] at this
    obtain ⟨σ, a, hσ, ha, e⟩ := this
    rw [hp] at hall
    have e1 := ha.equal hall hb
    rw [List.getElem?_eq_getElem hlt', e, e1, hp, sub_self, fl_zero, abs_zero, zero_div, fl_zero]
  have hne : raw ≠ [] := by
    rintro rfl
    simp at hri
  rcases normalize_cases h0 hne with ⟨e, -⟩ | ⟨M, -, -, -, e⟩
  · rw [e, List.getElem?_map, hri] at hv
    simp only [Option.map_some, Option.some.injEq] at hv
    rw [← hv, sub_zero, fl_one]
  · rw [e, List.getElem?_map, List.getElem?_map, hri] at hv
    simp only [Option.map_some, Option.some.injEq] at hv
    rw [← hv, zero_div, fl_zero, sub_zero, fl_one]

/-- Rounding a fraction of known value. -/
theorem fl_eq_of_rat {x y : ℚ} (h : fl x = y) : fl (x : ℝ) = y := by rw [fl_cast, h]

/-- The double nearest to 5.4. -/
theorem fl_five_four : fl (54 / 10 : ℝ) = ((3039929748475085 / 2 ^ 49 : ℚ) : ℝ) := by
  have := fl_eq_of_rat (x := 54 / 10) (y := 3039929748475085 / 2 ^ 49) (by decide +kernel)
  rw [← this]
  norm_num

/-- The mean of three times 5.4. -/
theorem mean_five_four {m : ℝ} (h : Mean [fl (54 / 10 : ℝ), fl (54 / 10), fl (54 / 10)] m) :
    m = ((6079859496950171 / 2 ^ 50 : ℚ) : ℝ) := by
  have e := h.three
  rw [fl_five_four] at e
  have h1 := fl_eq_of_rat (x := 3039929748475085 / 2 ^ 49 + 3039929748475085 / 2 ^ 49) (y := 3039929748475085 / 2 ^ 48)
    (by decide +kernel)
  have h2 := fl_eq_of_rat (x := 3039929748475085 / 2 ^ 48 + 3039929748475085 / 2 ^ 49)
    (y := fl (3039929748475085 / 2 ^ 48 + 3039929748475085 / 2 ^ 49)) rfl
  have h3 := fl_eq_of_rat (x := fl (3039929748475085 / 2 ^ 48 + 3039929748475085 / 2 ^ 49) / 3)
    (y := 6079859496950171 / 2 ^ 50) (by decide +kernel)
  rw [Rat.cast_add] at h1 h2
  rw [Rat.cast_div, Rat.cast_ofNat] at h3
  rw [e, h1, h2, h3]

theorem std_five_four {σ : ℝ} (h : StdOr1 [fl (54 / 10 : ℝ), fl (54 / 10), fl (54 / 10)] σ) :
    σ = ((1 / 2 ^ 50 : ℚ) : ℝ) := by
  obtain ⟨m, v, hm, hv, rfl⟩ := h
  rw [mean_five_four hm] at hv
  have h1 := fl_eq_of_rat (x := 3039929748475085 / 2 ^ 49 - 6079859496950171 / 2 ^ 50) (y := -1 / 2 ^ 50) (by decide +kernel)
  have h2 := fl_eq_of_rat (x := (-1 / 2 ^ 50) * (-1 / 2 ^ 50)) (y := 1 / 2 ^ 100) (by decide +kernel)
  rw [Rat.cast_sub] at h1
  rw [Rat.cast_mul] at h2
  simp only [List.map_cons, List.map_nil, fl_five_four, h1, h2] at hv
  have e := hv.equal (m := 1) (k := -100) (by simp) (by simp)
  have hsq : Real.sqrt v = ((1 / 2 ^ 50 : ℚ) : ℝ) := by
    rw [e, Real.sqrt_eq_iff_mul_self_eq (by positivity) (by positivity)]
    norm_num
  have h3 := fl_eq_of_rat (x := 1 / 2 ^ 50) (y := 1 / 2 ^ 50) (by decide +kernel)
  rw [hsq, h3, if_neg (by norm_num)]

/-- **C154 is false** without a restriction of the bits: if 5.4 knots have been measured three times at similar winds then the
mean of the three speeds is another double, and all three weights are zero instead of one (whatever the order of
summation). -/
theorem C154_uniform_false {p q r : P} (h : ∀ x ∈ [p, q, r], ∀ y ∈ [p, q, r], norm (x - y) ≤ radius) {w : List ℝ}
    (hw : MeanWeighed norm radius [(p, fl (54 / 10)), (q, fl (54 / 10)), (r, fl (54 / 10))] w) :
    w = [0, 0, 0] ∧
    Weigher.meanWeigh norm radius [(p, fl (54 / 10)), (q, fl (54 / 10)), (r, fl (54 / 10))] = some [1, 1, 1] := by
  have hc : ∀ y ∈ [p, q, r], Weigher.cylinderSpeeds norm radius
      [(p, fl (54 / 10)), (q, fl (54 / 10)), (r, fl (54 / 10))] y = [fl (54 / 10), fl (54 / 10), fl (54 / 10)] := by
    intro y hy
    have h1 := h p (by simp) y hy
    have h2 := h q (by simp) y hy
    have h3 := h r (by simp) y hy
    simp [Weigher.cylinderSpeeds, h1, h2, h3]
  have hraw : ∀ y ∈ [p, q, r], ∀ x, MeanRaw norm radius
      [(p, fl (54 / 10)), (q, fl (54 / 10)), (r, fl (54 / 10))] (y, fl (54 / 10)) x → x = 1 := by
    rintro y hy x ⟨σ, m, hσ, hm, rfl⟩
    simp only [hc y hy] at hσ hm
    rw [std_five_four hσ, mean_five_four hm]
    have h1 := fl_eq_of_rat (x := 6079859496950171 / 2 ^ 50 - 3039929748475085 / 2 ^ 49) (y := 1 / 2 ^ 50) (by decide +kernel)
    rw [Rat.cast_sub] at h1
    rw [fl_five_four, h1, abs_of_pos (by norm_num), div_self (by norm_num), fl_one]
  constructor
  · obtain ⟨raw, hr, rfl⟩ := hw
    match raw, hr with
    | _, .cons h1 (.cons h2 (.cons h3 .nil)) =>
      rw [hraw p (by simp) _ h1, hraw q (by simp) _ h2, hraw r (by simp) _ h3]
      simp [normalize, Weigher.maxOf, fl_one, fl_zero]
  · have hs : ∀ a : ℝ, Weigher.meanOf [a, a, a] = some a := by
      intro a
      simp only [Weigher.meanOf, List.sum_cons, List.sum_nil, List.length_cons, List.length_nil]
      rw [if_neg (by simp)]
      congr 1
      push_cast
      ring
    have hm : ∀ y ∈ [p, q, r], Weigher.meanRaw norm radius
        [(p, fl (54 / 10)), (q, fl (54 / 10)), (r, fl (54 / 10))] (y, fl (54 / 10)) = some 0 := by
      intro y hy
      simp [Weigher.meanRaw, hc y hy, hs, Weigher.stdOr1]
    have e1 := hm p (by simp)
    have e2 := hm q (by simp)
    have e3 := hm r (by simp)
    simp [Weigher.meanWeigh, List.mapM_cons, e1, e2, e3, Weigher.normalize, Weigher.maxOf]

/-- The hypotheses are met by three measurements at the same wind, and the wrong weights are really calculated. -/
example : ∃ w, MeanWeighed (P := ℝ) (fun x => |x|) 1 [(7, fl (54 / 10)), (7, fl (54 / 10)), (8, fl (54 / 10))] w ∧
    w = [0, 0, 0] := by
  obtain ⟨w, hw⟩ := C154_defined (P := ℝ) (norm := fun x => |x|) (radius := 1)
    (points := [(7, fl (54 / 10)), (7, fl (54 / 10)), (8, fl (54 / 10))]) (by simp)
  exact ⟨w, hw, (C154_uniform_false (by norm_num [abs_le]) hw).1⟩

/-- The hypotheses of `C154_uniform_partial` are met by three measurements of 5.5 knots. -/
example : ∃ w, MeanWeighed (P := ℝ) (fun x => |x|) 1 [(7, 11 / 2), (7, 11 / 2), (8, 11 / 2)] w ∧ w[0]? = some 1 := by
  obtain ⟨w, hw⟩ := C154_defined (P := ℝ) (norm := fun x => |x|) (radius := 1)
    (points := [(7, 11 / 2), (7, 11 / 2), (8, 11 / 2)]) (by simp)
  have hl := (C154_weights hw).1
  have h0 : 0 < w.length := by rw [hl]; simp
  refine ⟨w, hw, ?_⟩
  rw [List.getElem?_eq_getElem h0]
  refine congrArg some (C154_uniform_partial hw (i := 0) (p := (7, 11 / 2)) (m := 11) (k := -1) rfl
    (List.getElem?_eq_getElem h0) (by norm_num) ?_ ?_)
  · intro x hx
    simp only [Weigher.cylinderSpeeds, List.mem_map, List.mem_filter] at hx
    obtain ⟨a, ⟨ha, -⟩, rfl⟩ := hx
    simp only [List.mem_cons, List.not_mem_nil, or_false] at ha
    rcases ha with rfl | rfl | rfl <;> rfl
  · have : (Weigher.cylinderSpeeds (fun x : ℝ => |x|) 1 [(7, 11 / 2), (7, 11 / 2), (8, 11 / 2)] 7).length ≤ 3 := by
      simp only [Weigher.cylinderSpeeds, List.length_map]
      exact (List.length_filter_le ..)
    have h2 : ((Weigher.cylinderSpeeds (fun x : ℝ => |x|) 1 [(7, 11 / 2), (7, 11 / 2), (8, 11 / 2)] 7).length : ℤ) ≤ 3 := by
      exact_mod_cast this
    norm_num
    omega

end Verif.F64
