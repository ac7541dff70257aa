import Verif.Props.DefaultTable
import Verif.Props.Consistency

/-!
# Property C153: the table of the default pipeline approximates the boat
-/

namespace Verif.Default

open Verif.Interp Verif.Weigher Verif.Ext

/-- The measurements differ by at most `δ` from the speeds `f` of the boat. -/
def Observed (f : ℝ × ℝ → ℝ) (δ : ℝ) (data : List (Pt ℝ)) : Prop := ∀ p ∈ data, |p.2 - f p.1| ≤ δ

/-- A boat does not sail against the wind. -/
def Stops (f : ℝ × ℝ → ℝ) : Prop := ∀ w, f (w, 0) = 0 ∧ f (w, 360) = 0

theorem measures_all {s : Settings} {f : ℝ × ℝ → ℝ} {δ : ℝ} (hδ : 0 ≤ δ) {data : List (Pt ℝ)} (hm : Observed f δ data)
    (hf : Stops f) : Measures f δ (allPoints s data) := by
  intro p hp
  unfold allPoints at hp
  rcases List.mem_append.1 hp with hp | hp
  · exact hm p.1 (kept_sub hp)
  · obtain ⟨-, h1, h2, -⟩ := zeros_mem hp
    obtain ⟨⟨⟨w, a⟩, v⟩, u⟩ := p
    simp only at h1 h2
    subst h2
    rcases h1 with rfl | rfl
    · simpa [(hf w).1] using hδ
    · simpa [(hf w).2] using hδ

/-- **C153** (partial: measurements dropped by the filter do not help, see `C153_dropped_false`). Each entry of the table made
from measurements with errors of at most `δ` differs from the true speed by at most `δ` plus the variation of the speed over
the ball, if the ball contains a measurement that is kept by the filter; if it contains neither a measurement nor an injected
zero, the entry is 0. -/
theorem C153_entry_partial {s : Settings} (hs : s.Ok) {f : ℝ × ℝ → ℝ} (hf : Stops f) {δ : ℝ} (hδ : 0 ≤ δ)
    {data : List (Pt ℝ)} (hne : data ≠ []) (hpos : ∀ p ∈ data, 0 ≤ p.1.1) (hm : Observed f δ data) :
    ∃ t, makeTable s data = .ok t ∧ ∀ w ∈ t.ws, ∀ a ∈ t.wa, ∃ x, t.get w a = .ok x ∧
      ∀ ω, (∀ u, s.ballNorm (u - (w, a)) ≤ s.ballRadius → |f u - f (w, a)| ≤ ω) →
        ((∃ q ∈ kept s data, s.ballNorm (q.1.1 - (w, a)) ≤ s.ballRadius) → |x - f (w, a)| ≤ ω + δ) ∧
        (x = 0 ∨ |x - f (w, a)| ≤ ω + δ) := by
  obtain ⟨ws, wa, t, -, h2, -, -, -, h6⟩ := makeTable_spec hs hne hpos
  refine ⟨t, h2, fun w hw a ha => ⟨_, h6 w hw a ha, fun ω hω => ?_⟩⟩
  have hv := isValue s (allPoints s data) (w, a)
  have key : (∃ q ∈ allPoints s data, inBall s (q.1.1 - (w, a)) = true) →
      |valueAt s (allPoints s data) (w, a) - f (w, a)| ≤ ω + δ := fun he =>
    C140_value (C140_mean hs.dist (distr := gauss s.alpha) fun d w => Real.exp_pos _).1 (measures_all hδ hm hf) he
      (fun p _ hp => hω _ (by simpa [inBall] using hp)) (interpolatePoint_eq hv)
  refine ⟨fun ⟨q, hq, hb⟩ => key ⟨q, List.mem_append_left _ hq, by simpa [inBall] using hb⟩, ?_⟩
  by_cases he : ∃ q ∈ allPoints s data, inBall s (q.1.1 - (w, a)) = true
  · exact .inr (key he)
  · left
    push Not at he
    exact hv.1 fun p hp => by simpa using he p hp

theorem kept_zero {s : Settings} (hs : s.Ok) (h0 : s.percent = 0) {data : List (Pt ℝ)} {p : Pt ℝ} (hp : p ∈ data) :
    (p, wt s data p) ∈ kept s data := by
  have hw : data.map (wt s data) ≠ [] := by
    rw [Ne, List.map_eq_nil_iff]
    exact List.ne_nil_of_mem hp
  refine List.mem_filter.2 ⟨List.mem_map_of_mem hp, ?_⟩
  simp only [decide_eq_true_eq, ge_iff_le, h0]
  obtain ⟨hb, -⟩ := Filter.percentile_bounds hw (le_refl (0 : ℝ)) (by norm_num)
  have : wt s data p ∈ Filter.srt (data.map (wt s data)) :=
    (List.perm_insertionSort _ _).mem_iff.2 (List.mem_map_of_mem hp)
  obtain ⟨j, hj, e⟩ := List.getElem_of_mem this
  rw [← e]
  refine hb j hj ?_
  simp [Filter.pos]

/-- **C153** (partial: for `QuantileFilter(0)`, which drops no measurement). If measurements with errors of at most `δ` are
available in the ball around a wind of the table, the entry differs from the true speed by at most `δ` plus the variation of
the speed over the ball; for speeds changing by at most `L` times the distance it is at most `L r + δ`. -/
theorem C153_unfiltered_partial {s : Settings} (hs : s.Ok) (h0 : s.percent = 0) {f : ℝ × ℝ → ℝ} (hf : Stops f) {δ L : ℝ}
    (hδ : 0 ≤ δ) (hL : 0 ≤ L) (hl : Lip s.ballNorm L f) {data : List (Pt ℝ)} (hne : data ≠ []) (hpos : ∀ p ∈ data, 0 ≤ p.1.1)
    (hm : Observed f δ data) :
    ∃ t, makeTable s data = .ok t ∧ ∀ w ∈ t.ws, ∀ a ∈ t.wa,
      (∃ p ∈ data, s.ballNorm (p.1 - (w, a)) ≤ s.ballRadius) →
        ∃ x, t.get w a = .ok x ∧ |x - f (w, a)| ≤ L * s.ballRadius + δ := by
  obtain ⟨t, h1, h2⟩ := C153_entry_partial hs hf hδ hne hpos hm
  refine ⟨t, h1, fun w hw a ha ⟨p, hp, hb⟩ => ?_⟩
  obtain ⟨x, hx, h3⟩ := h2 w hw a ha
  exact ⟨x, hx, (h3 (L * s.ballRadius) fun u hu => (hl _ _).trans (mul_le_mul_of_nonneg_left hu hL)).1
    ⟨_, kept_zero hs h0 hp, hb⟩⟩

/-- A boat whose speed grows with the angle to the wind. -/
noncomputable def tent (g : ℝ × ℝ) : ℝ := min g.2 (360 - g.2) / 20

/-- Settings without filtering, with a ball of ten degrees. -/
noncomputable def sharp : Settings := { defaults with percent := 0, ballRadius := 1 / 36 }

example : ∃ t, makeTable sharp [((20, 90), 46 / 10), ((21, 94), 47 / 10), ((20, 180), 9)] = .ok t ∧
    ∀ w ∈ t.ws, ∀ a ∈ t.wa, (∃ p ∈ [(((20 : ℝ), (90 : ℝ)), (46 / 10 : ℝ)), ((21, 94), 47 / 10), ((20, 180), 9)],
        scaledEuclidean (p.1 - (w, a)) ≤ 1 / 36) →
      ∃ x, t.get w a = .ok x ∧ |x - tent (w, a)| ≤ 18 * (1 / 36) + 1 / 10 := by
  refine C153_unfiltered_partial (s := sharp) ⟨defaults_ok.self, le_rfl, by norm_num [sharp], defaults_ok.nZeros,
    defaults_ok.dist⟩ rfl (f := tent) (fun w => by norm_num [tent]) (by norm_num) (by norm_num) ?_ (by simp) ?_ ?_
  · intro u g
    show |tent u - tent g| ≤ 18 * scaledEuclidean (u - g)
    have h1 : |tent u - tent g| ≤ |u.2 - g.2| / 20 := by
      unfold tent
      rw [← sub_div, abs_div, abs_of_pos (by norm_num : (0 : ℝ) < 20)]
      refine div_le_div_of_nonneg_right ?_ (by norm_num)
      have := abs_min_sub_min_le_max u.2 (360 - u.2) g.2 (360 - g.2)
      rw [show 360 - u.2 - (360 - g.2) = -(u.2 - g.2) by ring, abs_neg, max_self] at this
      exact this
    have h2 : |u.2 - g.2| / 360 ≤ scaledEuclidean (u - g) := by
      unfold scaledEuclidean
      apply Real.le_sqrt_of_sq_le
      rw [div_pow, sq_abs]
      simp only [Prod.fst_sub, Prod.snd_sub]
      nlinarith [sq_nonneg (1 / 40 * (u.1 - g.1))]
    linarith
  · intro p hp
    simp only [List.mem_cons, List.not_mem_nil, or_false] at hp
    rcases hp with rfl | rfl | rfl <;> norm_num
  · intro p hp
    simp only [List.mem_cons, List.not_mem_nil, or_false] at hp
    rcases hp with rfl | rfl | rfl <;> norm_num [tent]

/-! ### A wind whose measurements are all dropped -/

/-- `2 m + 1` measurements of 5 knots at (20, 90), and `2 m` measurements at (20, 180) which differ by `δ` from 7 knots, half
of them to each side. -/
noncomputable def twoWinds (m : Nat) (δ : ℝ) : List (Pt ℝ) :=
  List.replicate (2 * m + 1) ((20, 90), 5) ++ (List.replicate m ((20, 180), 7 + δ) ++ List.replicate m ((20, 180), 7 - δ))

theorem standardNorm_angle (b : ℝ) : standardNorm (0, b) = |b| / 360 := by
  have h1 : (normScale "TWS" : ℝ) = 1 / 20 := by simp [normScale]
  have h2 : (normScale "TWA" : ℝ) = 1 / 360 := by simp [normScale]
  unfold standardNorm Norms.euclid
  rw [h1, h2]
  simp only [List.map_cons, List.map_nil, List.sum_cons, List.sum_nil]
  rw [show (1 / 20 * (0 : ℝ)) ^ 2 + ((1 / 360 * b) ^ 2 + 0) = (1 / 360 * b) ^ 2 by ring, Real.sqrt_sq_eq_abs, abs_mul,
    abs_of_pos (by norm_num : (0 : ℝ) < 1 / 360)]
  ring

section Dropped

variable {m : Nat} {δ : ℝ}

theorem far {a b : ℝ} (h : a - b = 90 ∨ a - b = -90) :
    ¬ standardNorm (((20 : ℝ), a) - (20, b)) ≤ 1 / 20 := by
  rw [Prod.mk_sub_mk, sub_self, standardNorm_angle]
  rcases h with h | h <;> rw [h] <;> norm_num

theorem self {a : ℝ} : standardNorm (((20 : ℝ), a) - (20, a)) ≤ 1 / 20 := by
  rw [Prod.mk_sub_mk, sub_self, sub_self, standardNorm_angle]
  norm_num

theorem near_first (v : ℝ) : near defaults (twoWinds m δ) ((20, 90), v) = List.replicate (2 * m + 1) 5 := by
  unfold near cylinderSpeeds twoWinds
  simp only [List.filter_append, List.filter_replicate, defaults, decide_eq_true_eq, self, far (a := 180) (b := 90) (by norm_num), if_true,
    if_false, List.append_nil, List.map_replicate]

theorem near_second (v : ℝ) : near defaults (twoWinds m δ) ((20, 180), v) =
    List.replicate m (7 + δ) ++ List.replicate m (7 - δ) := by
  unfold near cylinderSpeeds twoWinds
  simp only [List.filter_append, List.filter_replicate, defaults, decide_eq_true_eq, self, far (a := 90) (b := 180) (by norm_num), if_true,
    if_false, List.nil_append, List.map_replicate, List.map_append]

theorem raw_first : raw defaults (twoWinds m δ) ((20, 90), 5) = 0 := by
  unfold raw
  rw [near_first]
  have : mean (List.replicate (2 * m + 1) (5 : ℝ)) = 5 := by
    unfold mean
    rw [List.sum_replicate, List.length_replicate, nsmul_eq_mul, mul_div_cancel_left₀]
    positivity
  simp [this]

theorem mean_second (hm : 0 < m) : mean (List.replicate m (7 + δ) ++ List.replicate m (7 - δ)) = 7 := by
  have : (0 : ℝ) < m := by exact_mod_cast hm
  unfold mean
  simp only [List.sum_append, List.sum_replicate, List.length_append, List.length_replicate, nsmul_eq_mul]
  push_cast
  field_simp
  ring

theorem dev_second (hm : 0 < m) (hδ : 0 < δ) : dev (List.replicate m (7 + δ) ++ List.replicate m (7 - δ)) = δ := by
  have hm' : (0 : ℝ) < m := by exact_mod_cast hm
  have : Real.sqrt (((List.replicate m (7 + δ) ++ List.replicate m (7 - δ)).map fun x =>
      (x - mean (List.replicate m (7 + δ) ++ List.replicate m (7 - δ))) ^ 2).sum /
      (List.replicate m (7 + δ) ++ List.replicate m (7 - δ)).length) = δ := by
    rw [mean_second hm]
    simp only [List.map_append, List.map_replicate, List.sum_append, List.sum_replicate, List.length_append,
      List.length_replicate, nsmul_eq_mul]
    rw [Real.sqrt_eq_iff_eq_sq (by positivity) hδ.le]
    push_cast
    field_simp
    ring
  unfold dev
  rw [this, if_neg hδ.ne']

theorem raw_second (hm : 0 < m) (hδ : 0 < δ) {v : ℝ} (hv : |7 - v| = δ) :
    raw defaults (twoWinds m δ) ((20, 180), v) = 1 := by
  unfold raw
  rw [near_second, mean_second hm, dev_second hm hδ]
  simp only [hv]
  exact div_self hδ.ne'

theorem map_raw (hm : 0 < m) (hδ : 0 < δ) : (twoWinds m δ).map (raw defaults (twoWinds m δ)) =
    List.replicate (2 * m + 1) 0 ++ List.replicate (2 * m) 1 := by
  conv_lhs => enter [2]; unfold twoWinds
  rw [List.map_append, List.map_append, List.map_replicate, List.map_replicate, List.map_replicate, raw_first,
    raw_second hm hδ (by rw [show 7 - (7 + δ) = -δ by ring, abs_neg, abs_of_pos hδ]),
    raw_second hm hδ (by rw [show 7 - (7 - δ) = δ by ring, abs_of_pos hδ]), ← List.replicate_add, two_mul]

theorem top_raw (hm : 0 < m) (hδ : 0 < δ) : top ((twoWinds m δ).map (raw defaults (twoWinds m δ))) = 1 := by
  rw [map_raw hm hδ, List.replicate_succ, List.cons_append]
  show Weigher.maxOf 0 (List.replicate (2 * m) 0 ++ List.replicate (2 * m) 1) = 1
  refine le_antisymm ?_ (Weigher.le_maxOf _ _ _ ?_)
  · rcases List.mem_cons.1 (Weigher.maxOf_mem (0 : ℝ) (List.replicate (2 * m) 0 ++ List.replicate (2 * m) 1)) with h | h
    · rw [h]; norm_num
    · rcases List.mem_append.1 h with h | h
      · rw [List.eq_of_mem_replicate h]; norm_num
      · exact (List.eq_of_mem_replicate h).le
  · refine List.mem_cons_of_mem _ (List.mem_append_right _ (List.mem_replicate.2 ⟨by omega, rfl⟩))

theorem wt_first (hm : 0 < m) (hδ : 0 < δ) : wt defaults (twoWinds m δ) ((20, 90), 5) = 1 := by
  unfold wt
  rw [top_raw hm hδ, raw_first]
  norm_num

theorem wt_second (hm : 0 < m) (hδ : 0 < δ) {v : ℝ} (hv : |7 - v| = δ) :
    wt defaults (twoWinds m δ) ((20, 180), v) = 0 := by
  unfold wt
  rw [top_raw hm hδ, raw_second hm hδ hv]
  norm_num

theorem map_wt (hm : 0 < m) (hδ : 0 < δ) : (twoWinds m δ).map (wt defaults (twoWinds m δ)) =
    List.replicate (2 * m + 1) 1 ++ List.replicate (2 * m) 0 := by
  conv_lhs => enter [2]; unfold twoWinds
  rw [List.map_append, List.map_append, List.map_replicate, List.map_replicate, List.map_replicate, wt_first hm hδ,
    wt_second hm hδ (by rw [show 7 - (7 + δ) = -δ by ring, abs_neg, abs_of_pos hδ]),
    wt_second hm hδ (by rw [show 7 - (7 - δ) = δ by ring, abs_of_pos hδ]), ← List.replicate_add, two_mul]

theorem percentile_wt (hm : 0 < m) (hδ : 0 < δ) :
    Filter.percentile ((twoWinds m δ).map (wt defaults (twoWinds m δ))) 50 = 1 := by
  rw [map_wt hm hδ]
  have hsort : (List.replicate (2 * m + 1) (1 : ℝ) ++ List.replicate (2 * m) 0).insertionSort (· ≤ ·) =
      List.replicate (2 * m) 0 ++ List.replicate (2 * m + 1) 1 := by
    refine List.Perm.eq_of_pairwise (le := (· ≤ ·)) (fun _ _ _ _ h1 h2 => le_antisymm h1 h2)
      (List.pairwise_insertionSort _ _) ?_ ((List.perm_insertionSort _ _).trans List.perm_append_comm)
    rw [List.pairwise_append]
    refine ⟨?_, ?_, ?_⟩
    · rw [List.pairwise_replicate]; exact .inr le_rfl
    · rw [List.pairwise_replicate]; exact .inr le_rfl
    · intro a ha b hb
      rw [List.eq_of_mem_replicate ha, List.eq_of_mem_replicate hb]
      norm_num
  have hv : (((List.replicate (2 * m + 1) (1 : ℝ) ++ List.replicate (2 * m) 0).length : ℝ) - 1) * 50 / 100 =
      ((2 * m : ℕ) : ℤ) := by
    rw [List.length_append, List.length_replicate, List.length_replicate]
    push_cast
    ring
  unfold Filter.percentile
  simp only [hsort, hv, Int.floor_intCast, Int.toNat_natCast, sub_self, zero_mul, add_zero]
  rw [List.getD_eq_getElem?_getD, List.getElem?_append_right (by simp)]
  simp

theorem kept_twoWinds (hm : 0 < m) (hδ : 0 < δ) {q : Pt ℝ × ℝ} (hq : q ∈ kept defaults (twoWinds m δ)) :
    q.1 = ((20, 90), 5) := by
  unfold kept at hq
  obtain ⟨h1, h2⟩ := List.mem_filter.1 hq
  obtain ⟨p, hp, rfl⟩ := List.mem_map.1 h1
  have e : defaults.percent = 50 := rfl
  simp only [decide_eq_true_eq, e, percentile_wt hm hδ] at h2
  unfold twoWinds at hp
  rcases List.mem_append.1 hp with hp | hp
  · exact List.eq_of_mem_replicate hp
  · exfalso
    rcases List.mem_append.1 hp with hp | hp <;> rw [List.eq_of_mem_replicate hp] at h2
    · rw [wt_second hm hδ (by rw [show 7 - (7 + δ) = -δ by ring, abs_neg, abs_of_pos hδ])] at h2
      norm_num at h2
    · rw [wt_second hm hδ (by rw [show 7 - (7 - δ) = δ by ring, abs_of_pos hδ])] at h2
      norm_num at h2

end Dropped

/-- **C153 is false** for the default settings: however many measurements there are at a wind of the table, and however
small their errors are, the filter may drop all of them, if they are not as uniform as the measurements at other winds. Here
`2 m` measurements at (20, 180) differ by `δ` from 7 knots, but the table has a boat speed of at most 5 knots there. -/
theorem C153_dropped_false (m : Nat) (hm : 0 < m) (δ : ℝ) (hδ : 0 < δ) :
    ∃ t, makeTable defaults (twoWinds m δ) = .ok t ∧
      ((twoWinds m δ).countP fun p => decide (p.1 = (20, 180))) = 2 * m ∧
      (∀ p ∈ twoWinds m δ, p.1 = (20, 180) → |p.2 - 7| ≤ δ) ∧
      ∃ x, t.get 20 180 = .ok x ∧ x ≤ 5 := by
  have hmem : ((20, 90), 5) ∈ twoWinds m δ := List.mem_append_left _ (List.mem_replicate.2 ⟨by omega, rfl⟩)
  have hws : ∀ p ∈ twoWinds m δ, p.1.1 = 20 := by
    intro p hp
    unfold twoWinds at hp
    rcases List.mem_append.1 hp with hp | hp
    · rw [List.eq_of_mem_replicate hp]
    · rcases List.mem_append.1 hp with hp | hp <;> rw [List.eq_of_mem_replicate hp]
  have hne : twoWinds m δ ≠ [] := List.ne_nil_of_mem hmem
  obtain ⟨ws, wa, t, g1, g2, g3, g4, g5, g6⟩ := makeTable_spec defaults_ok hne fun p hp => by rw [hws p hp]; norm_num
  have hall : ∀ q ∈ allPoints defaults (twoWinds m δ), q.1.1.1 = 20 := by
    intro q hq
    obtain ⟨p, hp, p', hp', h1, h2⟩ := allPoints_ws defaults_ok hne hq
    rw [hws p hp] at h1
    rw [hws p' hp'] at h2
    exact le_antisymm h2 h1
  have h20 : (20 : ℝ) ∈ t.ws := by
    obtain ⟨q, hq⟩ := List.exists_mem_of_ne_nil _ (kept_ne defaults_ok hne)
    have hq' : q ∈ allPoints defaults (twoWinds m δ) := List.mem_append_left _ hq
    obtain ⟨ws', wa', he, -, -, hm1, -⟩ := Ext.C81_min_max (points := (allPoints defaults (twoWinds m δ)).map Prod.fst)
      (lo := 20) (hi := 20) (by
        rw [List.map_map]
        exact List.mem_map.2 ⟨q, hq', hall q hq'⟩) (by
        intro p hp
        obtain ⟨q, hq, rfl⟩ := List.mem_map.1 hp
        exact (hall q hq).ge) (by
        rw [List.map_map]
        exact List.mem_map.2 ⟨q, hq', hall q hq'⟩) (by
        intro p hp
        obtain ⟨q, hq, rfl⟩ := List.mem_map.1 hp
        exact (hall q hq).le)
    rw [g1] at he
    obtain ⟨rfl, rfl⟩ := Prod.mk.inj (Except.ok.inj he)
    have h10 : pyRound (20 : ℝ) = 20 := by exact_mod_cast pyRound_int (K := ℝ) 20
    rw [g3]
    exact List.mem_map.2 ⟨20, (hm1 20).2 (by rw [h10]; simp), by norm_num⟩
  have h180 : (180 : ℝ) ∈ t.wa := by
    rw [g4]
    exact List.mem_map.2 ⟨180, (g5 180).2 (by norm_num), by norm_num⟩
  refine ⟨t, g2, ?_, ?_, _, g6 20 h20 180 h180, ?_⟩
  · unfold twoWinds
    simp only [List.countP_append, List.countP_replicate]
    norm_num
    ring
  · intro p hp h
    unfold twoWinds at hp
    rcases List.mem_append.1 hp with hp | hp
    · rw [List.eq_of_mem_replicate hp] at h
      norm_num at h
    · rcases List.mem_append.1 hp with hp | hp <;> rw [List.eq_of_mem_replicate hp]
      · rw [show 7 + δ - 7 = δ by ring, abs_of_pos hδ]
      · rw [show 7 - δ - 7 = -δ by ring, abs_neg, abs_of_pos hδ]
  · refine (valueAt_bounds (s := defaults) (lo := 0) (20, 180) le_rfl (by norm_num) fun q hq => ?_).2
    unfold allPoints at hq
    rcases List.mem_append.1 hq with hq | hq
    · rw [kept_twoWinds hm hδ hq]
      norm_num
    · obtain ⟨-, -, h, -⟩ := zeros_mem hq
      rw [h]
      norm_num

example : ∃ t, makeTable defaults (twoWinds 3 (1 / 10)) = .ok t ∧
    ((twoWinds 3 (1 / 10)).countP fun p => decide (p.1 = (20, 180))) = 2 * 3 ∧
    (∀ p ∈ twoWinds 3 (1 / 10), p.1 = (20, 180) → |p.2 - 7| ≤ 1 / 10) ∧ ∃ x, t.get 20 180 = .ok x ∧ x ≤ 5 :=
  C153_dropped_false 3 (by norm_num) (1 / 10) (by norm_num)

end Verif.Default
