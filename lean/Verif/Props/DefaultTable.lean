import Verif.Lemmas.DefaultTable

/-!
# Properties C111 to C116: from measurements to a table
-/

namespace Verif.Default

open Verif.Interp Verif.Weigher

/-- The default settings are sensible. -/
theorem defaults_ok : defaults.Ok := by
  constructor
  · change standardNorm 0 ≤ 1 / 20
    simp [standardNorm, Norms.euclid]
  · norm_num [defaults]
  · norm_num [defaults]
  · norm_num [defaults]
  · exact isDist_scaledEuclidean

/-! ## C111 -/

/-- **C111 is false** for the default distribution of `ArithmeticMeanInterpolator`: of two points at the same distance the
one with the greater weight counts less. -/
theorem C111_gauss_false {alpha d w w' : ℝ} (ha : 0 < alpha) (hd : 0 < d) (hw : w < w') :
    gauss alpha d w' < gauss alpha d w := by
  unfold gauss
  apply Real.exp_lt_exp.2
  have := mul_pos ha hd
  nlinarith

/-- **C111 is false** for the interpolated values: halfway between two measurements the value is nearer to the one with
the smaller weight. -/
theorem C111_between_false {norm : ℝ × ℝ → ℝ} {alpha : ℝ} (ha : 0 < alpha) {p q : Pt ℝ} {g : ℝ × ℝ}
    (hp : 0 < norm (p.1 - g)) (hq : norm (q.1 - g) = norm (p.1 - g)) (hb : p.2 < q.2) {v w : ℝ} (hw : v < w) :
    ∃ x, arith norm 1 (gauss alpha) [p, q] [v, w] g = .ok x ∧ x < (p.2 + q.2) / 2 := by
  have hg := C111_gauss_false ha hp hw
  have h1 := C21_gauss_positive alpha (norm (p.1 - g)) v
  have h2 := C21_gauss_positive alpha (norm (p.1 - g)) w
  refine ⟨(p.2 * gauss alpha (norm (p.1 - g)) v + q.2 * gauss alpha (norm (p.1 - g)) w) /
    (gauss alpha (norm (p.1 - g)) v + gauss alpha (norm (p.1 - g)) w), ?_, ?_⟩
  · have hs : ¬ (gauss alpha (norm (p.1 - g)) v + gauss alpha (norm (p.1 - g)) w) = 0 := by positivity
    have e : firstAtZero norm g [p, q] = none := by
      rw [firstAtZero_eq_none]
      intro r hr
      simp only [List.mem_cons, List.not_mem_nil, or_false] at hr
      rcases hr with rfl | rfl
      · exact hp.ne'
      · rw [hq]; exact hp.ne'
    simp only [arith, e, average, dists, List.map_cons, List.map_nil, List.zipWith_cons_cons, List.zipWith_nil_left,
      List.sum_cons, List.sum_nil, add_zero, hq, hs, if_false, dot, one_mul]
  · rw [div_lt_iff₀ (by positivity)]
    nlinarith

example : ∃ x, arith scaledEuclidean 1 (gauss 50) [((10, 80), 5), ((10, 100), 9)] [0, 1] (10, 90) = .ok x ∧
    x < ((5 : ℝ) + 9) / 2 :=
  C111_between_false (by norm_num) (by
    unfold scaledEuclidean
    apply Real.sqrt_pos.2
    norm_num) (by
    unfold scaledEuclidean
    congr 1
    norm_num) (by norm_num) (by norm_num)

/-- **C111 is false** for the interpolation in the default pipeline: halfway between two measurements the value is nearer to
the one with the smaller weight. -/
theorem C111_interpolate_false {s : Settings} (ha : 0 < s.alpha) {p q : Pt ℝ} {g : ℝ × ℝ} (hp : 0 < s.norm (p.1 - g))
    (hq : s.norm (q.1 - g) = s.norm (p.1 - g)) (hb : p.2 < q.2) {v w : ℝ} (hw : v < w) :
    ∃ x, interpolate s [(p, v), (q, w)] g = .ok x ∧ x < (p.2 + q.2) / 2 :=
  C111_between_false ha hp hq hb hw

example : ∃ x, interpolate defaults [(((10, 80), 5), 0), (((10, 100), 9), 1)] (10, 90) = .ok x ∧ x < ((5 : ℝ) + 9) / 2 :=
  C111_interpolate_false (s := defaults) (by norm_num [defaults]) (by
    change 0 < scaledEuclidean _
    unfold scaledEuclidean
    apply Real.sqrt_pos.2
    norm_num) (by
    change scaledEuclidean _ = scaledEuclidean _
    unfold scaledEuclidean
    congr 1
    norm_num) (by norm_num) (by norm_num)

/-- **C111 is false** for the default pipeline: of two measurements at the same distance of a wind of the table, the one
that deviates more from its surroundings, which thus has the smaller weight, counts more. -/
theorem C111_outlier_false {s : Settings} (ha : 0 < s.alpha) {data : List (Pt ℝ)} {p q : Pt ℝ}
    (hq : q ∈ data) (hdev : raw s data p < raw s data q) (h0 : 0 ≤ raw s data p) {g : ℝ × ℝ} (hd : 0 < s.norm (p.1 - g))
    (he : s.norm (q.1 - g) = s.norm (p.1 - g)) :
    wt s data q < wt s data p ∧ pull s g (p, wt s data p) < pull s g (q, wt s data q) := by
  have htop : raw s data q ≤ top (data.map (raw s data)) := by
    have hm := List.mem_map_of_mem (f := raw s data) hq
    cases hl : data.map (raw s data) with
    | nil => rw [hl] at hm; simp at hm
    | cons a l => rw [hl] at hm; exact Weigher.le_maxOf a l _ hm
  have hpos : 0 < top (data.map (raw s data)) := lt_of_le_of_lt h0 (lt_of_lt_of_le hdev htop)
  have hw : wt s data q < wt s data p := by
    unfold wt
    rw [if_neg hpos.ne', if_neg hpos.ne']
    have := div_lt_div_of_pos_right hdev hpos
    linarith
  refine ⟨hw, ?_⟩
  unfold pull
  simp only [he]
  exact C111_gauss_false ha hd hw

/-- **C111** (partial: of the weights only their sign is respected). Of two points with the same positive weight the
nearer one counts more; if the weights are 0 then the distances make no difference. -/
theorem C111_distance_partial {alpha d d' w : ℝ} (ha : 0 < alpha) (hw : 0 < w) (hd : d < d') :
    gauss alpha d' w < gauss alpha d w ∧ gauss alpha d' 0 = gauss alpha d 0 := by
  constructor
  · unfold gauss
    apply Real.exp_lt_exp.2
    have := mul_pos ha hw
    nlinarith
  · simp [gauss]

example : gauss 50 (1/2) 1 < gauss 50 (1/4) 1 ∧ gauss 50 (1/2) 0 = gauss 50 (1/4) 0 :=
  C111_distance_partial (by norm_num) (by norm_num) (by norm_num)

/-! ## C112 -/

/-- **C112.** From measurements with nonnegative wind speeds a table is made; its wind angles are the multiples of 5 from 5
to 355, its wind speeds are those of the measurements up to rounding, and its boat speeds lie between the smallest and
the largest measured one, or 0. -/
theorem C112_range {s : Settings} (hs : s.Ok) {data : List (Pt ℝ)} (hne : data ≠ []) (hpos : ∀ p ∈ data, 0 ≤ p.1.1) :
    ∃ t, makeTable s data = .ok t ∧ t.ws ≠ [] ∧ (∀ a : ℝ, a ∈ t.wa ↔ ∃ k : ℤ, 1 ≤ k ∧ k ≤ 71 ∧ a = 5 * k) ∧
      (∀ w ∈ t.ws, ∃ p ∈ data, ∃ q ∈ data, p.1.1 - 1 / 2 ≤ w ∧ w ≤ q.1.1 + 1 / 2) ∧
      ∀ w ∈ t.ws, ∀ a ∈ t.wa, ∃ x, t.get w a = .ok x ∧
        ∀ lo hi, lo ≤ 0 → 0 ≤ hi → (∀ p ∈ data, lo ≤ p.2 ∧ p.2 ≤ hi) → lo ≤ x ∧ x ≤ hi := by
  obtain ⟨ws, wa, t, h1, h2, h3, h4, h5, h6⟩ := makeTable_spec hs hne hpos
  have hne' : (allPoints s data).map Prod.fst ≠ [] := by
    unfold allPoints
    rw [Ne, List.map_eq_nil_iff]
    exact List.append_ne_nil_of_left_ne_nil (kept_ne hs hne) _
  have hne'' : ((allPoints s data).map Prod.fst).map (fun p => p.1.1) ≠ [] := by simpa using hne'
  obtain ⟨ws', wa', he, -, -, hm1, -⟩ := Ext.C81_min_max (points := (allPoints s data).map Prod.fst)
    (List.min_mem hne'') (fun p hp => List.min_le_of_mem (List.mem_map_of_mem (f := fun p : Pt ℝ => p.1.1) hp))
    (List.max_mem hne'') (fun p hp => List.le_max_of_mem (List.mem_map_of_mem (f := fun p : Pt ℝ => p.1.1) hp))
  rw [h1] at he
  obtain ⟨rfl, rfl⟩ := Prod.mk.inj (Except.ok.inj he)
  obtain ⟨m, hm, hme⟩ := List.mem_map.1 (List.min_mem hne'')
  obtain ⟨m', hm', rfl⟩ := List.mem_map.1 hm
  obtain ⟨M, hM, hMe⟩ := List.mem_map.1 (List.max_mem hne'')
  obtain ⟨M', hM', rfl⟩ := List.mem_map.1 hM
  have hmM : m'.1.1.1 ≤ M'.1.1.1 := by
    rw [hMe]
    exact List.le_max_of_mem (List.mem_map_of_mem (f := fun p : Pt ℝ => p.1.1) hm)
  refine ⟨t, h2, ?_, ?_, ?_, ?_⟩
  · obtain ⟨q, hq⟩ := List.exists_mem_of_ne_nil _ hne'
    obtain ⟨w, hw, -⟩ := Ext.C81_near h1 q hq
    rw [h3]
    exact List.ne_nil_of_mem (List.mem_map_of_mem hw)
  · intro a
    rw [h4, List.mem_map]
    constructor
    · rintro ⟨k, hk, rfl⟩
      have := (h5 k).1 hk
      refine ⟨k / 5, by omega, by omega, ?_⟩
      have : k = 5 * (k / 5) := by omega
      conv_lhs => rw [this]
      push_cast
      rfl
    · rintro ⟨k, hk1, hk2, rfl⟩
      exact ⟨5 * k, (h5 _).2 ⟨by omega, by omega, by omega⟩, by push_cast; rfl⟩
  · intro w hw
    rw [h3] at hw
    obtain ⟨k, hk, rfl⟩ := List.mem_map.1 hw
    obtain ⟨hk1, hk2, -⟩ := (hm1 k).1 hk
    rw [← hme] at hk1
    rw [← hMe] at hk2
    obtain ⟨p, hp, -, -, hp1, -⟩ := allPoints_ws hs hne hm'
    obtain ⟨-, -, q, hq, -, hq1⟩ := allPoints_ws hs hne hM'
    have r1 := (pyRound_spec m'.1.1.1)
    have r2 := (pyRound_spec M'.1.1.1)
    have c1 : ((pyRound m'.1.1.1 : ℤ) : ℝ) ≤ k := by exact_mod_cast hk1
    have c2 : (k : ℝ) ≤ ((pyRound M'.1.1.1 : ℤ) : ℝ) := by exact_mod_cast hk2
    exact ⟨p, hp, q, hq, by linarith [r1.1, r1.2], by linarith [r2.1, r2.2]⟩
  · intro w hw a ha
    refine ⟨_, h6 w hw a ha, fun lo hi hlo hhi hb => valueAt_bounds _ hlo hhi ?_⟩
    intro q hq
    unfold allPoints at hq
    rcases List.mem_append.1 hq with hq | hq
    · exact hb _ (kept_sub hq)
    · rw [(zeros_mem hq).2.2.1]
      exact ⟨hlo, hhi⟩

/-- **C112.** With the default settings. -/
theorem C112_defaults {data : List (Pt ℝ)} (hne : data ≠ []) (hpos : ∀ p ∈ data, 0 ≤ p.1.1) (hb : ∀ p ∈ data, 0 ≤ p.2) :
    ∃ t, makeTable defaults data = .ok t ∧ ∀ w ∈ t.ws, ∀ a ∈ t.wa, ∃ x, t.get w a = .ok x ∧ 0 ≤ x ∧
      ∀ hi, (∀ p ∈ data, p.2 ≤ hi) → x ≤ hi := by
  obtain ⟨t, h1, -, -, -, h2⟩ := C112_range defaults_ok hne hpos
  refine ⟨t, h1, fun w hw a ha => ?_⟩
  obtain ⟨x, hx, hr⟩ := h2 w hw a ha
  obtain ⟨q, hq⟩ := List.exists_mem_of_ne_nil _ hne
  have h0 : ∀ hi, (∀ p ∈ data, p.2 ≤ hi) → 0 ≤ x ∧ x ≤ hi := fun hi hhi =>
    hr 0 hi (le_refl 0) ((hb q hq).trans (hhi q hq)) fun p hp => ⟨hb p hp, hhi p hp⟩
  have hne' : data.map Prod.snd ≠ [] := by simpa using hne
  exact ⟨x, hx, (h0 ((data.map Prod.snd).max hne') fun p hp => List.le_max_of_mem (List.mem_map_of_mem hp)).1,
    fun hi hhi => (h0 hi hhi).2⟩

/-- **C112.** Without measurements `RuntimeError` is raised. -/
theorem C112_nothing (s : Settings) : makeTable s [] = .error .runtimeError := rfl

example : ∃ t, makeTable defaults [((10, 90), 5), ((12.5, 45), 6), ((8, 200), 7)] = .ok t ∧
    ∀ w ∈ t.ws, ∀ a ∈ t.wa, ∃ x, t.get w a = .ok x ∧ 0 ≤ x ∧
      ∀ hi, (∀ p ∈ [(((10 : ℝ), (90 : ℝ)), (5 : ℝ)), ((12.5, 45), 6), ((8, 200), 7)], p.2 ≤ hi) → x ≤ hi :=
  C112_defaults (by simp) (by
    intro p hp
    simp only [List.mem_cons, List.not_mem_nil, or_false] at hp
    rcases hp with rfl | rfl | rfl <;> norm_num) (by
    intro p hp
    simp only [List.mem_cons, List.not_mem_nil, or_false] at hp
    rcases hp with rfl | rfl | rfl <;> norm_num)

/-! ## C113 -/

theorem roundedSpan_perm {l l' : List ℝ} (h : l.Perm l') : Ext.roundedSpan l = Ext.roundedSpan l' := by
  by_cases hne : l = []
  · subst hne
    rw [h.nil_eq]
  · have hne' : l' ≠ [] := fun h' => hne (by rw [h'] at h; exact h.eq_nil)
    rw [Ext.roundedSpan_eq (List.min_mem hne) (fun y hy => List.min_le_of_mem hy) (List.max_mem hne)
      (fun y hy => List.le_max_of_mem hy),
      Ext.roundedSpan_eq (l := l') (h.mem_iff.1 (List.min_mem hne)) (fun y hy => List.min_le_of_mem (h.mem_iff.2 hy))
      (h.mem_iff.1 (List.max_mem hne)) (fun y hy => List.le_max_of_mem (h.mem_iff.2 hy))]

theorem minMaxResolution_perm {l l' : List (Pt ℝ)} (h : (l.map fun p => p.1.1).Perm (l'.map fun p => p.1.1)) :
    Ext.minMaxResolution l = Ext.minMaxResolution l' := by
  unfold Ext.minMaxResolution
  rw [roundedSpan_perm h]

theorem allPoints_perm (s : Settings) {data data' : List (Pt ℝ)} (h : data.Perm data') :
    (allPoints s data).Perm (allPoints s data') := by
  have hk := kept_perm s h
  unfold allPoints
  rw [min?_perm (hk.map _), max?_perm (hk.map _)]
  exact hk.append_right _

/-- No two measurements of the same wind contradict each other. -/
def Consistent (data : List (Pt ℝ)) : Prop := ∀ p ∈ data, ∀ q ∈ data, p.1 = q.1 → p.2 = q.2

theorem Consistent.agree {s : Settings} {data : List (Pt ℝ)} (h : Consistent data) {g : ℝ × ℝ} (h0 : 0 < g.2)
    (h1 : g.2 < 360) : ∀ p ∈ allPoints s data, ∀ q ∈ allPoints s data, p.1.1 = g → q.1.1 = g → p.1.2 = q.1.2 := by
  have key : ∀ p ∈ allPoints s data, p.1.1 = g → p.1 ∈ data := by
    intro p hp hpg
    unfold allPoints at hp
    rcases List.mem_append.1 hp with hp | hp
    · exact kept_sub hp
    · rcases (zeros_mem hp).2.1 with h | h
      · rw [hpg] at h; linarith
      · rw [hpg] at h; linarith
  intro p hp q hq hpg hqg
  exact h p.1 (key p hp hpg) q.1 (key q hq hqg) (hpg.trans hqg.symm)

theorem minMax_angles {l : List (Pt ℝ)} {ws wa : List ℝ} (h : Ext.tableSize l .minMax = .ok (ws, wa)) :
    ∀ a ∈ wa, 0 < a ∧ a < 360 := by
  intro a ha
  unfold Ext.tableSize at h
  simp only at h
  cases hm : Ext.minMaxResolution l with
  | error e => rw [hm] at h; cases h
  | ok r =>
    rw [hm] at h
    injection h with h
    obtain ⟨-, rfl⟩ := Prod.mk.inj h
    obtain ⟨k, hk, rfl⟩ := List.mem_map.1 ha
    unfold Ext.minMaxResolution at hm
    cases hsp : Ext.roundedSpan (l.map fun p => p.1.1) with
    | error e => rw [hsp] at hm; cases hm
    | ok sp =>
      rw [hsp] at hm
      injection hm with hm
      rw [← hm] at hk
      rw [Ext.mem_pyRange (by norm_num)] at hk
      have h1 : (5 : ℝ) ≤ k := by exact_mod_cast hk.1
      have h2 : (k : ℝ) < 356 := by exact_mod_cast hk.2.1
      constructor <;> linarith

theorem mapM_congr_mem {α β : Type} {f g : α → Except PyErr β} {l : List α} (h : ∀ x ∈ l, f x = g x) :
    l.mapM f = l.mapM g := by
  induction l with
  | nil => rfl
  | cons a l ih =>
    rw [List.mapM_cons, List.mapM_cons, h a List.mem_cons_self, ih fun x hx => h x (List.mem_cons_of_mem _ hx)]

theorem tableProcess_congr {res : Ext.WindResolution ℝ} {nbh : ℝ × ℝ → Bool}
    {interpolate : List (Pt ℝ × ℝ) → ℝ × ℝ → Except PyErr ℝ} {pts pts' : List (Pt ℝ × ℝ)}
    (hsize : Ext.tableSize (pts.map Prod.fst) res = Ext.tableSize (pts'.map Prod.fst) res)
    (h : ∀ ws wa, Ext.tableSize (pts.map Prod.fst) res = .ok (ws, wa) → ∀ w ∈ ws, ∀ a ∈ wa,
      ∃ x, Ext.IsValue nbh interpolate pts (w, a) x ∧ Ext.IsValue nbh interpolate pts' (w, a) x) :
    Ext.tableProcess res nbh interpolate pts = Ext.tableProcess res nbh interpolate pts' := by
  unfold Ext.tableProcess
  rw [← hsize]
  generalize hsz : Ext.tableSize (pts.map Prod.fst) res = sz at h
  cases sz with
  | error e => rfl
  | ok r =>
    obtain ⟨ws, wa⟩ := r
    have hi : Ext.interpolatePoints nbh interpolate pts (Ext.gridPoints ws wa) =
        Ext.interpolatePoints nbh interpolate pts' (Ext.gridPoints ws wa) := by
      unfold Ext.interpolatePoints
      apply mapM_congr_mem
      intro g hg
      unfold Ext.gridPoints at hg
      simp only [List.mem_flatMap, List.mem_map] at hg
      obtain ⟨a, ha, w, hw, rfl⟩ := hg
      obtain ⟨x, h1, h2⟩ := h ws wa rfl w hw a ha
      rw [Ext.interpolatePoint_eq h1, Ext.interpolatePoint_eq h2]
    simp only [bind, Except.bind, hi]

/-- **C113** (partial: false for contradicting measurements, see `C113_first_false`). The order of the measurements does
not matter, provided that no two measurements of the same wind contradict each other. -/
theorem C113_order_partial {s : Settings} (hs : s.Ok) {data data' : List (Pt ℝ)} (h : data.Perm data')
    (hc : Consistent data) : makeTable s data = makeTable s data' := by
  by_cases hne : data = []
  · subst hne
    rw [h.nil_eq]
  · have hne' : data' ≠ [] := fun h' => hne (by rw [h'] at h; exact h.eq_nil)
    rw [makeTable_all hs hne, makeTable_all hs hne']
    have hp := allPoints_perm s h
    apply tableProcess_congr
    · unfold Ext.tableSize
      rw [minMaxResolution_perm ((hp.map Prod.fst).map _)]
    · intro ws wa hsz w _ a ha
      have := minMax_angles hsz a ha
      refine ⟨_, isValue s _ _, ?_⟩
      rw [valueAt_perm hs hp (hc.agree this.1 this.2)]
      exact isValue s _ _

example : makeTable defaults [((10, 90), 5), ((12, 45), 6)] = makeTable defaults [((12, 45), 6), ((10, 90), 5)] :=
  C113_order_partial defaults_ok (List.Perm.swap _ _ _) (by
    intro p hp q hq h
    simp only [List.mem_cons, List.not_mem_nil, or_false] at hp hq
    rcases hp with rfl | rfl <;> rcases hq with rfl | rfl <;> simp_all <;> norm_num at h)

theorem kept_all {s : Settings} (hs : s.Ok) {data : List (Pt ℝ)} (hne : data ≠ [])
    (h : ∀ p ∈ data, ∀ q ∈ data, wt s data p = wt s data q) : kept s data = data.map fun p => (p, wt s data p) := by
  unfold kept
  rw [List.filter_eq_self]
  intro q hq
  obtain ⟨p, hp, rfl⟩ := List.mem_map.1 hq
  simp only [decide_eq_true_eq]
  refine Filter.exists_ge_percentile (by simpa using hne) hs.percent_nonneg hs.percent_le fun x hx => ?_
  obtain ⟨r, hr, rfl⟩ := List.mem_map.1 hx
  exact (h r hr p hp).le

theorem near_pair {s : Settings} (hs : s.Ok) (g : ℝ × ℝ) (b c : ℝ) (p : Pt ℝ) (hp : p.1 = g) :
    near s [(g, b), (g, c)] p = [b, c] := by
  classical
  unfold near cylinderSpeeds
  have : decide (s.weigherNorm (g - p.1) ≤ s.radius) = true := by
    rw [hp, sub_self]
    simpa using hs.self
  simp only [List.filter_cons, this, if_true, List.filter_nil, List.map_cons, List.map_nil]

/-- **C113 is false** for contradicting measurements: of two measurements of a wind of the table the first one is taken. -/
theorem C113_first_false {s : Settings} (hs : s.Ok) (h1 : s.ballNorm 0 ≤ s.ballRadius) (b c : ℝ) :
    ∃ t, makeTable s [((10, 90), b), ((10, 90), c)] = .ok t ∧ t.get 10 90 = .ok b := by
  have hne : [(((10 : ℝ), (90 : ℝ)), b), ((10, 90), c)] ≠ [] := by simp
  obtain ⟨ws, wa, t, g1, g2, g3, g4, g5, g6⟩ := makeTable_spec hs (data := [((10, 90), b), ((10, 90), c)]) hne (by
    intro p hp
    simp only [List.mem_cons, List.not_mem_nil, or_false] at hp
    rcases hp with rfl | rfl <;> norm_num)
  have hraw : ∀ p ∈ [(((10 : ℝ), (90 : ℝ)), b), ((10, 90), c)],
      raw s [((10, 90), b), ((10, 90), c)] p = |(b - c) / 2| / dev [b, c] := by
    intro p hp
    simp only [List.mem_cons, List.not_mem_nil, or_false] at hp
    unfold raw
    rcases hp with rfl | rfl
    · rw [near_pair hs (10, 90) b c _ rfl]
      congr 1
      unfold mean
      rw [← abs_neg]
      congr 1
      simp only [List.sum_cons, List.sum_nil, List.length_cons, List.length_nil]
      push_cast
      ring
    · rw [near_pair hs (10, 90) b c _ rfl]
      congr 1
      unfold mean
      congr 1
      simp only [List.sum_cons, List.sum_nil, List.length_cons, List.length_nil]
      push_cast
      ring
  have hk := kept_all hs hne (by
    intro p hp q hq
    unfold wt
    rw [hraw p hp, hraw q hq])
  have hmem : (10 : ℝ) ∈ t.ws := by
    obtain ⟨ws', wa', he, -, -, hm1, -⟩ := Ext.C81_min_max (points := (allPoints s [((10, 90), b), ((10, 90), c)]).map Prod.fst)
      (lo := 10) (hi := 10) (by
        rw [List.map_map]
        refine List.mem_map.2 ⟨(((10, 90), b), wt s [((10, 90), b), ((10, 90), c)] ((10, 90), b)), ?_, rfl⟩
        unfold allPoints
        rw [hk]
        simp) (by
        intro p hp
        obtain ⟨q, hq, rfl⟩ := List.mem_map.1 hp
        obtain ⟨r, hr, -, -, hle, -⟩ := allPoints_ws hs hne hq
        simp only [List.mem_cons, List.not_mem_nil, or_false] at hr
        rcases hr with rfl | rfl <;> exact hle) (by
        rw [List.map_map]
        refine List.mem_map.2 ⟨(((10, 90), b), wt s [((10, 90), b), ((10, 90), c)] ((10, 90), b)), ?_, rfl⟩
        unfold allPoints
        rw [hk]
        simp) (by
        intro p hp
        obtain ⟨q, hq, rfl⟩ := List.mem_map.1 hp
        obtain ⟨-, -, r, hr, -, hle⟩ := allPoints_ws hs hne hq
        simp only [List.mem_cons, List.not_mem_nil, or_false] at hr
        rcases hr with rfl | rfl <;> exact hle)
    rw [g1] at he
    obtain ⟨rfl, rfl⟩ := Prod.mk.inj (Except.ok.inj he)
    have h10 : pyRound (10 : ℝ) = 10 := by exact_mod_cast pyRound_int (K := ℝ) 10
    rw [g3]
    exact List.mem_map.2 ⟨10, (hm1 10).2 (by rw [h10]; simp), by norm_num⟩
  have hwa : (90 : ℝ) ∈ t.wa := by
    rw [g4]
    exact List.mem_map.2 ⟨90, (g5 90).2 (by norm_num), by norm_num⟩
  refine ⟨t, g2, ?_⟩
  rw [g6 _ hmem _ hwa]
  congr 1
  have hb : inBall s ((((10 : ℝ), (90 : ℝ))) - (10, 90)) = true := by
    unfold inBall
    rw [sub_self]
    simpa using h1
  have hz : s.norm ((((10 : ℝ), (90 : ℝ))) - (10, 90)) = 0 := by
    rw [sub_self]
    exact (hs.dist.2 0).2 rfl
  unfold valueAt around allPoints
  rw [hk]
  simp only [List.map_cons, List.map_nil, List.cons_append, List.filter_cons, hb, if_true, firstAtZero, hz]

/-- The case meets the hypotheses: the tables made from the same two measurements in different order are different. -/
example : ∃ t t', makeTable defaults [((10, 90), 5), ((10, 90), 6)] = .ok t ∧
    makeTable defaults [((10, 90), 6), ((10, 90), 5)] = .ok t' ∧ t.get 10 90 = .ok 5 ∧ t'.get 10 90 = .ok 6 := by
  have h1 : defaults.ballNorm 0 ≤ defaults.ballRadius := by
    change scaledEuclidean 0 ≤ 1
    rw [(isDist_scaledEuclidean.2 0).2 rfl]
    norm_num
  obtain ⟨t, h2, h3⟩ := C113_first_false defaults_ok h1 5 6
  obtain ⟨t', h4, h5⟩ := C113_first_false defaults_ok h1 6 5
  exact ⟨t, t', h2, h4, h3, h5⟩

/-! ## C114 -/

/-- Boat speeds in another unit. -/
def rescale (c : ℝ) (p : Pt ℝ) : Pt ℝ := (p.1, c * p.2)

theorem zeros_rescale (n : Nat) (a b c : ℝ) : (zeros n a b).map (fun q => (rescale c q.1, q.2)) = zeros n a b := by
  unfold zeros
  rw [List.map_append, List.map_map, List.map_map]
  simp [rescale, Function.comp_def]

/-- **C114.** If the boat speeds are given in another unit then the table is the same up to this change of the unit. -/
theorem C114_unit {s : Settings} (hs : s.Ok) {c : ℝ} (hc : 0 < c) {data : List (Pt ℝ)} (hne : data ≠ [])
    (hpos : ∀ p ∈ data, 0 ≤ p.1.1) :
    ∃ t t', makeTable s data = .ok t ∧ makeTable s (data.map (rescale c)) = .ok t' ∧ t'.ws = t.ws ∧ t'.wa = t.wa ∧
      ∀ w ∈ t.ws, ∀ a ∈ t.wa, ∃ x, t.get w a = .ok x ∧ t'.get w a = .ok (c * x) := by
  have hne' : data.map (rescale c) ≠ [] := by simpa using hne
  have hk := kept_map hs hc (f := rescale c) ⟨fun _ _ => rfl, fun _ => rfl⟩ data
  have hws : (kept s (data.map (rescale c))).map (fun p => p.1.1.1) = (kept s data).map fun p => p.1.1.1 := by
    rw [hk, List.map_map]; rfl
  have hall : allPoints s (data.map (rescale c)) = (allPoints s data).map fun q => (rescale c q.1, q.2) := by
    unfold allPoints
    rw [hws, List.map_append, zeros_rescale, hk]
  obtain ⟨ws, wa, t, g1, g2, g3, g4, -, g6⟩ := makeTable_spec hs hne hpos
  obtain ⟨ws', wa', t', g1', g2', g3', g4', -, g6'⟩ := makeTable_spec hs hne' (by
    intro p hp
    obtain ⟨q, hq, rfl⟩ := List.mem_map.1 hp
    exact hpos q hq)
  have hres : Ext.minMaxResolution ((allPoints s (data.map (rescale c))).map Prod.fst) =
      Ext.minMaxResolution ((allPoints s data).map Prod.fst) := by
    apply minMaxResolution_perm
    rw [hall, List.map_map, List.map_map, List.map_map]
    exact List.Perm.refl _
  rw [hres, g1] at g1'
  obtain ⟨rfl, rfl⟩ := Prod.mk.inj (Except.ok.inj g1')
  refine ⟨t, t', g2, g2', by rw [g3, g3'], by rw [g4, g4'], fun w hw a ha => ⟨_, g6 w hw a ha, ?_⟩⟩
  rw [g6' w (by rw [g3', ← g3]; exact hw) a (by rw [g4', ← g4]; exact ha), hall,
    valueAt_map (F := fun q => (rescale c q.1, q.2)) (c := c) (g := (w, a)) (g' := (w, a)) (fun _ _ => rfl)
      (fun _ _ => rfl) (fun _ _ => rfl) fun _ _ => rfl]

example : ∃ t t', makeTable defaults [((10, 90), 5), ((12, 45), 6)] = .ok t ∧
    makeTable defaults [((10, 90), 10), ((12, 45), 12)] = .ok t' ∧
    ∀ w ∈ t.ws, ∀ a ∈ t.wa, ∃ x, t.get w a = .ok x ∧ t'.get w a = .ok (2 * x) := by
  obtain ⟨t, t', h1, h2, -, -, h3⟩ := C114_unit defaults_ok (c := 2) (by norm_num)
    (data := [((10, 90), 5), ((12, 45), 6)]) (by simp) (by
      intro p hp
      simp only [List.mem_cons, List.not_mem_nil, or_false] at hp
      rcases hp with rfl | rfl <;> norm_num)
  refine ⟨t, t', h1, ?_, h3⟩
  rw [← h2]
  simp only [List.map_cons, List.map_nil, rescale]
  norm_num

/-- **C114 is false** for `CylindricMemberWeigher`, whose cylinders have a fixed height: twice the speeds have other
weights. -/
theorem C114_member_false : ∃ (points : List (Rat × Rat)),
    memberWeigh (fun x => |x|) 1 1 (points.map fun p => (p.1, 2 * p.2)) ≠ memberWeigh (fun x => |x|) 1 1 points :=
  ⟨[(0, 0), (0, 1), (0, 9)], by decide +kernel⟩

/-! ## C115 -/

/-- The same measurement on the other side of the boat. -/
def mirror (p : Pt ℝ) : Pt ℝ := ((p.1.1, 360 - p.1.2), p.2)

/-- A norm that does not distinguish the sides. -/
def Even (norm : ℝ × ℝ → ℝ) : Prop := ∀ x y, norm (x, -y) = norm (x, y)

theorem Even.mirror {norm : ℝ × ℝ → ℝ} (h : Even norm) (p q : ℝ × ℝ) :
    norm ((p.1, 360 - p.2) - (q.1, 360 - q.2)) = norm (p - q) := by
  have : (p.1, 360 - p.2) - (q.1, 360 - q.2) = (p.1 - q.1, -(p.2 - q.2)) := by
    ext
    · simp
    · simp only [Prod.mk_sub_mk]
      ring
  rw [this, h]
  rfl

theorem zeros_mirror (n : Nat) (a b : ℝ) : ((zeros n a b).map fun q => (mirror q.1, q.2)).Perm (zeros n a b) := by
  unfold zeros
  rw [List.map_append, List.map_map, List.map_map]
  simp only [mirror, Function.comp_def, sub_zero, sub_self]
  exact List.perm_append_comm

/-- **C115.** Port and starboard are treated alike: mirrored measurements give the mirrored table. -/
theorem C115_mirror {s : Settings} (hs : s.Ok) (e1 : Even s.weigherNorm) (e2 : Even s.ballNorm) (e3 : Even s.norm)
    {data : List (Pt ℝ)} (hne : data ≠ []) (hpos : ∀ p ∈ data, 0 ≤ p.1.1) (hc : Consistent data) :
    ∃ t t', makeTable s data = .ok t ∧ makeTable s (data.map mirror) = .ok t' ∧ t'.ws = t.ws ∧ t'.wa = t.wa ∧
      ∀ w ∈ t.ws, ∀ a ∈ t.wa, 360 - a ∈ t.wa ∧ t'.get w (360 - a) = t.get w a := by
  have hne' : data.map mirror ≠ [] := by simpa using hne
  have hk := kept_map hs one_pos (f := mirror) ⟨fun p q => e1.mirror p.1 q.1, fun p => (one_mul _).symm⟩ data
  have hws : (kept s (data.map mirror)).map (fun p => p.1.1.1) = (kept s data).map fun p => p.1.1.1 := by
    rw [hk, List.map_map]; rfl
  have hall : (allPoints s (data.map mirror)).Perm ((allPoints s data).map fun q => (mirror q.1, q.2)) := by
    unfold allPoints
    rw [hws, List.map_append, hk]
    exact (zeros_mirror _ _ _).symm.append_left _
  have hc' : Consistent (data.map mirror) := by
    intro p hp q hq hpq
    obtain ⟨p', hp', rfl⟩ := List.mem_map.1 hp
    obtain ⟨q', hq', rfl⟩ := List.mem_map.1 hq
    refine hc p' hp' q' hq' ?_
    have h1 := congrArg Prod.fst hpq
    have h2 := congrArg Prod.snd hpq
    simp only [mirror] at h1 h2
    exact Prod.ext h1 (by linarith)
  obtain ⟨ws, wa, t, g1, g2, g3, g4, g5, g6⟩ := makeTable_spec hs hne hpos
  obtain ⟨ws', wa', t', g1', g2', g3', g4', -, g6'⟩ := makeTable_spec hs hne' (by
    intro p hp
    obtain ⟨q, hq, rfl⟩ := List.mem_map.1 hp
    exact hpos q hq)
  have hres : Ext.minMaxResolution ((allPoints s (data.map mirror)).map Prod.fst) =
      Ext.minMaxResolution ((allPoints s data).map Prod.fst) := by
    apply minMaxResolution_perm
    refine ((hall.map Prod.fst).map _).trans ?_
    rw [List.map_map, List.map_map, List.map_map]
    exact List.Perm.refl _
  rw [hres, g1] at g1'
  obtain ⟨rfl, rfl⟩ := Prod.mk.inj (Except.ok.inj g1')
  refine ⟨t, t', g2, g2', by rw [g3, g3'], by rw [g4, g4'], fun w hw a ha => ?_⟩
  have ha' : 360 - a ∈ t.wa ∧ 0 < 360 - a ∧ 360 - a < 360 := by
    rw [g4] at ha ⊢
    obtain ⟨k, hk, rfl⟩ := List.mem_map.1 ha
    have := (g5 k).1 hk
    refine ⟨List.mem_map.2 ⟨360 - k, (g5 _).2 (by omega), by push_cast; rfl⟩, ?_, ?_⟩
    · have : (k : ℝ) ≤ 355 := by exact_mod_cast this.2.1
      linarith
    · have : (5 : ℝ) ≤ k := by exact_mod_cast this.1
      linarith
  refine ⟨ha'.1, ?_⟩
  rw [g6 w hw a ha, g6' w (by rw [g3', ← g3]; exact hw) (360 - a) (by rw [g4', ← g4]; exact ha'.1)]
  congr 1
  rw [valueAt_perm hs hall (hc'.agree ha'.2.1 ha'.2.2),
    valueAt_map (F := fun q => (mirror q.1, q.2)) (c := 1) (g := (w, a)) (g' := (w, 360 - a)) (fun q _ => e2.mirror q.1.1 (w, a)) (fun q _ => e3.mirror q.1.1 (w, a))
      (fun _ _ => (one_mul _).symm) fun _ _ => rfl, one_mul]

/-- The default norms do not distinguish the sides. -/
theorem C115_defaults : Even defaults.weigherNorm ∧ Even defaults.ballNorm ∧ Even defaults.norm := by
  refine ⟨fun x y => ?_, fun x y => ?_, fun x y => ?_⟩
  · simp [defaults, standardNorm, Norms.euclid]
  · simp [defaults, scaledEuclidean]
  · simp [defaults, scaledEuclidean]

example : ∃ t t', makeTable defaults [((10, 90), 5), ((12, 45), 6)] = .ok t ∧
    makeTable defaults [((10, 270), 5), ((12, 315), 6)] = .ok t' ∧
    ∀ w ∈ t.ws, ∀ a ∈ t.wa, t'.get w (360 - a) = t.get w a := by
  obtain ⟨t, t', h1, h2, -, -, h3⟩ := C115_mirror defaults_ok C115_defaults.1 C115_defaults.2.1 C115_defaults.2.2
    (data := [((10, 90), 5), ((12, 45), 6)]) (by simp) (by
      intro p hp
      simp only [List.mem_cons, List.not_mem_nil, or_false] at hp
      rcases hp with rfl | rfl <;> norm_num) (by
      intro p hp q hq h
      simp only [List.mem_cons, List.not_mem_nil, or_false] at hp hq
      rcases hp with rfl | rfl <;> rcases hq with rfl | rfl <;> simp_all <;> norm_num at h)
  refine ⟨t, t', h1, ?_, fun w hw a ha => (h3 w hw a ha).2⟩
  rw [← h2]
  simp only [List.map_cons, List.map_nil, mirror]
  norm_num

/-! ## C116 -/

/-- **C116 is false** for the norms: winds of 359 and 1 degrees are as far from each other as possible. -/
theorem C116_norm_false (w : ℝ) : defaults.norm ((w, 359) - (w, 1)) = 358 / 360 ∧
    defaults.ballNorm ((w, 359) - (w, 1)) = 358 / 360 ∧ defaults.weigherNorm ((w, 359) - (w, 1)) = 358 / 360 := by
  have h1 : scaledEuclidean ((w, 359) - (w, 1)) = 358 / 360 := by
    unfold scaledEuclidean
    rw [Real.sqrt_eq_iff_mul_self_eq (by positivity) (by positivity)]
    simp only [Prod.mk_sub_mk, sub_self]
    norm_num
  refine ⟨h1, h1, ?_⟩
  change standardNorm ((w, 359) - (w, 1)) = 358 / 360
  unfold standardNorm Norms.euclid
  rw [Real.sqrt_eq_iff_mul_self_eq (by
    apply List.sum_nonneg
    intro x hx
    simp only [List.map_cons, List.map_nil, List.mem_cons, List.not_mem_nil, or_false] at hx
    rcases hx with rfl | rfl <;> positivity) (by positivity)]
  simp only [Prod.mk_sub_mk, sub_self, normScale, List.map_cons, List.map_nil, List.sum_cons, List.sum_nil]
  norm_num
  decide

/-- **C116 is false** for interpolated values: at the wind angle 355 a measurement at 180 degrees counts more than one with
the same weight at 2 degrees. -/
theorem C116_value_false (w x y : ℝ) (hxy : x < y) {v : ℝ} (hv : 0 < v) :
    ∃ z, arith defaults.norm 1 (gauss defaults.alpha) [((w, 2), x), ((w, 180), y)] [v, v] (w, 355) = .ok z ∧
      (x + y) / 2 < z := by
  have n1 : defaults.norm ((w, 2) - (w, 355)) = 353 / 360 := by
    change scaledEuclidean _ = _
    unfold scaledEuclidean
    rw [Real.sqrt_eq_iff_mul_self_eq (by positivity) (by positivity)]
    simp only [Prod.mk_sub_mk, sub_self]
    norm_num
  have n2 : defaults.norm ((w, 180) - (w, 355)) = 175 / 360 := by
    change scaledEuclidean _ = _
    unfold scaledEuclidean
    rw [Real.sqrt_eq_iff_mul_self_eq (by positivity) (by positivity)]
    simp only [Prod.mk_sub_mk, sub_self]
    norm_num
  have hlt := (C111_distance_partial (alpha := defaults.alpha) (d := 175 / 360) (d' := 353 / 360)
    (by norm_num [defaults]) hv (by norm_num)).1
  set A := gauss defaults.alpha (353 / 360) v with hA
  set B := gauss defaults.alpha (175 / 360) v with hB
  have hA0 : 0 < A := C21_gauss_positive _ _ _
  have hB0 : 0 < B := C21_gauss_positive _ _ _
  refine ⟨(x * A + y * B) / (A + B), ?_, ?_⟩
  · have hs : ¬ (A + B) = 0 := by positivity
    have e : firstAtZero defaults.norm (w, 355) [((w, 2), x), ((w, 180), y)] = none := by
      rw [firstAtZero_eq_none]
      intro r hr
      simp only [List.mem_cons, List.not_mem_nil, or_false] at hr
      rcases hr with rfl | rfl
      · rw [n1]; norm_num
      · rw [n2]; norm_num
    simp only [arith, e, average, dists, List.map_cons, List.map_nil, List.zipWith_cons_cons, List.zipWith_nil_left,
      List.sum_cons, List.sum_nil, add_zero, n1, n2, ← hA, ← hB, hs, if_false, dot, one_mul]
  · rw [lt_div_iff₀ (by positivity)]
    nlinarith

example : ∃ z, arith defaults.norm 1 (gauss defaults.alpha) [((10, 2), 3), ((10, 180), 5)] [1, 1] (10, 355) = .ok z ∧
    (3 + 5) / 2 < z := C116_value_false 10 3 5 (by norm_num) one_pos

end Verif.Default
