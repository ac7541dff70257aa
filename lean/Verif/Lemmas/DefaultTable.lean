import Verif.Model.DefaultTable
import Verif.Lemmas.Weigher
import Verif.Lemmas.Interpolator
import Verif.Lemmas.Filter
import Verif.Props.Extension
import Verif.Props.Injector
import Verif.Props.Interpolator
import Verif.Props.Filter

/-!
# Lemmas for the table of the default pipeline
-/

namespace Verif.Default

open Verif.Interp Verif.Weigher

/-! ### Closed forms -/

/-- The mean. -/
noncomputable def mean (l : List ℝ) : ℝ := l.sum / l.length

/-- The standard deviation, or one. -/
noncomputable def dev (l : List ℝ) : ℝ :=
  if Real.sqrt ((l.map fun x => (x - mean l) ^ 2).sum / l.length) = 0 then 1
  else Real.sqrt ((l.map fun x => (x - mean l) ^ 2).sum / l.length)

/-- The boat speeds measured near the wind of a point. -/
noncomputable def near (s : Settings) (data : List (Pt ℝ)) (p : Pt ℝ) : List ℝ :=
  cylinderSpeeds s.weigherNorm s.radius data p.1

/-- The relative deviation of a point. -/
noncomputable def raw (s : Settings) (data : List (Pt ℝ)) (p : Pt ℝ) : ℝ :=
  |mean (near s data p) - p.2| / dev (near s data p)

/-- The largest entry. -/
noncomputable def top : List ℝ → ℝ
  | [] => 0
  | a :: l => Weigher.maxOf a l

/-- The weight of a point. -/
noncomputable def wt (s : Settings) (data : List (Pt ℝ)) (p : Pt ℝ) : ℝ :=
  1 - if top (data.map (raw s data)) = 0 then raw s data p else raw s data p / top (data.map (raw s data))

/-- The points that are kept. -/
noncomputable def kept (s : Settings) (data : List (Pt ℝ)) : List (Pt ℝ × ℝ) :=
  (data.map fun p => (p, wt s data p)).filter fun q =>
    decide (q.2 ≥ Filter.percentile (data.map (wt s data)) s.percent)

/-- The injected points. -/
noncomputable def zeros (n : Nat) (a b : ℝ) : List (Pt ℝ × ℝ) :=
  (Injector.linspace a b n).map (fun x => (((x, 0), 0), 1)) ++ (Injector.linspace a b n).map fun x => (((x, 360), 0), 1)

/-- Sensible settings. -/
structure Settings.Ok (s : Settings) : Prop where
  self : s.weigherNorm 0 ≤ s.radius
  percent_nonneg : 0 ≤ s.percent
  percent_le : s.percent ≤ 100
  nZeros : 0 ≤ s.nZeros
  dist : IsDist s.norm

theorem near_mem {s : Settings} (hs : s.Ok) {data : List (Pt ℝ)} {p : Pt ℝ} (hp : p ∈ data) : p.2 ∈ near s data p := by
  classical
  unfold near cylinderSpeeds
  refine List.mem_map.2 ⟨p, List.mem_filter.2 ⟨hp, ?_⟩, rfl⟩
  simpa using hs.self

theorem meanRaw_eq {s : Settings} (hs : s.Ok) {data : List (Pt ℝ)} {p : Pt ℝ} (hp : p ∈ data) :
    meanRaw s.weigherNorm s.radius data p = some (raw s data p) := by
  have hne : near s data p ≠ [] := List.ne_nil_of_mem (near_mem hs hp)
  have h1 : meanOf (near s data p) = some (mean (near s data p)) := by
    unfold meanOf mean
    rw [if_neg hne]
  have h2 : stdOr1 (near s data p) = some (dev (near s data p)) := by
    unfold stdOr1 dev
    simp only [h1]
    split <;> rfl
  unfold near at h1 h2
  unfold meanRaw raw near
  rw [h1, h2]

theorem mapM_some_map {α β : Type} {f : α → Option β} {g : α → β} {l : List α} (h : ∀ x ∈ l, f x = some (g x)) :
    l.mapM f = some (l.map g) := by
  induction l with
  | nil => rfl
  | cons a l ih =>
    rw [List.mapM_cons, h a List.mem_cons_self, ih fun x hx => h x (List.mem_cons_of_mem _ hx)]
    rfl

theorem normalize_top (l : List ℝ) : Weigher.normalize l = if top l = 0 then l else l.map (· / top l) := by
  cases l with
  | nil => simp [Weigher.normalize]
  | cons a l => rfl

theorem meanWeigh_eq {s : Settings} (hs : s.Ok) (data : List (Pt ℝ)) :
    meanWeigh s.weigherNorm s.radius data = some (data.map (wt s data)) := by
  have h1 : data.mapM (meanRaw s.weigherNorm s.radius data) = some (data.map (raw s data)) :=
    mapM_some_map fun p hp => meanRaw_eq hs hp
  unfold meanWeigh
  rw [h1]
  simp only [normalize_top, Option.some.injEq]
  by_cases h : top (data.map (raw s data)) = 0
  · rw [if_pos h, List.map_map]
    apply List.map_congr_left
    intro p _
    simp [wt, h]
  · rw [if_neg h, List.map_map, List.map_map]
    apply List.map_congr_left
    intro p _
    simp [wt, h]

theorem maskList_filter {α : Type} (f : α → ℝ) (q : ℝ) (l : List α) :
    Data.maskList ((l.map f).map fun w => decide (w ≥ q)) (l.zip (l.map f)) =
      (l.map fun p => (p, f p)).filter fun r => decide (r.2 ≥ q) := by
  induction l with
  | nil => rfl
  | cons a l ih =>
    simp only [List.map_cons, List.zip_cons_cons, Data.maskList, List.filter_cons, ih]

theorem weighAndFilter_eq {s : Settings} (hs : s.Ok) (data : List (Pt ℝ)) :
    weighAndFilter s data = .ok (kept s data) := by
  unfold weighAndFilter
  by_cases h : data.length = 0
  · rw [if_pos h]
    have : data = [] := List.length_eq_zero_iff.1 h
    subst this
    rfl
  · rw [if_neg h, meanWeigh_eq hs]
    simp only [Filter.quantileFilter, List.length_map, h, if_false, maskList_filter, kept]

theorem kept_sub {s : Settings} {data : List (Pt ℝ)} {q : Pt ℝ × ℝ} (h : q ∈ kept s data) : q.1 ∈ data := by
  unfold kept at h
  obtain ⟨p, hp, rfl⟩ := List.mem_map.1 (List.mem_filter.1 h).1
  exact hp

theorem kept_ne {s : Settings} (hs : s.Ok) {data : List (Pt ℝ)} (h : data ≠ []) : kept s data ≠ [] := by
  have hne : data.map (wt s data) ≠ [] := by simpa using h
  obtain ⟨p, hp, hpm⟩ := List.mem_map.1 (List.max_mem hne)
  have := Filter.exists_ge_percentile hne hs.percent_nonneg hs.percent_le (m := (data.map (wt s data)).max hne)
    fun x hx => List.le_max_of_mem hx
  refine List.ne_nil_of_mem (a := (p, wt s data p)) (List.mem_filter.2 ⟨List.mem_map_of_mem hp, ?_⟩)
  simp only [decide_eq_true_eq, hpm]
  exact this

theorem length_linspace (a b : ℝ) (n : Nat) : (Injector.linspace a b n).length = n := by
  unfold Injector.linspace
  split
  · simp [*]
  · simp

theorem zip_replicate {α β : Type} (l : List α) (c : β) (n : Nat) (h : l.length = n) :
    l.zip (List.replicate n c) = l.map fun x => (x, c) := by
  subst h
  induction l with
  | nil => rfl
  | cons a l ih => simp only [List.length_cons, List.replicate_succ, List.zip_cons_cons, ih, List.map_cons]

theorem inject_eq {s : Settings} (hs : s.Ok) {pts : List (Pt ℝ × ℝ)} {a b : ℝ}
    (ha : (pts.map fun p => p.1.1.1).min? = some a) (hb : (pts.map fun p => p.1.1.1).max? = some b) :
    inject s pts = .ok (zeros s.nZeros.toNat a b) := by
  obtain ⟨n, hn⟩ := Int.eq_ofNat_of_zero_le hs.nZeros
  have h0 : ¬ ((n : Int) < 0) := by omega
  have h1 : (2 * (n : Int)).toNat = 2 * n := by omega
  have e : ((pts.map fun p => [p.1.1.1, p.1.1.2, p.1.2]).map fun r => r.getD 0 0) = pts.map fun p => p.1.1.1 := by
    rw [List.map_map]; rfl
  unfold inject
  simp only [Injector.inject, hn, e, ha, hb, h0, h1, ne_eq, not_true_eq_false, if_false, Int.toNat_natCast]
  rw [zip_replicate _ _ _ (by simp only [List.map_append, List.length_append, List.length_map, length_linspace]; omega)]
  simp [zeros, rowPoint, Function.comp_def]

theorem exists_span {pts : List (Pt ℝ × ℝ)} (h : pts ≠ []) :
    ∃ a b, (pts.map fun p => p.1.1.1).min? = some a ∧ (pts.map fun p => p.1.1.1).max? = some b := by
  have hne : (pts.map fun p => p.1.1.1) ≠ [] := by simpa using h
  cases h1 : (pts.map fun p => p.1.1.1).min? with
  | none => rw [List.min?_eq_none_iff] at h1; exact absurd h1 hne
  | some a =>
    cases h2 : (pts.map fun p => p.1.1.1).max? with
    | none => rw [List.max?_eq_none_iff] at h2; exact absurd h2 hne
    | some b => exact ⟨a, b, rfl, rfl⟩

theorem makeTable_eq {s : Settings} (hs : s.Ok) {data : List (Pt ℝ)} (hne : data ≠ []) {a b : ℝ}
    (ha : ((kept s data).map fun p => p.1.1.1).min? = some a) (hb : ((kept s data).map fun p => p.1.1.1).max? = some b) :
    makeTable s data =
      Ext.tableProcess .minMax (inBall s) (interpolate s) (kept s data ++ zeros s.nZeros.toNat a b) := by
  have hk : ¬ (kept s data).length = 0 := by
    rw [List.length_eq_zero_iff]; exact kept_ne hs hne
  unfold makeTable
  rw [weighAndFilter_eq hs]
  simp only [bind, Except.bind, hk, if_false, inject_eq hs ha hb]

/-! ### The value at a wind -/

/-- The points near a wind. -/
noncomputable def around (s : Settings) (pts : List (Pt ℝ × ℝ)) (g : ℝ × ℝ) : List (Pt ℝ × ℝ) :=
  pts.filter fun p => inBall s (p.1.1 - g)

/-- The influence of a point. -/
noncomputable def pull (s : Settings) (g : ℝ × ℝ) (q : Pt ℝ × ℝ) : ℝ := gauss s.alpha (s.norm (q.1.1 - g)) q.2

/-- The value of the table at a wind. -/
noncomputable def valueAt (s : Settings) (pts : List (Pt ℝ × ℝ)) (g : ℝ × ℝ) : ℝ :=
  match firstAtZero s.norm g ((around s pts g).map Prod.fst) with
  | some z => z
  | none => ((around s pts g).map fun q => q.1.2 * pull s g q).sum / ((around s pts g).map (pull s g)).sum

theorem pull_pos (s : Settings) (g : ℝ × ℝ) (q : Pt ℝ × ℝ) : 0 < pull s g q := Real.exp_pos _

theorem sum_pull_pos (s : Settings) (g : ℝ × ℝ) {c : List (Pt ℝ × ℝ)} (h : c ≠ []) : 0 < (c.map (pull s g)).sum := by
  obtain ⟨q, hq⟩ := List.exists_mem_of_ne_nil _ h
  refine sum_pos_of_mem (fun x hx => ?_) (List.mem_map_of_mem (f := pull s g) hq) (pull_pos s g q)
  obtain ⟨r, -, rfl⟩ := List.mem_map.1 hx
  exact (pull_pos s g r).le

theorem zipWith_pull (s : Settings) (g : ℝ × ℝ) (c : List (Pt ℝ × ℝ)) :
    List.zipWith (gauss s.alpha) (dists s.norm (c.map Prod.fst) g) (c.map Prod.snd) = c.map (pull s g) := by
  induction c with
  | nil => rfl
  | cons q c ih =>
    simp only [dists, List.map_cons, List.zipWith_cons_cons] at ih ⊢
    rw [ih]
    rfl

theorem dot_pull (s : Settings) (g : ℝ × ℝ) (c : List (Pt ℝ × ℝ)) :
    dot ((c.map Prod.fst).map Prod.snd) (c.map (pull s g)) = (c.map fun q => q.1.2 * pull s g q).sum := by
  induction c with
  | nil => rfl
  | cons q c ih => simp only [List.map_cons, dot_cons, List.sum_cons, ih]

theorem isValue (s : Settings) (pts : List (Pt ℝ × ℝ)) (g : ℝ × ℝ) :
    Ext.IsValue (inBall s) (interpolate s) pts g (valueAt s pts g) := by
  constructor
  · intro h
    have : around s pts g = [] := List.filter_eq_nil_iff.2 fun p hp => by simp [h p hp]
    simp [valueAt, this, firstAtZero]
  · rintro ⟨p, hp, hpb⟩
    have hne : around s pts g ≠ [] := List.ne_nil_of_mem (List.mem_filter.2 ⟨hp, hpb⟩)
    change interpolate s (around s pts g) g = _
    unfold interpolate arith valueAt
    cases firstAtZero s.norm g ((around s pts g).map Prod.fst) with
    | some z => rfl
    | none =>
      simp only [zipWith_pull, average, (sum_pull_pos s g hne).ne', if_false, dot_pull, one_mul]

theorem valueAt_bounds {s : Settings} {pts : List (Pt ℝ × ℝ)} (g : ℝ × ℝ) {lo hi : ℝ} (h0 : lo ≤ 0) (h1 : 0 ≤ hi)
    (h : ∀ p ∈ pts, lo ≤ p.1.2 ∧ p.1.2 ≤ hi) : lo ≤ valueAt s pts g ∧ valueAt s pts g ≤ hi := by
  have ha : ∀ p ∈ around s pts g, lo ≤ p.1.2 ∧ p.1.2 ≤ hi := fun p hp => h p (List.mem_filter.1 hp).1
  by_cases hne : around s pts g = []
  · simp [valueAt, hne, firstAtZero, h0, h1]
  · unfold valueAt
    cases hz : firstAtZero s.norm g ((around s pts g).map Prod.fst) with
    | some z =>
      obtain ⟨q, hq, hqz, -⟩ := firstAtZero_mem hz
      obtain ⟨r, hr, rfl⟩ := List.mem_map.1 hq
      have := ha r hr
      simp only
      rw [← hqz]
      exact this
    | none =>
      simp only
      rw [← dot_pull, dot_comm]
      refine mean_bounds (by simp) ?_ (sum_pull_pos s g hne) ?_ ?_
      · intro x hx
        obtain ⟨r, -, rfl⟩ := List.mem_map.1 hx
        exact (pull_pos s g r).le
      · intro x hx
        obtain ⟨r, hr, rfl⟩ := List.mem_map.1 hx
        obtain ⟨r', hr', rfl⟩ := List.mem_map.1 hr
        exact (ha r' hr').1
      · intro x hx
        obtain ⟨r, hr, rfl⟩ := List.mem_map.1 hx
        obtain ⟨r', hr', rfl⟩ := List.mem_map.1 hr
        exact (ha r' hr').2

/-! ### Permutations -/

theorem firstAtZero_perm {norm : ℝ × ℝ → ℝ} (hn : IsDist norm) {g : ℝ × ℝ} {l l' : List (Pt ℝ)} (h : l.Perm l')
    (ha : ∀ p ∈ l, ∀ q ∈ l, p.1 = g → q.1 = g → p.2 = q.2) : firstAtZero norm g l = firstAtZero norm g l' := by
  cases h1 : firstAtZero norm g l with
  | none =>
    symm
    rw [firstAtZero_eq_none] at h1 ⊢
    exact fun p hp => h1 p (h.mem_iff.2 hp)
  | some z =>
    cases h2 : firstAtZero norm g l' with
    | none =>
      rw [firstAtZero_eq_none] at h2
      obtain ⟨p, hp, -, hp0⟩ := firstAtZero_mem h1
      exact absurd hp0 (h2 p (h.mem_iff.1 hp))
    | some z' =>
      obtain ⟨p, hp, rfl, hp0⟩ := firstAtZero_mem h1
      obtain ⟨q, hq, rfl, hq0⟩ := firstAtZero_mem h2
      rw [ha p hp q (h.mem_iff.2 hq) (sub_eq_zero.1 ((hn.2 _).1 hp0)) (sub_eq_zero.1 ((hn.2 _).1 hq0))]

theorem valueAt_perm {s : Settings} (hs : s.Ok) {pts pts' : List (Pt ℝ × ℝ)} (h : pts.Perm pts') {g : ℝ × ℝ}
    (ha : ∀ p ∈ pts, ∀ q ∈ pts, p.1.1 = g → q.1.1 = g → p.1.2 = q.1.2) : valueAt s pts g = valueAt s pts' g := by
  have hp : (around s pts g).Perm (around s pts' g) := h.filter _
  unfold valueAt
  rw [← firstAtZero_perm hs.dist (hp.map Prod.fst) ?_, (hp.map (fun q => q.1.2 * pull s g q)).sum_eq,
    (hp.map (pull s g)).sum_eq]
  intro p hp' q hq' h1 h2
  obtain ⟨p', hp'', rfl⟩ := List.mem_map.1 hp'
  obtain ⟨q', hq'', rfl⟩ := List.mem_map.1 hq'
  exact ha _ (List.mem_filter.1 hp'').1 _ (List.mem_filter.1 hq'').1 h1 h2

theorem top_perm {l l' : List ℝ} (h : l.Perm l') : top l = top l' := by
  cases l with
  | nil => rw [h.nil_eq]
  | cons a l =>
    cases l' with
    | nil => exact absurd h.symm.nil_eq (by simp)
    | cons b l' =>
      exact le_antisymm (Weigher.le_maxOf b l' _ (h.mem_iff.1 (Weigher.maxOf_mem a l)))
        (Weigher.le_maxOf a l _ (h.mem_iff.2 (Weigher.maxOf_mem b l')))

theorem mean_perm {l l' : List ℝ} (h : l.Perm l') : mean l = mean l' := by
  unfold mean; rw [h.sum_eq, h.length_eq]

theorem dev_perm {l l' : List ℝ} (h : l.Perm l') : dev l = dev l' := by
  unfold dev; rw [mean_perm h, (h.map fun x => (x - mean l') ^ 2).sum_eq, h.length_eq]

theorem near_perm (s : Settings) {data data' : List (Pt ℝ)} (h : data.Perm data') (p : Pt ℝ) :
    (near s data p).Perm (near s data' p) := (h.filter _).map _

theorem raw_perm (s : Settings) {data data' : List (Pt ℝ)} (h : data.Perm data') : raw s data = raw s data' := by
  funext p
  unfold raw
  rw [mean_perm (near_perm s h p), dev_perm (near_perm s h p)]

theorem wt_perm (s : Settings) {data data' : List (Pt ℝ)} (h : data.Perm data') : wt s data = wt s data' := by
  funext p
  unfold wt
  rw [raw_perm s h, top_perm (h.map (raw s data'))]

theorem percentile_perm {w w' : List ℝ} (h : w.Perm w') (p : ℝ) : Filter.percentile w p = Filter.percentile w' p := by
  have : w.insertionSort (· ≤ ·) = w'.insertionSort (· ≤ ·) := by
    apply List.Perm.eq_of_pairwise (le := (· ≤ ·)) (fun _ _ _ _ h1 h2 => le_antisymm h1 h2)
      (List.pairwise_insertionSort _ _) (List.pairwise_insertionSort _ _)
    exact ((List.perm_insertionSort _ _).trans h).trans (List.perm_insertionSort _ _).symm
  unfold Filter.percentile
  simp only [this, h.length_eq]

theorem kept_perm (s : Settings) {data data' : List (Pt ℝ)} (h : data.Perm data') :
    (kept s data).Perm (kept s data') := by
  unfold kept
  rw [wt_perm s h, percentile_perm (h.map (wt s data'))]
  exact (h.map _).filter _

theorem min?_perm {l l' : List ℝ} (h : l.Perm l') : l.min? = l'.min? := by
  cases h1 : l'.min? with
  | none =>
    rw [List.min?_eq_none_iff] at h1 ⊢
    subst h1
    exact h.eq_nil
  | some a =>
    rw [List.min?_eq_some_iff] at h1 ⊢
    exact ⟨h.mem_iff.2 h1.1, fun b hb => h1.2 b (h.mem_iff.1 hb)⟩

theorem max?_perm {l l' : List ℝ} (h : l.Perm l') : l.max? = l'.max? := by
  cases h1 : l'.max? with
  | none =>
    rw [List.max?_eq_none_iff] at h1 ⊢
    subst h1
    exact h.eq_nil
  | some a =>
    rw [List.max?_eq_some_iff] at h1 ⊢
    exact ⟨h.mem_iff.2 h1.1, fun b hb => h1.2 b (h.mem_iff.1 hb)⟩

/-! ### Transformations of the data -/

theorem mean_map (c : ℝ) (l : List ℝ) : mean (l.map (c * ·)) = c * mean l := by
  unfold mean
  rw [List.sum_map_mul_left, List.length_map, List.map_id', mul_div_assoc]

theorem spread_map (c : ℝ) (l : List ℝ) :
    ((l.map (c * ·)).map fun x => (x - mean (l.map (c * ·))) ^ 2).sum = c ^ 2 * (l.map fun x => (x - mean l) ^ 2).sum := by
  rw [mean_map, List.map_map, ← List.sum_map_mul_left]
  congr 1
  apply List.map_congr_left
  intro x _
  simp only [Function.comp_apply]
  ring

theorem eq_mean_of_spread {l : List ℝ} (h : Real.sqrt ((l.map fun x => (x - mean l) ^ 2).sum / l.length) = 0) {x : ℝ}
    (hx : x ∈ l) : x = mean l := by
  have hl : (0 : ℝ) < l.length := by exact_mod_cast List.length_pos_of_mem hx
  have hnn : ∀ y ∈ l.map (fun x => (x - mean l) ^ 2), 0 ≤ y := by
    intro y hy
    obtain ⟨z, -, rfl⟩ := List.mem_map.1 hy
    positivity
  have h0 : 0 ≤ (l.map fun x => (x - mean l) ^ 2).sum := List.sum_nonneg hnn
  rw [Real.sqrt_eq_zero (by positivity), div_eq_zero_iff] at h
  have h1 : (l.map fun x => (x - mean l) ^ 2).sum = 0 := h.resolve_right hl.ne'
  by_contra hne
  have : 0 < (x - mean l) ^ 2 := by
    have : x - mean l ≠ 0 := sub_ne_zero.2 hne
    positivity
  have := sum_pos_of_mem hnn (List.mem_map_of_mem (f := fun x => (x - mean l) ^ 2) hx) this
  linarith

theorem deviation_map {c : ℝ} (hc : 0 < c) {l : List ℝ} {x : ℝ} (hx : x ∈ l) :
    |mean (l.map (c * ·)) - c * x| / dev (l.map (c * ·)) = |mean l - x| / dev l := by
  have hs : Real.sqrt (((l.map (c * ·)).map fun x => (x - mean (l.map (c * ·))) ^ 2).sum / (l.map (c * ·)).length) =
      c * Real.sqrt ((l.map fun x => (x - mean l) ^ 2).sum / l.length) := by
    rw [spread_map, List.length_map, mul_div_assoc, Real.sqrt_mul (by positivity), Real.sqrt_sq hc.le]
  have hn : |mean (l.map (c * ·)) - c * x| = c * |mean l - x| := by
    rw [mean_map, ← mul_sub, abs_mul, abs_of_pos hc]
  unfold dev
  rw [hs, hn]
  by_cases h : Real.sqrt ((l.map fun x => (x - mean l) ^ 2).sum / l.length) = 0
  · rw [eq_mean_of_spread h hx]
    simp
  · rw [if_neg h, if_neg (mul_ne_zero hc.ne' h), mul_div_mul_left _ _ hc.ne']

/-- A transformation of the data which keeps the distances of winds and multiplies the boat speeds by a number. -/
structure Similar (s : Settings) (c : ℝ) (f : Pt ℝ → Pt ℝ) : Prop where
  wind : ∀ p q, s.weigherNorm ((f p).1 - (f q).1) = s.weigherNorm (p.1 - q.1)
  speed : ∀ p, (f p).2 = c * p.2

theorem near_map {s : Settings} {c : ℝ} {f : Pt ℝ → Pt ℝ} (hf : Similar s c f) (data : List (Pt ℝ)) (p : Pt ℝ) :
    near s (data.map f) (f p) = (near s data p).map (c * ·) := by
  classical
  unfold near cylinderSpeeds
  rw [List.filter_map, List.map_map, List.map_map]
  have : ((fun q : Pt ℝ => decide (s.weigherNorm (q.1 - (f p).1) ≤ s.radius)) ∘ f) =
      fun q => decide (s.weigherNorm (q.1 - p.1) ≤ s.radius) := by
    funext q
    simp only [Function.comp_apply, hf.wind]
  rw [this]
  apply List.map_congr_left
  intro q _
  exact hf.speed q

theorem raw_map {s : Settings} (hs : s.Ok) {c : ℝ} (hc : 0 < c) {f : Pt ℝ → Pt ℝ} (hf : Similar s c f) {data : List (Pt ℝ)}
    {p : Pt ℝ} (hp : p ∈ data) : raw s (data.map f) (f p) = raw s data p := by
  unfold raw
  rw [near_map hf, hf.speed]
  exact deviation_map hc (near_mem hs hp)

theorem wt_map {s : Settings} (hs : s.Ok) {c : ℝ} (hc : 0 < c) {f : Pt ℝ → Pt ℝ} (hf : Similar s c f) {data : List (Pt ℝ)}
    {p : Pt ℝ} (hp : p ∈ data) : wt s (data.map f) (f p) = wt s data p := by
  have : (data.map f).map (raw s (data.map f)) = data.map (raw s data) := by
    rw [List.map_map]
    exact List.map_congr_left fun q hq => raw_map hs hc hf hq
  unfold wt
  rw [this, raw_map hs hc hf hp]

theorem kept_map {s : Settings} (hs : s.Ok) {c : ℝ} (hc : 0 < c) {f : Pt ℝ → Pt ℝ} (hf : Similar s c f)
    (data : List (Pt ℝ)) : kept s (data.map f) = (kept s data).map fun q => (f q.1, q.2) := by
  have h1 : (data.map f).map (wt s (data.map f)) = data.map (wt s data) := by
    rw [List.map_map]
    exact List.map_congr_left fun q hq => wt_map hs hc hf hq
  have h2 : ((data.map f).map fun p => (p, wt s (data.map f) p)) =
      (data.map fun p => (p, wt s data p)).map fun q => (f q.1, q.2) := by
    rw [List.map_map, List.map_map]
    apply List.map_congr_left
    intro q hq
    simp only [Function.comp_apply, wt_map hs hc hf hq]
  unfold kept
  rw [h1, h2, List.filter_map]
  rfl

theorem firstAtZero_map {norm : ℝ × ℝ → ℝ} {g g' : ℝ × ℝ} {c : ℝ} {F : Pt ℝ × ℝ → Pt ℝ × ℝ} {l : List (Pt ℝ × ℝ)}
    (h1 : ∀ q ∈ l, norm ((F q).1.1 - g') = norm (q.1.1 - g)) (h2 : ∀ q ∈ l, (F q).1.2 = c * q.1.2) :
    firstAtZero norm g' ((l.map F).map Prod.fst) = (firstAtZero norm g (l.map Prod.fst)).map (c * ·) := by
  induction l with
  | nil => rfl
  | cons q l ih =>
    simp only [List.map_cons, firstAtZero, h1 q List.mem_cons_self, h2 q List.mem_cons_self]
    split
    · rfl
    · exact ih (fun q hq => h1 q (List.mem_cons_of_mem _ hq)) fun q hq => h2 q (List.mem_cons_of_mem _ hq)

theorem valueAt_map {s : Settings} {g g' : ℝ × ℝ} {c : ℝ} {F : Pt ℝ × ℝ → Pt ℝ × ℝ} {pts : List (Pt ℝ × ℝ)}
    (hb : ∀ q ∈ pts, s.ballNorm ((F q).1.1 - g') = s.ballNorm (q.1.1 - g))
    (hn : ∀ q ∈ pts, s.norm ((F q).1.1 - g') = s.norm (q.1.1 - g)) (hc : ∀ q ∈ pts, (F q).1.2 = c * q.1.2)
    (hw : ∀ q ∈ pts, (F q).2 = q.2) : valueAt s (pts.map F) g' = c * valueAt s pts g := by
  have h1 : around s (pts.map F) g' = (around s pts g).map F := by
    unfold around
    rw [List.filter_map]
    congr 1
    apply List.filter_congr
    intro q hq
    simp only [Function.comp_apply, inBall, hb q hq]
  have hsub : ∀ q ∈ around s pts g, q ∈ pts := fun q hq => (List.mem_filter.1 hq).1
  have hp : ∀ q ∈ around s pts g, pull s g' (F q) = pull s g q := by
    intro q hq
    unfold pull
    rw [hn q (hsub q hq), hw q (hsub q hq)]
  unfold valueAt
  rw [h1, firstAtZero_map (fun q hq => hn q (hsub q hq)) fun q hq => hc q (hsub q hq)]
  cases firstAtZero s.norm g ((around s pts g).map Prod.fst) with
  | some z => rfl
  | none =>
    simp only [Option.map_none]
    have e1 : ((around s pts g).map F).map (pull s g') = (around s pts g).map (pull s g) := by
      rw [List.map_map]
      exact List.map_congr_left fun q hq => hp q hq
    have e2 : (((around s pts g).map F).map fun q => q.1.2 * pull s g' q).sum =
        c * ((around s pts g).map fun q => q.1.2 * pull s g q).sum := by
      rw [List.map_map, ← List.sum_map_mul_left]
      congr 1
      apply List.map_congr_left
      intro q hq
      simp only [Function.comp_apply, hp q hq, hc q (hsub q hq)]
      ring
    rw [e1, e2, mul_div_assoc]

/-! ### The table -/

theorem tableProcess_sorted {res : Ext.WindResolution ℝ} {nbh : ℝ × ℝ → Bool}
    {interpolate : List (Pt ℝ × ℝ) → ℝ × ℝ → Except PyErr ℝ} {pts : List (Pt ℝ × ℝ)} {t : Table ℝ}
    (h : Ext.tableProcess res nbh interpolate pts = .ok t) : t.ws.Pairwise (· ≤ ·) ∧ t.wa.Pairwise (· ≤ ·) := by
  unfold Ext.tableProcess at h
  cases h1 : Ext.tableSize (pts.map Prod.fst) res with
  | error e => rw [h1] at h; cases h
  | ok r =>
    rw [h1] at h
    simp only [bind, Except.bind] at h
    cases h2 : Ext.interpolatePoints nbh interpolate pts (Ext.gridPoints r.1 r.2) with
    | error e => rw [h2] at h; cases h
    | ok l =>
      rw [h2] at h
      simp only at h
      split at h
      · cases h
      · unfold Table.init at h
        cases h3 : Table.buildWs (Table.Resolution.values r.1) with
        | error e => rw [h3] at h; cases h
        | ok ws =>
          cases h4 : Table.buildWa (Table.Resolution.values r.2) with
          | error e => rw [h3, h4] at h; cases h
          | ok wa =>
            rw [h3, h4] at h
            simp only [bind, Except.bind] at h
            split at h
            · cases h
            · rename_i hg
              split at h
              · cases h
              · cases h
                have := Table.sortTable_spec (not_not.1 hg)
                exact ⟨this.2.1, this.2.2.2.1⟩

theorem mem_linspace {a b : ℝ} (hab : a ≤ b) {n : Nat} {x : ℝ} (hx : x ∈ Injector.linspace a b n) : a ≤ x ∧ x ≤ b := by
  unfold Injector.linspace at hx
  split at hx
  · simp only [List.mem_singleton] at hx
    subst hx
    exact ⟨le_refl _, hab⟩
  · rename_i hn
    obtain ⟨i, hi, rfl⟩ := List.mem_map.1 hx
    have hi := List.mem_range.1 hi
    have h2 : 2 ≤ n := by omega
    have hn1 : (0 : ℝ) < (n : ℝ) - 1 := by
      have : (2 : ℝ) ≤ n := by exact_mod_cast h2
      linarith
    have hi1 : (i : ℝ) ≤ (n : ℝ) - 1 := by
      have : ((i + 1 : Nat) : ℝ) ≤ n := by exact_mod_cast hi
      push_cast at this
      linarith
    have h0 : 0 ≤ (b - a) / ((n : ℝ) - 1) := div_nonneg (by linarith) hn1.le
    constructor
    · have := mul_nonneg (Nat.cast_nonneg (α := ℝ) i) h0
      linarith
    · have : (i : ℝ) * ((b - a) / ((n : ℝ) - 1)) ≤ ((n : ℝ) - 1) * ((b - a) / ((n : ℝ) - 1)) :=
        mul_le_mul_of_nonneg_right hi1 h0
      rw [mul_div_cancel₀ _ hn1.ne'] at this
      linarith

/-- The points given to the extension. -/
noncomputable def allPoints (s : Settings) (data : List (Pt ℝ)) : List (Pt ℝ × ℝ) :=
  kept s data ++ zeros s.nZeros.toNat (((kept s data).map fun p => p.1.1.1).min?.getD 0)
    (((kept s data).map fun p => p.1.1.1).max?.getD 0)

theorem makeTable_all {s : Settings} (hs : s.Ok) {data : List (Pt ℝ)} (hne : data ≠ []) :
    makeTable s data = Ext.tableProcess .minMax (inBall s) (interpolate s) (allPoints s data) := by
  obtain ⟨a, b, ha, hb⟩ := exists_span (kept_ne hs hne)
  rw [makeTable_eq hs hne ha hb, allPoints, ha, hb]
  rfl

theorem zeros_mem {n : Nat} {a b : ℝ} {q : Pt ℝ × ℝ} (h : q ∈ zeros n a b) :
    q.1.1.1 ∈ Injector.linspace a b n ∧ (q.1.1.2 = 0 ∨ q.1.1.2 = 360) ∧ q.1.2 = 0 ∧ q.2 = 1 := by
  unfold zeros at h
  rw [List.mem_append, List.mem_map, List.mem_map] at h
  rcases h with ⟨x, hx, rfl⟩ | ⟨x, hx, rfl⟩
  · exact ⟨hx, Or.inl rfl, rfl, rfl⟩
  · exact ⟨hx, Or.inr rfl, rfl, rfl⟩

/-- The wind speeds of the points given to the extension are in the range of those of the measurements. -/
theorem allPoints_ws {s : Settings} (hs : s.Ok) {data : List (Pt ℝ)} (hne : data ≠ []) {q : Pt ℝ × ℝ}
    (hq : q ∈ allPoints s data) : ∃ p ∈ data, ∃ p' ∈ data, p.1.1 ≤ q.1.1.1 ∧ q.1.1.1 ≤ p'.1.1 := by
  obtain ⟨a, b, ha, hb⟩ := exists_span (kept_ne hs hne)
  unfold allPoints at hq
  rw [ha, hb, List.mem_append] at hq
  rcases hq with hq | hq
  · exact ⟨q.1, kept_sub hq, q.1, kept_sub hq, le_refl _, le_refl _⟩
  · obtain ⟨hx, -⟩ := zeros_mem hq
    obtain ⟨p, hp, hpa⟩ := List.mem_map.1 (List.min?_mem ha)
    obtain ⟨p', hp', hpb⟩ := List.mem_map.1 (List.max?_mem hb)
    have hab : a ≤ b := (List.min?_eq_some_iff.1 ha).2 b (List.max?_mem hb)
    have := mem_linspace hab hx
    refine ⟨p.1, kept_sub hp, p'.1, kept_sub hp', ?_, ?_⟩
    · rw [hpa]; exact this.1
    · rw [hpb]; exact this.2

theorem makeTable_spec {s : Settings} (hs : s.Ok) {data : List (Pt ℝ)} (hne : data ≠ [])
    (hpos : ∀ p ∈ data, 0 ≤ p.1.1) :
    ∃ ws wa t, Ext.minMaxResolution ((allPoints s data).map Prod.fst) = .ok (ws, wa) ∧ makeTable s data = .ok t ∧
      t.ws = ws.map (fun (w : ℤ) => (w : ℝ)) ∧ t.wa = wa.map (fun (a : ℤ) => (a : ℝ)) ∧
      (∀ a : ℤ, a ∈ wa ↔ 5 ≤ a ∧ a ≤ 355 ∧ a % 5 = 0) ∧
      ∀ w ∈ t.ws, ∀ a ∈ t.wa, t.get w a = .ok (valueAt s (allPoints s data) (w, a)) := by
  have hne' : allPoints s data ≠ [] := by
    unfold allPoints
    exact List.append_ne_nil_of_left_ne_nil (kept_ne hs hne) _
  obtain ⟨ws, wa, t, h1, h2, h3, h4, h5⟩ := Ext.C82_min_max (nbh := inBall s) (interpolate := interpolate s) hne'
    (fun p hp => by
      obtain ⟨q, hq, -, -, hle, -⟩ := allPoints_ws hs hne hp
      exact (hpos q hq).trans hle) (fun g => isValue s (allPoints s data) g)
  obtain ⟨s1, s2⟩ := tableProcess_sorted h2
  have hres : ∃ r : ℤ × ℤ, ws = Ext.pyRange r.1 (r.2 + 1) 2 ∧ wa = Ext.pyRange 5 356 5 := by
    unfold Ext.minMaxResolution at h1
    cases hr : Ext.roundedSpan (((allPoints s data).map Prod.fst).map fun p => p.1.1) with
    | error e => rw [hr] at h1; cases h1
    | ok r =>
      rw [hr] at h1
      cases h1
      exact ⟨r, rfl, rfl⟩
  obtain ⟨r, hws, hwa⟩ := hres
  have hle : ∀ {l : List ℤ}, l.Pairwise (· < ·) → (l.map fun (w : ℤ) => (w : ℝ)).Pairwise (· ≤ ·) := by
    intro l hl
    rw [List.pairwise_map]
    exact hl.imp fun h => by exact_mod_cast h.le
  have e1 : t.ws = ws.map fun (w : ℤ) => (w : ℝ) :=
    h3.eq_of_pairwise (le := (· ≤ ·)) (fun _ _ _ _ h1 h2 => le_antisymm h1 h2) s1
      (hle (by rw [hws]; exact Ext.pyRange_sorted (by norm_num)))
  have e2 : t.wa = wa.map fun (a : ℤ) => (a : ℝ) :=
    h4.eq_of_pairwise (le := (· ≤ ·)) (fun _ _ _ _ h1 h2 => le_antisymm h1 h2) s2
      (hle (by rw [hwa]; exact Ext.pyRange_sorted (by norm_num)))
  refine ⟨ws, wa, t, h1, by rw [makeTable_all hs hne, h2], e1, e2, ?_, ?_⟩
  · intro a
    rw [hwa, Ext.mem_pyRange (by norm_num)]
    omega
  · intro w hw a ha
    rw [e1] at hw
    rw [e2] at ha
    obtain ⟨w', hw', rfl⟩ := List.mem_map.1 hw
    obtain ⟨a', ha', rfl⟩ := List.mem_map.1 ha
    exact h5 w' hw' a' ha'

end Verif.Default
