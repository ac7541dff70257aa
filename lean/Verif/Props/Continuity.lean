import Verif.Props.Interpolator
import Mathlib.Topology.Algebra.GroupWithZero
import Mathlib.Topology.Instances.Real.Lemmas
import Mathlib.Topology.Order.Lattice

/-!
# Property C126: interpolated speeds vary continuously with the wind

The results of the interpolators are compared with a function of the wind that is continuous in the sense of Mathlib.
-/

namespace Verif.Interp

open Filter Topology

/-- Two data points at the same wind are the same point. -/
def DistinctWinds (pts : List (Pt ℝ)) : Prop := (pts.map Prod.fst).Nodup

/-- The weighted mean of values `z` with weights `w` depending on the place. -/
noncomputable def wmean (l : List ((ℝ × ℝ → ℝ) × ℝ)) (g : ℝ × ℝ) : ℝ :=
  (l.map fun q => q.1 g * q.2).sum / (l.map fun q => q.1 g).sum

theorem continuousAt_sum {l : List ((ℝ × ℝ → ℝ) × ℝ)} {g : ℝ × ℝ} (h : ∀ q ∈ l, ContinuousAt q.1 g)
    (f : ℝ → ℝ) : ContinuousAt (fun x => (l.map fun q => q.1 x * f q.2).sum) g := by
  induction l with
  | nil => simpa using continuousAt_const
  | cons q l ih =>
    simp only [List.map_cons, List.sum_cons]
    exact ((h q (by simp)).mul continuousAt_const).add (ih fun r hr => h r (by simp [hr]))

theorem continuousAt_wmean {l : List ((ℝ × ℝ → ℝ) × ℝ)} {g : ℝ × ℝ} (h : ∀ q ∈ l, ContinuousAt q.1 g)
    (h0 : (l.map fun q => q.1 g).sum ≠ 0) : ContinuousAt (wmean l) g := by
  have h1 := continuousAt_sum h id
  have h2 := continuousAt_sum h fun _ => 1
  simp only [mul_one, id] at h1 h2
  exact h1.div h2 h0

/-- A weighted mean is continuous at a place where one of the weights is the inverse of a power of a function tending to
zero, if its value there is the value with this weight. -/
theorem continuousAt_wmean_pole {l₁ l₂ : List ((ℝ × ℝ → ℝ) × ℝ)} {g : ℝ × ℝ} {d w f : ℝ × ℝ → ℝ} {z : ℝ} {p : Nat}
    (hp : p ≠ 0) (hl : ∀ q ∈ l₁ ++ l₂, ContinuousAt q.1 g ∧ 0 ≤ q.1 g) (hd : ContinuousAt d g) (hd0 : d g = 0)
    (hw : ∀ᶠ x in 𝓝 g, x ≠ g → d x ≠ 0 ∧ w x = 1 / d x ^ p ∧ f x = wmean (l₁ ++ (w, z) :: l₂) x) (hf : f g = z) :
    ContinuousAt f g := by
  have h1 := continuousAt_sum (fun q hq => (hl q hq).1) id
  have h2 := continuousAt_sum (fun q hq => (hl q hq).1) fun _ => 1
  simp only [mul_one, id] at h1 h2
  have hdp : ContinuousAt (fun x => d x ^ p) g := hd.pow p
  have hF : ContinuousAt (fun x => (z + d x ^ p * ((l₁ ++ l₂).map fun q => q.1 x * q.2).sum) /
      (1 + d x ^ p * ((l₁ ++ l₂).map fun q => q.1 x).sum)) g := by
    refine (continuousAt_const.add (hdp.mul h1)).div (continuousAt_const.add (hdp.mul h2)) ?_
    simp [hd0, hp]
  refine hF.congr ?_
  filter_upwards [hw] with x hx
  by_cases hxg : x = g
  · subst hxg
    simp [hd0, hp, hf]
  · obtain ⟨a, b, c⟩ := hx hxg
    rw [c, wmean]
    simp only [List.map_append, List.map_cons, List.sum_append, List.sum_cons, b]
    set A := (l₁.map fun q => q.1 x * q.2).sum
    set B := (l₂.map fun q => q.1 x * q.2).sum
    set C := (l₁.map fun q => q.1 x).sum
    set D := (l₂.map fun q => q.1 x).sum
    have hne : d x ^ p ≠ 0 := pow_ne_zero _ a
    rw [← mul_div_mul_left (A + (1 / d x ^ p * z + B)) _ hne]
    congr 1
    · field_simp; ring
    · field_simp; ring

/-- The weights and values of the points. -/
noncomputable def wl (W : Pt ℝ → ℝ × ℝ → ℝ) (pts : List (Pt ℝ)) : List ((ℝ × ℝ → ℝ) × ℝ) := pts.map fun q => (W q, q.2)

/-- The value of a data point at its wind, a weighted mean elsewhere. -/
noncomputable def valueOr (norm : ℝ × ℝ → ℝ) (W : Pt ℝ → ℝ × ℝ → ℝ) (pts : List (Pt ℝ)) (g : ℝ × ℝ) : ℝ :=
  (firstAtZero norm g pts).getD (wmean (wl W pts) g)

theorem eventually_ne_all {l : List (Pt ℝ)} {g : ℝ × ℝ} (h : ∀ r ∈ l, r.1 ≠ g) : ∀ᶠ x in 𝓝 g, ∀ r ∈ l, r.1 ≠ x := by
  induction l with
  | nil => simp
  | cons r l ih =>
    have h1 : ∀ᶠ x in 𝓝 g, x ≠ r.1 := eventually_ne_nhds (h r (by simp)).symm
    filter_upwards [h1, ih fun q hq => h q (by simp [hq])] with x a b q hq
    rcases List.mem_cons.1 hq with rfl | hq
    · exact a.symm
    · exact b q hq

theorem valueOr_notStored {norm : ℝ × ℝ → ℝ} (hn : IsDist norm) (W : Pt ℝ → ℝ × ℝ → ℝ) {pts : List (Pt ℝ)}
    {g : ℝ × ℝ} (h : NotStored pts g) : valueOr norm W pts g = wmean (wl W pts) g := by
  simp [valueOr, firstAtZero_notStored hn h]

theorem DistinctWinds.first {pts : List (Pt ℝ)} (hc : DistinctWinds pts) {q : Pt ℝ} (hq : q ∈ pts) :
    FirstStored pts q.1 q.2 := by
  obtain ⟨i, hi, rfl⟩ := List.getElem_of_mem hq
  refine ⟨i, by simp [hi], fun j r hj hr h => ?_⟩
  obtain ⟨hj', rfl⟩ := List.getElem?_eq_some_iff.1 hr
  have := (List.Nodup.getElem_inj_iff hc (hi := by simpa using hj') (hj := by simpa using hi)).1 (by simpa using h)
  omega

theorem continuousAt_notStored {norm : ℝ × ℝ → ℝ} (hn : IsDist norm) {W : Pt ℝ → ℝ × ℝ → ℝ} {pts : List (Pt ℝ)}
    {g : ℝ × ℝ} (h : NotStored pts g) (hW : ∀ r ∈ pts, ContinuousAt (W r) g)
    (h0 : (pts.map fun r => W r g).sum ≠ 0) : ContinuousAt (valueOr norm W pts) g := by
  have : ContinuousAt (wmean (wl W pts)) g := by
    refine continuousAt_wmean ?_ ?_
    · intro q hq
      obtain ⟨r, hr, rfl⟩ := List.mem_map.1 hq
      exact hW r hr
    · simpa [wl, Function.comp_def] using h0
  refine this.congr ?_
  filter_upwards [eventually_ne_all h] with x hx
  exact (valueOr_notStored hn W hx).symm

theorem continuousAt_stored {norm : ℝ × ℝ → ℝ} (hn : IsDist norm) (hcont : Continuous norm) {W : Pt ℝ → ℝ × ℝ → ℝ}
    {pts : List (Pt ℝ)} (hc : DistinctWinds pts) {q : Pt ℝ} (hq : q ∈ pts) {p : Nat} (hp : p ≠ 0)
    (hpole : ∀ᶠ x in 𝓝 q.1, x ≠ q.1 → W q x = 1 / norm (q.1 - x) ^ p)
    (hW : ∀ r ∈ pts, r.1 ≠ q.1 → ContinuousAt (W r) q.1 ∧ 0 ≤ W r q.1) :
    ContinuousAt (valueOr norm W pts) q.1 := by
  obtain ⟨l₁, l₂, rfl⟩ := List.append_of_mem hq
  have hne : ∀ r ∈ l₁ ++ l₂, r.1 ≠ q.1 := by
    intro r hr
    unfold DistinctWinds at hc
    rw [List.map_append, List.map_cons, List.nodup_middle, List.nodup_cons] at hc
    intro h
    exact hc.1 (by rw [← List.map_append, ← h]; exact List.mem_map_of_mem hr)
  have hmem : ∀ r ∈ l₁ ++ l₂, r ∈ l₁ ++ q :: l₂ := by
    intro r hr
    rcases List.mem_append.1 hr with h | h
    · exact List.mem_append_left _ h
    · exact List.mem_append_right _ (List.mem_cons_of_mem _ h)
  refine continuousAt_wmean_pole (l₁ := wl W l₁) (l₂ := wl W l₂) (d := fun x => norm (q.1 - x)) (w := W q) (z := q.2)
    hp ?_ ?_ ?_ ?_ ?_
  · intro a ha
    rw [wl, wl, ← List.map_append] at ha
    obtain ⟨r, hr, rfl⟩ := List.mem_map.1 ha
    exact hW r (hmem r hr) (hne r hr)
  · exact (hcont.comp (continuous_const.sub continuous_id)).continuousAt
  · simp [hn.2]
  · filter_upwards [hpole, eventually_ne_all hne] with x h1 h2 hx
    refine ⟨?_, h1 hx, ?_⟩
    · rw [Ne, hn.2, sub_eq_zero]
      exact hx.symm
    · rw [valueOr_notStored hn W]
      · simp [wl]
      · intro r hr
        rcases List.mem_append.1 hr with h | h
        · exact h2 r (List.mem_append_left _ h)
        · rcases List.mem_cons.1 h with rfl | h
          · exact hx.symm
          · exact h2 r (List.mem_append_right _ h)
  · simp [valueOr, firstAtZero_stored hn (hc.first hq)]

theorem normalisedDot_wmean (W : Pt ℝ → ℝ × ℝ → ℝ) (pts : List (Pt ℝ)) (g : ℝ × ℝ)
    (h0 : (pts.map fun r => W r g).sum ≠ 0) :
    normalisedDot (pts.map fun r => W r g) (pts.map Prod.snd) = some (wmean (wl W pts) g) := by
  have key : ∀ (s : ℝ) (l : List (Pt ℝ)), dot ((l.map fun r => W r g).map (· / s)) (l.map Prod.snd) =
      (l.map fun r => W r g * r.2).sum / s := by
    intro s l
    induction l with
    | nil => simp [dot]
    | cons r l ih =>
      simp only [dot, List.map_cons, List.zipWith_cons_cons, List.sum_cons] at ih ⊢
      rw [ih]
      ring
  rw [normalisedDot, if_neg h0, key]
  simp [wmean, wl, Function.comp_def]

/-- **C126.** Inverse distance weighting: the interpolated boat speed is a continuous function of the wind, also at the
data points, if the exponent is not zero and no two data points have the same wind. -/
theorem C126_idw {norm : ℝ × ℝ → ℝ} (hn : IsDist norm) (hcont : Continuous norm) {p : Nat} (hp : p ≠ 0)
    {pts : List (Pt ℝ)} (hne : pts ≠ []) (hc : DistinctWinds pts) :
    ∃ f : ℝ × ℝ → ℝ, Continuous f ∧ ∀ g, idw norm p pts g = .ok (some (f g)) := by
  set W : Pt ℝ → ℝ × ℝ → ℝ := fun q x => 1 / norm (q.1 - x) ^ p with hWdef
  have hWc : ∀ (r : Pt ℝ) (g : ℝ × ℝ), r.1 ≠ g → ContinuousAt (W r) g := by
    intro r g h
    refine continuousAt_const.div ((hcont.comp (continuous_const.sub continuous_id)).continuousAt.pow p) ?_
    exact pow_ne_zero _ (by simpa [hn.2, sub_eq_zero] using h)
  have hsum : ∀ g, NotStored pts g → (pts.map fun r => W r g).sum ≠ 0 := by
    intro g h
    refine (List.sum_pos _ ?_ (by simpa using hne)).ne'
    intro x hx
    obtain ⟨r, hr, rfl⟩ := List.mem_map.1 hx
    exact one_div_pos.2 (pow_pos (dist_pos hn h r hr) _)
  have hl : ¬ pts.length = 0 := by simpa using hne
  refine ⟨valueOr norm W pts, continuous_iff_continuousAt.2 fun g => ?_, fun g => ?_⟩
  · by_cases h : NotStored pts g
    · exact continuousAt_notStored hn h (fun r hr => hWc r g (h r hr)) (hsum g h)
    · simp only [NotStored, not_forall, not_not] at h
      obtain ⟨q, hq, rfl⟩ := h
      exact continuousAt_stored hn hcont hc hq hp (Eventually.of_forall fun x _ => rfl) fun r hr h =>
        ⟨hWc r _ h, one_div_nonneg.2 (pow_nonneg (hn.1 _) _)⟩
  · by_cases h : NotStored pts g
    · rw [valueOr_notStored hn W h, idw, if_neg hl, firstAtZero_notStored hn h]
      simp only [dists, List.map_map, Function.comp_def]
      rw [← normalisedDot_wmean W pts g (hsum g h)]
    · simp only [NotStored, not_forall, not_not] at h
      obtain ⟨q, hq, rfl⟩ := h
      rw [C20_exact hn p (hc.first hq), valueOr, firstAtZero_stored hn (hc.first hq)]
      rfl

/-! ### Improved inverse distance weighting -/

theorem continuous_maxOf (norm : ℝ × ℝ → ℝ) (hcont : Continuous norm) (l : List (Pt ℝ)) {a : ℝ × ℝ → ℝ}
    (ha : Continuous a) : Continuous fun x => maxOf (a x) (dists norm l x) := by
  induction l generalizing a with
  | nil => simpa [dists, maxOf] using ha
  | cons q l ih =>
    simp only [dists, List.map_cons, maxOf]
    exact ih (ha.max (hcont.comp (continuous_const.sub continuous_id)))

theorem tendsto_of_or {f a b : ℝ × ℝ → ℝ} {g : ℝ × ℝ} {c : ℝ} (ha : Tendsto a (𝓝 g) (𝓝 c))
    (hb : Tendsto b (𝓝 g) (𝓝 c)) (h : ∀ᶠ x in 𝓝 g, f x = a x ∨ f x = b x) : Tendsto f (𝓝 g) (𝓝 c) := by
  rw [Metric.tendsto_nhds] at ha hb ⊢
  intro ε hε
  filter_upwards [ha ε hε, hb ε hε, h] with x h1 h2 h3
  rcases h3 with h | h
  · rwa [h]
  · rwa [h]

theorem continuousAt_setWeight {r d : ℝ × ℝ → ℝ} {g : ℝ × ℝ} (hr : ContinuousAt r g) (hd : ContinuousAt d g)
    (hle : ∀ᶠ x in 𝓝 g, d x ≤ r x) (h0 : 0 < d g) : ContinuousAt (fun x => setWeight (r x) (d x)) g := by
  have hr0 : 0 < r g := h0.trans_le hle.self_of_nhds
  have hpos : ∀ᶠ x in 𝓝 g, 0 < d x := hd.eventually (lt_mem_nhds h0)
  have hr3 : ContinuousAt (fun x => r x / 3) g := hr.div_const 3
  have ca : ContinuousAt (fun x => 1 / d x) g := continuousAt_const.div hd h0.ne'
  have cb : ContinuousAt (fun x => 27 / (4 * r x) * (d x / r x - 1) ^ 2) g :=
    (continuousAt_const.div (continuousAt_const.mul hr) (mul_ne_zero (by norm_num) hr0.ne')).mul
      (((hd.div hr hr0.ne').sub continuousAt_const).pow 2)
  rcases lt_trichotomy (d g) (r g / 3) with h | h | h
  · refine ca.congr ?_
    filter_upwards [hd.eventually_lt hr3 h, hpos] with x h1 h2
    rw [setWeight, if_pos ⟨h2, h1.le⟩]
  · have e : setWeight (r g) (d g) = 1 / d g := by rw [setWeight, if_pos ⟨h0, h.le⟩]
    have e' : 27 / (4 * r g) * (d g / r g - 1) ^ 2 = 1 / d g := by
      rw [h]
      field_simp
      norm_num
    show Tendsto _ _ (𝓝 (setWeight (r g) (d g)))
    rw [e]
    have cb' : Tendsto (fun x => 27 / (4 * r x) * (d x / r x - 1) ^ 2) (𝓝 g)
        (𝓝 (27 / (4 * r g) * (d g / r g - 1) ^ 2)) := cb
    rw [e'] at cb'
    refine tendsto_of_or ca cb' ?_
    filter_upwards [hle, hpos] with x h1 h2
    rcases le_or_gt (d x) (r x / 3) with h3 | h3
    · exact .inl (by rw [setWeight, if_pos ⟨h2, h3⟩])
    · exact .inr (by rw [setWeight, if_neg (fun h => h3.not_ge h.2), if_pos ⟨h3, h1⟩])
  · refine cb.congr ?_
    filter_upwards [hr3.eventually_lt hd h, hle] with x h1 h2
    rw [setWeight, if_neg (fun h => h1.not_ge h.2), if_pos ⟨h1, h2⟩]

/-- **C126.** Improved inverse distance weighting: the interpolated boat speed is defined and a continuous function of the
wind wherever the data points are not all at the same distance, also at the data points. -/
theorem C126_improved {norm : ℝ × ℝ → ℝ} (hn : IsDist norm) (hcont : Continuous norm) {pts : List (Pt ℝ)}
    (hc : DistinctWinds pts) :
    ∃ f : ℝ × ℝ → ℝ, ∀ g, (∃ p ∈ pts, ∃ q ∈ pts, norm (p.1 - g) < norm (q.1 - g)) →
      ContinuousAt f g ∧ improved norm pts g = .ok (some (f g)) := by
  rcases pts with _ | ⟨q₀, qs⟩
  · exact ⟨fun _ => 0, fun g h => by simp at h⟩
  set pts := q₀ :: qs with hpts
  set r : ℝ × ℝ → ℝ := fun x => maxOf (norm (q₀.1 - x)) (dists norm qs x) with hr
  have hrc : Continuous r := continuous_maxOf norm hcont qs (hcont.comp (continuous_const.sub continuous_id))
  have hle : ∀ x, ∀ q ∈ pts, norm (q.1 - x) ≤ r x := by
    intro x q hq
    exact le_maxOf (norm (q₀.1 - x)) (dists norm qs x) _
      (List.mem_map_of_mem (f := fun p : Pt ℝ => norm (p.1 - x)) hq)
  set W : Pt ℝ → ℝ × ℝ → ℝ := fun q x => setWeight (r x) (norm (q.1 - x)) ^ 2 with hWdef
  have hdc : ∀ (q : Pt ℝ) g, ContinuousAt (fun x => norm (q.1 - x)) g := fun q g =>
    (hcont.comp (continuous_const.sub continuous_id)).continuousAt
  have hWc : ∀ q ∈ pts, ∀ (g : ℝ × ℝ), q.1 ≠ g → ContinuousAt (W q) g := by
    intro q hq g h
    refine (continuousAt_setWeight hrc.continuousAt (hdc q g) (Eventually.of_forall fun x => hle x q hq) ?_).pow 2
    exact lt_of_le_of_ne (hn.1 _) fun h0 => h (sub_eq_zero.1 ((hn.2 _).1 h0.symm))
  have hsum : ∀ g, NotStored pts g → (∃ p ∈ pts, ∃ q ∈ pts, norm (p.1 - g) < norm (q.1 - g)) →
      (pts.map fun s => W s g).sum ≠ 0 := by
    rintro g h ⟨p, hp, q, hq, hpq⟩ h0
    have hall := List.single_le_sum (l := pts.map fun s => W s g) (by
      intro x hx
      obtain ⟨s, -, rfl⟩ := List.mem_map.1 hx
      exact sq_nonneg _) (W p g) (List.mem_map_of_mem (f := fun s => W s g) hp)
    rw [h0] at hall
    have hd := dist_pos hn h p hp
    have hlt : norm (p.1 - g) < r g := hpq.trans_le (hle g q hq)
    have : setWeight (r g) (norm (p.1 - g)) ≠ 0 := by
      unfold setWeight
      by_cases h3 : norm (p.1 - g) ≤ r g / 3
      · rw [if_pos ⟨hd, h3⟩]
        exact (one_div_pos.2 hd).ne'
      · rw [if_neg (fun h => h3 h.2), if_pos ⟨not_le.1 h3, hlt.le⟩]
        have hr0 := hd.trans hlt
        refine mul_ne_zero (by positivity) (pow_ne_zero _ ?_)
        rw [sub_ne_zero, Ne, div_eq_one_iff_eq hr0.ne']
        exact hlt.ne
    exact this (pow_eq_zero_iff two_ne_zero |>.1 (le_antisymm hall (sq_nonneg _)))
  refine ⟨valueOr norm W pts, fun g hg => ⟨?_, ?_⟩⟩
  · by_cases h : NotStored pts g
    · exact continuousAt_notStored hn h (fun q hq => hWc q hq g (h q hq)) (hsum g h hg)
    · simp only [NotStored, not_forall, not_not] at h
      obtain ⟨q, hq, rfl⟩ := h
      have hr0 : 0 < r q.1 := by
        obtain ⟨a, -, b, hb, hab⟩ := hg
        exact (hn.1 _).trans_lt (hab.trans_le (hle _ b hb))
      refine continuousAt_stored hn hcont hc hq two_ne_zero ?_ fun s hs h => ⟨hWc s hs _ h, sq_nonneg _⟩
      have : ∀ᶠ x in 𝓝 q.1, norm (q.1 - x) < r x / 3 := by
        refine (hdc q _).eventually_lt (hrc.continuousAt.div_const 3) ?_
        have : norm (q.1 - q.1) = 0 := by simp [hn.2]
        rw [this]
        positivity
      filter_upwards [this] with x h1 h2
      have hd : 0 < norm (q.1 - x) :=
        lt_of_le_of_ne (hn.1 _) fun h0 => h2 (sub_eq_zero.1 ((hn.2 _).1 h0.symm)).symm
      simp only [hWdef]
      rw [setWeight, if_pos ⟨hd, h1.le⟩, one_div_pow]
  · by_cases h : NotStored pts g
    · rw [valueOr_notStored hn W h, improved, firstAtZero_notStored hn h]
      have : setWeights (dists norm pts g) = .ok (pts.map fun q => setWeight (r g) (norm (q.1 - g))) := by
        simp [hpts, dists, setWeights, hr, Function.comp_def]
      simp only [this, List.map_map, Function.comp_def]
      rw [← normalisedDot_wmean W pts g (hsum g h hg)]
    · simp only [NotStored, not_forall, not_not] at h
      obtain ⟨q, hq, rfl⟩ := h
      rw [C22_exact hn (hc.first hq), valueOr, firstAtZero_stored hn (hc.first hq)]
      rfl

/-! ### Arithmetic mean -/

/-- **C126.** The arithmetic mean interpolator agrees with a continuous function of the wind except at the data points,
where it returns the boat speeds of the data. -/
theorem C126_arith {norm : ℝ × ℝ → ℝ} (hn : IsDist norm) (hcont : Continuous norm) (s : ℝ) {distr : ℝ → ℝ → ℝ}
    (hpos : ∀ d w, 0 < distr d w) (hdc : ∀ w, Continuous fun d => distr d w) {pts : List (Pt ℝ)} (hne : pts ≠ [])
    {weights : List ℝ} (hw : weights.length = pts.length) :
    ∃ f : ℝ × ℝ → ℝ, Continuous f ∧ (∀ g, NotStored pts g → arith norm s distr pts weights g = .ok (f g)) ∧
      (∀ g, f g * (List.zipWith (fun (q : Pt ℝ) w => distr (norm (q.1 - g)) w) pts weights).sum =
        s * (List.zipWith (fun (q : Pt ℝ) w => distr (norm (q.1 - g)) w * q.2) pts weights).sum) := by
  have hs : ∀ g, 0 < (List.zipWith (fun (q : Pt ℝ) w => distr (norm (q.1 - g)) w) pts weights).sum := by
    intro g
    refine List.sum_pos _ ?_ ?_
    · intro x hx
      obtain ⟨i, hi, rfl⟩ := List.getElem_of_mem hx
      rw [List.getElem_zipWith]
      exact hpos _ _
    · intro h
      have := congrArg List.length h
      simp [hw, hne] at this
  have hd : ∀ (h : ℝ → ℝ) (pts : List (Pt ℝ)) (weights : List ℝ), Continuous fun g =>
      (List.zipWith (fun (q : Pt ℝ) w => distr (norm (q.1 - g)) w * h q.2) pts weights).sum := by
    intro h pts
    induction pts with
    | nil => intro weights; simpa using continuous_const
    | cons q l ih =>
      intro weights
      cases weights with
      | nil => simpa using continuous_const
      | cons w ws =>
        simp only [List.zipWith_cons_cons, List.sum_cons]
        exact (((hdc w).comp (hcont.comp (continuous_const.sub continuous_id))).mul continuous_const).add (ih ws)
  have c1 := hd id pts weights
  have c2 := hd (fun _ => 1) pts weights
  simp only [id, mul_one] at c1 c2
  refine ⟨fun g => s * (List.zipWith (fun (q : Pt ℝ) w => distr (norm (q.1 - g)) w * q.2) pts weights).sum /
    (List.zipWith (fun (q : Pt ℝ) w => distr (norm (q.1 - g)) w) pts weights).sum,
    (continuous_const.mul c1).div c2 fun g => (hs g).ne', fun g h => ?_, fun g => ?_⟩
  · obtain ⟨v, h1, -, h3⟩ := C21_scaled_mean hn hpos hne hw h
    show _ = Except.ok (_ / _)
    rw [h1 s, mul_div_assoc, ← h3, mul_div_assoc, div_self (hs g).ne', mul_one]
  · exact div_mul_cancel₀ _ (hs g).ne'

/-! ### Bilinear interpolation -/

theorem exists_adjacent {l : List ℝ} {lo hi : ℝ} (hlo : lo ∈ l) (hhi : hi ∈ l) (hlt : lo < hi) {x : ℝ} (h0 : lo ≤ x)
    (h1 : x ≤ hi) : ∃ a b, Adjacent l a b ∧ a ≤ x ∧ x ≤ b := by
  rcases eq_or_lt_of_le h1 with rfl | h1
  · have hne : (l.toFinset.filter (· < x)).Nonempty := ⟨lo, by simp [hlo, hlt]⟩
    have hm := Finset.max'_mem _ hne
    simp only [Finset.mem_filter, List.mem_toFinset] at hm
    refine ⟨_, x, ⟨hm.1, hhi, hm.2, fun y hy => ?_⟩, hm.2.le, le_rfl⟩
    rcases lt_or_ge y x with h | h
    · exact .inl (Finset.le_max' _ _ (by simp [hy, h]))
    · exact .inr h
  · have hne : (l.toFinset.filter (· ≤ x)).Nonempty := ⟨lo, by simp [hlo, h0]⟩
    have hm := Finset.max'_mem _ hne
    simp only [Finset.mem_filter, List.mem_toFinset] at hm
    have hne' : (l.toFinset.filter (x < ·)).Nonempty := ⟨hi, by simp [hhi, h1]⟩
    have hm' := Finset.min'_mem _ hne'
    simp only [Finset.mem_filter, List.mem_toFinset] at hm'
    refine ⟨_, _, ⟨hm.1, hm'.1, hm.2.trans_lt hm'.2, fun y hy => ?_⟩, hm.2, hm'.2.le⟩
    rcases le_or_gt y x with h | h
    · exact .inl (Finset.le_max' _ _ (by simp [hy, h]))
    · exact .inr (Finset.min'_le _ _ (by simp [hy, h]))

/-- **C126.** Bilinear interpolation on a complete grid is defined and continuous on the rectangle spanned by the grid, also
across the borders of its cells. -/
theorem C126_bilinear {pts : List (Pt ℝ)} (hfull : ∀ x ∈ wsOf pts, ∀ y ∈ waOf pts, ∃ z, Stored pts x y z)
    {xl xu yl yu : ℝ} (hxl : xl ∈ wsOf pts) (hxu : xu ∈ wsOf pts) (hx : xl < xu) (hyl : yl ∈ waOf pts)
    (hyu : yu ∈ waOf pts) (hy : yl < yu) :
    ∃ f : ℝ × ℝ → ℝ, ContinuousOn f (Set.Icc xl xu ×ˢ Set.Icc yl yu) ∧
      ∀ g ∈ Set.Icc xl xu ×ˢ Set.Icc yl yu, bilinear pts g = .ok (f g) := by
  set f : ℝ × ℝ → ℝ := fun g => match bilinear pts g with | .ok v => v | .error _ => 0 with hf
  let S : Set ((ℝ × ℝ) × (ℝ × ℝ)) := {c | Adjacent (wsOf pts) c.1.1 c.1.2 ∧ Adjacent (waOf pts) c.2.1 c.2.2}
  have hS : S.Finite := by
    refine (((wsOf pts).toFinset.product (wsOf pts).toFinset).product
      ((waOf pts).toFinset.product (waOf pts).toFinset)).finite_toSet.subset ?_
    rintro ⟨⟨a, b⟩, c, d⟩ ⟨h1, h2⟩
    simp only [Finset.product_eq_sprod, Finset.coe_product, Set.mem_prod, Finset.mem_coe, List.mem_toFinset]
    exact ⟨⟨h1.1, h1.2.1⟩, h2.1, h2.2.1⟩
  have hfin : Finite S := hS
  let cell : S → Set (ℝ × ℝ) := fun c => Set.Icc c.1.1.1 c.1.1.2 ×ˢ Set.Icc c.1.2.1 c.1.2.2
  have hval : ∀ c : S, ∃ z00 z01 z10 z11 : ℝ, ∀ g ∈ cell c, bilinear pts g =
      .ok (lerp ((g.1 - c.1.1.1) / (c.1.1.2 - c.1.1.1)) (lerp ((g.2 - c.1.2.1) / (c.1.2.2 - c.1.2.1)) z00 z01)
        (lerp ((g.2 - c.1.2.1) / (c.1.2.2 - c.1.2.1)) z10 z11)) := by
    rintro ⟨⟨⟨a, b⟩, c, d⟩, h1, h2⟩
    obtain ⟨z00, s00⟩ := hfull a h1.1 c h2.1
    obtain ⟨z01, s01⟩ := hfull a h1.1 d h2.2.1
    obtain ⟨z10, s10⟩ := hfull b h1.2.1 c h2.1
    obtain ⟨z11, s11⟩ := hfull b h1.2.1 d h2.2.1
    exact ⟨z00, z01, z10, z11, fun g hg => C23_cell h1 h2 hg.1.1 hg.1.2 hg.2.1 hg.2.2 s00 s01 s10 s11⟩
  have hcov : ∀ g ∈ Set.Icc xl xu ×ˢ Set.Icc yl yu, ∃ c : S, g ∈ cell c := by
    intro g hg
    obtain ⟨a, b, h1, ha, hb⟩ := exists_adjacent hxl hxu hx hg.1.1 hg.1.2
    obtain ⟨c, d, h2, hc, hd⟩ := exists_adjacent hyl hyu hy hg.2.1 hg.2.2
    exact ⟨⟨((a, b), (c, d)), h1, h2⟩, ⟨ha, hb⟩, hc, hd⟩
  have hcont : ContinuousOn f (⋃ c, cell c) := by
    refine (locallyFinite_of_finite cell).continuousOn_iUnion (fun c => isClosed_Icc.prod isClosed_Icc) fun c => ?_
    obtain ⟨z00, z01, z10, z11, h⟩ := hval c
    have : Continuous fun g : ℝ × ℝ => lerp ((g.1 - c.1.1.1) / (c.1.1.2 - c.1.1.1))
        (lerp ((g.2 - c.1.2.1) / (c.1.2.2 - c.1.2.1)) z00 z01)
        (lerp ((g.2 - c.1.2.1) / (c.1.2.2 - c.1.2.1)) z10 z11) := by
      unfold lerp
      have e1 : Continuous fun g : ℝ × ℝ => (g.1 - c.1.1.1) / (c.1.1.2 - c.1.1.1) :=
        (continuous_fst.sub continuous_const).div_const _
      have e2 : Continuous fun g : ℝ × ℝ => (g.2 - c.1.2.1) / (c.1.2.2 - c.1.2.1) :=
        (continuous_snd.sub continuous_const).div_const _
      fun_prop
    exact this.continuousOn.congr fun g hg => by simp only [hf, h g hg]
  refine ⟨f, hcont.mono fun g hg => Set.mem_iUnion.2 (hcov g hg), fun g hg => ?_⟩
  obtain ⟨c, hc⟩ := hcov g hg
  obtain ⟨z00, z01, z10, z11, h⟩ := hval c
  simp only [hf, h g hc]

/-! ### Examples -/

/-- The norm used by default is continuous. -/
theorem continuous_scaledEuclidean : Continuous scaledEuclidean := by
  unfold scaledEuclidean
  fun_prop

/-- The hypotheses of C126 are satisfied by the default norm and three points. -/
example : ∃ f : ℝ × ℝ → ℝ, Continuous f ∧
    ∀ g, idw scaledEuclidean 2 [((10, 90), 5), ((10, 100), 6), ((12, 90), 7)] g = .ok (some (f g)) :=
  C126_idw isDist_scaledEuclidean continuous_scaledEuclidean (by norm_num) (by simp) (by norm_num [DistinctWinds])

example : ∃ f : ℝ × ℝ → ℝ, ∀ g, (∃ p ∈ [(((10 : ℝ), (90 : ℝ)), (5 : ℝ)), ((12, 90), 7)],
      ∃ q ∈ [(((10 : ℝ), (90 : ℝ)), (5 : ℝ)), ((12, 90), 7)], scaledEuclidean (p.1 - g) < scaledEuclidean (q.1 - g)) →
      ContinuousAt f g ∧ improved scaledEuclidean [((10, 90), 5), ((12, 90), 7)] g = .ok (some (f g)) :=
  C126_improved isDist_scaledEuclidean continuous_scaledEuclidean (by norm_num [DistinctWinds])

/-- With the default distribution the arithmetic mean interpolator jumps at the data point: nearby it returns values
close to fifty times the boat speed. -/
example : ∃ f : ℝ × ℝ → ℝ, Continuous f ∧ f (10, 90) = 250 ∧
    (∀ g, NotStored [(((10 : ℝ), (90 : ℝ)), (5 : ℝ))] g →
      arith scaledEuclidean 50 (gauss 10) [((10, 90), 5)] [1] g = .ok (f g)) ∧
    arith scaledEuclidean 50 (gauss 10) [((10, 90), 5)] [1] (10, 90) = .ok 5 := by
  obtain ⟨f, h1, h2, h3⟩ := C126_arith isDist_scaledEuclidean continuous_scaledEuclidean 50
    (distr := gauss 10) (fun d w => C21_gauss_positive _ d w) (fun w => by unfold gauss; fun_prop)
    (pts := [((10, 90), 5)]) (weights := [1]) (by simp) (by simp)
  refine ⟨f, h1, ?_, h2, C21_exact isDist_scaledEuclidean 50 _ _ ⟨0, by simp, fun j q hj => by simp at hj⟩⟩
  have := h3 (10, 90)
  have h0 : scaledEuclidean 0 = 0 := (isDist_scaledEuclidean.2 0).2 rfl
  simp [h0, gauss] at this
  linarith

example : ∃ f : ℝ × ℝ → ℝ, ContinuousOn f (Set.Icc 10 12 ×ˢ Set.Icc 90 120) ∧
    ∀ g ∈ Set.Icc (10 : ℝ) 12 ×ˢ Set.Icc (90 : ℝ) 120,
      bilinear [((10, 90), 5), ((10, 120), 6), ((12, 90), 7), ((12, 120), 9)] g = .ok (f g) := by
  refine C126_bilinear ?_ (by simp [wsOf]) (by simp [wsOf]) (by norm_num) (by simp [waOf]) (by simp [waOf]) (by norm_num)
  have hc : DistinctWinds [(((10 : ℝ), (90 : ℝ)), (5 : ℝ)), ((10, 120), 6), ((12, 90), 7), ((12, 120), 9)] := by
    norm_num [DistinctWinds]
  simp only [wsOf, waOf, List.map_cons, List.map_nil, List.mem_cons, List.not_mem_nil, or_false]
  rintro x (rfl | rfl | rfl | rfl) y (rfl | rfl | rfl | rfl)
  all_goals first
    | exact ⟨5, hc.first (q := ((10, 90), 5)) (by simp)⟩
    | exact ⟨6, hc.first (q := ((10, 120), 6)) (by simp)⟩
    | exact ⟨7, hc.first (q := ((12, 90), 7)) (by simp)⟩
    | exact ⟨9, hc.first (q := ((12, 120), 9)) (by simp)⟩

end Verif.Interp
