import Verif.Model.PlotCalls
import Verif.Props.Plot

/-!
# Property C124: plots show the points of the slices
-/

set_option linter.unusedSectionVars false

namespace Verif.Plot

open Verif.Curve (deg2rad)

variable {L : Type} [DecidableEq L]

/-- A point of a slice as drawn. -/
noncomputable def shown (proj : Projection) (c : Col) : Option ℝ × Option ℝ := (some (proj.angle c.wa), some c.bsp)

theorem safeZip_none (slices : List (List Col)) :
    safeZip (L := L) slices none = slices.map fun s => (s, none) := rfl

/-- If every slice can be drawn, the calls are those of the slices, in order. -/
theorem plotLoop_ok (hull : List (ℝ × ℝ) → Option (List Nat)) (proj : Projection) (useHull scatter : Bool)
    {l : List (List Col × Option (List L))} {f : List Col × Option (List L) → Call}
    (h : ∀ s ∈ l, sliceCall hull proj useHull scatter s.1 s.2 = .ok (f s)) :
    plotLoop hull proj useHull scatter l = (l.map f, none) := by
  induction l with
  | nil => rfl
  | cons s l ih =>
    obtain ⟨s, i⟩ := s
    have h1 := h (s, i) List.mem_cons_self
    have h2 := ih fun t ht => h t (List.mem_cons_of_mem _ ht)
    simp only at h1
    simp only [plotLoop, h1, h2, List.map_cons]

/-- **C124.** Without sail information and hulls, every slice gives exactly one line (or set of dots), in the order of the
slices, whose points are those of the slice, with all their repetitions and in the order of the wind angles; no slice is an
error. Without slices, one empty line is drawn. -/
theorem C124_slices (hull : List (ℝ × ℝ) → Option (List Nat)) (proj : Projection) (scatter : Bool)
    (slices : List (List Col)) :
    (plotCalls (L := L) hull proj false scatter slices none).2 = none ∧
    (slices = [] → (plotCalls (L := L) hull proj false scatter slices none).1 = [⟨false, []⟩]) ∧
    (slices ≠ [] → (plotCalls (L := L) hull proj false scatter slices none).1.length = slices.length) ∧
    ∀ (i : Nat) (s : List Col), slices[i]? = some s →
      ∃ sorted : List Col, sorted.Perm s ∧ (sorted.Pairwise fun c d => c.wa ≤ d.wa) ∧
        (plotCalls (L := L) hull proj false scatter slices none).1[i]? = some ⟨scatter, sorted.map (shown proj)⟩ := by
  by_cases h0 : slices = []
  · subst h0
    simp [plotCalls]
  · have hne : slices.length ≠ 0 := fun e => h0 (List.length_eq_zero_iff.1 e)
    have e : plotCalls (L := L) hull proj false scatter slices none =
        (slices.map fun s => ⟨scatter, (s.insertionSort fun c d => c.wa ≤ d.wa).map (shown proj)⟩, none) := by
      rw [plotCalls, if_neg hne, safeZip_none, plotLoop_ok (f := fun s =>
        ⟨scatter, (s.1.insertionSort fun c d => c.wa ≤ d.wa).map (shown proj)⟩)]
      · simp
      · intro s hs
        obtain ⟨t, _, rfl⟩ := List.mem_map.1 hs
        rfl
    rw [e]
    refine ⟨rfl, fun h => absurd h h0, fun _ => by simp, ?_⟩
    intro i s hs
    refine ⟨_, List.perm_insertionSort (fun c d => c.wa ≤ d.wa) s, ?_, by simp [hs]⟩
    have : Std.Total (fun c d : Col => c.wa ≤ d.wa) := ⟨fun c d => le_total _ _⟩
    have : IsTrans Col (fun c d => c.wa ≤ d.wa) := ⟨fun _ _ _ => le_trans⟩
    exact List.pairwise_insertionSort _ s

example : (plotCalls (L := String) (fun _ => none) .flat false true
    [[⟨10, 90, 5⟩, ⟨10, 45, 4⟩], []] none).1.length = 2 :=
  (C124_slices (fun _ => none) .flat true [[⟨10, 90, 5⟩, ⟨10, 45, 4⟩], []]).2.2.1 (by simp)

/-- Points grouped by their labels are the points. -/
theorem grouped_perm {α : Type} (f : α → L) (labels : List L) (hn : labels.Nodup) (l : List α)
    (h : ∀ a ∈ l, f a ∈ labels) : ((labels.map fun x => l.filter fun a => f a = x).flatten).Perm l := by
  induction labels generalizing l with
  | nil =>
    cases l with
    | nil => rfl
    | cons a l => exact absurd (h a List.mem_cons_self) List.not_mem_nil
  | cons x labels ih =>
    obtain ⟨hx, hn⟩ := List.nodup_cons.1 hn
    have e : (labels.map fun y => l.filter fun a => f a = y) =
        labels.map fun y => (l.filter fun a => ¬ f a = x).filter fun a => f a = y := by
      apply List.map_congr_left
      intro y hy
      rw [List.filter_filter]
      apply List.filter_congr
      intro a _
      by_cases e : f a = y
      · have : y ≠ x := fun e' => hx (e' ▸ hy)
        simp [e, this]
      · simp [e]
    rw [List.map_cons, List.flatten_cons, e]
    have := ih hn (l.filter fun a => ¬ f a = x) (fun a ha => by
      have h1 := List.mem_filter.1 ha
      have h2 := h a h1.1
      simp only [decide_not, Bool.not_eq_true', decide_eq_false_iff_not] at h1
      rcases List.mem_cons.1 h2 with h3 | h3
      · exact absurd h3 h1.2
      · exact h3)
    refine (this.append_left _).trans ?_
    simpa using List.filter_append_perm (fun a => decide (f a = x)) l

theorem separated_points {α : Type} (ls : List (List α)) : (separated ls).filterMap id = ls.flatten := by
  induction ls with
  | nil => rfl
  | cons s rest ih =>
    cases rest with
    | nil => simp [separated, List.filterMap_map]
    | cons t rest =>
      rw [separated, List.filterMap_append, List.filterMap_append, ih]
      · simp [List.filterMap_map]
      · simp

theorem separated_gaps {α : Type} (ls : List (List α)) :
    ((separated ls).filter Option.isNone).length = ls.length - 1 := by
  have key : ∀ s : List α, (s.map some).filter Option.isNone = [] := by
    intro s; simp [List.filter_eq_nil_iff]
  induction ls with
  | nil => rfl
  | cons s rest ih =>
    cases rest with
    | nil => simp [separated, key]
    | cons t rest =>
      rw [separated, List.filter_append, List.filter_append, key, List.nil_append, List.length_append, ih]
      · simp; omega
      · simp

/-- **C124.** With sail information, one entry for every point of a slice, the points of the line are still those of the
slice, with all their repetitions, and apart from them there are only gaps: one less than the number of sails. -/
theorem C124_info (hull : List (ℝ × ℝ) → Option (List Nat)) (proj : Projection) (scatter : Bool) (s : List Col) (info : List L)
    (h : info.length = s.length) :
    ∃ c : Call, sliceCall hull proj false scatter s (some info) = .ok c ∧ c.scatter = scatter ∧
      (c.points.filter fun p => p ≠ (none, none)).Perm (s.map (shown proj)) ∧
      ∀ sails : List L, sails.Nodup → (∀ l, l ∈ sails ↔ l ∈ info) →
        (c.points.filter fun p => p = (none, none)).length = sails.length - 1 := by
  set pts := (s.insertionSort fun c d => c.wa ≤ d.wa).map fun c => (proj.angle c.wa, c.bsp) with hpts
  have hlen : pts.length = info.length := by rw [hpts]; simp [h]
  obtain ⟨labels, hn, hm, hmerge⟩ := merge_intervals pts info hlen
  refine ⟨⟨scatter, (separated (labels.map (labelled pts info))).map fun p => (p.map Prod.fst, p.map Prod.snd)⟩,
    ?_, rfl, ?_, ?_⟩
  · rw [sliceCall]
    simp only [Bool.false_eq_true, if_false]
    rw [← hpts, hmerge]
  · have e : ∀ l : List (Option (ℝ × ℝ)), ((l.map fun p => (p.map Prod.fst, p.map Prod.snd)).filter
        fun p : Option ℝ × Option ℝ => p ≠ (none, none)) = (l.filterMap id).map fun p => (some p.1, some p.2) := by
      intro l
      induction l with
      | nil => rfl
      | cons a l ih =>
        cases a with
        | none => simpa using ih
        | some a => simpa using ih
    simp only
    rw [e, separated_points]
    have h1 : ((labels.map (labelled pts info)).flatten).Perm pts := by
      have h2 := grouped_perm (Prod.snd : (ℝ × ℝ) × L → L) labels hn (pts.zip info)
        (fun a ha => (hm _).2 (List.of_mem_zip (a := a.1) (b := a.2) ha).2)
      have h3 := h2.map Prod.fst
      rw [List.map_fst_zip (by omega)] at h3
      rw [List.map_flatten, List.map_map] at h3
      exact h3
    refine (h1.map _).trans ?_
    rw [hpts, List.map_map]
    exact (List.perm_insertionSort _ s).map _
  · intro sails hs hsm
    have e : ∀ l : List (Option (ℝ × ℝ)), ((l.map fun p => (p.map Prod.fst, p.map Prod.snd)).filter
        fun p : Option ℝ × Option ℝ => p = (none, none)).length = (l.filter Option.isNone).length := by
      intro l
      induction l with
      | nil => rfl
      | cons a l ih =>
        cases a with
        | none => simpa using ih
        | some a => simpa using ih
    simp only
    rw [e, separated_gaps, List.length_map]
    have : labels.Perm sails := (List.perm_ext_iff_of_nodup hn hs).2 fun a => (hm a).trans (hsm a).symm
    rw [this.length_eq]

example : ∃ c : Call, sliceCall (fun _ => none) .polar false false [⟨10, 90, 5⟩, ⟨10, 45, 4⟩, ⟨10, 120, 6⟩]
    (some ["jib", "jib", "spi"]) = .ok c ∧ (c.points.filter fun p => p = (none, none)).length = 1 := by
  obtain ⟨c, h, _, _, hg⟩ := C124_info (fun _ => none) .polar false [⟨10, 90, 5⟩, ⟨10, 45, 4⟩, ⟨10, 120, 6⟩]
    ["jib", "jib", "spi"] rfl
  exact ⟨c, h, hg ["jib", "spi"] (by decide) (by intro l; simp)⟩

/-- **C124.** The same for whole plots: one call for every slice, in the order of the slices, and no error. -/
theorem C124_info_calls (hull : List (ℝ × ℝ) → Option (List Nat)) (proj : Projection) (scatter : Bool)
    (slices : List (List Col)) (info : List (List L)) (hne : slices ≠ []) (hl : info.length = slices.length)
    (h : ∀ (i : Nat) (s : List Col) (l : List L), slices[i]? = some s → info[i]? = some l → l.length = s.length) :
    (plotCalls hull proj false scatter slices (some info)).2 = none ∧
    (plotCalls hull proj false scatter slices (some info)).1.length = slices.length ∧
    ∀ (i : Nat) (s : List Col), slices[i]? = some s →
      ∃ c : Call, (plotCalls hull proj false scatter slices (some info)).1[i]? = some c ∧ c.scatter = scatter ∧
        (c.points.filter fun p => p ≠ (none, none)).Perm (s.map (shown proj)) := by
  have hz : slices.length ≠ 0 := fun e => hne (List.length_eq_zero_iff.1 e)
  have key : ∀ t ∈ safeZip slices (some info), ∃ c : Call, sliceCall hull proj false scatter t.1 t.2 = .ok c ∧
      c.scatter = scatter ∧ (c.points.filter fun p => p ≠ (none, none)).Perm (t.1.map (shown proj)) := by
    intro t ht
    obtain ⟨i, hi⟩ := List.mem_iff_getElem?.1 ht
    simp only [safeZip, List.getElem?_zip_eq_some, List.getElem?_map, Option.map_eq_some_iff] at hi
    obtain ⟨h1, l, h2, h3⟩ := hi
    obtain ⟨c, hc, hs, hp, _⟩ := C124_info hull proj scatter t.1 l (h i _ l h1 h2)
    exact ⟨c, by rw [← h3]; exact hc, hs, hp⟩
  have : Nonempty Call := ⟨⟨false, []⟩⟩
  choose! f hf using key
  have e : plotCalls hull proj false scatter slices (some info) = ((safeZip slices (some info)).map f, none) := by
    rw [plotCalls, if_neg hz]
    exact plotLoop_ok hull proj false scatter fun t ht => (hf t ht).1
  rw [e]
  refine ⟨rfl, by simp [safeZip, hl], ?_⟩
  intro i s hs
  have hi : i < info.length := by
    rw [hl]
    exact (List.getElem?_eq_some_iff.1 hs).1
  have ht : (safeZip slices (some info))[i]? = some (s, some info[i]) := by
    simp [safeZip, List.getElem?_zip_eq_some, hs, hi]
  have := hf _ (List.mem_of_getElem? ht)
  exact ⟨f (s, some info[i]), by simp [ht], this.2.1, this.2.2⟩

example : (plotCalls (fun _ => none) .polar false false [[⟨10, 90, 5⟩, ⟨10, 45, 4⟩], [⟨12, 60, 7⟩]]
    (some [["jib", "spi"], ["jib"]])).2 = none :=
  (C124_info_calls (fun _ => none) .polar false [[⟨10, 90, 5⟩, ⟨10, 45, 4⟩], [⟨12, 60, 7⟩]] [["jib", "spi"], ["jib"]]
    (by simp) rfl (by
      intro i s l h1 h2
      match i with
      | 0 => simp_all; rw [← h1, ← h2]; rfl
      | 1 => simp_all; rw [← h1, ← h2]; rfl
      | i + 2 => simp at h1)).1

/-- **C124.** More information than points is reported: `IndexError`, and nothing is drawn for the slice. -/
theorem C124_info_long (hull : List (ℝ × ℝ) → Option (List Nat)) (proj : Projection) (scatter : Bool) (s : List Col)
    (info : List L) (h : s.length < info.length) :
    sliceCall hull proj false scatter s (some info) = .error .indexError := by
  set pts := (s.insertionSort fun c d => c.wa ≤ d.wa).map fun c => (proj.angle c.wa, c.bsp) with hpts
  have hlen : pts.length = s.length := by rw [hpts]; simp
  have hpick : ∀ (is : List Nat), (∃ i ∈ is, pts.length ≤ i) → pick pts is = .error .indexError := by
    intro is
    induction is with
    | nil => rintro ⟨i, hi, _⟩; simp at hi
    | cons i is ih =>
      rintro ⟨j, hj, hle⟩
      rw [pick]
      by_cases hi : pts.length ≤ i
      · rw [List.getElem?_eq_none hi]
      · have hi' : i < pts.length := by omega
        rw [List.getElem?_eq_getElem hi']
        rcases List.mem_cons.1 hj with rfl | hj
        · exact absurd hle hi
        · simp only [ih ⟨j, hj, hle⟩]
  have herr : ∀ (is : List Nat) e, pick pts is = .error e → e = .indexError := by
    intro is
    induction is with
    | nil => intro e he; simp [pick] at he
    | cons i is ih =>
      intro e he
      rw [pick] at he
      cases hi : pts[i]? with
      | none => simp only [hi, Except.error.injEq] at he; exact he.symm
      | some x =>
        simp only [hi] at he
        cases hp : pick pts is with
        | error e' =>
          simp only [hp, Except.error.injEq] at he
          exact he ▸ ih e' hp
        | ok xs => simp [hp] at he
  have hall : ∀ iss : List (List Nat), (∃ is ∈ iss, ∃ i ∈ is, pts.length ≤ i) →
      pickAll pts iss = .error .indexError := by
    intro iss
    induction iss with
    | nil => rintro ⟨is, hi, _⟩; simp at hi
    | cons is iss ih =>
      rintro ⟨js, hj, hex⟩
      rw [pickAll]
      cases hp : pick pts is with
      | error e => simp only [herr is e hp]
      | ok xs =>
        rcases List.mem_cons.1 hj with rfl | hj
        · rw [hpick js hex] at hp; simp at hp
        · simp only [ih ⟨js, hj, hex⟩]
  obtain ⟨h1, h2, h3⟩ := foldl_addIndex info
  have hlast : ∃ is ∈ infoIntervals info, ∃ i ∈ is, pts.length ≤ i := by
    have hi : info.length - 1 < info.length := by omega
    have hm : info[info.length - 1] ∈ Dict.keys (info.zipIdx.foldl addIndex []) := (h2 _).2 (List.getElem_mem hi)
    obtain ⟨is, his⟩ := (Dict.mem_keys_iff _ _).1 hm
    refine ⟨is, ?_, info.length - 1, ?_, by omega⟩
    · rw [infoIntervals]
      exact List.mem_map.2 ⟨(_, is), Dict.mem_of_get? his, rfl⟩
    · rw [h3 _ is his, positions]
      refine List.mem_map.2 ⟨(info[info.length - 1], info.length - 1), List.mem_filter.2 ⟨?_, by simp⟩, rfl⟩
      rw [List.mem_zipIdx_iff_getElem?]
      simp [hi]
  have hne : (infoIntervals info).length ≠ 0 := by
    obtain ⟨is, hm, _⟩ := hlast
    intro e
    rw [List.length_eq_zero_iff.1 e] at hm
    simp at hm
  rw [sliceCall]
  simp only [Bool.false_eq_true, if_false]
  rw [← hpts, merge, if_neg hne, hall _ hlast]
  rfl

example : sliceCall (fun _ => none) .flat false false [⟨10, 90, 5⟩] (some ["jib", "spi"]) = .error .indexError :=
  C124_info_long _ _ _ _ _ (by simp)

/-- Calls up to the first slice which cannot be drawn. -/
theorem plotLoop_error (hull : List (ℝ × ℝ) → Option (List Nat)) (proj : Projection) (useHull scatter : Bool)
    {l after : List (List Col × Option (List L))} {f : List Col × Option (List L) → Call} {s : List Col}
    {i : Option (List L)} {e : PyErr} (h : ∀ s ∈ l, sliceCall hull proj useHull scatter s.1 s.2 = .ok (f s))
    (hs : sliceCall hull proj useHull scatter s i = .error e) :
    plotLoop hull proj useHull scatter (l ++ (s, i) :: after) = (l.map f, some e) := by
  induction l with
  | nil => simp only [List.nil_append, plotLoop, hs, List.map_nil]
  | cons t l ih =>
    obtain ⟨t, j⟩ := t
    have h1 := h (t, j) List.mem_cons_self
    have h2 := ih fun t ht => h t (List.mem_cons_of_mem _ ht)
    simp only at h1
    simp only [List.cons_append, plotLoop, h1, h2, List.map_cons]

/-- **C124.** The same for whole plots: if a slice has more information than points and those before it have one entry for
every point, `IndexError` is raised and exactly the slices before it have been drawn. -/
theorem C124_info_error (hull : List (ℝ × ℝ) → Option (List Nat)) (proj : Projection) (scatter : Bool)
    (before after : List (List Col)) (s : List Col) (info info' : List (List L)) (l : List L)
    (hl : info.length = before.length) (hs : s.length < l.length)
    (h : ∀ (i : Nat) (s : List Col) (l : List L), before[i]? = some s → info[i]? = some l → l.length = s.length) :
    plotCalls hull proj false scatter (before ++ s :: after) (some (info ++ l :: info')) =
      (if before = [] then [] else (plotCalls hull proj false scatter before (some info)).1, some .indexError) := by
  have key : ∀ t ∈ safeZip before (some info), ∃ c : Call, sliceCall hull proj false scatter t.1 t.2 = .ok c := by
    intro t ht
    obtain ⟨i, hi⟩ := List.mem_iff_getElem?.1 ht
    simp only [safeZip, List.getElem?_zip_eq_some, List.getElem?_map, Option.map_eq_some_iff] at hi
    obtain ⟨h1, m, h2, h3⟩ := hi
    obtain ⟨c, hc, -⟩ := C124_info hull proj scatter t.1 m (h i _ m h1 h2)
    exact ⟨c, by rw [← h3]; exact hc⟩
  have : Nonempty Call := ⟨⟨false, []⟩⟩
  choose! f hf using key
  have hz : safeZip (before ++ s :: after) (some (info ++ l :: info')) =
      safeZip before (some info) ++ (s, some l) :: safeZip after (some info') := by
    simp [safeZip, List.zip_append, hl]
  have hne : ¬ (before ++ s :: after).length = 0 := by simp
  rw [plotCalls, if_neg hne, hz, plotLoop_error hull proj false scatter hf (C124_info_long hull proj scatter s l hs)]
  congr 1
  by_cases hb : before = []
  · subst hb
    simp [safeZip]
  · have hb' : ¬ before.length = 0 := fun e => hb (List.length_eq_zero_iff.1 e)
    rw [if_neg hb, plotCalls, if_neg hb', plotLoop_ok hull proj false scatter hf]

/-- Two sails given for one point: the slice before is drawn, the slice after is not. -/
example : (plotCalls (fun _ => none) .polar false false [[⟨10, 90, 5⟩], [⟨12, 60, 7⟩], [⟨14, 60, 7⟩]]
    (some [["jib"], ["jib", "spi"], ["jib"]])).2 = some .indexError :=
  congrArg Prod.snd (C124_info_error (fun _ => none) .polar false [[⟨10, 90, 5⟩]] [[⟨14, 60, 7⟩]] [⟨12, 60, 7⟩] [["jib"]] [["jib"]]
    ["jib", "spi"] rfl (by simp) (by
      intro i s l h1 h2
      match i with
      | 0 => simp_all; rw [← h1, ← h2]; rfl
      | i + 1 => simp at h1))

/-- The angles of a call in degrees converted to radians. -/
noncomputable def Call.toRadians (c : Call) : Call := ⟨c.scatter, c.points.map fun p => (p.1.map deg2rad, p.2)⟩

theorem pick_map {α β : Type} (f : α → β) (l : List α) (is : List Nat) :
    pick (l.map f) is = (pick l is).map (List.map f) := by
  induction is with
  | nil => rfl
  | cons i is ih =>
    simp only [pick, List.getElem?_map, ih]
    cases l[i]? with
    | none => rfl
    | some x =>
      simp only [Option.map_some]
      cases pick l is <;> rfl

theorem pickAll_map {α β : Type} (f : α → β) (l : List α) (iss : List (List Nat)) :
    pickAll (l.map f) iss = (pickAll l iss).map (List.map (Option.map f)) := by
  induction iss with
  | nil => rfl
  | cons is iss ih =>
    simp only [pickAll, pick_map, ih]
    cases pick l is with
    | error e => rfl
    | ok xs =>
      simp only [Except.map]
      cases pickAll l iss with
      | error e => rfl
      | ok ys => simp [Except.map]

theorem merge_map {α β : Type} (f : α → β) (l : List α) (iss : List (List Nat)) :
    merge (l.map f) iss = (merge l iss).map (List.map (Option.map f)) := by
  unfold merge
  split
  · rfl
  · rw [pickAll_map]
    cases pickAll l iss with
    | error e => rfl
    | ok xs => simp [Except.map, List.map_dropLast]

theorem sliceCall_polar (hull : List (ℝ × ℝ) → Option (List Nat)) (useHull scatter : Bool) (s : List Col)
    (info : Option (List L)) :
    sliceCall hull .polar useHull scatter s info = (sliceCall hull .flat useHull scatter s info).map Call.toRadians := by
  unfold sliceCall
  simp only
  split
  · cases convexSlice hull ((s.insertionSort fun c d => c.wa ≤ d.wa).map fun c => (c, ())) with
    | error e => rfl
    | ok r => simp [Except.map, Call.toRadians, Projection.angle]
  · cases info with
    | none => simp [Except.map, Call.toRadians, Projection.angle]
    | some l =>
      simp only
      have e : ((s.insertionSort fun c d => c.wa ≤ d.wa).map fun c => (Projection.polar.angle c.wa, c.bsp)) =
          ((s.insertionSort fun c d => c.wa ≤ d.wa).map fun c => (Projection.flat.angle c.wa, c.bsp)).map
            fun p => (deg2rad p.1, p.2) := by
        simp [Projection.angle]
      rw [e, merge_map]
      cases merge ((s.insertionSort fun c d => c.wa ≤ d.wa).map fun c => (Projection.flat.angle c.wa, c.bsp))
          (infoIntervals l) with
      | error e => rfl
      | ok r =>
        simp only [Except.map, Call.toRadians, List.map_map, Except.ok.injEq, Call.mk.injEq, true_and]
        apply List.map_congr_left
        intro p _
        cases p <;> rfl

theorem sliceCall_scatter (hull : List (ℝ × ℝ) → Option (List Nat)) (proj : Projection) (useHull b : Bool) (s : List Col)
    (info : Option (List L)) :
    sliceCall hull proj useHull b s info = (sliceCall hull proj useHull false s info).map fun c => ⟨b, c.points⟩ := by
  unfold sliceCall
  simp only
  split
  · cases convexSlice hull ((s.insertionSort fun c d => c.wa ≤ d.wa).map fun c => (c, ())) <;> rfl
  · cases info with
    | none => rfl
    | some l =>
      simp only
      cases merge ((s.insertionSort fun c d => c.wa ≤ d.wa).map fun c => (proj.angle c.wa, c.bsp)) (infoIntervals l) <;> rfl

/-- Loops whose steps correspond. -/
theorem plotLoop_map (hull : List (ℝ × ℝ) → Option (List Nat)) (proj proj' : Projection) (useHull b b' : Bool)
    (f : Call → Call) (h : ∀ (s : List Col) (i : Option (List L)), sliceCall hull proj useHull b s i =
      (sliceCall hull proj' useHull b' s i).map f) (l : List (List Col × Option (List L))) :
    plotLoop hull proj useHull b l = ((plotLoop hull proj' useHull b' l).1.map f, (plotLoop hull proj' useHull b' l).2) := by
  induction l with
  | nil => rfl
  | cons s l ih =>
    obtain ⟨s, i⟩ := s
    simp only [plotLoop, h, ih]
    cases sliceCall hull proj' useHull b' s i <;> rfl

/-- **C124.** The polar plot and the flat plot of the same slices show the same points: the same calls and the same errors,
only the angles are in radians instead of degrees. This includes convex hulls and sail information. -/
theorem C124_polar_flat (hull : List (ℝ × ℝ) → Option (List Nat)) (useHull scatter : Bool) (slices : List (List Col))
    (info : Option (List (List L))) :
    plotCalls hull .polar useHull scatter slices info =
      ((plotCalls hull .flat useHull scatter slices info).1.map Call.toRadians,
        (plotCalls hull .flat useHull scatter slices info).2) := by
  unfold plotCalls
  split
  · rfl
  · exact plotLoop_map _ _ _ _ _ _ _ (fun s i => sliceCall_polar _ _ _ s i) _

/-- **C124.** `scatter` draws the dots which `plot` connects: for at least one slice, the same points slice by slice and the
same errors. -/
theorem C124_scatter (hull : List (ℝ × ℝ) → Option (List Nat)) (proj : Projection) (useHull : Bool)
    (slices : List (List Col)) (info : Option (List (List L))) (h : slices ≠ []) :
    (plotCalls hull proj useHull true slices info).1.map Call.points =
      (plotCalls hull proj useHull false slices info).1.map Call.points ∧
    (plotCalls hull proj useHull true slices info).2 = (plotCalls hull proj useHull false slices info).2 ∧
    (∀ c ∈ (plotCalls hull proj useHull true slices info).1, c.scatter = true) := by
  have hne : slices.length ≠ 0 := fun e => h (List.length_eq_zero_iff.1 e)
  unfold plotCalls
  rw [if_neg hne, if_neg hne, plotLoop_map hull proj proj useHull true false _
    (fun s i => sliceCall_scatter hull proj useHull true s i)]
  refine ⟨by simp, rfl, ?_⟩
  intro c hc
  obtain ⟨d, _, rfl⟩ := List.mem_map.1 hc
  rfl

example : (plotCalls (L := String) (fun _ => none) .polar false true [[⟨10, 90, 5⟩]] none).1.map Call.points =
    (plotCalls (L := String) (fun _ => none) .polar false false [[⟨10, 90, 5⟩]] none).1.map Call.points :=
  (C124_scatter (fun _ => none) .polar false [[⟨10, 90, 5⟩]] none (by simp)).1

/-- **C124.** The colour gradient plot shows every point at its wind speed and wind angle, in order. If the boat speeds are
not all equal, a point gets the mixture of the two colours whose weight is its boat speed between the slowest and the
fastest. -/
theorem C124_gradient {a b : List ℝ} {points : List Col} {lo hi : ℝ} (hlo : lo ∈ points.map fun c => c.bsp)
    (hhi : hi ∈ points.map fun c => c.bsp) (hb : ∀ c ∈ points, lo ≤ c.bsp ∧ c.bsp ≤ hi) (hlt : lo < hi) :
    gradientScatter a b points = .ok (points.map fun c =>
      ((c.ws, c.wa), some (List.zipWith (fun x y => x + (c.bsp - lo) / (hi - lo) * (y - x)) a b))) := by
  have hne : points.length ≠ 0 := by
    intro e
    rw [List.length_eq_zero_iff.1 e] at hlo
    simp at hlo
  have h1 : (points.map fun c => c.bsp).min? = some lo := by
    rw [List.min?_eq_some_iff]
    refine ⟨hlo, fun x hx => ?_⟩
    obtain ⟨c, hc, rfl⟩ := List.mem_map.1 hx
    exact (hb c hc).1
  have h2 : (points.map fun c => c.bsp).max? = some hi := by
    rw [List.max?_eq_some_iff]
    refine ⟨hhi, fun x hx => ?_⟩
    obtain ⟨c, hc, rfl⟩ := List.mem_map.1 hx
    exact (hb c hc).2
  have hpos : hi - lo ≠ 0 := sub_ne_zero.2 hlt.ne'
  rw [gradientScatter, if_neg hne]
  simp only [coefficients, h1, h2, if_neg hpos, List.map_map]
  rw [List.zipWith_map_right, List.zipWith_self]
  congr 1
  apply List.map_congr_left
  intro c _
  simp only [Function.comp, Option.map_some, mixColor, Prod.mk.injEq, Option.some.injEq, true_and]
  congr 1
  funext x y
  ring

example : gradientScatter [0, 0, 1] [1, 0, 0] [⟨10, 45, 4⟩, ⟨10, 90, 6⟩] = .ok
    ([⟨10, 45, 4⟩, ⟨10, 90, 6⟩].map fun c : Col => ((c.ws, c.wa), some (List.zipWith
      (fun x y => x + (c.bsp - 4) / (6 - 4) * (y - x)) [0, 0, 1] [1, 0, 0]))) :=
  C124_gradient (by simp) (by simp) (by
    intro c hc
    simp only [List.mem_cons, List.not_mem_nil, or_false] at hc
    rcases hc with rfl | rfl <;> norm_num) (by norm_num)

/-- **C124.** In the three-dimensional plot a point is above the place of the polar plot: at distance `bsp` from the axis
(for boat speeds that are not negative), at its wind angle clockwise from the top and at the height of its wind speed. -/
theorem C124_3d (points : List Col) (i : Nat) (c : Col) (h : points[i]? = some c) :
    ∃ x y z v : ℝ, (scatter3d points)[i]? = some ((x, y, z), v) ∧ x ^ 2 + y ^ 2 = c.bsp ^ 2 ∧ z = c.ws ∧ v = c.ws ∧
      x = c.bsp * Real.sin (c.wa * Real.pi / 180) ∧ y = c.bsp * Real.cos (c.wa * Real.pi / 180) := by
  have e : deg2rad c.wa = c.wa * Real.pi / 180 := by unfold deg2rad; ring
  refine ⟨_, _, _, _, ?_, ?_, rfl, rfl, rfl, rfl⟩
  · simp [scatter3d, h, surfacePoint, e]
  · have := Real.sin_sq_add_cos_sq (c.wa * Real.pi / 180)
    linear_combination c.bsp ^ 2 * this

end Verif.Plot
