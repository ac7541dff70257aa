import Verif.Props.Pipeline

set_option linter.unusedSectionVars false

/-! # C77: what the pipeline computes -/

namespace Verif.Pipeline

variable {S I D W K G σ : Type}

/-- A component that computes a function, does not raise, and leaves the state alone. -/
structure Computes {α β : Type} (c : Comp S α β σ) (f : α → β) : Prop where
  run : ∀ x s, c.run x s = .ok (f x, s)
  latest : ∀ s, ∃ st, c.latest s = .ok (st, s)

/-- The functions computed by the components and by the operations on data; the influence model may store what it
learned in the state. -/
structure Steps (S I D W K G : Type) where
  handle : I → D
  impute : D → D
  smooth : D → D
  weigh1 : D → W
  filter1 : W → K
  expand : D → D
  weigh2 : D → W
  filter2 : W → K
  fit : D → S → S
  remove : S → D → D
  weigh3 : D → W
  filter3 : W → K
  inject : D × W → D × W
  extension : D × W → G
  concat : List D → D
  append : D × W → D × W → D × W
  select : D × W → K → D × W

/-- The components and operations compute these functions. -/
structure Behaves (ops : Ops D W K σ) (c : Components S I D W K G σ) (st : Steps S I D W K G) : Prop where
  handler : ∃ h, c.dataHandler = .single h ∧ Computes h st.handle
  imputator : Computes c.imputator st.impute
  smoother : Computes c.smoother st.smooth
  weigher1 : Computes c.preExpanderWeigher st.weigh1
  filter1 : Computes c.preExpanderFilter st.filter1
  expander : Computes c.expander st.expand
  weigher2 : Computes c.preInfluenceWeigher st.weigh2
  filter2 : Computes c.preInfluenceFilter st.filter2
  fit : ∀ d s, c.fit d s = .ok ((), st.fit d s)
  remove : ∀ d s, c.removeInfluence.run d s = .ok (st.remove s d, s)
  removeLatest : ∀ s, ∃ x, c.removeInfluence.latest s = .ok (x, s)
  weigher3 : Computes c.postWeigher st.weigh3
  filter3 : Computes c.postFilter st.filter3
  injector : Computes c.injector st.inject
  extension : Computes c.extension st.extension
  weighted : ∀ d w, ops.weighted d w = .ok (d, w)
  concat : ∀ l, ops.concat l = .ok (st.concat l)
  append : ∀ p q, ops.extend p q = .ok (st.append p q)
  select : ∀ p k, ops.select p k = .ok (st.select p k)

/-- What should be left of data after weighing and filtering. -/
def clean (ops : Ops D W K σ) (select : D × W → K → D × W) (weigh : D → W) (filt : W → K) (weighing filtering : Bool)
    (d : D) : D × W :=
  if ops.isEmpty d then (d, ops.noWeights)
  else
    let w := if weighing then weigh d else (ops.allOne d).1
    if filtering then select (d, w) (filt w) else (d, w)

/-- The data that should reach the influence model. -/
def measured (ops : Ops D W K σ) (st : Steps S I D W K G) (fl : Flags) (inputs : List I) : D :=
  let smooth := if fl.smoothing then st.smooth else id
  st.concat (inputs.map fun i =>
    (clean ops st.select st.weigh2 st.filter2 fl.preInfluenceWeighing fl.preInfluenceFiltering
      (st.expand (clean ops st.select st.weigh1 st.filter1 fl.preExpanderWeighing fl.preExpanderFiltering
        (smooth (st.impute (st.handle i)))).1)).1)

/-- The points that should reach the extension (before injecting) or the quality assurance. -/
def corrected (ops : Ops D W K σ) (st : Steps S I D W K G) (fl : Flags) (s : S) (d : D) : D × W :=
  clean ops st.select st.weigh3 st.filter3 fl.postWeighing fl.postFiltering (st.remove s d)

theorem Computes.collect {α β : Type} {c : Comp S α β σ} {f : α → β} (h : Computes c f) (x : α) (s : S) :
    ∃ st, Pipeline.collect c x s = .ok ((f x, st), s) := by
  obtain ⟨st, hst⟩ := h.latest s
  refine ⟨st, ?_⟩
  unfold Pipeline.collect
  rw [bind_eq (h.run x s), bind_eq hst]
  rfl

/-- Applying a computation to every entry of a list. -/
theorem mapM_computes {α β τ : Type} {f : α → M S (β × τ)} {g : α → β} (h : ∀ a s, ∃ st, f a s = .ok ((g a, st), s))
    (l : List α) (s : S) : ∃ out, l.mapM f s = .ok (out, s) ∧ out.map (·.1) = l.map g := by
  induction l with
  | nil => exact ⟨[], rfl, rfl⟩
  | cons a t ih =>
    obtain ⟨st, ha⟩ := h a s
    obtain ⟨out, ho, hm⟩ := ih
    refine ⟨(g a, st) :: out, ?_, by simp [hm]⟩
    rw [List.mapM_cons, bind_eq ha, bind_eq ho]
    rfl

theorem listStats_computes {α : Type} {out : List (α × σ)} {l : List α} (h : out.map (·.1) = l) (hne : l ≠ []) (s : S) :
    ∃ st, listStats out s = .ok ((l, st), s) := by
  have : out.isEmpty = false := by
    cases out with
    | nil => exact absurd h.symm hne
    | cons => rfl
  refine ⟨.fields (out.map (·.2)), ?_⟩
  unfold listStats
  rw [this, h]
  rfl

theorem listStats₂_computes {α : Type} {out : List (α × σ × σ)} {l : List α} (h : out.map (·.1) = l) (hne : l ≠ [])
    (s : S) : ∃ st, listStats₂ out s = .ok ((l, st), s) := by
  have : out.isEmpty = false := by
    cases out with
    | nil => exact absurd h.symm hne
    | cons => rfl
  refine ⟨(.fields (out.map (·.2.1)), .fields (out.map (·.2.2))), ?_⟩
  unfold listStats₂
  rw [this, h]
  rfl

theorem lift_ok {α : Type} {x : Except PyErr α} {a : α} (h : x = .ok a) (s : S) : (liftM x : M S α) s = .ok (a, s) := by
  subst h; rfl

theorem weighAndFilter_computes {ops : Ops D W K σ} {w : Comp S D W σ} {f : Comp S W K σ} {weigh : D → W}
    {filt : W → K} {select : D × W → K → D × W} (hw : Computes w weigh) (hf : Computes f filt)
    (hweighted : ∀ d w, ops.weighted d w = .ok (d, w)) (hselect : ∀ p k, ops.select p k = .ok (select p k))
    (b1 b2 : Bool) (d : D) (s : S) :
    ∃ st, weighAndFilter ops w f b1 b2 d s = .ok ((clean ops select weigh filt b1 b2 d, st), s) := by
  unfold weighAndFilter clean
  by_cases he : ops.isEmpty d = true
  · rw [if_pos he, if_pos he]; exact ⟨(ops.empty, ops.empty), rfl⟩
  · rw [if_neg he, if_neg he]
    have h1 : ∃ st, weighStep ops w b1 d s = .ok ((if b1 then weigh d else (ops.allOne d).1, st), s) := by
      unfold weighStep
      cases b1 with
      | false => exact ⟨(ops.allOne d).2, rfl⟩
      | true => exact hw.collect d s
    obtain ⟨st1, h1⟩ := h1
    have h2 : ∀ wp : D × W, ∃ st, filterStep ops f b2 wp s
        = .ok ((if b2 then select wp (filt wp.2) else wp, st), s) := by
      intro wp
      unfold filterStep
      cases b2 with
      | false => exact ⟨ops.empty, rfl⟩
      | true =>
        obtain ⟨st, hc⟩ := hf.collect wp.2 s
        refine ⟨st, ?_⟩
        rw [if_pos rfl, if_pos rfl]
        unfold filterData
        rw [bind_eq hc]
        simp only
        rw [bind_eq (lift_ok (hselect _ _) s)]
        rfl
    obtain ⟨st2, h2⟩ := h2 (d, if b1 then weigh d else (ops.allOne d).1)
    refine ⟨(st1, st2), ?_⟩
    rw [bind_eq h1]
    simp only
    rw [bind_eq (lift_ok (hweighted _ _) s), bind_eq h2]
    rfl

/-- What `_preprocess` computes. -/
theorem preprocess_computes {ops : Ops D W K σ} {c : Components S I D W K G σ} {st : Steps S I D W K G}
    (hb : Behaves ops c st) (fl : Flags) {inputs : List I} (hne : inputs ≠ []) (fitting : Bool) (s : S) :
    ∃ stats, preprocess ops c fl inputs fitting s = .ok ((corrected ops st fl
      (if fitting then st.fit (measured ops st fl inputs) s else s) (measured ops st fl inputs), stats),
      if fitting then st.fit (measured ops st fl inputs) s else s) := by
  obtain ⟨h, hh, hcomp⟩ := hb.handler
  have hmap : ∀ {α β : Type} (f : α → β) {l : List α}, l ≠ [] → l.map f ≠ [] := by
    intro α β f l hl
    simpa using hl
  -- reading
  obtain ⟨o1, e1, m1⟩ := mapM_computes (fun a s => hcomp.collect a s) inputs s
  obtain ⟨t1, l1⟩ := listStats_computes m1 (hmap _ hne) s
  have s1 : handleData c.dataHandler inputs s = .ok ((inputs.map st.handle, t1), s) := by
    rw [hh]
    unfold handleData
    simp only
    rw [bind_eq e1, l1]
  -- filling
  obtain ⟨o2, e2, m2⟩ := mapM_computes (fun a s => hb.imputator.collect a s) (inputs.map st.handle) s
  obtain ⟨t2, l2⟩ := listStats_computes m2 (hmap _ (hmap _ hne)) s
  -- smoothing
  have hsmooth : ∃ t, smoothStep c fl.smoothing ((inputs.map st.handle).map st.impute) s
      = .ok ((((inputs.map st.handle).map st.impute).map (if fl.smoothing then st.smooth else id), t), s) := by
    unfold smoothStep
    cases fl.smoothing with
    | false => refine ⟨.fields [], ?_⟩; simp; rfl
    | true =>
      obtain ⟨o, e, m⟩ := mapM_computes (fun a s => hb.smoother.collect a s) ((inputs.map st.handle).map st.impute) s
      obtain ⟨t, l⟩ := listStats_computes m (hmap _ (hmap _ (hmap _ hne))) s
      refine ⟨t, ?_⟩
      rw [if_pos rfl, if_pos rfl, bind_eq e, l]
  obtain ⟨t3, s3⟩ := hsmooth
  set a3 := ((inputs.map st.handle).map st.impute).map (if fl.smoothing then st.smooth else id) with ha3
  have hne3 : a3 ≠ [] := hmap _ (hmap _ (hmap _ hne))
  -- the first filter
  obtain ⟨o4, e4, m4⟩ := mapM_computes (fun a s => weighAndFilter_computes hb.weigher1 hb.filter1 hb.weighted hb.select
    fl.preExpanderWeighing fl.preExpanderFiltering a s) a3 s
  obtain ⟨t4, l4⟩ := listStats₂_computes m4 (hmap _ hne3) s
  set a4 := a3.map (clean ops st.select st.weigh1 st.filter1 fl.preExpanderWeighing fl.preExpanderFiltering) with ha4
  have hne4 : a4 ≠ [] := hmap _ hne3
  -- expanding
  obtain ⟨o5, e5, m5⟩ := mapM_computes (fun a s => hb.expander.collect a s) (a4.map (·.1)) s
  obtain ⟨t5, l5⟩ := listStats_computes m5 (hmap _ (hmap _ hne4)) s
  set a5 := (a4.map (·.1)).map st.expand with ha5
  have hne5 : a5 ≠ [] := hmap _ (hmap _ hne4)
  -- the second filter
  obtain ⟨o6, e6, m6⟩ := mapM_computes (fun a s => weighAndFilter_computes hb.weigher2 hb.filter2 hb.weighted hb.select
    fl.preInfluenceWeighing fl.preInfluenceFiltering a s) a5 s
  obtain ⟨t6, l6⟩ := listStats₂_computes m6 (hmap _ hne5) s
  set a6 := a5.map (clean ops st.select st.weigh2 st.filter2 fl.preInfluenceWeighing fl.preInfluenceFiltering) with ha6
  have hX : st.concat (a6.map (·.1)) = measured ops st fl inputs := by
    rw [ha6, ha5, ha4, ha3]
    unfold measured
    simp only [List.map_map]
    rfl
  have s7 := lift_ok (hb.concat (a6.map (·.1))) s
  rw [hX] at s7
  set X := measured ops st fl inputs with hXdef
  -- fitting
  set s' := if fitting then st.fit X s else s with hs'
  have hfit : ∃ t, fitStep ops c fitting X s = .ok (t, s') := by
    unfold fitStep
    cases fitting with
    | false => exact ⟨ops.empty, rfl⟩
    | true =>
      obtain ⟨t, ht⟩ := hb.removeLatest (st.fit X s)
      refine ⟨t, ?_⟩
      rw [if_pos rfl, bind_eq (hb.fit X s), ht]
      rfl
  obtain ⟨t8, s8⟩ := hfit
  obtain ⟨t9, h9⟩ := hb.removeLatest s'
  have s9 : collect c.removeInfluence X s' = .ok ((st.remove s' X, t9), s') := by
    unfold collect
    rw [bind_eq (hb.remove X s'), bind_eq h9]
    rfl
  obtain ⟨t10, s10⟩ := weighAndFilter_computes hb.weigher3 hb.filter3 hb.weighted hb.select fl.postWeighing
    fl.postFiltering (st.remove s' X) s'
  unfold preprocess
  rw [bind_eq s1]
  simp only
  rw [bind_eq e2, bind_eq l2]
  simp only
  rw [bind_eq s3]
  simp only
  rw [bind_eq e4, bind_eq l4]
  simp only
  rw [bind_eq e5, bind_eq l5]
  simp only
  rw [bind_eq e6, bind_eq l6]
  simp only
  rw [bind_eq s7, bind_eq s8, bind_eq s9]
  simp only
  rw [bind_eq s10]
  exact ⟨_, rfl⟩

/-- **C77.** The diagram is made by the extension from the points that are left after reading, imputing, smoothing,
weighing and filtering, expanding, removing the influences learned from the training data, and injecting — each step
in this order, and the optional steps exactly if they are switched on. -/
theorem C77_flow {ops : Ops D W K σ} {c : Components S I D W K G σ} {st : Steps S I D W K G}
    (hb : Behaves ops c st) (fl : Flags) {training : List I} (hne : training ≠ []) (s : S)
    (hleft : ops.isEmpty (corrected ops st fl (st.fit (measured ops st fl training) s)
      (measured ops st fl training)).1 = false) :
    let s' := st.fit (measured ops st fl training) s
    let p := corrected ops st fl s' (measured ops st fl training)
    ∃ out, execute ops c fl training none s = .ok (out, s') ∧
      out.diagram = st.extension (st.append p (if fl.injecting then st.inject p else ops.noPoints)) := by
  intro s' p
  obtain ⟨stats, hp⟩ := preprocess_computes hb fl hne true s
  simp only [if_true] at hp
  have hinj : ∃ t, injectStep ops c fl.injecting p s' = .ok ((if fl.injecting then st.inject p else ops.noPoints, t), s') := by
    unfold injectStep
    cases fl.injecting with
    | false => exact ⟨ops.empty, rfl⟩
    | true => exact hb.injector.collect p s'
  obtain ⟨t1, h1⟩ := hinj
  obtain ⟨t2, h2⟩ := hb.extension.collect (st.append p (if fl.injecting then st.inject p else ops.noPoints)) s'
  have htrain : train ops c fl training s = .ok ((st.extension (st.append p
      (if fl.injecting then st.inject p else ops.noPoints)), stats, t1, t2), s') := by
    unfold train
    rw [bind_eq hp]
    simp only
    rw [if_neg (by rw [hleft]; simp), bind_eq h1]
    simp only
    rw [bind_eq (lift_ok (hb.append _ _) s'), bind_eq h2]
    rfl
  unfold execute
  rw [bind_eq htrain]
  exact ⟨_, rfl, rfl⟩

/-- **C77.** The quality assurance sees the test data after the same steps, with the influences learned from the training
data. -/
theorem C77_test {ops : Ops D W K σ} {c : Components S I D W K G σ} {st : Steps S I D W K G}
    (hb : Behaves ops c st) (fl : Flags) (htest : fl.testing = true) {training test : List I} (hne : training ≠ [])
    (hnt : test ≠ []) (s : S)
    (hleft : ops.isEmpty (corrected ops st fl (st.fit (measured ops st fl training) s)
      (measured ops st fl training)).1 = false) {qa : σ} {s'' : S} {diagram : G}
    (hd : (execute ops c fl training none s).map (fun o => o.1.diagram) = .ok diagram)
    (hq : c.check diagram (corrected ops st fl (st.fit (measured ops st fl training) s) (measured ops st fl test)).1
      (st.fit (measured ops st fl training) s) = .ok (qa, s'')) :
    ∃ out, execute ops c fl training (some test) s = .ok (out, s'') ∧ out.diagram = diagram ∧
      out.training.qualityAssurance = .one qa := by
  obtain ⟨out, ho, hdia⟩ := C77_flow hb fl hne s hleft
  rw [ho] at hd
  simp only [Except.map, Except.ok.injEq] at hd
  have htr : ∃ a, train ops c fl training s = .ok (a, st.fit (measured ops st fl training) s) ∧ a.1 = diagram := by
    unfold execute at ho
    obtain ⟨a, s1, h1, h2⟩ := bind_ok ho
    refine ⟨a, ?_, ?_⟩
    · have hs : s1 = st.fit (measured ops st fl training) s := by cases h2; rfl
      rw [h1, hs]
    · cases h2; exact hd
  obtain ⟨a, ha, had⟩ := htr
  obtain ⟨stats, hp⟩ := preprocess_computes hb fl hnt false (st.fit (measured ops st fl training) s)
  simp only [Bool.false_eq_true, if_false] at hp
  have hts : testStep ops c fl a.1 (some test) (st.fit (measured ops st fl training) s) = .ok ((stats, qa), s'') := by
    unfold testStep
    simp only
    rw [if_pos htest, bind_eq hp]
    simp only
    rw [had, bind_eq hq]
    rfl
  unfold execute
  rw [bind_eq ha]
  obtain ⟨a1, a2, a3, a4⟩ := a
  simp only at hts had ⊢
  rw [bind_eq hts]
  exact ⟨_, rfl, had, rfl⟩

/-- A component computing a function. -/
def computing {α β : Type} (f : α → β) : Comp Nat α β Unit := ⟨fun x => pure (f x), pure ()⟩

theorem computing_spec {α β : Type} (f : α → β) : Computes (computing f) f :=
  ⟨fun _ _ => rfl, fun _ => ⟨(), rfl⟩⟩

/-- Lists of numbers as data, the numbers as weights; filters keep numbers below a bound; the influence model learns the
length of the training data and adds it. -/
def listSteps : Steps Nat Nat (List Nat) (List Nat) (List Bool) (List Nat) where
  handle n := List.range n
  impute := List.map (· + 1)
  smooth := List.map (2 * ·)
  weigh1 d := d
  filter1 := List.map (decide <| · < 7)
  expand d := d ++ d
  weigh2 d := d
  filter2 := List.map (decide <| 2 < ·)
  fit d _ := d.length
  remove s d := d.map (· + s)
  weigh3 d := d
  filter3 := List.map (decide <| · < 11)
  inject _ := ([100], [1])
  extension p := p.1
  concat := List.flatten
  append p q := (p.1 ++ q.1, p.2 ++ q.2)
  select p k := (((p.1.zip k).filter (·.2)).map (·.1), ((p.2.zip k).filter (·.2)).map (·.1))

def listOps : Ops (List Nat) (List Nat) (List Bool) Unit where
  isEmpty := List.isEmpty
  weighted d w := .ok (d, w)
  select p k := .ok (listSteps.select p k)
  concat l := .ok (listSteps.concat l)
  extend p q := .ok (listSteps.append p q)
  noPoints := ([], [])
  noWeights := []
  allOne d := (d.map fun _ => 1, ())
  empty := ()
  update _ _ := ()

def listComponents : Components Nat Nat (List Nat) (List Nat) (List Bool) (List Nat) Unit where
  dataHandler := .single (computing listSteps.handle)
  imputator := computing listSteps.impute
  smoother := computing listSteps.smooth
  preExpanderWeigher := computing listSteps.weigh1
  preExpanderFilter := computing listSteps.filter1
  expander := computing listSteps.expand
  preInfluenceWeigher := computing listSteps.weigh2
  preInfluenceFilter := computing listSteps.filter2
  fit d := set d.length
  removeInfluence := ⟨fun d s => .ok (listSteps.remove s d, s), pure ()⟩
  postWeigher := computing listSteps.weigh3
  postFilter := computing listSteps.filter3
  injector := computing listSteps.inject
  extension := computing listSteps.extension
  check _ _ := pure ()

theorem listBehaves : Behaves listOps listComponents listSteps where
  handler := ⟨_, rfl, computing_spec _⟩
  imputator := computing_spec _
  smoother := computing_spec _
  weigher1 := computing_spec _
  filter1 := computing_spec _
  expander := computing_spec _
  weigher2 := computing_spec _
  filter2 := computing_spec _
  fit _ _ := rfl
  remove _ _ := rfl
  removeLatest _ := ⟨(), rfl⟩
  weigher3 := computing_spec _
  filter3 := computing_spec _
  injector := computing_spec _
  extension := computing_spec _
  weighted _ _ := rfl
  concat _ := rfl
  append _ _ := rfl
  select _ _ := rfl

/-- The case meets the hypotheses of `C77_flow` and `C77_test`. -/
example : Behaves listOps listComponents listSteps ∧
    listOps.isEmpty (corrected listOps listSteps allOn (listSteps.fit (measured listOps listSteps allOn [2, 3]) 0)
      (measured listOps listSteps allOn [2, 3])).1 = false ∧
    ∃ out, execute listOps listComponents allOn [2, 3] (some [4]) 0 = .ok (out, 6) ∧
      out.diagram = [10, 10, 10, 10, 100] := ⟨listBehaves, by decide, _, rfl, rfl⟩

end Verif.Pipeline
