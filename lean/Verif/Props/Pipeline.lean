import Mathlib.Data.List.Basic
import Verif.Model.Pipeline

/-!
# Properties C40, C41 and C63: the pipeline
-/

set_option linter.unusedSectionVars false

namespace Verif.Pipeline

variable {S I D W K G σ : Type}

/-! ### Reasoning about computations -/

/-- Whenever the computation succeeds, the states before and after and the result are related. -/
def Ens {α : Type} (m : M S α) (R : S → α → S → Prop) : Prop := ∀ s a s', m s = .ok (a, s') → R s a s'

theorem bind_ok {α β : Type} {m : M S α} {f : α → M S β} {s : S} {b : β} {s'' : S}
    (h : (m >>= f) s = .ok (b, s'')) : ∃ a s', m s = .ok (a, s') ∧ f a s' = .ok (b, s'') := by
  have e : (m >>= f) s = (m s).bind (fun p => f p.1 p.2) := rfl
  rw [e] at h
  cases hm : m s with
  | error e => rw [hm] at h; cases h
  | ok p => rw [hm] at h; exact ⟨p.1, p.2, rfl, h⟩

theorem bind_eq {α β : Type} {m : M S α} {f : α → M S β} {s : S} {a : α} {s' : S} (h : m s = .ok (a, s')) :
    (m >>= f) s = f a s' := by
  have e : (m >>= f) s = (m s).bind (fun p => f p.1 p.2) := rfl
  rw [e, h]
  rfl

theorem Ens.bind {α β : Type} {m : M S α} {f : α → M S β} {Q : S → α → S → Prop} {R : S → β → S → Prop}
    (hm : Ens m Q) (hf : ∀ s a s', Q s a s' → ∀ b s'', f a s' = .ok (b, s'') → R s b s'') : Ens (m >>= f) R := by
  intro s b s'' h
  obtain ⟨a, s', h1, h2⟩ := bind_ok h
  exact hf s a s' (hm s a s' h1) b s'' h2

/-- What holds of the result whenever the computation succeeds. -/
def Post {α : Type} (m : M S α) (Q : α → Prop) : Prop := Ens m fun _ a _ => Q a

theorem Post.bind {α β : Type} {m : M S α} {f : α → M S β} {Q : α → Prop} {R : β → Prop} (hm : Post m Q)
    (hf : ∀ a, Q a → Post (f a) R) : Post (m >>= f) R := by
  intro s b s'' h
  obtain ⟨a, s', h1, h2⟩ := bind_ok h
  exact hf a (hm s a s' h1) s' b s'' h2

theorem Post.pure {α : Type} {a : α} {Q : α → Prop} (h : Q a) : Post (Pure.pure a : M S α) Q := by
  intro s b s' hb
  cases hb
  exact h

theorem Post.throw {α : Type} {e : PyErr} {Q : α → Prop} : Post (MonadExcept.throw e : M S α) Q := by
  intro s b s' hb
  cases hb

theorem Post.mono {α : Type} {m : M S α} {Q R : α → Prop} (h : Post m Q) (hqr : ∀ a, Q a → R a) : Post m R :=
  fun s a s' hs => hqr a (h s a s' hs)

theorem Post.any {α : Type} (m : M S α) : Post m fun _ => True := fun _ _ _ _ => trivial

theorem Post.mapM {α β : Type} {f : α → M S β} {Q : β → Prop} (h : ∀ a, Post (f a) Q) (l : List α) :
    Post (l.mapM f) fun r => r.length = l.length ∧ ∀ b ∈ r, Q b := by
  induction l with
  | nil => rw [List.mapM_nil]; exact Post.pure ⟨rfl, by simp⟩
  | cons a l ih =>
    rw [List.mapM_cons]
    refine Post.bind (h a) fun b hb => Post.bind ih fun r hr => Post.pure ⟨by simp [hr.1], ?_⟩
    intro x hx
    rcases List.mem_cons.1 hx with rfl | hx
    · exact hb
    · exact hr.2 x hx

/-- The computation does not change what `get` reads from the state. -/
def Keeps {α θ : Type} (get : S → θ) (m : M S α) : Prop := Ens m fun s _ s' => get s' = get s

section keeps

variable {θ : Type} {get : S → θ}

theorem Keeps.bind {α β : Type} {m : M S α} {f : α → M S β} (hm : Keeps get m) (hf : ∀ a, Keeps get (f a)) :
    Keeps get (m >>= f) := by
  intro s b s'' h
  obtain ⟨a, s', h1, h2⟩ := bind_ok h
  exact (hf a s' b s'' h2).trans (hm s a s' h1)

theorem Keeps.pure {α : Type} (a : α) : Keeps get (Pure.pure a : M S α) := by
  intro s b s' hb
  cases hb
  rfl

theorem Keeps.throw {α : Type} (e : PyErr) : Keeps get (MonadExcept.throw e : M S α) := by
  intro s b s' hb
  cases hb

theorem Keeps.lift {α : Type} (x : Except PyErr α) : Keeps get (liftM x : M S α) := by
  intro s b s' hb
  cases x with
  | error e => cases hb
  | ok a => cases hb; rfl

theorem Keeps.mapM {α β : Type} {f : α → M S β} (h : ∀ a, Keeps get (f a)) (l : List α) : Keeps get (l.mapM f) := by
  induction l with
  | nil => rw [List.mapM_nil]; exact Keeps.pure _
  | cons a l ih =>
    rw [List.mapM_cons]
    exact Keeps.bind (h a) fun b => Keeps.bind ih fun r => Keeps.pure _

theorem Keeps.ite {α : Type} {p : Prop} [Decidable p] {m m' : M S α} (h : Keeps get m) (h' : Keeps get m') :
    Keeps get (if p then m else m') := by split <;> assumption

/-- A component does not change what `get` reads. -/
def KeepsComp {α β : Type} (get : S → θ) (c : Comp S α β σ) : Prop := (∀ x, Keeps get (c.run x)) ∧ Keeps get c.latest

theorem KeepsComp.collect {α β : Type} {c : Comp S α β σ} (h : KeepsComp get c) (x : α) :
    Keeps get (collect c x) :=
  Keeps.bind (h.1 x) fun _ => Keeps.bind h.2 fun _ => Keeps.pure _

theorem Keeps.listStats {α : Type} (out : List (α × σ)) : Keeps get (listStats out : M S _) :=
  Keeps.ite (Keeps.throw _) (Keeps.pure _)

theorem Keeps.listStats₂ {α : Type} (out : List (α × σ × σ)) : Keeps get (listStats₂ out : M S _) :=
  Keeps.ite (Keeps.throw _) (Keeps.pure _)

theorem Keeps.weighAndFilter {ops : Ops D W K σ} {w : Comp S D W σ} {f : Comp S W K σ} (hw : KeepsComp get w)
    (hf : KeepsComp get f) (b1 b2 : Bool) (d : D) : Keeps get (weighAndFilter ops w f b1 b2 d) := by
  unfold Pipeline.weighAndFilter
  refine Keeps.ite (Keeps.pure _) ?_
  refine Keeps.bind (Keeps.ite (hw.collect d) (Keeps.pure _)) fun r => ?_
  refine Keeps.bind (Keeps.lift _) fun wp => ?_
  refine Keeps.bind (Keeps.ite ?_ (Keeps.pure _)) fun r => Keeps.pure _
  exact Keeps.bind (hf.collect _) fun m => Keeps.bind (Keeps.lift _) fun _ => Keeps.pure _

/-- No component but `fit` changes what `get` reads. -/
structure Quiet (get : S → θ) (c : Components S I D W K G σ) : Prop where
  dataHandler : match c.dataHandler with
    | .single h => KeepsComp get h
    | .list hs => ∀ h ∈ hs, KeepsComp get h
  imputator : KeepsComp get c.imputator
  smoother : KeepsComp get c.smoother
  preExpanderWeigher : KeepsComp get c.preExpanderWeigher
  preExpanderFilter : KeepsComp get c.preExpanderFilter
  expander : KeepsComp get c.expander
  preInfluenceWeigher : KeepsComp get c.preInfluenceWeigher
  preInfluenceFilter : KeepsComp get c.preInfluenceFilter
  removeInfluence : KeepsComp get c.removeInfluence
  postWeigher : KeepsComp get c.postWeigher
  postFilter : KeepsComp get c.postFilter
  check : ∀ g d, Keeps get (c.check g d)

theorem Keeps.preprocess {ops : Ops D W K σ} {c : Components S I D W K G σ} (h : Quiet get c) (fl : Flags)
    (data : List I) : Keeps get (preprocess ops c fl data false) := by
  unfold Pipeline.preprocess
  refine Keeps.bind ?_ fun r => ?_
  · unfold handleData
    have := h.dataHandler
    split
    · rename_i hc
      rw [hc] at this
      exact Keeps.bind (Keeps.mapM (fun x => KeepsComp.collect this x) _) fun _ => Keeps.listStats _
    · exact Keeps.ite (Keeps.throw _) (Keeps.throw _)
  refine Keeps.bind (Keeps.mapM h.imputator.collect _) fun _ => Keeps.bind (Keeps.listStats _) fun _ => ?_
  refine Keeps.bind (Keeps.ite (Keeps.bind (Keeps.mapM h.smoother.collect _) fun _ => Keeps.listStats _)
    (Keeps.pure _)) fun _ => ?_
  refine Keeps.bind (Keeps.mapM (Keeps.weighAndFilter h.preExpanderWeigher h.preExpanderFilter _ _) _) fun _ =>
    Keeps.bind (Keeps.listStats₂ _) fun _ => ?_
  refine Keeps.bind (Keeps.mapM h.expander.collect _) fun _ => Keeps.bind (Keeps.listStats _) fun _ => ?_
  refine Keeps.bind (Keeps.mapM (Keeps.weighAndFilter h.preInfluenceWeigher h.preInfluenceFilter _ _) _) fun _ =>
    Keeps.bind (Keeps.listStats₂ _) fun _ => ?_
  refine Keeps.bind (Keeps.lift _) fun _ => Keeps.bind (Keeps.pure _) fun _ => ?_
  refine Keeps.bind (h.removeInfluence.collect _) fun _ => ?_
  exact Keeps.bind (Keeps.weighAndFilter h.postWeigher h.postFilter _ _ _) fun _ => Keeps.pure _

end keeps

/-! ### C40 -/

/-- **C40.** Running the pipeline with test data gives the same diagram and, except for the quality assurance, the same
training statistics as running it without test data, for all components. -/
theorem C40_test_data (ops : Ops D W K σ) (c : Components S I D W K G σ) (fl : Flags) (training : List I)
    (test : Option (List I)) {s s' : S} {out : Output G σ} (h : execute ops c fl training test s = .ok (out, s')) :
    ∃ out₀ s₀, execute ops c fl training none s = .ok (out₀, s₀) ∧ out₀.diagram = out.diagram ∧
      { out.training with qualityAssurance := out₀.training.qualityAssurance } = out₀.training := by
  unfold execute at h
  obtain ⟨⟨g, pp, i, e⟩, s₀, h1, h2⟩ := bind_ok h
  obtain ⟨⟨t, q⟩, s₁, h3, h4⟩ := bind_ok h2
  cases h4
  refine ⟨⟨g, ⟨pp.dataHandler, pp.imputator, pp.smoother, pp.preExpandingWeigher, pp.preInfluenceFilter, pp.expander,
    pp.preInfluenceWeigher, pp.preInfluenceFilter, pp.influenceModel, pp.postWeigher, pp.postFilter, .one i, .one e,
    .one ops.empty⟩, emptyStatistics ops⟩, s₀, ?_, rfl, rfl⟩
  unfold execute
  rw [bind_eq h1]
  rfl

/-- **C40.** If the pipeline raises an exception without test data then it raises the same exception with test data. -/
theorem C40_raises (ops : Ops D W K σ) (c : Components S I D W K G σ) (fl : Flags) (training : List I)
    (test : Option (List I)) {s : S} {e : PyErr} (h : execute ops c fl training none s = .error e) :
    execute ops c fl training test s = .error e := by
  unfold execute at h ⊢
  cases hm : train ops c fl training s with
  | error e' =>
    have e : ∀ {β : Type} (f : G × Statistics σ × σ × σ → M S β), (train ops c fl training >>= f) s = .error e' := by
      intro β f
      have e : (train ops c fl training >>= f) s = (train ops c fl training s).bind (fun p => f p.1 p.2) := rfl
      rw [e, hm]
      rfl
    rw [e] at h ⊢
    exact h
  | ok p =>
    rw [bind_eq hm] at h
    cases h

/-- **C40.** The influence model is fitted to the training data only: whatever is not changed by the other methods of
the components has the same value after running the pipeline with and without test data. -/
theorem C40_fitted {θ : Type} {get : S → θ} (ops : Ops D W K σ) {c : Components S I D W K G σ} (hq : Quiet get c)
    (fl : Flags) (training : List I) (test : Option (List I)) {s s' s₀ : S} {out out₀ : Output G σ}
    (h : execute ops c fl training test s = .ok (out, s')) (h₀ : execute ops c fl training none s = .ok (out₀, s₀)) :
    get s' = get s₀ := by
  unfold execute at h h₀
  obtain ⟨r, s₁, h1, h2⟩ := bind_ok h
  rw [bind_eq h1] at h₀
  cases h₀
  obtain ⟨t, s₂, h3, h4⟩ := bind_ok h2
  cases h4
  unfold testStep at h3
  split at h3
  · cases h3; rfl
  · split at h3
    · obtain ⟨u, s₃, h5, h6⟩ := bind_ok h3
      obtain ⟨v, s₄, h7, h8⟩ := bind_ok h6
      cases h8
      exact (hq.check _ _ _ _ _ h7).trans (Keeps.preprocess hq fl _ _ _ _ h5)
    · cases h3; rfl

/-! ### C41 -/

/-- The fields of `Statistics`. -/
inductive Name
  | dataHandler | imputator | smoother | preExpandingWeigher | preExpandingFilter | expander | preInfluenceWeigher
  | preInfluenceFilter | influenceModel | postWeigher | postFilter | injector | extension | qualityAssurance
  deriving DecidableEq

/-- The statistics of a field. -/
def Statistics.get (st : Statistics σ) : Name → Stat σ
  | .dataHandler => st.dataHandler
  | .imputator => st.imputator
  | .smoother => st.smoother
  | .preExpandingWeigher => st.preExpandingWeigher
  | .preExpandingFilter => st.preExpandingFilter
  | .expander => st.expander
  | .preInfluenceWeigher => st.preInfluenceWeigher
  | .preInfluenceFilter => st.preInfluenceFilter
  | .influenceModel => st.influenceModel
  | .postWeigher => st.postWeigher
  | .postFilter => st.postFilter
  | .injector => st.injector
  | .extension => st.extension
  | .qualityAssurance => st.qualityAssurance

/-- All dictionaries have a property. -/
def Stat.Holds (P : σ → Prop) : Stat σ → Prop
  | .one s => P s
  | .fields l => ∀ s ∈ l, P s

/-- `P n` holds for all statistics of the component with name `n`, and for the empty dictionary. -/
structure Labelled (ops : Ops D W K σ) (c : Components S I D W K G σ) (fl : Flags) (P : Name → σ → Prop) : Prop where
  empty : ∀ n, P n ops.empty
  dataHandler : ∀ h, c.dataHandler = .single h → Post h.latest (P .dataHandler)
  imputator : Post c.imputator.latest (P .imputator)
  smoother : Post c.smoother.latest (P .smoother)
  preExpanderWeigher : Post c.preExpanderWeigher.latest (P .preExpandingWeigher)
  preExpanderOne : fl.preExpanderWeighing = false → ∀ d, P .preExpandingWeigher (ops.allOne d).2
  preExpanderFilter : Post c.preExpanderFilter.latest (P .preExpandingFilter)
  expander : Post c.expander.latest (P .expander)
  preInfluenceWeigher : Post c.preInfluenceWeigher.latest (P .preInfluenceWeigher)
  preInfluenceOne : fl.preInfluenceWeighing = false → ∀ d, P .preInfluenceWeigher (ops.allOne d).2
  preInfluenceFilter : Post c.preInfluenceFilter.latest (P .preInfluenceFilter)
  influenceModel : Post c.removeInfluence.latest (P .influenceModel)
  update : ∀ a b, P .influenceModel a → P .influenceModel b → P .influenceModel (ops.update a b)
  postWeigher : Post c.postWeigher.latest (P .postWeigher)
  postOne : fl.postWeighing = false → ∀ d, P .postWeigher (ops.allOne d).2
  postFilter : Post c.postFilter.latest (P .postFilter)
  injector : Post c.injector.latest (P .injector)
  extension : Post c.extension.latest (P .extension)
  check : ∀ g d, Post (c.check g d) (P .qualityAssurance)

theorem Post.collect {α β : Type} {c : Comp S α β σ} {P : σ → Prop} (h : Post c.latest P) (x : α) :
    Post (collect c x) fun r => P r.2 :=
  Post.bind (Post.any _) fun _ _ => Post.bind h fun _ hs => Post.pure hs

theorem Post.listStats {α : Type} {out : List (α × σ)} {n : Nat} {P : σ → Prop}
    (h : out.length = n ∧ ∀ r ∈ out, P r.2) :
    Post (listStats out : M S _) fun r => r.1.length = n ∧ (∃ l, r.2 = .fields l ∧ l.length = n) ∧ r.2.Holds P := by
  unfold Pipeline.listStats
  split
  · exact Post.throw
  · refine Post.pure ⟨by simp [h.1], ⟨_, rfl, by simp [h.1]⟩, ?_⟩
    intro x hx
    obtain ⟨r, hr, rfl⟩ := List.mem_map.1 hx
    exact h.2 r hr

theorem Post.listStats₂ {α : Type} {out : List (α × σ × σ)} {n : Nat} {P Q : σ → Prop}
    (h : out.length = n ∧ ∀ r ∈ out, P r.2.1 ∧ Q r.2.2) :
    Post (listStats₂ out : M S _) fun r => r.1.length = n ∧ ((∃ l, r.2.1 = .fields l ∧ l.length = n) ∧ r.2.1.Holds P) ∧
      (∃ l, r.2.2 = .fields l ∧ l.length = n) ∧ r.2.2.Holds Q := by
  unfold Pipeline.listStats₂
  split
  · exact Post.throw
  · refine Post.pure ⟨by simp [h.1], ⟨⟨_, rfl, by simp [h.1]⟩, ?_⟩, ⟨_, rfl, by simp [h.1]⟩, ?_⟩
    · intro x hx
      obtain ⟨r, hr, rfl⟩ := List.mem_map.1 hx
      exact (h.2 r hr).1
    · intro x hx
      obtain ⟨r, hr, rfl⟩ := List.mem_map.1 hx
      exact (h.2 r hr).2

theorem Post.weighAndFilter {ops : Ops D W K σ} {w : Comp S D W σ} {f : Comp S W K σ} {P Q : σ → Prop} {b1 b2 : Bool}
    (hP : P ops.empty) (hQ : Q ops.empty) (hw : Post w.latest P) (ho : b1 = false → ∀ d, P (ops.allOne d).2)
    (hf : Post f.latest Q) (d : D) :
    Post (weighAndFilter ops w f b1 b2 d) fun r => P r.2.1 ∧ Q r.2.2 := by
  unfold Pipeline.weighAndFilter
  split
  · exact Post.pure ⟨hP, hQ⟩
  · refine Post.bind (Q := fun r => P r.2) ?_ fun r hr => Post.bind (Post.any _) fun wp _ =>
      Post.bind (Q := fun r => Q r.2) ?_ fun r' hr' => Post.pure ⟨hr, hr'⟩
    · unfold weighStep
      split
      · exact Post.collect hw d
      · rename_i hb
        exact Post.pure (ho (by simpa using hb) d)
    · unfold filterStep
      split
      · exact Post.bind (Post.collect hf _) fun r'' hr'' => Post.bind (Post.any _) fun _ _ => Post.pure hr''
      · exact Post.pure hQ

/-- One dictionary per input. -/
def PerInput (n : Nat) (st : Stat σ) : Prop := ∃ l, st = .fields l ∧ l.length = n

theorem Post.preprocess {ops : Ops D W K σ} {c : Components S I D W K G σ} {fl : Flags} {P : Name → σ → Prop}
    (h : Labelled ops c fl P) (data : List I) (b : Bool) :
    Post (preprocess ops c fl data b) fun r => (∀ n, (r.2.get n).Holds (P n)) ∧
      PerInput data.length r.2.dataHandler ∧ PerInput data.length r.2.imputator ∧
      (fl.smoothing = true → PerInput data.length r.2.smoother) ∧
      PerInput data.length r.2.preExpandingWeigher ∧ PerInput data.length r.2.preExpandingFilter ∧
      PerInput data.length r.2.expander ∧ PerInput data.length r.2.preInfluenceWeigher ∧
      PerInput data.length r.2.preInfluenceFilter := by
  unfold Pipeline.preprocess
  refine Post.bind (Q := fun r => r.1.length = data.length ∧ PerInput data.length r.2 ∧ r.2.Holds (P .dataHandler))
    ?_ fun r1 h1 => ?_
  · unfold handleData
    split
    · rename_i hc
      exact Post.bind (Post.mapM (fun x => Post.collect (h.dataHandler _ hc) x) _) fun _ hr => Post.listStats hr
    · split <;> exact Post.throw
  refine Post.bind (Post.mapM (Post.collect h.imputator) _) fun _ h2 => Post.bind (Post.listStats h2) fun r2 h2 => ?_
  refine Post.bind (Q := fun r => r.1.length = data.length ∧ (fl.smoothing = true → PerInput data.length r.2) ∧
    r.2.Holds (P .smoother)) ?_ fun r3 h3 => ?_
  · unfold smoothStep
    split
    · refine Post.bind (Post.mapM (Post.collect h.smoother) _) fun _ h2' => (Post.listStats h2').mono ?_
      intro r hr
      have e : r2.1.length = data.length := h2.1.trans h1.1
      exact ⟨hr.1.trans e, fun _ => by rw [← e]; exact hr.2.1, hr.2.2⟩
    · rename_i hs
      exact Post.pure ⟨h2.1.trans h1.1, fun h => absurd h hs, by intro x hx; cases hx⟩
  refine Post.bind (Post.mapM (Post.weighAndFilter (h.empty _) (h.empty _) h.preExpanderWeigher h.preExpanderOne
    h.preExpanderFilter) _) fun _ h4 => Post.bind (Post.listStats₂ h4) fun r4 h4 => ?_
  refine Post.bind (Post.mapM (Post.collect h.expander) _) fun _ h5 => Post.bind (Post.listStats h5) fun r5 h5 => ?_
  refine Post.bind (Post.mapM (Post.weighAndFilter (h.empty _) (h.empty _) h.preInfluenceWeigher h.preInfluenceOne
    h.preInfluenceFilter) _) fun _ h6 => Post.bind (Post.listStats₂ h6) fun r6 h6 => ?_
  refine Post.bind (Post.any _) fun d _ => Post.bind (Q := P .influenceModel) ?_ fun st hst => ?_
  · unfold fitStep
    split
    · exact Post.bind (Post.any _) fun _ _ => h.influenceModel
    · exact Post.pure (h.empty _)
  refine Post.bind (Post.collect h.influenceModel _) fun r7 h7 => ?_
  refine Post.bind (Post.weighAndFilter (h.empty _) (h.empty _) h.postWeigher h.postOne h.postFilter _) fun r8 h8 =>
    Post.pure ?_
  have e1 := h1.1
  have e2 : r2.1.length = data.length := h2.1.trans e1
  have e3 := h3.1
  have e4 : r4.1.length = data.length := h4.1.trans e3
  have e4' : (r4.1.map (·.1)).length = data.length := by rw [List.length_map, e4]
  have e5 : r5.1.length = data.length := h5.1.trans e4'
  rw [e1] at h2
  rw [e3] at h4
  rw [e4'] at h5
  rw [e5] at h6
  refine ⟨?_, h1.2.1, h2.2.1, h3.2.1, h4.2.1.1, h4.2.2.1, h5.2.1, h6.2.1.1, h6.2.2.1⟩
  intro n
  cases n
  · exact h1.2.2
  · exact h2.2.2
  · exact h3.2.2
  · exact h4.2.1.2
  · exact h4.2.2.2
  · exact h5.2.2
  · exact h6.2.1.2
  · exact h6.2.2.2
  · exact h.update _ _ h7 hst
  · exact h8.1
  · exact h8.2
  · exact h.empty _
  · exact h.empty _
  · exact h.empty _

theorem Post.train {ops : Ops D W K σ} {c : Components S I D W K G σ} {fl : Flags} {P : Name → σ → Prop}
    (h : Labelled ops c fl P) (data : List I) :
    Post (train ops c fl data) fun r => (∀ n, (r.2.1.get n).Holds (P n)) ∧ P .injector r.2.2.1 ∧
      P .extension r.2.2.2 := by
  unfold Pipeline.train
  refine Post.bind (Post.preprocess h data true) ?_
  rintro ⟨d, st⟩ hr
  simp only
  split
  · exact Post.throw
  · refine Post.bind (Q := fun r => P .injector r.2) ?_ fun r1 h1 => ?_
    · unfold injectStep
      split
      · exact Post.collect h.injector _
      · exact Post.pure (h.empty _)
    · exact Post.bind (Post.any _) fun _ _ => Post.bind (Post.collect h.extension _) fun _ h3 => Post.pure ⟨hr.1, h1, h3⟩

/-- **C41.** Each field of the test statistics only contains statistics of the component it is named after. -/
theorem C41_test {ops : Ops D W K σ} {c : Components S I D W K G σ} {fl : Flags} {P : Name → σ → Prop}
    (h : Labelled ops c fl P) (training : List I) (test : Option (List I)) {s s' : S} {out : Output G σ}
    (he : execute ops c fl training test s = .ok (out, s')) (n : Name) : (out.test.get n).Holds (P n) := by
  unfold execute at he
  obtain ⟨r, s₁, h1, h2⟩ := bind_ok he
  obtain ⟨t, s₂, h3, h4⟩ := bind_ok h2
  cases h4
  have key : Post (testStep ops c fl r.1 test) fun t => ∀ n, (t.1.get n).Holds (P n) := by
    unfold testStep
    split
    · exact Post.pure fun n => by cases n <;> exact h.empty _
    · split
      · exact Post.bind (Post.preprocess h _ _) fun _ hr => Post.bind (Post.any _) fun _ _ => Post.pure hr.1
      · exact Post.pure fun n => by cases n <;> exact h.empty _
  exact key _ _ _ h3 n

/-- **C41.** Each field of the training statistics other than `pre_expanding_filter` only contains statistics of the
component it is named after. -/
theorem C41_training_partial {ops : Ops D W K σ} {c : Components S I D W K G σ} {fl : Flags} {P : Name → σ → Prop}
    (h : Labelled ops c fl P) (training : List I) (test : Option (List I)) {s s' : S} {out : Output G σ}
    (he : execute ops c fl training test s = .ok (out, s')) {n : Name} (hn : n ≠ .preExpandingFilter) :
    (out.training.get n).Holds (P n) := by
  unfold execute at he
  obtain ⟨r, s₁, h1, h2⟩ := bind_ok he
  obtain ⟨t, s₂, h3, h4⟩ := bind_ok h2
  cases h4
  have key : Post (testStep ops c fl r.1 test) fun t => P .qualityAssurance t.2 := by
    unfold testStep
    split
    · exact Post.pure (h.empty _)
    · split
      · exact Post.bind (Post.any _) fun _ _ => Post.bind (h.check _ _) fun _ hr => Post.pure hr
      · exact Post.pure (h.empty _)
  have hq := key _ _ _ h3
  have ht := Post.train h training _ _ _ h1
  cases n with
  | preExpandingFilter => exact absurd rfl hn
  | injector => exact ht.2.1
  | extension => exact ht.2.2
  | qualityAssurance => exact hq
  | dataHandler => exact ht.1 .dataHandler
  | imputator => exact ht.1 .imputator
  | smoother => exact ht.1 .smoother
  | preExpandingWeigher => exact ht.1 .preExpandingWeigher
  | expander => exact ht.1 .expander
  | preInfluenceWeigher => exact ht.1 .preInfluenceWeigher
  | preInfluenceFilter => exact ht.1 .preInfluenceFilter
  | influenceModel => exact ht.1 .influenceModel
  | postWeigher => exact ht.1 .postWeigher
  | postFilter => exact ht.1 .postFilter

/-- **C41.** The statistics of the components which work on each input contain one dictionary for each input. -/
theorem C41_per_input {ops : Ops D W K σ} {c : Components S I D W K G σ} {fl : Flags} (data : List I) (b : Bool)
    {s s' : S} {d : D × W} {st : Statistics σ} (h : preprocess ops c fl data b s = .ok ((d, st), s')) :
    PerInput data.length st.dataHandler ∧ PerInput data.length st.imputator ∧
      (fl.smoothing = true → PerInput data.length st.smoother) ∧
      PerInput data.length st.preExpandingWeigher ∧ PerInput data.length st.preExpandingFilter ∧
      PerInput data.length st.expander ∧ PerInput data.length st.preInfluenceWeigher ∧
      PerInput data.length st.preInfluenceFilter := by
  have hl : Labelled ops c fl fun _ _ => True := by
    constructor <;> intros <;> first | trivial | exact Post.any _ | (intro _ _ _ _; trivial)
  exact (Post.preprocess hl data b _ _ _ h).2

/-! ### An example -/

/-- Data are natural numbers, a component with number `k` adds nothing and reports `k`. -/
def tagged {α β : Type} (f : α → β) (k : Nat) : Comp S α β Nat := ⟨fun x => pure (f x), pure k⟩

/-- Components with different statistics. -/
def sample (fit : Nat → M S Unit) : Components S Nat Nat Unit Unit Nat Nat where
  dataHandler := .single (tagged id 1)
  imputator := tagged id 2
  smoother := tagged id 3
  preExpanderWeigher := tagged (fun _ => ()) 4
  preExpanderFilter := tagged id 5
  expander := tagged id 6
  preInfluenceWeigher := tagged (fun _ => ()) 7
  preInfluenceFilter := tagged id 8
  fit := fit
  removeInfluence := tagged id 9
  postWeigher := tagged (fun _ => ()) 10
  postFilter := tagged id 11
  injector := tagged id 12
  extension := tagged Prod.fst 13
  check := fun _ _ => pure 14

/-- Operations on natural numbers as data. -/
def sampleOps : Ops Nat Unit Unit Nat where
  isEmpty := fun n => n == 0
  weighted := fun d w => .ok (d, w)
  select := fun p _ => .ok p
  concat := fun l => .ok l.sum
  extend := fun p q => .ok (p.1 + q.1, ())
  noPoints := (0, ())
  noWeights := ()
  allOne := fun _ => ((), 15)
  empty := 0
  update := fun a b => max a b

/-- All steps enabled (the default). -/
def allOn : Flags := ⟨true, true, true, true, true, true, true, true, true⟩

/-- The expected label of a component, the empty dictionary is 0. -/
def label : Name → Nat → Prop := fun n k => k = 0 ∨ k = match n with
  | .dataHandler => 1 | .imputator => 2 | .smoother => 3 | .preExpandingWeigher => 4 | .preExpandingFilter => 5
  | .expander => 6 | .preInfluenceWeigher => 7 | .preInfluenceFilter => 8 | .influenceModel => 9 | .postWeigher => 10
  | .postFilter => 11 | .injector => 12 | .extension => 13 | .qualityAssurance => 14

theorem sample_labelled (fit : Nat → M S Unit) : Labelled sampleOps (sample fit) allOn label where
  empty := fun _ => Or.inl rfl
  dataHandler := fun h hh => by cases hh; exact Post.pure (Or.inr rfl)
  imputator := Post.pure (Or.inr rfl)
  smoother := Post.pure (Or.inr rfl)
  preExpanderWeigher := Post.pure (Or.inr rfl)
  preExpanderOne := fun h => by cases h
  preExpanderFilter := Post.pure (Or.inr rfl)
  expander := Post.pure (Or.inr rfl)
  preInfluenceWeigher := Post.pure (Or.inr rfl)
  preInfluenceOne := fun h => by cases h
  preInfluenceFilter := Post.pure (Or.inr rfl)
  influenceModel := Post.pure (Or.inr rfl)
  update := by
    rintro a b (rfl | rfl) (rfl | rfl)
    · exact Or.inl rfl
    · exact Or.inr rfl
    · exact Or.inr rfl
    · exact Or.inr rfl
  postWeigher := Post.pure (Or.inr rfl)
  postOne := fun h => by cases h
  postFilter := Post.pure (Or.inr rfl)
  injector := Post.pure (Or.inr rfl)
  extension := Post.pure (Or.inr rfl)
  check := fun _ _ => Post.pure (Or.inr rfl)

/-- **C41** is false for the field `pre_expanding_filter` of the training statistics: it contains the statistics of
another component (line 368 of `pipeline.py`). -/
theorem C41_pre_expanding_filter_false : ∃ out s', execute sampleOps (sample fun _ => pure ()) allOn [3, 4] (some [5]) () = .ok (out, s') ∧
    out.diagram = 14 ∧ out.test.preExpandingFilter = .fields [5] ∧
    out.training.preInfluenceFilter = .fields [8, 8] ∧ out.training.preExpandingFilter = .fields [8, 8] ∧
    ¬ (out.training.get .preExpandingFilter).Holds (label .preExpandingFilter) := by
  refine ⟨_, _, rfl, rfl, rfl, rfl, rfl, ?_⟩
  intro h
  have := h 8 (by simp [Statistics.get])
  rcases this with h | h <;> cases h

/-- Only `fit` changes the state of the sample. -/
theorem sample_quiet {θ : Type} (get : S → θ) (fit : Nat → M S Unit) : Quiet get (sample fit) := by
  have h : ∀ {α β : Type} (f : α → β) (k : Nat), KeepsComp get (tagged f k : Comp S α β Nat) :=
    fun f k => ⟨fun _ => Keeps.pure _, Keeps.pure _⟩
  exact ⟨h _ _, h _ _, h _ _, h _ _, h _ _, h _ _, h _ _, h _ _, h _ _, h _ _, h _ _, fun _ _ => Keeps.pure _⟩

/-- The state of the sample counts how often the model has been fitted: once, with and without test data. -/
example : (execute sampleOps (sample fun _ => modify (· + 1)) allOn [3, 4] (some [5]) 0).map (·.2) = .ok 1 ∧
    (execute sampleOps (sample fun _ => modify (· + 1)) allOn [3, 4] none 0).map (·.2) = .ok 1 := ⟨rfl, rfl⟩

example : (execute sampleOps (sample fun _ => modify (· + 1)) allOn [3, 4] (some [5]) 0).map (·.1.diagram) = .ok 14 ∧
    (execute sampleOps (sample fun _ => modify (· + 1)) allOn [3, 4] none 0).map (·.1.diagram) = .ok 14 := ⟨rfl, rfl⟩

example : execute sampleOps (sample fun _ => throw .zeroDivisionError) allOn [3, 4] (some [5]) () = .error .zeroDivisionError := by
  have h : execute sampleOps (sample fun _ => throw .zeroDivisionError) allOn [3, 4] none () = .error .zeroDivisionError := rfl
  exact C40_raises _ _ _ _ _ h

/-! ### C63 -/

/-- **C63.** With one data handler every input is handled by it, in order. -/
theorem C63_single_partial (h : Comp S I D σ) {data : List I} (hne : data ≠ []) (s : S) :
    (∃ out s', data.mapM (collect h) s = .ok (out, s') ∧ out.length = data.length ∧
      handleData (.single h) data s = .ok ((out.map (·.1), .fields (out.map (·.2))), s')) ∨
    ∃ e, data.mapM (collect h) s = .error e ∧ handleData (.single h) data s = .error e := by
  cases hm : data.mapM (collect h) s with
  | error e =>
    right
    refine ⟨e, rfl, ?_⟩
    have e : handleData (.single h) data s = (data.mapM (collect h) s).bind fun p => listStats p.1 p.2 := rfl
    rw [e, hm]
    rfl
  | ok p =>
    left
    have hl := (Post.mapM (Q := fun _ => True) (fun a => Post.any (collect h a)) data _ _ _ hm).1
    refine ⟨p.1, p.2, rfl, hl, ?_⟩
    have e : handleData (.single h) data s = (data.mapM (collect h) s).bind fun p => listStats p.1 p.2 := rfl
    rw [e, hm]
    have hp : p.1.isEmpty = false := by
      cases hp : p.1 with
      | nil => rw [hp] at hl; exact absurd (List.length_eq_zero_iff.1 hl.symm) hne
      | cons => rfl
    simp only [Except.bind, listStats, hp, Bool.false_eq_true, if_false]
    rfl

/-- **C63** is false for a list of data handlers: the pipeline raises `TypeError`. -/
theorem C63_list_false (ops : Ops D W K σ) (c : Components S I D W K G σ) {hs : List (Comp S I D σ)}
    (hc : c.dataHandler = .list hs) (fl : Flags) {training : List I} (hne : training ≠ []) (test : Option (List I))
    (s : S) : execute ops c fl training test s = .error .typeError := by
  have he : training.isEmpty = false := by
    cases training with
    | nil => exact absurd rfl hne
    | cons => rfl
  have h1 : handleData c.dataHandler training s = .error .typeError := by
    simp only [hc, handleData, he, Bool.false_eq_true, if_false]
    rfl
  have hb : ∀ {α β : Type} (m : M S α) (f : α → M S β), m s = .error .typeError → (m >>= f) s = .error .typeError := by
    intro α β m f h
    have e : (m >>= f) s = (m s).bind (fun p => f p.1 p.2) := rfl
    rw [e, h]
    rfl
  exact hb _ _ (hb _ _ (hb _ _ h1))

example : execute sampleOps { sample (fun _ => modify (· + 1)) with dataHandler := .list [tagged id 1] } allOn [3, 4] none 0 =
    .error .typeError := C63_list_false _ _ rfl _ (by simp) _ _

/-- **C63.** Without any input the pipeline raises `ValueError`. -/
theorem C63_no_input (ops : Ops D W K σ) (c : Components S I D W K G σ) (fl : Flags) (test : Option (List I)) (s : S) :
    execute ops c fl [] test s = .error .valueError := by
  have hb : ∀ {α β : Type} (m : M S α) (f : α → M S β), m s = .error .valueError → (m >>= f) s = .error .valueError := by
    intro α β m f h
    have e : (m >>= f) s = (m s).bind (fun p => f p.1 p.2) := rfl
    rw [e, h]
    rfl
  refine hb _ _ (hb _ _ (hb _ _ ?_))
  unfold handleData
  cases c.dataHandler <;> rfl

/-- **C63.** If no data is left after preprocessing then `RuntimeError` is raised. -/
theorem C63_nothing_left (ops : Ops D W K σ) (c : Components S I D W K G σ) (fl : Flags) (training : List I)
    (test : Option (List I)) {s s' : S} {d : D × W} {st : Statistics σ}
    (h : preprocess ops c fl training true s = .ok ((d, st), s')) (he : ops.isEmpty d.1 = true) :
    execute ops c fl training test s = .error .runtimeError := by
  have h1 : train ops c fl training s = .error .runtimeError := by
    unfold train
    rw [bind_eq h]
    simp only [he, if_true]
    rfl
  have e : execute ops c fl training test s = (train ops c fl training s).bind _ := rfl
  rw [e, h1]
  rfl

example : execute { sampleOps with isEmpty := fun _ => true } (sample fun _ => modify (· + 1)) allOn [3, 4] (some [5]) 0 =
    .error .runtimeError := C63_nothing_left _ _ _ _ _ (st := _) (s' := _) rfl rfl

end Verif.Pipeline
