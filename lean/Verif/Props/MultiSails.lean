import Mathlib.Data.Rat.Floor
import Verif.Model.MultiSails
import Verif.Model.Table
import Verif.Props.Diagram

/-!
# Property C128: changing the sails of a diagram
-/

set_option linter.unusedSectionVars false

namespace Verif.Diagram

open Verif.Table (Text)

variable {K : Type} [Field K] [LinearOrder K] [IsStrictOrderedRing K]

/-! ### The best sail -/

theorem multiCall_iff (ds : List (Sail K)) (ws wa x : K) : multiCall ds ws wa = .ok x ↔
    (∃ d ∈ ds, d.call ws wa = .ok x) ∧ ∀ d ∈ ds, ∃ y, d.call ws wa = .ok y ∧ y ≤ x := by
  refine ⟨C38_max, ?_⟩
  rintro ⟨⟨d, hd, hx⟩, h⟩
  obtain ⟨z, hz⟩ := (C38_defined ds ws wa).2 ⟨List.ne_nil_of_mem hd, fun d hd => let ⟨y, hy, _⟩ := h d hd; ⟨y, hy⟩⟩
  obtain ⟨⟨e, he, hez⟩, h2⟩ := C38_max hz
  obtain ⟨y, hy, hyz⟩ := h2 d hd
  obtain ⟨y', hy', hyx⟩ := h e he
  rw [hx] at hy
  rw [hez] at hy'
  cases hy
  cases hy'
  rw [hz, le_antisymm hyx hyz]

/-- **C128.** With more sails one is never slower: the value with the sails of two diagrams is the larger one of the values of
the two diagrams. -/
theorem C128_more_sails {ds es : List (Sail K)} {ws wa x y : K} (h1 : multiCall ds ws wa = .ok x)
    (h2 : multiCall es ws wa = .ok y) : multiCall (ds ++ es) ws wa = .ok (max x y) := by
  obtain ⟨⟨d, hd, hx⟩, a⟩ := C38_max h1
  obtain ⟨⟨e, he, hy⟩, b⟩ := C38_max h2
  rw [multiCall_iff]
  constructor
  · rcases le_total x y with h | h
    · exact ⟨e, List.mem_append_right _ he, by rw [max_eq_right h, hy]⟩
    · exact ⟨d, List.mem_append_left _ hd, by rw [max_eq_left h, hx]⟩
  · intro f hf
    rcases List.mem_append.1 hf with hf | hf
    · obtain ⟨z, h, hz⟩ := a f hf
      exact ⟨z, h, hz.trans (le_max_left _ _)⟩
    · obtain ⟨z, h, hz⟩ := b f hf
      exact ⟨z, h, hz.trans (le_max_right _ _)⟩

/-- **C128.** Neither the order of the sails nor their multiplicity matters for the value. -/
theorem C128_order {ds es : List (Sail K)} (h : ∀ d, d ∈ ds ↔ d ∈ es) (ws wa x : K) :
    multiCall ds ws wa = .ok x ↔ multiCall es ws wa = .ok x := by
  simp only [multiCall_iff, h]

/-- **C128.** With a single sail the diagram is the diagram of the sail, and a sail which is nowhere faster than another one
can be left out. -/
theorem C128_dominated (d : Sail K) (ws wa : K) : multiCall [d] ws wa = d.call ws wa ∧
    ∀ (ds : List (Sail K)) (e : Sail K) (x y : K), e ∈ ds → d.call ws wa = .ok x → e.call ws wa = .ok y → x ≤ y →
      ∀ z, multiCall (d :: ds) ws wa = .ok z ↔ multiCall ds ws wa = .ok z := by
  constructor
  · cases h : d.call ws wa <;> simp [multiCall, callAll, h]
  · intro ds e x y he hx hy hxy z
    rw [multiCall_iff, multiCall_iff]
    constructor
    · rintro ⟨⟨f, hf, hz⟩, h⟩
      refine ⟨?_, fun f hf => h f (List.mem_cons_of_mem _ hf)⟩
      rcases List.mem_cons.1 hf with rfl | hf
      · rw [hx] at hz
        cases hz
        obtain ⟨y', hy', h'⟩ := h e (List.mem_cons_of_mem _ he)
        rw [hy] at hy'
        cases hy'
        exact ⟨e, he, by rw [hy, le_antisymm h' hxy]⟩
      · exact ⟨f, hf, hz⟩
    · rintro ⟨⟨f, hf, hz⟩, h⟩
      refine ⟨⟨f, List.mem_cons_of_mem _ hf, hz⟩, ?_⟩
      intro f' hf'
      rcases List.mem_cons.1 hf' with rfl | hf'
      · obtain ⟨y', hy', h'⟩ := h e he
        rw [hy] at hy'
        cases hy'
        exact ⟨x, hx, hxy.trans h'⟩
      · exact h f' hf'

/-- Two sails, one for small and one for large wind angles. -/
def exSails : List (Sail Rat) := [⟨fun ws wa => .ok (ws - wa / 60), fun _ => []⟩, ⟨fun ws wa => .ok (ws / 2 + wa / 60), fun _ => []⟩]

example : multiCall (exSails.take 1) 10 60 = .ok 9 ∧ multiCall (exSails.drop 1) 10 60 = .ok 6 ∧
    multiCall exSails 10 60 = .ok 9 := by decide +kernel

/-! ### Symmetric versions -/

namespace MultiSails

variable {δ σ : Type}

theorem symmetrizeAll_spec (sym : δ → Except PyErr δ) (ds : List δ) :
    (∀ ds', symmetrizeAll sym ds = .ok ds' ↔ ds.map sym = ds'.map .ok) ∧
    ∀ e, symmetrizeAll sym ds = .error e ↔
      ∃ l₁ d l₂, ds = l₁ ++ d :: l₂ ∧ sym d = .error e ∧ ∀ d' ∈ l₁, ∃ r, sym d' = .ok r := by
  induction ds with
  | nil =>
    constructor
    · intro ds'
      cases ds' <;> simp [symmetrizeAll]
    · intro e
      simp [symmetrizeAll]
  | cons d ds ih =>
    unfold symmetrizeAll
    cases h : sym d with
    | error e' =>
      constructor
      · intro ds'
        cases ds' <;> simp [h]
      · intro e
        simp only [Except.error.injEq]
        constructor
        · rintro rfl
          exact ⟨[], d, ds, rfl, h, by simp⟩
        · rintro ⟨l₁, d', l₂, he, h1, h2⟩
          cases l₁ with
          | nil =>
            simp only [List.nil_append, List.cons.injEq] at he
            rw [← he.1, h] at h1
            cases h1
            rfl
          | cons a l₁ =>
            simp only [List.cons_append, List.cons.injEq] at he
            obtain ⟨r, hr⟩ := h2 a (by simp)
            rw [← he.1, h] at hr
            cases hr
    | ok d' =>
      simp only
      cases hs : symmetrizeAll sym ds with
      | error e' =>
        obtain ⟨i1, i2⟩ := ih
        constructor
        · intro ds'
          cases ds' with
          | nil => simp
          | cons a l =>
            simp only [reduceCtorEq, List.map_cons, List.cons.injEq, false_iff, not_and]
            intro _ hl
            rw [(i1 l).2 hl] at hs
            cases hs
        · intro e
          constructor
          · intro he
            simp only [Except.error.injEq] at he
            subst he
            obtain ⟨l₁, a, l₂, e1, e2, e3⟩ := (i2 e').1 hs
            refine ⟨d :: l₁, a, l₂, by rw [e1]; rfl, e2, ?_⟩
            intro x hx
            rcases List.mem_cons.1 hx with rfl | hx
            · exact ⟨d', h⟩
            · exact e3 x hx
          · rintro ⟨l₁, a, l₂, e1, e2, e3⟩
            cases l₁ with
            | nil =>
              simp only [List.nil_append, List.cons.injEq] at e1
              rw [← e1.1, h] at e2
              cases e2
            | cons b l₁ =>
              simp only [List.cons_append, List.cons.injEq] at e1
              have := (i2 e).2 ⟨l₁, a, l₂, e1.2, e2, fun x hx => e3 x (List.mem_cons_of_mem _ hx)⟩
              rw [hs] at this
              cases this
              rfl
      | ok l' =>
        obtain ⟨i1, i2⟩ := ih
        constructor
        · intro ds'
          cases ds' with
          | nil => simp
          | cons a l =>
            have := i1 l
            rw [hs] at this
            simp only [Except.ok.injEq, List.cons.injEq, List.map_cons, h] at this ⊢
            rw [this]
        · intro e
          constructor
          · intro he
            cases he
          · rintro ⟨l₁, a, l₂, e1, e2, e3⟩
            cases l₁ with
            | nil =>
              simp only [List.nil_append, List.cons.injEq] at e1
              rw [← e1.1, h] at e2
              cases e2
            | cons b l₁ =>
              simp only [List.cons_append, List.cons.injEq] at e1
              have := (i2 e).2 ⟨l₁, a, l₂, e1.2, e2, fun x hx => e3 x (List.mem_cons_of_mem _ hx)⟩
              rw [hs] at this
              cases this

/-- **C128.** The symmetric version has the same sails in the same order, and the diagram of each sail is the symmetric version
of its diagram, also if it is asked for by the name of the sail. -/
theorem C128_symmetrize [DecidableEq σ] (numbered : Nat → σ) (sym : δ → Except PyErr δ) {m m' : MultiSails δ σ}
    (hl : m.sails.length = m.diagrams.length) (h : symmetrize numbered sym m = .ok m') :
    m'.sails = m.sails ∧ m'.diagrams.length = m.diagrams.length ∧
    (∀ (i : Nat) (d : δ), m.diagrams[i]? = some d → ∃ d', sym d = .ok d' ∧ m'.diagrams[i]? = some d') ∧
    ∀ name d, getItem m.sails m.diagrams name = .ok d →
      ∃ d', sym d = .ok d' ∧ getItem m'.sails m'.diagrams name = .ok d' := by
  unfold symmetrize at h
  split at h
  · cases h
  · rename_i pds hp
    cases h
    have hm := ((symmetrizeAll_spec sym m.diagrams).1 pds).1 hp
    have hlen : pds.length = m.diagrams.length := by simpa using (congrArg List.length hm).symm
    have hs : (init numbered pds (some m.sails)).sails = m.sails := by
      simp [init, sailNames, hl, hlen]
    have hi : ∀ (i : Nat) (d : δ), m.diagrams[i]? = some d → ∃ d', sym d = .ok d' ∧ pds[i]? = some d' := by
      intro i d hd
      have := congrArg (·[i]?) hm
      simp only [List.getElem?_map, hd, Option.map_some] at this
      cases hp' : pds[i]? with
      | none => simp [hp'] at this
      | some d' =>
        rw [hp'] at this
        simp only [Option.map_some, Option.some.injEq] at this
        exact ⟨d', this, rfl⟩
    refine ⟨hs, hlen, hi, ?_⟩
    intro name d hd
    rw [hs]
    unfold getItem at hd ⊢
    split at hd
    · rename_i hmem
      rw [if_pos hmem]
      split at hd
      · rename_i d₀ hd₀
        cases hd
        obtain ⟨d', h1, h2⟩ := hi _ _ hd₀
        exact ⟨d', h1, by simp only [init, h2]⟩
      · cases hd
    · cases hd

/-- **C128.** Making a symmetric version fails exactly if it fails for one of the sails, with the exception of the first such
sail. -/
theorem C128_symmetrize_fails (numbered : Nat → σ) (sym : δ → Except PyErr δ) (m : MultiSails δ σ) (e : PyErr) :
    symmetrize numbered sym m = .error e ↔
      ∃ l₁ d l₂, m.diagrams = l₁ ++ d :: l₂ ∧ sym d = .error e ∧ ∀ d' ∈ l₁, ∃ r, sym d' = .ok r := by
  rw [← (symmetrizeAll_spec sym m.diagrams).2 e]
  unfold symmetrize
  split <;> simp_all

/-- **C128.** If the symmetric versions of the diagrams of the sails are symmetric, i.e. if they do not distinguish wind from
the left and from the right, then so is the symmetric version of the diagram. -/
theorem C128_symmetric (numbered : Nat → σ) (sym : δ → Except PyErr δ) (sail : δ → Sail K) {m m' : MultiSails δ σ}
    {ws wa : K} (hsym : ∀ d ∈ m.diagrams, ∀ d', sym d = .ok d' → (sail d').call ws (360 - wa) = (sail d').call ws wa)
    (h : symmetrize numbered sym m = .ok m') :
    multiCall (m'.diagrams.map sail) ws (360 - wa) = multiCall (m'.diagrams.map sail) ws wa := by
  unfold symmetrize at h
  split at h
  · cases h
  · rename_i pds hp
    cases h
    have hm := ((symmetrizeAll_spec sym m.diagrams).1 pds).1 hp
    have key : ∀ d' ∈ pds, (sail d').call ws (360 - wa) = (sail d').call ws wa := by
      intro d' hd'
      have : Except.ok d' ∈ m.diagrams.map sym := by
        rw [hm]; exact List.mem_map_of_mem hd'
      obtain ⟨d, hd, he⟩ := List.mem_map.1 this
      exact hsym d hd d' he
    have hall : ∀ l : List δ, (∀ d' ∈ l, (sail d').call ws (360 - wa) = (sail d').call ws wa) →
        callAll ws (360 - wa) (l.map sail) = callAll ws wa (l.map sail) := by
      intro l
      induction l with
      | nil => intro _; rfl
      | cons a l ih =>
        intro hl
        simp only [List.map_cons, callAll]
        rw [hl a (by simp), ih fun d hd => hl d (List.mem_cons_of_mem _ hd)]
    simp only [multiCall, init, hall pds key]

/-- The hypothesis on the diagrams of the sails is met by functions, symmetrised by taking means. -/
example (f : Rat → Rat → Rat) (ws wa : Rat) : ∀ d',
    (fun f : Rat → Rat → Rat => Except.ok (ε := PyErr) fun ws wa => (f ws wa + f ws (360 - wa)) / 2) f = .ok d' →
      d' ws (360 - wa) = d' ws wa := by
  intro d' h
  cases h
  simp only [sub_sub_cancel]
  rw [add_comm]

/-- **C128.** There are always as many names as diagrams. -/
theorem C128_names (numbered : Nat → σ) (pds : List δ) (sails : Option (List σ)) :
    (init numbered pds sails).sails.length = (init numbered pds sails).diagrams.length ∧
    (init numbered pds sails).diagrams = pds := by
  refine ⟨?_, rfl⟩
  simp only [init]
  cases sails with
  | none => simp [sailNames]
  | some l =>
    simp only [sailNames]
    split_ifs with h1 h2
    · simp; omega
    · simp; omega
    · omega

/-- **C128.** What is printed: for each sail its name and its diagram, after what is printed for the sails before it. -/
theorem C128_str (showName : σ → Text) (showDiagram : δ → Text) {m : MultiSails δ σ} {i : Nat} {name : σ} {d : δ}
    (hn : m.sails[i]? = some name) (hd : m.diagrams[i]? = some d) :
    ∃ rest, str showName showDiagram m = str showName showDiagram ⟨m.diagrams.take i, m.sails.take i⟩ ++
      (showName name ++ "\n".toList ++ showDiagram d ++ "\n\n".toList) ++ rest ∧
      rest = str showName showDiagram ⟨m.diagrams.drop (i + 1), m.sails.drop (i + 1)⟩ := by
  obtain ⟨ds, ns⟩ := m
  refine ⟨_, ?_, rfl⟩
  simp only at hn hd
  induction i generalizing ds ns with
  | zero =>
    cases ds with
    | nil => simp at hd
    | cons a ds =>
      cases ns with
      | nil => simp at hn
      | cons b ns =>
        simp only [List.getElem?_cons_zero, Option.some.injEq] at hn hd
        subst hn
        subst hd
        simp [str]
  | succ i ih =>
    cases ds with
    | nil => simp at hd
    | cons a ds =>
      cases ns with
      | nil => simp at hn
      | cons b ns =>
        simp only [List.getElem?_cons_succ] at hn hd
        have := ih ds ns hn hd
        simp only [str, List.map_cons, List.zip_cons_cons, List.flatMap_cons, List.take_succ_cons, List.drop_succ_cons,
          List.append_assoc] at this ⊢
        rw [this]

example : str (fun s : String => s.toList) (fun n : Nat => List.replicate n 'x') ⟨[1, 2], ["jib", "main"]⟩ =
    "jib\nx\n\nmain\nxx\n\n".toList := by decide +kernel

/-- The hypotheses of the theorems are met by tables. -/
example : symmetrize (fun _ => "Sail") Table.symmetrize ⟨[(⟨[6], [45, 90], [[4], [5]]⟩ : Table Rat)], ["jib"]⟩ =
    .ok ⟨[⟨[6], [45, 90, 270, 315], [[4], [5], [5], [4]]⟩], ["jib"]⟩ := by
  decide +kernel

end MultiSails

end Verif.Diagram
