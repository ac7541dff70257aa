import Verif.Model.PipelineNames
import Verif.Lemmas.Dict
import Mathlib.Data.List.Nodup
import Mathlib.Tactic.FinCases

/-!
# Property C105: names of the components and flags of a pipeline
-/

namespace Verif.Names

variable {V : Type}

/-- No alias is the target of an alias, and no two aliases have the same target. -/
structure Aliases (aliases : Dict String String) : Prop where
  once : ∀ a b name, aliases.get? a = some name → aliases.get? b = some name → a = b
  direct : ∀ a name, aliases.get? a = some name → aliases.get? name = none

theorem addAliases_other {aliases : Dict String String} (ha : Aliases aliases) {key : String} (ks : List String) (d : Dict String V)
    (h : ∀ a, aliases.get? a = some key → a ∉ ks ∨ d.get? a = none) :
    (addAliases aliases ks d).get? key = d.get? key := by
  induction ks generalizing d with
  | nil => rfl
  | cons k ks ih =>
    simp only [addAliases]
    have htail : ∀ a, aliases.get? a = some key → a ∉ ks ∨ d.get? a = none := by
      intro a hk
      rcases h a hk with h | h
      · exact Or.inl fun hm => h (List.mem_cons_of_mem _ hm)
      · exact Or.inr h
    split
    · rename_i name v h1 h2
      have hne : name ≠ key := by
        rintro rfl
        rcases h k h1 with h | h
        · exact h List.mem_cons_self
        · rw [h] at h2; simp at h2
      rw [ih, Dict.get?_set_ne _ _ hne]
      intro a hk
      rcases htail a hk with h | h
      · exact Or.inl h
      · refine Or.inr ?_
        have : name ≠ a := by
          rintro rfl
          rw [ha.direct k name h1] at hk
          simp at hk
        rw [Dict.get?_set_ne _ _ this]
        exact h
    · exact ih d htail

theorem addAliases_alias {aliases : Dict String String} (ha : Aliases aliases) {a key : String} (hk : aliases.get? a = some key)
    (ks : List String) (d : Dict String V) {v : V} (hv : d.get? a = some v) (hm : a ∈ ks ∨ d.get? key = some v) :
    (addAliases aliases ks d).get? key = some v := by
  induction ks generalizing d with
  | nil =>
    rcases hm with hm | hm
    · simp at hm
    · exact hm
  | cons k ks ih =>
    simp only [addAliases]
    by_cases he : k = a
    · subst he
      rw [hk, hv]
      have : key ≠ k := by
        rintro rfl
        rw [ha.direct _ _ hk] at hk
        simp at hk
      exact ih _ (by rw [Dict.get?_set_ne _ _ this]; exact hv) (Or.inr (by simp))
    · have hm' : a ∈ ks ∨ d.get? key = some v := by
        rcases hm with hm | hm
        · rcases List.mem_cons.1 hm with h | h
          · exact absurd h.symm he
          · exact Or.inl h
        · exact Or.inr hm
      split
      · rename_i name w h1 h2
        have n1 : name ≠ a := by
          rintro rfl
          rw [ha.direct _ _ h1] at hk
          simp at hk
        have n2 : name ≠ key := by
          rintro rfl
          exact he (ha.once _ _ _ h1 hk)
        refine ih _ (by rw [Dict.get?_set_ne _ _ n1]; exact hv) ?_
        rw [Dict.get?_set_ne _ _ n2]
        exact hm'
      · exact ih d hv hm'

theorem setAttrs_other (d : Dict String V) {key : String} (l : List (String × V)) (obj : Dict String V)
    (h : key ∉ l.map Prod.fst) : (setAttrs d l obj).get? key = obj.get? key := by
  induction l generalizing obj with
  | nil => rfl
  | cons p l ih =>
    simp only [List.map_cons, List.mem_cons, not_or] at h
    simp only [setAttrs]
    rw [ih _ h.2, Dict.get?_set_ne _ _ (Ne.symm h.1)]

theorem setAttrs_get (d : Dict String V) {key : String} {default : V} (l : List (String × V)) (obj : Dict String V)
    (hn : (l.map Prod.fst).Nodup) (h : (key, default) ∈ l) :
    (setAttrs d l obj).get? key = some (switchDefault d key default) := by
  induction l generalizing obj with
  | nil => simp at h
  | cons p l ih =>
    simp only [List.map_cons, List.nodup_cons] at hn
    simp only [setAttrs]
    rcases List.mem_cons.1 h with rfl | h
    · rw [setAttrs_other _ _ _ hn.1]
      simp
    · exact ih _ hn.2 h

theorem zip_fst_sublist (keys : List String) (defaults : List V) : ((keys.zip defaults).map Prod.fst).Sublist keys := by
  induction keys generalizing defaults with
  | nil => simp
  | cons k ks ih =>
    cases defaults with
    | nil => simp
    | cons d ds => simpa using ih ds

/-- What the attribute with name `key` is after `_set_with_default`: the value given for an alias, or the one given for the
name, or the default. -/
structure Chosen (aliases : Dict String String) (given : Dict String V) (key : String) (default : V) (result : Option V) : Prop where
  byAlias : ∀ a v, aliases.get? a = some key → given.get? a = some v → result = some v
  byName : (∀ a, aliases.get? a = some key → given.get? a = none) → ∀ v, given.get? key = some v → result = some v
  byDefault : (∀ a, aliases.get? a = some key → given.get? a = none) → given.get? key = none → result = some default

theorem chosen {aliases : Dict String String} (ha : Aliases aliases) {keys : List String} (hn : keys.Nodup) (given obj : Dict String V)
    {defaults : List V} {key : String} {default : V} (hk : (key, default) ∈ keys.zip defaults) :
    Chosen aliases given key default ((setWithDefault given keys defaults aliases obj).get? key) := by
  have hz := (zip_fst_sublist keys defaults).nodup hn
  unfold setWithDefault
  rw [setAttrs_get _ _ _ hz hk]
  unfold switchDefault
  refine ⟨?_, ?_, ?_⟩
  · intro a v h1 h2
    rw [addAliases_alias ha h1 _ _ h2 (Or.inl ((Dict.mem_keys_iff _ _).2 ⟨v, h2⟩))]
  · intro h v hv
    rw [addAliases_other ha _ _ (fun a h1 => Or.inr (h a h1)), hv]
  · intro h hv
    rw [addAliases_other ha _ _ (fun a h1 => Or.inr (h a h1)), hv]

theorem aliases_of {aliases : Dict String String} (h1 : (aliases.map Prod.snd).Nodup) (h2 : ∀ p ∈ aliases, aliases.get? p.2 = none) :
    Aliases aliases := by
  constructor
  · intro a b name ha hb
    have ma := Dict.mem_of_get? ha
    have mb := Dict.mem_of_get? hb
    have := List.inj_on_of_nodup_map h1 ma mb rfl
    exact congrArg Prod.fst this
  · intro a name ha
    exact h2 _ (Dict.mem_of_get? ha)

theorem component_aliases : Aliases componentAliases := aliases_of (by decide +kernel) (by decide +kernel)

theorem flag_aliases : Aliases flagAliases := aliases_of (by decide +kernel) (by decide +kernel)

/-- **C105**: each component of a pipeline is the one given by an alias, or by its name, or the default one. -/
theorem C105_components (no : V) (custom : Dict String V) {defaults : List V} {key : String} {default : V}
    (hk : (key, default) ∈ componentKeys.zip defaults) :
    Chosen componentAliases custom key default ((init no custom defaults).get? key) := by
  have hm : key ∈ componentKeys := (List.of_mem_zip hk).1
  have hne : "testing" ≠ key := by
    rintro rfl
    revert hm
    decide +kernel
  unfold init
  rw [Dict.get?_set_ne _ _ hne]
  exact chosen component_aliases (by decide +kernel) custom [] hk

/-- **C105**: each flag of a call is the one given by an alias, or by its name, or `True`; without test data `testing` is
`False`. It does not depend on earlier calls. -/
theorem C105_flags (no yes : V) (enabling : Dict String V) (hasTest : Bool) (obj : Dict String V) {key : String} (hk : key ∈ flagKeys) :
    ((hasTest = true ∨ key ≠ "testing") →
      Chosen flagAliases enabling key yes ((setFlags no yes enabling hasTest obj).get? key)) ∧
    (hasTest = false → (setFlags no yes enabling hasTest obj).get? "testing" = some no) := by
  constructor
  · intro h
    have hz : (key, yes) ∈ flagKeys.zip (List.replicate flagKeys.length yes) := by
      rw [List.mem_iff_getElem?] at hk ⊢
      obtain ⟨i, hi⟩ := hk
      have hlt : i < flagKeys.length := (List.getElem?_eq_some_iff.1 hi).1
      exact ⟨i, by rw [List.getElem?_zip_eq_some]; exact ⟨hi, by rw [List.getElem?_replicate, if_pos hlt]⟩⟩
    have := chosen flag_aliases (by decide +kernel) enabling obj hz
    unfold setFlags
    simp only
    cases hasTest with
    | true => exact this
    | false =>
      have hne : "testing" ≠ key := by
        rcases h with h | h
        · simp at h
        · exact Ne.symm h
      simp only [Bool.false_eq_true, if_false]
      rw [Dict.get?_set_ne _ _ hne]
      exact this
  · rintro rfl
    simp [setFlags]

/-- **C105**: a call changes no components. -/
theorem C105_kept (no yes : V) (enabling : Dict String V) (hasTest : Bool) (obj : Dict String V) {key : String}
    (hk : key ∈ componentKeys) : (setFlags no yes enabling hasTest obj).get? key = obj.get? key := by
  have hn : key ∉ flagKeys := by
    have : ∀ k ∈ componentKeys, k ∉ flagKeys := by decide +kernel
    exact this key hk
  have hne : "testing" ≠ key := by
    rintro rfl
    exact hn (by decide +kernel)
  have h0 : (setWithDefault enabling flagKeys (List.replicate flagKeys.length yes) flagAliases obj).get? key = obj.get? key := by
    unfold setWithDefault
    exact setAttrs_other _ _ _ fun h => hn ((zip_fst_sublist _ _).subset h)
  unfold setFlags
  simp only
  split
  · exact h0
  · rw [Dict.get?_set_ne _ _ hne, h0]

theorem addAliases_congr (aliases : Dict String String) {typo : String} (h1 : typo ∉ Dict.keys aliases)
    (ks : List String) (d : Dict String V) (h2 : ∀ a name, aliases.get? a = some name → name ≠ typo) :
    ∀ e : Dict String V, (∀ k, k ≠ typo → e.get? k = d.get? k) →
      ∀ k, k ≠ typo → (addAliases aliases ks e).get? k = (addAliases aliases ks d).get? k := by
  induction ks generalizing d with
  | nil => intro e he k hk; exact he k hk
  | cons k0 ks ih =>
    intro e he k hk
    simp only [addAliases]
    by_cases h0 : k0 = typo
    · subst h0
      rw [(Dict.get?_eq_none_iff _ _).2 h1]
      exact ih d e he k hk
    · rw [he k0 h0]
      split
      · rename_i name w h3 h4
        refine ih _ _ ?_ k hk
        intro k' hk'
        rw [Dict.get?_set, Dict.get?_set, he k' hk']
      · exact ih d e he k hk

theorem addAliases_append (aliases : Dict String String) {typo : String} (h1 : typo ∉ Dict.keys aliases)
    (ks : List String) (d : Dict String V) : addAliases aliases (ks ++ [typo]) d = addAliases aliases ks d := by
  induction ks generalizing d with
  | nil =>
    simp only [List.nil_append, addAliases]
    rw [(Dict.get?_eq_none_iff _ _).2 h1]
  | cons k ks ih =>
    simp only [List.cons_append, addAliases]
    split
    · exact ih _
    · exact ih _

theorem setAttrs_congr {d e : Dict String V} (l : List (String × V)) (obj : Dict String V)
    (h : ∀ k ∈ l.map Prod.fst, e.get? k = d.get? k) : setAttrs e l obj = setAttrs d l obj := by
  induction l generalizing obj with
  | nil => rfl
  | cons p l ih =>
    simp only [setAttrs]
    have : switchDefault e p.1 p.2 = switchDefault d p.1 p.2 := by
      unfold switchDefault
      rw [h p.1 (by simp)]
    rw [this]
    exact ih _ fun k hk => h k (by simp only [List.map_cons, List.mem_cons]; exact Or.inr hk)

theorem ignored {aliases : Dict String String} {keys : List String} {typo : String} (h1 : typo ∉ Dict.keys aliases)
    (h2 : ∀ a name, aliases.get? a = some name → name ≠ typo) (h3 : typo ∉ keys) (given : Dict String V)
    (hg : typo ∉ Dict.keys given) (v : V) (defaults : List V) (obj : Dict String V) :
    setWithDefault (given.set typo v) keys defaults aliases obj = setWithDefault given keys defaults aliases obj := by
  unfold setWithDefault
  rw [Dict.keys_set_of_not_mem _ _ _ hg, addAliases_append _ h1]
  apply setAttrs_congr
  intro k hk
  refine addAliases_congr aliases h1 _ _ h2 _ (fun k' hk' => Dict.get?_set_ne _ _ (Ne.symm hk')) k ?_
  rintro rfl
  exact h3 ((zip_fst_sublist _ _).subset hk)

/-- **C105 is false** for misspelt names: nothing is raised, the argument is ignored. -/
theorem C105_unknown_false (no yes : V) (given : Dict String V) {typo : String} (hg : typo ∉ Dict.keys given) (v : V) :
    (typo ∉ componentKeys → typo ∉ Dict.keys componentAliases → ∀ defaults,
      init no (given.set typo v) defaults = init no given defaults) ∧
    (typo ∉ flagKeys → typo ∉ Dict.keys flagAliases → ∀ hasTest obj,
      setFlags no yes (given.set typo v) hasTest obj = setFlags no yes given hasTest obj) := by
  constructor
  · intro h1 h2 defaults
    unfold init
    rw [ignored h2 ?_ h1 given hg]
    intro a name ha
    have hm := Dict.mem_of_get? ha
    have : ∀ p ∈ componentAliases, p.2 ∈ componentKeys := by decide +kernel
    rintro rfl
    exact h1 (this _ hm)
  · intro h1 h2 hasTest obj
    unfold setFlags
    rw [ignored h2 ?_ h1 given hg]
    intro a name ha
    have hm := Dict.mem_of_get? ha
    have : ∀ p ∈ flagAliases, p.2 ∈ flagKeys := by decide +kernel
    rintro rfl
    exact h1 (this _ hm)

/-- The documented attribute names of `Statistics` are `pre_expanding_weigher` and `pre_expanding_filter`, but a component
given by such a name is ignored, and so is `filters=False`. -/
example : (init 0 [("pre_expanding_filter", 99)] (List.range 14)).get? "pre_expander_filter" = some 4 ∧
    (setFlags 0 1 [("filters", 0)] true []).get? "post_filtering" = some 1 ∧
    (setFlags 0 1 [("filtering", 0)] true []).get? "post_filtering" = some 0 := by decide +kernel

/-- **C105 is false** if a name and its alias are both given: nothing is raised and the value of the name is ignored. -/
theorem C105_both_false (no : V) (custom : Dict String V) {defaults : List V} {a key : String} {default v w : V}
    (hk : (key, default) ∈ componentKeys.zip defaults) (ha : componentAliases.get? a = some key)
    (h1 : custom.get? a = some v) (_h2 : custom.get? key = some w) : (init no custom defaults).get? key = some v :=
  (C105_components no custom hk).byAlias a v ha h1

example : (init 0 [("post_filter", 98), ("filter", 99)] (List.range 14)).get? "post_filter" = some 99 ∧
    (init 0 [("filter", 99), ("post_filter", 98)] (List.range 14)).get? "post_filter" = some 99 := by decide +kernel

/-- Flags of one call do not influence the next one. -/
example : (setFlags 0 1 [] true (setFlags 0 1 [("smoothing", 0), ("pre_filtering", 0)] false [])) =
    [("smoothing", 1), ("pre_expander_weighing", 1), ("pre_expander_filtering", 1), ("pre_influence_weighing", 1),
    ("pre_influence_filtering", 1), ("post_weighing", 1), ("post_filtering", 1), ("injecting", 1), ("testing", 1)] := by
  decide +kernel

end Verif.Names
