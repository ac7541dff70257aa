import Verif.Props.DataHandler
import Verif.Props.PipelineNames
import Verif.Props.StatsObjects

/-!
# Exact conditions: repeated names, names and aliases, statistics as objects (C88, C105, C117)
-/

namespace Verif.StatsObj

variable {V : Type}

/-- The latest statistics of every component exist. -/
def World.Sound (w : World V) : Prop := ∀ c, w.latest c < w.heap.length

theorem own_aux (n : Nat) (l : List (Call V)) : ∀ (w : World V) (seen : List Nat),
    (∀ c, w.latest c < n ∨ w.latest c ∈ seen) → (seen ++ (runCalls w l).2).Nodup → (∀ r ∈ (runCalls w l).2, n ≤ r) →
    ∀ c ∈ l, c.dict?.isSome := by
  induction l with
  | nil => simp
  | cons c l ih =>
    intro w seen hs hnd hr
    simp only [runCalls] at hnd hr
    have hc : c.dict?.isSome := by
      cases c with
      | fresh d => rfl
      | component c d =>
        cases d with
        | some d => rfl
        | none =>
          exfalso
          have hr0 := hr _ List.mem_cons_self
          simp only [runCall, collect, runMethod, getLatest] at hr0 hnd
          rcases hs c with h | h
          · omega
          · rw [List.nodup_append] at hnd
            exact hnd.2.2 _ h _ List.mem_cons_self rfl
    intro x hx
    rcases List.mem_cons.1 hx with rfl | hx
    · exact hc
    · refine ih (runCall w c).1 (seen ++ [(runCall w c).2]) ?_ (by simpa using hnd)
        (fun r h => hr r (List.mem_cons_of_mem _ h)) x hx
      intro c'
      cases c with
      | fresh d =>
        rcases hs c' with h | h
        · exact Or.inl h
        · exact Or.inr (List.mem_append_left _ h)
      | component c d =>
        cases d with
        | none => cases hc
        | some d =>
          simp only [runCall, collect, runMethod, setStatistics, newDict, getLatest, if_true]
          by_cases h' : c' = c
          · right; simp [h']
          · rw [if_neg h']
            rcases hs c' with h | h
            · exact Or.inl h
            · exact Or.inr (List.mem_append_left _ h)

/-- **C117**, exactly: the collected dictionaries are new and pairwise different objects if and only if every method that is
called sets its statistics. -/
theorem C117_own_exactly {w : World V} (hw : w.Sound) (l : List (Call V)) :
    ((runCalls w l).2.Nodup ∧ ∀ r ∈ (runCalls w l).2, w.heap.length ≤ r) ↔ ∀ c ∈ l, c.dict?.isSome := by
  constructor
  · rintro ⟨h1, h2⟩
    exact own_aux w.heap.length l w [] (fun c => Or.inl (hw c)) (by simpa using h1) h2
  · intro h
    rw [(C117_own w h).1]
    refine ⟨?_, ?_⟩
    · refine (List.nodup_map_iff fun a b (hab : w.heap.length + a = w.heap.length + b) => by omega).2 List.nodup_range
    · intro r hr
      obtain ⟨i, -, rfl⟩ := List.mem_map.1 hr
      omega

/-- A filter that returns early between two filters that do not. -/
example : (runCalls (V := Nat) ⟨[[]], fun _ => 0⟩
    [.component 0 (some [("n", 3)]), .component 0 none, .component 1 (some [])]).2 = [1, 1, 2] := by decide

example : (World.mk (V := Nat) [[]] fun _ => 0).Sound := fun _ => by simp

theorem Sound.runCall {w : World V} (hw : w.Sound) (c : Call V) : (runCall w c).1.Sound := by
  intro c'
  have := hw c'
  cases c with
  | fresh d => simp only [StatsObj.runCall, newDict, List.length_append, List.length_singleton]; omega
  | component c d =>
    cases d with
    | none => exact this
    | some d =>
      simp only [StatsObj.runCall, collect, runMethod, setStatistics, newDict, List.length_append, List.length_singleton]
      split <;> omega

theorem Sound.runCalls {w : World V} (hw : w.Sound) (l : List (Call V)) : (runCalls w l).1.Sound := by
  induction l generalizing w with
  | nil => exact hw
  | cons c l ih => exact ih (Sound.runCall hw c)

theorem Sound.collect {w : World V} (hw : w.Sound) (c : Nat) (d : Option (Dict String V)) :
    (collect w c d).1.Sound ∧ (collect w c d).2 < (collect w c d).1.heap.length :=
  ⟨Sound.runCall hw (.component c d), Sound.runCall hw (.component c d) c⟩

theorem Sound.fitCall {w : World V} (hw : w.Sound) (infl : Nat) (f : Option (Option (Dict String V))) :
    (fitCall w infl f).1.Sound := by
  cases f with
  | none => exact Sound.runCall hw (.fresh [])
  | some d => exact (Sound.collect hw infl d).1

theorem Sound.preprocess {w : World V} (hw : w.Sound) (infl : Nat) (p : Phase V) :
    (preprocess w infl p).1.Sound ∧ (preprocess w infl p).2.influence < (preprocess w infl p).1.heap.length := by
  simp only [StatsObj.preprocess]
  have h1 := Sound.fitCall (Sound.runCalls hw p.before) infl p.fit
  have h2 := Sound.collect h1 infl p.remove
  have h3 : ∀ s, (updateInPlace (StatsObj.collect (StatsObj.fitCall (StatsObj.runCalls w p.before).1 infl p.fit).1 infl p.remove).1
      (StatsObj.collect (StatsObj.fitCall (StatsObj.runCalls w p.before).1 infl p.fit).1 infl p.remove).2 s).Sound := fun s c => by
    simpa [updateInPlace] using h2.1 c
  refine ⟨Sound.runCalls (h3 _) _, ?_⟩
  rw [heap_runCalls]
  simp only [updateInPlace, List.length_append, List.length_modify]
  have := h2.2
  omega

/-- **C117**, exactly: the statistics of the influence model reported for the test data are the very object reported for the
training data if and only if removing the influence from the test data sets no statistics. -/
theorem C117_same_exactly {w : World V} (hw : w.Sound) {infl : Nat} {p q : Phase V} (h3 : q.fit = none)
    (h5 : ∀ c ∈ p.after, ¬ c.uses infl) (h6 : ∀ c ∈ q.before, ¬ c.uses infl) :
    (preprocess (preprocess w infl p).1 infl q).2.influence = (preprocess w infl p).2.influence ↔ q.remove = none := by
  constructor
  · intro h
    cases hq : q.remove with
    | none => rfl
    | some d =>
      exfalso
      have hlt := (Sound.preprocess hw infl p).2
      have : (preprocess (preprocess w infl p).1 infl q).2.influence ≥ (preprocess w infl p).1.heap.length := by
        generalize (preprocess w infl p).1 = w'
        simp only [preprocess, hq, h3, fitCall, newDict, collect, runMethod, getLatest, setStatistics, if_true]
        rw [heap_runCalls]
        simp only [List.length_append]
        omega
      omega
  · intro h4
    have ha : ∀ w : World V, (preprocess w infl q).2.influence = w.latest infl := by
      intro w
      simp only [preprocess, h3, h4, fitCall, newDict, collect, runMethod, getLatest]
      exact latest_runCalls h6
    rw [ha]
    simp only [preprocess]
    rw [latest_runCalls h5]
    rfl

example : ∃ p q : Phase Nat, q.fit = none ∧ q.remove = some [("n", 1)] ∧ (∀ c ∈ p.after, ¬ c.uses 7) ∧
    (∀ c ∈ q.before, ¬ c.uses 7) ∧ (preprocess (preprocess ⟨[[]], fun _ => 0⟩ 7 p).1 7 q).2.influence ≠
      (preprocess ⟨[[]], fun _ => 0⟩ 7 p).2.influence :=
  ⟨⟨[], some (some [("wa_shift", 3)]), none, [.component 1 (some [])]⟩, ⟨[.component 1 (some [])], none, some [("n", 1)], []⟩,
    rfl, rfl, by simp [Call.uses], by simp [Call.uses], by decide⟩

end Verif.StatsObj

namespace Verif.Names

variable {V : Type}

/-- **C105**, exactly: a component given by its name is the one used if and only if every alias of the name that is given,
too, is given with the same value. -/
theorem C105_name_exactly (no : V) (custom : Dict String V) {defaults : List V} {key : String} {default w : V}
    (hk : (key, default) ∈ componentKeys.zip defaults) (hw : custom.get? key = some w) :
    (init no custom defaults).get? key = some w ↔
      ∀ a v, componentAliases.get? a = some key → custom.get? a = some v → v = w := by
  have hc := C105_components no custom hk
  constructor
  · intro h a v ha hv
    have := hc.byAlias a v ha hv
    rw [h] at this
    exact (Option.some.inj this).symm
  · intro h
    by_cases hex : ∃ a v, componentAliases.get? a = some key ∧ custom.get? a = some v
    · obtain ⟨a, v, ha, hv⟩ := hex
      rw [hc.byAlias a v ha hv, h a v ha hv]
    · refine hc.byName (fun a ha => ?_) w hw
      cases hv : custom.get? a with
      | none => rfl
      | some v => exact absurd ⟨a, v, ha, hv⟩ hex

/-- The same filter given by name and by alias, and different ones. -/
example : ("post_filter", 10) ∈ componentKeys.zip (List.range 14) ∧
    (init 0 [("post_filter", 98), ("filter", 98)] (List.range 14)).get? "post_filter" = some 98 ∧
    (init 0 [("post_filter", 98), ("filter", 99)] (List.range 14)).get? "post_filter" ≠ some 98 := by decide +kernel

end Verif.Names

namespace Verif.Handler

open Verif.Data

variable {κ V τ : Type} [DecidableEq κ] [DecidableEq τ] [HasType V τ]

/-- **C88**, exactly: if `ArrayHandler` returns then every column of the array has a column of its own in the data if and
only if no name is repeated. -/
theorem C88_array_exactly {ncols : Nat} {rows : List (List (Option V))} {keys : List κ} {D : Data κ V τ}
    (h : arrayHandle ncols rows keys = (D, none)) : D.keys.length = ncols ↔ keys.Nodup := by
  unfold arrayHandle at h
  split at h
  · simp at h
  · rename_i d hd
    unfold arrayDict at hd
    split at hd
    · simp at hd
    rename_i hlen
    have hlen : keys.length = ncols := not_not.1 hlen
    simp only [Except.ok.injEq] at hd
    have hnd : (Dict.keys d).Nodup := by rw [← hd]; exact foldl_set_keys_nodup _ _ _ (by simp)
    obtain ⟨-, h2, -⟩ := C03_update_appends (D := (empty : Data κ V τ)) .empty hnd h
    have hmem : ∀ k, k ∈ D.keys ↔ k ∈ keys := by
      intro k
      rw [h2, ← hd, mem_keys_foldl_set, List.zipIdx_map_fst]
      simp [empty, Data.keys]
    have hDn : D.keys.Nodup := (Reachable.update .empty h).rect.nodup
    have hp : D.keys.Perm keys.dedup :=
      (List.perm_ext_iff_of_nodup hDn (List.nodup_dedup _)).2 fun k => by rw [hmem, List.mem_dedup]
    rw [hp.length_eq, ← hlen]
    constructor
    · intro he
      rw [← (List.dedup_sublist keys).eq_of_length he]
      exact List.nodup_dedup _
    · intro hn
      rw [hn.dedup]

example : ((arrayHandle 2 [[some (.float 1), some (.float 2)]] ["a", "b"] : Res (Data String Val Ty)).1.keys = ["a", "b"]) ∧
    ((arrayHandle 2 [[some (.float 1), some (.float 2)]] ["a", "a"] : Res (Data String Val Ty)).1.keys = ["a"]) ∧
    ((arrayHandle 2 [[some (.float 1), some (.float 2)]] ["a", "a"] : Res (Data String Val Ty)).2 = none) := by decide +kernel

end Verif.Handler
