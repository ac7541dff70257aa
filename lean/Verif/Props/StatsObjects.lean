import Mathlib.Data.List.Basic
import Verif.Lemmas.Dict
import Verif.Model.Filter
import Verif.Model.StatsObjects

/-!
# Property C117: statistics of different runs
-/

namespace Verif.StatsObj

variable {V : Type}

/-- The number of the component of a call. -/
def Call.uses (c : Nat) : Call V → Prop
  | .component c' _ => c' = c
  | .fresh _ => False

/-- The dictionary of a call which makes a new one. -/
def Call.dict? : Call V → Option (Dict String V)
  | .component _ d => d
  | .fresh d => some d

theorem heap_runCall (w : World V) (c : Call V) :
    (runCall w c).1.heap = w.heap ++ (match c.dict? with | none => [] | some d => [d]) := by
  cases c with
  | component c d => cases d <;> simp [runCall, collect, runMethod, setStatistics, newDict, Call.dict?]
  | fresh d => rfl

theorem runCall_ref {w : World V} {c : Call V} {d : Dict String V} (h : c.dict? = some d) :
    (runCall w c).2 = w.heap.length := by
  cases c with
  | component c d' =>
    simp only [Call.dict?] at h
    subst h
    simp [runCall, collect, runMethod, setStatistics, newDict, getLatest]
  | fresh d => rfl

theorem heap_runCalls (w : World V) (l : List (Call V)) :
    (runCalls w l).1.heap = w.heap ++ l.filterMap Call.dict? := by
  induction l generalizing w with
  | nil => simp [runCalls]
  | cons c l ih =>
    simp only [runCalls]
    rw [ih, heap_runCall]
    cases h : c.dict? <;> simp [h]

theorem latest_runCalls {w : World V} {l : List (Call V)} {c : Nat} (h : ∀ x ∈ l, ¬ x.uses c) :
    (runCalls w l).1.latest c = w.latest c := by
  induction l generalizing w with
  | nil => rfl
  | cons x l ih =>
    simp only [runCalls]
    rw [ih fun y hy => h y (List.mem_cons_of_mem _ hy)]
    have hx := h x List.mem_cons_self
    cases x with
    | component c' d =>
      simp only [Call.uses] at hx
      cases d <;> simp [runCall, collect, runMethod, setStatistics, newDict, Ne.symm hx]
    | fresh d => rfl

theorem getElem?_filterMap_dict {l : List (Call V)} (h : ∀ c ∈ l, c.dict?.isSome) (i : Nat) :
    (l.filterMap Call.dict?)[i]? = l[i]?.bind Call.dict? := by
  induction l generalizing i with
  | nil => rfl
  | cons c l ih =>
    obtain ⟨d, hd⟩ := Option.isSome_iff_exists.1 (h c List.mem_cons_self)
    rw [List.filterMap_cons_some hd]
    cases i with
    | zero => simp [hd]
    | succ i => simpa using ih (fun x hx => h x (List.mem_cons_of_mem _ hx)) i

/-- **C117.** If every method sets its statistics then the collected dictionaries are new and pairwise different
objects, with the statistics of their run as contents. -/
theorem C117_own (w : World V) {l : List (Call V)} (h : ∀ c ∈ l, c.dict?.isSome) :
    (runCalls w l).2 = (List.range l.length).map (w.heap.length + ·) ∧
    (runCalls w l).2.map ((runCalls w l).1.heap[·]?) = l.map Call.dict? := by
  have hrefs : (runCalls w l).2 = (List.range l.length).map (w.heap.length + ·) := by
    induction l generalizing w with
    | nil => rfl
    | cons c l ih =>
      obtain ⟨d, hd⟩ := Option.isSome_iff_exists.1 (h c List.mem_cons_self)
      simp only [runCalls, runCall_ref hd]
      rw [ih _ fun x hx => h x (List.mem_cons_of_mem _ hx), heap_runCall, hd, List.length_cons, List.range_succ_eq_map]
      simp only [List.length_append, List.length_cons, List.length_nil, List.map_cons, Nat.add_zero, List.map_map]
      congr 1
      apply List.map_congr_left
      intro i _
      simp only [Function.comp, Nat.succ_eq_add_one]
      omega
  refine ⟨hrefs, ?_⟩
  rw [hrefs, heap_runCalls]
  apply List.ext_getElem?
  intro i
  simp only [List.map_map, List.getElem?_map, Function.comp_def]
  by_cases hi : i < l.length
  · obtain ⟨d, hd⟩ := Option.isSome_iff_exists.1 (h l[i] (List.getElem_mem hi))
    have e := getElem?_filterMap_dict h i
    rw [List.getElem?_eq_getElem hi] at e
    simp [List.getElem?_append_right, hi, e, hd]
  · simp [hi]

example : ∀ c ∈ [Call.component 0 (some [("n_rows", 3)]), .fresh [], .component 0 (some [("n_rows", 5)])],
    (Call.dict? c : Option (Dict String Nat)).isSome := by decide

/-- `d.update(d)` does nothing. -/
theorem merge_self_aux (d e f : Dict String V) (hn : (Dict.keys d).Nodup) (hd : d = f ++ e) : merge d e = d := by
  induction e generalizing f with
  | nil => rfl
  | cons p e ih =>
    obtain ⟨k, v⟩ := p
    have hs : Dict.set d k v = d := by
      subst hd
      clear ih
      induction f with
      | nil => simp [Dict.set]
      | cons q f ih =>
        simp only [List.cons_append, Dict.keys_cons, List.nodup_cons] at hn
        have hne : q.1 ≠ k := by
          intro hk
          apply hn.1
          rw [hk]
          simp [Dict.keys]
        obtain ⟨a, b⟩ := q
        simp only [List.cons_append, Dict.set, if_neg hne]
        rw [ih hn.2]
    rw [merge, hs]
    exact ih (f ++ [(k, v)]) (by rw [hd]; simp)

theorem merge_self {d : Dict String V} (hn : (Dict.keys d).Nodup) : merge d d = d := merge_self_aux d d [] hn rfl

/-- The dictionaries in the heap have no key twice. -/
def World.Wf (w : World V) : Prop := ∀ d ∈ w.heap, (Dict.keys d).Nodup

theorem heap_collect (w : World V) (c : Nat) (d : Option (Dict String V)) :
    (collect w c d).1.heap = w.heap ++ d.toList := by
  cases d <;> simp [collect, runMethod, setStatistics, newDict]

theorem getElem?_updateInPlace (w : World V) (r s i : Nat) :
    (updateInPlace w r s).heap[i]? = if r = i then w.heap[i]?.map (fun d => merge d (w.heap.getD s [])) else w.heap[i]? := by
  simp only [updateInPlace, List.getElem?_modify]
  by_cases h : r = i
  · simp [h]
  · simp [h]

theorem fit_heap (w : World V) (infl : Nat) (f : Option (Option (Dict String V))) :
    ∃ l, (fitCall w infl f).1.heap = w.heap ++ l := by
  cases f with
  | none => exact ⟨[[]], rfl⟩
  | some d => exact ⟨_, heap_collect w infl d⟩

/-- **C117.** Preprocessing, in particular of the test data, does not change any dictionary that existed before. -/
theorem C117_old {w : World V} (hw : w.Wf) (infl : Nat) (p : Phase V) {r : Nat} (hr : r < w.heap.length) :
    (preprocess w infl p).1.heap[r]? = w.heap[r]? := by
  simp only [preprocess]
  set w1 := (runCalls w p.before).1 with hw1
  have h1 : w1.heap = w.heap ++ p.before.filterMap Call.dict? := heap_runCalls w _
  obtain ⟨l, h2⟩ := fit_heap w1 infl p.fit
  set w2 := (fitCall w1 infl p.fit).1 with hw2
  have h3 := heap_collect w2 infl p.remove
  set w3 := (collect w2 infl p.remove).1 with hw3
  have hlen : r < w3.heap.length := by rw [h3, h2, h1]; simp; omega
  rw [heap_runCalls, List.getElem?_append_left (by simpa [updateInPlace] using hlen), getElem?_updateInPlace]
  have hold : w3.heap[r]? = w.heap[r]? := by
    rw [h3, h2, h1]
    simp only [List.append_assoc]
    rw [List.getElem?_append_left hr]
  rw [hold]
  split
  · rename_i heq
    -- the influence model did not set statistics in `remove_influence`
    cases hrem : p.remove with
    | some d =>
      exfalso
      have : (collect w2 infl p.remove).2 = w2.heap.length := by
        rw [hrem]
        simp [collect, runMethod, setStatistics, newDict, getLatest]
      rw [this, h2, h1] at heq
      simp at heq
      omega
    | none =>
      have e3 : w3 = w2 := by rw [hw3, hrem]; rfl
      have hlat : w2.latest infl = r := by rw [← heq, hrem]; rfl
      cases hfit : p.fit with
      | none =>
        have : (fitCall w1 infl p.fit).2 = w1.heap.length := by rw [hfit]; rfl
        have hz : w3.heap.getD (fitCall w1 infl p.fit).2 [] = [] := by
          rw [this, e3, hw2, hfit]
          simp [fitCall, newDict]
        rw [hfit] at hz
        rw [hz]
        simp [merge]
      | some d =>
        cases d with
        | some d =>
          exfalso
          have : w2.latest infl = w1.heap.length := by
            rw [hw2, hfit]
            simp [fitCall, collect, runMethod, setStatistics, newDict]
          rw [this, h1] at hlat
          simp at hlat
          omega
        | none =>
          have e2 : (fitCall w1 infl p.fit).2 = r := by
            rw [← hlat, hw2, hfit]
            rfl
          rw [hfit] at e2
          have hg : w3.heap.getD r [] = w.heap[r] := by
            rw [List.getD_eq_getElem?_getD, hold]
            simp [hr]
          rw [e2, hg, List.getElem?_eq_getElem hr]
          simp [merge_self (hw _ (List.getElem_mem hr))]
  · rfl

example : (World.mk [[("n_rows", 3)]] (fun _ => 0)).Wf ∧ 0 < [[("n_rows", 3)]].length := by
  constructor
  · intro d hd
    simp only [List.mem_singleton] at hd
    subst hd
    simp [Dict.keys]
  · decide

theorem get?_merge (d e : Dict String V) (k : String) (he : (Dict.keys e).Nodup) :
    Dict.get? (merge d e) k = (Dict.get? e k).or (Dict.get? d k) := by
  induction e generalizing d with
  | nil => rfl
  | cons p e ih =>
    obtain ⟨k', v⟩ := p
    simp only [Dict.keys_cons, List.nodup_cons] at he
    rw [merge, ih _ he.2, Dict.get?_set, Dict.get?_cons]
    by_cases h : k' = k
    · subst h
      rw [(Dict.get?_eq_none_iff e k').2 he.1]
      simp
    · simp [h]

/-- **C117.** If both `fit` and `remove_influence` set statistics then the statistics of the influence model are a new
dictionary with the entries of both; for a key set by both the value is the one set by `fit`. -/
theorem C117_influence (w : World V) (infl : Nat) {p : Phase V} {f d : Dict String V} (hf : (Dict.keys f).Nodup)
    (h1 : p.fit = some (some f)) (h2 : p.remove = some d) :
    w.heap.length ≤ (preprocess w infl p).2.influence ∧
    ∃ e, (preprocess w infl p).1.heap[(preprocess w infl p).2.influence]? = some e ∧
      ∀ k, Dict.get? e k = (Dict.get? f k).or (Dict.get? d k) := by
  simp only [preprocess, h1, h2, fitCall]
  set w1 := (runCalls w p.before).1 with hw1
  have hl1 : w1.heap = w.heap ++ p.before.filterMap Call.dict? := heap_runCalls w _
  have e1 : (collect w1 infl (some f)).2 = w1.heap.length := by
    simp [collect, runMethod, setStatistics, newDict, getLatest]
  have e2 : (collect w1 infl (some f)).1.heap = w1.heap ++ [f] := heap_collect ..
  set w2 := (collect w1 infl (some f)).1
  have e3 : (collect w2 infl (some d)).2 = w2.heap.length := by
    simp [collect, runMethod, setStatistics, newDict, getLatest]
  have e4 : (collect w2 infl (some d)).1.heap = w2.heap ++ [d] := heap_collect ..
  set w3 := (collect w2 infl (some d)).1
  rw [e1, e3]
  refine ⟨by rw [e2, hl1]; simp, merge d f, ?_, fun k => get?_merge d f k hf⟩
  rw [heap_runCalls, List.getElem?_append_left (by simp [updateInPlace, e4]), getElem?_updateInPlace, if_pos rfl, e4]
  simp [e2]

example : ∃ p : Phase Nat, p.fit = some (some [("wa_shift", 3)]) ∧ p.remove = some [("n", 4)] ∧
    (preprocess ⟨[[]], fun _ => 0⟩ 0 p).1.heap[(preprocess ⟨[[]], fun _ => 0⟩ 0 p).2.influence]? =
      some [("n", 4), ("wa_shift", 3)] :=
  ⟨⟨[], some (some [("wa_shift", 3)]), some [("n", 4)], []⟩, rfl, rfl, by decide⟩

/-- **C117 is false** for influence models which set statistics only in `fit`, as `WindAngleCorrectingInfluenceModel`
does: the statistics reported for the test data are the very dictionary reported for the training data. -/
theorem C117_same_false (w : World V) {infl : Nat} {p q : Phase V} {f : Dict String V} (h1 : p.fit = some (some f))
    (h2 : p.remove = none) (h3 : q.fit = none) (h4 : q.remove = none) (h5 : ∀ c ∈ p.after, ¬ c.uses infl)
    (h6 : ∀ c ∈ q.before, ¬ c.uses infl) :
    (preprocess (preprocess w infl p).1 infl q).2.influence = (preprocess w infl p).2.influence := by
  have ha : ∀ w : World V, (preprocess w infl q).2.influence = w.latest infl := by
    intro w
    simp only [preprocess, h3, h4, fitCall, newDict, collect, runMethod, getLatest]
    exact latest_runCalls h6
  rw [ha]
  simp only [preprocess, h1, h2, fitCall]
  rw [latest_runCalls h5]
  rfl

example : ∃ p q : Phase Nat, p.fit = some (some [("wa_shift", 3)]) ∧ p.remove = none ∧ q.fit = none ∧ q.remove = none ∧
    (∀ c ∈ p.after, ¬ c.uses 7) ∧ ∀ c ∈ q.before, ¬ c.uses 7 :=
  ⟨⟨[], some (some [("wa_shift", 3)]), none, [.component 1 (some [])]⟩, ⟨[.component 1 (some [])], none, none, []⟩, rfl, rfl,
    rfl, rfl, by simp [Call.uses], by simp [Call.uses]⟩

/-- **C117 is false** for methods which return early, as `QuantileFilter.filter` does for no weights: the latest
statistics are then those of an earlier run. -/
theorem C117_stale_false (w : World Int) (c : Nat) (percent : Rat) (d : Dict String Int) :
    (Filter.quantileFilter percent []).2 = none ∧
    (let first := collect w c (some d)
     let second := collect first.1 c ((Filter.quantileFilter percent []).2.map fun s =>
       [("n_filtered_rows", s.nFiltered), ("n_rows", s.nRows)])
     second.2 = first.2 ∧ second.1.heap[second.2]? = some d) := by
  refine ⟨rfl, ?_⟩
  simp [Filter.quantileFilter, collect, runMethod, setStatistics, newDict, getLatest]

/-- **C117** (partial: only for methods that set their statistics). The latest statistics are those of the latest run,
and statistics collected before keep their contents. -/
theorem C117_latest_partial (w : World V) (c : Nat) (d : Dict String V) :
    (collect w c (some d)).1.heap[(collect w c (some d)).2]? = some d ∧
    (∀ r < w.heap.length, (collect w c (some d)).1.heap[r]? = w.heap[r]? ∧ r ≠ (collect w c (some d)).2) ∧
    ∀ c', c' ≠ c → getLatest (collect w c (some d)).1 c' = getLatest w c' := by
  refine ⟨by simp [collect, runMethod, setStatistics, newDict, getLatest], ?_, ?_⟩
  · intro r hr
    refine ⟨by rw [heap_collect, List.getElem?_append_left hr], ?_⟩
    simp only [collect, runMethod, setStatistics, newDict, getLatest, if_true]
    omega
  · intro c' hc
    simp [collect, runMethod, setStatistics, newDict, getLatest, hc]

end Verif.StatsObj
