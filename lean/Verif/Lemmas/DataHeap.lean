import Mathlib.Data.List.Basic
import Mathlib.Data.List.Forall2
import Verif.Spec.DataHeap
import Verif.Lemmas.Dict
import Verif.Lemmas.Data

/-!
# Lemmas on `Data` objects with shared columns
-/

namespace Verif.Heap

open Verif.Data (getType getTypeAux maskList dropIdx maxColLen)

set_option linter.unusedSectionVars false

variable {κ V τ : Type} [DecidableEq κ] [DecidableEq τ] [HasType V τ]

theorem deref_append_left {s t : Store V} {r : Nat} (h : r < s.length) : deref (s ++ t) r = deref s r := by
  simp [deref, List.getD_eq_getElem?_getD, List.getElem?_append_left h]

theorem deref_append_self (s : Store V) (l : List (Option V)) : deref (s ++ [l]) s.length = l := by
  simp [deref, List.getD_eq_getElem?_getD]

theorem deref_set_self {s : Store V} {r : Nat} (h : r < s.length) (l : List (Option V)) : deref (s.set r l) r = l := by
  simp [deref, List.getD_eq_getElem?_getD, h]

theorem deref_set_ne {s : Store V} {r q : Nat} (h : r ≠ q) (l : List (Option V)) : deref (s.set r l) q = deref s q := by
  simp [deref, List.getD_eq_getElem?_getD, h]

/-- The lists of an object. -/
def Obj.refs (o : Obj κ τ) : List Nat := o.cols.map (·.2)

/-- The columns of an object are different lists, and have types. -/
structure Sep (st : St κ V τ) : Prop where
  refs : st.2.refs.Nodup
  valid : ∀ r ∈ st.2.refs, r < st.1.length
  keys : (Dict.keys st.2.cols).Nodup
  typed : ∀ k ∈ Dict.keys st.2.cols, k ∈ Dict.keys st.2.types

/-- A method changes only lists of its object and new lists, and takes no other lists as columns. -/
structure Step (st st' : St κ V τ) : Prop where
  sep : Sep st'
  len : st.1.length ≤ st'.1.length
  frame : ∀ q, q < st.1.length → q ∉ st.2.refs → deref st'.1 q = deref st.1 q
  own : ∀ q ∈ st'.2.refs, q ∈ st.2.refs ∨ st.1.length ≤ q

theorem Step.refl {st : St κ V τ} (h : Sep st) : Step st st := ⟨h, le_refl _, fun _ _ _ => rfl, fun _ hq => .inl hq⟩

theorem Step.trans {a b c : St κ V τ} (h1 : Step a b) (h2 : Step b c) : Step a c := by
  refine ⟨h2.sep, h1.len.trans h2.len, ?_, ?_⟩
  · intro q hq hn
    rw [h2.frame q (lt_of_lt_of_le hq h1.len) ?_, h1.frame q hq hn]
    intro hb
    rcases h1.own q hb with h | h
    · exact hn h
    · omega
  · intro q hq
    rcases h2.own q hq with h | h
    · exact h1.own q h
    · exact .inr (h1.len.trans h)

/-- A method on the store does what the method on values does. -/
structure Sim (st : St κ V τ) (r : Res (St κ V τ)) (v : Res (Data κ V τ)) : Prop where
  step : Step st r.1
  view : view r.1 = v.1
  err : r.2 = v.2

theorem Sim.andThen {st : St κ V τ} {r : Res (St κ V τ)} {v : Res (Data κ V τ)} (h : Sim st r v)
    {f : St κ V τ → Res (St κ V τ)} {g : Data κ V τ → Res (Data κ V τ)}
    (hfg : Step st r.1 → Sim r.1 (f r.1) (g (Heap.view r.1))) : Sim st (r.andThen f) (v.andThen g) := by
  obtain ⟨st', e⟩ := r
  obtain ⟨D, e'⟩ := v
  obtain ⟨hs, hv, he⟩ := h
  simp only at hs hv he
  subst he hv
  cases e with
  | some e => exact ⟨hs, rfl, rfl⟩
  | none =>
    have := hfg hs
    exact ⟨hs.trans this.step, this.view, this.err⟩

theorem forEach_sim {ι ι' : Type} {f : St κ V τ → ι → Res (St κ V τ)} {g : Data κ V τ → ι' → Res (Data κ V τ)}
    (R : St κ V τ → ι → ι' → Prop) (hR : ∀ st c a b, R st a b → Step st (f st c).1 → R (f st c).1 a b)
    (hfg : ∀ st a b, Sep st → R st a b → Sim st (f st a) (g (view st) b)) :
    ∀ (as : List ι) (bs : List ι') (st : St κ V τ), Sep st → List.Forall₂ (R st) as bs →
      Sim st (Res.forEach f as st) (Res.forEach g bs (view st)) := by
  intro as
  induction as with
  | nil =>
    intro bs st hs h
    cases h
    exact ⟨Step.refl hs, rfl, rfl⟩
  | cons a as ih =>
    intro bs st hs h
    cases h with
    | cons hab hrest =>
      simp only [Res.forEach]
      refine (hfg st a _ hs hab).andThen fun hst' => ih _ _ hst'.sep ?_
      exact hrest.imp fun x y hxy => hR st a x y hxy hst'

theorem forall₂_eq {ι : Type} (l : List ι) : List.Forall₂ (fun a b : ι => a = b) l l := by
  induction l with
  | nil => exact .nil
  | cons a l ih => exact .cons rfl ih

/-! ### Changing a column -/

theorem get?_view {st : St κ V τ} (k : κ) : (view st).cols.get? k = (st.2.cols.get? k).map (deref st.1) := by
  simp [view]

theorem keys_view (st : St κ V τ) : Dict.keys (view st).cols = Dict.keys st.2.cols := by simp [view]

theorem mem_refs_of_get? {st : St κ V τ} {k : κ} {r : Nat} (h : st.2.cols.get? k = some r) : r ∈ st.2.refs :=
  List.mem_map.2 ⟨(k, r), Dict.mem_of_get? h, rfl⟩

theorem mapVals_set_store {s : Store V} {d : Dict κ Nat} (hd : (d.map (·.2)).Nodup) (hv : ∀ r ∈ d.map (·.2), r < s.length)
    {k : κ} {r : Nat} (h : d.get? k = some r) (l : List (Option V)) :
    Dict.mapVals (deref (s.set r l)) d = (Dict.mapVals (deref s) d).set k l := by
  induction d with
  | nil => simp at h
  | cons p d ih =>
    obtain ⟨k', r'⟩ := p
    simp only [List.map_cons, List.nodup_cons] at hd
    simp only [Dict.get?_cons] at h
    by_cases hk : k' = k
    · rw [if_pos hk] at h
      obtain rfl := Option.some.inj h
      have hr : r' < s.length := hv r' (by simp)
      simp only [Dict.mapVals, List.map_cons, Dict.set, if_pos hk, deref_set_self hr, List.cons.injEq, true_and]
      apply List.map_congr_left
      intro q hq
      rw [deref_set_ne]
      rintro rfl
      exact hd.1 (List.mem_map.2 ⟨q, hq, rfl⟩)
    · rw [if_neg hk] at h
      have hne : r ≠ r' := by
        rintro rfl
        exact hd.1 (List.mem_map.2 ⟨(k, r), Dict.mem_of_get? h, rfl⟩)
      have ih' := ih hd.2 (fun q hq => hv q (List.mem_cons_of_mem _ hq)) h
      simp only [Dict.mapVals, List.map_cons, Dict.set, if_neg hk, deref_set_ne hne, List.cons.injEq, true_and]
      exact ih'

theorem mapVals_set {α β : Type} (f : α → β) (d : Dict κ α) (k : κ) (r : α) :
    Dict.mapVals f (d.set k r) = (Dict.mapVals f d).set k (f r) := by
  induction d with
  | nil => rfl
  | cons p d ih =>
    simp only [Dict.set, Dict.mapVals, List.map_cons]
    split
    · rfl
    · simp only [List.map_cons, List.cons.injEq, true_and]; exact ih

theorem mapVals_del {α β : Type} (f : α → β) (d : Dict κ α) (k : κ) :
    Dict.mapVals f (d.del k) = (Dict.mapVals f d).del k := by
  induction d with
  | nil => rfl
  | cons p d ih =>
    simp only [Dict.del, Dict.mapVals, List.map_cons]
    split
    · rfl
    · simp only [List.map_cons, List.cons.injEq, true_and]; exact ih

theorem mapVals_append_store {s t : Store V} {d : Dict κ Nat} (hv : ∀ r ∈ d.map (·.2), r < s.length) :
    Dict.mapVals (deref (s ++ t)) d = Dict.mapVals (deref s) d := by
  apply List.map_congr_left
  intro q hq
  rw [deref_append_left (hv q.2 (List.mem_map.2 ⟨q, hq, rfl⟩))]

theorem set_refs {α : Type} {d : Dict κ α} {k : κ} {r : α} :
    ∀ q ∈ (d.set k r).map (·.2), q ∈ d.map (·.2) ∨ q = r := by
  induction d with
  | nil => intro q hq; simp [Dict.set] at hq; exact .inr hq
  | cons p d ih =>
    intro q hq
    simp only [Dict.set] at hq
    split at hq
    · simp only [List.map_cons, List.mem_cons] at hq ⊢
      tauto
    · simp only [List.map_cons, List.mem_cons] at hq ⊢
      rcases hq with hq | hq
      · exact .inl (.inl hq)
      · rcases ih q hq with h | h
        · exact .inl (.inr h)
        · exact .inr h

theorem set_refs_nodup {α : Type} {d : Dict κ α} {k : κ} {r : α} (h : (d.map (·.2)).Nodup) (hr : r ∉ d.map (·.2)) :
    ((d.set k r).map (·.2)).Nodup := by
  induction d with
  | nil => simp [Dict.set]
  | cons p d ih =>
    simp only [List.map_cons, List.nodup_cons, List.mem_cons, not_or] at h hr
    simp only [Dict.set]
    split
    · simp only [List.map_cons, List.nodup_cons]
      exact ⟨hr.2, h.2⟩
    · simp only [List.map_cons, List.nodup_cons]
      refine ⟨fun hm => ?_, ih h.2 hr.2⟩
      rcases set_refs _ hm with h' | h'
      · exact h.1 h'
      · exact hr.1 h'.symm

theorem getTypeAux_replicate (n : Nat) (c : Option τ) : getTypeAux c (List.replicate n (none : Option V)) = .ok c := by
  induction n with
  | zero => rfl
  | succ n ih => simp only [List.replicate_succ, getTypeAux]; exact ih

/-- Changing the list of a column in place, and the types. -/
theorem Step.set_store {st : St κ V τ} (h : Sep st) {k : κ} {r : Nat} (hk : st.2.cols.get? k = some r)
    (l : List (Option V)) {types : Dict κ (Option τ)} (ht : ∀ k ∈ Dict.keys st.2.types, k ∈ Dict.keys types) (m : Int) :
    Step st (st.1.set r l, { st.2 with types := types, maxLen := m }) := by
  have hr := mem_refs_of_get? hk
  refine ⟨⟨h.refs, ?_, h.keys, fun k hk => ht k (h.typed k hk)⟩, by simp, ?_, fun q hq => .inl hq⟩
  · intro q hq; simpa using h.valid q hq
  · intro q _ hq
    exact deref_set_ne (by rintro rfl; exact hq hr) l

/-- A new list as a column. -/
theorem Step.new_col {st : St κ V τ} (h : Sep st) (k : κ) (l : List (Option V)) {types : Dict κ (Option τ)}
    (ht : ∀ k ∈ Dict.keys st.2.types, k ∈ Dict.keys types) (hk : k ∈ Dict.keys types) (m : Int) :
    Step st (st.1 ++ [l], { cols := st.2.cols.set k st.1.length, types := types, maxLen := m }) := by
  refine ⟨⟨?_, ?_, Dict.nodup_keys_set _ _ _ h.keys, ?_⟩, by simp, ?_, ?_⟩
  · exact set_refs_nodup h.refs fun hm => lt_irrefl _ (h.valid _ hm)
  · intro q hq
    rcases set_refs q hq with h' | h'
    · have := h.valid q h'; simp; omega
    · simp [h']
  · intro k' hk'
    rw [Dict.mem_keys_set] at hk'
    rcases hk' with h' | h'
    · subst h'; exact hk
    · exact ht _ (h.typed _ h')
  · intro q hq _; exact deref_append_left hq
  · intro q hq
    rcases set_refs q hq with h' | h'
    · exact .inl h'
    · exact .inr h'.ge

theorem mem_keys_set' {α : Type} (d : Dict κ α) (k : κ) (v : α) : ∀ k' ∈ Dict.keys d, k' ∈ Dict.keys (d.set k v) := by
  intro k' h; rw [Dict.mem_keys_set]; exact .inr h

/-! ### The methods -/

theorem extend_sim {st : St κ V τ} (h : Sep st) {key : κ} (hk : key ∈ Dict.keys st.2.cols) (src : Nat) :
    Sim st (extend st key src) ((view st).extend key (deref st.1 src)) := by
  obtain ⟨r, hr⟩ := (Dict.mem_keys_iff _ _).1 hk
  obtain ⟨t, ht⟩ := (Dict.mem_keys_iff _ _).1 (h.typed key hk)
  unfold extend Data.extend
  rw [get?_view, hr]
  have hty : (view st).types = st.2.types := rfl
  have hml : (view st).maxLen = st.2.maxLen := rfl
  simp only [Option.map_some, hty, hml, ht]
  cases hdt : getType (deref st.1 src) with
  | error e => exact ⟨Step.refl h, rfl, rfl⟩
  | ok dt =>
    simp only
    have htypes : ∀ k ∈ Dict.keys st.2.types, k ∈ Dict.keys (if t = none then st.2.types.set key dt else st.2.types) := by
      intro k hk'
      split
      · exact mem_keys_set' _ _ _ k hk'
      · exact hk'
    revert htypes
    generalize (if t = none then st.2.types.set key dt else st.2.types) = types
    generalize (if t = none then dt else t) = t'
    intro htypes
    split
    · refine ⟨⟨⟨h.refs, h.valid, h.keys, fun k hk' => htypes k (h.typed k hk')⟩, le_refl _, fun _ _ _ => rfl,
        fun q hq => .inl hq⟩, rfl, rfl⟩
    · refine ⟨Step.set_store h hr _ htypes _, ?_, rfl⟩
      simp only [view]
      rw [mapVals_set_store h.refs h.valid hr]

theorem append_sim {st : St κ V τ} (h : Sep st) (key : κ) (v : Option V) :
    Sim st (append st key v) ((view st).append key v) := by
  have hst : Step st (st.1 ++ [[v]], st.2) := by
    refine ⟨⟨h.refs, fun r hr => ?_, h.keys, h.typed⟩, by simp, fun q hq _ => deref_append_left hq, fun q hq => .inl hq⟩
    have := h.valid r hr; simp; omega
  have hview : view (st.1 ++ [[v]], st.2) = view st := by
    simp only [view]; rw [mapVals_append_store h.valid]
  unfold append Data.append
  by_cases hk : key ∈ Dict.keys st.2.cols
  · have := extend_sim hst.sep hk st.1.length
    rw [hview, deref_append_self] at this
    exact ⟨hst.trans this.step, this.view, this.err⟩
  · have hn : st.2.cols.get? key = none := (Dict.get?_eq_none_iff _ _).2 hk
    unfold extend Data.extend
    rw [get?_view, hn, deref_append_self]
    cases hdt : getType [v] with
    | error e => exact ⟨hst, hview, rfl⟩
    | ok dt =>
      simp only [Option.map_none]
      refine ⟨Step.new_col h key [v] (mem_keys_set' _ _ _) (by rw [Dict.mem_keys_set]; exact .inl rfl) _, ?_, rfl⟩
      simp only [view]
      rw [mapVals_set, mapVals_append_store h.valid, deref_append_self]

theorem fillKey_sim {st : St κ V τ} (h : Sep st) (len : Int) (key : κ) :
    Sim st (fillKey len st key) ((view st).fillKey len key) := by
  unfold fillKey Data.fillKey
  cases hk : st.2.cols.get? key with
  | some r =>
    rw [get?_view, hk]
    simp only [Option.map_some, Option.getD_some]
    generalize deref st.1 r ++ _ = new
    cases hdt : getType new with
    | error e =>
      refine ⟨Step.set_store h hk _ (fun k hk => hk) _, ?_, rfl⟩
      simp only [view]
      rw [mapVals_set_store h.refs h.valid hk]
    | ok t =>
      refine ⟨Step.set_store h hk _ (mem_keys_set' _ _ _) _, ?_, rfl⟩
      simp only [view]
      rw [mapVals_set_store h.refs h.valid hk]
  | none =>
    rw [get?_view, hk]
    simp only [Option.map_none, Option.getD_none, List.nil_append]
    have hdt : ∀ n, getType (List.replicate n (none : Option V)) = (.ok none : Except PyErr (Option τ)) :=
      fun n => getTypeAux_replicate n none
    rw [hdt]
    refine ⟨Step.new_col h key _ (mem_keys_set' _ _ _) (by rw [Dict.mem_keys_set]; exact .inl rfl) _, ?_, rfl⟩
    simp only [view]
    rw [mapVals_set, mapVals_append_store h.valid, deref_append_self]

theorem fill_sim {st : St κ V τ} (h : Sep st) (len : Int) (ks : List κ) :
    Sim st (fill st len ks) ((view st).fill len ks) :=
  forEach_sim (fun _ a b => a = b) (fun _ _ _ _ hab _ => hab)
    (fun st a b hs hab => by subst hab; exact fillKey_sim hs len a) ks ks st h (forall₂_eq ks)

theorem keys_fillKey (len : Int) (st : St κ V τ) (key : κ) :
    ∀ k, k ∈ Dict.keys st.2.cols ∨ k = key → k ∈ Dict.keys (fillKey len st key).1.2.cols := by
  intro k hk
  unfold fillKey
  cases h : st.2.cols.get? key with
  | some r =>
    have hmem : key ∈ Dict.keys st.2.cols := (Dict.mem_keys_iff _ _).2 ⟨r, h⟩
    have : k ∈ Dict.keys st.2.cols := by
      rcases hk with hk | rfl
      · exact hk
      · exact hmem
    simp only
    split <;> exact this
  | none =>
    have : k ∈ Dict.keys (st.2.cols.set key st.1.length) := by
      rw [Dict.mem_keys_set]; tauto
    simp only
    split <;> exact this

theorem keys_extend (st : St κ V τ) (key : κ) (src : Nat) :
    ∀ k ∈ Dict.keys st.2.cols, k ∈ Dict.keys (extend st key src).1.2.cols := by
  intro k hk
  unfold extend
  split
  · exact hk
  · split
    · split
      · exact hk
      · simp only
        split_ifs <;> exact hk
    · exact mem_keys_set' _ _ _ k hk

theorem keys_putArg (st : St κ V τ) (p : κ × Arg V) :
    ∀ k ∈ Dict.keys st.2.cols, k ∈ Dict.keys (putArg st p).1.2.cols := by
  intro k hk
  unfold putArg
  split
  · exact keys_extend st _ _ k hk
  · exact keys_extend (st.1 ++ _, st.2) _ _ k hk

theorem keys_fill (len : Int) (ks : List κ) : ∀ (st : St κ V τ), (fill st len ks).2 = none →
    ∀ k, k ∈ Dict.keys st.2.cols ∨ k ∈ ks → k ∈ Dict.keys (fill st len ks).1.2.cols := by
  induction ks with
  | nil => intro st _ k hk; simpa [fill, Res.forEach] using hk
  | cons key ks ih =>
    intro st he k hk
    have e : fill st len (key :: ks) = (fillKey len st key).andThen fun st => fill st len ks := rfl
    rw [e] at he ⊢
    have hstep := keys_fillKey len st key k
    revert he hstep
    generalize fillKey len st key = r
    obtain ⟨st', err⟩ := r
    intro he hstep
    cases err with
    | some e => simp [Res.andThen] at he
    | none =>
      simp only [Res.andThen] at he ⊢
      refine ih st' he k ?_
      rcases hk with hk | hk
      · exact .inl (hstep (.inl hk))
      · rcases List.mem_cons.1 hk with hk | hk
        · exact .inl (hstep (.inr hk))
        · exact .inr hk

/-- The dictionary given to `update`, read in the store; its lists are no columns of the object. -/
def ArgRel (st : St κ V τ) : Arg V → Verif.Arg V → Prop
  | .list src, .list l => src < st.1.length ∧ src ∉ st.2.refs ∧ l = deref st.1 src
  | .scalar v, .scalar v' => v = v'
  | _, _ => False

theorem ArgRel.step {st st' : St κ V τ} (hst : Step st st') {a : Arg V} {b : Verif.Arg V} (h : ArgRel st a b) :
    ArgRel st' a b := by
  cases a with
  | list src =>
    cases b with
    | list l =>
      obtain ⟨h1, h2, h3⟩ := h
      refine ⟨lt_of_lt_of_le h1 hst.len, fun hm => ?_, by rw [hst.frame src h1 h2]; exact h3⟩
      rcases hst.own src hm with h' | h'
      · exact h2 h'
      · omega
    | scalar v => exact h.elim
  | scalar v => cases b with
    | list l => exact h.elim
    | scalar v' => exact h

theorem putArg_sim {st : St κ V τ} (h : Sep st) {p : κ × Arg V} {q : κ × Verif.Arg V} (hk : p.1 = q.1)
    (hmem : p.1 ∈ Dict.keys st.2.cols) (hr : ArgRel st p.2 q.2) : Sim st (putArg st p) ((view st).putArg q) := by
  obtain ⟨k, a⟩ := p
  obtain ⟨k', b⟩ := q
  simp only at hk hmem hr
  subst hk
  unfold putArg Data.putArg
  cases a with
  | list src =>
    cases b with
    | list l =>
      obtain ⟨_, _, rfl⟩ := hr
      exact extend_sim h hmem src
    | scalar v => exact hr.elim
  | scalar v =>
    cases b with
    | list l => exact hr.elim
    | scalar v' =>
      have : v = v' := hr
      subst this
      exact append_sim h k v

theorem unsafeUpdate_sim {st : St κ V τ} (h : Sep st) {d : Dict κ (Arg V)} {d' : Dict κ (Verif.Arg V)}
    (hd : List.Forall₂ (fun p q => p.1 = q.1 ∧ p.1 ∈ Dict.keys st.2.cols ∧ ArgRel st p.2 q.2) d d') :
    Sim st (unsafeUpdate st d) ((view st).unsafeUpdate d') := by
  refine (forEach_sim (fun st p q => p.1 = q.1 ∧ p.1 ∈ Dict.keys st.2.cols ∧ ArgRel st p.2 q.2) ?_ ?_ d d' st h hd).andThen
    fun hst => ?_
  · intro st c p q ⟨h1, h2, h3⟩ hst
    exact ⟨h1, keys_putArg st c _ h2, h3.step hst⟩
  · intro st p q hs ⟨h1, h2, h3⟩
    exact putArg_sim hs h1 h2 h3
  · have hkeys := keys_view (Res.forEach putArg d st).1
    have := fill_sim hst.sep (Res.forEach putArg d st).1.2.maxLen (Dict.keys (Res.forEach putArg d st).1.2.cols)
    rw [← hkeys] at this
    simp only [Data.keys]
    rw [hkeys] at this ⊢
    exact this

theorem allLastNone_view (st : St κ V τ) (ks : List κ) : (view st).allLastNone ks = allLastNone st ks := by
  induction ks with
  | nil => rfl
  | cons k ks ih =>
    simp only [Data.allLastNone, allLastNone]
    rw [get?_view]
    cases st.2.cols.get? k with
    | none => rfl
    | some r =>
      simp only [Option.map_some]
      rw [ih]
      cases pyIndex (deref st.1 r) (-1) with
      | none => rfl
      | some v => cases v <;> rfl

theorem dropLastKey_sim {st : St κ V τ} (h : Sep st) (k : κ) :
    Sim st (dropLastKey st k) ((view st).dropLastKey k) := by
  unfold dropLastKey Data.dropLastKey
  rw [get?_view]
  cases hk : st.2.cols.get? k with
  | none => exact ⟨Step.refl h, rfl, rfl⟩
  | some r =>
    have hmem : k ∈ Dict.keys st.2.cols := (Dict.mem_keys_iff _ _).2 ⟨r, hk⟩
    refine ⟨Step.new_col h k _ (fun k hk => hk) (h.typed k hmem) _, ?_, rfl⟩
    simp only [view]
    rw [mapVals_set, mapVals_append_store h.valid, deref_append_self]
    rfl

theorem keys_dropLast (ks : List κ) : ∀ (st : St κ V τ), ∀ k ∈ Dict.keys st.2.cols,
    k ∈ Dict.keys (Res.forEach dropLastKey ks st).1.2.cols := by
  intro st k hk
  refine Res.forEach_inv (P := fun st => k ∈ Dict.keys st.2.cols) ?_ ks st hk
  intro st key hk
  unfold dropLastKey
  split
  · exact hk
  · exact mem_keys_set' _ _ _ k hk

theorem update_sim {st : St κ V τ} (h : Sep st) {d : Dict κ (Arg V)} {d' : Dict κ (Verif.Arg V)} (compress : Bool)
    (hd : List.Forall₂ (fun p q => p.1 = q.1 ∧ ArgRel st p.2 q.2) d d') :
    Sim st (update st d compress) ((view st).update d' compress) := by
  have hkeys : Dict.keys d = Dict.keys d' := by
    clear h
    induction hd with
    | nil => rfl
    | cons hab _ ih => simp only [Dict.keys_cons]; rw [hab.1, ih]
  have hfill := fill_sim h st.2.maxLen (Dict.keys d ++ Dict.keys st.2.cols)
  unfold update Data.update
  have e1 : (view st).maxLen = st.2.maxLen := rfl
  have e2 : (view st).keys = Dict.keys st.2.cols := keys_view st
  rw [e1, e2, ← hkeys]
  have hk : (fill st st.2.maxLen (Dict.keys d ++ Dict.keys st.2.cols)).2 = none → ∀ k ∈ Dict.keys d,
      k ∈ Dict.keys (fill st st.2.maxLen (Dict.keys d ++ Dict.keys st.2.cols)).1.2.cols := by
    intro he k hk
    exact keys_fill _ _ st he k (.inr (List.mem_append_left _ hk))
  revert hfill hk
  generalize fill st st.2.maxLen (Dict.keys d ++ Dict.keys st.2.cols) = r
  generalize (view st).fill st.2.maxLen (Dict.keys d ++ Dict.keys st.2.cols) = v
  intro hfill hk
  obtain ⟨st', err⟩ := r
  cases err with
  | some e =>
    obtain ⟨D, err'⟩ := v
    obtain ⟨h1, h2, h3⟩ := hfill
    simp only at h3
    subst h3
    exact ⟨h1, h2, rfl⟩
  | none =>
    refine hfill.andThen fun hst => ?_
    have hk' := hk rfl
    simp only at hst hk' ⊢
    have hd1 : List.Forall₂ (fun p q => p.1 = q.1 ∧ ArgRel st' p.2 q.2) d d' :=
      hd.imp fun p q hpq => ⟨hpq.1, hpq.2.step hst⟩
    have hd2 : ∀ {st'' : St κ V τ}, Step st' st'' → (∀ k ∈ Dict.keys d, k ∈ Dict.keys st''.2.cols) →
        List.Forall₂ (fun p q => p.1 = q.1 ∧ p.1 ∈ Dict.keys st''.2.cols ∧ ArgRel st'' p.2 q.2) d d' := by
      intro st'' hst'' hkk
      clear hk hk' hkeys hd
      induction hd1 with
      | nil => exact .nil
      | cons hab hrest ih =>
        refine .cons ⟨hab.1, hkk _ (by simp), hab.2.step hst''⟩ (ih fun k hk => hkk k (by simp [hk]))
    have hu : Sim st' (unsafeUpdate st' d) ((view st').unsafeUpdate d') :=
      unsafeUpdate_sim hst.sep (hd2 (Step.refl hst.sep) hk')
    have e3 : (view st').maxLen = st'.2.maxLen := rfl
    rw [e3, allLastNone_view]
    split
    · exact hu
    · cases allLastNone st' (Dict.keys d) with
      | error e => exact ⟨Step.refl hst.sep, rfl, rfl⟩
      | ok b =>
        cases b with
        | false => exact hu
        | true =>
          refine (forEach_sim (fun _ a b => a = b) (fun _ _ _ _ hab _ => hab)
            (fun st a b hs hab => by subst hab; exact dropLastKey_sim hs a) _ _ st' hst.sep (forall₂_eq _)).andThen
            fun hst'' => ?_
          exact unsafeUpdate_sim hst''.sep (hd2 hst'' fun k hk => keys_dropLast _ st' k (hk' k hk))

theorem updateData_sim {st : St κ V τ} (h : Sep st) {other : Obj κ τ} (ho : ∀ r ∈ other.refs, r < st.1.length ∧ r ∉ st.2.refs) :
    Sim st (updateData st other) ((view st).updateData (view (st.1, other))) := by
  refine update_sim h false ?_
  simp only [view, Dict.mapVals]
  have : ∀ d : Dict κ Nat, (∀ r ∈ d.map (·.2), r < st.1.length ∧ r ∉ st.2.refs) →
      List.Forall₂ (fun p q => p.1 = q.1 ∧ ArgRel st p.2 q.2) (d.map fun p => (p.1, Arg.list (V := V) p.2))
        ((d.map fun p => (p.1, deref st.1 p.2)).map fun p => (p.1, Verif.Arg.list p.2)) := by
    intro d hd
    induction d with
    | nil => exact .nil
    | cons p d ih =>
      refine .cons ⟨rfl, (hd p.2 (by simp)).1, (hd p.2 (by simp)).2, rfl⟩ (ih fun r hr => hd r ?_)
      simp only [List.map_cons, List.mem_cons]; exact .inr hr
  exact this other.cols ho

/-! ### Methods which change no list -/

theorem del_refs {α : Type} {d : Dict κ α} {k : κ} : ∀ q ∈ (d.del k).map (·.2), q ∈ d.map (·.2) :=
  fun _ hq => ((Dict.del_sublist d k).map _).subset hq

theorem Step.del {st : St κ V τ} (h : Sep st) (k : κ) :
    Step st (st.1, { st.2 with cols := st.2.cols.del k, types := st.2.types.del k }) := by
  refine ⟨⟨((Dict.del_sublist _ k).map _).nodup h.refs, fun r hr => h.valid r (del_refs r hr), Dict.nodup_keys_del _ _ h.keys,
    ?_⟩, le_refl _, fun _ _ _ => rfl, fun q hq => .inl (del_refs q hq)⟩
  intro k' hk'
  simp only [Dict.keys_del] at hk' ⊢
  have hne : k' ≠ k := by
    rintro rfl
    exact h.keys.not_mem_erase hk'
  exact (List.mem_erase_of_ne hne).2 (h.typed k' (List.mem_of_mem_erase hk'))

theorem deleteCol_sim {st : St κ V τ} (h : Sep st) (k : κ) : Sim st (deleteCol st k) ((view st).deleteCol k) := by
  unfold deleteCol Data.deleteCol
  rw [get?_view]
  have hty : (view st).types = st.2.types := rfl
  rw [hty]
  cases hk : st.2.cols.get? k with
  | none => exact ⟨Step.refl h, rfl, rfl⟩
  | some r =>
    obtain ⟨t, ht⟩ := (Dict.mem_keys_iff _ _).1 (h.typed k ((Dict.mem_keys_iff _ _).2 ⟨r, hk⟩))
    rw [ht]
    refine ⟨Step.del h k, ?_, rfl⟩
    simp only [view]
    rw [mapVals_del]
    rfl

theorem filterTypes_sim {st : St κ V τ} (h : Sep st) (ts : List (Option τ)) :
    Sim st (filterTypes st ts) ((view st).filterTypes ts) := by
  unfold filterTypes Data.filterTypes
  have e : (view st).keys = Dict.keys st.2.cols := keys_view st
  rw [e]
  refine forEach_sim (fun _ a b => a = b) (fun _ _ _ _ hab _ => hab) ?_ _ _ st h (forall₂_eq _)
  intro st a b hs hab
  subst hab
  have hty : (view st).types = st.2.types := rfl
  rw [hty]
  cases st.2.types.get? a with
  | none => exact ⟨Step.refl hs, rfl, rfl⟩
  | some t =>
    simp only
    split
    · exact ⟨Step.refl hs, rfl, rfl⟩
    · refine ⟨Step.del hs a, ?_, rfl⟩
      simp only [view]
      rw [mapVals_del]

theorem del_append {α : Type} {d : Dict κ α} (e : Dict κ α) {k : κ} (h : k ∈ Dict.keys d) :
    Dict.del (d ++ e) k = Dict.del d k ++ e := by
  induction d with
  | nil => simp at h
  | cons p d ih =>
    simp only [List.cons_append, Dict.del]
    split
    · rfl
    · rename_i hne
      simp only [Dict.keys_cons, List.mem_cons] at h
      rcases h with h | h
      · exact absurd h.symm hne
      · rw [ih h]; rfl

theorem not_mem_del_refs {α : Type} {d : Dict κ α} (h : (d.map (·.2)).Nodup) {k : κ} {r : α} (hk : d.get? k = some r) :
    r ∉ (d.del k).map (·.2) := by
  induction d with
  | nil => simp at hk
  | cons p d ih =>
    simp only [List.map_cons, List.nodup_cons] at h
    simp only [Dict.del]
    rw [Dict.get?_cons] at hk
    split
    · rename_i hp
      rw [if_pos hp] at hk
      obtain rfl := Option.some.inj hk
      exact h.1
    · rename_i hp
      rw [if_neg hp] at hk
      simp only [List.map_cons, List.mem_cons, not_or]
      refine ⟨?_, ih h.2 hk⟩
      rintro rfl
      exact h.1 (List.mem_map.2 ⟨(k, p.2), Dict.mem_of_get? hk, rfl⟩)

theorem rename_sim {st : St κ V τ} (h : Sep st) (old new : κ) : Sim st (rename st old new) ((view st).rename old new) := by
  unfold rename Data.rename
  have e : (view st).keys = Dict.keys st.2.cols := keys_view st
  have hty : (view st).types = st.2.types := rfl
  rw [e, get?_view, hty]
  split
  · exact ⟨Step.refl h, rfl, rfl⟩
  · rename_i hne
    split
    · exact ⟨Step.refl h, rfl, rfl⟩
    · rename_i hnew
      cases hk : st.2.cols.get? old with
      | none => exact ⟨Step.refl h, rfl, rfl⟩
      | some r =>
        have hold : old ∈ Dict.keys st.2.cols := (Dict.mem_keys_iff _ _).2 ⟨r, hk⟩
        obtain ⟨t, ht⟩ := (Dict.mem_keys_iff _ _).1 (h.typed old hold)
        rw [ht]
        simp only [Option.map_some]
        have hnv : new ∉ Dict.keys (view st).cols := by rw [keys_view]; exact hnew
        have hov : old ∈ Dict.keys (view st).cols := by rw [keys_view]; exact hold
        have g1 : (st.2.cols.set new r).get? old = some r := by rw [Dict.get?_set_ne _ _ (Ne.symm hne), hk]
        have g2 : (st.2.types.set new t).get? old = some t := by rw [Dict.get?_set_ne _ _ (Ne.symm hne), ht]
        have g3 : ((view st).cols.set new (deref st.1 r)).get? old = some (deref st.1 r) := by
          rw [Dict.get?_set_ne _ _ (Ne.symm hne), get?_view, hk]; rfl
        unfold deleteCol Data.deleteCol
        simp only [g1, g2, g3]
        rw [Dict.set_of_not_mem _ _ _ hnew, Dict.set_of_not_mem _ _ _ hnv, del_append _ hold, del_append _ hov]
        have href : r ∈ st.2.refs := mem_refs_of_get? hk
        refine ⟨⟨⟨?_, ?_, ?_, ?_⟩, le_refl _, fun _ _ _ => rfl, ?_⟩, ?_, rfl⟩
        · simp only [Obj.refs, List.map_append, List.map_cons, List.map_nil]
          rw [List.nodup_append]
          refine ⟨((Dict.del_sublist _ old).map _).nodup h.refs, by simp, ?_⟩
          intro a ha b hb
          simp only [List.mem_singleton] at hb
          subst hb
          rintro rfl
          exact not_mem_del_refs h.refs hk ha
        · intro q hq
          simp only [Obj.refs, List.map_append, List.map_cons, List.map_nil, List.mem_append, List.mem_singleton] at hq
          rcases hq with hq | rfl
          · exact h.valid q (del_refs q hq)
          · exact h.valid _ href
        · simp only [Dict.keys, List.map_append, List.map_cons, List.map_nil]
          rw [List.nodup_append]
          refine ⟨Dict.nodup_keys_del _ _ h.keys, by simp, ?_⟩
          intro a ha b hb
          simp only [List.mem_singleton] at hb
          subst hb
          rintro rfl
          have : a ∈ Dict.keys (st.2.cols.del old) := ha
          rw [Dict.keys_del] at this
          exact hnew (List.mem_of_mem_erase this)
        · intro k' hk'
          simp only [Dict.keys, List.map_append, List.map_cons, List.map_nil, List.mem_append, List.mem_singleton] at hk'
          have hk'' : k' ∈ Dict.keys (st.2.cols.del old) ∨ k' = new := hk'
          rw [Dict.keys_del] at hk''
          simp only [Dict.keys_del]
          have hne' : k' ≠ old := by
            rintro rfl
            rcases hk'' with h' | h'
            · exact h.keys.not_mem_erase h'
            · exact hne h'
          rw [List.mem_erase_of_ne hne', Dict.mem_keys_set]
          rcases hk'' with h' | h'
          · exact .inr (h.typed k' (List.mem_of_mem_erase h'))
          · exact .inl h'
        · intro q hq
          simp only [Obj.refs, List.map_append, List.map_cons, List.map_nil, List.mem_append, List.mem_singleton] at hq
          rcases hq with hq | rfl
          · exact .inl (del_refs q hq)
          · exact .inl href
        · simp only [view]
          have : Dict.mapVals (deref st.1) (st.2.cols.del old ++ [(new, r)]) =
              Dict.mapVals (deref st.1) (st.2.cols.del old) ++ [(new, deref st.1 r)] := by
            simp [Dict.mapVals]
          rw [this, mapVals_del]

/-! ### New lists -/

theorem fresh_spec (f : List (Option V) → List (Option V)) (d : Dict κ Nat) : ∀ (s : Store V), (∀ r ∈ d.map (·.2), r < s.length) →
    s.length ≤ (fresh f s d).1.length ∧ (∀ q, q < s.length → deref (fresh f s d).1 q = deref s q) ∧
    Dict.mapVals (deref (fresh f s d).1) (fresh f s d).2 = Dict.mapVals (fun r => f (deref s r)) d ∧
    ((fresh f s d).2.map (·.2)).Nodup ∧
    (∀ r ∈ (fresh f s d).2.map (·.2), s.length ≤ r ∧ r < (fresh f s d).1.length) ∧
    Dict.keys (fresh f s d).2 = Dict.keys d := by
  induction d with
  | nil => intro s _; simp [fresh, Dict.mapVals]
  | cons p d ih =>
    obtain ⟨k, r⟩ := p
    intro s hv
    have hv' : ∀ q ∈ d.map (·.2), q < (s ++ [f (deref s r)]).length := by
      intro q hq
      have := hv q (by simp only [List.map_cons, List.mem_cons]; exact .inr hq)
      simp; omega
    obtain ⟨h1, h2, h3, h4, h5, h6⟩ := ih (s ++ [f (deref s r)]) hv'
    simp only [List.length_append, List.length_cons, List.length_nil] at h1 h2 h5
    have hnew : deref (fresh f (s ++ [f (deref s r)]) d).1 s.length = f (deref s r) := by
      rw [h2 s.length (by omega), deref_append_self]
    simp only [fresh]
    refine ⟨by omega, ?_, ?_, ?_, ?_, ?_⟩
    · intro q hq
      rw [h2 q (by omega), deref_append_left hq]
    · simp only [Dict.mapVals, List.map_cons, hnew, List.cons.injEq, true_and]
      have : Dict.mapVals (fun r' => f (deref (s ++ [f (deref s r)]) r')) d = Dict.mapVals (fun r => f (deref s r)) d := by
        apply List.map_congr_left
        intro q hq
        simp only
        rw [deref_append_left (hv q.2 (by simp only [List.map_cons, List.mem_cons]; exact .inr (List.mem_map.2 ⟨q, hq, rfl⟩)))]
      rw [this] at h3
      exact h3
    · simp only [List.map_cons, List.nodup_cons]
      refine ⟨fun hm => ?_, h4⟩
      have := (h5 _ hm).1
      omega
    · intro q hq
      simp only [List.map_cons, List.mem_cons] at hq
      rcases hq with rfl | hq
      · exact ⟨le_refl _, by omega⟩
      · have := h5 q hq
        exact ⟨by omega, this.2⟩
    · simp only [Dict.keys_cons]; rw [h6]

/-- A new object with new lists. -/
structure Created (s : Store V) (st' : St κ V τ) : Prop where
  sep : Sep st'
  len : s.length ≤ st'.1.length
  frame : ∀ q, q < s.length → deref st'.1 q = deref s q
  own : ∀ q ∈ st'.2.refs, s.length ≤ q

theorem created_fresh {st : St κ V τ} (h : Sep st) (f : List (Option V) → List (Option V)) (m : Int) :
    Created st.1 ((fresh f st.1 st.2.cols).1, { st.2 with cols := (fresh f st.1 st.2.cols).2, maxLen := m }) := by
  obtain ⟨h1, h2, h3, h4, h5, h6⟩ := fresh_spec f st.2.cols st.1 h.valid
  exact ⟨⟨h4, fun r hr => (h5 r hr).2, by rw [h6]; exact h.keys, by rw [h6]; exact h.typed⟩, h1, h2, fun q hq => (h5 q hq).1⟩

theorem mapVals_mapVals {α β γ : Type} (g : β → γ) (f : α → β) (d : Dict κ α) :
    Dict.mapVals g (Dict.mapVals f d) = Dict.mapVals (fun x => g (f x)) d := by simp [Dict.mapVals]

theorem maskRows_view {st : St κ V τ} (h : Sep st) (m : List Bool) : view (maskRows st m) = (view st).maskRows m := by
  obtain ⟨h1, h2, h3, h4, h5, h6⟩ := fresh_spec (maskList m) st.2.cols st.1 h.valid
  simp only [view, maskRows, Data.maskRows, mapVals_mapVals]
  rw [h3]

theorem deleteRows_sim {st : St κ V τ} (h : Sep st) (idx : List Int) :
    Sim st (deleteRows st idx, none) ((view st).deleteRows idx, none) := by
  unfold deleteRows Data.deleteRows
  split
  · exact ⟨Step.refl h, rfl, rfl⟩
  · have hc := created_fresh h (dropIdx idx 0) (st.2.maxLen - idx.length)
    obtain ⟨h1, h2, h3, h4, h5, h6⟩ := fresh_spec (dropIdx idx 0) st.2.cols st.1 h.valid
    refine ⟨⟨hc.sep, hc.len, fun q hq _ => hc.frame q hq, fun q hq => .inr (hc.own q hq)⟩, ?_, rfl⟩
    simp only [view, mapVals_mapVals]
    rw [h3]

/-! ### Programs -/

/-- The objects and lists of a program share nothing. -/
structure Apart (w : World κ V τ) : Prop where
  sep : ∀ (i : Nat) o, w.objs[i]? = some o → Sep (w.store, o)
  objs : ∀ (i j : Nat) o o', i ≠ j → w.objs[i]? = some o → w.objs[j]? = some o' → ∀ r ∈ o.refs, r ∉ o'.refs
  valid : ∀ r ∈ w.lists, r < w.store.length
  lists : ∀ (i : Nat) o, w.objs[i]? = some o → ∀ r ∈ w.lists, r ∉ o.refs
  nodup : w.lists.Nodup

theorem view_congr {s s' : Store V} {o : Obj κ τ} (h : ∀ r ∈ o.refs, deref s' r = deref s r) :
    Heap.view (s', o) = Heap.view (s, o) := by
  simp only [view, Data.mk.injEq, and_true]
  apply List.map_congr_left
  intro p hp
  rw [h p.2 (List.mem_map.2 ⟨p, hp, rfl⟩)]

theorem method_sim {w : World κ V τ} (hw : Apart w) {i : Nat} {f : St κ V τ → Res (St κ V τ)}
    {g : Data κ V τ → Res (Data κ V τ)}
    (hfg : ∀ o, w.objs[i]? = some o → Sim (w.store, o) (f (w.store, o)) (g (Heap.view (w.store, o)))) :
    Apart (w.method i f).1 ∧ (w.method i f).1.view = (w.view.method i g).1 ∧ (w.method i f).2 = (w.view.method i g).2 := by
  unfold World.method Values.method
  have hv : w.view.objs[i]? = (w.objs[i]?).map fun o => Heap.view (w.store, o) := by simp [World.view]
  rw [hv]
  cases ho : w.objs[i]? with
  | none => exact ⟨hw, rfl, rfl⟩
  | some o =>
    obtain ⟨hst, hview, herr⟩ := hfg o ho
    simp only [Option.map_some]
    generalize f (w.store, o) = r at *
    obtain ⟨⟨s', o'⟩, err⟩ := r
    simp only at hst hview herr ⊢
    have hi : i < w.objs.length := (List.getElem?_eq_some_iff.1 ho).1
    have hget : ∀ j : Nat, (w.objs.set i o')[j]? = if i = j then some o' else w.objs[j]? := by
      intro j
      rw [List.getElem?_set]
      split <;> rfl
    have hfr : ∀ q, q < w.store.length → q ∉ o.refs → deref s' q = deref w.store q := hst.frame
    have hown : ∀ q ∈ o'.refs, q ∈ o.refs ∨ w.store.length ≤ q := hst.own
    have hlen : w.store.length ≤ s'.length := hst.len
    have hother : ∀ (j : Nat) oj, i ≠ j → w.objs[j]? = some oj → ∀ r ∈ oj.refs, r ∉ o'.refs := by
      intro j oj hij hj r hr hm
      rcases hown r hm with h' | h'
      · exact hw.objs i j o oj hij ho hj r h' hr
      · have : r < w.store.length := (hw.sep j oj hj).valid r hr
        omega
    refine ⟨⟨?_, ?_, ?_, ?_, hw.nodup⟩, ?_, herr⟩
    · intro j oj hj
      simp only [hget] at hj
      by_cases hij : i = j
      · rw [if_pos hij] at hj
        obtain rfl := Option.some.inj hj
        exact hst.sep
      · rw [if_neg hij] at hj
        have := hw.sep j oj hj
        exact ⟨this.refs, fun r hr => lt_of_lt_of_le (this.valid r hr) hlen, this.keys, this.typed⟩
    · intro j k oj ok hjk hj hk
      simp only [hget] at hj hk
      by_cases hij : i = j
      · rw [if_pos hij] at hj
        obtain rfl := Option.some.inj hj
        have hik : i ≠ k := by omega
        rw [if_neg hik] at hk
        intro r hr hm
        exact hother k ok hik hk r hm hr
      · rw [if_neg hij] at hj
        by_cases hik : i = k
        · rw [if_pos hik] at hk
          obtain rfl := Option.some.inj hk
          exact hother j oj hij hj
        · rw [if_neg hik] at hk
          exact hw.objs j k oj ok hjk hj hk
    · intro r hr
      exact lt_of_lt_of_le (hw.valid r hr) hlen
    · intro j oj hj r hr
      simp only [hget] at hj
      by_cases hij : i = j
      · rw [if_pos hij] at hj
        obtain rfl := Option.some.inj hj
        intro hm
        rcases hown r hm with h' | h'
        · exact hw.lists i o ho r hr h'
        · have := hw.valid r hr
          omega
      · rw [if_neg hij] at hj
        exact hw.lists j oj hj r hr
    · simp only [World.view, Values.mk.injEq]
      constructor
      · apply List.ext_getElem?
        intro j
        simp only [List.getElem?_map, hget, List.getElem?_set, List.length_map]
        by_cases hij : i = j
        · rw [if_pos hij, if_pos hij, if_pos hi]
          simp only [Option.map_some]
          rw [← hview]
        · rw [if_neg hij, if_neg hij]
          cases hj : w.objs[j]? with
          | none => rfl
          | some oj =>
            simp only [Option.map_some, Option.some.injEq]
            apply view_congr
            intro r hr
            exact hfr r ((hw.sep j oj hj).valid r hr) fun hm => hw.objs i j o oj hij ho hj r hm hr
      · apply List.map_congr_left
        intro r hr
        exact hfr r (hw.valid r hr) (hw.lists i o ho r hr)

theorem create_sim {w : World κ V τ} (hw : Apart w) {s' : Store V} {o' : Obj κ τ} (hc : Created w.store (s', o')) :
    Apart { w with store := s', objs := w.objs ++ [o'] } ∧
      World.view { w with store := s', objs := w.objs ++ [o'] } =
        { w.view with objs := w.view.objs ++ [Heap.view (s', o')] } := by
  have hget : ∀ (j : Nat) oj, (w.objs ++ [o'])[j]? = some oj → w.objs[j]? = some oj ∨ (j = w.objs.length ∧ oj = o') := by
    intro j oj hj
    rw [List.getElem?_append] at hj
    split at hj
    · exact .inl hj
    · right
      have := List.getElem?_eq_some_iff.1 hj
      obtain ⟨h1, h2⟩ := this
      simp only [List.length_singleton] at h1
      have : j - w.objs.length = 0 := by omega
      simp only [this, List.getElem_cons_zero] at h2
      exact ⟨by omega, h2.symm⟩
  have hnot : ∀ q, q < w.store.length → q ∉ o'.refs := by
    intro q hq hm
    have : w.store.length ≤ q := hc.own q hm
    omega
  refine ⟨⟨?_, ?_, ?_, ?_, hw.nodup⟩, ?_⟩
  · intro j oj hj
    rcases hget j oj hj with h | ⟨_, rfl⟩
    · have := hw.sep j oj h
      exact ⟨this.refs, fun r hr => lt_of_lt_of_le (this.valid r hr) hc.len, this.keys, this.typed⟩
    · exact hc.sep
  · intro j k oj ok hjk hj hk
    rcases hget j oj hj with h | ⟨e, rfl⟩
    · rcases hget k ok hk with h' | ⟨e', rfl⟩
      · exact hw.objs j k oj ok hjk h h'
      · intro r hr
        exact hnot r ((hw.sep j oj h).valid r hr)
    · rcases hget k ok hk with h' | ⟨e', rfl⟩
      · intro r hr hm
        exact hnot r ((hw.sep k ok h').valid r hm) hr
      · omega
  · intro r hr
    exact lt_of_lt_of_le (hw.valid r hr) hc.len
  · intro j oj hj r hr
    rcases hget j oj hj with h | ⟨_, rfl⟩
    · exact hw.lists j oj h r hr
    · exact hnot r (hw.valid r hr)
  · simp only [World.view, List.map_append, List.map_cons, List.map_nil, Values.mk.injEq]
    constructor
    · congr 1
      apply List.map_congr_left
      intro o ho
      obtain ⟨j, hj⟩ := List.getElem?_of_mem ho
      apply view_congr
      intro r hr
      exact hc.frame r ((hw.sep j o hj).valid r hr)
    · apply List.map_congr_left
      intro r hr
      exact hc.frame r (hw.valid r hr)

theorem arg_rel {w : World κ V τ} (hw : Apart w) {i : Nat} {o : Obj κ τ} (ho : w.objs[i]? = some o)
    (d : Dict κ (Source V)) :
    List.Forall₂ (fun p q => p.1 = q.1 ∧ ArgRel (w.store, o) p.2 q.2) (Dict.mapVals w.arg d) (Dict.mapVals w.view.arg d) := by
  induction d with
  | nil => exact .nil
  | cons p d ih =>
    refine .cons ⟨rfl, ?_⟩ ih
    obtain ⟨k, a⟩ := p
    cases a with
    | scalar v => exact (rfl : v = v)
    | list j =>
      have hv : w.view.lists[j]? = (w.lists[j]?).map (deref w.store) := by simp [World.view]
      simp only [World.arg, Values.arg, hv]
      cases hj : w.lists[j]? with
      | none => exact (rfl : (none : Option V) = none)
      | some r =>
        have hr : r ∈ w.lists := List.mem_of_getElem? hj
        exact ⟨hw.valid r hr, hw.lists i o ho r hr, rfl⟩

theorem step_sim {w : World κ V τ} (hw : Apart w) {a : Action κ V τ} (ha : a.unshared = true) :
    Apart (w.step a).1 ∧ (w.step a).1.view = (w.view.step a).1 ∧ (w.step a).2 = (w.view.step a).2 := by
  cases a with
  | newList l =>
    refine ⟨⟨?_, hw.objs, ?_, ?_, ?_⟩, ?_, rfl⟩
    · intro i o ho
      have := hw.sep i o ho
      refine ⟨this.refs, fun r hr => ?_, this.keys, this.typed⟩
      have := this.valid r hr
      simp only [World.step, List.length_append, List.length_singleton] at this ⊢
      omega
    · intro r hr
      simp only [World.step, List.mem_append, List.mem_singleton, List.length_append, List.length_singleton] at hr ⊢
      rcases hr with hr | hr
      · have := hw.valid r hr; omega
      · omega
    · intro i o ho r hr
      simp only [World.step, List.mem_append, List.mem_singleton] at hr
      rcases hr with hr | hr
      · exact hw.lists i o ho r hr
      · intro hm
        have : r < w.store.length := (hw.sep i o ho).valid r hm
        omega
    · simp only [World.step]
      rw [List.nodup_append]
      refine ⟨hw.nodup, by simp, ?_⟩
      intro x hx y hy
      simp only [List.mem_singleton] at hy
      have := hw.valid x hx
      omega
    · simp only [World.step, World.view, Values.step, List.map_append, List.map_cons, List.map_nil, deref_append_self,
        Values.mk.injEq]
      constructor
      · apply List.map_congr_left
        intro o ho
        obtain ⟨j, hj⟩ := List.getElem?_of_mem ho
        exact view_congr fun r hr => deref_append_left ((hw.sep j o hj).valid r hr)
      · congr 1
        apply List.map_congr_left
        intro r hr
        exact deref_append_left (hw.valid r hr)
  | push i v =>
    simp only [World.step, Values.step]
    have hv : w.view.lists[i]? = (w.lists[i]?).map (deref w.store) := by simp [World.view]
    rw [hv]
    cases hi : w.lists[i]? with
    | none => exact ⟨hw, rfl, rfl⟩
    | some r =>
      have hr : r ∈ w.lists := List.mem_of_getElem? hi
      refine ⟨⟨?_, hw.objs, ?_, hw.lists, hw.nodup⟩, ?_, rfl⟩
      · intro j o ho
        have := hw.sep j o ho
        exact ⟨this.refs, fun q hq => by simpa using this.valid q hq, this.keys, this.typed⟩
      · intro q hq; simpa using hw.valid q hq
      · simp only [World.view, Option.map_some, Values.mk.injEq]
        constructor
        · apply List.map_congr_left
          intro o ho
          obtain ⟨j, hj⟩ := List.getElem?_of_mem ho
          refine view_congr fun q hq => deref_set_ne ?_ _
          rintro rfl
          exact hw.lists j o hj _ hr hq
        · have hlt : i < w.lists.length := (List.getElem?_eq_some_iff.1 hi).1
          apply List.ext_getElem?
          intro j
          simp only [List.getElem?_map, List.getElem?_set, List.length_map]
          by_cases hij : i = j
          · subst hij
            rw [hi, if_pos rfl, if_pos hlt]
            simp only [Option.map_some]
            rw [deref_set_self (hw.valid r hr)]
          · rw [if_neg hij]
            cases hj : w.lists[j]? with
            | none => rfl
            | some q =>
              simp only [Option.map_some, Option.some.injEq]
              apply deref_set_ne
              rintro rfl
              have hlt' : j < w.lists.length := (List.getElem?_eq_some_iff.1 hj).1
              have e1 := (List.getElem?_eq_some_iff.1 hi).2
              have e2 := (List.getElem?_eq_some_iff.1 hj).2
              exact hij ((List.Nodup.getElem_inj_iff hw.nodup).1 (e1.trans e2.symm))
  | newData =>
    have hc : Created w.store ((w.store, Obj.empty) : St κ V τ) :=
      ⟨⟨by simp [Obj.refs, Obj.empty], by simp [Obj.refs, Obj.empty], by simp [Obj.empty], by simp [Obj.empty]⟩, le_refl _,
        fun _ _ => rfl, by simp [Obj.refs, Obj.empty]⟩
    obtain ⟨h1, h2⟩ := create_sim hw hc
    exact ⟨h1, h2, rfl⟩
  | update i d compress =>
    exact method_sim hw fun o ho => update_sim (hw.sep i o ho) compress (arg_rel hw ho d)
  | updateFrom i j =>
    simp only [World.step, Values.step]
    have hv : w.view.objs[j]? = (w.objs[j]?).map fun o => Heap.view (w.store, o) := by simp [World.view]
    rw [hv]
    cases hj : w.objs[j]? with
    | none => exact ⟨hw, rfl, rfl⟩
    | some other =>
      have hij : i ≠ j := by simpa [Action.unshared] using ha
      refine method_sim hw fun o ho => updateData_sim (hw.sep i o ho) fun r hr => ⟨(hw.sep j other hj).valid r hr, ?_⟩
      exact hw.objs j i other o hij.symm hj ho r hr
  | mask i m =>
    simp only [World.step, Values.step, World.create, Values.create]
    have hv : w.view.objs[i]? = (w.objs[i]?).map fun o => Heap.view (w.store, o) := by simp [World.view]
    rw [hv]
    cases ho : w.objs[i]? with
    | none => exact ⟨hw, rfl, rfl⟩
    | some o =>
      have hsep := hw.sep i o ho
      have hc : Created w.store (maskRows (w.store, o) m) := created_fresh hsep (maskList m) _
      obtain ⟨h1, h2⟩ := create_sim hw hc
      refine ⟨h1, ?_, rfl⟩
      simp only [Option.map_some]
      rw [← maskRows_view hsep m]
      exact h2
  | deleteRows i idx => exact method_sim hw fun o ho => deleteRows_sim (hw.sep i o ho) idx
  | deleteCol i k => exact method_sim hw fun o ho => deleteCol_sim (hw.sep i o ho) k
  | rename i old new => exact method_sim hw fun o ho => rename_sim (hw.sep i o ho) old new
  | filterTypes i ts => exact method_sim hw fun o ho => filterTypes_sim (hw.sep i o ho) ts
  | fill i len ks => exact method_sim hw fun o ho => fill_sim (hw.sep i o ho) len ks
  | append i k v => exact method_sim hw fun o ho => append_sim (hw.sep i o ho) k v
  | slice i ks => simp [Action.unshared] at ha
  | extend i k j => simp [Action.unshared] at ha

theorem run_sim (as : List (Action κ V τ)) : ∀ (w : World κ V τ), Apart w → (∀ a ∈ as, a.unshared = true) →
    Apart (w.run as).1 ∧ (w.run as).1.view = (w.view.run as).1 ∧ (w.run as).2 = (w.view.run as).2 := by
  induction as with
  | nil => intro w hw _; exact ⟨hw, rfl, rfl⟩
  | cons a as ih =>
    intro w hw ha
    obtain ⟨h1, h2, h3⟩ := step_sim hw (ha a (by simp))
    obtain ⟨h4, h5, h6⟩ := ih _ h1 fun b hb => ha b (by simp [hb])
    simp only [World.run, Values.run]
    rw [← h2]
    exact ⟨h4, h5, by rw [h3, h6]⟩

end Verif.Heap
