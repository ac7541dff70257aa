import Verif.Spec.Expander
import Verif.Props.StdFormat

/-!
# Lemmas about the weather expander
-/

set_option linter.unusedSectionVars false

namespace Verif.Expander

open Verif.Data

variable {κ V τ : Type} [DecidableEq κ] [DecidableEq τ] [HasType V τ]

/-- The entry of a weather answer under a key; `None` if there is no answer or no such key. -/
def entry (k : κ) (w : Option (Weather κ V)) : Option V := (w.bind fun d => Dict.get? d k).join

theorem failed_cons (getW : Place V → Except PyErr (Weather κ V)) (s : Nat) (p : Place V) (ps : List (Place V)) :
    failed getW s (p :: ps) =
      if (getW p).toOption.isNone then s :: failed getW (s + 1) ps else failed getW (s + 1) ps := by
  simp only [failed, List.zipIdx_cons, List.filter_cons]
  split <;> simp

theorem collect_spec {getW : Place V → Except PyErr (Weather κ V)} {mode : Mode} {ps : List (Place V)} {i : Nat}
    {acc acc' : Acc κ V} (h : collect getW mode i ps acc = .ok acc') :
    acc'.nones = acc.nones ++ failed getW i ps ∧
    acc'.list = acc.list ++ (if mode = .ignore then ps.map fun p => (getW p).toOption
      else (ps.filterMap fun p => (getW p).toOption).map some) ∧
    ∀ ks, acc'.keys = some ks → acc.keys = some ks ∨ ∃ p w, getW p = .ok w ∧ ks = Dict.keys w := by
  induction ps generalizing i acc with
  | nil =>
    simp only [collect, Except.ok.injEq] at h
    subst h
    refine ⟨by simp [failed], by simp, fun ks h => Or.inl h⟩
  | cons p ps ih =>
    unfold collect at h
    split at h
    · rename_i w hw
      obtain ⟨h1, h2, h3⟩ := ih h
      refine ⟨?_, ?_, ?_⟩
      · rw [h1, failed_cons]; simp [hw, Except.toOption]
      · rw [h2]
        by_cases hm : mode = .ignore <;> simp [hm, hw, Except.toOption]
      · intro ks hks
        rcases h3 ks hks with h | h
        · simp only at h
          split at h
          · exact Or.inr ⟨p, w, hw, by simpa using h.symm⟩
          · exact Or.inl h
        · exact Or.inr h
    · rename_i hw
      obtain ⟨h1, h2, h3⟩ := ih h
      refine ⟨?_, ?_, h3⟩
      · rw [h1, failed_cons]; simp [hw, Except.toOption]
      · rw [h2]
        by_cases hm : mode = .ignore <;> simp [hm, hw, Except.toOption]
    · simp at h

theorem fillNones_spec {ks : Option (List κ)} {is : List Nat} {l l' : List (Option (Weather κ V))}
    (h : fillNones ks is l = .ok l') :
    l'.length = l.length ∧ (is ≠ [] → ks ≠ none) ∧
      ∀ j : Nat, l'[j]? = if j ∈ is then (l[j]?).map fun _ => some ((ks.getD []).map fun k => (k, none))
        else l[j]? := by
  induction is generalizing l with
  | nil => simp only [fillNones, Except.ok.injEq] at h; subst h; simp
  | cons i is ih =>
    unfold fillNones at h
    cases ks with
    | none => simp at h
    | some ks =>
      simp only at h
      split at h
      · obtain ⟨h1, h2, h3⟩ := ih h
        refine ⟨by simpa using h1, by simp, fun j => ?_⟩
        rw [h3 j]
        simp only [List.getElem?_set, List.mem_cons]
        by_cases hj : j ∈ is
        · by_cases hji : i = j
          · subst hji; simp [hj]
            split <;> simp_all
          · simp [hj, hji]
        · by_cases hji : i = j
          · subst hji; simp [hj]; split <;> simp_all
          · simp [hj, hji, Ne.symm hji]
      · simp at h

theorem longest_scalar {w : Weather κ V} (h : w ≠ []) : longest (Dict.mapVals Arg.scalar w) = 1 := by
  cases w with
  | nil => exact absurd rfl h
  | cons p w =>
    clear h
    induction w generalizing p with
    | nil => rfl
    | cons q w ih =>
      have := ih q
      simp only [longest, Dict.mapVals, List.map_cons, List.foldr_cons, Arg.toList] at this ⊢
      rw [this]; rfl

theorem argOf_scalar (w : Weather κ V) (k : κ) :
    argOf (Dict.mapVals Arg.scalar w) k = if k ∈ Dict.keys w then [entry k (some w)] else [] := by
  simp only [argOf, Dict.get?_mapVals, entry, Option.bind_some]
  cases hg : Dict.get? w k with
  | none => rw [Dict.get?_eq_none_iff] at hg; simp [hg]
  | some v => simp [(Dict.mem_keys_iff w k).2 ⟨v, hg⟩, Arg.toList]

theorem entry_of_not_mem {w : Weather κ V} {k : κ} (h : k ∉ Dict.keys w) : entry k (some w) = none := by
  rw [← Dict.get?_eq_none_iff] at h
  simp [entry, h]

theorem updateWeather_spec {W W' : Data κ V τ} {w : Weather κ V} (hW : Rect W) (hne : w ≠ [])
    (hnd : (Dict.keys w).Nodup) (h : updateWeather W (some w) = (W', none)) :
    Rect W' ∧ W'.nRows = W.nRows + 1 ∧ (∀ k, k ∈ W'.keys ↔ k ∈ W.keys ∨ k ∈ Dict.keys w) ∧
      ∀ k, block k W' = block k W ++ [entry k (some w)] := by
  have hnd' : (Dict.keys (Dict.mapVals Arg.scalar w)).Nodup := by simpa using hnd
  obtain ⟨h1, h2, h3⟩ := update_plain hnd' hW h
  rw [longest_scalar hne] at h1 h3
  have hn := hW.nonneg
  refine ⟨rect_update hW.toLe h, h1, fun k => by rw [h2]; simp, fun k => ?_⟩
  by_cases hk : k ∈ W'.keys
  · rw [block, if_pos hk, h3 k hk, argOf_scalar]
    congr 1
    split
    · simp
    · rename_i hkw; simp [entry_of_not_mem hkw]
  · have hk' := hk
    rw [h2] at hk'
    simp only [Dict.keys_mapVals, not_or] at hk'
    simp only [block, hk, hk'.1, if_false, entry_of_not_mem hk'.2, nRows, h1]
    rw [show (W.maxLen + ((1 : Nat) : Int)).toNat = W.maxLen.toNat + 1 by omega, List.replicate_succ']

theorem forEach_updateWeather {l : List (Option (Weather κ V))}
    (hl : ∀ w, some w ∈ l → w ≠ [] ∧ (Dict.keys w).Nodup)
    {W W' : Data κ V τ} (hW : Rect W) (h : Res.forEach updateWeather l W = (W', none)) :
    Rect W' ∧ W'.nRows = W.nRows + l.length ∧
      (∀ k, k ∈ W'.keys ↔ k ∈ W.keys ∨ ∃ w, some w ∈ l ∧ k ∈ Dict.keys w) ∧
      ∀ k, block k W' = block k W ++ l.map (entry k) := by
  induction l generalizing W with
  | nil =>
    simp only [Res.forEach, Prod.mk.injEq] at h
    obtain ⟨rfl, -⟩ := h
    simp [hW]
  | cons o l ih =>
    obtain ⟨W1, h1, h2⟩ := Res.forEach_none_cons h
    cases o with
    | none => simp [updateWeather] at h1
    | some w =>
      obtain ⟨hne, hnd⟩ := hl w (by simp)
      obtain ⟨a0, a1, a2, a3⟩ := updateWeather_spec hW hne hnd h1
      obtain ⟨b0, b1, b2, b3⟩ := ih (fun w' hw' => hl w' (by simp [hw'])) a0 h2
      refine ⟨b0, ?_, ?_, ?_⟩
      · rw [b1, a1]; push_cast [List.length_cons]; ring
      · intro k
        rw [b2, a2]
        constructor
        · rintro ((hk | hk) | ⟨w', hw', hk⟩)
          · exact Or.inl hk
          · exact Or.inr ⟨w, by simp, hk⟩
          · exact Or.inr ⟨w', by simp [hw'], hk⟩
        · rintro (hk | ⟨w', hw', hk⟩)
          · exact Or.inl (Or.inl hk)
          · simp only [List.mem_cons, Option.some.injEq] at hw'
            rcases hw' with rfl | hw'
            · exact Or.inl (Or.inr hk)
            · exact Or.inr ⟨w', hw', hk⟩
      · intro k; rw [b3, a3]; simp

/-- The loop of `_mark_duplicate_keys`, for the keys still to be treated. -/
theorem markLoop_spec {dup : κ → κ} {D W0 : Data κ V τ} {done todo : List κ} (hnd : (done ++ todo).Nodup)
    {W W' : Data κ V τ} (hW : WF W)
    (hrows : W.nRows = W0.nRows)
    (hkeys : ∀ k, k ∈ W.keys ↔ (∃ k0 ∈ done, k = if k0 ∈ D.keys then dup k0 else k0) ∨ k ∈ todo)
    (hdone : ∀ k ∈ done, W.cols.get? (if k ∈ D.keys then dup k else k) = W0.cols.get? k)
    (hsep : ∀ k ∈ done, (if k ∈ D.keys then dup k else k) ∉ todo)
    (htodo : ∀ k ∈ todo, W.cols.get? k = W0.cols.get? k)
    (h : Res.forEach (fun W k => if k ∈ D.keys then Data.rename W k (dup k) else (W, none)) todo W = (W', none)) :
    WF W' ∧ W'.nRows = W0.nRows ∧
    (∀ k, k ∈ W'.keys ↔ ∃ k0 ∈ done ++ todo, k = if k0 ∈ D.keys then dup k0 else k0) ∧
    ∀ k ∈ done ++ todo, W'.cols.get? (if k ∈ D.keys then dup k else k) = W0.cols.get? k := by
  induction todo generalizing done W with
  | nil =>
    simp only [Res.forEach, Prod.mk.injEq] at h
    obtain ⟨rfl, -⟩ := h
    refine ⟨hW, hrows, ?_, by simpa using hdone⟩
    intro k; rw [hkeys]; simp
  | cons a todo ih =>
    obtain ⟨W1, h1, h2⟩ := Res.forEach_none_cons h
    have hnd' : ((done ++ [a]) ++ todo).Nodup := by simpa using hnd
    have hat : a ∉ todo := by
      have := (List.nodup_append.1 hnd).2.1; exact (List.nodup_cons.1 this).1
    have haW : a ∈ W.keys := (hkeys a).2 (Or.inr (by simp))
    by_cases ha : a ∈ D.keys
    · simp only [ha, if_true] at h1
      by_cases hself : a = dup a
      · -- renaming to itself does nothing
        rw [Data.rename, if_pos hself, Prod.mk.injEq] at h1
        obtain ⟨rfl, -⟩ := h1
        have := ih (done := done ++ [a]) hnd' hW hrows ?_ ?_ ?_ ?_ h2
        · simpa using this
        · intro k; rw [hkeys]
          constructor
          · rintro (⟨k0, hk0, rfl⟩ | hk)
            · exact Or.inl ⟨k0, by simp [hk0], rfl⟩
            · rcases List.mem_cons.1 hk with rfl | hk
              · exact Or.inl ⟨k, by simp, by rw [if_pos ha]; exact hself⟩
              · exact Or.inr hk
          · rintro (⟨k0, hk0, rfl⟩ | hk)
            · rcases List.mem_append.1 hk0 with hk0 | hk0
              · exact Or.inl ⟨k0, hk0, rfl⟩
              · simp only [List.mem_singleton] at hk0; subst hk0
                right; rw [if_pos ha, ← hself]; simp
            · exact Or.inr (by simp [hk])
        · intro k hk
          rcases List.mem_append.1 hk with hk | hk
          · exact hdone k hk
          · simp only [List.mem_singleton] at hk; subst hk
            rw [if_pos ha, ← hself]; exact htodo k (by simp)
        · intro k hk
          rcases List.mem_append.1 hk with hk | hk
          · exact fun hh => hsep k hk (by simp [hh])
          · simp only [List.mem_singleton] at hk; subst hk
            rw [if_pos ha, ← hself]; exact hat
        · intro k hk; exact htodo k (by simp [hk])
      · have hnew : dup a ∉ W.keys := by
          intro hc
          simp [Data.rename, hself, hc] at h1
        obtain ⟨c, hc⟩ := (Dict.mem_keys_iff _ _).1 haW
        obtain ⟨T, e1, e2⟩ := rename_eq hW hc hnew
        rw [e1] at h1
        simp only [Prod.mk.injEq, and_true] at h1
        have hW1 : WF W1 := wf_rename hW (e1.trans (by rw [h1]))
        have key : ∀ k, W1.cols.get? k =
            if k = a then none else if k = dup a then some c else W.cols.get? k := by
          intro k
          rw [← h1]
          change Dict.get? (W.cols.del a ++ [(dup a, c)]) k = _
          rw [← del_set_new _ _ haW hnew, Dict.get?_del _ (Dict.nodup_keys_set _ _ _ hW.nodup), Dict.get?_set]
          by_cases e1 : k = a
          · simp [e1]
          · by_cases e2 : k = dup a
            · simp [e2, hself, Ne.symm hself]
            · simp [e1, e2, Ne.symm e1, Ne.symm e2]
        have hmem : ∀ k, k ∈ W1.keys ↔ k = dup a ∨ (k ∈ W.keys ∧ k ≠ a) := by
          intro k
          simp only [keys, Dict.mem_keys_iff, key]
          by_cases e1 : k = a
          · simp [e1, hself]
          · by_cases e2 : k = dup a <;> simp [e1, e2, Ne.symm hself]
        have hsepd : ∀ k ∈ done, (if k ∈ D.keys then dup k else k) ≠ a ∧
            (if k ∈ D.keys then dup k else k) ≠ dup a := by
          intro k hk
          refine ⟨fun e => hsep k hk (by rw [e]; simp), fun e => hnew ?_⟩
          rw [← e]; exact (hkeys _).2 (Or.inl ⟨k, hk, rfl⟩)
        have htd : dup a ∉ todo := fun hh => hnew ((hkeys _).2 (Or.inr (by simp [hh])))
        have := ih (done := done ++ [a]) hnd' hW1 (by rw [← h1]; exact hrows) ?_ ?_ ?_ ?_ h2
        · simpa using this
        · intro k; rw [hmem, hkeys]
          constructor
          · rintro (rfl | ⟨⟨k0, hk0, rfl⟩ | hk, hka⟩)
            · exact Or.inl ⟨a, by simp, by rw [if_pos ha]⟩
            · exact Or.inl ⟨k0, by simp [hk0], rfl⟩
            · rcases List.mem_cons.1 hk with rfl | hk
              · exact absurd rfl hka
              · exact Or.inr hk
          · rintro (⟨k0, hk0, rfl⟩ | hk)
            · rcases List.mem_append.1 hk0 with hk0 | hk0
              · exact Or.inr ⟨Or.inl ⟨k0, hk0, rfl⟩, (hsepd k0 hk0).1⟩
              · simp only [List.mem_singleton] at hk0; subst hk0
                left; rw [if_pos ha]
            · exact Or.inr ⟨Or.inr (by simp [hk]), fun e => hat (e ▸ hk)⟩
        · intro k hk
          rcases List.mem_append.1 hk with hk | hk
          · rw [key, if_neg (hsepd k hk).1, if_neg (hsepd k hk).2]; exact hdone k hk
          · simp only [List.mem_singleton] at hk; subst hk
            rw [if_pos ha, key, if_neg (Ne.symm hself), if_pos rfl, ← hc]
            exact htodo k (by simp)
        · intro k hk
          rcases List.mem_append.1 hk with hk | hk
          · exact fun hh => hsep k hk (by simp [hh])
          · simp only [List.mem_singleton] at hk; subst hk
            rw [if_pos ha]; exact htd
        · intro k hk
          rw [key, if_neg (fun e : k = a => hat (e ▸ hk)), if_neg (fun e : k = dup a => htd (e ▸ hk))]
          exact htodo k (by simp [hk])
    · simp only [ha, if_false, Prod.mk.injEq, and_true] at h1
      subst h1
      have := ih (done := done ++ [a]) hnd' hW hrows ?_ ?_ ?_ ?_ h2
      · simpa using this
      · intro k; rw [hkeys]
        constructor
        · rintro (⟨k0, hk0, rfl⟩ | hk)
          · exact Or.inl ⟨k0, by simp [hk0], rfl⟩
          · rcases List.mem_cons.1 hk with rfl | hk
            · exact Or.inl ⟨k, by simp, by rw [if_neg ha]⟩
            · exact Or.inr hk
        · rintro (⟨k0, hk0, rfl⟩ | hk)
          · rcases List.mem_append.1 hk0 with hk0 | hk0
            · exact Or.inl ⟨k0, hk0, rfl⟩
            · simp only [List.mem_singleton] at hk0; subst hk0
              right; rw [if_neg ha]; simp
          · exact Or.inr (by simp [hk])
      · intro k hk
        rcases List.mem_append.1 hk with hk | hk
        · exact hdone k hk
        · simp only [List.mem_singleton] at hk; subst hk
          rw [if_neg ha]; exact htodo k (by simp)
      · intro k hk
        rcases List.mem_append.1 hk with hk | hk
        · exact fun hh => hsep k hk (by simp [hh])
        · simp only [List.mem_singleton] at hk; subst hk
          rw [if_neg ha]; exact hat
      · intro k hk; exact htodo k (by simp [hk])

theorem markDuplicates_spec {dup : κ → κ} {D W W' : Data κ V τ} (hW : WF W)
    (h : markDuplicates dup D W = (W', none)) :
    WF W' ∧ W'.nRows = W.nRows ∧
    (∀ k, k ∈ W'.keys ↔ ∃ k0 ∈ W.keys, k = if k0 ∈ D.keys then dup k0 else k0) ∧
    ∀ k ∈ W.keys, W'.cols.get? (if k ∈ D.keys then dup k else k) = W.cols.get? k := by
  have := markLoop_spec (dup := dup) (D := D) (W0 := W) (done := []) (todo := W.keys) hW.nodup
    hW rfl (by simp) (by simp) (by simp) (by simp) h
  simpa using this

theorem reachable_forEach {ι : Type} {body : Data κ V τ → ι → Res (Data κ V τ)}
    (hb : ∀ X x X', Reachable X → body X x = (X', none) → Reachable X') {l : List ι} {X X' : Data κ V τ}
    (hX : Reachable X) (h : Res.forEach body l X = (X', none)) : Reachable X' := by
  induction l generalizing X with
  | nil => simp only [Res.forEach, Prod.mk.injEq] at h; exact h.1 ▸ hX
  | cons x l ih =>
    obtain ⟨X1, h1, h2⟩ := Res.forEach_none_cons h
    exact ih (hb _ _ _ hX h1) h2

theorem reachable_concatWeather {l : List (Option (Weather κ V))} {W : Data κ V τ}
    (h : concatWeather l = (W, none)) : Reachable W := by
  refine reachable_forEach ?_ Reachable.empty h
  intro X x X' hX hx
  cases x with
  | none => simp [updateWeather] at hx
  | some w => exact .update hX hx

theorem reachable_markDuplicates {dup : κ → κ} {D W W' : Data κ V τ} (hW : Reachable W)
    (h : markDuplicates dup D W = (W', none)) : Reachable W' := by
  refine reachable_forEach ?_ hW h
  intro X x X' hX hx
  split at hx
  · exact .rename hX hx
  · simp only [Prod.mk.injEq, and_true] at hx; exact hx ▸ hX

theorem mapM_length {α β : Type} {f : α → Except PyErr β} {l : List α} {l' : List β} (h : l.mapM f = .ok l') :
    l'.length = l.length := by
  induction l generalizing l' with
  | nil => simp [List.mapM_nil, pure, Except.pure] at h; simp [← h]
  | cons x l ih =>
    rw [List.mapM_cons] at h
    cases hx : f x with
    | error e => simp [hx, bind, Except.bind] at h
    | ok y =>
      cases hl : l.mapM f with
      | error e => simp [hx, hl, bind, Except.bind] at h
      | ok ys =>
        simp [hx, hl, bind, Except.bind, pure, Except.pure] at h
        simp [← h, ih hl]

theorem places_length {kt klat klon : κ} {D : Data κ V τ} (hD : Reachable D) {ps : List (Place V)}
    (h : places kt klat klon D = .ok ps) : (ps.length : Int) = D.nRows := by
  have := mapM_length h
  have hn := hD.rect.nonneg
  simp only [List.length_range] at this
  unfold nRows
  omega

theorem failed_lt {getW : Place V → Except PyErr (Weather κ V)} {s : Nat} {ps : List (Place V)} {i : Nat}
    (h : i ∈ failed getW s ps) : s ≤ i ∧ i < s + ps.length := by
  simp only [failed, List.mem_map, List.mem_filter] at h
  obtain ⟨p, ⟨hp, _⟩, rfl⟩ := h
  have := List.mem_zipIdx hp
  omega

theorem failed_nodup (getW : Place V → Except PyErr (Weather κ V)) (s : Nat) (ps : List (Place V)) :
    (failed getW s ps).Nodup := by
  induction ps generalizing s with
  | nil => simp [failed]
  | cons p ps ih =>
    rw [failed_cons]
    split
    · refine List.nodup_cons.2 ⟨fun h => ?_, ih _⟩
      have := failed_lt h; omega
    · exact ih _

theorem length_failed (getW : Place V → Except PyErr (Weather κ V)) (s : Nat) (ps : List (Place V)) :
    (failed getW s ps).length + (ps.filterMap fun p => (getW p).toOption).length = ps.length := by
  induction ps generalizing s with
  | nil => simp [failed]
  | cons p ps ih =>
    have := ih (s + 1)
    rw [failed_cons]
    cases h : (getW p).toOption <;> simp [h] <;> omega

theorem colOf_deleteRows {D : Data κ V τ} (idx : List Int) (k : κ) :
    colOf (deleteRows D idx) k = without idx (colOf D k) := by
  have key : ∀ l : List (Option V), dropIdx idx 0 l = without idx l := by
    intro l
    rw [dropIdx_eq_maskList idx 0 l _ rfl, maskList_idxMask_eq_without]
  unfold deleteRows
  split
  · rename_i h; subst h; simp [without, List.zipIdx_map_fst]
  · simp only [colOf, Dict.get?_mapVals]
    cases D.cols.get? k <;> simp [key, without]

end Verif.Expander
