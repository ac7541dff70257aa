import Mathlib.Data.List.Perm.Basic
import Mathlib.Data.List.Range
import Verif.Lemmas.DataUpdate

set_option linter.unusedSectionVars false
set_option linter.unusedSimpArgs false

namespace Verif.Data

variable {κ V τ : Type} [DecidableEq κ] [DecidableEq τ] [HasType V τ]

/-- The first `n` rows of a table. -/
def tableRows : Nat → Dict κ (List (Option V)) → List (Dict κ (Option V))
  | 0, _ => []
  | n + 1, cols => cols.map (fun p => (p.1, p.2.head?.join)) :: tableRows n (Dict.mapVals List.tail cols)

theorem tableRows_eq (n : Nat) (cols : Dict κ (List (Option V))) :
    tableRows n cols = (List.range n).map fun (i : Nat) => cols.map fun p => (p.1, (p.2[i]?).join) := by
  induction n generalizing cols with
  | zero => rfl
  | succ n ih =>
    rw [tableRows, List.range_succ_eq_map, List.map_cons, ih]
    congr 1
    · apply List.map_congr_left
      intro p _
      cases p.2 <;> simp
    · rw [List.map_map]
      apply List.map_congr_left
      intro i _
      simp only [Function.comp, Dict.mapVals, List.map_map]
      apply List.map_congr_left
      intro p _
      simp

theorem length_tableRows (n : Nat) (cols : Dict κ (List (Option V))) :
    (tableRows n cols).length = n := by
  simp [tableRows_eq]

theorem rowAt_eq {D : Data κ V τ} {i : Nat} (h : ∀ p ∈ D.cols, i < p.2.length) :
    D.rowAt i = some (D.cols.map fun p => (p.1, (p.2[i]?).join)) := by
  unfold rowAt
  generalize D.cols = cols at h
  induction cols with
  | nil => rfl
  | cons p cols ih =>
    rw [List.mapM_cons, ih (fun q hq => h q (by simp [hq])), pyIndex_nat,
      List.getElem?_eq_getElem (h p (by simp))]
    simp [List.getElem?_eq_getElem (h p (by simp))]

theorem mapM_some_map {α β : Type} {f : α → Option β} {g : α → β} {l : List α}
    (h : ∀ x ∈ l, f x = some (g x)) : l.mapM f = some (l.map g) := by
  induction l with
  | nil => rfl
  | cons a l ih =>
    rw [List.mapM_cons, h a (by simp), ih (fun x hx => h x (by simp [hx]))]
    simp

/-- Data all of whose columns have `n` entries has the expected rows. -/
theorem rows_eq_of_length {D : Data κ V τ} {n : Nat} (hn : D.maxLen = n)
    (h : ∀ p ∈ D.cols, p.2.length = n) : D.rows = some (tableRows n D.cols) := by
  rw [rows, tableRows_eq, hn]
  apply mapM_some_map
  intro i hi
  apply rowAt_eq
  intro p hp
  simp only [Int.toNat_natCast, List.mem_range] at hi
  rw [h p hp]; exact hi

theorem Rect.length_eq {D : Data κ V τ} (h : Rect D) : ∀ p ∈ D.cols, p.2.length = D.maxLen.toNat := by
  intro p hp
  have := h.eq p.1 p.2 (Dict.get?_of_mem h.nodup hp)
  omega

theorem Rect.rows_eq {D : Data κ V τ} (h : Rect D) :
    D.rows = some (tableRows D.maxLen.toNat D.cols) :=
  rows_eq_of_length (by have := h.nonneg; omega) h.length_eq

theorem maskList_eq_select {α : Type} (m : List Bool) (l : List α) : maskList m l = select m l := by
  induction m generalizing l with
  | nil => simp [maskList, select]
  | cons b m ih =>
    cases l with
    | nil => simp [maskList, select]
    | cons x l =>
      have := ih l
      simp only [select] at *
      cases b <;> simp [maskList, this]

/-- Masking commutes with the transition from columns to rows. -/
theorem tableRows_mask (m : List Bool) (n : Nat) (cols : Dict κ (List (Option V)))
    (h : ∀ p ∈ cols, p.2.length = n) :
    tableRows (maskList m (List.replicate n ())).length (Dict.mapVals (maskList m) cols) =
      maskList m (tableRows n cols) := by
  induction m generalizing n cols with
  | nil => simp [maskList, tableRows]
  | cons b m ih =>
    cases n with
    | zero => simp [maskList, tableRows]
    | succ n =>
      have htail : ∀ p ∈ Dict.mapVals List.tail cols, p.2.length = n := by
        intro p hp
        simp only [Dict.mapVals, List.mem_map] at hp
        obtain ⟨q, hq, rfl⟩ := hp
        simp [h q hq]
      have hform : ∀ p ∈ cols, maskList (b :: m) p.2 =
          if b then (p.2.head?.join) :: maskList m p.2.tail else maskList m p.2.tail := by
        intro p hp
        have := h p hp
        cases hc : p.2 with
        | nil => rw [hc] at this; simp at this
        | cons x l => simp [maskList]
      have ih' := ih n _ htail
      have hmv : Dict.mapVals (maskList m) (Dict.mapVals List.tail cols) =
          cols.map fun p => (p.1, maskList m p.2.tail) := by
        simp [Dict.mapVals, List.map_map, Function.comp_def]
      rw [hmv] at ih'
      cases b with
      | false =>
        have h1 : Dict.mapVals (maskList (false :: m)) cols = cols.map fun p => (p.1, maskList m p.2.tail) := by
          apply List.map_congr_left
          intro p hp
          rw [hform p hp]; simp
        rw [h1]
        simp only [List.replicate_succ, maskList, tableRows, Bool.false_eq_true, if_false]
        exact ih'
      | true =>
        have h1 : Dict.mapVals (maskList (true :: m)) cols =
            cols.map fun p => (p.1, p.2.head?.join :: maskList m p.2.tail) := by
          apply List.map_congr_left
          intro p hp
          rw [hform p hp]; simp
        rw [h1]
        simp only [List.replicate_succ, maskList, tableRows, if_true, List.length_cons]
        rw [← ih']
        congr 1
        · simp [List.map_map, Function.comp_def]
        · congr 1
          simp [Dict.mapVals, List.map_map, Function.comp_def]

theorem rows_maskRows {D : Data κ V τ} (h : Rect D) (hne : D.cols ≠ []) (m : List Bool)
    {rs : List (Dict κ (Option V))} (hrs : D.rows = some rs) :
    (maskRows D m).rows = some (select m rs) := by
  rw [h.rows_eq, Option.some.injEq] at hrs
  rw [(rect_maskRows h m).rows_eq, ← maskList_eq_select, ← hrs, ← tableRows_mask m _ _ h.length_eq]
  congr 2
  obtain ⟨p, hp⟩ := List.exists_mem_of_ne_nil _ hne
  have hr := (rect_maskRows h m).length_eq (p.1, maskList m p.2) (by
    simp only [maskRows, Dict.mapVals, List.mem_map]; exact ⟨p, hp, rfl⟩)
  rw [← hr]
  apply length_maskList_eq
  simp [h.length_eq p hp]

/-! ### deleting rows -/

/-- The mask belonging to a list of row indices. -/
def idxMask (idx : List Int) (s n : Nat) : List Bool := (List.range' s n).map fun (i : Nat) => ! decide ((i : Int) ∈ idx)

theorem dropIdx_eq_maskList {α : Type} (idx : List Int) (s : Nat) (l : List α) (n : Nat)
    (h : l.length = n) : dropIdx idx s l = maskList (idxMask idx s n) l := by
  induction l generalizing s n with
  | nil => subst h; simp [dropIdx, idxMask, maskList]
  | cons x l ih =>
    cases n with
    | zero => simp at h
    | succ n =>
      simp only [List.length_cons, Nat.add_right_cancel_iff] at h
      simp only [dropIdx, idxMask, List.range'_succ, List.map_cons, maskList]
      have := ih (s + 1) n h
      simp only [idxMask] at this
      by_cases hx : (s : Int) ∈ idx <;> simp [hx, this]

theorem maskList_idxMask_eq_without {α : Type} (idx : List Int) (l : List α) :
    maskList (idxMask idx 0 l.length) l = without idx l := by
  rw [← dropIdx_eq_maskList idx 0 l _ rfl]
  have key : ∀ s, dropIdx idx s l = ((l.zipIdx s).filter (fun p => ¬ (p.2 : Int) ∈ idx)).map Prod.fst := by
    induction l with
    | nil => intro s; simp [dropIdx]
    | cons x l ih =>
      intro s
      simp only [dropIdx, List.zipIdx_cons, List.filter_cons]
      by_cases hx : (s : Int) ∈ idx <;> simp [hx, ih (s + 1)]
  exact key 0

theorem length_maskList_idxMask (idx : List Int) (s n : Nat) :
    (maskList (idxMask idx s n) (List.replicate n ())).length =
      ((List.range' s n).filter fun (i : Nat) => ! decide ((i : Int) ∈ idx)).length := by
  induction n generalizing s with
  | zero => simp [maskList]
  | succ n ih =>
    simp only [idxMask, List.range'_succ, List.map_cons, List.replicate_succ, maskList, List.filter_cons]
    have := ih (s + 1)
    simp only [idxMask] at this
    by_cases hx : (s : Int) ∈ idx <;> simp [hx, this]

theorem count_valid {idx : List Int} {n : Nat} (hnd : idx.Nodup) (hv : ∀ i ∈ idx, 0 ≤ i ∧ i < n) :
    (((List.range' 0 n).filter fun (i : Nat) => ! decide ((i : Int) ∈ idx)).length : Int) = n - idx.length := by
  have h1 := List.length_eq_length_filter_add (l := List.range' 0 n) (fun (i : Nat) => decide ((i : Int) ∈ idx))
  have h2 : ((List.range' 0 n).filter fun (i : Nat) => decide ((i : Int) ∈ idx)).length = idx.length := by
    have : (((List.range' 0 n).filter fun (i : Nat) => decide ((i : Int) ∈ idx)).map fun (i : Nat) => (i : Int)).Perm idx := by
      rw [List.perm_ext_iff_of_nodup ?_ hnd]
      · intro a
        simp only [List.mem_map, List.mem_filter, List.mem_range'_1, decide_eq_true_eq]
        constructor
        · rintro ⟨i, ⟨_, h⟩, rfl⟩; exact h
        · intro ha
          have := hv a ha
          exact ⟨a.toNat, ⟨by omega, by rwa [Int.toNat_of_nonneg this.1]⟩, Int.toNat_of_nonneg this.1⟩
      · refine List.Nodup.map (fun a b h => by simpa using h) ?_
        exact (List.nodup_range' ).filter _
    simpa using this.length_eq
  simp only [List.length_range'] at h1
  omega

/-- Row deletion with distinct, existing indices. -/
theorem deleteRows_spec {D : Data κ V τ} (h : Rect D) {idx : List Int}
    (hnd : idx.Nodup) (hv : ∀ i ∈ idx, 0 ≤ i ∧ i < D.maxLen) :
    Rect (deleteRows D idx) ∧ ∀ rs, D.rows = some rs → (deleteRows D idx).rows = some (without idx rs) := by
  by_cases h0 : idx = []
  · subst h0
    refine ⟨by simpa [deleteRows] using h, ?_⟩
    intro rs hrs
    simp only [deleteRows, if_true, hrs, without]
    simp [List.zipIdx_map_fst]
  · have hn := h.nonneg
    have hcnt := count_valid (n := D.maxLen.toNat) hnd (fun i hi => by have := hv i hi; omega)
    have hcols : (deleteRows D idx).cols = Dict.mapVals (maskList (idxMask idx 0 D.maxLen.toNat)) D.cols := by
      simp only [deleteRows, h0, if_false, Dict.mapVals]
      apply List.map_congr_left
      intro p hp
      rw [dropIdx_eq_maskList idx 0 _ _ (h.length_eq p hp)]
    have hmax : (deleteRows D idx).maxLen =
        ((maskList (idxMask idx 0 D.maxLen.toNat) (List.replicate D.maxLen.toNat ())).length : Int) := by
      simp only [deleteRows, h0, if_false]
      rw [length_maskList_idxMask, hcnt]; omega
    have hlen : ∀ p ∈ (deleteRows D idx).cols, p.2.length =
        (maskList (idxMask idx 0 D.maxLen.toNat) (List.replicate D.maxLen.toNat ())).length := by
      intro p hp
      rw [hcols] at hp
      simp only [Dict.mapVals, List.mem_map] at hp
      obtain ⟨q, hq, rfl⟩ := hp
      apply length_maskList_eq
      simp [h.length_eq q hq]
    constructor
    · refine ⟨by rw [hcols]; simpa using h.nodup, by rw [hmax]; omega, ?_⟩
      intro k c hk
      rw [hmax, hlen (k, c) (Dict.mem_of_get? hk)]
    · intro rs hrs
      rw [h.rows_eq, Option.some.injEq] at hrs
      rw [rows_eq_of_length hmax hlen, hcols, tableRows_mask _ _ _ h.length_eq, hrs]
      rw [← maskList_idxMask_eq_without, ← hrs, length_tableRows]

end Verif.Data
