import Mathlib.Tactic.Linarith
import Mathlib.Algebra.Order.Ring.Int
import Mathlib.Data.List.Basic
import Verif.Lemmas.Dict
import Verif.Model.Data
import Verif.Spec.Data

set_option linter.unusedSectionVars false
set_option linter.unusedSimpArgs false

namespace Verif

namespace Res

variable {σ ι : Type}

theorem andThen_none {r : Res σ} {f : σ → Res σ} {s : σ} (h : r.andThen f = (s, none)) :
    ∃ s', r = (s', none) ∧ f s' = (s, none) := by
  obtain ⟨s', e⟩ := r
  cases e with
  | none => exact ⟨s', rfl, h⟩
  | some e => simp [andThen] at h

theorem forEach_none_cons {body : σ → ι → Res σ} {x : ι} {xs : List ι} {s s' : σ}
    (h : forEach body (x :: xs) s = (s', none)) :
    ∃ s1, body s x = (s1, none) ∧ forEach body xs s1 = (s', none) := andThen_none h

/-- A property preserved by every (possibly failing) iteration holds after the loop. -/
theorem forEach_inv {body : σ → ι → Res σ} {P : σ → Prop} (hb : ∀ s x, P s → P (body s x).1)
    (xs : List ι) (s : σ) (h : P s) : P (forEach body xs s).1 := by
  induction xs generalizing s with
  | nil => exact h
  | cons x xs ih =>
    have h1 := hb s x h
    simp only [forEach, andThen]
    rcases hbe : body s x with ⟨s1, _ | e⟩
    · rw [hbe] at h1; exact ih s1 h1
    · rw [hbe] at h1; exact h1

theorem andThen_inv {P : σ → Prop} {r : Res σ} {f : σ → Res σ} (hr : P r.1)
    (hf : ∀ s, P s → P (f s).1) : P (r.andThen f).1 := by
  obtain ⟨s', _ | e⟩ := r
  · exact hf _ hr
  · exact hr

end Res

namespace Data

variable {κ V τ : Type} [DecidableEq κ] [DecidableEq τ] [HasType V τ]

/-- `c` filled up with `None` to length `len`. -/
def pad (len : Int) (c : List (Option V)) : List (Option V) :=
  c ++ List.replicate (max 0 (len - (c.length : Int))).toNat none

theorem length_pad (len : Int) (c : List (Option V)) :
    ((pad len c).length : Int) = max (c.length : Int) len := by
  simp only [pad, List.length_append, List.length_replicate, Nat.cast_add]
  rw [Int.toNat_of_nonneg (le_max_left _ _)]
  omega

theorem pad_of_le (len : Int) (c : List (Option V)) (h : len ≤ c.length) : pad len c = c := by
  have : (max 0 (len - (c.length : Int))).toNat = 0 := by omega
  simp [pad, this]

theorem pad_pad (len : Int) (c : List (Option V)) : pad len (pad len c) = pad len c := by
  apply pad_of_le
  rw [length_pad]; exact le_max_right _ _

theorem measured_append (c c' : List (Option V)) : measured (c ++ c') = measured c ++ measured c' := by
  simp [measured]

theorem measured_replicate_none (n : Nat) : measured (List.replicate n (none : Option V)) = [] := by
  simp only [measured]
  rw [List.filterMap_eq_nil_iff]
  intro a ha
  rw [List.mem_replicate] at ha
  simp [ha.2]

theorem measured_pad (len : Int) (c : List (Option V)) : measured (pad len c) = measured c := by
  rw [pad, measured_append, measured_replicate_none, List.append_nil]

/-! ### fill -/

theorem fillKey_cols (len : Int) (D : Data κ V τ) (k : κ) :
    (fillKey len D k).1.cols = D.cols.set k (pad len (colOf D k)) := by
  simp only [fillKey]
  split <;> rfl

theorem fillKey_maxLen (len : Int) (D : Data κ V τ) (k : κ) :
    (fillKey len D k).1.maxLen = D.maxLen := by
  simp only [fillKey]; split <;> rfl

theorem colOf_eq_of_get? {D D' : Data κ V τ} {k : κ} (h : D.cols.get? k = D'.cols.get? k) :
    colOf D k = colOf D' k := by simp [colOf, h]

theorem fill_get? {len : Int} {ks : List κ} {D D' : Data κ V τ}
    (h : fill D len ks = (D', none)) (k : κ) :
    D'.cols.get? k = if k ∈ ks then some (pad len (colOf D k)) else D.cols.get? k := by
  induction ks generalizing D with
  | nil => simp only [fill, Res.forEach, Prod.mk.injEq] at h; simp [h.1]
  | cons x xs ih =>
    obtain ⟨D1, h1, h2⟩ := Res.forEach_none_cons h
    have hc : D1.cols = D.cols.set x (pad len (colOf D x)) := by
      rw [← fillKey_cols, h1]
    have hg : ∀ k, D1.cols.get? k = if x = k then some (pad len (colOf D x)) else D.cols.get? k := by
      intro k; rw [hc, Dict.get?_set]
    rw [ih h2]
    by_cases hx : x = k
    · subst hx
      have : colOf D1 x = pad len (colOf D x) := by simp [colOf, hg]
      rw [hg, this, pad_pad]; simp
    · have : colOf D1 k = colOf D k := colOf_eq_of_get? (by rw [hg]; simp [hx])
      rw [hg, this]
      simp [hx, Ne.symm hx]

theorem fill_maxLen (len : Int) (ks : List κ) (D : Data κ V τ) :
    (fill D len ks).1.maxLen = D.maxLen :=
  Res.forEach_inv (P := fun D' => D'.maxLen = D.maxLen)
    (fun s x hs => by rw [fillKey_maxLen, hs]) ks D rfl

theorem fill_nodup (len : Int) (ks : List κ) (D : Data κ V τ) (h : (Dict.keys D.cols).Nodup) :
    (Dict.keys (fill D len ks).1.cols).Nodup :=
  Res.forEach_inv (P := fun D' => (Dict.keys D'.cols).Nodup)
    (fun s x hs => by rw [fillKey_cols]; exact Dict.nodup_keys_set _ _ _ hs) ks D h

/-! ### extend -/

theorem extend_ok {D D' : Data κ V τ} {k : κ} {l : List (Option V)}
    (h : extend D k l = (D', none)) :
    D'.cols = D.cols.set k (colOf D k ++ l) ∧
      D'.maxLen = max D.maxLen ((colOf D k ++ l).length : Int) := by
  simp only [extend] at h
  split at h
  · simp at h
  · split at h
    · rename_i old hold
      have hc : colOf D k = old := by simp [colOf, hold]
      split at h
      · simp at h
      · rename_i t ht
        by_cases h0 : t = none
        · simp only [h0, if_true, ne_eq, not_true_eq_false, and_false, if_false, Prod.mk.injEq,
            and_true] at h
          subst h; simp [hc]
        · simp only [h0, if_false] at h
          split at h
          · simp at h
          · simp only [Prod.mk.injEq, and_true] at h
            subst h; simp [hc]
    · rename_i hold
      have hc : colOf D k = [] := by simp [colOf, hold]
      simp only [Prod.mk.injEq, and_true] at h
      subst h; simp [hc]

/-- A failing `extend` changes neither the columns nor the number of rows. -/
theorem extend_err {D D' : Data κ V τ} {k : κ} {l : List (Option V)} {e : PyErr}
    (h : extend D k l = (D', some e)) : D'.cols = D.cols ∧ D'.maxLen = D.maxLen := by
  simp only [extend] at h
  split at h
  · simp only [Prod.mk.injEq] at h; obtain ⟨rfl, -⟩ := h; exact ⟨rfl, rfl⟩
  · split at h
    · split at h
      · simp only [Prod.mk.injEq] at h; obtain ⟨rfl, -⟩ := h; exact ⟨rfl, rfl⟩
      · rename_i t ht
        by_cases h0 : t = none
        · simp [h0] at h
        · simp only [h0, if_false] at h
          split at h
          · simp only [Prod.mk.injEq] at h; obtain ⟨rfl, -⟩ := h; exact ⟨rfl, rfl⟩
          · simp at h
    · simp at h

theorem putArg_eq (D : Data κ V τ) (p : κ × Arg V) : putArg D p = extend D p.1 p.2.toList := by
  obtain ⟨k, l | v⟩ := p <;> rfl

theorem putAll_get? {d : Dict κ (Arg V)} (hd : (Dict.keys d).Nodup) {D D' : Data κ V τ}
    (h : Res.forEach putArg d D = (D', none)) (k : κ) :
    D'.cols.get? k = if k ∈ Dict.keys d then some (colOf D k ++ argOf d k) else D.cols.get? k := by
  induction d generalizing D with
  | nil => simp only [Res.forEach, Prod.mk.injEq] at h; simp [h.1]
  | cons p d ih =>
    obtain ⟨x, a⟩ := p
    obtain ⟨D1, h1, h2⟩ := Res.forEach_none_cons h
    rw [putArg_eq] at h1
    have hc := (extend_ok h1).1
    simp only [Dict.keys_cons, List.nodup_cons] at hd
    have hg : ∀ k, D1.cols.get? k = if x = k then some (colOf D x ++ a.toList) else D.cols.get? k := by
      intro k; rw [hc, Dict.get?_set]
    rw [ih hd.2 h2]
    by_cases hx : x = k
    · subst hx
      rw [if_neg hd.1, hg]
      simp [argOf, Dict.get?_cons]
    · have hcol : colOf D1 k = colOf D k := colOf_eq_of_get? (by rw [hg]; simp [hx])
      have harg : argOf ((x, a) :: d) k = argOf d k := by simp [argOf, Dict.get?_cons, hx]
      rw [hg, hcol, harg]
      simp [hx, Ne.symm hx]

/-! ### the invariant `every column is at most n_rows long` -/

/-- No column is longer than `n_rows`, the keys are distinct and `n_rows` is not negative. -/
structure Le (D : Data κ V τ) : Prop where
  nodup : (Dict.keys D.cols).Nodup
  nonneg : 0 ≤ D.maxLen
  le : ∀ k c, D.cols.get? k = some c → (c.length : Int) ≤ D.maxLen

theorem Le.colOf_le {D : Data κ V τ} (h : Le D) (k : κ) : ((colOf D k).length : Int) ≤ D.maxLen := by
  unfold colOf
  cases hk : D.cols.get? k with
  | none => simpa using h.nonneg
  | some c => simpa using h.le k c hk

theorem le_fillKey {D : Data κ V τ} (h : Le D) (len : Int) (hl : len ≤ D.maxLen) (k : κ) :
    Le (fillKey len D k).1 := by
  constructor
  · rw [fillKey_cols]; exact Dict.nodup_keys_set _ _ _ h.nodup
  · rw [fillKey_maxLen]; exact h.nonneg
  · intro k' c hc
    rw [fillKey_cols, Dict.get?_set] at hc
    rw [fillKey_maxLen]
    split at hc
    · simp only [Option.some.injEq] at hc
      subst hc
      rw [length_pad]
      exact max_le (h.colOf_le k) hl
    · exact h.le _ _ hc

theorem le_fill {D : Data κ V τ} (h : Le D) (len : Int) (hl : len ≤ D.maxLen) (ks : List κ) :
    Le (fill D len ks).1 :=
  (Res.forEach_inv (P := fun D' => Le D' ∧ D'.maxLen = D.maxLen)
    (fun s x hs => ⟨le_fillKey hs.1 _ (by rw [hs.2]; exact hl) _, by rw [fillKey_maxLen, hs.2]⟩)
    ks D ⟨h, rfl⟩).1

theorem le_extend {D : Data κ V τ} (h : Le D) (k : κ) (l : List (Option V)) :
    Le (extend D k l).1 := by
  rcases he : extend D k l with ⟨D', _ | e⟩
  · obtain ⟨hc, hm⟩ := extend_ok he
    constructor
    · simp only [hc]; exact Dict.nodup_keys_set _ _ _ h.nodup
    · simp only [hm]; exact le_trans h.nonneg (le_max_left _ _)
    · intro k' c hk
      simp only [hc, Dict.get?_set] at hk
      simp only [hm]
      split at hk
      · simp only [Option.some.injEq] at hk; subst hk; exact le_max_right _ _
      · exact le_trans (h.le _ _ hk) (le_max_left _ _)
  · obtain ⟨hc, hm⟩ := extend_err he
    exact ⟨by simpa [hc] using h.nodup, by simpa [hm] using h.nonneg,
      by simpa [hc, hm] using h.le⟩

theorem le_putAll {D : Data κ V τ} (h : Le D) (d : Dict κ (Arg V)) :
    Le (Res.forEach putArg d D).1 :=
  Res.forEach_inv (fun s x hs => by rw [putArg_eq]; exact le_extend hs _ _) d D h

theorem le_unsafeUpdate {D : Data κ V τ} (h : Le D) (d : Dict κ (Arg V)) :
    Le (unsafeUpdate D d).1 :=
  Res.andThen_inv (le_putAll h d) fun _ hs => le_fill hs _ le_rfl _

theorem le_dropLastKey {D : Data κ V τ} (h : Le D) (k : κ) : Le (dropLastKey D k).1 := by
  unfold dropLastKey
  split
  · exact h
  · rename_i c hc
    refine ⟨Dict.nodup_keys_set _ _ _ h.nodup, h.nonneg, ?_⟩
    intro k' c' hk
    simp only [Dict.get?_set] at hk
    split at hk
    · simp only [Option.some.injEq] at hk; subst hk
      have := h.le _ _ hc
      have h2 : c.dropLast.length ≤ c.length := by simp
      simp only; omega
    · exact h.le _ _ hk

theorem le_update {D : Data κ V τ} (h : Le D) (d : Dict κ (Arg V)) (compress : Bool) :
    Le (update D d compress).1 := by
  unfold update
  refine Res.andThen_inv (le_fill h _ le_rfl _) fun s hs => ?_
  split
  · exact le_unsafeUpdate hs d
  · split
    · exact hs
    · exact Res.andThen_inv (P := Le) (Res.forEach_inv (P := Le) (fun s x hs => le_dropLastKey hs x) _ _ hs)
        fun _ hs => le_unsafeUpdate hs d
    · exact le_unsafeUpdate hs d

/-! ### rectangular objects -/

/-- All columns have exactly `n_rows` entries. -/
structure Rect (D : Data κ V τ) : Prop where
  nodup : (Dict.keys D.cols).Nodup
  nonneg : 0 ≤ D.maxLen
  eq : ∀ k c, D.cols.get? k = some c → (c.length : Int) = D.maxLen

theorem Rect.toLe {D : Data κ V τ} (h : Rect D) : Le D :=
  ⟨h.nodup, h.nonneg, fun k c hc => le_of_eq (h.eq k c hc)⟩

theorem rect_empty : Rect (empty : Data κ V τ) :=
  ⟨by simp [empty], by simp [empty], by simp [empty]⟩

theorem rect_unsafeUpdate {D D' : Data κ V τ} (h : Le D) {d : Dict κ (Arg V)}
    (hu : unsafeUpdate D d = (D', none)) : Rect D' := by
  obtain ⟨D1, h1, h2⟩ := Res.andThen_none hu
  have hle : Le D1 := by have := le_putAll h d; rw [h1] at this; exact this
  have hm : D'.maxLen = D1.maxLen := by
    have := fill_maxLen D1.maxLen D1.keys D1; rw [h2] at this; exact this
  have hle' : Le D' := by have := le_fill hle D1.maxLen le_rfl D1.keys; rw [h2] at this; exact this
  refine ⟨hle'.nodup, hle'.nonneg, ?_⟩
  intro k c hk
  rw [fill_get? h2] at hk
  split at hk
  · simp only [Option.some.injEq] at hk
    subst hk
    rw [length_pad, hm]
    exact max_eq_right (hle.colOf_le k)
  · rename_i hmem
    exact absurd ((Dict.mem_keys_iff _ _).2 ⟨c, hk⟩) hmem

theorem rect_update {D D' : Data κ V τ} (h : Le D) {d : Dict κ (Arg V)} {compress : Bool}
    (hu : update D d compress = (D', none)) : Rect D' := by
  obtain ⟨D1, h1, h2⟩ := Res.andThen_none hu
  have hle : Le D1 := by have := le_fill h D.maxLen le_rfl (Dict.keys d ++ D.keys); rw [h1] at this; exact this
  split at h2
  · exact rect_unsafeUpdate hle h2
  · split at h2
    · simp at h2
    · obtain ⟨D2, h3, h4⟩ := Res.andThen_none h2
      refine rect_unsafeUpdate ?_ h4
      have := Res.forEach_inv (P := fun D => Le D) (body := dropLastKey)
        (fun s x hs => le_dropLastKey hs x) (Dict.keys d) D1 hle
      rw [h3] at this; exact this
    · exact rect_unsafeUpdate hle h2

theorem rect_deleteCol {D D' : Data κ V τ} (h : Rect D) {k : κ}
    (hd : deleteCol D k = (D', none)) : Rect D' := by
  unfold deleteCol at hd
  split at hd
  · simp at hd
  · split at hd
    · simp at hd
    · simp only [Prod.mk.injEq, and_true] at hd
      subst hd
      refine ⟨Dict.nodup_keys_del _ _ h.nodup, h.nonneg, ?_⟩
      intro k' c hk
      simp only [Dict.get?_del _ h.nodup] at hk
      split at hk
      · simp at hk
      · exact h.eq _ _ hk

theorem rect_rename {D D' : Data κ V τ} (h : Rect D) {k k' : κ}
    (hd : rename D k k' = (D', none)) : Rect D' := by
  unfold rename at hd
  split at hd
  · simp only [Prod.mk.injEq, and_true] at hd; exact hd ▸ h
  · split at hd
    · simp at hd
    · split at hd
      · simp at hd
      · rename_i c hc
        split at hd
        · simp at hd
        · refine rect_deleteCol (D := { D with cols := D.cols.set k' c, types := _ }) ?_ hd
          refine ⟨Dict.nodup_keys_set _ _ _ h.nodup, h.nonneg, ?_⟩
          intro k'' c'' hk
          simp only [Dict.get?_set] at hk
          split at hk
          · simp only [Option.some.injEq] at hk; subst hk; exact h.eq _ _ hc
          · exact h.eq _ _ hk

theorem length_maskList_eq {α β : Type} (m : List Bool) (l : List α) (l' : List β)
    (h : l.length = l'.length) : (maskList m l).length = (maskList m l').length := by
  induction m generalizing l l' with
  | nil => simp [maskList]
  | cons b m ih =>
    cases l with
    | nil => cases l' with
      | nil => rfl
      | cons _ _ => simp at h
    | cons x l => cases l' with
      | nil => simp at h
      | cons y l' =>
        simp only [List.length_cons, Nat.add_right_cancel_iff] at h
        cases b <;> simp [maskList, ih l l' h]

theorem maxColLen_const {cols : Dict κ (List (Option V))} {n : Nat}
    (h : ∀ p ∈ cols, p.2.length = n) : ∀ p ∈ cols, (p.2.length : Int) = maxColLen cols := by
  have key : cols ≠ [] → maxColLen cols = (n : Int) := by
    intro hne
    induction cols with
    | nil => exact absurd rfl hne
    | cons p cols ih =>
      have hp := h p (by simp)
      by_cases hc : cols = []
      · subst hc; simp [maxColLen, hp]
      · have := ih (fun q hq => h q (by simp [hq])) hc
        simp only [maxColLen, List.foldr_cons] at this ⊢
        rw [this, hp, max_self]
  intro p hp
  rw [key (List.ne_nil_of_mem hp), h p hp]

theorem maxColLen_nonneg (cols : Dict κ (List (Option V))) : 0 ≤ maxColLen cols := by
  induction cols with
  | nil => simp [maxColLen]
  | cons p cols ih => simp only [maxColLen, List.foldr_cons] at *; exact le_trans ih (le_max_right _ _)

theorem rect_maskRows {D : Data κ V τ} (h : Rect D) (m : List Bool) : Rect (maskRows D m) := by
  refine ⟨by simpa [maskRows] using h.nodup, maxColLen_nonneg _, ?_⟩
  intro k c hk
  have hmem := Dict.mem_of_get? hk
  have hall : ∀ p ∈ Dict.mapVals (maskList m) D.cols,
      p.2.length = (maskList m (List.replicate D.maxLen.toNat ())).length := by
    intro p hp
    simp only [Dict.mapVals, List.mem_map] at hp
    obtain ⟨q, hq, rfl⟩ := hp
    obtain ⟨k', c'⟩ := q
    apply length_maskList_eq
    have := h.eq k' c' (Dict.get?_of_mem h.nodup hq)
    simp only [List.length_replicate]; omega
  exact maxColLen_const hall (k, c) hmem

theorem rect_getSlice {D : Data κ V τ} (h : Rect D) (ks : List κ) : Rect (getSlice D ks) := by
  refine ⟨(Dict.keys_filterItems_sublist (fun k _ => decide (k ∈ ks)) D.cols).nodup h.nodup,
    maxColLen_nonneg _, ?_⟩
  intro k c hk
  have hmem := Dict.mem_of_get? hk
  have hall : ∀ p ∈ Dict.filterItems (fun k _ => decide (k ∈ ks)) D.cols,
      p.2.length = D.maxLen.toNat := by
    intro p hp
    obtain ⟨k', c'⟩ := p
    have := h.eq k' c' (Dict.get?_of_mem h.nodup (List.mem_of_mem_filter hp))
    simp only; omega
  exact maxColLen_const hall (k, c) hmem

/-! ### rows -/

theorem pyIndex_nat {α : Type} (l : List α) (i : Nat) : pyIndex l (i : Int) = l[i]? := by
  simp [pyIndex]

theorem rowAt_of_rect {D : Data κ V τ} (h : Rect D) {i : Nat} (hi : (i : Int) < D.maxLen) :
    ∃ r, D.rowAt i = some r ∧ Dict.keys r = D.keys := by
  have hlen : ∀ p ∈ D.cols, i < p.2.length := by
    intro p hp
    have := h.eq p.1 p.2 (Dict.get?_of_mem h.nodup hp); omega
  unfold rowAt keys
  generalize D.cols = cols at hlen
  induction cols with
  | nil => exact ⟨[], rfl, rfl⟩
  | cons p cols ih =>
    obtain ⟨r, hr, hk⟩ := ih (fun q hq => hlen q (by simp [hq]))
    have hp := hlen p (by simp)
    refine ⟨(p.1, p.2[i]) :: r, ?_, by simp [hk]⟩
    rw [List.mapM_cons, pyIndex_nat, List.getElem?_eq_getElem hp]
    simp [hr]

theorem rows_of_rect {D : Data κ V τ} (h : Rect D) :
    ∃ rs, D.rows = some rs ∧ (rs.length : Int) = D.maxLen := by
  have key : ∀ l : List Nat, (∀ i ∈ l, (i : Int) < D.maxLen) →
      ∃ rs, l.mapM (fun (i : Nat) => D.rowAt i) = some rs ∧ rs.length = l.length := by
    intro l
    induction l with
    | nil => intro _; exact ⟨[], rfl, rfl⟩
    | cons i l ih =>
      intro hl
      obtain ⟨rs, hrs, hlen⟩ := ih (fun j hj => hl j (by simp [hj]))
      obtain ⟨r, hr, -⟩ := rowAt_of_rect h (hl i (by simp))
      refine ⟨r :: rs, ?_, by simp [hlen]⟩
      rw [List.mapM_cons, hr, hrs]; rfl
  obtain ⟨rs, hrs, hlen⟩ := key (List.range D.maxLen.toNat) (by
    intro i hi; rw [List.mem_range] at hi; omega)
  refine ⟨rs, hrs, ?_⟩
  rw [hlen, List.length_range]
  exact Int.toNat_of_nonneg h.nonneg

end Data
end Verif
