import Mathlib.Tactic.Ring
import Verif.Lemmas.Data

set_option linter.unusedSectionVars false
set_option linter.unusedSimpArgs false

namespace Verif.Data

variable {κ V τ : Type} [DecidableEq κ] [DecidableEq τ] [HasType V τ]

theorem colOf_of_get? {D : Data κ V τ} {k : κ} {c : List (Option V)} (h : D.cols.get? k = some c) :
    colOf D k = c := by simp [colOf, h]

theorem argOf_of_not_mem {d : Dict κ (Arg V)} {k : κ} (h : k ∉ Dict.keys d) : argOf d k = [] := by
  simp [argOf, (Dict.get?_eq_none_iff _ _).2 h]

theorem colOf_of_not_mem {D : Data κ V τ} {k : κ} (h : k ∉ D.keys) : colOf D k = [] := by
  simp [colOf, (Dict.get?_eq_none_iff _ _).2 h]

theorem fill_colOf {len : Int} {ks : List κ} {D D' : Data κ V τ}
    (h : fill D len ks = (D', none)) (k : κ) :
    colOf D' k = if k ∈ ks then pad len (colOf D k) else colOf D k := by
  have := fill_get? h k
  split at this
  · rename_i hk; rw [if_pos hk, colOf_of_get? this]
  · rename_i hk; rw [if_neg hk]; exact colOf_eq_of_get? this

theorem fill_measured {len : Int} {ks : List κ} {D D' : Data κ V τ}
    (h : fill D len ks = (D', none)) (k : κ) : measured (colOf D' k) = measured (colOf D k) := by
  rw [fill_colOf h]; split
  · exact measured_pad _ _
  · rfl

theorem putAll_colOf {d : Dict κ (Arg V)} (hd : (Dict.keys d).Nodup) {D D' : Data κ V τ}
    (h : Res.forEach putArg d D = (D', none)) (k : κ) : colOf D' k = colOf D k ++ argOf d k := by
  have := putAll_get? hd h k
  split at this
  · exact colOf_of_get? this
  · rename_i hk
    rw [argOf_of_not_mem hk, List.append_nil]
    exact colOf_eq_of_get? this

theorem unsafeUpdate_measured {d : Dict κ (Arg V)} (hd : (Dict.keys d).Nodup) {D D' : Data κ V τ}
    (h : unsafeUpdate D d = (D', none)) (k : κ) :
    measured (colOf D' k) = measured (colOf D k) ++ measured (argOf d k) := by
  obtain ⟨D1, h1, h2⟩ := Res.andThen_none h
  rw [fill_measured h2, putAll_colOf hd h1, measured_append]

theorem dropLast_get? {ks : List κ} (hks : ks.Nodup) {D D' : Data κ V τ}
    (h : Res.forEach dropLastKey ks D = (D', none)) (k : κ) :
    D'.cols.get? k = if k ∈ ks then (D.cols.get? k).map List.dropLast else D.cols.get? k := by
  induction ks generalizing D with
  | nil => simp only [Res.forEach, Prod.mk.injEq] at h; simp [h.1]
  | cons x xs ih =>
    obtain ⟨D1, h1, h2⟩ := Res.forEach_none_cons h
    rw [List.nodup_cons] at hks
    simp only [dropLastKey] at h1
    split at h1
    · simp at h1
    · rename_i c hc
      simp only [Prod.mk.injEq, and_true] at h1
      have hg : ∀ k, D1.cols.get? k = if x = k then some c.dropLast else D.cols.get? k := by
        intro k; rw [← h1]; simp [Dict.get?_set]
      rw [ih hks.2 h2]
      by_cases hx : x = k
      · subst hx; simp [hks.1, hg, hc]
      · simp [hg, hx, Ne.symm hx]

theorem pyIndex_neg_one {α : Type} (l : List α) : pyIndex l (-1) = l.getLast? := by
  cases l with
  | nil => simp [pyIndex]
  | cons a l =>
    simp only [pyIndex]
    rw [if_neg (by omega), if_pos (by simp only [List.length_cons]; omega), List.getLast?_eq_getElem?]
    congr 1
    omega

theorem allLastNone_true {D : Data κ V τ} {ks : List κ} (h : allLastNone D ks = .ok true) :
    ∀ k ∈ ks, (colOf D k).getLast? = some none := by
  induction ks with
  | nil => simp
  | cons x xs ih =>
    simp only [allLastNone] at h
    split at h
    · simp at h
    · rename_i c hc
      split at h
      · simp at h
      · simp at h
      · rename_i hp
        intro k hk
        rcases List.mem_cons.1 hk with rfl | hk
        · rw [colOf_of_get? hc, ← pyIndex_neg_one]; exact hp
        · exact ih h k hk

theorem measured_dropLast {c : List (Option V)} (h : c.getLast? = some none) :
    measured c.dropLast = measured c := by
  have hne : c ≠ [] := by rintro rfl; simp at h
  have hl : c.getLast hne = none := by
    rw [List.getLast?_eq_getLast_of_ne_nil hne] at h; simpa using h
  conv_rhs => rw [← List.dropLast_append_getLast hne, hl]
  rw [measured_append]; simp [measured]

theorem update_measured {d : Dict κ (Arg V)} (hd : (Dict.keys d).Nodup) {D D' : Data κ V τ}
    {compress : Bool} (h : update D d compress = (D', none)) (k : κ) :
    measured (colOf D' k) = measured (colOf D k) ++ measured (argOf d k) := by
  obtain ⟨D1, h1, h2⟩ := Res.andThen_none h
  rw [← fill_measured h1]
  split at h2
  · exact unsafeUpdate_measured hd h2 k
  · split at h2
    · simp at h2
    · rename_i hall
      obtain ⟨D2, h3, h4⟩ := Res.andThen_none h2
      rw [unsafeUpdate_measured hd h4]
      congr 1
      have hg := dropLast_get? hd h3 k
      split at hg
      · rename_i hk
        have hlast := allLastNone_true hall k hk
        have : colOf D2 k = (colOf D1 k).dropLast := by
          simp only [colOf, hg]
          cases D1.cols.get? k <;> simp
        rw [this, measured_dropLast hlast]
      · rw [colOf_eq_of_get? hg]
    · exact unsafeUpdate_measured hd h2 k

/-! ### plain update of rectangular data -/

theorem pad_eq (len : Int) (c : List (Option V)) :
    pad len c = c ++ List.replicate (len - (c.length : Int)).toNat none := by
  unfold pad
  congr 2
  omega

theorem longest_le {d : Dict κ (Arg V)} {k : κ} : (argOf d k).length ≤ longest d := by
  induction d with
  | nil => simp [argOf]
  | cons p d ih =>
    obtain ⟨x, a⟩ := p
    simp only [longest, List.foldr_cons] at *
    by_cases hx : x = k
    · simp [argOf, Dict.get?_cons, hx]
    · have : argOf ((x, a) :: d) k = argOf d k := by simp [argOf, Dict.get?_cons, hx]
      rw [this]; exact le_trans ih (le_max_right _ _)

/-- The number of rows after all values were appended to columns of length `n`. -/
theorem putAll_maxLen {d : Dict κ (Arg V)} (hd : (Dict.keys d).Nodup) {D D' : Data κ V τ} {n m : Nat}
    (hcol : ∀ k ∈ Dict.keys d, (colOf D k).length = n) (hm : D.maxLen = ((n + m : Nat) : Int))
    (h : Res.forEach putArg d D = (D', none)) :
    D'.maxLen = ((n + max m (longest d) : Nat) : Int) := by
  induction d generalizing D m with
  | nil =>
    simp only [Res.forEach, Prod.mk.injEq] at h
    rw [← h.1, hm]; simp [longest]
  | cons p d ih =>
    obtain ⟨x, a⟩ := p
    obtain ⟨D1, h1, h2⟩ := Res.forEach_none_cons h
    rw [putArg_eq] at h1
    obtain ⟨hc, hmax⟩ := extend_ok h1
    simp only [Dict.keys_cons, List.nodup_cons] at hd
    have hg : ∀ k, D1.cols.get? k = if x = k then some (colOf D x ++ a.toList) else D.cols.get? k := by
      intro k; rw [hc, Dict.get?_set]
    have hx := hcol x (by simp)
    have hm1 : D1.maxLen = ((n + max m a.toList.length : Nat) : Int) := by
      simp only [List.length_append, hx] at hmax
      rw [hmax, hm]; omega
    have hcol1 : ∀ k ∈ Dict.keys d, (colOf D1 k).length = n := by
      intro k hk
      have hne : x ≠ k := fun e => hd.1 (e ▸ hk)
      rw [colOf_eq_of_get? (D' := D) (by rw [hg]; simp [hne])]
      exact hcol k (by simp [hk])
    rw [ih hd.2 hcol1 hm1 h2]
    simp only [longest, List.foldr_cons, Nat.cast_inj]
    omega

theorem Rect.length_colOf {D : Data κ V τ} (h : Rect D) {k : κ} (hk : k ∈ D.keys) :
    ((colOf D k).length : Int) = D.maxLen := by
  obtain ⟨c, hc⟩ := (Dict.mem_keys_iff _ _).1 hk
  rw [colOf_of_get? hc]; exact h.eq k c hc

theorem Rect.pad_colOf {D : Data κ V τ} (h : Rect D) (k : κ) :
    pad D.maxLen (colOf D k) =
      if k ∈ D.keys then colOf D k else List.replicate D.maxLen.toNat none := by
  split
  · rename_i hk; apply pad_of_le; rw [h.length_colOf hk]
  · rename_i hk; rw [colOf_of_not_mem hk, pad_eq]; simp

theorem update_plain {d : Dict κ (Arg V)} (hd : (Dict.keys d).Nodup) {D D' : Data κ V τ}
    (hr : Rect D) (h : update D d false = (D', none)) :
    D'.maxLen = D.maxLen + (longest d : Int) ∧
    (∀ k, k ∈ D'.keys ↔ k ∈ D.keys ∨ k ∈ Dict.keys d) ∧
    ∀ k ∈ D'.keys, colOf D' k =
      (if k ∈ D.keys then colOf D k else List.replicate D.maxLen.toNat none) ++
        (argOf d k ++ List.replicate (longest d - (argOf d k).length) none) := by
  obtain ⟨D1, h1, h2⟩ := Res.andThen_none h
  simp only [Bool.false_eq_true, not_false_eq_true, true_or, if_true] at h2
  obtain ⟨D2, h3, h4⟩ := Res.andThen_none h2
  have hm1 : D1.maxLen = D.maxLen := by
    have := fill_maxLen D.maxLen (Dict.keys d ++ D.keys) D; rw [h1] at this; exact this
  have hm' : D'.maxLen = D2.maxLen := by
    have := fill_maxLen D2.maxLen D2.keys D2; rw [h4] at this; exact this
  have hn := hr.nonneg
  have hcol1 : ∀ k ∈ Dict.keys d, (colOf D1 k).length = D.maxLen.toNat := by
    intro k hk
    rw [fill_colOf h1, if_pos (by simp [hk])]
    have := length_pad D.maxLen (colOf D k)
    have h2 := hr.toLe.colOf_le k
    omega
  have hmax : D2.maxLen = ((D.maxLen.toNat + max 0 (longest d) : Nat) : Int) :=
    putAll_maxLen hd (m := 0) hcol1 (by rw [hm1]; omega) h3
  have hkeys1 : ∀ k, k ∈ D1.keys ↔ k ∈ D.keys ∨ k ∈ Dict.keys d := by
    intro k
    simp only [keys, Dict.mem_keys_iff _ k]
    rw [fill_get? h1]
    simp only [← Dict.mem_keys_iff, List.mem_append, keys]
    split
    · rename_i hk; simp only [Option.some.injEq, exists_eq', true_iff]; tauto
    · rename_i hk; simp only [← Dict.mem_keys_iff]; tauto
  have hkeys2 : ∀ k, k ∈ D2.keys ↔ k ∈ D1.keys := by
    intro k
    simp only [keys, Dict.mem_keys_iff _ k]
    rw [putAll_get? hd h3]
    split
    · rename_i hk
      have : k ∈ D1.keys := (hkeys1 k).2 (Or.inr hk)
      simp only [Option.some.injEq, exists_eq', true_iff]
      exact (Dict.mem_keys_iff _ _).1 this
    · rfl
  have hkeys' : ∀ k, k ∈ D'.keys ↔ k ∈ D2.keys := by
    intro k
    simp only [keys, Dict.mem_keys_iff _ k]
    rw [fill_get? h4]
    split
    · rename_i hk
      simp only [Option.some.injEq, exists_eq', true_iff]
      exact (Dict.mem_keys_iff _ _).1 hk
    · rfl
  refine ⟨by rw [hm', hmax]; omega, fun k => by rw [hkeys', hkeys2, hkeys1], ?_⟩
  intro k hk
  have hk2 := (hkeys' k).1 hk
  have hk1 : k ∈ D.keys ∨ k ∈ Dict.keys d := (hkeys1 k).1 ((hkeys2 k).1 hk2)
  rw [fill_colOf h4, if_pos hk2, putAll_colOf hd h3, fill_colOf h1,
    if_pos (by simp only [List.mem_append]; tauto), hr.pad_colOf, pad_eq, List.append_assoc]
  congr 3
  have hlen : (if k ∈ D.keys then colOf D k else List.replicate D.maxLen.toNat none).length = D.maxLen.toNat := by
    split
    · rename_i hk; have := hr.length_colOf hk; omega
    · simp
  rw [List.length_append, hlen, hmax]
  have := longest_le (d := d) (k := k)
  omega

end Verif.Data
