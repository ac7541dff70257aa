import Mathlib.Data.List.Basic
import Mathlib.Data.List.Nodup
import Verif.Model.Dict

set_option linter.unusedSectionVars false
set_option linter.unusedSimpArgs false

namespace Verif.Dict

variable {κ α β : Type} [DecidableEq κ]

@[simp] theorem get?_nil (k : κ) : get? ([] : Dict κ α) k = none := rfl

@[simp] theorem keys_nil : keys ([] : Dict κ α) = [] := rfl

@[simp] theorem keys_cons (p : κ × α) (d : Dict κ α) : keys (p :: d) = p.1 :: keys d := rfl

theorem get?_cons (k' k : κ) (v : α) (d : Dict κ α) :
    get? ((k', v) :: d) k = if k' = k then some v else get? d k := rfl

theorem mem_keys_iff (d : Dict κ α) (k : κ) : k ∈ keys d ↔ ∃ v, get? d k = some v := by
  induction d with
  | nil => simp
  | cons p d ih =>
    obtain ⟨k', v'⟩ := p
    simp only [keys_cons, List.mem_cons, get?_cons, ih]
    by_cases h : k' = k
    · simp [h]
    · simp [h, Ne.symm h]

theorem get?_eq_none_iff (d : Dict κ α) (k : κ) : get? d k = none ↔ k ∉ keys d := by
  rw [mem_keys_iff]
  cases get? d k <;> simp

theorem get?_set (d : Dict κ α) (k k' : κ) (v : α) :
    get? (set d k v) k' = if k = k' then some v else get? d k' := by
  induction d with
  | nil => simp [set, get?]
  | cons p d ih =>
    obtain ⟨k₀, v₀⟩ := p
    by_cases h : k₀ = k
    · subst h
      simp [set, get?]
      by_cases h2 : k₀ = k' <;> simp [h2]
    · simp only [set, if_neg h, get?_cons, ih]
      by_cases h2 : k₀ = k'
      · subst h2; simp [Ne.symm h]
      · simp [h2]

@[simp] theorem get?_set_self (d : Dict κ α) (k : κ) (v : α) : get? (set d k v) k = some v := by
  simp [get?_set]

theorem get?_set_ne (d : Dict κ α) {k k' : κ} (v : α) (h : k ≠ k') :
    get? (set d k v) k' = get? d k' := by
  simp [get?_set, h]

theorem keys_set_of_mem (d : Dict κ α) (k : κ) (v : α) (h : k ∈ keys d) :
    keys (set d k v) = keys d := by
  induction d with
  | nil => simp at h
  | cons p d ih =>
    obtain ⟨k₀, v₀⟩ := p
    by_cases h0 : k₀ = k
    · subst h0; simp [set]
    · simp only [keys_cons, List.mem_cons] at h
      rcases h with h | h
      · exact absurd h.symm h0
      · simp [set, h0, ih h]

theorem keys_set_of_not_mem (d : Dict κ α) (k : κ) (v : α) (h : k ∉ keys d) :
    keys (set d k v) = keys d ++ [k] := by
  induction d with
  | nil => simp [set]
  | cons p d ih =>
    obtain ⟨k₀, v₀⟩ := p
    simp only [keys_cons, List.mem_cons, not_or] at h
    have h0 : ¬ k₀ = k := fun e => h.1 e.symm
    simp [set, h0, ih h.2]

theorem set_of_not_mem (d : Dict κ α) (k : κ) (v : α) (h : k ∉ keys d) :
    set d k v = d ++ [(k, v)] := by
  induction d with
  | nil => simp [set]
  | cons p d ih =>
    obtain ⟨k₀, v₀⟩ := p
    simp only [keys_cons, List.mem_cons, not_or] at h
    have h0 : ¬ k₀ = k := fun e => h.1 e.symm
    simp [set, h0, ih h.2]

theorem mem_keys_set (d : Dict κ α) (k k' : κ) (v : α) :
    k' ∈ keys (set d k v) ↔ k' = k ∨ k' ∈ keys d := by
  by_cases h : k ∈ keys d
  · rw [keys_set_of_mem _ _ _ h]
    constructor
    · exact Or.inr
    · rintro (rfl | h') <;> assumption
  · rw [keys_set_of_not_mem _ _ _ h]
    simp [or_comm]

theorem nodup_keys_set (d : Dict κ α) (k : κ) (v : α) (h : (keys d).Nodup) :
    (keys (set d k v)).Nodup := by
  by_cases hk : k ∈ keys d
  · rwa [keys_set_of_mem _ _ _ hk]
  · rw [keys_set_of_not_mem _ _ _ hk]
    rw [List.nodup_append]
    refine ⟨h, by simp, ?_⟩
    intro a ha b hb
    simp only [List.mem_singleton] at hb
    subst hb
    exact fun e => hk (e ▸ ha)

theorem mem_of_get? {d : Dict κ α} {k : κ} {v : α} (h : get? d k = some v) : (k, v) ∈ d := by
  induction d with
  | nil => simp at h
  | cons p d ih =>
    obtain ⟨k₀, v₀⟩ := p
    rw [get?_cons] at h
    by_cases h0 : k₀ = k
    · simp [h0] at h; simp [h0, h]
    · simp [h0] at h; simp [ih h]

theorem get?_of_mem {d : Dict κ α} (hd : (keys d).Nodup) {k : κ} {v : α} (h : (k, v) ∈ d) :
    get? d k = some v := by
  induction d with
  | nil => simp at h
  | cons p d ih =>
    obtain ⟨k₀, v₀⟩ := p
    simp only [keys_cons, List.nodup_cons] at hd
    rw [get?_cons]
    simp only [List.mem_cons, Prod.mk.injEq] at h
    rcases h with ⟨rfl, rfl⟩ | h
    · simp
    · have : k ∈ keys d := List.mem_map.2 ⟨(k, v), h, rfl⟩
      have h0 : ¬ k₀ = k := fun e => hd.1 (e ▸ this)
      simp [h0, ih hd.2 h]

theorem get?_iff_mem {d : Dict κ α} (hd : (keys d).Nodup) {k : κ} {v : α} :
    get? d k = some v ↔ (k, v) ∈ d := ⟨mem_of_get?, get?_of_mem hd⟩

theorem get?_del (d : Dict κ α) (hd : (keys d).Nodup) (k k' : κ) :
    get? (del d k) k' = if k = k' then none else get? d k' := by
  induction d with
  | nil => simp [del]
  | cons p d ih =>
    obtain ⟨k₀, v₀⟩ := p
    simp only [keys_cons, List.nodup_cons] at hd
    by_cases h : k₀ = k
    · subst h
      simp only [del, if_true, get?_cons]
      by_cases h2 : k₀ = k'
      · subst h2; simp [get?_eq_none_iff, hd.1]
      · simp [h2]
    · simp only [del, if_neg h, get?_cons, ih hd.2]
      by_cases h2 : k₀ = k'
      · subst h2; simp [Ne.symm h]
      · simp [h2]

theorem keys_del (d : Dict κ α) (k : κ) : keys (del d k) = (keys d).erase k := by
  induction d with
  | nil => rfl
  | cons p d ih =>
    obtain ⟨k₀, v₀⟩ := p
    by_cases h : k₀ = k
    · simp [del, h]
    · simp [del, h, ih]

theorem nodup_keys_del (d : Dict κ α) (k : κ) (h : (keys d).Nodup) : (keys (del d k)).Nodup := by
  rw [keys_del]; exact h.erase k

theorem del_sublist (d : Dict κ α) (k : κ) : (del d k).Sublist d := by
  induction d with
  | nil => exact List.Sublist.slnil
  | cons p d ih =>
    obtain ⟨k₀, v₀⟩ := p
    by_cases h : k₀ = k
    · simp [del, h]
    · simp [del, h, ih]

@[simp] theorem get?_mapVals (f : α → β) (d : Dict κ α) (k : κ) :
    get? (mapVals f d) k = (get? d k).map f := by
  induction d with
  | nil => rfl
  | cons p d ih =>
    obtain ⟨k₀, v₀⟩ := p
    simp only [mapVals, List.map_cons, get?_cons] at *
    by_cases h : k₀ = k
    · simp [h]
    · simp [h, ih]

@[simp] theorem keys_mapVals (f : α → β) (d : Dict κ α) : keys (mapVals f d) = keys d := by
  simp [keys, mapVals]

theorem get?_filterItems (keep : κ → α → Bool) (d : Dict κ α) (hd : (keys d).Nodup) (k : κ) :
    get? (filterItems keep d) k = (get? d k).filter (keep k) := by
  induction d with
  | nil => rfl
  | cons p d ih =>
    obtain ⟨k₀, v₀⟩ := p
    simp only [keys_cons, List.nodup_cons] at hd
    have ih' := ih hd.2
    simp only [filterItems] at ih' ⊢
    by_cases h : k₀ = k
    · subst h
      have hn : get? d k₀ = none := (get?_eq_none_iff _ _).2 hd.1
      rw [hn] at ih'
      by_cases hk : keep k₀ v₀ = true
      · simp [List.filter_cons, hk, get?_cons, Option.filter]
      · simp [List.filter_cons, hk, get?_cons, Option.filter]
        simpa using ih'
    · by_cases hk : keep k₀ v₀ = true
      · simp [List.filter_cons, hk, get?_cons, h, ih']
      · simp [List.filter_cons, hk, get?_cons, h, ih']

theorem keys_filterItems_sublist (keep : κ → α → Bool) (d : Dict κ α) :
    (keys (filterItems keep d)).Sublist (keys d) :=
  List.Sublist.map _ List.filter_sublist

end Verif.Dict
