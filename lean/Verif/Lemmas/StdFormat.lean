import Mathlib.Data.List.Perm.Subperm
import Mathlib.Data.List.Nodup
import Mathlib.Data.List.Perm.Basic
import Std.Data.String.ToNat
import Verif.Model.StdFormat
import Verif.Lemmas.DataTypes
import Verif.Lemmas.DataUpdate

/-!
# Lemmas for `hrosailing_standard_format`
-/

set_option linter.unusedSectionVars false
set_option linter.unusedSimpArgs false

namespace Verif

/-! ### Names -/

theorem toDigits_inj {i j : Nat} (h : Nat.toDigits 10 i = Nat.toDigits 10 j) : i = j := by
  have := congrArg (fun l => Nat.ofDigitChars 10 l 0) h
  simpa [Nat.ofDigitChars_ten_toDigits] using this

theorem controlName_inj {s : List Char} {i j : Nat} (h : controlName s i = controlName s j) : i = j := by
  simp only [controlName] at h
  have h1 := List.append_cancel_right h
  exact toDigits_inj (List.append_cancel_left h1)

theorem controlName_ne (s : List Char) (i : Nat) : controlName s i ≠ s := by
  intro h
  have := congrArg List.length h
  simp [controlName] at this

/-- The candidates of the loop. -/
def cand (s : List Char) (i : Nat) : List Char := if i = 0 then s else controlName s i

theorem cand_inj {s : List Char} {i j : Nat} (h : cand s i = cand s j) : i = j := by
  unfold cand at h
  split at h <;> split at h
  · omega
  · exact absurd h.symm (controlName_ne _ _)
  · exact absurd h (controlName_ne _ _)
  · exact controlName_inj h

theorem freshLoop_none {s : List Char} {keys : List (List Char)} {fuel i : Nat}
    (h : freshLoop s keys fuel i (cand s i) = none) : ∀ j < fuel, cand s (i + j) ∈ keys := by
  induction fuel generalizing i with
  | zero => intro j hj; omega
  | succ n ih =>
    simp only [freshLoop] at h
    split at h
    · rename_i hm
      have h' : freshLoop s keys n (i + 1) (cand s (i + 1)) = none := by simpa [cand] using h
      intro j hj
      cases j with
      | zero => exact hm
      | succ j =>
        have := ih h' j (by omega)
        rwa [show i + (j + 1) = i + 1 + j by omega]
    · simp at h

theorem freshLoop_some {s : List Char} {keys : List (List Char)} {fuel i : Nat} {r : List Char}
    (h : freshLoop s keys fuel i (cand s i) = some r) : r ∉ keys ∧ ∃ j, r = cand s j := by
  induction fuel generalizing i with
  | zero => simp [freshLoop] at h
  | succ n ih =>
    simp only [freshLoop] at h
    split at h
    · exact ih (i := i + 1) (by simpa [cand] using h)
    · rename_i hm
      simp only [Option.some.injEq] at h
      subst h
      exact ⟨hm, i, rfl⟩

theorem freshLoop_terminates (s : List Char) (keys : List (List Char)) :
    ∃ r, freshLoop s keys (keys.length + 2) 0 s = some r := by
  cases h : freshLoop s keys (keys.length + 2) 0 s with
  | some r => exact ⟨r, rfl⟩
  | none =>
    exfalso
    have h1 := freshLoop_none (s := s) (i := 0) (by simpa [cand] using h)
    have hnd : ((List.range (keys.length + 2)).map (cand s)).Nodup :=
      List.nodup_range.map (fun a b hab => cand_inj hab)
    have hsub : (List.range (keys.length + 2)).map (cand s) ⊆ keys := by
      intro x hx
      simp only [List.mem_map, List.mem_range] at hx
      obtain ⟨j, hj, rfl⟩ := hx
      simpa using h1 j hj
    have := (hnd.subperm hsub).length_le
    simp at this

/-! ### Standard keys are fixed points -/

theorem dropWhile_append_last {p : Char → Bool} (w : List Char) {c : Char} (hc : p c = false) :
    (w ++ [c]).dropWhile p = w.dropWhile p ++ [c] := by
  induction w with
  | nil => simp [hc]
  | cons a w ih =>
    simp only [List.cons_append, List.dropWhile_cons]
    split
    · exact ih
    · simp

theorem pyStrip_append_last (w : List Char) {c : Char} (hc : isPySpace c = false) :
    pyStrip (w ++ [c]) = w.dropWhile isPySpace ++ [c] := by
  simp [pyStrip, dropWhile_append_last w hc, hc]

theorem foldl_sep_last (seps : List Char) (w : List Char) {c : Char} (hc : c ∉ seps) :
    ∃ w', seps.foldl (fun l sep => l.map fun c => if c = sep then ' ' else c) (w ++ [c]) = w' ++ [c] := by
  induction seps generalizing w with
  | nil => exact ⟨w, rfl⟩
  | cons s seps ih =>
    simp only [List.mem_cons, not_or] at hc
    simp only [List.foldl_cons, List.map_append, List.map_cons, List.map_nil, if_neg hc.1]
    exact ih _ hc.2

theorem normKey_paren (w : List Char) : ∃ w', normKey (w ++ [')']) = w' ++ [')'] := by
  unfold normKey
  rw [List.map_append, List.map_singleton, show Char.toLower ')' = ')' by decide]
  obtain ⟨w', h⟩ := foldl_sep_last separators (w.map Char.toLower) (c := ')') (by decide)
  rw [h]
  exact ⟨_, pyStrip_append_last _ (by decide)⟩

theorem synonyms_no_paren : ∀ p ∈ keySynonyms, p.1.getLast? ≠ some ')' := by decide

/-- Names ending with a closing parenthesis are not changed. -/
theorem standardKey_paren (w : List Char) : standardKey (w ++ [')']) = .ok (w ++ [')']) := by
  obtain ⟨w', h⟩ := normKey_paren w
  have hn : keySynonyms.get? (w' ++ [')']) = none := by
    rw [Dict.get?_eq_none_iff]
    intro hm
    obtain ⟨v, hv⟩ := (Dict.mem_keys_iff _ _).1 hm
    exact synonyms_no_paren _ (Dict.mem_of_get? hv) (by simp)
  simp [standardKey, h, hn]

theorem standardKey_controlName (s : List Char) (i : Nat) :
    standardKey (controlName s i) = .ok (controlName s i) := by
  unfold controlName
  exact standardKey_paren _

theorem synonyms_fixed : ∀ p ∈ keySynonyms, standardKey p.2 = .ok p.2 := by decide +kernel

theorem synonyms_get?_fixed {k s : List Char} (h : keySynonyms.get? k = some s) : standardKey s = .ok s :=
  synonyms_fixed (k, s) (Dict.mem_of_get? h)

attribute [local irreducible] keySynonyms separators

theorem standardKey_idem {k s : List Char} (h : standardKey k = .ok s) : standardKey s = .ok s := by
  have h' := h
  unfold standardKey at h
  simp only at h
  split at h
  · simp at h
  · split at h
    · rename_i hv
      simp only [Except.ok.injEq] at h
      subst h
      exact synonyms_get?_fixed hv
    · split at h
      · rename_i hv
        simp only [Except.ok.injEq] at h
        subst h
        exact synonyms_get?_fixed hv
      · simp only [Except.ok.injEq] at h
        subst h
        exact h'

theorem standardKey_cases (k : List Char) :
    (normKey k = [] ∧ standardKey k = .error .indexError) ∨ (normKey k ≠ [] ∧ ∃ s, standardKey k = .ok s) := by
  unfold standardKey
  simp only
  cases h : (normKey k).getLast? with
  | none => left; simpa using h
  | some c =>
    right
    refine ⟨by rintro h0; simp [h0] at h, ?_⟩
    simp only
    split
    · exact ⟨_, rfl⟩
    · split <;> exact ⟨_, rfl⟩

namespace Data

variable {κ V τ : Type} [DecidableEq κ] [DecidableEq τ] [HasType V τ]

/-! ### rename -/

/-- Column names are unique and every column has a recorded type. -/
structure WF (D : Data κ V τ) : Prop where
  nodup : (Dict.keys D.cols).Nodup
  nodupT : (Dict.keys D.types).Nodup
  typed : ∀ k ∈ Dict.keys D.cols, k ∈ Dict.keys D.types

theorem wf_empty : WF (empty : Data κ V τ) := ⟨by simp [empty], by simp [empty], by simp [empty]⟩

theorem wf_set {D : Data κ V τ} (h : WF D) (k : κ) (c : List (Option V)) (t : Option τ) (m : Int) :
    WF ({ cols := D.cols.set k c, types := D.types.set k t, maxLen := m } : Data κ V τ) := by
  refine ⟨Dict.nodup_keys_set _ _ _ h.nodup, Dict.nodup_keys_set _ _ _ h.nodupT, ?_⟩
  intro k' hk'
  simp only [Dict.mem_keys_set] at hk' ⊢
  exact hk'.imp id (h.typed _)

theorem wf_setT {D : Data κ V τ} (h : WF D) (k : κ) (t : Option τ) :
    WF ({ D with types := D.types.set k t } : Data κ V τ) := by
  refine ⟨h.nodup, Dict.nodup_keys_set _ _ _ h.nodupT, ?_⟩
  intro k' hk'
  have := h.typed _ hk'
  simp only [Dict.mem_keys_set]
  tauto

theorem wf_setC {D : Data κ V τ} (h : WF D) {k : κ} (hk : k ∈ D.keys) (c : List (Option V)) (m : Int) :
    WF ({ cols := D.cols.set k c, types := D.types, maxLen := m } : Data κ V τ) := by
  refine ⟨Dict.nodup_keys_set _ _ _ h.nodup, h.nodupT, ?_⟩
  intro k' hk'
  simp only [Dict.mem_keys_set] at hk'
  have := h.typed k hk
  have := h.typed k'
  grind [keys]

theorem wf_extend {D : Data κ V τ} (h : WF D) (k : κ) (l : List (Option V)) : WF (extend D k l).1 := by
  unfold extend
  split
  · exact h
  · split
    · rename_i old hold
      split
      · exact h
      · rename_i t ht
        have hk : k ∈ D.keys := (Dict.mem_keys_iff _ _).2 ⟨_, hold⟩
        by_cases h0 : t = none
        · simp only [h0, if_true]
          split
          · exact wf_setT h _ _
          · exact wf_set h _ _ _ _
        · simp only [h0, if_false]
          split
          · exact h
          · exact wf_setC h hk _ _
    · exact wf_set h _ _ _ _

theorem deleteCol_eq {D : Data κ V τ} (h : WF D) {k : κ} (hk : k ∈ D.keys) :
    deleteCol D k = ({ D with cols := D.cols.del k, types := D.types.del k }, none) := by
  obtain ⟨c, hc⟩ := (Dict.mem_keys_iff _ _).1 hk
  obtain ⟨t, ht⟩ := (Dict.mem_keys_iff _ _).1 (h.typed k hk)
  simp [deleteCol, hc, ht]

theorem mem_keys_del {α : Type} {d : Dict κ α} (h : (Dict.keys d).Nodup) {k x : κ} :
    x ∈ Dict.keys (d.del k) ↔ x ≠ k ∧ x ∈ Dict.keys d := by
  rw [Dict.keys_del, h.mem_erase_iff]

theorem del_set_new {α : Type} (d : Dict κ α) {k k' : κ} (v : α) (hk : k ∈ Dict.keys d)
    (hk' : k' ∉ Dict.keys d) : (d.set k' v).del k = d.del k ++ [(k', v)] := by
  rw [Dict.set_of_not_mem _ _ _ hk']
  induction d with
  | nil => simp at hk
  | cons p d ih =>
    obtain ⟨a, b⟩ := p
    simp only [List.cons_append, Dict.del]
    split
    · rfl
    · rename_i hne
      simp only [Dict.keys_cons, List.mem_cons, not_or] at hk hk'
      rw [ih (hk.resolve_left (fun h => hne h.symm)) hk'.2]
      rfl

theorem perm_del {α : Type} (d : Dict κ α) {k : κ} {v : α} (h : d.get? k = some v) :
    d.Perm ((k, v) :: d.del k) := by
  induction d with
  | nil => simp at h
  | cons p d ih =>
    obtain ⟨a, b⟩ := p
    rw [Dict.get?_cons] at h
    simp only [Dict.del]
    split at h
    · rename_i ha
      simp only [Option.some.injEq] at h
      subst ha; subst h
      simp
    · rename_i ha
      rw [if_neg ha]
      exact ((ih h).cons _).trans (List.Perm.swap _ _ _)

theorem rename_eq {D : Data κ V τ} (h : WF D) {k k' : κ} {c : List (Option V)}
    (hc : D.cols.get? k = some c) (hk' : k' ∉ D.keys) :
    ∃ T, rename D k k' = ({ D with cols := D.cols.del k ++ [(k', c)], types := T }, none) ∧
      WF ({ D with cols := D.cols.del k ++ [(k', c)], types := T } : Data κ V τ) := by
  have hk : k ∈ D.keys := (Dict.mem_keys_iff _ _).2 ⟨_, hc⟩
  have hne : k ≠ k' := fun e => hk' (e ▸ hk)
  obtain ⟨t, ht⟩ := (Dict.mem_keys_iff _ _).1 (h.typed k hk)
  have hw := wf_set h k' c t D.maxLen
  refine ⟨(D.types.set k' t).del k, ?_, ?_⟩
  · simp only [rename, hne, if_false, hk', hc, ht]
    rw [deleteCol_eq hw (by simp only [keys, Dict.mem_keys_set]; exact Or.inr hk), del_set_new _ _ hk hk']
  · rw [← del_set_new _ _ hk hk']
    refine ⟨Dict.nodup_keys_del _ _ hw.nodup, Dict.nodup_keys_del _ _ hw.nodupT, ?_⟩
    intro x hx
    have hx' := hx
    simp only [Dict.keys_del] at hx ⊢
    have hn1 := hw.nodup
    have hn2 := hw.nodupT
    rw [hn1.mem_erase_iff] at hx
    rw [hn2.mem_erase_iff]
    exact ⟨hx.1, hw.typed x hx.2⟩

end Data

namespace Data

variable {V τ : Type} [DecidableEq τ] [HasType V τ]

/-- A name that the loop may give to the column `k`. -/
def Good (k r : List Char) : Prop :=
  ∃ s, standardKey k = .ok s ∧ (r = s ∨ ∃ i, 1 ≤ i ∧ r = controlName s i)

theorem Good.final {k r : List Char} (h : Good k r) : standardKey r = .ok r := by
  obtain ⟨s, hs, h | ⟨i, _, h⟩⟩ := h
  · rw [h]; exact standardKey_idem hs
  · rw [h]; exact standardKey_controlName s i

theorem standardiseKey_ok {D : Data (List Char) V τ} (h : WF D) {k : List Char} {c : List (Option V)}
    (hc : D.cols.get? k = some c) (hn : normKey k ≠ []) :
    (standardKey k = .ok k ∧ standardiseKey D k = (D, none)) ∨
    (∃ r T, Good k r ∧ r ∉ D.keys ∧
      standardiseKey D k = ({ D with cols := D.cols.del k ++ [(r, c)], types := T }, none) ∧
      WF ({ D with cols := D.cols.del k ++ [(r, c)], types := T } : Data _ V τ)) := by
  rcases standardKey_cases k with ⟨h0, _⟩ | ⟨_, s, hs⟩
  · exact absurd h0 hn
  · by_cases hks : k = s
    · left
      subst hks
      simp [standardiseKey, hs]
    · right
      obtain ⟨r, hr⟩ := freshLoop_terminates s D.keys
      obtain ⟨hr1, j, hj⟩ := freshLoop_some (s := s) (i := 0) (by simpa [cand] using hr)
      obtain ⟨T, h1, h2⟩ := rename_eq h hc hr1
      refine ⟨r, T, ⟨s, hs, ?_⟩, hr1, ?_, h2⟩
      · unfold cand at hj
        split at hj
        · exact Or.inl hj
        · exact Or.inr ⟨j, by omega, hj⟩
      · simp [standardiseKey, hs, hks, hr, h1]

theorem standardiseLoop {ks : List (List Char)} (hks : ks.Nodup) {D : Data (List Char) V τ} (h : WF D)
    (hsub : ∀ k ∈ ks, k ∈ D.keys) (hn : ∀ k ∈ ks, normKey k ≠ []) :
    ∃ D' : Data (List Char) V τ, Res.forEach standardiseKey ks D = (D', none) ∧ WF D' ∧ D'.maxLen = D.maxLen ∧
      ∃ ρ : List Char → List Char, (∀ k ∉ ks, ρ k = k) ∧ (∀ k ∈ ks, Good k (ρ k)) ∧
        D'.cols.Perm (D.cols.map fun p => (ρ p.1, p.2)) := by
  induction ks generalizing D with
  | nil => exact ⟨D, rfl, h, rfl, id, by simp, by simp, by simp⟩
  | cons k ks ih =>
    rw [List.nodup_cons] at hks
    have hk := hsub k (by simp)
    obtain ⟨c, hc⟩ := (Dict.mem_keys_iff _ _).1 hk
    rcases standardiseKey_ok h hc (hn k (by simp)) with ⟨hs, he⟩ | ⟨r, T, hg, hr, he, hw⟩
    · obtain ⟨D', h1, h2, h3, ρ, h4, h5, h6⟩ :=
        ih hks.2 h (fun x hx => hsub x (by simp [hx])) (fun x hx => hn x (by simp [hx]))
      refine ⟨D', by simp [Res.forEach, he, Res.andThen, h1], h2, h3, ρ, ?_, ?_, h6⟩
      · intro x hx
        exact h4 x (fun hm => hx (by simp [hm]))
      · intro x hx
        simp only [List.mem_cons] at hx
        rcases hx with rfl | hx
        · rw [h4 _ hks.1]; exact ⟨_, hs, Or.inl rfl⟩
        · exact h5 x hx
    · have hsub' : ∀ x ∈ ks, x ∈ Data.keys ({ D with cols := D.cols.del k ++ [(r, c)], types := T } : Data _ V τ) := by
        intro x hx
        have hxk : x ≠ k := fun e => hks.1 (e ▸ hx)
        have := hsub x (by simp [hx])
        simp only [Data.keys, Dict.keys, List.map_append, List.mem_append]
        left
        exact (mem_keys_del h.nodup).2 ⟨hxk, this⟩
      obtain ⟨D', h1, h2, h3, ρ, h4, h5, h6⟩ := ih hks.2 hw hsub' (fun x hx => hn x (by simp [hx]))
      have hrk : r ∉ ks := fun hm => hr (hsub r (by simp [hm]))
      refine ⟨D', by simp [Res.forEach, he, Res.andThen, h1], h2, h3,
        fun x => if x = k then r else ρ x, ?_, ?_, ?_⟩
      · intro x hx
        simp only [List.mem_cons, not_or] at hx
        simp only [if_neg hx.1]
        exact h4 x hx.2
      · intro x hx
        simp only [List.mem_cons] at hx
        by_cases hxk : x = k
        · simp only [hxk, if_true]; exact hg
        · simp only [if_neg hxk]; exact h5 x (hx.resolve_left hxk)
      · refine h6.trans ?_
        refine List.Perm.trans ?_ ((perm_del D.cols hc).map _).symm
        simp only [List.map_append, List.map_cons, List.map_nil, if_true, h4 r hrk]
        refine (List.perm_append_singleton _ _).trans ?_
        refine List.Perm.cons _ ?_
        refine List.Perm.of_eq (List.map_congr_left ?_)
        intro p hp
        have hpk : p.1 ≠ k := by
          intro e
          have hmem : p.1 ∈ Dict.keys (D.cols.del k) := List.mem_map_of_mem hp
          exact ((mem_keys_del h.nodup).1 hmem).1 e
        simp [hpk]

theorem standardiseFixed {ks : List (List Char)} {D : Data (List Char) V τ}
    (hf : ∀ k ∈ ks, standardKey k = .ok k) : Res.forEach standardiseKey ks D = (D, none) := by
  induction ks with
  | nil => rfl
  | cons k ks ih =>
    have e : standardiseKey D k = (D, none) := by simp [standardiseKey, hf k (by simp)]
    simp only [Res.forEach, e, Res.andThen]
    exact ih (fun x hx => hf x (by simp [hx]))

/-- A column whose name consists of separators only makes the loop fail. -/
theorem standardise_ok_iff {D : Data (List Char) V τ} (h : WF D) :
    (standardiseKeys D).2 = none ↔ ∀ k ∈ D.keys, normKey k ≠ [] := by
  constructor
  · suffices H : ∀ (ks : List (List Char)) (D' : Data (List Char) V τ),
        (Res.forEach standardiseKey ks D').2 = none → ∀ k ∈ ks, normKey k ≠ [] from H _ D
    intro ks
    induction ks with
    | nil => simp
    | cons x xs ih =>
      intro D' hr k hk
      simp only [Res.forEach] at hr
      cases he : standardiseKey D' x with
      | mk D1 o =>
        rw [he] at hr
        cases o with
        | some e => simp [Res.andThen] at hr
        | none =>
          simp only [Res.andThen] at hr
          simp only [List.mem_cons] at hk
          rcases hk with rfl | hk
          · rcases standardKey_cases k with ⟨_, h1⟩ | ⟨h1, _⟩
            · simp [standardiseKey, h1] at he
            · exact h1
          · exact ih D1 hr k hk
  · intro hn
    obtain ⟨D', h1, _⟩ := standardiseLoop h.nodup h (fun _ hk => hk) hn
    simp only [standardiseKeys, keys] at h1 ⊢
    rw [h1]

end Data
end Verif

namespace Verif.Data

variable {κ V τ : Type} [DecidableEq κ] [DecidableEq τ] [HasType V τ]

/-! ### Well-formedness of reachable objects -/

theorem forEach_ok_inv {σ ι : Type} {body : σ → ι → Res σ} {P : σ → Prop}
    (hb : ∀ s x s', P s → body s x = (s', none) → P s') {l : List ι} {s s' : σ} (hs : P s)
    (h : Res.forEach body l s = (s', none)) : P s' := by
  induction l generalizing s with
  | nil => simp only [Res.forEach, Prod.mk.injEq, and_true] at h; exact h ▸ hs
  | cons x xs ih =>
    obtain ⟨s1, h1, h2⟩ := Res.forEach_none_cons h
    exact ih (hb _ _ _ hs h1) h2

theorem wf_fill {D D' : Data κ V τ} (h : WF D) {len : Int} {ks : List κ} (hf : fill D len ks = (D', none)) :
    WF D' := by
  refine forEach_ok_inv (P := WF) ?_ h hf
  intro s x s' hs hb
  simp only [fillKey] at hb
  split at hb
  · simp at hb
  · simp only [Prod.mk.injEq, and_true] at hb
    subst hb
    exact wf_set hs _ _ _ _

theorem wf_unsafeUpdate {D D' : Data κ V τ} (h : WF D) {d : Dict κ (Arg V)}
    (hu : unsafeUpdate D d = (D', none)) : WF D' := by
  obtain ⟨D1, h1, h2⟩ := Res.andThen_none hu
  refine wf_fill (forEach_ok_inv (P := WF) ?_ h h1) h2
  intro s x s' hs hb
  rw [putArg_eq] at hb
  have := wf_extend hs x.1 x.2.toList
  rwa [hb] at this

theorem wf_update {D D' : Data κ V τ} (h : WF D) {d : Dict κ (Arg V)} {c : Bool}
    (hu : update D d c = (D', none)) : WF D' := by
  obtain ⟨D1, h1, h2⟩ := Res.andThen_none hu
  have hw := wf_fill h h1
  split at h2
  · exact wf_unsafeUpdate hw h2
  · split at h2
    · simp at h2
    · obtain ⟨D2, h3, h4⟩ := Res.andThen_none h2
      refine wf_unsafeUpdate (forEach_ok_inv (P := WF) ?_ hw h3) h4
      intro s x s' hs hb
      simp only [dropLastKey] at hb
      split at hb
      · simp at hb
      · rename_i c hc
        simp only [Prod.mk.injEq, and_true] at hb
        subst hb
        exact wf_setC hs ((Dict.mem_keys_iff _ _).2 ⟨_, hc⟩) _ _
    · exact wf_unsafeUpdate hw h2

theorem wf_deleteCol {D D' : Data κ V τ} (h : WF D) {k : κ} (hd : deleteCol D k = (D', none)) : WF D' := by
  by_cases hk : k ∈ D.keys
  · rw [deleteCol_eq h hk] at hd
    simp only [Prod.mk.injEq, and_true] at hd
    subst hd
    refine ⟨Dict.nodup_keys_del _ _ h.nodup, Dict.nodup_keys_del _ _ h.nodupT, ?_⟩
    intro x hx
    simp only [mem_keys_del h.nodup, mem_keys_del h.nodupT] at hx ⊢
    exact ⟨hx.1, h.typed x hx.2⟩
  · have : D.cols.get? k = none := (Dict.get?_eq_none_iff _ _).2 hk
    simp [deleteCol, this] at hd

theorem wf_rename {D D' : Data κ V τ} (h : WF D) {k k' : κ} (hd : rename D k k' = (D', none)) : WF D' := by
  by_cases hkk : k = k'
  · simp only [rename, hkk, if_true, Prod.mk.injEq, and_true] at hd
    exact hd ▸ h
  · by_cases hk' : k' ∈ D.keys
    · simp [rename, hkk, hk'] at hd
    · cases hc : D.cols.get? k with
      | none => simp [rename, hkk, hk', hc] at hd
      | some c =>
        obtain ⟨T, h1, h2⟩ := rename_eq h hc hk'
        rw [h1] at hd
        simp only [Prod.mk.injEq, and_true] at hd
        exact hd ▸ h2

theorem wf_maskRows {D : Data κ V τ} (h : WF D) (m : List Bool) : WF (maskRows D m) :=
  ⟨by simpa [maskRows] using h.nodup, h.nodupT, by simpa [maskRows] using h.typed⟩

theorem wf_deleteRows {D : Data κ V τ} (h : WF D) (idx : List Int) : WF (deleteRows D idx) := by
  unfold deleteRows
  split
  · exact h
  · exact ⟨by simpa using h.nodup, h.nodupT, by simpa using h.typed⟩

theorem wf_getSlice {D : Data κ V τ} (h : WF D) (ks : List κ) : WF (getSlice D ks) := by
  refine ⟨by simp only [getSlice]; exact (Dict.keys_filterItems_sublist _ _).nodup h.nodup,
    by simp only [getSlice]; exact (Dict.keys_filterItems_sublist _ _).nodup h.nodupT, ?_⟩
  intro k hk
  obtain ⟨c, hc⟩ := (Dict.mem_keys_iff _ _).1 hk
  simp only [getSlice] at hc ⊢
  rw [Dict.get?_filterItems _ _ h.nodup] at hc
  have hmem : k ∈ ks ∧ k ∈ Dict.keys D.cols := by
    cases hg : D.cols.get? k with
    | none => simp [hg] at hc
    | some c' =>
      refine ⟨?_, (Dict.mem_keys_iff _ _).2 ⟨_, hg⟩⟩
      simp [hg] at hc
      by_contra hn
      simp [hn] at hc
  obtain ⟨t, ht⟩ := (Dict.mem_keys_iff _ _).1 (h.typed k hmem.2)
  refine (Dict.mem_keys_iff _ _).2 ⟨t, ?_⟩
  rw [Dict.get?_filterItems _ _ h.nodupT, ht]
  simp [hmem.1]

end Verif.Data
