import Verif.Lemmas.DataRows

set_option linter.unusedSectionVars false
set_option linter.unusedSimpArgs false

namespace Verif.Data

variable {κ V τ : Type} [DecidableEq κ] [DecidableEq τ] [HasType V τ]

theorem getTypeAux_ok {cur t : Option τ} {l : List (Option V)} (h : getTypeAux cur l = .ok t) :
    (∀ v, some v ∈ l → t = some (typeOf v)) ∧ (∀ c, cur = some c → t = some c) ∧
      (cur = none → (∀ v, some v ∉ l) → t = none) := by
  induction l generalizing cur with
  | nil => simp only [getTypeAux, Except.ok.injEq] at h; subst h; simp
  | cons x l ih =>
    cases x with
    | none =>
      have hh : getTypeAux cur l = .ok t := by
        cases cur <;> simpa [getTypeAux] using h
      have := ih hh
      simpa using this
    | some v =>
      cases cur with
      | none =>
        simp only [getTypeAux] at h
        have := ih h
        refine ⟨?_, by simp, fun _ hv => absurd (by simp) (hv v)⟩
        intro w hw
        rcases List.mem_cons.1 hw with hw | hw
        · simp only [Option.some.injEq] at hw; subst hw; exact this.2.1 _ rfl
        · exact this.1 w hw
      | some c =>
        simp only [getTypeAux] at h
        split at h
        · simp at h
        · rename_i hc
          simp only [ne_eq, not_not] at hc
          have := ih h
          refine ⟨?_, this.2.1, by simp⟩
          intro w hw
          rcases List.mem_cons.1 hw with hw | hw
          · simp only [Option.some.injEq] at hw; subst hw; rw [this.2.1 _ rfl, hc]
          · exact this.1 w hw

theorem getTypeAux_succeeds {cur : Option τ} {l : List (Option V)}
    (h : ∀ v, some v ∈ l → ∀ c, cur = some c → typeOf v = c)
    (h2 : ∀ v w, some v ∈ l → some w ∈ l → typeOf v = typeOf w) : ∃ t, getTypeAux cur l = .ok t := by
  induction l generalizing cur with
  | nil => exact ⟨cur, by simp [getTypeAux]⟩
  | cons x l ih =>
    have ih' := fun cur h => ih (cur := cur) h
      (fun v w hv hw => h2 v w (List.mem_cons_of_mem _ hv) (List.mem_cons_of_mem _ hw))
    cases x with
    | none =>
      obtain ⟨t, ht⟩ := ih' cur (fun v hv => h v (by simp [hv]))
      exact ⟨t, by cases cur <;> simpa [getTypeAux] using ht⟩
    | some v =>
      cases cur with
      | none =>
        simp only [getTypeAux]
        apply ih'
        intro w hw c hc
        simp only [Option.some.injEq] at hc
        rw [← hc]; exact h2 w v (by simp [hw]) (by simp)
      | some c =>
        have hv := h v (by simp) c rfl
        simp only [getTypeAux, hv, ne_eq, not_true_eq_false, if_false]
        exact ih' _ (fun w hw => h w (by simp [hw]))

theorem getTypeAux_error {cur : Option τ} {l : List (Option V)} {e : PyErr}
    (h : getTypeAux cur l = .error e) : e = .valueError := by
  induction l generalizing cur with
  | nil => simp [getTypeAux] at h
  | cons x l ih =>
    cases x with
    | none => cases cur <;> exact ih (by simpa [getTypeAux] using h)
    | some v =>
      cases cur with
      | none => exact ih (by simpa [getTypeAux] using h)
      | some c =>
        simp only [getTypeAux] at h
        split at h
        · simp only [Except.error.injEq] at h; exact h.symm
        · exact ih h

/-- All columns have a recorded type which fits all their entries. -/
def Typed (D : Data κ V τ) : Prop :=
  ∀ k c, D.cols.get? k = some c →
    ∃ t, D.types.get? k = some t ∧ ∀ v, some v ∈ c → t = some (typeOf v)

theorem typed_empty : Typed (empty : Data κ V τ) := by intro k c h; simp [empty] at h

theorem Typed.homog {D : Data κ V τ} (h : Typed D) {k : κ} {v w : V} (hv : some v ∈ colOf D k)
    (hw : some w ∈ colOf D k) : typeOf v = typeOf w := by
  unfold colOf at hv hw
  cases hk : D.cols.get? k with
  | none => simp [hk] at hv
  | some c =>
    obtain ⟨t, -, ht⟩ := h k c hk
    simp only [hk, Option.getD_some] at hv hw
    have h1 := ht v hv
    rw [ht w hw] at h1
    simpa using h1.symm

theorem mem_pad {len : Int} {c : List (Option V)} {v : V} : some v ∈ pad len c ↔ some v ∈ c := by
  simp [pad]

theorem fillKey_ok_of_typed {D : Data κ V τ} (h : Typed D) (len : Int) (k : κ) :
    (fillKey len D k).2 = none := by
  obtain ⟨t, ht⟩ := getTypeAux_succeeds (cur := none) (l := pad len (colOf D k)) (by simp)
    (fun v w hv hw => h.homog (mem_pad.1 hv) (mem_pad.1 hw))
  have : getType (pad len (colOf D k)) = .ok t := ht
  simp only [pad, colOf] at this
  simp only [fillKey, this]

theorem typed_fillKey {D : Data κ V τ} (h : Typed D) (len : Int) (k : κ) :
    Typed (fillKey len D k).1 := by
  obtain ⟨t, ht⟩ := getTypeAux_succeeds (cur := none) (l := pad len (colOf D k)) (by simp)
    (fun v w hv hw => h.homog (mem_pad.1 hv) (mem_pad.1 hw))
  have hgt : getType (pad len (colOf D k)) = .ok t := ht
  simp only [pad, colOf] at hgt
  intro k' c hc
  simp only [fillKey, hgt, Dict.get?_set] at hc ⊢
  split at hc
  · rename_i hk
    subst hk
    simp only [Option.some.injEq] at hc
    subst hc
    exact ⟨t, by simp, (getTypeAux_ok hgt).1⟩
  · rename_i hk
    obtain ⟨t', h1, h2⟩ := h k' c hc
    exact ⟨t', by simp [hk, h1], h2⟩

theorem typed_extend {D : Data κ V τ} (h : Typed D) (k : κ) (l : List (Option V)) :
    Typed (extend D k l).1 := by
  unfold extend
  split
  · exact h
  · rename_i dt hdt
    have hok := getTypeAux_ok hdt
    split
    · rename_i old hold
      obtain ⟨t, ht, hv⟩ := h k old hold
      simp only [ht]
      by_cases h0 : t = none
      · subst h0
        simp only [if_true, ne_eq, not_true_eq_false, and_false, if_false]
        intro k' c hc
        simp only [Dict.get?_set] at hc ⊢
        split at hc
        · rename_i hk; subst hk
          simp only [Option.some.injEq] at hc; subst hc
          refine ⟨dt, by simp, ?_⟩
          intro v hvm
          rcases List.mem_append.1 hvm with hvm | hvm
          · have := hv v hvm; simp at this
          · exact hok.1 v hvm
        · rename_i hk
          obtain ⟨t', h1, h2⟩ := h k' c hc
          exact ⟨t', by simp [hk, h1], h2⟩
      · simp only [h0, if_false]
        split
        · exact h
        · rename_i hcond
          intro k' c hc
          simp only [Dict.get?_set] at hc ⊢
          split at hc
          · rename_i hk; subst hk
            simp only [Option.some.injEq] at hc; subst hc
            refine ⟨t, ht, ?_⟩
            intro v hvm
            rcases List.mem_append.1 hvm with hvm | hvm
            · exact hv v hvm
            · have h3 := hok.1 v hvm
              have : dt = t := by
                by_contra hne
                exact hcond ⟨by simp [h3], hne⟩
              rw [← this, h3]
          · exact h k' c hc
    · rename_i hold
      intro k' c hc
      simp only [Dict.get?_set] at hc ⊢
      split at hc
      · rename_i hk; subst hk
        simp only [Option.some.injEq] at hc; subst hc
        exact ⟨dt, by simp, hok.1⟩
      · rename_i hk
        obtain ⟨t', h1, h2⟩ := h k' c hc
        exact ⟨t', by simp [hk, h1], h2⟩

theorem typed_dropLastKey {D : Data κ V τ} (h : Typed D) (k : κ) : Typed (dropLastKey D k).1 := by
  unfold dropLastKey
  split
  · exact h
  · rename_i c hc
    intro k' c' hk
    simp only [Dict.get?_set] at hk
    split at hk
    · rename_i he; subst he
      simp only [Option.some.injEq] at hk; subst hk
      obtain ⟨t, h1, h2⟩ := h k c hc
      exact ⟨t, h1, fun v hv => h2 v ((List.dropLast_sublist c).subset hv)⟩
    · exact h _ _ hk

theorem typed_fill {D : Data κ V τ} (h : Typed D) (len : Int) (ks : List κ) : Typed (fill D len ks).1 :=
  Res.forEach_inv (P := Typed) (fun s x hs => typed_fillKey hs _ _) ks D h

theorem fill_ok_of_typed {D : Data κ V τ} (h : Typed D) (len : Int) (ks : List κ) :
    (fill D len ks).2 = none := by
  unfold fill
  induction ks generalizing D with
  | nil => rfl
  | cons x xs ih =>
    have h1 := fillKey_ok_of_typed h len x
    have h2 := typed_fillKey h len x
    rcases hb : fillKey len D x with ⟨D1, e⟩
    rw [hb] at h1 h2
    simp only at h1; subst h1
    simp only [Res.forEach, hb, Res.andThen]
    exact ih h2

theorem typed_unsafeUpdate {D : Data κ V τ} (h : Typed D) (d : Dict κ (Arg V)) :
    Typed (unsafeUpdate D d).1 :=
  Res.andThen_inv (P := Typed) (Res.forEach_inv (P := Typed)
    (fun s x hs => by rw [putArg_eq]; exact typed_extend hs _ _) d D h) fun _ hs => typed_fill hs _ _

theorem typed_update {D : Data κ V τ} (h : Typed D) (d : Dict κ (Arg V)) (compress : Bool) :
    Typed (update D d compress).1 := by
  unfold update
  refine Res.andThen_inv (P := Typed) (typed_fill h _ _) fun s hs => ?_
  split
  · exact typed_unsafeUpdate hs d
  · split
    · exact hs
    · exact Res.andThen_inv (P := Typed) (Res.forEach_inv (P := Typed) (fun s x hs => typed_dropLastKey hs x) _ _ hs)
        fun _ hs => typed_unsafeUpdate hs d
    · exact typed_unsafeUpdate hs d

/-! ### which calls succeed -/

/-- `extend` with values of a different type fails with a `ValueError`. -/
theorem extend_wrong_type {D : Data κ V τ} (h : Typed D) {k : κ} {l : List (Option V)} {v w : V}
    (hv : some v ∈ colOf D k) (hw : some w ∈ l) (hne : typeOf v ≠ typeOf w) :
    (extend D k l).2 = some .valueError := by
  unfold extend
  split
  · rename_i e he
    simp [getTypeAux_error he]
  · rename_i dt hdt
    have hok := (getTypeAux_ok hdt).1 w hw
    cases hk : D.cols.get? k with
    | none => simp [colOf, hk] at hv
    | some c =>
      rw [colOf_of_get? hk] at hv
      obtain ⟨t, h1, h2⟩ := h k c hk
      have h3 := h2 v hv
      subst h3
      simp [h1, hok, Ne.symm hne]

/-- `extend` with values of a fitting type succeeds. -/
theorem extend_succeeds {D : Data κ V τ} (h : Typed D) {k : κ} {l : List (Option V)}
    (hl : ∀ v w, some v ∈ l → some w ∈ l → typeOf v = typeOf w)
    (hc : ∀ t, D.types.get? k = some (some t) → k ∈ D.keys → ∀ v, some v ∈ l → typeOf v = t) :
    (extend D k l).2 = none := by
  obtain ⟨dt, hdt⟩ := getTypeAux_succeeds (cur := none) (l := l) (by simp) hl
  have hdt' : getType l = .ok dt := hdt
  have hok := getTypeAux_ok hdt
  unfold extend
  simp only [hdt']
  cases hk : D.cols.get? k with
  | none => simp
  | some c =>
    obtain ⟨t, h1, h2⟩ := h k c hk
    simp only [h1]
    cases t with
    | none => simp
    | some t =>
      have hmem : k ∈ D.keys := (Dict.mem_keys_iff _ _).2 ⟨c, hk⟩
      have := hc t h1 hmem
      have hcond : ¬ (dt ≠ none ∧ dt ≠ some t) := by
        rintro ⟨ha, hb⟩
        by_cases hex : ∃ v, some v ∈ l
        · obtain ⟨v, hv⟩ := hex
          exact hb (by rw [hok.1 v hv, this v hv])
        · exact ha (hok.2.2 rfl (fun v hv => hex ⟨v, hv⟩))
      simp [hcond]

/-- The recorded types are the actual types (`None` for a column without measured values). -/
def Exact (D : Data κ V τ) : Prop :=
  Typed D ∧ ∀ k t, D.types.get? k = some (some t) → k ∈ D.keys → ∃ v, some v ∈ colOf D k ∧ typeOf v = t

theorem fillKey_types {D : Data κ V τ} {len : Int} {k : κ} (h : (fillKey len D k).2 = none) :
    ∃ t, getType (pad len (colOf D k)) = .ok t ∧ (fillKey len D k).1.types = D.types.set k t := by
  simp only [fillKey] at h ⊢
  simp only [pad, colOf]
  split at h
  · simp at h
  · rename_i t ht
    exact ⟨t, ht, by simp [ht]⟩

theorem exact_type_of_ok {c : List (Option V)} {t : τ} (h : getType c = .ok (some t)) :
    ∃ v, some v ∈ c ∧ typeOf v = t := by
  have hok := getTypeAux_ok h
  by_cases hex : ∃ v, some v ∈ c
  · obtain ⟨v, hv⟩ := hex
    exact ⟨v, hv, by have := hok.1 v hv; simpa using this.symm⟩
  · have := hok.2.2 rfl (fun v hv => hex ⟨v, hv⟩)
    simp at this

/-- After `fill` the recorded types of the filled columns are exact. -/
theorem fill_types {D D' : Data κ V τ} {len : Int} {ks : List κ} (hf : fill D len ks = (D', none)) :
    ∀ k ∈ ks, ∀ t, D'.types.get? k = some (some t) → ∃ v, some v ∈ colOf D' k ∧ typeOf v = t := by
  have key : ∀ (ks : List κ) (D D' : Data κ V τ), fill D len ks = (D', none) →
      ∀ k, (k ∈ ks ∨ ∀ t, D.types.get? k = some (some t) → ∃ v, some v ∈ colOf D k ∧ typeOf v = t) →
        ∀ t, D'.types.get? k = some (some t) → ∃ v, some v ∈ colOf D' k ∧ typeOf v = t := by
    intro ks
    induction ks with
    | nil =>
      intro D D' h k hk t ht
      simp only [fill, Res.forEach, Prod.mk.injEq] at h
      obtain ⟨rfl, -⟩ := h
      rcases hk with hk | hk
      · simp at hk
      · exact hk t ht
    | cons x xs ih =>
      intro D D' h k hk
      obtain ⟨D1, h1, h2⟩ := Res.forEach_none_cons h
      refine ih D1 D' h2 k ?_
      obtain ⟨t0, ht0, hty⟩ := fillKey_types (D := D) (len := len) (k := x) (by rw [h1])
      rw [h1] at hty
      have hcols := fillKey_cols len D x
      rw [h1] at hcols
      simp only at hcols hty
      by_cases hx : x = k
      · subst hx
        right
        intro t ht
        rw [hty, Dict.get?_set_self, Option.some.injEq] at ht
        subst ht
        obtain ⟨v, hv, htv⟩ := exact_type_of_ok ht0
        refine ⟨v, ?_, htv⟩
        simp only [colOf, hcols, Dict.get?_set_self, Option.getD_some]
        exact hv
      · rcases hk with hk | hk
        · left
          rcases List.mem_cons.1 hk with hk | hk
          · exact absurd hk.symm hx
          · exact hk
        · right
          intro t ht
          rw [hty, Dict.get?_set_ne _ _ hx] at ht
          obtain ⟨v, hv, htv⟩ := hk t ht
          refine ⟨v, ?_, htv⟩
          have : colOf D1 k = colOf D k := by simp [colOf, hcols, Dict.get?_set_ne _ _ hx]
          rw [this]; exact hv
  intro k hk
  exact key ks D D' hf k (Or.inl hk)

theorem putAll_succeeds {d : Dict κ (Arg V)} (hd : (Dict.keys d).Nodup) {D : Data κ V τ} (h : Typed D)
    (hok : ∀ k ∈ Dict.keys d, (∀ v w, some v ∈ argOf d k → some w ∈ argOf d k → typeOf v = typeOf w) ∧
      ∀ t, D.types.get? k = some (some t) → k ∈ D.keys → ∀ v, some v ∈ argOf d k → typeOf v = t) :
    (Res.forEach putArg d D).2 = none := by
  induction d generalizing D with
  | nil => rfl
  | cons p d ih =>
    obtain ⟨x, a⟩ := p
    simp only [Dict.keys_cons, List.nodup_cons] at hd
    have hxarg : argOf ((x, a) :: d) x = a.toList := by simp [argOf, Dict.get?_cons]
    have hx := hok x (by simp)
    rw [hxarg] at hx
    have h1 := extend_succeeds (k := x) (l := a.toList) h hx.1 hx.2
    have h2 := typed_extend h x a.toList
    rcases hb : extend D x a.toList with ⟨D1, e⟩
    rw [hb] at h1 h2
    simp only at h1 h2; subst h1
    simp only [Res.forEach, putArg_eq, hb, Res.andThen]
    apply ih hd.2 h2
    intro k hk
    have hne : x ≠ k := fun e => hd.1 (e ▸ hk)
    have hkarg : argOf ((x, a) :: d) k = argOf d k := by simp [argOf, Dict.get?_cons, hne]
    have hk' := hok k (by simp [hk])
    rw [hkarg] at hk'
    refine ⟨hk'.1, ?_⟩
    intro t ht hmem v hv
    refine hk'.2 t ?_ ?_ v hv
    · have htypes : D1.types.get? k = D.types.get? k := by
        have : D1 = (extend D x a.toList).1 := by rw [hb]
        rw [this]
        unfold extend
        split
        · rfl
        · split
          · split
            · rfl
            · rename_i t0 _
              by_cases h0 : t0 = none
              · simp [h0, Dict.get?_set_ne _ _ hne]
              · simp only [h0, if_false]; split <;> rfl
          · simp [Dict.get?_set_ne _ _ hne]
      rw [← htypes]; exact ht
    · have hc := (extend_ok hb).1
      simp only [keys, Dict.mem_keys_iff] at hmem ⊢
      rw [hc, Dict.get?_set_ne _ _ hne] at hmem
      exact hmem

end Verif.Data
