import Verif.Lemmas.DataTypes
import Verif.Props.Data

/-!
# Property C09: columns are homogeneous
-/

set_option linter.unusedSectionVars false
set_option linter.unusedSimpArgs false

namespace Verif.Data

variable {κ V τ : Type} [DecidableEq κ] [DecidableEq τ] [HasType V τ]

theorem ReachableAny.typed {D : Data κ V τ} (h : ReachableAny D) : Typed D := by
  induction h with
  | empty => exact typed_empty
  | update d c _ ih => exact typed_update ih d c
  | extend k l _ ih => exact typed_extend ih k l

theorem ReachableAny.le {D : Data κ V τ} (h : ReachableAny D) : Le D := by
  induction h with
  | empty => exact rect_empty.toLe
  | update d c _ ih => exact le_update ih d c
  | extend k l _ ih => exact le_extend ih k l

/-- **C09.** In every object obtained by (successful or failed) `update`, `extend` and `append` calls, the
recorded type of a column is the type of each of its measured values; in particular any two measured
values of a column have the same type. -/
theorem C09_homogeneous {D : Data κ V τ} (h : ReachableAny D) {k : κ} {v : V}
    (hv : some v ∈ colOf D k) :
    D.types.get? k = some (some (typeOf v)) ∧ ∀ w, some w ∈ colOf D k → typeOf w = typeOf v := by
  refine ⟨?_, fun w hw => h.typed.homog hw hv⟩
  cases hk : D.cols.get? k with
  | none => simp [colOf, hk] at hv
  | some c =>
    obtain ⟨t, h1, h2⟩ := h.typed k c hk
    rw [colOf_of_get? hk] at hv
    rw [h1, h2 v hv]

/-- **C09.** Extending a column by a value of another type raises `ValueError` and leaves all columns and
the number of rows as they were. -/
theorem C09_extend_wrong_type {D : Data κ V τ} (h : ReachableAny D) {k : κ} {l : List (Option V)}
    {v w : V} (hv : some v ∈ colOf D k) (hw : some w ∈ l) (hne : typeOf v ≠ typeOf w) :
    (extend D k l).2 = some .valueError ∧ (extend D k l).1.cols = D.cols ∧
      (extend D k l).1.nRows = D.nRows := by
  have h1 := extend_wrong_type h.typed hv hw hne
  have h2 := extend_err (D := D) (D' := (extend D k l).1) (k := k) (l := l) (Prod.ext rfl h1)
  exact ⟨h1, h2⟩

theorem dropLastKeys_ok {D : Data κ V τ} (ks : List κ) (h : ∀ k ∈ ks, k ∈ D.keys) :
    (Res.forEach dropLastKey ks D).2 = none ∧ (Res.forEach dropLastKey ks D).1.types = D.types := by
  induction ks generalizing D with
  | nil => exact ⟨rfl, rfl⟩
  | cons x xs ih =>
    obtain ⟨c, hc⟩ := (Dict.mem_keys_iff _ _).1 (h x (by simp))
    simp only [Res.forEach, dropLastKey, hc, Res.andThen]
    have := ih (D := { D with cols := D.cols.set x c.dropLast }) (fun k hk => by
      simp only [keys]
      rw [Dict.mem_keys_set]
      exact Or.inr (h k (by simp [hk])))
    exact this

theorem allLastNone_ok {D : Data κ V τ} (ks : List κ)
    (h : ∀ k ∈ ks, ∃ c, D.cols.get? k = some c ∧ c ≠ []) : ∃ b, allLastNone D ks = .ok b := by
  induction ks with
  | nil => exact ⟨true, rfl⟩
  | cons x xs ih =>
    obtain ⟨c, hc, hne⟩ := h x (by simp)
    simp only [allLastNone, hc, pyIndex_neg_one]
    rw [List.getLast?_eq_getLast_of_ne_nil hne]
    cases c.getLast hne with
    | none => simpa using ih (fun k hk => h k (by simp [hk]))
    | some v => exact ⟨false, rfl⟩

theorem unsafeUpdate_succeeds {d : Dict κ (Arg V)} (hd : (Dict.keys d).Nodup) {D : Data κ V τ}
    (h : Typed D)
    (hok : ∀ k ∈ Dict.keys d, (∀ v w, some v ∈ argOf d k → some w ∈ argOf d k → typeOf v = typeOf w) ∧
      ∀ t, D.types.get? k = some (some t) → k ∈ D.keys → ∀ v, some v ∈ argOf d k → typeOf v = t) :
    (unsafeUpdate D d).2 = none := by
  have h1 := putAll_succeeds hd h hok
  have h2 : Typed (Res.forEach putArg d D).1 := Res.forEach_inv (P := Typed)
    (fun s x hs => by rw [putArg_eq]; exact typed_extend hs _ _) d D h
  rcases hb : Res.forEach putArg d D with ⟨D1, e⟩
  rw [hb] at h1 h2
  simp only at h1 h2; subst h1
  simp only [unsafeUpdate, hb, Res.andThen]
  exact fill_ok_of_typed h2 _ _

theorem update_succeeds {D : Data κ V τ} (hty : Typed D) (hle : Le D) {d : Dict κ (Arg V)}
    (hd : (Dict.keys d).Nodup) (compress : Bool)
    (hfit : ∀ k ∈ Dict.keys d, ∀ v w, some v ∈ colOf D k ++ argOf d k → some w ∈ colOf D k ++ argOf d k →
      typeOf v = typeOf w) : (update D d compress).2 = none := by
  have hf := fill_ok_of_typed hty D.maxLen (Dict.keys d ++ D.keys)
  have hty1 := typed_fill hty D.maxLen (Dict.keys d ++ D.keys)
  rcases hb : fill D D.maxLen (Dict.keys d ++ D.keys) with ⟨D1, e⟩
  rw [hb] at hf hty1
  simp only at hf hty1; subst hf
  have hm1 : D1.maxLen = D.maxLen := by
    have := fill_maxLen D.maxLen (Dict.keys d ++ D.keys) D; rw [hb] at this; exact this
  have hget : ∀ k ∈ Dict.keys d, D1.cols.get? k = some (pad D.maxLen (colOf D k)) := by
    intro k hk; rw [fill_get? hb, if_pos (by simp [hk])]
  have hmem1 : ∀ k ∈ Dict.keys d, k ∈ D1.keys := fun k hk =>
    (Dict.mem_keys_iff _ _).2 ⟨_, hget k hk⟩
  have hok : ∀ k ∈ Dict.keys d, (∀ v w, some v ∈ argOf d k → some w ∈ argOf d k → typeOf v = typeOf w) ∧
      ∀ t, D1.types.get? k = some (some t) → ∀ v, some v ∈ argOf d k → typeOf v = t := by
    intro k hk
    refine ⟨fun v w hv hw => hfit k hk v w (by simp [hv]) (by simp [hw]), ?_⟩
    intro t ht v hv
    obtain ⟨w, hw, hwt⟩ := fill_types hb k (by simp [hk]) t ht
    rw [colOf_of_get? (hget k hk), mem_pad] at hw
    rw [← hwt]
    exact hfit k hk v w (by simp [hv]) (by simp [hw])
  simp only [update, hb, Res.andThen]
  split
  · exact unsafeUpdate_succeeds hd hty1 (fun k hk => ⟨(hok k hk).1, fun t ht _ => (hok k hk).2 t ht⟩)
  · rename_i hcond
    have hpos : D.maxLen ≠ 0 := by
      intro h0; exact hcond (Or.inr (by rw [hm1]; exact h0))
    obtain ⟨b, hball⟩ := allLastNone_ok (D := D1) (Dict.keys d) (fun k hk => ⟨_, hget k hk, by
      intro hnil
      have := length_pad D.maxLen (colOf D k)
      rw [hnil] at this
      simp only [List.length_nil, Nat.cast_zero] at this
      have := hle.nonneg
      omega⟩)
    rw [hball]
    cases b with
    | false => exact unsafeUpdate_succeeds hd hty1 (fun k hk => ⟨(hok k hk).1, fun t ht _ => (hok k hk).2 t ht⟩)
    | true =>
      obtain ⟨h3, h4⟩ := dropLastKeys_ok (D := D1) (Dict.keys d) hmem1
      have hty2 : Typed (Res.forEach dropLastKey (Dict.keys d) D1).1 :=
        Res.forEach_inv (P := Typed) (fun s x hs => typed_dropLastKey hs x) _ _ hty1
      rcases hb2 : Res.forEach dropLastKey (Dict.keys d) D1 with ⟨D2, e⟩
      rw [hb2] at h3 h4 hty2
      simp only at h3 h4 hty2; subst h3
      simp only [Res.andThen]
      refine unsafeUpdate_succeeds hd hty2 (fun k hk => ⟨(hok k hk).1, fun t ht _ => (hok k hk).2 t ?_⟩)
      rw [← h4]; exact ht

/-- **C09.** `update` succeeds whenever the types fit, i.e. for each column the old and new measured values
together have one type. -/
theorem C09_update_succeeds {D : Data κ V τ} (h : ReachableAny D) {d : Dict κ (Arg V)}
    (hd : (Dict.keys d).Nodup) (compress : Bool)
    (hfit : ∀ k ∈ Dict.keys d, ∀ v w, some v ∈ colOf D k ++ argOf d k → some w ∈ colOf D k ++ argOf d k →
      typeOf v = typeOf w) : (update D d compress).2 = none :=
  update_succeeds h.typed h.le hd compress hfit

example : ReachableAny (extend exData "TWS" [some (.str ['a'])]).1 := by
  have h1 : ReachableAny (update (empty : Data String Val Ty)
      [("TWS", .list [some (.int 1), some (.int 2)])] false).1 := ReachableAny.update _ _ .empty
  have h2 : ReachableAny exData := ReachableAny.update _ _ h1
  exact ReachableAny.extend _ _ h2

example : (extend exData "TWS" [some (.str ['a'])]).2 = some .valueError := by decide

/-- The failing `update` of a mistyped value can leave other columns already changed: an object after a
caught exception need not be rectangular (this is why C01 speaks of successful calls). -/
example : ¬ Rect (update exData [("TWS", .scalar (some (.int 1))), ("BSP", .scalar (some (.int 1)))] false).1 := by
  intro h
  have := h.eq "BSP" [none, some (.float 3)] (by decide)
  revert this
  decide

end Verif.Data
