import Verif.Model.WeightedPoints
import Verif.Props.Data

/-!
# Property C10: weights stay attached to their points
-/

set_option linter.unusedSectionVars false
set_option linter.unusedSimpArgs false

namespace Verif.WPoints

variable {κ V τ : Type} [DecidableEq κ] [DecidableEq τ] [HasType V τ]

/-- As many weights as points. -/
def Aligned (wp : WPoints κ V τ) : Prop :=
  match wp.points with
  | .array rows => rows.length = wp.weights.length
  | .dict d => ∀ p ∈ d, p.2.length = wp.weights.length
  | .data D => Data.Reachable D ∧ D.keys ≠ [] ∧ D.nRows = wp.weights.length

theorem select_zip {α β : Type} (m : List Bool) (l : List α) (w : List β) (h : l.length = w.length) :
    (Data.select m l).zip (Data.select m w) = Data.select m (l.zip w) := by
  induction l generalizing m w with
  | nil => simp [Data.select]
  | cons x l ih =>
    cases w with
    | nil => simp at h
    | cons y w =>
      cases m with
      | nil => simp [Data.select]
      | cons b m =>
        have := ih m w (by simpa using h)
        cases b
        · simpa [Data.select] using this
        · simpa [Data.select] using this

theorem npMask_ok {α : Type} {m : List Bool} {l : List α} (h : m.length = l.length) :
    npMask m l = .ok (Data.select m l) := by
  simp [npMask, h, Data.maskList_eq_select]

theorem length_select_eq {α β : Type} (m : List Bool) (l : List α) (w : List β) (h : l.length = w.length) :
    (Data.select m l).length = (Data.select m w).length := by
  rw [← Data.maskList_eq_select, ← Data.maskList_eq_select]
  exact Data.length_maskList_eq m l w h

theorem maskDict_ok {m : List Bool} {d : Dict κ (List V)} (h : ∀ p ∈ d, m.length = p.2.length) :
    maskDict m d = .ok (Dict.mapVals (Data.select m) d) := by
  induction d with
  | nil => rfl
  | cons p d ih =>
    obtain ⟨k, c⟩ := p
    have h1 := npMask_ok (h (k, c) (by simp))
    simp only at h1
    simp only [maskDict, h1, ih (fun p hp => h p (by simp [hp])), Dict.mapVals, List.map_cons]

/-- **C10.** Masking an array of weighted points selects the same (point, weight) pairs. -/
theorem C10_mask_array {rows : List (List V)} {w : List Rat} {m : List Bool}
    (ha : Aligned (κ := κ) (τ := τ) ⟨.array rows, w⟩) (hm : m.length = w.length) :
    ∃ rows' w', getItem (κ := κ) (τ := τ) ⟨.array rows, w⟩ m = .ok ⟨.array rows', w'⟩ ∧
      rows'.length = w'.length ∧ rows'.zip w' = Data.select m (rows.zip w) := by
  simp only [Aligned] at ha
  refine ⟨Data.select m rows, Data.select m w, ?_, length_select_eq m _ _ ha, select_zip m _ _ ha⟩
  simp [getItem, npMask_ok hm, npMask_ok (hm.trans ha.symm)]

/-- **C10.** Masking a dictionary of weighted points keeps the keys and selects, in each column, the same
(entry, weight) pairs. -/
theorem C10_mask_dict {d : Dict κ (List V)} {w : List Rat} {m : List Bool}
    (ha : Aligned (κ := κ) (τ := τ) ⟨.dict d, w⟩) (hm : m.length = w.length) :
    ∃ d' w', getItem (κ := κ) (τ := τ) ⟨.dict d, w⟩ m = .ok ⟨.dict d', w'⟩ ∧ Dict.keys d' = Dict.keys d ∧
      Aligned (κ := κ) (τ := τ) ⟨.dict d', w'⟩ ∧
      ∀ k c, d.get? k = some c → ∃ c', d'.get? k = some c' ∧ c'.zip w' = Data.select m (c.zip w) := by
  simp only [Aligned] at ha
  refine ⟨Dict.mapVals (Data.select m) d, Data.select m w, ?_, by simp, ?_, ?_⟩
  · simp [getItem, npMask_ok hm, maskDict_ok (fun p hp => hm.trans (ha p hp).symm)]
  · simp only [Aligned, Dict.mapVals, List.mem_map]
    rintro p ⟨q, hq, rfl⟩
    exact length_select_eq m _ _ (ha q hq)
  · intro k c hc
    refine ⟨Data.select m c, by simp [hc], select_zip m _ _ (ha _ (Dict.mem_of_get? hc))⟩

/-- **C10.** Masking weighted points given by a `Data` object selects the same (row, weight) pairs. -/
theorem C10_mask_data {D : Data κ V τ} {w : List Rat} {m : List Bool}
    (ha : Aligned (κ := κ) (τ := τ) ⟨.data D, w⟩) (hm : m.length = w.length)
    {rs : List (Dict κ (Option V))} (hrs : D.rows = some rs) :
    ∃ D' w' rs', getItem (κ := κ) (τ := τ) ⟨.data D, w⟩ m = .ok ⟨.data D', w'⟩ ∧ D'.rows = some rs' ∧
      rs'.length = w'.length ∧ rs'.zip w' = Data.select m (rs.zip w) := by
  simp only [Aligned] at ha
  have hl : rs.length = w.length := by
    obtain ⟨rs0, h1, h2⟩ := (Data.C01_rectangular ha.1).2
    rw [hrs] at h1
    simp only [Option.some.injEq] at h1
    subst h1
    have := ha.2.2
    omega
  refine ⟨Data.getItem D (.mask m), Data.select m w, Data.select m rs, ?_,
    Data.C05_mask ha.1 ha.2.1 m hrs, length_select_eq m _ _ hl, select_zip m _ _ hl⟩
  simp [getItem, npMask_ok hm]

/-- **C10.** A mask with a wrong length is rejected: no weights are attached to other points. -/
theorem C10_mask_wrong_length {wp : WPoints κ V τ} {m : List Bool} (h : m.length ≠ wp.weights.length)
    : getItem wp m = .error .indexError := by
  have hw : npMask m wp.weights = .error .indexError := by simp [npMask, h]
  have hd : ∀ d : Dict κ (List V), (∃ d', maskDict m d = .ok d') ∨ maskDict m d = .error .indexError := by
    intro d
    induction d with
    | nil => exact Or.inl ⟨_, rfl⟩
    | cons p d ih =>
      simp only [maskDict, npMask]
      split <;> rename_i heq
      · split at heq
        · simp at heq
        · simp only [Except.error.injEq] at heq; subst heq; exact Or.inr rfl
      · rcases ih with ⟨d', h'⟩ | h'
        · left; simp [h']
        · right; simp [h']
  simp only [getItem, hw]
  split
  · rename_i d _
    rcases hd d with ⟨d', h'⟩ | h' <;> simp [h']
  · rename_i rows _
    by_cases h' : m.length = rows.length <;> simp [npMask, h']
  · rfl

/-- **C10.** Extending arrays: the pairs of the first object followed by the pairs of the second. -/
theorem C10_extend_array {a b : List (List V)} {wa wb : List Rat}
    (ha : Aligned (κ := κ) (τ := τ) ⟨.array a, wa⟩) (hb : Aligned (κ := κ) (τ := τ) ⟨.array b, wb⟩)
    {r : WPoints κ V τ} (h : extend ⟨.array a, wa⟩ ⟨.array b, wb⟩ = .ok r) :
    ∃ rows w, r = ⟨.array rows, w⟩ ∧ rows.length = w.length ∧ rows.zip w = a.zip wa ++ b.zip wb := by
  simp only [Aligned] at ha hb
  simp only [extend] at h
  split at h
  · simp only [Except.ok.injEq] at h
    exact ⟨_, _, h.symm, by simp [ha, hb], List.zip_append ha⟩
  · simp at h

/-- **C10.** Arrays with points of dimensions `m` and `n` can be put together if and only if the dimensions agree; otherwise
`ValueError` is raised. -/
theorem C10_extend_dimensions {a b : List (List V)} {wa wb : List Rat} {m n : Nat} (ha : a ≠ []) (hb : b ≠ [])
    (hm : ∀ p ∈ a, p.length = m) (hn : ∀ p ∈ b, p.length = n) :
    extend (κ := κ) (τ := τ) ⟨.array a, wa⟩ ⟨.array b, wb⟩
      = if m = n then .ok ⟨.array (a ++ b), wa ++ wb⟩ else .error .valueError := by
  cases a with
  | nil => exact absurd rfl ha
  | cons p a =>
    cases b with
    | nil => exact absurd rfl hb
    | cons q b => simp [extend, sameWidth, hm p List.mem_cons_self, hn q List.mem_cons_self]

example : extend (κ := String) (τ := Ty) ⟨.array [[Val.float 1, .float 2]], [1]⟩ ⟨.array [[.float 3]], [1]⟩ = .error .valueError ∧
    (∀ p ∈ [[Val.float 1, .float 2]], p.length = 2) ∧ ∀ p ∈ [[Val.float 3]], p.length = 1 := by
  refine ⟨rfl, by simp, by simp⟩

theorem get?_joinDict (d e : Dict κ (List V)) (k : κ) :
    (joinDict d e).get? k = match d.get? k, e.get? k with
      | some c, some c' => some (c ++ c')
      | _, _ => none := by
  induction d with
  | nil => simp [joinDict]
  | cons p d ih =>
    obtain ⟨a, c⟩ := p
    simp only [joinDict, List.filterMap_cons] at ih ⊢
    cases he : e.get? a with
    | none =>
      simp only [Option.map_none]
      rw [ih, Dict.get?_cons]
      by_cases hk : a = k
      · subst hk; simp [he]
      · simp [hk]
    | some c' =>
      simp only [Option.map_some, Dict.get?_cons, ih]
      by_cases hk : a = k
      · subst hk; simp [he]
      · simp [hk]

/-- **C10.** Extending dictionaries: the result has the common keys, and each of its columns consists of the
(entry, weight) pairs of the first object followed by those of the second. -/
theorem C10_extend_dict {d e : Dict κ (List V)} {wa wb : List Rat}
    (hdn : (Dict.keys d).Nodup)
    (ha : Aligned (κ := κ) (τ := τ) ⟨.dict d, wa⟩) (hb : Aligned (κ := κ) (τ := τ) ⟨.dict e, wb⟩) :
    ∃ f w, extend (κ := κ) (τ := τ) ⟨.dict d, wa⟩ ⟨.dict e, wb⟩ = .ok ⟨.dict f, w⟩ ∧
      Aligned (κ := κ) (τ := τ) ⟨.dict f, w⟩ ∧
      (∀ k, k ∈ Dict.keys f ↔ k ∈ Dict.keys d ∧ k ∈ Dict.keys e) ∧
      ∀ k c c', d.get? k = some c → e.get? k = some c' →
        ∃ x, f.get? k = some x ∧ x.zip w = c.zip wa ++ c'.zip wb := by
  simp only [Aligned] at ha hb
  refine ⟨joinDict d e, wa ++ wb, rfl, ?_, ?_, ?_⟩
  · simp only [Aligned, joinDict, List.mem_filterMap, Option.map_eq_some_iff]
    rintro p ⟨q, hq, c, hc, rfl⟩
    simp [ha q hq, hb _ (Dict.mem_of_get? hc)]
  · intro k
    simp only [Dict.mem_keys_iff, get?_joinDict]
    cases d.get? k <;> cases e.get? k <;> simp
  · intro k c c' hc hc'
    refine ⟨c ++ c', by simp [get?_joinDict, hc, hc'], ?_⟩
    exact List.zip_append (ha _ (Dict.mem_of_get? hc))

/-- The entries of a `Data` object under a key, unknown in all rows if the key is missing. -/
def entries (D : Data κ V τ) (k : κ) : List (Option V) :=
  if k ∈ D.keys then Data.colOf D k else List.replicate D.nRows.toNat none

/-- **C10.** Extending `Data` objects: each column of the result consists of the (entry, weight) pairs of the
first object followed by those of the second, missing columns being unknown. -/
theorem C10_extend_data {D E : Data κ V τ} {wa wb : List Rat}
    (ha : Aligned (κ := κ) (τ := τ) ⟨.data D, wa⟩) (hb : Aligned (κ := κ) (τ := τ) ⟨.data E, wb⟩)
    {r : WPoints κ V τ} (h : extend ⟨.data D, wa⟩ ⟨.data E, wb⟩ = .ok r) :
    ∃ F w, r = ⟨.data F, w⟩ ∧ F.nRows = w.length ∧ (∀ k, k ∈ F.keys ↔ k ∈ D.keys ∨ k ∈ E.keys) ∧
      ∀ k ∈ F.keys, (Data.colOf F k).zip w = (entries D k).zip wa ++ (entries E k).zip wb := by
  simp only [Aligned] at ha hb
  simp only [extend] at h
  cases hc : Data.concatenate [D, E] with
  | mk F o =>
    rw [hc] at h
    cases o with
    | some e => simp at h
    | none =>
      simp only [Except.ok.injEq] at h
      obtain ⟨h1, h2, h3⟩ := Data.C04_concatenate (ds := [D, E]) (by
        intro d hd
        simp only [List.mem_cons, List.not_mem_nil, or_false] at hd
        rcases hd with rfl | rfl
        · exact ⟨ha.1, fun e => absurd e ha.2.1⟩
        · exact ⟨hb.1, fun e => absurd e hb.2.1⟩) hc
      refine ⟨F, wa ++ wb, h.symm, ?_, ?_, ?_⟩
      · simp only [List.map_cons, List.map_nil, List.sum_cons, List.sum_nil] at h1
        have h1a := ha.2.2
        have h1b := hb.2.2
        rw [h1, h1a, h1b]
        simp
      · intro k; rw [h2]; simp
      · intro k hk
        rw [h3 k hk]
        simp only [List.flatMap_cons, List.flatMap_nil, List.append_nil]
        refine List.zip_append ?_
        have h4 := ha.2.2
        split
        · rename_i hkD
          have := (Data.C01_rectangular ha.1).1 k hkD
          omega
        · simp only [List.length_replicate]
          omega

example : Aligned (κ := String) (V := Val) (τ := Ty) ⟨.array [[.int 1], [.int 2], [.int 3]], [1, 2, 3]⟩ ∧
    (getItem (κ := String) (V := Val) (τ := Ty) ⟨.array [[.int 1], [.int 2], [.int 3]], [1, 2, 3]⟩
      [true, false, true]).toOption.map WPoints.weights = some [1, 3] := by
  refine ⟨rfl, by decide +kernel⟩

example : Aligned (κ := String) (V := Val) (τ := Ty) ⟨.data Data.exData, [1, 2]⟩ ∧
    (extend (κ := String) (V := Val) (τ := Ty) ⟨.data Data.exData, [1, 2]⟩
      ⟨.data Data.exData, [3, 4]⟩).toOption.map WPoints.weights = some [1, 2, 3, 4] := by
  refine ⟨⟨Data.exData_reachable, by decide, by decide⟩, by decide +kernel⟩

example : Aligned (κ := String) (V := Val) (τ := Ty)
      ⟨.dict [("a", [.int 1, .int 2]), ("b", [.int 3, .int 4])], [1, 2]⟩ ∧
    Aligned (κ := String) (V := Val) (τ := Ty) ⟨.dict [("b", [.int 5])], [3]⟩ ∧
    joinDict [("a", [Val.int 1, .int 2]), ("b", [.int 3, .int 4])] [("b", [.int 5])] =
      [("b", [.int 3, .int 4, .int 5])] := by
  refine ⟨?_, ?_, by decide⟩
  · intro p hp; simp at hp; rcases hp with rfl | rfl <;> rfl
  · intro p hp; simp at hp; subst hp; rfl

/-- **C10 fails** for the documented combination of a scalar weight with a `Data` object: the constructor
raises `TypeError`. -/
theorem C10_scalar_data_false (D : Data κ V τ) (w : Rat) :
    (ofScalar (.data D) w : Except PyErr (WPoints κ V τ)) = .error .typeError := rfl

/-- **C10.** A scalar weight for an array or a dictionary of equally long lists gives every point this weight. -/
theorem C10_scalar_partial {p : Points κ V τ} {w : Rat} {r : WPoints κ V τ} (h : ofScalar p w = .ok r)
    (hd : ∀ d, p = .dict d → ∃ n, ∀ q ∈ d, q.2.length = n) :
    r.points = p ∧ Aligned r ∧ ∀ x ∈ r.weights, x = w := by
  cases p with
  | array rows =>
    simp only [ofScalar, len, Except.ok.injEq] at h
    subst h
    exact ⟨rfl, by simp [Aligned], by simp⟩
  | dict d =>
    cases d with
    | nil => simp [ofScalar, len] at h
    | cons q d =>
      obtain ⟨k, c⟩ := q
      simp only [ofScalar, len, Except.ok.injEq] at h
      subst h
      obtain ⟨n, hn⟩ := hd _ rfl
      refine ⟨rfl, ?_, by simp⟩
      simp only [Aligned, List.length_replicate]
      intro p hp
      rw [hn p hp, ← hn (k, c) (by simp)]
  | data D => simp [ofScalar, len] at h

example : ofScalar (κ := String) (τ := Ty) (.dict [("a", [Val.int 1, .int 2])]) 3 =
    .ok ⟨.dict [("a", [.int 1, .int 2])], [3, 3]⟩ := rfl

end Verif.WPoints
