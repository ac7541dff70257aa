import Verif.Model.DataText
import Verif.Props.StdFormat
import Verif.Props.DataTypes

/-!
# C129: looking at `Data`
-/

namespace Verif.Data

section Basic

variable {κ V τ : Type} [DecidableEq κ] [DecidableEq τ] [HasType V τ]

/-- Types are only recorded for columns. -/
def Back (D : Data κ V τ) : Prop := ∀ k ∈ Dict.keys D.types, k ∈ Dict.keys D.cols

theorem back_set {D : Data κ V τ} (h : Back D) (k : κ) (c : List (Option V)) (t : Option τ) (m : Int) :
    Back ({ cols := D.cols.set k c, types := D.types.set k t, maxLen := m } : Data κ V τ) := by
  intro k' hk'
  simp only [Dict.mem_keys_set] at hk' ⊢
  exact hk'.imp id (h _)

theorem back_setC {D : Data κ V τ} (h : Back D) (k : κ) (c : List (Option V)) (m : Int) :
    Back ({ cols := D.cols.set k c, types := D.types, maxLen := m } : Data κ V τ) := by
  intro k' hk'
  simp only [Dict.mem_keys_set]
  exact .inr (h _ hk')

theorem back_setT {D : Data κ V τ} (h : Back D) {k : κ} (hk : k ∈ D.keys) (t : Option τ) :
    Back ({ D with types := D.types.set k t } : Data κ V τ) := by
  intro k' hk'
  simp only [Dict.mem_keys_set] at hk'
  rcases hk' with rfl | hk'
  · exact hk
  · exact h _ hk'

theorem back_extend {D : Data κ V τ} (h : Back D) (k : κ) (l : List (Option V)) : Back (extend D k l).1 := by
  unfold extend
  split
  · exact h
  · split
    · rename_i old hold
      split
      · exact h
      · rename_i t ht
        have hk : k ∈ D.keys := (Dict.mem_keys_iff _ _).2 ⟨_, hold⟩
        by_cases h0 : t = none
        · simp only [h0, if_true]
          split
          · exact back_setT h hk _
          · exact back_set h _ _ _ _
        · simp only [h0, if_false]
          split
          · exact h
          · exact back_setC h _ _ _
    · exact back_set h _ _ _ _

theorem back_fillKey {D : Data κ V τ} (h : Back D) (len : Int) (k : κ) : Back (fillKey len D k).1 := by
  unfold fillKey
  dsimp only
  split
  · exact back_setC h _ _ _
  · exact back_set h _ _ _ _

theorem back_dropLastKey {D : Data κ V τ} (h : Back D) (k : κ) : Back (dropLastKey D k).1 := by
  unfold dropLastKey
  split
  · exact h
  · exact back_setC h _ _ _

theorem back_unsafeUpdate {D : Data κ V τ} (h : Back D) (d : Dict κ (Arg V)) : Back (unsafeUpdate D d).1 :=
  Res.andThen_inv (P := Back) (Res.forEach_inv (P := Back)
    (fun s x hs => by rw [putArg_eq]; exact back_extend hs _ _) d D h)
    fun _ hs => Res.forEach_inv (P := Back) (fun s x hs => back_fillKey hs _ _) _ _ hs

theorem back_update {D : Data κ V τ} (h : Back D) (d : Dict κ (Arg V)) (compress : Bool) :
    Back (update D d compress).1 := by
  unfold update
  refine Res.andThen_inv (P := Back) (Res.forEach_inv (P := Back) (fun s x hs => back_fillKey hs _ _) _ _ h)
    fun s hs => ?_
  split
  · exact back_unsafeUpdate hs d
  · split
    · exact hs
    · exact Res.andThen_inv (P := Back) (Res.forEach_inv (P := Back) (fun s x hs => back_dropLastKey hs x) _ _ hs)
        fun _ hs => back_unsafeUpdate hs d
    · exact back_unsafeUpdate hs d

theorem back_del {D : Data κ V τ} (h : Back D) (hw : (Dict.keys D.types).Nodup) (k : κ) :
    Back ({ D with cols := D.cols.del k, types := D.types.del k } : Data κ V τ) := by
  intro k' hk'
  obtain ⟨h1, h2⟩ := (mem_keys_del hw).1 hk'
  simp only [Dict.keys_del]
  exact (List.mem_erase_of_ne h1).2 (h _ h2)

theorem Reachable.back {D : Data κ V τ} (h : Reachable D) : Back D := by
  induction h with
  | empty => simp [Back, Data.empty]
  | @update D D' d c _ hu ih =>
    have := back_update ih d c
    rwa [hu] at this
  | @updateData D D' o _ _ hu ih _ =>
    have := back_update ih (Dict.mapVals Arg.list o.cols) false
    rw [Data.updateData] at hu
    rwa [hu] at this
  | @rename D D' a b hD hu ih =>
    unfold Data.rename at hu
    split at hu
    · rw [Prod.mk.injEq] at hu
      rw [← hu.1]; exact ih
    split at hu
    · simp at hu
    split at hu
    · simp at hu
    · rename_i c hc
      split at hu
      · simp at hu
      · rename_i t ht
        have hw := wf_set hD.wf b c t D.maxLen
        rw [deleteCol_eq hw (by
          simp only [keys, Dict.mem_keys_set]
          exact .inr ((Dict.mem_keys_iff _ _).2 ⟨_, hc⟩)), Prod.mk.injEq] at hu
        rw [← hu.1]
        exact back_del (back_set ih b c t D.maxLen) hw.nodupT a
  | @deleteCol D D' k hD hu ih =>
    unfold Data.deleteCol at hu
    split at hu
    · simp at hu
    split at hu
    · simp at hu
    · rw [Prod.mk.injEq] at hu
      rw [← hu.1]
      exact back_del ih hD.wf.nodupT k
  | @deleteRows D idx _ _ _ ih =>
    unfold Data.deleteRows
    split
    · exact ih
    · intro k hk
      simpa using ih k hk
  | @getItem D item hD ih =>
    rcases item with m | (_ | ⟨k, ks⟩)
    · intro k hk
      simpa [Data.getItem, maskRows] using ih k hk
    · intro k hk
      simpa [Data.getItem, maskRows] using ih k hk
    · intro k' hk'
      simp only [Data.getItem, getSlice, Dict.keys, Dict.filterItems, List.mem_map, List.mem_filter] at hk' ⊢
      obtain ⟨p, ⟨hp, hq⟩, rfl⟩ := hk'
      obtain ⟨q, hq1, hq2⟩ := List.mem_map.1 (ih p.1 (List.mem_map.2 ⟨p, hp, rfl⟩))
      exact ⟨q, ⟨hq1, by rw [hq2]; exact hq⟩, hq2⟩

/-- **C129.** For a reachable object, a name is `in` the object iff it is one of its keys, iff `data[name]` gives a column, iff
`data.type(name)` gives a type; for all other names both raise `KeyError`. -/
theorem C129_contains {D : Data κ V τ} (h : Reachable D) (k : κ) :
    (contains D k = true ↔ k ∈ D.keys) ∧
      (k ∈ D.keys → ∃ t, getCol D k = .ok (colOf D k) ∧ typeOfKey D k = .ok t) ∧
      (k ∉ D.keys → getCol D k = .error .keyError ∧ typeOfKey D k = .error .keyError) := by
  refine ⟨?_, ?_, ?_⟩
  · rw [keys, Dict.mem_keys_iff, contains, Option.isSome_iff_exists]
  · intro hk
    obtain ⟨t, ht⟩ := (Dict.mem_keys_iff _ _).1 (h.wf.typed k hk)
    obtain ⟨c, hc⟩ := (Dict.mem_keys_iff _ _).1 hk
    exact ⟨t, by simp [getCol, hc, colOf], by simp [typeOfKey, ht]⟩
  · intro hk
    exact ⟨by simp [getCol, (Dict.get?_eq_none_iff _ _).2 hk],
      by simp [typeOfKey, (Dict.get?_eq_none_iff _ _).2 fun hm => hk (h.back k hm)]⟩

/-- **C129.** `n_cols` is the number of (distinct) names, and every row has `n_cols` entries, one for each name in the order of
the names. -/
theorem C129_n_cols {D : Data κ V τ} (h : Reachable D) :
    D.keys.Nodup ∧ D.keys.length = nCols D ∧
      ∀ rs, D.rows = some rs → ∀ r ∈ rs, r.length = nCols D ∧ Dict.keys r = D.keys := by
  refine ⟨h.wf.nodup, by simp [keys, nCols, Dict.keys], fun rs hrs r hr => ?_⟩
  have key : ∀ (i : Int) (r : Dict κ (Option V)), D.rowAt i = some r → Dict.keys r = D.keys := by
    intro i r hi
    unfold rowAt at hi
    unfold keys
    generalize D.cols = d at hi
    induction d generalizing r with
    | nil => simp at hi; subst hi; rfl
    | cons p d ih =>
      rw [List.mapM_cons] at hi
      cases hp : pyIndex p.2 i with
      | none => simp [hp] at hi
      | some v =>
        cases hq : List.mapM (fun p => (pyIndex p.2 i).map fun v => (p.1, v)) d with
        | none => simp [hp, hq] at hi
        | some q =>
          simp [hp, hq] at hi
          subst hi
          have := ih q hq
          simp only [Dict.keys, List.map_cons] at this ⊢
          rw [this]
  have hk : Dict.keys r = D.keys := by
    unfold rows at hrs
    generalize List.range D.maxLen.toNat = l at hrs
    induction l generalizing rs with
    | nil => simp at hrs; subst hrs; simp at hr
    | cons n l ih =>
      rw [List.mapM_cons] at hrs
      cases hp : D.rowAt n with
      | none => simp [hp] at hrs
      | some v =>
        cases hq : List.mapM (fun (i : Nat) => D.rowAt i) l with
        | none => simp [hp, hq] at hrs
        | some q =>
          simp [hp, hq] at hrs
          subst hrs
          rcases List.mem_cons.1 hr with rfl | hr
          · exact key _ _ hp
          · exact ih q hr hq
  refine ⟨?_, hk⟩
  have := congrArg List.length hk
  simpa [Dict.keys, keys, nCols] using this

end Basic

set_option linter.unusedSectionVars false

variable {V τ : Type}

/-! ## The printed table -/

/-- The representations of entries end where the list goes on: a text which begins with the representation of an entry,
followed by a comma or a closing bracket, begins with the representation of no other entry followed by one of these; and no
representation begins with a closing bracket. (This holds for numbers, quoted strings, times and `None`.) -/
structure Delimited (reprV : Option V → List Char) : Prop where
  ends : ∀ a b (x y : Char) r s, (x = ',' ∨ x = ']') → (y = ',' ∨ y = ']') →
    reprV a ++ x :: r = reprV b ++ y :: s → a = b
  opens : ∀ a r, reprV a ≠ ']' :: r
  nonempty : ∀ a, reprV a ≠ []

theorem split_at {x : Char} {a b r s : List Char} (ha : x ∉ a) (hb : x ∉ b) (h : a ++ x :: r = b ++ x :: s) :
    a = b ∧ r = s := by
  induction a generalizing b with
  | nil =>
    cases b with
    | nil => simpa using h
    | cons y b => simp at h; simp [h.1] at hb
  | cons z a ih =>
    cases b with
    | nil => simp at h; simp [h.1] at ha
    | cons y b =>
      simp only [List.cons_append, List.cons.injEq] at h
      simp only [List.mem_cons, not_or] at ha hb
      obtain ⟨h1, h2⟩ := ih ha.2 hb.2 h.2
      exact ⟨by rw [h.1, h1], h2⟩

theorem joinText_cons_cons (sep t u : List Char) (ts : List (List Char)) :
    joinText sep (t :: u :: ts) = t ++ sep ++ joinText sep (u :: ts) := rfl

/-- The text of a list can be read back from any text beginning with it. -/
theorem listText_inj {reprV : Option V → List Char} (hv : Delimited reprV) {c d : List (Option V)} {r s : List Char}
    (h : listText reprV c ++ r = listText reprV d ++ s) : c = d ∧ r = s := by
  simp only [listText, List.append_assoc] at h
  replace h := List.append_cancel_left h
  change joinText ", ".toList (c.map reprV) ++ ']' :: r = joinText ", ".toList (d.map reprV) ++ ']' :: s at h
  have hopen : ∀ (l : List (Option V)) (r s : List Char), l ≠ [] →
      joinText ", ".toList (l.map reprV) ++ r ≠ ']' :: s := by
    intro l r s hl
    match l, hl with
    | [a], _ =>
      intro h0
      cases ha : reprV a with
      | nil => exact hv.nonempty a ha
      | cons z w =>
        simp [joinText, ha] at h0
        exact hv.opens a w (by rw [ha, h0.1])
    | a :: b :: l, _ =>
      intro h0
      cases ha : reprV a with
      | nil => exact hv.nonempty a ha
      | cons z w =>
        simp [joinText, ha] at h0
        exact hv.opens a w (by rw [ha, h0.1])
  induction c generalizing d with
  | nil =>
    cases d with
    | nil => simpa [joinText] using h
    | cons b d => exact absurd h.symm (hopen (b :: d) _ _ (by simp))
  | cons a c ih =>
    cases d with
    | nil => exact absurd h (hopen (a :: c) _ _ (by simp))
    | cons b d =>
      cases c with
      | nil =>
        cases d with
        | nil =>
          simp only [List.map_cons, List.map_nil, joinText] at h
          have hab := hv.ends a b _ _ _ _ (.inr rfl) (.inr rfl) h
          subst hab
          have := List.append_cancel_left h
          simp only [List.cons.injEq, true_and] at this
          exact ⟨rfl, this⟩
        | cons b' d =>
          simp only [List.map_cons, List.map_nil, joinText_cons_cons, List.append_assoc] at h
          change reprV a ++ ']' :: r = reprV b ++ ',' :: _ at h
          have hab := hv.ends a b _ _ _ _ (.inr rfl) (.inl rfl) h
          subst hab
          have := List.append_cancel_left h
          simp at this
      | cons a' c =>
        cases d with
        | nil =>
          simp only [List.map_cons, List.map_nil, joinText_cons_cons, List.append_assoc] at h
          change reprV a ++ ',' :: _ = reprV b ++ ']' :: s at h
          have hab := hv.ends a b _ _ _ _ (.inl rfl) (.inr rfl) h
          subst hab
          have := List.append_cancel_left h
          simp at this
        | cons b' d =>
          simp only [List.map_cons, joinText_cons_cons, List.append_assoc] at h
          have hab := hv.ends a b ',' ',' _ _ (.inl rfl) (.inl rfl) h
          subst hab
          have h' := List.append_cancel_left (List.append_cancel_left h)
          obtain ⟨h1, h2⟩ := ih (d := b' :: d) (by simpa only [List.map_cons] using h')
          exact ⟨by rw [h1], h2⟩

theorem fieldText_inj {showT : Option τ → List Char} {strV reprV : Option V → List Char} (hv : Delimited reprV)
    (hT : Function.Injective showT) (hT' : ∀ t, ':' ∉ showT t) {k k' : List Char} (hk : '\'' ∉ k) (hk' : '\'' ∉ k')
    {t t' : Option τ} {c c' : List (Option V)} (hc : c.length < 10) (hc' : c'.length < 10) {r s : List Char}
    (h : fieldText showT strV reprV k t c ++ r = fieldText showT strV reprV k' t' c' ++ s) :
    k = k' ∧ t = t' ∧ c = c' ∧ r = s := by
  simp only [fieldText, colText, hc, hc', if_true, List.append_assoc, List.cons_append] at h
  replace h := List.append_cancel_left h
  obtain ⟨h1, h⟩ := split_at hk hk' h
  replace h := List.append_cancel_left h
  obtain ⟨h2, h⟩ := split_at (hT' t) (hT' t') h
  simp only [List.cons.injEq, true_and] at h
  obtain ⟨h3, h⟩ := listText_inj hv h
  exact ⟨h1, hT h2, h3, by simpa using h⟩

theorem fieldText_ne_nil (showT : Option τ → List Char) (strV reprV : Option V → List Char) (k : List Char)
    (t : Option τ) (c : List (Option V)) : fieldText showT strV reprV k t c ≠ [] := by
  intro h
  simp [fieldText] at h

variable [DecidableEq τ] [HasType V τ]

theorem textLoop_ok {showT : Option τ → List Char} {strV reprV : Option V → List Char}
    {types : Dict (List Char) (Option τ)} (d : Dict (List Char) (List (Option V)))
    (h : ∀ k ∈ Dict.keys d, k ∈ Dict.keys types) :
    textLoop showT strV reprV types d =
      .ok (d.map fun p => fieldText showT strV reprV p.1 ((types.get? p.1).getD none) p.2).flatten := by
  induction d with
  | nil => rfl
  | cons p d ih =>
    obtain ⟨k, c⟩ := p
    obtain ⟨t, ht⟩ := (Dict.mem_keys_iff _ _).1 (h k (by simp [Dict.keys]))
    have := ih fun k' hk' => h k' (by simp only [Dict.keys, List.map_cons, List.mem_cons]; exact .inr hk')
    simp [textLoop, ht, this]

/-- **C129.** Printing a reachable object never fails; the text consists of one block for each column, in the order of the
names. -/
theorem C129_text {D : Data (List Char) V τ} (h : Reachable D) (showT : Option τ → List Char)
    (strV reprV : Option V → List Char) :
    text showT strV reprV D = .ok (D.keys.map fun k =>
      "Data field '".toList ++ k ++ '\'' :: (" of type ".toList ++ showT ((D.types.get? k).getD none) ++
        ':' :: '\n' :: '\t' :: (colText strV reprV (colOf D k) ++ ['\n']))).flatten := by
  rw [text, textLoop_ok D.cols h.wf.typed]
  congr 2
  rw [keys, Dict.keys, List.map_map]
  apply List.map_congr_left
  intro p hp
  have : colOf D p.1 = p.2 := by
    rw [colOf, Dict.get?_of_mem h.wf.nodup (k := p.1) (v := p.2) hp]; rfl
  simp only [Function.comp, fieldText, this]
  rfl

/-- **C129.** The text of a table with less than ten rows determines the table: its columns with their names, their order,
their types and all their entries. -/
theorem C129_short_determined {D E : Data (List Char) V τ} (hD : Reachable D) (hE : Reachable E)
    {showT : Option τ → List Char} {strV reprV : Option V → List Char} (hv : Delimited reprV)
    (hT : Function.Injective showT) (hT' : ∀ t, ':' ∉ showT t)
    (hkD : ∀ k ∈ D.keys, '\'' ∉ k) (hkE : ∀ k ∈ E.keys, '\'' ∉ k)
    (hnD : D.nRows < 10) (hnE : E.nRows < 10) (h : text showT strV reprV D = text showT strV reprV E) :
    D.cols = E.cols ∧ ∀ k ∈ D.keys, typeOfKey D k = typeOfKey E k := by
  rw [text, text, textLoop_ok D.cols hD.wf.typed, textLoop_ok E.cols hE.wf.typed, Except.ok.injEq] at h
  have lenD : ∀ p ∈ D.cols, p.2.length < 10 := by
    intro p hp
    have h1 := hD.rect.length_colOf (k := p.1) (List.mem_map_of_mem hp)
    rw [colOf, Dict.get?_of_mem hD.wf.nodup (k := p.1) (v := p.2) hp] at h1
    simp only [nRows] at *
    simp at h1; omega
  have lenE : ∀ p ∈ E.cols, p.2.length < 10 := by
    intro p hp
    have h1 := hE.rect.length_colOf (k := p.1) (List.mem_map_of_mem hp)
    rw [colOf, Dict.get?_of_mem hE.wf.nodup (k := p.1) (v := p.2) hp] at h1
    simp only [nRows] at *
    simp at h1; omega
  have main : ∀ (d e : Dict (List Char) (List (Option V))),
      (∀ p ∈ d, p.2.length < 10 ∧ '\'' ∉ p.1) → (∀ p ∈ e, p.2.length < 10 ∧ '\'' ∉ p.1) →
      (d.map fun p => fieldText showT strV reprV p.1 ((D.types.get? p.1).getD none) p.2).flatten =
        (e.map fun p => fieldText showT strV reprV p.1 ((E.types.get? p.1).getD none) p.2).flatten →
      d = e ∧ ∀ p ∈ d, (D.types.get? p.1).getD none = (E.types.get? p.1).getD none := by
    intro d
    induction d with
    | nil =>
      intro e _ _ h
      cases e with
      | nil => simp
      | cons p e =>
        simp only [List.map_nil, List.flatten_nil, List.map_cons, List.flatten_cons] at h
        exact absurd (List.append_eq_nil_iff.1 h.symm).1 (fieldText_ne_nil _ _ _ _ _ _)
    | cons p d ih =>
      intro e hd he h
      cases e with
      | nil =>
        simp only [List.map_nil, List.flatten_nil, List.map_cons, List.flatten_cons] at h
        exact absurd (List.append_eq_nil_iff.1 h).1 (fieldText_ne_nil _ _ _ _ _ _)
      | cons q e =>
        simp only [List.map_cons, List.flatten_cons] at h
        obtain ⟨h1, h2, h3, h4⟩ := fieldText_inj hv hT hT' (hd p (by simp)).2 (he q (by simp)).2
          (hd p (by simp)).1 (he q (by simp)).1 h
        obtain ⟨h5, h6⟩ := ih e (fun p hp => hd p (by simp [hp])) (fun p hp => he p (by simp [hp])) h4
        refine ⟨by rw [h5, Prod.ext h1 h3], fun p' hp' => ?_⟩
        rcases List.mem_cons.1 hp' with rfl | hp'
        · rw [h2, h1]
        · exact h6 p' hp'
  obtain ⟨h1, h2⟩ := main D.cols E.cols
    (fun p hp => ⟨lenD p hp, hkD _ (List.mem_map_of_mem hp)⟩)
    (fun p hp => ⟨lenE p hp, hkE _ (List.mem_map_of_mem hp)⟩) h
  refine ⟨h1, fun k hk => ?_⟩
  obtain ⟨t, ht⟩ := (Dict.mem_keys_iff _ _).1 (hD.wf.typed k hk)
  have hkE' : k ∈ E.keys := by rw [keys, ← h1]; exact hk
  obtain ⟨t', ht'⟩ := (Dict.mem_keys_iff _ _).1 (hE.wf.typed k hkE')
  obtain ⟨p, hp, rfl⟩ := List.mem_map.1 hk
  have := h2 p hp
  rw [ht, ht'] at this
  simp only [Option.getD_some] at this
  simp [typeOfKey, ht, ht', this]

/-- **C129.** Of a column with ten or more entries exactly the first five and the last five are shown: two such columns
agreeing in these have the same text, whatever else they contain and however long they are. -/
theorem C129_long (strV reprV : Option V → List Char) {c d : List (Option V)} (hc : 10 ≤ c.length) (hd : 10 ≤ d.length)
    (h1 : c.take 5 = d.take 5) (h2 : c.drop (c.length - 5) = d.drop (d.length - 5)) :
    colText strV reprV c = colText strV reprV d ∧
      colText strV reprV c = "[".toList ++ joinText ",".toList ((c.take 5).map strV) ++ ", ... ,".toList ++
        joinText ",".toList ((c.drop (c.length - 5)).map strV) ++ "]".toList := by
  have e1 : ¬ c.length < 10 := by omega
  have e2 : ¬ d.length < 10 := by omega
  constructor
  · simp only [colText, e1, e2, if_false, h1, h2]
  · simp only [colText, e1, if_false]

/-! ### An example -/

instance : HasType Bool Unit := ⟨fun _ => ()⟩

/-- `repr` of `True`, `False` and `None`, for the example. -/
def exReprBool : Option Bool → List Char
  | some true => "True".toList
  | some false => "False".toList
  | none => "None".toList

/-- `str` of the types `bool` and `NoneType` as recorded, for the example. -/
def exShowType : Option Unit → List Char
  | some _ => "<class 'bool'>".toList
  | none => "None".toList

theorem delimited_exReprBool : Delimited exReprBool := by
  refine ⟨?_, ?_, ?_⟩
  · intro a b x y r s _ _ h
    rcases a with _ | _ | _ <;> rcases b with _ | _ | _ <;> simp [exReprBool] at h ⊢
  · intro a r
    rcases a with _ | _ | _ <;> simp [exReprBool]
  · intro a
    rcases a with _ | _ | _ <;> simp [exReprBool]

/-- Two columns with two rows. -/
def exText : Data (List Char) Bool Unit :=
  (update empty [("ok".toList, .list [some true, none]), ("x".toList, .scalar none)] false).1

theorem exText_reachable : Reachable exText :=
  .update (d := [("ok".toList, .list [some true, none]), ("x".toList, .scalar none)]) (compress := false) .empty
    (by decide +kernel)

/-- The printed example. -/
example : text exShowType exReprBool exReprBool exText =
    .ok ("Data field 'ok' of type <class 'bool'>:\n\t[True, None]\n".toList ++
      "Data field 'x' of type None:\n\t[None, None]\n".toList) := by decide +kernel

/-- The example meets the hypotheses. -/
example : Delimited exReprBool ∧ Function.Injective exShowType ∧ (∀ t, ':' ∉ exShowType t) ∧
    (∀ k ∈ exText.keys, '\'' ∉ k) ∧ exText.nRows < 10 ∧ contains exText "ok".toList = true ∧ nCols exText = 2 := by
  refine ⟨delimited_exReprBool, ?_, ?_, ?_, ?_, ?_, ?_⟩
  · intro a b h
    match a, b with
    | none, none => rfl
    | some (), some () => rfl
    | none, some () => exact absurd h (by decide +kernel)
    | some (), none => exact absurd h (by decide +kernel)
  · intro t
    match t with
    | none => decide +kernel
    | some () => decide +kernel
  all_goals decide +kernel

/-- A long column. -/
example : colText exReprBool exReprBool (List.replicate 6 (some true) ++ List.replicate 6 none) =
    "[True,True,True,True,True, ... ,None,None,None,None,None]".toList := by decide +kernel

end Verif.Data
