import Verif.Props.StdFormat
import Verif.Props.Imputator
import Verif.Props.DataStrip
import Verif.Props.Filter
import Verif.Props.Pointcloud
import Verif.Props.Weigher

/-!
# Property C127: preparing prepared data changes nothing
-/

set_option linter.unusedSectionVars false

/-! ## The standard format -/

namespace Verif.Data

/-- The casting loop would leave this column as it is. -/
def Settled (parse : List Char → Option Rat) (D : Data (List Char) Val Ty) (k : List Char) : Prop :=
  castKey parse D k = (D, none)

theorem castKey_frame {parse : List Char → Option Rat} {D D' : Data (List Char) Val Ty} {x : List Char}
    (h : castKey parse D x = (D', none)) :
    Settled parse D' x ∧ (∀ k, k ≠ x → D'.types.get? k = D.types.get? k ∧ D'.cols.get? k = D.cols.get? k) := by
  cases ht : D.types.get? x with
  | none => simp [castKey, ht] at h
  | some t =>
    cases hc : D.cols.get? x with
    | none => simp [castKey, ht, hc] at h
    | some c =>
      by_cases hd : t = some .int ∨ t = some .str ∨ t = some .decimal
      · cases hf : tryFloats parse c with
        | none =>
          have e : castKey parse D x = (D, none) := by simp only [castKey, ht, hc, if_pos hd, hf]
          rw [e] at h
          cases h
          exact ⟨e, fun _ _ => ⟨rfl, rfl⟩⟩
        | some l =>
          simp only [castKey, ht, hc, if_pos hd, hf, Prod.mk.injEq, and_true] at h
          subst h
          refine ⟨?_, fun k hk => ?_⟩
          · simp [Settled, castKey]
          · simp [Dict.get?_set_ne _ _ (Ne.symm hk)]
      · have e : castKey parse D x = (D, none) := by simp only [castKey, ht, hc, if_neg hd]
        rw [e] at h
        cases h
        exact ⟨e, fun _ _ => ⟨rfl, rfl⟩⟩

theorem Settled.congr {parse : List Char → Option Rat} {D D' : Data (List Char) Val Ty} {k : List Char}
    (h : Settled parse D k) (h1 : D'.types.get? k = D.types.get? k) (h2 : D'.cols.get? k = D.cols.get? k) :
    Settled parse D' k := by
  simp only [Settled, castKey] at h ⊢
  rw [h1, h2]
  cases ht : D.types.get? k with
  | none => simp [ht] at h
  | some t =>
    cases hc : D.cols.get? k with
    | none => simp [ht, hc] at h
    | some c =>
      simp only [ht, hc] at h ⊢
      by_cases hd : t = some .int ∨ t = some .str ∨ t = some .decimal
      · simp only [if_pos hd] at h ⊢
        cases hf : tryFloats parse c with
        | none => rfl
        | some l =>
          exfalso
          simp only [hf, Prod.mk.injEq, and_true] at h
          have := congrArg (fun E : Data (List Char) Val Ty => E.types.get? k) h
          simp only [Dict.get?_set_self, ht, Option.some.injEq] at this
          subst this
          simp at hd
      · simp only [if_neg hd]

theorem castLoop_settled {parse : List Char → Option Rat} (ks : List (List Char)) :
    ∀ (D D' : Data (List Char) Val Ty), Res.forEach (castKey parse) ks D = (D', none) →
      (∀ k, Settled parse D k → Settled parse D' k) ∧ ∀ k ∈ ks, Settled parse D' k := by
  induction ks with
  | nil =>
    intro D D' h
    simp only [Res.forEach, Prod.mk.injEq, and_true] at h
    subst h
    exact ⟨fun _ h => h, by simp⟩
  | cons x xs ih =>
    intro D D' h
    obtain ⟨D1, h1, h2⟩ := Res.forEach_none_cons h
    obtain ⟨s1, s2⟩ := castKey_frame h1
    obtain ⟨r1, r2⟩ := ih D1 D' h2
    have hk : ∀ k, Settled parse D k → Settled parse D1 k := by
      intro k hs
      by_cases hx : k = x
      · exact hx ▸ s1
      · exact hs.congr (s2 k hx).1 (s2 k hx).2
    refine ⟨fun k hs => r1 k (hk k hs), fun k hk' => ?_⟩
    rcases List.mem_cons.1 hk' with rfl | hk'
    · exact r1 _ s1
    · exact r2 k hk'

theorem castLoop_fixed {parse : List Char → Option Rat} {ks : List (List Char)} {D : Data (List Char) Val Ty}
    (h : ∀ k ∈ ks, Settled parse D k) : Res.forEach (castKey parse) ks D = (D, none) := by
  induction ks with
  | nil => rfl
  | cons x xs ih =>
    have hx : castKey parse D x = (D, none) := h x (by simp)
    simp only [Res.forEach, hx, Res.andThen]
    exact ih fun k hk => h k (by simp [hk])

theorem extend_keys {D D' : Data (List Char) Val Ty} {k : List Char} {l : List (Option Val)}
    (h : extend D k l = (D', none)) : ∀ x ∈ D'.keys, x ∈ D.keys ∨ x = k := by
  have hset : ∀ c x, x ∈ Dict.keys (D.cols.set k c) → x ∈ D.keys ∨ x = k := by
    intro c x hx
    obtain ⟨v, hv⟩ := (Dict.mem_keys_iff _ _).1 hx
    by_cases hxk : x = k
    · exact .inr hxk
    · rw [Dict.get?_set_ne _ _ (Ne.symm hxk)] at hv
      exact .inl ((Dict.mem_keys_iff _ _).2 ⟨v, hv⟩)
  unfold extend at h
  split at h
  · simp at h
  · rename_i dt _
    split at h
    · split at h
      · simp at h
      · rename_i t _
        simp only at h
        by_cases hb : dt ≠ none ∧ dt ≠ (if t = none then dt else t)
        · rw [if_pos hb] at h
          simp at h
        · rw [if_neg hb, Prod.mk.injEq] at h
          rw [← h.1]
          exact hset _
    · simp only [Prod.mk.injEq, and_true] at h
      subst h
      exact hset _

theorem deleteCol_keys {D D' : Data (List Char) Val Ty} (hw : WF D) {k : List Char} (h : deleteCol D k = (D', none)) :
    ∀ x, x ∈ D'.keys ↔ x ≠ k ∧ x ∈ D.keys := by
  intro x
  by_cases hk : k ∈ D.keys
  · rw [deleteCol_eq hw hk, Prod.mk.injEq] at h
    rw [← h.1]
    exact mem_keys_del hw.nodup
  · cases hc : D.cols.get? k with
    | none => simp [deleteCol, hc] at h
    | some c => exact absurd ((Dict.mem_keys_iff _ _).2 ⟨c, hc⟩) hk

theorem aggregate_keys {D D' : Data (List Char) Val Ty} (hw : WF D) (h : aggregateDatetime D = (D', none)) :
    WF D' ∧ (∀ k ∈ D'.keys, k ∈ D.keys ∨ k = kDatetime) ∧ ¬ (kTime ∈ D'.keys ∧ kDate ∈ D'.keys) := by
  unfold aggregateDatetime at h
  cases ht : D.cols.get? kTime with
  | none =>
    simp only [ht, Prod.mk.injEq, and_true] at h
    subst h
    refine ⟨hw, fun k hk => .inl hk, fun hc => ?_⟩
    obtain ⟨c, hc⟩ := (Dict.mem_keys_iff _ _).1 hc.1
    rw [ht] at hc
    cases hc
  | some ts =>
    cases hd : D.cols.get? kDate with
    | none =>
      simp only [ht, hd, Prod.mk.injEq, and_true] at h
      subst h
      refine ⟨hw, fun k hk => .inl hk, fun hc => ?_⟩
      obtain ⟨c, hc⟩ := (Dict.mem_keys_iff _ _).1 hc.2
      rw [hd] at hc
      cases hc
    | some ds =>
      simp only [ht, hd] at h
      cases hl : combineAll ds ts with
      | error e => simp [hl] at h
      | ok l =>
        simp only [hl] at h
        obtain ⟨D2, h2, h3⟩ := Res.andThen_none h
        obtain ⟨D1, h0, h1⟩ := Res.andThen_none h2
        have w1 : WF D1 := by
          have := wf_extend hw kDatetime l
          rwa [h0] at this
        have w2 := wf_deleteCol w1 h1
        have k1 := deleteCol_keys w1 h1
        have k2 := deleteCol_keys w2 h3
        refine ⟨wf_deleteCol w2 h3, fun k hk => ?_, fun hc => ((k2 kTime).1 hc.1).1 rfl⟩
        exact extend_keys h0 k ((k1 k).1 ((k2 k).1 hk).2).2

theorem castLoop_keys {parse : List Char → Option Rat} : ∀ (ks : List (List Char)) (D : Data (List Char) Val Ty), WF D →
    (∀ k ∈ ks, k ∈ D.keys) → ∀ D', Res.forEach (castKey parse) ks D = (D', none) → D'.keys = D.keys := by
  intro ks
  induction ks with
  | nil =>
    intro D _ _ D' h
    simp only [Res.forEach, Prod.mk.injEq, and_true] at h
    rw [h]
  | cons x xs ih =>
    intro D hw hmem D' h
    obtain ⟨D1, e1, e2⟩ := Res.forEach_none_cons h
    obtain ⟨D1', f1, f2, f3, -⟩ := castKey_spec (parse := parse) hw (hmem x (by simp))
    rw [e1] at f1
    simp only [Prod.mk.injEq, and_true] at f1
    subst f1
    rw [ih D1 f2 (fun k hk => by rw [f3]; exact hmem k (by simp [hk])) D' e2, f3]

/-- **C51.** Data in the standard format does not have a column `date` together with a column `time`, under whatever names
they were stored. -/
theorem C51_merged {parse : List Char → Option Rat} {D D' : Data (List Char) Val Ty} (h : Reachable D)
    (hs : standardFormat parse D = (D', none)) : ¬ ("date".toList ∈ D'.keys ∧ "time".toList ∈ D'.keys) := by
  obtain ⟨D2, h2, h3⟩ := Res.andThen_none hs
  obtain ⟨D1, h1, h2⟩ := Res.andThen_none h2
  have hn := (standardise_ok_iff h.wf).1 (by rw [h1])
  obtain ⟨E, e1, w1, -⟩ := standardiseLoop h.wf.nodup h.wf (fun _ hk => hk) hn
  rw [standardiseKeys, keys] at h1
  rw [h1] at e1
  simp only [Prod.mk.injEq, and_true] at e1
  subst e1
  obtain ⟨w2, -, n2⟩ := aggregate_keys w1 h2
  rw [castLoop_keys _ _ w2 (fun _ hk => hk) _ h3]
  exact fun hc => n2 ⟨hc.2, hc.1⟩

example : (standardFormat (fun _ => none) (fromDict [("Datestamp".toList, .list [some (.date 1)]),
      ("Timestamp".toList, .list [some (.time 5)])]).1).2 = none ∧
    (standardFormat (fun _ => none) (fromDict [("Datestamp".toList, .list [some (.date 1)]),
      ("Timestamp".toList, .list [some (.time 5)])]).1).1.keys = ["datetime".toList] := by decide +kernel

/-- **C127.** Data in the standard format is left as it is by `hrosailing_standard_format`. -/
theorem C127_standard_format {parse : List Char → Option Rat} {D D' : Data (List Char) Val Ty} (h : Reachable D)
    (hs : standardFormat parse D = (D', none)) : standardFormat parse D' = (D', none) := by
  obtain ⟨D2, h2, h3⟩ := Res.andThen_none hs
  obtain ⟨D1, h1, h2⟩ := Res.andThen_none h2
  have hn := (standardise_ok_iff h.wf).1 (by rw [h1])
  obtain ⟨E, e1, w1, -, ρ, -, g, hperm⟩ := standardiseLoop h.wf.nodup h.wf (fun _ hk => hk) hn
  rw [standardiseKeys, keys] at h1
  rw [h1] at e1
  simp only [Prod.mk.injEq, and_true] at e1
  subst e1
  have fix1 : ∀ k ∈ D1.keys, standardKey k = .ok k := by
    intro k hk
    have hm := (hperm.map Prod.fst).mem_iff.1 hk
    simp only [List.map_map, List.mem_map, Function.comp] at hm
    obtain ⟨p, hp, rfl⟩ := hm
    exact Good.final (g p.1 (List.mem_map_of_mem hp))
  obtain ⟨w2, k2, n2⟩ := aggregate_keys w1 h2
  have hkeys : D'.keys = D2.keys := castLoop_keys _ _ w2 (fun _ hk => hk) _ h3
  have c1 : standardiseKeys D' = (D', none) := by
    refine standardiseFixed fun k hk => ?_
    rw [hkeys] at hk
    rcases k2 k hk with hk | rfl
    · exact fix1 k hk
    · decide +kernel
  have c2 : aggregateDatetime D' = (D', none) := by
    unfold aggregateDatetime
    cases ht : D'.cols.get? kTime with
    | none => rfl
    | some ts =>
      cases hd : D'.cols.get? kDate with
      | none => rfl
      | some ds =>
        refine absurd ⟨?_, ?_⟩ n2
        · rw [← hkeys]; exact (Dict.mem_keys_iff _ _).2 ⟨_, ht⟩
        · rw [← hkeys]; exact (Dict.mem_keys_iff _ _).2 ⟨_, hd⟩
  have c3 : Res.forEach (castKey parse) D'.keys D' = (D', none) :=
    castLoop_fixed fun k hk => (castLoop_settled _ _ _ h3).2 k (by rw [← hkeys]; exact hk)
  simp only [standardFormat, c1, Res.andThen, c2, c3]

/-- A table with clashing names, strings and integers is changed by the first, not by the second call. -/
example : Reachable exClash ∧ (standardFormat (fun _ => none) exClash).2 = none ∧
    (standardFormat (fun _ => none) exClash).1 ≠ exClash := by
  refine ⟨Reachable.update (D := empty) .empty (Prod.ext rfl (by decide +kernel)), by decide +kernel, by decide +kernel⟩

/-- **C07** fails for data stripped before: `n_rows` being wrong, stripping once more raises `IndexError`. -/
theorem C07_again_false : ∃ (D D' : Data String Val Ty) (fuel : Nat), Reachable D ∧
    stripAll fuel D = some (D', none) ∧ ∀ fuel', stripAll (fuel' + 1) D' = some (D', some .indexError) := by
  refine ⟨(fromDict [("TWS", .list [some (.int 2), none])]).1,
    ⟨[("TWS", [some (.int 2)])], [("TWS", some .int)], 2⟩, 5,
    Reachable.update (D := empty) .empty (Prod.ext rfl (by decide +kernel)), by decide +kernel, fun fuel' => ?_⟩
  rfl

end Verif.Data

/-! ## Imputators -/

namespace Verif.Imputator

section

variable {κ V τ : Type} [DecidableEq κ] [DecidableEq τ] [HasType V τ]

/-- **C127.** `RemoveOnlyImputator` leaves data without missing values as it is, in particular its own results. -/
theorem C127_remove {D : Data κ V τ} {rs : List (Dict κ (Option V))} (hrs : D.rows = some rs)
    (hc : ∀ r ∈ rs, Complete r) : ∃ st, removeOnly D = .ok (D, st) := by
  have : indicesFrom (fun (r : Dict κ (Option V)) => r.any fun p => p.2.isNone) 0 rs = [] := by
    rw [List.eq_nil_iff_forall_not_mem]
    intro i hi
    obtain ⟨r, hr, h⟩ := mem_indices.1 hi
    exact (any_none_iff r).1 h (hc r (List.mem_of_getElem? hr))
  simp [removeOnly, hrs, this, Data.deleteRows]

/-- **C127.** A second call of `RemoveOnlyImputator` changes nothing. -/
theorem C127_remove_again {D D' : Data κ V τ} (h : Data.Reachable D) {st : Stats} (hd : removeOnly D = .ok (D', st)) :
    ∃ st', removeOnly D' = .ok (D', st') := by
  obtain ⟨rs, hrs, -⟩ := Data.rows_of_rect h.rect
  obtain ⟨D1, st1, h1, h2, -⟩ := C26_rows h hrs
  rw [hd] at h1
  simp only [Except.ok.injEq, Prod.mk.injEq] at h1
  obtain ⟨rfl, rfl⟩ := h1
  exact C127_remove h2 fun r hr => by simpa using (List.mem_filter.1 hr).2

end

section

variable {κ V : Type} [DecidableEq κ]

/-- **C127.** `FillLocalImputator` leaves complete data as it is: if all time stamps and values are present, the time stamps
are in order and there is at least one row, the data is returned unchanged, and the statistics count no changes. -/
theorem C127_fill (f : Fills κ V) (maxDiff : Rat) {ts : List Rat} (hne : ts ≠ []) (hs : ts.Pairwise (· ≤ ·))
    {cols : Dict κ (List (Option V))} (hT : IsTable ⟨ts.map some, cols⟩) (hfull : ∀ p ∈ cols, ∀ x ∈ p.2, x ≠ none) :
    impute f maxDiff ⟨ts.map some, cols⟩ = .ok (⟨ts, cols⟩, ⟨0, 0, 0, ts.length, cols.length + 1⟩) := by
  have hc : Chronological (ts.map some) := by
    intro i j s t hij hi hj
    simp only [List.getElem?_map, Option.map_eq_some_iff, Option.some.injEq] at hi hj
    obtain ⟨_, hi, rfl⟩ := hi
    obtain ⟨_, hj, rfl⟩ := hj
    obtain ⟨h1, rfl⟩ := List.getElem?_eq_some_iff.1 hi
    obtain ⟨h2, rfl⟩ := List.getElem?_eq_some_iff.1 hj
    exact (List.pairwise_iff_getElem.1 hs) i j h1 h2 hij
  obtain ⟨last, hI⟩ := interpolateDatetime_inv maxDiff hc
  have hid : interpolateDatetime maxDiff (ts.map some) = ts.map some := by
    apply List.ext_getElem?
    intro i
    by_cases hi : i < ts.length
    · have h0 : (ts.map some)[i]? = some (some ts[i]) := by simp [hi]
      rw [h0, hI.pres i _ h0]
    · rw [List.getElem?_eq_none (by rw [hI.len]; simpa using hi), List.getElem?_eq_none (by simpa using hi)]
  have hpos : 0 < ts.length := List.length_pos_iff.2 hne
  have hlen : ∀ p ∈ cols, p.2.length = ts.length := fun p hp => by simpa using hT.2 p hp
  have hfil : Dict.filterItems (fun _ v => ! v.all Option.isNone) cols = cols := by
    unfold Dict.filterItems
    rw [List.filter_eq_self]
    intro p hp
    rw [hasValue_iff]
    have h0 : 0 < p.2.length := by rw [hlen p hp]; exact hpos
    cases hx : p.2[0] with
    | none => exact absurd hx (hfull p hp _ (List.getElem_mem h0))
    | some v => exact ⟨v, by rw [← hx]; exact List.getElem_mem h0⟩
  have hrem : indicesFrom Option.isNone 0 (ts.map some) = [] := by
    rw [List.eq_nil_iff_forall_not_mem]
    intro i hi
    obtain ⟨x, hx, h⟩ := mem_indices.1 hi
    obtain ⟨t, -, rfl⟩ := List.mem_map.1 (List.mem_of_getElem? hx)
    simp at h
  have hdrop : ∀ {α : Type} (l : List α) (n : Nat), Data.dropIdx [] n l = l := by
    intro α l
    induction l with
    | nil => intro n; rfl
    | cons x l ih => intro n; simp [Data.dropIdx, ih]
  have hmv : ∀ d : Dict κ (List (Option V)), Dict.mapVals (Data.dropIdx [] 0) d = d := by
    intro d
    have : (Data.dropIdx [] 0 : List (Option V) → List (Option V)) = id := funext fun l => hdrop l 0
    rw [this]
    simp [Dict.mapVals]
  have hloop : ∀ (key : κ) (c : List (Option V)), (∀ x ∈ c, x ≠ none) → fillCol f maxDiff ts key c = (c, 0) := by
    intro key c hfc
    have : ∀ (is : List Nat) st, (∀ i ∈ is, i < c.length) →
        fillLoop f maxDiff ts (indicesFrom Option.isSome 0 c) key is st = st := by
      intro is
      induction is with
      | nil => intro st _; rfl
      | cons i is ih =>
        intro st hi
        have hic := hi i (by simp)
        have hm : i ∈ indicesFrom Option.isSome 0 c := by
          refine mem_indices.2 ⟨c[i], by simp [hic], ?_⟩
          cases hx : c[i] with
          | none => exact absurd hx (hfc _ (List.getElem_mem hic))
          | some v => rfl
        rw [fillLoop, if_pos hm]
        exact ih st fun j hj => hi j (by simp [hj])
    exact this _ _ (by simp)
  have hfilled : (cols.map fun p => (p.1, fillCol f maxDiff ts p.1 p.2)) = cols.map fun p => (p.1, (p.2, 0)) := by
    refine List.map_congr_left fun p hp => ?_
    rw [hloop p.1 p.2 (hfull p hp)]
  have hinc : incomplete ts.length cols = [] := by
    rw [incomplete, List.filter_eq_nil_iff]
    intro i hi
    rw [List.mem_range] at hi
    simp only [List.any_eq_true, not_exists, not_and]
    intro p hp
    have hip : i < p.2.length := by rw [hlen p hp]; exact hi
    rw [List.getD_eq_getElem?_getD, List.getElem?_eq_getElem hip, Option.getD_some]
    cases hx : p.2[i] with
    | none => exact absurd hx (hfull p hp _ (List.getElem_mem hip))
    | some v => simp
  have hall : (ts.map some).all Option.isNone = false := by
    cases ts with
    | nil => exact absurd rfl hne
    | cons t ts => simp
  have hfm : (ts.map some).filterMap id = ts := by simp [List.filterMap_map]
  have hcm : (cols.map fun p => (p.1, (p.2, (0 : Nat)))).map (fun p => (p.1, p.2.1)) = cols := by
    rw [List.map_map]
    exact List.map_id _
  have hsum : ((cols.map fun p => (p.1, (p.2, (0 : Nat)))).map fun p => p.2.2).sum = 0 := by
    rw [List.map_map]
    exact List.sum_eq_zero fun x hx => by
      obtain ⟨p, -, rfl⟩ := List.mem_map.1 hx
      rfl
  simp only [impute, hall, Bool.false_eq_true, if_false, hid, hrem, List.map_nil, hdrop, hfm, hmv, hfil, hfilled, hcm,
    hinc, hsum]
  simp

/-- **C127.** A second call of `FillLocalImputator` changes nothing. -/
theorem C127_fill_again {f : Fills κ V} {maxDiff : Rat} {ts : List Rat} (hs : ts.Pairwise (· ≤ ·))
    {cols : Dict κ (List (Option V))} (hT : IsTable ⟨ts.map some, cols⟩) {R : Result κ V} {st : Stats}
    (h : impute f maxDiff ⟨ts.map some, cols⟩ = .ok (R, st)) (hne : R.times ≠ []) :
    ∃ st', impute f maxDiff ⟨R.times.map some, R.cols⟩ = .ok (R, st') := by
  have hc : Chronological (ts.map some) := by
    intro i j s t hij hi hj
    simp only [List.getElem?_map, Option.map_eq_some_iff, Option.some.injEq] at hi hj
    obtain ⟨_, hi, rfl⟩ := hi
    obtain ⟨_, hj, rfl⟩ := hj
    obtain ⟨h1, rfl⟩ := List.getElem?_eq_some_iff.1 hi
    obtain ⟨h2, rfl⟩ := List.getElem?_eq_some_iff.1 hj
    exact (List.pairwise_iff_getElem.1 hs) i j h1 h2 hij
  obtain ⟨idx, i1, i2, i3, -⟩ := impute_rows hs hT h (P := fun key c i v => filledEntry f maxDiff ts key c i = some v)
    fun _ _ _ _ _ => Iff.rfl
  obtain ⟨idx', -, -, l1, -, l2, l3, -⟩ := C24_impute hT hc h
  obtain ⟨_, _, _, -, -, -, -, -, hRc, -⟩ := impute_eq hT hc h
  have hnd : (Dict.keys R.cols).Nodup := by
    rw [hRc, Dict.keys, List.map_map]
    exact (hT.1.sublist ((List.filter_sublist).map _))
  have hcols : ∀ p ∈ R.cols, p.2.length = idx'.length ∧ ∀ x ∈ p.2, x ≠ none := by
    intro p hp
    obtain ⟨c, hc, -⟩ := (l2 p.1).1 (List.mem_map_of_mem hp)
    obtain ⟨e1, e2⟩ := l3 p.1 c p.2 hc hp
    refine ⟨e1, fun x hx => ?_⟩
    obtain ⟨j, hj, rfl⟩ := List.getElem_of_mem hx
    obtain ⟨v, hv, -⟩ := e2 j (idx'[j]'(e1 ▸ hj)) (by simp)
    rw [List.getElem?_eq_getElem hj, Option.some.injEq] at hv
    simp [hv]
  have hsorted : R.times.Pairwise (· ≤ ·) := by
    rw [i3, List.pairwise_iff_getElem]
    have hlt : ∀ k ∈ idx, k < ts.length := fun k hk => ((i2 k).1 hk).1
    intro a b ha hb hab
    have hl := pick_length hlt
    have ga : ∀ (j : Nat) (hj : j < (pick idx ts).length), ∃ (h1 : j < idx.length) (h2 : idx[j] < ts.length),
        (pick idx ts)[j] = ts[idx[j]] := by
      intro j hj
      have h1 : j < idx.length := by omega
      have h2 := hlt _ (List.getElem_mem h1)
      refine ⟨h1, h2, ?_⟩
      have := pick_get hlt j
      rw [List.getElem?_eq_getElem hj, List.getElem?_eq_getElem h1] at this
      simp only [Option.bind_some, List.getElem?_eq_getElem h2, Option.some.injEq] at this
      exact this
    obtain ⟨a1, a2, ea⟩ := ga a ha
    obtain ⟨b1, b2, eb⟩ := ga b hb
    rw [ea, eb]
    exact (List.pairwise_iff_getElem.1 hs) _ _ a2 b2 ((List.pairwise_iff_getElem.1 i1) a b a1 b1 hab)
  refine ⟨_, C127_fill f maxDiff hne hsorted ⟨hnd, fun p hp => ?_⟩ fun p hp => (hcols p hp).2⟩
  simp only [List.length_map]
  rw [(hcols p hp).1, l1]

/-- The first call fills the gap, the second one finds nothing to do. -/
example : (impute (κ := String) (V := Nat) Fills.default 120 ⟨[0, 60, 100].map some, [("a", [some 1, none, some 4])]⟩ =
      .ok (⟨[0, 60, 100], [("a", [some 1, some 1, some 4])]⟩, ⟨0, 0, 1, 3, 2⟩)) ∧
    impute (κ := String) (V := Nat) Fills.default 120 ⟨[0, 60, 100].map some, [("a", [some 1, some 1, some 4])]⟩ =
      .ok (⟨[0, 60, 100], [("a", [some 1, some 1, some 4])]⟩, ⟨0, 0, 0, 3, 2⟩) := by
  constructor <;> decide +kernel

end

end Verif.Imputator

/-! ## Weights, filters and point clouds -/

namespace Verif.Weigher

variable {K : Type} [Field K] [LinearOrder K] [IsStrictOrderedRing K]

/-- **C127.** Normalising normalised weights changes nothing. -/
theorem C127_normalize {w : List K} (h : ∀ x ∈ w, 0 ≤ x) : normalize (normalize w) = normalize w := by
  cases w with
  | nil => rfl
  | cons a l =>
    by_cases hm : maxOf a l = 0
    · have : normalize (a :: l) = a :: l := by simp [normalize, hm]
      rw [this, this]
    · have hpos : 0 < maxOf a l := lt_of_le_of_ne (h _ (maxOf_mem a l)) (Ne.symm hm)
      have e : normalize (a :: l) = (a / maxOf a l) :: l.map (· / maxOf a l) := by simp [normalize, hm]
      have hone : maxOf (a / maxOf a l) (l.map (· / maxOf a l)) = 1 := by
        apply le_antisymm
        · have := maxOf_mem (a / maxOf a l) (l.map (· / maxOf a l))
          rw [← List.map_cons (f := (· / maxOf a l))] at this
          obtain ⟨x, hx, hx'⟩ := List.mem_map.1 this
          rw [← hx', div_le_one hpos]
          exact le_maxOf a l x hx
        · have := le_maxOf (a / maxOf a l) (l.map (· / maxOf a l)) 1 (by
            rw [← List.map_cons (f := (· / maxOf a l))]
            exact List.mem_map.2 ⟨_, maxOf_mem a l, div_self hm⟩)
          exact this
      rw [e, normalize, hone, if_neg one_ne_zero]
      simp

example : normalize [(1 : Rat), 4, 2] = [1 / 4, 1, 1 / 2] ∧ normalize [(1 / 4 : Rat), 1, 1 / 2] = [1 / 4, 1, 1 / 2] := by
  constructor <;> decide +kernel

end Verif.Weigher

namespace Verif.Filter

variable {K : Type} [Field K] [LinearOrder K] [IsStrictOrderedRing K]

/-- **C127.** `BoundFilter` discards nothing of what it has kept before. -/
theorem C127_bound_filter (lower upper : K) (wts : List K) :
    ∀ b ∈ (boundFilter lower upper
      ((wts.zip (boundFilter lower upper wts).1).filterMap fun p => if p.2 then some p.1 else none)).1, b = true := by
  set kept := (wts.zip (boundFilter lower upper wts).1).filterMap fun p => if p.2 then some p.1 else none with hk
  have hmem : ∀ x ∈ kept, lower ≤ x ∧ x ≤ upper := by
    intro x hx
    rw [hk, List.mem_filterMap] at hx
    obtain ⟨⟨y, b⟩, hy, h⟩ := hx
    obtain ⟨i, hi, he⟩ := List.getElem_of_mem hy
    by_cases hb : b = true
    · subst hb
      simp only [if_true, Option.some.injEq] at h
      subst h
      rw [List.getElem_zip, Prod.mk.injEq] at he
      simp only [boundFilter, List.getElem_zipWith, List.getElem_map, Bool.and_eq_true, decide_eq_true_eq] at he
      rw [he.1] at he
      exact he.2
    · simp [hb] at h
  intro b hb
  obtain ⟨i, hi, rfl⟩ := List.getElem_of_mem hb
  have hl : i < kept.length := by simpa [boundFilter] using hi
  have := hmem _ (List.getElem_mem hl)
  simp [boundFilter, this.1, this.2]

example : ((([1, 5, 9] : List Rat).zip (boundFilter (2 : Rat) 8 [1, 5, 9]).1).filterMap
    fun p => if p.2 then some p.1 else none) = [5] := by decide +kernel

end Verif.Filter

namespace Verif.Cloud

open Verif.Interp (Pt)

variable {K : Type} [Field K] [LinearOrder K] [IsStrictOrderedRing K] [FloorRing K]

/-- **C127.** Symmetrising a symmetric point cloud adds no new point. -/
theorem C127_symmetrize {cloud : List (Pt K)} (h : Normal cloud) (q : Pt K) :
    q ∈ symmetrize (symmetrize cloud) ↔ q ∈ symmetrize cloud := by
  have hn := (C37_symmetrize h).1
  rw [symmetrize_eq hn, symmetrize_eq h]
  simp only [List.mem_append, List.mem_map]
  constructor
  · rintro (hq | ⟨p, hp | ⟨r, hr, rfl⟩, rfl⟩)
    · exact hq
    · exact .inr ⟨p, hp, rfl⟩
    · rw [mirror_mirror (h r hr).2.2]
      exact .inl hr
  · exact .inl

example : Normal [(((10 : Rat), (90 : Rat)), (5 : Rat))] := by
  intro p hp
  simp only [List.mem_singleton] at hp
  subst hp
  norm_num

end Verif.Cloud
