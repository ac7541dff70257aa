import Verif.Lemmas.Expander
import Verif.Spec.Expander

/-!
# Property C42: the weather expander
-/

set_option linter.unusedSectionVars false

namespace Verif.Expander

open Verif.Data

variable {κ V τ : Type} [DecidableEq κ] [DecidableEq τ] [HasType V τ]

theorem entry_eq (getW : Place V → Except PyErr (Weather κ V)) (k : κ) (p : Place V) :
    entry k (getW p).toOption = weatherAt getW k p := by
  unfold weatherAt entry
  cases getW p <;> simp [Except.toOption]

theorem filterMap_entry (getW : Place V → Except PyErr (Weather κ V)) (k : κ) (ps : List (Place V)) :
    ((ps.filterMap fun p => (getW p).toOption).map some).map (entry k) =
      (ps.filter fun p => (getW p).toOption.isSome).map (weatherAt getW k) := by
  induction ps with
  | nil => rfl
  | cons p ps ih =>
    have he := entry_eq getW k p
    cases h : (getW p).toOption with
    | none => simp only [List.filterMap_cons, h, List.filter_cons, Option.isSome_none, Bool.false_eq_true,
        if_false]; exact ih
    | some w =>
      rw [h] at he
      simp only [List.filterMap_cons, h, List.filter_cons, Option.isSome_some, if_true, List.map_cons]
      rw [ih, he]

theorem length_filterMap_eq (getW : Place V → Except PyErr (Weather κ V)) (ps : List (Place V)) :
    (ps.filterMap fun p => (getW p).toOption).length =
      (ps.filter fun p => (getW p).toOption.isSome).length := by
  induction ps with
  | nil => rfl
  | cons p ps ih =>
    cases h : (getW p).toOption <;> simp [h, ih]

/-- What `_get_weather` does. -/
theorem getWeather_spec {kt klat klon : κ} {getW : Place V → Except PyErr (Weather κ V)}
    (hw : ∀ p w, getW p = .ok w → w ≠ [] ∧ (Dict.keys w).Nodup) {mode : Mode} {D D1 W : Data κ V τ}
    (hD : Reachable D) {ps : List (Place V)} (hps : places kt klat klon D = .ok ps)
    (h : getWeather kt klat klon getW mode D = .ok (D1, W)) :
    Reachable D1 ∧ D1.nRows = (remaining getW mode ps).length ∧ D1.keys = D.keys ∧
    (∀ k, colOf D1 k = if mode = .delete then
      without ((failed getW 0 ps).map fun (i : Nat) => (i : Int)) (colOf D k) else colOf D k) ∧
    Reachable W ∧ W.nRows = (remaining getW mode ps).length ∧
    (∀ k, ∀ p ∈ ps, ∀ w, getW p = .ok w → k ∈ Dict.keys w → k ∈ W.keys) ∧
    (ps ≠ [] → mode = .ignore → W.keys ≠ []) ∧
    ∀ k, block k W = (remaining getW mode ps).map (weatherAt getW k) := by
  have hlen := places_length hD hps
  unfold getWeather at h
  rw [hps] at h
  simp only at h
  cases hc : collect getW mode 0 ps ⟨none, [], []⟩ with
  | error e => simp [hc] at h
  | ok acc =>
    obtain ⟨c1, c2, c3⟩ := collect_spec hc
    simp only [List.nil_append] at c1 c2
    rw [hc] at h
    simp only at h
    cases mode with
    | delete =>
      simp only [if_true] at h
      simp only [reduceCtorEq, if_false] at c2
      cases hcc : concatWeather (τ := τ) acc.list with
      | mk W' e =>
        cases e with
        | some e => simp [hcc] at h
        | none =>
          simp only [hcc, Except.ok.injEq, Prod.mk.injEq] at h
          obtain ⟨rfl, rfl⟩ := h
          have hl : ∀ w, some w ∈ acc.list → w ≠ [] ∧ (Dict.keys w).Nodup := by
            intro w hm
            rw [c2] at hm
            simp only [List.mem_map, List.mem_filterMap, Option.some.injEq, exists_eq_right] at hm
            obtain ⟨p, _, hp⟩ := hm
            refine hw p w ?_
            cases hg : getW p <;> simp [hg, Except.toOption] at hp
            rw [hp]
          obtain ⟨w0, w1, w2, w3⟩ := forEach_updateWeather hl rect_empty hcc
          have hvalid : ∀ i ∈ acc.nones.map fun (i : Nat) => (i : Int), 0 ≤ i ∧ i < D.nRows := by
            intro i hi
            rw [c1] at hi
            simp only [List.mem_map] at hi
            obtain ⟨j, hj, rfl⟩ := hi
            have := failed_lt hj
            omega
          have hnd : (acc.nones.map fun (i : Nat) => (i : Int)).Nodup := by
            rw [c1]
            exact (failed_nodup getW 0 ps).map (fun a b hab => by simpa using hab)
          refine ⟨.deleteRows hD hnd hvalid, ?_, ?_, ?_, reachable_concatWeather hcc, ?_, ?_, ?_, ?_⟩
          · have e1 : (deleteRows D (acc.nones.map fun (i : Nat) => (i : Int))).nRows =
                D.nRows - acc.nones.length := by
              unfold deleteRows nRows
              split
              · rename_i h0; simp at h0; simp [h0]
              · simp
            have e2 := length_failed getW 0 ps
            have e3 := length_filterMap_eq getW ps
            rw [e1, c1]
            simp only [remaining]
            omega
          · unfold deleteRows
            split
            · rfl
            · simp [keys]
          · intro k; rw [colOf_deleteRows, c1]; simp
          · rw [w1, c2]
            have e3 := length_filterMap_eq getW ps
            simp only [Data.empty, nRows, List.length_map, remaining]
            omega
          · intro k p hp w hpw hk
            refine (w2 k).2 (Or.inr ⟨w, ?_, hk⟩)
            rw [c2]
            simp only [List.mem_map, List.mem_filterMap, Option.some.injEq, exists_eq_right]
            exact ⟨p, hp, by simp [hpw, Except.toOption]⟩
          · simp
          · intro k
            rw [w3, c2, filterMap_entry]
            simp [block, Data.empty, keys, nRows, remaining]
    | ignore =>
      simp only [reduceCtorEq, if_false] at h
      simp only [if_true] at c2
      cases hf : fillNones acc.keys acc.nones acc.list with
      | error e => simp [hf] at h
      | ok l =>
        obtain ⟨f1, f2, f3⟩ := fillNones_spec hf
        simp only [hf] at h
        cases hcc : concatWeather (τ := τ) l with
        | mk W' e =>
          cases e with
          | some e => simp [hcc] at h
          | none =>
            simp only [hcc, Except.ok.injEq, Prod.mk.injEq] at h
            obtain ⟨rfl, rfl⟩ := h
            have hblank : acc.nones ≠ [] → ((acc.keys.getD []).map fun k => (k, (none : Option V))) ≠ [] ∧
                (Dict.keys ((acc.keys.getD []).map fun k => (k, (none : Option V)))).Nodup := by
              intro hne
              obtain ⟨ks, hks⟩ := Option.ne_none_iff_exists'.1 (f2 hne)
              rcases c3 ks hks with h | ⟨p, w, hp, rfl⟩
              · simp at h
              · rw [hks]
                obtain ⟨g1, g2⟩ := hw p w hp
                refine ⟨?_, ?_⟩
                · cases w with
                  | nil => exact absurd rfl g1
                  | cons q w => simp
                · simpa [Dict.keys, Function.comp_def] using g2
            have hmem : ∀ j : Nat, ∀ p, ps[j]? = some p → acc.list[j]? = some (getW p).toOption := by
              intro j p hj; rw [c2]; simp [hj]
            have hfail : ∀ j : Nat, ∀ p, ps[j]? = some p → (j ∈ acc.nones ↔ (getW p).toOption = none) := by
              intro j p hj
              rw [c1]
              simp only [failed, List.mem_map, List.mem_filter, List.mem_zipIdx_iff_getElem?, Prod.exists]
              constructor
              · rintro ⟨q, j', ⟨h1, h2⟩, rfl⟩
                rw [hj, Option.some.injEq] at h1; subst h1; simpa using h2
              · intro hn; exact ⟨p, j, ⟨hj, by simp [hn]⟩, rfl⟩
            have hl : ∀ w, some w ∈ l → w ≠ [] ∧ (Dict.keys w).Nodup := by
              intro w hm
              obtain ⟨j, hj⟩ := List.mem_iff_getElem?.1 hm
              rw [f3] at hj
              split at hj
              · rename_i hjn
                have := hblank (List.ne_nil_of_mem hjn)
                simp only [Option.map_eq_some_iff, Option.some.injEq, exists_and_right] at hj
                rw [← hj.2]; exact this
              · rw [c2] at hj
                simp only [List.getElem?_map, Option.map_eq_some_iff] at hj
                obtain ⟨p, _, hp⟩ := hj
                refine hw p w ?_
                cases hg : getW p <;> simp [hg, Except.toOption] at hp
                rw [hp]
            obtain ⟨w0, w1, w2, w3⟩ := forEach_updateWeather hl rect_empty hcc
            have hll : l.length = ps.length := by rw [f1, c2]; simp
            refine ⟨hD, ?_, rfl, ?_, reachable_concatWeather hcc, ?_, ?_, ?_, ?_⟩
            · simp only [remaining]; omega
            · intro k; simp
            · rw [w1, hll]; simp [Data.empty, nRows, remaining]
            · intro k p hp w hpw hk
              obtain ⟨j, hj⟩ := List.mem_iff_getElem?.1 hp
              refine (w2 k).2 (Or.inr ⟨w, ?_, hk⟩)
              apply List.mem_iff_getElem?.2
              refine ⟨j, ?_⟩
              have : ¬ j ∈ acc.nones := by rw [hfail j p hj]; simp [hpw, Except.toOption]
              rw [f3, if_neg this, hmem j p hj, hpw]; rfl
            · intro hne _ hk
              obtain ⟨o, ho⟩ := List.exists_mem_of_ne_nil l (by
                intro h0; rw [h0] at hll; exact hne (List.length_eq_zero_iff.1 hll.symm))
              cases o with
              | none =>
                obtain ⟨j, hj⟩ := List.mem_iff_getElem?.1 ho
                have hjl : j < l.length := (List.getElem?_eq_some_iff.1 hj).1
                have hp : ps[j]? = some ps[j] := by rw [List.getElem?_eq_getElem]
                by_cases hjn : j ∈ acc.nones
                · rw [f3, if_pos hjn, hmem j _ hp] at hj; simp at hj
                · rw [f3, if_neg hjn, hmem j _ hp, Option.some.injEq, ← hfail j _ hp] at hj
                  exact hjn hj
              | some w =>
                have hwn := (hl w ho).1
                cases w with
                | nil => exact hwn rfl
                | cons q w =>
                  have : q.1 ∈ W'.keys := (w2 q.1).2 (Or.inr ⟨q :: w, ho, by simp⟩)
                  rw [hk] at this; simp at this
            · intro k
              rw [w3]
              simp only [block, Data.empty, keys, nRows, remaining]
              simp only [Dict.keys_nil, List.not_mem_nil, if_false, Int.toNat_zero, List.replicate_zero,
                List.nil_append]
              apply List.ext_getElem?
              intro j
              simp only [List.getElem?_map]
              cases hj : ps[j]? with
              | none =>
                have : l[j]? = none := by
                  rw [List.getElem?_eq_none_iff] at hj ⊢; omega
                rw [this]; rfl
              | some p =>
                rw [f3, hmem j p hj]
                split
                · rename_i hjn
                  rw [hfail j p hj] at hjn
                  simp only [Option.map_some]
                  rw [← entry_eq, hjn]
                  simp only [entry, Option.bind_some, Option.bind_none, Option.some.injEq]
                  cases hg : Dict.get? ((acc.keys.getD []).map fun k => (k, (none : Option V))) k with
                  | none => rfl
                  | some v =>
                    have := Dict.mem_of_get? hg
                    simp only [List.mem_map, Prod.mk.injEq] at this
                    obtain ⟨_, _, _, rfl⟩ := this
                    rfl
                · simp only [Option.map_some, entry_eq]

theorem getWeather_keys {kt klat klon : κ} {getW : Place V → Except PyErr (Weather κ V)}
    (hw : ∀ p w, getW p = .ok w → w ≠ [] ∧ (Dict.keys w).Nodup) {mode : Mode} {D D1 W : Data κ V τ}
    (hD : Reachable D) {ps : List (Place V)} (hps : places kt klat klon D = .ok ps)
    (h : getWeather kt klat klon getW mode D = .ok (D1, W)) (hk : W.keys = []) : W.nRows = 0 := by
  obtain ⟨-, -, -, -, -, h6, h7, h8, -⟩ := getWeather_spec hw hD hps h
  rw [h6]
  by_contra hne
  have hne' : remaining getW mode ps ≠ [] := by intro h0; rw [h0] at hne; simp at hne
  cases mode with
  | ignore => exact h8 hne' rfl hk
  | delete =>
    obtain ⟨p, hp⟩ := List.exists_mem_of_ne_nil _ hne'
    simp only [remaining, List.mem_filter] at hp
    obtain ⟨hp, hs⟩ := hp
    cases hg : getW p with
    | error e => simp [hg, Except.toOption] at hs
    | ok w =>
      have hwn := (hw p w hg).1
      cases w with
      | nil => exact hwn rfl
      | cons q w =>
        have := h7 q.1 p hp (q :: w) hg (by simp)
        rw [hk] at this; simp at this

/-- **C42** (partial: the count is twice what it should be, see `C42_rows_false`). After a successful expansion there
are two rows for every remaining measurement, whatever the weather model answers and however the standard format
renames columns. -/
theorem C42_count_partial {kt klat klon : κ} {dup : κ → κ} {std : Data κ V τ → Res (Data κ V τ)}
    (hstd : ∀ X X', Reachable X → std X = (X', none) →
      Reachable X' ∧ X'.nRows = X.nRows ∧ (X'.keys = [] → X.keys = []))
    {getW : Place V → Except PyErr (Weather κ V)}
    (hw : ∀ p w, getW p = .ok w → w ≠ [] ∧ (Dict.keys w).Nodup) {mode : Mode} {D D' : Data κ V τ}
    (hD : Reachable D) {ps : List (Place V)} (hps : places kt klat klon D = .ok ps)
    (h : expand kt klat klon dup std getW mode D = .ok D') :
    D'.nRows = 2 * (remaining getW mode ps).length := by
  unfold expand at h
  cases hg : getWeather kt klat klon getW mode D with
  | error e => simp [hg] at h
  | ok r =>
    obtain ⟨D1, W⟩ := r
    obtain ⟨g1, g2, -, -, g5, g6, -, -, -⟩ := getWeather_spec hw hD hps hg
    have g0 := getWeather_keys hw hD hps hg
    simp only [hg] at h
    split at h
    · simp at h
    · rename_i W1 hs1
      obtain ⟨s1, s2, s3⟩ := hstd W W1 g5 hs1
      split at h
      · simp at h
      · rename_i W2 hm
        obtain ⟨m1, m2, m3, -⟩ := markDuplicates_spec s1.wf hm
        have r2 := reachable_markDuplicates s1 hm
        split at h
        · simp at h
        · rename_i D2 hu
          have hne : W2.cols = [] → W2.maxLen = 0 := by
            intro h0
            have k2 : W2.keys = [] := by simp [keys, h0]
            have k1 : W1.keys = [] := by
              by_contra hk
              obtain ⟨k, hk⟩ := List.exists_mem_of_ne_nil _ hk
              have := (m3 _).2 ⟨k, hk, rfl⟩
              rw [k2] at this; simp at this
            change W2.nRows = 0
            rw [m2, s2]; exact g0 (s3 k1)
          obtain ⟨u1, -, -⟩ := updateData_spec g1.rect r2.rect hne hu
          split at h
          · simp at h
          · rename_i D3 hs2
            obtain ⟨-, t2, -⟩ := hstd D2 D3 (.updateData g1 r2 hu) hs2
            simp only [Except.ok.injEq] at h
            rw [← h, t2, u1, m2, s2, g2, g6]
            ring

/-- **C42** (partial: the weather is not in the row of its measurement, and the columns are in the standard format
already). With `m` remaining measurements, the first `m` rows are the remaining rows of the given data, in order; the
rows `m, …, 2m - 1` carry the weather of the remaining measurements, in order; and a weather column that does not
clash with an existing one is `None` in the first `m` rows. -/
theorem C42_layout_partial {kt klat klon : κ} {dup : κ → κ} {getW : Place V → Except PyErr (Weather κ V)}
    (hw : ∀ p w, getW p = .ok w → w ≠ [] ∧ (Dict.keys w).Nodup) {mode : Mode} {D D' : Data κ V τ}
    (hD : Reachable D) {ps : List (Place V)} (hps : places kt klat klon D = .ok ps)
    (h : expand kt klat klon dup (fun X => (X, none)) getW mode D = .ok D') :
    (∀ k ∈ D.keys, k ∈ D'.keys ∧ (colOf D' k).take (remaining getW mode ps).length =
      if mode = .delete then without ((failed getW 0 ps).map fun (i : Nat) => (i : Int)) (colOf D k)
      else colOf D k) ∧
    ∀ k, ∀ p ∈ ps, ∀ w, getW p = .ok w → k ∈ Dict.keys w →
      (colOf D' (stored dup D k)).drop (remaining getW mode ps).length =
        (remaining getW mode ps).map (weatherAt getW k) ∧
      (stored dup D k ∉ D.keys → ∀ v ∈ (colOf D' (stored dup D k)).take (remaining getW mode ps).length,
        v = none) := by
  unfold expand at h
  cases hg : getWeather kt klat klon getW mode D with
  | error e => simp [hg] at h
  | ok r =>
    obtain ⟨D1, W⟩ := r
    obtain ⟨g1, g2, g3, g4, g5, g6, g7, -, g9⟩ := getWeather_spec hw hD hps hg
    have g0 := getWeather_keys hw hD hps hg
    simp only [hg] at h
    split at h
    · simp at h
    · rename_i W2 hm
      obtain ⟨m1, m2, m3, m4⟩ := markDuplicates_spec g5.wf hm
      have r2 := reachable_markDuplicates g5 hm
      split at h
      · simp at h
      · rename_i D2 hu
        have hne : W2.cols = [] → W2.maxLen = 0 := by
          intro h0
          have k2 : W2.keys = [] := by simp [keys, h0]
          have k1 : W.keys = [] := by
            by_contra hk
            obtain ⟨k, hk⟩ := List.exists_mem_of_ne_nil _ hk
            have := (m3 _).2 ⟨k, hk, rfl⟩
            rw [k2] at this; simp at this
          change W2.nRows = 0
          rw [m2]; exact g0 k1
        obtain ⟨u1, u2, u3⟩ := updateData_spec g1.rect r2.rect hne hu
        simp only [Except.ok.injEq] at h
        subst h
        have hb1 : ∀ k, (block k D1).length = (remaining getW mode ps).length := by
          intro k
          unfold block
          split
          · rename_i hk
            have := g1.rect.length_colOf hk
            rw [← Nat.cast_inj (R := Int), this]; exact g2
          · simp [g2]
        refine ⟨fun k hk => ?_, fun k p hp w hpw hkw => ?_⟩
        · have hk1 : k ∈ D1.keys := g3 ▸ hk
          have hk2 : k ∈ D2.keys := (u2 k).2 (Or.inl hk1)
          refine ⟨hk2, ?_⟩
          rw [u3 k hk2, ← hb1 k, List.take_left]
          rw [block, if_pos hk1, g4]
        · have hkW := g7 k p hp w hpw hkw
          have hst : (if k ∈ D1.keys then dup k else k) = stored dup D k := by simp only [stored, g3]
          have hk2 : stored dup D k ∈ W2.keys := (m3 _).2 ⟨k, hkW, hst.symm⟩
          have hkD : stored dup D k ∈ D2.keys := (u2 _).2 (Or.inr hk2)
          rw [u3 _ hkD]
          refine ⟨?_, ?_⟩
          · rw [← hb1 (stored dup D k), List.drop_left, block, if_pos hk2]
            have e1 := m4 k hkW
            rw [hst] at e1
            have e2 := g9 k
            rw [block, if_pos hkW] at e2
            rw [← e2]
            simp only [colOf, e1]
          · intro hnot v hv
            rw [← hb1 (stored dup D k), List.take_left, block, g3, if_neg hnot] at hv
            exact (List.mem_replicate.1 hv).2

/-! ### Concrete cases and refutations -/

/-- Two measurements at latitudes 1 and 2. -/
def exD : Data String Val Ty :=
  (update Data.empty [("datetime", .list [some (.int 100), some (.int 200)]), ("lat", .list [some (.int 1), some (.int 2)]),
    ("lon", .list [some (.int 5), some (.int 6)])] false).1

theorem exD_reachable : Reachable exD :=
  .update .empty (d := [("datetime", .list [some (.int 100), some (.int 200)]),
    ("lat", .list [some (.int 1), some (.int 2)]), ("lon", .list [some (.int 5), some (.int 6)])])
    (compress := false) (by decide)

/-- A weather model knowing the wind at latitude 2 only. -/
def exW (p : Place Val) : Except PyErr (Weather String Val) :=
  if p.lat = some (.int 2) then .ok [("TWS", some (.int 12)), ("lat", p.lat)] else .error .valueError

theorem exW_ok : ∀ p w, exW p = .ok w → w ≠ [] ∧ (Dict.keys w).Nodup := by
  intro p w h
  unfold exW at h
  split at h
  · simp only [Except.ok.injEq] at h; subst h; exact ⟨by simp, by simp⟩
  · simp at h

/-- The result of the expansion in both modes. -/
example : expand "datetime" "lat" "lon" (· ++ "(duplicate)") (fun X => (X, none)) exW .delete exD =
    .ok (⟨[("datetime", [some (.int 200), none]), ("lat", [some (.int 2), none]), ("lon", [some (.int 6), none]),
      ("TWS", [none, some (.int 12)]), ("lat(duplicate)", [none, some (.int 2)])],
      [("datetime", some .int), ("lat", some .int), ("lon", some .int), ("TWS", some .int),
        ("lat(duplicate)", some .int)], 2⟩ : Data String Val Ty) := by decide +kernel

example : ∃ D', expand "datetime" "lat" "lon" (· ++ "(duplicate)") (fun X => (X, none)) exW .ignore exD = .ok D' ∧
    colOf D' "TWS" = [none, none, none, some (.int 12)] ∧
    colOf D' "datetime" = [some (.int 100), some (.int 200), none, none] :=
  ⟨_, rfl, by decide +kernel, by decide +kernel⟩

/-- **C42** is false: there is not one row per remaining measurement. -/
theorem C42_rows_false : ¬ ∀ (getW : Place Val → Except PyErr (Weather String Val)) (mode : Mode)
    (D D' : Data String Val Ty) ps, Reachable D → places "datetime" "lat" "lon" D = .ok ps →
    expand "datetime" "lat" "lon" (· ++ "(duplicate)") (fun X => (X, none)) getW mode D = .ok D' →
    D'.nRows = (remaining getW mode ps).length := by
  intro h
  have h1 := h exW .delete exD _ _ exD_reachable rfl rfl
  revert h1
  decide +kernel

/-- **C42** is false: row `i` does not carry the weather of the time and place of row `i`. -/
theorem C42_row_weather_false : ¬ ∀ (getW : Place Val → Except PyErr (Weather String Val)) (mode : Mode)
    (D D' : Data String Val Ty) ps, Reachable D → places "datetime" "lat" "lon" D = .ok ps →
    expand "datetime" "lat" "lon" (· ++ "(duplicate)") (fun X => (X, none)) getW mode D = .ok D' →
    ∀ i : Nat, i < (remaining getW mode ps).length →
      (colOf D' "TWS")[i]? = ((remaining getW mode ps).map (weatherAt getW "TWS"))[i]? := by
  intro h
  have h1 := h exW .delete exD _ _ exD_reachable rfl rfl 0 (by decide +kernel)
  revert h1
  decide +kernel

/-- In the mode `"ignore"`, where records without weather should be filled with `None`, the expansion of non-empty
data raises a `TypeError` if the weather model has no answer at all. -/
theorem C42_ignore_all_false {kt klat klon : κ} {dup : κ → κ} {std : Data κ V τ → Res (Data κ V τ)}
    {getW : Place V → Except PyErr (Weather κ V)} {D : Data κ V τ} {ps : List (Place V)} (hne : ps ≠ [])
    (hps : places kt klat klon D = .ok ps) (hfail : ∀ p ∈ ps, getW p = .error .valueError) :
    expand kt klat klon dup std getW .ignore D = .error .typeError := by
  have key : ∀ (ps : List (Place V)) (i : Nat) (acc : Acc κ V), (∀ p ∈ ps, getW p = .error .valueError) →
      acc.keys = none → ∃ acc', collect getW .ignore i ps acc = .ok acc' ∧ acc'.keys = none ∧
        (acc.nones ≠ [] ∨ ps ≠ [] → acc'.nones ≠ []) := by
    intro ps
    induction ps with
    | nil => intro i acc _ hk; exact ⟨acc, rfl, hk, by simp⟩
    | cons p ps ih =>
      intro i acc hf hk
      unfold collect
      rw [hf p (by simp)]
      simp only [if_true]
      obtain ⟨acc', h1, h2, h3⟩ := ih (i + 1)
        { acc with list := acc.list ++ [none], nones := acc.nones ++ [i] } (fun q hq => hf q (by simp [hq])) hk
      exact ⟨acc', h1, h2, fun _ => h3 (Or.inl (by simp))⟩
  obtain ⟨acc, h1, h2, h3⟩ := key ps 0 ⟨none, [], []⟩ hfail rfl
  have h4 := h3 (Or.inr hne)
  unfold expand getWeather
  rw [hps]
  simp only [h1, reduceCtorEq, if_false]
  obtain ⟨i, is, hi⟩ := List.exists_cons_of_ne_nil h4
  rw [hi, h2]
  rfl

example : expand "datetime" "lat" "lon" (· ++ "(duplicate)") (fun X => (X, none))
    (fun _ => (.error .valueError : Except PyErr (Weather String Val))) .ignore exD = .error .typeError := by
  decide +kernel

end Verif.Expander
