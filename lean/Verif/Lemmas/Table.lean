import Mathlib.Tactic.Common
import Verif.Model.Table
import Verif.Lemmas.Mod

/-! # Lemmas on tables -/

set_option linter.unusedSectionVars false

namespace Verif.Table

variable {K : Type} [Field K] [LinearOrder K] [IsStrictOrderedRing K] [FloorRing K]

theorem filter_range_single {n i : Nat} {p : Nat → Bool} (hi : i < n) (h : ∀ k, k < n → (p k = true ↔ k = i)) :
    (List.range n).filter p = [i] := by
  have : (List.range n).filter p = (List.range n).filter (fun k => decide (k = i)) := by
    apply List.filter_congr
    intro k hk
    rw [Bool.eq_iff_iff, h k (List.mem_range.1 hk), decide_eq_true_iff]
  rw [this]
  have e : (List.range n).filter (fun k => decide (k = i)) = (List.range n).filter (· == i) := by
    apply List.filter_congr
    intro k _
    simp [beq_eq_decide]
  rw [e, List.filter_beq, List.count_eq_one_of_mem List.nodup_range (List.mem_range.2 hi), List.replicate_one]

theorem indices_single {res : List K} (hn : res.Nodup) {i : Nat} {w : K} (h : res[i]? = some w) :
    indices res [w] = .ok [i] := by
  obtain ⟨hi, rfl⟩ := List.getElem?_eq_some_iff.1 h
  have hmem : res[i] ∈ res := List.getElem_mem hi
  simp only [indices, List.isEmpty_cons, Bool.false_eq_true, if_false, List.all_cons, List.all_nil, hmem, decide_true,
    Bool.and_true, not_true_eq_false, List.mem_singleton]
  congr 1
  apply filter_range_single hi
  intro k hk
  simp only [decide_eq_true_iff, List.getD_eq_getElem?_getD, List.getElem?_eq_getElem hk, Option.getD_some]
  exact hn.getElem_inj_iff

theorem indices_missing {res : List K} {w : K} (h : w ∉ res) : indices res [w] = .error .valueError := by
  simp [indices, h]

/-- The invariant of tables with distinct winds. -/
structure WF (t : Table K) : Prop where
  ws_sorted : t.ws.Pairwise (· < ·)
  wa_sorted : t.wa.Pairwise (· < ·)
  ws_nonneg : ∀ w ∈ t.ws, 0 ≤ w
  wa_nonneg : ∀ a ∈ t.wa, 0 ≤ a
  wa_lt : ∀ a ∈ t.wa, a < 360
  rows : t.bsps.length = t.wa.length
  cols : ∀ r ∈ t.bsps, r.length = t.ws.length
  ws_ne : t.ws ≠ []
  wa_ne : t.wa ≠ []

theorem get_entry {t : Table K} (h : WF t) {i j : Nat} {w a x : K} {r : List K} (hw : t.ws[j]? = some w)
    (ha : t.wa[i]? = some (pmod a 360)) (hr : t.bsps[i]? = some r) (hx : r[j]? = some x) : get t w a = .ok x := by
  have h0 : ¬ (w < 0) := not_lt.2 (h.ws_nonneg w (List.mem_of_getElem? hw))
  have hc := indices_single (h.ws_sorted.imp (fun h => ne_of_lt h)) hw
  have hrow := indices_single (h.wa_sorted.imp (fun h => ne_of_lt h)) ha
  simp only [get, wsIndices, waIndices, List.any_cons, List.any_nil, h0, decide_false, Bool.or_self,
    Bool.false_eq_true, if_false, hc, hrow, List.map_cons, List.map_nil]
  simp [bind, Except.bind, List.getD_eq_getElem?_getD, hr, hx]

theorem get_missing {t : Table K} {w a : K} (h : w ∉ t.ws ∨ pmod a 360 ∉ t.wa) : get t w a = .error .valueError := by
  simp only [get, wsIndices, waIndices, List.any_cons, List.any_nil, Bool.or_false, List.map_cons, List.map_nil]
  by_cases h0 : w < 0
  · simp [h0, bind, Except.bind]
  · rw [if_neg (by simpa using h0)]
    by_cases hw : w ∈ t.ws
    · have ha := h.resolve_left (not_not.2 hw)
      rw [indices_missing ha]
      cases hi : indices t.ws [w] with
      | ok c => simp [bind, Except.bind]
      | error e =>
        simp only [indices, List.isEmpty_cons, Bool.false_eq_true, if_false, List.all_cons, List.all_nil, hw,
          decide_true, Bool.and_true, not_true_eq_false] at hi
        cases hi
    · rw [indices_missing hw]
      simp [bind, Except.bind]

theorem sortByKey_perm {α : Type} (l : List (K × α)) : (sortByKey l).Perm l := List.perm_insertionSort _ l

theorem sortByKey_sorted {α : Type} (l : List (K × α)) : ((sortByKey l).map (·.1)).Pairwise (· ≤ ·) := by
  rw [List.pairwise_map]
  have : Std.Total (fun p q : K × α => p.1 ≤ q.1) := ⟨fun p q => le_total p.1 q.1⟩
  have : IsTrans (K × α) (fun p q => p.1 ≤ q.1) := ⟨fun _ _ _ h1 h2 => le_trans h1 h2⟩
  exact List.pairwise_insertionSort _ l

theorem pairwise_lt_of_le_nodup {l : List K} (h : l.Pairwise (· ≤ ·)) (hn : l.Nodup) : l.Pairwise (· < ·) :=
  (h.and hn).imp fun ⟨h1, h2⟩ => lt_of_le_of_ne h1 h2

theorem transpose_getElem? {n : Nat} {rows : List (List K)} {j : Nat} (hj : j < n) :
    (transpose n rows)[j]? = some (rows.map fun r => r.getD j 0) := by
  simp [transpose, hj]

/-- Specification of `sortTable`. -/
theorem sortTable_spec {ws wa : List K} {bsps : List (List K)} (hshape : goodShape bsps ws wa = true) :
    (sortTable ws wa bsps).ws.Perm ws ∧ (sortTable ws wa bsps).ws.Pairwise (· ≤ ·) ∧
    (sortTable ws wa bsps).wa.Perm wa ∧ (sortTable ws wa bsps).wa.Pairwise (· ≤ ·) ∧
    (sortTable ws wa bsps).bsps.length = wa.length ∧ (∀ r ∈ (sortTable ws wa bsps).bsps, r.length = ws.length) ∧
    ∀ (i j : Nat) (a w x : K) (r : List K), wa[i]? = some a → ws[j]? = some w → bsps[i]? = some r → r[j]? = some x →
      ∃ i' j' : Nat, (sortTable ws wa bsps).wa[i']? = some a ∧ (sortTable ws wa bsps).ws[j']? = some w ∧
        ∃ r' : List K, (sortTable ws wa bsps).bsps[i']? = some r' ∧ r'[j']? = some x := by
  simp only [goodShape, Bool.and_eq_true, decide_eq_true_eq, List.all_eq_true] at hshape
  obtain ⟨hlen, hcols⟩ := hshape
  set rows := sortByKey (wa.zip bsps) with hrows
  set cols := sortByKey (ws.zip (transpose ws.length (rows.map (·.2)))) with hcolsd
  have hst : sortTable ws wa bsps = ⟨cols.map (·.1), rows.map (·.1), transpose wa.length (cols.map (·.2))⟩ := rfl
  rw [hst]
  have hrp : rows.Perm (wa.zip bsps) := sortByKey_perm _
  have hcp : cols.Perm (ws.zip (transpose ws.length (rows.map (·.2)))) := sortByKey_perm _
  have hrl : rows.length = wa.length := by rw [hrp.length_eq, List.length_zip, hlen, min_self]
  have htl : (transpose ws.length (rows.map (·.2))).length = ws.length := by simp [transpose]
  have hcl : cols.length = ws.length := by rw [hcp.length_eq, List.length_zip, htl, min_self]
  refine ⟨?_, sortByKey_sorted _, ?_, sortByKey_sorted _, by simp [transpose], ?_, ?_⟩
  · have := hcp.map (·.1)
    rwa [List.map_fst_zip (by omega)] at this
  · have := hrp.map (·.1)
    rwa [List.map_fst_zip (by omega)] at this
  · intro r hr
    simp only [transpose, List.mem_map] at hr
    obtain ⟨k, -, rfl⟩ := hr
    simp [hcl]
  · intro i j a w x r ha hw hr hx
    have h1 : (a, r) ∈ wa.zip bsps := List.mem_of_getElem? (i := i) (by simp [List.getElem?_zip_eq_some, ha, hr])
    obtain ⟨i', hi', hri⟩ := List.getElem_of_mem (hrp.mem_iff.2 h1)
    have hri' : rows[i']? = some (a, r) := by rw [List.getElem?_eq_getElem hi', hri]
    have hj : j < ws.length := (List.getElem?_eq_some_iff.1 hw).1
    have h2 : (w, (rows.map (·.2)).map fun r => r.getD j 0) ∈ ws.zip (transpose ws.length (rows.map (·.2))) :=
      List.mem_of_getElem? (i := j) (by
        rw [List.getElem?_zip_eq_some]
        exact ⟨hw, transpose_getElem? hj⟩)
    obtain ⟨j', hj', hcj⟩ := List.getElem_of_mem (hcp.mem_iff.2 h2)
    have hcj' : cols[j']? = some (w, (rows.map (·.2)).map fun r => r.getD j 0) := by
      rw [List.getElem?_eq_getElem hj', hcj]
    refine ⟨i', j', by simp [hri'], by simp [hcj'], _, transpose_getElem? (by omega), ?_⟩
    simp [hcj', hri', List.getD_eq_getElem?_getD, hx]

/-- Specification of the constructor for given resolutions and boat speeds. -/
theorem init_spec {ws wa : List K} {bsps : List (List K)} (hws : ws ≠ []) (hwa : wa ≠ []) (h0 : ∀ w ∈ ws, 0 ≤ w)
    (hwsn : ws.Nodup) (hwan : (wa.map fun a => pmod a 360).Nodup) (hlen : bsps.length = wa.length)
    (hcols : ∀ r ∈ bsps, r.length = ws.length) :
    ∃ t, init (.values ws) (.values wa) (some bsps) = .ok t ∧ WF t ∧ t.ws.Perm ws ∧
      t.wa.Perm (wa.map fun a => pmod a 360) ∧
      ∀ (i j : Nat) (a w x : K) (r : List K), wa[i]? = some a → ws[j]? = some w → bsps[i]? = some r →
        r[j]? = some x → get t w a = .ok x := by
  have hshape : goodShape bsps ws (wa.map fun a => pmod a 360) = true := by
    simp only [goodShape, List.length_map, hlen, decide_true, Bool.true_and, List.all_eq_true, decide_eq_true_eq]
    exact hcols
  obtain ⟨p1, p2, p3, p4, p5, p6, p7⟩ := sortTable_spec hshape
  set t := sortTable ws (wa.map fun a => pmod a 360) bsps with ht
  have hneg : (ws.any fun x => decide (x < 0)) = false := by
    rw [List.any_eq_false]
    intro w hw
    simpa using h0 w hw
  have hwf : WF t := by
    refine ⟨pairwise_lt_of_le_nodup p2 (p1.nodup_iff.2 hwsn), pairwise_lt_of_le_nodup p4 (p3.nodup_iff.2 hwan),
      fun w hw => h0 w (p1.mem_iff.1 hw), ?_, ?_, ?_, ?_, ?_, ?_⟩
    · intro a ha
      obtain ⟨b, -, rfl⟩ := List.mem_map.1 (p3.mem_iff.1 ha)
      exact pmod_nonneg b (by norm_num)
    · intro a ha
      obtain ⟨b, -, rfl⟩ := List.mem_map.1 (p3.mem_iff.1 ha)
      exact pmod_lt b (by norm_num)
    · rw [p5, p3.length_eq]
    · intro r hr; rw [p6 r hr, p1.length_eq]
    · intro h; rw [h] at p1; exact hws p1.symm.eq_nil
    · intro h; rw [h] at p3
      have := p3.symm.eq_nil
      simp at this
      exact hwa this
  refine ⟨t, ?_, hwf, p1, p3, ?_⟩
  · have e1 : ws.isEmpty = false := by simpa using hws
    have e2 : wa.isEmpty = false := by simpa using hwa
    simp only [init, buildWs, buildWa, e1, e2, hneg, hshape, Bool.false_eq_true, if_false, List.isEmpty_map, bind,
      Except.bind, not_true_eq_false, or_self]
    rfl
  · intro i j a w x r ha hw hr hx
    obtain ⟨i', j', q1, q2, r', q3, q4⟩ := p7 i j (pmod a 360) w x r (by simp [ha]) hw hr hx
    exact get_entry hwf q2 q1 q3 q4

end Verif.Table
