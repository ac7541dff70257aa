import Verif.Props.Session

/-!
# Property C190: symmetrising tables with angles on both sides
-/

set_option linter.unusedSectionVars false

namespace Verif.Table

variable {K : Type} [Field K] [LinearOrder K] [IsStrictOrderedRing K] [FloorRing K]

/-! ### The specification -/

/-- The point with the wind from the other side. -/
def otherSide (p : (K × K) × K) : (K × K) × K := ((p.1.1, 360 - p.1.2), p.2)

/-- Angles which are not on the axis. -/
def offAxis (a : K) : Bool := decide (a ≠ 0) && decide (a ≠ 180)

/-- No angle off the axis is in the table together with its mirror image. -/
def OneSided (t : Table K) : Prop := ∀ a ∈ t.wa, offAxis a = true → 360 - a ∉ t.wa

/-! ### Lemmas -/

theorem offAxis_iff (a : K) : offAxis a = true ↔ a ≠ 0 ∧ a ≠ 180 := by simp [offAxis]

theorem split_axis {α : Type} {P : List (K × α)} (hs : (P.map (·.1)).Pairwise (· < ·)) (hb : ∀ p ∈ P, 0 ≤ p.1) :
    ∃ Z R H S, P = Z ++ R ++ H ++ S ∧ (Z = [] ∨ ∃ r, Z = [(0, r)]) ∧ (H = [] ∨ ∃ r, H = [(180, r)]) ∧
      (∀ p ∈ R, p.1 ≠ 0 ∧ p.1 ≠ 180) ∧ ∀ p ∈ S, p.1 ≠ 0 ∧ p.1 ≠ 180 := by
  have main : ∀ {P : List (K × α)} (_ : (P.map (·.1)).Pairwise (· < ·)) (_ : ∀ p ∈ P, 0 < p.1),
      ∃ R H S, P = R ++ H ++ S ∧ (H = [] ∨ ∃ r, H = [(180, r)]) ∧ (∀ p ∈ R, p.1 ≠ 0 ∧ p.1 ≠ 180) ∧
        ∀ p ∈ S, p.1 ≠ 0 ∧ p.1 ≠ 180 := by
    intro P
    induction P with
    | nil => exact fun _ _ => ⟨[], [], [], rfl, Or.inl rfl, by simp, by simp⟩
    | cons p P ih =>
      intro hs hb
      rw [List.map_cons, List.pairwise_cons] at hs
      have hb' : ∀ q ∈ P, 0 < q.1 := fun q hq => hb q (List.mem_cons_of_mem _ hq)
      by_cases hp : p.1 = 180
      · refine ⟨[], [p], P, rfl, Or.inr ⟨p.2, by rw [← hp]⟩, by simp, fun q hq => ⟨(hb' q hq).ne', ?_⟩⟩
        have := hs.1 q.1 (List.mem_map_of_mem hq)
        rw [hp] at this
        exact this.ne'
      · obtain ⟨R, H, S, h1, h2, h3, h4⟩ := ih hs.2 hb'
        refine ⟨p :: R, H, S, by rw [h1]; rfl, h2, ?_, h4⟩
        intro q hq
        rcases List.mem_cons.1 hq with rfl | hq
        · exact ⟨(hb q List.mem_cons_self).ne', hp⟩
        · exact h3 q hq
  cases P with
  | nil => exact ⟨[], [], [], [], rfl, Or.inl rfl, Or.inl rfl, by simp, by simp⟩
  | cons p P =>
    have hs' := hs
    rw [List.map_cons, List.pairwise_cons] at hs'
    rcases (hb p List.mem_cons_self).eq_or_lt with h0 | h0
    · obtain ⟨R, H, S, h1, h2, h3, h4⟩ := main hs'.2 fun q hq => by
        have := hs'.1 q.1 (List.mem_map_of_mem hq)
        rwa [← h0] at this
      exact ⟨[p], R, H, S, by rw [h1]; rfl, Or.inr ⟨p.2, by rw [h0]⟩, h2, h3, h4⟩
    · obtain ⟨R, H, S, h1, h2, h3, h4⟩ := main hs fun q hq => by
        rcases List.mem_cons.1 hq with rfl | hq
        · exact h0
        · exact h0.trans (hs'.1 q.1 (List.mem_map_of_mem hq))
      exact ⟨[], R, H, S, by rw [h1]; rfl, Or.inl rfl, h2, h3, h4⟩

/-- The arrays given to the constructor by `symmetrize`. -/
theorem symmetrize_arrays {t : Table K} {Z R H S : List (K × List K)} (hP : t.wa.zip t.bsps = Z ++ R ++ H ++ S)
    (hlen : t.bsps.length = t.wa.length) (hZ : Z = [] ∨ ∃ r, Z = [(0, r)]) (hH : H = [] ∨ ∃ r, H = [(180, r)])
    (hR : ∀ p ∈ R, p.1 ≠ 0 ∧ p.1 ≠ 180) (hS : ∀ p ∈ S, p.1 ≠ 0 ∧ p.1 ≠ 180) :
    symmetrize t = init (.values t.ws)
      (.values ((Z ++ R ++ S ++ (S.reverse.map mirror ++ H ++ R.reverse.map mirror)).map (·.1)))
      (some ((Z ++ R ++ S ++ (S.reverse.map mirror ++ H ++ R.reverse.map mirror)).map (·.2))) := by
  have e1 : t.wa = (Z ++ R ++ H ++ S).map (·.1) := by rw [← hP, List.map_fst_zip (by omega)]
  have e2 : t.bsps = (Z ++ R ++ H ++ S).map (·.2) := by rw [← hP, List.map_snd_zip (by omega)]
  have n0 : ∀ {L : List (K × List K)}, (∀ p ∈ L, p.1 ≠ 0 ∧ p.1 ≠ 180) → (0 : K) ∉ L.map (·.1) ∧ (180 : K) ∉ L.map (·.1) := by
    intro L hL
    constructor <;> intro h <;> obtain ⟨p, hp, h⟩ := List.mem_map.1 h
    · exact (hL p hp).1 h
    · exact (hL p hp).2 h
  have h0180 : (0 : K) ≠ 180 := by norm_num
  have hZ180 : (180 : K) ∉ Z.map (·.1) := by
    rcases hZ with rfl | ⟨r, rfl⟩ <;> simp
  have hH0 : (0 : K) ∉ H.map (·.1) := by
    rcases hH with rfl | ⟨r, rfl⟩ <;> simp
  have m0 : (0 : K) ∈ t.wa ↔ Z ≠ [] := by
    rw [e1, List.map_append, List.map_append, List.map_append, List.mem_append, List.mem_append, List.mem_append]
    simp only [(n0 hR).1, (n0 hS).1, hH0, or_false]
    rcases hZ with rfl | ⟨r, rfl⟩ <;> simp
  have m180 : (180 : K) ∈ t.wa ↔ H ≠ [] := by
    rw [e1, List.map_append, List.map_append, List.map_append, List.mem_append, List.mem_append, List.mem_append]
    simp only [(n0 hR).2, (n0 hS).2, hZ180, or_false, false_or]
    rcases hH with rfl | ⟨r, rfl⟩ <;> simp
  have mir : ∀ l : List (K × List K), (l.map (·.1)).reverse.map (360 - ·) = (l.reverse.map mirror).map (·.1) := by
    intro l; simp [mirror, ← List.map_reverse]
  have mir2 : ∀ l : List (K × List K), (l.map (·.2)).reverse = (l.reverse.map mirror).map (·.2) := by
    intro l; simp [mirror, ← List.map_reverse]
  have hHm : H.reverse.map mirror = H := by
    rcases hH with rfl | ⟨s, rfl⟩
    · rfl
    · simp [mirror]; norm_num
  set Q := Z ++ R ++ H ++ S ++ (S.reverse.map mirror ++ H ++ R.reverse.map mirror ++ Z.reverse.map mirror) with hQ
  have w1 : t.wa ++ t.wa.reverse.map (360 - ·) = Q.map (·.1) := by
    rw [e1, mir, hQ, ← List.map_append]
    simp [hHm]
  have w2 : t.bsps ++ t.bsps.reverse = Q.map (·.2) := by
    rw [e2, mir2, hQ, ← List.map_append]
    simp [hHm]
  simp only [symmetrize]
  rw [w1, w2]
  have d1 : (if (180 : K) ∈ t.wa then ((Q.map (·.1)).eraseIdx ((Q.map (·.1)).idxOf 180),
      (Q.map (·.2)).eraseIdx ((Q.map (·.1)).idxOf 180)) else (Q.map (·.1), Q.map (·.2))) =
      ((Z ++ R ++ S ++ (S.reverse.map mirror ++ H ++ R.reverse.map mirror) ++ Z.reverse.map mirror).map (·.1),
       (Z ++ R ++ S ++ (S.reverse.map mirror ++ H ++ R.reverse.map mirror) ++ Z.reverse.map mirror).map (·.2)) := by
    by_cases hH0 : H = []
    · rw [if_neg (by rw [m180]; exact not_not.2 hH0), hQ]
      simp [hH0]
    · rw [if_pos (m180.2 hH0)]
      obtain ⟨s, hs⟩ := hH.resolve_left hH0
      have idx : (Q.map (·.1)).idxOf 180 = (Z ++ R).length := by
        rw [hQ, hs]
        simp only [List.append_assoc, List.map_append]
        rw [← List.append_assoc, List.idxOf_append_of_notMem (by
          rw [List.mem_append]; exact not_or.2 ⟨hZ180, (n0 hR).2⟩)]
        simp
      rw [idx, hQ]
      simp only [List.eraseIdx_map, List.append_assoc]
      rw [← List.append_assoc Z R, List.eraseIdx_append_of_length_le (le_refl _), Nat.sub_self, hs]
      simp
  rw [d1]
  by_cases hZ0 : Z = []
  · rw [if_neg (by rw [m0]; exact not_not.2 hZ0)]
    simp [hZ0]
  · rw [if_pos (m0.2 hZ0)]
    obtain ⟨r, hr⟩ := hZ.resolve_left hZ0
    simp only [← List.map_dropLast]
    have : (Z ++ R ++ S ++ (S.reverse.map mirror ++ H ++ R.reverse.map mirror) ++ Z.reverse.map mirror).dropLast =
        Z ++ R ++ S ++ (S.reverse.map mirror ++ H ++ R.reverse.map mirror) := by
      rw [hr, List.reverse_singleton, List.map_singleton, List.dropLast_concat]
    rw [this]

/-- Sorting rows only, if the wind speeds are sorted. -/
theorem sortTable_rows {ws : List K} (hws : ws.Pairwise (· ≤ ·)) {F : List (K × List K)} (hF : ∀ p ∈ F, p.2.length = ws.length) :
    sortTable ws (F.map (·.1)) (F.map (·.2)) = ⟨ws, (sortByKey F).map (·.1), (sortByKey F).map (·.2)⟩ := by
  have hz : (F.map (·.1)).zip (F.map (·.2)) = F := by
    induction F with
    | nil => rfl
    | cons p F ih => simp [ih fun q hq => hF q (List.mem_cons_of_mem _ hq)]
  have hp := sortByKey_perm F
  simp only [sortTable, hz, sortByKey_zip hws]
  rw [List.map_fst_zip (by simp [transpose]), List.map_snd_zip (by simp [transpose]), List.length_map,
    transpose_transpose (by rw [List.length_map, hp.length_eq])]
  intro r hr
  obtain ⟨p, h1, rfl⟩ := List.mem_map.1 hr
  exact hF p (hp.mem_iff.1 h1)

theorem symmetrize_rows {t : Table K} (h : WF t) :
    ∃ rows : List (K × List K), symmetrize t = .ok ⟨t.ws, rows.map (·.1), rows.map (·.2)⟩ ∧
      rows.Pairwise (fun p q => p.1 ≤ q.1) ∧
      rows.Perm (t.wa.zip t.bsps ++ ((t.wa.zip t.bsps).filter fun p => offAxis p.1).map mirror) := by
  have hfst : (t.wa.zip t.bsps).map (·.1) = t.wa := List.map_fst_zip (by rw [h.rows])
  obtain ⟨Z, R, H, S, hP, hZ, hH, hR, hS⟩ := split_axis (P := t.wa.zip t.bsps) (by rw [hfst]; exact h.wa_sorted)
    (fun p hp => h.wa_nonneg _ (List.of_mem_zip hp).1)
  set F := Z ++ R ++ S ++ (S.reverse.map mirror ++ H ++ R.reverse.map mirror) with hF
  have hfR : ∀ {L : List (K × List K)}, (∀ p ∈ L, p.1 ≠ 0 ∧ p.1 ≠ 180) → L.filter (fun p => offAxis p.1) = L := by
    intro L hL
    rw [List.filter_eq_self]
    exact fun p hp => (offAxis_iff _).2 (hL p hp)
  have hfZ : Z.filter (fun p => offAxis p.1) = [] := by
    rcases hZ with rfl | ⟨r, rfl⟩ <;> simp [offAxis]
  have hfH : H.filter (fun p => offAxis p.1) = [] := by
    rcases hH with rfl | ⟨r, rfl⟩ <;> simp [offAxis]
  have hperm : F.Perm (t.wa.zip t.bsps ++ ((t.wa.zip t.bsps).filter fun p => offAxis p.1).map mirror) := by
    rw [hP, List.filter_append, List.filter_append, List.filter_append, hfR hR, hfR hS, hfZ, hfH, hF, List.perm_iff_count]
    intro p
    simp only [List.count_append, List.map_append, List.map_reverse, List.count_reverse, List.map_nil, List.count_nil]
    omega
  have hmem : ∀ p ∈ F, (0 ≤ p.1 ∧ p.1 < 360) ∧ p.2.length = t.ws.length := by
    intro p hp
    rcases List.mem_append.1 (hperm.mem_iff.1 hp) with h1 | h1
    · have ha := (List.of_mem_zip (a := p.1) (b := p.2) h1)
      exact ⟨⟨h.wa_nonneg _ ha.1, h.wa_lt _ ha.1⟩, h.cols _ ha.2⟩
    · obtain ⟨q, hq, rfl⟩ := List.mem_map.1 h1
      rw [List.mem_filter, offAxis_iff] at hq
      have ha := (List.of_mem_zip (a := q.1) (b := q.2) hq.1)
      have h0 := lt_of_le_of_ne (h.wa_nonneg _ ha.1) (Ne.symm hq.2.1)
      have h1 := h.wa_lt _ ha.1
      simp only [mirror]
      exact ⟨⟨by linarith, by linarith⟩, h.cols _ ha.2⟩
  have hmod : ((F.map (·.1)).map fun a => pmod a 360) = F.map (·.1) := by
    rw [List.map_map]
    refine List.map_congr_left fun p hp => ?_
    exact pmod_of_mem (hmem p hp).1.1 (hmem p hp).1.2
  have hFne : F ≠ [] := by
    intro h0
    rw [h0] at hperm
    have := hperm.symm.eq_nil
    rw [List.append_eq_nil_iff] at this
    have h1 := congrArg (List.map Prod.fst) this.1
    rw [hfst] at h1
    exact h.wa_ne h1
  refine ⟨sortByKey F, ?_, ?_, (sortByKey_perm F).trans hperm⟩
  · rw [symmetrize_arrays hP h.rows hZ hH hR hS]
    have hneg : (t.ws.any fun x => decide (x < 0)) = false := by
      rw [List.any_eq_false]; intro w hw; simpa using h.ws_nonneg w hw
    have e1 : t.ws.isEmpty = false := by simpa using h.ws_ne
    have e2 : (F.map (·.1)).isEmpty = false := by simpa using hFne
    have hshape : goodShape (F.map (·.2)) t.ws (F.map (·.1)) = true := by
      simp only [goodShape, List.length_map, decide_true, Bool.true_and, List.all_eq_true, decide_eq_true_eq]
      intro r hr
      obtain ⟨p, hp, rfl⟩ := List.mem_map.1 hr
      exact (hmem p hp).2
    simp only [init, buildWs, buildWa, ← hF, e1, e2, hneg, hmod, hshape, Bool.false_eq_true, if_false, bind,
      Except.bind, not_true_eq_false, or_self]
    rw [sortTable_rows (h.ws_sorted.imp fun h => le_of_lt h) fun p hp => (hmem p hp).2]
  · exact List.pairwise_map.1 (sortByKey_sorted F)

theorem zip_fst_snd {α β : Type} (l : List (α × β)) : (l.map (·.1)).zip (l.map (·.2)) = l := by
  induction l with
  | nil => rfl
  | cons p l ih => simp [ih]

theorem mirrored_points (ws : List K) (P : List (K × List K)) :
    ((P.filter fun p => offAxis p.1).map mirror).flatMap (fun p => (ws.zip p.2).map fun q => ((q.1, p.1), q.2)) =
      ((P.flatMap fun p => (ws.zip p.2).map fun q => ((q.1, p.1), q.2)).filter fun p => offAxis p.1.2).map otherSide := by
  induction P with
  | nil => rfl
  | cons p P ih =>
    rw [List.flatMap_cons, List.filter_append, List.map_append, ← ih]
    have hall : ∀ q ∈ (ws.zip p.2).map (fun q => ((q.1, p.1), q.2)), offAxis q.1.2 = offAxis p.1 := by
      intro q hq
      obtain ⟨r, -, rfl⟩ := List.mem_map.1 hq
      rfl
    by_cases hp : offAxis p.1 = true
    · have e : ((ws.zip p.2).map (fun q => ((q.1, p.1), q.2))).filter (fun q => offAxis q.1.2) =
          (ws.zip p.2).map (fun q => ((q.1, p.1), q.2)) :=
        List.filter_eq_self.2 fun q hq => by rw [hall q hq]; exact hp
      rw [List.filter_cons_of_pos (p := fun q : K × List K => offAxis q.1) hp, List.map_cons, List.flatMap_cons, e, List.map_map]
      rfl
    · have e : ((ws.zip p.2).map (fun q => ((q.1, p.1), q.2))).filter (fun q => offAxis q.1.2) = [] :=
        List.filter_eq_nil_iff.2 fun q hq => by rw [hall q hq]; exact hp
      rw [List.filter_cons_of_neg (p := fun q : K × List K => offAxis q.1) hp, e]
      rfl

theorem length_indices (l : List K) (a : K) :
    ((List.range l.length).filter fun i => decide (l.getD i 0 ∈ [a])).length = l.count a := by
  have e : l = (List.range l.length).map fun i => l.getD i 0 := by
    refine List.ext_getElem (by simp) fun i hi hi' => ?_
    simp [List.getD_eq_getElem?_getD, hi]
  conv_rhs => rw [e]
  rw [List.count, List.countP_map, List.countP_eq_length_filter]
  congr 1
  refine List.filter_congr fun i _ => ?_
  simp [eq_comm, beq_eq_decide]

/-- Looking up an angle which is in the table more than once. -/
theorem get_double {t : Table K} (hws : t.ws.Pairwise (· < ·)) (h0 : ∀ w ∈ t.ws, 0 ≤ w) {w a : K} (hw : w ∈ t.ws)
    (ha : 1 < t.wa.count (pmod a 360)) : get t w a = .error .typeError := by
  obtain ⟨j, hj⟩ := List.getElem?_of_mem hw
  have hc := indices_single (hws.imp fun h => ne_of_lt h) hj
  have hmem : pmod a 360 ∈ t.wa := List.count_pos_iff.1 (by omega)
  have hr : indices t.wa [pmod a 360] =
      .ok ((List.range t.wa.length).filter fun i => decide (t.wa.getD i 0 ∈ [pmod a 360])) := by
    simp only [indices, List.isEmpty_cons, Bool.false_eq_true, if_false, List.all_cons, List.all_nil, hmem, decide_true,
      Bool.and_true, not_true_eq_false]
  have hl := length_indices t.wa (pmod a 360)
  have hneg : ¬ (w < 0) := not_lt.2 (h0 w hw)
  simp only [get, wsIndices, waIndices, List.any_cons, List.any_nil, Bool.or_false, hneg, decide_false, Bool.false_eq_true,
    if_false, List.map_cons, List.map_nil, hc, hr, bind, Except.bind]
  split
  · next i j' h1 h2 =>
    rw [h1] at hl
    simp only [List.length_singleton] at hl
    omega
  · simp

/-! ### Properties -/

/-- **C190.** `symmetrize` never raises, and no boat speed is lost or invented: the symmetric table consists of the points of the table
and of the mirror images of those off the axis. -/
theorem C190_points {t : Table K} (h : WF t) :
    ∃ t', symmetrize t = .ok t' ∧ Storable t' ∧ t'.ws = t.ws ∧
      t'.points.Perm (t.points ++ (t.points.filter fun p => offAxis p.1.2).map otherSide) := by
  obtain ⟨rows, h1, -, h3⟩ := symmetrize_rows h
  refine ⟨_, h1, ?_, rfl, ?_⟩
  · have hst : Storable t := ⟨h.ws_sorted.imp fun h => le_of_lt h, h.wa_sorted.imp fun h => le_of_lt h, h.ws_nonneg,
      fun a ha => ⟨h.wa_nonneg a ha, h.wa_lt a ha⟩, h.rows, h.cols, h.ws_ne, h.wa_ne⟩
    exact (symmetrize_storable (P := fun _ => True) (Q := fun _ => True) (fun _ _ => trivial) hst
      ⟨fun _ _ => trivial, fun _ _ => trivial, fun _ _ _ _ => trivial⟩ h1).1
  · simp only [points, zip_fst_snd]
    rw [← mirrored_points, ← List.flatMap_append]
    exact h3.flatMap_right _

theorem symmetrize_angles {t t' : Table K} (h : WF t) (hs : symmetrize t = .ok t') :
    t'.ws = t.ws ∧ t'.wa.Perm (t.wa ++ (t.wa.filter offAxis).map (360 - ·)) := by
  obtain ⟨rows, h1, -, h3⟩ := symmetrize_rows h
  rw [hs] at h1
  cases h1
  refine ⟨rfl, ?_⟩
  have hfst : (t.wa.zip t.bsps).map (·.1) = t.wa := List.map_fst_zip (by rw [h.rows])
  have h4 := h3.map (·.1)
  rw [List.map_append, hfst, List.map_map] at h4
  refine h4.trans (List.Perm.append_left _ (List.Perm.of_eq ?_))
  conv_rhs => rw [← hfst, List.filter_map, List.map_map]
  rfl

theorem count_mirrored {t : Table K} (h : WF t) (b : K) :
    ((t.wa.filter offAxis).map (360 - ·)).count b = if 360 - b ∈ t.wa ∧ offAxis (360 - b) = true then 1 else 0 := by
  have hinj : Function.Injective fun a : K => 360 - a := fun x y hxy => sub_right_injective hxy
  have e : b = (fun a : K => 360 - a) (360 - b) := by simp
  conv_lhs => rw [e]
  rw [List.count_map_of_injective _ _ hinj]
  have hn : (t.wa.filter offAxis).Nodup := (h.wa_sorted.imp fun h => ne_of_lt h).filter _
  rw [hn.count]
  simp only [List.mem_filter]

theorem offAxis_mirror (a : K) (h : a ≠ 360) (h' : offAxis a = true) : offAxis (360 - a) = true := by
  rw [offAxis_iff] at h' ⊢
  constructor
  · intro h0
    exact h (by linarith)
  · intro h0
    exact h'.2 (by linarith)

/-- **C190.** The symmetric table is a proper table, in which every angle occurs once, exactly if no angle off the axis is in the table
together with its mirror image: for example if all angles are on one side, be it the right or the left one. -/
theorem C190_proper {t t' : Table K} (h : WF t) (hs : symmetrize t = .ok t') : WF t' ↔ OneSided t := by
  obtain ⟨hws, hwa⟩ := symmetrize_angles h hs
  obtain ⟨t'', h1, h2, -⟩ := C190_points h
  rw [hs] at h1
  cases h1
  have hnd : t.wa.Nodup := h.wa_sorted.imp fun h => ne_of_lt h
  have hmn : ((t.wa.filter offAxis).map (360 - ·)).Nodup :=
    (hnd.filter _).map fun x y hxy => sub_right_injective hxy
  constructor
  · intro hw a ha ho hm
    have hn : t'.wa.Nodup := hw.wa_sorted.imp fun h => ne_of_lt h
    rw [hwa.nodup_iff, List.nodup_append'] at hn
    exact hn.2.2 hm (List.mem_map.2 ⟨a, List.mem_filter.2 ⟨ha, ho⟩, rfl⟩)
  · intro ho
    have hn : t'.wa.Nodup := by
      rw [hwa.nodup_iff, List.nodup_append']
      refine ⟨hnd, hmn, fun b hb hb' => ?_⟩
      obtain ⟨a, ha, rfl⟩ := List.mem_map.1 hb'
      rw [List.mem_filter] at ha
      exact ho a ha.1 ha.2 hb
    exact ⟨by rw [hws]; exact h.ws_sorted, pairwise_lt_of_le_nodup h2.wa_sorted hn, h2.ws_nonneg, fun a ha => (h2.wa_range a ha).1,
      fun a ha => (h2.wa_range a ha).2, h2.rows, h2.cols, h2.ws_ne, h2.wa_ne⟩

/-- **C190.** Otherwise `pd[ws, wa]` raises `TypeError` at the angles which are in the table together with their mirror images, on both
sides. -/
theorem C190_double {t t' : Table K} (h : WF t) (hs : symmetrize t = .ok t') {w a : K} (hw : w ∈ t.ws) (ha : a ∈ t.wa)
    (ho : offAxis a = true) (hm : 360 - a ∈ t.wa) :
    get t' w a = .error .typeError ∧ get t' w (360 - a) = .error .typeError := by
  obtain ⟨hws, hwa⟩ := symmetrize_angles h hs
  have hnd : t.wa.Nodup := h.wa_sorted.imp fun h => ne_of_lt h
  have key : ∀ b ∈ t.wa, offAxis b = true → 360 - b ∈ t.wa → get t' w b = .error .typeError := by
    intro b hb hob hmb
    refine get_double (by rw [hws]; exact h.ws_sorted) (by rw [hws]; exact h.ws_nonneg) (by rw [hws]; exact hw) ?_
    rw [pmod_of_mem (h.wa_nonneg b hb) (h.wa_lt b hb), hwa.count_eq, List.count_append, count_mirrored h,
      if_pos ⟨hmb, offAxis_mirror b (h.wa_lt b hb).ne hob⟩, List.count_eq_one_of_mem hnd hb]
    omega
  exact ⟨key a ha ho hm, key _ hm (offAxis_mirror a (h.wa_lt a ha).ne ho) (by rw [sub_sub_cancel]; exact ha)⟩

/-- **C190.** So a table must not be symmetrised twice: afterwards all its angles off the axis raise. -/
theorem C190_twice {t t' t'' : Table K} (h : WF t) (h1 : symmetrize t = .ok t') (ho : OneSided t) (h2 : symmetrize t' = .ok t'')
    {w a : K} (hw : w ∈ t.ws) (ha : a ∈ t.wa) (hoa : offAxis a = true) :
    get t'' w a = .error .typeError ∧ get t'' w (360 - a) = .error .typeError := by
  have hw' := (C190_proper h h1).2 ho
  obtain ⟨hws, hwa⟩ := symmetrize_angles h h1
  refine C190_double hw' h2 (by rw [hws]; exact hw) (hwa.mem_iff.2 (List.mem_append_left _ ha)) hoa ?_
  exact hwa.mem_iff.2 (List.mem_append_right _ (List.mem_map.2 ⟨a, List.mem_filter.2 ⟨ha, hoa⟩, rfl⟩))

/-- **C190.** For tables without such angles every boat speed is found at the angle and at its mirror image. -/
theorem C190_lookup {t t' : Table K} (h : WF t) (hs : symmetrize t = .ok t') (ho : OneSided t) {w a : K} (hw : w ∈ t.ws)
    (ha : a ∈ t.wa) : ∃ x, get t w a = .ok x ∧ get t' w a = .ok x ∧ get t' w (360 - a) = .ok x := by
  have hw' := (C190_proper h hs).2 ho
  obtain ⟨rows, h1, -, h3⟩ := symmetrize_rows h
  rw [hs] at h1
  cases h1
  obtain ⟨j, hj⟩ := List.getElem?_of_mem hw
  obtain ⟨i, hi⟩ := List.getElem?_of_mem ha
  have hil : i < t.bsps.length := by rw [h.rows]; exact (List.getElem?_eq_some_iff.1 hi).1
  have hr := List.getElem?_eq_getElem hil
  have hjl : j < (t.bsps[i]).length := by
    rw [h.cols _ (List.getElem_mem hil)]; exact (List.getElem?_eq_some_iff.1 hj).1
  have hx := List.getElem?_eq_getElem hjl
  have hmem : (a, t.bsps[i]) ∈ t.wa.zip t.bsps :=
    List.mem_of_getElem? (i := i) (by rw [List.getElem?_zip_eq_some]; exact ⟨hi, hr⟩)
  have hrow : ∀ b c : K, pmod c 360 = b → (b, t.bsps[i]) ∈ rows →
      get ⟨t.ws, rows.map (·.1), rows.map (·.2)⟩ w c = .ok (t.bsps[i])[j] := by
    intro b c hc hb
    obtain ⟨k, hk⟩ := List.getElem?_of_mem hb
    exact get_entry hw' (i := k) (j := j) hj (by simp [hk, hc]) (by simp [hk]) hx
  have ha0 := h.wa_nonneg a ha
  have ha1 := h.wa_lt a ha
  have hself := hrow a a (pmod_of_mem ha0 ha1) (h3.mem_iff.2 (List.mem_append_left _ hmem))
  refine ⟨_, get_entry h hj (by rw [pmod_of_mem ha0 ha1]; exact hi) hr hx, hself, ?_⟩
  by_cases hoa : offAxis a = true
  · have h0 : 0 < a := lt_of_le_of_ne ha0 (Ne.symm ((offAxis_iff a).1 hoa).1)
    refine hrow (360 - a) _ (pmod_of_mem (by linarith) (by linarith)) (h3.mem_iff.2 (List.mem_append_right _ ?_))
    exact List.mem_map.2 ⟨(a, t.bsps[i]), List.mem_filter.2 ⟨hmem, hoa⟩, rfl⟩
  · rw [offAxis_iff] at hoa
    push Not at hoa
    by_cases h0 : a = 0
    · refine hrow a _ ?_ (h3.mem_iff.2 (List.mem_append_left _ hmem))
      rw [h0, sub_zero, pmod_self (by norm_num)]
    · refine hrow a _ ?_ (h3.mem_iff.2 (List.mem_append_left _ hmem))
      rw [hoa h0, show (360 : K) - 180 = 180 by norm_num, pmod_of_mem (by norm_num) (by norm_num)]

/-- Angles on the left side, on the axis, and on both sides. -/
example : OneSided (⟨[6], [0, 180, 200, 300], [[0], [1], [2], [3]]⟩ : Table ℚ) ∧
    (symmetrize (⟨[6], [0, 180, 200, 300], [[0], [1], [2], [3]]⟩ : Table ℚ)).toOption =
      some ⟨[6], [0, 60, 160, 180, 200, 300], [[0], [3], [2], [1], [2], [3]]⟩ ∧
    ¬ OneSided (⟨[6], [60, 200, 300], [[1], [2], [3]]⟩ : Table ℚ) ∧
    (symmetrize (⟨[6], [60, 200, 300], [[1], [2], [3]]⟩ : Table ℚ)).toOption =
      some ⟨[6], [60, 60, 160, 200, 300, 300], [[1], [3], [2], [2], [3], [1]]⟩ := by
  refine ⟨?_, by decide +kernel, fun h => ?_, by decide +kernel⟩
  · unfold OneSided
    decide +kernel
  · exact h 60 (by decide +kernel) (by decide +kernel) (by decide +kernel)

end Verif.Table
