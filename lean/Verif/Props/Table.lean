import Mathlib.Data.Rat.Defs
import Mathlib.Algebra.Order.Ring.Rat
import Mathlib.Data.Rat.Floor
import Verif.Lemmas.Table

/-!
# Properties C31 to C33: tables
-/

set_option linter.unusedSectionVars false

namespace Verif.Table

variable {K : Type} [Field K] [LinearOrder K] [IsStrictOrderedRing K] [FloorRing K]

/-! ### C31 -/

/-- **C31.** A table constructed from wind speeds `ws` and wind angles `wa` in any order (distinct, the angles after
reduction modulo 360) returns for the wind `(ws[j], wa[i])`, and for all angles which differ from `wa[i]` by a multiple
of 360, the entry `bsps[i][j]`; it stores the given winds in ascending order. -/
theorem C31_lookup {ws wa : List K} {bsps : List (List K)} (hws : ws ≠ []) (hwa : wa ≠ []) (h0 : ∀ w ∈ ws, 0 ≤ w)
    (hwsn : ws.Nodup) (hwan : (wa.map fun a => pmod a 360).Nodup) (hlen : bsps.length = wa.length)
    (hcols : ∀ r ∈ bsps, r.length = ws.length) :
    ∃ t, init (.values ws) (.values wa) (some bsps) = .ok t ∧
      t.ws.Pairwise (· < ·) ∧ t.ws.Perm ws ∧ t.wa.Pairwise (· < ·) ∧ t.wa.Perm (wa.map fun a => pmod a 360) ∧
      (t.bsps.length = t.wa.length ∧ ∀ r ∈ t.bsps, r.length = t.ws.length) ∧
      ∀ (i j : Nat) (hi : i < wa.length) (hj : j < ws.length) (k : Int),
        get t ws[j] (wa[i] + 360 * k) = .ok ((bsps[i]'(hlen ▸ hi))[j]'(by rw [hcols _ (List.getElem_mem _)]; exact hj)) := by
  obtain ⟨t, h1, hwf, p1, p2, h2⟩ := init_spec hws hwa h0 hwsn hwan hlen hcols
  refine ⟨t, h1, hwf.ws_sorted, p1, hwf.wa_sorted, p2, ⟨hwf.rows, hwf.cols⟩, ?_⟩
  intro i j hi hj k
  have := h2 i j wa[i] ws[j] _ _ (List.getElem?_eq_getElem hi) (List.getElem?_eq_getElem hj)
    (List.getElem?_eq_getElem (hlen ▸ hi)) (List.getElem?_eq_getElem (by rw [hcols _ (List.getElem_mem _)]; exact hj))
  rw [← this]
  simp only [get, waIndices, List.map_cons, List.map_nil, pmod_add_mul wa[i] (show (0 : K) < 360 by norm_num) k]

/-- **C31.** Looking up a wind which is not in the table raises `ValueError`. -/
theorem C31_missing (t : Table K) {w a : K} (h : w ∉ t.ws ∨ pmod a 360 ∉ t.wa) : get t w a = .error .valueError :=
  get_missing h

/-- **C31.** Empty resolutions, negative wind speeds and boat speeds of the wrong shape raise `ValueError`. -/
theorem C31_raises (ws wa : List K) (bsps : List (List K))
    (h : ws = [] ∨ wa = [] ∨ (∃ w ∈ ws, w < 0) ∨ bsps.length ≠ wa.length ∨ ∃ r ∈ bsps, r.length ≠ ws.length) :
    init (.values ws) (.values wa) (some bsps) = .error .valueError := by
  by_cases h1 : ws = []
  · simp [init, buildWs, h1, bind, Except.bind]
  by_cases h2 : ∃ w ∈ ws, w < 0
  · have : (ws.any fun x => decide (x < 0)) = true := by simpa using h2
    simp [init, buildWs, h1, this, bind, Except.bind]
  have hneg : (ws.any fun x => decide (x < 0)) = false := by
    rw [Bool.eq_false_iff]; simpa using h2
  by_cases h3 : wa = []
  · simp [init, buildWs, buildWa, h1, hneg, h3, bind, Except.bind]
  have h4 := ((h.resolve_left h1).resolve_left h3).resolve_left h2
  have hsh : goodShape bsps ws (wa.map fun x => pmod x 360) = false := by
    rw [Bool.eq_false_iff]
    intro hg
    simp only [goodShape, List.length_map, Bool.and_eq_true, decide_eq_true_eq, List.all_eq_true] at hg
    rcases h4 with h4 | ⟨r, hr, h4⟩
    · exact h4 hg.1
    · exact h4 (hg.2 r hr)
  simp [init, buildWs, buildWa, h1, h3, hneg, hsh, bind, Except.bind]

/-- **C31.** Without boat speeds the table contains only zeros. -/
theorem C31_zero {ws wa : List K} (hws : ws ≠ []) (hwa : wa ≠ []) (h0 : ∀ w ∈ ws, 0 ≤ w)
    (hwsn : ws.Nodup) (hwan : (wa.map fun a => pmod a 360).Nodup) :
    ∃ t, init (.values ws) (.values wa) none = .ok t ∧ ∀ w ∈ ws, ∀ a ∈ wa, get t w a = .ok 0 := by
  have hneg : (ws.any fun x => decide (x < 0)) = false := by
    rw [List.any_eq_false]; intro w hw; simpa using h0 w hw
  refine ⟨⟨ws.insertionSort (· ≤ ·), (wa.map fun x => pmod x 360).insertionSort (· ≤ ·),
    List.replicate (wa.map fun x => pmod x 360).length (List.replicate ws.length 0)⟩,
    by simp [init, buildWs, buildWa, hws, hwa, hneg, bind, Except.bind], ?_⟩
  intro w hw a ha
  have p1 := List.perm_insertionSort (· ≤ ·) ws
  have p2 := List.perm_insertionSort (· ≤ ·) (wa.map fun x => pmod x 360)
  have hwf : WF (⟨ws.insertionSort (· ≤ ·), (wa.map fun x => pmod x 360).insertionSort (· ≤ ·),
    List.replicate (wa.map fun x => pmod x 360).length (List.replicate ws.length 0)⟩ : Table K) := by
    refine ⟨pairwise_lt_of_le_nodup (List.pairwise_insertionSort _ _) (p1.nodup_iff.2 hwsn),
      pairwise_lt_of_le_nodup (List.pairwise_insertionSort _ _) (p2.nodup_iff.2 hwan),
      fun w hw => h0 w (p1.mem_iff.1 hw), ?_, ?_, ?_, ?_, ?_, ?_⟩
    · intro a ha
      obtain ⟨b, -, rfl⟩ := List.mem_map.1 (p2.mem_iff.1 ha)
      exact pmod_nonneg b (by norm_num)
    · intro a ha
      obtain ⟨b, -, rfl⟩ := List.mem_map.1 (p2.mem_iff.1 ha)
      exact pmod_lt b (by norm_num)
    · simp [p2.length_eq]
    · intro r hr
      rw [List.eq_of_mem_replicate hr]
      simp [p1.length_eq]
    · intro h
      exact hws ((show ws.insertionSort (· ≤ ·) = [] from h) ▸ p1).symm.eq_nil
    · intro h
      have := ((show (wa.map fun x => pmod x 360).insertionSort (· ≤ ·) = [] from h) ▸ p2).symm.eq_nil
      exact hwa (by simpa using this)
  obtain ⟨j, hj, hj'⟩ := List.getElem_of_mem (p1.mem_iff.2 hw)
  obtain ⟨i, hi, hi'⟩ := List.getElem_of_mem (p2.mem_iff.2 (List.mem_map_of_mem (f := fun x => pmod x 360) ha))
  have hj2 : j < ws.length := by rw [← p1.length_eq]; exact hj
  have hi2 : i < (wa.map fun x => pmod x 360).length := by rw [← p2.length_eq]; exact hi
  refine get_entry hwf (j := j) (i := i) (r := List.replicate ws.length 0) ?_ ?_ ?_ ?_
  · rw [List.getElem?_eq_getElem hj, hj']
  · rw [List.getElem?_eq_getElem hi, hi']
  · simp only [List.length_map] at hi2
    simp [List.getElem?_replicate, hi2]
  · simp [List.getElem?_replicate, hj2]

/-- An unsorted table. -/
example : ∃ t, init (.values [(8 : Rat), 6]) (.values [90, -10]) (some [[1, 2], [3, 4]]) = .ok t ∧
    t = ⟨[6, 8], [90, 350], [[2, 1], [4, 3]]⟩ ∧ get t 8 350 = .ok 3 ∧ get t 8 90 = .ok 1 ∧
    get t 7 90 = .error .valueError := by
  refine ⟨_, rfl, ?_⟩
  decide +kernel

/-! ### C32 -/

/-- `cnt cols s n`: the number of selected indices among `s, …, s + n - 1`. -/
def cnt (cols : List Nat) (s n : Nat) : Nat := (List.range' s n).countP (fun j => decide (j ∈ cols))

theorem cnt_succ (cols : List Nat) (s n : Nat) :
    cnt cols s (n + 1) = (if s ∈ cols then 1 else 0) + cnt cols (s + 1) n := by
  simp only [cnt, List.range'_succ, List.countP_cons, decide_eq_true_eq]
  split <;> omega

theorem assignRow_spec (cols : List Nat) : ∀ (row : List K) (j : Nat) (vals : List K),
    cnt cols j row.length ≤ vals.length →
    (assignRow cols j row vals).2 = vals.drop (cnt cols j row.length) ∧
    (assignRow cols j row vals).1.length = row.length ∧
    ∀ (k : Nat) (x : K), row[k]? = some x →
      (assignRow cols j row vals).1[k]? = if j + k ∈ cols then vals[cnt cols j k]? else some x := by
  intro row
  induction row with
  | nil => intro j vals h; simp [assignRow, cnt]
  | cons x row ih =>
    intro j vals h
    rw [List.length_cons, cnt_succ] at h
    by_cases hj : j ∈ cols
    · simp only [hj, if_true] at h
      match vals, h with
      | v :: vals, h =>
        obtain ⟨h1, h2, h3⟩ := ih (j + 1) vals (by simp only [List.length_cons] at h; omega)
        simp only [assignRow, hj, if_true, List.tail_cons, List.headD_cons]
        refine ⟨?_, by simp [h2], ?_⟩
        · rw [h1, List.length_cons, cnt_succ]; simp [hj, Nat.add_comm 1]
        · intro k y hk
          cases k with
          | zero => simp [hj, cnt]
          | succ k =>
            simp only [List.getElem?_cons_succ] at hk ⊢
            rw [h3 k y hk, cnt_succ]
            simp only [hj, if_true, Nat.add_comm 1, List.getElem?_cons_succ]
            rw [show j + 1 + k = j + (k + 1) by omega]
      | [], h => simp at h
    · simp only [hj, if_false, Nat.zero_add] at h
      obtain ⟨h1, h2, h3⟩ := ih (j + 1) vals h
      simp only [assignRow, hj, if_false]
      refine ⟨?_, by simp [h2], ?_⟩
      · rw [h1, List.length_cons, cnt_succ]; simp [hj]
      · intro k y hk
        cases k with
        | zero => simpa [hj] using hk
        | succ k =>
          simp only [List.getElem?_cons_succ] at hk ⊢
          rw [h3 k y hk, cnt_succ]
          simp only [hj, if_false, Nat.zero_add]
          rw [show j + 1 + k = j + (k + 1) by omega]

theorem assign_spec (rows cols : List Nat) (n : Nat) : ∀ (bsps : List (List K)) (i : Nat) (vals : List K),
    (∀ r ∈ bsps, r.length = n) → cnt rows i bsps.length * cnt cols 0 n ≤ vals.length →
    (assign rows cols i bsps vals).length = bsps.length ∧
    ∀ (k : Nat) (r : List K), bsps[k]? = some r →
      (assign rows cols i bsps vals)[k]? = if i + k ∈ rows then
        some (assignRow cols 0 r (vals.drop (cnt rows i k * cnt cols 0 n))).1 else some r := by
  intro bsps
  induction bsps with
  | nil => intro i vals _ _; simp [assign]
  | cons row bsps ih =>
    intro i vals hn h
    have hrow : row.length = n := hn row (by simp)
    have hn' : ∀ r ∈ bsps, r.length = n := fun r hr => hn r (by simp [hr])
    rw [List.length_cons, cnt_succ] at h
    by_cases hi : i ∈ rows
    · simp only [hi, if_true, Nat.add_mul, Nat.one_mul] at h
      have hsp := (assignRow_spec cols row 0 vals (by rw [hrow]; omega)).1
      rw [hrow] at hsp
      obtain ⟨h1, h2⟩ := ih (i + 1) (vals.drop (cnt cols 0 n)) hn' (by rw [List.length_drop]; omega)
      simp only [assign, hi, if_true, hsp]
      refine ⟨by simp [h1], ?_⟩
      intro k r hk
      cases k with
      | zero =>
        simp only [List.getElem?_cons_zero, Option.some.injEq] at hk
        subst hk
        simp [hi, cnt]
      | succ k =>
        simp only [List.getElem?_cons_succ] at hk ⊢
        rw [h2 k r hk, cnt_succ]
        simp only [hi, if_true, List.drop_drop, Nat.add_mul, Nat.one_mul]
        rw [show i + 1 + k = i + (k + 1) by omega]
    · simp only [hi, if_false, Nat.zero_add] at h
      obtain ⟨h1, h2⟩ := ih (i + 1) vals hn' h
      simp only [assign, hi, if_false]
      refine ⟨by simp [h1], ?_⟩
      intro k r hk
      cases k with
      | zero => simpa [hi] using hk
      | succ k =>
        simp only [List.getElem?_cons_succ] at hk ⊢
        rw [h2 k r hk, cnt_succ]
        simp only [hi, if_false, Nat.zero_add]
        rw [show i + 1 + k = i + (k + 1) by omega]

/-- The wind speed `w` is selected by the argument `ws` (`None` selects all). -/
def SelWs (ws : Option (List K)) (w : K) : Bool :=
  match ws with
  | none => true
  | some l => decide (w ∈ l)

/-- The wind angle `a` is selected by the argument `wa`, whose entries count modulo 360. -/
def SelWa (wa : Option (List K)) (a : K) : Bool :=
  match wa with
  | none => true
  | some l => l.any fun b => decide (pmod b 360 = a)

/-- The value given for the `r`-th selected wind angle and the `c`-th selected wind speed of `m`. -/
def entryOf (new : NewBsps K) (m r c : Nat) : Option K :=
  match new with
  | .d1 l => l[r * m + c]?
  | .d2 rows => (rows[r]?).bind (·[c]?)

theorem indices_ok {res sel : List K} {out : List Nat} (h : indices res sel = .ok out) :
    out = (List.range res.length).filter fun i => decide (res.getD i 0 ∈ sel) := by
  simp only [indices] at h
  split at h
  · cases h
  · split at h
    · cases h
    · cases h; rfl

theorem wsIndices_ok {t : Table K} {ws : Option (List K)} {out : List Nat} (h : wsIndices t ws = .ok out) :
    out = (List.range t.ws.length).filter fun i => SelWs ws (t.ws.getD i 0) := by
  cases ws with
  | none => simp only [wsIndices] at h; cases h; simp [SelWs]
  | some l =>
    simp only [wsIndices] at h
    split at h
    · cases h
    · rw [indices_ok h]; rfl

theorem waIndices_ok {t : Table K} {wa : Option (List K)} {out : List Nat} (h : waIndices t wa = .ok out) :
    out = (List.range t.wa.length).filter fun i => SelWa wa (t.wa.getD i 0) := by
  cases wa with
  | none => simp only [waIndices] at h; cases h; simp [SelWa]
  | some l =>
    simp only [waIndices] at h
    rw [indices_ok h]
    apply List.filter_congr
    intro i _
    rw [Bool.eq_iff_iff]
    simp only [SelWa, decide_eq_true_eq, List.mem_map, List.any_eq_true]

theorem countP_take (l : List K) (p : K → Bool) : ∀ n, n ≤ l.length →
    (l.take n).countP p = cnt ((List.range l.length).filter fun i => p (l.getD i 0)) 0 n := by
  intro n
  induction n with
  | zero => simp [cnt]
  | succ n ih =>
    intro hn
    have hlt : n < l.length := hn
    rw [List.take_add_one, List.countP_append, ih (by omega), List.getElem?_eq_getElem hlt]
    simp only [cnt, List.range'_1_concat, List.countP_append, Nat.zero_add]
    congr 1
    simp [List.countP_cons, List.mem_filter, hlt]

theorem countP_all (l : List K) (p : K → Bool) :
    ((List.range l.length).filter fun i => p (l.getD i 0)).length = l.countP p ∧
    cnt ((List.range l.length).filter fun i => p (l.getD i 0)) 0 l.length = l.countP p := by
  have h := countP_take l p l.length le_rfl
  rw [List.take_length] at h
  refine ⟨?_, h.symm⟩
  rw [h, cnt, ← List.countP_eq_length_filter, ← List.range_eq_range']
  apply List.countP_congr
  intro i hi
  have := List.mem_range.1 hi
  simp [List.mem_filter, this]

theorem flatten_getElem? {m : Nat} : ∀ {rows : List (List K)} (_ : ∀ r ∈ rows, r.length = m) (r c : Nat), c < m →
    rows.flatten[r * m + c]? = (rows[r]?).bind (·[c]?) := by
  intro rows
  induction rows with
  | nil => intro _ r c _; simp
  | cons x rows ih =>
    intro h r c hc
    have hx : x.length = m := h x (by simp)
    cases r with
    | zero => simp [List.getElem?_append_left, hx, hc]
    | succ r =>
      rw [List.flatten_cons, List.getElem?_append_right (by rw [hx, Nat.add_mul]; omega), hx,
        show (r + 1) * m + c - m = r * m + c by rw [Nat.add_mul]; omega, ih (fun r hr => h r (by simp [hr])) r c hc]
      simp

theorem correctShape_flat {new : NewBsps K} {n m : Nat} (h : correctShape new m n = true) :
    new.flat.length = n * m ∧ ∀ r c, r < n → c < m → new.flat[r * m + c]? = entryOf new m r c := by
  cases new with
  | d1 l =>
    refine ⟨?_, fun r c _ _ => rfl⟩
    simp only [correctShape, NewBsps.isShape1, NewBsps.isShape2] at h
    split at h
    · next h' => obtain ⟨rfl, rfl⟩ := h'; simpa [NewBsps.flat] using h
    · split at h
      · next h' => subst h'; simpa [NewBsps.flat] using h
      · split at h
        · next h' => subst h'; simpa [NewBsps.flat] using h
        · cases h
  | d2 rows =>
    simp only [correctShape, NewBsps.isShape1, NewBsps.isShape2] at h
    split at h
    · cases h
    · split at h
      · cases h
      · split at h
        · cases h
        · simp only [Bool.and_eq_true, decide_eq_true_eq, List.all_eq_true] at h
          refine ⟨?_, fun r c _ hc => flatten_getElem? h.2 r c hc⟩
          simp only [NewBsps.flat, List.length_flatten]
          rw [show rows.map List.length = List.replicate rows.length m from
            List.eq_replicate_iff.2 ⟨by simp, fun b hb => by
              obtain ⟨r, hr, rfl⟩ := List.mem_map.1 hb; exact h.2 r hr⟩]
          simp [h.1]

/-- **C32.** After a successful call the winds are unchanged; the entry for a selected wind is the given value, where
the values are taken row by row for ascending wind angles and speeds; all other entries are unchanged. -/
theorem C32_change {t t' : Table K} (hrows : t.bsps.length = t.wa.length) (hcols : ∀ r ∈ t.bsps, r.length = t.ws.length)
    {new : NewBsps K} {ws wa : Option (List K)} (h : changeEntries t new ws wa = (t', none)) :
    t'.ws = t.ws ∧ t'.wa = t.wa ∧ t'.bsps.length = t.bsps.length ∧
    ∀ (i j : Nat) (a w x : K) (r : List K), t.wa[i]? = some a → t.ws[j]? = some w → t.bsps[i]? = some r →
      r[j]? = some x → ∃ r' y, t'.bsps[i]? = some r' ∧ r'[j]? = some y ∧ r'.length = r.length ∧
      ((SelWa wa a = true ∧ SelWs ws w = true → entryOf new (t.ws.countP (SelWs ws))
          ((t.wa.take i).countP (SelWa wa)) ((t.ws.take j).countP (SelWs ws)) = some y) ∧
       (¬ (SelWa wa a = true ∧ SelWs ws w = true) → y = x)) := by
  simp only [changeEntries] at h
  split at h
  · cases h
  · next cols hc =>
    split at h
    · cases h
    · next rows hr =>
      split at h
      · cases h
      · next hs =>
        rw [not_not] at hs
        obtain ⟨rfl, -⟩ := Prod.mk.inj h
        have hc' := wsIndices_ok hc
        have hr' := waIndices_ok hr
        obtain ⟨c1, c2⟩ := countP_all t.ws (SelWs ws)
        obtain ⟨r1, r2⟩ := countP_all t.wa (SelWa wa)
        rw [← hc'] at c1 c2
        rw [← hr'] at r1 r2
        rw [c1, r1] at hs
        obtain ⟨hfl, hent⟩ := correctShape_flat hs
        obtain ⟨a1, a2⟩ := assign_spec rows cols t.ws.length t.bsps 0 new.flat hcols
          (by rw [hrows, r2, c2, hfl])
        refine ⟨rfl, rfl, a1, ?_⟩
        intro i j a w x r ha hw hrr hx
        have hi : i < t.wa.length := (List.getElem?_eq_some_iff.1 ha).1
        have hj : j < t.ws.length := (List.getElem?_eq_some_iff.1 hw).1
        have ha' : t.wa.getD i 0 = a := by simp [List.getD_eq_getElem?_getD, ha]
        have hw' : t.ws.getD j 0 = w := by simp [List.getD_eq_getElem?_getD, hw]
        have mi : i ∈ rows ↔ SelWa wa a = true := by
          rw [hr', List.mem_filter, List.mem_range, ha']; exact ⟨fun h => h.2, fun h => ⟨hi, h⟩⟩
        have mj : j ∈ cols ↔ SelWs ws w = true := by
          rw [hc', List.mem_filter, List.mem_range, hw']; exact ⟨fun h => h.2, fun h => ⟨hj, h⟩⟩
        have ei := a2 i r hrr
        have rl : r.length = t.ws.length := hcols r (List.mem_of_getElem? hrr)
        have tk1 := countP_take t.wa (SelWa wa) i hi.le
        have tk2 := countP_take t.ws (SelWs ws) j hj.le
        rw [← hr'] at tk1
        rw [← hc'] at tk2
        rw [Nat.zero_add] at ei
        by_cases si : i ∈ rows
        · rw [if_pos si] at ei
          have hlt : (t.wa.take i).countP (SelWa wa) < t.wa.countP (SelWa wa) := by
            conv_rhs => rw [← List.take_append_drop i t.wa]
            rw [List.countP_append]
            have : 0 < (t.wa.drop i).countP (SelWa wa) := by
              rw [List.countP_pos_iff]
              refine ⟨a, ?_, mi.1 si⟩
              exact List.mem_of_getElem? (i := 0) (by simpa using ha)
            omega
          have hmul : (cnt rows 0 i + 1) * cnt cols 0 t.ws.length ≤ new.flat.length := by
            rw [hfl, ← tk1, c2]
            exact Nat.mul_le_mul_right _ hlt
          rw [Nat.add_mul, Nat.one_mul] at hmul
          obtain ⟨b1, b2, b3⟩ := assignRow_spec cols r 0
            (new.flat.drop (cnt rows 0 i * cnt cols 0 t.ws.length)) (by rw [rl, List.length_drop]; omega)
          have ej := b3 j x hx
          rw [Nat.zero_add] at ej
          by_cases sj : j ∈ cols
          · rw [if_pos sj] at ej
            have hltj : (t.ws.take j).countP (SelWs ws) < t.ws.countP (SelWs ws) := by
              conv_rhs => rw [← List.take_append_drop j t.ws]
              rw [List.countP_append]
              have : 0 < (t.ws.drop j).countP (SelWs ws) := by
                rw [List.countP_pos_iff]
                refine ⟨w, ?_, mj.1 sj⟩
                exact List.mem_of_getElem? (i := 0) (by simpa using hw)
              omega
            rw [List.getElem?_drop, ← tk1, ← tk2, c2, hent _ _ hlt hltj] at ej
            have hjl : j < (assignRow cols 0 r (new.flat.drop (cnt rows 0 i * cnt cols 0 t.ws.length))).1.length := by
              rw [b2, rl]; exact hj
            refine ⟨_, _, ei, List.getElem?_eq_getElem hjl, b2, ?_, ?_⟩
            · intro _
              rw [← List.getElem?_eq_getElem hjl, ← ej]
              rw [tk1, c2]
            · intro hn; exact absurd ⟨mi.1 si, mj.1 sj⟩ hn
          · rw [if_neg sj] at ej
            exact ⟨_, x, ei, ej, b2, fun hs => absurd (mj.2 hs.2) sj, fun _ => rfl⟩
        · rw [if_neg si] at ei
          exact ⟨r, x, ei, hx, rfl, fun hs => absurd (mi.2 hs.1) si, fun _ => rfl⟩

/-- **C32.** A call which raises leaves the table unchanged. -/
theorem C32_raises_unchanged {t t' : Table K} {new : NewBsps K} {ws wa : Option (List K)} {e : PyErr}
    (h : changeEntries t new ws wa = (t', some e)) : t' = t := by
  simp only [changeEntries] at h
  split at h
  · exact (Prod.mk.inj h).1.symm
  · split at h
    · exact (Prod.mk.inj h).1.symm
    · split at h
      · exact (Prod.mk.inj h).1.symm
      · simp at h

theorem indices_isOk {res sel : List K} :
    (∃ out, indices res sel = .ok out) ↔ sel ≠ [] ∧ ∀ w ∈ sel, w ∈ res := by
  simp only [indices]
  by_cases h1 : sel = []
  · simp [h1]
  · by_cases h2 : ∀ w ∈ sel, w ∈ res
    · have : (sel.all fun w => decide (w ∈ res)) = true := by simpa using h2
      simp only [List.isEmpty_iff, h1, if_false, this, not_true_eq_false]
      exact ⟨fun _ => ⟨by simpa using h1, h2⟩, fun _ => ⟨_, rfl⟩⟩
    · have : (sel.all fun w => decide (w ∈ res)) = false := by
        rw [Bool.eq_false_iff]; simpa using h2
      simp [h1, this, h2]

/-- **C32.** The call succeeds exactly if the selected winds are in the table and the values have the shape (selected
angles, selected speeds), where an axis of length one is dropped. -/
theorem C32_succeeds {t : Table K} (hws : ∀ w ∈ t.ws, 0 ≤ w) (new : NewBsps K) (ws wa : Option (List K)) :
    (∃ t', changeEntries t new ws wa = (t', none)) ↔
      (∀ l, ws = some l → l ≠ [] ∧ ∀ w ∈ l, w ∈ t.ws) ∧
      (∀ l, wa = some l → l ≠ [] ∧ ∀ a ∈ l, pmod a 360 ∈ t.wa) ∧
      correctShape new (t.ws.countP (SelWs ws)) (t.wa.countP (SelWa wa)) = true := by
  have e1 : (∃ out, wsIndices t ws = .ok out) ↔ ∀ l, ws = some l → l ≠ [] ∧ ∀ w ∈ l, w ∈ t.ws := by
    cases ws with
    | none => simp [wsIndices]
    | some l =>
      simp only [wsIndices, Option.some.injEq, forall_eq']
      rw [← indices_isOk]
      split
      · next hn =>
        simp only [reduceCtorEq, exists_false, false_iff]
        rw [indices_isOk]
        rintro ⟨-, h2⟩
        obtain ⟨w, hw, hneg⟩ := List.any_eq_true.1 hn
        exact absurd (hws w (h2 w hw)) (not_le.2 (by simpa using hneg))
      · exact Iff.rfl
  have e2 : (∃ out, waIndices t wa = .ok out) ↔ ∀ l, wa = some l → l ≠ [] ∧ ∀ a ∈ l, pmod a 360 ∈ t.wa := by
    cases wa with
    | none => simp [waIndices]
    | some l =>
      simp only [waIndices, Option.some.injEq, forall_eq']
      rw [indices_isOk]
      simp
  rw [← e1, ← e2]
  simp only [changeEntries]
  cases hc : wsIndices t ws with
  | error e => simp
  | ok cols =>
    cases hr : waIndices t wa with
    | error e => simp
    | ok rows =>
      have c1 := (countP_all t.ws (SelWs ws)).1
      have r1 := (countP_all t.wa (SelWa wa)).1
      rw [← wsIndices_ok hc] at c1
      rw [← waIndices_ok hr] at r1
      simp only [c1, r1]
      by_cases hs : correctShape new (t.ws.countP (SelWs ws)) (t.wa.countP (SelWa wa)) = true
      · simp [hs]
      · simp [hs]

/-- A column and a block. -/
example : changeEntries (⟨[6, 8], [0, 90], [[1, 2], [3, 4]]⟩ : Table Rat) (.d1 [5, 7]) (some [8]) none =
    (⟨[6, 8], [0, 90], [[1, 5], [3, 7]]⟩, none) := by decide +kernel

example : changeEntries (⟨[6, 8, 9], [0, 90, 180], [[1, 2, 3], [3, 4, 5], [6, 7, 8]]⟩ : Table Rat)
    (.d2 [[10, 11], [12, 13]]) (some [9, 6]) (some [180, 360]) =
    (⟨[6, 8, 9], [0, 90, 180], [[10, 2, 11], [3, 4, 5], [12, 7, 13]]⟩, none) := by decide +kernel

/-! ### C33 -/

theorem decomp {α : Type} : ∀ {P : List (K × α)} (_ : (P.map (·.1)).Pairwise (· < ·))
    (_ : ∀ p ∈ P, 0 ≤ p.1 ∧ p.1 ≤ 180),
    ∃ Z M H, P = Z ++ M ++ H ∧ (Z = [] ∨ ∃ r, Z = [(0, r)]) ∧ (H = [] ∨ ∃ r, H = [(180, r)]) ∧
      ∀ p ∈ M, 0 < p.1 ∧ p.1 < 180 := by
  have main : ∀ {P : List (K × α)} (_ : (P.map (·.1)).Pairwise (· < ·)) (_ : ∀ p ∈ P, 0 < p.1 ∧ p.1 ≤ 180),
      ∃ M H, P = M ++ H ∧ (H = [] ∨ ∃ r, H = [(180, r)]) ∧ ∀ p ∈ M, 0 < p.1 ∧ p.1 < 180 := by
    intro P
    induction P with
    | nil => intro _ _; exact ⟨[], [], rfl, Or.inl rfl, by simp⟩
    | cons p P ih =>
      intro hs hb
      rw [List.map_cons, List.pairwise_cons] at hs
      by_cases hp : p.1 = 180
      · have : P = [] := by
          cases P with
          | nil => rfl
          | cons q P =>
            have h1 := hs.1 q.1 (by simp)
            have h2 := (hb q (by simp)).2
            rw [hp] at h1
            exact absurd h2 (not_le.2 h1)
        subst this
        exact ⟨[], [p], rfl, Or.inr ⟨p.2, by rw [← hp]⟩, by simp⟩
      · obtain ⟨M, H, rfl, h1, h2⟩ := ih hs.2 (fun q hq => hb q (by simp [hq]))
        refine ⟨p :: M, H, rfl, h1, ?_⟩
        intro q hq
        rcases List.mem_cons.1 hq with rfl | hq
        · exact ⟨(hb q (by simp)).1, lt_of_le_of_ne (hb q (by simp)).2 hp⟩
        · exact h2 q hq
  intro P hs hb
  cases P with
  | nil => exact ⟨[], [], [], rfl, Or.inl rfl, Or.inl rfl, by simp⟩
  | cons p P =>
    rw [List.map_cons, List.pairwise_cons] at hs
    have hb' : ∀ q ∈ P, 0 < q.1 ∧ q.1 ≤ 180 := by
      intro q hq
      have := hs.1 q.1 (List.mem_map_of_mem hq)
      exact ⟨lt_of_le_of_lt (hb p (by simp)).1 this, (hb q (by simp [hq])).2⟩
    obtain ⟨M, H, rfl, h1, h2⟩ := main hs.2 hb'
    by_cases hp : p.1 = 0
    · exact ⟨[p], M, H, rfl, Or.inr ⟨p.2, by rw [← hp]⟩, h1, h2⟩
    · by_cases hp' : p.1 = 180
      · have : M ++ H = [] := by
          cases hMH : M ++ H with
          | nil => rfl
          | cons q Q =>
            have h1 := hs.1 q.1 (by rw [hMH]; simp)
            have h2 := (hb' q (by rw [hMH]; simp)).2
            rw [hp'] at h1
            exact absurd h2 (not_le.2 h1)
        exact ⟨[], [], [p], by simp [this], Or.inl rfl, Or.inr ⟨p.2, by rw [← hp']⟩, by simp⟩
      · refine ⟨[], p :: M, H, rfl, Or.inl rfl, h1, ?_⟩
        intro q hq
        rcases List.mem_cons.1 hq with rfl | hq
        · exact ⟨lt_of_le_of_ne (hb q (by simp)).1 (Ne.symm hp), lt_of_le_of_ne (hb q (by simp)).2 hp'⟩
        · exact h2 q hq

/-- The mirror image of a pair of an angle and its boat speeds. -/
def mirror {α : Type} (p : K × α) : K × α := (360 - p.1, p.2)

/-- The arrays given to the constructor by `symmetrize`. -/
theorem symmetrize_eq {t : Table K} {Z M H : List (K × List K)} (hP : t.wa.zip t.bsps = Z ++ M ++ H)
    (hlen : t.bsps.length = t.wa.length)
    (hZ : Z = [] ∨ ∃ r, Z = [(0, r)]) (hH : H = [] ∨ ∃ r, H = [(180, r)]) (hM : ∀ p ∈ M, 0 < p.1 ∧ p.1 < 180) :
    symmetrize t = init (.values t.ws) (.values ((Z ++ M ++ H ++ (M.reverse.map mirror)).map (·.1)))
      (some ((Z ++ M ++ H ++ (M.reverse.map mirror)).map (·.2))) := by
  have e1 : t.wa = (Z ++ M ++ H).map (·.1) := by rw [← hP, List.map_fst_zip (by omega)]
  have e2 : t.bsps = (Z ++ M ++ H).map (·.2) := by rw [← hP, List.map_snd_zip (by omega)]
  have hM0 : (0 : K) ∉ M.map (·.1) := by
    intro h; obtain ⟨p, hp, h⟩ := List.mem_map.1 h; exact absurd h (ne_of_gt (hM p hp).1)
  have hM180 : (180 : K) ∉ M.map (·.1) := by
    intro h; obtain ⟨p, hp, h⟩ := List.mem_map.1 h; exact absurd h (ne_of_lt (hM p hp).2)
  have h0180 : (0 : K) ≠ 180 := by norm_num
  have hZ180 : (180 : K) ∉ Z.map (·.1) := by
    rcases hZ with rfl | ⟨r, rfl⟩ <;> simp
  have m0 : (0 : K) ∈ t.wa ↔ Z ≠ [] := by
    rw [e1, List.map_append, List.map_append]
    rcases hZ with rfl | ⟨r, rfl⟩ <;> rcases hH with rfl | ⟨s, rfl⟩ <;> simp [hM0, h0180] <;> exact by simpa using hM0
  have m180 : (180 : K) ∈ t.wa ↔ H ≠ [] := by
    rw [e1, List.map_append, List.map_append]
    rcases hH with rfl | ⟨s, rfl⟩
    · simp only [List.map_nil, List.append_nil, List.mem_append, hZ180, hM180, or_self, ne_eq, not_true_eq_false]
    · simp
  have mir : ∀ l : List (K × List K), (l.map (·.1)).reverse.map (360 - ·) = (l.reverse.map mirror).map (·.1) := by
    intro l; simp [mirror, ← List.map_reverse]
  have mir2 : ∀ l : List (K × List K), (l.map (·.2)).reverse = (l.reverse.map mirror).map (·.2) := by
    intro l; simp [mirror, ← List.map_reverse]
  have hHm : H.reverse.map mirror = H := by
    rcases hH with rfl | ⟨s, rfl⟩
    · rfl
    · simp [mirror]; norm_num
  set Q := Z ++ M ++ H ++ (H ++ M.reverse.map mirror ++ Z.reverse.map mirror) with hQ
  have w1 : t.wa ++ t.wa.reverse.map (360 - ·) = Q.map (·.1) := by
    rw [e1, mir, hQ, ← List.map_append]
    simp [hHm]
  have w2 : t.bsps ++ t.bsps.reverse = Q.map (·.2) := by
    rw [e2, mir2, hQ, ← List.map_append]
    simp [hHm]
  simp only [symmetrize]
  rw [w1, w2]
  -- the first deletion
  have d1 : (if (180 : K) ∈ t.wa then ((Q.map (·.1)).eraseIdx ((Q.map (·.1)).idxOf 180),
      (Q.map (·.2)).eraseIdx ((Q.map (·.1)).idxOf 180)) else (Q.map (·.1), Q.map (·.2))) =
      ((Z ++ M ++ H ++ M.reverse.map mirror ++ Z.reverse.map mirror).map (·.1),
       (Z ++ M ++ H ++ M.reverse.map mirror ++ Z.reverse.map mirror).map (·.2)) := by
    by_cases hH0 : H = []
    · rw [if_neg (by rw [m180]; exact not_not.2 hH0), hQ]
      simp [hH0]
    · rw [if_pos (m180.2 hH0)]
      obtain ⟨s, hs⟩ := hH.resolve_left hH0
      have idx : (Q.map (·.1)).idxOf 180 = (Z ++ M).length := by
        rw [hQ, hs]
        simp only [List.append_assoc, List.map_append]
        rw [← List.append_assoc, List.idxOf_append_of_notMem (by
          rw [List.mem_append]; exact not_or.2 ⟨hZ180, hM180⟩)]
        simp
      rw [idx, hQ]
      simp only [List.eraseIdx_map, List.append_assoc]
      rw [← List.append_assoc Z M, List.eraseIdx_append_of_length_le (le_refl _), Nat.sub_self, hs]
      simp
  rw [d1]
  by_cases hZ0 : Z = []
  · rw [if_neg (by rw [m0]; exact not_not.2 hZ0)]
    simp [hZ0]
  · rw [if_pos (m0.2 hZ0)]
    obtain ⟨r, hr⟩ := hZ.resolve_left hZ0
    simp only [← List.map_dropLast]
    have : (Z ++ M ++ H ++ M.reverse.map mirror ++ Z.reverse.map mirror).dropLast =
        Z ++ M ++ H ++ M.reverse.map mirror := by
      rw [hr, List.reverse_singleton, List.map_singleton, List.dropLast_concat]
    rw [this]

/-- **C33.** For a table with distinct sorted wind angles in [0, 180] the symmetrised table has the same wind speeds,
exactly the old angles and their mirror images as wind angles, the same boat speeds at the old angles, and at each
mirrored angle the boat speeds of the angle. -/
theorem C33_symmetrize {t : Table K} (h : WF t) (h180 : ∀ a ∈ t.wa, a ≤ 180) :
    ∃ t', symmetrize t = .ok t' ∧ WF t' ∧ t'.ws = t.ws ∧
      (∀ b, b ∈ t'.wa ↔ b ∈ t.wa ∨ ∃ a ∈ t.wa, b = pmod (360 - a) 360) ∧
      ∀ w ∈ t.ws, ∀ a ∈ t.wa, ∃ x, get t w a = .ok x ∧ get t' w a = .ok x ∧ get t' w (360 - a) = .ok x := by
  have hfst : (t.wa.zip t.bsps).map (·.1) = t.wa := List.map_fst_zip (by rw [h.rows])
  obtain ⟨Z, M, H, hP, hZ, hH, hM⟩ := decomp (P := t.wa.zip t.bsps) (by rw [hfst]; exact h.wa_sorted)
    (fun p hp => by
      have : p.1 ∈ t.wa := (List.of_mem_zip hp).1
      exact ⟨h.wa_nonneg _ this, h180 _ this⟩)
  have hpos : (0 : K) < 360 := by norm_num
  rw [symmetrize_eq hP h.rows hZ hH hM]
  set F := Z ++ M ++ H ++ M.reverse.map mirror with hF
  have hFP : F = t.wa.zip t.bsps ++ M.reverse.map mirror := by rw [hF, hP]
  have hmir : ∀ p ∈ M.reverse.map mirror, 180 < p.1 ∧ p.1 < 360 := by
    intro p hp
    obtain ⟨q, hq, rfl⟩ := List.mem_map.1 hp
    have := hM q (List.mem_reverse.1 hq)
    simp only [mirror]
    constructor <;> linarith [this.1, this.2]
  have hrange : ∀ p ∈ F, 0 ≤ p.1 ∧ p.1 < 360 := by
    intro p hp
    rw [hFP] at hp
    rcases List.mem_append.1 hp with hp | hp
    · have : p.1 ∈ t.wa := (List.of_mem_zip hp).1
      exact ⟨h.wa_nonneg _ this, h.wa_lt _ this⟩
    · have := hmir p hp
      exact ⟨by linarith [this.1], this.2⟩
  have hmodF : (F.map (·.1)).map (fun a => pmod a 360) = F.map (·.1) := by
    rw [List.map_map]
    apply List.map_congr_left
    intro p hp
    exact pmod_of_mem (hrange p hp).1 (hrange p hp).2
  have hMs : (M.map (·.1)).Pairwise (· < ·) := by
    have := h.wa_sorted
    rw [← hfst, hP, List.map_append, List.map_append] at this
    exact (List.pairwise_append.1 (List.pairwise_append.1 this).1).2.1
  have hsorted : (F.map (·.1)).Pairwise (· < ·) := by
    rw [hFP, List.map_append, hfst, List.pairwise_append]
    refine ⟨h.wa_sorted, ?_, ?_⟩
    · rw [List.pairwise_map, List.pairwise_map, List.pairwise_reverse]
      rw [List.pairwise_map] at hMs
      refine hMs.imp ?_
      intro p q hpq
      simp only [mirror]
      linarith
    · intro a ha b hb
      obtain ⟨p, hp, rfl⟩ := List.mem_map.1 hb
      exact lt_of_le_of_lt (h180 a ha) (hmir p hp).1
  obtain ⟨t', h1, h2, h3, h4, h5⟩ := init_spec (ws := t.ws) (wa := F.map (·.1)) (bsps := F.map (·.2)) h.ws_ne
    (by
      rw [hFP, List.map_append, hfst]
      intro hnil
      exact h.wa_ne (List.append_eq_nil_iff.1 hnil).1)
    h.ws_nonneg (h.ws_sorted.imp fun h => ne_of_lt h)
    (by rw [hmodF]; exact hsorted.imp fun h => ne_of_lt h) (by simp)
    (by
      intro r hr
      obtain ⟨p, hp, rfl⟩ := List.mem_map.1 hr
      have key : ∀ q ∈ t.wa.zip t.bsps, q.2.length = t.ws.length := fun q hq => h.cols _ (List.of_mem_zip hq).2
      rw [hFP] at hp
      rcases List.mem_append.1 hp with hp | hp
      · exact key p hp
      · obtain ⟨q, hq, rfl⟩ := List.mem_map.1 hp
        exact key q (by rw [hP]; simp [List.mem_reverse.1 hq]))
  rw [hmodF] at h4
  have hget : ∀ p ∈ F, ∀ (j : Nat) (w x : K), t.ws[j]? = some w → p.2[j]? = some x → get t' w p.1 = .ok x := by
    intro p hp j w x hw hx
    obtain ⟨i, hi, hip⟩ := List.getElem_of_mem hp
    have : F[i]? = some p := by rw [List.getElem?_eq_getElem hi, hip]
    exact h5 i j p.1 w x p.2 (by simp [this]) hw (by simp [this]) hx
  refine ⟨t', h1, h2, ?_, ?_, ?_⟩
  · exact h3.eq_of_pairwise' (r := (· < ·)) h2.ws_sorted h.ws_sorted
  · intro b
    rw [h4.mem_iff, hFP, List.map_append, hfst, List.mem_append]
    constructor
    · rintro (hb | hb)
      · exact Or.inl hb
      · obtain ⟨p, hp, rfl⟩ := List.mem_map.1 hb
        obtain ⟨q, hq, rfl⟩ := List.mem_map.1 hp
        have hq' := List.mem_reverse.1 hq
        refine Or.inr ⟨q.1, (List.of_mem_zip (a := q.1) (b := q.2) (by rw [hP]; simp [hq'])).1, ?_⟩
        have := hM q hq'
        rw [pmod_of_mem (by linarith [this.2]) (by linarith [this.1])]
        rfl
    · rintro (hb | ⟨a, ha, rfl⟩)
      · exact Or.inl hb
      · obtain ⟨p, hp, rfl⟩ : ∃ p ∈ t.wa.zip t.bsps, p.1 = a := by rw [← hfst] at ha; simpa using List.mem_map.1 ha
        have hp' := hp
        rw [hP, List.mem_append, List.mem_append] at hp
        rcases hp with (hp | hp) | hp
        · left
          have : p.1 = 0 := by
            rcases hZ with rfl | ⟨r, rfl⟩
            · simp at hp
            · rw [List.mem_singleton.1 hp]
          rw [this, sub_zero, pmod_self hpos, ← this]
          exact (List.of_mem_zip (a := p.1) (b := p.2) hp').1
        · right
          have := hM p hp
          rw [pmod_of_mem (by linarith [this.2]) (by linarith [this.1])]
          exact List.mem_map.2 ⟨mirror p, List.mem_map_of_mem (List.mem_reverse.2 hp), rfl⟩
        · left
          have : p.1 = 180 := by
            rcases hH with rfl | ⟨r, rfl⟩
            · simp at hp
            · rw [List.mem_singleton.1 hp]
          rw [this, show (360 : K) - 180 = 180 by norm_num, pmod_of_mem (by norm_num) (by norm_num), ← this]
          exact (List.of_mem_zip (a := p.1) (b := p.2) hp').1
  · intro w hw a ha
    obtain ⟨j, hj, rfl⟩ := List.getElem_of_mem hw
    obtain ⟨i, hi, rfl⟩ := List.getElem_of_mem ha
    have hi' : i < t.bsps.length := by rw [h.rows]; exact hi
    have hj' : j < t.bsps[i].length := by rw [h.cols _ (List.getElem_mem _)]; exact hj
    have hai : 0 ≤ t.wa[i] ∧ t.wa[i] < 360 := ⟨h.wa_nonneg _ (List.getElem_mem _), h.wa_lt _ (List.getElem_mem _)⟩
    have hmem : (t.wa[i], t.bsps[i]) ∈ t.wa.zip t.bsps :=
      List.mem_of_getElem? (i := i) (by
        rw [List.getElem?_zip_eq_some]; exact ⟨List.getElem?_eq_getElem hi, List.getElem?_eq_getElem hi'⟩)
    have hmemF : (t.wa[i], t.bsps[i]) ∈ F := by rw [hFP]; exact List.mem_append_left _ hmem
    have ha1 := hget _ hmemF j t.ws[j] _ (List.getElem?_eq_getElem hj) (List.getElem?_eq_getElem hj')
    refine ⟨t.bsps[i][j], ?_, ha1, ?_⟩
    · exact get_entry h (i := i) (j := j) (List.getElem?_eq_getElem hj)
        (by rw [pmod_of_mem hai.1 hai.2]; exact List.getElem?_eq_getElem hi) (List.getElem?_eq_getElem hi')
        (List.getElem?_eq_getElem hj')
    · rw [hP, List.mem_append, List.mem_append] at hmem
      rcases hmem with (hp | hp) | hp
      · have hz : t.wa[i] = 0 := by
          rcases hZ with rfl | ⟨r, rfl⟩
          · simp at hp
          · exact (Prod.mk.inj (List.mem_singleton.1 hp)).1
        rw [hz] at ha1 ⊢
        rw [← ha1]
        simp only [get, waIndices, List.map_cons, List.map_nil, sub_zero, pmod_self hpos,
          pmod_of_mem (le_refl (0 : K)) hpos]
      · have hmm : mirror (t.wa[i], t.bsps[i]) ∈ F := by
          rw [hFP]
          exact List.mem_append_right _ (List.mem_map_of_mem (List.mem_reverse.2 hp))
        exact hget _ hmm j t.ws[j] _ (List.getElem?_eq_getElem hj) (List.getElem?_eq_getElem hj')
      · have hz : t.wa[i] = 180 := by
          rcases hH with rfl | ⟨r, rfl⟩
          · simp at hp
          · exact (Prod.mk.inj (List.mem_singleton.1 hp)).1
        rw [hz] at ha1 ⊢
        rw [show (360 : K) - 180 = 180 by norm_num]
        exact ha1

example : symmetrize (⟨[6, 8], [0, 90, 180], [[1, 2], [3, 4], [5, 6]]⟩ : Table Rat) =
    .ok ⟨[6, 8], [0, 90, 180, 270], [[1, 2], [3, 4], [5, 6], [3, 4]]⟩ := by decide +kernel

end Verif.Table
