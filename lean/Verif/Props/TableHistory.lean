import Verif.Model.TableHistory
import Verif.Props.Table

/-!
# Properties of histories of tables (C170)
-/

namespace Verif.Table

variable {K : Type} [Field K] [LinearOrder K] [IsStrictOrderedRing K] [FloorRing K]

/-! ### The specification: a function of the wind -/

/-- The number of selected values below `x`. -/
def rankBelow (l : List K) (sel : K → Bool) (x : K) : Nat := l.countP fun b => sel b && decide (b < x)

/-- A change is carried out if the selected winds are in the table and the new values have the right shape. -/
def Change.Applies (ws wa : List K) (c : Change K) : Prop :=
  (∀ l, c.ws = some l → l ≠ [] ∧ ∀ w ∈ l, w ∈ ws) ∧ (∀ l, c.wa = some l → l ≠ [] ∧ ∀ a ∈ l, pmod a 360 ∈ wa) ∧
    correctShape c.new (ws.countP (SelWs c.ws)) (wa.countP (SelWa c.wa)) = true

open Classical in
/-- A change of a function of the wind. -/
noncomputable def Change.apply (ws wa : List K) (f : K → K → K) (c : Change K) : K → K → K := fun w a =>
  if c.Applies ws wa ∧ SelWa c.wa a = true ∧ SelWs c.ws w = true then
    (entryOf c.new (ws.countP (SelWs c.ws)) (rankBelow wa (SelWa c.wa) a) (rankBelow ws (SelWs c.ws) w)).getD 0
  else f w a

/-- The entries of a table are given by a function of the wind. -/
def Holds (t : Table K) (f : K → K → K) : Prop := ∀ w ∈ t.ws, ∀ a ∈ t.wa, get t w a = .ok (f w a)

/-! ### Lemmas -/

theorem rankBelow_take {l : List K} (hl : l.Pairwise (· < ·)) (sel : K → Bool) {i : Nat} {x : K} (hi : l[i]? = some x) :
    (l.take i).countP sel = rankBelow l sel x := by
  have hlt : i < l.length := (List.getElem?_eq_some_iff.1 hi).1
  have hx : l[i] = x := (List.getElem?_eq_some_iff.1 hi).2
  unfold rankBelow
  conv_rhs => rw [← List.take_append_drop i l]
  rw [List.countP_append]
  have h1 : (l.drop i).countP (fun b => sel b && decide (b < x)) = 0 := by
    rw [List.countP_eq_zero]
    intro b hb h
    obtain ⟨k, hk, rfl⟩ := List.getElem_of_mem hb
    simp only [List.getElem_drop, Bool.and_eq_true, decide_eq_true_eq] at h
    rw [List.length_drop] at hk
    rcases Nat.eq_zero_or_pos k with rfl | hk0
    · simp only [Nat.add_zero, hx, lt_self_iff_false, and_false] at h
    · have := List.pairwise_iff_getElem.1 hl i (i + k) hlt (by omega) (by omega)
      rw [hx] at this
      exact absurd h.2 (not_lt.2 this.le)
  rw [h1, Nat.add_zero]
  refine List.countP_congr fun b hb => ?_
  obtain ⟨k, hk, rfl⟩ := List.getElem_of_mem hb
  rw [List.length_take] at hk
  have := List.pairwise_iff_getElem.1 hl k i (by omega) hlt (by omega)
  rw [hx] at this
  rw [List.getElem_take]
  simp [this]

theorem WF.shows {t : Table K} (h : WF t) : Holds t fun w a => ((get t w a).toOption).getD 0 := by
  intro w hw a ha
  obtain ⟨j, hj⟩ := List.getElem?_of_mem hw
  obtain ⟨i, hi⟩ := List.getElem?_of_mem ha
  have hil : i < t.bsps.length := by rw [h.rows]; exact (List.getElem?_eq_some_iff.1 hi).1
  have hr := List.getElem?_eq_getElem hil
  have hjl : j < (t.bsps[i]).length := by
    rw [h.cols _ (List.getElem_mem hil)]; exact (List.getElem?_eq_some_iff.1 hj).1
  have hx := List.getElem?_eq_getElem hjl
  have hp : pmod a 360 = a := pmod_of_mem (h.wa_nonneg a ha) (h.wa_lt a ha)
  have e := get_entry h hj (by rw [hp]; exact hi) hr hx
  simp only [e]
  rfl

/-- Two tables with the same winds and entries are equal. -/
theorem table_ext {t t' : Table K} (h : WF t) (h' : WF t') (hws : t'.ws = t.ws) (hwa : t'.wa = t.wa)
    (hg : ∀ w ∈ t.ws, ∀ a ∈ t.wa, get t' w a = get t w a) : t' = t := by
  have hb : t'.bsps = t.bsps := by
    refine List.ext_getElem (by rw [h'.rows, h.rows, hwa]) fun i hi hi' => ?_
    refine List.ext_getElem (by rw [h'.cols _ (List.getElem_mem hi), h.cols _ (List.getElem_mem hi'), hws]) fun j hj hj' => ?_
    have hiw : i < t.wa.length := h.rows ▸ hi'
    have hjw : j < t.ws.length := by rw [← h.cols _ (List.getElem_mem hi')]; exact hj'
    have hp : pmod t.wa[i] 360 = t.wa[i] :=
      pmod_of_mem (h.wa_nonneg _ (List.getElem_mem hiw)) (h.wa_lt _ (List.getElem_mem hiw))
    have e1 := get_entry h (w := t.ws[j]) (a := t.wa[i]) (List.getElem?_eq_getElem hjw)
      (by rw [hp]; exact List.getElem?_eq_getElem hiw) (List.getElem?_eq_getElem hi') (List.getElem?_eq_getElem hj')
    have e2 := get_entry h' (i := i) (j := j) (w := t.ws[j]) (a := t.wa[i])
      (by rw [hws]; exact List.getElem?_eq_getElem hjw)
      (by rw [hp, hwa]; exact List.getElem?_eq_getElem hiw) (List.getElem?_eq_getElem hi) (List.getElem?_eq_getElem hj)
    rw [hg _ (List.getElem_mem hjw) _ (List.getElem_mem hiw), e1] at e2
    exact (Except.ok.inj e2).symm
  cases t
  cases t'
  simp only [Table.mk.injEq] at *
  exact ⟨hws, hwa, hb⟩

theorem change_wf {t : Table K} (h : WF t) (c : Change K) :
    WF (changeEntries t c.new c.ws c.wa).1 ∧ (changeEntries t c.new c.ws c.wa).1.ws = t.ws ∧
      (changeEntries t c.new c.ws c.wa).1.wa = t.wa := by
  rcases he : changeEntries t c.new c.ws c.wa with ⟨t', e⟩
  cases e with
  | some e =>
    rw [C32_raises_unchanged he]
    exact ⟨h, rfl, rfl⟩
  | none =>
    obtain ⟨h1, h2, h3, h4⟩ := C32_change h.rows h.cols he
    refine ⟨⟨by rw [h1]; exact h.ws_sorted, by rw [h2]; exact h.wa_sorted, by rw [h1]; exact h.ws_nonneg,
      by rw [h2]; exact h.wa_nonneg, by rw [h2]; exact h.wa_lt, by rw [h2, h3]; exact h.rows, ?_, by rw [h1]; exact h.ws_ne,
      by rw [h2]; exact h.wa_ne⟩, h1, h2⟩
    intro r' hr'
    obtain ⟨i, hi⟩ := List.getElem?_of_mem hr'
    have hil : i < t.bsps.length := by
      rw [← h3]; exact (List.getElem?_eq_some_iff.1 hi).1
    have hiw : i < t.wa.length := h.rows ▸ hil
    have hj : 0 < t.ws.length := List.length_pos_iff.2 h.ws_ne
    have hjr : 0 < (t.bsps[i]).length := by rw [h.cols _ (List.getElem_mem hil)]; exact hj
    obtain ⟨r'', y, e1, e2, e3, -⟩ := h4 i 0 _ _ _ _ (List.getElem?_eq_getElem hiw) (List.getElem?_eq_getElem hj)
      (List.getElem?_eq_getElem hil) (List.getElem?_eq_getElem hjr)
    rw [hi] at e1
    cases e1
    rw [e3, h.cols _ (List.getElem_mem hil), h1]

theorem change_shows {t : Table K} (h : WF t) {f : K → K → K} (hf : Holds t f) (c : Change K) :
    Holds (changeEntries t c.new c.ws c.wa).1 (c.apply t.ws t.wa f) := by
  obtain ⟨hw', h1, h2⟩ := change_wf h c
  have hs := C32_succeeds h.ws_nonneg c.new c.ws c.wa
  rcases he : changeEntries t c.new c.ws c.wa with ⟨t', e⟩
  rw [he] at hw' h1 h2
  cases e with
  | some e =>
    have hn : ¬ c.Applies t.ws t.wa := by
      intro ha
      obtain ⟨t'', h3⟩ := hs.2 ha
      rw [h3] at he
      cases he
    rw [C32_raises_unchanged he]
    intro w hw a ha
    rw [hf w hw a ha]
    simp only [Change.apply, hn, false_and, if_false]
  | none =>
    have ha : c.Applies t.ws t.wa := hs.1 ⟨t', he⟩
    obtain ⟨-, -, h3, h4⟩ := C32_change h.rows h.cols he
    intro w hw a hma
    simp only at hw hma h1 h2 hw' ⊢
    rw [h1] at hw
    rw [h2] at hma
    obtain ⟨j, hj⟩ := List.getElem?_of_mem hw
    obtain ⟨i, hi⟩ := List.getElem?_of_mem hma
    have hil : i < t.bsps.length := by rw [h.rows]; exact (List.getElem?_eq_some_iff.1 hi).1
    have hr := List.getElem?_eq_getElem hil
    have hjl : j < (t.bsps[i]).length := by
      rw [h.cols _ (List.getElem_mem hil)]; exact (List.getElem?_eq_some_iff.1 hj).1
    have hx := List.getElem?_eq_getElem hjl
    have hp : pmod a 360 = a := pmod_of_mem (h.wa_nonneg a hma) (h.wa_lt a hma)
    have e0 := get_entry h hj (by rw [hp]; exact hi) hr hx
    rw [hf w hw a hma] at e0
    have e0 := Except.ok.inj e0
    obtain ⟨r', y, e1, e2, -, e4, e5⟩ := h4 i j a w _ _ hi hj hr hx
    rw [get_entry hw' (by rw [h1]; exact hj) (by rw [hp, h2]; exact hi) e1 e2]
    by_cases hsel : SelWa c.wa a = true ∧ SelWs c.ws w = true
    · have := e4 hsel
      rw [rankBelow_take h.wa_sorted _ hi, rankBelow_take h.ws_sorted _ hj] at this
      simp only [Change.apply, ha, hsel, and_self, if_true, this, Option.getD_some]
    · rw [e5 hsel, ← e0]
      simp only [Change.apply, ha, true_and, hsel, if_false]

/-! ### Properties -/

/-- **C170.** A table is a function of the wind: whatever the sequence of changes, successful or not, its entries are those of the
function changed in the same order, and its winds are never changed. -/
theorem C170_refines (cs : List (Change K)) : ∀ {t : Table K}, WF t → ∀ {f : K → K → K}, Holds t f →
    WF (history t cs) ∧ (history t cs).ws = t.ws ∧ (history t cs).wa = t.wa ∧
      Holds (history t cs) (cs.foldl (Change.apply t.ws t.wa) f) := by
  induction cs with
  | nil => intro t h f hf; exact ⟨h, rfl, rfl, hf⟩
  | cons c cs ih =>
    intro t h f hf
    obtain ⟨h0, h1, h2⟩ := change_wf h c
    obtain ⟨i0, i1, i2, i3⟩ := ih h0 (change_shows h hf c)
    rw [h1, h2] at i3
    rw [h1] at i1
    rw [h2] at i2
    exact ⟨i0, i1, i2, i3⟩

theorem countP_single {l : List K} (hl : l.Pairwise (· < ·)) {x : K} (hx : x ∈ l) : l.countP (fun b => decide (b = x)) = 1 := by
  have := List.count_eq_one_of_mem (hl.imp fun h => ne_of_lt h) hx
  rw [List.count] at this
  rw [← this]
  exact List.countP_congr fun b _ => by simp

/-- A single write changes the entry of its wind. -/
theorem single_apply {t : Table K} (h : WF t) (w a x : K) (f : K → K → K) {w' a' : K} (hw : w' ∈ t.ws) (ha : a' ∈ t.wa) :
    (Change.single w a x).apply t.ws t.wa f w' a' = if w' = w ∧ a' = pmod a 360 then x else f w' a' := by
  unfold Change.apply Change.single
  have sw : SelWs (some [w]) = fun b => decide (b = w) := by funext b; simp [SelWs]
  have sa : SelWa (some [a]) = fun b => decide (b = pmod a 360) := by funext b; simp [SelWa, eq_comm]
  have hsw : SelWs (some [w]) w' = true ↔ w' = w := by rw [sw]; exact decide_eq_true_iff
  have hsa : SelWa (some [a]) a' = true ↔ a' = pmod a 360 := by rw [sa]; exact decide_eq_true_iff
  by_cases hc : w' = w ∧ a' = pmod a 360
  · obtain ⟨rfl, rfl⟩ := hc
    have c1 := countP_single h.ws_sorted hw
    have c2 := countP_single h.wa_sorted ha
    have happ : Change.Applies t.ws t.wa ⟨.d1 [x], some [w'], some [a]⟩ := by
      refine ⟨by rintro l ⟨⟩; exact ⟨by simp, by simpa using hw⟩, by rintro l ⟨⟩; exact ⟨by simp, by simpa using ha⟩, ?_⟩
      simp only [sw, sa, c1, c2]
      simp [correctShape, NewBsps.isShape1]
    have r1 : rankBelow t.ws (fun b => decide (b = w')) w' = 0 := by
      unfold rankBelow
      rw [List.countP_eq_zero]
      intro b _ hb
      simp only [Bool.and_eq_true, decide_eq_true_eq] at hb
      exact absurd hb.2 (by rw [hb.1]; exact lt_irrefl _)
    have r2 : rankBelow t.wa (fun b => decide (b = pmod a 360)) (pmod a 360) = 0 := by
      unfold rankBelow
      rw [List.countP_eq_zero]
      intro b _ hb
      simp only [Bool.and_eq_true, decide_eq_true_eq] at hb
      exact absurd hb.2 (by rw [hb.1]; exact lt_irrefl _)
    rw [if_pos ⟨happ, hsa.2 rfl, hsw.2 rfl⟩]
    simp only [sw, sa, r1, r2, c1]
    simp [entryOf]
  · rw [if_neg (fun h => hc ⟨hsw.1 h.2.2, hsa.1 h.2.1⟩), if_neg hc]

/-- The value written last to a wind, angles up to whole turns. -/
def lastWrite (ops : List (K × K × K)) (w a : K) : Option K :=
  (ops.reverse.find? fun o => decide (o.1 = w ∧ pmod o.2.1 360 = pmod a 360)).map fun o => o.2.2

theorem lastWrite_cons (o : K × K × K) (ops : List (K × K × K)) (w a : K) :
    lastWrite (o :: ops) w a =
      (lastWrite ops w a).or (if o.1 = w ∧ pmod o.2.1 360 = pmod a 360 then some o.2.2 else none) := by
  unfold lastWrite
  rw [List.reverse_cons, List.find?_append]
  cases h : List.find? (fun o => decide (o.1 = w ∧ pmod o.2.1 360 = pmod a 360)) ops.reverse with
  | some p => simp
  | none =>
    by_cases hc : o.1 = w ∧ pmod o.2.1 360 = pmod a 360 <;> simp [hc]

theorem foldl_single {t : Table K} (h : WF t) {w a : K} (ops : List (K × K × K)) : ∀ (f : K → K → K), w ∈ t.ws → pmod a 360 ∈ t.wa →
    (ops.map fun o => Change.single o.1 o.2.1 o.2.2).foldl (Change.apply t.ws t.wa) f w (pmod a 360) =
      (lastWrite ops w a).getD (f w (pmod a 360)) := by
  induction ops with
  | nil => intro f _ _; rfl
  | cons o ops ih =>
    intro f hw ha
    rw [List.map_cons, List.foldl_cons, ih _ hw ha, single_apply h _ _ _ _ hw ha, lastWrite_cons]
    cases lastWrite ops w a with
    | some x => simp
    | none =>
      by_cases hc : o.1 = w ∧ pmod o.2.1 360 = pmod a 360
      · simp [hc]
      · have : ¬ (w = o.1 ∧ pmod a 360 = pmod o.2.1 360) := fun h => hc ⟨h.1.symm, h.2.symm⟩
        simp [hc, this]

/-- **C170.** A table remembers for each of its winds the value written last; winds that were not written keep their value, and
writing to winds outside of the table has no effect. -/
theorem C170_last {t : Table K} (h : WF t) (ops : List (K × K × K)) (w a : K) :
    get (history t (ops.map fun o => Change.single o.1 o.2.1 o.2.2)) w a =
      if w ∈ t.ws ∧ pmod a 360 ∈ t.wa then
        match lastWrite ops w a with
        | some x => .ok x
        | none => get t w a
      else .error .valueError := by
  obtain ⟨h0, h1, h2, h3⟩ := C170_refines (ops.map fun o => Change.single o.1 o.2.1 o.2.2) h h.shows
  by_cases hm : w ∈ t.ws ∧ pmod a 360 ∈ t.wa
  swap
  · rw [if_neg hm]
    refine get_missing ?_
    rw [h1, h2]
    by_contra hc
    push Not at hc
    exact hm hc
  rw [if_pos hm]
  have hidem : pmod (pmod a 360) 360 = pmod a 360 := pmod_pmod a (by norm_num)
  have hga : ∀ t' : Table K, get t' w a = get t' w (pmod a 360) := by
    intro t'
    simp only [get, wsIndices, waIndices, List.map_cons, List.map_nil, hidem]
  rw [hga, h3 w (by rw [h1]; exact hm.1) _ (by rw [h2]; exact hm.2), foldl_single h _ _ hm.1 hm.2]
  cases lastWrite ops w a with
  | some x => rfl
  | none =>
    simp only [Option.getD_none]
    rw [hga t, h.shows w hm.1 _ hm.2]
    rfl

/-- **C170.** Writing to different winds commutes. -/
theorem C170_commute {t : Table K} (h : WF t) {w a x w' a' x' : K} (hne : ¬ (w = w' ∧ pmod a 360 = pmod a' 360)) :
    history t [.single w a x, .single w' a' x'] = history t [.single w' a' x', .single w a x] := by
  obtain ⟨h0, h1, h2, h3⟩ := C170_refines [.single w a x, .single w' a' x'] h h.shows
  obtain ⟨i0, i1, i2, i3⟩ := C170_refines [.single w' a' x', .single w a x] h h.shows
  refine table_ext i0 h0 (h1.trans i1.symm) (h2.trans i2.symm) fun u hu b hb => ?_
  rw [h3 u (by rw [h1, ← i1]; exact hu) b (by rw [h2, ← i2]; exact hb), i3 u hu b hb]
  rw [i1] at hu
  rw [i2] at hb
  simp only [List.foldl_cons, List.foldl_nil]
  rw [single_apply h _ _ _ _ hu hb, single_apply h _ _ _ _ hu hb, single_apply h _ _ _ _ hu hb, single_apply h _ _ _ _ hu hb]
  by_cases c1 : u = w ∧ b = pmod a 360
  · have c2 : ¬ (u = w' ∧ b = pmod a' 360) := fun c => hne ⟨c1.1.symm.trans c.1, c1.2.symm.trans c.2⟩
    simp only [if_pos c1, if_neg c2]
  · simp only [if_neg c1]

/-- **C170.** A second value written to the same wind replaces the first one. -/
theorem C170_overwrite {t : Table K} (h : WF t) (w a x x' : K) {a' : K} (ha : pmod a' 360 = pmod a 360) :
    history t [.single w a x, .single w a' x'] = history t [.single w a x'] := by
  obtain ⟨h0, h1, h2, h3⟩ := C170_refines [.single w a x, .single w a' x'] h h.shows
  obtain ⟨i0, i1, i2, i3⟩ := C170_refines [.single w a x'] h h.shows
  refine table_ext i0 h0 (h1.trans i1.symm) (h2.trans i2.symm) fun u hu b hb => ?_
  rw [h3 u (by rw [h1, ← i1]; exact hu) b (by rw [h2, ← i2]; exact hb), i3 u hu b hb]
  rw [i1] at hu
  rw [i2] at hb
  simp only [List.foldl_cons, List.foldl_nil]
  rw [single_apply h _ _ _ _ hu hb, single_apply h _ _ _ _ hu hb, single_apply h _ _ _ _ hu hb, ha]
  by_cases c1 : u = w ∧ b = pmod a 360
  · simp only [if_pos c1]
  · simp only [if_neg c1]

/-- **C170.** Writing back the value of an entry changes nothing. -/
theorem C170_write_back {t : Table K} (h : WF t) {w a x : K} (hx : get t w a = .ok x) : history t [.single w a x] = t := by
  obtain ⟨h0, h1, h2, h3⟩ := C170_refines [.single w a x] h h.shows
  refine table_ext h h0 h1 h2 fun u hu b hb => ?_
  rw [h3 u (by rw [h1]; exact hu) b (by rw [h2]; exact hb), h.shows u hu b hb]
  simp only [List.foldl_cons, List.foldl_nil]
  rw [single_apply h _ _ _ _ hu hb]
  split
  · next hc =>
    obtain ⟨rfl, rfl⟩ := hc
    have hidem : pmod (pmod a 360) 360 = pmod a 360 := pmod_pmod a (by norm_num)
    have : get t u (pmod a 360) = get t u a := by simp only [get, wsIndices, waIndices, List.map_cons, List.map_nil, hidem]
    rw [this, hx]
    rfl
  · rfl

theorem lastWrite_some {ops : List (K × K × K)} {w a x : K} (h : ∀ o ∈ ops, o.1 = w ∧ pmod o.2.1 360 = pmod a 360 → o.2.2 = x)
    (he : ∃ o ∈ ops, o.1 = w ∧ pmod o.2.1 360 = pmod a 360) : lastWrite ops w a = some x := by
  unfold lastWrite
  cases hf : List.find? (fun o => decide (o.1 = w ∧ pmod o.2.1 360 = pmod a 360)) ops.reverse with
  | some o =>
    have h1 := List.mem_reverse.1 (List.mem_of_find?_eq_some hf)
    have h2 := List.find?_some hf
    simp only [Option.map_some, h o h1 (of_decide_eq_true h2)]
  | none =>
    obtain ⟨o, ho, hc⟩ := he
    have := List.find?_eq_none.1 hf o (List.mem_reverse.2 ho)
    exact absurd (decide_eq_true hc) this

theorem lastWrite_none {ops : List (K × K × K)} {w a : K} (h : ∀ o ∈ ops, ¬ (o.1 = w ∧ pmod o.2.1 360 = pmod a 360)) :
    lastWrite ops w a = none := by
  unfold lastWrite
  rw [List.find?_eq_none.2, Option.map_none]
  intro o ho hc
  exact h o (List.mem_reverse.1 ho) (of_decide_eq_true hc)

/-- The entries written by a change, row by row. -/
def Change.entries (ws wa : List K) (c : Change K) : List (K × K × K) :=
  (wa.filter (SelWa c.wa)).flatMap fun a => (ws.filter (SelWs c.ws)).map fun w =>
    (w, a, (entryOf c.new (ws.countP (SelWs c.ws)) (rankBelow wa (SelWa c.wa) a) (rankBelow ws (SelWs c.ws) w)).getD 0)

/-- **C170.** Changing several entries at once is the same as changing one after the other. -/
theorem C170_block {t : Table K} (h : WF t) {c : Change K} (hc : c.Applies t.ws t.wa) :
    history t [c] = history t ((c.entries t.ws t.wa).map fun o => Change.single o.1 o.2.1 o.2.2) := by
  obtain ⟨h0, h1, h2, h3⟩ := C170_refines [c] h h.shows
  obtain ⟨i0, i1, i2, i3⟩ := C170_refines ((c.entries t.ws t.wa).map fun o => Change.single o.1 o.2.1 o.2.2) h h.shows
  refine table_ext i0 h0 (h1.trans i1.symm) (h2.trans i2.symm) fun w hw a ha => ?_
  rw [h3 w (by rw [h1, ← i1]; exact hw) a (by rw [h2, ← i2]; exact ha), i3 w hw a ha]
  rw [i1] at hw
  rw [i2] at ha
  have hp : ∀ b ∈ t.wa, pmod b 360 = b := fun b hb => pmod_of_mem (h.wa_nonneg b hb) (h.wa_lt b hb)
  have hf := foldl_single h (c.entries t.ws t.wa) (fun w a => ((get t w a).toOption).getD 0) hw (a := a) (by rw [hp a ha]; exact ha)
  rw [hp a ha] at hf
  rw [hf]
  simp only [List.foldl_cons, List.foldl_nil, Change.apply, hc, true_and]
  have hmem : ∀ o, o ∈ c.entries t.ws t.wa ↔ (o.2.1 ∈ t.wa ∧ SelWa c.wa o.2.1 = true) ∧ (o.1 ∈ t.ws ∧ SelWs c.ws o.1 = true) ∧
      o.2.2 = (entryOf c.new (t.ws.countP (SelWs c.ws)) (rankBelow t.wa (SelWa c.wa) o.2.1)
        (rankBelow t.ws (SelWs c.ws) o.1)).getD 0 := by
    rintro ⟨u, b, y⟩
    simp only [Change.entries, List.mem_flatMap, List.mem_filter, List.mem_map, Prod.mk.injEq]
    constructor
    · rintro ⟨b', hb', u', hu', rfl, rfl, rfl⟩
      exact ⟨hb', hu', rfl⟩
    · rintro ⟨hb, hu, rfl⟩
      exact ⟨b, hb, u, hu, rfl, rfl, rfl⟩
  split
  · next hs =>
    rw [lastWrite_some (x := _)]
    · rfl
    · intro o ho ho'
      obtain ⟨ha', -, hv⟩ := (hmem o).1 ho
      obtain ⟨e1, e2⟩ := ho'
      rw [hp _ ha'.1, hp a ha] at e2
      rw [hv, e1, e2]
      rfl
    · exact ⟨(w, a, (entryOf c.new (t.ws.countP (SelWs c.ws)) (rankBelow t.wa (SelWa c.wa) a)
        (rankBelow t.ws (SelWs c.ws) w)).getD 0), (hmem _).2 ⟨⟨ha, hs.1⟩, ⟨hw, hs.2⟩, rfl⟩, rfl, rfl⟩
  · next hs =>
    rw [lastWrite_none]
    · rfl
    · rintro o ho ⟨e1, e2⟩
      obtain ⟨ha', hw', -⟩ := (hmem o).1 ho
      rw [hp _ ha'.1, hp a ha] at e2
      rw [e1] at hw'
      rw [e2] at ha'
      exact hs ⟨ha'.2, hw'.2⟩

/-- **C170.** Evaluating the diagram at a wind of the table gives the value written last, whatever the interpolator. -/
theorem C170_call {t : Table K} (h : WF t) (interpolate : List ((K × K) × K) → K × K → Except PyErr K) (nbh : K × K → Bool)
    {ops : List (K × K × K)} {w a x : K} (hw : w ∈ t.ws) (ha : pmod a 360 ∈ t.wa) (hx : lastWrite ops w a = some x) :
    call interpolate nbh (history t (ops.map fun o => Change.single o.1 o.2.1 o.2.2)) w a = .ok x := by
  unfold call
  rw [C170_last h, if_pos ⟨hw, ha⟩, hx]

/-- **C170.** Tables made from distinct winds in any order are of this kind. -/
theorem C170_tables {ws wa : List K} {bsps : List (List K)} (hws : ws ≠ []) (hwa : wa ≠ []) (h0 : ∀ w ∈ ws, 0 ≤ w)
    (hwsn : ws.Nodup) (hwan : (wa.map fun a => pmod a 360).Nodup) (hlen : bsps.length = wa.length)
    (hcols : ∀ r ∈ bsps, r.length = ws.length) :
    ∃ t, init (.values ws) (.values wa) (some bsps) = .ok t ∧ WF t := by
  obtain ⟨t, h1, h2, h3, h4, h5, h6, -⟩ := C31_lookup hws hwa h0 hwsn hwan hlen hcols
  have hm : ∀ a ∈ t.wa, ∃ b, pmod b 360 = a := by
    intro a ha
    obtain ⟨b, -, hb⟩ := List.mem_map.1 (h5.mem_iff.1 ha)
    exact ⟨b, hb⟩
  refine ⟨t, h1, h2, h4, fun w hw => h0 w (h3.mem_iff.1 hw), ?_, ?_, h6.1, h6.2, ?_, ?_⟩
  · intro a ha
    obtain ⟨b, rfl⟩ := hm a ha
    exact pmod_nonneg b (by norm_num)
  · intro a ha
    obtain ⟨b, rfl⟩ := hm a ha
    exact pmod_lt b (by norm_num)
  · intro h
    rw [h] at h3
    exact hws h3.nil_eq.symm
  · intro h
    rw [h] at h5
    exact hwa (List.map_eq_nil_iff.1 h5.nil_eq.symm)

/-- A table with four entries. -/
theorem small_wf : WF (⟨[6, 8], [0, 90], [[1, 2], [3, 4]]⟩ : Table ℚ) := by
  refine ⟨by decide, by decide, by decide, by decide, by decide, by decide, by decide, by decide, by decide⟩

example : get (history (⟨[6, 8], [0, 90], [[1, 2], [3, 4]]⟩ : Table ℚ)
    [.single 8 450 5, .single 7 0 9, .single 6 0 6, .single 8 90 7]) 8 90 = .ok 7 := by
  have := C170_last small_wf [(8, 450, 5), (7, 0, 9), (6, 0, 6), (8, 90, 7)] 8 90
  rw [if_pos (by decide +kernel), show lastWrite _ _ _ = some (7 : ℚ) by decide +kernel] at this
  exact this

example : (⟨.d1 [5, 7], some [8], none⟩ : Change ℚ).entries [6, 8] [0, 90] = [(8, 0, 5), (8, 90, 7)] := by decide +kernel

/-- Two changes of different entries in either order, a change and its overwriting, and writing back what is there. -/
example : history (⟨[6, 8], [0, 90], [[1, 2], [3, 4]]⟩ : Table ℚ) [.single 8 450 5, .single 6 90 7] =
      history ⟨[6, 8], [0, 90], [[1, 2], [3, 4]]⟩ [.single 6 90 7, .single 8 450 5] ∧
    history (⟨[6, 8], [0, 90], [[1, 2], [3, 4]]⟩ : Table ℚ) [.single 8 450 5, .single 8 90 7] =
      history ⟨[6, 8], [0, 90], [[1, 2], [3, 4]]⟩ [.single 8 450 7] ∧
    history (⟨[6, 8], [0, 90], [[1, 2], [3, 4]]⟩ : Table ℚ) [.single 8 450 4] = ⟨[6, 8], [0, 90], [[1, 2], [3, 4]]⟩ :=
  ⟨C170_commute small_wf (by decide +kernel), C170_overwrite small_wf 8 450 5 7 (by decide +kernel),
    C170_write_back small_wf (by decide +kernel)⟩

/-- A change of a whole column is the change of its entries one after the other. -/
example : history (⟨[6, 8], [0, 90], [[1, 2], [3, 4]]⟩ : Table ℚ) [⟨.d1 [5, 7], some [8], none⟩] =
    history ⟨[6, 8], [0, 90], [[1, 2], [3, 4]]⟩ [.single 8 0 5, .single 8 90 7] :=
  C170_block small_wf (c := ⟨.d1 [5, 7], some [8], none⟩) ⟨by simp, by simp, by decide +kernel⟩

/-- The boat speed asked for after the changes, and a table to begin with. -/
example : call (K := ℚ) (fun _ _ => .error .otherError) (fun _ => true)
      (history ⟨[6, 8], [0, 90], [[1, 2], [3, 4]]⟩ ([(8, 450, 5), (6, 0, 6)].map fun o => Change.single o.1 o.2.1 o.2.2)) 8 90 = .ok 5 ∧
    ∃ t, init (K := ℚ) (.values [8, 6]) (.values [0, 450]) (some [[1, 2], [3, 4]]) = .ok t ∧ WF t :=
  ⟨C170_call small_wf _ _ (by simp) (by decide +kernel) (by decide +kernel),
    C170_tables (by simp) (by simp) (by simp) (by decide +kernel) (by decide +kernel) rfl (by simp)⟩

end Verif.Table
