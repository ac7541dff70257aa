import Verif.Model.FloatTableEntries
import Verif.Props.ExactRounding
import Verif.Props.FloatCloudCall
import Verif.Props.Table
import Verif.Props.TableHistory

/-!
# Property C202: the entries of tables in double precision
-/

namespace Verif.F64

open Verif.Table (NewBsps Change WF)

/-! ### Lemmas -/

theorem pmod_mod {a : ℚ} (h : mod a 360 ≠ 360) : pmod (mod a 360) 360 = mod a 360 := by
  obtain ⟨-, -, b1, b2⟩ := C146_exactly a
  exact pmod_of_mem b1 (lt_of_le_of_ne b2 h)

theorem tableGet_eq (t : Table ℚ) (w : ℚ) {a : ℚ} (h : mod a 360 ≠ 360) : tableGet t w a = Table.get t w (mod a 360) := by
  simp only [tableGet, Table.get, tableRows, Table.waIndices, List.map_cons, List.map_nil, pmod_mod h]
  rfl

theorem tableGet_missing {t : Table ℚ} {w a : ℚ} (h : w ∉ t.ws ∨ mod a 360 ∉ t.wa) : tableGet t w a = .error .valueError := by
  by_cases hw : w ∈ t.ws
  · have ha := h.resolve_left (not_not_intro hw)
    simp only [tableGet, tableRows, List.map_cons, List.map_nil]
    by_cases h0 : w < 0
    · simp [Table.wsIndices, h0, bind, Except.bind]
    · simp [Table.wsIndices, Table.indices, h0, hw, ha, bind, Except.bind]
  · simp only [tableGet]
    by_cases h0 : w < 0
    · simp [Table.wsIndices, h0, bind, Except.bind]
    · simp [Table.wsIndices, Table.indices, h0, hw, bind, Except.bind]

theorem tableChange_eq (t : Table ℚ) (w x : ℚ) {a : ℚ} (h : mod a 360 ≠ 360) :
    tableChange t (.d1 [x]) (some [w]) (some [a]) = Table.changeEntries t (.d1 [x]) (some [w]) (some [mod a 360]) := by
  simp only [tableChange, Table.changeEntries, tableRows, Table.waIndices, List.map_cons, List.map_nil, pmod_mod h]
  rfl

theorem tableChange_missing {t : Table ℚ} (ht : WF t) (w x : ℚ) {a : ℚ} (h : mod a 360 = 360) :
    (tableChange t (.d1 [x]) (some [w]) (some [a])).1 = t := by
  have : (360 : ℚ) ∉ t.wa := fun hm => lt_irrefl _ (ht.wa_lt _ hm)
  simp only [tableChange]
  split
  · rfl
  · simp [tableRows, h, Table.indices, this]

/-- Writing at angles that are normalised to 360 has no effect. -/
theorem tableHistory_eq {t : Table ℚ} (ht : WF t) (ops : List (ℚ × ℚ × ℚ)) :
    tableHistory t (ops.map fun o => Change.single o.1 o.2.1 o.2.2) =
      Table.history t (((ops.filter fun o => decide (mod o.2.1 360 ≠ 360)).map fun o => (o.1, mod o.2.1 360, o.2.2)).map
        fun o => Change.single o.1 o.2.1 o.2.2) := by
  induction ops generalizing t with
  | nil => rfl
  | cons o ops ih =>
    by_cases h : mod o.2.1 360 = 360
    · have e : (tableChange t (.d1 [o.2.2]) (some [o.1]) (some [o.2.1])).1 = t := tableChange_missing ht _ _ h
      simp only [List.map_cons, tableHistory, Change.single] at ih ⊢
      rw [e, ih ht]
      simp [h]
    · have e := tableChange_eq t o.1 o.2.2 h
      have hwf : WF (Table.changeEntries t (.d1 [o.2.2]) (some [o.1]) (some [mod o.2.1 360])).1 :=
        (Table.change_wf ht ⟨.d1 [o.2.2], some [o.1], some [mod o.2.1 360]⟩).1
      simp only [List.map_cons, tableHistory, Change.single] at ih ⊢
      rw [e, ih hwf]
      simp [h, Table.history]

/-! ### C202 -/

/-- **C202.** A table made from winds in any order has the given boat speeds at the winds as they were given, and the stored winds are
sorted, if no wind angle is within `2^-45` degrees below a multiple of 360 (which for doubles only happens from `-2^-45` to 0). -/
theorem C202_lookup_partial {ws wa : List ℚ} {bsps : List (List ℚ)} (hws : ws ≠ []) (hwa : wa ≠ []) (h0 : ∀ w ∈ ws, 0 ≤ w)
    (hwsn : ws.Nodup) (hwan : (wa.map fun a => mod a 360).Nodup) (htame : ∀ a ∈ wa, ¬ (a < 0 ∧ 360 - 2 ^ (-45 : ℤ) ≤ pmod a 360))
    (hlen : bsps.length = wa.length) (hcols : ∀ r ∈ bsps, r.length = ws.length) :
    ∃ t, tableInit ws wa bsps = .ok t ∧ WF t ∧ t.ws.Perm ws ∧ t.wa.Perm (wa.map fun a => mod a 360) ∧
      ∀ (i j : Nat) (a w x : ℚ) (r : List ℚ), wa[i]? = some a → ws[j]? = some w → bsps[i]? = some r → r[j]? = some x →
        tableGet t w a = .ok x := by
  have hne : ∀ a ∈ wa, mod a 360 ≠ 360 := fun a ha he => htame a ha ((C146_exactly a).1.1 he)
  have e : ((wa.map fun a => mod a 360).map fun a => pmod a 360) = wa.map fun a => mod a 360 := by
    rw [List.map_map]
    apply List.map_congr_left
    intro a ha
    exact pmod_mod (hne a ha)
  obtain ⟨t, h1, h2, h3, h4, h5⟩ := Table.init_spec (wa := wa.map fun a => mod a 360) hws (by simpa using hwa) h0 hwsn
    (by rw [e]; exact hwan) (by simpa using hlen) hcols
  rw [e] at h4
  refine ⟨t, ?_, h2, h3, h4, ?_⟩
  · have hneg : (ws.any fun x => decide (x < 0)) = false := by
      rw [List.any_eq_false]
      intro w hw
      simpa using h0 w hw
    have hshape : Table.goodShape bsps ws (wa.map fun a => mod a 360) = true := by
      simp only [Table.goodShape, List.length_map, hlen, decide_true, Bool.true_and, List.all_eq_true, decide_eq_true_eq]
      exact hcols
    rw [← h1]
    simp only [tableInit, Table.init, Table.buildWs, Table.buildWa, e]
    simp [hws, hwa, hneg, hshape, bind, Except.bind]
  · intro i j a w x r hi hj hr hx
    rw [tableGet_eq _ _ (hne a (List.mem_of_getElem? hi))]
    exact h5 i j _ w x r (by rw [List.getElem?_map, hi]; rfl) hj hr hx

/-- **C202.** Empty resolutions, negative wind speeds and boat speeds of the wrong shape raise `ValueError`. -/
theorem C202_raises (ws wa : List ℚ) (bsps : List (List ℚ))
    (h : ws = [] ∨ wa = [] ∨ (∃ w ∈ ws, w < 0) ∨ bsps.length ≠ wa.length ∨ ∃ r ∈ bsps, r.length ≠ ws.length) :
    tableInit ws wa bsps = .error .valueError := by
  unfold tableInit
  split
  · rfl
  · split
    · rfl
    · split
      · rfl
      · rename_i h1 h2 h3
        rw [if_pos]
        intro hg
        simp only [Table.goodShape, List.length_map, Bool.and_eq_true, decide_eq_true_eq, List.all_eq_true] at hg
        rcases h with h | h | ⟨w, hw, h⟩ | h | ⟨r, hr, h⟩
        · exact h1 (by simp [h])
        · exact h3 (by simp [h])
        · exact h2 (List.any_eq_true.2 ⟨w, hw, by simpa using h⟩)
        · exact h hg.1
        · exact h (hg.2 r hr)

/-- **C202.** A stored wind angle can be given with any number of full turns. -/
theorem C202_turns {t : Table ℚ} (ht : WF t) (w : ℚ) {a : ℚ} (ha : a ∈ t.wa) (hd : fl a = a) (k : ℤ) :
    tableGet t w (a + 360 * k) = Table.get t w a := by
  have h1 := ht.wa_lt a ha
  have e := mod_turns (ht.wa_nonneg a ha) h1 hd k
  rw [tableGet_eq _ _ (by rw [e]; exact h1.ne), e]

/-- The value of the last write at a wind. -/
def lastWritten (ops : List (ℚ × ℚ × ℚ)) (w a : ℚ) : Option ℚ :=
  (ops.reverse.find? fun o => decide (o.1 = w ∧ mod o.2.1 360 = mod a 360)).map fun o => o.2.2

/-- **C202.** After any number of writes, with any wind angles, a table has at each of its winds the value written last; the other
entries keep their values, and other winds raise `ValueError`. -/
theorem C202_last {t : Table ℚ} (ht : WF t) (ops : List (ℚ × ℚ × ℚ)) (w a : ℚ) :
    tableGet (tableHistory t (ops.map fun o => Change.single o.1 o.2.1 o.2.2)) w a =
      if w ∈ t.ws ∧ mod a 360 ∈ t.wa then
        match lastWritten ops w a with
        | some x => .ok x
        | none => tableGet t w a
      else .error .valueError := by
  rw [tableHistory_eq ht]
  set ops' := (ops.filter fun o => decide (mod o.2.1 360 ≠ 360)).map fun o => (o.1, mod o.2.1 360, o.2.2) with hops
  by_cases h : mod a 360 = 360
  · have hn : (360 : ℚ) ∉ t.wa := fun hm => lt_irrefl _ (ht.wa_lt _ hm)
    rw [if_neg (by rw [h]; exact fun hc => hn hc.2)]
    apply tableGet_missing
    right
    rw [(Table.C170_refines _ ht ht.shows).2.2.1, h]
    exact hn
  · rw [tableGet_eq _ _ h, Table.C170_last ht, pmod_mod h]
    split
    · have e : Table.lastWrite ops' w (mod a 360) = lastWritten ops w a := by
        unfold Table.lastWrite lastWritten
        rw [hops, ← List.map_reverse, List.find?_map, ← List.filter_reverse, List.find?_filter, Option.map_map]
        congr 1
        congr 1
        funext o
        simp only [Function.comp_apply]
        rw [decide_eq_decide, decide_eq_true_eq, decide_eq_true_eq, pmod_mod h]
        constructor
        · rintro ⟨h1, h2, h3⟩
          rw [pmod_mod h1] at h3
          exact ⟨h2, h3⟩
        · rintro ⟨h2, h3⟩
          have h1 : mod o.2.1 360 ≠ 360 := by rw [h3]; exact h
          exact ⟨h1, h2, by rw [pmod_mod h1]; exact h3⟩
      rw [e, tableGet_eq _ _ h]
      cases lastWritten ops w a <;> rfl
    · rfl

/-- The remainder is exact for angles that are not negative and for angles with at most 44 binary digits after the point. -/
theorem mod_exact {a : ℚ} (h : 0 ≤ a ∨ OnGrid a) : mod a 360 = pmod a 360 := by
  rcases h with h | h
  · exact (C146_nonneg h).1
  · exact (grid_mod h).1

/-- **C202.** For wind angles that are not negative and for wind angles with at most 44 binary digits after the point (as whole degrees
or quarters of a degree), making, reading and changing tables gives exactly what it gives in exact arithmetic, for all arguments of
`change_entries`. So all results of C31, C32 and C170 hold for doubles. -/
theorem C202_exact {ws wa : List ℚ} (hwa : ∀ a ∈ wa, 0 ≤ a ∨ OnGrid a) (bsps : List (List ℚ)) :
    tableInit ws wa bsps = Table.init (.values ws) (.values wa) (some bsps) ∧
    (∀ (t : Table ℚ) (w a : ℚ), (0 ≤ a ∨ OnGrid a) → tableGet t w a = Table.get t w a) ∧
    ∀ (t : Table ℚ) (cs : List (Change ℚ)), (∀ c ∈ cs, ∀ l, c.wa = some l → ∀ a ∈ l, 0 ≤ a ∨ OnGrid a) →
      tableHistory t cs = Table.history t cs := by
  refine ⟨?_, ?_, ?_⟩
  · have e : (wa.map fun a => mod a 360) = wa.map fun a => pmod a 360 :=
      List.map_congr_left fun a ha => mod_exact (hwa a ha)
    by_cases h1 : ws = []
    · simp [tableInit, Table.init, Table.buildWs, h1, bind, Except.bind]
    by_cases h2 : (ws.any fun x => decide (x < 0)) = true
    · simp only [tableInit, Table.init, Table.buildWs, h2]
      simp [h1, bind, Except.bind]
    by_cases h3 : wa = []
    · simp only [tableInit, Table.init, Table.buildWs, Table.buildWa, Bool.not_eq_true] at h2 ⊢
      simp [h1, h2, h3, bind, Except.bind]
    simp only [tableInit, Table.init, Table.buildWs, Table.buildWa, e, Bool.not_eq_true] at h2 ⊢
    simp [h1, h2, h3, bind, Except.bind]
  · intro t w a h
    simp only [tableGet, Table.get, tableRows, Table.waIndices, List.map_cons, List.map_nil, mod_exact h]
    rfl
  · intro t cs
    induction cs generalizing t with
    | nil => intro _; rfl
    | cons c cs ih =>
      intro h
      have e : tableRows t c.wa = Table.waIndices t c.wa := by
        cases hc : c.wa with
        | none => rfl
        | some l =>
          simp only [tableRows, Table.waIndices]
          rw [List.map_congr_left fun a ha => mod_exact (h c List.mem_cons_self l hc a ha)]
      have e2 : tableChange t c.new c.ws c.wa = Table.changeEntries t c.new c.ws c.wa := by
        simp only [tableChange, Table.changeEntries, e]
        rfl
      simp only [tableHistory, Table.history, e2]
      exact ih _ fun c' hc' => h c' (List.mem_cons_of_mem _ hc')

/-- Whole and quarter degrees of any sign are on the grid. -/
example : OnGrid (-(181 : ℚ) / 4) ∧ tableHistory ⟨[6, 8], [90, 1259 / 4], [[2, 1], [4, 3]]⟩ [⟨.d1 [7, 9], none, some [-181 / 4]⟩] =
    ⟨[6, 8], [90, 1259 / 4], [[2, 1], [7, 9]]⟩ :=
  ⟨⟨-181 * 2 ^ 42, by push_cast; norm_num⟩, by decide +kernel⟩

/-- **C202 is false** for tiny negative angles: the table shows the wind angle 360, at which nothing is found. -/
theorem C202_shown_false : tableInit [8] [fl (-1 / 10 ^ 20)] [[5]] = .ok ⟨[8], [360], [[5]]⟩ ∧
    tableGet ⟨[8], [360], [[5]]⟩ 8 360 = .error .valueError ∧ tableGet ⟨[8], [360], [[5]]⟩ 8 0 = .error .valueError ∧
    tableGet ⟨[8], [360], [[5]]⟩ 8 (fl (-1 / 10 ^ 20)) = .ok 5 := by
  refine ⟨?_, ?_, ?_, ?_⟩ <;> decide +kernel

/-- **C202 is false** for full turns that the user adds in double precision: `pd[8, 0.1 + 360]` does not find the entry at `0.1`. -/
theorem C202_turn_false : tableInit [8] [fl (1 / 10)] [[5]] = .ok ⟨[8], [fl (1 / 10)], [[5]]⟩ ∧
    tableGet ⟨[8], [fl (1 / 10)], [[5]]⟩ 8 (fl (fl (1 / 10) + 360)) = .error .valueError := by
  refine ⟨?_, ?_⟩ <;> decide +kernel

/-- The hypotheses can be met. -/
example : (∀ a ∈ [(90 : ℚ), -10], ¬ (a < 0 ∧ 360 - 2 ^ (-45 : ℤ) ≤ pmod a 360)) ∧
    tableInit [8, 6] [90, -10] [[1, 2], [3, 4]] = .ok ⟨[6, 8], [90, 350], [[2, 1], [4, 3]]⟩ ∧
    tableGet ⟨[6, 8], [90, 350], [[2, 1], [4, 3]]⟩ 8 (-370) = .ok 3 ∧
    lastWritten [(8, 350, 7), (8, -10, 9), (6, 90, 1)] 8 350 = some 9 ∧
    tableGet (tableHistory ⟨[6, 8], [90, 350], [[2, 1], [4, 3]]⟩ ([(8, 350, 7), (8, -10, 9), (6, 90, 1)].map
      fun o => Change.single o.1 o.2.1 o.2.2)) 8 350 = .ok 9 := by
  refine ⟨?_, ?_, ?_, ?_, ?_⟩ <;> decide +kernel

end Verif.F64
