import Verif.Model.FloatTableSession
import Verif.Props.FloatCloudHistory
import Verif.Props.FloatTableEntries
import Verif.Props.Session

/-!
# Property C204: sessions with tables and files in double precision
-/

namespace Verif.F64

open Verif.FloatText
open Verif.Table (Change Of Storable Step)

/-! ### Lemmas -/

/-- All numbers of the table are doubles. -/
abbrev TableDoubles (t : Table ℚ) : Prop := Of (fun x => fl x = x) (fun x => fl x = x) t

theorem tableInit_eq {ws wa : List ℚ} (h : ∀ a ∈ wa, mod a 360 ≠ 360) (bsps : List (List ℚ)) :
    tableInit ws wa bsps = Table.init (.values ws) (.values (wa.map fun a => mod a 360)) (some bsps) := by
  have e : ((wa.map fun a => mod a 360).map fun a => mod a 360) = wa.map fun a => mod a 360 := by
    rw [List.map_map]
    apply List.map_congr_left
    intro a ha
    have h0 : 0 ≤ mod a 360 := (C146_exactly a).2.2.1
    simp only [Function.comp_apply]
    rw [mod_exact (Or.inl h0), pmod_mod (h a ha)]
  rw [← (C202_exact (ws := ws) (wa := wa.map fun a => mod a 360) (fun a ha => by
    obtain ⟨b, -, rfl⟩ := List.mem_map.1 ha
    exact Or.inl (C146_exactly b).2.2.1) bsps).1]
  simp only [tableInit, e, List.isEmpty_map]

/-- A change either has no effect, or it is the change with normalised angles in exact arithmetic. -/
theorem tableChange_cases {t : Table ℚ} (ht : ∀ a ∈ t.wa, a < 360) (c : Change ℚ) : (tableChange t c.new c.ws c.wa).1 = t ∨
    ∃ wa, (tableChange t c.new c.ws c.wa) = Table.changeEntries t c.new c.ws wa := by
  cases hc : c.wa with
  | none => exact Or.inr ⟨none, rfl⟩
  | some l =>
    by_cases h : ∀ a ∈ l, mod a 360 ≠ 360
    · right
      refine ⟨some (l.map fun a => mod a 360), ?_⟩
      have e : ((l.map fun a => mod a 360).map fun a => pmod a 360) = l.map fun a => mod a 360 := by
        rw [List.map_map]
        exact List.map_congr_left fun a ha => pmod_mod (h a ha)
      simp only [tableChange, Table.changeEntries, tableRows, Table.waIndices, e]
      rfl
    · left
      push Not at h
      obtain ⟨a, ha, h⟩ := h
      have hn : (360 : ℚ) ∉ t.wa := fun hm => lt_irrefl _ (ht _ hm)
      simp only [tableChange]
      split
      · rfl
      · have : ∃ e, tableRows t (some l) = .error e := by
          refine ⟨.valueError, ?_⟩
          have h2 : ¬ (((l.map fun a => mod a 360).all fun w => decide (w ∈ t.wa)) = true) := fun h2 =>
            hn (by simpa using List.all_eq_true.1 h2 _ (List.mem_map.2 ⟨a, ha, h⟩))
          simp only [tableRows, Table.indices]
          rw [if_pos h2, ite_self]
        obtain ⟨e, he⟩ := this
        rw [he]

theorem floatSymmetrize_storable {t t' : Table ℚ} (h : Storable t) (ho : TableDoubles t) (hs : symmetrize t = .ok t') :
    Storable t' ∧ TableDoubles t' := by
  unfold symmetrize at hs
  refine Table.init_storable hs ho.ws ?_ ?_
  · intro x hx
    have hx' : x ∈ t.wa ++ t.wa.reverse.map (fun a => fl (360 - a)) := by
      revert hx
      split <;> split <;> intro hx
      · exact List.mem_of_mem_eraseIdx (List.mem_of_mem_dropLast hx)
      · exact List.mem_of_mem_dropLast hx
      · exact List.mem_of_mem_eraseIdx hx
      · exact hx
    rcases List.mem_append.1 hx' with h1 | h1
    · rw [pmod_of_mem (h.wa_range x h1).1 (h.wa_range x h1).2]
      exact ho.wa x h1
    · obtain ⟨a, h2, rfl⟩ := List.mem_map.1 h1
      have h3 : 0 ≤ fl (360 - a) := fl_nonneg (by linarith [(h.wa_range a (List.mem_reverse.1 h2)).2])
      rw [← mod_exact (Or.inl h3)]
      exact mod_double (fl_fl _)
  · intro r hr
    have hr' : r ∈ t.bsps ++ t.bsps.reverse := by
      revert hr
      split <;> split <;> intro hr
      · exact List.mem_of_mem_eraseIdx (List.mem_of_mem_dropLast hr)
      · exact List.mem_of_mem_dropLast hr
      · exact List.mem_of_mem_eraseIdx hr
      · exact hr
    rcases List.mem_append.1 hr' with h1 | h1
    · exact ho.bsps r h1
    · exact ho.bsps r (List.mem_reverse.1 h1)

/-! ### C204 -/

/-- **C204.** A table of doubles may be written to a file and read again, in any format, as often and whenever one likes: whatever is
changed or symmetrised before, in between and afterwards, with any wind angles, nothing raises and the table is the one without files.
The angles of the table must be less than 360. -/
theorem C204_session_partial (steps : List (Step ℚ)) : ∀ {t : Table ℚ}, Storable t → TableDoubles t →
    (∀ c, Step.change c ∈ steps → ∀ x ∈ c.new.flat, fl x = x) →
      ∃ t', tableSession print parse t steps = .ok t' ∧ tableSession print parse t (steps.filter Step.works) = .ok t' ∧
        Storable t' ∧ TableDoubles t' := by
  induction steps with
  | nil => exact fun h ho _ => ⟨_, rfl, rfl, h, ho⟩
  | cons s steps ih =>
    intro t h ho hc
    have hc' : ∀ c, Step.change c ∈ steps → ∀ x ∈ c.new.flat, fl x = x := fun c hm => hc c (List.mem_cons_of_mem _ hm)
    cases s with
    | change c =>
      have : Storable (tableChange t c.new c.ws c.wa).1 ∧ TableDoubles (tableChange t c.new c.ws c.wa).1 := by
        rcases tableChange_cases (fun a ha => (h.wa_range a ha).2) c with e | ⟨wa, e⟩
        · rw [e]
          exact ⟨h, ho⟩
        · rw [e]
          exact Table.change_storable h ho (c := ⟨c.new, c.ws, wa⟩) (hc c List.mem_cons_self)
      simpa only [tableSession, tableStep, List.filter_cons, Step.works, if_true] using ih this.1 this.2 hc'
    | symmetrize =>
      cases hs : symmetrize t with
      | error e => simpa only [tableSession, tableStep, hs, List.filter_cons, Step.works, if_true] using ih h ho hc'
      | ok t' =>
        obtain ⟨h1, h2⟩ := floatSymmetrize_storable h ho hs
        simpa only [tableSession, tableStep, hs, List.filter_cons, Step.works, if_true] using ih h1 h2 hc'
    | file fmt =>
      have e := Table.round_trip_on roundTrip_double h fl_zero ho.ws ho.wa ho.bsps fmt
      simpa only [tableSession, tableStep, e, List.filter_cons, Step.works, Bool.false_eq_true, if_false] using ih h ho hc'

/-- **C204.** Every table made from given doubles can be the beginning of such a session, if no wind angle is within `2^-45` degrees
below 0. -/
theorem C204_begin_partial {ws wa : List ℚ} {bsps : List (List ℚ)} {t : Table ℚ} (h : tableInit ws wa bsps = .ok t)
    (htame : ∀ a ∈ wa, ¬ (a < 0 ∧ 360 - 2 ^ (-45 : ℤ) ≤ pmod a 360)) (hws : ∀ x ∈ ws, fl x = x) (hwa : ∀ a ∈ wa, fl a = a)
    (hb : ∀ r ∈ bsps, ∀ x ∈ r, fl x = x) : Storable t ∧ TableDoubles t := by
  have hne : ∀ a ∈ wa, mod a 360 ≠ 360 := fun a ha he => htame a ha ((C146_exactly a).1.1 he)
  rw [tableInit_eq hne] at h
  refine Table.init_storable h hws ?_ hb
  intro x hx
  obtain ⟨a, ha, rfl⟩ := List.mem_map.1 hx
  rw [pmod_mod (hne a ha)]
  exact mod_double (hwa a ha)

/-- Every table that is read from a file has angles from 0 to less than 360. -/
theorem fromCsv_storable {parse : Table.Text → Except PyErr ℚ} {text : Table.Text} {fmt : Table.Format} {t : Table ℚ}
    (h : Table.fromCsv parse text fmt = .ok t) : Storable t := by
  unfold Table.fromCsv at h
  repeat' split at h
  all_goals first
    | exact Table.C189_begin h
    | cases h

/-- **C204.** A table that was made from doubles is the same after a file, in any format, exactly if no given wind angle is within
`2^-45` degrees below 0. -/
theorem C204_begin_exactly {ws wa : List ℚ} {bsps : List (List ℚ)} {t : Table ℚ} (h : tableInit ws wa bsps = .ok t)
    (hws : ∀ x ∈ ws, fl x = x) (hwa : ∀ a ∈ wa, fl a = a) (hb : ∀ r ∈ bsps, ∀ x ∈ r, fl x = x) (fmt : Table.Format) :
    tableSession print parse t [.file fmt] = .ok t ↔ ∀ a ∈ wa, ¬ (a < 0 ∧ 360 - 2 ^ (-45 : ℤ) ≤ pmod a 360) := by
  constructor
  · intro hs a ha htame
    have hm : mod a 360 = 360 := (C146_exactly a).1.2 htame
    have hst : Storable t := by
      simp only [tableSession, tableStep] at hs
      split at hs
      · cases hs
      · rename_i t' ht'
        cases hs
        exact fromCsv_storable ht'
    have hin : (360 : ℚ) ∈ t.wa := by
      unfold tableInit at h
      split at h
      · cases h
      split at h
      · cases h
      split at h
      · cases h
      split at h
      · cases h
      rename_i hg
      cases h
      rw [not_not] at hg
      simp only [Table.goodShape, Bool.and_eq_true, decide_eq_true_eq] at hg
      have hp := (Table.sortByKey_perm ((wa.map fun a => mod a 360).zip bsps)).map (·.1)
      rw [List.map_fst_zip (by rw [hg.1])] at hp
      exact hp.mem_iff.2 (List.mem_map.2 ⟨a, ha, hm⟩)
    exact lt_irrefl _ (hst.wa_range _ hin).2
  · intro htame
    obtain ⟨h1, h2⟩ := C204_begin_partial h htame hws hwa hb
    obtain ⟨t', e1, e2, -⟩ := C204_session_partial [.file fmt] h1 h2 (by simp)
    rw [e1, ← e2]
    rfl

/-- **C204.** In particular after writes of single entries and files, in any order, a table has at each of its winds the value written
last, the other entries are those of the beginning, and other winds raise `ValueError`. -/
theorem C204_last_partial {t : Table ℚ} (ht : Table.WF t) (hs : Storable t) (hd : TableDoubles t) {steps : List (Step ℚ)}
    {ops : List (ℚ × ℚ × ℚ)} (hops : ∀ o ∈ ops, fl o.2.2 = o.2.2)
    (h : steps.filter Step.works = (ops.map fun o => Change.single o.1 o.2.1 o.2.2).map .change) (w a : ℚ) :
    ∃ t', tableSession print parse t steps = .ok t' ∧
      tableGet t' w a =
        if w ∈ t.ws ∧ mod a 360 ∈ t.wa then
          match lastWritten ops w a with
          | some x => .ok x
          | none => tableGet t w a
        else .error .valueError := by
  have key : ∀ (cs : List (Change ℚ)) (t : Table ℚ), tableSession print parse t (cs.map .change) = .ok (tableHistory t cs) := by
    intro cs
    induction cs with
    | nil => exact fun _ => rfl
    | cons c cs ih =>
      intro t
      simpa only [List.map_cons, tableSession, tableStep, tableHistory] using ih _
  have hc : ∀ c, Step.change c ∈ steps → ∀ x ∈ c.new.flat, fl x = x := by
    intro c hm x hx
    have : Step.change c ∈ steps.filter Step.works := List.mem_filter.2 ⟨hm, rfl⟩
    rw [h] at this
    obtain ⟨c', h1, h2⟩ := List.mem_map.1 this
    obtain ⟨o, h3, rfl⟩ := List.mem_map.1 h1
    cases h2
    obtain rfl := List.mem_singleton.1 hx
    exact hops o h3
  obtain ⟨t', h1, h2, -⟩ := C204_session_partial steps hs hd hc
  rw [h, key] at h2
  cases h2
  exact ⟨_, h1, C202_last ht ops w a⟩

example : ([.file .orc, .change (Change.single 8 90 6), .file .hro, .change (Change.single 8 (-270) 7), .file .array] :
      List (Step ℚ)).filter Step.works = ([(8, 90, 6), (8, -270, 7)].map fun o : ℚ × ℚ × ℚ => Change.single o.1 o.2.1 o.2.2).map .change ∧
    lastWritten [(8, 90, 6), (8, -270, 7)] 8 90 = some 7 := ⟨rfl, by decide +kernel⟩

/-- Angles from 0 to 360 with at most 44 binary digits after the point. -/
def GridAngle (a : ℚ) : Prop := 0 ≤ a ∧ a < 360 ∧ OnGrid a

theorem GridAngle.double {a : ℚ} (h : GridAngle a) : fl a = a := (grid_exact h.2.2 h.1 h.2.1.le).1

theorem GridAngle.mirror {a : ℚ} (h : GridAngle a) : GridAngle (pmod (360 - a) 360) :=
  ⟨pmod_nonneg _ (by norm_num), pmod_lt _ (by norm_num), (grid_mod (grid_exact h.2.2 h.1 h.2.1.le).2.2).2⟩

/-- **C204.** For tables whose angles have at most 44 binary digits after the point (as whole degrees or quarters of a degree) a
session gives exactly what it gives in exact arithmetic, including the symmetrisations, so C189 holds for doubles. -/
theorem C204_grid (steps : List (Step ℚ)) : ∀ {t : Table ℚ}, Storable t → Of (fun x => fl x = x) GridAngle t →
    (∀ c, Step.change c ∈ steps → (∀ x ∈ c.new.flat, fl x = x) ∧ ∀ l, c.wa = some l → ∀ a ∈ l, 0 ≤ a ∨ OnGrid a) →
      tableSession print parse t steps = Table.session print parse t steps := by
  induction steps with
  | nil => exact fun _ _ _ => rfl
  | cons s steps ih =>
    intro t h ho hc
    have hc' := fun c hm => hc c (List.mem_cons_of_mem s hm)
    cases s with
    | change c =>
      obtain ⟨h1, h2⟩ := hc c List.mem_cons_self
      have e : (tableChange t c.new c.ws c.wa).1 = (Table.changeEntries t c.new c.ws c.wa).1 := by
        have := (C202_exact (ws := []) (wa := []) (by simp) []).2.2 t [c] (by simpa using h2)
        simpa only [tableHistory, Table.history] using this
      obtain ⟨h3, h4⟩ := Table.change_storable h ho h1
      simp only [tableSession, Table.session, tableStep, Table.step, e]
      exact ih h3 h4 hc'
    | symmetrize =>
      have e : (t.wa.reverse.map fun a => fl (360 - a)) = t.wa.reverse.map (360 - ·) := by
        apply List.map_congr_left
        intro a ha
        obtain ⟨h1, h2, h3⟩ := ho.wa a (List.mem_reverse.1 ha)
        exact (grid_exact h3 h1 h2.le).2.1
      have es : symmetrize t = Table.symmetrize t := by
        simp only [symmetrize, Table.symmetrize, e]
      simp only [tableSession, Table.session, tableStep, Table.step, es]
      cases hs : Table.symmetrize t with
      | error e => exact ih h ho hc'
      | ok t' =>
        obtain ⟨h3, h4⟩ := Table.symmetrize_storable (P := fun x => fl x = x) (Q := GridAngle)
          (fun a ha => ha.mirror) h ho hs
        exact ih h3 h4 hc'
    | file fmt =>
      have e := Table.round_trip_on roundTrip_double h fl_zero ho.ws (fun x hx => (ho.wa x hx).double) ho.bsps fmt
      simp only [tableSession, Table.session, tableStep, Table.step, e]
      exact ih h ho hc'

/-- **C204 is false** for tiny negative angles: the new table has the angle 360, after a file it has the angle 0, and the entry is
then found at 0 but no longer at the angle that was given. -/
theorem C204_session_false : tableInit [8] [fl (-1 / 10 ^ 20)] [[5]] = .ok ⟨[8], [360], [[5]]⟩ ∧
    tableSession print parse ⟨[8], [360], [[5]]⟩ [.file .hro] = .ok ⟨[8], [0], [[5]]⟩ ∧
    tableGet ⟨[8], [360], [[5]]⟩ 8 (fl (-1 / 10 ^ 20)) = .ok 5 ∧ tableGet ⟨[8], [0], [[5]]⟩ 8 (fl (-1 / 10 ^ 20)) = .error .valueError ∧
    tableGet ⟨[8], [0], [[5]]⟩ 8 0 = .ok 5 := by
  refine ⟨?_, ?_, ?_, ?_, ?_⟩ <;> decide +kernel

/-- The hypotheses can be met: a table with an angle whose mirror image is rounded, and a session with a change at a tiny negative
angle, which is refused. -/
example : Storable (⟨[8], [fl (3209 / 100), 90], [[5], [7]]⟩ : Table ℚ) ∧ TableDoubles ⟨[8], [fl (3209 / 100), 90], [[5], [7]]⟩ ∧
    fl (360 - fl (3209 / 100)) ≠ 360 - fl (3209 / 100 : ℚ) ∧
    tableSession print parse ⟨[8], [fl (3209 / 100), 90], [[5], [7]]⟩
        (([.change ⟨.d1 [6], some [8], some [-270]⟩, .change ⟨.d1 [1], some [8], some [fl (-1 / 10 ^ 20)]⟩, .file .hro, .symmetrize] :
          List (Step ℚ)).filter Step.works) =
      .ok ⟨[8], [fl (3209 / 100), 90, 270, fl (360 - fl (3209 / 100))], [[5], [6], [6], [5]]⟩ := by
  refine ⟨⟨by decide +kernel, by decide +kernel, by decide +kernel, by decide +kernel, rfl, by decide +kernel, by decide, by decide⟩,
    ⟨by decide +kernel, by decide +kernel, by decide +kernel⟩, by decide +kernel, by decide +kernel⟩

example : Storable (⟨[8], [65 / 2, 90], [[5], [7]]⟩ : Table ℚ) ∧ Of (fun x => fl x = x) GridAngle ⟨[8], [65 / 2, 90], [[5], [7]]⟩ := by
  refine ⟨⟨by decide +kernel, by decide +kernel, by decide +kernel, by decide +kernel, rfl, by decide +kernel, by decide, by decide⟩,
    ⟨by decide +kernel, ?_, by decide +kernel⟩⟩
  intro a ha
  rcases List.mem_cons.1 ha with rfl | ha
  · exact ⟨by norm_num, by norm_num, 65 * 2 ^ 43, by push_cast; norm_num⟩
  · obtain rfl := List.mem_singleton.1 ha
    exact ⟨by norm_num, by norm_num, 90 * 2 ^ 44, by push_cast; norm_num⟩

end Verif.F64
