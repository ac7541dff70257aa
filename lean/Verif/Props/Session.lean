import Verif.Model.Session
import Verif.Props.CloudHistory
import Verif.Props.FloatText
import Verif.Props.TableHistory

/-!
# Property C189: files may be used at any time during a session
-/

set_option linter.unusedSectionVars false

namespace Verif.Table

variable {K : Type} [Field K] [LinearOrder K] [IsStrictOrderedRing K] [FloorRing K]

/-! ### The specification -/

/-- Steps which do not use a file. -/
def Step.works : Step K → Bool
  | .file _ => false
  | _ => true

/-- The numbers of a table: winds and boat speeds with the property `P`, angles with the property `Q`. -/
structure Of (P Q : K → Prop) (t : Table K) : Prop where
  ws : ∀ x ∈ t.ws, P x
  wa : ∀ x ∈ t.wa, Q x
  bsps : ∀ r ∈ t.bsps, ∀ x ∈ r, P x

/-! ### Lemmas -/

/-- Every table made from given winds and boat speeds can be stored. -/
theorem init_storable {P Q : K → Prop} {ws wa : List K} {bsps : List (List K)} {t : Table K}
    (h : init (.values ws) (.values wa) (some bsps) = .ok t) (hP : ∀ x ∈ ws, P x) (hQ : ∀ x ∈ wa, Q (pmod x 360))
    (hb : ∀ r ∈ bsps, ∀ x ∈ r, P x) : Storable t ∧ Of P Q t := by
  simp only [init, bind, Except.bind] at h
  split at h
  · cases h
  next ws' hws =>
  split at h
  · cases h
  next wa' hwa =>
  split at h
  · cases h
  next hg =>
  split at h
  · cases h
  next hne =>
  rw [not_not] at hg
  push Not at hne
  have hne1 : ws' ≠ [] := by simpa using hne.1
  have hne2 : wa' ≠ [] := by simpa using hne.2
  cases h
  simp only [buildWs] at hws
  split at hws
  · cases hws
  split at hws
  · cases hws
  next hneg =>
  cases hws
  simp only [buildWa] at hwa
  split at hwa
  · cases hwa
  cases hwa
  simp only [goodShape, Bool.and_eq_true, decide_eq_true_eq, List.all_eq_true] at hg
  obtain ⟨hl, hc⟩ := hg
  have hrp := sortByKey_perm ((wa.map fun x => pmod x 360).zip bsps)
  have hcp := sortByKey_perm (ws.zip (transpose ws.length ((sortByKey ((wa.map fun x => pmod x 360).zip bsps)).map (·.2))))
  have hrl : (sortByKey ((wa.map fun x => pmod x 360).zip bsps)).length = (wa.map fun x => pmod x 360).length := by
    rw [hrp.length_eq, List.length_zip, hl, Nat.min_self]
  have htl : ∀ (n : Nat) (rows : List (List K)), (transpose n rows).length = n := fun n rows => by simp [transpose]
  have hcl : (sortByKey (ws.zip (transpose ws.length
      ((sortByKey ((wa.map fun x => pmod x 360).zip bsps)).map (·.2))))).length = ws.length := by
    rw [hcp.length_eq, List.length_zip, htl, Nat.min_self]
  have hw : ∀ w ∈ (sortTable ws (wa.map fun x => pmod x 360) bsps).ws, w ∈ ws := by
    intro w hw
    obtain ⟨p, hp, rfl⟩ := List.mem_map.1 hw
    exact (List.of_mem_zip (hcp.mem_iff.1 hp)).1
  have ha : ∀ a ∈ (sortTable ws (wa.map fun x => pmod x 360) bsps).wa, ∃ b ∈ wa, pmod b 360 = a := by
    intro a ha
    obtain ⟨p, hp, rfl⟩ := List.mem_map.1 ha
    exact List.mem_map.1 (List.of_mem_zip (hrp.mem_iff.1 hp)).1
  refine ⟨⟨?_, ?_, ?_, ?_, ?_, ?_, ?_, ?_⟩, ⟨fun x hx => hP x (hw x hx), ?_, ?_⟩⟩
  · exact sortByKey_sorted _
  · exact sortByKey_sorted _
  · intro w hw'
    have hn : (ws.any fun x => decide (x < 0)) = false := by simpa using hneg
    rw [List.any_eq_false] at hn
    simpa using hn w (hw w hw')
  · intro a ha'
    obtain ⟨b, -, rfl⟩ := ha a ha'
    exact ⟨pmod_nonneg _ (by norm_num), pmod_lt _ (by norm_num)⟩
  · simp only [sortTable, htl, List.length_map] at hrl ⊢
    exact hrl.symm
  · intro r hr
    simp only [sortTable, transpose] at hr ⊢
    obtain ⟨j, -, rfl⟩ := List.mem_map.1 hr
    simp
  · intro h0
    have := congrArg List.length h0
    simp only [sortTable, List.length_map, hcl, List.length_nil] at this
    exact hne1 (List.length_eq_zero_iff.1 this)
  · intro h0
    have := congrArg List.length h0
    simp only [sortTable, List.length_map] at this hrl
    rw [hrl] at this
    exact hne2 (List.length_eq_zero_iff.1 (by simpa using this))
  · intro x hx
    obtain ⟨b, hb', rfl⟩ := ha x hx
    exact hQ b hb'
  · intro r hr x hx
    simp only [sortTable] at hr
    unfold transpose at hr
    obtain ⟨i, hi, rfl⟩ := List.mem_map.1 hr
    obtain ⟨c, hc', rfl⟩ := List.mem_map.1 hx
    obtain ⟨p, hp, rfl⟩ := List.mem_map.1 hc'
    have hp' := (List.of_mem_zip (hcp.mem_iff.1 hp)).2
    obtain ⟨j, hj, hpj⟩ := List.mem_map.1 hp'
    rw [List.mem_range] at hi hj
    have hi' : i < (sortByKey ((wa.map fun x => pmod x 360).zip bsps)).length := by rw [hrl]; exact hi
    have hm : ((sortByKey ((wa.map fun x => pmod x 360).zip bsps))[i]).2 ∈ bsps :=
      (List.of_mem_zip (hrp.mem_iff.1 (List.getElem_mem hi'))).2
    have hjr : j < ((sortByKey ((wa.map fun x => pmod x 360).zip bsps))[i]).2.length := by rw [hc _ hm]; exact hj
    have e : p.2.getD i 0 = ((sortByKey ((wa.map fun x => pmod x 360).zip bsps))[i]).2[j] := by
      rw [← hpj]
      simp [List.getD_eq_getElem?_getD, hi', hjr]
    rw [e]
    exact hb _ hm _ (List.getElem_mem hjr)

theorem entryOf_mem {new : NewBsps K} {m r c : Nat} {y : K} (h : entryOf new m r c = some y) : y ∈ new.flat := by
  cases new with
  | d1 l => exact List.mem_of_getElem? h
  | d2 rows =>
    simp only [entryOf, Option.bind_eq_some_iff] at h
    obtain ⟨row, h1, h2⟩ := h
    exact List.mem_flatten.2 ⟨row, List.mem_of_getElem? h1, List.mem_of_getElem? h2⟩

theorem change_storable {P Q : K → Prop} {t : Table K} (h : Storable t) (ho : Of P Q t) {c : Change K}
    (hc : ∀ x ∈ c.new.flat, P x) :
    Storable (changeEntries t c.new c.ws c.wa).1 ∧ Of P Q (changeEntries t c.new c.ws c.wa).1 := by
  rcases he : changeEntries t c.new c.ws c.wa with ⟨t', e⟩
  cases e with
  | some e =>
    rw [C32_raises_unchanged he]
    exact ⟨h, ho⟩
  | none =>
    obtain ⟨h1, h2, h3, h4⟩ := C32_change h.rows h.cols he
    have hrow : ∀ r' ∈ t'.bsps, r'.length = t'.ws.length ∧ ∀ x ∈ r', P x := by
      intro r' hr'
      obtain ⟨i, hi⟩ := List.getElem?_of_mem hr'
      have hil : i < t.bsps.length := by
        rw [← h3]; exact (List.getElem?_eq_some_iff.1 hi).1
      have hiw : i < t.wa.length := h.rows ▸ hil
      have hcol := h.cols _ (List.getElem_mem hil)
      have key : ∀ j (hj : j < t.ws.length), ∃ y, r'[j]? = some y ∧ r'.length = t.ws.length ∧ P y := by
        intro j hj
        have hjr : j < (t.bsps[i]).length := by rw [hcol]; exact hj
        obtain ⟨r'', y, e1, e2, e3, e4, e5⟩ := h4 i j _ _ _ _ (List.getElem?_eq_getElem hiw) (List.getElem?_eq_getElem hj)
          (List.getElem?_eq_getElem hil) (List.getElem?_eq_getElem hjr)
        rw [hi] at e1
        cases e1
        refine ⟨y, e2, by rw [e3, hcol], ?_⟩
        by_cases hs : SelWa c.wa t.wa[i] = true ∧ SelWs c.ws t.ws[j] = true
        · exact hc _ (entryOf_mem (e4 hs))
        · rw [e5 hs]
          exact ho.bsps _ (List.getElem_mem hil) _ (List.getElem_mem hjr)
      have hlen : r'.length = t.ws.length := (key 0 (List.length_pos_iff.2 h.ws_ne)).choose_spec.2.1
      refine ⟨by rw [hlen, h1], fun x hx => ?_⟩
      obtain ⟨j, hj⟩ := List.getElem?_of_mem hx
      obtain ⟨y, e1, -, e2⟩ := key j (hlen ▸ (List.getElem?_eq_some_iff.1 hj).1)
      rw [hj] at e1
      cases e1
      exact e2
    refine ⟨⟨?_, ?_, ?_, ?_, ?_, fun r hr => (hrow r hr).1, ?_, ?_⟩, ⟨?_, ?_, fun r hr => (hrow r hr).2⟩⟩
    · simp only [h1]; exact h.ws_sorted
    · simp only [h2]; exact h.wa_sorted
    · simp only [h1]; exact h.ws_nonneg
    · simp only [h2]; exact h.wa_range
    · simp only [h2, h3]; exact h.rows
    · simp only [h1]; exact h.ws_ne
    · simp only [h2]; exact h.wa_ne
    · simp only [h1]; exact ho.ws
    · simp only [h2]; exact ho.wa

theorem symmetrize_storable {P Q : K → Prop} (hQ : ∀ a, Q a → Q (pmod (360 - a) 360)) {t t' : Table K} (h : Storable t)
    (ho : Of P Q t) (hs : symmetrize t = .ok t') : Storable t' ∧ Of P Q t' := by
  unfold symmetrize at hs
  refine init_storable hs ho.ws ?_ ?_
  · intro x hx
    have hx' : x ∈ t.wa ++ t.wa.reverse.map (360 - ·) := by
      revert hx
      split <;> split <;> intro hx
      · exact List.mem_of_mem_eraseIdx (List.mem_of_mem_dropLast hx)
      · exact List.mem_of_mem_dropLast hx
      · exact List.mem_of_mem_eraseIdx hx
      · exact hx
    rcases List.mem_append.1 hx' with h1 | h1
    · rw [pmod_of_mem (h.wa_range x h1).1 (h.wa_range x h1).2]
      exact ho.wa x h1
    · obtain ⟨a, h2, rfl⟩ := List.mem_map.1 h1
      exact hQ a (ho.wa a (List.mem_reverse.1 h2))
  · intro r hr
    have hr' : r ∈ t.bsps ++ t.bsps.reverse := by
      revert hr
      split <;> split <;> intro hr
      · exact List.mem_of_mem_eraseIdx (List.mem_of_mem_dropLast hr)
      · exact List.mem_of_mem_dropLast hr
      · exact List.mem_of_mem_eraseIdx hr
      · exact hr
    rcases List.mem_append.1 hr' with h1 | h1
    · exact ho.bsps r h1
    · exact ho.bsps r (List.mem_reverse.1 h1)

/-- Files may be used for the numbers with the property `P`. -/
theorem session_on {P Q : K → Prop} {print : K → Text} {parse : Text → Except PyErr K} (hpp : RoundTripOn P print parse)
    (h0 : P 0) (hQP : ∀ a, Q a → P a) (hQ : ∀ a, Q a → Q (pmod (360 - a) 360)) (steps : List (Step K)) :
    ∀ {t : Table K}, Storable t → Of P Q t → (∀ c, Step.change c ∈ steps → ∀ x ∈ c.new.flat, P x) →
      ∃ t', session print parse t steps = .ok t' ∧ session print parse t (steps.filter Step.works) = .ok t' ∧
        Storable t' ∧ Of P Q t' := by
  induction steps with
  | nil => exact fun h ho _ => ⟨_, rfl, rfl, h, ho⟩
  | cons s steps ih =>
    intro t h ho hc
    have hc' : ∀ c, Step.change c ∈ steps → ∀ x ∈ c.new.flat, P x := fun c hm => hc c (List.mem_cons_of_mem _ hm)
    cases s with
    | change c =>
      obtain ⟨h1, h2⟩ := change_storable h ho (hc c List.mem_cons_self)
      simpa only [session, step, List.filter_cons, Step.works, if_true] using ih h1 h2 hc'
    | symmetrize =>
      cases hs : symmetrize t with
      | error e => simpa only [session, step, hs, List.filter_cons, Step.works, if_true] using ih h ho hc'
      | ok t' =>
        obtain ⟨h1, h2⟩ := symmetrize_storable hQ h ho hs
        simpa only [session, step, hs, List.filter_cons, Step.works, if_true] using ih h1 h2 hc'
    | file fmt =>
      have e := round_trip_on hpp h h0 ho.ws (fun x hx => hQP x (ho.wa x hx)) ho.bsps fmt
      simpa only [session, step, e, List.filter_cons, Step.works, Bool.false_eq_true, if_false] using ih h ho hc'

/-! ### Properties -/

/-- **C189.** A table may be written to a file and read again, in any format, as often and whenever one likes: whatever else is
done before, in between and afterwards, nothing raises and the table is the one without files. -/
theorem C189_table {print : K → Text} {parse : Text → Except PyErr K} (h : RoundTrip print parse) {t : Table K} (ht : Storable t)
    (steps : List (Step K)) :
    ∃ t', session print parse t steps = .ok t' ∧ session print parse t (steps.filter Step.works) = .ok t' ∧ Storable t' := by
  obtain ⟨t', h1, h2, h3, -⟩ := session_on (P := fun _ => True) (Q := fun _ => True) h.on trivial (fun _ _ => trivial)
    (fun _ _ => trivial) steps ht ⟨fun _ _ => trivial, fun _ _ => trivial, fun _ _ _ _ => trivial⟩ fun _ _ _ _ => trivial
  exact ⟨t', h1, h2, h3⟩

/-- **C189.** In particular the table after changes of entries and uses of files is the table after the changes. -/
theorem C189_changes {print : K → Text} {parse : Text → Except PyErr K} (h : RoundTrip print parse) {t : Table K}
    (ht : Storable t) {steps : List (Step K)} {cs : List (Change K)} (hs : steps.filter Step.works = cs.map .change) :
    session print parse t steps = .ok (history t cs) := by
  obtain ⟨t', h1, h2, -⟩ := C189_table h ht steps
  rw [h1, ← h2, hs]
  clear h1 h2 hs ht
  induction cs generalizing t with
  | nil => rfl
  | cons c cs ih => simpa only [List.map_cons, session, step, history] using ih

/-- **C189.** Every table made from given winds and speeds can be the beginning of such a session. -/
theorem C189_begin {ws wa : List K} {bsps : List (List K)} {t : Table K}
    (h : init (.values ws) (.values wa) (some bsps) = .ok t) : Storable t :=
  (init_storable (P := fun _ => True) (Q := fun _ => True) h (fun _ _ => trivial) (fun _ _ => trivial) fun _ _ _ _ => trivial).1

/-- A session with all formats, a change that is carried out, one that is refused, and two symmetrisations. -/
example : RoundTrip (fun x : ℚ => '0' :: List.replicate (Encodable.encode x) '1')
    (fun l => match Encodable.decode (α := ℚ) (l.length - 1) with
      | some x => .ok x
      | none => .error .valueError) :=
  ⟨fun x => by simp, fun x => by simp, fun x c hc => by
    rcases List.mem_cons.1 hc with rfl | hc
    · decide
    · rw [List.eq_of_mem_replicate hc]; decide⟩

example : init (.values [8, (6 : ℚ)]) (.values [90, 30]) (some [[4, 3], [2, 1]]) = .ok ⟨[6, 8], [30, 90], [[1, 2], [3, 4]]⟩ ∧
    ([Step.file .orc, .change ⟨.d1 [5], some [6], some [30]⟩, .file .hro, .change ⟨.d1 [5], some [7], some [30]⟩,
      .file .array, .file .opencpn] : List (Step ℚ)).filter Step.works =
      [⟨.d1 [5], some [6], some [30]⟩, ⟨.d1 [5], some [7], some [30]⟩].map .change ∧
    history (⟨[6, 8], [30, 90], [[1, 2], [3, 4]]⟩ : Table ℚ) [⟨.d1 [5], some [6], some [30]⟩, ⟨.d1 [5], some [7], some [30]⟩] =
      ⟨[6, 8], [30, 90], [[5, 2], [3, 4]]⟩ := by
  refine ⟨?_, rfl, by decide +kernel⟩
  have h : (init (.values [8, (6 : ℚ)]) (.values [90, 30]) (some [[4, 3], [2, 1]])).toOption =
    some ⟨[6, 8], [30, 90], [[1, 2], [3, 4]]⟩ := by decide +kernel
  cases hi : init (.values [8, (6 : ℚ)]) (.values [90, 30]) (some [[4, 3], [2, 1]]) with
  | error e => rw [hi] at h; cases h
  | ok t => rw [hi] at h; cases h; rfl

end Verif.Table

namespace Verif.Table

open Verif.F64 Verif.FloatText

/-- Angles which are doubles, as are the angles on the other side. -/
def Sides (a : ℚ) : Prop := 0 ≤ a ∧ a < 360 ∧ fl a = a ∧ fl (360 - a) = 360 - a

/-- **C189.** With the decimal notation of doubles: if the numbers of the table, the new entries and the mirrored angles are doubles,
files may be used at any time. -/
theorem C189_double {t : Table ℚ} (ht : Storable t) (hws : ∀ x ∈ t.ws, fl x = x) (hwa : ∀ a ∈ t.wa, Sides a)
    (hb : ∀ r ∈ t.bsps, ∀ x ∈ r, fl x = x) {steps : List (Step ℚ)}
    (hc : ∀ c, Step.change c ∈ steps → ∀ x ∈ c.new.flat, fl x = x) :
    ∃ t', session print parse t steps = .ok t' ∧ session print parse t (steps.filter Step.works) = .ok t' := by
  have hS : ∀ a, Sides a → Sides (pmod (360 - a) 360) := by
    rintro a ⟨h0, h1, h2, h3⟩
    rcases h0.eq_or_lt with rfl | h0
    · have : pmod (360 - 0) (360 : ℚ) = 0 := by decide +kernel
      rw [this]
      exact ⟨le_refl _, by norm_num, h2, h3⟩
    · rw [pmod_of_mem (by linarith) (by linarith)]
      exact ⟨by linarith, by linarith, h3, by rw [sub_sub_cancel]; exact h2⟩
  obtain ⟨t', h1, h2, -⟩ := session_on (P := fun x => fl x = x) (Q := Sides) roundTrip_double fl_zero (fun a h => h.2.2.1) hS
    steps ht ⟨hws, hwa, hb⟩ hc
  exact ⟨t', h1, h2⟩

example : Sides 45 ∧ Sides (65 / 2) ∧ ¬ Sides (fl (3209 / 100)) := by
  refine ⟨⟨by norm_num, by norm_num, by decide +kernel, by decide +kernel⟩,
    ⟨by norm_num, by norm_num, by decide +kernel, by decide +kernel⟩, fun h => absurd h.2.2.2 (by decide +kernel)⟩

end Verif.Table

namespace Verif.Cloud

open Verif.Interp Verif.Table

variable {K : Type} [Field K] [LinearOrder K] [IsStrictOrderedRing K] [FloorRing K]

/-- **C189.** The same for a point cloud with at least one point. -/
theorem C189_cloud {print : K → Text} {parse : Text → Except PyErr K} (h : RoundTrip print parse)
    (steps : List (Option (Step K))) : ∀ {cloud : List (Pt K)}, cloud ≠ [] → Normal cloud →
      session print parse cloud steps = .ok (history cloud steps.reduceOption) := by
  induction steps with
  | nil => intro cloud _ _; rfl
  | cons s steps ih =>
    intro cloud hne hn
    cases s with
    | none =>
      have e : (none :: steps).reduceOption = steps.reduceOption := by simp [List.reduceOption]
      simpa only [session, C53_round_trip h hne hn, e] using ih hne hn
    | some s =>
      have hk := C171_keeps hn [s]
      simp only [history] at hk
      have hne' : step cloud s ≠ [] := by
        intro h0
        rw [h0] at hk
        exact hne (List.prefix_nil.1 hk.1)
      have e : (some s :: steps).reduceOption = s :: steps.reduceOption := by simp [List.reduceOption]
      simpa only [session, e, history] using ih hne' hk.2

example : ([((6, 90), 4)] : List (Pt ℚ)) ≠ [] ∧ Normal ([((6, 90), 4)] : List (Pt ℚ)) ∧
    history [((6, 90), 4)] [.add [((8, -90), 5)], .add [((0, 0), 1)], .symmetrize] =
      ([((6, 90), 4), ((8, 270), 5), ((6, 270), 4), ((8, 90), 5)] : List (Pt ℚ)) ∧
    [none, some (.add [((8, -90), 5)]), none, none, some (.add [((0, 0), 1)]), some .symmetrize, none].reduceOption =
      ([.add [((8, -90), 5)], .add [((0, 0), 1)], .symmetrize] : List (Step ℚ)) := by
  refine ⟨by simp, ?_, by decide +kernel, rfl⟩
  intro p hp
  rw [List.mem_singleton.1 hp]
  norm_num

/-- **C189.** A point is needed: the file of an empty cloud can not be read. -/
theorem C189_cloud_needed (print : K → Text) (parse : Text → Except PyErr K) (steps : List (Option (Step K))) :
    session print parse ([] : List (Pt K)) (none :: steps) = .error .indexError := by
  simp only [session, C53_empty_false]

end Verif.Cloud
