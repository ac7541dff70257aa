import Mathlib.Data.Rat.Defs
import Mathlib.Algebra.Order.Ring.Rat
import Mathlib.Data.Rat.Floor
import Mathlib.Data.Rat.Encodable
import Mathlib.Tactic.IntervalCases
import Verif.Lemmas.Table
import Verif.Lemmas.Csv

/-!
# Properties C34 and C35: csv files and printing of tables
-/

set_option linter.unusedSectionVars false

namespace Verif.Table

variable {K : Type} [Field K] [LinearOrder K] [IsStrictOrderedRing K] [FloorRing K]

/-! ### C34 -/

/-- The tables which can be stored: sorted non-negative wind speeds, sorted wind angles in [0, 360), boat speeds of the
right shape, not empty. -/
structure Storable (t : Table K) : Prop where
  ws_sorted : t.ws.Pairwise (· ≤ ·)
  wa_sorted : t.wa.Pairwise (· ≤ ·)
  ws_nonneg : ∀ w ∈ t.ws, 0 ≤ w
  wa_range : ∀ a ∈ t.wa, 0 ≤ a ∧ a < 360
  rows : t.bsps.length = t.wa.length
  cols : ∀ r ∈ t.bsps, r.length = t.ws.length
  ws_ne : t.ws ≠ []
  wa_ne : t.wa ≠ []

theorem transpose_transpose {n m : Nat} {rows : List (List K)} (hn : rows.length = n) (hm : ∀ r ∈ rows, r.length = m) :
    transpose n (transpose m rows) = rows := by
  apply List.ext_getElem?
  intro i
  by_cases hi : i < n
  · rw [transpose_getElem? hi, List.getElem?_eq_getElem (by omega)]
    congr 1
    have hri : rows[i].length = m := hm _ (List.getElem_mem _)
    apply List.ext_getElem?
    intro j
    by_cases hj : j < m
    · rw [List.getElem?_map, transpose_getElem? hj, List.getElem?_eq_getElem (by omega)]
      have : i < rows.length := by omega
      simp [List.getD_eq_getElem?_getD, this, hri, hj]
    · rw [List.getElem?_eq_none (by simp [transpose]; omega), List.getElem?_eq_none (by omega)]
  · rw [List.getElem?_eq_none (by simp [transpose]; omega), List.getElem?_eq_none (by omega)]

theorem sortByKey_zip {α : Type} {l : List K} {m : List α} (h : l.Pairwise (· ≤ ·)) :
    sortByKey (l.zip m) = l.zip m := by
  apply List.Pairwise.insertionSort_eq
  induction l generalizing m with
  | nil => simp
  | cons a l ih =>
    cases m with
    | nil => simp
    | cons b m =>
      rw [List.pairwise_cons] at h
      rw [List.zip_cons_cons, List.pairwise_cons]
      exact ⟨fun p hp => h.1 p.1 (List.of_mem_zip hp).1, ih h.2⟩

/-- Constructing a table from its own arrays gives the table. -/
theorem init_self {t : Table K} (h : Storable t) :
    init (.values t.ws) (.values t.wa) (some t.bsps) = .ok t := by
  have hneg : (t.ws.any fun x => decide (x < 0)) = false := by
    rw [List.any_eq_false]; intro w hw; simpa using h.ws_nonneg w hw
  have hmod : (t.wa.map fun a => pmod a 360) = t.wa := by
    conv_rhs => rw [← List.map_id t.wa]
    apply List.map_congr_left
    intro a ha
    exact pmod_of_mem (h.wa_range a ha).1 (h.wa_range a ha).2
  have hshape : goodShape t.bsps t.ws t.wa = true := by
    simp only [goodShape, h.rows, decide_true, Bool.true_and, List.all_eq_true, decide_eq_true_eq]
    exact h.cols
  have e1 : t.ws.isEmpty = false := by simpa using h.ws_ne
  have e2 : t.wa.isEmpty = false := by simpa using h.wa_ne
  have hs : sortTable t.ws t.wa t.bsps = t := by
    have z1 : (t.wa.zip t.bsps).map (·.1) = t.wa := List.map_fst_zip (by rw [h.rows])
    have z2 : (t.wa.zip t.bsps).map (·.2) = t.bsps := List.map_snd_zip (by rw [h.rows])
    have tl : (transpose t.ws.length t.bsps).length = t.ws.length := by simp [transpose]
    have z3 : (t.ws.zip (transpose t.ws.length t.bsps)).map (·.1) = t.ws := List.map_fst_zip (by rw [tl])
    have z4 : (t.ws.zip (transpose t.ws.length t.bsps)).map (·.2) = transpose t.ws.length t.bsps :=
      List.map_snd_zip (by rw [tl])
    simp only [sortTable, sortByKey_zip h.wa_sorted, z1, z2, sortByKey_zip h.ws_sorted, z3, z4,
      transpose_transpose h.rows h.cols]
  simp only [init, buildWs, buildWa, e1, e2, hneg, hmod, hshape, Bool.false_eq_true, if_false, bind,
    Except.bind, not_true_eq_false, or_self, hs]

/-- Writing a table with numbers that can be written and read, and reading the file, gives the table. -/
theorem round_trip_on {P : K → Prop} {print : K → Text} {parse : Text → Except PyErr K} (h : RoundTripOn P print parse)
    {t : Table K} (ht : Storable t) (h0 : P 0) (hws : ∀ x ∈ t.ws, P x) (hwa : ∀ x ∈ t.wa, P x)
    (hb : ∀ r ∈ t.bsps, ∀ x ∈ r, P x) (fmt : Format) : fromCsv parse (toCsv print t fmt) fmt = .ok t := by
  have hpr : ∀ x, P x → print x ≠ [] ∧ ',' ∉ print x ∧ ';' ∉ print x ∧ '\n' ∉ print x ∧ ' ' ∉ print x ∧ '\t' ∉ print x ∧
      '\r' ∉ print x := by
    intro x hx
    have hc := h.clean x hx
    refine ⟨h.ne x hx, ?_, ?_, ?_, ?_, ?_, ?_⟩ <;> intro hm <;> have := hc _ hm <;> simp at this
  have z1 : (t.wa.zip t.bsps).map (·.1) = t.wa := List.map_fst_zip (by rw [ht.rows])
  have z2 : (t.wa.zip t.bsps).map (·.2) = t.bsps := List.map_snd_zip (by rw [ht.rows])
  have hrow : ∀ r ∈ csvRows print t, r ≠ [] ∧ r.length = t.ws.length + 1 ∧ ∀ f ∈ r, ∃ x, P x ∧ f = print x := by
    intro r hr
    obtain ⟨p, hp, rfl⟩ := List.mem_map.1 hr
    refine ⟨by simp, by simp [ht.cols _ (List.of_mem_zip hp).2], ?_⟩
    intro f hf
    rcases List.mem_cons.1 hf with rfl | hf
    · exact ⟨_, hwa _ (List.of_mem_zip hp).1, rfl⟩
    · obtain ⟨x, hx, rfl⟩ := List.mem_map.1 hf
      exact ⟨x, hb _ (List.of_mem_zip hp).2 x hx, rfl⟩
  have hzip : ∀ p ∈ t.wa.zip t.bsps, P p.1 ∧ ∀ x ∈ p.2, P x := fun p hp =>
    ⟨hwa _ (List.of_mem_zip hp).1, hb _ (List.of_mem_zip hp).2⟩
  have hrows : ∀ r ∈ (t.wa.zip t.bsps).map (fun p => p.1 :: p.2), ∀ x ∈ r, P x := by
    intro r hr x hx
    obtain ⟨p, hp, rfl⟩ := List.mem_map.1 hr
    rcases List.mem_cons.1 hx with rfl | hx
    · exact (hzip p hp).1
    · exact (hzip p hp).2 x hx
  cases fmt with
  | orc =>
    have hg : ∀ r ∈ ("twa/tws".toList :: t.ws.map print) :: (List.replicate (t.ws.length + 1) (print 0)) ::
        csvRows print t, r ≠ [] ∧ ∀ f ∈ r, f ≠ [] ∧ ';' ∉ f ∧ '\n' ∉ f := by
      intro r hr
      rcases List.mem_cons.1 hr with rfl | hr
      · refine ⟨by simp, fun f hf => ?_⟩
        rcases List.mem_cons.1 hf with rfl | hf
        · decide
        · obtain ⟨x, hx, rfl⟩ := List.mem_map.1 hf
          replace hx := hws x hx
          exact ⟨(hpr x hx).1, (hpr x hx).2.2.1, (hpr x hx).2.2.2.1⟩
      · rcases List.mem_cons.1 hr with rfl | hr
        · refine ⟨by simp, fun f hf => ?_⟩
          rw [List.eq_of_mem_replicate hf]
          exact ⟨(hpr 0 h0).1, (hpr 0 h0).2.2.1, (hpr 0 h0).2.2.2.1⟩
        · refine ⟨(hrow r hr).1, fun f hf => ?_⟩
          obtain ⟨x, hx, rfl⟩ := (hrow r hr).2.2 f hf
          exact ⟨(hpr x hx).1, (hpr x hx).2.2.1, (hpr x hx).2.2.2.1⟩
    simp only [fromCsv, toCsv]
    rw [lines_writeRows (by decide) (fun r hr f hf => ((hg r hr).2 f hf).2.2),
      readRows_map (fun r hr => ⟨(hg r hr).1, fun f hf => ⟨((hg r hr).2 f hf).1, ((hg r hr).2 f hf).2.1⟩⟩)]
    simp only [List.tail_cons, parseAll_on h.parse_print hws, csvRows, readAngles_on h _ hzip, z1, z2]
    exact init_self ht
  | opencpn =>
    have hg : ∀ r ∈ ("TWA \\ TWS".toList :: t.ws.map print) :: csvRows print t,
        r ≠ [] ∧ ∀ f ∈ r, f ≠ [] ∧ ',' ∉ f ∧ '\n' ∉ f := by
      intro r hr
      rcases List.mem_cons.1 hr with rfl | hr
      · refine ⟨by simp, fun f hf => ?_⟩
        rcases List.mem_cons.1 hf with rfl | hf
        · decide
        · obtain ⟨x, hx, rfl⟩ := List.mem_map.1 hf
          replace hx := hws x hx
          exact ⟨(hpr x hx).1, (hpr x hx).2.1, (hpr x hx).2.2.2.1⟩
      · refine ⟨(hrow r hr).1, fun f hf => ?_⟩
        obtain ⟨x, hx, rfl⟩ := (hrow r hr).2.2 f hf
        exact ⟨(hpr x hx).1, (hpr x hx).2.1, (hpr x hx).2.2.2.1⟩
    simp only [fromCsv, toCsv]
    rw [lines_writeRows (by decide) (fun r hr f hf => ((hg r hr).2 f hf).2.2),
      readRows_map (fun r hr => ⟨(hg r hr).1, fun f hf => ⟨((hg r hr).2 f hf).1, ((hg r hr).2 f hf).2.1⟩⟩)]
    simp only [List.tail_cons, parseAll_on h.parse_print hws, csvRows, readAngles_on h _ hzip, z1, z2]
    exact init_self ht
  | array =>
    have hg : ∀ r ∈ ("TWA\\TWS".toList :: t.ws.map print) :: csvRows print t,
        r ≠ [] ∧ ∀ f ∈ r, f ≠ [] ∧ ' ' ∉ f ∧ '\t' ∉ f ∧ '\r' ∉ f ∧ '\n' ∉ f := by
      intro r hr
      rcases List.mem_cons.1 hr with rfl | hr
      · refine ⟨by simp, fun f hf => ?_⟩
        rcases List.mem_cons.1 hf with rfl | hf
        · decide
        · obtain ⟨x, hx, rfl⟩ := List.mem_map.1 hf
          replace hx := hws x hx
          exact ⟨(hpr x hx).1, (hpr x hx).2.2.2.2.1, (hpr x hx).2.2.2.2.2.1, (hpr x hx).2.2.2.2.2.2, (hpr x hx).2.2.2.1⟩
      · refine ⟨(hrow r hr).1, fun f hf => ?_⟩
        obtain ⟨x, hx, rfl⟩ := (hrow r hr).2.2 f hf
        exact ⟨(hpr x hx).1, (hpr x hx).2.2.2.2.1, (hpr x hx).2.2.2.2.2.1, (hpr x hx).2.2.2.2.2.2, (hpr x hx).2.2.2.1⟩
    simp only [fromCsv, toCsv]
    rw [lines_writeRows (by decide) (fun r hr f hf => ((hg r hr).2 f hf).2.2.2.2)]
    have hw : (((("TWA\\TWS".toList :: t.ws.map print) :: csvRows print t).map ['\t'].intercalate).map words) =
        ("TWA\\TWS".toList :: t.ws.map print) :: csvRows print t := by
      rw [List.map_map]
      conv_rhs => rw [← List.map_id (("TWA\\TWS".toList :: t.ws.map print) :: csvRows print t)]
      apply List.map_congr_left
      intro r hr
      exact words_intercalate (hg r hr).1 (fun f hf =>
        ⟨((hg r hr).2 f hf).1, ((hg r hr).2 f hf).2.1, ((hg r hr).2 f hf).2.2.1, ((hg r hr).2 f hf).2.2.2.1⟩)
    have hfil : ((("TWA\\TWS".toList :: t.ws.map print) :: csvRows print t).filter fun l => !l.isEmpty) =
        ("TWA\\TWS".toList :: t.ws.map print) :: csvRows print t := by
      rw [List.filter_eq_self]
      intro r hr
      simpa using (hg r hr).1
    have hall : ((csvRows print t).all fun r => decide (r.length = ("TWA\\TWS".toList :: t.ws.map print).length)) =
        true := by
      rw [List.all_eq_true]
      intro r hr
      simp [(hrow r hr).2.1]
    have hemp : (csvRows print t).isEmpty = false := by
      have : csvRows print t ≠ [] := by
        intro he
        have := congrArg List.length he
        simp [csvRows, ht.rows] at this
        exact ht.wa_ne this
      simpa using this
    have hcsv : csvRows print t = ((t.wa.zip t.bsps).map fun p => p.1 :: p.2).map (·.map print) := by
      simp [csvRows]
    have hm1 : ((t.wa.zip t.bsps).map fun p => p.1 :: p.2).map (·.headD 0) = t.wa := by
      rw [List.map_map]; exact z1
    have hm2 : ((t.wa.zip t.bsps).map fun p => p.1 :: p.2).map List.tail = t.bsps := by
      rw [List.map_map]; exact z2
    simp only [readArray, hw, hfil, hall, not_true_eq_false, if_false, hemp, Bool.false_eq_true, List.tail_cons,
      parseAll_on h.parse_print hws]
    rw [hcsv]
    simp only [parseRows_on h.parse_print hrows, hm1, hm2]
    exact init_self ht
  | hro =>
    have hg : ∀ r ∈ ["TWS".toList] :: t.ws.map print :: ["TWA".toList] ::
      t.wa.map print :: ["BSP".toList] :: t.bsps.map (·.map print),
        r ≠ [] ∧ ∀ f ∈ r, f ≠ [] ∧ ',' ∉ f ∧ '\n' ∉ f := by
      have hm : ∀ l : List K, (∀ x ∈ l, P x) → l ≠ [] → l.map print ≠ [] ∧ ∀ f ∈ l.map print, f ≠ [] ∧ ',' ∉ f ∧ '\n' ∉ f := by
        intro l hP hl
        refine ⟨by simpa using hl, fun f hf => ?_⟩
        obtain ⟨x, hx, rfl⟩ := List.mem_map.1 hf
        replace hx := hP x hx
        exact ⟨(hpr x hx).1, (hpr x hx).2.1, (hpr x hx).2.2.2.1⟩
      intro r hr
      rcases List.mem_cons.1 hr with rfl | hr
      · decide
      rcases List.mem_cons.1 hr with rfl | hr
      · exact hm _ hws ht.ws_ne
      rcases List.mem_cons.1 hr with rfl | hr
      · decide
      rcases List.mem_cons.1 hr with rfl | hr
      · exact hm _ hwa ht.wa_ne
      rcases List.mem_cons.1 hr with rfl | hr
      · decide
      · obtain ⟨l, hl, rfl⟩ := List.mem_map.1 hr
        refine hm l (hb l hl) ?_
        intro he
        have := ht.cols l hl
        rw [he] at this
        exact ht.ws_ne (List.length_eq_zero_iff.1 this.symm)
    simp only [fromCsv, toCsv]
    rw [lines_writeRows (by decide) (by
      intro r hr
      rcases List.mem_cons.1 hr with rfl | hr
      · decide
      · exact fun f hf => ((hg r hr).2 f hf).2.2)]
    rw [List.map_cons]
    have hfirst : [','].intercalate ["PolarDiagramTable".toList] = "PolarDiagramTable".toList := by decide
    simp only [hfirst, ne_eq, not_true_eq_false, if_false]
    rw [readRows_map (fun r hr => ⟨(hg r hr).1, fun f hf => ⟨((hg r hr).2 f hf).1, ((hg r hr).2 f hf).2.1⟩⟩)]
    simp only [parseAll_on h.parse_print hws, parseAll_on h.parse_print hwa, parseRows_on h.parse_print hb]
    exact init_self ht

/-- **C34.** Writing a table in any of the four formats and reading the file in the same format gives the table. -/
theorem C34_round_trip {print : K → Text} {parse : Text → Except PyErr K} (h : RoundTrip print parse) {t : Table K}
    (ht : Storable t) (fmt : Format) : fromCsv parse (toCsv print t fmt) fmt = .ok t :=
  round_trip_on h.on ht trivial (fun _ _ => trivial) (fun _ _ => trivial) (fun _ _ _ _ => trivial) fmt

theorem readAngles_blank {print : K → Text} {parse : Text → Except PyErr K} (h : RoundTrip print parse)
    (l : List (K × List K)) :
    readAnglesAndSpeeds parse ((l.map fun p => print p.1 :: p.2.map print) ++ [[]]) = .error .indexError := by
  induction l with
  | nil => rfl
  | cons p l ih =>
    have h1 := readAngles_map h [p]
    simp only [List.map_cons, List.map_nil, readAnglesAndSpeeds] at h1
    simp only [List.map_cons, List.cons_append, readAnglesAndSpeeds, ih]
    split at h1
    · simp at h1
    · split at h1
      · simp at h1
      · rfl

/-- **C34**, about files with an additional empty line at their end: in the formats `orc` and `opencpn` a file which differs from
the written one by an additional empty line cannot be read; an `IndexError` is raised. -/
theorem C34_blank_line {print : K → Text} {parse : Text → Except PyErr K} (h : RoundTrip print parse) {t : Table K} :
    fromCsv parse (toCsv print t .orc ++ ['\r', '\n']) .orc = .error .indexError ∧
    fromCsv parse (toCsv print t .opencpn ++ ['\r', '\n']) .opencpn = .error .indexError := by
  have hpr : ∀ x, print x ≠ [] ∧ ',' ∉ print x ∧ ';' ∉ print x ∧ '\n' ∉ print x := by
    intro x
    have hc := h.clean x
    refine ⟨h.ne x, ?_, ?_, ?_⟩ <;> intro hm <;> have := hc _ hm <;> simp at this
  have hrow : ∀ r ∈ csvRows print t, r ≠ [] ∧ ∀ f ∈ r, ∃ x, f = print x := by
    intro r hr
    obtain ⟨p, hp, rfl⟩ := List.mem_map.1 hr
    refine ⟨by simp, ?_⟩
    intro f hf
    rcases List.mem_cons.1 hf with rfl | hf
    · exact ⟨_, rfl⟩
    · obtain ⟨x, -, rfl⟩ := List.mem_map.1 hf
      exact ⟨x, rfl⟩
  have happ : ∀ (c : Char) (rows : List (List Text)),
      writeRows c rows ++ ['\r', '\n'] = writeRows c (rows ++ [[]]) := by
    intro c rows
    simp [writeRows, writeRow]
  have hread : ∀ (c : Char) (rows : List (List Text)), (∀ r ∈ rows, r ≠ [] ∧ ∀ f ∈ r, f ≠ [] ∧ c ∉ f) →
      readRows c ((rows ++ [[]]).map [c].intercalate) = rows ++ [[]] := by
    intro c rows hr
    have := readRows_map hr
    simp only [readRows, List.map_append, List.map_cons, List.map_nil] at this ⊢
    rw [this]
    rfl
  constructor
  · have hg : ∀ r ∈ ("twa/tws".toList :: t.ws.map print) :: (List.replicate (t.ws.length + 1) (print 0)) ::
        csvRows print t, r ≠ [] ∧ ∀ f ∈ r, f ≠ [] ∧ ';' ∉ f ∧ '\n' ∉ f := by
      intro r hr
      rcases List.mem_cons.1 hr with rfl | hr
      · refine ⟨by simp, fun f hf => ?_⟩
        rcases List.mem_cons.1 hf with rfl | hf
        · decide
        · obtain ⟨x, -, rfl⟩ := List.mem_map.1 hf
          exact ⟨(hpr x).1, (hpr x).2.2⟩
      · rcases List.mem_cons.1 hr with rfl | hr
        · refine ⟨by simp, fun f hf => ?_⟩
          rw [List.eq_of_mem_replicate hf]
          exact ⟨(hpr 0).1, (hpr 0).2.2⟩
        · refine ⟨(hrow r hr).1, fun f hf => ?_⟩
          obtain ⟨x, rfl⟩ := (hrow r hr).2 f hf
          exact ⟨(hpr x).1, (hpr x).2.2⟩
    simp only [fromCsv, toCsv]
    rw [happ, lines_writeRows (by decide) (by
      intro r hr
      rcases List.mem_append.1 hr with hr | hr
      · exact fun f hf => ((hg r hr).2 f hf).2.2
      · simp at hr; subst hr; simp),
      hread _ _ (fun r hr => ⟨(hg r hr).1, fun f hf => ⟨((hg r hr).2 f hf).1, ((hg r hr).2 f hf).2.1⟩⟩)]
    simp only [List.cons_append, List.tail_cons, parseAll_map h.parse_print, csvRows, readAngles_blank h]
  · have hg : ∀ r ∈ ("TWA \\ TWS".toList :: t.ws.map print) :: csvRows print t,
        r ≠ [] ∧ ∀ f ∈ r, f ≠ [] ∧ ',' ∉ f ∧ '\n' ∉ f := by
      intro r hr
      rcases List.mem_cons.1 hr with rfl | hr
      · refine ⟨by simp, fun f hf => ?_⟩
        rcases List.mem_cons.1 hf with rfl | hf
        · decide
        · obtain ⟨x, -, rfl⟩ := List.mem_map.1 hf
          exact ⟨(hpr x).1, (hpr x).2.1, (hpr x).2.2.2⟩
      · refine ⟨(hrow r hr).1, fun f hf => ?_⟩
        obtain ⟨x, rfl⟩ := (hrow r hr).2 f hf
        exact ⟨(hpr x).1, (hpr x).2.1, (hpr x).2.2.2⟩
    simp only [fromCsv, toCsv]
    rw [happ, lines_writeRows (by decide) (by
      intro r hr
      rcases List.mem_append.1 hr with hr | hr
      · exact fun f hf => ((hg r hr).2 f hf).2.2
      · simp at hr; subst hr; simp),
      hread _ _ (fun r hr => ⟨(hg r hr).1, fun f hf => ⟨((hg r hr).2 f hf).1, ((hg r hr).2 f hf).2.1⟩⟩)]
    simp only [List.cons_append, List.tail_cons, parseAll_map h.parse_print, csvRows, readAngles_blank h]

/-- The hypotheses on printing can be met: numbers written in unary notation. -/
example : RoundTrip (K := Rat) (fun x => '0' :: List.replicate (Encodable.encode x) '1')
    (fun l => match Encodable.decode (α := Rat) (l.length - 1) with
      | some x => .ok x
      | none => .error .valueError) := by
  refine ⟨fun x => ?_, fun x => by simp, fun x c hc => ?_⟩
  · simp
  · rcases List.mem_cons.1 hc with rfl | hc
    · decide
    · rw [List.eq_of_mem_replicate hc]; decide

example : Storable (⟨[6, 8], [0, 90], [[1, 2], [3, 4]]⟩ : Table Rat) := by
  refine ⟨?_, ?_, ?_, ?_, ?_, ?_, ?_, ?_⟩ <;> simp <;> norm_num

/-! ### C35 -/

/-- In the printed table the number `x` is shown in the row of the wind angle `a` in the column with header `w`. -/
def Shows (p : List (List (Tok K))) (w a x : K) : Prop :=
  ∃ (head : List (Tok K)) (i k : Nat) (row : List (Tok K)), p[0]? = some head ∧ p[i + 2]? = some row ∧
    head[k]? = some (.head w) ∧ row[0]? = some (.angle a) ∧ row[k]? = some (.cell x)

theorem wf_get {t : Table K} (h : WF t) {i j : Nat} {w a : K} (hw : t.ws[j]? = some w) (ha : t.wa[i]? = some a) :
    get t w a = .ok ((t.bsps.getD i []).getD j 0) := by
  have hi : i < t.bsps.length := by rw [h.rows]; exact (List.getElem?_eq_some_iff.1 ha).1
  have hj : j < t.bsps[i].length := by
    rw [h.cols _ (List.getElem_mem _)]; exact (List.getElem?_eq_some_iff.1 hw).1
  have ham := List.mem_of_getElem? ha
  refine get_entry h hw (i := i) (by rw [pmod_of_mem (h.wa_nonneg a ham) (h.wa_lt a ham)]; exact ha)
    (List.getElem?_eq_getElem hi) ?_
  simp [List.getD_eq_getElem?_getD, hi, hj]

/-- **C35.** Tables with at most 15 wind speeds: every wind is shown, and the number shown for it is its boat
speed. -/
theorem C35_short_partial {t : Table K} (h : WF t) (hn : t.ws.length ≤ 15) :
    (∀ w ∈ t.ws, ∀ a ∈ t.wa, ∃ x, Shows (str t) w a x) ∧
    ∀ w a x, Shows (str t) w a x → get t w a = .ok x := by
  have hs : str t = shortTable t := by simp [str, hn]
  rw [hs]
  constructor
  · intro w hw a ha
    obtain ⟨j, hj, rfl⟩ := List.getElem_of_mem hw
    obtain ⟨i, hi, rfl⟩ := List.getElem_of_mem ha
    refine ⟨(t.bsps.getD i []).getD j 0, _, i, j + 1,
      .angle t.wa[i] :: (List.range t.ws.length).map fun j => .cell ((t.bsps.getD i []).getD j 0), rfl, ?_, ?_, ?_, ?_⟩
    · simp only [shortTable, List.cons_append, List.nil_append, List.getElem?_cons_succ, List.getElem?_map,
        List.getElem?_zipIdx, List.getElem?_eq_getElem hi, Option.map_some, Nat.zero_add]
    · simp [hj]
    · simp
    · simp [hj]
  · rintro w a x ⟨head, i, k, row, h0, hrow, hk, ha, hx⟩
    simp only [shortTable, List.cons_append, List.nil_append, List.getElem?_cons_zero, Option.some.injEq] at h0
    subst h0
    simp only [shortTable, List.cons_append, List.nil_append, List.getElem?_cons_succ, List.getElem?_map,
      List.getElem?_zipIdx, Nat.zero_add, Option.map_eq_some_iff] at hrow
    obtain ⟨⟨b, i'⟩, ⟨c, hc, he⟩, rfl⟩ := hrow
    cases he
    cases k with
    | zero => simp at hk
    | succ k =>
      simp only [List.getElem?_cons_succ, List.getElem?_map, Option.map_eq_some_iff, Tok.head.injEq] at hk
      obtain ⟨w', hw', rfl⟩ := hk
      simp only [List.getElem?_cons_zero, Option.some.injEq, Tok.angle.injEq] at ha
      subst ha
      have hj := (List.getElem?_eq_some_iff.1 hw').1
      simp only [List.getElem?_cons_succ, List.getElem?_map, List.getElem?_range hj, Option.map_some,
        Option.some.injEq, Tok.cell.injEq] at hx
      subst hx
      exact wf_get h hw' hc

/-- The columns of the printed long table. -/
theorem longTable_shows (t : Table K) {wind : List K} (hl : wind.length = 10) {i k : Nat} {a w : K}
    (ha : t.wa[i]? = some a) (hk : wind[k]? = some w) :
    Shows (longTable t wind) w a ((t.bsps.getD i []).getD k 0) := by
  match wind, hl with
  | [w0, w1, w2, w3, w4, w5, w6, w7, w8, w9], _ =>
    have hk10 : k < 10 := (List.getElem?_eq_some_iff.1 hk).1
    refine ⟨_, i, if k < 5 then k + 1 else k + 2,
      .angle a :: withDots (fun j _ => .cell ((t.bsps.getD i []).getD j 0)) [w0, w1, w2, w3, w4, w5, w6, w7, w8, w9], rfl, ?_, ?_, ?_, ?_⟩
    · simp only [longTable, List.cons_append, List.nil_append, List.getElem?_cons_succ, List.getElem?_map,
        List.getElem?_zipIdx, ha, Option.map_some, Nat.zero_add]
    · interval_cases k <;> simpa [withDots, List.zipIdx] using hk
    · simp
    · interval_cases k <;> simp [withDots, List.zipIdx]

/-- **C35.** Tables with more than 15 wind speeds: under the header of the `k`-th of the first five wind speeds the
right number is shown, but under the header of the `k`-th of the *last* five wind speeds the boat speed of the wind
speed number `5 + k` is shown. -/
theorem C35_long_columns {t : Table K} (hn : 15 < t.ws.length) {i k : Nat} (hk : k < 5) {a : K}
    (ha : t.wa[i]? = some a) :
    Shows (str t) (t.ws.getD k 0) a ((t.bsps.getD i []).getD k 0) ∧
    Shows (str t) (t.ws.getD (t.ws.length - 5 + k) 0) a ((t.bsps.getD i []).getD (5 + k) 0) := by
  have hs : str t = longTable t (t.ws.take 5 ++ t.ws.drop (t.ws.length - 5)) := by
    simp [str, not_le.2 hn]
  have hl : (t.ws.take 5 ++ t.ws.drop (t.ws.length - 5)).length = 10 := by simp; omega
  rw [hs]
  constructor
  · refine longTable_shows t hl ha ?_
    have : k < t.ws.length := by omega
    rw [List.getElem?_append_left (by simp; omega), List.getElem?_take, if_pos hk]
    simp [List.getD_eq_getElem?_getD, this]
  · refine longTable_shows t hl ha ?_
    have : t.ws.length - 5 + k < t.ws.length := by omega
    rw [List.getElem?_append_right (by simp), List.getElem?_drop]
    simp [List.getD_eq_getElem?_getD, this, Nat.min_eq_left (show 5 ≤ t.ws.length by omega)]

/-- **C35** is false for more than 15 wind speeds: whenever the boat speeds of the wind speed number `5 + k` and of
the wind speed number `n - 5 + k` differ for some angle, a wrong number is shown. -/
theorem C35_long_false {t : Table K} (h : WF t) (hn : 15 < t.ws.length) {i k : Nat} (hk : k < 5) {a : K}
    (ha : t.wa[i]? = some a)
    (hne : (t.bsps.getD i []).getD (5 + k) 0 ≠ (t.bsps.getD i []).getD (t.ws.length - 5 + k) 0) :
    ∃ w ∈ t.ws, ∃ x y, Shows (str t) w a x ∧ get t w a = .ok y ∧ x ≠ y := by
  have hlt : t.ws.length - 5 + k < t.ws.length := by omega
  have hw : t.ws[t.ws.length - 5 + k]? = some (t.ws.getD (t.ws.length - 5 + k) 0) := by
    simp [List.getD_eq_getElem?_getD, hlt]
  exact ⟨_, List.mem_of_getElem? hw, _, _, (C35_long_columns hn hk ha).2, wf_get h hw ha, hne⟩

/-- Sixteen wind speeds 0, …, 15 with boat speeds equal to the wind speeds: the last row ends with 5, …, 9 instead of
11, …, 15. -/
example : str (⟨(List.range 16).map fun n : Nat => (n : Rat), [90], [(List.range 16).map fun n : Nat => (n : Rat)]⟩ :
    Table Rat) =
    [[.corner, .head 0, .head 1, .head 2, .head 3, .head 4, .dots, .head 11, .head 12, .head 13, .head 14, .head 15],
     [.plus, .plus, .plus, .plus, .plus, .plus, .dots, .plus, .plus, .plus, .plus, .plus],
     [.angle 90, .cell 0, .cell 1, .cell 2, .cell 3, .cell 4, .dots, .cell 5, .cell 6, .cell 7, .cell 8, .cell 9]] := by
  decide +kernel

end Verif.Table
