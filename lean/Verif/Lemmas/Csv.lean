import Verif.Model.TableText

/-!
# Lemmas about writing and reading csv files
-/

set_option linter.unusedSectionVars false

namespace Verif.Table

variable {K : Type} [Field K] [LinearOrder K] [IsStrictOrderedRing K] [FloorRing K]

/-- What is used of the conversion of numbers to text and back: reading a written number gives the number, and the text
of a number is not empty and contains no delimiter, white space, quote, comment or degree character. -/
structure RoundTrip (print : K → Text) (parse : Text → Except PyErr K) : Prop where
  parse_print : ∀ x, parse (print x) = .ok x
  ne : ∀ x, print x ≠ []
  clean : ∀ x, ∀ c ∈ print x, c ∉ [',', ';', '\t', ' ', '\n', '\r', '"', '#', '°', ':']

/-- The same for the numbers with the property `P`. -/
structure RoundTripOn (P : K → Prop) (print : K → Text) (parse : Text → Except PyErr K) : Prop where
  parse_print : ∀ x, P x → parse (print x) = .ok x
  ne : ∀ x, P x → print x ≠ []
  clean : ∀ x, P x → ∀ c ∈ print x, c ∉ [',', ';', '\t', ' ', '\n', '\r', '"', '#', '°', ':']

theorem RoundTrip.on {print : K → Text} {parse : Text → Except PyErr K} (h : RoundTrip print parse) :
    RoundTripOn (fun _ => True) print parse :=
  ⟨fun x _ => h.parse_print x, fun x _ => h.ne x, fun x _ => h.clean x⟩

theorem free_intercalate {c d : Char} (h : c ≠ d) {fields : List Text} (hf : ∀ f ∈ fields, c ∉ f) :
    c ∉ [d].intercalate fields := by
  induction fields with
  | nil => simp
  | cons f fs ih =>
    cases fs with
    | nil => simpa using hf f (by simp)
    | cons g gs =>
      rw [List.intercalate_cons_cons]
      simp only [List.mem_append, List.mem_singleton, not_or]
      exact ⟨⟨hf f (by simp), h⟩, ih fun f hf' => hf f (by simp [hf'])⟩

theorem lines_writeRows {d : Char} (hd : d ≠ '\n') {rows : List (List Text)}
    (hf : ∀ r ∈ rows, ∀ f ∈ r, '\n' ∉ f) : lines (writeRows d rows) = rows.map [d].intercalate := by
  have e : writeRows d rows = ['\n'].intercalate (rows.map (fun r => [d].intercalate r ++ ['\r']) ++ [[]]) := by
    clear hf
    induction rows with
    | nil => simp [writeRows]
    | cons r rows ih =>
      have : writeRows d (r :: rows) = writeRow d r ++ writeRows d rows := by simp [writeRows]
      rw [this, ih]
      cases rows with
      | nil => simp [writeRow]
      | cons q rows => simp [writeRow, List.intercalate_cons_cons]
  have s : (writeRows d rows).splitOn '\n' = rows.map (fun r => [d].intercalate r ++ ['\r']) ++ [[]] := by
    rw [e, List.splitOn_intercalate _ _ (by simp)]
    intro l hl
    rcases List.mem_append.1 hl with hl | hl
    · obtain ⟨r, hr, rfl⟩ := List.mem_map.1 hl
      simp only [List.mem_append, List.mem_singleton, not_or]
      exact ⟨free_intercalate hd.symm (hf r hr), by decide⟩
    · simp only [List.mem_singleton] at hl; subst hl; simp
  simp only [lines, s]
  simp [List.map_map, Function.comp_def]

theorem readRows_map {d : Char} {rows : List (List Text)} (hne : ∀ r ∈ rows, r ≠ [] ∧ ∀ f ∈ r, f ≠ [] ∧ d ∉ f) :
    readRows d (rows.map [d].intercalate) = rows := by
  simp only [readRows, List.map_map]
  conv_rhs => rw [← List.map_id rows]
  apply List.map_congr_left
  intro r hr
  obtain ⟨h1, h2⟩ := hne r hr
  have hint : [d].intercalate r ≠ [] := by
    cases r with
    | nil => exact absurd rfl h1
    | cons f fs =>
      have := (h2 f (by simp)).1
      cases fs with
      | nil => simpa using this
      | cons g gs => rw [List.intercalate_cons_cons]; simp [this]
  simp only [Function.comp_apply, hint, if_false, id]
  exact List.splitOn_intercalate _ (fun f hf => (h2 f hf).2) h1

theorem parseAll_on {P : K → Prop} {print : K → Text} {parse : Text → Except PyErr K} (h : ∀ x, P x → parse (print x) = .ok x)
    {l : List K} (hl : ∀ x ∈ l, P x) : parseAll parse (l.map print) = .ok l := by
  induction l with
  | nil => rfl
  | cons x l ih => simp [parseAll, h x (hl x (by simp)), ih fun y hy => hl y (by simp [hy])]

theorem parseRows_on {P : K → Prop} {print : K → Text} {parse : Text → Except PyErr K} (h : ∀ x, P x → parse (print x) = .ok x)
    {l : List (List K)} (hl : ∀ r ∈ l, ∀ x ∈ r, P x) : parseRows parse (l.map (·.map print)) = .ok l := by
  induction l with
  | nil => rfl
  | cons x l ih =>
    simp [parseRows, parseAll_on h (hl x (by simp)), ih fun y hy => hl y (by simp [hy])]

theorem readAngles_on {P : K → Prop} {print : K → Text} {parse : Text → Except PyErr K} (h : RoundTripOn P print parse) :
    ∀ (l : List (K × List K)), (∀ p ∈ l, P p.1 ∧ ∀ x ∈ p.2, P x) →
      readAnglesAndSpeeds parse (l.map fun p => print p.1 :: p.2.map print) = .ok (l.map (·.1), l.map (·.2))
  | [], _ => rfl
  | p :: l, hl => by
    obtain ⟨hp1, hp2⟩ := hl p (by simp)
    have e1 : (print p.1).filter (· ≠ '°') = print p.1 := by
      rw [List.filter_eq_self]
      intro c hc
      have := h.clean p.1 hp1 c hc
      simp only [List.mem_cons, not_or] at this
      simpa using this.2.2.2.2.2.2.2.2.1
    have e2 : parseAll (fun f => if f = [] then .ok 0 else parse f) (p.2.map print) = .ok p.2 := by
      apply parseAll_on (P := P) _ hp2
      intro x hx
      simp [h.ne x hx, h.parse_print x hx]
    simp only [List.map_cons, readAnglesAndSpeeds, e1, h.parse_print p.1 hp1, e2,
      readAngles_on h l fun q hq => hl q (by simp [hq])]

theorem parseAll_map {print : K → Text} {parse : Text → Except PyErr K} (h : ∀ x, parse (print x) = .ok x)
    (l : List K) : parseAll parse (l.map print) = .ok l := by
  induction l with
  | nil => rfl
  | cons x l ih => simp [parseAll, h, ih]

theorem parseRows_map {print : K → Text} {parse : Text → Except PyErr K} (h : ∀ x, parse (print x) = .ok x)
    (l : List (List K)) : parseRows parse (l.map (·.map print)) = .ok l := by
  induction l with
  | nil => rfl
  | cons x l ih => simp [parseRows, parseAll_map h, ih]

theorem readAngles_map {print : K → Text} {parse : Text → Except PyErr K} (h : RoundTrip print parse) :
    ∀ (l : List (K × List K)), readAnglesAndSpeeds parse (l.map fun p => print p.1 :: p.2.map print) =
      .ok (l.map (·.1), l.map (·.2))
  | [] => rfl
  | p :: l => by
    have e1 : (print p.1).filter (· ≠ '°') = print p.1 := by
      rw [List.filter_eq_self]
      intro c hc
      have := h.clean p.1 c hc
      simp only [List.mem_cons, not_or] at this
      simpa using this.2.2.2.2.2.2.2.2.1
    have e2 : parseAll (fun f => if f = [] then .ok 0 else parse f) (p.2.map print) = .ok p.2 := by
      apply parseAll_map
      intro x
      simp [h.ne x, h.parse_print]
    simp only [List.map_cons, readAnglesAndSpeeds, e1, h.parse_print, e2, readAngles_map h l]

theorem words_intercalate {fields : List Text} (hne : fields ≠ [])
    (h : ∀ f ∈ fields, f ≠ [] ∧ ' ' ∉ f ∧ '\t' ∉ f ∧ '\r' ∉ f) : words (['\t'].intercalate fields) = fields := by
  have e : (['\t'].intercalate fields).map (fun c => if c = '\t' ∨ c = '\r' then ' ' else c) =
      [' '].intercalate fields := by
    clear hne
    have hid : ∀ f ∈ fields, f.map (fun c => if c = '\t' ∨ c = '\r' then ' ' else c) = f := by
      intro f hf
      conv_rhs => rw [← List.map_id f]
      apply List.map_congr_left
      intro c hc
      rw [if_neg]
      · rfl
      · rintro (rfl | rfl)
        · exact (h f hf).2.2.1 hc
        · exact (h f hf).2.2.2 hc
    induction fields with
    | nil => rfl
    | cons f fs ih =>
      have ih := ih (fun g hg => h g (by simp [hg])) (fun g hg => hid g (by simp [hg]))
      cases fs with
      | nil => simpa using hid f (by simp)
      | cons g gs =>
        rw [List.intercalate_cons_cons, List.intercalate_cons_cons, List.map_append, List.map_append, ih,
          hid f (by simp)]
        rfl
  rw [words, e, List.splitOn_intercalate _ (fun f hf => (h f hf).2.1) hne, List.filter_eq_self]
  intro f hf
  simpa using (h f hf).1

end Verif.Table
