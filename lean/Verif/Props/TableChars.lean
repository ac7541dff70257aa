import Verif.Model.TableChars
import Verif.Props.CloudText
import Verif.Props.TableText

/-!
# Property C149: the text of a printed table can be read

`words`, `split` and `number` (`Verif.Props.CloudText`) describe how a reader understands a text: the lines, the words of a line
and the numbers they stand for.
-/

namespace Verif.TableChars

open Verif.CloudText
open Verif.Table (Tok)

/-! ### Numbers with one digit after the point -/

theorem fixed1_chars {x : ℚ} {c : Char} (h : c ∈ fixed1 x) : c = '-' ∨ c = '.' ∨ c.isDigit = true := by
  unfold fixed1 at h
  simp only [List.mem_append, List.mem_cons, List.not_mem_nil, or_false] at h
  rcases h with (h | h) | h | h
  · split at h
    · simp at h; exact Or.inl h
    · simp at h
  · exact Or.inr (Or.inr (Nat.isDigit_of_mem_toDigits (by norm_num) (by norm_num) h))
  · exact Or.inr (Or.inl h)
  · rw [h]; exact Or.inr (Or.inr (digitChar_isDigit (by omega)))

theorem fixed1_no {x : ℚ} {c : Char} (h1 : c ≠ '-') (h2 : c ≠ '.') (h3 : c.isDigit = false) : c ∉ fixed1 x := by
  intro h
  rcases fixed1_chars h with h | h | h
  · exact h1 h
  · exact h2 h
  · rw [h3] at h; simp at h

theorem fixed1_ne (x : ℚ) : fixed1 x ≠ [] := by simp [fixed1]

theorem fixed1_length (x : ℚ) : 3 ≤ (fixed1 x).length := by
  have : 0 < (Nat.toDigits 10 (tenths x / 10)).length := by
    rw [List.length_pos_iff]
    exact Nat.toDigits_ne_nil
  unfold fixed1
  simp only [List.length_append, List.length_cons, List.length_nil]
  omega

theorem fixed1_length_angle {x : ℚ} (h0 : 0 ≤ x) (h1 : x < 360) : (fixed1 x).length ≤ 5 := by
  have hr : tenths x ≤ 3600 := by
    unfold tenths
    rw [abs_of_nonneg h0]
    have := pyRound_mono (show x * 10 ≤ (((3600 : ℤ) : ℚ)) by push_cast; linarith)
    rw [pyRound_int] at this
    omega
  have := length_toDigits (n := tenths x / 10) (k := 3) (by norm_num) (by omega)
  unfold fixed1
  rw [if_neg (not_lt.2 h0)]
  simp only [List.nil_append, List.length_append, List.length_cons, List.length_nil]
  omega

theorem number_fixed1 (x : ℚ) : number (fixed1 x) = (if x < 0 then -1 else 1) * ((tenths x : ℚ) / 10) := by
  set h := tenths x with hh
  have hd : ∀ c ∈ Nat.toDigits 10 (h / 10), decide (c ≠ '.') = true := by
    intro c hc
    have := Nat.isDigit_of_mem_toDigits (by norm_num) (by norm_num) hc
    simp only [decide_eq_true_eq]
    rintro rfl
    simp at this
  have huns : ∀ t, t = Nat.toDigits 10 (h / 10) ++ ['.', Nat.digitChar (h % 10)] →
      (Nat.ofDigitChars 10 (t.takeWhile (· ≠ '.')) 0 : ℚ) +
      (Nat.ofDigitChars 10 ((t.dropWhile (· ≠ '.')).drop 1) 0 : ℚ) / 10 ^ ((t.dropWhile (· ≠ '.')).drop 1).length = (h : ℚ) / 10 := by
    rintro t rfl
    rw [List.takeWhile_append_of_pos hd, List.dropWhile_append_of_pos hd]
    simp only [ne_eq, decide_not, List.takeWhile_cons, decide_true, Bool.not_true, Bool.false_eq_true, if_false, List.append_nil,
      List.dropWhile_cons, List.drop_succ_cons, List.drop_zero, List.length_cons, List.length_nil]
    rw [Nat.ofDigitChars_ten_toDigits, Nat.ofDigitChars_cons_digitChar_of_lt_ten (by omega), Nat.ofDigitChars_nil]
    have e : h = 10 * (h / 10) + (10 * 0 + h % 10) := by omega
    have e' : (h : ℚ) = 10 * ((h / 10 : ℕ) : ℚ) + ((10 * 0 + h % 10 : ℕ) : ℚ) := by exact_mod_cast e
    rw [e']
    ring
  unfold fixed1
  rw [← hh]
  by_cases hx : x < 0
  · rw [if_pos hx, if_pos hx]
    simp only [List.cons_append, List.nil_append, number]
    rw [huns _ rfl]
    ring
  · rw [if_neg hx, if_neg hx]
    simp only [List.nil_append]
    unfold number
    simp only
    split
    · rename_i t heq
      exfalso
      cases hdig : Nat.toDigits 10 (h / 10) with
      | nil => exact Nat.toDigits_ne_nil hdig
      | cons c cs =>
        rw [hdig] at heq
        simp only [List.cons_append, List.cons.injEq] at heq
        have := Nat.isDigit_of_mem_toDigits (b := 10) (n := h / 10) (c := c) (by norm_num) (by norm_num) (by rw [hdig]; simp)
        rw [heq.1] at this
        revert this
        decide
    · rw [huns _ rfl]
      ring

/-- **C149**: wind speeds and angles are shown rounded to one digit after the point, boat speeds to two digits. -/
theorem C149_numbers (x : ℚ) :
    (|number (fixed1 x) - x| ≤ 1 / 20 ∧ ∃ n : ℤ, number (fixed1 x) * 10 = n) ∧
    (|number (fixed2 x) - x| ≤ 1 / 200 ∧ ∃ n : ℤ, number (fixed2 x) * 100 = n) := by
  refine ⟨?_, number_near x⟩
  rw [number_fixed1]
  have h0 := pyRound_spec (|x| * 10)
  have habs := abs_nonneg x
  have hpos : 0 ≤ pyRound (|x| * 10) := by
    have := pyRound_mono (show (((0 : ℤ) : ℚ)) ≤ |x| * 10 by push_cast; positivity)
    rwa [pyRound_int] at this
  have hcast : ((tenths x : ℕ) : ℚ) = (pyRound (|x| * 10) : ℚ) := by
    unfold tenths
    have : (((pyRound (|x| * 10)).toNat : ℤ) : ℚ) = (pyRound (|x| * 10) : ℚ) := by rw [Int.toNat_of_nonneg hpos]
    exact_mod_cast this
  rw [hcast]
  constructor
  · by_cases hx : x < 0
    · rw [if_pos hx]
      rw [abs_of_neg hx] at h0 ⊢
      rw [abs_le]
      constructor <;> linarith [h0.1, h0.2]
    · rw [if_neg hx]
      rw [abs_of_nonneg (not_lt.1 hx)] at h0 ⊢
      rw [abs_le]
      constructor <;> linarith [h0.1, h0.2]
  · by_cases hx : x < 0
    · rw [if_pos hx]
      exact ⟨-pyRound (|x| * 10), by push_cast; ring⟩
    · rw [if_neg hx]
      exact ⟨pyRound (|x| * 10), by ring⟩

/-! ### Lines -/

/-- A text that begins with a space or is empty. -/
def Spaced (s : List Char) : Prop := s = [] ∨ ∃ s', s = ' ' :: s'

theorem words_end {w s : List Char} (hne : w ≠ []) (hw : ' ' ∉ w) (hs : Spaced s) : words (w ++ s) = w :: words s := by
  rcases hs with rfl | ⟨s', rfl⟩
  · have : split ' ' w = [w] := by
      clear hne
      induction w with
      | nil => rfl
      | cons x w ih =>
        simp only [List.mem_cons, not_or] at hw
        simp only [split]
        rw [if_neg (Ne.symm hw.1), ih hw.2]
    rw [List.append_nil]
    unfold words
    rw [this, List.filter_cons_of_pos (by simpa using hne)]
    rfl
  · rw [words_word hne hw, words_space]

/-- A word with at least one space before it. -/
def IsPiece (p w : List Char) : Prop := ∃ n, p = List.replicate (n + 1) ' ' ++ w ∧ w ≠ [] ∧ ' ' ∉ w

theorem IsPiece.spaced {p w : List Char} (h : IsPiece p w) (s : List Char) : Spaced (p ++ s) := by
  obtain ⟨n, rfl, -, -⟩ := h
  exact Or.inr ⟨List.replicate n ' ' ++ w ++ s, by simp [List.replicate_succ]⟩

theorem spaced_flatten {ps ws : List (List Char)} (h : List.Forall₂ IsPiece ps ws) : Spaced ps.flatten := by
  cases h with
  | nil => exact Or.inl rfl
  | cons h1 h2 => rw [List.flatten_cons]; exact h1.spaced _

theorem words_flatten {ps ws : List (List Char)} (h : List.Forall₂ IsPiece ps ws) : words ps.flatten = ws := by
  induction h with
  | nil => simp [words, split]
  | cons h1 h2 ih =>
    obtain ⟨n, rfl, hne, hw⟩ := h1
    rw [List.flatten_cons, List.append_assoc, words_spaces, words_end hne hw (spaced_flatten h2), ih]

/-- The words shown for a piece of a table. -/
def render : Tok ℚ → List (List Char)
  | .corner => [['T', 'W', 'A'], ['/'], ['T', 'W', 'S']]
  | .head w => [fixed1 w]
  | .dots => [['.', '.', '.']]
  | .plus => []
  | .angle a => [fixed1 a]
  | .cell x => [fixed2 x]

/-- A line consists of a label of 11 characters and pieces of the given widths, which show the given parts of a table. -/
def IsLine (widths : List Nat) (l : List Char) (toks : List (Tok ℚ)) : Prop :=
  ∃ (label : List Char) (pieces : List (List Char)) (t0 : Tok ℚ) (ts : List (Tok ℚ)),
    l = label ++ pieces.flatten ∧ label.length = 11 ∧ pieces.map List.length = widths ∧ toks = t0 :: ts ∧
      (∀ s, Spaced s → words (label ++ s) = render t0 ++ words s) ∧
      List.Forall₂ (fun p t => ∃ w, render t = [w] ∧ IsPiece p w) pieces ts

theorem render_pieces {pieces : List (List Char)} {ts : List (Tok ℚ)}
    (h : List.Forall₂ (fun p t => ∃ w, render t = [w] ∧ IsPiece p w) pieces ts) :
    List.Forall₂ IsPiece pieces (ts.flatMap render) := by
  induction h with
  | nil => exact List.Forall₂.nil
  | cons h1 h2 ih =>
    obtain ⟨w, e, hp⟩ := h1
    rw [List.flatMap_cons, e]
    exact List.Forall₂.cons hp ih

/-- Where the column number `k` ends. -/
def position (widths : List Nat) (k : Nat) : Nat := 11 + (widths.take k).sum

theorem IsLine.columns {widths : List Nat} {l : List Char} {toks : List (Tok ℚ)} (h : IsLine widths l toks) (k : Nat) :
    words (l.take (position widths k)) = (toks.take (k + 1)).flatMap render := by
  obtain ⟨label, pieces, t0, ts, rfl, h1, rfl, rfl, h2, h3⟩ := h
  have e : (label ++ pieces.flatten).take (position (pieces.map List.length) k) = label ++ (pieces.take k).flatten := by
    rw [position, ← h1, List.take_length_add_append, ← List.map_take, ← List.length_flatten]
    congr 1
    conv_lhs => rw [← List.take_append_drop k pieces, List.flatten_append]
    rw [List.take_left']
    rw [List.take_append_drop]
  have h4 : List.Forall₂ (fun p t => ∃ w, render t = [w] ∧ IsPiece p w) (pieces.take k) (ts.take k) := List.forall₂_take k h3
  have h5 := render_pieces h4
  rw [e, h2 _ (spaced_flatten h5), words_flatten h5, List.take_succ_cons, List.flatMap_cons]

theorem IsLine.length {widths : List Nat} {l : List Char} {toks : List (Tok ℚ)} (h : IsLine widths l toks) :
    l.length = 11 + widths.sum := by
  obtain ⟨label, pieces, t0, ts, rfl, h1, rfl, rfl, h2, h3⟩ := h
  rw [List.length_append, h1, List.length_flatten]

theorem IsLine.line_words {widths : List Nat} {l : List Char} {toks : List (Tok ℚ)} (h : IsLine widths l toks) :
    words l = toks.flatMap render := by
  obtain ⟨label, pieces, t0, ts, rfl, h1, rfl, rfl, h2, h3⟩ := h
  have h5 := render_pieces h3
  rw [h2 _ (spaced_flatten h5), words_flatten h5, List.flatMap_cons]

/-! ### The pieces -/

theorem corner_words (s : List Char) (hs : Spaced s) : words (corner ++ s) = render .corner ++ words s := by
  have e : corner = List.replicate 2 ' ' ++ (['T', 'W', 'A'] ++ ' ' :: (['/'] ++ ' ' :: ['T', 'W', 'S'])) := by decide
  have e' : corner ++ s = List.replicate 2 ' ' ++ (['T', 'W', 'A'] ++ ' ' :: (['/'] ++ ' ' :: (['T', 'W', 'S'] ++ s))) := by
    rw [e]
    simp
  rw [e', words_spaces, words_word (by decide) (by decide), words_word (by decide) (by decide), words_end (by decide) (by decide) hs]
  rfl

theorem head_piece (w : ℚ) : ∃ v, render (.head w) = [v] ∧ IsPiece (head w) v :=
  ⟨fixed1 w, rfl, 3, rfl, fixed1_ne w, fixed1_no (by decide) (by decide) (by decide)⟩

theorem cell_piece (w : ℚ) {x : ℚ} (h0 : 0 ≤ x) (h1 : x < 999) : ∃ v, render (.cell x) = [v] ∧ IsPiece (cell w x) v := by
  have hl := length_fixed2 h0 h1
  have hw := fixed1_length w
  refine ⟨fixed2 x, rfl, 4 + (fixed1 w).length - (fixed2 x).length - 1, ?_, fixed2_ne x,
    fixed2_no (by decide) (by decide) (by decide)⟩
  unfold cell rjust
  rw [show 4 + (fixed1 w).length - (fixed2 x).length - 1 + 1 = 4 + (fixed1 w).length - (fixed2 x).length by omega]

theorem dots_piece : ∃ v, render .dots = [v] ∧ IsPiece "  ...".toList v :=
  ⟨['.', '.', '.'], rfl, 1, by decide, by decide, by decide⟩

theorem head_length (w : ℚ) : (head w).length = 4 + (fixed1 w).length := by
  simp [head]
  omega

theorem plus_length (w : ℚ) : (plus w).length = 4 + (fixed1 w).length := by
  simp [plus, ljust]
  omega

theorem cell_length (w : ℚ) {x : ℚ} (h0 : 0 ≤ x) (h1 : x < 999) : (cell w x).length = 4 + (fixed1 w).length := by
  have hl := length_fixed2 h0 h1
  have hw := fixed1_length w
  exact length_rjust (by omega)

theorem short_label (a : ℚ) {s : List Char} (hs : Spaced s) :
    words (ljust 11 ' ' (fixed1 a) ++ s) = render (.angle a) ++ words s := by
  unfold ljust
  rw [List.append_assoc, words_end (fixed1_ne a) (fixed1_no (by decide) (by decide) (by decide)), words_spaces]
  · rfl
  · cases 11 - (fixed1 a).length with
    | zero => simpa using hs
    | succ n => exact Or.inr ⟨List.replicate n ' ' ++ s, by simp [List.replicate_succ]⟩

theorem long_label (a : ℚ) {s : List Char} (hs : Spaced s) :
    words (rjust 11 (fixed1 a) ++ s) = render (.angle a) ++ words s := by
  unfold rjust
  rw [List.append_assoc, words_spaces, words_end (fixed1_ne a) (fixed1_no (by decide) (by decide) (by decide)) hs]
  rfl

/-! ### The lines of a table -/

/-- The tables considered here: boat speeds between 0 and 999 knots. -/
structure Printable (t : Table ℚ) : Prop where
  wa : ∀ a ∈ t.wa, 0 ≤ a ∧ a < 360
  bsps : ∀ i j, 0 ≤ (t.bsps.getD i []).getD j 0 ∧ (t.bsps.getD i []).getD j 0 < 999

/-- The lines of a table: the header, the line below it, and the rows. -/
structure IsText (text : List Char) (widths : List Nat) (toks : List (List (Tok ℚ))) : Prop where
  lines : ∃ (h p : List Char) (rows : List (List Char)) (th tp : List (Tok ℚ)) (trows : List (List (Tok ℚ))),
    split '\n' text = h :: p :: (rows ++ [[]]) ∧ toks = th :: tp :: trows ∧ IsLine widths h th ∧
      p.length = 11 + widths.sum ∧ List.Forall₂ (IsLine widths) rows trows

theorem forall₂_flatMap {α β γ : Type} {R : β → γ → Prop} {f : α → List β} {g : α → List γ} {l : List α}
    (h : ∀ x ∈ l, List.Forall₂ R (f x) (g x)) : List.Forall₂ R (l.flatMap f) (l.flatMap g) := by
  induction l with
  | nil => exact List.Forall₂.nil
  | cons a l ih =>
    rw [List.flatMap_cons, List.flatMap_cons]
    exact List.rel_append (h a (by simp)) (ih fun x hx => h x (by simp [hx]))

theorem split_rows {α : Type} {f : α → List Char} {l : List α} (h : ∀ x ∈ l, '\n' ∉ f x) :
    split '\n' (l.flatMap fun x => f x ++ ['\n']) = l.map f ++ [[]] := by
  induction l with
  | nil => simp [split]
  | cons a l ih =>
    rw [List.flatMap_cons, List.append_assoc, List.singleton_append, split_append _ (h a (by simp)),
      ih fun x hx => h x (by simp [hx])]
    rfl

theorem head_newline (w : ℚ) : '\n' ∉ head w := by
  have := fixed1_no (x := w) (c := '\n') (by decide) (by decide) (by decide)
  simp [head, this]

theorem plus_newline (w : ℚ) : '\n' ∉ plus w := by
  simp [plus, ljust]

theorem cell_newline (w x : ℚ) : '\n' ∉ cell w x := by
  have := fixed2_no (x := x) (c := '\n') (by decide) (by decide) (by decide)
  simp [cell, rjust, this]

theorem label_newline (a : ℚ) : '\n' ∉ ljust 11 ' ' (fixed1 a) ∧ '\n' ∉ rjust 11 (fixed1 a) := by
  have := fixed1_no (x := a) (c := '\n') (by decide) (by decide) (by decide)
  simp [ljust, rjust, this]

theorem corner_newline : '\n' ∉ corner ∧ '\n' ∉ cornerPlus := by decide

theorem short_isText {t : Table ℚ} (h : Printable t) :
    IsText (corner ++ shortText t) (t.ws.map fun w => 4 + (fixed1 w).length) (Verif.Table.shortTable t) := by
  refine ⟨corner ++ t.ws.flatMap head, cornerPlus ++ t.ws.flatMap plus, t.wa.zipIdx.map fun (a, i) =>
    ljust 11 ' ' (fixed1 a) ++ t.ws.zipIdx.flatMap (fun (w, j) => cell w ((t.bsps.getD i []).getD j 0)), _, _,
    t.wa.zipIdx.map fun (a, i) => .angle a :: (List.range t.ws.length).map fun j => .cell ((t.bsps.getD i []).getD j 0),
    ?_, rfl, ?_, ?_, ?_⟩
  · have n1 : '\n' ∉ corner ++ t.ws.flatMap head := by
      simp only [List.mem_append, List.mem_flatMap, not_or, not_exists, not_and]
      exact ⟨corner_newline.1, fun w _ => head_newline w⟩
    have n2 : '\n' ∉ cornerPlus ++ t.ws.flatMap plus := by
      simp only [List.mem_append, List.mem_flatMap, not_or, not_exists, not_and]
      exact ⟨corner_newline.2, fun w _ => plus_newline w⟩
    have e : corner ++ shortText t = (corner ++ t.ws.flatMap head) ++ '\n' :: ((cornerPlus ++ t.ws.flatMap plus) ++ '\n' ::
        t.wa.zipIdx.flatMap fun x =>
          (ljust 11 ' ' (fixed1 x.1) ++ t.ws.zipIdx.flatMap (fun (w, j) => cell w ((t.bsps.getD x.2 []).getD j 0))) ++ ['\n']) := by
      simp [shortText]
    rw [e, split_append _ n1, split_append _ n2, split_rows]
    rintro ⟨a, i⟩ -
    simp only [List.mem_append, List.mem_flatMap, not_or, not_exists, not_and]
    exact ⟨(label_newline a).1, fun w _ => cell_newline _ _⟩
  · refine ⟨corner, t.ws.map head, .corner, t.ws.map .head, by rw [List.flatMap_def], rfl, ?_, rfl, corner_words, ?_⟩
    · rw [List.map_map]
      exact List.map_congr_left fun w _ => head_length w
    · rw [List.forall₂_map_left_iff, List.forall₂_map_right_iff, List.forall₂_same]
      exact fun w _ => head_piece w
  · rw [List.length_append, List.length_flatMap]
    have : t.ws.map (fun w => (plus w).length) = t.ws.map fun w => 4 + (fixed1 w).length :=
      List.map_congr_left fun w _ => plus_length w
    rw [this]
    rfl
  · rw [List.forall₂_map_left_iff, List.forall₂_map_right_iff, List.forall₂_same]
    rintro ⟨a, i⟩ hm
    have ha := h.wa a ((List.mem_zipIdx' hm).2 ▸ List.getElem_mem _)
    refine ⟨ljust 11 ' ' (fixed1 a), t.ws.zipIdx.map fun (w, j) => cell w ((t.bsps.getD i []).getD j 0), .angle a, _,
      by simp only [List.flatMap_def], ?_, ?_, rfl, fun s hs => short_label a hs, ?_⟩
    · have := fixed1_length_angle ha.1 ha.2
      simp [ljust]
      omega
    · rw [List.map_map]
      have e : (t.ws.zipIdx.map fun x : ℚ × Nat => 4 + (fixed1 x.1).length) = t.ws.map fun w => 4 + (fixed1 w).length := by
        conv_rhs => rw [← List.zipIdx_map_fst 0 t.ws, List.map_map]
        rfl
      rw [← e]
      exact List.map_congr_left fun x _ => cell_length x.1 (h.bsps i x.2).1 (h.bsps i x.2).2
    · have e : ((List.range t.ws.length).map fun j => (Tok.cell ((t.bsps.getD i []).getD j 0) : Tok ℚ)) =
          t.ws.zipIdx.map fun x : ℚ × Nat => Tok.cell ((t.bsps.getD i []).getD x.2 0) := by
        rw [List.range_eq_range', ← List.zipIdx_map_snd 0 t.ws, List.map_map]
        rfl
      rw [e, List.forall₂_map_left_iff, List.forall₂_map_right_iff, List.forall₂_same]
      exact fun x _ => cell_piece x.1 (h.bsps i x.2).1 (h.bsps i x.2).2

/-- The pieces of a line of a long table. -/
def dotted {α : Type} (dots : α) (f : Nat → ℚ → α) (wind : List ℚ) : List α :=
  wind.zipIdx.flatMap fun x => if x.2 = 5 then [dots, f x.2 x.1] else [f x.2 x.1]

theorem withDots_eq (dots : List Char) (f : Nat → ℚ → List Char) (wind : List ℚ) :
    withDots dots f wind = (dotted dots f wind).flatten := by
  unfold withDots dotted
  induction wind.zipIdx with
  | nil => rfl
  | cons x l ih =>
    rw [List.flatMap_cons, List.flatMap_cons, List.flatten_append, ih]
    by_cases hx : x.2 = 5
    · simp [hx]
    · simp [hx]

theorem dotted_map {α β : Type} (g : α → β) (dots : α) (f : Nat → ℚ → α) (wind : List ℚ) :
    (dotted dots f wind).map g = dotted (g dots) (fun j w => g (f j w)) wind := by
  unfold dotted
  rw [List.map_flatMap]
  congr 1
  funext x
  split <;> rfl

theorem dotted_rel {α β : Type} {R : α → β → Prop} {d : α} {d' : β} {f : Nat → ℚ → α} {g : Nat → ℚ → β} (hd : R d d')
    (h : ∀ j w, R (f j w) (g j w)) (wind : List ℚ) : List.Forall₂ R (dotted d f wind) (dotted d' g wind) := by
  unfold dotted
  refine forall₂_flatMap fun x _ => ?_
  split
  · exact List.Forall₂.cons hd (List.Forall₂.cons (h _ _) List.Forall₂.nil)
  · exact List.Forall₂.cons (h _ _) List.Forall₂.nil

theorem tok_withDots (f : Nat → ℚ → Tok ℚ) (wind : List ℚ) : Verif.Table.withDots f wind = dotted .dots f wind := rfl

theorem withDots_newline {dots : List Char} {f : Nat → ℚ → List Char} (h1 : '\n' ∉ dots) (h2 : ∀ j w, '\n' ∉ f j w)
    (wind : List ℚ) : '\n' ∉ withDots dots f wind := by
  unfold withDots
  simp only [List.mem_flatMap, List.mem_append, not_exists, not_and, not_or]
  intro x _
  refine ⟨?_, h2 _ _⟩
  split
  · exact h1
  · simp

theorem long_isText {t : Table ℚ} (h : Printable t) (wind : List ℚ) :
    IsText (corner ++ longText t wind) (dotted 5 (fun _ w => 4 + (fixed1 w).length) wind) (Verif.Table.longTable t wind) := by
  refine ⟨corner ++ withDots "  ...".toList (fun _ w => head w) wind, cornerPlus ++ withDots "  +++".toList (fun _ w => plus w) wind,
    t.wa.zipIdx.map fun (a, i) =>
      rjust 11 (fixed1 a) ++ withDots "  ...".toList (fun j w => cell w ((t.bsps.getD i []).getD j 0)) wind, _, _,
    t.wa.zipIdx.map fun (a, i) => .angle a :: Verif.Table.withDots (fun j _ => .cell ((t.bsps.getD i []).getD j 0)) wind,
    ?_, rfl, ?_, ?_, ?_⟩
  · have n1 : '\n' ∉ corner ++ withDots "  ...".toList (fun _ w => head w) wind := by
      rw [List.mem_append, not_or]
      exact ⟨corner_newline.1, withDots_newline (by decide) (fun _ w => head_newline w) wind⟩
    have n2 : '\n' ∉ cornerPlus ++ withDots "  +++".toList (fun _ w => plus w) wind := by
      rw [List.mem_append, not_or]
      exact ⟨corner_newline.2, withDots_newline (by decide) (fun _ w => plus_newline w) wind⟩
    have e : corner ++ longText t wind = (corner ++ withDots "  ...".toList (fun _ w => head w) wind) ++ '\n' ::
        ((cornerPlus ++ withDots "  +++".toList (fun _ w => plus w) wind) ++ '\n' ::
        t.wa.zipIdx.flatMap fun x =>
          (rjust 11 (fixed1 x.1) ++ withDots "  ...".toList (fun j w => cell w ((t.bsps.getD x.2 []).getD j 0)) wind) ++ ['\n']) := by
      unfold longText
      simp only [List.append_assoc, List.cons_append, List.nil_append]
    rw [e, split_append _ n1, split_append _ n2, split_rows]
    rintro ⟨a, i⟩ -
    rw [List.mem_append, not_or]
    exact ⟨(label_newline a).2, withDots_newline (by decide) (fun _ w => cell_newline _ _) wind⟩
  · refine ⟨corner, dotted "  ...".toList (fun _ w => head w) wind, .corner, _, by rw [withDots_eq], rfl, ?_, rfl, corner_words, ?_⟩
    · rw [dotted_map]
      congr 1
      funext _ w
      exact head_length w
    · exact dotted_rel (R := fun p t => ∃ w, render t = [w] ∧ IsPiece p w) dots_piece (fun _ w => head_piece w) wind
  · rw [List.length_append, withDots_eq, List.length_flatten, dotted_map]
    have : (fun (_ : Nat) (w : ℚ) => (plus w).length) = fun _ w => 4 + (fixed1 w).length := by
      funext _ w
      exact plus_length w
    rw [this]
    rfl
  · rw [List.forall₂_map_left_iff, List.forall₂_map_right_iff, List.forall₂_same]
    rintro ⟨a, i⟩ hm
    have ha := h.wa a ((List.mem_zipIdx' hm).2 ▸ List.getElem_mem _)
    refine ⟨rjust 11 (fixed1 a), dotted "  ...".toList (fun j w => cell w ((t.bsps.getD i []).getD j 0)) wind, .angle a, _,
      by simp only [withDots_eq], ?_, ?_, rfl, fun s hs => long_label a hs, ?_⟩
    · have := fixed1_length_angle ha.1 ha.2
      exact length_rjust (by omega)
    · rw [dotted_map]
      congr 1
      funext j w
      exact cell_length w (h.bsps i j).1 (h.bsps i j).2
    · exact dotted_rel (R := fun p t => ∃ w, render t = [w] ∧ IsPiece p w) dots_piece (fun j w => cell_piece w (h.bsps i j).1 (h.bsps i j).2) wind

theorem text_isText {t : Table ℚ} (h : Printable t) : ∃ widths, IsText (text t) widths (Verif.Table.str t) := by
  unfold text Verif.Table.str
  by_cases hn : t.ws.length ≤ 15
  · rw [if_pos hn, if_pos hn]
    exact ⟨_, short_isText h⟩
  · rw [if_neg hn, if_neg hn]
    exact ⟨_, long_isText h _⟩

/-! ### C149 -/

/-- **C149.** The characters show the pieces of the table (`Verif.Table.str`, of which C35 says which numbers they are): there is
one line for each line of pieces, all lines have the same length, and a reader finds in each line, apart from the line of plus
signs, exactly the words for its pieces. The columns are aligned: there are positions such that in each line the pieces number
`0, …, k` are those before the position number `k`. -/
theorem C149_text {t : Table ℚ} (h : Printable t) :
    ∃ (lines : List (List Char)) (length : Nat) (position : Nat → Nat),
      split '\n' (text t) = lines ++ [[]] ∧ lines.length = (Verif.Table.str t).length ∧ (∀ l ∈ lines, l.length = length) ∧
      ∀ (i : Nat) l toks, i ≠ 1 → lines[i]? = some l → (Verif.Table.str t)[i]? = some toks →
        words l = toks.flatMap render ∧ ∀ k, words (l.take (position k)) = (toks.take (k + 1)).flatMap render := by
  obtain ⟨widths, ⟨hd, p, rows, th, tp, trows, e1, e2, h1, h2, h3⟩⟩ := text_isText h
  refine ⟨hd :: p :: rows, 11 + widths.sum, position widths, by rw [e1]; rfl, by rw [e2]; simp [h3.length_eq], ?_, ?_⟩
  · intro l hl
    simp only [List.mem_cons] at hl
    rcases hl with rfl | rfl | hl
    · exact h1.length
    · exact h2
    · obtain ⟨i, hi, rfl⟩ := List.getElem_of_mem hl
      exact ((List.forall₂_iff_get.1 h3).2 i hi (by rw [← h3.length_eq]; exact hi)).length
  · rw [e2]
    intro i l toks hi hl ht
    have key : IsLine widths l toks := by
      match i with
      | 0 =>
        simp only [List.getElem?_cons_zero, Option.some.injEq] at hl ht
        rw [← hl, ← ht]
        exact h1
      | 1 => exact absurd rfl hi
      | i + 2 =>
        simp only [List.getElem?_cons_succ] at hl ht
        obtain ⟨b1, rfl⟩ := List.getElem?_eq_some_iff.1 hl
        obtain ⟨b2, rfl⟩ := List.getElem?_eq_some_iff.1 ht
        exact (List.forall₂_iff_get.1 h3).2 i b1 b2
    exact ⟨key.line_words, key.columns⟩

example : text ⟨[6, 10, 12], [0, 45, 90], [[0, 1, 2], [3, 4, 5], [6, 7, 45 / 4]]⟩ =
    ("  TWA / TWS    6.0    10.0    12.0\n".toList ++ "+++++++++++  +++++  ++++++  ++++++\n".toList ++
      "0.0           0.00    1.00    2.00\n".toList ++ "45.0          3.00    4.00    5.00\n".toList ++
      "90.0          6.00    7.00   11.25\n".toList) := by
  decide +kernel

/-- The table of the example is printable. -/
example : Printable ⟨[6, 10, 12], [0, 45, 90], [[0, 1, 2], [3, 4, 5], [6, 7, 45 / 4]]⟩ := by
  refine ⟨by decide +kernel, fun i j => ?_⟩
  rcases i with _ | _ | _ | i <;> rcases j with _ | _ | _ | j <;> simp <;> norm_num

theorem number_decimal {x : ℚ} {m : ℤ} (hx : x = m / 10) : number (fixed1 x) = x := by
  rw [number_fixed1]
  have hr : tenths x = m.natAbs := by
    unfold tenths
    have : |x| * 10 = (((|m| : ℤ)) : ℚ) := by
      rw [hx, abs_div, abs_of_pos (show (0 : ℚ) < 10 by norm_num), Int.cast_abs]
      ring
    rw [this, pyRound_int, Int.abs_eq_natAbs]
    rfl
  rw [hr, hx]
  by_cases hm : m < 0
  · have : (m : ℚ) < 0 := by exact_mod_cast hm
    rw [if_pos (by linarith)]
    have : ((m.natAbs : ℕ) : ℚ) = -(m : ℚ) := by
      rw [Nat.cast_natAbs, abs_of_neg hm]
      push_cast
      rfl
    rw [this]
    ring
  · have : (0 : ℚ) ≤ m := by exact_mod_cast not_lt.1 hm
    rw [if_neg (by intro hc; linarith)]
    have : ((m.natAbs : ℕ) : ℚ) = (m : ℚ) := by rw [Nat.cast_natAbs, abs_of_nonneg (not_lt.1 hm)]
    rw [this]
    ring

/-- Numbers with the given number of digits after the point. -/
def Digits (n : Nat) (x : ℚ) : Prop := ∃ m : ℤ, x = m / 10 ^ n

theorem fixed1_inj {x y : ℚ} (hx : Digits 1 x) (hy : Digits 1 y) (h : fixed1 x = fixed1 y) : x = y := by
  obtain ⟨m, hm⟩ := hx
  obtain ⟨n, hn⟩ := hy
  rw [pow_one] at hm hn
  rw [← number_decimal hm, h, number_decimal hn]

theorem fixed2_inj {x y : ℚ} (hx : Digits 2 x) (hy : Digits 2 y) (h : fixed2 x = fixed2 y) : x = y := by
  obtain ⟨m, hm⟩ := hx
  obtain ⟨n, hn⟩ := hy
  rw [show (10 : ℚ) ^ 2 = 100 by norm_num] at hm hn
  rw [hm, hn] at h ⊢
  rw [C110_unambiguous h]

theorem map_inj_on {α β : Type} {f : α → β} {P : α → Prop} (hf : ∀ x y, P x → P y → f x = f y → x = y) {l m : List α}
    (hl : ∀ x ∈ l, P x) (hm : ∀ x ∈ m, P x) (h : l.map f = m.map f) : l = m := by
  induction l generalizing m with
  | nil => cases m with
    | nil => rfl
    | cons b m => simp at h
  | cons a l ih => cases m with
    | nil => simp at h
    | cons b m =>
      simp only [List.map_cons, List.cons.injEq] at h
      rw [hf a b (hl a (by simp)) (hm b (by simp)) h.1,
        ih (fun x hx => hl x (by simp [hx])) (fun x hx => hm x (by simp [hx])) h.2]

theorem range_getD {r : List ℚ} {n : Nat} (h : r.length = n) : (List.range n).map (fun j => r.getD j 0) = r := by
  apply List.ext_getElem?
  intro j
  by_cases hj : j < n
  · simp [List.getD_eq_getElem?_getD, hj, h]
  · rw [List.getElem?_eq_none (by simpa using hj), List.getElem?_eq_none (by omega)]

/-- What is read from a table with at most 15 wind speeds. -/
theorem short_words {t : Table ℚ} (h : Printable t) (hw : Verif.Table.WF t) (hn : t.ws.length ≤ 15) :
    ∃ (hd p : List Char) (rows : List (List Char)), split '\n' (text t) = hd :: p :: (rows ++ [[]]) ∧
      words hd = render .corner ++ t.ws.map fixed1 ∧
      rows.map words = List.zipWith (fun a r => fixed1 a :: r.map fixed2) t.wa t.bsps := by
  obtain ⟨hd, p, rows, th, tp, trows, e1, e2, h1, h2, h3⟩ := short_isText h
  refine ⟨hd, p, rows, by rw [text, if_pos hn, e1], ?_, ?_⟩
  · rw [h1.line_words]
    simp only [Verif.Table.shortTable, List.cons_append, List.nil_append, List.cons.injEq] at e2
    rw [← e2.1, List.flatMap_cons, List.flatMap_map]
    congr 1
    rw [List.flatMap_def]
    simp only [render]
    rw [← List.flatMap_def, ← List.map_eq_flatMap]
  · simp only [Verif.Table.shortTable, List.cons_append, List.nil_append, List.cons.injEq] at e2
    obtain ⟨-, -, rfl⟩ := e2
    apply List.ext_getElem?
    intro i
    by_cases hi : i < t.wa.length
    · have hr : i < rows.length := by rw [h3.length_eq]; simpa using hi
      have hb : i < t.bsps.length := by rw [hw.rows]; exact hi
      have hl := ((List.forall₂_iff_get.1 h3).2 i hr (by simpa using hi)).line_words
      rw [List.getElem?_map, List.getElem?_eq_getElem hr, Option.map_some, List.getElem?_zipWith, List.getElem?_eq_getElem hi,
        List.getElem?_eq_getElem hb]
      simp only [List.get_eq_getElem, List.getElem_map, List.getElem_zipIdx, Nat.zero_add] at hl
      simp only [Option.some.injEq]
      rw [hl, List.flatMap_cons, List.flatMap_map]
      simp only [render, List.singleton_append, List.cons.injEq, true_and]
      rw [← List.map_eq_flatMap, List.getD_eq_getElem?_getD, List.getElem?_eq_getElem hb, Option.getD_some]
      have hc := hw.cols _ (List.getElem_mem hb)
      conv_rhs => rw [← range_getD hc]
      rw [List.map_map]
      rfl
    · rw [List.getElem?_eq_none (by rw [List.length_map, h3.length_eq]; simpa using hi), List.getElem?_eq_none (by
        rw [List.length_zipWith]
        omega)]

/-- **C149.** The text determines the table: two tables with at most 15 wind speeds that are printed in the same way are equal
if their wind speeds and angles have at most one digit after the point and their boat speeds at most two. -/
theorem C149_unambiguous {t t' : Table ℚ} (h : Printable t) (h' : Printable t') (hw : Verif.Table.WF t) (hw' : Verif.Table.WF t')
    (hn : t.ws.length ≤ 15) (hn' : t'.ws.length ≤ 15)
    (hd : ∀ x, x ∈ t.ws ∨ x ∈ t.wa ∨ x ∈ t'.ws ∨ x ∈ t'.wa → Digits 1 x)
    (hb : ∀ r, r ∈ t.bsps ∨ r ∈ t'.bsps → ∀ x ∈ r, Digits 2 x) (e : text t = text t') : t = t' := by
  obtain ⟨hd1, p1, rows1, a1, a2, a3⟩ := short_words h hw hn
  obtain ⟨hd2, p2, rows2, b1, b2, b3⟩ := short_words h' hw' hn'
  rw [e, b1] at a1
  simp only [List.cons.injEq, List.append_cancel_right_eq] at a1
  obtain ⟨rfl, -, rfl⟩ := a1
  rw [a2, List.append_cancel_left_eq] at b2
  rw [a3] at b3
  have e1 : t.ws = t'.ws := map_inj_on (P := Digits 1) (fun _ _ => fixed1_inj) (fun x hx => hd x (by tauto))
    (fun x hx => hd x (by tauto)) b2
  have z : ∀ (l : List ℚ) (r : List (List ℚ)), List.zipWith (fun a r => fixed1 a :: r.map fixed2) l r =
      (l.zip r).map fun x => fixed1 x.1 :: x.2.map fixed2 := by
    intro l r
    rw [List.zip, List.map_zipWith]
  rw [z, z] at b3
  have e2 : t.wa.zip t.bsps = t'.wa.zip t'.bsps := by
    refine map_inj_on (P := fun x : ℚ × List ℚ => Digits 1 x.1 ∧ ∀ y ∈ x.2, Digits 2 y) ?_ ?_ ?_ b3
    · rintro ⟨a, r⟩ ⟨b, q⟩ hx hy he
      simp only [List.cons.injEq] at he
      exact Prod.ext (fixed1_inj hx.1 hy.1 he.1) (map_inj_on (P := Digits 2) (fun _ _ => fixed2_inj) hx.2 hy.2 he.2)
    · rintro ⟨a, r⟩ hx
      exact ⟨hd a (by have := List.of_mem_zip hx; tauto), hb r (by have := List.of_mem_zip hx; tauto)⟩
    · rintro ⟨a, r⟩ hx
      exact ⟨hd a (by have := List.of_mem_zip hx; tauto), hb r (by have := List.of_mem_zip hx; tauto)⟩
  have e3 : t.wa = t'.wa := by
    rw [← List.map_fst_zip (l₁ := t.wa) (l₂ := t.bsps) (by rw [hw.rows]), e2, List.map_fst_zip (by rw [hw'.rows])]
  have e4 : t.bsps = t'.bsps := by
    rw [← List.map_snd_zip (l₁ := t.wa) (l₂ := t.bsps) (by rw [hw.rows]), e2, List.map_snd_zip (by rw [hw'.rows])]
  cases t
  cases t'
  simp only at e1 e3 e4
  rw [e1, e3, e4]

/-- Two tables that differ in the second digit of one boat speed are printed differently. -/
example : text ⟨[6], [90], [[21 / 4]]⟩ ≠ text ⟨[6], [90], [[131 / 25]]⟩ := by
  have hp : ∀ x : ℚ, 0 ≤ x → x < 10 → Printable ⟨[6], [90], [[x]]⟩ := by
    intro x h0 h1
    refine ⟨by intro a ha; rw [List.mem_singleton] at ha; subst ha; norm_num, fun i j => ?_⟩
    rcases i with _ | i <;> rcases j with _ | j <;> simp <;> (try constructor) <;> linarith
  intro e
  refine absurd (C149_unambiguous (hp _ (by norm_num) (by norm_num)) (hp _ (by norm_num) (by norm_num)) ?_ ?_ (by simp) (by simp) ?_ ?_ e)
    (by simp; norm_num)
  · constructor <;> simp <;> norm_num
  · constructor <;> simp <;> norm_num
  · intro x hx
    simp only [List.mem_singleton] at hx
    rcases hx with rfl | rfl | rfl | rfl
    · exact ⟨60, by norm_num⟩
    · exact ⟨900, by norm_num⟩
    · exact ⟨60, by norm_num⟩
    · exact ⟨900, by norm_num⟩
  · intro r hr x hx
    simp only [List.mem_singleton] at hr
    rcases hr with rfl | rfl <;> rw [List.mem_singleton] at hx <;> subst hx
    · exact ⟨525, by norm_num⟩
    · exact ⟨524, by norm_num⟩

/-- Some bound is needed: a boat speed of 10000 knots shifts the rest of its line. -/
theorem C149_bound_needed : ∃ t : Table ℚ, ∃ l ∈ split '\n' (text t), ∃ m ∈ split '\n' (text t), l ≠ [] ∧ m ≠ [] ∧
    l.length ≠ m.length :=
  ⟨⟨[6], [90], [[10000]]⟩, "  TWA / TWS    6.0".toList, by decide +kernel, "90.0       10000.00".toList, by decide +kernel,
    by decide +kernel, by decide +kernel, by decide +kernel⟩

end Verif.TableChars
