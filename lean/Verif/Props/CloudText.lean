import Verif.Model.CloudText
import Verif.Lemmas.Round
import Mathlib.Tactic.Linarith
import Mathlib.Tactic.NormNum
import Mathlib.Tactic.IntervalCases
import Mathlib.Tactic.Positivity
import Mathlib.Tactic.Ring

/-!
# Property C110: printed point clouds
-/

namespace Verif.CloudText

open Verif.Interp (Pt)

/-- The parts of a text between the characters `c`. -/
def split (c : Char) : List Char → List (List Char)
  | [] => [[]]
  | x :: s =>
    if x = c then [] :: split c s
    else
      match split c s with
      | [] => [[x]]
      | w :: ws => (x :: w) :: ws

/-- The words of a line. -/
def words (s : List Char) : List (List Char) := (split ' ' s).filter fun w => decide (w ≠ [])

/-- The number written as digits, a point and digits, possibly with a sign. -/
def number (s : List Char) : ℚ :=
  let unsigned (t : List Char) : ℚ :=
    (Nat.ofDigitChars 10 (t.takeWhile (· ≠ '.')) 0 : ℚ) +
      (Nat.ofDigitChars 10 ((t.dropWhile (· ≠ '.')).drop 1) 0 : ℚ) / 10 ^ ((t.dropWhile (· ≠ '.')).drop 1).length
  match s with
  | '-' :: t => -unsigned t
  | t => unsigned t

theorem split_ne_nil (c : Char) (s : List Char) : split c s ≠ [] := by
  cases s with
  | nil => simp [split]
  | cons x s =>
    simp only [split]
    split
    · simp
    · split <;> simp

theorem split_append (c : Char) {a : List Char} (ha : c ∉ a) (s : List Char) : split c (a ++ c :: s) = a :: split c s := by
  induction a with
  | nil => simp [split]
  | cons x a ih =>
    simp only [List.mem_cons, not_or] at ha
    simp only [List.cons_append, split]
    rw [if_neg (Ne.symm ha.1), ih ha.2]

theorem words_space (s : List Char) : words (' ' :: s) = words s := by
  simp [words, split]

theorem words_spaces (n : Nat) (s : List Char) : words (List.replicate n ' ' ++ s) = words s := by
  induction n with
  | zero => simp
  | succ n ih => rw [List.replicate_succ, List.cons_append, words_space, ih]

theorem words_word {w : List Char} (hne : w ≠ []) (hw : ' ' ∉ w) (s : List Char) : words (w ++ ' ' :: s) = w :: words s := by
  unfold words
  rw [split_append _ hw, List.filter_cons_of_pos (by simpa using hne)]

theorem digitChar_isDigit {n : Nat} (h : n < 10) : (Nat.digitChar n).isDigit = true := by
  interval_cases n <;> decide

theorem fixed2_chars {x : ℚ} {c : Char} (h : c ∈ fixed2 x) : c = '-' ∨ c = '.' ∨ c.isDigit = true := by
  unfold fixed2 at h
  simp only [List.mem_append, List.mem_cons, List.not_mem_nil, or_false] at h
  rcases h with (h | h) | h | h | h
  · split at h
    · simp at h; exact Or.inl h
    · simp at h
  · exact Or.inr (Or.inr (Nat.isDigit_of_mem_toDigits (by norm_num) (by norm_num) h))
  · exact Or.inr (Or.inl h)
  · rw [h]; exact Or.inr (Or.inr (digitChar_isDigit (by omega)))
  · rw [h]; exact Or.inr (Or.inr (digitChar_isDigit (by omega)))

theorem fixed2_no {x : ℚ} {c : Char} (h1 : c ≠ '-') (h2 : c ≠ '.') (h3 : c.isDigit = false) : c ∉ fixed2 x := by
  intro h
  rcases fixed2_chars h with h | h | h
  · exact h1 h
  · exact h2 h
  · rw [h3] at h; simp at h

theorem fixed2_ne (x : ℚ) : fixed2 x ≠ [] := by simp [fixed2]

/-- What is printed is the nearest number with two digits after the point. -/
theorem number_fixed2 (x : ℚ) : number (fixed2 x) = (if x < 0 then -1 else 1) * ((hundredths x : ℚ) / 100) := by
  set h := hundredths x with hh
  have hd : ∀ c ∈ Nat.toDigits 10 (h / 100), decide (c ≠ '.') = true := by
    intro c hc
    have := Nat.isDigit_of_mem_toDigits (by norm_num) (by norm_num) hc
    simp only [decide_eq_true_eq]
    rintro rfl
    simp at this
  have huns : ∀ t, t = Nat.toDigits 10 (h / 100) ++ ['.', Nat.digitChar (h % 100 / 10), Nat.digitChar (h % 10)] →
      (Nat.ofDigitChars 10 (t.takeWhile (· ≠ '.')) 0 : ℚ) +
      (Nat.ofDigitChars 10 ((t.dropWhile (· ≠ '.')).drop 1) 0 : ℚ) / 10 ^ ((t.dropWhile (· ≠ '.')).drop 1).length = (h : ℚ) / 100 := by
    rintro t rfl
    rw [List.takeWhile_append_of_pos hd, List.dropWhile_append_of_pos hd]
    simp only [ne_eq, decide_not, List.takeWhile_cons, decide_true, Bool.not_true, Bool.false_eq_true, if_false, List.append_nil,
      List.dropWhile_cons, List.drop_succ_cons, List.drop_zero, List.length_cons, List.length_nil]
    rw [Nat.ofDigitChars_ten_toDigits, Nat.ofDigitChars_cons_digitChar_of_lt_ten (by omega),
      Nat.ofDigitChars_cons_digitChar_of_lt_ten (by omega), Nat.ofDigitChars_nil]
    have e : h = 100 * (h / 100) + (10 * (10 * 0 + h % 100 / 10) + h % 10) := by omega
    have e' : (h : ℚ) = 100 * ((h / 100 : ℕ) : ℚ) + ((10 * (10 * 0 + h % 100 / 10) + h % 10 : ℕ) : ℚ) := by
      exact_mod_cast e
    rw [e']
    ring
  unfold fixed2
  rw [← hh]
  by_cases hx : x < 0
  · rw [if_pos hx, if_pos hx]
    simp only [List.cons_append, List.nil_append, number]
    rw [huns _ rfl]
    ring
  · rw [if_neg hx, if_neg hx]
    simp only [List.nil_append]
    unfold number
    simp only
    split
    · rename_i t heq
      exfalso
      cases hdig : Nat.toDigits 10 (h / 100) with
      | nil => exact Nat.toDigits_ne_nil hdig
      | cons c cs =>
        rw [hdig] at heq
        simp only [List.cons_append, List.cons.injEq] at heq
        have := Nat.isDigit_of_mem_toDigits (b := 10) (n := h / 100) (c := c) (by norm_num) (by norm_num) (by rw [hdig]; simp)
        rw [heq.1] at this
        revert this
        decide
    · rw [huns _ rfl]
      ring

theorem number_near (x : ℚ) : |number (fixed2 x) - x| ≤ 1 / 200 ∧ ∃ n : ℤ, number (fixed2 x) * 100 = n := by
  rw [number_fixed2]
  have h0 := pyRound_spec (|x| * 100)
  have habs := abs_nonneg x
  have hpos : 0 ≤ pyRound (|x| * 100) := by
    have := pyRound_mono (show (((0 : ℤ) : ℚ)) ≤ |x| * 100 by push_cast; positivity)
    rwa [pyRound_int] at this
  have hcast : ((hundredths x : ℕ) : ℚ) = (pyRound (|x| * 100) : ℚ) := by
    unfold hundredths
    have : (((pyRound (|x| * 100)).toNat : ℤ) : ℚ) = (pyRound (|x| * 100) : ℚ) := by rw [Int.toNat_of_nonneg hpos]
    exact_mod_cast this
  rw [hcast]
  constructor
  · by_cases hx : x < 0
    · rw [if_pos hx]
      rw [abs_of_neg hx] at h0 ⊢
      rw [abs_le]
      constructor <;> linarith [h0.1, h0.2]
    · rw [if_neg hx]
      rw [abs_of_nonneg (not_lt.1 hx)] at h0 ⊢
      rw [abs_le]
      constructor <;> linarith [h0.1, h0.2]
  · by_cases hx : x < 0
    · rw [if_pos hx]
      exact ⟨-pyRound (|x| * 100), by push_cast; ring⟩
    · rw [if_neg hx]
      exact ⟨pyRound (|x| * 100), by ring⟩

/-- The line of a point without its end. -/
def body (p : Pt ℚ) : List Char :=
  rjust 6 (fixed2 p.1.1) ++ [' ', ' '] ++ (rjust 7 (fixed2 p.1.2) ++ [' ', ' ']) ++ (rjust 6 (fixed2 p.2) ++ [' ', ' '])

theorem line_eq (p : Pt ℚ) : line p = body p ++ ['\n'] := rfl

theorem body_no_newline (p : Pt ℚ) : '\n' ∉ body p := by
  have h : ∀ x : ℚ, '\n' ∉ fixed2 x := fun x => fixed2_no (by decide) (by decide) (by decide)
  simp only [body, rjust, List.mem_append, List.mem_replicate, List.mem_cons, List.not_mem_nil, or_false, not_or]
  refine ⟨⟨⟨⟨?_, h _⟩, ?_⟩, ⟨?_, h _⟩, ?_⟩, ⟨?_, h _⟩, ?_⟩ <;> simp

theorem words_body (p : Pt ℚ) : words (body p) = [fixed2 p.1.1, fixed2 p.1.2, fixed2 p.2] := by
  have h : ∀ x : ℚ, ' ' ∉ fixed2 x := fun x => fixed2_no (by decide) (by decide) (by decide)
  unfold body rjust
  simp only [List.append_assoc, List.cons_append, List.nil_append]
  rw [words_spaces, words_word (fixed2_ne _) (h _), words_space, words_spaces, words_word (fixed2_ne _) (h _), words_space,
    words_spaces, words_word (fixed2_ne _) (h _), words_space]
  simp [words, split]

theorem split_str (cloud : List (Pt ℚ)) : split '\n' (str cloud) =
    "   TWS      TWA     BSP".toList :: "++++++  +++++++  ++++++".toList :: (cloud.map body ++ [[]]) := by
  have h0 : header = "   TWS      TWA     BSP".toList ++ '\n' :: ("++++++  +++++++  ++++++".toList ++ ['\n']) := by decide +kernel
  have key : split '\n' (cloud.flatMap line) = cloud.map body ++ [[]] := by
    induction cloud with
    | nil => simp [split]
    | cons p cloud ih =>
      rw [List.flatMap_cons, line_eq, List.append_assoc, List.singleton_append, split_append _ (body_no_newline p), ih]
      simp
  unfold str
  rw [h0, List.append_assoc, List.cons_append, split_append _ (by decide +kernel), List.append_assoc, List.singleton_append,
    split_append _ (by decide +kernel), key]

/-- A word shows a number rounded to two digits. -/
def Shows (w : List Char) (x : ℚ) : Prop := |number w - x| ≤ 1 / 200 ∧ ∃ n : ℤ, number w * 100 = n

/-- **C110**: after the two lines of the header there is exactly one line for each point, in the order of the points, and its
three words are wind speed, wind angle and boat speed rounded to two digits. -/
theorem C110_lines (cloud : List (Pt ℚ)) : ∃ rows, split '\n' (str cloud) =
    "   TWS      TWA     BSP".toList :: "++++++  +++++++  ++++++".toList :: (rows ++ [[]]) ∧ rows.length = cloud.length ∧
    ∀ (i : Nat) (p : Pt ℚ), cloud[i]? = some p → ∃ row a b c, rows[i]? = some row ∧ words row = [a, b, c] ∧ Shows a p.1.1 ∧
      Shows b p.1.2 ∧ Shows c p.2 := by
  refine ⟨cloud.map body, split_str cloud, by simp, ?_⟩
  intro i p hp
  exact ⟨body p, _, _, _, by rw [List.getElem?_map, hp]; rfl, words_body p, number_near _, number_near _, number_near _⟩

example : str [((12, 355), 61 / 10), ((8, 1 / 3), 9 / 1000)] =
    "   TWS      TWA     BSP\n++++++  +++++++  ++++++\n 12.00   355.00    6.10  \n  8.00     0.33    0.01  \n".toList := by
  decide +kernel

theorem length_toDigits {n k : Nat} (hk : 0 < k) (h : n < 10 ^ k) : (Nat.toDigits 10 n).length ≤ k :=
  (Nat.length_toDigits_le_iff (by norm_num) hk).2 h

theorem length_fixed2 {x : ℚ} (h0 : 0 ≤ x) (h1 : x < 999) : (fixed2 x).length ≤ 6 := by
  have hr : hundredths x ≤ 99900 := by
    unfold hundredths
    rw [abs_of_nonneg h0]
    have := pyRound_mono (show x * 100 ≤ (((99900 : ℤ) : ℚ)) by push_cast; linarith)
    rw [pyRound_int] at this
    omega
  have := length_toDigits (n := hundredths x / 100) (k := 3) (by norm_num) (by omega)
  unfold fixed2
  rw [if_neg (not_lt.2 h0)]
  simp only [List.nil_append, List.length_append, List.length_cons, List.length_nil]
  omega

theorem length_rjust {w : Nat} {s : List Char} (h : s.length ≤ w) : (rjust w s).length = w := by
  simp [rjust]
  omega

/-- **C110** (partial: speeds below 999). The columns are aligned: the words end at the columns 6, 15 and 23, as the words of
the header do. -/
theorem C110_aligned_partial {p : Pt ℚ} (h1 : 0 ≤ p.1.1) (h1' : p.1.1 < 999) (h2 : 0 ≤ p.1.2) (h2' : p.1.2 < 360) (h3 : 0 ≤ p.2)
    (h3' : p.2 < 999) : ∃ a b c, a.length = 6 ∧ b.length = 9 ∧ c.length = 8 ∧ line p = a ++ b ++ c ++ [' ', ' ', '\n'] ∧
      words (a ++ [' ']) = [fixed2 p.1.1] ∧ words (b ++ [' ']) = [fixed2 p.1.2] ∧ words (c ++ [' ']) = [fixed2 p.2] := by
  have l1 := length_rjust (length_fixed2 h1 h1')
  have l2 := length_rjust (w := 7) (le_trans (length_fixed2 h2 (by linarith)) (by norm_num))
  have l3 := length_rjust (length_fixed2 h3 h3')
  have h : ∀ x : ℚ, ' ' ∉ fixed2 x := fun x => fixed2_no (by decide) (by decide) (by decide)
  have hw : ∀ (n : Nat) (x : ℚ), words (rjust n (fixed2 x) ++ [' ']) = [fixed2 x] := by
    intro n x
    unfold rjust
    rw [List.append_assoc, words_spaces, words_word (fixed2_ne _) (h _)]
    simp [words, split]
  refine ⟨rjust 6 (fixed2 p.1.1), ' ' :: ' ' :: rjust 7 (fixed2 p.1.2), ' ' :: ' ' :: rjust 6 (fixed2 p.2), l1, by simp [l2], by simp [l3],
    ?_, hw _ _, ?_, ?_⟩
  · simp [line]
  · rw [List.cons_append, List.cons_append, words_space, words_space, hw]
  · rw [List.cons_append, List.cons_append, words_space, words_space, hw]

example : ∃ a b c, a.length = 6 ∧ b.length = 9 ∧ c.length = 8 ∧ line ((12, 45 / 2), 27 / 4) = a ++ b ++ c ++ [' ', ' ', '\n'] ∧
    words (a ++ [' ']) = [fixed2 12] ∧ words (b ++ [' ']) = [fixed2 (45 / 2)] ∧ words (c ++ [' ']) = [fixed2 (27 / 4)] :=
  C110_aligned_partial (p := ((12, 45 / 2), 27 / 4)) (by norm_num) (by norm_num) (by norm_num) (by norm_num) (by norm_num) (by norm_num)

/-- **C110 is false** for other speeds: then the columns are shifted. -/
theorem C110_aligned_false : ∃ p q : Pt ℚ, (line p).length ≠ (line q).length :=
  ⟨((12, 90), 6), ((12, 90), 1000), by decide +kernel⟩

/-- **C110 is false** in that the text determines the points: different point clouds may be printed in the same way. -/
theorem C110_rounded_false : ∃ p q : Pt ℚ, p ≠ q ∧ str [p] = str [q] :=
  ⟨((12, 90), 6), ((12, 90), 6001 / 1000), by decide +kernel, by decide +kernel⟩

/-- Different numbers with at most two digits after the point are printed differently. -/
theorem C110_unambiguous {m n : ℤ} (h : fixed2 ((m : ℚ) / 100) = fixed2 ((n : ℚ) / 100)) : m = n := by
  -- the printed number is the number itself
  have key : ∀ m : ℤ, number (fixed2 ((m : ℚ) / 100)) = (m : ℚ) / 100 := by
    intro m
    rw [number_fixed2]
    have hr : hundredths ((m : ℚ) / 100) = m.natAbs := by
      unfold hundredths
      have : |(m : ℚ) / 100| * 100 = (((|m| : ℤ)) : ℚ) := by
        rw [abs_div, abs_of_pos (show (0 : ℚ) < 100 by norm_num), Int.cast_abs]
        ring
      rw [this, pyRound_int, Int.abs_eq_natAbs]
      rfl
    rw [hr]
    by_cases hm : m < 0
    · rw [if_pos (by have : (m : ℚ) < 0 := by exact_mod_cast hm
                     linarith)]
      have : ((m.natAbs : ℕ) : ℚ) = -(m : ℚ) := by
        rw [Nat.cast_natAbs, abs_of_neg hm]
        push_cast
        rfl
      rw [this]
      ring
    · rw [if_neg (by have : (0 : ℚ) ≤ m := by exact_mod_cast not_lt.1 hm
                     intro hc
                     linarith)]
      have : ((m.natAbs : ℕ) : ℚ) = (m : ℚ) := by
        rw [Nat.cast_natAbs, abs_of_nonneg (not_lt.1 hm)]
      rw [this]
      ring
  have e := key m
  rw [h, key n] at e
  have : (n : ℚ) = m := by linarith
  exact_mod_cast this.symm

example : fixed2 (((675 : ℤ) : ℚ) / 100) ≠ fixed2 (((676 : ℤ) : ℚ) / 100) :=
  fun h => absurd (C110_unambiguous h) (by norm_num)

end Verif.CloudText
