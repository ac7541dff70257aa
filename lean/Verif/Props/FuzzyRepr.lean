import Verif.Model.FuzzyRepr
import Verif.Lemmas.Fold
import Verif.Props.Fuzzy
import Mathlib.Tactic.Linarith

/-!
# Properties C100 and C101: representations of fuzzy statements, and their values for arrays
-/

namespace Verif.Fuzzy

/-! ### Brackets -/

/-- The brackets of `s` are balanced (with `d` more closing ones) and all blanks are inside of brackets. -/
def closed : Nat → Str → Bool
  | d, [] => d == 0
  | d, c :: s =>
    if c = '(' then closed (d + 1) s
    else if c = ')' then decide (0 < d) && closed (d - 1) s
    else if c = ' ' then decide (0 < d) && closed d s
    else closed d s

/-- The text before and after the first blank outside of brackets. -/
def cut : Nat → Str → Str × Str
  | _, [] => ([], [])
  | d, c :: s =>
    if c = '(' then (c :: (cut (d + 1) s).1, (cut (d + 1) s).2)
    else if c = ')' then (c :: (cut (d - 1) s).1, (cut (d - 1) s).2)
    else if c = ' ' ∧ d = 0 then ([], s)
    else (c :: (cut d s).1, (cut d s).2)

theorem cut_of_closed (r : Str) : ∀ (s : Str) (d : Nat), closed d s = true → cut d (s ++ ' ' :: r) = (s, r) := by
  intro s
  induction s with
  | nil =>
    intro d h
    have : d = 0 := by simpa [closed] using h
    subst this
    simp [cut]
  | cons c s ih =>
    intro d h
    simp only [closed] at h
    simp only [List.cons_append, cut]
    by_cases h1 : c = '('
    · rw [if_pos h1] at h ⊢
      rw [ih _ h]
    · rw [if_neg h1] at h ⊢
      by_cases h2 : c = ')'
      · rw [if_pos h2] at h ⊢
        simp only [Bool.and_eq_true, decide_eq_true_eq] at h
        rw [ih _ h.2]
      · rw [if_neg h2] at h ⊢
        by_cases h3 : c = ' '
        · rw [if_pos h3] at h
          simp only [Bool.and_eq_true, decide_eq_true_eq] at h
          rw [if_neg (by omega), ih _ h.2]
        · rw [if_neg h3] at h
          rw [if_neg (fun h => h3 h.1), ih _ h]

/-- A text with a blank outside of brackets is not closed. -/
theorem not_closed_append {s r : Str} (h : closed 0 s = true) : closed 0 (s ++ ' ' :: r) = false := by
  suffices H : ∀ (s : Str) (d : Nat), closed d s = true → closed d (s ++ ' ' :: r) = false from H s 0 h
  intro s
  induction s with
  | nil =>
    intro d h
    have : d = 0 := by simpa [closed] using h
    subst this
    simp [closed]
  | cons c s ih =>
    intro d h
    simp only [closed] at h
    simp only [List.cons_append, closed]
    split_ifs at h ⊢ with h1 h2 h3
    · exact ih _ h
    · simp only [Bool.and_eq_true] at h
      rw [ih _ h.2]
      simp
    · simp only [Bool.and_eq_true] at h
      rw [ih _ h.2]
      simp
    · exact ih _ h

/-- Texts with balanced brackets, blanks allowed. -/
def balanced : Nat → Str → Bool
  | d, [] => d == 0
  | d, c :: s =>
    if c = '(' then balanced (d + 1) s
    else if c = ')' then decide (0 < d) && balanced (d - 1) s
    else balanced d s

theorem balanced_append : ∀ (s t : Str) (d d' : Nat), balanced d s = true → balanced d' t = true →
    balanced (d + d') (s ++ t) = true := by
  intro s
  induction s with
  | nil =>
    intro t d d' h h'
    have : d = 0 := by simpa [balanced] using h
    subst this
    simpa using h'
  | cons c s ih =>
    intro t d d' h h'
    simp only [balanced] at h
    simp only [List.cons_append, balanced]
    split_ifs at h ⊢ with h1 h2
    · have := ih t (d + 1) d' h h'
      rwa [show d + 1 + d' = d + d' + 1 by omega] at this
    · simp only [Bool.and_eq_true, decide_eq_true_eq] at h ⊢
      refine ⟨by omega, ?_⟩
      have := ih t (d - 1) d' h.2 h'
      rwa [show d - 1 + d' = d + d' - 1 by omega] at this
    · exact ih t d d' h h'

theorem closed_append : ∀ (s t : Str) (d d' : Nat), closed d s = true → closed d' t = true →
    closed (d + d') (s ++ t) = true := by
  intro s
  induction s with
  | nil =>
    intro t d d' h h'
    have : d = 0 := by simpa [closed] using h
    subst this
    simpa using h'
  | cons c s ih =>
    intro t d d' h h'
    simp only [closed] at h
    simp only [List.cons_append, closed]
    split_ifs at h ⊢ with h1 h2 h3
    · have := ih t (d + 1) d' h h'
      rwa [show d + 1 + d' = d + d' + 1 by omega] at this
    · simp only [Bool.and_eq_true, decide_eq_true_eq] at h ⊢
      refine ⟨by omega, ?_⟩
      have := ih t (d - 1) d' h.2 h'
      rwa [show d - 1 + d' = d + d' - 1 by omega] at this
    · simp only [Bool.and_eq_true, decide_eq_true_eq] at h ⊢
      exact ⟨by omega, ih t d d' h.2 h'⟩
    · exact ih t d d' h h'

/-- Inside of brackets everything balanced is closed. -/
theorem closed_inside : ∀ (s t : Str) (d d' : Nat), balanced d s = true → closed (d' + 1) t = true →
    closed (d + d' + 1) (s ++ t) = true := by
  intro s
  induction s with
  | nil =>
    intro t d d' h h'
    have : d = 0 := by simpa [balanced] using h
    subst this
    simpa using h'
  | cons c s ih =>
    intro t d d' h h'
    simp only [balanced] at h
    simp only [List.cons_append, closed]
    by_cases h1 : c = '('
    · rw [if_pos h1] at h ⊢
      have := ih t (d + 1) d' h h'
      rwa [show d + 1 + d' + 1 = d + d' + 1 + 1 by omega] at this
    · rw [if_neg h1] at h ⊢
      by_cases h2 : c = ')'
      · rw [if_pos h2] at h ⊢
        simp only [Bool.and_eq_true, decide_eq_true_eq] at h ⊢
        refine ⟨by omega, ?_⟩
        have := ih t (d - 1) d' h.2 h'
        rwa [show d - 1 + d' + 1 = d + d' + 1 - 1 by omega] at this
      · rw [if_neg h2] at h ⊢
        have := ih t d d' h h'
        by_cases h3 : c = ' '
        · rw [if_pos h3]
          simp only [Bool.and_eq_true, decide_eq_true_eq]
          exact ⟨by omega, this⟩
        · rw [if_neg h3]
          exact this

theorem closed_of_no_blank {s : Str} (h : ' ' ∉ s) : ∀ d, balanced d s = true → closed d s = true := by
  induction s with
  | nil => intro d hb; exact hb
  | cons c s ih =>
    intro d hb
    simp only [List.mem_cons, not_or] at h
    simp only [balanced] at hb
    simp only [closed]
    rw [if_neg (c := c = ' ') (Ne.symm h.1)]
    split_ifs at hb ⊢ with h1 h2
    · exact ih h.2 _ hb
    · simp only [Bool.and_eq_true, decide_eq_true_eq] at hb ⊢
      exact ⟨hb.1, ih h.2 _ hb.2⟩
    · exact ih h.2 _ hb

/-- Texts without brackets, blanks and commas, e.g. numbers and usual names of columns. -/
def Plain (s : Str) : Prop := ∀ c ∈ s, c ≠ '(' ∧ c ≠ ')' ∧ c ≠ '[' ∧ c ≠ ']' ∧ c ≠ ' ' ∧ c ≠ ','

instance (s : Str) : Decidable (Plain s) := by unfold Plain; infer_instance

theorem Plain.closed {s : Str} (h : Plain s) : Fuzzy.closed 0 s = true := by
  induction s with
  | nil => rfl
  | cons c s ih =>
    obtain ⟨h1, h2, _, _, h5, _⟩ := h c (by simp)
    simp only [Fuzzy.closed]
    rw [if_neg h1, if_neg h2, if_neg h5]
    exact ih fun c hc => h c (by simp [hc])

theorem Plain.balanced {s : Str} (h : Plain s) : Fuzzy.balanced 0 s = true := by
  induction s with
  | nil => rfl
  | cons c s ih =>
    obtain ⟨h1, h2, _⟩ := h c (by simp)
    simp only [Fuzzy.balanced]
    rw [if_neg h1, if_neg h2]
    exact ih fun c hc => h c (by simp [hc])

/-- Statements built from comparisons and sigmoids by `&`, `|` and `~`, whose keys and numbers are plain texts. -/
def Expr.Simple : Expr → Prop
  | .compare key _ number _ => (∀ k, key = some k → Plain k) ∧ Plain number
  | .sigmoid center sharpness sigma => Plain center ∧ Plain sharpness ∧ Plain sigma
  | .and e f => e.Simple ∧ f.Simple
  | .or e f => e.Simple ∧ f.Simple
  | .not e => e.Simple
  | .item _ _ => False

/-- The statement with sharpness `s` in all of its comparisons. -/
def Expr.withSharpness (s : ℝ) : Expr → Expr
  | .compare key op number _ => .compare key op number s
  | .sigmoid center sharpness sigma => .sigmoid center sharpness sigma
  | .and e f => .and (e.withSharpness s) (f.withSharpness s)
  | .or e f => .or (e.withSharpness s) (f.withSharpness s)
  | .not e => .not (e.withSharpness s)
  | .item e k => .item (e.withSharpness s) k

theorem closed_variable {key : Option Str} (h : ∀ k, key = some k → Plain k) : closed 0 (variableText key) = true := by
  cases key with
  | none => rfl
  | some k =>
    have h1 := closed_append _ _ 0 0 (closed_append ['x', '['] _ 0 0 rfl (h k rfl).closed) (show closed 0 [']'] = true from rfl)
    exact h1

theorem closed_sigmoid {c s σ : Str} (hc : Plain c) (hs : Plain s) (hσ : Plain σ) :
    closed 0 (Expr.sigmoid c s σ).text = true := by
  have h1 := closed_append _ _ 0 0 hc.closed (closed_append sharpnessText s 0 0 rfl hs.closed)
  have h2 := closed_append _ _ 0 0 h1 (closed_append sigmaText σ 0 0 rfl hσ.closed)
  have h3 := closed_append _ [')'] 0 1 h2 rfl
  simp only [Expr.text]
  simp only [List.append_assoc] at h3 ⊢
  exact h3

theorem no_blank_of_plain {s : Str} (h : Plain s) : ' ' ∉ s := fun hm => (h _ hm).2.2.2.2.1 rfl

theorem closed_not {s : Str} (h : balanced 0 s = true) : closed 0 ('~' :: '(' :: s ++ [')']) = true := by
  have := closed_inside s [')'] 0 0 h rfl
  exact this

theorem balanced_bracket {s : Str} (h : balanced 0 s = true) : balanced 0 (bracket s) = true := by
  unfold bracket
  split
  · have := balanced_append s [')'] 0 1 h rfl
    exact this
  · exact h

theorem closed_bracket {s : Str} (h : balanced 0 s = true) : closed 0 (bracket s) = true := by
  unfold bracket
  split
  · have := closed_inside s [')'] 0 0 h rfl
    exact this
  · rename_i hb
    exact closed_of_no_blank hb 0 h

theorem balanced_of_closed : ∀ (s : Str) (d : Nat), closed d s = true → balanced d s = true := by
  intro s
  induction s with
  | nil => intro d h; exact h
  | cons c s ih =>
    intro d h
    simp only [closed] at h
    simp only [balanced]
    split_ifs at h ⊢ with h1 h2 h3
    · exact ih _ h
    · simp only [Bool.and_eq_true, decide_eq_true_eq] at h ⊢
      exact ⟨h.1, ih _ h.2⟩
    · simp only [Bool.and_eq_true, decide_eq_true_eq] at h
      exact ih _ h.2
    · exact ih _ h

theorem balanced_text {e : Expr} (h : e.Simple) : balanced 0 e.text = true := by
  induction e with
  | compare key op number s =>
    obtain ⟨hk, hn⟩ := h
    refine balanced_append _ _ 0 0 (balanced_of_closed _ _ (closed_variable hk)) ?_
    have := balanced_append (op.text ++ [' ']) number 0 0 (by cases op <;> rfl) hn.balanced
    simp only [List.append_assoc] at this
    exact this
  | sigmoid c s σ => exact balanced_of_closed _ _ (closed_sigmoid h.1 h.2.1 h.2.2)
  | and e f ihe ihf =>
    exact balanced_append _ _ 0 0 (balanced_bracket (ihe h.1)) (by
      have := balanced_bracket (ihf h.2)
      exact this)
  | or e f ihe ihf =>
    exact balanced_append _ _ 0 0 (balanced_bracket (ihe h.1)) (by
      have := balanced_bracket (ihf h.2)
      exact this)
  | not e ih => exact balanced_of_closed _ _ (closed_not (ih h))
  | item e k => exact h.elim

/-- The first character of a text in brackets or without blanks. -/
theorem head_bracket {e : Expr} (h : e.Simple) : ∃ c r, bracket e.text = c :: r ∧
    ((c = '(' ∧ ' ' ∈ e.text) ∨ (c ≠ '(' ∧ c ≠ 'x' ∧ ' ' ∉ e.text)) := by
  unfold bracket
  split
  · rename_i hb
    exact ⟨'(', _, rfl, .inl ⟨rfl, hb⟩⟩
  · rename_i hb
    cases e with
    | compare key op number s => exact absurd (by simp [Expr.text]) hb
    | sigmoid c s σ => exact ⟨'s', _, rfl, .inr ⟨by decide, by decide, hb⟩⟩
    | and e f => exact absurd (by simp [Expr.text]) hb
    | or e f => exact absurd (by simp [Expr.text]) hb
    | not e => exact ⟨'~', _, rfl, .inr ⟨by decide, by decide, hb⟩⟩
    | item e k => exact h.elim

theorem bracket_inj {e f : Expr} (he : e.Simple) (hf : f.Simple) (h : bracket e.text = bracket f.text) : e.text = f.text := by
  obtain ⟨c, r, h1, h2⟩ := head_bracket he
  obtain ⟨c', r', h1', h2'⟩ := head_bracket hf
  rw [h1, h1'] at h
  obtain ⟨hc, hr⟩ := List.cons.inj h
  subst hc hr
  rcases h2 with ⟨h2, hb⟩ | ⟨h2, _, hb⟩ <;> rcases h2' with ⟨h2', hb'⟩ | ⟨h2', _, hb'⟩
  · unfold bracket at h1 h1'
    rw [if_pos hb] at h1
    rw [if_pos hb'] at h1'
    have := h1.trans h1'.symm
    simpa using this
  · exact absurd h2 h2'
  · exact absurd h2' h2
  · unfold bracket at h1 h1'
    rw [if_neg hb] at h1
    rw [if_neg hb'] at h1'
    exact h1.trans h1'.symm

theorem variable_inj {k l : Option Str} (h : variableText k = variableText l) : k = l := by
  cases k with
  | none =>
    cases l with
    | none => rfl
    | some l => simp [variableText] at h
  | some k =>
    cases l with
    | none => simp [variableText] at h
    | some l =>
      simp only [variableText, List.append_assoc] at h
      have := List.append_cancel_left h
      simpa using this

theorem span_comma {a b r r' : Str} (ha : Plain a) (hb : Plain b) (h : a ++ ',' :: r = b ++ ',' :: r') : a = b ∧ r = r' := by
  induction a generalizing b with
  | nil =>
    cases b with
    | nil => simpa using h
    | cons c b =>
      simp only [List.nil_append, List.cons_append, List.cons.injEq] at h
      exact absurd h.1.symm (hb c (by simp)).2.2.2.2.2
  | cons c a ih =>
    cases b with
    | nil =>
      simp only [List.nil_append, List.cons_append, List.cons.injEq] at h
      exact absurd h.1 (ha c (by simp)).2.2.2.2.2
    | cons c' b =>
      simp only [List.cons_append, List.cons.injEq] at h
      obtain ⟨h1, h2⟩ := ih (fun c hc => ha c (by simp [hc])) (fun c hc => hb c (by simp [hc])) h.2
      exact ⟨by rw [h.1, h1], h2⟩

theorem sigmoid_inj {a b c a' b' c' : Str} (ha : Plain a) (hb : Plain b) (ha' : Plain a') (hb' : Plain b')
    (h : (Expr.sigmoid a b c).text = (Expr.sigmoid a' b' c').text) : a = a' ∧ b = b' ∧ c = c' := by
  simp only [Expr.text, List.append_assoc] at h
  have h1 := List.append_cancel_left h
  have h2 := span_comma (r := ['s', 'h', 'a', 'r', 'p', 'n', 'e', 's', 's', '='] ++ (b ++ (sigmaText ++ (c ++ [')']))))
    (r' := ['s', 'h', 'a', 'r', 'p', 'n', 'e', 's', 's', '='] ++ (b' ++ (sigmaText ++ (c' ++ [')'])))) ha ha' h1
  have h3 := span_comma (r := ['s', 'i', 'g', 'm', 'a', '='] ++ (c ++ [')'])) (r' := ['s', 'i', 'g', 'm', 'a', '='] ++ (c' ++ [')'])) hb hb'
    (List.append_cancel_left h2.2)
  have h4 := List.append_cancel_left h3.2
  exact ⟨h2.1, h3.1, List.append_cancel_right h4⟩

theorem cut_text {s t r r' : Str} (hs : closed 0 s = true) (ht : closed 0 t = true) (h : s ++ ' ' :: r = t ++ ' ' :: r') :
    s = t ∧ r = r' := by
  have h1 := cut_of_closed r s 0 hs
  rw [h, cut_of_closed r' t 0 ht] at h1
  simp only [Prod.mk.injEq] at h1
  exact ⟨h1.1.symm, h1.2.symm⟩

theorem cmp_inj {op op' : Cmp} {n n' : Str} (h : op.text ++ ' ' :: n = op'.text ++ ' ' :: n') : op = op' ∧ n = n' := by
  cases op <;> cases op' <;> simp_all [Cmp.text]

theorem head_variable (key : Option Str) : ∃ r, variableText key = 'x' :: r := by
  cases key with
  | none => exact ⟨[], rfl⟩
  | some k => exact ⟨'[' :: k ++ [']'], rfl⟩

/-- A comparison is not represented like a conjunction or disjunction. -/
theorem compare_ne {key : Option Str} {e : Expr} (he : e.Simple) (hk : ∀ k, key = some k → Plain k) {r r' : Str} :
    variableText key ++ ' ' :: r ≠ bracket e.text ++ ' ' :: r' := by
  intro h
  obtain ⟨h1, _⟩ := cut_text (closed_variable hk) (closed_bracket (balanced_text he)) h
  obtain ⟨c, t, h2, h3⟩ := head_bracket he
  obtain ⟨u, hu⟩ := head_variable key
  rw [hu, h2] at h1
  have hc := (List.cons.inj h1).1
  rcases h3 with ⟨h3, _⟩ | ⟨_, h3, _⟩
  · rw [h3] at hc
    exact absurd hc (by decide)
  · exact h3 hc.symm

theorem ne_of_closed {s t r : Str} (hs : closed 0 s = true) (ht : closed 0 t = true) : s ≠ t ++ ' ' :: r := by
  intro h
  rw [h, not_closed_append ht] at hs
  exact Bool.noConfusion hs

/-- Representations determine how a statement was built. -/
theorem text_inj (s : ℝ) : ∀ {e f : Expr}, e.Simple → f.Simple → e.text = f.text → e.withSharpness s = f.withSharpness s := by
  intro e
  induction e with
  | compare key op number sh =>
    intro f he hf h
    cases f with
    | compare key' op' number' sh' =>
      obtain ⟨h1, h2⟩ := cut_text (closed_variable he.1) (closed_variable hf.1) h
      obtain ⟨h3, h4⟩ := cmp_inj h2
      have := variable_inj h1
      subst this h3 h4
      rfl
    | sigmoid c s' σ => exact absurd h.symm (ne_of_closed (closed_sigmoid hf.1 hf.2.1 hf.2.2) (closed_variable he.1))
    | and a b => exact absurd h (compare_ne hf.1 he.1)
    | or a b => exact absurd h (compare_ne hf.1 he.1)
    | not a => exact absurd h.symm (ne_of_closed (closed_not (balanced_text (e := a) hf)) (closed_variable he.1))
    | item a k => exact hf.elim
  | sigmoid c s' σ =>
    intro f he hf h
    have hcl := closed_sigmoid he.1 he.2.1 he.2.2
    cases f with
    | compare key' op' number' sh' => exact absurd h (ne_of_closed hcl (closed_variable hf.1))
    | sigmoid c' s'' σ' =>
      obtain ⟨rfl, rfl, rfl⟩ := sigmoid_inj he.1 he.2.1 hf.1 hf.2.1 h
      rfl
    | and a b => exact absurd h (ne_of_closed hcl (closed_bracket (balanced_text hf.1)))
    | or a b => exact absurd h (ne_of_closed hcl (closed_bracket (balanced_text hf.1)))
    | not a =>
      have : 's' = '~' := (List.cons.inj (show 's' :: _ = '~' :: _ from h)).1
      exact absurd this (by decide)
    | item a k => exact hf.elim
  | and a b iha ihb =>
    intro f he hf h
    have hcl := closed_bracket (balanced_text he.1)
    cases f with
    | compare key' op' number' sh' => exact absurd h.symm (compare_ne he.1 hf.1)
    | sigmoid c s' σ => exact absurd h.symm (ne_of_closed (closed_sigmoid hf.1 hf.2.1 hf.2.2) hcl)
    | and a' b' =>
      obtain ⟨h1, h2⟩ := cut_text hcl (closed_bracket (balanced_text hf.1)) h
      have h3 := bracket_inj he.1 hf.1 h1
      have h4 := bracket_inj he.2 hf.2 (List.cons.inj (List.cons.inj h2).2).2
      simp only [Expr.withSharpness, iha he.1 hf.1 h3, ihb he.2 hf.2 h4]
    | or a' b' =>
      obtain ⟨h1, h2⟩ := cut_text hcl (closed_bracket (balanced_text hf.1)) h
      exact absurd (List.cons.inj h2).1 (by decide)
    | not a' => exact absurd h.symm (ne_of_closed (closed_not (balanced_text (e := a') hf)) hcl)
    | item a' k => exact hf.elim
  | or a b iha ihb =>
    intro f he hf h
    have hcl := closed_bracket (balanced_text he.1)
    cases f with
    | compare key' op' number' sh' => exact absurd h.symm (compare_ne he.1 hf.1)
    | sigmoid c s' σ => exact absurd h.symm (ne_of_closed (closed_sigmoid hf.1 hf.2.1 hf.2.2) hcl)
    | and a' b' =>
      obtain ⟨h1, h2⟩ := cut_text hcl (closed_bracket (balanced_text hf.1)) h
      exact absurd (List.cons.inj h2).1 (by decide)
    | or a' b' =>
      obtain ⟨h1, h2⟩ := cut_text hcl (closed_bracket (balanced_text hf.1)) h
      have h3 := bracket_inj he.1 hf.1 h1
      have h4 := bracket_inj he.2 hf.2 (List.cons.inj (List.cons.inj h2).2).2
      simp only [Expr.withSharpness, iha he.1 hf.1 h3, ihb he.2 hf.2 h4]
    | not a' => exact absurd h.symm (ne_of_closed (closed_not (balanced_text (e := a') hf)) hcl)
    | item a' k => exact hf.elim
  | not a ih =>
    intro f he hf h
    have hcl := closed_not (balanced_text (e := a) he)
    cases f with
    | compare key' op' number' sh' => exact absurd h (ne_of_closed hcl (closed_variable hf.1))
    | sigmoid c' s'' σ' =>
      have : '~' = 's' := (List.cons.inj (show '~' :: _ = 's' :: _ from h)).1
      exact absurd this (by decide)
    | and a' b' => exact absurd h (ne_of_closed hcl (closed_bracket (balanced_text hf.1)))
    | or a' b' => exact absurd h (ne_of_closed hcl (closed_bracket (balanced_text hf.1)))
    | not a' =>
      have : a.text = a'.text := by simpa [Expr.text] using h
      simp only [Expr.withSharpness, ih (f := a') he hf this]
    | item a' k => exact hf.elim
  | item a k => intro f he; exact he.elim

/-- All comparisons of the statement have sharpness `s`. -/
def Expr.HasSharpness (s : ℝ) (e : Expr) : Prop := e.withSharpness s = e

/-- **C100**, for statements built from comparisons and sigmoids of the same sharpness with `&`, `|` and `~`, whose keys and
numbers contain no blanks, brackets and commas: statements with the same representation have the same truth function. What is
missing: subscripts (`C100_item_false`), different sharpness (`C100_sharpness_false`), other keys. -/
theorem C100_unique_partial {e f : Expr} (he : e.Simple) (hf : f.Simple) {s : ℝ} (hse : e.HasSharpness s)
    (hsf : f.HasSharpness s) (h : e.text = f.text) (val : Str → ℝ) : e = f ∧ e.truth val = f.truth val := by
  have := text_inj s he hf h
  rw [hse, hsf] at this
  subst this
  exact ⟨rfl, rfl⟩

example : (Expr.and (.compare (some "TWS".toList) .lt "3".toList 10) (.not (.compare none .eq "2.5".toList 10))).text =
    "(x[TWS] < 3) & (~(x == 2.5))".toList := by decide +kernel

example : (Expr.and (.compare (some "TWS".toList) .lt "3".toList 10) (.not (.compare none .eq "2.5".toList 10))).Simple := by
  refine ⟨⟨?_, by decide⟩, ⟨by simp, by decide⟩⟩
  rintro k ⟨⟩
  decide

/-- **C100**: without knowing the sharpness the representation still determines how the statement was built, i.e. all keys,
comparisons, numbers and operations. -/
theorem C100_structure {e f : Expr} (he : e.Simple) (hf : f.Simple) (h : e.text = f.text) (s : ℝ) :
    e.withSharpness s = f.withSharpness s := text_inj s he hf h

/-- **C100**: the representation of the elementary statements. -/
theorem C100_elementary (key number center sharpness sigma : Str) (s : ℝ) :
    (Expr.compare none .lt number s).text = "x < ".toList ++ number ∧
    (Expr.compare (some key) .gt number s).text = "x[".toList ++ key ++ "] > ".toList ++ number ∧
    (Expr.sigmoid center sharpness sigma).text = "sigmoid(center=".toList ++ center ++ ",sharpness=".toList ++ sharpness ++
      ",sigma=".toList ++ sigma ++ ")".toList := by
  refine ⟨?_, ?_, ?_⟩
  · simp [Expr.text, variableText, Cmp.text]
  · simp [Expr.text, variableText, Cmp.text]
  · simp [Expr.text, centerText, sharpnessText, sigmaText]

/-- The values of the texts used in the examples. -/
noncomputable def exVal (s : Str) : ℝ := if s = "1".toList then 1 else if s = "-1".toList then -1 else 0

/-- **C100 is false** with subscripts: `(S & S)["a"]` and `S & S["a"]` for a sigmoid `S` have the same representation, but
other truth values. -/
theorem C100_item_false : ∃ (e f : Expr) (x : Input), e.text = f.text ∧ e.truth exVal x ≠ f.truth exVal x := by
  refine ⟨.item (.and (.sigmoid "0.0".toList "1".toList "-1".toList) (.sigmoid "0.0".toList "1".toList "-1".toList)) ['a'],
    .and (.sigmoid "0.0".toList "1".toList "-1".toList) (.item (.sigmoid "0.0".toList "1".toList "-1".toList) ['a']),
    fun path => if path = [['a']] then 1 else 0, by decide +kernel, ?_⟩
  have h0 : exVal "0.0".toList = 0 := by unfold exVal; rw [if_neg (by decide), if_neg (by decide)]
  have h1 : exVal "1".toList = 1 := by unfold exVal; rw [if_pos rfl]
  have h2 : exVal "-1".toList = -1 := by unfold exVal; rw [if_neg (by decide), if_pos rfl]
  simp only [Expr.truth, h0, h1, h2, Input.item]
  have hm := (Weigher.C16_monotone (s := 1) (a := 0) one_pos).2.1 (zero_lt_one (α := ℝ))
  rw [if_pos trivial, if_neg (by decide), min_self, min_eq_left hm.le]
  exact hm.ne'

/-- **C100 is false** for different sharpness: it is missing in the representation of comparisons. -/
theorem C100_sharpness_false : ∃ (e f : Expr) (x : Input), e.Simple ∧ f.Simple ∧ e.text = f.text ∧
    e.truth exVal x ≠ f.truth exVal x := by
  refine ⟨.compare none .lt ['0'] 1, .compare none .lt ['0'] 2, fun _ => 1, ⟨by simp, by decide⟩, ⟨by simp, by decide⟩, rfl, ?_⟩
  have h0 : exVal ['0'] = 0 := by unfold exVal; rw [if_neg (by decide), if_neg (by decide)]
  simp only [Expr.truth, h0, Weigher.sigmoid]
  intro h
  have h1 : (1 : ℝ) + Real.exp (1 * 1 * (1 - 0)) < 1 + Real.exp (1 * 2 * (1 - 0)) := by
    have : Real.exp (1 * 1 * (1 - 0)) < Real.exp (1 * 2 * (1 - 0)) := Real.exp_lt_exp.2 (by norm_num)
    linarith
  have h2 := one_div_lt_one_div_of_lt (by positivity) h1
  exact h2.ne' h

/-! ### C101: arrays and weights -/

/-- Statements about a variable without key. -/
def Expr.Keyless : Expr → Prop
  | .compare key _ _ _ => key = none
  | .sigmoid _ _ _ => True
  | .and e f => e.Keyless ∧ f.Keyless
  | .or e f => e.Keyless ∧ f.Keyless
  | .not e => e.Keyless
  | .item _ _ => False

/-- Statements without `&`, `|` and `==`. -/
def Expr.Single : Expr → Prop
  | .compare key op _ _ => key = none ∧ op ≠ .eq
  | .sigmoid _ _ _ => True
  | .not e => e.Single
  | _ => False

theorem Expr.Single.keyless {e : Expr} (h : e.Single) : e.Keyless := by
  induction e with
  | compare key op n s => exact h.1
  | sigmoid c s σ => trivial
  | not e ih => exact ih h
  | and e f => exact h.elim
  | or e f => exact h.elim
  | item e k => exact h.elim

theorem combine_scalar (op : ℝ → ℝ → ℝ) (a b : ℝ) : combine op (.scalar a) (.scalar b) = .ok (.scalar (op a b)) := by
  simp [combine, Arr.row]

/-- **C101**: for a number the result is the truth value. -/
theorem C101_number (val : Str → ℝ) {e : Expr} (h : e.Keyless) (r : ℝ) :
    e.array val (.scalar r) = .ok (.scalar (e.truth val fun _ => r)) := by
  induction e with
  | compare key op n s =>
    have : key = none := h
    subst this
    cases op with
    | lt => rfl
    | gt => rfl
    | eq => exact combine_scalar _ _ _
  | sigmoid c s σ => rfl
  | and e f ihe ihf =>
    simp only [Expr.array]
    rw [ihe h.1, ihf h.2]
    exact combine_scalar _ _ _
  | or e f ihe ihf =>
    simp only [Expr.array]
    rw [ihe h.1, ihf h.2]
    exact combine_scalar _ _ _
  | not e ih =>
    simp only [Expr.array]
    rw [ih h]
    rfl
  | item e k => exact h.elim

/-- **C101**, for statements without `&`, `|` and `==`: the result for an array are the truth values of its entries. What is
missing: see `C101_and_false` and `C101_nested_false`. -/
theorem C101_array_partial (val : Str → ℝ) {e : Expr} (h : e.Single) (l : List ℝ) :
    e.array val (.vector l) = .ok (.vector (l.map fun r => e.truth val fun _ => r)) := by
  induction e with
  | compare key op n s =>
    obtain ⟨h1, h2⟩ := h
    subst h1
    cases op with
    | lt => rfl
    | gt => rfl
    | eq => exact absurd rfl h2
  | sigmoid c s σ => rfl
  | not e ih =>
    simp only [Expr.array]
    rw [ih h]
    simp [Arr.map, Expr.truth, pure, Except.pure, bind, Except.bind]
  | and e f => exact h.elim
  | or e f => exact h.elim
  | item e k => exact h.elim

/-- **C101 is false** for `&`, `|` and `==`: the result for an array is only the truth value of its first entry. -/
theorem C101_and_false (val : Str → ℝ) {e f : Expr} (he : e.Single) (hf : f.Single) (r : ℝ) (l : List ℝ) :
    (Expr.and e f).array val (.vector (r :: l)) = .ok (.scalar ((Expr.and e f).truth val fun _ => r)) ∧
      (Expr.or e f).array val (.vector (r :: l)) = .ok (.scalar ((Expr.or e f).truth val fun _ => r)) ∧
      ∀ n s, (Expr.compare none .eq n s).array val (.vector (r :: l)) =
        .ok (.scalar ((Expr.compare none .eq n s).truth val fun _ => r)) := by
  refine ⟨?_, ?_, ?_⟩
  · simp only [Expr.array]
    rw [C101_array_partial val he, C101_array_partial val hf]
    simp [combine, Arr.row, Expr.truth, bind, Except.bind]
  · simp only [Expr.array]
    rw [C101_array_partial val he, C101_array_partial val hf]
    simp [combine, Arr.row, Expr.truth, bind, Except.bind]
  · intro n s
    simp [Expr.array, combine, Arr.row, Arr.map, Expr.truth]

/-- **C101 is false** for nested statements: `(e & f) & g` raises a `ValueError` for arrays with more than one entry. -/
theorem C101_nested_false (val : Str → ℝ) {e f g : Expr} (he : e.Single) (hf : f.Single) (hg : g.Single) (r r' : ℝ)
    (l : List ℝ) : (Expr.and (.and e f) g).array val (.vector (r :: r' :: l)) = .error .valueError := by
  have h1 := (C101_and_false val he hf r (r' :: l)).1
  have h2 := C101_array_partial val hg (r :: r' :: l)
  have : ∀ (a b : Expr) x, (Expr.and a b).array val x = (do
      let u ← a.array val x
      let v ← b.array val x
      combine min u v) := fun a b x => rfl
  rw [this, h1, h2]
  simp [combine, Arr.row, bind, Except.bind]

example : (Expr.not (.compare none .lt ['3'] 10)).Single := ⟨rfl, by decide⟩

/-- **C101**: the weights of a `FuzzyWeigher` are the truth values of the points, in their order; for other arguments than
tables and arrays a `TypeError` is raised. -/
theorem C101_weights {R : Type} (fuzzy : R → ℝ) (rows : List R) :
    weigh (fun r => .ok (fuzzy r)) (.table rows) = .ok (rows.map fuzzy) ∧
      weigh (fun r => .ok (fuzzy r)) (.array rows) = .ok (rows.map fuzzy) ∧
      weigh (fun r => .ok (fuzzy r)) (.other : Points R) = .error .typeError :=
  ⟨mapM_ok_of fun _ _ => rfl, mapM_ok_of fun _ _ => rfl, rfl⟩

/-- **C101**: the weights made from a fuzzy statement are between zero and one. -/
theorem C101_range (val : Str → ℝ) (e : Expr) (x : Input) : 0 < e.truth val x ∧ e.truth val x < 1 := by
  induction e generalizing x with
  | compare key op n s =>
    cases op with
    | lt => exact ⟨Weigher.sigmoid_pos _ _ _ _, Weigher.sigmoid_lt_one _ _ _ _⟩
    | gt => exact ⟨Weigher.sigmoid_pos _ _ _ _, Weigher.sigmoid_lt_one _ _ _ _⟩
    | eq => exact ⟨lt_min (Weigher.sigmoid_pos _ _ _ _) (Weigher.sigmoid_pos _ _ _ _),
        min_lt_of_left_lt (Weigher.sigmoid_lt_one _ _ _ _)⟩
  | sigmoid c s σ => exact ⟨Weigher.sigmoid_pos _ _ _ _, Weigher.sigmoid_lt_one _ _ _ _⟩
  | and e f ihe ihf => exact ⟨lt_min (ihe x).1 (ihf x).1, min_lt_of_left_lt (ihe x).2⟩
  | or e f ihe ihf => exact ⟨lt_max_of_lt_left (ihe x).1, max_lt (ihe x).2 (ihf x).2⟩
  | not e ih =>
    have := ih x
    simp only [Expr.truth]
    constructor <;> linarith
  | item e k ih => exact ih _

end Verif.Fuzzy
