import Verif.Props.FuzzyRepr

/-!
# The exact condition for property C100

When two fuzzy statements, with subscripts, have the same representation.
-/

namespace Verif.Fuzzy

/-- All keys, subscripts and numbers are plain texts. -/
def Expr.Named : Expr → Prop
  | .compare key _ number _ => (∀ k, key = some k → Plain k) ∧ Plain number
  | .sigmoid center sharpness sigma => Plain center ∧ Plain sharpness ∧ Plain sigma
  | .and e f => e.Named ∧ f.Named
  | .or e f => e.Named ∧ f.Named
  | .not e => e.Named
  | .item e k => e.Named ∧ Plain k

/-- A subscript of the statement reads as a subscript of its last part: it is a conjunction or disjunction whose second part is
represented without blanks, or a subscript of one. -/
def Expr.Loose : Expr → Prop
  | .and _ f => ' ' ∉ f.text
  | .or _ f => ' ' ∉ f.text
  | .item e _ => e.Loose
  | _ => False

/-- No subscript reads as a subscript of the last part only. -/
def Expr.Clear : Expr → Prop
  | .compare _ _ _ _ => True
  | .sigmoid _ _ _ => True
  | .and e f => e.Clear ∧ f.Clear
  | .or e f => e.Clear ∧ f.Clear
  | .not e => e.Clear
  | .item e _ => e.Clear ∧ ¬ e.Loose

theorem balanced_item {s k : Str} (h : balanced 0 s = true) (hk : Plain k) : balanced 0 (s ++ '[' :: k ++ [']']) = true := by
  have h1 := balanced_append ['['] k 0 0 rfl hk.balanced
  have h2 := balanced_append _ [']'] 0 0 (balanced_append s _ 0 0 h h1) rfl
  simpa using h2

theorem Named.balanced {e : Expr} (h : e.Named) : balanced 0 e.text = true := by
  induction e with
  | compare key op number s => exact balanced_text (e := .compare key op number s) h
  | sigmoid c s σ => exact balanced_text (e := .sigmoid c s σ) h
  | and e f ihe ihf =>
    exact balanced_append _ _ 0 0 (balanced_bracket (ihe h.1)) (by
      have := balanced_bracket (ihf h.2)
      exact this)
  | or e f ihe ihf =>
    exact balanced_append _ _ 0 0 (balanced_bracket (ihe h.1)) (by
      have := balanced_bracket (ihf h.2)
      exact this)
  | not e ih => exact balanced_of_closed _ _ (closed_not (ih h))
  | item e k ih => exact balanced_item (ih h.1) h.2

/-- Statements represented without blanks begin with `s` or `~`. -/
theorem head_no_blank : ∀ {e : Expr}, ' ' ∉ e.text → ∃ c r, e.text = c :: r ∧ (c = 's' ∨ c = '~')
  | .compare key op number s, h => absurd (by simp [Expr.text]) h
  | .sigmoid c s σ, _ => ⟨'s', _, rfl, .inl rfl⟩
  | .and e f, h => absurd (by simp [Expr.text]) h
  | .or e f, h => absurd (by simp [Expr.text]) h
  | .not e, _ => ⟨'~', _, rfl, .inr rfl⟩
  | .item e k, h => by
    obtain ⟨c, r, h1, h2⟩ := head_no_blank (e := e) (fun hb => h (by simp [Expr.text, hb]))
    exact ⟨c, r ++ '[' :: k ++ [']'], by simp [Expr.text, h1], h2⟩

theorem head_bracket' (e : Expr) : ∃ c r, bracket e.text = c :: r ∧
    ((c = '(' ∧ ' ' ∈ e.text) ∨ (c ≠ '(' ∧ c ≠ 'x' ∧ ' ' ∉ e.text)) := by
  unfold bracket
  split
  · rename_i hb
    exact ⟨'(', _, rfl, .inl ⟨rfl, hb⟩⟩
  · rename_i hb
    obtain ⟨c, r, h1, h2⟩ := head_no_blank hb
    refine ⟨c, r, h1, .inr ⟨?_, ?_, hb⟩⟩ <;> rcases h2 with rfl | rfl <;> decide

theorem bracket_inj' {e f : Expr} (h : bracket e.text = bracket f.text) : e.text = f.text := by
  obtain ⟨c, r, h1, h2⟩ := head_bracket' e
  obtain ⟨c', r', h1', h2'⟩ := head_bracket' f
  rw [h1, h1'] at h
  obtain ⟨hc, hr⟩ := List.cons.inj h
  subst hc hr
  rcases h2 with ⟨h2, hb⟩ | ⟨h2, _, hb⟩ <;> rcases h2' with ⟨h2', hb'⟩ | ⟨h2', _, hb'⟩
  · unfold bracket at h1 h1'
    rw [if_pos hb] at h1
    rw [if_pos hb'] at h1'
    have := h1.trans h1'.symm
    simpa using this
  · exact absurd h2 h2'
  · exact absurd h2' h2
  · unfold bracket at h1 h1'
    rw [if_neg hb] at h1
    rw [if_neg hb'] at h1'
    exact h1.trans h1'.symm

theorem compare_ne' {key : Option Str} {e : Expr} (he : e.Named) (hk : ∀ k, key = some k → Plain k) {r r' : Str} :
    variableText key ++ ' ' :: r ≠ bracket e.text ++ ' ' :: r' := by
  intro h
  obtain ⟨h1, _⟩ := cut_text (closed_variable hk) (closed_bracket (Named.balanced he)) h
  obtain ⟨c, t, h2, h3⟩ := head_bracket' e
  obtain ⟨u, hu⟩ := head_variable key
  rw [hu, h2] at h1
  have hc := (List.cons.inj h1).1
  rcases h3 with ⟨h3, _⟩ | ⟨_, h3, _⟩
  · rw [h3] at hc
    exact absurd hc (by decide)
  · exact h3 hc.symm

/-- The statement is a subscript, or a conjunction or disjunction whose second part is one represented without blanks. -/
inductive Expr.Ends : Expr → Expr → Str → Prop
  | item (e : Expr) (k : Str) : Expr.Ends (.item e k) e k
  | and (a b : Expr) (k : Str) : ' ' ∉ (Expr.item b k).text → Expr.Ends (.and a (.item b k)) (.and a b) k
  | or (a b : Expr) (k : Str) : ' ' ∉ (Expr.item b k).text → Expr.Ends (.or a (.item b k)) (.or a b) k

theorem no_blank_item {b : Expr} {k : Str} (h : ' ' ∉ (Expr.item b k).text) : ' ' ∉ b.text :=
  fun hb => h (by simp [Expr.text, hb])

theorem Expr.Ends.text {e g : Expr} {k : Str} (h : e.Ends g k) : e.text = g.text ++ '[' :: k ++ [']'] := by
  cases h with
  | item => rfl
  | and a b k hb =>
    have hb' := no_blank_item hb
    simp only [Expr.text] at hb ⊢
    unfold bracket
    rw [if_neg hb, if_neg hb']
    simp
  | or a b k hb =>
    have hb' := no_blank_item hb
    simp only [Expr.text] at hb ⊢
    unfold bracket
    rw [if_neg hb, if_neg hb']
    simp

theorem Expr.Ends.named {e g : Expr} {k : Str} (h : e.Ends g k) (he : e.Named) : g.Named ∧ Plain k := by
  cases h with
  | item => exact he
  | and a b k hb => exact ⟨⟨he.1, he.2.1⟩, he.2.2⟩
  | or a b k hb => exact ⟨⟨he.1, he.2.1⟩, he.2.2⟩

theorem Expr.Ends.clear {e g : Expr} {k : Str} (h : e.Ends g k) (he : e.Clear) : g.Clear := by
  cases h with
  | item => exact he.1
  | and a b k hb => exact ⟨he.1, he.2.1⟩
  | or a b k hb => exact ⟨he.1, he.2.1⟩

theorem last_bracket (s t : Str) : (s ++ bracket t).getLast? = if ' ' ∈ t then some ')' else (s ++ t).getLast? := by
  unfold bracket
  split
  · rw [show s ++ ('(' :: t ++ [')']) = (s ++ '(' :: t) ++ [')'] by simp, List.getLast?_append]
    simp
  · rfl

/-- A statement whose representation ends with a closing square bracket ends with a subscript. -/
theorem ends_of_last {e : Expr} (he : e.Named) (h : e.text.getLast? = some ']') : ∃ g k, e.Ends g k := by
  have part : ∀ {s : Str} {f : Expr}, f.Named → ' ' ∈ s → (s ++ bracket f.text).getLast? = some ']' →
      ∃ b k, f = .item b k ∧ ' ' ∉ f.text := by
    intro s f hf hs hl
    rw [last_bracket] at hl
    split_ifs at hl with hb
    · simp at hl
    · have hne : f.text ≠ [] := by
        obtain ⟨c, r, h1, -⟩ := head_no_blank hb
        rw [h1]; simp
      cases f with
      | compare key op number s => exact absurd (by simp [Expr.text]) hb
      | and e f => exact absurd (by simp [Expr.text]) hb
      | or e f => exact absurd (by simp [Expr.text]) hb
      | sigmoid c s' σ =>
        rw [Expr.text, ← List.append_assoc, List.getLast?_append] at hl
        simp at hl
      | not a =>
        rw [Expr.text, ← List.append_assoc, List.getLast?_append] at hl
        simp at hl
      | item b k => exact ⟨b, k, rfl, hb⟩
  cases e with
  | compare key op number s =>
    exfalso
    rw [Expr.text, show variableText key ++ ' ' :: (op.text ++ ' ' :: number) =
      (variableText key ++ ' ' :: op.text ++ [' ']) ++ number by simp, List.getLast?_append] at h
    cases hn : number.getLast? with
    | none => rw [hn, Option.none_or, List.getLast?_append] at h; simp at h
    | some c =>
      rw [hn] at h
      simp only [Option.some_or, Option.some.injEq] at h
      exact (he.2 c (List.mem_of_getLast? hn)).2.2.2.1 h
  | sigmoid c s σ =>
    rw [Expr.text, List.getLast?_append] at h
    simp at h
  | not a =>
    rw [Expr.text, List.getLast?_append] at h
    simp at h
  | item b k => exact ⟨b, k, .item b k⟩
  | and a b =>
    rw [Expr.text, show bracket a.text ++ ' ' :: '&' :: ' ' :: bracket b.text =
      (bracket a.text ++ [' ', '&', ' ']) ++ bracket b.text by simp] at h
    obtain ⟨b', k, rfl, hb⟩ := part he.2 (by simp) h
    exact ⟨_, k, .and a b' k hb⟩
  | or a b =>
    rw [Expr.text, show bracket a.text ++ ' ' :: '|' :: ' ' :: bracket b.text =
      (bracket a.text ++ [' ', '|', ' ']) ++ bracket b.text by simp] at h
    obtain ⟨b', k, rfl, hb⟩ := part he.2 (by simp) h
    exact ⟨_, k, .or a b' k hb⟩

theorem last_of_ends {e g : Expr} {k : Str} (h : e.Ends g k) : e.text.getLast? = some ']' := by
  rw [h.text, List.getLast?_append]
  simp

/-- The last subscript is determined by the text. -/
theorem subscript_inj {s t k l : Str} (hk : Plain k) (hl : Plain l) (h : s ++ '[' :: k ++ [']'] = t ++ '[' :: l ++ [']']) :
    s = t ∧ k = l := by
  have h1 := List.append_cancel_right h
  have h2 : k.reverse ++ '[' :: s.reverse = l.reverse ++ '[' :: t.reverse := by
    have := congrArg List.reverse h1
    simpa using this
  have cut : ∀ {a b r r' : Str}, '[' ∉ a → '[' ∉ b → a ++ '[' :: r = b ++ '[' :: r' → a = b ∧ r = r' := by
    intro a
    induction a with
    | nil =>
      intro b r r' ha hb h
      cases b with
      | nil => simpa using h
      | cons c b =>
        simp only [List.nil_append, List.cons_append, List.cons.injEq] at h
        simp only [List.mem_cons, not_or] at hb
        exact absurd h.1 hb.1
    | cons x a ih =>
      intro b r r' ha hb h
      simp only [List.mem_cons, not_or] at ha
      cases b with
      | nil =>
        simp only [List.nil_append, List.cons_append, List.cons.injEq] at h
        exact absurd h.1.symm ha.1
      | cons c b =>
        simp only [List.mem_cons, not_or] at hb
        simp only [List.cons_append, List.cons.injEq] at h
        obtain ⟨e1, e2⟩ := ih ha.2 hb.2 h.2
        exact ⟨by rw [h.1, e1], e2⟩
  obtain ⟨h3, h4⟩ := cut (fun hm => (hk _ (List.mem_reverse.1 hm)).2.2.1 rfl) (fun hm => (hl _ (List.mem_reverse.1 hm)).2.2.1 rfl) h2
  exact ⟨List.reverse_injective h4, List.reverse_injective h3⟩

theorem text_withSharpness (s : ℝ) (e : Expr) : (e.withSharpness s).text = e.text := by
  induction e with
  | compare key op number sh => rfl
  | sigmoid c s σ => rfl
  | and e f ihe ihf => simp only [Expr.withSharpness, Expr.text, ihe, ihf]
  | or e f ihe ihf => simp only [Expr.withSharpness, Expr.text, ihe, ihf]
  | not e ih => simp only [Expr.withSharpness, Expr.text, ih]
  | item e k ih => simp only [Expr.withSharpness, Expr.text, ih]

theorem loose_withSharpness (s : ℝ) (e : Expr) : (e.withSharpness s).Loose ↔ e.Loose := by
  induction e with
  | compare key op number sh => rfl
  | sigmoid c s σ => rfl
  | and e f ihe ihf => simp only [Expr.withSharpness, Expr.Loose, text_withSharpness]
  | or e f ihe ihf => simp only [Expr.withSharpness, Expr.Loose, text_withSharpness]
  | not e ih => rfl
  | item e k ih => exact ih

theorem loose_congr (s : ℝ) {e f : Expr} (h : e.withSharpness s = f.withSharpness s) : e.Loose ↔ f.Loose := by
  rw [← loose_withSharpness s e, h, loose_withSharpness]

/-- Removing the last subscript of clear statements gives statements of the same form. -/
theorem ends_congr (s : ℝ) {e f g g' : Expr} {k : Str} (he : e.Ends g k) (hf : f.Ends g' k) (ce : e.Clear) (cf : f.Clear)
    (h : g.withSharpness s = g'.withSharpness s) : e.withSharpness s = f.withSharpness s := by
  cases he with
  | item =>
    cases hf with
    | item => simp only [Expr.withSharpness, h]
    | and a b k hb => exact absurd ((loose_congr s h).2 (no_blank_item hb)) ce.2
    | or a b k hb => exact absurd ((loose_congr s h).2 (no_blank_item hb)) ce.2
  | and a b k hb =>
    cases hf with
    | item => exact absurd ((loose_congr s h).1 (no_blank_item hb)) cf.2
    | and a' b' k hb' =>
      simp only [Expr.withSharpness, Expr.and.injEq] at h
      simp only [Expr.withSharpness, h.1, h.2]
    | or a' b' k hb' => simp [Expr.withSharpness] at h
  | or a b k hb =>
    cases hf with
    | item => exact absurd ((loose_congr s h).1 (no_blank_item hb)) cf.2
    | and a' b' k hb' => simp [Expr.withSharpness] at h
    | or a' b' k hb' =>
      simp only [Expr.withSharpness, Expr.or.injEq] at h
      simp only [Expr.withSharpness, h.1, h.2]

theorem length_bracket (s : Str) : s.length ≤ (bracket s).length := by
  unfold bracket
  split
  · simp; omega
  · exact le_rfl

/-- Representations determine clear statements, up to the sharpness. -/
theorem clear_inj (s : ℝ) : ∀ (n : Nat) {e f : Expr}, e.text.length ≤ n → e.Named → f.Named → e.Clear → f.Clear → e.text = f.text →
    e.withSharpness s = f.withSharpness s := by
  intro n
  induction n with
  | zero =>
    intro e f hn
    exfalso
    have : e.text = [] := List.length_eq_zero_iff.1 (by omega)
    cases e with
    | compare key op number sh => simp [Expr.text] at this
    | sigmoid c s σ => simp [Expr.text] at this
    | and e f => simp [Expr.text] at this
    | or e f => simp [Expr.text] at this
    | not e => simp [Expr.text] at this
    | item e k => simp [Expr.text] at this
  | succ n ih =>
    intro e f hn he hf ce cf h
    by_cases hl : e.text.getLast? = some ']'
    · obtain ⟨g, k, hg⟩ := ends_of_last he hl
      obtain ⟨g', k', hg'⟩ := ends_of_last hf (h ▸ hl)
      have ht := h
      rw [hg.text, hg'.text] at ht
      obtain ⟨h1, h2⟩ := subscript_inj (hg.named he).2 (hg'.named hf).2 ht
      subst h2
      refine ends_congr s hg hg' ce cf (ih ?_ (hg.named he).1 (hg'.named hf).1 (hg.clear ce) (hg'.clear cf) h1)
      have := hn
      rw [hg.text] at this
      simp at this
      omega
    have hl' : ¬ f.text.getLast? = some ']' := h ▸ hl
    cases e with
    | item a k => exact absurd (last_of_ends (.item a k)) hl
    | compare key op number sh =>
      cases f with
      | item a k => exact absurd (last_of_ends (.item a k)) hl'
      | compare key' op' number' sh' =>
        obtain ⟨h1, h2⟩ := cut_text (closed_variable he.1) (closed_variable hf.1) h
        obtain ⟨h3, h4⟩ := cmp_inj h2
        have := variable_inj h1
        subst this h3 h4
        rfl
      | sigmoid c s' σ => exact absurd h.symm (ne_of_closed (closed_sigmoid hf.1 hf.2.1 hf.2.2) (closed_variable he.1))
      | and a b => exact absurd h (compare_ne' hf.1 he.1)
      | or a b => exact absurd h (compare_ne' hf.1 he.1)
      | not a => exact absurd h.symm (ne_of_closed (closed_not (Named.balanced (e := a) hf)) (closed_variable he.1))
    | sigmoid c s' σ =>
      have hcl := closed_sigmoid he.1 he.2.1 he.2.2
      cases f with
      | item a k => exact absurd (last_of_ends (.item a k)) hl'
      | compare key' op' number' sh' => exact absurd h (ne_of_closed hcl (closed_variable hf.1))
      | sigmoid c' s'' σ' =>
        obtain ⟨rfl, rfl, rfl⟩ := sigmoid_inj he.1 he.2.1 hf.1 hf.2.1 h
        rfl
      | and a b => exact absurd h (ne_of_closed hcl (closed_bracket (Named.balanced hf.1)))
      | or a b => exact absurd h (ne_of_closed hcl (closed_bracket (Named.balanced hf.1)))
      | not a =>
        have : 's' = '~' := (List.cons.inj (show 's' :: _ = '~' :: _ from h)).1
        exact absurd this (by decide)
    | and a b =>
      have hcl := closed_bracket (Named.balanced he.1)
      cases f with
      | item a k => exact absurd (last_of_ends (.item a k)) hl'
      | compare key' op' number' sh' => exact absurd h.symm (compare_ne' he.1 hf.1)
      | sigmoid c s' σ => exact absurd h.symm (ne_of_closed (closed_sigmoid hf.1 hf.2.1 hf.2.2) hcl)
      | and a' b' =>
        obtain ⟨h1, h2⟩ := cut_text hcl (closed_bracket (Named.balanced hf.1)) h
        have h3 := bracket_inj' h1
        have h4 := bracket_inj' (List.cons.inj (List.cons.inj h2).2).2
        have la := length_bracket a.text
        have lb := length_bracket b.text
        simp only [Expr.text, List.length_append, List.length_cons] at hn
        simp only [Expr.withSharpness, ih (by omega) he.1 hf.1 ce.1 cf.1 h3, ih (by omega) he.2 hf.2 ce.2 cf.2 h4]
      | or a' b' =>
        obtain ⟨h1, h2⟩ := cut_text hcl (closed_bracket (Named.balanced hf.1)) h
        exact absurd (List.cons.inj h2).1 (by decide)
      | not a' => exact absurd h.symm (ne_of_closed (closed_not (Named.balanced (e := a') hf)) hcl)
    | or a b =>
      have hcl := closed_bracket (Named.balanced he.1)
      cases f with
      | item a k => exact absurd (last_of_ends (.item a k)) hl'
      | compare key' op' number' sh' => exact absurd h.symm (compare_ne' he.1 hf.1)
      | sigmoid c s' σ => exact absurd h.symm (ne_of_closed (closed_sigmoid hf.1 hf.2.1 hf.2.2) hcl)
      | and a' b' =>
        obtain ⟨h1, h2⟩ := cut_text hcl (closed_bracket (Named.balanced hf.1)) h
        exact absurd (List.cons.inj h2).1 (by decide)
      | or a' b' =>
        obtain ⟨h1, h2⟩ := cut_text hcl (closed_bracket (Named.balanced hf.1)) h
        have h3 := bracket_inj' h1
        have h4 := bracket_inj' (List.cons.inj (List.cons.inj h2).2).2
        have la := length_bracket a.text
        have lb := length_bracket b.text
        simp only [Expr.text, List.length_append, List.length_cons] at hn
        simp only [Expr.withSharpness, ih (by omega) he.1 hf.1 ce.1 cf.1 h3, ih (by omega) he.2 hf.2 ce.2 cf.2 h4]
      | not a' => exact absurd h.symm (ne_of_closed (closed_not (Named.balanced (e := a') hf)) hcl)
    | not a =>
      have hcl := closed_not (Named.balanced (e := a) he)
      cases f with
      | item a k => exact absurd (last_of_ends (.item a k)) hl'
      | compare key' op' number' sh' => exact absurd h (ne_of_closed hcl (closed_variable hf.1))
      | sigmoid c' s'' σ' =>
        have : '~' = 's' := (List.cons.inj (show '~' :: _ = 's' :: _ from h)).1
        exact absurd this (by decide)
      | and a' b' => exact absurd h (ne_of_closed hcl (closed_bracket (Named.balanced hf.1)))
      | or a' b' => exact absurd h (ne_of_closed hcl (closed_bracket (Named.balanced hf.1)))
      | not a' =>
        have : a.text = a'.text := by simpa [Expr.text] using h
        simp only [Expr.text, List.length_append, List.length_cons] at hn
        simp only [Expr.withSharpness, ih (e := a) (f := a') (by omega) he hf ce cf this]

/-- **C100.** Clear statements of the same sharpness with the same representation are the same, with subscripts. -/
theorem C100_clear_partial {e f : Expr} (he : e.Named) (hf : f.Named) (ce : e.Clear) (cf : f.Clear) {s : ℝ} (hse : e.HasSharpness s)
    (hsf : f.HasSharpness s) (h : e.text = f.text) (val : Str → ℝ) : e = f ∧ e.truth val = f.truth val := by
  have := clear_inj s _ le_rfl he hf ce cf h
  rw [hse, hsf] at this
  subst this
  exact ⟨rfl, rfl⟩

/-- The statement a subscript of `e` reads as. -/
def Expr.attach (k : Str) : Expr → Expr
  | .and a b => if ' ' ∈ b.text then .item (.and a b) k else .and a (.item b k)
  | .or a b => if ' ' ∈ b.text then .item (.or a b) k else .or a (.item b k)
  | e => .item e k

/-- The statement that reads like `e` and is clear: subscripts are moved to the last part. -/
def Expr.reading : Expr → Expr
  | .compare key op number s => .compare key op number s
  | .sigmoid center sharpness sigma => .sigmoid center sharpness sigma
  | .and e f => .and e.reading f.reading
  | .or e f => .or e.reading f.reading
  | .not e => .not e.reading
  | .item e k => e.reading.attach k

theorem text_attach {k : Str} (hk : Plain k) (e : Expr) : (e.attach k).text = e.text ++ '[' :: k ++ [']'] := by
  have hb : ∀ b : Expr, ¬ ' ' ∈ b.text → ' ' ∉ (Expr.item b k).text := by
    intro b hb hm
    simp only [Expr.text, List.mem_append, List.mem_cons, List.not_mem_nil, or_false] at hm
    rcases hm with (hm | hm | hm) | hm
    · exact hb hm
    · exact absurd hm (by decide)
    · exact no_blank_of_plain hk hm
    · exact absurd hm (by decide)
  cases e with
  | and a b =>
    simp only [Expr.attach]
    split
    · rfl
    · rename_i h; exact (Expr.Ends.and a b k (hb b h)).text
  | or a b =>
    simp only [Expr.attach]
    split
    · rfl
    · rename_i h; exact (Expr.Ends.or a b k (hb b h)).text
  | _ => rfl

theorem loose_blank {e : Expr} (h : e.Loose) : ' ' ∈ e.text := by
  induction e with
  | compare key op number sh => exact h.elim
  | sigmoid c s σ => exact h.elim
  | and e f ihe ihf => simp [Expr.text]
  | or e f ihe ihf => simp [Expr.text]
  | not e ih => exact h.elim
  | item e k ih => simp [Expr.text, ih h]

theorem clear_attach {k : Str} {e : Expr} (ce : e.Clear) : (e.attach k).Clear := by
  cases e with
  | compare key op number sh => exact ⟨ce, fun h => h⟩
  | sigmoid c s σ => exact ⟨ce, fun h => h⟩
  | not e => exact ⟨ce, fun h => h⟩
  | and a b =>
    simp only [Expr.attach]
    split
    · rename_i h; exact ⟨ce, fun hl => hl h⟩
    · rename_i h; exact ⟨ce.1, ce.2, fun hl => h (loose_blank hl)⟩
  | or a b =>
    simp only [Expr.attach]
    split
    · rename_i h; exact ⟨ce, fun hl => hl h⟩
    · rename_i h; exact ⟨ce.1, ce.2, fun hl => h (loose_blank hl)⟩
  | item e k' => exact ⟨ce, ce.2⟩

theorem named_attach {k : Str} (hk : Plain k) {e : Expr} (he : e.Named) : (e.attach k).Named := by
  cases e with
  | and a b =>
    simp only [Expr.attach]
    split
    · exact ⟨he, hk⟩
    · exact ⟨he.1, he.2, hk⟩
  | or a b =>
    simp only [Expr.attach]
    split
    · exact ⟨he, hk⟩
    · exact ⟨he.1, he.2, hk⟩
  | _ => exact ⟨he, hk⟩

theorem reading_spec {e : Expr} (he : e.Named) : e.reading.Named ∧ e.reading.Clear ∧ e.reading.text = e.text := by
  induction e with
  | compare key op number sh => exact ⟨he, trivial, rfl⟩
  | sigmoid c s σ => exact ⟨he, trivial, rfl⟩
  | and e f ihe ihf =>
    obtain ⟨a1, a2, a3⟩ := ihe he.1
    obtain ⟨b1, b2, b3⟩ := ihf he.2
    exact ⟨⟨a1, b1⟩, ⟨a2, b2⟩, by simp only [Expr.reading, Expr.text, a3, b3]⟩
  | or e f ihe ihf =>
    obtain ⟨a1, a2, a3⟩ := ihe he.1
    obtain ⟨b1, b2, b3⟩ := ihf he.2
    exact ⟨⟨a1, b1⟩, ⟨a2, b2⟩, by simp only [Expr.reading, Expr.text, a3, b3]⟩
  | not e ih =>
    obtain ⟨a1, a2, a3⟩ := ih he
    exact ⟨a1, a2, by simp only [Expr.reading, Expr.text, a3]⟩
  | item e k ih =>
    obtain ⟨a1, a2, a3⟩ := ih he.1
    exact ⟨named_attach he.2 a1, clear_attach a2, by rw [Expr.reading, text_attach he.2, a3]; rfl⟩

theorem reading_clear {e : Expr} (ce : e.Clear) : e.reading = e := by
  induction e with
  | compare key op number sh => rfl
  | sigmoid c s σ => rfl
  | and e f ihe ihf => rw [Expr.reading, ihe ce.1, ihf ce.2]
  | or e f ihe ihf => rw [Expr.reading, ihe ce.1, ihf ce.2]
  | not e ih => rw [Expr.reading, ih ce]
  | item e k ih =>
    rw [Expr.reading, ih ce.1]
    have hl := ce.2
    cases e with
    | and a b =>
      simp only [Expr.attach]
      rw [if_pos (by simpa [Expr.Loose] using hl)]
    | or a b =>
      simp only [Expr.attach]
      rw [if_pos (by simpa [Expr.Loose] using hl)]
    | _ => rfl

/-- **C100.** When two statements have the same representation (keys, subscripts and numbers without brackets, blanks and commas): if
and only if they are built in the same way, up to the sharpness of comparisons, after every subscript of a conjunction or disjunction
whose second part is represented without blanks has been moved to this second part. -/
theorem C100_exactly {e f : Expr} (he : e.Named) (hf : f.Named) (s : ℝ) :
    e.text = f.text ↔ e.reading.withSharpness s = f.reading.withSharpness s := by
  obtain ⟨e1, e2, e3⟩ := reading_spec he
  obtain ⟨f1, f2, f3⟩ := reading_spec hf
  constructor
  · intro h
    exact clear_inj s _ le_rfl e1 f1 e2 f2 (by rw [e3, f3, h])
  · intro h
    rw [← e3, ← f3, ← text_withSharpness s e.reading, h, text_withSharpness]

/-- `(S & S)[a]` reads as `S & S[a]`. -/
example : (Expr.item (.and (.sigmoid ['0'] ['1'] ['1']) (.sigmoid ['0'] ['1'] ['1'])) ['a']).reading =
    .and (.sigmoid ['0'] ['1'] ['1']) (.item (.sigmoid ['0'] ['1'] ['1']) ['a']) := by
  simp only [Expr.reading, Expr.attach]
  rw [if_neg (by decide +kernel)]

/-- A subscript of a conjunction of comparisons is unambiguous. -/
example : (Expr.item (.and (.compare none .lt ['3'] 10) (.compare none .gt ['1'] 10)) ['a']).Clear ∧
    (Expr.item (.and (.compare none .lt ['3'] 10) (.compare none .gt ['1'] 10)) ['a']).Named ∧
    (Expr.item (.and (.compare none .lt ['3'] 10) (.compare none .gt ['1'] 10)) ['a']).text = "(x < 3) & (x > 1)[a]".toList := by
  refine ⟨⟨⟨trivial, trivial⟩, fun h => h (by simp [Expr.text])⟩, ⟨⟨⟨by simp, by decide⟩, by simp, by decide⟩, by decide⟩, by decide +kernel⟩

end Verif.Fuzzy
