import Verif.Lemmas.Float64
import Verif.Model.FloatText

/-!
# Lemmas about the text of doubles
-/

namespace Verif.FloatText

open Verif.F64 (fl)
open Verif.Table (Text)

/-- All characters are digits. -/
def AllDigits (s : Text) : Prop := ∀ c ∈ s, c.isDigit = true

/-- The value of digits. -/
def val (s : Text) : Nat := Nat.ofDigitChars 10 s 0

theorem val_append (a b : Text) : val (a ++ b) = 10 ^ b.length * val a + val b := by
  unfold val
  rw [Nat.ofDigitChars_append, Nat.ofDigitChars_eq_ofDigitChars_zero]

theorem val_zeros (n : Nat) : val (List.replicate n '0') = 0 := by
  simp [val, Nat.ofDigitChars_replicate_zero]

theorem allDigits_append {a b : Text} (ha : AllDigits a) (hb : AllDigits b) : AllDigits (a ++ b) := by
  intro c hc
  rcases List.mem_append.1 hc with h | h
  · exact ha c h
  · exact hb c h

theorem allDigits_zeros (n : Nat) : AllDigits (List.replicate n '0') := by
  intro c hc
  rw [List.eq_of_mem_replicate hc]
  rfl

theorem allDigits_toDigits (n : Nat) : AllDigits (Nat.toDigits 10 n) := fun _ hc =>
  Nat.isDigit_of_mem_toDigits (by norm_num) (by norm_num) hc

theorem digits_eq {s : Text} (hne : s ≠ []) (h : AllDigits s) : digits s = some (val s) := by
  unfold digits
  rw [if_pos]
  · rfl
  · exact ⟨hne, List.all_eq_true.2 h⟩

theorem takeWhile_all {p : Char → Bool} {a : Text} (ha : ∀ c ∈ a, p c = true) : a.takeWhile p = a := by
  rw [List.takeWhile_eq_self_iff]
  exact ha

theorem dropWhile_all {p : Char → Bool} {a : Text} (ha : ∀ c ∈ a, p c = true) : a.dropWhile p = [] := by
  rw [List.dropWhile_eq_nil_iff]
  exact ha

theorem takeWhile_stop {p : Char → Bool} {a b : Text} {c : Char} (ha : ∀ c ∈ a, p c = true) (hc : p c = false) :
    (a ++ c :: b).takeWhile p = a := by
  rw [List.takeWhile_append_of_pos ha, List.takeWhile_cons, hc]
  simp

theorem dropWhile_stop {p : Char → Bool} {a b : Text} {c : Char} (ha : ∀ c ∈ a, p c = true) (hc : p c = false) :
    (a ++ c :: b).dropWhile p = c :: b := by
  rw [List.dropWhile_append_of_pos ha, List.dropWhile_cons, hc]
  simp

theorem digit_ne {c : Char} (h : c.isDigit = true) {d : Char} (hd : d.isDigit = false) : c ≠ d := by
  rintro rfl
  rw [h] at hd
  cases hd

theorem mantissa_point {a b : Text} (ha : AllDigits a) (hb : AllDigits b) (hne : a ++ b ≠ []) :
    mantissa (a ++ '.' :: b) = some ((val (a ++ b) : ℚ) / 10 ^ b.length) := by
  have h : ∀ c ∈ a, decide (c ≠ '.') = true := fun c hc => by simpa using digit_ne (ha c hc) (by decide)
  unfold mantissa
  rw [takeWhile_stop h (by decide), dropWhile_stop h (by decide)]
  simp only [List.drop_succ_cons, List.drop_zero]
  rw [digits_eq hne (allDigits_append ha hb)]
  rfl

theorem mantissa_whole {a : Text} (ha : AllDigits a) (hne : a ≠ []) : mantissa a = some (val a : ℚ) := by
  have h : ∀ c ∈ a, decide (c ≠ '.') = true := fun c hc => by simpa using digit_ne (ha c hc) (by decide)
  unfold mantissa
  rw [takeWhile_all h, dropWhile_all h]
  simp [digits_eq hne ha]

/-- Texts of digits and a point. -/
def Plain (s : Text) : Prop := ∀ c ∈ s, c.isDigit = true ∨ c = '.'

theorem plain_ne {s : Text} (h : Plain s) : ∀ c ∈ s, decide (c ≠ 'e' ∧ c ≠ 'E') = true := by
  intro c hc
  rw [decide_eq_true_iff]
  rcases h c hc with h | rfl
  · exact ⟨digit_ne h (by decide), digit_ne h (by decide)⟩
  · decide

theorem unsigned_plain {s : Text} (h : Plain s) : unsigned s = mantissa s := by
  unfold unsigned
  rw [dropWhile_all (plain_ne h)]

theorem unsigned_exp {s e : Text} (h : Plain s) {m : ℚ} (hm : mantissa s = some m) {k : ℤ} (hk : exponent e = some k) :
    unsigned (s ++ 'e' :: e) = some (m * 10 ^ k) := by
  unfold unsigned
  rw [dropWhile_stop (plain_ne h) (by decide), takeWhile_stop (plain_ne h) (by decide)]
  simp only [hm, hk]

theorem plain_point {a b : Text} (ha : AllDigits a) (hb : AllDigits b) : Plain (a ++ '.' :: b) := by
  intro c hc
  simp only [List.mem_append, List.mem_cons] at hc
  rcases hc with h | h | h
  · exact Or.inl (ha c h)
  · exact Or.inr h
  · exact Or.inl (hb c h)

/-- The text of a number begins with a digit, and its characters are digits and `.`, `e`, `+`, `-`. -/
structure Good (s : Text) : Prop where
  head : ∃ c t, s = c :: t ∧ c.isDigit = true
  chars : ∀ c ∈ s, c.isDigit = true ∨ c ∈ ['.', 'e', '+', '-']

theorem good_of {c : Char} {s t : Text} (hc : c.isDigit = true) (hs : s = c :: t)
    (h : ∀ c ∈ s, c.isDigit = true ∨ c ∈ ['.', 'e', '+', '-']) : Good s := ⟨⟨c, t, hs, hc⟩, h⟩

theorem exponent_minus (s : Text) : exponent ('-' :: s) = (digits s).map fun n : Nat => -(n : ℤ) := by rw [exponent]

theorem exponent_plus (s : Text) : exponent ('+' :: s) = (digits s).map fun n : Nat => (n : ℤ) := by rw [exponent]

theorem exponent_text (k : ℤ) :
    exponent ((if k < 0 then '-' else '+') ::
      (if (Nat.toDigits 10 k.natAbs).length = 1 then '0' :: Nat.toDigits 10 k.natAbs else Nat.toDigits 10 k.natAbs)) = some k := by
  set e := Nat.toDigits 10 k.natAbs with he
  have hv : val e = k.natAbs := Nat.ofDigitChars_ten_toDigits
  have hne : e ≠ [] := by
    intro h
    have := Nat.length_toDigits_pos (b := 10) (n := k.natAbs)
    rw [← he, h] at this
    simp at this
  have hd : AllDigits e := allDigits_toDigits _
  have key : digits (if e.length = 1 then '0' :: e else e) = some k.natAbs := by
    split
    · rw [digits_eq (by simp) (by
        intro c hc
        rcases List.mem_cons.1 hc with rfl | h
        · rfl
        · exact hd c h)]
      have := val_append ['0'] e
      rw [List.singleton_append, show val ['0'] = 0 from val_zeros 1, mul_zero, zero_add, hv] at this
      rw [this]
    · rw [digits_eq hne hd, hv]
  by_cases hk : k < 0
  · rw [if_pos hk]
    rw [exponent_minus, key, Option.map_some]
    congr 1
    omega
  · rw [if_neg hk]
    rw [exponent_plus, key, Option.map_some]
    congr 1
    omega

theorem unsigned_layout {s : Text} (hne : s ≠ []) (hd : AllDigits s) (decpt : ℤ) :
    unsigned (layout s decpt) = some ((val s : ℚ) * 10 ^ (decpt - s.length)) ∧ Good (layout s decpt) := by
  have h10 : (10 : ℚ) ≠ 0 := by norm_num
  obtain ⟨c, r, rfl⟩ := List.exists_cons_of_ne_nil hne
  have hc : c.isDigit = true := hd c (by simp)
  have hr : AllDigits r := fun x hx => hd x (by simp [hx])
  have hgd : ∀ x ∈ c :: r, x.isDigit = true ∨ x ∈ ['.', 'e', '+', '-'] := fun x hx => Or.inl (hd x hx)
  have hgz : ∀ (n : Nat), ∀ x ∈ List.replicate n '0', x.isDigit = true ∨ x ∈ ['.', 'e', '+', '-'] :=
    fun n x hx => Or.inl (allDigits_zeros n x hx)
  unfold layout
  by_cases h1 : decpt ≤ -4 ∨ 16 < decpt
  · rw [if_pos h1]
    have hexp := exponent_text (decpt - 1)
    set e := (if decpt - 1 < 0 then '-' else '+') ::
      (if (Nat.toDigits 10 (decpt - 1).natAbs).length = 1 then '0' :: Nat.toDigits 10 (decpt - 1).natAbs
        else Nat.toDigits 10 (decpt - 1).natAbs) with he
    have hge : ∀ x ∈ e, x.isDigit = true ∨ x ∈ ['.', 'e', '+', '-'] := by
      intro x hx
      rw [he] at hx
      rcases List.mem_cons.1 hx with rfl | hx
      · right; split <;> simp
      · left
        split at hx
        · rcases List.mem_cons.1 hx with rfl | hx
          · rfl
          · exact allDigits_toDigits _ x hx
        · exact allDigits_toDigits _ x hx
    clear_value e
    simp only [List.take_succ_cons, List.take_zero, List.drop_succ_cons, List.drop_zero, List.length_cons]
    rw [← he]
    cases r with
    | nil =>
      simp only [List.length_nil, zero_add, if_true, List.append_nil, List.singleton_append]
      constructor
      · have := unsigned_exp (s := [c]) (e := e) (fun x hx => Or.inl (hd x hx)) (mantissa_whole hd (by simp)) hexp
        rw [List.singleton_append] at this
        rw [this]
        simp
      · refine good_of hc rfl ?_
        intro x hx
        rcases List.mem_cons.1 hx with rfl | hx
        · exact Or.inl hc
        · rcases List.mem_cons.1 hx with rfl | hx
          · exact Or.inr (by simp)
          · exact hge x hx
    | cons c' r =>
      rw [if_neg (by simp)]
      have hc1 : AllDigits [c] := fun x hx => hd x (by simp at hx; simp [hx])
      constructor
      · have := unsigned_exp (s := [c] ++ '.' :: c' :: r) (e := e) (plain_point hc1 hr)
          (mantissa_point hc1 hr (by simp)) hexp
        rw [this]
        congr 1
        rw [div_mul_eq_mul_div, div_eq_iff (by positivity), mul_assoc, ← zpow_natCast, ← zpow_add₀ h10]
        simp only [List.length_cons, List.singleton_append]
        congr 2
        push_cast
        ring
      · refine good_of hc (t := '.' :: c' :: r ++ 'e' :: e) (by simp) ?_
        intro x hx
        simp only [List.mem_append, List.mem_cons, List.not_mem_nil, or_false] at hx
        rcases hx with (rfl | rfl | rfl | hx) | rfl | hx
        · exact Or.inl hc
        · exact Or.inr (by simp)
        · exact Or.inl (hr _ (by simp))
        · exact Or.inl (hr x (by simp [hx]))
        · exact Or.inr (by simp)
        · exact hge x hx
  · rw [if_neg h1]
    by_cases h2 : decpt ≤ 0
    · rw [if_pos h2]
      have hb : AllDigits (List.replicate (-decpt).toNat '0' ++ c :: r) := allDigits_append (allDigits_zeros _) hd
      have h0 : AllDigits ['0'] := allDigits_zeros 1
      constructor
      · have e : ('0' :: '.' :: (List.replicate (-decpt).toNat '0' ++ c :: r)) =
          ['0'] ++ '.' :: (List.replicate (-decpt).toNat '0' ++ c :: r) := rfl
        rw [e, unsigned_plain (plain_point h0 hb), mantissa_point h0 hb (by simp)]
        congr 1
        rw [val_append, val_append, val_zeros, show val ['0'] = 0 from val_zeros 1]
        rw [div_eq_iff (by positivity), mul_assoc, ← zpow_natCast, ← zpow_add₀ h10]
        have : decpt - ((c :: r).length : ℤ) + ((List.replicate (-decpt).toNat '0' ++ c :: r).length : ℕ) = 0 := by
          simp only [List.length_append, List.length_replicate]
          push_cast
          rw [Int.toNat_of_nonneg (by omega)]
          ring
        rw [this]
        simp
      · refine good_of (c := '0') rfl rfl ?_
        intro x hx
        simp only [List.mem_cons, List.mem_append] at hx
        rcases hx with rfl | rfl | hx | rfl | hx
        · exact Or.inl rfl
        · exact Or.inr (by simp)
        · exact hgz _ x hx
        · exact Or.inl hc
        · exact Or.inl (hr x hx)
    · rw [if_neg h2]
      by_cases h3 : (c :: r).length ≤ decpt.toNat
      · rw [if_pos h3]
        set z := decpt.toNat - (c :: r).length with hz
        have ha : AllDigits (c :: r ++ List.replicate z '0') := allDigits_append hd (allDigits_zeros _)
        have h0 : AllDigits ['0'] := allDigits_zeros 1
        constructor
        · rw [unsigned_plain (plain_point ha h0), mantissa_point ha h0 (by simp)]
          congr 1
          rw [val_append, val_append, val_zeros, show val ['0'] = 0 from val_zeros 1]
          have : decpt - ((c :: r).length : ℤ) = (z : ℤ) := by omega
          rw [this, zpow_natCast]
          simp only [List.length_singleton, List.length_replicate]
          push_cast
          ring
        · refine good_of hc (t := r ++ List.replicate z '0' ++ ['.', '0']) (by simp) ?_
          intro x hx
          rcases List.mem_append.1 hx with hx | hx
          · exact Or.inl (ha x hx)
          · simp only [List.mem_cons, List.not_mem_nil, or_false] at hx
            rcases hx with rfl | rfl
            · exact Or.inr (by simp)
            · exact Or.inl rfl
      · rw [if_neg h3]
        have ha : AllDigits ((c :: r).take decpt.toNat) := fun x hx => hd x (List.mem_of_mem_take hx)
        have hb : AllDigits ((c :: r).drop decpt.toNat) := fun x hx => hd x (List.mem_of_mem_drop hx)
        constructor
        · rw [unsigned_plain (plain_point ha hb), mantissa_point ha hb (by simp), List.take_append_drop]
          congr 1
          rw [div_eq_iff (by positivity), mul_assoc, ← zpow_natCast, ← zpow_add₀ h10, List.length_drop]
          have : decpt - ((c :: r).length : ℤ) + (((c :: r).length - decpt.toNat : ℕ) : ℤ) = 0 := by omega
          rw [this]
          simp
        · obtain ⟨n, hn⟩ : ∃ n, decpt.toNat = n + 1 := ⟨decpt.toNat - 1, by omega⟩
          rw [hn]
          refine good_of hc (t := r.take n ++ '.' :: r.drop n) (by simp) ?_
          intro x hx
          rcases List.mem_append.1 hx with hx | hx
          · exact Or.inl (hd x (List.mem_of_mem_take hx))
          · rcases List.mem_cons.1 hx with rfl | hx
            · exact Or.inr (by simp)
            · exact Or.inl (hd x (List.mem_of_mem_drop hx))

/-- Zeros at the end are left out. -/
theorem strip_spec (d : Nat) (hd : d ≠ 0) : ∃ z, (Nat.toDigits 10 d).rdropWhile (· = '0') ++ List.replicate z '0' = Nat.toDigits 10 d ∧
    (Nat.toDigits 10 d).rdropWhile (· = '0') ≠ [] ∧ val ((Nat.toDigits 10 d).rdropWhile (· = '0')) * 10 ^ z = d := by
  set s := Nat.toDigits 10 d with hs
  have hv : val s = d := Nat.ofDigitChars_ten_toDigits
  obtain ⟨z, hz⟩ : ∃ z, s.rtakeWhile (· = '0') = List.replicate z '0' := by
    refine ⟨(s.rtakeWhile (· = '0')).length, List.eq_replicate_of_mem ?_⟩
    intro c hc
    simpa using List.mem_rtakeWhile_imp hc
  have e : s.rdropWhile (· = '0') ++ List.replicate z '0' = s := by
    rw [← hz]
    unfold List.rdropWhile List.rtakeWhile
    rw [← List.reverse_append, List.takeWhile_append_dropWhile, List.reverse_reverse]
  have hval : val (s.rdropWhile (· = '0')) * 10 ^ z = d := by
    rw [← hv]
    conv_rhs => rw [← e, val_append, val_zeros, List.length_replicate]
    ring
  refine ⟨z, e, ?_, hval⟩
  intro h
  rw [h] at hval
  simp [val, Nat.ofDigitChars_nil] at hval
  exact hd hval.symm

end Verif.FloatText
