import Mathlib.Tactic.IntervalCases
import Mathlib.Tactic.Linarith
import Verif.Model.Stamps
import Verif.Props.WeatherMulti
import Verif.Props.WeatherSources
import Verif.Props.DataHandler

/-!
# Property C166: times as text
-/

namespace Verif.Stamps

/-- The value of a directive for a time. -/
def Item.of (t : Stamp) : Item → Nat
  | .day => t.day
  | .month => t.month
  | .year => t.year
  | .hour => t.hour
  | .minute => t.minute
  | .second => t.second
  | .micro => t.micro
  | .lit c => number [c]
  | .blank => 0

theorem digit_facts (n : Nat) : (digit n).toNat = 48 + n % 10 ∧ upTo '0' '9' (digit n) = true ∧ digit n ≠ ' ' ∧
    isBlank (digit n) = false := by
  unfold digit
  have h : n % 10 < 10 := Nat.mod_lt _ (by norm_num)
  generalize n % 10 = k at h
  interval_cases k <;> decide

theorem number_digits (l : List Nat) (a : Nat) :
    (l.map digit).foldl (fun n c => if c = ' ' then n else 10 * n + (c.toNat - 48)) a = l.foldl (fun n d => 10 * n + d % 10) a := by
  induction l generalizing a with
  | nil => rfl
  | cons x xs ih =>
    rw [List.map_cons, List.foldl_cons, List.foldl_cons, if_neg (digit_facts x).2.2.1, (digit_facts x).1, ih]
    congr 1
    omega

theorem matchSeq_digits (l : List Nat) (rest : List Char) :
    matchSeq (List.replicate l.length (upTo '0' '9')) (l.map digit ++ rest) = some (l.map digit, rest) := by
  induction l with
  | nil => rfl
  | cons x xs ih =>
    simp only [List.length_cons, List.replicate_succ, List.map_cons, List.cons_append, matchSeq, (digit_facts x).2.1, ih, if_true,
      Option.map_some]

theorem matchItem_print {t : Stamp} (ht : t.ok = true) (i : Item) (rest : List Char)
    (hr : i = .blank → ∃ c r, rest = c :: r ∧ isBlank c = false) :
    ∃ tl, matchItem i (i.print t ++ rest) = (i.of t, rest) :: tl := by
  unfold Stamp.ok at ht
  obtain ⟨y1, y2, m1, m2, d1, d2, h1, n1, s1, f1⟩ := of_decide_eq_true ht
  obtain ⟨y, m, d, h, n, s, f⟩ := t
  simp only at y1 y2 m1 m2 d1 d2 h1 n1 s1 f1
  cases i with
  | day =>
    have : d ≤ 31 := by
      refine d2.trans ?_
      unfold daysIn
      split_ifs <;> norm_num
    clear d2
    change ∃ tl, matchItem .day ([digit (d / 10), digit d] ++ rest) = (d, rest) :: tl
    interval_cases d <;> exact ⟨_, rfl⟩
  | month =>
    change ∃ tl, matchItem .month ([digit (m / 10), digit m] ++ rest) = (m, rest) :: tl
    clear d2
    interval_cases m <;> exact ⟨_, rfl⟩
  | year =>
    have e : Item.year.print ⟨y, m, d, h, n, s, f⟩ = [y / 1000, y / 100, y / 10, y].map digit := rfl
    refine ⟨[], ?_⟩
    have := matchSeq_digits [y / 1000, y / 100, y / 10, y] rest
    simp only [List.length_cons, List.length_nil] at this
    rw [e, matchItem, if_neg (by decide), alternatives, List.filterMap_cons, this]
    simp only [Option.map_some, List.filterMap_nil, Item.value, if_neg (show ¬ Item.year = Item.micro by decide), number, number_digits]
    simp only [List.foldl_cons, List.foldl_nil, Item.of]
    congr 2
    omega
  | hour =>
    change ∃ tl, matchItem .hour ([digit (h / 10), digit h] ++ rest) = (h, rest) :: tl
    interval_cases h <;> exact ⟨_, rfl⟩
  | minute =>
    change ∃ tl, matchItem .minute ([digit (n / 10), digit n] ++ rest) = (n, rest) :: tl
    interval_cases n <;> exact ⟨_, rfl⟩
  | second =>
    change ∃ tl, matchItem .second ([digit (s / 10), digit s] ++ rest) = (s, rest) :: tl
    interval_cases s <;> exact ⟨_, rfl⟩
  | micro =>
    have e : Item.micro.print ⟨y, m, d, h, n, s, f⟩ = [f / 100000, f / 10000, f / 1000, f / 100, f / 10, f].map digit := rfl
    have := matchSeq_digits [f / 100000, f / 10000, f / 1000, f / 100, f / 10, f] rest
    simp only [List.length_cons, List.length_nil] at this
    have step : ∀ (as : List (List (Char → Bool))) (a : List (Char → Bool)) (i : Item) (s : List Char) (q : List Char × List Char),
        i ≠ .blank → alternatives i = a :: as → matchSeq a s = some q → ∃ tl, matchItem i s = (i.value q.1, q.2) :: tl := by
      intro as a i s q h1 h2 h3
      rw [matchItem, if_neg h1, h2, List.filterMap_cons, h3]
      exact ⟨_, rfl⟩
    obtain ⟨tl, htl⟩ := step _ _ .micro _ _ (by decide) rfl this
    refine ⟨tl, ?_⟩
    rw [e, htl]
    congr 2
    simp only [Item.value, if_true, number, number_digits]
    simp only [List.foldl_cons, List.foldl_nil, Item.of, List.length_map, List.length_cons, List.length_nil]
    omega
  | lit c =>
    refine ⟨[], ?_⟩
    simp [matchItem, alternatives, Item.print, matchSeq, upTo, Item.value, Item.of]
  | blank =>
    obtain ⟨c, r, rfl, hc⟩ := hr rfl
    refine ⟨[], ?_⟩
    have hb : isBlank ' ' = true := by decide
    simp [matchItem, Item.print, blankRests, hc, Item.of, hb]

/-- Formats in which white space is followed by a directive or a character that is not white space. -/
def Separated : List Item → Prop
  | [] => True
  | .blank :: is => (∃ j js, is = j :: js ∧ j ≠ .blank ∧ ∀ c, j = .lit c → isBlank c = false) ∧ Separated is
  | _ :: is => Separated is

theorem print_head (t : Stamp) {j : Item} (h1 : j ≠ .blank) (h2 : ∀ c, j = .lit c → isBlank c = false) :
    ∃ c r, j.print t = c :: r ∧ isBlank c = false := by
  cases j with
  | blank => exact absurd rfl h1
  | lit c => exact ⟨c, [], rfl, h2 c rfl⟩
  | _ => exact ⟨_, _, rfl, (digit_facts _).2.2.2⟩

theorem Separated.tail {i : Item} {is : List Item} (h : Separated (i :: is)) : Separated is := by
  cases i <;> first | exact h | exact h.2

/-- The first match of a printed time consists of its values. -/
theorem matchAll_print {t : Stamp} (ht : t.ok = true) {fmt : List Item} (hf : Separated fmt) (rest : List Char) :
    ∃ tl, matchAll fmt (strftime fmt t ++ rest) = (fmt.map fun i => (i, i.of t), rest) :: tl := by
  induction fmt with
  | nil => exact ⟨[], rfl⟩
  | cons i is ih =>
    obtain ⟨tl, htl⟩ := ih hf.tail
    have e : strftime (i :: is) t ++ rest = i.print t ++ (strftime is t ++ rest) := by simp [strftime]
    obtain ⟨tl', htl'⟩ := matchItem_print ht i (strftime is t ++ rest) (by
      rintro rfl
      obtain ⟨⟨j, js, rfl, g1, g2⟩, -⟩ := hf
      obtain ⟨c, r, g3, g4⟩ := print_head t g1 g2
      exact ⟨c, r ++ (strftime js t ++ rest), by simp [strftime, g3], g4⟩)
    rw [e, matchAll, htl', List.flatMap_cons, htl]
    exact ⟨_, rfl⟩

theorem found_map (t : Stamp) (fmt : List Item) (i : Item) (default : Nat) :
    found (fmt.map fun i => (i, i.of t)) i default = if i ∈ fmt then i.of t else default := by
  induction fmt with
  | nil => rfl
  | cons j js ih =>
    unfold found at ih ⊢
    by_cases h : j = i
    · subst h
      simp
    · rw [List.map_cons, List.find?_cons_of_neg (by simpa using h), ih]
      simp [Ne.symm h]

/-- The part of a time a format keeps. -/
def kept (fmt : List Item) (t : Stamp) : Stamp :=
  ⟨if Item.year ∈ fmt then t.year else 1900, if Item.month ∈ fmt then t.month else 1, if Item.day ∈ fmt then t.day else 1,
    if Item.hour ∈ fmt then t.hour else 0, if Item.minute ∈ fmt then t.minute else 0, if Item.second ∈ fmt then t.second else 0,
    if Item.micro ∈ fmt then t.micro else 0⟩

/-- **C166.** What is read from a printed time, for every format with year, month and day: the values that are in the format, and
zero for the others. -/
theorem C166_read {fmt : List Item} (hf : Separated fmt) (hy : Item.year ∈ fmt) (hm : Item.month ∈ fmt) (hd : Item.day ∈ fmt)
    {t : Stamp} (ht : t.ok = true) : strptime fmt (strftime fmt t) = some (kept fmt t) := by
  obtain ⟨tl, h⟩ := matchAll_print ht hf []
  rw [List.append_nil] at h
  have e : assemble (fmt.map fun i => (i, i.of t)) = kept fmt t := by
    simp only [assemble, found_map, kept]
    rfl
  have hok : (kept fmt t).ok = true := by
    unfold Stamp.ok at ht ⊢
    obtain ⟨y1, y2, m1, m2, d1, d2, h1, n1, s1, f1⟩ := of_decide_eq_true ht
    apply decide_eq_true
    simp only [kept, hy, hm, hd, if_true]
    refine ⟨y1, y2, m1, m2, d1, d2, ?_, ?_, ?_, ?_⟩ <;> split_ifs <;> first | assumption | norm_num
  unfold strptime
  rw [h]
  simp only [List.head?_cons, e, hok, and_self, if_true]

/-- **C166.** A time is recovered exactly if all its parts that are not in the format are zero. -/
theorem C166_exactly {fmt : List Item} (hf : Separated fmt) (hy : Item.year ∈ fmt) (hm : Item.month ∈ fmt) (hd : Item.day ∈ fmt)
    {t : Stamp} (ht : t.ok = true) : strptime fmt (strftime fmt t) = some t ↔
      (Item.hour ∉ fmt → t.hour = 0) ∧ (Item.minute ∉ fmt → t.minute = 0) ∧ (Item.second ∉ fmt → t.second = 0) ∧
        (Item.micro ∉ fmt → t.micro = 0) := by
  rw [C166_read hf hy hm hd ht, Option.some.injEq]
  obtain ⟨y, m, d, h, n, s, f⟩ := t
  simp only [kept, hy, hm, hd, if_true, Stamp.mk.injEq, true_and]
  constructor
  · rintro ⟨h1, h2, h3, h4⟩
    refine ⟨fun e => ?_, fun e => ?_, fun e => ?_, fun e => ?_⟩
    · rw [if_neg e] at h1; exact h1.symm
    · rw [if_neg e] at h2; exact h2.symm
    · rw [if_neg e] at h3; exact h3.symm
    · rw [if_neg e] at h4; exact h4.symm
  · rintro ⟨h1, h2, h3, h4⟩
    refine ⟨?_, ?_, ?_, ?_⟩ <;> split_ifs with e
    · rfl
    · exact (h1 e).symm
    · rfl
    · exact (h2 e).symm
    · rfl
    · exact (h3 e).symm
    · rfl
    · exact (h4 e).symm

/-- The formats of the library are of this kind. -/
theorem formats_separated : Separated weatherFormat ∧ Separated minutesFormat ∧ Separated secondsFormat ∧ Separated csvFormat := by
  refine ⟨trivial, ?_, ?_, ?_⟩ <;> exact ⟨⟨_, _, rfl, by decide, by simp⟩, trivial⟩

def exStamp : Stamp := ⟨2024, 2, 29, 7, 5, 9, 0⟩

example : exStamp.ok = true ∧ String.ofList (strftime weatherFormat exStamp) = "29.02.2024:07:05:09" ∧
    strptime weatherFormat (strftime weatherFormat exStamp) = some exStamp ∧
    strptime weatherFormat "1.2.2024:7:5:9".toList = some ⟨2024, 2, 1, 7, 5, 9, 0⟩ ∧
    strptime weatherFormat "30.02.2024:07:05:09".toList = none := by decide +kernel

/-- **C166.** Everything that is read is a date, for all formats and texts. -/
theorem C166_valid {fmt : List Item} {s : List Char} {t : Stamp} (h : strptime fmt s = some t) :
    t.ok = true ∧ t.month ≤ 12 ∧ t.day ≤ 31 ∧ t.hour < 24 ∧ t.minute < 60 ∧ t.second < 60 := by
  unfold strptime at h
  split at h
  · cases h
  · split at h
    · rename_i hok
      cases h
      refine ⟨hok.2, ?_⟩
      have := hok.2
      unfold Stamp.ok at this
      obtain ⟨-, -, -, m2, -, d2, h1, n1, s1, -⟩ := of_decide_eq_true this
      refine ⟨m2, d2.trans ?_, h1, n1, s1⟩
      unfold daysIn
      split_ifs <;> norm_num
    · cases h

/-- A character of the format has to be in the text. -/
theorem lit_mem {fmt : List Item} {s : List Char} {q : List (Item × Nat) × List Char} (h : q ∈ matchAll fmt s) {c : Char}
    (hc : Item.lit c ∈ fmt) : c ∈ s := by
  have seq : ∀ (ps : List (Char → Bool)) (s : List Char) (r : List Char × List Char), matchSeq ps s = some r → s = r.1 ++ r.2 := by
    intro ps
    induction ps with
    | nil => rintro s r h; cases h; rfl
    | cons p ps ih =>
      rintro s r h
      cases s with
      | nil => cases h
      | cons c s =>
        unfold matchSeq at h
        split at h
        · rcases hm : matchSeq ps s with _ | r'
          · rw [hm] at h; cases h
          · rw [hm] at h; cases h; rw [ih s r' hm]; rfl
        · cases h
  have blanks : ∀ (s r : List Char), r ∈ blankRests s → ∃ a, s = a ++ r := by
    intro s
    induction s with
    | nil => rintro r h; cases h
    | cons c s ih =>
      rintro r h
      unfold blankRests at h
      split at h
      · rcases List.mem_append.1 h with h | h
        · obtain ⟨a, rfl⟩ := ih r h; exact ⟨c :: a, rfl⟩
        · rw [List.mem_singleton] at h; subst h; exact ⟨[c], rfl⟩
      · cases h
  have step : ∀ (i : Item) (s : List Char) (v : Nat × List Char), v ∈ matchItem i s →
      ∃ a, s = a ++ v.2 ∧ ∀ c, i = .lit c → c ∈ a := by
    intro i s v hv
    unfold matchItem at hv
    split at hv
    · rename_i hb
      obtain ⟨r, hr, rfl⟩ := List.mem_map.1 hv
      obtain ⟨a, ha⟩ := blanks s r hr
      exact ⟨a, ha, fun c e => by rw [hb] at e; cases e⟩
    · obtain ⟨alt, h1, h2⟩ := List.mem_filterMap.1 hv
      rcases hm : matchSeq alt s with _ | r
      · rw [hm] at h2; cases h2
      · rw [hm] at h2
        cases h2
        refine ⟨r.1, seq _ _ _ hm, ?_⟩
        rintro c rfl
        simp only [alternatives, List.mem_singleton] at h1
        subst h1
        cases s with
        | nil => cases hm
        | cons x s =>
          simp only [matchSeq] at hm
          by_cases hx : upTo c c x = true
          · rw [if_pos hx] at hm
            cases hm
            have := of_decide_eq_true hx
            rw [Char.le_antisymm this.1 this.2]; simp
          · rw [if_neg hx] at hm
            cases hm
  induction fmt generalizing s q with
  | nil => cases hc
  | cons i is ih =>
    rw [matchAll, List.mem_flatMap] at h
    obtain ⟨v, hv, h⟩ := h
    obtain ⟨q', hq', -⟩ := List.mem_map.1 h
    obtain ⟨a, ha, hl⟩ := step i s v hv
    rw [ha, List.mem_append]
    rcases List.mem_cons.1 hc with e | e
    · exact Or.inl (hl c e.symm)
    · exact Or.inr (ih hq' e)

theorem digit_ne_dot (n : Nat) : digit n ≠ '.' := by
  unfold digit
  have h : n % 10 < 10 := Nat.mod_lt _ (by norm_num)
  generalize n % 10 = k at h
  interval_cases k <;> decide

/-- **C166.** `str(t)` is recognised as a date by `CsvFileHandler` with its default format exactly if the time has a fraction of a
second; then the time is read. -/
theorem C166_csv_exactly {t : Stamp} (ht : t.ok = true) :
    strptime csvFormat (str t) = if t.micro = 0 then none else some t := by
  unfold str
  split_ifs with h
  · unfold strptime
    have : matchAll csvFormat (strftime secondsFormat t) = [] := by
      rw [List.eq_nil_iff_forall_not_mem]
      intro q hq
      have := lit_mem hq (c := '.') (by decide)
      simp [strftime, secondsFormat, minutesFormat, Item.print, Ne.symm (digit_ne_dot _)] at this
    rw [this]
    rfl
  · exact (C166_exactly formats_separated.2.2.2 (by decide) (by decide) (by decide) ht).2
      ⟨fun e => absurd (by decide) e, fun e => absurd (by decide) e, fun e => absurd (by decide) e, fun e => absurd (by decide) e⟩

/-- **C166.** The texts of times of the formats with minutes, seconds and microseconds: year, month and day with hyphens, a blank, and
hours, minutes and seconds with colons, then a point and the microseconds, all with leading zeros. -/
theorem C166_spelled (t : Stamp) :
    let d (n : Nat) := 48 + n % 10
    let minutes := [d (t.year / 1000), d (t.year / 100), d (t.year / 10), d t.year, 45, d (t.month / 10), d t.month, 45, d (t.day / 10),
      d t.day, 32, d (t.hour / 10), d t.hour, 58, d (t.minute / 10), d t.minute]
    let seconds := minutes ++ [58, d (t.second / 10), d t.second]
    let micros := seconds ++ [46, d (t.micro / 100000), d (t.micro / 10000), d (t.micro / 1000), d (t.micro / 100), d (t.micro / 10),
      d t.micro]
    (strftime minutesFormat t).map Char.toNat = minutes ∧ (strftime secondsFormat t).map Char.toNat = seconds ∧
      (strftime csvFormat t).map Char.toNat = micros ∧ (str t).map Char.toNat = if t.micro = 0 then seconds else micros := by
  have h (n : Nat) : (digit n).toNat = 48 + n % 10 := by
    unfold digit
    have h : n % 10 < 10 := Nat.mod_lt _ (by norm_num)
    generalize n % 10 = k at h
    interval_cases k <;> decide
  intro d minutes seconds micros
  have h1 : (strftime minutesFormat t).map Char.toNat = minutes := by
    simp only [strftime, minutesFormat, List.flatMap_cons, List.flatMap_nil, Item.print, List.map_append, List.map_cons, List.map_nil, h,
      List.cons_append, List.nil_append, List.append_nil]
    rfl
  have h2 : (strftime secondsFormat t).map Char.toNat = seconds := by
    rw [show strftime secondsFormat t = strftime minutesFormat t ++ strftime [.lit ':', .second] t from by
      simp [strftime, secondsFormat], List.map_append, h1]
    simp only [strftime, List.flatMap_cons, List.flatMap_nil, Item.print, List.map_append, List.map_cons, List.map_nil, h,
      List.cons_append, List.nil_append, List.append_nil]
    rfl
  have h3 : (strftime csvFormat t).map Char.toNat = micros := by
    rw [show strftime csvFormat t = strftime secondsFormat t ++ strftime [.lit '.', .micro] t from by
      simp [strftime, csvFormat], List.map_append, h2]
    simp only [strftime, List.flatMap_cons, List.flatMap_nil, Item.print, List.map_append, List.map_cons, List.map_nil, h,
      List.cons_append, List.nil_append, List.append_nil]
    rfl
  refine ⟨h1, h2, h3, ?_⟩
  unfold str
  split_ifs with h0
  · rw [h2]
  · rw [h3]

example : strptime csvFormat "2024-02-29 07:05:09.25".toList = some ⟨2024, 2, 29, 7, 5, 9, 250000⟩ ∧
    String.ofList (str exStamp) = "2024-02-29 07:05:09" := by decide +kernel

theorem matchAll_append (a b : List Item) (s : List Char) :
    matchAll (a ++ b) s = (matchAll a s).flatMap fun q => (matchAll b q.2).map fun r => (q.1 ++ r.1, r.2) := by
  induction a generalizing s with
  | nil => simp [matchAll]
  | cons i is ih =>
    simp only [List.cons_append, matchAll, ih, List.flatMap_assoc, List.map_flatMap, List.flatMap_map, List.map_map, Function.comp_def]

theorem matchSeq_short {p : Char → Bool} {n : Nat} {s : List Char} (h : s.length < n) : matchSeq (List.replicate n p) s = none := by
  induction n generalizing s with
  | zero => omega
  | succ n ih =>
    cases s with
    | nil => rfl
    | cons c s =>
      rw [List.replicate_succ, matchSeq, ih (by simpa using h)]
      simp

/-- All digits of a fraction are read. -/
theorem matchItem_fraction {l : List Nat} (h1 : 1 ≤ l.length) (h6 : l.length ≤ 6) :
    ∃ tl, matchItem .micro (l.map digit) = (l.foldl (fun n d => 10 * n + d % 10) 0 * 10 ^ (6 - l.length), []) :: tl := by
  have hm := matchSeq_digits l []
  rw [List.append_nil] at hm
  have hv : Item.micro.value (l.map digit) = l.foldl (fun n d => 10 * n + d % 10) 0 * 10 ^ (6 - l.length) := by
    simp only [Item.value, if_true, number, number_digits, List.length_map]
  have hs : ∀ n, l.length < n → matchSeq (List.replicate n (upTo '0' '9')) (l.map digit) = none :=
    fun n hn => matchSeq_short (by simpa using hn)
  rw [← hv, matchItem, if_neg (by decide)]
  simp only [alternatives, List.map_cons, List.map_nil]
  generalize hk : l.length = k at *
  interval_cases k
  · rw [List.filterMap_cons, hs 6 (by norm_num), Option.map_none, List.filterMap_cons, hs 5 (by norm_num), Option.map_none,
      List.filterMap_cons, hs 4 (by norm_num), Option.map_none, List.filterMap_cons, hs 3 (by norm_num), Option.map_none,
      List.filterMap_cons, hs 2 (by norm_num), Option.map_none, List.filterMap_cons, hm]
    exact ⟨_, rfl⟩
  · rw [List.filterMap_cons, hs 6 (by norm_num), Option.map_none, List.filterMap_cons, hs 5 (by norm_num), Option.map_none,
      List.filterMap_cons, hs 4 (by norm_num), Option.map_none, List.filterMap_cons, hs 3 (by norm_num), Option.map_none,
      List.filterMap_cons, hm]
    exact ⟨_, rfl⟩
  · rw [List.filterMap_cons, hs 6 (by norm_num), Option.map_none, List.filterMap_cons, hs 5 (by norm_num), Option.map_none,
      List.filterMap_cons, hs 4 (by norm_num), Option.map_none, List.filterMap_cons, hm]
    exact ⟨_, rfl⟩
  · rw [List.filterMap_cons, hs 6 (by norm_num), Option.map_none, List.filterMap_cons, hs 5 (by norm_num), Option.map_none,
      List.filterMap_cons, hm]
    exact ⟨_, rfl⟩
  · rw [List.filterMap_cons, hs 6 (by norm_num), Option.map_none, List.filterMap_cons, hm]
    exact ⟨_, rfl⟩
  · rw [List.filterMap_cons, hm]
    exact ⟨_, rfl⟩

/-- **C166.** A fraction of a second with one to six digits is read by `CsvFileHandler` with its default format as this fraction: the
number of microseconds is the number formed by the digits, followed by as many zeros as digits are missing. -/
theorem C166_fraction {t : Stamp} (ht : t.ok = true) {l : List Nat} (h1 : 1 ≤ l.length) (h6 : l.length ≤ 6) (hd : ∀ d ∈ l, d < 10)
    {m : Nat} (hm : (m : ℚ) = 1000000 * (l.foldl (fun n d => 10 * n + d) 0 : Nat) / 10 ^ l.length) (hm6 : m < 1000000) :
    strptime csvFormat (strftime secondsFormat t ++ '.' :: l.map digit) = some { t with micro := m } := by
  have hsep : Separated (secondsFormat ++ [Item.lit '.']) := by
    refine ?_
    exact ⟨⟨_, _, rfl, by decide, by simp⟩, trivial⟩
  obtain ⟨tl, h⟩ := matchAll_print ht hsep (l.map digit)
  obtain ⟨tl', h'⟩ := matchItem_fraction h1 h6
  have ef : l.foldl (fun n d => 10 * n + d % 10) 0 = l.foldl (fun n d => 10 * n + d) 0 := by
    have : ∀ (l : List Nat) (a : Nat), (∀ d ∈ l, d < 10) → l.foldl (fun n d => 10 * n + d % 10) a = l.foldl (fun n d => 10 * n + d) a := by
      intro l
      induction l with
      | nil => intros; rfl
      | cons x xs ih =>
        intro a hd
        rw [List.foldl_cons, List.foldl_cons, Nat.mod_eq_of_lt (hd x (by simp)), ih _ fun d hd' => hd d (List.mem_cons_of_mem _ hd')]
    exact this l 0 hd
  have em : l.foldl (fun n d => 10 * n + d % 10) 0 * 10 ^ (6 - l.length) = m := by
    rw [ef]
    have hp : (10 : ℚ) ^ (6 - l.length) * 10 ^ l.length = 1000000 := by
      rw [← pow_add, Nat.sub_add_cancel h6]; norm_num
    have h0 : (10 : ℚ) ^ l.length ≠ 0 := by positivity
    have : ((l.foldl (fun n d => 10 * n + d) 0 * 10 ^ (6 - l.length) : Nat) : ℚ) = m := by
      rw [hm, eq_div_iff h0]
      push_cast
      rw [mul_assoc, hp]
      ring
    exact_mod_cast this
  rw [em] at h'
  have etext : strftime (secondsFormat ++ [Item.lit '.']) t ++ l.map digit = strftime secondsFormat t ++ '.' :: l.map digit := by
    simp [strftime, Item.print]
  have efmt : csvFormat = (secondsFormat ++ [Item.lit '.']) ++ [.micro] := by decide
  have hmatch : ∃ r, matchAll csvFormat (strftime secondsFormat t ++ '.' :: l.map digit) =
      ((secondsFormat ++ [Item.lit '.']).map (fun i => (i, i.of t)) ++ [(Item.micro, m)], []) :: r := by
    rw [efmt, matchAll_append, ← etext, h, List.flatMap_cons]
    simp only [matchAll, h', List.flatMap_cons, List.map_cons, List.map_nil, List.cons_append, List.nil_append]
    exact ⟨_, rfl⟩
  obtain ⟨r, hr⟩ := hmatch
  have ea : assemble ((secondsFormat ++ [Item.lit '.']).map (fun i => (i, i.of t)) ++ [(Item.micro, m)]) = { t with micro := m } := by
    simp [assemble, found, secondsFormat, minutesFormat, Item.of]
  have hok : ({ t with micro := m } : Stamp).ok = true := by
    unfold Stamp.ok at ht ⊢
    have := of_decide_eq_true ht
    exact decide_eq_true ⟨this.1, this.2.1, this.2.2.1, this.2.2.2.1, this.2.2.2.2.1, this.2.2.2.2.2.1, this.2.2.2.2.2.2.1,
      this.2.2.2.2.2.2.2.1, this.2.2.2.2.2.2.2.2.1, hm6⟩
  unfold strptime
  rw [hr]
  simp only [List.head?_cons, ea, hok, and_self, if_true]

example : exStamp.ok = true ∧ ((250000 : Nat) : ℚ) = 1000000 * ([2, 5].foldl (fun n d => 10 * n + d) 0 : Nat) / 10 ^ [2, 5].length ∧
    strptime csvFormat (strftime secondsFormat exStamp ++ '.' :: [2, 5].map digit) = some { exStamp with micro := 250000 } := by
  decide +kernel

/-- **C166.** The 29th of February is accepted exactly in the leap years of the Gregorian calendar, the other days as usual: what is
read is a date of this calendar. -/
theorem C166_calendar {fmt : List Item} {s : List Char} {t : Stamp} (h : strptime fmt s = some t) :
    (t.month = 2 → t.day ≤ 29 ∧ (t.day = 29 → 4 ∣ t.year ∧ (100 ∣ t.year → 400 ∣ t.year))) ∧
    (t.month = 4 ∨ t.month = 6 ∨ t.month = 9 ∨ t.month = 11 → t.day ≤ 30) := by
  have := (C166_valid h).1
  unfold Stamp.ok at this
  obtain ⟨-, -, -, -, -, d2, -⟩ := of_decide_eq_true this
  constructor
  · intro hm
    rw [daysIn, if_pos hm] at d2
    split_ifs at d2 with hl
    · refine ⟨d2, fun _ => ?_⟩
      simp only [leap, Bool.or_eq_true, Bool.and_eq_true, beq_iff_eq, bne_iff_ne] at hl
      omega
    · exact ⟨by omega, fun _ => by omega⟩
  · intro hm
    rw [daysIn, if_neg (by omega), if_pos hm] at d2
    exact d2

/-- **C166.** All dates of the calendar in the years 1 to 9999 are accepted. -/
theorem C166_dates {t : Stamp} (hy : 1 ≤ t.year ∧ t.year ≤ 9999) (hm : 1 ≤ t.month ∧ t.month ≤ 12) (hd : 1 ≤ t.day ∧ t.day ≤ 31)
    (h30 : t.month = 4 ∨ t.month = 6 ∨ t.month = 9 ∨ t.month = 11 → t.day ≤ 30)
    (h29 : t.month = 2 → t.day ≤ 29 ∧ (t.day = 29 → 4 ∣ t.year ∧ (100 ∣ t.year → 400 ∣ t.year)))
    (ht : t.hour < 24 ∧ t.minute < 60 ∧ t.second < 60) (hz : t.micro = 0) :
    strptime weatherFormat (strftime weatherFormat t) = some t := by
  have hok : t.ok = true := by
    unfold Stamp.ok
    refine decide_eq_true ⟨hy.1, hy.2, hm.1, hm.2, hd.1, ?_, ht.1, ht.2.1, ht.2.2, by omega⟩
    unfold daysIn
    split_ifs with a b c
    · exact (h29 a).1
    · have h := h29 a
      have : t.day ≠ 29 := by
        intro e
        have h4 := h.2 e
        apply b
        simp only [leap, Bool.or_eq_true, Bool.and_eq_true, beq_iff_eq, bne_iff_ne]
        omega
      omega
    · exact h30 c
    · exact hd.2
  exact (C166_exactly formats_separated.1 (by decide) (by decide) (by decide) hok).2
    ⟨fun e => absurd (by decide) e, fun e => absurd (by decide) e, fun e => absurd (by decide) e, fun _ => hz⟩

example : strptime weatherFormat "29.02.2000:07:05:09".toList = some ⟨2000, 2, 29, 7, 5, 9, 0⟩ ∧
    strptime weatherFormat "29.02.1900:07:05:09".toList = none := by decide +kernel

theorem digit_space (n : Nat) : (digit n).isWhitespace = false := by
  unfold digit
  have h : n % 10 < 10 := Nat.mod_lt _ (by norm_num)
  generalize n % 10 = k at h
  interval_cases k <;> decide

theorem strip_str (t : Stamp) : Handler.strip (str t) = str t := by
  unfold Handler.strip str
  split_ifs <;> simp [strftime, csvFormat, secondsFormat, minutesFormat, Item.print, digit_space]

/-- **C166 is false** for the default format of `CsvFileHandler`: entries such as `2024-02-29 07:05:09`, which is `str` of a time
without fraction of a second, are no dates. As they are no python literals either, the file raises `RuntimeError`. -/
theorem C166_csv_false {V : Type} (stamp : Stamp → V) {literal : List Char → Except Handler.LitErr (Option V)} {t : Stamp}
    (ht : t.ok = true) (hm : t.micro = 0) (hl : literal (str t) = .error .syntaxError) :
    Handler.saveEval (fun s => (strptime csvFormat s).map stamp) literal (.text (str t)) = .error .runtimeError := by
  have h := C166_csv_exactly ht
  rw [if_pos hm] at h
  simp only [Handler.saveEval, strip_str, h, Option.map_none, hl]

theorem mapM_restores {S T : Type} {fmt : T → S} {parse : S → Option T} (l : List T) :
    (l.map fmt).mapM parse = some l ↔ ∀ t ∈ l, parse (fmt t) = some t := by
  induction l with
  | nil => simp
  | cons t ts ih =>
    rw [List.map_cons, List.mapM_cons]
    rcases h : parse (fmt t) with _ | t'
    · simp [h]
    · rcases h' : (ts.map fmt).mapM parse with _ | ts'
      · rw [h'] at ih
        have : ¬ ∀ t ∈ ts, parse (fmt t) = some t := fun c => by simpa using ih.2 c
        simp only [List.mem_cons, forall_eq_or_imp, h]
        constructor
        · rintro ⟨⟩
        · exact fun c => absurd c.2 this
      · rw [h'] at ih
        simp only [List.mem_cons, forall_eq_or_imp, h, ← ih]
        simp

example : Handler.saveEval (fun s => (strptime csvFormat s).map id) (fun _ => .error .syntaxError) (.text (str exStamp)) =
    .error .runtimeError := C166_csv_false id (by decide +kernel) rfl rfl

/-- **C166.** Weather files: the model is restored exactly if no time has a fraction of a second. -/
theorem C166_weather_file_exactly {K κ : Type} (data : List (List (List (List K)))) {times : List Stamp}
    (ht : ∀ t ∈ times, t.ok = true) (lats lons : List K) (attrs : List κ) :
    Weather.fromFile (strptime weatherFormat) (Weather.toFile (strftime weatherFormat) data times lats lons attrs) =
        .ok (data, times, lats, lons, attrs) ↔ ∀ t ∈ times, t.micro = 0 := by
  have key : ∀ t ∈ times, (strptime weatherFormat (strftime weatherFormat t) = some t ↔ t.micro = 0) := by
    intro t h
    rw [C166_exactly formats_separated.1 (by decide) (by decide) (by decide) (ht t h)]
    refine ⟨fun c => c.2.2.2 (by decide), fun c => ⟨fun e => absurd (by decide) e, fun e => absurd (by decide) e,
      fun e => absurd (by decide) e, fun _ => c⟩⟩
  have : (∀ t ∈ times, t.micro = 0) ↔ (times.map (strftime weatherFormat)).mapM (strptime weatherFormat) = some times := by
    rw [mapM_restores]
    exact forall₂_congr fun t h => (key t h).symm
  rw [this]
  unfold Weather.fromFile Weather.toFile
  simp only
  rcases (times.map (strftime weatherFormat)).mapM (strptime weatherFormat) with _ | ts
  · simp
  · simp

/-- **C166.** Otherwise the file is read all the same and the fractions are gone: what is read is known for all times. -/
theorem C166_weather_file_read {K κ : Type} (data : List (List (List (List K)))) {times : List Stamp}
    (ht : ∀ t ∈ times, t.ok = true) (lats lons : List K) (attrs : List κ) :
    Weather.fromFile (strptime weatherFormat) (Weather.toFile (strftime weatherFormat) data times lats lons attrs) =
        .ok (data, times.map (fun t => { t with micro := 0 }), lats, lons, attrs) := by
  have : (times.map (strftime weatherFormat)).mapM (strptime weatherFormat) = some (times.map fun t => { t with micro := 0 }) := by
    induction times with
    | nil => rfl
    | cons t ts ih =>
      rw [List.map_cons, List.mapM_cons, C166_read formats_separated.1 (by decide) (by decide) (by decide) (ht t (by simp)),
        ih fun t' h => ht t' (by simp [h])]
      rfl
  simp [Weather.fromFile, Weather.toFile, this]

example : Weather.fromFile (strptime weatherFormat) (Weather.toFile (strftime weatherFormat) [[[[(1 : ℚ)]]]] [exStamp] [54] [8] ["TWS"]) =
    .ok ([[[[(1 : ℚ)]]]], [exStamp], [54], [8], ["TWS"]) :=
  (C166_weather_file_exactly _ (by decide +kernel) _ _ _).2 (by decide)

/-- The two attempts to read the start time of a NetCDF file, in seconds. -/
def netStrptime (seconds : Stamp → ℚ) (s : List Char) : Sources.Fmt → Option ℚ
  | .minutes => (strptime minutesFormat s).map seconds
  | .seconds => (strptime secondsFormat s).map seconds

/-- **C166.** The start time of a NetCDF file is read from text with minutes and from text with seconds; parts that are not written
count as zero. -/
theorem C166_start_partial (seconds : Stamp → ℚ) {t : Stamp} (ht : t.ok = true) :
    Sources.startTime (netStrptime seconds) (strftime minutesFormat t) = .ok (seconds { t with second := 0, micro := 0 }) ∧
    Sources.startTime (netStrptime seconds) (strftime secondsFormat t) = .ok (seconds { t with micro := 0 }) := by
  constructor
  · simp only [Sources.startTime, netStrptime,
      C166_read formats_separated.2.1 (by decide) (by decide) (by decide) ht, Option.map_some]
    rfl
  · have h : strptime minutesFormat (strftime secondsFormat t) = none := by
      have e : strftime secondsFormat t = strftime minutesFormat t ++ (strftime [.lit ':', .second] t) := by
        simp [strftime, secondsFormat]
      obtain ⟨tl, h⟩ := matchAll_print ht formats_separated.2.1 (strftime [.lit ':', .second] t)
      unfold strptime
      rw [e, h]
      simp [strftime, Item.print]
    simp only [Sources.startTime, netStrptime, h, Option.map_none,
      C166_read formats_separated.2.2.1 (by decide) (by decide) (by decide) ht, Option.map_some]
    rfl

example (seconds : Stamp → ℚ) : Sources.startTime (netStrptime seconds) "1900-01-01 00:00:00".toList =
    .ok (seconds ⟨1900, 1, 1, 0, 0, 0, 0⟩) :=
  (C166_start_partial seconds (t := ⟨1900, 1, 1, 0, 0, 0, 0⟩) (by decide +kernel)).2

/-- **C166 is false** for start times as they are common in NetCDF files: `1900-01-01 00:00:00.0`, `1970-01-01` and
`1970-01-01T00:00:00Z` are rejected, so `times` raises `NotImplementedError`. -/
theorem C166_start_false (seconds : Stamp → ℚ) (plain : List ℚ) :
    ∀ s ∈ ["1900-01-01 00:00:00.0".toList, "1970-01-01".toList, "1970-01-01T00:00:00Z".toList],
      Sources.netTimes (netStrptime seconds) ("hours since ".toList ++ s) plain = .error .otherError ∧
      Sources.netTimes (netStrptime seconds) ("seconds since ".toList ++ s) plain = .error .otherError := by
  intro s hs
  have h : strptime minutesFormat s = none ∧ strptime secondsFormat s = none := by
    revert s
    decide +kernel
  exact (Sources.C108_units_false (netStrptime seconds) plain).2 s (by simp [netStrptime, h.1]) (by simp [netStrptime, h.2])

/-- **C166.** No time written with a fraction of a second is a start time. -/
theorem C166_point_false (seconds : Stamp → ℚ) {t : Stamp} (ht : t.ok = true) :
    Sources.startTime (netStrptime seconds) (strftime csvFormat t) = .error .otherError := by
  have e1 : strftime csvFormat t = strftime minutesFormat t ++ (strftime [.lit ':', .second, .lit '.', .micro] t) := by
    simp [strftime, csvFormat, secondsFormat]
  have e2 : strftime csvFormat t = strftime secondsFormat t ++ (strftime [.lit '.', .micro] t) := by
    simp [strftime, csvFormat, secondsFormat]
  obtain ⟨tl1, h1⟩ := matchAll_print ht formats_separated.2.1 (strftime [.lit ':', .second, .lit '.', .micro] t)
  obtain ⟨tl2, h2⟩ := matchAll_print ht formats_separated.2.2.1 (strftime [.lit '.', .micro] t)
  have g1 : strptime minutesFormat (strftime csvFormat t) = none := by
    unfold strptime
    rw [e1, h1]
    simp [strftime, Item.print]
  have g2 : strptime secondsFormat (strftime csvFormat t) = none := by
    unfold strptime
    rw [e2, h2]
    simp [strftime, Item.print]
  simp [Sources.startTime, netStrptime, g1, g2]

example (seconds : Stamp → ℚ) : Sources.startTime (netStrptime seconds) (strftime csvFormat exStamp) = .error .otherError :=
  C166_point_false seconds (by decide +kernel)

end Verif.Stamps
