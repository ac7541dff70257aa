import Verif.Lemmas.Float64
import Verif.Lemmas.Round
import Verif.Model.ClockImputator
import Verif.Props.Imputator

/-! # C180: filled time stamps in whole microseconds -/

namespace Verif.Clock

open Verif.Imputator Verif.F64

/-- A column of whole microseconds as a column of exact numbers. -/
def exact (l : List (Option Int)) : List (Option ℚ) := l.map (Option.map fun t : Int => (t : ℚ))

/-- `stamp` for exact numbers. -/
def stampQ (a b : Nat) (s t : ℚ) (j : Nat) : ℚ := s + ((pyRound (fl (((j : ℚ) - a) / ((b : ℚ) - a)) * (t - s)) : Int) : ℚ)

theorem stampQ_cast (a b : Nat) (s t : Int) (j : Nat) : stampQ a b (s : ℚ) (t : ℚ) j = (stamp a b s t j : ℚ) := by
  unfold stampQ stamp
  push_cast
  rfl

theorem exact_get (l : List (Option Int)) (m : Nat) : (exact l)[m]? = l[m]?.map (Option.map fun t : Int => (t : ℚ)) := by
  simp [exact]

theorem exact_some {l : List (Option Int)} {m : Nat} {t : ℚ} : (exact l)[m]? = some (some t) ↔ ∃ x : Int, l[m]? = some (some x) ∧ (x : ℚ) = t := by
  rw [exact_get]
  cases h : l[m]? with
  | none => simp
  | some o => cases o <;> simp

theorem exact_none {l : List (Option Int)} {m : Nat} : (exact l)[m]? = some none ↔ l[m]? = some none := by
  rw [exact_get]
  cases h : l[m]? with
  | none => simp
  | some o => cases o <;> simp

theorem exact_length (l : List (Option Int)) : (exact l).length = l.length := by simp [exact]

theorem fillStamps_exact (col : List (Option Int)) (a : Nat) (s : Int) (b : Nat) (t : Int) :
    exact (fillStamps col a s b t) = fillWith stampQ (exact col) a s b t := by
  apply List.ext_getElem?
  intro m
  have h := foldl_set_get (fun j => some (stamp a b s t j)) (List.range' (a + 1) (b - (a + 1))) col m
  have h' : (fillStamps col a s b t)[m]? = if m ∈ List.range' (a + 1) (b - (a + 1)) ∧ m < col.length then some (some (stamp a b s t m))
      else col[m]? := h
  rw [exact_get, h', fillWith_get, exact_length, exact_get]
  have : (m ∈ List.range' (a + 1) (b - (a + 1)) ∧ m < col.length) ↔ (a < m ∧ m < b ∧ m < col.length) := by
    rw [List.mem_range'_1]
    omega
  simp only [this]
  split_ifs
  · rw [stampQ_cast]; rfl
  · rfl

theorem stampLoop_exact (M : Int) (rest : List (Option Int)) (i : Nat) (last : Option (Int × Nat)) (col : List (Option Int)) :
    exact (stampLoop M i rest last col) =
      interpLoopF stampQ M i (exact rest) (last.map fun p => ((p.1 : ℚ), p.2)) (exact col) := by
  induction rest generalizing i last col with
  | nil => simp [stampLoop, interpLoopF, exact]
  | cons e rest ih =>
    cases e with
    | none =>
      simp only [stampLoop, ih]
      simp [exact, interpLoopF]
    | some dt =>
      cases last with
      | none =>
        simp only [stampLoop, ih]
        simp [exact, interpLoopF]
      | some p =>
        obtain ⟨lt, la⟩ := p
        have hc : |(dt : ℚ) - (lt : ℚ)| > (M : ℚ) ↔ |dt - lt| > M := by
          rw [gt_iff_lt, gt_iff_lt, ← Int.cast_lt (R := ℚ)]
          push_cast
          rfl
        simp only [stampLoop]
        rw [show exact (some dt :: rest) = some (dt : ℚ) :: exact rest from rfl]
        simp only [Option.map_some, interpLoopF, hc]
        split_ifs with h
        · rw [ih]; rfl
        · rw [ih, fillStamps_exact]; rfl

theorem stamps_inv {l : List (Option Int)} (M : Int) (hc : Chronological (exact l)) :
    ∃ last, Inv (exact l) (M : ℚ) l.length last (exact (interpolateStamps M l)) stampQ := by
  have h0 : Inv (exact l) (M : ℚ) 0 none (exact l) stampQ := by
    refine ⟨rfl, fun _ _ h => h, by intros; omega, by simp, ?_, by intros; omega⟩
    intro j v h1 h2
    rw [h1] at h2; simp at h2
  obtain ⟨last, hl⟩ := interpLoopF_inv hc (exact l) 0 none (exact l) (by simp) h0
  refine ⟨last, ?_⟩
  rw [interpolateStamps, stampLoop_exact]
  simpa [exact_length] using hl

theorem gap_unique {l : List (Option ℚ)} {a b a' b' j : Nat} {s t s' t' : ℚ} (h : Gap l a b s t) (h' : Gap l a' b' s' t')
    (h1 : a < j) (h2 : j < b) (h3 : a' < j) (h4 : j < b') : a' = a ∧ b' = b ∧ s' = s ∧ t' = t := by
  have ha : a' = a := by
    rcases lt_trichotomy a' a with hlt | heq | hgt
    · have := h'.2.2.2 a hlt (by omega)
      rw [h.2.1] at this; simp at this
    · exact heq
    · have := h.2.2.2 a' hgt (by omega)
      rw [h'.2.1] at this; simp at this
  have hb : b' = b := by
    rcases lt_trichotomy b' b with hlt | heq | hgt
    · have := h.2.2.2 b' (by omega) hlt
      rw [h'.2.2.1] at this; simp at this
    · exact heq
    · have := h'.2.2.2 b (by omega) hgt
      rw [h.2.2.1] at this; simp at this
  subst ha hb
  have e1 := h.2.1
  rw [h'.2.1] at e1
  have e2 := h.2.2.1
  rw [h'.2.2.1] at e2
  simp only [Option.some.injEq] at e1 e2
  exact ⟨rfl, rfl, e1, e2⟩

theorem part_mem {a b j : Nat} (h1 : a < j) (h2 : j < b) :
    0 < ((j : ℚ) - a) / ((b : ℚ) - a) ∧ ((j : ℚ) - a) / ((b : ℚ) - a) < 1 := by
  have e1 : (a : ℚ) < j := by exact_mod_cast h1
  have e2 : (j : ℚ) < b := by exact_mod_cast h2
  refine ⟨div_pos (by linarith) (by linarith), ?_⟩
  rw [div_lt_one (by linarith)]
  linarith

theorem fl_part {x : ℚ} (h0 : 0 ≤ x) (h1 : x ≤ 1) : 0 ≤ fl x ∧ fl x ≤ 1 := by
  refine ⟨fl_nonneg h0, ?_⟩
  have := fl_mono h1
  have h : fl (1 : ℚ) = 1 := by decide +kernel
  rwa [h] at this

theorem stamp_between {a b j : Nat} {s t : Int} (h1 : a < j) (h2 : j < b) (hst : s ≤ t) : s ≤ stamp a b s t j ∧ stamp a b s t j ≤ t := by
  obtain ⟨p0, p1⟩ := part_mem h1 h2
  obtain ⟨q0, q1⟩ := fl_part p0.le p1.le
  have hd : (0 : ℚ) ≤ ((t - s : Int) : ℚ) := by exact_mod_cast sub_nonneg.2 hst
  unfold stamp
  have m1 := pyRound_mono (mul_nonneg q0 hd)
  have m2 := pyRound_mono (mul_le_of_le_one_left hd q1)
  rw [pyRound_int] at m2
  have : pyRound (0 : ℚ) = 0 := by exact_mod_cast pyRound_int (K := ℚ) 0
  rw [this] at m1
  constructor <;> linarith

theorem stamp_mono {a b i j : Nat} {s t : Int} (h1 : a < i) (h2 : i ≤ j) (h3 : j < b) (hst : s ≤ t) : stamp a b s t i ≤ stamp a b s t j := by
  have hd : (0 : ℚ) ≤ ((t - s : Int) : ℚ) := by exact_mod_cast sub_nonneg.2 hst
  unfold stamp
  have hb : (0 : ℚ) < (b : ℚ) - a := by
    have : (a : ℚ) < b := by exact_mod_cast (by omega : a < b)
    linarith
  have : pyRound (fl (((i : ℚ) - a) / ((b : ℚ) - a)) * ((t - s : Int) : ℚ)) ≤
      pyRound (fl (((j : ℚ) - a) / ((b : ℚ) - a)) * ((t - s : Int) : ℚ)) := by
    apply pyRound_mono
    apply mul_le_mul_of_nonneg_right _ hd
    apply fl_mono
    apply div_le_div_of_nonneg_right _ hb.le
    have : (i : ℚ) ≤ j := by exact_mod_cast h2
    linarith
  linarith

theorem product_close {a b j : Nat} {s t : ℚ} (h1 : a < j) (h2 : j < b) (hst : s ≤ t) :
    |fl (((j : ℚ) - a) / ((b : ℚ) - a)) * (t - s) - ((j : ℚ) - a) / ((b : ℚ) - a) * (t - s)| ≤ 2 ^ (-53 : ℤ) * (t - s) := by
  obtain ⟨p0, p1⟩ := part_mem h1 h2
  have he := fl_error (((j : ℚ) - a) / ((b : ℚ) - a))
  rw [abs_of_pos p0] at he
  rw [← sub_mul, abs_mul, abs_of_nonneg (sub_nonneg.2 hst)]
  apply mul_le_mul_of_nonneg_right _ (sub_nonneg.2 hst)
  refine he.trans (mul_le_of_le_one_right (by positivity) p1.le)

theorem stampQ_close {a b j : Nat} {s t : ℚ} (h1 : a < j) (h2 : j < b) (hst : s ≤ t) :
    |stampQ a b s t j - affine a b s t j| ≤ 1 / 2 + 2 ^ (-53 : ℤ) * (t - s) := by
  have h := product_close h1 h2 hst
  unfold stampQ affine
  have hr := pyRound_spec (fl (((j : ℚ) - a) / ((b : ℚ) - a)) * (t - s))
  rw [abs_le] at h ⊢
  constructor <;> linarith [h.1, h.2, hr.1, hr.2]

theorem round_near {r : ℚ} {m : ℤ} (h : |r - m| < 1 / 2) : pyRound r = m := by
  have h1 := pyRound_spec r
  have h2 := abs_lt.1 h
  have a : ((pyRound r : ℤ) : ℚ) < ((m + 1 : ℤ) : ℚ) := by push_cast; linarith
  have b : ((m - 1 : ℤ) : ℚ) < ((pyRound r : ℤ) : ℚ) := by push_cast; linarith
  have a' := Int.cast_lt.1 a
  have b' := Int.cast_lt.1 b
  omega

/-- **C180.** `FillLocalImputator` fills the same time stamps with python's arithmetic as with exact arithmetic, given time stamps are
kept, and filled ones are the exact ones up to half a microsecond and `2^-53` of the longest gap filled. If the exact time stamp is a
whole number of microseconds (and the longest gap shorter than `2^52` microseconds, which is 142 years) it is reproduced. -/
theorem C180_stamps {l : List (Option Int)} {M : Int} (h0 : 0 ≤ M) (hc : Chronological (exact l)) :
    (interpolateStamps M l).length = l.length ∧
    (∀ (j : Nat) (t : Int), l[j]? = some (some t) → (interpolateStamps M l)[j]? = some (some t)) ∧
    (∀ j : Nat, (interpolateStamps M l)[j]? = some none ↔ (interpolateDatetime M (exact l))[j]? = some none) ∧
    ∀ (j : Nat) (x : Int) (y : ℚ), (interpolateStamps M l)[j]? = some (some x) → (interpolateDatetime M (exact l))[j]? = some (some y) →
      |(x : ℚ) - y| ≤ 1 / 2 + 2 ^ (-53 : ℤ) * M ∧ (M < 2 ^ 52 → ∀ z : Int, y = z → x = z) := by
  obtain ⟨last, hI⟩ := stamps_inv M hc
  obtain ⟨last', hE⟩ := interpolateDatetime_inv (M : ℚ) hc
  have hlen : (interpolateStamps M l).length = l.length := by
    have := hI.len
    rwa [exact_length, exact_length] at this
  have hlen' : (interpolateDatetime (M : ℚ) (exact l)).length = l.length := by
    have := hE.len
    rwa [exact_length] at this
  have hpres : ∀ (j : Nat) (t : Int), l[j]? = some (some t) → (interpolateStamps M l)[j]? = some (some t) := by
    intro j t h
    obtain ⟨x, h1, h2⟩ := exact_some.1 (hI.pres j (t : ℚ) (exact_some.2 ⟨t, h, rfl⟩))
    rw [h1, Int.cast_inj.1 h2]
  have hgl : ∀ a b s t, Gap (exact l) a b s t → b < l.length := by
    intro a b s t hg
    have := (List.getElem?_eq_some_iff.1 hg.2.2.1).1
    rwa [exact_length] at this
  refine ⟨hlen, hpres, ?_, ?_⟩
  · intro j
    cases hj : l[j]? with
    | none =>
      rw [List.getElem?_eq_none_iff] at hj
      rw [List.getElem?_eq_none (by omega), List.getElem?_eq_none (by omega)]
      simp
    | some o =>
      cases o with
      | some t =>
        rw [hpres j t hj, hE.pres j (t : ℚ) (exact_some.2 ⟨t, hj, rfl⟩)]
        simp
      | none =>
        have hjl := (List.getElem?_eq_some_iff.1 hj).1
        constructor
        · intro h
          cases hy : (interpolateDatetime (M : ℚ) (exact l))[j]? with
          | none => rw [List.getElem?_eq_none_iff] at hy; omega
          | some o =>
            cases o with
            | none => rfl
            | some v =>
              obtain ⟨a, b, s, t, h1, h2, -, hg, hL, -⟩ := hE.new j v (exact_none.2 hj) hy
              have := hI.done a b s t hg (hgl _ _ _ _ hg) hL j h1 h2
              rw [exact_none.2 h] at this
              simp at this
        · intro h
          cases hy : (interpolateStamps M l)[j]? with
          | none => rw [List.getElem?_eq_none_iff] at hy; omega
          | some o =>
            cases o with
            | none => rfl
            | some v =>
              obtain ⟨a, b, s, t, h1, h2, -, hg, hL, -⟩ := hI.new j v (exact_none.2 hj) (exact_some.2 ⟨v, hy, rfl⟩)
              have := hE.done a b s t hg (by rw [exact_length]; exact hgl _ _ _ _ hg) hL j h1 h2
              rw [h] at this
              simp at this
  · intro j x y hx hy
    have hjl : j < l.length := by
      have := (List.getElem?_eq_some_iff.1 hx).1
      omega
    cases hj : l[j]? with
    | none => rw [List.getElem?_eq_none_iff] at hj; omega
    | some o =>
      cases o with
      | some t =>
        have e1 := hpres j t hj
        rw [hx] at e1
        have e2 := hE.pres j (t : ℚ) (exact_some.2 ⟨t, hj, rfl⟩)
        rw [hy] at e2
        simp only [Option.some.injEq] at e1 e2
        subst e1 e2
        refine ⟨?_, fun _ z hz => Int.cast_inj.1 hz⟩
        rw [sub_self, abs_zero]
        have : (0 : ℚ) ≤ M := by exact_mod_cast h0
        positivity
      | none =>
        obtain ⟨a, b, s, t, h1, h2, h3, hg, hL, hv⟩ := hI.new j x (exact_none.2 hj) (exact_some.2 ⟨x, hx, rfl⟩)
        have hv' := hE.done a b s t hg (by rw [exact_length]; exact h3) hL j h1 h2
        rw [hy] at hv'
        simp only [Option.some.injEq] at hv'
        have hst := hc a b s t hg.1 hg.2.1 hg.2.2.1
        have hM := hL a b s t hg le_rfl
        have hp : (0 : ℚ) < 2 ^ (-53 : ℤ) := by positivity
        refine ⟨?_, ?_⟩
        · rw [hv, hv']
          refine (stampQ_close h1 h2 hst).trans ?_
          have := mul_le_mul_of_nonneg_left hM hp.le
          linarith
        · intro hM' z hz
          obtain ⟨s', hs', rfl⟩ := exact_some.1 hg.2.1
          obtain ⟨t', ht', rfl⟩ := exact_some.1 hg.2.2.1
          have hzz : ((j : ℚ) - a) / ((b : ℚ) - a) * ((t' : ℚ) - s') = ((z - s' : Int) : ℚ) := by
            rw [hz] at hv'
            unfold affine at hv'
            push_cast
            linarith
          have hcl := product_close h1 h2 hst
          rw [hzz] at hcl
          have hlt : |fl (((j : ℚ) - a) / ((b : ℚ) - a)) * ((t' : ℚ) - s') - ((z - s' : Int) : ℚ)| < 1 / 2 := by
            refine lt_of_le_of_lt hcl ?_
            have h52 : (t' : ℚ) - s' < 2 ^ 52 := lt_of_le_of_lt hM (by exact_mod_cast hM')
            calc (2 : ℚ) ^ (-53 : ℤ) * (t' - s') < 2 ^ (-53 : ℤ) * 2 ^ 52 := mul_lt_mul_of_pos_left h52 hp
              _ = 1 / 2 := by norm_num
          have hr := round_near hlt
          have : (x : ℚ) = z := by
            rw [hv]
            unfold stampQ
            rw [hr]
            push_cast
            ring
          exact Int.cast_inj.1 this

/-- Three rows between 12:00:00 and 12:00:00.000100. -/
example : interpolateStamps 120000000 [some 0, none, none, some 100] = [some 0, some 33, some 67, some 100] ∧
    interpolateDatetime 120000000 [some 0, none, none, some 100] = [some 0, some (100 / 3), some (200 / 3), some 100] := by
  decide +kernel

theorem chronological_of {l : List (Option Int)} (h : (l.filterMap id).Pairwise (· ≤ ·)) : Chronological (exact l) := by
  intro i j s t hij hs ht
  obtain ⟨x, hx, rfl⟩ := exact_some.1 hs
  obtain ⟨y, hy, rfl⟩ := exact_some.1 ht
  rw [List.pairwise_filterMap, List.pairwise_iff_getElem] at h
  obtain ⟨hi, hx'⟩ := List.getElem?_eq_some_iff.1 hx
  obtain ⟨hj, hy'⟩ := List.getElem?_eq_some_iff.1 hy
  have := h i j hi hj hij x (by rw [hx']; rfl) y (by rw [hy']; rfl)
  exact_mod_cast this

example : |((33 : Int) : ℚ) - 100 / 3| ≤ 1 / 2 + 2 ^ (-53 : ℤ) * ((120000000 : Int) : ℚ) :=
  ((C180_stamps (l := [some 0, none, none, some 100]) (M := 120000000) (by norm_num) (chronological_of (by decide +kernel))).2.2.2
    1 33 (100 / 3) (by decide +kernel) (by decide +kernel)).1

/-- **C180.** Different exact time stamps may be rounded to the same microsecond: five rows in one microsecond have only two different
time stamps. -/
theorem C180_equal_matters : interpolateStamps 120000000 [some 0, none, none, none, some 1] = [some 0, some 0, some 0, some 1, some 1] ∧
    (interpolateDatetime 120000000 [some 0, none, none, none, some 1]).Nodup := by
  decide +kernel

/-- **C180.** Filled time stamps lie between the given time stamps around them, and the filled column is in chronological order. -/
theorem C180_order {l : List (Option Int)} {M : Int} (hc : Chronological (exact l)) :
    Chronological (exact (interpolateStamps M l)) ∧
    ∀ (j : Nat) (x : Int), l[j]? = some none → (interpolateStamps M l)[j]? = some (some x) →
      ∃ a b s t, a < j ∧ j < b ∧ l[a]? = some (some s) ∧ l[b]? = some (some t) ∧ s ≤ x ∧ x ≤ t ∧ t - s ≤ M := by
  obtain ⟨last, hI⟩ := stamps_inv M hc
  have hnew : ∀ (j : Nat) (x : Int), l[j]? = some none → (interpolateStamps M l)[j]? = some (some x) →
      ∃ a b s t, a < j ∧ j < b ∧ Gap (exact l) a b (s : Int) (t : Int) ∧ l[a]? = some (some s) ∧ l[b]? = some (some t) ∧
        x = stamp a b s t j ∧ s ≤ t ∧ t - s ≤ M := by
    intro j x hj hx
    obtain ⟨a, b, s, t, h1, h2, -, hg, hL, hv⟩ := hI.new j x (exact_none.2 hj) (exact_some.2 ⟨x, hx, rfl⟩)
    obtain ⟨s', hs', rfl⟩ := exact_some.1 hg.2.1
    obtain ⟨t', ht', rfl⟩ := exact_some.1 hg.2.2.1
    refine ⟨a, b, s', t', h1, h2, hg, hs', ht', ?_, ?_, ?_⟩
    · rw [stampQ_cast] at hv
      exact Int.cast_inj.1 hv
    · have := hc a b _ _ hg.1 hg.2.1 hg.2.2.1
      exact_mod_cast this
    · have := hL a b _ _ hg le_rfl
      exact_mod_cast this
  constructor
  · intro i j s t hij hs ht
    obtain ⟨x, hx, rfl⟩ := exact_some.1 hs
    obtain ⟨y, hy, rfl⟩ := exact_some.1 ht
    have hlen : (interpolateStamps M l).length = l.length := by
      have := hI.len
      rwa [exact_length, exact_length] at this
    have kind : ∀ (m : Nat) (z : Int), (interpolateStamps M l)[m]? = some (some z) → l[m]? = some (some z) ∨ l[m]? = some none := by
      intro m z hz
      have hm := (List.getElem?_eq_some_iff.1 hz).1
      cases hl : l[m]? with
      | none => rw [List.getElem?_eq_none_iff] at hl; omega
      | some o =>
        cases o with
        | none => right; rfl
        | some t =>
          left
          obtain ⟨x, h1, h2⟩ := exact_some.1 (hI.pres m (t : ℚ) (exact_some.2 ⟨t, hl, rfl⟩))
          rw [hz] at h1
          simp only [Option.some.injEq] at h1
          rw [h1, Int.cast_inj.1 h2]
    have given : ∀ (m k : Nat) (u v : Int), m ≤ k → l[m]? = some (some u) → l[k]? = some (some v) → u ≤ v := by
      intro m k u v hmk hu hv
      rcases Nat.lt_or_eq_of_le hmk with h | rfl
      · have := hc m k u v h (exact_some.2 ⟨u, hu, rfl⟩) (exact_some.2 ⟨v, hv, rfl⟩)
        exact_mod_cast this
      · rw [hu] at hv
        simp only [Option.some.injEq] at hv
        exact hv.le
    have goal : x ≤ y := by
      rcases kind i x hx with hi | hi <;> rcases kind j y hy with hj | hj
      · exact given i j x y hij.le hi hj
      · obtain ⟨a, b, s, t, h1, h2, hg, ha, hb, rfl, hst, -⟩ := hnew j y hj hy
        have hia : i ≤ a := by
          by_contra hn
          have := hg.2.2.2 i (by omega) (by omega)
          rw [exact_none, hi] at this
          simp at this
        exact (given i a x s hia hi ha).trans (stamp_between h1 h2 hst).1
      · obtain ⟨a, b, s, t, h1, h2, hg, ha, hb, rfl, hst, -⟩ := hnew i x hi hx
        have hbj : b ≤ j := by
          by_contra hn
          have := hg.2.2.2 j (by omega) (by omega)
          rw [exact_none, hj] at this
          simp at this
        exact (stamp_between h1 h2 hst).2.trans (given b j t y hbj hb hj)
      · obtain ⟨a, b, s, t, h1, h2, hg, ha, hb, rfl, hst, -⟩ := hnew i x hi hx
        obtain ⟨a', b', s', t', h1', h2', hg', ha', hb', rfl, hst', -⟩ := hnew j y hj hy
        rcases Nat.lt_or_ge j b with hjb | hjb
        · obtain ⟨rfl, rfl, e1, e2⟩ := gap_unique hg hg' (by omega) hjb h1' h2'
          rw [Int.cast_inj.1 e1, Int.cast_inj.1 e2]
          exact stamp_mono h1 hij.le hjb hst
        · have hba : b ≤ a' := by
            by_contra hn
            have hne : b ≠ j := by
              rintro rfl
              rw [hb] at hj
              simp at hj
            have := hg'.2.2.2 b (by omega) (by omega)
            rw [exact_none, hb] at this
            simp at this
          exact (stamp_between h1 h2 hst).2.trans ((given b a' t s' hba hb ha').trans (stamp_between h1' h2' hst').1)
    exact_mod_cast goal
  · intro j x hj hx
    obtain ⟨a, b, s, t, h1, h2, -, h3, h4, rfl, h5, h6⟩ := hnew j x hj hx
    exact ⟨a, b, s, t, h1, h2, h3, h4, (stamp_between h1 h2 h5).1, (stamp_between h1 h2 h5).2, h6⟩

/-- Filling a filled column changes nothing. -/
theorem refill {l : List (Option Int)} {M : Int} (hc : Chronological (exact l)) :
    interpolateDatetime (M : ℚ) (exact (interpolateStamps M l)) = exact (interpolateStamps M l) := by
  obtain ⟨last, hI⟩ := stamps_inv M hc
  have hc' := (C180_order (M := M) hc).1
  obtain ⟨last', hE⟩ := interpolateDatetime_inv (M : ℚ) hc'
  have hlen : (exact (interpolateStamps M l)).length = (exact l).length := hI.len
  -- gaps that are not filled are gaps of the filled column
  have keep : ∀ a b s t, Gap (exact l) a b s t → (b = a + 1 ∨ ¬ Linked (exact l) (M : ℚ) b) →
      Gap (exact (interpolateStamps M l)) a b s t := by
    intro a b s t hg hu
    refine ⟨hg.1, hI.pres _ _ hg.2.1, hI.pres _ _ hg.2.2.1, fun m h1 h2 => ?_⟩
    rcases hu with rfl | hu
    · omega
    cases hm : (exact (interpolateStamps M l))[m]? with
    | none =>
      rw [List.getElem?_eq_none_iff] at hm
      have := (List.getElem?_eq_some_iff.1 hg.2.2.1).1
      omega
    | some o =>
      cases o with
      | none => rfl
      | some v =>
        obtain ⟨a', b', s', t', h1', h2', -, hg', hL, -⟩ := hI.new m v (hg.2.2.2 m h1 h2) hm
        obtain ⟨rfl, rfl, -, -⟩ := gap_unique hg hg' h1 h2 h1' h2'
        exact absurd hL hu
  apply List.ext_getElem?
  intro j
  cases hj : (exact (interpolateStamps M l))[j]? with
  | none =>
    rw [List.getElem?_eq_none_iff] at hj ⊢
    rw [hE.len]
    exact hj
  | some o =>
    cases o with
    | some t => exact hE.pres j t hj
    | none =>
      have hjl := (List.getElem?_eq_some_iff.1 hj).1
      cases hy : (interpolateDatetime (M : ℚ) (exact (interpolateStamps M l)))[j]? with
      | none =>
        rw [List.getElem?_eq_none_iff, hE.len] at hy
        omega
      | some o =>
        cases o with
        | none => rfl
        | some v =>
          exfalso
          obtain ⟨a, b, s, t, h1, h2, -, hg, hL, -⟩ := hE.new j v hj hy
          -- `j` is missing in the given column, too
          have hl : (exact l)[j]? = some none := by
            cases h : (exact l)[j]? with
            | none => rw [List.getElem?_eq_none_iff] at h; omega
            | some o =>
              cases o with
              | none => rfl
              | some t =>
                have := hI.pres j t h
                rw [hj] at this
                simp at this
          -- the given time stamps around `j`
          obtain ⟨a₀, b₀, s₀, t₀, hg₀, g1, g2⟩ : ∃ a₀ b₀ s₀ t₀, Gap (exact l) a₀ b₀ s₀ t₀ ∧ a₀ < j ∧ j < b₀ := by
            have back : ∀ (m : Nat) (u : ℚ), (exact (interpolateStamps M l))[m]? = some (some u) →
                (exact l)[m]? = some (some u) ∨ (exact l)[m]? = some none := by
              intro m u hu
              have hm := (List.getElem?_eq_some_iff.1 hu).1
              cases h : (exact l)[m]? with
              | none => rw [List.getElem?_eq_none_iff] at h; omega
              | some o =>
                cases o with
                | none => right; rfl
                | some w =>
                  left
                  have := hI.pres m w h
                  rw [hu] at this
                  exact this.symm
            have inner : ∀ m, a < m → m < b → ∀ u, (exact l)[m]? ≠ some (some u) := by
              intro m k1 k2 u hu
              have := hI.pres m u hu
              rw [hg.2.2.2 m k1 k2] at this
              simp at this
            have miss : ∀ m, a < m → m < b → (exact l)[m]? = some none := by
              intro m k1 k2
              have hb := (List.getElem?_eq_some_iff.1 hg.2.2.1).1
              cases h : (exact l)[m]? with
              | none => rw [List.getElem?_eq_none_iff] at h; omega
              | some o =>
                cases o with
                | none => rfl
                | some w => exact absurd h (inner m k1 k2 w)
            rcases back a s hg.2.1 with ha | ha
            · rcases back b t hg.2.2.1 with hb | hb
              · exact ⟨a, b, s, t, ⟨hg.1, ha, hb, miss⟩, h1, h2⟩
              · obtain ⟨a₁, b₁, s₁, t₁, k1, k2, -, hg₁, -, -⟩ := hI.new b t hb hg.2.2.1
                refine ⟨a₁, b₁, s₁, t₁, hg₁, ?_, by omega⟩
                by_contra hn
                rcases Nat.lt_or_eq_of_le (not_lt.1 hn) with h | h
                · exact inner a₁ (by omega) (by omega) s₁ hg₁.2.1
                · rw [h, hg₁.2.1] at hl
                  simp at hl
            · obtain ⟨a₁, b₁, s₁, t₁, k1, k2, -, hg₁, -, -⟩ := hI.new a s ha hg.2.1
              refine ⟨a₁, b₁, s₁, t₁, hg₁, by omega, ?_⟩
              by_contra hn
              exact inner b₁ (by omega) (by omega) t₁ hg₁.2.2.1
          have hnl : ¬ Linked (exact l) (M : ℚ) b₀ := by
            intro hL₀
            have hb := (List.getElem?_eq_some_iff.1 hg₀.2.2.1).1
            rw [exact_length] at hb
            have := hI.done a₀ b₀ s₀ t₀ hg₀ hb hL₀ j g1 g2
            rw [hj] at this
            simp at this
          obtain ⟨rfl, rfl, -, -⟩ := gap_unique (keep _ _ _ _ hg₀ (Or.inr hnl)) hg g1 g2 h1 h2
          unfold Linked at hnl
          push Not at hnl
          obtain ⟨a', b', s', t', hg', hb', hbig⟩ := hnl
          have : ¬ Linked (exact l) (M : ℚ) b' := fun h => absurd (h a' b' s' t' hg' le_rfl) (not_le.2 hbig)
          exact absurd (hL a' b' s' t' (keep _ _ _ _ hg' (Or.inr this)) hb') (not_le.2 hbig)

section
variable {κ V : Type}

theorem exact_nonempty (l : List (Option Int)) : (exact l).all Option.isNone = l.all Option.isNone := by
  induction l with
  | nil => rfl
  | cons o l ih =>
    simp only [exact, List.map_cons, List.all_cons, Option.isNone_map] at ih ⊢
    rw [ih]

theorem indices_exact (s : Nat) (l : List (Option Int)) : indicesFrom Option.isNone s (exact l) = indicesFrom Option.isNone s l := by
  induction l generalizing s with
  | nil => rfl
  | cons o l ih =>
    have := ih (s + 1)
    simp only [exact, List.map_cons, indicesFrom, Option.isNone_map] at this ⊢
    rw [this]

theorem dropIdx_map {α β : Type} (f : α → β) (idx : List Int) (s : Nat) (l : List α) :
    Data.dropIdx idx s (l.map f) = (Data.dropIdx idx s l).map f := by
  induction l generalizing s with
  | nil => rfl
  | cons x l ih =>
    simp only [List.map_cons, Data.dropIdx]
    split_ifs
    · exact ih _
    · rw [List.map_cons, ih]

theorem filterMap_exact (l : List (Option Int)) : (exact l).filterMap id = (l.filterMap id).map fun t : Int => (t : ℚ) := by
  induction l with
  | nil => rfl
  | cons o l ih =>
    cases o <;> simp [exact] at ih ⊢ <;> exact ih

/-- **C180.** Apart from the filled time stamps and from `mu`, which is rounded to a double, python's arithmetic gives the result of
exact arithmetic. Hence all that is known about the rows and values of the result (C24) holds with rounding, too. -/
theorem C180_exact (f : Fills κ V) (M : Int) {times : List (Option Int)} (cols : Dict κ (List (Option V)))
    (hc : Chronological (exact times)) :
    (impute f M times cols).map (fun r => ((⟨r.1.1.map fun t : Int => (t : ℚ), r.1.2⟩ : Imputator.Result κ V), r.2)) =
      Imputator.impute (rounded f) M ⟨exact (interpolateStamps M times), cols⟩ := by
  have hall : (exact (interpolateStamps M times)).all Option.isNone = times.all Option.isNone := by
    obtain ⟨last, hI⟩ := stamps_inv M hc
    rw [Bool.eq_iff_iff, List.all_eq_true, List.all_eq_true]
    constructor
    · intro h o ho
      cases o with
      | none => rfl
      | some t =>
        obtain ⟨j, hj⟩ := List.mem_iff_getElem?.1 ho
        have := h _ (List.mem_of_getElem? (hI.pres j (t : ℚ) (exact_some.2 ⟨t, hj, rfl⟩)))
        simp at this
    · intro h o ho
      cases o with
      | none => rfl
      | some v =>
        exfalso
        obtain ⟨j, hj⟩ := List.mem_iff_getElem?.1 ho
        have hjl := (List.getElem?_eq_some_iff.1 hj).1
        have hlen := hI.len
        cases hx : times[j]? with
        | none =>
          rw [List.getElem?_eq_none_iff] at hx
          rw [hlen, exact_length] at hjl
          omega
        | some o =>
          cases o with
          | some t =>
            have := h _ (List.mem_of_getElem? hx)
            simp at this
          | none =>
            obtain ⟨a, b, s, t, -, -, -, hg, -, -⟩ := hI.new j v (exact_none.2 hx) hj
            obtain ⟨s', hs', -⟩ := exact_some.1 hg.2.1
            have := h _ (List.mem_of_getElem? hs')
            simp at this
  unfold impute Imputator.impute
  simp only [hall, refill hc, indices_exact]
  by_cases h : times.all Option.isNone = true
  · simp only [h, if_true, Except.map]
  · simp only [h, Bool.false_eq_true, if_false, Except.map]
    have hd : ∀ idx : List Int, Data.dropIdx idx 0 (exact (interpolateStamps M times)) =
        exact (Data.dropIdx idx 0 (interpolateStamps M times)) := fun idx => dropIdx_map _ _ _ _
    simp only [hd, filterMap_exact, List.length_map, dropIdx_map]

theorem dropIdx_sublist {α : Type} (idx : List Int) (s : Nat) (l : List α) : (Data.dropIdx idx s l).Sublist l := by
  induction l generalizing s with
  | nil => exact List.Sublist.refl _
  | cons x l ih =>
    simp only [Data.dropIdx]
    split_ifs
    · exact (ih _).cons _
    · exact (ih _).cons_cons _

theorem chronological_pairwise {l : List (Option Int)} (h : Chronological (exact l)) : (l.filterMap id).Pairwise (· ≤ ·) := by
  rw [List.pairwise_filterMap]
  refine List.pairwise_iff_getElem.2 fun i j hi hj hij s hs t ht => ?_
  have := h i j s t hij (exact_some.2 ⟨s, by rw [List.getElem?_eq_getElem hi]; exact congrArg some hs, rfl⟩)
    (exact_some.2 ⟨t, by rw [List.getElem?_eq_getElem hj]; exact congrArg some ht, rfl⟩)
  exact_mod_cast this

theorem dropIdx_length {α β : Type} (idx : List Int) (s : Nat) (l : List α) (l' : List β) (h : l.length = l'.length) :
    (Data.dropIdx idx s l).length = (Data.dropIdx idx s l').length := by
  induction l generalizing s l' with
  | nil =>
    cases l' with
    | nil => rfl
    | cons y l' => simp at h
  | cons x l ih =>
    cases l' with
    | nil => simp at h
    | cons y l' =>
      simp only [List.length_cons, Nat.add_right_cancel_iff] at h
      simp only [Data.dropIdx]
      split_ifs
      · exact ih _ _ h
      · rw [List.length_cons, List.length_cons, ih _ _ h]

/-- Fill functions which agree for all relative positions from 0 to 1. -/
def Agree (f f' : Fills κ V) : Prop :=
  ∀ mu, 0 ≤ mu → mu ≤ 1 → ∀ k v, f.before k v mu = f'.before k v mu ∧ f.after k v mu = f'.after k v mu ∧
    ∀ w, f.between k v w mu = f'.between k v w mu

theorem fillEntry_agree {f f' : Fills κ V} (h : Agree f f') {M : ℚ} {times : List ℚ} (hs : times.Pairwise (· ≤ ·)) {idx : List Nat}
    (hidx : ∀ j ∈ idx, j < times.length) (key : κ) (col : List (Option V)) {i : Nat} (hi : i < times.length) :
    fillEntry (rounded f) M times idx key col i = fillEntry (rounded f') M times idx key col i := by
  have mono : ∀ a b, a ≤ b → b < times.length → times.getD a 0 ≤ times.getD b 0 := by
    intro a b hab hb
    rw [List.getD_eq_getElem?_getD, List.getD_eq_getElem?_getD, List.getElem?_eq_getElem (by omega), List.getElem?_eq_getElem hb]
    simp only [Option.getD_some]
    rcases Nat.lt_or_eq_of_le hab with h | rfl
    · exact List.pairwise_iff_getElem.1 hs a b (by omega) hb h
    · exact le_rfl
  have part : ∀ x y : ℚ, 0 ≤ x → x < y → 0 ≤ fl (x / y) ∧ fl (x / y) ≤ 1 := by
    intro x y hx hy
    exact fl_part (div_nonneg hx (hx.trans hy.le)) ((div_le_one (lt_of_le_of_lt hx hy)).2 hy.le)
  have hstart : ∀ s, startIdx M times i idx = some s → s < i ∧ times.getD i 0 - times.getD s 0 < M := by
    intro s h
    have := (List.mem_filter.1 (List.max?_mem h)).2
    simpa using this
  have hend : ∀ e, endIdx M times i idx = some e → i < e ∧ e < times.length ∧ times.getD e 0 - times.getD i 0 < M := by
    intro e h
    have h1 := (List.mem_filter.1 (List.min?_mem h)).2
    have h2 := hidx e (endIdx_mem h)
    simp only [Bool.and_eq_true, decide_eq_true_eq] at h1
    exact ⟨h1.1, h2, h1.2⟩
  have hafter : ∀ s, startIdx M times i idx = some s → ∀ v, (rounded f).after key v ((times.getD i 0 - times.getD s 0) / M) =
      (rounded f').after key v ((times.getD i 0 - times.getD s 0) / M) := by
    intro s h' v
    obtain ⟨h1, h2⟩ := hstart s h'
    obtain ⟨p0, p1⟩ := part _ _ (sub_nonneg.2 (mono s i h1.le hi)) h2
    exact (h _ p0 p1 key v).2.1
  unfold fillEntry
  cases h1 : startIdx M times i idx with
  | none =>
    cases h2 : endIdx M times i idx with
    | none => rfl
    | some e =>
      obtain ⟨k1, k2, k3⟩ := hend e h2
      obtain ⟨p0, p1⟩ := part _ _ (sub_nonneg.2 (mono i e k1.le k2)) k3
      simp only [rounded]
      rw [show (fun v => f.before key v (fl ((times.getD e 0 - times.getD i 0) / M))) =
        fun v => f'.before key v (fl ((times.getD e 0 - times.getD i 0) / M)) from funext fun v => (h _ p0 p1 key v).1]
  | some s =>
    cases h2 : endIdx M times i idx with
    | none => simp only [hafter s h1]
    | some e =>
      obtain ⟨k1, k2, k3⟩ := hend e h2
      obtain ⟨k4, k5⟩ := hstart s h1
      simp only [hafter s h1]
      split_ifs with hbig hne
      · rfl
      · have a1 := mono s i k4.le hi
        have a2 := mono i e k1.le k2
        have hpos : 0 < times.getD e 0 - times.getD s 0 :=
          lt_of_le_of_ne (sub_nonneg.2 (a1.trans a2)) fun h0 => hne (by linarith)
        obtain ⟨p0, p1⟩ := fl_part (x := (times.getD i 0 - times.getD s 0) / (times.getD e 0 - times.getD s 0))
          (div_nonneg (by linarith) hpos.le) ((div_le_one hpos).2 (by linarith))
        simp only [rounded, (h _ p0 p1 key _).2.2]
      · obtain ⟨p0, p1⟩ := fl_part (x := 1) (by norm_num) le_rfl
        simp only [rounded, (h _ p0 p1 key _).2.2]

theorem fillCol_agree {f f' : Fills κ V} (h : Agree f f') {M : ℚ} {times : List ℚ} (hs : times.Pairwise (· ≤ ·)) (key : κ)
    {col : List (Option V)} (hl : col.length = times.length) :
    fillCol (rounded f) M times key col = fillCol (rounded f') M times key col := by
  have key' : ∀ (is : List Nat) (st : List (Option V) × Nat), (∀ i ∈ is, i < times.length) →
      fillLoop (rounded f) M times (indicesFrom Option.isSome 0 col) key is st =
        fillLoop (rounded f') M times (indicesFrom Option.isSome 0 col) key is st := by
    intro is
    induction is with
    | nil => intro st _; rfl
    | cons i is ih =>
      intro st hi
      have hrec := fun st => ih st fun j hj => hi j (List.mem_cons_of_mem _ hj)
      simp only [fillLoop]
      rw [fillEntry_agree h hs (fun j hj => by
        obtain ⟨x, hx, -⟩ := mem_indices.1 hj
        rw [← hl]
        exact (List.getElem?_eq_some_iff.1 hx).1) key st.1 (hi i List.mem_cons_self), hrec]
      split_ifs
      · rfl
      · cases fillEntry (rounded f') M times (indicesFrom Option.isSome 0 col) key st.1 i with
        | none => rfl
        | some v => exact hrec _
  exact key' _ _ fun i hi => by
    rw [← hl]
    exact List.mem_range.1 hi

theorem exact_drop_length {l : List (Option Int)} : ((Data.dropIdx ((indicesFrom Option.isNone 0 l).map Int.ofNat) 0 l).filterMap id).length =
    (Data.dropIdx ((indicesFrom Option.isNone 0 l).map Int.ofNat) 0 l).length := by
  have hall : ∀ o ∈ Data.dropIdx ((indicesFrom Option.isNone 0 l).map Int.ofNat) 0 l, o.isSome = true := by
    rw [dropIdx_eq_pick]
    intro o ho
    obtain ⟨j, hj⟩ := List.mem_iff_getElem?.1 ho
    rw [pick_get (fun k hk => List.mem_range.1 (List.mem_filter.1 hk).1)] at hj
    cases hk : ((List.range l.length).filter fun i => ! decide (i ∈ indicesFrom Option.isNone 0 l))[j]? with
    | none => rw [hk] at hj; simp at hj
    | some k =>
      rw [hk] at hj
      have hm := (List.mem_filter.1 (List.mem_of_getElem? hk)).2
      cases o with
      | some _ => rfl
      | none =>
        exfalso
        simp only [Bool.not_eq_true', decide_eq_false_iff_not] at hm
        exact hm (mem_indices.2 ⟨none, by simpa using hj, rfl⟩)
  generalize Data.dropIdx ((indicesFrom Option.isNone 0 l).map Int.ofNat) 0 l = m at hall
  induction m with
  | nil => rfl
  | cons o m ih =>
    have h1 := hall o List.mem_cons_self
    have h2 := ih fun o ho => hall o (List.mem_cons_of_mem _ ho)
    cases o with
    | none => simp at h1
    | some v =>
      rw [List.filterMap_cons]
      exact congrArg (· + 1) h2

/-- **C180.** The relative positions `mu` given to the fill functions are numbers from 0 to 1, also after rounding: fill functions which
agree for these give the same result. -/
theorem C180_positions {f f' : Fills κ V} (h : Agree f f') (M : Int) {times : List (Option Int)} {cols : Dict κ (List (Option V))}
    (hl : ∀ p ∈ cols, p.2.length = times.length) (hc : Chronological (exact times)) :
    impute f M times cols = impute f' M times cols := by
  have hc' := (C180_order (M := M) hc).1
  have hlen : (interpolateStamps M times).length = times.length := by
    obtain ⟨last, hI⟩ := stamps_inv M hc
    have := hI.len
    rwa [exact_length, exact_length] at this
  unfold impute
  simp only
  split_ifs
  · rfl
  · have hfill : (Dict.mapVals (Data.dropIdx (List.map Int.ofNat (indicesFrom Option.isNone 0 (interpolateStamps M times))) 0)
        (Dict.filterItems (fun _ v => ! v.all Option.isNone) cols)).map (fun p => (p.1, fillCol (rounded f) (M : ℚ)
          (((Data.dropIdx (List.map Int.ofNat (indicesFrom Option.isNone 0 (interpolateStamps M times))) 0
            (interpolateStamps M times)).filterMap id).map (fun (t : Int) => (t : ℚ))) p.1 p.2)) =
        (Dict.mapVals (Data.dropIdx (List.map Int.ofNat (indicesFrom Option.isNone 0 (interpolateStamps M times))) 0)
        (Dict.filterItems (fun _ v => ! v.all Option.isNone) cols)).map (fun p => (p.1, fillCol (rounded f') (M : ℚ)
          (((Data.dropIdx (List.map Int.ofNat (indicesFrom Option.isNone 0 (interpolateStamps M times))) 0
            (interpolateStamps M times)).filterMap id).map (fun (t : Int) => (t : ℚ))) p.1 p.2)) := by
      refine List.map_congr_left fun p hp => ?_
      rw [fillCol_agree h]
      · rw [List.pairwise_map]
        refine ((chronological_pairwise hc').sublist ((dropIdx_sublist _ _ _).filterMap _)).imp fun h => ?_
        exact_mod_cast h
      · obtain ⟨q, hq, rfl⟩ := List.mem_map.1 hp
        rw [List.length_map, exact_drop_length]
        apply dropIdx_length
        rw [hlen]
        exact hl q (List.mem_of_mem_filter hq)
    rw [hfill]

/-- **C180.** The result is in chronological order. It has the rows at some positions of the
given data, all rows are complete, given time stamps and values are kept, and complete rows are kept. -/
theorem C180_impute [DecidableEq κ] {f : Fills κ V} {M : Int} {times : List (Option Int)} {cols : Dict κ (List (Option V))}
    (hk : (Dict.keys cols).Nodup) (hl : ∀ p ∈ cols, p.2.length = times.length) (hc : Chronological (exact times))
    {ts : List Int} {cs : Dict κ (List (Option V))} {st : Stats} (h : impute f M times cols = .ok ((ts, cs), st)) :
    ts.Pairwise (· ≤ ·) ∧
    ∃ idx : List Nat, idx.Pairwise (· < ·) ∧ (∀ i ∈ idx, i < times.length) ∧ ts.length = idx.length ∧
      (∀ (j i : Nat) (t : Int), idx[j]? = some i → times[i]? = some (some t) → ts[j]? = some t) ∧
      (∀ key, key ∈ Dict.keys cs ↔ ∃ c, (key, c) ∈ cols ∧ HasValue c) ∧
      (∀ key c c', (key, c) ∈ cols → (key, c') ∈ cs → c'.length = idx.length ∧
        ∀ (j i : Nat), idx[j]? = some i → ∃ v, c'[j]? = some (some v) ∧ ∀ w, c[i]? = some (some w) → v = w) ∧
      (∀ i, (∃ t, times[i]? = some (some t)) →
        (∀ key c, (key, c) ∈ cols → HasValue c → ∃ v, c[i]? = some (some v)) → i ∈ idx) := by
  have hx := C180_exact f M cols hc
  rw [h] at hx
  simp only [Except.map] at hx
  obtain ⟨last, hI⟩ := stamps_inv M hc
  have hlen : (exact (interpolateStamps M times)).length = times.length := by
    have := hI.len
    rwa [exact_length times] at this
  have hT : IsTable (⟨exact (interpolateStamps M times), cols⟩ : Tab κ V) := ⟨hk, fun p hp => by rw [hl p hp, hlen]⟩
  have hc' := (C180_order (M := M) hc).1
  obtain ⟨idx, h1, h2, h3, h4, h5, h6, h7⟩ := C24_impute hT hc' hx.symm
  simp only [List.length_map, hlen] at h2 h3
  refine ⟨?_, idx, h1, h2, h3, ?_, h5, h6, ?_⟩
  · have hs := chronological_pairwise hc'
    unfold impute at h
    simp only at h
    split_ifs at h
    rw [Except.ok.injEq, Prod.mk.injEq, Prod.mk.injEq] at h
    rw [← h.1.1]
    exact hs.sublist ((dropIdx_sublist _ _ _).trans ((dropIdx_sublist _ _ _).filterMap _))
  · intro j i t hj hi
    have := h4 j i (t : ℚ) hj (hI.pres i (t : ℚ) (exact_some.2 ⟨t, hi, rfl⟩))
    simp only [List.getElem?_map, Option.map_eq_some_iff] at this
    obtain ⟨x, hx, hxt⟩ := this
    rw [hx, Int.cast_inj.1 hxt]
  · rintro i ⟨t, ht⟩ hi
    exact h7 i ⟨t, hI.pres i (t : ℚ) (exact_some.2 ⟨t, ht, rfl⟩)⟩ hi

/-- A table of four rows with a missing time stamp and missing values, which are filled affinely. -/
example : (impute (κ := String) (V := ℚ) ⟨fun _ r _ => some r, fun _ l r mu => some (l + mu * (r - l)), fun _ l _ => some l⟩ 120000000
    [some 0, none, some 6, some 9] [("a", [some 4, none, some 10, none]), ("b", [some 1, some 2, some 3, some 4])]).toOption.map
      (fun r => (r.1.1, (r.1.2.map Prod.snd : List (List (Option ℚ))), r.2)) =
    some ([0, 3, 6, 9], [[some 4, some 7, some 10, some 10], [some 1, some 2, some 3, some 4]], ⟨0, 0, 2, 4, 3⟩) := by
  decide +kernel

example : (Dict.keys [("a", [some (4 : ℚ), none, some 10, none]), ("b", [some 1, some 2, some 3, some 4])]).Nodup ∧
    (∀ p ∈ [("a", [some (4 : ℚ), none, some 10, none]), ("b", [some 1, some 2, some 3, some 4])], p.2.length =
      ([some 0, none, some 6, some 9] : List (Option Int)).length) ∧ Chronological (exact [some 0, none, some 6, some 9]) :=
  ⟨by decide, by decide, chronological_of (by decide +kernel)⟩

end

end Verif.Clock
