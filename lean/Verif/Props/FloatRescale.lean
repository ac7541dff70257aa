import Verif.Model.FloatRescale
import Verif.Props.FloatFilter
import Verif.Props.FloatText

/-!
# Property C184: the search for the scale of a spiral in double precision
-/

set_option linter.unusedSectionVars false

namespace Verif.F64

open FloatText (double_form)

section

variable {K : Type} [Field K] [LinearOrder K] [IsStrictOrderedRing K] [FloorRing K]

/-- Doubles from `2^(e+52)` on are multiples of `2^e`. -/
theorem double_multiple {x : K} (hd : fl x = x) {e : ℤ} (h : 2 ^ (e + 52) ≤ x) : ∃ j : ℤ, x = j * 2 ^ e := by
  have hx : 0 < x := (two_zpow_pos _).trans_le h
  obtain ⟨m, k, hm, -, h2⟩ := double_form hx hd
  have hk : e ≤ k := by
    by_contra hn
    have h3 : (m : K) ≤ 2 ^ 53 - 1 := by exact_mod_cast h2
    have h4 : (2 : K) ^ (e + 52) < 2 ^ (k + 53) := by
      refine h.trans_lt ?_
      rw [hm, zpow_add₀ (by norm_num : (2 : K) ≠ 0), mul_comm]
      refine mul_lt_mul_of_pos_left ?_ (two_zpow_pos _)
      refine lt_of_le_of_lt h3 ?_
      norm_num
    have := (zpow_lt_zpow_iff_right₀ (by norm_num : (1 : K) < 2)).1 h4
    omega
  obtain ⟨j, rfl⟩ : ∃ j : ℕ, k = e + j := ⟨(k - e).toNat, by omega⟩
  refine ⟨m * 2 ^ j, ?_⟩
  rw [hm, zpow_add₀ (by norm_num : (2 : K) ≠ 0), zpow_natCast]
  push_cast
  ring

/-- The nearest integer is at least as near as any other. -/
theorem pyRound_nearest (y : K) (j : ℤ) : |(pyRound y : K) - y| ≤ |(j : K) - y| := by
  obtain ⟨h1, h2⟩ := pyRound_spec y
  have h : |(pyRound y : K) - y| ≤ 1 / 2 := abs_le.2 ⟨by linarith, by linarith⟩
  rcases lt_trichotomy j (pyRound y) with hj | hj | hj
  · have : (j : K) + 1 ≤ pyRound y := by exact_mod_cast hj
    refine h.trans ?_
    rw [abs_sub_comm]
    exact le_trans (by linarith) (le_abs_self _)
  · rw [hj]
  · have : (pyRound y : K) + 1 ≤ j := by exact_mod_cast hj
    exact h.trans (le_trans (by linarith) (le_abs_self _))

/-- No double is nearer to a number than the rounded number. -/
theorem fl_nearest {x d : K} (hx : 0 < x) (hd : fl d = d) : |fl x - x| ≤ |d - x| := by
  set e := Int.log 2 |x| - 52 with he
  have hp := two_zpow_pos (K := K) e
  have hfl : fl x = (pyRound (x / 2 ^ e) : K) * 2 ^ e := by
    unfold fl
    rw [if_neg hx.ne']
  have key : ∀ j : ℤ, |fl x - x| ≤ |(j : K) * 2 ^ e - x| := by
    intro j
    have h := mul_le_mul_of_nonneg_right (pyRound_nearest (x / 2 ^ e) j) hp.le
    have h1 : ∀ r : K, |r - x / 2 ^ e| * 2 ^ e = |r * 2 ^ e - x| := by
      intro r
      rw [← abs_of_pos hp, ← abs_mul, abs_of_pos hp, sub_mul, div_mul_cancel₀ _ hp.ne']
    rw [h1, h1] at h
    rwa [hfl]
  have hP : (2 : K) ^ (e + 52) ≤ x := by
    have := (log_bounds hx.ne').1
    rw [le_div_iff₀ hp, ← zpow_add₀ (by norm_num), abs_of_pos hx, add_comm] at this
    exact this
  by_cases h : 2 ^ (e + 52) ≤ d
  · obtain ⟨j, rfl⟩ := double_multiple hd h
    exact key j
  · rw [not_le] at h
    refine (key (2 ^ 52)).trans ?_
    have : ((2 ^ 52 : ℤ) : K) * 2 ^ e = 2 ^ (e + 52) := by
      rw [zpow_add₀ (by norm_num)]
      push_cast
      rw [mul_comm]
      norm_num
    rw [this, abs_sub_comm, abs_of_nonneg (by linarith), abs_sub_comm, abs_of_nonneg (by linarith)]
    linarith

/-- The rounded mean of two numbers. -/
theorem rounded_mean (a b : K) : fl (fl (a + b) / 2) = fl ((a + b) / 2) := by
  rw [fl_halved]
  have := fl_scale (a + b) (-1)
  rw [zpow_neg_one, ← div_eq_mul_inv, ← div_eq_mul_inv] at this
  exact this.symm

/-- The rounded mean of two doubles lies strictly between them if there is a double between them at all. -/
theorem mean_between {l d r : K} (hl : fl l = l) (hr : fl r = r) (hd : fl d = d) (h0 : 0 ≤ l) (h1 : l < d) (h2 : d < r) :
    l < fl (fl (r + l) / 2) ∧ fl (fl (r + l) / 2) < r := by
  rw [rounded_mean]
  set m := (r + l) / 2 with hm
  have hmp : 0 < m := by rw [hm]; linarith
  have hn := fl_nearest hmp hd
  have a : l < m := by rw [hm]; linarith
  have b : m < r := by rw [hm]; linarith
  have c : r - m = m - l := by rw [hm]; ring
  rcases le_total d m with h | h
  · rw [abs_of_nonpos (a := d - m) (by linarith)] at hn
    obtain ⟨n1, n2⟩ := abs_le.1 hn
    exact ⟨by linarith, by linarith⟩
  · rw [abs_of_nonneg (a := d - m) (by linarith)] at hn
    obtain ⟨n1, n2⟩ := abs_le.1 hn
    exact ⟨by linarith, by linarith⟩

/-- The rounded mean of two doubles is not outside. -/
theorem mean_within {l r : K} (hl : fl l = l) (hr : fl r = r) (h : l ≤ r) :
    l ≤ fl (fl (r + l) / 2) ∧ fl (fl (r + l) / 2) ≤ r := by
  rw [rounded_mean]
  constructor
  · conv_lhs => rw [← hl]
    exact fl_mono (by linarith)
  · conv_rhs => rw [← hr]
    exact fl_mono (by linarith)

/-- What the loop returns has the requested number of points and belongs to a double. -/
theorem loop_result {α : Type} (n : Nat) (generate : K → List α) (fuel : Nat) :
    ∀ (lb : K) (ub : Option K) (t : K), fl t = t → 0 < t → 0 ≤ lb → (∀ u ∈ ub, 0 < u) → ∀ {out : List α},
      rescaleLoop n generate fuel lb ub t (generate t) = some out →
      out.length = n ∧ ∃ s, 0 < s ∧ fl s = s ∧ out = generate s := by
  induction fuel with
  | zero => intro lb ub t _ _ _ _ out h; simp [rescaleLoop] at h
  | succ fuel ih =>
    intro lb ub t ht t0 hlb hub out h
    rw [rescaleLoop] at h
    by_cases hlen : (generate t).length = n
    · rw [if_neg (not_not.2 hlen), Option.some.injEq] at h
      subst h
      exact ⟨hlen, t, t0, ht, rfl⟩
    · rw [if_pos hlen] at h
      have h3 : 0 ≤ (if n < (generate t).length then t else lb) := by
        by_cases hgt : n < (generate t).length
        · rw [if_pos hgt]; exact t0.le
        · rw [if_neg hgt]; exact hlb
      have h4 : ∀ u ∈ (if n < (generate t).length then ub else some t), 0 < u := by
        by_cases hgt : n < (generate t).length
        · rw [if_pos hgt]; exact hub
        · rw [if_neg hgt]
          intro u hu
          rw [Option.mem_some_iff] at hu
          exact hu ▸ t0
      simp only at h
      revert h h3 h4
      generalize (if n < (generate t).length then t else lb) = lb'
      generalize (if n < (generate t).length then ub else some t) = ub'
      intro h h3 h4
      refine ih lb' ub' _ ?_ ?_ h3 h4 h
      · cases ub' <;> exact fl_fl _
      · cases ub' with
        | none => exact fl_pos (by linarith)
        | some u =>
          have := h4 u rfl
          exact fl_pos (half_pos (fl_pos (by linarith)))

variable {α : Type} {n : Nat} {generate : K → List α}

/-- The loop between two doubles. -/
theorem loop_bisect
    (hanti : ∀ s t, fl s = s → fl t = t → 0 < s → s ≤ t → (generate t).length ≤ (generate s).length)
    {d : K} (hd : fl d = d) (hn : (generate d).length = n) {e : ℤ} (N : ℕ) :
    ∀ lb ub t : K, fl lb = lb → fl ub = ub → 2 ^ (e + 52) ≤ lb → lb < d → d < ub → ub - lb ≤ N * 2 ^ e →
      t = fl (fl (ub + lb) / 2) →
      ∃ m, ∀ fuel, m ≤ fuel → ∃ out, rescaleLoop n generate fuel lb (some ub) t (generate t) = some out := by
  induction N with
  | zero =>
    intro lb ub t _ _ _ h1 h2 h3 _
    rw [Nat.cast_zero, zero_mul] at h3
    linarith
  | succ N ih =>
    intro lb ub t hl hu hP h1 h2 h3 ht
    have hp := two_zpow_pos (K := K) e
    have hl0 : 0 < lb := (two_zpow_pos _).trans_le hP
    obtain ⟨b1, b2⟩ := mean_between hl hu hd hl0.le h1 h2
    rw [← ht] at b1 b2
    have ht' : fl t = t := by rw [ht]; exact fl_fl _
    obtain ⟨i, hi⟩ := double_multiple hl hP
    obtain ⟨j, hj⟩ := double_multiple hu (hP.trans (h1.trans h2).le)
    obtain ⟨k, hk⟩ := double_multiple ht' (hP.trans b1.le)
    have c1 : lb + 2 ^ e ≤ t := by
      rw [hi, hk] at b1 ⊢
      have : i < k := by exact_mod_cast lt_of_mul_lt_mul_right b1 hp.le
      have : (i : K) + 1 ≤ k := by exact_mod_cast this
      have := mul_le_mul_of_nonneg_right this hp.le
      linarith
    have c2 : t + 2 ^ e ≤ ub := by
      rw [hj, hk] at b2 ⊢
      have : k < j := by exact_mod_cast lt_of_mul_lt_mul_right b2 hp.le
      have : (k : K) + 1 ≤ j := by exact_mod_cast this
      have := mul_le_mul_of_nonneg_right this hp.le
      linarith
    push_cast at h3
    by_cases hlen : (generate t).length = n
    · refine ⟨1, fun fuel hf => ?_⟩
      obtain ⟨f, rfl⟩ : ∃ f, fuel = f + 1 := ⟨fuel - 1, by omega⟩
      exact ⟨generate t, by rw [rescaleLoop, if_neg (not_not.2 hlen)]⟩
    · by_cases hgt : n < (generate t).length
      · have htd : t < d := by
          by_contra hc
          have := hanti d t hd ht' (hl0.trans h1) (not_lt.1 hc)
          omega
        obtain ⟨m, hm⟩ := ih t ub _ ht' hu (hP.trans b1.le) htd h2 (by linarith) rfl
        refine ⟨m + 1, fun fuel hf => ?_⟩
        obtain ⟨f, rfl⟩ : ∃ f, fuel = f + 1 := ⟨fuel - 1, by omega⟩
        obtain ⟨out, ho⟩ := hm f (by omega)
        exact ⟨out, by rw [rescaleLoop, if_pos hlen]; simpa only [hgt, if_true] using ho⟩
      · have htd : d < t := by
          by_contra hc
          have := hanti t d ht' hd (hl0.trans b1) (not_lt.1 hc)
          omega
        obtain ⟨m, hm⟩ := ih lb t _ hl ht' hP h1 htd (by linarith) rfl
        refine ⟨m + 1, fun fuel hf => ?_⟩
        obtain ⟨f, rfl⟩ : ∃ f, fuel = f + 1 := ⟨fuel - 1, by omega⟩
        obtain ⟨out, ho⟩ := hm f (by omega)
        exact ⟨out, by rw [rescaleLoop, if_pos hlen]; simpa only [hgt, if_false] using ho⟩

/-- The loop once both bounds are known and positive. -/
theorem loop_both
    (hanti : ∀ s t, fl s = s → fl t = t → 0 < s → s ≤ t → (generate t).length ≤ (generate s).length)
    {d : K} (hd : fl d = d) (hn : (generate d).length = n) {lb ub : K} (hl : fl lb = lb) (hu : fl ub = ub) (h0 : 0 < lb)
    (h1 : lb < d) (h2 : d < ub) :
    ∃ m, ∀ fuel, m ≤ fuel → ∃ out, rescaleLoop n generate fuel lb (some ub) (fl (fl (ub + lb) / 2))
      (generate (fl (fl (ub + lb) / 2))) = some out := by
  have hp := two_zpow_pos (K := K) (Int.log 2 lb - 52)
  refine loop_bisect hanti hd hn (e := Int.log 2 lb - 52) ⌈(ub - lb) / 2 ^ (Int.log 2 lb - 52)⌉₊ lb ub _ hl hu ?_ h1 h2 ?_ rfl
  · rw [sub_add_cancel]
    exact Int.zpow_log_le_self (b := 2) (by norm_num) h0
  · rw [← div_le_iff₀ hp]
    exact Nat.le_ceil _

/-- The loop as long as the lower bound is zero. -/
theorem loop_halve
    (hanti : ∀ s t, fl s = s → fl t = t → 0 < s → s ≤ t → (generate t).length ≤ (generate s).length)
    {d : K} (hd : fl d = d) (d0 : 0 < d) (hn : (generate d).length = n) (N : ℕ) :
    ∀ ub : K, fl ub = ub → d < ub → ub ≤ 2 ^ N * d →
      ∃ m, ∀ fuel, m ≤ fuel → ∃ out, rescaleLoop n generate fuel 0 (some ub) (fl (fl (ub + 0) / 2))
        (generate (fl (fl (ub + 0) / 2))) = some out := by
  induction N with
  | zero =>
    intro ub _ h1 h2
    rw [pow_zero, one_mul] at h2
    linarith
  | succ N ih =>
    intro ub hu h1 h2
    have ht : fl (fl (ub + 0) / 2) = ub / 2 := by rw [fl_halved, add_zero, hu]
    have ht' : fl (ub / 2) = ub / 2 := by rw [← ht, fl_fl]
    rw [ht]
    by_cases hlen : (generate (ub / 2)).length = n
    · refine ⟨1, fun fuel hf => ?_⟩
      obtain ⟨f, rfl⟩ : ∃ f, fuel = f + 1 := ⟨fuel - 1, by omega⟩
      exact ⟨generate (ub / 2), by rw [rescaleLoop, if_neg (not_not.2 hlen)]⟩
    · by_cases hgt : n < (generate (ub / 2)).length
      · have htd : ub / 2 < d := by
          by_contra hc
          have := hanti d (ub / 2) hd ht' d0 (not_lt.1 hc)
          omega
        obtain ⟨m, hm⟩ := loop_both hanti hd hn ht' hu (by linarith) htd h1
        refine ⟨m + 1, fun fuel hf => ?_⟩
        obtain ⟨f, rfl⟩ : ∃ f, fuel = f + 1 := ⟨fuel - 1, by omega⟩
        obtain ⟨out, ho⟩ := hm f (by omega)
        exact ⟨out, by rw [rescaleLoop, if_pos hlen]; simpa only [hgt, if_true] using ho⟩
      · have htd : d < ub / 2 := by
          by_contra hc
          have := hanti (ub / 2) d ht' hd (by linarith) (not_lt.1 hc)
          omega
        obtain ⟨m, hm⟩ := ih (ub / 2) ht' htd (by rw [pow_succ] at h2; linarith)
        refine ⟨m + 1, fun fuel hf => ?_⟩
        obtain ⟨f, rfl⟩ : ∃ f, fuel = f + 1 := ⟨fuel - 1, by omega⟩
        obtain ⟨out, ho⟩ := hm f (by omega)
        exact ⟨out, by rw [rescaleLoop, if_pos hlen]; simpa only [hgt, if_false] using ho⟩

variable [Archimedean K]

/-- The loop before an upper bound is known. -/
theorem loop_double
    (hanti : ∀ s t, fl s = s → fl t = t → 0 < s → s ≤ t → (generate t).length ≤ (generate s).length)
    {d : K} (hd : fl d = d) (d0 : 0 < d) (hn : (generate d).length = n) (N : ℕ) :
    ∀ lb t : K, fl lb = lb → fl t = t → 0 ≤ lb → lb < d → 0 < t → d < 2 ^ N * t →
      ∃ m, ∀ fuel, m ≤ fuel → ∃ out, rescaleLoop n generate fuel lb none t (generate t) = some out := by
  induction N with
  | zero =>
    intro lb t hl ht h0 h1 t0 h2
    rw [pow_zero, one_mul] at h2
    exact finish hanti hd d0 hn lb t hl ht h0 h1 t0 h2
  | succ N ih =>
    intro lb t hl ht h0 h1 t0 h2
    rcases lt_or_ge d t with hdt | hdt
    · exact finish hanti hd d0 hn lb t hl ht h0 h1 t0 hdt
    · by_cases hlen : (generate t).length = n
      · refine ⟨1, fun fuel hf => ?_⟩
        obtain ⟨f, rfl⟩ : ∃ f, fuel = f + 1 := ⟨fuel - 1, by omega⟩
        exact ⟨generate t, by rw [rescaleLoop, if_neg (not_not.2 hlen)]⟩
      · have hgt : n < (generate t).length := by
          have := hanti t d ht hd t0 hdt
          omega
        have htd : t < d := lt_of_le_of_ne hdt fun e => hlen (by rw [e, hn])
        have e2 : fl (t * 2) = t * 2 := by
          have := fl_scale t 1
          rwa [zpow_one, ht] at this
        obtain ⟨m, hm⟩ := ih t (t * 2) ht e2 t0.le htd (by linarith) (by rw [pow_succ] at h2; linarith)
        refine ⟨m + 1, fun fuel hf => ?_⟩
        obtain ⟨f, rfl⟩ : ∃ f, fuel = f + 1 := ⟨fuel - 1, by omega⟩
        obtain ⟨out, ho⟩ := hm f (by omega)
        exact ⟨out, by rw [rescaleLoop, if_pos hlen]; simpa only [hgt, if_true, e2] using ho⟩
where
  finish {α : Type} {n : Nat} {generate : K → List α}
      (hanti : ∀ s t, fl s = s → fl t = t → 0 < s → s ≤ t → (generate t).length ≤ (generate s).length)
      {d : K} (hd : fl d = d) (d0 : 0 < d) (hn : (generate d).length = n) (lb t : K) (hl : fl lb = lb) (ht : fl t = t)
      (h0 : 0 ≤ lb) (h1 : lb < d) (t0 : 0 < t) (h2 : d < t) :
      ∃ m, ∀ fuel, m ≤ fuel → ∃ out, rescaleLoop n generate fuel lb none t (generate t) = some out := by
    by_cases hlen : (generate t).length = n
    · refine ⟨1, fun fuel hf => ?_⟩
      obtain ⟨f, rfl⟩ : ∃ f, fuel = f + 1 := ⟨fuel - 1, by omega⟩
      exact ⟨generate t, by rw [rescaleLoop, if_neg (not_not.2 hlen)]⟩
    · have hgt : ¬ n < (generate t).length := by
        have := hanti d t hd ht d0 h2.le
        omega
      have : ∃ m, ∀ fuel, m ≤ fuel → ∃ out, rescaleLoop n generate fuel lb (some t) (fl (fl (t + lb) / 2))
          (generate (fl (fl (t + lb) / 2))) = some out := by
        rcases h0.lt_or_eq with h | h
        · exact loop_both hanti hd hn hl ht h h1 h2
        · subst h
          obtain ⟨k, hk⟩ := pow_unbounded_of_one_lt (t / d) (one_lt_two (α := K))
          rw [div_lt_iff₀ d0] at hk
          exact loop_halve hanti hd d0 hn k t ht h2 hk.le
      obtain ⟨m, hm⟩ := this
      refine ⟨m + 1, fun fuel hf => ?_⟩
      obtain ⟨f, rfl⟩ : ∃ f, fuel = f + 1 := ⟨fuel - 1, by omega⟩
      obtain ⟨out, ho⟩ := hm f (by omega)
      exact ⟨out, by rw [rescaleLoop, if_pos hlen]; simpa only [hgt, if_false] using ho⟩

/-- **C184.** If the number of generated points does not increase with the scale, then the search for the scale in double
precision returns, from whatever positive double it starts, exactly if some positive double is a scale with the requested
number of points; and it returns that number of points. -/
theorem C184_search_exactly (n : Nat) (generate : K → List α)
    (hanti : ∀ s t, fl s = s → fl t = t → 0 < s → s ≤ t → (generate t).length ≤ (generate s).length)
    {start : K} (hs : fl start = start) (s0 : 0 < start) :
    (∃ d, fl d = d ∧ 0 < d ∧ (generate d).length = n) ↔
      ∃ m, ∀ fuel, m ≤ fuel → ∃ out, binaryRescale n generate start fuel = some out ∧ out.length = n := by
  constructor
  · rintro ⟨d, hd, d0, hn⟩
    obtain ⟨k, hk⟩ := pow_unbounded_of_one_lt (d / start) (one_lt_two (α := K))
    rw [div_lt_iff₀ s0] at hk
    obtain ⟨m, hm⟩ := loop_double hanti hd d0 hn k 0 start fl_zero hs le_rfl d0 s0 hk
    refine ⟨m, fun fuel hf => ?_⟩
    obtain ⟨out, ho⟩ := hm fuel hf
    exact ⟨out, ho, (loop_result n generate fuel 0 none start hs s0 le_rfl (by simp) ho).1⟩
  · rintro ⟨m, hm⟩
    obtain ⟨out, ho, hlen⟩ := hm m le_rfl
    obtain ⟨-, s, h0, h1, rfl⟩ := loop_result n generate m 0 none start hs s0 le_rfl (by simp) ho
    exact ⟨s, h1, h0, hlen⟩

/-- **C184.** If no positive double is a scale with the requested number of points, then the search never returns. -/
theorem C184_never (n : Nat) (generate : K → List α) {start : K} (hs : fl start = start) (s0 : 0 < start)
    (h : ∀ d, fl d = d → 0 < d → (generate d).length ≠ n) (fuel : Nat) : binaryRescale n generate start fuel = none := by
  cases hb : binaryRescale n generate start fuel with
  | none => rfl
  | some out =>
    obtain ⟨hlen, s, h0, h1, rfl⟩ := loop_result n generate fuel 0 none start hs s0 le_rfl (by simp) hb
    exact absurd hlen (h s h1 h0)

/-- One coordinate of a point of the spiral in a facet parallel to an axis. -/
theorem axis_mono {a c m p s t : K} (hm : fl m = m) (h0 : fl (a * m) ≤ c) (hs : 0 ≤ s) (hst : s ≤ t)
    (ht : fl (a * fl (m + fl (t * p))) ≤ c) : fl (a * fl (m + fl (s * p))) ≤ c := by
  have up : ∀ {v w : K}, v * p ≤ w * p → fl (m + fl (v * p)) ≤ fl (m + fl (w * p)) := fun h =>
    fl_mono (add_le_add_right (fl_mono h) m)
  have z : fl (m + fl (0 * p)) = m := by rw [zero_mul, fl_zero, add_zero, hm]
  rcases le_total 0 a with ha | ha <;> rcases le_total 0 p with hp | hp
  · exact (fl_mono (mul_le_mul_of_nonneg_left (up (mul_le_mul_of_nonneg_right hst hp)) ha)).trans ht
  · refine (fl_mono (mul_le_mul_of_nonneg_left (up (v := s) (w := 0) ?_) ha)).trans (by rw [z]; exact h0)
    exact mul_le_mul_of_nonpos_right hs hp
  · refine (fl_mono (mul_le_mul_of_nonpos_left (up (v := 0) (w := s) ?_) ha)).trans (by rw [z]; exact h0)
    exact mul_le_mul_of_nonneg_right hs hp
  · exact (fl_mono (mul_le_mul_of_nonpos_left (up (mul_le_mul_of_nonpos_right hst hp)) ha)).trans ht

/-- The number of points of the spiral in a rectangle whose sides are parallel to the axes does not increase with the scale. -/
theorem rectangle_antitone {base : List (K × K)} {mid : K × K} {ineqs : List (Sampler.Facet K)}
    (haxis : ∀ q ∈ ineqs, q.1 = 0 ∨ q.2.1 = 0) (hm1 : fl mid.1 = mid.1) (hm2 : fl mid.2 = mid.2)
    (hmid : inHull ineqs mid = true) {s t : K} (hs : 0 < s) (hst : s ≤ t) :
    (sampleGenerator base mid ineqs t).length ≤ (sampleGenerator base mid ineqs s).length := by
  unfold sampleGenerator
  rw [← List.countP_eq_length_filter, ← List.countP_eq_length_filter, List.countP_map, List.countP_map]
  refine List.countP_mono_left fun p _ h => ?_
  simp only [Function.comp_apply, inHull, List.all_eq_true, decide_eq_true_eq] at h hmid ⊢
  intro q hq
  have h := h q hq
  have h' := hmid q hq
  rcases haxis q hq with hz | hz
  · simp only [hz, zero_mul, fl_zero, zero_add, fl_fl, spiralPoint] at h h' ⊢
    exact axis_mono hm2 h' hs.le hst h
  · simp only [hz, zero_mul, fl_zero, add_zero, fl_fl, spiralPoint] at h h' ⊢
    exact axis_mono hm1 h' hs.le hst h

/-- **C184.** For data whose hull is a rectangle with sides parallel to the axes, the search for the scale in double precision
returns exactly if some positive double is a scale for which the rounded spiral has the requested number of points in the
rectangle. -/
theorem C184_rectangle_exactly (n : Nat) {base : List (K × K)} {mid : K × K} {ineqs : List (Sampler.Facet K)}
    (haxis : ∀ q ∈ ineqs, q.1 = 0 ∨ q.2.1 = 0) (hm1 : fl mid.1 = mid.1) (hm2 : fl mid.2 = mid.2)
    (hmid : inHull ineqs mid = true) {start : K} (hs : fl start = start) (s0 : 0 < start) :
    (∃ d, fl d = d ∧ 0 < d ∧ (sampleGenerator base mid ineqs d).length = n) ↔
      ∃ m, ∀ fuel, m ≤ fuel → ∃ out, binaryRescale n (sampleGenerator base mid ineqs) start fuel = some out ∧ out.length = n :=
  C184_search_exactly n _ (fun _ _ _ _ h1 h2 => rectangle_antitone haxis hm1 hm2 hmid h1 h2) hs s0

end

/-! ### A spiral with two points that leave the hull at the same double -/

/-- Two points on a line, next to each other. -/
def closePair : List (ℚ × ℚ) := [(3, 0), (3 - 1 / 2 ^ 51, 0)]

/-- A square. -/
def unitSquare : List (Sampler.Facet ℚ) := [(1, 0, -1), (-1, 0, -1), (0, 1, -1), (0, -1, -1)]

theorem pair_inside (t x : ℚ) (hx : 0 ≤ t * x) : inHull unitSquare (spiralPoint (0, 0) t (x, 0)) = true ↔ fl (t * x) ≤ 1 := by
  have h := fl_nonneg hx
  simp only [inHull, spiralPoint, unitSquare, List.all_cons, List.all_nil, Bool.and_true, Bool.and_eq_true,
    decide_eq_true_eq, one_mul, zero_mul, mul_zero, fl_zero, zero_add, add_zero, fl_fl, neg_neg, neg_mul, fl_neg]
  constructor
  · exact fun h => h.1
  · exact fun h' => ⟨h', by linarith, by norm_num, by norm_num⟩

/-- In double precision both points leave the square at the same scale. -/
theorem pair_together {t : ℚ} (ht : fl t = t) (t0 : 0 < t) : fl (t * 3) ≤ 1 ↔ fl (t * (3 - 1 / 2 ^ 51)) ≤ 1 := by
  have a1 : fl ((6004799503160662 / 2 ^ 54 : ℚ) * 3) = 1 := by decide +kernel
  have a2 : 1 < fl ((6004799503160663 / 2 ^ 54 : ℚ) * (3 - 1 / 2 ^ 51)) := by decide +kernel
  rcases le_or_gt t (6004799503160662 / 2 ^ 54) with h | h
  · have b1 : fl (t * 3) ≤ 1 := by rw [← a1]; exact fl_mono (by linarith)
    have b2 : fl (t * (3 - 1 / 2 ^ 51)) ≤ 1 := by
      refine le_trans (fl_mono ?_) b1
      nlinarith
    exact ⟨fun _ => b2, fun _ => b1⟩
  · have hP : (2 : ℚ) ^ ((-54 : ℤ) + 52) ≤ t := by
      refine le_trans ?_ h.le
      norm_num
    obtain ⟨j, hj⟩ := double_multiple ht hP
    have hj' : 6004799503160662 < j := by
      have : (6004799503160662 : ℚ) < j := by
        rw [hj] at h
        norm_num at h ⊢
        linarith
      exact_mod_cast this
    have h' : (6004799503160663 / 2 ^ 54 : ℚ) ≤ t := by
      have : (6004799503160663 : ℚ) ≤ j := by exact_mod_cast hj'
      rw [hj]
      norm_num
      linarith
    have b2 : 1 < fl (t * (3 - 1 / 2 ^ 51)) :=
      a2.trans_le (fl_mono (mul_le_mul_of_nonneg_right h' (by norm_num)))
    have b1 : 1 < fl (t * 3) := b2.trans_le (fl_mono (by nlinarith))
    exact ⟨fun h => absurd h (not_le.2 b1), fun h => absurd h (not_le.2 b2)⟩

/-- **C184.** For a spiral with two points next to each other the search for a scale with one point in the hull returns with
exact numbers, but never returns in double precision. -/
theorem C184_rounding_matters :
    (∃ out, Sampler.binaryRescale 1 (Sampler.sampleGenerator closePair (0, 0) unitSquare) 1 80 = some out ∧ out.length = 1) ∧
    ∀ fuel, binaryRescale 1 (sampleGenerator closePair (0, 0) unitSquare) 1 fuel = none := by
  constructor
  · have h : (Sampler.binaryRescale 1 (Sampler.sampleGenerator closePair (0, 0) unitSquare) 1 80).map List.length = some 1 := by
      decide +kernel
    obtain ⟨out, h1, h2⟩ := Option.map_eq_some_iff.1 h
    exact ⟨out, h1, h2⟩
  · intro fuel
    refine C184_never 1 _ fl_one one_pos (fun d hd d0 => ?_) fuel
    have e1 := pair_inside d 3 (by positivity)
    have e2 := pair_inside d (3 - 1 / 2 ^ 51) (mul_nonneg d0.le (by norm_num))
    have e := pair_together hd d0
    unfold sampleGenerator closePair
    simp only [List.map_cons, List.map_nil, List.filter_cons, List.filter_nil, e1, e2, e]
    split_ifs <;> simp

/-- Case for `C184_rectangle_exactly`, `C184_search_exactly`: two points that leave the square at different scales. -/
example : ∃ m, ∀ fuel, m ≤ fuel → ∃ out,
    binaryRescale 1 (sampleGenerator [(3, 0), (0, 2)] (0, 0) unitSquare) (1 / 8 : ℚ) fuel = some out ∧ out.length = 1 :=
  (C184_rectangle_exactly 1 (by decide) (by decide +kernel) (by decide +kernel) (by decide +kernel) (by decide +kernel)
    (by norm_num)).1 ⟨1 / 2, by decide +kernel, by norm_num, by decide +kernel⟩

/-- The same with the calculated point. -/
example : binaryRescale 1 (sampleGenerator [(3, 0), (0, 2)] (0, 0) unitSquare) (1 / 8 : ℚ) 9 = some [(0, 1)] := by
  decide +kernel

/-- Case for `C184_never`: no scale has three of two points. -/
example (fuel : Nat) : binaryRescale 3 (sampleGenerator [(3, 0), (0, 2)] (0, 0) unitSquare) (1 / 8 : ℚ) fuel = none :=
  C184_never 3 _ (by decide +kernel) (by norm_num) (fun d _ _ => by
    have : (sampleGenerator [(3, 0), (0, 2)] (0, 0) unitSquare d).length ≤ 2 :=
      (List.length_filter_le _ _).trans (by simp)
    omega) fuel

end Verif.F64
