import Mathlib.Data.Rat.Floor
import Verif.Model.FloatSlices
import Verif.Props.FloatNmea
import Verif.Props.Diagram

/-!
# Property C163: equally spaced numbers and wind speeds of slices in double precision
-/

namespace Verif.F64

variable {K : Type} [Field K] [LinearOrder K] [IsStrictOrderedRing K] [FloorRing K]

/-! ## Lemmas -/

/-- Number `i` of `n + 1` equally spaced doubles. -/
def spaced (a b : K) (n i : Nat) : K := if i = n then b else fl (fl ((i : K) * fl (fl (b - a) / (n : K))) + a)

omit [IsStrictOrderedRing K] in
theorem linspace_eq (a b : K) {n : Nat} (hn : 0 < n) : linspace a b (n + 1) = (List.range (n + 1)).map (spaced a b n) := by
  unfold linspace spaced
  refine List.map_congr_left fun i hi => ?_
  have h1 : ¬ n + 1 = 1 := by omega
  have e : ((n + 1 : ℕ) : K) - 1 = n := by push_cast; ring
  by_cases h : i = n
  · rw [if_pos ⟨by omega, by omega⟩, if_pos h]
  · rw [if_neg (by omega), if_neg h, if_neg h1, e]

omit [IsStrictOrderedRing K] in
theorem linspace_get (a b : K) {n : Nat} (hn : 0 < n) {i : Nat} (hi : i ≤ n) :
    (linspace a b (n + 1))[i]? = some (spaced a b n i) := by
  rw [linspace_eq a b hn, List.getElem?_map, List.getElem?_range (by omega)]
  rfl

theorem spaced_zero {a b : K} (ha : fl a = a) {n : Nat} (hn : 0 < n) : spaced a b n 0 = a := by
  rw [spaced, if_neg (by omega)]
  simp [fl_zero, ha]

omit [IsStrictOrderedRing K] in
theorem spaced_last (a b : K) (n : Nat) : spaced a b n n = b := if_pos rfl

/-- The calculated multiple of the step. -/
theorem multiple_close {d : K} (hd : 0 ≤ d) {n i : Nat} (hn : 0 < n) :
    |fl ((i : K) * fl (fl d / (n : K))) - (i : K) * d / n| ≤ 4 * u K * ((i : K) * d / n) := by
  have hu := u_pos (K := K)
  have hu' := u_tiny (K := K)
  have hn' : (0 : K) < n := by exact_mod_cast hn
  have hi : (0 : K) ≤ i := by positivity
  have a1 := fl_lower hd
  have a2 := fl_upper hd
  have hq : 0 ≤ fl d / (n : K) := div_nonneg (fl_nonneg hd) hn'.le
  have b1 := fl_lower hq
  have b2 := fl_upper hq
  have hp : 0 ≤ (i : K) * fl (fl d / (n : K)) := mul_nonneg hi (fl_nonneg hq)
  have c1 := fl_lower hp
  have c2 := fl_upper hp
  obtain ⟨x, hx⟩ : ∃ x, x = (i : K) * d / n := ⟨_, rfl⟩
  have x0 : 0 ≤ x := by rw [hx]; positivity
  have v : (0 : K) ≤ 1 - u K := by linarith
  have w : (0 : K) ≤ 1 + u K := by linarith
  have e : ∀ t : K, (i : K) * (t * (t * d / n)) = t * t * x := fun t => by rw [hx]; ring
  have l1 : (1 - u K) * (1 - u K) * x ≤ (i : K) * fl (fl d / (n : K)) := by
    rw [← e]
    exact mul_le_mul_of_nonneg_left ((mul_le_mul_of_nonneg_left (div_le_div_of_nonneg_right a1 hn'.le) v).trans b1) hi
  have l2 : (i : K) * fl (fl d / (n : K)) ≤ (1 + u K) * (1 + u K) * x := by
    rw [← e]
    exact mul_le_mul_of_nonneg_left (b2.trans (mul_le_mul_of_nonneg_left (div_le_div_of_nonneg_right a2 hn'.le) w)) hi
  have m1 := (mul_le_mul_of_nonneg_left l1 v).trans c1
  have m2 := c2.trans (mul_le_mul_of_nonneg_left l2 w)
  rw [← hx]
  have k1 : (1 - u K) * ((1 - u K) * (1 - u K) * x) ≥ x - 4 * u K * x := by
    have : (1 - u K) * ((1 - u K) * (1 - u K)) ≥ 1 - 4 * u K := by nlinarith [mul_pos hu hu]
    nlinarith
  have k2 : (1 + u K) * ((1 + u K) * (1 + u K) * x) ≤ x + 4 * u K * x := by
    have : (1 + u K) * ((1 + u K) * (1 + u K)) ≤ 1 + 4 * u K := by nlinarith [mul_pos hu hu]
    nlinarith
  rw [abs_le]
  constructor <;> linarith

theorem multiple_le {d : K} (hd : 0 ≤ d) {n i : Nat} (hi : i < n) (hn : n ≤ 2 ^ 50) :
    fl ((i : K) * fl (fl d / (n : K))) ≤ d := by
  have hn' : (0 : K) < n := by exact_mod_cast (by omega : 0 < n)
  have h := (abs_le.1 (multiple_close (K := K) hd (n := n) (i := i) (by omega))).2
  have hi' : (i : K) + 1 ≤ n := by exact_mod_cast hi
  have hn2 : (n : K) ≤ 2 ^ 50 := by exact_mod_cast hn
  have hu : u K * 2 ^ 50 = 1 / 8 := by unfold u; norm_num
  have hui : 4 * u K * (i : K) ≤ 1 / 2 := by
    have := mul_le_mul_of_nonneg_left (show (i : K) ≤ 2 ^ 50 by linarith) (u_pos (K := K)).le
    linarith
  have e : (i : K) * d / n + 4 * u K * ((i : K) * d / n) = ((i : K) + 4 * u K * i) * d / n := by ring
  have f : ((i : K) + 4 * u K * i) * d / n ≤ d := by
    rw [div_le_iff₀ hn', mul_comm]
    exact mul_le_mul_of_nonneg_left (by linarith) hd
  linarith

theorem spaced_step {a b : K} (hb : fl b = b) (hab : a ≤ b) {n : Nat} (hn : n ≤ 2 ^ 50) {i : Nat} (hi : i < n) :
    spaced a b n i ≤ spaced a b n (i + 1) := by
  rw [spaced, if_neg (by omega), spaced]
  split
  · have := multiple_le (show 0 ≤ b - a by linarith) hi hn
    calc _ ≤ fl b := fl_mono (by linarith)
      _ = b := hb
  · refine fl_mono (add_le_add_left (fl_mono (mul_le_mul_of_nonneg_right (by push_cast; linarith) ?_)) _)
    exact fl_nonneg (div_nonneg (fl_nonneg (by linarith)) (by positivity))

theorem spaced_mono {a b : K} (hb : fl b = b) (hab : a ≤ b) {n : Nat} (hn : n ≤ 2 ^ 50) {i j : Nat} (hij : i ≤ j)
    (hj : j ≤ n) : spaced a b n i ≤ spaced a b n j := by
  induction j with
  | zero => rw [Nat.le_zero.1 hij]
  | succ j ih =>
    rcases Nat.lt_or_eq_of_le hij with h | rfl
    · exact (ih (by omega) (by omega)).trans (spaced_step hb hab hn (by omega))
    · rfl

theorem spaced_mem {a b : K} (ha : fl a = a) (hb : fl b = b) (hab : a ≤ b) {n : Nat} (h0 : 0 < n) (hn : n ≤ 2 ^ 50) {i : Nat}
    (hi : i ≤ n) : a ≤ spaced a b n i ∧ spaced a b n i ≤ b := by
  constructor
  · rw [← spaced_zero (b := b) ha h0]
    simpa only [spaced_zero (b := b) ha h0] using spaced_mono hb hab hn (Nat.zero_le i) hi
  · simpa only [spaced_last] using spaced_mono hb hab hn hi le_rfl

theorem spaced_close {a b M : K} (hab : a ≤ b) (ha : |a| ≤ M) (hb : |b| ≤ M) {n i : Nat} (hn : 0 < n) (hi : i ≤ n) :
    |spaced a b n i - (a + (i : K) * (b - a) / n)| ≤ 10 * u K * M := by
  have hu := u_pos (K := K)
  have hu' := u_tiny (K := K)
  have M0 : 0 ≤ M := (abs_nonneg a).trans ha
  have hn' : (0 : K) < n := by exact_mod_cast hn
  have hi' : (i : K) ≤ n := by exact_mod_cast hi
  unfold spaced
  split
  · rename_i h
    rw [h, mul_div_assoc, mul_div_cancel₀ _ hn'.ne', show b - (a + (b - a)) = 0 by ring, abs_zero]
    positivity
  · have hd : 0 ≤ b - a := by linarith
    have c := multiple_close hd (n := n) (i := i) hn
    have x1 : (i : K) * (b - a) / n ≤ b - a := by
      rw [div_le_iff₀ hn', mul_comm]
      exact mul_le_mul_of_nonneg_left hi' hd
    have x0 : 0 ≤ (i : K) * (b - a) / n := by positivity
    obtain ⟨x, hx⟩ : ∃ x, x = (i : K) * (b - a) / n := ⟨_, rfl⟩
    rw [← hx] at c x1 x0 ⊢
    have hM : b - a ≤ 2 * M := by linarith [(abs_le.1 ha).1, (abs_le.1 hb).2]
    have c' : |fl ((i : K) * fl (fl (b - a) / (n : K))) + a - (a + x)| ≤ 8 * (u K * M) := by
      rw [show fl ((i : K) * fl (fl (b - a) / (n : K))) + a - (a + x) = fl ((i : K) * fl (fl (b - a) / (n : K))) - x by ring]
      refine c.trans ?_
      have := mul_le_mul_of_nonneg_left (x1.trans hM) hu.le
      linarith
    have y : |a + x| ≤ M := by
      rw [abs_le] at *
      constructor <;> linarith [ha.1, hb.2]
    have r := fl_close c' y
    have h2 : u K * (u K * M) ≤ u K * M * (1 / 64) := by
      calc u K * (u K * M) = u K * M * u K := by ring
        _ ≤ _ := mul_le_mul_of_nonneg_left hu' (by positivity)
    have e : u K * (M + 8 * (u K * M)) = u K * M + 8 * (u K * (u K * M)) := by ring
    have : 0 ≤ u K * M := by positivity
    linarith

/-! ## Equally spaced numbers -/

/-- **C163**: `np.linspace` returns as many numbers as asked for. -/
theorem C163_length (a b : K) (n : Nat) : (linspace a b n).length = n := by simp [linspace]

/-- **C163**: the first and the last number are the given ones. -/
theorem C163_ends {a b : K} (ha : fl a = a) {n : Nat} (hn : 0 < n) :
    (linspace a b (n + 1))[0]? = some a ∧ (linspace a b (n + 1))[n]? = some b ∧ linspace a b 1 = [a] := by
  refine ⟨?_, ?_, ?_⟩
  · rw [linspace_get a b hn (Nat.zero_le n), spaced_zero ha hn]
  · rw [linspace_get a b hn le_rfl, spaced_last]
  · simp [linspace, fl_zero, ha]

/-- **C163**: the numbers are in ascending order and between the given ones. -/
theorem C163_sorted {a b : K} (ha : fl a = a) (hb : fl b = b) (hab : a ≤ b) {n : Nat} (h0 : 0 < n) (hn : n ≤ 2 ^ 50) :
    (linspace a b (n + 1)).Pairwise (· ≤ ·) ∧ ∀ x ∈ linspace a b (n + 1), a ≤ x ∧ x ≤ b := by
  rw [linspace_eq a b h0]
  constructor
  · rw [List.pairwise_map]
    refine List.pairwise_lt_range.imp_of_mem fun {i j} hi hj h => ?_
    rw [List.mem_range] at hi hj
    exact spaced_mono hb hab hn h.le (by omega)
  · intro x hx
    obtain ⟨i, hi, rfl⟩ := List.mem_map.1 hx
    rw [List.mem_range] at hi
    exact spaced_mem ha hb hab h0 hn (by omega)

/-- **C163**: the numbers differ from the equally spaced ones by at most `10 * 2^-53` of the larger end. -/
theorem C163_error {a b M : K} (hab : a ≤ b) (ha : |a| ≤ M) (hb : |b| ≤ M) {n i : Nat} (hn : 0 < n) (hi : i ≤ n) :
    ∃ x, (linspace a b (n + 1))[i]? = some x ∧ |x - (a + (i : K) * (b - a) / n)| ≤ 10 * 2 ^ (-53 : ℤ) * M :=
  ⟨_, linspace_get a b hn hi, spaced_close hab ha hb hn hi⟩

/-- Eleven slices from 0 to 1: the ends are exact, the slices sorted, the fourth one near 3/10. -/
example : (linspace (0 : ℚ) 1 11)[0]? = some 0 ∧ (linspace (0 : ℚ) 1 11)[10]? = some 1 ∧ (linspace (0 : ℚ) 1 11).Pairwise (· ≤ ·) ∧
    ∃ x, (linspace (0 : ℚ) 1 11)[3]? = some x ∧ |x - (0 + ((3 : Nat) : ℚ) * (1 - 0) / (10 : Nat))| ≤ 10 * 2 ^ (-53 : ℤ) * 1 :=
  ⟨(C163_ends (n := 10) fl_zero (by norm_num)).1, (C163_ends (n := 10) fl_zero (by norm_num)).2.1,
    (C163_sorted (n := 10) fl_zero fl_one (by norm_num) (by norm_num) (by norm_num)).1,
    C163_error (n := 10) (i := 3) (by norm_num) (by norm_num) (by norm_num) (by norm_num) (by norm_num)⟩

/-- **C163**: the numbers are different if their distance is more than `20 * 2^-53` of the larger end. -/
theorem C163_strict {a b M : K} (ha : |a| ≤ M) (hb : |b| ≤ M) {n : Nat} (h0 : 0 < n)
    (hd : 20 * 2 ^ (-53 : ℤ) * M * n < b - a) : (linspace a b (n + 1)).Pairwise (· < ·) := by
  change 20 * u K * M * n < b - a at hd
  have hu := u_pos (K := K)
  have M0 : 0 ≤ M := (abs_nonneg a).trans ha
  have hn' : (0 : K) < n := by exact_mod_cast h0
  have hab : a ≤ b := by linarith [show 0 ≤ 20 * u K * M * n by positivity]
  have hd' : 20 * u K * M < (b - a) / n := by rwa [lt_div_iff₀ hn']
  rw [linspace_eq a b h0, List.pairwise_map]
  refine List.pairwise_lt_range.imp_of_mem fun {i j} hi hj h => ?_
  rw [List.mem_range] at hi hj
  have c1 := (abs_le.1 (spaced_close hab ha hb h0 (i := i) (by omega))).2
  have c2 := (abs_le.1 (spaced_close hab ha hb h0 (i := j) (by omega))).1
  have hij : (i : K) + 1 ≤ j := by exact_mod_cast h
  have e1 : (i : K) * (b - a) / n = (i : K) * ((b - a) / n) := by ring
  have e2 : (j : K) * (b - a) / n = (j : K) * ((b - a) / n) := by ring
  have hp : 0 ≤ (b - a) / n := div_nonneg (by linarith) hn'.le
  have := mul_le_mul_of_nonneg_right hij hp
  rw [e1] at c1
  rw [e2] at c2
  linarith

/-! ## Slices -/

omit [IsStrictOrderedRing K] in
theorem chunk_get (a b : K) {n : Nat} :
    ((linspace a b (n + 2)).dropLast).length = n + 1 ∧
    ∀ j : Nat, j ≤ n → ((linspace a b (n + 2)).dropLast)[j]? = some (spaced a b (n + 1) j) := by
  constructor
  · simp [linspace]
  · intro j hj
    rw [List.getElem?_dropLast, show (linspace a b (n + 2)).length = n + 2 by simp [linspace], if_pos (by omega)]
    exact linspace_get a b (by omega) (by omega)

/-- The wind speeds as computed by `spread`, one interval after the other. -/
def spreadRec (n : Nat) : List K → List K
  | [] => []
  | [a] => [a]
  | a :: b :: l => (linspace a b (n + 2)).dropLast ++ spreadRec n (b :: l)

omit [IsStrictOrderedRing K] in
theorem spreadRec_eq (n : Nat) : ∀ {l : List K} {last : K}, l.getLast? = some last →
    (l.zip l.tail).flatMap (fun p => (linspace p.1 p.2 (n + 2)).dropLast) ++ [last] = spreadRec n l
  | [], _, h => by simp at h
  | [a], last, h => by simp at h; simp [spreadRec, h]
  | a :: b :: l, last, h => by
    have h' : (b :: l).getLast? = some last := by rw [← h]; simp [List.getLast?_cons_cons]
    have := spreadRec_eq n h'
    simp only [List.tail_cons] at this
    simp only [List.tail_cons, List.zip_cons_cons, List.flatMap_cons, List.append_assoc, spreadRec]
    rw [← this]

theorem spreadRec_spec {n : Nat} (hn : 0 < n) : ∀ {l : List K}, l ≠ [] → (∀ a ∈ l, fl a = a) →
    (spreadRec n l).length = (l.length - 1) * (n + 1) + 1 ∧ (spreadRec n l)[0]? = l[0]? ∧
    ∀ (i j : Nat) (a b : K), l[i]? = some a → l[i + 1]? = some b → j ≤ n + 1 →
      (spreadRec n l)[i * (n + 1) + j]? = some (spaced a b (n + 1) j)
  | [], h, _ => absurd rfl h
  | [a], _, _ => by simp [spreadRec]
  | a :: b :: l, _, hf => by
    obtain ⟨ih1, ih2, ih3⟩ := spreadRec_spec hn (l := b :: l) (by simp) (fun x hx => hf x (List.mem_cons_of_mem _ hx))
    obtain ⟨c1, c2⟩ := chunk_get a b (n := n)
    refine ⟨?_, ?_, ?_⟩
    · simp only [spreadRec, List.length_append, c1, ih1, List.length_cons, Nat.add_sub_cancel]
      ring
    · rw [spreadRec, List.getElem?_append_left (by omega), c2 0 (by omega), spaced_zero (hf a (by simp)) (by omega)]
      simp
    · intro i j x y hx hy hj
      rw [spreadRec]
      cases i with
      | zero =>
        simp only [List.getElem?_cons_zero, Option.some.injEq, List.getElem?_cons_succ, Nat.zero_add] at hx hy
        subst hx hy
        rw [Nat.zero_mul, Nat.zero_add]
        by_cases hj' : j ≤ n
        · rw [List.getElem?_append_left (by omega), c2 j hj']
        · have : j = n + 1 := by omega
          subst this
          rw [List.getElem?_append_right (by omega), c1, Nat.sub_self, ih2, spaced_last]
          simp
      | succ i =>
        have := ih3 i j x y (by simpa using hx) (by simpa using hy) hj
        rw [List.getElem?_append_right (by rw [c1, Nat.add_mul]; omega), c1]
        rw [← this]
        congr 1
        rw [Nat.add_mul]
        omega

theorem spread_ok {l : List K} (hl : l ≠ []) {n : Nat} (hn : 0 < n) : spread l (some (n : Int)) = .ok (spreadRec n l) := by
  obtain ⟨last, hlast⟩ : ∃ x, l.getLast? = some x := ⟨_, List.getLast?_eq_some_getLast hl⟩
  have hn' : ¬ ((n : Int) ≤ 0) := by omega
  have ht : ((n : Int) + 2).toNat = n + 2 := by omega
  simp only [spread, hn', if_false, hlast, ht, spreadRec_eq n hlast]

/-- **C163**: with `n_steps = n > 0` and `k` wind speeds there are `(k - 1) (n + 1) + 1` slices; number `i (n + 1)` has exactly
the requested wind speed number `i`, and the slices in between are evenly spaced up to `10 * 2^-53` of the larger speed. -/
theorem C163_n_steps (defaults : List K) {l : List K} (hl : l ≠ []) (hf : ∀ a ∈ l, fl a = a) {n : Nat} (hn : 0 < n) :
    ∃ r, windSpeeds defaults (.list l) (some n) = .ok r ∧ windSpeeds l .default (some n) = .ok r ∧
      r.length = (l.length - 1) * (n + 1) + 1 ∧
      (∀ i : Nat, i < l.length → r[i * (n + 1)]? = l[i]?) ∧
      ∀ (i j : Nat) (a b M : K), l[i]? = some a → l[i + 1]? = some b → j ≤ n + 1 → a ≤ b → |a| ≤ M → |b| ≤ M →
        ∃ x, r[i * (n + 1) + j]? = some x ∧ |x - (a + (j : K) * (b - a) / ((n : K) + 1))| ≤ 10 * 2 ^ (-53 : ℤ) * M := by
  have hs := spread_ok (K := K) hl hn
  obtain ⟨h1, h2, h3⟩ := spreadRec_spec hn hl hf
  refine ⟨spreadRec n l, hs, hs, h1, ?_, ?_⟩
  · intro i hi
    cases i with
    | zero => simpa using h2
    | succ i =>
      have := h3 i (n + 1) l[i] l[i + 1] (List.getElem?_eq_getElem (by omega)) (List.getElem?_eq_getElem hi) (le_refl _)
      rw [show (i + 1) * (n + 1) = i * (n + 1) + (n + 1) by ring, this, List.getElem?_eq_getElem hi, spaced_last]
  · intro i j a b M ha hb hj hab hM hM'
    refine ⟨_, h3 i j a b ha hb hj, ?_⟩
    have := spaced_close hab hM hM' (n := n + 1) (by omega) hj
    push_cast at this
    exact this

theorem spreadRec_sorted {n : Nat} (hn : n < 2 ^ 50) : ∀ {l : List K}, l.Pairwise (· ≤ ·) → (∀ a ∈ l, fl a = a) →
    (spreadRec n l).Pairwise (· ≤ ·) ∧ ∀ lo hi, (∀ a ∈ l, lo ≤ a ∧ a ≤ hi) → ∀ x ∈ spreadRec n l, lo ≤ x ∧ x ≤ hi
  | [], _, _ => by simp [spreadRec]
  | [a], _, _ => by simp [spreadRec]
  | a :: b :: l, hs, hf => by
    obtain ⟨hs1, hs2⟩ := List.pairwise_cons.1 hs
    obtain ⟨ih1, ih2⟩ := spreadRec_sorted hn hs2 (fun x hx => hf x (List.mem_cons_of_mem _ hx))
    obtain ⟨p, q⟩ := C163_sorted (hf a (by simp)) (hf b (by simp)) (hs1 b (by simp)) (n := n + 1) (by omega) (by omega)
    have q' : ∀ x ∈ (linspace a b (n + 2)).dropLast, a ≤ x ∧ x ≤ b := fun x hx => q x (List.dropLast_subset _ hx)
    rw [spreadRec]
    constructor
    · rw [List.pairwise_append]
      refine ⟨p.sublist (List.dropLast_sublist _), ih1, fun x hx y hy => (q' x hx).2.trans ?_⟩
      -- every later number is at least `b`
      obtain ⟨hi, hhi⟩ : ∃ hi, ∀ c ∈ b :: l, b ≤ c ∧ c ≤ hi := by
        have hb : ∀ c ∈ b :: l, b ≤ c := fun c hc => by
          rcases List.mem_cons.1 hc with rfl | hc
          · exact le_rfl
          · exact (List.pairwise_cons.1 hs2).1 c hc
        clear ih1 ih2 hs hs1 hs2 hf p q q' hx hy
        have : ∀ m : List K, ∃ hi, ∀ c ∈ m, c ≤ hi := by
          intro m
          induction m with
          | nil => exact ⟨0, by simp⟩
          | cons c m ih =>
            obtain ⟨hi, h⟩ := ih
            refine ⟨max c hi, fun z hz => ?_⟩
            rcases List.mem_cons.1 hz with rfl | hz
            · exact le_max_left _ _
            · exact (h z hz).trans (le_max_right _ _)
        obtain ⟨hi, h⟩ := this (b :: l)
        exact ⟨hi, fun c hc => ⟨hb c hc, h c hc⟩⟩
      exact (ih2 b hi hhi y hy).1
    · intro lo hi hb x hx
      rcases List.mem_append.1 hx with hx | hx
      · exact ⟨(hb a (by simp)).1.trans (q' x hx).1, (q' x hx).2.trans (hb b (by simp)).2⟩
      · exact ih2 lo hi (fun c hc => hb c (List.mem_cons_of_mem _ hc)) x hx

/-- **C163**: for wind speeds in ascending order the slices are in ascending order and between the given wind speeds. -/
theorem C163_slices_sorted (defaults : List K) {l : List K} (hl : l ≠ []) (hs : l.Pairwise (· ≤ ·)) (hf : ∀ a ∈ l, fl a = a)
    {n : Nat} (hn : 0 < n) (hn' : n < 2 ^ 50) :
    ∃ r, windSpeeds defaults (.list l) (some n) = .ok r ∧ r.Pairwise (· ≤ ·) ∧
      ∀ lo hi, (∀ a ∈ l, lo ≤ a ∧ a ≤ hi) → ∀ x ∈ r, lo ≤ x ∧ x ≤ hi := by
  obtain ⟨h1, h2⟩ := spreadRec_sorted hn' hs hf
  exact ⟨spreadRec n l, spread_ok hl hn, h1, h2⟩

/-- Two slices between each of 5, 10 and 20 knots: seven slices, sorted, the fourth one exactly 10 knots. -/
example : ∃ r, windSpeeds (K := ℚ) [] (.list [5, 10, 20]) (some 2) = .ok r ∧ r.Pairwise (· ≤ ·) ∧ r.length = 7 ∧ r[3]? = some 10 := by
  have hf : ∀ a ∈ [(5 : ℚ), 10, 20], fl a = a := by decide +kernel
  obtain ⟨r, h1, -, h2, h3, -⟩ := C163_n_steps (K := ℚ) [] (l := [5, 10, 20]) (by simp) hf (n := 2) (by norm_num)
  obtain ⟨r', h4, h5, -⟩ := C163_slices_sorted (K := ℚ) [] (l := [5, 10, 20]) (by simp) (by decide +kernel) hf (n := 2) (by norm_num) (by norm_num)
  rw [h1] at h4
  obtain rfl : r = r' := by simpa using h4
  exact ⟨r, h1, h5, h2, h3 1 (by simp)⟩

/-- **C163**: without a number of steps nothing is calculated; a number of steps that is not positive raises `ValueError`. -/
theorem C163_plain (defaults l : List K) (w : K) (n : Option Int) {m : Int} (hm : m ≤ 0) :
    windSpeeds defaults (.list l) none = .ok l ∧ windSpeeds defaults .default none = .ok defaults ∧
    windSpeeds defaults (.number w) n = .ok [w] ∧ windSpeeds defaults .other n = .error .typeError ∧
    windSpeeds defaults (.list l) (some m) = .error .valueError := by
  refine ⟨rfl, rfl, rfl, rfl, ?_⟩
  simp [windSpeeds, spread, hm]

/-- **C163**: the default slices of point clouds are 20 wind speeds from the least to the largest one, both exactly. -/
theorem C163_default {lo hi : K} (h1 : fl lo = lo) (h2 : fl hi = hi) (h : lo ≤ hi) :
    (defaultSlices lo hi).length = 20 ∧ (defaultSlices lo hi)[0]? = some lo ∧ (defaultSlices lo hi)[19]? = some hi ∧
    (defaultSlices lo hi).Pairwise (· ≤ ·) ∧ ∀ x ∈ defaultSlices lo hi, lo ≤ x ∧ x ≤ hi := by
  obtain ⟨a, b, -⟩ := C163_ends (b := hi) h1 (n := 19) (by norm_num)
  obtain ⟨c, d⟩ := C163_sorted h1 h2 h (n := 19) (by norm_num) (by norm_num)
  exact ⟨C163_length _ _ _, a, b, c, d⟩

/-- The default slices between 2 and 40 knots. -/
example : (defaultSlices (2 : ℚ) 40).length = 20 ∧ (defaultSlices (2 : ℚ) 40)[19]? = some 40 :=
  have h := C163_default (K := ℚ) (lo := 2) (hi := 40) (by decide +kernel) (by decide +kernel) (by norm_num)
  ⟨h.1, h.2.2.1⟩

/-- **C163**: the default slices of curves are exactly `5, 6, …, 20`. -/
theorem C163_curve : curveSlices (K := K) = (List.range 16).map fun (i : Nat) => ((i + 5 : ℕ) : K) := by
  rw [curveSlices, linspace_eq 5 20 (n := 15) (by norm_num)]
  refine List.map_congr_left fun i hi => ?_
  rw [List.mem_range] at hi
  have f15 : fl (15 : K) = 15 := by
    have := fl_natCast (K := K) (m := 15) (by norm_num)
    exact_mod_cast this
  have fi : fl (i : K) = i := fl_natCast (by omega)
  have fi5 : fl ((i : K) + 5) = (i : K) + 5 := by
    have := fl_natCast (K := K) (m := i + 5) (by omega)
    exact_mod_cast this
  unfold spaced
  split
  · rename_i h
    rw [h]
    norm_num
  · rw [show (20 : K) - 5 = 15 by norm_num, f15]
    push_cast
    rw [div_self (by norm_num), fl_one, mul_one, fi, fi5]

/-- **C163**: the wind angles of slices start with 0, end with 360 and are in ascending order in between. -/
theorem C163_angles {n : Nat} (h0 : 0 < n) (hn : n ≤ 2 ^ 50) :
    (sliceAngles (K := K) (n + 1))[0]? = some 0 ∧ (sliceAngles (K := K) (n + 1))[n]? = some 360 ∧
    (sliceAngles (K := K) (n + 1)).Pairwise (· ≤ ·) ∧ ∀ x ∈ sliceAngles (K := K) (n + 1), 0 ≤ x ∧ x ≤ 360 := by
  have h2 : fl (360 : K) = 360 := by
    have := fl_natCast (K := K) (m := 360) (by norm_num)
    exact_mod_cast this
  obtain ⟨a, b, -⟩ := C163_ends (b := (360 : K)) fl_zero h0
  obtain ⟨c, d⟩ := C163_sorted fl_zero h2 (by norm_num) h0 hn
  exact ⟨a, b, c, d⟩

/-! ## Examples -/

/-- Intermediate wind speeds are rounded. -/
example : windSpeeds (K := ℚ) [] (.list [10, 11]) (some 2) = .ok [10, fl (31 / 3), fl (32 / 3), 11] ∧ fl (31 / 3 : ℚ) ≠ 31 / 3 := by
  decide +kernel

example : (linspace (0 : ℚ) 20 20).Pairwise (· < ·) :=
  C163_strict (K := ℚ) (M := 20) (n := 19) (by norm_num) (by norm_num) (by norm_num) (by norm_num)

/-- Outside of the condition of `C163_strict`: between neighbouring doubles there is no number. -/
theorem C163_strict_bound_needed : linspace (1 : ℚ) (1 + 2 ^ (-52 : ℤ)) 4 = [1, 1, 1 + 2 ^ (-52 : ℤ), 1 + 2 ^ (-52 : ℤ)] := by
  decide +kernel

end Verif.F64
