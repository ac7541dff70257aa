import Mathlib.Data.List.Sort
import Mathlib.MeasureTheory.Measure.Lebesgue.VolumeOfBalls
import Verif.Props.SmallestCircle
import Verif.Props.Spiral

/-!
# Property C136: the samplers that place points on a spiral return

The number of points of the spiral in the convex hull decreases with the scale. If it passes through the requested
number, then the search for the scale ends.
-/

namespace Verif.Sampler

/-! ### The search for the scale -/

theorem rescale_bisect {α : Type} (n : Nat) (generate : ℝ → List α)
    (hanti : ∀ s t, 0 < s → s ≤ t → (generate t).length ≤ (generate s).length) {a b : ℝ} (ha : 0 < a) (hab : a < b)
    (hn : ∀ t, a ≤ t → t ≤ b → (generate t).length = n) : ∀ (k : Nat) (lb ub : ℝ), 0 ≤ lb → lb ≤ a → b ≤ ub →
    ub - lb ≤ 2 ^ k * (b - a) → ∃ m, ∀ fuel, m ≤ fuel → ∃ out,
      rescaleLoop n generate fuel lb (some ub) ((ub + lb) / 2) (generate ((ub + lb) / 2)) = some out := by
  intro k
  induction k with
  | zero =>
    intro lb ub h0 h1 h2 h3
    have e1 : lb = a := by linarith
    have e2 : ub = b := by linarith
    subst e1; subst e2
    refine ⟨1, fun fuel hf => ?_⟩
    obtain ⟨f, rfl⟩ : ∃ f, fuel = f + 1 := ⟨fuel - 1, by omega⟩
    have hlen : (generate ((ub + lb) / 2)).length = n := hn _ (by linarith) (by linarith)
    exact ⟨_, by rw [rescaleLoop, if_neg (not_not.2 hlen)]⟩
  | succ k ih =>
    intro lb ub h0 h1 h2 h3
    set t := (ub + lb) / 2 with ht
    have t0 : 0 < t := by linarith
    by_cases hlen : (generate t).length = n
    · refine ⟨1, fun fuel hf => ?_⟩
      obtain ⟨f, rfl⟩ : ∃ f, fuel = f + 1 := ⟨fuel - 1, by omega⟩
      exact ⟨_, by rw [rescaleLoop, if_neg (not_not.2 hlen)]⟩
    · by_cases hgt : n < (generate t).length
      · have hta : t < a := by
          by_contra hn'
          have := hanti a t ha (not_lt.1 hn')
          rw [hn a le_rfl hab.le] at this
          omega
        obtain ⟨m, hm⟩ := ih t ub t0.le hta.le h2 (by rw [pow_succ] at h3; linarith)
        refine ⟨m + 1, fun fuel hf => ?_⟩
        obtain ⟨f, rfl⟩ : ∃ f, fuel = f + 1 := ⟨fuel - 1, by omega⟩
        obtain ⟨out, ho⟩ := hm f (by omega)
        exact ⟨out, by rw [rescaleLoop, if_pos hlen]; simpa only [hgt, if_true] using ho⟩
      · have htb : b < t := by
          by_contra hn'
          have := hanti t b t0 (not_lt.1 hn')
          rw [hn b hab.le le_rfl] at this
          omega
        obtain ⟨m, hm⟩ := ih lb t h0 h1 htb.le (by rw [pow_succ] at h3; linarith)
        refine ⟨m + 1, fun fuel hf => ?_⟩
        obtain ⟨f, rfl⟩ : ∃ f, fuel = f + 1 := ⟨fuel - 1, by omega⟩
        obtain ⟨out, ho⟩ := hm f (by omega)
        exact ⟨out, by rw [rescaleLoop, if_pos hlen]; simpa only [hgt, if_false] using ho⟩

theorem rescale_double {α : Type} (n : Nat) (generate : ℝ → List α)
    (hanti : ∀ s t, 0 < s → s ≤ t → (generate t).length ≤ (generate s).length) {a b : ℝ} (ha : 0 < a) (hab : a < b)
    (hn : ∀ t, a ≤ t → t ≤ b → (generate t).length = n) : ∀ (k : Nat) (lb t : ℝ), 0 ≤ lb → lb ≤ a → 0 < t →
    a ≤ 2 ^ k * t → ∃ m, ∀ fuel, m ≤ fuel → ∃ out, rescaleLoop n generate fuel lb none t (generate t) = some out := by
  intro k
  induction k with
  | zero =>
    intro lb t h0 h1 t0 hk
    by_cases hlen : (generate t).length = n
    · refine ⟨1, fun fuel hf => ?_⟩
      obtain ⟨f, rfl⟩ : ∃ f, fuel = f + 1 := ⟨fuel - 1, by omega⟩
      exact ⟨_, by rw [rescaleLoop, if_neg (not_not.2 hlen)]⟩
    · exact finish hanti ha hab hn lb t h0 h1 t0 hlen (by
        have := hanti a t ha (by simpa using hk)
        rw [hn a le_rfl hab.le] at this
        omega)
  | succ k ih =>
    intro lb t h0 h1 t0 hk
    by_cases hlen : (generate t).length = n
    · refine ⟨1, fun fuel hf => ?_⟩
      obtain ⟨f, rfl⟩ : ∃ f, fuel = f + 1 := ⟨fuel - 1, by omega⟩
      exact ⟨_, by rw [rescaleLoop, if_neg (not_not.2 hlen)]⟩
    · by_cases hgt : n < (generate t).length
      · have hta : t < a := by
          by_contra hn'
          have := hanti a t ha (not_lt.1 hn')
          rw [hn a le_rfl hab.le] at this
          omega
        obtain ⟨m, hm⟩ := ih t (t * 2) t0.le hta.le (by linarith) (by rw [pow_succ] at hk; linarith)
        refine ⟨m + 1, fun fuel hf => ?_⟩
        obtain ⟨f, rfl⟩ : ∃ f, fuel = f + 1 := ⟨fuel - 1, by omega⟩
        obtain ⟨out, ho⟩ := hm f (by omega)
        exact ⟨out, by rw [rescaleLoop, if_pos hlen]; simpa only [hgt, if_true] using ho⟩
      · exact finish hanti ha hab hn lb t h0 h1 t0 hlen hgt
where
  finish {α : Type} {n : Nat} {generate : ℝ → List α}
      (hanti : ∀ s t, 0 < s → s ≤ t → (generate t).length ≤ (generate s).length) {a b : ℝ} (ha : 0 < a) (hab : a < b)
      (hn : ∀ t, a ≤ t → t ≤ b → (generate t).length = n) (lb t : ℝ) (h0 : 0 ≤ lb) (h1 : lb ≤ a) (t0 : 0 < t)
      (hlen : ¬ (generate t).length = n) (hgt : ¬ n < (generate t).length) :
      ∃ m, ∀ fuel, m ≤ fuel → ∃ out, rescaleLoop n generate fuel lb none t (generate t) = some out := by
    have htb : b < t := by
      by_contra hn'
      have := hanti t b t0 (not_lt.1 hn')
      rw [hn b hab.le le_rfl] at this
      omega
    obtain ⟨k, hk⟩ := pow_unbounded_of_one_lt ((t - lb) / (b - a)) (one_lt_two (α := ℝ))
    have hk' : t - lb ≤ 2 ^ k * (b - a) := by
      rw [div_lt_iff₀ (by linarith)] at hk
      exact hk.le
    obtain ⟨m, hm⟩ := rescale_bisect n generate hanti ha hab hn k lb t h0 h1 htb.le hk'
    refine ⟨m + 1, fun fuel hf => ?_⟩
    obtain ⟨f, rfl⟩ : ∃ f, fuel = f + 1 := ⟨fuel - 1, by omega⟩
    obtain ⟨out, ho⟩ := hm f (by omega)
    exact ⟨out, by rw [rescaleLoop, if_pos hlen]; simpa only [hgt, if_false] using ho⟩

/-- **C136.** If the number of generated points does not increase with the scale and is the requested number for the
scales of some interval, then the search for the scale returns, whatever scale it starts with. -/
theorem C136_search {α : Type} (n : Nat) (generate : ℝ → List α)
    (hanti : ∀ s t, 0 < s → s ≤ t → (generate t).length ≤ (generate s).length) {a b : ℝ} (ha : 0 < a) (hab : a < b)
    (hn : ∀ t, a ≤ t → t ≤ b → (generate t).length = n) {start : ℝ} (hs : 0 < start) :
    ∃ m, ∀ fuel, m ≤ fuel → ∃ out, binaryRescale n generate start fuel = some out ∧ out.length = n := by
  obtain ⟨k, hk⟩ := pow_unbounded_of_one_lt (a / start) (one_lt_two (α := ℝ))
  rw [div_lt_iff₀ hs] at hk
  obtain ⟨m, hm⟩ := rescale_double n generate hanti ha hab hn k 0 start le_rfl ha.le hs hk.le
  refine ⟨m, fun fuel hf => ?_⟩
  obtain ⟨out, ho⟩ := hm fuel hf
  exact ⟨out, ho, (C30_rescale n generate start fuel ho).1⟩

example : ∃ m, ∀ fuel, m ≤ fuel → ∃ out, binaryRescale 2 (fun t : ℝ => if t ≤ 3 then [(), ()] else []) 10 fuel = some out ∧
    out.length = 2 :=
  C136_search 2 (fun t : ℝ => if t ≤ 3 then [(), ()] else []) (fun s t _ h => by
    by_cases ht : t ≤ 3
    · simp [ht, h.trans ht]
    · simp [ht]) (a := 1) (b := 2) one_pos (by norm_num) (fun t _ h => by simp [h.trans (by norm_num : (2 : ℝ) ≤ 3)]) (by norm_num)

/-! ### Points leaving the hull -/

/-- The ray through `q` leaves the hull at the scale `T`. -/
def LeavesAt (In : ℝ → Prop) (T : ℝ) : Prop := 0 < T ∧ ∀ t, 0 < t → (In t ↔ t ≤ T)

theorem ray_cases (mid q : ℝ × ℝ) (ineqs : List (Facet ℝ)) (hmid : Inside ineqs mid) :
    (∀ t, 0 < t → Inside ineqs (mid.1 + t * q.1, mid.2 + t * q.2)) ∨
    (∀ t, 0 < t → ¬ Inside ineqs (mid.1 + t * q.1, mid.2 + t * q.2)) ∨
    ∃ T, LeavesAt (fun t => Inside ineqs (mid.1 + t * q.1, mid.2 + t * q.2)) T := by
  induction ineqs with
  | nil => exact Or.inl fun t _ => by simp [Inside]
  | cons f fs ih =>
    obtain ⟨a, b, c⟩ := f
    have cons : ∀ p : ℝ × ℝ, Inside ((a, b, c) :: fs) p ↔ a * p.1 + b * p.2 ≤ -c ∧ Inside fs p := by
      intro p
      constructor
      · intro h
        exact ⟨h a b c (by simp), fun a' b' c' h' => h a' b' c' (List.mem_cons_of_mem _ h')⟩
      · rintro ⟨h1, h2⟩ a' b' c' h'
        rcases List.mem_cons.1 h' with h' | h'
        · simp only [Prod.mk.injEq] at h'
          obtain ⟨rfl, rfl, rfl⟩ := h'
          exact h1
        · exact h2 a' b' c' h'
    obtain ⟨hg, hfs⟩ := (cons mid).1 hmid
    simp only [cons, LeavesAt]
    set s := a * q.1 + b * q.2 with hs
    set g := -c - (a * mid.1 + b * mid.2) with hg'
    have g0 : 0 ≤ g := by linarith
    have hone : ∀ t, a * (mid.1 + t * q.1) + b * (mid.2 + t * q.2) ≤ -c ↔ t * s ≤ g := by
      intro t
      rw [hs, hg']
      constructor <;> intro h <;> linarith
    simp only [hone]
    by_cases hs0 : s ≤ 0
    · have hall : ∀ t, 0 < t → t * s ≤ g := fun t ht => le_trans (mul_nonpos_of_nonneg_of_nonpos ht.le hs0) g0
      rcases ih hfs with h | h | ⟨T, hT, h⟩
      · exact Or.inl fun t ht => ⟨hall t ht, h t ht⟩
      · exact Or.inr (Or.inl fun t ht h' => h t ht h'.2)
      · exact Or.inr (Or.inr ⟨T, hT, fun t ht => ⟨fun h' => (h t ht).1 h'.2, fun h' => ⟨hall t ht, (h t ht).2 h'⟩⟩⟩)
    · push Not at hs0
      have hone : ∀ t, t * s ≤ g ↔ t ≤ g / s := fun t => (le_div_iff₀ hs0).symm
      simp only [hone]
      by_cases hg0 : g / s ≤ 0
      · exact Or.inr (Or.inl fun t ht h' => absurd (h'.1.trans hg0) (not_le.2 ht))
      · push Not at hg0
        rcases ih hfs with h | h | ⟨T, hT, h⟩
        · exact Or.inr (Or.inr ⟨g / s, hg0, fun t ht => ⟨fun h' => h'.1, fun h' => ⟨h', h t ht⟩⟩⟩)
        · exact Or.inr (Or.inl fun t ht h' => h t ht h'.2)
        · refine Or.inr (Or.inr ⟨min (g / s) T, lt_min hg0 hT, fun t ht => ?_⟩)
          rw [le_min_iff]
          exact and_congr_right fun _ => h t ht

/-- The number of members which are not smaller passes through all values. -/
theorem count_values : ∀ Ts : List ℝ, Ts.Pairwise (· > ·) → (∀ x ∈ Ts, 0 < x) → ∀ M, 0 < M → (∀ x ∈ Ts, x < M) →
    ∀ m, m ≤ Ts.length → ∃ a b, 0 < a ∧ a < b ∧ b ≤ M ∧
      ∀ t, a ≤ t → t ≤ b → Ts.countP (fun x => decide (t ≤ x)) = m := by
  intro Ts
  induction Ts with
  | nil =>
    intro _ _ M hM _ m hm
    refine ⟨M / 2, M, by linarith, by linarith, le_rfl, fun t _ _ => ?_⟩
    simp only [List.length_nil] at hm
    simp; omega
  | cons x rest ih =>
    intro hp hpos M hM hlt m hm
    obtain ⟨hx, hp⟩ := List.pairwise_cons.1 hp
    have x0 := hpos x (by simp)
    cases m with
    | zero =>
      have hxM := hlt x (by simp)
      refine ⟨(x + M) / 2, M, by linarith, by linarith, le_rfl, fun t ht _ => ?_⟩
      rw [List.countP_eq_zero]
      intro y hy
      have : y ≤ x := by
        rcases List.mem_cons.1 hy with rfl | hy
        · exact le_rfl
        · exact (hx y hy).le
      simp only [decide_eq_true_eq, not_le]
      linarith
    | succ m =>
      obtain ⟨a, b, a0, hab, hb, h⟩ := ih hp (fun y hy => hpos y (List.mem_cons_of_mem _ hy)) x x0 hx m
        (by simpa using hm)
      refine ⟨a, b, a0, hab, hb.trans (hlt x (by simp)).le, fun t h1 h2 => ?_⟩
      rw [List.countP_cons, h t h1 h2]
      simp [h2.trans hb]

open Classical in
/-- Points leaving one after another: their number passes through all values. -/
theorem leave_values {α : Type} (L : List α) (In : α → ℝ → Prop)
    (hcases : ∀ q ∈ L, (∀ t, 0 < t → In q t) ∨ (∀ t, 0 < t → ¬ In q t) ∨ ∃ T, LeavesAt (In q) T)
    (hties : L.Pairwise fun p q => ¬ ∃ T, LeavesAt (In p) T ∧ LeavesAt (In q) T) {n : Nat} {t0 t1 : ℝ} (ht0 : 0 < t0)
    (h0 : n ≤ L.countP (fun q => decide (In q t0))) (ht1 : 0 < t1) (h1 : L.countP (fun q => decide (In q t1)) ≤ n) :
    ∃ a b, 0 < a ∧ a < b ∧ ∀ t, a ≤ t → t ≤ b → L.countP (fun q => decide (In q t)) = n := by
  have key : ∃ (F : Nat) (Ts : List ℝ), (∀ x ∈ Ts, 0 < x ∧ ∃ q ∈ L, LeavesAt (In q) x) ∧
      (∀ t, 0 < t → L.countP (fun q => decide (In q t)) = F + Ts.countP (fun x => decide (t ≤ x))) ∧ Ts.Nodup := by
    clear h0 h1
    induction L with
    | nil => exact ⟨0, [], by simp, by simp, by simp⟩
    | cons q L ih =>
      obtain ⟨hq, hties⟩ := List.pairwise_cons.1 hties
      obtain ⟨F, Ts, hTs, hcount, hnd⟩ := ih (fun p hp => hcases p (List.mem_cons_of_mem _ hp)) hties
      have hTs' : ∀ x ∈ Ts, 0 < x ∧ ∃ p ∈ q :: L, LeavesAt (In p) x := by
        intro x hx
        obtain ⟨x0, p, hp, hl⟩ := hTs x hx
        exact ⟨x0, p, List.mem_cons_of_mem _ hp, hl⟩
      rcases hcases q (by simp) with h | h | ⟨T, hT⟩
      · refine ⟨F + 1, Ts, hTs', fun t ht => ?_, hnd⟩
        rw [List.countP_cons, hcount t ht]
        simp only [h t ht, decide_true, if_true]
        omega
      · refine ⟨F, Ts, hTs', fun t ht => ?_, hnd⟩
        rw [List.countP_cons, hcount t ht]
        simp [h t ht]
      · refine ⟨F, T :: Ts, ?_, fun t ht => ?_, ?_⟩
        · intro x hx
          rcases List.mem_cons.1 hx with rfl | hx
          · exact ⟨hT.1, q, by simp, hT⟩
          · exact hTs' x hx
        · rw [List.countP_cons, List.countP_cons, hcount t ht]
          simp only [hT.2 t ht]
          omega
        · refine List.nodup_cons.2 ⟨fun hmem => ?_, hnd⟩
          obtain ⟨-, p, hp, hl⟩ := hTs T hmem
          exact hq p hp ⟨T, hT, hl⟩
  obtain ⟨F, Ts, hTs, hcount, hnd⟩ := key
  rw [hcount t0 ht0] at h0
  rw [hcount t1 ht1] at h1
  set Us := Ts.insertionSort (· ≥ ·) with hUs
  have hperm : Us.Perm Ts := List.perm_insertionSort _ _
  have hsorted : Us.Pairwise (· > ·) := by
    have h1 : Us.Pairwise (· ≥ ·) := List.pairwise_insertionSort _ _
    have h2 : Us.Pairwise (· ≠ ·) := hperm.nodup_iff.2 hnd
    exact (h1.and h2).imp fun h => lt_of_le_of_ne h.1 h.2.symm
  have hpos : ∀ x ∈ Us, 0 < x := fun x hx => (hTs x (hperm.mem_iff.1 hx)).1
  have hM : ∃ M, 0 < M ∧ ∀ x ∈ Us, x < M := by
    clear_value Us
    clear hperm hsorted hUs
    induction Us with
    | nil => exact ⟨1, one_pos, by simp⟩
    | cons x xs ih =>
      obtain ⟨M, hM, h⟩ := ih fun y hy => hpos y (List.mem_cons_of_mem _ hy)
      refine ⟨max M (x + 1), lt_max_of_lt_left hM, fun y hy => ?_⟩
      rcases List.mem_cons.1 hy with rfl | hy
      · exact lt_max_of_lt_right (by linarith)
      · exact lt_max_of_lt_left (h y hy)
  obtain ⟨M, hM0, hM⟩ := hM
  have hlen : Ts.countP (fun x => decide (t0 ≤ x)) ≤ Ts.length := List.countP_le_length
  obtain ⟨a, b, a0, hab, -, h⟩ := count_values Us hsorted hpos M hM0 hM (n - F) (by
    rw [hperm.length_eq]; omega)
  refine ⟨a, b, a0, hab, fun t h2 h3 => ?_⟩
  rw [hcount t (lt_of_lt_of_le a0 h2), ← hperm.countP_eq, h t h2 h3]
  omega

/-- No two points of the spiral leave the hull at the same scale. -/
def NoTies (base : List (ℝ × ℝ)) (mid : ℝ × ℝ) (ineqs : List (Facet ℝ)) : Prop :=
  base.Pairwise fun p q => ¬ ∃ T, 0 < T ∧
    (∀ t, 0 < t → (Inside ineqs (mid.1 + t * p.1, mid.2 + t * p.2) ↔ t ≤ T)) ∧
    ∀ t, 0 < t → (Inside ineqs (mid.1 + t * q.1, mid.2 + t * q.2) ↔ t ≤ T)

open Classical in
theorem sampleGenerator_length (base : List (ℝ × ℝ)) (mid : ℝ × ℝ) (ineqs : List (Facet ℝ)) (t : ℝ) :
    (sampleGenerator base mid ineqs t).length =
      base.countP fun q => decide (Inside ineqs (mid.1 + t * q.1, mid.2 + t * q.2)) := by
  rw [sampleGenerator, List.filter_map, List.length_map, ← List.countP_eq_length_filter]
  congr 1
  funext q
  simp only [Function.comp]
  rw [Bool.eq_iff_iff, inHull_iff, decide_eq_true_eq]

theorem inside_smaller {mid q : ℝ × ℝ} {ineqs : List (Facet ℝ)} (hmid : Inside ineqs mid) {s t : ℝ} (hs : 0 < s)
    (hst : s ≤ t) (h : Inside ineqs (mid.1 + t * q.1, mid.2 + t * q.2)) :
    Inside ineqs (mid.1 + s * q.1, mid.2 + s * q.2) := by
  rcases ray_cases mid q ineqs hmid with h1 | h1 | ⟨T, -, h1⟩
  · exact h1 s hs
  · exact absurd h (h1 t (lt_of_lt_of_le hs hst))
  · exact (h1 s hs).2 (hst.trans ((h1 t (lt_of_lt_of_le hs hst)).1 h))

theorem sampleGenerator_antitone {base : List (ℝ × ℝ)} {mid : ℝ × ℝ} {ineqs : List (Facet ℝ)} (hmid : Inside ineqs mid)
    {s t : ℝ} (hs : 0 < s) (hst : s ≤ t) :
    (sampleGenerator base mid ineqs t).length ≤ (sampleGenerator base mid ineqs s).length := by
  classical
  rw [sampleGenerator_length, sampleGenerator_length]
  refine List.countP_mono_left fun q _ h => ?_
  rw [decide_eq_true_eq] at h ⊢
  exact inside_smaller hmid hs hst h

/-- **C136.** If the midpoint of the spiral lies in the convex hull, no two points of the spiral leave the hull at the
same scale, and there is a scale for which at least, and one for which at most, the requested number of points lies in
the hull, then the search for the scale returns. -/
theorem C136_rescale {base : List (ℝ × ℝ)} {mid : ℝ × ℝ} {ineqs : List (Facet ℝ)} (hmid : Inside ineqs mid)
    (hties : NoTies base mid ineqs) {n : Nat} {t0 t1 start : ℝ} (ht0 : 0 < t0) (ht1 : 0 < t1)
    (h0 : n ≤ (sampleGenerator base mid ineqs t0).length) (h1 : (sampleGenerator base mid ineqs t1).length ≤ n)
    (hs : 0 < start) :
    ∃ m, ∀ fuel, m ≤ fuel → ∃ out, binaryRescale n (sampleGenerator base mid ineqs) start fuel = some out ∧
      out.length = n := by
  classical
  rw [sampleGenerator_length] at h0 h1
  obtain ⟨a, b, ha, hab, h⟩ := leave_values base
    (fun q t => Inside ineqs (mid.1 + t * q.1, mid.2 + t * q.2)) (fun q _ => ray_cases mid q ineqs hmid)
    (hties.imp fun h ⟨T, h1, h2⟩ => h ⟨T, h1.1, h1.2, h2.2⟩) ht0 h0 ht1 h1
  exact C136_search n _ (fun s t hs hst => sampleGenerator_antitone hmid hs hst) ha hab
    (fun t h1 h2 => by rw [sampleGenerator_length]; exact h t h1 h2) hs

/-! ### The samplers -/

/-- **C136.** The midpoint of the smallest enclosing circle lies in the convex hull. -/
theorem C136_midpoint {pts : List (ℝ × ℝ)} (hne : pts ≠ []) {ineqs : List (Facet ℝ)} (hhull : IsHull pts ineqs)
    {mid : ℝ × ℝ} {r : ℝ} (hL : Least pts [] (mid, r)) : mid ∈ convexHull ℝ {q | q ∈ pts} := by
  rw [← hhull]
  intro a b c hf
  by_contra hn
  push Not at hn
  set g := a * mid.1 + b * mid.2 + c with hg
  have g0 : 0 < g := by linarith
  have hpts : ∀ p ∈ pts, a * p.1 + b * p.2 ≤ -c := fun p hp =>
    (hhull p).2 (subset_convexHull ℝ _ hp) a b c hf
  set N := a ^ 2 + b ^ 2 with hN
  have N0 : 0 < N := by
    by_contra h
    have ha : a = 0 := by nlinarith [sq_nonneg a, sq_nonneg b]
    have hb : b = 0 := by nlinarith [sq_nonneg a, sq_nonneg b]
    obtain ⟨p, hp⟩ := List.exists_mem_of_ne_nil pts hne
    have := hpts p hp
    rw [ha, hb] at this hn
    linarith
  -- moving the midpoint towards the half plane makes all distances smaller
  set e := g / N with he
  have e0 : 0 < e := div_pos g0 N0
  have heN : e * N = g := div_mul_cancel₀ _ N0.ne'
  have key : ∀ p ∈ pts, (p.1 - (mid.1 - e * a)) ^ 2 + (p.2 - (mid.2 - e * b)) ^ 2 ≤ r ^ 2 - e * g := by
    intro p hp
    have h1 := hL.around.inside p hp
    have h2 := hpts p hp
    simp only [sqDist] at h1
    have h3 : a * (p.1 - mid.1) + b * (p.2 - mid.2) ≤ -g := by rw [hg]; linarith
    have h4 := mul_le_mul_of_nonneg_left h3 e0.le
    have h5 : e * (e * N) = e * g := by rw [heN]
    rw [hN] at h5
    nlinarith
  obtain ⟨p, hp⟩ := List.exists_mem_of_ne_nil pts hne
  have s0 : 0 ≤ r ^ 2 - e * g := le_trans (by positivity) (key p hp)
  have hle := hL.least ((mid.1 - e * a, mid.2 - e * b), Real.sqrt (r ^ 2 - e * g))
    ⟨Real.sqrt_nonneg _, fun p hp => by simpa only [sqDist, Real.sq_sqrt s0] using key p hp, by simp⟩
  have h2 := pow_le_pow_left₀ hL.around.nonneg hle 2
  simp only [Real.sq_sqrt s0] at h2
  nlinarith [mul_pos e0 g0]

open MeasureTheory in
/-- A set inside of a disc has at most the area of the disc. -/
theorem area_le {S : Set (ℝ × ℝ)} {m : ℝ × ℝ} {r : ℝ} (hr : 0 ≤ r)
    (h : ∀ p ∈ S, (p.1 - m.1) ^ 2 + (p.2 - m.2) ^ 2 ≤ r ^ 2) : (volume S).toReal ≤ Real.pi * r ^ 2 := by
  have hsub : Complex.measurableEquivRealProd ⁻¹' S ⊆ Metric.closedBall (⟨m.1, m.2⟩ : ℂ) r := by
    intro z hz
    have := h _ hz
    simp only [Complex.measurableEquivRealProd_apply] at this
    rw [Metric.mem_closedBall, Complex.dist_eq_re_im, Real.sqrt_le_left hr]
    exact this
  have hpre : volume (Complex.measurableEquivRealProd ⁻¹' S) = volume S :=
    Complex.volume_preserving_equiv_real_prod.measure_preimage_equiv S
  have hle : volume S ≤ ENNReal.ofReal r ^ 2 * NNReal.pi := by
    rw [← hpre, ← Complex.volume_closedBall]
    exact measure_mono hsub
  have hfin : ENNReal.ofReal r ^ 2 * (NNReal.pi : ENNReal) ≠ ⊤ :=
    ENNReal.mul_ne_top (ENNReal.pow_ne_top ENNReal.ofReal_ne_top) ENNReal.coe_ne_top
  refine (ENNReal.toReal_mono hfin hle).trans (le_of_eq ?_)
  rw [ENNReal.toReal_mul, ENNReal.toReal_pow, ENNReal.toReal_ofReal hr, ENNReal.coe_toReal, NNReal.coe_real_pi]
  ring

/-- **C136.** If the midpoint lies inside of the hull and not on its boundary, then all points of the spiral lie in the
hull for small scales. -/
theorem C136_interior {mid : ℝ × ℝ} {ineqs : List (Facet ℝ)}
    (hint : ∀ a b c, (a, b, c) ∈ ineqs → a * mid.1 + b * mid.2 < -c) (base : List (ℝ × ℝ)) :
    ∃ t, 0 < t ∧ (sampleGenerator base mid ineqs t).length = base.length := by
  classical
  have key : ∀ q ∈ base, ∃ e, 0 < e ∧ ∀ t, t ≤ e → 0 < t → ∀ f ∈ ineqs,
      f.1 * (mid.1 + t * q.1) + f.2.1 * (mid.2 + t * q.2) ≤ -f.2.2 := by
    intro q _
    obtain ⟨e, he, h⟩ := eventually_all ineqs
      (Q := fun f t => 0 < t → f.1 * (mid.1 + t * q.1) + f.2.1 * (mid.2 + t * q.2) ≤ -f.2.2) (by
        intro f hf
        have hlt := hint f.1 f.2.1 f.2.2 hf
        set s := f.1 * q.1 + f.2.1 * q.2 with hs
        set g := -f.2.2 - (f.1 * mid.1 + f.2.1 * mid.2) with hg
        have g0 : 0 < g := by linarith
        refine ⟨g / (|s| + 1), by positivity, fun t ht t0 => ?_⟩
        rw [le_div_iff₀ (by positivity)] at ht
        have h1 : t * s ≤ t * |s| := mul_le_mul_of_nonneg_left (le_abs_self s) t0.le
        have h2 : t * s ≤ g := by linarith
        rw [hs, hg] at h2
        linarith)
    exact ⟨e, he, fun t ht t0 f hf => h t ht f hf t0⟩
  obtain ⟨e, he, h⟩ := eventually_all base key
  refine ⟨e, he, ?_⟩
  rw [sampleGenerator_length, List.countP_eq_length]
  intro q hq
  rw [decide_eq_true_eq]
  exact fun a b c hf => h e le_rfl q hq he (a, b, c) hf

example : ∃ t : ℝ, 0 < t ∧ (sampleGenerator [(1, 0), (0, 1), (-1, -1)] (1 / 4, 1 / 4) [(-1, 0, 0), (0, -1, 0), (1, 1, -1)] t).length = 3 :=
  C136_interior (by
    intro a b c h
    simp only [List.mem_cons, Prod.mk.injEq, List.not_mem_nil, or_false] at h
    rcases h with ⟨rfl, rfl, rfl⟩ | ⟨rfl, rfl, rfl⟩ | ⟨rfl, rfl, rfl⟩ <;> norm_num) [(1, 0), (0, 1), (-1, -1)]

/-- Points of the spiral other than its midpoint leave the hull. -/
theorem eventually_outside {pts : List (ℝ × ℝ)} {ineqs : List (Facet ℝ)} (hhull : IsHull pts ineqs) {mid : ℝ × ℝ}
    (hmid : Inside ineqs mid) (base : List (ℝ × ℝ)) :
    ∃ t, 0 < t ∧ ∀ q ∈ base, q ≠ (0, 0) → ¬ Inside ineqs (mid.1 + t * q.1, mid.2 + t * q.2) := by
  obtain ⟨d, hd⟩ := exists_around (pts.map fun p => (p.1 - mid.1, p.2 - mid.2))
  obtain ⟨R, R0, hR⟩ : ∃ R, 0 < R ∧ ∀ p ∈ pts, Real.sqrt ((p.1 - mid.1) ^ 2 + (p.2 - mid.2) ^ 2) < R := by
    clear hd d hhull
    induction pts with
    | nil => exact ⟨1, one_pos, by simp⟩
    | cons p ps ih =>
      obtain ⟨R, R0, hR⟩ := ih
      refine ⟨max R (Real.sqrt ((p.1 - mid.1) ^ 2 + (p.2 - mid.2) ^ 2) + 1), lt_max_of_lt_left R0, fun q hq => ?_⟩
      rcases List.mem_cons.1 hq with rfl | hq
      · exact lt_max_of_lt_right (by linarith)
      · exact lt_max_of_lt_left (hR q hq)
  have hb : ∀ p, Inside ineqs p → (p.1 - mid.1) ^ 2 + (p.2 - mid.2) ^ 2 ≤ R ^ 2 := by
    intro p hp
    have := hull_in_disc hR ((hhull p).1 hp)
    rwa [Real.sqrt_le_left R0.le] at this
  induction base with
  | nil => exact ⟨1, one_pos, by simp⟩
  | cons q qs ih =>
    obtain ⟨t, t0, ht⟩ := ih
    by_cases hq : q = (0, 0)
    · refine ⟨t, t0, fun q' hq' hne => ?_⟩
      rcases List.mem_cons.1 hq' with rfl | hq'
      · exact absurd hq hne
      · exact ht q' hq' hne
    · have N0 : 0 < q.1 ^ 2 + q.2 ^ 2 := by
        by_contra h
        have h1 : q.1 = 0 := by nlinarith [sq_nonneg q.1, sq_nonneg q.2]
        have h2 : q.2 = 0 := by nlinarith [sq_nonneg q.1, sq_nonneg q.2]
        exact hq (Prod.ext h1 h2)
      obtain ⟨u, u0, hu⟩ : ∃ u : ℝ, 0 < u ∧ R ^ 2 < u ^ 2 * (q.1 ^ 2 + q.2 ^ 2) := by
        refine ⟨R ^ 2 / (q.1 ^ 2 + q.2 ^ 2) + 1, by positivity, ?_⟩
        have h1 : R ^ 2 / (q.1 ^ 2 + q.2 ^ 2) * (q.1 ^ 2 + q.2 ^ 2) = R ^ 2 := div_mul_cancel₀ _ N0.ne'
        have h2 : 0 < R ^ 2 / (q.1 ^ 2 + q.2 ^ 2) := by positivity
        nlinarith [mul_pos h2 N0, mul_pos (mul_pos h2 h2) N0]
      refine ⟨max t u, lt_max_of_lt_left t0, fun q' hq' hne hin => ?_⟩
      rcases List.mem_cons.1 hq' with rfl | hq'
      · have h1 := hb _ (inside_smaller hmid u0 (le_max_right t u) hin)
        simp only [add_sub_cancel_left] at h1
        nlinarith
      · exact ht q' hq' hne (inside_smaller hmid t0 (le_max_left t u) hin)

theorem spiral_returns {base : Nat → List (ℝ × ℝ)} (hb : ∀ k, 0 < k → (base k).Nodup)
    {hull : Hull} {shuffle : List (ℝ × ℝ) → List (ℝ × ℝ)} (hsh : ∀ l, (shuffle l).Perm l) {n : Nat} (hn : 0 < n)
    {pts : List (ℝ × ℝ)} {vol : ℝ} {ineqs : List (Facet ℝ)} (hh : hull pts = .ok (vol, ineqs))
    (hhull : IsHull pts ineqs) (hvol : vol = (MeasureTheory.volume (convexHull ℝ {q | q ∈ pts})).toReal)
    (hpos : 0 < vol) (hsep : Separated pts (1 / 10000)) {mid : ℝ × ℝ} {r : ℝ} (hL : Least pts [] (mid, r))
    (hint : ∃ t, 0 < t ∧ n ≤ (sampleGenerator (base (upperBound r vol n)) mid ineqs t).length)
    (hties : NoTies (base (upperBound r vol n)) mid ineqs) :
    ∃ m, ∀ fuel, m ≤ fuel → ∃ out, spiralSample base hull shuffle n fuel (rowsOf pts) = some (.ok out) := by
  classical
  have hne : pts ≠ [] := by
    rintro rfl
    simp [hvol] at hpos
  have hmid : Inside ineqs mid := (hhull mid).2 (C136_midpoint hne hhull hL)
  have hr : 0 < r := by
    rcases hL.around.nonneg.lt_or_eq with h | h
    · exact h
    · have := area_le (S := convexHull ℝ {q | q ∈ pts}) (m := mid) (r := r) hL.around.nonneg fun p hp =>
        convexHull_min (fun q hq => hL.around.inside q hq) (convex_disc mid (r ^ 2)) hp
      simp only at h
      rw [← hvol, ← h] at this
      simp at this
      linarith
  obtain ⟨c, hc, m1, hm1⟩ := makeCircle_least (pts := shuffle pts) (eps := 1 / 10000) (by norm_num) (by
    intro l hl h3 c hc p hp
    exact hsep l (fun q hq => (hsh pts).mem_iff.1 (hl q hq)) h3 c hc p ((hsh pts).mem_iff.1 hp))
  have hcc : c = (mid, r) := by
    refine least_unique hne ⟨hc.around.mono (fun p hp => Or.inl ((hsh pts).mem_iff.2 hp)) (by simp), fun e he =>
      hc.least e (he.mono (fun p hp => Or.inl ((hsh pts).mem_iff.1 hp)) (by simp))⟩ hL
  subst hcc
  obtain ⟨t0, ht0, h0⟩ := hint
  obtain ⟨t1, ht1, h1⟩ := eventually_outside hhull hmid (base (upperBound r vol n))
  have h1' : (sampleGenerator (base (upperBound r vol n)) mid ineqs t1).length ≤ n := by
    rw [sampleGenerator_length]
    refine le_trans (List.countP_mono_left (q := fun q => decide (q = ((0 : ℝ), (0 : ℝ)))) ?_) (le_trans ?_ hn)
    · intro q hq h
      rw [decide_eq_true_eq] at h ⊢
      by_contra hq0
      exact h1 q hq hq0 h
    · have := List.nodup_iff_count_le_one.1 (hb (upperBound r vol n) (by simp [upperBound])) ((0 : ℝ), (0 : ℝ))
      rw [List.count_eq_countP] at this
      refine le_trans (le_of_eq ?_) this
      congr 1
      funext q
      rw [Bool.eq_iff_iff, decide_eq_true_eq, beq_iff_eq]
  obtain ⟨m2, hm2⟩ := C136_rescale hmid hties ht0 ht1 h0 h1' hr
  refine ⟨max m1 m2, fun fuel hf => ?_⟩
  obtain ⟨out, ho, -⟩ := hm2 fuel ((le_max_right _ _).trans hf)
  refine ⟨out, ?_⟩
  unfold spiralSample
  simp only [rowsOf, toPlane_rows, hm1 fuel ((le_max_left _ _).trans hf), hh, hpos.ne', if_false, ho, Option.map_some]

theorem upperBound_ge {pts : List (ℝ × ℝ)} {vol : ℝ}
    (hvol : vol = (MeasureTheory.volume (convexHull ℝ {q | q ∈ pts})).toReal) (hpos : 0 < vol) {mid : ℝ × ℝ} {r : ℝ}
    (hL : Least pts [] (mid, r)) (n : Nat) : n + 10 ≤ upperBound r vol n := by
  have := area_le (S := convexHull ℝ {q | q ∈ pts}) (m := mid) (r := r) hL.around.nonneg fun p hp =>
    convexHull_min (fun q hq => hL.around.inside q hq) (convex_disc mid (r ^ 2)) hp
  rw [← hvol] at this
  have h1 : (n : ℝ) ≤ Real.pi * r ^ 2 * n / vol := by
    rw [le_div_iff₀ hpos, mul_comm]
    exact mul_le_mul_of_nonneg_right this (Nat.cast_nonneg n)
  have h2 : (n : ℤ) ≤ ⌊Real.pi * r ^ 2 * n / vol⌋ := Int.le_floor.2 (by exact_mod_cast h1)
  rw [upperBound]
  omega

/-- **C136.** The Fibonacci sampler returns the requested number of points, if the points are spread more than the
tolerance, the midpoint of their smallest circle is not on the boundary of their hull, and no two points of the spiral
leave the hull at the same scale. -/
theorem C136_fibonacci {hull : Hull} {shuffle : List (ℝ × ℝ) → List (ℝ × ℝ)} (hsh : ∀ l, (shuffle l).Perm l) {n : Nat}
    (hn : 0 < n) {pts : List (ℝ × ℝ)} {vol : ℝ} {ineqs : List (Facet ℝ)} (hh : hull pts = .ok (vol, ineqs))
    (hhull : IsHull pts ineqs) (hvol : vol = (MeasureTheory.volume (convexHull ℝ {q | q ∈ pts})).toReal)
    (hpos : 0 < vol) (hsep : Separated pts (1 / 10000)) {mid : ℝ × ℝ} {r : ℝ} (hL : Least pts [] (mid, r))
    (hint : ∀ a b c, (a, b, c) ∈ ineqs → a * mid.1 + b * mid.2 < -c)
    (hties : NoTies (fibonacciBase (upperBound r vol n)) mid ineqs) :
    ∃ m, ∀ fuel, m ≤ fuel → ∃ out, fibonacci hull shuffle n fuel (rowsOf pts) = some (.ok out) ∧ out.length = n := by
  obtain ⟨t, ht, hlen⟩ := C136_interior hint (fibonacciBase (upperBound r vol n))
  have hub := upperBound_ge hvol hpos hL n
  obtain ⟨m, hm⟩ := spiral_returns fibonacciBase_nodup hsh hn hh hhull hvol hpos hsep hL
    ⟨t, ht, by rw [hlen, fibonacciBase, List.length_map, List.length_range]; omega⟩ hties
  exact ⟨m, fun fuel hf => (hm fuel hf).imp fun out ho => ⟨ho, spiral_length ho⟩⟩
where
  spiral_length {base : Nat → List (ℝ × ℝ)} {hull : Hull} {shuffle : List (ℝ × ℝ) → List (ℝ × ℝ)} {n fuel : Nat}
      {rows : List (List ℝ)} {out : List (ℝ × ℝ)} (h : spiralSample base hull shuffle n fuel rows = some (.ok out)) :
      out.length = n := by
    unfold spiralSample at h
    split at h
    · simp at h
    · split at h
      · simp at h
      · simp at h
      · split at h
        · simp at h
        · split_ifs at h
          · simp at h
          · rw [Option.map_eq_some_iff] at h
            obtain ⟨o, ho, he⟩ := h
            simp only [Except.ok.injEq] at he
            subst he
            exact (C30_rescale _ _ _ _ ho).1

/-- **C136.** The same is true of the Archimedean sampler. -/
theorem C136_archimedean {hull : Hull} {shuffle : List (ℝ × ℝ) → List (ℝ × ℝ)} (hsh : ∀ l, (shuffle l).Perm l)
    {n : Nat} (hn : 0 < n) {pts : List (ℝ × ℝ)} (h2 : 2 ≤ pts.length) {vol : ℝ} {ineqs : List (Facet ℝ)}
    (hh : hull pts = .ok (vol, ineqs))
    (hhull : IsHull pts ineqs) (hvol : vol = (MeasureTheory.volume (convexHull ℝ {q | q ∈ pts})).toReal)
    (hpos : 0 < vol) (hsep : Separated pts (1 / 10000)) {mid : ℝ × ℝ} {r : ℝ} (hL : Least pts [] (mid, r))
    (hint : ∀ a b c, (a, b, c) ∈ ineqs → a * mid.1 + b * mid.2 < -c)
    (hties : NoTies (archimedeanBase (upperBound r vol n)) mid ineqs) :
    ∃ m, ∀ fuel, m ≤ fuel → ∃ out, archimedean hull shuffle n fuel (rowsOf pts) = some (.ok out) ∧ out.length = n := by
  obtain ⟨t, ht, hlen⟩ := C136_interior hint (archimedeanBase (upperBound r vol n))
  have hub := upperBound_ge hvol hpos hL n
  obtain ⟨m, hm⟩ := spiral_returns (fun k _ => archimedeanBase_nodup k) hsh hn hh hhull hvol hpos hsep hL
    ⟨t, ht, by rw [hlen, archimedeanBase, List.length_map, List.length_range]; omega⟩ hties
  refine ⟨m, fun fuel hf => (hm fuel hf).imp fun out ho => ⟨?_, C136_fibonacci.spiral_length ho⟩⟩
  rw [archimedean, if_neg (by rw [rowsOf, List.length_map]; omega), ho]

end Verif.Sampler
