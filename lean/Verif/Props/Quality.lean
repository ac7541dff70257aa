import Mathlib.Tactic.Linarith
import Mathlib.Tactic.NormNum
import Verif.Model.Quality
import Verif.Lemmas.Round
import Verif.Lemmas.Fold
import Verif.Lemmas.Dict

set_option linter.unusedSectionVars false

/-! # C83: quality assurance -/

namespace Verif.Quality

open Verif.Interp

variable {K : Type} [Field K] [LinearOrder K] [IsStrictOrderedRing K] [FloorRing K]

theorem differences_ok {pd : K → K → Except PyErr K} {f : K × K → K} {test : List (Pt K)}
    (h : ∀ p ∈ test, pd p.1.1 p.1.2 = .ok (f p.1)) : differences pd test = .ok (test.map fun p => |p.2 - f p.1|) := by
  apply mapM_ok_of
  intro p hp
  simp only [h p hp, bind, Except.bind]

theorem mean_bounds {l : List K} (hne : l ≠ []) {a b : K} (ha : ∀ x ∈ l, a ≤ x) (hb : ∀ x ∈ l, x ≤ b) :
    a ≤ mean l ∧ mean l ≤ b := by
  have hpos : (0 : K) < (l.length : K) := by exact_mod_cast List.length_pos_iff.2 hne
  unfold mean
  rw [le_div_iff₀ hpos, div_le_iff₀ hpos, mul_comm a, mul_comm b]
  exact ⟨length_mul_le_sum ha, sum_le_length_mul hb⟩

/-- `x` is the largest value of `f` on the list. -/
def IsMax {α : Type} (l : List α) (f : α → K) (x : K) : Prop := (∃ a ∈ l, f a = x) ∧ ∀ a ∈ l, f a ≤ x

/-- `x` is the smallest value of `f` on the list. -/
def IsMin {α : Type} (l : List α) (f : α → K) (x : K) : Prop := (∃ a ∈ l, f a = x) ∧ ∀ a ∈ l, x ≤ f a

theorem isMax_foldl {α : Type} {l : List α} {f : α → K} {d : K} {ds : List K} (h : l.map f = d :: ds) :
    IsMax l f (ds.foldl max d) := by
  obtain ⟨h1, h2⟩ := foldl_max_spec ds d
  rw [← h] at h1 h2
  exact ⟨by simpa using h1, fun a ha => h2 _ (List.mem_map_of_mem ha)⟩

theorem isMin_foldl {α : Type} {l : List α} {f : α → K} {d : K} {ds : List K} (h : l.map f = d :: ds) :
    IsMin l f (ds.foldl min d) := by
  obtain ⟨h1, h2⟩ := foldl_min_spec ds d
  rw [← h] at h1 h2
  exact ⟨by simpa using h1, fun a ha => h2 _ (List.mem_map_of_mem ha)⟩

/-- **C83.** `MinimalQualityAssurance` reports the largest and the smallest error, the average error and the average
quadratic error of the test data. -/
theorem C83_minimal {pd : K → K → Except PyErr K} {f : K × K → K} {test : List (Pt K)} (hne : test ≠ [])
    (h : ∀ p ∈ test, pd p.1.1 p.1.2 = .ok (f p.1)) :
    ∃ s, minimalCheck pd test = .ok s ∧ IsMax test (fun p => |p.2 - f p.1|) s.maxError ∧
      IsMin test (fun p => |p.2 - f p.1|) s.minError ∧
      s.averageError * (test.length : K) = (test.map fun p => |p.2 - f p.1|).sum ∧
      s.averageQuadraticError * (test.length : K) = (test.map fun p => (p.2 - f p.1) ^ 2).sum := by
  have hd := differences_ok h
  have hne' : test.map (fun p => |p.2 - f p.1|) ≠ [] := by simpa using hne
  obtain ⟨d, ds, hds⟩ := List.exists_cons_of_ne_nil hne'
  have hpos : (test.length : K) ≠ 0 := by exact_mod_cast (List.length_pos_iff.2 hne).ne'
  have hlen : (d :: ds).length = test.length := by rw [← hds, List.length_map]
  refine ⟨⟨ds.foldl max d, ds.foldl min d, mean (d :: ds), mean ((d :: ds).map fun x => x ^ 2)⟩, ?_,
    isMax_foldl hds, isMin_foldl hds, ?_, ?_⟩
  · simp only [minimalCheck, hd, bind, Except.bind, hds]
  · simp only [mean, hlen]
    rw [div_mul_cancel₀ _ hpos, ← hds]
  · simp only [mean, List.length_map, hlen]
    rw [div_mul_cancel₀ _ hpos, ← hds, List.map_map]
    congr 1
    apply List.map_congr_left
    intro p _
    simp

/-- **C83.** The average error lies between the smallest and the largest one; its square is at most the average quadratic
error, which is at most the square of the largest error. All of them vanish for a diagram that fits the test data,
and the largest one and the average ones vanish only then. -/
theorem C83_order {pd : K → K → Except PyErr K} {f : K × K → K} {test : List (Pt K)} {s : Minimal K}
    (h : ∀ p ∈ test, pd p.1.1 p.1.2 = .ok (f p.1)) (hs : minimalCheck pd test = .ok s) :
    0 ≤ s.minError ∧ s.minError ≤ s.averageError ∧ s.averageError ≤ s.maxError ∧
      s.averageError ^ 2 ≤ s.averageQuadraticError ∧ s.averageQuadraticError ≤ s.maxError ^ 2 ∧
      (s.maxError = 0 ↔ ∀ p ∈ test, f p.1 = p.2) ∧ (s.averageError = 0 ↔ ∀ p ∈ test, f p.1 = p.2) ∧
      (s.averageQuadraticError = 0 ↔ ∀ p ∈ test, f p.1 = p.2) := by
  have hd := differences_ok h
  have hne : test ≠ [] := by
    rintro rfl
    simp only [List.map_nil] at hd
    simp [minimalCheck, hd, bind, Except.bind] at hs
  have hne' : test.map (fun p => |p.2 - f p.1|) ≠ [] := by simpa using hne
  obtain ⟨d, ds, hds⟩ := List.exists_cons_of_ne_nil hne'
  simp only [minimalCheck, hd, bind, Except.bind, hds, Except.ok.injEq] at hs
  obtain ⟨⟨q, hq, hqe⟩, hmin⟩ := isMin_foldl hds
  obtain ⟨⟨r, hr, hre⟩, hmax⟩ := isMax_foldl hds
  have hnn : ∀ x ∈ d :: ds, 0 ≤ x := by
    rw [← hds]
    intro x hx
    obtain ⟨p, -, rfl⟩ := List.mem_map.1 hx
    exact abs_nonneg _
  have hb := mean_bounds (l := d :: ds) (by simp) (foldl_min_spec ds d).2 (foldl_max_spec ds d).2
  have hqb : mean ((d :: ds).map fun x => x ^ 2) ≤ (ds.foldl max d) ^ 2 := by
    refine (mean_bounds (a := 0) (by simp) ?_ ?_).2
    · intro x hx
      obtain ⟨y, -, rfl⟩ := List.mem_map.1 hx
      positivity
    · intro x hx
      obtain ⟨y, hy, rfl⟩ := List.mem_map.1 hx
      exact pow_le_pow_left₀ (hnn y hy) ((foldl_max_spec ds d).2 y hy) 2
  have hsq : mean (d :: ds) ^ 2 ≤ mean ((d :: ds).map fun x => x ^ 2) := by
    have := sq_mean_le (l := d :: ds) (by simp)
    unfold mean
    rwa [List.length_map]
  have hmin0 : 0 ≤ ds.foldl min d := hnn _ (foldl_min_spec ds d).1
  have hfit : ds.foldl max d = 0 ↔ ∀ p ∈ test, f p.1 = p.2 := by
    constructor
    · intro h0 p hp
      have := hmax p hp
      rw [h0] at this
      have h1 : p.2 - f p.1 = 0 := abs_eq_zero.1 (le_antisymm this (abs_nonneg _))
      linarith
    · intro hf
      rw [← hre]
      simp only [hf r hr, sub_self, abs_zero]
  have hmean0 : mean (d :: ds) = 0 → ∀ p ∈ test, f p.1 = p.2 := by
    intro h0 p hp
    have hsum : (d :: ds).sum = 0 := by
      unfold mean at h0
      rcases div_eq_zero_iff.1 h0 with h1 | h1
      · exact h1
      · exact absurd (by exact_mod_cast h1 : (d :: ds).length = 0) (by simp)
    have hmem : |p.2 - f p.1| ∈ d :: ds := by rw [← hds]; exact List.mem_map_of_mem hp
    have := List.single_le_sum hnn _ hmem
    rw [hsum] at this
    have h1 : p.2 - f p.1 = 0 := abs_eq_zero.1 (le_antisymm this (abs_nonneg _))
    linarith
  rw [← hs]
  refine ⟨hmin0, hb.1, hb.2, hsq, hqb, hfit, ⟨hmean0, fun hf => ?_⟩, ⟨fun h0 => hmean0 ?_, fun hf => ?_⟩⟩
  · exact le_antisymm (by rw [← hfit.2 hf]; exact hb.2) (hmin0.trans hb.1)
  · simp only at h0
    rw [h0] at hsq
    exact pow_eq_zero_iff (two_ne_zero) |>.1 (le_antisymm hsq (sq_nonneg _))
  · simp only
    have h0 := hfit.2 hf
    rw [h0] at hqb
    exact le_antisymm (by simpa using hqb) ((sq_nonneg _).trans hsq)

example : minimalCheck (fun ws wa => .ok (ws + wa)) [((1, 2), 4), (((1 : ℚ), (1 : ℚ)), (5 : ℚ))] =
    .ok ⟨3, 1, 2, 5⟩ := by decide +kernel

/-- **C83.** Without test data, `MinimalQualityAssurance` raises `ValueError` for every diagram. -/
theorem C83_empty (pd : K → K → Except PyErr K) : minimalCheck pd [] = .error .valueError := rfl

theorem zeroValues_ok {pd : K → K → Except PyErr K} {f : K × K → K}
    (h : ∀ ws ∈ Injector.linspace (0 : K) 20 20, ∀ wa ∈ [(0 : K), 360], pd ws wa = .ok (f (ws, wa))) :
    zeroValues pd = .ok (((Injector.linspace (0 : K) 20 20).flatMap fun ws => [(ws, 0), (ws, 360)]).map
      fun g => |f g|) := by
  apply mapM_ok_of
  rintro ⟨a, b⟩ hg
  simp only [List.mem_flatMap, List.mem_cons, List.not_mem_nil, or_false, Prod.mk.injEq] at hg
  obtain ⟨w, hw, hg⟩ := hg
  have : pd a b = .ok (f (a, b)) := by
    rcases hg with ⟨rfl, rfl⟩ | ⟨rfl, rfl⟩
    · exact h _ hw _ (by simp)
    · exact h _ hw _ (by simp)
  simp only [this, bind, Except.bind]

/-- **C83.** For nonempty test data, `ComformingQualityAssurance` reports the same errors as `MinimalQualityAssurance`; for
a diagram that can be evaluated it raises no exception. -/
theorem C83_comforming {pd : K → K → Except PyErr K} {f : K × K → K} {test : List (Pt K)} (hne : test ≠ [])
    (h : ∀ p ∈ test, pd p.1.1 p.1.2 = .ok (f p.1))
    (hz : ∀ ws ∈ Injector.linspace (0 : K) 20 20, ∀ wa ∈ [(0 : K), 360], pd ws wa = .ok (f (ws, wa))) :
    ∃ s c, minimalCheck pd test = .ok s ∧ comformingCheck pd test = .ok c ∧ c.maxError = .num s.maxError ∧
      c.minError = .num s.minError ∧ c.averageError = .num s.averageError ∧
      c.averageQuadraticError = .num s.averageQuadraticError := by
  have hd := differences_ok h
  have hne' : test.map (fun p => |p.2 - f p.1|) ≠ [] := by simpa using hne
  obtain ⟨d, ds, hds⟩ := List.exists_cons_of_ne_nil hne'
  simp only [minimalCheck, comformingCheck, hd, zeroValues_ok hz, bind, Except.bind, hds, Except.ok.injEq]
  exact ⟨_, _, rfl, rfl, rfl, rfl, rfl, rfl⟩

example : ∃ s c, minimalCheck (fun ws wa => .ok (ws * wa / 100)) [((10, (90 : ℚ)), 8), ((12, 120), 15)] = .ok s ∧
    comformingCheck (fun ws wa => .ok (ws * wa / 100)) [((10, 90), 8), ((12, 120), 15)] = .ok c ∧ c.maxError = .num s.maxError ∧
    c.minError = .num s.minError ∧ c.averageError = .num s.averageError ∧
    c.averageQuadraticError = .num s.averageQuadraticError :=
  C83_comforming (f := fun g => g.1 * g.2 / 100) (by simp) (fun _ _ => rfl) fun _ _ _ _ => rfl

theorem mem_samples (w : K) :
    w ∈ Injector.linspace (0 : K) 20 20 ↔ ∃ i : Nat, i < 20 ∧ w = (i : K) * (20 / 19) := by
  have h1 : ((20 : Nat) : K) - 1 = 19 := by norm_num
  simp only [Injector.linspace, if_neg (show ¬ (20 = 1) by norm_num), List.mem_map, List.mem_range]
  rw [show ((20 : K) - 0) / (((20 : Nat) : K) - 1) = 20 / 19 by rw [h1, sub_zero]]
  simp only [zero_add, eq_comm]

/-- The winds at which the values at angle zero are measured. -/
def IsZeroSample (g : K × K) : Prop := (∃ i : Nat, i < 20 ∧ g.1 = (i : K) * (20 / 19)) ∧ (g.2 = 0 ∨ g.2 = 360)

/-- **C83** (partial: at twenty wind speeds). The zero values are the largest, smallest and average absolute value of the
diagram at the angles 0 and 360 and twenty evenly spread wind speeds from 0 to 20. -/
theorem C83_zero_partial {pd : K → K → Except PyErr K} {f : K × K → K} {test : List (Pt K)}
    (h : ∀ p ∈ test, pd p.1.1 p.1.2 = .ok (f p.1))
    (hz : ∀ g, IsZeroSample g → pd g.1 g.2 = .ok (f g)) :
    ∃ c mx mn av aq, comformingCheck pd test = .ok c ∧ c.maxZeroVal = .num mx ∧ c.minZeroVal = .num mn ∧
      c.averageZeroVal = .num av ∧ c.averageQuadraticZeroVal = .num aq ∧
      (∃ g, IsZeroSample g ∧ |f g| = mx) ∧ (∀ g, IsZeroSample g → |f g| ≤ mx) ∧
      (∃ g, IsZeroSample g ∧ |f g| = mn) ∧ (∀ g, IsZeroSample g → mn ≤ |f g|) ∧
      mn ≤ av ∧ av ≤ mx ∧ av ^ 2 ≤ aq ∧
      av * 40 = ((List.range 20).map fun (i : Nat) => |f ((i : K) * (20 / 19), 0)| + |f ((i : K) * (20 / 19), 360)|).sum ∧
      aq * 40 = ((List.range 20).map fun (i : Nat) => f ((i : K) * (20 / 19), 0) ^ 2 +
        f ((i : K) * (20 / 19), 360) ^ 2).sum := by
  have hd := differences_ok h
  set gs := (Injector.linspace (0 : K) 20 20).flatMap fun ws => [(ws, 0), (ws, (360 : K))] with hgs
  have hmem : ∀ g, g ∈ gs ↔ IsZeroSample g := by
    rintro ⟨a, b⟩
    simp only [hgs, List.mem_flatMap, List.mem_cons, List.not_mem_nil, or_false, Prod.mk.injEq, mem_samples,
      IsZeroSample]
    constructor
    · rintro ⟨w, hw, ⟨rfl, rfl⟩ | ⟨rfl, rfl⟩⟩
      · exact ⟨hw, Or.inl rfl⟩
      · exact ⟨hw, Or.inr rfl⟩
    · rintro ⟨hw, rfl | rfl⟩
      · exact ⟨_, hw, Or.inl ⟨rfl, rfl⟩⟩
      · exact ⟨_, hw, Or.inr ⟨rfl, rfl⟩⟩
  have hzv : zeroValues pd = .ok (gs.map fun g => |f g|) := by
    apply zeroValues_ok
    intro ws hws wa hwa
    apply hz (ws, wa)
    refine ⟨(mem_samples ws).1 hws, ?_⟩
    simpa using hwa
  have hsum : ∀ F : K × K → K, (gs.map F).sum = ((List.range 20).map fun (i : Nat) => F ((i : K) * (20 / 19), 0) +
      F ((i : K) * (20 / 19), 360)).sum := by
    intro F
    have h1 : ((20 : Nat) : K) - 1 = 19 := by norm_num
    have hl : Injector.linspace (0 : K) 20 20 = (List.range 20).map fun (i : Nat) => (i : K) * (20 / 19) := by
      simp only [Injector.linspace, if_neg (show ¬ (20 = 1) by norm_num)]
      rw [show ((20 : K) - 0) / (((20 : Nat) : K) - 1) = 20 / 19 by rw [h1, sub_zero]]
      simp only [zero_add]
    rw [hgs, hl]
    generalize List.range 20 = r
    induction r with
    | nil => rfl
    | cons i r ih =>
      simp only [List.map_cons, List.flatMap_cons, List.map_append, List.sum_append, List.sum_cons, ih, List.map_nil,
        List.sum_nil, add_zero]
  have hlen : gs.length = 40 := by
    simp [hgs, Injector.linspace, List.length_flatMap, Function.comp_def]
  have hne : gs ≠ [] := by intro h0; rw [h0] at hlen; simp at hlen
  have hne' : gs.map (fun g => |f g|) ≠ [] := by simpa using hne
  obtain ⟨d, ds, hds⟩ := List.exists_cons_of_ne_nil hne'
  have hl2 : (d :: ds).length = 40 := by rw [← hds, List.length_map, hlen]
  obtain ⟨⟨g1, hg1, hg1'⟩, hmax⟩ := isMax_foldl hds
  obtain ⟨⟨g2, hg2, hg2'⟩, hmin⟩ := isMin_foldl hds
  have hb := mean_bounds (l := d :: ds) (by simp) (foldl_min_spec ds d).2 (foldl_max_spec ds d).2
  have hsq : mean (d :: ds) ^ 2 ≤ mean ((d :: ds).map fun x => x ^ 2) := by
    have := sq_mean_le (l := d :: ds) (by simp)
    unfold mean
    rwa [List.length_map]
  refine ⟨_, ds.foldl max d, ds.foldl min d, mean (d :: ds), mean ((d :: ds).map fun x => x ^ 2),
    by simp only [comformingCheck, hd, hzv, bind, Except.bind, hds]; rfl, rfl, rfl, rfl, rfl,
    ⟨g1, (hmem g1).1 hg1, hg1'⟩, fun g hg => hmax g ((hmem g).2 hg), ⟨g2, (hmem g2).1 hg2, hg2'⟩,
    fun g hg => hmin g ((hmem g).2 hg), hb.1, hb.2, hsq, ?_, ?_⟩
  · unfold mean
    rw [hl2, ← hds, hsum]
    push_cast
    rw [div_mul_cancel₀ _ (by norm_num)]
  · unfold mean
    rw [List.length_map, hl2, ← hds, List.map_map]
    have := hsum ((fun x => x ^ 2) ∘ fun g => |f g|)
    rw [this]
    push_cast
    rw [div_mul_cancel₀ _ (by norm_num)]
    simp

/-- A diagram with boat speed ws at the angles 0 and 360. -/
example : ∃ c mx, comformingCheck (fun ws wa => .ok (ws - wa / 360)) [((6, 90), (4 : ℚ))] = .ok c ∧ c.maxZeroVal = .num mx ∧
    ∀ g, IsZeroSample g → |g.1 - g.2 / 360| ≤ mx := by
  obtain ⟨c, mx, mn, av, aq, h1, h2, -, -, -, -, h3, -⟩ := C83_zero_partial (pd := fun ws wa => .ok (ws - wa / 360))
    (f := fun g => g.1 - g.2 / 360) (test := [((6, 90), (4 : ℚ))]) (fun _ _ => rfl) fun _ _ => rfl
  exact ⟨c, mx, h1, h2, h3⟩

/-- **C83 is false** for the largest value at angle 0 and wind speeds between 0 and 20: values between the sampled wind
speeds are missed. -/
theorem C83_zero_false : ∃ (f : ℚ → ℚ → ℚ) (c : Comforming ℚ), comformingCheck (fun ws wa => .ok (f ws wa)) [] = .ok c ∧
    c.maxZeroVal = .num 0 ∧ f (1 / 2) 0 = 7 :=
  ⟨fun ws _ => if ws = 1 / 2 then 7 else 0, ⟨.missing, .missing, .nan, .nan, .num 0, .num 0, .num 0, .num 0, 0, .nan⟩,
    by decide +kernel⟩

/-- **C83 is false** for point clouds: `ComformingQualityAssurance` evaluates the diagram at wind speed 0, which raises
for every point cloud. -/
theorem C83_cloud_false (interpolate : List (Pt K) → List K → K × K → Except PyErr K)
    (nbh : List (K × K) → Except PyErr (List Bool)) (cloud : List (Pt K)) (test : List (Pt K)) :
    ∃ e, comformingCheck (Cloud.call interpolate nbh cloud) test = .error e := by
  have hz : ∃ e, zeroValues (Cloud.call interpolate nbh cloud) = .error e := by
    refine mapM_error_of (a := ((0 : K), (0 : K))) ?_ (e := .valueError) ?_
    · simp only [List.mem_flatMap]
      refine ⟨0, (mem_samples 0).2 ⟨0, by norm_num, by simp⟩, by simp⟩
    · simp [Cloud.call, bind, Except.bind]
  obtain ⟨e, he⟩ := hz
  cases hd : differences (Cloud.call interpolate nbh cloud) test with
  | error e' => exact ⟨e', by simp only [comformingCheck, hd, bind, Except.bind]⟩
  | ok l => exact ⟨e, by simp only [comformingCheck, hd, he, bind, Except.bind]⟩

/-! ## Covering -/

/-- The wind of a test case, rounded to integers. -/
def rounded (p : Pt K) : ℤ × ℤ := (pyRound p.1.1, pyRound p.1.2)

/-- The dictionary after the test cases `seen`. -/
structure Covered (seen : List (Pt K)) (d : Dict (ℤ × ℤ) (Option K × K)) : Prop where
  nodup : (Dict.keys d).Nodup
  mem : ∀ k, k ∈ Dict.keys d ↔ ∃ p ∈ seen, rounded p = k
  value : ∀ k v, Dict.get? d k = some v → ∃ mn, v.1 = some mn ∧
    IsMin (seen.filter fun p => decide (rounded p = k)) (fun p => p.2) mn ∧
    IsMax (seen.filter fun p => decide (rounded p = k)) (fun p => p.2) v.2

theorem covered_step {seen : List (Pt K)} {d : Dict (ℤ × ℤ) (Option K × K)} (hc : Covered seen d) {p : Pt K}
    (hp : 0 ≤ p.2) : Covered (seen ++ [p]) (testedStep d p) := by
  unfold testedStep
  simp only
  have hkey : (pyRound p.1.1, pyRound p.1.2) = rounded p := rfl
  rw [hkey]
  refine ⟨Dict.nodup_keys_set _ _ _ hc.nodup, ?_, ?_⟩
  · intro k
    rw [Dict.mem_keys_set, hc.mem]
    constructor
    · rintro (h | ⟨q, hq, rfl⟩)
      · exact ⟨p, by simp, by rw [← h]⟩
      · exact ⟨q, by simp [hq], rfl⟩
    · rintro ⟨q, hq, rfl⟩
      rw [List.mem_append, List.mem_singleton] at hq
      rcases hq with hq | rfl
      · exact Or.inr ⟨q, hq, rfl⟩
      · exact Or.inl rfl
  · intro k v hv
    rw [Dict.get?_set] at hv
    by_cases hk : rounded p = k
    · rw [if_pos hk] at hv
      subst hk
      rw [← Option.some.inj hv]
      rw [List.filter_append]
      simp only [List.filter_cons, List.filter_nil, decide_true, if_true]
      cases hg : Dict.get? d (rounded p) with
      | none =>
        have hnone : seen.filter (fun q => decide (rounded q = rounded p)) = [] := by
          rw [List.filter_eq_nil_iff]
          intro q hq
          rw [decide_eq_true_eq]
          intro he
          exact (Dict.get?_eq_none_iff d _).1 hg ((hc.mem _).2 ⟨q, hq, he⟩)
        rw [hnone]
        refine ⟨p.2, rfl, ⟨⟨p, by simp, rfl⟩, by simp⟩, ⟨⟨p, by simp, ?_⟩, by simp⟩⟩
        simp [max_eq_left hp]
      | some w =>
        obtain ⟨mn, h1, ⟨⟨a, ha, ha'⟩, hmin⟩, ⟨⟨b, hb, hb'⟩, hmax⟩⟩ := hc.value _ _ hg
        refine ⟨min p.2 mn, by simp only [h1], ⟨?_, ?_⟩, ⟨?_, ?_⟩⟩
        · rcases min_choice p.2 mn with h | h
          · exact ⟨p, by simp, h.symm⟩
          · exact ⟨a, by simp only [List.mem_append, ha, true_or], by rw [h]; exact ha'⟩
        · intro q hq
          rw [List.mem_append, List.mem_singleton] at hq
          rcases hq with hq | rfl
          · exact (min_le_right _ _).trans (hmin q hq)
          · exact min_le_left _ _
        · rcases max_choice p.2 w.2 with h | h
          · exact ⟨p, by simp, h.symm⟩
          · exact ⟨b, by simp only [List.mem_append, hb, true_or], by rw [h]; exact hb'⟩
        · intro q hq
          rw [List.mem_append, List.mem_singleton] at hq
          rcases hq with hq | rfl
          · exact (hmax q hq).trans (le_max_right _ _)
          · exact le_max_left _ _
    · rw [if_neg hk] at hv
      have := hc.value k v hv
      rw [List.filter_append]
      simpa [hk] using this

theorem covered_tested {test : List (Pt K)} (h : ∀ p ∈ test, 0 ≤ p.2) : Covered test (tested test) := by
  have key : ∀ (rest seen : List (Pt K)) (d : Dict (ℤ × ℤ) (Option K × K)), Covered seen d → (∀ p ∈ rest, 0 ≤ p.2) →
      Covered (seen ++ rest) (rest.foldl testedStep d) := by
    intro rest
    induction rest with
    | nil => intro seen d hc _; simpa using hc
    | cons p rest ih =>
      intro seen d hc hp
      have := ih (seen ++ [p]) _ (covered_step hc (hp p List.mem_cons_self))
        fun q hq => hp q (List.mem_cons_of_mem _ hq)
      simpa using this
  have h0 : Covered ([] : List (Pt K)) [] := ⟨by simp, by simp, by simp⟩
  simpa [tested] using key test [] [] h0 h

/-- `x` is the largest difference of boat speeds among the test cases whose rounded wind is `k`. -/
def IsSpread (test : List (Pt K)) (k : ℤ × ℤ) (x : K) : Prop :=
  (∃ p ∈ test, ∃ q ∈ test, rounded p = k ∧ rounded q = k ∧ p.2 - q.2 = x) ∧
  ∀ p ∈ test, ∀ q ∈ test, rounded p = k → rounded q = k → p.2 - q.2 ≤ x

/-- **C83** (partial: the average of the local differences instead of the largest one). The reported covering is the number
of different rounded winds of the test cases, and the local difference is the average, over these winds, of the
largest difference of the boat speeds of test cases with this wind. -/
theorem C83_covering_partial {pd : K → K → Except PyErr K} {test : List (Pt K)} {c : Comforming K}
    (h : ∀ p ∈ test, 0 ≤ p.2) (hc : comformingCheck pd test = .ok c) :
    ∃ (winds : List (ℤ × ℤ)) (spread : ℤ × ℤ → K), winds.Nodup ∧ (∀ k, k ∈ winds ↔ ∃ p ∈ test, rounded p = k) ∧
      c.testCovering = winds.length ∧ (∀ k ∈ winds, IsSpread test k (spread k)) ∧
      (test ≠ [] → c.averageLocalTestDataDifference = .num ((winds.map spread).sum / (winds.length : K))) ∧
      (test = [] → c.averageLocalTestDataDifference = .nan) := by
  have hcov := covered_tested h
  have hc' : c.testCovering = (tested test).length ∧
      c.averageLocalTestDataDifference = safeMean (localDifferences (tested test)) := by
    cases hd : differences pd test with
    | error e => simp [comformingCheck, hd, bind, Except.bind] at hc
    | ok l =>
      cases hz : zeroValues pd with
      | error e => simp [comformingCheck, hd, hz, bind, Except.bind] at hc
      | ok z =>
        simp only [comformingCheck, hd, hz, bind, Except.bind, Except.ok.injEq] at hc
        rw [← hc]
        exact ⟨rfl, rfl⟩
  let spread : ℤ × ℤ → K := fun k => match Dict.get? (tested test) k with
    | some v => v.2 - v.1.getD 0
    | none => 0
  have hloc : localDifferences (tested test) = (Dict.keys (tested test)).map spread := by
    unfold localDifferences Dict.keys
    rw [List.map_map]
    apply List.map_congr_left
    rintro ⟨k, v⟩ he
    have := Dict.get?_of_mem hcov.nodup he
    simp only [Function.comp_apply, spread, this]
  refine ⟨Dict.keys (tested test), spread, hcov.nodup, hcov.mem, by rw [hc'.1]; simp [Dict.keys], ?_, ?_, ?_⟩
  · intro k hk
    obtain ⟨v, hv⟩ := (Dict.mem_keys_iff _ _).1 hk
    obtain ⟨mn, h1, ⟨⟨a, ha, ha'⟩, hmin⟩, ⟨⟨b, hb, hb'⟩, hmax⟩⟩ := hcov.value k v hv
    have hs : spread k = v.2 - mn := by simp only [spread, hv, h1, Option.getD_some]
    rw [List.mem_filter, decide_eq_true_eq] at ha hb
    rw [hs]
    refine ⟨⟨b, hb.1, a, ha.1, hb.2, ha.2, by rw [← hb', ← ha']⟩, ?_⟩
    intro p hp q hq hpk hqk
    have e1 := hmax p (List.mem_filter.2 ⟨hp, by simpa using hpk⟩)
    have e2 := hmin q (List.mem_filter.2 ⟨hq, by simpa using hqk⟩)
    linarith
  · intro hne
    rw [hc'.2, hloc]
    obtain ⟨p, hp⟩ := List.exists_mem_of_ne_nil _ hne
    have hk := (hcov.mem (rounded p)).2 ⟨p, hp, rfl⟩
    cases hks : Dict.keys (tested test) with
    | nil => rw [hks] at hk; simp at hk
    | cons k ks =>
      simp only [List.map_cons, safeMean, mean, List.length_cons, List.length_map]
  · rintro rfl
    rw [hc'.2]
    rfl

example : ∃ c, comformingCheck (fun _ _ => .ok 0) [((6, 90), (4 : ℚ)), ((61 / 10, 90), 5), ((8, 90), 7)] = .ok c ∧
    c.testCovering = 2 :=
  ⟨⟨.num 7, .num 4, .num (16 / 3), .num 30, .num 0, .num 0, .num 0, .num 0, 2, .num (1 / 2)⟩, by decide +kernel, rfl⟩

/-- **C83 is false** for the local difference: it is documented as the largest difference, but an average is reported. -/
theorem C83_local_false : ∃ (test : List (Pt ℚ)) (c : Comforming ℚ), comformingCheck (fun _ _ => .ok 0) test = .ok c ∧
    IsSpread test (6, 90) 1 ∧ c.averageLocalTestDataDifference = .num (1 / 2) := by
  refine ⟨[((6, 90), 4), ((61 / 10, 90), 5), ((8, 90), 7)],
    ⟨.num 7, .num 4, .num (16 / 3), .num 30, .num 0, .num 0, .num 0, .num 0, 2, .num (1 / 2)⟩, by decide +kernel, ?_, rfl⟩
  have h1 : rounded (((6, 90), 4) : Pt ℚ) = (6, 90) := by decide +kernel
  have h2 : rounded (((61 / 10, 90), 5) : Pt ℚ) = (6, 90) := by decide +kernel
  have h3 : rounded (((8, 90), 7) : Pt ℚ) ≠ (6, 90) := by decide +kernel
  constructor
  · exact ⟨_, by simp, _, List.mem_cons_self, h2, h1, by norm_num⟩
  · intro p hp q hq hpk hqk
    simp only [List.mem_cons, List.not_mem_nil, or_false] at hp hq
    rcases hp with rfl | rfl | rfl <;> rcases hq with rfl | rfl | rfl <;>
      first
        | exact absurd hpk h3
        | exact absurd hqk h3
        | norm_num

end Verif.Quality
