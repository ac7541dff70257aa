import Mathlib.Data.Rat.Defs
import Mathlib.Algebra.Order.Ring.Rat
import Verif.Lemmas.Smoother

/-!
# Property C27: the affine smoother
-/

namespace Verif.Smoother

variable {K : Type} [Field K] [LinearOrder K] [IsStrictOrderedRing K]

/-- **C27.** For time stamps in chronological order (repetitions allowed) and at least two rows the smoother returns
as many values as it got, and all of them lie between any two bounds of the given values. -/
theorem C27_range (timespan : K) {times ys : List K} (hs : times.Pairwise (· ≤ ·)) (hl : ys.length = times.length)
    (h2 : 2 ≤ ys.length) {lo hi : K} (hb : ∀ y ∈ ys, lo ≤ y ∧ y ≤ hi) :
    ∃ l, smoothField timespan times ys = .ok l ∧ l.length = ys.length ∧ ∀ y ∈ l, lo ≤ y ∧ y ≤ hi := by
  match times, ys, hs, hl, h2, hb with
  | [], [], _, _, h2, _ => simp at h2
  | t0 :: ts, y0 :: ys', hs, hl, h2, hb =>
    set pts := ((t0 :: ts).map fun t => t - t0).zip (y0 :: ys') with hpts
    have hplen : pts.length = (y0 :: ys').length := by simp [hpts, List.length_zip] at hl ⊢; omega
    have hpb : ∀ p ∈ pts, lo ≤ p.2 ∧ p.2 ≤ hi := fun p hp => hb p.2 (List.of_mem_zip hp).2
    have hsort : (pts.map Prod.fst).Pairwise (· ≤ ·) := by
      rw [hpts, List.map_fst_zip (by simp at hl ⊢; omega), List.pairwise_map]
      exact hs.imp (fun h => by linarith)
    have hnn : ∀ p ∈ pts, (0 : K) ≤ p.1 := by
      intro p hp
      obtain ⟨t, ht, e⟩ := List.mem_map.1 (List.of_mem_zip hp).1
      rcases List.mem_cons.1 ht with rfl | ht
      · rw [← e]; simp
      · rw [← e]; have := (List.pairwise_cons.1 hs).1 t ht; linarith
    obtain ⟨pts', hp', hne⟩ : ∃ pts', pts = (0, y0) :: pts' ∧ pts' ≠ [] := by
      refine ⟨(ts.map fun t => t - t0).zip ys', by simp [hpts], ?_⟩
      intro e
      have : pts.length = 1 := by rw [hpts]; simp only [List.map_cons, List.zip_cons_cons, e, List.length_cons, List.length_nil]
      omega
    have hib : intervalBounds pts = boundsLoop 0 y0 (0, y0) pts' := by rw [hp']; rfl
    obtain ⟨⟨q, qs, hq, hql⟩, hc, hy⟩ := boundsLoop_spec (lo := lo) (hi := hi) pts' (0, y0) 0 y0 hne
      (fun p hp => hpb p (by rw [hp']; exact List.mem_cons_of_mem _ hp)) (hb y0 (by simp)).1 (hb y0 (by simp)).2
      (hb y0 (by simp)).1 (hb y0 (by simp)).2
    set last := ((y0 :: ys').getLast?).getD 0 with hlast
    have hlb : lo ≤ last ∧ last ≤ hi := by
      apply hb
      rw [hlast, List.getLast?_eq_some_getLast (by simp)]
      exact List.getLast_mem _
    obtain ⟨i1, i2⟩ := approxLoop_spec (timespan := timespan) hlb.1 hlb.2 _ y0 (hb y0 (by simp)).1
      (hb y0 (by simp)).2 hc hy
    rw [hq] at i1 i2
    obtain ⟨s, ss, e, hsx⟩ := approxLoop_head (timespan := timespan) (last := last) (before := y0) (p := q) (ps := qs)
    rw [e] at i1 i2
    obtain ⟨j1, j2⟩ := smoothLoop_mem pts s ss i1 i2 hsort (fun p hp => by rw [hsx, hql]; exact hnn p hp) hpb
    refine ⟨smoothLoop s ss pts, ?_, by rw [j1, hplen], j2⟩
    simp only [smoothField]
    rw [← hpts, ← hlast, hib, hq, e]

/-- **C27.** Constant columns are not changed. -/
theorem C27_constant (timespan : K) {times : List K} (hs : times.Pairwise (· ≤ ·)) (h2 : 2 ≤ times.length) (c : K) :
    smoothField timespan times (List.replicate times.length c) = .ok (List.replicate times.length c) := by
  obtain ⟨l, h, hlen, hm⟩ := C27_range timespan hs (ys := List.replicate times.length c) (by simp) (by simpa using h2)
    (lo := c) (hi := c) (by intro y hy; rw [List.eq_of_mem_replicate hy]; exact ⟨le_refl _, le_refl _⟩)
  rw [h]
  congr 1
  rw [List.eq_replicate_iff]
  exact ⟨by simpa using hlen, fun b hb => le_antisymm (hm b hb).2 (hm b hb).1⟩

example : ([0, 0, 10, 20, 60, 200] : List Rat).Pairwise (· ≤ ·) ∧
    smoothField (K := Rat) 30 [0, 0, 10, 20, 60, 200] [1, 2, 2, 2, 5, 5] = .ok [1, 1, 7/4, 2, 9/2, 5] := by
  decide +kernel

omit [IsStrictOrderedRing K] in
theorem any_lt_head {times : List K} (hs : times.Pairwise (· ≤ ·)) :
    (times.any fun t => decide (t < times.headD t)) = false := by
  rw [List.any_eq_false]
  intro t ht
  cases times with
  | nil => simp at ht
  | cons t0 ts =>
    have h : t0 ≤ t := by
      rcases List.mem_cons.1 ht with rfl | ht
      · exact le_refl _
      · exact (List.pairwise_cons.1 hs).1 t ht
    simpa using h

/-- **C27.** On a whole table: every column keeps its name and position, columns of other types are unchanged, and
each column of numbers keeps its length and range. -/
theorem C27_table {κ V : Type} (timespan : K) {times : List K} (hs : times.Pairwise (· ≤ ·)) (h2 : 2 ≤ times.length)
    {cols : Dict κ (Col K V)} (hl : ∀ p ∈ cols, ∀ ys, p.2 = .floats ys → ys.length = times.length) :
    ∃ cols', smooth timespan times cols = .ok cols' ∧
      List.Forall₂ (fun p p' => p'.1 = p.1 ∧ match p.2 with
        | .other l => p'.2 = .other l
        | .floats ys => ∃ l, p'.2 = .floats l ∧ l.length = ys.length ∧
            ∀ lo hi, (∀ y ∈ ys, lo ≤ y ∧ y ≤ hi) → ∀ y ∈ l, lo ≤ y ∧ y ≤ hi) cols cols' := by
  simp only [smooth, any_lt_head hs, Bool.false_eq_true, if_false]
  induction cols with
  | nil => exact ⟨[], rfl, .nil⟩
  | cons p ps ih =>
    obtain ⟨ps', h1, hf⟩ := ih (fun q hq => hl q (List.mem_cons_of_mem _ hq))
    obtain ⟨k, c⟩ := p
    rw [List.mapM_cons]
    cases c with
    | other l =>
      refine ⟨(k, .other l) :: ps', ?_, .cons ⟨rfl, rfl⟩ hf⟩
      rw [h1]; rfl
    | floats ys =>
      have hlen := hl (k, .floats ys) (by simp) ys rfl
      have key : ∀ lo hi, (∀ y ∈ ys, lo ≤ y ∧ y ≤ hi) → ∃ l, smoothField timespan times ys = .ok l ∧
          l.length = ys.length ∧ ∀ y ∈ l, lo ≤ y ∧ y ≤ hi := fun lo hi hb => C27_range timespan hs hlen (by omega) hb
      have hex : ∃ l, smoothField timespan times ys = .ok l ∧ l.length = ys.length := by
        obtain ⟨lo, hi, hb⟩ : ∃ lo hi : K, ∀ y ∈ ys, lo ≤ y ∧ y ≤ hi := by
          clear key hlen hl h1 hf
          induction ys with
          | nil => exact ⟨0, 0, by simp⟩
          | cons y ys ih =>
            obtain ⟨lo, hi, hb⟩ := ih
            refine ⟨min lo y, max hi y, ?_⟩
            intro z hz
            rcases List.mem_cons.1 hz with rfl | hz
            · exact ⟨min_le_right _ _, le_max_right _ _⟩
            · exact ⟨le_trans (min_le_left _ _) (hb z hz).1, le_trans (hb z hz).2 (le_max_left _ _)⟩
        obtain ⟨l, h, h', -⟩ := key lo hi hb
        exact ⟨l, h, h'⟩
      obtain ⟨l, hok, hlen'⟩ := hex
      refine ⟨(k, .floats l) :: ps', ?_, .cons ⟨rfl, l, rfl, hlen', ?_⟩ hf⟩
      · simp only [hok]; rw [h1]; rfl
      · intro lo hi hb
        obtain ⟨l', h, -, hm⟩ := key lo hi hb
        rw [hok] at h
        cases h
        exact hm

example : ∃ cols', smooth (V := String) 10 [0, 1, (3 : ℚ)] [("TWS", .floats [10, 12, 11])] = .ok cols' :=
  (C27_table 10 (by decide +kernel) (by simp) (by simp)).imp fun _ h => h.1

/-- Outside of the hypotheses of C27: time stamps which are not in chronological order are only rejected if one of
them lies before the first one. Otherwise the values can leave the range of the measured values. -/
theorem C27_unsorted_accepted : smooth (K := Rat) (κ := String) (V := Unit) 200 [0, 100, 300, 0, 400]
    [("TWS", .floats [0, 0, 10, 10, 10])] = .ok [("TWS", .floats [0, 0, 10, -5, 10])] := by
  decide +kernel

end Verif.Smoother
