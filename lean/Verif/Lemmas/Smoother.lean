import Mathlib.Tactic.Linarith
import Mathlib.Tactic.Ring
import Mathlib.Tactic.FieldSimp
import Verif.Model.Smoother

namespace Verif.Smoother

variable {K : Type} [Field K] [LinearOrder K] [IsStrictOrderedRing K]

/-- Consecutive plateaus share a bound. -/
def PLinked : List (Plateau K) → Prop
  | a :: b :: l => a.ub = b.lb ∧ PLinked (b :: l)
  | _ => True

/-- Consecutive segments share a bound. -/
def SLinked : List (Seg K) → Prop
  | a :: b :: l => a.xub = b.xlb ∧ SLinked (b :: l)
  | _ => True

omit [IsStrictOrderedRing K] in
theorem boundsLoop_spec {lo hi : K} : ∀ (l : List (K × K)) (p : K × K) (xlb ylb : K), l ≠ [] →
    (∀ p ∈ l, lo ≤ p.2 ∧ p.2 ≤ hi) → lo ≤ p.2 → p.2 ≤ hi → lo ≤ ylb → ylb ≤ hi →
    (∃ q qs, boundsLoop xlb ylb p l = q :: qs ∧ q.lb = xlb) ∧ PLinked (boundsLoop xlb ylb p l) ∧
      ∀ q ∈ boundsLoop xlb ylb p l, lo ≤ q.y ∧ q.y ≤ hi
  | [], _, _, _, h, _, _, _, _, _ => by simp at h
  | [q], p, xlb, ylb, _, hb, h1, h2, _, _ => by
    refine ⟨⟨_, _, rfl, rfl⟩, trivial, ?_⟩
    intro r hr
    simp only [boundsLoop, List.isEmpty_nil, if_true, List.mem_singleton] at hr
    subst hr
    exact ⟨h1, h2⟩
  | q :: r :: l, p, xlb, ylb, _, hb, h1, h2, h3, h4 => by
    have hq := hb q (by simp)
    have hb' : ∀ s ∈ r :: l, lo ≤ s.2 ∧ s.2 ≤ hi := fun s hs => hb s (List.mem_cons_of_mem _ hs)
    rw [boundsLoop, if_neg (by simp)]
    split
    · exact boundsLoop_spec (r :: l) q xlb ylb (by simp) hb' hq.1 hq.2 h3 h4
    · obtain ⟨⟨a, as, ha, hal⟩, hc, hm⟩ := boundsLoop_spec (lo := lo) (hi := hi) (r :: l) q (1 / 2 * (p.1 + q.1)) q.2
        (by simp) hb' hq.1 hq.2 hq.1 hq.2
      refine ⟨⟨_, _, rfl, rfl⟩, ?_, ?_⟩
      · rw [ha] at hc ⊢
        exact ⟨hal.symm, hc⟩
      · intro s hs
        rcases List.mem_cons.1 hs with rfl | hs
        · exact ⟨h3, h4⟩
        · exact hm s hs

theorem half_mem {lo hi a b : K} (ha : lo ≤ a) (ha' : a ≤ hi) (hb : lo ≤ b) (hb' : b ≤ hi) :
    lo ≤ 1 / 2 * (a + b) ∧ 1 / 2 * (a + b) ≤ hi := by
  constructor <;> linarith

omit [IsStrictOrderedRing K] in
theorem approxLoop_head {timespan last : K} {before : K} {p : Plateau K} {ps : List (Plateau K)} :
    ∃ s ss, approxLoop timespan last before (p :: ps) = s :: ss ∧ s.xlb = p.lb := by
  cases ps <;> simp only [approxLoop] <;> split <;> exact ⟨_, _, rfl, rfl⟩

theorem approxLoop_spec {timespan last lo hi : K} (hl : lo ≤ last) (hl' : last ≤ hi) :
    ∀ (ps : List (Plateau K)) (before : K), lo ≤ before → before ≤ hi → PLinked ps →
    (∀ q ∈ ps, lo ≤ q.y ∧ q.y ≤ hi) →
    SLinked (approxLoop timespan last before ps) ∧
      ∀ s ∈ approxLoop timespan last before ps, lo ≤ s.ylb ∧ s.ylb ≤ hi ∧ lo ≤ s.yub ∧ s.yub ≤ hi
  | [], _, _, _, _, _ => by simp [approxLoop, SLinked]
  | [p], before, hb, hb', _, hy => by
    obtain ⟨h1, h2⟩ := hy p (by simp)
    obtain ⟨h3, h4⟩ := half_mem hb hb' h1 h2
    obtain ⟨h5, h6⟩ := half_mem hl hl' h1 h2
    simp only [approxLoop]
    split
    · simp [SLinked, h1, h2] at *
      exact ⟨⟨h3, h4⟩, h5, h6⟩
    · simp [SLinked, h1, h2] at *
      exact ⟨⟨h3, h4⟩, h5, h6⟩
  | p :: q :: ps, before, hb, hb', hc, hy => by
    obtain ⟨h1, h2⟩ := hy p (by simp)
    obtain ⟨h7, h8⟩ := hy q (by simp)
    obtain ⟨h3, h4⟩ := half_mem hb hb' h1 h2
    obtain ⟨h5, h6⟩ := half_mem h7 h8 h1 h2
    obtain ⟨i1, i2⟩ := approxLoop_spec hl hl' (timespan := timespan) (q :: ps) p.y h1 h2 hc.2
      (fun r hr => hy r (List.mem_cons_of_mem _ hr))
    obtain ⟨s, ss, e, hs⟩ := approxLoop_head (timespan := timespan) (last := last) (before := p.y) (p := q) (ps := ps)
    rw [approxLoop]
    rw [e] at i1 i2 ⊢
    have hpq : p.ub = s.xlb := by rw [hs]; exact hc.1
    split
    · refine ⟨⟨rfl, hpq, i1⟩, ?_⟩
      intro r hr
      simp only [List.cons_append, List.nil_append, List.mem_cons] at hr
      rcases hr with rfl | rfl | hr
      · exact ⟨h3, h4, h1, h2⟩
      · exact ⟨h1, h2, h5, h6⟩
      · exact i2 r (by simpa using hr)
    · refine ⟨⟨rfl, rfl, hpq, i1⟩, ?_⟩
      intro r hr
      simp only [List.cons_append, List.nil_append, List.mem_cons] at hr
      rcases hr with rfl | rfl | rfl | hr
      · exact ⟨h3, h4, h1, h2⟩
      · exact ⟨h1, h2, h1, h2⟩
      · exact ⟨h1, h2, h5, h6⟩
      · exact i2 r (by simpa using hr)

omit [IsStrictOrderedRing K] in
theorem advance_spec {x : K} : ∀ {cur : Seg K} {rest : List (Seg K)} {c : Seg K} {r : List (Seg K)},
    advance x cur rest = some (c, r) → SLinked (cur :: rest) → cur.xlb ≤ x →
    c.xlb ≤ x ∧ x ≤ c.xub ∧ SLinked (c :: r) ∧ (c :: r) <:+ (cur :: rest)
  | cur, [], c, r, h, _, hx => by
    rw [advance] at h
    split at h
    · simp at h
    · rename_i hn
      simp only [Option.some.injEq, Prod.mk.injEq] at h
      obtain ⟨rfl, rfl⟩ := h
      exact ⟨hx, not_lt.1 hn, trivial, List.suffix_refl _⟩
  | cur, n :: rest, c, r, h, hc, hx => by
    rw [advance] at h
    split at h
    · rename_i hg
      obtain ⟨h1, h2, h3, h4⟩ := advance_spec h hc.2 (by rw [← hc.1]; exact le_of_lt hg)
      exact ⟨h1, h2, h3, h4.trans (List.suffix_cons _ _)⟩
    · rename_i hn
      simp only [Option.some.injEq, Prod.mk.injEq] at h
      obtain ⟨rfl, rfl⟩ := h
      exact ⟨hx, not_lt.1 hn, hc, List.suffix_refl _⟩

theorem value_mem {s : Seg K} {x lo hi : K} (h1 : s.xlb ≤ x) (h2 : x ≤ s.xub)
    (hy : lo ≤ s.ylb ∧ s.ylb ≤ hi ∧ lo ≤ s.yub ∧ s.yub ≤ hi) : lo ≤ value s x ∧ value s x ≤ hi := by
  obtain ⟨a1, a2, a3, a4⟩ := hy
  unfold value
  split
  · exact ⟨a3, a4⟩
  · rename_i hne
    have hpos : 0 < s.xub - s.xlb := lt_of_le_of_ne (by linarith) (Ne.symm hne)
    set mu := (x - s.xlb) / (s.xub - s.xlb) with hmu
    have m0 : 0 ≤ mu := div_nonneg (by linarith) hpos.le
    have m1 : mu ≤ 1 := by rw [hmu, div_le_one hpos]; linarith
    constructor
    · nlinarith
    · nlinarith

theorem smoothLoop_mem {lo hi : K} : ∀ (l : List (K × K)) (cur : Seg K) (rest : List (Seg K)),
    SLinked (cur :: rest) → (∀ s ∈ cur :: rest, lo ≤ s.ylb ∧ s.ylb ≤ hi ∧ lo ≤ s.yub ∧ s.yub ≤ hi) →
    (l.map Prod.fst).Pairwise (· ≤ ·) → (∀ p ∈ l, cur.xlb ≤ p.1) → (∀ p ∈ l, lo ≤ p.2 ∧ p.2 ≤ hi) →
    (smoothLoop cur rest l).length = l.length ∧ ∀ y ∈ smoothLoop cur rest l, lo ≤ y ∧ y ≤ hi
  | [], _, _, _, _, _, _, _ => by simp [smoothLoop]
  | (x, y) :: l, cur, rest, hc, hs, hx, hl, hb => by
    rw [smoothLoop]
    cases ha : advance x cur rest with
    | none =>
      refine ⟨by simp, ?_⟩
      intro z hz
      simp only [List.mem_cons, List.mem_map] at hz
      rcases hz with rfl | ⟨p, hp, rfl⟩
      · exact hb _ (List.mem_cons_self)
      · exact hb p (List.mem_cons_of_mem _ hp)
    | some cr =>
      obtain ⟨c, r⟩ := cr
      obtain ⟨h1, h2, h3, h4⟩ := advance_spec ha hc (hl (x, y) (by simp))
      simp only [List.map_cons, List.pairwise_cons] at hx
      obtain ⟨i1, i2⟩ := smoothLoop_mem l c r h3 (fun s hs' => hs s (h4.subset hs')) hx.2
        (fun p hp => le_trans h1 (hx.1 p.1 (List.mem_map_of_mem hp)))
        (fun p hp => hb p (List.mem_cons_of_mem _ hp))
      refine ⟨by simp [i1], ?_⟩
      intro z hz
      rcases List.mem_cons.1 hz with rfl | hz
      · exact value_mem h1 h2 (hs c (h4.subset (by simp)))
      · exact i2 z hz

end Verif.Smoother
