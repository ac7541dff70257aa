import Mathlib.Data.Rat.Floor
import Verif.Model.FloatSmoother
import Verif.Props.FloatFilter
import Verif.Props.FloatWeather
import Verif.Props.FloatWind
import Verif.Props.Smoother

/-!
# Property C162: the affine smoother in double precision
-/

namespace Verif.F64

open Verif.Smoother (Plateau Seg advance Col PLinked SLinked advance_spec any_lt_head)

variable {K : Type} [Field K] [LinearOrder K] [IsStrictOrderedRing K] [FloorRing K]

/-! ## Lemmas: linked intervals and bounds of values -/

theorem halfSum_mem {lo hi a b : K} (hlo : fl lo = lo) (hhi : fl hi = hi) (ha : lo ≤ a ∧ a ≤ hi) (hb : lo ≤ b ∧ b ≤ hi) :
    lo ≤ halfSum a b ∧ halfSum a b ≤ hi := by
  have h1 : fl (lo * 2) = lo * 2 := by
    have := fl_scale lo 1
    rwa [zpow_one, hlo] at this
  have h2 : fl (hi * 2) = hi * 2 := by
    have := fl_scale hi 1
    rwa [zpow_one, hhi] at this
  have a1 := fl_mono (show lo * 2 ≤ a + b by linarith [ha.1, hb.1])
  have a2 := fl_mono (show a + b ≤ hi * 2 by linarith [ha.2, hb.2])
  unfold halfSum
  constructor <;> linarith

omit [IsStrictOrderedRing K] in
theorem boundsLoop_spec {P : K → Prop} : ∀ (l : List (K × K)) (p : K × K) (xlb ylb : K), l ≠ [] →
    (∀ p ∈ l, P p.2) → P p.2 → P ylb →
    (∃ q qs, boundsLoop xlb ylb p l = q :: qs ∧ q.lb = xlb) ∧ PLinked (boundsLoop xlb ylb p l) ∧
      ∀ q ∈ boundsLoop xlb ylb p l, P q.y
  | [], _, _, _, h, _, _, _ => by simp at h
  | [q], p, xlb, ylb, _, hb, h1, _ => by
    refine ⟨⟨_, _, rfl, rfl⟩, trivial, ?_⟩
    intro r hr
    simp only [boundsLoop, List.isEmpty_nil, if_true, List.mem_singleton] at hr
    subst hr
    exact h1
  | q :: r :: l, p, xlb, ylb, _, hb, h1, h3 => by
    have hq := hb q (by simp)
    have hb' : ∀ s ∈ r :: l, P s.2 := fun s hs => hb s (List.mem_cons_of_mem _ hs)
    rw [boundsLoop, if_neg (by simp)]
    split
    · exact boundsLoop_spec (r :: l) q xlb ylb (by simp) hb' hq h3
    · obtain ⟨⟨a, as, ha, hal⟩, hc, hm⟩ := boundsLoop_spec (P := P) (r :: l) q (halfSum p.1 q.1) q.2
        (by simp) hb' hq hq
      refine ⟨⟨_, _, rfl, rfl⟩, ?_, ?_⟩
      · rw [ha] at hc ⊢
        exact ⟨hal.symm, hc⟩
      · intro s hs
        rcases List.mem_cons.1 hs with rfl | hs
        · exact h3
        · exact hm s hs

omit [IsStrictOrderedRing K] in
theorem approxLoop_head {timespan last : K} {before : K} {p : Plateau K} {ps : List (Plateau K)} :
    ∃ s ss, approxLoop timespan last before (p :: ps) = s :: ss ∧ s.xlb = p.lb := by
  cases ps <;> simp only [approxLoop] <;> split <;> exact ⟨_, _, rfl, rfl⟩

omit [IsStrictOrderedRing K] in
theorem approxLoop_spec {timespan last : K} {P : K → Prop} (hP : ∀ a b, P a → P b → P (halfSum a b)) (hl : P last) :
    ∀ (ps : List (Plateau K)) (before : K), P before → PLinked ps → (∀ q ∈ ps, P q.y) →
    SLinked (approxLoop timespan last before ps) ∧
      ∀ s ∈ approxLoop timespan last before ps, P s.ylb ∧ P s.yub
  | [], _, _, _, _ => by simp [approxLoop, SLinked]
  | [p], before, hb, _, hy => by
    have h1 := hy p (by simp)
    have h3 := hP _ _ hb h1
    have h5 := hP _ _ hl h1
    simp only [approxLoop]
    split
    · simp [SLinked, h1, h3, h5]
    · simp [SLinked, h1, h3, h5]
  | p :: q :: ps, before, hb, hc, hy => by
    have h1 := hy p (by simp)
    have h3 := hP _ _ hb h1
    have h5 := hP _ _ (hy q (by simp)) h1
    obtain ⟨i1, i2⟩ := approxLoop_spec hP hl (timespan := timespan) (q :: ps) p.y h1 hc.2
      (fun r hr => hy r (List.mem_cons_of_mem _ hr))
    obtain ⟨s, ss, e, hs⟩ := approxLoop_head (timespan := timespan) (last := last) (before := p.y) (p := q) (ps := ps)
    rw [approxLoop]
    rw [e] at i1 i2 ⊢
    have hpq : p.ub = s.xlb := by rw [hs]; exact hc.1
    split
    · refine ⟨⟨rfl, hpq, i1⟩, ?_⟩
      intro r hr
      simp only [List.cons_append, List.nil_append, List.mem_cons] at hr
      rcases hr with rfl | rfl | hr
      · exact ⟨h3, h1⟩
      · exact ⟨h1, h5⟩
      · exact i2 r (by simpa using hr)
    · refine ⟨⟨rfl, rfl, hpq, i1⟩, ?_⟩
      intro r hr
      simp only [List.cons_append, List.nil_append, List.mem_cons] at hr
      rcases hr with rfl | rfl | rfl | hr
      · exact ⟨h3, h1⟩
      · exact ⟨h1, h1⟩
      · exact ⟨h1, h5⟩
      · exact i2 r (by simpa using hr)

omit [IsStrictOrderedRing K] in
theorem smoothLoop_all {Q : K → Prop} : ∀ (l : List (K × K)) (cur : Seg K) (rest : List (Seg K)),
    SLinked (cur :: rest) → (∀ s ∈ cur :: rest, ∀ x, s.xlb ≤ x → x ≤ s.xub → Q (value s x)) →
    (l.map Prod.fst).Pairwise (· ≤ ·) → (∀ p ∈ l, cur.xlb ≤ p.1) → (∀ p ∈ l, Q p.2) →
    (smoothLoop cur rest l).length = l.length ∧ ∀ y ∈ smoothLoop cur rest l, Q y
  | [], _, _, _, _, _, _, _ => by simp [smoothLoop]
  | (x, y) :: l, cur, rest, hc, hs, hx, hl, hb => by
    rw [smoothLoop]
    cases ha : advance x cur rest with
    | none =>
      refine ⟨by simp, ?_⟩
      intro z hz
      simp only [List.mem_cons, List.mem_map] at hz
      rcases hz with rfl | ⟨p, hp, rfl⟩
      · exact hb _ (List.mem_cons_self)
      · exact hb p (List.mem_cons_of_mem _ hp)
    | some cr =>
      obtain ⟨c, r⟩ := cr
      obtain ⟨h1, h2, h3, h4⟩ := advance_spec ha hc (hl (x, y) (by simp))
      simp only [List.map_cons, List.pairwise_cons] at hx
      obtain ⟨i1, i2⟩ := smoothLoop_all l c r h3 (fun s hs' => hs s (h4.subset hs')) hx.2
        (fun p hp => le_trans h1 (hx.1 p.1 (List.mem_map_of_mem hp)))
        (fun p hp => hb p (List.mem_cons_of_mem _ hp))
      refine ⟨by simp [i1], ?_⟩
      intro z hz
      rcases List.mem_cons.1 hz with rfl | hz
      · exact hs c (h4.subset (by simp)) x h1 h2
      · exact i2 z hz

/-- The rounded weight of a point between the ends of an interval. -/
theorem weight_mem {a b x : K} (h1 : a ≤ x) (h2 : x ≤ b) (hne : fl (b - a) ≠ 0) :
    0 ≤ fl (fl (x - a) / fl (b - a)) ∧ fl (fl (x - a) / fl (b - a)) ≤ 1 := by
  have hpos : 0 < fl (b - a) := lt_of_le_of_ne (fl_nonneg (by linarith)) (Ne.symm hne)
  have hm := fl_mono (show x - a ≤ b - a by linarith)
  refine ⟨fl_nonneg (div_nonneg (fl_nonneg (by linarith)) hpos.le), ?_⟩
  have := fl_mono ((div_le_one hpos).2 hm)
  rwa [fl_one] at this

/-- A rounded convex combination leaves an interval by at most `4 u` of the larger end. -/
theorem combination_mem {m a b lo hi B : K} (m0 : 0 ≤ m) (m1 : m ≤ 1) (ha : lo ≤ a ∧ a ≤ hi) (hb : lo ≤ b ∧ b ≤ hi)
    (hlo : |lo| ≤ B) (hhi : |hi| ≤ B) :
    lo - 4 * u K * B ≤ fl (fl (m * a) + fl (fl (1 - m) * b)) ∧ fl (fl (m * a) + fl (fl (1 - m) * b)) ≤ hi + 4 * u K * B := by
  have hu := u_pos (K := K)
  have hu' := u_tiny (K := K)
  have B0 : 0 ≤ B := (abs_nonneg lo).trans hlo
  have na : |a| ≤ B := abs_le.2 ⟨by linarith [(abs_le.1 hlo).1, ha.1], by linarith [(abs_le.1 hhi).2, ha.2]⟩
  have nb : |b| ≤ B := abs_le.2 ⟨by linarith [(abs_le.1 hlo).1, hb.1], by linarith [(abs_le.1 hhi).2, hb.2]⟩
  have n0 : 0 ≤ 1 - m := by linarith
  have p1 : |fl (m * a) - m * a| ≤ u K * (m * B) := by
    refine (fl_error' _).trans (mul_le_mul_of_nonneg_left ?_ hu.le)
    rw [abs_mul, abs_of_nonneg m0]
    exact mul_le_mul_of_nonneg_left na m0
  have w2 : |fl (1 - m) - (1 - m)| ≤ u K * (1 - m) := by
    have := fl_error' (1 - m)
    rwa [abs_of_nonneg n0] at this
  have q1 : |fl (1 - m) * b - (1 - m) * b| ≤ u K * ((1 - m) * B) := by
    rw [← sub_mul, abs_mul, ← mul_assoc]
    exact mul_le_mul w2 nb (abs_nonneg _) (by positivity)
  have q2 : |(1 - m) * b| ≤ (1 - m) * B := by
    rw [abs_mul, abs_of_nonneg n0]
    exact mul_le_mul_of_nonneg_left nb n0
  have q3 := fl_close q1 q2
  obtain ⟨A, hA⟩ : ∃ A, A = m * B := ⟨_, rfl⟩
  obtain ⟨C, hC⟩ : ∃ C, C = (1 - m) * B := ⟨_, rfl⟩
  have hAC : A + C = B := by rw [hA, hC]; ring
  have A0 : 0 ≤ A := by rw [hA]; positivity
  have C0 : 0 ≤ C := by rw [hC]; positivity
  rw [← hA] at p1
  rw [← hC] at q3 q2
  have s1 : |fl (m * a) + fl (fl (1 - m) * b) - (m * a + (1 - m) * b)| ≤ (2 + 1 / 64) * (u K * B) := by
    have hCC : u K * (u K * C) ≤ u K * C * (1 / 64) := by
      calc u K * (u K * C) = u K * C * u K := by ring
        _ ≤ _ := mul_le_mul_of_nonneg_left hu' (by positivity)
    have hB : u K * B = u K * A + u K * C := by rw [← hAC]; ring
    have := abs_add_le (fl (m * a) - m * a) (fl (fl (1 - m) * b) - (1 - m) * b)
    rw [show fl (m * a) - m * a + (fl (fl (1 - m) * b) - (1 - m) * b) =
      fl (m * a) + fl (fl (1 - m) * b) - (m * a + (1 - m) * b) by ring] at this
    have e : u K * (C + u K * C) = u K * C + u K * (u K * C) := by ring
    have : 0 ≤ u K * C := by positivity
    have : 0 ≤ u K * A := by positivity
    linarith
  have s0 : |m * a + (1 - m) * b| ≤ B := by
    have h1 : |m * a| ≤ A := by
      rw [abs_mul, abs_of_nonneg m0, hA]
      exact mul_le_mul_of_nonneg_left na m0
    linarith [abs_add_le (m * a) ((1 - m) * b)]
  have s2 := fl_close s1 s0
  have hBB : u K * (u K * B) ≤ u K * B * (1 / 64) := by
    calc u K * (u K * B) = u K * B * u K := by ring
      _ ≤ _ := mul_le_mul_of_nonneg_left hu' (by positivity)
  have e : u K * (B + (2 + 1 / 64) * (u K * B)) = u K * B + (2 + 1 / 64) * (u K * (u K * B)) := by ring
  have uB : 0 ≤ u K * B := by positivity
  have l1 : lo ≤ m * a + (1 - m) * b := by nlinarith [mul_le_mul_of_nonneg_left ha.1 m0, mul_le_mul_of_nonneg_left hb.1 n0]
  have l2 : m * a + (1 - m) * b ≤ hi := by nlinarith [mul_le_mul_of_nonneg_left ha.2 m0, mul_le_mul_of_nonneg_left hb.2 n0]
  rw [abs_le] at s2
  constructor <;> linarith [s2.1, s2.2]

/-- Properties of all values of the smoothed column: `P` for given values and values at ends of intervals, `Q` for combinations
of them. -/
theorem smoothField_all (timespan : K) {times ys : List K} (hs : times.Pairwise (· ≤ ·)) (hl : ys.length = times.length)
    (h2 : 2 ≤ ys.length) {P Q : K → Prop} (hP : ∀ a b, P a → P b → P (halfSum a b)) (hPQ : ∀ a, P a → Q a)
    (hQ : ∀ m a b, 0 ≤ m → m ≤ 1 → P a → P b → Q (fl (fl (m * a) + fl (fl (1 - m) * b)))) (hb : ∀ y ∈ ys, P y) :
    ∃ l, smoothField timespan times ys = .ok l ∧ l.length = ys.length ∧ ∀ y ∈ l, Q y := by
  match times, ys, hs, hl, h2, hb with
  | [], [], _, _, h2, _ => simp at h2
  | t0 :: ts, y0 :: ys', hs, hl, h2, hb =>
    set pts := ((t0 :: ts).map fun t => fl (t - t0)).zip (y0 :: ys') with hpts
    have hplen : pts.length = (y0 :: ys').length := by simp [hpts, List.length_zip] at hl ⊢; omega
    have hpb : ∀ p ∈ pts, P p.2 := fun p hp => hb p.2 (List.of_mem_zip hp).2
    have hsort : (pts.map Prod.fst).Pairwise (· ≤ ·) := by
      rw [hpts, List.map_fst_zip (by simp at hl ⊢; omega), List.pairwise_map]
      exact hs.imp (fun h => fl_mono (by linarith))
    have hnn : ∀ p ∈ pts, (0 : K) ≤ p.1 := by
      intro p hp
      obtain ⟨t, ht, e⟩ := List.mem_map.1 (List.of_mem_zip hp).1
      rcases List.mem_cons.1 ht with rfl | ht
      · rw [← e]; simp [fl_zero]
      · rw [← e]; have := (List.pairwise_cons.1 hs).1 t ht; exact fl_nonneg (by linarith)
    obtain ⟨pts', hp', hne⟩ : ∃ pts', pts = (0, y0) :: pts' ∧ pts' ≠ [] := by
      refine ⟨(ts.map fun t => fl (t - t0)).zip ys', by simp [hpts, fl_zero], ?_⟩
      intro e
      have : pts.length = 1 := by rw [hpts]; simp only [List.map_cons, List.zip_cons_cons, e, List.length_cons, List.length_nil]
      omega
    have hib : intervalBounds pts = boundsLoop 0 y0 (0, y0) pts' := by rw [hp']; rfl
    obtain ⟨⟨q, qs, hq, hql⟩, hc, hy⟩ := boundsLoop_spec (P := P) pts' (0, y0) 0 y0 hne
      (fun p hp => hpb p (by rw [hp']; exact List.mem_cons_of_mem _ hp)) (hb y0 (by simp)) (hb y0 (by simp))
    set last := ((y0 :: ys').getLast?).getD 0 with hlast
    have hlb : P last := by
      apply hb
      rw [hlast, List.getLast?_eq_some_getLast (by simp)]
      exact List.getLast_mem _
    obtain ⟨i1, i2⟩ := approxLoop_spec (timespan := timespan) hP hlb _ y0 (hb y0 (by simp)) hc hy
    rw [hq] at i1 i2
    obtain ⟨s, ss, e, hsx⟩ := approxLoop_head (timespan := timespan) (last := last) (before := y0) (p := q) (ps := qs)
    rw [e] at i1 i2
    obtain ⟨j1, j2⟩ := smoothLoop_all (Q := Q) pts s ss i1 (fun s hs x h1 h2 => by
        obtain ⟨a, b⟩ := i2 s hs
        unfold value
        split
        · exact hPQ _ b
        · rename_i hn
          obtain ⟨m0, m1⟩ := weight_mem h1 h2 hn
          exact hQ _ _ _ m0 m1 b a)
      hsort (fun p hp => by rw [hsx, hql]; exact hnn p hp) (fun p hp => hPQ _ (hpb p hp))
    refine ⟨smoothLoop s ss pts, ?_, by rw [j1, hplen], j2⟩
    simp only [smoothField]
    rw [← hpts, ← hlast, hib, hq, e]

/-! ## The theorems -/

/-- **C162**: for time stamps in chronological order and at least two rows the smoother returns as many values as it got, and
all of them lie between the least and the largest given value up to `2^-51` of the largest absolute value. -/
theorem C162_range (timespan : K) {times ys : List K} (hs : times.Pairwise (· ≤ ·)) (hl : ys.length = times.length)
    (h2 : 2 ≤ ys.length) {lo hi B : K} (hlo : fl lo = lo) (hhi : fl hi = hi) (hb : ∀ y ∈ ys, lo ≤ y ∧ y ≤ hi)
    (hB : |lo| ≤ B) (hB' : |hi| ≤ B) :
    ∃ l, smoothField timespan times ys = .ok l ∧ l.length = ys.length ∧
      ∀ y ∈ l, lo - 2 ^ (-51 : ℤ) * B ≤ y ∧ y ≤ hi + 2 ^ (-51 : ℤ) * B := by
  have e : (2 : K) ^ (-51 : ℤ) = 4 * u K := by unfold u; norm_num
  have B0 : 0 ≤ B := (abs_nonneg lo).trans hB
  rw [e]
  have hu := u_pos (K := K)
  exact smoothField_all timespan hs hl h2 (P := fun y => lo ≤ y ∧ y ≤ hi)
    (fun a b ha hb => halfSum_mem hlo hhi ha hb)
    (fun a ha => ⟨by linarith [ha.1, show 0 ≤ 4 * u K * B by positivity], by linarith [ha.2, show 0 ≤ 4 * u K * B by positivity]⟩)
    (fun m a b m0 m1 ha hb => combination_mem m0 m1 ha hb hB hB') hb

/-- **C162**: speeds that are not negative stay so. -/
theorem C162_nonneg (timespan : K) {times ys : List K} (hs : times.Pairwise (· ≤ ·)) (hl : ys.length = times.length)
    (h2 : 2 ≤ ys.length) (hb : ∀ y ∈ ys, 0 ≤ y) :
    ∃ l, smoothField timespan times ys = .ok l ∧ l.length = ys.length ∧ ∀ y ∈ l, 0 ≤ y :=
  smoothField_all timespan hs hl h2 (P := fun y => 0 ≤ y)
    (fun a b ha hb => mul_nonneg (by norm_num) (fl_nonneg (by linarith)))
    (fun _ h => h)
    (fun m a b m0 m1 ha hb => fl_nonneg (add_nonneg (fl_nonneg (by positivity))
      (fl_nonneg (mul_nonneg (fl_nonneg (by linarith)) hb)))) hb

/-- **C162**: on a whole table every column keeps its name and position, columns of other types are unchanged, and each column
of numbers keeps its length and, up to `2^-51` of the largest absolute value, its range. -/
theorem C162_table {κ V : Type} (timespan : K) {times : List K} (hs : times.Pairwise (· ≤ ·)) (h2 : 2 ≤ times.length)
    {cols : Dict κ (Col K V)} (hl : ∀ p ∈ cols, ∀ ys, p.2 = .floats ys → ys.length = times.length) :
    ∃ cols', smooth timespan times cols = .ok cols' ∧
      List.Forall₂ (fun p p' => p'.1 = p.1 ∧ match p.2 with
        | .other l => p'.2 = .other l
        | .floats ys => ∃ l, p'.2 = .floats l ∧ smoothField (fl timespan) times ys = .ok l ∧ l.length = ys.length ∧
            ∀ lo hi B, fl lo = lo → fl hi = hi → (∀ y ∈ ys, lo ≤ y ∧ y ≤ hi) → |lo| ≤ B → |hi| ≤ B →
              ∀ y ∈ l, lo - 2 ^ (-51 : ℤ) * B ≤ y ∧ y ≤ hi + 2 ^ (-51 : ℤ) * B) cols cols' := by
  simp only [smooth, any_lt_head hs, Bool.false_eq_true, if_false]
  induction cols with
  | nil => exact ⟨[], rfl, .nil⟩
  | cons p ps ih =>
    obtain ⟨ps', h1, hf⟩ := ih (fun q hq => hl q (List.mem_cons_of_mem _ hq))
    obtain ⟨k, c⟩ := p
    rw [List.mapM_cons]
    cases c with
    | other l =>
      refine ⟨(k, .other l) :: ps', ?_, .cons ⟨rfl, rfl⟩ hf⟩
      rw [h1]; rfl
    | floats ys =>
      have hlen := hl (k, .floats ys) (by simp) ys rfl
      obtain ⟨l, hok, hlen', -⟩ := smoothField_all (fl timespan) hs hlen (by omega) (P := fun _ => True) (Q := fun _ => True)
        (by simp) (by simp) (by simp) (by simp)
      refine ⟨(k, .floats l) :: ps', ?_, .cons ⟨rfl, l, rfl, hok, hlen', ?_⟩ hf⟩
      · simp only [hok]; rw [h1]; rfl
      · intro lo hi B hlo hhi hb hB hB'
        obtain ⟨l', h, -, hm⟩ := C162_range (fl timespan) hs hlen (by omega) hlo hhi hb hB hB'
        rw [hok] at h
        cases h
        exact hm

/-- **C162** (negation): a column with the constant value 3 is changed, and the range of the values is left: with rows at 0, 3
and 5 seconds the second value becomes `3 + 2^-51`. -/
theorem C162_constant_false : smooth (K := ℚ) (κ := String) (V := Unit) 30 [0, 3, 5] [("BSP", .floats [3, 3, 3])] =
    .ok [("BSP", .floats [3, 3 + 2 ^ (-51 : ℤ), 3])] := by
  decide +kernel

/-- **C162** (partial): a constant column is only unchanged up to `2^-51` of its value. -/
theorem C162_constant_partial (timespan : K) {times : List K} (hs : times.Pairwise (· ≤ ·)) (h2 : 2 ≤ times.length) {c : K}
    (hc : fl c = c) :
    ∃ l, smoothField timespan times (List.replicate times.length c) = .ok l ∧ l.length = times.length ∧
      ∀ y ∈ l, |y - c| ≤ 2 ^ (-51 : ℤ) * |c| := by
  obtain ⟨l, h, hlen, hm⟩ := C162_range timespan hs (ys := List.replicate times.length c) (by simp) (by simpa using h2)
    (lo := c) (hi := c) (B := |c|) hc hc (by intro y hy; rw [List.eq_of_mem_replicate hy]; exact ⟨le_rfl, le_rfl⟩) le_rfl le_rfl
  refine ⟨l, h, by simpa using hlen, fun y hy => ?_⟩
  obtain ⟨a, b⟩ := hm y hy
  rw [abs_le]
  constructor <;> linarith

/-! ## Time stamps in whole seconds -/

/-- Whole numbers up to `2^40` (more than thirty thousand years in seconds). -/
def Whole (x : K) : Prop := ∃ n : ℤ, x = n ∧ |n| ≤ 2 ^ 40

/-- Multiples of one half. -/
def Halves (x : K) : Prop := ∃ n : ℤ, 2 * x = n ∧ |n| ≤ 2 ^ 41

/-- Multiples of one quarter. -/
def Quarters (x : K) : Prop := ∃ n : ℤ, 4 * x = n ∧ |n| ≤ 2 ^ 45

theorem Quarters.fl_eq {x : K} (h : Quarters x) : fl x = x := by
  obtain ⟨n, e, hn⟩ := h
  have := fl_exact (K := K) (m := n) (k := -2) (lt_of_le_of_lt hn (by norm_num))
  rw [← e] at this
  rwa [show 4 * x * (2 : K) ^ (-2 : ℤ) = x by norm_num; ring] at this

theorem Whole.halves {x : K} : Whole x → Halves x := by
  rintro ⟨n, rfl, hn⟩
  refine ⟨2 * n, by push_cast; ring, ?_⟩
  rw [abs_le] at *
  constructor <;> omega

theorem Halves.quarters {x : K} : Halves x → Quarters x := by
  rintro ⟨n, e, hn⟩
  refine ⟨2 * n, by push_cast; linarith, ?_⟩
  rw [abs_le] at *
  constructor <;> omega

theorem Halves.add {x y : K} : Halves x → Halves y → Quarters (x + y) := by
  rintro ⟨n, e, hn⟩ ⟨k, f, hk⟩
  refine ⟨2 * n + 2 * k, by push_cast; linarith, ?_⟩
  rw [abs_le] at *
  constructor <;> omega

theorem Halves.sub {x y : K} : Halves x → Halves y → Quarters (x - y) := by
  rintro ⟨n, e, hn⟩ ⟨k, f, hk⟩
  refine ⟨2 * n - 2 * k, by push_cast; linarith, ?_⟩
  rw [abs_le] at *
  constructor <;> omega

theorem Whole.halfSum {x y : K} : Whole x → Whole y → halfSum x y = 1 / 2 * (x + y) ∧ Halves (1 / 2 * (x + y)) := by
  intro hx hy
  refine ⟨?_, ?_⟩
  · rw [F64.halfSum, (hx.halves.add hy.halves).fl_eq]
  · obtain ⟨n, rfl, hn⟩ := hx
    obtain ⟨k, rfl, hk⟩ := hy
    refine ⟨n + k, by push_cast; ring, ?_⟩
    rw [abs_le] at *
    constructor <;> omega

/-- The plateaus are exact. -/
theorem boundsLoop_whole : ∀ (l : List (K × K)) (p : K × K) (xlb ylb : K), (∀ q ∈ p :: l, Whole q.1) → Halves xlb →
    boundsLoop xlb ylb p l = Smoother.boundsLoop xlb ylb p l ∧
      ∀ q ∈ Smoother.boundsLoop xlb ylb p l, Halves q.lb ∧ Halves q.ub
  | [], _, _, _, _, _ => by simp [boundsLoop, Smoother.boundsLoop]
  | q :: l, p, xlb, ylb, hw, hx => by
    have hp := hw p (by simp)
    have hq := hw q (by simp)
    obtain ⟨e, he⟩ := hp.halfSum hq
    have hw' : ∀ r ∈ q :: l, Whole r.1 := fun r hr => hw r (List.mem_cons_of_mem _ hr)
    rw [boundsLoop, Smoother.boundsLoop]
    split
    · refine ⟨rfl, ?_⟩
      intro r hr
      rw [List.mem_singleton] at hr
      subst hr
      exact ⟨hx, hq.halves⟩
    · split
      · exact boundsLoop_whole l q xlb ylb hw' hx
      · rw [e]
        obtain ⟨i1, i2⟩ := boundsLoop_whole l q (1 / 2 * (p.1 + q.1)) q.2 hw' he
        refine ⟨by rw [i1], ?_⟩
        intro r hr
        rcases List.mem_cons.1 hr with rfl | hr
        · exact ⟨hx, he⟩
        · exact i2 r hr

/-- Multiples of one quarter up to `2^41`. -/
def Fine (x : K) : Prop := ∃ n : ℤ, 4 * x = n ∧ |n| ≤ 2 ^ 43

theorem Fine.sub {x y : K} : Fine x → Fine y → Quarters (x - y) := by
  rintro ⟨n, e, hn⟩ ⟨k, f, hk⟩
  refine ⟨n - k, by push_cast; linarith, ?_⟩
  rw [abs_le] at *
  constructor <;> omega

theorem Halves.fine {x : K} : Halves x → Fine x := by
  rintro ⟨n, e, hn⟩
  refine ⟨2 * n, by push_cast; linarith, ?_⟩
  rw [abs_le] at *
  constructor <;> omega

theorem Halves.fine_add {x y : K} : Halves x → Halves y → Fine (x + y) := by
  rintro ⟨n, e, hn⟩ ⟨k, f, hk⟩
  refine ⟨2 * n + 2 * k, by push_cast; linarith, ?_⟩
  rw [abs_le] at *
  constructor <;> omega

theorem Halves.fine_sub {x y : K} : Halves x → Halves y → Fine (x - y) := by
  rintro ⟨n, e, hn⟩ ⟨k, f, hk⟩
  refine ⟨2 * n - 2 * k, by push_cast; linarith, ?_⟩
  rw [abs_le] at *
  constructor <;> omega

theorem Halves.fine_mid {x y : K} : Halves x → Halves y → Fine (1 / 2 * (x + y)) := by
  rintro ⟨n, e, hn⟩ ⟨k, f, hk⟩
  refine ⟨n + k, by push_cast; linarith, ?_⟩
  rw [abs_le] at *
  constructor <;> omega

/-- A calculated interval and the exact one: the same ends, which are multiples of a quarter, and close values. -/
def Alike (B : K) (s t : Seg K) : Prop :=
  (s.xlb = t.xlb ∧ s.xub = t.xub ∧ Fine t.xlb ∧ Fine t.xub) ∧
    |s.ylb - t.ylb| ≤ u K * B ∧ |s.yub - t.yub| ≤ u K * B ∧ |t.ylb| ≤ B ∧ |t.yub| ≤ B

theorem halfSum_close {a b B : K} (ha : |a| ≤ B) (hb : |b| ≤ B) :
    |halfSum a b - 1 / 2 * (a + b)| ≤ u K * B ∧ |1 / 2 * (a + b)| ≤ B := by
  have h : |a + b| ≤ 2 * B := by linarith [abs_add_le a b]
  have e := fl_error' (a + b)
  have := mul_le_mul_of_nonneg_left h (u_pos (K := K)).le
  constructor
  · rw [halfSum, ← mul_sub, abs_mul, abs_of_pos (by norm_num : (0 : K) < 1 / 2)]
    linarith
  · rw [abs_mul, abs_of_pos (by norm_num : (0 : K) < 1 / 2)]
    linarith

/-- The value of the next plateau. -/
def nextY (last : K) : List (Plateau K) → K
  | [] => last
  | q :: _ => q.y

omit [IsStrictOrderedRing K] in
theorem approxLoop_cons (timespan last before : K) (p : Plateau K) (ps : List (Plateau K)) :
    approxLoop timespan last before (p :: ps) = (if fl (p.ub - p.lb) < 2 * timespan then
      [⟨p.lb, halfSum p.ub p.lb, halfSum before p.y, p.y⟩, ⟨halfSum p.ub p.lb, p.ub, p.y, halfSum (nextY last ps) p.y⟩]
    else
      [⟨p.lb, fl (p.lb + timespan), halfSum before p.y, p.y⟩,
       ⟨fl (p.lb + timespan), fl (p.ub - timespan), p.y, p.y⟩,
       ⟨fl (p.ub - timespan), p.ub, p.y, halfSum (nextY last ps) p.y⟩]) ++ approxLoop timespan last p.y ps := by
  cases ps <;> rfl

omit [IsStrictOrderedRing K] [FloorRing K] in
theorem exactLoop_cons (timespan last before : K) (p : Plateau K) (ps : List (Plateau K)) :
    Smoother.approxLoop timespan last before (p :: ps) = (if p.ub - p.lb < 2 * timespan then
      [⟨p.lb, 1 / 2 * (p.ub + p.lb), 1 / 2 * (before + p.y), p.y⟩,
       ⟨1 / 2 * (p.ub + p.lb), p.ub, p.y, 1 / 2 * (nextY last ps + p.y)⟩]
    else
      [⟨p.lb, p.lb + timespan, 1 / 2 * (before + p.y), p.y⟩,
       ⟨p.lb + timespan, p.ub - timespan, p.y, p.y⟩,
       ⟨p.ub - timespan, p.ub, p.y, 1 / 2 * (nextY last ps + p.y)⟩]) ++ Smoother.approxLoop timespan last p.y ps := by
  cases ps <;> rfl

/-- The intervals have exact ends and close values. -/
theorem approxLoop_alike {timespan last B : K} (ht : Whole timespan) (hl : |last| ≤ B) :
    ∀ (ps : List (Plateau K)) (before : K), |before| ≤ B → (∀ q ∈ ps, Halves q.lb ∧ Halves q.ub ∧ |q.y| ≤ B) →
    List.Forall₂ (Alike B) (approxLoop timespan last before ps) (Smoother.approxLoop timespan last before ps)
  | [], _, _, _ => by simp [approxLoop, Smoother.approxLoop]
  | p :: ps, before, hb, hy => by
    obtain ⟨h1, h2, h3⟩ := hy p (by simp)
    have ih := approxLoop_alike ht hl ps p.y h3 (fun q hq => hy q (List.mem_cons_of_mem _ hq))
    have ha : |nextY last ps| ≤ B := by
      cases ps with
      | nil => exact hl
      | cons q _ => exact (hy q (by simp)).2.2
    obtain ⟨c1, c2⟩ := halfSum_close hb h3
    obtain ⟨c3, c4⟩ := halfSum_close ha h3
    have uB : 0 ≤ u K * B := mul_nonneg (u_pos (K := K)).le ((abs_nonneg _).trans h3)
    have z : |p.y - p.y| ≤ u K * B := by rwa [sub_self, abs_zero]
    have e1 : fl (p.ub - p.lb) = p.ub - p.lb := (h2.sub h1).fl_eq
    have e2 : halfSum p.ub p.lb = 1 / 2 * (p.ub + p.lb) := by rw [halfSum, (h2.add h1).fl_eq]
    have e3 : fl (p.lb + timespan) = p.lb + timespan := (h1.add ht.halves).fl_eq
    have e4 : fl (p.ub - timespan) = p.ub - timespan := (h2.sub ht.halves).fl_eq
    rw [approxLoop_cons, exactLoop_cons]
    simp only [e1, e2, e3, e4]
    refine List.rel_append ?_ ih
    split
    · exact .cons ⟨⟨rfl, rfl, h1.fine, h2.fine_mid h1⟩, c1, z, c2, h3⟩
        (.cons ⟨⟨rfl, rfl, h2.fine_mid h1, h2.fine⟩, z, c3, h3, c4⟩ .nil)
    · exact .cons ⟨⟨rfl, rfl, h1.fine, h1.fine_add ht.halves⟩, c1, z, c2, h3⟩
        (.cons ⟨⟨rfl, rfl, h1.fine_add ht.halves, h2.fine_sub ht.halves⟩, z, z, h3, h3⟩
          (.cons ⟨⟨rfl, rfl, h2.fine_sub ht.halves, h2.fine⟩, z, c3, h3, c4⟩ .nil))

/-- The value at a whole second. -/
theorem value_close {s t : Seg K} {x B : K} (h : Alike B s t) (hx : Whole x) (h1 : t.xlb ≤ x) (h2 : x ≤ t.xub) :
    |value s x - Smoother.value t x| ≤ 14 * u K * B := by
  obtain ⟨⟨a1, a2, a3, a4⟩, b1, b2, b3, b4⟩ := h
  have hu := u_pos (K := K)
  have hu' := u_tiny (K := K)
  have B0 : 0 ≤ B := (abs_nonneg _).trans b3
  have uB : 0 ≤ u K * B := by positivity
  have e1 : fl (x - t.xlb) = x - t.xlb := (hx.halves.fine.sub a3).fl_eq
  have e2 : fl (t.xub - t.xlb) = t.xub - t.xlb := (a4.sub a3).fl_eq
  unfold value Smoother.value
  simp only [a1, a2, e1, e2]
  split
  · linarith
  · rename_i hne
    have hpos : 0 < t.xub - t.xlb := lt_of_le_of_ne (by linarith) (Ne.symm hne)
    obtain ⟨l, hl⟩ : ∃ l, l = (x - t.xlb) / (t.xub - t.xlb) := ⟨_, rfl⟩
    have l0 : 0 ≤ l := by rw [hl]; exact div_nonneg (by linarith) hpos.le
    have l1 : l ≤ 1 := by rw [hl, div_le_one hpos]; linarith
    rw [← hl]
    have m1 : fl l ≤ 1 := by rw [← fl_one (K := K)]; exact fl_mono l1
    have hm : |fl l - l| ≤ 4 * u K := by
      have := fl_error' l
      rw [abs_of_nonneg l0] at this
      nlinarith
    have := (combine_step l0 l1 (fl_nonneg l0) m1 hm b4 b3 b2 b1).1
    have h4 : u K * B * (1 + 4 * u K) ≤ u K * B * 2 := mul_le_mul_of_nonneg_left (by linarith) uB
    linarith

theorem advance_alike {B : K} {x : K} {ss ts : List (Seg K)} (hs : List.Forall₂ (Alike B) ss ts) :
    ∀ {s t : Seg K}, Alike B s t → (advance x s ss = none ∧ advance x t ts = none) ∨
      ∃ c d r r', advance x s ss = some (c, r) ∧ advance x t ts = some (d, r') ∧ Alike B c d ∧ List.Forall₂ (Alike B) r r' := by
  induction hs with
  | nil =>
    intro s t h
    simp only [advance, h.1.2.1]
    split
    · exact Or.inl ⟨rfl, rfl⟩
    · exact Or.inr ⟨_, _, _, _, rfl, rfl, h, .nil⟩
  | cons h' hs ih =>
    intro s t h
    simp only [advance, h.1.2.1]
    split
    · exact ih h'
    · exact Or.inr ⟨_, _, _, _, rfl, rfl, h, .cons h' hs⟩

theorem smoothLoop_close {B : K} : ∀ (l : List (K × K)) (s t : Seg K) (ss ts : List (Seg K)), Alike B s t →
    List.Forall₂ (Alike B) ss ts → SLinked (t :: ts) → (l.map Prod.fst).Pairwise (· ≤ ·) →
    (∀ p ∈ l, t.xlb ≤ p.1 ∧ Whole p.1) → 0 ≤ B →
    List.Forall₂ (fun a b => |a - b| ≤ 14 * u K * B) (smoothLoop s ss l) (Smoother.smoothLoop t ts l)
  | [], _, _, _, _, _, _, _, _, _, _ => by simp [smoothLoop, Smoother.smoothLoop]
  | (x, y) :: l, s, t, ss, ts, h, hs, hc, hx, hl, hB => by
    rw [smoothLoop, Smoother.smoothLoop]
    have z : ∀ y : K, |y - y| ≤ 14 * u K * B := fun y => by
      rw [sub_self, abs_zero]; have := u_pos (K := K); positivity
    rcases advance_alike (x := x) hs h with ⟨e1, e2⟩ | ⟨c, d, r, r', e1, e2, h', hs'⟩
    · rw [e1, e2]
      refine .cons (z y) (List.forall₂_same.2 fun a _ => z a)
    · rw [e1, e2]
      obtain ⟨h1, h2, h3, h4⟩ := advance_spec e2 hc (hl (x, y) (by simp)).1
      simp only [List.map_cons, List.pairwise_cons] at hx
      refine .cons (value_close h' (hl (x, y) (by simp)).2 h1 h2) (smoothLoop_close l c d r r' h' hs' h3 hx.2
        (fun p hp => ⟨le_trans h1 (hx.1 p.1 (List.mem_map_of_mem hp)), (hl p (List.mem_cons_of_mem _ hp)).2⟩) hB)

/-- **C162**: for time stamps in whole seconds and a time span of whole seconds the calculated values differ from the exact ones
by at most `14 * 2^-53` of the largest absolute value. -/
theorem C162_error {timespan : K} (ht : Whole timespan) {times ys : List K} (hs : times.Pairwise (· ≤ ·))
    (hl : ys.length = times.length) (h2 : 2 ≤ ys.length) (hw : ∀ t ∈ times, Whole (t - times.headD t)) {B : K}
    (hb : ∀ y ∈ ys, |y| ≤ B) :
    ∃ l l', smoothField timespan times ys = .ok l ∧ Smoother.smoothField timespan times ys = .ok l' ∧
      List.Forall₂ (fun a b => |a - b| ≤ 14 * 2 ^ (-53 : ℤ) * B) l l' := by
  match times, ys, hs, hl, h2, hb with
  | [], [], _, _, h2, _ => simp at h2
  | t0 :: ts, y0 :: ys', hs, hl, h2, hb =>
    have B0 : 0 ≤ B := (abs_nonneg _).trans (hb y0 (by simp))
    have hw' : ∀ t ∈ t0 :: ts, Whole (t - t0) := fun t h => hw t h
    have hmap : ((t0 :: ts).map fun t => fl (t - t0)) = (t0 :: ts).map fun t => t - t0 :=
      List.map_congr_left fun t h => (hw' t h).halves.quarters.fl_eq
    set pts := ((t0 :: ts).map fun t => t - t0).zip (y0 :: ys') with hpts
    have hpb : ∀ p ∈ pts, -B ≤ p.2 ∧ p.2 ≤ B := fun p hp => abs_le.1 (hb p.2 (List.of_mem_zip hp).2)
    have hpw : ∀ p ∈ pts, Whole p.1 := fun p hp => by
      obtain ⟨t, ht, e⟩ := List.mem_map.1 (List.of_mem_zip hp).1
      rw [← e]
      exact hw' t ht
    have hsort : (pts.map Prod.fst).Pairwise (· ≤ ·) := by
      rw [hpts, List.map_fst_zip (by simp at hl ⊢; omega), List.pairwise_map]
      exact hs.imp (fun h => by linarith)
    have hnn : ∀ p ∈ pts, (0 : K) ≤ p.1 := by
      intro p hp
      obtain ⟨t, ht, e⟩ := List.mem_map.1 (List.of_mem_zip hp).1
      rcases List.mem_cons.1 ht with rfl | ht
      · rw [← e]; simp
      · rw [← e]; have := (List.pairwise_cons.1 hs).1 t ht; linarith
    obtain ⟨pts', hp', hne⟩ : ∃ pts', pts = (0, y0) :: pts' ∧ pts' ≠ [] := by
      refine ⟨(ts.map fun t => t - t0).zip ys', by simp [hpts], ?_⟩
      intro e
      have h1 := congrArg List.length e
      rw [List.length_zip, List.length_map] at h1
      simp only [List.length_cons, List.length_nil] at hl h2 h1
      omega
    obtain ⟨b1, b2⟩ := boundsLoop_whole pts' (0, y0) 0 y0 (fun p hp => hpw p (by rw [hp']; exact hp))
      ⟨0, by simp, by norm_num⟩
    have hy0 := abs_le.1 (hb y0 (by simp))
    obtain ⟨⟨q, qs, hq, hql⟩, hc, hy⟩ := Smoother.boundsLoop_spec (lo := -B) (hi := B) pts' (0, y0) 0 y0 hne
      (fun p hp => hpb p (by rw [hp']; exact List.mem_cons_of_mem _ hp)) hy0.1 hy0.2 hy0.1 hy0.2
    set last := ((y0 :: ys').getLast?).getD 0 with hlast
    have hlb : |last| ≤ B := by
      apply hb
      rw [hlast, List.getLast?_eq_some_getLast (by simp)]
      exact List.getLast_mem _
    have hal := approxLoop_alike (last := last) ht hlb (Smoother.boundsLoop 0 y0 (0, y0) pts') y0 (hb y0 (by simp))
      (fun r hr => ⟨(b2 r hr).1, (b2 r hr).2, abs_le.2 (hy r hr)⟩)
    obtain ⟨i1, -⟩ := Smoother.approxLoop_spec (timespan := timespan) (abs_le.1 hlb).1 (abs_le.1 hlb).2 _ y0 hy0.1 hy0.2 hc hy
    rw [hq] at i1 hal
    obtain ⟨t, tt, e, htx⟩ := Smoother.approxLoop_head (timespan := timespan) (last := last) (before := y0) (p := q) (ps := qs)
    rw [e] at i1 hal
    obtain ⟨s, ss, e', -⟩ := approxLoop_head (timespan := timespan) (last := last) (before := y0) (p := q) (ps := qs)
    rw [e'] at hal
    obtain ⟨h, hh⟩ := List.forall₂_cons.1 hal
    refine ⟨smoothLoop s ss pts, Smoother.smoothLoop t tt pts, ?_, ?_, ?_⟩
    · simp only [smoothField]
      rw [hmap, ← hpts, ← hlast, hp']
      simp only [intervalBounds]
      rw [b1, hq, e']
    · simp only [Smoother.smoothField]
      rw [← hpts, ← hlast, hp']
      simp only [Smoother.intervalBounds]
      rw [hq, e]
    · exact smoothLoop_close pts s t ss tt h hh i1 hsort (fun p hp => ⟨by rw [htx, hql]; exact hnn p hp, hpw p hp⟩) B0

/-! ## Examples -/

/-- A column of speeds in whole seconds: the values 9/2 and 7/4 of the exact model. -/
example : smoothField (K := ℚ) 30 [0, 0, 10, 20, 60, 200] [1, 2, 2, 2, 5, 5] = .ok [1, 1, 7 / 4, 2, 9 / 2, 5] := by
  decide +kernel

example : ([0, 1, 2] : List ℚ).Pairwise (· ≤ ·) ∧ Whole (30 : ℚ) ∧
    (∀ t ∈ ([0, 1, 2] : List ℚ), Whole (t - ([0, 1, 2] : List ℚ).headD t)) := by
  refine ⟨by decide +kernel, ⟨30, by norm_num, by norm_num⟩, ?_⟩
  intro t ht
  simp only [List.mem_cons, List.not_mem_nil, or_false] at ht
  rcases ht with rfl | rfl | rfl
  · exact ⟨0, by simp, by norm_num⟩
  · exact ⟨1, by simp, by norm_num⟩
  · exact ⟨2, by simp, by norm_num⟩

/-- Without whole seconds: a third of a second is not a multiple of a quarter; values still stay in the range. -/
example : ∃ l, smoothField (K := ℚ) 30 [0, 1 / 3, 2] [4, 5, 5] = .ok l ∧ l.length = 3 ∧
    ∀ y ∈ l, 4 - 2 ^ (-51 : ℤ) * 5 ≤ y ∧ y ≤ 5 + 2 ^ (-51 : ℤ) * 5 :=
  C162_range (K := ℚ) 30 (times := [0, 1 / 3, 2]) (ys := [4, 5, 5]) (lo := 4) (hi := 5) (B := 5) (by decide +kernel) rfl
    (by decide) (by decide +kernel) (by decide +kernel) (by decide +kernel) (by norm_num) (by norm_num)

end Verif.F64
