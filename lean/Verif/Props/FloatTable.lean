import Verif.Model.FloatTable
import Verif.Props.FloatImproved
import Verif.Props.Extension

/-!
# Property C194: tables made from data in double precision
-/

set_option linter.unusedSectionVars false

namespace Verif.F64

open Verif.Interp

variable {K : Type} [Field K] [LinearOrder K] [IsStrictOrderedRing K] [FloorRing K]

theorem near_self {w : List K} (h : ∀ x ∈ w, 0 ≤ x) : Near 0 w w := by
  induction w with
  | nil => exact .nil
  | cons a w ih => exact .cons ⟨h a (by simp), by simp⟩ (ih fun x hx => h x (by simp [hx]))

theorem zipWith_pos {distr : K → K → K} (hd : ∀ d w, 0 < distr d w) (l m : List K) : ∀ x ∈ List.zipWith distr l m, 0 < x := by
  induction l generalizing m with
  | nil => simp
  | cons a l ih =>
    cases m with
    | nil => simp
    | cons b m =>
      intro x hx
      rw [List.zipWith_cons_cons, List.mem_cons] at hx
      rcases hx with rfl | hx
      · exact hd _ _
      · exact ih m x hx

theorem zipWith_nonneg {l m : List K} (hl : ∀ x ∈ l, 0 ≤ x) (hm : ∀ x ∈ m, 0 ≤ x) :
    ∀ x ∈ List.zipWith (fun a b => fl (a * b)) l m, 0 ≤ x := by
  induction l generalizing m with
  | nil => simp
  | cons a l ih =>
    cases m with
    | nil => simp
    | cons b m =>
      intro x hx
      rw [List.zipWith_cons_cons, List.mem_cons] at hx
      rcases hx with rfl | hx
      · exact fl_nonneg (mul_nonneg (hl a (by simp)) (hm b (by simp)))
      · exact ih (fun x hx => hl x (by simp [hx])) (fun x hx => hm x (by simp [hx])) x hx

/-- What the interpolator returns. -/
theorem arith_cases {norm : K × K → K} {distr : K → K → K} (hd : ∀ d w, 0 < distr d w) {pts : List (Pt K)} (hp : pts ≠ [])
    {weights : List K} {g : K × K} {r : Except PyErr K}
    (h : Arith norm 1 distr pts weights g r) :
    (∃ z, firstAtZero (rdist norm) g pts = some z ∧ r = .ok z) ∨
    (firstAtZero (rdist norm) g pts = none ∧
      ∃ y, Averaged (pts.map Prod.snd) (List.zipWith distr (dists (rdist norm) pts g) weights) y ∧ r = .ok y) := by
  have hl : ¬ pts.length = 0 := by rwa [List.length_eq_zero_iff]
  rw [Arith, if_neg hl] at h
  cases hf : firstAtZero (rdist norm) g pts with
  | some z => rw [hf] at h; exact .inl ⟨z, rfl, h⟩
  | none =>
    rw [hf] at h
    obtain ⟨d, hs, h⟩ := h
    have hpos := zipWith_pos hd (dists (rdist norm) pts g) weights
    have hd0 : d ≠ 0 := by
      intro h0
      have h1 := ((hs.eq_zero fun x hx => (hpos x hx).le).2.1 h0)
      obtain ⟨x, hx⟩ := List.exists_mem_of_length_pos hs.length_pos
      exact (hpos x hx).ne' (h1 x hx)
    rw [if_neg hd0] at h
    obtain ⟨n, hn, h⟩ := h
    exact .inr ⟨rfl, _, ⟨n, d, hn, hs, hd0, rfl⟩, by rw [h, one_mul, fl_fl]⟩

/-- The interpolator always has a result, so that `Performs` can be met. -/
theorem arith_exists (norm : K × K → K) (s : K) (distr : K → K → K) (pts : List (Pt K × K)) (g : K × K) :
    ∃ r, Arith norm s distr (pts.map Prod.fst) (pts.map Prod.snd) g r := by
  unfold Arith
  split
  · exact ⟨_, rfl⟩
  · rename_i hl
    cases hf : firstAtZero (rdist norm) g (pts.map Prod.fst) with
    | some z => exact ⟨_, rfl⟩
    | none =>
      have hl' : 0 < pts.length := by simp only [List.length_map] at hl; omega
      obtain ⟨d, hd⟩ := Summed.some (l := List.zipWith distr (dists (rdist norm) (pts.map Prod.fst) g) (pts.map Prod.snd)) (by
        rw [← List.length_pos_iff]; simpa [dists] using hl')
      obtain ⟨n, hn⟩ := Summed.some (l := List.zipWith (fun a b => fl (a * b)) ((pts.map Prod.fst).map Prod.snd)
        (List.zipWith distr (dists (rdist norm) (pts.map Prod.fst) g) (pts.map Prod.snd))) (by
        rw [← List.length_pos_iff]; simpa [dists] using hl')
      by_cases h0 : d = 0
      · exact ⟨.error .zeroDivisionError, d, hd, by simp [h0]⟩
      · exact ⟨.ok (fl (s * fl (n / d))), d, hd, by simp only [h0, if_false]; exact ⟨n, hn, rfl⟩⟩

theorem exists_performs (norm : K × K → K) (s : K) (distr : K → K → K) : ∃ interpolate, Performs norm s distr interpolate := by
  choose f hf using arith_exists norm s distr
  exact ⟨f, hf⟩

/-- **C194.** `ArithmeticMeanInterpolator` in double precision returns for any points a value; it is the speed of the first point
at the wind if there is one; it leaves the range of the speeds by at most `12 (n + 1) / 2^53` times the largest of them, however
exactly the weights are calculated; it is not negative if no speed is negative. -/
theorem C194_value {norm : K × K → K} (hn : IsDist norm) {distr : K → K → K} (hd : ∀ d w, 0 < distr d w) {pts : List (Pt K)}
    (hp : pts ≠ []) {weights : List K} (hw : weights.length = pts.length) (hlen : pts.length + 1 ≤ 2 ^ 50) {g : K × K}
    {r : Except PyErr K} (h : Arith norm 1 distr pts weights g r) :
    ∃ x, r = .ok x ∧ (∀ v, FirstStored pts g v → x = v) ∧ ((∀ p ∈ pts, 0 ≤ p.2) → 0 ≤ x) ∧
      ∀ lo hi B, (∀ p ∈ pts, lo ≤ p.2 ∧ p.2 ≤ hi ∧ |p.2| ≤ B) →
        lo - 12 * ((pts.length + 1) * u K) * B ≤ x ∧ x ≤ hi + 12 * ((pts.length + 1) * u K) * B := by
  rcases arith_cases hd hp h with ⟨z, hf, rfl⟩ | ⟨hf, y, hy, rfl⟩
  · obtain ⟨p, hpm, rfl, -⟩ := firstAtZero_mem hf
    refine ⟨p.2, rfl, fun v hv => ?_, fun h0 => h0 p hpm, fun lo hi B hb => ?_⟩
    · have := firstAtZero_stored (rdist_isDist hn) hv
      rw [hf] at this
      simpa using this
    · obtain ⟨h1, h2, h3⟩ := hb p hpm
      have hB : 0 ≤ B := (abs_nonneg _).trans h3
      have hu := u_pos (K := K)
      have : 0 ≤ 12 * (((pts.length : K) + 1) * u K) * B := by positivity
      exact ⟨by linarith, by linarith⟩
  · have hpos := zipWith_pos hd (dists (rdist norm) pts g) weights
    have hl : (List.zipWith distr (dists (rdist norm) pts g) weights).length = pts.length := by simp [dists, hw]
    have hns : NotStored pts g := fun p hpm he =>
      firstAtZero_eq_none.1 hf p hpm (by rw [he, sub_self]; exact ((rdist_isDist hn).2 0).2 rfl)
    refine ⟨y, rfl, fun v hv => ?_, fun h0 => ?_, fun lo hi B hb => ?_⟩
    · have := firstAtZero_stored (rdist_isDist hn) hv
      rw [hf] at this
      cases this
    · obtain ⟨n, d, sn, sd, -, rfl⟩ := hy
      apply fl_nonneg
      apply div_nonneg
      · refine (sn.eq_zero (zipWith_nonneg (fun x hx => ?_) fun x hx => (hpos x hx).le)).1
        obtain ⟨p, hpm, rfl⟩ := List.mem_map.1 hx
        exact h0 p hpm
      · exact (sd.eq_zero fun x hx => (hpos x hx).le).1
    · have hnear : Near 0 (List.zipWith distr (dists (rdist norm) pts g) weights)
          (List.zipWith distr (dists (rdist norm) pts g) weights) := near_self fun x hx => (hpos x hx).le
      have := C147_range (rdist_isDist hn) hd hp hw hns hnear (fun p hpm => (hb p hpm).2.2) le_rfl (by norm_num) hlen hy
        (fun p hpm => ⟨(hb p hpm).1, (hb p hpm).2.1⟩)
      have e : fl (1 * y) = y := by
        obtain ⟨n, d, -, -, -, rfl⟩ := hy
        rw [one_mul, fl_fl]
      rw [e, add_zero] at this
      exact this

/-- The points whose calculated distance from a wind is at most the radius. -/
def around (norm : K × K → K) (radius : K) (points : List (Pt K × K)) (g : K × K) : List (Pt K × K) :=
  points.filter fun p => decide (norm (fl (p.1.1.1 - g.1), fl (p.1.1.2 - g.2)) ≤ radius)

/-- The value at a wind. -/
theorem entry_double {ballNorm norm : K × K → K} (hn : IsDist norm) {distr : K → K → K} (hd : ∀ d w, 0 < distr d w) {radius : K}
    {points : List (Pt K × K)} (hlen : points.length + 1 ≤ 2 ^ 50)
    {interpolate : List (Pt K × K) → K × K → Except PyErr K} (hi : Performs norm 1 distr interpolate) (g : K × K) :
    ∃ x, Ext.IsValue (inBall ballNorm radius) interpolate points g x ∧
      (around ballNorm radius points g = [] → x = 0) ∧
      (∀ v, FirstStored ((around ballNorm radius points g).map Prod.fst) g v → x = v) ∧
      ((∀ p ∈ points, 0 ≤ p.1.2) → 0 ≤ x) ∧
      (around ballNorm radius points g ≠ [] →
        ∀ lo hi B, (∀ p ∈ around ballNorm radius points g, lo ≤ p.1.2 ∧ p.1.2 ≤ hi ∧ |p.1.2| ≤ B) →
          lo - 12 * ((points.length + 1) * u K) * B ≤ x ∧ x ≤ hi + 12 * ((points.length + 1) * u K) * B) := by
  have hfil : (points.filter fun p => inBall ballNorm radius (p.1.1 - g)) = around ballNorm radius points g := rfl
  by_cases he : around ballNorm radius points g = []
  · refine ⟨0, ⟨fun _ => rfl, fun ⟨p, hp, hb⟩ => ?_⟩, fun _ => rfl, fun v hv => ?_, fun _ => le_rfl, fun h => absurd he h⟩
    · have : p ∈ around ballNorm radius points g := by rw [← hfil]; exact List.mem_filter.2 ⟨hp, hb⟩
      rw [he] at this
      cases this
    · obtain ⟨i, hi, -⟩ := hv
      rw [he] at hi
      simp at hi
  · have hsub : ∀ p ∈ around ballNorm radius points g, p ∈ points := fun p hp => List.mem_of_mem_filter hp
    have hll : (around ballNorm radius points g).length ≤ points.length := List.length_filter_le _ _
    obtain ⟨x, h1, h2, h3, h4⟩ := C194_value hn hd (pts := (around ballNorm radius points g).map Prod.fst) (by simpa using he)
      (weights := (around ballNorm radius points g).map Prod.snd) (by simp) (by rw [List.length_map]; omega)
      (hi (around ballNorm radius points g) g)
    refine ⟨x, ⟨fun h => ?_, fun _ => by rw [hfil]; exact h1⟩, fun h => absurd h he, h2, fun h0 => h3 fun p hp => ?_,
      fun _ lo up B hb => ?_⟩
    · obtain ⟨p, hp⟩ := List.exists_mem_of_ne_nil _ he
      rw [← hfil, List.mem_filter] at hp
      have := h p hp.1
      simp only [this] at hp
      exact absurd hp.2 (by simp)
    · obtain ⟨q, hq, rfl⟩ := List.mem_map.1 hp
      exact h0 q (hsub q hq)
    · have h5 := h4 lo up B fun p hp => by
        obtain ⟨q, hq, rfl⟩ := List.mem_map.1 hp
        exact hb q hq
      rw [List.length_map] at h5
      obtain ⟨p, hp⟩ := List.exists_mem_of_ne_nil _ he
      have hB : 0 ≤ B := (abs_nonneg _).trans (hb p hp).2.2
      have hu := u_pos (K := K)
      have h6 : 12 * ((((around ballNorm radius points g).length : K) + 1) * u K) * B ≤
          12 * (((points.length : K) + 1) * u K) * B := by
        have : ((around ballNorm radius points g).length : K) ≤ points.length := by exact_mod_cast hll
        gcongr
      exact ⟨by linarith [h5.1], by linarith [h5.2]⟩

/-- **C194.** `TableExtension` with the default resolution makes a table in double precision from any data with nonnegative wind
speeds. Its winds are those of the exact table. An entry is 0 if no point is near; otherwise it is the speed of the first point
at the wind, or leaves the range of the speeds of the points nearby by at most `12 (n + 1) / 2^53` times the largest of them. No
entry is negative if no speed is. -/
theorem C194_table {ballNorm norm : K × K → K} (hn : IsDist norm) {distr : K → K → K} (hd : ∀ d w, 0 < distr d w) {radius : K}
    {points : List (Pt K × K)} (hne : points ≠ []) (hpos : ∀ p ∈ points, 0 ≤ p.1.1.1) (hlen : points.length + 1 ≤ 2 ^ 50)
    {interpolate : List (Pt K × K) → K × K → Except PyErr K} (hi : Performs norm 1 distr interpolate) :
    ∃ ws wa t, Ext.minMaxResolution (points.map Prod.fst) = .ok (ws, wa) ∧
      tableProcess ballNorm radius interpolate points = .ok t ∧ t.ws.Perm (ws.map fun (w : ℤ) => (w : K)) ∧
      t.wa.Perm (wa.map fun (a : ℤ) => (a : K)) ∧
      ∀ w ∈ ws, ∀ a ∈ wa, ∃ x, t.get (w : K) (a : K) = .ok x ∧
        (around ballNorm radius points ((w : K), (a : K)) = [] → x = 0) ∧
        (∀ v, FirstStored ((around ballNorm radius points ((w : K), (a : K))).map Prod.fst) ((w : K), (a : K)) v → x = v) ∧
        ((∀ p ∈ points, 0 ≤ p.1.2) → 0 ≤ x) ∧
        (around ballNorm radius points ((w : K), (a : K)) ≠ [] →
          ∀ lo hi B, (∀ p ∈ around ballNorm radius points ((w : K), (a : K)), lo ≤ p.1.2 ∧ p.1.2 ≤ hi ∧ |p.1.2| ≤ B) →
            lo - 12 * ((points.length + 1) * u K) * B ≤ x ∧ x ≤ hi + 12 * ((points.length + 1) * u K) * B) := by
  have key := fun g => entry_double (ballNorm := ballNorm) (radius := radius) hn hd hlen hi g
  choose v hv using key
  obtain ⟨ws, wa, t, h1, h2, h3, h4, h5⟩ := Ext.C82_min_max hne hpos (fun g => (hv g).1)
  exact ⟨ws, wa, t, h1, h2, h3, h4, fun w hw a ha => ⟨_, h5 w hw a ha, (hv _).2⟩⟩

/-- The value at a wind in exact arithmetic. -/
theorem entry_exact {ballNorm norm : K × K → K} (hn : IsDist norm) {distr : K → K → K} (hd : ∀ d w, 0 < distr d w) (radius : K)
    (points : List (Pt K × K)) (g : K × K) :
    ∃ x, Ext.IsValue (fun x => decide (ballNorm x ≤ radius))
      (fun pts g => arith norm 1 distr (pts.map Prod.fst) (pts.map Prod.snd) g) points g x := by
  by_cases he : (points.filter fun p => decide (ballNorm (p.1.1 - g) ≤ radius)) = []
  · refine ⟨0, fun _ => rfl, fun ⟨p, hp, hb⟩ => ?_⟩
    have := (List.filter_eq_nil_iff.1 he) p hp
    exact absurd hb this
  · have : ∃ x, arith norm 1 distr ((points.filter fun p => decide (ballNorm (p.1.1 - g) ≤ radius)).map Prod.fst)
        ((points.filter fun p => decide (ballNorm (p.1.1 - g) ≤ radius)).map Prod.snd) g = .ok x := by
      cases hf : firstAtZero norm g ((points.filter fun p => decide (ballNorm (p.1.1 - g) ≤ radius)).map Prod.fst) with
      | some z => exact ⟨z, by simp [arith, hf]⟩
      | none =>
        obtain ⟨v, hv, -⟩ := C21_in_range hn hd (by simpa using he)
          (weights := (points.filter fun p => decide (ballNorm (p.1.1 - g) ≤ radius)).map Prod.snd) (by simp)
          (g := g) (fun p hp h => firstAtZero_eq_none.1 hf p hp (by rw [h, sub_self]; exact (hn.2 0).2 rfl))
        exact ⟨v, hv⟩
    obtain ⟨x, hx⟩ := this
    refine ⟨x, fun h => absurd ?_ he, fun _ => hx⟩
    rw [List.filter_eq_nil_iff]
    intro p hp
    simp only [h p hp]
    simp

theorem near_zipWith {η : K} {f f' : K × K → K → K} {l : List (Pt K × K)} {g : K × K}
    (h : ∀ p ∈ l, 0 ≤ f (p.1.1 - g) p.2 ∧ |f' (p.1.1 - g) p.2 - f (p.1.1 - g) p.2| ≤ η * f (p.1.1 - g) p.2) :
    Near η (l.map fun p => f (p.1.1 - g) p.2) (l.map fun p => f' (p.1.1 - g) p.2) := by
  induction l with
  | nil => exact .nil
  | cons a l ih => exact .cons (h a (by simp)) (ih fun p hp => h p (by simp [hp]))

theorem zipWith_dists (norm : K × K → K) (distr : K → K → K) (l : List (Pt K × K)) (g : K × K) :
    List.zipWith distr (dists norm (l.map Prod.fst) g) (l.map Prod.snd) = l.map fun p => distr (norm (p.1.1 - g)) p.2 := by
  induction l with
  | nil => rfl
  | cons a l ih =>
    simp only [dists, List.map_cons, List.zipWith_cons_cons] at ih ⊢
    rw [ih]

/-- **C194.** The table in double precision compared with the exact one: if at each wind of the table the same points are near,
and the calculated weights of the mean have relative errors of at most `η`, then both tables have the same winds and their entries
differ by at most `12 ((n + 1) / 2^53 + η)` times the largest speed. -/
theorem C194_accuracy {ballNorm ballNorm' norm norm' : K × K → K} (hn : IsDist norm) (hn' : IsDist norm') {distr distr' : K → K → K}
    (hd : ∀ d w, 0 < distr d w) (hd' : ∀ d w, 0 < distr' d w) {radius η B : K} (hη0 : 0 ≤ η) (hη : η ≤ 1 / 8)
    {points : List (Pt K × K)} (hne : points ≠ []) (hpos : ∀ p ∈ points, 0 ≤ p.1.1.1) (hlen : points.length + 1 ≤ 2 ^ 50)
    (hB : ∀ p ∈ points, |p.1.2| ≤ B) {ws wa : List ℤ} (hres : Ext.minMaxResolution (points.map Prod.fst) = .ok (ws, wa))
    (hball : ∀ p ∈ points, ∀ w ∈ ws, ∀ a ∈ wa,
      (rdist ballNorm' (p.1.1 - ((w : K), (a : K))) ≤ radius ↔ ballNorm (p.1.1 - ((w : K), (a : K))) ≤ radius))
    (hw : ∀ p ∈ points, ∀ w ∈ ws, ∀ a ∈ wa,
      |distr' (rdist norm' (p.1.1 - ((w : K), (a : K)))) p.2 - distr (norm (p.1.1 - ((w : K), (a : K)))) p.2| ≤
        η * distr (norm (p.1.1 - ((w : K), (a : K)))) p.2)
    {interpolate : List (Pt K × K) → K × K → Except PyErr K} (hi : Performs norm' 1 distr' interpolate) :
    ∃ t t', Ext.tableProcess .minMax (fun x => decide (ballNorm x ≤ radius))
        (fun pts g => arith norm 1 distr (pts.map Prod.fst) (pts.map Prod.snd) g) points = .ok t ∧
      tableProcess ballNorm' radius interpolate points = .ok t' ∧
      t.ws.Perm (ws.map fun (w : ℤ) => (w : K)) ∧ t'.ws.Perm (ws.map fun (w : ℤ) => (w : K)) ∧
      t.wa.Perm (wa.map fun (a : ℤ) => (a : K)) ∧ t'.wa.Perm (wa.map fun (a : ℤ) => (a : K)) ∧
      ∀ w ∈ ws, ∀ a ∈ wa, ∃ x x', t.get (w : K) (a : K) = .ok x ∧ t'.get (w : K) (a : K) = .ok x' ∧
        |x' - x| ≤ 12 * ((points.length + 1) * u K + η) * B := by
  choose v hv using entry_exact (ballNorm := ballNorm) hn hd radius points
  choose v' hv' using fun g => entry_double (ballNorm := ballNorm') (radius := radius) hn' hd' hlen hi g
  obtain ⟨ws1, wa1, t, r1, t1, t2, t3, t4⟩ := Ext.C82_min_max hne hpos hv
  obtain ⟨ws2, wa2, t', r2, t1', t2', t3', t4'⟩ := Ext.C82_min_max hne hpos (fun g => (hv' g).1)
  rw [hres] at r1 r2
  cases r1
  cases r2
  refine ⟨t, t', t1, t1', t2, t2', t3, t3', fun w hwm a ham => ⟨_, _, t4 w hwm a ham, t4' w hwm a ham, ?_⟩⟩
  have hB0 : 0 ≤ B := by
    obtain ⟨p, hp⟩ := List.exists_mem_of_ne_nil _ hne
    exact (abs_nonneg _).trans (hB p hp)
  have hu := u_pos (K := K)
  have hE : 0 ≤ 12 * (((points.length : K) + 1) * u K + η) * B := by positivity
  set g : K × K := ((w : K), (a : K)) with hg
  have hsame : (points.filter fun p => inBall ballNorm' radius (p.1.1 - g)) =
      points.filter fun p => decide (ballNorm (p.1.1 - g) ≤ radius) := by
    apply List.filter_congr
    intro p hp
    unfold inBall
    rw [decide_eq_decide]
    exact hball p hp w hwm a ham
  obtain ⟨e1, e2⟩ := hv g
  obtain ⟨e1', e2'⟩ := (hv' g).1
  by_cases he : (points.filter fun p => decide (ballNorm (p.1.1 - g) ≤ radius)) = []
  · have z1 : v g = 0 := e1 fun p hp => by simpa using (List.filter_eq_nil_iff.1 he) p hp
    have z2 : v' g = 0 := e1' fun p hp => by
      rw [← hsame] at he
      simpa using (List.filter_eq_nil_iff.1 he) p hp
    rw [z1, z2]
    simpa using hE
  · obtain ⟨p, hp⟩ := List.exists_mem_of_ne_nil _ he
    have x1 := e2 ⟨p, (List.mem_filter.1 hp).1, (List.mem_filter.1 hp).2⟩
    rw [← hsame] at hp
    have x2 := e2' ⟨p, (List.mem_filter.1 hp).1, (List.mem_filter.1 hp).2⟩
    rw [hsame] at x2
    generalize hc : (points.filter fun p => decide (ballNorm (p.1.1 - g) ≤ radius)) = c at x1 x2 he
    have hsub : ∀ q ∈ c, q ∈ points := fun q hq => by rw [← hc] at hq; exact List.mem_of_mem_filter hq
    have hlc : c.length ≤ points.length := by rw [← hc]; exact List.length_filter_le _ _
    have hA := hi c g
    rw [x2] at hA
    have hne' : c.map Prod.fst ≠ [] := by simpa using he
    rcases arith_cases hd' hne' hA with ⟨z, hf, hz⟩ | ⟨hf, y, hy, hyr⟩
    · have hf2 : firstAtZero norm g (c.map Prod.fst) = some z := by
        rw [← hf]
        clear hf hA x1 x2 hc hsub hlc hne' he
        induction c with
        | nil => rfl
        | cons q c ih =>
          simp only [List.map_cons, firstAtZero, ih, hn.2, (rdist_isDist hn').2]
      simp only [arith, hf2] at x1
      rw [Except.ok.inj hz, ← Except.ok.inj x1, sub_self, abs_zero]
      exact hE
    · cases hyr
      have hns : NotStored (c.map Prod.fst) g := fun q hq h =>
        firstAtZero_eq_none.1 hf q hq (by rw [h, sub_self]; exact ((rdist_isDist hn').2 0).2 rfl)
      have hnear : Near η (List.zipWith distr (dists norm (c.map Prod.fst) g) (c.map Prod.snd))
          (List.zipWith distr' (dists (rdist norm') (c.map Prod.fst) g) (c.map Prod.snd)) := by
        rw [zipWith_dists, zipWith_dists]
        exact near_zipWith (f := fun x w => distr (norm x) w) (f' := fun x w => distr' (rdist norm' x) w)
          fun q hq => ⟨(hd _ _).le, hw q (hsub q hq) w hwm a ham⟩
      obtain ⟨x, h1, -, h3⟩ := C147_interpolator hn hd hne' (by simp) hns hnear (B := B) (fun q hq => by
        obtain ⟨q', hq', rfl⟩ := List.mem_map.1 hq
        exact hB q' (hsub q' hq')) hη0 hη (by rw [List.length_map]; omega) hy
      have e : fl (1 * v' g) = v' g := by
        obtain ⟨n, d, -, -, -, hnd⟩ := hy
        rw [hnd, one_mul, fl_fl]
      rw [e, List.length_map] at h3
      have x1' : arith norm 1 distr (c.map Prod.fst) (c.map Prod.snd) g = .ok (v g) := x1
      rw [h1] at x1'
      rw [← Except.ok.inj x1']
      refine h3.trans ?_
      have : (c.length : K) ≤ points.length := by exact_mod_cast hlc
      gcongr

/-- **C194.** With the default components the weights are `np.exp(-50 * weights * distances)`; whatever positive numbers `e` numpy
calculates for the exponential function, measurements without negative speeds give a table without negative entries, and no entry
is larger than the largest measured speed near its wind by more than the factor `1 + 12 (n + 1) / 2^53`. -/
theorem C194_default {e : ℝ → ℝ} (he : ∀ x, 0 < e x) {points : List (Pt ℝ × ℝ)} (hne : points ≠ [])
    (hpos : ∀ p ∈ points, 0 ≤ p.1.1.1) (hb : ∀ p ∈ points, 0 ≤ p.1.2) (hlen : points.length + 1 ≤ 2 ^ 50)
    {interpolate : List (Pt ℝ × ℝ) → ℝ × ℝ → Except PyErr ℝ}
    (hi : Performs scaledEuclidean 1 (fun d w => e (fl (fl (-50 * w) * d))) interpolate) :
    ∃ t, tableProcess scaledEuclidean 1 interpolate points = .ok t ∧ ∀ w ∈ t.ws, ∀ a ∈ t.wa, ∃ x, t.get w a = .ok x ∧ 0 ≤ x ∧
      ∀ B, 0 ≤ B → (∀ p ∈ around scaledEuclidean 1 points (w, a), p.1.2 ≤ B) → x ≤ (1 + 12 * ((points.length + 1) * u ℝ)) * B := by
  obtain ⟨ws, wa, t, -, h2, h3, h4, h5⟩ := C194_table (ballNorm := scaledEuclidean) (radius := 1) isDist_flscaled
    (fun d w => he _) hne hpos hlen hi
  refine ⟨t, h2, fun w hw a ha => ?_⟩
  obtain ⟨w', hw', rfl⟩ := List.mem_map.1 (h3.mem_iff.1 hw)
  obtain ⟨a', ha', rfl⟩ := List.mem_map.1 (h4.mem_iff.1 ha)
  obtain ⟨x, g1, g2, -, g4, g5⟩ := h5 w' hw' a' ha'
  refine ⟨x, g1, g4 hb, fun B hB0 hB => ?_⟩
  have hu := u_pos (K := ℝ)
  by_cases hemp : around scaledEuclidean 1 points ((w' : ℝ), (a' : ℝ)) = []
  · rw [g2 hemp]
    positivity
  · have := (g5 hemp 0 B B fun p hp => by
      have h0 := hb p (List.mem_of_mem_filter hp)
      exact ⟨h0, hB p hp, by rw [abs_of_nonneg h0]; exact hB p hp⟩).2
    linarith

/-- The hypotheses can be met. -/
example : ∃ interpolate : List (Pt ℝ × ℝ) → ℝ × ℝ → Except PyErr ℝ,
    ∃ t, tableProcess scaledEuclidean 1 interpolate [(((10, 90), 5), 1), (((12, 100), 6), 1 / 2)] = .ok t ∧
      ∀ w ∈ t.ws, ∀ a ∈ t.wa, ∃ x, t.get w a = .ok x ∧ 0 ≤ x := by
  obtain ⟨interpolate, hi⟩ := exists_performs scaledEuclidean 1 (fun d w : ℝ => Real.exp (fl (fl (-50 * w) * d)))
  obtain ⟨t, h1, h2⟩ := C194_default (e := Real.exp) Real.exp_pos
    (points := [(((10, 90), 5), 1), (((12, 100), 6), 1 / 2)]) (by simp) (by simp) (by simp) (by norm_num) hi
  refine ⟨interpolate, t, h1, fun w hw a ha => ?_⟩
  obtain ⟨x, g1, g2, -⟩ := h2 w hw a ha
  exact ⟨x, g1, g2⟩

/-- The hypotheses of `C194_accuracy` can be met: distances in the maximum norm, all weights equal. -/
example : ∃ interpolate : List (Pt ℚ × ℚ) → ℚ × ℚ → Except PyErr ℚ, ∃ t t',
    Ext.tableProcess .minMax (fun x => decide (max |x.1| |x.2| ≤ 10))
      (fun pts g => arith (fun x => max |x.1| |x.2|) 1 (fun _ _ => 1) (pts.map Prod.fst) (pts.map Prod.snd) g)
      [(((10, 92), 5), 1), (((11, 100), 6), 1 / 2)] = .ok t ∧
    tableProcess (fun x => fl (max |x.1| |x.2|)) 10 interpolate [(((10, 92), 5), 1), (((11, 100), 6), 1 / 2)] = .ok t' ∧
    ∃ x x', t.get 10 95 = .ok x ∧ t'.get 10 95 = .ok x' ∧ |x' - x| ≤ 12 * ((2 + 1) * u ℚ + 0) * 6 := by
  obtain ⟨interpolate, hi⟩ := exists_performs (fun x : ℚ × ℚ => fl (max |x.1| |x.2|)) 1 (fun _ _ : ℚ => 1)
  have hmax : IsDist fun x : ℚ × ℚ => max |x.1| |x.2| := by
    refine ⟨fun x => le_max_of_le_left (abs_nonneg _), fun x => ?_⟩
    have := isDist_flmax.2 x
    rwa [fl_eq_zero] at this
  obtain ⟨t, t', h1, h2, -, -, -, -, h3⟩ := C194_accuracy (ballNorm := fun x : ℚ × ℚ => max |x.1| |x.2|)
    (ballNorm' := fun x : ℚ × ℚ => fl (max |x.1| |x.2|)) (norm := fun x : ℚ × ℚ => max |x.1| |x.2|)
    (norm' := fun x : ℚ × ℚ => fl (max |x.1| |x.2|)) hmax isDist_flmax (distr := fun _ _ => 1) (distr' := fun _ _ => 1)
    (fun _ _ => one_pos) (fun _ _ => one_pos) (radius := 10) (η := 0) (B := 6) le_rfl (by norm_num)
    (points := [(((10, 92), 5), 1), (((11, 100), 6), 1 / 2)]) (by simp) (by simp) (by norm_num)
    (by simp; norm_num) (ws := [10]) (wa := (List.range 71).map fun i => 5 + (i : ℤ) * 5)
    (by decide +kernel) (by decide +kernel) (by simp) hi
  obtain ⟨x, x', g1, g2, g3⟩ := h3 10 (by simp) 95 (by decide +kernel)
  exact ⟨interpolate, t, t', h1, h2, x, x', by simpa using g1, by simpa using g2, by simpa using g3⟩

end Verif.F64
