import Verif.Model.FloatWeather
import Verif.Props.FloatIsochrone
import Verif.Props.WeatherError
import Mathlib.Data.Rat.Floor

/-!
# Property C152: interpolated weather in double precision
-/

set_option linter.unusedSectionVars false

namespace Verif.F64

variable {K : Type} [Field K] [LinearOrder K] [IsStrictOrderedRing K] [FloorRing K] {κ : Type}

theorem u_tiny : u K ≤ 1 / 64 := by
  unfold u
  norm_num

theorem fl_one : fl (1 : K) = 1 := by
  have := fl_int (K := K) (m := 1) (by norm_num)
  simpa using this

theorem fl_eq_zero {x : K} : fl x = 0 ↔ x = 0 := by
  constructor
  · intro h
    have e := fl_error' x
    rw [h, zero_sub, abs_neg] at e
    by_contra hx
    have hp := abs_pos.2 hx
    have := u_small (K := K)
    have : u K * |x| ≤ 1 / 4 * |x| := mul_le_mul_of_nonneg_right this hp.le
    linarith
  · rintro rfl
    exact fl_zero

theorem fl_pos {x : K} (h : 0 < x) : 0 < fl x :=
  lt_of_le_of_ne (fl_nonneg h.le) fun e => h.ne' (fl_eq_zero.1 e.symm)

/-- The rounded weight is in the unit interval and close to the exact one. -/
theorem lamb_spec {x y z : K} (h1 : z < x) (h2 : x < y) :
    0 ≤ lamb x z y ∧ lamb x z y ≤ 1 ∧ 0 ≤ (x - y) / (z - y) ∧ (x - y) / (z - y) ≤ 1 ∧
      |lamb x z y - (x - y) / (z - y)| ≤ 4 * u K := by
  obtain ⟨a, ha⟩ : ∃ a, a = y - x := ⟨_, rfl⟩
  obtain ⟨b, hb⟩ : ∃ b, b = y - z := ⟨_, rfl⟩
  have a0 : 0 < a := by rw [ha]; linarith
  have b0 : 0 < b := by rw [hb]; linarith
  have hab : a ≤ b := by rw [ha, hb]; linarith
  have e1 : x - y = -a := by rw [ha]; ring
  have e2 : z - y = -b := by rw [hb]; ring
  have el : lamb x z y = fl (fl a / fl b) := by rw [lamb, e1, e2, fl_neg, fl_neg, neg_div_neg_eq]
  rw [el, e1, e2, neg_div_neg_eq]
  have fa := fl_pos a0
  have fb := fl_pos b0
  have hu := u_pos (K := K)
  have hu' := u_small (K := K)
  obtain ⟨l, hl⟩ : ∃ l, l = a / b := ⟨_, rfl⟩
  have hla : a = l * b := by rw [hl, div_mul_cancel₀ _ b0.ne']
  have l0 : 0 ≤ l := by rw [hl]; positivity
  have l1 : l ≤ 1 := by rw [hl, div_le_one b0]; exact hab
  obtain ⟨q, hq⟩ : ∃ q, q = fl a / fl b := ⟨_, rfl⟩
  have hqa : fl a = q * fl b := by rw [hq, div_mul_cancel₀ _ fb.ne']
  have q0 : 0 ≤ q := by rw [hq]; positivity
  have q1 : q ≤ 1 := by rw [hq, div_le_one fb]; exact fl_mono hab
  rw [← hl, ← hq]
  have up : q ≤ (1 + 3 * u K) * l := by
    have s1 := fl_upper a0.le
    have s2 := fl_lower b0.le
    have s3 : (1 + u K) ≤ (1 + 3 * u K) * (1 - u K) := by nlinarith
    have s4 : q * fl b ≤ (1 + 3 * u K) * l * fl b := by
      calc q * fl b = fl a := hqa.symm
        _ ≤ (1 + u K) * a := s1
        _ = (1 + u K) * (l * b) := by rw [← hla]
        _ ≤ (1 + 3 * u K) * (1 - u K) * (l * b) := mul_le_mul_of_nonneg_right s3 (by positivity)
        _ = (1 + 3 * u K) * l * ((1 - u K) * b) := by ring
        _ ≤ (1 + 3 * u K) * l * fl b := mul_le_mul_of_nonneg_left s2 (by positivity)
    exact le_of_mul_le_mul_right s4 fb
  have lo : (1 - 3 * u K) * l ≤ q := by
    have s1 := fl_lower a0.le
    have s2 := fl_upper b0.le
    have s3 : (1 - 3 * u K) * (1 + u K) ≤ 1 - u K := by nlinarith
    have s5 : 0 ≤ 1 - 3 * u K := by linarith
    have s4 : (1 - 3 * u K) * l * fl b ≤ q * fl b := by
      calc (1 - 3 * u K) * l * fl b ≤ (1 - 3 * u K) * l * ((1 + u K) * b) :=
            mul_le_mul_of_nonneg_left s2 (by positivity)
        _ = (1 - 3 * u K) * (1 + u K) * (l * b) := by ring
        _ ≤ (1 - u K) * (l * b) := mul_le_mul_of_nonneg_right s3 (by positivity)
        _ = (1 - u K) * a := by rw [← hla]
        _ ≤ fl a := s1
        _ = q * fl b := hqa
    exact le_of_mul_le_mul_right s4 fb
  have ul : u K * l ≤ u K := by nlinarith
  have uq : u K * q ≤ u K := by nlinarith
  have r := fl_error' q
  rw [abs_of_nonneg q0] at r
  refine ⟨fl_nonneg q0, ?_, l0, l1, ?_⟩
  · have := fl_mono q1
    rwa [fl_one] at this
  · rw [abs_le] at r ⊢
    constructor <;> linarith [r.1, r.2]

/-- One step of the interpolation, for values which are known up to errors of at most `E`. -/
theorem combine_step {l m a b a' b' E M : K} (l0 : 0 ≤ l) (l1 : l ≤ 1) (m0 : 0 ≤ m) (m1 : m ≤ 1)
    (hm : |m - l| ≤ 4 * u K) (ha : |a| ≤ M) (hb : |b| ≤ M) (ha' : |a' - a| ≤ E) (hb' : |b' - b| ≤ E) :
    |fl (fl (m * a') + fl (fl (1 - m) * b')) - (l * a + (1 - l) * b)| ≤ E * (1 + 4 * u K) + 12 * u K * M ∧
      |l * a + (1 - l) * b| ≤ M := by
  have hu := u_pos (K := K)
  have hu' := u_small (K := K)
  have M0 : 0 ≤ M := (abs_nonneg a).trans ha
  have E0 : 0 ≤ E := (abs_nonneg _).trans ha'
  have n0 : 0 ≤ 1 - m := by linarith
  have na : |a'| ≤ M + E := by
    have := abs_add_le a (a' - a)
    rw [add_sub_cancel] at this
    linarith
  have nb : |b'| ≤ M + E := by
    have := abs_add_le b (b' - b)
    rw [add_sub_cancel] at this
    linarith
  obtain ⟨N, hN⟩ : ∃ N, N = M + E := ⟨_, rfl⟩
  rw [← hN] at na nb
  have N0 : 0 ≤ N := by rw [hN]; linarith
  have p1 : |fl (m * a') - m * a'| ≤ u K * (m * N) := by
    refine (fl_error' _).trans (mul_le_mul_of_nonneg_left ?_ hu.le)
    rw [abs_mul, abs_of_nonneg m0]
    exact mul_le_mul_of_nonneg_left na m0
  have w0 := fl_nonneg n0
  have w1 : fl (1 - m) ≤ (1 + u K) * (1 - m) := fl_upper n0
  have w2 : |fl (1 - m) - (1 - m)| ≤ u K * (1 - m) := by
    have := fl_error' (1 - m)
    rwa [abs_of_nonneg n0] at this
  have p2 : |fl (fl (1 - m) * b') - fl (1 - m) * b'| ≤ u K * ((1 + u K) * (1 - m) * N) := by
    refine (fl_error' _).trans (mul_le_mul_of_nonneg_left ?_ hu.le)
    rw [abs_mul, abs_of_nonneg w0]
    exact mul_le_mul w1 nb (abs_nonneg _) (by positivity)
  have p3 : |fl (1 - m) * b' - (1 - m) * b'| ≤ u K * (1 - m) * N := by
    rw [← sub_mul, abs_mul]
    exact mul_le_mul w2 nb (abs_nonneg _) (by positivity)
  obtain ⟨s, hs⟩ : ∃ s, s = fl (m * a') + fl (fl (1 - m) * b') := ⟨_, rfl⟩
  have p4 : |s - (m * a' + (1 - m) * b')| ≤ (2 * u K + u K * u K) * N := by
    have t1 : s - (m * a' + (1 - m) * b') = (fl (m * a') - m * a') +
        ((fl (fl (1 - m) * b') - fl (1 - m) * b') + (fl (1 - m) * b' - (1 - m) * b')) := by rw [hs]; ring
    have t2 : u K * (m * N) + (u K * ((1 + u K) * (1 - m) * N) + u K * (1 - m) * N) =
        (2 * u K + u K * u K) * N - (u K + u K * u K) * (m * N) := by ring
    have t3 : 0 ≤ (u K + u K * u K) * (m * N) := by positivity
    have t4 := abs_add_le (fl (fl (1 - m) * b') - fl (1 - m) * b') (fl (1 - m) * b' - (1 - m) * b')
    have t5 := abs_add_le (fl (m * a') - m * a')
      ((fl (fl (1 - m) * b') - fl (1 - m) * b') + (fl (1 - m) * b' - (1 - m) * b'))
    rw [t1]
    linarith
  have conv : ∀ {v x y B : K}, 0 ≤ v → v ≤ 1 → |x| ≤ B → |y| ≤ B → |v * x + (1 - v) * y| ≤ B := by
    intro v x y B v0 v1 hx hy
    refine (abs_add_le _ _).trans ?_
    rw [abs_mul, abs_mul, abs_of_nonneg v0, abs_of_nonneg (by linarith : 0 ≤ 1 - v)]
    have i1 := mul_le_mul_of_nonneg_left hx v0
    have i2 := mul_le_mul_of_nonneg_left hy (by linarith : 0 ≤ 1 - v)
    linarith
  have p5 : |s| ≤ (1 + (2 * u K + u K * u K)) * N := by
    have t1 := conv m0 m1 na nb
    have t2 := abs_add_le (m * a' + (1 - m) * b') (s - (m * a' + (1 - m) * b'))
    rw [add_sub_cancel] at t2
    linarith
  have p6 : |fl s - s| ≤ u K * ((1 + (2 * u K + u K * u K)) * N) :=
    (fl_error' s).trans (mul_le_mul_of_nonneg_left p5 hu.le)
  have p7 : |m * (a' - a) + (1 - m) * (b' - b)| ≤ E := conv m0 m1 ha' hb'
  have p8 : |(m - l) * (a - b)| ≤ 4 * u K * (2 * M) := by
    rw [abs_mul]
    refine mul_le_mul hm ?_ (abs_nonneg _) (by positivity)
    have := abs_sub a b
    linarith
  have p9 : u K * ((1 + (2 * u K + u K * u K)) * N) + (2 * u K + u K * u K) * N ≤ 4 * u K * N := by
    have : u K * ((1 + (2 * u K + u K * u K)) * N) + (2 * u K + u K * u K) * N =
        (3 + 3 * u K + u K * u K) * (u K * N) := by ring
    rw [this]
    have h4 : 3 + 3 * u K + u K * u K ≤ 4 := by nlinarith
    have := mul_le_mul_of_nonneg_right h4 (by positivity : 0 ≤ u K * N)
    linarith
  refine ⟨?_, conv l0 l1 ha hb⟩
  rw [← hs]
  have t1 : fl s - (l * a + (1 - l) * b) = (fl s - s) + ((s - (m * a' + (1 - m) * b')) +
      ((m * (a' - a) + (1 - m) * (b' - b)) + (m - l) * (a - b))) := by ring
  have t2 := abs_add_le (m * (a' - a) + (1 - m) * (b' - b)) ((m - l) * (a - b))
  have t3 := abs_add_le (s - (m * a' + (1 - m) * b')) ((m * (a' - a) + (1 - m) * (b' - b)) + (m - l) * (a - b))
  have t4 := abs_add_le (fl s - s) ((s - (m * a' + (1 - m) * b')) +
      ((m * (a' - a) + (1 - m) * (b' - b)) + (m - l) * (a - b)))
  rw [t1]
  have t5 : 4 * u K * N = 4 * u K * M + 4 * u K * E := by rw [hN]; ring
  linarith

/-- Both lists have the same length, and the numbers of the first one differ by at most `E` from those of the second one,
which are bounded by `M`. -/
def Close (E M : K) (v' v : List K) : Prop := List.Forall₂ (fun x' x => |x' - x| ≤ E ∧ |x| ≤ M) v' v

theorem close_combine {l m E M : K} (l0 : 0 ≤ l) (l1 : l ≤ 1) (m0 : 0 ≤ m) (m1 : m ≤ 1) (hm : |m - l| ≤ 4 * u K) :
    ∀ {s' s t' t : List K}, Close E M s' s → Close E M t' t →
      Close (E * (1 + 4 * u K) + 12 * u K * M) M (combine m s' t') (Weather.combine l s t)
  | [], _, _, _, .nil, _ => by simp [combine, Weather.combine, Close]
  | _ :: _, _ :: _, [], _, _, .nil => by simp [combine, Weather.combine, Close]
  | _ :: _, _ :: _, _ :: _, _ :: _, .cons ha hs, .cons hb ht =>
    .cons (combine_step l0 l1 m0 m1 hm ha.2 hb.2 ha.1 hb.1) (close_combine l0 l1 m0 m1 hm hs ht)

/-- The number of a dimension is a grid value or between two neighbouring ones. -/
inductive Placed : Weather.Dim K → Prop
  | on {g : List K} {x : K} {i : Nat} : Placed ⟨g, x, [i], [x]⟩
  | between {g : List K} {x y z : K} {i : Nat} : g[i]? = some z → g[i + 1]? = some y → z < x → x < y →
      Placed ⟨g, x, [i, i + 1], [z, y]⟩

/-- The bound for the error after `n` dimensions, in units of the largest value. -/
def err (K : Type) [Field K] : Nat → K
  | 0 => 0
  | n + 1 => err K n * (1 + 4 * u K) + 12 * u K

/-- The two results are lists close to each other, or the same exception. -/
def Agree (E M : K) : Except PyErr (List K) → Except PyErr (List K) → Prop
  | .ok v', .ok v => Close E M v' v
  | .error e', .error e => e' = e
  | _, _ => False

theorem recursion_error {get : List Nat → Except PyErr (List K)} {M : K} (hM : 0 ≤ M)
    (hget : ∀ c v, get c = .ok v → ∀ x ∈ v, |x| ≤ M) :
    ∀ (ds : List (Weather.Dim K)) (c : List Nat), (∀ d ∈ ds, Placed d) →
      Agree (err K ds.length * M) M (recursion get ds c) (Weather.recursion get ds c)
  | [], c, _ => by
    simp only [recursion, Weather.recursion]
    cases h : get c with
    | error e => rfl
    | ok v =>
      show List.Forall₂ _ v v
      rw [List.forall₂_same]
      intro x hx
      exact ⟨by simp [err], hget c v h x hx⟩
  | d :: ds, c, hp => by
    have ih := fun c => recursion_error hM hget ds c fun d hd => hp d (List.mem_cons_of_mem _ hd)
    have hu := u_pos (K := K)
    cases hp d List.mem_cons_self with
    | @on g x i =>
      simp only [recursion, Weather.recursion, List.mem_singleton, if_true, List.length_cons]
      have := ih (c ++ [List.idxOf x [x]])
      revert this
      cases recursion get ds (c ++ [List.idxOf x [x]]) <;> cases Weather.recursion get ds (c ++ [List.idxOf x [x]]) <;>
        simp only [Agree, imp_self]
      intro h
      refine h.imp fun a b hab => ⟨hab.1.trans ?_, hab.2⟩
      refine mul_le_mul_of_nonneg_right ?_ hM
      have e0 : ∀ n, 0 ≤ err K n := fun n => by
        induction n with
        | zero => exact le_rfl
        | succ n ihn => rw [err]; positivity
      rw [err]
      nlinarith [e0 ds.length]
    | @between g x y z i hz hy h1 h2 =>
      have hnm : ¬ (x ∈ [z, y]) := by simp [h1.ne', h2.ne]
      have hzy : z ≠ y := (h1.trans h2).ne
      have hfl : ¬ fl (z - y) = 0 := fun h => hzy (sub_eq_zero.1 (fl_eq_zero.1 h))
      simp only [recursion, Weather.recursion, hnm, if_false, hz, hy, hzy, hfl, List.length_cons]
      have i0 := ih (c ++ [i])
      have i1 := ih (c ++ [i + 1])
      revert i0 i1
      cases recursion get ds (c ++ [i]) <;> cases Weather.recursion get ds (c ++ [i]) <;>
        simp only [Agree, false_implies, imp_self, implies_true]
      · intro h _
        exact h
      cases recursion get ds (c ++ [i + 1]) <;> cases Weather.recursion get ds (c ++ [i + 1]) <;>
        simp only [imp_self, implies_true, Agree, false_implies]
      intro s t
      obtain ⟨m0, m1, l0, l1, hm⟩ := lamb_spec h1 h2
      have := close_combine l0 l1 m0 m1 hm s t
      have e : err K (ds.length + 1) * M = err K ds.length * M * (1 + 4 * u K) + 12 * u K * M := by
        rw [err]; ring
      rw [e]
      exact this

theorem mkDim_placed {g : List K} (hg : g.Pairwise (· < ·)) {x : K} (hx : Weather.Inside g x) :
    ∃ d, Weather.mkDim g x = .ok d ∧ Placed d := by
  rcases Weather.mkDim_spec hg hx with ⟨_, _, h⟩ | ⟨_, _, _, _, a, b, c, d, h⟩
  · exact ⟨_, h, .on⟩
  · exact ⟨_, h, .between a b c d⟩

/-- All stored values are at most `M` in absolute value. -/
def Bounded (G : Weather.Gridded κ K) (M : K) : Prop := ∀ a ∈ G.data, ∀ b ∈ a, ∀ c ∈ b, ∀ x ∈ c, |x| ≤ M

theorem getData_bounded {G : Weather.Gridded κ K} {M : K} (h : Bounded G M) (c : List Nat) (v : List K)
    (hv : G.getData c = .ok v) : ∀ x ∈ v, |x| ≤ M := by
  unfold Weather.Gridded.getData at hv
  split at hv
  · split at hv
    · simp at hv
    · rename_i ha
      split at hv
      · simp at hv
      · rename_i hb
        split at hv
        · simp at hv
        · rename_i hc
          rw [Except.ok.injEq] at hv
          subst hv
          exact h _ (List.mem_of_getElem? ha) _ (List.mem_of_getElem? hb) _ (List.mem_of_getElem? hc)
  · simp at hv

theorem err_three : err K 3 ≤ 40 * u K := by
  have hu := u_pos (K := K)
  have hu' := u_tiny (K := K)
  have e : err K 3 = ((1 + 4 * u K) * (1 + 4 * u K) + (1 + 4 * u K) + 1) * (12 * u K) := by
    simp only [err]; ring
  have : (1 + 4 * u K) * (1 + 4 * u K) + (1 + 4 * u K) + 1 ≤ 40 / 12 := by nlinarith
  rw [e]
  have := mul_le_mul_of_nonneg_right this (by positivity : 0 ≤ 12 * u K)
  linarith

/-- The interpolation calculated in double precision and the exact one agree. -/
theorem interpolate_agree {G : Weather.Gridded κ K} (hG : G.Valid) {M : K} (hM : 0 ≤ M) (hb : Bounded G M) (t la lo : K) :
    Agree (40 * u K * M) M (interpolate G t la lo) (Weather.interpolate G t la lo) := by
  by_cases h : Weather.Inside G.times t ∧ Weather.Inside G.lats la ∧ Weather.Inside G.lons lo
  · obtain ⟨d0, e0, p0⟩ := mkDim_placed hG.times h.1
    obtain ⟨d1, e1, p1⟩ := mkDim_placed hG.lats h.2.1
    obtain ⟨d2, e2, p2⟩ := mkDim_placed hG.lons h.2.2
    have := recursion_error hM (getData_bounded hb) [d0, d1, d2] [] (by simp [p0, p1, p2])
    simp only [interpolate, Weather.interpolate, e0, e1, e2]
    cases Weather.anyOutside G t la lo with
    | error e => rfl
    | ok b =>
      cases b
      · revert this
        dsimp only
        cases recursion G.getData [d0, d1, d2] [] <;> cases Weather.recursion G.getData [d0, d1, d2] [] <;>
          simp only [Agree, imp_self]
        intro h
        exact h.imp fun a b hab => ⟨hab.1.trans (mul_le_mul_of_nonneg_right err_three hM), hab.2⟩
      · rfl
  · obtain ⟨a, a1, a2⟩ := Weather.outside_spec hG.times hG.times_ne t
    obtain ⟨b, b1, b2⟩ := Weather.outside_spec hG.lats hG.lats_ne la
    obtain ⟨c, c1, c2⟩ := Weather.outside_spec hG.lons hG.lons_ne lo
    have : Weather.anyOutside G t la lo = .ok true := by
      simp only [Weather.anyOutside, a1, b1, c1, Except.ok.injEq]
      rw [← a2, ← b2, ← c2] at h
      revert h
      cases a <;> cases b <;> cases c <;> simp
    simp [interpolate, Weather.interpolate, this, Agree]

theorem close_zip {E M : K} : ∀ (l : List κ) {v' v : List K}, Close E M v' v →
    List.Forall₂ (fun p' p : κ × K => p'.1 = p.1 ∧ |p'.2 - p.2| ≤ E) (l.zip v') (l.zip v)
  | [], _, _, _ => by simp
  | _ :: _, _, _, .nil => by simp
  | _ :: l, _, _, .cons h hs => .cons ⟨rfl, h.1⟩ (close_zip l hs)

theorem exists_bound : ∀ l : List K, ∃ M, 0 ≤ M ∧ ∀ x ∈ l, |x| ≤ M
  | [] => ⟨0, le_rfl, by simp⟩
  | a :: l => by
    obtain ⟨M, h0, h⟩ := exists_bound l
    refine ⟨max M |a|, h0.trans (le_max_left _ _), fun x hx => ?_⟩
    rcases List.mem_cons.1 hx with rfl | hx
    · exact le_max_right _ _
    · exact (h x hx).trans (le_max_left _ _)

theorem zip_close {E : K} (hE : 0 ≤ E) : ∀ (l : List κ) {w' : Dict κ K} {v : List K}, v.length = l.length →
    List.Forall₂ (fun p' p : κ × K => p'.1 = p.1 ∧ |p'.2 - p.2| ≤ E) w' (l.zip v) →
    ∃ v', w' = l.zip v' ∧ v'.length = l.length ∧ ∀ a, |v'.getD a 0 - v.getD a 0| ≤ E
  | [], _, [], _, h => by
    simp only [List.zip_nil_right, List.forall₂_nil_right_iff] at h
    exact ⟨[], by simp [h], rfl, fun a => by simpa using hE⟩
  | k :: l, _, x :: v, hl, h => by
    rw [List.zip_cons_cons] at h
    cases h with
    | @cons p _ w' _ h hs =>
      obtain ⟨v', rfl, h2, h3⟩ := zip_close hE l (by simpa using hl) hs
      obtain ⟨p1, p2⟩ := p
      obtain ⟨rfl, h⟩ := h
      exact ⟨p2 :: v', rfl, by simp [h2], fun a => by
        cases a with
        | zero => exact h
        | succ a => exact h3 a⟩

/-- **C152.** If the stored values are at most `M` in absolute value, then rounding changes each interpolated value by at most
`40 M / 2 ^ 53`, wherever the grid values are. -/
theorem C152_error {G : Weather.Gridded κ K} (hG : G.Valid) {M : K} (hM : 0 ≤ M) (hb : Bounded G M) {t la lo : K}
    {w : Dict κ K} (h : Weather.getWeather G t la lo = .ok w) :
    ∃ w', getWeather G t la lo = .ok w' ∧
      List.Forall₂ (fun p' p => p'.1 = p.1 ∧ |p'.2 - p.2| ≤ 40 * M / 2 ^ 53) w' w := by
  have hu : 40 * u K * M = 40 * M / 2 ^ 53 := by
    rw [eq_div_iff (by positivity)]
    linear_combination 40 * M * u_mul (K := K)
  have := interpolate_agree hG hM hb t la lo
  revert this h
  unfold getWeather Weather.getWeather
  cases interpolate G t la lo <;> cases Weather.interpolate G t la lo <;> simp only [Agree, false_implies, reduceCtorEq,
    Except.ok.injEq]
  · simp
  · rintro rfl hc
    refine ⟨_, rfl, ?_⟩
    rw [hu] at hc
    exact close_zip G.attrs hc

/-- **C152.** The same exceptions are raised as by exact calculation. -/
theorem C152_exceptions {G : Weather.Gridded κ K} (hG : G.Valid) (t la lo : K) (e : PyErr) :
    getWeather G t la lo = .error e ↔ Weather.getWeather G t la lo = .error e := by
  obtain ⟨M, hM, hb⟩ : ∃ M : K, 0 ≤ M ∧ Bounded G M := by
    obtain ⟨M, hM, h⟩ := exists_bound G.data.flatten.flatten.flatten
    refine ⟨M, hM, fun a ha b hb c hc x hx => h x ?_⟩
    simp only [List.mem_flatten]
    exact ⟨c, ⟨b, ⟨a, ha, hb⟩, hc⟩, hx⟩
  have := interpolate_agree hG hM hb t la lo
  revert this
  unfold getWeather Weather.getWeather
  cases interpolate G t la lo <;> cases Weather.interpolate G t la lo <;> simp +contextual [Agree]

/-- **C152.** So the calculated weather approximates the weather: for weather changing by at most `Lt`, `Lla` and `Llo` per unit
of time, latitude and longitude, between the grid values the error is at most `Lt Δt + Lla Δla + Llo Δlo` plus the error of
the stored values plus `40 M / 2 ^ 53`. -/
theorem C152_weather {G : Weather.Gridded κ K} (hG : G.Valid) {a : Nat} {W : K → K → K → K}
    {δ Δt Δla Δlo Lt Lla Llo M : K} (hM : 0 ≤ M) (hb : Bounded G M) (hs : G.Samples a W δ) (ht : 0 ≤ Δt) (hla : 0 ≤ Δla)
    (hlo : 0 ≤ Δlo) (mt : Weather.Mesh G.times Δt) (mla : Weather.Mesh G.lats Δla) (mlo : Weather.Mesh G.lons Δlo)
    (h0 : 0 ≤ Lt) (h1 : 0 ≤ Lla) (h2 : 0 ≤ Llo)
    (hW : ∀ t la lo t' la' lo', |W t' la' lo' - W t la lo| ≤ Lt * |t' - t| + Lla * |la' - la| + Llo * |lo' - lo|)
    {t la lo : K} (ho : G.OffGrid t la lo) :
    ∃ vals, getWeather G t la lo = .ok (G.attrs.zip vals) ∧ vals.length = G.attrs.length ∧
      |vals.getD a 0 - W t la lo| ≤ Lt * Δt + Lla * Δla + Llo * Δlo + δ + 40 * M / 2 ^ 53 := by
  obtain ⟨vals, e1, e2, e3⟩ := Weather.C144_lipschitz_partial hG hs ht hla hlo mt mla mlo h0 h1 h2 hW ho
  obtain ⟨w', e4, e5⟩ := C152_error hG hM hb e1
  obtain ⟨v, rfl, e6, e7⟩ := zip_close (by positivity) G.attrs e2 e5
  refine ⟨v, e4, e6, ?_⟩
  have t1 := abs_add_le (v.getD a 0 - vals.getD a 0) (vals.getD a 0 - W t la lo)
  rw [sub_add_sub_cancel] at t1
  linarith [e7 a]

/-- A grid of times only, for constant weather `1/10` (as a double). -/
def still : Weather.Gridded String Rat where
  times := [0, 10]
  lats := [50]
  lons := [1]
  attrs := ["TWS"]
  data := [[[[fl (1 / 10)]]], [[[fl (1 / 10)]]]]

/-- **C152.** The error is not zero: seven tenths of the way between two times with the same wind speed `0.1` the calculated
wind speed is not `0.1`, but the double below it. -/
theorem C152_inexact : getWeather still 7 50 1 = .ok [("TWS", fl (1 / 10) - 1 / 2 ^ 56)] ∧
    Weather.getWeather still 7 50 1 = .ok [("TWS", fl (1 / 10))] := by decide +kernel

example : still.Valid ∧ Bounded still (1 / 5) := by
  refine ⟨⟨?_, ?_, ?_, ?_, ?_, ?_, ?_, ?_, ?_, ?_⟩, ?_⟩ <;> first | decide +kernel | (unfold Bounded; decide +kernel)

/-- Three dimensions, with the data of two attributes. -/
def cube : Weather.Gridded String Rat where
  times := [0, 3600000000, 7200000000]
  lats := [50, 51]
  lons := [1, 2, 4]
  attrs := ["TWS", "TWA"]
  data := (List.range 3).map fun i : Nat => (List.range 2).map fun j : Nat => (List.range 3).map fun k : Nat =>
    [fl ((i + j + k : Rat) / 10), fl ((i * j + k : Rat) / 3)]

example : cube.Valid ∧ Bounded cube 5 := by
  refine ⟨⟨?_, ?_, ?_, ?_, ?_, ?_, ?_, ?_, ?_, ?_⟩, ?_⟩ <;> first | decide +kernel | (unfold Bounded; decide +kernel)

example : Weather.getWeather cube 1234567890 (fl (502 / 10)) (fl (33 / 10)) ≠
    getWeather cube 1234567890 (fl (502 / 10)) (fl (33 / 10)) := by decide +kernel

end Verif.F64
