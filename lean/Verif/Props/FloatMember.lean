import Verif.Model.FloatMember
import Verif.Props.FloatWeigher
import Verif.Props.FloatSlices
import Verif.Props.FloatNeighbourhood
import Verif.Props.Injector

/-!
# Properties C181 and C182: `CylindricMemberWeigher` and `ZeroInjector` in double precision
-/

set_option linter.unusedSectionVars false

namespace Verif.F64

variable {K : Type} [Field K] [LinearOrder K] [IsStrictOrderedRing K] [FloorRing K] {P : Type} [Sub P]
  {norm : P → K} {radius length : K} {points : List (P × K)}

/-! ### C181 -/

/-- **C181.** Which points are in the cylinder of `p`, for a length that is a double: all points that are by exact arithmetic, and
perhaps points whose distance exceeds the length by less than `2^-52` of it; none of these if the values are nearly equal (neither
is more than twice the other). -/
theorem C181_members (hl : fl length = length) (h0 : 0 ≤ length) (p q : P × K) :
    (|q.2 - p.2| ≤ length ∧ norm (q.1 - p.1) ≤ radius → inCylinder norm radius length p q = true) ∧
    (inCylinder norm radius length p q = true → |q.2 - p.2| ≤ length * (1 + 2 ^ (-52 : ℤ)) ∧ norm (q.1 - p.1) ≤ radius) ∧
    (fl p.2 = p.2 → fl q.2 = q.2 → p.2 ≤ 2 * q.2 → q.2 ≤ 2 * p.2 →
      (inCylinder norm radius length p q = true ↔ |q.2 - p.2| ≤ length ∧ norm (q.1 - p.1) ≤ radius)) := by
  unfold inCylinder
  simp only [Bool.and_eq_true, decide_eq_true_eq]
  refine ⟨fun h => ⟨?_, h.2⟩, fun h => ⟨?_, h.2⟩, fun hp hq h1 h2 => ?_⟩
  · rw [← fl_abs, ← hl]
    exact fl_mono h.1
  · have e := fl_error (q.2 - p.2)
    have h1 := h.1
    have h3 : |q.2 - p.2| ≤ |fl (q.2 - p.2)| + |fl (q.2 - p.2) - (q.2 - p.2)| := by
      have := abs_sub_abs_le_abs_sub (q.2 - p.2) (fl (q.2 - p.2))
      rw [abs_sub_comm (q.2 - p.2) (fl (q.2 - p.2))] at this
      linarith
    have hu : (2 : K) ^ (-53 : ℤ) = 1 / 2 ^ 53 := by norm_num
    have hu' : (2 : K) ^ (-52 : ℤ) = 2 / 2 ^ 53 := by norm_num
    rw [hu] at e
    rw [hu']
    have h4 := abs_nonneg (q.2 - p.2)
    generalize |q.2 - p.2| = d at *
    generalize |fl (q.2 - p.2)| = f at *
    generalize |fl (q.2 - p.2) - (q.2 - p.2)| = g at *
    have h5 : d * (1 - 1 / 2 ^ 53) ≤ length := by linarith
    have h6 : d * (1 - 1 / 2 ^ 53) * (1 + 2 / 2 ^ 53) ≤ length * (1 + 2 / 2 ^ 53) :=
      mul_le_mul_of_nonneg_right h5 (by norm_num)
    have h7 : d * 1 ≤ d * ((1 - 1 / 2 ^ 53) * (1 + 2 / 2 ^ 53)) := mul_le_mul_of_nonneg_left (by norm_num) h4
    linarith
  · rw [sub_exact hq hp h1 h2]

/-- **C181.** A point is in the cylinder of another one if and only if the other one is in its cylinder, for a norm that does not
depend on the sign of the difference. -/
theorem C181_symmetric (hn : ∀ p q : P, norm (p - q) = norm (q - p)) (p q : P × K) :
    inCylinder norm radius length p q = inCylinder norm radius length q p := by
  unfold inCylinder
  rw [hn, ← neg_sub p.2 q.2, fl_neg, abs_neg]

theorem memberCount_pos {p : P × K} (hp : p ∈ points) (hn : norm (p.1 - p.1) ≤ radius) (hl : 0 ≤ length) :
    1 ≤ memberCount norm radius length points p := by
  refine List.length_pos_of_mem (a := p) ?_
  simp [inCylinder, hp, hn, hl, fl_zero]

theorem memberCount_le (p : P × K) : memberCount norm radius length points p ≤ points.length := List.length_filter_le _ _

/-- The quotients of different numbers have different roundings. -/
theorem quotient_order {a b M : Nat} (hM : M ≤ 2 ^ 51) (h0 : 0 < M) (hb : b ≤ M) (h : a < b) :
    fl ((a : K) / M) < fl ((b : K) / M) := by
  have hM' : (0 : K) < M := by exact_mod_cast h0
  have ea := abs_le.1 (fl_error ((a : K) / M))
  have eb := abs_le.1 (fl_error ((b : K) / M))
  have ha0 : (0 : K) ≤ (a : K) / M := by positivity
  have hb0 : (0 : K) ≤ (b : K) / M := by positivity
  rw [abs_of_nonneg ha0] at ea
  rw [abs_of_nonneg hb0] at eb
  have hu : (2 : K) ^ (-53 : ℤ) = 1 / 2 ^ 53 := by norm_num
  rw [hu] at ea eb
  have hab : (a : K) + 1 ≤ b := by exact_mod_cast h
  have hbM : (b : K) ≤ 2 ^ 51 := by exact_mod_cast hb.trans hM
  have key : (a : K) / M * (1 + 1 / 2 ^ 53) < (b : K) / M * (1 - 1 / 2 ^ 53) := by
    rw [div_mul_eq_mul_div, div_mul_eq_mul_div]
    refine div_lt_div_of_pos_right ?_ hM'
    have hc : (2 : K) ^ 51 = 1 / 4 * 2 ^ 53 := by norm_num
    have hp : (0 : K) < 2 ^ 53 := by positivity
    rw [hc] at hbM
    have hb4 : (b : K) * (1 / 2 ^ 53) ≤ 1 / 4 := by
      rw [mul_one_div, div_le_iff₀ hp]
      exact hbM
    have ha4 : (a : K) * (1 / 2 ^ 53) ≤ 1 / 4 :=
      (mul_le_mul_of_nonneg_right (by linarith : (a : K) ≤ b) (by positivity)).trans hb4
    linarith
  linarith [ea.2, eb.1]

/-- **C181.** The weights of `CylindricMemberWeigher` for up to `2^51` points: one for each point, from 0 to 1; the weights are
ordered exactly like the numbers of points in the cylinders, with equal weights for equal numbers only; the points with most points in
their cylinders have weight 1 unless all cylinders contain a single point, when all weights are 0; and all weights are those of exact
arithmetic up to `2^-53`. -/
theorem C181_weights (hne : points ≠ []) (hn : ∀ p ∈ points, norm (p.1 - p.1) ≤ radius) (hl : 0 ≤ length)
    (hsize : points.length ≤ 2 ^ 51) :
    (memberWeigh norm radius length points).length = points.length ∧
    (∀ w ∈ memberWeigh norm radius length points, 0 ≤ w ∧ w ≤ 1) ∧
    (∀ (i j : Nat) (p q : P × K) (v w : K), points[i]? = some p → points[j]? = some q →
      (memberWeigh norm radius length points)[i]? = some v → (memberWeigh norm radius length points)[j]? = some w →
      (v ≤ w ↔ memberCount norm radius length points p ≤ memberCount norm radius length points q)) ∧
    (((∀ p ∈ points, memberCount norm radius length points p = 1) ∧ ∀ w ∈ memberWeigh norm radius length points, w = 0) ∨
      ∀ (i : Nat) (p : P × K), points[i]? = some p →
        (∀ q ∈ points, memberCount norm radius length points q ≤ memberCount norm radius length points p) →
        (memberWeigh norm radius length points)[i]? = some 1) ∧
    ∀ (i : Nat) (v w : K), (memberWeigh norm radius length points)[i]? = some v →
      (Weigher.normalize (points.map fun p => (memberCount norm radius length points p : K) - 1))[i]? = some w →
      |v - w| ≤ 2 ^ (-53 : ℤ) := by
  have hpos : ∀ p ∈ points, 1 ≤ memberCount norm radius length points p := fun p hp => memberCount_pos hp (hn p hp) hl
  have h0 : ∀ x ∈ points.map fun p => (memberCount norm radius length points p : K) - 1, 0 ≤ x := by
    intro x hx
    simp only [List.mem_map] at hx
    obtain ⟨p, hp, rfl⟩ := hx
    have : (1 : K) ≤ (memberCount norm radius length points p : K) := by exact_mod_cast hpos p hp
    linarith
  have hlen : (memberWeigh norm radius length points).length = points.length := by
    unfold memberWeigh
    rw [length_normalize, List.length_map]
  have hcast : ∀ p ∈ points, (memberCount norm radius length points p : K) - 1 =
      ((memberCount norm radius length points p - 1 : ℕ) : K) := by
    intro p hp
    rw [Nat.cast_sub (hpos p hp), Nat.cast_one]
  have hexact : ∀ M : K, 0 < M → M ∈ (points.map fun p => (memberCount norm radius length points p : K) - 1) →
      (∀ x ∈ points.map fun p => (memberCount norm radius length points p : K) - 1, x ≤ M) →
      Weigher.normalize (points.map fun p => (memberCount norm radius length points p : K) - 1) =
        (points.map fun p => (memberCount norm radius length points p : K) - 1).map (· / M) := by
    intro M hM hmem hmax
    generalize (points.map fun p => (memberCount norm radius length points p : K) - 1) = raw at *
    match raw with
    | [] => simp at hmem
    | a :: l =>
      have e : Weigher.maxOf a l = M :=
        le_antisymm (hmax _ (Weigher.maxOf_mem a l)) (Weigher.le_maxOf a l _ hmem)
      simp only [Weigher.normalize, e, hM.ne', if_false]
  rcases normalize_cases h0 (by simpa using hne) with ⟨e, hz⟩ | ⟨M, hM, hM0, hmax, e⟩
  · have hone : ∀ p ∈ points, memberCount norm radius length points p = 1 := by
      intro p hp
      have := hz _ (List.mem_map_of_mem hp)
      have h1 : (memberCount norm radius length points p : K) = ((1 : ℕ) : K) := by push_cast; linarith
      exact_mod_cast h1
    have hw : ∀ w ∈ memberWeigh norm radius length points, w = 0 := by
      intro w hw
      unfold memberWeigh at hw
      rw [e] at hw
      exact hz w hw
    refine ⟨hlen, fun w hw' => by rw [hw w hw']; norm_num, ?_, Or.inl ⟨hone, hw⟩, ?_⟩
    · intro i j p q v w hp hq hv hw'
      rw [hw v (List.mem_of_getElem? hv), hw w (List.mem_of_getElem? hw'), hone p (List.mem_of_getElem? hp),
        hone q (List.mem_of_getElem? hq)]
      simp
    · intro i v w hv hw'
      have hwz : w = 0 := by
        have hm := List.mem_of_getElem? hw'
        have : Weigher.normalize (points.map fun p => (memberCount norm radius length points p : K) - 1) =
            points.map fun p => (memberCount norm radius length points p : K) - 1 := by
          generalize (points.map fun p => (memberCount norm radius length points p : K) - 1) = raw at *
          match raw with
          | [] => rfl
          | a :: l =>
            have e : Weigher.maxOf a l = 0 := hz _ (Weigher.maxOf_mem a l)
            simp only [Weigher.normalize, e, if_true]
        rw [this] at hm
        exact hz w hm
      rw [hw v (List.mem_of_getElem? hv), hwz]
      norm_num
  · obtain ⟨pm, hpm, rfl⟩ := List.mem_map.1 hM
    set m := memberCount norm radius length points pm - 1 with hm
    have hMm : (memberCount norm radius length points pm : K) - 1 = (m : K) := hcast pm hpm
    rw [hMm] at hM0 hmax e
    have hm0 : 0 < m := by exact_mod_cast hM0
    have hmle : m ≤ 2 ^ 51 := by
      have := memberCount_le (norm := norm) (radius := radius) (length := length) (points := points) pm
      omega
    have hcm : ∀ p ∈ points, memberCount norm radius length points p - 1 ≤ m := by
      intro p hp
      have := hmax _ (List.mem_map_of_mem hp)
      rw [hcast p hp] at this
      exact_mod_cast this
    have hget : ∀ (i : Nat) (p : P × K), points[i]? = some p → (memberWeigh norm radius length points)[i]? =
        some (fl (((memberCount norm radius length points p - 1 : ℕ) : K) / m)) := by
      intro i p hp
      unfold memberWeigh
      rw [e, List.getElem?_map, List.getElem?_map, hp]
      simp only [Option.map_some]
      rw [hcast p (List.mem_of_getElem? hp)]
    have hat : ∀ (i : Nat) (v : K), (memberWeigh norm radius length points)[i]? = some v → ∃ p, points[i]? = some p ∧
        v = fl (((memberCount norm radius length points p - 1 : ℕ) : K) / m) := by
      intro i v hv
      have hi := (List.getElem?_eq_some_iff.1 hv).1
      rw [hlen] at hi
      refine ⟨points[i], List.getElem?_eq_getElem hi, ?_⟩
      rw [hget i _ (List.getElem?_eq_getElem hi)] at hv
      exact (Option.some.inj hv).symm
    have hle1 : ∀ p ∈ points, ((memberCount norm radius length points p - 1 : ℕ) : K) / m ≤ 1 := by
      intro p hp
      rw [div_le_one hM0]
      exact_mod_cast hcm p hp
    have hge0 : ∀ p ∈ points, 0 ≤ ((memberCount norm radius length points p - 1 : ℕ) : K) / m := by
      intro p hp
      positivity
    refine ⟨hlen, ?_, ?_, Or.inr ?_, ?_⟩
    · intro w hw
      obtain ⟨i, hi⟩ := List.mem_iff_getElem?.1 hw
      obtain ⟨p, hp, rfl⟩ := hat i w hi
      refine ⟨fl_nonneg (hge0 p (List.mem_of_getElem? hp)), ?_⟩
      have := fl_mono (hle1 p (List.mem_of_getElem? hp))
      rwa [fl_one] at this
    · intro i j p q v w hp hq hv hw
      rw [hget i p hp] at hv
      rw [hget j q hq] at hw
      obtain rfl := (Option.some.inj hv).symm
      obtain rfl := (Option.some.inj hw).symm
      have p1 := hpos p (List.mem_of_getElem? hp)
      have q1 := hpos q (List.mem_of_getElem? hq)
      constructor
      · intro h
        by_contra hlt
        refine absurd h (not_le.2 (quotient_order hmle hm0 (hcm p (List.mem_of_getElem? hp)) ?_))
        omega
      · intro h
        refine fl_mono (div_le_div_of_nonneg_right ?_ hM0.le)
        exact_mod_cast Nat.sub_le_sub_right h 1
    · intro i p hp hbig
      rw [hget i p hp]
      have : memberCount norm radius length points p - 1 = m :=
        le_antisymm (hcm p (List.mem_of_getElem? hp)) (Nat.sub_le_sub_right (hbig pm hpm) 1)
      rw [this, div_self hM0.ne', fl_one]
    · intro i v w hv hw
      obtain ⟨p, hp, rfl⟩ := hat i v hv
      rw [hexact _ hM0 (hMm ▸ hM) hmax, List.getElem?_map, List.getElem?_map, hp] at hw
      simp only [Option.map_some, Option.some.injEq] at hw
      rw [← hw, hcast p (List.mem_of_getElem? hp)]
      refine (fl_error _).trans ?_
      have h1 := hle1 p (List.mem_of_getElem? hp)
      have h2 := hge0 p (List.mem_of_getElem? hp)
      rw [abs_of_nonneg h2]
      calc (2 : K) ^ (-53 : ℤ) * _ ≤ 2 ^ (-53 : ℤ) * 1 := mul_le_mul_of_nonneg_left h1 (two_zpow_pos _).le
        _ = _ := mul_one _

/-- Three of four speeds are close to each other. -/
example : memberWeigh (K := ℚ) (P := ℚ) (fun x => |x|) 1 (fl (5 / 100)) [(0, 5), (1 / 2, fl (504 / 100)), (1, fl (507 / 100)), (9, 9)] =
    [1 / 2, 1, 1 / 2, 0] := by decide +kernel

/-- A third is rounded. -/
example : memberWeigh (K := ℚ) (P := ℚ) (fun x => |x|) 1 2 [(0, 1), (0, 2), (0, 3), (0, 4)] = [fl (2 / 3), 1, 1, fl (2 / 3)] := by
  decide +kernel

/-- The speeds `1 - 2^-53` and `3` differ by more than 2, but are counted for the length 2. -/
theorem C181_members_needed : fl (1 - 2 ^ (-53 : ℤ) : ℚ) = 1 - 2 ^ (-53 : ℤ) ∧ ¬ |(3 : ℚ) - (1 - 2 ^ (-53 : ℤ))| ≤ 2 ∧
    inCylinder (K := ℚ) (P := ℚ) (fun x => |x|) 1 2 (0, 1 - 2 ^ (-53 : ℤ)) (0, 3) = true := by decide +kernel

/-! ### C182 -/

/-- **C182.** `ZeroInjector(n)` with `2 ≤ n` adds `n` points with wind angle 0 and `n` points with wind angle 360, boat speed 0 and
weight 1, at the same wind speeds: the first one is the least, the last one the largest wind speed of the data, they do not decrease
and differ from equally spread ones by at most `10 * 2^-53` of the largest absolute value `M`. -/
theorem C182_inject {n : Nat} (h2 : 2 ≤ n) (hn : n ≤ 2 ^ 50) {rows : List (List K)} (hne : rows ≠ [])
    (hd : ∀ r ∈ rows, fl (r.getD 0 0) = r.getD 0 0) :
    ∃ (a b : K) (ws : List K), (∃ r ∈ rows, r.getD 0 0 = a) ∧ (∃ r ∈ rows, r.getD 0 0 = b) ∧
      (∀ r ∈ rows, a ≤ r.getD 0 0 ∧ r.getD 0 0 ≤ b) ∧
      zeroInject n (.array 3 rows) = .ok ⟨ws.map (fun x => [x, 0, 0]) ++ ws.map (fun x => [x, 360, 0]),
        List.replicate (2 * n) 1, 2 * n⟩ ∧
      ws.length = n ∧ ws[0]? = some a ∧ ws[n - 1]? = some b ∧ ws.Pairwise (· ≤ ·) ∧ (∀ x ∈ ws, a ≤ x ∧ x ≤ b) ∧
      ∀ M, (∀ r ∈ rows, |r.getD 0 0| ≤ M) → ∀ i, i < n →
        ∃ x, ws[i]? = some x ∧ |x - (a + (i : K) * (b - a) / ((n : K) - 1))| ≤ 10 * 2 ^ (-53 : ℤ) * M := by
  have hne' : (rows.map fun r => r.getD 0 0) ≠ [] := by simpa using hne
  obtain ⟨a, ha⟩ : ∃ a, (rows.map fun r => r.getD 0 0).min? = some a := by
    cases h : (rows.map fun r => r.getD 0 0).min? with
    | none => rw [List.min?_eq_none_iff] at h; exact absurd h hne'
    | some a => exact ⟨a, rfl⟩
  obtain ⟨b, hb⟩ : ∃ b, (rows.map fun r => r.getD 0 0).max? = some b := by
    cases h : (rows.map fun r => r.getD 0 0).max? with
    | none => rw [List.max?_eq_none_iff] at h; exact absurd h hne'
    | some b => exact ⟨b, rfl⟩
  have ha' := List.min?_eq_some_iff.1 ha
  have hb' := List.max?_eq_some_iff.1 hb
  obtain ⟨ra, hra, ea⟩ := List.mem_map.1 ha'.1
  obtain ⟨rb, hrb, eb⟩ := List.mem_map.1 hb'.1
  have fa : fl a = a := by rw [← ea]; exact hd ra hra
  have fb : fl b = b := by rw [← eb]; exact hd rb hrb
  have hab : a ≤ b := ha'.2 b hb'.1
  obtain ⟨k, rfl⟩ : ∃ k, n = k + 1 := ⟨n - 1, by omega⟩
  have hk : 0 < k := by omega
  refine ⟨a, b, linspace a b (k + 1), ⟨ra, hra, ea⟩, ⟨rb, hrb, eb⟩,
    fun r hr => ⟨ha'.2 _ (List.mem_map_of_mem hr), hb'.2 _ (List.mem_map_of_mem hr)⟩, ?_, C163_length a b _,
    (C163_ends fa hk).1, (C163_ends fa hk).2.1, (C163_sorted fa fb hab hk (by omega)).1, (C163_sorted fa fb hab hk (by omega)).2, ?_⟩
  · unfold zeroInject
    simp only [ne_eq, not_true_eq_false, if_false, ha, hb]
    rw [if_neg (by omega)]
    simp only [Int.toNat_natCast]
    congr 2
  · intro M hM i hi
    have := C163_error hab (M := M) (by rw [← ea]; exact hM ra hra) (by rw [← eb]; exact hM rb hrb) hk (Nat.lt_succ_iff.1 hi)
    simpa using this

/-- **C182.** For a single point (`n = 1`) the least wind speed is used, for `n = 0` nothing is added, and the errors are those of exact
arithmetic. -/
theorem C182_small {rows : List (List K)} (hne : rows ≠ []) (hd : ∀ r ∈ rows, fl (r.getD 0 0) = r.getD 0 0) :
    zeroInject 0 (.array 3 rows) = .ok (⟨[], [], 0⟩ : Injector.Injected K) ∧
    ∃ a, (∃ r ∈ rows, r.getD 0 0 = a) ∧ (∀ r ∈ rows, a ≤ r.getD 0 0) ∧
      zeroInject 1 (.array 3 rows) = .ok ⟨[[a, 0, 0], [a, 360, 0]], [1, 1], 2⟩ := by
  have hne' : (rows.map fun r => r.getD 0 0) ≠ [] := by simpa using hne
  obtain ⟨a, ha⟩ : ∃ a, (rows.map fun r => r.getD 0 0).min? = some a := by
    cases h : (rows.map fun r => r.getD 0 0).min? with
    | none => rw [List.min?_eq_none_iff] at h; exact absurd h hne'
    | some a => exact ⟨a, rfl⟩
  obtain ⟨b, hb⟩ : ∃ b, (rows.map fun r => r.getD 0 0).max? = some b := by
    cases h : (rows.map fun r => r.getD 0 0).max? with
    | none => rw [List.max?_eq_none_iff] at h; exact absurd h hne'
    | some b => exact ⟨b, rfl⟩
  have ha' := List.min?_eq_some_iff.1 ha
  obtain ⟨ra, hra, ea⟩ := List.mem_map.1 ha'.1
  have fa : fl a = a := by rw [← ea]; exact hd ra hra
  refine ⟨?_, a, ⟨ra, hra, ea⟩, fun r hr => ha'.2 _ (List.mem_map_of_mem hr), ?_⟩
  · unfold zeroInject
    simp only [ne_eq, not_true_eq_false, if_false, ha, hb]
    simp [linspace]
  · unfold zeroInject
    have := (C163_ends (a := a) (b := b) fa one_pos).2.2
    simp only [ne_eq, not_true_eq_false, if_false, ha, hb]
    simp [this]

/-- **C182.** Exceptions are raised for the same arguments as with exact arithmetic. -/
theorem C182_raises (n : Int) (x : Injector.Input K) (e : PyErr) : zeroInject n x = .error e ↔ Injector.inject n x = .error e := by
  cases x with
  | notArray => exact Iff.rfl
  | otherDim => exact Iff.rfl
  | array w rows =>
    by_cases hw : w ≠ 3
    · simp only [zeroInject, Injector.inject]
      rw [if_pos hw, if_pos hw]
    · simp only [zeroInject, Injector.inject]
      rw [if_neg hw, if_neg hw]
      cases (rows.map fun r => r.getD 0 0).min? with
      | none => exact Iff.rfl
      | some a =>
        cases (rows.map fun r => r.getD 0 0).max? with
        | none => exact Iff.rfl
        | some b =>
          dsimp only
          split_ifs
          · exact Iff.rfl
          · exact ⟨fun h => by simp at h, fun h => by simp at h⟩

/-- The wind speeds 5, 12 and 7 get zeros at 5, 8.5 and 12 knots. -/
example : zeroInject (3 : Int) (.array 3 [[5, 40, 3], [12, 90, 8], [7, 120, 6]] : Injector.Input ℚ) =
    .ok ⟨[[5, 0, 0], [17 / 2, 0, 0], [12, 0, 0], [5, 360, 0], [17 / 2, 360, 0], [12, 360, 0]], [1, 1, 1, 1, 1, 1], 6⟩ := by
  decide +kernel

example : zeroInject (-1 : Int) (.array 3 [[5, 40, 3]] : Injector.Input ℚ) = .error .valueError ∧
    zeroInject 1 (.array 3 [[5, 40, 3]] : Injector.Input ℚ) = .ok ⟨[[5, 0, 0], [5, 360, 0]], [1, 1], 2⟩ := by decide +kernel

end Verif.F64
