import Verif.Model.FloatDefault
import Verif.Props.FloatTable
import Verif.Props.FloatMember
import Verif.Props.FloatFilter
import Verif.Props.FloatWeigher
import Verif.Lemmas.DefaultTable

/-!
# Property C195: the default pipeline in double precision
-/

namespace Verif.F64

open Verif.Interp
open Verif.Default (Settings rowPoint)

theorem maskList_mem {α : Type} {m : List Bool} {l : List α} {i : Nat} {x : α} (hm : m[i]? = some true) (hl : l[i]? = some x) :
    x ∈ Data.maskList m l := by
  induction m generalizing l i with
  | nil => simp at hm
  | cons b m ih =>
    cases l with
    | nil => simp at hl
    | cons y l =>
      cases i with
      | zero =>
        simp only [List.getElem?_cons_zero, Option.some.injEq] at hm hl
        subst hm hl
        simp [Data.maskList]
      | succ i =>
        simp only [List.getElem?_cons_succ] at hm hl
        have := ih hm hl
        unfold Data.maskList
        split
        · exact List.mem_cons_of_mem _ this
        · exact this

theorem maskList_sublist {α : Type} (m : List Bool) (l : List α) : (Data.maskList m l).Sublist l := by
  induction m generalizing l with
  | nil => simp [Data.maskList]
  | cons b m ih =>
    cases l with
    | nil => simp [Data.maskList]
    | cons y l =>
      unfold Data.maskList
      split
      · exact (ih l).cons_cons y
      · exact (ih l).cons y

variable {s : Settings} {data : List (Pt ℝ)} {w : List ℝ} {e : ℝ → ℝ}

theorem weights_double (h : MeanWeighed (rdist s.weigherNorm) s.radius data w) : ∀ x ∈ w, fl x = x := by
  obtain ⟨raw, -, rfl⟩ := h
  intro x hx
  obtain ⟨y, -, rfl⟩ := List.mem_map.1 hx
  exact fl_fl _

/-- A point of maximal weight is kept. -/
theorem keptOf_ne (hp : 0 ≤ s.percent) (hne : data ≠ []) (h : MeanWeighed (rdist s.weigherNorm) s.radius data w) :
    keptOf s data w ≠ [] := by
  have hlen := (C154_weights h).1
  have hw : w ≠ [] := by
    intro h0
    rw [h0] at hlen
    exact hne (List.length_eq_zero_iff.1 hlen.symm)
  obtain ⟨i, hi, he⟩ := List.getElem_of_mem (List.max_mem hw)
  have hk := (C155_kept hp (weights_double h)).2.2 i (w.max hw) (by rw [List.getElem?_eq_getElem hi, he])
    fun x hx => List.le_max_of_mem hx
  have hz : (data.zip w)[i]? = some (data[i]'(by omega), w[i]) := by
    rw [List.getElem?_eq_getElem (by simp; omega)]
    simp
  exact List.ne_nil_of_mem (maskList_mem hk hz)

theorem keptOf_mem {q : Pt ℝ × ℝ} (h : q ∈ keptOf s data w) : q.1 ∈ data :=
  (List.of_mem_zip ((maskList_sublist _ _).subset h)).1

theorem keptOf_length (h : w.length = data.length) : (keptOf s data w).length ≤ data.length := by
  have := (maskList_sublist (quantileFilter s.percent w) (data.zip w)).length_le
  simpa [keptOf, h] using this

/-- The injected points: at most `2 n` points without speed, at wind speeds between those of the kept points. -/
theorem injected (hz : 0 ≤ s.nZeros) (hz' : s.nZeros ≤ 2 ^ 50) {pts : List (Pt ℝ × ℝ)} (hne : pts ≠ [])
    (hd : ∀ p ∈ pts, fl p.1.1.1 = p.1.1.1) :
    ∃ i, zeroInject s.nZeros (.array 3 (pts.map fun p => [p.1.1.1, p.1.1.2, p.1.2])) = .ok i ∧
      (((i.data.map rowPoint).zip i.weights).length : ℤ) ≤ 2 * s.nZeros ∧
      ∀ q ∈ (i.data.map rowPoint).zip i.weights, q.1.2 = 0 ∧
        (∃ p ∈ pts, p.1.1.1 ≤ q.1.1.1) ∧ ∃ p ∈ pts, q.1.1.1 ≤ p.1.1.1 := by
  obtain ⟨n, hn⟩ := Int.eq_ofNat_of_zero_le hz
  have hne' : (pts.map fun p => [p.1.1.1, p.1.1.2, p.1.2]) ≠ [] := by simpa using hne
  have hd' : ∀ r ∈ pts.map (fun p => [p.1.1.1, p.1.1.2, p.1.2]), fl (r.getD 0 0) = r.getD 0 0 := by
    intro r hr
    obtain ⟨p, hp, rfl⟩ := List.mem_map.1 hr
    simpa using hd p hp
  rw [hn] at hz' ⊢
  by_cases h2 : 2 ≤ n
  · obtain ⟨a, b, ws, ⟨ra, hra, ea⟩, ⟨rb, hrb, eb⟩, -, hi, hl, -, -, -, hab, -⟩ :=
      C182_inject h2 (by omega) hne' hd'
    obtain ⟨pa, hpa, rfl⟩ := List.mem_map.1 hra
    obtain ⟨pb, hpb, rfl⟩ := List.mem_map.1 hrb
    refine ⟨_, hi, ?_, ?_⟩
    · simp only [List.length_zip, List.length_map, List.length_append, hl, List.length_replicate]
      push_cast
      omega
    · intro q hq
      have := (List.of_mem_zip hq).1
      obtain ⟨r, hr, he⟩ := List.mem_map.1 this
      rw [← he]
      have hmem : ∃ x ∈ ws, r = [x, 0, 0] ∨ r = [x, 360, 0] := by
        rcases List.mem_append.1 hr with hr | hr
        · obtain ⟨x, hx, rfl⟩ := List.mem_map.1 hr
          exact ⟨x, hx, .inl rfl⟩
        · obtain ⟨x, hx, rfl⟩ := List.mem_map.1 hr
          exact ⟨x, hx, .inr rfl⟩
      obtain ⟨x, hx, hr'⟩ := hmem
      have hab' := hab x hx
      simp only [List.getD_cons_zero] at ea eb
      rcases hr' with rfl | rfl <;>
        exact ⟨rfl, ⟨pa, hpa, by rw [ea]; exact hab'.1⟩, ⟨pb, hpb, by rw [eb]; exact hab'.2⟩⟩
  · obtain ⟨h0, a, ⟨ra, hra, ea⟩, -, h1⟩ := C182_small hne' hd'
    obtain ⟨pa, hpa, rfl⟩ := List.mem_map.1 hra
    simp only [List.getD_cons_zero] at ea
    have : n = 0 ∨ n = 1 := by omega
    rcases this with rfl | rfl
    · exact ⟨_, h0, by simp, by simp⟩
    · refine ⟨_, h1, by simp, ?_⟩
      intro q hq
      have := (List.of_mem_zip hq).1
      obtain ⟨r, hr, he⟩ := List.mem_map.1 this
      rw [← he]
      simp only [List.mem_cons, List.not_mem_nil, or_false] at hr
      rcases hr with rfl | rfl <;>
        exact ⟨rfl, ⟨pa, hpa, by rw [ea]; exact le_refl a⟩, ⟨pa, hpa, by rw [ea]; exact le_refl a⟩⟩

/-- **C195.** In double precision the default pipeline always comes to an end, with some result. -/
theorem C195_defined (hs : s.weigherNorm 0 ≤ s.radius) (data : List (Pt ℝ)) : ∃ r, MakesTable s e data r := by
  unfold MakesTable
  split
  · exact ⟨_, rfl⟩
  · obtain ⟨w, hw⟩ := C154_defined (norm := rdist s.weigherNorm) (radius := s.radius) (points := data) (fun p _ => by
      rw [sub_self]
      change s.weigherNorm (fl 0, fl 0) ≤ s.radius
      rw [fl_zero]
      exact hs)
    by_cases hk : (keptOf s data w).length = 0
    · exact ⟨.error .runtimeError, w, hw, by rw [if_pos hk]⟩
    · cases hi : zeroInject s.nZeros (.array 3 ((keptOf s data w).map fun p => [p.1.1.1, p.1.1.2, p.1.2])) with
      | error err => exact ⟨.error err, w, hw, by rw [if_neg hk, hi]⟩
      | ok i =>
        obtain ⟨f, hf⟩ := exists_performs s.norm 1 (gauss e s.alpha)
        exact ⟨_, w, hw, by rw [if_neg hk, hi]; exact ⟨f, hf, rfl⟩⟩

/-- **C195.** From measurements with nonnegative wind speeds that are doubles the default pipeline makes a table in double
precision, whatever the orders of the additions are. Its wind angles are the multiples of 5 from 5 to 355, its wind speeds are
those of the measurements up to rounding to integers; its boat speeds leave the range of the measured ones and zero by at most
`12 (n + 1) / 2^53` times the largest of them, where `n` is the number of measurements and injected points, and they are not
negative if no measured speed is. -/
theorem C195_table (hp : 0 ≤ s.percent) (hz : 0 ≤ s.nZeros) (hn : IsDist s.norm) (he : ∀ x, 0 < e x) (hne : data ≠ [])
    (hpos : ∀ p ∈ data, 0 ≤ p.1.1) (hd : ∀ p ∈ data, fl p.1.1 = p.1.1) (hlen : data.length + 2 * s.nZeros + 1 ≤ 2 ^ 50)
    {r : Except PyErr (Table ℝ)} (h : MakesTable s e data r) :
    ∃ t, r = .ok t ∧ t.ws ≠ [] ∧ (∀ a : ℝ, a ∈ t.wa ↔ ∃ k : ℤ, 1 ≤ k ∧ k ≤ 71 ∧ a = 5 * k) ∧
      (∀ x ∈ t.ws, ∃ p ∈ data, ∃ q ∈ data, p.1.1 - 1 / 2 ≤ x ∧ x ≤ q.1.1 + 1 / 2) ∧
      ∀ x ∈ t.ws, ∀ a ∈ t.wa, ∃ y, t.get x a = .ok y ∧ ((∀ p ∈ data, 0 ≤ p.2) → 0 ≤ y) ∧
        ∀ lo hi B, lo ≤ 0 → 0 ≤ hi → (∀ p ∈ data, lo ≤ p.2 ∧ p.2 ≤ hi ∧ |p.2| ≤ B) →
          lo - 12 * ((data.length + 2 * s.nZeros + 1) * u ℝ) * B ≤ y ∧
          y ≤ hi + 12 * ((data.length + 2 * s.nZeros + 1) * u ℝ) * B := by
  have hl : ¬ data.length = 0 := by rwa [List.length_eq_zero_iff]
  rw [MakesTable, if_neg hl] at h
  obtain ⟨w, hw, h⟩ := h
  have hk := keptOf_ne hp hne hw
  have hkl : ¬ (keptOf s data w).length = 0 := by rwa [List.length_eq_zero_iff]
  rw [if_neg hkl] at h
  obtain ⟨i, hi, il, iq⟩ := injected hz (by have : (0 : ℤ) ≤ data.length := by positivity
                                            omega) hk fun p hpm => hd _ (keptOf_mem hpm)
  rw [hi] at h
  obtain ⟨f, hf, rfl⟩ := h
  set zs := (i.data.map rowPoint).zip i.weights with hzs
  set P := keptOf s data w ++ zs with hP
  have hkd : (keptOf s data w).length ≤ data.length := keptOf_length (C154_weights hw).1
  have hPl : (P.length : ℤ) ≤ data.length + 2 * s.nZeros := by
    rw [hP, List.length_append]
    push_cast
    omega
  have hPws : ∀ q ∈ P, (∃ p ∈ data, p.1.1 ≤ q.1.1.1) ∧ ∃ p ∈ data, q.1.1.1 ≤ p.1.1 := by
    intro q hq
    rcases List.mem_append.1 hq with hq | hq
    · exact ⟨⟨_, keptOf_mem hq, le_refl _⟩, ⟨_, keptOf_mem hq, le_refl _⟩⟩
    · obtain ⟨-, ⟨p, hp, h1⟩, ⟨p', hp', h2⟩⟩ := iq q hq
      exact ⟨⟨_, keptOf_mem hp, h1⟩, ⟨_, keptOf_mem hp', h2⟩⟩
  have hPne : P ≠ [] := List.append_ne_nil_of_left_ne_nil hk _
  obtain ⟨ws, wa, t, h1, h2, h3, h4, h5⟩ := C194_table (ballNorm := s.ballNorm) (radius := s.ballRadius) hn
    (distr := gauss e s.alpha) (fun d w => he _) hPne (fun q hq => by
      obtain ⟨⟨p, hp, h⟩, -⟩ := hPws q hq
      exact (hpos p hp).trans h) (by omega) hf
  have hne' : P.map Prod.fst ≠ [] := by simpa using hPne
  have hne'' : (P.map Prod.fst).map (fun p => p.1.1) ≠ [] := by simpa using hne'
  obtain ⟨ws', wa', he', -, -, hm1, hm2⟩ := Ext.C81_min_max (points := P.map Prod.fst)
    (List.min_mem hne'') (fun p hp => List.min_le_of_mem (List.mem_map_of_mem (f := fun p : Pt ℝ => p.1.1) hp))
    (List.max_mem hne'') (fun p hp => List.le_max_of_mem (List.mem_map_of_mem (f := fun p : Pt ℝ => p.1.1) hp))
  rw [h1] at he'
  obtain ⟨rfl, rfl⟩ := Prod.mk.inj (Except.ok.inj he')
  obtain ⟨m, hm, hme⟩ := List.mem_map.1 (List.min_mem hne'')
  obtain ⟨m', hm', rfl⟩ := List.mem_map.1 hm
  obtain ⟨M, hM, hMe⟩ := List.mem_map.1 (List.max_mem hne'')
  obtain ⟨M', hM', rfl⟩ := List.mem_map.1 hM
  refine ⟨t, h2, ?_, ?_, ?_, ?_⟩
  · obtain ⟨q, hq⟩ := List.exists_mem_of_ne_nil _ hne'
    obtain ⟨k, hk, -⟩ := Ext.C81_near h1 q hq
    intro h0
    rw [h0] at h3
    have := h3.symm.eq_nil
    rw [List.map_eq_nil_iff] at this
    rw [this] at hk
    simp at hk
  · intro a
    rw [h4.mem_iff, List.mem_map]
    constructor
    · rintro ⟨k, hk, rfl⟩
      have := (hm2 k).1 hk
      refine ⟨k / 5, by omega, by omega, ?_⟩
      have : k = 5 * (k / 5) := by omega
      conv_lhs => rw [this]
      push_cast
      rfl
    · rintro ⟨k, hk1, hk2, rfl⟩
      exact ⟨5 * k, (hm2 _).2 ⟨by omega, by omega, by omega⟩, by push_cast; rfl⟩
  · intro x hx
    obtain ⟨k, hk, rfl⟩ := List.mem_map.1 (h3.mem_iff.1 hx)
    obtain ⟨hk1, hk2, -⟩ := (hm1 k).1 hk
    rw [← hme] at hk1
    rw [← hMe] at hk2
    obtain ⟨⟨p, hp, hp1⟩, -⟩ := hPws m' hm'
    obtain ⟨-, q, hq, hq1⟩ := hPws M' hM'
    have r1 := (pyRound_spec m'.1.1.1)
    have r2 := (pyRound_spec M'.1.1.1)
    have c1 : ((pyRound m'.1.1.1 : ℤ) : ℝ) ≤ k := by exact_mod_cast hk1
    have c2 : (k : ℝ) ≤ ((pyRound M'.1.1.1 : ℤ) : ℝ) := by exact_mod_cast hk2
    exact ⟨p, hp, q, hq, by linarith [r1.1, r1.2], by linarith [r2.1, r2.2]⟩
  · intro x hx a ha
    obtain ⟨k, hk, rfl⟩ := List.mem_map.1 (h3.mem_iff.1 hx)
    obtain ⟨l, hl', rfl⟩ := List.mem_map.1 (h4.mem_iff.1 ha)
    obtain ⟨y, g1, g2, -, g4, g5⟩ := h5 k hk l hl'
    refine ⟨y, g1, fun h0 => g4 fun q hq => ?_, fun lo up B hlo hup hb => ?_⟩
    · rcases List.mem_append.1 hq with hq | hq
      · exact h0 _ (keptOf_mem hq)
      · exact (iq q hq).1.ge
    · have hB : 0 ≤ B := by
        obtain ⟨p, hp⟩ := List.exists_mem_of_ne_nil _ hne
        exact (abs_nonneg _).trans (hb p hp).2.2
      have hu := u_pos (K := ℝ)
      have hPl' : (P.length : ℝ) ≤ data.length + 2 * s.nZeros := by exact_mod_cast hPl
      have h6 : 12 * (((P.length : ℝ) + 1) * u ℝ) * B ≤ 12 * ((data.length + 2 * s.nZeros + 1) * u ℝ) * B := by
        gcongr
      have h7 : 0 ≤ 12 * (((P.length : ℝ) + 1) * u ℝ) * B := by positivity
      by_cases hemp : around s.ballNorm s.ballRadius P ((k : ℝ), (l : ℝ)) = []
      · rw [g2 hemp]
        exact ⟨by linarith, by linarith⟩
      · have := g5 hemp lo up B fun q hq => by
          rcases List.mem_append.1 (List.mem_of_mem_filter hq) with hq | hq
          · exact hb _ (keptOf_mem hq)
          · rw [(iq q hq).1]
            exact ⟨hlo, hup, by simpa using hB⟩
        exact ⟨by linarith [this.1], by linarith [this.2]⟩

/-- **C195.** Without measurements a `RuntimeError` is raised. -/
theorem C195_nothing {r : Except PyErr (Table ℝ)} : MakesTable s e [] r ↔ r = .error .runtimeError := by
  simp [MakesTable]

/-- **C195.** With the default settings and at most `10^9` measurements without negative speeds no entry of the table is negative
or larger than the largest measured speed by more than two parts in a million. -/
theorem C195_default {weigherNorm : ℝ × ℝ → ℝ} (he : ∀ x, 0 < e x) (hne : data ≠ [])
    (hpos : ∀ p ∈ data, 0 ≤ p.1.1) (hd : ∀ p ∈ data, fl p.1.1 = p.1.1) (hb : ∀ p ∈ data, 0 ≤ p.2)
    (hlen : data.length ≤ 10 ^ 9) {r : Except PyErr (Table ℝ)} (h : MakesTable (defaults weigherNorm) e data r) :
    ∃ t, r = .ok t ∧ ∀ x ∈ t.ws, ∀ a ∈ t.wa, ∃ y, t.get x a = .ok y ∧ 0 ≤ y ∧
      ∀ B, (∀ p ∈ data, p.2 ≤ B) → y ≤ B * (1 + 2 / 10 ^ 6) := by
  obtain ⟨t, h1, -, -, -, h2⟩ := C195_table (s := defaults weigherNorm) (by norm_num [defaults]) (by norm_num [defaults])
    isDist_flscaled he hne hpos hd (by simp only [defaults]; omega) h
  refine ⟨t, h1, fun x hx a ha => ?_⟩
  obtain ⟨y, g1, g2, g3⟩ := h2 x hx a ha
  refine ⟨y, g1, g2 hb, fun B hB => ?_⟩
  have hB0 : 0 ≤ B := by
    obtain ⟨p, hp⟩ := List.exists_mem_of_ne_nil _ hne
    exact (hb p hp).trans (hB p hp)
  have h3 := (g3 0 B B le_rfl hB0 fun p hp => ⟨hb p hp, hB p hp, by rw [abs_of_nonneg (hb p hp)]; exact hB p hp⟩).2
  refine h3.trans ?_
  have hu : u ℝ = 1 / 2 ^ 53 := by unfold u; norm_num
  have hl : (data.length : ℝ) ≤ 10 ^ 9 := by exact_mod_cast hlen
  have hz : (((defaults weigherNorm).nZeros : ℤ) : ℝ) = 500 := by norm_num [defaults]
  rw [hu, hz]
  have h4 : 12 * (((data.length : ℝ) + 2 * 500 + 1) * (1 / 2 ^ 53)) ≤ 2 / 10 ^ 6 := by
    have : (data.length : ℝ) + 2 * 500 + 1 ≤ 10 ^ 9 + 1001 := by linarith
    calc 12 * (((data.length : ℝ) + 2 * 500 + 1) * (1 / 2 ^ 53)) ≤ 12 * ((10 ^ 9 + 1001) * (1 / 2 ^ 53)) := by gcongr
      _ ≤ 2 / 10 ^ 6 := by norm_num
  have := mul_le_mul_of_nonneg_right h4 hB0
  linarith

/-- The hypotheses can be met. -/
example : ∃ r t, MakesTable (defaults scaledEuclidean) Real.exp [((10, 90), 5), ((12, 45), 6), ((8, 200), 7)] r ∧ r = .ok t ∧
    ∀ x ∈ t.ws, ∀ a ∈ t.wa, ∃ y, t.get x a = .ok y ∧ 0 ≤ y ∧ y ≤ 7 * (1 + 2 / 10 ^ 6) := by
  obtain ⟨r, hr⟩ := C195_defined (s := defaults scaledEuclidean) (e := Real.exp) (by
    change scaledEuclidean 0 ≤ fl (1 / 20)
    rw [(isDist_flscaled.2 0).2 rfl]
    exact fl_nonneg (by norm_num)) [((10, 90), 5), ((12, 45), 6), ((8, 200), 7)]
  have h10 : fl (10 : ℝ) = 10 := by exact_mod_cast fl_int (K := ℝ) (m := 10) (by norm_num)
  have h12 : fl (12 : ℝ) = 12 := by exact_mod_cast fl_int (K := ℝ) (m := 12) (by norm_num)
  have h8 : fl (8 : ℝ) = 8 := by exact_mod_cast fl_int (K := ℝ) (m := 8) (by norm_num)
  obtain ⟨t, h1, h2⟩ := C195_default Real.exp_pos (by simp) (by simp) (by simp [h10, h12, h8]) (by simp) (by norm_num) hr
  refine ⟨r, t, hr, h1, fun x hx a ha => ?_⟩
  obtain ⟨y, g1, g2, g3⟩ := h2 x hx a ha
  exact ⟨y, g1, g2, g3 7 (by simp; norm_num)⟩

end Verif.F64
