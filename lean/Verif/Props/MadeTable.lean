import Verif.Props.FloatDefault
import Verif.Props.Session
import Verif.Lemmas.FloatCast

/-!
# Property C196: tables made from data can be written to files and read again
-/

set_option linter.unusedSectionVars false

namespace Verif.Ext

open Verif.Interp
open Verif.Table (Storable Of RoundTrip RoundTripOn fromCsv toCsv session Step)

variable {K : Type} [Field K] [LinearOrder K] [IsStrictOrderedRing K] [FloorRing K]

theorem mapM_mem {α β : Type} {f : α → Except PyErr β} {l : List α} {r : List β} (h : l.mapM f = .ok r) :
    ∀ y ∈ r, ∃ x ∈ l, f x = .ok y := by
  induction l generalizing r with
  | nil =>
    cases h
    simp
  | cons a l ih =>
    rw [List.mapM_cons] at h
    cases ha : f a with
    | error e => rw [ha] at h; cases h
    | ok b =>
      rw [ha] at h
      simp only [bind, Except.bind] at h
      cases hl : l.mapM f with
      | error e => rw [hl] at h; cases h
      | ok bs =>
        rw [hl] at h
        cases h
        intro y hy
        rcases List.mem_cons.1 hy with rfl | hy
        · exact ⟨a, by simp, ha⟩
        · obtain ⟨x, hx, he⟩ := ih hl y hy
          exact ⟨x, by simp [hx], he⟩

/-- What a table is made of. -/
theorem process_parts {res : WindResolution K} {nbh : K × K → Bool} {interpolate : List (Pt K × K) → K × K → Except PyErr K}
    {points : List (Pt K × K)} {t : Table K} (h : tableProcess res nbh interpolate points = .ok t) :
    ∃ ws wa bsps, tableSize (points.map Prod.fst) res = .ok (ws, wa) ∧
      Table.init (.values ws) (.values wa) (some bsps) = .ok t ∧
      ∀ r ∈ bsps, ∀ x ∈ r, x = 0 ∨ ∃ c g, c.Sublist points ∧ interpolate c g = .ok x := by
  unfold tableProcess at h
  cases hs : tableSize (points.map Prod.fst) res with
  | error e => rw [hs] at h; cases h
  | ok p =>
    obtain ⟨ws, wa⟩ := p
    rw [hs] at h
    simp only [bind, Except.bind] at h
    cases hp : interpolatePoints nbh interpolate points (gridPoints ws wa) with
    | error e => rw [hp] at h; cases h
    | ok l =>
      rw [hp] at h
      have hl := mapM_mem hp
      cases l with
      | nil => cases h
      | cons q l =>
        refine ⟨ws, wa, _, rfl, h, ?_⟩
        intro r hr x hx
        simp only [reshape, List.mem_map, List.mem_range] at hr
        obtain ⟨i, -, rfl⟩ := hr
        have hx' := List.mem_of_mem_drop (List.mem_of_mem_take hx)
        obtain ⟨y, hy, rfl⟩ := List.mem_map.1 hx'
        obtain ⟨g, -, hg⟩ := hl y hy
        unfold interpolatePoint at hg
        split at hg
        · cases hg
          exact .inl rfl
        · rename_i p ps hf
          cases hv : interpolate (p :: ps) g with
          | error e => rw [hv] at hg; cases hg
          | ok v =>
            rw [hv] at hg
            cases hg
            refine .inr ⟨p :: ps, g, ?_, hv⟩
            rw [← hf]
            exact List.filter_sublist

/-- Tables made from data can be stored, and their numbers are zero, winds of the resolution or interpolated. -/
theorem process_storable {P Q : K → Prop} {res : WindResolution K} {nbh : K × K → Bool}
    {interpolate : List (Pt K × K) → K × K → Except PyErr K} {points : List (Pt K × K)} {t : Table K}
    (h : tableProcess res nbh interpolate points = .ok t) (h0 : P 0)
    (hi : ∀ c g x, c.Sublist points → interpolate c g = .ok x → P x)
    (hw : ∀ ws wa, tableSize (points.map Prod.fst) res = .ok (ws, wa) → (∀ w ∈ ws, P w) ∧ ∀ a ∈ wa, Q (pmod a 360)) :
    Storable t ∧ Of P Q t := by
  obtain ⟨ws, wa, bsps, h1, h2, h3⟩ := process_parts h
  refine Table.init_storable h2 (hw ws wa h1).1 (hw ws wa h1).2 fun r hr x hx => ?_
  rcases h3 r hr x hx with rfl | ⟨c, g, hc, hx⟩
  · exact h0
  · exact hi c g x hc hx

/-- **C196.** Whenever `TableExtension` makes a table, for any resolution (also with repeated winds), neighbourhood and interpolator,
writing it to a file in any format and reading it gives the same table. -/
theorem C196_files {print : K → Table.Text} {parse : Table.Text → Except PyErr K} (hpp : RoundTrip print parse) {res : WindResolution K}
    {nbh : K × K → Bool} {interpolate : List (Pt K × K) → K × K → Except PyErr K} {points : List (Pt K × K)} {t : Table K}
    (h : tableProcess res nbh interpolate points = .ok t) (fmt : Table.Format) :
    fromCsv parse (toCsv print t fmt) fmt = .ok t :=
  Table.C34_round_trip hpp (process_storable (P := fun _ => True) (Q := fun _ => True) h trivial (fun _ _ _ _ _ => trivial)
    fun _ _ _ => ⟨fun _ _ => trivial, fun _ _ => trivial⟩).1 fmt

/-- **C196.** Such a table can be changed and symmetrised, and files can be used in between. -/
theorem C196_session {print : K → Table.Text} {parse : Table.Text → Except PyErr K} (hpp : RoundTrip print parse) {res : WindResolution K}
    {nbh : K × K → Bool} {interpolate : List (Pt K × K) → K × K → Except PyErr K} {points : List (Pt K × K)} {t : Table K}
    (h : tableProcess res nbh interpolate points = .ok t) (steps : List (Step K)) :
    ∃ t', session print parse t steps = .ok t' ∧ session print parse t (steps.filter Step.works) = .ok t' := by
  obtain ⟨h1, h2⟩ := process_storable (P := fun _ => True) (Q := fun _ => True) h trivial (fun _ _ _ _ _ => trivial)
    fun _ _ _ => ⟨fun _ _ => trivial, fun _ _ => trivial⟩
  obtain ⟨t', h3, h4, -⟩ := Table.session_on hpp.on trivial (fun _ _ => trivial) (fun _ _ => trivial) steps h1 h2
    fun _ _ _ _ => trivial
  exact ⟨t', h3, h4⟩

/-- Files can be written and read (the conversion is the one of `Verif.Props.Session`); the resolution has repeated winds. -/
example : (tableProcess (K := ℚ) (.pair (.values [10, 8, 10]) (.values [90, 450])) (fun _ => true) (fun c _ => .ok c.length)
      [(((10, 92), 5), 1), (((11, 100), 6), 1)]).toOption =
    some ⟨[8, 10, 10], [90, 90], [[2, 2, 2], [2, 2, 2]]⟩ := by
  decide +kernel

end Verif.Ext

namespace Verif.F64

open Verif.Interp
open Verif.FloatText (print parse)

variable {K : Type} [Field K] [LinearOrder K] [IsStrictOrderedRing K] [FloorRing K]

/-- Interpolated speeds are doubles. -/
theorem arith_double {norm : K × K → K} {s : K} {distr : K → K → K} {pts : List (Pt K)} {weights : List K} {g : K × K} {x : K}
    (hd : ∀ p ∈ pts, fl p.2 = p.2) (h : Arith norm s distr pts weights g (.ok x)) : fl x = x := by
  unfold Arith at h
  split at h
  · cases h
  · cases hf : firstAtZero (rdist norm) g pts with
    | some z =>
      rw [hf] at h
      cases h
      obtain ⟨p, hp, rfl, -⟩ := firstAtZero_mem hf
      exact hd p hp
    | none =>
      rw [hf] at h
      obtain ⟨d, -, h⟩ := h
      split at h
      · cases h
      · obtain ⟨n, -, h⟩ := h
        rw [Except.ok.inj h, fl_fl]

/-- Tables made by `TableExtension` with an `ArithmeticMeanInterpolator` consist of doubles. -/
theorem made_double {ballNorm norm : K × K → K} {s : K} {distr : K → K → K} {radius : K} {points : List (Pt K × K)}
    (hne : points ≠ []) (hpos : ∀ p ∈ points, 0 ≤ p.1.1.1) (hmax : ∀ p ∈ points, p.1.1.1 ≤ 2 ^ 52)
    (hd : ∀ p ∈ points, fl p.1.2 = p.1.2) {interpolate : List (Pt K × K) → K × K → Except PyErr K}
    (hi : Performs norm s distr interpolate) {t : Table K} (h : tableProcess ballNorm radius interpolate points = .ok t) :
    Verif.Table.Storable t ∧ Verif.Table.Of (fun x : K => fl x = x) (fun a => ∃ k : ℤ, 0 ≤ k ∧ k < 360 ∧ a = k) t := by
  refine Ext.process_storable (P := fun x : K => fl x = x) h fl_zero (fun c g x hc hx => by
    have := hi c g
    rw [hx] at this
    exact arith_double (fun p hp => by
      obtain ⟨q, hq, rfl⟩ := List.mem_map.1 hp
      exact hd q (hc.subset hq)) this) (fun ws wa hsz => by
    have hne' : (points.map Prod.fst).map (fun p => p.1.1) ≠ [] := by simpa using hne
    obtain ⟨ws', wa', he, -, -, hm1, hm2⟩ := Ext.C81_min_max (points := points.map Prod.fst)
      (List.min_mem hne') (fun p hp => List.min_le_of_mem (List.mem_map_of_mem (f := fun p : Pt K => p.1.1) hp))
      (List.max_mem hne') (fun p hp => List.le_max_of_mem (List.mem_map_of_mem (f := fun p : Pt K => p.1.1) hp))
    simp only [Ext.tableSize, he, bind, Except.bind] at hsz
    obtain ⟨rfl, rfl⟩ := Prod.mk.inj (Except.ok.inj hsz)
    refine ⟨fun w hw => ?_, fun a ha => ?_⟩
    · obtain ⟨k, hk, rfl⟩ := List.mem_map.1 hw
      obtain ⟨k1, k2, -⟩ := (hm1 k).1 hk
      obtain ⟨m, hm, hme⟩ := List.mem_map.1 (List.min_mem hne')
      obtain ⟨m', hm', rfl⟩ := List.mem_map.1 hm
      obtain ⟨M, hM, hMe⟩ := List.mem_map.1 (List.max_mem hne')
      obtain ⟨M', hM', rfl⟩ := List.mem_map.1 hM
      rw [← hme] at k1
      rw [← hMe] at k2
      have r1 := pyRound_mono (show ((0 : ℤ) : K) ≤ m'.1.1.1 by exact_mod_cast hpos m' hm')
      have r2 := pyRound_mono (show M'.1.1.1 ≤ ((2 ^ 52 : ℤ) : K) by exact_mod_cast hmax M' hM')
      rw [pyRound_int] at r1 r2
      apply fl_int
      rw [abs_lt]
      constructor <;> omega
    · obtain ⟨k, hk, rfl⟩ := List.mem_map.1 ha
      obtain ⟨k1, k2, -⟩ := (hm2 k).1 hk
      have e : pmod ((k : ℤ) : K) 360 = k := Ext.pmod_small k (by omega) (by omega)
      exact ⟨k, by omega, by omega, e⟩)

/-- **C196.** In double precision, with the decimal notation of doubles: a table made by `TableExtension` with an
`ArithmeticMeanInterpolator` from measured speeds that are doubles is read from a file of any format as it was written, and files
can be used at any time between changes (with doubles) and symmetrisations of the table. -/
theorem C196_double {ballNorm norm : ℚ × ℚ → ℚ} {s : ℚ} {distr : ℚ → ℚ → ℚ} {radius : ℚ} {points : List (Pt ℚ × ℚ)}
    (hne : points ≠ []) (hpos : ∀ p ∈ points, 0 ≤ p.1.1.1) (hmax : ∀ p ∈ points, p.1.1.1 ≤ 2 ^ 52)
    (hd : ∀ p ∈ points, fl p.1.2 = p.1.2) {interpolate : List (Pt ℚ × ℚ) → ℚ × ℚ → Except PyErr ℚ}
    (hi : Performs norm s distr interpolate) {t : Table ℚ} (h : tableProcess ballNorm radius interpolate points = .ok t) :
    (∀ fmt, Verif.Table.fromCsv parse (Verif.Table.toCsv print t fmt) fmt = .ok t) ∧
    ∀ steps : List (Verif.Table.Step ℚ), (∀ c, Verif.Table.Step.change c ∈ steps → ∀ x ∈ c.new.flat, fl x = x) →
      ∃ t', Verif.Table.session print parse t steps = .ok t' ∧
        Verif.Table.session print parse t (steps.filter Verif.Table.Step.works) = .ok t' := by
  obtain ⟨h1, h2⟩ := made_double hne hpos hmax hd hi h
  have hwa : ∀ a ∈ t.wa, Verif.Table.Sides a := by
    intro a ha
    obtain ⟨k, k1, k2, rfl⟩ := h2.wa a ha
    refine ⟨by exact_mod_cast k1, by exact_mod_cast k2, fl_int (by rw [abs_lt]; omega), ?_⟩
    have := fl_int (K := ℚ) (m := 360 - k) (by rw [abs_lt]; omega)
    push_cast at this
    exact this
  exact ⟨fun fmt => Verif.FloatText.C151_table h1 h2.ws (fun a ha => (hwa a ha).2.2.1) h2.bsps fmt,
    fun steps hc => Verif.Table.C189_double h1 h2.ws hwa h2.bsps hc⟩

/-- The hypotheses can be met: a table is made and read from a file. -/
example : ∃ interpolate t, tableProcess (fun x : ℚ × ℚ => fl (max |x.1| |x.2|)) 10 interpolate
      [(((10, 92), fl (51 / 10)), 1), (((11, 100), 6), 1 / 2)] = .ok t ∧
    ∀ fmt, Verif.Table.fromCsv parse (Verif.Table.toCsv print t fmt) fmt = .ok t := by
  obtain ⟨interpolate, hi⟩ := exists_performs (fun x : ℚ × ℚ => fl (max |x.1| |x.2|)) 1 (fun _ _ : ℚ => 1)
  obtain ⟨ws, wa, t, -, h, -⟩ := C194_table (ballNorm := fun x : ℚ × ℚ => fl (max |x.1| |x.2|)) (radius := 10) isDist_flmax
    (distr := fun _ _ => 1) (fun _ _ => one_pos) (points := [(((10, 92), fl (51 / 10)), 1), (((11, 100), 6), 1 / 2)]) (by simp)
    (by simp) (by norm_num) hi
  exact ⟨interpolate, t, h, (C196_double (by simp) (by simp) (by simp; norm_num) (by decide +kernel) hi h).1⟩

/-- Doubles are rational numbers. -/
theorem double_rational {x : ℝ} (h : fl x = x) : ∃ q : ℚ, fl q = q ∧ (q : ℝ) = x := by
  have : ∃ q : ℚ, (q : ℝ) = x := by
    by_cases h0 : x = 0
    · exact ⟨0, by simp [h0]⟩
    · rw [fl, if_neg h0] at h
      exact ⟨_, (by push_cast; rfl : (((pyRound (x / 2 ^ (Int.log 2 |x| - 52)) : ℤ) * 2 ^ (Int.log 2 |x| - 52) : ℚ) : ℝ) = _).trans h⟩
  obtain ⟨q, rfl⟩ := this
  rw [fl_cast] at h
  exact ⟨q, by exact_mod_cast h, rfl⟩

open Classical in
/-- `str` of a double that is given as a real number (`/repo/hrosailing/polardiagram/_polardiagramtable.py:457-479`); other real
numbers do not occur. -/
noncomputable def printReal (x : ℝ) : Verif.Table.Text :=
  if h : ∃ q : ℚ, fl q = q ∧ (q : ℝ) = x then print h.choose else []

/-- `literal_eval` of a number (`/repo/hrosailing/polardiagram/_polardiagramtable.py:485`) as a real number. -/
noncomputable def parseReal (l : Verif.Table.Text) : Except PyErr ℝ :=
  (parse l).map fun q : ℚ => (q : ℝ)

theorem printReal_cast {q : ℚ} (h : fl q = q) : printReal (q : ℝ) = print q := by
  have hq : ∃ p : ℚ, fl p = p ∧ (p : ℝ) = (q : ℝ) := ⟨q, h, rfl⟩
  rw [printReal, dif_pos hq]
  congr 1
  exact_mod_cast hq.choose_spec.2

theorem roundTrip_real : Verif.Table.RoundTripOn (fun x : ℝ => fl x = x) printReal parseReal := by
  have key := Verif.FloatText.roundTrip_double
  constructor <;> intro x hx <;> obtain ⟨q, hq, rfl⟩ := double_rational hx <;> rw [printReal_cast hq]
  · rw [parseReal, key.parse_print q hq]
    rfl
  · exact key.ne q hq
  · exact key.clean q hq

/-- **C196.** In double precision, with the decimal notation of doubles: tables which the default pipeline (with any settings) makes
from data that are doubles are read from files of any format as they were written. -/
theorem C196_pipeline {s : Verif.Default.Settings} {e : ℝ → ℝ} {data : List (Pt ℝ)} (hz : 0 ≤ s.nZeros) (hz' : s.nZeros ≤ 2 ^ 50)
    (hpos : ∀ p ∈ data, 0 ≤ p.1.1) (hmax : ∀ p ∈ data, p.1.1 ≤ 2 ^ 52) (hd : ∀ p ∈ data, fl p.1.1 = p.1.1)
    (hb : ∀ p ∈ data, fl p.2 = p.2) {t : Table ℝ} (h : MakesTable s e data (.ok t)) (fmt : Verif.Table.Format) :
    Verif.Table.fromCsv parseReal (Verif.Table.toCsv printReal t fmt) fmt = .ok t := by
  unfold MakesTable at h
  split at h
  · cases h
  · obtain ⟨w, -, h⟩ := h
    split at h
    · cases h
    · rename_i hk
      have hk' : keptOf s data w ≠ [] := fun h0 => hk (by rw [h0]; rfl)
      obtain ⟨i, hi, -, iq⟩ := injected hz hz' hk' fun p hp => hd _ (keptOf_mem hp)
      rw [hi] at h
      obtain ⟨f, hf, h⟩ := h
      obtain ⟨h1, h2⟩ := made_double (List.append_ne_nil_of_left_ne_nil hk' _) (fun q hq => by
        rcases List.mem_append.1 hq with hq | hq
        · exact hpos _ (keptOf_mem hq)
        · obtain ⟨-, ⟨p, hp, hle⟩, -⟩ := iq q hq
          exact (hpos _ (keptOf_mem hp)).trans hle) (fun q hq => by
        rcases List.mem_append.1 hq with hq | hq
        · exact hmax _ (keptOf_mem hq)
        · obtain ⟨-, -, p, hp, hle⟩ := iq q hq
          exact hle.trans (hmax _ (keptOf_mem hp))) (fun q hq => by
        rcases List.mem_append.1 hq with hq | hq
        · exact hb _ (keptOf_mem hq)
        · rw [(iq q hq).1, fl_zero]) hf h.symm
      refine Verif.Table.round_trip_on roundTrip_real h1 fl_zero h2.ws (fun a ha => ?_) h2.bsps fmt
      obtain ⟨k, k1, k2, rfl⟩ := h2.wa a ha
      exact fl_int (by rw [abs_lt]; omega)

/-- The hypotheses can be met: the default pipeline makes a table, which is read from a file. -/
example : ∃ t, MakesTable (defaults scaledEuclidean) Real.exp [((10, 90), 5), ((12, 45), 6), ((8, 200), 7)] (.ok t) ∧
    ∀ fmt, Verif.Table.fromCsv parseReal (Verif.Table.toCsv printReal t fmt) fmt = .ok t := by
  obtain ⟨r, hr⟩ := C195_defined (s := defaults scaledEuclidean) (e := Real.exp) (by
    change scaledEuclidean 0 ≤ fl (1 / 20)
    rw [(isDist_flscaled.2 0).2 rfl]
    exact fl_nonneg (by norm_num)) [((10, 90), 5), ((12, 45), 6), ((8, 200), 7)]
  have hn : ∀ n : ℕ, n < 100 → fl (n : ℝ) = n := fun n h => by
    exact_mod_cast fl_int (K := ℝ) (m := n) (by rw [abs_lt]; omega)
  have h5 := hn 5 (by norm_num)
  have h6 := hn 6 (by norm_num)
  have h7 := hn 7 (by norm_num)
  have h8 := hn 8 (by norm_num)
  have h10 := hn 10 (by norm_num)
  have h12 := hn 12 (by norm_num)
  push_cast at h5 h6 h7 h8 h10 h12
  obtain ⟨t, rfl, -⟩ := C195_default Real.exp_pos (by simp) (by simp) (by simp [h10, h12, h8]) (by simp) (by norm_num) hr
  exact ⟨t, hr, C196_pipeline (by norm_num [defaults]) (by norm_num [defaults]) (by simp) (by norm_num) (by simp [h10, h12, h8])
    (by simp [h5, h6, h7]) hr⟩

end Verif.F64
