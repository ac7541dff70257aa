import Verif.Model.FloatCloud
import Verif.Props.MadeTable
import Verif.Props.ExactRounding
import Verif.Props.Pointcloud

/-!
# Property C197: point clouds in double precision
-/

namespace Verif.F64

open Verif.Interp
open Verif.FloatText (print parse)
open Verif.Table (lines_writeRows readRows_map)

/-! ### Lemmas -/

/-- The remainder of a double is a double. -/
theorem pmod_double {x : ℚ} (hx : 0 ≤ x) (hd : fl x = x) : fl (pmod x 360) = pmod x 360 := by
  rcases lt_or_ge x 360 with hs | hs
  · rw [pmod_of_mem hx hs, hd]
  · have hpos : 0 < |x| := abs_pos.2 (by linarith)
    have hlog : 8 ≤ Int.log 2 |x| := (Int.zpow_le_iff_le_log (b := 2) (x := 8) (by norm_num) hpos).1 (by
      rw [abs_of_nonneg hx]
      push_cast
      norm_num
      linarith)
    obtain ⟨d, hd'⟩ := Int.eq_ofNat_of_zero_le (sub_nonneg.2 hlog)
    obtain ⟨m, hm⟩ : ∃ m : ℤ, x = m * 2 ^ (-44 : ℤ) := by
      unfold fl at hd
      rw [if_neg (by linarith)] at hd
      refine ⟨pyRound (x / 2 ^ (Int.log 2 |x| - 52)) * 2 ^ d, ?_⟩
      conv_lhs => rw [← hd]
      push_cast
      rw [mul_assoc, ← zpow_natCast (2 : ℚ) d, ← zpow_add₀ (by norm_num), ← hd']
      congr 2
      ring
    have hp : pmod x 360 = ((m - 360 * 2 ^ 44 * ⌊x / 360⌋ : ℤ) : ℚ) * 2 ^ (-44 : ℤ) := by
      unfold pmod
      conv_lhs => rw [hm]
      rw [← hm]
      push_cast
      rw [sub_mul, ← hm]
      congr 1
      rw [mul_right_comm]
      norm_num
    have h0 := pmod_nonneg x (m := 360) (by norm_num)
    have h1 := pmod_lt x (m := 360) (by norm_num)
    set k := m - 360 * 2 ^ 44 * ⌊x / 360⌋
    rw [hp] at h0 h1 ⊢
    have hc : (0 : ℚ) < 2 ^ (-44 : ℤ) := by positivity
    have a1 : (k : ℚ) < ((360 * 2 ^ 44 : ℤ) : ℚ) :=
      lt_of_mul_lt_mul_right (h1.trans_le (by norm_num)) hc.le
    have a0 : (0 : ℚ) ≤ (k : ℚ) := nonneg_of_mul_nonneg_left h0 hc
    have a1' : k < 360 * 2 ^ 44 := by exact_mod_cast a1
    have a0' : 0 ≤ k := by exact_mod_cast a0
    exact fl_exact (by rw [abs_of_nonneg a0']; omega)

theorem mod_double {x : ℚ} (hd : fl x = x) : fl (mod x 360) = mod x 360 := by
  rcases lt_or_ge x 0 with hx | hx
  · rw [mod_neg_eq hx, fl_fl]
  · rw [(C146_nonneg hx).1, pmod_double hx hd]

theorem mod_small {x : ℚ} (h0 : 0 ≤ x) (h1 : x < 360) : mod x 360 = x := by
  rw [(C146_nonneg h0).1, pmod_of_mem h0 h1]

theorem map_self_iff {α : Type} {f : α → α} {l : List α} : l.map f = l ↔ ∀ x ∈ l, f x = x := by
  induction l with
  | nil => simp
  | cons a l ih => simp [ih]

theorem cloudInit_mem {points : List (Pt ℚ)} {q : Pt ℚ} :
    q ∈ cloudInit points ↔ ∃ p ∈ points, 0 ≤ p.1.1 ∧ q = ((p.1.1, mod p.1.2 360), p.2) := by
  simp only [cloudInit, List.mem_map, List.mem_filter, decide_eq_true_eq, ge_iff_le]
  constructor
  · rintro ⟨p, ⟨h1, h2⟩, rfl⟩
    exact ⟨p, h1, h2, rfl⟩
  · rintro ⟨p, h1, h2, rfl⟩
    exact ⟨p, ⟨h1, h2⟩, rfl⟩

theorem cloudInit_twice (points : List (Pt ℚ)) :
    cloudInit (cloudInit points) = (cloudInit points).map fun p => ((p.1.1, mod p.1.2 360), p.2) := by
  conv_lhs => rw [cloudInit]
  congr 1
  rw [List.filter_eq_self]
  intro p hp
  obtain ⟨q, -, h, rfl⟩ := cloudInit_mem.1 hp
  simpa using h

/-- Reading the file of a cloud of doubles makes a cloud of its points. -/
theorem cloud_read {cloud : List (Pt ℚ)} (hne : cloud ≠ []) (hP : ∀ p ∈ cloud, fl p.1.1 = p.1.1 ∧ fl p.1.2 = p.1.2 ∧ fl p.2 = p.2) :
    cloudFromCsv parse (Cloud.toCsv print cloud) = .ok (cloudInit cloud) := by
  have h := Verif.FloatText.roundTrip_double
  have hpr : ∀ x : ℚ, fl x = x → print x ≠ [] ∧ ',' ∉ print x ∧ '\n' ∉ print x := by
    intro x hx
    have hc := h.clean x hx
    refine ⟨h.ne x hx, ?_, ?_⟩ <;> intro hm <;> have := hc _ hm <;> simp at this
  have hg : ∀ r ∈ ["TWS".toList, "TWA".toList, "BSP".toList] ::
      cloud.map (fun p => [print p.1.1, print p.1.2, print p.2]), r ≠ [] ∧ ∀ f ∈ r, f ≠ [] ∧ ',' ∉ f ∧ '\n' ∉ f := by
    intro r hr
    rcases List.mem_cons.1 hr with rfl | hr
    · decide
    · obtain ⟨p, hp, rfl⟩ := List.mem_map.1 hr
      obtain ⟨hp1, hp2, hp3⟩ := hP p hp
      refine ⟨by simp, fun f hf => ?_⟩
      simp only [List.mem_cons, List.not_mem_nil, or_false] at hf
      rcases hf with rfl | rfl | rfl <;> exact hpr _ (by assumption)
  simp only [cloudFromCsv, Cloud.toCsv]
  rw [lines_writeRows (by decide) (by
    intro r hr
    rcases List.mem_cons.1 hr with rfl | hr
    · decide
    · exact fun f hf => ((hg r hr).2 f hf).2.2)]
  rw [List.map_cons]
  have hfirst : [','].intercalate ["PolarDiagramPointcloud".toList] = "PolarDiagramPointcloud".toList := by decide
  simp only [hfirst, ne_eq, not_true_eq_false, if_false]
  rw [readRows_map (fun r hr => ⟨(hg r hr).1, fun f hf => ⟨((hg r hr).2 f hf).1, ((hg r hr).2 f hf).2.1⟩⟩)]
  have e : (cloud.map fun p => [print p.1.1, print p.1.2, print p.2]) =
      (cloud.map fun p => [p.1.1, p.1.2, p.2]).map (·.map print) := by simp
  have hrows : ∀ r ∈ cloud.map (fun p => [p.1.1, p.1.2, p.2]), ∀ x ∈ r, fl x = x := by
    intro r hr x hx
    obtain ⟨p, hp, rfl⟩ := List.mem_map.1 hr
    obtain ⟨hp1, hp2, hp3⟩ := hP p hp
    simp only [List.mem_cons, List.not_mem_nil, or_false] at hx
    rcases hx with rfl | rfl | rfl <;> assumption
  have he : (cloud.map fun p => [p.1.1, p.1.2, p.2]).isEmpty = false := by simpa using hne
  simp only [e, Verif.Table.parseRows_on h.parse_print hrows, he, Bool.false_eq_true, if_false, Cloud.toPoints_map]

theorem cloudInit_double {points : List (Pt ℚ)} (hP : ∀ p ∈ points, fl p.1.1 = p.1.1 ∧ fl p.1.2 = p.1.2 ∧ fl p.2 = p.2) :
    ∀ p ∈ cloudInit points, fl p.1.1 = p.1.1 ∧ fl p.1.2 = p.1.2 ∧ fl p.2 = p.2 := by
  intro p hp
  obtain ⟨q, hq, -, rfl⟩ := cloudInit_mem.1 hp
  exact ⟨(hP q hq).1, mod_double (hP q hq).2.1, (hP q hq).2.2⟩

/-! ### C197 -/

/-- **C197.** A cloud made from doubles consists of doubles, with wind speeds that are not negative and wind angles from 0 to 360;
angles that are not negative are reduced exactly. -/
theorem C197_points {points : List (Pt ℚ)} (hP : ∀ p ∈ points, fl p.1.1 = p.1.1 ∧ fl p.1.2 = p.1.2 ∧ fl p.2 = p.2) :
    (∀ p ∈ cloudInit points, 0 ≤ p.1.1 ∧ 0 ≤ p.1.2 ∧ p.1.2 ≤ 360 ∧ fl p.1.1 = p.1.1 ∧ fl p.1.2 = p.1.2 ∧ fl p.2 = p.2) ∧
    ((∀ p ∈ points, 0 ≤ p.1.2) → cloudInit points = Cloud.init points) := by
  refine ⟨fun p hp => ?_, fun h => ?_⟩
  · have hd := cloudInit_double hP p hp
    obtain ⟨q, hq, h, rfl⟩ := cloudInit_mem.1 hp
    obtain ⟨-, -, h1, h2⟩ := C146_exactly q.1.2
    exact ⟨h, h1, h2, hd⟩
  · unfold cloudInit Cloud.init
    apply List.map_congr_left
    intro p hp
    rw [(C146_nonneg (h p (List.mem_of_mem_filter hp))).1]

/-- **C197.** Reading the file of such a cloud gives the cloud exactly if no point of it was made from a wind angle between `-2^-45`
degrees and 0. -/
theorem C197_files_exactly {points : List (Pt ℚ)} (hP : ∀ p ∈ points, fl p.1.1 = p.1.1 ∧ fl p.1.2 = p.1.2 ∧ fl p.2 = p.2)
    (hne : ∃ p ∈ points, 0 ≤ p.1.1) :
    cloudFromCsv parse (Cloud.toCsv print (cloudInit points)) = .ok (cloudInit points) ↔
      ∀ p ∈ points, 0 ≤ p.1.1 → ¬ (-2 ^ (-45 : ℤ) ≤ p.1.2 ∧ p.1.2 < 0) := by
  obtain ⟨p0, hp0, h0⟩ := hne
  have hne' : cloudInit points ≠ [] := List.ne_nil_of_mem (cloudInit_mem.2 ⟨p0, hp0, h0, rfl⟩)
  rw [cloud_read hne' (cloudInit_double hP), cloudInit_twice]
  constructor
  · intro h p hp hpos hbad
    have h360 := (C146_doubles_exactly (hP p hp).2.1).2 hbad
    have h' := Except.ok.inj h
    have hmem : ((p.1.1, mod p.1.2 360), p.2) ∈ cloudInit points := cloudInit_mem.2 ⟨p, hp, hpos, rfl⟩
    have := map_self_iff.1 h' _ hmem
    simp only [h360] at this
    have e : mod 360 360 = 0 := by decide +kernel
    rw [e] at this
    simp only [Prod.mk.injEq] at this
    norm_num at this
  · intro h
    congr 1
    rw [map_self_iff]
    intro q hq
    obtain ⟨p, hp, hpos, rfl⟩ := cloudInit_mem.1 hq
    obtain ⟨-, -, h1, h2⟩ := C146_exactly p.1.2
    have h3 : mod p.1.2 360 ≠ 360 := fun he => h p hp hpos ((C146_doubles_exactly (hP p hp).2.1).1 he)
    simp only [mod_small h1 (lt_of_le_of_ne h2 h3)]

/-- **C197.** Files of clouds can always be read, and after one reading the cloud stays the same. -/
theorem C197_stable {points : List (Pt ℚ)} (hP : ∀ p ∈ points, fl p.1.1 = p.1.1 ∧ fl p.1.2 = p.1.2 ∧ fl p.2 = p.2)
    (hne : ∃ p ∈ points, 0 ≤ p.1.1) :
    ∃ cloud, cloudFromCsv parse (Cloud.toCsv print (cloudInit points)) = .ok cloud ∧
      cloud = (cloudInit points).map (fun p => ((p.1.1, if p.1.2 = 360 then 0 else p.1.2), p.2)) ∧
      cloudFromCsv parse (Cloud.toCsv print cloud) = .ok cloud := by
  obtain ⟨p0, hp0, h0⟩ := hne
  have hmem0 : ((p0.1.1, mod p0.1.2 360), p0.2) ∈ cloudInit points := cloudInit_mem.2 ⟨p0, hp0, h0, rfl⟩
  have hne' : cloudInit points ≠ [] := List.ne_nil_of_mem hmem0
  have hd := cloudInit_double hP
  refine ⟨_, cloud_read hne' hd, ?_, ?_⟩
  · rw [cloudInit_twice]
    apply List.map_congr_left
    intro q hq
    obtain ⟨p, hp, hpos, rfl⟩ := cloudInit_mem.1 hq
    obtain ⟨-, -, h1, h2⟩ := C146_exactly p.1.2
    have e : mod 360 360 = 0 := by decide +kernel
    by_cases h3 : mod p.1.2 360 = 360
    · simp only [h3, e, if_true]
    · simp only [mod_small h1 (lt_of_le_of_ne h2 h3), if_neg h3]
  · refine (C197_files_exactly hd ⟨_, hmem0, h0⟩).2 fun q hq _ hbad => ?_
    obtain ⟨p, -, -, rfl⟩ := cloudInit_mem.1 hq
    exact absurd hbad.2 (not_lt.2 (C146_exactly p.1.2).2.2.1)

/-- **C197 is false** for tiny negative wind angles: the cloud has the wind angle 360, the cloud read from its file the wind angle
0. -/
theorem C197_files_false : cloudInit [((6, fl (-1 / 10 ^ 20)), 4)] = [((6, 360), 4)] ∧
    cloudFromCsv parse (Cloud.toCsv print [((6, 360), 4)]) = .ok [((6, 0), 4)] := by
  refine ⟨by decide +kernel, ?_⟩
  rw [cloud_read (by simp) (by decide +kernel)]
  congr 1
  decide +kernel

/-- **C197.** `PointcloudExtension` with a ball and an `ArithmeticMeanInterpolator` makes a cloud of the sampled winds with wind
speeds that are not negative, in their order. The speed is 0 if no point is near; otherwise it is the speed of the first point at
the wind, or leaves the range of the speeds of the points nearby by at most `12 (n + 1) / 2^53` times the largest of them. If the
data and the sampled winds are doubles then so are the points of the cloud. -/
theorem C197_extension {sample : List (Pt ℚ) → Except PyErr (List (ℚ × ℚ))} {ballNorm norm : ℚ × ℚ → ℚ} (hn : IsDist norm)
    {distr : ℚ → ℚ → ℚ} (hd : ∀ d w, 0 < distr d w) {radius : ℚ} {points : List (Pt ℚ × ℚ)} (hlen : points.length + 1 ≤ 2 ^ 50)
    {interpolate : List (Pt ℚ × ℚ) → ℚ × ℚ → Except PyErr ℚ} (hi : Performs norm 1 distr interpolate) {gs : List (ℚ × ℚ)}
    (hs : sample (points.map Prod.fst) = .ok gs) (hne : gs ≠ []) :
    ∃ v : ℚ × ℚ → ℚ, cloudProcess sample ballNorm radius interpolate points =
        .ok ((gs.filter fun g => decide (0 ≤ g.1)).map fun g => ((g.1, mod g.2 360), v g)) ∧
      ∀ g, (around ballNorm radius points g = [] → v g = 0) ∧
        (∀ x, FirstStored ((around ballNorm radius points g).map Prod.fst) g x → v g = x) ∧
        ((∀ p ∈ points, 0 ≤ p.1.2) → 0 ≤ v g) ∧
        ((∀ p ∈ points, fl p.1.2 = p.1.2) → fl (v g) = v g) ∧
        (around ballNorm radius points g ≠ [] →
          ∀ lo hi B, (∀ p ∈ around ballNorm radius points g, lo ≤ p.1.2 ∧ p.1.2 ≤ hi ∧ |p.1.2| ≤ B) →
            lo - 12 * ((points.length + 1) * u ℚ) * B ≤ v g ∧ v g ≤ hi + 12 * ((points.length + 1) * u ℚ) * B) := by
  choose v hv using fun g => entry_double (ballNorm := ballNorm) (radius := radius) hn hd hlen hi g
  refine ⟨v, ?_, fun g => ?_⟩
  · have hp : Ext.interpolatePoints (inBall ballNorm radius) interpolate points gs = .ok (gs.map fun g => (g, v g)) :=
      mapM_ok_of fun g _ => Ext.interpolatePoint_eq (hv g).1
    simp only [cloudProcess, hs, bind, Except.bind, hp]
    split
    · rename_i he; exact absurd (List.map_eq_nil_iff.1 he) hne
    · unfold cloudInit
      rw [List.filter_map, List.map_map]
      rfl
  · obtain ⟨h1, h2, h3, h4, h5⟩ := hv g
    refine ⟨h2, h3, h4, fun hdd => ?_, h5⟩
    by_cases he : ∃ p ∈ points, inBall ballNorm radius (p.1.1 - g) = true
    · have := hi (points.filter fun p => inBall ballNorm radius (p.1.1 - g)) g
      rw [h1.2 he] at this
      refine arith_double (fun p hp => ?_) this
      obtain ⟨q, hq, rfl⟩ := List.mem_map.1 hp
      exact hdd q (List.mem_of_mem_filter hq)
    · rw [h1.1 fun p hp => by
        by_contra hc
        exact he ⟨p, hp, by simpa using hc⟩, fl_zero]

/-- **C197.** Such clouds are read from files as they were written if the sampled wind angles are not negative. -/
theorem C197_made {sample : List (Pt ℚ) → Except PyErr (List (ℚ × ℚ))} {ballNorm norm : ℚ × ℚ → ℚ} (hn : IsDist norm)
    {distr : ℚ → ℚ → ℚ} (hd : ∀ d w, 0 < distr d w) {radius : ℚ} {points : List (Pt ℚ × ℚ)} (hlen : points.length + 1 ≤ 2 ^ 50)
    (hb : ∀ p ∈ points, fl p.1.2 = p.1.2)
    {interpolate : List (Pt ℚ × ℚ) → ℚ × ℚ → Except PyErr ℚ} (hi : Performs norm 1 distr interpolate) {gs : List (ℚ × ℚ)}
    (hs : sample (points.map Prod.fst) = .ok gs) (hg : ∀ g ∈ gs, fl g.1 = g.1 ∧ fl g.2 = g.2 ∧ 0 ≤ g.2)
    (hne : ∃ g ∈ gs, 0 ≤ g.1) :
    ∃ cloud, cloudProcess sample ballNorm radius interpolate points = .ok cloud ∧
      cloudFromCsv parse (Cloud.toCsv print cloud) = .ok cloud := by
  obtain ⟨g0, hg0, h0⟩ := hne
  obtain ⟨v, h1, h2⟩ := C197_extension (ballNorm := ballNorm) (radius := radius) hn hd hlen hi hs (List.ne_nil_of_mem hg0)
  have e : ((gs.filter fun g => decide (0 ≤ g.1)).map fun g => ((g.1, mod g.2 360), v g)) =
      cloudInit (gs.map fun g => (g, v g)) := by
    unfold cloudInit
    rw [List.filter_map, List.map_map]
    rfl
  rw [e] at h1
  have hdd : ∀ p ∈ gs.map (fun g => (g, v g)), fl p.1.1 = p.1.1 ∧ fl p.1.2 = p.1.2 ∧ fl p.2 = p.2 := by
    intro p hp
    obtain ⟨g, hgm, rfl⟩ := List.mem_map.1 hp
    exact ⟨(hg g hgm).1, (hg g hgm).2.1, (h2 g).2.2.2.1 hb⟩
  have hex : ∃ p ∈ gs.map (fun g => (g, v g)), 0 ≤ p.1.1 := ⟨(g0, v g0), List.mem_map.2 ⟨g0, hg0, rfl⟩, h0⟩
  refine ⟨_, h1, (C197_files_exactly hdd hex).2 ?_⟩
  intro p hp _ hbad
  obtain ⟨g, hgm, rfl⟩ := List.mem_map.1 hp
  exact absurd hbad.2 (not_lt.2 (hg g hgm).2.2)

/-- The hypotheses can be met. -/
example : ∃ interpolate cloud, cloudProcess (fun _ => .ok [(10, 92), (-1, 5), (fl (51 / 5), 460)])
      (fun x : ℚ × ℚ => fl (max |x.1| |x.2|)) 10 interpolate [(((10, 92), fl (51 / 10)), 1), (((11, 100), 6), 1 / 2)] = .ok cloud ∧
    cloudFromCsv parse (Cloud.toCsv print cloud) = .ok cloud := by
  obtain ⟨interpolate, hi⟩ := exists_performs (fun x : ℚ × ℚ => fl (max |x.1| |x.2|)) 1 (fun _ _ : ℚ => 1)
  obtain ⟨cloud, h⟩ := C197_made (sample := fun _ => .ok [(10, 92), (-1, 5), (fl (51 / 5), 460)])
    (ballNorm := fun x : ℚ × ℚ => fl (max |x.1| |x.2|)) (radius := 10) isDist_flmax
    (distr := fun _ _ => 1) (fun _ _ => one_pos) (points := [(((10, 92), fl (51 / 10)), 1), (((11, 100), 6), 1 / 2)])
    (by norm_num) (by decide +kernel) hi rfl (by decide +kernel) ⟨(10, 92), by simp, by norm_num⟩
  exact ⟨interpolate, cloud, h⟩

example : cloudInit [((6, -90), 4), ((-1, 3), 2), ((8, 725), 5)] = [((6, 270), 4), ((8, 5), 5)] := by decide +kernel

end Verif.F64
