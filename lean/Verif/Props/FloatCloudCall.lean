import Verif.Model.FloatCloudCall
import Verif.Props.FloatCloudHistory
import Verif.Props.FloatTable

/-!
# Property C200: evaluating point clouds in double precision
-/

namespace Verif.F64

open Verif.Interp
open Verif.FloatText (print parse)
open Verif.Cloud (Step Normal)

variable (interpolate : List (Pt ℚ) → List ℚ → ℚ × ℚ → Except PyErr ℚ) (nbh : List (ℚ × ℚ) → Except PyErr (List Bool))

/-! ### Lemmas -/

theorem firstStored_find {l : List (Pt ℚ)} {g : ℚ × ℚ} {v : ℚ} :
    FirstStored l g v ↔ l.find? (fun p => decide (p.1 = g)) = some (g, v) := by
  rw [List.find?_eq_some_iff_getElem]
  constructor
  · rintro ⟨i, hi, hj⟩
    obtain ⟨h, e⟩ := List.getElem?_eq_some_iff.1 hi
    refine ⟨by simp, i, h, e, fun j hji => ?_⟩
    simpa using hj j l[j] hji (List.getElem?_eq_getElem _)
  · rintro ⟨-, i, h, e, hj⟩
    refine ⟨i, List.getElem?_eq_some_iff.2 ⟨h, e⟩, fun j q hji hq => ?_⟩
    obtain ⟨h', rfl⟩ := List.getElem?_eq_some_iff.1 hq
    simpa using hj j hji

theorem cloudCall_find {cloud : List (Pt ℚ)} {ws wa bsp : ℚ} (hws : 0 < ws)
    (h : cloud.find? (fun p => decide (p.1 = (ws, mod wa 360))) = some ((ws, mod wa 360), bsp)) :
    cloudCall interpolate nbh cloud ws wa = .ok bsp := by
  have e : (fun p : Pt ℚ => decide (p.1 = (ws, mod wa 360))) = fun p => decide (p.1.1 = ws) && decide (p.1.2 = mod wa 360) := by
    funext p
    rw [← Bool.decide_and]
    exact decide_eq_decide.2 Prod.ext_iff
  rw [e, ← List.head?_filter] at h
  unfold cloudCall
  rw [if_neg (not_le.2 hws)]
  simp only
  split
  · rename_i p l hp
    rw [hp] at h
    simp only [List.head?_cons, Option.some.injEq] at h
    rw [h]
  · rename_i hp
    rw [hp] at h
    simp at h

/-- Full turns are removed exactly. -/
theorem mod_turns {a : ℚ} (h0 : 0 ≤ a) (h1 : a < 360) (hd : fl a = a) (k : ℤ) : mod (a + 360 * k) 360 = a := by
  have hp : pmod (a + 360 * k) 360 = a := by
    rw [pmod_add_mul _ (by norm_num), pmod_of_mem h0 h1]
  rcases lt_or_ge (a + 360 * k) 0 with hneg | hpos
  · rw [mod_neg_eq hneg, hp, hd]
  · rw [(C146_nonneg hpos).1, hp]

theorem firstStored_nodup {l : List (Pt ℚ)} (h : (l.map Prod.fst).Nodup) {g : ℚ × ℚ} {v : ℚ} (hm : (g, v) ∈ l) :
    FirstStored l g v := by
  obtain ⟨i, hi, e⟩ := List.getElem_of_mem hm
  refine ⟨i, List.getElem?_eq_some_iff.2 ⟨hi, e⟩, fun j q hji hq he => ?_⟩
  obtain ⟨hj, rfl⟩ := List.getElem?_eq_some_iff.1 hq
  have := (List.Nodup.getElem_inj_iff h (i := i) (j := j) (hi := by simpa using hi) (hj := by simpa using hj)).1
    (by simp only [List.getElem_map, e, he])
  omega

/-! ### C200 -/

/-- **C200.** A point cloud made from any points gives, at the wind as it was given (with any wind angle), the boat speed of the first
point with that wind. -/
theorem C200_given {points : List (Pt ℚ)} {i : Nat} {ws wa bsp : ℚ} (hws : 0 < ws) (hi : points[i]? = some ((ws, wa), bsp))
    (hfirst : ∀ (j : Nat) (q : Pt ℚ), j < i → points[j]? = some q → ¬ (q.1.1 = ws ∧ mod q.1.2 360 = mod wa 360)) :
    cloudCall interpolate nbh (cloudInit points) ws wa = .ok bsp := by
  apply cloudCall_find interpolate nbh hws
  rw [cloudInit, List.find?_map, List.find?_filter]
  obtain ⟨h, e⟩ := List.getElem?_eq_some_iff.1 hi
  have : points.find? (fun a => decide (decide (a.1.1 ≥ 0) = true ∧
      ((fun p : Pt ℚ => decide (p.1 = (ws, mod wa 360))) ∘ fun p => ((p.1.1, mod p.1.2 360), p.2)) a = true)) =
        some ((ws, wa), bsp) := by
    rw [List.find?_eq_some_iff_getElem]
    refine ⟨by simpa using hws.le, i, h, e, fun j hj => ?_⟩
    have := hfirst j points[j] hj (List.getElem?_eq_getElem _)
    simp only [Function.comp_apply, Prod.mk.injEq, decide_eq_true_eq, Bool.not_eq_true', decide_eq_false_iff_not]
    exact fun h => this h.2
  rw [this]
  rfl

/-- **C200.** A stored point is found at its wind and after full turns in both directions; also after any session with files in which no
point with a wind angle between `-2^-45` degrees and 0 is added. -/
theorem C200_session_partial {cloud : List (Pt ℚ)} (hne : cloud ≠ []) (hn : Normal cloud) (hd : Doubles cloud)
    {steps : List (Option (Step ℚ))} (hs : ∀ new, some (Step.add new) ∈ steps → Addable new) {ws wa bsp : ℚ} (hws : 0 < ws)
    (h : FirstStored cloud (ws, wa) bsp) (k : ℤ) : ∃ cloud', cloudSession print parse cloud steps = .ok cloud' ∧
      cloudCall interpolate nbh cloud' ws (wa + 360 * k) = .ok bsp := by
  obtain ⟨e, -, -, t, ht⟩ := C199_session_partial hne hn hd hs
  refine ⟨_, e, cloudCall_find interpolate nbh hws ?_⟩
  have hm : ((ws, wa), bsp) ∈ cloud := by
    obtain ⟨i, hi, -⟩ := h
    exact List.mem_of_getElem? hi
  rw [mod_turns (hn _ hm).2.1 (hn _ hm).2.2 (hd _ hm).2.1, ← ht, List.find?_append, firstStored_find.1 h]
  rfl

/-- **C200 is false** after a file for a tiny negative angle: before, the boat speed is found at the given wind; afterwards the point has
another angle and the boat speed is interpolated. -/
theorem C200_files_false : cloudCall interpolate nbh (cloudInit [((8, fl (-1 / 10 ^ 20)), 5)]) 8 (fl (-1 / 10 ^ 20)) = .ok 5 ∧
    cloudFromCsv parse (Cloud.toCsv print (cloudInit [((8, fl (-1 / 10 ^ 20)), 5)])) = .ok [((8, 0), 5)] ∧
    cloudCall interpolate (fun l => .ok (l.map fun _ => true)) [((8, 0), 5)] 8 (fl (-1 / 10 ^ 20)) =
      interpolate [((8, 0), 5)] [1] (8, 360) := by
  have e : cloudInit [((8, fl (-1 / 10 ^ 20)), 5)] = [((8, 360), 5)] := by decide +kernel
  have m : mod (fl (-1 / 10 ^ 20)) 360 = 360 := C146_tiny_false.1
  refine ⟨C200_given interpolate nbh (i := 0) (by norm_num) rfl fun j _ hj => absurd hj (by omega), ?_, ?_⟩
  · rw [e, cloud_read (by simp) (by decide +kernel)]
    exact congrArg _ (by decide +kernel)
  · simp only [cloudCall, m]
    norm_num [Cloud.select]

/-- **C200 is false** at stored angles: a point with a tiny negative angle is shown with the angle 360, and is not found there. -/
theorem C200_shown_false : cloudInit [((8, fl (-1 / 10 ^ 20)), 5)] = [((8, 360), 5)] ∧
    cloudCall interpolate (fun l => .ok (l.map fun _ => true)) [((8, 360), 5)] 8 360 = interpolate [((8, 360), 5)] [1] (8, 0) := by
  have m : mod 360 360 = 0 := by decide +kernel
  refine ⟨by decide +kernel, ?_⟩
  simp only [cloudCall, m]
  norm_num [Cloud.select]

/-- **C200 is false** for full turns that the user adds in double precision: `pd(8, 0.1 + 360)` does not find the point at `0.1`. -/
theorem C200_turn_false : ∃ a : ℚ, a ≠ fl (1 / 10) ∧
    cloudCall interpolate (fun l => .ok (l.map fun _ => true)) (cloudInit [((8, fl (1 / 10)), 5)]) 8 (fl (fl (1 / 10) + 360)) =
      interpolate [((8, fl (1 / 10)), 5)] [1] (8, a) := by
  have e : cloudInit [((8, fl (1 / 10)), 5)] = [((8, fl (1 / 10)), 5)] := by decide +kernel
  have m : mod (fl (fl (1 / 10) + 360)) 360 ≠ fl (1 / 10) := by decide +kernel
  refine ⟨_, m, ?_⟩
  rw [e]
  simp only [cloudCall]
  norm_num [Cloud.select, m.symm]

/-- **C200.** In the symmetrised cloud both sides have the boat speeds of the given one, if its winds are different and on one side and
its angles have at most 44 binary digits after the point. -/
theorem C200_symmetric {cloud : List (Pt ℚ)} (hn : Normal cloud) (hg : ∀ p ∈ cloud, OnGrid p.1.2)
    (hside : ∀ p ∈ cloud, 0 < p.1.2 ∧ p.1.2 < 180) (hnd : (cloud.map Prod.fst).Nodup) {ws wa bsp : ℚ} (hws : 0 < ws)
    (hp : ((ws, wa), bsp) ∈ cloud) :
    cloudCall interpolate nbh (cloudSymmetrize cloud) ws wa = .ok bsp ∧
      cloudCall interpolate nbh (cloudSymmetrize cloud) ws (fl (360 - wa)) = .ok bsp := by
  have hx : ∀ p ∈ cloud, fl (360 - p.1.2) = 360 - p.1.2 ∧ mod (fl (360 - p.1.2)) 360 = 360 - p.1.2 := by
    intro p hp
    have h1 := (grid_exact (hg p hp) (hn p hp).2.1 (hn p hp).2.2.le).2.1
    exact ⟨h1, by rw [h1]; exact mod_small (by linarith [(hside p hp).2]) (by linarith [(hside p hp).1])⟩
  have e : cloudSymmetrize cloud = cloud ++ cloud.map fun p => ((p.1.1, 360 - p.1.2), p.2) := by
    rw [cloudSymmetrize_eq hn]
    congr 1
    apply List.map_congr_left
    intro p hp
    rw [(hx p hp).2]
  have hnd' : ((cloudSymmetrize cloud).map Prod.fst).Nodup := by
    have e2 : (cloudSymmetrize cloud).map Prod.fst =
        cloud.map Prod.fst ++ (cloud.map Prod.fst).map fun g : ℚ × ℚ => (g.1, 360 - g.2) := by
      rw [e]
      simp
    rw [e2]
    refine List.Nodup.append hnd (hnd.map ?_) ?_
    · intro a b hab
      simp only [Prod.mk.injEq, sub_right_inj] at hab
      exact Prod.ext hab.1 hab.2
    · intro g hg1 hg2
      obtain ⟨p, hp1, rfl⟩ := List.mem_map.1 hg1
      obtain ⟨g', hg', h'⟩ := List.mem_map.1 hg2
      obtain ⟨q, hq, rfl⟩ := List.mem_map.1 hg'
      have := congrArg Prod.snd h'
      simp only at this
      linarith [(hside p hp1).2, (hside q hq).2]
  have m1 : mod wa 360 = wa := mod_small (hn _ hp).2.1 (hn _ hp).2.2
  have m2 : mod (fl (360 - wa)) 360 = 360 - wa := (hx _ hp).2
  refine ⟨cloudCall_find interpolate nbh hws ?_, cloudCall_find interpolate nbh hws ?_⟩
  · rw [m1]
    exact firstStored_find.1 (firstStored_nodup hnd' (by rw [e]; exact List.mem_append_left _ hp))
  · rw [m2]
    exact firstStored_find.1 (firstStored_nodup hnd'
      (by rw [e]; exact List.mem_append_right _ (List.mem_map.2 ⟨_, hp, rfl⟩)))

/-- **C200.** Evaluating at calm or negative wind speeds raises. -/
theorem C200_raises (cloud : List (Pt ℚ)) {ws : ℚ} (hws : ws ≤ 0) (wa : ℚ) :
    cloudCall interpolate nbh cloud ws wa = .error .valueError := by
  simp [cloudCall, hws]

/-- **C200.** At other winds the interpolator gets the points of the neighbourhood of the normalised wind with weights 1. -/
theorem C200_interpolated {cloud : List (Pt ℚ)} {ws wa : ℚ} (hws : 0 < ws) (h : NotStored cloud (ws, mod wa 360)) {inside : ℚ × ℚ → Bool} :
    cloudCall interpolate (fun l => .ok (l.map inside)) cloud ws wa =
      interpolate (cloud.filter fun p => inside (fl (p.1.1 - ws), fl (p.1.2 - mod wa 360)))
        (List.replicate (cloud.filter fun p => inside (fl (p.1.1 - ws), fl (p.1.2 - mod wa 360))).length 1) (ws, mod wa 360) := by
  have hf : (cloud.filter fun p => decide (p.1.1 = ws) && decide (p.1.2 = mod wa 360)) = [] := by
    rw [List.filter_eq_nil_iff]
    intro p hp hd
    simp only [Bool.and_eq_true, decide_eq_true_eq] at hd
    exact h p hp (Prod.ext hd.1 hd.2)
  have key : ∀ l : List (Pt ℚ), Cloud.select ((l.map fun p => (fl (p.1.1 - ws), fl (p.1.2 - mod wa 360))).map inside) l =
      (l.filter fun p => inside (fl (p.1.1 - ws), fl (p.1.2 - mod wa 360))) ∧
      Cloud.select ((l.map fun p => (fl (p.1.1 - ws), fl (p.1.2 - mod wa 360))).map inside) (List.replicate l.length (1 : ℚ)) =
      List.replicate (l.filter fun p => inside (fl (p.1.1 - ws), fl (p.1.2 - mod wa 360))).length 1 := by
    intro l
    induction l with
    | nil => simp [Cloud.select]
    | cons p l ih =>
      cases hi : inside (fl (p.1.1 - ws), fl (p.1.2 - mod wa 360)) <;>
        simp_all [Cloud.select, List.replicate_succ]
  unfold cloudCall
  rw [if_neg (not_le.2 hws)]
  simp only [hf, (key cloud).1, (key cloud).2]

/-- **C200.** With `ArithmeticMeanInterpolator` and positive calculated weights, the boat speed at such a wind is a number if a point is
in the neighbourhood of the normalised wind; it leaves the range of the speeds of these points by at most `12 (n + 1) / 2^53` times the
largest of them, and it is not negative if none of them is. -/
theorem C200_value {norm : ℚ × ℚ → ℚ} (hn : IsDist norm) {distr : ℚ → ℚ → ℚ} (hd : ∀ d w, 0 < distr d w)
    (hi : ∀ (pts : List (Pt ℚ)) (weights : List ℚ) (g : ℚ × ℚ), weights.length = pts.length →
      Arith norm 1 distr pts weights g (interpolate pts weights g)) {cloud : List (Pt ℚ)}
    (hlen : cloud.length + 1 ≤ 2 ^ 50) {ws wa : ℚ} (hws : 0 < ws) (h : NotStored cloud (ws, mod wa 360)) {inside : ℚ × ℚ → Bool}
    (hne : ∃ p ∈ cloud, inside (fl (p.1.1 - ws), fl (p.1.2 - mod wa 360)) = true) :
    ∃ x, cloudCall interpolate (fun l => .ok (l.map inside)) cloud ws wa = .ok x ∧
      ((∀ p ∈ cloud, inside (fl (p.1.1 - ws), fl (p.1.2 - mod wa 360)) = true → 0 ≤ p.2) → 0 ≤ x) ∧
      ∀ lo hi B, (∀ p ∈ cloud, inside (fl (p.1.1 - ws), fl (p.1.2 - mod wa 360)) = true → lo ≤ p.2 ∧ p.2 ≤ hi ∧ |p.2| ≤ B) →
        lo - 12 * ((cloud.length + 1) * u ℚ) * B ≤ x ∧ x ≤ hi + 12 * ((cloud.length + 1) * u ℚ) * B := by
  rw [C200_interpolated interpolate hws h]
  set pts := cloud.filter fun p => inside (fl (p.1.1 - ws), fl (p.1.2 - mod wa 360)) with hpts
  have hm : ∀ p, p ∈ pts ↔ p ∈ cloud ∧ inside (fl (p.1.1 - ws), fl (p.1.2 - mod wa 360)) = true := fun p => by
    rw [hpts, List.mem_filter]
  obtain ⟨p0, hp0, hp1⟩ := hne
  have hp : pts ≠ [] := List.ne_nil_of_mem ((hm p0).2 ⟨hp0, hp1⟩)
  have hl : pts.length ≤ cloud.length := List.length_filter_le _ _
  obtain ⟨x, h1, -, h2, h3⟩ := C194_value hn hd hp (by simp) (by omega) (hi pts (List.replicate pts.length 1) (ws, mod wa 360) (by simp))
  refine ⟨x, h1, fun h0 => h2 fun p hp => h0 p ((hm p).1 hp).1 ((hm p).1 hp).2, fun lo hi B hb => ?_⟩
  obtain ⟨h4, h5⟩ := h3 lo hi B fun p hp => hb p ((hm p).1 hp).1 ((hm p).1 hp).2
  have hB : 0 ≤ B := (abs_nonneg _).trans (hb p0 hp0 hp1).2.2
  have hu := u_pos (K := ℚ)
  have hle : 12 * (((pts.length : ℚ) + 1) * u ℚ) * B ≤ 12 * (((cloud.length : ℚ) + 1) * u ℚ) * B := by
    have : (pts.length : ℚ) ≤ cloud.length := by exact_mod_cast hl
    gcongr
  exact ⟨by linarith, by linarith⟩

/-- The hypotheses of `C200_value` can be met: the maximum norm and equal weights. -/
example : ∃ x, (∃ interpolate, cloudCall interpolate (fun l => .ok (l.map fun p => decide (p.1 ^ 2 + p.2 ^ 2 ≤ 25)))
    [((6, 90), 4), ((6, 45), 3)] 6 (-266) = .ok x) ∧ 0 ≤ x := by
  have hex : ∀ (pts : List (Pt ℚ)) (weights : List ℚ) (g : ℚ × ℚ),
      ∃ r, weights.length = pts.length → Arith (fun x : ℚ × ℚ => fl (max |x.1| |x.2|)) 1 (fun _ _ => 1) pts weights g r := by
    intro pts weights g
    by_cases hl : weights.length = pts.length
    · obtain ⟨r, hr⟩ := arith_exists (fun x : ℚ × ℚ => fl (max |x.1| |x.2|)) 1 (fun _ _ => 1) (pts.zip weights) g
      rw [List.map_fst_zip hl.ge, List.map_snd_zip hl.le] at hr
      exact ⟨r, fun _ => hr⟩
    · exact ⟨.ok 0, fun h => absurd h hl⟩
  choose f hf using hex
  obtain ⟨x, h1, h2, -⟩ := C200_value f isDist_flmax (distr := fun _ _ => 1) (fun _ _ => one_pos) hf
    (cloud := [((6, 90), 4), ((6, 45), 3)]) (by norm_num) (ws := 6) (wa := -266) (by norm_num)
    (by unfold NotStored; decide +kernel) (inside := fun p => decide (p.1 ^ 2 + p.2 ^ 2 ≤ 25)) (by decide +kernel)
  exact ⟨x, ⟨f, h1⟩, h2 (by decide +kernel)⟩

/-- The hypotheses can be met. -/
example : Normal ([((6, 90), 4), ((6, 181 / 4), 3)] : List (Pt ℚ)) ∧ (∀ p ∈ ([((6, 90), 4), ((6, 181 / 4), 3)] : List (Pt ℚ)), OnGrid p.1.2) ∧
    FirstStored ([((6, 90), 4), ((6, 181 / 4), 3)] : List (Pt ℚ)) (6, 181 / 4) 3 ∧ Addable [((8, -90), 5)] ∧
    cloudCall interpolate nbh (cloudSymmetrize [((6, 90), 4), ((6, 181 / 4), 3)]) 6 (1259 / 4) = .ok 3 := by
  have hn : Normal ([((6, 90), 4), ((6, 181 / 4), 3)] : List (Pt ℚ)) := by
    intro p hp
    simp only [List.mem_cons, List.not_mem_nil, or_false] at hp
    rcases hp with rfl | rfl <;> norm_num
  have hg : ∀ p ∈ ([((6, 90), 4), ((6, 181 / 4), 3)] : List (Pt ℚ)), OnGrid p.1.2 := by
    intro p hp
    simp only [List.mem_cons, List.not_mem_nil, or_false] at hp
    rcases hp with rfl | rfl
    · exact ⟨90 * 2 ^ 44, by push_cast; norm_num⟩
    · exact ⟨181 * 2 ^ 42, by push_cast; norm_num⟩
  refine ⟨hn, hg, firstStored_nodup (by decide +kernel) (by simp), ⟨by unfold Doubles; decide +kernel, by decide +kernel⟩, ?_⟩
  have := (C200_symmetric interpolate nbh hn hg (by decide +kernel) (by decide +kernel) (ws := 6) (wa := 181 / 4) (bsp := 3)
    (by norm_num) (by simp)).2
  have e : fl (360 - 181 / 4 : ℚ) = 1259 / 4 := by decide +kernel
  rwa [e] at this

end Verif.F64
