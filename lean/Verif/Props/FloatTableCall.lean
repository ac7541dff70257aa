import Verif.Model.FloatTableCall
import Verif.Props.FloatTable
import Verif.Props.FloatTableEntries

/-!
# Property C203: evaluating tables in double precision
-/

namespace Verif.F64

open Verif.Table (Change WF)

variable (interpolate : List ((ℚ × ℚ) × ℚ) → ℚ × ℚ → Except PyErr ℚ) (nbh : ℚ × ℚ → Bool)

theorem tableCall_ok {t : Table ℚ} {w a x : ℚ} (h : tableGet t w a = .ok x) : tableCall interpolate nbh t w a = .ok x := by
  simp only [tableCall, h]

/-- **C203.** A table made from winds in any order evaluates to the given boat speeds at the winds as they were given, whatever the
interpolator and the neighbourhood, if no wind angle is within `2^-45` degrees below a multiple of 360 (which for doubles only happens
from `-2^-45` to 0). -/
theorem C203_given_partial {ws wa : List ℚ} {bsps : List (List ℚ)} (hws : ws ≠ []) (hwa : wa ≠ []) (h0 : ∀ w ∈ ws, 0 ≤ w)
    (hwsn : ws.Nodup) (hwan : (wa.map fun a => mod a 360).Nodup) (htame : ∀ a ∈ wa, ¬ (a < 0 ∧ 360 - 2 ^ (-45 : ℤ) ≤ pmod a 360))
    (hlen : bsps.length = wa.length) (hcols : ∀ r ∈ bsps, r.length = ws.length) :
    ∃ t, tableInit ws wa bsps = .ok t ∧
      ∀ (i j : Nat) (a w x : ℚ) (r : List ℚ), wa[i]? = some a → ws[j]? = some w → bsps[i]? = some r → r[j]? = some x →
        tableCall interpolate nbh t w a = .ok x := by
  obtain ⟨t, h1, -, -, -, h⟩ := C202_lookup_partial hws hwa h0 hwsn hwan htame hlen hcols
  exact ⟨t, h1, fun i j a w x r hi hj hr hx => tableCall_ok _ _ (h i j a w x r hi hj hr hx)⟩

/-- **C203.** At the winds of the table the value written last is returned, after any number of writes. -/
theorem C203_last {t : Table ℚ} (ht : WF t) (ops : List (ℚ × ℚ × ℚ)) {w a : ℚ} (hw : w ∈ t.ws) (ha : mod a 360 ∈ t.wa) :
    (∀ x, lastWritten ops w a = some x →
      tableCall interpolate nbh (tableHistory t (ops.map fun o => Change.single o.1 o.2.1 o.2.2)) w a = .ok x) ∧
    (lastWritten ops w a = none →
      ∃ x, tableGet t w a = .ok x ∧
        tableCall interpolate nbh (tableHistory t (ops.map fun o => Change.single o.1 o.2.1 o.2.2)) w a = .ok x) := by
  have e := C202_last ht ops w a
  rw [if_pos ⟨hw, ha⟩] at e
  refine ⟨fun x hx => tableCall_ok _ _ (by rw [e, hx]), fun hn => ?_⟩
  have h360 : mod a 360 ≠ 360 := (ht.wa_lt _ ha).ne
  obtain ⟨j, hj, hw⟩ := List.getElem_of_mem hw
  obtain ⟨i, hi, ha⟩ := List.getElem_of_mem ha
  have hr : i < t.bsps.length := by rw [ht.rows]; exact hi
  have hx : j < t.bsps[i].length := by rw [ht.cols _ (List.getElem_mem _)]; exact hj
  have g : tableGet t w a = .ok t.bsps[i][j] := by
    rw [tableGet_eq _ _ h360]
    refine Table.get_entry ht (List.getElem?_eq_some_iff.2 ⟨hj, hw⟩) (i := i) ?_ (List.getElem?_eq_getElem hr)
      (List.getElem?_eq_getElem hx)
    rw [pmod_mod h360]
    exact List.getElem?_eq_some_iff.2 ⟨hi, ha⟩
  rw [hn] at e
  exact ⟨_, g, tableCall_ok _ _ (e.trans g)⟩

/-- **C203.** A stored wind angle can be given with any number of full turns. -/
theorem C203_turns {t : Table ℚ} (ht : WF t) {w a : ℚ} (hw : w ∈ t.ws) (ha : a ∈ t.wa) (hd : fl a = a) (k : ℤ) :
    ∃ x, Table.get t w a = .ok x ∧ tableCall interpolate nbh t w (a + 360 * k) = .ok x := by
  have e := mod_turns (ht.wa_nonneg a ha) (ht.wa_lt a ha) hd k
  obtain ⟨x, h1, h2⟩ := (C203_last interpolate nbh ht [] (w := w) (a := a + 360 * k) hw (by rw [e]; exact ha)).2 rfl
  exact ⟨x, by rw [← h1, C202_turns ht w ha hd k], h2⟩

/-- **C203.** At all other winds, also at wind speeds that are not positive, the interpolator gets the wind as it was given and the
points of the table whose rounded differences to it are in the neighbourhood. -/
theorem C203_interpolated (t : Table ℚ) {w a : ℚ} (h : w ∉ t.ws ∨ mod a 360 ∉ t.wa) :
    tableCall interpolate nbh t w a =
      interpolate (t.points.filter fun p => nbh (fl (p.1.1 - w), fl (p.1.2 - a))) (w, a) := by
  simp only [tableCall, tableGet_missing h]

/-- **C203.** With `ArithmeticMeanInterpolator` and positive calculated weights, the boat speed at such a wind is a number if a point of
the table is in the neighbourhood; it leaves the range of the speeds of these points by at most `12 (n + 1) / 2^53` times the largest of
them, and it is not negative if none of them is. -/
theorem C203_value {norm : ℚ × ℚ → ℚ} (hn : Interp.IsDist norm) {distr : ℚ → ℚ → ℚ} (hd : ∀ d w, 0 < distr d w)
    (hi : ∀ pts g, Arith norm 1 distr pts (List.replicate pts.length 1) g (interpolate pts g)) (t : Table ℚ)
    (hlen : t.points.length + 1 ≤ 2 ^ 50) {w a : ℚ} (h : w ∉ t.ws ∨ mod a 360 ∉ t.wa)
    (hne : ∃ p ∈ t.points, nbh (fl (p.1.1 - w), fl (p.1.2 - a)) = true) :
    ∃ x, tableCall interpolate nbh t w a = .ok x ∧
      ((∀ p ∈ t.points, nbh (fl (p.1.1 - w), fl (p.1.2 - a)) = true → 0 ≤ p.2) → 0 ≤ x) ∧
      ∀ lo hi B, (∀ p ∈ t.points, nbh (fl (p.1.1 - w), fl (p.1.2 - a)) = true → lo ≤ p.2 ∧ p.2 ≤ hi ∧ |p.2| ≤ B) →
        lo - 12 * ((t.points.length + 1) * u ℚ) * B ≤ x ∧ x ≤ hi + 12 * ((t.points.length + 1) * u ℚ) * B := by
  rw [C203_interpolated interpolate nbh t h]
  set pts := t.points.filter fun p => nbh (fl (p.1.1 - w), fl (p.1.2 - a)) with hpts
  have hm : ∀ p, p ∈ pts ↔ p ∈ t.points ∧ nbh (fl (p.1.1 - w), fl (p.1.2 - a)) = true := fun p => by rw [hpts, List.mem_filter]
  obtain ⟨p0, hp0, hp1⟩ := hne
  have hp : pts ≠ [] := List.ne_nil_of_mem ((hm p0).2 ⟨hp0, hp1⟩)
  have hl : pts.length ≤ t.points.length := List.length_filter_le _ _
  obtain ⟨x, h1, -, h2, h3⟩ := C194_value hn hd hp (by simp) (by omega) (hi pts (w, a))
  refine ⟨x, h1, fun h0 => h2 fun p hp => h0 p ((hm p).1 hp).1 ((hm p).1 hp).2, fun lo hi B hb => ?_⟩
  obtain ⟨h4, h5⟩ := h3 lo hi B fun p hp => hb p ((hm p).1 hp).1 ((hm p).1 hp).2
  have hB : 0 ≤ B := (abs_nonneg _).trans (hb p0 hp0 hp1).2.2
  have hu := u_pos (K := ℚ)
  have hle : 12 * (((pts.length : ℚ) + 1) * u ℚ) * B ≤ 12 * (((t.points.length : ℚ) + 1) * u ℚ) * B := by
    have : (pts.length : ℚ) ≤ t.points.length := by exact_mod_cast hl
    gcongr
  exact ⟨by linarith, by linarith⟩

/-- **C203.** If the differences to the wind are doubles and the wind angle is not negative or has at most 44 binary digits after the
point, the evaluation is that of exact arithmetic, so C52 holds for doubles. -/
theorem C203_exact (t : Table ℚ) {w a : ℚ} (ha : 0 ≤ a ∨ OnGrid a)
    (hd : ∀ p ∈ t.points, fl (p.1.1 - w) = p.1.1 - w ∧ fl (p.1.2 - a) = p.1.2 - a) :
    tableCall interpolate nbh t w a = Table.call interpolate nbh t w a := by
  have e : (t.points.filter fun p => nbh (fl (p.1.1 - w), fl (p.1.2 - a))) =
      t.points.filter fun p => nbh (p.1.1 - w, p.1.2 - a) := by
    apply List.filter_congr
    intro p hp
    rw [(hd p hp).1, (hd p hp).2]
  simp only [tableCall, Table.call, (C202_exact (ws := []) (wa := []) (by simp) []).2.1 t w a ha, e]
  rcases Table.get t w a with err | x
  · cases err <;> rfl
  · rfl

/-- **C203 is false** for full turns that the user adds in double precision: `pd(8, 0.1)` is the entry, but at `0.1 + 360` the
interpolator gets no points of the unit disc, as the wind angle is not normalised. -/
theorem C203_turn_false : tableInit [8] [fl (1 / 10)] [[5]] = .ok ⟨[8], [fl (1 / 10)], [[5]]⟩ ∧
    tableCall interpolate nbh ⟨[8], [fl (1 / 10)], [[5]]⟩ 8 (fl (1 / 10)) = .ok 5 ∧
    tableCall interpolate (fun p => decide (p.1 ^ 2 + p.2 ^ 2 ≤ 1)) ⟨[8], [fl (1 / 10)], [[5]]⟩ 8 (fl (fl (1 / 10) + 360)) =
      interpolate [] (8, fl (fl (1 / 10) + 360)) := by
  refine ⟨by decide +kernel, tableCall_ok _ _ (by decide +kernel), ?_⟩
  rw [C203_interpolated _ _ _ (Or.inr (by decide +kernel))]
  exact congrArg (fun l => interpolate l (8, fl (fl (1 / 10) + 360))) (by decide +kernel)

/-- **C203 is false** for tiny negative angles: the table shows the angle 360, but evaluating it there is not the entry. -/
theorem C203_shown_false : tableInit [8] [fl (-1 / 10 ^ 20)] [[5]] = .ok ⟨[8], [360], [[5]]⟩ ∧
    tableCall interpolate nbh ⟨[8], [360], [[5]]⟩ 8 (fl (-1 / 10 ^ 20)) = .ok 5 ∧
    tableCall interpolate (fun _ => true) ⟨[8], [360], [[5]]⟩ 8 360 = interpolate [((8, 360), 5)] (8, 360) := by
  refine ⟨by decide +kernel, tableCall_ok _ _ (by decide +kernel), ?_⟩
  rw [C203_interpolated _ _ _ (Or.inr (by decide +kernel))]
  exact congrArg (fun l => interpolate l (8, 360)) (by decide +kernel)

/-- The hypotheses can be met: the stored entry, the entry after a write, and the mean of the points of a disc. -/
example : tableInit [8, 6] [90, -10] [[1, 2], [3, 4]] = .ok ⟨[6, 8], [90, 350], [[2, 1], [4, 3]]⟩ ∧
    tableCall (fun _ _ => .error .zeroDivisionError) (fun _ => false) ⟨[6, 8], [90, 350], [[2, 1], [4, 3]]⟩ 8 (-370) = .ok 3 ∧
    lastWritten [(8, 350, 7), (8, -10, 9)] 8 350 = some 9 ∧ lastWritten [(8, 350, 7), (8, -10, 9)] 6 350 = none ∧
    OnGrid (90 : ℚ) ∧
    (∀ p ∈ Table.points ⟨[6, 8], [90, 350], [[2, 1], [4, 3]]⟩, fl (p.1.1 - 7) = p.1.1 - 7 ∧ fl (p.1.2 - 90) = p.1.2 - (90 : ℚ)) ∧
    tableCall (fun l _ => .ok ((l.map Prod.snd).sum / l.length)) (fun p => decide (p.1 ^ 2 + p.2 ^ 2 ≤ 1))
      ⟨[6, 8], [90, 350], [[2, 1], [4, 3]]⟩ 7 90 = .ok (3 / 2) := by
  refine ⟨by decide +kernel, by decide +kernel, by decide +kernel, by decide +kernel, ⟨90 * 2 ^ 44, by push_cast; norm_num⟩,
    by decide +kernel, by decide +kernel⟩

/-- The hypotheses of `C203_value` can be met: distances in the maximum norm, all weights equal. -/
example : ∃ interpolate : List ((ℚ × ℚ) × ℚ) → ℚ × ℚ → Except PyErr ℚ, ∃ x,
    tableCall interpolate (fun p => decide (p.1 ^ 2 + p.2 ^ 2 ≤ 1)) ⟨[6, 8], [90, 350], [[2, 1], [4, 3]]⟩ 7 90 = .ok x ∧ 0 ≤ x := by
  obtain ⟨f, hf⟩ := exists_performs (fun x : ℚ × ℚ => fl (max |x.1| |x.2|)) 1 (fun _ _ : ℚ => 1)
  obtain ⟨x, h1, h2, -⟩ := C203_value (fun pts g => f (pts.map fun p => (p, 1)) g) (fun p => decide (p.1 ^ 2 + p.2 ^ 2 ≤ 1)) isDist_flmax
    (distr := fun _ _ => 1) (fun _ _ => one_pos)
    (fun pts g => by
      have := hf (pts.map fun p => (p, 1)) g
      simpa [List.map_map, Function.comp_def] using this)
    ⟨[6, 8], [90, 350], [[2, 1], [4, 3]]⟩ (by decide +kernel) (w := 7) (a := 90) (Or.inl (by decide +kernel)) (by decide +kernel)
  exact ⟨_, x, h1, h2 (by decide +kernel)⟩

end Verif.F64
