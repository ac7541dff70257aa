import Verif.Model.FloatTableSlices
import Verif.Props.FloatSlices
import Verif.Props.FloatTableCall
import Verif.Props.TableSlices

/-!
# Property C205: slices of tables in double precision
-/

namespace Verif.F64

open Verif.Table (WF)

variable (interpolate : List ((ℚ × ℚ) × ℚ) → ℚ × ℚ → Except PyErr ℚ) (nbh : ℚ × ℚ → Bool)

/-! ### Lemmas -/

theorem tableSliceAt_spec {t : Table ℚ} (h : WF t) {w : ℚ} {s : List ((ℚ × ℚ) × ℚ)} (hs : tableSliceAt interpolate nbh t w = .ok s) :
    s.map Prod.fst = t.wa.map (fun a => (w, a)) ∧ ∀ p ∈ s, tableCall interpolate nbh t p.1.1 p.1.2 = .ok p.2 := by
  unfold tableSliceAt at hs
  split at hs
  · rename_i hw
    have hs' : Table.sliceAt interpolate nbh false t w = .ok s := by
      simpa only [Table.sliceAt, if_pos hw, Bool.false_eq_true, if_false] using hs
    obtain ⟨h1, h2⟩ := Table.sliceAt_spec interpolate nbh h false hs'
    refine ⟨h1, fun p hp => ?_⟩
    have hp1 : p.1 ∈ t.wa.map (fun a => (w, a)) := h1 ▸ List.mem_map_of_mem hp
    obtain ⟨a, ha, e⟩ := List.mem_map.1 hp1
    have ew : p.1.1 = w := by rw [← e]
    have ea : p.1.2 = a := by rw [← e]
    have h0 := h.wa_nonneg a ha
    have hm : mod a 360 = a := by rw [mod_exact (Or.inl h0), pmod_of_mem h0 (h.wa_lt a ha)]
    obtain ⟨x, g1, g2⟩ := (C203_last interpolate nbh h [] (w := w) (a := a) hw (by rw [hm]; exact ha)).2 rfl
    have g3 : Table.get t w a = .ok x := by
      rw [← g1, (C202_exact (ws := []) (wa := []) (by simp) []).2.1 t w a (Or.inl h0)]
    have g4 := h2 p hp
    rw [ew, ea] at g4 ⊢
    simp only [Table.call, g3] at g4
    rw [← g4]
    exact g2
  · exact (Diagram.evalWinds_spec _ _).1 s hs

theorem tableWsToSlices_spec {t : Table ℚ} {ws : List ℚ} {r : List (List ((ℚ × ℚ) × ℚ))} :
    tableWsToSlices interpolate nbh t ws = .ok r ↔ List.Forall₂ (fun w s => tableSliceAt interpolate nbh t w = .ok s) ws r := by
  induction ws generalizing r with
  | nil =>
    constructor
    · intro h; cases h; exact .nil
    · intro h; cases h; rfl
  | cons w ws ih =>
    constructor
    · intro hr
      unfold tableWsToSlices at hr
      split at hr
      · cases hr
      · rename_i s hs
        split at hr
        · cases hr
        · rename_i r' hr'
          cases hr
          exact .cons hs (ih.1 hr')
    · intro h
      cases h with
      | cons h1 h2 => simp only [tableWsToSlices, h1, ih.2 h2]

theorem slices_exist {α β : Type} {R : α → β → Prop} {l : List α} (h : ∀ a ∈ l, ∃ b, R a b) : ∃ r, List.Forall₂ R l r := by
  induction l with
  | nil => exact ⟨[], .nil⟩
  | cons a l ih =>
    obtain ⟨b, hb⟩ := h a List.mem_cons_self
    obtain ⟨r, hr⟩ := ih fun x hx => h x (List.mem_cons_of_mem _ hx)
    exact ⟨b :: r, .cons hb hr⟩

/-! ### C205 -/

/-- **C205.** All slices of a table whose angles are less than 360 consist of its wind angles in order, together with what evaluating the
table at the wind speed of the slice and these angles returns; there is one slice for each wind speed. -/
theorem C205_slices_partial {t : Table ℚ} (h : WF t) {ws : Diagram.WsArg ℚ} {nSteps : Option Int} {l : List ℚ}
    {r : List (List ((ℚ × ℚ) × ℚ))} (hr : tableGetSlices interpolate nbh t ws nSteps = .ok (l, r)) :
    windSpeeds t.ws ws nSteps = .ok l ∧
    List.Forall₂ (fun w s => s.map Prod.fst = t.wa.map (fun a => (w, a)) ∧
      ∀ p ∈ s, tableCall interpolate nbh t p.1.1 p.1.2 = .ok p.2) l r := by
  unfold tableGetSlices at hr
  split at hr
  · cases hr
  · rename_i l' hl
    split at hr
    · cases hr
    · rename_i r' hr'
      cases hr
      exact ⟨hl, ((tableWsToSlices_spec interpolate nbh).1 hr').imp fun w s hs => tableSliceAt_spec interpolate nbh h hs⟩

/-- **C205.** The default slices are the columns of the table, whatever the interpolator. -/
theorem C205_default (t : Table ℚ) : tableGetSlices interpolate nbh t .default none =
    .ok (t.ws, t.ws.map fun w => (t.wa.zip t.bsps).map fun p => ((w, p.1), p.2.getD (t.ws.idxOf w) 0)) := by
  have key : ∀ l : List ℚ, (∀ w ∈ l, w ∈ t.ws) → tableWsToSlices interpolate nbh t l =
      .ok (l.map fun w => (t.wa.zip t.bsps).map fun p => ((w, p.1), p.2.getD (t.ws.idxOf w) 0)) := by
    intro l hl
    rw [tableWsToSlices_spec, List.forall₂_map_right_iff, List.forall₂_same]
    intro w hw
    rw [tableSliceAt, if_pos (hl w hw)]
  simp only [tableGetSlices, windSpeeds, spread, key t.ws fun _ h => h]

/-- **C205.** With `n_steps`, `ArithmeticMeanInterpolator` and positive calculated weights, if at each wind speed between those of the
table and each of its angles some point of the table is in the neighbourhood: there are `n` slices between each two wind speeds of the table, in ascending order and at the wind
speeds of the table exactly, where the slice is the column; the boat speeds are not negative if those of the table are not. -/
theorem C205_steps {norm : ℚ × ℚ → ℚ} (hn : Interp.IsDist norm) {distr : ℚ → ℚ → ℚ} (hd : ∀ d w, 0 < distr d w)
    (hi : ∀ pts g, Arith norm 1 distr pts (List.replicate pts.length 1) g (interpolate pts g)) {t : Table ℚ} (h : WF t)
    (hne : t.ws ≠ []) (hdbl : ∀ w ∈ t.ws, fl w = w) (hlen : t.points.length + 1 ≤ 2 ^ 50) (hpos : ∀ p ∈ t.points, 0 ≤ p.2)
    {n : Nat} (h0 : 0 < n) (h50 : n < 2 ^ 50)
    (hnbh : ∀ w a, (∀ lo hi, (∀ v ∈ t.ws, lo ≤ v ∧ v ≤ hi) → lo ≤ w ∧ w ≤ hi) → a ∈ t.wa →
      ∃ p ∈ t.points, nbh (fl (p.1.1 - w), fl (p.1.2 - a)) = true) :
    ∃ l r, tableGetSlices interpolate nbh t .default (some n) = .ok (l, r) ∧ l.length = (t.ws.length - 1) * (n + 1) + 1 ∧
      l.Pairwise (· ≤ ·) ∧
      (∀ (i : Nat) (w : ℚ), t.ws[i]? = some w → l[i * (n + 1)]? = some w ∧
        r[i * (n + 1)]? = some ((t.wa.zip t.bsps).map fun p => ((w, p.1), p.2.getD (t.ws.idxOf w) 0))) ∧
      ∀ s ∈ r, ∀ p ∈ s, 0 ≤ p.2 := by
  obtain ⟨l, hl1, hl, hlen', hat, -⟩ := C163_n_steps t.ws hne hdbl h0
  obtain ⟨l', hl', hsort, hbetween⟩ := C163_slices_sorted t.ws hne (h.ws_sorted.imp fun h => le_of_lt h) hdbl h0 h50
  rw [hl1] at hl'
  cases hl'
  have hcol : ∀ w ∈ t.ws, ∀ p ∈ (t.wa.zip t.bsps).map (fun p => ((w, p.1), p.2.getD (t.ws.idxOf w) 0)), p ∈ t.points := by
    intro w hw p hp
    obtain ⟨q, hq, rfl⟩ := List.mem_map.1 hp
    refine List.mem_flatMap.2 ⟨q, hq, List.mem_map.2 ⟨(w, q.2.getD (t.ws.idxOf w) 0), ?_, rfl⟩⟩
    have hj : t.ws.idxOf w < t.ws.length := List.idxOf_lt_length_of_mem hw
    have hc : t.ws.idxOf w < q.2.length := by rw [h.cols _ (List.of_mem_zip hq).2]; exact hj
    refine List.mem_of_getElem? (i := t.ws.idxOf w) ?_
    rw [List.getElem?_zip_eq_some]
    exact ⟨by rw [List.getElem?_eq_getElem hj, List.getElem_idxOf hj], by simp [hc]⟩
  have key : ∀ w ∈ l, ∃ s, tableSliceAt interpolate nbh t w = .ok s ∧ ∀ p ∈ s, 0 ≤ p.2 := by
    intro w hwl
    by_cases hw : w ∈ t.ws
    · exact ⟨_, by rw [tableSliceAt, if_pos hw], fun p hp => hpos p (hcol w hw p hp)⟩
    · have hv : ∀ a ∈ t.wa, ∃ x, tableCall interpolate nbh t w a = .ok x ∧ 0 ≤ x := by
        intro a ha
        obtain ⟨x, h1, h2, -⟩ := C203_value interpolate nbh hn hd hi t hlen (Or.inl hw) (hnbh w a (fun lo hi hv => hbetween lo hi hv w hwl) ha)
        exact ⟨x, h1, h2 fun p hp _ => hpos p hp⟩
      obtain ⟨e1, e2⟩ := Diagram.evalWinds_spec (tableCall interpolate nbh t) (t.wa.map fun a => (w, a))
      obtain ⟨s, hs⟩ := e2 (by
        intro p hp
        obtain ⟨a, ha, rfl⟩ := List.mem_map.1 hp
        obtain ⟨x, h1, -⟩ := hv a ha
        exact ⟨x, h1⟩)
      obtain ⟨g1, g2⟩ := e1 s hs
      refine ⟨s, by rw [tableSliceAt, if_neg hw, hs], fun p hp => ?_⟩
      have hp1 : p.1 ∈ t.wa.map (fun a => (w, a)) := g1 ▸ List.mem_map_of_mem hp
      obtain ⟨a, ha, e⟩ := List.mem_map.1 hp1
      obtain ⟨x, h1, h2⟩ := hv a ha
      have h3 := g2 p hp
      rw [← e, h1] at h3
      cases h3
      exact h2
  obtain ⟨r, hr⟩ := slices_exist (l := l) key
  refine ⟨l, r, ?_, hlen', hsort, ?_, ?_⟩
  · have := (tableWsToSlices_spec interpolate nbh).2 (hr.imp fun w s hs => hs.1)
    have e : windSpeeds t.ws .default (some (n : Int)) = .ok l := hl
    simp only [tableGetSlices, e, this]
  · intro i w hw
    obtain ⟨hil, -⟩ := List.getElem?_eq_some_iff.1 hw
    have h1 : l[i * (n + 1)]? = some w := by rw [hat i hil, hw]
    refine ⟨h1, ?_⟩
    obtain ⟨hj, e⟩ := List.getElem?_eq_some_iff.1 h1
    have hj' : i * (n + 1) < r.length := by rw [← hr.length_eq]; exact hj
    have h2 := (hr.get hj hj').1
    simp only [List.get_eq_getElem] at h2
    rw [e, tableSliceAt, if_pos (List.mem_of_getElem? hw)] at h2
    rw [List.getElem?_eq_getElem hj']
    exact congrArg some (Except.ok.inj h2).symm
  · intro s hs
    obtain ⟨j, hj, rfl⟩ := List.getElem_of_mem hs
    have hj' : j < l.length := by rw [hr.length_eq]; exact hj
    exact (hr.get hj' hj).2

/-- **C205 is false** for tables made with tiny negative angles: the slice shows the boat speed 5 at the angle 360, but evaluating the
table there is not a lookup. -/
theorem C205_shown_false : tableInit [8] [fl (-1 / 10 ^ 20)] [[5]] = .ok ⟨[8], [360], [[5]]⟩ ∧
    tableGetSlices interpolate nbh ⟨[8], [360], [[5]]⟩ .default none = .ok ([8], [[((8, 360), 5)]]) ∧
    tableCall interpolate (fun _ => false) ⟨[8], [360], [[5]]⟩ 8 360 = interpolate [] (8, 360) := by
  refine ⟨by decide +kernel, ?_, ?_⟩
  · rw [C205_default]
    exact congrArg _ (by decide +kernel)
  · rw [C203_interpolated _ _ _ (Or.inr (by decide +kernel))]
    exact congrArg (fun l => interpolate l (8, 360)) (by decide +kernel)

/-- Slices at, between and besides the wind speeds of a table. -/
example : tableGetSlices (fun l _ => .ok ((l.map Prod.snd).sum / l.length)) (fun p => decide (p.1 ^ 2 + p.2 ^ 2 ≤ 1))
      ⟨[6, 8], [90, 350], [[2, 1], [4, 3]]⟩ .default (some 1) =
    .ok ([6, 7, 8], [[((6, 90), 2), ((6, 350), 4)], [((7, 90), 3 / 2), ((7, 350), 7 / 2)], [((8, 90), 1), ((8, 350), 3)]]) := by
  decide +kernel

/-- The hypotheses of `C205_steps` can be met. -/
example : ∃ interpolate : List ((ℚ × ℚ) × ℚ) → ℚ × ℚ → Except PyErr ℚ, ∃ l r,
    tableGetSlices interpolate (fun p => decide (|p.1| ≤ 2 ∧ |p.2| ≤ 1)) ⟨[6, 8], [90, 350], [[2, 1], [4, 3]]⟩ .default (some (3 : Nat)) = .ok (l, r) ∧
      l.length = 5 ∧ l[4]? = some 8 := by
  obtain ⟨f, hf⟩ := exists_performs (fun x : ℚ × ℚ => fl (max |x.1| |x.2|)) 1 (fun _ _ : ℚ => 1)
  have ht : WF (⟨[6, 8], [90, 350], [[2, 1], [4, 3]]⟩ : Table ℚ) := by
    constructor <;> decide +kernel
  have hb : ∀ w : ℚ, 6 ≤ w → w ≤ 8 → |fl (6 - w)| ≤ 2 := by
    intro w h6 h8
    have e : fl (2 : ℚ) = 2 := by decide +kernel
    rw [← fl_abs, ← e]
    exact fl_mono (abs_le.2 ⟨by linarith, by linarith⟩)
  obtain ⟨l, r, h1, h2, -, h3, -⟩ := C205_steps (fun pts g => f (pts.map fun p => (p, 1)) g) (fun p => decide (|p.1| ≤ 2 ∧ |p.2| ≤ 1)) isDist_flmax
    (distr := fun _ _ => 1) (fun _ _ => one_pos)
    (fun pts g => by
      have := hf (pts.map fun p => (p, 1)) g
      simpa [List.map_map, Function.comp_def] using this) ht
    (by decide) (by decide +kernel) (by decide +kernel) (by decide +kernel) (n := 3) (by norm_num) (by norm_num)
    (by
      intro w a hw ha
      have hw := hw 6 8 (by decide +kernel)
      simp only [List.mem_cons, List.not_mem_nil, or_false] at ha
      rcases ha with rfl | rfl
      · exact ⟨((6, 90), 2), by decide +kernel, by
          have := hb w hw.1 hw.2
          simp [fl_zero, this]⟩
      · exact ⟨((6, 350), 4), by decide +kernel, by
          have := hb w hw.1 hw.2
          simp [fl_zero, this]⟩)
  exact ⟨_, l, r, h1, h2, (h3 1 8 rfl).1⟩

end Verif.F64
