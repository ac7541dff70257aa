import Verif.Props.DefaultTable

/-!
# Exact condition for property C113: the order of measurements
-/

namespace Verif.Default

open Verif.Interp Verif.Weigher

/-- Measurements which the filter keeps and which are made at the same wind of the table have the same boat speed. -/
def Settled (s : Settings) (data : List (Pt ℝ)) : Prop :=
  ∀ pts t, weighAndFilter s data = .ok pts → makeTable s data = .ok t →
    ∀ p ∈ pts, ∀ q ∈ pts, p.1.1 = q.1.1 → p.1.1.1 ∈ t.ws → p.1.1.2 ∈ t.wa → p.1.2 = q.1.2

theorem valueAt_first {s : Settings} (hs : s.Ok) (h1 : s.ballNorm 0 ≤ s.ballRadius) {data : List (Pt ℝ)} {q : Pt ℝ × ℝ}
    (hq : q ∈ kept s data) : ∃ data', data.Perm data' ∧ valueAt s (allPoints s data') q.1.1 = q.1.2 := by
  classical
  have hmem := kept_sub hq
  refine ⟨q.1 :: data.erase q.1, List.perm_cons_erase hmem, ?_⟩
  have hp := List.perm_cons_erase hmem
  have hk : ∃ l, kept s (q.1 :: data.erase q.1) = q :: l := by
    unfold kept at hq
    obtain ⟨hq1, hq2⟩ := List.mem_filter.1 hq
    obtain ⟨p, -, hpq⟩ := List.mem_map.1 hq1
    have hpq' : (q.1, wt s data q.1) = q := by rw [← hpq]
    unfold kept
    rw [← wt_perm s hp, ← percentile_perm (hp.map (wt s data)), List.map_cons, List.filter_cons, hpq', if_pos hq2]
    exact ⟨_, rfl⟩
  obtain ⟨l, hl⟩ := hk
  have hb : inBall s (q.1.1 - q.1.1) = true := by
    rw [sub_self]
    simpa [inBall] using h1
  have hz : s.norm (q.1.1 - q.1.1) = 0 := by
    rw [sub_self]
    exact (hs.dist.2 0).2 rfl
  unfold valueAt around allPoints
  rw [hl]
  simp only [List.cons_append, List.filter_cons, hb, if_true, List.map_cons, firstAtZero, hz]

/-- **C113.** The table does not depend on the order of the measurements exactly if no two measurements kept by the filter contradict
each other at a wind of the table. Contradictions at other winds, and contradictions which the filter removes, do not matter. -/
theorem C113_exactly {s : Settings} (hs : s.Ok) (h1 : s.ballNorm 0 ≤ s.ballRadius) {data : List (Pt ℝ)}
    (hpos : ∀ p ∈ data, 0 ≤ p.1.1) :
    (∀ data', data.Perm data' → makeTable s data = makeTable s data') ↔ Settled s data := by
  by_cases hne : data = []
  · subst hne
    refine ⟨fun _ pts t hpts _ => ?_, fun _ data' h => by rw [h.nil_eq]⟩
    rw [weighAndFilter_eq hs, Except.ok.injEq] at hpts
    subst hpts
    intro p hp
    exact absurd (kept_sub hp) (by simp)
  · obtain ⟨ws, wa, t, g1, g2, g3, g4, g5, g6⟩ := makeTable_spec hs hne hpos
    constructor
    · intro h pts t' hpts ht' p hp q hq hpq hw ha
      rw [weighAndFilter_eq hs, Except.ok.injEq] at hpts
      subst hpts
      rw [g2, Except.ok.injEq] at ht'
      subst ht'
      have key : ∀ r ∈ kept s data, r.1.1 = p.1.1 → t.get p.1.1.1 p.1.1.2 = .ok r.1.2 := by
        intro r hr hrp
        obtain ⟨d, hd, hv⟩ := valueAt_first hs h1 hr
        have hned : d ≠ [] := fun h' => hne (by rw [h'] at hd; exact hd.eq_nil)
        obtain ⟨-, -, t₂, -, k2, -, -, -, k6⟩ := makeTable_spec hs hned fun p hp => hpos p (hd.mem_iff.2 hp)
        have : t = t₂ := by
          have e := h d hd
          rw [g2, k2, Except.ok.injEq] at e
          exact e
        subst this
        rw [k6 _ hw _ ha]
        change Except.ok (valueAt s (allPoints s d) p.1.1) = _
        rw [← hrp, hv]
      have e1 := key p hp rfl
      rw [key q hq hpq.symm, Except.ok.injEq] at e1
      exact e1.symm
    · intro h data' hd
      have hne' : data' ≠ [] := fun h' => hne (by rw [h'] at hd; exact hd.eq_nil)
      have hst := h (kept s data) t (weighAndFilter_eq hs data) g2
      rw [makeTable_all hs hne, makeTable_all hs hne']
      have hp := allPoints_perm s hd
      apply tableProcess_congr
      · unfold Ext.tableSize
        rw [minMaxResolution_perm ((hp.map Prod.fst).map _)]
      · intro ws' wa' hsz w hw a ha
        have hang := minMax_angles hsz a ha
        refine ⟨_, isValue s _ _, ?_⟩
        have hsz' : ws' = t.ws ∧ wa' = t.wa := by
          unfold Ext.tableSize at hsz
          simp only [g1] at hsz
          injection hsz with hsz
          obtain ⟨rfl, rfl⟩ := Prod.mk.inj hsz
          exact ⟨g3.symm, g4.symm⟩
        rw [valueAt_perm hs hp ?_]
        · exact isValue s _ _
        · have hkept : ∀ p ∈ allPoints s data, p.1.1 = (w, a) → p ∈ kept s data := by
            intro p hp hpg
            unfold allPoints at hp
            rcases List.mem_append.1 hp with hp | hp
            · exact hp
            · exfalso
              rcases (zeros_mem hp).2.1 with h | h
              · rw [hpg] at h; simp only at h; linarith
              · rw [hpg] at h; simp only at h; linarith
          intro p hp q hq hpg hqg
          refine hst p (hkept p hp hpg) q (hkept q hq hqg) (hpg.trans hqg.symm) ?_ ?_
          · rw [hpg, ← hsz'.1]; exact hw
          · rw [hpg, ← hsz'.2]; exact ha

/-- Two different measurements of a wind whose angle is not in the table: the order does not matter. -/
example : ∀ data', [(((10 : ℝ), (91 : ℝ)), (5 : ℝ)), ((10, 91), 6)].Perm data' →
    makeTable defaults [((10, 91), 5), ((10, 91), 6)] = makeTable defaults data' := by
  have h1 : defaults.ballNorm 0 ≤ defaults.ballRadius := by
    change scaledEuclidean 0 ≤ 1
    rw [(isDist_scaledEuclidean.2 0).2 rfl]
    norm_num
  have hpos : ∀ p ∈ [(((10 : ℝ), (91 : ℝ)), (5 : ℝ)), ((10, 91), 6)], 0 ≤ p.1.1 := by
    intro p hp
    fin_cases hp <;> norm_num
  refine (C113_exactly defaults_ok h1 hpos).2 fun pts t hpts ht p hp q hq hpq hw ha => ?_
  exfalso
  obtain ⟨ws, wa, t', -, g2, -, g4, g5, -⟩ := makeTable_spec defaults_ok (data := [((10, 91), 5), ((10, 91), 6)]) (by simp) hpos
  rw [ht, Except.ok.injEq] at g2
  subst g2
  rw [weighAndFilter_eq defaults_ok, Except.ok.injEq] at hpts
  subst hpts
  have hp' : p.1.1.2 = 91 := by
    have := kept_sub hp
    simp only [List.mem_cons, List.not_mem_nil, or_false] at this
    rcases this with h | h <;> rw [h]
  rw [hp', g4] at ha
  obtain ⟨k, hk, hk'⟩ := List.mem_map.1 ha
  have hk2 : k = 91 := by exact_mod_cast hk'
  have := (g5 k).1 hk
  omega

end Verif.Default
