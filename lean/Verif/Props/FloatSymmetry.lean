import Verif.Props.Float64
import Verif.Props.Table

/-!
# Property C150: symmetrised tables in double precision
-/

namespace Verif.F64

open Verif.Table (WF get get_entry decomp indices waIndices)

theorem fl_180 : fl (180 : ℚ) = 180 := by
  exact_mod_cast fl_int (K := ℚ) (m := 180) (by norm_num)

theorem fl_360 : fl (360 : ℚ) = 360 := by
  exact_mod_cast fl_int (K := ℚ) (m := 360) (by norm_num)

theorem fl_half : fl ((360 : ℚ) - 180) = 180 := by
  rw [show (360 : ℚ) - 180 = 180 by norm_num, fl_180]

/-- Numbers between 180 and 360 that differ by at least `2^-43` are rounded to different numbers. -/
theorem fl_strict {x y : ℚ} (hx : 180 ≤ x) (hy : y ≤ 360) (h : x + 1 / 2 ^ 43 ≤ y) : fl x < fl y := by
  have e1 := (abs_le.1 (fl_error x)).2
  have e2 := (abs_le.1 (fl_error y)).1
  have hp : (0 : ℚ) < 1 / 2 ^ 43 := by positivity
  rw [abs_of_nonneg (by linarith)] at e1 e2
  rw [show (2 : ℚ) ^ (-53 : ℤ) = 1 / 2 ^ 53 by norm_num] at e1 e2
  norm_num at e1 e2 h
  linarith

/-- The rounded mirror image of a pair of an angle and its boat speeds. -/
def mirrorD {α : Type} (p : ℚ × α) : ℚ × α := (fl (360 - p.1), p.2)

/-- The arrays given to the constructor by `symmetrize`. -/
theorem symmetrizeD_eq {t : Table ℚ} {Z M H : List (ℚ × List ℚ)} (hP : t.wa.zip t.bsps = Z ++ M ++ H)
    (hlen : t.bsps.length = t.wa.length)
    (hZ : Z = [] ∨ ∃ r, Z = [(0, r)]) (hH : H = [] ∨ ∃ r, H = [(180, r)]) (hM : ∀ p ∈ M, 0 < p.1 ∧ p.1 < 180) :
    symmetrize t = Table.init (.values t.ws) (.values ((Z ++ M ++ H ++ (M.reverse.map mirrorD)).map (·.1)))
      (some ((Z ++ M ++ H ++ (M.reverse.map mirrorD)).map (·.2))) := by
  have e1 : t.wa = (Z ++ M ++ H).map (·.1) := by rw [← hP, List.map_fst_zip (by omega)]
  have e2 : t.bsps = (Z ++ M ++ H).map (·.2) := by rw [← hP, List.map_snd_zip (by omega)]
  have hM0 : (0 : ℚ) ∉ M.map (·.1) := by
    intro h; obtain ⟨p, hp, h⟩ := List.mem_map.1 h; exact absurd h (ne_of_gt (hM p hp).1)
  have hM180 : (180 : ℚ) ∉ M.map (·.1) := by
    intro h; obtain ⟨p, hp, h⟩ := List.mem_map.1 h; exact absurd h (ne_of_lt (hM p hp).2)
  have h0180 : (0 : ℚ) ≠ 180 := by norm_num
  have hZ180 : (180 : ℚ) ∉ Z.map (·.1) := by
    rcases hZ with rfl | ⟨r, rfl⟩ <;> simp
  have m0 : (0 : ℚ) ∈ t.wa ↔ Z ≠ [] := by
    rw [e1, List.map_append, List.map_append]
    rcases hZ with rfl | ⟨r, rfl⟩ <;> rcases hH with rfl | ⟨s, rfl⟩ <;> simp [hM0, h0180] <;> exact by simpa using hM0
  have m180 : (180 : ℚ) ∈ t.wa ↔ H ≠ [] := by
    rw [e1, List.map_append, List.map_append]
    rcases hH with rfl | ⟨s, rfl⟩
    · simp only [List.map_nil, List.append_nil, List.mem_append, hZ180, hM180, or_self, ne_eq, not_true_eq_false]
    · simp
  have mir : ∀ l : List (ℚ × List ℚ), (l.map (·.1)).reverse.map (fun a => fl (360 - a)) = (l.reverse.map mirrorD).map (·.1) := by
    intro l; simp [mirrorD, ← List.map_reverse]
  have mir2 : ∀ l : List (ℚ × List ℚ), (l.map (·.2)).reverse = (l.reverse.map mirrorD).map (·.2) := by
    intro l; simp [mirrorD, ← List.map_reverse]
  have hHm : H.reverse.map mirrorD = H := by
    rcases hH with rfl | ⟨s, rfl⟩
    · rfl
    · simp [mirrorD, fl_half]
  set Q := Z ++ M ++ H ++ (H ++ M.reverse.map mirrorD ++ Z.reverse.map mirrorD) with hQ
  have w1 : t.wa ++ t.wa.reverse.map (fun a => fl (360 - a)) = Q.map (·.1) := by
    rw [e1, mir, hQ, ← List.map_append]
    simp [hHm]
  have w2 : t.bsps ++ t.bsps.reverse = Q.map (·.2) := by
    rw [e2, mir2, hQ, ← List.map_append]
    simp [hHm]
  simp only [symmetrize]
  rw [w1, w2]
  -- the first deletion
  have d1 : (if (180 : ℚ) ∈ t.wa then ((Q.map (·.1)).eraseIdx ((Q.map (·.1)).idxOf 180),
      (Q.map (·.2)).eraseIdx ((Q.map (·.1)).idxOf 180)) else (Q.map (·.1), Q.map (·.2))) =
      ((Z ++ M ++ H ++ M.reverse.map mirrorD ++ Z.reverse.map mirrorD).map (·.1),
       (Z ++ M ++ H ++ M.reverse.map mirrorD ++ Z.reverse.map mirrorD).map (·.2)) := by
    by_cases hH0 : H = []
    · rw [if_neg (by rw [m180]; exact not_not.2 hH0), hQ]
      simp [hH0]
    · rw [if_pos (m180.2 hH0)]
      obtain ⟨s, hs⟩ := hH.resolve_left hH0
      have idx : (Q.map (·.1)).idxOf 180 = (Z ++ M).length := by
        rw [hQ, hs]
        simp only [List.append_assoc, List.map_append]
        rw [← List.append_assoc, List.idxOf_append_of_notMem (by
          rw [List.mem_append]; exact not_or.2 ⟨hZ180, hM180⟩)]
        simp
      rw [idx, hQ]
      simp only [List.eraseIdx_map, List.append_assoc]
      rw [← List.append_assoc Z M, List.eraseIdx_append_of_length_le (le_refl _), Nat.sub_self, hs]
      simp
  rw [d1]
  by_cases hZ0 : Z = []
  · rw [if_neg (by rw [m0]; exact not_not.2 hZ0)]
    simp [hZ0]
  · rw [if_pos (m0.2 hZ0)]
    obtain ⟨r, hr⟩ := hZ.resolve_left hZ0
    simp only [← List.map_dropLast]
    have : (Z ++ M ++ H ++ M.reverse.map mirrorD ++ Z.reverse.map mirrorD).dropLast =
        Z ++ M ++ H ++ M.reverse.map mirrorD := by
      rw [hr, List.reverse_singleton, List.map_singleton, List.dropLast_concat]
    rw [this]

/-- The angles are not extremely close to each other, to 0 and to 180. -/
structure Spread (l : List ℚ) : Prop where
  gaps : l.Pairwise fun a b => a + 1 / 2 ^ 43 ≤ b
  zero : ∀ a ∈ l, a = 0 ∨ 1 / 2 ^ 43 ≤ a
  half : ∀ a ∈ l, a = 180 ∨ a ≤ 180 - 1 / 2 ^ 43

/-- **C150** (partial: no two wind angles closer than `2^-43` degrees, see `C150_close_false`). Also if the mirrored angles are
rounded, the symmetrised table has the same wind speeds, exactly the old angles and their mirror images as wind angles, the
same boat speeds at the old angles, and at each mirrored angle, computed as `360 - a`, the boat speeds of the angle `a`. -/
theorem C150_mirror_partial {t : Table ℚ} (h : WF t) (h180 : ∀ a ∈ t.wa, a ≤ 180) (hsp : Spread t.wa) :
    ∃ t', symmetrize t = .ok t' ∧ WF t' ∧ t'.ws = t.ws ∧
      (∀ b, b ∈ t'.wa ↔ b ∈ t.wa ∨ ∃ a ∈ t.wa, b = pmod (fl (360 - a)) 360) ∧
      ∀ w ∈ t.ws, ∀ a ∈ t.wa, ∃ x, get t w a = .ok x ∧ get t' w a = .ok x ∧ get t' w (fl (360 - a)) = .ok x := by
  have hfst : (t.wa.zip t.bsps).map (·.1) = t.wa := List.map_fst_zip (by rw [h.rows])
  obtain ⟨Z, M, H, hP, hZ, hH, hM⟩ := decomp (P := t.wa.zip t.bsps) (by rw [hfst]; exact h.wa_sorted)
    (fun p hp => by
      have : p.1 ∈ t.wa := (List.of_mem_zip hp).1
      exact ⟨h.wa_nonneg _ this, h180 _ this⟩)
  have hpos : (0 : ℚ) < 360 := by norm_num
  rw [symmetrizeD_eq hP h.rows hZ hH hM]
  set F := Z ++ M ++ H ++ M.reverse.map mirrorD with hF
  have hFP : F = t.wa.zip t.bsps ++ M.reverse.map mirrorD := by rw [hF, hP]
  have hMr : ∀ q ∈ M, 180 < fl (360 - q.1) ∧ fl (360 - q.1) < 360 := by
    intro q hq
    have hb := hM q hq
    have hq' : q.1 ∈ t.wa := (List.of_mem_zip (a := q.1) (b := q.2) (by rw [hP]; simp [hq])).1
    have h0 := (hsp.zero _ hq').resolve_left hb.1.ne'
    have h1 := (hsp.half _ hq').resolve_left hb.2.ne
    have f1 := fl_strict (x := 180) (y := 360 - q.1) le_rfl (by linarith) (by linarith)
    have f2 := fl_strict (x := 360 - q.1) (y := 360) (by linarith) le_rfl (by linarith)
    rw [fl_180] at f1
    rw [fl_360] at f2
    exact ⟨f1, f2⟩
  have hmir : ∀ p ∈ M.reverse.map mirrorD, 180 < p.1 ∧ p.1 < 360 := by
    intro p hp
    obtain ⟨q, hq, rfl⟩ := List.mem_map.1 hp
    exact hMr q (List.mem_reverse.1 hq)
  have hrange : ∀ p ∈ F, 0 ≤ p.1 ∧ p.1 < 360 := by
    intro p hp
    rw [hFP] at hp
    rcases List.mem_append.1 hp with hp | hp
    · have : p.1 ∈ t.wa := (List.of_mem_zip hp).1
      exact ⟨h.wa_nonneg _ this, h.wa_lt _ this⟩
    · have := hmir p hp
      exact ⟨by linarith [this.1], this.2⟩
  have hmodF : (F.map (·.1)).map (fun a => pmod a 360) = F.map (·.1) := by
    rw [List.map_map]
    apply List.map_congr_left
    intro p hp
    exact pmod_of_mem (hrange p hp).1 (hrange p hp).2
  have hMs : (M.map (·.1)).Pairwise (fun a b => a + 1 / 2 ^ 43 ≤ b) := by
    have := hsp.gaps
    rw [← hfst, hP, List.map_append, List.map_append] at this
    exact (List.pairwise_append.1 (List.pairwise_append.1 this).1).2.1
  have hsorted : (F.map (·.1)).Pairwise (· < ·) := by
    rw [hFP, List.map_append, hfst, List.pairwise_append]
    refine ⟨h.wa_sorted, ?_, ?_⟩
    · rw [List.pairwise_map, List.pairwise_map, List.pairwise_reverse]
      rw [List.pairwise_map] at hMs
      refine hMs.imp_of_mem ?_
      intro p q hp hq hpq
      replace hpq : (360 - q.1) + 1 / 2 ^ 43 ≤ 360 - p.1 ∧ (0 < p.1 ∧ p.1 < 180) ∧ (0 < q.1 ∧ q.1 < 180) :=
        ⟨by linarith, hM p hp, hM q hq⟩
      simp only [mirrorD]
      refine fl_strict ?_ ?_ hpq.1
      · linarith [hpq.2.2.2]
      · linarith [hpq.2.1.1]
    · intro a ha b hb
      obtain ⟨p, hp, rfl⟩ := List.mem_map.1 hb
      exact lt_of_le_of_lt (h180 a ha) (hmir p hp).1
  obtain ⟨t', h1, h2, h3, h4, h5⟩ := Table.init_spec (ws := t.ws) (wa := F.map (·.1)) (bsps := F.map (·.2)) h.ws_ne
    (by
      rw [hFP, List.map_append, hfst]
      intro hnil
      exact h.wa_ne (List.append_eq_nil_iff.1 hnil).1)
    h.ws_nonneg (h.ws_sorted.imp fun h => ne_of_lt h)
    (by rw [hmodF]; exact hsorted.imp fun h => ne_of_lt h) (by simp)
    (by
      intro r hr
      obtain ⟨p, hp, rfl⟩ := List.mem_map.1 hr
      have key : ∀ q ∈ t.wa.zip t.bsps, q.2.length = t.ws.length := fun q hq => h.cols _ (List.of_mem_zip hq).2
      rw [hFP] at hp
      rcases List.mem_append.1 hp with hp | hp
      · exact key p hp
      · obtain ⟨q, hq, rfl⟩ := List.mem_map.1 hp
        exact key q (by rw [hP]; simp [List.mem_reverse.1 hq]))
  rw [hmodF] at h4
  have hget : ∀ p ∈ F, ∀ (j : Nat) (w x : ℚ), t.ws[j]? = some w → p.2[j]? = some x → get t' w p.1 = .ok x := by
    intro p hp j w x hw hx
    obtain ⟨i, hi, hip⟩ := List.getElem_of_mem hp
    have : F[i]? = some p := by rw [List.getElem?_eq_getElem hi, hip]
    exact h5 i j p.1 w x p.2 (by simp [this]) hw (by simp [this]) hx
  refine ⟨t', h1, h2, ?_, ?_, ?_⟩
  · exact h3.eq_of_pairwise' (r := (· < ·)) h2.ws_sorted h.ws_sorted
  · intro b
    rw [h4.mem_iff, hFP, List.map_append, hfst, List.mem_append]
    constructor
    · rintro (hb | hb)
      · exact Or.inl hb
      · obtain ⟨p, hp, rfl⟩ := List.mem_map.1 hb
        obtain ⟨q, hq, rfl⟩ := List.mem_map.1 hp
        have hq' := List.mem_reverse.1 hq
        refine Or.inr ⟨q.1, (List.of_mem_zip (a := q.1) (b := q.2) (by rw [hP]; simp [hq'])).1, ?_⟩
        have := hMr q hq'
        rw [pmod_of_mem (by linarith [this.1]) this.2]
        rfl
    · rintro (hb | ⟨a, ha, rfl⟩)
      · exact Or.inl hb
      · obtain ⟨p, hp, rfl⟩ : ∃ p ∈ t.wa.zip t.bsps, p.1 = a := by rw [← hfst] at ha; simpa using List.mem_map.1 ha
        have hp' := hp
        rw [hP, List.mem_append, List.mem_append] at hp
        rcases hp with (hp | hp) | hp
        · left
          have : p.1 = 0 := by
            rcases hZ with rfl | ⟨r, rfl⟩
            · simp at hp
            · rw [List.mem_singleton.1 hp]
          rw [this, sub_zero, fl_360, pmod_self hpos, ← this]
          exact (List.of_mem_zip (a := p.1) (b := p.2) hp').1
        · right
          have := hMr p hp
          rw [pmod_of_mem (by linarith [this.1]) this.2]
          exact List.mem_map.2 ⟨mirrorD p, List.mem_map_of_mem (List.mem_reverse.2 hp), rfl⟩
        · left
          have : p.1 = 180 := by
            rcases hH with rfl | ⟨r, rfl⟩
            · simp at hp
            · rw [List.mem_singleton.1 hp]
          rw [this, fl_half, pmod_of_mem (by norm_num) (by norm_num), ← this]
          exact (List.of_mem_zip (a := p.1) (b := p.2) hp').1
  · intro w hw a ha
    obtain ⟨j, hj, rfl⟩ := List.getElem_of_mem hw
    obtain ⟨i, hi, rfl⟩ := List.getElem_of_mem ha
    have hi' : i < t.bsps.length := by rw [h.rows]; exact hi
    have hj' : j < t.bsps[i].length := by rw [h.cols _ (List.getElem_mem _)]; exact hj
    have hai : 0 ≤ t.wa[i] ∧ t.wa[i] < 360 := ⟨h.wa_nonneg _ (List.getElem_mem _), h.wa_lt _ (List.getElem_mem _)⟩
    have hmem : (t.wa[i], t.bsps[i]) ∈ t.wa.zip t.bsps :=
      List.mem_of_getElem? (i := i) (by
        rw [List.getElem?_zip_eq_some]; exact ⟨List.getElem?_eq_getElem hi, List.getElem?_eq_getElem hi'⟩)
    have hmemF : (t.wa[i], t.bsps[i]) ∈ F := by rw [hFP]; exact List.mem_append_left _ hmem
    have ha1 := hget _ hmemF j t.ws[j] _ (List.getElem?_eq_getElem hj) (List.getElem?_eq_getElem hj')
    refine ⟨t.bsps[i][j], ?_, ha1, ?_⟩
    · exact get_entry h (i := i) (j := j) (List.getElem?_eq_getElem hj)
        (by rw [pmod_of_mem hai.1 hai.2]; exact List.getElem?_eq_getElem hi) (List.getElem?_eq_getElem hi')
        (List.getElem?_eq_getElem hj')
    · rw [hP, List.mem_append, List.mem_append] at hmem
      rcases hmem with (hp | hp) | hp
      · have hz : t.wa[i] = 0 := by
          rcases hZ with rfl | ⟨r, rfl⟩
          · simp at hp
          · exact (Prod.mk.inj (List.mem_singleton.1 hp)).1
        rw [hz] at ha1 ⊢
        rw [← ha1]
        simp only [Table.get, waIndices, List.map_cons, List.map_nil, sub_zero, fl_360, pmod_self hpos,
          pmod_of_mem (le_refl (0 : ℚ)) hpos]
      · have hmm : mirrorD (t.wa[i], t.bsps[i]) ∈ F := by
          rw [hFP]
          exact List.mem_append_right _ (List.mem_map_of_mem (List.mem_reverse.2 hp))
        exact hget _ hmm j t.ws[j] _ (List.getElem?_eq_getElem hj) (List.getElem?_eq_getElem hj')
      · have hz : t.wa[i] = 180 := by
          rcases hH with rfl | ⟨r, rfl⟩
          · simp at hp
          · exact (Prod.mk.inj (List.mem_singleton.1 hp)).1
        rw [hz] at ha1 ⊢
        rw [fl_half]
        exact ha1

example : Spread [0, 32 / 10, 90, 180] :=
  ⟨by norm_num [List.pairwise_cons], by intro a ha; fin_cases ha <;> norm_num, by intro a ha; fin_cases ha <;> norm_num⟩

example : WF (⟨[6, 8], [0, 32, 180], [[1, 2], [3, 4], [5, 6]]⟩ : Table ℚ) ∧
    symmetrize ⟨[6, 8], [0, 32, 180], [[1, 2], [3, 4], [5, 6]]⟩ =
      .ok ⟨[6, 8], [0, 32, 180, 328], [[1, 2], [3, 4], [5, 6], [3, 4]]⟩ :=
  ⟨⟨by decide +kernel, by decide +kernel, by decide +kernel, by decide +kernel, by decide +kernel, rfl, by decide +kernel,
    by simp, by simp⟩, by decide +kernel⟩

/-- For every wind angle from 0 to 180 with one decimal, the angle computed as `360 - a` is the double that is closest to the
decimal number `360 - a`. (All 1801 cases are checked.) -/
theorem tenth_mirror : ∀ m : Fin 1801, fl (360 - fl ((m : ℚ) / 10)) = fl (((3600 - m : ℕ) : ℚ) / 10) := by
  decide +kernel

/-- **C150.** In a symmetrised table whose wind angles have at most one decimal, the mirror image of each wind angle is found
under the decimal number `360 - a`, and the same boat speeds are stored there. -/
theorem C150_tenths_partial {t : Table ℚ} (h : WF t) (ht : ∀ a ∈ t.wa, ∃ m : ℕ, m ≤ 1800 ∧ a = fl ((m : ℚ) / 10)) :
    ∃ t', symmetrize t = .ok t' ∧ WF t' ∧ t'.ws = t.ws ∧
      ∀ w ∈ t.ws, ∀ m : ℕ, m ≤ 1800 → fl ((m : ℚ) / 10) ∈ t.wa → ∃ x, get t w (fl ((m : ℚ) / 10)) = .ok x ∧
        get t' w (fl ((m : ℚ) / 10)) = .ok x ∧ get t' w (fl (((3600 - m : ℕ) : ℚ) / 10)) = .ok x := by
  have hup : ∀ m : ℕ, m ≤ 1800 → |fl ((m : ℚ) / 10) - (m : ℚ) / 10| ≤ 180 * (1 / 2 ^ 53) := by
    intro m hm
    have e := fl_error ((m : ℚ) / 10)
    have hm' : (m : ℚ) ≤ 1800 := by exact_mod_cast hm
    have h0 : (0 : ℚ) ≤ (m : ℚ) := Nat.cast_nonneg m
    rw [abs_of_nonneg (a := (m : ℚ) / 10) (by positivity), show (2 : ℚ) ^ (-53 : ℤ) = 1 / 2 ^ 53 by norm_num] at e
    refine e.trans ?_
    norm_num
    linarith
  have hstep : ∀ m n : ℕ, m ≤ 1800 → n ≤ 1800 → m < n → fl ((m : ℚ) / 10) + 1 / 2 ^ 43 ≤ fl ((n : ℚ) / 10) := by
    intro m n hm hn hmn
    have e1 := (abs_le.1 (hup m hm)).2
    have e2 := (abs_le.1 (hup n hn)).1
    have : (m : ℚ) + 1 ≤ n := by exact_mod_cast hmn
    norm_num at e1 e2 ⊢
    linarith
  have f0 : fl (((0 : ℕ) : ℚ) / 10) = 0 := by decide +kernel
  have f180 : fl (((1800 : ℕ) : ℚ) / 10) = 180 := by decide +kernel
  have hsp : Spread t.wa := by
    refine ⟨?_, ?_, ?_⟩
    · refine h.wa_sorted.imp_of_mem ?_
      intro a b ha hb hab
      obtain ⟨m, hm, rfl⟩ := ht a ha
      obtain ⟨n, hn, rfl⟩ := ht b hb
      refine hstep m n hm hn ?_
      by_contra hc
      rcases (not_lt.1 hc).eq_or_lt with e | e
      · rw [e] at hab; exact lt_irrefl _ hab
      · have := hstep n m hn hm e
        have hp : (0 : ℚ) < 1 / 2 ^ 43 := by positivity
        linarith
    · intro a ha
      obtain ⟨m, hm, rfl⟩ := ht a ha
      rcases Nat.eq_zero_or_pos m with rfl | hpos
      · exact Or.inl f0
      · right
        have := hstep 0 m (by norm_num) hm hpos
        rwa [f0, zero_add] at this
    · intro a ha
      obtain ⟨m, hm, rfl⟩ := ht a ha
      rcases hm.eq_or_lt with rfl | hlt
      · exact Or.inl f180
      · right
        have := hstep m 1800 hm le_rfl hlt
        rw [f180] at this
        linarith
  have h180 : ∀ a ∈ t.wa, a ≤ 180 := by
    intro a ha
    rcases hsp.half a ha with e | e
    · exact e.le
    · have hp : (0 : ℚ) < 1 / 2 ^ 43 := by positivity
      linarith
  obtain ⟨t', h1, h2, h3, -, h5⟩ := C150_mirror_partial h h180 hsp
  refine ⟨t', h1, h2, h3, ?_⟩
  intro w hw m hm ha
  obtain ⟨x, g1, g2, g3⟩ := h5 w hw _ ha
  have e := tenth_mirror ⟨m, by omega⟩
  simp only at e
  rw [e] at g3
  exact ⟨x, g1, g2, g3⟩

example : (∀ a ∈ [(0 : ℚ), fl (((5 : ℕ) : ℚ) / 10), fl (((321 : ℕ) : ℚ) / 10)], ∃ m : ℕ, m ≤ 1800 ∧ a = fl ((m : ℚ) / 10)) := by
  intro a ha
  fin_cases ha
  · exact ⟨0, by norm_num, by decide +kernel⟩
  · exact ⟨5, by norm_num, rfl⟩
  · exact ⟨321, by norm_num, rfl⟩

/-- **C150 fails** for wind angles with two decimals: the wind angle 32.09 has a mirror image in the symmetrised table, but it
is not the double 327.91, and reading the table there raises `ValueError`. -/
theorem C150_decimal_false :
    ∃ t' : Table ℚ, symmetrize ⟨[6], [fl (3209 / 100), 90], [[5], [7]]⟩ = .ok t' ∧
      get t' 6 (fl (3209 / 100)) = .ok 5 ∧ get t' 6 (fl (360 - fl (3209 / 100))) = .ok 5 ∧
      get t' 6 (fl (32791 / 100)) = .error .valueError :=
  ⟨⟨[6], [fl (3209 / 100), 90, 270, fl (360 - fl (3209 / 100))], [[5], [7], [7], [5]]⟩, by decide +kernel, by decide +kernel, by decide +kernel, by decide +kernel⟩

/-- **C150 fails** for angles that are extremely close to 0: `360 - a` is rounded to 360, and the boat speeds at the angle 0
and at the mirrored angle are mixed up. -/
theorem C150_close_false :
    symmetrize ⟨[6], [0, 1 / 2 ^ 60, 90], [[0], [5], [7]]⟩ = .ok ⟨[6], [0, 0, 1 / 2 ^ 60, 90, 270], [[0], [5], [5], [7], [7]]⟩ := by
  decide +kernel

end Verif.F64
