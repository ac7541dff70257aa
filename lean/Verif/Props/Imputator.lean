import Verif.Lemmas.Imputator
import Verif.Props.Data
import Mathlib.Algebra.Order.Field.Basic

/-!
# Properties C24 to C26: imputators
-/

namespace Verif.Imputator

/-! ## C25 -/

/-- **C25** (the part "nothing else is changed"). Present time stamps are not changed, and every new time stamp lies
between two consecutive present ones which are at most `maxDiff` apart and is their affine interpolation. -/
theorem C25_nothing_else {l : List (Option Rat)} (hc : Chronological l) (maxDiff : Rat) :
    (interpolateDatetime maxDiff l).length = l.length ∧
    (∀ (j : Nat) (t : Rat), l[j]? = some (some t) → (interpolateDatetime maxDiff l)[j]? = some (some t)) ∧
    (∀ (j : Nat) (v : Rat), l[j]? = some none → (interpolateDatetime maxDiff l)[j]? = some (some v) →
      ∃ a b s t, Gap l a b s t ∧ a < j ∧ j < b ∧ t - s ≤ maxDiff ∧
        (v - s) * ((b : Rat) - a) = ((j : Rat) - a) * (t - s) ∧ s ≤ v ∧ v ≤ t) := by
  obtain ⟨last, h⟩ := interpolateDatetime_inv maxDiff hc
  refine ⟨h.len, h.pres, ?_⟩
  intro j v hj hv
  obtain ⟨a, b, s, t, h1, h2, h3, hg, hL, rfl⟩ := h.new j v hj hv
  have ha : (a : Rat) < j := by exact_mod_cast h1
  have hb : (j : Rat) < b := by exact_mod_cast h2
  have hba : (0 : Rat) < (b : Rat) - a := by linarith
  have hst : s ≤ t := hc a b s t hg.1 hg.2.1 hg.2.2.1
  have hm0 : 0 ≤ ((j : Rat) - a) / ((b : Rat) - a) := div_nonneg (by linarith) hba.le
  have hm1 : ((j : Rat) - a) / ((b : Rat) - a) ≤ 1 := (div_le_one hba).2 (by linarith)
  refine ⟨a, b, s, t, hg, h1, h2, hL a b s t hg le_rfl, ?_, ?_, ?_⟩
  · simp only [affine, add_sub_cancel_left]
    rw [mul_right_comm, div_mul_cancel₀ _ hba.ne']
  · simp only [affine]
    nlinarith
  · simp only [affine]
    nlinarith

/-- **C25** (partial: it is assumed that no pair of consecutive present time stamps up to the pair under
consideration is more than `maxDiff` apart, see `C25_after_gap_false`). The missing time stamps between two
consecutive present ones are interpolated. -/
theorem C25_filled_partial {l : List (Option Rat)} (hc : Chronological l) {maxDiff : Rat} {a b : Nat} {s t : Rat}
    (hg : Gap l a b s t) (hL : Linked l maxDiff b) {j : Nat} (h1 : a < j) (h2 : j < b) :
    (interpolateDatetime maxDiff l)[j]? = some (some (s + ((j : Rat) - a) / ((b : Rat) - a) * (t - s))) := by
  obtain ⟨last, h⟩ := interpolateDatetime_inv maxDiff hc
  exact h.done a b s t hg (List.getElem?_eq_some_iff.1 hg.2.2.1).1 hL j h1 h2

example : interpolateDatetime 120 [some 0, none, none, some 60, none, some 80] =
    [some 0, some 20, some 40, some 60, some 70, some 80] := by decide +kernel

/-- The first two present time stamps of `[0, -, 60, ...]` satisfy the hypotheses. -/
example : Chronological [some 0, none, some 60] ∧ Gap [some 0, none, some 60] 0 2 0 60 ∧
    Linked [some 0, none, some 60] 120 2 := by
  refine ⟨?_, ⟨by omega, rfl, rfl, ?_⟩, ?_⟩
  · intro i j s t hij hi hj
    have h3 : j < 3 := (List.getElem?_eq_some_iff.1 hj).1
    have : j = 1 ∨ j = 2 := by omega
    rcases this with rfl | rfl
    · simp at hj
    · simp only [List.getElem?_cons_succ, List.getElem?_cons_zero, Option.some.injEq] at hj
      have : i = 0 ∨ i = 1 := by omega
      rcases this with rfl | rfl
      · simp only [List.getElem?_cons_zero, Option.some.injEq] at hi
        subst hi hj; decide +kernel
      · simp at hi
  · intro m h1 h2
    have : m = 1 := by omega
    subst this; rfl
  · intro a b s t hg _
    have h1 := List.mem_of_getElem? hg.2.1
    have h2 := List.mem_of_getElem? hg.2.2.1
    simp only [List.mem_cons, Option.some.injEq, reduceCtorEq, false_or, List.not_mem_nil, or_false] at h1 h2
    rcases h1 with rfl | rfl <;> rcases h2 with rfl | rfl <;> decide +kernel

/-- **C25** refuted: after one pair of consecutive time stamps that are more than `maxDiff` apart no later missing
time stamp is filled, however close its neighbours are. -/
theorem C25_after_gap_false {l : List (Option Rat)} (hc : Chronological l) {maxDiff : Rat} {a b : Nat} {s t : Rat}
    (hg : Gap l a b s t) (hbig : maxDiff < t - s) {j : Nat} (hj : b < j) (hn : l[j]? = some none) :
    (interpolateDatetime maxDiff l)[j]? = some none := by
  obtain ⟨last, h⟩ := interpolateDatetime_inv maxDiff hc
  have hlen : j < (interpolateDatetime maxDiff l).length := by
    rw [h.len]; exact (List.getElem?_eq_some_iff.1 hn).1
  cases ho : (interpolateDatetime maxDiff l)[j]? with
  | none => rw [List.getElem?_eq_none_iff] at ho; omega
  | some o =>
    cases o with
    | none => rfl
    | some v =>
      obtain ⟨a', b', s', t', h1, h2, h3, hg', hL, -⟩ := h.new j v hn ho
      have := hL a b s t hg (by omega)
      linarith

/-- One large gap, then two time stamps ten seconds apart: the one between them is not filled. -/
example : interpolateDatetime 120 [some 0, some 1000, none, some 1010] = [some 0, some 1000, none, some 1010] := by
  decide +kernel

/-! ## C24 -/

section

variable {κ V : Type} [DecidableEq κ]

/-- A column with at least one value. -/
def HasValue (c : List (Option V)) : Prop := ∃ v, some v ∈ c

/-- The table is rectangular and has no repeated column. -/
def IsTable (T : Tab κ V) : Prop :=
  (Dict.keys T.cols).Nodup ∧ ∀ p ∈ T.cols, p.2.length = T.times.length

omit [DecidableEq κ] in
theorem hasValue_iff (c : List (Option V)) : (! c.all Option.isNone) = true ↔ HasValue c := by
  simp only [Bool.not_eq_true', List.all_eq_false, HasValue]
  constructor
  · rintro ⟨x, hx, h⟩
    cases x with
    | none => simp at h
    | some v => exact ⟨v, hx⟩
  · rintro ⟨v, hv⟩
    exact ⟨some v, hv, by simp⟩

omit [DecidableEq κ] in
/-- The result of `impute` in terms of the rows that are kept. -/
theorem impute_eq {f : Fills κ V} {maxDiff : Rat} {T : Tab κ V} (hT : IsTable T) (hc : Chronological T.times)
    {R : Result κ V} {st : Stats} (h : impute f maxDiff T = .ok (R, st)) :
    ∃ (K1 K2 : List Nat) (times : List Rat),
      K1 = kept1 (interpolateDatetime maxDiff T.times) ∧ times.length = K1.length ∧
      (∀ (j i : Nat) (t : Rat), K1[j]? = some i → (interpolateDatetime maxDiff T.times)[i]? = some (some t) → times[j]? = some t) ∧
      K2 = (List.range K1.length).filter (fun i => ! decide (i ∈ incomplete K1.length
        ((T.cols.filter fun p => ! p.2.all Option.isNone).map fun p =>
          (p.1, (fillCol f maxDiff times p.1 (pick K1 p.2)).1)))) ∧
      R.times = pick K2 times ∧
      R.cols = (T.cols.filter fun p => ! p.2.all Option.isNone).map (fun p =>
        (p.1, pick K2 (fillCol f maxDiff times p.1 (pick K1 p.2)).1)) ∧
      st.removedRows + st.nRows = T.times.length ∧ st.removedCols + st.nCols = T.cols.length + 1 ∧
      st.nRows = R.times.length := by
  obtain ⟨last, hI⟩ := interpolateDatetime_inv maxDiff hc
  by_cases hall : T.times.all Option.isNone = true
  · simp [impute, hall] at h
  simp only [impute, hall, if_false, Except.ok.injEq, Prod.mk.injEq, Bool.false_eq_true] at h
  obtain ⟨hR, hst⟩ := h
  set times1 := interpolateDatetime maxDiff T.times with ht1
  have hlen1 : times1.length = T.times.length := hI.len
  have hdrop : ∀ {α : Type} (c : List α), c.length = times1.length →
      Data.dropIdx ((indicesFrom Option.isNone 0 times1).map Int.ofNat) 0 c = pick (kept1 times1) c := by
    intro α c hcl
    rw [dropIdx_eq_pick, hcl]; rfl
  set times := (pick (kept1 times1) times1).filterMap id with htimes
  obtain ⟨hp1, hp2⟩ := pick_times (times1 := times1) (ks := kept1 times1) fun i hi => mem_kept1.1 hi
  have htimes' : (Data.dropIdx ((indicesFrom Option.isNone 0 times1).map Int.ofNat) 0 times1).filterMap id = times := by
    rw [hdrop times1 rfl]
  have hcols' : Dict.mapVals (Data.dropIdx ((indicesFrom Option.isNone 0 times1).map Int.ofNat) 0)
      (Dict.filterItems (fun _ v => ! v.all Option.isNone) T.cols) =
      (T.cols.filter fun p => ! p.2.all Option.isNone).map fun p => (p.1, pick (kept1 times1) p.2) := by
    simp only [Dict.mapVals, Dict.filterItems]
    apply List.map_congr_left
    intro p hp
    rw [hdrop p.2 (by rw [hT.2 p (List.mem_filter.1 hp).1, hlen1])]
  rw [htimes', hcols'] at hR hst
  simp only [List.map_map, Function.comp_def] at hR hst
  have hklt : ∀ p ∈ T.cols, ∀ k ∈ kept1 times1, k < p.2.length := by
    intro p hp k hk
    rw [hT.2 p hp, ← hlen1]
    exact kept1_lt hk
  have hflen : ∀ p ∈ T.cols, (fillCol f maxDiff times p.1 (pick (kept1 times1) p.2)).1.length = (kept1 times1).length := by
    intro p hp
    rw [fillCol_length, pick_length (hklt p hp)]
  have hreml : (indicesFrom Option.isNone 0 times1).length + (kept1 times1).length = T.times.length := by
    rw [← hlen1]
    refine length_filter_not_mem nodup_indicesFrom fun i hi => ?_
    obtain ⟨x, hx, -⟩ := mem_indices.1 hi
    exact (List.getElem?_eq_some_iff.1 hx).1
  set C := (T.cols.filter fun p => ! p.2.all Option.isNone).map fun p =>
    (p.1, (fillCol f maxDiff times p.1 (pick (kept1 times1) p.2)).1) with hC
  have hreml2 : (incomplete times.length C).length +
      ((List.range times.length).filter fun i => ! decide (i ∈ incomplete times.length C)).length = times.length :=
    length_filter_not_mem (List.nodup_range.filter _) fun i hi => by
      simpa using (List.mem_filter.1 hi).1
  have hRt : R.times = pick ((List.range times.length).filter fun i => ! decide (i ∈ incomplete times.length C)) times := by
    rw [← hR]; exact dropIdx_eq_pick _ _
  have hRl : R.times.length =
      ((List.range times.length).filter fun i => ! decide (i ∈ incomplete times.length C)).length := by
    rw [hRt]
    exact pick_length fun k hk => by simpa using (List.mem_filter.1 hk).1
  have hcl : R.cols.length = C.length := by rw [← hR]; simp [Dict.mapVals]
  refine ⟨kept1 times1, _, times, rfl, hp1, hp2, rfl, ?_, ?_, ?_, ?_, ?_⟩
  · rw [hRt, hp1]
  · rw [← hR]
    simp only [Dict.mapVals, hC, List.map_map]
    apply List.map_congr_left
    intro p hp
    simp only [Function.comp]
    rw [dropIdx_eq_pick, hflen p (List.mem_filter.1 hp).1, ← hC, hp1]
  · rw [← hst]
    have e : (Data.dropIdx ((incomplete times.length C).map Int.ofNat) 0 times).length =
        ((List.range times.length).filter fun i => ! decide (i ∈ incomplete times.length C)).length := by
      rw [← hRl, ← hR]
    have hp1' : times.length = (kept1 times1).length := hp1
    simp only [e]
    push_cast
    omega
  · rw [← hst]
    simp only
    ring
  · rw [← hst, ← hR]

/-- **C24.** Let the input be a rectangular table with chronologically ordered time stamps. If `impute` returns,
there are increasing row numbers `idx` such that row `j` of the result stems from row `idx[j]` of the input: time
stamps and values which are present in the input row are unchanged. The result has exactly the columns with at
least one value, and all of its entries are values (not `None`). -/
theorem C24_impute {f : Fills κ V} {maxDiff : Rat} {T : Tab κ V} (hT : IsTable T) (hc : Chronological T.times)
    {R : Result κ V} {st : Stats} (h : impute f maxDiff T = .ok (R, st)) :
    ∃ idx : List Nat, idx.Pairwise (· < ·) ∧ (∀ i ∈ idx, i < T.times.length) ∧ R.times.length = idx.length ∧
      (∀ (j i : Nat) (t : Rat), idx[j]? = some i → T.times[i]? = some (some t) → R.times[j]? = some t) ∧
      (∀ key, key ∈ Dict.keys R.cols ↔ ∃ c, (key, c) ∈ T.cols ∧ HasValue c) ∧
      (∀ key c c', (key, c) ∈ T.cols → (key, c') ∈ R.cols → c'.length = idx.length ∧
        ∀ (j i : Nat), idx[j]? = some i → ∃ v, c'[j]? = some (some v) ∧ ∀ w, c[i]? = some (some w) → v = w) ∧
      (∀ i, (∃ t, T.times[i]? = some (some t)) →
        (∀ key c, (key, c) ∈ T.cols → HasValue c → ∃ v, c[i]? = some (some v)) → i ∈ idx) := by
  obtain ⟨K1, K2, times, hK1, hlen, htimes, hK2, hRt, hRc, -⟩ := impute_eq hT hc h
  obtain ⟨last, hI⟩ := interpolateDatetime_inv maxDiff hc
  have hk1lt : ∀ k ∈ K1, k < T.times.length := by
    intro k hk
    rw [hK1] at hk
    rw [← hI.len]; exact kept1_lt hk
  have hk2lt : ∀ k ∈ K2, k < K1.length := by
    intro k hk
    rw [hK2] at hk
    simpa using (List.mem_filter.1 hk).1
  have hgetK : ∀ {α : Type} (l : List α), l.length = K1.length → ∀ j, (pick K2 l)[j]? = K2[j]?.bind (l[·]?) :=
    fun l hl j => pick_get (fun k hk => by rw [hl]; exact hk2lt k hk) j
  have hidxlen : (pick K2 K1).length = K2.length := pick_length hk2lt
  have hidx : ∀ (j i : Nat), (pick K2 K1)[j]? = some i → ∃ k, K2[j]? = some k ∧ K1[k]? = some i := by
    intro j i hj
    rw [hgetK K1 rfl] at hj
    cases hk : K2[j]? with
    | none => simp [hk] at hj
    | some k => exact ⟨k, rfl, by simpa [hk] using hj⟩
  have hsorted1 : K1.Pairwise (· < ·) := by
    rw [hK1]; exact List.pairwise_lt_range.filter _
  have hsorted2 : K2.Pairwise (· < ·) := by
    rw [hK2]; exact List.pairwise_lt_range.filter _
  have hfl : ∀ p ∈ T.cols, (fillCol f maxDiff times p.1 (pick K1 p.2)).1.length = K1.length := by
    intro p hp
    rw [fillCol_length, pick_length (fun k hk => by rw [hT.2 p hp]; exact hk1lt k hk)]
  -- the value of a filled column at a kept row
  have hfill : ∀ p ∈ T.cols, ∀ k i : Nat, K1[k]? = some i →
      ∃ o, (fillCol f maxDiff times p.1 (pick K1 p.2)).1[k]? = some o ∧
        ∀ w, p.2[i]? = some (some w) → o = some w := by
    intro p hp k i hk
    have hkl : k < (pick K1 p.2).length := by
      rw [pick_length (fun k hk => by rw [hT.2 p hp]; exact hk1lt k hk)]
      exact (List.getElem?_eq_some_iff.1 hk).1
    refine ⟨_, fillCol_get f maxDiff times p.1 _ hkl, fun w hw => ?_⟩
    apply filledEntry_present
    rw [pick_get (fun k hk => by rw [hT.2 p hp]; exact hk1lt k hk), hk]
    simpa using hw
  have hinc : ∀ k, k ∈ K2 ↔ k < K1.length ∧ ∀ p ∈ T.cols, HasValue p.2 →
      ∃ v, (fillCol f maxDiff times p.1 (pick K1 p.2)).1[k]? = some (some v) := by
    intro k
    rw [hK2]
    simp only [List.mem_filter, List.mem_range, Bool.not_eq_true', decide_eq_false_iff_not, incomplete]
    constructor
    · rintro ⟨h1, h2⟩
      refine ⟨h1, fun p hp hv => ?_⟩
      obtain ⟨o, ho⟩ : ∃ o, (fillCol f maxDiff times p.1 (pick K1 p.2)).1[k]? = some o :=
        ⟨_, List.getElem?_eq_getElem (by rw [hfl p hp]; exact h1)⟩
      cases o with
      | some v => exact ⟨v, ho⟩
      | none =>
        exfalso
        apply h2
        refine ⟨h1, ?_⟩
        rw [List.any_eq_true]
        refine ⟨(p.1, (fillCol f maxDiff times p.1 (pick K1 p.2)).1), ?_, ?_⟩
        · exact List.mem_map.2 ⟨p, List.mem_filter.2 ⟨hp, (hasValue_iff _).2 hv⟩, rfl⟩
        · simp [List.getD_eq_getElem?_getD, ho]
    · rintro ⟨h1, h2⟩
      refine ⟨h1, ?_⟩
      rintro ⟨-, h3⟩
      rw [List.any_eq_true] at h3
      obtain ⟨q, hq, hqn⟩ := h3
      obtain ⟨p, hp, rfl⟩ := List.mem_map.1 hq
      rw [List.mem_filter] at hp
      obtain ⟨v, hv⟩ := h2 p hp.1 ((hasValue_iff _).1 hp.2)
      simp [List.getD_eq_getElem?_getD, hv] at hqn
  refine ⟨pick K2 K1, ?_, ?_, ?_, ?_, ?_, ?_, ?_⟩
  · -- increasing
    rw [List.pairwise_iff_getElem] at hsorted1 hsorted2 ⊢
    intro i j hi hj hij
    obtain ⟨k, hk, hk'⟩ := hidx i _ (List.getElem?_eq_getElem hi)
    obtain ⟨l, hl, hl'⟩ := hidx j _ (List.getElem?_eq_getElem hj)
    obtain ⟨hkb, hk⟩ := List.getElem?_eq_some_iff.1 hk
    obtain ⟨hlb, hl⟩ := List.getElem?_eq_some_iff.1 hl
    obtain ⟨hkb', hk'⟩ := List.getElem?_eq_some_iff.1 hk'
    obtain ⟨hlb', hl'⟩ := List.getElem?_eq_some_iff.1 hl'
    rw [← hk', ← hl']
    apply hsorted1
    rw [← hk, ← hl]
    exact hsorted2 i j hkb hlb hij
  · intro i hi
    obtain ⟨j, hj⟩ := List.mem_iff_getElem?.1 hi
    obtain ⟨k, -, hk⟩ := hidx j i hj
    exact hk1lt i (List.mem_of_getElem? hk)
  · rw [hRt, pick_length (fun k hk => by rw [hlen]; exact hk2lt k hk), hidxlen]
  · intro j i t hj ht
    obtain ⟨k, hk, hk'⟩ := hidx j i hj
    rw [hRt, hgetK times hlen, hk]
    exact htimes k i t hk' (hI.pres i t ht)
  · intro key
    rw [hRc]
    simp only [Dict.keys, List.map_map, List.mem_map, List.mem_filter, Function.comp, hasValue_iff]
    constructor
    · rintro ⟨⟨k, c⟩, ⟨h1, h2⟩, rfl⟩; exact ⟨c, h1, h2⟩
    · rintro ⟨c, h1, h2⟩; exact ⟨(key, c), ⟨h1, h2⟩, rfl⟩
  · intro key c c' hcm hcm'
    rw [hRc] at hcm'
    obtain ⟨⟨k0, c0⟩, hp, hpe⟩ := List.mem_map.1 hcm'
    rw [List.mem_filter] at hp
    simp only [Prod.mk.injEq] at hpe
    obtain ⟨rfl, rfl⟩ := hpe
    have hcc : c = c0 := by
      have := hT.1
      have h1 : (k0, c) = (k0, c0) := List.inj_on_of_nodup_map hT.1 hcm hp.1 rfl
      exact (Prod.ext_iff.1 h1).2
    subst hcc
    refine ⟨?_, ?_⟩
    · rw [pick_length (fun k hk => by rw [hfl _ hp.1]; exact hk2lt k hk), hidxlen]
    · intro j i hj
      obtain ⟨k, hk, hk'⟩ := hidx j i hj
      obtain ⟨v, hv⟩ := ((hinc k).1 (List.mem_of_getElem? hk)).2 _ hp.1 ((hasValue_iff _).1 hp.2)
      refine ⟨v, ?_, ?_⟩
      · rw [hgetK _ (hfl _ hp.1), hk]; simpa using hv
      · intro w hw
        obtain ⟨o, ho, how⟩ := hfill _ hp.1 k i hk'
        rw [hv] at ho
        have := how w hw
        subst this
        simpa using ho
  · rintro i ⟨t, ht⟩ hcomplete
    have h1 : i ∈ K1 := by
      rw [hK1]; exact mem_kept1.2 ⟨t, hI.pres i t ht⟩
    obtain ⟨k, hk⟩ := List.mem_iff_getElem?.1 h1
    have h2 : k ∈ K2 := by
      rw [hinc]
      refine ⟨(List.getElem?_eq_some_iff.1 hk).1, fun p hp hv => ?_⟩
      obtain ⟨o, ho, how⟩ := hfill p hp k i hk
      obtain ⟨v, hv'⟩ := hcomplete p.1 p.2 hp hv
      exact ⟨v, by rw [ho, how v hv']⟩
    obtain ⟨j, hj⟩ := List.mem_iff_getElem?.1 h2
    exact List.mem_of_getElem? (i := j) (by rw [hgetK K1 rfl, hj]; simpa using hk)

omit [DecidableEq κ] in
/-- **C24.** The reported numbers of removed rows and columns account for everything that is missing in the
result. -/
theorem C24_statistics {f : Fills κ V} {maxDiff : Rat} {T : Tab κ V} (hT : IsTable T) (hc : Chronological T.times)
    {R : Result κ V} {st : Stats} (h : impute f maxDiff T = .ok (R, st)) :
    st.removedRows = T.times.length - R.times.length ∧ st.removedCols = T.cols.length + 1 - st.nCols := by
  obtain ⟨K1, K2, times, -, -, -, -, -, -, h1, h2, h3⟩ := impute_eq hT hc h
  constructor <;> omega

/-- Row `j` has a value `v` in column `c` and its time stamp is less than `maxDiff` away from the one of row `i`. -/
def Near (maxDiff : Rat) (ts : List Rat) (c : List (Option V)) (i j : Nat) (v : V) : Prop :=
  c[j]? = some (some v) ∧ ∃ ti tj, ts[i]? = some ti ∧ ts[j]? = some tj ∧ (if j < i then ti - tj else tj - ti) < maxDiff

/-- The value `v` of the closest near row before row `i`. -/
def NearBefore (maxDiff : Rat) (ts : List Rat) (c : List (Option V)) (i : Nat) (v : V) : Prop :=
  ∃ j < i, Near maxDiff ts c i j v ∧ ∀ m w, j < m → m < i → ¬ Near maxDiff ts c i m w

/-- The value `v` of the closest near row after row `i`. -/
def NearAfter (maxDiff : Rat) (ts : List Rat) (c : List (Option V)) (i : Nat) (v : V) : Prop :=
  ∃ j > i, Near maxDiff ts c i j v ∧ ∀ m w, i < m → m < j → ¬ Near maxDiff ts c i m w

/-- The value that the default configuration should put into row `i` of a column: the value which is there,
else the closest near value before, else the closest near value after. -/
def DefaultValue (maxDiff : Rat) (ts : List Rat) (c : List (Option V)) (i : Nat) (v : V) : Prop :=
  c[i]? = some (some v) ∨
  (c[i]? = some none ∧ (NearBefore maxDiff ts c i v ∨
    ((¬ ∃ w, NearBefore maxDiff ts c i w) ∧ NearAfter maxDiff ts c i v)))

omit [DecidableEq κ] in
theorem near_iff {maxDiff : Rat} {ts : List Rat} {c : List (Option V)} (hl : c.length = ts.length) {i j : Nat}
    (hi : i < ts.length) :
    (∃ v, Near maxDiff ts c i j v) ↔ j ∈ indicesFrom Option.isSome 0 c ∧
      (if j < i then ts.getD i 0 - ts.getD j 0 else ts.getD j 0 - ts.getD i 0) < maxDiff := by
  constructor
  · rintro ⟨v, h1, ti, tj, h2, h3, h4⟩
    refine ⟨mem_indices.2 ⟨_, h1, rfl⟩, ?_⟩
    simpa [List.getD_eq_getElem?_getD, h2, h3] using h4
  · rintro ⟨h1, h2⟩
    obtain ⟨x, hx, hs⟩ := mem_indices.1 h1
    obtain ⟨v, rfl⟩ := Option.isSome_iff_exists.1 hs
    have hj : j < ts.length := by rw [← hl]; exact (List.getElem?_eq_some_iff.1 hx).1
    refine ⟨v, hx, ts[i], ts[j], List.getElem?_eq_getElem hi, List.getElem?_eq_getElem hj, ?_⟩
    simpa [List.getD_eq_getElem?_getD, hi, hj] using h2

omit [DecidableEq κ] in
theorem startIdx_some {maxDiff : Rat} {ts : List Rat} {c : List (Option V)} (hl : c.length = ts.length) {i s : Nat}
    (hi : i < ts.length) (h : startIdx maxDiff ts i (indicesFrom Option.isSome 0 c) = some s) :
    ∃ v, c[s]? = some (some v) ∧ NearBefore maxDiff ts c i v := by
  unfold startIdx at h
  have hm := List.max?_mem h
  simp only [List.mem_filter, Bool.and_eq_true, decide_eq_true_eq] at hm
  obtain ⟨v, hv⟩ := (near_iff (maxDiff := maxDiff) hl hi).2 ⟨hm.1, by rw [if_pos hm.2.1]; exact hm.2.2⟩
  refine ⟨v, hv.1, s, hm.2.1, hv, ?_⟩
  intro m w h1 h2 hn
  obtain ⟨h3, h4⟩ := (near_iff hl hi).1 ⟨w, hn⟩
  rw [if_pos h2] at h4
  have := (List.max?_eq_some_iff.1 h).2 m (by simpa [h3, h2] using h4)
  omega

omit [DecidableEq κ] in
theorem startIdx_none {maxDiff : Rat} {ts : List Rat} {c : List (Option V)} (hl : c.length = ts.length) {i : Nat}
    (hi : i < ts.length) (h : startIdx maxDiff ts i (indicesFrom Option.isSome 0 c) = none) :
    ¬ ∃ w, NearBefore maxDiff ts c i w := by
  rintro ⟨w, j, hj, hn, -⟩
  unfold startIdx at h
  rw [List.max?_eq_none_iff, List.filter_eq_nil_iff] at h
  obtain ⟨h3, h4⟩ := (near_iff hl hi).1 ⟨w, hn⟩
  rw [if_pos hj] at h4
  exact h j h3 (by simpa [hj] using h4)

omit [DecidableEq κ] in
theorem endIdx_some {maxDiff : Rat} {ts : List Rat} {c : List (Option V)} (hl : c.length = ts.length) {i s : Nat}
    (hi : i < ts.length) (h : endIdx maxDiff ts i (indicesFrom Option.isSome 0 c) = some s) :
    ∃ v, c[s]? = some (some v) ∧ NearAfter maxDiff ts c i v := by
  unfold endIdx at h
  have hm := List.min?_mem h
  simp only [List.mem_filter, Bool.and_eq_true, decide_eq_true_eq] at hm
  have hns : ¬ s < i := by omega
  obtain ⟨v, hv⟩ := (near_iff (maxDiff := maxDiff) hl hi).2 ⟨hm.1, by rw [if_neg hns]; exact hm.2.2⟩
  refine ⟨v, hv.1, s, hm.2.1, hv, ?_⟩
  intro m w h1 h2 hn
  obtain ⟨h3, h4⟩ := (near_iff hl hi).1 ⟨w, hn⟩
  rw [if_neg (by omega)] at h4
  have := (List.min?_eq_some_iff.1 h).2 m (by simpa [h3, h1] using h4)
  omega

omit [DecidableEq κ] in
theorem endIdx_none {maxDiff : Rat} {ts : List Rat} {c : List (Option V)} (hl : c.length = ts.length) {i : Nat}
    (hi : i < ts.length) (h : endIdx maxDiff ts i (indicesFrom Option.isSome 0 c) = none) :
    ¬ ∃ w, NearAfter maxDiff ts c i w := by
  rintro ⟨w, j, hj, hn, -⟩
  unfold endIdx at h
  rw [List.min?_eq_none_iff, List.filter_eq_nil_iff] at h
  obtain ⟨h3, h4⟩ := (near_iff hl hi).1 ⟨w, hn⟩
  rw [if_neg (by omega)] at h4
  exact h j h3 (by simpa [hj] using h4)

omit [DecidableEq κ] in
theorem NearBefore.unique {maxDiff : Rat} {ts : List Rat} {c : List (Option V)} {i : Nat} {v w : V}
    (hv : NearBefore maxDiff ts c i v) (hw : NearBefore maxDiff ts c i w) : v = w := by
  obtain ⟨j, hj, hn, hc⟩ := hv
  obtain ⟨k, hk, hn', hc'⟩ := hw
  rcases lt_trichotomy j k with h | h | h
  · exact (hc k w h hk hn').elim
  · subst h
    have := hn.1.symm.trans hn'.1
    simpa using this
  · exact (hc' j v h hj hn).elim

omit [DecidableEq κ] in
theorem NearAfter.unique {maxDiff : Rat} {ts : List Rat} {c : List (Option V)} {i : Nat} {v w : V}
    (hv : NearAfter maxDiff ts c i v) (hw : NearAfter maxDiff ts c i w) : v = w := by
  obtain ⟨j, hj, hn, hc⟩ := hv
  obtain ⟨k, hk, hn', hc'⟩ := hw
  rcases lt_trichotomy j k with h | h | h
  · exact (hc' j v hj h hn).elim
  · subst h
    have := hn.1.symm.trans hn'.1
    simpa using this
  · exact (hc k w hk h hn').elim

omit [DecidableEq κ] in
theorem filledEntry_default {maxDiff : Rat} {ts : List Rat} {c : List (Option V)} (hl : c.length = ts.length) {i : Nat}
    (hi : i < ts.length) (key : κ) (v : V) :
    filledEntry (κ := κ) Fills.default maxDiff ts key c i = some v ↔ DefaultValue maxDiff ts c i v := by
  obtain ⟨o, ho⟩ : ∃ o, c[i]? = some o := ⟨_, List.getElem?_eq_getElem (by omega)⟩
  cases o with
  | some w =>
    rw [filledEntry_present _ _ _ _ ho]
    simp [DefaultValue, ho]
  | none =>
    have hni : i ∉ indicesFrom Option.isSome 0 c := by
      rw [mem_indices]
      rintro ⟨x, hx, hs⟩
      rw [ho] at hx
      cases hx
      simp at hs
    simp only [filledEntry, hni, if_false, DefaultValue, ho, Option.some.injEq, reduceCtorEq, false_or, true_and]
    unfold fillEntry
    cases hs : startIdx maxDiff ts i (indicesFrom Option.isSome 0 c) with
    | none =>
      have hnb := startIdx_none hl hi hs
      have hnb' : ¬ NearBefore maxDiff ts c i v := fun h => hnb ⟨v, h⟩
      cases he : endIdx maxDiff ts i (indicesFrom Option.isSome 0 c) with
      | none =>
        have hna : ¬ NearAfter maxDiff ts c i v := fun h => endIdx_none hl hi he ⟨v, h⟩
        simp [hnb', hna]
      | some e =>
        obtain ⟨w, hw, hwa⟩ := endIdx_some hl hi he
        simp only [List.getD_eq_getElem?_getD, hw, Option.getD_some, Option.bind_some, Fills.default,
          Option.some.injEq, hnb', false_or]
        constructor
        · rintro rfl; exact ⟨hnb, hwa⟩
        · rintro ⟨-, h⟩; exact hwa.unique h
    | some s =>
      obtain ⟨w, hw, hwb⟩ := startIdx_some hl hi hs
      have hex : ¬ ((¬ ∃ w, NearBefore maxDiff ts c i w) ∧ NearAfter maxDiff ts c i v) := fun h => h.1 ⟨w, hwb⟩
      have hwv : w = v ↔ NearBefore maxDiff ts c i v :=
        ⟨fun h => h ▸ hwb, fun h => hwb.unique h⟩
      cases he : endIdx maxDiff ts i (indicesFrom Option.isSome 0 c) with
      | none =>
        simp only [List.getD_eq_getElem?_getD, hw, Option.getD_some, Option.bind_some, Fills.default,
          Option.some.injEq, hex, or_false, hwv]
      | some e =>
        obtain ⟨u, hu, -⟩ := endIdx_some hl hi he
        simp only [List.getD_eq_getElem?_getD, hw, hu, Option.getD_some, Option.bind_some, Fills.default, hex,
          or_false]
        split <;> simp [hwv]

theorem pick_range {α : Type} (l : List α) : pick (List.range l.length) l = l := by
  apply List.ext_getElem?
  intro j
  rw [pick_get (by simp)]
  by_cases h : j < l.length
  · simp [h]
  · simp [h, List.getElem?_eq_none (Nat.le_of_not_lt h)]

omit [DecidableEq κ] in
/-- The rows and values of the result for data in which all time stamps are present, given the entries of the filled
columns. -/
theorem impute_rows {f : Fills κ V} {maxDiff : Rat} {ts : List Rat} (hs : ts.Pairwise (· ≤ ·))
    {cols : Dict κ (List (Option V))} (hT : IsTable ⟨ts.map some, cols⟩) {R : Result κ V} {st : Stats}
    (h : impute f maxDiff ⟨ts.map some, cols⟩ = .ok (R, st)) {P : κ → List (Option V) → Nat → V → Prop}
    (hP : ∀ {c : List (Option V)}, c.length = ts.length → ∀ {i : Nat}, i < ts.length → ∀ (key : κ) (v : V),
      filledEntry f maxDiff ts key c i = some v ↔ P key c i v) :
    ∃ idx : List Nat, idx.Pairwise (· < ·) ∧
      (∀ i, i ∈ idx ↔ i < ts.length ∧ ∀ key c, (key, c) ∈ cols → HasValue c → ∃ v, P key c i v) ∧
      R.times = pick idx ts ∧
      ∀ key c c', (key, c) ∈ cols → (key, c') ∈ R.cols → ∀ (j i : Nat), idx[j]? = some i →
        ∃ v, c'[j]? = some (some v) ∧ P key c i v := by
  have hc : Chronological (ts.map some) := by
    intro i j s t hij hi hj
    simp only [List.getElem?_map, Option.map_eq_some_iff, Option.some.injEq] at hi hj
    obtain ⟨_, hi, rfl⟩ := hi
    obtain ⟨_, hj, rfl⟩ := hj
    obtain ⟨h1, rfl⟩ := List.getElem?_eq_some_iff.1 hi
    obtain ⟨h2, rfl⟩ := List.getElem?_eq_some_iff.1 hj
    exact (List.pairwise_iff_getElem.1 hs) i j h1 h2 hij
  obtain ⟨K1, K2, times, hK1, hlen, htimes, hK2, hRt, hRc, -⟩ := impute_eq hT hc h
  obtain ⟨last, hI⟩ := interpolateDatetime_inv maxDiff hc
  simp only at hI htimes hK1 hRc hK2
  have hid : interpolateDatetime maxDiff (ts.map some) = ts.map some := by
    apply List.ext_getElem?
    intro i
    by_cases hi : i < ts.length
    · have h0 : (ts.map some)[i]? = some (some ts[i]) := by simp [hi]
      rw [h0, hI.pres i _ h0]
    · rw [List.getElem?_eq_none (by rw [hI.len]; simpa using hi), List.getElem?_eq_none (by simpa using hi)]
  have hK1r : K1 = List.range ts.length := by
    rw [hK1, hid]
    simp only [kept1, List.length_map]
    rw [List.filter_eq_self]
    intro i hi
    simp only [Bool.not_eq_true', decide_eq_false_iff_not, mem_indices]
    rintro ⟨x, hx, hn⟩
    simp only [List.getElem?_map, Option.map_eq_some_iff] at hx
    obtain ⟨_, _, rfl⟩ := hx
    simp at hn
  have htr : times = ts := by
    apply List.ext_getElem?
    intro i
    by_cases hi : i < ts.length
    · rw [List.getElem?_eq_getElem hi]
      exact htimes i i _ (by rw [hK1r]; simp [hi]) (by rw [hid]; simp [hi])
    · rw [List.getElem?_eq_none (by rw [hlen, hK1r]; simpa using hi), List.getElem?_eq_none (by simpa using hi)]
  subst htr
  have hcl : ∀ p ∈ cols, p.2.length = times.length := by
    intro p hp
    have := hT.2 p hp
    simpa using this
  have hpick : ∀ p ∈ cols, pick K1 p.2 = p.2 := by
    intro p hp
    rw [hK1r, ← hcl p hp]; exact pick_range _
  have hfl : ∀ p ∈ cols, (fillCol f maxDiff times p.1 (pick K1 p.2)).1.length = times.length := by
    intro p hp
    rw [fillCol_length, hpick p hp, hcl p hp]
  have hget : ∀ p ∈ cols, ∀ i < times.length, (fillCol f maxDiff times p.1 (pick K1 p.2)).1[i]? =
      some (filledEntry f maxDiff times p.1 p.2 i) := by
    intro p hp i hi
    rw [hpick p hp]
    exact fillCol_get _ _ _ _ _ (by rw [hcl p hp]; exact hi)
  have hn1 : K1.length = times.length := hlen.symm
  have hmem : ∀ i, i ∈ K2 ↔ i < times.length ∧
      ∀ key c, (key, c) ∈ cols → HasValue c → ∃ v, P key c i v := by
    intro i
    rw [hK2, hn1]
    simp only [List.mem_filter, List.mem_range, Bool.not_eq_true', decide_eq_false_iff_not, incomplete]
    constructor
    · rintro ⟨h1, h2⟩
      refine ⟨h1, fun key c hkc hv => ?_⟩
      cases ho : filledEntry f maxDiff times key c i with
      | some v => exact ⟨v, (hP (hcl _ hkc) h1 key v).1 ho⟩
      | none =>
        exfalso
        apply h2
        refine ⟨h1, ?_⟩
        rw [List.any_eq_true]
        refine ⟨(key, (fillCol f maxDiff times key (pick K1 c)).1), ?_, ?_⟩
        · exact List.mem_map.2 ⟨(key, c), List.mem_filter.2 ⟨hkc, (hasValue_iff _).2 hv⟩, rfl⟩
        · simp [List.getD_eq_getElem?_getD, hget _ hkc i h1, ho]
    · rintro ⟨h1, h2⟩
      refine ⟨h1, ?_⟩
      rintro ⟨-, h3⟩
      rw [List.any_eq_true] at h3
      obtain ⟨q, hq, hqn⟩ := h3
      obtain ⟨p, hp, rfl⟩ := List.mem_map.1 hq
      rw [List.mem_filter] at hp
      obtain ⟨v, hv⟩ := h2 p.1 p.2 hp.1 ((hasValue_iff _).1 hp.2)
      have := (hP (hcl _ hp.1) h1 p.1 v).2 hv
      simp [List.getD_eq_getElem?_getD, hget _ hp.1 i h1, this] at hqn
  refine ⟨K2, ?_, hmem, hRt, ?_⟩
  · rw [hK2]; exact List.pairwise_lt_range.filter _
  · intro key c c' hcm hcm' j i hj
    rw [hRc] at hcm'
    obtain ⟨⟨k0, c0⟩, hp, hpe⟩ := List.mem_map.1 hcm'
    rw [List.mem_filter] at hp
    simp only [Prod.mk.injEq] at hpe
    obtain ⟨rfl, rfl⟩ := hpe
    have hcc : c = c0 := by
      have h1 : (k0, c) = (k0, c0) := List.inj_on_of_nodup_map hT.1 hcm hp.1 rfl
      exact (Prod.ext_iff.1 h1).2
    subst hcc
    have hi := (hmem i).1 (List.mem_of_getElem? hj)
    obtain ⟨v, hv⟩ := hi.2 k0 c hcm ((hasValue_iff _).1 hp.2)
    refine ⟨v, ?_, hv⟩
    rw [pick_get (fun k hk => by rw [hfl _ hcm]; exact ((hmem k).1 hk).1), hj]
    have := (hP (hcl _ hcm) hi.1 k0 v).2 hv
    simp only at this
    simp [hget _ hcm i hi.1, this]

omit [DecidableEq κ] in
/-- **C24.** What the default configuration fills in, for data in which all time stamps are present: a row is kept
exactly if every column (with at least one value) has a value for it, where a missing value is replaced by the
closest value before it that is less than `maxDiff` away, or else by the closest such value after it. -/
theorem C24_default {maxDiff : Rat} {ts : List Rat} (hs : ts.Pairwise (· ≤ ·)) {cols : Dict κ (List (Option V))}
    (hT : IsTable ⟨ts.map some, cols⟩) {R : Result κ V} {st : Stats}
    (h : impute Fills.default maxDiff ⟨ts.map some, cols⟩ = .ok (R, st)) :
    ∃ idx : List Nat, idx.Pairwise (· < ·) ∧
      (∀ i, i ∈ idx ↔ i < ts.length ∧
        ∀ key c, (key, c) ∈ cols → HasValue c → ∃ v, DefaultValue maxDiff ts c i v) ∧
      R.times = pick idx ts ∧
      ∀ key c c', (key, c) ∈ cols → (key, c') ∈ R.cols → ∀ (j i : Nat), idx[j]? = some i →
        ∃ v, c'[j]? = some (some v) ∧ DefaultValue maxDiff ts c i v :=
  impute_rows hs hT h fun hl _ hi key v => filledEntry_default hl hi key v

/-- Row `s` is the closest near row before row `i`, with value `v`. -/
def BeforeAt (maxDiff : Rat) (ts : List Rat) (c : List (Option V)) (i s : Nat) (v : V) : Prop :=
  s < i ∧ Near maxDiff ts c i s v ∧ ∀ m w, s < m → m < i → ¬ Near maxDiff ts c i m w

/-- Row `e` is the closest near row after row `i`, with value `v`. -/
def AfterAt (maxDiff : Rat) (ts : List Rat) (c : List (Option V)) (i e : Nat) (v : V) : Prop :=
  i < e ∧ Near maxDiff ts c i e v ∧ ∀ m w, i < m → m < e → ¬ Near maxDiff ts c i m w

/-- The value that should be put into row `i` of a column: the value which is there; between two near values, which are not
further apart than `maxDiff`, the result of `between` at the fraction of the time passed; otherwise the result of `after` for
the near value before, or, if there is none, of `before` for the near value after, at the fraction of `maxDiff`. -/
def FillValue (f : Fills κ V) (maxDiff : Rat) (ts : List Rat) (key : κ) (c : List (Option V)) (i : Nat) (v : V) : Prop :=
  c[i]? = some (some v) ∨ (c[i]? = some none ∧ ∃ ti, ts[i]? = some ti ∧
    ((∃ s e t₁ t₂ w u, BeforeAt maxDiff ts c i s w ∧ AfterAt maxDiff ts c i e u ∧ ts[s]? = some t₁ ∧ ts[e]? = some t₂ ∧
        t₂ - t₁ ≤ maxDiff ∧ f.between key w u (if t₂ = t₁ then 1 else (ti - t₁) / (t₂ - t₁)) = some v) ∨
      (∃ s t₁ w, BeforeAt maxDiff ts c i s w ∧ ts[s]? = some t₁ ∧
        (∀ e t₂ u, AfterAt maxDiff ts c i e u → ts[e]? = some t₂ → maxDiff < t₂ - t₁) ∧
        f.after key w ((ti - t₁) / maxDiff) = some v) ∨
      (∃ e t₂ u, AfterAt maxDiff ts c i e u ∧ ts[e]? = some t₂ ∧ (¬ ∃ s w, BeforeAt maxDiff ts c i s w) ∧
        f.before key u ((t₂ - ti) / maxDiff) = some v)))

omit [DecidableEq κ] in
theorem BeforeAt.unique {maxDiff : Rat} {ts : List Rat} {c : List (Option V)} {i s s' : Nat} {v v' : V}
    (h : BeforeAt maxDiff ts c i s v) (h' : BeforeAt maxDiff ts c i s' v') : s = s' ∧ v = v' := by
  have e : s = s' := by
    rcases lt_trichotomy s s' with hl | hl | hl
    · exact (h.2.2 s' v' hl h'.1 h'.2.1).elim
    · exact hl
    · exact (h'.2.2 s v hl h.1 h.2.1).elim
  subst e
  exact ⟨rfl, by simpa using h.2.1.1.symm.trans h'.2.1.1⟩

omit [DecidableEq κ] in
theorem AfterAt.unique {maxDiff : Rat} {ts : List Rat} {c : List (Option V)} {i s s' : Nat} {v v' : V}
    (h : AfterAt maxDiff ts c i s v) (h' : AfterAt maxDiff ts c i s' v') : s = s' ∧ v = v' := by
  have e : s = s' := by
    rcases lt_trichotomy s s' with hl | hl | hl
    · exact (h'.2.2 s v h.1 hl h.2.1).elim
    · exact hl
    · exact (h.2.2 s' v' h'.1 hl h'.2.1).elim
  subst e
  exact ⟨rfl, by simpa using h.2.1.1.symm.trans h'.2.1.1⟩

omit [DecidableEq κ] in
theorem startIdx_at {maxDiff : Rat} {ts : List Rat} {c : List (Option V)} (hl : c.length = ts.length) {i s : Nat}
    (hi : i < ts.length) (h : startIdx maxDiff ts i (indicesFrom Option.isSome 0 c) = some s) :
    ∃ v, c[s]? = some (some v) ∧ BeforeAt maxDiff ts c i s v := by
  unfold startIdx at h
  have hm := List.max?_mem h
  simp only [List.mem_filter, Bool.and_eq_true, decide_eq_true_eq] at hm
  obtain ⟨v, hv⟩ := (near_iff (maxDiff := maxDiff) hl hi).2 ⟨hm.1, by rw [if_pos hm.2.1]; exact hm.2.2⟩
  refine ⟨v, hv.1, hm.2.1, hv, ?_⟩
  intro m w h1 h2 hn
  obtain ⟨h3, h4⟩ := (near_iff hl hi).1 ⟨w, hn⟩
  rw [if_pos h2] at h4
  have := (List.max?_eq_some_iff.1 h).2 m (by simpa [h3, h2] using h4)
  omega

omit [DecidableEq κ] in
theorem endIdx_at {maxDiff : Rat} {ts : List Rat} {c : List (Option V)} (hl : c.length = ts.length) {i s : Nat}
    (hi : i < ts.length) (h : endIdx maxDiff ts i (indicesFrom Option.isSome 0 c) = some s) :
    ∃ v, c[s]? = some (some v) ∧ AfterAt maxDiff ts c i s v := by
  unfold endIdx at h
  have hm := List.min?_mem h
  simp only [List.mem_filter, Bool.and_eq_true, decide_eq_true_eq] at hm
  have hns : ¬ s < i := by omega
  obtain ⟨v, hv⟩ := (near_iff (maxDiff := maxDiff) hl hi).2 ⟨hm.1, by rw [if_neg hns]; exact hm.2.2⟩
  refine ⟨v, hv.1, hm.2.1, hv, ?_⟩
  intro m w h1 h2 hn
  obtain ⟨h3, h4⟩ := (near_iff hl hi).1 ⟨w, hn⟩
  rw [if_neg (by omega)] at h4
  have := (List.min?_eq_some_iff.1 h).2 m (by simpa [h3, h1] using h4)
  omega

omit [DecidableEq κ] in
theorem filledEntry_fill {f : Fills κ V} {maxDiff : Rat} {ts : List Rat} {c : List (Option V)} (hl : c.length = ts.length)
    {i : Nat} (hi : i < ts.length) (key : κ) (v : V) :
    filledEntry f maxDiff ts key c i = some v ↔ FillValue f maxDiff ts key c i v := by
  obtain ⟨o, ho⟩ : ∃ o, c[i]? = some o := ⟨_, List.getElem?_eq_getElem (by omega)⟩
  cases o with
  | some w =>
    rw [filledEntry_present _ _ _ _ ho]
    simp [FillValue, ho]
  | none =>
    have hni : i ∉ indicesFrom Option.isSome 0 c := by
      rw [mem_indices]
      rintro ⟨x, hx, hs⟩
      rw [ho] at hx
      cases hx
      simp at hs
    obtain ⟨ti, hti⟩ : ∃ t, ts[i]? = some t := ⟨_, List.getElem?_eq_getElem hi⟩
    simp only [filledEntry, hni, if_false, FillValue, ho, hti, Option.some.injEq, reduceCtorEq, false_or, true_and,
      exists_eq_left']
    unfold fillEntry
    have get : ∀ (j : Nat) (t : Rat), ts[j]? = some t → ts.getD j 0 = t := fun j t h => by
      simp [List.getD_eq_getElem?_getD, h]
    have ex : ∀ (j : Nat) (w : V), c[j]? = some (some w) → ∃ t, ts[j]? = some t := fun j w h =>
      ⟨_, List.getElem?_eq_getElem (by rw [← hl]; exact (List.getElem?_eq_some_iff.1 h).1)⟩
    cases hs : startIdx maxDiff ts i (indicesFrom Option.isSome 0 c) with
    | none =>
      have hnb : ∀ s w, ¬ BeforeAt maxDiff ts c i s w := fun s w h => startIdx_none hl hi hs ⟨w, s, h⟩
      cases he : endIdx maxDiff ts i (indicesFrom Option.isSome 0 c) with
      | none =>
        have hna : ∀ s w, ¬ AfterAt maxDiff ts c i s w := fun s w h => endIdx_none hl hi he ⟨w, s, h⟩
        simp [hnb, hna]
      | some e =>
        obtain ⟨u, hu, hua⟩ := endIdx_at hl hi he
        obtain ⟨t₂, ht₂⟩ := ex e u hu
        simp only [List.getD_eq_getElem?_getD, hu, Option.getD_some, Option.bind_some, hti, ht₂, hnb, false_and,
          exists_false, exists_const, false_or, not_false_eq_true, true_and]
        constructor
        · intro h
          exact ⟨e, t₂, u, hua, ht₂, h⟩
        · rintro ⟨e', t', u', h1, h2, h3⟩
          obtain ⟨rfl, rfl⟩ := h1.unique hua
          rw [ht₂] at h2
          cases h2
          exact h3
    | some s =>
      obtain ⟨w, hw, hwb⟩ := startIdx_at hl hi hs
      obtain ⟨t₁, ht₁⟩ := ex s w hw
      have hnn : ¬ ¬ ∃ s w, BeforeAt maxDiff ts c i s w := fun h => h ⟨s, w, hwb⟩
      cases he : endIdx maxDiff ts i (indicesFrom Option.isSome 0 c) with
      | none =>
        have hna : ∀ s w, ¬ AfterAt maxDiff ts c i s w := fun s w h => endIdx_none hl hi he ⟨w, s, h⟩
        simp only [List.getD_eq_getElem?_getD, hw, Option.getD_some, Option.bind_some, hti, ht₁, hna, false_and, and_false,
          exists_false, exists_const, false_or, or_false, IsEmpty.forall_iff, implies_true, true_and]
        constructor
        · intro h
          exact ⟨s, t₁, w, hwb, ht₁, h⟩
        · rintro ⟨s', t', w', h1, h2, h3⟩
          obtain ⟨rfl, rfl⟩ := h1.unique hwb
          rw [ht₁] at h2
          cases h2
          exact h3
      | some e =>
        obtain ⟨u, hu, hua⟩ := endIdx_at hl hi he
        obtain ⟨t₂, ht₂⟩ := ex e u hu
        simp only [List.getD_eq_getElem?_getD, hw, hu, Option.getD_some, Option.bind_some, hti, ht₁, ht₂]
        by_cases hd : t₂ - t₁ > maxDiff
        · rw [if_pos hd]
          constructor
          · intro h
            refine .inr (.inl ⟨s, t₁, w, hwb, ht₁, ?_, h⟩)
            intro e' t' u' h1 h2
            obtain ⟨rfl, rfl⟩ := h1.unique hua
            rw [ht₂] at h2
            cases h2
            exact hd
          · rintro (⟨s', e', t', t'', w', u', h1, h2, h3, h4, h5, -⟩ | ⟨s', t', w', h1, h2, -, h3⟩ | ⟨_, _, _, _, _, h, _⟩)
            · obtain ⟨rfl, rfl⟩ := h1.unique hwb
              obtain ⟨rfl, rfl⟩ := h2.unique hua
              rw [ht₁] at h3
              rw [ht₂] at h4
              cases h3
              cases h4
              exact absurd h5 (not_le.2 hd)
            · obtain ⟨rfl, rfl⟩ := h1.unique hwb
              rw [ht₁] at h2
              cases h2
              exact h3
            · exact (hnn h).elim
        · rw [if_neg hd]
          have emu : (if t₂ ≠ t₁ then (ti - t₁) / (t₂ - t₁) else 1) = if t₂ = t₁ then 1 else (ti - t₁) / (t₂ - t₁) := by
            by_cases h : t₂ = t₁ <;> simp [h]
          rw [emu]
          constructor
          · intro h
            exact .inl ⟨s, e, t₁, t₂, w, u, hwb, hua, ht₁, ht₂, not_lt.1 hd, h⟩
          · rintro (⟨s', e', t', t'', w', u', h1, h2, h3, h4, h5, h6⟩ | ⟨s', t', w', h1, h2, h4, h3⟩ | ⟨_, _, _, _, _, h, _⟩)
            · obtain ⟨rfl, rfl⟩ := h1.unique hwb
              obtain ⟨rfl, rfl⟩ := h2.unique hua
              rw [ht₁] at h3
              rw [ht₂] at h4
              cases h3
              cases h4
              exact h6
            · obtain ⟨rfl, rfl⟩ := h1.unique hwb
              rw [ht₁] at h2
              cases h2
              exact absurd (h4 e t₂ u hua ht₂) hd
            · exact (hnn h).elim

omit [DecidableEq κ] in
/-- **C24.** What any fill functions fill in, for data in which all time stamps are present: a row is kept exactly if every
column (with at least one value) has a value for it, where a missing value is computed by the fill functions from the
closest values which are less than `maxDiff` away. -/
theorem C24_fills {f : Fills κ V} {maxDiff : Rat} {ts : List Rat} (hs : ts.Pairwise (· ≤ ·)) {cols : Dict κ (List (Option V))}
    (hT : IsTable ⟨ts.map some, cols⟩) {R : Result κ V} {st : Stats}
    (h : impute f maxDiff ⟨ts.map some, cols⟩ = .ok (R, st)) :
    ∃ idx : List Nat, idx.Pairwise (· < ·) ∧
      (∀ i, i ∈ idx ↔ i < ts.length ∧
        ∀ key c, (key, c) ∈ cols → HasValue c → ∃ v, FillValue f maxDiff ts key c i v) ∧
      R.times = pick idx ts ∧
      ∀ key c c', (key, c) ∈ cols → (key, c') ∈ R.cols → ∀ (j i : Nat), idx[j]? = some i →
        ∃ v, c'[j]? = some (some v) ∧ FillValue f maxDiff ts key c i v :=
  impute_rows hs hT h fun hl _ hi key v => filledEntry_fill hl hi key v

/-- Linear interpolation between the neighbours. -/
example : (impute (κ := String) (V := Rat) ⟨fun _ r _ => some r, fun _ l r mu => some (l + mu * (r - l)), fun _ l _ => some l⟩
    120 ⟨[some 0, some 20, some 80], [("a", [some 4, none, some 8])]⟩).toOption.map (fun p => p.1.cols) =
    some [("a", [some 4, some 5, some 8])] := by decide +kernel

omit [DecidableEq κ] in
/-- **C24.** The call raises exactly if there is no time stamp at all. -/
theorem C24_raises (f : Fills κ V) (maxDiff : Rat) (T : Tab κ V) :
    (∃ r, impute f maxDiff T = .ok r) ↔ HasValue T.times := by
  rw [← hasValue_iff]
  by_cases h : T.times.all Option.isNone = true
  · simp [impute, h]
  · simp [impute, h]

example : impute (κ := String) (V := Nat) Fills.default 120
    ⟨[some 0, none, some 60, some 1000], [("a", [some 1, none, none, some 4]), ("b", [none, none, none, none])]⟩ =
    .ok (⟨[0, 30, 60, 1000], [("a", [some 1, some 1, some 1, some 4])]⟩, ⟨1, 0, 2, 4, 2⟩) := by decide +kernel

/-- The hypotheses of `C24_default` are met by a table in which the middle row is filled from before. -/
example : ([0, 60, 100] : List Rat).Pairwise (· ≤ ·) ∧
    IsTable (κ := String) (V := Nat) ⟨[0, 60, 100].map some, [("a", [some 1, none, some 4])]⟩ ∧
    impute (κ := String) (V := Nat) Fills.default 120 ⟨[0, 60, 100].map some, [("a", [some 1, none, some 4])]⟩ =
      .ok (⟨[0, 60, 100], [("a", [some 1, some 1, some 4])]⟩, ⟨0, 0, 1, 3, 2⟩) := by
  refine ⟨by decide +kernel, ⟨by simp, by simp⟩, by decide +kernel⟩

end

/-! ## C26 -/

section

variable {κ V τ : Type} [DecidableEq κ] [DecidableEq τ] [HasType V τ]

/-- A row without `None`. -/
def Complete (r : Dict κ (Option V)) : Prop := ∀ p ∈ r, p.2 ≠ none

instance (r : Dict κ (Option V)) : Decidable (Complete r) := by unfold Complete; infer_instance

omit [DecidableEq κ] in
theorem any_none_iff (r : Dict κ (Option V)) : (r.any fun p => p.2.isNone) = true ↔ ¬ Complete r := by
  simp [Complete]

omit [DecidableEq κ] in
theorem without_indices (rs : List (Dict κ (Option V))) (s : Nat) :
    ((rs.zipIdx s).filter (fun p => ¬ (p.2 : Int) ∈ (indicesFrom (fun (r : Dict κ (Option V)) =>
      r.any fun p => p.2.isNone) s rs).map Int.ofNat)).map Prod.fst = rs.filter fun r => decide (Complete r) := by
  induction rs generalizing s with
  | nil => rfl
  | cons r rs ih =>
    have hskip : ∀ x, x ∈ rs.zipIdx (s + 1) → x.2 ≠ s := by
      intro x hx
      have := List.mem_zipIdx hx
      omega
    have hs : ∀ y, y ∈ indicesFrom (fun (r : Dict κ (Option V)) => r.any fun p => p.2.isNone) (s + 1) rs → y ≠ s := by
      intro y hy
      obtain ⟨j, -, h, -⟩ := mem_indicesFrom.1 hy
      omega
    have hns : (s : Int) ∉ (indicesFrom (fun (r : Dict κ (Option V)) => r.any fun p => p.2.isNone) (s + 1) rs).map
        Int.ofNat := by
      simp only [List.mem_map, not_exists, not_and]
      intro y hy h
      have := hs y hy
      simp at h
      omega
    by_cases h : Complete r
    · have h' : (r.any fun p => p.2.isNone) = false := by
        rw [Bool.eq_false_iff]; intro hc; exact (any_none_iff r).1 hc h
      simp only [indicesFrom, h', Bool.false_eq_true, if_false, List.zipIdx_cons, List.filter_cons, hns,
        not_false_eq_true, decide_true, if_true, List.map_cons, h, ← ih (s + 1)]
    · have h' : (r.any fun p => p.2.isNone) = true := (any_none_iff r).2 h
      simp only [indicesFrom, h', if_true, List.zipIdx_cons, List.filter_cons, List.map_cons, List.mem_cons,
        Int.ofNat_eq_natCast, true_or, not_true_eq_false, decide_false, Bool.false_eq_true, if_false, h, ← ih (s + 1)]
      congr 1
      apply List.filter_congr
      intro x hx
      have := hskip x hx
      simp [this]

/-- **C26.** `RemoveOnlyImputator` returns exactly the rows without `None`, in order. -/
theorem C26_rows {D : Data κ V τ} (h : Data.Reachable D) {rs : List (Dict κ (Option V))} (hrs : D.rows = some rs) :
    ∃ D' st, removeOnly D = .ok (D', st) ∧ D'.rows = some (rs.filter fun r => decide (Complete r)) ∧
      D'.nRows = ((rs.filter fun r => decide (Complete r)).length : Int) := by
  set remove := indicesFrom (fun (r : Dict κ (Option V)) => r.any fun p => p.2.isNone) 0 rs with hrem
  obtain ⟨rs', hr', hl⟩ := Data.rows_of_rect h.rect
  rw [hrs, Option.some.injEq] at hr'
  subst hr'
  have hnd : (remove.map Int.ofNat).Nodup := nodup_indicesFrom.map (fun a b h => by simpa using h)
  have hv : ∀ i ∈ remove.map Int.ofNat, 0 ≤ i ∧ i < D.nRows := by
    intro i hi
    obtain ⟨k, hk, rfl⟩ := List.mem_map.1 hi
    obtain ⟨x, hx, -⟩ := mem_indices.1 hk
    have := (List.getElem?_eq_some_iff.1 hx).1
    simp only [Int.ofNat_eq_natCast, Data.nRows]
    omega
  obtain ⟨h1, h2⟩ := Data.C06_delete_partial h hnd hv hrs
  have h3 : Data.without (remove.map Int.ofNat) rs = rs.filter fun r => decide (Complete r) := without_indices rs 0
  rw [h3] at h1 h2
  have hok : ∃ st, removeOnly D = .ok (D.deleteRows (remove.map Int.ofNat), st) := by
    simp only [removeOnly, hrs, ← hrem]
    exact ⟨_, rfl⟩
  obtain ⟨st, hst⟩ := hok
  exact ⟨_, st, hst, h1, h2⟩

example : ∃ D' st, removeOnly Data.exData = .ok (D', st) ∧
    D'.rows = some [[("TWS", some (.int 2)), ("BSP", some (.float 3))]] ∧ D'.nRows = 1 :=
  C26_rows Data.exData_reachable (rs := [[("TWS", some (.int 1)), ("BSP", none)], [("TWS", some (.int 2)), ("BSP", some (.float 3))]])
    (by decide +kernel)

/-- **C26** refuted for the statistics: the reported number of removed rows is the number of rows that have been
kept. -/
theorem C26_statistics_false {D : Data κ V τ} (h : Data.Reachable D) {rs : List (Dict κ (Option V))}
    (hrs : D.rows = some rs) {D' : Data κ V τ} {st : Stats} (hd : removeOnly D = .ok (D', st)) :
    st.removedRows = ((rs.filter fun r => decide (Complete r)).length : Int) := by
  obtain ⟨rs', hr', hl⟩ := Data.rows_of_rect h.rect
  rw [hrs, Option.some.injEq] at hr'
  subst hr'
  simp only [removeOnly, hrs, Except.ok.injEq, Prod.mk.injEq] at hd
  rw [← hd.2]
  simp only [length_indicesFrom, Data.nRows]
  have h1 := List.length_eq_length_filter_add (l := rs) (fun r => decide (Complete r))
  have h2 : rs.countP (fun r => r.any fun p => p.2.isNone) = (rs.filter fun r => ! decide (Complete r)).length := by
    rw [List.countP_eq_length_filter]
    congr 1
    apply List.filter_congr
    intro r _
    rw [Bool.eq_iff_iff, any_none_iff]
    simp
  rw [h2]
  omega

example : (removeOnly Data.exData).map (·.2.removedRows) = .ok 1 := rfl

end

/-- Three rows, one of them with a missing value: one row is removed, but two are reported. -/
theorem C26_statistics_witness_false : ∃ (D D' : Data String Val Ty) (st : Stats), Data.Reachable D ∧
    removeOnly D = .ok (D', st) ∧ D.nRows = 3 ∧ D'.nRows = 2 ∧ st.removedRows = 2 :=
  ⟨_, _, _, Data.Reachable.update (D := Data.empty) (compress := false)
      (d := [("TWS", .list [some (.int 1), none, some (.int 3)])]) .empty (Prod.ext rfl (by decide +kernel)),
    rfl, by decide +kernel, by decide +kernel, by decide +kernel⟩

end Verif.Imputator
