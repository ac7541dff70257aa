import Mathlib.Tactic.FieldSimp
import Mathlib.Tactic.Ring
import Mathlib.Tactic.Linarith
import Verif.Spec.Weather

/-!
# Lemmas about the gridded weather model
-/

set_option linter.unusedSectionVars false

namespace Verif.Weather

variable {K : Type} [Field K] [LinearOrder K]

theorem bisectLoop_spec {a : List K} (ha : a.Pairwise (· < ·)) (x : K) :
    ∀ (n lo hi : Nat), hi - lo ≤ n → lo ≤ hi → hi ≤ a.length →
      (∀ i (h : i < a.length), i < lo → a[i] < x) → (∀ i (h : i < a.length), hi ≤ i → x ≤ a[i]) →
      ∃ idx, bisectLoop a x lo hi = some idx ∧ idx ≤ a.length ∧
        (∀ i (h : i < a.length), i < idx → a[i] < x) ∧ (∀ i (h : i < a.length), idx ≤ i → x ≤ a[i]) := by
  intro n
  induction n with
  | zero =>
    intro lo hi h1 h2 h3 h4 h5
    refine ⟨lo, ?_, by omega, h4, fun i h hi' => h5 i h (by omega)⟩
    unfold bisectLoop
    rw [dif_neg (by omega)]
  | succ n ih =>
    intro lo hi h1 h2 h3 h4 h5
    by_cases hlt : lo < hi
    · have hmid : (lo + hi) / 2 < a.length := by omega
      unfold bisectLoop
      rw [dif_pos hlt, List.getElem?_eq_getElem hmid]
      simp only
      rw [List.pairwise_iff_getElem] at ha
      split
      · rename_i hy
        refine ih _ _ (by omega) (by omega) h3 ?_ h5
        intro i h hi'
        rcases Nat.lt_or_ge i ((lo + hi) / 2) with h' | h'
        · exact lt_trans (ha i _ h hmid h') hy
        · have : i = (lo + hi) / 2 := by omega
          subst this; exact hy
      · rename_i hy
        push Not at hy
        refine ih _ _ (by omega) (by omega) (by omega) h4 ?_
        intro i h hi'
        rcases Nat.lt_or_ge ((lo + hi) / 2) i with h' | h'
        · exact le_trans hy (le_of_lt (ha _ i hmid h h'))
        · have : i = (lo + hi) / 2 := by omega
          subst this; exact hy
    · refine ⟨lo, ?_, by omega, h4, fun i h hi' => h5 i h (by omega)⟩
      unfold bisectLoop
      rw [dif_neg hlt]

theorem bisectLeft_spec {a : List K} (ha : a.Pairwise (· < ·)) (x : K) :
    ∃ idx, bisectLeft a x = some idx ∧ idx ≤ a.length ∧
        (∀ i (h : i < a.length), i < idx → a[i] < x) ∧ (∀ i (h : i < a.length), idx ≤ i → x ≤ a[i]) :=
  bisectLoop_spec ha x a.length 0 a.length (by omega) (by omega) le_rfl (by intro i h h'; omega)
    (by intro i h h'; omega)

theorem mkDim_spec {g : List K} (hg : g.Pairwise (· < ·)) {x : K} (hx : Inside g x) :
    (∃ idx, g[idx]? = some x ∧ mkDim g x = .ok ⟨g, x, [idx], [x]⟩) ∨
    (x ∉ g ∧ ∃ (idx : Nat) (z y : K), g[idx]? = some z ∧ g[idx + 1]? = some y ∧ z < x ∧ x < y ∧
      mkDim g x = .ok ⟨g, x, [idx, idx + 1], [z, y]⟩) := by
  obtain ⟨idx, h1, h2, h3, h4⟩ := bisectLeft_spec hg x
  obtain ⟨⟨l, hl, hlx⟩, r, hr, hxr⟩ := hx
  have hidx : idx < g.length := by
    obtain ⟨i, hi, rfl⟩ := List.getElem_of_mem hr
    by_contra hc
    have := h3 i hi (by omega)
    exact absurd hxr (not_le.2 this)
  have hge := h4 idx hidx le_rfl
  unfold mkDim
  simp only [h1, List.getElem?_eq_getElem hidx]
  by_cases he : g[idx] = x
  · left
    exact ⟨idx, by rw [List.getElem?_eq_getElem hidx, he], by simp [he]⟩
  · right
    have hlt : x < g[idx] := lt_of_le_of_ne hge (Ne.symm he)
    have hpos : 0 < idx := by
      obtain ⟨i, hi, rfl⟩ := List.getElem_of_mem hl
      by_contra hc
      have := h4 i hi (by omega)
      have hxe : x = g[i] := le_antisymm this hlx
      rw [List.pairwise_iff_getElem] at hg
      rcases Nat.eq_zero_or_pos i with h0 | h0
      · subst h0
        have : idx = 0 := by omega
        subst this
        exact he hxe.symm
      · have : idx = 0 := by omega
        subst this
        have := hg 0 i hidx hi h0
        rw [← hxe] at this
        exact absurd this (not_lt.2 hge)
    obtain ⟨i, rfl⟩ : ∃ i, idx = i + 1 := ⟨idx - 1, by omega⟩
    have hi : i < g.length := by omega
    refine ⟨?_, i, g[i], g[i + 1], List.getElem?_eq_getElem hi, List.getElem?_eq_getElem hidx,
      h3 i hi (by omega), hlt, ?_⟩
    · intro hm
      obtain ⟨j, hj, rfl⟩ := List.getElem_of_mem hm
      rcases Nat.lt_or_ge j (i + 1) with h' | h'
      · exact lt_irrefl _ (h3 j hj h')
      · rcases Nat.eq_or_lt_of_le h' with h'' | h''
        · subst h''; exact he rfl
        · rw [List.pairwise_iff_getElem] at hg
          exact absurd (hg (i + 1) j hidx hj h'') (not_lt.2 hge)
    · have : pyIndex g (((i + 1 : Nat) : Int) - 1) = some g[i] := by
        simp [pyIndex, List.getElem?_eq_getElem hi]
      simp only [he, if_false, this]
      rfl

variable [IsStrictOrderedRing K]

theorem affine_between {g : List K} (hg : g.Pairwise (· < ·)) (f : Nat → K) {x z y : K} {i : Nat}
    (hz : g[i]? = some z) (hy : g[i + 1]? = some y) (h1 : z < x) (h2 : x < y) :
    affine g f x = ((y - x) * f i + (x - z) * f (i + 1)) / (y - z) := by
  induction i generalizing g f with
  | zero =>
    match g, hz, hy with
    | g0 :: g1 :: gs, hz, hy =>
      simp only [List.getElem?_cons_zero, List.getElem?_cons_succ, zero_add, Option.some.injEq] at hz hy
      subst hz hy
      simp [affine, h2.le]
  | succ i ih =>
    match g, hz, hy with
    | g0 :: g1 :: gs, hz, hy =>
      have hg' := (List.pairwise_cons.1 hg).2
      have hz' : (g1 :: gs)[i]? = some z := by simpa using hz
      have hy' : (g1 :: gs)[i + 1]? = some y := by simpa using hy
      have hle : g1 ≤ z := by
        cases i with
        | zero => simp at hz'; exact hz'.le
        | succ i => exact le_of_lt ((List.pairwise_cons.1 hg').1 z (List.mem_of_getElem? (by simpa using hz')))
      have : ¬ x ≤ g1 := not_le.2 (lt_of_le_of_lt hle h1)
      simp only [affine, this, if_false]
      rw [ih hg' _ hz' hy']

/-- The interpolation takes the stored value at a grid value. -/
theorem affine_grid {g : List K} (hg : g.Pairwise (· < ·)) (f : Nat → K) {x : K} {i : Nat} (hi : g[i]? = some x) :
    affine g f x = f i := by
  induction i generalizing g f with
  | zero =>
    match g, hi with
    | [g0], hi => simp [affine]
    | g0 :: g1 :: gs, hi =>
      simp only [List.getElem?_cons_zero, Option.some.injEq] at hi
      subst hi
      have h01 : g0 < g1 := (List.pairwise_cons.1 hg).1 g1 (by simp)
      have : g1 - g0 ≠ 0 := (sub_pos.2 h01).ne'
      simp only [affine, h01.le, if_true, sub_self, zero_mul, add_zero]
      field_simp
  | succ i ih =>
    match g, hi with
    | g0 :: g1 :: gs, hi =>
      have hg' := (List.pairwise_cons.1 hg).2
      have hi' : (g1 :: gs)[i]? = some x := by simpa using hi
      have h01 : g0 < g1 := (List.pairwise_cons.1 hg).1 g1 (by simp)
      cases i with
      | zero =>
        simp at hi'
        subst hi'
        have : g1 - g0 ≠ 0 := (sub_pos.2 h01).ne'
        simp only [affine, le_refl, if_true, sub_self, zero_mul, zero_add]
        field_simp
      | succ i =>
        have : g1 < x := (List.pairwise_cons.1 hg').1 x (List.mem_of_getElem? (by simpa using hi'))
        simp only [affine, not_le.2 this, if_false]
        exact ih hg' _ hi'

/-- What the code computes instead: on a grid value it takes the first stored value. -/
def affine0 (g : List K) (f : Nat → K) (x : K) : K := if x ∈ g then f 0 else affine g f x

theorem affine_congr {g : List K} (hne : g ≠ []) {f f' : Nat → K} (h : ∀ i < g.length, f i = f' i) (x : K) :
    affine g f x = affine g f' x := by
  induction g generalizing f f' with
  | nil => exact absurd rfl hne
  | cons g0 g ih =>
    cases g with
    | nil => simpa [affine] using h 0 (by simp)
    | cons g1 gs =>
      simp only [affine]
      rw [h 0 (by simp), h 1 (by simp)]
      split
      · rfl
      · exact ih (by simp) (fun i hi => h (i + 1) (by simpa using hi))

theorem affine0_congr {g : List K} (hne : g ≠ []) {f f' : Nat → K} (h : ∀ i < g.length, f i = f' i) (x : K) :
    affine0 g f x = affine0 g f' x := by
  unfold affine0
  rw [affine_congr hne h, h 0 (List.length_pos_of_ne_nil hne)]

theorem recursion_step {get : List Nat → Except PyErr (List K)} {g : List K} (hg : g.Pairwise (· < ·)) {x : K}
    (hx : Inside g x) {d : Dim K} (hd : mkDim g x = .ok d) {ds : List (Dim K)} {c : List Nat} {s : Nat}
    {T : Nat → List K} (hT : ∀ i < g.length, recursion get ds (c ++ [i]) = .ok (T i) ∧ (T i).length = s) :
    ∃ R, recursion get (d :: ds) c = .ok R ∧ R.length = s ∧
      ∀ a, R.getD a 0 = affine0 g (fun i => (T i).getD a 0) x := by
  rcases mkDim_spec hg hx with ⟨idx, h1, h2⟩ | ⟨hmem, idx, z, y, h1, h2, h3, h4, h5⟩
  · rw [h2, Except.ok.injEq] at hd
    subst hd
    have hm : x ∈ g := List.mem_of_getElem? h1
    have h0 := hT 0 (List.length_pos_of_mem hm)
    refine ⟨T 0, ?_, h0.2, fun a => by simp [affine0, hm]⟩
    simp only [recursion, List.mem_singleton, if_true, List.idxOf_cons_self]
    exact h0.1
  · rw [h5, Except.ok.injEq] at hd
    subst hd
    have hi : idx < g.length := (List.getElem?_eq_some_iff.1 h1).1
    have hi' : idx + 1 < g.length := (List.getElem?_eq_some_iff.1 h2).1
    obtain ⟨r0, l0⟩ := hT idx hi
    obtain ⟨r1, l1⟩ := hT (idx + 1) hi'
    have hzy : z ≠ y := (h3.trans h4).ne
    have hnm : ¬ (x ∈ [z, y]) := by simp [h3.ne', h4.ne]
    refine ⟨combine ((x - y) / (z - y)) (T idx) (T (idx + 1)), ?_, ?_, fun a => ?_⟩
    · simp only [recursion, hnm, if_false, h1, h2, hzy, r0, r1]
    · simp [combine, l0, l1]
    · rw [affine0, if_neg hmem, affine_between hg _ h1 h2 h3 h4]
      simp only [combine, List.getD_eq_getElem?_getD, List.getElem?_zipWith]
      by_cases ha : a < s
      · rw [List.getElem?_eq_getElem (show a < (T idx).length by omega),
          List.getElem?_eq_getElem (show a < (T (idx + 1)).length by omega)]
        simp only [Option.getD_some]
        have h6 : z - y ≠ 0 := (sub_neg.2 (h3.trans h4)).ne
        have h7 : y - z ≠ 0 := (sub_pos.2 (h3.trans h4)).ne'
        have h8 : y - z = -(z - y) := by ring
        rw [eq_div_iff h7, h8]
        field_simp
        ring
      · rw [List.getElem?_eq_none (show (T idx).length ≤ a by omega),
          List.getElem?_eq_none (show (T (idx + 1)).length ≤ a by omega)]
        simp

end Verif.Weather
