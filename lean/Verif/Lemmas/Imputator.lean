import Verif.Model.Imputator
import Verif.Spec.Imputator
import Mathlib.Tactic.Linarith
import Mathlib.Tactic.Ring
import Mathlib.Data.List.Basic

/-! # Lemmas about the imputators -/

set_option linter.unusedSimpArgs false

namespace Verif.Imputator

/-! ### Time stamps -/

/-- The affine value at position `j`. -/
def affine (a b : Nat) (s t : Rat) (j : Nat) : Rat := s + ((j : Rat) - a) / ((b : Rat) - a) * (t - s)

theorem foldl_set_length {α : Type} (f : Nat → α) (js : List Nat) (c : List α) :
    (js.foldl (fun c j => c.set j (f j)) c).length = c.length := by
  induction js generalizing c with
  | nil => rfl
  | cons j js ih => simp [ih]

theorem foldl_set_get {α : Type} (f : Nat → α) (js : List Nat) (c : List α) (m : Nat) :
    (js.foldl (fun c j => c.set j (f j)) c)[m]? = if m ∈ js ∧ m < c.length then some (f m) else c[m]? := by
  induction js generalizing c with
  | nil => simp
  | cons j js ih =>
    rw [List.foldl_cons, ih, List.length_set]
    by_cases hm : m ∈ js
    · by_cases hl : m < c.length
      · simp [hm, hl]
      · simp [hm, hl, List.getElem?_set]
    · by_cases hj : j = m
      · subst hj
        by_cases hl : j < c.length
        · simp [hm, hl, List.getElem?_set]
        · simp [hm, hl, List.getElem?_set]
      · have hj' : ¬ m = j := fun h => hj h.symm
        simp [hm, hj, hj', List.getElem?_set]

theorem affineFill_length (col : List (Option Rat)) (a : Nat) (s : Rat) (b : Nat) (t : Rat) :
    (affineFill col a s b t).length = col.length :=
  foldl_set_length (fun j => some (affine a b s t j)) _ _

theorem affineFill_get (col : List (Option Rat)) (a : Nat) (s : Rat) (b : Nat) (t : Rat) (m : Nat) :
    (affineFill col a s b t)[m]? =
      if a < m ∧ m < b ∧ m < col.length then some (some (affine a b s t m)) else col[m]? := by
  have h := foldl_set_get (fun j => some (affine a b s t j)) (List.range' (a + 1) (b - (a + 1))) col m
  rw [show affineFill col a s b t = (List.range' (a + 1) (b - (a + 1))).foldl
    (fun c j => c.set j (some (affine a b s t j))) col from rfl, h]
  congr 1
  rw [List.mem_range'_1]
  apply propext
  constructor
  · rintro ⟨⟨h1, h2⟩, h3⟩; omega
  · rintro ⟨h1, h2, h3⟩; omega

/-- The inner loop of `_interpolate_datetime` with any function in place of the affine one. -/
def fillWith (F : Nat → Nat → Rat → Rat → Nat → Rat) (col : List (Option Rat)) (lastI : Nat) (lastDt : Rat) (i : Nat) (dt : Rat) :
    List (Option Rat) :=
  (List.range' (lastI + 1) (i - (lastI + 1))).foldl (fun c j => c.set j (some (F lastI i lastDt dt j))) col

/-- The loop of `_interpolate_datetime` with any function in place of the affine one. -/
def interpLoopF (F : Nat → Nat → Rat → Rat → Nat → Rat) (maxDiff : Rat) :
    Nat → List (Option Rat) → Option (Rat × Nat) → List (Option Rat) → List (Option Rat)
  | _, [], _, col => col
  | i, none :: rest, last, col => interpLoopF F maxDiff (i + 1) rest last col
  | i, some dt :: rest, none, col => interpLoopF F maxDiff (i + 1) rest (some (dt, i)) col
  | i, some dt :: rest, some (lastDt, lastI), col =>
    if |dt - lastDt| > maxDiff then interpLoopF F maxDiff (i + 1) rest (some (lastDt, lastI)) col
    else interpLoopF F maxDiff (i + 1) rest (some (dt, i)) (fillWith F col lastI lastDt i dt)

theorem interpLoop_affine (maxDiff : Rat) (rest : List (Option Rat)) (i : Nat) (last : Option (Rat × Nat)) (col : List (Option Rat)) :
    interpLoop maxDiff i rest last col = interpLoopF affine maxDiff i rest last col := by
  induction rest generalizing i last col with
  | nil => simp only [interpLoop, interpLoopF]
  | cons e rest ih =>
    cases e with
    | none => simp only [interpLoop, interpLoopF, ih]
    | some dt =>
      cases last with
      | none => simp only [interpLoop, interpLoopF, ih]
      | some p =>
        obtain ⟨lt, la⟩ := p
        simp only [interpLoop, interpLoopF, ih]
        rfl

section
variable {F : Nat → Nat → Rat → Rat → Nat → Rat}

theorem fillWith_length (col : List (Option Rat)) (a : Nat) (s : Rat) (b : Nat) (t : Rat) :
    (fillWith F col a s b t).length = col.length :=
  foldl_set_length (fun j => some (F a b s t j)) _ _

theorem fillWith_get (col : List (Option Rat)) (a : Nat) (s : Rat) (b : Nat) (t : Rat) (m : Nat) :
    (fillWith F col a s b t)[m]? =
      if a < m ∧ m < b ∧ m < col.length then some (some (F a b s t m)) else col[m]? := by
  have h := foldl_set_get (fun j => some (F a b s t j)) (List.range' (a + 1) (b - (a + 1))) col m
  rw [show fillWith F col a s b t = (List.range' (a + 1) (b - (a + 1))).foldl
    (fun c j => c.set j (some (F a b s t j))) col from rfl, h]
  congr 1
  rw [List.mem_range'_1]
  apply propext
  constructor
  · rintro ⟨⟨h1, h2⟩, h3⟩; omega
  · rintro ⟨h1, h2, h3⟩; omega

/-- Invariant of the loop of `_interpolate_datetime`. -/
structure Inv (orig : List (Option Rat)) (maxDiff : Rat) (i : Nat) (last : Option (Rat × Nat))
    (col : List (Option Rat)) (F : Nat → Nat → Rat → Rat → Nat → Rat := affine) : Prop where
  len : col.length = orig.length
  pres : ∀ (j : Nat) t, orig[j]? = some (some t) → col[j]? = some (some t)
  lastNone : last = none → ∀ j < i, ∀ t, orig[j]? ≠ some (some t)
  lastSome : ∀ t a, last = some (t, a) → a < i ∧ orig[a]? = some (some t) ∧ Linked orig maxDiff a ∧
    (∀ j s, a < j → j < i → orig[j]? = some (some s) → maxDiff < s - t) ∧
    ((∀ a' b' s' t', Gap orig a' b' s' t' → b' < i → t' - s' ≤ maxDiff) →
      ∀ j s, a < j → j < i → orig[j]? ≠ some (some s))
  new : ∀ (j : Nat) v, orig[j]? = some none → col[j]? = some (some v) →
    ∃ a b s t, a < j ∧ j < b ∧ b < i ∧ Gap orig a b s t ∧ Linked orig maxDiff b ∧ v = F a b s t j
  done : ∀ a b s t, Gap orig a b s t → b < i → Linked orig maxDiff b → ∀ j, a < j → j < b →
    col[j]? = some (some (F a b s t j))

theorem interpLoopF_inv {orig : List (Option Rat)} {maxDiff : Rat} (hc : Chronological orig) :
    ∀ (rest : List (Option Rat)) (i : Nat) (last : Option (Rat × Nat)) (col : List (Option Rat)),
      rest = orig.drop i → Inv orig maxDiff i last col F →
      ∃ last', Inv orig maxDiff (max i orig.length) last' (interpLoopF F maxDiff i rest last col) F
  | [], i, last, col, hr, h => by
    have : orig.length ≤ i := by
      have := congrArg List.length hr
      simp at this
      omega
    rw [max_eq_left this]
    exact ⟨last, by simpa [interpLoopF] using h⟩
  | e :: rest, i, last, col, hr, h => by
    have hi : i < orig.length := by
      by_contra hn
      rw [List.drop_eq_nil_of_le (by omega)] at hr
      cases hr
    have he : orig[i]? = some e := by
      have := congrArg (·[0]?) hr
      simpa using this.symm
    have hrest : rest = orig.drop (i + 1) := by
      have := congrArg List.tail hr
      simpa using this
    have hmax : max (i + 1) orig.length = max i orig.length := by omega
    cases e with
    | none =>
      have hI : Inv orig maxDiff (i + 1) last col F := by
        refine ⟨h.len, h.pres, ?_, ?_, ?_, ?_⟩
        · intro hl j hj t
          rcases Nat.lt_succ_iff_lt_or_eq.1 hj with hj | rfl
          · exact h.lastNone hl j hj t
          · rw [he]; simp
        · intro t a hl
          obtain ⟨h1, h2, h3, h4, h5⟩ := h.lastSome t a hl
          refine ⟨by omega, h2, h3, ?_, ?_⟩
          · intro j s ha hj hs
            rcases Nat.lt_succ_iff_lt_or_eq.1 hj with hj | rfl
            · exact h4 j s ha hj hs
            · rw [he] at hs; simp at hs
          · intro hg j s ha hj
            rcases Nat.lt_succ_iff_lt_or_eq.1 hj with hj | rfl
            · exact h5 (fun a' b' s' t' hg' hb => hg a' b' s' t' hg' (by omega)) j s ha hj
            · rw [he]; simp
        · intro j v hj hv
          obtain ⟨a, b, s, t, h1, h2, h3, h4⟩ := h.new j v hj hv
          exact ⟨a, b, s, t, h1, h2, by omega, h4⟩
        · intro a b s t hg hb
          rcases Nat.lt_succ_iff_lt_or_eq.1 hb with hb | rfl
          · exact h.done a b s t hg hb
          · have := hg.2.2.1
            rw [he] at this; simp at this
      obtain ⟨l', hl'⟩ := interpLoopF_inv hc rest (i + 1) last col hrest hI
      exact ⟨l', by simpa [interpLoopF, hmax] using hl'⟩
    | some dt =>
      cases last with
      | none =>
        have hno := h.lastNone rfl
        have hgap : ∀ a b s t, Gap orig a b s t → b < i + 1 → False := by
          intro a b s t hg hb
          exact hno a (by have := hg.1; omega) s hg.2.1
        have hI : Inv orig maxDiff (i + 1) (some (dt, i)) col F := by
          refine ⟨h.len, h.pres, by simp, ?_, ?_, ?_⟩
          · intro t a hl
            simp only [Option.some.injEq, Prod.mk.injEq] at hl
            obtain ⟨rfl, rfl⟩ := hl
            refine ⟨by omega, he, ?_, by intros; omega, by intros; omega⟩
            intro a' b' s t hg hb
            exact (hgap a' b' s t hg (by omega)).elim
          · intro j v hj hv
            obtain ⟨a, b, s, t, h1, h2, h3, h4⟩ := h.new j v hj hv
            exact ⟨a, b, s, t, h1, h2, by omega, h4⟩
          · intro a b s t hg hb
            exact (hgap a b s t hg hb).elim
        obtain ⟨l', hl'⟩ := interpLoopF_inv hc rest (i + 1) _ col hrest hI
        exact ⟨l', by simpa [interpLoopF, hmax] using hl'⟩
      | some p =>
        obtain ⟨lt, la⟩ := p
        obtain ⟨hla, hlt, hlink, hfar, hlatest⟩ := h.lastSome lt la rfl
        have hle : lt ≤ dt := hc la i lt dt hla hlt he
        have habs : |dt - lt| = dt - lt := abs_of_nonneg (by linarith)
        by_cases hbig : |dt - lt| > maxDiff
        · have hbig' : maxDiff < dt - lt := by rw [← habs]; exact hbig
          have hI : Inv orig maxDiff (i + 1) (some (lt, la)) col F := by
            refine ⟨h.len, h.pres, by simp, ?_, ?_, ?_⟩
            · intro t a hl
              simp only [Option.some.injEq, Prod.mk.injEq] at hl
              obtain ⟨rfl, rfl⟩ := hl
              refine ⟨by omega, hlt, hlink, ?_, ?_⟩
              · intro j s ha hj hs
                rcases Nat.lt_succ_iff_lt_or_eq.1 hj with hj | rfl
                · exact hfar j s ha hj hs
                · rw [he] at hs
                  simp only [Option.some.injEq] at hs
                  subst hs; exact hbig'
              · intro hg
                exfalso
                have hl := hlatest (fun a' b' s' t' hg' hb => hg a' b' s' t' hg' (by omega))
                have : Gap orig la i lt dt := by
                  refine ⟨hla, hlt, he, ?_⟩
                  intro m h1 h2
                  have hm : m < orig.length := by omega
                  cases hom : orig[m]? with
                  | none => rw [List.getElem?_eq_none_iff] at hom; omega
                  | some o =>
                    cases o with
                    | none => rfl
                    | some s => exact (hl m s h1 h2 hom).elim
                have := hg la i lt dt this (by omega)
                linarith
            · intro j v hj hv
              obtain ⟨a, b, s, t, h1, h2, h3, h4⟩ := h.new j v hj hv
              exact ⟨a, b, s, t, h1, h2, by omega, h4⟩
            · intro a b s t hg hb hL
              rcases Nat.lt_succ_iff_lt_or_eq.1 hb with hb | rfl
              · exact h.done a b s t hg hb hL
              · exfalso
                have hl := hlatest (fun a' b' s' t' hg' hb => hL a' b' s' t' hg' (by omega))
                have hba : b = b := rfl
                have : Gap orig la b lt dt := by
                  refine ⟨hla, hlt, he, ?_⟩
                  intro m h1 h2
                  have hm : m < orig.length := by omega
                  cases hom : orig[m]? with
                  | none => rw [List.getElem?_eq_none_iff] at hom; omega
                  | some o =>
                    cases o with
                    | none => rfl
                    | some s => exact (hl m s h1 h2 hom).elim
                have := hL la b lt dt this le_rfl
                linarith
          obtain ⟨l', hl'⟩ := interpLoopF_inv hc rest (i + 1) _ col hrest hI
          exact ⟨l', by simpa [interpLoopF, hmax, hbig] using hl'⟩
        · have hclose : dt - lt ≤ maxDiff := by rw [← habs]; exact not_lt.1 hbig
          have hnone : ∀ m, la < m → m < i → orig[m]? = some none := by
            intro m h1 h2
            cases hom : orig[m]? with
            | none => rw [List.getElem?_eq_none_iff] at hom; omega
            | some o =>
              cases o with
              | none => rfl
              | some s =>
                exfalso
                have h3 := hfar m s h1 h2 hom
                have h4 := hc m i s dt h2 hom he
                linarith
          have hgap : Gap orig la i lt dt := ⟨hla, hlt, he, hnone⟩
          have hgap_unique : ∀ a' b' s' t', Gap orig a' b' s' t' → b' = i → a' = la ∧ s' = lt ∧ t' = dt := by
            rintro a' b' s' t' hg rfl
            have h1 : a' = la := by
              rcases lt_trichotomy a' la with hlt' | heq | hgt
              · have := hg.2.2.2 la hlt' hla
                rw [hlt] at this; simp at this
              · exact heq
              · have := hnone a' hgt hg.1
                rw [hg.2.1] at this; simp at this
            subst h1
            have h2 := hg.2.1
            rw [hlt] at h2
            have h3 := hg.2.2.1
            rw [he] at h3
            simp only [Option.some.injEq] at h2 h3
            exact ⟨rfl, h2.symm, h3.symm⟩
          have hlinki : Linked orig maxDiff i := by
            intro a' b' s' t' hg hb
            rcases Nat.lt_or_ge la b' with hb' | hb'
            · have : b' = i := by
                rcases Nat.lt_or_ge b' i with hbi | hbi
                · have := hnone b' hb' hbi
                  rw [hg.2.2.1] at this; simp at this
                · omega
              obtain ⟨rfl, rfl, rfl⟩ := hgap_unique a' b' s' t' hg this
              exact hclose
            · exact hlink a' b' s' t' hg hb'
          have hI : Inv orig maxDiff (i + 1) (some (dt, i)) (fillWith F col la lt i dt) F := by
            refine ⟨by rw [fillWith_length, h.len], ?_, by simp, ?_, ?_, ?_⟩
            · intro j t hj
              rw [fillWith_get, if_neg, h.pres j t hj]
              rintro ⟨h1, h2, -⟩
              have := hnone j h1 h2
              rw [hj] at this; simp at this
            · intro t a hl
              simp only [Option.some.injEq, Prod.mk.injEq] at hl
              obtain ⟨rfl, rfl⟩ := hl
              exact ⟨by omega, he, hlinki, by intros; omega, by intros; omega⟩
            · intro j v hj hv
              rw [fillWith_get] at hv
              by_cases hcond : la < j ∧ j < i ∧ j < col.length
              · rw [if_pos hcond] at hv
                simp only [Option.some.injEq] at hv
                exact ⟨la, i, lt, dt, hcond.1, hcond.2.1, by omega, hgap, hlinki, hv.symm⟩
              · rw [if_neg hcond] at hv
                obtain ⟨a, b, s, t, h1, h2, h3, h4⟩ := h.new j v hj hv
                exact ⟨a, b, s, t, h1, h2, by omega, h4⟩
            · intro a b s t hg hb hL j h1 h2
              rcases Nat.lt_succ_iff_lt_or_eq.1 hb with hb | hb
              · rw [fillWith_get, if_neg, h.done a b s t hg hb hL j h1 h2]
                rintro ⟨h3, h4, -⟩
                have : b ≤ la := by
                  by_contra hn
                  have := hnone b (by omega) hb
                  rw [hg.2.2.1] at this; simp at this
                omega
              · obtain ⟨rfl, rfl, rfl⟩ := hgap_unique a b s t hg hb
                subst hb
                rw [fillWith_get, if_pos ⟨h1, h2, by rw [h.len]; omega⟩]
          obtain ⟨l', hl'⟩ := interpLoopF_inv hc rest (i + 1) _ _ hrest hI
          exact ⟨l', by simpa [interpLoopF, hmax, hbig] using hl'⟩

end

theorem interpolateDatetime_inv {orig : List (Option Rat)} (maxDiff : Rat) (hc : Chronological orig) :
    ∃ last, Inv orig maxDiff orig.length last (interpolateDatetime maxDiff orig) := by
  have h0 : Inv orig maxDiff 0 none orig := by
    refine ⟨rfl, fun _ _ h => h, by intros; omega, by simp, ?_, by intros; omega⟩
    intro j v h1 h2
    rw [h1] at h2; simp at h2
  obtain ⟨l, hl⟩ := interpLoopF_inv hc orig 0 none orig (by simp) h0
  exact ⟨l, by simpa [interpolateDatetime, interpLoop_affine] using hl⟩

/-! ### Picking rows -/

/-- The entries at the given positions. -/
def pick {α : Type} (ks : List Nat) (l : List α) : List α := ks.filterMap (l[·]?)

theorem pick_get {α : Type} {ks : List Nat} {l : List α} (h : ∀ k ∈ ks, k < l.length) (j : Nat) :
    (pick ks l)[j]? = ks[j]?.bind (l[·]?) := by
  induction ks generalizing j with
  | nil => simp [pick]
  | cons k ks ih =>
    have hk : k < l.length := h k List.mem_cons_self
    have : pick (k :: ks) l = l[k] :: pick ks l := by simp [pick, hk]
    rw [this]
    cases j with
    | zero => simp [hk]
    | succ j => simp [ih fun k hk => h k (List.mem_cons_of_mem _ hk)]

theorem pick_length {α : Type} {ks : List Nat} {l : List α} (h : ∀ k ∈ ks, k < l.length) :
    (pick ks l).length = ks.length := by
  induction ks with
  | nil => rfl
  | cons k ks ih =>
    have hk : k < l.length := h k List.mem_cons_self
    have : pick (k :: ks) l = l[k] :: pick ks l := by simp [pick, hk]
    rw [this]
    simp [ih fun k hk => h k (List.mem_cons_of_mem _ hk)]

theorem dropIdx_eq_pick_aux {α : Type} (idx : List Nat) (pre l : List α) :
    Data.dropIdx (idx.map Int.ofNat) pre.length l =
      pick ((List.range' pre.length l.length).filter (fun i => ! decide (i ∈ idx))) (pre ++ l) := by
  induction l generalizing pre with
  | nil => simp [Data.dropIdx, pick]
  | cons x l ih =>
    have ih' := ih (pre ++ [x])
    simp only [List.length_append, List.length_cons, List.length_nil, Nat.zero_add, List.append_assoc,
      List.singleton_append] at ih'
    have hmem : ((pre.length : Int) ∈ idx.map Int.ofNat) ↔ pre.length ∈ idx := by
      simp
    have hr : List.range' pre.length (x :: l).length = pre.length :: List.range' (pre.length + 1) l.length := by
      simp [List.range'_succ]
    rw [hr]
    by_cases h : pre.length ∈ idx
    · simp only [Data.dropIdx, hmem, h, if_true, ih', List.filter_cons, decide_true, Bool.not_true,
        Bool.false_eq_true, if_false]
    · simp only [Data.dropIdx, hmem, h, if_false, ih', List.filter_cons, decide_false, Bool.not_false, if_true]
      simp [pick]

theorem dropIdx_eq_pick {α : Type} (idx : List Nat) (l : List α) :
    Data.dropIdx (idx.map Int.ofNat) 0 l =
      pick ((List.range l.length).filter (fun i => ! decide (i ∈ idx))) l := by
  have := dropIdx_eq_pick_aux idx [] l
  simpa [List.range_eq_range'] using this

theorem mem_indicesFrom {α : Type} {cond : α → Bool} {s : Nat} {l : List α} {i : Nat} :
    i ∈ indicesFrom cond s l ↔ ∃ j x, i = s + j ∧ l[j]? = some x ∧ cond x = true := by
  induction l generalizing s with
  | nil => simp [indicesFrom]
  | cons y l ih =>
    have hstep : (∃ j x, i = s + 1 + j ∧ l[j]? = some x ∧ cond x = true) ↔
        ∃ j x, i = s + (j + 1) ∧ l[j]? = some x ∧ cond x = true := by
      constructor
      · rintro ⟨j, x, rfl, h⟩; exact ⟨j, x, by omega, h⟩
      · rintro ⟨j, x, rfl, h⟩; exact ⟨j, x, by omega, h⟩
    have hsplit : (∃ j x, i = s + j ∧ (y :: l)[j]? = some x ∧ cond x = true) ↔
        (i = s ∧ cond y = true) ∨ ∃ j x, i = s + (j + 1) ∧ l[j]? = some x ∧ cond x = true := by
      constructor
      · rintro ⟨j, x, hi, hx, hcx⟩
        cases j with
        | zero => left; simp at hx; subst hx; exact ⟨by omega, hcx⟩
        | succ j => right; exact ⟨j, x, hi, by simpa using hx, hcx⟩
      · rintro (⟨rfl, h⟩ | ⟨j, x, rfl, hx, hcx⟩)
        · exact ⟨0, y, by omega, rfl, h⟩
        · exact ⟨j + 1, x, rfl, by simpa using hx, hcx⟩
    rw [hsplit, ← hstep, ← ih]
    by_cases h : cond y = true
    · simp [indicesFrom, h]
    · simp [indicesFrom, h]

theorem mem_indices {α : Type} {cond : α → Bool} {l : List α} {i : Nat} :
    i ∈ indicesFrom cond 0 l ↔ ∃ x, l[i]? = some x ∧ cond x = true := by
  rw [mem_indicesFrom]
  constructor
  · rintro ⟨j, x, rfl, h⟩; exact ⟨x, by simpa using h⟩
  · rintro ⟨x, h⟩; exact ⟨i, x, by omega, h⟩

theorem nodup_indicesFrom {α : Type} {cond : α → Bool} {s : Nat} {l : List α} : (indicesFrom cond s l).Nodup := by
  induction l generalizing s with
  | nil => simp [indicesFrom]
  | cons y l ih =>
    by_cases h : cond y = true
    · simp only [indicesFrom, h, if_true, List.nodup_cons]
      refine ⟨?_, ih⟩
      rw [mem_indicesFrom]
      rintro ⟨j, x, hj, -⟩
      omega
    · simp only [indicesFrom, h]
      exact ih

theorem length_indicesFrom {α : Type} (cond : α → Bool) (s : Nat) (l : List α) :
    (indicesFrom cond s l).length = l.countP cond := by
  induction l generalizing s with
  | nil => rfl
  | cons x l ih =>
    by_cases h : cond x = true
    · simp [indicesFrom, h, ih]
    · simp [indicesFrom, h, ih]

theorem length_filter_not_mem {idx : List Nat} {n : Nat} (hnd : idx.Nodup) (hlt : ∀ i ∈ idx, i < n) :
    idx.length + ((List.range n).filter fun i => ! decide (i ∈ idx)).length = n := by
  have h1 := List.length_eq_length_filter_add (l := List.range n) (fun i => decide (i ∈ idx))
  have h2 : ((List.range n).filter fun i => decide (i ∈ idx)).Perm idx := by
    rw [List.perm_ext_iff_of_nodup (List.nodup_range.filter _) hnd]
    intro i
    simp only [List.mem_filter, List.mem_range, decide_eq_true_eq]
    exact ⟨fun h => h.2, fun h => ⟨hlt i h, h⟩⟩
  rw [h2.length_eq, List.length_range] at h1
  exact h1.symm

/-! ### The fill loop -/

section fill

variable {κ V : Type}

/-- The value of entry `i` after the fill loop. -/
def filledEntry (f : Fills κ V) (maxDiff : Rat) (times : List Rat) (key : κ) (col : List (Option V)) (i : Nat) :
    Option V :=
  if i ∈ indicesFrom Option.isSome 0 col then col.getD i none
  else (fillEntry f maxDiff times (indicesFrom Option.isSome 0 col) key col i).getD none

theorem startIdx_mem {maxDiff : Rat} {times : List Rat} {i s : Nat} {idx : List Nat}
    (h : startIdx maxDiff times i idx = some s) : s ∈ idx :=
  (List.mem_filter.1 (List.max?_mem h)).1

theorem endIdx_mem {maxDiff : Rat} {times : List Rat} {i s : Nat} {idx : List Nat}
    (h : endIdx maxDiff times i idx = some s) : s ∈ idx :=
  (List.mem_filter.1 (List.min?_mem h)).1

theorem fillEntry_congr (f : Fills κ V) (maxDiff : Rat) (times : List Rat) (idx : List Nat) (key : κ)
    {c c' : List (Option V)} (h : ∀ j ∈ idx, c.getD j none = c'.getD j none) (i : Nat) :
    fillEntry f maxDiff times idx key c i = fillEntry f maxDiff times idx key c' i := by
  unfold fillEntry
  cases hs : startIdx maxDiff times i idx with
  | none =>
    cases he : endIdx maxDiff times i idx with
    | none => rfl
    | some e => simp only [h e (endIdx_mem he)]
  | some s =>
    cases he : endIdx maxDiff times i idx with
    | none => simp only [h s (startIdx_mem hs)]
    | some e => simp only [h s (startIdx_mem hs), h e (endIdx_mem he)]

theorem fillLoop_inv (f : Fills κ V) (maxDiff : Rat) (times : List Rat) (key : κ) (col : List (Option V)) :
    ∀ (is : List Nat) (st : List (Option V) × Nat), is.Nodup → (∀ i ∈ is, i < col.length) →
      st.1.length = col.length →
      (∀ j, j ∈ indicesFrom Option.isSome 0 col → st.1[j]? = col[j]?) →
      (∀ j ∈ is, st.1[j]? = col[j]?) →
      (fillLoop f maxDiff times (indicesFrom Option.isSome 0 col) key is st).1.length = col.length ∧
      ∀ j, (fillLoop f maxDiff times (indicesFrom Option.isSome 0 col) key is st).1[j]? =
        if j ∈ is then some (filledEntry f maxDiff times key col j) else st.1[j]?
  | [], st, _, _, hl, _, _ => by simp [fillLoop, hl]
  | i :: is, st, hnd, hlt, hl, hidx, hrest => by
    rw [List.nodup_cons] at hnd
    have hil : i < col.length := hlt i List.mem_cons_self
    have hcongr : fillEntry f maxDiff times (indicesFrom Option.isSome 0 col) key st.1 i =
        fillEntry f maxDiff times (indicesFrom Option.isSome 0 col) key col i :=
      fillEntry_congr f maxDiff times _ key (fun j hj => by simp [List.getD_eq_getElem?_getD, hidx j hj]) i
    by_cases hi : i ∈ indicesFrom Option.isSome 0 col
    · obtain ⟨h1, h2⟩ := fillLoop_inv f maxDiff times key col is st hnd.2
        (fun j hj => hlt j (List.mem_cons_of_mem _ hj)) hl hidx (fun j hj => hrest j (List.mem_cons_of_mem _ hj))
      simp only [fillLoop, hi, if_true]
      refine ⟨h1, fun j => ?_⟩
      rw [h2 j]
      by_cases hji : j = i
      · subst hji
        simp only [hnd.1, if_false, List.mem_cons, true_or, if_true, filledEntry, hi]
        rw [hidx j hi, List.getD_eq_getElem?_getD, List.getElem?_eq_getElem hil]
        rfl
      · simp [hji]
    · cases hf : fillEntry f maxDiff times (indicesFrom Option.isSome 0 col) key col i with
      | none =>
        obtain ⟨h1, h2⟩ := fillLoop_inv f maxDiff times key col is st hnd.2
          (fun j hj => hlt j (List.mem_cons_of_mem _ hj)) hl hidx
          (fun j hj => hrest j (List.mem_cons_of_mem _ hj))
        simp only [fillLoop, hi, if_false, hcongr, hf]
        refine ⟨h1, fun j => ?_⟩
        rw [h2 j]
        by_cases hji : j = i
        · subst hji
          simp only [hnd.1, if_false, List.mem_cons, true_or, if_true, filledEntry, hi, hf, Option.getD_none]
          rw [hrest j List.mem_cons_self, List.getElem?_eq_getElem hil]
          rw [mem_indices] at hi
          push Not at hi
          have := hi _ (List.getElem?_eq_getElem hil)
          simpa using this
        · simp [hji]
      | some v =>
        have hset : ∀ j, j ≠ i → (st.1.set i v)[j]? = st.1[j]? := by
          intro j hj
          rw [List.getElem?_set_ne (fun h => hj h.symm)]
        obtain ⟨h1, h2⟩ := fillLoop_inv f maxDiff times key col is (st.1.set i v, st.2 + 1) hnd.2
          (fun j hj => hlt j (List.mem_cons_of_mem _ hj)) (by simp [hl])
          (fun j hj => by
            rw [hset j (fun h => hi (h ▸ hj))]; exact hidx j hj)
          (fun j hj => by
            rw [hset j (fun h => hnd.1 (h ▸ hj))]; exact hrest j (List.mem_cons_of_mem _ hj))
        simp only [fillLoop, hi, if_false, hcongr, hf]
        refine ⟨h1, fun j => ?_⟩
        rw [h2 j]
        by_cases hji : j = i
        · subst hji
          simp only [hnd.1, if_false, List.mem_cons, true_or, if_true, filledEntry, hi, hf, Option.getD_some]
          rw [List.getElem?_set_self (by omega)]
        · simp only [List.mem_cons, hji, false_or, hset j hji]

theorem fillCol_length (f : Fills κ V) (maxDiff : Rat) (times : List Rat) (key : κ) (col : List (Option V)) :
    (fillCol f maxDiff times key col).1.length = col.length :=
  (fillLoop_inv f maxDiff times key col (List.range col.length) (col, 0) List.nodup_range
    (by simp) rfl (by simp) (by simp)).1

theorem fillCol_get (f : Fills κ V) (maxDiff : Rat) (times : List Rat) (key : κ) (col : List (Option V)) {j : Nat}
    (hj : j < col.length) :
    (fillCol f maxDiff times key col).1[j]? = some (filledEntry f maxDiff times key col j) := by
  have := (fillLoop_inv f maxDiff times key col (List.range col.length) (col, 0) List.nodup_range
    (by simp) rfl (by simp) (by simp)).2 j
  rw [fillCol, this]
  simp [hj]

theorem filledEntry_present (f : Fills κ V) (maxDiff : Rat) (times : List Rat) (key : κ) {col : List (Option V)}
    {j : Nat} {v : V} (h : col[j]? = some (some v)) : filledEntry f maxDiff times key col j = some v := by
  have : j ∈ indicesFrom Option.isSome 0 col := mem_indices.2 ⟨_, h, rfl⟩
  simp [filledEntry, this, List.getD_eq_getElem?_getD, h]

end fill

/-! ### The phases of the imputation -/

/-- The rows kept after the interpolation of the time stamps. -/
def kept1 (times1 : List (Option Rat)) : List Nat :=
  (List.range times1.length).filter fun i => ! decide (i ∈ indicesFrom Option.isNone 0 times1)

theorem mem_kept1 {times1 : List (Option Rat)} {i : Nat} :
    i ∈ kept1 times1 ↔ ∃ t, times1[i]? = some (some t) := by
  simp only [kept1, List.mem_filter, List.mem_range, Bool.not_eq_true', decide_eq_false_iff_not, mem_indices]
  constructor
  · rintro ⟨h1, h2⟩
    cases ho : times1[i]? with
    | none => rw [List.getElem?_eq_none_iff] at ho; omega
    | some o =>
      cases o with
      | none => exact (h2 ⟨none, ho, rfl⟩).elim
      | some t => exact ⟨t, rfl⟩
  · rintro ⟨t, ht⟩
    refine ⟨(List.getElem?_eq_some_iff.1 ht).1, ?_⟩
    rintro ⟨x, hx, hn⟩
    rw [ht] at hx
    cases hx
    simp at hn

theorem kept1_lt {times1 : List (Option Rat)} {i : Nat} (h : i ∈ kept1 times1) : i < times1.length := by
  obtain ⟨t, ht⟩ := mem_kept1.1 h
  exact (List.getElem?_eq_some_iff.1 ht).1

theorem pick_times {times1 : List (Option Rat)} {ks : List Nat} (h : ∀ i ∈ ks, ∃ t, times1[i]? = some (some t)) :
    ((pick ks times1).filterMap id).length = ks.length ∧
    ∀ (j i : Nat) (t : Rat), ks[j]? = some i → times1[i]? = some (some t) → ((pick ks times1).filterMap id)[j]? = some t := by
  induction ks with
  | nil => simp [pick]
  | cons k ks ih =>
    obtain ⟨t, ht⟩ := h k List.mem_cons_self
    obtain ⟨ih1, ih2⟩ := ih fun i hi => h i (List.mem_cons_of_mem _ hi)
    have : (pick (k :: ks) times1).filterMap id = t :: (pick ks times1).filterMap id := by
      simp [pick, ht]
    rw [this]
    refine ⟨by rw [List.length_cons, ih1, List.length_cons], ?_⟩
    intro j i u hj hi
    cases j with
    | zero =>
      simp only [List.getElem?_cons_zero, Option.some.injEq] at hj ⊢
      subst hj
      rw [ht] at hi
      simpa using hi
    | succ j => exact ih2 j i u (by simpa using hj) hi

end Verif.Imputator
