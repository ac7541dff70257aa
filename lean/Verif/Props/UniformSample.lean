import Mathlib.Probability.Independence.InfinitePi
import Mathlib.MeasureTheory.Measure.Lebesgue.Basic
import Verif.Model.UniformSample
import Verif.Props.SpiralSquare

/-!
# Property C138: `UniformRandomSampler` returns independent points that are uniformly distributed in the convex hull

If the numbers of the generator are independent and uniformly distributed in `[0, 1)`, then the sampler returns almost
surely, and its points are independent and uniformly distributed in the convex hull of the given points.
-/

set_option linter.unusedSectionVars false

namespace Verif.Sampler

open MeasureTheory ProbabilityTheory Measure

/-! ## One round -/

/-- The uniform distribution in `[0, 1)`. -/
noncomputable abbrev unit01 : Measure ℝ := volume.restrict (Set.Ico 0 1)

instance : IsProbabilityMeasure unit01 := ⟨by simp [unit01]⟩

/-- Independent numbers, uniformly distributed in `[0, 1)`. -/
noncomputable abbrev stream : Measure (ℕ → ℝ) := infinitePi fun _ => unit01

/-- Where the numbers of one round are taken from. -/
def place (m : ℕ) : (Σ i : Option (Fin m), i.elim ℕ fun _ => Bool) → ℕ
  | ⟨none, k⟩ => Nat.add (2 * m) k
  | ⟨some j, false⟩ => j
  | ⟨some j, true⟩ => m + j

theorem place_none (m k : ℕ) : place m ⟨none, k⟩ = 2 * m + k := rfl

theorem place_some (m : ℕ) (j : Fin m) (b : Bool) : place m ⟨some j, b⟩ = if b then m + (j : ℕ) else j := by
  cases b <;> rfl

theorem place_injective (m : ℕ) : Function.Injective (place m) := by
  have key : ∀ (j : Fin m) (b : Bool), place m ⟨some j, b⟩ < 2 * m := by
    intro j b
    have := j.2
    rw [place_some]
    split <;> omega
  rintro ⟨_ | i, k⟩ ⟨_ | j, l⟩ h
  · have : k = l := Nat.add_left_cancel (n := 2 * m) h
    rw [this]
  · have := key j l
    rw [← h, show place m ⟨none, k⟩ = 2 * m + _ from rfl] at this
    omega
  · have := key i k
    rw [h, show place m ⟨none, l⟩ = 2 * m + _ from rfl] at this
    omega
  · have h1 := i.2
    have h2 := j.2
    have h := ((place_some m i k).symm.trans h).trans (place_some m j l)
    cases k <;> cases l
    · rw [Fin.ext (by simpa using h : (i : ℕ) = j)]
    · simp at h; omega
    · simp at h; omega
    · rw [Fin.ext (by simpa using h : (i : ℕ) = j)]

/-- The winds of one round and the numbers left over are independent. -/
theorem round_indep {m : ℕ} {S : Fin m → Set (ℝ × ℝ)} (hS : ∀ j, MeasurableSet (S j)) {T : Set (ℕ → ℝ)}
    (hT : MeasurableSet T) :
    stream {z | (∀ j : Fin m, (z j, z (m + j)) ∈ S j) ∧ (fun k => z (2 * m + k)) ∈ T} =
      (∏ j, (unit01.prod unit01) (S j)) * stream T := by
  classical
  let κ : Option (Fin m) → Type := fun i => i.elim ℕ fun _ => Bool
  let U : (i : Option (Fin m)) → Set (κ i → ℝ) := fun i => match i with
    | none => T
    | some j => {x | (x false, x true) ∈ S j}
  have hU : ∀ i, MeasurableSet (U i) := by
    rintro (_ | j)
    · exact hT
    · exact (hS j).preimage (by fun_prop)
  have h1 := map_infinitePi_infinitePi_of_inj (P := fun _ : ℕ => unit01) (place_injective m)
  have h2 := infinitePi_map_piCurry (ι := Option (Fin m)) (κ := κ) (X := fun _ _ => ℝ) (fun _ _ => unit01)
  have h3 : stream.map (fun z (i : Option (Fin m)) (k : κ i) => z (place m ⟨i, k⟩)) =
      infinitePi fun i : Option (Fin m) => infinitePi fun _ : κ i => unit01 := by
    rw [← h2, ← h1, map_map (MeasurableEquiv.measurable _) (by fun_prop)]
    rfl
  have h4 : stream {z | (∀ j : Fin m, (z j, z (m + j)) ∈ S j) ∧ (fun k => z (2 * m + k)) ∈ T} =
      (stream.map (fun z (i : Option (Fin m)) (k : κ i) => z (place m ⟨i, k⟩)))
        (Set.pi (Finset.univ : Finset (Option (Fin m))) U) := by
    rw [map_apply (by fun_prop) (MeasurableSet.pi (Set.to_countable _) fun i _ => hU i)]
    congr 1
    ext z
    simp only [Set.mem_setOf_eq, Set.mem_preimage, Finset.coe_univ, Set.mem_univ_pi]
    constructor
    · rintro ⟨h, h'⟩ (_ | j)
      · exact h'
      · exact h j
    · intro h
      exact ⟨fun j => h (some j), h none⟩
  rw [h4, h3, infinitePi_pi _ fun i _ => hU i, Fintype.prod_option, mul_comm]
  congr 1
  refine Finset.prod_congr rfl fun j _ => ?_
  have h5 := infinitePi_map_eval_prod (P := fun _ : Bool => unit01) (i := false) (j := true) (by decide)
  rw [← h5, map_apply (by fun_prop) (hS j)]
  rfl

/-! ## Which winds of a round are kept -/

/-- The winds of a round are kept according to the pattern `φ` and the kept ones are in the sets of `A` iff they are in
these sets. -/
def slots (H : Set (ℝ × ℝ)) : List Bool → List (Set (ℝ × ℝ)) → List (Set (ℝ × ℝ))
  | [], _ => []
  | true :: φ, [] => H :: slots H φ []
  | true :: φ, B :: A => (H ∩ B) :: slots H φ A
  | false :: φ, A => Hᶜ :: slots H φ A

theorem slots_length (H : Set (ℝ × ℝ)) : ∀ φ A, (slots H φ A).length = φ.length
  | [], _ => by simp [slots]
  | true :: φ, [] => by simp [slots, slots_length H φ []]
  | true :: φ, B :: A => by simp [slots, slots_length H φ A]
  | false :: φ, A => by simp [slots, slots_length H φ A]

theorem slots_measurable {H : Set (ℝ × ℝ)} (hH : MeasurableSet H) : ∀ (φ : List Bool) (A : List (Set (ℝ × ℝ))),
    (∀ B ∈ A, MeasurableSet B) → ∀ B ∈ slots H φ A, MeasurableSet B
  | [], _, _, B, hB => by simp [slots] at hB
  | true :: φ, [], h, B, hB => by
    rcases List.mem_cons.1 hB with rfl | hB
    · exact hH
    · exact slots_measurable hH φ [] h B hB
  | true :: φ, C :: A, h, B, hB => by
    rcases List.mem_cons.1 hB with rfl | hB
    · exact hH.inter (h C (by simp))
    · exact slots_measurable hH φ A (fun D hD => h D (by simp [hD])) B hB
  | false :: φ, A, h, B, hB => by
    rw [slots] at hB
    rcases List.mem_cons.1 hB with rfl | hB
    · exact hH.compl
    · exact slots_measurable hH φ A h B hB

theorem slots_iff {H : Set (ℝ × ℝ)} {f : ℝ × ℝ → Bool} (hf : ∀ p, f p = true ↔ p ∈ H) :
    ∀ (l : List (ℝ × ℝ)) (φ : List Bool) (A : List (Set (ℝ × ℝ))), φ.count true ≤ A.length →
      (List.Forall₂ (· ∈ ·) l (slots H φ A) ↔
        l.map f = φ ∧ List.Forall₂ (· ∈ ·) (l.filter f) (A.take (φ.count true)))
  | [], [], A, _ => by simp [slots]
  | [], b :: φ, A, _ => by
    have := slots_length H (b :: φ) A
    constructor
    · intro h
      have := h.length_eq
      simp_all
    · simp
  | p :: l, [], A, _ => by simp [slots]
  | p :: l, true :: φ, [], h => by simp at h
  | p :: l, true :: φ, B :: A, h => by
    have ih := slots_iff hf l φ A (by simpa using h)
    rw [slots, List.forall₂_cons, ih, List.count_cons_self, List.take_succ_cons, List.map_cons]
    by_cases hp : f p = true
    · rw [List.filter_cons_of_pos hp, List.forall₂_cons, hp]
      simp only [Set.mem_inter_iff, (hf p).1 hp, true_and, List.cons.injEq]
      tauto
    · have : p ∉ H := fun h' => hp ((hf p).2 h')
      simp [this, hp]
  | p :: l, false :: φ, A, h => by
    have hc : (false :: φ).count true = φ.count true := by simp
    rw [hc] at h ⊢
    have ih := slots_iff hf l φ A h
    rw [slots, List.forall₂_cons, ih, List.map_cons]
    by_cases hp : f p = true
    · have := (hf p).1 hp
      simp [this, hp]
    · have : p ∉ H := fun h' => hp ((hf p).2 h')
      rw [List.filter_cons_of_neg hp]
      simp [this, hp]

theorem slots_prod {H : Set (ℝ × ℝ)} {π q : Set (ℝ × ℝ) → ENNReal} : ∀ (φ : List Bool) (A : List (Set (ℝ × ℝ))),
    (∀ B ∈ A, π (H ∩ B) = q B * π H) → φ.count true ≤ A.length →
      ((slots H φ A).map π).prod =
        ((A.take (φ.count true)).map q).prod * (φ.map fun b => π (if b then H else Hᶜ)).prod
  | [], A, _, _ => by simp [slots]
  | true :: φ, [], _, h => by simp at h
  | true :: φ, B :: A, hq, h => by
    have ih := slots_prod φ A (fun C hC => hq C (by simp [hC])) (by simpa using h)
    rw [slots, List.map_cons, List.prod_cons, ih, hq B (by simp), List.count_cons_self, List.take_succ_cons]
    simp only [List.map_cons, List.prod_cons, if_true]
    ring
  | false :: φ, A, hq, h => by
    have hc : (false :: φ).count true = φ.count true := by simp
    rw [hc] at h ⊢
    have ih := slots_prod φ A hq h
    rw [slots, List.map_cons, List.prod_cons, ih]
    simp only [List.map_cons, List.prod_cons, Bool.false_eq_true, if_false]
    ring

theorem forall₂_ofFn {m : ℕ} {l : Fin m → ℝ × ℝ} {s : List (Set (ℝ × ℝ))} (hs : s.length = m) :
    List.Forall₂ (· ∈ ·) (List.ofFn l) s ↔ ∀ j : Fin m, l j ∈ s.getD j Set.univ := by
  subst hs
  rw [List.forall₂_iff_get]
  simp only [List.length_ofFn, true_and, List.get_eq_getElem, List.getElem_ofFn]
  constructor
  · intro h j
    have := h j j.2 j.2
    simpa using this
  · intro h i h1 h2
    have := h ⟨i, h1⟩
    simpa [h1] using this

theorem prod_getD {m : ℕ} {s : List (Set (ℝ × ℝ))} (hs : s.length = m) (π : Set (ℝ × ℝ) → ENNReal) :
    ∏ j : Fin m, π (s.getD j Set.univ) = (s.map π).prod := by
  subst hs
  rw [← List.prod_ofFn]
  congr 1
  refine List.ext_getElem (by simp) fun i h1 h2 => ?_
  have : i < s.length := by simpa using h1
  simp [this]

/-! ## The loop -/

theorem uniformDraws_append (ineqs : List (Facet ℝ)) (bounds : (ℝ × ℝ) × (ℝ × ℝ)) : ∀ (F n : ℕ) (z : ℕ → ℝ)
    (s : List (ℝ × ℝ)), uniformDraws ineqs bounds n F z s =
      (uniformDraws ineqs bounds (n - s.length) F z []).map (s ++ ·)
  | 0, n, z, s => rfl
  | F + 1, n, z, s => by
    rw [uniformDraws, uniformDraws]
    by_cases h : s.length < n
    · rw [if_pos h, if_pos (by simpa using h)]
      simp only [List.length_nil, Nat.sub_zero, List.nil_append]
      rw [uniformDraws_append ineqs bounds F n, uniformDraws_append ineqs bounds F (n - s.length)]
      rw [List.length_append, Nat.sub_sub, Option.map_map]
      congr 1
      ext out : 1
      simp
    · rw [if_neg h, if_neg (by simpa using h)]
      simp

/-- The random numbers with which the loop ends after at most `F` rounds with points in the sets of `A`. -/
def hitsF (ineqs : List (Facet ℝ)) (bounds : (ℝ × ℝ) × (ℝ × ℝ)) (F : ℕ) (A : List (Set (ℝ × ℝ))) : Set (ℕ → ℝ) :=
  {z | ∃ out, uniformDraws ineqs bounds A.length F z [] = some out ∧ List.Forall₂ (· ∈ ·) out A}

/-- The wind for two numbers. -/
def toWind (bounds : (ℝ × ℝ) × (ℝ × ℝ)) (u : ℝ × ℝ) : ℝ × ℝ :=
  (bounds.1.1 + (bounds.1.2 - bounds.1.1) * u.1, bounds.2.1 + (bounds.2.2 - bounds.2.1) * u.2)

theorem measurable_toWind (bounds : (ℝ × ℝ) × (ℝ × ℝ)) : Measurable (toWind bounds) := by
  unfold toWind
  fun_prop

theorem uniformWinds_eq (bounds : (ℝ × ℝ) × (ℝ × ℝ)) (m : ℕ) (z : ℕ → ℝ) :
    uniformWinds bounds m z = List.ofFn fun j : Fin m => toWind bounds (z j, z (m + j)) := by
  refine List.ext_getElem (by simp [uniformWinds]) fun i h1 h2 => ?_
  simp [uniformWinds, toWind]

theorem measurable_inside (ineqs : List (Facet ℝ)) : MeasurableSet {p | inHull ineqs p = true} := by
  have : {p : ℝ × ℝ | inHull ineqs p = true} = ⋂ q ∈ {q | q ∈ ineqs}, {p : ℝ × ℝ | q.1 * p.1 + q.2.1 * p.2 ≤ -q.2.2} := by
    ext p
    simp [inHull]
  rw [this]
  exact MeasurableSet.biInter (List.finite_toSet ineqs).countable fun q _ =>
    measurableSet_le (by fun_prop) (by fun_prop)

variable {ineqs : List (Facet ℝ)} {bounds : (ℝ × ℝ) × (ℝ × ℝ)}

/-- The random numbers with which the first round keeps the winds of the pattern `φ`, these winds are in the first sets
of `A`, and the numbers left over are in `T`. -/
def firstRound (ineqs : List (Facet ℝ)) (bounds : (ℝ × ℝ) × (ℝ × ℝ)) (A : List (Set (ℝ × ℝ)))
    (φ : Fin A.length → Bool) (T : Set (ℕ → ℝ)) : Set (ℕ → ℝ) :=
  {z | (∀ j : Fin A.length, (z j, z (A.length + j)) ∈
      toWind bounds ⁻¹' (slots {p | inHull ineqs p = true} (List.ofFn φ) A).getD j Set.univ) ∧
    (fun k => z (2 * A.length + k)) ∈ T}

theorem count_ofFn_le {m : ℕ} (φ : Fin m → Bool) : (List.ofFn φ).count true ≤ m := by
  have := List.count_le_length (a := true) (l := List.ofFn φ)
  simpa using this

theorem mem_firstRound {A : List (Set (ℝ × ℝ))} {φ : Fin A.length → Bool} {T : Set (ℕ → ℝ)} {z : ℕ → ℝ} :
    z ∈ firstRound ineqs bounds A φ T ↔ (uniformWinds bounds A.length z).map (inHull ineqs) = List.ofFn φ ∧
      List.Forall₂ (· ∈ ·) ((uniformWinds bounds A.length z).filter (inHull ineqs))
        (A.take ((List.ofFn φ).count true)) ∧ (fun k => z (2 * A.length + k)) ∈ T := by
  rw [firstRound, Set.mem_setOf_eq, ← and_assoc, ← slots_iff (H := {p | inHull ineqs p = true}) (fun _ => Iff.rfl) _ _ _
    (count_ofFn_le φ), uniformWinds_eq, forall₂_ofFn (by rw [slots_length, List.length_ofFn])]
  rfl

theorem firstRound_disjoint {A : List (Set (ℝ × ℝ))} (T : (Fin A.length → Bool) → Set (ℕ → ℝ)) :
    Pairwise (Function.onFun Disjoint fun φ => firstRound ineqs bounds A φ (T φ)) := by
  intro φ ψ hne
  refine Set.disjoint_left.2 fun z h1 h2 => hne ?_
  exact List.ofFn_injective ((mem_firstRound.1 h1).1.symm.trans (mem_firstRound.1 h2).1)

theorem slots_getD_measurable {A : List (Set (ℝ × ℝ))} (hA : ∀ B ∈ A, MeasurableSet B) (φ : List Bool) (j : ℕ) :
    MeasurableSet ((slots {p | inHull ineqs p = true} φ A).getD j Set.univ) := by
  rw [List.getD_eq_getElem?_getD]
  cases h : (slots {p | inHull ineqs p = true} φ A)[j]? with
  | none => simp
  | some B => exact slots_measurable (measurable_inside ineqs) φ A hA B (List.mem_of_getElem? h)

theorem firstRound_measurable {A : List (Set (ℝ × ℝ))} (hA : ∀ B ∈ A, MeasurableSet B) (φ : Fin A.length → Bool)
    {T : Set (ℕ → ℝ)} (hT : MeasurableSet T) : MeasurableSet (firstRound ineqs bounds A φ T) := by
  have : {z : ℕ → ℝ | ∀ j : Fin A.length, (z j, z (A.length + j)) ∈
      toWind bounds ⁻¹' (slots {p | inHull ineqs p = true} (List.ofFn φ) A).getD j Set.univ} =
      ⋂ j : Fin A.length, {z | (z j, z (A.length + j)) ∈
      toWind bounds ⁻¹' (slots {p | inHull ineqs p = true} (List.ofFn φ) A).getD j Set.univ} := by
    ext z
    simp
  rw [firstRound, Set.setOf_and, this]
  refine MeasurableSet.inter ?_ (hT.preimage (by fun_prop))
  refine MeasurableSet.iInter fun j => ?_
  exact ((slots_getD_measurable hA _ _).preimage (measurable_toWind bounds)).preimage (by fun_prop)

/-- The distribution of one wind. -/
noncomputable def windLaw (bounds : (ℝ × ℝ) × (ℝ × ℝ)) : Measure (ℝ × ℝ) := (unit01.prod unit01).map (toWind bounds)

instance : IsProbabilityMeasure (windLaw bounds) := isProbabilityMeasure_map (measurable_toWind bounds).aemeasurable

theorem firstRound_measure {A : List (Set (ℝ × ℝ))} (hA : ∀ B ∈ A, MeasurableSet B) (φ : Fin A.length → Bool)
    {T : Set (ℕ → ℝ)} (hT : MeasurableSet T) {q : Set (ℝ × ℝ) → ENNReal}
    (hq : ∀ B ∈ A, windLaw bounds ({p | inHull ineqs p = true} ∩ B) = q B * windLaw bounds {p | inHull ineqs p = true}) :
    stream (firstRound ineqs bounds A φ T) = ((A.take ((List.ofFn φ).count true)).map q).prod *
      (∏ j, windLaw bounds (if φ j then {p | inHull ineqs p = true} else {p | inHull ineqs p = true}ᶜ)) * stream T := by
  rw [firstRound, round_indep (fun j => (slots_getD_measurable hA _ _).preimage (measurable_toWind bounds)) hT]
  congr 1
  have h1 : ∀ j : Fin A.length, (unit01.prod unit01)
      (toWind bounds ⁻¹' (slots {p | inHull ineqs p = true} (List.ofFn φ) A).getD j Set.univ) =
      windLaw bounds ((slots {p | inHull ineqs p = true} (List.ofFn φ) A).getD j Set.univ) := fun j => by
    rw [windLaw, map_apply (measurable_toWind bounds) (slots_getD_measurable hA _ _)]
  rw [Finset.prod_congr rfl fun j _ => h1 j, prod_getD (by rw [slots_length, List.length_ofFn]),
    slots_prod (H := {p | inHull ineqs p = true}) (q := q) _ _ hq (count_ofFn_le φ), List.map_ofFn, List.prod_ofFn]
  rfl

theorem hitsF_succ (F : ℕ) {A : List (Set (ℝ × ℝ))} (hne : A ≠ []) :
    hitsF ineqs bounds (F + 1) A =
      ⋃ φ : Fin A.length → Bool, firstRound ineqs bounds A φ (hitsF ineqs bounds F (A.drop ((List.ofFn φ).count true))) := by
  ext z
  have hpos : ([] : List (ℝ × ℝ)).length < A.length := List.length_pos_iff.2 hne
  have hcount : ∀ φ : Fin A.length → Bool, (uniformWinds bounds A.length z).map (inHull ineqs) = List.ofFn φ →
      ((uniformWinds bounds A.length z).filter (inHull ineqs)).length = (List.ofFn φ).count true := by
    intro φ h
    rw [← h, List.count_eq_countP, List.countP_map, List.countP_eq_length_filter]
    congr 1
    refine List.filter_congr fun p _ => ?_
    simp
  rw [hitsF, Set.mem_setOf_eq, uniformDraws, if_pos hpos, Set.mem_iUnion]
  simp only [List.length_nil, Nat.sub_zero, List.nil_append]
  rw [uniformDraws_append]
  constructor
  · rintro ⟨out, h1, h2⟩
    obtain ⟨out', h3, rfl⟩ := Option.map_eq_some_iff.1 h1
    obtain ⟨φ, hφ⟩ : ∃ φ : Fin A.length → Bool, (uniformWinds bounds A.length z).map (inHull ineqs) = List.ofFn φ := by
      rw [uniformWinds_eq, List.map_ofFn]
      exact ⟨_, rfl⟩
    refine ⟨φ, mem_firstRound.2 ⟨hφ, ?_, ?_⟩⟩
    · rw [← hcount φ hφ]
      have := List.forall₂_take ((uniformWinds bounds A.length z).filter (inHull ineqs)).length h2
      rwa [List.take_left] at this
    · rw [← hcount φ hφ]
      have := List.forall₂_drop ((uniformWinds bounds A.length z).filter (inHull ineqs)).length h2
      rw [List.drop_left] at this
      exact ⟨out', by rw [List.length_drop]; exact h3, this⟩
  · rintro ⟨φ, hz⟩
    obtain ⟨hφ, h1, out', h2, h3⟩ := mem_firstRound.1 hz
    rw [List.length_drop, ← hcount φ hφ] at h2
    refine ⟨_, by rw [h2]; rfl, ?_⟩
    have := List.rel_append h1 h3
    rwa [show (fun x1 x2 : List (Set (ℝ × ℝ)) => x1 ++ x2) (A.take ((List.ofFn φ).count true))
      (A.drop ((List.ofFn φ).count true)) = A from List.take_append_drop _ A] at this

theorem hitsF_measurable : ∀ (F : ℕ) {A : List (Set (ℝ × ℝ))}, (∀ B ∈ A, MeasurableSet B) →
    MeasurableSet (hitsF ineqs bounds F A)
  | 0, A, _ => by
    have : hitsF ineqs bounds 0 A = ∅ := by
      ext z
      simp [hitsF, uniformDraws]
    rw [this]
    exact MeasurableSet.empty
  | F + 1, A, hA => by
    by_cases hne : A = []
    · subst hne
      have : hitsF ineqs bounds (F + 1) [] = Set.univ := by
        ext z
        simp [hitsF, uniformDraws]
      rw [this]
      exact MeasurableSet.univ
    · rw [hitsF_succ F hne]
      exact MeasurableSet.iUnion fun φ => firstRound_measurable hA φ
        (hitsF_measurable F fun B hB => hA B (List.mem_of_mem_drop hB))

/-- The random numbers with which the loop ends with points in the sets of `A`. -/
def hits (ineqs : List (Facet ℝ)) (bounds : (ℝ × ℝ) × (ℝ × ℝ)) (A : List (Set (ℝ × ℝ))) : Set (ℕ → ℝ) :=
  {z | ∃ F out, uniformDraws ineqs bounds A.length F z [] = some out ∧ List.Forall₂ (· ∈ ·) out A}

theorem hits_eq (A : List (Set (ℝ × ℝ))) : hits ineqs bounds A = ⋃ F, hitsF ineqs bounds F A := by
  ext z
  simp [hits, hitsF]

theorem hits_measurable {A : List (Set (ℝ × ℝ))} (hA : ∀ B ∈ A, MeasurableSet B) :
    MeasurableSet (hits ineqs bounds A) := by
  rw [hits_eq]
  exact MeasurableSet.iUnion fun F => hitsF_measurable F hA

theorem hits_rec {A : List (Set (ℝ × ℝ))} (hne : A ≠ []) : hits ineqs bounds A =
    ⋃ φ : Fin A.length → Bool, firstRound ineqs bounds A φ (hits ineqs bounds (A.drop ((List.ofFn φ).count true))) := by
  have h0 : hitsF ineqs bounds 0 A = ∅ := by
    ext z
    simp [hitsF, uniformDraws]
  have h1 : (⋃ F, hitsF ineqs bounds F A) = ⋃ F, hitsF ineqs bounds (F + 1) A := by
    ext z
    simp only [Set.mem_iUnion]
    constructor
    · rintro ⟨_ | F, h⟩
      · rw [h0] at h
        exact h.elim
      · exact ⟨F, h⟩
    · rintro ⟨F, h⟩
      exact ⟨F + 1, h⟩
  rw [hits_eq, h1]
  ext z
  simp only [Set.mem_iUnion, hitsF_succ _ hne, hits_eq]
  constructor
  · rintro ⟨F, φ, h⟩
    exact ⟨φ, h.1, Set.mem_iUnion.2 ⟨F, h.2⟩⟩
  · rintro ⟨φ, h1, h2⟩
    obtain ⟨F, h2⟩ := Set.mem_iUnion.1 h2
    exact ⟨F, φ, h1, h2⟩

theorem sum_patterns (m : ℕ) {H : Set (ℝ × ℝ)} (hH : MeasurableSet H) :
    ∑ φ : Fin m → Bool, ∏ j, windLaw bounds (if φ j then H else Hᶜ) = 1 := by
  have := Finset.prod_univ_sum (fun _ : Fin m => (Finset.univ : Finset Bool))
    (fun _ b => windLaw bounds (if b then H else Hᶜ))
  rw [Fintype.piFinset_univ] at this
  rw [← this]
  refine Finset.prod_eq_one fun j _ => ?_
  simp [prob_add_prob_compl hH]

/-- The points are independent and each of them is in a set with the probability with which a drawn wind which is kept
is in the set. -/
theorem hits_measure {q : Set (ℝ × ℝ) → ENNReal} (hpos : windLaw bounds {p | inHull ineqs p = true} ≠ 0) :
    ∀ (n : ℕ) (A : List (Set (ℝ × ℝ))), A.length = n → (∀ B ∈ A, MeasurableSet B) →
    (∀ B ∈ A, windLaw bounds ({p | inHull ineqs p = true} ∩ B) = q B * windLaw bounds {p | inHull ineqs p = true}) →
    (∀ B ∈ A, q B ≠ ⊤) → stream (hits ineqs bounds A) = (A.map q).prod := by
  intro n
  induction n using Nat.strong_induction_on with
  | _ n ih =>
    intro A hn hA hq htop
    by_cases hne : A = []
    · subst hne
      have : hits ineqs bounds [] = Set.univ := by
        ext z
        simp only [hits, Set.mem_setOf_eq, Set.mem_univ, iff_true]
        exact ⟨1, [], by simp [uniformDraws]⟩
      rw [this]
      simp
    set H := {p | inHull ineqs p = true} with hHdef
    have hH : MeasurableSet H := measurable_inside ineqs
    have hmpos : 0 < A.length := List.length_pos_iff.2 hne
    set c : (Fin A.length → Bool) → ENNReal := fun φ => ∏ j, windLaw bounds (if φ j then H else Hᶜ) with hc
    set Q := (A.map q).prod with hQ
    set v := stream (hits ineqs bounds A) with hv
    have hQtop : Q ≠ ⊤ := by
      clear_value c v
      clear hv ih hn hA hq hne hmpos c hc
      rw [hQ]
      clear hQ Q
      induction A with
      | nil => simp
      | cons B A iha =>
        simp only [List.map_cons, List.prod_cons]
        exact ENNReal.mul_ne_top (htop B (by simp)) (iha fun C hC => htop C (by simp [hC]))
    have h1 : v = ∑ φ, stream (firstRound ineqs bounds A φ
        (hits ineqs bounds (A.drop ((List.ofFn φ).count true)))) := by
      rw [hv, hits_rec hne, measure_iUnion (firstRound_disjoint _) fun φ => firstRound_measurable hA φ
        (hits_measurable fun B hB => hA B (List.mem_of_mem_drop hB)), tsum_fintype]
    have h2 : ∀ φ : Fin A.length → Bool, φ ≠ (fun _ => false) → stream (firstRound ineqs bounds A φ
        (hits ineqs bounds (A.drop ((List.ofFn φ).count true)))) = c φ * Q := by
      intro φ hφ
      have hk : 0 < (List.ofFn φ).count true := by
        rw [List.count_pos_iff, List.mem_ofFn]
        by_contra hcon
        push Not at hcon
        exact hφ (funext fun j => by simpa using hcon j)
      rw [firstRound_measure hA φ (hits_measurable fun B hB => hA B (List.mem_of_mem_drop hB)) hq,
        ih (A.length - (List.ofFn φ).count true) (by omega) (A.drop ((List.ofFn φ).count true)) (by rw [List.length_drop])
          (fun B hB => hA B (List.mem_of_mem_drop hB)) (fun B hB => hq B (List.mem_of_mem_drop hB))
          (fun B hB => htop B (List.mem_of_mem_drop hB)), hQ]
      conv_rhs => rw [← List.take_append_drop ((List.ofFn φ).count true) A, List.map_append, List.prod_append]
      rw [hc]
      ring
    have h3 : stream (firstRound ineqs bounds A (fun _ => false)
        (hits ineqs bounds (A.drop ((List.ofFn fun _ : Fin A.length => false).count true)))) =
        c (fun _ => false) * v := by
      have hz : (List.ofFn fun _ : Fin A.length => false).count true = 0 := by
        rw [List.count_eq_zero, List.mem_ofFn]
        simp
      rw [firstRound_measure hA _ (hits_measurable fun B hB => hA B (List.mem_of_mem_drop hB)) hq, hz]
      simp only [List.take_zero, List.map_nil, List.prod_nil, one_mul, List.drop_zero]
      rfl
    have h4 : ∑ φ, c φ = 1 := sum_patterns A.length hH
    have h5 : v + c (fun _ => false) * Q = c (fun _ => false) * v + Q := by
      classical
      rw [← Finset.add_sum_erase _ _ (Finset.mem_univ (fun _ : Fin A.length => false))] at h1 h4
      rw [h3, Finset.sum_congr rfl fun φ hφ => h2 φ (Finset.ne_of_mem_erase hφ), ← Finset.sum_mul] at h1
      nth_rewrite 1 [h1]
      rw [add_assoc, ← add_mul, add_comm (Finset.sum _ _) (c _), h4, one_mul]
    have h6 : c (fun _ => false) < 1 := by
      have : windLaw bounds Hᶜ < 1 := by
        refine lt_of_le_of_ne prob_le_one fun h => hpos ?_
        have := prob_add_prob_compl (μ := windLaw bounds) hH
        rw [h] at this
        simpa using this
      simp only [hc, Bool.false_eq_true, if_false, Finset.prod_const, Finset.card_univ, Fintype.card_fin]
      exact pow_lt_one₀ zero_le this hmpos.ne'
    have hvtop : v ≠ ⊤ := measure_ne_top _ _
    clear_value v Q
    generalize c (fun _ => false) = d at h5 h6
    lift v to NNReal using hvtop
    lift Q to NNReal using hQtop
    lift d to NNReal using h6.ne_top
    norm_cast at h5 h6 ⊢
    have h5' := congrArg NNReal.toReal h5
    push_cast at h5'
    have h6' : (d : ℝ) < 1 := by exact_mod_cast h6
    have : ((v : ℝ) - Q) * (1 - d) = 0 := by linear_combination h5'
    rcases mul_eq_zero.1 this with h | h
    · exact NNReal.coe_injective (by linarith)
    · linarith

/-! ## The distribution of a wind -/

theorem map_affine {a b : ℝ} (hab : a < b) :
    unit01.map (fun u => a + (b - a) * u) = ENNReal.ofReal (b - a)⁻¹ • volume.restrict (Set.Ico a b) := by
  have hba : 0 < b - a := sub_pos.2 hab
  have h1 : (volume : Measure ℝ).map (fun u => a + (b - a) * u) = ENNReal.ofReal (b - a)⁻¹ • volume := by
    have : (fun u : ℝ => a + (b - a) * u) = (fun x => a + x) ∘ fun u => (b - a) * u := rfl
    rw [this, ← map_map (by fun_prop) (by fun_prop), Real.map_volume_mul_left hba.ne', Measure.map_smul,
      (measurePreserving_add_left volume a).map_eq, abs_of_pos (by positivity)]
  have h2 : (fun u : ℝ => a + (b - a) * u) ⁻¹' Set.Ico a b = Set.Ico 0 1 := by
    ext u
    simp only [Set.mem_preimage, Set.mem_Ico]
    constructor
    · rintro ⟨h, h'⟩
      constructor
      · by_contra hu
        nlinarith
      · by_contra hu
        nlinarith
    · rintro ⟨h, h'⟩
      constructor <;> nlinarith
  rw [unit01, ← h2, ← restrict_map (by fun_prop) measurableSet_Ico, h1, restrict_smul]

theorem windLaw_eq {a b c d : ℝ} (hab : a < b) (hcd : c < d) : windLaw ((a, b), (c, d)) =
    (ENNReal.ofReal (b - a)⁻¹ * ENNReal.ofReal (d - c)⁻¹) • volume.restrict (Set.Icc a b ×ˢ Set.Icc c d) := by
  have h1 : toWind ((a, b), (c, d)) = Prod.map (fun u => a + (b - a) * u) fun u => c + (d - c) * u := rfl
  rw [windLaw, h1, ← map_prod_map _ _ (by fun_prop) (by fun_prop), map_affine hab, map_affine hcd,
    restrict_congr_set (Ico_ae_eq_Icc (a := a) (b := b)), restrict_congr_set (Ico_ae_eq_Icc (a := c) (b := d))]
  rw [Measure.prod_smul_left, Measure.prod_smul_right, prod_restrict, smul_smul]
  rfl

/-! ## The sampler -/

theorem measurable_hull {pts : List (ℝ × ℝ)} {ineqs : List (Facet ℝ)} (hhull : IsHull pts ineqs) :
    {p | inHull ineqs p = true} = convexHull ℝ {q | q ∈ pts} := by
  ext p
  rw [Set.mem_setOf_eq, inHull_iff, hhull]

theorem stream_uniform {pts : List (ℝ × ℝ)} {hull : Hull} {ineqs : List (Facet ℝ)} {vol : ℝ}
    (hh : hull pts = .ok (vol, ineqs)) (hhull : IsHull pts ineqs) (hvol : volume (convexHull ℝ {q | q ∈ pts}) ≠ 0)
    {A : List (Set (ℝ × ℝ))} (hA : ∀ B ∈ A, MeasurableSet B) :
    MeasurableSet {z | ∃ fuel out, uniformSample hull A.length fuel pts z = some (.ok out) ∧
      List.Forall₂ (· ∈ ·) out A} ∧
    stream {z | ∃ fuel out, uniformSample hull A.length fuel pts z = some (.ok out) ∧ List.Forall₂ (· ∈ ·) out A} =
      (A.map fun B => volume (B ∩ convexHull ℝ {q | q ∈ pts}) / volume (convexHull ℝ {q | q ∈ pts})).prod := by
  have hne : pts ≠ [] := by
    rintro rfl
    simp at hvol
  obtain ⟨a, b, c, d, hb, hin, -⟩ := C87_bounds hne
  set H := convexHull ℝ {q | q ∈ pts} with hH
  have hHm : {p | inHull ineqs p = true} = H := measurable_hull hhull
  have hHmeas : MeasurableSet H := hHm ▸ measurable_inside ineqs
  have hsub : H ⊆ Set.Icc a b ×ˢ Set.Icc c d := fun p hp =>
    ⟨⟨(hin p hp).1, (hin p hp).2.1⟩, (hin p hp).2.2.1, (hin p hp).2.2.2⟩
  have hbox : volume (Set.Icc a b ×ˢ Set.Icc c d) = ENNReal.ofReal (b - a) * ENNReal.ofReal (d - c) := by
    rw [Measure.volume_eq_prod, prod_prod, Real.volume_Icc, Real.volume_Icc]
  have htop : volume H ≠ ⊤ := by
    refine ne_top_of_le_ne_top ?_ (measure_mono hsub)
    rw [hbox]
    exact ENNReal.mul_ne_top ENNReal.ofReal_ne_top ENNReal.ofReal_ne_top
  have hboxpos : ENNReal.ofReal (b - a) * ENNReal.ofReal (d - c) ≠ 0 := fun h =>
    hvol (le_antisymm ((measure_mono hsub).trans (by rw [hbox, h])) zero_le)
  have hab : a < b := by
    by_contra h
    exact hboxpos (by rw [ENNReal.ofReal_of_nonpos (by linarith), zero_mul])
  have hcd : c < d := by
    by_contra h
    exact hboxpos (by rw [ENNReal.ofReal_of_nonpos (p := d - c) (by linarith), mul_zero])
  set k := ENNReal.ofReal (b - a)⁻¹ * ENNReal.ofReal (d - c)⁻¹ with hk
  have hk0 : k ≠ 0 := by
    have h1 : 0 < (b - a)⁻¹ := inv_pos.2 (by linarith)
    have h2 : 0 < (d - c)⁻¹ := inv_pos.2 (by linarith)
    exact mul_ne_zero (ENNReal.ofReal_pos.2 h1).ne' (ENNReal.ofReal_pos.2 h2).ne'
  have hlaw : ∀ S, MeasurableSet S → S ⊆ H → windLaw ((a, b), (c, d)) S = k * volume S := by
    intro S hS hSH
    rw [windLaw_eq hab hcd, Measure.smul_apply, smul_eq_mul, restrict_apply hS,
      Set.inter_eq_left.2 (hSH.trans hsub)]
  have hset : {z | ∃ fuel out, uniformSample hull A.length fuel pts z = some (.ok out) ∧
      List.Forall₂ (· ∈ ·) out A} = hits ineqs ((a, b), (c, d)) A := by
    ext z
    simp only [uniformSample, hh, hb, hits, Set.mem_setOf_eq, Option.map_eq_some_iff, Except.ok.injEq]
    constructor
    · rintro ⟨F, out, ⟨out', h1, rfl⟩, h2⟩
      exact ⟨F, out', h1, h2⟩
    · rintro ⟨F, out, h1, h2⟩
      exact ⟨F, out, ⟨out, h1, rfl⟩, h2⟩
  rw [hset]
  refine ⟨hits_measurable hA, hits_measure ?_ A.length A rfl hA ?_ ?_⟩
  · rw [hHm, hlaw H hHmeas le_rfl]
    exact mul_ne_zero hk0 hvol
  · intro B hB
    rw [hHm, hlaw H hHmeas le_rfl, hlaw _ (hHmeas.inter (hA B hB)) Set.inter_subset_left, Set.inter_comm,
      mul_left_comm, ENNReal.div_mul_cancel hvol htop]
  · intro B hB
    exact ENNReal.div_ne_top (ne_top_of_le_ne_top htop (measure_mono Set.inter_subset_right)) hvol

section

variable {Ω : Type*} [MeasurableSpace Ω] {P : Measure Ω} {Z : ℕ → Ω → ℝ}

theorem law_stream (hind : iIndepFun Z P) (hunif : ∀ k, P.map (Z k) = volume.restrict (Set.Ico 0 1)) :
    AEMeasurable (fun ω k => Z k ω) P ∧ P.map (fun ω k => Z k ω) = stream := by
  have hZ : ∀ k, AEMeasurable (Z k) P := fun k => by
    by_contra h
    have := hunif k
    rw [map_of_not_aemeasurable h] at this
    exact (IsProbabilityMeasure.ne_zero unit01) this.symm
  have hmap := hind.map_fun_eq_infinitePi_map₀' hZ
  rw [show (fun i => P.map (Z i)) = fun _ => unit01 from funext hunif] at hmap
  exact ⟨aemeasurable_pi_lambda _ hZ, hmap⟩

/-- **C138.** Let the numbers of the generator be independent and uniformly distributed in `[0, 1)`, and let the convex
hull of the points have positive area. Then for all sets `B₁, …, Bₙ` the probability that `UniformRandomSampler` returns,
with the first point in `B₁`, …, and the last one in `Bₙ`, is the product of the shares which the sets have in the
area of the convex hull: the points are independent and uniformly distributed in the convex hull. -/
theorem C138_uniform (hind : iIndepFun Z P) (hunif : ∀ k, P.map (Z k) = volume.restrict (Set.Ico 0 1))
    {pts : List (ℝ × ℝ)} {hull : Hull} {ineqs : List (Facet ℝ)} {vol : ℝ}
    (hh : hull pts = .ok (vol, ineqs)) (hhull : IsHull pts ineqs) (hvol : volume (convexHull ℝ {q | q ∈ pts}) ≠ 0)
    {A : List (Set (ℝ × ℝ))} (hA : ∀ B ∈ A, MeasurableSet B) :
    P {ω | ∃ fuel out, uniformSample hull A.length fuel pts (fun k => Z k ω) = some (.ok out) ∧
      List.Forall₂ (· ∈ ·) out A} =
      (A.map fun B => volume (B ∩ convexHull ℝ {q | q ∈ pts}) / volume (convexHull ℝ {q | q ∈ pts})).prod := by
  obtain ⟨hm, heq⟩ := stream_uniform hh hhull hvol hA
  obtain ⟨hZ, hmap⟩ := law_stream hind hunif
  rw [← heq, ← hmap, map_apply_of_aemeasurable hZ hm]
  rfl

/-- **C138.** It returns almost surely, and then the points are in the convex hull. -/
theorem C138_returns (hind : iIndepFun Z P) (hunif : ∀ k, P.map (Z k) = volume.restrict (Set.Ico 0 1))
    {pts : List (ℝ × ℝ)} {hull : Hull} {ineqs : List (Facet ℝ)} {vol : ℝ}
    (hh : hull pts = .ok (vol, ineqs)) (hhull : IsHull pts ineqs) (hvol : volume (convexHull ℝ {q | q ∈ pts}) ≠ 0)
    (n : ℕ) :
    ∀ᵐ ω ∂P, ∃ fuel out, uniformSample hull n fuel pts (fun k => Z k ω) = some (.ok out) ∧ out.length = n ∧
      ∀ p ∈ out, p ∈ convexHull ℝ {q | q ∈ pts} := by
  obtain ⟨hZ, hmap⟩ := law_stream hind hunif
  have hH : MeasurableSet (convexHull ℝ {q | q ∈ pts}) := measurable_hull hhull ▸ measurable_inside ineqs
  have htop : volume (convexHull ℝ {q | q ∈ pts}) ≠ ⊤ :=
    ((isBounded_convexHull).2 (List.finite_toSet pts).isBounded).measure_lt_top.ne
  obtain ⟨hm, h⟩ := stream_uniform hh hhull hvol (A := List.replicate n (convexHull ℝ {q | q ∈ pts}))
    (fun B hB => (List.eq_of_mem_replicate hB) ▸ hH)
  rw [List.map_replicate, List.prod_replicate, Set.inter_self, ENNReal.div_self hvol htop, one_pow] at h
  have hae := (prob_compl_eq_zero_iff hm).2 h
  have hae' : ∀ᵐ z ∂P.map (fun ω k => Z k ω), ∃ fuel out, uniformSample hull n fuel pts z = some (.ok out) ∧
      out.length = n ∧ ∀ p ∈ out, p ∈ convexHull ℝ {q | q ∈ pts} := by
    rw [hmap]
    filter_upwards [compl_mem_ae_iff.2 hae] with z hz
    rw [compl_compl] at hz
    obtain ⟨fuel, out, h1, h2⟩ := hz
    rw [List.length_replicate] at h1
    refine ⟨fuel, out, h1, by rw [h2.length_eq, List.length_replicate], fun p hp => ?_⟩
    obtain ⟨i, hi, rfl⟩ := List.getElem_of_mem hp
    have := (List.forall₂_iff_get.1 h2).2 i hi (h2.length_eq ▸ hi)
    rwa [List.get_eq_getElem, List.get_eq_getElem, List.getElem_replicate] at this
  exact ae_of_ae_map hZ hae'

end

/-- The loop is the one of C29, with the winds made from the stream. -/
theorem uniformDraws_uniform (ineqs : List (Facet ℝ)) (bounds : (ℝ × ℝ) × (ℝ × ℝ)) (n : ℕ) (z : ℕ → ℝ) :
    ∃ rng : ℕ → ℕ → List (ℝ × ℝ), (∀ i m, (rng i m).length = m) ∧
      ∀ fuel, uniformDraws ineqs bounds n fuel z [] = uniform ineqs rng n fuel := by
  let step : (ℕ → ℝ) × List (ℝ × ℝ) → (ℕ → ℝ) × List (ℝ × ℝ) := fun s =>
    (fun k => s.1 (2 * (n - s.2.length) + k),
      s.2 ++ (uniformWinds bounds (n - s.2.length) s.1).filter (inHull ineqs))
  let st : ℕ → (ℕ → ℝ) × List (ℝ × ℝ) := fun i => step^[i] (z, [])
  have hst : ∀ i, st (i + 1) = step (st i) := fun i => Function.iterate_succ_apply' _ _ _
  refine ⟨fun i m => uniformWinds bounds m (st i).1, fun i m => by simp [uniformWinds], fun fuel => ?_⟩
  suffices h : ∀ fuel i, uniformDraws ineqs bounds n fuel (st i).1 (st i).2 =
      uniformLoop ineqs (fun i m => uniformWinds bounds m (st i).1) n fuel i (st i).2 from h fuel 0
  intro fuel
  induction fuel with
  | zero => intro i; rfl
  | succ fuel ih =>
    intro i
    rw [uniformDraws, uniformLoop]
    have := ih (i + 1)
    rw [hst] at this
    split
    · exact this
    · rfl

/-- Independent uniform numbers exist, and so do points with a hull of positive area: for the square with the corners
`(-1, 3)`, `(3, 1)`, `(-3, -1)`, `(1, -3)` the sampler returns almost surely. -/
example (n : ℕ) : ∀ᵐ z ∂stream, ∃ fuel out,
    uniformSample (fun _ => .ok (20, squareSides 1 2)) n fuel (square 1 2) z = some (.ok out) ∧ out.length = n ∧
      ∀ p ∈ out, p ∈ convexHull ℝ {q | q ∈ square 1 2} := by
  have harea := square_area (a := 1) (b := 2) (by norm_num)
  refine C138_returns (P := stream) (Z := fun k (z : ℕ → ℝ) => z k) (iIndepFun_infinitePi (X := fun _ x => x) fun _ => measurable_id)
    (fun k => infinitePi_map_eval _ k) rfl (square_isHull (a := 1) (b := 2) (by norm_num)) (fun h => ?_) n
  rw [h] at harea
  norm_num at harea

/-- The probability that all three points are in a half plane that cuts off a quarter of the square. -/
example {B : Set (ℝ × ℝ)} (hB : MeasurableSet B)
    (hq : volume (B ∩ convexHull ℝ {q | q ∈ square 1 2}) / volume (convexHull ℝ {q | q ∈ square 1 2}) = 1 / 4) :
    stream {z | ∃ fuel out, uniformSample (fun _ => .ok (20, squareSides 1 2)) 3 fuel (square 1 2) z = some (.ok out) ∧
      List.Forall₂ (· ∈ ·) out [B, B, B]} = 1 / 4 * (1 / 4 * (1 / 4 * 1)) := by
  have harea := square_area (a := 1) (b := 2) (by norm_num)
  have := C138_uniform (P := stream) (Z := fun k (z : ℕ → ℝ) => z k) (iIndepFun_infinitePi (X := fun _ x => x) fun _ => measurable_id)
    (fun k => infinitePi_map_eval (fun _ => unit01) k) (hull := fun _ => .ok (20, squareSides 1 2)) rfl
    (square_isHull (a := 1) (b := 2) (by norm_num)) (fun h => ?_) (A := [B, B, B]) (by simp [hB])
  · rw [List.map_cons, List.map_cons, List.map_cons, List.map_nil, hq] at this
    exact this
  · rw [h] at harea
    norm_num at harea

end Verif.Sampler
