import Verif.Model.FloatCloudHistory
import Verif.Props.FloatCloud
import Verif.Props.FloatInfluence
import Verif.Props.CurveSymmetry
import Verif.Props.CloudHistory

/-!
# Property C199: sessions with point clouds in double precision
-/

namespace Verif.F64

open Verif.Interp
open Verif.FloatText (print parse)
open Verif.Cloud (Step Normal)

/-! ### Lemmas -/

/-- The points of a cloud of doubles. -/
def Doubles (cloud : List (Pt ℚ)) : Prop := ∀ p ∈ cloud, fl p.1.1 = p.1.1 ∧ fl p.1.2 = p.1.2 ∧ fl p.2 = p.2

theorem cloudInit_normal {cloud : List (Pt ℚ)} (h : Normal cloud) : cloudInit cloud = cloud := by
  have h1 : (cloud.filter fun p => decide (p.1.1 ≥ 0)) = cloud := by
    rw [List.filter_eq_self]
    intro p hp
    simpa using (h p hp).1
  rw [cloudInit, h1, map_self_iff]
  intro p hp
  rw [mod_small (h p hp).2.1 (h p hp).2.2]

theorem cloudInit_append (l m : List (Pt ℚ)) : cloudInit (l ++ m) = cloudInit l ++ cloudInit m := by
  simp [cloudInit]

/-- What symmetrising makes of a cloud. -/
theorem cloudSymmetrize_eq {cloud : List (Pt ℚ)} (h : Normal cloud) :
    cloudSymmetrize cloud = cloud ++ cloud.map fun p => ((p.1.1, mod (fl (360 - p.1.2)) 360), p.2) := by
  unfold cloudSymmetrize
  split
  · rename_i he
    rw [List.isEmpty_iff.1 he]
    rfl
  · rw [cloudInit_append, cloudInit_normal h]
    congr 1
    rw [cloudInit, List.filter_map, List.map_map]
    have h1 : (cloud.filter ((fun p : Pt ℚ => decide (p.1.1 ≥ 0)) ∘ fun p => ((p.1.1, fl (360 - p.1.2)), p.2))) = cloud := by
      rw [List.filter_eq_self]
      intro p hp
      simpa using (h p hp).1
    rw [h1]
    rfl

/-- The mirrored angle. -/
theorem mirrored {a : ℚ} (h0 : 0 ≤ a) (h1 : a < 360) :
    (0 ≤ mod (fl (360 - a)) 360 ∧ mod (fl (360 - a)) 360 < 360 ∧ fl (mod (fl (360 - a)) 360) = mod (fl (360 - a)) 360) ∧
      (a ≤ 2 ^ (-45 : ℤ) → mod (fl (360 - a)) 360 = 0) ∧
      (2 ^ (-45 : ℤ) < a → mod (fl (360 - a)) 360 = fl (360 - a) ∧ |mod (fl (360 - a)) 360 - (360 - a)| ≤ 2 ^ (-45 : ℤ)) := by
  have hp : 0 ≤ fl (360 - a) := fl_nonneg (by linarith)
  have e : mod 360 360 = 0 := by decide +kernel
  have hm : 0 ≤ mod (fl (360 - a)) 360 ∧ mod (fl (360 - a)) 360 < 360 := (C146_nonneg hp).2
  refine ⟨⟨hm.1, hm.2, mod_double (fl_fl _)⟩, fun h => ?_, fun h => ?_⟩
  · rcases h0.eq_or_lt with rfl | hpos
    · rw [sub_zero, fl_full, e]
    · rw [(fl_below_360 (p := 360 - a) (by linarith) (by linarith)).1 (by linarith), e]
  · have hlt := (fl_below_360 (p := 360 - a) (by linarith) (by
      have : (0 : ℚ) < 2 ^ (-45 : ℤ) := by positivity
      linarith)).2 (by linarith)
    rw [mod_small hp hlt]
    refine ⟨rfl, ?_⟩
    have := fl_error_512 (x := 360 - a) (abs_lt.2 ⟨by linarith, by linarith⟩)
    refine this.trans (by norm_num)

/-! ### C199 -/

/-- **C199.** Symmetrising a cloud with `n` points in double precision gives the `n` points and `n` mirrored ones. The mirrored angle
differs from `360 - a` by at most `2^-45` degrees, except that it is 0 for angles of at most `2^-45` degrees. -/
theorem C199_symmetrize {cloud : List (Pt ℚ)} (h : Normal cloud) : ∃ f : ℚ → ℚ,
    cloudSymmetrize cloud = cloud ++ cloud.map (fun p => ((p.1.1, f p.1.2), p.2)) ∧
    ∀ a, 0 ≤ a → a < 360 → 0 ≤ f a ∧ f a < 360 ∧ fl (f a) = f a ∧ (a ≤ 2 ^ (-45 : ℤ) → f a = 0) ∧
      (2 ^ (-45 : ℤ) < a → |f a - (360 - a)| ≤ 2 ^ (-45 : ℤ)) :=
  ⟨fun a => mod (fl (360 - a)) 360, cloudSymmetrize_eq h, fun _ h0 h1 =>
    have hm := mirrored h0 h1
    ⟨hm.1.1, hm.1.2.1, hm.1.2.2, hm.2.1, fun h => (hm.2.2 h).2⟩⟩

/-- The points that may be added: doubles with no angle between `-2^-45` degrees and 0. -/
def Addable (new : List (Pt ℚ)) : Prop := Doubles new ∧ ∀ p ∈ new, ¬ (-2 ^ (-45 : ℤ) ≤ p.1.2 ∧ p.1.2 < 0)

theorem step_keeps {cloud : List (Pt ℚ)} (hn : Normal cloud) (hd : Doubles cloud) {s : Step ℚ}
    (hs : ∀ new, s = .add new → Addable new) :
    Normal (cloudStep cloud s) ∧ Doubles (cloudStep cloud s) ∧ cloud <+: cloudStep cloud s := by
  cases s with
  | add new =>
    obtain ⟨h1, h2⟩ := hs new rfl
    simp only [cloudStep, cloudAdd]
    split
    · exact ⟨hn, hd, List.prefix_refl _⟩
    · rename_i hany
      simp only [List.any_eq_true, decide_eq_true_eq, not_exists, not_and, not_le] at hany
      refine ⟨fun p hp => ?_, fun p hp => ?_, List.prefix_append _ _⟩
      · rcases List.mem_append.1 hp with hp | hp
        · exact hn p hp
        · obtain ⟨q, hq, rfl⟩ := List.mem_map.1 hp
          obtain ⟨-, -, b1, b2⟩ := C146_exactly q.1.2
          exact ⟨(hany q hq).le, b1,
            lt_of_le_of_ne b2 fun he => h2 q hq ((C146_doubles_exactly (h1 q hq).2.1).1 he)⟩
      · rcases List.mem_append.1 hp with hp | hp
        · exact hd p hp
        · obtain ⟨q, hq, rfl⟩ := List.mem_map.1 hp
          exact ⟨(h1 q hq).1, mod_double (h1 q hq).2.1, (h1 q hq).2.2⟩
  | symmetrize =>
    simp only [cloudStep]
    rw [cloudSymmetrize_eq hn]
    refine ⟨fun p hp => ?_, fun p hp => ?_, List.prefix_append _ _⟩
    · rcases List.mem_append.1 hp with hp | hp
      · exact hn p hp
      · obtain ⟨q, hq, rfl⟩ := List.mem_map.1 hp
        have hm := mirrored (hn q hq).2.1 (hn q hq).2.2
        exact ⟨(hn q hq).1, hm.1.1, hm.1.2.1⟩
    · rcases List.mem_append.1 hp with hp | hp
      · exact hd p hp
      · obtain ⟨q, hq, rfl⟩ := List.mem_map.1 hp
        exact ⟨(hd q hq).1, (mirrored (hn q hq).2.1 (hn q hq).2.2).1.2.2, (hd q hq).2.2⟩

/-- **C199.** Files can be used at any time between additions of points and symmetrisations without a change, if no point with a wind
angle between `-2^-45` degrees and 0 is added. -/
theorem C199_session_partial {cloud : List (Pt ℚ)} (hne : cloud ≠ []) (hn : Normal cloud) (hd : Doubles cloud)
    {steps : List (Option (Step ℚ))} (hs : ∀ new, some (Step.add new) ∈ steps → Addable new) :
    cloudSession print parse cloud steps = .ok (cloudHistory cloud steps.reduceOption) ∧
      Normal (cloudHistory cloud steps.reduceOption) ∧ Doubles (cloudHistory cloud steps.reduceOption) ∧
      cloud <+: cloudHistory cloud steps.reduceOption := by
  induction steps generalizing cloud with
  | nil => exact ⟨rfl, hn, hd, List.prefix_refl _⟩
  | cons s steps ih =>
    cases s with
    | none =>
      have e : (none :: steps).reduceOption = steps.reduceOption := by simp [List.reduceOption]
      simpa only [cloudSession, cloud_read hne hd, cloudInit_normal hn, e] using
        ih hne hn hd fun new h => hs new (List.mem_cons_of_mem _ h)
    | some s =>
      obtain ⟨k1, k2, k3⟩ := step_keeps hn hd (s := s) fun new h => hs new (by simp [h])
      have hne' : cloudStep cloud s ≠ [] := by
        intro h0
        rw [h0] at k3
        exact hne (List.prefix_nil.1 k3)
      have e : (some s :: steps).reduceOption = s :: steps.reduceOption := by simp [List.reduceOption]
      obtain ⟨i1, i2, i3, i4⟩ := ih hne' k1 k2 fun new h => hs new (List.mem_cons_of_mem _ h)
      simp only [cloudSession, e, cloudHistory]
      exact ⟨i1, i2, i3, k3.trans i4⟩

/-- **C199.** These are the only exceptions: a file after adding points changes nothing exactly if none of their wind angles is between
`-2^-45` degrees and 0. -/
theorem C199_add_exactly {cloud new : List (Pt ℚ)} (hne : cloud ≠ []) (hn : Normal cloud) (hd : Doubles cloud) (hd' : Doubles new)
    (hw : ∀ p ∈ new, 0 < p.1.1) :
    cloudSession print parse cloud [some (.add new), none] = cloudSession print parse cloud [some (.add new)] ↔
      ∀ p ∈ new, ¬ (-2 ^ (-45 : ℤ) ≤ p.1.2 ∧ p.1.2 < 0) := by
  have e : cloudStep cloud (.add new) = cloud ++ new.map fun p => ((p.1.1, mod p.1.2 360), p.2) := by
    simp only [cloudStep, cloudAdd]
    rw [if_neg]
    simpa using hw
  have hD : Doubles (cloud ++ new.map fun p => ((p.1.1, mod p.1.2 360), p.2)) := by
    intro p hp
    rcases List.mem_append.1 hp with hp | hp
    · exact hd p hp
    · obtain ⟨q, hq, rfl⟩ := List.mem_map.1 hp
      exact ⟨(hd' q hq).1, mod_double (hd' q hq).2.1, (hd' q hq).2.2⟩
  have hf : ((new.map fun p => ((p.1.1, mod p.1.2 360), p.2)).filter fun p : Pt ℚ => decide (p.1.1 ≥ 0)) =
      new.map fun p => ((p.1.1, mod p.1.2 360), p.2) := by
    rw [List.filter_eq_self]
    intro p hp
    obtain ⟨q, hq, rfl⟩ := List.mem_map.1 hp
    simpa using (hw q hq).le
  simp only [cloudSession, e]
  rw [cloud_read (by simp [hne]) hD, cloudInit_append, cloudInit_normal hn]
  simp only [Except.ok.injEq, List.append_cancel_left_eq]
  rw [cloudInit, hf, map_self_iff]
  have h360 : mod 360 360 = 0 := by decide +kernel
  constructor
  · intro h p hp ht
    have := h _ (List.mem_map.2 ⟨p, hp, rfl⟩)
    simp only [(C146_doubles_exactly (hd' p hp).2.1).2 ht, h360, Prod.mk.injEq] at this
    norm_num at this
  · intro h q hq
    obtain ⟨p, hp, rfl⟩ := List.mem_map.1 hq
    obtain ⟨-, -, b1, b2⟩ := C146_exactly p.1.2
    simp only [mod_small b1 (lt_of_le_of_ne b2 fun he => h p hp ((C146_doubles_exactly (hd' p hp).2.1).1 he))]

/-- **C199 is false** for tiny negative wind angles: the file changes the added point. -/
theorem C199_session_false :
    cloudSession print parse [((6, 90), 4)] [some (.add [((8, fl (-1 / 10 ^ 20)), 5)])] = .ok [((6, 90), 4), ((8, 360), 5)] ∧
    cloudSession print parse [((6, 90), 4)] [some (.add [((8, fl (-1 / 10 ^ 20)), 5)]), none] =
      .ok [((6, 90), 4), ((8, 0), 5)] := by
  have h : cloudStep [((6, 90), 4)] (.add [((8, fl (-1 / 10 ^ 20)), 5)]) = [((6, 90), 4), ((8, 360), 5)] := by decide +kernel
  refine ⟨by simp only [cloudSession, h], ?_⟩
  simp only [cloudSession, h]
  rw [cloud_read (by simp) (by decide +kernel)]
  have : cloudInit [((6, 90), 4), ((8, 360), 5)] = [((6, 90), 4), ((8, 0), 5)] := by decide +kernel
  rw [this]

theorem grid_mod {a : ℚ} (h : OnGrid a) : mod a 360 = pmod a 360 ∧ OnGrid (pmod a 360) := by
  have hg : OnGrid (pmod a 360) := by
    obtain ⟨m, rfl⟩ := h
    refine ⟨m - 360 * 2 ^ 44 * ⌊(m : ℚ) * 2 ^ (-44 : ℤ) / 360⌋, ?_⟩
    unfold pmod
    push_cast
    rw [sub_mul]
    congr 1
    rw [mul_right_comm]
    norm_num
  refine ⟨?_, hg⟩
  rcases lt_or_ge a 0 with hneg | hpos
  · rw [mod_neg_eq hneg]
    exact (grid_exact hg (pmod_nonneg _ (by norm_num)) (pmod_lt _ (by norm_num)).le).1
  · exact (C146_nonneg hpos).1

/-- **C199.** For wind angles with 44 binary digits after the point (for example multiples of one half or one quarter of a degree),
also negative ones, all histories give exactly the points of exact arithmetic. -/
theorem C199_grid {cloud : List (Pt ℚ)} (hn : Normal cloud) (hg : ∀ p ∈ cloud, OnGrid p.1.2) {steps : List (Step ℚ)}
    (hs : ∀ new, Step.add new ∈ steps → ∀ p ∈ new, OnGrid p.1.2) : cloudHistory cloud steps = Cloud.history cloud steps := by
  induction steps generalizing cloud with
  | nil => rfl
  | cons s steps ih =>
    have key : cloudStep cloud s = Cloud.step cloud s ∧ ∀ p ∈ cloudStep cloud s, OnGrid p.1.2 := by
      cases s with
      | add new =>
        have hnew := hs new (by simp)
        have e : (new.map fun p => ((p.1.1, mod p.1.2 360), p.2)) = new.map fun p => ((p.1.1, pmod p.1.2 360), p.2) := by
          apply List.map_congr_left
          intro p hp
          rw [(grid_mod (hnew p hp)).1]
        simp only [cloudStep, Cloud.step, cloudAdd, Cloud.addPoints, e]
        refine ⟨trivial, ?_⟩
        split
        · exact hg
        · intro p hp
          rcases List.mem_append.1 hp with hp | hp
          · exact hg p hp
          · obtain ⟨q, hq, rfl⟩ := List.mem_map.1 hp
            exact (grid_mod (hnew q hq)).2
      | symmetrize =>
        have hm : ∀ p ∈ cloud, fl (360 - p.1.2) = 360 - p.1.2 ∧ OnGrid (360 - p.1.2) := fun p hp =>
          (grid_exact (hg p hp) (hn p hp).2.1 (hn p hp).2.2.le).2
        have hm' : (cloud.map fun p => ((p.1.1, fl (360 - p.1.2)), p.2)) = cloud.map fun p => ((p.1.1, 360 - p.1.2), p.2) := by
          apply List.map_congr_left
          intro p hp
          rw [(hm p hp).1]
        have hall : ∀ p ∈ cloud ++ cloud.map (fun p => ((p.1.1, 360 - p.1.2), p.2)), OnGrid p.1.2 := by
          intro p hp
          rcases List.mem_append.1 hp with hp | hp
          · exact hg p hp
          · obtain ⟨q, hq, rfl⟩ := List.mem_map.1 hp
            exact (hm q hq).2
        have hi : cloudInit (cloud ++ cloud.map (fun p => ((p.1.1, 360 - p.1.2), p.2))) =
            Cloud.init (cloud ++ cloud.map (fun p => ((p.1.1, 360 - p.1.2), p.2))) := by
          unfold cloudInit Cloud.init
          apply List.map_congr_left
          intro p hp
          rw [(grid_mod (hall p (List.mem_of_mem_filter hp))).1]
        simp only [cloudStep, Cloud.step, cloudSymmetrize, Cloud.symmetrize, hm', hi]
        refine ⟨trivial, ?_⟩
        split
        · exact hg
        · rw [← hi]
          intro p hp
          obtain ⟨q, hq, -, rfl⟩ := cloudInit_mem.1 hp
          have := grid_mod (hall q hq)
          rw [this.1]
          exact this.2
    have hk := (Cloud.C171_keeps hn [s]).2
    simp only [Cloud.history] at hk
    rw [cloudHistory, Cloud.history, ← key.1]
    exact ih (by rw [key.1]; exact hk) key.2 fun new h => hs new (List.mem_cons_of_mem _ h)

/-- The hypotheses can be met. -/
example : Normal ([((6, 90), 4)] : List (Pt ℚ)) ∧ Doubles [((6, 90), 4)] ∧ Addable [((8, -90), fl (51 / 10))] ∧ OnGrid (-(181 : ℚ) / 2) ∧
    cloudHistory [((6, 90), 4)] [.add [((8, -181 / 2), 5)], .add [((0, 0), 1)], .symmetrize] =
      [((6, 90), 4), ((8, 539 / 2), 5), ((6, 270), 4), ((8, 181 / 2), 5)] := by
  refine ⟨?_, ?_, ⟨?_, ?_⟩, ⟨-181 * 2 ^ 43, ?_⟩, by decide +kernel⟩
  · intro p hp
    rw [List.mem_singleton.1 hp]
    norm_num
  · unfold Doubles
    decide +kernel
  · unfold Doubles
    decide +kernel
  · decide +kernel
  · push_cast
    norm_num

end Verif.F64
