import Mathlib.Data.List.Basic
import Verif.Lemmas.Dict
import Verif.Model.PlotKeywords

/-!
# Properties of the keyword arguments of plots (C169)
-/

namespace Verif.PlotKw

variable {V : Type}

/-- No keyword is one of `names`. -/
def Free (names : List String) (kw : Dict String V) : Prop := ∀ p ∈ kw, p.1 ∉ names

/-- All keywords are known to a method of matplotlib. -/
def Known (accepts : Fn → String → Bool) (fn : Fn) (kw : Dict String V) : Prop := ∀ p ∈ kw, accepts fn p.1 = true

theorem bind_eq (names : List String) (kw : Dict String V) [Decidable (Free names kw)] :
    bind names kw = if Free names kw then .ok kw else .error .typeError := by
  unfold bind
  by_cases h : Free names kw
  · rw [if_pos h, if_neg]
    rw [List.any_eq_true]
    rintro ⟨p, hp, h1⟩
    exact h p hp (of_decide_eq_true h1)
  · rw [if_neg h, if_pos]
    rw [List.any_eq_true]
    simp only [Free, not_forall, not_not] at h
    obtain ⟨p, hp, h1⟩ := h
    exact ⟨p, hp, decide_eq_true h1⟩

theorem bind_free {names : List String} {kw : Dict String V} (h : Free names kw) : bind names kw = .ok kw := by
  classical
  rw [bind_eq, if_pos h]

theorem bind_taken {names : List String} {kw : Dict String V} (h : ¬ Free names kw) : bind names kw = .error .typeError := by
  classical
  rw [bind_eq, if_neg h]

theorem free_nil (kw : Dict String V) : Free [] kw := fun _ _ h => by cases h

theorem free_append {a b : List String} {kw : Dict String V} : Free (a ++ b) kw ↔ Free a kw ∧ Free b kw := by
  unfold Free
  constructor
  · intro h
    exact ⟨fun p hp h1 => h p hp (List.mem_append.2 (Or.inl h1)), fun p hp h1 => h p hp (List.mem_append.2 (Or.inr h1))⟩
  · rintro ⟨h1, h2⟩ p hp h
    rcases List.mem_append.1 h with h | h
    · exact h1 p hp h
    · exact h2 p hp h

theorem mpl_ok {accepts : Fn → String → Bool} {fn : Fn} {given : List String} {kw : Dict String V} (h : Free given kw)
    (ha : Known accepts fn kw) : mpl accepts fn given kw = .ok ⟨fn, kw⟩ := by
  unfold mpl
  rw [bind_free h]
  exact if_pos (List.all_eq_true.2 ha)

theorem mpl_taken (accepts : Fn → String → Bool) (fn : Fn) {given : List String} {kw : Dict String V} (h : ¬ Free given kw) :
    mpl accepts fn given kw = .error .typeError := by
  unfold mpl
  rw [bind_taken h]

theorem mpl_unknown {accepts : Fn → String → Bool} {fn : Fn} {given : List String} {kw : Dict String V} (h : Free given kw)
    (ha : ¬ Known accepts fn kw) : mpl accepts fn given kw = .error .attributeError := by
  unfold mpl
  rw [bind_free h]
  exact if_neg fun h1 => ha (List.all_eq_true.1 h1)

theorem mpl_iff (accepts : Fn → String → Bool) (fn : Fn) (given : List String) (kw : Dict String V) :
    (∃ c, mpl accepts fn given kw = .ok c) ↔ Free given kw ∧ Known accepts fn kw := by
  by_cases h : Free given kw
  · by_cases ha : Known accepts fn kw
    · exact ⟨fun _ => ⟨h, ha⟩, fun _ => ⟨_, mpl_ok h ha⟩⟩
    · rw [mpl_unknown h ha]
      exact ⟨fun ⟨_, h⟩ => (nomatch h), fun h => absurd h.2 ha⟩
  · rw [mpl_taken accepts fn h]
    exact ⟨fun ⟨_, h⟩ => (nomatch h), fun h1 => absurd h1.1 h⟩

theorem drawLoop_ok {accepts : Fn → String → Bool} {fn : Fn} {kw : Dict String V} (ha : Known accepts fn kw) (n : Nat) :
    drawLoop accepts fn kw n = (List.replicate n ⟨fn, kw⟩, none) := by
  induction n with
  | zero => rfl
  | succ n ih =>
    unfold drawLoop
    rw [mpl_ok (free_nil kw) ha]
    simp only [ih, List.replicate_succ]

theorem drawLoop_unknown {accepts : Fn → String → Bool} {fn : Fn} {kw : Dict String V} (ha : ¬ Known accepts fn kw) {n : Nat}
    (hn : 0 < n) : drawLoop accepts fn kw n = ([], some .attributeError) := by
  obtain ⟨n, rfl⟩ : ∃ m, n = m + 1 := ⟨n - 1, by omega⟩
  unfold drawLoop
  rw [mpl_unknown (free_nil kw) ha]

theorem del_free {kw : Dict String V} {k : String} (h : Free [k] kw) : kw.del k = kw := by
  induction kw with
  | nil => rfl
  | cons p l ih =>
    obtain ⟨a, b⟩ := p
    have h1 : a ≠ k := fun e => h (a, b) (by simp) (by simp [e])
    simp only [Dict.del, if_neg h1]
    rw [ih fun q hq => h q (List.mem_cons_of_mem _ hq)]

theorem get_free {kw : Dict String V} {k : String} (h : Free [k] kw) : kw.get? k = none := by
  induction kw with
  | nil => rfl
  | cons p l ih =>
    obtain ⟨a, b⟩ := p
    have h1 : a ≠ k := fun e => h (a, b) (by simp) (by simp [e])
    simp only [Dict.get?, if_neg h1]
    exact ih fun q hq => h q (List.mem_cons_of_mem _ hq)

/-- The method of matplotlib that is expected. -/
def method (scatter : Bool) : Fn := if scatter = true then .scatter else .plot

/-- The names used by the library for its own parameters. -/
def reserved (polar : Bool) : List String :=
  ["self"] ++ (if polar = true then ["args"] else []) ++ ["ax", "labels", "colors", "show_legend", "legend_kw"] ++
    ["ax", "slices", "info", "use_radians", "use_convex_hull"] ++ ["use_scatter"]

theorem plot_free {accepts : Fn → String → Bool} (truthy : V → Bool) (scatter : Bool) {n : Nat} (hn : 0 < n) {kw : Dict String V}
    (h : Free (["ax", "slices", "info", "use_radians", "use_convex_hull"] ++ ["use_scatter"]) kw) :
    plot accepts truthy scatter n kw = drawLoop accepts (method scatter) kw n := by
  obtain ⟨h1, h2⟩ := free_append.1 h
  have hb : Free (["ax", "slices", "info", "use_radians", "use_convex_hull"] ++ if scatter = true then ["use_scatter"] else []) kw :=
    free_append.2 ⟨h1, by cases scatter <;> [exact free_nil kw; exact h2]⟩
  unfold plot
  rw [bind_free hb]
  simp only [get_free h2, del_free h2, Option.map_none, Option.getD_none, Bool.or_false, if_neg (Nat.pos_iff_ne_zero.1 hn), method]

/-- **C169.** Keyword arguments that are no names of the library are forwarded to matplotlib unchanged, once for each slice. -/
theorem C169_forwarded {accepts : Fn → String → Bool} (truthy : V → Bool) (polar scatter gradient : Bool)
    (legendKw : Option (Dict String V)) {n : Nat} (hn : 0 < n) {kw : Dict String V} (h : Free (reserved polar) kw)
    (ha : Known accepts (method scatter) kw) :
    projectionPlot accepts truthy polar scatter false gradient legendKw n kw =
      (List.replicate n ⟨method scatter, kw⟩, none) := by
  simp only [reserved, List.append_assoc] at h
  obtain ⟨h1, h⟩ := free_append.1 h
  obtain ⟨h2, h⟩ := free_append.1 h
  obtain ⟨h3, h4⟩ := free_append.1 h
  unfold projectionPlot
  rw [bind_free (free_append.2 ⟨h1, h2⟩)]
  simp only [configureAxes, bind_free h3, Bool.false_eq_true, if_false, List.nil_append]
  rw [plot_free truthy scatter hn h4, drawLoop_ok ha]

/-- **C169.** Without a legend, the plot succeeds exactly if the keywords are known to matplotlib and are no names of the library. -/
theorem C169_exactly (accepts : Fn → String → Bool) (truthy : V → Bool) (polar scatter gradient : Bool)
    (legendKw : Option (Dict String V)) {n : Nat} (hn : 0 < n) {kw : Dict String V} (hu : Free ["use_scatter"] kw) :
    (projectionPlot accepts truthy polar scatter false gradient legendKw n kw).2 = none ↔
      Free (reserved polar) kw ∧ Known accepts (method scatter) kw := by
  constructor
  · intro h
    unfold projectionPlot at h
    by_cases h1 : Free (["self"] ++ if polar = true then ["args"] else []) kw
    · rw [bind_free h1] at h
      simp only [configureAxes] at h
      by_cases h3 : Free ["ax", "labels", "colors", "show_legend", "legend_kw"] kw
      · simp only [bind_free h3, Bool.false_eq_true, if_false, List.nil_append] at h
        by_cases h4 : Free ["ax", "slices", "info", "use_radians", "use_convex_hull"] kw
        · have h5 := free_append.2 ⟨h4, hu⟩
          rw [plot_free truthy scatter hn h5] at h
          by_cases ha : Known accepts (method scatter) kw
          · refine ⟨?_, ha⟩
            simp only [reserved]
            exact free_append.2 ⟨free_append.2 ⟨free_append.2 ⟨h1, h3⟩, h4⟩, hu⟩
          · rw [drawLoop_unknown ha hn] at h
            cases h
        · unfold plot at h
          rw [bind_taken (fun h6 => h4 (free_append.1 h6).1)] at h
          cases h
      · simp only [bind_taken h3] at h
        cases h
    · rw [bind_taken h1] at h
      cases h
  · rintro ⟨h, ha⟩
    rw [C169_forwarded truthy polar scatter gradient legendKw hn h ha]

/-- **C169.** With a legend, the plot succeeds exactly if moreover the keywords for the legend are known and none of them is a name
used by the library. -/
theorem C169_legend_exactly (accepts : Fn → String → Bool) (truthy : V → Bool) (polar scatter gradient : Bool)
    (legendKw : Option (Dict String V)) {n : Nat} (hn : 0 < n) {kw : Dict String V} (h : Free (reserved polar) kw)
    (ha : Known accepts (method scatter) kw) :
    (projectionPlot accepts truthy polar scatter true gradient legendKw n kw).2 = none ↔
      Free (["ax", "ws", "colors", "label"] ++ if gradient = true then ["mappable"] else ["handles"]) (legendKw.getD []) ∧
        Known accepts (if gradient = true then .colorbar else .legend) (legendKw.getD []) := by
  simp only [reserved, List.append_assoc] at h
  obtain ⟨h1, h⟩ := free_append.1 h
  obtain ⟨h2, h⟩ := free_append.1 h
  obtain ⟨h3, h4⟩ := free_append.1 h
  unfold projectionPlot
  rw [bind_free (free_append.2 ⟨h1, h2⟩)]
  simp only [configureAxes, bind_free h3, if_true]
  have hp : (plot accepts truthy scatter n kw).2 = none := by rw [plot_free truthy scatter hn h4, drawLoop_ok ha]
  have hl : (∃ c, configureLegend accepts gradient (legendKw.getD []) = .ok c) ↔
      Free (["ax", "ws", "colors", "label"] ++ if gradient = true then ["mappable"] else ["handles"]) (legendKw.getD []) ∧
        Known accepts (if gradient = true then .colorbar else .legend) (legendKw.getD []) := by
    unfold configureLegend
    rw [free_append]
    by_cases h5 : Free ["ax", "ws", "colors", "label"] (legendKw.getD [])
    · rw [bind_free h5]
      cases gradient
      · simp only [Bool.false_eq_true, if_false]
        rw [mpl_iff]
        exact ⟨fun h => ⟨⟨h5, h.1⟩, h.2⟩, fun h => ⟨h.1.2, h.2⟩⟩
      · simp only [if_true]
        rw [mpl_iff]
        constructor
        · rintro ⟨h6, h7⟩
          refine ⟨⟨h5, fun p hp hm => h6 p hp ?_⟩, h7⟩
          simp only [List.mem_singleton] at hm
          simp [hm]
        · rintro ⟨⟨-, h6⟩, h7⟩
          refine ⟨fun p hp hm => ?_, h7⟩
          rcases List.mem_cons.1 hm with hm | hm
          · exact h6 p hp (by simp [hm])
          · refine h5 p hp ?_
            simp only [List.mem_singleton] at hm
            simp [hm]
    · rw [bind_taken h5]
      exact ⟨fun ⟨_, h⟩ => (nomatch h), fun h => absurd h.1.1 h5⟩
  rw [← hl]
  cases hc : configureLegend accepts gradient (legendKw.getD []) with
  | error e => exact ⟨fun h => (nomatch h), fun ⟨_, h⟩ => (nomatch h)⟩
  | ok c => exact ⟨fun _ => ⟨c, rfl⟩, fun _ => hp⟩

/-- **C169 is false** for `legend_kw={"label": …}`: although it is a keyword of `Colorbar`, `TypeError` is raised and nothing is drawn. -/
theorem C169_label_false (accepts : Fn → String → Bool) (truthy : V → Bool) (polar scatter gradient : Bool) (v : V) (n : Nat)
    {kw : Dict String V} (h : Free (reserved polar) kw) :
    projectionPlot accepts truthy polar scatter true gradient (some [("label", v)]) n kw = ([], some .typeError) := by
  simp only [reserved, List.append_assoc] at h
  obtain ⟨h1, h⟩ := free_append.1 h
  obtain ⟨h2, h⟩ := free_append.1 h
  obtain ⟨h3, h4⟩ := free_append.1 h
  unfold projectionPlot
  rw [bind_free (free_append.2 ⟨h1, h2⟩)]
  simp only [configureAxes, bind_free h3, if_true, configureLegend, Option.getD_some]
  rw [bind_taken (fun h => h ("label", v) (by simp) (by simp))]
  rfl

/-- **C169 is false** for `scatter` without slices: `plot` of matplotlib is called with the keywords for `scatter`. -/
theorem C169_empty_false {accepts : Fn → String → Bool} (truthy : V → Bool) (polar gradient : Bool) (size : V)
    (h1 : accepts .plot "s" = false) :
    projectionPlot accepts truthy polar true false gradient none 0 [("s", size)] = ([], some .attributeError) := by
  have hk : ¬ Known accepts .plot [("s", size)] := fun h => by
    have := h ("s", size) (by simp)
    rw [h1] at this
    cases this
  unfold projectionPlot
  rw [bind_free (by cases polar <;> simp [Free])]
  simp only [configureAxes, Bool.false_eq_true, if_false]
  rw [bind_free (by simp [Free])]
  simp only [plot]
  rw [bind_free (by simp [Free])]
  simp only [if_true, Dict.del, show ¬ ("s" = "use_scatter") by decide, if_false]
  rw [drawLoop_unknown hk (by decide)]
  rfl

/-- **C169.** A keyword argument `use_scatter=True`, which is not documented, makes `plot` scatter. -/
theorem C169_use_scatter {accepts : Fn → String → Bool} {truthy : V → Bool} (polar gradient : Bool) {v : V} (hv : truthy v = true)
    {n : Nat} (hn : 0 < n) :
    projectionPlot accepts truthy polar false false gradient none n [("use_scatter", v)] =
      (List.replicate n ⟨.scatter, []⟩, none) := by
  unfold projectionPlot
  rw [bind_free (by cases polar <;> simp [Free])]
  simp only [configureAxes, Bool.false_eq_true, if_false]
  rw [bind_free (by simp [Free])]
  simp only [plot]
  rw [bind_free (by simp [Free])]
  simp only [Dict.get?, Dict.del, if_true, Option.map_some, Option.getD_some, hv, Bool.or_true, if_neg (Nat.pos_iff_ne_zero.1 hn)]
  rw [drawLoop_ok (fun p hp => by cases hp)]
  rfl

/-- **C169.** `HROColorGradient.scatter` without legend succeeds exactly if the keywords are known and `c` is not among them. -/
theorem C169_gradient_exactly (accepts : Fn → String → Bool) (gradient : Bool) (legendKw : Option (Dict String V))
    (kw : Dict String V) :
    (gradientPlot accepts false gradient legendKw kw = ([⟨.scatter, kw⟩], none)) ↔
      Free ["self", "c"] kw ∧ Known accepts .scatter kw := by
  have hs : Free ["self", "c"] kw ↔ Free ["self"] kw ∧ Free ["c"] kw := free_append (a := ["self"]) (b := ["c"])
  rw [hs]
  unfold gradientPlot
  by_cases h1 : Free ["self"] kw
  · rw [bind_free h1]
    simp only [Bool.false_eq_true, if_false]
    by_cases h2 : Free ["c"] kw
    · by_cases h3 : Known accepts .scatter kw
      · rw [mpl_ok h2 h3]
        exact ⟨fun _ => ⟨⟨h1, h2⟩, h3⟩, fun _ => rfl⟩
      · rw [mpl_unknown h2 h3]
        exact ⟨fun h => (nomatch (Prod.ext_iff.1 h).2), fun h => absurd h.2 h3⟩
    · rw [mpl_taken accepts _ h2]
      exact ⟨fun h => (nomatch (Prod.ext_iff.1 h).2), fun h => absurd h.1.2 h2⟩
  · rw [bind_taken h1]
    exact ⟨fun h => (nomatch (Prod.ext_iff.1 h).2), fun h => absurd h.1.1 h1⟩

/-- **C169 is false** for three-dimensional plots: `show_legend` and `legend_kw`, parameters of `HROColorGradient.scatter`, are forwarded
to matplotlib, which does not know them. -/
theorem C169_legend3d_false {accepts : Fn → String → Bool} (scatter : Bool) (v : V) {key : String}
    (hk : key = "show_legend" ∨ key = "legend_kw") (ha : ∀ fn, accepts fn key = false) :
    plot3d accepts scatter [(key, v)] = .error .attributeError := by
  have hn : ∀ fn, ¬ Known accepts fn [(key, v)] := fun fn h => by
    have := h (key, v) (by simp)
    rw [ha] at this
    cases this
  unfold plot3d
  rcases hk with rfl | rfl <;> cases scatter <;> rw [bind_free (by simp [Free])]
  · exact mpl_unknown (given := ["triangles", "cmap"]) (by simp [Free]) (hn _)
  · simp only [if_true]
    rw [bind_free (by simp [Free])]
    exact mpl_unknown (by simp [Free]) (hn _)
  · exact mpl_unknown (given := ["triangles", "cmap"]) (by simp [Free]) (hn _)
  · simp only [if_true]
    rw [bind_free (by simp [Free])]
    exact mpl_unknown (by simp [Free]) (hn _)

/-- **C169.** Three-dimensional plots succeed exactly if the keywords are known and none of them is set by the library. -/
theorem C169_3d_exactly (accepts : Fn → String → Bool) (scatter : Bool) (kw : Dict String V) :
    plot3d accepts scatter kw = .ok ⟨if scatter = true then .scatter3d else .trisurf, kw⟩ ↔
      Free (["self"] ++ if scatter = true then ["x", "y", "z", "colors"] ++ ["c", "cmap"] else ["triangles", "cmap"]) kw ∧
        Known accepts (if scatter = true then .scatter3d else .trisurf) kw := by
  rw [free_append]
  unfold plot3d
  by_cases h1 : Free ["self"] kw
  swap
  · rw [bind_taken h1]
    exact ⟨fun h => (nomatch h), fun h => absurd h.1.1 h1⟩
  rw [bind_free h1]
  have key : ∀ fn given, mpl accepts fn given kw = .ok ⟨fn, kw⟩ ↔ Free given kw ∧ Known accepts fn kw := fun fn given =>
    ⟨fun h => (mpl_iff accepts fn given kw).1 ⟨_, h⟩, fun h => mpl_ok h.1 h.2⟩
  cases scatter
  · simp only [Bool.false_eq_true, if_false]
    rw [key]
    exact ⟨fun h => ⟨⟨h1, h.1⟩, h.2⟩, fun h => ⟨h.1.2, h.2⟩⟩
  · simp only [if_true]
    rw [free_append]
    by_cases h2 : Free ["x", "y", "z", "colors"] kw
    · rw [bind_free h2]
      simp only
      rw [key]
      exact ⟨fun h => ⟨⟨h1, h2, h.1⟩, h.2⟩, fun h => ⟨h.1.2.2, h.2⟩⟩
    · rw [bind_taken h2]
      exact ⟨fun h => (nomatch h), fun h => absurd h.1.2.1 h2⟩

/-- **C169.** The check of the line style: `linestyle` is renamed to `ls`, a value which is false (like `""` for no line) counts as
missing, other keywords are kept, and a marker is added only if there are no lines. The result is not used. -/
theorem C169_check (truthy : V → Bool) (none solid noLine circle : V) [DecidableEq V] (lines : Bool)
    {kw : Dict String V} (hk : kw.keys.Nodup) :
    let out := checkPlotKw truthy none solid noLine circle lines kw
    let l := (kw.get? "linestyle").getD none
    let ls := if truthy l = true then l else (kw.get? "ls").getD none
    out.get? "ls" = some (if ls = none then (if lines = true then solid else noLine) else ls) ∧
      out.get? "linestyle" = Option.none ∧
      (∀ k, k ≠ "ls" → k ≠ "linestyle" → k ≠ "marker" → out.get? k = kw.get? k) ∧
      out.get? "marker" = if (kw.get? "marker").getD none = none ∧ lines = false then some circle else kw.get? "marker" := by
  have a1 : ("marker" : String) ≠ "ls" := by decide
  have a2 : ("marker" : String) ≠ "linestyle" := by decide
  have a3 : ("ls" : String) ≠ "linestyle" := by decide
  have hd := Dict.nodup_keys_del kw "linestyle" hk
  intro out l ls
  have e1 : (kw.del "linestyle").get? "ls" = kw.get? "ls" := by
    rw [Dict.get?_del kw hk, if_neg a3.symm]
  set kw2 := if truthy l = true then kw.del "linestyle" else (kw.del "linestyle").del "ls" with hk2
  have e2 : ∀ k, k ≠ "ls" → kw2.get? k = if k = "linestyle" then Option.none else kw.get? k := by
    intro k h1
    rw [hk2]
    split
    · rw [Dict.get?_del kw hk]
      simp only [eq_comm]
    · rw [Dict.get?_del _ hd, if_neg (Ne.symm h1), Dict.get?_del kw hk]
      simp only [eq_comm]
  set w : V := if ls = none then (if lines = true then solid else noLine) else ls with hw
  have ho : out = if ((kw2.set "ls" w).get? "marker").getD none = none ∧ lines = false then (kw2.set "ls" w).set "marker" circle
      else kw2.set "ls" w := by
    simp only [out, checkPlotKw, e1, hw, ls, hk2, l]
  have e3 : (kw2.set "ls" w).get? "marker" = kw.get? "marker" := by
    rw [Dict.get?_set_ne _ _ a1.symm, e2 _ a1, if_neg a2]
  rw [e3] at ho
  rw [ho]
  by_cases hm : (kw.get? "marker").getD none = none ∧ lines = false
  · simp only [if_pos hm]
    refine ⟨?_, ?_, ?_, ?_⟩
    · rw [Dict.get?_set_ne _ _ a1, Dict.get?_set_self]
    · rw [Dict.get?_set_ne _ _ a2, Dict.get?_set_ne _ _ a3, e2 _ a3.symm, if_pos rfl]
    · intro k h1 h2 h3
      rw [Dict.get?_set_ne _ _ h3.symm, Dict.get?_set_ne _ _ h1.symm, e2 _ h1, if_neg h2]
    · rw [Dict.get?_set_self]
  · simp only [if_neg hm]
    refine ⟨?_, ?_, ?_, ?_⟩
    · rw [Dict.get?_set_self]
    · rw [Dict.get?_set_ne _ _ a3, e2 _ a3.symm, if_pos rfl]
    · intro k h1 h2 h3
      rw [Dict.get?_set_ne _ _ h1.symm, e2 _ h1, if_neg h2]
    · exact e3

example : checkPlotKw (V := String) (fun s => s != "" && s != "None") "None" "-" "" "o" true [("linestyle", ""), ("lw", "2")] =
    [("lw", "2"), ("ls", "-")] := by decide +kernel

/-- **C169.** Each plotting function uses the projection and the method of its name. -/
theorem C169_functions :
    functionTarget "plot_polar" = some (.polar, false) ∧ functionTarget "scatter_polar" = some (.polar, true) ∧
    functionTarget "plot_flat" = some (.flat, false) ∧ functionTarget "scatter_flat" = some (.flat, true) ∧
    functionTarget "plot_color_gradient" = some (.colorGradient, false) ∧ functionTarget "plot_3d" = some (.threeD, false) ∧
    functionTarget "scatter_3d" = some (.threeD, true) := by
  decide +kernel

/-- The keywords of matplotlib used in the examples. -/
def someKeywords : Fn → String → Bool
  | .plot, k => k = "ls" || k = "lw"
  | .scatter, k => k = "s" || k = "marker"
  | .colorbar, k => k = "label" || k = "shrink"
  | _, k => k = "alpha"

example : projectionPlot (V := Nat) someKeywords (fun v => v != 0) true false false true none 3 [("ls", 1), ("lw", 2)] =
    (List.replicate 3 ⟨.plot, [("ls", 1), ("lw", 2)]⟩, none) :=
  C169_forwarded _ _ _ _ _ (by decide) (by simp [Free, reserved]) (by simp [Known, method, someKeywords])

example : projectionPlot (V := Nat) someKeywords (fun v => v != 0) false true true true (some [("label", 1)]) 3 [("s", 2)] =
    ([], some .typeError) :=
  C169_label_false _ _ _ _ _ _ _ (by simp [Free, reserved])

example : (projectionPlot (V := Nat) someKeywords (fun v => v != 0) false true true true (some [("shrink", 1)]) 3 [("s", 2)]).2 = none :=
  (C169_legend_exactly _ _ _ _ _ _ (by decide) (by simp [Free, reserved]) (by simp [Known, method, someKeywords])).2
    ⟨by simp [Free], by simp [Known, someKeywords]⟩

example : gradientPlot (V := Nat) someKeywords false true none [("c", 1)] = ([], some .typeError) := by decide +kernel

end Verif.PlotKw
