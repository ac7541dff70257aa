import Mathlib.Tactic.Linarith
import Mathlib.Tactic.LinearCombination
import Mathlib.Tactic.FieldSimp
import Mathlib.Tactic.Ring
import Mathlib.Algebra.Order.Ring.Rat
import Mathlib.Algebra.Field.Rat
import Verif.Model.Repr

/-!
# Property C167: representations
-/

namespace Verif.Repr

variable {K F : Type} [Field K] [LinearOrder K]

/-- The conditions checked by the constructors. -/
def Comp.Ok : Comp K F → Prop
  | .idw p _ => 0 ≤ p
  | .meanWeigher r _ _ => 0 < r.val
  | .memberWeigher r l _ _ => 0 < r.val ∧ 0 ≤ l.val
  | .ball r _ => 0 < r.val
  | .scalingBall n _ => 0 < n.val
  | .quantile q => 0 ≤ q.val ∧ q.val ≤ 100
  | .bound lo hi => lo.val ≤ hi.val
  | _ => True

/-- The components whose representation is a complete call: with norms that are known under their names, and without chosen
dimensions. -/
def Comp.Shown (nameOf : F → String) (env : String → Option F) : Comp K F → Prop
  | .idw _ norm => env (nameOf norm) = some norm
  | .bilinear => True
  | .meanWeigher _ norm dims => (∃ f, norm = some f ∧ env (nameOf f) = some f) ∧ dims = none
  | .memberWeigher _ _ norm dims => env (nameOf norm) = some norm ∧ dims = none
  | .ball _ norm => env (nameOf norm) = some norm
  | .scalingBall _ norm => env (nameOf norm) = some norm
  | .quantile _ => True
  | .bound _ _ => True
  | _ => False

/-- Not a table of a single wind. -/
def Comp.Several : Comp K F → Prop
  | .table ws wa _ => 2 ≤ ws.length ∨ 2 ≤ wa.length
  | _ => True

theorem two_junk {l : List K} (h : 2 ≤ l.length) : vecArg l = .junk := by
  match l, h with
  | _ :: _ :: _, _ => rfl

theorem curve_misplaced (k : String) (a : Arg K) (l : List (Option String × Arg K)) {b : Option String × Arg K} (hb : b ∈ l)
    (hn : b.1 = none) : misplaced ((some k, a) :: l) = true := by
  simp only [misplaced, Bool.or_eq_true, List.any_eq_true]
  exact Or.inl ⟨b, hb, by rw [hn]; rfl⟩

/-- The result of a call with a function given by its name. -/
def withFn (env : String → Option F) (name : String) (f : F → Comp K F) : Except EvalErr (Comp K F) :=
  match env name with
  | some g => .ok (f g)
  | none => .error .name

theorem eval_idw (lib : Lib F) (env : String → Option F) {p : Int} (hp : 0 ≤ p) (name : String) :
    eval lib env (⟨.idw, [(some "p", .num (.int p)), (some "norm", .name name)]⟩ : Call K) = withFn env name fun g => .idw p g := by
  rcases h : env name with _ | g <;>
  simp [eval, misplaced, evalArgs, evalArg, h, withFn, bindArgs, signature, construct, List.lookup, fnArg, not_lt.2 hp]

theorem eval_meanWeigher (lib : Lib F) (env : String → Option F) {r : Num K} (hr : 0 < r.val) (name : String) :
    eval lib env (⟨.meanWeigher, [(some "radius", .num r), (some "norm", .name name)]⟩ : Call K) =
      withFn env name fun g => .meanWeigher r (some g) none := by
  rcases h : env name with _ | g <;>
  simp [eval, misplaced, evalArgs, evalArg, h, withFn, bindArgs, signature, construct, List.lookup, fnArg, numArg, Val.num?,
    not_le.2 hr]

theorem eval_memberWeigher (lib : Lib F) (env : String → Option F) {r l : Num K} (hr : 0 < r.val) (hl : 0 ≤ l.val) (name : String) :
    eval lib env (⟨.memberWeigher, [(some "radius", .num r), (some "length", .num l), (some "norm", .name name)]⟩ : Call K) =
      withFn env name fun g => .memberWeigher r l g none := by
  rcases h : env name with _ | g <;>
  simp [eval, misplaced, evalArgs, evalArg, h, withFn, bindArgs, signature, construct, List.lookup, fnArg, numArg, Val.num?,
    not_le.2 hr, not_lt.2 hl]

theorem eval_ball (lib : Lib F) (env : String → Option F) {r : Num K} (hr : 0 < r.val) (name : String) :
    eval lib env (⟨.ball, [(some "norm", .name name), (some "radius", .num r)]⟩ : Call K) = withFn env name fun g => .ball r g := by
  rcases h : env name with _ | g <;>
  simp [eval, misplaced, evalArgs, evalArg, h, withFn, bindArgs, signature, construct, List.lookup, fnArg, numArg, Val.num?,
    not_le.2 hr]

theorem eval_scalingBall (lib : Lib F) (env : String → Option F) {n : Num K} (hn : 0 < n.val) (name : String) :
    eval lib env (⟨.scalingBall, [(some "min_pts", .num n), (some "norm", .name name)]⟩ : Call K) =
      withFn env name fun g => .scalingBall n g := by
  rcases h : env name with _ | g <;>
  simp [eval, misplaced, evalArgs, evalArg, h, withFn, bindArgs, signature, construct, List.lookup, fnArg, numArg, Val.num?,
    not_le.2 hn]

theorem eval_quantile (lib : Lib F) (env : String → Option F) {q : Num K} (hq : 0 ≤ q.val ∧ q.val ≤ 100) :
    eval lib env (⟨.quantile, [(some "percent", .num q)]⟩ : Call K) = .ok (.quantile q) := by
  simp [eval, misplaced, evalArgs, evalArg, bindArgs, signature, construct, List.lookup, numArg, Val.num?, not_lt.2 hq.1,
    not_lt.2 hq.2]

theorem eval_bound (lib : Lib F) (env : String → Option F) {lo hi : Num K} (h : lo.val ≤ hi.val) :
    eval lib env (⟨.bound, [(some "upper_bound", .num hi), (some "lower_bound", .num lo)]⟩ : Call K) = .ok (.bound lo hi) := by
  simp [eval, misplaced, evalArgs, evalArg, bindArgs, signature, construct, List.lookup, numArg, Val.num?, not_lt.2 h]

theorem eval_bilinear (lib : Lib F) (env : String → Option F) :
    eval lib env (⟨.bilinear, []⟩ : Call K) = .ok .bilinear := by
  simp [eval, misplaced, evalArgs, bindArgs, signature, construct]

theorem eval_junk (lib : Lib F) (env : String → Option F) {c : Call K} (h : ∃ a ∈ c.args, a.2 = .junk) :
    eval lib env c = .error .syntax := by
  rw [eval, if_pos (Or.inr h)]

theorem eval_misplaced (lib : Lib F) (env : String → Option F) {c : Call K} (h : misplaced c.args = true) :
    eval lib env c = .error .syntax := by
  rw [eval, if_pos (Or.inl h)]

theorem withFn_ok {env : String → Option F} {name : String} {f : F → Comp K F} {c : Comp K F} :
    withFn env name f = .ok c ↔ ∃ g, env name = some g ∧ f g = c := by
  unfold withFn
  rcases env name with _ | g <;> simp

/-- The representation of a curve is no python expression: a positional argument, or nothing, follows a keyword argument. -/
theorem curve_syntax (lib : Lib F) (nameOf : F → String) (env : String → Option F) (f : F) (params : List (Num K)) (radians : Bool) :
    ∃ e, repr nameOf (.curve f params radians) = .ok e ∧ eval lib env e = .error .syntax := by
  refine ⟨_, rfl, eval_misplaced lib env ?_⟩
  cases params with
  | nil => exact curve_misplaced _ _ _ (b := (none, .junk)) (by simp) rfl
  | cons x xs => exact curve_misplaced _ _ _ (b := (none, .num x)) (by simp) rfl

/-- **C167.** Evaluating the representation of a component gives the component back exactly if it is a component of those that are
shown completely. -/
theorem C167_exactly (lib : Lib F) (nameOf : F → String) (env : String → Option F) {c : Comp K F} (hc : c.Ok) (hs : c.Several) :
    (∃ e, repr nameOf c = .ok e ∧ eval lib env e = .ok c) ↔ c.Shown nameOf env := by
  have good : ∀ {e : Call K} {r : Except EvalErr (Comp K F)}, repr nameOf c = .ok e → eval lib env e = r →
      ((∃ e, repr nameOf c = .ok e ∧ eval lib env e = .ok c) ↔ r = .ok c) := by
    intro e r h1 h2
    constructor
    · rintro ⟨e', h3, h4⟩
      rw [h1] at h3
      cases h3
      exact h2.symm.trans h4
    · intro h
      exact ⟨e, h1, h2.trans h⟩
  cases c with
  | idw p norm =>
    rw [good rfl (eval_idw lib env hc _), withFn_ok]
    constructor
    · rintro ⟨g, h1, h2⟩; cases h2; exact h1
    · intro h; exact ⟨norm, h, rfl⟩
  | mean s norm distr params => rw [good rfl (eval_junk lib env ⟨(some "distribution", .junk), by simp, rfl⟩)]; simp [Comp.Shown]
  | shepard tol slope norm =>
    have : eval lib env (⟨.shepard, [(some "tol", .num tol), (some "slope_scal", .num slope), (some "norm", .name (nameOf norm))]⟩ :
        Call K) = withFn (K := K) env (nameOf norm) (fun _ => .bilinear) >>= fun _ => .error .type := by
      rcases h : env (nameOf norm) with _ | g
      · simp [eval, misplaced, evalArgs, evalArg, h, withFn]; rfl
      · simp [eval, misplaced, evalArgs, evalArg, h, withFn, bindArgs, signature]; rfl
    rw [good rfl this]
    simp only [Comp.Shown, iff_false]
    unfold withFn
    rcases env (nameOf norm) with _ | g
    · rintro ⟨⟩
    · rintro ⟨⟩
  | bilinear => rw [good rfl (eval_bilinear lib env)]; simp [Comp.Shown]
  | meanWeigher r norm dims =>
    cases norm with
    | none => simp [repr, Comp.Shown]
    | some f =>
      rw [good rfl (eval_meanWeigher lib env hc _), withFn_ok]
      constructor
      · rintro ⟨g, h1, h2⟩; cases h2; exact ⟨⟨f, rfl, h1⟩, rfl⟩
      · rintro ⟨⟨g, h1, h2⟩, rfl⟩; cases h1; exact ⟨f, h2, rfl⟩
  | memberWeigher r l norm dims =>
    rw [good rfl (eval_memberWeigher lib env hc.1 hc.2 _), withFn_ok]
    constructor
    · rintro ⟨g, h1, h2⟩; cases h2; exact ⟨h1, rfl⟩
    · rintro ⟨h, rfl⟩; exact ⟨norm, h, rfl⟩
  | ball r norm =>
    rw [good rfl (eval_ball lib env hc _), withFn_ok]
    constructor
    · rintro ⟨g, h1, h2⟩; cases h2; exact h1
    · intro h; exact ⟨norm, h, rfl⟩
  | scalingBall n norm =>
    rw [good rfl (eval_scalingBall lib env hc _), withFn_ok]
    constructor
    · rintro ⟨g, h1, h2⟩; cases h2; exact h1
    · intro h; exact ⟨norm, h, rfl⟩
  | ellipsoid T norm r => rw [good rfl (eval_junk lib env ⟨(some "lin_trans", .junk), by simp [matArg], rfl⟩)]; simp [Comp.Shown]
  | cuboid norm size =>
    have : eval lib env (⟨.cuboid, [(some "norm", .name (nameOf norm)), (some "attributes", .tuple size)]⟩ : Call K) =
        withFn (K := K) env (nameOf norm) (fun _ => .bilinear) >>= fun _ => .error .type := by
      rcases h : env (nameOf norm) with _ | g
      · simp [eval, misplaced, evalArgs, evalArg, h, withFn]; rfl
      · simp [eval, misplaced, evalArgs, evalArg, h, withFn, bindArgs, signature]; rfl
    rw [good rfl this]
    simp only [Comp.Shown, iff_false]
    unfold withFn
    rcases env (nameOf norm) with _ | g
    · rintro ⟨⟩
    · rintro ⟨⟩
  | polytope mat b =>
    have : ∃ x, eval lib env (⟨.polytope, [(some "mat", matArg (mat.map fun r => [r.1, r.2])), (some "b", vecArg b)]⟩ : Call K) =
        .error x := by
      rcases mat with _ | ⟨r, rs⟩
      · rcases b with _ | ⟨x, _ | ⟨y, ys⟩⟩
        · exact ⟨.value, by simp [eval, misplaced, evalArgs, evalArg, matArg, vecArg, bindArgs, signature, construct]⟩
        · exact ⟨.value, by simp [eval, misplaced, evalArgs, evalArg, matArg, vecArg, bindArgs, signature, construct]⟩
        · exact ⟨.syntax, eval_junk lib env ⟨(some "b", .junk), by simp [vecArg], rfl⟩⟩
      · exact ⟨.syntax, eval_junk lib env ⟨(some "mat", .junk), by simp [matArg], rfl⟩⟩
    obtain ⟨x, hx⟩ := this
    rw [good rfl hx]
    simp [Comp.Shown]
  | quantile q => rw [good rfl (eval_quantile lib env hc)]; simp [Comp.Shown]
  | bound lo hi => rw [good rfl (eval_bound lib env hc)]; simp [Comp.Shown]
  | curve f params radians =>
    obtain ⟨e, h1, h2⟩ := curve_syntax lib nameOf env f params radians
    rw [good h1 h2]
    simp [Comp.Shown]
  | cloud points =>
    have : ∃ x, eval lib env (⟨.cloud, [(some "pts", matArg (points.map fun q => [q.1, q.2.1, q.2.2]))]⟩ : Call K) = .error x := by
      rcases points with _ | ⟨r, rs⟩
      · exact ⟨.type, by simp [eval, misplaced, evalArgs, evalArg, matArg, bindArgs, signature]⟩
      · exact ⟨.syntax, eval_junk lib env ⟨(some "pts", .junk), by simp [matArg], rfl⟩⟩
    obtain ⟨x, hx⟩ := this
    rw [good rfl hx]
    simp [Comp.Shown]
  | table ws wa bsps =>
    have : eval lib env (⟨.table, [(none, vecArg ws), (none, vecArg wa), (none, matArg bsps)]⟩ : Call K) = .error .syntax := by
      rcases hs with h | h
      · exact eval_junk lib env ⟨(none, .junk), by simp [two_junk h], rfl⟩
      · exact eval_junk lib env ⟨(none, .junk), by simp [two_junk h], rfl⟩
    rw [good rfl this]
    simp [Comp.Shown]

example : eval (K := ℚ) (F := String) ⟨"scaled_euclidean_norm", "s_norm"⟩ (fun s => if s = "euclidean_norm" then some s else none)
    ⟨.ball, [(some "norm", .name "euclidean_norm"), (some "radius", .num (.flt (1 / 2)))]⟩ =
      .ok (.ball (.flt (1 / 2)) "euclidean_norm") := by decide +kernel

/-- **C167 is false** for `CylindricMeanWeigher()`: with the default norm, `repr` raises `AttributeError`. -/
theorem C167_default_false (nameOf : F → String) (radius : Num K) (dims : Option (List String)) :
    repr nameOf (.meanWeigher radius none dims) = .error .attributeError := rfl

/-- **C167.** It is the only component for which `repr` raises. -/
theorem C167_raises (nameOf : F → String) (c : Comp K F) :
    (∃ e, repr nameOf c = .ok e) ↔ ∀ radius dims, c ≠ .meanWeigher radius none dims := by
  constructor
  · rintro ⟨e, h⟩ radius dims rfl
    cases h
  · intro h
    cases c with
    | meanWeigher r norm dims =>
      cases norm with
      | none => exact absurd rfl (h r dims)
      | some f => exact ⟨_, rfl⟩
    | _ => exact ⟨_, rfl⟩

/-- **C167 is false** for `ShepardInterpolator` and `Cuboid`: the names of parameters are wrong (`slope_scal`, `attributes`), so that
`TypeError` is raised. -/
theorem C167_keywords_false (lib : Lib F) (nameOf : F → String) {env : String → Option F} {norm : F}
    (hn : env (nameOf norm) = some norm) (tol slope : Num K) (size : List (Num K)) :
    (∃ e, repr nameOf (.shepard tol slope norm) = .ok e ∧ eval lib env e = .error .type) ∧
      ∃ e, repr nameOf (.cuboid norm size) = .ok e ∧ eval lib env e = .error .type := by
  refine ⟨⟨_, rfl, ?_⟩, _, rfl, ?_⟩
  · simp [eval, misplaced, evalArgs, evalArg, hn, bindArgs, signature]
  · simp [eval, misplaced, evalArgs, evalArg, hn, bindArgs, signature]

example : ∃ e, repr (K := ℚ) (id : String → String) (.cuboid "absolute" [.flt (1 / 20), .flt (1 / 20)]) = .ok e ∧
    eval ⟨"scaled_euclidean_norm", "s_norm"⟩ some e = .error .type :=
  (C167_keywords_false _ id (env := some) rfl (.int 1) (.int 1) _).2

/-- **C167 is false** for `ArithmeticMeanInterpolator`, `Ellipsoid`, curves, point clouds and tables: their representations are no
python expressions. -/
theorem C167_syntax_false (lib : Lib F) (nameOf : F → String) (env : String → Option F) {c : Comp K F}
    (h : match c with
      | .mean _ _ _ _ => True
      | .ellipsoid _ _ _ => True
      | .polytope mat _ => mat ≠ []
      | .curve _ _ _ => True
      | .cloud points => points ≠ []
      | .table ws wa _ => 2 ≤ ws.length ∨ 2 ≤ wa.length
      | _ => False) :
    ∃ e, repr nameOf c = .ok e ∧ eval lib env e = .error .syntax := by
  cases c with
  | mean s norm distr params => exact ⟨_, rfl, eval_junk lib env ⟨(some "distribution", .junk), by simp, rfl⟩⟩
  | ellipsoid T norm r => exact ⟨_, rfl, eval_junk lib env ⟨(some "lin_trans", .junk), by simp [matArg], rfl⟩⟩
  | polytope mat b =>
    obtain ⟨r, rs, rfl⟩ := List.exists_cons_of_ne_nil h
    exact ⟨_, rfl, eval_junk lib env ⟨(some "mat", .junk), by simp [matArg], rfl⟩⟩
  | curve f params radians => exact curve_syntax lib nameOf env f params radians
  | cloud points =>
    obtain ⟨r, rs, rfl⟩ := List.exists_cons_of_ne_nil h
    exact ⟨_, rfl, eval_junk lib env ⟨(some "pts", .junk), by simp [matArg], rfl⟩⟩
  | table ws wa bsps =>
    rcases h with h | h
    · exact ⟨_, rfl, eval_junk lib env ⟨(none, .junk), by simp [two_junk h], rfl⟩⟩
    · exact ⟨_, rfl, eval_junk lib env ⟨(none, .junk), by simp [two_junk h], rfl⟩⟩
  | _ => exact absurd h id

/-- **C167.** Two different components that are shown completely have different representations. -/
theorem C167_injective (nameOf : F → String) {env : String → Option F} {c c' : Comp K F} (lib : Lib F) (hc : c.Ok) (hs : c.Several)
    (hc' : c'.Ok) (hs' : c'.Several) (h : c.Shown nameOf env) (h' : c'.Shown nameOf env) (e : repr nameOf c = repr nameOf c') :
    c = c' := by
  obtain ⟨x, h1, h2⟩ := (C167_exactly lib nameOf env hc hs).2 h
  obtain ⟨y, h3, h4⟩ := (C167_exactly lib nameOf env hc' hs').2 h'
  rw [h1, h3] at e
  cases e
  rw [h2] at h4
  exact Except.ok.inj h4

example : repr (K := ℚ) (id : String → String) (.ball (.int 1) "n") ≠ repr id (.ball (.int 2) "n") :=
  fun e => absurd (C167_injective id (env := some) ⟨"a", "b"⟩ (c := .ball (.int 1) "n") (c' := .ball (.int 2) "n")
    (by norm_num [Comp.Ok, Num.val]) trivial (by norm_num [Comp.Ok, Num.val]) trivial rfl rfl e) (by simp)

/-- **C167 is false** for the dimensions of weighers, which are not shown at all, and for norms with the same name, such as all norms
made by `scaled_norm`. -/
theorem C167_ambiguous_false (nameOf : F → String) {f g : F} (hfg : nameOf f = nameOf g) (radius : Num K)
    (dims dims' : Option (List String)) :
    repr (K := K) nameOf (.meanWeigher radius (some f) dims) = repr nameOf (.meanWeigher radius (some g) dims') ∧
      repr (K := K) nameOf (.ball radius f) = repr nameOf (.ball radius g) := by
  simp [repr, hfg]

/-- Two functions without a name of their own. -/
example : repr (K := ℚ) (fun _ : Nat => "<lambda>") (.ball (.int 1) 3) = repr (fun _ : Nat => "<lambda>") (.ball (.int 1) 4) :=
  (C167_ambiguous_false (fun _ => "<lambda>") rfl (.int 1) none none).2

/-- **C167.** The matrix shown for an ellipsoid is the one it was made with exactly if this is its own inverse. -/
theorem C167_ellipsoid_exactly {A : (K × K) × (K × K)} {norm : F} {radius : Num K} {T : (K × K) × (K × K)}
    (h : mkEllipsoid A norm radius = .ok (.ellipsoid T norm radius)) :
    T = A ↔ A.1.1 * A.1.1 + A.1.2 * A.2.1 = 1 ∧ A.1.1 * A.1.2 + A.1.2 * A.2.2 = 0 ∧ A.2.1 * A.1.1 + A.2.2 * A.2.1 = 0 ∧
      A.2.1 * A.1.2 + A.2.2 * A.2.2 = 1 := by
  obtain ⟨⟨a, b⟩, c, d⟩ := A
  unfold mkEllipsoid at h
  simp only at h ⊢
  split_ifs at h with h1 h2
  simp only [Except.ok.injEq, Comp.ellipsoid.injEq, and_true] at h
  subst h
  simp only [Prod.mk.injEq, and_assoc]
  constructor
  · rintro ⟨e1, e2, e3, e4⟩
    rw [div_eq_iff h1] at e1 e2 e3 e4
    have m1 : a * d - b * c ≠ 0 := h1
    refine ⟨?_, ?_, ?_, ?_⟩
    · apply mul_right_cancel₀ m1
      linear_combination -a * e1 - b * e3
    · apply mul_right_cancel₀ m1
      linear_combination -a * e2 - b * e4
    · apply mul_right_cancel₀ m1
      linear_combination -c * e1 - d * e3
    · apply mul_right_cancel₀ m1
      linear_combination -c * e2 - d * e4
  · rintro ⟨e1, e2, e3, e4⟩
    refine ⟨?_, ?_, ?_, ?_⟩ <;> rw [div_eq_iff h1]
    · linear_combination -d * e1 + b * e3
    · linear_combination -d * e2 + b * e4
    · linear_combination c * e1 - a * e3
    · linear_combination c * e2 - a * e4

/-- The matrix is stored inverted, which for a reflection is the same, for a scaling is not. -/
example : mkEllipsoid (K := ℚ) ((0, 1), (1, 0)) "norm" (.int 1) = .ok (.ellipsoid ((0, 1), (1, 0)) "norm" (.int 1)) ∧
    mkEllipsoid (K := ℚ) ((2, 0), (0, 1)) "norm" (.int 1) = .ok (.ellipsoid ((1 / 2, 0), (0, 1)) "norm" (.int 1)) := by
  constructor <;> simp [mkEllipsoid, Num.val]

/-- **C167 is false** for ellipsoids: the one with matrix diag(2, 2) is shown with diag(1/2, 1/2). -/
theorem C167_ellipsoid_false (norm : F) : mkEllipsoid (K := ℚ) ((2, 0), (0, 2)) norm (.int 1) =
    .ok (.ellipsoid ((1 / 2, 0), (0, 1 / 2)) norm (.int 1)) := by
  norm_num [mkEllipsoid, Num.val]

/-- **C167.** A call without arguments gives the component with the documented defaults. -/
theorem C167_defaults [IsStrictOrderedRing K] (lib : Lib F) (env : String → Option F) :
    eval lib env (⟨.idw, []⟩ : Call K) = .ok (.idw 2 lib.scaledEuclidean) ∧
    eval lib env (⟨.meanWeigher, []⟩ : Call K) = .ok (.meanWeigher (.flt (5 / 100)) none none) ∧
    eval lib env (⟨.memberWeigher, []⟩ : Call K) = .ok (.memberWeigher (.flt (5 / 100)) (.flt (5 / 100)) lib.standard none) ∧
    eval lib env (⟨.ball, []⟩ : Call K) = .ok (.ball (.flt (5 / 100)) lib.scaledEuclidean) ∧
    eval lib env (⟨.scalingBall, []⟩ : Call K) = .error .type ∧
    eval lib env (⟨.quantile, []⟩ : Call K) = .ok (.quantile (.int 50)) ∧
    eval lib env (⟨.bound, []⟩ : Call K) = .ok (.bound (.flt (1 / 2)) (.int 1)) := by
  have h : (0 : K) < 5 / 100 := by norm_num
  have h' : (1 / 2 : K) ≤ 1 := by norm_num
  refine ⟨?_, ?_, ?_, ?_, ?_, ?_, ?_⟩ <;>
  norm_num [eval, misplaced, evalArgs, bindArgs, signature, construct, fnArg, numArg, Num.val]

end Verif.Repr
