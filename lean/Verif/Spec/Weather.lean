import Verif.Model.Weather

/-!
# Vocabulary for the properties of the weather models
-/

namespace Verif.Weather

variable {K : Type} [Field K] [LinearOrder K]

/-- Piecewise affine interpolation in one dimension of the values `f 0, f 1, …` at the given grid values (meaning of
"approximated affinely", `/repo/hrosailing/models/weather_model.py:60-62`). -/
def affine : List K → (Nat → K) → K → K
  | g0 :: g1 :: gs, f, x =>
    if x ≤ g1 then ((g1 - x) * f 0 + (x - g0) * f 1) / (g1 - g0) else affine (g1 :: gs) (fun i => f (i + 1)) x
  | _, f, _ => f 0

/-- The stored value of the attribute number `a` at a grid point (`/repo/hrosailing/models/weather_model.py:66-67`). -/
def Gridded.stored {κ : Type} (G : Gridded κ K) (i j k a : Nat) : K :=
  ((((G.data.getD i []).getD j []).getD k []).getD a 0)

/-- The array has the shape `(n, m, r, s)`, the grid is strictly increasing and not empty
(`/repo/hrosailing/models/weather_model.py:66-79`). -/
structure Gridded.Valid {κ : Type} (G : Gridded κ K) : Prop where
  times : G.times.Pairwise (· < ·)
  lats : G.lats.Pairwise (· < ·)
  lons : G.lons.Pairwise (· < ·)
  times_ne : G.times ≠ []
  lats_ne : G.lats ≠ []
  lons_ne : G.lons ≠ []
  shape0 : G.data.length = G.times.length
  shape1 : ∀ a ∈ G.data, a.length = G.lats.length
  shape2 : ∀ a ∈ G.data, ∀ b ∈ a, b.length = G.lons.length
  shape3 : ∀ a ∈ G.data, ∀ b ∈ a, ∀ c ∈ b, c.length = G.attrs.length

/-- A coordinate lies in the range of the grid (`/repo/hrosailing/models/weather_model.py:250-259`). -/
def Inside (g : List K) (x : K) : Prop := (∃ l ∈ g, l ≤ x) ∧ ∃ r ∈ g, x ≤ r

end Verif.Weather
