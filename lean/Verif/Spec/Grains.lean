import Verif.Spec.Regions
import Mathlib.Data.List.Nodup

/-! Specification of grain lists. -/

namespace DefDAP.Spec

/-- A list of grains of a map of `h` rows and `w` columns: every grain has points, lists each
point once and lies in the map, and no point is in two grains. -/
structure ValidGrains (h w : Nat) (grains : List (List Px)) : Prop where
  nonempty : ∀ g ∈ grains, g ≠ []
  nodup : ∀ g ∈ grains, g.Nodup
  inMap : ∀ g ∈ grains, ∀ p ∈ g, InMap h w p
  disjoint : grains.Pairwise fun g g' => ∀ p ∈ g, p ∉ g'

end DefDAP.Spec
