import Mathlib.Logic.Relation
import Mathlib.Data.Finset.Prod
import Mathlib.Data.Int.Interval
import Verif.Model.Basic

/-!
Specification of connected regions on a pixel map. Nothing here refers to the
algorithms.
-/

namespace DefDAP.Spec

/-- The pixel lies in the map of `h` rows and `w` columns. -/
def InMap (h w : Nat) (p : Px) : Prop :=
  0 ≤ p.1 ∧ p.1 < w ∧ 0 ≤ p.2 ∧ p.2 < h

/-- One step between 4-neighbours, both in the map, that crosses no boundary.
`bx y x` is the boundary between `(x, y)` and `(x+1, y)`; `by' y x` the one
between `(x, y)` and `(x, y+1)`. -/
inductive OpenStep (h w : Nat) (bx by' : Img Bool) : Px → Px → Prop
  | right (x y : Int) : InMap h w (x, y) → InMap h w (x + 1, y) → bx y x = false →
      OpenStep h w bx by' (x, y) (x + 1, y)
  | left (x y : Int) : InMap h w (x, y) → InMap h w (x + 1, y) → bx y x = false →
      OpenStep h w bx by' (x + 1, y) (x, y)
  | down (x y : Int) : InMap h w (x, y) → InMap h w (x, y + 1) → by' y x = false →
      OpenStep h w bx by' (x, y) (x, y + 1)
  | up (x y : Int) : InMap h w (x, y) → InMap h w (x, y + 1) → by' y x = false →
      OpenStep h w bx by' (x, y + 1) (x, y)

/-- `q` can be reached from `p` by open steps, never entering a pixel that is
not `free`. -/
def Reach (h w : Nat) (bx by' : Img Bool) (free : Px → Prop) : Px → Px → Prop :=
  Relation.ReflTransGen (fun p q => OpenStep h w bx by' p q ∧ free q)

/-- `p` and `q` are connected without crossing a boundary. -/
def Conn (h w : Nat) (bx by' : Img Bool) : Px → Px → Prop :=
  Relation.ReflTransGen (OpenStep h w bx by')

/-- The pixels of the map. -/
def mapPixels (h w : Nat) : Finset Px := Finset.Ico (0 : Int) w ×ˢ Finset.Ico (0 : Int) h

/-- Raster (row by row) position of a pixel. -/
def raster (w : Nat) (p : Px) : Int := p.2 * w + p.1

open Classical in
/-- Number of pixels connected to `p` without crossing a boundary. -/
noncomputable def regionSize (h w : Nat) (bx by' : Img Bool) (p : Px) : Nat :=
  ((mapPixels h w).filter fun q => Conn h w bx by' p q).card

/-- The phase map changes between indexed and non-indexed only across boundaries. -/
def SeparatesIndexed (h w : Nat) (bx by' : Img Bool) (phase : Img Int) : Prop :=
  ∀ p q, OpenStep h w bx by' p q → (phase p.2 p.1 = 0 ↔ phase q.2 q.1 = 0)

/-- There is a boundary at every phase change. -/
def SeparatesPhases (h w : Nat) (bx by' : Img Bool) (phase : Img Int) : Prop :=
  ∀ p q, OpenStep h w bx by' p q → phase p.2 p.1 = phase q.2 q.1

end DefDAP.Spec
