import Mathlib.Logic.Relation
import Verif.Spec.Regions

/-!
Specification of regions of free pixels, for maps in which boundaries occupy pixels.
-/

namespace DefDAP.Spec

/-- Direct neighbours: they share an edge. -/
def Neighbour (p q : Px) : Prop :=
  (p.2 = q.2 ∧ (q.1 = p.1 + 1 ∨ q.1 = p.1 - 1)) ∨ (p.1 = q.1 ∧ (q.2 = p.2 + 1 ∨ q.2 = p.2 - 1))

/-- `q` is reached from `p` by steps between direct neighbours, entering only free pixels of
the map. -/
def FreeConn (h w : Nat) (free : Px → Prop) : Px → Px → Prop :=
  Relation.ReflTransGen (fun p q => Neighbour p q ∧ InMap h w q ∧ free q)

/-- `q` lies directly right of or directly below `p`. -/
def RightOrBelow (p q : Px) : Prop := q = (p.1 + 1, p.2) ∨ q = (p.1, p.2 + 1)

end DefDAP.Spec

namespace DefDAP.Spec

/-- Boundary pixel `q` belongs to the region of the free pixel `p`: some pixel of that region
is directly left of or above `q`, and of all regions for which this holds the region of `p`
has the first pixel in raster order. -/
def Owns (h w : Nat) (bnd : Img Bool) (p q : Px) : Prop :=
  InMap h w q ∧ bnd q.2 q.1 = true ∧
  (∃ r, FreeConn h w (fun r => bnd r.2 r.1 = false) p r ∧ RightOrBelow r q) ∧
  ∀ r, InMap h w r → bnd r.2 r.1 = false → RightOrBelow r q →
    ∀ t, FreeConn h w (fun r => bnd r.2 r.1 = false) r t →
      ∃ s, FreeConn h w (fun r => bnd r.2 r.1 = false) p s ∧ raster w s ≤ raster w t

/-- The region of the free pixel `p` with the boundary pixels belonging to it. -/
def InRegion (h w : Nat) (bnd : Img Bool) (p q : Px) : Prop :=
  FreeConn h w (fun r => bnd r.2 r.1 = false) p q ∨ Owns h w bnd p q

open Classical in
/-- Number of pixels of the region of `p`, boundary pixels included. -/
noncomputable def dicRegionSize (h w : Nat) (bnd : Img Bool) (p : Px) : Nat :=
  ((mapPixels h w).filter fun q => InRegion h w bnd p q).card

end DefDAP.Spec
