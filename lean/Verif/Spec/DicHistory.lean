import Verif.Model.DicHistory

/-!
What users expect of the grains and links of a DIC map over a history.
-/

namespace DefDAP.Spec

open DefDAP

/-- The EBSD maps linked in a history, in order. -/
def linksOf : List DicOp → List Nat
  | [] => []
  | .link e :: ops => e :: linksOf ops
  | _ :: ops => linksOf ops

/-- Where a point of the cropped map is in the full map. -/
def inFull (w : DicW) (p : Px) : Px := (p.1 + w.left, p.2 + w.top)

/-- The values of a datum of the full map at points of the full map. -/
def valuesAt {α : Type} (full : Img α) (pts : List Px) : List α := pts.map fun p => full p.2 p.1

/-- Points inside the cropped map. -/
def InsideCrop (w : DicW) (pts : List Px) : Prop :=
  ∀ p ∈ pts, 0 ≤ p.1 ∧ p.1 < (w.xdim : Int) - w.left - w.right ∧
    0 ≤ p.2 ∧ p.2 < (w.ydim : Int) - w.top - w.bottom

/-- Steps that only read or link. -/
def keepsGrains : DicOp → Prop
  | .read => True
  | .readList => True
  | .link _ => True
  | _ => False

/-- Steps other than calling the method `find_grains`. -/
def noDicCall : DicOp → Prop
  | .call _ => False
  | _ => True

end DefDAP.Spec
