import Verif.Spec.Regions

/-! Specification of touching grains. -/

namespace DefDAP.Spec

/-- The pixel is not on the edge of the map. -/
def Interior (h w : Nat) (p : Px) : Prop :=
  0 < p.1 ∧ p.1 < (w : Int) - 1 ∧ 0 < p.2 ∧ p.2 < (h : Int) - 1

/-- The pixel on the other side of a boundary point: to the right for a boundary of kind
x (`isX`), below for one of kind y. -/
def across (isX : Bool) (p : Px) : Px := if isX then (p.1 + 1, p.2) else (p.1, p.2 + 1)

/-- Boundary point `p`, away from the map edge, has grain `a` on one side and grain `b` on
the other. Grain `k` is labelled `k + 1`. -/
def Separates (h w : Nat) (labels : Img Int) (isX : Bool) (a b : Nat) (p : Px) : Prop :=
  Interior h w p ∧
  ((labels p.2 p.1 = a + 1 ∧ labels (across isX p).2 (across isX p).1 = b + 1) ∨
   (labels p.2 p.1 = b + 1 ∧ labels (across isX p).2 (across isX p).1 = a + 1))

instance (h w : Nat) (p : Px) : Decidable (Interior h w p) := by
  unfold Interior; infer_instance
instance (h w : Nat) (labels : Img Int) (isX : Bool) (a b : Nat) (p : Px) :
    Decidable (Separates h w labels isX a b p) := by
  unfold Separates; infer_instance

end DefDAP.Spec
