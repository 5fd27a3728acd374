import Verif.Model.DerivedData

/-!
What the calculated data of a map should be: the value calculated from the loaded data alone, with
the default settings.
-/

namespace DefDAP.Spec

open DefDAP

/-- The boundaries of the loaded data for a tolerance. -/
def boundsOf {D : Type} (c : DerivedCalc D) (tol : ℝ) (euler phase : D) : Except Err (D × D) :=
  c.bounds tol 0 (c.quats euler) phase

/-- Image and list of the grains of the loaded data for a tolerance and a smallest size. -/
def grainsOf {D : Type} (c : DerivedCalc D) (tol : ℝ) (m : Int) (euler phase : D) :
    Except Err (D × D) := do
  let b ← boundsOf c tol euler phase
  c.grains m b.2 phase

/-- Each of the data, from the loaded data with the default tolerance of 10 degrees and the default
smallest size of 10 points. -/
def derivedOf {D : Type} (c : DerivedCalc D) (euler phase : D) : DerivedKey → Except Err D
  | .orientation => .ok (c.quats euler)
  | .phaseBoundaries => (boundsOf c 10 euler phase).map (·.1)
  | .grainBoundaries => (boundsOf c 10 euler phase).map (·.2)
  | .grains => (grainsOf c 10 10 euler phase).map (·.1)
  | .kam => c.kam (c.quats euler)
  | .gnd => (c.nye 0 (c.quats euler)).map (·.1)
  | .nye => (c.nye 0 (c.quats euler)).map (·.2)
  | .proxigram => do
    let b ← boundsOf c 10 euler phase
    c.prox b.2

/-- Steps that only read, or calculate again without settings. -/
def readsOnly {D : Type} : DerivedOp D → Prop
  | .read _ => True
  | .readList => True
  | .network => True
  | .genKam => True
  | .genNye => True
  | .genProx => True
  | _ => False

/-- Steps that do not change the loaded data, the orientations or the primary phase. -/
def keepsLoaded {D : Type} : DerivedOp D → Prop
  | .filter _ => False
  | .rotate => False
  | .setPrimary _ => False
  | _ => True

/-- Steps other than calling the method `find_grains`. -/
def noDirectGrains {D : Type} : DerivedOp D → Prop
  | .callGrains _ => False
  | _ => True

end DefDAP.Spec
