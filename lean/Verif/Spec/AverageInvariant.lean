import Verif.Model.Quat

/-!
The average orientation: the sum of quaternions, made unit.
-/

namespace DefDAP.Spec

open Quat

/-- The sum of quaternions, component by component. -/
noncomputable def quatSum (l : List (Quat ℝ)) : Quat ℝ :=
  ⟨(l.map Quat.q0).sum, (l.map Quat.q1).sum, (l.map Quat.q2).sum, (l.map Quat.q3).sum⟩

/-- The sum, divided by its length. -/
noncomputable def meanQuat (l : List (Quat ℝ)) : Quat ℝ :=
  let s := quatSum l
  let n := Real.sqrt (s.q0 ^ 2 + s.q1 ^ 2 + s.q2 ^ 2 + s.q3 ^ 2)
  ⟨s.q0 / n, s.q1 / n, s.q2 / n, s.q3 / n⟩

/-- Unit quaternions of the northern hemisphere, any two of them less than 30 degrees apart without a
change of sign: the overlap is at least `c`, more than the cosine of 15 degrees. -/
structure Cluster (c : ℝ) (l : List (Quat ℝ)) : Prop where
  pos : 0 < c
  small : (2 + Real.sqrt 3) / 4 < c ^ 2
  unit : ∀ p ∈ l, p.q0 ^ 2 + p.q1 ^ 2 + p.q2 ^ 2 + p.q3 ^ 2 = 1
  north : ∀ p ∈ l, 0 < p.q0
  near : ∀ p ∈ l, ∀ r ∈ l, c ≤ p.q0 * r.q0 + p.q1 * r.q1 + p.q2 * r.q2 + p.q3 * r.q3

end DefDAP.Spec
