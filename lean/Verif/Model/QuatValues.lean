import Verif.Model.Quat

/-! Model of the operators of `Quat` that compare, add and change quaternions (`quat.py:224-315`). A
right operand that is not a quaternion (`TypeError`, unequal) is not modelled. -/

namespace DefDAP

namespace Quat

/-- `quat_coef.tolist()` (`quat.py:226, 229`). -/
def toList {α : Type} (q : Quat α) : List α := [q.q0, q.q1, q.q2, q.q3]

/-- `__eq__` (`quat.py:224-226`). Nan is equal to nothing in the code and does not occur here. -/
def Same (p q : Quat ℝ) : Prop := p.toList = q.toList

/-- `__hash__` (`quat.py:228-229`); `h` is the hash of a tuple. -/
def hashOf (h : List ℝ → Int) (q : Quat ℝ) : Int := h q.toList

/-- The sum of coefficients (`quat.py:277, 283`). -/
def addRaw (p q : Quat ℝ) : Quat ℝ := ⟨p.q0 + q.q0, p.q1 + q.q1, p.q2 + q.q2, p.q3 + q.q3⟩

/-- `__add__` (`quat.py:275-278`). -/
noncomputable def add (p q : Quat ℝ) : Quat ℝ := make false (addRaw p q)

/-- `__iadd__` (`quat.py:281-285`): the object afterwards. -/
def iadd (p q : Quat ℝ) : Quat ℝ := addRaw p q

/-- `__setitem__` (`quat.py:291-292`) with an index from 0 to 3. -/
def setItem (q : Quat ℝ) (k : Fin 4) (v : ℝ) : Quat ℝ :=
  if k = 0 then { q with q0 := v } else if k = 1 then { q with q1 := v }
  else if k = 2 then { q with q2 := v } else { q with q3 := v }

/-- `normalise` (`quat.py:305-315`): the object afterwards and the value returned, `None` here for
every quaternion. -/
noncomputable def normaliseCall (q : Quat ℝ) : Quat ℝ × Option (Quat ℝ) := (normalise q, none)

end Quat

/-- Calls that change a quaternion (`quat.py:281-285, 305-315`). -/
inductive QuatOp where
  | iadd (r : Quat ℝ)
  | normalise

/-- One call (`quat.py:281-285, 305-315`). -/
noncomputable def quatStep (q : Quat ℝ) : QuatOp → Quat ℝ
  | .iadd r => q.iadd r
  | .normalise => q.normaliseCall.1

end DefDAP
