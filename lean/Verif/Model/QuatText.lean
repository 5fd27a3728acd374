import Verif.Model.Text
import Verif.Model.Quat

/-! The text of a quaternion: `defdap/quat.py:218-222`. -/

namespace DefDAP

/-- `Quat.__repr__` and `Quat.__str__` (`quat.py:218-222`): the coefficients with four decimals. -/
noncomputable def quatRepr (q : Quat ℝ) : Str :=
  '[' :: fixedStr 4 q.q0 ++ [',', ' '] ++ fixedStr 4 q.q1 ++ [',', ' '] ++ fixedStr 4 q.q2 ++
    [',', ' '] ++ fixedStr 4 q.q3 ++ [']']

end DefDAP
