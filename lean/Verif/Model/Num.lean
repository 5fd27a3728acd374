import Mathlib.Data.Rat.Floor
import Verif.Model.Basic

/-! Small numeric conventions of Python and numpy used by several modules. -/

namespace DefDAP

/-- Rounding half to even, as Python's `round` and numpy's `round` do (`base.py:847-850`). -/
def roundEven (q : Rat) : Int :=
  let f := ⌊q⌋
  if q - f < 1 / 2 then f
  else if 1 / 2 < q - f then f + 1
  else if f % 2 = 0 then f else f + 1

/-- numpy's index rule for an axis of length `n`: negative indices count from the end
(`base.py:843-850`, `hrdic.py:603`). -/
def npIdx (n : Nat) (i : Int) : Except Err Int :=
  if 0 ≤ i ∧ i < n then .ok i
  else if i < 0 ∧ 0 ≤ i + n then .ok (i + n)
  else .error .indexError

/-- `im[y, x]` with numpy's index rule (`base.py:684`). -/
def npRead {α : Type} (h w : Nat) (im : Img α) (p : Px) : Except Err α := do
  let y ← npIdx h p.2
  let x ← npIdx w p.1
  .ok (im y x)

/-- `im[y, x] = v` with numpy's index rule (`ebsd.py:899-900`). -/
def npWrite {α : Type} (h w : Nat) (im : Img α) (p : Px) (v : α) : Except Err (Img α) := do
  let y ← npIdx h p.2
  let x ← npIdx w p.1
  .ok (wr im y x v)

/-- `arr.mean()`; `none` stands for the nan of an empty array (`base.py:847`). -/
def mean? (l : List Rat) : Option Rat := if l = [] then none else some (l.sum / l.length)

end DefDAP
