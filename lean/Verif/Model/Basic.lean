/-!
Shared vocabulary of the model: pixels, images with checked access, and the
errors Python or the compiled code can end in.
-/

namespace DefDAP

/-- A pixel `(x, y)`: column first, as in the point lists of the code
(`defdap/_accelerated.py:92`, `defdap/base.py:820`). -/
abbrev Px := Int × Int

/-- A two-dimensional array read as `im y x` (row first), as numpy arrays are
in `defdap/ebsd.py` and `defdap/_accelerated.py` (`_accelerated.py:69-94`). The shape is kept apart;
accesses of the compiled code go through `rd`/`inB`, which check it. -/
abbrev Img (α : Type) := Int → Int → α

/-- Ways a run can fail.
* `outOfBounds`: an array access outside its shape (undefined behaviour in
  numba's compiled code, which does not check).
* `fuel`: the model's loop bound was hit; theorems show it never is.
* the rest are the Python exceptions of the same name (for example `_accelerated.py:92`, `utils.py:167-183`). -/
inductive Err where
  | outOfBounds | fuel
  | valueError | indexError | keyError | typeError | attributeError
  | unboundLocalError | nameError | zeroDivisionError | dataGenerationError
  | fileNotFoundError | ioError | stopIteration | exception | assertionError
deriving DecidableEq, Repr

/-- The pixel `(x, y)` lies in an array of `h` rows and `w` columns (`_accelerated.py:58-66`). -/
def inB (h w : Nat) (x y : Int) : Bool :=
  decide (0 ≤ x) && decide (x < w) && decide (0 ≤ y) && decide (y < h)

/-- Checked read `im[y, x]` (`_accelerated.py:69-89`). -/
def rd {α : Type} (h w : Nat) (im : Img α) (y x : Int) : Except Err α :=
  if inB h w x y then .ok (im y x) else .error .outOfBounds

/-- `im[y, x] = v` (shape checked separately with `inB`) (`_accelerated.py:93-94`). -/
def wr {α : Type} (im : Img α) (y x : Int) (v : α) : Img α :=
  fun y' x' => if y' = y ∧ x' = x then v else im y' x'

end DefDAP
