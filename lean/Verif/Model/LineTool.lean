import Mathlib.Analysis.Real.Sqrt
import Mathlib.Algebra.Order.Floor.Ring
import Verif.Model.Basic

/-!
Drawing a line on a plot, `Plot.line_slice` (`plotting.py:255-287`) with `add_arrow`
(`plotting.py:190-224`), and the profile along it, `Map.calc_line_profile` (`base.py:238-273`).
-/

namespace DefDAP

/-- The state of an interactive plot (`plotting.py:57-58, 69`): the first point, `none` for the empty
list it starts with, and the arrow shown, `(x0, y0, x1, y1)`. -/
structure LineSt where
  p1 : Option (ℝ × ℝ)
  arrow : Option (ℝ × ℝ × ℝ × ℝ)

/-- Pressing and letting go the mouse button: whether it is on the axes of the plot, and where
(`plotting.py:276-282`). -/
inductive LineEvent where
  | press (inAxes : Bool) (x y : ℝ)
  | release (inAxes : Bool) (x y : ℝ)

/-- `line_slice` (`plotting.py:275-287`): the new state, and what the action is called with. The
arrow before is removed (`plotting.py:222`). `self.p1[0]` of the empty list is an `IndexError`. -/
def lineSlice (st : LineSt) : LineEvent → Except Err (LineSt × Option (ℝ × ℝ × ℝ × ℝ))
  | .press false _ _ => .ok (st, none)
  | .press true x y => .ok ({ st with p1 := some (x, y) }, none)
  | .release false _ _ => .ok (st, none)
  | .release true x y =>
    match st.p1 with
    | none => .error .indexError
    | some p => .ok ({ st with arrow := some (p.1, p.2, x, y) }, some (p.1, p.2, x, y))

/-- A session: the state and the calls of the action, in order. An error leaves the state
(`plotting.py:255-287`). -/
def lineRun : LineSt → List LineEvent → LineSt × List (ℝ × ℝ × ℝ × ℝ)
  | st, [] => (st, [])
  | st, e :: es =>
    match lineSlice st e with
    | .error _ => lineRun st es
    | .ok (st', none) => lineRun st' es
    | .ok (st', some a) => ((lineRun st' es).1, a :: (lineRun st' es).2)

/-- `np.linspace(a, b, n)[k]` (`base.py:262`). -/
noncomputable def linspace (a b : ℝ) (n : Nat) (k : Nat) : ℝ :=
  if n ≤ 1 then a else a + k * ((b - a) / ((n : ℝ) - 1))

/-- The length of the line (`base.py:253`). -/
noncomputable def lineLength (l : ℝ × ℝ × ℝ × ℝ) : ℝ :=
  Real.sqrt ((l.2.2.2 - l.2.1) ^ 2 + (l.2.2.1 - l.1) ^ 2)

/-- The number of samples `skimage.measure.profile_line` takes: `int(ceil(hypot + 1))`
(`base.py:256-262`). -/
noncomputable def profileCount (l : ℝ × ℝ × ℝ × ℝ) : Nat := ⌈lineLength l + 1⌉.toNat

/-- The points `(x, y)` it samples (`base.py:256-261`). -/
noncomputable def profilePoint (l : ℝ × ℝ × ℝ × ℝ) (k : Nat) : ℝ × ℝ :=
  (linspace l.1 l.2.2.1 (profileCount l) k, linspace l.2.1 l.2.2.2 (profileCount l) k)

/-- `mode='nearest'`: indices beyond the image take the pixel at its edge (`base.py:260`). -/
def clampIdx (n : Nat) (i : Int) : Int := max 0 (min i (n - 1))

/-- Linear interpolation in an image of `h` rows and `w` columns (`scipy.ndimage.map_coordinates` of
order 1, the order skimage takes for numbers) (`base.py:256-261`). -/
noncomputable def interp (h w : Nat) (im : Img ℝ) (p : ℝ × ℝ) : ℝ :=
  let x := ⌊p.1⌋
  let y := ⌊p.2⌋
  let s := p.1 - x
  let t := p.2 - y
  let v := fun j i => im (clampIdx h j) (clampIdx w i)
  (1 - t) * ((1 - s) * v y x + s * v y (x + 1)) + t * ((1 - s) * v (y + 1) x + s * v (y + 1) (x + 1))

/-- `calc_line_profile` (`base.py:251-263`): the distances and values plotted. The line is given as
`(x0, y0, x1, y1)`; `profile_line` gets rows first, which `profilePoint` undoes. -/
noncomputable def lineProfile (h w : Nat) (im : Img ℝ) (l : ℝ × ℝ × ℝ × ℝ) : List (ℝ × ℝ) :=
  (List.range (profileCount l)).map fun k =>
    (linspace 0 (lineLength l) (profileCount l) k, interp h w im (profilePoint l k))

end DefDAP
