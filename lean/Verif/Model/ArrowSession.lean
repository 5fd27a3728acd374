import Mathlib.Data.Real.Basic
import Verif.Model.Basic

/-!
Arrows on a plot over a session: `Plot.add_arrow` and `Plot.clear` (`plotting.py:190-230, 295-306`).
-/

namespace DefDAP

/-- What is drawn on the axes: an arrow from a start to an end, or a text near a point
(`plotting.py:206-214, 228-230`). -/
inductive Drawn where
  | arrow (x0 y0 x1 y1 : ℝ)
  | label (txt : String) (x y : ℝ)

/-- The axes and the plot object: what is drawn, with the number of each object, the number the next
object gets, and `self.arrow` (`plotting.py:69`), the number of an object that may no longer be
drawn. -/
structure ArrowSt where
  shown : List (Nat × Drawn)
  next : Nat
  arrow : Option Nat

/-- A new plot (`plotting.py:43-72`). -/
def ArrowSt.new : ArrowSt := ⟨[], 0, none⟩

/-- `ax.annotate`: a new object on the axes (`plotting.py:218, 224, 228`). -/
def ArrowSt.draw (st : ArrowSt) (d : Drawn) : ArrowSt :=
  ⟨st.shown ++ [(st.next, d)], st.next + 1, st.arrow⟩

/-- `artist.remove()`: matplotlib raises if the object was removed before or its axes were cleared
since (`NotImplementedError` or `ValueError`, by version; here an exception) (`plotting.py:222`). -/
def ArrowSt.remove (st : ArrowSt) (n : Nat) : Except Err Unit × ArrowSt :=
  if n ∈ st.shown.map (·.1) then
    (.ok (), ⟨st.shown.filter fun o => o.1 ≠ n, st.next, st.arrow⟩)
  else (.error .exception, st)

/-- Removing the arrow before (`plotting.py:222`). -/
def removePrevious (clearPrev : Bool) (st : ArrowSt) : Except Err Unit × ArrowSt :=
  match clearPrev, st.arrow with
  | true, some n => st.remove n
  | _, _ => (.ok (), st)

/-- Drawing the new arrow and keeping its number (`plotting.py:223-224`); `none` if one of the
coordinates is `None`. -/
def drawArrow (c : Option (ℝ × ℝ × ℝ × ℝ)) (st : ArrowSt) : ArrowSt :=
  match c with
  | none => st
  | some c => ⟨st.shown ++ [(st.next, .arrow c.1 c.2.1 c.2.2.1 c.2.2.2)], st.next + 1, some st.next⟩

/-- The label (`plotting.py:227-230`), near the end of the arrow. Simplification: it is given only
with coordinates. -/
def drawLabel (c : Option (ℝ × ℝ × ℝ × ℝ)) (label : Option String) (st : ArrowSt) : ArrowSt :=
  match c, label with
  | some c, some t => st.draw (.label t c.2.2.1 c.2.2.2)
  | _, _ => st

/-- `add_arrow` (`plotting.py:190-230`) of an arrow that is not persistent. -/
def addArrow (c : Option (ℝ × ℝ × ℝ × ℝ)) (clearPrev : Bool) (label : Option String)
    (st : ArrowSt) : Except Err Unit × ArrowSt :=
  match (removePrevious clearPrev st).1 with
  | .error e => (.error e, (removePrevious clearPrev st).2)
  | .ok _ => (.ok (), drawLabel c label (drawArrow c (removePrevious clearPrev st).2))

/-- `add_arrow` with `persistent=True` (`plotting.py:216-218`): the arrow is drawn and not
remembered. -/
def addPersistent (c : ℝ × ℝ × ℝ × ℝ) (label : Option String) (st : ArrowSt) : ArrowSt :=
  drawLabel (some c) label (st.draw (.arrow c.1 c.2.1 c.2.2.1 c.2.2.2))

/-- `clear` (`plotting.py:295-306`): everything on the axes is gone, `self.arrow` stays. -/
def clearPlot (st : ArrowSt) : ArrowSt := ⟨[], st.next, st.arrow⟩

/-- What is done with a plot (`plotting.py:190-230, 295-306`). -/
inductive ArrowOp where
  | arrow (c : Option (ℝ × ℝ × ℝ × ℝ)) (clearPrev : Bool) (label : Option String)
  | persistent (c : ℝ × ℝ × ℝ × ℝ) (label : Option String)
  | clear

/-- One step: whether it raises, and the new state (`plotting.py:190-230, 295-306`). -/
def arrowStep (st : ArrowSt) : ArrowOp → Except Err Unit × ArrowSt
  | .arrow c p l => addArrow c p l st
  | .persistent c l => (.ok (), addPersistent c l st)
  | .clear => (.ok (), clearPlot st)

/-- A session; errors end a step, not the session (`plotting.py:190-230, 295-306`). -/
def arrowRun (st : ArrowSt) (ops : List ArrowOp) : ArrowSt :=
  ops.foldl (fun st op => (arrowStep st op).2) st

/-- What one sees: the objects without their numbers (`plotting.py:218, 224, 228`). -/
def ArrowSt.seen (st : ArrowSt) : List Drawn := st.shown.map (·.2)

end DefDAP
