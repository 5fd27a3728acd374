import Verif.Model.Inspector
import Mathlib.Logic.Function.Basic

/-! Model of a session with the grain inspector (`inspector.py:35-133, 221-334`): which grain is shown and
edited. The DIC map has `n` grains, is linked to an EBSD map and the phase has slip systems, so that the
only step of drawing that fails is the last one (`inspector.py:334`). Errors of handlers are printed by
matplotlib and the window stays open; it has been opened and its buttons made before the constructor
fails. Texts, drawing and files are not modelled; lines and groups are those of `Model/Inspector.lean`. -/

namespace DefDAP

/-- The state used: the number asked for (`grain_id`), the grain edited (`selected_dic_grain`), the
grain whose map is drawn (`grain_plot`), the points of the line drawn on it and the lines and groups
of all grains (`inspector.py:54-58, 104-111`). -/
structure InspSession where
  number : Int
  sel : Nat
  plotted : Nat
  p1 : Option (ℝ × ℝ)
  p2 : Option (ℝ × ℝ)
  grains : Nat → LineState

/-- What a call leads to: an error, or none, and the state then (`inspector.py:117-334`). -/
abbrev InspOut := Except Err Unit × InspSession

/-- `redraw_line` (`inspector.py:281-334`): `add_slip_bands` is called without the data it needs
(`plotting.py:868`). -/
def inspRedrawLine (s : InspSession) : InspOut := (.error .typeError, s)

/-- `redraw` (`inspector.py:248-279`): the plot of the grain with the number asked for is a new one, which
has no line. -/
def inspRedraw (n : Nat) (s : InspSession) : InspOut :=
  match pyIndex n s.number with
  | .error e => (.error e, s)
  | .ok k => inspRedrawLine { s with plotted := k, p1 := none, p2 := none }

/-- The constructor (`inspector.py:54-115`), for grains with the given lines. -/
def inspNew (n : Nat) (grains : Nat → LineState) : InspOut :=
  if n = 0 then (.error .indexError, ⟨0, 0, 0, none, none, grains⟩)
  else inspRedraw n ⟨0, 0, 0, none, none, grains⟩

/-- `goto_grain` (`inspector.py:117-133`). -/
def inspGoto (n : Nat) (i : Int) (s : InspSession) : InspOut :=
  match pyIndex n i with
  | .error e => (.error e, { s with number := i })
  | .ok k => inspRedraw n { s with number := i, sel := k }

/-- The changed lines and groups of the selected grain (`inspector.py:162, 228-229, 244`). -/
def InspSession.edit (s : InspSession) (l : LineState) : InspSession :=
  { s with grains := Function.update s.grains s.sel l }

/-- `save_line` (`inspector.py:135-166`): without a line drawn on this plot an attribute is missing. -/
noncomputable def inspSave (correction : ℝ) (traces : Nat → List ℝ) (s : InspSession) : InspOut :=
  match s.p1, s.p2 with
  | some a, some b =>
    inspRedrawLine (s.edit (saveLine correction (traces s.sel) a b (s.grains s.sel)))
  | _, _ => (.error .attributeError, s)

/-- `remove_line` (`inspector.py:232-246`). -/
noncomputable def inspRemove (n : Nat) (traces : Nat → List ℝ) (i : Int) (s : InspSession) : InspOut :=
  match removeLine (traces s.sel) i (s.grains s.sel) with
  | .error e => (.error e, s)
  | .ok l => inspRedraw n (s.edit l)

/-- `clear_all_lines` (`inspector.py:221-230`). -/
def inspClear (n : Nat) (s : InspSession) : InspOut := inspRedraw n (s.edit clearLines)

/-- `line_slice` (`plotting.py:275-283`) of the plot, for a release of the mouse: without a press before
it an attribute is missing. -/
def inspRelease (p : ℝ × ℝ) (s : InspSession) : InspOut :=
  (if s.p1.isSome then .ok () else .error .attributeError, { s with p2 := some p })

/-- Events: buttons, text boxes (with texts that are numbers) and the mouse on the plot of the grain
(`inspector.py:71-95, 276-277`). -/
inductive InspEvent where
  | goto (i : Int)
  | next
  | previous
  | press (p : ℝ × ℝ)
  | release (p : ℝ × ℝ)
  | save
  | remove (i : Int)
  | clear

/-- One event (`inspector.py:71-95, 276-277`). -/
noncomputable def inspStep (n : Nat) (correction : ℝ) (traces : Nat → List ℝ) (s : InspSession) :
    InspEvent → InspOut
  | .goto i => inspGoto n i s
  | .next => inspGoto n (s.number + 1) s
  | .previous => inspGoto n (s.number - 1) s
  | .press p => (.ok (), { s with p1 := some p })
  | .release p => inspRelease p s
  | .save => inspSave correction traces s
  | .remove i => inspRemove n traces i s
  | .clear => inspClear n s

/-- A session of events, whether they end well or not (`inspector.py:71-95, 276-277`). -/
noncomputable def inspRun (n : Nat) (correction : ℝ) (traces : Nat → List ℝ) (s : InspSession)
    (es : List InspEvent) : InspSession :=
  es.foldl (fun s e => (inspStep n correction traces s e).2) s

end DefDAP
