import Mathlib.Analysis.Real.Sqrt
import Verif.Model.Basic

/-!
Sessions with interactive maps: `Map.locate_grain`, `click_grain_id`, `draw_line_profile` and the end of
`calc_line_profile` (`base.py:152-273`), with the windows they open, look up and clear
(`Plot.__init__`, `exists`, `clear`, `plotting.py:41-71,289-307`). The figures of matplotlib are modelled with
their numbers, since `exists` asks for the number only: `plt.figure()` takes one more than the greatest number of
an open figure, `plt.fignum_exists(n)` is true if an open figure has the number `n`.
-/

namespace DefDAP

/-- What a figure shows: a map with the grain highlighted, a grain by itself (`none` after `clear`),
a line profile (`none` after `clear`) or anything else (`base.py:166, 208, 212-217, 264-272`). -/
inductive FigShows where
  | map (highlight : Option Nat)
  | grain (g : Option Nat)
  | profile (l : Option (ℝ × ℝ × ℝ × ℝ))
  | other

/-- The figures of matplotlib: the open ones with number and identity, the next identity, and what
each shows. A closed figure can still be drawn to, without effect on the screen (`plotting.py:43-72,
289-293`). -/
structure Figs where
  opened : List (Nat × Nat)
  fresh : Nat
  shows : Nat → FigShows

/-- The number of a new figure: `max(allnums) + 1 if allnums else 1` (`plotting.py:52`). -/
def nextNum (l : List (Nat × Nat)) : Nat := (l.map Prod.fst).foldl max 0 + 1

/-- `plt.figure()` (`plotting.py:52`). -/
def newFig (f : Figs) (c : FigShows) : Figs :=
  ⟨f.opened ++ [(nextNum f.opened, f.fresh)], f.fresh + 1, fun i => if i = f.fresh then c else f.shows i⟩

/-- The user closes a figure (`plotting.py:289-293`). -/
def closeFig (f : Figs) (id : Nat) : Figs := ⟨f.opened.filter fun p => p.2 ≠ id, f.fresh, f.shows⟩

/-- Drawing to a figure (`base.py:208, 214-217, 267-272`). -/
def drawFig (f : Figs) (id : Nat) (c : FigShows) : Figs :=
  ⟨f.opened, f.fresh, fun i => if i = id then c else f.shows i⟩

/-- `plot is not None and plot.exists` (`base.py:211,264`, `plotting.py:289-293`): a figure with the number of the
plot is open. -/
def plotExists (f : Figs) : Option (Nat × Nat) → Bool
  | none => false
  | some (num, _) => (f.opened.map Prod.fst).contains num

/-- A map with its grains: the labels, the number of grains, and for which grains `plot_default` raises. It raises
before a window is opened or the axes are drawn to (`early`: an EBSD grain without orientation or phase,
`ebsd.py:1389-1391`), or after that (`late`: a DIC grain without linked EBSD grain, or a DIC map without scale,
`hrdic.py:768-771`, `plotting.py:951-966`). -/
structure ClickMap where
  grains : Img Int
  count : Nat
  early : Nat → Bool
  late : Nat → Bool

/-- The state of a session: the figures, `sel_grain`, the pop-out windows `grain_plot` and
`profile_plot` (number and identity), and the windows of `locate_grain` with their `display_grain`,
and of `draw_line_profile` (`base.py:78-84, 165-180, 230-243`). -/
structure ClickSt where
  figs : Figs
  sel : Option Nat
  pop : Option (Nat × Nat)
  prof : Option (Nat × Nat)
  locators : List (Nat × Bool)
  liners : List Nat

/-- What the user does. `click` is with the pixel of the point (`int(event.ydata),
int(event.xdata)`, see `Model/HomogTool`), `line` with the line that `line_slice` hands on (see
`Model/LineTool`) (`base.py:165-243`). -/
inductive ClickOp where
  | locate (display : Bool)
  | click (fig : Nat) (inAxes : Bool) (x y : Int)
  | drawLine
  | line (fig : Nat) (l : ℝ × ℝ × ℝ × ℝ)
  | close (fig : Nat)
  | figure

/-- The start: no figures (`base.py:78-84`). -/
def clickInit : ClickSt := ⟨⟨[], 0, fun _ => .other⟩, none, none, none, [], []⟩

/-- `locate_grain` (`base.py:165-180`). -/
def stepLocate (st : ClickSt) (display : Bool) : ClickSt :=
  ⟨newFig st.figs (.map none), st.sel, if display then none else st.pop, st.prof,
    st.locators ++ [(st.figs.fresh, display)], st.liners⟩

/-- `self.grain_plot = grain.plot_default(make_interactive=True)` (`base.py:212`). If it raises after the window is
opened, the window stays and `grain_plot` is not set. -/
def popNew (m : ClickMap) (st : ClickSt) (g : Nat) : ClickSt × Option Err :=
  if m.early g then (st, some .attributeError)
  else if m.late g then
    (⟨newFig st.figs (.grain (some g)), st.sel, st.pop, st.prof, st.locators, st.liners⟩, some .attributeError)
  else
    (⟨newFig st.figs (.grain (some g)), st.sel, some (nextNum st.figs.opened, st.figs.fresh), st.prof,
      st.locators, st.liners⟩, none)

/-- Clearing the pop-out and drawing the grain to it (`base.py:214-217`). -/
def popRedraw (m : ClickMap) (st : ClickSt) (id g : Nat) : ClickSt × Option Err :=
  if m.early g then
    (⟨drawFig st.figs id (.grain none), st.sel, st.pop, st.prof, st.locators, st.liners⟩, some .attributeError)
  else
    (⟨drawFig st.figs id (.grain (some g)), st.sel, st.pop, st.prof, st.locators, st.liners⟩,
      if m.late g then some .attributeError else none)

/-- Showing the grain in the pop-out (`base.py:210-217`). -/
def popShow (m : ClickMap) (st : ClickSt) (g : Nat) : ClickSt × Option Err :=
  if plotExists st.figs st.pop then
    match st.pop with
    | some (_, id) => popRedraw m st id g
    | none => popNew m st g
  else popNew m st g

/-- Selecting and highlighting the grain (`base.py:203-208`). -/
def selectGrain (st : ClickSt) (fig g : Nat) : ClickSt :=
  ⟨drawFig st.figs fig (.map (some g)), some g, st.pop, st.prof, st.locators, st.liners⟩

/-- `click_grain_id` (`base.py:196-217`) on the window `fig`, opened with `display_grain = display`. A label
beyond the grains is an `IndexError`. -/
def clickGrainId (m : ClickMap) (st : ClickSt) (fig : Nat) (display inAxes : Bool) (x y : Int) :
    ClickSt × Option Err :=
  if !inAxes then (st, none)
  else if m.grains y x - 1 < 0 then (st, none)
  else if m.count ≤ (m.grains y x - 1).toNat then (st, some .indexError)
  else if display then popShow m (selectGrain st fig (m.grains y x - 1).toNat) (m.grains y x - 1).toNat
  else (selectGrain st fig (m.grains y x - 1).toNat, none)

/-- The end of `calc_line_profile` (`base.py:264-273`). -/
def showProfile (st : ClickSt) (l : ℝ × ℝ × ℝ × ℝ) : ClickSt :=
  if plotExists st.figs st.prof then
    match st.prof with
    | some (_, id) =>
      ⟨drawFig st.figs id (.profile (some l)), st.sel, st.pop, st.prof, st.locators, st.liners⟩
    | none => st
  else
    ⟨newFig st.figs (.profile (some l)), st.sel, st.pop, some (nextNum st.figs.opened, st.figs.fresh),
      st.locators, st.liners⟩

/-- Whether a figure is open (`plotting.py:289-293`). -/
def figOpen (f : Figs) (id : Nat) : Bool := (f.opened.map Prod.snd).contains id

/-- One step of a session: the new state and the exception raised. Only open windows get events;
matplotlib prints exceptions of handlers (`base.py:152-272`). -/
def clickStep (m : ClickMap) (st : ClickSt) : ClickOp → ClickSt × Option Err
  | .locate display => (stepLocate st display, none)
  | .click fig inAxes x y =>
    if figOpen st.figs fig then
      match st.locators.lookup fig with
      | some display => clickGrainId m st fig display inAxes x y
      | none => (st, none)
    else (st, none)
  | .drawLine =>
    (⟨newFig st.figs (.map none), st.sel, st.pop, st.prof, st.locators, st.liners ++ [st.figs.fresh]⟩, none)
  | .line fig l => if figOpen st.figs fig && st.liners.contains fig then (showProfile st l, none) else (st, none)
  | .close fig => (⟨closeFig st.figs fig, st.sel, st.pop, st.prof, st.locators, st.liners⟩, none)
  | .figure => (⟨newFig st.figs .other, st.sel, st.pop, st.prof, st.locators, st.liners⟩, none)

/-- A whole session (`base.py:152-272`). -/
def clickRun (m : ClickMap) (st : ClickSt) : List ClickOp → ClickSt
  | [] => st
  | op :: ops => clickRun m (clickStep m st op).1 ops

end DefDAP
