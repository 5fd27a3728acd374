import Verif.Model.GrainMech

/-! Model of the lines drawn in a grain plot (`plotting.py:803-894`) and of the stored slip traces
of a grain (`ebsd.py:1488-1501`, `hrdic.py:776-815`). -/

namespace DefDAP

open Quat

/-- One line drawn with `quiver` (`plotting.py:838-846`): the position, the direction of the arrow
and whether it starts at the position (`pivot='tail'`) or has it in its middle. Width, scale and
other arguments of `quiver` are not modelled. -/
structure TraceLine (κ : Type) where
  pos : ℝ × ℝ
  dir : ℝ × ℝ
  tail : Bool
  colour : κ

/-- The vector of a trace (`plotting.py:823`). -/
noncomputable def traceVec (angle : ℝ) : ℝ × ℝ := (-Real.sin angle, Real.cos angle)

/-- The flip of a trace for the upper half (`plotting.py:829-832`). -/
noncomputable def topVec (v : ℝ × ℝ) : ℝ × ℝ :=
  open Classical in if v.1 < 0 ∧ v.2 < 0 then (-v.1, -v.2) else v

/-- `colours[len(colours) - 1] if i >= len(colours) else colours[i]` (`plotting.py:839`). Without
colours the index is `-1`, an `IndexError`. -/
def traceColour {κ : Type} (colours : List κ) (i : Nat) : Except Err κ :=
  match (if colours.length ≤ i then colours.getLast? else colours[i]?) with
  | some c => .ok c
  | none => .error .indexError

/-- The lines drawn by `add_traces` (`plotting.py:803-847`) at a given position. -/
noncomputable def addTraces {κ : Type} (angles : List ℝ) (colours : List κ) (topOnly : Bool)
    (pos : ℝ × ℝ) : Except Err (List (TraceLine κ)) :=
  (angles.zipIdx).mapM fun ai =>
    (traceColour colours ai.2).map fun c =>
      { pos := pos
        dir := if topOnly then topVec (traceVec ai.1) else traceVec ai.1
        tail := topOnly
        colour := c }

/-- The part of the y axis shown with `top_only` (`plotting.py:833`). -/
noncomputable def topYlim (pos : ℝ × ℝ) : ℝ × ℝ := (pos.2 - 1 / 1000, pos.2 + 1 / 10)

/-- The state of an EBSD grain used for slip traces: the orientations of its points, the slip
systems of its phase with their colours, the reference orientation and the stored angles
(`ebsd.py:1228-1234, 1488-1501, 1530-1541`). -/
structure TraceGrain (κ : Type) where
  sym : SymGroup
  quats : List (Quat ℝ)
  groups : List (List SlipSystem)
  colours : List κ
  ref : Option (Quat ℝ)
  angles : Option (List ℝ)

/-- `calc_average_ori` (`ebsd.py:1228-1234`) stores the average as reference. -/
noncomputable def TraceGrain.calcAverage {κ : Type} (g : TraceGrain κ) :
    Except Err (TraceGrain κ) :=
  (grainMeanOri g.sym g.quats).map fun r => { g with ref := some r }

/-- `calc_slip_traces()` (`ebsd.py:1522-1570`): a reference orientation is kept, the angles are
replaced. -/
noncomputable def TraceGrain.calcTraces {κ : Type} (g : TraceGrain κ) :
    Except Err (TraceGrain κ) :=
  (grainRef g.sym g.quats g.ref).bind fun r =>
  (slipTraces r g.groups).map fun out =>
    { g with ref := some r, angles := some (out.map Prod.fst) }

/-- The property `slip_traces` (`ebsd.py:1488-1501`): stored angles are used again. -/
noncomputable def TraceGrain.slipTraces {κ : Type} (g : TraceGrain κ) :
    Except Err (List ℝ × TraceGrain κ) :=
  match g.angles with
  | some a => .ok (a, g)
  | none =>
    g.calcTraces.bind fun g' =>
      match g'.angles with
      | some a => .ok (a, g')
      | none => .error .typeError

/-- `add_slip_traces` (`plotting.py:849-866`) for the plot of an EBSD grain; `colours` is the
argument of the caller. -/
noncomputable def addSlipTraces {κ : Type} (g : TraceGrain κ) (colours : Option (List κ))
    (topOnly : Bool) (pos : ℝ × ℝ) : Except Err (List (TraceLine κ) × TraceGrain κ) :=
  let cs := match colours with
    | some c => c
    | none => g.colours
  g.slipTraces.bind fun ag =>
  (addTraces ag.1 cs topOnly pos).map fun lines => (lines, ag.2)

/-- `add_slip_traces` for the plot of a DIC grain: `phase` and `slip_traces` are those of the linked
EBSD grain (`hrdic.py:784-804`), `None` without a link. -/
noncomputable def addSlipTracesDic {κ : Type} (link : Option (TraceGrain κ))
    (colours : Option (List κ)) (topOnly : Bool) (pos : ℝ × ℝ) :
    Except Err (List (TraceLine κ) × TraceGrain κ) :=
  match link with
  | none => .error .attributeError
  | some g => addSlipTraces g colours topOnly pos

/-- The end of `calc_slip_bands` (`hrdic.py:862-874`) and `add_slip_bands`
(`plotting.py:868-894`): the angles of the peaks, found at whole degrees, drawn in one colour. -/
noncomputable def addSlipBands {κ : Type} (peaks : List Nat) (colour : κ) (topOnly : Bool)
    (pos : ℝ × ℝ) : Except Err (List (TraceLine κ)) :=
  addTraces (peaks.map fun k : Nat => (k : ℝ) * Real.pi / 180) [colour] topOnly pos

end DefDAP
