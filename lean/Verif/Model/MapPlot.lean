import Verif.Model.Highlights
import Verif.Model.Inspector

/-!
Layers of a map plot (`plotting.py:347-721`), the boundaries drawn on it and the legend of the phase
map (`ebsd.py:373-398`). An image is named by its content of type `δ`; the axes, scale bars, texts
and the drawing of matplotlib are not modelled. Colour maps are as in `Model/Highlights.lean`.
-/

namespace DefDAP

/-- One entry of `img_layers` (`plotting.py:349, 381, 493, 548, 623`). -/
inductive PlotLayer (δ : Type) where
  | map (d : δ)
  | bounds (d : δ)
  | high (d : δ)
  | pts (d : δ)

/-- The state of a `MapPlot` (`plotting.py:45, 68, 348-351`), the layer whose colour bar is stored in
`colour_bar`, and the layers of all colour bars shown in the figure, in order of their making. -/
structure PlotState (δ : Type) where
  interactive : Bool
  layers : List (PlotLayer δ)
  highId : Option Nat
  ptsIds : List Nat
  bar : Option Nat
  bars : List Nat

/-- A new plot (`plotting.py:43-72, 340-354`). -/
def PlotState.new {δ : Type} (interactive : Bool) : PlotState δ := ⟨interactive, [], none, [], none, []⟩

/-- `add_map` (`plotting.py:356-383`). -/
def PlotState.addMap {δ : Type} (s : PlotState δ) (d : δ) : PlotState δ :=
  { s with layers := s.layers ++ [.map d] }

/-- `add_colour_bar` (`plotting.py:385-399`): `self.colour_bar` is replaced, an earlier bar stays in
the figure. -/
def PlotState.addBar {δ : Type} (s : PlotState δ) (layer : Int) : Except Err (PlotState δ) :=
  (pyIndex s.layers.length layer).map fun k => { s with bar := some k, bars := s.bars ++ [k] }

/-- The end of `add_grain_boundaries` (`plotting.py:491-494`). -/
def PlotState.addBounds {δ : Type} (s : PlotState δ) (d : δ) : PlotState δ :=
  { s with layers := s.layers ++ [.bounds d] }

/-- The end of `add_grain_highlights` (`plotting.py:543-557`). -/
def PlotState.addHigh {δ : Type} (s : PlotState δ) (d : δ) (newLayer : Bool) : PlotState δ :=
  match s.highId with
  | none => { s with highId := some s.layers.length, layers := s.layers ++ [.high d] }
  | some k =>
    if newLayer then { s with layers := s.layers ++ [.high d] }
    else { s with layers := s.layers.set k (.high d) }

/-- `add_points` (`plotting.py:604-630`). -/
def PlotState.addPts {δ : Type} (s : PlotState δ) (d : δ) (update : Option Int) :
    Except Err (PlotState δ) :=
  match s.ptsIds, update with
  | [], _ => .ok { s with ptsIds := s.ptsIds ++ [s.layers.length], layers := s.layers ++ [.pts d] }
  | _, none => .ok { s with ptsIds := s.ptsIds ++ [s.layers.length], layers := s.layers ++ [.pts d] }
  | ids, some u => (pyGet ids u).map fun k => { s with layers := s.layers.set k (.pts d) }

/-- The colour bars left by `clear` (`plotting.py:301-303`). -/
def clearBars (bar : Option Nat) (bars : List Nat) : List Nat :=
  match bar with
  | some _ => bars.dropLast
  | none => bars

/-- `clear` (`plotting.py:295-306`). -/
def PlotState.clear {δ : Type} (s : PlotState δ) : Except Err (PlotState δ) :=
  if s.interactive then
    .ok { s with layers := [], highId := none, ptsIds := [], bar := none,
                 bars := clearBars s.bar s.bars }
  else .error .exception

/-- The calls of a history (`plotting.py:295-630`). -/
inductive PlotOp (δ : Type) where
  | addMap (d : δ)
  | addBar (layer : Int)
  | addBounds (d : δ)
  | addHigh (d : δ) (newLayer : Bool)
  | addPts (d : δ) (update : Option Int)
  | clear

/-- One call (`plotting.py:295-630`). -/
def plotStep {δ : Type} (s : PlotState δ) : PlotOp δ → Except Err (PlotState δ)
  | .addMap d => .ok (s.addMap d)
  | .addBar k => s.addBar k
  | .addBounds d => .ok (s.addBounds d)
  | .addHigh d b => .ok (s.addHigh d b)
  | .addPts d u => s.addPts d u
  | .clear => s.clear

/-- A history of calls: one that fails leaves the plot as it is (`plotting.py:295-630`). -/
def plotRun {δ : Type} (s : PlotState δ) (ops : List (PlotOp δ)) : PlotState δ :=
  ops.foldl (fun s op => match plotStep s op with
    | .ok s' => s'
    | .error _ => s) s

/-- `MapPlot.create` (`plotting.py:632-721`). `plot` is the plot passed in, `gbs` and `high` what is
drawn with `plot_gbs` and `highlight_grains`. -/
def plotCreate {δ : Type} (plot : Option (PlotState δ)) (interactive : Bool) (mapData : Option δ)
    (bar : Bool) (gbs high : Option δ) : Except Err (PlotState δ) :=
  let s := plot.getD (PlotState.new interactive)
  let s := match mapData with
    | some d => s.addMap d
    | none => s
  (if bar then s.addBar 0 else .ok s).bind fun s =>
  let s := match gbs with
    | some d => s.addBounds d
    | none => s
  match high with
  | some d => .ok (s.addHigh d false)
  | none => .ok s

/-! ### Boundaries -/

/-- The colour argument of `add_grain_boundaries`: a name, an RGBA tuple or a list of values
(`plotting.py:414-452`). -/
inductive BoundColour where
  | name (s : Str)
  | values (l : List ℚ)

/-- How a collection of lines is coloured (`plotting.py:457-471`): `LineCollection(colors=...)`, one
colour for all, or `set_array`, one value of the colour map for each line. -/
inductive LineColours where
  | one (rgba : List ℚ)
  | each (values : List ℚ)

/-- The lines drawn with `kind="line"` (`plotting.py:451-472`); `rgba` is `to_rgba` of matplotlib and
`n` the number of lines. In the last branch a `ValueError` is made but not raised, and the names
are unbound. -/
def boundaryLineColours (rgba : Str → Except Err (List ℚ)) (colour : Option BoundColour) (n : Nat) :
    Except Err LineColours :=
  (match colour.getD (.name (lit "white")) with
    | .name s => rgba s
    | .values l => .ok l).bind fun c =>
  if c.length = n then .ok (.each c)
  else if c.length = 4 then .ok (.one c)
  else .error .unboundLocalError

/-- `binary_dilation` with the default structure: the pixel or one of its four neighbours in the map
is set (`plotting.py:477-478`). -/
def dilate4 (h w : Nat) (im : Img Bool) : Img Bool := fun y x =>
  im y x || (decide (0 < y) && im (y - 1) x) || (decide (y + 1 < h) && im (y + 1) x) ||
    (decide (0 < x) && im y (x - 1)) || (decide (x + 1 < w) && im y (x + 1))

/-- Entry `k` of the colour map of the boundaries (`plotting.py:480-486`): the share of the colour,
the rest being white, and the alpha, `np.linspace(0, 1, 259)[k]`. -/
def boundaryLut (k : Nat) : ℚ × ℚ := ((k : ℚ) / 255, (k : ℚ) / 258)

/-- The pixels drawn with any other `kind` (`plotting.py:474-491`): the colour name, its share and the
alpha. -/
def boundaryPixels (h w : Nat) (im : Img Bool) (colour : Option Str) (dilate : Bool) :
    Str × Img (ℚ × ℚ) :=
  let b := if dilate then dilate4 h w im else im
  (colour.getD (lit "white"), fun y x => boundaryLut (lutIndex 0 1 256 (if b y x then 1 else 0)))

/-- The `kind` argument of `add_grain_boundaries`: `create` passes its `plot_gbs` (`plotting.py:414,
457, 707-710`). -/
inductive BoundKind where
  | true
  | text (s : Str)
  deriving DecidableEq

/-- `if kind == "line"` (`plotting.py:457`). -/
def BoundKind.isLine : BoundKind → Bool
  | .true => false
  | .text s => s = lit "line"

/-- The keyword arguments given to `MapPlot.create` by `plot_boundary_map` (`ebsd.py:829-851`): the
defaults, updated with those of the caller. Only `boundary_colour` is a parameter of `create`;
others, if they are not parameters, are passed to `add_map`, which is not called. -/
def boundaryMapColour (kwargs : List (Str × Str)) : Option Str :=
  (([(lit "boundaryColour", lit "black")] : List (Str × Str)).filter (fun kv => kwargs.all (·.1 ≠ kv.1)) ++
    kwargs).lookup (lit "boundary_colour")

/-! ### Phase map -/

/-- The entry of a colour map with 256 colours for phase `p` of a phase map of `n` phases
(`ebsd.py:387-391`). -/
def phaseLut (n p : Nat) : Nat := lutIndex 0 n 256 p

/-- The legend of the phase map (`ebsd.py:395-398`, `plotting.py:578-600`): entry of the colour map and
label. -/
def phaseLegend (names : List Str) : List (Nat × Str) :=
  let n := names.length
  ((List.range (n + 1)).map fun p => phaseLut n p).zip (lit "Non-indexed" :: names)

end DefDAP
