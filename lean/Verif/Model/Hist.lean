import Verif.Model.MapFiles
import Mathlib.Analysis.SpecialFunctions.Log.Base

/-! Model of histogram plots (`plotting.py:1353-1517`). The values are real, nan is `none`. The
functions `linspace`, `logspace` and `histogram` of numpy are modelled for the arguments used here;
`hist` of matplotlib draws the values of `histogram` between the edges. Lines, labels and axes are
not modelled. -/

namespace DefDAP

/-- A `HistPlot` (`plotting.py:1387-1398`). -/
structure HistOpts where
  axesType : Str
  plotType : Str
  density : Bool

/-- Scale of the x axis (`plotting.py:1434`). -/
def HistOpts.logX (o : HistOpts) : Bool := o.axesType = lit "logx" ∨ o.axesType = lit "loglog"

/-- `HistPlot.__init__` (`plotting.py:1387-1398`). -/
def histNew (plotType axesType : Str) (density : Bool) : Except Err HistOpts :=
  if lowerStr axesType ∈ [lit "linear", lit "logy", lit "logx", lit "loglog"] then
    if plotType ∈ [lit "scatter", lit "bar", lit "step"] then
      .ok ⟨lowerStr axesType, plotType, density⟩
    else .error .valueError
  else .error .valueError

/-- `np.linspace(a, b, n)` (`plotting.py:1435, 1437`). -/
noncomputable def histSpace (a b : ℝ) (n : Nat) : List ℝ :=
  (List.range n).map fun i : Nat => if n = 1 then a else a + i * ((b - a) / (n - 1))

/-- The edges of the bins (`plotting.py:1434-1437`); the range of a logarithmic axis is positive. -/
noncomputable def histEdges (log : Bool) (a b : ℝ) (n : Nat) : List ℝ :=
  if log then (histSpace (Real.logb 10 a) (Real.logb 10 b) n).map fun v => (10 : ℝ) ^ v
  else histSpace a b n

/-- Whether `np.histogram` counts a value for bin `i`: the upper edge belongs to the next bin, but
for the last bin (`plotting.py:1441, 1449-1450`). -/
def inBin (edges : List ℝ) (i : Nat) (v : Option ℝ) : Prop :=
  ∃ w lo hi, v = some w ∧ edges[i]? = some lo ∧ edges[i + 1]? = some hi ∧ lo ≤ w ∧
    (w < hi ∨ i + 2 = edges.length ∧ w = hi)

/-- The counts of `np.histogram` (`plotting.py:1441, 1449-1450`). -/
noncomputable def binCounts (edges : List ℝ) (data : List (Option ℝ)) : List Nat :=
  open Classical in
  (List.range (edges.length - 1)).map fun i => data.countP fun v => decide (inBin edges i v)

/-- The width of bin `i` (`plotting.py:1441, 1449-1450`). -/
noncomputable def binWidth (edges : List ℝ) (i : Nat) : ℝ := edges.getD (i + 1) 0 - edges.getD i 0

/-- The values of `np.histogram`: with `density` the counts are divided by their sum and the width
of the bin, and `none` stands for a division by zero (`plotting.py:1441-1442, 1449-1450`). -/
noncomputable def histValues (edges : List ℝ) (data : List (Option ℝ)) (density : Bool) :
    List (Option ℝ) :=
  open Classical in
  (binCounts edges data).zipIdx.map fun ci =>
    if density then
      if ((binCounts edges data).sum : ℝ) * binWidth edges ci.2 = 0 then none
      else some ((ci.1 : ℝ) / (((binCounts edges data).sum : ℝ) * binWidth edges ci.2))
    else some (ci.1 : ℝ)

/-- What is drawn: the edges, the values of the bins and for scatter plots their places
(`plotting.py:1439-1450`). -/
structure HistDrawn where
  edges : List ℝ
  values : List (Option ℝ)
  places : Option (List ℝ)

/-- The middle of bin `i` (`plotting.py:1443`). -/
noncomputable def binMiddle (edges : List ℝ) (i : Nat) : ℝ :=
  1 / 2 * (edges.getD (i + 1) 0 + edges.getD i 0)

/-- What is drawn for given edges (`plotting.py:1439-1450`). Edges that decrease are a `ValueError` of
`np.histogram`, no edges an `IndexError`. -/
noncomputable def drawHist (o : HistOpts) (data : List (Option ℝ)) (edges : List ℝ) :
    Except Err HistDrawn :=
  open Classical in
  if ∃ i : Nat, ∃ u v, edges[i]? = some u ∧ edges[i + 1]? = some v ∧ v < u then .error .valueError
  else if edges = [] ∧ data ≠ [] then .error .indexError
  else .ok ⟨edges, histValues edges data o.density,
    if o.plotType = lit "scatter" then
      some ((List.range (edges.length - 1)).map fun i => binMiddle edges i)
    else none⟩

/-- `add_hist` (`plotting.py:1412-1450`). -/
noncomputable def addHist (o : HistOpts) (data : List (Option ℝ)) (bins : Int)
    (range : Option (ℝ × ℝ)) : Except Err HistDrawn :=
  match range with
  | none => .error .typeError
  | some r =>
    if bins < 0 then .error .valueError
    else drawHist o data (histEdges o.logX r.1 r.2 bins.toNat)

/-- `create` (`plotting.py:1463-1517`). -/
noncomputable def histCreate (plot : Option HistOpts) (plotType axesType : Str) (density : Bool)
    (data : List (Option ℝ)) (bins : Int) (range : Option (ℝ × ℝ)) :
    Except Err (HistOpts × HistDrawn) :=
  match plot with
  | some o => (addHist o data bins range).map fun d => (o, d)
  | none => (histNew plotType axesType density).bind fun o =>
      (addHist o data bins range).map fun d => (o, d)

end DefDAP
