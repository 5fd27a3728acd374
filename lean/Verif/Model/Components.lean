import Mathlib.Analysis.SpecialFunctions.Pow.Real
import Verif.Model.Datastore
import Verif.Model.Text

/-!
Choosing and plotting a component of map or grain data: `base.py:441-589` (`Map`) and
`base.py:1060-1208` (`Grain`), the same code but for the number of pixel axes and the names.
-/

namespace DefDAP

/-- A numpy array of numbers: its shape, and the entry at every list of indices (`base.py:508-523`).
-/
structure Arr where
  shape : List Nat
  get : List Nat → ℝ

/-- The `component` argument (`base.py:455-461`). `other` stands for any value that is not an `int`,
a `tuple` or a `str`. Simplification: tuples hold integers only. -/
inductive Comp where
  | int (i : Int) | tuple (l : List Int) | name (s : Str) | other

/-- Values of plot parameters: only strings and numbers are ever looked at (`base.py:563-586`). -/
inductive PVal where
  | none | str (s : Str) | num (q : ℚ) | obj (n : Nat)

/-- What a `Datastore` answers about one item (`base.py:449-452,471-473,564-588`): the metadata the
code asks for and the data. Where these come from is modelled in `Datastore.lean`. `binning` is the
default 1 where the metadata is missing. -/
structure PlotItem where
  kind : Str
  order : Option Nat
  default' : Option Comp
  params : List (String × PVal)
  unit : Option Str
  binning : ℚ
  data : Arr

/-- The owner of the data: `self.calc_euler_colour` and `self.calc_ipf_colour` as they are called
(`base.py:526,535`). Those of an EBSD map are in `IpfColour.lean`; other owners have none. -/
structure Painter where
  euler : Arr → Except Err Arr
  ipf : Arr → Nat → Except Err Arr

/-- An owner without these methods: HRDIC maps, and all grains (`AttributeError`) (`base.py:526,
535, 1145, 1154`). -/
def Painter.absent : Painter := ⟨fun _ => .error .attributeError, fun _ _ => .error .attributeError⟩

/-- `_validate_map` (`base.py:441-453`) with `kind = 'map'`, `_validate_list` (`base.py:1060-1072`)
with `kind = 'list'`. -/
def validateItem (kind : Str) (it : Option PlotItem) : Except Err (PlotItem × Nat) :=
  match it with
  | none => .error .valueError
  | some it =>
    if it.kind ≠ kind then .error .valueError
    else match it.order with
      | none => .error .valueError
      | some k => .ok (it, k)

/-- The end of `_validate_component` (`base.py:483-490,1102-1109`): an integer is made a tuple and
the length of a tuple is checked. -/
def checkComp (order : Nat) : Comp → Except Err (Option Comp)
  | .int i => if 1 = order then .ok (some (.tuple [i])) else .error .valueError
  | .tuple l => if l.length = order then .ok (some (.tuple l)) else .error .valueError
  | .name s => .ok (some (.name s))
  | .other => .ok (some .other)

/-- `_validate_component` (`base.py:455-490,1074-1109`). The message printed is left out. -/
def validateComp (it : PlotItem) (order : Nat) (comp : Option Comp) : Except Err (Option Comp) :=
  match comp.or it.default' with
  | none => if order = 0 then .ok none else .error .valueError
  | some c => checkComp order c

/-- numpy's index for an axis of length `n`: negative ones count from the end (`base.py:512, 1131`).
-/
def axisIndex (n : Nat) (i : Int) : Except Err Nat :=
  if 0 ≤ i then (if i < n then .ok i.toNat else .error .indexError)
  else if -(n : Int) ≤ i then .ok (i + n).toNat else .error .indexError

/-- The indices of a tuple for the leading axes (`base.py:512, 1131`). -/
def axisIndices : List Nat → List Int → Except Err (List Nat)
  | _, [] => .ok []
  | [], _ :: _ => .error .indexError
  | n :: ns, i :: is => (axisIndex n i).bind fun j => (axisIndices ns is).bind fun js => .ok (j :: js)

/-- `map_data[comp]` for a tuple of integers (`base.py:511-512,1130-1131`). -/
def Arr.pick (a : Arr) (t : List Int) : Except Err Arr :=
  (axisIndices a.shape t).bind fun js =>
    .ok ⟨a.shape.drop t.length, fun idx => a.get (js ++ idx)⟩

/-- `np.linalg.norm(map_data, axis=0)` (`base.py:523,1142`). -/
noncomputable def Arr.norm1 (a : Arr) : Arr :=
  ⟨a.shape.drop 1, fun idx => Real.sqrt ((List.range (a.shape.getD 0 0)).map fun i =>
    a.get (i :: idx) ^ 2).sum⟩

/-- `np.linalg.norm(map_data, axis=(0, 1))`, the Frobenius norm (`base.py:523,1142`). -/
noncomputable def Arr.norm2 (a : Arr) : Arr :=
  ⟨a.shape.drop 2, fun idx => Real.sqrt ((List.range (a.shape.getD 0 0)).map fun i =>
    ((List.range (a.shape.getD 1 0)).map fun j => a.get (i :: j :: idx) ^ 2).sum).sum⟩

/-- `'norm'` (`base.py:514-523,1133-1142`). `pix` is the number of pixel axes: 2 for maps, 1 for
the lists of grains. -/
noncomputable def Arr.norm (pix : Nat) (a : Arr) : Except Err Arr :=
  if a.shape.length = pix + 1 then .ok a.norm1
  else if a.shape.length = pix + 2 then .ok a.norm2
  else .error .valueError

/-- The table of directions, `base.py:530-534,1149-1153`: the axis that is 1. -/
def ipfAxis (s : Str) : Except Err Nat :=
  if s = lit "x" then .ok 0 else if s = lit "y" then .ok 1 else if s = lit "z" then .ok 2
  else .error .keyError

/-- `comp.split('_')[1]` (`base.py:529,1148`). -/
def secondPart (s : Str) : Except Err Str :=
  match (splitSep '_' s)[1]? with
  | some w => .ok w
  | none => .error .indexError

/-- `_extract_component` for a name (`base.py:513-537,1132-1156`). Simplification: `lower()` of
ASCII letters. -/
noncomputable def extractName (p : Painter) (pix : Nat) (a : Arr) (s : Str) : Except Err Arr :=
  let s := s.map Char.toLower
  if s = lit "norm" then a.norm pix
  else if s = lit "all_euler" then p.euler a
  else if (lit "ipf").isPrefixOf s then
    (secondPart s).bind fun d => (ipfAxis d).bind fun k => p.ipf a k
  else .error .valueError

/-- `_extract_component` (`base.py:492-537,1111-1156`). -/
noncomputable def extractComp (p : Painter) (pix : Nat) (a : Arr) : Option Comp → Except Err Arr
  | none => .ok a
  | some (.tuple t) => a.pick t
  | some (.name s) => extractName p pix a s
  | some (.int _) => .error .valueError
  | some .other => .error .valueError

/-- The component as it is added to the label (`base.py:570-574,1189-1193`). -/
def compSuffix : Option Comp → Str
  | some (.tuple t) => lit " (" ++ (t.map fun i => intStr (i + 1)).flatten ++ lit ")"
  | some (.name s) => lit " (" ++ (s.map fun c => if c = '_' then ' ' else c) ++ lit ")"
  | _ => []

/-- The unit as it is added to the label (`base.py:575-578,1194-1197`). -/
def unitSuffix : Option Str → Str
  | none => []
  | some u => if u = [] then [] else lit " (" ++ u ++ lit ")"

/-- The label (`base.py:567-580,1186-1199`): `+=` on a label that is not a string is a `TypeError`
unless nothing is added. -/
def labelled (comp : Option Comp) (unit : Option Str) (params : List (String × PVal)) :
    Except Err (List (String × PVal)) :=
  match dget params "clabel" with
  | none => .ok params
  | some .none => .ok params
  | some (.str s) => .ok (dset params "clabel" (.str (s ++ compSuffix comp ++ unitSuffix unit)))
  | some v => if compSuffix comp ++ unitSuffix unit = [] then .ok (dset params "clabel" v)
    else .error .typeError

/-- `plot_params['scale']` (`base.py:582-584,1201-1203`). -/
def scaled (scale : Option ℚ) (binning : ℚ) (params : List (String × PVal)) :
    Except Err (List (String × PVal)) :=
  match scale with
  | none => .ok params
  | some s => if binning = 0 then .error .zeroDivisionError
    else .ok (dset params "scale" (.num (s / binning)))

/-- `plot_map` (`base.py:539-590,1158-1209`): the data and keyword arguments handed to
`MapPlot.create` or `plot_grain_data`. `scale` is that of the map. -/
noncomputable def plotMap (kind : Str) (pix : Nat) (p : Painter) (scale : Option ℚ)
    (store : Str → Option PlotItem) (name : Str) (component : Option Comp)
    (kwargs : List (String × PVal)) : Except Err (Arr × List (String × PVal)) :=
  (validateItem kind (store name)).bind fun r =>
    (validateComp r.1 r.2 component).bind fun comp =>
      (labelled comp r.1.unit (dupdate [] r.1.params)).bind fun params =>
        (scaled scale r.1.binning params).bind fun params =>
          (extractComp p pix r.1.data comp).bind fun data => .ok (data, dupdate params kwargs)

/-- `Map.plot_map` (`base.py:539-590`). -/
noncomputable def mapPlotMap (p : Painter) (scale : Option ℚ) (store : Str → Option PlotItem)
    (name : Str) (component : Option Comp) (kwargs : List (String × PVal)) :=
  plotMap (lit "map") 2 p scale store name component kwargs

/-- `Grain.plot_map`: grains have neither `calc_euler_colour` nor `calc_ipf_colour`
(`base.py:1158-1209`). -/
noncomputable def grainPlotMap (scale : Option ℚ) (store : Str → Option PlotItem)
    (name : Str) (component : Option Comp) (kwargs : List (String × PVal)) :=
  plotMap (lit "list") 1 Painter.absent scale store name component kwargs

/-- The items `coordinate` and `displacement` of DIC data, with their labels (`file_readers.py:619-634`,
`hrdic.py:212`). -/
def dicItem (label : Str) (data : Arr) : PlotItem :=
  { kind := lit "map", order := some 1, default' := some (.name (lit "magnitude")),
    params := [("plot_colour_bar", .obj 1), ("clabel", .str label)], unit := some (lit "px"), binning := 1,
    data := data }

/-- `Grain.grain_data` for data of any order (`base.py:908-922`): the entries at the points `(x, y)`
of the grain. The model of `GrainData.lean`, for one number per pixel, is the case of order 0. -/
def grainArr (pts : List (Nat × Nat)) (a : Arr) : Arr :=
  ⟨a.shape.take (a.shape.length - 2) ++ [pts.length],
   fun idx => a.get (idx.dropLast ++ [(pts.getD (idx.getLastD 0) (0, 0)).2,
     (pts.getD (idx.getLastD 0) (0, 0)).1])⟩

end DefDAP
