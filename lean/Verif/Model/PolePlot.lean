import Verif.Model.Crystal
import Verif.Model.Poles
import Verif.Model.Text

/-!
Equivalent indices (`crystal_utils.py:174-246`) and pole plots (`plotting.py:971-1284`): lines, labels,
points and the choice of the projection. What matplotlib draws is not modelled.
-/

namespace DefDAP

open Matrix Quat

/-! ### Equivalent indices -/

/-- `if v[2] < 0: v *= -1` (`crystal_utils.py:228-229,238-239`, `plotting.py:1077-1080,1123-1124`). -/
noncomputable def upperVec (v : Fin 3 → ℝ) : Fin 3 → ℝ := open Classical in if v 2 < 0 then -v else v

/-- `np.array` of three indices (`crystal_utils.py:206, 209`, `plotting.py:1067-1071`). -/
def threeIdc : List ℝ → Except Err (Fin 3 → ℝ)
  | [x, y, z] => .ok ![x, y, z]
  | _ => .error .valueError

/-- One round of the loop for a plane of a hexagonal crystal (`crystal_utils.py:226-235`). -/
noncomputable def eqvPlaneHex (nan : Int) (l : Matrix (Fin 3) (Fin 3) ℝ) (v : Fin 3 → ℝ) (sym : Quat ℝ) :
    Except Err (List Int) :=
  (safeIntCast (vecList (lᵀ *ᵥ upperVec (transformVector sym v)))).bind fun p =>
  (backPlane nan p).bind fun p => safeIntCast (asReals p)

/-- One round of the loop for a direction of a hexagonal crystal (`crystal_utils.py:236-244`). -/
noncomputable def eqvDirHex (nan : Int) (q : Matrix (Fin 3) (Fin 3) ℝ) (v : Fin 3 → ℝ) (sym : Quat ℝ) :
    Except Err (List Int) :=
  (safeIntCast (vecList (qᵀ *ᵥ upperVec (transformVector sym v)))).bind fun d =>
  (backDir nan d).bind fun d => safeIntCast (asReals d)

/-- One round of the loop for a cubic crystal (`crystal_utils.py:227-229,235,237-239,244`). -/
noncomputable def eqvCubic (v : Fin 3 → ℝ) (sym : Quat ℝ) : Except Err (List Int) :=
  safeIntCast (vecList (upperVec (transformVector sym v)))

/-- The matrices and the loop (`crystal_utils.py:212-246`). Without a ratio of lattice parameters the product
with `None` is a `TypeError`. -/
noncomputable def eqvLoop (dflt : String) (nan : Int) (g : SymGroup) (syms : List (Quat ℝ))
    (dir plane : Option (List ℝ)) (ca : Option ℝ) : Except Err (List (List Int)) :=
  match g, ca, dir, plane with
  | .cubic, _, some d, _ => (threeIdc d).bind fun v => syms.mapM (eqvCubic v)
  | .cubic, _, none, some p => (threeIdc p).bind fun v => syms.mapM (eqvCubic v)
  | .hexagonal, none, some d, _ => (threeIdc d).bind fun _ => .error .typeError
  | .hexagonal, none, none, some p => (threeIdc p).bind fun _ => .error .typeError
  | .hexagonal, some ca, some d, _ =>
    (hexL dflt ca).bind fun l => (matVec l d).bind fun v => syms.mapM (eqvDirHex nan (createQ l) v)
  | .hexagonal, some ca, none, some p =>
    (hexL dflt ca).bind fun l => (matVec (createQ l) p).bind fun v => syms.mapM (eqvPlaneHex nan l v)
  | _, _, none, none => .error .valueError

/-- `equavlent_indicies` (`crystal_utils.py:174-246`) of integers; `nan` see `reduceIdc`. -/
noncomputable def equivalentIdc (dflt : String) (nan : Int) (g : SymGroup) (syms : List (Quat ℝ))
    (dir plane : Option (List Int)) (ca : Option ℝ) (inType : Option String) :
    Except Err (List (List Int)) :=
  (toMiller (inType.getD (if g = .hexagonal then "mb" else "m")) (dir.map asReals)
    (plane.map asReals)).bind fun dp => eqvLoop dflt nan g syms dp.1 dp.2 ca

/-! ### Lines and labels -/

/-- The position of a direction (`plotting.py:1067-1069,1115-1116`) with the right number of indices: `c/a` is
that of an ideal hexagonal close packing. -/
noncomputable def polePosition (dflt : String) (g : SymGroup) (idc : List Int) : Except Err (Fin 3 → ℝ) :=
  match g with
  | .cubic => threeIdc (asReals idc)
  | .hexagonal => projectToOrth dflt 0.8165 (some (asReals idc)) none "mb"

/-- The lines of `add_line` (`plotting.py:1067-1082`). -/
noncomputable def poleLines (dflt : String) (g : SymGroup) (a b : List Int) (plotSyms : Bool) :
    Except Err (List ((Fin 3 → ℝ) × (Fin 3 → ℝ))) :=
  (polePosition dflt g a).bind fun a =>
  (polePosition dflt g b).bind fun b =>
  .ok ((a, b) :: if plotSyms then (symEqv g).tail.map fun s =>
    (upperVec (transformVector s a), upperVec (transformVector s b)) else [])

/-- `np.linspace(a, b, res)[k]` (`plotting.py:1090`). -/
noncomputable def linspaceAt (a b : ℝ) (res k : Nat) : ℝ := a + k * ((b - a) / ((res : ℝ) - 1))

/-- The points of a line (`plotting.py:1085-1091`). -/
noncomputable def linePointsOf (res : Nat) (line : (Fin 3 → ℝ) × (Fin 3 → ℝ)) : List (Fin 3 → ℝ) :=
  (List.range res).map fun k i => open Classical in
    if line.1 i = line.2 i then line.1 i else linspaceAt (line.1 i) (line.2 i) res k

/-- `add_line` (`plotting.py:1050-1093`): the points of the curves drawn; `proj` is the projection, of one
point. -/
noncomputable def addLine (proj : ℝ → ℝ → ℝ → ℝ × ℝ) (dflt : String) (g : SymGroup) (a b : List Int)
    (plotSyms : Bool) (res : Nat) : Except Err (List (List (ℝ × ℝ))) :=
  (poleLines dflt g a b plotSyms).bind fun lines =>
  .ok (lines.map fun line => (linePointsOf res line).map fun v => proj (v 0) (v 1) (v 2))

/-- The labels of `label_point` (`plotting.py:1112,1127-1138`). -/
noncomputable def poleLabels (dflt : String) (nan : Int) (g : SymGroup) (idc : List Int)
    (label : Option (List Char)) (plotSyms : Bool) : Except Err (List (List Char)) :=
  match label, plotSyms with
  | some s, true => .ok (List.replicate (symEqv g).length s)
  | some s, false => .ok [s]
  | none, false => .ok [idcToString none "tex" idc]
  | none, true => (equivalentIdc dflt nan g (symEqv g) (some idc) none (some 0.8165) none).map fun l =>
      l.map fun e => idcToString none "tex" e

/-- `label_point` (`plotting.py:1095-1142`): each text with its position. The padding is left out. -/
noncomputable def labelPoint (proj : ℝ → ℝ → ℝ → ℝ × ℝ) (dflt : String) (nan : Int) (g : SymGroup)
    (idc : List Int) (label : Option (List Char)) (plotSyms : Bool) :
    Except Err (List ((ℝ × ℝ) × List Char)) :=
  (polePosition dflt g idc).bind fun p =>
  (poleLabels dflt nan g idc label plotSyms).bind fun labels =>
  let points := p :: if plotSyms then (symEqv g).tail.map fun s => upperVec (transformVector s p) else []
  .ok ((points.map fun v => proj (v 0) (v 1) (v 2)).zip labels)

/-- The corners of the triangle that `add_axis` draws and labels (`plotting.py:1000-1037`). -/
def ipfCorners (g : SymGroup) (triangle : String) : List (List Int) :=
  match g with
  | .cubic => [[0, 0, 1], [0, 1, 1], [-1, 1, 1]]
  | .hexagonal =>
    if triangle = "down" then [[0, 0, 0, 1], [-1, 2, -1, 0], [0, 1, -1, 0]]
    else [[0, 0, 0, 1], [-1, 2, -1, 0], [-1, 1, 0, 0]]

/-- The lines of `add_axis` (`plotting.py:1000-1037`): between the corners of these numbers. -/
def ipfLines (g : SymGroup) (triangle : String) : List (List Int × List Int) :=
  let c := fun i => (ipfCorners g triangle).getD i []
  [(c 0, c 1), (c 0, c 2), (c 1, c 2)]

/-- `add_axis` (`plotting.py:991-1048`): the curves and the labels drawn. -/
noncomputable def addAxis (proj : ℝ → ℝ → ℝ → ℝ × ℝ) (dflt : String) (nan : Int) (g : SymGroup)
    (triangle : String) : Except Err (List (List (ℝ × ℝ)) × List ((ℝ × ℝ) × List Char)) :=
  ((ipfLines g triangle).mapM fun ab => addLine proj dflt g ab.1 ab.2 false 100).bind fun curves =>
  ((ipfCorners g triangle).mapM fun c => labelPoint proj dflt nan g c none false).bind fun labels =>
  .ok (curves.flatten, labels.flatten)

/-! ### Points -/

/-- The `marker_colour` argument of `add_points` (`plotting.py:1144`). -/
inductive MarkerColour where
  | none | one (s : String) | list (l : List String)

/-- `add_points` (`plotting.py:1170-1203`): the colours of the layers of markers drawn at each point; `none` is
the default colour. The square root of no size is a `TypeError`. -/
def addPoints (c : MarkerColour) (size : Option Nat) : Except Err (List (Option String)) :=
  match (match c with | .one s => .list [s] | c => c : MarkerColour) with
  | .none => .ok [Option.none]
  | .one _ => .error .exception
  | .list [a, b] => if size.isSome then .ok [some a, some b] else .error .typeError
  | .list _ => .error .exception

/-- A projection: one of the two of the library or any other (`plotting.py:1266-1275`). -/
inductive Projection where
  | lambert | stereo | custom (n : Nat)
  deriving DecidableEq

/-- The `projection` argument (`plotting.py:1253`): `other` is neither a string nor a function. -/
inductive ProjArg where
  | none | name (s : Str) | func (n : Nat) | other

/-- The names (`plotting.py:1265-1272`): spaces and case do not matter. -/
def projName (s : Str) : Option Projection :=
  let n := (s.filter fun c => c ≠ ' ').map Char.toLower
  if n = lit "lambert" ∨ n = lit "equalarea" then some .lambert
  else if n = lit "stereographic" ∨ n = lit "stereo" ∨ n = lit "equalangle" then some .stereo
  else none

/-- The choice, with the projection taken for unknown ones (`plotting.py:1261-1282`). -/
def chooseProj (dflt : Option Projection) (p : ProjArg) : Except Err Projection :=
  match (match p with
    | .none => dflt
    | .name s => (projName s).or dflt
    | .func n => some (.custom n)
    | .other => dflt : Option Projection) with
  | some p => .ok p
  | none => .error .valueError

/-- `_validateProjection` (`plotting.py:1253-1284`); `conf` is the configured one. -/
def validateProjection (conf p : ProjArg) : Except Err Projection :=
  (chooseProj none conf).bind fun d => chooseProj (some d) p

end DefDAP
