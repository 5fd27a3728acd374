import Verif.Model.GrainData
import Verif.Model.Poles

/-! Model of maps and inverse pole figures of grain values (`base.py:673-769`, `quat.py:436-512`). -/

namespace DefDAP

/-- `plot_grain_data_map` (`base.py:673-717`): the map drawn. The type of the averages is that of the
values, with `none` for nan. -/
def plotGrainDataMap (h w : Nat) (grains : List (List Px)) (mapData : Option (Img Rat))
    (grainData : Option (List (Option Rat))) (ids : GrainIds) (bg : Option Rat) :
    Except Err (Img (Option Rat)) :=
  match grainData, mapData with
  | some d, _ => grainDataToMapData h w grains d ids bg
  | none, none => .error .valueError
  | none, some m => (calcGrainAverage h w grains m ids).bind fun d => grainDataToMapData h w grains d ids bg

/-- The numbers of grains used by `plot_grain_data_ipf` (`base.py:754-757`): an integer other than -1 has no
length. -/
def ipfIds (n : Nat) : GrainIds → Except Err (List Int)
  | .int i => if i = -1 then .ok ((List.range n).map fun (k : Nat) => (k : Int)) else .error .typeError
  | .list l => .ok l

/-- `quat.quat_coef` of the entries (`quat.py:706-707`): a missing orientation is an `AttributeError`. -/
def allQuats : List (Option (Quat ℝ)) → Except Err (List (Quat ℝ))
  | [] => .ok []
  | none :: _ => .error .attributeError
  | some q :: l => (allQuats l).map fun r => q :: r

/-- `plot_grain_data_ipf` (`base.py:719-769`) and `plot_ipf` (`quat.py:436-512`): the directions of the
points and their values. `refs` are the reference orientations of the grains. -/
noncomputable def plotGrainDataIpf (h w : Nat) (grains : List (List Px)) (refs : List (Option (Quat ℝ)))
    (g : SymGroup) (triangle : String) (d : Fin 3 → ℝ) (mapData : Option (Img Rat))
    (grainData : Option (List (Option Rat))) (ids : GrainIds) :
    Except Err (List (ℝ × ℝ) × List (Option Rat)) :=
  (match grainData, mapData with
    | some v, _ => .ok v
    | none, none => .error .valueError
    | none, some m => calcGrainAverage h w grains m ids : Except Err (List (Option Rat))).bind fun vals =>
  (ipfIds grains.length ids).bind fun is =>
  if vals.length = is.length then
    (is.mapM (pyGet refs)).bind fun oris =>
    (allQuats oris).bind fun quats =>
    (calcFundDirs g triangle quats d).bind fun dirs => .ok (dirs, vals)
  else .error .exception

end DefDAP
