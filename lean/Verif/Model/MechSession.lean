import Verif.Model.GrainMech
import Verif.Model.GrainData

/-!
Calculations for all grains of an EBSD map and what the grains keep of them: `calc_grain_av_oris`
(`ebsd.py:968-979`), `calc_average_grain_schmid_factors` (`ebsd.py:1049-1069`), `calc_rdr` (`ebsd.py:1071-1079`),
with the methods of the grains they call (`ebsd.py:1228-1234,1438-1486`), and
`plot_average_grain_schmid_factors_map` (`ebsd.py:1081-1136`). Progress reports are left out.
-/

namespace DefDAP

open Quat

/-- A grain: the symmetry and slip systems of its phase, the orientations of its points, and what it keeps
(`ebsd.py:1190-1198`): `ref_ori`, `average_schmid_factors` and `rdr`. -/
structure MechGrain where
  sym : SymGroup
  quats : List (Quat ℝ)
  slip : List (List SlipSystem)
  ref : Option (Quat ℝ)
  schmid : Option (List (List ℝ))
  rdr : Option (List (List ℝ))

/-- `Grain.calc_average_ori` (`ebsd.py:1228-1234`): the orientation is set again also if there is one. -/
noncomputable def mechMean (g : MechGrain) : MechGrain × Option Err :=
  match grainMeanOri g.sym g.quats with
  | .error e => (g, some e)
  | .ok r => (⟨g.sym, g.quats, g.slip, some r, g.schmid, g.rdr⟩, none)

/-- `Grain.calc_average_schmid_factors` (`ebsd.py:1450-1474`): the orientation is calculated if there is none. -/
noncomputable def mechSchmid (load : Fin 3 → ℝ) (slip : Option (List (List SlipSystem))) (g : MechGrain) :
    MechGrain × Option Err :=
  match grainRef g.sym g.quats g.ref with
  | .error e => (g, some e)
  | .ok r => (⟨g.sym, g.quats, g.slip, some r, some (schmidFactors r load (slip.getD g.slip)), g.rdr⟩, none)

/-- `Grain.calc_rdr` (`ebsd.py:1476-1486`). Without orientation the first slip system is an `AttributeError`; the
lists for its plane and those before are there by then. -/
noncomputable def mechRdr (g : MechGrain) : MechGrain × Option Err :=
  match g.ref with
  | some r => (⟨g.sym, g.quats, g.slip, g.ref, g.schmid, some (grainRdr r g.slip)⟩, none)
  | none =>
    if g.slip.all List.isEmpty then
      (⟨g.sym, g.quats, g.slip, g.ref, g.schmid, some (g.slip.map fun _ => [])⟩, none)
    else
      (⟨g.sym, g.quats, g.slip, g.ref, g.schmid,
        some (List.replicate ((g.slip.takeWhile List.isEmpty).length + 1) [])⟩, some .attributeError)

/-- The loops over all grains (`ebsd.py:974-975,1065-1066,1075-1076`): the first exception ends them, the grains
before it keep what was calculated. -/
def forGrains (f : MechGrain → MechGrain × Option Err) : List MechGrain → List MechGrain × Option Err
  | [] => ([], none)
  | g :: gs =>
    match f g with
    | (g', some e) => (g' :: gs, some e)
    | (g', none) => (g' :: (forGrains f gs).1, (forGrains f gs).2)

/-- What is done with a map. `setRef` sets the orientation of a grain, as
`Linker.set_ref_ori_from_master` does (`ebsd.py:1919-1928`). -/
inductive MechOp where
  | means
  | schmid (load : Fin 3 → ℝ) (slip : Option (List (List SlipSystem)))
  | rdr
  | setRef (i : Nat) (q : Quat ℝ)

/-- One call (`ebsd.py:968-979, 1049-1079, 1919-1928`). -/
noncomputable def mechStep (gs : List MechGrain) : MechOp → List MechGrain × Option Err
  | .means => forGrains mechMean gs
  | .schmid load slip => forGrains (mechSchmid load slip) gs
  | .rdr => forGrains mechRdr gs
  | .setRef i q => (gs.modify i fun g => ⟨g.sym, g.quats, g.slip, some q, g.schmid, g.rdr⟩, none)

/-- A session; exceptions are caught (`ebsd.py:968-979, 1049-1079, 1919-1928`). -/
noncomputable def mechRun (gs : List MechGrain) : List MechOp → List MechGrain
  | [] => gs
  | op :: ops => mechRun (mechStep gs op).1 ops

/-- The loop over grains of `plot_average_grain_schmid_factors_map` (`ebsd.py:1114-1131`); a grain without factors
is a `TypeError`, except for an empty list of planes. -/
noncomputable def schmidMaxima (planes directions : Option (List Int)) (gs : List MechGrain) : Except Err (List ℝ) :=
  gs.mapM fun g =>
    match g.schmid with
    | none => if planes = some [] then .error .valueError else .error .typeError
    | some sf => maxSchmid sf planes directions

/-- `plot_average_grain_schmid_factors_map` (`ebsd.py:1111-1134`): the image plotted. `points` are those of the
grains. -/
noncomputable def plotSchmidMap (h w : Nat) (points : List (List Px)) (gs : List MechGrain)
    (planes directions : Option (List Int)) : Except Err (Img ℝ) :=
  match gs with
  | [] => .error .indexError
  | g :: _ =>
    match g.schmid with
    | none => .error .exception
    | some _ => (schmidMaxima planes directions gs).bind fun vals =>
      grainDataToMapData h w points vals (.int (-1)) 0.5

end DefDAP
