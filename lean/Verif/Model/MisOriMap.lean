import Verif.Model.GrainMech

/-! Model of the misorientation map, `Map.plot_mis_ori_map` (`ebsd.py:998-1047`), with the stored lists
of the grains it uses (`ebsd.py:968-996, 1236-1285`). -/

namespace DefDAP

/-- The state of a grain used for misorientations. A grain whose phase is not valid has none
(`ebsd.py:925-930`). -/
structure DevGrain where
  phase : Option SymGroup
  pts : List Px
  quats : List (Quat ℝ)
  ref : Option (Quat ℝ)
  misList : Option (List (Option ℝ))
  axisList : Option (List (Option (Fin 3 → ℝ)))

/-- `build_mis_ori_list` (`ebsd.py:1236-1285`): a reference orientation is kept, the list of
misorientations replaced, that of the axes only if asked for. -/
noncomputable def DevGrain.build (calcAxis : Bool) (g : DevGrain) : Except Err DevGrain :=
  match g.phase with
  | none => .error .attributeError
  | some sym =>
    (grainRef sym g.quats g.ref).bind fun r =>
    (buildMisOriList sym g.quats (some r)).map fun out =>
      { g with ref := some r, misList := some out.1,
               axisList := if calcAxis then some out.2.2 else g.axisList }

/-- `calc_grain_mis_ori` (`ebsd.py:981-996`). -/
noncomputable def calcGrainMisOri (calcAxis : Bool) (gs : List DevGrain) : Except Err (List DevGrain) :=
  gs.mapM (DevGrain.build calcAxis)

/-- `self.mis_ori[point[1], point[0]] = v` for all points (`ebsd.py:1018-1020, 1031-1033`).
Simplification: all points lie in the map, as those of grains do. -/
def paintPoints {α : Type} (im : Img α) (l : List (Px × α)) : Img α :=
  l.foldl (fun im pv => fun y x => if y = pv.1.2 ∧ x = pv.1.1 then pv.2 else im y x) im

/-- The points of a grain with their values; a missing list is a `TypeError` (`ebsd.py:1019, 1032`).
-/
def zipList {α : Type} (f : DevGrain → Option (List α)) (g : DevGrain) : Except Err (List (Px × α)) :=
  match f g with
  | none => .error .typeError
  | some l => .ok (g.pts.zip l)

/-- The points of all grains with their values (`ebsd.py:1018-1019, 1031-1032`). -/
def zipLists {α : Type} (f : DevGrain → Option (List α)) (gs : List DevGrain) :
    Except Err (List (Px × α)) :=
  (gs.mapM (zipList f)).map List.flatten

/-- `plot_mis_ori_map` (`ebsd.py:998-1047`): the image in degrees and the grains afterwards. The axis
of a point without deviation is nan in the code (see `grodAxis`). -/
noncomputable def misOriMap (component : Int) (gs : List DevGrain) :
    Except Err (Img (Option ℝ) × List DevGrain) :=
  if component = 1 ∨ component = 2 ∨ component = 3 then
    (if gs.any (fun g => g.axisList.isNone) then calcGrainMisOri true gs else .ok gs).bind fun gs =>
    (zipLists DevGrain.axisList gs).map fun l =>
      let c : Fin 3 := if component = 1 then 0 else if component = 2 then 1 else 2
      let im := paintPoints (fun _ _ => (some 0 : Option ℝ))
        (l.map fun pv => (pv.1, pv.2.map fun v => v c))
      (fun y x => (im y x).map fun v => v * 180 / Real.pi, gs)
  else
    (if gs.any (fun g => g.misList.isNone) then calcGrainMisOri false gs else .ok gs).bind fun gs =>
    (zipLists DevGrain.misList gs).map fun l =>
      let im := paintPoints (fun _ _ => (some 1 : Option ℝ)) l
      (fun y x => (im y x).map fun v => Real.arccos v * 360 / Real.pi, gs)

end DefDAP
