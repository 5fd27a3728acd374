import Verif.Model.Quat
import Verif.Model.Crystal
import Mathlib.LinearAlgebra.CrossProduct

/-! Model of the orientation and slip calculations of a grain (`ebsd.py:1139-1570`). -/

namespace DefDAP

open Quat Matrix

/-- `calc_average_ori` (`ebsd.py:1228-1234`): the average of the orientations of the points. -/
noncomputable def grainMeanOri (g : SymGroup) (quats : List (Quat ℝ)) : Except Err (Quat ℝ) :=
  averageOri (calcSymEqvs (symEqv g) quats) quats.length

/-- `if self.ref_ori is None: ...` (`ebsd.py:1247, 1290, 1452, 1532`): the reference orientation
used, which is also the one stored afterwards. -/
noncomputable def grainRef (g : SymGroup) (quats : List (Quat ℝ)) (ref : Option (Quat ℝ)) :
    Except Err (Quat ℝ) :=
  match ref with
  | some r => .ok r
  | none => grainMeanOri g quats

/-- The difference rotation `quat_comps * ref_ori_inv` of one point, moved to the northern
hemisphere (`ebsd.py:1257-1276, 1296-1308`). -/
noncomputable def grodDelta (r v : Quat ℝ) : Quat ℝ :=
  let i := conjugate r
  let d : Quat ℝ :=
    ⟨i.q0 * v.q0 - i.q1 * v.q1 - i.q2 * v.q2 - i.q3 * v.q3,
     i.q1 * v.q0 + i.q0 * v.q1 + i.q3 * v.q2 - i.q2 * v.q3,
     i.q2 * v.q0 + i.q0 * v.q2 + i.q1 * v.q3 - i.q3 * v.q1,
     i.q3 * v.q0 + i.q0 * v.q3 + i.q2 * v.q1 - i.q1 * v.q2⟩
  open Classical in if d.q0 < 0 then d.neg else d

/-- `misori_axis` of one point (`ebsd.py:1279, 1309`). Zero divided by zero is nan in the code and
zero here. -/
noncomputable def grodAxis (d : Quat ℝ) : Fin 3 → ℝ :=
  let f := fun c : ℝ => 2 * c * Real.arccos d.q0 / Real.sqrt (1 - d.q0 ^ 2)
  ![f d.q1, f d.q2, f d.q3]

/-- `calc_grod` (`ebsd.py:1287-1311`): angle and axis for every point. -/
noncomputable def calcGrod (g : SymGroup) (quats : List (Quat ℝ)) (ref : Option (Quat ℝ)) :
    Except Err (List (Option (ℝ × (Fin 3 → ℝ)))) :=
  (grainRef g quats ref).bind fun r =>
  .ok ((calcMisOri (calcSymEqvs (symEqv g) quats) quats.length r).map fun o =>
    o.map fun mv => (2 * Real.arccos mv.1, grodAxis (grodDelta r mv.2)))

/-- `build_mis_ori_list(calc_axis=True)` (`ebsd.py:1236-1285`): the overlaps, their mean and the
axes. The mean of no points is nan in the code and zero here. -/
noncomputable def buildMisOriList (g : SymGroup) (quats : List (Quat ℝ)) (ref : Option (Quat ℝ)) :
    Except Err (List (Option ℝ) × ℝ × List (Option (Fin 3 → ℝ))) :=
  (grainRef g quats ref).bind fun r =>
  let out := calcMisOri (calcSymEqvs (symEqv g) quats) quats.length r
  .ok (out.map fun o => o.map fun mv => mv.1,
    (out.filterMap fun o => o.map fun mv => mv.1).sum / out.length,
    out.map fun o => o.map fun mv => grodAxis (grodDelta r mv.2))

/-- One Schmid factor (`ebsd.py:1470-1471`); `l` is the load vector in crystal coordinates. -/
noncomputable def schmidFactor (l : Fin 3 → ℝ) (ss : SlipSystem) : ℝ :=
  |(l ⬝ᵥ ss.normal) * (l ⬝ᵥ ss.slip)|

/-- `calc_average_schmid_factors` (`ebsd.py:1438-1474`) with reference orientation `ori`. -/
noncomputable def schmidFactors (ori : Quat ℝ) (load : Fin 3 → ℝ)
    (groups : List (List SlipSystem)) : List (List ℝ) :=
  groups.map fun grp => grp.map (schmidFactor (transformVector ori load))

/-- `calc_rdr` (`ebsd.py:1476-1487`). Division by zero is an infinity or nan in the code. -/
noncomputable def grainRdr (ori : Quat ℝ) (groups : List (List SlipSystem)) : List (List ℝ) :=
  groups.map fun grp => grp.map fun ss =>
    -(transformVector (conjugate ori) ss.slip 0) / transformVector (conjugate ori) ss.slip 1

/-- The inclination and the trace angle of a plane with normal `n` in crystal coordinates
(`ebsd.py:1549-1567`). `np.arccos` of numbers beyond one is nan in the code. -/
noncomputable def slipTrace (ori : Quat ℝ) (n : Fin 3 → ℝ) : ℝ × ℝ :=
  let z := transformVector ori ![0, 0, 1]
  let ic := Real.arccos (z ⬝ᵥ n)
  let inclination := open Classical in if Real.pi / 2 < ic then Real.pi - ic else ic
  let i0 := transformVector (conjugate ori) (crossProduct z n)
  let i1 := fun k => i0 k / Real.sqrt (i0 ⬝ᵥ i0)
  let i2 := open Classical in if 0 < i1 0 then fun k => i1 k * -1 else i1
  (Real.arccos (i2 ⬝ᵥ ![0, 1, 0]), inclination)

/-- `calc_slip_traces` (`ebsd.py:1522-1570`): one plane for each group, that of its first slip
system; an empty group is an `IndexError`. -/
noncomputable def slipTraces (ori : Quat ℝ) (groups : List (List SlipSystem)) :
    Except Err (List (ℝ × ℝ)) :=
  groups.mapM fun grp =>
    match grp with
    | [] => .error .indexError
    | ss :: _ => .ok (slipTrace ori ss.normal)

/-- Indexing a list, with negative indices counted from the end (`ebsd.py:1123, 1126`). -/
def listAt {α : Type} (l : List α) (i : Int) : Except Err α :=
  match (if 0 ≤ i then l[i.toNat]? else if 0 ≤ l.length + i then l[(l.length + i).toNat]? else none)
  with
  | some a => .ok a
  | none => .error .indexError

/-- `max` of a list (`ebsd.py:1131`). -/
noncomputable def listMax (l : List ℝ) : Except Err ℝ :=
  match l with
  | [] => .error .valueError
  | a :: t => .ok (t.foldl max a)

/-- The factors of the chosen directions of one plane (`ebsd.py:1119-1126`). -/
def chosenInPlane {α : Type} (sf : List (List α)) (directions : Option (List Int)) (p : Int) :
    Except Err (List α) :=
  (listAt sf p).bind fun grp =>
  match directions with
  | none => .ok grp
  | some ds => ds.mapM fun d => listAt grp d

/-- The value `plot_average_grain_schmid_factors_map` shows for one grain (`ebsd.py:1115-1131`).
(For planes with an empty list of directions the code does not index the planes.) -/
noncomputable def maxSchmid (sf : List (List ℝ)) (planes directions : Option (List Int)) :
    Except Err ℝ :=
  match planes with
  | none => listMax sf.flatten
  | some ps => (ps.mapM fun p => chosenInPlane sf directions p).bind fun l => listMax l.flatten

end DefDAP
