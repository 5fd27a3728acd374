import Verif.Model.Quat

/-!
Model of pole directions: `polar_angles`, `calc_fund_dirs`, `calc_ipf_colours` of `defdap/quat.py`
and the projections of pole figures in `defdap/plotting.py`. Floating point numbers are modelled by
real numbers; a direction of length zero is nan in the code and zero here.
-/

namespace DefDAP

open Quat

/-- `polar_angles` (`quat.py:808-837`). -/
noncomputable def polarAngles (x y z : ℝ) : ℝ × ℝ :=
  let mod := Real.sqrt (x ^ 2 + y ^ 2 + z ^ 2)
  (Real.arccos (z / mod), arctan2 (y / mod) (x / mod))

/-- The last lines of both projections (`plotting.py:1314-1315, 1347-1348`). -/
noncomputable def polePoint (r beta : ℝ) : ℝ × ℝ :=
  (r * Real.cos (beta - Real.pi / 2), r * Real.sin (beta - Real.pi / 2))

/-- Arguments of the projections (`plotting.py:1306-1311, 1339-1344`): polar angles or a
direction. -/
noncomputable def poleArgs : List ℝ → Except Err (ℝ × ℝ)
  | [x, y, z] => .ok (polarAngles x y z)
  | [alpha, beta] => .ok (alpha, beta)
  | _ => .error .exception

/-- `stereo_project` (`plotting.py:1286-1317`). -/
noncomputable def stereoProject (args : List ℝ) : Except Err (ℝ × ℝ) :=
  (poleArgs args).bind fun ab => .ok (polePoint (Real.tan (ab.1 / 2)) ab.2)

/-- `lambert_project` (`plotting.py:1319-1350`). -/
noncomputable def lambertProject (args : List ℝ) : Except Err (ℝ × ℝ) :=
  (poleArgs args).bind fun ab => .ok (polePoint (Real.sqrt (2 * (1 - Real.cos ab.1))) ab.2)

/-! ### Fundamental directions -/

/-- `direction_crystal` before it is normalised (`quat.py:996-1031`) for one row of the table of
symmetric equivalents. -/
noncomputable def crystalDirRaw (q : Quat ℝ) (d : Fin 3 → ℝ) : Fin 3 → ℝ :=
  let qd := q.q1 * d 0 + q.q2 * d 1 + q.q3 * d 2
  let temp := q.q0 ^ 2 - q.q1 ^ 2 - q.q2 ^ 2 - q.q3 ^ 2
  ![2 * qd * q.q1 + temp * d 0 + 2 * q.q0 * (q.q2 * d 2 - q.q3 * d 1),
    2 * qd * q.q2 + temp * d 1 + 2 * q.q0 * (q.q3 * d 0 - q.q1 * d 2),
    2 * qd * q.q3 + temp * d 2 + 2 * q.q0 * (q.q1 * d 1 - q.q2 * d 0)]

/-- Normalised and moved to the northern hemisphere (`quat.py:1033-1039`). -/
noncomputable def crystalDir (q : Quat ℝ) (d : Fin 3 → ℝ) : Fin 3 → ℝ :=
  let v := crystalDirRaw q d
  let n := Real.sqrt (v 0 * v 0 + v 1 * v 1 + v 2 * v 2)
  let w := fun i => v i / n
  open Classical in if w 2 < 0 then fun i => w i * -1 else w

/-- `alpha, beta` (`quat.py:1041-1044`) of one orientation in one row. -/
noncomputable def crystalAngles (q : Quat ℝ) (d : Fin 3 → ℝ) : ℝ × ℝ :=
  let w := crystalDir q d
  polarAngles (w 0) (w 1) (w 2)

/-- `beta_range` (`quat.py:1046-1061`). An unknown triangle leaves it unbound, because the
`ValueError` at 1059 is made but not raised. -/
noncomputable def betaRange (g : SymGroup) (triangle : String) : Except Err (ℝ × ℝ × Nat) :=
  match g with
  | .cubic => .ok (Real.pi / 2, 3 / 4 * Real.pi, 3)
  | .hexagonal =>
    if triangle = "up" then .ok (Real.pi / 2, 2 / 3 * Real.pi, 1)
    else if triangle = "down" then .ok (1 / 3 * Real.pi, Real.pi / 2, 1)
    else .error .unboundLocalError

/-- `trial_poles` of one orientation (`quat.py:1063`, or `1066-1070` with `delta`). -/
noncomputable def trialPoles (lo hi delta : ℝ) (angles : List (ℝ × ℝ)) : List Bool :=
  open Classical in angles.map fun ab => decide (lo - delta ≤ ab.2 ∧ ab.2 ≤ hi + delta)

/-- A trial pole replaces the best so far if its inclination is less (`quat.py:1075`). -/
noncomputable def nanBest (k : Nat) (t : Bool) (a : ℝ) : Option (Nat × ℝ) → Option (Nat × ℝ)
  | none => if t = false then none else some (k, a)
  | some b =>
    if t = false then some b
    else open Classical in if a < b.2 then some (k, a) else some b

/-- `np.nanargmin(np.where(trial_poles, alpha, np.nan))` (`quat.py:1075`): the first position of the
least inclination among the trial poles; none is a `ValueError`. The state is the position, and the
best so far. -/
noncomputable def nanArgmin : List (Bool × ℝ) → Nat → Option (Nat × ℝ) → Option Nat
  | [], _, best => best.map fun b => b.1
  | (t, a) :: l, k, best => nanArgmin l (k + 1) (nanBest k t a best)

/-- The index of the fundamental direction of one orientation (`quat.py:1072-1081`). -/
noncomputable def fundIdx (g : SymGroup) (trial : List Bool) (angles : List (ℝ × ℝ)) :
    Except Err Nat :=
  match g with
  | .cubic =>
    match nanArgmin (trial.zip (angles.map fun ab => ab.1)) 0 none with
    | some k => .ok k
    | none => .error .valueError
  | .hexagonal => .ok (if trial.contains true then trial.idxOf true else 0)

/-- The fundamental direction of one orientation, from its table of angles
(`quat.py:1072-1082`). -/
noncomputable def fundPick (g : SymGroup) (lo hi delta : ℝ) (angles : List (ℝ × ℝ)) :
    Except Err (ℝ × ℝ) :=
  (fundIdx g (trialPoles lo hi delta angles) angles).bind fun k =>
  match angles[k]? with
  | some ab => .ok ab
  | none => .error .indexError

/-- `calc_fund_dirs` (`quat.py:953-1082`). The search is widened for all orientations if one of
them has too few trial poles. -/
noncomputable def calcFundDirs (g : SymGroup) (triangle : String) (quats : List (Quat ℝ))
    (d : Fin 3 → ℝ) : Except Err (List (ℝ × ℝ)) :=
  let rows := calcSymEqvs (symEqv g) quats
  let angles := (List.range quats.length).map fun k =>
    (column rows k).map fun q => crystalAngles q d
  (betaRange g triangle).bind fun r =>
  let few := angles.any fun a => decide ((trialPoles r.1 r.2.1 0 a).count true < r.2.2)
  let delta : ℝ := if few then 1 / 10 ^ 8 else 0
  angles.mapM fun a => fundPick g r.1 r.2.1 delta a

end DefDAP
