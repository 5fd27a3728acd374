import Verif.Model.Quat

/-! Model of the unit cell plot (`defdap/crystal.py`, `defdap/quat.py`). -/

namespace DefDAP

open Quat Matrix

/-- The corners of the cube (`crystal.py:150-159`). -/
noncomputable def cubicVerts : List (Fin 3 → ℝ) :=
  [![-0.5, -0.5, -0.5], ![0.5, -0.5, -0.5], ![0.5, 0.5, -0.5], ![-0.5, 0.5, -0.5],
   ![-0.5, -0.5, 0.5], ![0.5, -0.5, 0.5], ![0.5, 0.5, 0.5], ![-0.5, 0.5, 0.5]]

/-- Half of the height of the prism (`crystal.py:112`). -/
noncomputable def cellRatio : ℝ := 1.633 / 2

/-- The corners of the prism (`crystal.py:191-204`). -/
noncomputable def hexVerts : List (Fin 3 → ℝ) :=
  [![1, 0, -cellRatio], ![0.5, Real.sqrt 3 / 2, -cellRatio], ![-0.5, Real.sqrt 3 / 2, -cellRatio],
   ![-1, 0, -cellRatio], ![-0.5, -(Real.sqrt 3 / 2), -cellRatio], ![0.5, -(Real.sqrt 3 / 2), -cellRatio],
   ![1, 0, cellRatio], ![0.5, Real.sqrt 3 / 2, cellRatio], ![-0.5, Real.sqrt 3 / 2, cellRatio],
   ![-1, 0, cellRatio], ![-0.5, -(Real.sqrt 3 / 2), cellRatio], ![0.5, -(Real.sqrt 3 / 2), cellRatio]]

/-- The corners of the cells (`crystal.py:150-159, 191-204`). -/
noncomputable def cellVerts : SymGroup → List (Fin 3 → ℝ)
  | .cubic => cubicVerts
  | .hexagonal => hexVerts

/-- The faces, by the numbers of their corners (`crystal.py:160-167, 205-214`). -/
def cellFaces : SymGroup → List (List Nat)
  | .cubic => [[0, 1, 2, 3], [4, 5, 6, 7], [0, 1, 5, 4], [1, 2, 6, 5], [2, 3, 7, 6], [3, 0, 4, 7]]
  | .hexagonal => [[0, 1, 2, 3, 4, 5], [6, 7, 8, 9, 10, 11], [0, 6, 7, 1], [1, 7, 8, 2], [2, 8, 9, 3],
      [3, 9, 10, 4], [4, 10, 11, 5], [5, 11, 6, 0]]

/-- The size of the plotted cell (`quat.py:555, 565`). -/
noncomputable def cellSize : SymGroup → ℝ
  | .cubic => 0.25
  | .hexagonal => 0.18

/-- The matrix of the plot (`quat.py:554-566`). -/
noncomputable def cellMatrix (g : SymGroup) (oi : Bool) (q : Quat ℝ) : Matrix (Fin 3) (Fin 3) ℝ :=
  match g with
  | .cubic => (rotMatrix q)ᵀ
  | .hexagonal =>
    if oi then
      let e := eulerAngles q
      (rotMatrix (fromEuler e.1 e.2.1 (e.2.2 + Real.pi / 6)))ᵀ
    else (rotMatrix q)ᵀ

/-- The rotated corners (`quat.py:569`). -/
noncomputable def cellPoints (g : SymGroup) (oi : Bool) (q : Quat ℝ) : List (Fin 3 → ℝ) :=
  (cellVerts g).map fun v => cellSize g • (cellMatrix g oi q *ᵥ v)

/-- The faces drawn by `plot_unit_cell` (`quat.py:551-574`), each by its corners in order. Only the two crystal
structures of the library are modelled. -/
noncomputable def unitCell (g : SymGroup) (oi : Bool) (q : Quat ℝ) : List (List (Fin 3 → ℝ)) :=
  (cellFaces g).map fun f => f.map fun k => (cellPoints g oi q).getD k 0

end DefDAP
