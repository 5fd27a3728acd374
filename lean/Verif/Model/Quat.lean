import Verif.Model.Basic
import Mathlib.Analysis.SpecialFunctions.Complex.Arg
import Mathlib.Analysis.SpecialFunctions.Trigonometric.Inverse
import Mathlib.LinearAlgebra.Matrix.Notation

/-!
Model of orientations: `defdap/quat.py`. Floating point numbers are modelled by real
numbers, `np.arctan2(y, x)` by the argument of `x + y i`. Arguments of the wrong type
(`TypeError`) are not modelled.
-/

namespace DefDAP

/-- `quat_coef` (`quat.py:29, 45-57`). The components are in any type, so that the tables of
symmetry operators can be computed exactly. -/
structure Quat (α : Type) where
  q0 : α
  q1 : α
  q2 : α
  q3 : α
deriving DecidableEq

namespace Quat

@[ext] theorem ext' {α : Type} {p q : Quat α} (h0 : p.q0 = q.q0) (h1 : p.q1 = q.q1)
    (h2 : p.q2 = q.q2) (h3 : p.q3 = q.q3) : p = q := by
  cases p; cases q; simp_all

/-- `quat_coef * -1` (`quat.py:61`). -/
def neg {α : Type} [Neg α] (p : Quat α) : Quat α := ⟨-p.q0, -p.q1, -p.q2, -p.q3⟩

/-- The product of coefficients (`quat.py:242-251`). -/
def mulRaw {α : Type} [Add α] [Sub α] [Mul α] (p q : Quat α) : Quat α where
  q0 := p.q0 * q.q0 - (p.q1 * q.q1 + p.q2 * q.q2 + p.q3 * q.q3)
  q1 := p.q0 * q.q1 + q.q0 * p.q1 + (p.q2 * q.q3 - p.q3 * q.q2)
  q2 := p.q0 * q.q2 + q.q0 * p.q2 + (p.q3 * q.q1 - p.q1 * q.q3)
  q3 := p.q0 * q.q3 + q.q0 * p.q3 + (p.q1 * q.q2 - p.q2 * q.q1)

/-- `dot` (`quat.py:256-272`). -/
def dot {α : Type} [Add α] [Mul α] (p q : Quat α) : α :=
  p.q0 * q.q0 + p.q1 * q.q1 + p.q2 * q.q2 + p.q3 * q.q3

/-- The constructor (`quat.py:31-61`) on four coefficients. -/
noncomputable def make (allowSouthern : Bool) (q : Quat ℝ) : Quat ℝ :=
  open Classical in if allowSouthern = false ∧ q.q0 < 0 then q.neg else q

/-- `__mul__` (`quat.py:240-254`). -/
noncomputable def mul (p q : Quat ℝ) (allowSouthern : Bool := false) : Quat ℝ :=
  make allowSouthern (mulRaw p q)

/-- `from_euler_angles` (`quat.py:63-91`). -/
noncomputable def fromEuler (ph1 phi ph2 : ℝ) : Quat ℝ :=
  make false
    ⟨Real.cos (phi / 2) * Real.cos ((ph1 + ph2) / 2),
     -Real.sin (phi / 2) * Real.cos ((ph1 - ph2) / 2),
     -Real.sin (phi / 2) * Real.sin ((ph1 - ph2) / 2),
     -Real.cos (phi / 2) * Real.sin ((ph1 + ph2) / 2)⟩

/-- `from_axis_angle` (`quat.py:93-120`). -/
noncomputable def fromAxisAngle (axis : Fin 3 → ℝ) (angle : ℝ) : Quat ℝ :=
  let n := Real.sqrt (axis 0 * axis 0 + axis 1 * axis 1 + axis 2 * axis 2)
  make false
    ⟨Real.cos (angle / 2), -Real.sin (angle / 2) * (axis 0 / n),
     -Real.sin (angle / 2) * (axis 1 / n), -Real.sin (angle / 2) * (axis 2 / n)⟩

/-- `np.arctan2(y, x)` (`quat.py:149, 154, 168-170, 835`). -/
noncomputable def arctan2 (y x : ℝ) : ℝ := Complex.arg ⟨x, y⟩

/-- The last lines of `euler_angles` (`quat.py:172-175`). -/
noncomputable def wrap (a : ℝ) : ℝ := open Classical in if a < 0 then a + 2 * Real.pi else a

/-- `euler_angles` (`quat.py:122-177`). -/
noncomputable def eulerAngles (q : Quat ℝ) : ℝ × ℝ × ℝ :=
  let q03 := q.q0 ^ 2 + q.q3 ^ 2
  let q12 := q.q1 ^ 2 + q.q2 ^ 2
  let chi := Real.sqrt (q03 * q12)
  open Classical in
  if chi = 0 ∧ q12 = 0 then
    (wrap (arctan2 (-2 * q.q0 * q.q3) (q.q0 ^ 2 - q.q3 ^ 2)), 0, wrap 0)
  else if chi = 0 ∧ q03 = 0 then
    (wrap (arctan2 (2 * q.q1 * q.q2) (q.q1 ^ 2 - q.q2 ^ 2)), Real.pi, wrap 0)
  else
    let cosPh1 := (-q.q0 * q.q1 - q.q2 * q.q3) / chi
    let sinPh1 := (-q.q0 * q.q2 + q.q1 * q.q3) / chi
    let cosPhi := q.q0 ^ 2 + q.q3 ^ 2 - q.q1 ^ 2 - q.q2 ^ 2
    let sinPhi := 2 * chi
    let cosPh2 := (-q.q0 * q.q1 + q.q2 * q.q3) / chi
    let sinPh2 := (q.q1 * q.q3 + q.q0 * q.q2) / chi
    (wrap (arctan2 sinPh1 cosPh1), arctan2 sinPhi cosPhi, wrap (arctan2 sinPh2 cosPh2))

/-- `rot_matrix` (`quat.py:179-215`). -/
def rotMatrix (q : Quat ℝ) : Matrix (Fin 3) (Fin 3) ℝ :=
  let qbar := q.q0 ^ 2 - q.q1 ^ 2 - q.q2 ^ 2 - q.q3 ^ 2
  !![qbar + 2 * q.q1 ^ 2, 2 * (q.q1 * q.q2 - q.q0 * q.q3), 2 * (q.q1 * q.q3 + q.q0 * q.q2);
     2 * (q.q1 * q.q2 + q.q0 * q.q3), qbar + 2 * q.q2 ^ 2, 2 * (q.q2 * q.q3 - q.q0 * q.q1);
     2 * (q.q1 * q.q3 - q.q0 * q.q2), 2 * (q.q2 * q.q3 + q.q0 * q.q1), qbar + 2 * q.q3 ^ 2]

/-- `norm` (`quat.py:294-303`). -/
noncomputable def norm (q : Quat ℝ) : ℝ := Real.sqrt (dot q q)

/-- `normalise` (`quat.py:305-315`). -/
noncomputable def normalise (q : Quat ℝ) : Quat ℝ :=
  ⟨q.q0 / norm q, q.q1 / norm q, q.q2 / norm q, q.q3 / norm q⟩

/-- `conjugate` (`quat.py:317-328`): the constructor moves it to the northern hemisphere. -/
noncomputable def conjugate (q : Quat ℝ) : Quat ℝ := make false ⟨q.q0, -q.q1, -q.q2, -q.q3⟩

/-- `transform_vector` (`quat.py:330-363`). -/
noncomputable def transformVector (q : Quat ℝ) (v : Fin 3 → ℝ) : Fin 3 → ℝ :=
  let r := mul q (mul (make false ⟨0, v 0, v 1, v 2⟩) (conjugate q) true) true
  ![r.q1, r.q2, r.q3]

/-- One round of the loop of `mis_ori` (`quat.py:397-403`); the state is `min_mis_ori` and
`min_quat_sym`, which is unbound at first. -/
noncomputable def misOriStep (p r : Quat ℝ) (st : ℝ × Option (Quat ℝ)) (sym : Quat ℝ) :
    ℝ × Option (Quat ℝ) :=
  let v := mul sym r
  let c := |dot p v|
  open Classical in if st.1 < c then (c, some v) else st

/-- The loop of `mis_ori` (`quat.py:394-403`). -/
noncomputable def misOriLoop (syms : List (Quat ℝ)) (p r : Quat ℝ) : ℝ × Option (Quat ℝ) :=
  syms.foldl (misOriStep p r) (0, none)

/-- `mis_ori` with `return_quat=0` (`quat.py:365-411`). -/
noncomputable def misOri (syms : List (Quat ℝ)) (p r : Quat ℝ) : ℝ := (misOriLoop syms p r).1

/-- `mis_ori` with `return_quat=1`; an unbound variable is an `UnboundLocalError`
(`quat.py:397-406`). -/
noncomputable def misOriQuat (syms : List (Quat ℝ)) (p r : Quat ℝ) : Except Err (Quat ℝ) :=
  match (misOriLoop syms p r).2 with
  | some v => .ok v
  | none => .error .unboundLocalError

/-- `mis_ori_axis` (`quat.py:413-434`). Division by zero gives nan in the code and zero
here. -/
noncomputable def misOriAxis (p r : Quat ℝ) : Fin 3 → ℝ :=
  let d := mul r (conjugate p)
  let f := fun c : ℝ => 2 * c * Real.arccos d.q0 / Real.sqrt (1 - d.q0 ^ 2)
  ![f d.q1, f d.q2, f d.q3]

/-- One element of `create_many_quats` (`quat.py:593-625`). -/
noncomputable def createMany (eulers : List (ℝ × ℝ × ℝ)) : List (Quat ℝ) :=
  eulers.map fun e =>
    make false
      ⟨Real.cos (e.2.1 / 2) * Real.cos ((e.1 + e.2.2) / 2),
       -Real.sin (e.2.1 / 2) * Real.cos ((e.1 - e.2.2) / 2),
       -Real.sin (e.2.1 / 2) * Real.sin ((e.1 - e.2.2) / 2),
       -Real.cos (e.2.1 / 2) * Real.sin ((e.1 + e.2.2) / 2)⟩

/-- `multiply_many_quats` (`quat.py:627-653`). -/
noncomputable def multiplyMany (quats : List (Quat ℝ)) (right : Quat ℝ) : List (Quat ℝ) :=
  quats.map fun q =>
    make false
      ⟨q.q0 * right.q0 - (q.q1 * right.q1 + q.q2 * right.q2 + q.q3 * right.q3),
       q.q0 * right.q1 + right.q0 * q.q1 + (q.q2 * right.q3 - q.q3 * right.q2),
       q.q0 * right.q2 + right.q0 * q.q2 + (q.q3 * right.q1 - q.q1 * right.q3),
       q.q0 * right.q3 + right.q0 * q.q3 + (q.q1 * right.q2 - q.q2 * right.q1)⟩

/-- Row `i > 0` of `calc_sym_eqvs` for one orientation (`quat.py:710-726`). -/
noncomputable def symRow (sym q : Quat ℝ) : Quat ℝ :=
  let r : Quat ℝ :=
    ⟨q.q0 * sym.q0 - q.q1 * sym.q1 - q.q2 * sym.q2 - q.q3 * sym.q3,
     q.q0 * sym.q1 + q.q1 * sym.q0 - q.q2 * sym.q3 + q.q3 * sym.q2,
     q.q0 * sym.q2 + q.q2 * sym.q0 - q.q3 * sym.q1 + q.q1 * sym.q3,
     q.q0 * sym.q3 + q.q3 * sym.q0 - q.q1 * sym.q2 + q.q2 * sym.q1⟩
  open Classical in if r.q0 < 0 then r.neg else r

/-- `calc_sym_eqvs` (`quat.py:680-728`): row `s` holds the variants of all orientations;
row 0 is copied. -/
noncomputable def calcSymEqvs (syms quats : List (Quat ℝ)) : List (List (Quat ℝ)) :=
  match syms with
  | [] => []
  | _ :: t => quats :: t.map fun sym => quats.map fun q => symRow sym q

/-- `np.argmax`: the first position of the largest value (`quat.py:760, 797`). -/
noncomputable def argmax (l : List ℝ) : Nat :=
  match l with
  | [] => 0
  | a :: t =>
    (t.foldl (fun (st : Nat × Nat × ℝ) v =>
      open Classical in if st.2.2 < v then (st.2.1, st.2.1 + 1, v) else (st.1, st.2.1 + 1, st.2.2))
      (0, 1, a)).1

/-- Column `k` of the table: the variants of orientation `k` (`quat.py:755-756, 795`). -/
def column {α : Type} (rows : List (List α)) (k : Nat) : List α := rows.filterMap (·[k]?)

/-- One round of the loop of `calc_average_ori` (`quat.py:751-761`): `vars` are the variants
of one orientation. -/
noncomputable def averageStep (av : Quat ℝ) (vars : List (Quat ℝ)) : Quat ℝ :=
  match vars[argmax (vars.map fun v => |dot v av|)]? with
  | some v => ⟨av.q0 + v.q0, av.q1 + v.q1, av.q2 + v.q2, av.q3 + v.q3⟩
  | none => av

/-- `calc_average_ori` (`quat.py:730-767`) of a table with `n` columns. An empty table is an
`IndexError` (748). -/
noncomputable def averageOri (rows : List (List (Quat ℝ))) (n : Nat) : Except Err (Quat ℝ) :=
  match column rows 0 with
  | [] => .error .indexError
  | q :: _ =>
    .ok (normalise (make false
      ((List.range' 1 (n - 1)).foldl (fun av k => averageStep av (column rows k)) q)))

/-- One column of `calcMisOri` (`quat.py:769-806`): the largest overlap with the reference,
cut at 1, and the variant that has it. -/
noncomputable def misOriColumn (vars : List (Quat ℝ)) (ref : Quat ℝ) : Option (ℝ × Quat ℝ) :=
  let c := vars.map fun v => |dot v ref|
  match c[argmax c]?, vars[argmax c]? with
  | some m, some v => some (open Classical in if 1 < m then 1 else m, v)
  | _, _ => none

/-- `calcMisOri` (`quat.py:769-806`) of a table with `n` columns. -/
noncomputable def calcMisOri (rows : List (List (Quat ℝ))) (n : Nat) (ref : Quat ℝ) :
    List (Option (ℝ × Quat ℝ)) :=
  (List.range n).map fun k => misOriColumn (column rows k) ref

end Quat

/-! ### Symmetry operators -/

/-- Numbers `a + b √d` for `d = 2` and `d = 3` (`crystal.py:109-110, 118-149, 172-190`). -/
structure Surd (d : Nat) where
  a : Rat
  b : Rat
deriving DecidableEq

namespace Surd
variable {d : Nat}

/-- Exact arithmetic of the constants (`crystal.py:109-110, 118-149, 172-190`): sum. -/
instance : Add (Surd d) := ⟨fun x y => ⟨x.a + y.a, x.b + y.b⟩⟩
/-- As above (`crystal.py:109-110, 118-149, 172-190`): difference. -/
instance : Sub (Surd d) := ⟨fun x y => ⟨x.a - y.a, x.b - y.b⟩⟩
/-- As above (`crystal.py:109-110, 118-149, 172-190`): negative. -/
instance : Neg (Surd d) := ⟨fun x => ⟨-x.a, -x.b⟩⟩
/-- As above (`crystal.py:109-110, 118-149, 172-190`): product. -/
instance : Mul (Surd d) := ⟨fun x y => ⟨x.a * y.a + d * (x.b * y.b), x.a * y.b + x.b * y.a⟩⟩

/-- The real number (`crystal.py:109-110, 118-149, 172-190`). -/
noncomputable def real (x : Surd d) : ℝ := x.a + x.b * Real.sqrt d

end Surd

/-- The real quaternion of an exact one (`crystal.py:109-110, 118-149, 172-190`). -/
noncomputable def Quat.real {d : Nat} (q : Quat (Surd d)) : Quat ℝ :=
  ⟨q.q0.real, q.q1.real, q.q2.real, q.q3.real⟩

section
/-- `0.0`, `1.0`, `0.5`, `over_root2` and `sqrt3over2` (`crystal.py:109-110`). -/
def s0 {d : Nat} : Surd d := ⟨0, 0⟩
/-- `1.0` (`crystal.py:109-110, 118-149, 172-190`). -/
def s1 {d : Nat} : Surd d := ⟨1, 0⟩
/-- `0.5` (`crystal.py:109-110, 118-149, 172-190`). -/
def sh {d : Nat} : Surd d := ⟨1 / 2, 0⟩
/-- `over_root2` or `sqrt3over2` (`crystal.py:109-110, 118-149, 172-190`). -/
def sr {d : Nat} : Surd d := ⟨0, 1 / 2⟩

/-- `crystalStructures["cubic"].symmetries` (`crystal.py:115-149`). All entries are in the
northern hemisphere already. -/
def cubicExact : List (Quat (Surd 2)) :=
  [⟨s1, s0, s0, s0⟩,
   ⟨sr, sr, s0, s0⟩, ⟨s0, s1, s0, s0⟩, ⟨sr, -sr, s0, s0⟩,
   ⟨sr, s0, sr, s0⟩, ⟨s0, s0, s1, s0⟩, ⟨sr, s0, -sr, s0⟩,
   ⟨sr, s0, s0, sr⟩, ⟨s0, s0, s0, s1⟩, ⟨sr, s0, s0, -sr⟩,
   ⟨s0, sr, sr, s0⟩, ⟨s0, -sr, sr, s0⟩, ⟨s0, sr, s0, sr⟩,
   ⟨s0, -sr, s0, sr⟩, ⟨s0, s0, sr, sr⟩, ⟨s0, s0, -sr, sr⟩,
   ⟨sh, sh, sh, sh⟩, ⟨sh, -sh, -sh, -sh⟩, ⟨sh, -sh, sh, sh⟩, ⟨sh, sh, -sh, -sh⟩,
   ⟨sh, sh, -sh, sh⟩, ⟨sh, -sh, sh, -sh⟩, ⟨sh, sh, sh, -sh⟩, ⟨sh, -sh, -sh, sh⟩]

/-- `crystalStructures["hexagonal"].symmetries` (`crystal.py:169-190`). -/
def hexagonalExact : List (Quat (Surd 3)) :=
  [⟨s1, s0, s0, s0⟩,
   ⟨s0, s1, s0, s0⟩, ⟨s0, s0, s1, s0⟩, ⟨s0, s0, s0, s1⟩,
   ⟨sr, s0, s0, sh⟩, ⟨sh, s0, s0, sr⟩, ⟨sh, s0, s0, -sr⟩, ⟨sr, s0, s0, -sh⟩,
   ⟨s0, -sh, -sr, s0⟩, ⟨s0, sh, -sr, s0⟩, ⟨s0, sr, -sh, s0⟩, ⟨s0, -sr, -sh, s0⟩]

end

/-- The crystal types with symmetry operators (`crystal.py:114, 168`). -/
inductive SymGroup where
  | cubic | hexagonal
deriving DecidableEq

/-- `Quat.sym_eqv` (`quat.py:1084-1106`) of a known crystal type. -/
noncomputable def symEqv : SymGroup → List (Quat ℝ)
  | .cubic => cubicExact.map Quat.real
  | .hexagonal => hexagonalExact.map Quat.real

end DefDAP
