import Verif.Model.Quat
import Mathlib.Algebra.Order.Floor.Defs
import Mathlib.Algebra.Order.Floor.Semiring
import Mathlib.Data.Rat.Floor
import Mathlib.Algebra.Order.Archimedean.Real.Basic
import Mathlib.LinearAlgebra.CrossProduct
import Mathlib.Analysis.SpecialFunctions.Trigonometric.Basic

/-!
Model of `defdap/crystal_utils.py`. Indices are lists. Values that are floats in the code are
elements of an ordered field `K`, the rationals or the reals. Integer arrays are not bounded,
except where the code casts to 8 bits.
-/

namespace DefDAP

/-- `np.round`: half to even (`crystal_utils.py:364`). -/
def npRound {K : Type} [Field K] [LinearOrder K] [FloorRing K] (q : K) : Int :=
  let f := ⌊q⌋
  if q - f < 1 / 2 then f
  else if 1 / 2 < q - f then f + 1
  else if f % 2 = 0 then f else f + 1

/-- `astype(np.int8)` of an integral value (`crystal_utils.py:338, 369`): modulo 256. (For
floats out of range this is what the usual hardware does; C leaves it open.) -/
def int8 (z : Int) : Int := (z + 128) % 256 - 128

/-- `safe_int_cast` (`crystal_utils.py:341-369`). -/
def safeIntCast {K : Type} [Field K] [LinearOrder K] [FloorRing K] (vec : List K)
    (tol : K := 1 / 1000) : Except Err (List Int) :=
  if vec.any fun x => decide (tol < |x - npRound x|) then .error .valueError
  else .ok (vec.map fun x => int8 (npRound x))

section
variable {K : Type} [Field K] [LinearOrder K] [FloorRing K]

/-- The plane branches of `convert_idc` (`crystal_utils.py:138-143, 157-160`). -/
def convertPlane (inType : String) (plane : List K) : Except Err (List K) :=
  if inType.toLower = "m" then
    match plane with
    | [h, k, l] => .ok [h, k, (h + k) * -1, l]
    | _ => .error .valueError
  else if inType.toLower = "mb" then
    match plane with
    | [h, k, _, l] => .ok [h, k, l]
    | _ => .error .valueError
  else .error .valueError

/-- `try: out = safe_int_cast(out) except ValueError: pass` (`crystal_utils.py:150-154`). -/
def tryCast (out : List K) : List K :=
  match safeIntCast out with
  | .ok l => l.map fun (z : Int) => (z : K)
  | .error _ => out

/-- The direction branches of `convert_idc` (`crystal_utils.py:145-154, 162-166`). -/
def convertDir (inType : String) (dir : List K) : Except Err (List K) :=
  if inType.toLower = "m" then
    match dir with
    | [u, v, w] =>
      .ok (tryCast [(2 * u - v) / 3, (2 * v - u) / 3, (-u - v) / 3, 3 * w / 3])
    | _ => .error .valueError
  else if inType.toLower = "mb" then
    match dir with
    | [u, v, t, w] => .ok [u - t, v - t, w]
    | _ => .error .valueError
  else .error .valueError

/-- `convert_idc` (`crystal_utils.py:110-171`). -/
def convertIdc (inType : String) (dir plane : Option (List K)) : Except Err (List K) :=
  match dir, plane with
  | none, none => .error .valueError
  | some _, some _ => .error .valueError
  | none, some p => convertPlane inType p
  | some d, none => convertDir inType d

end

/-- The loop of `pos_idc` (`crystal_utils.py:314-320`); `None` if it falls through. The
negation of -128 in 8-bit arrays, which is -128 again, is not modelled. -/
def posIdcLoop (vec : List Int) : List Int → Option (List Int)
  | [] => none
  | i :: t =>
    if i = 0 then posIdcLoop vec t
    else if 0 < i then some vec
    else some (vec.map fun x => -x)

/-- `pos_idc` (`crystal_utils.py:299-320`). -/
def posIdc (vec : List Int) : Option (List Int) := posIdcLoop vec vec

/-- `np.gcd.reduce` (`crystal_utils.py:338`). -/
def gcdReduce (vec : List Int) : Nat := vec.foldl (fun g x => Int.gcd g x) 0

/-- `reduce_idc` (`crystal_utils.py:323-338`). With all indices zero the quotients are nan,
and `nan` stands for whatever 8-bit value that is cast to. -/
def reduceIdc (nan : Int) (vec : List Int) : List Int :=
  if gcdReduce vec = 0 then vec.map fun _ => nan
  else vec.map fun x => int8 (x / (gcdReduce vec : Int))

/-- `str_idx` (`crystal_utils.py:394-412`) for an integer; text is a list of characters. -/
def strIdx (strType : String) (i : Int) : List Char :=
  let pp : List Char × List Char :=
    if strType = "tex" then (['$', '\\', 'b', 'a', 'r', '{'], ['}', '$']) else ([], ['̅'])
  if 0 ≤ i then Nat.toDigits 10 i.natAbs else pp.1 ++ Nat.toDigits 10 i.natAbs ++ pp.2

/-- `idc_to_string` (`crystal_utils.py:372-391`); `brackets` are the two characters. -/
def idcToString (brackets : Option (Char × Char)) (strType : String) (idc : List Int) :
    List Char :=
  let text := (idc.map (strIdx strType)).flatten
  match brackets with
  | none => text
  | some (a, b) => [a] ++ text ++ [b]

open Matrix

/-- The lattice matrix before the convention is applied (`crystal_utils.py:38-56`). -/
noncomputable def lTsl (a b c al be ga : ℝ) : Matrix (Fin 3) (Fin 3) ℝ :=
  !![a, b * Real.cos ga, c * Real.cos be;
     0, b * Real.sin ga, c * (Real.cos al - Real.cos be * Real.cos ga) / Real.sin ga;
     0, 0, c * Real.sqrt (1 + 2 * Real.cos al * Real.cos be * Real.cos ga -
       Real.cos al ^ 2 - Real.cos be ^ 2 - Real.cos ga ^ 2) / Real.sin ga]

/-- The exchange of entries for the 'hkl' convention (`crystal_utils.py:63-73`). -/
def lSwap (m : Matrix (Fin 3) (Fin 3) ℝ) : Matrix (Fin 3) (Fin 3) ℝ :=
  !![m 1 1, m 1 0, m 0 2;
     m 0 1, m 0 0, m 1 2;
     m 2 0, m 2 1, m 2 2]

/-- `l_matrix[np.abs(l_matrix) < 1e-10] = 0` (`crystal_utils.py:82`). -/
noncomputable def cutSmall (m : Matrix (Fin 3) (Fin 3) ℝ) : Matrix (Fin 3) (Fin 3) ℝ :=
  fun i j => open Classical in if |m i j| < 1 / 10 ^ 10 then 0 else m i j

/-- `create_l_matrix` (`crystal_utils.py:35-84`); `dflt` is the configured convention
(`defaults['crystal_ortho_conv']`). -/
noncomputable def createL (dflt : String) (a b c al be ga : ℝ) (convention : Option String) :
    Except Err (Matrix (Fin 3) (Fin 3) ℝ) :=
  let conv := (convention.getD dflt).toLower
  if conv = "hkl" ∨ conv = "oi" then .ok (cutSmall (lSwap (lTsl a b c al be ga)))
  else if conv = "tsl" then .ok (cutSmall (lTsl a b c al be ga))
  else .error .valueError

/-- `create_q_matrix` (`crystal_utils.py:87-102`). -/
noncomputable def createQ (l : Matrix (Fin 3) (Fin 3) ℝ) : Matrix (Fin 3) (Fin 3) ℝ :=
  let a : Fin 3 → ℝ := fun i => l i 0
  let b : Fin 3 → ℝ := fun i => l i 1
  let c : Fin 3 → ℝ := fun i => l i 2
  let vol := |a ⬝ᵥ crossProduct b c|
  fun i j => ![crossProduct b c i / vol, crossProduct c a i / vol, crossProduct a b i / vol] j

/-- `np.matmul(matrix, indices)` with a 3 x 3 matrix (`crystal_utils.py:293, 296`). -/
def matVec (m : Matrix (Fin 3) (Fin 3) ℝ) : List ℝ → Except Err (Fin 3 → ℝ)
  | [x, y, z] => .ok (m *ᵥ ![x, y, z])
  | _ => .error .valueError

/-- The cell used for hexagonal crystals (`crystal_utils.py:284-287`). -/
noncomputable def hexL (dflt : String) (ca : ℝ) : Except Err (Matrix (Fin 3) (Fin 3) ℝ) :=
  createL dflt 1 1 ca (Real.pi / 2) (Real.pi / 2) (Real.pi * 2 / 3) none

/-- The conversion of the given indices to three (`crystal_utils.py:267-282`). -/
noncomputable def toMiller (inType : String) (dir plane : Option (List ℝ)) :
    Except Err (Option (List ℝ) × Option (List ℝ)) :=
  match dir, plane with
  | none, none => .error .valueError
  | some _, some _ => .error .valueError
  | none, some p =>
    if inType = "mb" then
      (convertIdc "mb" none (some p)).bind fun p' => .ok (none, some p')
    else if inType = "m" then .ok (none, some p) else .error .valueError
  | some d, none =>
    if inType = "mb" then
      (convertIdc "mb" (some d) none).bind fun d' => .ok (some d', none)
    else if inType = "m" then .ok (some d, none) else .error .valueError

/-- `project_to_orth` (`crystal_utils.py:249-296`). -/
noncomputable def projectToOrth (dflt : String) (ca : ℝ) (dir plane : Option (List ℝ))
    (inType : String) : Except Err (Fin 3 → ℝ) :=
  (toMiller inType dir plane).bind fun dp =>
  (hexL dflt ca).bind fun l =>
  match dp.1, dp.2 with
  | none, some p => matVec (createQ l) p
  | some d, _ => matVec l d
  | none, none => .error .valueError

end DefDAP
