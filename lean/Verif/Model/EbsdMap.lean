import Verif.Model.Quat

/-!
Calculations on the orientation map of an EBSD map: kernel average misorientation, Nye tensor
and the rotation of the map (`defdap/ebsd.py:245-264, 402-569`). A map with `rows` rows and `cols`
columns is a function of the row and the column; its values outside the map are never read.
-/

namespace DefDAP

open Quat

/-! ### Kernel average misorientation -/

/-- `kam[kam > 1] = 1` (`ebsd.py:430, 446`). -/
noncomputable def clip1 (x : ℝ) : ℝ := open Classical in if 1 < x then 1 else x

/-- One line of the calculation (`ebsd.py:420-429`, and again for columns `ebsd.py:433-444`): the
first and the last point have one neighbour, the others two. -/
noncomputable def kamLine (n : Nat) (f : Int → Quat ℝ) (i : Int) : ℝ :=
  if i = 0 then |dot (f 0) (f 1)|
  else if i = (n : Int) - 1 then |dot (f ((n : Int) - 1)) (f ((n : Int) - 2))|
  else (|dot (f i) (f (i + 1))| + |dot (f i) (f (i - 1))|) / 2

/-- `calc_kam` (`ebsd.py:402-449`). A map with fewer than two rows or columns is an
`IndexError`. -/
noncomputable def calcKam (rows cols : Nat) (q : Int → Int → Quat ℝ) :
    Except Err (Int → Int → ℝ) :=
  if rows < 2 ∨ cols < 2 then .error .indexError
  else .ok fun i j =>
    2 * Real.arccos
      (clip1 ((clip1 (kamLine rows (fun r => q r j) i) + kamLine cols (fun c => q i c) j) / 2))

/-! ### Nye tensor -/

/-- Column of `quat_comps` for one pixel (`ebsd.py:459-484`): the orientation as stored and its
variants by the symmetry operators after the first. -/
noncomputable def nyeVariants (syms : List (Quat ℝ)) (q : Quat ℝ) : List (Quat ℝ) :=
  q :: syms.tail.map fun s => symRow s q

/-- The variant of the neighbour `q'` that is closest to `q` (`ebsd.py:486-506, 518-529`). -/
noncomputable def nyeClosest (syms : List (Quat ℝ)) (q q' : Quat ℝ) : Quat ℝ :=
  let vs := nyeVariants syms q'
  (vs[argmax (vs.map fun v => clip1 |dot q v|)]?).getD q'

/-- The value written to `betaderx[:, :, j, i]` or `betadery[:, :, j, i]` (`ebsd.py:516-533`) for a
pixel with orientation `q` and the neighbour `q'`. -/
noncomputable def nyeBeta (syms : List (Quat ℝ)) (step : ℝ) (q q' : Quat ℝ) :
    Matrix (Fin 3) (Fin 3) ℝ := fun a b =>
  (rotMatrix (mul (conjugate (make false (nyeClosest syms q q'))) (make false q)) a b
    - (if a = b then 1 else 0)) / step / (1 / 10 ^ 6)

/-- An array of 3x3 matrices over the map (`ebsd.py:512-513`). -/
abbrev BetaArray := Int → Int → Matrix (Fin 3) (Fin 3) ℝ

/-- `beta[:, :, j, i] = m` (`ebsd.py:524, 533`). -/
def BetaArray.set (b : BetaArray) (j i : Int) (m : Matrix (Fin 3) (Fin 3) ℝ) : BetaArray :=
  fun j' i' => if j' = j ∧ i' = i then m else b j' i'

/-- Body of the double loop (`ebsd.py:516-533`). `betadery = betaderx` (`ebsd.py:513`) makes both
names refer to one array, so there is one array and two assignments. -/
noncomputable def nyeStep (syms : List (Quat ℝ)) (step : ℝ) (q : Int → Int → Quat ℝ)
    (b : BetaArray) (ji : Int × Int) : BetaArray :=
  let b1 := b.set ji.1 ji.2 (nyeBeta syms step (q ji.1 ji.2) (q ji.1 (ji.2 + 1)))
  b1.set ji.1 ji.2 (nyeBeta syms step (q ji.1 ji.2) (q (ji.1 + 1) ji.2))

/-- The pixels the double loop visits, in order (`ebsd.py:514-515`). -/
def nyePixels (rows cols : Nat) : List (Int × Int) :=
  (List.range (cols - 1)).flatMap fun (i : Nat) =>
    (List.range (rows - 1)).map fun (j : Nat) => ((j : Int), (i : Int))

/-- `betaderx` (and `betadery`) after the loop (`ebsd.py:512-533`). -/
noncomputable def nyeBetas (syms : List (Quat ℝ)) (step : ℝ) (rows cols : Nat)
    (q : Int → Int → Quat ℝ) : BetaArray :=
  (nyePixels rows cols).foldl (nyeStep syms step q) fun _ _ => 0

/-- `bavg` (`ebsd.py:537`). -/
noncomputable def nyeBurgers : ℝ := 14 / 10 ^ 11

/-- `alpha[:, :, j, i]` (`ebsd.py:535-542`) from the values of `betaderx` and `betadery` there. -/
noncomputable def nyeAlpha (bx bY : Matrix (Fin 3) (Fin 3) ℝ) : Matrix (Fin 3) (Fin 3) ℝ :=
  fun a b =>
    if b = 2 then (bY a 0 - bx a 1) / nyeBurgers
    else if b = 1 then bx a 2 / nyeBurgers
    else -1 * bY a 2 / nyeBurgers

/-- `alpha_total3` (`ebsd.py:549-551`). -/
noncomputable def nyeTotal3 (a : Matrix (Fin 3) (Fin 3) ℝ) : ℝ :=
  30 / 10 * (|a 0 2| + |a 1 2| + |a 2 2|)

/-- `alpha_total9` (`ebsd.py:556-560`). -/
noncomputable def nyeTotal9 (a : Matrix (Fin 3) (Fin 3) ℝ) : ℝ :=
  30 / 20 * (|a 0 2| + |a 1 2| + |a 2 2| + |a 0 0| + |a 1 0| + |a 2 0| + |a 0 1| + |a 1 1| + |a 2 1|)

/-- The replacement of small values (`ebsd.py:561-563`): `alpha_total3` is replaced first, and the
replaced value decides about `alpha_total9`. `alpha_total5` is not returned and left out. -/
noncomputable def nyeMasked (t3 t9 : ℝ) : ℝ :=
  let t3' := open Classical in if |t3| < 1 then 10 ^ 12 else t3
  open Classical in if |t3'| < 1 then 10 ^ 12 else t9

/-- `calc_nye` (`ebsd.py:451-569`): the GND density and the Nye tensor. -/
noncomputable def calcNye (syms : List (Quat ℝ)) (step : ℝ) (rows cols : Nat)
    (q : Int → Int → Quat ℝ) : (Int → Int → ℝ) × (Int → Int → Matrix (Fin 3) (Fin 3) ℝ) :=
  let beta := nyeBetas syms step rows cols q
  (fun j i => nyeMasked (nyeTotal3 (nyeAlpha (beta j i) (beta j i)))
      (nyeTotal9 (nyeAlpha (beta j i) (beta j i))),
   fun j i => nyeAlpha (beta j i) (beta j i))

/-! ### Rotation of a map -/

/-- The data of a map that `rotate_data` touches. `band_contrast` and `band_slope` are only
stored by some loaders (`file_readers.py:200-218, 525-542`); `orientation` is generated from the
Euler angles when it is first read, and kept (`ebsd.py:112-115`). -/
structure EbsdData where
  euler : Int → Int → ℝ × ℝ × ℝ
  bandContrast : Option (Int → Int → ℝ)
  bandSlope : Option (Int → Int → ℝ)
  phase : Int → Int → Int
  orientation : Option (Int → Int → Quat ℝ)

/-- `a[::-1, ::-1]` of an array with this many rows and columns (`ebsd.py:251-254`). -/
def flip180 {α : Type} (rows cols : Nat) (f : Int → Int → α) : Int → Int → α :=
  fun i j => f ((rows : Int) - 1 - i) ((cols : Int) - 1 - j)

/-- `calc_quat_array` (`ebsd.py:571-581`): `create_many_quats` of the Euler angles, pixel by
pixel. -/
noncomputable def quatArray (e : Int → Int → ℝ × ℝ × ℝ) : Int → Int → Quat ℝ :=
  fun i j => fromEuler (e i j).1 (e i j).2.1 (e i j).2.2

/-- Reading `data.orientation`: the stored array, or the generated one, which is stored
(`utils.py:139-183, 369-406`). -/
noncomputable def readOrientation (d : EbsdData) : (Int → Int → Quat ℝ) × EbsdData :=
  match d.orientation with
  | some q => (q, d)
  | none => (quatArray d.euler, { d with orientation := some (quatArray d.euler) })

/-- `transform_quat` (`ebsd.py:258`). -/
noncomputable def rotTransform : Quat ℝ := conjugate (fromAxisAngle ![0, 0, 1] Real.pi)

/-- The last part of `rotate_data` (`ebsd.py:255-262`). The result of `calc_quat_array` at 255 is
dropped. -/
noncomputable def rotateOrientation (d : EbsdData) : EbsdData :=
  let r := readOrientation d
  { r.2 with orientation := some fun i j => mul (r.1 i j) rotTransform }

/-- `rotate_data` (`ebsd.py:245-264`). A missing item is an `AttributeError`; the items flipped
before stay flipped. -/
noncomputable def rotateData (rows cols : Nat) (d : EbsdData) : Except Err Unit × EbsdData :=
  let d1 := { d with euler := flip180 rows cols d.euler }
  match d1.bandContrast with
  | none => (.error .attributeError, d1)
  | some bc =>
    let d2 := { d1 with bandContrast := some (flip180 rows cols bc) }
    match d2.bandSlope with
    | none => (.error .attributeError, d2)
    | some bs =>
      let d3 := { d2 with bandSlope := some (flip180 rows cols bs) }
      let d4 := { d3 with phase := flip180 rows cols d3.phase }
      (.ok (), rotateOrientation d4)

end DefDAP
