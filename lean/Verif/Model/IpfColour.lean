import Verif.Model.Poles

/-!
Model of inverse pole figure colours, `Quat.calc_ipf_colours` (`quat.py:839-951`), and of the colour
maps of an EBSD map, `calc_euler_colour` and `calc_ipf_colour` (`ebsd.py:266-314`). Floats are real
numbers; where the code divides by zero the result here is zero.
-/

namespace DefDAP

open Quat

/-- A vector, one column of an array of shape (3, n) (`quat.py:879`). -/
abbrev Vec := Fin 3 → ℝ

/-- `np.cross(a, b)` of one column (`quat.py:906-908`). -/
def crossV (a b : Vec) : Vec :=
  ![a 1 * b 2 - a 2 * b 1, a 2 * b 0 - a 0 * b 2, a 0 * b 1 - a 1 * b 0]

/-- `np.einsum("ij,ij->j", a, b)` of one column (`quat.py:913`). -/
def dotV (a b : Vec) : ℝ := a 0 * b 0 + a 1 * b 1 + a 2 * b 2

/-- `np.arccos(np.clip(x, -1, 1))` (`quat.py:913, 916-917`). -/
noncomputable def arccosClip (x : ℝ) : ℝ := Real.arccos (max (-1) (min x 1))

/-- `x_intersect / x_norm`, where a norm of zero is replaced by one (`quat.py:909-911, 924-926,
939-941`). -/
noncomputable def ipfIntersect (dir p normal : Vec) : Vec :=
  let i := crossV (crossV dir p) normal
  let n := Real.sqrt (dotV i i)
  fun k => i k / (open Classical in if n = 0 then 1 else n)

/-- The intersection on the side of the direction (`quat.py:913-914, 928-929, 943-944`). -/
noncomputable def ipfSide (dir i : Vec) : Vec :=
  open Classical in if Real.pi / 2 < arccosClip (dotV dir i) then fun k => i k * -1 else i

/-- One colour component before scaling (`quat.py:906-918, 921-933, 936-948`): `p` is the corner of
that colour and `normal` the normal of the plane through the other two. -/
noncomputable def ipfPart (dir p normal : Vec) : ℝ :=
  let i := ipfSide dir (ipfIntersect dir p normal)
  arccosClip (dotV dir i) / arccosClip (dotV p i)

/-- `pole_directions` (`quat.py:884-895`): the corners of the triangle. -/
noncomputable def poleRed : SymGroup → Vec
  | .cubic => ![0, 0, 1]
  | .hexagonal => ![0, 0, 1]

/-- The second corner (`quat.py:887, 893`). -/
noncomputable def poleGreen : SymGroup → Vec
  | .cubic => ![0 / Real.sqrt 2, 1 / Real.sqrt 2, 1 / Real.sqrt 2]
  | .hexagonal => ![0, 1, 0]

/-- The third corner (`quat.py:888, 894`). -/
noncomputable def poleBlue : SymGroup → Vec
  | .cubic => ![-1 / Real.sqrt 3, 1 / Real.sqrt 3, 1 / Real.sqrt 3]
  | .hexagonal => ![-0.5, Real.sqrt 3 / 2, 0]

/-- `dirvec` (`quat.py:878-882`). -/
noncomputable def dirVec (ab : ℝ × ℝ) : Vec :=
  ![Real.sin ab.1 * Real.cos ab.2, Real.sin ab.1 * Real.sin ab.2, Real.cos ab.1]

/-- `rgb` before scaling (`quat.py:903-948`). -/
noncomputable def ipfRaw (g : SymGroup) (dir : Vec) : Vec :=
  let r := poleRed g
  let gr := poleGreen g
  let b := poleBlue g
  ![ipfPart dir r (crossV b gr), ipfPart dir gr (crossV r b), ipfPart dir b (crossV gr r)]

/-- `rgb /= np.amax(rgb, axis=0)` (`quat.py:949`). -/
noncomputable def ipfColour (g : SymGroup) (dir : Vec) : Vec :=
  let c := ipfRaw g dir
  fun k => c k / max (max (c 0) (c 1)) (c 2)

/-- `Quat.calc_ipf_colours` (`quat.py:839-951`): a colour for each orientation. -/
noncomputable def calcIpfColours (g : SymGroup) (quats : List (Quat ℝ)) (d : Vec) :
    Except Err (List Vec) :=
  (calcFundDirs g "up" quats d).bind fun l => .ok (l.map fun ab => ipfColour g (dirVec ab))

/-! ### Colour maps

A map is the list of its pixels in row-major order; a boolean mask is a list of the same length. -/

/-- `a[mask]` (`ebsd.py:289, 311`). -/
def maskGet {α : Type} : List Bool → List α → List α
  | b :: m, x :: l => if b then x :: maskGet m l else maskGet m l
  | _, _ => []

/-- `a[mask] = vals` (`ebsd.py:289, 310`). -/
def maskSet {α : Type} : List Bool → List α → List α → List α
  | true :: m, _ :: l, v :: vs => v :: maskSet m l vs
  | false :: m, x :: l, vs => x :: maskSet m l vs
  | _, l, _ => l

/-- `self.phases[i]` (`ebsd.py:272, 300`). -/
def phaseAt (structs : List SymGroup) (i : Int) : Except Err SymGroup :=
  let k := if i < 0 then i + structs.length else i
  if k < 0 then .error .indexError
  else match structs[k.toNat]? with
    | some g => .ok g
    | none => .error .indexError

/-- The phases to plot with their ids (`ebsd.py:267-272, 295-300`). -/
def chosenPhases (structs : List SymGroup) : Option (List Int) → Except Err (List (SymGroup × Int))
  | none => .ok (structs.zipIdx.map fun p => (p.1, (p.2 : Int)))
  | some ids => ids.mapM fun i => (phaseAt structs i).bind fun g => .ok (g, i)

/-- Storing a colour in an array: an array of integers cuts off decimals (`ebsd.py:277, 289, 305,
310`). -/
noncomputable def castColour (isInt : Bool) (c : Vec) : Vec :=
  if isInt then fun k => (if 0 ≤ c k then (⌊c k⌋ : ℝ) else (⌈c k⌉ : ℝ)) else c

/-- One pass of the loop (`ebsd.py:279-289, 307-312`). -/
noncomputable def paintPhase {α : Type} (colour : SymGroup → List α → Except Err (List Vec))
    (isInt : Bool) (phase : List Int) (data : List α) (map : List Vec) (p : SymGroup × Int) :
    Except Err (List Vec) :=
  let mask := phase.map fun x => decide (x = p.2 + 1)
  (colour p.1 (maskGet mask data)).bind fun cols =>
  .ok (maskSet mask map (cols.map (castColour isInt)))

/-- `calc_euler_colour` and `calc_ipf_colour` (`ebsd.py:266-314`), which differ in the function
`colour` for one phase. `structs` are the crystal structures of the phases of the map. The background
is an array of floats (black if not given) or of integers; `np.tile` keeps its type. -/
noncomputable def colourMap {α : Type} (colour : SymGroup → List α → Except Err (List Vec))
    (structs : List SymGroup) (phase : List Int) (data : List α) (ids : Option (List Int))
    (bg : Option (Bool × Vec)) : Except Err (List Vec) :=
  (chosenPhases structs ids).bind fun ps =>
  let b := bg.getD (false, ![0, 0, 0])
  ps.foldlM (paintPhase colour b.1 phase data) (phase.map fun _ => b.2)

/-- `norm` (`ebsd.py:280-285`). -/
noncomputable def eulerNorm : SymGroup → Vec
  | .cubic => ![2 * Real.pi, Real.pi / 2, Real.pi / 2]
  | .hexagonal => ![Real.pi, Real.pi, Real.pi / 3]

/-- The colours of one phase in `calc_euler_colour` (`ebsd.py:289`). -/
noncomputable def eulerColours (g : SymGroup) (angles : List Vec) : Except Err (List Vec) :=
  .ok (angles.map fun v k => v k / eulerNorm g k)

/-- The colours of one phase in `calc_ipf_colour` (`ebsd.py:310-312`). -/
noncomputable def ipfColours (d : Vec) (g : SymGroup) (quats : List (Quat ℝ)) : Except Err (List Vec) :=
  calcIpfColours g quats d

end DefDAP
