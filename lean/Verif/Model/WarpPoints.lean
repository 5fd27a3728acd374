import Mathlib.Analysis.Real.Sqrt
import Mathlib.Algebra.Order.Floor.Ring
import Verif.Model.Boundaries

/-!
Warping boundary points to the DIC frame: `Experiment.warp_image` and `warp_points`
(`experiment.py:78-107,132-153`) and `BoundarySet.from_ebsd_boundaries` (`hrdic.py:883-905`).

Parameters: `sample`, the value scikit-image gives an image at a position (`tf.warp` without the
change of coordinates), and `clean`, thinning and removal of small objects (`mph.skeletonize`,
`mph.remove_small_objects`), which get the shape of the image.
-/

namespace DefDAP

/-- An affine transform: `(x, y)` goes to `(a x + b y + tx, c x + d y + ty)` (`experiment.py:49,
98-103`). -/
structure Aff where
  a : ℝ
  b : ℝ
  c : ℝ
  d : ℝ
  tx : ℝ
  ty : ℝ

/-- The image of a point (`experiment.py:107`). -/
def Aff.apply (t : Aff) (p : ℝ × ℝ) : ℝ × ℝ :=
  (t.a * p.1 + t.b * p.2 + t.tx, t.c * p.1 + t.d * p.2 + t.ty)

/-- A transform between frames: affine, or any other type (`experiment.py:45-50`). -/
inductive FrameTrans where
  | aff (t : Aff)
  | other (f : ℝ × ℝ → ℝ × ℝ)

/-- The image of a point (`experiment.py:107`). -/
def FrameTrans.apply : FrameTrans → ℝ × ℝ → ℝ × ℝ
  | .aff t => t.apply
  | .other f => f

/-- The transform with the border added (`experiment.py:99-103`). The shape is rows before columns, the
translation is `x` before `y`. -/
noncomputable def borderTrans (rows cols : Nat) (t : Aff) : Aff :=
  { t with tx := -(0.05 * (rows : ℝ)), ty := -(0.05 * (cols : ℝ)) }

/-- `transform.scale` of scikit-image: the lengths of the columns of the matrix
(`experiment.py:104`). -/
noncomputable def Aff.scale (t : Aff) : ℝ × ℝ := (Real.sqrt (t.a ^ 2 + t.c ^ 2), Real.sqrt (t.b ^ 2 + t.d ^ 2))

/-- `output_shape` with the border (`experiment.py:104-105`), rows and columns. -/
noncomputable def borderShape (rows cols : Nat) (t : Aff) : Nat × Nat :=
  (⌊(rows : ℝ) * 1.4 / t.scale.1⌋.toNat, ⌊(cols : ℝ) * 1.4 / t.scale.2⌋.toNat)

/-- `tf.warp` (`experiment.py:107`). -/
def warpWith (sample : Img ℝ → ℝ × ℝ → ℝ) (im : Img ℝ) (f : ℝ × ℝ → ℝ × ℝ) : Img ℝ :=
  fun y x => sample im (f ((x : ℝ), (y : ℝ)))

/-- `warp_image` (`experiment.py:78-107`): the shape of the result and its values. `out` is the
`output_shape` of the caller; `t` the transform from the new frame to that of the image. -/
noncomputable def warpImage (sample : Img ℝ → ℝ × ℝ → ℝ) (rows cols : Nat) (im : Img ℝ) (t : FrameTrans)
    (crop : Bool) (out : Nat × Nat) : (Nat × Nat) × Img ℝ :=
  match crop, t with
  | false, .aff t => (borderShape rows cols t, warpWith sample im (borderTrans rows cols t).apply)
  | _, t => (out, warpWith sample im t.apply)

/-- `numpy.round` of a real number: half to even (`experiment.py:149`). -/
noncomputable def roundHalfEven (q : ℝ) : Int :=
  open Classical in
  if q - ⌊q⌋ < 1 / 2 then ⌊q⌋ else if 1 / 2 < q - ⌊q⌋ then ⌊q⌋ + 1
  else if ⌊q⌋ % 2 = 0 then ⌊q⌋ else ⌊q⌋ + 1

/-- `crop` (`experiment.py:143-149`), `(x, y)`. A singular matrix is a `LinAlgError`. -/
noncomputable def cropOffset (rows cols : Nat) (t : Aff) : Except Err (Int × Int) :=
  let det := t.a * t.d - t.b * t.c
  open Classical in if det = 0 then .error .exception
  else
    let u := t.tx + 0.05 * (rows : ℝ)
    let v := t.ty + 0.05 * (cols : ℝ)
    .ok (roundHalfEven ((t.d * u - t.b * v) / det), roundHalfEven ((t.a * v - t.c * u) / det))

/-- First index and number of entries of `a[start:stop]` for an axis of `n` entries
(`experiment.py:150-151`). -/
def sliceOf (n : Nat) (start stop : Int) : Int × Nat :=
  let norm := fun i : Int => if i < 0 then max (i + n) 0 else min i n
  (norm start, (norm stop - norm start).toNat)

/-- `warp_points` (`experiment.py:132-153`). `points_img > 0.1`. -/
noncomputable def warpPoints (sample : Img ℝ → ℝ × ℝ → ℝ) (clean : Nat → Nat → Img Bool → Img Bool)
    (rows cols : Nat) (im : Img ℝ) (t : FrameTrans) (out : Nat × Nat) : Except Err (List Px) :=
  let w := warpImage sample rows cols im t false out
  let thin := clean w.1.1 w.1.2 fun y x => open Classical in decide (0.1 < w.2 y x)
  match t with
  | .other _ => .ok (nonzeroT w.1.1 w.1.2 thin)
  | .aff t =>
    (cropOffset rows cols t).bind fun c =>
      let sy := sliceOf w.1.1 c.2 (c.2 + out.1)
      let sx := sliceOf w.1.2 c.1 (c.1 + out.2)
      .ok (nonzeroT sy.2 sx.2 fun y x => thin (y + sy.1) (x + sx.1))

/-- The points of `from_ebsd_boundaries` (`hrdic.py:883-892`); `points` are those of the EBSD boundaries. -/
noncomputable def dicBoundaryPoints (sample : Img ℝ → ℝ × ℝ → ℝ) (clean : Nat → Nat → Img Bool → Img Bool)
    (rows cols : Nat) (points : List Px) (t : FrameTrans) (out : Nat × Nat) : Except Err (List Px) :=
  if points = [] then .ok []
  else (boundaryImage rows cols points).bind fun im =>
    warpPoints sample clean rows cols (fun y x => if im y x then 1 else 0) t out

end DefDAP
