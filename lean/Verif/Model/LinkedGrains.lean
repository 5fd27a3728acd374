import Mathlib.Data.Real.Basic
import Verif.Model.DicGrains
import Verif.Model.FindGrains

/-!
The grains of a DIC map from those of the linked EBSD map (`hrdic.py:589-621`).
-/

namespace DefDAP

/-- `warp_to_dic_frame(grains, order=0, preserve_range=True)` (`hrdic.py:591-593`, `experiment.py:78-107`):
the label at the pixel next to the position in the EBSD map, zero outside of it. `f` is the transform from
the DIC to the EBSD frame. Simplified: `near` is the rounding of scikit-image, left open here. -/
def warpNearest (near : ℝ → Int) (rows cols : Nat) (im : Img Int) (f : ℝ × ℝ → ℝ × ℝ) : Img Int :=
  fun y x =>
    let p := f ((x : ℝ), (y : ℝ))
    if inB rows cols (near p.1) (near p.2) then im (near p.2) (near p.1) else 0

/-- `grains.ravel()` (`hrdic.py:603`). -/
def rasterList (h w : Nat) (im : Img Int) : List Int :=
  (List.range (h * w)).map fun (k : Nat) => im ((k / w : Nat) : Int) ((k % w : Nat) : Int)

/-- `np.flip(coords, axis=1)` (`hrdic.py:615-616`): `(x, y)` of a raster position. -/
def rasterPx (w : Nat) (k : Nat) : Px := (((k % w : Nat) : Int), ((k / w : Nat) : Int))

/-- The warp algorithm of `find_grains` (`hrdic.py:587-621, 702-703`): labels, and for every grain its
points and the position of its EBSD grain in the list of the EBSD map. -/
def linkedGrains (near : ℝ → Int) (rows cols : Nat) (ebsd : FGResult) (f : ℝ × ℝ → ℝ × ℝ) (h w : Nat) :
    Except Err (Img Int × List (List Px × Nat)) :=
  (warpGrains (List.range ebsd.list.length) (rasterList h w (warpNearest near rows cols ebsd.grains f))).bind
    fun r => .ok (fun y x => r.1.getD (y.toNat * w + x.toNat) 0,
      r.2.map fun g => (g.1.map (rasterPx w), g.2))

/-- The EBSD grain of a grain found by flood fill (`hrdic.py:671-686`): `i` is the position of the grain in the
list, `dic` the labels of the DIC map and `f` the transform from the EBSD to the DIC frame. -/
def floodLink {α : Type} (near : ℝ → Int) (h w : Nat) (dic : Img Int) (f : ℝ × ℝ → ℝ × ℝ) (H W : Nat)
    (labels : Img Int) (ebsdGrains : List α) (i : Nat) : Except Err α :=
  linkByMode ebsdGrains (((List.range (H * W)).map (rasterPx W)).filterMap fun p =>
    if warpNearest near h w dic f p.2 p.1 = (i : Int) + 1 then some (labels p.2 p.1) else none)

end DefDAP
