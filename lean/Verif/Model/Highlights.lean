import Verif.Model.GrainData
import Verif.Model.DicGrains
import Verif.Model.Text

/-!
Highlighting grains in a map plot, `MapPlot.add_grain_highlights` (`plotting.py:496-557`), and the
selection of neighbours in `Map.click_grain_neighbours` (`base.py:336-381`).

Matplotlib's part is modelled as documented: an image without limits is scaled from its least to its
greatest value (`autoscale`), `Normalize` takes all values to 0 if these are equal, and a colour map
of `N` colours takes `x` in `[0, 1)` to colour `⌊x N⌋` and 1 to the last.
-/

namespace DefDAP

/-- `outline[y0:ymax + 1, x0:xmax + 1] += grainOutline` (`plotting.py:526-532`). Simplification: the
grain lies in the map, as all grains of a map do. -/
def addOutline (pts : List Px) (fg : Int) (im : Img Int) : Except Err (Img Int) :=
  (grainOutline pts (some 0) fg).bind fun o =>
    (extremeCoords pts).bind fun b =>
      .ok fun y x => if (b.2.1 ≤ y ∧ y ≤ b.2.2.2) ∧ b.1 ≤ x ∧ x ≤ b.2.2.1 then
        im y x + o.2.2 (y - b.2.1) (x - b.1) else im y x

/-- The loop over the grains, `plotting.py:521-532`. `n` is the number of colours. -/
def highlightLoop (grains : List (List Px)) (n : Nat) : Nat → List Int → Img Int → Except Err (Img Int)
  | _, [], im => .ok im
  | i, g :: gs, im =>
    (pyGet grains g).bind fun pts =>
      (addOutline pts ((if n < i then n else i : Nat) : Int) im).bind fun im =>
        highlightLoop grains n (i + 1) gs im

/-- All values of an image of `h` rows and `w` columns (`plotting.py:544, 551`). -/
def imgValues (h w : Nat) (im : Img Int) : List Int :=
  (List.range h).flatMap fun (y : Nat) => (List.range w).map fun (x : Nat) => im (y : Int) (x : Int)

/-- The entry of a colour map of `n` colours for the value `v` of an image scaled from `lo` to `hi`
(`plotting.py:537, 544-545, 553`). -/
def lutIndex (lo hi : Int) (n : Nat) (v : Int) : Nat :=
  if lo = hi then 0
  else
    let x : ℚ := ((v : ℚ) - lo) / ((hi : ℚ) - lo) * n
    if x = n then n - 1 else ⌊x⌋.toNat

/-- The colours of the layer, `plotting.py:534-541`: white with alpha 0 comes first. -/
def layerColour (cs : List Str) : Nat → Option Str
  | 0 => none
  | k + 1 => cs[k]?

/-- `add_grain_highlights` (`plotting.py:496-557`): the colour over every pixel, `none` where the
layer is transparent, and the list of colours as it is afterwards: `insert` changes the list passed
in. -/
def addHighlights (h w : Nat) (grains : List (List Px)) (ids : List Int) (colours : Option (List Str)) :
    Except Err (Img (Option Str) × List Str) :=
  let cs := colours.getD [lit "white"]
  (highlightLoop grains cs.length 1 ids fun _ _ => 0).bind fun outline =>
    (minMax (imgValues h w outline)).bind fun r =>
      .ok (fun y x => layerColour cs (lutIndex r.1 r.2 (cs.length + 1) (outline y x)), lit "white" :: cs)

/-- The inner loop of `click_grain_neighbours` (`base.py:367-370`). -/
def addSecondNb (shown : List Nat) (acc : List Nat) (l : List Nat) : List Nat :=
  l.foldl (fun acc g => if g ∉ shown ∧ g ∉ acc then acc ++ [g] else acc) acc

/-- `click_grain_neighbours` for the grain `g` (`base.py:360-380`): the grains highlighted and their
colours. Grains are named by their number, `nb` gives the neighbours in the network. -/
def neighbourHighlights (nb : Nat → List Nat) (g : Nat) : List Nat × List Str :=
  let first := nb g
  let second := first.foldl (fun acc f => addSecondNb (g :: first) acc (nb f)) []
  (g :: first ++ second,
   lit "white" :: List.replicate first.length (lit "yellow") ++ [lit "green"])

end DefDAP
