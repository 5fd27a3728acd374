import Verif.Model.DicGrains
import Mathlib.Data.List.Dedup

/-!
The network of neighbours of maps that have no method of their own, that is of DIC maps:
`Map.build_neighbour_network` (`base.py:275-329`), and the entry to `click_grain_neighbours` (`base.py:358-359`).
Grains are identified with their position in the list of grains.
-/

namespace DefDAP

/-- `np.nonzero(self.boundaries)` (`base.py:284`): the points `(x, y)`, row by row. -/
def boundaryPoints (h w : Nat) (b : Img Bool) : List Px :=
  (List.range h).flatMap fun (y : Nat) =>
    ((List.range w).filter fun (x : Nat) => b (y : Int) (x : Int)).map fun (x : Nat) => ((x : Int), (y : Int))

/-- The set of neighbours of a boundary point (`base.py:301-311`): the labels of the four points around it, less
one, without -2 and -3. The order of a Python set does not matter, as the network is undirected. -/
def pointNeighbours (labels : Img Int) (p : Px) : List Int :=
  (([labels (p.2 + 1) p.1 - 1, labels (p.2 - 1) p.1 - 1, labels p.2 (p.1 + 1) - 1, labels p.2 (p.1 - 1) - 1].dedup).filter
    fun i => i ≠ -2).filter fun i => i ≠ -3

/-- The pairs of the double loop (`base.py:317-318`). -/
def pairsOf {α : Type} : List α → List (α × α)
  | [] => []
  | a :: l => l.map (fun b => (a, b)) ++ pairsOf l

/-- `nn[grain][neigh_grain]` of an undirected graph (`base.py:324`). -/
def netJoined (nn : List (Nat × Nat)) (a b : Nat) : Bool := nn.contains (a, b) || nn.contains (b, a)

/-- Adding the pairs of one boundary point (`base.py:317-327`), with `self[i]` of the list of `n` grains. -/
def netPairs (n : Nat) : List (Int × Int) → List (Nat × Nat) → Except Err (List (Nat × Nat))
  | [], nn => .ok nn
  | (i, j) :: rest, nn =>
    (pyGet (List.range n) i).bind fun a => (pyGet (List.range n) j).bind fun b =>
      netPairs n rest (if netJoined nn a b then nn else nn ++ [(a, b)])

/-- The points at the edge of the map (`base.py:291-294`). -/
def atMapEdge (h w : Nat) (p : Px) : Bool :=
  decide (p.1 = 0 ∨ p.2 = 0 ∨ p.1 = (w : Int) - 1 ∨ p.2 = (h : Int) - 1)

/-- The loop over the boundary points (`base.py:287-327`). -/
def netPoints (h w n : Nat) (labels : Img Int) : List Px → List (Nat × Nat) → Except Err (List (Nat × Nat))
  | [], nn => .ok nn
  | p :: rest, nn =>
    if atMapEdge h w p then netPoints h w n labels rest nn
    else (netPairs n (pairsOf (pointNeighbours labels p)) nn).bind fun nn => netPoints h w n labels rest nn

/-- `build_neighbour_network` (`base.py:275-329`): nodes and edges. `boundaries` is an attribute that nothing in the
package sets; the user may. It is assumed to have the shape of the grains. -/
def buildBaseNetwork (h w n : Nat) (labels : Img Int) (boundaries : Option (Img Bool)) :
    Except Err (List Nat × List (Nat × Nat)) :=
  match boundaries with
  | none => .error .attributeError
  | some b => (netPoints h w n labels (boundaryPoints h w b) []).bind fun nn => .ok (List.range n, nn)

end DefDAP
