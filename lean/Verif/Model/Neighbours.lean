import Verif.Model.Boundaries

/-! Model of the EBSD neighbour network and its boundary segments:
`defdap/ebsd.py:752-796`, `ebsd.py:1662-1756`, and of the neighbour highlighting,
`defdap/base.py:331-381`. Grain objects are identified with their position in the grain
list (`self[i]`, `base.py:102-103`): grains are distinct objects and the code only
compares them by identity. -/

namespace DefDAP

/-- `BoundarySegment`, `ebsd.py:1662-1676`. -/
structure Seg where
  g1 : Nat
  g2 : Nat
  ptsX : List Px := []
  ptsY : List Px := []
  ownX : List Bool := []
  ownY : List Bool := []
deriving DecidableEq, Repr

/-- `BoundarySegment.__eq__`, `ebsd.py:1678-1685`. -/
def Seg.eq (s t : Seg) : Bool :=
  (decide (s.g1 = t.g1) && decide (s.g2 = t.g2)) ||
  (decide (s.g1 = t.g2) && decide (s.g2 = t.g1))

/-- `BoundarySegment.__len__`, `ebsd.py:1687-1688`. -/
def Seg.len (s : Seg) : Nat := s.ptsX.length + s.ptsY.length

/-- `addBoundaryPoint`, `ebsd.py:1690-1698`. -/
def Seg.addPoint (s : Seg) (p : Px) (kind : Nat) (owner : Nat) : Except Err Seg :=
  if kind = 0 then .ok { s with ptsX := s.ptsX ++ [p], ownX := s.ownX ++ [decide (owner = s.g1)] }
  else if kind = 1 then
    .ok { s with ptsY := s.ptsY ++ [p], ownY := s.ownY ++ [decide (owner = s.g1)] }
  else .error .valueError

/-- `boundary_point_pairs`, `ebsd.py:1700-1721`. -/
def Seg.pairs (s : Seg) (kind : Nat) : List (Px × Px) :=
  let pts := if kind = 0 then s.ptsX else s.ptsY
  let own := if kind = 0 then s.ownX else s.ownY
  let delta : Px := if kind = 0 then (1, 0) else (0, 1)
  (pts.zip own).map fun (p, o) =>
    let q : Px := (p.1 + delta.1, p.2 + delta.2)
    if o then (p, q) else (q, p)

/-- The edge of the undirected graph between two grains holds this segment
(`nn[grain][nei_grain]['boundary']`, `ebsd.py:787`, in either order). -/
def Seg.joins (a b : Nat) (s : Seg) : Bool :=
  (decide (s.g1 = a) && decide (s.g2 = b)) || (decide (s.g1 = b) && decide (s.g2 = a))

/-- Replace the segment of the edge `a`-`b`, or append a new one (`ebsd.py:783-794`): look
up the segment, create it if the edge is missing, add the boundary point to it. -/
def netAdd (net : List Seg) (a b : Nat) (p : Px) (kind : Nat) : Except Err (List Seg) :=
  match net with
  | [] => do
    let s ← Seg.addPoint { g1 := a, g2 := b } p kind a
    .ok [s]
  | s :: rest =>
    if s.joins a b then do
      let s ← s.addPoint p kind a
      .ok (s :: rest)
    else do
      let rest ← netAdd rest a b p kind
      .ok (s :: rest)

/-- `self[i]` for `i ≥ 0`: the grain list has `n` entries (`base.py:102-103`). -/
def grainAt (n : Nat) (i : Int) : Except Err Nat :=
  if i < n then .ok i.toNat else .error .indexError

/-- Body of the loop over boundary points (`ebsd.py:764-794`), progress reporting left out.
`kind` is the loop variable `i`: 0 for `points_x`, 1 for `points_y`. -/
def netStep (h w n : Nat) (labels : Img Int) (kind : Nat) (net : List Seg) (p : Px) :
    Except Err (List Seg) :=
  if p.1 = 0 ∨ p.2 = 0 ∨ p.1 = (w : Int) - 1 ∨ p.2 = (h : Int) - 1 then .ok net
  else do
    let a := (← rd h w labels p.2 p.1) - 1
    let b := (← rd h w labels (p.2 + kind) (p.1 - kind + 1)) - 1
    if b = a then .ok net
    else if b < 0 ∨ a < 0 then .ok net
    else
      let a ← grainAt n a
      let b ← grainAt n b
      netAdd net a b p kind

/-- `build_neighbour_network`, `ebsd.py:752-796`. The network's nodes are the `n` grains;
its edges are the segments returned. -/
def buildNetwork (h w n : Nat) (labels : Img Int) (b : BoundarySet) : Except Err (List Seg) := do
  let net ← b.pointsX.foldlM (netStep h w n labels 0) []
  b.pointsY.foldlM (netStep h w n labels 1) net

/-- `self.neighbour_network.neighbors(grain)`: the other ends of the edges at `a` (`base.py:359,
365`). -/
def netNeighbours (net : List Seg) (a : Nat) : List Nat :=
  net.filterMap fun s => if s.g1 = a then some s.g2 else if s.g2 = a then some s.g1 else none

/-- Inner loop of the second-neighbour search, `base.py:367-370`. -/
def addSecond (highlight acc : List Nat) (g : Nat) : List Nat :=
  if g ∉ highlight ∧ g ∉ acc then acc ++ [g] else acc

/-- The grains highlighted by clicking on grain `a`, `base.py:358-371`: the grain, its
neighbours, and the neighbours of the neighbours. -/
def highlightGrains (net : List Seg) (a : Nat) : List Nat :=
  let first := netNeighbours net a
  let highlight := [a] ++ first
  let second := first.foldl (fun acc f =>
    (netNeighbours net f).foldl (addSecond highlight) acc) []
  highlight ++ second

/-- `BoundarySet.from_boundary_segments`, `ebsd.py:1591-1599`; `b_segs[0]` of an empty list
is an `IndexError`. The points are collected in a `set` (`ebsd.py:1580-1581`). -/
def BoundarySet.fromSegments (segs : List Seg) : Except Err BoundarySet :=
  match segs with
  | [] => .error .indexError
  | _ :: _ => .ok { pointsX := (segs.flatMap (·.ptsX)).eraseDups,
                    pointsY := (segs.flatMap (·.ptsY)).eraseDups }

end DefDAP
