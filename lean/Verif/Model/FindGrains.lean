import Verif.Model.FloodFill
import Verif.Model.Boundaries

/-! Model of `ebsd.Map.find_grains`, `defdap/ebsd.py:853-944`. -/

namespace DefDAP

/-- A grain's `data.point`: a view of length `len` into the shared coordinate buffer
starting at `off` (`ebsd.py:890-894`). -/
structure View where
  off : Nat
  len : Nat
deriving DecidableEq, Repr

/-- The points a view currently shows, given the memory of the shared buffer (`ebsd.py:890-894`). -/
def View.read (v : View) (buf : Nat → Px) : List Px :=
  (List.range v.len).map fun i => buf (v.off + i)

/-- State of the main loop of `find_grains`. `next` is `next_point`; `found_point` is local to the
step. `off` is how much of the buffer has been cut off its front (`ebsd.py:863-909`). -/
structure FG where
  grains : Img Int
  left : Img Bool
  buf : Nat → Px
  off : Nat
  list : List View
  gidx : Int
  next : Nat

/-- `np.unravel_index(i, (h, w))` followed by the swap to `(x, y)` (`ebsd.py:887, 891`). -/
def unravel (w : Nat) (i : Nat) : Px := ((i % w : Nat), (i / w : Nat))

/-- `flat[start:].tobytes().find(b'\x01')`: the offset of the first true element of the
flattened image at or after `start`, or `none` for -1 (`ebsd.py:875, 907-909`). -/
def findFrom (h w : Nat) (im : Img Bool) (start : Nat) : Option Nat :=
  (List.range (h * w - start)).find? fun k => im ((unravel w (start + k)).2) ((unravel w (start + k)).1)

/-- `for point in grain.data.point: grains[point[1], point[0]] = -2` (`ebsd.py:899-900`). -/
def paint (v : Int) (pts : List Px) (g : Img Int) : Img Int :=
  pts.foldl (fun g p => wr g p.2 p.1 v) g

/-- One pass of the `while found_point >= 0` loop (`ebsd.py:887-909`): fill, cut the buffer,
keep or discard the region, look for the next point. Returns the new state and whether a
next point was found. `cap` is the length of the current `coords_buffer`. -/
def fgStep (h w : Nat) (bx by' : Img Bool) (minSize : Nat) (st : FG) :
    Except Err (FG × Bool) := do
  let cfg : FillCfg := { h, w, bx, by', index := st.gidx, off := st.off, cap := h * w - st.off }
  let f ← floodFill cfg (unravel w st.next) st.grains st.left st.buf
  let v : View := { off := st.off, len := f.n }
  let st := { st with grains := f.grains, left := f.left, buf := f.buf, off := st.off + f.n }
  let st := if v.len < minSize then
      { st with grains := paint (-2) (v.read st.buf) st.grains }
    else
      { st with list := st.list ++ [v], gidx := st.gidx + 1 }
  match findFrom h w st.left (st.next + 1) with
  | none => .ok (st, false)
  | some k => .ok ({ st with next := st.next + (k + 1) }, true)

/-- The loop, `ebsd.py:885-915`, with fuel. Progress reporting is left out. -/
def fgLoop (h w : Nat) (bx by' : Img Bool) (minSize : Nat) : Nat → FG → Except Err FG
  | 0, _ => .error .fuel
  | k + 1, st => do
    let (st', more) ← fgStep h w bx by' minSize st
    if more then fgLoop h w bx by' minSize k st' else .ok st'

/-- The phase given to a grain (`ebsd.py:918-931`): `none` stands for the two warnings,
after which the grain keeps no phase. `phase_id = phase_vals[0] - 1`. -/
def grainPhase (numPhases : Nat) (phase : Img Int) (pts : List Px) : Option Int :=
  match pts.map (fun p => phase p.2 p.1) with
  | [] => none
  | v :: vs =>
    if vs.any (fun u => u ≠ v) then none
    else if 0 ≤ v - 1 ∧ v - 1 < numPhases then some (v - 1) else none

/-- The result: the grain map, the memory of the buffer, and for each grain its view and its phase
(`ebsd.py:917-944`). -/
structure FGResult where
  grains : Img Int
  buf : Nat → Px
  list : List (View × Option Int)

/-- `find_grains` (`ebsd.py:854-944`) with the boundary images as arguments. With no indexed
point at all `next_point` is -1 and `np.unravel_index` raises `ValueError`; with no grain of
the minimum size `grain_list[0]` raises `IndexError`. -/
def findGrains (h w : Nat) (phase : Img Int) (numPhases : Nat) (bx by' : Img Bool)
    (minSize : Nat) : Except Err FGResult := do
  let left : Img Bool := fun y x => decide (phase y x ≠ 0)
  match findFrom h w left 0 with
  | none => .error .valueError
  | some next =>
    let st ← fgLoop h w bx by' minSize (h * w)
      { grains := fun _ _ => 0, left, buf := fun _ => (0, 0), off := 0, list := [],
        gidx := 1, next }
    let list := st.list.map fun v => (v, grainPhase numPhases phase (v.read st.buf))
    match list with
    | [] => .error .indexError
    | _ :: _ => .ok { grains := st.grains, buf := st.buf, list }

/-- `find_grains` on the map's own boundary set, as the property `data.grains` runs it
(`ebsd.py:868-869`). -/
def findGrainsOf (h w : Nat) (phase : Img Int) (numPhases : Nat) (b : BoundarySet)
    (minSize : Nat) : Except Err FGResult := do
  let bx ← b.imageX h w
  let by' ← b.imageY h w
  findGrains h w phase numPhases bx by' minSize

end DefDAP
