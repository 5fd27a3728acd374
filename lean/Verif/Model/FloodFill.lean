import Verif.Model.Basic

/-! Model of `defdap/_accelerated.py`. -/

namespace DefDAP

/-- The mutable state of `flood_fill` / `flood_fill_dic`
(`_accelerated.py:48-53`): the grain map, the map of points still to be
assigned, the memory holding the coordinate buffer, the number of coordinates
written and the stack `edge` (top of the stack first). The arguments
`grains`, `points_remaining` and `added_coords` are mutated in place by the
code, so they are part of the state. -/
structure Fill where
  grains : Img Int
  left : Img Bool
  buf : Nat → Px
  n : Nat
  edge : List Px

/-- What does not change during one fill: the map shape, the boundary images, the grain number, and
where the buffer slice passed as `added_coords` lies in the underlying memory (`off`) and how long
it is (`cap`) (`_accelerated.py:28-29, 102`). -/
structure FillCfg where
  h : Nat
  w : Nat
  bx : Img Bool
  by' : Img Bool
  index : Int
  off : Nat
  cap : Nat

/-- `added_coords[npoints] = s, t; grains[t, s] = index;
points_remaining[t, s] = False; npoints += 1`
(`_accelerated.py:49-53` for the seed, `92-95` in the loop, `158-161` in the
DIC version), with both the map and the buffer access checked. Pushing on
`edge` is done separately. -/
def Fill.put (c : FillCfg) (st : Fill) (s t : Int) : Except Err Fill :=
  if inB c.h c.w s t then
    if st.n < c.cap then
      .ok { st with
        buf := fun i => if i = c.off + st.n then (s, t) else st.buf i
        grains := wr st.grains t s c.index
        left := wr st.left t s false
        n := st.n + 1 }
    else .error .outOfBounds
  else .error .outOfBounds

/-- `edge.append((s, t))` (`_accelerated.py:51, 96, 152`). -/
def Fill.push (st : Fill) (p : Px) : Fill := { st with edge := p :: st.edge }

/-- The list `moves` of `_accelerated.py:57-66`, built and then shortened by
`pop` exactly as in the code: `pop(1)`, `pop(0)`, `pop(-1)`, `pop(-2)`. -/
def ffMoves (h w : Nat) (x y : Int) : List Px :=
  let m : List Px := [(x + 1, y), (x - 1, y), (x, y + 1), (x, y - 1)]
  let m := if x ≤ 0 then m.eraseIdx 1
           else if x > (w : Int) - 2 then m.eraseIdx 0 else m
  if y ≤ 0 then m.eraseIdx (m.length - 1)
  else if y > (h : Int) - 2 then m.eraseIdx (m.length - 2) else m

/-- Which boundary pixel decides the move from `(x, y)` to `(s, t)`
(`_accelerated.py:72-89`): the value read is `not add_point`. -/
def ffBlocked (c : FillCfg) (x y s t : Int) : Except Err Bool :=
  if t = y then
    if s > x then rd c.h c.w c.bx y x else rd c.h c.w c.bx t s
  else
    if t > y then rd c.h c.w c.by' y x else rd c.h c.w c.by' t s

/-- Body of the `for (s, t) in moves` loop, `_accelerated.py:68-96`. -/
def ffVisit (c : FillCfg) (x y : Int) (st : Fill) (q : Px) : Except Err Fill := do
  let g ← rd c.h c.w st.grains q.2 q.1
  if g > 0 then
    return st
  let blocked ← ffBlocked c x y q.1 q.2
  if !blocked then
    let st ← st.put c q.1 q.2
    return st.push q
  else
    return st

/-- The `while edge` loop, `_accelerated.py:55-96`, with fuel. -/
def ffLoop (c : FillCfg) : Nat → Fill → Except Err Fill
  | 0, st => match st.edge with
    | [] => .ok st
    | _ :: _ => .error .fuel
  | k + 1, st => match st.edge with
    | [] => .ok st
    | (x, y) :: rest => do
      let st' ← (ffMoves c.h c.w x y).foldlM (ffVisit c x y) { st with edge := rest }
      ffLoop c k st'

/-- `flood_fill`, `_accelerated.py:27-98`. The returned array
`added_coords[:npoints]` is the slice of `buf` of length `n` starting at
`c.off`. -/
def floodFill (c : FillCfg) (seed : Px) (grains : Img Int) (left : Img Bool)
    (buf : Nat → Px) : Except Err Fill := do
  let st ← ({ grains, left, buf, n := 0, edge := [] } : Fill).put c seed.1 seed.2
  ffLoop c (c.h * c.w) (st.push seed)

/-- The coordinates returned: the slice `added_coords[:npoints]` (`_accelerated.py:98, 163`). -/
def Fill.points (c : FillCfg) (st : Fill) : List Px :=
  (List.range st.n).map fun i => st.buf (c.off + i)

/-- `moves` of `flood_fill_dic`, `_accelerated.py:136-145`. -/
def ffdMoves (h w : Nat) (x y : Int) : List Px :=
  let m : List Px := [(x + 1, y), (x - 1, y), (x, y + 1), (x, y - 1)]
  let m := if x ≤ 0 then m.eraseIdx 1
           else if x ≥ (w : Int) - 1 then m.eraseIdx 0 else m
  if y ≤ 0 then m.eraseIdx (m.length - 1)
  else if y ≥ (h : Int) - 1 then m.eraseIdx (m.length - 2) else m

/-- Body of the inner loop of `flood_fill_dic`, `_accelerated.py:147-161`. -/
def ffdVisit (c : FillCfg) (x y : Int) (st : Fill) (q : Px) : Except Err Fill := do
  let g ← rd c.h c.w st.grains q.2 q.1
  if g = 0 then
    (st.push q).put c q.1 q.2
  else if g = -1 ∧ (q.1 > x ∨ q.2 > y) then
    st.put c q.1 q.2
  else
    return st

/-- The `while edge` loop of `flood_fill_dic`, `_accelerated.py:133-161`. -/
def ffdLoop (c : FillCfg) : Nat → Fill → Except Err Fill
  | 0, st => match st.edge with
    | [] => .ok st
    | _ :: _ => .error .fuel
  | k + 1, st => match st.edge with
    | [] => .ok st
    | (x, y) :: rest => do
      let st' ← (ffdMoves c.h c.w x y).foldlM (ffdVisit c x y) { st with edge := rest }
      ffdLoop c k st'

/-- `flood_fill_dic`, `_accelerated.py:101-163`. The boundary images of the
configuration are not used. -/
def floodFillDic (c : FillCfg) (seed : Px) (grains : Img Int) (left : Img Bool)
    (buf : Nat → Px) : Except Err Fill := do
  let st ← ({ grains, left, buf, n := 0, edge := [] } : Fill).put c seed.1 seed.2
  ffdLoop c (c.h * c.w) (st.push seed)

end DefDAP
