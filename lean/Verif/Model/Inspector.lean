import Verif.Model.Text

/-!
Model of the lines and groups of the grain inspector (`inspector.py:135-246, 602-669`). Stored
angles and coordinates are rationals: they are rounded to two decimals when made. Lists of Python
with a fixed meaning for each position are structures. Drawing is not modelled.
-/

namespace DefDAP

/-- `float("{:.2f}".format(x))`: the decimal is taken as exact (`inspector.py:158-159, 200, 217`).
-/
def round2 {K : Type} [Field K] [LinearOrder K] [FloorRing K] (x : K) : ℚ :=
  (npRound (x * 100) : ℚ) / 100

/-- A line (`inspector.py:162`): its points, its angle in degrees, its group; `fromNumpy` tells that
the group is a numpy integer. -/
structure SlipLine where
  points : List ℚ
  angle : ℚ
  group : Int
  fromNumpy : Bool := false
  deriving DecidableEq

/-- A group (`inspector.py:193`): id, angle, slip planes, their deviations, and the RDR, `none` for
the integer 0 of a new group. The first four positions of a new group are overwritten before the
end of the function; the planes and deviations, 0 until then, are empty here. -/
structure SlipGroup where
  id : Int
  angle : ℚ
  planes : List Nat
  deviation : List ℚ
  rdr : Option ℚ
  deriving DecidableEq

/-- The lines and groups of a grain (`hrdic.py:765-766`). -/
structure LineState where
  lines : List SlipLine
  groups : List SlipGroup
  deriving DecidableEq

/-- The angle of a drawn line before rounding (`inspector.py:148-155`). -/
noncomputable def lineAngle (correction : ℝ) (p1 p2 : ℝ × ℝ) : ℝ :=
  let a := 90 - Quat.arctan2 (p2.2 - p1.2) (p2.1 - p1.1) * 180 / Real.pi
  let b := open Classical in if a > 180 then a - 180 else if a < 0 then a + 180 else a
  b - correction

/-- The line stored (`inspector.py:158-162`). -/
noncomputable def drawnLine (correction : ℝ) (p1 p2 : ℝ × ℝ) : SlipLine :=
  ⟨[round2 p1.1, round2 p1.2, round2 p2.1, round2 p2.2], round2 (lineAngle correction p1 p2), -1,
    false⟩

/-- `np.argmin`: the first position of the smallest entry (`inspector.py:198`). -/
def argMin (l : List ℚ) : Nat := l.findIdx fun x => l.all fun y => decide (x ≤ y)

/-- The average over a group (`inspector.py:200-201`), over all lines marked with its id now. -/
def groupMean (lines : List SlipLine) (g : Int) : ℚ :=
  let m := (lines.filter fun l => decide (l.group = g)).map SlipLine.angle
  m.sum / m.length

/-- The loop variables of `group_lines` (`inspector.py:189-207`). -/
structure GroupVars where
  lines : List SlipLine
  groups : List SlipGroup
  next : Nat

/-- A new group (`inspector.py:193, 205`). -/
def newGroup (id : Nat) (angle : ℚ) : SlipGroup := ⟨id, angle, [], [], none⟩

/-- One line (`inspector.py:189-207`). -/
def groupStep (st : GroupVars) (i : Nat) : GroupVars :=
  match st.lines[i]? with
  | none => st
  | some line =>
    if i = 0 then
      ⟨st.lines.set i { line with group := 0, fromNumpy := false }, [newGroup 0 line.angle], 1⟩
    else
      let d := st.groups.map fun g => |g.angle - line.angle|
      if d.any fun x => decide (x < 10) then
        let g := argMin d
        let lines := st.lines.set i { line with group := g, fromNumpy := true }
        ⟨lines, st.groups.modify g fun x => { x with angle := round2 (groupMean lines g) }, st.next⟩
      else
        ⟨st.lines.set i { line with group := st.next, fromNumpy := false },
          st.groups ++ [newGroup st.next line.angle], st.next + 1⟩

/-- All lines (`inspector.py:189`). -/
def groupLoop (lines : List SlipLine) (groups : List SlipGroup) : GroupVars :=
  (List.range lines.length).foldl groupStep ⟨lines, groups, 0⟩

/-- The slip planes of a group (`inspector.py:210-219`); `traces` are the theoretical angles in
degrees. -/
noncomputable def activePlanes (traces : List ℝ) (g : SlipGroup) : SlipGroup :=
  let near := traces.zipIdx.filter fun t =>
    (open Classical in decide (t.1 - 5 < (g.angle : ℝ) ∧ (g.angle : ℝ) < t.1 + 5))
  { g with
    planes := near.map Prod.snd
    deviation := near.map fun t => round2 ((g.angle : ℝ) - t.1) }

/-- `group_lines` (`inspector.py:168-219`). -/
noncomputable def groupLines (traces : List ℝ) (st : LineState) : LineState :=
  if st.lines = [] then ⟨st.lines, []⟩
  else
    let v := groupLoop st.lines st.groups
    ⟨v.lines, v.groups.map (activePlanes traces)⟩

/-- `save_line` (`inspector.py:135-166`). -/
noncomputable def saveLine (correction : ℝ) (traces : List ℝ) (p1 p2 : ℝ × ℝ) (st : LineState) :
    LineState :=
  groupLines traces ⟨st.lines ++ [drawnLine correction p1 p2], st.groups⟩

/-- `clear_all_lines` (`inspector.py:221-230`). -/
def clearLines : LineState := ⟨[], []⟩

/-- The position that an index means in a list of length `n` (`inspector.py:131, 244`). -/
def pyIndex (n : Nat) (i : Int) : Except Err Nat :=
  if 0 ≤ i ∧ i < n then .ok i.toNat
  else if i < 0 ∧ -(n : Int) ≤ i then .ok (i + n).toNat
  else .error .indexError

/-- `remove_line` (`inspector.py:232-246`). -/
noncomputable def removeLine (traces : List ℝ) (i : Int) (st : LineState) : Except Err LineState :=
  (pyIndex st.lines.length i).bind fun k =>
    .ok (groupLines traces ⟨st.lines.eraseIdx k, st.groups⟩)

end DefDAP
