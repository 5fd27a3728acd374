import Verif.Model.Inspector

/-!
Model of the file of the grain inspector (`inspector.py:602-669`) as text. What lines and groups
hold are Python values: numbers and lists. The text of a float is that of `repr`, which Python
guarantees to be read back as the same float; it is a parameter here.
-/

namespace DefDAP

/-- The text of finite floats and the reading of one (`inspector.py:624, 627, 662, 667`). -/
structure FloatText (F : Type) where
  repr : F → Str
  parse : Str → Option F

/-- Python values; `npInt` and `npFlt` are numpy scalars (`inspector.py:162, 193, 199, 433`). -/
inductive PyVal (F : Type) where
  | int (z : Int)
  | npInt (z : Int)
  | flt (x : F)
  | npFlt (x : F)
  | list (l : List (PyVal F))

mutual
/-- `repr(v)`, and `str(v)` for lists. From numpy 2 on scalars are written with their type (`np2`);
the name does not matter here (`inspector.py:624, 627`). -/
def reprVal {F : Type} (T : FloatText F) (np2 : Bool) : PyVal F → Str
  | .int z => intStr z
  | .npInt z => if np2 then lit "np.int64(" ++ intStr z ++ [')'] else intStr z
  | .flt x => T.repr x
  | .npFlt x => if np2 then lit "np.float64(" ++ T.repr x ++ [')'] else T.repr x
  | .list l => '[' :: reprItems T np2 l
/-- The entries of a list and the closing bracket (`inspector.py:624, 627`). -/
def reprItems {F : Type} (T : FloatText F) (np2 : Bool) : List (PyVal F) → Str
  | [] => [']']
  | v :: l => reprVal T np2 v ++ reprTail T np2 l
/-- The entries after the first (`inspector.py:624, 627`). -/
def reprTail {F : Type} (T : FloatText F) (np2 : Bool) : List (PyVal F) → Str
  | [] => [']']
  | v :: l => lit ", " ++ (reprVal T np2 v ++ reprTail T np2 l)
end

/-- Characters of a number (`inspector.py:662, 667`). -/
def isNumLit (c : Char) : Bool := isDig c || c = '-' || c = '+' || c = '.' || c = 'e'

/-- Blanks (`inspector.py:662, 667`). -/
def skipSp (s : Str) : Str := s.dropWhile fun c => decide (c = ' ')

/-- A number at the start of a text (`inspector.py:662, 667`). -/
def readNumber {F : Type} (T : FloatText F) (s : Str) : Option (PyVal F × Str) :=
  let tok := s.takeWhile isNumLit
  let rest := s.dropWhile isNumLit
  match parseInt tok with
  | .ok z => some (.int z, rest)
  | .error _ => (T.parse tok).map fun x => (.flt x, rest)

mutual
/-- A value at the start of a text; `fuel` bounds the nesting and the number of entries
(`inspector.py:662, 667`). -/
def readVal {F : Type} (T : FloatText F) : Nat → Str → Option (PyVal F × Str)
  | 0, _ => none
  | n + 1, s =>
    match skipSp s with
    | '[' :: t =>
      match skipSp t with
      | ']' :: r => some (.list [], r)
      | r => (readItems T n r).map fun p => (.list p.1, p.2)
    | r => readNumber T r
/-- The entries of a list (`inspector.py:662, 667`). -/
def readItems {F : Type} (T : FloatText F) : Nat → Str → Option (List (PyVal F) × Str)
  | 0, _ => none
  | n + 1, s =>
    (readVal T n s).bind fun p =>
      match skipSp p.2 with
      | ',' :: r => (readItems T n (skipSp r)).map fun q => (p.1 :: q.1, q.2)
      | ']' :: r => some ([p.1], r)
      | _ => none
end

/-- `ast.literal_eval(s)` for numbers and lists; strings, tuples, trailing commas and the like are
left out, and a `SyntaxError` is a `ValueError` here (`inspector.py:662, 667`). -/
def literalEval {F : Type} (T : FloatText F) (s : Str) : Except Err (PyVal F) :=
  match readVal T (s.length + 1) s with
  | some (v, r) => if r.all isWs then .ok v else .error .valueError
  | none => .error .valueError

/-- The lists of a grain (`hrdic.py:765-766`). -/
structure InspGrain (F : Type) where
  points : List (PyVal F)
  groups : List (PyVal F)

/-- The first lines (`inspector.py:613-617`). -/
def inspHeader : Str :=
  lit "# This is a file generated by defdap which contains " ++
  lit "definitions of slip lines drawn in grains by grainInspector\n" ++
  lit "# [(x0, y0, x1, y1), angle, groupID]\n" ++
  lit "# and groups of lines, defined by an average angle and identified sip plane\n" ++
  lit "# [groupID, angle, [slip plane id], [angular deviation]\n\n"

/-- One grain (`inspector.py:619-628`). -/
def grainText {F : Type} (T : FloatText F) (np2 : Bool) (i : Nat) (g : InspGrain F) : Str :=
  if g.points.isEmpty then []
  else
    lit "Grain " ++ natStr i ++ ['\n'] ++
    (natStr g.points.length ++ lit " Lines\n") ++
    (g.points.map fun p => reprVal T np2 p ++ ['\n']).flatten ++
    (natStr g.groups.length ++ lit " Groups\n") ++
    (g.groups.map fun p => reprVal T np2 p ++ ['\n']).flatten ++
    ['\n']

/-- `save_file` (`inspector.py:602-628`): the text written. -/
def saveInsp {F : Type} (T : FloatText F) (np2 : Bool) (m : List (InspGrain F)) : Str :=
  inspHeader ++ (m.zipIdx.map fun p => grainText T np2 p.2 p.1).flatten

/-- The variables of the first loop of `load_file`; unset ones are `none` (`inspector.py:645-655`).
-/
structure InspScan where
  start : Option Nat
  grain : Option Int
  numLines : Option Int
  index : List (Nat × Int × Int × Int)

/-- `s.split(' ')[0]`, read as an integer (`inspector.py:652, 654`). -/
def firstInt (s : Str) : Except Err Int := parseInt ((splitSep ' ' s).headD [])

/-- `s.split(' ')[-1]`, read as an integer (`inspector.py:649`). -/
def lastInt (s : Str) : Except Err Int := parseInt ((splitSep ' ' s).getLastD [])

/-- A line with the word `Grain` (`inspector.py:648-650`). -/
def scanGrain (i : Nat) (line : Str) (st : InspScan) : Except Err InspScan :=
  if hasSub (lit "Grain") line then
    (lastInt line).bind fun g => .ok { st with start := some i, grain := some g }
  else .ok st

/-- A line with the word `Lines` (`inspector.py:651-652`). -/
def scanLines (line : Str) (st : InspScan) : Except Err InspScan :=
  if hasSub (lit "Lines") line then
    (firstInt line).bind fun n => .ok { st with numLines := some n }
  else .ok st

/-- The entry of the index (`inspector.py:655`). -/
def scanEntry (n : Int) (st : InspScan) : Except Err InspScan :=
  match st.start, st.grain, st.numLines with
  | some s, some g, some l => .ok { st with index := st.index ++ [(s, g, l, n)] }
  | _, _, _ => .error .unboundLocalError

/-- A line with the word `Groups` (`inspector.py:653-655`). -/
def scanGroups (line : Str) (st : InspScan) : Except Err InspScan :=
  if hasSub (lit "Groups") line then (firstInt line).bind fun n => scanEntry n st
  else .ok st

/-- One line of the file (`inspector.py:646-655`). -/
def scanLine (st : InspScan) (p : Str × Nat) : Except Err InspScan :=
  if p.1.head? ≠ some '#' ∧ 1 < p.1.length then
    (scanGrain p.2 p.1 st).bind fun st => (scanLines p.1 st).bind fun st => scanGroups p.1 st
  else .ok st

/-- The index (`inspector.py:643-655`). -/
def scanFile (lines : List Str) : Except Err InspScan :=
  lines.zipIdx.foldlM scanLine ⟨none, none, none, []⟩

/-- Values from lines (`inspector.py:661-662`). -/
def evalLines {F : Type} (T : FloatText F) : List Str → Except Err (List (PyVal F))
  | [] => .ok []
  | l :: t =>
    (literalEval T ((splitSep '\\' l).headD [])).bind fun v =>
      (evalLines T t).bind fun vs => .ok (v :: vs)

/-- `lines[a:a + n]`; counts below zero, which are never written, give nothing here
(`inspector.py:660, 665`). -/
def sliceLines (lines : List Str) (a n : Int) : List Str := (lines.drop a.toNat).take n.toNat

/-- One entry of the index (`inspector.py:658-667`). On an error what was read of the entry before
it would stay in the grain. The grain is looked up when there is a line to store. -/
def loadEntry {F : Type} (T : FloatText F) (lines : List Str) (m : List (InspGrain F))
    (e : Nat × Int × Int × Int) : Except Err (List (InspGrain F)) :=
  (pyIndex m.length e.2.1).bind fun k =>
  (evalLines T (sliceLines lines (e.1 + 2) e.2.2.1)).bind fun ps =>
  (evalLines T (sliceLines lines (e.1 + 3 + e.2.2.1) e.2.2.2)).bind fun gs =>
  .ok (m.modify k fun g => ⟨g.points ++ ps, g.groups ++ gs⟩)

/-- `load_file` (`inspector.py:630-667`) into the grains of a map. -/
def loadInsp {F : Type} (T : FloatText F) (text : Str) (m : List (InspGrain F)) :
    Except Err (List (InspGrain F)) :=
  let lines := linesOf text
  (scanFile lines).bind fun st => st.index.foldlM (loadEntry T lines) m

/-- A line as the value stored (`inspector.py:162, 192, 199, 206`), given the floats of its
numbers. -/
def lineVal {F : Type} (f : ℚ → F) (l : SlipLine) : PyVal F :=
  .list [.list (l.points.map fun q => .flt (f q)), .flt (f l.angle),
    if l.fromNumpy then .npInt l.group else .int l.group]

/-- The RDR of a group (`inspector.py:193, 205, 433`). -/
def rdrVal {F : Type} (f : ℚ → F) : Option ℚ → PyVal F
  | none => .int 0
  | some q => .npFlt (f q)

/-- A group as the value stored (`inspector.py:193, 205, 209-219`). -/
def groupVal {F : Type} (f : ℚ → F) (g : SlipGroup) : PyVal F :=
  .list [.int g.id, .flt (f g.angle), .list (g.planes.map fun n => .int (n : Int)),
    .list (g.deviation.map fun q => .flt (f q)), rdrVal f g.rdr]

/-- The lists of a grain from its lines and groups (`hrdic.py:765-766`). -/
def stateVal {F : Type} (f : ℚ → F) (st : LineState) : InspGrain F :=
  ⟨st.lines.map (lineVal f), st.groups.map (groupVal f)⟩

end DefDAP
