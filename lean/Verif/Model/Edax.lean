import Verif.Model.Ctf

/-!
Model of the loader of EDAX text files (`file_readers.py:237-376`). Floats of the text are rationals,
angles are reals.
-/

namespace DefDAP

/-- `l[i]` with an `IndexError`, then a conversion (`file_readers.py:264, 277-284, 354-356`). -/
def wordAt {α : Type} (conv : Str → Except Err α) (words : List Str) (i : Nat) : Except Err α :=
  (fieldAt words i).bind conv

/-- The variables of `parse_phase` (`file_readers.py:349-376`). -/
structure EdaxPhase where
  name : Option Str
  groups : Option (Int × Int)
  lattice : Option ((ℝ × ℝ × ℝ) × (ℝ × ℝ × ℝ))

/-- The Laue and space groups of a point group (`file_readers.py:356-367`). The space group of
hexagonal phases is `None`, here 0. -/
def edaxGroups (s : Str) : Except Err (Int × Int) :=
  if s = lit "43" ∨ s = lit "m3m" then .ok (11, 229)
  else if s = lit "6/mmm" then .ok (9, 0)
  else .error .valueError

/-- `tuple(round(float(s), 3) for s in words[i:i + 3])`. Fewer than three words, which the code
passes on, are an error here (`file_readers.py:369-373`). -/
noncomputable def roundedWords (words : List Str) (i : Nat) : Except Err (ℝ × ℝ × ℝ) :=
  (wordAt parseRound words i).bind fun a =>
  (wordAt parseRound words (i + 1)).bind fun b =>
  (wordAt parseRound words (i + 2)).bind fun c => .ok (a, b, c)

/-- The second `if` of the loop (`file_readers.py:355-374`). -/
noncomputable def edaxPhaseRest (p : EdaxPhase) (words : List Str) (key : Str) :
    Except Err EdaxPhase :=
  if key = lit "Symmetry" then
    (wordAt edaxGroups words 1).bind fun g => .ok { p with groups := some g }
  else if key = lit "LatticeConstants" then
    (roundedWords words 1).bind fun d =>
    (roundedWords words 4).bind fun a => .ok { p with lattice := some (d, a) }
  else .ok p

/-- One line of `parse_phase` (`file_readers.py:350-374`). -/
noncomputable def edaxPhaseLine (p : EdaxPhase) (line : Str) : Except Err EdaxPhase :=
  let words := splitWs line
  (fieldAt words 0).bind fun key =>
  (if key = lit "MaterialName" then
    (fieldAt words 1).bind fun n => .ok { p with name := some n }
   else .ok p).bind fun p => edaxPhaseRest p words key

/-- `parse_phase` (`file_readers.py:348-376`). -/
noncomputable def edaxPhase (lines : List Str) : Except Err PhaseData :=
  (lines.foldlM edaxPhaseLine ⟨none, none, none⟩).bind fun p =>
  (bound p.name).bind fun name =>
  (bound p.groups).bind fun g =>
  (bound p.lattice).bind fun l =>
  makePhase name g.1 g.2 ![l.1.1, l.1.2.1, l.1.2.2]
    ![l.2.1 * Real.pi / 180, l.2.2.1 * Real.pi / 180, l.2.2.2 * Real.pi / 180]

/-- The variables of the header (`file_readers.py:251-284`). -/
structure EdaxState where
  phases : List PhaseData
  step : ℚ
  x : Option Int
  y : Option Int

/-- The header lines other than phases (`file_readers.py:276-284`). -/
def edaxKey (s : EdaxState) (line : Str) : Except Err EdaxState :=
  if (lit "GRID").isPrefixOf line then
    (lastWord line).bind fun w => if w = lit "SqrGrid" then .ok s else .error .valueError
  else if (lit "XSTEP").isPrefixOf line then
    ((lastWord line).bind parseFloat).bind fun v => .ok { s with step := v }
  else if (lit "NCOLS_ODD").isPrefixOf line then
    ((lastWord line).bind parseInt).bind fun v => .ok { s with x := some v }
  else if (lit "NROWS").isPrefixOf line then
    ((lastWord line).bind parseInt).bind fun v => .ok { s with y := some v }
  else .ok s

/-- The loop over the header (`file_readers.py:253-284`). Phases are numbered from one. Comments
within a phase start with `*`, the default of `read_until_string`. -/
noncomputable def edaxHeader (file : List Str) : Nat → Nat → EdaxState → Except Err EdaxState
  | 0, _, _ => .error .fuel
  | fuel + 1, pos, s =>
    match lineAt file pos with
    | none => .ok s
    | some line =>
      if ['#'].isPrefixOf line then
        let text := strip (line.drop 1)
        if (lit "Phase").isPrefixOf text then
          (wordAt parseInt (splitWs text) 1).bind fun n =>
          if n = (s.phases.length : Int) + 1 then
            (readUntil file ['#'] '*' true (fun l => strip (l.drop 1)) (file.length + 1)
              (pos + 1) []).bind fun r =>
            (edaxPhase r.1).bind fun p =>
            edaxHeader file fuel r.2 { s with phases := s.phases ++ [p] }
          else .error .valueError
        else (edaxKey s text).bind fun s' => edaxHeader file fuel (pos + 1) s'
      else .ok s

/-- The fields of the data (`file_readers.py:292-303`) with the columns (`file_readers.py:304`) they
are read from; there are eight columns for seven fields. -/
def edaxCols : List (Nat × Str × FieldType) :=
  [(0, lit "ph1", .float32), (1, lit "phi", .float32), (2, lit "ph2", .float32),
   (5, lit "IQ", .float32), (6, lit "CI", .float32), (7, lit "phase", .uint8),
   (8, lit "FF", .float32)]

/-- A row of the table: all eight columns must be there (`file_readers.py:304, 307-310`). -/
def edaxRow (words : List Str) : Except Err (List ℚ) :=
  (fieldAt words 9).bind fun _ => edaxCols.mapM (rowCell words)

/-- The rows of the table, as numpy before 1.23 reads them: it takes as many columns as there are
fields (`file_readers.py:307-310`). -/
def edaxRows : List Str → Except Err (List (List ℚ))
  | [] => .ok []
  | line :: lines =>
    let words := splitWs (line.takeWhile fun c => decide (c ≠ '#'))
    if words.isEmpty then edaxRows lines
    else (edaxRow words).bind fun row => (edaxRows lines).bind fun rows => .ok (row :: rows)

/-- `np.loadtxt` (`file_readers.py:307-310`): from version 1.23 on, numpy is strict about the number
of columns, a `TypeError`. -/
def edaxTable (strict : Bool) (lines : List Str) : Except Err (List (List ℚ)) :=
  if strict then .error .typeError else edaxRows lines

/-- `phase + 1` on `uint8` (`file_readers.py:336`). -/
def nextPhase (q : ℚ) : ℚ := if q = 255 then 0 else q + 1

/-- The first Euler angle (`file_readers.py:342-343`). -/
noncomputable def edaxAngle (a : ℝ) : ℝ :=
  open Classical in
  if a - Real.pi / 2 < 0 then a - Real.pi / 2 + 2 * Real.pi else a - Real.pi / 2

/-- The loaded map; arrays in row-major order (`file_readers.py:286-344`). -/
structure EdaxData where
  rows : Int
  cols : Int
  step : ℚ
  phases : List PhaseData
  quality : List ℚ
  confidence : List ℚ
  fit : List ℚ
  phase : List ℚ
  euler : List (ℝ × ℝ × ℝ)

/-- The Euler angles (`file_readers.py:340-344`). -/
noncomputable def edaxEuler (e1 e2 e3 : List ℚ) : List (ℝ × ℝ × ℝ) :=
  (e1.zip (e2.zip e3)).map fun e => (edaxAngle (e.1 : ℝ), (e.2.1 : ℝ), (e.2.2 : ℝ))

/-- `EdaxAngLoader.load` (`file_readers.py:238-346`) on the text of a file. -/
noncomputable def loadEdax (strict : Bool) (text : Str) : Except Err EdaxData :=
  let file := linesOf text
  (edaxHeader file (file.length + 1) 0 ⟨[], 0, none, none⟩).bind fun s =>
  (bound s.y).bind fun y =>
  (bound s.x).bind fun x =>
  (edaxTable strict file).bind fun table =>
  (tableColumn edaxCols table y x (lit "IQ")).bind fun iq =>
  (tableColumn edaxCols table y x (lit "CI")).bind fun ci =>
  (tableColumn edaxCols table y x (lit "FF")).bind fun ff =>
  (tableColumn edaxCols table y x (lit "phase")).bind fun ph =>
  (tableColumn edaxCols table y x (lit "ph1")).bind fun e1 =>
  (tableColumn edaxCols table y x (lit "phi")).bind fun e2 =>
  (tableColumn edaxCols table y x (lit "ph2")).bind fun e3 =>
  .ok ⟨y, x, s.step, s.phases, iq, ci, ff, ph.map nextPhase, edaxEuler e1 e2 e3⟩

end DefDAP
