import Verif.Model.Oxford
import Verif.Model.Quat

/-!
Model of the writer and the loader of CTF files (`file_writers.py:50-125`, `file_readers.py:101-234`).
Floats are reals when written and rationals when read: the rounding of `float32` is not modelled.
-/

namespace DefDAP

/-- The data given to the writer (`file_writers.py:24-37`). The maps are functions of row and
column; phases and band contrast are the values of `uint8` arrays. -/
structure CtfMap where
  rows : Nat
  cols : Nat
  step : ℝ
  acquisition : Quat ℝ
  phases : List PhaseData
  phase : Nat → Nat → Nat
  contrast : Nat → Nat → Nat
  quat : Nat → Nat → Quat ℝ

/-- `sep.join(parts)` (`file_writers.py:105-110, 123-124`). -/
def joinSep (sep : Char) : List Str → Str
  | [] => []
  | [a] => a
  | a :: t => a ++ sep :: joinSep sep t

/-- Degrees (`file_writers.py:77-79`). -/
noncomputable def deg (x : ℝ) : ℝ := x * (180 / Real.pi)

/-- One phase in the header (`file_writers.py:104-110`). -/
noncomputable def phaseText (p : PhaseData) : Str :=
  joinSep '\t'
    [joinSep ';' [fixedStr 3 (p.lengths 0), fixedStr 3 (p.lengths 1), fixedStr 3 (p.lengths 2)],
     joinSep ';' [fixedStr 3 (p.angles 0 * 180 / Real.pi), fixedStr 3 (p.angles 1 * 180 / Real.pi),
       fixedStr 3 (p.angles 2 * 180 / Real.pi)],
     p.name, intStr p.laue, lit "0", [], [], []]

/-- The header (`file_writers.py:88-113`), line by line. -/
noncomputable def ctfHead (m : CtfMap) : List Str :=
  let acq := m.acquisition.eulerAngles
  [lit "Channel Text File", lit "Prj\t", lit "Author\t", lit "JobMode\tGrid",
   lit "XCells" ++ '\t' :: intStr m.cols, lit "YCells" ++ '\t' :: intStr m.rows,
   lit "XStep" ++ '\t' :: fixedStr 4 m.step, lit "YStep" ++ '\t' :: fixedStr 4 m.step,
   lit "AcqE1" ++ '\t' :: fixedStr 4 (deg acq.1), lit "AcqE2" ++ '\t' :: fixedStr 4 (deg acq.2.1),
   lit "AcqE3" ++ '\t' :: fixedStr 4 (deg acq.2.2),
   lit "Euler angles refer to Sample Coordinate system (CS0)!",
   lit "Phases" ++ '\t' :: intStr m.phases.length] ++
  m.phases.map phaseText ++
  [lit "Phase\tX\tY\tBands\tError\tEuler1\tEuler2\tEuler3\tMAD\tBC\tBS"]

/-- One pixel (`file_writers.py:115-125`). -/
noncomputable def pixelText (m : CtfMap) (r c : Nat) : Str :=
  let e := (m.quat r c).eulerAngles
  joinSep '\t'
    [intStr (m.phase r c), fixedStr 3 (c * m.step), fixedStr 3 (r * m.step), lit "10",
     intStr (if m.phase r c = 0 then 3 else 0), fixedStr 3 (deg e.1), fixedStr 3 (deg e.2.1),
     fixedStr 3 (deg e.2.2), lit "0.0000", intStr (m.contrast r c), lit "0"]

/-- `OxfordTextWriter.write` (`file_writers.py:51-125`): the text written. A file that is there
already is a `FileExistsError`, a kind of `OSError`. -/
noncomputable def writeCtf (fileThere : Bool) (m : CtfMap) : Except Err Str :=
  if fileThere then .error .ioError
  else
    let pixels := (List.range m.rows).flatMap fun r => (List.range m.cols).map (pixelText m r)
    .ok ((ctfHead m ++ pixels).map fun l => l ++ ['\n']).flatten

/-- `Map.save` (`ebsd.py:176-199`): the acquisition rotation of the map is not given to the writer,
which keeps its default, the identity (`file_writers.py:29`). -/
noncomputable def saveCtf (fileThere : Bool) (m : CtfMap) : Except Err Str :=
  writeCtf fileThere { m with acquisition := ⟨1, 0, 0, 0⟩ }

/-! ### Loading -/

/-- Three numbers, as `round(float(s), 3)`. Another count of numbers, which the code passes on to
the phase, is an error here (`file_readers.py:118-121`). -/
noncomputable def parseTriple (s : Str) : Except Err (ℝ × ℝ × ℝ) :=
  match splitSep ';' s with
  | [a, b, c] =>
    (parseRound a).bind fun x => (parseRound b).bind fun y => (parseRound c).bind fun z =>
    .ok (x, y, z)
  | _ => .error .valueError

/-- `l[i]` (`file_readers.py:118-126`). -/
def fieldAt (l : List Str) (i : Nat) : Except Err Str :=
  match l[i]? with
  | some s => .ok s
  | none => .error .indexError

/-- `parse_phase` (`file_readers.py:116-129`). -/
noncomputable def ctfPhase (line : Str) : Except Err PhaseData :=
  let parts := splitSep '\t' line
  ((fieldAt parts 0).bind parseTriple).bind fun d =>
  ((fieldAt parts 1).bind parseTriple).bind fun a =>
  (fieldAt parts 2).bind fun name =>
  ((fieldAt parts 3).bind parseInt).bind fun laue =>
  ((fieldAt parts 4).bind parseInt).bind fun space =>
  makePhase name laue space ![d.1, d.2.1, d.2.2]
    ![a.1 * Real.pi / 180, a.2.1 * Real.pi / 180, a.2.2 * Real.pi / 180]

/-- The loop over phases (`file_readers.py:150-152`): the phases and the lines left. -/
noncomputable def ctfPhases : Nat → List Str → Except Err (List PhaseData × List Str)
  | 0, lines => .ok ([], lines)
  | _ + 1, [] => .error .stopIteration
  | n + 1, line :: lines =>
    (ctfPhase line).bind fun p => (ctfPhases n lines).bind fun r => .ok (p :: r.1, r.2)

/-- What the loop over the header has found so far (`file_readers.py:131-132`). -/
structure CtfState where
  x : Option Int
  y : Option Int
  step : ℚ
  acq1 : ℚ
  acq2 : ℚ
  acq3 : ℚ

/-- The rest of the header after the line with the number of phases, which is line `i`
(`file_readers.py:148-157`): the phases, the column titles and the number of lines. The loop variable
`j`, the last phase, is unbound if there are no phases. -/
noncomputable def ctfTable (i n : Nat) (lines : List Str) :
    Except Err (List PhaseData × Str × Nat) :=
  (ctfPhases n lines).bind fun r =>
  match r.2 with
  | [] => .error .stopIteration
  | header :: _ =>
    match n with
    | 0 => .error .unboundLocalError
    | j + 1 => .ok (r.1, header, i + j + 3)

/-- The loop over the header (`file_readers.py:134-158`). -/
noncomputable def ctfHeader : List Str → Nat → CtfState →
    Except Err (CtfState × Option (List PhaseData × Str × Nat))
  | [], _, s => .ok (s, none)
  | line :: lines, i, s =>
    if hasSub (lit "XCells") line then
      ((lastWord line).bind parseInt).bind fun v => ctfHeader lines (i + 1) { s with x := some v }
    else if hasSub (lit "YCells") line then
      ((lastWord line).bind parseInt).bind fun v => ctfHeader lines (i + 1) { s with y := some v }
    else if hasSub (lit "XStep") line then
      ((lastWord line).bind parseFloat).bind fun v => ctfHeader lines (i + 1) { s with step := v }
    else if hasSub (lit "AcqE1") line then
      ((lastWord line).bind parseFloat).bind fun v => ctfHeader lines (i + 1) { s with acq1 := v }
    else if hasSub (lit "AcqE2") line then
      ((lastWord line).bind parseFloat).bind fun v => ctfHeader lines (i + 1) { s with acq2 := v }
    else if hasSub (lit "AcqE3") line then
      ((lastWord line).bind parseFloat).bind fun v => ctfHeader lines (i + 1) { s with acq3 := v }
    else if hasSub (lit "Phases") line then
      ((lastWord line).bind parseInt).bind fun n =>
      (ctfTable i n.toNat lines).bind fun t => .ok (s, some t)
    else ctfHeader lines (i + 1) s

/-- The known columns (`file_readers.py:168-180`). -/
def columnLookup : List (Str × Str × FieldType) :=
  [(lit "Phase", lit "phase", .uint8), (lit "X", lit "x", .float32), (lit "Y", lit "y", .float32),
   (lit "Bands", lit "numBands", .uint8), (lit "Error", lit "error", .uint8),
   (lit "Euler1", lit "ph1", .float32), (lit "Euler2", lit "phi", .float32),
   (lit "Euler3", lit "ph2", .float32), (lit "MAD", lit "MAD", .float32),
   (lit "BC", lit "BC", .uint8), (lit "BS", lit "BS", .uint8)]

/-- The columns that are kept (`file_readers.py:182`). -/
def keptColumns : List Str :=
  [lit "phase", lit "ph1", lit "phi", lit "ph2", lit "BC", lit "BS", lit "MAD"]

/-- The columns to load (`file_readers.py:183-191`), with their positions; `i` is the position of
the first title. An unknown title is a `TypeError`. -/
def loadColumns : Nat → List Str → Except Err (List (Nat × Str × FieldType))
  | _, [] => .ok []
  | i, title :: titles =>
    match strGet columnLookup title with
    | .error _ => .error .typeError
    | .ok f =>
      (loadColumns (i + 1) titles).bind fun r =>
      if f.1 ∈ keptColumns then .ok ((i, f) :: r) else .ok r

/-- One value of the table. A `uint8` must be an integer from 0 to 255 (`file_readers.py:168-180,
195-198`). -/
def parseCell (t : FieldType) (s : Str) : Except Err ℚ :=
  match t with
  | .float32 => parseFloat s
  | .uint8 => (parseInt s).bind fun z => if 0 ≤ z ∧ z < 256 then .ok (z : ℚ) else .error .valueError

/-- One value of a row; a missing column is a `ValueError` (`file_readers.py:195-198`). -/
def rowCell (words : List Str) (f : Nat × Str × FieldType) : Except Err ℚ :=
  match words[f.1]? with
  | some w => parseCell f.2.2 w
  | none => .error .valueError

/-- `np.loadtxt` (`file_readers.py:195-198`): what follows a `#` and empty lines are ignored. -/
def tableRows (cols : List (Nat × Str × FieldType)) : List Str → Except Err (List (List ℚ))
  | [] => .ok []
  | line :: lines =>
    let words := splitWs (line.takeWhile fun c => decide (c ≠ '#'))
    if words.isEmpty then tableRows cols lines
    else
      (cols.mapM (rowCell words)).bind fun row =>
      (tableRows cols lines).bind fun rows => .ok (row :: rows)

/-- `data[name].reshape(shape)`; a missing column is an error (the kind is not told apart)
(`file_readers.py:201-230`). -/
def tableColumn (cols : List (Nat × Str × FieldType)) (table : List (List ℚ)) (rows cs : Int)
    (name : Str) : Except Err (List ℚ) :=
  if name ∈ cols.map (fun f => f.2.1) then
    if (table.length : Int) = rows * cs ∧ 0 ≤ rows ∧ 0 ≤ cs then
      .ok (table.map fun r => r.getD ((cols.map fun f => f.2.1).idxOf name) 0)
    else .error .valueError
  else .error .valueError

/-- The loaded map; arrays in row-major order. `skipped` is the number of header lines
(`file_readers.py:159-163, 200-232`). -/
structure CtfData where
  rows : Int
  cols : Int
  step : ℚ
  acquisition : Quat ℝ
  phases : List PhaseData
  skipped : Nat
  phase : List ℚ
  contrast : List ℚ
  slope : List ℚ
  mad : List ℚ
  euler : List (ℝ × ℝ × ℝ)

/-- An unbound variable (`file_readers.py:159`). -/
def bound {α : Type} : Option α → Except Err α
  | some a => .ok a
  | none => .error .unboundLocalError

/-- Degrees to radians (`file_readers.py:231`). -/
noncomputable def radians (e1 e2 e3 : List ℚ) : List (ℝ × ℝ × ℝ) :=
  (e1.zip (e2.zip e3)).map fun e =>
    ((e.1 : ℝ) * (Real.pi / 180), (e.2.1 : ℝ) * (Real.pi / 180), (e.2.2 : ℝ) * (Real.pi / 180))

/-- `OxfordTextLoader.load` (`file_readers.py:102-234`) on the text of a file. -/
noncomputable def loadCtf (text : Str) : Except Err CtfData :=
  let lines := linesOf text
  (ctfHeader lines 0 ⟨none, none, 0, 0, 0, 0⟩).bind fun h =>
  (bound h.1.y).bind fun y =>
  (bound h.1.x).bind fun x =>
  (bound h.2).bind fun t =>
  (loadColumns 0 (splitWs t.2.1)).bind fun cols =>
  (makeDtype (cols.map fun f => f.2)).bind fun _ =>
  (tableRows cols (lines.drop t.2.2)).bind fun table =>
  (tableColumn cols table y x (lit "BC")).bind fun bc =>
  (tableColumn cols table y x (lit "BS")).bind fun bs =>
  (tableColumn cols table y x (lit "MAD")).bind fun mad =>
  (tableColumn cols table y x (lit "phase")).bind fun ph =>
  (tableColumn cols table y x (lit "ph1")).bind fun e1 =>
  (tableColumn cols table y x (lit "phi")).bind fun e2 =>
  (tableColumn cols table y x (lit "ph2")).bind fun e3 =>
  .ok ⟨y, x, h.1.step,
    Quat.fromEuler (h.1.acq1 * Real.pi / 180) (h.1.acq2 * Real.pi / 180)
      (h.1.acq3 * Real.pi / 180), t.1, t.2.2, ph, bc, bs, mad, radians e1 e2 e3⟩

end DefDAP
