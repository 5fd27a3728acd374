import Verif.Model.Text

/-!
Model of the loader of Oxford binary files (`file_readers.py:379-571`): the metadata of the CPR file
and the records of the CRC file. Bytes are elements of a type `β`; a `float32` is kept as its four
bytes. Numbers in the text are rationals.
-/

namespace DefDAP

/-- `d[key]` (`file_readers.py:440-463, 496-498`). -/
def strGet {α : Type} (d : List (Str × α)) (key : Str) : Except Err α :=
  match d.find? fun kv => decide (kv.1 = key) with
  | some kv => .ok kv.2
  | none => .error .keyError

/-- The types of fields (`file_readers.py:482-493`). -/
inductive FieldType where
  | uint8 | float32
deriving DecidableEq, Repr

/-- The bytes of a field (`file_readers.py:482-493, 505`). -/
def FieldType.size : FieldType → Nat
  | .uint8 => 1
  | .float32 => 4

/-- A phase as the loaders make it (`crystal.py:25-51`). Slip systems are modelled in `Crystal`. -/
structure PhaseData where
  name : Str
  laue : Int
  space : Int
  lengths : Fin 3 → ℝ
  angles : Fin 3 → ℝ

/-- `Phase(...)`: an unknown Laue group is a `ValueError` (`crystal.py:45-51`). -/
noncomputable def makePhase (name : Str) (laue space : Int) (lengths angles : Fin 3 → ℝ) :
    Except Err PhaseData :=
  if laue = 9 ∨ laue = 11 then .ok ⟨name, laue, space, lengths, angles⟩ else .error .valueError

/-- `round(float(s), 3)` (`file_readers.py:458-463`). -/
noncomputable def parseRound (s : Str) : Except Err ℝ :=
  (parseFloat s).bind fun q => .ok (pyRound 3 (q : ℝ))

/-- `int(d[key])` (`file_readers.py:440-441, 449, 455, 472`). -/
def intAt (d : List (Str × Str)) (key : String) : Except Err Int := (strGet d (lit key)).bind parseInt

/-- `float(d[key])` (`file_readers.py:443, 445-447`). -/
def floatAt (d : List (Str × Str)) (key : String) : Except Err ℚ :=
  (strGet d (lit key)).bind parseFloat

/-- `round(float(d[key]), 3)` (`file_readers.py:458-463`). -/
noncomputable def roundAt (d : List (Str × Str)) (key : String) : Except Err ℝ :=
  (strGet d (lit key)).bind parseRound

/-- `int(d.get('SpaceGroup', 0))` (`file_readers.py:456`). -/
def spaceAt (d : List (Str × Str)) : Except Err Int :=
  match d.find? fun kv => decide (kv.1 = lit "SpaceGroup") with
  | some kv => parseInt kv.2
  | none => .ok 0

/-- One phase of a CPR file (`file_readers.py:452-465`). -/
noncomputable def cprPhase (d : List (Str × Str)) : Except Err PhaseData :=
  (strGet d (lit "StructureName")).bind fun name =>
  (intAt d "LaueGroup").bind fun laue =>
  (spaceAt d).bind fun space =>
  (roundAt d "a").bind fun a =>
  (roundAt d "b").bind fun b =>
  (roundAt d "c").bind fun c =>
  (roundAt d "alpha").bind fun al =>
  (roundAt d "beta").bind fun be =>
  (roundAt d "gamma").bind fun ga =>
  makePhase name laue space ![a, b, c]
    ![al * Real.pi / 180, be * Real.pi / 180, ga * Real.pi / 180]

/-- `'Phase{:}'.format(n)` and similar keys (`file_readers.py:452, 475, 497`). -/
def numbered (key : String) (n : Nat) : Str := lit key ++ natStr n

/-- The known fields (`file_readers.py:483-493`). -/
def fieldLookup (id : Int) : Option (Str × FieldType) :=
  if id = 3 then some (lit "ph1", .float32)
  else if id = 4 then some (lit "phi", .float32)
  else if id = 5 then some (lit "ph2", .float32)
  else if id = 6 then some (lit "MAD", .float32)
  else if id = 7 then some (lit "BC", .uint8)
  else if id = 8 then some (lit "BS", .uint8)
  else if id = 10 then some (lit "numBands", .uint8)
  else if id = 11 then some (lit "AFI", .uint8)
  else if id = 12 then some (lit "IB6", .float32)
  else none

/-- With the EDX windows (`file_readers.py:468-476, 494`): window `i` is field `100 + i`. -/
def fieldOf (windows : List Str) (id : Int) : Option (Str × FieldType) :=
  if 101 ≤ id ∧ id ≤ 100 + windows.length then
    (windows[(id - 101).toNat]?).map fun w => (lit "EDX " ++ w, .float32)
  else fieldLookup id

/-- The handler of the `KeyError` (`file_readers.py:499-503`). It prints the last field number,
which is unbound if none was read. It is outside of the loop, which has ended. -/
def unknownField (last : Option Int) (fmt : List (Str × FieldType)) :
    Except Err (List (Str × FieldType)) :=
  match last with
  | none => .error .unboundLocalError
  | some _ => .ok (fmt ++ [(lit "unknown_1", .float32)])

/-- The loop over fields (`file_readers.py:496-498`): `n` fields are left, `i` were read. -/
def fieldLoop (windows : List Str) (fields : List (Str × Str)) :
    Nat → Nat → Option Int → List (Str × FieldType) → Except Err (List (Str × FieldType))
  | 0, _, _, fmt => .ok fmt
  | n + 1, i, last, fmt =>
    match strGet fields (numbered "Field" (i + 1)) with
    | .error _ => unknownField last fmt
    | .ok s =>
      (parseInt s).bind fun id =>
      match fieldOf windows id with
      | some f => fieldLoop windows fields n (i + 1) (some id) (fmt ++ [f])
      | none => unknownField (some id) fmt

/-- `data_format` (`file_readers.py:480-503`). -/
def fieldFormat (windows : List Str) (metadata : List (Str × List (Str × Str))) :
    Except Err (List (Str × FieldType)) :=
  let start : List (Str × FieldType) := [(lit "phase", .uint8)]
  match (strGet metadata (lit "Fields")).bind fun f => strGet f (lit "Count") with
  | .error _ => unknownField none start
  | .ok s =>
    (parseInt s).bind fun n =>
    (strGet metadata (lit "Fields")).bind fun f => fieldLoop windows f n.toNat 0 none start

/-- `np.dtype(data_format)` (`file_readers.py:505`): names must differ. -/
def makeDtype (fmt : List (Str × FieldType)) : Except Err (List (Str × FieldType)) :=
  if (fmt.map fun f => f.1).Nodup then .ok fmt else .error .valueError

/-- What the CPR file gives (`file_readers.py:440-505`). -/
structure CprData where
  rows : Int
  cols : Int
  step : ℚ
  acquisition : ℚ × ℚ × ℚ
  phases : List PhaseData
  windows : List Str
  format : List (Str × FieldType)

/-- The EDX windows (`file_readers.py:468-476`). -/
def edxWindows (metadata : List (Str × List (Str × Str))) : Except Err (List Str) :=
  match strGet metadata (lit "EDX Windows") with
  | .error _ => .ok []
  | .ok d =>
    (intAt d "Count").bind fun n =>
    (List.range n.toNat).mapM fun (i : Nat) => strGet d (numbered "Window" (i + 1))

/-- `load_oxford_cpr` (`file_readers.py:392-505`). The angles of the acquisition surface are kept
in degrees. -/
noncomputable def loadCpr (text : Str) : Except Err CprData :=
  (parseCpr text).bind fun m =>
  (strGet m (lit "Job")).bind fun job =>
  (intAt job "xCells").bind fun x =>
  (intAt job "yCells").bind fun y =>
  (floatAt job "GridDistX").bind fun step =>
  (strGet m (lit "Acquisition Surface")).bind fun acq =>
  (floatAt acq "Euler1").bind fun e1 =>
  (floatAt acq "Euler2").bind fun e2 =>
  (floatAt acq "Euler3").bind fun e3 =>
  (strGet m (lit "Phases")).bind fun ph =>
  (intAt ph "Count").bind fun n =>
  ((List.range n.toNat).mapM fun (i : Nat) =>
    (strGet m (numbered "Phase" (i + 1))).bind cprPhase).bind fun phases =>
  (edxWindows m).bind fun windows =>
  (fieldFormat windows m).bind fun fmt =>
  (makeDtype fmt).bind fun dt => .ok ⟨y, x, step, (e1, e2, e3), phases, windows, dt⟩

/-! ### Records -/

/-- The size of a record (`file_readers.py:505, 523`). -/
def itemSize (fmt : List (Str × FieldType)) : Nat := (fmt.map fun f => f.2.size).sum

/-- `np.fromfile` (`file_readers.py:523`): full records; bytes left over are ignored. -/
def fromFile {β : Type} (size : Nat) : Nat → List β → List (List β)
  | 0, _ => []
  | n + 1, bytes =>
    if bytes.length < size then [] else bytes.take size :: fromFile size n (bytes.drop size)

/-- The bytes of a field in a record (`file_readers.py:523-556`). -/
def fieldBytes {β : Type} (name : Str) : List (Str × FieldType) → List β → Except Err (List β)
  | [], _ => .error .valueError
  | f :: fs, r => if f.1 = name then .ok (r.take f.2.size) else fieldBytes name fs (r.drop f.2.size)

/-- `data[name].reshape(shape)`, in row-major order. A missing field is a `ValueError`; for the
Euler angles, which are read together, the code raises a `KeyError` instead, which is not told apart
here. A shape with a negative entry is an error (`file_readers.py:526, 535, 545, 552, 556, 563`). -/
def fieldColumn {β : Type} (fmt : List (Str × FieldType)) (rows cols : Int) (records : List (List β))
    (name : Str) : Except Err (List (List β)) :=
  if name ∈ fmt.map (fun f => f.1) then
    if (records.length : Int) = rows * cols ∧ 0 ≤ rows ∧ 0 ≤ cols then
      records.mapM fun r => fieldBytes name fmt r
    else .error .valueError
  else .error .valueError

/-- What the CRC file gives, in row-major order (`file_readers.py:525-569`). -/
structure CrcData (β : Type) where
  contrast : List (List β)
  slope : List (List β)
  mad : List (List β)
  phase : List (List β)
  euler : List (List (List β))
  edx : List (Str × List (List β))

/-- `load_oxford_crc` (`file_readers.py:507-571`). The fields read as EDX data are those whose name
starts with `EDX`, if there are windows. -/
def loadCrc {β : Type} (fmt : List (Str × FieldType)) (rows cols : Int) (windows : List Str)
    (bytes : List β) : Except Err (CrcData β) :=
  let records := fromFile (itemSize fmt) bytes.length bytes
  (fieldColumn fmt rows cols records (lit "BC")).bind fun bc =>
  (fieldColumn fmt rows cols records (lit "BS")).bind fun bs =>
  (fieldColumn fmt rows cols records (lit "MAD")).bind fun mad =>
  (fieldColumn fmt rows cols records (lit "phase")).bind fun ph =>
  (fieldColumn fmt rows cols records (lit "ph1")).bind fun e1 =>
  (fieldColumn fmt rows cols records (lit "phi")).bind fun e2 =>
  (fieldColumn fmt rows cols records (lit "ph2")).bind fun e3 =>
  (if 0 < windows.length then
    ((fmt.map fun f => f.1).filter fun n => (lit "EDX").isPrefixOf n).mapM fun n =>
      (fieldColumn fmt rows cols records n).bind fun c => .ok (n, c)
   else .ok []).bind fun edx => .ok ⟨bc, bs, mad, ph, [e1, e2, e3], edx⟩

/-- Reading the CRC file with the format from the CPR file (`file_readers.py:480-571`). -/
def readCrc {β : Type} (windows : List Str) (metadata : List (Str × List (Str × Str)))
    (rows cols : Int) (bytes : List β) : Except Err (CrcData β) :=
  (fieldFormat windows metadata).bind fun fmt =>
  (makeDtype fmt).bind fun dt => loadCrc dt rows cols windows bytes

end DefDAP
