import Verif.Model.CrystalUtils

/-!
Model of `defdap/crystal.py`: phases, slip systems and the shipped slip system files.
-/

namespace DefDAP

open Matrix

/-- `crystal_structure.name`: the library has two (`crystal.py:114-216`), others are refused. -/
inductive CrystalName where
  | cubic | hexagonal | other
deriving DecidableEq

/-- A `SlipSystem` (`crystal.py:219-271`): indices as given, and unit vectors in Cartesian
crystal coordinates. -/
structure SlipSystem where
  planeIdc : List Int
  dirIdc : List Int
  normal : Fin 3 → ℝ
  slip : Fin 3 → ℝ
  cOverA : Option ℝ

/-- `v / norm(v)` (`crystal.py:246-247, 267-269`); a zero vector gives nan in the code and zero
here. -/
noncomputable def unitVec (v : Fin 3 → ℝ) : Fin 3 → ℝ := fun i => v i / Real.sqrt (v ⬝ᵥ v)

/-- The integer indices as real numbers (`crystal.py:255-256`). -/
def asReals (l : List Int) : List ℝ := l.map fun (z : Int) => (z : ℝ)

/-- `SlipSystem.__init__` (`crystal.py:223-271`). The code does not check the number of indices
of cubic systems; here other numbers than three are an error. `dflt` is the configured convention
for Cartesian axes. -/
noncomputable def slipSystem (dflt : String) (cs : CrystalName) (plane dir : List Int)
    (ca : Option ℝ) : Except Err SlipSystem :=
  match cs with
  | .cubic =>
    match plane, dir with
    | [h, k, l], [u, v, w] =>
      .ok ⟨plane, dir, unitVec ![(h : ℝ), (k : ℝ), (l : ℝ)], unitVec ![(u : ℝ), (v : ℝ), (w : ℝ)], none⟩
    | _, _ => .error .valueError
  | .hexagonal =>
    match ca with
    | none => .error .exception
    | some ca =>
      (convertIdc "mb" none (some (asReals plane))).bind fun pm =>
      (convertIdc "mb" (some (asReals dir)) none).bind fun dm =>
      (hexL dflt ca).bind fun l =>
      (matVec (createQ l) pm).bind fun n =>
      (matVec l dm).bind fun s =>
      .ok ⟨plane, dir, unitVec n, unitVec s, some ca⟩
  | .other => .error .exception

/-- `SlipSystem.__eq__` (`crystal.py:273-276`). -/
def slipEq (a b : SlipSystem) : Bool :=
  decide (posIdc a.planeIdc = posIdc b.planeIdc) && decide (posIdc a.dirIdc = posIdc b.dirIdc)

/-- `SlipSystem.__hash__` (`crystal.py:278-279`), with the hash function of tuples `h`; adding
`None` is a `TypeError`. -/
def slipHash (h : List Int → Int) (a : SlipSystem) : Except Err Int :=
  match posIdc a.planeIdc, posIdc a.dirIdc with
  | some p, some d => .ok (h (p ++ d))
  | _, _ => .error .typeError

/-- The inner loop of `group` by plane with its `else` (`crystal.py:465-470`). -/
def groupInsert (ss : SlipSystem) : List (List SlipSystem) → List (List SlipSystem)
  | [] => [[ss]]
  | g :: gs =>
    match g with
    | [] => [] :: groupInsert ss gs
    | r :: t =>
      if posIdc ss.planeIdc = posIdc r.planeIdc then (r :: t ++ [ss]) :: gs
      else (r :: t) :: groupInsert ss gs

/-- `group` by plane (`crystal.py:463-470`); no slip systems are an `IndexError`. (Groups are
never empty; the code would raise on an empty one.) -/
def groupPlane : List SlipSystem → Except Err (List (List SlipSystem))
  | [] => .error .indexError
  | s :: t => .ok (t.foldl (fun gs ss => groupInsert ss gs) [[s]])

/-- `ss_family.add(ss)` for a Python set of slip systems (`crystal.py:357`): kept unless an equal
one is there. The order of the list stands for nothing. -/
def familyAdd (fam : List SlipSystem) (ss : SlipSystem) : List SlipSystem :=
  if fam.any fun x => slipEq x ss then fam else fam ++ [ss]

/-- The argument of `np.gcd.reduce` must be integers (`crystal_utils.py:338`); floats that are not
are a `TypeError`. -/
def asInts (l : List Rat) : Except Err (List Int) :=
  if l.all fun x => decide (x.den = 1) then .ok (l.map fun x => x.num) else .error .typeError

/-- A vector as a list (`crystal.py:358-359`). -/
def vecList (v : Fin 3 → ℝ) : List ℝ := [v 0, v 1, v 2]

/-- `SlipSystem(pos_idc(...), pos_idc(...), ...)` (`crystal.py:357-361`); `tuple(None)` is a
`TypeError`. -/
noncomputable def familyMember (dflt : String) (cs : CrystalName) (ca : Option ℝ)
    (p d : List Int) : Except Err SlipSystem :=
  match posIdc p, posIdc d with
  | some p, some d => slipSystem dflt cs p d ca
  | _, _ => .error .typeError

/-- `reduce_idc(convert_idc('m', plane=...))` of integers (`crystal.py:350-352`). -/
def backPlane (nan : Int) (l : List Int) : Except Err (List Int) :=
  (convertIdc "m" none (some (l.map fun (z : Int) => (z : Rat)))).bind fun c =>
  (asInts c).bind fun z => .ok (reduceIdc nan z)

/-- `reduce_idc(convert_idc('m', dir=...))` of integers (`crystal.py:353-355`). -/
def backDir (nan : Int) (l : List Int) : Except Err (List Int) :=
  (convertIdc "m" (some (l.map fun (z : Int) => (z : Rat))) none).bind fun c =>
  (asInts c).bind fun z => .ok (reduceIdc nan z)

/-- One round of the loop of `generate_family` for a cubic system (`crystal.py:342-361`). -/
noncomputable def familyCubic (dflt : String) (plane dir : Fin 3 → ℝ) (sym : Quat ℝ)
    (fam : List SlipSystem) : Except Err (List SlipSystem) :=
  (safeIntCast (vecList (Quat.transformVector (Quat.conjugate sym) plane))).bind fun p =>
  (safeIntCast (vecList (Quat.transformVector (Quat.conjugate sym) dir))).bind fun d =>
  (familyMember dflt .cubic none p d).bind fun ss =>
  .ok (familyAdd fam ss)

/-- One round of the loop of `generate_family` for a hexagonal system (`crystal.py:342-361`).
`l` and `q` are the lattice and reciprocal matrices, `nan` see `reduceIdc`. -/
noncomputable def familyHex (dflt : String) (nan : Int) (ca : ℝ) (l q : Matrix (Fin 3) (Fin 3) ℝ)
    (plane dir : Fin 3 → ℝ) (sym : Quat ℝ) (fam : List SlipSystem) :
    Except Err (List SlipSystem) :=
  (safeIntCast (vecList (lᵀ *ᵥ Quat.transformVector (Quat.conjugate sym) plane))).bind fun p =>
  (backPlane nan p).bind fun p =>
  (safeIntCast (vecList (qᵀ *ᵥ Quat.transformVector (Quat.conjugate sym) dir))).bind fun d =>
  (backDir nan d).bind fun d =>
  (safeIntCast (asReals p)).bind fun p =>
  (safeIntCast (asReals d)).bind fun d =>
  (familyMember dflt .hexagonal (some ca) p d).bind fun ss =>
  .ok (familyAdd fam ss)

/-- `generate_family` (`crystal.py:313-363`). -/
noncomputable def generateFamily (dflt : String) (nan : Int) (cs : CrystalName)
    (ss : SlipSystem) : Except Err (List SlipSystem) :=
  match cs with
  | .cubic =>
    match ss.planeIdc, ss.dirIdc with
    | [h, k, l], [u, v, w] =>
      (symEqv .cubic).foldlM (fun fam sym =>
        familyCubic dflt ![(h : ℝ), (k : ℝ), (l : ℝ)] ![(u : ℝ), (v : ℝ), (w : ℝ)] sym fam) []
    | _, _ => .error .typeError
  | .hexagonal =>
    match ss.cOverA with
    | none => .error .typeError
    | some ca =>
      (hexL dflt ca).bind fun l =>
      (convertIdc "mb" none (some (asReals ss.planeIdc))).bind fun pm =>
      (matVec (createQ l) pm).bind fun plane =>
      (convertIdc "mb" (some (asReals ss.dirIdc)) none).bind fun dm =>
      (matVec l dm).bind fun dir =>
      (symEqv .hexagonal).foldlM (fun fam sym =>
        familyHex dflt nan ca l (createQ l) plane dir sym fam) []
  | .other => .error .exception

/-- The loop over families of `group` by family with its `else` (`crystal.py:476-482`); `fam` is
`generate_family`. Groups and families are kept as pairs. -/
def familyInsert (fam : SlipSystem → Except Err (List SlipSystem)) (ss : SlipSystem) :
    List (List SlipSystem × List SlipSystem) →
    Except Err (List (List SlipSystem × List SlipSystem))
  | [] => (fam ss).bind fun f => .ok [([ss], f)]
  | gf :: t =>
    if gf.2.any fun x => slipEq x ss then .ok ((gf.1 ++ [ss], gf.2) :: t)
    else (familyInsert fam ss t).bind fun t' => .ok (gf :: t')

/-- `group` by family (`crystal.py:473-482`). -/
def groupFamily (fam : SlipSystem → Except Err (List SlipSystem)) (l : List SlipSystem) :
    Except Err (List (List SlipSystem)) :=
  (l.foldlM (fun st ss => familyInsert fam ss st) []).bind fun st => .ok (st.map fun gf => gf.1)

/-- `group` (`crystal.py:443-487`). -/
def slipGroup (fam : SlipSystem → Except Err (List SlipSystem)) (l : List SlipSystem)
    (groupBy : String) : Except Err (List (List SlipSystem)) :=
  if groupBy.toLower = "plane" then groupPlane l
  else if groupBy.toLower = "family" then groupFamily fam l
  else .error .valueError

/-- The array `np.loadtxt` makes of the rows has two axes: rows of different lengths are a
`ValueError`; a single row (or none) gives one axis, and `shape[1]` is then an `IndexError`
(`crystal.py:423-426`). -/
def loadRows (size : Nat) (rows : List (List Int)) : Except Err (List (List Int)) :=
  match rows with
  | [] => .error .indexError
  | r :: t =>
    if t.all fun x => decide (x.length = r.length) then
      if t = [] then .error .indexError
      else if r.length ≠ 2 * size then .error .ioError
      else .ok rows
    else .error .valueError

/-- The slip systems of the rows (`crystal.py:429-434`). -/
noncomputable def rowSystems (dflt : String) (cs : CrystalName) (ca : Option ℝ) (size : Nat)
    (rows : List (List Int)) : Except Err (List SlipSystem) :=
  rows.mapM fun row => slipSystem dflt cs (row.take size) ((row.drop size).take size) ca

/-- A slip system file: the colours of the second line and the rows of numbers
(`crystal.py:399-426`). -/
structure SlipFile where
  colours : List String
  rows : List (List Int)

/-- `SlipSystem.load` (`crystal.py:365-440`) of a file that was found, grouped by plane (the
default). The text of the file is read in `Verif.Model.SlipText`. -/
noncomputable def loadSlip (dflt : String) (cs : CrystalName) (ca : Option ℝ) (file : SlipFile) :
    Except Err (List (List SlipSystem) × List String) :=
  let size := if cs = .hexagonal then 4 else 3
  (loadRows size file.rows).bind fun rows =>
  (rowSystems dflt cs ca size rows).bind fun l =>
  (groupPlane l).bind fun gs =>
  .ok (gs, file.colours)

/-- `defdap/slip_systems/cubic_fcc.txt:2-14`. -/
def fccFile : SlipFile where
  colours := ["blue", "green", "red", "white"]
  rows := [
    [1, 1, 1, 0, 1, -1], [1, 1, 1, -1, 0, 1], [1, 1, 1, 1, -1, 0], [1, 1, -1, 0, 1, 1],
    [1, 1, -1, -1, 0, -1], [1, 1, -1, 1, -1, 0], [-1, 1, 1, 0, 1, -1], [-1, 1, 1, 1, 0, 1],
    [-1, 1, 1, -1, -1, 0], [1, -1, 1, 0, -1, -1], [1, -1, 1, -1, 0, 1], [1, -1, 1, 1, 1, 0]]

/-- `defdap/slip_systems/cubic_fcc_damask.txt:2-14`. -/
def fccDamaskFile : SlipFile where
  colours := ["blue", "green", "red", "black"]
  rows := [
    [1, 1, 1, 0, 1, -1], [1, 1, 1, -1, 0, 1], [1, 1, 1, 1, -1, 0], [-1, -1, 1, 0, -1, -1],
    [-1, -1, 1, 1, 0, 1], [-1, -1, 1, -1, 1, 0], [1, -1, -1, 0, -1, 1], [1, -1, -1, -1, 0, -1],
    [1, -1, -1, 1, 1, 0], [-1, 1, -1, 0, 1, 1], [-1, 1, -1, 1, 0, -1], [-1, 1, -1, -1, -1, 0]]

/-- `defdap/slip_systems/cubic_bcc.txt:2-50`. -/
def bccFile : SlipFile where
  colours := ["green", "green", "green", "green", "red", "red", "red", "red", "blue", "blue", "blue", "blue"]
  rows := [
    [0, 1, -1, 1, 1, 1], [-1, 0, 1, 1, 1, 1], [1, -1, 0, 1, 1, 1], [0, 1, 1, 1, 1, -1],
    [-1, 0, -1, 1, 1, -1], [1, -1, 0, 1, 1, -1], [0, 1, -1, -1, 1, 1], [1, 0, 1, -1, 1, 1],
    [-1, -1, 0, -1, 1, 1], [0, -1, -1, 1, -1, 1], [-1, 0, 1, 1, -1, 1], [1, 1, 0, 1, -1, 1],
    [-2, 1, 1, 1, 1, 1], [1, -2, 1, 1, 1, 1], [1, 1, -2, 1, 1, 1], [2, -1, 1, -1, -1, 1],
    [-1, 2, 1, -1, -1, 1], [1, 1, 2, -1, -1, 1], [2, 1, -1, 1, -1, 1], [1, 2, 1, 1, -1, 1],
    [-1, 1, 2, 1, -1, 1], [2, 1, 1, -1, 1, 1], [1, 2, -1, -1, 1, 1], [1, -1, 2, -1, 1, 1],
    [1, 2, 3, 1, 1, -1], [2, 1, 3, 1, 1, -1], [3, 2, 1, 1, 1, -1], [2, 3, 1, 1, 1, -1],
    [-1, 3, 2, 1, 1, -1], [3, -1, 2, 1, 1, -1], [1, 3, 2, 1, -1, 1], [2, 3, 1, 1, -1, 1],
    [3, 1, 2, 1, -1, 1], [2, 1, 3, 1, -1, 1], [-1, 2, 3, 1, -1, 1], [3, 2, -1, 1, -1, 1],
    [3, 1, 2, -1, 1, 1], [3, 2, 1, -1, 1, 1], [1, 2, 3, -1, 1, 1], [1, 3, 2, -1, 1, 1],
    [2, -1, 3, -1, 1, 1], [2, 3, -1, -1, 1, 1], [1, 2, 3, 1, 1, 1], [1, 3, 2, 1, 1, 1],
    [3, 1, 2, 1, 1, 1], [2, 1, 3, 1, 1, 1], [2, 3, 1, 1, 1, 1], [3, 1, 2, 1, 1, 1]]

/-- `defdap/slip_systems/cubic_bcc_110only.txt:2-14`. -/
def bcc110File : SlipFile where
  colours := ["green", "green", "green", "green"]
  rows := [
    [0, 1, -1, 1, 1, 1], [-1, 0, 1, 1, 1, 1], [1, -1, 0, 1, 1, 1], [0, 1, 1, 1, 1, -1],
    [-1, 0, -1, 1, 1, -1], [1, -1, 0, 1, 1, -1], [0, 1, -1, -1, 1, 1], [1, 0, 1, -1, 1, 1],
    [-1, -1, 0, -1, 1, 1], [0, -1, -1, 1, -1, 1], [-1, 0, 1, 1, -1, 1], [1, 1, 0, 1, -1, 1]]

/-- `defdap/slip_systems/hexagonal_noca.txt:2-14`. -/
def hexNocaFile : SlipFile where
  colours := ["red", "blue", "blue", "blue", "green", "green", "green", "green", "green", "green"]
  rows := [
    [0, 0, 0, 1, 1, 1, -2, 0], [0, 0, 0, 1, 1, -2, 1, 0], [0, 0, 0, 1, -2, 1, 1, 0], [1, 0, -1, 0, 1, -2, 1, 0],
    [0, 1, -1, 0, -2, 1, 1, 0], [1, -1, 0, 0, 1, 1, -2, 0], [1, -1, 0, 1, 1, 1, -2, 0], [1, -1, 0, -1, 1, 1, -2, 0],
    [1, 0, -1, 1, 1, -2, 1, 0], [1, 0, -1, -1, 1, -2, 1, 0], [0, -1, 1, 1, -2, 1, 1, 0], [0, -1, 1, -1, -2, 1, 1, 0]]

/-- `defdap/slip_systems/hexagonal_withca.txt:2-26`. -/
def hexWithcaFile : SlipFile where
  colours := ["red", "blue", "blue", "blue", "green", "green", "green", "green", "green", "green"]
  rows := [
    [0, 0, 0, 1, 1, 1, -2, 0], [0, 0, 0, 1, 1, -2, 1, 0], [0, 0, 0, 1, -2, 1, 1, 0], [1, 0, -1, 0, 1, -2, 1, 0],
    [0, 1, -1, 0, -2, 1, 1, 0], [1, -1, 0, 0, 1, 1, -2, 0], [1, -1, 0, 1, 1, 1, -2, 0], [1, -1, 0, -1, 1, 1, -2, 0],
    [1, 0, -1, 1, 1, -2, 1, 0], [1, 0, -1, -1, 1, -2, 1, 0], [0, -1, 1, 1, -2, 1, 1, 0], [0, -1, 1, -1, -2, 1, 1, 0],
    [1, 0, -1, -1, 1, 1, -2, 3], [1, 0, -1, -1, 2, -1, -1, 3], [1, 0, -1, 1, -1, -1, 2, 3], [1, 0, -1, 1, -2, 1, 1, 3],
    [1, -1, 0, 1, -2, 1, 1, 3], [1, -1, 0, 1, -1, 2, -1, 3], [1, -1, 0, -1, 1, -2, 1, 3], [1, -1, 0, -1, 2, -1, -1, 3],
    [0, -1, 1, 1, 1, 1, -2, 3], [0, -1, 1, 1, -1, 2, -1, 3], [0, -1, 1, -1, -1, -1, 2, 3], [0, -1, 1, -1, 1, -2, 1, 3]]

/-- `defaults['slip_system_file']` (`defdap/__init__.py:16-20`) and the choice of file in
`Phase.__init__` (`crystal.py:45-62`): by the Laue group and, for cubic crystals, the space
group. -/
def phaseFile (laue space : Int) : Except Err (CrystalName × Option SlipFile) :=
  if laue = 9 then .ok (.hexagonal, some hexWithcaFile)
  else if laue = 11 then
    .ok (.cubic, if space = 225 then some fccFile else if space = 229 then some bccFile else none)
  else .error .valueError

/-- `Phase.__init__` (`crystal.py:25-70`): the slip systems and trace colours, if any; `a` and `c`
are the lattice parameters. -/
noncomputable def phaseSlip (dflt : String) (laue space : Int) (a c : ℝ) :
    Except Err (CrystalName × Option (List (List SlipSystem) × List String)) :=
  (phaseFile laue space).bind fun nf =>
  match nf.2 with
  | none => .ok (nf.1, none)
  | some f =>
    (loadSlip dflt nf.1 (if nf.1 = .hexagonal then some (c / a) else none) f).bind fun r =>
    .ok (nf.1, some r)

end DefDAP
