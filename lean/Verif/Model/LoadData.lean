import Verif.Model.Datastore
import Verif.Model.Text

/-! Model of loading data into maps: the dictionary loader and the checks of EBSD data
(`file_readers.py:30-98,574-602`), `load_data` of EBSD and DIC maps (`ebsd.py:151-174`, `hrdic.py:187-217`)
and the accessors for phases (`ebsd.py:202-244`, `crystal.py:72-100`). -/

namespace DefDAP

/-- A numpy array: shape and values by index tuples (`file_readers.py:589-601`). -/
structure NdArr (α : Type) where
  shape : List Nat
  vals : List Nat → α

/-- The value of the key `phases` of a dictionary: a list, whose entries may be phases, or something
else (`file_readers.py:591-592`). -/
inductive PhasesArg (P : Type) where
  | list (l : List (Option P))
  | other

/-- The dictionary given to the loader (`file_readers.py:575-587`): the values of the keys that are there. -/
structure EbsdDict (α P : Type) where
  phase : Option (NdArr α)
  stepSize : Option α
  phases : Option (PhasesArg P)
  bandContrast : Option (NdArr α)
  euler : Option (NdArr α)

/-- What a loader has after loading: metadata and data by name (`file_readers.py:589-601`). -/
structure LoadedEbsd (α P : Type) where
  shape : List Nat
  stepSize : α
  phases : List P
  data : List (Str × NdArr α)

/-- `data_dict[key]` (`file_readers.py:589-601`). -/
def keyOf {α : Type} (v : Option α) : Except Err α :=
  match v with
  | some x => .ok x
  | none => .error .keyError

/-- `assert type(phase) is Phase` (`file_readers.py:87`). -/
def isPhase {P : Type} : Option P → Except Err P
  | some p => .ok p
  | none => .error .assertionError

/-- `assert type(data_dict['phases']) is list` and `check_metadata` (`file_readers.py:80-87, 591-593`). -/
def checkPhases {P : Type} : PhasesArg P → Except Err (List P)
  | .other => .error .assertionError
  | .list l => l.mapM isPhase

/-- `check_data` (`file_readers.py:89-95`). -/
def checkEbsdData {α : Type} (shape : List Nat) (phase euler : NdArr α) : Except Err Unit :=
  if phase.shape = shape then
    if euler.shape = 3 :: shape then .ok () else .error .assertionError
  else .error .assertionError

/-- `PythonDictLoader.load` (`file_readers.py:575-602`) of a new loader. -/
def loadDict {α P : Type} (d : EbsdDict α P) : Except Err (LoadedEbsd α P) :=
  (keyOf d.phase).bind fun phase =>
  (keyOf d.stepSize).bind fun step =>
  (keyOf d.phases).bind fun phs =>
  (checkPhases phs).bind fun phases =>
  (keyOf d.bandContrast).bind fun bc =>
  (keyOf d.euler).bind fun euler =>
  (checkEbsdData phase.shape phase euler).bind fun _ =>
  .ok ⟨phase.shape, step, phases,
    [(lit "phase", phase), (lit "euler_angle", euler), (lit "band_contrast", bc)]⟩

/-- The parts of an EBSD map that are loaded (`ebsd.py:165-170`). -/
structure EbsdFields (α P : Type) where
  shape : List Nat
  stepSize : Option α
  phases : List P
  data : List (Str × NdArr α)

/-- A map before loading (`base.py:74`, `ebsd.py:93-94`). -/
def EbsdFields.new {α P : Type} : EbsdFields α P := ⟨[0, 0], none, [], []⟩

/-- `Map.load_data` of EBSD maps (`ebsd.py:151-174`); `r` is what the loader does. -/
def loadEbsd {α P : Type} (m : EbsdFields α P) (r : Except Err (LoadedEbsd α P)) :
    Except Err Unit × EbsdFields α P :=
  match r with
  | .error e => (.error e, m)
  | .ok l => (.ok (), ⟨l.shape, some l.stepSize, l.phases, dupdate m.data l.data⟩)

/-- What happens to the data of a map: it is loaded, or an item is generated or set
(`ebsd.py:162-170`, `utils.py:206`). -/
inductive LoadOp (α P : Type) where
  | load (r : Except Err (LoadedEbsd α P))
  | store (name : Str) (v : NdArr α)

/-- One such step (`ebsd.py:162-170`, `utils.py:206`). -/
def loadStep {α P : Type} (m : EbsdFields α P) : LoadOp α P → EbsdFields α P
  | .load r => (loadEbsd m r).2
  | .store n v => { m with data := dset m.data n v }

/-- `num_phases` (`ebsd.py:225-227`). -/
def EbsdFields.numPhases {α P : Type} (m : EbsdFields α P) : Option Nat :=
  if m.phases.length = 0 then none else some m.phases.length

/-- `primary_phase` (`ebsd.py:229-239`); the number of the primary phase may be set by users. -/
def EbsdFields.primaryPhase {α P : Type} (m : EbsdFields α P) (primary : Int) : Except Err P :=
  let i := if primary < 0 then primary + m.phases.length else primary
  if 0 ≤ i then
    match m.phases[i.toNat]? with
    | some p => .ok p
    | none => .error .indexError
  else .error .indexError

/-- The parts of a DIC map that are loaded (`hrdic.py:103-109,200-212`) and the crop. -/
structure DicFields (α : Type) where
  shape : Nat × Nat
  xdim : Nat
  ydim : Nat
  binning : Option Nat
  crop : Nat × Nat × Nat × Nat
  data : List (Str × NdArr α)

/-- What a DIC loader has after loading (`hrdic.py:202-212`). -/
structure LoadedDic (α : Type) where
  shape : Nat × Nat
  binning : Nat
  data : List (Str × NdArr α)

/-- `Map.load_data` of DIC maps (`hrdic.py:187-217`). The crop is not changed. -/
def loadDic {α : Type} (m : DicFields α) (r : Except Err (LoadedDic α)) :
    Except Err Unit × DicFields α :=
  match r with
  | .error e => (.error e, m)
  | .ok l => (.ok (), ⟨l.shape, l.shape.2, l.shape.1, some l.binning, m.crop, dupdate m.data l.data⟩)

end DefDAP
