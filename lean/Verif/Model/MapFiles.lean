import Verif.Model.Text
import Verif.Model.Datastore

/-!
Creating maps: registration in an experiment (`base.py:60-94`, `experiment.py:22-39,156-169`), the
choice of a loader or writer (`file_readers.py:58-78,636-654`, `file_writers.py:39-47`) and the names of
the files read and written. Paths are their last component: directories are passed on unchanged.
-/

namespace DefDAP

/-! ### Names -/

/-- The position of the last dot, `str.rfind('.')` (`file_readers.py:66, 405, 518`). -/
def lastDot : Str → Option Nat
  | [] => none
  | c :: s => match lastDot s with
    | some i => some (i + 1)
    | none => if c = '.' then some 0 else none

/-- The suffix that `pathlib` sees: from the last dot, if this is not the first or last character
(`file_readers.py:66, 405, 518`). -/
def suffixStart (name : Str) : Option Nat :=
  match lastDot name with
  | some i => if 0 < i ∧ i + 1 < name.length then some i else none
  | none => none

/-- `Path.suffix` (`file_readers.py:66`). -/
def pathSuffix (name : Str) : Str :=
  match suffixStart name with
  | some i => name.drop i
  | none => []

/-- `Path.with_suffix` (`file_readers.py:405,518`). -/
def withSuffix (name suffix : Str) : Str :=
  match suffixStart name with
  | some i => name.take i ++ suffix
  | none => name ++ suffix

/-- `str.lower`. Simplification: ASCII letters (`file_readers.py:68, 641`). -/
def lowerStr (s : Str) : Str := s.map Char.toLower

/-! ### Loaders -/

/-- The EBSD loaders (`file_readers.py:70-75`). -/
inductive EbsdLoader where
  | oxfordBinary | oxfordText | edaxAng | pythonDict
  deriving DecidableEq

/-- The type chosen by the extension (`file_readers.py:60-66`). -/
def typeOfSuffix (suffix : Str) : Str :=
  if suffix = lit ".crc" then lit "oxfordbinary" else if suffix = lit ".cpr" then lit "oxfordbinary"
  else if suffix = lit ".ctf" then lit "oxfordtext" else if suffix = lit ".ang" then lit "edaxang"
  else lit "oxfordbinary"

/-- `EBSDDataLoader.get_loader` (`file_readers.py:58-78`). -/
def getEbsdLoader (dataType : Option Str) (name : Str) : Except Err EbsdLoader :=
  let t := lowerStr (dataType.getD (typeOfSuffix (pathSuffix name)))
  if t = lit "oxfordbinary" then .ok .oxfordBinary else if t = lit "oxfordtext" then .ok .oxfordText
  else if t = lit "edaxang" then .ok .edaxAng else if t = lit "pythondict" then .ok .pythonDict
  else .error .valueError

/-- The files a loader opens, in order (`file_readers.py:133,253,422,523`). -/
def filesOf (loader : EbsdLoader) (name : Str) : List Str :=
  match loader with
  | .oxfordBinary => [withSuffix name (lit ".cpr"), withSuffix name (lit ".crc")]
  | .oxfordText => [name]
  | .edaxAng => [name]
  | .pythonDict => []

/-- What is passed as `file_name` to a map (`ebsd.py:105-110`, `base.py:86`). -/
inductive Source where
  | name (s : Str)
  | dict

/-- The files that `ebsd.Map(file_name, data_type)` reads (`base.py:86-87`, `ebsd.py:162-163`): a
dictionary is not a path. -/
def ebsdFiles (src : Source) (dataType : Option Str) : Except Err (EbsdLoader × List Str) :=
  match src with
  | .dict => .error .typeError
  | .name s => (getEbsdLoader dataType s).map fun l => (l, filesOf l s)

/-- `EBSDDataWriter.get_writer` (`file_writers.py:39-47`): there is one. -/
def getEbsdWriter (dataType : Option Str) : Except Err Unit :=
  if dataType.getD (lit "OxfordText") = lit "OxfordText" then .ok () else .error .valueError

/-- The name of the file `ebsd.Map.save` writes (`ebsd.py:189`, `file_writers.py:65-66`). -/
def savedName (name : Str) (dataType : Option Str) : Except Err Str :=
  (getEbsdWriter dataType).map fun _ => name ++ lit ".ctf"

/-- The DIC loaders (`file_readers.py:645-651`). -/
inductive DicLoader where
  | davis | openPivText | openPivBinary | pyVale
  deriving DecidableEq

/-- `DICDataLoader.get_loader` (`file_readers.py:636-654`): the loader and its file type. -/
def getDicLoader (dataType : Option Str) : Except Err (DicLoader × Str) :=
  let parts := splitSep '-' (lowerStr (dataType.getD (lit "Davis")))
  let sub := if parts.length = 1 then [] else parts.getD 1 []
  let t := parts.getD 0 []
  if t = lit "davis" then .ok (.davis, sub) else if t = lit "openpiv" then .ok (.openPivText, sub)
  else if t = lit "openpivtext" then .ok (.openPivText, sub)
  else if t = lit "openpivbinary" then .ok (.openPivBinary, sub)
  else if t = lit "pyvale" then .ok (.pyVale, sub) else .error .valueError

/-! ### Experiments -/

/-- The experiments, by number, as the lists of their increments; an increment is the dictionary of its
maps (`experiment.py:22-24,156-169`). Experiment 0 is `defdap.anonymous_experiment`. Simplification:
increments are made by `add_increment` only. -/
abbrev Experiments := Nat → List (List (String × Nat))

/-- `increment.add_map(name, map)` (`experiment.py:168-169`). -/
def addMap (w : Experiments) (e k : Nat) (name : String) (obj : Nat) : Experiments :=
  fun i => if i = e then (w i).modify k fun maps => dset maps name obj else w i

/-- `experiment.add_increment()` (`experiment.py:29-32`). -/
def addIncrement (w : Experiments) (e : Nat) : Experiments :=
  fun i => if i = e then w i ++ [[]] else w i

/-- `Map.__init__` (`base.py:60-94`), for the map object `obj`: `name` is its name or that of its class;
`load` is the end of turning the argument into a path and of loading. An increment is given as its
experiment and its number. -/
def mapInit (w : Experiments) (obj : Nat) (experiment : Option Nat) (increment : Option (Nat × Nat))
    (name : String) (load : Except Err Unit) : Except Err Unit × Experiments :=
  match increment with
  | some inc =>
    if experiment.all fun e => e = inc.1 then (load, addMap w inc.1 inc.2 name obj)
    else (.error .assertionError, w)
  | none =>
    let e := experiment.getD 0
    (load, addMap (addIncrement w e) e (w e).length name obj)

/-- `iter_over_maps` (`experiment.py:34-39`). -/
def iterOverMaps (incs : List (List (String × Nat))) (name : String) : List (Nat × Nat) :=
  incs.zipIdx.filterMap fun p => (dget p.1 name).map fun m => (p.2, m)

/-- A call of the constructor (`base.py:56-92`). -/
structure MapCall where
  obj : Nat
  experiment : Option Nat
  increment : Option (Nat × Nat)
  name : String
  load : Except Err Unit

/-- A sequence of calls, whether they end well or not (`base.py:56-92`). -/
def mapInits (w : Experiments) (calls : List MapCall) : Experiments :=
  calls.foldl (fun w c => (mapInit w c.obj c.experiment c.increment c.name c.load).2) w

end DefDAP
