import Verif.Model.DicCrop
import Verif.Model.GrainData

/-!
Linking, cropping and grain finding of a DIC map over histories (`hrdic.py:168-172, 314-404,
565-703`, `base.py:105-109, 908-922`, `utils.py:139-183, 264-286, 338-406`). What a search for
grains gives is modelled in `DicGrains` and is an arbitrary function here.
-/

namespace DefDAP

/-- The result of a search for grains: the image of grain numbers and the points of the grains, both
in the map as it is cropped then (`hrdic.py:702-703`). -/
structure DicFound where
  image : Img Int
  points : List (List Px)

/-- The state of a DIC map: its crop, the linked EBSD map (`hrdic.py:115, 393`), the EBSD maps whose
boundaries are derived data, in the order they were added (`hrdic.py:396-404`), the kept image of
grains and `_grains`. Grains carry the EBSD map they were linked to (`hrdic.py:620, 686`). EBSD maps
are numbers. -/
structure DicHist where
  w : DicW
  linked : Option Nat
  sources : List Nat
  grains : Option (DicFound × Nat)
  list : Option (DicFound × Nat)

/-- A map that was just loaded (`hrdic.py:94-178`). -/
def DicHist.loaded (xdim ydim : Nat) (points : List (Option (Int × Int)))
    (masks : Nat → Grid Bool) : DicHist :=
  ⟨DicW.new xdim ydim points masks, none, [], none, none⟩

/-- `link_ebsd_map` (`hrdic.py:380-404`). The function given to `add_derivative` is a new object for
every call, so it is never found among those there (`utils.py:360-367`), and a derivative is added.
The link of the frames (395) is part of the search. -/
def DicHist.link (st : DicHist) (e : Nat) : DicHist :=
  ⟨st.w, some e, st.sources ++ [e], st.grains, st.list⟩

/-- Reading `data.grain_boundaries`: the derivative found first is used (`utils.py:264-286`), a
missing one is a `KeyError`. The answer is the EBSD map whose boundaries are warped. -/
def DicHist.boundarySource (st : DicHist) : Except Err Nat :=
  match st.sources with
  | [] => .error .keyError
  | e :: _ => .ok e

/-- `set_crop` (`hrdic.py:314-357`). -/
def DicHist.crop (st : DicHist) (left right top bottom : Option Int) (upd : Bool) : DicHist :=
  ⟨(setCrop st.w left right top bottom upd).2, st.linked, st.sources, st.grains, st.list⟩

/-- The settings of a search (`hrdic.py:569`). -/
structure DicSearch where
  algorithm : Option String
  minSize : Int

/-- The searches: settings, crop and frame of the map, the EBSD map linked (grains and frame), the
EBSD map the boundaries come from (an error if there is none) (`hrdic.py:568-703`). -/
abbrev DicFind := DicSearch → DicW → Nat → Except Err Nat → Except Err DicFound

/-- A call of the method `find_grains` (`hrdic.py:568-703`): without a linked EBSD map it is an
exception (580, 420-422). -/
def DicHist.call (find : DicFind) (st : DicHist) (s : DicSearch) :
    Except Err (DicFound × Nat) × DicHist :=
  match st.linked with
  | none => (.error .exception, st)
  | some e =>
    match find s st.w e st.boundarySource with
    | .error er => (.error er, st)
    | .ok f => (.ok (f, e), ⟨st.w, st.linked, st.sources, st.grains, some (f, e)⟩)

/-- `data.generate('grains', ...)` (`utils.py:369-406`, `hrdic.py:168-172`). -/
def DicHist.generate (find : DicFind) (st : DicHist) (s : DicSearch) :
    Except Err (DicFound × Nat) × DicHist :=
  match (st.call find s).1 with
  | .error er => (.error er, (st.call find s).2)
  | .ok f => (.ok f, ⟨(st.call find s).2.w, (st.call find s).2.linked, (st.call find s).2.sources,
      some f, (st.call find s).2.list⟩)

/-- Reading `data.grains`: kept as found, not cropped (`hrdic.py:171`); searched with the default
settings if nothing is kept. -/
def DicHist.readGrains (find : DicFind) (st : DicHist) :
    Except Err (DicFound × Nat) × DicHist :=
  match st.grains with
  | some f => (.ok f, st)
  | none => st.generate find ⟨none, 10⟩

/-- `map.grains` (`base.py:105-109`). -/
def DicHist.readList (find : DicFind) (st : DicHist) :
    Except Err (Option (DicFound × Nat)) × DicHist :=
  match (st.readGrains find).1 with
  | .error er => (.error er, (st.readGrains find).2)
  | .ok _ => (.ok (st.readGrains find).2.list, (st.readGrains find).2)

/-- What a user does (`hrdic.py:314-404, 568-703`, `base.py:105-109`). -/
inductive DicOp where
  | link (e : Nat)
  | crop (left right top bottom : Option Int) (upd : Bool)
  | read
  | readList
  | generate (s : DicSearch)
  | call (s : DicSearch)

/-- One step (`hrdic.py:314-404, 568-703`, `base.py:105-109`). -/
def dicStep (find : DicFind) (st : DicHist) : DicOp → DicHist
  | .link e => st.link e
  | .crop l r t b u => st.crop l r t b u
  | .read => (st.readGrains find).2
  | .readList => (st.readList find).2
  | .generate s => (st.generate find s).2
  | .call s => (st.call find s).2

/-- A history (`hrdic.py:314-404, 568-703`, `base.py:105-109`). -/
def dicRun (find : DicFind) (st : DicHist) (ops : List DicOp) : DicHist :=
  ops.foldl (dicStep find) st

/-- `grain.grain_data(map.data.name)` (`base.py:908-922`, `hrdic.py:359-378`) for a datum stored in
full: the points of the grain in the datum as it is cropped now. -/
def grainValuesNow {α : Type} (w : DicW) (full : Img α) (pts : List Px) : Except Err (List α) :=
  grainData (cropGrid w 1 ⟨w.ydim, w.xdim, full⟩).rows (cropGrid w 1 ⟨w.ydim, w.xdim, full⟩).cols
    (cropGrid w 1 ⟨w.ydim, w.xdim, full⟩).px pts

end DefDAP
