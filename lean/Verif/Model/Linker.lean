import Verif.Model.Basic
import Mathlib.Data.List.Basic

/-!
Model of the linker of EBSD maps (`ebsd.py:1766-1941`) and of selecting a grain
(`base.py:182-204`). Of a map only its number of grains and the selected grain are kept; a grain is
its id, which is its position in the map's list of grains. A grain that stays selected while the
grains are found again keeps its id.
-/

namespace DefDAP

/-- A map of the linker (`base.py:76-78`). -/
structure LinkMap where
  numGrains : Nat
  sel : Option Nat

/-- The linker: its maps and its links (`ebsd.py:1789-1790`). -/
structure LinkerState where
  maps : List LinkMap
  links : List (List Nat)

/-- `Map.click_grain_id` on a pixel with the given label (`base.py:199-204`). -/
def clickGrain (m : LinkMap) (label : Int) : Except Err LinkMap :=
  let id := label - 1
  if id < 0 then .ok m
  else if id < m.numGrains then .ok { m with sel := some id.toNat }
  else .error .indexError

/-- `click_grain_guess` (`ebsd.py:1844-1859`): the plot has no attribute `callingMap`. -/
def clickGuess (onMap : Bool) (st : LinkerState) : Except Err LinkerState :=
  if onMap then .error .attributeError else .ok st

/-- The selected grains (`ebsd.py:1897-1904`). -/
def selected : List LinkMap → Except Err (List Nat)
  | [] => .ok []
  | m :: t =>
    match m.sel with
    | some g => (selected t).bind fun l => .ok (g :: l)
    | none => .error .exception

/-- `make_link` (`ebsd.py:1893-1909`). -/
def makeLink (st : LinkerState) : Except Err LinkerState :=
  (selected st.maps).bind fun link =>
    if link ∈ st.links then .ok st else .ok { st with links := st.links ++ [link] }

/-- `reset_links` (`ebsd.py:1911-1915`). -/
def resetLinks (st : LinkerState) : LinkerState := { st with links := [] }

/-- Finding grains again in one of the maps (`ebsd.py:943`). -/
def refind (i n : Nat) (st : LinkerState) : LinkerState :=
  { st with maps := st.maps.modify i fun m => { m with numGrains := n } }

/-- What a user can do (`base.py:199-204`, `ebsd.py:1844-1915`). -/
inductive LinkOp where
  | select (i : Nat) (label : Int)
  | guess (onMap : Bool)
  | link
  | reset
  | refind (i n : Nat)

/-- Selecting in one of the maps (`base.py:199-204`). -/
def selectIn (i : Nat) (label : Int) (st : LinkerState) : Except Err LinkerState :=
  match st.maps[i]? with
  | none => .error .indexError
  | some m => (clickGrain m label).bind fun m' => .ok { st with maps := st.maps.set i m' }

/-- One action (`base.py:199-204`, `ebsd.py:1844-1915`). -/
def linkAct (op : LinkOp) (st : LinkerState) : Except Err LinkerState :=
  match op with
  | .select i label => selectIn i label st
  | .guess onMap => clickGuess onMap st
  | .link => makeLink st
  | .reset => .ok (resetLinks st)
  | .refind i n => .ok (refind i n st)

/-- A sequence of actions; one that fails changes nothing (`base.py:199-204`, `ebsd.py:1844-1915`).
-/
def linkRun : List LinkOp → LinkerState → LinkerState
  | [], st => st
  | op :: ops, st =>
    match linkAct op st with
    | .ok st' => linkRun ops st'
    | .error _ => linkRun ops st

/-- `Linker(ebsd_maps)` (`ebsd.py:1780-1791`), with maps whose grains are found and none selected
(`base.py:78`). -/
def newLinker (sizes : List Nat) : LinkerState := ⟨sizes.map fun n => ⟨n, none⟩, []⟩

/-- Reference orientations of the grains of each map (`ebsd.py:1926-1927`). -/
abbrev RefOris (α : Type) := List (List α)

/-- One link in `set_ref_ori_from_master` (`ebsd.py:1925-1928`). -/
def setRef {α : Type} (i : Nat) (ref : RefOris α) (link : List Nat) : Except Err (RefOris α) :=
  match link[i]?, link[0]? with
  | some g, some g0 =>
    match ref[i]?, (ref[0]?).bind fun l => l[g0]? with
    | some l, some q =>
      if g < l.length then .ok (ref.set i (l.set g q)) else .error .indexError
    | _, _ => .error .indexError
  | _, _ => .error .indexError

/-- The links for one map (`ebsd.py:1925`). -/
def setRefs {α : Type} (i : Nat) (links : List (List Nat)) (ref : RefOris α) :
    Except Err (RefOris α) :=
  links.foldlM (setRef i) ref

/-- `set_ref_ori_from_master` (`ebsd.py:1919-1928`). -/
def setRefOriFromMaster {α : Type} (links : List (List Nat)) (ref : RefOris α) :
    Except Err (RefOris α) :=
  (List.range' 1 (ref.length - 1)).foldlM (fun r i => setRefs i links r) ref

end DefDAP
