import Verif.Model.GrainMech
import Verif.Model.CrystalUtils

/-!
Texts about slip systems: labels and `str` of a slip system (`crystal.py:281-311`), the listing of the slip systems of
a phase (`Phase.print_slip_systems`, `crystal.py:85-98`) and that of a grain (`Grain.print_slip_traces`,
`ebsd.py:1503-1520`). Printed lines are lists of characters; the numbers of the listing of a grain are kept as real
numbers, their rounding to digits is left out.
-/

namespace DefDAP

/-- `slip_plane_label` (`crystal.py:289-299`); `unicode` is the default of `idc_to_string`. -/
def planeLabel (s : SlipSystem) : List Char := idcToString (some ('(', ')')) "unicode" s.planeIdc

/-- `slip_dir_label` (`crystal.py:301-311`). -/
def dirLabel (s : SlipSystem) : List Char := idcToString (some ('[', ']')) "unicode" s.dirIdc

/-- `SlipSystem.__str__` (`crystal.py:281-282`). -/
def slipStr (s : SlipSystem) : List Char := planeLabel s ++ dirLabel s

/-- A line for a plane (`crystal.py:94-96`). -/
def planeLine (i : Nat) (label colour : List Char) : List Char :=
  "Plane ".toList ++ Nat.toDigits 10 i ++ ": ".toList ++ label ++ "\tColour: ".toList ++ colour

/-- A line for a direction (`crystal.py:98`). -/
def dirLine (j : Nat) (label : List Char) : List Char :=
  "  Direction ".toList ++ Nat.toDigits 10 j ++ ": ".toList ++ label

/-- The lines for one plane (`crystal.py:94-98`); `ss_group[0]` of no systems is an `IndexError`. -/
def planeLines (i : Nat) (grp : List SlipSystem) (colour : List Char) : Except Err (List (List Char)) :=
  match grp with
  | [] => .error .indexError
  | s :: _ => .ok (planeLine i (planeLabel s) colour :: grp.mapIdx fun j t => dirLine j (dirLabel t))

/-- `print_slip_systems` (`crystal.py:92-98`) from plane number `i` on: the lines printed, and the exception that ended
it. -/
def slipLines (i : Nat) : List (List SlipSystem) → List (List Char) → List (List Char) × Option Err
  | grp :: gs, c :: cs =>
    match planeLines i grp c with
    | .error e => ([], some e)
    | .ok ls => (ls ++ (slipLines (i + 1) gs cs).1, (slipLines (i + 1) gs cs).2)
  | _, _ => ([], none)

/-- `print_slip_systems`: without slip systems `zip(None, None)` is a `TypeError`
(`crystal.py:92-98`). -/
def printSlipSystems (slip : Option (List (List SlipSystem) × List (List Char))) :
    List (List Char) × Option Err :=
  match slip with
  | none => ([], some .typeError)
  | some (gs, cs) => slipLines 0 gs cs

/-- What is printed for one plane of a grain (`ebsd.py:1518-1520`). -/
structure TraceBlock where
  plane : List Char
  colour : List Char
  angle : ℝ
  rows : List (List Char × ℝ)

/-- The loop of `print_slip_traces` (`ebsd.py:1512-1520`). -/
noncomputable def traceBlocks : List (List SlipSystem) → List (List Char) → List (List ℝ) → List (ℝ × ℝ) →
    Except Err (List TraceBlock)
  | grp :: gs, c :: cs, f :: fs, t :: ts =>
    match grp with
    | [] => .error .indexError
    | s :: _ => (traceBlocks gs cs fs ts).bind fun bs =>
      .ok (⟨planeLabel s, c, t.1 * 180 / Real.pi, (grp.map dirLabel).zip f⟩ :: bs)
  | _, _, _, _ => .ok []

/-- `print_slip_traces` (`ebsd.py:1503-1520`) of a grain with orientation `r`, of a phase with the slip systems and
colours given, and with the Schmid factors calculated before. The traces are calculated first. -/
noncomputable def printSlipTraces (r : Quat ℝ) (slip : List (List SlipSystem)) (colours : List (List Char))
    (sf : Option (List (List ℝ))) : Except Err (List TraceBlock) :=
  (slipTraces r slip).bind fun ts =>
    match sf with
    | none => .error .exception
    | some fs => traceBlocks slip colours fs ts

end DefDAP
