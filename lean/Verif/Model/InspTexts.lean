import Verif.Model.InspSession
import Verif.Model.InspectorFile
import Verif.Model.Rdr

/-! Model of the text boxes of the grain inspector and of the files it saves (`inspector.py:62, 71-95,
117-133, 232-246, 336-350, 590-628`, `plotting.py:136-167`). A text box calls its handler with the text,
for every change of it or when it is submitted; errors of handlers are printed and the window stays open. -/

namespace DefDAP

/-- What does not change: the number of grains, the correction angle and the trace angles, the
displacement and what is used to measure ratios, the texts of numbers and the file that a name stands
for in the folder of the map. `shown` is what drawing the window of a measurement ends with
(`inspector.py:435-588`, see `Model/RdrWindow.lean`). -/
structure InspCfg (P F : Type) where
  n : Nat
  correction : ℝ
  traces : Nat → List ℝ
  draw : Int → Int → Int → Int → List (Int × Int)
  h : Nat
  w : Nat
  u : Img ℚ
  v : Img ℚ
  ext : Nat → Int × Int
  length : Int
  shown : Nat → LineState → Except Err Unit
  text : FloatText F
  np2 : Bool
  val : ℚ → F
  path : Str → Option P

/-- The session, the name of the file, the text in the box for groups and the files
(`inspector.py:54-62, 94-95, 612`). -/
structure InspWindow (P : Type) where
  session : InspSession
  filename : Str
  box : Str
  files : P → Option Str

/-- The window as the constructor leaves it (`inspector.py:62, 88-89`): `name` is that of the map. -/
def inspOpen {P F : Type} (c : InspCfg P F) (name : Str) (files : P → Option Str)
    (grains : Nat → LineState) : InspWindow P :=
  ⟨(inspNew c.n grains).2, name ++ lit "_RDR.txt", [], files⟩

/-- What a handler leads to (`inspector.py:117-350`). -/
abbrev WindowOut (P : Type) := Except Err Unit × InspWindow P

/-- A handler that changes the session only (`inspector.py:117-350`). -/
def InspWindow.on {P : Type} (s : InspWindow P) (r : InspOut) : WindowOut P :=
  (r.1, { s with session := r.2 })

/-- `goto_grain` with a text (`inspector.py:129`). -/
def gotoText {P F : Type} (c : InspCfg P F) (t : Str) (s : InspWindow P) : WindowOut P :=
  match parseInt t with
  | .error e => (.error e, s)
  | .ok i => s.on (inspGoto c.n i s.session)

/-- `remove_line` with a text (`inspector.py:244`). -/
noncomputable def removeText {P F : Type} (c : InspCfg P F) (t : Str) (s : InspWindow P) : WindowOut P :=
  match parseInt t with
  | .error e => (.error e, s)
  | .ok i => s.on (inspRemove c.n c.traces i s.session)

/-- `calc_rdr` of the selected grain (`inspector.py:349, 374-436`): the ratio is saved before the window
is drawn. -/
noncomputable def inspRdr {P F : Type} (c : InspCfg P F) (i : Int) (s : InspSession) : InspOut :=
  match calcRdr c.draw c.h c.w c.u c.v (c.ext s.sel) c.length (s.grains s.sel) i with
  | .error e => (.error e, s)
  | .ok l => (c.shown s.sel l, s.edit l)

/-- `run_rdr_group` (`inspector.py:336-350`), for a text submitted. Emptying the box submits an empty
text, which is ignored. -/
noncomputable def rdrText {P F : Type} (c : InspCfg P F) (t : Str) (s : InspWindow P) : WindowOut P :=
  let s := { s with box := t }
  if t = [] then (.ok (), s)
  else
    match parseInt t with
    | .error e => (.error e, s)
    | .ok i =>
      match inspRdr c i s.session with
      | (.error e, r) => (.error e, { s with session := r })
      | (.ok (), r) => (.ok (), { s with session := r, box := [] })

/-- `update_filename` (`inspector.py:590-600`). -/
def nameText {P : Type} (t : Str) (s : InspWindow P) : WindowOut P := (.ok (), { s with filename := t })

/-- `save_file` (`inspector.py:602-628`): a name that stands for no file, as in a folder that does not
exist, can not be opened. -/
noncomputable def saveWindow {P F : Type} [DecidableEq P] (c : InspCfg P F) (s : InspWindow P) :
    WindowOut P :=
  match c.path s.filename with
  | none => (.error .fileNotFoundError, s)
  | some p =>
    (.ok (), { s with files := Function.update s.files p (some (saveInsp c.text c.np2
      ((List.range c.n).map fun (i : Nat) => stateVal c.val (s.session.grains i)))) })

/-- Events: those of `Model/InspSession.lean` (buttons and the mouse), texts submitted, texts
changed and the button to save a file (`inspector.py:71-95`). -/
inductive WindowEvent where
  | plain (e : InspEvent)
  | goto (t : Str)
  | remove (t : Str)
  | rdr (t : Str)
  | name (t : Str)
  | save

/-- One event (`inspector.py:71-95`). -/
noncomputable def windowStep {P F : Type} [DecidableEq P] (c : InspCfg P F) (s : InspWindow P) :
    WindowEvent → WindowOut P
  | .plain e => s.on (inspStep c.n c.correction c.traces s.session e)
  | .goto t => gotoText c t s
  | .remove t => removeText c t s
  | .rdr t => rdrText c t s
  | .name t => nameText t s
  | .save => saveWindow c s

/-- A session of events, whether they end well or not (`inspector.py:71-95`). -/
noncomputable def windowRun {P F : Type} [DecidableEq P] (c : InspCfg P F) (s : InspWindow P)
    (es : List WindowEvent) : InspWindow P :=
  es.foldl (fun s e => (windowStep c s e).2) s

end DefDAP
