import Verif.Model.Dic
import Verif.Model.Num
import Verif.Model.Text

/-!
The interactive tool for homologous points: `experiment.py:172-311` with `MapPlot.add_points`
(`plotting.py:604-630`), and the click handling shared by the map tools (`base.py:194-204, 346-356`).
-/

namespace DefDAP

/-- `homog_points`: a list, or the array given to `set_homog_points` (`experiment.py:177-185`). -/
inductive PointStore where
  | list (l : List (Int × Int)) | array (l : List (Int × Int))

/-- The points in it (`experiment.py:209-211`). -/
def PointStore.pts : PointStore → List (Int × Int)
  | .list l => l
  | .array l => l

/-- `homog_points.append(p)` (`experiment.py:307`): arrays have no `append`. -/
def PointStore.append (s : PointStore) (p : Int × Int) : Except Err PointStore :=
  match s with
  | .list l => .ok (.list (l ++ [p]))
  | .array _ => .error .attributeError

/-- The frame's points and the two point layers of the plot (`experiment.py:208-217`): the saved
points as drawn, and the selected point, `none` where the plot holds `None`, that is `nan`. -/
structure HomogSt where
  points : PointStore
  shown : List (ℚ × ℚ)
  sel : Option (ℚ × ℚ)

/-- Saved points as drawn, `np.array(homog_points) * binning` (`experiment.py:210-211,310-311`). -/
def drawn (binning : ℚ) (l : List (Int × Int)) : List (ℚ × ℚ) :=
  l.map fun p => (p.1 * binning, p.2 * binning)

/-- Opening the tool (`experiment.py:205-217`). -/
def homogOpen (binning : ℚ) (points : PointStore) : HomogSt := ⟨points, drawn binning points.pts, none⟩

/-- What the user does: a mouse click (whether it is on the map, the button, the key held down, the
position), a key, the button `Save point` (`experiment.py:218-226, 245, 262`). -/
inductive HomogEvent where
  | click (inAxes : Bool) (button : Nat) (key : Option Str) (x y : ℚ)
  | key (key : Option Str)
  | save

/-- `homog_click` (`experiment.py:228-246`). -/
def homogClick (st : HomogSt) (inAxes : Bool) (button : Nat) (key : Option Str) (x y : ℚ) : HomogSt :=
  if !inAxes then st
  else if button = 3 ∨ (button = 1 ∧ key = some (lit "shift")) then
    { st with sel := some ((truncInt x : ℚ), (truncInt y : ℚ)) }
  else st

/-- The distance of a key press (`experiment.py:272`). -/
def keyMove (keys : List Str) : ℚ := if keys.length = 2 ∧ keys[0]? = some (lit "shift") then 10 else 1

/-- The direction of a key, `experiment.py:261-280`. -/
def keyDir (key : Str) : Option (ℚ × ℚ) :=
  if key = lit "left" then some (-1, 0) else if key = lit "right" then some (1, 0)
  else if key = lit "up" then some (0, -1) else if key = lit "down" then some (0, 1) else none

/-- `homog_key` for a key (`experiment.py:261-282`). Moving `nan` leaves `nan`. -/
def homogMove (st : HomogSt) (key : Str) : HomogSt :=
  let keys := splitSep '+' key
  match keyDir (keys.getLastD []) with
  | none => st
  | some d =>
    { st with sel := st.sel.map fun p => (p.1 + d.1 * keyMove keys, p.2 + d.2 * keyMove keys) }

/-- `homog_click_save` (`experiment.py:284-311`): the selected point is taken off the plot before
the point is stored. -/
def homogSave (binning : ℚ) (st : HomogSt) : Except Err Unit × HomogSt :=
  match st.sel with
  | none => (.ok (), st)
  | some p =>
    let q := (roundEven (p.1 / binning), roundEven (p.2 / binning))
    match st.points.append q with
    | .error e => (.error e, { st with sel := none })
    | .ok ps => (.ok (), ⟨ps, drawn binning ps.pts, none⟩)

/-- One event. A key event without a key is an error (`None.split`) (`experiment.py:228-311`). -/
def homogStep (binning : ℚ) (st : HomogSt) : HomogEvent → Except Err Unit × HomogSt
  | .click a b k x y => (.ok (), homogClick st a b k x y)
  | .key none => (.error .attributeError, st)
  | .key (some k) => (.ok (), homogMove st k)
  | .save => homogSave binning st

/-- A session: errors in a handler are printed by matplotlib and the session goes on
(`experiment.py:228-311`). -/
def homogRun (binning : ℚ) (st : HomogSt) (es : List HomogEvent) : HomogSt :=
  es.foldl (fun st e => (homogStep binning st e).2) st

/-- The pixel a click takes, `int(event.ydata), int(event.xdata)`, and the grain there
(`base.py:200-203, 352-355`): `none` if the click is not on the map or not on a grain. -/
def clickMapGrain (h w : Nat) (grains : Img Int) (inAxes : Bool) (x y : ℚ) : Except Err (Option Int) :=
  if !inAxes then .ok none
  else (npRead h w grains (truncInt x, truncInt y)).bind fun g =>
    .ok (if g - 1 < 0 then none else some (g - 1))

end DefDAP
