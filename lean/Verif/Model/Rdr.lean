import Verif.Model.Num
import Verif.Model.Dic
import Verif.Model.Inspector

/-!
Measuring relative displacement ratios in the grain inspector, `GrainInspector.calc_rdr`
(`inspector.py:374-436`), and the report of all grains, `batch_run_sta` (`inspector.py:352-372`).
The pixels of a line (`skimage.draw.line`) are a parameter.
-/

namespace DefDAP

/-- `tuples` (`inspector.py:399-401`): `(x_new, y_new)` for each multiple of 45 degrees. -/
def rdrTuples : List (List (Int × Int)) :=
  [[(-1, 0), (0, 0), (1, 0)], [(1, -1), (0, 0), (-1, 1)], [(0, -1), (0, 0), (0, 1)],
   [(1, 1), (0, 0), (-1, -1)], [(-1, 0), (0, 0), (1, 0)]]

/-- The order of `np.unique` for rows (`inspector.py:405`). -/
def rowLe (a b : Int × Int) : Bool := decide (a.1 < b.1 ∨ a.1 = b.1 ∧ a.2 ≤ b.2)

/-- `num` (`inspector.py:404`) for a length of line: its last entry, zero if there is none. -/
def rdrReach (length : Int) : Nat := (truncInt ((length - 1 : Int) / 2)).toNat

/-- `coordinateOffsets` (`inspector.py:399-405`). With `num` empty, the array is one of floats that
can not be used as index later. -/
def rdrOffsets (length : Int) (angle : ℚ) : Except Err (List (Int × Int)) :=
  (pyIndex 5 (roundEven (angle / 45))).bind fun k =>
    if rdrReach length = 0 then .error .indexError
    else .ok (((((List.range (rdrReach length)).map fun (i : Nat) =>
      (rdrTuples.getD k []).map fun t => (t.1 * ((i : Int) + 1), t.2 * ((i : Int) + 1))).flatten).dedup).mergeSort
        rowLe)

/-- `u - np.mean(u, axis=1)[:, None]` (`inspector.py:425-427`) for one row. -/
def centred {K : Type} [Field K] (l : List K) : List K := l.map fun v => v - l.sum / l.length

/-- The values across one pixel of a line (`inspector.py:414-423`). -/
def rdrRow {K : Type} (h w : Nat) (im : Img K) (ext : Int × Int) (offsets : List (Int × Int))
    (p : Int × Int) : Except Err (List K) :=
  offsets.mapM fun o => npRead h w im (p.1 + o.1 + ext.1, p.2 + o.2 + ext.2)

/-- All centred values along some pixels (`inspector.py:408-427`), flattened (`inspector.py:430`). -/
def rdrValues {K : Type} [Field K] (h w : Nat) (im : Img K) (ext : Int × Int)
    (offsets : List (Int × Int)) (pixels : List (Int × Int)) : Except Err (List K) :=
  (pixels.mapM fun p => (rdrRow h w im ext offsets p).map centred).map List.flatten

/-- `scipy.stats.linregress(x, y).slope` (`inspector.py:430`): no values, or all `x` the same, is a
`ValueError`. -/
noncomputable def linregressSlope {K : Type} [Field K] (x y : List K) : Except Err K :=
  match x with
  | [] => .error .valueError
  | a :: _ =>
    open Classical in if ∀ b ∈ x, b = a then .error .valueError
    else .ok ((List.zipWith (· * ·) (centred x) (centred y)).sum / ((centred x).map fun v => v * v).sum)

/-- The measurement (`inspector.py:396-430`): `u` and `v` are the displacement, `ext` the first corner
of the grain, `lines` the pixels of each line. The values of `u` are read before those of `v`. -/
noncomputable def measureRdr {K : Type} [Field K] (h w : Nat) (u v : Img K) (ext : Int × Int) (length : Int)
    (angle : ℚ) (lines : List (List (Int × Int))) : Except Err K :=
  (rdrOffsets length angle).bind fun offsets =>
    (rdrValues h w u ext offsets lines.flatten).bind fun us =>
      (rdrValues h w v ext offsets lines.flatten).bind fun vs => linregressSlope vs us

/-- The pixels of a line (`inspector.py:408-412`) by `skimage.draw.line`. -/
def linePixels (draw : Int → Int → Int → Int → List (Int × Int)) (l : SlipLine) :
    Except Err (List (Int × Int)) :=
  match l.points with
  | [x0, y0, x1, y1] => .ok (draw (truncInt x0) (truncInt y0) (truncInt x1) (truncInt y1))
  | _ => .error .valueError

/-- `calc_rdr` (`inspector.py:374-433`). `point_array[:, 0]` of no lines is an `IndexError`. -/
noncomputable def calcRdr (draw : Int → Int → Int → Int → List (Int × Int)) (h w : Nat) (u v : Img ℚ)
    (ext : Int × Int) (length : Int) (st : LineState) (group : Int) : Except Err LineState :=
  if st.lines = [] then .error .indexError
  else
    (pyIndex st.groups.length group).bind fun k =>
      match st.groups[k]? with
      | none => .error .indexError
      | some g =>
        ((st.lines.filter fun l => decide (l.group = group)).mapM (linePixels draw)).bind fun lines =>
          (measureRdr h w u v ext length g.angle lines).bind fun slope =>
            .ok { st with groups := st.groups.set k { g with rdr := some slope } }

/-! ### The report -/

/-- What the report needs of a DIC grain: its lines and groups, and the Euler angles and Schmid
factors of its EBSD grain (`inspector.py:363-371`). -/
structure ReportGrain where
  st : LineState
  eulers : ℝ × ℝ × ℝ
  schmid : List (List ℝ)

/-- A row of the report (`inspector.py:366-371`), before printing. -/
structure ReportRow where
  grain : Nat
  eulers : ℝ × ℝ × ℝ
  maxSchmid : ℝ
  group : SlipGroup

/-- `np.max` of a list; `ValueError` for none (`inspector.py:366`). -/
noncomputable def npMaxList : List ℝ → Except Err ℝ
  | [] => .error .valueError
  | a :: l => .ok (l.foldl (fun m x => open Classical in if m < x then x else m) a)

/-- The rows of one grain (`inspector.py:362-372`); `selected` are the Euler angles of the grain shown in
the inspector. -/
noncomputable def reportGrain (selected : ℝ × ℝ × ℝ) (idx : Nat) (g : ReportGrain) :
    Except Err (List ReportRow) :=
  if g.st.lines = [] then .ok []
  else g.st.groups.mapM fun grp => (npMaxList g.schmid.flatten).map fun m => ⟨idx, selected, m, grp⟩

/-- `batch_run_sta` (`inspector.py:352-372`). -/
noncomputable def batchReport (selected : ℝ × ℝ × ℝ) (grains : List ReportGrain) :
    Except Err (List ReportRow) :=
  ((grains.zipIdx.mapM fun g => reportGrain selected g.2 g.1)).map List.flatten

end DefDAP
