import Verif.Model.Basic
import Verif.Model.Text
import Mathlib.Data.Real.Basic
import Mathlib.Algebra.Order.Floor.Ring
import Mathlib.Algebra.Order.Archimedean.Basic
import Mathlib.Algebra.Order.Archimedean.Real.Basic
import Mathlib.Data.List.Sort

/-! Model of the statistics table of a DIC map (`hrdic.py:276-312`). -/

namespace DefDAP

/-- An array of map data: the leading dimensions (`[]` for a scalar, `[2, 2]` for a tensor map) and
the values of each component, `none` is nan (`hrdic.py:310-311`). -/
structure StatData where
  dims : List Nat
  vals : List Nat → List (Option ℝ)

/-- `np.ndindex` (`hrdic.py:310`). -/
def ndindex : List Nat → List (List Nat)
  | [] => [[]]
  | d :: ds => (List.range d).flatMap fun i => (ndindex ds).map (i :: ·)

/-- Sorted values (`hrdic.py:311`). -/
noncomputable def sortReal (l : List ℝ) : List ℝ := l.mergeSort fun a b => decide (a ≤ b)

/-- Linear interpolation between the entries of a list at a position (`hrdic.py:311`). -/
noncomputable def lerpAt (s : List ℝ) (h : ℝ) : ℝ :=
  s.getD ⌊h⌋₊ 0 + (h - ⌊h⌋₊) * (s.getD (min (⌊h⌋₊ + 1) (s.length - 1)) 0 - s.getD ⌊h⌋₊ 0)

/-- `np.nanpercentile` with its default interpolation (`hrdic.py:311`); nan if there are no values. -/
noncomputable def nanPercentile (l : List (Option ℝ)) (p : ℝ) : Except Err (Option ℝ) :=
  if p < 0 ∨ 100 < p then .error .valueError
  else if l.filterMap id = [] then .ok none
  else .ok (some (lerpAt (sortReal (l.filterMap id)) (p / 100 * ((l.filterMap id).length - 1 : ℕ))))

/-- `c+''.join([str(t+1) for t in i])` (`hrdic.py:312`). -/
def rowLabel (c : Str) (i : List Nat) : Str := c ++ i.flatMap fun t => (toString (t + 1)).toList

/-- A row of the table: label and values. The format of the numbers is left out (`hrdic.py:312`). -/
abbrev StatRow := Str × List (Option ℝ)

/-- The rows of one component (`hrdic.py:310-312`). A row is printed when its values are there. -/
noncomputable def statRows (c : Str) (d : StatData) (ps : List ℝ) :
    List (List Nat) → Except Err Unit × List StatRow
  | [] => (.ok (), [])
  | i :: is =>
    match ps.mapM (nanPercentile (d.vals i)) with
    | .error e => (.error e, [])
    | .ok per =>
      let r := statRows c d ps is
      (r.1, (rowLabel c i, per) :: r.2)

/-- The table (`hrdic.py:308-312`). `read` reads an item of the store; it may fail or have no data. -/
noncomputable def statTable (read : Str → Except Err (Option StatData)) (ps : List ℝ) :
    List Str → Except Err Unit × List StatRow
  | [] => (.ok (), [])
  | c :: cs =>
    match read c with
    | .error e => (.error e, [])
    | .ok none => (.error .attributeError, [])
    | .ok (some d) =>
      match statRows c d ps (ndindex d.dims) with
      | (.error e, rows) => (.error e, rows)
      | (.ok _, rows) =>
        let r := statTable read ps cs
        (r.1, rows ++ r.2)

/-- `print_stats_table` (`hrdic.py:276-312`); `names` are the names in the store. The first component of the
output is the heading: the percentiles, if it is printed. -/
noncomputable def printStats (names : List Str) (read : Str → Except Err (Option StatData))
    (ps : List ℝ) (components : List Str) : Except Err Unit × Option (List ℝ) × List StatRow :=
  if ∀ c ∈ components, c ∈ names then
    let r := statTable read ps components
    (r.1, some ps, r.2)
  else (.error .exception, none, [])

end DefDAP
