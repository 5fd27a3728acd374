import Verif.Model.Text

/-!
Model of the loaders of DIC data (`file_readers.py:605-909`), from the numbers in the file on.
Floats are rationals. An array with rows and columns is a function of row and column; a list of
numbers from it is in row-major order.
-/

namespace DefDAP

/-- `a.flat` (`file_readers.py:666-667`). -/
def rowMajor {α : Type} (rows cols : Nat) (a : Nat → Nat → α) : List α :=
  (List.range rows).flatMap fun r => (List.range cols).map (a r)

/-- `abs(np.diff(l))` (`file_readers.py:666-667`). -/
def absDiffs (l : List ℚ) : List ℚ := List.zipWith (fun a b => |b - a|) l l.tail

/-- `min(l)`; a `ValueError` if empty (`file_readers.py:666`). -/
def minOf : List ℚ → Except Err ℚ
  | [] => .error .valueError
  | a :: t => .ok (t.foldl min a)

/-- `max(l)`; a `ValueError` if empty (`file_readers.py:667`). -/
def maxOf : List ℚ → Except Err ℚ
  | [] => .error .valueError
  | a :: t => .ok (t.foldl max a)

/-- `astype(int)`, `int(q)`: towards zero (`file_readers.py:677, 778-779, 786`). -/
def truncInt (q : ℚ) : Int := if 0 ≤ q then ⌊q⌋ else ⌈q⌉

/-- Loaded data: coordinates and displacements. `rows` and `cols` are the shape of the arrays
(`file_readers.py:619-634`). -/
structure DicData where
  rows : Nat
  cols : Nat
  x : Nat → Nat → ℚ
  y : Nat → Nat → ℚ
  u : Nat → Nat → ℚ
  v : Nat → Nat → ℚ

/-- The metadata used: `shape` is rows and columns (`file_readers.py:610-617`). -/
structure DicMeta where
  binning : ℚ
  shape : Int × Int

/-- The second part of `check_data` (`file_readers.py:674-682`). With a binning of zero the code
casts an infinite or undefined value, which is not a shape. -/
def checkShape (m : DicMeta) (xs ys : List ℚ) : Except Err Unit :=
  (maxOf xs).bind fun x1 => (minOf xs).bind fun x0 =>
  (maxOf ys).bind fun y1 => (minOf ys).bind fun y0 =>
  if m.binning = 0 then .error .valueError
  else if (truncInt ((y1 - y0) / m.binning + 1), truncInt ((x1 - x0) / m.binning + 1)) = m.shape then
    .ok ()
  else .error .valueError

/-- `check_data` (`file_readers.py:659-682`). -/
def checkDic (m : DicMeta) (d : DicData) : Except Err Unit :=
  let xs := rowMajor d.rows d.cols d.x
  let ys := rowMajor d.rows d.cols d.y
  (minOf (absDiffs xs)).bind fun bx =>
  (maxOf (absDiffs ys)).bind fun by' =>
  if bx = by' ∧ by' = m.binning then checkShape m xs ys else .error .valueError

/-- A loader's result after its check (`file_readers.py:724, 798, 833, 909`). -/
def checkedDic (m : DicMeta) (d : DicData) : Except Err (DicMeta × DicData) :=
  (checkDic m d).bind fun _ => .ok (m, d)

/-- `data.reshape(shape + (-1,)).transpose((2, 0, 1))` of a table with `k` columns
(`file_readers.py:718-719`): entry `i` of a pixel. Negative dimensions are errors here. -/
def reshapeTable (k : Nat) (table : List (List ℚ)) (shape : Int × Int) :
    Except Err (Nat × (Nat → Nat → Nat → ℚ)) :=
  let n := shape.1.toNat * shape.2.toNat
  if 0 < shape.1 ∧ 0 < shape.2 ∧ (table.length * k) % n = 0 then
    let depth := table.length * k / n
    .ok (depth, fun i r c => table.flatten.getD ((r * shape.2.toNat + c) * depth + i) 0)
  else .error .valueError

/-- `DavisLoader.load` (`file_readers.py:702-724`), given the first line and the table with `k`
columns. Fewer than four entries per pixel would leave arrays incomplete, an error here. -/
def loadDavis (header : Str) (k : Nat) (table : List (List ℚ)) : Except Err (DicMeta × DicData) :=
  let words := splitWs header
  let word (i : Nat) : Except Err Str := match words[i]? with
    | some w => .ok w
    | none => .error .indexError
  (word 0).bind fun _ => (word 1).bind fun _ =>
  ((word 3).bind parseInt).bind fun b =>
  ((word 4).bind parseInt).bind fun rows =>
  ((word 5).bind parseInt).bind fun cols =>
  (reshapeTable k table (rows, cols)).bind fun a =>
  if a.1 < 4 then .error .indexError
  else checkedDic ⟨b, (rows, cols)⟩ ⟨rows.toNat, cols.toNat, a.2 0, a.2 1, a.2 2, a.2 3⟩

/-- The sub-window width from data in file order (`file_readers.py:777-781, 877-881`). -/
def dicBinning (xs ys : List ℚ) : Except Err Int :=
  (minOf (absDiffs xs)).bind fun bx =>
  (maxOf (absDiffs ys)).bind fun by' =>
  if truncInt bx = truncInt by' then .ok (truncInt bx) else .error .assertionError

/-- `np.all(np.diff(l)) > 0` (`file_readers.py:792, 826`): true unless a difference is zero. -/
def flipTest (l : List ℚ) : Bool := (List.zipWith (fun a b => b - a) l l.tail).all fun d => decide (d ≠ 0)

/-- One line of an OpenPIV text file (`file_readers.py:763-771`). -/
structure PivRow where
  x : ℚ
  y : ℚ
  u : ℚ
  v : ℚ

/-- `a[::-1]` (`file_readers.py:793, 827-828`). -/
def flipRows (rows : Nat) (a : Nat → Nat → ℚ) (r c : Nat) : ℚ := a (rows - 1 - r) c

/-- The array of a column of the file (`file_readers.py:785-796`). -/
def pivArray (table : List PivRow) (cols : Nat) (f : PivRow → ℚ) (r c : Nat) : ℚ :=
  (table.map f).getD (r * cols + c) 0

/-- `OpenPivTextLoader.load` (`file_readers.py:774-798`), given the table. If the data is not
flipped it is not brought into shape either, and `check_data` fails with a `ValueError` (or an
`AxisError`, which is one). A binning of zero gives an undefined shape, and negative shapes fail on
`reshape`, all `ValueError`s. -/
def loadPivText (table : List PivRow) : Except Err (DicMeta × DicData) :=
  (dicBinning (table.map PivRow.x) (table.map PivRow.y)).bind fun b =>
  (maxOf (table.map PivRow.y)).bind fun ymax =>
  (maxOf (table.map PivRow.x)).bind fun xmax =>
  if b = 0 then .error .valueError
  else
    let rows := truncInt ((ymax + b / 2) / b)
    let cols := truncInt ((xmax + b / 2) / b)
    if 0 < rows ∧ 0 < cols ∧ (table.length : Int) = rows * cols then
      let r := rows.toNat
      let c := cols.toNat
      if flipTest ((List.range r).map fun i => pivArray table c PivRow.y i 0) then
        checkedDic ⟨b, (rows, cols)⟩
          ⟨r, c, flipRows r (pivArray table c PivRow.x), flipRows r (pivArray table c PivRow.y),
            flipRows r (pivArray table c PivRow.u), flipRows r (pivArray table c PivRow.v)⟩
      else .error .valueError
    else .error .valueError

/-- `OpenPivBinaryLoader.load` (`file_readers.py:813-833`), given the arrays and metadata of the
file. -/
def loadPivBinary (m : DicMeta) (d : DicData) : Except Err (DicMeta × DicData) :=
  if flipTest ((List.range d.rows).map fun i => d.y i 0) then
    checkedDic m ⟨d.rows, d.cols, flipRows d.rows d.x, flipRows d.rows d.y, flipRows d.rows d.u,
      flipRows d.rows d.v⟩
  else checkedDic m d

/-- One row of a PyVale file: integer coordinates (`file_readers.py:851-862`). -/
structure ValeRow where
  x : Int
  y : Int
  u : ℚ
  v : ℚ

/-- `a[iy, ix] = values` for lists of indices (`file_readers.py:896-898`): later rows win. -/
def scatter (rows : List ValeRow) (ix iy : ValeRow → Int) (value : ValeRow → ℚ) (r c : Nat) : ℚ :=
  rows.foldl (fun acc p => if iy p = (r : Int) ∧ ix p = (c : Int) then value p else acc) 0

/-- The smallest and largest coordinate (`file_readers.py:886-887`). -/
def intRange : List Int → Except Err (Int × Int)
  | [] => .error .valueError
  | a :: t => .ok (t.foldl min a, t.foldl max a)

/-- `PyValeLoader.load` (`file_readers.py:873-909`), given the rows. A binning of zero fails when
the coordinates are made. -/
def loadPyVale (rows : List ValeRow) : Except Err (DicMeta × DicData) :=
  (dicBinning (rows.map fun p => (p.x : ℚ)) (rows.map fun p => (p.y : ℚ))).bind fun b =>
  (intRange (rows.map ValeRow.y)).bind fun ys =>
  (intRange (rows.map ValeRow.x)).bind fun xs =>
  if b = 0 then .error .zeroDivisionError
  else if (ys.2 - ys.1) % b = 0 ∧ (xs.2 - xs.1) % b = 0 then
    let nr := (ys.2 - ys.1) / b + 1
    let nc := (xs.2 - xs.1) / b + 1
    let iy (p : ValeRow) : Int := (p.y - ys.1) / b
    let ix (p : ValeRow) : Int := (p.x - xs.1) / b
    checkedDic ⟨b, (nr, nc)⟩
      ⟨nr.toNat, nc.toNat, fun _ c => (xs.1 : ℚ) + b * c, fun r _ => (ys.1 : ℚ) + b * r,
        scatter rows ix iy ValeRow.u, scatter rows ix iy ValeRow.v⟩
  else .error .assertionError

end DefDAP
