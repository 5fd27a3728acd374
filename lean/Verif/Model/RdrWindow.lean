import Verif.Model.Rdr
import Verif.Model.Text

/-! Model of the window that shows a measured relative displacement ratio (`inspector.py:429-588`): the
regression, the text on the slip systems and the labels of the number line. Axes, fonts and the format of
numbers are left out. -/

namespace DefDAP

/-- What the window needs of the slip systems `S` of the EBSD grain: labels, the theoretical ratio, the trace
angle in degrees of the plane of a system, and the Schmid factors if they were calculated. Ratios and trace
angles are calculated anew (`inspector.py:512-513`); infinite ratios are not modelled. -/
structure RdrInfo (S : Type) where
  planes : List (List S)
  planeLabel : S → Str
  dirLabel : S → Str
  ratio : S → ℝ
  trace : S → ℝ
  schmid : Option (S → ℝ)

/-- The text of a slip plane (`inspector.py:528-546`). -/
structure RdrBlock where
  plane : Str
  angle : ℝ
  rows : List (Str × ℝ × ℝ)
  bold : Bool
  y : ℝ

/-- Least value (`np.min`) of a list that is not empty (`inspector.py:502-503`). -/
noncomputable def leastOf (l : List ℝ) : ℝ := l.foldl min (l.headD 0)

/-- Greatest value (`np.max`) of a list that is not empty (`inspector.py:502-503`). -/
noncomputable def greatestOf (l : List ℝ) : ℝ := l.foldl max (l.headD 0)

/-- `linregress(x, y).intercept` (`inspector.py:430, 497`). -/
noncomputable def linregressIntercept (slope : ℝ) (x y : List ℝ) : ℝ :=
  y.sum / y.length - slope * (x.sum / x.length)

/-- The text of the planes from number `i` on, at offset `off` (`inspector.py:526-548`): a line for the
plane and one for each system. -/
noncomputable def rdrBlocks {S : Type} (info : RdrInfo S) (sf : S → ℝ) (active : List Nat) :
    Nat → ℝ → List (List S) → Except Err (List RdrBlock)
  | _, _, [] => .ok []
  | _, _, [] :: _ => .error .indexError
  | i, off, (s :: g) :: rest =>
    (rdrBlocks info sf active (i + 1) (off + 0.0275 * ((s :: g).length + 1)) rest).map fun bs =>
      ⟨info.planeLabel s, info.trace s, (s :: g).map fun t => (info.dirLabel t, sf t, info.ratio t),
        decide (i ∈ active), 0.9 - off⟩ :: bs

/-- The labels of the number line (`inspector.py:550-585`): a ratio and the systems that have it. The order
of the ratios, that of a set, is arbitrary in the code. -/
noncomputable def rdrLabels {S : Type} (info : RdrInfo S) (slope : ℝ) : List (ℝ × List S) :=
  open Classical in
  (((info.planes.map fun g => g.map info.ratio).flatten.dedup).filter fun r =>
    decide (slope - 1.5 < r ∧ r < slope + 1.5)).map fun r =>
      (r, info.planes.flatMap fun g => g.filter fun s => decide (info.ratio s = r))

/-- The window (`inspector.py:501-523, 542-546, 584-585`). -/
structure RdrWindow (S : Type) where
  lineStart : ℝ × ℝ
  lineEnd : ℝ × ℝ
  count : Nat
  blocks : List RdrBlock
  labels : List (ℝ × List S)

/-- `plot_rdr` (`inspector.py:438-588`) of centred values in rows. -/
noncomputable def plotRdr {S : Type} (info : RdrInfo S) (active : List Nat) (us vs : List (List ℝ))
    (slope : ℝ) : Except Err (RdrWindow S) :=
  let c := linregressIntercept slope vs.flatten us.flatten
  let lo := leastOf vs.flatten
  let hi := greatestOf vs.flatten
  open Classical in if [] ∈ info.planes then .error .indexError
  else match info.schmid with
  | none => .error .exception
  | some sf => (rdrBlocks info sf active 0 0 info.planes).map fun blocks =>
    ⟨(lo, slope * lo + c), (hi, slope * hi + c), us.length, blocks, rdrLabels info slope⟩

/-- The end of `calc_rdr` (`inspector.py:423-436`) for the displacements in rows across the lines: the ratio
saved, and the window. -/
noncomputable def finishRdr {S : Type} (info : RdrInfo S) (active : List Nat) (u v : List (List ℝ)) :
    Option ℝ × Except Err (RdrWindow S) :=
  match linregressSlope (v.map centred).flatten (u.map centred).flatten with
  | .error e => (none, .error e)
  | .ok slope => (some slope, plotRdr info active (u.map centred) (v.map centred) slope)

end DefDAP
