import Verif.Model.Basic
import Mathlib.Data.Real.Basic
import Mathlib.Analysis.SpecialFunctions.Trigonometric.Basic

/-! Model of the detection of slip bands (`hrdic.py:816-874`). The Radon transform of scikit-image and
the peak finder of peakutils are parameters; nan is `none`. The data has no infinite values, which
`nan_to_num` would replace by large numbers. The data of a grain is never empty. -/

namespace DefDAP

/-- An image with finite values (`hrdic.py:838-863`). -/
abbrev FGrid (h w : Nat) := Fin h → Fin w → ℝ

/-- `np.nan_to_num` (`hrdic.py:838`). -/
noncomputable def nanToNum {h w : Nat} (d : Fin h → Fin w → Option ℝ) : FGrid h w :=
  fun y x => (d y x).getD 0

/-- The absolute value, taken if there are negative values (`hrdic.py:840-843`). -/
noncomputable def absIfNegative {h w : Nat} (d : FGrid h w) : FGrid h w :=
  open Classical in if ∃ y x, d y x < 0 then fun y x => |d y x| else d

/-- The support of the grain (`hrdic.py:844-846`). -/
noncomputable def support {h w : Nat} (d : FGrid h w) : FGrid h w :=
  open Classical in fun y x => if d y x ≠ 0 then 1 else 0

/-- `np.sum(supp_1, axis=0)` (`hrdic.py:849-853`): the number of rays of a direction that meet the
support. -/
noncomputable def diameter {R : Nat} (supp : FGrid R 180) (a : Fin 180) : ℝ :=
  open Classical in ∑ r : Fin R, if 0 < supp r a then 1 else 0

/-- `mindiam` (`hrdic.py:853`). -/
noncomputable def minDiameter {R : Nat} (supp : FGrid R 180) : ℝ :=
  Finset.univ.inf' Finset.univ_nonempty (diameter supp)

/-- `crop_map` (`hrdic.py:854-858`). -/
noncomputable def cropMap {R : Nat} (sino supp : FGrid R 180) : FGrid R 180 :=
  open Classical in fun r a =>
    if minDiameter supp * 2 / 3 < supp r a then sino r a / supp r a else 0

/-- `np.sum(supp_crop, axis=0)` (`hrdic.py:859-863`). -/
noncomputable def cropCount {R : Nat} (crop : FGrid R 180) (a : Fin 180) : ℝ :=
  open Classical in ∑ r : Fin R, if 0 < crop r a then 1 else 0

/-- `profile` (`hrdic.py:863`): zero divided by zero is nan. The sum is zero if the count is, as the
values of the crop are not negative. -/
noncomputable def bandProfile {R : Nat} (crop : FGrid R 180) (a : Fin 180) : Option ℝ :=
  open Classical in
  if cropCount crop a = 0 then none else some ((∑ r : Fin R, crop r a ^ 4) / cropCount crop a)

/-- The peak finder called with a profile, threshold and distance (`hrdic.py:867`). -/
abbrev PeakFinder := (Fin 180 → Option ℝ) → ℝ → Nat → List (Fin 180)

/-- The profile of the data of a grain (`hrdic.py:838-863`). -/
noncomputable def slipProfile {h w R : Nat} (radon : FGrid h w → FGrid R 180)
    (d : Fin h → Fin w → Option ℝ) : Fin 180 → Option ℝ :=
  let g := absIfNegative (nanToNum d)
  bandProfile (cropMap (radon g) (radon (support g)))

/-- `calc_slip_bands` (`hrdic.py:816-874`). -/
noncomputable def calcSlipBands {h w R : Nat} (radon : FGrid h w → FGrid R 180) (peaks : PeakFinder)
    (d : Fin h → Fin w → Option ℝ) (thres : Option ℝ) (minDist : Option Nat) : List ℝ :=
  (peaks (slipProfile radon d) (thres.getD (3 / 10)) (minDist.getD 30)).map fun k : Fin 180 =>
    ((k : Nat) : ℝ) * Real.pi / 180

end DefDAP
