import Verif.Model.Datastore
import Verif.Model.Num

/-!
Model of the links between frames (`experiment.py:21-76, 109-130`) and of linking a DIC map
to an EBSD map (`hrdic.py:380-404`). Frames are named by numbers. The numerical estimation
of a transform and its inversion (scikit-image) are parameters.
-/

namespace DefDAP

/-- The scikit-image operations used: `estimate` makes a transform of the given type from source and
destination points and keyword arguments, `inverse` is the property of the same name. `apply` maps a
point (`experiment.py:45-50, 67-76`). -/
structure TransOps (P T : Type) where
  estimate : String → P → P → List (String × MVal) → T
  inverse : T → T
  apply : T → Rat × Rat → Rat × Rat

/-- `frame_relations` (`experiment.py:23`). -/
abbrev Relations := List ((Nat × Nat) × List (String × MVal))

/-- `link_frames` (`experiment.py:41-42`). -/
def linkFrames (rel : Relations) (f1 f2 : Nat) (props : List (String × MVal)) : Relations :=
  dset rel (f1, f2) props

/-- `transform_lookup` (`experiment.py:45-50`): the known names. -/
def transformTypes : List String := ["piecewise_affine", "projective", "polynomial", "affine"]

/-- `get_frame_transform` (`experiment.py:44-76`); `pts` are the homologous points of each
frame. A missing or unknown type raises KeyError (61, 62). -/
def getFrameTransform {P T : Type} (ops : TransOps P T) (pts : Nat → P) (rel : Relations)
    (f1 f2 : Nat) : Except Err T :=
  let forward := (dget rel (f1, f2)).isSome
  let reverse := (dget rel (f2, f1)).isSome
  if forward && reverse then .error .valueError
  else if !(forward || reverse) then .error .valueError
  else
    let frames := if forward then (f1, f2) else (f2, f1)
    match dget rel frames with
    | none => .error .keyError
    | some props =>
      match dget props "type" with
      | some (.str ty) =>
        if ty ∈ transformTypes then
          let calcInverse := ty = "polynomial"
          let frames := if reverse ∧ calcInverse then (frames.2, frames.1) else frames
          let t := ops.estimate ty (pts frames.1) (pts frames.2)
            (props.filter fun kv => kv.1 ≠ "type")
          .ok (if reverse ∧ ¬ calcInverse then ops.inverse t else t)
        else .error .keyError
      | _ => .error .keyError

/-- The frame part of `link_ebsd_map` (`hrdic.py:394-395`). -/
def linkEbsdMap (rel : Relations) (dic ebsd : Nat) (transformType : String)
    (kwargs : List (String × MVal)) : Relations :=
  linkFrames rel dic ebsd (dset kwargs "type" (.str transformType.toLower))

/-- `np.round(c - 0.5) + 0.5` (`experiment.py:128`). -/
def toHalf (c : Rat) : Rat := (roundEven (c - 1 / 2) : Rat) + 1 / 2

/-- `warp_lines` (`experiment.py:109-130`); a line is a pair of (x, y) points. -/
def warpLines {P T : Type} (ops : TransOps P T) (pts : Nat → P) (rel : Relations)
    (lines : List ((Rat × Rat) × (Rat × Rat))) (f1 f2 : Nat) :
    Except Err (List ((Rat × Rat) × (Rat × Rat))) :=
  match getFrameTransform ops pts rel f1 f2 with
  | .error e => .error e
  | .ok t => .ok (lines.map fun l =>
      let r := fun p : Rat × Rat =>
        let q := ops.apply t p
        (toHalf q.1, toHalf q.2)
      (r l.1, r l.2))

end DefDAP
