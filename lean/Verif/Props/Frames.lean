import Verif.Model.Frames
import Verif.Props.Datastore
import Verif.Proofs.GrainData
import Mathlib.Tactic.Ring

/-! C33, C81, C83: links between frames. -/

namespace DefDAP

namespace Spec

/-- The keyword arguments of the latest link from one frame to another, if there is one, in a
history of links (oldest first). -/
def latestLink (h : List ((Nat × Nat) × List (String × MVal))) (f1 f2 : Nat) :
    Option (List (String × MVal)) :=
  (h.reverse.find? fun l => decide (l.1 = (f1, f2))).map (·.2)

end Spec

/-- The relations after a history of links. -/
def relationsOf (h : List ((Nat × Nat) × List (String × MVal))) : Relations :=
  h.foldl (fun rel l => linkFrames rel l.1.1 l.1.2 l.2) []

theorem dget_find {κ α : Type} [DecidableEq κ] (l : List (κ × α)) (k : κ) :
    dget l k = (l.find? fun e => decide (e.1 = k)).map (·.2) := by
  induction l with
  | nil => rfl
  | cons a t ih =>
    simp only [dget, List.find?_cons]
    by_cases h : a.1 = k
    · simp [h]
    · simp [h, ih]

theorem dget_relations (h : List ((Nat × Nat) × List (String × MVal))) (f1 f2 : Nat) :
    dget (relationsOf h) (f1, f2) = Spec.latestLink h f1 f2 := by
  have : relationsOf h = dupdate [] h := rfl
  rw [this, dget_dupdate]
  simp [dget_find, Spec.latestLink]

section
variable {P T : Type} (ops : TransOps P T) (pts : Nat → P)
  (h : List ((Nat × Nat) × List (String × MVal))) (f1 f2 : Nat)

/-- **C33 (existence).** After any history of links: if the two frames were never linked, or
were linked in both directions, asking for their transform raises ValueError. -/
theorem C33_errors :
    (Spec.latestLink h f1 f2 = none ∧ Spec.latestLink h f2 f1 = none →
      getFrameTransform ops pts (relationsOf h) f1 f2 = .error .valueError) ∧
    ((Spec.latestLink h f1 f2).isSome ∧ (Spec.latestLink h f2 f1).isSome →
      getFrameTransform ops pts (relationsOf h) f1 f2 = .error .valueError) := by
  constructor
  · rintro ⟨h1, h2⟩
    unfold getFrameTransform
    simp [dget_relations, h1, h2]
  · rintro ⟨h1, h2⟩
    unfold getFrameTransform
    simp [dget_relations, h1, h2]

/-- **C33 (forward).** If the frames were linked from the first to the second only, and the
latest link names a known type, the transform is the estimate of that type from the first
frame's current points to the second's, with the other keyword arguments of the link. -/
theorem C33_forward (props : List (String × MVal)) (ty : String)
    (h1 : Spec.latestLink h f1 f2 = some props) (h2 : Spec.latestLink h f2 f1 = none)
    (hty : dget props "type" = some (.str ty)) (hk : ty ∈ transformTypes) :
    getFrameTransform ops pts (relationsOf h) f1 f2 =
      .ok (ops.estimate ty (pts f1) (pts f2) (props.filter fun kv => kv.1 ≠ "type")) := by
  unfold getFrameTransform
  simp [dget_relations, h1, h2, hty, hk]

/-- **C33 (reverse).** Whenever a transform exists from one frame to another that are linked
in this sense, the transform for the reverse direction exists too; it is the inverse of the
former, except for polynomial transforms, where it is an estimate of its own from the
swapped points. -/
theorem C33_reverse (props : List (String × MVal)) (ty : String)
    (h1 : Spec.latestLink h f1 f2 = some props) (h2 : Spec.latestLink h f2 f1 = none)
    (hty : dget props "type" = some (.str ty)) (hk : ty ∈ transformTypes) :
    (ty ≠ "polynomial" → ∃ t, getFrameTransform ops pts (relationsOf h) f1 f2 = .ok t ∧
      getFrameTransform ops pts (relationsOf h) f2 f1 = .ok (ops.inverse t)) ∧
    (ty = "polynomial" → getFrameTransform ops pts (relationsOf h) f2 f1 =
      .ok (ops.estimate ty (pts f2) (pts f1) (props.filter fun kv => kv.1 ≠ "type"))) := by
  constructor
  · intro hp
    refine ⟨_, C33_forward ops pts h f1 f2 props ty h1 h2 hty hk, ?_⟩
    unfold getFrameTransform
    simp [dget_relations, h1, h2, hty, hk, hp]
  · intro hp
    unfold getFrameTransform
    subst hp
    simp [dget_relations, h1, h2, hty, hk]

end

/-- **C81.** After a DIC map (frame `dic`) was linked to an EBSD map (frame `ebsd`, not
linked in the other direction), asking for the transform in either direction succeeds
exactly when the transform type, in lower case, is one of the four known names. -/
theorem C81_known_types {P T : Type} (ops : TransOps P T) (pts : Nat → P) (rel : Relations)
    (dic ebsd : Nat) (hne : dic ≠ ebsd) (hrev : dget rel (ebsd, dic) = none)
    (ty : String) (kwargs : List (String × MVal)) :
    (ty.toLower ∈ transformTypes →
      (∃ t, getFrameTransform ops pts (linkEbsdMap rel dic ebsd ty kwargs) dic ebsd = .ok t) ∧
      (∃ t, getFrameTransform ops pts (linkEbsdMap rel dic ebsd ty kwargs) ebsd dic = .ok t)) ∧
    (ty.toLower ∉ transformTypes →
      getFrameTransform ops pts (linkEbsdMap rel dic ebsd ty kwargs) dic ebsd = .error .keyError ∧
      getFrameTransform ops pts (linkEbsdMap rel dic ebsd ty kwargs) ebsd dic
        = .error .keyError) := by
  have e1 : dget (linkEbsdMap rel dic ebsd ty kwargs) (dic, ebsd)
      = some (dset kwargs "type" (.str ty.toLower)) := by
    unfold linkEbsdMap linkFrames; rw [dget_dset, if_pos rfl]
  have e2 : dget (linkEbsdMap rel dic ebsd ty kwargs) (ebsd, dic) = none := by
    unfold linkEbsdMap linkFrames
    rw [dget_dset, if_neg (by simp [hne])]; exact hrev
  have e3 : dget (dset kwargs "type" (.str ty.toLower)) "type" = some (.str ty.toLower) := by
    rw [dget_dset, if_pos rfl]
  refine ⟨fun hk => ⟨?_, ?_⟩, fun hk => ⟨?_, ?_⟩⟩
  all_goals
    unfold getFrameTransform
    simp [e1, e2, e3, hk]

/-- **C81 (the documented name is refused).** Of the three documented transform types,
`affine` and `polynomial` are usable and `piecewiseAffine` is not: every use of the link
raises KeyError, whatever the maps and points. -/
theorem C81_piecewise_affine {P T : Type} (ops : TransOps P T) (pts : Nat → P) (rel : Relations)
    (dic ebsd : Nat) (hne : dic ≠ ebsd) (hrev : dget rel (ebsd, dic) = none)
    (kwargs : List (String × MVal)) :
    getFrameTransform ops pts (linkEbsdMap rel dic ebsd "piecewiseAffine" kwargs) dic ebsd
      = .error .keyError ∧
    (∃ t, getFrameTransform ops pts (linkEbsdMap rel dic ebsd "affine" kwargs) dic ebsd = .ok t) ∧
    (∃ t, getFrameTransform ops pts (linkEbsdMap rel dic ebsd "polynomial" kwargs) dic ebsd
      = .ok t) :=
  ⟨((C81_known_types ops pts rel dic ebsd hne hrev "piecewiseAffine" kwargs).2
      (by decide +kernel)).1,
    ((C81_known_types ops pts rel dic ebsd hne hrev "affine" kwargs).1 (by decide +kernel)).1,
    ((C81_known_types ops pts rel dic ebsd hne hrev "polynomial" kwargs).1
      (by decide +kernel)).1⟩

/-- **C83.** Warping boundary lines keeps their number and order, and puts each end on a
half-integer position (a corner between pixels) no further than half a pixel, in each
direction, from its exact image under the frame transform. -/
theorem C83_warp_lines {P T : Type} (ops : TransOps P T) (pts : Nat → P) (rel : Relations)
    (lines : List ((Rat × Rat) × (Rat × Rat))) (f1 f2 : Nat) (t : T)
    (ht : getFrameTransform ops pts rel f1 f2 = .ok t) :
    ∃ out, warpLines ops pts rel lines f1 f2 = .ok out ∧ out.length = lines.length ∧
      ∀ (i : Nat) l l', lines[i]? = some l → out[i]? = some l' →
        ∀ p ∈ [(ops.apply t l.1, l'.1), (ops.apply t l.2, l'.2)],
          (∃ a : Int, p.2.1 = a + 1 / 2) ∧ (∃ a : Int, p.2.2 = a + 1 / 2) ∧
          |p.2.1 - p.1.1| ≤ 1 / 2 ∧ |p.2.2 - p.1.2| ≤ 1 / 2 := by
  have hh : ∀ c : Rat, (∃ a : Int, toHalf c = a + 1 / 2) ∧ |toHalf c - c| ≤ 1 / 2 := by
    intro c
    refine ⟨⟨_, rfl⟩, ?_⟩
    have := roundEven_close (c - 1 / 2)
    unfold toHalf
    rwa [show (roundEven (c - 1 / 2) : Rat) + 1 / 2 - c = roundEven (c - 1 / 2) - (c - 1 / 2) by ring]
  refine ⟨_, by unfold warpLines; rw [ht], by simp, ?_⟩
  intro i l l' hl hl' p hp
  rw [List.getElem?_map, hl] at hl'
  simp only [Option.map_some, Option.some.injEq] at hl'
  subst hl'
  simp only [List.mem_cons, List.not_mem_nil, or_false] at hp
  rcases hp with rfl | rfl
  · exact ⟨(hh _).1, (hh _).1, (hh _).2, (hh _).2⟩
  · exact ⟨(hh _).1, (hh _).1, (hh _).2, (hh _).2⟩

/-! ### Examples: translations estimated from one point pair. -/

namespace FramesEx

def ops : TransOps (Rat × Rat) (Rat × Rat) where
  estimate := fun _ a b _ => (b.1 - a.1, b.2 - a.2)
  inverse := fun t => (-t.1, -t.2)
  apply := fun t p => (p.1 + t.1, p.2 + t.2)

def pts : Nat → Rat × Rat
  | 0 => (1, 1)
  | 1 => (4, 7 / 3)
  | _ => (0, 0)

def hist : List ((Nat × Nat) × List (String × MVal)) :=
  [((0, 1), [("type", .str "projective")]), ((2, 0), [("type", .str "affine")]),
   ((0, 1), [("order", .int 2), ("type", .str "affine")]), ((0, 2), [("type", .str "affine")])]

example : Spec.latestLink hist 0 1 = some [("order", .int 2), ("type", .str "affine")] ∧
    Spec.latestLink hist 1 0 = none ∧
    getFrameTransform ops pts (relationsOf hist) 0 1 = .ok (3, 4 / 3) ∧
    getFrameTransform ops pts (relationsOf hist) 1 0 = .ok (-3, -4 / 3) ∧
    getFrameTransform ops pts (relationsOf hist) 2 0 = .error .valueError ∧
    getFrameTransform ops pts (relationsOf hist) 1 2 = .error .valueError := by decide +kernel

example : getFrameTransform ops pts (relationsOf hist) 1 0 = .ok (ops.inverse (3, 4 / 3)) := by
  obtain ⟨t, h1, h2⟩ := (C33_reverse ops pts hist 0 1 [("order", .int 2), ("type", .str "affine")]
    "affine" (by decide +kernel) (by decide +kernel) (by decide) (by decide)).1 (by decide)
  have : t = (3, 4 / 3) := by
    have h3 : getFrameTransform ops pts (relationsOf hist) 0 1 = .ok (3, 4 / 3) := by
      decide +kernel
    rw [h3] at h1
    exact (Except.ok.inj h1).symm
  rw [h2, this]

example : warpLines ops pts (relationsOf hist) [((1 / 2, 1 / 2), (3 / 2, 1 / 2))] 0 1
    = .ok [((7 / 2, 3 / 2), (9 / 2, 3 / 2))] := by decide +kernel

end FramesEx

end DefDAP
