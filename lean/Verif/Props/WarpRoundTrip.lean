import Verif.Props.Frames

/-!
C159: boundary lines warped between frames: outlines stay closed, lines keep their length up to a pixel, and
lines of a coarse map come back from a finer frame as they were.
-/

namespace DefDAP

/-- A corner between pixels. -/
def Spec.Corner (p : Rat × Rat) : Prop := (∃ a : Int, p.1 = a + 1 / 2) ∧ ∃ a : Int, p.2 = a + 1 / 2

/-- The transform brings points closer together, by a factor of at most `k` in each direction. -/
def Spec.Shrinks (f : Rat × Rat → Rat × Rat) (k : Rat) : Prop :=
  ∀ (p q : Rat × Rat) (d : Rat), |p.1 - q.1| ≤ d → |p.2 - q.2| ≤ d →
    |(f p).1 - (f q).1| ≤ k * d ∧ |(f p).2 - (f q).2| ≤ k * d

/-- Each line begins where the one before it ends. -/
def Spec.Outline : List ((Rat × Rat) × (Rat × Rat)) → Prop
  | [] => True
  | [_] => True
  | a :: b :: l => a.2 = b.1 ∧ Spec.Outline (b :: l)

theorem toHalf_near {c : Rat} {a : Int} (h : |c - (a + 1 / 2)| < 1 / 2) : toHalf c = a + 1 / 2 := by
  have h1 := abs_le.1 (roundEven_close (c - 1 / 2))
  have h2 := abs_lt.1 h
  have h3 : (roundEven (c - 1 / 2) : Rat) < a + 1 := by linarith
  have h4 : (a : Rat) - 1 < roundEven (c - 1 / 2) := by linarith
  have h5 : roundEven (c - 1 / 2) < a + 1 := by exact_mod_cast h3
  have h6 : a - 1 < roundEven (c - 1 / 2) := by exact_mod_cast h4
  have : roundEven (c - 1 / 2) = a := by omega
  unfold toHalf
  rw [this]

theorem toHalf_close (c : Rat) : |toHalf c - c| ≤ 1 / 2 := by
  have := roundEven_close (c - 1 / 2)
  unfold toHalf
  rwa [show (roundEven (c - 1 / 2) : Rat) + 1 / 2 - c = roundEven (c - 1 / 2) - (c - 1 / 2) by ring]

section
variable {P T : Type} (ops : TransOps P T) (pts : Nat → P) (rel : Relations)
  (lines : List ((Rat × Rat) × (Rat × Rat))) (f1 f2 : Nat)

/-- The image of one end of a line. -/
def warpEnd (t : T) (p : Rat × Rat) : Rat × Rat := (toHalf (ops.apply t p).1, toHalf (ops.apply t p).2)

theorem warpLines_eq {t : T} (ht : getFrameTransform ops pts rel f1 f2 = .ok t) :
    warpLines ops pts rel lines f1 f2 = .ok (lines.map fun l => (warpEnd ops t l.1, warpEnd ops t l.2)) := by
  unfold warpLines
  rw [ht]
  rfl

/-- **C159** Lines that meet still meet: an outline stays an outline, and a closed one is still closed. -/
theorem C159_outline (t : T) (ht : getFrameTransform ops pts rel f1 f2 = .ok t) :
    ∃ out, warpLines ops pts rel lines f1 f2 = .ok out ∧
      (Spec.Outline lines → Spec.Outline out) ∧
      ∀ (i j : Nat) a b a' b', lines[i]? = some a → lines[j]? = some b → out[i]? = some a' → out[j]? = some b' →
        (a.2 = b.1 → a'.2 = b'.1) ∧ (a.1 = b.1 → a'.1 = b'.1) ∧ (a.2 = b.2 → a'.2 = b'.2) := by
  refine ⟨_, warpLines_eq ops pts rel lines f1 f2 ht, ?_, ?_⟩
  · induction lines with
    | nil => exact id
    | cons a l ih =>
      cases l with
      | nil => exact id
      | cons b l =>
        rintro ⟨h1, h2⟩
        exact ⟨by simp only [h1], ih h2⟩
  · intro i j a b a' b' ha hb ha' hb'
    rw [List.getElem?_map, ha] at ha'
    rw [List.getElem?_map, hb] at hb'
    simp only [Option.map_some, Option.some.injEq] at ha' hb'
    subst ha' hb'
    exact ⟨fun h => by simp only [h], fun h => by simp only [h], fun h => by simp only [h]⟩

/-- **C159** From its begin to its end a warped line goes as far as the exact image of the line, up to one
pixel in each direction. -/
theorem C159_length (t : T) (ht : getFrameTransform ops pts rel f1 f2 = .ok t) :
    ∃ out, warpLines ops pts rel lines f1 f2 = .ok out ∧
      ∀ (i : Nat) a a', lines[i]? = some a → out[i]? = some a' →
        |(a'.2.1 - a'.1.1) - ((ops.apply t a.2).1 - (ops.apply t a.1).1)| ≤ 1 ∧
        |(a'.2.2 - a'.1.2) - ((ops.apply t a.2).2 - (ops.apply t a.1).2)| ≤ 1 := by
  refine ⟨_, warpLines_eq ops pts rel lines f1 f2 ht, fun i a a' ha ha' => ?_⟩
  rw [List.getElem?_map, ha] at ha'
  simp only [Option.map_some, Option.some.injEq] at ha'
  subst ha'
  have h1 := abs_le.1 (toHalf_close (ops.apply t a.1).1)
  have h2 := abs_le.1 (toHalf_close (ops.apply t a.1).2)
  have h3 := abs_le.1 (toHalf_close (ops.apply t a.2).1)
  have h4 := abs_le.1 (toHalf_close (ops.apply t a.2).2)
  simp only [warpEnd]
  constructor <;> rw [abs_le] <;> constructor <;> linarith

/-- **C159** If the way back brings points closer together, lines between pixel corners come back exactly
as they were. -/
theorem C159_back (t t' : T) (ht : getFrameTransform ops pts rel f1 f2 = .ok t)
    (ht' : getFrameTransform ops pts rel f2 f1 = .ok t')
    (hinv : ∀ p, ops.apply t' (ops.apply t p) = p) (k : Rat) (hk : k < 1) (hs : Spec.Shrinks (ops.apply t') k)
    (hl : ∀ l ∈ lines, Spec.Corner l.1 ∧ Spec.Corner l.2) :
    ∃ out, warpLines ops pts rel lines f1 f2 = .ok out ∧ warpLines ops pts rel out f2 f1 = .ok lines := by
  have back : ∀ p, Spec.Corner p → warpEnd ops t' (warpEnd ops t p) = p := by
    rintro p ⟨⟨a, ha⟩, b, hb⟩
    have h := hs (warpEnd ops t p) (ops.apply t p) (1 / 2) (toHalf_close _) (toHalf_close _)
    rw [hinv p] at h
    obtain ⟨h1, h2⟩ := h
    refine Prod.ext ?_ ?_
    · rw [ha] at h1 ⊢
      exact toHalf_near (by linarith)
    · rw [hb] at h2 ⊢
      exact toHalf_near (by linarith)
  refine ⟨_, warpLines_eq ops pts rel lines f1 f2 ht, ?_⟩
  rw [warpLines_eq ops pts rel _ f2 f1 ht', List.map_map]
  congr 1
  refine (List.map_congr_left fun l h => ?_).trans (List.map_id lines)
  obtain ⟨h1, h2⟩ := hl l h
  simp only [Function.comp_apply, back _ h1, back _ h2, id]

/-- **C159** After a DIC map was linked to an EBSD map with coarser pixels by an affine transform: the
boundary lines of the EBSD map, warped to the DIC map and back, are the boundary lines. -/
theorem C159_linked (dic ebsd : Nat) (hne : dic ≠ ebsd) (hrev : dget rel (ebsd, dic) = none)
    (kwargs : List (String × MVal))
    (k : Rat) (hk : k < 1)
    (hs : ∀ t, getFrameTransform ops pts (linkEbsdMap rel dic ebsd "affine" kwargs) dic ebsd = .ok t →
      (∀ p, ops.apply t (ops.apply (ops.inverse t) p) = p) ∧ Spec.Shrinks (ops.apply t) k)
    (hl : ∀ l ∈ lines, Spec.Corner l.1 ∧ Spec.Corner l.2) :
    ∃ out, warpLines ops pts (linkEbsdMap rel dic ebsd "affine" kwargs) lines ebsd dic = .ok out ∧
      warpLines ops pts (linkEbsdMap rel dic ebsd "affine" kwargs) out dic ebsd = .ok lines := by
  have hlow : "affine".toLower = "affine" := by decide +kernel
  have e1 : dget (linkEbsdMap rel dic ebsd "affine" kwargs) (dic, ebsd)
      = some (dset kwargs "type" (.str "affine")) := by
    unfold linkEbsdMap linkFrames; rw [dget_dset, if_pos rfl, hlow]
  have e2 : dget (linkEbsdMap rel dic ebsd "affine" kwargs) (ebsd, dic) = none := by
    unfold linkEbsdMap linkFrames
    rw [dget_dset, if_neg (by simp [hne])]; exact hrev
  have e3 : dget (dset kwargs "type" (.str "affine")) "type" = some (.str "affine") := by
    rw [dget_dset, if_pos rfl]
  have hk' : "affine" ∈ transformTypes := by decide +kernel
  obtain ⟨t, h1, h2⟩ : ∃ t, getFrameTransform ops pts (linkEbsdMap rel dic ebsd "affine" kwargs) dic ebsd = .ok t ∧
      getFrameTransform ops pts (linkEbsdMap rel dic ebsd "affine" kwargs) ebsd dic = .ok (ops.inverse t) := by
    refine ⟨ops.estimate "affine" (pts dic) (pts ebsd)
      ((dset kwargs "type" (.str "affine")).filter fun kv => kv.1 ≠ "type"), ?_, ?_⟩
    all_goals
      unfold getFrameTransform
      simp [e1, e2, e3, hk']
  exact C159_back ops pts _ lines ebsd dic _ t h2 h1 (hs t h1).1 k hk (hs t h1).2 hl

end

/-! ### Scalings -/

namespace WarpEx

/-- Scalings, estimated from the first coordinate of one point pair. -/
def ops : TransOps Rat Rat where
  estimate := fun _ a b _ => b / a
  inverse := fun t => t⁻¹
  apply := fun t p => (t * p.1, t * p.2)

/-- A DIC map with four pixels to one of the EBSD map. -/
def pts : Nat → Rat
  | 0 => 4
  | _ => 1

theorem scale : getFrameTransform ops pts (linkEbsdMap [] 0 1 "affine" []) 0 1 = .ok (1 / 4) := by
  decide +kernel

theorem scale_back : getFrameTransform ops pts (linkEbsdMap [] 0 1 "affine" []) 1 0 = .ok 4 := by
  decide +kernel

end WarpEx

/-- **C159** The other way lines can be lost: a line of one pixel of a DIC map, warped to an EBSD map of
coarser pixels, can become a single point, and does not come back. -/
theorem C159_lost : ∃ (ops : TransOps Rat Rat) (pts : Nat → Rat) (rel : Relations),
    (∀ t p, t ≠ 0 → ops.apply t (ops.apply (ops.inverse t) p) = p) ∧
    warpLines ops pts rel [((1 / 2, 1 / 2), (1 / 2, 3 / 2))] 0 1 = .ok [((1 / 2, 1 / 2), (1 / 2, 1 / 2))] ∧
    warpLines ops pts rel [((1 / 2, 1 / 2), (1 / 2, 1 / 2))] 1 0 ≠ .ok [((1 / 2, 1 / 2), (1 / 2, 3 / 2))] := by
  refine ⟨WarpEx.ops, WarpEx.pts, linkEbsdMap [] 0 1 "affine" [], ?_, ?_, ?_⟩
  · intro t p ht
    simp only [WarpEx.ops]
    refine Prod.ext ?_ ?_ <;> simp only [] <;> field_simp
  · rw [warpLines_eq _ _ _ _ _ _ WarpEx.scale]
    decide +kernel
  · rw [warpLines_eq _ _ _ _ _ _ WarpEx.scale_back]
    decide +kernel

/-- Hypotheses of C159 met: the outline of a pixel of an EBSD map, in the DIC map with four pixels to one. -/
example : ∃ out, warpLines WarpEx.ops WarpEx.pts (linkEbsdMap [] 0 1 "affine" [])
      [((1 / 2, 1 / 2), (3 / 2, 1 / 2)), ((3 / 2, 1 / 2), (3 / 2, 3 / 2)), ((3 / 2, 3 / 2), (1 / 2, 3 / 2)),
        ((1 / 2, 3 / 2), (1 / 2, 1 / 2))] 1 0 = .ok out ∧ Spec.Outline out ∧
    warpLines WarpEx.ops WarpEx.pts (linkEbsdMap [] 0 1 "affine" []) out 0 1 =
      .ok [((1 / 2, 1 / 2), (3 / 2, 1 / 2)), ((3 / 2, 1 / 2), (3 / 2, 3 / 2)), ((3 / 2, 3 / 2), (1 / 2, 3 / 2)),
        ((1 / 2, 3 / 2), (1 / 2, 1 / 2))] := by
  obtain ⟨out, h1, h2, -⟩ := C159_outline WarpEx.ops WarpEx.pts (linkEbsdMap [] 0 1 "affine" [])
    [((1 / 2, 1 / 2), (3 / 2, 1 / 2)), ((3 / 2, 1 / 2), (3 / 2, 3 / 2)), ((3 / 2, 3 / 2), (1 / 2, 3 / 2)),
        ((1 / 2, 3 / 2), (1 / 2, 1 / 2))] 1 0 _ WarpEx.scale_back
  obtain ⟨out', h3, h4⟩ := C159_back WarpEx.ops WarpEx.pts (linkEbsdMap [] 0 1 "affine" [])
    [((1 / 2, 1 / 2), (3 / 2, 1 / 2)), ((3 / 2, 1 / 2), (3 / 2, 3 / 2)), ((3 / 2, 3 / 2), (1 / 2, 3 / 2)),
        ((1 / 2, 3 / 2), (1 / 2, 1 / 2))] 1 0 4 (1 / 4) WarpEx.scale_back WarpEx.scale
    (fun p => by simp only [WarpEx.ops]; refine Prod.ext ?_ ?_ <;> simp only [] <;> ring) (1 / 4) (by norm_num)
    (by
      intro p q d h1 h2
      simp only [WarpEx.ops, ← mul_sub, abs_mul]
      rw [abs_of_pos (by norm_num : (0 : Rat) < 1 / 4)]
      constructor <;> linarith)
    (by
      intro l hl
      have c1 : Spec.Corner (1 / 2, 1 / 2) := ⟨⟨0, by norm_num⟩, 0, by norm_num⟩
      have c2 : Spec.Corner (3 / 2, 1 / 2) := ⟨⟨1, by norm_num⟩, 0, by norm_num⟩
      have c3 : Spec.Corner (3 / 2, 3 / 2) := ⟨⟨1, by norm_num⟩, 1, by norm_num⟩
      have c4 : Spec.Corner (1 / 2, 3 / 2) := ⟨⟨0, by norm_num⟩, 1, by norm_num⟩
      simp only [List.mem_cons, List.not_mem_nil, or_false] at hl
      rcases hl with rfl | rfl | rfl | rfl
      exacts [⟨c1, c2⟩, ⟨c2, c3⟩, ⟨c3, c4⟩, ⟨c4, c1⟩])
  rw [h1] at h3
  cases h3
  exact ⟨out, h1, h2 ⟨rfl, rfl, rfl, trivial⟩, h4⟩

end DefDAP
