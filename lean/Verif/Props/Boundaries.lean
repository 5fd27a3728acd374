import Mathlib.Tactic.NormNum
import Verif.Proofs.Boundaries
import Verif.Props.FindGrains

/-! Properties C08 to C11 (boundaries), and what the empty-set fault of C10 does to
C07 and C08. -/

namespace DefDAP
open Spec

section
variable {α : Type} [Zero α] [LinearOrder α]

/-- **C09** The grain boundary set has a boundary to the right of (below) a pixel exactly when
the neighbour exists and the misorientation exceeds the tolerance or the phases differ. -/
theorem C09_boundaries_faithful (h w : Nat) (ang : Px → Px → α) (phase : Img Int) (tol : α)
    (htol : 0 ≤ tol) (x y : Int) :
    ((x, y) ∈ (findBoundaries h w ang phase tol).2.pointsX ↔
      InMap h w (x, y) ∧ InMap h w (x + 1, y) ∧
        (tol < ang (x, y) (x + 1, y) ∨ phase y x ≠ phase y (x + 1))) ∧
    ((x, y) ∈ (findBoundaries h w ang phase tol).2.pointsY ↔
      InMap h w (x, y) ∧ InMap h w (x, y + 1) ∧
        (tol < ang (x, y) (x, y + 1) ∨ phase y x ≠ phase (y + 1) x)) := by
  constructor
  · simp only [findBoundaries, BoundarySet.fromImage, mem_nonzeroT]
    constructor
    · rintro ⟨h1, h2⟩
      have := (grainBoundaryX_iff htol h1).1 h2
      refine ⟨h1, ⟨?_, this.1, h1.2.2⟩, this.2⟩
      have := h1.1
      simp only at this ⊢; omega
    · rintro ⟨h1, h2, h3⟩
      exact ⟨h1, (grainBoundaryX_iff htol h1).2 ⟨h2.2.1, h3⟩⟩
  · simp only [findBoundaries, BoundarySet.fromImage, mem_nonzeroT]
    constructor
    · rintro ⟨h1, h2⟩
      have := (grainBoundaryY_iff htol h1).1 h2
      refine ⟨h1, ⟨h1.1, h1.2.1, ?_, this.1⟩, this.2⟩
      have := h1.2.2.1
      simp only at this ⊢; omega
    · rintro ⟨h1, h2, h3⟩
      exact ⟨h1, (grainBoundaryY_iff htol h1).2 ⟨h2.2.2.2, h3⟩⟩

/-- **C09** The phase boundary set has a boundary exactly where the neighbour exists and has
another phase. -/
theorem C09_phase_boundaries (h w : Nat) (ang : Px → Px → α) (phase : Img Int) (tol : α)
    (x y : Int) :
    ((x, y) ∈ (findBoundaries h w ang phase tol).1.pointsX ↔
      InMap h w (x, y) ∧ InMap h w (x + 1, y) ∧ phase y x ≠ phase y (x + 1)) ∧
    ((x, y) ∈ (findBoundaries h w ang phase tol).1.pointsY ↔
      InMap h w (x, y) ∧ InMap h w (x, y + 1) ∧ phase y x ≠ phase (y + 1) x) := by
  constructor
  · simp only [findBoundaries, BoundarySet.fromImage, mem_nonzeroT]
    constructor
    · rintro ⟨h1, h2⟩
      have := (phaseBoundaryX_iff h1).1 h2
      refine ⟨h1, ⟨?_, this.1, h1.2.2⟩, this.2⟩
      have := h1.1
      simp only at this ⊢; omega
    · rintro ⟨h1, h2, h3⟩
      exact ⟨h1, (phaseBoundaryX_iff h1).2 ⟨h2.2.1, h3⟩⟩
  · simp only [findBoundaries, BoundarySet.fromImage, mem_nonzeroT]
    constructor
    · rintro ⟨h1, h2⟩
      have := (phaseBoundaryY_iff h1).1 h2
      refine ⟨h1, ⟨h1.1, h1.2.1, ?_, this.1⟩, this.2⟩
      have := h1.2.2.1
      simp only at this ⊢; omega
    · rintro ⟨h1, h2, h3⟩
      exact ⟨h1, (phaseBoundaryY_iff h1).2 ⟨h2.2.2.2, h3⟩⟩

/-- The tolerance hypothesis of C09 is met and both kinds of boundary occur in the example
map of C03. -/
example : (0 : Int) ≤ 3 ∧ ((1, 0) : Px) ∈ (findBoundaries 3 4 exAng exPhase 3).2.pointsY ∧
    ((0, 1) : Px) ∈ (findBoundaries 3 4 exAng exPhase 3).2.pointsX ∧
    ((3, 1) : Px) ∉ (findBoundaries 3 4 exAng exPhase 3).2.pointsX := by
  decide +kernel

/-- **C08** (boundary sets) For a larger tolerance every reported grain boundary is also
reported for the smaller one, and the phase boundaries do not change. -/
theorem C08_tolerance_monotone (h w : Nat) (ang : Px → Px → α) (phase : Img Int)
    (tol tol' : α) (h0 : 0 ≤ tol) (hle : tol ≤ tol') :
    (∀ p ∈ (findBoundaries h w ang phase tol').2.pointsX,
      p ∈ (findBoundaries h w ang phase tol).2.pointsX) ∧
    (∀ p ∈ (findBoundaries h w ang phase tol').2.pointsY,
      p ∈ (findBoundaries h w ang phase tol).2.pointsY) ∧
    (findBoundaries h w ang phase tol').1 = (findBoundaries h w ang phase tol).1 := by
  refine ⟨?_, ?_, rfl⟩
  · rintro ⟨x, y⟩ hp
    rw [(C09_boundaries_faithful h w ang phase _ (le_trans h0 hle) x y).1] at hp
    rw [(C09_boundaries_faithful h w ang phase _ h0 x y).1]
    exact ⟨hp.1, hp.2.1, hp.2.2.imp (lt_of_le_of_lt hle) id⟩
  · rintro ⟨x, y⟩ hp
    rw [(C09_boundaries_faithful h w ang phase _ (le_trans h0 hle) x y).2] at hp
    rw [(C09_boundaries_faithful h w ang phase _ h0 x y).2]
    exact ⟨hp.1, hp.2.1, hp.2.2.imp (lt_of_le_of_lt hle) id⟩

/-- The image read back from the point list of an image. -/
theorem readBack (h w : Nat) (im : Img Bool) :
    ∃ r, boundaryImage h w (nonzeroT h w im) = .ok r ∧
      ∀ p, InMap h w p → (r p.2 p.1 = true ↔ im p.2 p.1 = true ∨ nonzeroT h w im = []) := by
  by_cases hne : ∃ p, InMap h w p ∧ im p.2 p.1 = true
  · obtain ⟨r, e, hr⟩ := boundaryImage_nonzeroT hne
    obtain ⟨p0, hp0⟩ := hne
    have : nonzeroT h w im ≠ [] := List.ne_nil_of_mem (mem_nonzeroT.2 hp0)
    exact ⟨r, e, fun p hp => by rw [hr p hp]; simp [this]⟩
  · have : nonzeroT h w im = [] := nonzeroT_eq_nil.2 fun p hp => by
      by_contra hc
      exact hne ⟨p, hp, by simpa using hc⟩
    refine ⟨fun _ _ => true, ?_, fun p _ => by simp [this]⟩
    rw [this]; rfl

/-- **C08** (grains) The images used by grain finding are such that everything connected for
the smaller tolerance is connected for the larger one - grains are never split - exactly
unless for neighbours side by side, or for neighbours one above the other, the larger
tolerance removes the last boundary although some such neighbours were not separated
before. -/
theorem C08_grains_nested (h w : Nat) (ang : Px → Px → α) (phase : Img Int)
    (tol tol' : α) (h0 : 0 ≤ tol) (hle : tol ≤ tol') :
    let B := (findBoundaries h w ang phase tol).2
    let B' := (findBoundaries h w ang phase tol').2
    ∃ bx by' bx' by'', B.imageX h w = .ok bx ∧ B.imageY h w = .ok by' ∧
      B'.imageX h w = .ok bx' ∧ B'.imageY h w = .ok by'' ∧
      ((∀ p q, Conn h w bx by' p q → Conn h w bx' by'' p q) ↔
        ¬ ((B'.pointsX = [] ∧ B.pointsX ≠ [] ∧
            ∃ x y, InMap h w (x, y) ∧ InMap h w (x + 1, y) ∧ (x, y) ∉ B.pointsX) ∨
          (B'.pointsY = [] ∧ B.pointsY ≠ [] ∧
            ∃ x y, InMap h w (x, y) ∧ InMap h w (x, y + 1) ∧ (x, y) ∉ B.pointsY))) := by
  intro B B'
  obtain ⟨mx, my, -⟩ := C08_tolerance_monotone h w ang phase tol tol' h0 hle
  obtain ⟨bx, ebx, hbx⟩ := readBack h w (grainBoundaryX w ang phase tol)
  obtain ⟨by', eby, hby⟩ := readBack h w (grainBoundaryY h ang phase tol)
  obtain ⟨bx', ebx', hbx'⟩ := readBack h w (grainBoundaryX w ang phase tol')
  obtain ⟨by'', eby', hby'⟩ := readBack h w (grainBoundaryY h ang phase tol')
  have kbx : ∀ x y, InMap h w (x, y) → (bx y x = true ↔ (x, y) ∈ B.pointsX ∨ B.pointsX = []) := by
    intro x y hp
    rw [hbx (x, y) hp]
    exact or_congr_left ⟨fun e => mem_nonzeroT.2 ⟨hp, e⟩, fun e => (mem_nonzeroT.1 e).2⟩
  have kby : ∀ x y, InMap h w (x, y) → (by' y x = true ↔ (x, y) ∈ B.pointsY ∨ B.pointsY = []) := by
    intro x y hp
    rw [hby (x, y) hp]
    exact or_congr_left ⟨fun e => mem_nonzeroT.2 ⟨hp, e⟩, fun e => (mem_nonzeroT.1 e).2⟩
  have kbx' : ∀ x y, InMap h w (x, y) → (bx' y x = true ↔ (x, y) ∈ B'.pointsX ∨ B'.pointsX = []) := by
    intro x y hp
    rw [hbx' (x, y) hp]
    exact or_congr_left ⟨fun e => mem_nonzeroT.2 ⟨hp, e⟩, fun e => (mem_nonzeroT.1 e).2⟩
  have kby' : ∀ x y, InMap h w (x, y) → (by'' y x = true ↔ (x, y) ∈ B'.pointsY ∨ B'.pointsY = []) := by
    intro x y hp
    rw [hby' (x, y) hp]
    exact or_congr_left ⟨fun e => mem_nonzeroT.2 ⟨hp, e⟩, fun e => (mem_nonzeroT.1 e).2⟩
  refine ⟨bx, by', bx', by'', ebx, eby, ebx', eby', ?_, ?_⟩
  · rintro hn (⟨hX', hX, x, y, h1, h2, h3⟩ | ⟨hY', hY, x, y, h1, h2, h3⟩)
    · have hb : bx y x = false := by
        by_contra hc
        rcases (kbx x y h1).1 (by simpa using hc) with e | e
        · exact h3 e
        · exact hX e
      have hc := hn _ _ (Relation.ReflTransGen.single (.right x y h1 h2 hb))
      have inv : ∀ q, Conn h w bx' by'' (x, y) q → q.1 = x := by
        intro q hq
        induction hq with
        | refl => rfl
        | tail _ hs ih =>
          cases hs with
          | right a b g1 g2 g3 => rw [(kbx' a b g1).2 (.inr hX')] at g3; simp at g3
          | left a b g1 g2 g3 => rw [(kbx' a b g1).2 (.inr hX')] at g3; simp at g3
          | down a b g1 g2 g3 => exact ih
          | up a b g1 g2 g3 => exact ih
      have := inv _ hc
      simp only at this; omega
    · have hb : by' y x = false := by
        by_contra hc
        rcases (kby x y h1).1 (by simpa using hc) with e | e
        · exact h3 e
        · exact hY e
      have hc := hn _ _ (Relation.ReflTransGen.single (.down x y h1 h2 hb))
      have inv : ∀ q, Conn h w bx' by'' (x, y) q → q.2 = y := by
        intro q hq
        induction hq with
        | refl => rfl
        | tail _ hs ih =>
          cases hs with
          | right a b g1 g2 g3 => exact ih
          | left a b g1 g2 g3 => exact ih
          | down a b g1 g2 g3 => rw [(kby' a b g1).2 (.inr hY')] at g3; simp at g3
          | up a b g1 g2 g3 => rw [(kby' a b g1).2 (.inr hY')] at g3; simp at g3
      have := inv _ hc
      simp only at this; omega
  · intro hno p q hc
    have kx : ∀ x y, InMap h w (x, y) → InMap h w (x + 1, y) → bx y x = false →
        bx' y x = false := by
      intro x y hp hp1 hb
      by_contra hc
      have hX : (x, y) ∉ B.pointsX ∧ B.pointsX ≠ [] := by
        have := mt (kbx x y hp).2 (by simp [hb])
        tauto
      rcases (kbx' x y hp).1 (by simpa using hc) with e | e
      · exact hX.1 (mx _ e)
      · exact hno (.inl ⟨e, hX.2, x, y, hp, hp1, hX.1⟩)
    have ky : ∀ x y, InMap h w (x, y) → InMap h w (x, y + 1) → by' y x = false →
        by'' y x = false := by
      intro x y hp hp1 hb
      by_contra hc
      have hY : (x, y) ∉ B.pointsY ∧ B.pointsY ≠ [] := by
        have := mt (kby x y hp).2 (by simp [hb])
        tauto
      rcases (kby' x y hp).1 (by simpa using hc) with e | e
      · exact hY.1 (my _ e)
      · exact hno (.inr ⟨e, hY.2, x, y, hp, hp1, hY.1⟩)
    induction hc with
    | refl => exact Relation.ReflTransGen.refl
    | tail _ hs ih =>
    refine Relation.ReflTransGen.tail ih ?_
    cases hs with
    | right x y h1 h2 h3 => exact .right x y h1 h2 (kx x y h1 h2 h3)
    | left x y h1 h2 h3 => exact .left x y h1 h2 (kx x y h1 h2 h3)
    | down x y h1 h2 h3 => exact .down x y h1 h2 (ky x y h1 h2 h3)
    | up x y h1 h2 h3 => exact .up x y h1 h2 (ky x y h1 h2 h3)

end

/-- The hypotheses of the two C08 theorems hold for the example map with tolerances 0 and
3, and boundaries of both kinds remain, so that no grain is split. -/
example : (0 : Int) ≤ 0 ∧ (0 : Int) ≤ 3 ∧
    (findBoundaries 3 4 exAng exPhase 3).2.pointsX ≠ [] ∧
    (findBoundaries 3 4 exAng exPhase 3).2.pointsY ≠ [] := by
  decide +kernel

/-- A single-phase 4 x 4 map with two orientations, left and right half, 5 degrees apart, and
a 2 degree step between the upper and the lower half. -/
def twoHalves : Px → Px → Int := fun p q =>
  if p.1 = 1 ∧ q.1 = 2 then 5 else if p.2 = 1 ∧ q.2 = 2 then 2 else 0

/-- **C08**, where it fails: raising the tolerance from 1 to 3 degrees removes the last
horizontal boundary, and instead of merging the four grains of four pixels into two it
leaves no grain at all: grain finding ends in an `IndexError`. -/
theorem C08_splits_grains :
    ((findGrainsOf 4 4 (fun _ _ => 1) 1 (findBoundaries 4 4 twoHalves (fun _ _ => 1) 1).2
      4).toOption.map fun r => r.list.length) = some 4 ∧
    findGrainsOf 4 4 (fun _ _ => 1) 1 (findBoundaries 4 4 twoHalves (fun _ _ => 1) 3).2 4 =
      .error .indexError := by
  constructor
  · decide +kernel
  · have : ∀ e : Except Err FGResult, (match e with | .ok _ => false | .error x => decide (x = .indexError)) = true →
        e = .error .indexError := by
      intro e he
      cases e with
      | ok r => simp at he
      | error x => simp at he; rw [he]
    apply this
    decide +kernel

/-- **C10** A pixel of the image read back is a boundary exactly when it is one in the image
put in, or that has no boundary at all. -/
theorem C10_image_round_trip (h w : Nat) (imX imY : Img Bool) :
    ∃ rx ry, (BoundarySet.fromImage h w imX imY).imageX h w = .ok rx ∧
      (BoundarySet.fromImage h w imX imY).imageY h w = .ok ry ∧
      ∀ p, InMap h w p →
        (rx p.2 p.1 = true ↔ imX p.2 p.1 = true ∨ ∀ q, InMap h w q → imX q.2 q.1 = false) ∧
        (ry p.2 p.1 = true ↔ imY p.2 p.1 = true ∨ ∀ q, InMap h w q → imY q.2 q.1 = false) := by
  obtain ⟨rx, e1, h1⟩ := readBack h w imX
  obtain ⟨ry, e2, h2⟩ := readBack h w imY
  simp only [nonzeroT_eq_nil] at h1 h2
  exact ⟨rx, ry, e1, e2, fun p hp => ⟨h1 p hp, h2 p hp⟩⟩

/-- **C10**, the point lists, for all images. -/
theorem C10_points (h w : Nat) (imX imY : Img Bool) :
    (BoundarySet.fromImage h w imX imY).pointsX.Nodup ∧
    (BoundarySet.fromImage h w imX imY).pointsY.Nodup ∧
    (∀ p, p ∈ (BoundarySet.fromImage h w imX imY).pointsX ↔ InMap h w p ∧ imX p.2 p.1 = true) ∧
    (∀ p, p ∈ (BoundarySet.fromImage h w imX imY).pointsY ↔ InMap h w p ∧ imY p.2 p.1 = true) :=
  ⟨nonzeroT_nodup _ _ _, nonzeroT_nodup _ _ _, fun _ => mem_nonzeroT, fun _ => mem_nonzeroT⟩

/-- **C10**, where it fails: a map without any boundary pixel reads back as a boundary at
every pixel, for every map size. -/
theorem C10_empty_set_reads_back_full (h w : Nat) (imX imY : Img Bool)
    (hx : ∀ p, InMap h w p → imX p.2 p.1 = false) :
    ∃ rx, (BoundarySet.fromImage h w imX imY).imageX h w = .ok rx ∧
      ∀ p, InMap h w p → rx p.2 p.1 = true := by
  refine ⟨fun _ _ => true, ?_, fun _ _ => rfl⟩
  show boundaryImage h w (nonzeroT h w imX) = _
  rw [nonzeroT_eq_nil.2 hx]
  rfl

/-- The hypotheses of the C10 theorems: the example map has boundary pixels of both kinds;
an image without any exists. -/
example : (∃ p, InMap 3 4 p ∧ grainBoundaryX 4 exAng exPhase 3 p.2 p.1 = true) ∧
    (∃ p, InMap 3 4 p ∧ grainBoundaryY 3 exAng exPhase 3 p.2 p.1 = true) ∧
    (∀ p, InMap 3 4 p → (fun _ _ => false : Img Bool) p.2 p.1 = false) :=
  ⟨⟨(0, 1), by simp [InMap], by decide⟩, ⟨(1, 0), by simp [InMap], by decide⟩, fun _ _ => rfl⟩

/-- Consequence of the fault of C10 for grain finding: an indexed single-phase map of any
size in which no misorientation exceeds the tolerance - a single crystal - has no grain at
all. The run ends in an `IndexError` although the whole map is one region. -/
theorem C10_single_crystal_has_no_grain {α : Type} [Zero α] [LinearOrder α] {h w : Nat}
    (hw : 2 ≤ w) (hh : 2 ≤ h) (ang : Px → Px → α) (tol : α) (h0 : 0 ≤ tol)
    (hang : ∀ p q, ang p q ≤ tol) (k : Int) (hk : k ≠ 0) (numPhases minSize : Nat)
    (hmin : 2 ≤ minSize) :
    findGrainsOf h w (fun _ _ => k) numPhases (findBoundaries h w ang (fun _ _ => k) tol).2
      minSize = .error .indexError := by
  have ex : nonzeroT h w (grainBoundaryX w ang (fun _ _ => k) tol) = [] := by
    rw [nonzeroT_eq_nil]
    intro p hp
    by_contra hne
    have := (grainBoundaryX_iff h0 hp).1 (by simpa using hne)
    rcases this.2 with h1 | h1
    · exact absurd h1 (not_lt.2 (hang _ _))
    · exact h1 rfl
  have ey : nonzeroT h w (grainBoundaryY h ang (fun _ _ => k) tol) = [] := by
    rw [nonzeroT_eq_nil]
    intro p hp
    by_contra hne
    have := (grainBoundaryY_iff h0 hp).1 (by simpa using hne)
    rcases this.2 with h1 | h1
    · exact absurd h1 (not_lt.2 (hang _ _))
    · exact h1 rfl
  simp only [findGrainsOf, findBoundaries, BoundarySet.imageX, BoundarySet.imageY,
    BoundarySet.fromImage, ex, ey, boundaryImage, bind, Except.bind]
  rw [(C07_failure hw hh _ _ _ numPhases minSize).2.1]
  refine ⟨⟨(0, 0), ⟨le_rfl, by simp only; omega, le_rfl, by simp only; omega⟩, hk⟩, ?_⟩
  intro p hp _
  have hone : ∀ q, q ∈ [p] ↔ Conn h w (fun _ _ => true) (fun _ _ => true) p q := by
    intro q
    constructor
    · intro hq; simp at hq; subst hq; exact Relation.ReflTransGen.refl
    · intro hc
      induction hc with
      | refl => simp
      | tail _ hs _ =>
        cases hs with
        | right _ _ _ _ h3 => cases h3
        | left _ _ _ _ h3 => cases h3
        | down _ _ _ _ h3 => cases h3
        | up _ _ _ _ h3 => cases h3
  rw [regionSize_eq hp (by simp) hone]
  simp; omega

/-- The hypotheses hold for a 100 x 50 single crystal with the default settings. -/
example : findGrainsOf 50 100 (fun _ _ => 1) 1
    (findBoundaries 50 100 (fun _ _ => (0 : Int)) (fun _ _ => 1) 10).2 10 =
      .error .indexError :=
  C10_single_crystal_has_no_grain (by omega) (by omega) _ _ (by omega) (fun _ _ => by omega)
    1 (by omega) _ _ (by omega)

/-- **C11** With both kinds of points given, there is one line per point, in order, and each
is the unit edge shared by the two pixels on either side: same midpoint as the two pixel
centres, perpendicular to the line joining them. -/
theorem C11_lines (px py : List Px) :
    ∃ lx ly, boundaryPointsToLines (some px) (some py) = .ok (.three lx ly (lx ++ ly)) ∧
      lx.length = px.length ∧ ly.length = py.length ∧
      (∀ (i : Nat) (p : Px), px[i]? = some p → ∃ a b : Rat × Rat, lx[i]? = some (a, b) ∧
        a.1 + b.1 = (p.1 : Rat) + ((p.1 + 1 : Int) : Rat) ∧ a.2 + b.2 = (p.2 : Rat) + (p.2 : Rat) ∧
        a.1 = b.1 ∧ b.2 - a.2 = 1) ∧
      (∀ (i : Nat) (p : Px), py[i]? = some p → ∃ a b : Rat × Rat, ly[i]? = some (a, b) ∧
        a.1 + b.1 = (p.1 : Rat) + (p.1 : Rat) ∧ a.2 + b.2 = (p.2 : Rat) + ((p.2 + 1 : Int) : Rat) ∧
        a.2 = b.2 ∧ b.1 - a.1 = 1) := by
  refine ⟨px.map (lineOf true), py.map (lineOf false), rfl, by simp, by simp, ?_, ?_⟩
  · intro i p hp
    refine ⟨_, _, by rw [List.getElem?_map, hp]; rfl, ?_, ?_, ?_, ?_⟩ <;> simp [lineOf] <;> ring
  · intro i p hp
    refine ⟨_, _, by rw [List.getElem?_map, hp]; rfl, ?_, ?_, ?_, ?_⟩ <;> simp [lineOf] <;> ring

/-- **C11** With no points at all given the request is refused; with one kind given the lines
of that kind are returned. -/
theorem C11_lines_one_kind (ps : List Px) :
    boundaryPointsToLines none none = .error .valueError ∧
    boundaryPointsToLines (some ps) none = .ok (.one (ps.map fun p =>
      ((((p.1 : Rat) + 1/2, (p.2 : Rat) - 1/2), ((p.1 : Rat) + 1/2, (p.2 : Rat) + 1/2))))) ∧
    boundaryPointsToLines none (some ps) = .ok (.one (ps.map fun p =>
      ((((p.1 : Rat) - 1/2, (p.2 : Rat) + 1/2), ((p.1 : Rat) + 1/2, (p.2 : Rat) + 1/2))))) := by
  refine ⟨rfl, ?_, ?_⟩
  · simp only [boundaryPointsToLines]
    congr 2
    apply List.map_congr_left
    intro p _
    simp only [lineOf]; norm_num
    try ring
  · simp only [boundaryPointsToLines]
    congr 2
    apply List.map_congr_left
    intro p _
    simp only [lineOf]; norm_num
    try ring

example : ∃ lx ly, boundaryPointsToLines (some [(1, 2)]) (some [(3, 4), (5, 6)]) =
    .ok (.three lx ly (lx ++ ly)) :=
  let ⟨lx, ly, h, _⟩ := C11_lines [(1, 2)] [(3, 4), (5, 6)]
  ⟨lx, ly, h⟩

end DefDAP
