import Verif.Model.PhaseBoundaryMap
import Verif.Props.Boundaries

/-!
C127: the phase boundary map.
-/

namespace DefDAP

namespace Spec

/-- The pixel has a right or lower neighbour in the map of another phase. -/
def AtPhaseChange (h w : Nat) (phase : Img Int) (p : Px) : Prop :=
  InMap h w p ∧
    ((InMap h w (p.1 + 1, p.2) ∧ phase p.2 p.1 ≠ phase p.2 (p.1 + 1)) ∨
      (InMap h w (p.1, p.2 + 1) ∧ phase p.2 p.1 ≠ phase (p.2 + 1) p.1))

/-- Two pixels side by side, or one above the other. -/
def Beside (p q : Px) : Prop :=
  (p.2 = q.2 ∧ (p.1 = q.1 + 1 ∨ q.1 = p.1 + 1)) ∨ (p.1 = q.1 ∧ (p.2 = q.2 + 1 ∨ q.2 = p.2 + 1))

end Spec

open Spec

section
variable {α : Type} [Zero α] [LinearOrder α]

theorem phase_points (h w : Nat) (ang : Px → Px → α) (phase : Img Int) (tol : α) (p : Px) :
    p ∈ (findBoundaries h w ang phase tol).1.points ↔ AtPhaseChange h w phase p := by
  obtain ⟨h1, h2⟩ := C09_phase_boundaries h w ang phase tol p.1 p.2
  have : p ∈ (findBoundaries h w ang phase tol).1.points ↔
      p ∈ (findBoundaries h w ang phase tol).1.pointsX ∨
        p ∈ (findBoundaries h w ang phase tol).1.pointsY := by
    simp only [BoundarySet.points, List.mem_append, List.mem_filter, decide_eq_true_eq]
    tauto
  rw [this]
  have hp : p = (p.1, p.2) := rfl
  rw [hp, h1, h2]
  unfold AtPhaseChange
  tauto

theorem phase_image (h w : Nat) (ang : Px → Px → α) (phase : Img Int) (tol : α)
    (hne : ∃ p, AtPhaseChange h w phase p) :
    ∃ im, (findBoundaries h w ang phase tol).1.image h w = .ok im ∧
      ∀ p, im p.2 p.1 = true ↔ AtPhaseChange h w phase p := by
  have hp := phase_points h w ang phase tol
  obtain ⟨p0, hp0⟩ := hne
  unfold BoundarySet.image
  generalize (findBoundaries h w ang phase tol).1.points = ps at hp
  cases ps with
  | nil => exact absurd ((hp p0).mpr hp0) List.not_mem_nil
  | cons a t =>
    have hall : (a :: t).all (fun p => inB h w p.1 p.2) = true := by
      rw [List.all_eq_true]
      intro p hmem
      exact inB_iff.mpr ((hp p).mp hmem).1
    refine ⟨fun y x => decide ((x, y) ∈ a :: t), ?_, ?_⟩
    · simp only [boundaryImage, if_pos hall]
    · intro p
      simp only [decide_eq_true_eq]
      exact hp p

/-- If two neighbouring pixels differ in phase, the phase boundary map shows exactly the pixels whose
right or lower neighbour has another phase. -/
theorem C127_map (h w : Nat) (ang : Px → Px → α) (phase : Img Int) (tol : α)
    (hne : ∃ p, AtPhaseChange h w phase p) :
    ∃ im, phaseBoundaryMap h w (findBoundaries h w ang phase tol).1 false = .ok im ∧
      ∀ p, im p.2 p.1 = true ↔ AtPhaseChange h w phase p := by
  obtain ⟨im, h1, h2⟩ := phase_image h w ang phase tol hne
  refine ⟨im, ?_, h2⟩
  unfold phaseBoundaryMap
  rw [h1]
  rfl

/-- Dilated, it shows exactly these pixels and the pixels beside them. -/
theorem C127_dilated (h w : Nat) (ang : Px → Px → α) (phase : Img Int) (tol : α)
    (hne : ∃ p, AtPhaseChange h w phase p) :
    ∃ im, phaseBoundaryMap h w (findBoundaries h w ang phase tol).1 true = .ok im ∧
      ∀ p, InMap h w p → (im p.2 p.1 = true ↔
        AtPhaseChange h w phase p ∨ ∃ q, Beside p q ∧ AtPhaseChange h w phase q) := by
  obtain ⟨im, h1, h2⟩ := phase_image h w ang phase tol hne
  refine ⟨crossDilate h w im, ?_, ?_⟩
  · unfold phaseBoundaryMap
    rw [h1]
    rfl
  · intro p _
    have key : ∀ y x, inImage h w im y x = true ↔ AtPhaseChange h w phase (x, y) := by
      intro y x
      unfold inImage
      rw [Bool.and_eq_true]
      constructor
      · intro hh
        exact (h2 (x, y)).mp hh.2
      · intro hh
        exact ⟨inB_iff.mpr hh.1, (h2 (x, y)).mpr hh⟩
    unfold crossDilate
    simp only [Bool.or_eq_true, key]
    constructor
    · rintro ((((hh | hh) | hh) | hh) | hh)
      · exact Or.inl hh
      · exact Or.inr ⟨(p.1 - 1, p.2), Or.inl ⟨rfl, Or.inl (by simp)⟩, hh⟩
      · exact Or.inr ⟨(p.1 + 1, p.2), Or.inl ⟨rfl, Or.inr rfl⟩, hh⟩
      · exact Or.inr ⟨(p.1, p.2 - 1), Or.inr ⟨rfl, Or.inl (by simp)⟩, hh⟩
      · exact Or.inr ⟨(p.1, p.2 + 1), Or.inr ⟨rfl, Or.inr rfl⟩, hh⟩
    · rintro (hh | ⟨⟨x, y⟩, hb, hh⟩)
      · exact Or.inl (Or.inl (Or.inl (Or.inl hh)))
      · obtain ⟨a, b⟩ := p
        simp only [Beside] at hb
        rcases hb with ⟨rfl, rfl | rfl⟩ | ⟨rfl, rfl | rfl⟩
        · refine Or.inl (Or.inl (Or.inl (Or.inr ?_)))
          simpa using hh
        · exact Or.inl (Or.inl (Or.inr hh))
        · refine Or.inl (Or.inr ?_)
          simpa using hh
        · exact Or.inr hh

/-- False: a map without phase boundaries shows none. If no two neighbouring pixels differ in phase,
every pixel of the map is shown as a phase boundary, dilated or not. -/
theorem C127_one_phase (h w : Nat) (ang : Px → Px → α) (phase : Img Int) (tol : α)
    (hno : ∀ p, ¬ AtPhaseChange h w phase p) (dil : Bool) :
    ∃ im, phaseBoundaryMap h w (findBoundaries h w ang phase tol).1 dil = .ok im ∧
      ∀ p, InMap h w p → im p.2 p.1 = true := by
  have hnil : (findBoundaries h w ang phase tol).1.points = [] := by
    rw [List.eq_nil_iff_forall_not_mem]
    intro p hp
    exact hno p ((phase_points h w ang phase tol p).mp hp)
  refine ⟨if dil then crossDilate h w (fun _ _ => true) else fun _ _ => true, ?_, ?_⟩
  · unfold phaseBoundaryMap BoundarySet.image
    rw [hnil]
    rfl
  · intro p hp
    cases dil
    · rfl
    · have : inImage h w (fun _ _ => true) p.2 p.1 = true := by
        simp only [inImage, Bool.and_true]
        exact inB_iff.mpr hp
      simp only [if_true, crossDilate, this, Bool.true_or]

theorem lineOf_inj {b b' : Bool} {p q : Px} (he : lineOf b p = lineOf b' q) : b = b' ∧ p = q := by
  obtain ⟨x, y⟩ := p
  obtain ⟨x', y'⟩ := q
  cases b <;> cases b' <;> simp only [lineOf, if_true, if_false, Bool.false_eq_true,
    Prod.mk.injEq] at he
  · obtain ⟨⟨h1, h2⟩, -⟩ := he
    refine ⟨rfl, ?_⟩
    have : (x : Rat) = x' := by linarith
    have h' : (y : Rat) = y' := by linarith
    rw [Int.cast_inj.mp this, Int.cast_inj.mp h']
  · exfalso
    obtain ⟨⟨h1, h2⟩, h3, h4⟩ := he
    linarith
  · exfalso
    obtain ⟨⟨h1, h2⟩, h3, h4⟩ := he
    linarith
  · obtain ⟨⟨h1, h2⟩, -⟩ := he
    refine ⟨rfl, ?_⟩
    have : (x : Rat) = x' := by linarith
    have h' : (y : Rat) = y' := by linarith
    rw [Int.cast_inj.mp this, Int.cast_inj.mp h']

/-- The lines of the phase boundaries are the sides between neighbouring pixels of different phase,
each once: the right side of a pixel (the segment from half a pixel right and up of its centre to half
a pixel right and down), or its lower side. -/
theorem C127_lines (h w : Nat) (ang : Px → Px → α) (phase : Img Int) (tol : α) :
    ∃ ls, (findBoundaries h w ang phase tol).1.lines = .ok ls ∧ ls.Nodup ∧
      ∀ l, l ∈ ls ↔
        (∃ x y : Int, InMap h w (x, y) ∧ InMap h w (x + 1, y) ∧ phase y x ≠ phase y (x + 1) ∧
          l = (((x : Rat) + 1/2, (y : Rat) - 1/2), ((x : Rat) + 1/2, (y : Rat) + 1/2))) ∨
        (∃ x y : Int, InMap h w (x, y) ∧ InMap h w (x, y + 1) ∧ phase y x ≠ phase (y + 1) x ∧
          l = (((x : Rat) - 1/2, (y : Rat) + 1/2), ((x : Rat) + 1/2, (y : Rat) + 1/2))) := by
  refine ⟨_, rfl, ?_, ?_⟩
  · refine List.nodup_append.mpr ⟨?_, ?_, ?_⟩
    · exact List.Nodup.map (fun p q he => (lineOf_inj he).2) (nonzeroT_nodup _ _ _)
    · exact List.Nodup.map (fun p q he => (lineOf_inj he).2) (nonzeroT_nodup _ _ _)
    · intro a ha b hb he
      obtain ⟨p, -, rfl⟩ := List.mem_map.mp ha
      obtain ⟨q, -, rfl⟩ := List.mem_map.mp hb
      exact absurd (lineOf_inj he).1 (by decide)
  · intro l
    rw [List.mem_append, List.mem_map, List.mem_map]
    refine or_congr ?_ ?_
    · constructor
      · rintro ⟨⟨x, y⟩, hp, rfl⟩
        obtain ⟨h1, h2, h3⟩ := (C09_phase_boundaries h w ang phase tol x y).1.mp hp
        refine ⟨x, y, h1, h2, h3, ?_⟩
        simp only [lineOf, if_true, Prod.mk.injEq, true_and, and_true]
        ring
      · rintro ⟨x, y, h1, h2, h3, rfl⟩
        refine ⟨(x, y), (C09_phase_boundaries h w ang phase tol x y).1.mpr ⟨h1, h2, h3⟩, ?_⟩
        simp only [lineOf, if_true, Prod.mk.injEq, true_and, and_true]
        ring
    · constructor
      · rintro ⟨⟨x, y⟩, hp, rfl⟩
        obtain ⟨h1, h2, h3⟩ := (C09_phase_boundaries h w ang phase tol x y).2.mp hp
        refine ⟨x, y, h1, h2, h3, ?_⟩
        simp only [lineOf, Bool.false_eq_true, if_false, Prod.mk.injEq, and_true]
        ring
      · rintro ⟨x, y, h1, h2, h3, rfl⟩
        refine ⟨(x, y), (C09_phase_boundaries h w ang phase tol x y).2.mpr ⟨h1, h2, h3⟩, ?_⟩
        simp only [lineOf, Bool.false_eq_true, if_false, Prod.mk.injEq, and_true]
        ring

end

/-! ### Cases -/

/-- A map of 2 by 3 pixels whose right column has phase 2. -/
example : AtPhaseChange 2 3 (fun _ x => if x = 2 then 2 else 1) (1, 0) ∧
    ∀ p, ¬ AtPhaseChange 2 3 (fun _ _ => 1) p := by
  refine ⟨⟨by simp [InMap], Or.inl ⟨by simp [InMap], by decide⟩⟩, ?_⟩
  rintro p ⟨-, ⟨-, h⟩ | ⟨-, h⟩⟩ <;> exact h rfl

end DefDAP
