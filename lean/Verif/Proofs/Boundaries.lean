import Mathlib.Data.List.Nodup
import Mathlib.Tactic.Linarith
import Mathlib.Order.Defs.LinearOrder
import Mathlib.Tactic.SplitIfs
import Verif.Proofs.FillCore
import Verif.Model.Boundaries
import Verif.Model.FindGrains

/-! Boundary images and boundary sets. -/

namespace DefDAP
open Spec

theorem mem_nonzeroT {h w : Nat} {im : Img Bool} {p : Px} :
    p ∈ nonzeroT h w im ↔ InMap h w p ∧ im p.2 p.1 = true := by
  obtain ⟨x, y⟩ := p
  simp only [nonzeroT, List.mem_flatMap, List.mem_range, List.mem_map, List.mem_filter, InMap,
    Prod.mk.injEq]
  constructor
  · rintro ⟨a, ha, b, ⟨hb, him⟩, rfl, rfl⟩
    exact ⟨⟨by omega, by omega, by omega, by omega⟩, him⟩
  · rintro ⟨⟨h1, h2, h3, h4⟩, him⟩
    obtain ⟨a, rfl⟩ := Int.eq_ofNat_of_zero_le h1
    obtain ⟨b, rfl⟩ := Int.eq_ofNat_of_zero_le h3
    exact ⟨a, by omega, b, ⟨by omega, him⟩, rfl, rfl⟩

theorem nonzeroT_nodup (h w : Nat) (im : Img Bool) : (nonzeroT h w im).Nodup := by
  unfold nonzeroT
  rw [List.nodup_flatMap]
  constructor
  · intro x _
    refine List.Nodup.map ?_ (List.nodup_range.filter _)
    intro a b hab
    simp at hab; exact hab
  · refine List.Pairwise.imp ?_ (List.nodup_range (n := w))
    intro a b hab
    simp only [Function.onFun, List.disjoint_left, List.mem_map, not_exists, not_and]
    rintro p ⟨y, -, rfl⟩ y' - he
    simp at he
    exact hab he.1.symm

/-- Reading back the image of a boundary set made from an image: right if there is a
boundary pixel. -/
theorem boundaryImage_nonzeroT {h w : Nat} {im : Img Bool}
    (hne : ∃ p, InMap h w p ∧ im p.2 p.1 = true) :
    ∃ im', boundaryImage h w (nonzeroT h w im) = .ok im' ∧
      ∀ p, InMap h w p → im' p.2 p.1 = im p.2 p.1 := by
  obtain ⟨p0, hp0⟩ := hne
  have hm := mem_nonzeroT.2 hp0
  cases hL : nonzeroT h w im with
  | nil => rw [hL] at hm; simp at hm
  | cons a l =>
    unfold boundaryImage
    have hall : ((a :: l).all fun p => inB h w p.1 p.2) = true := by
      rw [← hL, List.all_eq_true]
      intro p hp
      exact inB_iff.2 (mem_nonzeroT.1 hp).1
    refine ⟨_, by simp only [hall, if_true]; rfl, ?_⟩
    intro p hp
    rw [← hL]
    have : ((p.1, p.2) ∈ nonzeroT h w im) ↔ im p.2 p.1 = true := by
      rw [mem_nonzeroT]; exact ⟨fun h => h.2, fun h => ⟨hp, h⟩⟩
    cases him : im p.2 p.1 with
    | true => simp [this, him]
    | false => simp [this, him]

theorem nonzeroT_eq_nil {h w : Nat} {im : Img Bool} :
    nonzeroT h w im = [] ↔ ∀ p, InMap h w p → im p.2 p.1 = false := by
  constructor
  · intro hL p hp
    cases him : im p.2 p.1 with
    | false => rfl
    | true =>
      have := mem_nonzeroT.2 ⟨hp, him⟩
      rw [hL] at this; simp at this
  · intro hall
    rw [List.eq_nil_iff_forall_not_mem]
    intro p hp
    have := mem_nonzeroT.1 hp
    rw [hall p this.1] at this
    simp at this

/-- In every case the read-back image contains the original one. -/
theorem boundaryImage_ge {h w : Nat} (im : Img Bool) :
    ∃ im', boundaryImage h w (nonzeroT h w im) = .ok im' ∧
      ∀ p, InMap h w p → im p.2 p.1 = true → im' p.2 p.1 = true := by
  by_cases hne : ∃ p, InMap h w p ∧ im p.2 p.1 = true
  · obtain ⟨im', h1, h2⟩ := boundaryImage_nonzeroT hne
    exact ⟨im', h1, fun p hp hi => by rw [h2 p hp, hi]⟩
  · have : nonzeroT h w im = [] := by
      rw [nonzeroT_eq_nil]
      intro p hp
      cases him : im p.2 p.1 with
      | false => rfl
      | true => exact absurd ⟨p, hp, him⟩ hne
    rw [this]
    exact ⟨_, rfl, fun _ _ _ => rfl⟩

section
variable {α : Type} [Zero α] [LinearOrder α]

theorem phaseBoundaryX_iff {w h : Nat} {phase : Img Int} {p : Px} (hp : InMap h w p) :
    phaseBoundaryX w phase p.2 p.1 = true ↔
      p.1 + 1 < w ∧ phase p.2 p.1 ≠ phase p.2 (p.1 + 1) := by
  obtain ⟨h1, h2, h3, h4⟩ := hp
  unfold phaseBoundaryX
  split_ifs with hl
  · simp; intro; omega
  · have : (p.1 + 1) % (w : Int) = p.1 + 1 := Int.emod_eq_of_lt (by omega) (by omega)
    rw [this]
    simp
    intro; omega

theorem phaseBoundaryY_iff {w h : Nat} {phase : Img Int} {p : Px} (hp : InMap h w p) :
    phaseBoundaryY h phase p.2 p.1 = true ↔
      p.2 + 1 < h ∧ phase p.2 p.1 ≠ phase (p.2 + 1) p.1 := by
  obtain ⟨h1, h2, h3, h4⟩ := hp
  unfold phaseBoundaryY
  split_ifs with hl
  · simp; intro; omega
  · have : (p.2 + 1) % (h : Int) = p.2 + 1 := Int.emod_eq_of_lt (by omega) (by omega)
    rw [this]
    simp
    intro; omega

theorem grainBoundaryX_iff {w h : Nat} {ang : Px → Px → α} {phase : Img Int} {tol : α}
    (htol : 0 ≤ tol) {p : Px} (hp : InMap h w p) :
    grainBoundaryX w ang phase tol p.2 p.1 = true ↔
      p.1 + 1 < w ∧ (tol < ang p (p.1 + 1, p.2) ∨ phase p.2 p.1 ≠ phase p.2 (p.1 + 1)) := by
  unfold grainBoundaryX misoriX
  rw [Bool.or_eq_true, phaseBoundaryX_iff hp, decide_eq_true_iff]
  by_cases hl : p.1 < (w : Int) - 1
  · rw [if_pos hl]
    have : p.1 + 1 < (w : Int) := by omega
    simp [this]
  · rw [if_neg hl]
    have : ¬ p.1 + 1 < (w : Int) := by omega
    simp [this, htol]

theorem grainBoundaryY_iff {w h : Nat} {ang : Px → Px → α} {phase : Img Int} {tol : α}
    (htol : 0 ≤ tol) {p : Px} (hp : InMap h w p) :
    grainBoundaryY h ang phase tol p.2 p.1 = true ↔
      p.2 + 1 < h ∧ (tol < ang p (p.1, p.2 + 1) ∨ phase p.2 p.1 ≠ phase (p.2 + 1) p.1) := by
  unfold grainBoundaryY misoriY
  rw [Bool.or_eq_true, phaseBoundaryY_iff hp, decide_eq_true_iff]
  by_cases hl : p.2 < (h : Int) - 1
  · rw [if_pos hl]
    have : p.2 + 1 < (h : Int) := by omega
    simp [this]
  · rw [if_neg hl]
    have : ¬ p.2 + 1 < (h : Int) := by omega
    simp [this, htol]

end

/-- Grain finding on the boundaries of the boundary finder runs with images that have a
boundary at every phase change. -/
theorem findGrainsOf_sep {α : Type} [Zero α] [LinearOrder α] {h w : Nat} {ang : Px → Px → α}
    {tol : α} (htol : 0 ≤ tol) {phase : Img Int} {numPhases minSize : Nat} {r : FGResult}
    (hr : findGrainsOf h w phase numPhases (findBoundaries h w ang phase tol).2 minSize = .ok r) :
    ∃ bx by', SeparatesPhases h w bx by' phase ∧
      findGrains h w phase numPhases bx by' minSize = .ok r := by
  obtain ⟨bx, hbx, hx⟩ := boundaryImage_ge (h := h) (w := w) (grainBoundaryX w ang phase tol)
  obtain ⟨by', hby, hy⟩ := boundaryImage_ge (h := h) (w := w) (grainBoundaryY h ang phase tol)
  refine ⟨bx, by', ?_, ?_⟩
  · have key : ∀ x y, InMap h w (x, y) → InMap h w (x + 1, y) → bx y x = false →
        phase y x = phase y (x + 1) := by
      intro x y h1 h2 h3
      by_contra hne
      have := hx (x, y) h1 ((grainBoundaryX_iff htol h1).2 ⟨h2.2.1, Or.inr hne⟩)
      rw [h3] at this; cases this
    have key' : ∀ x y, InMap h w (x, y) → InMap h w (x, y + 1) → by' y x = false →
        phase y x = phase (y + 1) x := by
      intro x y h1 h2 h3
      by_contra hne
      have := hy (x, y) h1 ((grainBoundaryY_iff htol h1).2 ⟨h2.2.2.2, Or.inr hne⟩)
      rw [h3] at this; cases this
    intro p q hs
    cases hs with
    | right x y h1 h2 h3 => exact key x y h1 h2 h3
    | left x y h1 h2 h3 => exact (key x y h1 h2 h3).symm
    | down x y h1 h2 h3 => exact key' x y h1 h2 h3
    | up x y h1 h2 h3 => exact (key' x y h1 h2 h3).symm
  · simp only [findGrainsOf, findBoundaries, BoundarySet.imageX, BoundarySet.imageY,
      BoundarySet.fromImage, hbx, hby, bind, Except.bind] at hr
    exact hr

end DefDAP
