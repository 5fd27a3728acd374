import Verif.Model.MisoriGrains
import Verif.Spec.MisoriGrains
import Verif.Props.CrystalRotations
import Verif.Props.SymTables
import Verif.Props.Boundaries

/-!
C128: boundaries and grains from the orientations.
-/

namespace DefDAP

open Quat Spec Matrix

/-! ### Angles -/

theorem boundaryVariant_eq (s q : Quat ℝ) : boundaryVariant s q = mul s q := symRow_eq s q

theorem trace_rot (p r : Quat ℝ) :
    (rotMatrix p * (rotMatrix r)ᵀ).trace = 4 * dot p r ^ 2 - dot p p * dot r r := by
  simp only [Matrix.trace, Matrix.diag, Fin.sum_univ_three, Matrix.mul_apply, Matrix.transpose_apply]
  simp [rotMatrix, dot]
  ring

theorem rotationAngle_eq {p r : Quat ℝ} (hp : p.IsUnit) (hr : r.IsUnit) :
    rotationAngle (rotMatrix p * (rotMatrix r)ᵀ) = 2 * Real.arccos |dot p r| := by
  have h1 := abs_dot_le_one hp hr
  have h0 := abs_nonneg (dot p r)
  have hc : Real.cos (Real.arccos |dot p r|) = |dot p r| := Real.cos_arccos (by linarith) h1
  unfold rotationAngle
  have e : ((rotMatrix p * (rotMatrix r)ᵀ).trace - 1) / 2 =
      Real.cos (2 * Real.arccos |dot p r|) := by
    rw [Real.cos_two_mul, hc, trace_rot, (isUnit_iff _).mp hp, (isUnit_iff _).mp hr, sq_abs]
    ring
  rw [e, Real.arccos_cos]
  · have := Real.arccos_nonneg |dot p r|
    linarith
  · have := Real.arccos_le_pi_div_two.mpr h0
    linarith

theorem foldl_max (t : List ℝ) (c : ℝ) :
    t.foldl max c ∈ c :: t ∧ ∀ x ∈ c :: t, x ≤ t.foldl max c := by
  induction t generalizing c with
  | nil => simp
  | cons a t ih =>
    obtain ⟨h1, h2⟩ := ih (max c a)
    refine ⟨?_, ?_⟩
    · rcases List.mem_cons.mp h1 with h | h
      · rw [List.foldl_cons, h]
        rcases max_choice c a with e | e <;> rw [e] <;> simp
      · rw [List.foldl_cons]
        exact List.mem_cons_of_mem _ (List.mem_cons_of_mem _ h)
    · intro x hx
      rw [List.foldl_cons]
      have hm := h2 _ List.mem_cons_self
      rcases List.mem_cons.mp hx with rfl | hx
      · exact le_trans (le_max_left _ _) hm
      · rcases List.mem_cons.mp hx with rfl | hx
        · exact le_trans (le_max_right _ _) hm
        · exact h2 x (List.mem_cons_of_mem _ hx)

theorem overlaps_eq {l : List (Quat ℝ)} (hl : SymTable l) {p q : Quat ℝ} (hp : p.IsUnit)
    (hq : q.IsUnit) :
    ((boundaryVariants l q).map fun v => cutAtOne |dot p v|) =
      l.map fun s => |dot p (mulRaw s q)| := by
  have cut : ∀ s ∈ l, cutAtOne |dot p (mulRaw s q)| = |dot p (mulRaw s q)| := by
    intro s hs
    unfold cutAtOne
    rw [if_neg]
    exact not_lt.mpr (abs_dot_le_one hp (isUnit_mulRaw (hl.unit s hs) hq))
  cases l with
  | nil => rfl
  | cons a t =>
    have ha : a = ⟨1, 0, 0, 0⟩ := by simpa using hl.head
    have hc := cut a List.mem_cons_self
    rw [ha, mul_one_left] at hc
    simp only [boundaryVariants, List.map_cons, List.map_map]
    rw [hc, ha, mul_one_left]
    congr 1
    apply List.map_congr_left
    intro s hs
    simp only [Function.comp_apply, boundaryVariant_eq]
    rw [abs_dot_mul]
    exact cut s (List.mem_cons_of_mem _ hs)

theorem largestOverlap_spec {l : List (Quat ℝ)} (hl : SymTable l) {p q : Quat ℝ} (hp : p.IsUnit)
    (hq : q.IsUnit) : (∃ s ∈ l, largestOverlap l p q = |dot p (mulRaw s q)|) ∧
      ∀ s ∈ l, |dot p (mulRaw s q)| ≤ largestOverlap l p q := by
  unfold largestOverlap
  rw [overlaps_eq hl hp hq]
  cases hm : l.map fun s => |dot p (mulRaw s q)| with
  | nil =>
    have : l = [] := List.map_eq_nil_iff.mp hm
    have hh := hl.head
    rw [this] at hh
    simp at hh
  | cons c t =>
    obtain ⟨h1, h2⟩ := foldl_max t c
    rw [← hm] at h1 h2
    obtain ⟨s, hs, he⟩ := List.mem_map.mp h1
    exact ⟨⟨s, hs, he.symm⟩, fun s hs => h2 _ (List.mem_map.mpr ⟨s, hs, rfl⟩)⟩

/-- The crystal's rotations are those of the table. -/
theorem crystalRotation_iff (g : SymGroup) (M : Matrix (Fin 3) (Fin 3) ℝ) :
    CrystalRotation g M ↔ ∃ s ∈ symEqv g, rotMatrix s = M := by
  cases g
  · exact C39_cube M
  · exact C39_prism M

/-- The code's angle is at most the tolerance exactly for close orientations. -/
theorem neighbourAngle_le (g : SymGroup) {p q : Quat ℝ} (hp : p.IsUnit) (hq : q.IsUnit) (tol : ℝ) :
    neighbourAngle (symEqv g) p q ≤ tol * (Real.pi / 180) ↔
      Close g tol (rotMatrix p) (rotMatrix q) := by
  have hl := symEqv_table g
  obtain ⟨⟨s, hs, he⟩, hle⟩ := largestOverlap_spec hl hp hq
  have hang : ∀ u ∈ symEqv g, rotationAngle (rotMatrix p * (rotMatrix u * rotMatrix q)ᵀ) =
      2 * Real.arccos |dot p (mulRaw u q)| := by
    intro u hu
    rw [← rotMatrix_mulRaw, rotationAngle_eq hp (isUnit_mulRaw (hl.unit u hu) hq)]
  constructor
  · intro h
    refine ⟨rotMatrix s, (crystalRotation_iff g _).mpr ⟨s, hs, rfl⟩, ?_⟩
    rw [hang s hs, ← he]
    exact h
  · rintro ⟨S, hS, h⟩
    obtain ⟨u, hu, rfl⟩ := (crystalRotation_iff g S).mp hS
    rw [hang u hu] at h
    refine le_trans ?_ h
    unfold neighbourAngle
    have := Real.arccos_le_arccos (hle u hu)
    linarith

theorem close_symm (g : SymGroup) {p q : Quat ℝ} {tol : ℝ}
    (h : Close g tol (rotMatrix p) (rotMatrix q)) : Close g tol (rotMatrix q) (rotMatrix p) := by
  obtain ⟨S, hS, h⟩ := h
  obtain ⟨s, hs, rfl⟩ := (crystalRotation_iff g S).mp hS
  obtain ⟨u, hu, he⟩ := (C39_group g).2.2.2.2.2 s hs
  have hinv : (rotMatrix s)⁻¹ = (rotMatrix s)ᵀ :=
    Matrix.inv_eq_right_inv (C36_rotation s ((symEqv_table g).unit s hs)).1
  refine ⟨rotMatrix u, (crystalRotation_iff g _).mpr ⟨u, hu, rfl⟩, ?_⟩
  rw [he, hinv]
  have : (rotMatrix q * ((rotMatrix s)ᵀ * rotMatrix p)ᵀ).trace =
      (rotMatrix p * (rotMatrix s * rotMatrix q)ᵀ).trace := by
    rw [← Matrix.trace_transpose (rotMatrix p * _)]
    simp only [Matrix.transpose_mul, Matrix.transpose_transpose]
    rw [← Matrix.mul_assoc, Matrix.trace_mul_comm, ← Matrix.mul_assoc]
  unfold rotationAngle at h ⊢
  rw [this]
  exact h

/-! ### Boundaries -/

variable {h w : Nat} {g : SymGroup} {ori : Img (Quat ℝ)} {phase : Img Int} {tol : ℝ}

theorem tol_nonneg (htol : 0 ≤ tol) : 0 ≤ tol * (Real.pi / 180) := by
  have := Real.pi_pos
  positivity

/-- The grain boundary set has a boundary to the right of a pixel (below it) exactly when the
neighbour is in the map and has another phase, or an orientation that no rotation of the crystal of
the primary phase brings within the tolerance. -/
theorem C128_boundary (hunit : ∀ p : Px, InMap h w p → (ori p.2 p.1).IsUnit) (htol : 0 ≤ tol)
    (p : Px) :
    (p ∈ (boundariesOf h w g ori phase tol).2.pointsX ↔
      BoundaryAt h w g (fun p => rotMatrix (ori p.2 p.1)) phase tol false p) ∧
    (p ∈ (boundariesOf h w g ori phase tol).2.pointsY ↔
      BoundaryAt h w g (fun p => rotMatrix (ori p.2 p.1)) phase tol true p) := by
  obtain ⟨x, y⟩ := p
  obtain ⟨h1, h2⟩ := C09_boundaries_faithful h w
    (fun p q : Px => neighbourAngle (symEqv g) (ori p.2 p.1) (ori q.2 q.1)) phase
    (tol * (Real.pi / 180)) (tol_nonneg htol) x y
  have key : ∀ p q : Px, InMap h w p → InMap h w q →
      ((tol * (Real.pi / 180) < neighbourAngle (symEqv g) (ori p.2 p.1) (ori q.2 q.1) ∨
        phase p.2 p.1 ≠ phase q.2 q.1) ↔ ¬ (phase p.2 p.1 = phase q.2 q.1 ∧
          Close g tol (rotMatrix (ori p.2 p.1)) (rotMatrix (ori q.2 q.1)))) := by
    intro p q hp hq
    rw [← neighbourAngle_le g (hunit p hp) (hunit q hq) tol, ← not_le]
    tauto
  constructor
  · refine h1.trans ?_
    simp only [BoundaryAt, Bool.false_eq_true, if_false]
    constructor
    · rintro ⟨a, b, c⟩
      exact ⟨a, b, (key _ _ a b).mp c⟩
    · rintro ⟨a, b, c⟩
      exact ⟨a, b, (key _ _ a b).mpr c⟩
  · refine h2.trans ?_
    simp only [BoundaryAt, if_true]
    constructor
    · rintro ⟨a, b, c⟩
      exact ⟨a, b, (key _ _ a b).mp c⟩
    · rintro ⟨a, b, c⟩
      exact ⟨a, b, (key _ _ a b).mpr c⟩

/-! ### Grains -/

theorem grainStep_symm {p q : Px}
    (hs : GrainStep h w g (fun p => rotMatrix (ori p.2 p.1)) phase tol p q) :
    GrainStep h w g (fun p => rotMatrix (ori p.2 p.1)) phase tol q p := by
  obtain ⟨h1, h2, h3, h4, h5⟩ := hs
  refine ⟨h2, h1, ?_, h4.symm, close_symm g h5⟩
  rcases h3 with ⟨a, b⟩ | ⟨a, b⟩
  · exact Or.inl ⟨a.symm, b.symm⟩
  · exact Or.inr ⟨a.symm, b.symm⟩

/-- The images used by grain finding. -/
theorem images_of (hunit : ∀ p : Px, InMap h w p → (ori p.2 p.1).IsUnit) (htol : 0 ≤ tol) :
    ∃ bx by', (boundariesOf h w g ori phase tol).2.imageX h w = .ok bx ∧
      (boundariesOf h w g ori phase tol).2.imageY h w = .ok by' ∧
      (∀ p, InMap h w p → (bx p.2 p.1 = true ↔
        BoundaryAt h w g (fun p => rotMatrix (ori p.2 p.1)) phase tol false p ∨
        ∀ q, ¬ BoundaryAt h w g (fun p => rotMatrix (ori p.2 p.1)) phase tol false q)) ∧
      (∀ p, InMap h w p → (by' p.2 p.1 = true ↔
        BoundaryAt h w g (fun p => rotMatrix (ori p.2 p.1)) phase tol true p ∨
        ∀ q, ¬ BoundaryAt h w g (fun p => rotMatrix (ori p.2 p.1)) phase tol true q)) := by
  obtain ⟨bx, e1, h1⟩ := readBack h w (grainBoundaryX w
    (fun p q : Px => neighbourAngle (symEqv g) (ori p.2 p.1) (ori q.2 q.1)) phase
    (tol * (Real.pi / 180)))
  obtain ⟨by', e2, h2⟩ := readBack h w (grainBoundaryY h
    (fun p q : Px => neighbourAngle (symEqv g) (ori p.2 p.1) (ori q.2 q.1)) phase
    (tol * (Real.pi / 180)))
  refine ⟨bx, by', e1, e2, ?_, ?_⟩
  · intro p hp
    rw [h1 p hp]
    refine or_congr ?_ ?_
    · rw [← (C128_boundary hunit htol p).1]
      exact ⟨fun e => mem_nonzeroT.2 ⟨hp, e⟩, fun e => (mem_nonzeroT.1 e).2⟩
    · rw [List.eq_nil_iff_forall_not_mem]
      exact forall_congr' fun q => not_congr (C128_boundary hunit htol q).1
  · intro p hp
    rw [h2 p hp]
    refine or_congr ?_ ?_
    · rw [← (C128_boundary hunit htol p).2]
      exact ⟨fun e => mem_nonzeroT.2 ⟨hp, e⟩, fun e => (mem_nonzeroT.1 e).2⟩
    · rw [List.eq_nil_iff_forall_not_mem]
      exact forall_congr' fun q => not_congr (C128_boundary hunit htol q).2

/-- With boundaries of both kinds, the open steps are the steps inside grains. -/
theorem openStep_grainStep {bx by' : Img Bool}
    (hbx : ∀ p, InMap h w p → (bx p.2 p.1 = true ↔
      BoundaryAt h w g (fun p => rotMatrix (ori p.2 p.1)) phase tol false p))
    (hby : ∀ p, InMap h w p → (by' p.2 p.1 = true ↔
      BoundaryAt h w g (fun p => rotMatrix (ori p.2 p.1)) phase tol true p)) (p q : Px) :
    OpenStep h w bx by' p q ↔
      GrainStep h w g (fun p => rotMatrix (ori p.2 p.1)) phase tol p q := by
  have kx : ∀ x y, InMap h w (x, y) → InMap h w (x + 1, y) → (bx y x = false ↔
      GrainStep h w g (fun p => rotMatrix (ori p.2 p.1)) phase tol (x, y) (x + 1, y)) := by
    intro x y h1 h2
    rw [← Bool.not_eq_true, hbx (x, y) h1]
    simp only [BoundaryAt, GrainStep, Bool.false_eq_true, if_false, h1, h2, true_and, not_not]
    constructor
    · intro hh
      exact ⟨Or.inl (Or.inl trivial), hh⟩
    · intro hh
      exact hh.2
  have ky : ∀ x y, InMap h w (x, y) → InMap h w (x, y + 1) → (by' y x = false ↔
      GrainStep h w g (fun p => rotMatrix (ori p.2 p.1)) phase tol (x, y) (x, y + 1)) := by
    intro x y h1 h2
    rw [← Bool.not_eq_true, hby (x, y) h1]
    simp only [BoundaryAt, GrainStep, if_true, h1, h2, true_and, not_not]
    constructor
    · intro hh
      exact ⟨Or.inr (Or.inl trivial), hh⟩
    · intro hh
      exact hh.2
  constructor
  · intro hs
    cases hs with
    | right x y h1 h2 h3 => exact (kx x y h1 h2).mp h3
    | left x y h1 h2 h3 => exact grainStep_symm ((kx x y h1 h2).mp h3)
    | down x y h1 h2 h3 => exact (ky x y h1 h2).mp h3
    | up x y h1 h2 h3 => exact grainStep_symm ((ky x y h1 h2).mp h3)
  · intro hs
    obtain ⟨x, y⟩ := p
    obtain ⟨x', y'⟩ := q
    have hs' := hs
    obtain ⟨h1, h2, h3, -, -⟩ := hs'
    simp only at h3
    rcases h3 with ⟨rfl, rfl | rfl⟩ | ⟨rfl, rfl | rfl⟩
    · exact .right _ _ h1 h2 ((kx _ _ h1 h2).mpr hs)
    · exact .left _ _ h2 h1 ((kx _ _ h2 h1).mpr (grainStep_symm hs))
    · exact .down _ _ h1 h2 ((ky _ _ h1 h2).mpr hs)
    · exact .up _ _ h2 h1 ((ky _ _ h2 h1).mpr (grainStep_symm hs))

theorem images_both (hunit : ∀ p : Px, InMap h w p → (ori p.2 p.1).IsUnit) (htol : 0 ≤ tol)
    (hx : ∃ p, BoundaryAt h w g (fun p => rotMatrix (ori p.2 p.1)) phase tol false p)
    (hy : ∃ p, BoundaryAt h w g (fun p => rotMatrix (ori p.2 p.1)) phase tol true p)
    (numPhases minSize : Nat) :
    ∃ bx by', grainsOf h w g ori phase numPhases tol minSize =
        findGrains h w phase numPhases bx by' minSize ∧
      (∀ p q, OpenStep h w bx by' p q ↔
        GrainStep h w g (fun p => rotMatrix (ori p.2 p.1)) phase tol p q) ∧
      (∀ p q, Conn h w bx by' p q ↔
        SameRegion h w g (fun p => rotMatrix (ori p.2 p.1)) phase tol p q) ∧
      (∀ p, regionSize h w bx by' p =
        regionCount h w g (fun p => rotMatrix (ori p.2 p.1)) phase tol p) := by
  obtain ⟨bx, by', e1, e2, h1, h2⟩ := images_of (g := g) (phase := phase) hunit htol
  have hstep := openStep_grainStep (h := h) (w := w) (g := g) (ori := ori) (phase := phase) (tol := tol)
    (bx := bx) (by' := by')
    (fun p hp => (h1 p hp).trans (or_iff_left (fun hn => hx.elim fun q hq => hn q hq)))
    (fun p hp => (h2 p hp).trans (or_iff_left (fun hn => hy.elim fun q hq => hn q hq)))
  have heq : OpenStep h w bx by' =
      GrainStep h w g (fun p => rotMatrix (ori p.2 p.1)) phase tol := by
    funext p q
    exact propext (hstep p q)
  have hconn : ∀ p q, Conn h w bx by' p q ↔
      SameRegion h w g (fun p => rotMatrix (ori p.2 p.1)) phase tol p q := by
    intro p q
    unfold Conn SameRegion
    rw [heq]
  refine ⟨bx, by', ?_, hstep, hconn, ?_⟩
  · unfold grainsOf findGrainsOf
    rw [e1, e2]
    rfl
  · intro p
    unfold regionSize regionCount
    congr 1
    ext q
    simp only [Finset.mem_filter, hconn p q]

/-- Grains are the regions of one phase and close orientations. If the map has a boundary between
pixels side by side and one between pixels above each other, then after finding grains with a
tolerance and a smallest size: a pixel that is not indexed has label 0; an indexed pixel whose region
is smaller than the smallest size has label -2; every other pixel has the number of a grain; and two
indexed pixels have the same grain number exactly when they are connected by steps between
neighbouring pixels of one phase with orientations not further apart than the tolerance, up to the
rotations of the crystal of the primary phase. Grain `i` of the list holds the pixels with label
`i + 1`, each once. -/
theorem C128_grains (hw : 2 ≤ w) (hh : 2 ≤ h)
    (hunit : ∀ p : Px, InMap h w p → (ori p.2 p.1).IsUnit) (htol : 0 ≤ tol)
    (hx : ∃ p, BoundaryAt h w g (fun p => rotMatrix (ori p.2 p.1)) phase tol false p)
    (hy : ∃ p, BoundaryAt h w g (fun p => rotMatrix (ori p.2 p.1)) phase tol true p)
    (numPhases minSize : Nat) (r : FGResult)
    (hr : grainsOf h w g ori phase numPhases tol minSize = .ok r) :
    (∀ p, InMap h w p → phase p.2 p.1 = 0 → r.grains p.2 p.1 = 0) ∧
    (∀ p, InMap h w p → phase p.2 p.1 ≠ 0 →
      if regionCount h w g (fun p => rotMatrix (ori p.2 p.1)) phase tol p < minSize then
        r.grains p.2 p.1 = -2
      else 1 ≤ r.grains p.2 p.1 ∧ r.grains p.2 p.1 ≤ r.list.length) ∧
    (∀ p q, InMap h w p → InMap h w q → phase p.2 p.1 ≠ 0 → phase q.2 q.1 ≠ 0 →
      1 ≤ r.grains p.2 p.1 → (r.grains p.2 p.1 = r.grains q.2 q.1 ↔
        SameRegion h w g (fun p => rotMatrix (ori p.2 p.1)) phase tol p q)) ∧
    (∀ i, i < r.list.length → (r.points i).Nodup ∧
      ∀ p, p ∈ r.points i ↔ r.grains p.2 p.1 = (i : Int) + 1) := by
  obtain ⟨bx, by', e, hstep, hconn, hsize⟩ := images_both hunit htol hx hy numPhases minSize
  rw [e] at hr
  obtain ⟨h1, h2, h3, h4⟩ := C03_partition hw hh bx by' phase numPhases minSize r hr
  obtain ⟨g1, g2, -⟩ := C04_numbering hw hh bx by' phase numPhases minSize r hr
  refine ⟨?_, ?_, ?_, ?_⟩
  · refine h4 ?_
    intro p q hs
    rw [((hstep p q).mp hs).2.2.2.1]
  · intro p hp hpi
    have hg := g2 p hp
    rw [hsize p] at hg
    split_ifs with hlt
    · exact hg.mpr ⟨hlt, p, Relation.ReflTransGen.refl, hpi⟩
    · rcases h1 p hp hpi with h5 | h5
      · exact absurd (hg.mp h5).1 hlt
      · exact h5
  · intro p q _ _ _ _ hpos
    rw [← hconn]
    exact ⟨h2 p q hpos, h3 p q⟩
  · intro i hi
    exact ⟨(g1 i hi).1, (g1 i hi).2.1⟩

/-- Finding grains succeeds exactly when the region of some indexed pixel has the smallest size;
without indexed pixels it is a `ValueError`, otherwise an `IndexError`. -/
theorem C128_found (hw : 2 ≤ w) (hh : 2 ≤ h)
    (hunit : ∀ p : Px, InMap h w p → (ori p.2 p.1).IsUnit) (htol : 0 ≤ tol)
    (hx : ∃ p, BoundaryAt h w g (fun p => rotMatrix (ori p.2 p.1)) phase tol false p)
    (hy : ∃ p, BoundaryAt h w g (fun p => rotMatrix (ori p.2 p.1)) phase tol true p)
    (numPhases minSize : Nat) :
    ((∃ r, grainsOf h w g ori phase numPhases tol minSize = .ok r) ↔
      ∃ p, InMap h w p ∧ phase p.2 p.1 ≠ 0 ∧
        minSize ≤ regionCount h w g (fun p => rotMatrix (ori p.2 p.1)) phase tol p) ∧
    (grainsOf h w g ori phase numPhases tol minSize = .error .valueError ↔
      ∀ p, InMap h w p → phase p.2 p.1 = 0) ∧
    (grainsOf h w g ori phase numPhases tol minSize = .error .indexError ↔
      (∃ p, InMap h w p ∧ phase p.2 p.1 ≠ 0) ∧ ∀ p, InMap h w p → phase p.2 p.1 ≠ 0 →
        regionCount h w g (fun p => rotMatrix (ori p.2 p.1)) phase tol p < minSize) := by
  obtain ⟨bx, by', e, -, -, hsize⟩ := images_both hunit htol hx hy numPhases minSize
  rw [e]
  obtain ⟨h1, h2, h3⟩ := C07_failure hw hh bx by' phase numPhases minSize
  simp only [hsize] at h2 h3
  exact ⟨h3, h1, h2⟩

/-- False: without a boundary between pixels side by side (above each other), neighbours of one phase
and close orientations are in one grain. Then all pixels side by side (above each other) are
separated: a grain lies in one column (one row). -/
theorem C128_no_boundary (hw : 2 ≤ w) (hh : 2 ≤ h)
    (hunit : ∀ p : Px, InMap h w p → (ori p.2 p.1).IsUnit) (htol : 0 ≤ tol)
    (numPhases minSize : Nat) (r : FGResult)
    (hr : grainsOf h w g ori phase numPhases tol minSize = .ok r) :
    ((∀ p, ¬ BoundaryAt h w g (fun p => rotMatrix (ori p.2 p.1)) phase tol false p) →
      ∀ p q : Px, 1 ≤ r.grains p.2 p.1 → r.grains p.2 p.1 = r.grains q.2 q.1 → p.1 = q.1) ∧
    ((∀ p, ¬ BoundaryAt h w g (fun p => rotMatrix (ori p.2 p.1)) phase tol true p) →
      ∀ p q : Px, 1 ≤ r.grains p.2 p.1 → r.grains p.2 p.1 = r.grains q.2 q.1 → p.2 = q.2) := by
  obtain ⟨bx, by', e1, e2, h1, h2⟩ := images_of (g := g) (phase := phase) hunit htol
  have e : grainsOf h w g ori phase numPhases tol minSize =
      findGrains h w phase numPhases bx by' minSize := by
    unfold grainsOf findGrainsOf
    rw [e1, e2]
    rfl
  rw [e] at hr
  obtain ⟨-, h5, -, -⟩ := C03_partition hw hh bx by' phase numPhases minSize r hr
  constructor
  · intro hn p q hp he
    have : ∀ {a b : Px}, Conn h w bx by' a b → a.1 = b.1 := by
      intro a b hab
      induction hab with
      | refl => rfl
      | tail _ hs ih =>
        rw [ih]
        cases hs with
        | right x y a1 a2 a3 => exact absurd ((h1 (x, y) a1).mpr (Or.inr hn)) (by simp [a3])
        | left x y a1 a2 a3 => exact absurd ((h1 (x, y) a1).mpr (Or.inr hn)) (by simp [a3])
        | down x y a1 a2 a3 => rfl
        | up x y a1 a2 a3 => rfl
    exact this (h5 p q hp he)
  · intro hn p q hp he
    have : ∀ {a b : Px}, Conn h w bx by' a b → a.2 = b.2 := by
      intro a b hab
      induction hab with
      | refl => rfl
      | tail _ hs ih =>
        rw [ih]
        cases hs with
        | right x y a1 a2 a3 => rfl
        | left x y a1 a2 a3 => rfl
        | down x y a1 a2 a3 => exact absurd ((h2 (x, y) a1).mpr (Or.inr hn)) (by simp [a3])
        | up x y a1 a2 a3 => exact absurd ((h2 (x, y) a1).mpr (Or.inr hn)) (by simp [a3])
    exact this (h5 p q hp he)

/-! ### Another crystal type than that of the primary phase -/

/-- A quarter turn about the third axis. -/
noncomputable def quarterTurn : Quat ℝ := ⟨Real.sqrt 2 / 2, 0, 0, Real.sqrt 2 / 2⟩

theorem quarterTurn_unit : quarterTurn.IsUnit := by
  have h2 : Real.sqrt 2 ^ 2 = 2 := Real.sq_sqrt (by norm_num)
  simp only [Quat.IsUnit, quarterTurn]
  linarith [h2, div_pow (Real.sqrt 2) 2 2]

theorem one_unit : (⟨1, 0, 0, 0⟩ : Quat ℝ).IsUnit := by simp [Quat.IsUnit]

/-- For a cube a quarter turn is nothing. -/
theorem quarterTurn_cube : Close .cubic 0 (rotMatrix quarterTurn) (rotMatrix ⟨1, 0, 0, 0⟩) := by
  rw [← neighbourAngle_le .cubic quarterTurn_unit one_unit 0]
  have hmem : quarterTurn ∈ symEqv .cubic := by
    refine List.mem_map.mpr ⟨⟨sr, s0, s0, sr⟩, by simp [cubicExact], ?_⟩
    simp [Quat.real, quarterTurn, real_sr, real_s0]
  obtain ⟨-, hle⟩ := largestOverlap_spec (symEqv_table .cubic) quarterTurn_unit one_unit
  have h1 := hle _ hmem
  have e : dot quarterTurn (mulRaw quarterTurn ⟨1, 0, 0, 0⟩) = 1 := by
    have h2 : Real.sqrt 2 ^ 2 = 2 := Real.sq_sqrt (by norm_num)
    simp only [dot, mulRaw, quarterTurn]
    linarith [h2, div_pow (Real.sqrt 2) 2 2]
  rw [e, abs_one] at h1
  unfold neighbourAngle
  rw [Real.arccos_eq_zero.mpr h1]
  simp

/-- For a hexagonal prism it is a turn by 30 degrees. -/
theorem quarterTurn_prism {tol : ℝ} (htol : tol < 30) :
    ¬ Close .hexagonal tol (rotMatrix quarterTurn) (rotMatrix ⟨1, 0, 0, 0⟩) := by
  rintro ⟨S, hS, h⟩
  obtain ⟨s, hs, rfl⟩ := (C39_prism S).mp hS
  have h3 : Real.sqrt 3 * Real.sqrt 3 = 3 := Real.mul_self_sqrt (by norm_num)
  have h2 : Real.sqrt 2 ^ 2 = 2 := Real.sq_sqrt (by norm_num)
  have hpos : 0 ≤ Real.sqrt 3 := Real.sqrt_nonneg 3
  have h17 : (3 : ℝ) / 2 ≤ Real.sqrt 3 := by
    rw [show (3 : ℝ) / 2 = Real.sqrt ((3 / 2) ^ 2) by rw [Real.sqrt_sq (by norm_num)]]
    exact Real.sqrt_le_sqrt (by norm_num)
  have hu := (symEqv_table .hexagonal).unit s hs
  have hle : ((rotMatrix quarterTurn * (rotMatrix s * rotMatrix ⟨1, 0, 0, 0⟩)ᵀ).trace - 1) / 2 ≤
      Real.sqrt 3 / 2 := by
    rw [← rotMatrix_mulRaw, trace_rot, (isUnit_iff _).mp quarterTurn_unit,
      (isUnit_iff _).mp (isUnit_mulRaw hu one_unit)]
    obtain ⟨t, ht, rfl⟩ := List.mem_map.mp hs
    have hexp : dot quarterTurn (mulRaw t.real ⟨1, 0, 0, 0⟩) ^ 2 =
        (t.real.q0 + t.real.q3) ^ 2 / 2 := by
      simp only [dot, mulRaw, quarterTurn]
      linear_combination ((t.real.q0 + t.real.q3) ^ 2 / 4) * h2
    rw [hexp]
    simp only [hexagonalExact, List.mem_cons, List.not_mem_nil, or_false] at ht
    rcases ht with rfl | rfl | rfl | rfl | rfl | rfl | rfl | rfl | rfl | rfl | rfl | rfl <;>
      simp [Quat.real, real_s0, real_s1, real_sh, real_sr, Surd.real_neg] <;> nlinarith
  have hpi := Real.pi_pos
  have h6 : Real.arccos (Real.sqrt 3 / 2) = Real.pi / 6 := by
    rw [← Real.cos_pi_div_six, Real.arccos_cos] <;> linarith
  have h7 := Real.arccos_le_arccos hle
  rw [h6] at h7
  unfold rotationAngle at h
  have : Real.pi / 6 ≤ tol * (Real.pi / 180) := le_trans h7 h
  nlinarith

/-- False: boundaries are found with the symmetry of each phase. In a map whose primary phase is
hexagonal, two neighbours of a cubic phase whose orientations are the same up to a rotation of the cube
have a boundary between them for every tolerance below 30 degrees. -/
theorem C128_other_crystal (h w : Nat) (hw : 2 ≤ w) (hh : 2 ≤ h) (tol : ℝ) (h0 : 0 ≤ tol)
    (h30 : tol < 30) :
    ∃ ori : Img (Quat ℝ), (∀ y x, (ori y x).IsUnit) ∧
      Close .cubic 0 (rotMatrix (ori 0 0)) (rotMatrix (ori 0 1)) ∧
      ((0, 0) : Px) ∈ (boundariesOf h w .hexagonal ori (fun _ _ => 2) tol).2.pointsX ∧
      ((0, 0) : Px) ∈ (boundariesOf h w .hexagonal ori (fun _ _ => 2) tol).2.pointsY := by
  refine ⟨fun y x => if y = 0 ∧ x = 0 then quarterTurn else ⟨1, 0, 0, 0⟩, ?_, ?_, ?_, ?_⟩
  · intro y x
    dsimp only
    split_ifs
    · exact quarterTurn_unit
    · exact one_unit
  · simpa using quarterTurn_cube
  · rw [(C128_boundary (fun p _ => by
      split_ifs
      · exact quarterTurn_unit
      · exact one_unit) h0 (0, 0)).1]
    refine ⟨⟨le_refl _, ?_, le_refl _, ?_⟩, ⟨?_, ?_, le_refl _, ?_⟩, ?_⟩ <;> simp <;> try omega
    exact quarterTurn_prism h30
  · rw [(C128_boundary (fun p _ => by
      split_ifs
      · exact quarterTurn_unit
      · exact one_unit) h0 (0, 0)).2]
    refine ⟨⟨le_refl _, ?_, le_refl _, ?_⟩, ⟨le_refl _, ?_, ?_, ?_⟩, ?_⟩ <;> simp <;> try omega
    exact quarterTurn_prism h30

/-! ### A case -/

/-- A hexagonal map of 4 by 4 pixels with one pixel turned by 90 degrees has boundaries of both
kinds. -/
example : ∃ ori : Img (Quat ℝ), (∀ p : Px, InMap 4 4 p → (ori p.2 p.1).IsUnit) ∧
    (∃ p, BoundaryAt 4 4 .hexagonal (fun p => rotMatrix (ori p.2 p.1)) (fun _ _ => 2) 10 false p) ∧
    ∃ p, BoundaryAt 4 4 .hexagonal (fun p => rotMatrix (ori p.2 p.1)) (fun _ _ => 2) 10 true p := by
  obtain ⟨ori, h1, -, h3, h4⟩ := C128_other_crystal 4 4 (by decide) (by decide) 10 (by norm_num)
    (by norm_num)
  have hu : ∀ p : Px, InMap 4 4 p → (ori p.2 p.1).IsUnit := fun p _ => h1 p.2 p.1
  exact ⟨ori, hu, ⟨_, (C128_boundary hu (by norm_num) _).1.mp h3⟩,
    ⟨_, (C128_boundary hu (by norm_num) _).2.mp h4⟩⟩

end DefDAP
