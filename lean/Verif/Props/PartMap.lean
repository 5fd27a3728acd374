import Verif.Props.TurnedGrains

/-!
C156: the grains of a part of a map.
-/

namespace DefDAP

open Quat Spec Matrix

/-- Where a pixel of the part is in the whole map. -/
def Spec.inWhole (top left : Int) (p : Px) : Px := (p.1 + left, p.2 + top)

/-- The map of `h'` by `w'` pixels is the part of the map of `h` by `w` pixels that starts at row `top` and
column `left`. -/
structure Spec.PartOf (h w h' w' : Nat) (top left : Int) (ori ori' : Img (Quat ℝ)) (phase phase' : Img Int) :
    Prop where
  top_nonneg : 0 ≤ top
  left_nonneg : 0 ≤ left
  bottom : top + h' ≤ h
  right : left + w' ≤ w
  ori : ∀ p, InMap h' w' p → ori' p.2 p.1 = ori (inWhole top left p).2 (inWhole top left p).1
  phase : ∀ p, InMap h' w' p → phase' p.2 p.1 = phase (inWhole top left p).2 (inWhole top left p).1

variable {h w h' w' : Nat} {top left : Int} {g : SymGroup} {ori ori' : Img (Quat ℝ)} {phase phase' : Img Int}
  {tol : ℝ}

theorem part_in (hp : PartOf h w h' w' top left ori ori' phase phase') {p : Px} (h1 : InMap h' w' p) :
    InMap h w (inWhole top left p) := by
  obtain ⟨a, b, c, d⟩ := h1
  have := hp.top_nonneg
  have := hp.left_nonneg
  have := hp.bottom
  have := hp.right
  refine ⟨?_, ?_, ?_, ?_⟩ <;> simp only [inWhole] <;> omega

theorem inWhole_next (below : Bool) (p : Px) :
    inWhole top left (if below then (p.1, p.2 + 1) else (p.1 + 1, p.2)) =
      if below then ((inWhole top left p).1, (inWhole top left p).2 + 1)
      else ((inWhole top left p).1 + 1, (inWhole top left p).2) := by
  cases below <;> simp [inWhole] <;> ring

/-- A boundary in the part is one in the whole; and one in the whole between two pixels of the part is one
in the part. -/
theorem part_boundary (hp : PartOf h w h' w' top left ori ori' phase phase') (below : Bool) {p : Px}
    (h1 : InMap h' w' p) (h2 : InMap h' w' (if below then (p.1, p.2 + 1) else (p.1 + 1, p.2))) :
    BoundaryAt h' w' g (fun p => rotMatrix (ori' p.2 p.1)) phase' tol below p ↔
      BoundaryAt h w g (fun p => rotMatrix (ori p.2 p.1)) phase tol below (inWhole top left p) := by
  have e := inWhole_next (top := top) (left := left) below p
  unfold BoundaryAt
  simp only
  rw [← e]
  set q : Px := if below then (p.1, p.2 + 1) else (p.1 + 1, p.2)
  rw [hp.phase p h1, hp.phase q h2, hp.ori p h1, hp.ori q h2]
  exact ⟨fun k => ⟨part_in hp h1, part_in hp h2, k.2.2⟩, fun k => ⟨h1, h2, k.2.2⟩⟩

/-- **C156** The part has the boundaries of the whole map between its pixels, and no others. -/
theorem C156_boundaries (hp : PartOf h w h' w' top left ori ori' phase phase')
    (hunit : ∀ p : Px, InMap h w p → (ori p.2 p.1).IsUnit) (htol : 0 ≤ tol) (p : Px) :
    (p ∈ (boundariesOf h' w' g ori' phase' tol).2.pointsX ↔
      InMap h' w' p ∧ InMap h' w' (p.1 + 1, p.2) ∧
        inWhole top left p ∈ (boundariesOf h w g ori phase tol).2.pointsX) ∧
    (p ∈ (boundariesOf h' w' g ori' phase' tol).2.pointsY ↔
      InMap h' w' p ∧ InMap h' w' (p.1, p.2 + 1) ∧
        inWhole top left p ∈ (boundariesOf h w g ori phase tol).2.pointsY) := by
  have hunit' : ∀ p : Px, InMap h' w' p → (ori' p.2 p.1).IsUnit := by
    intro p h1
    rw [hp.ori p h1]
    exact hunit _ (part_in hp h1)
  have b := C128_boundary (g := g) (phase := phase) hunit htol (inWhole top left p)
  have b' := C128_boundary (g := g) (phase := phase') hunit' htol p
  rw [b.1, b.2, b'.1, b'.2]
  constructor
  · refine ⟨fun k => ⟨k.1, by simpa using k.2.1, (part_boundary hp false k.1 k.2.1).1 k⟩, fun k => ?_⟩
    exact (part_boundary hp false k.1 (by simpa using k.2.1)).2 k.2.2
  · refine ⟨fun k => ⟨k.1, by simpa using k.2.1, (part_boundary hp true k.1 k.2.1).1 k⟩, fun k => ?_⟩
    exact (part_boundary hp true k.1 (by simpa using k.2.1)).2 k.2.2

theorem step_phase {bx by' : Img Bool}
    (h1 : ∀ p, InMap h w p → (bx p.2 p.1 = true ↔
        BoundaryAt h w g (fun p => rotMatrix (ori p.2 p.1)) phase tol false p ∨
        ∀ q, ¬ BoundaryAt h w g (fun p => rotMatrix (ori p.2 p.1)) phase tol false q))
    (h2 : ∀ p, InMap h w p → (by' p.2 p.1 = true ↔
        BoundaryAt h w g (fun p => rotMatrix (ori p.2 p.1)) phase tol true p ∨
        ∀ q, ¬ BoundaryAt h w g (fun p => rotMatrix (ori p.2 p.1)) phase tol true q)) :
    SeparatesPhases h w bx by' phase := by
  have nx : ∀ x y, InMap h w (x, y) → InMap h w (x + 1, y) → bx y x = false →
      phase y x = phase y (x + 1) := by
    intro x y a b c
    by_contra hne
    have := (h1 (x, y) a).2 (Or.inl ⟨a, by simpa using b, fun d => hne (by simpa using d.1)⟩)
    simp [c] at this
  have ny : ∀ x y, InMap h w (x, y) → InMap h w (x, y + 1) → by' y x = false →
      phase y x = phase (y + 1) x := by
    intro x y a b c
    by_contra hne
    have := (h2 (x, y) a).2 (Or.inl ⟨a, by simpa using b, fun d => hne (by simpa using d.1)⟩)
    simp [c] at this
  intro p q hs
  cases hs with
  | right x y a b c => exact nx x y a b c
  | left x y a b c => exact (nx x y a b c).symm
  | down x y a b c => exact ny x y a b c
  | up x y a b c => exact (ny x y a b c).symm

theorem separates_indexed {bx by' : Img Bool} (hs : SeparatesPhases h w bx by' phase) :
    SeparatesIndexed h w bx by' phase := fun p q k => by rw [hs p q k]

/-- The grain lists as regions of a pair of boundary images of each of the two maps; open steps of the part
are open in the whole, and open steps of the whole between pixels of the part are open in the part if it has
boundaries. -/
theorem part_images (hp : PartOf h w h' w' top left ori ori' phase phase')
    (hunit : ∀ p : Px, InMap h w p → (ori p.2 p.1).IsUnit) (htol : 0 ≤ tol) :
    ∃ bx by' cx cy,
      (∀ np ms, grainsOf h w g ori phase np tol ms = findGrains h w phase np bx by' ms) ∧
      (∀ np ms, grainsOf h' w' g ori' phase' np tol ms = findGrains h' w' phase' np cx cy ms) ∧
      SeparatesPhases h w bx by' phase ∧ SeparatesPhases h' w' cx cy phase' ∧
      (∀ p q, OpenStep h' w' cx cy p q → OpenStep h w bx by' (inWhole top left p) (inWhole top left q)) ∧
      ((∀ below, ∃ p, BoundaryAt h' w' g (fun p => rotMatrix (ori' p.2 p.1)) phase' tol below p) →
        ∀ p q, InMap h' w' p → InMap h' w' q →
          OpenStep h w bx by' (inWhole top left p) (inWhole top left q) → OpenStep h' w' cx cy p q) := by
  have hunit' : ∀ p : Px, InMap h' w' p → (ori' p.2 p.1).IsUnit := by
    intro p h1
    rw [hp.ori p h1]
    exact hunit _ (part_in hp h1)
  obtain ⟨bx, by', e1, e2, h1, h2⟩ := images_of (g := g) (phase := phase) hunit htol
  obtain ⟨cx, cy, f1, f2, k1, k2⟩ := images_of (g := g) (phase := phase') hunit' htol
  refine ⟨bx, by', cx, cy, ?_, ?_, step_phase h1 h2, step_phase k1 k2, ?_, ?_⟩
  · intro np ms
    unfold grainsOf findGrainsOf
    rw [e1, e2]
    rfl
  · intro np ms
    unfold grainsOf findGrainsOf
    rw [f1, f2]
    rfl
  · -- an open place of the part is open in the whole
    have jx : ∀ x y, InMap h' w' (x, y) → InMap h' w' (x + 1, y) → cx y x = false →
        bx (y + top) (x + left) = false := by
      intro x y a b c
      have k := k1 (x, y) a
      simp only [c] at k
      have k' := not_or.1 (fun t => by simpa using k.2 t)
      obtain ⟨z, hz⟩ := not_forall.1 k'.2
      have hz := not_not.1 hz
      by_contra hne
      rcases (h1 (inWhole top left (x, y)) (part_in hp a)).1 (by simpa [inWhole] using hne) with t | t
      · exact k'.1 ((part_boundary hp false a (by simpa using b)).2 t)
      · exact t _ ((part_boundary hp false hz.1 hz.2.1).1 hz)
    have jy : ∀ x y, InMap h' w' (x, y) → InMap h' w' (x, y + 1) → cy y x = false →
        by' (y + top) (x + left) = false := by
      intro x y a b c
      have k := k2 (x, y) a
      simp only [c] at k
      have k' := not_or.1 (fun t => by simpa using k.2 t)
      obtain ⟨z, hz⟩ := not_forall.1 k'.2
      have hz := not_not.1 hz
      by_contra hne
      rcases (h2 (inWhole top left (x, y)) (part_in hp a)).1 (by simpa [inWhole] using hne) with t | t
      · exact k'.1 ((part_boundary hp true a (by simpa using b)).2 t)
      · exact t _ ((part_boundary hp true hz.1 hz.2.1).1 hz)
    intro p q hs
    have ex : ∀ x y : Int, inWhole top left (x + 1, y) = (x + left + 1, y + top) := fun x y =>
      Prod.ext (by simp only [inWhole]; ring) rfl
    have ey : ∀ x y : Int, inWhole top left (x, y + 1) = (x + left, y + top + 1) := fun x y =>
      Prod.ext rfl (by simp only [inWhole]; ring)
    cases hs with
    | right x y a b c =>
      rw [ex]
      exact .right _ _ (part_in hp a) (by rw [← ex]; exact part_in hp b) (jx x y a b c)
    | left x y a b c =>
      rw [ex]
      exact .left _ _ (part_in hp a) (by rw [← ex]; exact part_in hp b) (jx x y a b c)
    | down x y a b c =>
      rw [ey]
      exact .down _ _ (part_in hp a) (by rw [← ey]; exact part_in hp b) (jy x y a b c)
    | up x y a b c =>
      rw [ey]
      exact .up _ _ (part_in hp a) (by rw [← ey]; exact part_in hp b) (jy x y a b c)
  · intro hsome
    have jx : ∀ x y, InMap h' w' (x, y) → InMap h' w' (x + 1, y) → bx (y + top) (x + left) = false →
        cx y x = false := by
      intro x y a b c
      by_contra hne
      rcases (k1 (x, y) a).1 (by simpa using hne) with t | t
      · have := (h1 (inWhole top left (x, y)) (part_in hp a)).2
          (Or.inl ((part_boundary hp false a (by simpa using b)).1 t))
        simp [inWhole, c] at this
      · obtain ⟨z, hz⟩ := hsome false
        exact t z hz
    have jy : ∀ x y, InMap h' w' (x, y) → InMap h' w' (x, y + 1) → by' (y + top) (x + left) = false →
        cy y x = false := by
      intro x y a b c
      by_contra hne
      rcases (k2 (x, y) a).1 (by simpa using hne) with t | t
      · have := (h2 (inWhole top left (x, y)) (part_in hp a)).2
          (Or.inl ((part_boundary hp true a (by simpa using b)).1 t))
        simp [inWhole, c] at this
      · obtain ⟨z, hz⟩ := hsome true
        exact t z hz
    rintro ⟨px, py⟩ ⟨qx, qy⟩ hpi hqi hs
    generalize ep : inWhole top left (px, py) = P at hs
    generalize eq : inWhole top left (qx, qy) = Q at hs
    simp only [inWhole] at ep eq
    cases hs with
    | right x y a b c =>
      simp only [Prod.mk.injEq] at ep eq
      obtain rfl : qx = px + 1 := by omega
      obtain rfl : qy = py := by omega
      exact .right _ _ hpi hqi (jx _ _ hpi hqi (by rw [ep.1, ep.2]; exact c))
    | left x y a b c =>
      simp only [Prod.mk.injEq] at ep eq
      obtain rfl : px = qx + 1 := by omega
      obtain rfl : qy = py := by omega
      exact .left _ _ hqi hpi (jx _ _ hqi hpi (by rw [eq.1, eq.2]; exact c))
    | down x y a b c =>
      simp only [Prod.mk.injEq] at ep eq
      obtain rfl : qx = px := by omega
      obtain rfl : qy = py + 1 := by omega
      exact .down _ _ hpi hqi (jy _ _ hpi hqi (by rw [ep.1, ep.2]; exact c))
    | up x y a b c =>
      simp only [Prod.mk.injEq] at ep eq
      obtain rfl : qx = px := by omega
      obtain rfl : py = qy + 1 := by omega
      exact .up _ _ hqi hpi (jy _ _ hqi hpi (by rw [eq.1, eq.2]; exact c))

theorem inWhole_inj {p q : Px} (he : inWhole top left p = inWhole top left q) : p = q := by
  simp only [inWhole, Prod.mk.injEq] at he
  exact Prod.ext (by omega) (by omega)

/-- A list of different pixels that are all connected to one pixel is no longer than the region. -/
theorem length_le_region {bx by' : Img Bool} {p : Px} {l : List Px} (hn : l.Nodup)
    (hc : ∀ q ∈ l, InMap h w q ∧ Conn h w bx by' p q) : l.length ≤ regionSize h w bx by' p := by
  classical
  rw [← List.toFinset_card_of_nodup hn]
  unfold regionSize
  refine Finset.card_le_card fun q hq => ?_
  obtain ⟨⟨a, b, c, d⟩, k⟩ := hc q (List.mem_toFinset.1 hq)
  simp only [mapPixels, Finset.mem_filter, Finset.mem_product, Finset.mem_Ico]
  exact ⟨⟨⟨a, b⟩, c, d⟩, k⟩

/-- **C156** Every grain of the part of a map lies within one grain of the whole map: cutting a map may split
grains and never joins any. -/
theorem C156_within (hp : PartOf h w h' w' top left ori ori' phase phase') (hh : 2 ≤ h) (hw : 2 ≤ w)
    (hh' : 2 ≤ h') (hw' : 2 ≤ w') (hunit : ∀ p : Px, InMap h w p → (ori p.2 p.1).IsUnit) (htol : 0 ≤ tol)
    (numPhases numPhases' minSize minSize' : Nat) (hms : minSize ≤ minSize') (r r' : FGResult)
    (hr : grainsOf h w g ori phase numPhases tol minSize = .ok r)
    (hr' : grainsOf h' w' g ori' phase' numPhases' tol minSize' = .ok r') (i : Nat)
    (hi : i < r'.list.length) :
    ∃ j, j < r.list.length ∧ ∀ p ∈ r'.points i, inWhole top left p ∈ r.points j := by
  obtain ⟨bx, by', cx, cy, e1, e2, s1, s2, st, -⟩ := part_images (g := g) hp hunit htol
  rw [e1] at hr
  rw [e2] at hr'
  obtain ⟨c1, c2, c3, c4⟩ := C03_partition hw hh bx by' phase numPhases minSize r hr
  obtain ⟨d1, d2, d3, d4⟩ := C03_partition hw' hh' cx cy phase' numPhases' minSize' r' hr'
  obtain ⟨n1, n2, -⟩ := C04_numbering hw hh bx by' phase numPhases minSize r hr
  obtain ⟨m1, -, -⟩ := C04_numbering hw' hh' cx cy phase' numPhases' minSize' r' hr'
  obtain ⟨nodup, mem, size, ne, inm⟩ := m1 i hi
  obtain ⟨p0, hp0⟩ := List.exists_mem_of_ne_nil _ ne
  have i0 := inm p0 hp0
  have l0 := (mem p0).1 hp0
  have lift : ∀ q ∈ r'.points i, Conn h w bx by' (inWhole top left p0) (inWhole top left q) := by
    intro q hq
    have hc := d2 p0 q (by omega) (by rw [l0, (mem q).1 hq])
    exact hc.lift _ st
  have ph : phase (inWhole top left p0).2 (inWhole top left p0).1 ≠ 0 := by
    intro e
    have := d4 (separates_indexed s2) p0 i0 (by rw [hp.phase p0 i0, e])
    omega
  have reg : minSize ≤ regionSize h w bx by' (inWhole top left p0) := by
    have := length_le_region (h := h) (w := w) (bx := bx) (by' := by') (p := inWhole top left p0)
      (l := (r'.points i).map (inWhole top left)) (nodup.map fun _ _ => inWhole_inj) (by
        intro q hq
        obtain ⟨z, hz, rfl⟩ := List.mem_map.1 hq
        exact ⟨part_in hp (inm z hz), lift z hz⟩)
    rw [List.length_map] at this
    omega
  rcases c1 _ (part_in hp i0) ph with k | ⟨k, k'⟩
  · have := ((n2 _ (part_in hp i0)).1 k).1
    omega
  · refine ⟨(r.grains (inWhole top left p0).2 (inWhole top left p0).1 - 1).toNat, by omega, fun q hq => ?_⟩
    rw [(n1 _ (by omega)).2.1, ← c3 _ _ (lift q hq)]
    omega

/-- **C156** A grain of the whole map all of whose points are in the part is a grain of the part, with the
same points, if the part has a boundary in each direction. -/
theorem C156_kept (hp : PartOf h w h' w' top left ori ori' phase phase') (hh : 2 ≤ h) (hw : 2 ≤ w)
    (hh' : 2 ≤ h') (hw' : 2 ≤ w') (hunit : ∀ p : Px, InMap h w p → (ori p.2 p.1).IsUnit) (htol : 0 ≤ tol)
    (hsome : ∀ below, ∃ p, BoundaryAt h' w' g (fun p => rotMatrix (ori' p.2 p.1)) phase' tol below p)
    (numPhases numPhases' minSize : Nat) (r r' : FGResult)
    (hr : grainsOf h w g ori phase numPhases tol minSize = .ok r)
    (hr' : grainsOf h' w' g ori' phase' numPhases' tol minSize = .ok r') (j : Nat)
    (hj : j < r.list.length)
    (hin : ∀ p ∈ r.points j, ∃ p', InMap h' w' p' ∧ inWhole top left p' = p) :
    ∃ i, i < r'.list.length ∧ ∀ p, InMap h' w' p → (p ∈ r'.points i ↔ inWhole top left p ∈ r.points j) := by
  obtain ⟨bx, by', cx, cy, e1, e2, s1, s2, st, back⟩ := part_images (g := g) hp hunit htol
  have back := back hsome
  rw [e1] at hr
  rw [e2] at hr'
  obtain ⟨c1, c2, c3, c4⟩ := C03_partition hw hh bx by' phase numPhases minSize r hr
  obtain ⟨d1, d2, d3, d4⟩ := C03_partition hw' hh' cx cy phase' numPhases' minSize r' hr'
  obtain ⟨n1, -, -⟩ := C04_numbering hw hh bx by' phase numPhases minSize r hr
  obtain ⟨m1, m2, -⟩ := C04_numbering hw' hh' cx cy phase' numPhases' minSize r' hr'
  obtain ⟨nodup, mem, size, ne, inm⟩ := n1 j hj
  obtain ⟨P0, hP0⟩ := List.exists_mem_of_ne_nil _ ne
  obtain ⟨p0, i0, rfl⟩ := hin P0 hP0
  have l0 := (mem _).1 hP0
  -- connections within the grain stay within the part
  have down : ∀ Q, Conn h w bx by' (inWhole top left p0) Q →
      ∃ q, InMap h' w' q ∧ inWhole top left q = Q ∧ Conn h' w' cx cy p0 q := by
    intro Q hQ
    induction hQ with
    | refl => exact ⟨p0, i0, rfl, .refl⟩
    | @tail B C hB hBC ih =>
      obtain ⟨b, ib, rfl, hb⟩ := ih
      have : C ∈ r.points j := by
        rw [mem, ← c3 _ _ (Relation.ReflTransGen.tail hB hBC)]
        exact l0
      obtain ⟨c, ic, rfl⟩ := hin C this
      exact ⟨c, ic, rfl, hb.tail (back _ _ ib ic hBC)⟩
  have conn : ∀ q, InMap h' w' q → inWhole top left q ∈ r.points j → Conn h' w' cx cy p0 q := by
    intro q _ hq
    obtain ⟨z, -, ez, hz⟩ := down _ (c2 _ (inWhole top left q) (by omega) (by rw [l0, (mem _).1 hq]))
    rwa [inWhole_inj ez] at hz
  have ph : phase' p0.2 p0.1 ≠ 0 := by
    rw [hp.phase p0 i0]
    intro e
    have := c4 (separates_indexed s1) _ (part_in hp i0) e
    omega
  have reg : minSize ≤ regionSize h' w' cx cy p0 := by
    have hl : ((r.points j).map fun p : Px => ((p.1 - left, p.2 - top) : Px)).length ≤
        regionSize h' w' cx cy p0 := by
      refine length_le_region (nodup.map fun a b e => ?_) fun q hq => ?_
      · simp only [Prod.mk.injEq] at e
        exact Prod.ext (by omega) (by omega)
      · obtain ⟨Z, hZ, rfl⟩ := List.mem_map.1 hq
        obtain ⟨z, iz, rfl⟩ := hin Z hZ
        have : (((inWhole top left z).1 - left, (inWhole top left z).2 - top) : Px) = z := by
          simp [inWhole]
        rw [this]
        exact ⟨iz, conn z iz hZ⟩
    rw [List.length_map] at hl
    omega
  rcases d1 _ i0 ph with k | ⟨k, k'⟩
  · have := ((m2 _ i0).1 k).1
    omega
  · refine ⟨(r'.grains p0.2 p0.1 - 1).toNat, by omega, fun q iq => ?_⟩
    rw [(m1 _ (by omega)).2.1]
    constructor
    · intro e
      have hc := d2 p0 q k (by omega)
      rw [mem, ← c3 _ _ (hc.lift _ st)]
      exact l0
    · intro e
      rw [← d3 _ _ (conn q iq e)]
      omega

/-- A map of 3 by 3 pixels of one orientation whose first column, last column and last row are one phase, and
the first two pixels of the middle column one other phase each. -/
def Spec.archPhase : Img Int := fun y x => if x = 1 ∧ y = 0 then 2 else if x = 1 ∧ y = 1 then 3 else 1

theorem same_close (g : SymGroup) {tol : ℝ} (htol : 0 ≤ tol) :
    Close g tol (rotMatrix (⟨1, 0, 0, 0⟩ : Quat ℝ)) (rotMatrix ⟨1, 0, 0, 0⟩) := by
  refine ⟨rotMatrix ⟨1, 0, 0, 0⟩, (crystalRotation_iff _ _).2 ⟨_, List.mem_of_getElem? (symEqv_table g).head, rfl⟩, ?_⟩
  · rw [← rotMatrix_mulRaw, mul_one_left, rotationAngle_eq one_unit one_unit]
    have : dot (⟨1, 0, 0, 0⟩ : Quat ℝ) ⟨1, 0, 0, 0⟩ = 1 := by simp [dot]
    rw [this, abs_one, Real.arccos_one, mul_zero]
    have := Real.pi_pos
    positivity

theorem arch_part (w' h' : Nat) (hw : w' ≤ 3) (hh : h' ≤ 3) :
    PartOf 3 3 h' w' 0 0 (fun _ _ => ⟨1, 0, 0, 0⟩) (fun _ _ => ⟨1, 0, 0, 0⟩) archPhase archPhase :=
  ⟨le_refl _, le_refl _, by omega, by omega, fun _ _ => rfl, fun p _ => by simp [inWhole]⟩

theorem arch_boundary (g : SymGroup) {tol : ℝ} (h' w' : Nat) (hh : 2 ≤ h') (hw : 2 ≤ w') (below : Bool) :
    ∃ p, BoundaryAt h' w' g (fun _ => rotMatrix (⟨1, 0, 0, 0⟩ : Quat ℝ)) archPhase tol below p := by
  cases below
  · refine ⟨(0, 0), ⟨?_, ?_, fun k => ?_⟩⟩
    · simp [InMap]; omega
    · simp [InMap]; omega
    · exact absurd k.1 (by simp [archPhase])
  · refine ⟨(1, 0), ⟨?_, ?_, fun k => ?_⟩⟩
    · simp [InMap]; omega
    · simp [InMap]; omega
    · exact absurd k.1 (by simp [archPhase])

theorem arch_grains (g : SymGroup) {tol : ℝ} (htol : 0 ≤ tol) (h' w' : Nat) (hh : 2 ≤ h') (hw : 2 ≤ w') :
    ∃ r, grainsOf h' w' g (fun _ _ => ⟨1, 0, 0, 0⟩) archPhase 3 tol 1 = .ok r := by
  obtain ⟨bx, by', e1, e2, -, -⟩ := images_of (h := h') (w := w') (g := g) (phase := archPhase) (tol := tol)
    (ori := fun _ _ => ⟨1, 0, 0, 0⟩) (fun _ _ => one_unit) htol
  have e : grainsOf h' w' g (fun _ _ => ⟨1, 0, 0, 0⟩) archPhase 3 tol 1 =
      findGrains h' w' archPhase 3 bx by' 1 := by
    unfold grainsOf findGrainsOf
    rw [e1, e2]
    rfl
  rw [e, (C07_failure hw hh bx by' archPhase 3 1).2.2]
  refine ⟨(0, 0), by simp [InMap]; omega, by simp [archPhase], ?_⟩
  unfold regionSize
  refine Finset.card_pos.2 ⟨(0, 0), ?_⟩
  classical
  exact Finset.mem_filter.2 ⟨by simp [mapPixels]; omega, Relation.ReflTransGen.refl⟩

/-- **C156** Cutting does split grains: the pixels at the two ends of an arch are in one grain of the whole map
and in two grains of the part without the span of the arch. -/
theorem C156_split (g : SymGroup) (tol : ℝ) (htol : 0 ≤ tol) :
    ∃ r r' : FGResult, grainsOf 3 3 g (fun _ _ => ⟨1, 0, 0, 0⟩) archPhase 3 tol 1 = .ok r ∧
      grainsOf 2 3 g (fun _ _ => ⟨1, 0, 0, 0⟩) archPhase 3 tol 1 = .ok r' ∧
      (∃ j, (0, 0) ∈ r.points j ∧ (2, 0) ∈ r.points j) ∧
      ∃ i i', i ≠ i' ∧ (0, 0) ∈ r'.points i ∧ (2, 0) ∈ r'.points i' := by
  obtain ⟨r, hr⟩ := arch_grains g htol 3 3 (by omega) (by omega)
  obtain ⟨r', hr'⟩ := arch_grains g htol 2 3 (by omega) (by omega)
  refine ⟨r, r', hr, hr', ?_, ?_⟩
  · obtain ⟨bx, by', e1, e2, h1, h2⟩ := images_of (h := 3) (w := 3) (g := g) (phase := archPhase) (tol := tol)
      (ori := fun _ _ => ⟨1, 0, 0, 0⟩) (fun _ _ => one_unit) htol
    have e : grainsOf 3 3 g (fun _ _ => ⟨1, 0, 0, 0⟩) archPhase 3 tol 1 =
        findGrains 3 3 archPhase 3 bx by' 1 := by
      unfold grainsOf findGrainsOf
      rw [e1, e2]
      rfl
    rw [e] at hr
    obtain ⟨c1, -, c3, -⟩ := C03_partition (by omega) (by omega) bx by' archPhase 3 1 r hr
    obtain ⟨n1, n2, -⟩ := C04_numbering (by omega) (by omega) bx by' archPhase 3 1 r hr
    have fx : ∀ x y, InMap 3 3 (x, y) → archPhase y x = archPhase y (x + 1) → bx y x = false := by
      intro x y a b
      by_contra hne
      rcases (h1 (x, y) a).1 (by simpa using hne) with t | t
      · exact t.2.2 ⟨by simpa using b, same_close g htol⟩
      · obtain ⟨z, hz⟩ := arch_boundary g (tol := tol) 3 3 (by omega) (by omega) false
        exact t z hz
    have fy : ∀ x y, InMap 3 3 (x, y) → archPhase y x = archPhase (y + 1) x → by' y x = false := by
      intro x y a b
      by_contra hne
      rcases (h2 (x, y) a).1 (by simpa using hne) with t | t
      · exact t.2.2 ⟨by simpa using b, same_close g htol⟩
      · obtain ⟨z, hz⟩ := arch_boundary g (tol := tol) 3 3 (by omega) (by omega) true
        exact t z hz
    have im : ∀ x y : Int, 0 ≤ x → x < 3 → 0 ≤ y → y < 3 → InMap 3 3 (x, y) := fun x y a b c d =>
      ⟨a, by exact_mod_cast b, c, by exact_mod_cast d⟩
    have s1 : OpenStep 3 3 bx by' (0, 0) (0, 1) := .down 0 0 (im _ _ (by simp) (by simp) (by simp) (by simp))
      (im _ _ (by simp) (by simp) (by simp) (by simp))
      (fy 0 0 (im _ _ (by simp) (by simp) (by simp) (by simp)) (by simp [archPhase]))
    have s2 : OpenStep 3 3 bx by' (0, 1) (0, 2) := .down 0 1 (im _ _ (by simp) (by simp) (by simp) (by simp))
      (im _ _ (by simp) (by simp) (by simp) (by simp))
      (fy 0 1 (im _ _ (by simp) (by simp) (by simp) (by simp)) (by simp [archPhase]))
    have s3 : OpenStep 3 3 bx by' (0, 2) (1, 2) := .right 0 2 (im _ _ (by simp) (by simp) (by simp) (by simp))
      (im _ _ (by simp) (by simp) (by simp) (by simp))
      (fx 0 2 (im _ _ (by simp) (by simp) (by simp) (by simp)) (by simp [archPhase]))
    have s4 : OpenStep 3 3 bx by' (1, 2) (2, 2) := .right 1 2 (im _ _ (by simp) (by simp) (by simp) (by simp))
      (im _ _ (by simp) (by simp) (by simp) (by simp))
      (fx 1 2 (im _ _ (by simp) (by simp) (by simp) (by simp)) (by simp [archPhase]))
    have s5 : OpenStep 3 3 bx by' (2, 2) (2, 1) := .up 2 1 (im _ _ (by simp) (by simp) (by simp) (by simp))
      (im _ _ (by simp) (by simp) (by simp) (by simp))
      (fy 2 1 (im _ _ (by simp) (by simp) (by simp) (by simp)) (by simp [archPhase]))
    have s6 : OpenStep 3 3 bx by' (2, 1) (2, 0) := .up 2 0 (im _ _ (by simp) (by simp) (by simp) (by simp))
      (im _ _ (by simp) (by simp) (by simp) (by simp))
      (fy 2 0 (im _ _ (by simp) (by simp) (by simp) (by simp)) (by simp [archPhase]))
    have hc : Conn 3 3 bx by' (0, 0) (2, 0) := .tail (.tail (.tail (.tail (.tail (.single s1) s2) s3) s4) s5) s6
    have i0 : InMap 3 3 (0, 0) := im _ _ (by simp) (by simp) (by simp) (by simp)
    have reg : 1 ≤ regionSize 3 3 bx by' (0, 0) :=
      length_le_region (l := [(0, 0)]) (by simp) (by
        intro q hq
        rw [List.mem_singleton.1 hq]
        exact ⟨i0, .refl⟩)
    rcases c1 (0, 0) i0 (by simp [archPhase]) with k | ⟨k, k'⟩
    · have := ((n2 _ i0).1 k).1
      omega
    · simp only at k k'
      refine ⟨(r.grains 0 0 - 1).toNat, ?_, ?_⟩
      · rw [(n1 _ (by omega)).2.1]
        simp only
        omega
      · rw [(n1 _ (by omega)).2.1, ← c3 _ _ hc]
        simp only
        omega
  · obtain ⟨bx, by', e1, e2, h1, h2⟩ := images_of (h := 2) (w := 3) (g := g) (phase := archPhase) (tol := tol)
      (ori := fun _ _ => ⟨1, 0, 0, 0⟩) (fun _ _ => one_unit) htol
    have e : grainsOf 2 3 g (fun _ _ => ⟨1, 0, 0, 0⟩) archPhase 3 tol 1 =
        findGrains 2 3 archPhase 3 bx by' 1 := by
      unfold grainsOf findGrainsOf
      rw [e1, e2]
      rfl
    rw [e] at hr'
    have sp := step_phase (g := g) (ori := fun _ _ => ⟨1, 0, 0, 0⟩) (phase := archPhase) (tol := tol) h1 h2
    obtain ⟨c1, c2, c3, -⟩ := C03_partition (by omega) (by omega) bx by' archPhase 3 1 r' hr'
    obtain ⟨n1, n2, -⟩ := C04_numbering (by omega) (by omega) bx by' archPhase 3 1 r' hr'
    -- the first column is closed under open steps
    have stay : ∀ q, Conn 2 3 bx by' (0, 0) q → q.1 = 0 ∧ archPhase q.2 q.1 = 1 := by
      intro q hq
      induction hq with
      | refl => simp [archPhase]
      | @tail b c hb hbc ih =>
        have hph := sp b c hbc
        rw [ih.2] at hph
        refine ⟨?_, hph.symm⟩
        obtain ⟨hx, -⟩ := ih
        cases hbc with
        | right x y a b c =>
          simp only at hx hph ⊢
          subst hx
          obtain ⟨-, -, y0, y1⟩ := a
          simp only at y0 y1
          have : y = 0 ∨ y = 1 := by omega
          rcases this with rfl | rfl <;> simp [archPhase] at hph
        | left x y a b c =>
          obtain ⟨x0, -⟩ := a
          simp only at hx x0
          omega
        | down x y a b c => exact hx
        | up x y a b c => exact hx
    have im : ∀ x : Int, 0 ≤ x → x < 3 → InMap 2 3 (x, 0) := fun x a b =>
      ⟨a, by exact_mod_cast b, by simp, by simp⟩
    have own : ∀ x : Int, 0 ≤ x → x < 3 → 1 ≤ r'.grains 0 x ∧ r'.grains 0 x ≤ r'.list.length := by
      intro x a b
      have reg : 1 ≤ regionSize 2 3 bx by' (x, 0) :=
        length_le_region (l := [(x, 0)]) (by simp) (by
          intro q hq
          rw [List.mem_singleton.1 hq]
          exact ⟨im x a b, .refl⟩)
      rcases c1 (x, 0) (im x a b) (by
        show archPhase 0 x ≠ 0
        unfold archPhase
        split_ifs <;> decide) with k | k
      · have := ((n2 _ (im x a b)).1 k).1
        omega
      · exact k
    obtain ⟨a1, a2⟩ := own 0 (by simp) (by simp)
    obtain ⟨b1, b2⟩ := own 2 (by simp) (by simp)
    refine ⟨(r'.grains 0 0 - 1).toNat, (r'.grains 0 2 - 1).toNat, fun eq => ?_, ?_, ?_⟩
    · have e0 : r'.grains 0 0 = r'.grains 0 2 := by omega
      have := (stay _ (c2 (0, 0) (2, 0) a1 e0)).1
      simp at this
    · rw [(n1 _ (by omega)).2.1]
      simp only
      omega
    · rw [(n1 _ (by omega)).2.1]
      simp only
      omega

/-- The arch and its first two rows: a part with boundaries of both kinds, and both maps have grains. -/
example : PartOf 3 3 2 3 0 0 (fun _ _ => (⟨1, 0, 0, 0⟩ : Quat ℝ)) (fun _ _ => ⟨1, 0, 0, 0⟩) archPhase archPhase ∧
    (∀ below, ∃ p, BoundaryAt 2 3 .cubic (fun _ => rotMatrix (⟨1, 0, 0, 0⟩ : Quat ℝ)) archPhase 10 below p) ∧
    (∃ r, grainsOf 3 3 .cubic (fun _ _ => ⟨1, 0, 0, 0⟩) archPhase 3 10 1 = .ok r) ∧
    ∃ r, grainsOf 2 3 .cubic (fun _ _ => ⟨1, 0, 0, 0⟩) archPhase 3 10 1 = .ok r :=
  ⟨arch_part 3 2 (by omega) (by omega), arch_boundary .cubic 2 3 (by omega) (by omega),
    arch_grains .cubic (by norm_num) 3 3 (by omega) (by omega),
    arch_grains .cubic (by norm_num) 2 3 (by omega) (by omega)⟩

end DefDAP
