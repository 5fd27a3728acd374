import Verif.Props.MisoriInvariant
import Verif.Props.RotateMap
import Mathlib.Data.Fintype.Card

/-!
C134: the grains of a map turned by half a turn.
-/

namespace DefDAP

open Quat Spec Matrix

/-- The pixel opposite of a pixel. -/
def Spec.oppositePx (h w : Nat) (p : Px) : Px := ((w : Int) - 1 - p.1, (h : Int) - 1 - p.2)

/-- The maps with the orientations `R`, `R'` and the phases `phase`, `phase'` are the same but for half
a turn of the map, and some rotation `T` of the frame the orientations are measured in. -/
def Spec.TurnedMap (h w : Nat) (T : Matrix (Fin 3) (Fin 3) ℝ) (R R' : Px → Matrix (Fin 3) (Fin 3) ℝ)
    (phase phase' : Img Int) : Prop :=
  ∀ p, InMap h w p → R' (oppositePx h w p) = R p * T ∧
    phase' (oppositePx h w p).2 (oppositePx h w p).1 = phase p.2 p.1

/-- The same grains but for half a turn, in lists `l` and `l'` of point lists: as many, and each grain of
one list is at the opposite pixels in the other. -/
def Spec.TurnedGrains (h w n n' : Nat) (l l' : Nat → List Px) : Prop :=
  n = n' ∧ (∀ i, i < n → ∃ j, j < n' ∧ ∀ p, p ∈ l i ↔ oppositePx h w p ∈ l' j) ∧
    ∀ j, j < n' → ∃ i, i < n ∧ ∀ p, p ∈ l i ↔ oppositePx h w p ∈ l' j

variable {h w : Nat} {g : SymGroup} {ori ori' : Img (Quat ℝ)} {phase phase' : Img Int} {tol : ℝ}
  {T : Matrix (Fin 3) (Fin 3) ℝ}

theorem opposite_twice (p : Px) : oppositePx h w (oppositePx h w p) = p := by
  obtain ⟨x, y⟩ := p
  simp [oppositePx]

theorem opposite_in {p : Px} : InMap h w (oppositePx h w p) ↔ InMap h w p := by
  unfold InMap oppositePx
  constructor <;> rintro ⟨a, b, c, d⟩ <;> refine ⟨?_, ?_, ?_, ?_⟩ <;> simp only at * <;> omega

theorem crystalRotation_one (g : SymGroup) : CrystalRotation g 1 := by
  rw [crystalRotation_iff]
  have hh := (symEqv_table g).head
  cases hl : symEqv g with
  | nil => rw [hl] at hh; simp at hh
  | cons a t =>
    rw [hl] at hh
    have ha : a = ⟨1, 0, 0, 0⟩ := by simpa using hh
    refine ⟨a, List.mem_cons_self, ?_⟩
    rw [ha]
    ext i j
    fin_cases i <;> fin_cases j <;> simp [rotMatrix]

theorem turned_close (hT : T * Tᵀ = 1)
    (ht : TurnedMap h w T (fun p => rotMatrix (ori p.2 p.1)) (fun p => rotMatrix (ori' p.2 p.1)) phase
      phase') {p q : Px} (hp : InMap h w p) (hq : InMap h w q) :
    Close g tol (rotMatrix (ori' (oppositePx h w p).2 (oppositePx h w p).1))
        (rotMatrix (ori' (oppositePx h w q).2 (oppositePx h w q).1)) ↔
      Close g tol (rotMatrix (ori p.2 p.1)) (rotMatrix (ori q.2 q.1)) := by
  have e1 := (ht p hp).1
  have e2 := (ht q hq).1
  simp only at e1 e2
  rw [e1, e2]
  have := close_invariant g tol (P := rotMatrix (ori p.2 p.1)) (Q := rotMatrix (ori q.2 q.1))
    (crystalRotation_one g) (crystalRotation_one g) hT
  simpa using this

/-- The boundary to the right of (below) a pixel is the one to the left of (above) the opposite. -/
theorem turned_boundary (hT : T * Tᵀ = 1)
    (ht : TurnedMap h w T (fun p => rotMatrix (ori p.2 p.1)) (fun p => rotMatrix (ori' p.2 p.1)) phase
      phase') (below : Bool) (p : Px) :
    BoundaryAt h w g (fun p => rotMatrix (ori' p.2 p.1)) phase' tol below
        (oppositePx h w (if below then (p.1, p.2 + 1) else (p.1 + 1, p.2))) ↔
      BoundaryAt h w g (fun p => rotMatrix (ori p.2 p.1)) phase tol below p := by
  set q : Px := if below then (p.1, p.2 + 1) else (p.1 + 1, p.2) with hq
  have ho : (if below then ((oppositePx h w q).1, (oppositePx h w q).2 + 1)
      else ((oppositePx h w q).1 + 1, (oppositePx h w q).2)) = oppositePx h w p := by
    cases below <;> simp [hq, oppositePx] <;> omega
  unfold BoundaryAt
  rw [ho, ← hq]
  simp only [opposite_in]
  constructor
  · rintro ⟨a, b, c⟩
    refine ⟨b, a, fun d => c ⟨?_, ?_⟩⟩
    · rw [(ht p b).2, (ht q a).2, d.1]
    · exact (turned_close hT ht a b).2 (close_symm g d.2)
  · rintro ⟨a, b, c⟩
    refine ⟨b, a, fun d => c ⟨?_, ?_⟩⟩
    · rw [← (ht p a).2, ← (ht q b).2, d.1]
    · exact close_symm g ((turned_close hT ht b a).1 d.2)

theorem turned_none (hT : T * Tᵀ = 1)
    (ht : TurnedMap h w T (fun p => rotMatrix (ori p.2 p.1)) (fun p => rotMatrix (ori' p.2 p.1)) phase
      phase') (below : Bool) :
    (∀ p, ¬ BoundaryAt h w g (fun p => rotMatrix (ori' p.2 p.1)) phase' tol below p) ↔
      ∀ p, ¬ BoundaryAt h w g (fun p => rotMatrix (ori p.2 p.1)) phase tol below p := by
  constructor
  · intro hn p hp
    exact hn _ ((turned_boundary hT ht below p).2 hp)
  · intro hn p hp
    have e : oppositePx h w (if below then ((oppositePx h w (if below then (p.1, p.2 + 1)
        else (p.1 + 1, p.2))).1, (oppositePx h w (if below then (p.1, p.2 + 1)
        else (p.1 + 1, p.2))).2 + 1) else ((oppositePx h w (if below then (p.1, p.2 + 1)
        else (p.1 + 1, p.2))).1 + 1, (oppositePx h w (if below then (p.1, p.2 + 1)
        else (p.1 + 1, p.2))).2)) = p := by
      obtain ⟨x, y⟩ := p
      cases below <;> simp [oppositePx] <;> omega
    refine hn (oppositePx h w (if below then (p.1, p.2 + 1) else (p.1 + 1, p.2))) ?_
    rw [← turned_boundary hT ht below, e]
    exact hp

theorem turned_step {bx by' cx cy : Img Bool}
    (jx : ∀ x y, InMap h w (x, y) → InMap h w (x + 1, y) →
      (cx (h - 1 - y) (w - 1 - (x + 1)) = false ↔ bx y x = false))
    (jy : ∀ x y, InMap h w (x, y) → InMap h w (x, y + 1) →
      (cy (h - 1 - (y + 1)) (w - 1 - x) = false ↔ by' y x = false)) (p q : Px)
    (hs : OpenStep h w bx by' p q) : OpenStep h w cx cy (oppositePx h w p) (oppositePx h w q) := by
  have ex : ∀ x y : Int, oppositePx h w (x, y) = ((w : Int) - 1 - (x + 1) + 1, (h : Int) - 1 - y) := by
    intro x y; exact Prod.ext (by simp only [oppositePx]; omega) rfl
  have ey : ∀ x y : Int, oppositePx h w (x, y) = ((w : Int) - 1 - x, (h : Int) - 1 - (y + 1) + 1) := by
    intro x y; exact Prod.ext rfl (by simp only [oppositePx]; omega)
  cases hs with
  | right x y a b c =>
    rw [ex x y]
    exact .left _ _ (opposite_in.2 b) (by rw [← ex]; exact opposite_in.2 a) ((jx x y a b).2 c)
  | left x y a b c =>
    rw [ex x y]
    exact .right _ _ (opposite_in.2 b) (by rw [← ex]; exact opposite_in.2 a) ((jx x y a b).2 c)
  | down x y a b c =>
    rw [ey x y]
    exact .up _ _ (opposite_in.2 b) (by rw [← ey]; exact opposite_in.2 a) ((jy x y a b).2 c)
  | up x y a b c =>
    rw [ey x y]
    exact .down _ _ (opposite_in.2 b) (by rw [← ey]; exact opposite_in.2 a) ((jy x y a b).2 c)

theorem turned_images (hu : ∀ p : Px, InMap h w p → (ori p.2 p.1).IsUnit)
    (hu' : ∀ p : Px, InMap h w p → (ori' p.2 p.1).IsUnit) (htol : 0 ≤ tol) (hT : T * Tᵀ = 1)
    (ht : TurnedMap h w T (fun p => rotMatrix (ori p.2 p.1)) (fun p => rotMatrix (ori' p.2 p.1)) phase
      phase') :
    ∃ bx by' cx cy,
      (∀ np ms, grainsOf h w g ori phase np tol ms = findGrains h w phase np bx by' ms) ∧
      (∀ np ms, grainsOf h w g ori' phase' np tol ms = findGrains h w phase' np cx cy ms) ∧
      (∀ p q, OpenStep h w bx by' p q → phase p.2 p.1 = phase q.2 q.1) ∧
      ∀ p q, OpenStep h w cx cy (oppositePx h w p) (oppositePx h w q) ↔ OpenStep h w bx by' p q := by
  obtain ⟨bx, by', e1, e2, h1, h2⟩ := images_of (g := g) (phase := phase) hu htol
  obtain ⟨cx, cy, f1, f2, k1, k2⟩ := images_of (g := g) (phase := phase') hu' htol
  refine ⟨bx, by', cx, cy, ?_, ?_, ?_, ?_⟩
  · intro np ms
    unfold grainsOf findGrainsOf
    rw [e1, e2]
    rfl
  · intro np ms
    unfold grainsOf findGrainsOf
    rw [f1, f2]
    rfl
  · have nx : ∀ x y, InMap h w (x, y) → InMap h w (x + 1, y) → bx y x = false →
        phase y x = phase y (x + 1) := by
      intro x y a b c
      by_contra hne
      have := (h1 (x, y) a).2 (Or.inl ⟨a, by simpa using b, fun d => hne (by simpa using d.1)⟩)
      simp [c] at this
    have ny : ∀ x y, InMap h w (x, y) → InMap h w (x, y + 1) → by' y x = false →
        phase y x = phase (y + 1) x := by
      intro x y a b c
      by_contra hne
      have := (h2 (x, y) a).2 (Or.inl ⟨a, by simpa using b, fun d => hne (by simpa using d.1)⟩)
      simp [c] at this
    intro p q hs
    cases hs with
    | right x y a b c => exact nx x y a b c
    | left x y a b c => exact (nx x y a b c).symm
    | down x y a b c => exact ny x y a b c
    | up x y a b c => exact (ny x y a b c).symm
  have jx : ∀ x y, InMap h w (x, y) → InMap h w (x + 1, y) →
      (cx (h - 1 - y) (w - 1 - (x + 1)) = false ↔ bx y x = false) := by
    intro x y a b
    have c := k1 (oppositePx h w (x + 1, y)) (opposite_in.2 b)
    have d := h1 (x, y) a
    have t1 := turned_boundary (g := g) (tol := tol) hT ht false (x, y)
    simp only [Bool.false_eq_true, if_false] at t1
    rw [t1, turned_none hT ht, ← d] at c
    rw [← Bool.not_eq_true, ← Bool.not_eq_true]
    exact not_congr c
  have jy : ∀ x y, InMap h w (x, y) → InMap h w (x, y + 1) →
      (cy (h - 1 - (y + 1)) (w - 1 - x) = false ↔ by' y x = false) := by
    intro x y a b
    have c := k2 (oppositePx h w (x, y + 1)) (opposite_in.2 b)
    have d := h2 (x, y) a
    have t1 := turned_boundary (g := g) (tol := tol) hT ht true (x, y)
    simp only [if_true] at t1
    rw [t1, turned_none hT ht, ← d] at c
    rw [← Bool.not_eq_true, ← Bool.not_eq_true]
    exact not_congr c
  have jx' : ∀ x y, InMap h w (x, y) → InMap h w (x + 1, y) →
      (bx (h - 1 - y) (w - 1 - (x + 1)) = false ↔ cx y x = false) := by
    intro x y a b
    have := jx (w - 1 - (x + 1)) (h - 1 - y) (opposite_in.2 b)
      (by rw [show (w : Int) - 1 - (x + 1) + 1 = w - 1 - x by omega]; exact opposite_in.2 a)
    rw [show (w : Int) - 1 - (w - 1 - (x + 1) + 1) = x by omega,
      show (h : Int) - 1 - (h - 1 - y) = y by omega] at this
    exact this.symm
  have jy' : ∀ x y, InMap h w (x, y) → InMap h w (x, y + 1) →
      (by' (h - 1 - (y + 1)) (w - 1 - x) = false ↔ cy y x = false) := by
    intro x y a b
    have := jy (w - 1 - x) (h - 1 - (y + 1)) (opposite_in.2 b)
      (by rw [show (h : Int) - 1 - (y + 1) + 1 = h - 1 - y by omega]; exact opposite_in.2 a)
    rw [show (h : Int) - 1 - (h - 1 - (y + 1) + 1) = y by omega,
      show (w : Int) - 1 - (w - 1 - x) = x by omega] at this
    exact this.symm
  intro p q
  refine ⟨fun hs => ?_, turned_step jx jy p q⟩
  have := turned_step jx' jy' _ _ hs
  rwa [opposite_twice, opposite_twice] at this

theorem turned_conn {bx by' cx cy : Img Bool}
    (hs : ∀ p q, OpenStep h w cx cy (oppositePx h w p) (oppositePx h w q) ↔ OpenStep h w bx by' p q)
    (p q : Px) : Conn h w cx cy (oppositePx h w p) (oppositePx h w q) ↔ Conn h w bx by' p q := by
  constructor
  · intro hc
    have : ∀ a b, Conn h w cx cy a b → Conn h w bx by' (oppositePx h w a) (oppositePx h w b) := by
      intro a b hab
      induction hab with
      | refl => exact .refl
      | tail _ st ih =>
        refine ih.tail ((hs _ _).1 ?_)
        rwa [opposite_twice, opposite_twice]
    have := this _ _ hc
    rwa [opposite_twice, opposite_twice] at this
  · intro hc
    induction hc with
    | refl => exact .refl
    | tail _ st ih => exact ih.tail ((hs _ _).2 st)

theorem turned_size {bx by' cx cy : Img Bool}
    (hs : ∀ p q, OpenStep h w cx cy (oppositePx h w p) (oppositePx h w q) ↔ OpenStep h w bx by' p q)
    (p : Px) : regionSize h w cx cy (oppositePx h w p) = regionSize h w bx by' p := by
  unfold regionSize
  symm
  have hm : ∀ q, q ∈ mapPixels h w ↔ InMap h w q := by
    rintro ⟨x, y⟩
    simp only [mapPixels, Finset.mem_product, Finset.mem_Ico, InMap]
    tauto
  refine Finset.card_nbij' (oppositePx h w) (oppositePx h w) ?_ ?_ ?_ ?_
  · intro q hq
    simp only [Finset.coe_filter, Set.mem_ofPred_eq, hm] at hq ⊢
    exact ⟨opposite_in.2 hq.1, (turned_conn hs p q).2 hq.2⟩
  · intro q hq
    simp only [Finset.coe_filter, Set.mem_ofPred_eq, hm] at hq ⊢
    refine ⟨opposite_in.2 hq.1, (turned_conn hs p _).1 ?_⟩
    rw [opposite_twice]
    exact hq.2
  · intro q _
    exact opposite_twice q
  · intro q _
    exact opposite_twice q

theorem turned_symm {R R' : Px → Matrix (Fin 3) (Fin 3) ℝ} (hT : T * Tᵀ = 1)
    (ht : TurnedMap h w T R R' phase phase') : TurnedMap h w Tᵀ R' R phase' phase := by
  intro p hp
  obtain ⟨a, b⟩ := ht (oppositePx h w p) (opposite_in.2 hp)
  rw [opposite_twice] at a b
  refine ⟨?_, b.symm⟩
  rw [a, Matrix.mul_assoc, hT, Matrix.mul_one]

/-- Labels of opposite pixels. -/
theorem turned_label (hw : 2 ≤ w) (hh : 2 ≤ h) {bx by' cx cy : Img Bool}
    (hs : ∀ p q, OpenStep h w cx cy (oppositePx h w p) (oppositePx h w q) ↔ OpenStep h w bx by' p q)
    (hsep : ∀ p q, OpenStep h w bx by' p q → phase p.2 p.1 = phase q.2 q.1)
    (hph : ∀ p, InMap h w p → phase' (oppositePx h w p).2 (oppositePx h w p).1 = phase p.2 p.1)
    {np ms : Nat} {r r' : FGResult} (hr : findGrains h w phase np bx by' ms = .ok r)
    (hr' : findGrains h w phase' np cx cy ms = .ok r') :
    (∀ p, InMap h w p → (r'.grains (oppositePx h w p).2 (oppositePx h w p).1 = 0 ↔ r.grains p.2 p.1 = 0)) ∧
    (∀ p, InMap h w p →
      (r'.grains (oppositePx h w p).2 (oppositePx h w p).1 = -2 ↔ r.grains p.2 p.1 = -2)) ∧
    ∀ i, i < r.list.length →
      ∃ j, j < r'.list.length ∧ ∀ p, p ∈ r.points i ↔ oppositePx h w p ∈ r'.points j := by
  have hsep' : ∀ p q, OpenStep h w cx cy p q → phase' p.2 p.1 = phase' q.2 q.1 := by
    intro p q st
    have hin : InMap h w p ∧ InMap h w q := by cases st <;> constructor <;> assumption
    have e := hsep (oppositePx h w p) (oppositePx h w q)
      ((hs _ _).1 (by rwa [opposite_twice, opposite_twice]))
    have a := hph (oppositePx h w p) (opposite_in.2 hin.1)
    have b := hph (oppositePx h w q) (opposite_in.2 hin.2)
    rw [opposite_twice] at a b
    rw [a, b, e]
  obtain ⟨a1, a2, a3, a4⟩ := C03_partition hw hh bx by' phase np ms r hr
  obtain ⟨b1, b2, b3, b4⟩ := C03_partition hw hh cx cy phase' np ms r' hr'
  obtain ⟨c1, c2, -⟩ := C04_numbering hw hh bx by' phase np ms r hr
  obtain ⟨d1, d2, -⟩ := C04_numbering hw hh cx cy phase' np ms r' hr'
  replace a4 := a4 fun p q st => by rw [hsep p q st]
  replace b4 := b4 fun p q st => by rw [hsep' p q st]
  have low : ∀ p, InMap h w p →
      (r'.grains (oppositePx h w p).2 (oppositePx h w p).1 = -2 ↔ r.grains p.2 p.1 = -2) := by
    intro p hp
    rw [c2 p hp, d2 _ (opposite_in.2 hp), turned_size hs]
    refine and_congr_right fun _ => ?_
    have conn_in : ∀ {a b : Px}, InMap h w a → Conn h w bx by' a b → InMap h w b := by
      intro a b ha hab
      induction hab with
      | refl => exact ha
      | tail _ st _ => cases st <;> assumption
    constructor
    · rintro ⟨q, hc, hq⟩
      have hc' := (turned_conn hs p (oppositePx h w q)).1 (by rwa [opposite_twice])
      refine ⟨oppositePx h w q, hc', ?_⟩
      have := hph _ (conn_in hp hc')
      rw [opposite_twice] at this
      rwa [← this]
    · rintro ⟨q, hc, hq⟩
      refine ⟨oppositePx h w q, (turned_conn hs p q).2 hc, ?_⟩
      rwa [hph q (conn_in hp hc)]
  have zero : ∀ p, InMap h w p →
      (r'.grains (oppositePx h w p).2 (oppositePx h w p).1 = 0 ↔ r.grains p.2 p.1 = 0) := by
    intro p hp
    by_cases h0 : phase p.2 p.1 = 0
    · rw [a4 p hp h0, b4 _ (opposite_in.2 hp) (by rw [hph p hp, h0])]
    · have x := a1 p hp h0
      have y := b1 _ (opposite_in.2 hp) (by rw [hph p hp]; exact h0)
      constructor <;> intro e <;> omega
  refine ⟨zero, low, ?_⟩
  intro i hi
  obtain ⟨-, m1, -, m3, m4⟩ := c1 i hi
  obtain ⟨p0, hp0⟩ := List.exists_mem_of_ne_nil _ m3
  have in0 := m4 p0 hp0
  have l0 := (m1 p0).1 hp0
  have h0 : phase p0.2 p0.1 ≠ 0 := by
    intro e
    have := a4 p0 in0 e
    omega
  have l0' : 1 ≤ r'.grains (oppositePx h w p0).2 (oppositePx h w p0).1 ∧
      r'.grains (oppositePx h w p0).2 (oppositePx h w p0).1 ≤ r'.list.length := by
    rcases b1 _ (opposite_in.2 in0) (by rw [hph p0 in0]; exact h0) with e | e
    · have := (low p0 in0).1 e
      omega
    · exact e
  refine ⟨(r'.grains (oppositePx h w p0).2 (oppositePx h w p0).1 - 1).toNat, by omega, fun p => ?_⟩
  have hj : (r'.grains (oppositePx h w p0).2 (oppositePx h w p0).1 - 1).toNat < r'.list.length := by omega
  rw [m1 p, (d1 _ hj).2.1, Int.toNat_of_nonneg (by omega), sub_add_cancel]
  constructor
  · intro e
    exact (b3 _ _ ((turned_conn hs p0 p).2 (a2 p0 p (by omega) (by omega)))).symm
  · intro e
    have := a3 _ _ ((turned_conn hs p0 p).1 (b2 _ _ l0'.1 e.symm))
    omega

theorem turned_le (hw : 2 ≤ w) (hh : 2 ≤ h) {bx by' : Img Bool} {np ms : Nat} {r r' : FGResult}
    (hr : findGrains h w phase np bx by' ms = .ok r)
    (hm : ∀ i, i < r.list.length →
      ∃ j, j < r'.list.length ∧ ∀ p, p ∈ r.points i ↔ oppositePx h w p ∈ r'.points j) :
    r.list.length ≤ r'.list.length := by
  obtain ⟨c1, -, -⟩ := C04_numbering hw hh bx by' phase np ms r hr
  choose f hf hfm using hm
  have := Fintype.card_le_of_injective
    (fun i : Fin r.list.length => (⟨f i i.2, hf i i.2⟩ : Fin r'.list.length)) (by
      intro i j hij
      simp only [Fin.mk.injEq] at hij
      obtain ⟨p, hp⟩ := List.exists_mem_of_ne_nil _ (c1 i i.2).2.2.2.1
      have h2 : p ∈ r.points j := by
        rw [hfm j j.2, ← hij, ← hfm i i.2]
        exact hp
      have e1 := ((c1 i i.2).2.1 p).1 hp
      have e2 := ((c1 j j.2).2.1 p).1 h2
      ext
      omega)
  simpa using this

/-- **C134** Turn a map by half a turn, with its orientations measured in any frame, and find grains
again with the same tolerance and smallest size: the grains are the same but for the turn, and so are
the pixels without a grain; their numbers may differ. It fails exactly if it failed before the turn. -/
theorem C134_turned (hw : 2 ≤ w) (hh : 2 ≤ h) (hu : ∀ p : Px, InMap h w p → (ori p.2 p.1).IsUnit)
    (hu' : ∀ p : Px, InMap h w p → (ori' p.2 p.1).IsUnit) (htol : 0 ≤ tol) (hT : T * Tᵀ = 1)
    (ht : TurnedMap h w T (fun p => rotMatrix (ori p.2 p.1)) (fun p => rotMatrix (ori' p.2 p.1)) phase
      phase') (np ms : Nat) :
    (∀ e, grainsOf h w g ori phase np tol ms = .error e ↔
      grainsOf h w g ori' phase' np tol ms = .error e) ∧
    ∀ r r', grainsOf h w g ori phase np tol ms = .ok r →
      grainsOf h w g ori' phase' np tol ms = .ok r' →
      TurnedGrains h w r.list.length r'.list.length r.points r'.points ∧
      ∀ p, InMap h w p →
        (r'.grains (oppositePx h w p).2 (oppositePx h w p).1 = 0 ↔ r.grains p.2 p.1 = 0) ∧
        (r'.grains (oppositePx h w p).2 (oppositePx h w p).1 = -2 ↔ r.grains p.2 p.1 = -2) := by
  obtain ⟨bx, by', cx, cy, e1, e2, hsep, hs⟩ := turned_images (g := g) hu hu' htol hT ht
  have hs' : ∀ p q, OpenStep h w bx by' (oppositePx h w p) (oppositePx h w q) ↔ OpenStep h w cx cy p q := by
    intro p q
    rw [← hs, opposite_twice, opposite_twice]
  have hph := fun p hp => (ht p hp).2
  have hph' := fun p hp => (turned_symm hT ht p hp).2
  rw [e1, e2]
  constructor
  · obtain ⟨x1, x2, x3⟩ := C07_failure hw hh bx by' phase np ms
    obtain ⟨y1, y2, y3⟩ := C07_failure hw hh cx cy phase' np ms
    have allzero : (∀ p, InMap h w p → phase p.2 p.1 = 0) ↔ ∀ p, InMap h w p → phase' p.2 p.1 = 0 := by
      constructor
      · intro hz p hp
        rw [← hph' p hp]
        exact hz _ (opposite_in.2 hp)
      · intro hz p hp
        rw [← hph p hp]
        exact hz _ (opposite_in.2 hp)
    have allsmall : (∀ p, InMap h w p → phase p.2 p.1 ≠ 0 → regionSize h w bx by' p < ms) ↔
        ∀ p, InMap h w p → phase' p.2 p.1 ≠ 0 → regionSize h w cx cy p < ms := by
      constructor
      · intro hz p hp hi
        rw [← turned_size hs']
        exact hz _ (opposite_in.2 hp) (by rw [hph' p hp]; exact hi)
      · intro hz p hp hi
        rw [← turned_size hs]
        exact hz _ (opposite_in.2 hp) (by rw [hph p hp]; exact hi)
    have some' : (∃ p, InMap h w p ∧ phase p.2 p.1 ≠ 0) ↔ ∃ p, InMap h w p ∧ phase' p.2 p.1 ≠ 0 := by
      constructor
      · rintro ⟨p, hp, hi⟩
        exact ⟨_, opposite_in.2 hp, by rw [hph p hp]; exact hi⟩
      · rintro ⟨p, hp, hi⟩
        exact ⟨_, opposite_in.2 hp, by rw [hph' p hp]; exact hi⟩
    have v : findGrains h w phase np bx by' ms = .error .valueError ↔
        findGrains h w phase' np cx cy ms = .error .valueError := by rw [x1, y1, allzero]
    have i : findGrains h w phase np bx by' ms = .error .indexError ↔
        findGrains h w phase' np cx cy ms = .error .indexError := by rw [x2, y2, allsmall, some']
    have only : ∀ {ph : Img Int} {b c : Img Bool} (e : Err),
        findGrains h w ph np b c ms = .error e → e = .valueError ∨ e = .indexError := by
      intro ph b c e he
      obtain ⟨z1, z2, z3⟩ := C07_failure hw hh b c ph np ms
      by_cases hz : ∀ p, InMap h w p → ph p.2 p.1 = 0
      · have := z1.2 hz
        rw [he] at this
        exact Or.inl (by injection this)
      · push Not at hz
        by_cases hl : ∀ p, InMap h w p → ph p.2 p.1 ≠ 0 → regionSize h w b c p < ms
        · have := z2.2 ⟨hz, hl⟩
          rw [he] at this
          exact Or.inr (by injection this)
        · push Not at hl
          obtain ⟨r, hr⟩ := z3.2 hl
          rw [he] at hr
          cases hr
    intro e
    constructor
    · intro he
      rcases only e he with rfl | rfl
      · exact v.1 he
      · exact i.1 he
    · intro he
      rcases only e he with rfl | rfl
      · exact v.2 he
      · exact i.2 he
  · intro r r' hr hr'
    have hsep' : ∀ p q, OpenStep h w cx cy p q → phase' p.2 p.1 = phase' q.2 q.1 := by
      intro p q st
      have hin : InMap h w p ∧ InMap h w q := by cases st <;> constructor <;> assumption
      rw [← hph' p hin.1, ← hph' q hin.2]
      exact hsep _ _ ((hs' _ _).2 st)
    obtain ⟨l1, l2, l3⟩ := turned_label hw hh hs hsep hph hr hr'
    obtain ⟨-, -, m3⟩ := turned_label hw hh hs' hsep' hph' hr' hr
    refine ⟨⟨le_antisymm (turned_le hw hh hr l3) (turned_le hw hh hr' m3), l3, ?_⟩,
      fun p hp => ⟨l1 p hp, l2 p hp⟩⟩
    intro j hj
    obtain ⟨i, hi, hm⟩ := m3 j hj
    refine ⟨i, hi, fun p => ?_⟩
    rw [hm, opposite_twice]

theorem halfTurn_orth : halfTurn * halfTurnᵀ = 1 := by
  ext a b
  fin_cases a <;> fin_cases b <;> simp [halfTurn, Matrix.mul_apply, Fin.sum_univ_three]

/-- **C134** In particular after `rotate_data` on a freshly loaded map. -/
theorem C134_rotated (hw : 2 ≤ w) (hh : 2 ≤ h) (d : EbsdData) (hb : d.bandContrast ≠ none)
    (hbs : d.bandSlope ≠ none) (ha : ¬ Accessed d) (htol : 0 ≤ tol) (np ms : Nat) (r : FGResult)
    (hr : grainsOf h w g (orientations d) d.phase np tol ms = .ok r) :
    ∃ d' r', rotateData h w d = (.ok (), d') ∧
      grainsOf h w g (orientations d') d'.phase np tol ms = .ok r' ∧
      TurnedGrains h w r.list.length r'.list.length r.points r'.points := by
  have ho : d.orientation = none := by simpa [Accessed] using ha
  obtain ⟨d', h1, h2, h3⟩ := rotateData_ok h w d hb hbs
  have hu : ∀ y x, (orientations d y x).IsUnit := by
    intro y x
    simp only [orientations, ho]
    exact (C37_unit _ _ _).1
  have ht : (rotTransform).IsUnit := by
    rw [rotTransform_eq]
    simp [Quat.IsUnit]
  have he : ∀ y x, orientations d' y x =
      mul (orientations d (h - 1 - y) (w - 1 - x)) rotTransform := by
    intro y x
    simp only [orientations, h3, ho]
    rfl
  have hu' : ∀ y x, (orientations d' y x).IsUnit := by
    intro y x
    rw [he]
    exact isUnit_mul (hu _ _) ht
  have key := C134_turned (g := g) (ori := orientations d) (ori' := orientations d') (phase := d.phase)
    (phase' := d'.phase) (T := halfTurn) hw hh (fun p _ => hu p.2 p.1) (fun p _ => hu' p.2 p.1) htol
    halfTurn_orth (by
      intro p _
      constructor
      · simp only [oppositePx]
        rw [he, rotMatrix_rotated]
        simp
      · rw [h2.2.2.2]
        simp [oppositePx, oppositePixel]) np ms
  cases hr' : grainsOf h w g (orientations d') d'.phase np tol ms with
  | error e =>
    rw [(key.1 e).2 hr'] at hr
    cases hr
  | ok r' => exact ⟨d', r', h1, hr', (key.2 r r' hr hr').1⟩

/-- A freshly loaded map of 3 by 4 pixels with one pixel in another orientation and phase. -/
noncomputable def Spec.onePixelOff : EbsdData where
  euler := fun i j => if i = 0 ∧ j = 0 then (Real.pi / 3, 0, 0) else (0, 0, 0)
  bandContrast := some fun _ _ => 100
  bandSlope := some fun _ _ => 200
  phase := fun i j => if i = 0 ∧ j = 0 then 2 else 1
  orientation := none

/-- Its grains can be found. -/
example : onePixelOff.bandContrast ≠ none ∧ onePixelOff.bandSlope ≠ none ∧ ¬ Accessed onePixelOff ∧
    ∃ r, grainsOf 3 4 .cubic (orientations onePixelOff) onePixelOff.phase 2 10 1 = .ok r := by
  refine ⟨by simp [onePixelOff], by simp [onePixelOff], by simp [onePixelOff, Accessed], ?_⟩
  have hu : ∀ p : Px, InMap 3 4 p → (orientations onePixelOff p.2 p.1).IsUnit :=
    fun p _ => (C37_unit _ _ _).1
  obtain ⟨bx, by', e1, e2, -, -⟩ := images_of (g := .cubic) (phase := onePixelOff.phase) (tol := 10) hu
    (by norm_num)
  have e : grainsOf 3 4 .cubic (orientations onePixelOff) onePixelOff.phase 2 10 1 =
      findGrains 3 4 onePixelOff.phase 2 bx by' 1 := by
    unfold grainsOf findGrainsOf
    rw [e1, e2]
    rfl
  rw [e, (C07_failure (by decide) (by decide) bx by' onePixelOff.phase 2 1).2.2]
  refine ⟨(0, 0), by simp [InMap], by simp [onePixelOff], ?_⟩
  unfold regionSize
  refine Finset.card_pos.2 ⟨(0, 0), ?_⟩
  classical
  exact Finset.mem_filter.2 ⟨by simp [mapPixels], Relation.ReflTransGen.refl⟩

end DefDAP
