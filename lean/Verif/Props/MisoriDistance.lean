import Verif.Props.MisoriAngle
import Verif.Props.SavedGrains
import Verif.Props.Grod

/-!
C139: the misorientation angle is a distance between crystals, and bounds the spread of a grain.
-/

namespace DefDAP

open Quat Spec Matrix

/-- The angle that the misorientation `mis_ori` returns stands for, in radians. -/
noncomputable def Spec.misAngle (g : SymGroup) (p r : Quat ℝ) : ℝ := 2 * Real.arccos (misOri (symEqv g) p r)

theorem misOri_mem (g : SymGroup) {p r : Quat ℝ} (hp : p.IsUnit) (hr : r.IsUnit) :
    ∃ s ∈ symEqv g, misOri (symEqv g) p r = |dot p (mulRaw s r)| := by
  obtain ⟨u, hu, hf⟩ := misOri_found (symEqv_table g) p r hp hr
  exact ⟨u, hu, by rw [misOri, hf, abs_dot_mul]⟩

/-- **C139**: the angle is zero exactly for orientations that a rotation of the crystal into itself turns
into one another. -/
theorem C139_zero (g : SymGroup) (p r : Quat ℝ) (hp : p.IsUnit) (hr : r.IsUnit) :
    0 ≤ misAngle g p r ∧
    (misAngle g p r = 0 ↔ ∃ S, CrystalRotation g S ∧ rotMatrix p = S * rotMatrix r) := by
  obtain ⟨-, h1, h2⟩ := C40_range g p r hp hr
  have hl := symEqv_table g
  refine ⟨by unfold misAngle; have := Real.arccos_nonneg (misOri (symEqv g) p r); linarith, ?_⟩
  have h3 : misAngle g p r = 0 ↔ misOri (symEqv g) p r = 1 := by
    unfold misAngle
    rw [mul_eq_zero, Real.arccos_eq_zero]
    constructor
    · rintro (h | h)
      · norm_num at h
      · exact le_antisymm h1 h
    · intro h; right; rw [h]
  rw [h3]
  constructor
  · intro h
    obtain ⟨s, hs, he⟩ := h2.1 h
    refine ⟨rotMatrix s, (crystalRotation_iff g _).2 ⟨s, hs, rfl⟩, ?_⟩
    rw [← rotMatrix_mulRaw]
    rcases he with rfl | rfl
    · rw [Quat.mul, rotMatrix_make]
    · rw [rotMatrix_neg, Quat.mul, rotMatrix_make]
  · rintro ⟨S, hS, he⟩
    obtain ⟨s, hs, rfl⟩ := (crystalRotation_iff g S).1 hS
    rw [← rotMatrix_mulRaw] at he
    have us := isUnit_mulRaw (hl.unit s hs) hr
    have ht := trace_rot p (mulRaw s r)
    rw [(isUnit_iff _).1 hp, (isUnit_iff _).1 us, he, (C36_rotation _ us).1] at ht
    simp only [Matrix.trace_one, Fintype.card_fin, Nat.cast_ofNat] at ht
    have h5 : dot p (mulRaw s r) ^ 2 = 1 := by linarith
    have h4 : |dot p (mulRaw s r)| = 1 := by
      rw [← sq_abs] at h5
      nlinarith [abs_nonneg (dot p (mulRaw s r))]
    exact le_antisymm h1 (by rw [← h4]; exact misOri_ge _ _ _ _ hs)

/-- **C139**: the angle is symmetric. -/
theorem C139_symmetric (g : SymGroup) (p r : Quat ℝ) (hp : p.IsUnit) (hr : r.IsUnit) :
    misAngle g p r = misAngle g r p := by
  unfold misAngle
  rw [C40_symmetric g p r hp hr]

/-- **C139**: the way over a third orientation is not shorter. -/
theorem C139_triangle (g : SymGroup) (p q r : Quat ℝ) (hp : p.IsUnit) (hq : q.IsUnit) (hr : r.IsUnit) :
    misAngle g p r ≤ misAngle g p q + misAngle g q r := by
  have hl := symEqv_table g
  obtain ⟨s, hs, e1⟩ := misOri_mem g hp hq
  obtain ⟨t, ht, e2⟩ := misOri_mem g hq hr
  have us := hl.unit s hs
  have ut := hl.unit t ht
  have h := arccos_triangle hp (isUnit_mulRaw us hq) (isUnit_mulRaw us (isUnit_mulRaw ut hr))
  rw [dot_mulRaw_left us, ← mulRaw_assoc] at h
  have h3 : |dot p (mulRaw (mulRaw s t) r)| ≤ misOri (symEqv g) p r := by
    rcases hl.mul s hs t ht with hm | hm
    · exact misOri_ge _ _ _ _ hm
    · have := misOri_ge _ p r _ hm
      rwa [neg_mulRaw, dot_neg_right, abs_neg] at this
  have h4 := Real.arccos_le_arccos h3
  unfold misAngle
  rw [e1, e2]
  linarith

/-! ### Chains -/

/-- A chain of `n` steps. -/
inductive Steps {α : Type} (R : α → α → Prop) : Nat → α → α → Prop
  | stay (a : α) : Steps R 0 a a
  | step {n : Nat} {a b c : α} : R a b → Steps R n b c → Steps R (n + 1) a c

theorem leave_once {α : Type} {R : α → α → Prop} {a b : α} (h : Relation.ReflTransGen R a b) :
    b = a ∨ ∃ c, R a c ∧ Relation.ReflTransGen (fun x y => R x y ∧ x ≠ a ∧ y ≠ a) c b ∧ c ≠ a := by
  induction h with
  | refl => exact .inl rfl
  | @tail b d _ hbd ih =>
    by_cases hd : d = a
    · exact .inl hd
    · right
      rcases ih with rfl | ⟨c, hc, hcb, hca⟩
      · exact ⟨d, hbd, .refl, hd⟩
      · by_cases hb : b = a
        · exact ⟨d, hb ▸ hbd, .refl, hd⟩
        · exact ⟨c, hc, hcb.tail ⟨hbd, hb, hd⟩, hca⟩

theorem Steps.mono {α : Type} {R S : α → α → Prop} (h : ∀ x y, R x y → S x y) {n : Nat} {a b : α}
    (hs : Steps R n a b) : Steps S n a b := by
  induction hs with
  | stay a => exact .stay a
  | step h1 _ ih => exact .step (h _ _ h1) ih

/-- In a list of `n` places, every place that can be reached can be reached in less than `n` steps. -/
theorem short_chain {α : Type} [DecidableEq α] (L : List α) : ∀ (R : α → α → Prop) (a b : α), a ∈ L →
    (∀ x y, R x y → y ∈ L) → Relation.ReflTransGen R a b → ∃ n, n < L.length ∧ Steps R n a b := by
  induction hn : L.length generalizing L with
  | zero =>
    intro R a b ha
    rw [List.length_eq_zero_iff.1 hn] at ha
    cases ha
  | succ m ih =>
    intro R a b ha hR h
    rcases leave_once h with rfl | ⟨c, hac, hcb, hca⟩
    · exact ⟨0, by omega, .stay _⟩
    · have hc : c ∈ L.erase a := (List.mem_erase_of_ne hca).2 (hR a c hac)
      obtain ⟨n, hlt, hs⟩ := ih (L.erase a) (by rw [List.length_erase_of_mem ha, hn]; rfl) _ c b hc
        (fun x y hxy => (List.mem_erase_of_ne hxy.2.2).2 (hR x y hxy.1)) hcb
      exact ⟨n + 1, by omega, .step hac (hs.mono fun x y h => h.1)⟩

variable {h w : Nat} {g : SymGroup} {ori : Img (Quat ℝ)} {phase : Img Int} {tol : ℝ}

theorem steps_end {n : Nat} {p q : Px} (hp : InMap h w p)
    (hs : Steps (GrainStep h w g (fun p => rotMatrix (ori p.2 p.1)) phase tol) n p q) : InMap h w q := by
  induction hs with
  | stay _ => exact hp
  | step h1 _ ih => exact ih h1.2.1

theorem misAngle_self (g : SymGroup) {p : Quat ℝ} (hp : p.IsUnit) : misAngle g p p = 0 :=
  ((C139_zero g _ _ hp hp).2).2
    ⟨1, (crystalRotation_iff g _).2 ⟨⟨1, 0, 0, 0⟩, List.mem_of_getElem? (symEqv_table g).head, by
      ext i j; fin_cases i <;> fin_cases j <;> simp [rotMatrix]⟩, by simp⟩

theorem steps_angle (hunit : ∀ p : Px, InMap h w p → (ori p.2 p.1).IsUnit) {n : Nat} {p q : Px}
    (hp : InMap h w p)
    (hs : Steps (GrainStep h w g (fun p => rotMatrix (ori p.2 p.1)) phase tol) n p q) :
    misAngle g (ori p.2 p.1) (ori q.2 q.1) ≤ n * (tol * (Real.pi / 180)) := by
  induction hs with
  | stay p => rw [misAngle_self g (hunit p hp)]; simp
  | @step n a b c hab hbc ih =>
    obtain ⟨ha, hb, -, -, hc⟩ := hab
    have h1 := (C40_angle g _ _ (hunit a ha) (hunit b hb) tol).2 hc
    have h2 := ih hb
    have h3 := C139_triangle g _ _ (ori c.2 c.1) (hunit a ha) (hunit b hb) (hunit c (steps_end hb hbc))
    unfold misAngle at *
    push_cast
    linarith

/-- Open steps are steps inside grains, whatever boundaries there are. -/
theorem openStep_close {bx by' : Img Bool}
    (hbx : ∀ p, InMap h w p → BoundaryAt h w g (fun p => rotMatrix (ori p.2 p.1)) phase tol false p →
      bx p.2 p.1 = true)
    (hby : ∀ p, InMap h w p → BoundaryAt h w g (fun p => rotMatrix (ori p.2 p.1)) phase tol true p →
      by' p.2 p.1 = true) {p q : Px} (hs : OpenStep h w bx by' p q) :
    GrainStep h w g (fun p => rotMatrix (ori p.2 p.1)) phase tol p q := by
  classical
  have key := openStep_grainStep (h := h) (w := w) (g := g) (ori := ori) (phase := phase) (tol := tol)
    (bx := fun y x => decide (BoundaryAt h w g (fun p => rotMatrix (ori p.2 p.1)) phase tol false (x, y)))
    (by' := fun y x => decide (BoundaryAt h w g (fun p => rotMatrix (ori p.2 p.1)) phase tol true (x, y)))
    (fun p _ => by simp) (fun p _ => by simp) p q
  refine key.1 ?_
  have hfx : ∀ x y, InMap h w (x, y) → bx y x = false →
      decide (BoundaryAt h w g (fun p => rotMatrix (ori p.2 p.1)) phase tol false (x, y)) = false := by
    intro x y hi hf
    refine decide_eq_false fun hB => ?_
    have := hbx (x, y) hi hB
    rw [show bx (x, y).2 (x, y).1 = bx y x from rfl, hf] at this
    cases this
  have hfy : ∀ x y, InMap h w (x, y) → by' y x = false →
      decide (BoundaryAt h w g (fun p => rotMatrix (ori p.2 p.1)) phase tol true (x, y)) = false := by
    intro x y hi hf
    refine decide_eq_false fun hB => ?_
    have := hby (x, y) hi hB
    rw [show by' (x, y).2 (x, y).1 = by' y x from rfl, hf] at this
    cases this
  cases hs with
  | right x y h1 h2 h3 => exact .right _ _ h1 h2 (hfx _ _ h1 h3)
  | left x y h1 h2 h3 => exact .left _ _ h1 h2 (hfx _ _ h1 h3)
  | down x y h1 h2 h3 => exact .down _ _ h1 h2 (hfy _ _ h1 h3)
  | up x y h1 h2 h3 => exact .up _ _ h1 h2 (hfy _ _ h1 h3)

/-- **C139**: the spread of a grain. Two pixels of a grain that is found with a tolerance are at most as
many tolerances apart as the grain has further pixels. -/
theorem C139_grain (hw : 2 ≤ w) (hh : 2 ≤ h) (hunit : ∀ p : Px, InMap h w p → (ori p.2 p.1).IsUnit)
    (htol : 0 ≤ tol) (numPhases minSize : Nat) (r : FGResult)
    (hr : grainsOf h w g ori phase numPhases tol minSize = .ok r) (i : Nat) (hi : i < r.list.length)
    (p q : Px) (hp : p ∈ r.points i) (hq : q ∈ r.points i) :
    misAngle g (ori p.2 p.1) (ori q.2 q.1) ≤ ((r.points i).length - 1 : ℝ) * (tol * (Real.pi / 180)) := by
  obtain ⟨bx, by', e1, e2, h1, h2⟩ := images_of (g := g) (phase := phase) hunit htol
  have e : grainsOf h w g ori phase numPhases tol minSize =
      findGrains h w phase numPhases bx by' minSize := by
    unfold grainsOf findGrainsOf
    rw [e1, e2]
    rfl
  rw [e] at hr
  obtain ⟨-, hc, hc', -⟩ := C03_partition hw hh bx by' phase numPhases minSize r hr
  obtain ⟨g1, -, -⟩ := C04_numbering hw hh bx by' phase numPhases minSize r hr
  have hmem := (g1 i hi).2.1
  have hin : InMap h w p := (g1 i hi).2.2.2.2 p hp
  have gp := (hmem p).1 hp
  have gq := (hmem q).1 hq
  have hconn := hc p q (by omega) (by omega)
  obtain ⟨n, hn, hs⟩ := short_chain (r.points i)
    (fun a b => OpenStep h w bx by' a b ∧ b ∈ r.points i) p q hp (fun _ _ hab => hab.2) (by
      have : ∀ b, Conn h w bx by' p b → Relation.ReflTransGen
          (fun a b => OpenStep h w bx by' a b ∧ b ∈ r.points i) p b := by
        intro b hb
        induction hb with
        | refl => exact .refl
        | @tail b c hb hbc ih =>
          refine ih.tail ⟨hbc, (hmem c).2 ?_⟩
          rw [← hc' p c (Relation.ReflTransGen.tail hb hbc)]
          exact gp
      exact this q hconn)
  have hs' := steps_angle (g := g) (ori := ori) (phase := phase) (tol := tol) hunit hin
    (hs.mono fun a b hab => openStep_close (fun p hp hB => (h1 p hp).2 (.inl hB))
      (fun p hp hB => (h2 p hp).2 (.inl hB)) hab.1)
  refine hs'.trans ?_
  have : (n : ℝ) ≤ (r.points i).length - 1 := by
    have : ((n + 1 : Nat) : ℝ) ≤ (r.points i).length := by exact_mod_cast hn
    push_cast at this
    linarith
  have := Real.pi_pos
  gcongr

/-- **C139**: the misorientations of a grain to a reference bound those between its orientations. -/
theorem C139_reference (g : SymGroup) (quats : List (Quat ℝ)) (hu : ∀ q ∈ quats, q.IsUnit)
    (ref : Quat ℝ) (hr : ref.IsUnit) (l : List (Option ℝ)) (mean : ℝ) (axes : List (Option (Fin 3 → ℝ)))
    (hl : buildMisOriList g quats (some ref) = .ok (l, mean, axes)) (i j : Nat) (p q : Quat ℝ)
    (hp : quats[i]? = some p) (hq : quats[j]? = some q) :
    ∃ a b, l[i]? = some (some a) ∧ l[j]? = some (some b) ∧
      misAngle g p q ≤ 2 * Real.arccos a + 2 * Real.arccos b ∧
      |2 * Real.arccos a - 2 * Real.arccos b| ≤ misAngle g p q := by
  have hne : quats ≠ [] := by rintro rfl; simp at hp
  obtain ⟨l', m', a', e1, e2, -⟩ := C88_list g quats hu ref hr hne
  rw [hl] at e1
  cases e1
  have up := hu p (List.mem_of_getElem? hp)
  have uq := hu q (List.mem_of_getElem? hq)
  refine ⟨misOri (symEqv g) p ref, misOri (symEqv g) q ref, by rw [e2]; simp [hp], by rw [e2]; simp [hq], ?_, ?_⟩
  · have h1 := C139_triangle g p ref q up hr uq
    rw [C139_symmetric g ref q hr uq] at h1
    exact h1
  · have h1 := C139_triangle g p q ref up uq hr
    have h2 := C139_triangle g q p ref uq up hr
    rw [C139_symmetric g q p uq up] at h2
    unfold misAngle at *
    rw [abs_le]
    constructor <;> linarith

/-- A map of 4 by 4 pixels with grains: all but the first pixel are one orientation. -/
example : ∃ (ori : Img (Quat ℝ)) (r : FGResult), (∀ p : Px, InMap 4 4 p → (ori p.2 p.1).IsUnit) ∧
    grainsOf 4 4 .hexagonal ori (fun _ _ => 2) 2 10 1 = .ok r := by
  obtain ⟨ori, h1, -, h3, h4⟩ := C128_other_crystal 4 4 (by decide) (by decide) 10 (by norm_num)
    (by norm_num)
  have hu : ∀ p : Px, InMap 4 4 p → (ori p.2 p.1).IsUnit := fun p _ => h1 p.2 p.1
  obtain ⟨r, hr⟩ := (C128_found (g := .hexagonal) (ori := ori) (phase := fun _ _ => 2) (tol := 10) (by decide)
    (by decide) hu (by norm_num) ⟨_, (C128_boundary hu (by norm_num) _).1.mp h3⟩
    ⟨_, (C128_boundary hu (by norm_num) _).2.mp h4⟩ 2 1).1.2 ⟨(0, 0), by simp [InMap], by decide, by
      refine Finset.card_pos.2 ⟨(0, 0), ?_⟩
      simp only [Finset.mem_filter]
      exact ⟨by simp [mapPixels], Relation.ReflTransGen.refl⟩⟩
  exact ⟨ori, r, hu, hr⟩

/-- A grain of two orientations and a reference. -/
example : ∃ l mean axes, buildMisOriList .cubic [⟨1, 0, 0, 0⟩, ⟨4 / 5, 3 / 5, 0, 0⟩] (some ⟨1, 0, 0, 0⟩) =
    .ok (l, mean, axes) := by
  obtain ⟨l, m, a, h, -⟩ := C88_list .cubic [⟨1, 0, 0, 0⟩, ⟨4 / 5, 3 / 5, 0, 0⟩] (by
    intro q hq
    simp at hq
    rcases hq with rfl | rfl
    · simp [Quat.IsUnit]
    · simp [Quat.IsUnit]; norm_num) ⟨1, 0, 0, 0⟩ (by simp [Quat.IsUnit]) (by simp)
  exact ⟨l, m, a, h⟩

end DefDAP
