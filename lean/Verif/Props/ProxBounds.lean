import Verif.Props.GrainMaps
import Verif.Props.Boundaries
import Verif.Model.PhaseBoundaryMap
import Mathlib.Analysis.InnerProductSpace.PiL2

/-! C152: how the proxigram varies over the map and with the boundaries. -/

namespace DefDAP
open Spec

/-! ### Specification -/

/-- The distance between two points of the plane. -/
noncomputable def Spec.planeDist (x y x' y' : ℝ) : ℝ := Real.sqrt ((x - x') ^ 2 + (y - y') ^ 2)

/-- The boundary points on the four corners of the pixel `(x, y)`: the boundary point `(a, b)`
stands for the corner `(a + 1/2, b + 1/2)`. -/
def Spec.corners (x y : Int) : List Px := [(x, y), (x - 1, y), (x, y - 1), (x - 1, y - 1)]

/-! ### Proofs -/

theorem planeDist_eq (x y x' y' : ℝ) :
    Spec.planeDist x y x' y' = dist (!₂[x, y] : EuclideanSpace ℝ (Fin 2)) !₂[x', y'] := by
  rw [EuclideanSpace.dist_eq]
  simp [Spec.planeDist, Fin.sum_univ_two, Real.dist_eq, sq_abs]

theorem planeDist_tri (x y x' y' a b : ℝ) :
    Spec.planeDist x y a b ≤ Spec.planeDist x y x' y' + Spec.planeDist x' y' a b := by
  simp only [planeDist_eq]
  exact dist_triangle _ _ _

theorem planeDist_comm (x y x' y' : ℝ) : Spec.planeDist x y x' y' = Spec.planeDist x' y' x y := by
  simp only [planeDist_eq]
  exact dist_comm _ _

theorem prox_dist (p : Px) (y x : Int) :
    Real.sqrt (((y : ℝ) - ((p.2 : ℝ) + 1/2)) ^ 2 + ((x : ℝ) - ((p.1 : ℝ) + 1/2)) ^ 2) =
      Spec.planeDist x y (p.1 + 1/2) (p.2 + 1/2) := by
  unfold Spec.planeDist
  rw [add_comm]

/-- **C152**: from one pixel to another the value changes by at most their distance. -/
theorem C152_smooth (n : Nat) (points : List Px) (im : Img ℝ) (hn : 1 ≤ n)
    (h : calcProxigram n points = .ok im) (y x y' x' : Int) :
    |im y x - im y' x'| ≤ Spec.planeDist x y x' y' := by
  obtain ⟨_, he, hl⟩ := C22_proxigram n hn points
  rw [h] at he
  cases he
  have one : ∀ y x y' x' : Int, im y x ≤ im y' x' + Spec.planeDist x y x' y' := by
    intro y x y' x'
    have hd : 0 ≤ Spec.planeDist x y x' y' := Real.sqrt_nonneg _
    rcases (hl y' x').1 with e | ⟨p, hp, e⟩
    · have := (hl y x).2 (Or.inl rfl)
      linarith
    · have := (hl y x).2 (Or.inr ⟨p, hp, rfl⟩)
      rw [prox_dist] at this e
      have t := planeDist_tri x y x' y' (p.1 + 1/2) (p.2 + 1/2)
      linarith
  have h1 := one y x y' x'
  have h2 := one y' x' y x
  rw [planeDist_comm] at h2
  rw [abs_le]
  constructor <;> linarith

theorem half_sq (a b : Int) : (1 / 4 : ℝ) ≤ ((a : ℝ) - (b + 1/2)) ^ 2 ∧
    (((a : ℝ) - (b + 1/2)) ^ 2 = 1 / 4 ↔ b = a ∨ b = a - 1) := by
  have e : ((a : ℝ) - (b + 1/2)) ^ 2 = (((a - b) * (a - b - 1) : Int) : ℝ) + 1 / 4 := by
    push_cast
    ring
  have h0 : (0 : Int) ≤ (a - b) * (a - b - 1) := by
    rcases le_or_gt (a - b) 0 with h | h <;> nlinarith
  constructor
  · rw [e]
    have : (0 : ℝ) ≤ (((a - b) * (a - b - 1) : Int) : ℝ) := by exact_mod_cast h0
    linarith
  · rw [e]
    constructor
    · intro h
      have h1 : (((a - b) * (a - b - 1) : Int) : ℝ) = ((0 : Int) : ℝ) := by push_cast at h ⊢; linarith
      have h2 : (a - b) * (a - b - 1) = 0 := by exact_mod_cast h1
      rcases mul_eq_zero.1 h2 with h | h <;> omega
    · rintro (rfl | rfl) <;> push_cast <;> ring

/-- **C152**: no value is below half the diagonal of a pixel, and this value is reached exactly at
the pixels with a boundary point on one of their corners. -/
theorem C152_least (n : Nat) (points : List Px) (im : Img ℝ) (hn : 1 ≤ n)
    (h : calcProxigram n points = .ok im) (y x : Int) :
    Real.sqrt (1 / 2) ≤ im y x ∧
      (im y x = Real.sqrt (1 / 2) ↔ ∃ p ∈ points, p ∈ Spec.corners x y) := by
  obtain ⟨_, he, hl⟩ := C22_proxigram n hn points
  rw [h] at he
  cases he
  have hbig : Real.sqrt (1 / 2) < 1000 := by
    rw [Real.sqrt_lt' (by norm_num)]
    norm_num
  have hlow : ∀ p : Px, (1 / 2 : ℝ) ≤ ((y : ℝ) - ((p.2 : ℝ) + 1/2)) ^ 2 +
      ((x : ℝ) - ((p.1 : ℝ) + 1/2)) ^ 2 := by
    intro p
    have h1 := (half_sq y p.2).1
    have h2 := (half_sq x p.1).1
    linarith
  have hge : Real.sqrt (1 / 2) ≤ im y x := by
    rcases (hl y x).1 with e | ⟨p, hp, e⟩
    · rw [e]; exact hbig.le
    · rw [e]; exact Real.sqrt_le_sqrt (hlow p)
  refine ⟨hge, ?_⟩
  have hcor : ∀ p : Px, p ∈ Spec.corners x y ↔ (p.2 = y ∨ p.2 = y - 1) ∧ (p.1 = x ∨ p.1 = x - 1) := by
    rintro ⟨a, b⟩
    simp only [Spec.corners, List.mem_cons, Prod.mk.injEq, List.not_mem_nil, or_false]
    omega
  constructor
  · intro e
    rcases (hl y x).1 with e' | ⟨p, hp, e'⟩
    · rw [e] at e'; exact absurd e' hbig.ne
    · refine ⟨p, hp, ?_⟩
      rw [e, Real.sqrt_inj (by norm_num) (by positivity)] at e'
      have h1 := half_sq y p.2
      have h2 := half_sq x p.1
      rw [hcor]
      exact ⟨h1.2.1 (by linarith [h1.1, h2.1]), h2.2.1 (by linarith [h1.1, h2.1])⟩
  · rintro ⟨p, hp, hc⟩
    rw [hcor] at hc
    apply le_antisymm _ hge
    have := (hl y x).2 (Or.inr ⟨p, hp, rfl⟩)
    refine this.trans (le_of_eq ?_)
    rw [(half_sq y p.2).2.2 hc.1, (half_sq x p.1).2.2 hc.2]
    norm_num

/-- **C152**: further boundary points never increase a value, and change it only where a new point
is nearer than all the others. -/
theorem C152_more (n n' : Nat) (points points' : List Px) (im im' : Img ℝ) (hn : 1 ≤ n)
    (hn' : 1 ≤ n') (h : calcProxigram n points = .ok im) (h' : calcProxigram n' points' = .ok im')
    (hsub : ∀ p ∈ points, p ∈ points') (y x : Int) :
    im' y x ≤ im y x ∧ (im' y x ≠ im y x → ∃ p ∈ points', p ∉ points ∧
      im' y x = Spec.planeDist x y (p.1 + 1/2) (p.2 + 1/2)) := by
  obtain ⟨_, he, hl⟩ := C22_proxigram n hn points
  rw [h] at he
  cases he
  obtain ⟨_, he', hl'⟩ := C22_proxigram n' hn' points'
  rw [h'] at he'
  cases he'
  have hle : im' y x ≤ im y x := by
    apply (hl' y x).2
    rcases (hl y x).1 with e | ⟨p, hp, e⟩
    · exact Or.inl e
    · exact Or.inr ⟨p, hsub p hp, e⟩
  refine ⟨hle, fun hne => ?_⟩
  rcases (hl' y x).1 with e | ⟨p, hp, e⟩
  · exact absurd (le_antisymm hle (e ▸ (hl y x).2 (Or.inl rfl))) hne
  · refine ⟨p, hp, fun hin => hne (le_antisymm hle (e ▸ (hl y x).2 (Or.inr ⟨p, hin, rfl⟩))), ?_⟩
    rw [e, prox_dist]

theorem mem_boundary_points (b : BoundarySet) (p : Px) : p ∈ b.points ↔ p ∈ b.pointsX ∨ p ∈ b.pointsY := by
  unfold BoundarySet.points
  simp only [List.mem_append, List.mem_filter, decide_eq_true_eq]
  tauto

variable {α : Type} [LinearOrder α] [Zero α]

/-- **C152**: a larger misorientation tolerance never brings a pixel closer to a boundary. -/
theorem C152_tolerance (h w n n' : Nat) (ang : Px → Px → α) (phase : Img Int) (tol tol' : α)
    (h0 : 0 ≤ tol) (hle : tol ≤ tol') (im im' : Img ℝ) (hn : 1 ≤ n) (hn' : 1 ≤ n')
    (hi : calcProxigram n (findBoundaries h w ang phase tol).2.points = .ok im)
    (hi' : calcProxigram n' (findBoundaries h w ang phase tol').2.points = .ok im') (y x : Int) :
    im y x ≤ im' y x := by
  obtain ⟨h1, h2, -⟩ := C08_tolerance_monotone h w ang phase tol tol' h0 hle
  refine (C152_more n' n _ _ im' im hn' hn hi' hi ?_ y x).1
  intro p hp
  rw [mem_boundary_points] at hp ⊢
  exact hp.imp (h1 p) (h2 p)

/-- **C152**: two neighbouring pixels of the map whose orientations differ by more than the
tolerance, or whose phases differ, both have the smallest value. -/
theorem C152_beside (h w n : Nat) (ang : Px → Px → α) (phase : Img Int) (tol : α) (h0 : 0 ≤ tol)
    (im : Img ℝ) (hn : 1 ≤ n)
    (hi : calcProxigram n (findBoundaries h w ang phase tol).2.points = .ok im) (x y : Int)
    (hm : InMap h w (x, y)) :
    (InMap h w (x + 1, y) → (tol < ang (x, y) (x + 1, y) ∨ phase y x ≠ phase y (x + 1)) →
      im y x = Real.sqrt (1 / 2) ∧ im y (x + 1) = Real.sqrt (1 / 2)) ∧
    (InMap h w (x, y + 1) → (tol < ang (x, y) (x, y + 1) ∨ phase y x ≠ phase (y + 1) x) →
      im y x = Real.sqrt (1 / 2) ∧ im (y + 1) x = Real.sqrt (1 / 2)) := by
  have hf := C09_boundaries_faithful h w ang phase tol h0 x y
  constructor
  · intro hm' hd
    have hp : (x, y) ∈ (findBoundaries h w ang phase tol).2.points :=
      (mem_boundary_points _ _).2 (Or.inl (hf.1.2 ⟨hm, hm', hd⟩))
    exact ⟨(C152_least n _ im hn hi y x).2.2 ⟨_, hp, by simp [Spec.corners]⟩,
      (C152_least n _ im hn hi y (x + 1)).2.2 ⟨_, hp, by simp [Spec.corners]⟩⟩
  · intro hm' hd
    have hp : (x, y) ∈ (findBoundaries h w ang phase tol).2.points :=
      (mem_boundary_points _ _).2 (Or.inr (hf.2.2 ⟨hm, hm', hd⟩))
    exact ⟨(C152_least n _ im hn hi y x).2.2 ⟨_, hp, by simp [Spec.corners]⟩,
      (C152_least n _ im hn hi (y + 1) x).2.2 ⟨_, hp, by simp [Spec.corners]⟩⟩

/-- **C152**: with no boundary at all every value is 1000, not infinite or missing. -/
theorem C152_none (n : Nat) (im : Img ℝ) (hn : 1 ≤ n) (h : calcProxigram n [] = .ok im) (y x : Int) :
    im y x = 1000 := by
  obtain ⟨_, he, hl⟩ := C22_proxigram n hn []
  rw [h] at he
  cases he
  rcases (hl y x).1 with e | ⟨p, hp, _⟩
  · exact e
  · exact absurd hp (by simp)

/-! ### Non-vacuity -/

/-- Two tolerances for the example map of C03, with batches of 500 and of 3. -/
example : ∃ im im', calcProxigram 500 (findBoundaries 3 4 exAng exPhase 3).2.points = .ok im ∧
    calcProxigram 3 (findBoundaries 3 4 exAng exPhase 5).2.points = .ok im' ∧
    im 0 0 ≤ im' 0 0 ∧ im 1 0 = Real.sqrt (1 / 2) := by
  obtain ⟨im, h, -⟩ := C22_proxigram 500 (by decide) (findBoundaries 3 4 exAng exPhase 3).2.points
  obtain ⟨im', h', -⟩ := C22_proxigram 3 (by decide) (findBoundaries 3 4 exAng exPhase 5).2.points
  refine ⟨im, im', h, h', C152_tolerance 3 4 500 3 exAng exPhase 3 5 (by decide) (by decide) im im'
    (by decide) (by decide) h h' 0 0, ?_⟩
  refine (C152_least 500 _ im (by decide) h 1 0).2.2 ⟨(0, 1), ?_, by simp [Spec.corners]⟩
  decide +kernel

end DefDAP
