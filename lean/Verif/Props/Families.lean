import Verif.Props.Schmid
import Verif.Proofs.Symmetry
import Mathlib.GroupTheory.Perm.Fin

/-! C57: slip system families. -/

namespace DefDAP

open Quat Matrix

/-! ### The set of slip systems -/

theorem familyAdd_fold {ι : Type} (f : ι → SlipSystem) (l : List ι) :
    ∀ fam : List SlipSystem, fam.Pairwise (fun a b => slipEq a b = false) →
    (l.foldl (fun fam s => familyAdd fam (f s)) fam).Pairwise (fun a b => slipEq a b = false) ∧
    (∀ x ∈ fam, x ∈ l.foldl (fun fam s => familyAdd fam (f s)) fam) ∧
    (∀ s ∈ l, ∃ x ∈ l.foldl (fun fam s => familyAdd fam (f s)) fam, slipEq x (f s) = true) ∧
    (∀ x ∈ l.foldl (fun fam s => familyAdd fam (f s)) fam, x ∈ fam ∨ ∃ s ∈ l, x = f s) := by
  induction l with
  | nil => intro fam h; exact ⟨h, fun x hx => hx, by simp, fun x hx => Or.inl hx⟩
  | cons a l ih =>
    intro fam hfam
    rw [List.foldl_cons]
    by_cases hany : fam.any (fun x => slipEq x (f a)) = true
    · have hadd : familyAdd fam (f a) = fam := by unfold familyAdd; rw [if_pos hany]
      rw [hadd]
      obtain ⟨h1, h2, h3, h4⟩ := ih fam hfam
      refine ⟨h1, h2, ?_, ?_⟩
      · intro s hs
        rcases List.mem_cons.1 hs with rfl | hs
        · rw [List.any_eq_true] at hany
          obtain ⟨x, hx, e⟩ := hany
          exact ⟨x, h2 x hx, e⟩
        · exact h3 s hs
      · intro x hx
        rcases h4 x hx with h | ⟨s, hs, e⟩
        · exact Or.inl h
        · exact Or.inr ⟨s, List.mem_cons_of_mem _ hs, e⟩
    · have hadd : familyAdd fam (f a) = fam ++ [f a] := by unfold familyAdd; rw [if_neg hany]
      rw [hadd]
      have hno : ∀ x ∈ fam, slipEq x (f a) = false := by
        intro x hx
        cases h : slipEq x (f a) with
        | false => rfl
        | true => exact absurd (List.any_eq_true.2 ⟨x, hx, h⟩) hany
      obtain ⟨h1, h2, h3, h4⟩ := ih (fam ++ [f a]) (by
        rw [List.pairwise_append]
        refine ⟨hfam, by simp, ?_⟩
        intro x hx y hy
        rw [List.mem_singleton] at hy
        rw [hy]
        exact hno x hx)
      refine ⟨h1, fun x hx => h2 x (List.mem_append_left _ hx), ?_, ?_⟩
      · intro s hs
        rcases List.mem_cons.1 hs with rfl | hs
        · exact ⟨f s, h2 _ (by simp), C54_equivalence.refl _⟩
        · exact h3 s hs
      · intro x hx
        rcases h4 x hx with h | ⟨s, hs, e⟩
        · rcases List.mem_append.1 h with h | h
          · exact Or.inl h
          · rw [List.mem_singleton] at h
            exact Or.inr ⟨a, List.mem_cons_self .., h⟩
        · exact Or.inr ⟨s, List.mem_cons_of_mem _ hs, e⟩

theorem foldlM_ok {ι β : Type} (step : ι → β → Except Err β) (g : ι → β → β) (l : List ι)
    (h : ∀ s ∈ l, ∀ b, step s b = .ok (g s b)) :
    ∀ b, l.foldlM (fun b s => step s b) b = .ok (l.foldl (fun b s => g s b) b) := by
  induction l with
  | nil => intro b; rfl
  | cons a l ih =>
    intro b
    rw [List.foldlM_cons, h a (List.mem_cons_self ..), List.foldl_cons]
    exact ih (fun s hs => h s (List.mem_cons_of_mem _ hs)) _

/-! ### Symmetry operators as signed permutations -/

/-- `1` or `-1`. -/
def Spec.sgn (b : Bool) : Int := if b then -1 else 1

/-- Three indices after a permutation of the cube axes and changes of sign. -/
def Spec.variant (σ : Equiv.Perm (Fin 3)) (ε : Fin 3 → Bool) (v : Fin 3 → Int) : Fin 3 → Int :=
  fun i => Spec.sgn (ε i) * v (σ i)

/-- The entries of the transposed rotation matrix, exactly. -/
def exactRotT {d : Nat} (q : Quat (Surd d)) (i j : Fin 3) : Surd d :=
  let qbar := q.q0 * q.q0 - q.q1 * q.q1 - q.q2 * q.q2 - q.q3 * q.q3
  let two : Surd d := ⟨2, 0⟩
  match i, j with
  | 0, 0 => qbar + two * (q.q1 * q.q1)
  | 1, 0 => two * (q.q1 * q.q2 - q.q0 * q.q3)
  | 2, 0 => two * (q.q1 * q.q3 + q.q0 * q.q2)
  | 0, 1 => two * (q.q1 * q.q2 + q.q0 * q.q3)
  | 1, 1 => qbar + two * (q.q2 * q.q2)
  | 2, 1 => two * (q.q2 * q.q3 - q.q0 * q.q1)
  | 0, 2 => two * (q.q1 * q.q3 - q.q0 * q.q2)
  | 1, 2 => two * (q.q2 * q.q3 + q.q0 * q.q1)
  | 2, 2 => qbar + two * (q.q3 * q.q3)

theorem real_two {d : Nat} : (⟨2, 0⟩ : Surd d).real = 2 := by simp [Surd.real]

theorem exactRotT_real {d : Nat} (q : Quat (Surd d)) (i j : Fin 3) :
    (rotMatrix q.real)ᵀ i j = (exactRotT q i j).real := by
  fin_cases i <;> fin_cases j <;>
    simp [exactRotT, rotMatrix, Matrix.transpose, Surd.real_add, Surd.real_sub, Surd.real_mul,
      real_two, Quat.real] <;> ring

/-- An integer as an exact number. -/
def surdInt {d : Nat} (z : Int) : Surd d := ⟨z, 0⟩

theorem real_surdInt {d : Nat} (z : Int) : (surdInt z : Surd d).real = z := by
  simp [surdInt, Surd.real]

theorem cubic_signed : ∀ q ∈ cubicExact, ∃ σ : Equiv.Perm (Fin 3), ∃ ε : Fin 3 → Bool,
    ∀ i j, exactRotT q i j = surdInt (if j = σ i then Spec.sgn (ε i) else 0) := by
  decide +kernel

theorem cubic_all : ∀ σ : Equiv.Perm (Fin 3), ∀ ε : Fin 3 → Bool, ∃ q ∈ cubicExact,
    (∀ i j, exactRotT q i j = surdInt (if j = σ i then Spec.sgn (ε i) else 0)) ∨
    (∀ i j, exactRotT q i j = surdInt (if j = σ i then -Spec.sgn (ε i) else 0)) := by
  decide +kernel

/-- Three indices as the code keeps them. -/
def Spec.idc (v : Fin 3 → Int) : List Int := [v 0, v 1, v 2]

/-- Two families denote the same set of slip systems. -/
def Spec.SameFamily (f g : List SlipSystem) : Prop :=
  (∀ x ∈ f, ∃ y ∈ g, slipEq x y = true) ∧ ∀ y ∈ g, ∃ x ∈ f, slipEq x y = true

theorem signed_apply {q : Quat (Surd 2)} {σ : Equiv.Perm (Fin 3)} {ε : Fin 3 → Bool}
    (h : ∀ i j, exactRotT q i j = surdInt (if j = σ i then Spec.sgn (ε i) else 0))
    (v : Fin 3 → Int) :
    vecList (transformVector (conjugate q.real) fun i => (v i : ℝ)) =
      (Spec.idc (Spec.variant σ ε v)).map fun (z : Int) => (z : ℝ) := by
  have key : ∀ i, transformVector (conjugate q.real) (fun i => (v i : ℝ)) i =
      ((Spec.variant σ ε v i : Int) : ℝ) := by
    intro i
    rw [conj_matrix, Matrix.mulVec, dotProduct, Fin.sum_univ_three]
    rw [exactRotT_real, exactRotT_real, exactRotT_real, h, h, h, real_surdInt, real_surdInt,
      real_surdInt]
    unfold Spec.variant
    generalize σ i = j
    fin_cases j <;> simp
  simp [vecList, Spec.idc, key]

theorem sgn_bound (b : Bool) (z : Int) (h : |z| ≤ 127) : |Spec.sgn b * z| ≤ 127 := by
  cases b <;> simp [Spec.sgn, h]

theorem int8_small {z : Int} (h : |z| ≤ 127) : int8 z = z := by
  unfold int8
  rw [abs_le] at h
  omega

theorem posIdc_some {v : List Int} (h : ∃ x ∈ v, x ≠ 0) :
    ∃ w, posIdc v = some w ∧ posIdc w = some w ∧ (w = v ∨ w = Spec.opposite v) := by
  cases hv : posIdc v with
  | none =>
    obtain ⟨x, hx, h0⟩ := h
    exact absurd ((C50_defined v).1 hv x hx) h0
  | some w => exact ⟨w, rfl, (C50_invariant v).2 w hv, (C50_canonical v w hv).1⟩

/-- The loop over the symmetries: `φ` says which variant each of them makes. -/
theorem family_loop {G : Type} (actP actD : G → List Int) (good : SlipSystem → Prop)
    (syms : List (Quat ℝ)) (step : Quat ℝ → List SlipSystem → Except Err (List SlipSystem))
    (φ : Quat ℝ → G)
    (h1 : ∀ s ∈ syms, ∃ x, good x ∧ posIdc x.planeIdc = posIdc (actP (φ s)) ∧
      posIdc x.dirIdc = posIdc (actD (φ s)) ∧ ∀ fam, step s fam = .ok (familyAdd fam x))
    (h2 : ∀ g, ∃ s ∈ syms, posIdc (actP (φ s)) = posIdc (actP g) ∧
      posIdc (actD (φ s)) = posIdc (actD g)) :
    ∃ fam, syms.foldlM (fun fam s => step s fam) [] = .ok fam ∧
      fam.Pairwise (fun a b => slipEq a b = false) ∧
      (∀ g, ∃ x ∈ fam, posIdc x.planeIdc = posIdc (actP g) ∧ posIdc x.dirIdc = posIdc (actD g)) ∧
      ∀ x ∈ fam, good x ∧ ∃ g, posIdc x.planeIdc = posIdc (actP g) ∧
        posIdc x.dirIdc = posIdc (actD g) := by
  classical
  have hch : ∀ s : Quat ℝ, ∃ x : SlipSystem, s ∈ syms → (good x ∧
      posIdc x.planeIdc = posIdc (actP (φ s)) ∧
      posIdc x.dirIdc = posIdc (actD (φ s)) ∧ ∀ fam, step s fam = .ok (familyAdd fam x)) := by
    intro s
    by_cases hs : s ∈ syms
    · obtain ⟨x, hx⟩ := h1 s hs
      exact ⟨x, fun _ => hx⟩
    · exact ⟨⟨[], [], 0, 0, none⟩, fun h => absurd h hs⟩
  choose f hf using hch
  obtain ⟨a1, -, a3, a4⟩ := familyAdd_fold f syms [] List.Pairwise.nil
  refine ⟨_, foldlM_ok step (fun s fam => familyAdd fam (f s)) syms
    (fun s hs fam => (hf s hs).2.2.2 fam) [], a1, ?_, ?_⟩
  · intro g
    obtain ⟨s, hs, e1, e2⟩ := h2 g
    obtain ⟨x, hx, e⟩ := a3 s hs
    obtain ⟨-, f1, f2, -⟩ := hf s hs
    rw [slipEq_iff] at e
    exact ⟨x, hx, by rw [e.1, f1, e1], by rw [e.2, f2, e2]⟩
  · intro x hx
    rcases a4 x hx with h | ⟨s, hs, rfl⟩
    · cases h
    · obtain ⟨f0, f1, f2, -⟩ := hf s hs
      exact ⟨f0, φ s, f1, f2⟩

/-- Three indices that are not all zero and fit the integers the code casts to. -/
def Spec.Small (v : Fin 3 → Int) : Prop := v ≠ 0 ∧ ∀ i, |v i| ≤ 127

theorem small_variant {v : Fin 3 → Int} (h : Spec.Small v) (σ : Equiv.Perm (Fin 3))
    (ε : Fin 3 → Bool) : Spec.Small (Spec.variant σ ε v) := by
  refine ⟨?_, fun i => sgn_bound _ _ (h.2 _)⟩
  intro h0
  apply h.1
  funext j
  have := congrFun h0 (σ.symm j)
  unfold Spec.variant at this
  rw [Equiv.apply_symm_apply] at this
  cases hε : ε (σ.symm j) <;> simpa [Spec.sgn, hε] using this

theorem idc_nonzero {v : Fin 3 → Int} (h : v ≠ 0) : ∃ x ∈ Spec.idc v, x ≠ 0 := by
  by_contra hc
  push Not at hc
  apply h
  funext i
  fin_cases i <;> exact hc _ (by simp [Spec.idc])

theorem small_neg {v : Fin 3 → Int} (h : Spec.Small v) : Spec.Small (-v) :=
  ⟨fun h0 => h.1 (neg_eq_zero.1 h0), fun i => by rw [Pi.neg_apply, abs_neg]; exact h.2 i⟩

theorem idc_neg (v : Fin 3 → Int) : Spec.idc (-v) = Spec.opposite (Spec.idc v) := by
  simp [Spec.idc, Spec.opposite]

theorem small_cast {v : Fin 3 → Int} (h : Spec.Small v) :
    safeIntCast ((Spec.idc v).map fun (z : Int) => (z : ℝ)) = .ok (Spec.idc v) := by
  rw [safeIntCast_int _ _ (by norm_num)]
  simp [Spec.idc, int8_small (h.2 _)]

/-- A cubic slip system as the constructor makes it. -/
def Spec.CubicSystem (dflt : String) (x : SlipSystem) : Prop :=
  ∃ p d, Spec.Small p ∧ Spec.Small d ∧
    slipSystem dflt .cubic (Spec.idc p) (Spec.idc d) none = .ok x

theorem small_pos {v : Fin 3 → Int} (h : Spec.Small v) : ∃ w, Spec.Small w ∧
    posIdc (Spec.idc v) = some (Spec.idc w) ∧ posIdc (Spec.idc w) = posIdc (Spec.idc v) := by
  obtain ⟨w, h1, h2, h3⟩ := posIdc_some (idc_nonzero h.1)
  rcases h3 with rfl | rfl
  · exact ⟨v, h, h1, rfl⟩
  · refine ⟨-v, small_neg h, ?_, ?_⟩
    · rw [idc_neg]; exact h1
    · rw [idc_neg, h1]; exact h2

theorem member_cubic (dflt : String) {p d : Fin 3 → Int} (hp : Spec.Small p) (hd : Spec.Small d) :
    ∃ x, familyMember dflt .cubic none (Spec.idc p) (Spec.idc d) = .ok x ∧
      Spec.CubicSystem dflt x ∧ posIdc x.planeIdc = posIdc (Spec.idc p) ∧
      posIdc x.dirIdc = posIdc (Spec.idc d) := by
  obtain ⟨p', hp', e1, e2⟩ := small_pos hp
  obtain ⟨d', hd', e3, e4⟩ := small_pos hd
  refine ⟨⟨Spec.idc p', Spec.idc d', _, _, _⟩, ?_, ⟨p', d', hp', hd', rfl⟩, e2, e4⟩
  unfold familyMember
  rw [e1, e3]
  rfl

theorem variant_neg (σ : Equiv.Perm (Fin 3)) (ε : Fin 3 → Bool) (v : Fin 3 → Int) :
    Spec.variant σ (fun i => !(ε i)) v = -Spec.variant σ ε v := by
  funext i
  unfold Spec.variant
  cases h : ε i <;> simp [Spec.sgn, h]


theorem posIdc_neg_line (v : List Int) : posIdc (Spec.opposite v) = posIdc v := (C50_invariant v).1

/-- The family of a cubic slip system. -/
theorem cubic_family (dflt : String) (nan : Int) (ss : SlipSystem) {p d : Fin 3 → Int}
    (hp : Spec.Small p) (hd : Spec.Small d)
    (h1 : ss.planeIdc = Spec.idc p) (h2 : ss.dirIdc = Spec.idc d) :
    ∃ fam, generateFamily dflt nan .cubic ss = .ok fam ∧
      fam.Pairwise (fun a b => slipEq a b = false) ∧
      (∀ g : Equiv.Perm (Fin 3) × (Fin 3 → Bool), ∃ x ∈ fam,
        posIdc x.planeIdc = posIdc (Spec.idc (Spec.variant g.1 g.2 p)) ∧
        posIdc x.dirIdc = posIdc (Spec.idc (Spec.variant g.1 g.2 d))) ∧
      ∀ x ∈ fam, Spec.CubicSystem dflt x ∧ ∃ g : Equiv.Perm (Fin 3) × (Fin 3 → Bool),
        posIdc x.planeIdc = posIdc (Spec.idc (Spec.variant g.1 g.2 p)) ∧
        posIdc x.dirIdc = posIdc (Spec.idc (Spec.variant g.1 g.2 d)) := by
  classical
  have hch : ∀ s : Quat ℝ, ∃ g : Equiv.Perm (Fin 3) × (Fin 3 → Bool), s ∈ symEqv .cubic →
      ∀ v : Fin 3 → Int, vecList (transformVector (conjugate s) fun i => (v i : ℝ)) =
        (Spec.idc (Spec.variant g.1 g.2 v)).map fun (z : Int) => (z : ℝ) := by
    intro s
    by_cases hs : s ∈ symEqv .cubic
    · obtain ⟨q, hq, rfl⟩ := List.mem_map.1 hs
      obtain ⟨σ, ε, h⟩ := cubic_signed q hq
      exact ⟨(σ, ε), fun _ v => signed_apply h v⟩
    · exact ⟨(1, fun _ => false), fun h => absurd h hs⟩
  choose φ hφ using hch
  have hcast : ∀ v : Fin 3 → Int, ![(v 0 : ℝ), (v 1 : ℝ), (v 2 : ℝ)] = fun i => (v i : ℝ) := by
    intro v; funext i; fin_cases i <;> rfl
  obtain ⟨fam, hf, r⟩ := family_loop (fun g => Spec.idc (Spec.variant g.1 g.2 p))
    (fun g => Spec.idc (Spec.variant g.1 g.2 d)) (Spec.CubicSystem dflt) (symEqv .cubic)
    (familyCubic dflt (fun i => (p i : ℝ)) (fun i => (d i : ℝ))) φ (by
      intro s hs
      obtain ⟨x, hx, hg, e1, e2⟩ := member_cubic dflt (small_variant hp (φ s).1 (φ s).2)
        (small_variant hd (φ s).1 (φ s).2)
      refine ⟨x, hg, e1, e2, fun fam => ?_⟩
      unfold familyCubic
      rw [hφ s hs p, small_cast (small_variant hp _ _), hφ s hs d,
        small_cast (small_variant hd _ _)]
      simp only [Except.bind]
      rw [hx]) (by
      rintro ⟨σ, ε⟩
      obtain ⟨q, hq, h⟩ := cubic_all σ ε
      have hs : q.real ∈ symEqv .cubic := List.mem_map.2 ⟨q, hq, rfl⟩
      refine ⟨q.real, hs, ?_⟩
      have inj : ∀ v w : Fin 3 → Int, (Spec.idc v).map (fun (z : Int) => (z : ℝ)) =
          (Spec.idc w).map (fun (z : Int) => (z : ℝ)) → Spec.idc v = Spec.idc w := by
        intro v w h
        exact List.map_injective_iff.2 Int.cast_injective h
      rcases h with h | h
      · have e : ∀ v, Spec.idc (Spec.variant (φ q.real).1 (φ q.real).2 v) =
            Spec.idc (Spec.variant σ ε v) := fun v =>
          inj _ _ ((hφ q.real hs v).symm.trans (signed_apply h v))
        exact ⟨by rw [e], by rw [e]⟩
      · have h' : ∀ i j, exactRotT q i j =
            surdInt (if j = σ i then Spec.sgn ((fun i => !(ε i)) i) else 0) := by
          intro i j
          rw [h i j]
          congr 2
          cases h0 : ε i <;> simp [Spec.sgn, h0]
        have e : ∀ v, Spec.idc (Spec.variant (φ q.real).1 (φ q.real).2 v) =
            Spec.opposite (Spec.idc (Spec.variant σ ε v)) := fun v => by
          rw [inj _ _ ((hφ q.real hs v).symm.trans (signed_apply h' v)), variant_neg, idc_neg]
        exact ⟨by rw [e, posIdc_neg_line], by rw [e, posIdc_neg_line]⟩)
  refine ⟨fam, ?_, r⟩
  unfold generateFamily
  simp only
  rw [h1, h2]
  simp only [Spec.idc]
  rw [hcast, hcast]
  exact hf

/-- **C57** The family of a cubic slip system: for every symmetric variant (a permutation of the
cube axes with any signs, of plane and direction together) it has exactly one member denoting the
same plane and direction up to sign, and it has no other members. The identity is among the
variants, so this covers the slip system itself. -/
theorem C57_family (dflt : String) (nan : Int) (ss : SlipSystem) (p d : Fin 3 → Int)
    (hp : Spec.Small p) (hd : Spec.Small d)
    (h1 : ss.planeIdc = Spec.idc p) (h2 : ss.dirIdc = Spec.idc d) :
    ∃ fam, generateFamily dflt nan .cubic ss = .ok fam ∧
      (∃! x, x ∈ fam ∧ slipEq x ss = true) ∧
      (∀ (σ : Equiv.Perm (Fin 3)) (ε : Fin 3 → Bool), ∃! x, x ∈ fam ∧
        Spec.SameLine x.planeIdc (Spec.idc (Spec.variant σ ε p)) ∧
        Spec.SameLine x.dirIdc (Spec.idc (Spec.variant σ ε d))) ∧
      (∀ x ∈ fam, Spec.CubicSystem dflt x ∧ ∃ (σ : Equiv.Perm (Fin 3)) (ε : Fin 3 → Bool),
        Spec.SameLine x.planeIdc (Spec.idc (Spec.variant σ ε p)) ∧
        Spec.SameLine x.dirIdc (Spec.idc (Spec.variant σ ε d))) ∧
      fam.Nodup := by
  obtain ⟨fam, hf, hpw, ha, hm⟩ := cubic_family dflt nan ss hp hd h1 h2
  have uniq : ∀ x ∈ fam, ∀ y ∈ fam, slipEq x y = true → x = y := by
    intro x hx y hy e
    by_contra hne
    haveI : Std.Symm (fun a b : SlipSystem => slipEq a b = false) := ⟨fun a b h => by
      cases h' : slipEq b a with
      | false => rfl
      | true => rw [C54_equivalence.symm h'] at h; cases h⟩
    have := hpw.forall hx hy hne
    rw [this] at e
    cases e
  have eq1 : ∀ (σ : Equiv.Perm (Fin 3)) (ε : Fin 3 → Bool), ∃! x, x ∈ fam ∧
        Spec.SameLine x.planeIdc (Spec.idc (Spec.variant σ ε p)) ∧
        Spec.SameLine x.dirIdc (Spec.idc (Spec.variant σ ε d)) := by
    intro σ ε
    obtain ⟨x, hx, e1, e2⟩ := ha (σ, ε)
    refine ⟨x, ⟨hx, (posIdc_eq_iff _ _).1 e1, (posIdc_eq_iff _ _).1 e2⟩, ?_⟩
    rintro y ⟨hy, e3, e4⟩
    refine uniq y hy x hx ((slipEq_iff _ _).2 ⟨?_, ?_⟩)
    · rw [(posIdc_eq_iff _ _).2 e3, e1]
    · rw [(posIdc_eq_iff _ _).2 e4, e2]
  refine ⟨fam, hf, ?_, eq1, ?_, ?_⟩
  · obtain ⟨x, ⟨hx, e1, e2⟩, hu⟩ := eq1 1 (fun _ => false)
    have hid : ∀ v, Spec.variant 1 (fun _ => false) v = v := by
      intro v; funext i; simp [Spec.variant, Spec.sgn]
    rw [hid] at e1 e2
    refine ⟨x, ⟨hx, (C54_equal _ _).2 ⟨h1 ▸ e1, h2 ▸ e2⟩⟩, ?_⟩
    rintro y ⟨hy, e⟩
    refine hu y ⟨hy, ?_⟩
    rw [hid, hid, ← h1, ← h2]
    exact (C54_equal _ _).1 e
  · intro x hx
    obtain ⟨hg, g, e1, e2⟩ := hm x hx
    exact ⟨hg, g.1, g.2, (posIdc_eq_iff _ _).1 e1, (posIdc_eq_iff _ _).1 e2⟩
  · refine hpw.imp ?_
    intro a b h e
    rw [e, C54_equivalence.refl] at h
    cases h

/-! ### Families from other members -/

theorem variant_comp (σ τ : Equiv.Perm (Fin 3)) (ε δ : Fin 3 → Bool) (v : Fin 3 → Int) :
    Spec.variant σ ε (Spec.variant τ δ v) =
      Spec.variant (σ.trans τ) (fun i => (ε i).xor (δ (σ i))) v := by
  funext i
  unfold Spec.variant
  cases h : ε i <;> cases h' : δ (σ i) <;> simp [Spec.sgn, h, h']

theorem variant_reach (σ τ : Equiv.Perm (Fin 3)) (ε δ : Fin 3 → Bool) :
    ∃ g : Equiv.Perm (Fin 3) × (Fin 3 → Bool), ∀ v,
      Spec.variant g.1 g.2 (Spec.variant τ δ v) = Spec.variant σ ε v := by
  refine ⟨(σ.trans τ.symm, fun i => (ε i).xor (δ (τ.symm (σ i)))), fun v => ?_⟩
  rw [variant_comp]
  funext i
  unfold Spec.variant
  cases h : ε i <;> cases h' : δ (τ.symm (σ i)) <;> simp [Spec.sgn, h, h']

theorem idc_injective {v w : Fin 3 → Int} (h : Spec.idc v = Spec.idc w) : v = w := by
  simp only [Spec.idc, List.cons.injEq, and_true] at h
  funext i
  fin_cases i
  · exact h.1
  · exact h.2.1
  · exact h.2.2

theorem variant_line (σ : Equiv.Perm (Fin 3)) (ε : Fin 3 → Bool) {v w : Fin 3 → Int} (hv : v ≠ 0)
    (h : posIdc (Spec.idc v) = posIdc (Spec.idc w)) :
    posIdc (Spec.idc (Spec.variant σ ε v)) = posIdc (Spec.idc (Spec.variant σ ε w)) := by
  rcases (C50_same_line _ _ (idc_nonzero hv)).1 h with e | e
  · rw [idc_injective e]
  · rw [← idc_neg] at e
    rw [idc_injective e]
    have : Spec.variant σ ε (-w) = -Spec.variant σ ε w := by
      funext i; simp [Spec.variant]
    rw [this, idc_neg, posIdc_neg_line]

/-- **C57** The family is the same set whichever member it is generated from. -/
theorem C57_same (dflt : String) (nan : Int) (ss : SlipSystem) (p d : Fin 3 → Int)
    (hp : Spec.Small p) (hd : Spec.Small d)
    (h1 : ss.planeIdc = Spec.idc p) (h2 : ss.dirIdc = Spec.idc d) (fam : List SlipSystem)
    (hfam : generateFamily dflt nan .cubic ss = .ok fam) (x : SlipSystem) (hx : x ∈ fam) :
    ∃ fam', generateFamily dflt nan .cubic x = .ok fam' ∧ Spec.SameFamily fam fam' := by
  obtain ⟨fam0, hf, hpw, ha, hm⟩ := cubic_family dflt nan ss hp hd h1 h2
  rw [hfam] at hf
  cases hf
  obtain ⟨⟨p', d', hp', hd', hs⟩, ⟨τ, δ⟩, e1, e2⟩ := hm x hx
  obtain ⟨i1, i2, -⟩ := slipSystem_cubic _ _ _ _ _ hs
  obtain ⟨fam', hf', -, ha', hm'⟩ := cubic_family dflt nan x hp' hd' i1 i2
  refine ⟨fam', hf', ?_, ?_⟩
  · intro y hy
    obtain ⟨-, ⟨σ, ε⟩, e3, e4⟩ := hm y hy
    obtain ⟨g, hg⟩ := variant_reach σ τ ε δ
    obtain ⟨z, hz, e5, e6⟩ := ha' g
    refine ⟨z, hz, (slipEq_iff _ _).2 ⟨?_, ?_⟩⟩
    · rw [e3, e5, variant_line _ _ hp'.1 (i1 ▸ e1), hg]
    · rw [e4, e6, variant_line _ _ hd'.1 (i2 ▸ e2), hg]
  · intro y hy
    obtain ⟨-, ⟨σ, ε⟩, e3, e4⟩ := hm' y hy
    obtain ⟨z, hz, e5, e6⟩ := ha (σ.trans τ, fun i => (ε i).xor (δ (σ i)))
    refine ⟨z, hz, (slipEq_iff _ _).2 ⟨?_, ?_⟩⟩
    · rw [e3, e5, variant_line _ _ hp'.1 (i1 ▸ e1), variant_comp]
    · rw [e4, e6, variant_line _ _ hd'.1 (i2 ▸ e2), variant_comp]

example : Spec.Small ![1, 1, 1] ∧ Spec.Small ![0, 1, -1] := by
  refine ⟨⟨fun h => ?_, fun i => ?_⟩, ⟨fun h => ?_, fun i => ?_⟩⟩
  · simpa using congrFun h 0
  · fin_cases i <;> simp
  · simpa using congrFun h 1
  · fin_cases i <;> simp

end DefDAP
