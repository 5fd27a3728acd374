import Verif.Model.Crystal
import Verif.Props.Lattice
import Mathlib.LinearAlgebra.Matrix.DotProduct

/-! C54, C55, C56, C84: slip systems, their equality, grouping and the shipped files. -/

namespace DefDAP

open Matrix

/-- Two index sets denote the same line: equal or opposite (all zero indices denote nothing and
count as the same). -/
def Spec.SameLine (v w : List Int) : Prop :=
  v = w ∨ v = Spec.opposite w ∨ ((∀ x ∈ v, x = 0) ∧ ∀ x ∈ w, x = 0)

theorem posIdc_eq_iff (v w : List Int) : posIdc v = posIdc w ↔ Spec.SameLine v w := by
  unfold Spec.SameLine
  by_cases hv : ∃ x ∈ v, x ≠ 0
  · rw [C50_same_line v w hv]
    constructor
    · rintro (h | h)
      · exact Or.inl h
      · exact Or.inr (Or.inl h)
    · rintro (h | h | ⟨h, _⟩)
      · exact Or.inl h
      · exact Or.inr h
      · obtain ⟨x, hx, h0⟩ := hv
        exact absurd (h x hx) h0
  · have hv' : ∀ x ∈ v, x = 0 := by
      intro x hx
      by_contra h
      exact hv ⟨x, hx, h⟩
    constructor
    · intro h
      rw [posIdc_zero hv'] at h
      exact Or.inr (Or.inr ⟨hv', (C50_defined w).1 h.symm⟩)
    · rintro (rfl | rfl | ⟨_, h⟩)
      · rfl
      · exact (C50_invariant w).1
      · rw [posIdc_zero hv', posIdc_zero h]

/-- **C54** Slip systems are equal exactly when plane and direction denote the same lines. -/
theorem C54_equal (a b : SlipSystem) :
    slipEq a b = true ↔ Spec.SameLine a.planeIdc b.planeIdc ∧ Spec.SameLine a.dirIdc b.dirIdc := by
  unfold slipEq
  rw [Bool.and_eq_true, decide_eq_true_iff, decide_eq_true_iff, posIdc_eq_iff, posIdc_eq_iff]

theorem slipEq_iff (a b : SlipSystem) : slipEq a b = true ↔
    posIdc a.planeIdc = posIdc b.planeIdc ∧ posIdc a.dirIdc = posIdc b.dirIdc := by
  unfold slipEq
  rw [Bool.and_eq_true, decide_eq_true_iff, decide_eq_true_iff]

/-- **C54** Equality is an equivalence relation. -/
theorem C54_equivalence : Equivalence fun a b : SlipSystem => slipEq a b = true where
  refl a := (slipEq_iff a a).2 ⟨rfl, rfl⟩
  symm h := (slipEq_iff _ _).2 ⟨((slipEq_iff _ _).1 h).1.symm, ((slipEq_iff _ _).1 h).2.symm⟩
  trans h1 h2 := (slipEq_iff _ _).2 ⟨((slipEq_iff _ _).1 h1).1.trans ((slipEq_iff _ _).1 h2).1,
    ((slipEq_iff _ _).1 h1).2.trans ((slipEq_iff _ _).1 h2).2⟩

/-- **C54** Equal slip systems have equal hashes, whatever the hash function of tuples; a hash
exists unless all plane or all direction indices are zero. -/
theorem C54_hash (h : List Int → Int) (a b : SlipSystem) (hab : slipEq a b = true) :
    slipHash h a = slipHash h b ∧
    ((∃ x ∈ a.planeIdc, x ≠ 0) → (∃ x ∈ a.dirIdc, x ≠ 0) → ∃ n, slipHash h a = .ok n) := by
  obtain ⟨h1, h2⟩ := (slipEq_iff a b).1 hab
  refine ⟨by unfold slipHash; rw [h1, h2], ?_⟩
  rintro ⟨x, hx, hx0⟩ ⟨y, hy, hy0⟩
  unfold slipHash
  cases hp : posIdc a.planeIdc with
  | none => exact absurd ((C50_defined _).1 hp x hx) hx0
  | some p =>
    cases hd : posIdc a.dirIdc with
    | none => exact absurd ((C50_defined _).1 hd y hy) hy0
    | some d => exact ⟨_, rfl⟩

/-! ### C55 -/

/-- State of the grouping loop after the slip systems `l`. -/
structure GroupInv (l : List SlipSystem) (gs : List (List SlipSystem)) : Prop where
  perm : gs.flatten.Perm l
  nonempty : ∀ g ∈ gs, g ≠ []
  sub : ∀ g ∈ gs, g.Sublist l
  same : ∀ g ∈ gs, ∀ a ∈ g, ∀ b ∈ g, posIdc a.planeIdc = posIdc b.planeIdc
  differ : gs.Pairwise fun g g' => ∀ a ∈ g, ∀ b ∈ g', posIdc a.planeIdc ≠ posIdc b.planeIdc
  heads : (gs.filterMap List.head?).Sublist l

/-- What the inner loop does to the groups. -/
theorem groupInsert_spec (ss : SlipSystem) (gs : List (List SlipSystem)) (hne : ∀ g ∈ gs, g ≠ [])
    (hsame : ∀ g ∈ gs, ∀ a ∈ g, ∀ b ∈ g, posIdc a.planeIdc = posIdc b.planeIdc) :
    (∃ pre g post, gs = pre ++ g :: post ∧ (∀ a ∈ g, posIdc ss.planeIdc = posIdc a.planeIdc) ∧
      groupInsert ss gs = pre ++ (g ++ [ss]) :: post) ∨
    ((∀ g ∈ gs, ∀ a ∈ g, posIdc ss.planeIdc ≠ posIdc a.planeIdc) ∧
      groupInsert ss gs = gs ++ [[ss]]) := by
  induction gs with
  | nil => exact Or.inr ⟨by simp, rfl⟩
  | cons g gs ih =>
    cases g with
    | nil => exact absurd rfl (hne [] (List.mem_cons_self ..))
    | cons r t =>
      unfold groupInsert
      simp only
      have hrt := hsame (r :: t) (List.mem_cons_self ..)
      by_cases hp : posIdc ss.planeIdc = posIdc r.planeIdc
      · rw [if_pos hp]
        left
        refine ⟨[], r :: t, gs, rfl, ?_, rfl⟩
        intro a ha
        exact hp.trans (hrt r (List.mem_cons_self ..) a ha)
      · rw [if_neg hp]
        rcases ih (fun g hg => hne g (List.mem_cons_of_mem _ hg))
            (fun g hg => hsame g (List.mem_cons_of_mem _ hg)) with
          ⟨pre, g, post, h1, h2, h3⟩ | ⟨h1, h2⟩
        · left
          exact ⟨(r :: t) :: pre, g, post, by rw [h1]; rfl, h2, by rw [h3]; rfl⟩
        · right
          refine ⟨?_, by rw [h2]; rfl⟩
          intro g hg a ha
          rcases List.mem_cons.1 hg with rfl | hg
          · intro he
            exact hp (he.trans (hrt a ha r (List.mem_cons_self ..)))
          · exact h1 g hg a ha

theorem filterMap_head_append (pre post : List (List SlipSystem)) (g : List SlipSystem)
    (ss : SlipSystem) (hg : g ≠ []) :
    (pre ++ (g ++ [ss]) :: post).filterMap List.head? = (pre ++ g :: post).filterMap List.head? := by
  cases g with
  | nil => exact absurd rfl hg
  | cons r t => simp

theorem GroupInv.step {l : List SlipSystem} {gs : List (List SlipSystem)} (h : GroupInv l gs)
    (ss : SlipSystem) : GroupInv (l ++ [ss]) (groupInsert ss gs) := by
  rcases groupInsert_spec ss gs h.nonempty h.same with ⟨pre, g, post, h1, h2, h3⟩ | ⟨h1, h2⟩
  · subst h1
    rw [h3]
    have hg : g ∈ pre ++ g :: post := by simp
    refine ⟨?_, ?_, ?_, ?_, ?_, ?_⟩
    · have hp := h.perm
      simp only [List.flatten_append, List.flatten_cons] at hp ⊢
      refine List.Perm.trans ?_ (hp.append_right [ss])
      simp only [List.append_assoc]
      refine List.Perm.append_left _ (List.Perm.append_left _ ?_)
      exact List.perm_append_comm
    · intro x hx
      rcases List.mem_append.1 hx with hx | hx
      · exact h.nonempty x (List.mem_append_left _ hx)
      · rcases List.mem_cons.1 hx with rfl | hx
        · simp
        · exact h.nonempty x (by simp [hx])
    · intro x hx
      rcases List.mem_append.1 hx with hx | hx
      · exact (h.sub x (List.mem_append_left _ hx)).trans (List.sublist_append_left _ _)
      · rcases List.mem_cons.1 hx with rfl | hx
        · exact (h.sub g hg).append (List.Sublist.refl _)
        · exact (h.sub x (by simp [hx])).trans (List.sublist_append_left _ _)
    · intro x hx
      rcases List.mem_append.1 hx with hx | hx
      · exact h.same x (List.mem_append_left _ hx)
      · rcases List.mem_cons.1 hx with rfl | hx
        · intro a ha b hb
          have key : ∀ a ∈ g ++ [ss], posIdc a.planeIdc = posIdc ss.planeIdc := by
            intro a ha
            rcases List.mem_append.1 ha with ha | ha
            · exact (h2 a ha).symm
            · rw [List.mem_singleton.1 ha]
          exact (key a ha).trans (key b hb).symm
        · exact h.same x (by simp [hx])
    · have hd := h.differ
      have hne := h.nonempty g hg
      rw [List.pairwise_append, List.pairwise_cons] at hd ⊢
      obtain ⟨d1, ⟨d2, d3⟩, d4⟩ := hd
      obtain ⟨r, hr⟩ := List.exists_mem_of_ne_nil g hne
      refine ⟨d1, ⟨?_, d3⟩, ?_⟩
      · intro x hx a ha b hb
        rcases List.mem_append.1 ha with ha | ha
        · exact d2 x hx a ha b hb
        · rw [List.mem_singleton.1 ha, h2 r hr]
          exact d2 x hx r hr b hb
      · intro x hx y hy a ha b hb
        rcases List.mem_cons.1 hy with rfl | hy
        · rcases List.mem_append.1 hb with hb | hb
          · exact d4 x hx g (List.mem_cons_self ..) a ha b hb
          · rw [List.mem_singleton.1 hb, h2 r hr]
            exact d4 x hx g (List.mem_cons_self ..) a ha r hr
        · exact d4 x hx y (List.mem_cons_of_mem _ hy) a ha b hb
    · rw [filterMap_head_append _ _ _ _ (h.nonempty g hg)]
      exact h.heads.trans (List.sublist_append_left _ _)
  · rw [h2]
    refine ⟨?_, ?_, ?_, ?_, ?_, ?_⟩
    · rw [List.flatten_append]
      simpa using h.perm.append_right [ss]
    · intro x hx
      rcases List.mem_append.1 hx with hx | hx
      · exact h.nonempty x hx
      · rw [List.mem_singleton.1 hx]; simp
    · intro x hx
      rcases List.mem_append.1 hx with hx | hx
      · exact (h.sub x hx).trans (List.sublist_append_left _ _)
      · rw [List.mem_singleton.1 hx]; exact List.sublist_append_right _ _
    · intro x hx
      rcases List.mem_append.1 hx with hx | hx
      · exact h.same x hx
      · rw [List.mem_singleton.1 hx]
        intro a ha b hb
        rw [List.mem_singleton.1 ha, List.mem_singleton.1 hb]
    · rw [List.pairwise_append]
      refine ⟨h.differ, List.pairwise_singleton _ _, ?_⟩
      intro x hx y hy a ha b hb
      rw [List.mem_singleton.1 hy] at hb
      rw [List.mem_singleton.1 hb]
      exact fun he => h1 x hx a ha he.symm
    · rw [List.filterMap_append]
      exact h.heads.append (List.Sublist.refl _)

theorem groupPlane_inv (l : List SlipSystem) (gs : List (List SlipSystem))
    (h : groupPlane l = .ok gs) : GroupInv l gs := by
  cases l with
  | nil => cases h
  | cons s t =>
    unfold groupPlane at h
    cases h
    have gen : ∀ (t : List SlipSystem) (l : List SlipSystem) (gs : List (List SlipSystem)),
        GroupInv l gs → GroupInv (l ++ t) (t.foldl (fun gs ss => groupInsert ss gs) gs) := by
      intro t
      induction t with
      | nil => intro l gs h; simpa using h
      | cons a t ih =>
        intro l gs h
        have := ih (l ++ [a]) (groupInsert a gs) (h.step a)
        simpa [List.append_assoc] using this
    refine gen t [s] [[s]] ⟨by simp, by simp, by simp, ?_, by simp, by simp⟩
    intro g hg a ha b hb
    rw [List.mem_singleton.1 hg] at ha hb
    rw [List.mem_singleton.1 ha, List.mem_singleton.1 hb]

/-- **C55** Grouping by plane succeeds exactly for non-empty lists (an empty one is an
`IndexError`). -/
theorem C55_defined (l : List SlipSystem) :
    (l = [] → groupPlane l = .error .indexError) ∧ (l ≠ [] → ∃ gs, groupPlane l = .ok gs) := by
  cases l with
  | nil => exact ⟨fun _ => rfl, fun h => absurd rfl h⟩
  | cons s t => exact ⟨(fun h => by cases h), fun _ => ⟨_, rfl⟩⟩

/-- **C55** Grouping by plane is a partition: all slip systems, each in exactly one group, in the
original order within a group and between the groups' first members; members of one group have
planes equal up to sign, members of different groups do not. -/
theorem C55_partition (l : List SlipSystem) (gs : List (List SlipSystem))
    (h : groupPlane l = .ok gs) :
    gs.flatten.Perm l ∧
    (∀ g ∈ gs, g ≠ [] ∧ g.Sublist l) ∧ (gs.filterMap List.head?).Sublist l ∧
    (∀ g ∈ gs, ∀ a ∈ g, ∀ b ∈ g, Spec.SameLine a.planeIdc b.planeIdc) ∧
    gs.Pairwise fun g g' => ∀ a ∈ g, ∀ b ∈ g', ¬ Spec.SameLine a.planeIdc b.planeIdc := by
  have i := groupPlane_inv l gs h
  refine ⟨i.perm, fun g hg => ⟨i.nonempty g hg, i.sub g hg⟩, i.heads, ?_, ?_⟩
  · intro g hg a ha b hb
    exact (posIdc_eq_iff _ _).1 (i.same g hg a ha b hb)
  · exact i.differ.imp fun hd a ha b hb hs => hd a ha b hb ((posIdc_eq_iff _ _).2 hs)

/-! ### Unit normals and slip directions -/

theorem unitVec_unit (v : Fin 3 → ℝ) (h : v ≠ 0) : unitVec v ⬝ᵥ unitVec v = 1 := by
  have hp : 0 < v ⬝ᵥ v := by
    have h0 : 0 ≤ v ⬝ᵥ v := by
      simp only [dotProduct, Fin.sum_univ_three]
      nlinarith [mul_self_nonneg (v 0), mul_self_nonneg (v 1), mul_self_nonneg (v 2)]
    rcases h0.lt_or_eq with h' | h'
    · exact h'
    · exact absurd (dotProduct_self_eq_zero.1 h'.symm) h
  have hs : Real.sqrt (v ⬝ᵥ v) * Real.sqrt (v ⬝ᵥ v) = v ⬝ᵥ v := Real.mul_self_sqrt hp.le
  have hs0 : Real.sqrt (v ⬝ᵥ v) ≠ 0 := (Real.sqrt_pos.2 hp).ne'
  unfold unitVec
  have : (fun i => v i / Real.sqrt (v ⬝ᵥ v)) ⬝ᵥ (fun i => v i / Real.sqrt (v ⬝ᵥ v)) =
      (v ⬝ᵥ v) / (Real.sqrt (v ⬝ᵥ v) * Real.sqrt (v ⬝ᵥ v)) := by
    generalize Real.sqrt (v ⬝ᵥ v) = s at hs0 ⊢
    simp only [dotProduct, Fin.sum_univ_three]
    field_simp
  rw [this, hs]
  exact div_self hp.ne'

theorem unitVec_dot (v w : Fin 3 → ℝ) :
    unitVec v ⬝ᵥ unitVec w = (v ⬝ᵥ w) / (Real.sqrt (v ⬝ᵥ v) * Real.sqrt (w ⬝ᵥ w)) := by
  unfold unitVec
  generalize Real.sqrt (v ⬝ᵥ v) = s
  generalize Real.sqrt (w ⬝ᵥ w) = t
  simp only [dotProduct, Fin.sum_univ_three]
  simp only [div_eq_mul_inv, mul_inv]
  ring

theorem unitVec_neg (v : Fin 3 → ℝ) : unitVec (-v) = -unitVec v := by
  unfold unitVec
  funext i
  simp [neg_div]

/-- The direction lies in the plane, by indices: three for cubic, four for hexagonal crystals
(where the first three also add up to zero). -/
def Spec.InPlane (plane dir : List Int) : Prop :=
  (∃ h k l u v w, plane = [h, k, l] ∧ dir = [u, v, w] ∧ h * u + k * v + l * w = 0) ∨
  (∃ h k i l u v t w, plane = [h, k, i, l] ∧ dir = [u, v, t, w] ∧ h + k + i = 0 ∧
    h * u + k * v + i * t + l * w = 0)

/-- A cubic slip system: its Cartesian vectors. -/
theorem slipSystem_cubic (dflt : String) (ca : Option ℝ) (plane dir : List Int) (ss : SlipSystem)
    (h : slipSystem dflt .cubic plane dir ca = .ok ss) :
    ss.planeIdc = plane ∧ ss.dirIdc = dir ∧ ∃ h k l u v w : Int, plane = [h, k, l] ∧
      dir = [u, v, w] ∧ ss.normal = unitVec ![(h : ℝ), (k : ℝ), (l : ℝ)] ∧
      ss.slip = unitVec ![(u : ℝ), (v : ℝ), (w : ℝ)] := by
  unfold slipSystem at h
  simp only at h
  split at h
  · cases h
    exact ⟨rfl, rfl, _, _, _, _, _, _, rfl, rfl, rfl, rfl⟩
  · cases h

/-- A hexagonal slip system: its Cartesian vectors. -/
theorem slipSystem_hex (dflt : String) (ca : ℝ) (plane dir : List Int) (ss : SlipSystem)
    (h : slipSystem dflt .hexagonal plane dir (some ca) = .ok ss) :
    ss.planeIdc = plane ∧ ss.dirIdc = dir ∧ ∃ (p0 p1 p2 p3 d0 d1 d2 d3 : Int)
      (l : Matrix (Fin 3) (Fin 3) ℝ), plane = [p0, p1, p2, p3] ∧ dir = [d0, d1, d2, d3] ∧
      hexL dflt ca = .ok l ∧ ss.normal = unitVec (createQ l *ᵥ ![(p0 : ℝ), (p1 : ℝ), (p3 : ℝ)]) ∧
      ss.slip = unitVec (l *ᵥ ![(d0 : ℝ) - d2, (d1 : ℝ) - d2, (d3 : ℝ)]) := by
  have h2 : "mb".toLower = "mb" := by with_unfolding_all rfl
  unfold slipSystem at h
  simp only [convertIdc, convertPlane, convertDir, h2, asReals] at h
  have hne : ¬ ("mb" = "m") := by decide
  simp only [if_neg hne, if_true] at h
  rcases plane with _ | ⟨p0, _ | ⟨p1, _ | ⟨p2, _ | ⟨p3, _ | ⟨p4, pt⟩⟩⟩⟩⟩ <;>
    simp [Except.bind] at h
  rcases dir with _ | ⟨d0, _ | ⟨d1, _ | ⟨d2, _ | ⟨d3, _ | ⟨d4, dt⟩⟩⟩⟩⟩ <;>
    simp at h
  cases hl : hexL dflt ca with
  | error e => rw [hl] at h; cases h
  | ok l =>
    rw [hl] at h
    simp [matVec] at h
    subst h
    exact ⟨rfl, rfl, p0, p1, p2, p3, d0, d1, d2, d3, l, rfl, rfl, rfl, rfl, rfl⟩

/-- The vectors of slip systems are unit vectors, perpendicular if the direction lies in the
plane. -/
theorem slip_perp (dflt : String) (cs : CrystalName) (ca : Option ℝ)
    (hca : ∀ r, ca = some r → 1 / 10 ^ 10 ≤ r) (plane dir : List Int) (ss : SlipSystem)
    (h : slipSystem dflt cs plane dir ca = .ok ss) (hin : Spec.InPlane plane dir) :
    ss.normal ⬝ᵥ ss.slip = 0 := by
  cases cs with
  | cubic =>
    obtain ⟨_, _, x, k, l, u, v, w, rfl, rfl, hn, hs⟩ := slipSystem_cubic _ _ _ _ _ h
    rw [hn, hs, unitVec_dot]
    rcases hin with ⟨h', k', l', u', v', w', e1, e2, e⟩ | ⟨_, _, _, _, _, _, _, _, e1, _⟩
    · cases e1; cases e2
      have : ((x : ℝ) * u + k * v + l * w) = 0 := by exact_mod_cast e
      have e2 : (![(x : ℝ), (k : ℝ), (l : ℝ)] ⬝ᵥ ![(u : ℝ), (v : ℝ), (w : ℝ)]) = 0 := by
        simpa [dotProduct, Fin.sum_univ_three] using this
      rw [e2, zero_div]
    · cases e1
  | hexagonal =>
    cases ca with
    | none => cases h
    | some ca =>
      obtain ⟨_, _, p0, p1, p2, p3, d0, d1, d2, d3, l, rfl, rfl, hl, hn, hs⟩ :=
        slipSystem_hex _ _ _ _ _ h
      rw [hn, hs, unitVec_dot, (C48_dual l (hex_det dflt ca (hca ca rfl) l hl)).2]
      rcases hin with ⟨_, _, _, _, _, _, e1, _⟩ | ⟨p0', p1', p2', p3', d0', d1', d2', d3', e1, e2, s, e⟩
      · cases e1
      · cases e1; cases e2
        have s' : ((p0 : ℝ) + p1 + p2) = 0 := by exact_mod_cast s
        have e' : ((p0 : ℝ) * d0 + p1 * d1 + p2 * d2 + p3 * d3) = 0 := by exact_mod_cast e
        have e2 : (![(p0 : ℝ), (p1 : ℝ), (p3 : ℝ)] ⬝ᵥ
            ![(d0 : ℝ) - d2, (d1 : ℝ) - d2, (d3 : ℝ)]) = 0 := by
          simp [dotProduct, Fin.sum_univ_three]
          linear_combination e' - d2 * s'
        rw [e2, zero_div]
  | other => cases h

theorem mulVec_ne_zero {l : Matrix (Fin 3) (Fin 3) ℝ} (hd : 0 < l.det) {d : Fin 3 → ℝ}
    (h : d ≠ 0) : l *ᵥ d ≠ 0 := by
  intro h0
  have := (C48_dual l hd).2 d d
  rw [h0] at this
  simp only [dotProduct_zero] at this
  exact h (dotProduct_self_eq_zero.1 this.symm)

theorem createQ_ne_zero {l : Matrix (Fin 3) (Fin 3) ℝ} (hd : 0 < l.det) {p : Fin 3 → ℝ}
    (h : p ≠ 0) : createQ l *ᵥ p ≠ 0 := by
  intro h0
  have := (C48_dual l hd).2 p p
  rw [h0] at this
  simp only [zero_dotProduct] at this
  exact h (dotProduct_self_eq_zero.1 this.symm)

/-- Not all indices are zero; with four indices the first three add up to zero. -/
def Spec.GoodIndices (v : List Int) : Prop :=
  (∃ x ∈ v, x ≠ 0) ∧ ∀ h k i l, v = [h, k, i, l] → h + k + i = 0

theorem slip_unit (dflt : String) (cs : CrystalName) (ca : Option ℝ)
    (hca : ∀ r, ca = some r → 1 / 10 ^ 10 ≤ r) (plane dir : List Int) (ss : SlipSystem)
    (h : slipSystem dflt cs plane dir ca = .ok ss) (hp : Spec.GoodIndices plane)
    (hd : Spec.GoodIndices dir) :
    ss.normal ⬝ᵥ ss.normal = 1 ∧ ss.slip ⬝ᵥ ss.slip = 1 := by
  have three : ∀ a b c : ℝ, ![a, b, c] = 0 → a = 0 ∧ b = 0 ∧ c = 0 := by
    intro a b c h
    exact ⟨congrFun h 0, congrFun h 1, congrFun h 2⟩
  cases cs with
  | cubic =>
    obtain ⟨_, _, x, k, l, u, v, w, rfl, rfl, hn, hs⟩ := slipSystem_cubic _ _ _ _ _ h
    rw [hn, hs]
    constructor
    · refine unitVec_unit _ fun h0 => ?_
      obtain ⟨a, b, c⟩ := three _ _ _ h0
      obtain ⟨y, hx, hx0⟩ := hp.1
      have a' : x = 0 := by exact_mod_cast a
      have b' : k = 0 := by exact_mod_cast b
      have c' : l = 0 := by exact_mod_cast c
      simp [a', b', c'] at hx
      exact hx0 hx
    · refine unitVec_unit _ fun h0 => ?_
      obtain ⟨a, b, c⟩ := three _ _ _ h0
      obtain ⟨x, hx, hx0⟩ := hd.1
      have a' : u = 0 := by exact_mod_cast a
      have b' : v = 0 := by exact_mod_cast b
      have c' : w = 0 := by exact_mod_cast c
      simp [a', b', c'] at hx
      exact hx0 hx
  | hexagonal =>
    cases ca with
    | none => cases h
    | some ca =>
      obtain ⟨_, _, p0, p1, p2, p3, d0, d1, d2, d3, l, rfl, rfl, hl, hn, hs⟩ :=
        slipSystem_hex _ _ _ _ _ h
      have hdet := hex_det dflt ca (hca ca rfl) l hl
      rw [hn, hs]
      constructor
      · refine unitVec_unit _ (createQ_ne_zero hdet fun h0 => ?_)
        obtain ⟨a, b, c⟩ := three _ _ _ h0
        obtain ⟨x, hx, hx0⟩ := hp.1
        have hsum := hp.2 _ _ _ _ rfl
        have a' : p0 = 0 := by exact_mod_cast a
        have b' : p1 = 0 := by exact_mod_cast b
        have c' : p3 = 0 := by exact_mod_cast c
        have d' : p2 = 0 := by omega
        simp [a', b', c', d'] at hx
        exact hx0 hx
      · refine unitVec_unit _ (mulVec_ne_zero hdet fun h0 => ?_)
        obtain ⟨a, b, c⟩ := three _ _ _ h0
        obtain ⟨x, hx, hx0⟩ := hd.1
        have hsum := hd.2 _ _ _ _ rfl
        have a' : d0 - d2 = 0 := by exact_mod_cast a
        have b' : d1 - d2 = 0 := by exact_mod_cast b
        have c' : d3 = 0 := by exact_mod_cast c
        have e0 : d0 = 0 := by omega
        have e1 : d1 = 0 := by omega
        have e2 : d2 = 0 := by omega
        simp [e0, e1, e2, c'] at hx
        exact hx0 hx
  | other => cases h

end DefDAP
