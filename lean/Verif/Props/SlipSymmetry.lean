import Verif.Props.FamiliesHex
import Verif.Props.SlipFiles
import Verif.Props.CrystalRotations

/-!
C129: Schmid factors, displacement ratios and slip traces do not depend on which of the symmetrically
equivalent orientations of a crystal is taken.
-/

namespace DefDAP

open Quat Matrix

/-! ### Indices up to sign -/

/-- The indices with positive first index, if not all are zero. -/
def canIdc (l : List Int) : List Int := (posIdc l).getD l

/-- What slip systems have to do with their indices, for all shipped files: `nrm` and `slp` make the
unit vectors, `V` is what a symmetry `M` of the crystal does to the indices. -/
structure IdcAction (rows : List (List Int × List Int)) (M : Matrix (Fin 3) (Fin 3) ℝ)
    (nrm slp : List Int → Fin 3 → ℝ) (V : List Int → List Int) : Prop where
  plane : ∀ r ∈ rows, Mᵀ *ᵥ nrm r.1 = nrm (V r.1)
  dir : ∀ r ∈ rows, Mᵀ *ᵥ slp r.2 = slp (V r.2)
  nrm_can : ∀ p, nrm (canIdc p) = nrm p ∨ nrm (canIdc p) = -nrm p
  slp_can : ∀ p, slp (canIdc p) = slp p ∨ slp (canIdc p) = -slp p
  perm : (rows.map fun r => (canIdc (V r.1), canIdc (V r.2))).Perm
    (rows.map fun r => (canIdc r.1, canIdc r.2))

theorem perm_of_action {rows : List (List Int × List Int)} {M : Matrix (Fin 3) (Fin 3) ℝ}
    {nrm slp : List Int → Fin 3 → ℝ} {V : List Int → List Int} (h : IdcAction rows M nrm slp V)
    {l : List SlipSystem} (hl : l.map (fun ss => (ss.planeIdc, ss.dirIdc)) = rows)
    (hn : ∀ ss ∈ l, ss.normal = nrm ss.planeIdc) (hs : ∀ ss ∈ l, ss.slip = slp ss.dirIdc)
    {α : Type} (f : (Fin 3 → ℝ) → (Fin 3 → ℝ) → α)
    (f1 : ∀ n s, f (-n) s = f n s) (f2 : ∀ n s, f n (-s) = f n s) :
    (l.map fun ss => f (Mᵀ *ᵥ ss.normal) (Mᵀ *ᵥ ss.slip)).Perm
      (l.map fun ss => f ss.normal ss.slip) := by
  have hcan : ∀ p d, f (nrm (canIdc p)) (slp (canIdc d)) = f (nrm p) (slp d) := by
    intro p d
    rcases h.nrm_can p with e | e <;> rcases h.slp_can d with e' | e' <;> rw [e, e'] <;>
      simp only [f1, f2]
  have e1 : (l.map fun ss => f (Mᵀ *ᵥ ss.normal) (Mᵀ *ᵥ ss.slip)) =
      (rows.map fun r => (canIdc (V r.1), canIdc (V r.2))).map fun r => f (nrm r.1) (slp r.2) := by
    rw [List.map_map, ← hl, List.map_map]
    refine List.map_congr_left fun ss hss => ?_
    have hr : (ss.planeIdc, ss.dirIdc) ∈ rows := hl ▸ List.mem_map.mpr ⟨ss, hss, rfl⟩
    simp only [Function.comp_apply, hcan]
    rw [hn ss hss, hs ss hss, h.plane _ hr, h.dir _ hr]
  have e2 : (l.map fun ss => f ss.normal ss.slip) =
      (rows.map fun r => (canIdc r.1, canIdc r.2)).map fun r => f (nrm r.1) (slp r.2) := by
    rw [List.map_map, ← hl, List.map_map]
    refine List.map_congr_left fun ss hss => ?_
    simp only [Function.comp_apply, hcan]
    rw [hn ss hss, hs ss hss]
  rw [e1, e2]
  exact h.perm.map _

theorem unitVec_rot (M : Matrix (Fin 3) (Fin 3) ℝ) (h : M * Mᵀ = 1) (v : Fin 3 → ℝ) :
    Mᵀ *ᵥ unitVec v = unitVec (Mᵀ *ᵥ v) := by
  have e : (Mᵀ *ᵥ v) ⬝ᵥ (Mᵀ *ᵥ v) = v ⬝ᵥ v := by
    rw [Matrix.dotProduct_mulVec, Matrix.vecMul_mulVec, Matrix.transpose_transpose, h,
      Matrix.vecMul_one]
  have e2 : ∀ w : Fin 3 → ℝ, unitVec w = (Real.sqrt (w ⬝ᵥ w))⁻¹ • w := by
    intro w; funext i; simp [unitVec, div_eq_inv_mul]
  rw [e2, e2, e, Matrix.mulVec_smul]

theorem canIdc_cases (l : List Int) : canIdc l = l ∨ canIdc l = Spec.opposite l := by
  unfold canIdc
  cases h : posIdc l with
  | none => exact Or.inl rfl
  | some w => exact (C50_canonical l w h).1

theorem perm_of_planes {rows : List (List Int)} {M : Matrix (Fin 3) (Fin 3) ℝ}
    {nrm : List Int → Fin 3 → ℝ} {V : List Int → List Int}
    (hp : ∀ r ∈ rows, Mᵀ *ᵥ nrm r = nrm (V r))
    (hc : ∀ p, nrm (canIdc p) = nrm p ∨ nrm (canIdc p) = -nrm p)
    (hperm : (rows.map fun r => canIdc (V r)).Perm (rows.map canIdc))
    {l : List SlipSystem} (hl : l.map (fun ss => ss.planeIdc) = rows)
    (hn : ∀ ss ∈ l, ss.normal = nrm ss.planeIdc)
    {α : Type} (f : (Fin 3 → ℝ) → α) (f1 : ∀ n, f (-n) = f n) :
    (l.map fun ss => f (Mᵀ *ᵥ ss.normal)).Perm (l.map fun ss => f ss.normal) := by
  have hcan : ∀ p, f (nrm (canIdc p)) = f (nrm p) := by
    intro p
    rcases hc p with e | e <;> rw [e]
    exact f1 _
  have e1 : (l.map fun ss => f (Mᵀ *ᵥ ss.normal)) =
      (rows.map fun r => canIdc (V r)).map fun r => f (nrm r) := by
    rw [List.map_map, ← hl, List.map_map]
    refine List.map_congr_left fun ss hss => ?_
    have hr : ss.planeIdc ∈ rows := hl ▸ List.mem_map.mpr ⟨ss, hss, rfl⟩
    simp only [Function.comp_apply, hcan]
    rw [hn ss hss, hp _ hr]
  have e2 : (l.map fun ss => f ss.normal) = (rows.map canIdc).map fun r => f (nrm r) := by
    rw [List.map_map, ← hl, List.map_map]
    refine List.map_congr_left fun ss hss => ?_
    simp only [Function.comp_apply, hcan]
    rw [hn ss hss]
  rw [e1, e2]
  exact hperm.map _

/-! ### Cubic crystals -/

/-- Three indices as a vector. -/
def idcFun (l : List Int) : Fin 3 → Int := fun i => l.getD i 0

/-- The unit vector of three indices. -/
noncomputable def cubicVec (l : List Int) : Fin 3 → ℝ := unitVec fun i => (idcFun l i : ℝ)

/-- What a signed permutation of the axes does to three indices. -/
def cubicIdc (σ : Equiv.Perm (Fin 3)) (ε : Fin 3 → Bool) (l : List Int) : List Int :=
  Spec.idc (Spec.variant σ ε (idcFun l))

theorem idcFun_idc (v : Fin 3 → Int) : idcFun (Spec.idc v) = v := by
  funext i
  fin_cases i <;> rfl

theorem idcFun_opposite (l : List Int) : idcFun (Spec.opposite l) = -idcFun l := by
  funext i
  simp only [idcFun, Spec.opposite, Pi.neg_apply]
  rw [List.getD_eq_getElem?_getD, List.getD_eq_getElem?_getD, List.getElem?_map]
  cases l[(i : Nat)]? <;> simp

theorem cubicVec_can (p : List Int) :
    cubicVec (canIdc p) = cubicVec p ∨ cubicVec (canIdc p) = -cubicVec p := by
  rcases canIdc_cases p with e | e
  · exact Or.inl (by rw [e])
  · right
    rw [e]
    unfold cubicVec
    rw [idcFun_opposite, ← unitVec_neg]
    congr 1
    funext i
    simp

theorem cubicVec_act {q : Quat (Surd 2)} {σ : Equiv.Perm (Fin 3)} {ε : Fin 3 → Bool}
    (hq : q.real.IsUnit)
    (h : ∀ i j, exactRotT q i j = surdInt (if j = σ i then Spec.sgn (ε i) else 0)) (l : List Int) :
    (rotMatrix q.real)ᵀ *ᵥ cubicVec l = cubicVec (cubicIdc σ ε l) := by
  unfold cubicVec cubicIdc
  rw [unitVec_rot _ (C36_rotation _ hq).1, idcFun_idc]
  congr 1
  rw [← conj_matrix]
  have := signed_apply h (idcFun l)
  simp only [vecList, Spec.idc, List.map_cons, List.map_nil, List.cons.injEq, and_true] at this
  funext i
  fin_cases i
  · exact this.1
  · exact this.2.1
  · exact this.2.2

theorem cubic_system {dflt : String} {ca : Option ℝ} {ss : SlipSystem}
    (h : slipSystem dflt .cubic ss.planeIdc ss.dirIdc ca = .ok ss) :
    ss.normal = cubicVec ss.planeIdc ∧ ss.slip = cubicVec ss.dirIdc := by
  obtain ⟨-, -, a, b, c, u, v, w, e1, e2, e3, e4⟩ := slipSystem_cubic _ _ _ _ _ h
  constructor
  · rw [e3, e1]
    unfold cubicVec
    congr 1
    funext i
    fin_cases i <;> rfl
  · rw [e4, e2]
    unfold cubicVec
    congr 1
    funext i
    fin_cases i <;> rfl

/-! ### Hexagonal crystals -/

/-- Four indices as a vector of three and one. -/
def idcPair (l : List Int) : (Fin 3 → Int) × Int := (fun i => l.getD i 0, l.getD 3 0)

/-- The unit normal of a plane. -/
noncomputable def hexPlaneVec (b : Bool) (ca : ℝ) (l : List Int) : Fin 3 → ℝ :=
  unitVec (createQ (hexMat b ca) *ᵥ
    ![((idcPair l).1 0 : ℝ), ((idcPair l).1 1 : ℝ), ((idcPair l).2 : ℝ)])

/-- The unit vector of a direction. -/
noncomputable def hexDirVec (b : Bool) (ca : ℝ) (l : List Int) : Fin 3 → ℝ :=
  unitVec (hexMat b ca *ᵥ ![((idcPair l).1 0 : ℝ) - (idcPair l).1 2,
    ((idcPair l).1 1 : ℝ) - (idcPair l).1 2, ((idcPair l).2 : ℝ)])

/-- What a symmetry of the prism does to four indices. -/
def hexIdc (σ : Equiv.Perm (Fin 3)) (s t : Bool) (l : List Int) : List Int :=
  Spec.idc4 (Spec.hexVariant σ s t (idcPair l))

theorem idcPair_idc4 (v : (Fin 3 → Int) × Int) : idcPair (Spec.idc4 v) = v := by
  refine Prod.ext ?_ rfl
  funext i
  fin_cases i <;> rfl

theorem idcPair_opposite (l : List Int) : idcPair (Spec.opposite l) = negIdc (idcPair l) := by
  have e : ∀ i : Nat, (Spec.opposite l).getD i 0 = -l.getD i 0 := by
    intro i
    simp only [Spec.opposite]
    rw [List.getD_eq_getElem?_getD, List.getD_eq_getElem?_getD, List.getElem?_map]
    cases l[i]? <;> simp
  refine Prod.ext ?_ (e 3)
  funext i
  exact e i

theorem hexPlaneVec_can (b : Bool) (ca : ℝ) (p : List Int) :
    hexPlaneVec b ca (canIdc p) = hexPlaneVec b ca p ∨
      hexPlaneVec b ca (canIdc p) = -hexPlaneVec b ca p := by
  rcases canIdc_cases p with e | e
  · exact Or.inl (by rw [e])
  · right
    rw [e]
    unfold hexPlaneVec
    rw [idcPair_opposite, ← unitVec_neg, ← Matrix.mulVec_neg]
    congr 2
    funext i
    fin_cases i <;> simp [negIdc]

theorem hexDirVec_can (b : Bool) (ca : ℝ) (p : List Int) :
    hexDirVec b ca (canIdc p) = hexDirVec b ca p ∨
      hexDirVec b ca (canIdc p) = -hexDirVec b ca p := by
  rcases canIdc_cases p with e | e
  · exact Or.inl (by rw [e])
  · right
    rw [e]
    unfold hexDirVec
    rw [idcPair_opposite, ← unitVec_neg, ← Matrix.mulVec_neg]
    congr 2
    funext i
    fin_cases i <;> simp [negIdc] <;> ring

section
variable {b : Bool} {q : Quat (Surd 3)} {σ : Equiv.Perm (Fin 3)} {s t : Bool}

theorem mat_inverse {b : Bool} {ca : ℝ} (hca : 0 < ca) (v : Fin 3 → ℝ) :
    createQ (hexMat b ca) *ᵥ ((hexMat b ca)ᵀ *ᵥ v) = v ∧
      hexMat b ca *ᵥ ((createQ (hexMat b ca))ᵀ *ᵥ v) = v := by
  have h := (C48_dual _ (hexMat_det b ca hca)).1
  have h2 := mul_eq_one_comm.mp h
  constructor
  · rw [Matrix.mulVec_mulVec]
    have := congrArg Matrix.transpose h2
    rw [Matrix.transpose_mul, Matrix.transpose_transpose, Matrix.transpose_one] at this
    rw [this, Matrix.one_mulVec]
  · rw [Matrix.mulVec_mulVec, h2, Matrix.one_mulVec]

theorem hexPlaneVec_act (hq : q.real.IsUnit) (h : HexAction b q σ s t) {ca : ℝ} (hca : 0 < ca)
    (l : List Int) (hl : (idcPair l).1 0 + (idcPair l).1 1 + (idcPair l).1 2 = 0) :
    (rotMatrix q.real)ᵀ *ᵥ hexPlaneVec b ca l = hexPlaneVec b ca (hexIdc σ s t l) := by
  unfold hexPlaneVec hexIdc
  rw [unitVec_rot _ (C36_rotation _ hq).1, idcPair_idc4]
  congr 1
  rw [← hex_plane h hca _ hl, (mat_inverse hca _).1, conj_matrix]

theorem hexDirVec_act (hq : q.real.IsUnit) (h : HexAction b q σ s t) {ca : ℝ} (hca : 0 < ca)
    (l : List Int) :
    (rotMatrix q.real)ᵀ *ᵥ hexDirVec b ca l = hexDirVec b ca (hexIdc σ s t l) := by
  unfold hexDirVec hexIdc
  rw [unitVec_rot _ (C36_rotation _ hq).1, idcPair_idc4]
  congr 1
  rw [← hex_dir h hca, (mat_inverse hca _).2, conj_matrix]

end

theorem hex_system {dflt : String} {ca : ℝ} {b : Bool} (hl : hexL dflt ca = .ok (hexMat b ca))
    {ss : SlipSystem} (hp : ss.planeIdc.length = 4) (hd : ss.dirIdc.length = 4)
    (h : slipSystem dflt .hexagonal ss.planeIdc ss.dirIdc (some ca) = .ok ss) :
    ss.normal = hexPlaneVec b ca ss.planeIdc ∧ ss.slip = hexDirVec b ca ss.dirIdc := by
  rcases e1 : ss.planeIdc with _ | ⟨p0, _ | ⟨p1, _ | ⟨p2, _ | ⟨p3, _ | ⟨p4, pt⟩⟩⟩⟩⟩ <;>
    simp [e1] at hp
  rcases e2 : ss.dirIdc with _ | ⟨d0, _ | ⟨d1, _ | ⟨d2, _ | ⟨d3, _ | ⟨d4, dt⟩⟩⟩⟩⟩ <;>
    simp [e2] at hd
  rw [e1, e2] at h
  have hne : ¬ ("mb" = "m") := by decide
  unfold slipSystem at h
  simp only [convertIdc, convertPlane, convertDir, mb_lower, asReals, List.map_cons,
    List.map_nil, if_neg hne, if_true, Except.bind, hl, matVec, Except.ok.injEq] at h
  constructor
  · exact (congrArg SlipSystem.normal h).symm
  · exact (congrArg SlipSystem.slip h).symm

/-! ### Loaded files -/

/-- What follows from the action on indices, for the slip systems of a file. -/
structure FileSymmetric (gs : List (List SlipSystem)) (M : Matrix (Fin 3) (Fin 3) ℝ) : Prop where
  nonempty : ∀ g ∈ gs, g ≠ []
  systems : ∀ f : (Fin 3 → ℝ) → (Fin 3 → ℝ) → ℝ, (∀ n s, f (-n) s = f n s) →
    (∀ n s, f n (-s) = f n s) →
    (gs.flatten.map fun ss => f (Mᵀ *ᵥ ss.normal) (Mᵀ *ᵥ ss.slip)).Perm
      (gs.flatten.map fun ss => f ss.normal ss.slip)
  planes : ∀ f : (Fin 3 → ℝ) → ℝ × ℝ, (∀ n, f (-n) = f n) →
    ((gs.filterMap List.head?).map fun ss => f (Mᵀ *ᵥ ss.normal)).Perm
      ((gs.filterMap List.head?).map fun ss => f ss.normal)

/-- The numbers of a file as planes and directions. -/
def fileIdc (n : Nat) (file : SlipFile) : List (List Int × List Int) :=
  file.rows.map fun row => (row.take n, row.drop n)

/-- The first plane of each group. -/
def filePlanes (n : Nat) (file : SlipFile) : List (List Int) :=
  (((fileIdc n file).map Prod.fst).tail.foldl (fun gs p => groupIdx p gs)
    [[((fileIdc n file).map Prod.fst).headD []]]).filterMap List.head?

theorem groupPlane_planes (l : List SlipSystem) (gs : List (List SlipSystem))
    (h : groupPlane l = .ok gs) (ps : List (List Int)) (hp : l.map (·.planeIdc) = ps) :
    gs.map (fun g => g.map (·.planeIdc)) =
      ps.tail.foldl (fun gs p => groupIdx p gs) [[ps.headD []]] := by
  cases l with
  | nil => cases h
  | cons s t =>
    unfold groupPlane at h
    cases h
    subst hp
    have gen : ∀ (t : List SlipSystem) (gs : List (List SlipSystem)),
        (t.foldl (fun gs ss => groupInsert ss gs) gs).map (fun g => g.map (·.planeIdc)) =
          (t.map (·.planeIdc)).foldl (fun gs p => groupIdx p gs)
            (gs.map fun g => g.map (·.planeIdc)) := by
      intro t
      induction t with
      | nil => intro gs; rfl
      | cons a t ih =>
        intro gs
        rw [List.foldl_cons, ih, groupInsert_idx, List.map_cons, List.foldl_cons]
    simpa using gen t [[s]]

theorem heads_map (gs : List (List SlipSystem)) :
    (gs.filterMap List.head?).map (·.planeIdc) =
      (gs.map fun g => g.map (·.planeIdc)).filterMap List.head? := by
  induction gs with
  | nil => rfl
  | cons g gs ih =>
    cases g with
    | nil =>
      simp only [List.map_cons, List.map_nil, List.filterMap_cons, List.head?_nil]
      exact ih
    | cons a g =>
      simp only [List.map_cons, List.filterMap_cons, List.head?_cons, ih]

theorem file_symmetric {dflt : String} {cs : CrystalName} {ca : Option ℝ}
    (hld : Spec.Loadable dflt cs ca) {file : SlipFile} (h2 : 2 ≤ file.rows.length)
    (hr : ∀ row ∈ file.rows, row.length = 2 * Spec.indexCount cs)
    {gs : List (List SlipSystem)} {cols : List String}
    (h : loadSlip dflt cs ca file = .ok (gs, cols)) {M : Matrix (Fin 3) (Fin 3) ℝ}
    {nrm slp : List Int → Fin 3 → ℝ} {V : List Int → List Int}
    (ha : IdcAction (fileIdc (Spec.indexCount cs) file) M nrm slp V)
    (hpl : ((filePlanes (Spec.indexCount cs) file).map fun r => canIdc (V r)).Perm
      ((filePlanes (Spec.indexCount cs) file).map canIdc))
    (hss : ∀ ss : SlipSystem, (ss.planeIdc, ss.dirIdc) ∈ fileIdc (Spec.indexCount cs) file →
      slipSystem dflt cs ss.planeIdc ss.dirIdc ca = .ok ss →
      ss.normal = nrm ss.planeIdc ∧ ss.slip = slp ss.dirIdc) :
    FileSymmetric gs M := by
  obtain ⟨l, gs', h1, hg, h3, h4⟩ := loadSlip_ok dflt cs ca hld file h2 hr
  rw [h] at h1
  obtain rfl : gs = gs' := (Prod.mk.inj (Except.ok.inj h1)).1
  have hperm := (C55_partition l gs hg).1
  have hmem : ∀ ss ∈ l, (ss.planeIdc, ss.dirIdc) ∈ fileIdc (Spec.indexCount cs) file := by
    intro ss hss'
    unfold fileIdc
    rw [← h3]
    exact List.mem_map.mpr ⟨ss, hss', rfl⟩
  have hn : ∀ ss ∈ l, ss.normal = nrm ss.planeIdc := fun ss m => (hss ss (hmem ss m) (h4 ss m)).1
  have hs : ∀ ss ∈ l, ss.slip = slp ss.dirIdc := fun ss m => (hss ss (hmem ss m) (h4 ss m)).2
  refine ⟨fun g hg' => ((C55_partition l gs hg).2.1 g hg').1, ?_, ?_⟩
  · intro f f1 f2
    exact ((hperm.map _).trans (perm_of_action ha h3 hn hs f f1 f2)).trans (hperm.map _).symm
  · intro f f1
    have hhead : ∀ ss ∈ gs.filterMap List.head?, ss ∈ l := by
      intro ss hss'
      obtain ⟨g, hgm, hgh⟩ := List.mem_filterMap.mp hss'
      exact hperm.mem_iff.mp (List.mem_flatten.mpr ⟨g, hgm, List.mem_of_head? hgh⟩)
    have hpi : l.map (·.planeIdc) = (fileIdc (Spec.indexCount cs) file).map Prod.fst := by
      unfold fileIdc
      rw [← h3, List.map_map]
      rfl
    have hh : (gs.filterMap List.head?).map (fun ss => ss.planeIdc) =
        filePlanes (Spec.indexCount cs) file := by
      rw [heads_map, groupPlane_planes l gs hg _ hpi]
      rfl
    refine perm_of_planes ?_ ha.nrm_can hpl hh (fun ss m => hn ss (hhead ss m)) f f1
    intro r hr'
    rw [← hh] at hr'
    obtain ⟨ss, m, rfl⟩ := List.mem_map.mp hr'
    exact ha.plane _ (hmem ss (hhead ss m))

theorem fcc_perm : ∀ rows ∈ [fccFile.rows, fccDamaskFile.rows, bcc110File.rows],
    ∀ σ : Equiv.Perm (Fin 3), ∀ ε : Fin 3 → Bool,
    ((fileIdc 3 ⟨[], rows⟩).map fun r => (canIdc (cubicIdc σ ε r.1), canIdc (cubicIdc σ ε r.2))).Perm
      ((fileIdc 3 ⟨[], rows⟩).map fun r => (canIdc r.1, canIdc r.2)) ∧
    ((filePlanes 3 ⟨[], rows⟩).map fun r => canIdc (cubicIdc σ ε r)).Perm
      ((filePlanes 3 ⟨[], rows⟩).map canIdc) := by
  decide +kernel

theorem hex_perm : ∀ rows ∈ [hexNocaFile.rows, hexWithcaFile.rows],
    ∀ σ : Equiv.Perm (Fin 3), ∀ s t : Bool,
    ((fileIdc 4 ⟨[], rows⟩).map fun r => (canIdc (hexIdc σ s t r.1), canIdc (hexIdc σ s t r.2))).Perm
      ((fileIdc 4 ⟨[], rows⟩).map fun r => (canIdc r.1, canIdc r.2)) ∧
    ((filePlanes 4 ⟨[], rows⟩).map fun r => canIdc (hexIdc σ s t r)).Perm
      ((filePlanes 4 ⟨[], rows⟩).map canIdc) := by
  decide +kernel

/-- The files and crystal structures they are made for, all but `cubic_bcc`. -/
def symmetricFiles : List (CrystalName × SlipFile) :=
  [(.cubic, fccFile), (.cubic, fccDamaskFile), (.cubic, bcc110File), (.hexagonal, hexNocaFile),
    (.hexagonal, hexWithcaFile)]

/-- A rotation of the crystal into itself. -/
def Spec.StructureRotation (cs : CrystalName) (S : Matrix (Fin 3) (Fin 3) ℝ) : Prop :=
  (cs = .cubic ∧ Spec.CubeRotation S) ∨ (cs = .hexagonal ∧ Spec.PrismRotation S)

theorem symmetric_of_files {dflt : String} {ca : Option ℝ} {cs : CrystalName} {file : SlipFile}
    (hld : Spec.Loadable dflt cs ca) (hf : (cs, file) ∈ symmetricFiles)
    {gs : List (List SlipSystem)} {cols : List String}
    (h : loadSlip dflt cs ca file = .ok (gs, cols)) {S : Matrix (Fin 3) (Fin 3) ℝ}
    (hS : Spec.StructureRotation cs S) : FileSymmetric gs S := by
  rcases hS with ⟨rfl, hS⟩ | ⟨rfl, hS⟩
  · obtain ⟨s, hs, rfl⟩ := (C39_cube S).mp hS
    have hu := (symEqv_table .cubic).unit s hs
    obtain ⟨q, hq, rfl⟩ := List.mem_map.mp hs
    obtain ⟨σ, ε, hact⟩ := cubic_signed q hq
    have hrow : file.rows ∈ [fccFile.rows, fccDamaskFile.rows, bcc110File.rows] := by
      simp only [symmetricFiles, List.mem_cons, Prod.mk.injEq, List.not_mem_nil, or_false, true_and,
        reduceCtorEq, false_and] at hf
      rcases hf with rfl | rfl | rfl <;> simp
    have hp : ∀ rows ∈ [fccFile.rows, fccDamaskFile.rows, bcc110File.rows],
        2 ≤ rows.length ∧ (∀ row ∈ rows, row.length = 2 * Spec.indexCount .cubic) := by
      decide +kernel
    have hperm := fcc_perm (file.rows) hrow σ ε
    refine file_symmetric hld (hp _ hrow).1 (hp _ hrow).2 h
      (nrm := cubicVec) (slp := cubicVec) (V := cubicIdc σ ε)
      ⟨fun r _ => cubicVec_act hu hact _, fun r _ => cubicVec_act hu hact _, cubicVec_can,
        cubicVec_can, hperm.1⟩ hperm.2 fun ss _ hss => cubic_system hss
  · obtain ⟨hv, r, rfl, hr⟩ : (dflt.toLower = "hkl" ∨ dflt.toLower = "oi" ∨ dflt.toLower = "tsl") ∧
        ∃ r, ca = some r ∧ 1 / 10 ^ 10 ≤ r := by
      rcases hld with h | ⟨-, h⟩
      · cases h
      · exact h
    obtain ⟨s, hs, rfl⟩ := (C39_prism S).mp hS
    have hu := (symEqv_table .hexagonal).unit s hs
    obtain ⟨q, hq, rfl⟩ := List.mem_map.mp hs
    obtain ⟨b, hb⟩ := hexL_mat dflt r hr hv
    obtain ⟨σ, s, t, hact⟩ := hex_signed b q hq
    have hpos : 0 < r := lt_of_lt_of_le (by norm_num) hr
    have hrow : file.rows ∈ [hexNocaFile.rows, hexWithcaFile.rows] := by
      simp only [symmetricFiles, List.mem_cons, Prod.mk.injEq, List.not_mem_nil, or_false, true_and,
        reduceCtorEq, false_and, false_or] at hf
      rcases hf with rfl | rfl <;> simp
    have hp : ∀ rows ∈ [hexNocaFile.rows, hexWithcaFile.rows],
        2 ≤ rows.length ∧ (∀ row ∈ rows, row.length = 2 * Spec.indexCount .hexagonal) ∧
        ∀ r ∈ fileIdc 4 ⟨[], rows⟩, r.1.length = 4 ∧ r.2.length = 4 ∧
          (idcPair r.1).1 0 + (idcPair r.1).1 1 + (idcPair r.1).1 2 = 0 := by
      decide +kernel
    have hperm := hex_perm (file.rows) hrow σ s t
    refine file_symmetric hld (hp _ hrow).1 (hp _ hrow).2.1 h
      (nrm := hexPlaneVec b r) (slp := hexDirVec b r) (V := hexIdc σ s t)
      ⟨fun x hx => hexPlaneVec_act hu hact hpos _ ((hp _ hrow).2.2 x hx).2.2,
        fun x _ => hexDirVec_act hu hact hpos _, hexPlaneVec_can b r, hexDirVec_can b r, hperm.1⟩
      hperm.2 fun ss hm hss => hex_system hb ((hp _ hrow).2.2 _ hm).1 ((hp _ hrow).2.2 _ hm).2.1 hss

/-! ### The property -/

section
variable {dflt : String} {ca : Option ℝ} {cs : CrystalName} {file : SlipFile}
  {gs : List (List SlipSystem)} {cols : List String} {S : Matrix (Fin 3) (Fin 3) ℝ}
  {ori ori' : Quat ℝ}

theorem rot_dotT (M : Matrix (Fin 3) (Fin 3) ℝ) (v w : Fin 3 → ℝ) :
    (M *ᵥ v) ⬝ᵥ w = v ⬝ᵥ (Mᵀ *ᵥ w) := by
  rw [Matrix.mulVec_transpose, dotProduct_comm, Matrix.dotProduct_mulVec, dotProduct_comm]

/-- **C129** Take two orientations, the second one the first followed by a rotation of the crystal into
itself. With the slip systems of a shipped file other than `cubic_bcc`, they have the same Schmid
factors for every load, up to order. -/
theorem C129_schmid (hld : Spec.Loadable dflt cs ca) (hf : (cs, file) ∈ symmetricFiles)
    (h : loadSlip dflt cs ca file = .ok (gs, cols)) (hS : Spec.StructureRotation cs S)
    (hn : ori.North) (hn' : ori'.North) (heq : rotMatrix ori' = S * rotMatrix ori)
    (load : Fin 3 → ℝ) :
    (schmidFactors ori' load gs).flatten.Perm (schmidFactors ori load gs).flatten := by
  have hsym := symmetric_of_files hld hf h hS
  unfold schmidFactors
  rw [← List.map_flatten, ← List.map_flatten, transform_matrix _ hn', transform_matrix _ hn, heq,
    ← Matrix.mulVec_mulVec]
  have key := hsym.systems (fun n s => |((rotMatrix ori *ᵥ load) ⬝ᵥ n) * ((rotMatrix ori *ᵥ load) ⬝ᵥ s)|)
    (fun n s => by simp only [dotProduct_neg, neg_mul, abs_neg])
    (fun n s => by simp only [dotProduct_neg, mul_neg, abs_neg])
  refine List.Perm.trans (List.Perm.of_eq ?_) key
  refine List.map_congr_left fun ss _ => ?_
  simp only [schmidFactor, rot_dotT]

theorem listMax_perm {l l' : List ℝ} (h : l.Perm l') : listMax l = listMax l' := by
  have key : ∀ {l l' : List ℝ}, l.Perm l' → ∀ m, listMax l = .ok m → listMax l' = .ok m := by
    intro l l' h m hm
    rw [listMax_spec] at hm ⊢
    exact ⟨h.mem_iff.mp hm.1, fun x hx => hm.2 x (h.mem_iff.mpr hx)⟩
  cases e : listMax l with
  | ok m => exact (key h m e).symm
  | error x =>
    cases l with
    | nil => rw [List.nil_perm.mp h, ← e]
    | cons a t => cases e

/-- So the largest Schmid factor, the value a map of Schmid factors shows, is the same. -/
theorem C129_largest (hld : Spec.Loadable dflt cs ca) (hf : (cs, file) ∈ symmetricFiles)
    (h : loadSlip dflt cs ca file = .ok (gs, cols)) (hS : Spec.StructureRotation cs S)
    (hn : ori.North) (hn' : ori'.North) (heq : rotMatrix ori' = S * rotMatrix ori)
    (load : Fin 3 → ℝ) :
    maxSchmid (schmidFactors ori' load gs) none none =
      maxSchmid (schmidFactors ori load gs) none none :=
  listMax_perm (C129_schmid hld hf h hS hn hn' heq load)

/-- They have the same displacement ratios, up to order, if these are finite: no slip direction is
perpendicular to the y axis of the map. -/
theorem C129_ratios (hld : Spec.Loadable dflt cs ca) (hf : (cs, file) ∈ symmetricFiles)
    (h : loadSlip dflt cs ca file = .ok (gs, cols)) (hS : Spec.StructureRotation cs S)
    (heq : rotMatrix ori' = S * rotMatrix ori)
    (_ : ∀ ss ∈ gs.flatten, transformVector (conjugate ori) ss.slip 1 ≠ 0) :
    (grainRdr ori' gs).flatten.Perm (grainRdr ori gs).flatten := by
  have hsym := symmetric_of_files hld hf h hS
  unfold grainRdr
  rw [← List.map_flatten, ← List.map_flatten]
  have key := hsym.systems (fun _ s => -(((rotMatrix ori)ᵀ *ᵥ s) 0) / ((rotMatrix ori)ᵀ *ᵥ s) 1)
    (fun n s => rfl)
    (fun n s => by simp only [Matrix.mulVec_neg, Pi.neg_apply, neg_div_neg_eq, neg_neg, neg_div, div_neg])
  refine List.Perm.trans (List.Perm.of_eq ?_) (key.trans (List.Perm.of_eq ?_))
  · refine List.map_congr_left fun ss _ => ?_
    simp only [conj_matrix, heq, Matrix.transpose_mul, ← Matrix.mulVec_mulVec]
  · refine List.map_congr_left fun ss _ => ?_
    simp only [conj_matrix]

/-- The angle of a line: 180 degrees is 0 degrees. -/
noncomputable def Spec.asLine (a : ℝ × ℝ) : ℝ × ℝ :=
  open Classical in (if a.1 = Real.pi then 0 else a.1, a.2)

theorem slipTrace_sample (ho : ori.IsUnit) (hn : ori.North) (ho' : ori'.IsUnit) (hn' : ori'.North)
    {n n' : Fin 3 → ℝ} (h : Spec.sampleNormal ori n = Spec.sampleNormal ori' n') :
    slipTrace ori n = slipTrace ori' n' := by
  obtain ⟨h1, h2⟩ := transform_north_z ori ho hn n
  obtain ⟨h1', h2'⟩ := transform_north_z ori' ho' hn' n'
  unfold slipTrace
  simp only [h1, h2, h1', h2', h]

theorem slipTrace_neg (ho : ori.IsUnit) (hn : ori.North) (n : Fin 3 → ℝ) :
    Spec.asLine (slipTrace ori (-n)) = Spec.asLine (slipTrace ori n) := by
  have hneg : Spec.sampleNormal ori (-n) = -Spec.sampleNormal ori n := by
    unfold Spec.sampleNormal
    rw [conj_matrix, conj_matrix, Matrix.mulVec_neg]
  have hi : (slipTrace ori (-n)).2 = (slipTrace ori n).2 := by
    obtain ⟨h1, -⟩ := transform_north_z ori ho hn n
    obtain ⟨h1', -⟩ := transform_north_z ori ho hn (-n)
    unfold slipTrace
    simp only [h1, h1', hneg, Pi.neg_apply, Real.arccos_neg]
    generalize Real.arccos (Spec.sampleNormal ori n 2) = x
    split_ifs <;> linarith
  by_cases hp : Spec.sampleNormal ori n 0 ≠ 0 ∨ Spec.sampleNormal ori n 1 ≠ 0
  · have hp' : Spec.sampleNormal ori (-n) 0 ≠ 0 ∨ Spec.sampleNormal ori (-n) 1 ≠ 0 := by
      rw [hneg]; simpa using hp
    obtain ⟨p1, p2, -, p4⟩ := C59_trace ori ho hn n hp
    obtain ⟨q1, q2, q3, -⟩ := C59_trace ori ho hn (-n) hp'
    rw [hneg, dotProduct_neg, neg_eq_zero] at q3
    obtain ⟨k, hk⟩ := p4 _ q3
    have hpi := Real.pi_pos
    have hk1 : k < 2 := by
      have : (k : ℝ) < 2 := by
        by_contra h
        nlinarith [not_lt.1 h]
      exact_mod_cast this
    have hk2 : -2 < k := by
      have : (-2 : ℝ) < k := by
        by_contra h
        nlinarith [not_lt.1 h]
      exact_mod_cast this
    have : k = -1 ∨ k = 0 ∨ k = 1 := by omega
    unfold Spec.asLine
    rw [hi]
    rcases this with rfl | rfl | rfl
    · push_cast at hk
      have e1 : (slipTrace ori n).1 = Real.pi := by linarith
      have e2 : (slipTrace ori (-n)).1 = 0 := by linarith
      rw [e1, e2, if_pos rfl, if_neg (ne_of_lt hpi)]
    · push_cast at hk
      have e1 : (slipTrace ori (-n)).1 = (slipTrace ori n).1 := by linarith
      rw [e1]
    · push_cast at hk
      have e1 : (slipTrace ori n).1 = 0 := by linarith
      have e2 : (slipTrace ori (-n)).1 = Real.pi := by linarith
      rw [e1, e2, if_pos rfl, if_neg (ne_of_lt hpi)]
  · push Not at hp
    obtain ⟨-, h2⟩ := transform_north_z ori ho hn n
    obtain ⟨-, h2'⟩ := transform_north_z ori ho hn (-n)
    have e : (slipTrace ori (-n)).1 = (slipTrace ori n).1 := by
      unfold slipTrace
      simp only [h2, h2', hneg, Pi.neg_apply, hp.1, hp.2, neg_zero]
    unfold Spec.asLine
    rw [e, hi]

theorem slipTraces_heads (ori : Quat ℝ) (gs : List (List SlipSystem)) (hne : ∀ g ∈ gs, g ≠ []) :
    slipTraces ori gs = .ok ((gs.filterMap List.head?).map fun ss => slipTrace ori ss.normal) := by
  induction gs with
  | nil => rfl
  | cons g gs ih =>
    cases g with
    | nil => exact absurd rfl (hne [] (List.mem_cons_self ..))
    | cons s t =>
      have := ih fun x hx => hne x (List.mem_cons_of_mem _ hx)
      unfold slipTraces at this ⊢
      rw [List.mapM_cons, this]
      rfl

/-- They have the same slip traces: the lines in the surface and the inclinations of the slip planes
are the same, up to order. -/
theorem C129_traces (hld : Spec.Loadable dflt cs ca) (hf : (cs, file) ∈ symmetricFiles)
    (h : loadSlip dflt cs ca file = .ok (gs, cols)) (hS : Spec.StructureRotation cs S)
    (ho : ori.IsUnit) (hn : ori.North) (ho' : ori'.IsUnit) (hn' : ori'.North)
    (heq : rotMatrix ori' = S * rotMatrix ori) :
    ∃ t t', slipTraces ori gs = .ok t ∧ slipTraces ori' gs = .ok t' ∧ t.length = gs.length ∧
      (t'.map Spec.asLine).Perm (t.map Spec.asLine) := by
  have hsym := symmetric_of_files hld hf h hS
  have hne := hsym.nonempty
  refine ⟨_, _, slipTraces_heads ori gs hne, slipTraces_heads ori' gs hne, ?_, ?_⟩
  · have : ∀ gs : List (List SlipSystem), (∀ g ∈ gs, g ≠ []) →
        (gs.filterMap List.head?).length = gs.length := by
      intro gs hg
      induction gs with
      | nil => rfl
      | cons g gs ih =>
        cases g with
        | nil => exact absurd rfl (hg [] (List.mem_cons_self ..))
        | cons a g =>
          rw [List.filterMap_cons, List.head?_cons]
          simp only [List.length_cons, ih fun x hx => hg x (List.mem_cons_of_mem _ hx)]
    rw [List.length_map, this gs hne]
  · have key := hsym.planes (fun n => Spec.asLine (slipTrace ori n)) (slipTrace_neg ho hn)
    rw [List.map_map, List.map_map]
    refine List.Perm.trans (List.Perm.of_eq ?_) key
    refine List.map_congr_left fun ss _ => ?_
    simp only [Function.comp_apply]
    rw [slipTrace_sample ho' hn' ho hn]
    unfold Spec.sampleNormal
    rw [conj_matrix, conj_matrix, heq, Matrix.transpose_mul, Matrix.mulVec_mulVec]

end

/-! ### The exceptions -/

/-- A quarter turn about an edge of the cube. -/
noncomputable def edgeTurn : Quat ℝ := (⟨sr, s0, s0, sr⟩ : Quat (Surd 2)).real

theorem edgeTurn_mem : edgeTurn ∈ symEqv .cubic :=
  List.mem_map.mpr ⟨_, by decide +kernel, rfl⟩

theorem edgeTurn_matrix : rotMatrix edgeTurn = !![0, -1, 0; 1, 0, 0; 0, 0, 1] := by
  have h0 : (s0 : Surd 2).real = 0 := real_s0
  have hr : (sr : Surd 2).real = Real.sqrt 2 / 2 := real_sr
  have h2 : Real.sqrt 2 * Real.sqrt 2 = 2 := Real.mul_self_sqrt (by norm_num)
  ext i j
  fin_cases i <;> fin_cases j <;>
    simp [edgeTurn, rotMatrix, Quat.real, h0, hr] <;> nlinarith

theorem one_matrix : rotMatrix (⟨1, 0, 0, 0⟩ : Quat ℝ) = 1 := by
  ext i j
  fin_cases i <;> fin_cases j <;> simp [rotMatrix]

theorem edgeTurn_cube : Spec.CubeRotation (rotMatrix edgeTurn) :=
  (C39_cube _).mpr ⟨_, edgeTurn_mem, rfl⟩

/-- The product of three indices. -/
def idcDot (p d : List Int) : Int := idcFun p 0 * idcFun d 0 + idcFun p 1 * idcFun d 1 + idcFun p 2 * idcFun d 2

/-- A Schmid factor in cubic crystals, from integers. -/
theorem cubic_factor (L p d : List Int) :
    |(cubicVec L ⬝ᵥ cubicVec p) * (cubicVec L ⬝ᵥ cubicVec d)| =
      |((idcDot L p * idcDot L d : Int) : ℝ)| /
        ((idcDot L L : ℝ) * (Real.sqrt (idcDot p p : ℝ) * Real.sqrt (idcDot d d : ℝ))) := by
  have e : ∀ a b : List Int, (fun i => (idcFun a i : ℝ)) ⬝ᵥ (fun i => (idcFun b i : ℝ)) =
      (idcDot a b : ℝ) := by
    intro a b
    simp [dotProduct, Fin.sum_univ_three, idcDot]
  have hL : 0 ≤ (idcDot L L : ℝ) := by
    rw [← e]
    simp only [dotProduct, Fin.sum_univ_three]
    exact add_nonneg (add_nonneg (mul_self_nonneg _) (mul_self_nonneg _)) (mul_self_nonneg _)
  have hs := Real.mul_self_sqrt hL
  unfold cubicVec
  rw [unitVec_dot, unitVec_dot, e, e, e, e, e, div_mul_div_comm, abs_div]
  push_cast
  congr 1
  rw [abs_of_nonneg (by positivity)]
  calc Real.sqrt (idcDot L L) * Real.sqrt (idcDot p p) *
        (Real.sqrt (idcDot L L) * Real.sqrt (idcDot d d))
      = (Real.sqrt (idcDot L L) * Real.sqrt (idcDot L L)) *
        (Real.sqrt (idcDot p p) * Real.sqrt (idcDot d d)) := by ring
    _ = _ := by rw [hs]

/-- Comparing a Schmid factor with one half. -/
theorem cubic_factor_half (L p d : List Int) (hL : 0 < idcDot L L) (hp : 0 < idcDot p p)
    (hd : 0 < idcDot d d) :
    |(cubicVec L ⬝ᵥ cubicVec p) * (cubicVec L ⬝ᵥ cubicVec d)| ≤ 1 / 2 ↔
      4 * (idcDot L p * idcDot L d) ^ 2 ≤ idcDot L L ^ 2 * (idcDot p p * idcDot d d) := by
  have hL' : (0 : ℝ) < idcDot L L := by exact_mod_cast hL
  have hp' : (0 : ℝ) < idcDot p p := by exact_mod_cast hp
  have hd' : (0 : ℝ) < idcDot d d := by exact_mod_cast hd
  rw [cubic_factor, ← Real.sqrt_mul hp'.le,
    div_le_div_iff₀ (mul_pos hL' (Real.sqrt_pos.mpr (mul_pos hp' hd'))) two_pos, one_mul]
  have hs := Real.sq_sqrt (mul_pos hp' hd').le
  have hpos := Real.sqrt_nonneg ((idcDot p p : ℝ) * idcDot d d)
  have e : (|((idcDot L p * idcDot L d : Int) : ℝ)| * 2) ^ 2 =
      ((4 * (idcDot L p * idcDot L d) ^ 2 : Int) : ℝ) := by
    rw [mul_pow, sq_abs]; push_cast; ring
  have e2 : ((idcDot L L : ℝ) * Real.sqrt ((idcDot p p : ℝ) * idcDot d d)) ^ 2 =
      ((idcDot L L ^ 2 * (idcDot p p * idcDot d d) : Int) : ℝ) := by
    rw [mul_pow, hs]; push_cast; ring
  rw [← pow_le_pow_iff_left₀ (by positivity) (by positivity) two_ne_zero, e, e2]
  exact_mod_cast Iff.rfl

/-- The load along a face diagonal of the cube. -/
noncomputable def diagonalLoad : Fin 3 → ℝ := cubicVec [1, 1, 0]

theorem edgeTurn_unit : edgeTurn.IsUnit := (symEqv_table .cubic).unit _ edgeTurn_mem
theorem edgeTurn_north : edgeTurn.North := (symEqv_table .cubic).north _ edgeTurn_mem

theorem edgeTurn_load (l : List Int) :
    transformVector edgeTurn (cubicVec l) = cubicVec [-idcFun l 1, idcFun l 0, idcFun l 2] := by
  rw [transform_matrix _ edgeTurn_north]
  have := unitVec_rot (rotMatrix edgeTurn)ᵀ (by
    rw [Matrix.transpose_transpose]; exact (C36_rotation _ edgeTurn_unit).2.1) (fun i => (idcFun l i : ℝ))
  rw [Matrix.transpose_transpose] at this
  unfold cubicVec
  rw [this]
  congr 1
  rw [edgeTurn_matrix]
  funext i
  fin_cases i <;> simp [Matrix.mulVec, dotProduct, Fin.sum_univ_three, idcFun]

theorem bcc_rows :
    (∀ r ∈ fileIdc 3 bccFile, 0 < idcDot r.1 r.1 ∧ 0 < idcDot r.2 r.2 ∧
      4 * (idcDot [-1, 1, 0] r.1 * idcDot [-1, 1, 0] r.2) ^ 2 ≤
        idcDot [-1, 1, 0] [-1, 1, 0] ^ 2 * (idcDot r.1 r.1 * idcDot r.2 r.2)) ∧
    ([3, 2, 1], [1, 1, -1]) ∈ fileIdc 3 bccFile := by
  decide +kernel

theorem one_transform (v : Fin 3 → ℝ) : transformVector ⟨1, 0, 0, 0⟩ v = v := by
  rw [transform_matrix _ (by simp [North]), one_matrix, Matrix.one_mulVec]

/-- False for `cubic_bcc`: for a load along a face diagonal, a crystal along the axes of the map has a
Schmid factor above one half (it cannot be a Schmid factor), and the same crystal described by the
orientation turned by 90 degrees about an edge of the cube has none. -/
theorem C129_bcc (dflt : String) (ca : Option ℝ) :
    ∃ gs cols m m', loadSlip dflt .cubic ca bccFile = .ok (gs, cols) ∧
      diagonalLoad ⬝ᵥ diagonalLoad = 1 ∧ Spec.CubeRotation (rotMatrix edgeTurn) ∧
      rotMatrix edgeTurn = rotMatrix edgeTurn * rotMatrix ⟨1, 0, 0, 0⟩ ∧
      maxSchmid (schmidFactors ⟨1, 0, 0, 0⟩ diagonalLoad gs) none none = .ok m ∧ 1 / 2 < m ∧
      maxSchmid (schmidFactors edgeTurn diagonalLoad gs) none none = .ok m' ∧ m' ≤ 1 / 2 := by
  have hrows : ∀ row ∈ bccFile.rows, row.length = 2 * Spec.indexCount .cubic := by decide +kernel
  obtain ⟨l, gs, h1, hg, h3, h4⟩ := loadSlip_ok dflt .cubic ca (Or.inl rfl) bccFile
    (by decide +kernel) hrows
  have hperm := (C55_partition l gs hg).1
  have hmem : ∀ ss ∈ gs.flatten, (ss.planeIdc, ss.dirIdc) ∈ fileIdc 3 bccFile ∧
      ss.normal = cubicVec ss.planeIdc ∧ ss.slip = cubicVec ss.dirIdc := by
    intro ss hss
    have hss := hperm.mem_iff.mp hss
    refine ⟨?_, cubic_system (h4 ss hss)⟩
    show _ ∈ bccFile.rows.map _
    have : (ss.planeIdc, ss.dirIdc) ∈ l.map fun ss => (ss.planeIdc, ss.dirIdc) :=
      List.mem_map.mpr ⟨ss, hss, rfl⟩
    rw [h3] at this
    exact this
  have hex : ∃ ss ∈ gs.flatten, ss.planeIdc = [3, 2, 1] ∧ ss.dirIdc = [1, 1, -1] := by
    have : ([3, 2, 1], [1, 1, -1]) ∈ l.map fun ss => (ss.planeIdc, ss.dirIdc) := by
      rw [h3]; exact bcc_rows.2
    obtain ⟨ss, hss, e⟩ := List.mem_map.mp this
    exact ⟨ss, hperm.mem_iff.mpr hss, (Prod.mk.inj e).1, (Prod.mk.inj e).2⟩
  obtain ⟨s0, hs0, e1, e2⟩ := hex
  have hmax : ∀ q : Quat ℝ, ∃ m, maxSchmid (schmidFactors q diagonalLoad gs) none none = .ok m := by
    intro q
    unfold maxSchmid schmidFactors
    rw [← List.map_flatten]
    cases hfl : gs.flatten with
    | nil => rw [hfl] at hs0; cases hs0
    | cons a t => exact ⟨_, rfl⟩
  obtain ⟨m, hm⟩ := hmax ⟨1, 0, 0, 0⟩
  obtain ⟨m', hm'⟩ := hmax edgeTurn
  refine ⟨gs, _, m, m', h1, ?_, edgeTurn_cube, by rw [one_matrix, mul_one], hm, ?_, hm', ?_⟩
  · refine unitVec_unit _ fun h => ?_
    have := congrFun h 0
    simp [idcFun] at this
  · unfold maxSchmid schmidFactors at hm
    rw [← List.map_flatten, listMax_spec] at hm
    have := hm.2 _ (List.mem_map.mpr ⟨s0, hs0, rfl⟩)
    refine lt_of_lt_of_le ?_ this
    rw [schmidFactor, one_transform, (hmem s0 hs0).2.1, (hmem s0 hs0).2.2, e1, e2, diagonalLoad]
    rw [← not_le, cubic_factor_half _ _ _ (by decide) (by decide) (by decide)]
    decide
  · unfold maxSchmid schmidFactors at hm'
    rw [← List.map_flatten, listMax_spec] at hm'
    obtain ⟨ss, hss, e⟩ := List.mem_map.mp hm'.1
    obtain ⟨r1, r2, r3⟩ := hmem ss hss
    obtain ⟨b1, b2, b3⟩ := bcc_rows.1 _ r1
    rw [← e, schmidFactor, diagonalLoad, edgeTurn_load, r2, r3]
    exact (cubic_factor_half _ _ _ (by decide) b1 b2).mpr b3

/-- False with chosen planes: their numbers stand for other planes. In a face-centred cubic crystal
along the axes of the map the first plane has only zero Schmid factors for a load along its normal;
described by the orientation turned by 90 degrees about an edge of the cube it has positive ones. -/
theorem C129_chosen (dflt : String) (ca : Option ℝ) :
    ∃ gs cols m', loadSlip dflt .cubic ca fccFile = .ok (gs, cols) ∧
      cubicVec [1, 1, 1] ⬝ᵥ cubicVec [1, 1, 1] = 1 ∧ Spec.CubeRotation (rotMatrix edgeTurn) ∧
      rotMatrix edgeTurn = rotMatrix edgeTurn * rotMatrix ⟨1, 0, 0, 0⟩ ∧
      maxSchmid (schmidFactors ⟨1, 0, 0, 0⟩ (cubicVec [1, 1, 1]) gs) (some [0]) none = .ok 0 ∧
      maxSchmid (schmidFactors edgeTurn (cubicVec [1, 1, 1]) gs) (some [0]) none = .ok m' ∧
      0 < m' := by
  have hrows : ∀ row ∈ fccFile.rows, row.length = 2 * Spec.indexCount .cubic := by decide +kernel
  obtain ⟨l, gs, h1, hg, h3, h4⟩ := loadSlip_ok dflt .cubic ca (Or.inl rfl) fccFile
    (by decide +kernel) hrows
  have hperm := (C55_partition l gs hg).1
  have hmem : ∀ ss ∈ gs.flatten, (ss.planeIdc, ss.dirIdc) ∈ fileIdc 3 fccFile ∧
      ss.normal = cubicVec ss.planeIdc ∧ ss.slip = cubicVec ss.dirIdc := by
    intro ss hss
    have hss := hperm.mem_iff.mp hss
    refine ⟨?_, cubic_system (h4 ss hss)⟩
    show _ ∈ fccFile.rows.map _
    have : (ss.planeIdc, ss.dirIdc) ∈ l.map fun ss => (ss.planeIdc, ss.dirIdc) :=
      List.mem_map.mpr ⟨ss, hss, rfl⟩
    rw [h3] at this
    exact this
  have hpi : l.map (·.planeIdc) = (fileIdc 3 fccFile).map Prod.fst := by
    have := congrArg (List.map Prod.fst) h3
    rw [List.map_map] at this
    exact this
  have hpl := groupPlane_planes l gs hg _ hpi
  have hpl' : gs.map (fun g => g.map (·.planeIdc)) =
      List.replicate 3 [1, 1, 1] :: [List.replicate 3 [1, 1, -1], List.replicate 3 [-1, 1, 1],
        List.replicate 3 [1, -1, 1]] := by
    rw [hpl]; decide +kernel
  obtain ⟨g0, gt, rfl⟩ : ∃ g0 gt, gs = g0 :: gt := by
    cases gs with
    | nil => cases hpl'
    | cons g0 gt => exact ⟨g0, gt, rfl⟩
  rw [List.map_cons, List.cons.injEq] at hpl'
  have hin : ∀ ss ∈ g0, ss.planeIdc = [1, 1, 1] := by
    intro ss hss
    have : ss.planeIdc ∈ g0.map (·.planeIdc) := List.mem_map.mpr ⟨ss, hss, rfl⟩
    rw [hpl'.1] at this
    exact List.eq_of_mem_replicate this
  have hout : ∀ ss ∈ (g0 :: gt).flatten, ss.planeIdc = [1, 1, 1] → ss ∈ g0 := by
    intro ss hss e
    rw [List.flatten_cons, List.mem_append] at hss
    rcases hss with hss | hss
    · exact hss
    · exfalso
      obtain ⟨g, hg', hss⟩ := List.mem_flatten.mp hss
      have hgm : g.map (·.planeIdc) ∈ gt.map fun g => g.map (·.planeIdc) :=
        List.mem_map.mpr ⟨g, hg', rfl⟩
      have hpm : ss.planeIdc ∈ g.map (·.planeIdc) := List.mem_map.mpr ⟨ss, hss, rfl⟩
      rw [hpl'.2] at hgm
      rw [e] at hpm
      have : ∀ x ∈ [List.replicate 3 [(1 : Int), 1, -1], List.replicate 3 [-1, 1, 1],
        List.replicate 3 [1, -1, 1]], [1, 1, 1] ∉ x := by decide
      exact this _ hgm hpm
  have hinf : ∀ ss ∈ g0, ss ∈ (g0 :: gt).flatten := by
    intro ss hss
    rw [List.flatten_cons, List.mem_append]
    exact Or.inl hss
  obtain ⟨s1, hs1, d1⟩ : ∃ ss ∈ g0, ss.dirIdc = [-1, 0, 1] := by
    have : (([1, 1, 1], [-1, 0, 1]) : List Int × List Int) ∈
        l.map fun ss => (ss.planeIdc, ss.dirIdc) := by
      rw [h3]; decide +kernel
    obtain ⟨ss, hss, e⟩ := List.mem_map.mp this
    exact ⟨ss, hout ss (hperm.mem_iff.mpr hss) (Prod.mk.inj e).1, (Prod.mk.inj e).2⟩
  have hplane : ∀ q : Quat ℝ, maxSchmid (schmidFactors q (cubicVec [1, 1, 1]) (g0 :: gt)) (some [0])
      none = listMax (g0.map (schmidFactor (transformVector q (cubicVec [1, 1, 1])))) := by
    intro q
    simp [maxSchmid, schmidFactors, chosenInPlane, listAt, List.mapM_cons, Except.bind, bind, pure,
      Except.pure]
  have hd0 : ∀ r ∈ fileIdc 3 fccFile, r.1 = [1, 1, 1] → idcDot [1, 1, 1] r.2 = 0 := by
    decide +kernel
  have hfac : ∀ L : List Int, ∀ ss ∈ g0, schmidFactor (cubicVec L) ss =
      |((idcDot L [1, 1, 1] * idcDot L ss.dirIdc : Int) : ℝ)| /
        ((idcDot L L : ℝ) * (Real.sqrt (idcDot [1, 1, 1] [1, 1, 1] : ℝ) *
          Real.sqrt (idcDot ss.dirIdc ss.dirIdc : ℝ))) := by
    intro L ss hss
    obtain ⟨-, r2, r3⟩ := hmem ss (hinf ss hss)
    rw [schmidFactor, r2, r3, hin ss hss, cubic_factor]
  have hmax : ∃ m', listMax (g0.map (schmidFactor (cubicVec [-1, 1, 1]))) = .ok m' := by
    cases g0 with
    | nil => cases hs1
    | cons a t => exact ⟨_, rfl⟩
  obtain ⟨m', hm'⟩ := hmax
  refine ⟨g0 :: gt, _, m', h1, ?_, edgeTurn_cube, by rw [one_matrix, mul_one], ?_, ?_, ?_⟩
  · refine unitVec_unit _ fun h => ?_
    have := congrFun h 0
    simp [idcFun] at this
  · rw [hplane, one_transform, listMax_spec]
    have h0 : ∀ ss ∈ g0, schmidFactor (cubicVec [1, 1, 1]) ss = 0 := by
      intro ss hss
      have := hd0 _ (hmem ss (hinf ss hss)).1 (hin ss hss)
      simp only at this
      rw [hfac _ ss hss, this]
      simp
    refine ⟨List.mem_map.mpr ⟨s1, hs1, h0 s1 hs1⟩, fun x hx => ?_⟩
    obtain ⟨ss, hss, rfl⟩ := List.mem_map.mp hx
    exact (h0 ss hss).le
  · rw [hplane, edgeTurn_load]
    exact hm'
  · rw [listMax_spec] at hm'
    refine lt_of_lt_of_le ?_ (hm'.2 _ (List.mem_map.mpr ⟨s1, hs1, rfl⟩))
    rw [hfac _ s1 hs1, d1]
    have c1 : idcDot [-1, 1, 1] [1, 1, 1] * idcDot [-1, 1, 1] [-1, 0, 1] = 2 := by decide
    have c2 : idcDot [-1, 1, 1] [-1, 1, 1] = 3 := by decide
    have c3 : idcDot [1, 1, 1] [1, 1, 1] = 3 := by decide
    have c4 : idcDot [-1, 0, 1] [-1, 0, 1] = 2 := by decide
    rw [c1, c2, c3, c4]
    push_cast
    positivity

/-- The hypotheses are met, for both crystal structures, by rotations other than the identity. -/
example : ∃ gs cols, loadSlip "hkl" .cubic none fccFile = .ok (gs, cols) ∧
    Spec.Loadable "hkl" .cubic none ∧ (CrystalName.cubic, fccFile) ∈ symmetricFiles ∧
    Spec.StructureRotation .cubic (rotMatrix edgeTurn) ∧ rotMatrix edgeTurn ≠ 1 := by
  obtain ⟨l, gs, h1, -⟩ := loadSlip_ok "hkl" .cubic none (Or.inl rfl) fccFile
    (by decide +kernel) (by decide +kernel)
  refine ⟨gs, _, h1, Or.inl rfl, by simp [symmetricFiles], Or.inl ⟨rfl, edgeTurn_cube⟩, ?_⟩
  rw [edgeTurn_matrix]
  intro h
  have := congrFun (congrFun h 0) 1
  simp at this

example : ∃ gs cols S, loadSlip "tsl" .hexagonal (some (8 / 5)) hexWithcaFile = .ok (gs, cols) ∧
    Spec.Loadable "tsl" .hexagonal (some (8 / 5)) ∧
    (CrystalName.hexagonal, hexWithcaFile) ∈ symmetricFiles ∧
    Spec.StructureRotation .hexagonal S ∧ S ≠ 1 := by
  have hld : Spec.Loadable "tsl" .hexagonal (some (8 / 5)) :=
    Or.inr ⟨rfl, Or.inr (Or.inr (by with_unfolding_all rfl)), _, rfl, by norm_num⟩
  obtain ⟨l, gs, h1, -⟩ := loadSlip_ok "tsl" .hexagonal (some (8 / 5)) hld hexWithcaFile
    (by decide +kernel) (by decide +kernel)
  have hm := (symEqv_table .hexagonal).half.2.2
  refine ⟨gs, _, _, h1, hld, by simp [symmetricFiles],
    Or.inr ⟨rfl, (C39_prism _).mpr ⟨_, hm, rfl⟩⟩, ?_⟩
  intro h
  have := congrFun (congrFun h 0) 0
  simp [rotMatrix] at this
  norm_num at this

end DefDAP
