import Verif.Model.PolePlot
import Verif.Props.FamiliesHex
import Verif.Proofs.GrainData

/-! C103: equivalent indices. -/

namespace DefDAP

open Quat Matrix

/-! ### The symmetry operators, not conjugated -/

theorem rot_conjRaw (q : Quat ℝ) : (rotMatrix (conjRaw q))ᵀ = rotMatrix q := by
  ext i j
  fin_cases i <;> fin_cases j <;> simp [rotMatrix, conjRaw, Matrix.transpose] <;> ring

theorem transform_conj (q : Quat ℝ) (h : q.North) (v : Fin 3 → ℝ) :
    transformVector q v = transformVector (conjugate (conjRaw q)) v := by
  rw [transform_matrix q h, conj_matrix, rot_conjRaw]

theorem cubic_signed' : ∀ q ∈ cubicExact, ∃ σ : Equiv.Perm (Fin 3), ∃ ε : Fin 3 → Bool,
    ∀ i j, exactRotT (conjRaw q) i j = surdInt (if j = σ i then Spec.sgn (ε i) else 0) := by
  decide +kernel

theorem cubic_all' : ∀ σ : Equiv.Perm (Fin 3), ∀ ε : Fin 3 → Bool, ∃ q ∈ cubicExact,
    (∀ i j, exactRotT (conjRaw q) i j = surdInt (if j = σ i then Spec.sgn (ε i) else 0)) ∨
    (∀ i j, exactRotT (conjRaw q) i j = surdInt (if j = σ i then -Spec.sgn (ε i) else 0)) := by
  decide +kernel

theorem hex_signed' : ∀ b, ∀ q ∈ hexagonalExact, ∃ σ : Equiv.Perm (Fin 3), ∃ s t : Bool,
    HexAction b (conjRaw q) σ s t := by
  decide +kernel

theorem hex_all' : ∀ b, ∀ σ : Equiv.Perm (Fin 3), ∀ s t : Bool, ∃ q ∈ hexagonalExact,
    HexAction b (conjRaw q) σ s t ∨ HexAction b (conjRaw q) σ (!s) (!t) := by
  decide +kernel

/-! ### Indices in the upper half -/

/-- Three indices, or their opposites if the third is negative. -/
def Spec.up3 (v : Fin 3 → Int) : Fin 3 → Int := if v 2 < 0 then -v else v

/-- Four indices, or their opposites if the fourth is negative. -/
def Spec.up4 (v : (Fin 3 → Int) × Int) : (Fin 3 → Int) × Int :=
  if v.2 < 0 then (-v.1, -v.2) else v

theorem up3_cases (v : Fin 3 → Int) : (Spec.up3 v = v ∨ Spec.up3 v = -v) ∧ 0 ≤ Spec.up3 v 2 := by
  unfold Spec.up3
  split
  · exact ⟨Or.inr rfl, by rw [Pi.neg_apply]; omega⟩
  · exact ⟨Or.inl rfl, by omega⟩

theorem up4_cases (v : (Fin 3 → Int) × Int) :
    (Spec.up4 v = v ∨ Spec.up4 v = negIdc v) ∧ 0 ≤ (Spec.up4 v).2 := by
  unfold Spec.up4
  split
  · exact ⟨Or.inr rfl, by show 0 ≤ -v.2; omega⟩
  · exact ⟨Or.inl rfl, by omega⟩

theorem upperVec_int (v : Fin 3 → Int) :
    upperVec (fun i => (v i : ℝ)) = fun i => (Spec.up3 v i : ℝ) := by
  unfold upperVec Spec.up3
  by_cases h : v 2 < 0
  · have h' : (v 2 : ℝ) < 0 := by exact_mod_cast h
    rw [if_pos h', if_pos h]
    funext i; simp
  · have h' : ¬ (v 2 : ℝ) < 0 := by exact_mod_cast h
    rw [if_neg h', if_neg h]

/-! ### Cubic crystals -/

/-- What the symmetry operator makes of indices, for either way to say so. -/
theorem transform_signed {q : Quat (Surd 2)} (hn : q.real.North) {σ : Equiv.Perm (Fin 3)}
    {ε : Fin 3 → Bool}
    (h : ∀ i j, exactRotT (conjRaw q) i j = surdInt (if j = σ i then Spec.sgn (ε i) else 0))
    (v : Fin 3 → Int) :
    (transformVector q.real fun i => (v i : ℝ)) = fun i => (Spec.variant σ ε v i : ℝ) := by
  have := signed_apply h v
  rw [real_conjRaw, ← transform_conj _ hn] at this
  simp only [vecList, Spec.idc, List.map_cons, List.map_nil, List.cons.injEq, and_true] at this
  funext i
  fin_cases i
  · exact this.1
  · exact this.2.1
  · exact this.2.2

theorem eqvCubic_ok {v : Fin 3 → Int} {s : Quat ℝ} {w : Fin 3 → Int}
    (hw : (transformVector s fun i => (v i : ℝ)) = fun i => (w i : ℝ)) (hb : ∀ i, |w i| ≤ 127) :
    eqvCubic (fun i => (v i : ℝ)) s = .ok (Spec.idc (Spec.up3 w)) := by
  unfold eqvCubic
  rw [hw, upperVec_int]
  have := cast_small (l := Spec.idc (Spec.up3 w)) (fun x hx => by
    have : ∀ i, |Spec.up3 w i| ≤ 127 := by
      intro i
      rcases (up3_cases w).1 with e | e <;> rw [e]
      · exact hb i
      · rw [Pi.neg_apply, abs_neg]; exact hb i
    simp only [Spec.idc, List.mem_cons, List.not_mem_nil, or_false] at hx
    rcases hx with rfl | rfl | rfl <;> exact this _)
  simpa [vecList, Spec.idc] using this

theorem asReals_idc (v : Fin 3 → Int) :
    threeIdc (asReals (Spec.idc v)) = .ok fun i => (v i : ℝ) := by
  simp only [asReals, Spec.idc, List.map_cons, List.map_nil, threeIdc]
  congr 1
  funext i
  fin_cases i <;> rfl

theorem eqv_cubic_eq (dflt : String) (nan : Int) (v : Fin 3 → Int) (syms : List (Quat ℝ))
    (ca : Option ℝ) (ty : Option String) (hty : ty = none ∨ ty = some "m") :
    equivalentIdc dflt nan .cubic syms (some (Spec.idc v)) none ca ty =
      syms.mapM (eqvCubic fun i => (v i : ℝ)) ∧
    equivalentIdc dflt nan .cubic syms none (some (Spec.idc v)) ca ty =
      syms.mapM (eqvCubic fun i => (v i : ℝ)) := by
  have e : ty.getD (if SymGroup.cubic = SymGroup.hexagonal then "mb" else "m") = "m" := by
    rcases hty with rfl | rfl <;> rfl
  have hne : ¬ ("m" = "mb") := by decide
  unfold equivalentIdc
  rw [e]
  constructor <;>
    simp only [toMiller, Option.map_some, Option.map_none, if_neg hne, if_true, Except.bind, eqvLoop,
      asReals_idc]

/-- **C103** The equivalent indices of a cubic direction or plane: one entry for each symmetry operator, the
indices of the direction turned by that operator, or their opposites if the third is negative. So every
entry is a permutation of the indices with changes of sign, every such variant with a positive third index is
there, and of every other one the variant or its opposite. The first entry is the direction itself or its
opposite. -/
theorem C103_cubic (dflt : String) (nan : Int) (v : Fin 3 → Int) (hv : ∀ i, |v i| ≤ 127)
    (ca : Option ℝ) (ty : Option String) (hty : ty = none ∨ ty = some "m") :
    ∃ l, equivalentIdc dflt nan .cubic (symEqv .cubic) (some (Spec.idc v)) none ca ty = .ok l ∧
      equivalentIdc dflt nan .cubic (symEqv .cubic) none (some (Spec.idc v)) ca ty = .ok l ∧
      l.length = 24 ∧ l.head? = some (Spec.idc (Spec.up3 v)) ∧
      (∀ (k : Nat) (s : Quat ℝ), (symEqv .cubic)[k]? = some s → ∃ w, l[k]? = some (Spec.idc w) ∧
        upperVec (transformVector s fun i => (v i : ℝ)) = fun i => (w i : ℝ)) ∧
      (∀ x ∈ l, ∃ σ ε, x = Spec.idc (Spec.variant σ ε v) ∧ 0 ≤ Spec.variant σ ε v 2) ∧
      (∀ σ ε, 0 < Spec.variant σ ε v 2 → Spec.idc (Spec.variant σ ε v) ∈ l) ∧
      (∀ σ ε, Spec.idc (Spec.variant σ ε v) ∈ l ∨ Spec.idc (-Spec.variant σ ε v) ∈ l) := by
  classical
  have hn := (symEqv_table .cubic).north
  have hch : ∀ s : Quat ℝ, ∃ g : Equiv.Perm (Fin 3) × (Fin 3 → Bool), s ∈ symEqv .cubic →
      (transformVector s fun i => (v i : ℝ)) = fun i => (Spec.variant g.1 g.2 v i : ℝ) := by
    intro s
    by_cases hs : s ∈ symEqv .cubic
    · obtain ⟨q, hq, rfl⟩ := List.mem_map.1 hs
      obtain ⟨σ, ε, h⟩ := cubic_signed' q hq
      exact ⟨(σ, ε), fun _ => transform_signed (hn _ hs) h v⟩
    · exact ⟨(1, fun _ => false), fun h => absurd h hs⟩
  choose φ hφ using hch
  have hb : ∀ σ ε i, |Spec.variant σ ε v i| ≤ 127 := fun σ ε i => sgn_bound _ _ (hv _)
  set f : Quat ℝ → List Int := fun s => Spec.idc (Spec.up3 (Spec.variant (φ s).1 (φ s).2 v)) with hf
  have hm : (symEqv .cubic).mapM (eqvCubic fun i => (v i : ℝ)) = .ok ((symEqv .cubic).map f) :=
    mapM_ok _ fun s hs => eqvCubic_ok (hφ s hs) (hb _ _)
  have hopp : ∀ σ ε, Spec.idc (Spec.variant σ ε v) ∈ (symEqv .cubic).map f ∨
      Spec.idc (-Spec.variant σ ε v) ∈ (symEqv .cubic).map f := by
    intro σ ε
    obtain ⟨q, hq, h⟩ := cubic_all' σ ε
    have hs : q.real ∈ symEqv .cubic := List.mem_map.2 ⟨q, hq, rfl⟩
    have key : Spec.variant (φ q.real).1 (φ q.real).2 v = Spec.variant σ ε v ∨
        Spec.variant (φ q.real).1 (φ q.real).2 v = -Spec.variant σ ε v := by
      have inj : ∀ w : Fin 3 → Int, ((transformVector q.real fun i => (v i : ℝ)) =
          fun i => (w i : ℝ)) → Spec.variant (φ q.real).1 (φ q.real).2 v = w := by
        intro w h
        rw [hφ _ hs] at h
        funext i
        have := congrFun h i
        exact_mod_cast this
      rcases h with h | h
      · exact Or.inl (inj _ (transform_signed (hn _ hs) h v))
      · right
        rw [← variant_neg]
        refine inj _ (transform_signed (hn _ hs) (fun i j => ?_) v)
        rw [h i j]
        congr 2
        cases h0 : ε i <;> simp [Spec.sgn, h0]
    have hmem : f q.real ∈ (symEqv .cubic).map f := List.mem_map.2 ⟨_, hs, rfl⟩
    simp only [hf] at hmem
    rcases (up3_cases (Spec.variant (φ q.real).1 (φ q.real).2 v)).1 with e | e <;> rw [e] at hmem
    · rcases key with e' | e' <;> rw [e'] at hmem
      · exact Or.inl hmem
      · exact Or.inr hmem
    · rcases key with e' | e' <;> rw [e'] at hmem
      · exact Or.inr hmem
      · rw [neg_neg] at hmem; exact Or.inl hmem
  have hall : ∀ x ∈ (symEqv .cubic).map f, ∃ σ ε, x = Spec.idc (Spec.variant σ ε v) ∧
      0 ≤ Spec.variant σ ε v 2 := by
    intro x hx
    obtain ⟨s, hs, rfl⟩ := List.mem_map.1 hx
    obtain ⟨c, c0⟩ := up3_cases (Spec.variant (φ s).1 (φ s).2 v)
    rcases c with e | e
    · exact ⟨_, _, by rw [hf]; simp only; rw [e], e ▸ c0⟩
    · rw [← variant_neg] at e
      exact ⟨_, _, by rw [hf]; simp only; rw [e], e ▸ c0⟩
  obtain ⟨e1, e2⟩ := eqv_cubic_eq dflt nan v (symEqv .cubic) ca ty hty
  refine ⟨(symEqv .cubic).map f, e1.trans hm, e2.trans hm, ?_, ?_, ?_, hall, ?_, hopp⟩
  · rw [List.length_map]
    show (cubicExact.map Quat.real).length = 24
    rw [List.length_map]; rfl
  · have h0 : (symEqv .cubic).head? = some ⟨1, 0, 0, 0⟩ := by
      rw [List.head?_eq_getElem?]; exact (symEqv_table .cubic).head
    have hs : (⟨1, 0, 0, 0⟩ : Quat ℝ) ∈ symEqv .cubic := List.mem_of_mem_head? h0
    rw [List.head?_map, h0]
    have : Spec.variant (φ ⟨1, 0, 0, 0⟩).1 (φ ⟨1, 0, 0, 0⟩).2 v = v := by
      have e := hφ _ hs
      rw [transform_matrix _ (hn _ hs)] at e
      have : rotMatrix (⟨1, 0, 0, 0⟩ : Quat ℝ) = 1 := by
        ext i j
        fin_cases i <;> fin_cases j <;> simp [rotMatrix]
      rw [this, Matrix.one_mulVec] at e
      funext i
      have := congrFun e i
      exact_mod_cast this.symm
    simp [hf, this]
  · intro k s hk
    have hs : s ∈ symEqv .cubic := List.mem_of_getElem? hk
    refine ⟨Spec.up3 (Spec.variant (φ s).1 (φ s).2 v), ?_, ?_⟩
    · rw [List.getElem?_map, hk]; rfl
    · rw [hφ s hs, upperVec_int]
  · intro σ ε hpos
    rcases hopp σ ε with h | h
    · exact h
    · obtain ⟨τ, δ, e, h0⟩ := hall _ h
      have := congrFun (idc_injective e) 2
      rw [Pi.neg_apply] at this
      omega

/-! ### Hexagonal crystals -/

/-- Three Miller indices of a hexagonal direction. -/
def dirIdc3 (d : (Fin 3 → Int) × Int) : Fin 3 → ℝ :=
  ![(d.1 0 : ℝ) - d.1 2, (d.1 1 : ℝ) - d.1 2, (d.2 : ℝ)]

/-- Three Miller indices of a hexagonal plane. -/
def planeIdc3 (d : (Fin 3 → Int) × Int) : Fin 3 → ℝ := ![(d.1 0 : ℝ), (d.1 1 : ℝ), (d.2 : ℝ)]

section
variable {b : Bool} {q : Quat (Surd 3)} {σ : Equiv.Perm (Fin 3)} {s t : Bool}

theorem dual_right (b : Bool) {ca : ℝ} (hca : 0 < ca) :
    hexMat b ca * (createQ (hexMat b ca))ᵀ = 1 ∧ createQ (hexMat b ca) * (hexMat b ca)ᵀ = 1 := by
  have h := (C48_dual _ (hexMat_det b ca hca)).1
  have h1 : hexMat b ca * (createQ (hexMat b ca))ᵀ = 1 := mul_eq_one_comm.1 h
  refine ⟨h1, ?_⟩
  have := congrArg Matrix.transpose h1
  rwa [Matrix.transpose_mul, Matrix.transpose_transpose, Matrix.transpose_one] at this

theorem transform_dir (h : HexAction b (conjRaw q) σ s t) (hn : q.real.North) {ca : ℝ} (hca : 0 < ca)
    (d : (Fin 3 → Int) × Int) :
    transformVector q.real (hexMat b ca *ᵥ dirIdc3 d) =
      hexMat b ca *ᵥ dirIdc3 (Spec.hexVariant σ s t d) := by
  have := congrArg (fun v => hexMat b ca *ᵥ v) (hex_dir h hca d)
  rw [Matrix.mulVec_mulVec, (dual_right b hca).1, Matrix.one_mulVec, real_conjRaw,
    ← transform_conj _ hn] at this
  exact this

theorem transform_plane (h : HexAction b (conjRaw q) σ s t) (hn : q.real.North) {ca : ℝ} (hca : 0 < ca)
    (d : (Fin 3 → Int) × Int) (hd : d.1 0 + d.1 1 + d.1 2 = 0) :
    transformVector q.real (createQ (hexMat b ca) *ᵥ planeIdc3 d) =
      createQ (hexMat b ca) *ᵥ planeIdc3 (Spec.hexVariant σ s t d) := by
  have := congrArg (fun v => createQ (hexMat b ca) *ᵥ v) (hex_plane h hca d hd)
  rw [Matrix.mulVec_mulVec, (dual_right b hca).2, Matrix.one_mulVec, real_conjRaw,
    ← transform_conj _ hn] at this
  exact this

end

theorem dir_third (b : Bool) (ca : ℝ) (d : (Fin 3 → Int) × Int) :
    (hexMat b ca *ᵥ dirIdc3 d) 2 = d.2 * ca := by
  unfold dirIdc3
  have := congrFun (hexMat_mulVec b ca (fun i => (d.1 i : ℝ)) d.2) 2
  rw [this]
  cases b <;> simp [hexAxisR, hexAxis, Surd.real, prismAxis, Fin.sum_univ_three]

theorem plane_third (b : Bool) {ca : ℝ} (hca : 0 < ca) (d : (Fin 3 → Int) × Int) :
    (createQ (hexMat b ca) *ᵥ planeIdc3 d) 2 * ca = d.2 := by
  have h : (hexMat b ca)ᵀ *ᵥ (createQ (hexMat b ca) *ᵥ planeIdc3 d) = planeIdc3 d := by
    rw [Matrix.mulVec_mulVec, mul_eq_one_comm.1 (dual_right b hca).2, Matrix.one_mulVec]
  rw [hexMat_transpose] at h
  have := congrFun h 2
  simpa [prismAxis, dotProduct, Fin.sum_univ_three, planeIdc3, mul_comm] using this

theorem dirIdc3_neg (d : (Fin 3 → Int) × Int) : dirIdc3 (negIdc d) = -dirIdc3 d := by
  funext i; fin_cases i <;> simp [dirIdc3, negIdc] <;> ring

theorem planeIdc3_neg (d : (Fin 3 → Int) × Int) : planeIdc3 (negIdc d) = -planeIdc3 d := by
  funext i; fin_cases i <;> simp [planeIdc3, negIdc]

theorem upper_dir (b : Bool) {ca : ℝ} (hca : 0 < ca) (d : (Fin 3 → Int) × Int) :
    upperVec (hexMat b ca *ᵥ dirIdc3 d) = hexMat b ca *ᵥ dirIdc3 (Spec.up4 d) := by
  unfold upperVec Spec.up4
  rw [dir_third]
  by_cases h : d.2 < 0
  · have h' : (d.2 : ℝ) < 0 := by exact_mod_cast h
    rw [if_pos (mul_neg_of_neg_of_pos h' hca), if_pos h]
    show _ = _ *ᵥ dirIdc3 (negIdc d)
    rw [dirIdc3_neg, Matrix.mulVec_neg]
  · have h' : (0 : ℝ) ≤ d.2 := by exact_mod_cast not_lt.1 h
    rw [if_neg (not_lt.2 (mul_nonneg h' hca.le)), if_neg h]

theorem upper_plane (b : Bool) {ca : ℝ} (hca : 0 < ca) (d : (Fin 3 → Int) × Int) :
    upperVec (createQ (hexMat b ca) *ᵥ planeIdc3 d) =
      createQ (hexMat b ca) *ᵥ planeIdc3 (Spec.up4 d) := by
  have ht := plane_third b hca d
  unfold upperVec Spec.up4
  by_cases h : d.2 < 0
  · have h' : (d.2 : ℝ) < 0 := by exact_mod_cast h
    rw [if_pos (by nlinarith), if_pos h]
    show _ = _ *ᵥ planeIdc3 (negIdc d)
    rw [planeIdc3_neg, Matrix.mulVec_neg]
  · have h' : (0 : ℝ) ≤ d.2 := by exact_mod_cast not_lt.1 h
    rw [if_neg (by nlinarith), if_neg h]

theorem hexIdc_up {v : (Fin 3 → Int) × Int} (h : Spec.HexIdc v) : Spec.HexIdc (Spec.up4 v) := by
  rcases (up4_cases v).1 with e | e <;> rw [e]
  · exact h
  · rw [negIdc_variant]; exact hexIdc_variant h _ _ _

theorem hexSmall_up {v : (Fin 3 → Int) × Int} (h : Spec.HexSmall v) : Spec.HexSmall (Spec.up4 v) := by
  rcases (up4_cases v).1 with e | e <;> rw [e]
  · exact h
  · rw [negIdc_variant]; exact hexSmall_variant h _ _ _

theorem up4_scale {g : Nat} (hg : 0 < g) (v : (Fin 3 → Int) × Int) :
    Spec.up4 (Spec.scale g v) = Spec.scale g (Spec.up4 v) := by
  have hg' : (0 : Int) < g := by exact_mod_cast hg
  unfold Spec.up4
  by_cases h : v.2 < 0
  · rw [if_pos h, if_pos (show (Spec.scale g v).2 < 0 from mul_neg_of_pos_of_neg hg' h)]
    unfold Spec.scale
    ext <;> simp
  · rw [if_neg h, if_neg (show ¬ (Spec.scale g v).2 < 0 from not_lt.2 (mul_nonneg hg'.le (not_lt.1 h)))]

/-- What the loop makes of a direction. -/
theorem back_dir (nan : Int) {b : Bool} {ca : ℝ} (hca : 0 < ca) {w : (Fin 3 → Int) × Int}
    (hw : Spec.HexIdc w) {g : Nat} (hg : 0 < g) (hs : Spec.HexSmall (Spec.scale g w)) :
    ((safeIntCast (vecList ((createQ (hexMat b ca))ᵀ *ᵥ
      (hexMat b ca *ᵥ dirIdc3 (Spec.scale g w))))).bind fun d =>
      (backDir nan d).bind fun d => safeIntCast (asReals d)) = .ok (Spec.idc4 w) := by
  rw [Matrix.mulVec_mulVec, mul_eq_one_comm.1 (dual_right b hca).1, Matrix.one_mulVec]
  have hd := hs
  have c2 : safeIntCast (vecList (dirIdc3 (Spec.scale g w))) =
      .ok [(Spec.scale g w).1 0 - (Spec.scale g w).1 2, (Spec.scale g w).1 1 - (Spec.scale g w).1 2,
        (Spec.scale g w).2] := by
    generalize Spec.scale g w = d' at *
    have := cast_small (l := [d'.1 0 - d'.1 2, d'.1 1 - d'.1 2, d'.2]) (fun x hx => by
      have : |x| ≤ 42 := by
        simp only [List.mem_cons, List.not_mem_nil, or_false] at hx
        rcases hx with rfl | rfl | rfl
        · exact hd.2.1 _ _
        · exact hd.2.1 _ _
        · exact hd.2.2
      omega)
    simpa [vecList, dirIdc3] using this
  rw [c2]
  simp only [Except.bind]
  rw [backDir_hex hs, reduce_hex hw g hg]
  exact cast_small fun x hx => le_trans (hexIdc_bound hw x hx) (by norm_num)

/-- What the loop makes of a plane. -/
theorem back_plane (nan : Int) {b : Bool} {ca : ℝ} (hca : 0 < ca) {w : (Fin 3 → Int) × Int}
    (hw : Spec.HexIdc w) {g : Nat} (hg : 0 < g) (hs : Spec.HexSmall (Spec.scale g w)) :
    ((safeIntCast (vecList ((hexMat b ca)ᵀ *ᵥ
      (createQ (hexMat b ca) *ᵥ planeIdc3 (Spec.scale g w))))).bind fun d =>
      (backPlane nan d).bind fun d => safeIntCast (asReals d)) = .ok (Spec.idc4 w) := by
  rw [Matrix.mulVec_mulVec, mul_eq_one_comm.1 (dual_right b hca).2, Matrix.one_mulVec]
  have bp := hexSmall_bound hs
  have c1 : safeIntCast (vecList (planeIdc3 (Spec.scale g w))) =
      .ok [(Spec.scale g w).1 0, (Spec.scale g w).1 1, (Spec.scale g w).2] := by
    generalize Spec.scale g w = p' at *
    have := cast_small (l := [p'.1 0, p'.1 1, p'.2]) (fun x hx => by
      have : |x| ≤ 42 := bp x (by
        simp only [List.mem_cons, List.not_mem_nil, or_false] at hx
        rcases hx with rfl | rfl | rfl <;> simp [Spec.idc4])
      omega)
    simpa [vecList, planeIdc3] using this
  rw [c1]
  simp only [Except.bind]
  rw [backPlane_hex hs.1, reduce_hex hw g hg]
  exact cast_small fun x hx => le_trans (hexIdc_bound hw x hx) (by norm_num)

theorem eqv_hex_eq (dflt : String) (nan : Int) (v : (Fin 3 → Int) × Int) (syms : List (Quat ℝ))
    {ca : ℝ} {b : Bool} (hl : hexL dflt ca = .ok (hexMat b ca)) (ty : Option String)
    (hty : ty = none ∨ ty = some "mb") :
    equivalentIdc dflt nan .hexagonal syms (some (Spec.idc4 v)) none (some ca) ty =
      syms.mapM (eqvDirHex nan (createQ (hexMat b ca)) (hexMat b ca *ᵥ dirIdc3 v)) ∧
    equivalentIdc dflt nan .hexagonal syms none (some (Spec.idc4 v)) (some ca) ty =
      syms.mapM (eqvPlaneHex nan (hexMat b ca) (createQ (hexMat b ca) *ᵥ planeIdc3 v)) := by
  have e : ty.getD (if SymGroup.hexagonal = SymGroup.hexagonal then "mb" else "m") = "mb" := by
    rcases hty with rfl | rfl <;> rfl
  have hne : ¬ ("mb" = "m") := by decide
  unfold equivalentIdc
  rw [e]
  constructor <;>
    simp only [toMiller, convertIdc, convertPlane, convertDir, mb_lower, Option.map_some,
      Option.map_none, if_neg hne, if_true, Except.bind, eqvLoop, asReals, Spec.idc4, List.map_cons,
      List.map_nil, hl, matVec, dirIdc3, planeIdc3]

/-- **C103** The equivalent indices of a hexagonal direction or plane, the same for both: one entry for each
symmetry operator, in lowest terms, the indices of the direction turned by that operator, or their opposites
if the fourth is negative. So every entry has the first three indices permuted, with a common change of sign,
and the fourth with any sign; every such variant with a positive fourth index is there, and of every other
one the variant or its opposite. The first entry is the direction itself or its opposite. -/
theorem C103_hexagonal (dflt : String)
    (hdflt : dflt.toLower = "hkl" ∨ dflt.toLower = "oi" ∨ dflt.toLower = "tsl")
    (nan : Int) (ca : ℝ) (hca : 1 / 10 ^ 10 ≤ ca) (v : (Fin 3 → Int) × Int) (hv : Spec.HexIdc v)
    (g : Nat) (hg : 0 < g) (hgv : Spec.HexSmall (Spec.scale g v))
    (ty : Option String) (hty : ty = none ∨ ty = some "mb") :
    ∃ l, equivalentIdc dflt nan .hexagonal (symEqv .hexagonal) (some (Spec.idc4 (Spec.scale g v))) none
        (some ca) ty = .ok l ∧
      equivalentIdc dflt nan .hexagonal (symEqv .hexagonal) none (some (Spec.idc4 (Spec.scale g v)))
        (some ca) ty = .ok l ∧
      l.length = 12 ∧ l.head? = some (Spec.idc4 (Spec.up4 v)) ∧
      (∀ (k : Nat) (s : Quat ℝ), (symEqv .hexagonal)[k]? = some s → ∃ w p p',
        l[k]? = some (Spec.idc4 w) ∧
        projectToOrth dflt ca (some (asReals (Spec.idc4 (Spec.scale g v)))) none "mb" = .ok p ∧
        projectToOrth dflt ca (some (asReals (Spec.idc4 w))) none "mb" = .ok p' ∧
        upperVec (transformVector s p) = (g : ℝ) • p') ∧
      (∀ x ∈ l, ∃ σ s t, x = Spec.idc4 (Spec.hexVariant σ s t v) ∧
        0 ≤ (Spec.hexVariant σ s t v).2) ∧
      (∀ σ s t, 0 < (Spec.hexVariant σ s t v).2 → Spec.idc4 (Spec.hexVariant σ s t v) ∈ l) ∧
      (∀ σ s t, Spec.idc4 (Spec.hexVariant σ s t v) ∈ l ∨
        Spec.idc4 (Spec.hexVariant σ (!s) (!t) v) ∈ l) := by
  classical
  have hpos : (0 : ℝ) < ca := lt_of_lt_of_le (by positivity) hca
  obtain ⟨b, hl⟩ := hexL_mat dflt ca hca hdflt
  have hn := (symEqv_table .hexagonal).north
  have hch : ∀ s : Quat ℝ, ∃ k : Equiv.Perm (Fin 3) × Bool × Bool, s ∈ symEqv .hexagonal →
      ∃ q : Quat (Surd 3), s = q.real ∧ HexAction b (conjRaw q) k.1 k.2.1 k.2.2 := by
    intro s
    by_cases hs : s ∈ symEqv .hexagonal
    · obtain ⟨q, hq, rfl⟩ := List.mem_map.1 hs
      obtain ⟨σ, s, t, h⟩ := hex_signed' b q hq
      exact ⟨(σ, s, t), fun _ => ⟨q, rfl, h⟩⟩
    · exact ⟨(1, false, false), fun h => absurd h hs⟩
  choose φ hφ using hch
  set act : Quat ℝ → (Fin 3 → Int) × Int := fun s => Spec.hexVariant (φ s).1 (φ s).2.1 (φ s).2.2 v
    with hact
  have hdir : ∀ s ∈ symEqv .hexagonal, transformVector s (hexMat b ca *ᵥ dirIdc3 (Spec.scale g v)) =
      hexMat b ca *ᵥ dirIdc3 (Spec.scale g (act s)) := by
    intro s hs
    obtain ⟨q, e, h⟩ := hφ s hs
    have := transform_dir h (e ▸ hn s hs) hpos (Spec.scale g v)
    rw [← e, variant_scale] at this
    exact this
  have hplane : ∀ s ∈ symEqv .hexagonal,
      transformVector s (createQ (hexMat b ca) *ᵥ planeIdc3 (Spec.scale g v)) =
      createQ (hexMat b ca) *ᵥ planeIdc3 (Spec.scale g (act s)) := by
    intro s hs
    obtain ⟨q, e, h⟩ := hφ s hs
    have := transform_plane h (e ▸ hn s hs) hpos (Spec.scale g v) hgv.1
    rw [← e, variant_scale] at this
    exact this
  set f : Quat ℝ → List Int := fun s => Spec.idc4 (Spec.up4 (act s)) with hf
  have hI : ∀ s, Spec.HexIdc (Spec.up4 (act s)) := fun s => hexIdc_up (hexIdc_variant hv _ _ _)
  have hS : ∀ s, Spec.HexSmall (Spec.scale g (Spec.up4 (act s))) := by
    intro s
    rw [← up4_scale hg, hact]
    simp only
    rw [← variant_scale]
    exact hexSmall_up (hexSmall_variant hgv _ _ _)
  have hm1 : (symEqv .hexagonal).mapM (eqvDirHex nan (createQ (hexMat b ca))
      (hexMat b ca *ᵥ dirIdc3 (Spec.scale g v))) = .ok ((symEqv .hexagonal).map f) := by
    refine mapM_ok _ fun s hs => ?_
    unfold eqvDirHex
    rw [hdir s hs, upper_dir b hpos, up4_scale hg]
    exact back_dir nan hpos (hI s) hg (hS s)
  have hm2 : (symEqv .hexagonal).mapM (eqvPlaneHex nan (hexMat b ca)
      (createQ (hexMat b ca) *ᵥ planeIdc3 (Spec.scale g v))) = .ok ((symEqv .hexagonal).map f) := by
    refine mapM_ok _ fun s hs => ?_
    unfold eqvPlaneHex
    rw [hplane s hs, upper_plane b hpos, up4_scale hg]
    exact back_plane nan hpos (hI s) hg (hS s)
  have dir_inj : ∀ x y : (Fin 3 → Int) × Int, x.1 0 + x.1 1 + x.1 2 = 0 → y.1 0 + y.1 1 + y.1 2 = 0 →
      hexMat b ca *ᵥ dirIdc3 (Spec.scale g x) = hexMat b ca *ᵥ dirIdc3 (Spec.scale g y) → x = y := by
    intro x y hx hy h
    have h2 := congrArg (fun w => (createQ (hexMat b ca))ᵀ *ᵥ w) h
    rw [Matrix.mulVec_mulVec, Matrix.mulVec_mulVec, mul_eq_one_comm.1 (dual_right b hpos).1,
      Matrix.one_mulVec, Matrix.one_mulVec] at h2
    have a0 := congrFun h2 0
    have a1 := congrFun h2 1
    have a2 := congrFun h2 2
    simp only [dirIdc3, Spec.scale, Matrix.cons_val_zero, Matrix.cons_val_one, Matrix.cons_val] at a0 a1 a2
    have hg' : (g : Int) ≠ 0 := by omega
    have b0 : (g : Int) * (x.1 0 - x.1 2) = g * (y.1 0 - y.1 2) := by
      have : (((g : Int) * (x.1 0 - x.1 2) : Int) : ℝ) = ((g * (y.1 0 - y.1 2) : Int) : ℝ) := by
        push_cast at a0 ⊢; linarith
      exact_mod_cast this
    have b1 : (g : Int) * (x.1 1 - x.1 2) = g * (y.1 1 - y.1 2) := by
      have : (((g : Int) * (x.1 1 - x.1 2) : Int) : ℝ) = ((g * (y.1 1 - y.1 2) : Int) : ℝ) := by
        push_cast at a1 ⊢; linarith
      exact_mod_cast this
    have b2 : (g : Int) * x.2 = g * y.2 := by exact_mod_cast a2
    have b0 := mul_left_cancel₀ hg' b0
    have b1 := mul_left_cancel₀ hg' b1
    have b2 := mul_left_cancel₀ hg' b2
    refine Prod.ext (funext fun i => ?_) b2
    fin_cases i <;> simp <;> omega
  have hopp : ∀ σ s t, Spec.idc4 (Spec.hexVariant σ s t v) ∈ (symEqv .hexagonal).map f ∨
      Spec.idc4 (Spec.hexVariant σ (!s) (!t) v) ∈ (symEqv .hexagonal).map f := by
    intro σ s t
    obtain ⟨q, hq, h⟩ := hex_all' b σ s t
    have hs : q.real ∈ symEqv .hexagonal := List.mem_map.2 ⟨q, hq, rfl⟩
    have inj : ∀ {σ' s' t'}, HexAction b (conjRaw q) σ' s' t' →
        act q.real = Spec.hexVariant σ' s' t' v := by
      intro σ' s' t' h'
      have e := transform_dir h' (hn _ hs) hpos (Spec.scale g v)
      rw [hdir _ hs, variant_scale] at e
      exact dir_inj _ _ (hexIdc_variant hv _ _ _).1 (hexIdc_variant hv _ _ _).1 e
    have key : act q.real = Spec.hexVariant σ s t v ∨ act q.real = Spec.hexVariant σ (!s) (!t) v := by
      rcases h with h | h
      · exact Or.inl (inj h)
      · exact Or.inr (inj h)
    have hmem : f q.real ∈ (symEqv .hexagonal).map f := List.mem_map.2 ⟨_, hs, rfl⟩
    simp only [hf] at hmem
    rcases (up4_cases (act q.real)).1 with e | e <;> rw [e] at hmem
    · rcases key with e' | e' <;> rw [e'] at hmem
      · exact Or.inl hmem
      · exact Or.inr hmem
    · rcases key with e' | e' <;> rw [e', ← hexVariant_neg] at hmem
      · exact Or.inr hmem
      · rw [Bool.not_not, Bool.not_not] at hmem; exact Or.inl hmem
  have hall : ∀ x ∈ (symEqv .hexagonal).map f, ∃ σ s t, x = Spec.idc4 (Spec.hexVariant σ s t v) ∧
      0 ≤ (Spec.hexVariant σ s t v).2 := by
    intro x hx
    obtain ⟨s, hs, rfl⟩ := List.mem_map.1 hx
    obtain ⟨c, c0⟩ := up4_cases (act s)
    rcases c with e | e
    · exact ⟨_, _, _, by simp only [hf]; rw [e], e ▸ c0⟩
    · have e' : Spec.up4 (act s) = Spec.hexVariant (φ s).1 (!(φ s).2.1) (!(φ s).2.2) v := by
        rw [hexVariant_neg]; exact e
      exact ⟨_, _, _, by simp only [hf]; rw [e'], e' ▸ c0⟩
  have hproj : ∀ w : (Fin 3 → Int) × Int,
      projectToOrth dflt ca (some (asReals (Spec.idc4 w))) none "mb" = .ok (hexMat b ca *ᵥ dirIdc3 w) := by
    intro w
    have hne : ¬ ("mb" = "m") := by decide
    simp only [projectToOrth, toMiller, convertIdc, convertDir, mb_lower, asReals, Spec.idc4,
      List.map_cons, List.map_nil, if_neg hne, if_true, Except.bind, hl, matVec, dirIdc3]
  obtain ⟨e1, e2⟩ := eqv_hex_eq dflt nan (Spec.scale g v) (symEqv .hexagonal) hl ty hty
  refine ⟨(symEqv .hexagonal).map f, e1.trans hm1, e2.trans hm2, ?_, ?_, ?_, hall, ?_, hopp⟩
  · rw [List.length_map]
    show (hexagonalExact.map Quat.real).length = 12
    rw [List.length_map]; rfl
  · have h0 : (symEqv .hexagonal).head? = some ⟨1, 0, 0, 0⟩ := by
      rw [List.head?_eq_getElem?]; exact (symEqv_table .hexagonal).head
    have hs : (⟨1, 0, 0, 0⟩ : Quat ℝ) ∈ symEqv .hexagonal := List.mem_of_mem_head? h0
    rw [List.head?_map, h0]
    have : act ⟨1, 0, 0, 0⟩ = v := by
      have e := hdir _ hs
      rw [transform_matrix _ (hn _ hs)] at e
      have h1 : rotMatrix (⟨1, 0, 0, 0⟩ : Quat ℝ) = 1 := by
        ext i j
        fin_cases i <;> fin_cases j <;> simp [rotMatrix]
      rw [h1, Matrix.one_mulVec] at e
      exact (dir_inj _ _ hv.1 (hexIdc_variant hv _ _ _).1 e).symm
    simp [hf, this]
  · intro k s hk
    have hs : s ∈ symEqv .hexagonal := List.mem_of_getElem? hk
    refine ⟨Spec.up4 (act s), _, _, ?_, hproj _, hproj _, ?_⟩
    · rw [List.getElem?_map, hk]; rfl
    · rw [hdir s hs, upper_dir b hpos, up4_scale hg, ← Matrix.mulVec_smul]
      congr 1
      funext i
      fin_cases i <;> simp [dirIdc3, Spec.scale] <;> ring
  · intro σ s t h0
    rcases hopp σ s t with h | h
    · exact h
    · obtain ⟨τ, s', t', e, h1⟩ := hall _ h
      have := congrArg Prod.snd (idc4_injective e)
      rw [hexVariant_neg] at this
      have h2 : -(Spec.hexVariant σ s t v).2 = (Spec.hexVariant τ s' t' v).2 := this
      omega

/-- **C103** What is refused: neither or both of direction and plane, a type of indices that does not exist,
the wrong number of indices, and a hexagonal crystal without the ratio of its lattice parameters. -/
theorem C103_errors (dflt : String) (nan : Int) (g : SymGroup) (syms : List (Quat ℝ)) (d p : List Int)
    (ca : Option ℝ) (ty : Option String) :
    equivalentIdc dflt nan g syms none none ca ty = .error .valueError ∧
    equivalentIdc dflt nan g syms (some d) (some p) ca ty = .error .valueError ∧
    (∀ t, t ≠ "m" → t ≠ "mb" →
      equivalentIdc dflt nan g syms (some d) none ca (some t) = .error .valueError ∧
      equivalentIdc dflt nan g syms none (some p) ca (some t) = .error .valueError) ∧
    (d.length ≠ 3 → equivalentIdc dflt nan .cubic syms (some d) none ca none = .error .valueError) ∧
    (d.length ≠ 4 → equivalentIdc dflt nan .hexagonal syms (some d) none ca none = .error .valueError) ∧
    (p.length = 4 → equivalentIdc dflt nan .hexagonal syms none (some p) none none =
      .error .typeError) ∧
    (d.length = 4 → equivalentIdc dflt nan .hexagonal syms (some d) none none none =
      .error .typeError) := by
  have hne : ¬ ("mb" = "m") := by decide
  have hne' : ¬ ("m" = "mb") := by decide
  refine ⟨rfl, rfl, fun t h1 h2 => ⟨?_, ?_⟩, fun h => ?_, fun h => ?_, fun h => ?_, fun h => ?_⟩
  · simp [equivalentIdc, toMiller, h1, h2, Except.bind]
  · simp [equivalentIdc, toMiller, h1, h2, Except.bind]
  · have h' : (asReals d).length ≠ 3 := by simpa [asReals] using h
    have : threeIdc (asReals d) = .error .valueError := by
      match asReals d, h' with
      | [], _ | [_], _ | [_, _], _ | _ :: _ :: _ :: _ :: _, _ => rfl
      | [_, _, _], h => simp at h
    simp [equivalentIdc, toMiller, Except.bind, eqvLoop, this]
  · have h' : (asReals d).length ≠ 4 := by simpa [asReals] using h
    have : convertDir "mb" (asReals d) = .error .valueError := by
      unfold convertDir
      rw [mb_lower, if_neg hne, if_pos rfl]
      match asReals d, h' with
      | [], _ | [_], _ | [_, _], _ | [_, _, _], _ | _ :: _ :: _ :: _ :: _ :: _, _ => rfl
      | [_, _, _, _], h => simp at h
    simp [equivalentIdc, toMiller, Except.bind, convertIdc, this]
  · match p, h with
    | [a, b, c, e], _ =>
      simp [equivalentIdc, toMiller, Except.bind, convertIdc, convertPlane, mb_lower, asReals, eqvLoop,
        threeIdc]
  · match d, h with
    | [a, b, c, e], _ =>
      simp [equivalentIdc, toMiller, Except.bind, convertIdc, convertDir, mb_lower, asReals, eqvLoop,
        threeIdc]

theorem hexIdc_c : Spec.HexIdc (![0, 0, 0], 1) ∧ Spec.HexSmall (Spec.scale 2 (![0, 0, 0], 1)) := by
  refine ⟨hexIdc_basal.1, by simp [Spec.scale], fun i j => ?_, by simp [Spec.scale]⟩
  fin_cases i <;> fin_cases j <;> simp [Spec.scale]

/-- **C103** Common factors: they are kept for cubic crystals and lost for hexagonal ones. -/
theorem C103_common_factor (dflt : String)
    (hdflt : dflt.toLower = "hkl" ∨ dflt.toLower = "oi" ∨ dflt.toLower = "tsl")
    (nan : Int) (ca : ℝ) (hca : 1 / 10 ^ 10 ≤ ca) :
    (∃ l, equivalentIdc dflt nan .cubic (symEqv .cubic) (some [0, 0, 2]) none none none = .ok l ∧
      [0, 0, 2] ∈ l ∧ [0, 0, 1] ∉ l) ∧
    (∃ l, equivalentIdc dflt nan .hexagonal (symEqv .hexagonal) (some [0, 0, 0, 2]) none (some ca) none =
      .ok l ∧ [0, 0, 0, 1] ∈ l ∧ [0, 0, 0, 2] ∉ l) := by
  constructor
  · obtain ⟨l, h1, -, -, h2, -, h3, -⟩ := C103_cubic dflt nan ![0, 0, 2]
      (fun i => by fin_cases i <;> simp) none none (Or.inl rfl)
    refine ⟨l, h1, List.mem_of_mem_head? h2, fun h => ?_⟩
    obtain ⟨σ, ε, e, -⟩ := h3 _ h
    have e' := congrArg (fun l => l.map fun x => x % 2) e
    have hz : ∀ j : Fin 3, (![0, 0, 2] : Fin 3 → Int) j % 2 = 0 := by intro j; fin_cases j <;> rfl
    simp only [Spec.idc, Spec.variant, List.map_cons, List.map_nil, List.cons.injEq] at e'
    have := e'.2.2.1
    rw [Int.mul_emod, hz] at this
    simp at this
  · obtain ⟨l, h1, -, -, h2, -, h3, -⟩ := C103_hexagonal dflt hdflt nan ca hca (![0, 0, 0], 1) hexIdc_c.1 2
      (by omega) hexIdc_c.2 none (Or.inl rfl)
    refine ⟨l, ?_, List.mem_of_mem_head? h2, fun h => ?_⟩
    · rw [← h1]; simp [Spec.idc4, Spec.scale]
    · obtain ⟨σ, s, t, e, -⟩ := h3 _ h
      simp only [Spec.idc4, Spec.hexVariant, List.cons.injEq] at e
      have := e.2.2.2.1
      cases t <;> simp [Spec.sgn] at this

example : ∃ l, equivalentIdc "hkl" 0 .cubic (symEqv .cubic) (some [1, 2, 3]) none none none = .ok l ∧
    [-3, 2, 1] ∈ l := by
  obtain ⟨l, h1, -, -, -, -, -, h2, -⟩ := C103_cubic "hkl" 0 ![1, 2, 3]
    (fun i => by fin_cases i <;> simp) none none (Or.inl rfl)
  exact ⟨l, h1, h2 (Equiv.swap 0 2) ![true, false, false] (by decide)⟩

end DefDAP
