import Mathlib.Algebra.Order.Rearrangement
import Verif.Props.SchmidChange
import Verif.Props.IpfColour

/-! C162: inverse pole figure directions of orientations close to each other. -/

namespace DefDAP
open Spec Quat Matrix

/-- For directions in the cubic triangle no equivalents are closer. -/
theorem cubic_nearest {u v a b : Fin 3 → ℝ} (hu : CubicTriangle u) (hv : CubicTriangle v)
    (ha : EqvDir .cubic a u) (hb : EqvDir .cubic b v) : a ⬝ᵥ b ≤ u ⬝ᵥ v := by
  obtain ⟨σ, hσ⟩ := cubic_abs ha
  obtain ⟨τ, hτ⟩ := cubic_abs hb
  have abs_of (w : Fin 3 → ℝ) (hw : CubicTriangle w) : |w 0| = -w 0 ∧ |w 1| = w 1 ∧ |w 2| = w 2 := by
    obtain ⟨h1, h2, h3⟩ := hw
    exact ⟨abs_of_nonpos h1, abs_of_nonneg (by linarith), abs_of_nonneg (by linarith)⟩
  obtain ⟨u0, u1, u2⟩ := abs_of u hu
  obtain ⟨v0, v1, v2⟩ := abs_of v hv
  have mono (w : Fin 3 → ℝ) (hw : CubicTriangle w) : Monotone fun i => |w i| := by
    obtain ⟨w0, w1, w2⟩ := abs_of w hw
    obtain ⟨h1, h2, h3⟩ := hw
    rw [Fin.monotone_iff_le_succ]
    intro i
    fin_cases i
    · show |w 0| ≤ |w 1|
      linarith
    · show |w 1| ≤ |w 2|
      linarith
  have hm : Monovary (fun i => |u i|) fun i => |v i| := (mono u hu).monovary (mono v hv)
  calc a ⬝ᵥ b ≤ ∑ i, |a i| * |b i| := by
        refine Finset.sum_le_sum fun i _ => ?_
        rw [← abs_mul]
        exact le_abs_self _
    _ = ∑ i, |u (σ i)| * |v (τ i)| := by simp only [hσ, hτ]
    _ = ∑ i, |u i| * |v ((σ.symm.trans τ) i)| := by
        rw [← Equiv.sum_comp σ fun i => |u i| * |v ((σ.symm.trans τ) i)|]
        simp
    _ ≤ ∑ i, |u i| * |v i| := hm.sum_mul_comp_perm_le_sum_mul
    _ = u ⬝ᵥ v := by
        rw [Fin.sum_univ_three, u0, u1, u2, v0, v1, v2, dotProduct, Fin.sum_univ_three]
        ring

theorem hex_block_exact : ∀ q ∈ hexagonalExact,
    (exactRotT q 0 0, exactRotT q 1 0, exactRotT q 0 1, exactRotT q 1 1) ∈
      ([(⟨1, 0⟩, ⟨0, 0⟩, ⟨0, 0⟩, ⟨1, 0⟩), (⟨1 / 2, 0⟩, ⟨0, -1 / 2⟩, ⟨0, 1 / 2⟩, ⟨1 / 2, 0⟩),
        (⟨-1 / 2, 0⟩, ⟨0, -1 / 2⟩, ⟨0, 1 / 2⟩, ⟨-1 / 2, 0⟩), (⟨-1, 0⟩, ⟨0, 0⟩, ⟨0, 0⟩, ⟨-1, 0⟩),
        (⟨-1 / 2, 0⟩, ⟨0, 1 / 2⟩, ⟨0, -1 / 2⟩, ⟨-1 / 2, 0⟩), (⟨1 / 2, 0⟩, ⟨0, 1 / 2⟩, ⟨0, -1 / 2⟩, ⟨1 / 2, 0⟩),
        (⟨1, 0⟩, ⟨0, 0⟩, ⟨0, 0⟩, ⟨-1, 0⟩), (⟨1 / 2, 0⟩, ⟨0, 1 / 2⟩, ⟨0, 1 / 2⟩, ⟨-1 / 2, 0⟩),
        (⟨-1 / 2, 0⟩, ⟨0, 1 / 2⟩, ⟨0, 1 / 2⟩, ⟨1 / 2, 0⟩), (⟨-1, 0⟩, ⟨0, 0⟩, ⟨0, 0⟩, ⟨1, 0⟩),
        (⟨-1 / 2, 0⟩, ⟨0, -1 / 2⟩, ⟨0, -1 / 2⟩, ⟨1 / 2, 0⟩), (⟨1 / 2, 0⟩, ⟨0, -1 / 2⟩, ⟨0, -1 / 2⟩, ⟨-1 / 2, 0⟩)] :
        List (Surd 3 × Surd 3 × Surd 3 × Surd 3)) := by decide +kernel

/-- The hexagonal sector at azimuths 90 to 120 degrees, above the basal plane; for `σ = -1` that at 60
to 90 degrees. -/
def HexSector (σ : ℝ) (v : Fin 3 → ℝ) : Prop :=
  0 ≤ -(σ * v 0) ∧ 0 ≤ v 1 + Real.sqrt 3 * (σ * v 0) ∧ 0 ≤ v 2

theorem hex_in_plane {σ t X Y X' Y' a b c d : ℝ} (hσ : σ = 1 ∨ σ = -1) (h3 : t ^ 2 = 3) (h1 : 3 / 2 ≤ t)
    (h2 : t ≤ 2) (hX : 0 ≤ X) (hY : 0 ≤ Y) (hX' : 0 ≤ X') (hY' : 0 ≤ Y')
    (hm : (a = 1 ∧ b = 0 ∧ c = 0 ∧ d = 1) ∨ (a = 1 / 2 ∧ b = -t / 2 ∧ c = t / 2 ∧ d = 1 / 2) ∨
      (a = -1 / 2 ∧ b = -t / 2 ∧ c = t / 2 ∧ d = -1 / 2) ∨ (a = -1 ∧ b = 0 ∧ c = 0 ∧ d = -1) ∨
      (a = -1 / 2 ∧ b = t / 2 ∧ c = -t / 2 ∧ d = -1 / 2) ∨ (a = 1 / 2 ∧ b = t / 2 ∧ c = -t / 2 ∧ d = 1 / 2) ∨
      (a = 1 ∧ b = 0 ∧ c = 0 ∧ d = -1) ∨ (a = 1 / 2 ∧ b = t / 2 ∧ c = t / 2 ∧ d = -1 / 2) ∨
      (a = -1 / 2 ∧ b = t / 2 ∧ c = t / 2 ∧ d = 1 / 2) ∨ (a = -1 ∧ b = 0 ∧ c = 0 ∧ d = 1) ∨
      (a = -1 / 2 ∧ b = -t / 2 ∧ c = -t / 2 ∧ d = 1 / 2) ∨
      (a = 1 / 2 ∧ b = -t / 2 ∧ c = -t / 2 ∧ d = -1 / 2)) :
    |-(σ * X) * (a * -(σ * X') + b * (Y' + t * X')) + (Y + t * X) * (c * -(σ * X') + d * (Y' + t * X'))| ≤
      -(σ * X) * -(σ * X') + (Y + t * X) * (Y' + t * X') := by
  have p1 := mul_nonneg hX hX'
  have p2 := mul_nonneg hX hY'
  have p3 := mul_nonneg hY hX'
  have p4 := mul_nonneg hY hY'
  have e1 : t ^ 2 * (X * X') = 3 * (X * X') := by rw [h3]
  have r1 := mul_nonneg (sub_nonneg.2 h2) p1
  have r2 := mul_nonneg (sub_nonneg.2 h2) p2
  have r3 := mul_nonneg (sub_nonneg.2 h2) p3
  have r4 := mul_nonneg (sub_nonneg.2 h2) p4
  have s1 := mul_nonneg (sub_nonneg.2 h1) p1
  have s2 := mul_nonneg (sub_nonneg.2 h1) p2
  have s3 := mul_nonneg (sub_nonneg.2 h1) p3
  have s4 := mul_nonneg (sub_nonneg.2 h1) p4
  clear h3 h1 h2
  rcases hm with ⟨rfl, rfl, rfl, rfl⟩ | ⟨rfl, rfl, rfl, rfl⟩ | ⟨rfl, rfl, rfl, rfl⟩ | ⟨rfl, rfl, rfl, rfl⟩ |
    ⟨rfl, rfl, rfl, rfl⟩ | ⟨rfl, rfl, rfl, rfl⟩ | ⟨rfl, rfl, rfl, rfl⟩ | ⟨rfl, rfl, rfl, rfl⟩ |
    ⟨rfl, rfl, rfl, rfl⟩ | ⟨rfl, rfl, rfl, rfl⟩ | ⟨rfl, rfl, rfl, rfl⟩ | ⟨rfl, rfl, rfl, rfl⟩ <;>
  rcases hσ with rfl | rfl <;> rw [abs_le] <;> constructor <;> linarith

theorem hex_turn {σ : ℝ} (hσ : σ = 1 ∨ σ = -1) {u v : Fin 3 → ℝ} (hu : HexSector σ u)
    (hv : HexSector σ v) {s : Quat ℝ} (hs : s ∈ symEqv .hexagonal) :
    |u ⬝ᵥ (rotMatrix s *ᵥ v)| ≤ u ⬝ᵥ v := by
  obtain ⟨q, hq, rfl⟩ := List.mem_map.1 hs
  obtain ⟨h1, h1', h2⟩ := hex_axis_exact q hq
  have hb := hex_block_exact q hq
  have e : ∀ i j, rotMatrix q.real i j = (exactRotT q j i).real := fun i j => by
    rw [← exactRotT_real]; rfl
  have h3 : Real.sqrt 3 ^ 2 = 3 := Real.sq_sqrt (by norm_num)
  have h3p : 0 < Real.sqrt 3 := Real.sqrt_pos.2 (by norm_num)
  have h32 : Real.sqrt 3 ≤ 2 := by nlinarith
  have h31 : 3 / 2 ≤ Real.sqrt 3 := by nlinarith
  have cast3 : Real.sqrt ((3 : ℕ) : ℝ) = Real.sqrt 3 := by norm_num
  obtain ⟨a1, a2, a3⟩ := hu
  obtain ⟨b1, b2, b3⟩ := hv
  have plane : |u 0 * ((exactRotT q 0 0).real * v 0 + (exactRotT q 1 0).real * v 1) +
      u 1 * ((exactRotT q 0 1).real * v 0 + (exactRotT q 1 1).real * v 1)| ≤ u 0 * v 0 + u 1 * v 1 := by
    have h := hex_in_plane (a := (exactRotT q 0 0).real) (b := (exactRotT q 1 0).real)
      (c := (exactRotT q 0 1).real) (d := (exactRotT q 1 1).real) hσ h3 h31 h32 a1 a2 b1 b2 ?_
    · have z (w : Fin 3 → ℝ) : -(σ * -(σ * w 0)) = w 0 := by rcases hσ with rfl | rfl <;> ring
      have z' (w : Fin 3 → ℝ) : w 1 + Real.sqrt 3 * (σ * w 0) + Real.sqrt 3 * -(σ * w 0) = w 1 := by ring
      rw [z, z, z', z'] at h
      exact h
    · simp only [List.mem_cons, Prod.mk.injEq, List.not_mem_nil, or_false] at hb
      rcases hb with ⟨x1, x2, x3, x4⟩ | ⟨x1, x2, x3, x4⟩ | ⟨x1, x2, x3, x4⟩ | ⟨x1, x2, x3, x4⟩ |
        ⟨x1, x2, x3, x4⟩ | ⟨x1, x2, x3, x4⟩ | ⟨x1, x2, x3, x4⟩ | ⟨x1, x2, x3, x4⟩ | ⟨x1, x2, x3, x4⟩ |
        ⟨x1, x2, x3, x4⟩ | ⟨x1, x2, x3, x4⟩ | ⟨x1, x2, x3, x4⟩ <;>
      rw [x1, x2, x3, x4] <;> simp only [Surd.real, cast3] <;> push_cast <;>
      [left; (right; left); (iterate 2 right); (iterate 3 right); (iterate 4 right); (iterate 5 right);
        (iterate 6 right); (iterate 7 right); (iterate 8 right); (iterate 9 right); (iterate 10 right);
        (iterate 11 right)] <;>
      first
      | (refine ⟨?_, ?_, ?_, ?_⟩ <;> ring)
      | (left; refine ⟨?_, ?_, ?_, ?_⟩ <;> ring)
  have axis : |u 2 * ((exactRotT q 2 2).real * v 2)| ≤ u 2 * v 2 := by
    have p5 := mul_nonneg a3 b3
    rcases h2 with h | h <;> rw [h] <;> simp only [Surd.real] <;> push_cast <;> rw [abs_le] <;>
      constructor <;> linarith
  have ex : u ⬝ᵥ (rotMatrix q.real *ᵥ v) =
      u 0 * ((exactRotT q 0 0).real * v 0 + (exactRotT q 1 0).real * v 1) +
      u 1 * ((exactRotT q 0 1).real * v 0 + (exactRotT q 1 1).real * v 1) +
      u 2 * ((exactRotT q 2 2).real * v 2) := by
    simp only [Matrix.mulVec, dotProduct, Fin.sum_univ_three, e]
    rw [h1 0 (by decide), h1 1 (by decide), h1' 0 (by decide), h1' 1 (by decide)]
    simp [Surd.real]
  rw [ex]
  refine (abs_add_le _ _).trans ?_
  simp only [dotProduct, Fin.sum_univ_three]
  linarith

/-- The rotations of a crystal into itself: products and inverses. -/
theorem table_quotient {g : SymGroup} {s t : Quat ℝ} (hs : s ∈ symEqv g) (ht : t ∈ symEqv g) :
    ∃ r ∈ symEqv g, rotMatrix r = rotMatrix t * (rotMatrix s)ᵀ := by
  have T := symEqv_table g
  have neg_rot (q : Quat ℝ) : rotMatrix q.neg = rotMatrix q := by
    ext i j
    fin_cases i <;> fin_cases j <;> simp [rotMatrix, Quat.neg]
  have et (r : Quat ℝ) : rotMatrix (conjRaw r) = (rotMatrix r)ᵀ := by
    ext i j
    fin_cases i <;> fin_cases j <;> simp [rotMatrix, conjRaw] <;> ring
  obtain ⟨c, hc, ec⟩ : ∃ c ∈ symEqv g, rotMatrix c = (rotMatrix s)ᵀ := by
    rcases T.conj s hs with h | h
    · exact ⟨_, h, et s⟩
    · exact ⟨_, h, by rw [neg_rot, et]⟩
  rcases T.mul t ht c hc with h | h
  · exact ⟨_, h, by rw [rotMatrix_mulRaw, ec]⟩
  · exact ⟨_, h, by rw [neg_rot, rotMatrix_mulRaw, ec]⟩

/-- For directions in the hexagonal sector no equivalents are closer. -/
theorem hex_nearest {σ : ℝ} (hσ : σ = 1 ∨ σ = -1) {u v a b : Fin 3 → ℝ} (hu : HexSector σ u)
    (hv : HexSector σ v) (ha : EqvDir .hexagonal a u) (hb : EqvDir .hexagonal b v) :
    a ⬝ᵥ b ≤ u ⬝ᵥ v := by
  obtain ⟨s, hs, es⟩ := ha
  obtain ⟨t, ht, et⟩ := hb
  obtain ⟨r, hr, er⟩ := table_quotient ht hs
  have us := (C36_rotation s ((symEqv_table .hexagonal).unit s hs)).2.1
  have ut := (C36_rotation t ((symEqv_table .hexagonal).unit t ht)).2.1
  have key : |a ⬝ᵥ b| = |u ⬝ᵥ (rotMatrix r *ᵥ v)| := by
    have e1 : (rotMatrix s *ᵥ a) ⬝ᵥ (rotMatrix r *ᵥ (rotMatrix t *ᵥ b)) = a ⬝ᵥ b := by
      rw [er, Matrix.mulVec_mulVec, Matrix.mul_assoc, ut, Matrix.mul_one, Matrix.dotProduct_mulVec,
        Matrix.vecMul_mulVec, us, Matrix.vecMul_one]
    rw [← e1]
    rcases es with es | es <;> rcases et with et | et <;> rw [es, et] <;>
      simp [Matrix.mulVec_neg]
  exact (le_abs_self _).trans (key.le.trans (hex_turn hσ hu hv hr))

/-- Directions closer than all equivalents differ by no more than the misorientation. -/
theorem angle_le_mis (g : SymGroup) {p q : Quat ℝ} (hp : p.IsUnit) (hq : q.IsUnit) {d : Fin 3 → ℝ}
    (hd : d ≠ 0) {u v : Fin 3 → ℝ} (hu : EqvDir g (inCrystal p d) u) (hv : EqvDir g (inCrystal q d) v)
    (hn : ∀ a b, EqvDir g a u → EqvDir g b v → a ⬝ᵥ b ≤ u ⬝ᵥ v) :
    Real.arccos (u ⬝ᵥ v) ≤ misAngle g p q := by
  obtain ⟨s, hs, e⟩ := misOri_mem g hp hq
  have us := (symEqv_table g).unit s hs
  have uq := isUnit_mulRaw us hq
  obtain ⟨t, ht, et⟩ := hv
  obtain ⟨r, hr, er⟩ := table_quotient hs ht
  have hpos : 0 < d ⬝ᵥ d := axis_pos hd
  have hd1 : ((1 / Real.sqrt (d ⬝ᵥ d)) • d) ⬝ᵥ ((1 / Real.sqrt (d ⬝ᵥ d)) • d) = 1 := by
    rw [smul_dotProduct, dotProduct_smul]
    have := Real.mul_self_sqrt hpos.le
    have hs : Real.sqrt (d ⬝ᵥ d) ≠ 0 := by
      rw [Real.sqrt_ne_zero']; exact hpos
    simp only [smul_eq_mul]
    field_simp
    linarith
  have hl := loads_close hp uq hd1
  rw [Matrix.mulVec_smul, Matrix.mulVec_smul] at hl
  have hb : EqvDir g (inCrystal (mulRaw s q) d) v := by
    refine ⟨r, hr, ?_⟩
    have : rotMatrix r *ᵥ inCrystal (mulRaw s q) d = rotMatrix t *ᵥ inCrystal q d := by
      unfold inCrystal
      rw [Matrix.mulVec_smul, Matrix.mulVec_smul, rotMatrix_mulRaw, er, Matrix.mulVec_mulVec,
        Matrix.mul_assoc, ← Matrix.mul_assoc _ (rotMatrix s), (C36_rotation s us).2.1, Matrix.one_mul,
        Matrix.mulVec_mulVec]
    rw [this]
    exact et
  have h := hl.trans (hn _ _ hu hb)
  unfold misAngle
  rw [e]
  have h1 := abs_dot_le_one hp uq
  have h0 := abs_nonneg (dot p (mulRaw s q))
  have hc : Real.cos (2 * Real.arccos |dot p (mulRaw s q)|) = 2 * dot p (mulRaw s q) ^ 2 - 1 := by
    rw [Real.cos_two_mul, Real.cos_arccos (by linarith) h1, sq_abs]
  have hr1 : Real.arccos |dot p (mulRaw s q)| ≤ Real.pi / 2 := Real.arccos_le_pi_div_two.2 h0
  rw [← Real.arccos_cos (mul_nonneg zero_le_two (Real.arccos_nonneg _)) (by linarith), hc]
  exact Real.arccos_le_arccos h

theorem forall₂_at {α β : Type} {P : α → β → Prop} {l : List α} {m : List β} (h : List.Forall₂ P l m)
    {k : Nat} {a : α} {b : β} (h1 : l[k]? = some a) (h2 : m[k]? = some b) : P a b := by
  obtain ⟨l1, g1⟩ := List.getElem?_eq_some_iff.1 h1
  obtain ⟨l2, g2⟩ := List.getElem?_eq_some_iff.1 h2
  have := (List.forall₂_iff_get.1 h).2 k l1 l2
  simp only [List.get_eq_getElem, g1, g2] at this
  exact this

/-- **C162**: the directions of an inverse pole figure of two cubic crystals differ by no more than the
misorientation angle, unless a cube axis of one of them is exactly along the sample direction. -/
theorem C162_cubic (triangle : String) (quats : List (Quat ℝ)) (hq : ∀ q ∈ quats, q.IsUnit)
    (d : Fin 3 → ℝ) (hd : d ≠ 0) :
    ∃ out, calcFundDirs .cubic triangle quats d = .ok out ∧ out.length = quats.length ∧
      ∀ (i j : Nat) (p q : Quat ℝ) (ab ab' : ℝ × ℝ), quats[i]? = some p → quats[j]? = some q →
        out[i]? = some ab → out[j]? = some ab' →
        (∀ k, |inCrystal p d k| ≠ 1) → (∀ k, |inCrystal q d k| ≠ 1) →
        Real.arccos (poleDir ab ⬝ᵥ poleDir ab') ≤ misAngle .cubic p q := by
  obtain ⟨out, e, h⟩ := C45_cubic triangle quats hq d hd
  refine ⟨out, e, h.length_eq.symm, ?_⟩
  intro i j p q ab ab' hi hj oi oj hp hp'
  obtain ⟨e1, -, -, t1⟩ := forall₂_at h hi oi
  obtain ⟨e2, -, -, t2⟩ := forall₂_at h hj oj
  exact angle_le_mis .cubic (hq p (List.mem_of_getElem? hi)) (hq q (List.mem_of_getElem? hj)) hd e1 e2
    fun a b ha hb => cubic_nearest (t1 hp) (t2 hp') ha hb

/-- The sector of the azimuths of a triangle. -/
theorem hexSector_of {triangle : String} (ht : triangle = "up" ∨ triangle = "down") {ab : ℝ × ℝ}
    (h1 : 0 ≤ ab.1 ∧ ab.1 ≤ Real.pi / 2)
    (h2 : (hexBounds triangle).1 ≤ ab.2 ∧ ab.2 ≤ (hexBounds triangle).2) :
    HexSector (if triangle = "up" then 1 else -1) (poleDir ab) := by
  have hpi := Real.pi_pos
  have hs : 0 ≤ Real.sin ab.1 := Real.sin_nonneg_of_nonneg_of_le_pi h1.1 (by linarith [h1.2])
  have hc : 0 ≤ Real.cos ab.1 := Real.cos_nonneg_of_mem_Icc ⟨by linarith [h1.1], h1.2⟩
  have c3 := Real.cos_pi_div_three
  have s3 := Real.sin_pi_div_three
  have h3 : Real.sqrt 3 ^ 2 = 3 := Real.sq_sqrt (by norm_num)
  rcases ht with rfl | rfl
  · simp only [hexBounds, if_true] at h2 ⊢
    have k1 : Real.cos ab.2 ≤ 0 := Real.cos_nonpos_of_pi_div_two_le_of_le h2.1 (by linarith [h2.2])
    have k2 : 0 ≤ Real.sin (ab.2 + Real.pi / 3) :=
      Real.sin_nonneg_of_nonneg_of_le_pi (by linarith [h2.1]) (by linarith [h2.2])
    rw [Real.sin_add, c3, s3] at k2
    refine ⟨?_, ?_, ?_⟩ <;> simp only [poleDir, cons_val_zero, cons_val_one, cons_val]
    · nlinarith
    · nlinarith
    · exact hc
  · have ne : ¬ ("down" = "up") := by decide
    simp only [hexBounds, if_neg ne] at h2 ⊢
    have k1 : 0 ≤ Real.cos ab.2 := Real.cos_nonneg_of_mem_Icc ⟨by linarith [h2.1], h2.2⟩
    have k2 : 0 ≤ Real.sin (ab.2 - Real.pi / 3) :=
      Real.sin_nonneg_of_nonneg_of_le_pi (by linarith [h2.1]) (by linarith [h2.2])
    rw [Real.sin_sub, c3, s3] at k2
    refine ⟨?_, ?_, ?_⟩ <;> simp only [poleDir, cons_val_zero, cons_val_one, cons_val]
    · nlinarith
    · nlinarith
    · exact hc

/-- **C162**: the same for hexagonal crystals, if none of them has its axis along the sample
direction. -/
theorem C162_hexagonal {triangle : String} (ht : triangle = "up" ∨ triangle = "down")
    (quats : List (Quat ℝ)) (hq : ∀ q ∈ quats, q.IsUnit) (d : Fin 3 → ℝ) (hd : d ≠ 0)
    (hoff : ∀ q ∈ quats, inCrystal q d 0 ≠ 0 ∨ inCrystal q d 1 ≠ 0) :
    ∃ out, calcFundDirs .hexagonal triangle quats d = .ok out ∧ out.length = quats.length ∧
      ∀ (i j : Nat) (p q : Quat ℝ) (ab ab' : ℝ × ℝ), quats[i]? = some p → quats[j]? = some q →
        out[i]? = some ab → out[j]? = some ab' →
        Real.arccos (poleDir ab ⬝ᵥ poleDir ab') ≤ misAngle .hexagonal p q := by
  obtain ⟨out, e, h⟩ := C45_hexagonal ht quats hq d hd hoff
  refine ⟨out, e, h.length_eq.symm, ?_⟩
  intro i j p q ab ab' hi hj oi oj
  obtain ⟨e1, a1, b1⟩ := forall₂_at h hi oi
  obtain ⟨e2, a2, b2⟩ := forall₂_at h hj oj
  exact angle_le_mis .hexagonal (hq p (List.mem_of_getElem? hi)) (hq q (List.mem_of_getElem? hj)) hd e1 e2
    fun a b ha hb => hex_nearest (by split_ifs <;> simp) (hexSector_of ht a1 b1) (hexSector_of ht a2 b2) ha hb

/-- **C162**: for cubic crystals with a cube axis exactly along the sample direction there is no such
bound: as close as one likes are orientations whose reported directions are at least 45 degrees
apart. -/
theorem C162_cube_axis (triangle : String) (δ : ℝ) (hδ : 0 < δ) :
    ∃ p q : Quat ℝ, p.IsUnit ∧ q.IsUnit ∧ misAngle .cubic p q ≤ δ ∧
      ∃ ab ab', calcFundDirs .cubic triangle [p, q] ![0, 0, 1] = .ok [ab, ab'] ∧
        Real.pi / 4 ≤ Real.arccos (poleDir ab ⬝ᵥ poleDir ab') := by
  have hm : 0 < min δ (1 / 2) := lt_min hδ (by norm_num)
  have hm1 : min δ (1 / 2) ≤ 1 / 2 := min_le_right _ _
  have hpi := Real.two_le_pi
  have hd : (![0, 0, 1] : Fin 3 → ℝ) ≠ 0 := fun h => by simpa using congrFun h 2
  set c := Real.cos (min δ (1 / 2) / 2) with hc
  set s := Real.sin (min δ (1 / 2) / 2) with hs
  have cs : s ^ 2 + c ^ 2 = 1 := Real.sin_sq_add_cos_sq _
  have c0 : 0 < c := Real.cos_pos_of_mem_Ioo ⟨by linarith, by linarith⟩
  have s0 : 0 < s := Real.sin_pos_of_pos_of_lt_pi (by linarith) (by linarith)
  have sc : s < c := by
    have h4 : min δ (1 / 2) / 2 < Real.pi / 2 - min δ (1 / 2) / 2 := by linarith
    have := Real.sin_lt_sin_of_lt_of_le_pi_div_two (x := min δ (1 / 2) / 2) (y := Real.pi / 2 - min δ (1 / 2) / 2)
      (by linarith) (by linarith) h4
    rwa [Real.sin_pi_div_two_sub] at this
  have up : (⟨1, 0, 0, 0⟩ : Quat ℝ).IsUnit := by simp [Quat.IsUnit]
  have uq : (⟨c, s, 0, 0⟩ : Quat ℝ).IsUnit := by
    show c ^ 2 + s ^ 2 + 0 ^ 2 + 0 ^ 2 = 1
    linarith
  refine ⟨⟨1, 0, 0, 0⟩, ⟨c, s, 0, 0⟩, up, uq, ?_, ?_⟩
  · have hg := misOri_ge (symEqv .cubic) ⟨1, 0, 0, 0⟩ ⟨c, s, 0, 0⟩ _ (head_mem (symEqv_table .cubic))
    have ed : |dot (⟨1, 0, 0, 0⟩ : Quat ℝ) (mulRaw ⟨1, 0, 0, 0⟩ ⟨c, s, 0, 0⟩)| = c := by
      simp only [dot, mulRaw]
      rw [← abs_of_pos c0]
      congr 1
      rw [abs_of_pos c0]
      ring
    rw [ed] at hg
    unfold misAngle
    have := Real.arccos_le_arccos hg
    rw [hc, Real.arccos_cos (by linarith) (by linarith)] at this
    linarith [min_le_left δ (1 / 2)]
  · have hu : ∀ q ∈ [(⟨1, 0, 0, 0⟩ : Quat ℝ), ⟨c, s, 0, 0⟩], q.IsUnit := by
      simp only [List.mem_cons, List.not_mem_nil, or_false, forall_eq_or_imp, forall_eq]
      exact ⟨up, uq⟩
    obtain ⟨out, e, h⟩ := C45_cubic triangle _ hu _ hd
    obtain ⟨out', e', h'⟩ := C45_cube_axis triangle _ hu _ hd
    rw [e] at e'
    cases e'
    have ip : inCrystal ⟨1, 0, 0, 0⟩ ![0, 0, 1] = ![0, 0, 1] := by
      funext i
      fin_cases i <;> simp [inCrystal, rotMatrix, dotProduct, Fin.sum_univ_three]
    have iq : inCrystal ⟨c, s, 0, 0⟩ ![0, 0, 1] = ![0, inCrystal ⟨c, s, 0, 0⟩ ![0, 0, 1] 1, c ^ 2 - s ^ 2] := by
      funext i
      fin_cases i <;> simp [inCrystal, rotMatrix, dotProduct, Fin.sum_univ_three]
    match out, h, h' with
    | [ab, ab'], .cons h1 (.cons h2 .nil), .cons h1' _ =>
    refine ⟨ab, ab', e, ?_⟩
    obtain ⟨x, -⟩ := h1' ⟨2, by rw [ip]; simp⟩
    have un := inCrystal_unit uq hd
    unfold UnitDir at un
    rw [iq] at un h2
    generalize inCrystal ⟨c, s, 0, 0⟩ ![0, 0, 1] 1 = y at un h2
    simp only [cons_val_zero, cons_val_one, cons_val] at un
    have s2 : 0 < s ^ 2 := by positivity
    have d2 : 0 < c ^ 2 - s ^ 2 := by nlinarith
    obtain ⟨h3, h4, h5⟩ := h2.2.2.2 (by
      intro i hi
      have := congrArg (· ^ 2) hi
      simp only [sq_abs, one_pow] at this
      fin_cases i
      · simp at this
      · have : y ^ 2 = 1 := by simpa using this
        nlinarith
      · have : (c ^ 2 - s ^ 2) ^ 2 = 1 := by simpa using this
        nlinarith)
    have uv' : poleDir ab' ⬝ᵥ poleDir ab' = 1 := by
      have h1 := Real.sin_sq_add_cos_sq ab'.1
      have h2 := Real.sin_sq_add_cos_sq ab'.2
      simp [poleDir, dotProduct, Fin.sum_univ_three]
      linear_combination h1 + Real.sin ab'.1 ^ 2 * h2
    have e1 : poleDir ab ⬝ᵥ poleDir ab' = poleDir ab' 1 := by
      rw [x]
      simp [poleDir, dotProduct, Fin.sum_univ_three]
    rw [e1, ← Real.arccos_cos (x := Real.pi / 4) (by linarith) (by linarith), Real.cos_pi_div_four]
    refine Real.arccos_le_arccos ?_
    simp only [dotProduct, Fin.sum_univ_three] at uv'
    refine (le_abs_self _).trans (abs_le_of_sq_le_sq ?_ (by positivity))
    rw [div_pow, Real.sq_sqrt (by norm_num)]
    nlinarith

/-- Two cubic crystals without a cube axis along the direction `[1, 2, 3]`. -/
example : ∃ p q : Quat ℝ, p.IsUnit ∧ q.IsUnit ∧ (![1, 2, 3] : Fin 3 → ℝ) ≠ 0 ∧ p ≠ q ∧
    (∀ k, |inCrystal p ![1, 2, 3] k| ≠ 1) ∧ (∀ k, |inCrystal q ![1, 2, 3] k| ≠ 1) ∧
    (inCrystal p ![1, 2, 3] 0 ≠ 0) ∧ inCrystal q ![1, 2, 3] 0 ≠ 0 := by
  have n : (![1, 2, 3] : Fin 3 → ℝ) ⬝ᵥ ![1, 2, 3] = 14 := by
    simp [dotProduct, Fin.sum_univ_three]; norm_num
  have h14 : Real.sqrt 14 ^ 2 = 14 := Real.sq_sqrt (by norm_num)
  have h0 : 0 < Real.sqrt 14 := Real.sqrt_pos.2 (by norm_num)
  have up : (⟨1, 0, 0, 0⟩ : Quat ℝ).IsUnit := by simp [Quat.IsUnit]
  have uq : (⟨0, 0, 0, 1⟩ : Quat ℝ).IsUnit := by simp [Quat.IsUnit]
  have ip : inCrystal ⟨1, 0, 0, 0⟩ ![1, 2, 3] = ![1 / Real.sqrt 14, 2 / Real.sqrt 14, 3 / Real.sqrt 14] := by
    funext i
    rw [inCrystal, n]
    fin_cases i <;> simp [rotMatrix] <;> ring
  have iq : inCrystal ⟨0, 0, 0, 1⟩ ![1, 2, 3] =
      ![-1 / Real.sqrt 14, -2 / Real.sqrt 14, 3 / Real.sqrt 14] := by
    funext i
    rw [inCrystal, n]
    fin_cases i <;> simp [rotMatrix] <;> ring
  have ne (x : ℝ) (hx : x ^ 2 ≠ 14) : |x / Real.sqrt 14| ≠ 1 := by
    intro h
    have := congrArg (· ^ 2) h
    simp only [sq_abs, one_pow, div_pow, h14] at this
    apply hx
    linarith
  refine ⟨_, _, up, uq, fun h => by simpa using congrFun h 0, ?_, ?_, ?_, ?_, ?_⟩
  · intro h
    have := congrArg Quat.q0 h
    norm_num at this
  · rw [ip]
    intro k
    fin_cases k <;> exact ne _ (by norm_num)
  · rw [iq]
    intro k
    fin_cases k <;> exact ne _ (by norm_num)
  · rw [ip]; simp
  · rw [iq]; simp

end DefDAP
