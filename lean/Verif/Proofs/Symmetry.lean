import Verif.Props.QuatEuler
import Mathlib.NumberTheory.Real.Irrational

/-! Symmetry operators: from exact tables to real quaternions. -/

namespace DefDAP

open Quat

namespace Surd
variable {d : Nat}

theorem real_add (x y : Surd d) : (x + y).real = x.real + y.real := by
  show ((x.a + y.a : ℚ) : ℝ) + ((x.b + y.b : ℚ) : ℝ) * _ = _
  simp only [real]; push_cast; ring

theorem real_sub (x y : Surd d) : (x - y).real = x.real - y.real := by
  show ((x.a - y.a : ℚ) : ℝ) + ((x.b - y.b : ℚ) : ℝ) * _ = _
  simp only [real]; push_cast; ring

theorem real_neg (x : Surd d) : (-x).real = -x.real := by
  show ((-x.a : ℚ) : ℝ) + ((-x.b : ℚ) : ℝ) * _ = _
  simp only [real]; push_cast; ring

theorem real_mul (x y : Surd d) : (x * y).real = x.real * y.real := by
  show ((x.a * y.a + d * (x.b * y.b) : ℚ) : ℝ) + ((x.a * y.b + x.b * y.a : ℚ) : ℝ) * _ = _
  have h : Real.sqrt d * Real.sqrt d = d := Real.mul_self_sqrt (Nat.cast_nonneg d)
  simp only [real]; push_cast
  linear_combination (-(x.b : ℝ) * y.b) * h

theorem real_inj (hd : d.Prime) {x y : Surd d} (h : x.real = y.real) : x = y := by
  have hirr := hd.irrational_sqrt
  have hb : x.b = y.b := by
    by_contra hne
    apply hirr
    have hne' : (y.b - x.b) ≠ 0 := sub_ne_zero.2 (Ne.symm hne)
    refine ⟨(x.a - y.a) / (y.b - x.b), ?_⟩
    have hne2 : ((y.b : ℝ) - x.b) ≠ 0 := by exact_mod_cast hne'
    simp only [real] at h
    push_cast
    rw [div_eq_iff hne2]
    linarith
  have ha : x.a = y.a := by
    simp only [real, hb] at h
    exact_mod_cast add_right_cancel h
  cases x; cases y; simp_all

end Surd

namespace Quat
variable {d : Nat}

theorem real_mulRaw (p q : Quat (Surd d)) : (mulRaw p q).real = mulRaw p.real q.real := by
  ext <;> simp only [Quat.real, mulRaw, Surd.real_add, Surd.real_sub, Surd.real_mul]

theorem real_neg (p : Quat (Surd d)) : p.neg.real = p.real.neg := by
  ext <;> simp only [Quat.real, neg, Surd.real_neg]

theorem real_dot (p q : Quat (Surd d)) : (dot p q).real = dot p.real q.real := by
  simp only [Quat.real, dot, Surd.real_add, Surd.real_mul]

/-- The coefficients of the conjugate, before the choice of hemisphere (`quat.py:325-328`). -/
def conjRaw {α : Type} [Neg α] (p : Quat α) : Quat α := ⟨p.q0, -p.q1, -p.q2, -p.q3⟩

theorem real_conjRaw (p : Quat (Surd d)) : (conjRaw p).real = conjRaw p.real := by
  ext <;> simp only [Quat.real, conjRaw, Surd.real_neg]

end Quat

/-- What is needed of a table of symmetry operators: unit, northern, starting with the identity,
containing the three half turns, closed under product and inverse up to sign, and distinct up to
sign. -/
structure SymTable (l : List (Quat ℝ)) : Prop where
  unit : ∀ s ∈ l, s.IsUnit
  north : ∀ s ∈ l, s.North
  head : l[0]? = some ⟨1, 0, 0, 0⟩
  half : (⟨0, 1, 0, 0⟩ : Quat ℝ) ∈ l ∧ (⟨0, 0, 1, 0⟩ : Quat ℝ) ∈ l ∧ (⟨0, 0, 0, 1⟩ : Quat ℝ) ∈ l
  mul : ∀ s ∈ l, ∀ t ∈ l, mulRaw s t ∈ l ∨ (mulRaw s t).neg ∈ l
  conj : ∀ s ∈ l, conjRaw s ∈ l ∨ (conjRaw s).neg ∈ l
  distinct : l.Pairwise fun s t => s ≠ t ∧ s ≠ t.neg
  far : ∀ s ∈ l, s = ⟨1, 0, 0, 0⟩ ∨ |s.q0| ≤ Real.sqrt 3 / 2

/-- The table of exact operators, checked by computation. -/
structure ExactTable {d : Nat} (l : List (Quat (Surd d))) : Prop where
  unit : ∀ s ∈ l, dot s s = s1
  head : l[0]? = some ⟨s1, s0, s0, s0⟩
  north : ∀ s ∈ l, s.q0 ∈ ([s0, s1, sh, sr] : List (Surd d))
  half : (⟨s0, s1, s0, s0⟩ : Quat (Surd d)) ∈ l ∧ (⟨s0, s0, s1, s0⟩ : Quat (Surd d)) ∈ l ∧
    (⟨s0, s0, s0, s1⟩ : Quat (Surd d)) ∈ l
  mul : ∀ s ∈ l, ∀ t ∈ l, mulRaw s t ∈ l ∨ (mulRaw s t).neg ∈ l
  conj : ∀ s ∈ l, conjRaw s ∈ l ∨ (conjRaw s).neg ∈ l
  distinct : l.Pairwise fun s t => s ≠ t ∧ s ≠ t.neg
  far : ∀ s ∈ l, s = ⟨s1, s0, s0, s0⟩ ∨ s.q0 ∈ ([s0, sh, sr] : List (Surd d))

theorem real_s0 {d : Nat} : (s0 : Surd d).real = 0 := by simp [s0, Surd.real]
theorem real_s1 {d : Nat} : (s1 : Surd d).real = 1 := by simp [s1, Surd.real]
theorem real_sh {d : Nat} : (sh : Surd d).real = 1 / 2 := by simp [sh, Surd.real]
theorem real_sr {d : Nat} : (sr : Surd d).real = Real.sqrt d / 2 := by
  simp [sr, Surd.real]; ring

theorem quat_real_inj {d : Nat} (hd : d.Prime) {p q : Quat (Surd d)} (h : p.real = q.real) :
    p = q := by
  have h0 := Surd.real_inj hd (congrArg Quat.q0 h)
  have h1 := Surd.real_inj hd (congrArg Quat.q1 h)
  have h2 := Surd.real_inj hd (congrArg Quat.q2 h)
  have h3 := Surd.real_inj hd (congrArg Quat.q3 h)
  ext <;> assumption

theorem symTable_of_exact {d : Nat} (hd : d.Prime) (hd3 : d ≤ 3) {l : List (Quat (Surd d))}
    (h : ExactTable l) : SymTable (l.map Quat.real) where
  unit := by
    intro s hs
    obtain ⟨t, ht, rfl⟩ := List.mem_map.1 hs
    rw [isUnit_iff, ← real_dot, h.unit t ht, real_s1]
  north := by
    intro s hs
    obtain ⟨t, ht, rfl⟩ := List.mem_map.1 hs
    have := h.north t ht
    simp only [List.mem_cons, List.not_mem_nil, or_false] at this
    simp only [North, Quat.real]
    rcases this with e | e | e | e <;> rw [e]
    · rw [real_s0]
    · rw [real_s1]; norm_num
    · rw [real_sh]; norm_num
    · rw [real_sr]; positivity
  head := by
    rw [List.getElem?_map, h.head]
    simp [Quat.real, real_s0, real_s1]
  half := by
    refine ⟨List.mem_map.2 ⟨_, h.half.1, ?_⟩, List.mem_map.2 ⟨_, h.half.2.1, ?_⟩,
      List.mem_map.2 ⟨_, h.half.2.2, ?_⟩⟩ <;> simp [Quat.real, real_s0, real_s1]
  mul := by
    intro s hs t ht
    obtain ⟨s', hs', rfl⟩ := List.mem_map.1 hs
    obtain ⟨t', ht', rfl⟩ := List.mem_map.1 ht
    rw [← real_mulRaw, ← real_neg]
    rcases h.mul s' hs' t' ht' with e | e
    · exact .inl (List.mem_map.2 ⟨_, e, rfl⟩)
    · exact .inr (List.mem_map.2 ⟨_, e, rfl⟩)
  conj := by
    intro s hs
    obtain ⟨s', hs', rfl⟩ := List.mem_map.1 hs
    rw [← real_conjRaw, ← real_neg]
    rcases h.conj s' hs' with e | e
    · exact .inl (List.mem_map.2 ⟨_, e, rfl⟩)
    · exact .inr (List.mem_map.2 ⟨_, e, rfl⟩)
  distinct := by
    rw [List.pairwise_map]
    refine h.distinct.imp ?_
    intro s t hst
    refine ⟨fun e => hst.1 (quat_real_inj hd e), fun e => hst.2 (quat_real_inj hd ?_)⟩
    rw [e, real_neg]
  far := by
    intro s hs
    obtain ⟨t, ht, rfl⟩ := List.mem_map.1 hs
    rcases h.far t ht with e | e
    · left; rw [e]; simp [Quat.real, real_s0, real_s1]
    · right
      have h1 : (1 : ℝ) ≤ Real.sqrt 3 := by
        rw [show (1 : ℝ) = Real.sqrt 1 by simp]; exact Real.sqrt_le_sqrt (by norm_num)
      simp only [List.mem_cons, List.not_mem_nil, or_false] at e
      simp only [Quat.real]
      rcases e with e | e | e <;> rw [e]
      · rw [real_s0, abs_zero]; positivity
      · rw [real_sh, abs_of_pos (by norm_num)]; linarith
      · rw [real_sr, abs_of_nonneg (by positivity)]
        have : Real.sqrt d ≤ Real.sqrt 3 := Real.sqrt_le_sqrt (by exact_mod_cast hd3)
        linarith

theorem cubic_table : ExactTable cubicExact where
  unit := by decide +kernel
  head := by decide +kernel
  north := by decide +kernel
  half := by decide +kernel
  mul := by decide +kernel
  conj := by decide +kernel
  distinct := by decide +kernel
  far := by decide +kernel

theorem hexagonal_table : ExactTable hexagonalExact where
  unit := by decide +kernel
  head := by decide +kernel
  north := by decide +kernel
  half := by decide +kernel
  mul := by decide +kernel
  conj := by decide +kernel
  distinct := by decide +kernel
  far := by decide +kernel

theorem symEqv_table (g : SymGroup) : SymTable (symEqv g) := by
  cases g
  · exact symTable_of_exact Nat.prime_two (by norm_num) cubic_table
  · exact symTable_of_exact Nat.prime_three (by norm_num) hexagonal_table

end DefDAP
