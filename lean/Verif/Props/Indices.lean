import Verif.Model.CrystalUtils
import Mathlib.Tactic.Ring
import Mathlib.Tactic.Linarith
import Mathlib.Tactic.NormNum
import Mathlib.Tactic.FieldSimp
import Mathlib.Algebra.GCDMonoid.Nat
import Mathlib.Data.Int.GCD

/-! C49-C53: arithmetic of crystallographic indices. -/

namespace DefDAP

section
variable {K : Type} [Field K] [LinearOrder K] [FloorRing K] [IsStrictOrderedRing K]

theorem npRound_cases (x : K) :
    (npRound x = ⌊x⌋ ∧ x - ⌊x⌋ ≤ 1 / 2) ∨ (npRound x = ⌊x⌋ + 1 ∧ 1 / 2 ≤ x - ⌊x⌋) := by
  unfold npRound
  simp only
  split
  · exact Or.inl ⟨rfl, le_of_lt ‹_›⟩
  · rename_i h1
    split
    · exact Or.inr ⟨rfl, le_of_lt ‹_›⟩
    · rename_i h2
      have e : x - ⌊x⌋ = 1 / 2 := le_antisymm (not_lt.1 h2) (not_lt.1 h1)
      split
      · exact Or.inl ⟨rfl, e.le⟩
      · exact Or.inr ⟨rfl, e.ge⟩

/-- `np.round` goes to a nearest integer. -/
theorem npRound_nearest (x : K) (n : Int) : |x - npRound x| ≤ |x - n| := by
  have h0 := Int.floor_le x
  have h1 := Int.lt_floor_add_one x
  have hn : n ≤ ⌊x⌋ ∨ ⌊x⌋ + 1 ≤ n := by omega
  have b : |x - npRound x| ≤ x - ⌊x⌋ ∧ |x - npRound x| ≤ ⌊x⌋ + 1 - x := by
    rcases npRound_cases x with ⟨e, h⟩ | ⟨e, h⟩
    · rw [e, abs_of_nonneg (by linarith)]
      constructor <;> linarith
    · rw [e, abs_of_nonpos (by push_cast; linarith)]
      push_cast
      constructor <;> linarith
  rcases hn with hn | hn
  · have : (n : K) ≤ ⌊x⌋ := by exact_mod_cast hn
    refine b.1.trans (le_trans ?_ (le_abs_self _))
    linarith
  · have : ((⌊x⌋ : K) + 1) ≤ n := by exact_mod_cast hn
    refine b.2.trans (le_trans ?_ (neg_le_abs _))
    linarith

theorem npRound_int (n : Int) : npRound (n : K) = n := by
  have h := npRound_nearest (n : K) n
  rw [sub_self, abs_zero] at h
  have := abs_nonpos_iff.1 h
  rw [sub_eq_zero] at this
  exact_mod_cast this.symm

theorem npRound_unique {x : K} {n : Int} (h : |x - n| < 1 / 2) : npRound x = n := by
  have h1 := npRound_nearest x n
  have h2 : |((npRound x : K)) - n| < 1 := by
    have : (npRound x : K) - n = -(x - npRound x) + (x - n) := by ring
    rw [this]
    refine lt_of_le_of_lt (abs_add_le _ _) ?_
    rw [abs_neg]
    linarith
  have h3 : |npRound x - n| < 1 := by exact_mod_cast h2
  have := abs_lt.1 h3
  omega

theorem int8_id {z : Int} (h : -128 ≤ z ∧ z ≤ 127) : int8 z = z := by
  unfold int8; omega

theorem int8_range (z : Int) : -128 ≤ int8 z ∧ int8 z ≤ 127 := by
  unfold int8; omega

/-- **C52** Casting to integers succeeds exactly when every value is within the tolerance of some
integer; otherwise it is a `ValueError`. -/
theorem C52_succeeds (vec : List K) (tol : K) :
    (∀ x ∈ vec, ∃ n : Int, |x - n| ≤ tol) ↔ ∃ l, safeIntCast vec tol = .ok l := by
  unfold safeIntCast
  by_cases h : (vec.any fun x => decide (tol < |x - npRound x|)) = true
  · rw [if_pos h]
    refine ⟨fun hv => ?_, fun ⟨l, hl⟩ => by cases hl⟩
    obtain ⟨x, hx, hd⟩ := List.any_eq_true.1 h
    obtain ⟨n, hn⟩ := hv x hx
    have := npRound_nearest x n
    have hd := of_decide_eq_true hd
    exact absurd (lt_of_lt_of_le hd (this.trans hn)) (lt_irrefl _)
  · rw [if_neg h]
    refine ⟨fun _ => ⟨_, rfl⟩, fun _ x hx => ⟨npRound x, ?_⟩⟩
    by_contra hc
    exact h (List.any_eq_true.2 ⟨x, hx, decide_eq_true (not_le.1 hc)⟩)

/-- **C52** A failed cast is a `ValueError`. -/
theorem C52_fails (vec : List K) (tol : K) (x : K) (hx : x ∈ vec)
    (h : ∀ n : Int, tol < |x - n|) : safeIntCast vec tol = .error .valueError := by
  unfold safeIntCast
  rw [if_pos]
  exact List.any_eq_true.2 ⟨x, hx, decide_eq_true (h _)⟩

/-- **C52** The values returned: the nearest integers if these fit in 8 bits (a value within less
than 1/2 of an integer has only one nearest integer). -/
theorem C52_value (vec : List K) (tol : K) (l : List Int) (h : safeIntCast vec tol = .ok l) :
    l.length = vec.length ∧ ∀ (i : Nat) (x : K) (z : Int), vec[i]? = some x → l[i]? = some z →
      (-128 ≤ z ∧ z ≤ 127) ∧
      ∀ n : Int, |x - n| < 1 / 2 → -128 ≤ n → n ≤ 127 → z = n := by
  unfold safeIntCast at h
  split at h
  · cases h
  · cases h
    refine ⟨List.length_map _, fun i x z hx hz => ?_⟩
    rw [List.getElem?_map, hx] at hz
    cases hz
    refine ⟨int8_range _, fun n hn h1 h2 => ?_⟩
    show int8 (npRound x) = n
    rw [npRound_unique hn, int8_id ⟨h1, h2⟩]

theorem safeIntCast_int (l : List Int) (tol : K) (ht : 0 ≤ tol) :
    safeIntCast (l.map fun (z : Int) => (z : K)) tol = .ok (l.map int8) := by
  unfold safeIntCast
  rw [if_neg]
  · rw [List.map_map]
    congr 1
    refine List.map_congr_left fun x _ => ?_
    simp [npRound_int]
  · intro h
    obtain ⟨x, hx, hd⟩ := List.any_eq_true.1 h
    obtain ⟨z, _, rfl⟩ := List.mem_map.1 hx
    have hd := of_decide_eq_true hd
    rw [npRound_int, sub_self, abs_zero] at hd
    exact absurd ht (not_le.2 hd)

end

/-- Outside 8 bits the cast returns a different integer: 200 becomes -56. -/
theorem C52_overflow : safeIntCast [(200 : Rat)] = .ok [-56] := by decide +kernel

/-- The hypotheses of C52 on a concrete vector. -/
example : safeIntCast [(2 : Rat) + 1 / 2000, -1, 0] = .ok [2, -1, 0] := by decide +kernel
example : safeIntCast [(2 : Rat) + 1 / 500] = .error .valueError := by decide +kernel

/-! ### C49 -/

/-- Zone law in three indices. -/
def Spec.zone3 (p d : Int × Int × Int) : Int := p.1 * d.1 + p.2.1 * d.2.1 + p.2.2 * d.2.2

section
variable {K : Type} [Field K] [LinearOrder K] [FloorRing K] [IsStrictOrderedRing K]

omit [IsStrictOrderedRing K] in
/-- **C49** A plane in three indices: to four indices (with `i = -(h + k)`) and back. -/
theorem C49_plane_roundtrip (m mb : String) (hm : m.toLower = "m") (hmb : mb.toLower = "mb")
    (h k l : K) :
    convertIdc m none (some [h, k, l]) = .ok [h, k, -(h + k), l] ∧
    convertIdc mb none (some [h, k, -(h + k), l]) = .ok [h, k, l] := by
  simp [convertIdc, convertPlane, hm, hmb]

omit [IsStrictOrderedRing K] in
/-- **C49** A plane in four indices whose first three add up to zero: to three indices and
back. -/
theorem C49_plane_roundtrip4 (m mb : String) (hm : m.toLower = "m") (hmb : mb.toLower = "mb")
    (h k i l : K) (hs : h + k + i = 0) :
    ∃ p, convertIdc mb none (some [h, k, i, l]) = .ok p ∧
      convertIdc m none (some p) = .ok [h, k, i, l] := by
  refine ⟨[h, k, l], by simp [convertIdc, convertPlane, hmb], ?_⟩
  have : i = (h + k) * -1 := by linear_combination hs
  simp [convertIdc, convertPlane, hm, this]

theorem tryCast_int (l : List Int) (h : ∀ z ∈ l, -128 ≤ z ∧ z ≤ 127) :
    tryCast (l.map fun (z : Int) => (z : K)) = l.map fun (z : Int) => (z : K) := by
  unfold tryCast
  rw [safeIntCast_int l _ (by norm_num)]
  simp only
  rw [List.map_map]
  refine List.map_congr_left fun x hx => ?_
  simp [int8_id (h x hx)]

theorem tryCast_far (l : List K) (x : K) (hx : x ∈ l) (h : ∀ n : Int, 1 / 1000 < |x - n|) :
    tryCast l = l := by
  unfold tryCast
  rw [C52_fails l _ x hx h]

/-- A third of an integer that is not a multiple of three is far from all integers. -/
theorem third_far {z : Int} (h : z % 3 ≠ 0) (n : Int) : (1 : K) / 1000 < |(z : K) / 3 - n| := by
  have e : (z : K) / 3 - n = ((z - 3 * n : Int) : K) / 3 := by push_cast; ring
  have h1 : 1 ≤ |z - 3 * n| := by
    refine Int.one_le_abs ?_
    omega
  have h2 : (1 : K) ≤ |((z - 3 * n : Int) : K)| := by
    rw [← Int.cast_abs]; exact_mod_cast h1
  rw [e, abs_div, abs_of_pos (by norm_num : (0 : K) < 3)]
  rw [lt_div_iff₀ (by norm_num)]
  linarith

/-- The four indices of a direction given by three integers, without rounding. -/
theorem convertDir_exact (u v w : Int)
    (hb : (2 * u - v) % 3 ≠ 0 ∨
      ∀ z ∈ [(2 * u - v) / 3, (2 * v - u) / 3, (-u - v) / 3, w], -128 ≤ z ∧ z ≤ 127) :
    tryCast [(2 * (u : K) - v) / 3, (2 * v - u) / 3, (-u - v) / 3, 3 * w / 3] =
      [(2 * (u : K) - v) / 3, (2 * v - u) / 3, (-u - v) / 3, w] := by
  have ew : (3 : K) * w / 3 = w := by field_simp
  rw [ew]
  by_cases h3 : (2 * u - v) % 3 = 0
  · have hb := hb.resolve_left (fun hc => hc h3)
    obtain ⟨a, ha⟩ : ∃ a, 2 * u - v = 3 * a := ⟨(2 * u - v) / 3, by omega⟩
    obtain ⟨b, hb'⟩ : ∃ b, 2 * v - u = 3 * b := ⟨(2 * v - u) / 3, by omega⟩
    obtain ⟨c, hc⟩ : ∃ c, -u - v = 3 * c := ⟨(-u - v) / 3, by omega⟩
    have e1 : (2 * (u : K) - v) / 3 = (a : K) := by
      have : (2 * (u : K) - v) = 3 * a := by exact_mod_cast ha
      rw [this]; field_simp
    have e2 : (2 * (v : K) - u) / 3 = (b : K) := by
      have : (2 * (v : K) - u) = 3 * b := by exact_mod_cast hb'
      rw [this]; field_simp
    have e3 : (-(u : K) - v) / 3 = (c : K) := by
      have : (-(u : K) - v) = 3 * c := by exact_mod_cast hc
      rw [this]; field_simp
    rw [e1, e2, e3]
    refine tryCast_int [a, b, c, w] ?_
    have f1 : (2 * u - v) / 3 = a := by omega
    have f2 : (2 * v - u) / 3 = b := by omega
    have f3 : (-u - v) / 3 = c := by omega
    rwa [f1, f2, f3] at hb
  · refine tryCast_far _ ((2 * (u : K) - v) / 3) (by simp) fun n => ?_
    have := third_far (K := K) h3 n
    push_cast at this
    exact this

/-- **C49** A direction in three integer indices: the four indices add up to zero in the first
three and converting back gives the original. The four indices, where they are integers, must
fit in 8 bits. -/
theorem C49_dir_roundtrip (m mb : String) (hm : m.toLower = "m") (hmb : mb.toLower = "mb")
    (u v w : Int)
    (hb : (2 * u - v) % 3 ≠ 0 ∨
      ∀ z ∈ [(2 * u - v) / 3, (2 * v - u) / 3, (-u - v) / 3, w], -128 ≤ z ∧ z ≤ 127) :
    ∃ u' v' t' w' : K, convertIdc m (some [(u : K), (v : K), (w : K)]) none = .ok [u', v', t', w'] ∧
      u' + v' + t' = 0 ∧
      convertIdc mb (some [u', v', t', w']) none = .ok [(u : K), (v : K), (w : K)] := by
  refine ⟨(2 * (u : K) - v) / 3, (2 * v - u) / 3, (-u - v) / 3, w, ?_, by ring, ?_⟩
  · simp only [convertIdc, convertDir, if_pos hm]
    rw [convertDir_exact u v w hb]
  · have h1 : ¬ ("mb" = "m") := by decide
    simp only [convertIdc, convertDir, hmb, if_neg h1, if_true]
    congr 2
    · ring
    · congr 1
      ring

/-- **C49** A direction in four integer indices of 8 bits whose first three add up to zero: to
three indices and back. -/
theorem C49_dir_roundtrip4 (m mb : String) (hm : m.toLower = "m") (hmb : mb.toLower = "mb")
    (u v t w : Int) (hs : u + v + t = 0)
    (hb : ∀ z ∈ [u, v, t, w], -128 ≤ z ∧ z ≤ 127) :
    ∃ d : List K, convertIdc mb (some [(u : K), (v : K), (t : K), (w : K)]) none = .ok d ∧
      convertIdc m (some d) none = .ok [(u : K), (v : K), (t : K), (w : K)] := by
  have h1 : ¬ ("mb" = "m") := by decide
  have hk : (u : K) + v + t = 0 := by exact_mod_cast hs
  refine ⟨[(u : K) - t, (v : K) - t, (w : K)], ?_, ?_⟩
  · simp [convertIdc, convertDir, hmb]
  · simp only [convertIdc, convertDir, if_pos hm]
    have e1 : (2 * ((u : K) - t) - (v - t)) / 3 = u := by
      have : (t : K) = -u - v := by linear_combination hk
      rw [this]; field_simp; ring
    have e2 : (2 * ((v : K) - t) - (u - t)) / 3 = v := by
      have : (t : K) = -u - v := by linear_combination hk
      rw [this]; field_simp; ring
    have e3 : (-((u : K) - t) - (v - t)) / 3 = t := by
      have : (t : K) = -u - v := by linear_combination hk
      rw [this]; field_simp; ring
    have e4 : (3 : K) * w / 3 = w := by field_simp
    rw [e1, e2, e3, e4]
    congr 1
    exact tryCast_int [u, v, t, w] hb

/-- **C49** Zone law: a plane contains a direction in three indices exactly when it does in four
(the two sums of products are the same number). -/
theorem C49_zone (m : String) (hm : m.toLower = "m") (h k l u v w : Int)
    (hb : (2 * u - v) % 3 ≠ 0 ∨
      ∀ z ∈ [(2 * u - v) / 3, (2 * v - u) / 3, (-u - v) / 3, w], -128 ≤ z ∧ z ≤ 127)
    (p0 p1 p2 p3 d0 d1 d2 d3 : K)
    (hp : convertIdc m none (some [(h : K), (k : K), (l : K)]) = .ok [p0, p1, p2, p3])
    (hd : convertIdc m (some [(u : K), (v : K), (w : K)]) none = .ok [d0, d1, d2, d3]) :
    p0 * d0 + p1 * d1 + p2 * d2 + p3 * d3 = (Spec.zone3 (h, k, l) (u, v, w) : K) := by
  rw [(C49_plane_roundtrip m "mb" hm (by with_unfolding_all rfl) (h : K) k l).1] at hp
  simp only [convertIdc, convertDir, if_pos hm, convertDir_exact u v w hb] at hd
  simp only [Except.ok.injEq, List.cons.injEq, and_true] at hp hd
  obtain ⟨rfl, rfl, rfl, rfl⟩ := hp
  obtain ⟨rfl, rfl, rfl, rfl⟩ := hd
  unfold Spec.zone3
  push_cast
  ring

omit [IsStrictOrderedRing K] in
/-- **C49** Wrong requests are `ValueError`s: nothing or both given, a wrong number of indices,
or an unknown type of indices. -/
theorem C49_errors (t : String) (dir plane : Option (List K))
    (h : (dir = none ∧ plane = none) ∨ (dir ≠ none ∧ plane ≠ none) ∨
      (t.toLower ≠ "m" ∧ t.toLower ≠ "mb") ∨
      (t.toLower = "m" ∧ ∃ x, (dir = some x ∨ plane = some x) ∧ x.length ≠ 3) ∨
      (t.toLower = "mb" ∧ ∃ x, (dir = some x ∨ plane = some x) ∧ x.length ≠ 4)) :
    convertIdc t dir plane = .error .valueError := by
  have hne : ¬ ("mb" = "m") := by decide
  have n3 : ∀ x : List K, x.length ≠ 3 → ∀ a b c, x ≠ [a, b, c] := by
    intro x hx a b c e; subst e; exact hx rfl
  have n4 : ∀ x : List K, x.length ≠ 4 → ∀ a b c d, x ≠ [a, b, c, d] := by
    intro x hx a b c d e; subst e; exact hx rfl
  cases dir with
  | none =>
    cases plane with
    | none => rfl
    | some p =>
      simp only [reduceCtorEq, and_false, ne_eq, not_true_eq_false, false_and, not_false_eq_true,
        false_or, Option.some.injEq, exists_eq_left'] at h
      unfold convertIdc convertPlane
      simp only
      rcases h with ⟨h1, h2⟩ | ⟨h1, h2⟩ | ⟨h1, h2⟩
      · rw [if_neg h1, if_neg h2]
      · rw [if_pos h1]
        split
        · exact absurd rfl (n3 _ h2 _ _ _)
        · rfl
      · rw [if_neg (h1 ▸ hne), if_pos h1]
        split
        · exact absurd rfl (n4 _ h2 _ _ _ _)
        · rfl
  | some d =>
    cases plane with
    | some p => rfl
    | none =>
      simp only [reduceCtorEq, and_false, ne_eq, not_true_eq_false, false_and, not_false_eq_true,
        false_or, or_false, Option.some.injEq, exists_eq_left'] at h
      unfold convertIdc convertDir
      simp only
      rcases h with ⟨h1, h2⟩ | ⟨h1, h2⟩ | ⟨h1, h2⟩
      · rw [if_neg h1, if_neg h2]
      · rw [if_pos h1]
        split
        · exact absurd rfl (n3 _ h2 _ _ _)
        · rfl
      · rw [if_neg (h1 ▸ hne), if_pos h1]
        split
        · exact absurd rfl (n4 _ h2 _ _ _ _)
        · rfl

end

/-- **C49** Beyond 8 bits the round trip fails: `[0 0 128]` comes back as `[0 0 -128]`. -/
theorem C49_overflow : convertIdc "m" (some [(0 : Rat), 0, 128]) none = .ok [0, 0, 0, -128] ∧
    convertIdc "mb" (some [(0 : Rat), 0, 0, -128]) none = .ok [0, 0, -128] := by
  have h1 : "m".toLower = "m" := by with_unfolding_all rfl
  have h2 : "mb".toLower = "mb" := by with_unfolding_all rfl
  refine ⟨?_, ?_⟩
  · simp only [convertIdc, convertDir, if_pos h1]
    decide +kernel
  · simp only [convertIdc, convertDir, h2]
    decide +kernel

/-- The hypotheses of C49 on `[1 1 2 3]`-like directions and on one with thirds. -/
example : ∀ z ∈ [(2 * 3 - 0) / 3, (2 * 0 - 3) / 3, (-3 - 0 : Int) / 3, 1], -128 ≤ z ∧ z ≤ 127 := by
  decide
example : ((2 : Int) * 1 - 0) % 3 ≠ 0 := by decide

/-! ### C50 -/

theorem posIdcLoop_spec (vec : List Int) (l : List Int) :
    ((∀ x ∈ l, x = 0) ∧ posIdcLoop vec l = none) ∨
    ∃ pre x t, l = pre ++ x :: t ∧ (∀ y ∈ pre, y = 0) ∧ x ≠ 0 ∧
      posIdcLoop vec l = some (if 0 < x then vec else vec.map fun y => -y) := by
  induction l with
  | nil => exact Or.inl ⟨by simp, rfl⟩
  | cons a l ih =>
    unfold posIdcLoop
    by_cases ha : a = 0
    · rw [if_pos ha]
      rcases ih with ⟨h1, h2⟩ | ⟨pre, x, t, h1, h2, h3, h4⟩
      · left; exact ⟨by simpa [ha] using h1, h2⟩
      · right
        refine ⟨a :: pre, x, t, by rw [h1]; rfl, ?_, h3, h4⟩
        intro y hy
        rcases List.mem_cons.1 hy with rfl | hy
        · exact ha
        · exact h2 y hy
    · rw [if_neg ha]
      right
      refine ⟨[], a, l, rfl, by simp, ha, ?_⟩
      split <;> rfl

/-- The first index that is not zero is positive. -/
def Spec.FirstPositive (v : List Int) : Prop :=
  ∃ pre x t, v = pre ++ x :: t ∧ (∀ y ∈ pre, y = 0) ∧ 0 < x

/-- The opposite indices. -/
def Spec.opposite (v : List Int) : List Int := v.map fun x => -x

theorem opposite_opposite (v : List Int) : Spec.opposite (Spec.opposite v) = v := by
  unfold Spec.opposite; rw [List.map_map]; exact (List.map_congr_left (by simp)).trans (List.map_id _)

theorem firstPositive_opposite {v : List Int} (h : Spec.FirstPositive v) :
    ¬ Spec.FirstPositive (Spec.opposite v) := by
  obtain ⟨pre, x, t, rfl, hp, hx⟩ := h
  rintro ⟨pre', x', t', he, hp', hx'⟩
  unfold Spec.opposite at he
  simp only [List.map_append, List.map_cons] at he
  rcases List.append_eq_append_iff.1 he with ⟨as, h1, h2⟩ | ⟨bs, h1, h2⟩
  · cases as with
    | nil =>
      simp only [List.nil_append, List.cons.injEq] at h2
      omega
    | cons a as =>
      simp only [List.cons_append, List.cons.injEq] at h2
      have := hp' a (by rw [h1]; simp)
      omega
  · cases bs with
    | nil =>
      simp only [List.nil_append, List.cons.injEq] at h2
      omega
    | cons a as =>
      simp only [List.cons_append, List.cons.injEq] at h2
      have h3 : a ∈ pre.map fun x => -x := by rw [h1]; simp
      obtain ⟨y, hy, rfl⟩ := List.mem_map.1 h3
      have := hp y hy
      omega

theorem posIdc_of_firstPositive {v : List Int} (h : Spec.FirstPositive v) : posIdc v = some v := by
  unfold posIdc
  rcases posIdcLoop_spec v v with ⟨h1, _⟩ | ⟨pre, x, t, h1, h2, h3, h4⟩
  · obtain ⟨pre, x, t, rfl, _, hx⟩ := h
    have := h1 x (by simp)
    omega
  · rw [h4]
    by_cases hx : 0 < x
    · rw [if_pos hx]
    · exfalso
      refine firstPositive_opposite h ⟨pre.map (fun y => -y), -x, t.map fun y => -y, ?_, ?_, by omega⟩
      · unfold Spec.opposite; rw [h1]; simp
      · intro y hy
        obtain ⟨z, hz, rfl⟩ := List.mem_map.1 hy
        have := h2 z hz
        omega

theorem firstPositive_total (v : List Int) :
    (∀ x ∈ v, x = 0) ∨ Spec.FirstPositive v ∨ Spec.FirstPositive (Spec.opposite v) := by
  rcases posIdcLoop_spec v v with ⟨h1, _⟩ | ⟨pre, x, t, h1, h2, h3, h4⟩
  · exact Or.inl h1
  · right
    by_cases hx : 0 < x
    · exact Or.inl ⟨pre, x, t, h1, h2, hx⟩
    · right
      refine ⟨pre.map (fun y => -y), -x, t.map fun y => -y, ?_, ?_, by omega⟩
      · unfold Spec.opposite; rw [h1]; simp
      · intro y hy
        obtain ⟨z, hz, rfl⟩ := List.mem_map.1 hy
        have := h2 z hz
        omega

theorem posIdc_opposite {v : List Int} (h : Spec.FirstPositive (Spec.opposite v)) :
    posIdc v = some (Spec.opposite v) := by
  unfold posIdc
  rcases posIdcLoop_spec v v with ⟨h1, _⟩ | ⟨pre, x, t, h1, h2, h3, h4⟩
  · obtain ⟨pre, x, t, he, _, hx⟩ := h
    have : x ∈ Spec.opposite v := by rw [he]; simp
    obtain ⟨y, hy, rfl⟩ := List.mem_map.1 this
    have := h1 y hy
    omega
  · rw [h4]
    by_cases hx : 0 < x
    · exact absurd h (firstPositive_opposite ⟨pre, x, t, h1, h2, hx⟩)
    · rw [if_neg hx]; rfl

theorem zeros_not_firstPositive {v : List Int} (h : ∀ x ∈ v, x = 0) : ¬ Spec.FirstPositive v := by
  rintro ⟨pre, x, t, rfl, _, hx⟩
  have := h x (by simp)
  omega

theorem posIdc_zero {v : List Int} (h : ∀ x ∈ v, x = 0) : posIdc v = none := by
  unfold posIdc
  rcases posIdcLoop_spec v v with ⟨_, h2⟩ | ⟨pre, x, t, h1, _, h3, _⟩
  · exact h2
  · exact absurd (h x (by rw [h1]; simp)) h3

/-- **C50** The result denotes the same line and its first non-zero index is positive. -/
theorem C50_canonical (v r : List Int) (h : posIdc v = some r) :
    (r = v ∨ r = Spec.opposite v) ∧ Spec.FirstPositive r := by
  rcases firstPositive_total v with h0 | h1 | h1
  · rw [posIdc_zero h0] at h; cases h
  · rw [posIdc_of_firstPositive h1] at h; cases h; exact ⟨Or.inl rfl, h1⟩
  · rw [posIdc_opposite h1] at h; cases h; exact ⟨Or.inr rfl, h1⟩

/-- **C50** There is a result exactly when not all indices are zero (otherwise the code returns
`None`). -/
theorem C50_defined (v : List Int) : posIdc v = none ↔ ∀ x ∈ v, x = 0 := by
  refine ⟨fun h => ?_, posIdc_zero⟩
  rcases firstPositive_total v with h0 | h1 | h1
  · exact h0
  · rw [posIdc_of_firstPositive h1] at h; cases h
  · rw [posIdc_opposite h1] at h; cases h

/-- **C50** Idempotent, and the same for an index set and its opposite. -/
theorem C50_invariant (v : List Int) :
    posIdc (Spec.opposite v) = posIdc v ∧ ∀ r, posIdc v = some r → posIdc r = some r := by
  refine ⟨?_, fun r h => posIdc_of_firstPositive (C50_canonical v r h).2⟩
  rcases firstPositive_total v with h0 | h1 | h1
  · rw [posIdc_zero h0]
    refine posIdc_zero fun x hx => ?_
    obtain ⟨y, hy, rfl⟩ := List.mem_map.1 hx
    rw [h0 y hy]; rfl
  · have h2 : Spec.FirstPositive (Spec.opposite (Spec.opposite v)) := by
      rw [opposite_opposite]; exact h1
    rw [posIdc_opposite h2, opposite_opposite, posIdc_of_firstPositive h1]
  · rw [posIdc_of_firstPositive h1, posIdc_opposite h1]

/-- **C50** Two index sets have the same canonical form exactly when they are equal or opposite
(all index sets of zeros count as the same). -/
theorem C50_same_line (v w : List Int) (hv : ∃ x ∈ v, x ≠ 0) :
    posIdc v = posIdc w ↔ (v = w ∨ v = Spec.opposite w) := by
  constructor
  · intro h
    cases hr : posIdc v with
    | none =>
      obtain ⟨x, hx, hx0⟩ := hv
      exact absurd ((C50_defined v).1 hr x hx) hx0
    | some r =>
      have h1 := (C50_canonical v r hr).1
      have h2 := (C50_canonical w r (h ▸ hr)).1
      rcases h1 with rfl | h1 <;> rcases h2 with h2 | h2
      · exact Or.inl h2
      · exact Or.inr h2
      · right; rw [← h2, h1, opposite_opposite]
      · left; rw [← opposite_opposite v, ← h1, h2, opposite_opposite]
  · rintro (rfl | rfl)
    · rfl
    · exact (C50_invariant w).1

example : posIdc [0, -1, 2] = some [0, 1, -2] := by decide
example : posIdc [0, 0, 0] = none := by decide

/-! ### C51 -/

theorem gcd_foldl (l : List Int) (g : Nat) :
    ((l.foldl (fun g x => Int.gcd g x) g) ∣ g) ∧
    (∀ x ∈ l, ((l.foldl (fun g x => Int.gcd g x) g : Nat) : Int) ∣ x) ∧
    ∀ d : Nat, d ∣ g → (∀ x ∈ l, (d : Int) ∣ x) → d ∣ l.foldl (fun g x => Int.gcd g x) g := by
  induction l generalizing g with
  | nil => exact ⟨dvd_refl _, by simp, fun d hd _ => hd⟩
  | cons a l ih =>
    simp only [List.foldl_cons]
    obtain ⟨h1, h2, h3⟩ := ih (Int.gcd g a)
    have g1 : Int.gcd g a ∣ g := Int.natCast_dvd_natCast.1 (Int.gcd_dvd_left _ _)
    have g2 : (Int.gcd g a : Int) ∣ a := Int.gcd_dvd_right _ _
    refine ⟨h1.trans g1, ?_, ?_⟩
    · intro x hx
      rcases List.mem_cons.1 hx with rfl | hx
      · exact (Int.natCast_dvd_natCast.2 h1).trans g2
      · exact h2 x hx
    · intro d hd hl
      refine h3 d ?_ fun x hx => hl x (List.mem_cons_of_mem _ hx)
      exact Int.natCast_dvd_natCast.1 (Int.dvd_coe_gcd (Int.natCast_dvd_natCast.2 hd)
        (hl a (List.mem_cons_self ..)))

/-- Lowest terms: no integer but 1 and -1 divides all indices. -/
def Spec.Lowest (r : List Int) : Prop := ∀ d : Int, (∀ x ∈ r, d ∣ x) → d = 1 ∨ d = -1

theorem gcdReduce_mul {g : Nat} (r : List Int) (hr : Spec.Lowest r) :
    gcdReduce (r.map fun x => (g : Int) * x) = g := by
  unfold gcdReduce
  obtain ⟨-, h2, h3⟩ := gcd_foldl (r.map fun x => (g : Int) * x) 0
  have hg : g ∣ (r.map fun x => (g : Int) * x).foldl (fun g x => Int.gcd g x) 0 := by
    refine h3 g (dvd_zero _) fun x hx => ?_
    obtain ⟨y, _, rfl⟩ := List.mem_map.1 hx
    exact dvd_mul_right _ _
  by_cases h0 : g = 0
  · subst h0; exact Nat.eq_zero_of_zero_dvd hg
  · obtain ⟨k, hk⟩ := hg
    rw [hk] at h2 ⊢
    have : ∀ x ∈ r, (k : Int) ∣ x := by
      intro x hx
      have := h2 _ (List.mem_map.2 ⟨x, hx, rfl⟩)
      push_cast at this
      exact Int.dvd_of_mul_dvd_mul_left (by exact_mod_cast h0) this
    rcases hr k this with h | h
    · have : k = 1 := by exact_mod_cast h
      rw [this, mul_one]
    · omega

/-- **C51** The reduced indices: if the given indices are a positive multiple of indices in lowest
terms that fit in 8 bits, those are the result. -/
theorem C51_reduced (nan : Int) (r : List Int) (g : Nat) (hg : 0 < g) (hr : Spec.Lowest r)
    (hb : ∀ x ∈ r, -128 ≤ x ∧ x ≤ 127) :
    reduceIdc nan (r.map fun x => (g : Int) * x) = r := by
  unfold reduceIdc
  rw [gcdReduce_mul r hr, if_neg (by omega), List.map_map]
  refine (List.map_congr_left fun x hx => ?_).trans (List.map_id _)
  have : ((g : Int) * x) / g = x := Int.mul_ediv_cancel_left _ (by omega)
  simp [this, int8_id (hb x hx)]

/-- **C51** Every index set that is not all zero is a positive multiple of exactly one index set
in lowest terms, so that C51_reduced speaks of all of them. -/
theorem C51_lowest_exists (v : List Int) (hv : ∃ x ∈ v, x ≠ 0) :
    ∃ (g : Nat) (r : List Int), 0 < g ∧ Spec.Lowest r ∧ v = r.map fun x => (g : Int) * x := by
  obtain ⟨-, h2, h3⟩ := gcd_foldl v 0
  obtain ⟨x0, hx0, hne⟩ := hv
  have hpos : 0 < v.foldl (fun g x => Int.gcd g x) 0 := by
    rcases Nat.eq_zero_or_pos (v.foldl (fun g x => Int.gcd g x) 0) with h | h
    · have := h2 x0 hx0
      rw [h] at this
      exact absurd (Int.zero_dvd.1 (by exact_mod_cast this)) hne
    · exact h
  set g := v.foldl (fun g x => Int.gcd g x) 0 with hgdef
  refine ⟨g, v.map fun x => x / (g : Int), hpos, ?_, ?_⟩
  · intro d hd
    have h4 : d.natAbs * g ∣ g := by
      refine h3 _ (dvd_zero _) fun x hx => ?_
      have h5 : d ∣ x / (g : Int) := hd _ (List.mem_map.2 ⟨x, hx, rfl⟩)
      have h6 : ((d.natAbs * g : Nat) : Int) ∣ d * g := by
        rw [Int.natCast_dvd, Int.natAbs_mul, Int.natAbs_natCast]
      refine h6.trans ?_
      have h7 : x / (g : Int) * g = x := Int.ediv_mul_cancel (h2 x hx)
      rw [← h7]
      exact mul_dvd_mul_right h5 _
    have h5 : d.natAbs ∣ 1 := by
      refine Nat.dvd_of_mul_dvd_mul_right hpos ?_
      rw [one_mul]; exact h4
    have h6 : d.natAbs = 1 := Nat.dvd_one.1 h5
    omega
  · rw [List.map_map]
    refine ((List.map_congr_left fun x hx => ?_).trans (List.map_id _)).symm
    exact Int.mul_ediv_cancel' (h2 x hx)

/-- **C51** Indices of 8 bits that are not all zero: the result is in lowest terms, parallel and
in the same sense, and reducing again changes nothing. -/
theorem C51_small (nan : Int) (v : List Int) (hv : ∃ x ∈ v, x ≠ 0)
    (hb : ∀ x ∈ v, -128 ≤ x ∧ x ≤ 127) :
    Spec.Lowest (reduceIdc nan v) ∧ reduceIdc nan (reduceIdc nan v) = reduceIdc nan v ∧
    ∃ g : Nat, 0 < g ∧ v = (reduceIdc nan v).map fun x => (g : Int) * x := by
  obtain ⟨g, r, hg, hr, rfl⟩ := C51_lowest_exists v hv
  have hb' : ∀ x ∈ r, -128 ≤ x ∧ x ≤ 127 := by
    intro x hx
    have := hb _ (List.mem_map.2 ⟨x, hx, rfl⟩)
    have hg' : (1 : Int) ≤ g := by exact_mod_cast hg
    constructor <;> nlinarith
  rw [C51_reduced nan r g hg hr hb']
  refine ⟨hr, ?_, g, hg, rfl⟩
  have := C51_reduced nan r 1 one_pos hr hb'
  simpa using this

/-- **C51** Parallel index sets of equal sense reduce to the same result. -/
theorem C51_parallel (nan : Int) (v w : List Int) (a b : Nat) (ha : 0 < a) (hb : 0 < b)
    (hv : ∃ x ∈ v, x ≠ 0) (h8 : ∀ x ∈ v ++ w, -128 ≤ x ∧ x ≤ 127)
    (h : (v.map fun x => (a : Int) * x) = w.map fun x => (b : Int) * x) :
    reduceIdc nan v = reduceIdc nan w := by
  have hw : ∃ x ∈ w, x ≠ 0 := by
    obtain ⟨x, hx, hx0⟩ := hv
    have : (a : Int) * x ∈ w.map fun x => (b : Int) * x := h ▸ List.mem_map.2 ⟨x, hx, rfl⟩
    obtain ⟨y, hy, he⟩ := List.mem_map.1 this
    refine ⟨y, hy, fun h0 => ?_⟩
    rw [h0, mul_zero] at he
    rcases mul_eq_zero.1 he.symm with h | h
    · omega
    · exact hx0 h
  obtain ⟨h1, -, g1, hg1, e1⟩ := C51_small nan v hv fun x hx => h8 x (List.mem_append_left _ hx)
  obtain ⟨h2, -, g2, hg2, e2⟩ := C51_small nan w hw fun x hx => h8 x (List.mem_append_right _ hx)
  have b1 : ∀ x ∈ reduceIdc nan v, -128 ≤ x ∧ x ≤ 127 := by
    intro x hx
    have hm : (g1 : Int) * x ∈ v := by rw [e1]; exact List.mem_map.2 ⟨x, hx, rfl⟩
    have := h8 _ (List.mem_append_left _ hm)
    have hg' : (1 : Int) ≤ g1 := by exact_mod_cast hg1
    constructor <;> nlinarith
  have b2 : ∀ x ∈ reduceIdc nan w, -128 ≤ x ∧ x ≤ 127 := by
    intro x hx
    have hm : (g2 : Int) * x ∈ w := by rw [e2]; exact List.mem_map.2 ⟨x, hx, rfl⟩
    have := h8 _ (List.mem_append_right _ hm)
    have hg' : (1 : Int) ≤ g2 := by exact_mod_cast hg2
    constructor <;> nlinarith
  have f1 := C51_reduced nan _ (a * g1) (Nat.mul_pos ha hg1) h1 b1
  have f2 := C51_reduced nan _ (b * g2) (Nat.mul_pos hb hg2) h2 b2
  rw [← f1, ← f2]
  congr 1
  have l1 : (reduceIdc nan v).map (fun x => ((a * g1 : Nat) : Int) * x) =
      v.map fun x => (a : Int) * x := by
    conv_rhs => rw [e1, List.map_map]
    refine List.map_congr_left fun x _ => ?_
    simp only [Function.comp]
    push_cast; ring
  have l2 : (reduceIdc nan w).map (fun x => ((b * g2 : Nat) : Int) * x) =
      w.map fun x => (b : Int) * x := by
    conv_rhs => rw [e2, List.map_map]
    refine List.map_congr_left fun x _ => ?_
    simp only [Function.comp]
    push_cast; ring
  rw [l1, l2, h]

/-- **C51** Beyond 8 bits the direction is changed: `[1 256]` is in lowest terms but becomes
`[1 0]`. -/
theorem C51_overflow (nan : Int) : reduceIdc nan [1, 256] = [1, 0] := by
  simp [reduceIdc, gcdReduce, int8]

example : reduceIdc 0 [2, -4, 6] = [1, -2, 3] := by decide +kernel

/-! ### C53 -/

/-- The digits of a single digit index. -/
theorem toDigits_single (n : Nat) (h : n ≤ 9) : Nat.toDigits 10 n = [Nat.digitChar n] := by
  have : ∀ n : Fin 10, Nat.toDigits 10 n.1 = [Nat.digitChar n.1] := by decide
  exact this ⟨n, by omega⟩

theorem digitChar_inj (m n : Nat) (hm : m ≤ 9) (hn : n ≤ 9)
    (h : Nat.digitChar m = Nat.digitChar n) : m = n := by
  have : ∀ m n : Fin 10, Nat.digitChar m.1 = Nat.digitChar n.1 → m.1 = n.1 := by decide
  exact this ⟨m, by omega⟩ ⟨n, by omega⟩ h

theorem digitChar_ne (n : Nat) (hn : n ≤ 9) : Nat.digitChar n ≠ '̅' ∧ Nat.digitChar n ≠ '$' := by
  have : ∀ n : Fin 10, Nat.digitChar n.1 ≠ '̅' ∧ Nat.digitChar n.1 ≠ '$' := by decide
  exact this ⟨n, by omega⟩

/-- All indices are single digits. -/
def Spec.SingleDigits (l : List Int) : Prop := ∀ x ∈ l, -9 ≤ x ∧ x ≤ 9

theorem text_head (a : List Int) (ha : Spec.SingleDigits a) (s : String) (hs : s ≠ "tex")
    (rest : List Char) : (a.map (strIdx s)).flatten ≠ '̅' :: rest := by
  cases a with
  | nil => simp
  | cons x a =>
    obtain ⟨h1, h2⟩ := ha x (List.mem_cons_self ..)
    have hd := digitChar_ne x.natAbs (by omega)
    simp only [List.map_cons, List.flatten_cons, strIdx, if_neg hs,
      toDigits_single x.natAbs (by omega)]
    split <;> simp [hd.1]

theorem text_inj (s : String) : ∀ (a b : List Int), Spec.SingleDigits a → Spec.SingleDigits b →
    (a.map (strIdx s)).flatten = (b.map (strIdx s)).flatten → a = b := by
  intro a
  induction a with
  | nil =>
    intro b _ hb h
    cases b with
    | nil => rfl
    | cons y b =>
      obtain ⟨h1, h2⟩ := hb y (List.mem_cons_self ..)
      simp only [List.map_cons, List.flatten_cons, strIdx, toDigits_single y.natAbs (by omega),
        List.map_nil, List.flatten_nil] at h
      split at h <;> simp at h
  | cons x a ih =>
    intro b ha hb h
    obtain ⟨x1, x2⟩ := ha x (List.mem_cons_self ..)
    have ha' : Spec.SingleDigits a := fun z hz => ha z (List.mem_cons_of_mem _ hz)
    cases b with
    | nil =>
      simp only [List.map_cons, List.flatten_cons, strIdx, toDigits_single x.natAbs (by omega),
        List.map_nil, List.flatten_nil] at h
      split at h <;> simp at h
    | cons y b =>
      obtain ⟨y1, y2⟩ := hb y (List.mem_cons_self ..)
      have hb' : Spec.SingleDigits b := fun z hz => hb z (List.mem_cons_of_mem _ hz)
      have dx := digitChar_ne x.natAbs (by omega)
      have dy := digitChar_ne y.natAbs (by omega)
      have inj := digitChar_inj x.natAbs y.natAbs (by omega) (by omega)
      simp only [List.map_cons, List.flatten_cons] at h
      have key : x = y ∧ (a.map (strIdx s)).flatten = (b.map (strIdx s)).flatten := by
        by_cases hs : s = "tex"
        · subst hs
          generalize (a.map (strIdx "tex")).flatten = ta at h ⊢
          generalize (b.map (strIdx "tex")).flatten = tb at h ⊢
          simp only [strIdx, if_true, toDigits_single x.natAbs (by omega),
            toDigits_single y.natAbs (by omega)] at h
          by_cases hx : 0 ≤ x <;> by_cases hy : 0 ≤ y
          · simp only [if_pos hx, if_pos hy, List.cons_append, List.nil_append,
              List.cons.injEq] at h
            have := inj h.1
            exact ⟨by omega, h.2⟩
          · simp only [if_pos hx, if_neg hy, List.cons_append, List.nil_append,
              List.cons.injEq] at h
            exact absurd h.1 dx.2
          · simp only [if_neg hx, if_pos hy, List.cons_append, List.nil_append,
              List.cons.injEq] at h
            exact absurd h.1.symm dy.2
          · simp only [if_neg hx, if_neg hy, List.cons_append, List.nil_append,
              List.cons.injEq, true_and] at h
            have := inj h.1
            exact ⟨by omega, h.2⟩
        · have ea := text_head a ha' s hs
          have eb := text_head b hb' s hs
          generalize (a.map (strIdx s)).flatten = ta at h ea ⊢
          generalize (b.map (strIdx s)).flatten = tb at h eb ⊢
          simp only [strIdx, if_neg hs, toDigits_single x.natAbs (by omega),
            toDigits_single y.natAbs (by omega)] at h
          by_cases hx : 0 ≤ x <;> by_cases hy : 0 ≤ y
          · simp only [if_pos hx, if_pos hy, List.cons_append, List.nil_append,
              List.cons.injEq] at h
            have := inj h.1
            exact ⟨by omega, h.2⟩
          · simp only [if_pos hx, if_neg hy, List.cons_append, List.nil_append,
              List.cons.injEq] at h
            exact absurd h.2 (ea _)
          · simp only [if_neg hx, if_pos hy, List.cons_append, List.nil_append,
              List.cons.injEq] at h
            exact absurd h.2.symm (eb _)
          · simp only [if_neg hx, if_neg hy, List.cons_append, List.nil_append,
              List.cons.injEq, true_and] at h
            have := inj h.1
            exact ⟨by omega, h.2⟩
      rw [key.1, ih b ha' hb' key.2]

/-- **C53** Labels of single digit indices (plain or for tex, with or without brackets) are
unambiguous: equal labels come from equal indices. -/
theorem C53_labels (brackets : Option (Char × Char)) (strType : String) (a b : List Int)
    (ha : Spec.SingleDigits a) (hb : Spec.SingleDigits b)
    (h : idcToString brackets strType a = idcToString brackets strType b) : a = b := by
  unfold idcToString at h
  cases brackets with
  | none => exact text_inj strType a b ha hb h
  | some br =>
    obtain ⟨x, y⟩ := br
    simp only [List.cons_append, List.nil_append, List.cons.injEq, true_and] at h
    exact text_inj strType a b ha hb (List.append_cancel_right h)

/-- **C53** With two-digit indices they are not: `(1 11)` and `(11 1)` have the same label. -/
theorem C53_ambiguous : idcToString (some ('(', ')')) "unicode" [1, 11] =
    idcToString (some ('(', ')')) "unicode" [11, 1] := by decide +kernel

example : idcToString (some ('(', ')')) "unicode" [1, -1, 0] = ['(', '1', '1', '̅', '0', ')'] := by
  decide +kernel
example : Spec.SingleDigits [1, -1, 0] := by unfold Spec.SingleDigits; decide

end DefDAP
