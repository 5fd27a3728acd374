import Verif.Props.Symmetry

/-! C42–C44: tables of symmetric equivalents, average orientation, misorientation lists. -/

namespace DefDAP

open Quat

/-! ### C42 -/

theorem symRow_eq (s q : Quat ℝ) : symRow s q = mul s q := by
  have h : (⟨q.q0 * s.q0 - q.q1 * s.q1 - q.q2 * s.q2 - q.q3 * s.q3,
     q.q0 * s.q1 + q.q1 * s.q0 - q.q2 * s.q3 + q.q3 * s.q2,
     q.q0 * s.q2 + q.q2 * s.q0 - q.q3 * s.q1 + q.q1 * s.q3,
     q.q0 * s.q3 + q.q3 * s.q0 - q.q1 * s.q2 + q.q2 * s.q1⟩ : Quat ℝ) = mulRaw s q := by
    ext <;> simp only [mulRaw] <;> ring
  show (open Classical in if Quat.q0 (⟨_, _, _, _⟩ : Quat ℝ) < 0 then neg _ else _) = _
  rw [h, mul, make]
  simp only [true_and]

theorem mul_one_left (q : Quat ℝ) : mulRaw ⟨1, 0, 0, 0⟩ q = q := by
  ext <;> simp [mulRaw]

theorem mul_one_north {q : Quat ℝ} (h : q.North) : mul ⟨1, 0, 0, 0⟩ q = q := by
  rw [mul, mul_one_left, make_north h]

/-- Entry of the table before the choice of hemisphere: row zero is the orientation itself. -/
theorem calcSymEqvs_entry {l : List (Quat ℝ)} (hl : SymTable l) (quats : List (Quat ℝ)) (i k : Nat)
    (s q : Quat ℝ) (hs : l[i]? = some s) (hq : quats[k]? = some q) :
    ∃ row, (calcSymEqvs l quats)[i]? = some row ∧ row.length = quats.length ∧
      row[k]? = some (if i = 0 then q else mul s q) := by
  cases l with
  | nil => simp at hs
  | cons a t =>
    cases i with
    | zero => exact ⟨quats, rfl, rfl, by simpa using hq⟩
    | succ i =>
      simp only [List.getElem?_cons_succ] at hs
      refine ⟨quats.map fun q => symRow s q, ?_, by simp, ?_⟩
      · simp [calcSymEqvs, hs]
      · simp [hq, symRow_eq]

/-- **C42.** Row `i`, column `k` of the table of symmetric equivalents is the product of operator
`i` with orientation `k`, in the northern hemisphere; the table has one row for each operator and
one column for each orientation. -/
theorem C42_table (g : SymGroup) (quats : List (Quat ℝ)) (hn : ∀ q ∈ quats, q.North) :
    (calcSymEqvs (symEqv g) quats).length = (symEqv g).length ∧
    ∀ (i k : Nat) (s q : Quat ℝ), (symEqv g)[i]? = some s → quats[k]? = some q →
      ∃ row, (calcSymEqvs (symEqv g) quats)[i]? = some row ∧ row.length = quats.length ∧
        row[k]? = some (mul s q) ∧ (mul s q).North := by
  have hl := symEqv_table g
  constructor
  · have : (symEqv g) ≠ [] := by
      intro h; have := hl.head; rw [h] at this; simp at this
    cases h : symEqv g with
    | nil => exact absurd h this
    | cons a t => simp [calcSymEqvs]
  · intro i k s q hs hq
    obtain ⟨row, h1, h2, h3⟩ := calcSymEqvs_entry hl quats i k s q hs hq
    refine ⟨row, h1, h2, ?_, north_make _⟩
    rw [h3]
    split
    · rename_i h0
      rw [h0, hl.head] at hs
      cases hs
      rw [mul_one_north (hn q (List.mem_of_getElem? hq))]
    · rfl

/-! ### Largest element -/

theorem argmax_fold (l : List ℝ) : ∀ (best n : Nat) (v : ℝ) (pre : List ℝ),
    pre.length = n → pre[best]? = some v → (∀ x ∈ pre, x ≤ v) →
    (∀ j x, j < best → pre[j]? = some x → x < v) →
    let out := l.foldl (fun (st : Nat × Nat × ℝ) w =>
      open Classical in if st.2.2 < w then (st.2.1, st.2.1 + 1, w) else (st.1, st.2.1 + 1, st.2.2))
      (best, n, v)
    (pre ++ l)[out.1]? = some out.2.2 ∧ (∀ x ∈ pre ++ l, x ≤ out.2.2) ∧
      (∀ j x, j < out.1 → (pre ++ l)[j]? = some x → x < out.2.2) := by
  induction l with
  | nil =>
    intro best n v pre hn hb hall hlt
    simpa using ⟨hb, hall, hlt⟩
  | cons a t ih =>
    intro best n v pre hn hb hall hlt
    simp only [List.foldl_cons]
    have hbl : best < pre.length := (List.getElem?_eq_some_iff.1 hb).1
    split
    · rename_i h
      have := ih n (n + 1) a (pre ++ [a]) (by simp [hn]) (by simp [← hn]) ?_ ?_
      · simpa using this
      · intro x hx
        rcases List.mem_append.1 hx with hx | hx
        · exact (hall x hx).trans h.le
        · simp at hx; exact hx.le
      · intro j x hj hx
        rw [List.getElem?_append_left (by omega)] at hx
        exact (hall x (List.mem_of_getElem? hx)).trans_lt h
    · rename_i h
      have := ih best (n + 1) v (pre ++ [a]) (by simp [hn])
        (by rw [List.getElem?_append_left hbl]; exact hb) ?_ ?_
      · simpa using this
      · intro x hx
        rcases List.mem_append.1 hx with hx | hx
        · exact hall x hx
        · simp at hx; rw [hx]; exact not_lt.1 h
      · intro j x hj hx
        rw [List.getElem?_append_left (by omega)] at hx
        exact hlt j x hj hx

/-- `np.argmax` gives the first position of the largest value. -/
theorem argmax_spec (l : List ℝ) (hne : l ≠ []) : ∃ m, l[argmax l]? = some m ∧ (∀ x ∈ l, x ≤ m) ∧
    (∀ j x, j < argmax l → l[j]? = some x → x < m) := by
  cases l with
  | nil => exact absurd rfl hne
  | cons a t =>
    have := argmax_fold t 0 1 a [a] rfl rfl (by simp) (by simp)
    exact ⟨_, by simpa [argmax] using this.1, by simpa [argmax] using this.2.1,
      by simpa [argmax] using this.2.2⟩

/-! ### C44 -/

/-- The variants of orientation `k` in the table. -/
theorem column_table {l : List (Quat ℝ)} (hl : SymTable l) (quats : List (Quat ℝ)) (k : Nat)
    (q : Quat ℝ) (hq : quats[k]? = some q) :
    column (calcSymEqvs l quats) k = q :: (l.tail.map fun s => mul s q) := by
  cases l with
  | nil => have := hl.head; simp at this
  | cons a t =>
    simp only [calcSymEqvs, column, List.filterMap_cons, hq, List.tail_cons, List.filterMap_map]
    congr 1
    rw [← List.filterMap_eq_map]
    congr 1
    funext s
    simp [hq, symRow_eq]

theorem table_cons {l : List (Quat ℝ)} (hl : SymTable l) : l = ⟨1, 0, 0, 0⟩ :: l.tail := by
  cases l with
  | nil => have := hl.head; simp at this
  | cons a t => have := hl.head; simp at this; simp [this]

theorem misOriColumn_spec {l : List (Quat ℝ)} (hl : SymTable l) (q ref : Quat ℝ) (hq : q.IsUnit)
    (hr : ref.IsUnit) :
    ∃ v, misOriColumn (q :: (l.tail.map fun s => mul s q)) ref = some (misOri l ref q, v) ∧
      (∃ s ∈ l, v = mul s q ∨ v = (mul s q).neg) ∧ |dot v ref| = misOri l ref q := by
  set vars := q :: (l.tail.map fun s => mul s q) with hvars
  have hmem : ∀ v ∈ vars, ∃ s ∈ l, v = mul s q ∨ v = (mul s q).neg := by
    intro v hv
    rcases List.mem_cons.1 hv with rfl | hv
    · refine ⟨_, head_mem hl, ?_⟩
      rw [mul, mul_one_left]
      rcases make_cases false v with ⟨h, -⟩ | ⟨h, -⟩ <;> rw [h]
      · exact .inl rfl
      · right; simp [neg]
    · obtain ⟨s, hs, rfl⟩ := List.mem_map.1 hv
      exact ⟨s, List.mem_of_mem_tail hs, .inl rfl⟩
  have hcov : ∀ s ∈ l, ∃ v ∈ vars, |dot v ref| = |dot ref (mulRaw s q)| := by
    intro s hs
    rw [table_cons hl] at hs
    rcases List.mem_cons.1 hs with rfl | hs
    · exact ⟨q, List.mem_cons_self, by rw [mul_one_left, dot_comm]⟩
    · exact ⟨mul s q, List.mem_cons_of_mem _ (List.mem_map.2 ⟨s, hs, rfl⟩), by
        rw [dot_comm, abs_dot_mul]⟩
  obtain ⟨m, h1, h2, -⟩ := argmax_spec (vars.map fun v => |dot v ref|) (by simp [hvars])
  obtain ⟨v, hv, hvm⟩ : ∃ v, vars[argmax (vars.map fun v => |dot v ref|)]? = some v ∧
      |dot v ref| = m := by
    rw [List.getElem?_map] at h1
    cases h : vars[argmax (vars.map fun v => |dot v ref|)]? with
    | none => rw [h] at h1; simp at h1
    | some v => rw [h] at h1; exact ⟨v, rfl, by simpa using h1⟩
  have hm : m = misOri l ref q := by
    have hg := misOri_greatest hl ref q hr hq
    apply le_antisymm
    · obtain ⟨s, hs, e⟩ := hmem v (List.mem_of_getElem? hv)
      refine hg.2 ⟨s, hs, ?_⟩
      rw [← hvm, dot_comm]
      rcases e with rfl | rfl
      · rw [abs_dot_mul]
      · rw [dot_neg_right, abs_neg, abs_dot_mul]
    · obtain ⟨s, hs, e⟩ := hg.1
      obtain ⟨w, hw, e'⟩ := hcov s hs
      rw [e, ← e']
      exact h2 _ (List.mem_map.2 ⟨w, hw, rfl⟩)
  refine ⟨v, ?_, hmem v (List.mem_of_getElem? hv), hvm.trans hm⟩
  have hle : ¬ 1 < misOri l ref q := by
    rw [not_lt]
    obtain ⟨s, hs, e⟩ := (misOri_greatest hl ref q hr hq).1
    rw [e]
    exact abs_dot_le_one hr (isUnit_mulRaw (hl.unit s hs) hq)
  simp only [misOriColumn]
  rw [h1, hv]
  simp only [hm, if_neg hle]

/-- **C44.** The list of misorientations of a grain: for every point it holds exactly the pairwise
misorientation of the point to the reference, which is at most one, and one for a point that is
symmetrically equivalent to the reference; the variant it reports is a symmetric equivalent of the
point with that overlap. -/
theorem C44_list (g : SymGroup) (quats : List (Quat ℝ)) (hu : ∀ q ∈ quats, q.IsUnit) (ref : Quat ℝ)
    (hr : ref.IsUnit) :
    let out := calcMisOri (calcSymEqvs (symEqv g) quats) quats.length ref
    out.length = quats.length ∧
    ∀ (k : Nat) (q : Quat ℝ), quats[k]? = some q →
      ∃ v, out[k]? = some (some (misOri (symEqv g) q ref, v)) ∧
        (∃ s ∈ symEqv g, v = mul s q ∨ v = (mul s q).neg) ∧
        |dot v ref| = misOri (symEqv g) q ref ∧
        misOri (symEqv g) q ref ≤ 1 ∧
        ((∃ s ∈ symEqv g, q = mul s ref) → misOri (symEqv g) q ref = 1) := by
  have hl := symEqv_table g
  refine ⟨by simp [calcMisOri], ?_⟩
  intro k q hq
  have huq := hu q (List.mem_of_getElem? hq)
  obtain ⟨v, h1, h2, h3⟩ := misOriColumn_spec hl q ref huq hr
  have hsym := misOri_symm hl q ref huq hr
  have hran := C40_range g q ref huq hr
  refine ⟨v, ?_, h2, by rw [h3, hsym], hran.2.1, ?_⟩
  · have hk : k < quats.length := (List.getElem?_eq_some_iff.1 hq).1
    simp only [calcMisOri, List.getElem?_map, List.getElem?_range hk, Option.map_some]
    rw [column_table hl quats k q hq, h1, hsym]
  · rintro ⟨s, hs, e⟩
    exact hran.2.2.2 ⟨s, hs, .inl e⟩

/-- Points and a reference as the theorems ask for: a quarter turn about x is symmetrically
equivalent to the identity in cubic crystals, and not all orientations are. -/
example : (∀ q ∈ [(⟨1, 0, 0, 0⟩ : Quat ℝ), ⟨4 / 5, 3 / 5, 0, 0⟩], q.IsUnit ∧ q.North) ∧
    (∃ s ∈ symEqv .cubic, (⟨0, 1, 0, 0⟩ : Quat ℝ) = mul s ⟨1, 0, 0, 0⟩) := by
  constructor
  · intro q hq
    simp only [List.mem_cons, List.not_mem_nil, or_false] at hq
    rcases hq with rfl | rfl <;> simp only [Quat.IsUnit, North] <;> norm_num
  · refine ⟨⟨0, 1, 0, 0⟩, (symEqv_table .cubic).half.1, ?_⟩
    rw [mul, make_north] <;> simp [mulRaw]

end DefDAP
