import Verif.Model.Edax
import Verif.Proofs.NumText

/-! C69: EDAX files. -/

namespace DefDAP

/-! ### Specification -/

/-- The rows of the table: the words of every line before a `#`, if there are any. -/
def Spec.dataWords (text : Str) : List (List Str) :=
  ((linesOf text).map fun l => splitWs (l.takeWhile fun c => decide (c ≠ '#'))).filter
    fun w => !w.isEmpty

/-- Two angles that differ by whole turns. -/
def Spec.SameAngle (a b : ℝ) : Prop := ∃ k : Int, a = b + k * (2 * Real.pi)

/-- The phase of a pixel: one more than what is in the eighth column, except that 255 gives 0. -/
def Spec.EdaxPhaseOf (words : List Str) (v : ℚ) : Prop :=
  ∃ w z, words[7]? = some w ∧ parseInt w = .ok z ∧ 0 ≤ z ∧ z ≤ 255 ∧
    v = if z = 255 then 0 else ((z + 1 : Int) : ℚ)

/-- The Euler angles of a pixel: the first is 90 degrees less than the first column. -/
def Spec.EdaxAnglesOf (words : List Str) (e : ℝ × ℝ × ℝ) : Prop :=
  ∃ w1 w2 w3 q1 q2 q3, words[0]? = some w1 ∧ words[1]? = some w2 ∧ words[2]? = some w3 ∧
    parseFloat w1 = .ok q1 ∧ parseFloat w2 = .ok q2 ∧ parseFloat w3 = .ok q3 ∧
    Spec.SameAngle e.1 (q1 - Real.pi / 2) ∧
    (0 ≤ (q1 : ℝ) → (q1 : ℝ) ≤ 2 * Real.pi → 0 ≤ e.1 ∧ e.1 < 2 * Real.pi) ∧
    e.2.1 = q2 ∧ e.2.2 = q3

/-! ### Proofs -/

theorem edax_bind_ok {α β : Type} {x : Except Err α} {f : α → Except Err β} {b : β}
    (h : x.bind f = .ok b) : ∃ a, x = .ok a ∧ f a = .ok b := by
  cases x with
  | error e => exact absurd h (by simp [Except.bind])
  | ok a => exact ⟨a, rfl, h⟩

theorem edaxAngle_same (a : ℝ) : Spec.SameAngle (edaxAngle a) (a - Real.pi / 2) := by
  unfold edaxAngle
  split
  · exact ⟨1, by push_cast; ring⟩
  · exact ⟨0, by push_cast; ring⟩

theorem edaxAngle_range {a : ℝ} (h0 : 0 ≤ a) (h1 : a ≤ 2 * Real.pi) :
    0 ≤ edaxAngle a ∧ edaxAngle a < 2 * Real.pi := by
  have hp := Real.pi_pos
  unfold edaxAngle
  split
  · constructor <;> linarith
  · constructor <;> linarith

/-- The row of a line. -/
def EdaxRowOf (words : List Str) (row : List ℚ) : Prop :=
  edaxRow words = .ok row

theorem edaxRows_words : ∀ (lines : List Str) (table : List (List ℚ)), edaxRows lines = .ok table →
    List.Forall₂ EdaxRowOf ((lines.map fun l => splitWs (l.takeWhile fun c => decide (c ≠ '#'))).filter
      fun w => !w.isEmpty) table := by
  intro lines
  induction lines with
  | nil =>
    intro table h
    unfold edaxRows at h
    injection h with h
    subst h
    exact List.Forall₂.nil
  | cons l t ih =>
    intro table h
    unfold edaxRows at h
    simp only at h
    rw [List.map_cons]
    cases hw : splitWs (l.takeWhile fun c => decide (c ≠ '#')) with
    | nil =>
      rw [hw] at h
      exact ih table h
    | cons a r =>
      rw [hw] at h
      obtain ⟨row, h1, h⟩ := edax_bind_ok h
      obtain ⟨rows, h2, h⟩ := edax_bind_ok h
      injection h with h
      subst h
      exact List.Forall₂.cons h1 (ih rows h2)

theorem rowCell_ok {words : List Str} {f : Nat × Str × FieldType} {q : ℚ}
    (h : rowCell words f = .ok q) : ∃ w, words[f.1]? = some w ∧ parseCell f.2.2 w = .ok q := by
  unfold rowCell at h
  cases hw : words[f.1]? with
  | none => rw [hw] at h; exact absurd h (by simp)
  | some w => rw [hw] at h; exact ⟨w, rfl, h⟩

theorem edaxRow_cells {words : List Str} {row : List ℚ} (h : EdaxRowOf words row) :
    ∃ a b c d e f g, row = [a, b, c, d, e, f, g] ∧
      rowCell words (0, lit "ph1", .float32) = .ok a ∧
      rowCell words (1, lit "phi", .float32) = .ok b ∧
      rowCell words (2, lit "ph2", .float32) = .ok c ∧
      rowCell words (7, lit "phase", .uint8) = .ok f := by
  unfold EdaxRowOf edaxRow at h
  obtain ⟨_, _, h⟩ := edax_bind_ok h
  unfold edaxCols at h
  simp only [List.mapM_cons, List.mapM_nil] at h
  obtain ⟨a, ha, h⟩ := edax_bind_ok h
  obtain ⟨l, h, e1⟩ := edax_bind_ok h
  obtain ⟨b, hb, h⟩ := edax_bind_ok h
  obtain ⟨l2, h, e2⟩ := edax_bind_ok h
  obtain ⟨c, hc, h⟩ := edax_bind_ok h
  obtain ⟨l3, h, e3⟩ := edax_bind_ok h
  obtain ⟨d, hd, h⟩ := edax_bind_ok h
  obtain ⟨l4, h, e4⟩ := edax_bind_ok h
  obtain ⟨e, he, h⟩ := edax_bind_ok h
  obtain ⟨l5, h, e5⟩ := edax_bind_ok h
  obtain ⟨f, hf, h⟩ := edax_bind_ok h
  obtain ⟨l6, h, e6⟩ := edax_bind_ok h
  obtain ⟨g, hg, h⟩ := edax_bind_ok h
  obtain ⟨l7, h, e7⟩ := edax_bind_ok h
  injection h with h
  injection e1 with e1
  injection e2 with e2
  injection e3 with e3
  injection e4 with e4
  injection e5 with e5
  injection e6 with e6
  injection e7 with e7
  subst h e7 e6 e5 e4 e3 e2 e1
  exact ⟨a, b, c, d, e, f, g, rfl, ha, hb, hc, hf⟩

theorem edaxRow_phase {words : List Str} {row : List ℚ} (h : EdaxRowOf words row) :
    Spec.EdaxPhaseOf words (nextPhase (row.getD 5 0)) := by
  obtain ⟨a, b, c, d, e, f, g, rfl, _, _, _, hf⟩ := edaxRow_cells h
  obtain ⟨w, hw, hc⟩ := rowCell_ok hf
  unfold parseCell at hc
  obtain ⟨z, hz, hc⟩ := edax_bind_ok hc
  split at hc
  · next hr =>
    injection hc with hc
    refine ⟨w, z, hw, hz, hr.1, by omega, ?_⟩
    show nextPhase f = _
    rw [← hc]
    unfold nextPhase
    by_cases h5 : z = 255
    · rw [if_pos (by rw [h5]; norm_num), if_pos h5]
    · rw [if_neg (by exact_mod_cast h5), if_neg h5]
      push_cast
      ring
  · exact absurd hc (by simp)

theorem edaxRow_angles {words : List Str} {row : List ℚ} (h : EdaxRowOf words row) :
    Spec.EdaxAnglesOf words
      (edaxAngle ((row.getD 0 0 : ℚ) : ℝ), ((row.getD 1 0 : ℚ) : ℝ), ((row.getD 2 0 : ℚ) : ℝ)) := by
  obtain ⟨a, b, c, d, e, f, g, rfl, ha, hb, hc, _⟩ := edaxRow_cells h
  obtain ⟨w1, hw1, h1⟩ := rowCell_ok ha
  obtain ⟨w2, hw2, h2⟩ := rowCell_ok hb
  obtain ⟨w3, hw3, h3⟩ := rowCell_ok hc
  exact ⟨w1, w2, w3, a, b, c, hw1, hw2, hw3, h1, h2, h3, edaxAngle_same _,
    fun h0 h1 => edaxAngle_range h0 h1, rfl, rfl⟩

theorem edaxRows_phase {ws : List (List Str)} {table : List (List ℚ)}
    (h : List.Forall₂ EdaxRowOf ws table) :
    List.Forall₂ Spec.EdaxPhaseOf ws ((table.map fun r => r.getD 5 0).map nextPhase) := by
  induction h with
  | nil => exact List.Forall₂.nil
  | cons hr _ ih => exact List.Forall₂.cons (edaxRow_phase hr) ih

theorem edaxRows_angles {ws : List (List Str)} {table : List (List ℚ)}
    (h : List.Forall₂ EdaxRowOf ws table) :
    List.Forall₂ Spec.EdaxAnglesOf ws (edaxEuler (table.map fun r => r.getD 0 0)
      (table.map fun r => r.getD 1 0) (table.map fun r => r.getD 2 0)) := by
  induction h with
  | nil => exact List.Forall₂.nil
  | cons hr _ ih => exact List.Forall₂.cons (edaxRow_angles hr) ih

theorem tableColumn_ok {cols : List (Nat × Str × FieldType)} {table : List (List ℚ)} {y x : Int}
    {name : Str} {l : List ℚ} (h : tableColumn cols table y x name = .ok l) :
    (table.length : Int) = y * x ∧
    l = table.map fun r => r.getD ((cols.map fun f => f.2.1).idxOf name) 0 := by
  unfold tableColumn at h
  split at h
  · split at h
    · next hs => injection h with h; exact ⟨hs.1, h.symm⟩
    · exact absurd h (by simp)
  · exact absurd h (by simp)

/-- **C69**: whatever a file contains, each loaded pixel has the phase and the angles of its row,
shifted by one and by -90 degrees; the first angle stays in [0, 2π) for angles of the file in
[0, 2π]. (For versions of numpy that load the file at all.) -/
theorem C69_data (text : Str) (d : EdaxData) (h : loadEdax false text = .ok d) :
    (d.phase.length : Int) = d.rows * d.cols ∧
    List.Forall₂ Spec.EdaxPhaseOf (Spec.dataWords text) d.phase ∧
    List.Forall₂ Spec.EdaxAnglesOf (Spec.dataWords text) d.euler := by
  unfold loadEdax at h
  simp only at h
  obtain ⟨s, _, h⟩ := edax_bind_ok h
  obtain ⟨y, _, h⟩ := edax_bind_ok h
  obtain ⟨x, _, h⟩ := edax_bind_ok h
  obtain ⟨table, ht, h⟩ := edax_bind_ok h
  obtain ⟨iq, _, h⟩ := edax_bind_ok h
  obtain ⟨ci, _, h⟩ := edax_bind_ok h
  obtain ⟨ff, _, h⟩ := edax_bind_ok h
  obtain ⟨ph, hph, h⟩ := edax_bind_ok h
  obtain ⟨e1, he1, h⟩ := edax_bind_ok h
  obtain ⟨e2, he2, h⟩ := edax_bind_ok h
  obtain ⟨e3, he3, h⟩ := edax_bind_ok h
  injection h with h
  subst h
  have hrows := edaxRows_words _ _ ht
  obtain ⟨hl, hp⟩ := tableColumn_ok hph
  have h1 := (tableColumn_ok he1).2
  have h2 := (tableColumn_ok he2).2
  have h3 := (tableColumn_ok he3).2
  have i0 : (edaxCols.map fun f => f.2.1).idxOf (lit "phase") = 5 := by decide +kernel
  have i1 : (edaxCols.map fun f => f.2.1).idxOf (lit "ph1") = 0 := by decide +kernel
  have i2 : (edaxCols.map fun f => f.2.1).idxOf (lit "phi") = 1 := by decide +kernel
  have i3 : (edaxCols.map fun f => f.2.1).idxOf (lit "ph2") = 2 := by decide +kernel
  rw [i0] at hp
  rw [i1] at h1
  rw [i2] at h2
  rw [i3] at h3
  subst hp h1 h2 h3
  refine ⟨by simpa using hl, ?_, ?_⟩
  · exact edaxRows_phase hrows
  · exact edaxRows_angles hrows

/-- **C69**, where it is false: a loaded pixel counts as not indexed exactly if the file has 255. -/
theorem C69_zero (words : List Str) (v : ℚ) (h : Spec.EdaxPhaseOf words v) :
    v = 0 ↔ ∃ w, words[7]? = some w ∧ parseInt w = .ok 255 := by
  obtain ⟨w, z, hw, hz, h0, h1, rfl⟩ := h
  constructor
  · intro hv
    by_cases h5 : z = 255
    · exact ⟨w, hw, by rw [hz, h5]⟩
    · rw [if_neg h5] at hv
      have : z + 1 = 0 := by exact_mod_cast hv
      omega
  · rintro ⟨w', hw', hz'⟩
    rw [hw] at hw'
    injection hw' with e
    rw [← e, hz] at hz'
    injection hz' with e
    rw [if_pos e]

/-- **C69**, where it is false: from version 1.23 on numpy loads no file, as there is one column too
many. -/
theorem C69_strict (text : Str) (d : EdaxData) : loadEdax true text ≠ .ok d := by
  intro h
  unfold loadEdax at h
  simp only at h
  obtain ⟨s, _, h⟩ := edax_bind_ok h
  obtain ⟨y, _, h⟩ := edax_bind_ok h
  obtain ⟨x, _, h⟩ := edax_bind_ok h
  obtain ⟨table, ht, _⟩ := edax_bind_ok h
  exact absurd ht (by simp [edaxTable])

/-- A file of two pixels, one with the phase 255. -/
def Spec.exampleAng : Str :=
  lit "# GRID: SqrGrid\n# XSTEP: 0.5\n# NCOLS_ODD: 2\n# NROWS: 1\n1.0 0.5 6.0 0 0 80 0.9 0 12 1.5\n6.0 0.5 6.0 0.5 0 80 0.9 255 12 1.5\n"

set_option maxRecDepth 20000 in
/-- It meets the hypothesis of `C69_data`. -/
example : ∃ d, loadEdax false Spec.exampleAng = .ok d ∧ d.phase = [1, 0] := by
  refine ⟨_, rfl, ?_⟩
  decide +kernel

end DefDAP
