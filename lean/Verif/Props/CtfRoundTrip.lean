import Verif.Model.Ctf
import Verif.Proofs.NumText

/-! C65: writing and loading CTF files. -/

namespace DefDAP

/-! ### Specification -/

/-- The pixels in row-major order. -/
def Spec.pixels (rows cols : Nat) : List (Nat × Nat) :=
  (List.range rows).flatMap fun r => (List.range cols).map fun c => (r, c)

/-- `a` is `x` rounded to `n` decimal places: a whole number of units, at most half a unit off. -/
def Spec.Rounded (n : Nat) (a x : ℝ) : Prop :=
  (∃ k : Int, a = k / 10 ^ n) ∧ |a - x| ≤ 1 / 2 / 10 ^ n

/-- The angle `b` (in radians) is `a` rounded to 0.001 degrees. -/
def Spec.RoundedAngle (b a : ℝ) : Prop :=
  ∃ d, Spec.Rounded 3 d (a * 180 / Real.pi) ∧ b = d * Real.pi / 180

/-- A phase after the round trip: same name and Laue group, space group 0, lengths rounded to 0.001
and angles to 0.001 degrees. -/
def Spec.SamePhase (p q : PhaseData) : Prop :=
  q.name = p.name ∧ q.laue = p.laue ∧ q.space = 0 ∧
  (∀ i, Spec.Rounded 3 (q.lengths i) (p.lengths i)) ∧
  (∀ i, Spec.RoundedAngle (q.angles i) (p.angles i))

/-- Euler angles (in radians) `a` are `b` rounded to 0.001 degrees. -/
def Spec.CloseAngles (a b : ℝ × ℝ × ℝ) : Prop :=
  Spec.RoundedAngle a.1 b.1 ∧ Spec.RoundedAngle a.2.1 b.2.1 ∧ Spec.RoundedAngle a.2.2 b.2.2

/-- Maps that can be written and loaded: known Laue groups, names on one line without tabs, `uint8`
values. -/
def Spec.Writable (m : CtfMap) : Prop :=
  (∀ p ∈ m.phases, (p.laue = 9 ∨ p.laue = 11) ∧ '\t' ∉ p.name ∧ '\n' ∉ p.name) ∧
  (∀ r c, r < m.rows → c < m.cols → m.phase r c < 256 ∧ m.contrast r c < 256)

/-! ### Splitting -/

theorem splitWhen_join {p : Char → Bool} {sep : Char} (hs : p sep = true) : ∀ {toks : List Str},
    toks ≠ [] → (∀ t ∈ toks, ∀ c ∈ t, p c = false) → splitWhen p (joinSep sep toks) = toks := by
  intro toks
  induction toks with
  | nil => intro h; exact absurd rfl h
  | cons a t ih =>
    intro _ h
    cases t with
    | nil => exact splitWhen_none (h a (by simp))
    | cons b t' =>
      show splitWhen p (a ++ sep :: joinSep sep (b :: t')) = _
      rw [splitWhen_append _ _ _ hs, splitWhen_none (h a (by simp)),
        ih (by simp) (fun x hx => h x (by simp [hx]))]
      rfl

theorem splitSep_join {sep : Char} {toks : List Str} (hne : toks ≠ [])
    (h : ∀ t ∈ toks, sep ∉ t) : splitSep sep (joinSep sep toks) = toks := by
  unfold splitSep
  refine splitWhen_join (by simp) hne ?_
  intro t ht c hc
  rw [decide_eq_false_iff_not]
  rintro rfl
  exact h t ht hc

theorem splitWs_join {toks : List Str} (hne : toks ≠ [])
    (h : ∀ t ∈ toks, t ≠ [] ∧ ∀ c ∈ t, isWs c = false) :
    splitWs (joinSep '\t' toks ++ ['\n']) = toks := by
  unfold splitWs
  rw [splitWhen_append _ _ _ (by decide), splitWhen_join (by decide) hne (fun t ht => (h t ht).2),
    List.filter_append]
  have e : toks.filter (fun w => !w.isEmpty) = toks := by
    rw [List.filter_eq_self]
    intro t ht
    have := (h t ht).1
    cases t with
    | nil => exact absurd rfl this
    | cons _ _ => rfl
  rw [e]
  simp [splitWhen]

theorem num_tok {s : Str} (hne : s ≠ []) (h : ∀ c ∈ s, numChar c = true) :
    s ≠ [] ∧ ∀ c ∈ s, isWs c = false := ⟨hne, fun c hc => numChar_ws (h c hc)⟩

theorem lastWord_key {k num : Str} (hk : k ≠ [] ∧ ∀ c ∈ k, isWs c = false) (hne : num ≠ [])
    (hnum : ∀ c ∈ num, numChar c = true) : lastWord (k ++ '\t' :: num ++ ['\n']) = .ok num := by
  have h := splitWs_join (toks := [k, num]) (by simp) (by
    intro t ht
    rcases List.mem_cons.mp ht with rfl | ht
    · exact hk
    · rw [List.mem_singleton.mp ht]
      exact num_tok hne hnum)
  unfold lastWord
  have e : joinSep '\t' [k, num] = k ++ '\t' :: num := rfl
  rw [e] at h
  rw [h]
  rfl

/-! ### Keys of the header -/

theorem infix_sep {p l b : Str} {sep : Char} (hs : sep ∉ p) (h : p <:+: l ++ sep :: b) :
    p <:+: l ∨ p <:+: b := by
  obtain ⟨s, t, e⟩ := h
  rw [List.append_assoc] at e
  rcases List.append_eq_append_iff.mp e with ⟨a', h1, h2⟩ | ⟨a', h1, h2⟩
  · -- s is a prefix of l
    rcases List.append_eq_append_iff.mp h2 with ⟨b', h3, h4⟩ | ⟨b', h3, h4⟩
    · left
      exact ⟨s, b', by rw [h1, h3, List.append_assoc]⟩
    · cases b' with
      | nil =>
        left
        rw [List.append_nil] at h3
        exact ⟨s, [], by rw [h1, h3]; simp⟩
      | cons c r =>
        rw [List.cons_append, List.cons.injEq] at h4
        exfalso
        apply hs
        rw [h3, h4.1]
        simp
  · cases a' with
    | nil =>
      rw [List.nil_append] at h2
      cases p with
      | nil => left; exact List.nil_infix
      | cons c r =>
        rw [List.cons_append, List.cons.injEq] at h2
        exact absurd (by rw [← h2.1]; simp) hs
    | cons c r =>
      rw [List.cons_append, List.cons.injEq] at h2
      right
      exact ⟨r, t, by rw [List.append_assoc]; exact h2.2.symm⟩

theorem hasSub_key {c : Char} {p k num : Str} (htab : '\t' ∉ c :: p) (hc : numChar c = false)
    (hn : c ≠ '\n') (hnum : ∀ x ∈ num, numChar x = true) :
    hasSub (c :: p) (k ++ '\t' :: num ++ ['\n']) = hasSub (c :: p) k := by
  unfold hasSub
  rw [decide_eq_decide]
  constructor
  · intro h
    rw [List.append_assoc, List.cons_append] at h
    rcases infix_sep htab h with h | h
    · exact h
    · exfalso
      have hm : c ∈ num ++ ['\n'] := h.subset (by simp)
      rcases List.mem_append.mp hm with hm | hm
      · rw [hnum c hm] at hc
        exact absurd hc (by simp)
      · exact hn (List.mem_singleton.mp hm)
  · intro h
    rw [List.append_assoc]
    exact h.trans (List.infix_append' [] k _)

theorem headKeys {num : Str} (hnum : ∀ x ∈ num, numChar x = true) (k : Str) :
    hasSub (lit "XCells") (k ++ '\t' :: num ++ ['\n']) = hasSub (lit "XCells") k ∧
    hasSub (lit "YCells") (k ++ '\t' :: num ++ ['\n']) = hasSub (lit "YCells") k ∧
    hasSub (lit "XStep") (k ++ '\t' :: num ++ ['\n']) = hasSub (lit "XStep") k ∧
    hasSub (lit "AcqE1") (k ++ '\t' :: num ++ ['\n']) = hasSub (lit "AcqE1") k ∧
    hasSub (lit "AcqE2") (k ++ '\t' :: num ++ ['\n']) = hasSub (lit "AcqE2") k ∧
    hasSub (lit "AcqE3") (k ++ '\t' :: num ++ ['\n']) = hasSub (lit "AcqE3") k ∧
    hasSub (lit "Phases") (k ++ '\t' :: num ++ ['\n']) = hasSub (lit "Phases") k := by
  rw [show lit "XCells" = 'X' :: lit "Cells" by decide,
    show lit "YCells" = 'Y' :: lit "Cells" by decide,
    show lit "XStep" = 'X' :: lit "Step" by decide,
    show lit "AcqE1" = 'A' :: lit "cqE1" by decide,
    show lit "AcqE2" = 'A' :: lit "cqE2" by decide,
    show lit "AcqE3" = 'A' :: lit "cqE3" by decide,
    show lit "Phases" = 'P' :: lit "hases" by decide]
  exact ⟨hasSub_key (by decide) (by decide) (by decide) hnum,
    hasSub_key (by decide) (by decide) (by decide) hnum,
    hasSub_key (by decide) (by decide) (by decide) hnum,
    hasSub_key (by decide) (by decide) (by decide) hnum,
    hasSub_key (by decide) (by decide) (by decide) hnum,
    hasSub_key (by decide) (by decide) (by decide) hnum,
    hasSub_key (by decide) (by decide) (by decide) hnum⟩

/-- No key of the header occurs in this line. -/
def noKey (line : Str) : Prop :=
  hasSub (lit "XCells") line = false ∧ hasSub (lit "YCells") line = false ∧
  hasSub (lit "XStep") line = false ∧ hasSub (lit "AcqE1") line = false ∧
  hasSub (lit "AcqE2") line = false ∧ hasSub (lit "AcqE3") line = false ∧
  hasSub (lit "Phases") line = false

theorem ctfHeader_skip {line : Str} (h : noKey line) (lines : List Str) (i : Nat) (s : CtfState) :
    ctfHeader (line :: lines) i s = ctfHeader lines (i + 1) s := by
  obtain ⟨h1, h2, h3, h4, h5, h6, h7⟩ := h
  conv_lhs => unfold ctfHeader
  simp [h1, h2, h3, h4, h5, h6, h7]

theorem noKey_num {num : Str} (hnum : ∀ x ∈ num, numChar x = true) {k : Str} (h : noKey k) :
    noKey (k ++ '\t' :: num ++ ['\n']) := by
  obtain ⟨e1, e2, e3, e4, e5, e6, e7⟩ := headKeys hnum k
  unfold noKey
  rw [e1, e2, e3, e4, e5, e6, e7]
  exact h

section Keyed
variable {num : Str} (hne : num ≠ []) (hnum : ∀ x ∈ num, numChar x = true)
  (lines : List Str) (i : Nat) (s : CtfState)
include hne hnum

theorem ctfHeader_x {v : Int} (hv : parseInt num = .ok v) :
    ctfHeader ((lit "XCells" ++ '\t' :: num ++ ['\n']) :: lines) i s =
      ctfHeader lines (i + 1) { s with x := some v } := by
  obtain ⟨e1, e2, e3, e4, e5, e6, e7⟩ := headKeys hnum (lit "XCells")
  conv_lhs => unfold ctfHeader
  rw [e1, if_pos (by decide), lastWord_key (by decide) hne hnum]
  simp only [Except.bind, hv]

theorem ctfHeader_y {v : Int} (hv : parseInt num = .ok v) :
    ctfHeader ((lit "YCells" ++ '\t' :: num ++ ['\n']) :: lines) i s =
      ctfHeader lines (i + 1) { s with y := some v } := by
  obtain ⟨e1, e2, e3, e4, e5, e6, e7⟩ := headKeys hnum (lit "YCells")
  conv_lhs => unfold ctfHeader
  rw [e1, if_neg (by decide), e2, if_pos (by decide), lastWord_key (by decide) hne hnum]
  simp only [Except.bind, hv]

theorem ctfHeader_step {v : ℚ} (hv : parseFloat num = .ok v) :
    ctfHeader ((lit "XStep" ++ '\t' :: num ++ ['\n']) :: lines) i s =
      ctfHeader lines (i + 1) { s with step := v } := by
  obtain ⟨e1, e2, e3, e4, e5, e6, e7⟩ := headKeys hnum (lit "XStep")
  conv_lhs => unfold ctfHeader
  rw [e1, if_neg (by decide), e2, if_neg (by decide), e3, if_pos (by decide),
    lastWord_key (by decide) hne hnum]
  simp only [Except.bind, hv]

theorem ctfHeader_acq1 {v : ℚ} (hv : parseFloat num = .ok v) :
    ctfHeader ((lit "AcqE1" ++ '\t' :: num ++ ['\n']) :: lines) i s =
      ctfHeader lines (i + 1) { s with acq1 := v } := by
  obtain ⟨e1, e2, e3, e4, e5, e6, e7⟩ := headKeys hnum (lit "AcqE1")
  conv_lhs => unfold ctfHeader
  rw [e1, if_neg (by decide), e2, if_neg (by decide), e3, if_neg (by decide), e4,
    if_pos (by decide), lastWord_key (by decide) hne hnum]
  simp only [Except.bind, hv]

theorem ctfHeader_acq2 {v : ℚ} (hv : parseFloat num = .ok v) :
    ctfHeader ((lit "AcqE2" ++ '\t' :: num ++ ['\n']) :: lines) i s =
      ctfHeader lines (i + 1) { s with acq2 := v } := by
  obtain ⟨e1, e2, e3, e4, e5, e6, e7⟩ := headKeys hnum (lit "AcqE2")
  conv_lhs => unfold ctfHeader
  rw [e1, if_neg (by decide), e2, if_neg (by decide), e3, if_neg (by decide), e4,
    if_neg (by decide), e5, if_pos (by decide), lastWord_key (by decide) hne hnum]
  simp only [Except.bind, hv]

theorem ctfHeader_acq3 {v : ℚ} (hv : parseFloat num = .ok v) :
    ctfHeader ((lit "AcqE3" ++ '\t' :: num ++ ['\n']) :: lines) i s =
      ctfHeader lines (i + 1) { s with acq3 := v } := by
  obtain ⟨e1, e2, e3, e4, e5, e6, e7⟩ := headKeys hnum (lit "AcqE3")
  conv_lhs => unfold ctfHeader
  rw [e1, if_neg (by decide), e2, if_neg (by decide), e3, if_neg (by decide), e4,
    if_neg (by decide), e5, if_neg (by decide), e6, if_pos (by decide),
    lastWord_key (by decide) hne hnum]
  simp only [Except.bind, hv]

theorem ctfHeader_phases {v : Int} (hv : parseInt num = .ok v) :
    ctfHeader ((lit "Phases" ++ '\t' :: num ++ ['\n']) :: lines) i s =
      (ctfTable i v.toNat lines).bind fun t => .ok (s, some t) := by
  obtain ⟨e1, e2, e3, e4, e5, e6, e7⟩ := headKeys hnum (lit "Phases")
  conv_lhs => unfold ctfHeader
  rw [e1, if_neg (by decide), e2, if_neg (by decide), e3, if_neg (by decide), e4,
    if_neg (by decide), e5, if_neg (by decide), e6, if_neg (by decide), e7, if_pos (by decide),
    lastWord_key (by decide) hne hnum]
  simp only [Except.bind, hv]

end Keyed

/-! ### Phases -/

theorem num_not {c : Char} (hc : numChar c = false) {s : Str} (h : ∀ x ∈ s, numChar x = true) :
    c ∉ s := by
  intro hm
  rw [h c hm] at hc
  exact absurd hc (by simp)

theorem parseRound_fixed (x : ℝ) : ∃ y, parseRound (fixedStr 3 x) = .ok y ∧ Spec.Rounded 3 y x := by
  obtain ⟨q, h1, h2, m, h3⟩ := parseFloat_fixedStr 2 x
  refine ⟨(q : ℝ), ?_, ?_⟩
  · unfold parseRound
    rw [h1]
    simp only [Except.bind]
    have : (q : ℝ) = (m : ℝ) / 10 ^ 3 := by rw [h3]; push_cast; ring
    rw [this, pyRound_units]
  · exact ⟨⟨m, by rw [h3]; push_cast; ring⟩, h2⟩

theorem parseTriple_fixed (x y z : ℝ) : ∃ a b c,
    parseTriple (joinSep ';' [fixedStr 3 x, fixedStr 3 y, fixedStr 3 z]) = .ok (a, b, c) ∧
    Spec.Rounded 3 a x ∧ Spec.Rounded 3 b y ∧ Spec.Rounded 3 c z := by
  obtain ⟨a, ha, ha'⟩ := parseRound_fixed x
  obtain ⟨b, hb, hb'⟩ := parseRound_fixed y
  obtain ⟨c, hc, hc'⟩ := parseRound_fixed z
  refine ⟨a, b, c, ?_, ha', hb', hc'⟩
  unfold parseTriple
  rw [splitSep_join (by simp) (by
    intro t ht
    simp only [List.mem_cons, List.not_mem_nil, or_false] at ht
    rcases ht with rfl | rfl | rfl <;> exact num_not (by decide) (fixedStr_num _ _))]
  simp only [ha, hb, hc, Except.bind]

theorem join3_not {c : Char} (hc : numChar c = false) (hs : c ≠ ';') (x y z : ℝ) :
    c ∉ joinSep ';' [fixedStr 3 x, fixedStr 3 y, fixedStr 3 z] := by
  have e : joinSep ';' [fixedStr 3 x, fixedStr 3 y, fixedStr 3 z] =
    fixedStr 3 x ++ ';' :: (fixedStr 3 y ++ ';' :: fixedStr 3 z) := rfl
  rw [e]
  have h1 := num_not hc (fixedStr_num 3 x)
  have h2 := num_not hc (fixedStr_num 3 y)
  have h3 := num_not hc (fixedStr_num 3 z)
  simp [h1, h2, h3, hs]

theorem ctfPhase_text {p : PhaseData} (hl : p.laue = 9 ∨ p.laue = 11) (ht : '\t' ∉ p.name) :
    ∃ q, ctfPhase (phaseText p ++ ['\n']) = .ok q ∧ Spec.SamePhase p q := by
  obtain ⟨a, b, c, h1, ha, hb, hc⟩ := parseTriple_fixed (p.lengths 0) (p.lengths 1) (p.lengths 2)
  obtain ⟨a', b', c', h2, ha', hb', hc'⟩ := parseTriple_fixed (p.angles 0 * 180 / Real.pi)
    (p.angles 1 * 180 / Real.pi) (p.angles 2 * 180 / Real.pi)
  have hsplit : splitSep '\t' (phaseText p ++ ['\n']) =
      [joinSep ';' [fixedStr 3 (p.lengths 0), fixedStr 3 (p.lengths 1), fixedStr 3 (p.lengths 2)],
       joinSep ';' [fixedStr 3 (p.angles 0 * 180 / Real.pi), fixedStr 3 (p.angles 1 * 180 / Real.pi),
         fixedStr 3 (p.angles 2 * 180 / Real.pi)],
       p.name, intStr p.laue, lit "0", [], [], ['\n']] := by
    have e : ∀ A B C D : Str, joinSep '\t' [A, B, C, D, lit "0", [], [], []] ++ ['\n'] =
        joinSep '\t' [A, B, C, D, lit "0", [], [], ['\n']] := by
      intro A B C D
      simp [joinSep]
    unfold phaseText
    rw [e]
    refine splitSep_join (by simp) ?_
    intro t hm
    simp only [List.mem_cons, List.not_mem_nil, or_false] at hm
    rcases hm with rfl | rfl | rfl | rfl | rfl | rfl | rfl | rfl
    · exact join3_not (by decide) (by decide) _ _ _
    · exact join3_not (by decide) (by decide) _ _ _
    · exact ht
    · exact num_not (by decide) (intStr_num _)
    · decide
    · simp
    · simp
    · decide
  refine ⟨⟨p.name, p.laue, 0, ![a, b, c], ![a' * Real.pi / 180, b' * Real.pi / 180,
    c' * Real.pi / 180]⟩, ?_, rfl, rfl, rfl, ?_, ?_⟩
  · unfold ctfPhase
    have h0 : parseInt (lit "0") = .ok 0 := by rfl
    simp only [hsplit, fieldAt, List.getElem?_cons_zero, List.getElem?_cons_succ, Except.bind, h1,
      h2, parseInt_intStr, h0, makePhase]
    rw [if_pos hl]
  · intro i
    fin_cases i
    · exact ha
    · exact hb
    · exact hc
  · intro i
    fin_cases i
    · exact ⟨a', ha', rfl⟩
    · exact ⟨b', hb', rfl⟩
    · exact ⟨c', hc', rfl⟩

theorem ctfPhases_text (rest : List Str) : ∀ (ps : List PhaseData),
    (∀ p ∈ ps, (p.laue = 9 ∨ p.laue = 11) ∧ '\t' ∉ p.name) →
    ∃ qs, ctfPhases ps.length (ps.map (fun p => phaseText p ++ ['\n']) ++ rest) = .ok (qs, rest) ∧
      List.Forall₂ Spec.SamePhase ps qs := by
  intro ps
  induction ps with
  | nil => intro _; exact ⟨[], rfl, List.Forall₂.nil⟩
  | cons p t ih =>
    intro h
    obtain ⟨q, hq, hs⟩ := ctfPhase_text (h p (by simp)).1 (h p (by simp)).2
    obtain ⟨qs, hqs, hss⟩ := ih (fun x hx => h x (by simp [hx]))
    refine ⟨q :: qs, ?_, List.Forall₂.cons hs hss⟩
    rw [List.length_cons, List.map_cons, List.cons_append]
    unfold ctfPhases
    rw [hq]
    simp only [Except.bind]
    rw [hqs]

/-! ### Pixels -/

/-- The columns of a written file. -/
def ctfCols : List (Nat × Str × FieldType) :=
  [(0, lit "phase", .uint8), (5, lit "ph1", .float32), (6, lit "phi", .float32),
   (7, lit "ph2", .float32), (8, lit "MAD", .float32), (9, lit "BC", .uint8), (10, lit "BS", .uint8)]

/-- The row of a pixel. -/
def RowOf (m : CtfMap) (p : Nat × Nat) (row : List ℚ) : Prop :=
  ∃ q1 q2 q3 : ℚ, row = [(m.phase p.1 p.2 : ℚ), q1, q2, q3, 0, (m.contrast p.1 p.2 : ℚ), 0] ∧
    Spec.Rounded 3 (q1 : ℝ) (deg (m.quat p.1 p.2).eulerAngles.1) ∧
    Spec.Rounded 3 (q2 : ℝ) (deg (m.quat p.1 p.2).eulerAngles.2.1) ∧
    Spec.Rounded 3 (q3 : ℝ) (deg (m.quat p.1 p.2).eulerAngles.2.2)

theorem parseFixed3 (x : ℝ) : ∃ q : ℚ, parseFloat (fixedStr 3 x) = .ok q ∧ Spec.Rounded 3 q x := by
  obtain ⟨q, h1, h2, m, h3⟩ := parseFloat_fixedStr 2 x
  exact ⟨q, h1, ⟨m, by rw [h3]; push_cast; ring⟩, h2⟩

theorem parseCell_nat {n : Nat} (h : n < 256) : parseCell .uint8 (intStr n) = .ok (n : ℚ) := by
  unfold parseCell
  simp only [parseInt_intStr, Except.bind]
  rw [if_pos (by omega)]
  norm_cast

theorem join_not {sep c : Char} (hs : c ≠ sep) : ∀ {toks : List Str}, (∀ t ∈ toks, c ∉ t) →
    c ∉ joinSep sep toks := by
  intro toks
  induction toks with
  | nil => intro _; simp [joinSep]
  | cons a t ih =>
    intro h
    cases t with
    | nil => exact h a (by simp)
    | cons b t' =>
      show c ∉ a ++ sep :: joinSep sep (b :: t')
      have := ih (fun x hx => h x (by simp [hx]))
      simp [h a (by simp), hs, this]

/-- The texts of a pixel are numbers. -/
theorem pixel_toks (m : CtfMap) (r c : Nat) : ∀ t ∈
    ([intStr (m.phase r c), fixedStr 3 (c * m.step), fixedStr 3 (r * m.step), lit "10",
     intStr (if m.phase r c = 0 then 3 else 0), fixedStr 3 (deg (m.quat r c).eulerAngles.1),
     fixedStr 3 (deg (m.quat r c).eulerAngles.2.1),
     fixedStr 3 (deg (m.quat r c).eulerAngles.2.2), lit "0.0000", intStr (m.contrast r c),
     lit "0"] : List Str), t ≠ [] ∧ ∀ x ∈ t, numChar x = true := by
  intro t ht
  simp only [List.mem_cons, List.not_mem_nil, or_false] at ht
  rcases ht with rfl | rfl | rfl | rfl | rfl | rfl | rfl | rfl | rfl | rfl | rfl
  · exact ⟨intStr_ne _, intStr_num _⟩
  · exact ⟨fixedStr_ne _ _, fixedStr_num _ _⟩
  · exact ⟨fixedStr_ne _ _, fixedStr_num _ _⟩
  · decide
  · exact ⟨intStr_ne _, intStr_num _⟩
  · exact ⟨fixedStr_ne _ _, fixedStr_num _ _⟩
  · exact ⟨fixedStr_ne _ _, fixedStr_num _ _⟩
  · exact ⟨fixedStr_ne _ _, fixedStr_num _ _⟩
  · decide
  · exact ⟨intStr_ne _, intStr_num _⟩
  · decide

theorem pixel_not (m : CtfMap) (r c : Nat) {x : Char} (hx : numChar x = false) (ht : x ≠ '\t') :
    x ∉ pixelText m r c :=
  join_not ht fun t h => num_not hx (pixel_toks m r c t h).2

theorem takeWhile_id {p : Char → Bool} {s : Str} (h : ∀ c ∈ s, p c = true) : s.takeWhile p = s :=
  (takeWhile_full h).1

theorem tableRows_pixel {m : CtfMap} {r c : Nat} (hp : m.phase r c < 256) (hb : m.contrast r c < 256)
    (lines : List Str) : ∃ row, RowOf m (r, c) row ∧
    tableRows ctfCols ((pixelText m r c ++ ['\n']) :: lines) =
      (tableRows ctfCols lines).bind fun rows => .ok (row :: rows) := by
  obtain ⟨q1, h1, h1'⟩ := parseFixed3 (deg (m.quat r c).eulerAngles.1)
  obtain ⟨q2, h2, h2'⟩ := parseFixed3 (deg (m.quat r c).eulerAngles.2.1)
  obtain ⟨q3, h3, h3'⟩ := parseFixed3 (deg (m.quat r c).eulerAngles.2.2)
  refine ⟨_, ⟨q1, q2, q3, rfl, h1', h2', h3'⟩, ?_⟩
  conv_lhs => unfold tableRows
  have hhash : (pixelText m r c ++ ['\n']).takeWhile (fun x => decide (x ≠ '#')) =
      pixelText m r c ++ ['\n'] := by
    apply takeWhile_id
    intro x hx
    rw [decide_eq_true_eq]
    rintro rfl
    rcases List.mem_append.mp hx with hx | hx
    · exact pixel_not m r c (by decide) (by decide) hx
    · exact absurd hx (by decide)
  simp only [hhash]
  unfold pixelText
  simp only
  rw [splitWs_join (by simp) (fun t ht => num_tok (pixel_toks m r c t ht).1 (pixel_toks m r c t ht).2)]
  rw [if_neg (by simp)]
  have z1 : parseFloat (lit "0.0000") = .ok 0 := by decide +kernel
  have z2 : parseInt (lit "0") = .ok 0 := by rfl
  have z3 : parseCell .uint8 (lit "0") = .ok 0 := by
    unfold parseCell
    simp only [z2, Except.bind]
    rfl
  have hrow : ctfCols.mapM (rowCell [intStr (m.phase r c), fixedStr 3 (c * m.step),
      fixedStr 3 (r * m.step), lit "10", intStr (if m.phase r c = 0 then 3 else 0),
      fixedStr 3 (deg (m.quat r c).eulerAngles.1), fixedStr 3 (deg (m.quat r c).eulerAngles.2.1),
      fixedStr 3 (deg (m.quat r c).eulerAngles.2.2), lit "0.0000", intStr (m.contrast r c),
      lit "0"]) = .ok [(m.phase r c : ℚ), q1, q2, q3, 0, (m.contrast r c : ℚ), 0] := by
    unfold ctfCols
    simp only [List.mapM_cons, List.mapM_nil, rowCell, List.getElem?_cons_zero,
      List.getElem?_cons_succ, parseCell_nat hp, parseCell_nat hb, z3]
    simp only [parseCell, h1, h2, h3, z1]
    rfl
  rw [hrow]
  rfl

theorem tableRows_pixels {m : CtfMap} : ∀ (pts : List (Nat × Nat)),
    (∀ p ∈ pts, m.phase p.1 p.2 < 256 ∧ m.contrast p.1 p.2 < 256) →
    ∃ table, tableRows ctfCols (pts.map fun p => pixelText m p.1 p.2 ++ ['\n']) = .ok table ∧
      List.Forall₂ (RowOf m) pts table := by
  intro pts
  induction pts with
  | nil => intro _; exact ⟨[], rfl, List.Forall₂.nil⟩
  | cons p t ih =>
    intro h
    obtain ⟨table, ht, hf⟩ := ih (fun x hx => h x (by simp [hx]))
    obtain ⟨row, hr, hl⟩ := tableRows_pixel (h p (by simp)).1 (h p (by simp)).2
      (t.map fun p => pixelText m p.1 p.2 ++ ['\n'])
    refine ⟨row :: table, ?_, List.Forall₂.cons hr hf⟩
    rw [List.map_cons, hl, ht]
    rfl

theorem loadColumns_title : loadColumns 0 (splitWs
    (lit "Phase\tX\tY\tBands\tError\tEuler1\tEuler2\tEuler3\tMAD\tBC\tBS" ++ ['\n'])) =
    .ok ctfCols := by
  decide +kernel

theorem rows_column {m : CtfMap} {pts : List (Nat × Nat)} {table : List (List ℚ)}
    (h : List.Forall₂ (RowOf m) pts table) :
    table.map (fun r => r.getD 0 0) = pts.map (fun p => (m.phase p.1 p.2 : ℚ)) ∧
    table.map (fun r => r.getD 4 0) = pts.map (fun _ => 0) ∧
    table.map (fun r => r.getD 5 0) = pts.map (fun p => (m.contrast p.1 p.2 : ℚ)) ∧
    table.map (fun r => r.getD 6 0) = pts.map (fun _ => 0) := by
  induction h with
  | nil => exact ⟨rfl, rfl, rfl, rfl⟩
  | cons hr _ ih =>
    obtain ⟨q1, q2, q3, rfl, _⟩ := hr
    obtain ⟨i1, i2, i3, i4⟩ := ih
    exact ⟨by simp [← i1], by simp [← i2], by simp [← i3], by simp [← i4]⟩

theorem deg_close {q x : ℝ} (h : Spec.Rounded 3 q (deg x)) :
    Spec.RoundedAngle (q * (Real.pi / 180)) x := by
  refine ⟨q, ?_, by ring⟩
  have : x * 180 / Real.pi = deg x := by unfold deg; ring
  rw [this]
  exact h

theorem parseFixed4 (x : ℝ) : ∃ q : ℚ, parseFloat (fixedStr 4 x) = .ok q ∧ Spec.Rounded 4 q x := by
  obtain ⟨q, h1, h2, m, h3⟩ := parseFloat_fixedStr 3 x
  exact ⟨q, h1, ⟨m, by rw [h3]; push_cast; ring⟩, h2⟩

theorem rounded_exact {n : Nat} {a x : ℝ} (h : Spec.Rounded n a x) {k : Int}
    (hx : x = k / 10 ^ n) : a = x := by
  obtain ⟨⟨j, hj⟩, hb⟩ := h
  have hp : (0 : ℝ) < 10 ^ n := by positivity
  rw [hj, hx, ← sub_div, abs_div, abs_of_pos hp, div_le_div_iff_of_pos_right hp] at hb
  have h1 : |j - k| < 1 := by
    have : ((|j - k| : ℤ) : ℝ) < 1 := by push_cast; linarith
    exact_mod_cast this
  have h2 : j = k := by have := Int.abs_lt_one_iff.mp h1; omega
  rw [hj, hx, h2]

theorem rows_euler {m : CtfMap} {pts : List (Nat × Nat)} {table : List (List ℚ)}
    (h : List.Forall₂ (RowOf m) pts table) :
    List.Forall₂ (fun p e => Spec.CloseAngles e (m.quat p.1 p.2).eulerAngles) pts
      (radians (table.map fun r => r.getD 1 0) (table.map fun r => r.getD 2 0)
        (table.map fun r => r.getD 3 0)) := by
  induction h with
  | nil => exact List.Forall₂.nil
  | cons hr _ ih =>
    obtain ⟨q1, q2, q3, rfl, h1, h2, h3⟩ := hr
    exact List.Forall₂.cons ⟨deg_close h1, deg_close h2, deg_close h3⟩ ih

/-! ### The whole file -/

/-- The lines that hold the pixels. -/
noncomputable def pixelLines (m : CtfMap) : List Str :=
  (Spec.pixels m.rows m.cols).map fun p => pixelText m p.1 p.2

theorem pixelLines_eq (m : CtfMap) : ((List.range m.rows).flatMap fun r =>
    (List.range m.cols).map (pixelText m r)) = pixelLines m := by
  unfold pixelLines Spec.pixels
  rw [List.map_flatMap]
  congr 1
  funext r
  rw [List.map_map]
  rfl

theorem num_line {k num : Str} (hk : '\n' ∉ k) (hnum : ∀ x ∈ num, numChar x = true) :
    '\n' ∉ k ++ '\t' :: num := by
  have := num_not (c := '\n') (by decide) hnum
  simp [hk, this]

theorem ctf_lines {m : CtfMap} (h : Spec.Writable m) :
    ∀ l ∈ ctfHead m ++ pixelLines m, '\n' ∉ l := by
  intro l hl
  rcases List.mem_append.mp hl with hl | hl
  · unfold ctfHead at hl
    simp only at hl
    rcases List.mem_append.mp hl with hl | hl
    · rcases List.mem_append.mp hl with hl | hl
      · simp only [List.mem_cons, List.not_mem_nil, or_false] at hl
        rcases hl with rfl | rfl | rfl | rfl | rfl | rfl | rfl | rfl | rfl | rfl | rfl | rfl | rfl
        · decide
        · decide
        · decide
        · decide
        · exact num_line (by decide) (intStr_num _)
        · exact num_line (by decide) (intStr_num _)
        · exact num_line (by decide) (fixedStr_num _ _)
        · exact num_line (by decide) (fixedStr_num _ _)
        · exact num_line (by decide) (fixedStr_num _ _)
        · exact num_line (by decide) (fixedStr_num _ _)
        · exact num_line (by decide) (fixedStr_num _ _)
        · decide
        · exact num_line (by decide) (intStr_num _)
      · obtain ⟨p, hp, rfl⟩ := List.mem_map.mp hl
        unfold phaseText
        refine join_not (by decide) ?_
        intro t ht
        simp only [List.mem_cons, List.not_mem_nil, or_false] at ht
        rcases ht with rfl | rfl | rfl | rfl | rfl | rfl | rfl | rfl
        · exact join3_not (by decide) (by decide) _ _ _
        · exact join3_not (by decide) (by decide) _ _ _
        · exact (h.1 p hp).2.2
        · exact num_not (by decide) (intStr_num _)
        · decide
        · simp
        · simp
        · simp
    · rw [List.mem_singleton.mp hl]
      decide
  · obtain ⟨p, _, rfl⟩ := List.mem_map.mp hl
    exact pixel_not m p.1 p.2 (by decide) (by decide)

theorem noKey_plain : noKey (lit "Channel Text File" ++ ['\n']) ∧ noKey (lit "Prj\t" ++ ['\n']) ∧
    noKey (lit "Author\t" ++ ['\n']) ∧ noKey (lit "JobMode\tGrid" ++ ['\n']) ∧ noKey (lit "YStep") ∧
    noKey (lit "Euler angles refer to Sample Coordinate system (CS0)!" ++ ['\n']) := by
  unfold noKey
  decide +kernel

/-- What the loop over the header finds. -/
theorem ctfHeader_text {m : CtfMap} (h : Spec.Writable m) (rest : List Str) :
    ∃ s : CtfState, s.x = some (m.cols : Int) ∧ s.y = some (m.rows : Int) ∧
      Spec.Rounded 4 (s.step : ℝ) m.step ∧
      Spec.Rounded 4 (s.acq1 : ℝ) (deg m.acquisition.eulerAngles.1) ∧
      Spec.Rounded 4 (s.acq2 : ℝ) (deg m.acquisition.eulerAngles.2.1) ∧
      Spec.Rounded 4 (s.acq3 : ℝ) (deg m.acquisition.eulerAngles.2.2) ∧
      ∃ qs, List.Forall₂ Spec.SamePhase m.phases qs ∧
      ctfHeader ((ctfHead m).map (fun l => l ++ ['\n']) ++ rest) 0 ⟨none, none, 0, 0, 0, 0⟩ =
        match m.phases.length with
        | 0 => .error .unboundLocalError
        | j + 1 => .ok (s, some (qs,
          lit "Phase\tX\tY\tBands\tError\tEuler1\tEuler2\tEuler3\tMAD\tBC\tBS" ++ ['\n'],
          12 + j + 3)) := by
  obtain ⟨st, hst, hst'⟩ := parseFixed4 m.step
  obtain ⟨a1, ha1, ha1'⟩ := parseFixed4 (deg m.acquisition.eulerAngles.1)
  obtain ⟨a2, ha2, ha2'⟩ := parseFixed4 (deg m.acquisition.eulerAngles.2.1)
  obtain ⟨a3, ha3, ha3'⟩ := parseFixed4 (deg m.acquisition.eulerAngles.2.2)
  obtain ⟨qs, hqs, hf⟩ := ctfPhases_text
    ((lit "Phase\tX\tY\tBands\tError\tEuler1\tEuler2\tEuler3\tMAD\tBC\tBS" ++ ['\n']) :: rest)
    m.phases (fun p hp => ⟨(h.1 p hp).1, (h.1 p hp).2.1⟩)
  refine ⟨⟨some m.cols, some m.rows, st, a1, a2, a3⟩, rfl, rfl,
    hst', ha1', ha2', ha3', qs, hf, ?_⟩
  obtain ⟨k1, k2, k3, k4, k5, k6⟩ := noKey_plain
  unfold ctfHead
  simp only [List.map_append, List.map_cons, List.map_nil, List.cons_append, List.nil_append,
    List.append_assoc, List.map_map]
  rw [ctfHeader_skip k1, ctfHeader_skip k2, ctfHeader_skip k3, ctfHeader_skip k4]
  have hx := fun num => (List.append_assoc (lit "XCells") ('\t' :: num) ['\n']).symm
  have hy := fun num => (List.append_assoc (lit "YCells") ('\t' :: num) ['\n']).symm
  have hs := fun num => (List.append_assoc (lit "XStep") ('\t' :: num) ['\n']).symm
  have hs' := fun num => (List.append_assoc (lit "YStep") ('\t' :: num) ['\n']).symm
  have h1 := fun num => (List.append_assoc (lit "AcqE1") ('\t' :: num) ['\n']).symm
  have h2 := fun num => (List.append_assoc (lit "AcqE2") ('\t' :: num) ['\n']).symm
  have h3 := fun num => (List.append_assoc (lit "AcqE3") ('\t' :: num) ['\n']).symm
  have hp := fun num => (List.append_assoc (lit "Phases") ('\t' :: num) ['\n']).symm
  simp only [List.cons_append] at hx hy hs hs' h1 h2 h3 hp
  rw [hx, ctfHeader_x (intStr_ne _) (intStr_num _) _ _ _ (parseInt_intStr _),
    hy, ctfHeader_y (intStr_ne _) (intStr_num _) _ _ _ (parseInt_intStr _),
    hs, ctfHeader_step (fixedStr_ne _ _) (fixedStr_num _ _) _ _ _ hst,
    hs', ctfHeader_skip (noKey_num (fixedStr_num _ _) k5),
    h1, ctfHeader_acq1 (fixedStr_ne _ _) (fixedStr_num _ _) _ _ _ ha1,
    h2, ctfHeader_acq2 (fixedStr_ne _ _) (fixedStr_num _ _) _ _ _ ha2,
    h3, ctfHeader_acq3 (fixedStr_ne _ _) (fixedStr_num _ _) _ _ _ ha3,
    ctfHeader_skip k6,
    hp, ctfHeader_phases (intStr_ne _) (intStr_num _) _ _ _ (parseInt_intStr _)]
  unfold ctfTable
  rw [Int.toNat_natCast]
  have hqs' := hqs
  simp only [Function.comp_def]
  rw [hqs']
  simp only [Except.bind]
  cases m.phases.length with
  | zero => rfl
  | succ j => rfl

theorem ctfHead_length (m : CtfMap) : (ctfHead m).length = m.phases.length + 14 := by
  unfold ctfHead
  simp

theorem pixels_length (rows cols : Nat) : (Spec.pixels rows cols).length = rows * cols := by
  unfold Spec.pixels
  simp [List.length_flatMap]

theorem pixels_mem {rows cols : Nat} {p : Nat × Nat} (h : p ∈ Spec.pixels rows cols) :
    p.1 < rows ∧ p.2 < cols := by
  unfold Spec.pixels at h
  simp only [List.mem_flatMap, List.mem_map, List.mem_range] at h
  obtain ⟨r, hr, c, hc, rfl⟩ := h
  exact ⟨hr, hc⟩

/-- **C65**: loading a written map restores it. The number of header lines skipped leaves exactly
one line per pixel. -/
theorem C65_round_trip (m : CtfMap) (h : Spec.Writable m) (hp : m.phases ≠ []) :
    ∃ text d, writeCtf false m = .ok text ∧ loadCtf text = .ok d ∧
      d.rows = m.rows ∧ d.cols = m.cols ∧ Spec.Rounded 4 d.step m.step ∧
      List.Forall₂ Spec.SamePhase m.phases d.phases ∧
      (linesOf text).length = d.skipped + m.rows * m.cols ∧
      d.phase = (Spec.pixels m.rows m.cols).map (fun p => (m.phase p.1 p.2 : ℚ)) ∧
      d.contrast = (Spec.pixels m.rows m.cols).map (fun p => (m.contrast p.1 p.2 : ℚ)) ∧
      d.slope = (Spec.pixels m.rows m.cols).map (fun _ => 0) ∧
      d.mad = (Spec.pixels m.rows m.cols).map (fun _ => 0) ∧
      List.Forall₂ (fun p e => Spec.CloseAngles e (m.quat p.1 p.2).eulerAngles)
        (Spec.pixels m.rows m.cols) d.euler ∧
      ∃ a b c : ℚ, Spec.Rounded 4 a (deg m.acquisition.eulerAngles.1) ∧
        Spec.Rounded 4 b (deg m.acquisition.eulerAngles.2.1) ∧
        Spec.Rounded 4 c (deg m.acquisition.eulerAngles.2.2) ∧
        d.acquisition = Quat.fromEuler (a * Real.pi / 180) (b * Real.pi / 180)
          (c * Real.pi / 180) := by
  obtain ⟨s, hx, hy, hst, h1, h2, h3, qs, hqs, hhead⟩ := ctfHeader_text h
    ((pixelLines m).map fun l => l ++ ['\n'])
  obtain ⟨table, ht, hrows⟩ := tableRows_pixels (m := m) (Spec.pixels m.rows m.cols)
    (fun p hm => h.2 p.1 p.2 (pixels_mem hm).1 (pixels_mem hm).2)
  obtain ⟨c1, c2, c3, c4⟩ := rows_column hrows
  have heul := rows_euler hrows
  have hlines : linesOf ((ctfHead m ++ pixelLines m).map fun l => l ++ ['\n']).flatten =
      (ctfHead m).map (fun l => l ++ ['\n']) ++ (pixelLines m).map fun l => l ++ ['\n'] := by
    rw [linesOf_flatten (ctf_lines h), List.map_append]
  obtain ⟨j, hj⟩ : ∃ j, m.phases.length = j + 1 := by
    cases hm : m.phases with
    | nil => exact absurd hm hp
    | cons a t => exact ⟨t.length, rfl⟩
  rw [hj] at hhead
  simp only at hhead
  have hdrop : ((ctfHead m).map (fun l => l ++ ['\n']) ++
      (pixelLines m).map fun l => l ++ ['\n']).drop (12 + j + 3) =
      (Spec.pixels m.rows m.cols).map fun p => pixelText m p.1 p.2 ++ ['\n'] := by
    rw [List.drop_left' (by rw [List.length_map, ctfHead_length, hj]; omega)]
    unfold pixelLines
    rw [List.map_map]
    rfl
  have hlen : (table.length : Int) = (m.rows : Int) * m.cols := by
    rw [← hrows.length_eq, pixels_length]
    push_cast
    ring
  have hcol : ∀ name : Str, name ∈ ctfCols.map (fun f => f.2.1) →
      tableColumn ctfCols table m.rows m.cols name =
        .ok (table.map fun r => r.getD ((ctfCols.map fun f => f.2.1).idxOf name) 0) := by
    intro name hn
    unfold tableColumn
    rw [if_pos hn, if_pos ⟨hlen, by omega, by omega⟩]
  refine ⟨_, ⟨m.rows, m.cols, s.step, Quat.fromEuler (s.acq1 * Real.pi / 180)
    (s.acq2 * Real.pi / 180) (s.acq3 * Real.pi / 180), qs, 12 + j + 3,
    table.map fun r => r.getD 0 0, table.map fun r => r.getD 5 0, table.map fun r => r.getD 6 0,
    table.map fun r => r.getD 4 0, radians (table.map fun r => r.getD 1 0)
      (table.map fun r => r.getD 2 0) (table.map fun r => r.getD 3 0)⟩,
    rfl, ?_, rfl, rfl, hst, hqs, ?_, c1, c3, c4, c2, heul, s.acq1, s.acq2, s.acq3, h1, h2, h3, rfl⟩
  · unfold loadCtf
    simp only [pixelLines_eq, hlines, hhead, Except.bind, hx, hy, bound, loadColumns_title, hdrop, ht]
    have hdt : makeDtype (ctfCols.map fun f => f.2) = .ok (ctfCols.map fun f => f.2) := by
      unfold makeDtype
      rw [if_pos (by decide +kernel)]
    rw [hdt]
    simp only [hcol (lit "BC") (by decide +kernel), hcol (lit "BS") (by decide +kernel),
      hcol (lit "MAD") (by decide +kernel), hcol (lit "phase") (by decide +kernel),
      hcol (lit "ph1") (by decide +kernel), hcol (lit "phi") (by decide +kernel),
      hcol (lit "ph2") (by decide +kernel)]
    have i1 : (ctfCols.map fun f => f.2.1).idxOf (lit "BC") = 5 := by decide +kernel
    have i2 : (ctfCols.map fun f => f.2.1).idxOf (lit "BS") = 6 := by decide +kernel
    have i3 : (ctfCols.map fun f => f.2.1).idxOf (lit "MAD") = 4 := by decide +kernel
    have i4 : (ctfCols.map fun f => f.2.1).idxOf (lit "phase") = 0 := by decide +kernel
    have i5 : (ctfCols.map fun f => f.2.1).idxOf (lit "ph1") = 1 := by decide +kernel
    have i6 : (ctfCols.map fun f => f.2.1).idxOf (lit "phi") = 2 := by decide +kernel
    have i7 : (ctfCols.map fun f => f.2.1).idxOf (lit "ph2") = 3 := by decide +kernel
    simp only [i1, i2, i3, i4, i5, i6, i7]
  · rw [pixelLines_eq, hlines, List.length_append, List.length_map, List.length_map,
      ctfHead_length, hj]
    unfold pixelLines
    rw [List.length_map, pixels_length]
    show j + 1 + 14 + m.rows * m.cols = 12 + j + 3 + m.rows * m.cols
    omega

/-- **C65**: a map without phases is written, but cannot be loaded. -/
theorem C65_no_phases (m : CtfMap) (h : Spec.Writable m) (hp : m.phases = []) :
    ∃ text, writeCtf false m = .ok text ∧ loadCtf text = .error .unboundLocalError := by
  obtain ⟨s, hx, hy, hst, h1, h2, h3, qs, hqs, hhead⟩ := ctfHeader_text h
    ((pixelLines m).map fun l => l ++ ['\n'])
  have hlines : linesOf ((ctfHead m ++ pixelLines m).map fun l => l ++ ['\n']).flatten =
      (ctfHead m).map (fun l => l ++ ['\n']) ++ (pixelLines m).map fun l => l ++ ['\n'] := by
    rw [linesOf_flatten (ctf_lines h), List.map_append]
  have hl : m.phases.length = 0 := by rw [hp]; rfl
  rw [hl] at hhead
  simp only at hhead
  refine ⟨_, rfl, ?_⟩
  unfold loadCtf
  simp only [pixelLines_eq, hlines, hhead, Except.bind]

/-- **C65**: nothing is written over. -/
theorem C65_existing (m : CtfMap) : writeCtf true m = .error .ioError ∧ saveCtf true m = .error .ioError :=
  ⟨rfl, rfl⟩

/-- **C65**: lattice parameters given to 0.001 (degrees) are restored exactly. -/
theorem C65_lattice (p q : PhaseData) (h : Spec.SamePhase p q)
    (hl : ∀ i, ∃ k : Int, p.lengths i = k / 1000)
    (ha : ∀ i, ∃ k : Int, p.angles i = (k / 1000 : ℝ) * Real.pi / 180) :
    q.lengths = p.lengths ∧ q.angles = p.angles := by
  have hp := Real.pi_pos
  constructor
  · funext i
    obtain ⟨k, hk⟩ := hl i
    exact rounded_exact (h.2.2.2.1 i) (k := k) (by rw [hk]; norm_num)
  · funext i
    obtain ⟨k, hk⟩ := ha i
    obtain ⟨d, hd, e⟩ := h.2.2.2.2 i
    have := rounded_exact hd (k := k) (by rw [hk]; field_simp; norm_num)
    rw [e, this]
    field_simp

/-- **C65**, what else is lost: saving a map writes no acquisition rotation, whatever that of the
map is; the loaded one is the identity. -/
theorem C65_acquisition (m : CtfMap) (h : Spec.Writable m) (hp : m.phases ≠ []) :
    ∃ text d, saveCtf false m = .ok text ∧ loadCtf text = .ok d ∧ d.acquisition = ⟨1, 0, 0, 0⟩ := by
  have he : (⟨1, 0, 0, 0⟩ : Quat ℝ).eulerAngles = (0, 0, 0) := by
    unfold Quat.eulerAngles
    simp only
    rw [if_pos (by norm_num)]
    have : Complex.arg ⟨1, 0⟩ = 0 := Complex.arg_one
    simp [Quat.wrap, Quat.arctan2, this]
  have hm : Spec.Writable { m with acquisition := ⟨1, 0, 0, 0⟩ } := h
  obtain ⟨text, d, h1, h2, _, _, _, _, _, _, _, _, _, _, a, b, c, ha, hb, hc, hd⟩ :=
    C65_round_trip _ hm hp
  refine ⟨text, d, h1, h2, ?_⟩
  have h0 : deg 0 = ((0 : Int) : ℝ) / 10 ^ 4 := by unfold deg; simp
  simp only [he] at ha hb hc
  have hz : deg 0 = 0 := by unfold deg; simp
  rw [hd, rounded_exact ha h0, rounded_exact hb h0, rounded_exact hc h0, hz]
  simp [Quat.fromEuler, Quat.make]

/-- A map of two by three pixels with two phases. -/
noncomputable def Spec.exampleCtf : CtfMap where
  rows := 2
  cols := 3
  step := 1 / 3
  acquisition := ⟨0, 1, 0, 0⟩
  phases := [⟨lit "Iron fcc", 11, 225, fun _ => 3.66, fun _ => Real.pi / 2⟩,
    ⟨lit "Ti # alpha", 9, 194, ![2.95, 2.95, 4.68], ![Real.pi / 2, Real.pi / 2, 2 * Real.pi / 3]⟩]
  phase := fun r c => (r + c) % 3
  contrast := fun r c => 100 * r + c
  quat := fun _ _ => ⟨1, 0, 0, 0⟩

/-- It meets the hypotheses of `C65_round_trip` and `C65_acquisition`; in the latter the lost
rotation is not the identity. -/
example : Spec.Writable Spec.exampleCtf ∧ Spec.exampleCtf.phases ≠ [] ∧
    Spec.exampleCtf.acquisition ≠ ⟨1, 0, 0, 0⟩ := by
  refine ⟨⟨?_, ?_⟩, by simp [Spec.exampleCtf], by simp [Spec.exampleCtf]⟩
  · intro p hp
    simp only [Spec.exampleCtf, List.mem_cons, List.not_mem_nil, or_false] at hp
    rcases hp with rfl | rfl
    · exact ⟨Or.inr rfl, by decide, by decide⟩
    · exact ⟨Or.inl rfl, by decide, by decide⟩
  · intro r c hr hc
    have hr : r < 2 := hr
    have hc : c < 3 := hc
    show (r + c) % 3 < 256 ∧ 100 * r + c < 256
    omega

/-- The lattice parameters of its first phase meet the hypotheses of `C65_lattice`. -/
example : (∀ i : Fin 3, ∃ k : Int, (fun _ => 3.66 : Fin 3 → ℝ) i = k / 1000) ∧
    (∀ i : Fin 3, ∃ k : Int,
      (fun _ => Real.pi / 2 : Fin 3 → ℝ) i = (k / 1000 : ℝ) * Real.pi / 180) :=
  ⟨fun _ => ⟨3660, by norm_num⟩, fun _ => ⟨90000, by push_cast; ring⟩⟩

end DefDAP
