import Verif.Props.Edax
import Verif.Props.ReadText

/-! C69: the header of EDAX files. -/

namespace DefDAP

/-! ### Specification -/

/-- The part of a header: a phase with its lines up to an empty one, or another line. The texts come
after the `#` that starts every line. -/
inductive Spec.AngBlock where
  | phase (head : Str) (lines : List Str) (close : Str)
  | line (text : Str)

/-- The lines of the file. -/
def Spec.AngBlock.rows : Spec.AngBlock → List Str
  | .phase head lines close => (head :: lines ++ [close]).map fun t => '#' :: t
  | .line text => ['#' :: text]

/-- The words of the last line with a keyword. -/
def Spec.keyLine (key : String) (lines : List Str) : Option (List Str) :=
  (lines.map splitWs).reverse.find? fun ws => decide (ws.head? = some (lit key))

/-- What the lines of a phase say. -/
def Spec.AngPhase (lines : List Str) (p : PhaseData) : Prop :=
  ∃ nw sw lw s, Spec.keyLine "MaterialName" lines = some nw ∧ nw[1]? = some p.name ∧
    Spec.keyLine "Symmetry" lines = some sw ∧ sw[1]? = some s ∧
    ((s = lit "43" ∨ s = lit "m3m") ∧ p.laue = 11 ∧ p.space = 229 ∨
      s = lit "6/mmm" ∧ p.laue = 9 ∧ p.space = 0) ∧
    Spec.keyLine "LatticeConstants" lines = some lw ∧
    ∀ i : Fin 3, (∃ w q, lw[i.1 + 1]? = some w ∧ parseFloat w = .ok q ∧ p.lengths i = pyRound 3 (q : ℝ)) ∧
      ∃ w q, lw[i.1 + 4]? = some w ∧ parseFloat w = .ok q ∧
        p.angles i = pyRound 3 (q : ℝ) * Real.pi / 180

/-- A line of a phase: not empty, the values of the known keywords given and of the right kind. -/
def Spec.AngPhaseLine (line : Str) : Prop :=
  ∃ key ws, splitWs line = key :: ws ∧ (key = lit "MaterialName" → ws ≠ []) ∧
    (key = lit "Symmetry" → ∃ s ∈ [lit "43", lit "m3m", lit "6/mmm"], ws.head? = some s) ∧
    (key = lit "LatticeConstants" → 6 ≤ ws.length ∧ ∀ w ∈ ws.take 6, ∃ q, parseFloat w = .ok q)

/-- The last word of a line that starts with a keyword. -/
def Spec.AngBlock.value (key : String) : Spec.AngBlock → Option Str
  | .phase _ _ _ => none
  | .line text => if lit key <+: strip text then (splitWs text).getLast? else none

/-- The value given last in the header for a keyword. -/
def Spec.headerValue (key : String) (blocks : List Spec.AngBlock) : Option Str :=
  (blocks.filterMap (Spec.AngBlock.value key)).getLast?

/-- The phases of a header. -/
def Spec.AngBlock.phaseLines : Spec.AngBlock → Option (List Str)
  | .phase _ lines _ => some lines
  | .line _ => none

/-- A header part that can be read, if `n` phases come before it. -/
def Spec.AngBlock.Valid (n : Nat) : Spec.AngBlock → Prop
  | .phase head lines close =>
    (lit "Phase" <+: strip head) ∧ (∃ w, (splitWs head)[1]? = some w ∧ parseInt w = .ok ((n : Int) + 1)) ∧
    Spec.White close ∧ (∀ l ∈ lines, Spec.AngPhaseLine l) ∧
    ∀ key ∈ ["MaterialName", "Symmetry", "LatticeConstants"], Spec.keyLine key lines ≠ none
  | .line text =>
    ¬ (lit "Phase" <+: strip text) ∧
    (lit "GRID" <+: strip text → (splitWs text).getLast? = some (lit "SqrGrid")) ∧
    (lit "XSTEP" <+: strip text → ∃ w q, (splitWs text).getLast? = some w ∧ parseFloat w = .ok q) ∧
    (lit "NCOLS_ODD" <+: strip text → ∃ w z, (splitWs text).getLast? = some w ∧ parseInt w = .ok z) ∧
    (lit "NROWS" <+: strip text → ∃ w z, (splitWs text).getLast? = some w ∧ parseInt w = .ok z)

/-- The number of phases in a list of header parts. -/
def Spec.phaseCount (blocks : List Spec.AngBlock) : Nat := (blocks.filterMap Spec.AngBlock.phaseLines).length

/-- All parts can be read: the phases are numbered from one in the order of the file. -/
def Spec.AngHeader (blocks : List Spec.AngBlock) : Prop :=
  ∀ pre b post, blocks = pre ++ b :: post →
    b.Valid (Spec.phaseCount pre) ∧ ∀ r ∈ b.rows, '\n' ∉ r

/-- Rows of data that can be read: ten words or more, with numbers where needed. -/
def Spec.AngRow (words : List Str) : Prop :=
  10 ≤ words.length ∧ (∀ i ∈ [0, 1, 2, 5, 6, 8], ∃ w q, words[i]? = some w ∧ parseFloat w = .ok q) ∧
    ∃ w z, words[7]? = some w ∧ parseInt w = .ok z ∧ 0 ≤ z ∧ z < 256

/-! ### Words -/

theorem splitWs_cons_ws {c : Char} (hc : isWs c = true) (t : Str) : splitWs (c :: t) = splitWs t := by
  unfold splitWs
  have := splitWhen_append [] c t hc
  simp only [List.nil_append] at this
  rw [this]
  simp [splitWhen]

theorem splitWs_append_ws {c : Char} (hc : isWs c = true) (t : Str) :
    splitWs (t ++ [c]) = splitWs t := by
  unfold splitWs
  rw [splitWhen_append t c [] hc]
  simp [splitWhen]

theorem splitWs_left {a : Str} (ha : ∀ c ∈ a, isWs c = true) (t : Str) : splitWs (a ++ t) = splitWs t := by
  induction a with
  | nil => rfl
  | cons c r ih =>
    rw [List.cons_append, splitWs_cons_ws (ha c (by simp)), ih fun x hx => ha x (by simp [hx])]

theorem splitWs_right {b : Str} : ∀ (t : Str), (∀ c ∈ b, isWs c = true) → splitWs (t ++ b) = splitWs t := by
  induction b with
  | nil => simp
  | cons c r ih =>
    intro t hb
    have : t ++ c :: r = (t ++ [c]) ++ r := by simp
    rw [this, ih _ fun x hx => hb x (by simp [hx]), splitWs_append_ws (hb c (by simp))]

theorem splitWs_strip (s : Str) : splitWs (strip s) = splitWs s := by
  obtain ⟨a, b, e, ha, hb, -⟩ := strip_spec s
  conv_rhs => rw [e, splitWs_right _ hb, splitWs_left ha]

/-! ### A phase -/

theorem splitWs_newline (s : Str) : splitWs (s ++ ['\n']) = splitWs s := splitWs_append_ws (by decide) s

theorem wordAt_some {α : Type} {conv : Str → Except Err α} {words : List Str} {i : Nat} {w : Str}
    (h : words[i]? = some w) : wordAt conv words i = conv w := by
  unfold wordAt fieldAt
  rw [h]
  rfl

theorem roundedWords_ok {words : List Str} {i : Nat}
    (h : ∀ k < 3, ∃ w q, words[i + k]? = some w ∧ parseFloat w = .ok q) :
    ∃ a b c, roundedWords words i = .ok (a, b, c) ∧
      ∀ k : Fin 3, ∃ w q, words[i + k.1]? = some w ∧ parseFloat w = .ok q ∧
        (![a, b, c] : Fin 3 → ℝ) k = pyRound 3 (q : ℝ) := by
  obtain ⟨w0, q0, h0, p0⟩ := h 0 (by omega)
  obtain ⟨w1, q1, h1, p1⟩ := h 1 (by omega)
  obtain ⟨w2, q2, h2, p2⟩ := h 2 (by omega)
  refine ⟨pyRound 3 q0, pyRound 3 q1, pyRound 3 q2, ?_, ?_⟩
  · unfold roundedWords
    rw [wordAt_some (by simpa using h0), wordAt_some h1, wordAt_some h2]
    unfold parseRound
    rw [p0, p1, p2]
    rfl
  · intro k
    fin_cases k
    · exact ⟨w0, q0, h0, p0, rfl⟩
    · exact ⟨w1, q1, h1, p1, rfl⟩
    · exact ⟨w2, q2, h2, p2, rfl⟩

/-- What `parse_phase` holds after some lines. -/
structure PhaseState (lines : List Str) (p : EdaxPhase) : Prop where
  name : ∀ ws, Spec.keyLine "MaterialName" lines = some ws → ∃ n, p.name = some n ∧ ws[1]? = some n
  groups : ∀ ws, Spec.keyLine "Symmetry" lines = some ws → ∃ g s, p.groups = some g ∧ ws[1]? = some s ∧
    ((s = lit "43" ∨ s = lit "m3m") ∧ g = (11, 229) ∨ s = lit "6/mmm" ∧ g = (9, 0))
  lattice : ∀ ws, Spec.keyLine "LatticeConstants" lines = some ws →
    ∃ d a, p.lattice = some (d, a) ∧ ∀ k : Fin 3,
      (∃ w q, ws[k.1 + 1]? = some w ∧ parseFloat w = .ok q ∧
        (![d.1, d.2.1, d.2.2] : Fin 3 → ℝ) k = pyRound 3 (q : ℝ)) ∧
      ∃ w q, ws[k.1 + 4]? = some w ∧ parseFloat w = .ok q ∧
        (![a.1, a.2.1, a.2.2] : Fin 3 → ℝ) k = pyRound 3 (q : ℝ)

theorem keyLine_concat (key : String) (ls : List Str) (l : Str) :
    Spec.keyLine key (ls ++ [l]) =
      if (splitWs l).head? = some (lit key) then some (splitWs l) else Spec.keyLine key ls := by
  unfold Spec.keyLine
  rw [List.map_append, List.reverse_append]
  by_cases h : (splitWs l).head? = some (lit key) <;> simp [h]

theorem edaxGroups_ok {s : Str} (h : s ∈ [lit "43", lit "m3m", lit "6/mmm"]) :
    ∃ g, edaxGroups s = .ok g ∧
      ((s = lit "43" ∨ s = lit "m3m") ∧ g = (11, 229) ∨ s = lit "6/mmm" ∧ g = (9, 0)) := by
  simp only [List.mem_cons, List.not_mem_nil, or_false] at h
  rcases h with rfl | rfl | rfl
  · exact ⟨_, rfl, .inl ⟨.inl rfl, rfl⟩⟩
  · exact ⟨_, rfl, .inl ⟨.inr rfl, rfl⟩⟩
  · exact ⟨_, rfl, .inr ⟨rfl, rfl⟩⟩

theorem key_ne1 : lit "MaterialName" ≠ lit "Symmetry" := by decide
theorem key_ne2 : lit "MaterialName" ≠ lit "LatticeConstants" := by decide
theorem key_ne3 : lit "Symmetry" ≠ lit "LatticeConstants" := by decide

theorem edaxPhaseLine_step {ls : List Str} {p : EdaxPhase} (hp : PhaseState ls p) {l : Str}
    (hl : Spec.AngPhaseLine l) : ∃ p', edaxPhaseLine p l = .ok p' ∧ PhaseState (ls ++ [l]) p' := by
  obtain ⟨key, ws, hw, h1, h2, h3⟩ := hl
  have hf : fieldAt (splitWs l) 0 = .ok key := by rw [hw]; rfl
  have hh : ∀ k, ((splitWs l).head? = some (lit k)) ↔ key = lit k := by intro k; rw [hw]; simp
  by_cases e1 : key = lit "MaterialName"
  · cases ws with
    | nil => exact absurd rfl (h1 e1)
    | cons n r =>
      refine ⟨{ p with name := some n }, ?_, ?_⟩
      · unfold edaxPhaseLine
        simp only [hf, Except.bind, if_pos e1]
        have hf1 : fieldAt (splitWs l) 1 = .ok n := by rw [hw]; rfl
        simp only [hf1]
        unfold edaxPhaseRest
        rw [e1, if_neg key_ne1, if_neg key_ne2]
      · constructor
        · intro vs hv
          rw [keyLine_concat, if_pos ((hh _).2 e1)] at hv
          cases hv
          exact ⟨n, rfl, by rw [hw]; rfl⟩
        · intro vs hv
          rw [keyLine_concat, if_neg (fun h => key_ne1 (e1.symm.trans ((hh _).1 h)))] at hv
          exact hp.groups vs hv
        · intro vs hv
          rw [keyLine_concat, if_neg (fun h => key_ne2 (e1.symm.trans ((hh _).1 h)))] at hv
          exact hp.lattice vs hv
  · by_cases e2 : key = lit "Symmetry"
    · obtain ⟨s, hs, hw1⟩ := h2 e2
      obtain ⟨g, hg, hgs⟩ := edaxGroups_ok hs
      have hs1 : (splitWs l)[1]? = some s := by
        rw [hw]
        cases ws with
        | nil => simp at hw1
        | cons a b => simpa using hw1
      refine ⟨{ p with groups := some g }, ?_, ?_⟩
      · unfold edaxPhaseLine
        simp only [hf, Except.bind, if_neg e1]
        unfold edaxPhaseRest
        rw [if_pos e2, wordAt_some hs1, hg]
        rfl
      · constructor
        · intro vs hv
          rw [keyLine_concat, if_neg (fun h => e1 ((hh _).1 h))] at hv
          exact hp.name vs hv
        · intro vs hv
          rw [keyLine_concat, if_pos ((hh _).2 e2)] at hv
          cases hv
          exact ⟨g, s, rfl, hs1, hgs⟩
        · intro vs hv
          rw [keyLine_concat, if_neg (fun h => key_ne3 (e2.symm.trans ((hh _).1 h)))] at hv
          exact hp.lattice vs hv
    · by_cases e3 : key = lit "LatticeConstants"
      · obtain ⟨hlen, hnum⟩ := h3 e3
        have hget : ∀ k < 6, ∃ w q, (splitWs l)[1 + k]? = some w ∧ parseFloat w = .ok q := by
          intro k hk
          have hk' : k < ws.length := by omega
          obtain ⟨q, hq⟩ := hnum ws[k] (by
            rw [List.mem_iff_getElem]
            exact ⟨k, by rw [List.length_take]; omega, by simp⟩)
          refine ⟨ws[k], q, ?_, hq⟩
          rw [hw, Nat.add_comm, List.getElem?_cons_succ, List.getElem?_eq_getElem hk']
        obtain ⟨a, b, c, er, hr⟩ := roundedWords_ok (words := splitWs l) (i := 1)
          fun k hk => hget k (by omega)
        obtain ⟨a', b', c', er', hr'⟩ := roundedWords_ok (words := splitWs l) (i := 4)
          fun k hk => by
            have := hget (k + 3) (by omega)
            rwa [show 1 + (k + 3) = 4 + k by omega] at this
        refine ⟨{ p with lattice := some ((a, b, c), (a', b', c')) }, ?_, ?_⟩
        · unfold edaxPhaseLine
          simp only [hf, Except.bind, if_neg e1]
          unfold edaxPhaseRest
          rw [if_neg e2, if_pos e3, er, er']
          rfl
        · constructor
          · intro vs hv
            rw [keyLine_concat, if_neg (fun h => e1 ((hh _).1 h))] at hv
            exact hp.name vs hv
          · intro vs hv
            rw [keyLine_concat, if_neg (fun h => e2 ((hh _).1 h))] at hv
            exact hp.groups vs hv
          · intro vs hv
            rw [keyLine_concat, if_pos ((hh _).2 e3)] at hv
            cases hv
            refine ⟨_, _, rfl, fun k => ⟨?_, ?_⟩⟩
            · have := hr k; rwa [Nat.add_comm] at this
            · have := hr' k; rwa [Nat.add_comm] at this
      · refine ⟨p, ?_, ?_⟩
        · unfold edaxPhaseLine
          simp only [hf, Except.bind, if_neg e1]
          unfold edaxPhaseRest
          rw [if_neg e2, if_neg e3]
        · constructor
          · intro vs hv
            rw [keyLine_concat, if_neg (fun h => e1 ((hh _).1 h))] at hv
            exact hp.name vs hv
          · intro vs hv
            rw [keyLine_concat, if_neg (fun h => e2 ((hh _).1 h))] at hv
            exact hp.groups vs hv
          · intro vs hv
            rw [keyLine_concat, if_neg (fun h => e3 ((hh _).1 h))] at hv
            exact hp.lattice vs hv

theorem edaxPhase_fold : ∀ (todo done : List Str) (p : EdaxPhase), PhaseState done p →
    (∀ l ∈ todo, Spec.AngPhaseLine l) →
    ∃ p', todo.foldlM edaxPhaseLine p = .ok p' ∧ PhaseState (done ++ todo) p'
  | [], done, p, hp, _ => ⟨p, rfl, by simpa using hp⟩
  | l :: t, done, p, hp, h => by
    obtain ⟨p1, e1, hp1⟩ := edaxPhaseLine_step hp (h l (by simp))
    obtain ⟨p2, e2, hp2⟩ := edaxPhase_fold t (done ++ [l]) p1 hp1 fun x hx => h x (by simp [hx])
    refine ⟨p2, ?_, by simpa using hp2⟩
    rw [List.foldlM_cons, e1]
    exact e2

theorem edaxPhase_ok {lines : List Str} (h : ∀ l ∈ lines, Spec.AngPhaseLine l)
    (hk : ∀ key ∈ ["MaterialName", "Symmetry", "LatticeConstants"], Spec.keyLine key lines ≠ none) :
    ∃ p, edaxPhase lines = .ok p ∧ Spec.AngPhase lines p := by
  obtain ⟨p, e, hp⟩ := edaxPhase_fold lines [] ⟨none, none, none⟩
    ⟨by simp [Spec.keyLine], by simp [Spec.keyLine], by simp [Spec.keyLine]⟩ h
  rw [List.nil_append] at hp
  obtain ⟨nw, hn⟩ := Option.ne_none_iff_exists'.1 (hk "MaterialName" (by simp))
  obtain ⟨sw, hs⟩ := Option.ne_none_iff_exists'.1 (hk "Symmetry" (by simp))
  obtain ⟨lw, hl⟩ := Option.ne_none_iff_exists'.1 (hk "LatticeConstants" (by simp))
  obtain ⟨n, en, h1⟩ := hp.name nw hn
  obtain ⟨g, s, eg, h2, h3⟩ := hp.groups sw hs
  obtain ⟨d, a, el, h4⟩ := hp.lattice lw hl
  have hg : g.1 = 9 ∨ g.1 = 11 := by
    rcases h3 with ⟨-, rfl⟩ | ⟨-, rfl⟩
    · exact .inr rfl
    · exact .inl rfl
  refine ⟨⟨n, g.1, g.2, ![d.1, d.2.1, d.2.2],
    ![a.1 * Real.pi / 180, a.2.1 * Real.pi / 180, a.2.2 * Real.pi / 180]⟩, ?_, ?_⟩
  · unfold edaxPhase
    rw [e]
    show (bound p.name).bind _ = _
    rw [en]
    show (bound p.groups).bind _ = _
    rw [eg]
    show (bound p.lattice).bind _ = _
    rw [el]
    show makePhase _ _ _ _ _ = _
    unfold makePhase
    rw [if_pos hg]
  · refine ⟨nw, sw, lw, s, hn, h1, hs, h2, ?_, hl, fun i => ⟨(h4 i).1, ?_⟩⟩
    · rcases h3 with ⟨hs', rfl⟩ | ⟨hs', rfl⟩
      · exact .inl ⟨hs', rfl, rfl⟩
      · exact .inr ⟨hs', rfl, rfl⟩
    · obtain ⟨w, q, hw, hq, he⟩ := (h4 i).2
      refine ⟨w, q, hw, hq, ?_⟩
      rw [← he]
      fin_cases i <;> rfl

/-! ### The header -/

theorem lastWord_some {s w : Str} (h : (splitWs s).getLast? = some w) : lastWord s = .ok w := by
  unfold lastWord
  rw [h]

theorem prefix_iff (key : String) (t : Str) : (lit key).isPrefixOf t = true ↔ lit key <+: t :=
  List.isPrefixOf_iff_prefix

/-- Different keywords with different first letters, or second, are no prefixes of the same text. -/
theorem prefix_ne {a b : Str} {t : Str} (ha : a <+: t) (hb : b <+: t) {i : Nat} {x y : Char}
    (hx : a[i]? = some x) (hy : b[i]? = some y) : x = y := by
  obtain ⟨u, rfl⟩ := ha
  obtain ⟨v, hv⟩ := hb
  have h1 : (a ++ u)[i]? = some x := by
    rw [List.getElem?_append_left (List.getElem?_eq_some_iff.1 hx).1, hx]
  have h2 : (b ++ v)[i]? = some y := by
    rw [List.getElem?_append_left (List.getElem?_eq_some_iff.1 hy).1, hy]
  rw [hv, h1] at h2
  exact Option.some.inj h2

/-- The value of a variable after the header. -/
def After {α : Type} (conv : Str → Except Err α) (o : Option Str) (old new : Option α) : Prop :=
  (o = none → new = old) ∧ ∀ w, o = some w → ∃ v, new = some v ∧ conv w = .ok v

theorem after_trans {α : Type} {conv : Str → Except Err α} {o1 o2 : Option Str} {a b c : Option α}
    (h1 : After conv o1 a b) (h2 : After conv o2 b c) : After conv (o2.or o1) a c := by
  cases o2 with
  | none => rw [h2.1 rfl]; simpa using h1
  | some w => exact ⟨by simp, fun w' hw => h2.2 w' (by simpa using hw)⟩

theorem edaxKey_ok {n : Nat} {text : Str} (h : (Spec.AngBlock.line text).Valid n) (s : EdaxState) :
    ∃ s', edaxKey s (strip (text ++ ['\n'])) = .ok s' ∧ s'.phases = s.phases ∧
      After parseFloat ((Spec.AngBlock.line text).value "XSTEP") (some s.step) (some s'.step) ∧
      After parseInt ((Spec.AngBlock.line text).value "NCOLS_ODD") s.x s'.x ∧
      After parseInt ((Spec.AngBlock.line text).value "NROWS") s.y s'.y := by
  obtain ⟨-, hg, hx, hc, hr⟩ := h
  rw [strip_newline]
  have hlast : ∀ {w}, (splitWs text).getLast? = some w → lastWord (strip text) = .ok w :=
    fun hw => lastWord_some (by rw [splitWs_strip]; exact hw)
  have hsame : ∀ {α : Type} (conv : Str → Except Err α) (a : Option α), After conv none a a :=
    fun _ _ => ⟨fun _ => rfl, by simp⟩
  unfold edaxKey Spec.AngBlock.value
  simp only [prefix_iff]
  by_cases h1 : lit "GRID" <+: strip text
  · have n2 : ¬ lit "XSTEP" <+: strip text := fun h => by
      have := prefix_ne h1 h (i := 0) rfl rfl; revert this; decide
    have n3 : ¬ lit "NCOLS_ODD" <+: strip text := fun h => by
      have := prefix_ne h1 h (i := 0) rfl rfl; revert this; decide
    have n4 : ¬ lit "NROWS" <+: strip text := fun h => by
      have := prefix_ne h1 h (i := 0) rfl rfl; revert this; decide
    refine ⟨s, ?_, rfl, ?_, ?_, ?_⟩
    · rw [if_pos h1, hlast (hg h1)]
      simp [Except.bind]
    · rw [if_neg n2]; exact hsame _ _
    · rw [if_neg n3]; exact hsame _ _
    · rw [if_neg n4]; exact hsame _ _
  rw [if_neg h1]
  by_cases h2 : lit "XSTEP" <+: strip text
  · have n3 : ¬ lit "NCOLS_ODD" <+: strip text := fun h => by
      have := prefix_ne h2 h (i := 0) rfl rfl; revert this; decide
    have n4 : ¬ lit "NROWS" <+: strip text := fun h => by
      have := prefix_ne h2 h (i := 0) rfl rfl; revert this; decide
    obtain ⟨w, q, hw, hq⟩ := hx h2
    refine ⟨{ s with step := q }, ?_, rfl, ?_, ?_, ?_⟩
    · rw [if_pos h2, hlast hw]
      show (parseFloat w).bind _ = _
      rw [hq]
      rfl
    · rw [if_pos h2, hw]
      refine ⟨by simp, fun w' hw' => ?_⟩
      cases hw'
      exact ⟨q, rfl, hq⟩
    · rw [if_neg n3]; exact hsame _ _
    · rw [if_neg n4]; exact hsame _ _
  rw [if_neg h2]
  by_cases h3 : lit "NCOLS_ODD" <+: strip text
  · have n4 : ¬ lit "NROWS" <+: strip text := fun h => by
      have := prefix_ne h3 h (i := 1) rfl rfl; revert this; decide
    obtain ⟨w, z, hw, hz⟩ := hc h3
    refine ⟨{ s with x := some z }, ?_, rfl, ?_, ?_, ?_⟩
    · rw [if_pos h3, hlast hw]
      show (parseInt w).bind _ = _
      rw [hz]
      rfl
    · rw [if_neg h2]; exact hsame _ _
    · rw [if_pos h3, hw]
      refine ⟨by simp, fun w' hw' => ?_⟩
      cases hw'
      exact ⟨z, rfl, hz⟩
    · rw [if_neg n4]; exact hsame _ _
  rw [if_neg h3]
  by_cases h4 : lit "NROWS" <+: strip text
  · obtain ⟨w, z, hw, hz⟩ := hr h4
    refine ⟨{ s with y := some z }, ?_, rfl, ?_, ?_, ?_⟩
    · rw [if_pos h4, hlast hw]
      show (parseInt w).bind _ = _
      rw [hz]
      rfl
    · rw [if_neg h2]; exact hsame _ _
    · rw [if_neg h3]; exact hsame _ _
    · rw [if_pos h4, hw]
      refine ⟨by simp, fun w' hw' => ?_⟩
      cases hw'
      exact ⟨z, rfl, hz⟩
  rw [if_neg h4]
  refine ⟨s, rfl, rfl, ?_, ?_, ?_⟩
  · rw [if_neg h2]; exact hsame _ _
  · rw [if_neg h3]; exact hsame _ _
  · rw [if_neg h4]; exact hsame _ _

theorem headerValue_cons (key : String) (b : Spec.AngBlock) (bs : List Spec.AngBlock) :
    Spec.headerValue key (b :: bs) = (Spec.headerValue key bs).or (b.value key) := by
  unfold Spec.headerValue
  rw [List.filterMap_cons]
  cases hb : b.value key with
  | none => simp
  | some w =>
    simp only
    cases h : (bs.filterMap (Spec.AngBlock.value key)).getLast? with
    | none =>
      rw [List.getLast?_eq_none_iff] at h
      rw [h]; rfl
    | some v => rw [List.getLast?_cons, h]; rfl

/-- A line of a phase is not the end of the phase, nor a comment. -/
theorem phaseLine_kept {l : Str} (h : Spec.AngPhaseLine l) :
    isTerm ['#'] true ('#' :: l ++ ['\n']) = false ∧ isSkipped '*' ('#' :: l ++ ['\n']) = false := by
  have hs : strip ('#' :: l ++ ['\n']) = strip ('#' :: l) := strip_newline _
  have hne : ∃ c ∈ l, isWs c = false := by
    by_contra hcon
    push Not at hcon
    obtain ⟨key, ws, hw, -⟩ := h
    have : splitWs l = splitWs [] := by
      have := splitWs_right (b := l) [] (fun c hc => by
        have := hcon c hc; simpa using this)
      simpa using this
    rw [this] at hw
    simp [splitWs, splitWhen] at hw
  obtain ⟨t, ht, he⟩ : ∃ t, t ≠ [] ∧ strip ('#' :: l) = '#' :: t := by
    obtain ⟨a, b, e, ha, hb, h1, h2⟩ := strip_spec ('#' :: l)
    have ha0 : a = [] := by
      cases a with
      | nil => rfl
      | cons x y =>
        simp only [List.cons_append, List.cons.injEq] at e
        have := ha x (by simp)
        rw [← e.1] at this
        exact absurd this (by decide)
    rw [ha0, List.nil_append] at e
    cases hst : strip ('#' :: l) with
    | nil =>
      rw [hst, List.nil_append] at e
      have := hb '#' (by rw [← e]; simp)
      exact absurd this (by decide)
    | cons x t =>
      rw [hst, List.cons_append, List.cons.injEq] at e
      refine ⟨t, ?_, by rw [← e.1]⟩
      rintro rfl
      obtain ⟨c, hc, hc'⟩ := hne
      rw [e.2, List.nil_append] at hc
      rw [hb c hc] at hc'
      exact absurd hc' (by simp)
  constructor
  · unfold isTerm
    rw [hs, he]
    simp [ht]
  · unfold isSkipped
    rw [hs, he]
    simp

theorem close_term {close : Str} (h : Spec.White close) : isTerm ['#'] true ('#' :: close ++ ['\n']) = true := by
  unfold isTerm
  have : strip ('#' :: close ++ ['\n']) = ['#'] := by
    rw [strip_newline]
    have := strip_pad (a := []) (t := ['#']) (b := close) (by simp) ((white_iff _).1 h)
      ⟨by simp; decide, by
        intro c r e
        cases r with
        | nil => simp at e; rw [← e]; decide
        | cons x y => simp at e⟩
    simpa using this
  rw [this]
  simp

theorem key_white {close : Str} (h : Spec.White close) (s : EdaxState) :
    edaxKey s (strip (close ++ ['\n'])) = .ok s ∧ ((lit "Phase").isPrefixOf (strip (close ++ ['\n']))) = false := by
  have : strip (close ++ ['\n']) = [] := by rw [strip_newline]; exact (strip_nil_iff _).2 h
  rw [this]
  exact ⟨rfl, rfl⟩

theorem edaxHeader_step {file : List Str} {pos : Nat} {text : Str}
    (hat : lineAt file pos = some ('#' :: text ++ ['\n'])) (fuel : Nat) (s : EdaxState) :
    edaxHeader file (fuel + 1) pos s =
      if (lit "Phase").isPrefixOf (strip (text ++ ['\n'])) then
        (wordAt parseInt (splitWs (strip (text ++ ['\n']))) 1).bind fun n =>
        if n = (s.phases.length : Int) + 1 then
          (readUntil file ['#'] '*' true (fun l => strip (l.drop 1)) (file.length + 1)
            (pos + 1) []).bind fun r =>
          (edaxPhase r.1).bind fun p =>
          edaxHeader file fuel r.2 { s with phases := s.phases ++ [p] }
        else .error .valueError
      else (edaxKey s (strip (text ++ ['\n']))).bind fun s' => edaxHeader file fuel (pos + 1) s' := by
  rw [edaxHeader, hat]
  rfl

theorem edaxHeader_run : ∀ (blocks : List Spec.AngBlock) (s : EdaxState),
    (∀ p b post, blocks = p ++ b :: post → b.Valid (s.phases.length + Spec.phaseCount p)) →
    ∃ s' ps, (∀ (file pre rest : List Str) (fuel : Nat),
        file = pre ++ (blocks.flatMap Spec.AngBlock.rows).map (fun l => l ++ ['\n']) ++ rest →
        (blocks.flatMap Spec.AngBlock.rows).length < fuel →
        ∃ fuel', edaxHeader file fuel pre.length s =
          edaxHeader file (fuel' + 1) (pre.length + (blocks.flatMap Spec.AngBlock.rows).length) s') ∧
      s'.phases = s.phases ++ ps ∧
      List.Forall₂ Spec.AngPhase (blocks.filterMap Spec.AngBlock.phaseLines) ps ∧
      After parseFloat (Spec.headerValue "XSTEP" blocks) (some s.step) (some s'.step) ∧
      After parseInt (Spec.headerValue "NCOLS_ODD" blocks) s.x s'.x ∧
      After parseInt (Spec.headerValue "NROWS" blocks) s.y s'.y
  | [], s, _ => by
    have hsame : ∀ {α : Type} (conv : Str → Except Err α) (key : String) (a : Option α),
        After conv (Spec.headerValue key []) a a := fun _ _ _ => ⟨fun _ => rfl, by simp [Spec.headerValue]⟩
    refine ⟨s, [], fun file pre rest fuel hf hl => ?_, by simp, .nil, hsame _ _ _, hsame _ _ _, hsame _ _ _⟩
    exact ⟨fuel - 1, by rw [Nat.sub_add_cancel (by simp at hl; omega)]; simp⟩
  | .line text :: bs, s, hv => by
    have hb := hv [] (.line text) bs rfl
    obtain ⟨s1, e1, hph, h1, h2, h3⟩ := edaxKey_ok hb s
    obtain ⟨s', ps, hrun, hps, hfa, g1, g2, g3⟩ := edaxHeader_run bs s1 (by
        intro p b post e
        have := hv (.line text :: p) b post (by rw [e]; rfl)
        rw [hph]
        unfold Spec.phaseCount at this ⊢
        rwa [List.filterMap_cons_none rfl] at this)
    refine ⟨s', ps, ?_, by rw [hps, hph], by rw [List.filterMap_cons_none rfl]; exact hfa, ?_, ?_, ?_⟩
    · intro file pre rest fuel hf hl
      obtain ⟨k, rfl⟩ : ∃ k, fuel = k + 1 := ⟨fuel - 1, by simp at hl; omega⟩
      have hat : lineAt file pre.length = some ('#' :: text ++ ['\n']) := by
        simp [lineAt, hf, Spec.AngBlock.rows]
      obtain ⟨k', e⟩ := hrun file (pre ++ ['#' :: text ++ ['\n']]) rest k
        (by rw [hf]; simp [Spec.AngBlock.rows]) (by simp [Spec.AngBlock.rows] at hl ⊢; omega)
      refine ⟨k', ?_⟩
      rw [edaxHeader_step hat, if_neg, e1]
      · show edaxHeader file k (pre.length + 1) s1 = _
        have hl1 : pre.length + 1 = (pre ++ ['#' :: text ++ ['\n']]).length := by simp
        rw [hl1, e]
        congr 1
        simp [Spec.AngBlock.rows]; omega
      · rw [strip_newline, prefix_iff]
        exact hb.1
    · rw [headerValue_cons]; exact after_trans h1 g1
    · rw [headerValue_cons]; exact after_trans h2 g2
    · rw [headerValue_cons]; exact after_trans h3 g3
  | .phase head lines close :: bs, s, hv => by
    obtain ⟨b1, ⟨w, hw, hz⟩, b3, b4, b5⟩ := hv [] (.phase head lines close) bs rfl
    simp only [Spec.phaseCount, List.filterMap_nil, List.length_nil, Nat.add_zero] at hz
    obtain ⟨p, ep, hp⟩ := edaxPhase_ok b4 b5
    set nl : Str → Str := fun t => '#' :: t ++ ['\n'] with hnl
    have hsame : ∀ ls : List Str, edaxPhase (ls.map ((fun l => strip (l.drop 1)) ∘ nl)) = edaxPhase ls := by
      intro ls
      unfold edaxPhase
      rw [List.foldlM_map]
      congr 2
      funext q l
      show edaxPhaseLine q (strip (l ++ ['\n'])) = _
      unfold edaxPhaseLine
      rw [splitWs_strip, splitWs_newline]
    obtain ⟨s', ps, hrun, hps, hfa, g1, g2, g3⟩ := edaxHeader_run bs { s with phases := s.phases ++ [p] } (by
        intro q b post e
        have := hv (.phase head lines close :: q) b post (by rw [e]; rfl)
        unfold Spec.phaseCount at this ⊢
        rw [List.filterMap_cons_some (f := Spec.AngBlock.phaseLines) (b := lines) rfl] at this
        simp only [List.length_cons, List.length_append, List.length_nil] at this ⊢
        rwa [show s.phases.length + (0 + 1) + (q.filterMap Spec.AngBlock.phaseLines).length =
          s.phases.length + ((q.filterMap Spec.AngBlock.phaseLines).length + 1) by omega])
    refine ⟨s', p :: ps, ?_, by rw [hps]; simp, ?_, ?_, ?_, ?_⟩
    · intro file pre rest fuel hf hl
      obtain ⟨k, rfl⟩ : ∃ k, fuel = k + 2 := ⟨fuel - 2, by simp [Spec.AngBlock.rows] at hl; omega⟩
      have hf2 : file = pre ++ nl head :: (lines.map nl ++ nl close ::
          ((bs.flatMap Spec.AngBlock.rows).map (fun l => l ++ ['\n']) ++ rest)) := by
        rw [hf]; simp [Spec.AngBlock.rows, hnl, Function.comp_def]
      have hat : lineAt file pre.length = some ('#' :: head ++ ['\n']) := by
        simp [lineAt, hf2, hnl]
      set next := nl close :: ((bs.flatMap Spec.AngBlock.rows).map (fun l => l ++ ['\n']) ++ rest) with hnext
      obtain ⟨sec, tail, e1, e2, e3, e4⟩ := readUntil_run file ['#'] '*' true
        (fun l => strip (l.drop 1)) (lines.map nl ++ next) (pre ++ [nl head]) (file.length + 1) []
        (by rw [hf2]; simp) (by rw [hf2]; simp; omega)
      have hbody : ∀ l ∈ lines.map nl, (!isTerm ['#'] true l) = true := by
        intro l hl
        obtain ⟨x, hx, rfl⟩ := List.mem_map.1 hl
        simp only [hnl]
        rw [(phaseLine_kept (b4 x hx)).1]
        rfl
      have hsec : sec = lines.map nl ∧ tail = next := by
        have hd1 : sec = (lines.map nl ++ next).takeWhile fun l => !isTerm ['#'] true l := by
          rw [e1, List.takeWhile_append_of_pos (fun l hl => by simp [e2 l hl])]
          cases tail with
          | nil => simp
          | cons x t => simp [List.takeWhile_cons, e3 x t rfl]
        have hd2 : (lines.map nl ++ next).takeWhile (fun l => !isTerm ['#'] true l) = lines.map nl := by
          rw [List.takeWhile_append_of_pos hbody]
          have := close_term b3
          simp only [hnext, hnl, List.takeWhile_cons, this]
          simp
        have h3 := hd1.trans hd2
        refine ⟨h3, ?_⟩
        rw [h3] at e1
        exact (List.append_cancel_left e1).symm
      obtain ⟨rfl, rfl⟩ := hsec
      have hfil : (lines.map nl).filter (fun l => !isSkipped '*' l) = lines.map nl := by
        rw [List.filter_eq_self]
        intro l hl
        obtain ⟨x, hx, rfl⟩ := List.mem_map.1 hl
        simp only [hnl]
        rw [(phaseLine_kept (b4 x hx)).2]
        rfl
      rw [hfil, List.nil_append, List.map_map] at e4
      obtain ⟨k', e⟩ := hrun file (pre ++ [nl head] ++ lines.map nl ++ [nl close]) rest k
        (by rw [hf2, hnext]; simp) (by simp [Spec.AngBlock.rows] at hl ⊢; omega)
      have hatc : lineAt file (pre.length + 1 + lines.length) = some ('#' :: close ++ ['\n']) := by
        have : file = (pre ++ [nl head] ++ lines.map nl) ++ nl close ::
            ((bs.flatMap Spec.AngBlock.rows).map (fun l => l ++ ['\n']) ++ rest) := by
          rw [hf2, hnext]; simp
        have hl2 : pre.length + 1 + lines.length = (pre ++ [nl head] ++ lines.map nl).length := by
          simp; omega
        unfold lineAt
        rw [hl2, this, List.getElem?_append_right (le_refl _)]
        simp [hnl]
      refine ⟨k', ?_⟩
      rw [edaxHeader_step hat, if_pos, splitWs_strip, splitWs_newline, wordAt_some hw, hz]
      · show (if _ then _ else _) = _
        rw [if_pos rfl]
        have hl1 : (pre ++ [nl head]).length = pre.length + 1 := by simp
        rw [hl1] at e4
        rw [e4]
        show (edaxPhase _).bind _ = _
        rw [hsame, ep]
        show edaxHeader file (k + 1) (pre.length + 1 + (lines.map nl).length) _ = _
        rw [List.length_map, edaxHeader_step hatc, (key_white b3 s).2, if_neg (by decide),
          (key_white b3 _).1]
        show edaxHeader file k (pre.length + 1 + lines.length + 1) _ = _
        have hl3 : pre.length + 1 + lines.length + 1 =
            (pre ++ [nl head] ++ lines.map nl ++ [nl close]).length := by simp; omega
        rw [hl3, e]
        congr 1
        simp [Spec.AngBlock.rows]; omega
      · rw [strip_newline, prefix_iff]
        exact b1
    · rw [List.filterMap_cons_some (f := Spec.AngBlock.phaseLines) (b := lines) rfl]; exact .cons hp hfa
    · rw [headerValue_cons]; simpa [Spec.AngBlock.value] using g1
    · rw [headerValue_cons]; simpa [Spec.AngBlock.value] using g2
    · rw [headerValue_cons]; simpa [Spec.AngBlock.value] using g3

/-- The header ends at the first line without `#`, or the end of the file. -/
theorem edaxHeader_end {file before rest : List Str} (hf : file = before ++ rest)
    (hr : ∀ l t, rest = l :: t → ¬ ['#'] <+: l) (fuel : Nat) (s : EdaxState) :
    edaxHeader file (fuel + 1) before.length s = .ok s := by
  rw [edaxHeader]
  cases rest with
  | nil =>
    have : lineAt file before.length = none := by simp [lineAt, hf]
    rw [this]
  | cons l t =>
    have : lineAt file before.length = some l := by simp [lineAt, hf]
    rw [this]
    have := hr l t rfl
    simp only
    rw [if_neg]
    rw [List.isPrefixOf_iff_prefix]
    exact this

/-! ### The file -/

theorem edaxRow_ok {words : List Str} (h : Spec.AngRow words) : ∃ row, edaxRow words = .ok row := by
  obtain ⟨hl, hf, w7, z, h7, hz, z0, z1⟩ := h
  have cell : ∀ i ∈ [0, 1, 2, 5, 6, 8], ∀ n, ∃ q, rowCell words (i, n, .float32) = .ok q := by
    intro i hi n
    obtain ⟨w, q, hw, hq⟩ := hf i hi
    refine ⟨q, ?_⟩
    unfold rowCell
    rw [hw]
    exact hq
  have cell7 : rowCell words (7, lit "phase", .uint8) = .ok (z : ℚ) := by
    unfold rowCell
    rw [h7]
    show (parseInt w7).bind _ = _
    rw [hz]
    show (if _ then _ else _) = _
    rw [if_pos ⟨z0, z1⟩]
  have h9 : fieldAt words 9 = .ok words[9] := by
    unfold fieldAt
    rw [List.getElem?_eq_getElem (by omega)]
  obtain ⟨q0, e0⟩ := cell 0 (by simp) (lit "ph1")
  obtain ⟨q1, e1⟩ := cell 1 (by simp) (lit "phi")
  obtain ⟨q2, e2⟩ := cell 2 (by simp) (lit "ph2")
  obtain ⟨q5, e5⟩ := cell 5 (by simp) (lit "IQ")
  obtain ⟨q6, e6⟩ := cell 6 (by simp) (lit "CI")
  obtain ⟨q8, e8⟩ := cell 8 (by simp) (lit "FF")
  refine ⟨[q0, q1, q2, q5, q6, z, q8], ?_⟩
  unfold edaxRow
  rw [h9]
  show edaxCols.mapM _ = _
  simp only [edaxCols, List.mapM_cons, List.mapM_nil, e0, e1, e2, e5, e6, cell7, e8]
  rfl

theorem edaxRows_ok : ∀ (lines : List Str),
    (∀ ws ∈ (lines.map fun l => splitWs (l.takeWhile fun c => decide (c ≠ '#'))).filter
      (fun w => !w.isEmpty), Spec.AngRow ws) → ∃ table, edaxRows lines = .ok table
  | [], _ => ⟨[], rfl⟩
  | l :: t, h => by
    unfold edaxRows
    simp only
    cases hw : splitWs (l.takeWhile fun c => decide (c ≠ '#')) with
    | nil =>
      simp only [List.isEmpty_nil, if_true]
      exact edaxRows_ok t fun ws hws => h ws (by rw [List.map_cons, hw]; simpa using hws)
    | cons a r =>
      obtain ⟨row, e1⟩ := edaxRow_ok (h (a :: r) (by rw [List.map_cons, hw]; simp))
      obtain ⟨rows, e2⟩ := edaxRows_ok t fun ws hws => h ws (by
        rw [List.map_cons, hw, List.filter_cons]
        exact List.mem_cons_of_mem _ hws)
      refine ⟨row :: rows, ?_⟩
      simp only [List.isEmpty_cons, Bool.false_eq_true, if_false]
      rw [e1, e2]
      rfl

/-- **C69**: a file with a header of phases and keywords, then as many rows as its columns and rows
ask for, is loaded, with the phases, step size and shape of its header. (For versions of numpy that
load the data at all.) -/
theorem C69_file (blocks : List Spec.AngBlock) (rows : List Str) (hv : Spec.AngHeader blocks)
    (hr : ∀ l ∈ rows, '\n' ∉ l) (hfirst : ∀ l t, rows = l :: t → ¬ ['#'] <+: l)
    (x y : Nat) (wx wy : Str)
    (hwx : Spec.headerValue "NCOLS_ODD" blocks = some wx) (hx : parseInt wx = .ok (x : Int))
    (hwy : Spec.headerValue "NROWS" blocks = some wy) (hy : parseInt wy = .ok (y : Int))
    (hrow : ∀ ws ∈ Spec.dataWords ((blocks.flatMap Spec.AngBlock.rows ++ rows).map
      fun l => l ++ ['\n']).flatten, Spec.AngRow ws)
    (hcount : (Spec.dataWords ((blocks.flatMap Spec.AngBlock.rows ++ rows).map
      fun l => l ++ ['\n']).flatten).length = y * x) :
    ∃ d, loadEdax false ((blocks.flatMap Spec.AngBlock.rows ++ rows).map
        fun l => l ++ ['\n']).flatten = .ok d ∧ d.rows = y ∧ d.cols = x ∧
      List.Forall₂ Spec.AngPhase (blocks.filterMap Spec.AngBlock.phaseLines) d.phases ∧
      (∀ w, Spec.headerValue "XSTEP" blocks = some w → parseFloat w = .ok d.step) ∧
      (Spec.headerValue "XSTEP" blocks = none → d.step = 0) := by
  have hn : ∀ l ∈ blocks.flatMap Spec.AngBlock.rows ++ rows, '\n' ∉ l := by
    intro l hl
    rcases List.mem_append.1 hl with hl | hl
    · obtain ⟨b, hb, hl⟩ := List.mem_flatMap.1 hl
      obtain ⟨p, q, e⟩ := List.append_of_mem hb
      exact (hv p b q e).2 l hl
    · exact hr l hl
  have hlines := linesOf_flatten hn
  set text := ((blocks.flatMap Spec.AngBlock.rows ++ rows).map fun l => l ++ ['\n']).flatten with htext
  obtain ⟨s, ps, hrun, hps, hph, h1, h2, h3⟩ := edaxHeader_run blocks ⟨[], 0, none, none⟩
    (fun p b post e => by simpa using (hv p b post e).1)
  obtain ⟨k, es⟩ := hrun (linesOf text) [] (rows.map fun l => l ++ ['\n']) ((linesOf text).length + 1)
    (by rw [hlines]; simp) (by rw [hlines]; simp)
  have hend := edaxHeader_end (file := linesOf text)
    (before := (blocks.flatMap Spec.AngBlock.rows).map fun l => l ++ ['\n'])
    (rest := rows.map fun l => l ++ ['\n']) (by rw [hlines]; simp)
    (by
      intro l t e
      cases rows with
      | nil => simp at e
      | cons a r =>
        simp only [List.map_cons, List.cons.injEq] at e
        rw [← e.1]
        have := hfirst a r rfl
        intro hp
        cases a with
        | nil => obtain ⟨u, hu⟩ := hp; simp at hu
        | cons c v =>
          obtain ⟨u, hu⟩ := hp
          simp only [List.cons_append, List.nil_append, List.cons.injEq] at hu
          exact this ⟨v, by rw [← hu.1]; rfl⟩) k s
  rw [List.length_map] at hend
  rw [List.length_nil, Nat.zero_add, hend] at es
  obtain ⟨table, et⟩ := edaxRows_ok (linesOf text) hrow
  have hcnt : (table.length : Int) = (y : Int) * x := by
    have := (edaxRows_words _ _ et).length_eq
    unfold Spec.dataWords at hcount
    rw [this] at hcount
    exact_mod_cast hcount
  obtain ⟨zx, ex, hzx⟩ := h2.2 wx hwx
  obtain ⟨zy, ey, hzy⟩ := h3.2 wy hwy
  rw [hx] at hzx
  rw [hy] at hzy
  injection hzx with hzx
  injection hzy with hzy
  have hcol : ∀ name ∈ edaxCols.map (fun f => f.2.1), ∃ l, tableColumn edaxCols table y x name = .ok l := by
    intro name hname
    unfold tableColumn
    rw [if_pos hname, if_pos ⟨hcnt, by omega, by omega⟩]
    exact ⟨_, rfl⟩
  obtain ⟨iq, e1⟩ := hcol (lit "IQ") (by simp [edaxCols])
  obtain ⟨ci, e2⟩ := hcol (lit "CI") (by simp [edaxCols])
  obtain ⟨ff, e3⟩ := hcol (lit "FF") (by simp [edaxCols])
  obtain ⟨ph, e4⟩ := hcol (lit "phase") (by simp [edaxCols])
  obtain ⟨p1, e5⟩ := hcol (lit "ph1") (by simp [edaxCols])
  obtain ⟨p2, e6⟩ := hcol (lit "phi") (by simp [edaxCols])
  obtain ⟨p3, e7⟩ := hcol (lit "ph2") (by simp [edaxCols])
  refine ⟨⟨y, x, s.step, s.phases, iq, ci, ff, ph.map nextPhase, edaxEuler p1 p2 p3⟩, ?_, rfl, rfl, ?_, ?_, ?_⟩
  · unfold loadEdax
    simp only
    rw [es]
    show (bound s.y).bind _ = _
    rw [ey]
    show (bound s.x).bind _ = _
    rw [ex, ← hzx, ← hzy]
    show (edaxTable false _).bind _ = _
    unfold edaxTable
    simp only [Bool.false_eq_true, if_false]
    rw [et]
    show (tableColumn edaxCols table y x (lit "IQ")).bind _ = _
    rw [e1, e2, e3, e4, e5, e6, e7]
    rfl
  · rw [hps, List.nil_append]; exact hph
  · intro w hw
    obtain ⟨v, ev, hv⟩ := h1.2 w hw
    injection ev with ev
    rw [ev]; exact hv
  · intro h
    have := h1.1 h
    injection this

/-- A part of the header that must not be there, if `n` phases come before it. -/
def Spec.AngBlock.Refused (n : Nat) : Spec.AngBlock → Prop
  | .line text =>
    lit "GRID" <+: strip text ∧ ∃ w, (splitWs text).getLast? = some w ∧ w ≠ lit "SqrGrid"
  | .phase head _ _ =>
    lit "Phase" <+: strip head ∧ ∃ w z, (splitWs head)[1]? = some w ∧ parseInt w = .ok z ∧ z ≠ n + 1

/-- **C69**: a grid that is not square, or a phase out of order, is refused, whatever follows. -/
theorem C69_refused (strict : Bool) (blocks : List Spec.AngBlock) (bad : Spec.AngBlock) (rest : List Str)
    (hv : Spec.AngHeader blocks) (hb : bad.Refused (Spec.phaseCount blocks))
    (hr : ∀ l ∈ bad.rows ++ rest, '\n' ∉ l) :
    loadEdax strict ((blocks.flatMap Spec.AngBlock.rows ++ (bad.rows ++ rest)).map
      fun l => l ++ ['\n']).flatten = .error .valueError := by
  have hn : ∀ l ∈ blocks.flatMap Spec.AngBlock.rows ++ (bad.rows ++ rest), '\n' ∉ l := by
    intro l hl
    rcases List.mem_append.1 hl with hl | hl
    · obtain ⟨b, hb, hl⟩ := List.mem_flatMap.1 hl
      obtain ⟨p, q, e⟩ := List.append_of_mem hb
      exact (hv p b q e).2 l hl
    · exact hr l hl
  have hlines := linesOf_flatten hn
  set text := ((blocks.flatMap Spec.AngBlock.rows ++ (bad.rows ++ rest)).map fun l => l ++ ['\n']).flatten
    with htext
  obtain ⟨s, ps, hrun, hps, hph, -⟩ := edaxHeader_run blocks ⟨[], 0, none, none⟩
    (fun p b post e => by simpa using (hv p b post e).1)
  obtain ⟨k, es⟩ := hrun (linesOf text) [] ((bad.rows ++ rest).map fun l => l ++ ['\n'])
    ((linesOf text).length + 1) (by rw [hlines]; simp) (by rw [hlines]; simp)
  rw [List.nil_append] at hps
  have hlen : (s.phases.length : Int) = (Spec.phaseCount blocks : Int) := by
    rw [hps]; unfold Spec.phaseCount; rw [hph.length_eq]
  have : edaxHeader (linesOf text) ((linesOf text).length + 1) 0 ⟨[], 0, none, none⟩ = .error .valueError := by
    rw [List.length_nil, Nat.zero_add] at es
    rw [es]
    cases bad with
    | line t =>
      obtain ⟨h1, w, hw, hne⟩ := hb
      have hat : lineAt (linesOf text) (blocks.flatMap Spec.AngBlock.rows).length =
          some ('#' :: t ++ ['\n']) := by
        unfold lineAt
        rw [hlines, List.map_append, List.getElem?_append_right (by simp)]
        simp [Spec.AngBlock.rows]
      rw [edaxHeader_step hat, if_neg, strip_newline]
      · unfold edaxKey
        rw [if_pos ((prefix_iff _ _).2 h1), lastWord_some (by rw [splitWs_strip]; exact hw)]
        simp [Except.bind, hne]
      · rw [strip_newline, prefix_iff]
        intro h
        have := prefix_ne h1 h (i := 0) rfl rfl
        revert this; decide
    | phase head lines close =>
      obtain ⟨h1, w, z, hw, hz, hne⟩ := hb
      have hat : lineAt (linesOf text) (blocks.flatMap Spec.AngBlock.rows).length =
          some ('#' :: head ++ ['\n']) := by
        unfold lineAt
        rw [hlines, List.map_append, List.getElem?_append_right (by simp)]
        simp [Spec.AngBlock.rows]
      rw [edaxHeader_step hat, if_pos, splitWs_strip, splitWs_newline, wordAt_some hw, hz]
      · show (if _ then _ else _) = _
        rw [if_neg]
        rw [hlen]; exact hne
      · rw [strip_newline, prefix_iff]
        exact h1
  unfold loadEdax
  simp only
  rw [this]
  rfl

/-- A hexagonal grid, and a second phase given first. -/
example : (Spec.AngBlock.line (lit " GRID: HexGrid")).Refused 1 ∧
    (Spec.AngBlock.phase (lit " Phase 2") [] []).Refused 0 :=
  ⟨⟨by decide +kernel, lit "HexGrid", by decide +kernel, by decide⟩,
   ⟨by decide +kernel, ['2'], 2, by decide +kernel, by decide +kernel, by decide⟩⟩

/-- **C69**: a phase with a point group other than the three known ones is refused. -/
theorem C69_symmetry (before after : List Str) (line s : Str) (r : List Str)
    (hb : ∀ l ∈ before, Spec.AngPhaseLine l) (hl : splitWs line = lit "Symmetry" :: s :: r)
    (hs : s ∉ [lit "43", lit "m3m", lit "6/mmm"]) :
    edaxPhase (before ++ line :: after) = .error .valueError := by
  obtain ⟨p, e, -⟩ := edaxPhase_fold before [] ⟨none, none, none⟩
    ⟨by simp [Spec.keyLine], by simp [Spec.keyLine], by simp [Spec.keyLine]⟩ hb
  have hg : edaxGroups s = .error .valueError := by
    simp only [List.mem_cons, List.not_mem_nil, or_false, not_or] at hs
    unfold edaxGroups
    rw [if_neg (by tauto), if_neg hs.2.2]
  have hline : edaxPhaseLine p line = .error .valueError := by
    unfold edaxPhaseLine
    have hf : fieldAt (splitWs line) 0 = .ok (lit "Symmetry") := by rw [hl]; rfl
    simp only [hf, Except.bind, if_neg key_ne1.symm]
    unfold edaxPhaseRest
    rw [if_pos rfl, wordAt_some (w := s) (by rw [hl]; rfl), hg]
    rfl
  unfold edaxPhase
  rw [List.foldlM_append, e]
  show (List.foldlM edaxPhaseLine p (line :: after)).bind _ = _
  rw [List.foldlM_cons, hline]
  rfl

/-- A header with one phase. -/
def Spec.exampleBlocks : List Spec.AngBlock :=
  [.phase (lit " Phase 1") [lit " MaterialName  Nickel", lit " Symmetry  m3m",
    lit " LatticeConstants 3.56 3.56 3.56 90 90 90", lit " NumberFamilies 4"] [' '],
   .line (lit " GRID: SqrGrid"), .line (lit " XSTEP: 0.5"), .line (lit " NCOLS_ODD: 2"),
   .line (lit " NROWS: 1")]

set_option maxRecDepth 20000 in
/-- It can be read. -/
theorem exampleBlocks_header : Spec.AngHeader Spec.exampleBlocks ∧
    Spec.headerValue "NCOLS_ODD" Spec.exampleBlocks = some ['2'] ∧
    Spec.headerValue "XSTEP" Spec.exampleBlocks = some (lit "0.5") := by
  refine ⟨?_, by decide +kernel, by decide +kernel⟩
  have h3 : ∀ w ∈ [lit "3.56", lit "90"], ∃ q, parseFloat w = .ok q := by
    intro w hw
    simp only [List.mem_cons, List.not_mem_nil, or_false] at hw
    rcases hw with rfl | rfl
    · exact ⟨356 / 100, by decide +kernel⟩
    · exact ⟨90, by decide +kernel⟩
  have hp : (Spec.AngBlock.phase (lit " Phase 1") [lit " MaterialName  Nickel", lit " Symmetry  m3m",
      lit " LatticeConstants 3.56 3.56 3.56 90 90 90", lit " NumberFamilies 4"] [' ']).Valid 0 := by
    refine ⟨by decide +kernel, ⟨['1'], by decide +kernel, by decide +kernel⟩, by simp [Spec.White], ?_,
      by decide +kernel⟩
    intro l hl
    simp only [List.mem_cons, List.not_mem_nil, or_false] at hl
    rcases hl with rfl | rfl | rfl | rfl
    · exact ⟨lit "MaterialName", [lit "Nickel"], by decide +kernel, by decide, by decide +kernel, by
        intro h; exact absurd h (by decide)⟩
    · exact ⟨lit "Symmetry", [lit "m3m"], by decide +kernel, by decide, by decide +kernel, by
        intro h; exact absurd h (by decide)⟩
    · refine ⟨lit "LatticeConstants", [lit "3.56", lit "3.56", lit "3.56", lit "90", lit "90", lit "90"],
        by decide +kernel, by decide, by decide +kernel, fun _ => ⟨by simp, ?_⟩⟩
      intro w hw
      apply h3 w
      simpa using hw
    · exact ⟨lit "NumberFamilies", [['4']], by decide +kernel, by decide, by decide +kernel, by
        intro h; exact absurd h (by decide)⟩
  have none' : ∀ {P : Prop} {a b : Str}, ¬ a <+: b → a <+: b → P := fun h h' => absurd h' h
  have hl1 : ∀ n, (Spec.AngBlock.line (lit " GRID: SqrGrid")).Valid n := fun n =>
    ⟨by decide +kernel, fun _ => by decide +kernel, none' (by decide +kernel), none' (by decide +kernel),
      none' (by decide +kernel)⟩
  have hl2 : ∀ n, (Spec.AngBlock.line (lit " XSTEP: 0.5")).Valid n := fun n =>
    ⟨by decide +kernel, none' (by decide +kernel), fun _ => ⟨lit "0.5", 1 / 2, by decide +kernel,
      by decide +kernel⟩, none' (by decide +kernel), none' (by decide +kernel)⟩
  have hl3 : ∀ n, (Spec.AngBlock.line (lit " NCOLS_ODD: 2")).Valid n := fun n =>
    ⟨by decide +kernel, none' (by decide +kernel), none' (by decide +kernel),
      fun _ => ⟨['2'], 2, by decide +kernel, by decide +kernel⟩, none' (by decide +kernel)⟩
  have hl4 : ∀ n, (Spec.AngBlock.line (lit " NROWS: 1")).Valid n := fun n =>
    ⟨by decide +kernel, none' (by decide +kernel), none' (by decide +kernel), none' (by decide +kernel),
      fun _ => ⟨['1'], 1, by decide +kernel, by decide +kernel⟩⟩
  intro pre b post e
  match pre, e with
  | [], e => cases e; exact ⟨hp, by decide +kernel⟩
  | [_], e => cases e; exact ⟨hl1 _, by decide +kernel⟩
  | [_, _], e => cases e; exact ⟨hl2 _, by decide +kernel⟩
  | [_, _, _], e => cases e; exact ⟨hl3 _, by decide +kernel⟩
  | [_, _, _, _], e => cases e; exact ⟨hl4 _, by decide +kernel⟩
  | _ :: _ :: _ :: _ :: _ :: t, e => simp [Spec.exampleBlocks] at e

end DefDAP
