import Verif.Proofs.Text

/-! C67 and C68: reading text files up to a line, and CPR files. -/

namespace DefDAP

/-! ### Specification -/

/-- White space: blanks, tabs and line breaks. -/
def Spec.White (s : Str) : Prop := ∀ c ∈ s, c ∈ [' ', '\t', '\n', '\r', '\x0b', '\x0c']

/-- `t` is `line` without the white space at its ends. -/
def Spec.Stripped (line t : Str) : Prop :=
  ∃ a b, line = a ++ t ++ b ∧ Spec.White a ∧ Spec.White b ∧
    (∀ c r, t = c :: r → ¬ Spec.White [c]) ∧ ∀ c r, t = r ++ [c] → ¬ Spec.White [c]

/-- The line ends the section: it is the terminator, or starts with it. -/
def Spec.Terminates (term : Str) (exact' : Bool) (line : Str) : Prop :=
  ∃ t, Spec.Stripped line t ∧ if exact' = true then t = term else ∃ r, t = term ++ r

/-- Blank lines and comments. -/
def Spec.Ignored (comment : Char) (line : Str) : Prop :=
  Spec.White line ∨ ∃ r, Spec.Stripped line (comment :: r)

theorem isWs_iff (c : Char) : isWs c = true ↔ Spec.White [c] := by
  simp [isWs, Spec.White, or_assoc]

theorem white_iff (s : Str) : Spec.White s ↔ ∀ c ∈ s, isWs c = true := by
  constructor
  · intro h c hc
    rw [isWs_iff]
    intro d hd
    simp only [List.mem_singleton] at hd
    rw [hd]
    exact h c hc
  · intro h c hc
    exact (isWs_iff c).1 (h c hc) c (by simp)

theorem stripped_iff (line t : Str) : Spec.Stripped line t ↔ strip line = t := by
  constructor
  · rintro ⟨a, b, rfl, ha, hb, h1, h2⟩
    refine strip_pad ((white_iff a).1 ha) ((white_iff b).1 hb) ⟨?_, ?_⟩
    · intro c r e
      have := h1 c r e
      rw [← isWs_iff] at this
      simpa using this
    · intro c r e
      have := h2 c r e
      rw [← isWs_iff] at this
      simpa using this
  · rintro rfl
    obtain ⟨a, b, e, ha, hb, h1, h2⟩ := strip_spec line
    refine ⟨a, b, e, (white_iff a).2 ha, (white_iff b).2 hb, ?_, ?_⟩
    · intro c r e
      rw [← isWs_iff, h1 c r e]
      decide
    · intro c r e
      rw [← isWs_iff, h2 c r e]
      decide

theorem terminates_iff (term : Str) (ex : Bool) (line : Str) :
    Spec.Terminates term ex line ↔ isTerm term ex line = true := by
  unfold Spec.Terminates isTerm
  constructor
  · rintro ⟨t, ht, h⟩
    rw [stripped_iff] at ht
    subst ht
    cases ex with
    | true => simpa using h
    | false =>
      obtain ⟨r, h⟩ := (by simpa using h : ∃ r, strip line = term ++ r)
      simp only [Bool.false_eq_true, if_false, List.isPrefixOf_iff_prefix]
      exact ⟨r, h.symm⟩
  · intro h
    refine ⟨strip line, (stripped_iff _ _).2 rfl, ?_⟩
    cases ex with
    | true => simpa using h
    | false =>
      simp only [Bool.false_eq_true, if_false, List.isPrefixOf_iff_prefix] at h ⊢
      obtain ⟨r, h⟩ := h
      exact ⟨r, h.symm⟩

theorem strip_nil_iff (line : Str) : strip line = [] ↔ Spec.White line := by
  constructor
  · intro h
    obtain ⟨a, b, e, ha, hb, -⟩ := strip_spec line
    rw [h] at e
    rw [white_iff, e]
    simp only [List.append_nil, List.mem_append]
    rintro c (hc | hc)
    · exact ha c hc
    · exact hb c hc
  · intro h
    have := strip_pad (a := line) (t := []) (b := []) ((white_iff _).1 h) (by simp)
      ⟨by simp, by simp⟩
    simpa using this

theorem ignored_iff (comment : Char) (line : Str) :
    Spec.Ignored comment line ↔ isSkipped comment line = true := by
  unfold Spec.Ignored isSkipped
  simp only [stripped_iff, ← strip_nil_iff]
  cases h : strip line with
  | nil => simp
  | cons c r => simp [eq_comm]

/-! ### C68 -/

theorem readUntil_run {α : Type} (file : List Str) (term : Str) (comment : Char) (ex : Bool)
    (process : Str → α) : ∀ (rest pre : List Str) (fuel : Nat) (acc : List α),
    file = pre ++ rest → rest.length < fuel →
    ∃ sec tail, rest = sec ++ tail ∧ (∀ l ∈ sec, isTerm term ex l = false) ∧
      (∀ l t, tail = l :: t → isTerm term ex l = true) ∧
      readUntil file term comment ex process fuel pre.length acc =
        .ok (acc ++ (sec.filter fun l => !isSkipped comment l).map process, pre.length + sec.length)
  | [], pre, fuel, acc, hf, hl => by
    obtain ⟨k, rfl⟩ : ∃ k, fuel = k + 1 := ⟨fuel - 1, by omega⟩
    refine ⟨[], [], rfl, by simp, by simp, ?_⟩
    have : lineAt file pre.length = none := by simp [lineAt, hf]
    rw [readUntil, this]
    simp
  | l :: rest, pre, fuel, acc, hf, hl => by
    obtain ⟨k, rfl⟩ : ∃ k, fuel = k + 1 := ⟨fuel - 1, by simp at hl; omega⟩
    have hat : lineAt file pre.length = some l := by simp [lineAt, hf]
    by_cases ht : isTerm term ex l = true
    · refine ⟨[], l :: rest, rfl, by simp, ?_, ?_⟩
      · intro x t e
        simp only [List.cons.injEq] at e
        rw [← e.1]; exact ht
      · rw [readUntil, hat]
        simp [ht]
    · have ht' : isTerm term ex l = false := by simpa using ht
      have hf' : file = (pre ++ [l]) ++ rest := by simp [hf]
      have hlen : (pre ++ [l]).length = pre.length + 1 := by simp
      by_cases hs : isSkipped comment l = true
      · obtain ⟨sec, tail, h1, h2, h3, h4⟩ := readUntil_run file term comment ex process rest
          (pre ++ [l]) k acc hf' (by simp at hl; omega)
        refine ⟨l :: sec, tail, by rw [h1]; rfl, ?_, h3, ?_⟩
        · intro x hx
          rcases List.mem_cons.1 hx with rfl | hx
          · exact ht'
          · exact h2 x hx
        · rw [hlen] at h4
          rw [readUntil, hat]
          simp only [ht', hs, Bool.false_eq_true, if_false, if_true, h4]
          simp [hs]
          omega
      · have hs' : isSkipped comment l = false := by simpa using hs
        obtain ⟨sec, tail, h1, h2, h3, h4⟩ := readUntil_run file term comment ex process rest
          (pre ++ [l]) k (acc ++ [process l]) hf' (by simp at hl; omega)
        refine ⟨l :: sec, tail, by rw [h1]; rfl, ?_, h3, ?_⟩
        · intro x hx
          rcases List.mem_cons.1 hx with rfl | hx
          · exact ht'
          · exact h2 x hx
        · rw [hlen] at h4
          rw [readUntil, hat]
          simp only [ht', hs', Bool.false_eq_true, if_false, h4]
          simp [hs']
          omega

/-- **C68** From any position, the call returns the lines up to the first terminator, or the end of
the file, without blank lines and comments and in order, each processed once. The file is left in
front of the terminator. -/
theorem C68_read {α : Type} (file : List Str) (term : Str) (comment : Char) (ex : Bool)
    (process : Str → α) (before rest : List Str) (hf : file = before ++ rest) :
    ∃ section' tail, rest = section' ++ tail ∧
      (∀ l ∈ section', ¬ Spec.Terminates term ex l) ∧
      (∀ l t, tail = l :: t → Spec.Terminates term ex l) ∧
      readUntil file term comment ex process (file.length + 1) before.length [] =
        .ok ((open Classical in section'.filter fun l => decide (¬ Spec.Ignored comment l)).map process,
          before.length + section'.length) := by
  obtain ⟨sec, tail, h1, h2, h3, h4⟩ := readUntil_run file term comment ex process rest before
    (file.length + 1) [] hf (by rw [hf, List.length_append]; omega)
  refine ⟨sec, tail, h1, ?_, ?_, ?_⟩
  · intro l hl
    rw [terminates_iff, h2 l hl]
    decide
  · intro l t e
    rw [terminates_iff]
    exact h3 l t e
  · rw [h4, List.nil_append]
    congr 3
    apply List.filter_congr
    intro l _
    have := ignored_iff comment l
    cases h : isSkipped comment l <;> simp [this, h]

/-- **C68** Nothing is lost or read twice: the line read after the call is the terminator, and
reading on from there starts with the next section. -/
theorem C68_next {α : Type} (file : List Str) (term : Str) (comment : Char) (ex : Bool)
    (process : Str → α) (before section' : List Str) (line : Str) (tail : List Str)
    (hf : file = before ++ section' ++ line :: tail)
    (hs : ∀ l ∈ section', ¬ Spec.Terminates term ex l) (hl : Spec.Terminates term ex line) :
    ∃ out pos, readUntil file term comment ex process (file.length + 1) before.length [] =
      .ok (out, pos) ∧ pos = (before ++ section').length ∧ lineAt file pos = some line ∧
      file = (before ++ section' ++ [line]) ++ tail ∧
      pos + 1 = (before ++ section' ++ [line]).length := by
  obtain ⟨sec, tail', h1, h2, h3, h4⟩ := C68_read file term comment ex process before
    (section' ++ line :: tail) (by rw [hf, List.append_assoc])
  have hsec : sec = section' := by
    have hd1 : sec = (section' ++ line :: tail).takeWhile fun l => !isTerm term ex l := by
      rw [h1, List.takeWhile_append_of_pos (fun l hl => by
        have := h2 l hl; rw [terminates_iff] at this; simpa using this)]
      cases tail' with
      | nil => simp
      | cons x t =>
        have := h3 x t rfl
        rw [terminates_iff] at this
        simp [this]
    rw [hd1, List.takeWhile_append_of_pos (fun l hl => by
        have := hs l hl; rw [terminates_iff] at this; simpa using this)]
    rw [terminates_iff] at hl
    simp [hl]
  subst hsec
  refine ⟨_, _, h4, by simp, ?_, by simp [hf], by simp; omega⟩
  simp [lineAt, hf]

/-- A file with two sections. -/
example : readUntil [lit "a\n", lit "\n", lit "; no\n", lit "b\n", lit "[x]\n", lit "c\n"] ['['] ';'
    false strip 7 0 [] = .ok ([lit "a", lit "b"], 4) := by decide +kernel

/-! ### C67 -/

/-- A line of a CPR file inside a group. -/
inductive Spec.CprLine where
  /-- `key=value`, with white space around it. -/
  | entry (left key value right : Str)
  /-- Any other line. -/
  | other (text : Str)

/-- The text of a line. -/
def Spec.CprLine.text : Spec.CprLine → Str
  | .entry left key value right => left ++ (key ++ '=' :: value) ++ right
  | .other text => text

/-- The entry on a line. -/
def Spec.CprLine.entries : Spec.CprLine → List (Str × Str)
  | .entry _ key value _ => [(key, value)]
  | .other _ => []

/-- Lines that can follow the heading of a group: keys and values without `=`, and no white space at
the ends of the entry; the first character is not that of a comment or heading. Other lines are
blank, comments, or do not have exactly one `=`. -/
def Spec.CprLine.Valid : Spec.CprLine → Prop
  | .entry left key value right =>
    Spec.White left ∧ Spec.White right ∧ '=' ∉ key ∧ '=' ∉ value ∧
    (∀ c r, key = c :: r → ¬ Spec.White [c] ∧ c ≠ '[' ∧ c ≠ ';') ∧
    (∀ c r, value = r ++ [c] → ¬ Spec.White [c]) ∧ '\n' ∉ left ++ (key ++ '=' :: value) ++ right
  | .other text =>
    '\n' ∉ text ∧ ¬ Spec.Terminates ['['] false text ∧
    (Spec.Ignored ';' text ∨ text.count '=' ≠ 1)

/-- A group: the heading with white space around it, and its lines. -/
structure Spec.CprGroup where
  left : Str
  name : Str
  right : Str
  lines : List Spec.CprLine

def Spec.CprGroup.heading (g : Spec.CprGroup) : Str := g.left ++ ('[' :: g.name ++ [']']) ++ g.right

def Spec.CprGroup.entries (g : Spec.CprGroup) : List (Str × Str) :=
  g.lines.flatMap Spec.CprLine.entries

def Spec.CprGroup.Valid (g : Spec.CprGroup) : Prop :=
  Spec.White g.left ∧ Spec.White g.right ∧ g.name ≠ [] ∧ '\n' ∉ g.heading ∧
  ∀ l ∈ g.lines, l.Valid

/-- A CPR text: blank lines and comments, then groups. -/
def Spec.cprText (intro : List Str) (groups : List Spec.CprGroup) : Str :=
  ((intro ++ groups.flatMap fun g => g.heading :: g.lines.map Spec.CprLine.text).map
    fun l => l ++ ['\n']).flatten

theorem white_append_newline {s : Str} (h : Spec.White s) : Spec.White (s ++ ['\n']) := by
  intro c hc
  rcases List.mem_append.1 hc with hc | hc
  · exact h c hc
  · simp only [List.mem_singleton] at hc
    rw [hc]; simp

theorem strip_newline (s : Str) : strip (s ++ ['\n']) = strip s := by
  obtain ⟨a, b, e, ha, hb, ht⟩ := strip_spec s
  conv_lhs => rw [e, List.append_assoc]
  apply strip_pad ha _ ht
  intro c hc
  rcases List.mem_append.1 hc with hc | hc
  · exact hb c hc
  · simp only [List.mem_singleton] at hc
    rw [hc]; decide

theorem strip_entry {left key value right : Str}
    (h : (Spec.CprLine.entry left key value right).Valid) :
    strip (left ++ (key ++ '=' :: value) ++ right) = key ++ '=' :: value := by
  obtain ⟨h1, h2, h3, h4, h5, h6, -⟩ := h
  apply strip_pad ((white_iff _).1 h1) ((white_iff _).1 h2)
  constructor
  · intro c r e
    cases key with
    | nil =>
      simp only [List.nil_append, List.cons.injEq] at e
      rw [← e.1]; decide
    | cons x y =>
      simp only [List.cons_append, List.cons.injEq] at e
      rw [← e.1]
      have := (h5 x y rfl).1
      rw [← isWs_iff] at this
      simpa using this
  · intro c r e
    rcases List.eq_nil_or_concat value with rfl | ⟨u, x, rfl⟩
    · have : (key ++ ['=']) = r ++ [c] := e
      have := (List.append_inj' this rfl).2
      simp only [List.cons.injEq, and_true] at this
      rw [← this]; decide
    · have e' : (key ++ '=' :: u) ++ [x] = r ++ [c] := by simpa using e
      have := (List.append_inj' e' rfl).2
      simp only [List.cons.injEq, and_true] at this
      rw [← this]
      have := h6 x u (by simp)
      rw [← isWs_iff] at this
      simpa using this

theorem parseLine_valid {l : Spec.CprLine} (h : l.Valid)
    (hs : isSkipped ';' (l.text ++ ['\n']) = false) :
    (parseLine (l.text ++ ['\n'])).toList = l.entries := by
  cases l with
  | entry left key value right =>
    unfold parseLine
    simp only [Spec.CprLine.text, strip_newline, strip_entry h]
    rw [splitSep_cons h.2.2.1, splitSep_one h.2.2.2.1]
    rfl
  | other text =>
    obtain ⟨-, -, h3⟩ := h
    simp only [Spec.CprLine.text] at hs ⊢
    have hig : ¬ Spec.Ignored ';' text := by
      rw [ignored_iff]
      unfold isSkipped at hs ⊢
      rw [strip_newline] at hs
      rw [hs]; decide
    have hc := h3.resolve_left hig
    unfold parseLine
    rw [strip_newline]
    have hlen := splitSep_length '=' (strip text)
    have hcount : (strip text).count '=' = text.count '=' := by
      obtain ⟨a, b, e, ha, hb, -⟩ := strip_spec text
      have z : ∀ w : Str, (∀ c ∈ w, isWs c = true) → w.count '=' = 0 := by
        intro w hw
        rw [List.count_eq_zero]
        intro hm
        have := hw _ hm
        exact absurd this (by decide)
      conv_rhs => rw [e]
      rw [List.count_append, List.count_append, z a ha, z b hb]
      omega
    split
    · rename_i k v heq
      rw [heq] at hlen
      simp only [List.length_cons, List.length_nil] at hlen
      omega
    · rfl

theorem isTerm_newline (term : Str) (ex : Bool) (l : Str) :
    isTerm term ex (l ++ ['\n']) = isTerm term ex l := by
  unfold isTerm
  rw [strip_newline]

theorem valid_not_term {l : Spec.CprLine} (h : l.Valid) :
    isTerm ['['] false (l.text ++ ['\n']) = false := by
  rw [isTerm_newline]
  cases l with
  | entry left key value right =>
    unfold isTerm
    simp only [Spec.CprLine.text, strip_entry h]
    cases key with
    | nil => simp [List.isPrefixOf]
    | cons c r =>
      have := (h.2.2.2.2.1 c r rfl).2.1
      simp [List.isPrefixOf, Ne.symm this]
  | other text =>
    have := h.2.1
    rw [terminates_iff] at this
    simpa [Spec.CprLine.text] using this

theorem beforeLast_concat (s : Str) : beforeLast (s ++ [']']) = some s := by
  induction s with
  | nil => rfl
  | cons c t ih => simp [beforeLast, ih]

theorem strip_heading {g : Spec.CprGroup} (h : g.Valid) :
    strip (g.heading ++ ['\n']) = '[' :: g.name ++ [']'] := by
  obtain ⟨h1, h2, -⟩ := h
  rw [strip_newline]
  apply strip_pad ((white_iff _).1 h1) ((white_iff _).1 h2)
  constructor
  · intro c r e
    simp only [List.cons_append, List.cons.injEq] at e
    rw [← e.1]; decide
  · intro c r e
    have := (List.append_inj' e rfl).2
    simp only [List.cons.injEq, and_true] at this
    rw [← this]; decide

theorem groupName_heading {g : Spec.CprGroup} (h : g.Valid) :
    groupName (g.heading ++ ['\n']) = .ok g.name := by
  unfold groupName
  rw [strip_heading h]
  simp only [List.cons_append]
  rw [beforeLast_concat]
  cases hn : g.name with
  | nil => exact absurd hn h.2.2.1
  | cons c r => rfl

theorem heading_not_skipped {g : Spec.CprGroup} (h : g.Valid) :
    isSkipped ';' (g.heading ++ ['\n']) = false := by
  unfold isSkipped
  rw [strip_heading h]
  simp

theorem heading_term {g : Spec.CprGroup} (h : g.Valid) :
    isTerm ['['] false (g.heading ++ ['\n']) = true := by
  unfold isTerm
  rw [strip_heading h]
  simp

theorem strSet_new {α : Type} {key : Str} {val : α} {d : List (Str × α)} (h : key ∉ d.map Prod.fst) :
    strSet key val d = d ++ [(key, val)] := by
  induction d with
  | nil => rfl
  | cons a t ih =>
    obtain ⟨k, v⟩ := a
    have hk : k ≠ key := fun e => h (by simp [e])
    rw [strSet, if_neg hk, ih fun hh => h (by simp [hh])]
    rfl

/-- Pairs stored one by one. -/
def setAll {α : Type} (l : List (Str × α)) (d : List (Str × α)) : List (Str × α) :=
  l.foldl (fun d kv => strSet kv.1 kv.2 d) d

theorem setAll_new {α : Type} (l : List (Str × α)) : ∀ d : List (Str × α),
    ((d ++ l).map Prod.fst).Nodup → setAll l d = d ++ l := by
  induction l with
  | nil => simp [setAll]
  | cons kv t ih =>
    intro d hd
    have hnew : kv.1 ∉ d.map Prod.fst := by
      rw [List.map_append, List.map_cons, List.nodup_append] at hd
      intro hm
      exact hd.2.2 _ hm _ (by simp) rfl
    have : setAll (kv :: t) d = setAll t (strSet kv.1 kv.2 d) := rfl
    rw [this, strSet_new hnew, ih]
    · simp
    · simpa using hd

theorem groupDict_entries (ls : List (Option (Str × Str))) : ∀ d : List (Str × Str),
    ls.foldl dictStep d = setAll (ls.flatMap Option.toList) d := by
  induction ls with
  | nil => simp [setAll]
  | cons a t ih =>
    intro d
    cases a with
    | none => simpa [dictStep] using ih d
    | some kv => simpa [dictStep, setAll] using ih (strSet kv.1 kv.2 d)

theorem section_lines {g : Spec.CprGroup} (h : g.Valid) :
    ((((g.lines.map Spec.CprLine.text).map fun l => l ++ ['\n']).filter
      fun l => !isSkipped ';' l).map parseLine).flatMap Option.toList = g.entries := by
  unfold Spec.CprGroup.entries
  have hv := h.2.2.2.2
  revert hv
  generalize g.lines = ls
  intro hv
  induction ls with
  | nil => rfl
  | cons a t ih =>
    simp only [List.map_cons, List.filter_cons, List.flatMap_cons]
    have iht := ih fun l hl => hv l (List.mem_cons_of_mem _ hl)
    cases hs : isSkipped ';' (a.text ++ ['\n']) with
    | false =>
      simp only [Bool.not_false, if_true, List.map_cons, List.flatMap_cons]
      rw [iht, parseLine_valid (hv a (by simp)) hs]
    | true =>
      simp only [Bool.not_true, Bool.false_eq_true, if_false]
      rw [iht]
      have : a.entries = [] := by
        cases a with
        | other text => rfl
        | entry left key value right =>
          exfalso
          have hva := hv _ (by simp : Spec.CprLine.entry left key value right ∈ _)
          unfold isSkipped at hs
          simp only [Spec.CprLine.text, strip_newline, strip_entry hva] at hs
          cases key with
          | nil => simp at hs
          | cons c r =>
            have := (hva.2.2.2.2.1 c r rfl).2.2
            simp [this] at hs
      rw [this, List.nil_append]

theorem cprGroups_run (file : List Str) : ∀ (groups : List Spec.CprGroup) (pre : List Str)
    (fuel : Nat) (acc : List (Str × List (Str × Str))), (∀ g ∈ groups, g.Valid) →
    file = pre ++ (groups.flatMap fun g => g.heading :: g.lines.map Spec.CprLine.text).map
      (fun l => l ++ ['\n']) →
    groups.length < fuel →
    cprGroups file fuel pre.length acc =
      .ok (setAll (groups.map fun g => (g.name, setAll g.entries [])) acc)
  | [], pre, fuel, acc, _, hf, hl => by
    obtain ⟨k, rfl⟩ : ∃ k, fuel = k + 1 := ⟨fuel - 1, by simp at hl; omega⟩
    have : lineAt file pre.length = none := by simp [lineAt, hf]
    rw [cprGroups, this]
    simp [setAll]
  | g :: gs, pre, fuel, acc, hv, hf, hl => by
    obtain ⟨k, rfl⟩ : ∃ k, fuel = k + 1 := ⟨fuel - 1, by simp at hl; omega⟩
    have hg := hv g (by simp)
    set nl : Str → Str := fun l => l ++ ['\n'] with hnl
    set next := (gs.flatMap fun g => g.heading :: g.lines.map Spec.CprLine.text).map nl with hnext
    have hf2 : file = pre ++ nl g.heading :: ((g.lines.map Spec.CprLine.text).map nl ++ next) := by
      rw [hf]; simp [hnext]
    have hat : lineAt file pre.length = some (nl g.heading) := by simp [lineAt, hf2]
    have hf3 : file = (pre ++ [nl g.heading]) ++ ((g.lines.map Spec.CprLine.text).map nl ++ next) := by
      rw [hf2]; simp
    have hlen : (pre ++ [nl g.heading]).length = pre.length + 1 := by simp
    obtain ⟨sec, tail, e1, e2, e3, e4⟩ := readUntil_run file ['['] ';' false parseLine
      ((g.lines.map Spec.CprLine.text).map nl ++ next) (pre ++ [nl g.heading]) (file.length + 1) []
      hf3 (by rw [hf3]; simp; omega)
    have hbody : ∀ l ∈ (g.lines.map Spec.CprLine.text).map nl,
        (!isTerm ['['] false l) = true := by
      intro l hl
      simp only [List.map_map, List.mem_map, Function.comp] at hl
      obtain ⟨x, hx, rfl⟩ := hl
      rw [valid_not_term (hg.2.2.2.2 x hx)]
      rfl
    have hsec : sec = (g.lines.map Spec.CprLine.text).map nl ∧ tail = next := by
      have hd1 : sec = ((g.lines.map Spec.CprLine.text).map nl ++ next).takeWhile
          fun l => !isTerm ['['] false l := by
        rw [e1, List.takeWhile_append_of_pos (fun l hl => by simp [e2 l hl])]
        cases tail with
        | nil => simp
        | cons x t => simp [List.takeWhile_cons, e3 x t rfl]
      have hd2 : ((g.lines.map Spec.CprLine.text).map nl ++ next).takeWhile
          (fun l => !isTerm ['['] false l) = (g.lines.map Spec.CprLine.text).map nl := by
        rw [List.takeWhile_append_of_pos hbody]
        cases gs with
        | nil => simp [hnext]
        | cons g' gs' =>
          have := heading_term (hv g' (by simp))
          simp [hnext, hnl, List.takeWhile_cons, this]
      have h3 := hd1.trans hd2
      refine ⟨h3, ?_⟩
      rw [h3] at e1
      exact (List.append_cancel_left e1).symm
    obtain ⟨rfl, rfl⟩ := hsec
    rw [hlen] at e4
    have hdict : groupDict ((((g.lines.map Spec.CprLine.text).map nl).filter
        fun l => !isSkipped ';' l).map parseLine) = setAll g.entries [] := by
      unfold groupDict
      rw [groupDict_entries, section_lines hg]
    have ih := cprGroups_run file gs ((pre ++ [nl g.heading]) ++ (g.lines.map Spec.CprLine.text).map nl)
      k (strSet g.name (setAll g.entries []) acc) (fun x hx => hv x (List.mem_cons_of_mem _ hx))
      (by simp only [List.append_assoc] at hf3 ⊢; exact hf3) (by simp at hl; omega)
    rw [cprGroups, hat]
    simp only [hnl, heading_not_skipped hg, Bool.false_eq_true, if_false, groupName_heading hg,
      Except.bind]
    simp only [hnl] at e4
    rw [e4]
    simp only [List.nil_append]
    simp only [hnl] at hdict
    rw [hdict]
    have hp : ((pre ++ [nl g.heading]) ++ (g.lines.map Spec.CprLine.text).map nl).length =
        pre.length + 1 + ((g.lines.map Spec.CprLine.text).map nl).length := by
      simp; omega
    rw [hp] at ih
    simp only [hnl] at ih
    rw [ih]
    simp [setAll]

theorem cprGroups_intro (file : List Str) : ∀ (intro : List Str) (rest pre : List Str) (fuel : Nat)
    (acc : List (Str × List (Str × Str))), (∀ l ∈ intro, Spec.Ignored ';' l) →
    file = pre ++ intro.map (fun l => l ++ ['\n']) ++ rest →
    cprGroups file (fuel + intro.length) pre.length acc =
      cprGroups file fuel (pre.length + intro.length) acc
  | [], _, _, _, _, _, _ => by simp
  | l :: t, rest, pre, fuel, acc, hi, hf => by
    have hat : lineAt file pre.length = some (l ++ ['\n']) := by simp [lineAt, hf]
    have hsk : isSkipped ';' (l ++ ['\n']) = true := by
      have := (ignored_iff ';' l).1 (hi l (by simp))
      unfold isSkipped at this ⊢
      rw [strip_newline]
      exact this
    have ih := cprGroups_intro file t rest (pre ++ [l ++ ['\n']]) fuel acc
      (fun x hx => hi x (List.mem_cons_of_mem _ hx)) (by rw [hf]; simp)
    have : fuel + (l :: t).length = (fuel + t.length) + 1 := by simp; omega
    rw [this, cprGroups, hat]
    simp only [hsk, if_true]
    have h1 : (pre ++ [l ++ ['\n']]).length = pre.length + 1 := by simp
    rw [h1] at ih
    rw [ih]
    congr 1
    simp; omega

theorem parseCpr_run (intro : List Str) (groups : List Spec.CprGroup)
    (hi : ∀ l ∈ intro, Spec.Ignored ';' l ∧ '\n' ∉ l) (hg : ∀ g ∈ groups, g.Valid) :
    parseCpr (Spec.cprText intro groups) =
      .ok (setAll (groups.map fun g => (g.name, setAll g.entries [])) []) := by
  unfold parseCpr Spec.cprText
  have hlines : linesOf ((intro ++ groups.flatMap fun g => g.heading :: g.lines.map
      Spec.CprLine.text).map fun l => l ++ ['\n']).flatten =
      (intro ++ groups.flatMap fun g => g.heading :: g.lines.map Spec.CprLine.text).map
        fun l => l ++ ['\n'] := by
    apply linesOf_flatten
    intro l hl
    rcases List.mem_append.1 hl with hl | hl
    · exact (hi l hl).2
    · obtain ⟨g, hgm, hl⟩ := List.mem_flatMap.1 hl
      rcases List.mem_cons.1 hl with rfl | hl
      · exact (hg g hgm).2.2.2.1
      · obtain ⟨x, hx, rfl⟩ := List.mem_map.1 hl
        have := (hg g hgm).2.2.2.2 x hx
        cases x with
        | entry a b c d => exact this.2.2.2.2.2.2
        | other t => exact this.1
  simp only [hlines]
  set file := (intro ++ groups.flatMap fun g => g.heading :: g.lines.map Spec.CprLine.text).map
    fun l => l ++ ['\n'] with hfile
  have hlen : groups.length ≤ (groups.flatMap fun g => g.heading :: g.lines.map
      Spec.CprLine.text).length := by
    clear hlines hfile hg
    induction groups with
    | nil => simp
    | cons a t ih => simp at ih ⊢; omega
  have hfl : file.length = intro.length + (groups.flatMap fun g => g.heading :: g.lines.map
      Spec.CprLine.text).length := by rw [hfile]; simp
  have h1 := cprGroups_intro file intro ((groups.flatMap fun g => g.heading :: g.lines.map
    Spec.CprLine.text).map fun l => l ++ ['\n']) [] (file.length + 1 - intro.length) []
    (fun l hl => (hi l hl).1) (by rw [hfile]; simp)
  have h2 : file.length + 1 - intro.length + intro.length = file.length + 1 := by omega
  rw [h2] at h1
  simp only [List.length_nil, Nat.zero_add] at h1
  rw [h1]
  have h3 := cprGroups_run file groups (intro.map fun l => l ++ ['\n'])
    (file.length + 1 - intro.length) [] hg (by rw [hfile]; simp) (by omega)
  simpa using h3

/-- **C67** Parsing a CPR text returns its groups and their entries, in order and nothing else. -/
theorem C67_parse (intro : List Str) (groups : List Spec.CprGroup)
    (hi : ∀ l ∈ intro, Spec.Ignored ';' l ∧ '\n' ∉ l) (hg : ∀ g ∈ groups, g.Valid)
    (hk : ∀ g ∈ groups, (g.entries.map Prod.fst).Nodup)
    (hd : (groups.map fun g => g.name).Nodup) :
    parseCpr (Spec.cprText intro groups) = .ok (groups.map fun g => (g.name, g.entries)) := by
  rw [parseCpr_run intro groups hi hg]
  have : (groups.map fun g => (g.name, setAll g.entries [])) =
      groups.map fun g => (g.name, g.entries) := by
    apply List.map_congr_left
    intro g hgm
    rw [setAll_new _ _ (by simpa using hk g hgm), List.nil_append]
  rw [this, setAll_new _ _ (by simpa [Function.comp_def] using hd), List.nil_append]

/-- The value stored for a key. -/
def Spec.valueOf {α : Type} (d : List (Str × α)) (key : Str) : Option α :=
  (d.find? fun p => decide (p.1 = key)).map Prod.snd

/-- The value on the last line with a key. -/
def Spec.lastValue {α : Type} (l : List (Str × α)) (key : Str) : Option α :=
  Spec.valueOf l.reverse key

theorem valueOf_set {α : Type} (key : Str) (v : α) (k : Str) : ∀ d : List (Str × α),
    Spec.valueOf (strSet key v d) k = if k = key then some v else Spec.valueOf d k
  | [] => by
    by_cases h : key = k
    · simp [strSet, Spec.valueOf, h]
    · simp [strSet, Spec.valueOf, h, Ne.symm h]
  | (a, b) :: t => by
    have ih := valueOf_set key v k t
    unfold Spec.valueOf at ih ⊢
    by_cases h1 : a = key
    · by_cases h2 : k = key
      · simp [strSet, h1, h2]
      · simp [strSet, h1, h2, Ne.symm h2]
    · rw [strSet, if_neg h1]
      by_cases h3 : a = k
      · have h4 : k ≠ key := h3 ▸ h1
        simp [h3, h4]
      · simp [List.find?_cons, h3, ih]

theorem keys_set {α : Type} (key : Str) (v : α) : ∀ d : List (Str × α),
    (strSet key v d).map Prod.fst =
      d.map Prod.fst ++ if key ∈ d.map Prod.fst then [] else [key]
  | [] => by simp [strSet]
  | (a, b) :: t => by
    have ih := keys_set key v t
    by_cases h1 : a = key
    · simp [strSet, h1]
    · rw [strSet, if_neg h1, List.map_cons, ih]
      have : (key ∈ ((a, b) :: t).map Prod.fst) ↔ key ∈ t.map Prod.fst := by
        simp [Ne.symm h1]
      by_cases h2 : key ∈ t.map Prod.fst
      · rw [if_pos h2, if_pos (this.2 h2)]; simp
      · rw [if_neg h2, if_neg (fun h => h2 (this.1 h))]; simp

theorem valueOf_setAll {α : Type} (k : Str) (l : List (Str × α)) : ∀ d : List (Str × α),
    Spec.valueOf (setAll l d) k = (Spec.lastValue l k).or (Spec.valueOf d k) := by
  induction l with
  | nil => intro d; simp [setAll, Spec.lastValue, Spec.valueOf]
  | cons a t ih =>
    intro d
    have e : setAll (a :: t) d = setAll t (strSet a.1 a.2 d) := rfl
    rw [e, ih, valueOf_set]
    unfold Spec.lastValue Spec.valueOf
    rw [List.reverse_cons, List.find?_append]
    cases t.reverse.find? fun p => decide (p.1 = k) with
    | some p => simp
    | none =>
      by_cases h : a.1 = k
      · simp [h]
      · simp [h, Ne.symm h]

theorem keys_setAll {α : Type} (l : List (Str × α)) : ∀ d : List (Str × α),
    (d.map Prod.fst).Nodup → ((setAll l d).map Prod.fst).Nodup ∧
      ∀ k, k ∈ (setAll l d).map Prod.fst ↔ k ∈ d.map Prod.fst ∨ k ∈ l.map Prod.fst := by
  induction l with
  | nil => intro d hd; exact ⟨hd, fun k => by simp [setAll]⟩
  | cons a t ih =>
    intro d hd
    have e : setAll (a :: t) d = setAll t (strSet a.1 a.2 d) := rfl
    have hn : ((strSet a.1 a.2 d).map Prod.fst).Nodup := by
      rw [keys_set]
      split_ifs with h
      · simpa using hd
      · rw [List.nodup_append]
        refine ⟨hd, by simp, ?_⟩
        intro x hx y hy he
        simp only [List.mem_singleton] at hy
        exact h (hy ▸ he ▸ hx)
    obtain ⟨h1, h2⟩ := ih _ hn
    rw [e]
    refine ⟨h1, fun k => ?_⟩
    rw [h2, keys_set]
    split_ifs with h
    · simp only [List.append_nil, List.map_cons, List.mem_cons]
      constructor
      · rintro (h' | h')
        · exact .inl h'
        · exact .inr (.inr h')
      · rintro (h' | rfl | h')
        · exact .inl h'
        · exact .inl h
        · exact .inr h'
    · simp only [List.mem_append, List.mem_singleton, List.map_cons, List.mem_cons]
      tauto

/-- **C67** Repeated keys and groups: every name is returned once, a key with the value of its last
line in the group, and a group with the entries under its last heading only. -/
theorem C67_repeated (intro : List Str) (groups : List Spec.CprGroup)
    (hi : ∀ l ∈ intro, Spec.Ignored ';' l ∧ '\n' ∉ l) (hg : ∀ g ∈ groups, g.Valid) :
    ∃ d, parseCpr (Spec.cprText intro groups) = .ok d ∧ (d.map Prod.fst).Nodup ∧
      (∀ name, name ∈ d.map Prod.fst ↔ ∃ g ∈ groups, g.name = name) ∧
      ∀ (pre : List Spec.CprGroup) g post, groups = pre ++ g :: post →
        (∀ g' ∈ post, g'.name ≠ g.name) →
        ∃ entries, Spec.valueOf d g.name = some entries ∧ (entries.map Prod.fst).Nodup ∧
          ∀ key, Spec.valueOf entries key = Spec.lastValue g.entries key := by
  obtain ⟨h1, h2⟩ := keys_setAll (groups.map fun g => (g.name, setAll g.entries [])) []
    (by simp)
  refine ⟨_, parseCpr_run intro groups hi hg, h1, fun name => ?_, ?_⟩
  · rw [h2]; simp
  · intro pre g post e hpost
    refine ⟨setAll g.entries [], ?_, (keys_setAll _ _ (by simp)).1, fun key => ?_⟩
    · rw [valueOf_setAll, e]
      unfold Spec.lastValue Spec.valueOf
      rw [List.map_append, List.map_cons, List.reverse_append, List.reverse_cons, List.append_assoc,
        List.find?_append, List.find?_eq_none.2 (by
          intro p hp
          simp only [List.mem_reverse, List.mem_map] at hp
          obtain ⟨g', hg', rfl⟩ := hp
          simpa using hpost g' hg')]
      simp
    · rw [valueOf_setAll]
      simp [Spec.valueOf]

/-- Two values for a key: the second is returned. -/
example : parseCpr (lit "[A]\nx=1\nx=2\n[B]\n[A]\ny=3\nx=4\ny=5\n") =
    .ok [(lit "A", [(lit "y", lit "5"), (lit "x", lit "4")]), (lit "B", [])] := by decide +kernel

/-- **C67** If the first line that is not blank or a comment is not a heading, parsing fails. -/
theorem C67_no_heading (intro : List Str) (line : Str) (rest : List Str)
    (hi : ∀ l ∈ intro, Spec.Ignored ';' l) (hn : ∀ l ∈ intro ++ line :: rest, '\n' ∉ l)
    (hl : ¬ Spec.Ignored ';' line) (ht : ¬ Spec.Terminates ['['] false line) :
    parseCpr ((intro ++ line :: rest).map fun l => l ++ ['\n']).flatten =
      .error .attributeError := by
  unfold parseCpr
  simp only [linesOf_flatten hn]
  set file := (intro ++ line :: rest).map fun l => l ++ ['\n'] with hfile
  have h1 := cprGroups_intro file intro ((line :: rest).map fun l => l ++ ['\n']) []
    (rest.length + 2) [] hi (by rw [hfile]; simp)
  have h2 : rest.length + 2 + intro.length = file.length + 1 := by rw [hfile]; simp; omega
  rw [h2] at h1
  simp only [List.length_nil, Nat.zero_add] at h1
  rw [h1]
  have hat : lineAt file intro.length = some (line ++ ['\n']) := by simp [lineAt, hfile]
  rw [cprGroups, hat]
  have hs : isSkipped ';' (line ++ ['\n']) = false := by
    rw [ignored_iff] at hl
    unfold isSkipped at hl ⊢
    rw [strip_newline]
    simpa using hl
  have hg : groupName (line ++ ['\n']) = .error .attributeError := by
    rw [terminates_iff] at ht
    unfold isTerm at ht
    unfold groupName
    rw [strip_newline]
    cases h : strip line with
    | nil => rfl
    | cons c r =>
      by_cases hc : c = '['
      · rw [h, hc] at ht
        simp at ht
      · split
        · rename_i heq
          simp only [List.cons.injEq] at heq
          exact absurd heq.1 hc
        · rfl
  simp only [hs, hg, Bool.false_eq_true, if_false, Except.bind]

/-- A group as in the files: an entry, a comment, an entry without value and a line with two `=`. -/
def Spec.exampleGroup : Spec.CprGroup :=
  ⟨[], lit "Job", [' '], [.entry [] (lit "xCells") (lit "10") [], .other (lit "; a=b"),
    .entry ['\t'] (lit "Note") [] [' '], .other (lit "u=v=w")]⟩

example : Spec.exampleGroup.Valid ∧
    Spec.exampleGroup.entries = [(lit "xCells", lit "10"), (lit "Note", [])] := by
  refine ⟨⟨?_, ?_, by decide, by decide, ?_⟩, rfl⟩
  · simp [Spec.White, Spec.exampleGroup]
  · simp [Spec.White, Spec.exampleGroup]
  · have hx : strip (lit "; a=b") = lit "; a=b" := by decide
    have hy : strip (lit "u=v=w") = lit "u=v=w" := by decide
    intro l hl
    simp only [Spec.exampleGroup, List.mem_cons, List.not_mem_nil, or_false] at hl
    rcases hl with rfl | rfl | rfl | rfl
    · refine ⟨by simp [Spec.White], by simp [Spec.White], by decide, by decide, ?_, ?_, by decide⟩
      · intro c r h
        rw [show lit "xCells" = 'x' :: lit "Cells" by decide] at h
        injection h with h1 h2
        subst h1
        exact ⟨by simp [Spec.White], by decide, by decide⟩
      · intro c r h
        rw [show lit "10" = ['1'] ++ ['0'] by decide] at h
        have := (List.append_inj' h rfl).2
        injection this with h1 h2
        subst h1
        simp [Spec.White]
    · refine ⟨by decide, ?_, .inl (.inr ⟨lit " a=b", (stripped_iff _ _).2 hx⟩)⟩
      rw [terminates_iff]
      decide
    · refine ⟨by simp [Spec.White], by simp [Spec.White], by decide, by decide, ?_, by simp, by decide⟩
      intro c r h
      rw [show lit "Note" = 'N' :: lit "ote" by decide] at h
      injection h with h1 h2
      subst h1
      exact ⟨by simp [Spec.White], by decide, by decide⟩
    · refine ⟨by decide, ?_, .inr (by decide)⟩
      rw [terminates_iff]
      decide

end DefDAP
