import Verif.Props.CutCtf
import Verif.Props.ReadText
import Verif.Props.InspectorFile
import Mathlib.Data.List.TakeWhile

/-! C146: loading a CPR file whose end is missing. -/

namespace DefDAP
open Spec

/-! ### Specification -/

/-- What is left of the entries of a group: the first of them, and possibly the start of the value of
the next. -/
def Spec.CutEntries (full es : List (Str × Str)) : Prop :=
  es <+: full ∨ ∃ done key value v, done ++ [(key, value)] <+: full ∧ v <+: value ∧
    es = done ++ [(key, v)]

/-- What is left of the groups: the first of them, and possibly a part of the next. -/
def Spec.CutGroups (full m : List (Str × List (Str × Str))) : Prop :=
  m <+: full ∨ ∃ done name entries es, done ++ [(name, entries)] <+: full ∧ CutEntries entries es ∧
    m = done ++ [(name, es)]

/-- Lines other than entries have no `=`, unless they are ignored. -/
def Spec.CprLine.Plain : Spec.CprLine → Prop
  | .entry _ _ _ _ => True
  | .other text => Spec.Ignored ';' text ∨ '=' ∉ text

/-- The lines of groups. -/
def Spec.cprLines (groups : List CprGroup) : List Str :=
  groups.flatMap fun g => g.heading :: g.lines.map CprLine.text

/-! ### Only the stripped lines matter -/

theorem readUntil_strip {f f' : List Str} (h : f.map strip = f'.map strip) (term : Str) (c : Char)
    (ex : Bool) : ∀ (n pos : Nat) (acc : List (Option (Str × Str))),
    readUntil f term c ex parseLine n pos acc = readUntil f' term c ex parseLine n pos acc := by
  intro n
  induction n with
  | zero => intro pos acc; rfl
  | succ n ih =>
    intro pos acc
    have hp : (lineAt f pos).map strip = (lineAt f' pos).map strip := by
      have := congrArg (fun l : List Str => l[pos]?) h
      simpa [lineAt] using this
    rw [readUntil, readUntil]
    cases e : lineAt f pos with
    | none =>
      rw [e] at hp
      cases e' : lineAt f' pos with
      | none => rfl
      | some y => rw [e'] at hp; simp at hp
    | some x =>
      rw [e] at hp
      cases e' : lineAt f' pos with
      | none => rw [e'] at hp; simp at hp
      | some y =>
        rw [e'] at hp
        simp only [Option.map_some, Option.some.injEq] at hp
        have h1 : isTerm term ex x = isTerm term ex y := by unfold isTerm; rw [hp]
        have h2 : isSkipped c x = isSkipped c y := by unfold isSkipped; rw [hp]
        have h3 : parseLine x = parseLine y := by unfold parseLine; rw [hp]
        simp only [h1, h2, h3, ih]

theorem cprGroups_strip {f f' : List Str} (h : f.map strip = f'.map strip) :
    ∀ (n pos : Nat) (acc : List (Str × List (Str × Str))),
    cprGroups f n pos acc = cprGroups f' n pos acc := by
  have hlen : f.length = f'.length := by
    have := congrArg List.length h
    simpa using this
  intro n
  induction n with
  | zero => intro pos acc; rfl
  | succ n ih =>
    intro pos acc
    have hp : (lineAt f pos).map strip = (lineAt f' pos).map strip := by
      have := congrArg (fun l : List Str => l[pos]?) h
      simpa [lineAt] using this
    rw [cprGroups, cprGroups]
    cases e : lineAt f pos with
    | none =>
      rw [e] at hp
      cases e' : lineAt f' pos with
      | none => rfl
      | some y => rw [e'] at hp; simp at hp
    | some x =>
      rw [e] at hp
      cases e' : lineAt f' pos with
      | none => rw [e'] at hp; simp at hp
      | some y =>
        rw [e'] at hp
        simp only [Option.map_some, Option.some.injEq] at hp
        have h2 : isSkipped ';' x = isSkipped ';' y := by unfold isSkipped; rw [hp]
        have h3 : groupName x = groupName y := by unfold groupName; rw [hp]
        simp only [h2, h3, ih, hlen, readUntil_strip h]

theorem parseCpr_strip {t t' : Str} (h : (linesOf t).map strip = (linesOf t').map strip) :
    parseCpr t = parseCpr t' := by
  have hlen : (linesOf t).length = (linesOf t').length := by
    have := congrArg List.length h
    simpa using this
  unfold parseCpr
  simp only [hlen]
  exact cprGroups_strip h _ _ _

/-! ### The start of a line -/

theorem strip_head (s : Str) : (strip s).head? = (s.dropWhile isWs).head? := by
  obtain ⟨a, b, e, ha, hb, ht⟩ := strip_spec s
  have h1 : s.dropWhile isWs = (strip s ++ b).dropWhile isWs := by
    conv_lhs => rw [e, List.append_assoc]
    exact dropWhile_ws ha
  rw [h1]
  cases hs : strip s with
  | nil =>
    rw [List.nil_append]
    have : b.dropWhile isWs = [] := by
      rw [List.dropWhile_eq_nil_iff]
      exact hb
    rw [this]
  | cons c r =>
    have := ht.1 c r hs
    rw [List.cons_append, List.dropWhile_cons_of_neg (by simp [this])]
    rfl

theorem strip_start {r t : Str} (h : r <+: t) : strip r = [] ∨ (strip r).head? = (strip t).head? := by
  obtain ⟨u, rfl⟩ := h
  rw [strip_head (r ++ u)]
  by_cases hw : ∀ c ∈ r, isWs c = true
  · left
    rw [strip_nil_iff, white_iff]
    exact hw
  · right
    rw [strip_head]
    push Not at hw
    obtain ⟨c, hc, hcw⟩ := hw
    have hne : r.dropWhile isWs ≠ [] := by
      rw [Ne, List.dropWhile_eq_nil_iff]
      intro hall
      exact hcw (hall c hc)
    rw [List.dropWhile_append]
    cases hd : r.dropWhile isWs with
    | nil => exact absurd hd hne
    | cons x y => simp

theorem isTerm_head (l : Str) : isTerm ['['] false l = decide ((strip l).head? = some '[') := by
  unfold isTerm
  cases h : strip l with
  | nil => simp
  | cons c r =>
    by_cases hc : c = '['
    · simp [hc]
    · simp [List.isPrefixOf, hc, Ne.symm hc]

theorem isSkipped_head (l : Str) :
    isSkipped ';' l = decide (strip l = [] ∨ (strip l).head? = some ';') := by
  unfold isSkipped
  cases h : strip l with
  | nil => simp
  | cons c r => simp

theorem term_start {r t : Str} (h : r <+: t) (ht : isTerm ['['] false t = false) :
    isTerm ['['] false r = false := by
  rw [isTerm_head] at ht ⊢
  rcases strip_start h with e | e
  · rw [e]; rfl
  · rw [e]; exact ht

theorem skipped_start {r t : Str} (h : r <+: t) (ht : isSkipped ';' t = true) :
    isSkipped ';' r = true := by
  rw [isSkipped_head] at ht ⊢
  simp only [decide_eq_true_eq] at ht ⊢
  rcases strip_start h with e | e
  · exact Or.inl e
  · rcases ht with ht | ht
    · left
      rw [ht] at e
      cases hs : strip r with
      | nil => rfl
      | cons c s => rw [hs] at e; simp at e
    · exact Or.inr (e.trans ht)

/-- A value without the white space at its end. -/
theorem rstrip_split (s : Str) : ∃ a b, s = a ++ b ∧ White b ∧ ∀ c r, a = r ++ [c] → ¬ White [c] := by
  refine ⟨(s.reverse.dropWhile isWs).reverse, (s.reverse.takeWhile isWs).reverse, ?_, ?_, ?_⟩
  · rw [← List.reverse_append, List.takeWhile_append_dropWhile, List.reverse_reverse]
  · rw [white_iff]
    intro c hc
    rw [List.mem_reverse] at hc
    exact takeWhile_all hc
  · intro c r e
    have e' : s.reverse.dropWhile isWs = c :: r.reverse := by
      have := congrArg List.reverse e
      simpa using this
    rw [← isWs_iff]
    have := List.head?_dropWhile_not isWs s.reverse
    rw [e'] at this
    simpa using this

theorem white_prefix {a b : Str} (h : a <+: b) (hb : White b) : White a :=
  fun c hc => hb c (h.subset hc)

theorem prefix_append_cases {p a b : Str} (h : p <+: a ++ b) :
    p <+: a ∨ ∃ q, p = a ++ q ∧ q <+: b := by
  obtain ⟨v, hv⟩ := h
  rcases List.append_eq_append_iff.mp hv with ⟨a', h1, _⟩ | ⟨a', h1, h2⟩
  · exact Or.inl ⟨a', h1.symm⟩
  · exact Or.inr ⟨a', h1, ⟨v, h2.symm⟩⟩

theorem other_white {p : Str} (h : White p) (hn : '\n' ∉ p) : (CprLine.other p).Valid := by
  have hs : strip p = [] := (strip_nil_iff p).2 h
  refine ⟨hn, ?_, Or.inl (Or.inl h)⟩
  rw [terminates_iff, isTerm_head, hs]
  decide

/-- What is left of a line. -/
theorem cut_line {x : CprLine} (hv : x.Valid) (hpl : x.Plain) {p : Str} (hp : p <+: x.text)
    {q : List Str} (hq : q = [p] ∨ q = []) :
    ∃ X : List CprLine, (∀ l ∈ X, l.Valid) ∧ X.map CprLine.text = q ∧
      (X.flatMap CprLine.entries = [] ∨ ∃ key value v, x.entries = [(key, value)] ∧ v <+: value ∧
        X.flatMap CprLine.entries = [(key, v)]) := by
  rcases hq with rfl | rfl
  swap
  · exact ⟨[], by simp, rfl, Or.inl rfl⟩
  cases x with
  | other text =>
    have hp' : p <+: text := hp
    refine ⟨[.other p], ?_, rfl, Or.inl rfl⟩
    intro l hl
    rw [List.mem_singleton] at hl
    subst hl
    refine ⟨fun hh => hv.1 (hp'.subset hh), ?_, ?_⟩
    · have := hv.2.1
      rw [terminates_iff, Bool.not_eq_true] at this ⊢
      exact term_start hp' this
    · rcases hpl with hi | hi
      · left
        rw [ignored_iff] at hi ⊢
        exact skipped_start hp' hi
      · right
        rw [List.count_eq_zero_of_not_mem fun hh => hi (hp'.subset hh)]
        decide
  | entry left key value right =>
    have hnt : isTerm ['['] false (CprLine.entry left key value right).text = false := by
      have := valid_not_term hv
      rwa [isTerm_newline] at this
    have hnl : '\n' ∉ p := fun hh => hv.2.2.2.2.2.2 (hp.subset hh)
    have plain : '=' ∉ p → (CprLine.other p).Valid := by
      intro he
      refine ⟨hnl, ?_, Or.inr (by rw [List.count_eq_zero_of_not_mem he]; decide)⟩
      rw [terminates_iff, Bool.not_eq_true]
      exact term_start hp hnt
    have hp' : p <+: left ++ (key ++ '=' :: value ++ right) := by
      have : p <+: left ++ (key ++ '=' :: value) ++ right := hp
      rwa [List.append_assoc] at this
    have hwe : ∀ s : Str, White s → '=' ∉ s := fun s hs hh => by
      have := hs _ hh
      exact absurd this (by decide)
    have single : ∀ l : CprLine, l.Valid → ∀ y ∈ [l], y.Valid := by
      intro l hl y hy
      rw [List.mem_singleton] at hy
      rw [hy]; exact hl
    rcases prefix_append_cases hp' with h1 | ⟨u, rfl, hu⟩
    · exact ⟨[.other p], single _ (plain (hwe _ (white_prefix h1 hv.1))), rfl, Or.inl rfl⟩
    · rw [List.append_assoc] at hu
      rcases prefix_append_cases hu with h2 | ⟨z, rfl, hz⟩
      · refine ⟨[.other (left ++ u)], single _ (plain ?_), rfl, Or.inl rfl⟩
        rw [List.mem_append]
        rintro (hh | hh)
        · exact hwe _ hv.1 hh
        · exact hv.2.2.1 (h2.subset hh)
      · rw [List.cons_append] at hz
        cases z with
        | nil =>
          refine ⟨[.other (left ++ (key ++ []))], single _ (plain ?_), rfl, Or.inl rfl⟩
          rw [List.append_nil, List.mem_append]
          rintro (hh | hh)
          · exact hwe _ hv.1 hh
          · exact hv.2.2.1 hh
        | cons c z =>
          obtain ⟨rfl, hz'⟩ := List.cons_prefix_cons.1 hz
          have fin : ∀ v w : Str, z = v ++ w → v <+: value → White w →
              (∀ c r, v = r ++ [c] → ¬ White [c]) →
              ∃ X : List CprLine, (∀ l ∈ X, l.Valid) ∧
                X.map CprLine.text = [left ++ (key ++ '=' :: z)] ∧
                (X.flatMap CprLine.entries = [] ∨ ∃ k value' v', (CprLine.entry left key value right).entries
                  = [(k, value')] ∧ v' <+: value' ∧ X.flatMap CprLine.entries = [(k, v')]) := by
            intro v w hz hvv hw he
            refine ⟨[.entry left key v w], single _ ?_, ?_, Or.inr ⟨key, value, v, rfl, hvv, rfl⟩⟩
            · refine ⟨hv.1, hw, hv.2.2.1, fun hh => hv.2.2.2.1 (hvv.subset hh), hv.2.2.2.2.1, he, ?_⟩
              intro hh
              refine hnl ?_
              rw [hz]
              simpa using hh
            · simp [CprLine.text, hz]
          rcases prefix_append_cases hz' with h3 | ⟨w, rfl, hw⟩
          · obtain ⟨v, w, e, hw, he⟩ := rstrip_split z
            exact fin v w e (List.IsPrefix.trans ⟨w, e.symm⟩ h3) hw he
          · exact fin value w rfl (List.prefix_refl _) (white_prefix hw hv.2.1) hv.2.2.2.2.2.1

/-- What is left of the groups. -/
theorem cut_lines : ∀ (groups : List CprGroup), (∀ g ∈ groups, g.Valid) →
    (∀ g ∈ groups, ∀ l ∈ g.lines, l.Plain) → ∀ (a : List Str) (l : Str) (b : List Str) (p : Str)
    (q : List Str), cprLines groups = a ++ l :: b → p <+: l → (q = [p] ∨ q = []) →
    (∃ i g s, groups[i]? = some g ∧ a = cprLines (groups.take i) ∧ p = g.left ++ '[' :: s ∧
      s <+: g.name ∧ q = [p]) ∨
    ∃ (pre : List Str) (gs : List CprGroup), (∀ x ∈ pre, Ignored ';' x ∧ '\n' ∉ x) ∧
      (∀ g ∈ gs, g.Valid) ∧ pre ++ cprLines gs = a ++ q ∧
      CutGroups (groups.map fun g => (g.name, g.entries)) (gs.map fun g => (g.name, g.entries)) := by
  intro groups
  induction groups with
  | nil =>
    intro _ _ a l b p q he
    simp [cprLines] at he
  | cons g gs ih =>
    intro hv hpl a l b p q he hp hq
    have hg := hv g (by simp)
    have hflat : cprLines (g :: gs) = g.heading :: (g.lines.map CprLine.text ++ cprLines gs) := by
      simp [cprLines]
    rw [hflat] at he
    cases a with
    | nil =>
      obtain ⟨rfl, rfl⟩ := List.cons.inj he
      rcases hq with rfl | rfl
      swap
      · exact Or.inr ⟨[], [], by simp, by simp, rfl, Or.inl (by simp)⟩
      have hnl : '\n' ∉ p := fun hh => hg.2.2.2.1 (hp.subset hh)
      have hp' : p <+: g.left ++ ('[' :: (g.name ++ ']' :: g.right)) := by
        have : p <+: g.left ++ ('[' :: g.name ++ [']']) ++ g.right := hp
        simpa using this
      rcases prefix_append_cases hp' with h1 | ⟨u, rfl, hu⟩
      · right
        refine ⟨[p], [], ?_, by simp, by simp [cprLines], Or.inl (by simp)⟩
        intro x hx
        rw [List.mem_singleton] at hx
        subst hx
        exact ⟨Or.inl (white_prefix h1 hg.1), hnl⟩
      · cases u with
        | nil =>
          right
          refine ⟨[g.left ++ []], [], ?_, by simp, by simp [cprLines], Or.inl (by simp)⟩
          intro x hx
          rw [List.mem_singleton, List.append_nil] at hx
          subst hx
          rw [List.append_nil] at hnl
          exact ⟨Or.inl hg.1, hnl⟩
        | cons c u =>
          obtain ⟨rfl, hu'⟩ := List.cons_prefix_cons.1 hu
          rcases prefix_append_cases hu' with h2 | ⟨w, rfl, hw⟩
          · exact Or.inl ⟨0, g, u, rfl, by simp [cprLines], rfl, h2, rfl⟩
          · cases w with
            | nil => exact Or.inl ⟨0, g, g.name, rfl, by simp [cprLines], by simp, List.prefix_refl _, rfl⟩
            | cons c w =>
              obtain ⟨rfl, hw'⟩ := List.cons_prefix_cons.1 hw
              right
              have htext : (CprGroup.mk g.left g.name w []).heading =
                  g.left ++ '[' :: (g.name ++ ']' :: w) := by simp [CprGroup.heading]
              refine ⟨[], [⟨g.left, g.name, w, []⟩], by simp, ?_, ?_, ?_⟩
              · intro x hx
                rw [List.mem_singleton] at hx
                subst hx
                exact ⟨hg.1, white_prefix hw' hg.2.1, hg.2.2.1, by rw [htext]; exact hnl, by simp⟩
              · simp [cprLines, htext]
              · refine Or.inr ⟨[], g.name, g.entries, [], ?_, Or.inl List.nil_prefix, ?_⟩
                · simp
                · simp [CprGroup.entries]
    | cons x a =>
      rw [List.cons_append] at he
      obtain ⟨rfl, he'⟩ := List.cons.inj he
      rcases List.append_eq_append_iff.mp he' with ⟨c, h1, h2⟩ | ⟨c, h1, h2⟩
      · -- in a later group
        rcases ih (fun y hy => hv y (List.mem_cons_of_mem _ hy))
          (fun y hy => hpl y (List.mem_cons_of_mem _ hy)) c l b p q h2 hp hq with
          ⟨i, g', s, e1, e2, e3, e4, e5⟩ | ⟨pre, gs', e1, e2, e3, e4⟩
        · left
          refine ⟨i + 1, g', s, by simpa using e1, ?_, e3, e4, e5⟩
          rw [h1, e2, List.take_succ_cons]
          simp [cprLines]
        · right
          refine ⟨[], { g with lines := g.lines ++ pre.map CprLine.other } :: gs', by simp, ?_, ?_, ?_⟩
          · intro y hy
            rcases List.mem_cons.1 hy with rfl | hy
            · refine ⟨hg.1, hg.2.1, hg.2.2.1, hg.2.2.2.1, ?_⟩
              intro z hz
              rcases List.mem_append.1 hz with hz | hz
              · exact hg.2.2.2.2 z hz
              · obtain ⟨t, ht, rfl⟩ := List.mem_map.1 hz
                refine ⟨(e1 t ht).2, ?_, Or.inl (e1 t ht).1⟩
                have := (ignored_iff ';' t).1 (e1 t ht).1
                rw [terminates_iff, isTerm_head]
                rw [isSkipped_head, decide_eq_true_eq] at this
                rcases this with this | this <;> rw [this] <;> simp
            · exact e2 y hy
          · rw [h1, List.nil_append]
            have : cprLines ({ g with lines := g.lines ++ pre.map CprLine.other } :: gs') =
                g.heading :: (g.lines.map CprLine.text ++ (pre ++ cprLines gs')) := by
              simp [cprLines, CprGroup.heading, Function.comp_def, CprLine.text]
            rw [this, e3]
            simp
          · have hent : (CprGroup.mk g.left g.name g.right (g.lines ++ pre.map CprLine.other)).entries =
                g.entries := by
              simp [CprGroup.entries, List.flatMap_append, CprLine.entries, List.flatMap_map]
            rw [List.map_cons, List.map_cons, hent]
            rcases e4 with e4 | ⟨done, name, entries, es, f1, f2, f3⟩
            · left
              exact List.cons_prefix_cons.2 ⟨rfl, e4⟩
            · right
              refine ⟨(g.name, g.entries) :: done, name, entries, es, ?_, f2, ?_⟩
              · exact List.cons_prefix_cons.2 ⟨rfl, f1⟩
              · rw [f3]; rfl
      · -- in this group
        cases c with
        | nil =>
          -- the heading of the next group
          rw [List.append_nil] at h1
          rw [List.nil_append] at h2
          rcases ih (fun y hy => hv y (List.mem_cons_of_mem _ hy))
            (fun y hy => hpl y (List.mem_cons_of_mem _ hy)) [] l b p q (by rw [← h2]; rfl) hp hq with
            ⟨i, g', s, e1, e2, e3, e4, e5⟩ | ⟨pre, gs', e1, e2, e3, e4⟩
          · left
            refine ⟨i + 1, g', s, by simpa using e1, ?_, e3, e4, e5⟩
            rw [← h1, List.take_succ_cons]
            have : cprLines (g :: gs.take i) = g.heading :: (g.lines.map CprLine.text ++
              cprLines (gs.take i)) := by simp [cprLines]
            rw [this, ← e2]
            simp
          · right
            refine ⟨[], { g with lines := g.lines ++ pre.map CprLine.other } :: gs', by simp, ?_, ?_, ?_⟩
            · intro y hy
              rcases List.mem_cons.1 hy with rfl | hy
              · refine ⟨hg.1, hg.2.1, hg.2.2.1, hg.2.2.2.1, ?_⟩
                intro z hz
                rcases List.mem_append.1 hz with hz | hz
                · exact hg.2.2.2.2 z hz
                · obtain ⟨t, ht, rfl⟩ := List.mem_map.1 hz
                  refine ⟨(e1 t ht).2, ?_, Or.inl (e1 t ht).1⟩
                  have := (ignored_iff ';' t).1 (e1 t ht).1
                  rw [terminates_iff, isTerm_head]
                  rw [isSkipped_head, decide_eq_true_eq] at this
                  rcases this with this | this <;> rw [this] <;> simp
              · exact e2 y hy
            · rw [← h1, List.nil_append]
              have : cprLines ({ g with lines := g.lines ++ pre.map CprLine.other } :: gs') =
                  g.heading :: (g.lines.map CprLine.text ++ (pre ++ cprLines gs')) := by
                simp [cprLines, CprGroup.heading, Function.comp_def, CprLine.text]
              rw [this, e3]
              simp
            · have hent : (CprGroup.mk g.left g.name g.right (g.lines ++ pre.map CprLine.other)).entries =
                  g.entries := by
                simp [CprGroup.entries, List.flatMap_append, CprLine.entries, List.flatMap_map]
              rw [List.map_cons, List.map_cons, hent]
              rcases e4 with e4 | ⟨done, name, entries, es, f1, f2, f3⟩
              · left
                exact List.cons_prefix_cons.2 ⟨rfl, e4⟩
              · right
                refine ⟨(g.name, g.entries) :: done, name, entries, es, ?_, f2, ?_⟩
                · exact List.cons_prefix_cons.2 ⟨rfl, f1⟩
                · rw [f3]; rfl
        | cons y c =>
          rw [List.cons_append] at h2
          obtain ⟨rfl, -⟩ := List.cons.inj h2
          obtain ⟨A, C, hA, hAa, hC⟩ := List.map_eq_append_iff.1 h1
          obtain ⟨x, B, rfl, rfl, -⟩ := List.map_eq_cons_iff.1 hC
          have hx : x ∈ g.lines := by rw [hA]; simp
          obtain ⟨X, k1, k2, k3⟩ := cut_line (hg.2.2.2.2 x hx) (hpl g (by simp) x hx) hp hq
          right
          refine ⟨[], [{ g with lines := A ++ X }], by simp, ?_, ?_, ?_⟩
          · intro z hz
            rw [List.mem_singleton] at hz
            subst hz
            refine ⟨hg.1, hg.2.1, hg.2.2.1, hg.2.2.2.1, ?_⟩
            intro w hw
            rcases List.mem_append.1 hw with hw | hw
            · exact hg.2.2.2.2 w (by rw [hA]; simp [hw])
            · exact k1 w hw
          · rw [← hAa, ← k2]
            simp [cprLines, CprGroup.heading]
          · right
            refine ⟨[], g.name, g.entries, A.flatMap CprLine.entries ++ X.flatMap CprLine.entries,
              by simp, ?_, by simp [CprGroup.entries, List.flatMap_append]⟩
            have hge : g.entries = A.flatMap CprLine.entries ++ (x.entries ++ B.flatMap CprLine.entries) := by
              unfold CprGroup.entries
              rw [hA]
              simp [List.flatMap_append]
            rcases k3 with k3 | ⟨key, value, v, k4, k5, k6⟩
            · left
              rw [k3, List.append_nil, hge]
              exact List.prefix_append _ _
            · right
              refine ⟨_, key, value, v, ?_, k5, by rw [k6]⟩
              rw [hge, k4]
              exact (List.prefix_append_right_inj _).2 (by simp)

/-! ### Parsing -/

theorem cprGroups_skip (file : List Str) : ∀ (groups : List CprGroup) (pre rest : List Str)
    (fuel : Nat) (acc : List (Str × List (Str × Str))), (∀ g ∈ groups, g.Valid) →
    file = pre ++ ((cprLines groups).map (fun l => l ++ ['\n']) ++ rest) →
    (∀ l t, rest = l :: t → isTerm ['['] false l = true) →
    cprGroups file (fuel + groups.length) pre.length acc =
      cprGroups file fuel (pre.length + (cprLines groups).length)
        (setAll (groups.map fun g => (g.name, setAll g.entries [])) acc) := by
  intro groups
  induction groups with
  | nil =>
    intro pre rest fuel acc _ _ _
    simp [cprLines, setAll]
  | cons g gs ih =>
    intro pre rest fuel acc hv hf hr
    have hg := hv g (by simp)
    set nl : Str → Str := fun l => l ++ ['\n'] with hnl
    set next := (cprLines gs).map nl ++ rest with hnext
    have hflat : cprLines (g :: gs) = g.heading :: (g.lines.map CprLine.text ++ cprLines gs) := by
      simp [cprLines]
    have hf2 : file = pre ++ nl g.heading :: ((g.lines.map CprLine.text).map nl ++ next) := by
      rw [hf, hflat]; simp [hnext]
    have hat : lineAt file pre.length = some (nl g.heading) := by simp [lineAt, hf2]
    have hf3 : file = (pre ++ [nl g.heading]) ++ ((g.lines.map CprLine.text).map nl ++ next) := by
      rw [hf2]; simp
    have hlen : (pre ++ [nl g.heading]).length = pre.length + 1 := by simp
    obtain ⟨sec, tail, e1, e2, e3, e4⟩ := readUntil_run file ['['] ';' false parseLine
      ((g.lines.map CprLine.text).map nl ++ next) (pre ++ [nl g.heading]) (file.length + 1) []
      hf3 (by rw [hf3]; simp; omega)
    have hbody : ∀ l ∈ (g.lines.map CprLine.text).map nl, (!isTerm ['['] false l) = true := by
      intro l hl
      simp only [List.map_map, List.mem_map, Function.comp] at hl
      obtain ⟨x, hx, rfl⟩ := hl
      rw [valid_not_term (hg.2.2.2.2 x hx)]
      rfl
    have hsec : sec = (g.lines.map CprLine.text).map nl ∧ tail = next := by
      have hd1 : sec = ((g.lines.map CprLine.text).map nl ++ next).takeWhile
          fun l => !isTerm ['['] false l := by
        rw [e1, List.takeWhile_append_of_pos (fun l hl => by simp [e2 l hl])]
        cases tail with
        | nil => simp
        | cons x t => simp [List.takeWhile_cons, e3 x t rfl]
      have hd2 : ((g.lines.map CprLine.text).map nl ++ next).takeWhile
          (fun l => !isTerm ['['] false l) = (g.lines.map CprLine.text).map nl := by
        rw [List.takeWhile_append_of_pos hbody]
        cases gs with
        | nil =>
          cases hrest : rest with
          | nil => simp [hnext, cprLines, hrest]
          | cons l t =>
            have := hr l t hrest
            simp [hnext, cprLines, hrest, List.takeWhile_cons, this]
        | cons g' gs' =>
          have := heading_term (hv g' (by simp))
          simp [hnext, hnl, cprLines, List.takeWhile_cons, this]
      have h3 := hd1.trans hd2
      refine ⟨h3, ?_⟩
      rw [h3] at e1
      exact (List.append_cancel_left e1).symm
    obtain ⟨rfl, rfl⟩ := hsec
    rw [hlen] at e4
    have hdict : groupDict ((((g.lines.map CprLine.text).map nl).filter
        fun l => !isSkipped ';' l).map parseLine) = setAll g.entries [] := by
      unfold groupDict
      rw [groupDict_entries, section_lines hg]
    have ih' := ih ((pre ++ [nl g.heading]) ++ (g.lines.map CprLine.text).map nl) rest fuel
      (strSet g.name (setAll g.entries []) acc) (fun x hx => hv x (List.mem_cons_of_mem _ hx))
      (by simp only [List.append_assoc] at hf3 ⊢; exact hf3) hr
    have hfu : fuel + (g :: gs).length = (fuel + gs.length) + 1 := by simp; omega
    rw [hfu, cprGroups, hat]
    simp only [hnl, heading_not_skipped hg, Bool.false_eq_true, if_false, groupName_heading hg,
      Except.bind]
    simp only [hnl] at e4
    rw [e4]
    simp only [List.nil_append]
    simp only [hnl] at hdict
    rw [hdict]
    have hp : ((pre ++ [nl g.heading]) ++ (g.lines.map CprLine.text).map nl).length =
        pre.length + 1 + ((g.lines.map CprLine.text).map nl).length := by
      simp; omega
    rw [hp] at ih'
    simp only [hnl] at ih'
    rw [ih']
    have hl : pre.length + 1 + ((g.lines.map CprLine.text).map fun l => l ++ ['\n']).length +
        (cprLines gs).length = pre.length + (cprLines (g :: gs)).length := by
      rw [hflat]; simp; omega
    rw [hl]
    simp [setAll]

theorem cutEntries_keys {full es : List (Str × Str)} (h : CutEntries full es) :
    es.map Prod.fst <+: full.map Prod.fst := by
  rcases h with h | ⟨done, key, value, v, h1, -, rfl⟩
  · exact h.map _
  · have := h1.map Prod.fst
    simpa using this

theorem cutGroups_names {full m : List (Str × List (Str × Str))} (h : CutGroups full m) :
    m.map Prod.fst <+: full.map Prod.fst := by
  rcases h with h | ⟨done, name, entries, es, h1, -, rfl⟩
  · exact h.map _
  · have := h1.map Prod.fst
    simpa using this

theorem cutGroups_keys {full m : List (Str × List (Str × Str))} (h : CutGroups full m)
    (hk : ∀ g ∈ full, (g.2.map Prod.fst).Nodup) : ∀ g ∈ m, (g.2.map Prod.fst).Nodup := by
  intro g hg
  rcases h with h | ⟨done, name, entries, es, h1, h2, rfl⟩
  · exact hk g (h.subset hg)
  · rcases List.mem_append.1 hg with hg | hg
    · exact hk g (h1.subset (by simp [hg]))
    · rw [List.mem_singleton] at hg
      subst hg
      have := hk (name, entries) (h1.subset (by simp))
      exact this.sublist (cutEntries_keys h2).sublist

theorem prefix_nodup {α : Type} {a b : List α} (h : a <+: b) (hb : b.Nodup) : a.Nodup :=
  hb.sublist h.sublist

theorem cprText_eq (intro : List Str) (groups : List CprGroup) :
    cprText intro groups = ((intro ++ cprLines groups).map fun l => l ++ ['\n']).flatten := rfl

theorem cprLines_plain {groups : List CprGroup} (hg : ∀ g ∈ groups, g.Valid) :
    ∀ l ∈ cprLines groups, '\n' ∉ l := by
  intro l hl
  obtain ⟨g, hgm, hl⟩ := List.mem_flatMap.1 hl
  rcases List.mem_cons.1 hl with rfl | hl
  · exact (hg g hgm).2.2.2.1
  · obtain ⟨x, hx, rfl⟩ := List.mem_map.1 hl
    have := (hg g hgm).2.2.2.2 x hx
    cases x with
    | entry a b c d => exact this.2.2.2.2.2.2
    | other t => exact this.1

/-- The lines of a text that is cut off, with the last line break put in. -/
theorem cut_strip {a : List Str} {p l : Str} (ha : ∀ x ∈ a, '\n' ∉ x) (hp : p <+: l) (hl : '\n' ∉ l) :
    ∃ q, (q = [p] ∨ q = []) ∧ (p ≠ [] → q = [p]) ∧
      (linesOf ((a.map fun l => l ++ ['\n']).flatten ++ p)).map strip =
        ((a ++ q).map fun l => l ++ ['\n']).map strip := by
  rw [linesOf_lines ha]
  rcases linesOf_short hp hl with ⟨e1, e2⟩ | e
  · exact ⟨[], Or.inr rfl, fun h => absurd e1 h, by rw [e2]; simp⟩
  · refine ⟨[p], Or.inl rfl, fun _ => rfl, ?_⟩
    rw [e]
    simp [strip_newline]

/-- The cut text ends within the heading of a group. -/
def Spec.EndsInHeading (intro : List Str) (groups : List CprGroup) (text : Str) : Prop :=
  ∃ i g s, groups[i]? = some g ∧ s <+: g.name ∧
    text = cprText intro (groups.take i) ++ (g.left ++ '[' :: s)

theorem heading_cut_error {intro : List Str} {groups : List CprGroup}
    (hi : ∀ l ∈ intro, Ignored ';' l ∧ '\n' ∉ l) (hg : ∀ g ∈ groups, g.Valid)
    {g : CprGroup} (hgv : g.Valid) (hb : ']' ∉ g.name) {s : Str} (hs : s <+: g.name) :
    parseCpr (cprText intro groups ++ (g.left ++ '[' :: s)) = .error .attributeError := by
  set p := g.left ++ '[' :: s with hp
  have hpl : p <+: g.heading := by
    obtain ⟨u, hu⟩ := hs
    refine ⟨u ++ ']' :: g.right, ?_⟩
    simp [CprGroup.heading, hp, ← hu]
  have hnl : ∀ x ∈ intro ++ cprLines groups, '\n' ∉ x := by
    intro x hx
    rcases List.mem_append.1 hx with hx | hx
    · exact (hi x hx).2
    · exact cprLines_plain hg x hx
  obtain ⟨q, -, hq, hstrip⟩ := cut_strip hnl hpl hgv.2.2.2.1
  have hq := hq (by simp [hp])
  subst hq
  have hlen : (linesOf (cprText intro groups ++ p)).length = (intro ++ cprLines groups).length + 1 := by
    have := congrArg List.length hstrip
    rw [← cprText_eq] at this
    simp at this ⊢
    omega
  unfold parseCpr
  simp only
  rw [← cprText_eq] at hstrip
  rw [cprGroups_strip hstrip, hlen]
  set file := ((intro ++ cprLines groups) ++ [p]).map fun l => l ++ ['\n'] with hfile
  have hterm : isTerm ['['] false (p ++ ['\n']) = true := by
    rw [isTerm_newline, isTerm_head, strip_head]
    have : p.dropWhile isWs = '[' :: s := by
      rw [hp, dropWhile_ws ((white_iff _).1 hgv.1)]
      exact List.dropWhile_cons_of_neg (by decide)
    rw [this]
    simp
  have hgl : groups.length ≤ (cprLines groups).length := by
    clear hstrip hlen hfile hnl hg
    induction groups with
    | nil => simp
    | cons a t ih => simp [cprLines] at ih ⊢; omega
  obtain ⟨k, hk⟩ : ∃ k, (intro ++ cprLines groups).length + 1 + 1 = (k + 1 + groups.length) + intro.length := by
    refine ⟨(cprLines groups).length - groups.length + 1, ?_⟩
    rw [List.length_append]
    omega
  rw [hk]
  have s1 := cprGroups_intro file intro ((cprLines groups ++ [p]).map fun l => l ++ ['\n']) []
    (k + 1 + groups.length) [] (fun l hl => (hi l hl).1) (by rw [hfile]; simp)
  rw [show ([] : List Str).length = 0 from rfl] at s1
  rw [s1]
  have s2 := cprGroups_skip file groups (intro.map fun l => l ++ ['\n']) [p ++ ['\n']] (k + 1) [] hg
    (by rw [hfile]; simp) (by
      intro l t e
      simp only [List.cons.injEq] at e
      rw [← e.1]; exact hterm)
  have hil : (intro.map fun l => l ++ ['\n']).length = 0 + intro.length := by simp
  rw [hil] at s2
  rw [s2]
  have hat : lineAt file (0 + intro.length + (cprLines groups).length) = some (p ++ ['\n']) := by
    rw [hfile, lineAt, List.getElem?_map]
    have : (intro ++ cprLines groups ++ [p])[0 + intro.length + (cprLines groups).length]? = some p := by
      rw [List.getElem?_append_right (by simp)]
      simp
    rw [this]
    rfl
  rw [cprGroups, hat]
  have hh : (strip (p ++ ['\n'])).head? = some '[' := by
    rw [isTerm_head] at hterm
    exact of_decide_eq_true hterm
  have hsk : isSkipped ';' (p ++ ['\n']) = false := by
    rw [isSkipped_head]
    rw [hh]
    simp
    intro e
    rw [e] at hh
    simp at hh
  have hgn : groupName (p ++ ['\n']) = .error .attributeError := by
    have hsub : ∀ c ∈ strip (p ++ ['\n']), c ∈ p ++ ['\n'] := by
      obtain ⟨a, b, e, -⟩ := strip_spec (p ++ ['\n'])
      intro c hc
      rw [e]
      simp [hc]
    have hnb : ']' ∉ p ++ ['\n'] := by
      rw [hp]
      simp only [List.mem_append, List.mem_cons, List.not_mem_nil, or_false, not_or]
      refine ⟨⟨fun h => ?_, by decide, fun h => hb (hs.subset h)⟩, by decide⟩
      exact absurd (hgv.1 _ h) (by decide)
    have hbl : ∀ t : Str, ']' ∉ t → beforeLast t = none := by
      intro t
      induction t with
      | nil => intro _; rfl
      | cons c t ih =>
        intro h
        rw [beforeLast, ih fun hh => h (List.mem_cons_of_mem _ hh)]
        simp only
        rw [if_neg]
        intro e
        exact h (by simp [e])
    unfold groupName
    cases hst : strip (p ++ ['\n']) with
    | nil => rfl
    | cons c t =>
      rw [hst] at hh
      simp only [List.head?_cons, Option.some.injEq] at hh
      subst hh
      simp only
      rw [hbl t fun h => hnb (hsub _ (by rw [hst]; exact List.mem_cons_of_mem _ h))]
  simp only [hsk, hgn, Bool.false_eq_true, if_false, Except.bind]

/-- **C146**: reading the start of a CPR file gives the first groups as they are, then at most one group
of which the end is missing, and in that one at most one value of which the end is missing. It fails
exactly if the file ends within the heading of a group. -/
theorem C146_cut (intro : List Str) (groups : List CprGroup)
    (hi : ∀ l ∈ intro, Ignored ';' l ∧ '\n' ∉ l) (hg : ∀ g ∈ groups, g.Valid)
    (hk : ∀ g ∈ groups, (g.entries.map Prod.fst).Nodup) (hd : (groups.map fun g => g.name).Nodup)
    (hpl : ∀ g ∈ groups, ∀ l ∈ g.lines, l.Plain) (hb : ∀ g ∈ groups, ']' ∉ g.name)
    (text : Str) (ht : text <+: cprText intro groups) :
    (EndsInHeading intro groups text ∧ parseCpr text = .error .attributeError) ∨
    (¬ EndsInHeading intro groups text ∧ ∃ m, parseCpr text = .ok m ∧
      CutGroups (groups.map fun g => (g.name, g.entries)) m) := by
  by_cases hE : EndsInHeading intro groups text
  · left
    refine ⟨hE, ?_⟩
    obtain ⟨i, g, s, h1, h2, rfl⟩ := hE
    have hgm : g ∈ groups := List.mem_of_getElem? h1
    exact heading_cut_error hi (fun x hx => hg x (List.mem_of_mem_take hx)) (hg g hgm) (hb g hgm) h2
  · right
    refine ⟨hE, ?_⟩
    have fin : ∀ (pre : List Str) (gs : List CprGroup), (∀ x ∈ pre, Ignored ';' x ∧ '\n' ∉ x) →
        (∀ g ∈ gs, g.Valid) →
        CutGroups (groups.map fun g => (g.name, g.entries)) (gs.map fun g => (g.name, g.entries)) →
        (linesOf text).map strip = ((pre ++ cprLines gs).map fun l => l ++ ['\n']).map strip →
        ∃ m, parseCpr text = .ok m ∧ CutGroups (groups.map fun g => (g.name, g.entries)) m := by
      intro pre gs h1 h2 h3 h4
      refine ⟨_, ?_, h3⟩
      have h5 : linesOf (cprText pre gs) = (pre ++ cprLines gs).map fun l => l ++ ['\n'] := by
        rw [cprText_eq]
        apply linesOf_flatten
        intro x hx
        rcases List.mem_append.1 hx with hx | hx
        · exact (h1 x hx).2
        · exact cprLines_plain h2 x hx
      rw [parseCpr_strip (t' := cprText pre gs) (by rw [h5]; exact h4)]
      refine C67_parse pre gs h1 h2 ?_ ?_
      · intro g hgm
        exact cutGroups_keys h3 (by
          intro x hx
          obtain ⟨y, hy, rfl⟩ := List.mem_map.1 hx
          exact hk y hy) (g.name, g.entries) (List.mem_map.2 ⟨g, hgm, rfl⟩)
      · have := cutGroups_names h3
        simp only [List.map_map, Function.comp_def] at this
        exact prefix_nodup this hd
    rw [cprText_eq] at ht
    obtain ⟨a, p, e, h⟩ := cut_text _ _ ht
    have hnl : ∀ x ∈ intro ++ cprLines groups, '\n' ∉ x := by
      intro x hx
      rcases List.mem_append.1 hx with hx | hx
      · exact (hi x hx).2
      · exact cprLines_plain hg x hx
    rcases h with ⟨rfl, rfl⟩ | ⟨l, b, hab, hp⟩
    · refine fin intro groups hi hg (Or.inl (List.prefix_refl _)) ?_
      rw [e, List.append_nil, linesOf_flatten hnl]
    · have ha : ∀ x ∈ a, '\n' ∉ x := fun x hx => hnl x (by rw [hab]; simp [hx])
      have hl : '\n' ∉ l := hnl l (by rw [hab]; simp)
      obtain ⟨q, hq, -, hstrip⟩ := cut_strip ha hp hl
      rw [← e] at hstrip
      have inIntro : ∀ b' : List Str, intro = a ++ l :: b' → ∃ m, parseCpr text = .ok m ∧
          CutGroups (groups.map fun g => (g.name, g.entries)) m := by
        intro b' hb'
        refine fin (a ++ q) [] ?_ (by simp) (Or.inl (by simp)) (by rw [hstrip]; simp [cprLines])
        intro x hx
        rcases List.mem_append.1 hx with hx | hx
        · exact hi x (by rw [hb']; simp [hx])
        · have hlm := hi l (by rw [hb']; simp)
          rcases hq with rfl | rfl
          · rw [List.mem_singleton] at hx
            subst hx
            refine ⟨?_, fun hh => hl (hp.subset hh)⟩
            rw [ignored_iff]
            exact skipped_start hp ((ignored_iff _ _).1 hlm.1)
          · exact absurd hx (by simp)
      have inGroups : ∀ c : List Str, a = intro ++ c → cprLines groups = c ++ l :: b →
          ∃ m, parseCpr text = .ok m ∧ CutGroups (groups.map fun g => (g.name, g.entries)) m := by
        intro c hc hf
        rcases cut_lines groups hg hpl c l b p q hf hp hq with
          ⟨i, g, s, e1, e2, e3, e4, -⟩ | ⟨pre, gs, e1, e2, e3, e4⟩
        · refine absurd ⟨i, g, s, e1, e4, ?_⟩ hE
          rw [e, hc, e2, e3, cprText_eq]
        · refine fin (intro ++ pre) gs ?_ e2 e4 ?_
          · intro x hx
            rcases List.mem_append.1 hx with hx | hx
            · exact hi x hx
            · exact e1 x hx
          · rw [hstrip, List.append_assoc, e3, hc, List.append_assoc]
      rcases List.append_eq_append_iff.mp hab with ⟨c, h1, h2⟩ | ⟨c, h1, h2⟩
      · exact inGroups c h1 h2
      · cases c with
        | nil =>
          rw [List.append_nil] at h1
          exact inGroups [] (by rw [h1, List.append_nil]) (by simpa using h2.symm)
        | cons y c =>
          rw [List.cons_append] at h2
          obtain ⟨rfl, -⟩ := List.cons.inj h2
          exact inIntro c h1


/-! ### What the loader needs -/

theorem strGet_mem {α : Type} {d : List (Str × α)} {key : Str} {v : α} (h : strGet d key = .ok v) :
    (key, v) ∈ d := by
  unfold strGet at h
  cases e : d.find? fun kv => decide (kv.1 = key) with
  | none => rw [e] at h; simp at h
  | some kv =>
    rw [e] at h
    simp only [Except.ok.injEq] at h
    have h1 := List.find?_some e
    have h2 := List.mem_of_find?_eq_some e
    obtain ⟨k, w⟩ := kv
    simp only [decide_eq_true_eq] at h1 h
    subst h1 h
    exact h2

theorem strGet_append_ne {α : Type} (d : List (Str × α)) {key name : Str} (v : α) (h : key ≠ name) :
    strGet (d ++ [(name, v)]) key = strGet d key := by
  unfold strGet
  rw [List.find?_append]
  cases d.find? fun kv => decide (kv.1 = key) with
  | some kv => rfl
  | none => simp [Ne.symm h]

theorem strGet_append_new {α : Type} {d : List (Str × α)} {name : Str} (v : α)
    (h : name ∉ d.map Prod.fst) : strGet (d ++ [(name, v)]) name = .ok v := by
  unfold strGet
  rw [List.find?_append]
  have : (d.find? fun kv => decide (kv.1 = name)) = none := by
    rw [List.find?_eq_none]
    intro kv hkv e
    exact h (List.mem_map.2 ⟨kv, hkv, by simpa using e⟩)
  rw [this]
  simp

theorem strGet_prefix {α : Type} {d : List (Str × α)} (t : List (Str × α)) {key : Str}
    (h : key ∈ d.map Prod.fst) : strGet (d ++ t) key = strGet d key := by
  unfold strGet
  rw [List.find?_append]
  cases e : d.find? fun kv => decide (kv.1 = key) with
  | some kv => rfl
  | none =>
    rw [List.find?_eq_none] at e
    obtain ⟨kv, h1, h2⟩ := List.mem_map.1 h
    exact absurd (by simpa using h2) (e kv h1)

theorem strGet_none {α : Type} {d : List (Str × α)} {key : Str}
    (h : key ∉ d.map Prod.fst) : strGet d key = .error .keyError := by
  unfold strGet
  have : (d.find? fun kv => decide (kv.1 = key)) = none := by
    rw [List.find?_eq_none]
    intro kv hkv e
    exact h (List.mem_map.2 ⟨kv, hkv, by simpa using e⟩)
  rw [this]

theorem except_ok_bind {α β : Type} (a : α) (f : α → Except Err β) : (Except.ok a).bind f = f a := rfl

theorem loadCpr_iff (text : Str) (r : CprData) : loadCpr text = .ok r ↔
    ∃ m job acq ph n, parseCpr text = .ok m ∧ strGet m (lit "Job") = .ok job ∧
      intAt job "xCells" = .ok r.cols ∧ intAt job "yCells" = .ok r.rows ∧
      floatAt job "GridDistX" = .ok r.step ∧ strGet m (lit "Acquisition Surface") = .ok acq ∧
      floatAt acq "Euler1" = .ok r.acquisition.1 ∧ floatAt acq "Euler2" = .ok r.acquisition.2.1 ∧
      floatAt acq "Euler3" = .ok r.acquisition.2.2 ∧ strGet m (lit "Phases") = .ok ph ∧
      intAt ph "Count" = .ok n ∧
      ((List.range n.toNat).mapM fun (i : Nat) =>
        (strGet m (numbered "Phase" (i + 1))).bind cprPhase) = .ok r.phases ∧
      edxWindows m = .ok r.windows ∧ fieldFormat r.windows m = .ok r.format ∧
      (r.format.map fun f => f.1).Nodup := by
  constructor
  · intro h
    unfold loadCpr at h
    obtain ⟨m, h1, h⟩ := except_bind_ok h
    obtain ⟨job, h2, h⟩ := except_bind_ok h
    obtain ⟨x, h3, h⟩ := except_bind_ok h
    obtain ⟨y, h4, h⟩ := except_bind_ok h
    obtain ⟨st, h5, h⟩ := except_bind_ok h
    obtain ⟨acq, h6, h⟩ := except_bind_ok h
    obtain ⟨e1, h7, h⟩ := except_bind_ok h
    obtain ⟨e2, h8, h⟩ := except_bind_ok h
    obtain ⟨e3, h9, h⟩ := except_bind_ok h
    obtain ⟨ph, h10, h⟩ := except_bind_ok h
    obtain ⟨n, h11, h⟩ := except_bind_ok h
    obtain ⟨phs, h12, h⟩ := except_bind_ok h
    obtain ⟨ws, h13, h⟩ := except_bind_ok h
    obtain ⟨fmt, h14, h⟩ := except_bind_ok h
    obtain ⟨dt, h15, h⟩ := except_bind_ok h
    unfold makeDtype at h15
    split at h15
    · simp only [Except.ok.injEq] at h h15
      subst h h15
      exact ⟨m, job, acq, ph, n, h1, h2, h3, h4, h5, h6, h7, h8, h9, h10, h11, h12, h13, h14,
        by assumption⟩
    · simp at h15
  · rintro ⟨m, job, acq, ph, n, h1, h2, h3, h4, h5, h6, h7, h8, h9, h10, h11, h12, h13, h14, h15⟩
    unfold loadCpr
    simp only [h1, h2, h3, h4, h5, h6, h7, h8, h9, h10, h11, h12, h13, h14, except_ok_bind, makeDtype,
      if_pos h15]

theorem mapM_length_ok {α β : Type} {f : α → Except Err β} : ∀ {l : List α} {r : List β},
    l.mapM f = .ok r → r.length = l.length := by
  intro l
  induction l with
  | nil => intro r h; rw [List.mapM_nil] at h; cases h; rfl
  | cons a l ih =>
    intro r h
    rw [List.mapM_cons] at h
    obtain ⟨y, hy, h⟩ := except_bind_ok h
    obtain ⟨z, hz, h⟩ := except_bind_ok h
    cases h
    simp [ih hz]

/-- **C146**: a start of a CPR file that loads includes the line of the heading of each group that is
needed, if not the end of that line: the job, the acquisition surface, the phases, each of the phases
returned and the fields. -/
theorem C146_needed (intro : List Str) (groups : List CprGroup)
    (hi : ∀ l ∈ intro, Ignored ';' l ∧ '\n' ∉ l) (hg : ∀ g ∈ groups, g.Valid)
    (hk : ∀ g ∈ groups, (g.entries.map Prod.fst).Nodup) (hd : (groups.map fun g => g.name).Nodup)
    (hpl : ∀ g ∈ groups, ∀ l ∈ g.lines, l.Plain) (hb : ∀ g ∈ groups, ']' ∉ g.name)
    (text : Str) (ht : text <+: cprText intro groups) (r : CprData) (hr : loadCpr text = .ok r)
    (name : Str) (hn : name = lit "Job" ∨ name = lit "Acquisition Surface" ∨ name = lit "Phases" ∨
      name = lit "Fields" ∨ ∃ i, 1 ≤ i ∧ i ≤ r.phases.length ∧ name = lit "Phase" ++ natStr i) :
    ∃ i g, groups[i]? = some g ∧ g.name = name ∧ ¬ text <+: cprText intro (groups.take i) := by
  obtain ⟨m, job, acq, ph, n, h1, h2, -, -, -, h6, -, -, -, h10, -, h12, -, h14, -⟩ :=
    (loadCpr_iff text r).1 hr
  have hm : name ∈ m.map Prod.fst := by
    have key : ∀ {v : List (Str × Str)}, strGet m name = .ok v → name ∈ m.map Prod.fst :=
      fun {v} h => List.mem_map.2 ⟨_, strGet_mem h, rfl⟩
    rcases hn with rfl | rfl | rfl | rfl | ⟨i, hi1, hi2, rfl⟩
    · exact key h2
    · exact key h6
    · exact key h10
    · cases e : strGet m (lit "Fields") with
      | ok v => exact key e
      | error x =>
        unfold fieldFormat at h14
        rw [e] at h14
        simp [Except.bind, unknownField] at h14
    · have hlen := mapM_length_ok h12
      rw [List.length_range] at hlen
      obtain ⟨y, hy⟩ := mapM_each_ok h12 (i - 1) (List.mem_range.2 (by omega))
      obtain ⟨v, hv, -⟩ := except_bind_ok hy
      rw [Nat.sub_add_cancel hi1] at hv
      exact key hv
  -- the group is one of those of the file
  have sub : ∀ gs : List CprGroup, gs <+: groups → text <+: cprText intro gs →
      name ∈ gs.map fun g => g.name := by
    intro gs hgs htg
    have hs := hgs.subset
    rcases C146_cut intro gs hi (fun g h => hg g (hs h)) (fun g h => hk g (hs h))
      (prefix_nodup (hgs.map _) hd) (fun g h => hpl g (hs h)) (fun g h => hb g (hs h)) text htg with
      ⟨-, he⟩ | ⟨-, m', he, hc⟩
    · rw [h1] at he; simp at he
    · rw [h1] at he
      obtain rfl := Except.ok.inj he
      have := (cutGroups_names hc).subset hm
      simpa [List.map_map, Function.comp_def] using this
  have hmem := sub groups (List.prefix_refl _) ht
  obtain ⟨g, hgm, hgn⟩ := List.mem_map.1 hmem
  obtain ⟨i, hlt, hgi⟩ := List.getElem_of_mem hgm
  refine ⟨i, g, by rw [List.getElem?_eq_getElem hlt, hgi], hgn, fun hc => ?_⟩
  have h' := sub (groups.take i) (List.take_prefix i groups) hc
  obtain ⟨g', hgm', hgn'⟩ := List.mem_map.1 h'
  obtain ⟨j, hlt', hgj⟩ := List.getElem_of_mem hgm'
  rw [List.length_take] at hlt'
  rw [List.getElem_take] at hgj
  have hij : j = i := by
    have := (List.Nodup.getElem_inj_iff hd (i := j) (j := i) (hi := by rw [List.length_map]; omega)
      (hj := by rw [List.length_map]; omega)).1
    apply this
    simp only [List.getElem_map]
    rw [hgj, hgi, hgn, hgn']
  omega


/-! ### Files that are loaded though their end is missing -/

theorem cprText_lines_cut (intro : List Str) (gs : List CprGroup) (g : CprGroup) (ls rest : List CprLine)
    (h : g.lines = ls ++ rest) :
    cprText intro (gs ++ [{ g with lines := ls }]) <+: cprText intro (gs ++ [g]) := by
  refine ⟨((rest.map CprLine.text).map fun l => l ++ ['\n']).flatten, ?_⟩
  simp [cprText, CprGroup.heading, h]

theorem cut_group_valid {g : CprGroup} (hg : g.Valid) {ls rest : List CprLine}
    (h : g.lines = ls ++ rest) : ({ g with lines := ls } : CprGroup).Valid := by
  obtain ⟨a, b, c, d, e⟩ := hg
  exact ⟨a, b, c, d, fun l hl => e l (by rw [h]; exact List.mem_append_left _ hl)⟩

/-- Parsing before and after lines are taken from the last group. -/
theorem parse_last (intro : List Str) (gs : List CprGroup) (g : CprGroup)
    (hi : ∀ l ∈ intro, Ignored ';' l ∧ '\n' ∉ l) (hg : ∀ x ∈ gs ++ [g], x.Valid)
    (hk : ∀ x ∈ gs ++ [g], (x.entries.map Prod.fst).Nodup)
    (hd : ((gs ++ [g]).map fun x => x.name).Nodup) :
    parseCpr (cprText intro (gs ++ [g])) =
      .ok ((gs.map fun x => (x.name, x.entries)) ++ [(g.name, g.entries)]) := by
  rw [C67_parse intro _ hi hg hk hd]
  simp

theorem parse_last_cut (intro : List Str) (gs : List CprGroup) (g : CprGroup)
    (hi : ∀ l ∈ intro, Ignored ';' l ∧ '\n' ∉ l) (hg : ∀ x ∈ gs ++ [g], x.Valid)
    (hk : ∀ x ∈ gs ++ [g], (x.entries.map Prod.fst).Nodup)
    (hd : ((gs ++ [g]).map fun x => x.name).Nodup) (ls rest : List CprLine)
    (h : g.lines = ls ++ rest) :
    parseCpr (cprText intro (gs ++ [{ g with lines := ls }])) =
      .ok ((gs.map fun x => (x.name, x.entries)) ++ [(g.name, ls.flatMap CprLine.entries)]) := by
  rw [parse_last intro gs { g with lines := ls } hi]
  · rfl
  · intro x hx
    rcases List.mem_append.1 hx with hx | hx
    · exact hg x (List.mem_append_left _ hx)
    · rw [List.mem_singleton] at hx
      subst hx
      exact cut_group_valid (hg g (by simp)) h
  · intro x hx
    rcases List.mem_append.1 hx with hx | hx
    · exact hk x (List.mem_append_left _ hx)
    · rw [List.mem_singleton] at hx
      subst hx
      have := hk g (by simp)
      rw [CprGroup.entries, h, List.flatMap_append, List.map_append] at this
      exact (List.nodup_append.1 this).1
  · simpa using hd

theorem fieldLoop_cut (ws : List Str) (f : List (Str × Str)) : ∀ (n i : Nat) (last : Option Int)
    (fmt out : List (Str × FieldType)), fieldLoop ws f n i last fmt = .ok out →
    lit "unknown_1" ∉ out.map Prod.fst →
    ∃ fs, fs.length = n ∧ out = fmt ++ fs ∧
      ∀ (f' : List (Str × Str)) (k : Nat), (0 < k ∨ last ≠ none) → k < n →
        (∀ j, j < k → strGet f' (numbered "Field" (i + j + 1)) = strGet f (numbered "Field" (i + j + 1))) →
        strGet f' (numbered "Field" (i + k + 1)) = .error .keyError →
        fieldLoop ws f' n i last fmt = .ok (fmt ++ fs.take k ++ [(lit "unknown_1", .float32)]) := by
  intro n
  induction n with
  | zero =>
    intro i last fmt out h _
    simp only [fieldLoop, Except.ok.injEq] at h
    exact ⟨[], rfl, by simp [h], fun _ k _ hk => absurd hk (by omega)⟩
  | succ n ih =>
    intro i last fmt out h hu
    rw [fieldLoop] at h
    have nounk : ∀ l, unknownField l fmt ≠ .ok out := by
      intro l e
      cases l with
      | none => simp [unknownField] at e
      | some z =>
        simp only [unknownField, Except.ok.injEq] at e
        exact hu (by rw [← e]; simp)
    cases e : strGet f (numbered "Field" (i + 1)) with
    | error x => rw [e] at h; exact absurd h (nounk _)
    | ok s =>
      rw [e] at h
      obtain ⟨id, hid, h⟩ := except_bind_ok h
      cases ef : fieldOf ws id with
      | none => rw [ef] at h; exact absurd h (nounk _)
      | some fl =>
        rw [ef] at h
        obtain ⟨fs, h1, h2, h3⟩ := ih _ _ _ _ h hu
        refine ⟨fl :: fs, by simp [h1], by rw [h2]; simp, ?_⟩
        intro f' k hk hkn hsame hmiss
        rw [fieldLoop]
        cases k with
        | zero =>
          rw [Nat.add_zero] at hmiss
          rw [hmiss]
          cases last with
          | none => simp at hk
          | some z => simp [unknownField]
        | succ k =>
          have h0 := hsame 0 (by omega)
          rw [Nat.add_zero, e] at h0
          rw [h0]
          simp only [hid, ef, except_ok_bind]
          rw [h3 f' k (Or.inr (by simp)) (by omega)
            (fun j hj => by
              have := hsame (j + 1) (by omega)
              rw [show i + 1 + j + 1 = i + (j + 1) + 1 by omega]
              exact this)
            (by rw [show i + 1 + k + 1 = i + (k + 1) + 1 by omega]; exact hmiss)]
          simp

theorem numbered_ne {key : String} {n : Nat} {name : Str} (h : ∀ c ∈ name.getLast?, isDig c = false) :
    numbered key n ≠ name := by
  intro e
  have h1 := natStr_ne n
  have hl : ∃ c ∈ name.getLast?, isDig c = true := by
    refine ⟨(natStr n).getLast h1, ?_, natStr_digits n _ (List.getLast_mem h1)⟩
    rw [← e, numbered, List.getLast?_append, List.getLast?_eq_some_getLast h1]
    simp
  obtain ⟨c, hc, hd⟩ := hl
  rw [h c hc] at hd
  exact absurd hd (by decide)

theorem natStr_inj {a b : Nat} (h : natStr a = natStr b) : a = b := by
  rw [← readNat_natStr a, h, readNat_natStr]

/-- **C146** False of a file whose last group is the list of fields: without the last of its lines,
but at least one of the fields, it is loaded; a field `unknown_1` stands for those that are missing. -/
theorem C146_fields (intro : List Str) (gs : List CprGroup) (g : CprGroup)
    (hi : ∀ l ∈ intro, Ignored ';' l ∧ '\n' ∉ l) (hg : ∀ x ∈ gs ++ [g], x.Valid)
    (hk : ∀ x ∈ gs ++ [g], (x.entries.map Prod.fst).Nodup)
    (hd : ((gs ++ [g]).map fun x => x.name).Nodup) (hname : g.name = lit "Fields")
    (r : CprData) (hr : loadCpr (cprText intro (gs ++ [g])) = .ok r)
    (hall : lit "unknown_1" ∉ r.format.map Prod.fst)
    (ls rest : List CprLine) (hl : g.lines = ls ++ rest) (k : Nat) (hk1 : 1 ≤ k)
    (hkn : k + 1 < r.format.length)
    (hcount : lit "Count" ∈ (ls.flatMap CprLine.entries).map Prod.fst)
    (hin : ∀ j, 1 ≤ j → j ≤ k → lit "Field" ++ natStr j ∈ (ls.flatMap CprLine.entries).map Prod.fst)
    (hout : lit "Field" ++ natStr (k + 1) ∉ (ls.flatMap CprLine.entries).map Prod.fst) :
    cprText intro (gs ++ [{ g with lines := ls }]) <+: cprText intro (gs ++ [g]) ∧
    loadCpr (cprText intro (gs ++ [{ g with lines := ls }])) =
      .ok { r with format := r.format.take (k + 1) ++ [(lit "unknown_1", .float32)] } := by
  refine ⟨cprText_lines_cut intro gs g ls rest hl, ?_⟩
  obtain ⟨m, job, acq, ph, n, h1, h2, h3, h4, h5, h6, h7, h8, h9, h10, h11, h12, h13, h14, h15⟩ :=
    (loadCpr_iff _ r).1 hr
  rw [parse_last intro gs g hi hg hk hd, hname] at h1
  obtain rfl := (Except.ok.inj h1).symm
  set base := gs.map fun x => (x.name, x.entries) with hbase
  have hnew : lit "Fields" ∉ base.map Prod.fst := by
    rw [List.map_append, List.nodup_append] at hd
    intro h
    refine hd.2.2 (lit "Fields") ?_ (lit "Fields") (by simp [hname]) rfl
    simpa [hbase, List.map_map, Function.comp_def] using h
  have same : ∀ (key : Str) (es es' : List (Str × Str)), key ≠ lit "Fields" →
      strGet (base ++ [(lit "Fields", es)]) key = strGet (base ++ [(lit "Fields", es')]) key := by
    intro key es es' hne
    rw [strGet_append_ne _ _ hne, strGet_append_ne _ _ hne]
  have hent : g.entries = ls.flatMap CprLine.entries ++ rest.flatMap CprLine.entries := by
    rw [CprGroup.entries, hl, List.flatMap_append]
  have hfmt : fieldFormat r.windows (base ++ [(lit "Fields", ls.flatMap CprLine.entries)]) =
        .ok (r.format.take (k + 1) ++ [(lit "unknown_1", .float32)]) ∧
      ((r.format.take (k + 1) ++ [(lit "unknown_1", FieldType.float32)]).map fun f => f.1).Nodup := by
    constructor
    · unfold fieldFormat at h14 ⊢
      rw [strGet_append_new _ hnew] at h14 ⊢
      simp only [except_ok_bind] at h14 ⊢
      have hc : strGet g.entries (lit "Count") = strGet (ls.flatMap CprLine.entries) (lit "Count") := by
        rw [hent, strGet_prefix _ hcount]
      rw [hc] at h14
      cases e : strGet (ls.flatMap CprLine.entries) (lit "Count") with
      | error x => rw [e] at h14; simp [unknownField] at h14
      | ok sc =>
        rw [e] at h14
        simp only at h14 ⊢
        obtain ⟨z, hz, h14⟩ := except_bind_ok h14
        obtain ⟨fs, f1, f2, f3⟩ := fieldLoop_cut _ _ _ _ _ _ _ h14 hall
        rw [hz, except_ok_bind, f3 _ k (Or.inl hk1) (by rw [f2] at hkn; simp at hkn; omega)
          (fun j hj => by
            rw [Nat.zero_add, hent, strGet_prefix]
            exact hin (j + 1) (by omega) (by omega))
          (by
            rw [Nat.zero_add]
            exact strGet_none hout)]
        rw [f2]
        simp
    · rw [List.map_append, List.nodup_append]
      refine ⟨((List.take_sublist (k + 1) r.format).map _).nodup h15, by simp, ?_⟩
      intro a ha b hb e
      simp only [List.map_cons, List.map_nil, List.mem_singleton] at hb
      subst hb e
      exact hall (((List.take_sublist (k + 1) r.format).map _).subset ha)
  rw [loadCpr_iff]
  refine ⟨base ++ [(lit "Fields", ls.flatMap CprLine.entries)], job, acq, ph, n, ?_, ?_, h3, h4, h5, ?_,
    h7, h8, h9, ?_, h11, ?_, ?_, ?_, ?_⟩
  · rw [parse_last_cut intro gs g hi hg hk hd ls rest hl, hname]
  · rw [same _ _ g.entries (by decide)]; exact h2
  · rw [same _ _ g.entries (by decide)]; exact h6
  · rw [same _ _ g.entries (by decide)]; exact h10
  · rw [← h12]
    congr 1
    funext i
    rw [same _ _ g.entries (numbered_ne (by decide))]
  · unfold edxWindows at h13 ⊢
    rw [same _ _ g.entries (by decide)]; exact h13
  · exact hfmt.1
  · exact hfmt.2

theorem mapM_append_ok {α β : Type} {f f' : α → Except Err β} {l : List α} {x : α} {rs : List β} {y y' : β}
    (h : (l ++ [x]).mapM f = .ok (rs ++ [y])) (hsame : ∀ a ∈ l, f' a = f a)
    (hx : f x = .ok y → f' x = .ok y') : (l ++ [x]).mapM f' = .ok (rs ++ [y']) := by
  induction l generalizing rs with
  | nil =>
    rw [List.nil_append, List.mapM_cons] at h ⊢
    obtain ⟨u, hu, h⟩ := except_bind_ok h
    obtain ⟨v, hv, h⟩ := except_bind_ok h
    rw [List.mapM_nil] at hv
    cases hv
    have h' : [u] = rs ++ [y] := Except.ok.inj h
    cases rs with
    | cons a t => simp at h'
    | nil =>
      have hy : u = y := by simpa using h'
      subst hy
      rw [hx hu]
      rfl
  | cons a l ih =>
    rw [List.cons_append, List.mapM_cons] at h ⊢
    obtain ⟨u, hu, h⟩ := except_bind_ok h
    obtain ⟨v, hv, h⟩ := except_bind_ok h
    have hlen := mapM_length_ok hv
    cases rs with
    | nil => cases h; simp at hlen
    | cons b t =>
      have h' : u :: v = b :: (t ++ [y]) := by cases h; rfl
      obtain ⟨rfl, rfl⟩ := List.cons.inj h'
      rw [hsame a (by simp), hu, ]
      show ((l ++ [x]).mapM f').bind _ = _
      rw [ih hv fun c hc => hsame c (by simp [hc])]
      rfl

theorem phase_space {d d' : List (Str × Str)} {p : PhaseData} {z : Int}
    (hin : ∀ key ∈ (["StructureName", "LaueGroup", "a", "b", "c", "alpha", "beta", "gamma"] : List String),
      strGet d' (lit key) = strGet d (lit key)) (hz : spaceAt d' = .ok z) (h : cprPhase d = .ok p) :
    cprPhase d' = .ok { p with space := z } := by
  unfold cprPhase at h ⊢
  unfold intAt roundAt at h ⊢
  rw [hin "StructureName" (by simp), hin "LaueGroup" (by simp), hin "a" (by simp), hin "b" (by simp),
    hin "c" (by simp), hin "alpha" (by simp), hin "beta" (by simp), hin "gamma" (by simp), hz]
  obtain ⟨x1, e1, h⟩ := except_bind_ok h
  obtain ⟨x2, e2, h⟩ := except_bind_ok h
  obtain ⟨x3, e3, h⟩ := except_bind_ok h
  obtain ⟨x4, e4, h⟩ := except_bind_ok h
  obtain ⟨x5, e5, h⟩ := except_bind_ok h
  obtain ⟨x6, e6, h⟩ := except_bind_ok h
  obtain ⟨x7, e7, h⟩ := except_bind_ok h
  obtain ⟨x8, e8, h⟩ := except_bind_ok h
  obtain ⟨x9, e9, h⟩ := except_bind_ok h
  simp only [e1, e2, e4, e5, e6, e7, e8, e9, except_ok_bind]
  unfold makePhase at h ⊢
  split at h
  · rename_i hl
    rw [if_pos hl]
    cases h
    rfl
  · simp at h

/-- Loading when only the last group is changed, that of the last phase. -/
theorem load_last_phase (text text' : Str) (base : List (Str × List (Str × Str))) (name : Str)
    (es es' : List (Str × Str)) (h1 : parseCpr text = .ok (base ++ [(name, es)]))
    (h1' : parseCpr text' = .ok (base ++ [(name, es')])) (hnew : name ∉ base.map Prod.fst)
    (r : CprData) (hr : loadCpr text = .ok r) (others : List PhaseData) (p : PhaseData)
    (hph : r.phases = others ++ [p]) (hname : name = lit "Phase" ++ natStr r.phases.length) (z : Int)
    (hin : ∀ key ∈ (["StructureName", "LaueGroup", "a", "b", "c", "alpha", "beta", "gamma"] : List String),
      strGet es' (lit key) = strGet es (lit key)) (hz : spaceAt es' = .ok z) :
    loadCpr text' = .ok { r with phases := others ++ [{ p with space := z }] } := by
  obtain ⟨m, job, acq, ph, n, h0, h2, h3, h4, h5, h6, h7, h8, h9, h10, h11, h12, h13, h14, h15⟩ :=
    (loadCpr_iff _ r).1 hr
  rw [h1] at h0
  obtain rfl := (Except.ok.inj h0).symm
  have same : ∀ key : Str, key ≠ name →
      strGet (base ++ [(name, es')]) key = strGet (base ++ [(name, es)]) key := by
    intro key hne
    rw [strGet_append_ne _ _ hne, strGet_append_ne _ _ hne]
  have other : ∀ key : Str, (∀ c ∈ key.getLast?, isDig c = false) → key ≠ name := by
    intro key h e
    rw [hname] at e
    exact numbered_ne (key := "Phase") (n := r.phases.length) h e.symm
  have hlen : r.phases.length = n.toNat := by
    rw [mapM_length_ok h12, List.length_range]
  have hlen' : n.toNat = others.length + 1 := by rw [← hlen, hph]; simp
  rw [loadCpr_iff]
  refine ⟨base ++ [(name, es')], job, acq, ph, n, h1', ?_, h3, h4, h5, ?_,
    h7, h8, h9, ?_, h11, ?_, ?_, ?_, h15⟩
  · rw [same _ (other _ (by decide))]; exact h2
  · rw [same _ (other _ (by decide))]; exact h6
  · rw [same _ (other _ (by decide))]; exact h10
  · rw [hph, hlen', List.range_succ] at h12
    rw [hlen', List.range_succ]
    refine mapM_append_ok h12 ?_ ?_
    · intro i hi
      rw [List.mem_range] at hi
      rw [same _ ?_]
      rw [hname, hlen, hlen', numbered]
      intro e
      have := natStr_inj (List.append_cancel_left e)
      omega
    · intro h
      have e : numbered "Phase" (others.length + 1) = name := by rw [hname, hlen, hlen', numbered]
      rw [e, strGet_append_new _ hnew] at h ⊢
      exact phase_space hin hz h
  · unfold edxWindows at h13 ⊢
    rw [same _ (other _ (by decide))]; exact h13
  · unfold fieldFormat at h14 ⊢
    rw [same _ (other _ (by decide))]; exact h14

theorem last_new {gs : List CprGroup} {g : CprGroup} (hd : ((gs ++ [g]).map fun x => x.name).Nodup) :
    g.name ∉ (gs.map fun x => (x.name, x.entries)).map Prod.fst := by
  rw [List.map_append, List.nodup_append] at hd
  intro h
  refine hd.2.2 g.name ?_ g.name (by simp) rfl
  simpa [List.map_map, Function.comp_def] using h

/-- **C146** False of a file whose last group is that of the last phase: without its lines from that of
the space group on it is loaded, with space group 0 for this phase. -/
theorem C146_space (intro : List Str) (gs : List CprGroup) (g : CprGroup)
    (hi : ∀ l ∈ intro, Ignored ';' l ∧ '\n' ∉ l) (hg : ∀ x ∈ gs ++ [g], x.Valid)
    (hk : ∀ x ∈ gs ++ [g], (x.entries.map Prod.fst).Nodup)
    (hd : ((gs ++ [g]).map fun x => x.name).Nodup)
    (r : CprData) (hr : loadCpr (cprText intro (gs ++ [g])) = .ok r)
    (others : List PhaseData) (p : PhaseData) (hph : r.phases = others ++ [p])
    (hname : g.name = lit "Phase" ++ natStr r.phases.length)
    (ls rest : List CprLine) (hl : g.lines = ls ++ rest)
    (hin : ∀ key ∈ (["StructureName", "LaueGroup", "a", "b", "c", "alpha", "beta", "gamma"] : List String),
      lit key ∈ (ls.flatMap CprLine.entries).map Prod.fst)
    (hout : lit "SpaceGroup" ∉ (ls.flatMap CprLine.entries).map Prod.fst) :
    cprText intro (gs ++ [{ g with lines := ls }]) <+: cprText intro (gs ++ [g]) ∧
    loadCpr (cprText intro (gs ++ [{ g with lines := ls }])) =
      .ok { r with phases := others ++ [{ p with space := 0 }] } := by
  refine ⟨cprText_lines_cut intro gs g ls rest hl, ?_⟩
  have hent : g.entries = ls.flatMap CprLine.entries ++ rest.flatMap CprLine.entries := by
    rw [CprGroup.entries, hl, List.flatMap_append]
  refine load_last_phase _ _ _ _ _ _ (parse_last intro gs g hi hg hk hd)
    (parse_last_cut intro gs g hi hg hk hd ls rest hl) (last_new hd) r hr others p hph hname 0 ?_ ?_
  · intro key hkey
    rw [hent, strGet_prefix _ (hin key hkey)]
  · unfold spaceAt
    have : ((ls.flatMap CprLine.entries).find? fun kv => decide (kv.1 = lit "SpaceGroup")) = none := by
      rw [List.find?_eq_none]
      intro kv hkv e
      exact hout (List.mem_map.2 ⟨kv, hkv, by simpa using e⟩)
    rw [this]

theorem isDig_not_ws {c : Char} (h : isDig c = true) : isWs c = false := by
  cases e : isWs c with
  | false => rfl
  | true =>
    exfalso
    simp only [isWs, Bool.or_eq_true, decide_eq_true_eq] at e
    rcases e with ((((e | e) | e) | e) | e) | e <;> subst e <;> revert h <;> decide

/-- **C146** False of a file that ends within the digits of the space group of the last phase: it is
loaded, with what is left of them as space group. -/
theorem C146_digits (intro : List Str) (gs : List CprGroup) (g : CprGroup)
    (hi : ∀ l ∈ intro, Ignored ';' l ∧ '\n' ∉ l) (hg : ∀ x ∈ gs ++ [g], x.Valid)
    (hk : ∀ x ∈ gs ++ [g], (x.entries.map Prod.fst).Nodup)
    (hd : ((gs ++ [g]).map fun x => x.name).Nodup)
    (r : CprData) (hr : loadCpr (cprText intro (gs ++ [g])) = .ok r)
    (others : List PhaseData) (p : PhaseData) (hph : r.phases = others ++ [p])
    (hname : g.name = lit "Phase" ++ natStr r.phases.length)
    (ls rest : List CprLine) (left right : Str) (full cut : Nat)
    (hl : g.lines = ls ++ CprLine.entry left (lit "SpaceGroup") (natStr full) right :: rest)
    (hcut : natStr cut <+: natStr full)
    (hin : ∀ key ∈ (["StructureName", "LaueGroup", "a", "b", "c", "alpha", "beta", "gamma"] : List String),
      lit key ∈ (ls.flatMap CprLine.entries).map Prod.fst) :
    cprText intro (gs ++ [{ g with lines := ls }]) ++ (left ++ lit "SpaceGroup=" ++ natStr cut) <+:
      cprText intro (gs ++ [g]) ∧
    loadCpr (cprText intro (gs ++ [{ g with lines := ls }]) ++ (left ++ lit "SpaceGroup=" ++ natStr cut)) =
      .ok { r with phases := others ++ [{ p with space := cut }] } := by
  set e0 := CprLine.entry left (lit "SpaceGroup") (natStr full) right with he0
  set e1 := CprLine.entry left (lit "SpaceGroup") (natStr cut) [] with he1
  set g1 : CprGroup := { g with lines := ls ++ [e1] } with hg1
  have hgm : g ∈ gs ++ [g] := by simp
  have hv0 : e0.Valid := (hg g hgm).2.2.2.2 e0 (by rw [hl]; simp)
  obtain ⟨v1, v2, v3, v4, v5, v6, v7⟩ := hv0
  have hp : left ++ lit "SpaceGroup=" ++ natStr cut = e1.text := by
    simp [he1, CprLine.text, lit]
  have hpl : e1.text <+: e0.text := by
    obtain ⟨t, ht⟩ := hcut
    refine ⟨t ++ right, ?_⟩
    simp [he0, he1, CprLine.text, ← ht]
  have hv1 : e1.Valid := by
    refine ⟨v1, by intro c hc; simp at hc, v3, fun h => v4 (hcut.subset h), v5, ?_, ?_⟩
    · intro c r hc hw
      have hd : isDig c = true := natStr_digits cut c (by rw [hc]; simp)
      have := (white_iff [c]).1 hw c (by simp)
      rw [isDig_not_ws hd] at this
      exact absurd this (by decide)
    · exact fun h => v7 (hpl.subset h)
  have hent : g.entries = ls.flatMap CprLine.entries ++
      (e0 :: rest).flatMap CprLine.entries := by
    rw [CprGroup.entries, hl, List.flatMap_append]
  have hent1 : g1.entries = ls.flatMap CprLine.entries ++ [(lit "SpaceGroup", natStr cut)] := by
    rw [CprGroup.entries, hg1, List.flatMap_append]
    rfl
  have hkeys := hk g hgm
  rw [hent, List.flatMap_cons, he0, CprLine.entries, ← List.append_assoc, List.map_append] at hkeys
  have hkeys := (List.nodup_append.1 hkeys).1
  have hpre : cprText intro (gs ++ [{ g with lines := ls }]) ++ e1.text <+: cprText intro (gs ++ [g]) := by
    obtain ⟨t, ht⟩ := hpl
    refine ⟨t ++ ['\n'] ++ ((rest.map CprLine.text).map fun l => l ++ ['\n']).flatten, ?_⟩
    simp [cprText, CprGroup.heading, hl, ← ht]
  rw [hp]
  refine ⟨hpre, ?_⟩
  have hval : ∀ x ∈ gs ++ [g1], x.Valid := by
    intro x hx
    rcases List.mem_append.1 hx with hx | hx
    · exact hg x (List.mem_append_left _ hx)
    · rw [List.mem_singleton] at hx
      subst hx
      obtain ⟨a, b, c, d, e⟩ := hg g hgm
      refine ⟨a, b, c, d, fun l hl' => ?_⟩
      rcases List.mem_append.1 hl' with h | h
      · exact e l (by rw [hl]; exact List.mem_append_left _ h)
      · rw [List.mem_singleton] at h
        rw [h]; exact hv1
  have hparse : parseCpr (cprText intro (gs ++ [{ g with lines := ls }]) ++ e1.text) =
      .ok ((gs.map fun x => (x.name, x.entries)) ++ [(g.name, g1.entries)]) := by
    rw [← parse_last intro gs g1 hi hval ?_ ?_]
    · apply parseCpr_strip
      have hnl : ∀ (gs' : List CprGroup), (∀ x ∈ gs', x.Valid) → ∀ x ∈ intro ++ cprLines gs', '\n' ∉ x := by
        intro gs' h' x hx
        rcases List.mem_append.1 hx with hx | hx
        · exact (hi x hx).2
        · exact cprLines_plain h' x hx
      have hval0 : ∀ x ∈ gs ++ [{ g with lines := ls }], x.Valid := by
        intro x hx
        rcases List.mem_append.1 hx with hx | hx
        · exact hg x (List.mem_append_left _ hx)
        · rw [List.mem_singleton] at hx
          subst hx
          exact cut_group_valid (hg g hgm) hl
      obtain ⟨q, -, hq, hstrip⟩ := cut_strip (hnl _ hval0) hpl v7
      have hq := hq (by rw [← hp]; simp [lit])
      subst hq
      rw [cprText_eq, hstrip, cprText_eq, linesOf_flatten (hnl _ hval)]
      simp [cprLines, hg1, CprGroup.heading]
    · intro x hx
      rcases List.mem_append.1 hx with hx | hx
      · exact hk x (List.mem_append_left _ hx)
      · rw [List.mem_singleton] at hx
        subst hx
        rw [hent1]; simpa using hkeys
    · simpa using hd
  refine load_last_phase _ _ _ _ _ _ (parse_last intro gs g hi hg hk hd) hparse (last_new hd) r hr others
    p hph hname cut ?_ ?_
  · intro key hkey
    rw [hent, hent1, strGet_prefix _ (hin key hkey), strGet_prefix _ (hin key hkey)]
  · have h := strGet_append_new (natStr cut) (d := ls.flatMap CprLine.entries) (name := lit "SpaceGroup") (by
      rw [List.map_append, List.nodup_append] at hkeys
      exact fun h => hkeys.2.2 _ h _ (by simp) rfl)
    rw [← hent1] at h
    unfold strGet at h
    unfold spaceAt
    cases e : g1.entries.find? fun kv => decide (kv.1 = lit "SpaceGroup") with
    | none => rw [e] at h; simp at h
    | some kv =>
      rw [e] at h
      simp only [Except.ok.injEq] at h
      simp only [h]
      exact parseInt_natStr cut


/-! ### A file -/

/-- A group with entries. -/
def exGroup (name : String) (entries : List (String × String)) : CprGroup :=
  ⟨[], lit name, [], entries.map fun e => .entry [] (lit e.1) (lit e.2) []⟩

def exJob : CprGroup := exGroup "Job" [("xCells", "12"), ("yCells", "7"), ("GridDistX", "0.5")]
def exSurface : CprGroup :=
  exGroup "Acquisition Surface" [("Euler1", "0"), ("Euler2", "90"), ("Euler3", "0")]
def exFields : CprGroup :=
  exGroup "Fields" [("Count", "3"), ("Field1", "3"), ("Field2", "4"), ("Field3", "7")]
def exPhases : CprGroup := exGroup "Phases" [("Count", "1")]
def exCprPhase : CprGroup := exGroup "Phase1" [("StructureName", "Ni"), ("a", "3.57"), ("b", "3.57"),
  ("c", "3.57"), ("alpha", "90"), ("beta", "90"), ("gamma", "90"), ("LaueGroup", "11"),
  ("SpaceGroup", "225")]

instance (s : Str) : Decidable (Spec.White s) := by unfold Spec.White; infer_instance
instance (c : Char) (s : Str) : Decidable (Spec.Ignored c s) :=
  decidable_of_iff _ (ignored_iff c s).symm

theorem exGroup_lines {l : CprLine} {name : String} {entries : List (String × String)}
    (h : l ∈ (exGroup name entries).lines) : ∃ e ∈ entries, l = .entry [] (lit e.1) (lit e.2) [] := by
  simp only [exGroup, List.mem_map] at h
  obtain ⟨e, he, rfl⟩ := h
  exact ⟨e, he, rfl⟩

theorem exGroup_valid {name : String} {entries : List (String × String)}
    (h1 : (lit name).isEmpty = false) (h2 : '\n' ∉ lit name)
    (h : ∀ e ∈ entries, '=' ∉ lit e.1 ∧ '=' ∉ lit e.2 ∧
      (∀ c ∈ (lit e.1).head?, isWs c = false ∧ c ≠ '[' ∧ c ≠ ';') ∧
      (∀ c ∈ (lit e.2).getLast?, isWs c = false) ∧ '\n' ∉ lit e.1 ++ '=' :: lit e.2) :
    (exGroup name entries).Valid := by
  refine ⟨by intro c hc; simp [exGroup] at hc, by intro c hc; simp [exGroup] at hc, ?_, ?_, ?_⟩
  · intro e
    simp only [exGroup] at e
    rw [e] at h1
    simp at h1
  · simpa [CprGroup.heading, exGroup] using h2
  · intro l hl
    obtain ⟨e, he, rfl⟩ := exGroup_lines hl
    obtain ⟨a, b, c, d, f⟩ := h e he
    refine ⟨by intro c hc; simp at hc, by intro c hc; simp at hc, a, b, ?_, ?_, by simpa using f⟩
    · intro x r hx
      obtain ⟨h1, h2, h3⟩ := c x (by rw [hx]; simp)
      refine ⟨fun hw => ?_, h2, h3⟩
      rw [(white_iff [x]).1 hw x (by simp)] at h1
      exact absurd h1 (by decide)
    · intro x r hx hw
      have h1 := d x (by rw [hx]; simp)
      rw [(white_iff [x]).1 hw x (by simp)] at h1
      exact absurd h1 (by decide)

/-- The groups of a map of 12 by 7 pixels with one phase, the fields last. -/
def exFieldsLast : List CprGroup := [exJob, exSurface, exPhases, exCprPhase, exFields]

/-- With the phase last. -/
def exPhaseLast : List CprGroup := [exJob, exSurface, exFields, exPhases, exCprPhase]

theorem ex_valid : ∀ g ∈ [exJob, exSurface, exPhases, exCprPhase, exFields], g.Valid := by
  intro g hg
  simp only [List.mem_cons, List.not_mem_nil, or_false] at hg
  rcases hg with rfl | rfl | rfl | rfl | rfl <;>
    exact exGroup_valid (by decide) (by decide) (by decide +kernel)

theorem exPhase_load : ∃ p, cprPhase exCprPhase.entries = .ok p := by
  unfold cprPhase intAt roundAt parseRound
  simp only [
      show strGet exCprPhase.entries (lit "StructureName") = .ok (lit "Ni") by decide +kernel,
      show strGet exCprPhase.entries (lit "LaueGroup") = .ok (lit "11") by decide +kernel,
      show strGet exCprPhase.entries (lit "a") = .ok (lit "3.57") by decide +kernel,
      show strGet exCprPhase.entries (lit "b") = .ok (lit "3.57") by decide +kernel,
      show strGet exCprPhase.entries (lit "c") = .ok (lit "3.57") by decide +kernel,
      show strGet exCprPhase.entries (lit "alpha") = .ok (lit "90") by decide +kernel,
      show strGet exCprPhase.entries (lit "beta") = .ok (lit "90") by decide +kernel,
      show strGet exCprPhase.entries (lit "gamma") = .ok (lit "90") by decide +kernel,
      show spaceAt exCprPhase.entries = .ok 225 by decide +kernel,
      show parseInt (lit "11") = .ok 11 by decide +kernel,
      show parseFloat (lit "3.57") = .ok (357 / 100) by decide +kernel,
      show parseFloat (lit "90") = .ok 90 by decide +kernel, except_ok_bind, makePhase]
  exact ⟨_, rfl⟩

theorem ex_loads {gs : List CprGroup} (hp : ∀ g ∈ gs, g ∈ exFieldsLast)
    (hd : (gs.map fun g => g.name).Nodup)
    {fields : List (Str × FieldType)} (h1 : strGet (gs.map fun g => (g.name, g.entries)) (lit "Job") = .ok exJob.entries)
    (h2 : strGet (gs.map fun g => (g.name, g.entries)) (lit "Acquisition Surface") = .ok exSurface.entries)
    (h3 : strGet (gs.map fun g => (g.name, g.entries)) (lit "Phases") = .ok exPhases.entries)
    (h4 : strGet (gs.map fun g => (g.name, g.entries)) (lit "Phase1") = .ok exCprPhase.entries)
    (h5 : edxWindows (gs.map fun g => (g.name, g.entries)) = .ok [])
    (h6 : fieldFormat [] (gs.map fun g => (g.name, g.entries)) = .ok fields)
    (h7 : (fields.map fun f => f.1).Nodup) :
    ∃ p, loadCpr (cprText [] gs) = .ok ⟨7, 12, 1 / 2, (0, 90, 0), [p], [], fields⟩ := by
  obtain ⟨p, hph⟩ := exPhase_load
  refine ⟨p, ?_⟩
  rw [loadCpr_iff]
  refine ⟨gs.map fun g => (g.name, g.entries), exJob.entries, exSurface.entries, exPhases.entries, 1,
    C67_parse [] gs (by simp) (fun g hg => ex_valid g (hp g hg)) ?_ hd, h1,
    (by decide +kernel : intAt exJob.entries "xCells" = .ok 12),
    (by decide +kernel : intAt exJob.entries "yCells" = .ok 7),
    (by decide +kernel : floatAt exJob.entries "GridDistX" = .ok (1 / 2)), h2,
    (by decide +kernel : floatAt exSurface.entries "Euler1" = .ok 0),
    (by decide +kernel : floatAt exSurface.entries "Euler2" = .ok 90),
    (by decide +kernel : floatAt exSurface.entries "Euler3" = .ok 0), h3,
    by decide +kernel, ?_, h5, h6, h7⟩
  · intro g hg
    have hg := hp g hg
    simp only [exFieldsLast, List.mem_cons, List.not_mem_nil, or_false] at hg
    rcases hg with rfl | rfl | rfl | rfl | rfl <;> decide +kernel
  · rw [show (1 : Int).toNat = 0 + 1 from rfl, List.range_succ, List.range_zero, List.nil_append,
      List.mapM_cons, List.mapM_nil]
    have : numbered "Phase" (0 + 1) = lit "Phase1" := by decide +kernel
    rw [this, h4, except_ok_bind, hph]
    rfl

def exFormat : List (Str × FieldType) :=
  [(lit "phase", .uint8), (lit "ph1", .float32), (lit "phi", .float32), (lit "BC", .uint8)]

theorem exFieldsLast_loads : ∃ p, loadCpr (cprText [] exFieldsLast) =
    .ok ⟨7, 12, 1 / 2, (0, 90, 0), [p], [], exFormat⟩ :=
  ex_loads (fun _ h => h) (by decide +kernel) (by decide +kernel) (by decide +kernel) (by decide +kernel)
    (by decide +kernel) (by decide +kernel) (by decide +kernel) (by decide +kernel)

theorem exPhaseLast_loads : ∃ p, loadCpr (cprText [] exPhaseLast) =
    .ok ⟨7, 12, 1 / 2, (0, 90, 0), [p], [], exFormat⟩ :=
  ex_loads (by simp [exPhaseLast, exFieldsLast]) (by decide +kernel) (by decide +kernel) (by decide +kernel) (by decide +kernel)
    (by decide +kernel) (by decide +kernel) (by decide +kernel) (by decide +kernel)


theorem ex_nodup : ∀ g ∈ exFieldsLast, (g.entries.map Prod.fst).Nodup := by
  intro g hg
  simp only [exFieldsLast, List.mem_cons, List.not_mem_nil, or_false] at hg
  rcases hg with rfl | rfl | rfl | rfl | rfl <;> decide +kernel

/-- The hypotheses of `C146_cut`. -/
example : (∀ l ∈ ([] : List Str), Ignored ';' l ∧ '\n' ∉ l) ∧ (∀ g ∈ exFieldsLast, g.Valid) ∧
    (∀ g ∈ exFieldsLast, (g.entries.map Prod.fst).Nodup) ∧ (exFieldsLast.map fun g => g.name).Nodup ∧
    (∀ g ∈ exFieldsLast, ∀ l ∈ g.lines, l.Plain) ∧ (∀ g ∈ exFieldsLast, ']' ∉ g.name) := by
  refine ⟨by simp, ex_valid, ex_nodup, by decide +kernel, ?_, ?_⟩
  · intro g hg l hl
    simp only [exFieldsLast, List.mem_cons, List.not_mem_nil, or_false] at hg
    rcases hg with rfl | rfl | rfl | rfl | rfl <;>
      (obtain ⟨e, -, rfl⟩ := exGroup_lines hl; trivial)
  · intro g hg
    simp only [exFieldsLast, List.mem_cons, List.not_mem_nil, or_false] at hg
    rcases hg with rfl | rfl | rfl | rfl | rfl <;> decide +kernel

/-- The file without its last line. -/
example : ∃ p, loadCpr (cprText [] ([exJob, exSurface, exPhases, exCprPhase] ++
      [{ exFields with lines := exFields.lines.take 3 }])) =
    .ok ⟨7, 12, 1 / 2, (0, 90, 0), [p], [], [(lit "phase", .uint8), (lit "ph1", .float32),
      (lit "phi", .float32), (lit "unknown_1", .float32)]⟩ := by
  obtain ⟨p, hp⟩ := exFieldsLast_loads
  refine ⟨p, ?_⟩
  exact (C146_fields [] [exJob, exSurface, exPhases, exCprPhase] exFields (by simp) ex_valid ex_nodup
    (by decide +kernel) rfl _ hp
    (by decide +kernel : lit "unknown_1" ∉ exFormat.map Prod.fst) (exFields.lines.take 3) (exFields.lines.drop 3)
    (List.take_append_drop _ _).symm 2 (by decide) (by decide : 2 + 1 < exFormat.length)
    (by decide +kernel)
    (by
      intro j h1 h2
      have : j = 1 ∨ j = 2 := by omega
      rcases this with rfl | rfl <;> decide +kernel)
    (by decide +kernel)).2

/-- The file without its last line, and the file without its last three characters. -/
example : ∃ p, loadCpr (cprText [] exPhaseLast) =
      .ok ⟨7, 12, 1 / 2, (0, 90, 0), [p], [], exFormat⟩ ∧
    loadCpr (cprText [] ([exJob, exSurface, exFields, exPhases] ++
      [{ exCprPhase with lines := exCprPhase.lines.take 8 }])) =
      .ok ⟨7, 12, 1 / 2, (0, 90, 0), [{ p with space := 0 }], [], exFormat⟩ ∧
    loadCpr (cprText [] ([exJob, exSurface, exFields, exPhases] ++
      [{ exCprPhase with lines := exCprPhase.lines.take 8 }]) ++ ([] ++ lit "SpaceGroup=" ++ natStr 2)) =
      .ok ⟨7, 12, 1 / 2, (0, 90, 0), [{ p with space := 2 }], [], exFormat⟩ := by
  obtain ⟨p, hp⟩ := exPhaseLast_loads
  have hv : ∀ g ∈ [exJob, exSurface, exFields, exPhases] ++ [exCprPhase], g ∈ exFieldsLast := by
    simp [exFieldsLast]
  refine ⟨p, hp, ?_, ?_⟩
  · exact (C146_space [] [exJob, exSurface, exFields, exPhases] exCprPhase (by simp)
      (fun g hg => ex_valid g (hv g hg)) (fun g hg => ex_nodup g (hv g hg)) (by decide +kernel) _ hp [] p rfl
      (by decide +kernel : exCprPhase.name = lit "Phase" ++ natStr 1) (exCprPhase.lines.take 8) (exCprPhase.lines.drop 8) (List.take_append_drop _ _).symm
      (by decide +kernel) (by decide +kernel)).2
  · exact (C146_digits [] [exJob, exSurface, exFields, exPhases] exCprPhase (by simp)
      (fun g hg => ex_valid g (hv g hg)) (fun g hg => ex_nodup g (hv g hg)) (by decide +kernel) _ hp [] p rfl
      (by decide +kernel : exCprPhase.name = lit "Phase" ++ natStr 1) (exCprPhase.lines.take 8) [] [] [] 225 2 (by
        have : natStr 225 = lit "225" := by decide +kernel
        rw [this]; rfl) (by decide +kernel) (by decide +kernel)).2

end DefDAP
