import Verif.Model.InspTexts
import Verif.Proofs.NumText
import Verif.Props.InspectorFile
import Verif.Props.InspSession
import Verif.Props.Rdr

/-!
C149: texts typed into the grain inspector, and the files it saves.
-/

namespace DefDAP

/-! ### Specification -/

/-- The number that decimal digits stand for. -/
def Spec.decimal (ds : Str) : Nat :=
  (ds.reverse.zipIdx.map fun p => (p.1.toNat - '0'.toNat) * 10 ^ p.2).sum

/-- A whole number as a text: digits, with a sign or without, and white space around. -/
def Spec.NumberText (t : Str) (i : Int) : Prop :=
  ∃ a ds b : Str, (∀ c ∈ a, isWs c = true) ∧ (∀ c ∈ b, isWs c = true) ∧ ds ≠ [] ∧
    (∀ c ∈ ds, '0' ≤ c ∧ c ≤ '9') ∧
    (t = a ++ ds ++ b ∧ i = Spec.decimal ds ∨ t = a ++ '+' :: ds ++ b ∧ i = Spec.decimal ds ∨
      t = a ++ '-' :: ds ++ b ∧ i = -(Spec.decimal ds : Int))

/-- What a session of texts means: numbers submitted to go to a grain or to remove a line are the events
with this number; other texts, changes of the name of the file and saving mean nothing. Measurements are
left out. -/
inductive Spec.Means : List WindowEvent → List InspEvent → Prop
  | nil : Spec.Means [] []
  | plain (e : InspEvent) {es es'} : Spec.Means es es' → Spec.Means (.plain e :: es) (e :: es')
  | goto {t i es es'} : Spec.NumberText t i → Spec.Means es es' → Spec.Means (.goto t :: es) (.goto i :: es')
  | remove {t i es es'} : Spec.NumberText t i → Spec.Means es es' →
      Spec.Means (.remove t :: es) (.remove i :: es')
  | noGoto {t es es'} : (∀ i, ¬ Spec.NumberText t i) → Spec.Means es es' → Spec.Means (.goto t :: es) es'
  | noRemove {t es es'} : (∀ i, ¬ Spec.NumberText t i) → Spec.Means es es' →
      Spec.Means (.remove t :: es) es'
  | name {t es es'} : Spec.Means es es' → Spec.Means (.name t :: es) es'
  | save {es es'} : Spec.Means es es' → Spec.Means (.save :: es) es'

/-- The names typed, in their order. -/
def Spec.typedNames (es : List WindowEvent) : List Str :=
  es.filterMap fun e => match e with
    | .name t => some t
    | _ => none

/-! ### Numbers -/

theorem decimal_readNat (ds : Str) : Spec.decimal ds = readNat ds := by
  induction ds with
  | nil => rfl
  | cons c t ih =>
    rw [show c :: t = [c] ++ t from rfl, readNat_append, ← ih]
    unfold Spec.decimal
    rw [List.reverse_append, List.zipIdx_append, List.map_append, List.sum_append]
    simp [readNat, Nat.add_comm]

theorem isDig_iff (c : Char) : isDig c = true ↔ '0' ≤ c ∧ c ≤ '9' := by
  unfold isDig
  simp

theorem parseNat_iff (ds : Str) (n : Nat) : parseNat ds = .ok n ↔
    ds ≠ [] ∧ (∀ c ∈ ds, '0' ≤ c ∧ c ≤ '9') ∧ n = Spec.decimal ds := by
  unfold parseNat
  rw [decimal_readNat]
  by_cases h : (!ds.isEmpty && ds.all isDig) = true
  · rw [if_pos h]
    have h' := h
    simp only [Bool.and_eq_true, List.all_eq_true, isDig_iff, Bool.not_eq_true', List.isEmpty_eq_false_iff]
      at h'
    constructor
    · intro e
      exact ⟨h'.1, h'.2, (Except.ok.inj e).symm⟩
    · rintro ⟨-, -, rfl⟩
      rfl
  · rw [if_neg h]
    constructor
    · intro e
      cases e
    · rintro ⟨h1, h2, -⟩
      refine absurd ?_ h
      simp only [Bool.and_eq_true, List.all_eq_true, isDig_iff, Bool.not_eq_true',
        List.isEmpty_eq_false_iff]
      exact ⟨h1, h2⟩

theorem parseNat_err (ds : Str) : (∃ n, parseNat ds = .ok n) ∨ parseNat ds = .error .valueError := by
  unfold parseNat
  split_ifs
  · exact .inl ⟨_, rfl⟩
  · exact .inr rfl

theorem parseInt_err (t : Str) : (∃ n, parseInt t = .ok n) ∨ parseInt t = .error .valueError := by
  have key : ∀ (u : Str) (f : Nat → Int), (∃ n, ((parseNat u).bind fun n => Except.ok (f n)) = .ok n) ∨
      ((parseNat u).bind fun n => Except.ok (f n)) = .error .valueError := by
    intro u f
    rcases parseNat_err u with ⟨n, h⟩ | h
    · rw [h]; exact .inl ⟨_, rfl⟩
    · rw [h]; exact .inr rfl
  unfold parseInt
  split
  · exact key _ _
  · exact key _ _
  · exact key _ _

theorem number_trimmed {ds : Str} (h : ∀ c ∈ ds, isNumLit c = true) : Trimmed ds := by
  have e := trimmed_lit h
  have := (strip_spec ds).choose_spec.choose_spec.2.2.2
  rwa [e] at this

theorem parseNat_bind (u : Str) (f : Nat → Int) (i : Int) :
    ((parseNat u).bind fun n => Except.ok (f n)) = Except.ok i ↔
      u ≠ [] ∧ (∀ c ∈ u, '0' ≤ c ∧ c ≤ '9') ∧ i = f (Spec.decimal u) := by
  rcases parseNat_err u with ⟨n, h⟩ | h
  · obtain ⟨h1, h2, rfl⟩ := (parseNat_iff u n).mp h
    rw [h]
    constructor
    · intro e
      exact ⟨h1, h2, (Except.ok.inj e).symm⟩
    · rintro ⟨-, -, rfl⟩
      rfl
  · rw [h]
    constructor
    · intro e
      cases e
    · rintro ⟨h1, h2, -⟩
      have := (parseNat_iff u _).mpr ⟨h1, h2, rfl⟩
      rw [h] at this
      cases this

/-- `int` of a text is defined exactly for numbers. -/
theorem parseInt_iff (t : Str) (i : Int) : parseInt t = .ok i ↔ Spec.NumberText t i := by
  have dig : ∀ {ds : Str}, (∀ c ∈ ds, '0' ≤ c ∧ c ≤ '9') → ∀ c ∈ ds, isNumLit c = true := by
    intro ds h c hc
    unfold isNumLit
    simp [(isDig_iff c).mpr (h c hc)]
  constructor
  · intro h
    obtain ⟨a, b, e, ha, hb, -⟩ := strip_spec t
    unfold parseInt at h
    split at h
    · rename_i u hu
      obtain ⟨h1, h2, h3⟩ := (parseNat_bind u (fun n => -(n : Int)) i).mp h
      exact ⟨a, u, b, ha, hb, h1, h2, .inr (.inr ⟨by rw [hu] at e; exact e, h3⟩)⟩
    · rename_i u hu
      obtain ⟨h1, h2, h3⟩ := (parseNat_bind u (fun n => (n : Int)) i).mp h
      exact ⟨a, u, b, ha, hb, h1, h2, .inr (.inl ⟨by rw [hu] at e; exact e, h3⟩)⟩
    · obtain ⟨h1, h2, h3⟩ := (parseNat_bind _ (fun n => (n : Int)) i).mp h
      exact ⟨a, _, b, ha, hb, h1, h2, .inl ⟨e, h3⟩⟩
  · rintro ⟨a, ds, b, ha, hb, h1, h2, h⟩
    have hd := dig h2
    rcases h with ⟨rfl, hi⟩ | ⟨rfl, hi⟩ | ⟨rfl, hi⟩
    · unfold parseInt
      rw [strip_pad ha hb (number_trimmed hd)]
      split
      · exact absurd (h2 '-' (by simp)) (by decide)
      · exact absurd (h2 '+' (by simp)) (by decide)
      · exact (parseNat_bind _ (fun n => (n : Int)) i).mpr ⟨h1, h2, hi⟩
    · unfold parseInt
      rw [strip_pad ha hb (number_trimmed (by
        intro c hc
        rcases List.mem_cons.mp hc with rfl | hc
        · decide
        · exact hd c hc))]
      exact (parseNat_bind _ (fun n => (n : Int)) i).mpr ⟨h1, h2, hi⟩
    · unfold parseInt
      rw [strip_pad ha hb (number_trimmed (by
        intro c hc
        rcases List.mem_cons.mp hc with rfl | hc
        · decide
        · exact hd c hc))]
      exact (parseNat_bind _ (fun n => -(n : Int)) i).mpr ⟨h1, h2, hi⟩

theorem parseInt_none {t : Str} (h : ∀ i, ¬ Spec.NumberText t i) : parseInt t = .error .valueError := by
  rcases parseInt_err t with ⟨n, e⟩ | e
  · exact absurd ((parseInt_iff t n).mp e) (h n)
  · exact e

/-! ### The property -/

variable {P F : Type} [DecidableEq P] (c : InspCfg P F)

/-- **C149 (numbers).** A number submitted to go to a grain, or to remove a line, does what it does with
this number. Submitted to measure a group, it measures the group of the selected grain with this number,
changes no other grain, and the box is emptied if the window of the measurement opens without an error. If
the measurement is refused, nothing but the text in the box changes. -/
theorem C149_number (s : InspWindow P) (t : Str) (i : Int) (ht : Spec.NumberText t i) :
    windowStep c s (.goto t) = windowStep c s (.plain (.goto i)) ∧
    windowStep c s (.remove t) = windowStep c s (.plain (.remove i)) ∧
    (∀ l, calcRdr c.draw c.h c.w c.u c.v (c.ext s.session.sel) c.length (s.session.grains s.session.sel) i =
        .ok l →
      (windowStep c s (.rdr t)).1 = c.shown s.session.sel l ∧
      (windowStep c s (.rdr t)).2 = { s with
        session := { s.session with grains := Function.update s.session.grains s.session.sel l }
        box := if c.shown s.session.sel l = .ok () then [] else t }) ∧
    (∀ e, calcRdr c.draw c.h c.w c.u c.v (c.ext s.session.sel) c.length (s.session.grains s.session.sel) i =
        .error e →
      windowStep c s (.rdr t) = (.error e, { s with box := t })) := by
  have hp := (parseInt_iff t i).mpr ht
  have hne : t ≠ [] := by
    rintro rfl
    obtain ⟨a, ds, b, -, -, h1, -, h⟩ := ht
    rcases h with ⟨h, -⟩ | ⟨h, -⟩ | ⟨h, -⟩ <;> simp_all
  refine ⟨?_, ?_, ?_, ?_⟩
  · simp only [windowStep, gotoText, hp, inspStep]
  · simp only [windowStep, removeText, hp, inspStep]
  · intro l hl
    simp only [windowStep, rdrText, hne, if_false, hp, inspRdr, hl]
    cases hs : c.shown s.session.sel l with
    | ok u => exact ⟨rfl, rfl⟩
    | error e => exact ⟨rfl, rfl⟩
  · intro e he
    simp only [windowStep, rdrText, hne, if_false, hp, inspRdr, he]

/-- **C149 (other texts).** Any other text is a `ValueError` that changes nothing, but for the text in the
box for groups; an empty text submitted there is ignored. -/
theorem C149_other (s : InspWindow P) (t : Str) (ht : ∀ i, ¬ Spec.NumberText t i) :
    windowStep c s (.goto t) = (.error .valueError, s) ∧
    windowStep c s (.remove t) = (.error .valueError, s) ∧
    windowStep c s (.rdr t) = (if t = [] then .ok () else .error .valueError, { s with box := t }) := by
  have hp := parseInt_none ht
  refine ⟨?_, ?_, ?_⟩
  · simp only [windowStep, gotoText, hp]
  · simp only [windowStep, removeText, hp]
  · simp only [windowStep, rdrText, hp]
    split_ifs <;> rfl

/-- **C149 (sessions).** The grains, the lines and the selected grain after every session of texts, buttons
and the mouse, without measurements, are those after the events that the texts mean. -/
theorem C149_session (es : List WindowEvent) (hes : ∀ t, WindowEvent.rdr t ∉ es) (s : InspWindow P) :
    ∃ es', Spec.Means es es' ∧
      (windowRun c s es).session = inspRun c.n c.correction c.traces s.session es' := by
  induction es generalizing s with
  | nil => exact ⟨[], .nil, rfl⟩
  | cons e es ih =>
    have hes' : ∀ t, WindowEvent.rdr t ∉ es := fun t h => hes t (List.mem_cons_of_mem _ h)
    obtain ⟨es', h1, h2⟩ := ih hes' (windowStep c s e).2
    have hr : windowRun c s (e :: es) = windowRun c (windowStep c s e).2 es := rfl
    rw [hr, h2]
    cases e with
    | plain e => exact ⟨e :: es', .plain e h1, rfl⟩
    | goto t =>
      by_cases h : ∃ i, Spec.NumberText t i
      · obtain ⟨i, h⟩ := h
        refine ⟨.goto i :: es', .goto h h1, ?_⟩
        rw [(C149_number c s t i h).1]
        rfl
      · push Not at h
        refine ⟨es', .noGoto h h1, ?_⟩
        rw [(C149_other c s t h).1]
    | remove t =>
      by_cases h : ∃ i, Spec.NumberText t i
      · obtain ⟨i, h⟩ := h
        refine ⟨.remove i :: es', .remove h h1, ?_⟩
        rw [(C149_number c s t i h).2.1]
        rfl
      · push Not at h
        refine ⟨es', .noRemove h h1, ?_⟩
        rw [(C149_other c s t h).2.1]
    | rdr t => exact absurd (List.mem_cons_self) (hes t)
    | name t => exact ⟨es', .name h1, rfl⟩
    | save =>
      refine ⟨es', .save h1, ?_⟩
      have : (windowStep c s .save).2.session = s.session := by
        simp only [windowStep, saveWindow]
        split <;> rfl
      rw [this]

theorem windowStep_name (s : InspWindow P) (e : WindowEvent) :
    (windowStep c s e).2.filename = match e with
      | .name t => t
      | _ => s.filename := by
  cases e with
  | plain e => rfl
  | goto t => simp only [windowStep, gotoText]; split <;> rfl
  | remove t => simp only [windowStep, removeText]; split <;> rfl
  | rdr t =>
    simp only [windowStep, rdrText]
    split_ifs
    · rfl
    · split
      · rfl
      · split <;> rfl
  | name t => rfl
  | save => simp only [windowStep, saveWindow]; split <;> rfl

theorem windowRun_name (es : List WindowEvent) (s : InspWindow P) :
    (windowRun c s es).filename = (Spec.typedNames es).getLastD s.filename := by
  induction es generalizing s with
  | nil => rfl
  | cons e es ih =>
    have hr : windowRun c s (e :: es) = windowRun c (windowStep c s e).2 es := rfl
    rw [hr, ih, windowStep_name]
    cases e with
    | name t => exact (List.getLastD_cons ..).symm
    | plain e => rfl
    | goto t => rfl
    | remove t => rfl
    | rdr t => rfl
    | save => rfl

/-- **C149 (name).** After every session the file named is the one typed last, at first that with the name
of the map. -/
theorem C149_name (es : List WindowEvent) (name : Str) (files : P → Option Str)
    (grains : Nat → LineState) :
    (windowRun c (inspOpen c name files grains) es).filename =
      (Spec.typedNames es).getLastD (name ++ lit "_RDR.txt") :=
  windowRun_name c es _

theorem windowStep_files (s : InspWindow P) (e : WindowEvent) (p : P)
    (h : e = .save → c.path s.filename ≠ some p) : (windowStep c s e).2.files p = s.files p := by
  cases e with
  | plain e => rfl
  | goto t => simp only [windowStep, gotoText]; split <;> rfl
  | remove t => simp only [windowStep, removeText]; split <;> rfl
  | rdr t =>
    simp only [windowStep, rdrText]
    split_ifs
    · rfl
    · split
      · rfl
      · split <;> rfl
  | name t => rfl
  | save =>
    simp only [windowStep, saveWindow]
    split
    · rfl
    · rename_i p' hp'
      exact Function.update_of_ne (fun e => h rfl (by rw [hp', e])) _ _

theorem windowRun_files (p : P) : ∀ (es : List WindowEvent) (s : InspWindow P),
    (∀ a b, es = a ++ WindowEvent.save :: b → c.path (windowRun c s a).filename ≠ some p) →
    (windowRun c s es).files p = s.files p := by
  intro es
  induction es with
  | nil => intro s _; rfl
  | cons e es ih =>
    intro s h
    have hr : ∀ a, windowRun c s (e :: a) = windowRun c (windowStep c s e).2 a := fun _ => rfl
    rw [hr, ih]
    · apply windowStep_files
      rintro rfl
      exact h [] es rfl
    · intro a b hab
      have := h (e :: a) b (by rw [hab]; rfl)
      rwa [hr] at this

/-- **C149 (files).** Saving writes the file named, if the name stands for one. Whatever is done then, but
for saving the same file again, the file loaded into a fresh map gives each grain with lines the lines and
groups it had when saving; this is so with numpy below 2, and above it if nothing saved is a numpy scalar. -/
theorem C149_saved (hT : c.text.Lawful) (s : InspWindow P) (p : P) (hp : c.path s.filename = some p)
    (hn : c.np2 = true → ∀ i < c.n, Spec.NoNumpy (stateVal c.val (s.session.grains i)))
    (es : List WindowEvent)
    (hes : ∀ a b, es = a ++ WindowEvent.save :: b →
      c.path (windowRun c s (WindowEvent.save :: a)).filename ≠ some p) :
    (windowStep c s .save).1 = .ok () ∧
    ∃ text, (windowRun c s (WindowEvent.save :: es)).files p = some text ∧
      loadInsp c.text text (List.replicate c.n ⟨[], []⟩) =
        .ok ((List.range c.n).map fun (i : Nat) => Spec.Restored (stateVal c.val (s.session.grains i))) := by
  have hr : ∀ a, windowRun c s (WindowEvent.save :: a) = windowRun c (windowStep c s .save).2 a :=
    fun _ => rfl
  refine ⟨?_, ?_⟩
  · simp only [windowStep, saveWindow, hp]
  · refine ⟨saveInsp c.text c.np2
      ((List.range c.n).map fun (i : Nat) => stateVal c.val (s.session.grains i)), ?_, ?_⟩
    · rw [hr, windowRun_files c p es _ (by
        intro a b hab
        rw [← hr]
        exact hes a b hab)]
      simp only [windowStep, saveWindow, hp]
      exact Function.update_self _ _ _
    · have := C75_fresh hT c.np2
        ((List.range c.n).map fun (i : Nat) => stateVal c.val (s.session.grains i)) (by
          intro h g hg
          obtain ⟨i, hi, rfl⟩ := List.mem_map.mp hg
          exact hn h i (List.mem_range.mp hi))
      rw [List.map_map, List.map_map] at this
      have e : List.map ((fun _ : InspGrain F => (⟨[], []⟩ : InspGrain F)) ∘
          fun (i : Nat) => stateVal c.val (s.session.grains i)) (List.range c.n) =
          List.replicate c.n ⟨[], []⟩ := by
        rw [show ((fun _ : InspGrain F => (⟨[], []⟩ : InspGrain F)) ∘
          fun (i : Nat) => stateVal c.val (s.session.grains i)) = fun _ => ⟨[], []⟩ from rfl,
          List.map_const', List.length_range]
      rw [e] at this
      exact this

/-! ### The hypotheses are met -/

example : Spec.NumberText (lit " +12 ") 12 :=
  ⟨[' '], ['1', '2'], [' '], by decide, by decide, by decide, by decide, .inr (.inl (by decide))⟩

example : Spec.NumberText (lit "-1") (-1) :=
  ⟨[], ['1'], [], by decide, by decide, by decide, by decide, .inr (.inr (by decide))⟩

/-- A number with decimals is not one. -/
example (i : Int) : ¬ Spec.NumberText (lit "1.0") i := by
  rw [← parseInt_iff]
  intro h
  have : parseInt (lit "1.0") = .error .valueError := by decide +kernel
  rw [this] at h
  cases h

/-- An inspector of two grains. -/
noncomputable def exWindowCfg : InspCfg Str Int where
  n := 2
  correction := 0
  traces := fun _ => []
  draw := fun x0 y0 x1 y1 => [(x0, y0), (x1, y1)]
  h := 5
  w := 6
  u := fun _ x => if 2 < x then 2 else 1
  v := fun _ x => if 2 < x then 2 else 0
  ext := fun _ => (0, 0)
  length := 3
  shown := fun _ _ => .ok ()
  text := wholeFloats
  np2 := false
  val := fun q => q.num
  path := fun t => if t = [] then none else some t

/-- A file saved under one name is not changed by clearing the lines and saving them under another. -/
example (s : InspWindow Str) (hs : s.filename = lit "a.txt") :
    ∃ text, (windowRun exWindowCfg s [.save, .plain .clear, .name (lit "b.txt"), .save]).files (lit "a.txt") =
        some text ∧
      loadInsp wholeFloats text (List.replicate 2 ⟨[], []⟩) =
        .ok [Spec.Restored (stateVal (fun q => q.num) (s.session.grains 0)),
          Spec.Restored (stateVal (fun q => q.num) (s.session.grains 1))] := by
  refine (C149_saved exWindowCfg wholeFloats_lawful s (lit "a.txt") ?_ ?_
    [.plain .clear, .name (lit "b.txt"), .save] ?_).2
  · rw [hs]
    decide +kernel
  · intro h
    cases h
  · intro a b hab
    rw [windowRun_name]
    have ha : a = [.plain .clear, .name (lit "b.txt")] := by
      rcases a with _ | ⟨x, _ | ⟨y, _ | ⟨z, a⟩⟩⟩
      · simp at hab
      · simp at hab
      · simp only [List.cons_append, List.nil_append, List.cons.injEq] at hab
        rw [hab.1, hab.2.1]
      · simp at hab
    rw [ha]
    exact (by decide +kernel : (if lit "b.txt" = [] then none else some (lit "b.txt")) ≠ some (lit "a.txt"))

/-- The first of two groups measured by its number; the displacement is `u = v / 2 + 1`. -/
example (s : InspWindow Str) (hs : s.session.grains s.session.sel = Spec.exampleLines) :
    ((windowStep exWindowCfg s (.rdr (lit "0 "))).2.session.grains s.session.sel).groups =
      [⟨0, 0, [], [], some (1 / 2)⟩, ⟨1, 90, [], [], none⟩] := by
  obtain ⟨l, h1, h2⟩ := exampleLines_measured
  have ht : Spec.NumberText (lit "0 ") 0 :=
    ⟨[], ['0'], [' '], by decide, by decide, by decide, by decide, .inl (by decide)⟩
  rw [((C149_number exWindowCfg s _ 0 ht).2.2.1 l (by rw [hs]; exact h1)).2]
  show (Function.update s.session.grains s.session.sel l s.session.sel).groups = _
  rw [Function.update_self, h2]

end DefDAP
