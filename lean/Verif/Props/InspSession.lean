import Verif.Model.InspSession
import Mathlib.Tactic.Ring

/-! C114: sessions with the grain inspector. -/

namespace DefDAP

namespace Spec

/-- The number of the grain asked for last: the first grain has number 0. -/
def askedNumber : List InspEvent → Int :=
  List.foldl (fun i e => match e with
    | .goto j => j
    | .next => i + 1
    | .previous => i - 1
    | _ => i) 0

/-- The grain that a number means in a list of `n` grains in Python. -/
def grainOfNumber (n : Nat) (i : Int) : Option Nat :=
  if 0 ≤ i ∧ i < n then some i.toNat else if -(n : Int) ≤ i ∧ i < 0 then some (n + i).toNat else none

/-- Events that end with drawing. -/
def InspDraws : InspEvent → Prop
  | .press _ => False
  | .release _ => False
  | _ => True

end Spec

/-! ### Lemmas -/

theorem pyIndex_spec (n : Nat) (i : Int) :
    pyIndex n i = match Spec.grainOfNumber n i with
      | some k => .ok k
      | none => .error .indexError := by
  unfold pyIndex Spec.grainOfNumber
  by_cases h1 : 0 ≤ i ∧ i < n
  · simp [h1]
  · rw [if_neg h1, if_neg h1]
    by_cases h2 : -(n : Int) ≤ i ∧ i < 0
    · rw [if_pos h2, if_pos ⟨h2.2, h2.1⟩]
      simp [add_comm]
    · rw [if_neg h2, if_neg fun h => h2 ⟨h.2, h.1⟩]

theorem asked_snoc (es : List InspEvent) (e : InspEvent) :
    Spec.askedNumber (es ++ [e]) = match e with
      | .goto j => j
      | .next => Spec.askedNumber es + 1
      | .previous => Spec.askedNumber es - 1
      | _ => Spec.askedNumber es := by
  unfold Spec.askedNumber
  rw [List.foldl_append]
  cases e <;> rfl

theorem inspRun_snoc (n : Nat) (c : ℝ) (tr : Nat → List ℝ) (s : InspSession) (es : List InspEvent)
    (e : InspEvent) : inspRun n c tr s (es ++ [e]) = (inspStep n c tr (inspRun n c tr s es) e).2 := by
  unfold inspRun
  rw [List.foldl_append]
  rfl

theorem inspRedraw_keeps (n : Nat) (s : InspSession) :
    (inspRedraw n s).2.number = s.number ∧ (inspRedraw n s).2.sel = s.sel ∧
    (inspRedraw n s).2.grains = s.grains := by
  unfold inspRedraw
  cases pyIndex n s.number <;> exact ⟨rfl, rfl, rfl⟩

theorem inspRedraw_fails (n : Nat) (s : InspSession) : ∃ e, (inspRedraw n s).1 = .error e := by
  unfold inspRedraw
  cases pyIndex n s.number with
  | error e => exact ⟨e, rfl⟩
  | ok k => exact ⟨_, rfl⟩

theorem inspGoto_spec (n : Nat) (i : Int) (s : InspSession) :
    (inspGoto n i s).2.number = i ∧
    (inspGoto n i s).2.sel = (Spec.grainOfNumber n i).getD s.sel ∧
    (inspGoto n i s).2.grains = s.grains := by
  unfold inspGoto
  rw [pyIndex_spec]
  cases Spec.grainOfNumber n i with
  | none => exact ⟨rfl, rfl, rfl⟩
  | some k =>
    have := inspRedraw_keeps n { s with number := i, sel := k }
    exact ⟨this.1, this.2.1, this.2.2⟩

/-- Events other than those of going to a grain keep the number and the grain. -/
theorem inspStep_keeps (n : Nat) (c : ℝ) (tr : Nat → List ℝ) (s : InspSession) (e : InspEvent) :
    (inspStep n c tr s e).2.number = (match e with
      | .goto j => j
      | .next => s.number + 1
      | .previous => s.number - 1
      | _ => s.number) ∧
    (inspStep n c tr s e).2.sel = (match e with
      | .goto _ | .next | .previous =>
        (Spec.grainOfNumber n (inspStep n c tr s e).2.number).getD s.sel
      | _ => s.sel) := by
  cases e with
  | goto i => exact ⟨(inspGoto_spec n i s).1, by
      show (inspGoto n i s).2.sel = (Spec.grainOfNumber n (inspGoto n i s).2.number).getD s.sel
      rw [(inspGoto_spec n i s).1, (inspGoto_spec n i s).2.1]⟩
  | next => exact ⟨(inspGoto_spec n _ s).1, by
      show (inspGoto n _ s).2.sel = (Spec.grainOfNumber n (inspGoto n _ s).2.number).getD s.sel
      rw [(inspGoto_spec n _ s).1, (inspGoto_spec n _ s).2.1]⟩
  | previous => exact ⟨(inspGoto_spec n _ s).1, by
      show (inspGoto n _ s).2.sel = (Spec.grainOfNumber n (inspGoto n _ s).2.number).getD s.sel
      rw [(inspGoto_spec n _ s).1, (inspGoto_spec n _ s).2.1]⟩
  | press p => exact ⟨rfl, rfl⟩
  | release p => exact ⟨rfl, rfl⟩
  | save =>
    show (inspSave c tr s).2.number = s.number ∧ (inspSave c tr s).2.sel = s.sel
    unfold inspSave
    cases s.p1 <;> cases s.p2 <;> exact ⟨rfl, rfl⟩
  | remove i =>
    show (inspRemove n tr i s).2.number = s.number ∧ (inspRemove n tr i s).2.sel = s.sel
    unfold inspRemove
    cases removeLine (tr s.sel) i (s.grains s.sel) with
    | error e => exact ⟨rfl, rfl⟩
    | ok l => exact ⟨(inspRedraw_keeps n _).1, (inspRedraw_keeps n _).2.1⟩
  | clear => exact ⟨(inspRedraw_keeps n _).1, (inspRedraw_keeps n _).2.1⟩

theorem inspNew_spec (n : Nat) (gs : Nat → LineState) :
    (inspNew n gs).2.number = 0 ∧ (inspNew n gs).2.sel = 0 ∧ (inspNew n gs).2.grains = gs ∧
    (inspNew n gs).2.p1 = none ∧ (inspNew n gs).2.p2 = none := by
  unfold inspNew
  split_ifs with h
  · exact ⟨rfl, rfl, rfl, rfl, rfl⟩
  · unfold inspRedraw
    cases pyIndex n 0 <;> exact ⟨rfl, rfl, rfl, rfl, rfl⟩

theorem inspRun_number (n : Nat) (c : ℝ) (tr : Nat → List ℝ) (gs : Nat → LineState)
    (es : List InspEvent) :
    (inspRun n c tr (inspNew n gs).2 es).number = Spec.askedNumber es := by
  induction es using List.reverseRecOn with
  | nil => exact (inspNew_spec n gs).1
  | append_singleton es e ih =>
    rw [inspRun_snoc, (inspStep_keeps n c tr _ e).1, asked_snoc, ih]

/-! ### The property -/

/-- **C114 (selected grain).** In every session, the grain edited is the one meant by the number asked for
last that means a grain. If the number asked for is that of a grain, it is this grain. -/
theorem C114_selected (n : Nat) (hn : 0 < n) (correction : ℝ) (traces : Nat → List ℝ)
    (grains : Nat → LineState) (es : List InspEvent) :
    let s := inspRun n correction traces (inspNew n grains).2 es
    s.number = Spec.askedNumber es ∧
    (∃ before after, es = before ++ after ∧
      Spec.grainOfNumber n (Spec.askedNumber before) = some s.sel ∧
      ∀ p q, es = p ++ q → before.length < p.length →
        Spec.grainOfNumber n (Spec.askedNumber p) = none) ∧
    (0 ≤ Spec.askedNumber es → Spec.askedNumber es < n → (s.sel : Int) = Spec.askedNumber es) := by
  intro s
  have hex : ∃ before after, es = before ++ after ∧
      Spec.grainOfNumber n (Spec.askedNumber before) = some s.sel ∧
      ∀ p q, es = p ++ q → before.length < p.length →
        Spec.grainOfNumber n (Spec.askedNumber p) = none := by
    show ∃ before after, es = before ++ after ∧
      Spec.grainOfNumber n (Spec.askedNumber before) =
        some (inspRun n correction traces (inspNew n grains).2 es).sel ∧ _
    clear s
    induction es using List.reverseRecOn with
    | nil =>
      refine ⟨[], [], rfl, ?_, ?_⟩
      · show _ = some (inspNew n grains).2.sel
        rw [(inspNew_spec n grains).2.1]
        simp [Spec.askedNumber, Spec.grainOfNumber, hn]
      · intro p q h hl
        have := congrArg List.length h
        simp at this hl
        omega
    | append_singleton es e ih =>
      obtain ⟨b, a, hes, hb, hp⟩ := ih
      have hk := inspStep_keeps n correction traces
        (inspRun n correction traces (inspNew n grains).2 es) e
      have hnum := inspRun_number n correction traces grains (es ++ [e])
      rw [inspRun_snoc] at hnum
      rw [inspRun_snoc]
      -- the prefixes of the longer list
      have pre : ∀ p q, es ++ [e] = p ++ q → p = es ++ [e] ∨ ∃ q', es = p ++ q' := by
        intro p q h
        rcases List.eq_nil_or_concat q with hq | ⟨q', x, hq⟩
        · left
          rw [hq, List.append_nil] at h
          exact h.symm
        · right
          rw [hq, List.concat_eq_append, ← List.append_assoc] at h
          exact ⟨q', (List.append_inj' h rfl).1⟩
      have notGoto : (inspStep n correction traces
            (inspRun n correction traces (inspNew n grains).2 es) e).2.sel =
          (inspRun n correction traces (inspNew n grains).2 es).sel →
          Spec.askedNumber (es ++ [e]) = Spec.askedNumber es → ∃ before after,
          es ++ [e] = before ++ after ∧ Spec.grainOfNumber n (Spec.askedNumber before) =
            some (inspStep n correction traces
              (inspRun n correction traces (inspNew n grains).2 es) e).2.sel ∧
          ∀ p q, es ++ [e] = p ++ q → before.length < p.length →
            Spec.grainOfNumber n (Spec.askedNumber p) = none := by
        intro hsel hask
        by_cases hab : a = []
        · refine ⟨es ++ [e], [], by simp, ?_, ?_⟩
          · rw [hask, hsel, ← hb, hes, hab, List.append_nil]
          · intro p q h hl
            have := congrArg List.length h
            simp at this hl
            omega
        · refine ⟨b, a ++ [e], by rw [hes, List.append_assoc], by rw [hsel]; exact hb, ?_⟩
          intro p q h hl
          rcases pre p q h with hp' | ⟨q', hq'⟩
          · rw [hp', hask]
            refine hp es [] (by simp) ?_
            rw [hes, List.length_append]
            have := List.length_pos_of_ne_nil hab
            omega
          · exact hp p q' hq' hl
      have isGoto : (inspStep n correction traces
            (inspRun n correction traces (inspNew n grains).2 es) e).2.sel =
          (Spec.grainOfNumber n (Spec.askedNumber (es ++ [e]))).getD
            (inspRun n correction traces (inspNew n grains).2 es).sel → ∃ before after,
          es ++ [e] = before ++ after ∧ Spec.grainOfNumber n (Spec.askedNumber before) =
            some (inspStep n correction traces
              (inspRun n correction traces (inspNew n grains).2 es) e).2.sel ∧
          ∀ p q, es ++ [e] = p ++ q → before.length < p.length →
            Spec.grainOfNumber n (Spec.askedNumber p) = none := by
        intro hsel
        cases hg : Spec.grainOfNumber n (Spec.askedNumber (es ++ [e])) with
        | some k =>
          refine ⟨es ++ [e], [], by simp, ?_, ?_⟩
          · rw [hsel, hg]
            rfl
          · intro p q h hl
            have := congrArg List.length h
            simp at this hl
            omega
        | none =>
          rw [hg, Option.getD_none] at hsel
          refine ⟨b, a ++ [e], by rw [hes, List.append_assoc], by rw [hsel]; exact hb, ?_⟩
          intro p q h hl
          rcases pre p q h with hp' | ⟨q', hq'⟩
          · rw [hp', hg]
          · exact hp p q' hq' hl
      rw [hnum] at hk
      cases e with
      | goto i => exact isGoto hk.2
      | next => exact isGoto hk.2
      | previous => exact isGoto hk.2
      | press p => exact notGoto hk.2 (asked_snoc es _)
      | release p => exact notGoto hk.2 (asked_snoc es _)
      | save => exact notGoto hk.2 (asked_snoc es _)
      | remove i => exact notGoto hk.2 (asked_snoc es _)
      | clear => exact notGoto hk.2 (asked_snoc es _)
  refine ⟨inspRun_number n correction traces grains es, hex, ?_⟩
  intro h0 h1
  obtain ⟨b, a, hes, hb, hp⟩ := hex
  have hg : Spec.grainOfNumber n (Spec.askedNumber es) = some (Spec.askedNumber es).toNat := by
    unfold Spec.grainOfNumber
    rw [if_pos ⟨h0, h1⟩]
  by_cases hab : a = []
  · rw [hab, List.append_nil] at hes
    rw [← hes, hg] at hb
    have := Option.some.inj hb
    omega
  · have := hp es [] (by simp) (by
      rw [hes, List.length_append]
      have := List.length_pos_of_ne_nil hab
      omega)
    rw [hg] at this
    cases this

/-- **C114 (edits).** In every session, an event changes the lines of no other grain than the selected
one. Going to a grain and drawing change no lines; a line drawn and saved is added to those of the
selected grain, clearing removes all of them and removing the one of the given number. -/
theorem C114_edits (n : Nat) (correction : ℝ) (traces : Nat → List ℝ) (grains : Nat → LineState)
    (es : List InspEvent) :
    let s := inspRun n correction traces (inspNew n grains).2 es
    let after := fun e : InspEvent => (inspStep n correction traces s e).2
    (∀ e g, g ≠ s.sel → (after e).grains g = s.grains g) ∧
    (∀ i, (after (.goto i)).grains = s.grains) ∧
    (after .next).grains = s.grains ∧ (after .previous).grains = s.grains ∧
    (∀ p, (after (.press p)).grains = s.grains) ∧ (∀ p, (after (.release p)).grains = s.grains) ∧
    (∀ p q, (inspRun n correction traces s [.press p, .release q, .save]).grains s.sel =
      saveLine correction (traces s.sel) p q (s.grains s.sel)) ∧
    (∀ i l, removeLine (traces s.sel) i (s.grains s.sel) = .ok l →
      (after (.remove i)).grains s.sel = l) ∧
    (∀ i e, removeLine (traces s.sel) i (s.grains s.sel) = .error e →
      (after (.remove i)).grains = s.grains) ∧
    (after .clear).grains s.sel = ⟨[], []⟩ := by
  intro s after
  refine ⟨?_, fun i => (inspGoto_spec n i s).2.2, (inspGoto_spec n _ s).2.2, (inspGoto_spec n _ s).2.2,
    fun p => rfl, fun p => rfl, ?_, ?_, ?_, ?_⟩
  · intro e g hg
    cases e with
    | goto i => exact congrFun (inspGoto_spec n i s).2.2 g
    | next => exact congrFun (inspGoto_spec n _ s).2.2 g
    | previous => exact congrFun (inspGoto_spec n _ s).2.2 g
    | press p => rfl
    | release p => rfl
    | save =>
      show (inspSave correction traces s).2.grains g = s.grains g
      unfold inspSave
      cases s.p1 <;> cases s.p2 <;> try rfl
      exact Function.update_of_ne hg _ _
    | remove i =>
      show (inspRemove n traces i s).2.grains g = s.grains g
      unfold inspRemove
      cases removeLine (traces s.sel) i (s.grains s.sel) with
      | error e => rfl
      | ok l =>
        show (inspRedraw n (s.edit l)).2.grains g = s.grains g
        rw [(inspRedraw_keeps n _).2.2]
        exact Function.update_of_ne hg _ _
    | clear =>
      show (inspRedraw n (s.edit clearLines)).2.grains g = s.grains g
      rw [(inspRedraw_keeps n _).2.2]
      exact Function.update_of_ne hg _ _
  · intro p q
    exact Function.update_self s.sel
      (saveLine correction (traces s.sel) p q (s.grains s.sel)) s.grains
  · intro i l hl
    show (inspRemove n traces i s).2.grains s.sel = l
    unfold inspRemove
    rw [hl]
    show (inspRedraw n (s.edit l)).2.grains s.sel = l
    rw [(inspRedraw_keeps n _).2.2]
    exact Function.update_self _ _ _
  · intro i e he
    show (inspRemove n traces i s).2.grains = s.grains
    unfold inspRemove
    rw [he]
  · show (inspRedraw n (s.edit clearLines)).2.grains s.sel = _
    rw [(inspRedraw_keeps n _).2.2]
    exact Function.update_self _ _ _

/-- **C114 (only drawn lines are saved).** After going to a grain, saving before a line is drawn saves
nothing. -/
theorem C114_nothing_drawn (n : Nat) (correction : ℝ) (traces : Nat → List ℝ) (s : InspSession)
    (i : Int) (hi : Spec.grainOfNumber n i ≠ none) :
    let s' := inspRun n correction traces s [.goto i]
    inspStep n correction traces s' .save = (.error .attributeError, s') := by
  intro s'
  have : s'.p1 = none := by
    show (inspGoto n i s).2.p1 = none
    unfold inspGoto
    rw [pyIndex_spec]
    cases hk : Spec.grainOfNumber n i with
    | none => exact absurd hk hi
    | some k =>
      show (inspRedraw n { s with number := i, sel := k }).2.p1 = none
      unfold inspRedraw
      rw [pyIndex_spec]
      show (match (match Spec.grainOfNumber n i with
        | some k => Except.ok k
        | none => Except.error .indexError : Except Err Nat) with
        | .error e => (_ : InspOut)
        | .ok k => _).2.p1 = none
      rw [hk]
      rfl
  show inspSave correction traces s' = _
  unfold inspSave
  rw [this]

/-- **C114 (false for errors).** Making an inspector ends with an error for every map, and so does every
event but those of the mouse on the plot. -/
theorem C114_fails (n : Nat) (correction : ℝ) (traces : Nat → List ℝ) :
    (∀ grains, (inspNew n grains).1 ≠ .ok ()) ∧
    (∀ s e, Spec.InspDraws e → (inspStep n correction traces s e).1 ≠ .ok ()) := by
  have red : ∀ s, (inspRedraw n s).1 ≠ .ok () := by
    intro s h
    obtain ⟨e, he⟩ := inspRedraw_fails n s
    rw [he] at h
    cases h
  have goto : ∀ i s, (inspGoto n i s).1 ≠ .ok () := by
    intro i s
    unfold inspGoto
    cases pyIndex n i with
    | error e =>
      intro h
      cases h
    | ok k => exact red _
  refine ⟨?_, ?_⟩
  · intro gs
    unfold inspNew
    split_ifs
    · intro h
      cases h
    · exact red _
  · intro s e he
    cases e with
    | goto i => exact goto _ _
    | next => exact goto _ _
    | previous => exact goto _ _
    | press p => exact absurd he id
    | release p => exact absurd he id
    | save =>
      show (inspSave correction traces s).1 ≠ .ok ()
      unfold inspSave
      cases s.p1 <;> cases s.p2 <;> exact fun h => by cases h
    | remove i =>
      show (inspRemove n traces i s).1 ≠ .ok ()
      unfold inspRemove
      cases removeLine (traces s.sel) i (s.grains s.sel) with
      | error e =>
        intro h
        cases h
      | ok l => exact red _
    | clear => exact red _

/-- **C114 (false for the grain before the first).** Going back from the first grain edits the last one,
with the number -1, and going on from it the first again. -/
theorem C114_before_first (n : Nat) (hn : 0 < n) (correction : ℝ) (traces : Nat → List ℝ)
    (grains : Nat → LineState) :
    let s := inspRun n correction traces (inspNew n grains).2 [.previous]
    let s' := inspRun n correction traces (inspNew n grains).2 [.previous, .next]
    s.number = -1 ∧ s.sel = n - 1 ∧ s'.number = 0 ∧ s'.sel = 0 := by
  intro s s'
  have h0 := inspNew_spec n grains
  have h1 := inspGoto_spec n ((inspNew n grains).2.number - 1) (inspNew n grains).2
  have h2 := inspGoto_spec n (s.number + 1) s
  have hs : s.number = -1 := by
    refine h1.1.trans ?_
    rw [h0.1]
    norm_num
  refine ⟨hs, ?_, ?_, ?_⟩
  · refine h1.2.1.trans ?_
    rw [h0.1]
    unfold Spec.grainOfNumber
    rw [if_neg (by omega), if_pos (by omega), Option.getD_some]
    omega
  · refine h2.1.trans ?_
    rw [hs]
    norm_num
  · refine h2.2.1.trans ?_
    rw [hs]
    unfold Spec.grainOfNumber
    rw [if_pos (by omega), Option.getD_some]
    rfl

/-- **C114 (false for other numbers).** In every session, after a number that means no grain has been
asked for, the number stays but the grain is that from before: lines drawn and saved are added to it, and
clearing, which is an `IndexError`, removes its lines. -/
theorem C114_no_grain (n : Nat) (correction : ℝ) (traces : Nat → List ℝ) (grains : Nat → LineState)
    (es : List InspEvent) (i : Int) (hi : Spec.grainOfNumber n i = none) :
    let s := inspRun n correction traces (inspNew n grains).2 es
    let s' := inspRun n correction traces (inspNew n grains).2 (es ++ [.goto i])
    (inspStep n correction traces s (.goto i)).1 = .error .indexError ∧
    s'.number = i ∧ s'.sel = s.sel ∧ s'.plotted = s.plotted ∧
    (∀ p q, (inspRun n correction traces s' [.press p, .release q, .save]).grains s.sel =
      saveLine correction (traces s.sel) p q (s.grains s.sel)) ∧
    (inspStep n correction traces s' .clear).1 = .error .indexError ∧
    (inspStep n correction traces s' .clear).2.grains s.sel = ⟨[], []⟩ := by
  intro s s'
  have hg : inspGoto n i s = (.error .indexError, { s with number := i }) := by
    unfold inspGoto
    rw [pyIndex_spec, hi]
  have hs' : s' = { s with number := i } := by
    show inspRun n correction traces (inspNew n grains).2 (es ++ [.goto i]) = _
    rw [inspRun_snoc]
    show (inspGoto n i s).2 = _
    rw [hg]
  have hc : inspClear n s' = (.error .indexError, s'.edit clearLines) := by
    unfold inspClear inspRedraw
    rw [pyIndex_spec]
    show (match (match Spec.grainOfNumber n s'.number with
      | some k => Except.ok k
      | none => Except.error .indexError : Except Err Nat) with
      | .error e => (_ : InspOut)
      | .ok k => _) = _
    have : s'.number = i := by rw [hs']
    rw [this, hi]
  refine ⟨?_, by rw [hs'], by rw [hs'], by rw [hs'], ?_, ?_, ?_⟩
  · show (inspGoto n i s).1 = _
    rw [hg]
  · intro p q
    rw [hs']
    exact Function.update_self s.sel
      (saveLine correction (traces s.sel) p q (s.grains s.sel)) s.grains
  · show (inspClear n s').1 = _
    rw [hc]
  · show (inspClear n s').2.grains s.sel = _
    rw [hc, hs']
    exact Function.update_self _ _ _

/-- The hypotheses are met: there are numbers that mean no grain, and a session that ends with a grain
with lines. -/
example : Spec.grainOfNumber 5 7 = none ∧ Spec.grainOfNumber 5 (-2) = some 3 ∧
    Spec.grainOfNumber 5 4 = some 4 ∧
    Spec.askedNumber [.next, .press (0, 0), .next, .previous, .goto 3, .next] = 4 := by
  decide

end DefDAP
