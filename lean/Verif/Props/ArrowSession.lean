import Verif.Model.ArrowSession

/-!
C126: arrows on a plot over sessions.
-/

namespace DefDAP

namespace Spec

/-- The drawings that last: persistent arrows and labels, in order. -/
def lasting : List ArrowOp → List Drawn
  | [] => []
  | .persistent c none :: ops => .arrow c.1 c.2.1 c.2.2.1 c.2.2.2 :: lasting ops
  | .persistent c (some t) :: ops =>
    .arrow c.1 c.2.1 c.2.2.1 c.2.2.2 :: .label t c.2.2.1 c.2.2.2 :: lasting ops
  | .arrow (some c) _ (some t) :: ops => .label t c.2.2.1 c.2.2.2 :: lasting ops
  | _ :: ops => lasting ops

/-- The arrow drawn last that is not persistent. -/
def lastArrow : List ArrowOp → Option Drawn
  | [] => none
  | .arrow (some c) _ _ :: ops => (lastArrow ops).or (some (.arrow c.1 c.2.1 c.2.2.1 c.2.2.2))
  | _ :: ops => lastArrow ops

/-- Steps as the line tool does them: arrows with coordinates that replace the arrow before, and
persistent arrows. -/
def usual : ArrowOp → Prop
  | .arrow (some _) true _ => True
  | .persistent _ _ => True
  | _ => False

end Spec

open Spec

/-- Objects have different numbers, all below the next one, and the remembered one is drawn. -/
structure ArrowInv (st : ArrowSt) : Prop where
  below : ∀ o ∈ st.shown, o.1 < st.next
  nodup : (st.shown.map (·.1)).Nodup
  arrow : ∀ n, st.arrow = some n → n ∈ st.shown.map (·.1)

/-- What is seen besides the remembered arrow. -/
def ArrowSt.others (st : ArrowSt) : List Drawn :=
  (st.shown.filter fun o => !(some o.1 == st.arrow)).map (·.2)

/-- The remembered arrow. -/
def ArrowSt.mine (st : ArrowSt) : List Drawn :=
  (st.shown.filter fun o => some o.1 == st.arrow).map (·.2)

theorem ArrowInv.draw {st : ArrowSt} (h : ArrowInv st) (d : Drawn) :
    ArrowInv (st.draw d) ∧ (st.draw d).others = st.others ++ [d] ∧ (st.draw d).mine = st.mine := by
  have hne : st.arrow ≠ some st.next := by
    intro he
    obtain ⟨o, ho, he'⟩ := List.mem_map.mp (h.arrow _ he)
    have := h.below o ho
    omega
  refine ⟨⟨?_, ?_, ?_⟩, ?_, ?_⟩
  · intro o ho
    simp only [ArrowSt.draw, List.mem_append, List.mem_singleton] at ho ⊢
    rcases ho with ho | rfl
    · have := h.below o ho; omega
    · exact Nat.lt_succ_self _
  · simp only [ArrowSt.draw, List.map_append, List.map_cons, List.map_nil]
    refine List.nodup_append.mpr ⟨h.nodup, by simp, ?_⟩
    intro a ha b hb
    simp only [List.mem_singleton] at hb
    obtain ⟨o, ho, rfl⟩ := List.mem_map.mp ha
    have := h.below o ho
    omega
  · intro n hn
    simp only [ArrowSt.draw, List.map_append, List.mem_append]
    exact Or.inl (h.arrow n hn)
  · have : some st.next ≠ st.arrow := fun he => hne he.symm
    simp [ArrowSt.others, ArrowSt.draw, List.filter_append, this]
  · have : some st.next ≠ st.arrow := fun he => hne he.symm
    simp [ArrowSt.mine, ArrowSt.draw, List.filter_append, this]

theorem ArrowInv.label {st : ArrowSt} (h : ArrowInv st) (c : ℝ × ℝ × ℝ × ℝ) (l : Option String) :
    ArrowInv (drawLabel (some c) l st) ∧
      (drawLabel (some c) l st).others = st.others ++
        (match l with | none => [] | some t => [.label t c.2.2.1 c.2.2.2]) ∧
      (drawLabel (some c) l st).mine = st.mine := by
  cases l with
  | none => exact ⟨h, by simp [drawLabel], rfl⟩
  | some t => exact h.draw _

/-- Removing the arrow before: it is drawn, so nothing is raised, and only it goes. -/
theorem ArrowInv.removed {st : ArrowSt} (h : ArrowInv st) :
    (removePrevious true st).1 = .ok () ∧
      (∀ o ∈ (removePrevious true st).2.shown, o.1 < (removePrevious true st).2.next) ∧
      ((removePrevious true st).2.shown.map (·.1)).Nodup ∧
      (removePrevious true st).2.shown.map (·.2) = st.others ∧
      (removePrevious true st).2.next = st.next := by
  unfold removePrevious
  cases ha : st.arrow with
  | none =>
    refine ⟨rfl, h.below, h.nodup, ?_, rfl⟩
    unfold ArrowSt.others
    rw [ha]
    exact congrArg _ (List.filter_eq_self.mpr (fun o _ => by simp)).symm
  | some n =>
    have hm := h.arrow n ha
    simp only [ArrowSt.remove, if_pos hm, true_and]
    refine ⟨?_, ?_, ?_, trivial⟩
    · intro o ho
      exact h.below o (List.mem_filter.mp ho).1
    · exact h.nodup.sublist (List.filter_sublist.map _)
    · unfold ArrowSt.others
      rw [ha]
      refine congrArg _ (List.filter_congr fun o _ => ?_)
      by_cases ho : o.1 = n <;> simp [ho]

theorem ArrowInv.addArrow {st : ArrowSt} (h : ArrowInv st) (c : ℝ × ℝ × ℝ × ℝ)
    (l : Option String) :
    (DefDAP.addArrow (some c) true l st).1 = .ok () ∧
      ArrowInv (DefDAP.addArrow (some c) true l st).2 ∧
      (DefDAP.addArrow (some c) true l st).2.others = st.others ++
        (match l with | none => [] | some t => [.label t c.2.2.1 c.2.2.2]) ∧
      (DefDAP.addArrow (some c) true l st).2.mine = [.arrow c.1 c.2.1 c.2.2.1 c.2.2.2] := by
  obtain ⟨h1, h2, h3, h4, h5⟩ := h.removed
  have inv : ArrowInv (drawArrow (some c) (removePrevious true st).2) := by
    refine ⟨?_, ?_, ?_⟩
    · intro o ho
      simp only [drawArrow, List.mem_append, List.mem_singleton] at ho ⊢
      rcases ho with ho | rfl
      · have := h2 o ho; omega
      · exact Nat.lt_succ_self _
    · simp only [drawArrow, List.map_append, List.map_cons, List.map_nil]
      refine List.nodup_append.mpr ⟨h3, by simp, ?_⟩
      intro a ha b hb
      simp only [List.mem_singleton] at hb
      obtain ⟨o, ho, rfl⟩ := List.mem_map.mp ha
      have := h2 o ho
      omega
    · intro n hn
      simp only [drawArrow, Option.some.injEq] at hn
      simp [drawArrow, ← hn]
  have hlt : ∀ o ∈ (removePrevious true st).2.shown, o.1 ≠ (removePrevious true st).2.next := by
    intro o ho
    have := h2 o ho
    omega
  have hoth : (drawArrow (some c) (removePrevious true st).2).others = st.others := by
    simp only [ArrowSt.others, drawArrow, List.filter_append]
    rw [List.filter_eq_self.mpr (fun o ho => by simpa using hlt o ho)]
    rw [List.filter_cons_of_neg (by simp), List.filter_nil, List.append_nil]
    exact h4
  have hmine : (drawArrow (some c) (removePrevious true st).2).mine =
      [.arrow c.1 c.2.1 c.2.2.1 c.2.2.2] := by
    simp only [ArrowSt.mine, drawArrow, List.filter_append]
    rw [List.filter_eq_nil_iff.mpr (fun o ho => by simpa using hlt o ho)]
    simp
  unfold DefDAP.addArrow
  rw [h1]
  obtain ⟨g1, g2, g3⟩ := inv.label c l
  exact ⟨rfl, g1, by rw [g2, hoth], by rw [g3, hmine]⟩

theorem ArrowInv.addPersistent {st : ArrowSt} (h : ArrowInv st) (c : ℝ × ℝ × ℝ × ℝ)
    (l : Option String) :
    ArrowInv (addPersistent c l st) ∧
      (addPersistent c l st).others = st.others ++ [.arrow c.1 c.2.1 c.2.2.1 c.2.2.2] ++
        (match l with | none => [] | some t => [.label t c.2.2.1 c.2.2.2]) ∧
      (addPersistent c l st).mine = st.mine := by
  obtain ⟨h1, h2, h3⟩ := h.draw (.arrow c.1 c.2.1 c.2.2.1 c.2.2.2)
  obtain ⟨g1, g2, g3⟩ := h1.label c l
  exact ⟨g1, by unfold DefDAP.addPersistent; rw [g2, h2], by unfold DefDAP.addPersistent; rw [g3, h3]⟩

theorem ArrowInv.new : ArrowInv ArrowSt.new :=
  ⟨(by intro o ho; cases ho), (by simp [ArrowSt.new]), (by intro n hn; cases hn)⟩

theorem arrow_session (ops : List ArrowOp) (hops : ∀ op ∈ ops, usual op) : ∀ {st : ArrowSt},
    ArrowInv st → ArrowInv (arrowRun st ops) ∧
      (arrowRun st ops).others = st.others ++ lasting ops ∧
      (arrowRun st ops).mine = (match lastArrow ops with | some d => [d] | none => st.mine) := by
  induction ops with
  | nil => intro st h; exact ⟨h, by simp [arrowRun, lasting], rfl⟩
  | cons op ops ih =>
    intro st h
    have hu := hops op List.mem_cons_self
    have ih' := fun {st : ArrowSt} (h : ArrowInv st) =>
      ih (fun o ho => hops o (List.mem_cons_of_mem _ ho)) h
    cases op with
    | clear => exact hu.elim
    | persistent c l =>
      obtain ⟨h1, h2, h3⟩ := h.addPersistent c l
      obtain ⟨g1, g2, g3⟩ := ih' h1
      refine ⟨g1, ?_, ?_⟩
      · show (arrowRun (addPersistent c l st) ops).others = _
        rw [g2, h2]
        cases l <;> simp [lasting]
      · show (arrowRun (addPersistent c l st) ops).mine = _
        rw [g3, h3]
        rfl
    | arrow c p l =>
      cases c with
      | none => exact hu.elim
      | some c =>
        cases p with
        | false => exact hu.elim
        | true =>
          obtain ⟨-, h1, h2, h3⟩ := h.addArrow c l
          obtain ⟨g1, g2, g3⟩ := ih' h1
          refine ⟨g1, ?_, ?_⟩
          · show (arrowRun (addArrow (some c) true l st).2 ops).others = _
            rw [g2, h2]
            cases l <;> simp [lasting]
          · show (arrowRun (addArrow (some c) true l st).2 ops).mine = _
            rw [g3, h3]
            simp only [lastArrow]
            cases lastArrow ops <;> rfl

/-- After every session of drawing lines, of persistent arrows and of labels, the plot shows the
persistent arrows and the labels, each once, and one more arrow, the one drawn last (if any). -/
theorem C126_shown (ops : List ArrowOp) (hops : ∀ op ∈ ops, usual op) :
    (arrowRun ArrowSt.new ops).seen.Perm (lasting ops ++ (lastArrow ops).toList) := by
  obtain ⟨-, h2, h3⟩ := arrow_session ops hops ArrowInv.new
  have hp : (arrowRun ArrowSt.new ops).seen.Perm
      ((arrowRun ArrowSt.new ops).others ++ (arrowRun ArrowSt.new ops).mine) := by
    unfold ArrowSt.seen ArrowSt.others ArrowSt.mine
    rw [← List.map_append]
    refine List.Perm.map _ ?_
    have := (List.filter_append_perm
      (fun o : Nat × Drawn => some o.1 == (arrowRun ArrowSt.new ops).arrow)
      (arrowRun ArrowSt.new ops).shown).symm
    refine this.trans ?_
    refine (List.perm_append_comm).trans ?_
    simp
  refine hp.trans ?_
  rw [h2, h3]
  cases lastArrow ops <;> simp [ArrowSt.new, ArrowSt.others, ArrowSt.mine]

/-- Nothing is raised in such sessions. -/
theorem C126_no_error (ops : List ArrowOp) (hops : ∀ op ∈ ops, usual op) (op : ArrowOp)
    (hop : usual op) : (arrowStep (arrowRun ArrowSt.new ops) op).1 = .ok () := by
  obtain ⟨h, -, -⟩ := arrow_session ops hops ArrowInv.new
  cases op with
  | clear => exact hop.elim
  | persistent c l => rfl
  | arrow c p l =>
    cases c with
    | none => exact hop.elim
    | some c =>
      cases p with
      | false => exact hop.elim
      | true => exact (h.addArrow c l).1

/-- A remembered arrow that is not drawn stays so: every later line is an exception and draws
nothing. -/
theorem arrow_lost (st : ArrowSt) (n : Nat) (ha : st.arrow = some n)
    (hn : ∀ o ∈ st.shown, o.1 ≠ n) (hlt : n < st.next) (ops : List ArrowOp)
    (hops : ∀ op ∈ ops, usual op ∨ op = .clear) :
    (arrowRun st ops).arrow = some n ∧ (∀ o ∈ (arrowRun st ops).shown, o.1 ≠ n) ∧
      n < (arrowRun st ops).next := by
  induction ops generalizing st with
  | nil => exact ⟨ha, hn, hlt⟩
  | cons op ops ih =>
    have hdraw : ∀ (st : ArrowSt) (d : Drawn), st.arrow = some n → (∀ o ∈ st.shown, o.1 ≠ n) →
        n < st.next → (st.draw d).arrow = some n ∧ (∀ o ∈ (st.draw d).shown, o.1 ≠ n) ∧
          n < (st.draw d).next := by
      intro st d h1 h2 h3
      refine ⟨h1, ?_, Nat.lt_succ_of_lt h3⟩
      intro o ho
      simp only [ArrowSt.draw, List.mem_append, List.mem_singleton] at ho
      rcases ho with ho | rfl
      · exact h2 o ho
      · exact Nat.ne_of_gt h3
    have hstep : (arrowStep st op).2.arrow = some n ∧
        (∀ o ∈ (arrowStep st op).2.shown, o.1 ≠ n) ∧ n < (arrowStep st op).2.next := by
      have hu := hops op List.mem_cons_self
      cases op with
      | clear => exact ⟨ha, (by intro o ho; cases ho), hlt⟩
      | persistent c l =>
        obtain ⟨h1, h2, h3⟩ := hdraw st (.arrow c.1 c.2.1 c.2.2.1 c.2.2.2) ha hn hlt
        cases l with
        | none => exact ⟨h1, h2, h3⟩
        | some t => exact hdraw _ (.label t c.2.2.1 c.2.2.2) h1 h2 h3
      | arrow c p l =>
        have hp : p = true := by
          rcases hu with hu | hu
          · cases c with
            | none => exact hu.elim
            | some c =>
              cases p with
              | false => exact hu.elim
              | true => rfl
          · cases hu
        subst hp
        have : (removePrevious true st) = (.error .exception, st) := by
          unfold removePrevious
          rw [ha]
          simp only [ArrowSt.remove]
          rw [if_neg]
          intro hm
          obtain ⟨o, ho, he⟩ := List.mem_map.mp hm
          exact hn o ho he
        simp only [arrowStep, addArrow, this]
        exact ⟨ha, hn, hlt⟩
    exact ih _ hstep.1 hstep.2.1 hstep.2.2 fun o ho => hops o (List.mem_cons_of_mem _ ho)

theorem arrow_lost_error (st : ArrowSt) (n : Nat) (ha : st.arrow = some n)
    (hn : ∀ o ∈ st.shown, o.1 ≠ n) (c : Option (ℝ × ℝ × ℝ × ℝ)) (l : Option String) :
    arrowStep st (.arrow c true l) = (.error .exception, st) := by
  have : (removePrevious true st) = (.error .exception, st) := by
    unfold removePrevious
    rw [ha]
    simp only [ArrowSt.remove]
    rw [if_neg]
    intro hm
    obtain ⟨o, ho, he⟩ := List.mem_map.mp hm
    exact hn o ho he
  simp only [arrowStep, addArrow, this]

theorem draw_next (st : ArrowSt) (c : Option (ℝ × ℝ × ℝ × ℝ)) (l : Option String) :
    st.next ≤ (drawLabel c l st).next ∧ (drawLabel c l st).arrow = st.arrow := by
  cases c <;> cases l <;> simp [drawLabel, ArrowSt.draw]

/-- False: lines can be drawn again after clearing the plot. Once a line was drawn and the plot
cleared, every later line is an exception and draws nothing, whatever else is done (drawing lines,
persistent arrows, clearing again). -/
theorem C126_after_clear (before : List ArrowOp) (hbefore : ∀ op ∈ before, usual op)
    (c : ℝ × ℝ × ℝ × ℝ) (l : Option String) (after : List ArrowOp)
    (hafter : ∀ op ∈ after, usual op ∨ op = .clear) (c' : Option (ℝ × ℝ × ℝ × ℝ))
    (l' : Option String) :
    ∃ st, st = arrowRun ArrowSt.new (before ++ .arrow (some c) true l :: .clear :: after) ∧
      arrowStep st (.arrow c' true l') = (.error .exception, st) := by
  refine ⟨_, rfl, ?_⟩
  obtain ⟨h, -, -⟩ := arrow_session before hbefore ArrowInv.new
  obtain ⟨h1, h2, -, h4, h5⟩ := h.removed
  have hst : arrowRun ArrowSt.new (before ++ .arrow (some c) true l :: .clear :: after) =
      arrowRun (clearPlot (addArrow (some c) true l (arrowRun ArrowSt.new before)).2) after := by
    simp [arrowRun, arrowStep]
  rw [hst]
  have hadd : (addArrow (some c) true l (arrowRun ArrowSt.new before)).2 =
      drawLabel (some c) l
        (drawArrow (some c) (removePrevious true (arrowRun ArrowSt.new before)).2) := by
    unfold addArrow; rw [h1]
  have hd := draw_next (drawArrow (some c) (removePrevious true (arrowRun ArrowSt.new before)).2)
    (some c) l
  have hlost := arrow_lost
    (clearPlot (addArrow (some c) true l (arrowRun ArrowSt.new before)).2)
    (removePrevious true (arrowRun ArrowSt.new before)).2.next
    (by show (addArrow (some c) true l (arrowRun ArrowSt.new before)).2.arrow = _
        rw [hadd, hd.2]; rfl)
    (by intro o ho; cases ho)
    (by show _ < (addArrow (some c) true l (arrowRun ArrowSt.new before)).2.next
        rw [hadd]
        exact lt_of_lt_of_le (Nat.lt_succ_self _) hd.1) after hafter
  exact arrow_lost_error _ _ hlost.1 hlost.2.1 c' l'

/-- False likewise: an arrow with a missing coordinate removes the arrow before; every later line is
an exception. -/
theorem C126_missing (before : List ArrowOp) (hbefore : ∀ op ∈ before, usual op)
    (c : ℝ × ℝ × ℝ × ℝ) (l l2 : Option String) (c' : Option (ℝ × ℝ × ℝ × ℝ))
    (l' : Option String) :
    ∃ st, st = arrowRun ArrowSt.new (before ++ [.arrow (some c) true l, .arrow none true l2]) ∧
      arrowStep st (.arrow c' true l') = (.error .exception, st) := by
  refine ⟨_, rfl, ?_⟩
  obtain ⟨h, -, -⟩ := arrow_session before hbefore ArrowInv.new
  obtain ⟨h1, hinv, -, hm⟩ := h.addArrow c l
  have hst : arrowRun ArrowSt.new (before ++ [.arrow (some c) true l, .arrow none true l2]) =
      (addArrow none true l2 (addArrow (some c) true l (arrowRun ArrowSt.new before)).2).2 := by
    simp [arrowRun, arrowStep]
  rw [hst]
  obtain ⟨st, rfl⟩ : ∃ st, st = (addArrow (some c) true l (arrowRun ArrowSt.new before)).2 :=
    ⟨_, rfl⟩
  generalize hs : (addArrow (some c) true l (arrowRun ArrowSt.new before)).2 = st at *
  cases ha : st.arrow with
  | none =>
    unfold ArrowSt.mine at hm
    rw [ha, List.filter_eq_nil_iff.mpr (fun o _ => by simp)] at hm
    cases hm
  | some n =>
    have hmem := hinv.arrow n ha
    have : addArrow none true l2 st =
        (.ok (), ⟨st.shown.filter fun o => o.1 ≠ n, st.next, st.arrow⟩) := by
      unfold addArrow removePrevious
      rw [ha]
      simp only [ArrowSt.remove, if_pos hmem]
      cases l2 <;> rw [ha] <;> rfl
    rw [this]
    exact arrow_lost_error ⟨st.shown.filter fun o => o.1 ≠ n, st.next, st.arrow⟩ n ha (by
      intro o ho
      have := (List.mem_filter.mp ho).2
      simpa using this) c' l'

/-- False: at most one arrow of the line tool is shown. An arrow added without removing the one
before leaves that one on the plot; later lines do not remove it. -/
theorem C126_left_over (c c' : ℝ × ℝ × ℝ × ℝ) (later : List ArrowOp)
    (hlater : ∀ op ∈ later, usual op) :
    Drawn.arrow c.1 c.2.1 c.2.2.1 c.2.2.2 ∈
      (arrowRun ArrowSt.new
        (.arrow (some c) true none :: .arrow (some c') false none :: later)).seen := by
  have h : ArrowInv (arrowRun ArrowSt.new [.arrow (some c) true none,
      .arrow (some c') false none]) := by
    refine ⟨?_, ?_, ?_⟩
    · intro o ho
      simp [arrowRun, arrowStep, addArrow, removePrevious, ArrowSt.new, drawArrow, drawLabel] at ho ⊢
      rcases ho with rfl | rfl <;> simp
    · simp [arrowRun, arrowStep, addArrow, removePrevious, ArrowSt.new, drawArrow, drawLabel]
    · intro n hn
      simp [arrowRun, arrowStep, addArrow, removePrevious, ArrowSt.new, drawArrow, drawLabel] at hn ⊢
      omega
  obtain ⟨-, h2, -⟩ := arrow_session later hlater h
  have hmem : Drawn.arrow c.1 c.2.1 c.2.2.1 c.2.2.2 ∈
      (arrowRun ArrowSt.new [.arrow (some c) true none, .arrow (some c') false none]).others := by
    simp [ArrowSt.others, arrowRun, arrowStep, addArrow, removePrevious, ArrowSt.new, drawArrow,
      drawLabel]
  have : Drawn.arrow c.1 c.2.1 c.2.2.1 c.2.2.2 ∈ (arrowRun (arrowRun ArrowSt.new
      [.arrow (some c) true none, .arrow (some c') false none]) later).others := by
    rw [h2]; exact List.mem_append_left _ hmem
  have hrun : arrowRun ArrowSt.new (.arrow (some c) true none :: .arrow (some c') false none ::
      later) = arrowRun (arrowRun ArrowSt.new
      [.arrow (some c) true none, .arrow (some c') false none]) later := by
    simp [arrowRun]
  rw [hrun]
  unfold ArrowSt.others at this
  unfold ArrowSt.seen
  obtain ⟨o, ho, he⟩ := List.mem_map.mp this
  exact List.mem_map.mpr ⟨o, (List.mem_filter.mp ho).1, he⟩

/-! ### A case -/

/-- A session of two lines, a labelled persistent arrow and a third line. -/
example : (∀ op ∈ [ArrowOp.arrow (some (0, 0, 1, 1)) true none, .arrow (some (0, 0, 2, 2)) true none,
    .persistent (1, 1, 3, 3) (some "a"), .arrow (some (0, 0, 4, 4)) true none], usual op) ∧
    lasting [ArrowOp.arrow (some (0, 0, 1, 1)) true none, .arrow (some (0, 0, 2, 2)) true none,
    .persistent (1, 1, 3, 3) (some "a"), .arrow (some (0, 0, 4, 4)) true none] =
      [.arrow 1 1 3 3, .label "a" 3 3] ∧
    lastArrow [ArrowOp.arrow (some (0, 0, 1, 1)) true none, .arrow (some (0, 0, 2, 2)) true none,
    .persistent (1, 1, 3, 3) (some "a"), .arrow (some (0, 0, 4, 4)) true none] =
      some (.arrow 0 0 4 4) := by
  refine ⟨?_, rfl, rfl⟩
  intro op ho
  simp only [List.mem_cons, List.not_mem_nil, or_false] at ho
  rcases ho with rfl | rfl | rfl | rfl <;> trivial

end DefDAP
