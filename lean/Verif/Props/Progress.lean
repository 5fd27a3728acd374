import Verif.Model.Progress
import Mathlib.Tactic.Linarith
import Mathlib.Algebra.Order.Field.Rat
import Mathlib.Tactic.NormNum

/-! C77: progress reporting does not change what a function does. -/

namespace DefDAP

/-! ### Specification -/

/-- The function without any reporting: its pieces are run one after the other. -/
def Spec.run {σ α : Type} : Gen σ α → σ → Except Err α × σ
  | .ret f, s => f s
  | .yield f next, s =>
    match (f s).1 with
    | .error e => (.error e, (f s).2)
    | .ok _ => Spec.run (next (f s).2) (f s).2

/-- What the function reports on the way. -/
def Spec.reports {σ α : Type} : Gen σ α → σ → List Report
  | .ret _, _ => []
  | .yield f next, s =>
    match (f s).1 with
    | .error _ => []
    | .ok r => r :: Spec.reports (next (f s).2) (f s).2

/-- The percentages among the printed lines. -/
def Spec.percents : List Printed → List ℚ
  | [] => []
  | .percent q :: l => q :: Spec.percents l
  | _ :: l => Spec.percents l

/-! ### Proofs -/

theorem progressLoop_result {σ α : Type} (g : Gen σ α) : ∀ (s : σ) (prev : ℚ) (final : Bool)
    (out : List Printed), Report.other ∉ Spec.reports g s →
    (progressLoop g s prev final out).1 = Spec.run g s := by
  induction g with
  | ret f =>
    intro s prev final out _
    unfold progressLoop Spec.run progressEnd
    rcases f s with ⟨r, s'⟩
    cases r <;> rfl
  | yield f next ih =>
    intro s prev final out h
    unfold progressLoop Spec.run
    unfold Spec.reports at h
    rcases hf : f s with ⟨r, s'⟩
    rw [hf] at h
    cases r with
    | error e => rfl
    | ok r =>
      simp only [List.mem_cons, not_or] at h
      cases r with
      | text t => exact ih s' s' _ _ _ h.2
      | num q =>
        simp only
        split
        · exact ih s' s' _ _ _ h.2
        · exact ih s' s' _ _ _ h.2
      | other => exact absurd rfl h.1

/-- **C77**: a function that reports numbers and texts gives the value, the exception and the final
state that it gives without reporting. -/
theorem C77_transparent {σ α : Type} (g : Gen σ α) (s : σ) (h : Report.other ∉ Spec.reports g s) :
    (reportProgress g s).1 = Spec.run g s :=
  progressLoop_result g s _ _ _ h

/-- A function that sets the state to 1, reports something that is neither number nor text, sets
the state to 2 and returns it. -/
def exNone : Gen Nat Nat := .yield (fun _ => (.ok .other, 1)) fun _ => .ret fun _ => (.ok 2, 2)

/-- **C77**: reporting anything else ends the function early with a `TypeError`. -/
theorem C77_other : Spec.run exNone 0 = (.ok 2, 2) ∧
    (reportProgress exNone 0).1 = (.error .typeError, 1) := ⟨rfl, rfl⟩

theorem percents_append (a b : List Printed) :
    Spec.percents (a ++ b) = Spec.percents a ++ Spec.percents b := by
  induction a with
  | nil => rfl
  | cons x a ih => cases x <;> simp [Spec.percents, ih]

theorem progressLoop_out {σ α : Type} (g : Gen σ α) : ∀ (s : σ) (prev : ℚ) (final : Bool)
    (out : List Printed), ∃ l, (progressLoop g s prev final out).2 = out ++ l ∧
      List.IsChain (fun a b => b - a > 1 / 100) (prev :: Spec.percents l) ∧
      (∀ q ∈ Spec.percents l, Report.num q ∈ Spec.reports g s) ∧
      (Spec.reports g s = [] → l = [] ∨ l = [.finished]) := by
  induction g with
  | ret f =>
    intro s prev final out
    unfold progressLoop progressEnd
    rcases f s with ⟨r, s'⟩
    cases r with
    | ok v =>
      cases final with
      | true => exact ⟨[.finished], rfl, by simp [Spec.percents], by simp [Spec.percents], by simp⟩
      | false => exact ⟨[], by simp, by simp [Spec.percents], by simp [Spec.percents], by simp⟩
    | error e => exact ⟨[], by simp, by simp [Spec.percents], by simp [Spec.percents], by simp⟩
  | yield f next ih =>
    intro s prev final out
    unfold progressLoop Spec.reports
    rcases hf : f s with ⟨r, s'⟩
    cases r with
    | error e => exact ⟨[], by simp, by simp [Spec.percents], by simp [Spec.percents], by simp⟩
    | ok r =>
      cases r with
      | text t =>
        obtain ⟨l, h1, h2, h3, h4⟩ := ih s' s' prev false (out ++ [.line t])
        refine ⟨.line t :: l, by simp [h1], h2, ?_, by simp⟩
        intro q hq
        exact List.mem_cons_of_mem _ (h3 q hq)
      | num q =>
        simp only
        split
        · next hgt =>
          obtain ⟨l, h1, h2, h3, h4⟩ := ih s' s' q true (out ++ [.percent q])
          refine ⟨.percent q :: l, by simp [h1], ?_, ?_, by simp⟩
          · exact List.IsChain.cons_cons hgt h2
          · intro a ha
            rcases List.mem_cons.mp ha with rfl | ha
            · simp
            · exact List.mem_cons_of_mem _ (h3 a ha)
        · obtain ⟨l, h1, h2, h3, h4⟩ := ih s' s' prev final out
          refine ⟨l, h1, h2, ?_, by simp⟩
          intro a ha
          exact List.mem_cons_of_mem _ (h3 a ha)
      | other => exact ⟨[], by simp, by simp [Spec.percents], by simp [Spec.percents], by simp⟩

theorem chain_bound : ∀ (l : List ℚ) (a : ℚ), List.IsChain (fun a b : ℚ => b - a > 1 / 100) (a :: l) →
    (∀ q ∈ l, q ≤ 1) → l ≠ [] → a + l.length / 100 < 1 := by
  intro l
  induction l with
  | nil => intro a _ _ h; exact absurd rfl h
  | cons b l ih =>
    intro a hc hl _
    rw [List.isChain_cons_cons] at hc
    by_cases hn : l = []
    · subst hn
      have := hl b (by simp)
      have := hc.1
      rw [List.length_singleton]
      push_cast
      linarith
    · have h1 := ih b hc.2 (fun q hq => hl q (by simp [hq])) hn
      have h2 := hc.1
      rw [List.length_cons]
      push_cast
      linarith

/-- **C77**: the percentages printed are among those reported, each more than one per cent above the
one before; if none is above 100 % there are less than 100 of them. -/
theorem C77_percents {σ α : Type} (g : Gen σ α) (s : σ) :
    let shown := Spec.percents (reportProgress g s).2
    List.IsChain (fun a b => b > a + 1 / 100) (0 :: shown) ∧
    (∀ q ∈ shown, Report.num q ∈ Spec.reports g s) ∧
    ((∀ q, Report.num q ∈ Spec.reports g s → q ≤ 1) → shown.length < 100) := by
  intro shown
  obtain ⟨l, h1, h2, h3, _⟩ := progressLoop_out g s 0 true [.starting]
  have hs : shown = Spec.percents l := by
    show Spec.percents (progressLoop g s 0 true [.starting]).2 = _
    rw [h1]
    rfl
  rw [hs]
  refine ⟨h2.imp fun a b h => by linarith, h3, ?_⟩
  intro hle
  by_cases hn : Spec.percents l = []
  · rw [hn]; simp
  · have := chain_bound _ _ h2 (fun q hq => hle q (h3 q hq)) hn
    have : ((Spec.percents l).length : ℚ) < 100 := by linarith
    exact_mod_cast this

theorem progressLoop_finished {σ α : Type} (g : Gen σ α) : ∀ (s : σ) (prev : ℚ)
    (out : List Printed), (∀ t, Report.text t ∉ Spec.reports g s) →
    (progressLoop g s prev true out).1.1.isOk = true →
    ∃ l, (progressLoop g s prev true out).2 = out ++ l ++ [.finished] ∧ Printed.finished ∉ l := by
  induction g with
  | ret f =>
    intro s prev out _ hok
    unfold progressLoop progressEnd at hok ⊢
    rcases hf : f s with ⟨r, s'⟩
    rw [hf] at hok
    cases r with
    | ok v => exact ⟨[], by simp, by simp⟩
    | error e => exact absurd hok (by simp [Except.isOk, Except.toBool])
  | yield f next ih =>
    intro s prev out h hok
    unfold progressLoop at hok ⊢
    unfold Spec.reports at h
    rcases hf : f s with ⟨r, s'⟩
    rw [hf] at hok h
    cases r with
    | error e => exact absurd hok (by simp [Except.isOk, Except.toBool])
    | ok r =>
      cases r with
      | text t => exact absurd (by simp) (h t)
      | num q =>
        have h' : ∀ t, Report.text t ∉ Spec.reports (next s') s' := fun t ht =>
          h t (List.mem_cons_of_mem _ ht)
        simp only at hok ⊢
        split at hok
        · next hgt =>
          rw [if_pos hgt]
          obtain ⟨l, h1, h2⟩ := ih s' s' q _ h' hok
          exact ⟨.percent q :: l, by simp [h1], by simp [h2]⟩
        · next hgt =>
          rw [if_neg hgt]
          exact ih s' s' prev _ h' hok
      | other => exact absurd hok (by simp [Except.isOk, Except.toBool])

/-- **C77**: a function that reports no texts and returns prints that it starts first and that it
has finished last and once. -/
theorem C77_finished {σ α : Type} (g : Gen σ α) (s : σ)
    (h : ∀ t, Report.text t ∉ Spec.reports g s) (hok : (reportProgress g s).1.1.isOk = true) :
    ∃ l, (reportProgress g s).2 = .starting :: l ++ [.finished] ∧ Printed.finished ∉ l := by
  obtain ⟨l, h1, h2⟩ := progressLoop_finished g s 0 [.starting] h hok
  exact ⟨l, h1, h2⟩

/-! ### Non-vacuity -/

/-- A loop that adds up `n, n - 1, …, 1` and reports after each step what part of `total` is done. -/
def exSum (total : Nat) : Nat → Gen Nat Nat
  | 0 => .ret fun s => (.ok s, s)
  | n + 1 => .yield (fun s => (.ok (.num (((total : ℚ) - n) / total)), s + (n + 1))) fun _ =>
      exSum total n

/-- It reports numbers only. -/
theorem exSum_reports (total : Nat) : ∀ (n s : Nat) (r : Report), r ∈ Spec.reports (exSum total n) s →
    ∃ q, r = .num q := by
  intro n
  induction n with
  | zero => intro s r h; simp [exSum, Spec.reports] at h
  | succ n ih =>
    intro s r h
    unfold exSum Spec.reports at h
    simp only [List.mem_cons] at h
    rcases h with rfl | h
    · exact ⟨_, rfl⟩
    · exact ih _ r h

/-- Its result for 4 steps. -/
example : (reportProgress (exSum 4 4) 0).1 = (.ok 10, 10) := by
  rw [C77_transparent _ _ fun h => by obtain ⟨q, hq⟩ := exSum_reports 4 4 0 _ h; cases hq]
  rfl

end DefDAP
