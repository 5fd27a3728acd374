import Verif.Model.Inspector
import Mathlib.Tactic.Linarith
import Mathlib.Tactic.Ring

/-! Invariant of the grouping of slip lines. -/

namespace DefDAP

theorem argMin_spec {l : List ℚ} (h : l ≠ []) : ∃ a, l[argMin l]? = some a ∧ ∀ b ∈ l, a ≤ b := by
  have hex : ∃ a ∈ l, ∀ b ∈ l, a ≤ b := by
    induction l with
    | nil => exact absurd rfl h
    | cons x t ih =>
      by_cases ht : t = []
      · subst ht; exact ⟨x, by simp, by simp⟩
      · obtain ⟨a, ha, hb⟩ := ih ht
        rcases le_total x a with hx | hx
        · refine ⟨x, by simp, ?_⟩
          intro b hbm
          rcases List.mem_cons.mp hbm with rfl | hbm
          · exact le_refl _
          · exact hx.trans (hb b hbm)
        · refine ⟨a, by simp [ha], ?_⟩
          intro b hbm
          rcases List.mem_cons.mp hbm with rfl | hbm
          · exact hx
          · exact hb b hbm
  have hlt : argMin l < l.length := by
    unfold argMin
    rw [List.findIdx_lt_length]
    obtain ⟨a, ha, hb⟩ := hex
    exact ⟨a, ha, by simpa [List.all_eq_true] using hb⟩
  refine ⟨l[argMin l], List.getElem?_eq_getElem hlt, ?_⟩
  have := List.findIdx_getElem (xs := l) (p := fun x => l.all fun y => decide (x ≤ y)) (w := hlt)
  rw [List.all_eq_true] at this
  intro b hb
  exact of_decide_eq_true (this b hb)

theorem argMin_lt {l : List ℚ} (h : l ≠ []) : argMin l < l.length := by
  obtain ⟨a, ha, _⟩ := argMin_spec h
  by_contra hc
  rw [List.getElem?_eq_none (by omega)] at ha
  exact absurd ha (by simp)

/-- The state after the first `k` lines. -/
structure Grouped (L0 : List SlipLine) (k : Nat) (st : GroupVars) : Prop where
  same : st.lines.map (fun l => (l.points, l.angle)) = L0.map fun l => (l.points, l.angle)
  rest : ∀ j, k ≤ j → st.lines[j]? = L0[j]?
  next : st.next = st.groups.length
  pos : 0 < st.groups.length
  ids : ∀ (m : Nat) (g : SlipGroup), st.groups[m]? = some g → g.id = m
  rdr : ∀ g ∈ st.groups, g.rdr = none
  member : ∀ (j : Nat) (l : SlipLine), j < k → st.lines[j]? = some l → 0 ≤ l.group ∧ l.group < st.groups.length
  mean : ∀ (m : Nat) (g : SlipGroup), st.groups[m]? = some g → ∃ (t : Nat) (l : SlipLine), t < k ∧ st.lines[t]? = some l ∧ l.group = m ∧
    (∀ (j : Nat) (l' : SlipLine), t < j → j < k → st.lines[j]? = some l' → l'.group ≠ m) ∧
    ((g.angle = l.angle ∧ ∀ (j : Nat) (l' : SlipLine), j < k → st.lines[j]? = some l' → l'.group = m → j = t) ∨
      g.angle = round2 (groupMean (st.lines.take (t + 1) ++ L0.drop (t + 1)) m))

theorem set_same {L : List SlipLine} {i : Nat} {line : SlipLine} (h : L[i]? = some line) (g : Int)
    (b : Bool) : (L.set i { line with group := g, fromNumpy := b }).map
      (fun l => (l.points, l.angle)) = L.map fun l => (l.points, l.angle) := by
  apply List.ext_getElem?
  intro j
  rw [List.getElem?_map, List.getElem?_map, List.getElem?_set]
  by_cases hj : i = j
  · subst hj
    obtain ⟨hi, -⟩ := List.getElem?_eq_some_iff.mp h
    rw [if_pos rfl, if_pos hi, h]
    rfl
  · rw [if_neg hj]

theorem grouped_length {L0 : List SlipLine} {k : Nat} {st : GroupVars} (h : Grouped L0 k st) :
    st.lines.length = L0.length := by
  have := congrArg List.length h.same
  simpa using this

/-- The first line. -/
theorem grouped_first {L0 : List SlipLine} (groups : List SlipGroup) (h : 0 < L0.length) :
    Grouped L0 1 (groupStep ⟨L0, groups, 0⟩ 0) := by
  obtain ⟨line, hline⟩ : ∃ line, L0[0]? = some line := ⟨L0[0], List.getElem?_eq_getElem h⟩
  have e : groupStep ⟨L0, groups, 0⟩ 0 =
      ⟨L0.set 0 { line with group := 0, fromNumpy := false }, [newGroup 0 line.angle], 1⟩ := by
    unfold groupStep
    simp only [hline]
    rw [if_pos trivial]
  rw [e]
  have h0 : (L0.set 0 { line with group := 0, fromNumpy := false })[0]? =
      some { line with group := 0, fromNumpy := false } := by
    rw [List.getElem?_set_self h]
  have only : ∀ m g, [newGroup 0 line.angle][m]? = some g → m = 0 ∧ g = newGroup 0 line.angle := by
    intro m g hm
    cases m with
    | zero => simp at hm; exact ⟨rfl, hm.symm⟩
    | succ m => simp at hm
  refine ⟨set_same hline _ _, ?_, rfl, by simp, ?_, ?_, ?_, ?_⟩
  · intro j hj
    rw [List.getElem?_set_ne (by omega)]
  · intro m g hm
    obtain ⟨rfl, rfl⟩ := only m g hm
    rfl
  · intro g hg
    rw [List.mem_singleton.mp hg]
    rfl
  · intro j l hj hl
    have : j = 0 := by omega
    subst this
    rw [h0] at hl
    injection hl with hl
    subst hl
    exact ⟨le_refl _, by simp⟩
  · intro m g hm
    obtain ⟨rfl, rfl⟩ := only m g hm
    refine ⟨0, _, by omega, h0, rfl, ?_, Or.inl ⟨rfl, ?_⟩⟩
    · intro j l' h1 h2; omega
    · intro j l' h1 _ _; omega

/-- The two lists agree up to a position that is not changed. -/
theorem take_set {L : List SlipLine} {t i : Nat} (h : t < i) (a : SlipLine) :
    (L.set i a).take (t + 1) = L.take (t + 1) := by
  rw [List.take_set_of_le (by omega)]

/-- Every further line. -/
theorem grouped_step {L0 : List SlipLine} {k : Nat} {st : GroupVars} (h : Grouped L0 k st)
    (hk : 0 < k) (hlt : k < L0.length) : Grouped L0 (k + 1) (groupStep st k) := by
  have hlen := grouped_length h
  obtain ⟨line, hline⟩ : ∃ line, st.lines[k]? = some line :=
    ⟨st.lines[k], List.getElem?_eq_getElem (by omega)⟩
  -- reading the changed list
  have hget : ∀ (a : SlipLine) (j : Nat) (l : SlipLine), (st.lines.set k a)[j]? = some l →
      (j = k ∧ l = a) ∨ (j ≠ k ∧ st.lines[j]? = some l) := by
    intro a j l hl
    by_cases hj : j = k
    · subst hj
      rw [List.getElem?_set_self (by omega)] at hl
      injection hl with hl
      exact Or.inl ⟨rfl, hl.symm⟩
    · rw [List.getElem?_set_ne (fun e => hj e.symm)] at hl
      exact Or.inr ⟨hj, hl⟩
  have hself : ∀ a : SlipLine, (st.lines.set k a)[k]? = some a := fun a =>
    List.getElem?_set_self (by omega)
  have hother : ∀ (a : SlipLine) (j : Nat), j ≠ k → (st.lines.set k a)[j]? = st.lines[j]? :=
    fun a j hj => List.getElem?_set_ne (fun e => hj e.symm)
  unfold groupStep
  simp only [hline]
  rw [if_neg (by omega)]
  split
  · -- the nearest group
    next hany =>
    set d := st.groups.map fun g => |g.angle - line.angle| with hd
    have hdne : d ≠ [] := by
      intro he
      have := congrArg List.length he
      rw [hd, List.length_map, List.length_nil] at this
      have := h.pos
      omega
    have hg : argMin d < st.groups.length := by
      have := argMin_lt hdne
      rwa [hd, List.length_map, ← hd] at this
    set g := argMin d with hgdef
    set a : SlipLine := { line with group := (g : Int), fromNumpy := true } with ha
    refine ⟨?_, ?_, ?_, ?_, ?_, ?_, ?_, ?_⟩
    · show (st.lines.set k a).map _ = _
      rw [ha, set_same hline, h.same]
    · intro j hj
      show (st.lines.set k a)[j]? = _
      rw [hother _ _ (by omega), h.rest j (by omega)]
    · show st.next = (st.groups.modify _ _).length
      rw [List.length_modify, h.next]
    · show 0 < (st.groups.modify _ _).length
      rw [List.length_modify]; exact h.pos
    · intro m x hm
      simp only [List.getElem?_modify] at hm
      cases hm0 : st.groups[m]? with
      | none => rw [hm0] at hm; simp at hm
      | some x0 =>
        rw [hm0] at hm
        simp only [Option.map_eq_map, Option.map_some, Option.some.injEq] at hm
        have := h.ids m x0 hm0
        rw [← hm]
        split <;> exact this
    · intro x hx
      obtain ⟨m, hm⟩ := List.mem_iff_getElem?.mp hx
      simp only [List.getElem?_modify] at hm
      cases hm0 : st.groups[m]? with
      | none => rw [hm0] at hm; simp at hm
      | some x0 =>
        rw [hm0] at hm
        simp only [Option.map_eq_map, Option.map_some, Option.some.injEq] at hm
        have := h.rdr x0 (List.mem_of_getElem? hm0)
        rw [← hm]
        split <;> exact this
    · intro j l hj hl
      show 0 ≤ l.group ∧ l.group < ((st.groups.modify _ _).length : Int)
      rw [List.length_modify]
      rcases hget a j l hl with ⟨_, rfl⟩ | ⟨hne, hl⟩
      · rw [ha]; simp only; omega
      · exact h.member j l (by omega) hl
    · intro m x hm
      simp only [List.getElem?_modify] at hm
      cases hm0 : st.groups[m]? with
      | none => rw [hm0] at hm; simp at hm
      | some x0 =>
        rw [hm0] at hm
        simp only [Option.map_eq_map, Option.map_some, Option.some.injEq] at hm
        by_cases hmg : g = m
        · rw [if_pos hmg] at hm
          refine ⟨k, a, by omega, hself a, by rw [ha, ← hmg], ?_, Or.inr ?_⟩
          · intro j l' h1 h2; omega
          · rw [← hm]
            have e : (st.lines.set k a).take (k + 1) ++ L0.drop (k + 1) = st.lines.set k a := by
              apply List.ext_getElem?
              intro j
              by_cases hj : j < k + 1
              · rw [List.getElem?_append_left (by simp; omega), List.getElem?_take_of_lt hj]
              · rw [List.getElem?_append_right (by simp; omega), List.length_take, List.length_set,
                  List.getElem?_drop, hother _ _ (by omega), h.rest j (by omega)]
                congr 1
                omega
            show round2 (groupMean (st.lines.set k a) g) = _
            rw [e, hmg]
        · rw [if_neg hmg] at hm
          obtain ⟨t, l, h1, h2, h3, h4, h5⟩ := h.mean m x0 hm0
          refine ⟨t, l, by omega, by rw [hother _ _ (by omega)]; exact h2, h3, ?_, ?_⟩
          · intro j l' hj1 hj2 hl'
            rcases hget a j l' hl' with ⟨_, rfl⟩ | ⟨hne, hl'⟩
            · rw [ha]; simp only; intro e; exact hmg (by exact_mod_cast e)
            · exact h4 j l' hj1 (by omega) hl'
          · rw [← hm]
            rcases h5 with ⟨h5, h6⟩ | h5
            · left
              refine ⟨h5, ?_⟩
              intro j l' hj hl' hgm
              rcases hget a j l' hl' with ⟨_, rfl⟩ | ⟨hne, hl'⟩
              · exfalso; rw [ha] at hgm; simp only at hgm; exact hmg (by exact_mod_cast hgm)
              · exact h6 j l' (by omega) hl' hgm
            · right
              show x0.angle = round2 (groupMean ((st.lines.set k a).take (t + 1) ++ _) m)
              rw [take_set h1, h5]
  · -- a new group
    set a : SlipLine := { line with group := (st.next : Int), fromNumpy := false } with ha
    have happ : ∀ m x, (st.groups ++ [newGroup st.next line.angle])[m]? = some x →
        (m < st.groups.length ∧ st.groups[m]? = some x) ∨
          (m = st.groups.length ∧ x = newGroup st.next line.angle) := by
      intro m x hm
      by_cases hlt' : m < st.groups.length
      · rw [List.getElem?_append_left hlt'] at hm
        exact Or.inl ⟨hlt', hm⟩
      · rw [List.getElem?_append_right (by omega)] at hm
        have : m - st.groups.length = 0 := by
          by_contra hc
          rw [List.getElem?_eq_none (by simp; omega)] at hm
          exact absurd hm (by simp)
        rw [this] at hm
        simp at hm
        exact Or.inr ⟨by omega, hm.symm⟩
    refine ⟨?_, ?_, ?_, ?_, ?_, ?_, ?_, ?_⟩
    · show (st.lines.set k a).map _ = _
      rw [ha, set_same hline, h.same]
    · intro j hj
      show (st.lines.set k a)[j]? = _
      rw [hother _ _ (by omega), h.rest j (by omega)]
    · show st.next + 1 = (st.groups ++ _).length
      rw [List.length_append, List.length_singleton, h.next]
    · show 0 < (st.groups ++ _).length
      simp
    · intro m x hm
      rcases happ m x hm with ⟨_, hm⟩ | ⟨h1, h2⟩
      · exact h.ids m x hm
      · rw [h2, h1, ← h.next]; rfl
    · intro x hx
      rcases List.mem_append.mp hx with hx | hx
      · exact h.rdr x hx
      · rw [List.mem_singleton.mp hx]; rfl
    · intro j l hj hl
      show 0 ≤ l.group ∧ l.group < ((st.groups ++ _).length : Int)
      rw [List.length_append, List.length_singleton]
      rcases hget a j l hl with ⟨_, rfl⟩ | ⟨hne, hl⟩
      · rw [ha]; simp only; have := h.next; omega
      · have := h.member j l (by omega) hl; omega
    · intro m x hm
      rcases happ m x hm with ⟨hm1, hm⟩ | ⟨h1, h2⟩
      · obtain ⟨t, l, h1, h2, h3, h4, h5⟩ := h.mean m x hm
        have hmn : (st.next : Int) ≠ (m : Int) := by have := h.next; omega
        refine ⟨t, l, by omega, by rw [hother _ _ (by omega)]; exact h2, h3, ?_, ?_⟩
        · intro j l' hj1 hj2 hl'
          rcases hget a j l' hl' with ⟨_, rfl⟩ | ⟨hne, hl'⟩
          · rw [ha]; exact hmn
          · exact h4 j l' hj1 (by omega) hl'
        · rcases h5 with ⟨h5, h6⟩ | h5
          · left
            refine ⟨h5, ?_⟩
            intro j l' hj hl' hgm
            rcases hget a j l' hl' with ⟨_, rfl⟩ | ⟨hne, hl'⟩
            · exfalso; rw [ha] at hgm; exact hmn hgm
            · exact h6 j l' (by omega) hl' hgm
          · right
            show x.angle = round2 (groupMean ((st.lines.set k a).take (t + 1) ++ _) m)
            rw [take_set h1, h5]
      · refine ⟨k, a, by omega, hself a, by rw [ha, h1, ← h.next], ?_, Or.inl ⟨?_, ?_⟩⟩
        · intro j l' h1 h2; omega
        · rw [h2, ha]; rfl
        · intro j l' hj hl' hgm
          rcases hget a j l' hl' with ⟨e, _⟩ | ⟨hne, hl'⟩
          · exact e
          · exfalso
            have := (h.member j l' (by omega) hl').2
            omega

theorem grouped_prefix {L0 : List SlipLine} (groups : List SlipGroup) : ∀ k, 0 < k → k ≤ L0.length →
    Grouped L0 k ((List.range k).foldl groupStep ⟨L0, groups, 0⟩) := by
  intro k
  induction k with
  | zero => intro h; omega
  | succ k ih =>
    intro _ hle
    rw [List.range_succ, List.foldl_append]
    by_cases hk : k = 0
    · subst hk
      exact grouped_first groups (by omega)
    · exact grouped_step (ih (by omega) (by omega)) (by omega) (by omega)

theorem groupLoop_grouped {L0 : List SlipLine} (groups : List SlipGroup) (h : L0 ≠ []) :
    Grouped L0 L0.length (groupLoop L0 groups) :=
  grouped_prefix groups _ (List.length_pos_iff.mpr h) (le_refl _)

end DefDAP
