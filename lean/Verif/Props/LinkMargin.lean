import Verif.Props.WarpGrains

/-! C165: how sure the links of DIC grains to EBSD grains are. -/

namespace DefDAP

/-- In how many places two lists differ. -/
def Spec.changed : List Int → List Int → Nat
  | a :: l, b :: m => (if a = b then 0 else 1) + changed l m
  | _, _ => 0

/-- The label `m` is seen at more than `e` pixels more than every other. -/
def Spec.Leads (overlap : List Int) (m : Int) (e : Nat) : Prop :=
  m ∈ overlap ∧ ∀ b, b ≠ m → overlap.count b + e < overlap.count m

/-- The label a grain is linked by: the most common one, and the smallest of these. -/
def Spec.Winner (overlap : List Int) (m : Int) : Prop :=
  m ∈ overlap ∧ ∀ b ∈ overlap, overlap.count b ≤ overlap.count m ∧ (overlap.count b = overlap.count m → m ≤ b)

open Spec

theorem winner_mode {overlap : List Int} {m : Int} (h : Winner overlap m) : mode overlap = some m := by
  obtain ⟨hm, hmax⟩ := h
  cases hmode : mode overlap with
  | none => rw [mode_none] at hmode; subst hmode; simp at hm
  | some m' =>
    obtain ⟨h3, h4⟩ := mode_spec hmode
    have ha := hmax m' h3
    have hb := h4 m hm
    congr 1
    omega

theorem leads_winner {overlap : List Int} {m : Int} (h : Leads overlap m 0) : Winner overlap m := by
  refine ⟨h.1, fun b _ => ?_⟩
  by_cases hb : b = m
  · subst hb; simp
  · have := h.2 b hb
    omega

theorem link_label {α : Type} {ebsd : List α} {overlap : List Int} {k : Nat} {g : α}
    (hm : mode overlap = some ((k : Int) + 1)) (hk : ebsd[k]? = some g) : linkByMode ebsd overlap = .ok g := by
  obtain ⟨h1, h2⟩ := mode_spec hm
  exact (C78_link ebsd overlap ((k : Int) + 1) h1 h2).1 k g rfl hk

theorem count_changed (b : Int) : ∀ l l' : List Int, l.length = l'.length →
    l'.count b ≤ l.count b + changed l l'
  | [], [], _ => by simp
  | x :: l, y :: l', h => by
    have ih := count_changed b l l' (by simpa using h)
    rw [List.count_cons, List.count_cons, changed]
    by_cases h1 : x = y
    · subst h1
      simp only [if_true]
      omega
    · rw [if_neg h1]
      split <;> split <;> omega

theorem changed_comm : ∀ l l' : List Int, changed l l' = changed l' l
  | [], [] => rfl
  | [], _ :: _ => rfl
  | _ :: _, [] => rfl
  | x :: l, y :: l' => by
    rw [changed, changed, changed_comm l l']
    by_cases h : x = y
    · rw [if_pos h, if_pos h.symm]
    · rw [if_neg h, if_neg (Ne.symm h)]

/-- **C165**: a DIC grain with more than half of its pixels on one EBSD grain is linked to that grain,
whatever the labels at its other pixels are. -/
theorem C165_half {α : Type} (ebsd : List α) (overlap : List Int) (k : Nat) (g : α) (hk : ebsd[k]? = some g)
    (h : overlap.length < 2 * overlap.count ((k : Int) + 1)) : linkByMode ebsd overlap = .ok g := by
  refine link_label (winner_mode (leads_winner ⟨?_, fun b hb => ?_⟩)) hk
  · rw [← List.count_pos_iff]; omega
  · have h1 : overlap.count b + overlap.count ((k : Int) + 1) ≤ overlap.length := by
      clear h
      induction overlap with
      | nil => simp
      | cons x t ih =>
        rw [List.count_cons, List.count_cons, List.length_cons]
        by_cases h1 : x = b
        · have : x ≠ (k : Int) + 1 := fun h => hb (h1.symm.trans h)
          simp only [h1, beq_self_eq_true, if_true, beq_iff_eq, if_neg hb]
          omega
        · simp only [beq_iff_eq, if_neg h1]
          split <;> omega
    omega

/-- **C165**: if the label of an EBSD grain leads every other by more than `2 e` pixels, the link stays the same
when the labels at any `e` pixels are changed to anything. -/
theorem C165_changed {α : Type} (ebsd : List α) (overlap overlap' : List Int) (k e : Nat) (g : α)
    (hk : ebsd[k]? = some g) (hlen : overlap.length = overlap'.length)
    (hl : Leads overlap ((k : Int) + 1) (2 * e)) (hc : changed overlap overlap' ≤ e) :
    linkByMode ebsd overlap = .ok g ∧ linkByMode ebsd overlap' = .ok g := by
  have h1 : Leads overlap ((k : Int) + 1) 0 := ⟨hl.1, fun b hb => by have := hl.2 b hb; omega⟩
  have hself := count_changed ((k : Int) + 1) overlap' overlap hlen.symm
  rw [changed_comm] at hself
  have h2 : Leads overlap' ((k : Int) + 1) 0 := by
    have hlead : ∀ b, b ≠ (k : Int) + 1 → overlap'.count b + 0 < overlap'.count ((k : Int) + 1) := fun b hb => by
      have := hl.2 b hb
      have := count_changed b overlap overlap' hlen
      omega
    refine ⟨?_, hlead⟩
    rw [← List.count_pos_iff]
    have := hlead ((k : Int) + 2) (by omega)
    omega
  exact ⟨link_label (winner_mode (leads_winner h1)) hk, link_label (winner_mode (leads_winner h2)) hk⟩

/-- **C165**: one pixel fewer would not do: for every `e > 0` there are pixels at which a label leads by `2 e` and
`e` changes that link the grain to another EBSD grain. -/
theorem C165_sharp {α : Type} (g0 g1 : α) (e : Nat) (he : 0 < e) : ∃ overlap overlap' : List Int,
    overlap.length = overlap'.length ∧ (∀ b, b ≠ 2 → overlap.count b + 2 * e ≤ overlap.count 2) ∧
    changed overlap overlap' = e ∧
    linkByMode [g0, g1] overlap = .ok g1 ∧ linkByMode [g0, g1] overlap' = .ok g0 := by
  have c1 : ∀ (n : Nat) (a b : Int), (List.replicate n a).count b = if a = b then n else 0 := by
    intro n a b
    rw [List.count_replicate]
    by_cases h : a = b <;> simp [h]
  have ch : ∀ (n : Nat) (l : List Int), changed (List.replicate n 2 ++ l) (List.replicate n 1 ++ l) = n := by
    intro n l
    induction n with
    | zero =>
      simp only [List.replicate_zero, List.nil_append]
      induction l with
      | nil => rfl
      | cons a t ih => rw [changed, if_pos rfl, ih]
    | succ n ih =>
      rw [List.replicate_succ, List.replicate_succ, List.cons_append, List.cons_append, changed, ih,
        if_neg (by decide)]
      omega
  refine ⟨List.replicate e 2 ++ List.replicate e 2, List.replicate e 1 ++ List.replicate e 2, by simp, ?_,
    ch _ _, ?_, ?_⟩
  · intro b hb
    rw [List.count_append, List.count_append, c1, c1, if_neg (Ne.symm hb), if_pos rfl]
    omega
  · refine link_label (k := 1) (winner_mode (leads_winner ⟨?_, fun b hb => ?_⟩)) rfl
    · simp [he.ne']
    · rw [List.count_append, List.count_append, c1, c1, if_neg (by simpa using Ne.symm hb), if_pos (by norm_num)]
      omega
  · refine link_label (k := 0) (winner_mode ⟨?_, fun b hb => ?_⟩) rfl
    · simp [he.ne']
    · rw [List.count_append, List.count_append, c1, c1, c1, c1]
      simp only [List.mem_append, List.mem_replicate] at hb
      rcases hb with ⟨-, rfl⟩ | ⟨-, rfl⟩ <;> norm_num

theorem winner_perm {l l' : List Int} (h : l.Perm l') {m : Int} (hw : Winner l m) : Winner l' m := by
  refine ⟨h.subset hw.1, fun b hb => ?_⟩
  rw [← h.count_eq, ← h.count_eq]
  exact hw.2 b (h.symm.subset hb)

theorem mode_winner {l : List Int} {m : Int} (h : mode l = some m) : Winner l m := mode_spec h

/-- **C165**: the order of the pixels does not matter. -/
theorem C165_order {α : Type} (ebsd : List α) {overlap overlap' : List Int} (h : overlap.Perm overlap') :
    linkByMode ebsd overlap = linkByMode ebsd overlap' := by
  unfold linkByMode
  cases hm : mode overlap with
  | none =>
    rw [mode_none] at hm
    subst hm
    rw [List.nil_perm.1 h]
    rfl
  | some m => rw [winner_mode (winner_perm h (mode_winner hm))]

/-- **C165**: with pixels `n` times as many, each seen `n` times, the links are the same. -/
theorem C165_finer {α : Type} (ebsd : List α) (overlap : List Int) {n : Nat} (hn : 0 < n) :
    linkByMode ebsd (overlap.flatMap fun a => List.replicate n a) = linkByMode ebsd overlap := by
  have hc : ∀ b, (overlap.flatMap fun a => List.replicate n a).count b = n * overlap.count b := by
    intro b
    induction overlap with
    | nil => simp
    | cons x t ih =>
      rw [List.flatMap_cons, List.count_append, ih, List.count_cons, List.count_replicate, Nat.mul_add]
      by_cases h : x = b
      · simp [h]; omega
      · simp [h]
  have hmem : ∀ b, b ∈ (overlap.flatMap fun a => List.replicate n a) ↔ b ∈ overlap := by
    intro b
    rw [← List.count_pos_iff, hc, ← List.count_pos_iff]
    exact ⟨fun h => Nat.pos_of_mul_pos_left h, fun h => Nat.mul_pos hn h⟩
  unfold linkByMode
  cases hm : mode overlap with
  | none =>
    rw [mode_none] at hm
    subst hm
    rfl
  | some m =>
    have hw := mode_winner hm
    rw [winner_mode (m := m) ⟨(hmem m).2 hw.1, fun b hb => ?_⟩]
    obtain ⟨h1, h2⟩ := hw.2 b ((hmem b).1 hb)
    rw [hc, hc]
    exact ⟨Nat.mul_le_mul_left n h1, fun h => h2 (Nat.eq_of_mul_eq_mul_left hn h)⟩

/-- **C165**: if two parts of a DIC grain would each be linked to one EBSD grain, so is the whole. -/
theorem C165_parts {α : Type} (ebsd : List α) (a b : List Int) (m : Int) (ha : Winner a m) (hb : Winner b m) :
    Winner (a ++ b) m ∧ linkByMode ebsd (a ++ b) = linkByMode ebsd a := by
  have hw : Winner (a ++ b) m := by
    refine ⟨List.mem_append_left _ ha.1, fun c _ => ?_⟩
    rw [List.count_append, List.count_append]
    have key : ∀ l : List Int, Winner l m → l.count c ≤ l.count m ∧ (l.count c = l.count m → m ≤ c) := by
      intro l hl
      by_cases hc : c ∈ l
      · exact hl.2 c hc
      · rw [List.count_eq_zero_of_not_mem hc]
        have := List.count_pos_iff.2 hl.1
        exact ⟨Nat.zero_le _, fun h => by omega⟩
    obtain ⟨h1, h2⟩ := key a ha
    obtain ⟨h3, h4⟩ := key b hb
    exact ⟨by omega, fun h => h2 (by omega)⟩
  refine ⟨hw, ?_⟩
  unfold linkByMode
  rw [winner_mode hw, winner_mode ha]

/-- **C165**: not so the other way: the whole can be linked to an EBSD grain that neither part would be. -/
theorem C165_whole {α : Type} (g0 g1 g2 : α) : ∃ a b : List Int,
    linkByMode [g0, g1, g2] a = .ok g0 ∧ linkByMode [g0, g1, g2] b = .ok g1 ∧
    linkByMode [g0, g1, g2] (a ++ b) = .ok g2 := by
  refine ⟨[1, 1, 1, 3, 3], [2, 2, 2, 3, 3], ?_, ?_, ?_⟩
  · exact link_label (k := 0) (by decide +kernel) rfl
  · exact link_label (k := 1) (by decide +kernel) rfl
  · exact link_label (k := 2) (by decide +kernel) rfl

/-- The second EBSD grain leads by five pixels at these eight, and two are changed. -/
example : Leads [2, 2, 2, 1, 2, 2, 2, 0] (((1 : Nat) : Int) + 1) (2 * 2) ∧
    changed [2, 2, 2, 1, 2, 2, 2, 0] [2, 1, 2, 1, 2, 2, 1, 0] ≤ 2 ∧
    [2, 2, 2, 1, 2, 2, 2, (0 : Int)].length < 2 * [2, 2, 2, 1, 2, 2, 2, (0 : Int)].count (((1 : Nat) : Int) + 1) := by
  refine ⟨⟨by decide, fun b hb => ?_⟩, by decide, by decide⟩
  by_cases h1 : b = 1
  · subst h1; decide
  · by_cases h0 : b = 0
    · subst h0; decide
    · rw [List.count_eq_zero_of_not_mem]
      · decide
      · simp only [List.mem_cons, List.not_mem_nil, or_false]
        norm_num at hb
        tauto

/-- Two parts of a grain on the third EBSD grain. -/
example : Winner [3, 1, 3] 3 ∧ Winner [3, 2, 3, 4] 3 := by
  constructor <;> refine ⟨by decide, ?_⟩ <;> decide

end DefDAP
