import Verif.Model.StatsTable
import Verif.Proofs.GrainData
import Mathlib.Data.List.GetD
import Mathlib.Tactic.Ring
import Mathlib.Tactic.Linarith
import Mathlib.Tactic.Positivity
import Mathlib.Tactic.NormNum
import Mathlib.Tactic.FieldSimp

/-! C116: the statistics table of a DIC map. -/

namespace DefDAP

/-! ### Sorted lists -/

theorem sortReal_perm (l : List ℝ) : (sortReal l).Perm l := List.mergeSort_perm l _

theorem sortReal_sorted (l : List ℝ) : (sortReal l).Pairwise (· ≤ ·) := by
  have := List.pairwise_mergeSort (le := fun a b : ℝ => decide (a ≤ b))
    (fun a b c h1 h2 => by simp only [decide_eq_true_eq] at *; exact le_trans h1 h2)
    (fun a b => by simp only [Bool.or_eq_true, decide_eq_true_eq]; exact le_total a b) l
  unfold sortReal
  exact this.imp fun h => by simpa using h

theorem sortReal_congr {l l' : List ℝ} (h : l.Perm l') : sortReal l = sortReal l' :=
  List.Perm.eq_of_pairwise (fun a b _ _ h1 h2 => le_antisymm h1 h2) (sortReal_sorted l) (sortReal_sorted l')
    (((sortReal_perm l).trans h).trans (sortReal_perm l').symm)

theorem sorted_getD {s : List ℝ} (hs : s.Pairwise (· ≤ ·)) {i j : Nat} (hij : i ≤ j) (hj : j < s.length) :
    s.getD i 0 ≤ s.getD j 0 := by
  rw [List.getD_eq_getElem _ _ hj, List.getD_eq_getElem _ _ (lt_of_le_of_lt hij hj)]
  rcases Nat.lt_or_ge i j with h | h
  · exact List.pairwise_iff_getElem.1 hs i j _ hj h
  · have : i = j := by omega
    subst this
    exact le_refl _

/-- Bounds of the interpolation by its two neighbours. -/
theorem lerpAt_bounds {s : List ℝ} (hs : s.Pairwise (· ≤ ·)) {h : ℝ} (h0 : 0 ≤ h)
    (h1 : h ≤ (s.length - 1 : ℕ)) (hne : s ≠ []) :
    ⌊h⌋₊ < s.length ∧ s.getD ⌊h⌋₊ 0 ≤ lerpAt s h ∧
    lerpAt s h ≤ s.getD (min (⌊h⌋₊ + 1) (s.length - 1)) 0 := by
  have hlen : 0 < s.length := List.length_pos_iff.2 hne
  have hk : ⌊h⌋₊ ≤ s.length - 1 := by
    have := Nat.floor_le_floor h1
    rwa [Nat.floor_natCast] at this
  have hf0 : 0 ≤ h - ⌊h⌋₊ := by have := Nat.floor_le h0; linarith
  have hf1 : h - ⌊h⌋₊ ≤ 1 := by have := Nat.lt_floor_add_one h; linarith
  have hle : s.getD ⌊h⌋₊ 0 ≤ s.getD (min (⌊h⌋₊ + 1) (s.length - 1)) 0 :=
    sorted_getD hs (by omega) (by omega)
  unfold lerpAt
  refine ⟨by omega, ?_, ?_⟩
  · have := mul_nonneg hf0 (sub_nonneg.2 hle)
    linarith
  · have := mul_le_mul_of_nonneg_right hf1 (sub_nonneg.2 hle)
    linarith

theorem lerpAt_mono {s : List ℝ} (hs : s.Pairwise (· ≤ ·)) {h h' : ℝ} (h0 : 0 ≤ h) (hh : h ≤ h')
    (h1 : h' ≤ (s.length - 1 : ℕ)) (hne : s ≠ []) : lerpAt s h ≤ lerpAt s h' := by
  have b := lerpAt_bounds hs h0 (le_trans hh h1) hne
  have b' := lerpAt_bounds hs (le_trans h0 hh) h1 hne
  have hk : ⌊h⌋₊ ≤ ⌊h'⌋₊ := Nat.floor_le_floor hh
  have hlen : 0 < s.length := List.length_pos_iff.2 hne
  rcases Nat.lt_or_ge ⌊h⌋₊ ⌊h'⌋₊ with hlt | hge
  · refine le_trans b.2.2 (le_trans ?_ b'.2.1)
    exact sorted_getD hs (by omega) b'.1
  · have e : ⌊h'⌋₊ = ⌊h⌋₊ := le_antisymm hge hk
    unfold lerpAt
    rw [e]
    have hle : s.getD ⌊h⌋₊ 0 ≤ s.getD (min (⌊h⌋₊ + 1) (s.length - 1)) 0 :=
      sorted_getD hs (by have := b.1; omega) (by omega)
    have := mul_le_mul_of_nonneg_right (sub_le_sub_right hh (⌊h⌋₊ : ℝ)) (sub_nonneg.2 hle)
    linarith

theorem lerpAt_zero (s : List ℝ) : lerpAt s 0 = s.getD 0 0 := by
  simp [lerpAt]

theorem lerpAt_last (s : List ℝ) : lerpAt s ((s.length - 1 : ℕ) : ℝ) = s.getD (s.length - 1) 0 := by
  simp [lerpAt, Nat.floor_natCast]

/-- Counting in a sorted list from the left. -/
theorem count_le_sorted {s : List ℝ} (hs : s.Pairwise (· ≤ ·)) {k : Nat} (hk : k < s.length) {r : ℝ}
    (hr : s.getD k 0 ≤ r) : k + 1 ≤ (s.filter fun v => decide (v ≤ r)).length := by
  have : (s.take (k + 1)).length ≤ (s.filter fun v => decide (v ≤ r)).length := by
    apply List.Sublist.length_le
    have h2 : (s.take (k + 1)).filter (fun v => decide (v ≤ r)) = s.take (k + 1) := by
      rw [List.filter_eq_self]
      intro v hv
      obtain ⟨i, hi, hv⟩ := List.getElem_of_mem hv
      rw [List.length_take] at hi
      rw [List.getElem_take] at hv
      have := sorted_getD hs (show i ≤ k by omega) hk
      rw [List.getD_eq_getElem _ _ (by omega), hv] at this
      simpa using le_trans this hr
    rw [← h2]
    exact List.Sublist.filter _ (List.take_sublist _ _)
  rwa [List.length_take, Nat.min_eq_left (by omega)] at this

/-- Counting in a sorted list from the right. -/
theorem count_ge_sorted {s : List ℝ} (hs : s.Pairwise (· ≤ ·)) {k : Nat} (hk : k < s.length) {r : ℝ}
    (hr : r ≤ s.getD k 0) : s.length - k ≤ (s.filter fun v => decide (r ≤ v)).length := by
  have : (s.drop k).length ≤ (s.filter fun v => decide (r ≤ v)).length := by
    apply List.Sublist.length_le
    have h2 : (s.drop k).filter (fun v => decide (r ≤ v)) = s.drop k := by
      rw [List.filter_eq_self]
      intro v hv
      obtain ⟨i, hi, hv⟩ := List.getElem_of_mem hv
      rw [List.length_drop] at hi
      rw [List.getElem_drop] at hv
      have := sorted_getD hs (show k ≤ k + i by omega) (by omega)
      rw [List.getD_eq_getElem _ _ (show k + i < s.length by omega), hv] at this
      simpa using le_trans hr this
    rw [← h2]
    exact List.Sublist.filter _ (List.drop_sublist _ _)
  rwa [List.length_drop] at this

/-- The values that are not nan. -/
def Spec.present (l : List (Option ℝ)) : List ℝ := l.filterMap id

theorem nanPercentile_ok {l : List (Option ℝ)} {p : ℝ} (hp0 : 0 ≤ p) (hp1 : p ≤ 100)
    (hne : Spec.present l ≠ []) :
    nanPercentile l p = .ok (some (lerpAt (sortReal (Spec.present l))
      (p / 100 * ((Spec.present l).length - 1 : ℕ)))) := by
  unfold nanPercentile
  rw [if_neg (by rintro (h | h) <;> linarith)]
  simp only [Spec.present] at hne ⊢
  rw [if_neg hne]

theorem nanPercentile_empty {l : List (Option ℝ)} {p : ℝ} (hp0 : 0 ≤ p) (hp1 : p ≤ 100)
    (hne : Spec.present l = []) : nanPercentile l p = .ok none := by
  unfold nanPercentile
  rw [if_neg (by rintro (h | h) <;> linarith)]
  simp only [Spec.present] at hne ⊢
  rw [if_pos hne]

theorem pos_range {l : List ℝ} {p : ℝ} (hp0 : 0 ≤ p) (hp1 : p ≤ 100) :
    0 ≤ p / 100 * ((l.length - 1 : ℕ) : ℝ) ∧
    p / 100 * ((l.length - 1 : ℕ) : ℝ) ≤ (((sortReal l).length - 1 : ℕ) : ℝ) := by
  have hn : (0 : ℝ) ≤ ((l.length - 1 : ℕ) : ℝ) := Nat.cast_nonneg _
  have h1 : p / 100 ≤ 1 := by linarith
  have h0 : 0 ≤ p / 100 := by linarith
  refine ⟨mul_nonneg h0 hn, ?_⟩
  rw [(sortReal_perm l).length_eq]
  calc _ ≤ 1 * ((l.length - 1 : ℕ) : ℝ) := mul_le_mul_of_nonneg_right h1 hn
    _ = _ := one_mul _

theorem sortReal_ne {l : List ℝ} (h : l ≠ []) : sortReal l ≠ [] := by
  intro hs
  have := (sortReal_perm l).length_eq
  rw [hs] at this
  exact h (List.length_eq_zero_iff.1 this.symm)

theorem perm_filter_length {l l' : List ℝ} (h : l.Perm l') (f : ℝ → Bool) :
    (l.filter f).length = (l'.filter f).length := (h.filter f).length_eq

/-! ### Index tuples -/

theorem forall2_mem_ndindex (dims t : List Nat) : t ∈ ndindex dims ↔ List.Forall₂ (· < ·) t dims := by
  induction dims generalizing t with
  | nil =>
    rw [ndindex, List.mem_singleton]
    constructor
    · rintro rfl
      exact .nil
    · intro h
      cases h
      rfl
  | cons d ds ih =>
    rw [ndindex]
    simp only [List.mem_flatMap, List.mem_range, List.mem_map]
    constructor
    · rintro ⟨i, hi, t', ht', rfl⟩
      exact .cons hi ((ih _).1 ht')
    · intro h
      cases h with
      | cons h1 h2 => exact ⟨_, h1, _, (ih _).2 h2, rfl⟩

theorem ndindex_sorted (dims : List Nat) : (ndindex dims).Pairwise (List.Lex (· < ·)) := by
  induction dims with
  | nil => exact List.pairwise_singleton _ _
  | cons d ds ih =>
    rw [ndindex, List.pairwise_flatMap]
    refine ⟨fun i _ => ?_, ?_⟩
    · rw [List.pairwise_map]
      exact ih.imp fun h => List.Lex.cons h
    · refine List.pairwise_lt_range.imp ?_
      intro i j hij a ha b hb
      obtain ⟨a', -, rfl⟩ := List.mem_map.1 ha
      obtain ⟨b', -, rfl⟩ := List.mem_map.1 hb
      exact List.Lex.rel hij

/-! ### The property -/

/-- **C116 (components).** The tensor components of an item are all tuples below its leading dimensions,
each once, in lexicographic order. -/
theorem C116_index (dims : List Nat) :
    (∀ t, t ∈ ndindex dims ↔ List.Forall₂ (· < ·) t dims) ∧
    (ndindex dims).Pairwise (List.Lex (· < ·)) :=
  ⟨fun t => forall2_mem_ndindex dims t, ndindex_sorted dims⟩

/-- The row of a component: for each percentile the percentile of its values. -/
def Spec.IsRow (c : Str) (d : StatData) (ps : List ℝ) (i : List Nat) (row : StatRow) : Prop :=
  row.1 = c ++ (i.map fun t => (toString (t + 1)).toList).flatten ∧
  List.Forall₂ (fun p v => nanPercentile (d.vals i) p = .ok v) ps row.2

theorem mapM_forall2 {α β : Type} {f : α → Except Err β} :
    ∀ {l : List α} {r : List β}, l.mapM f = .ok r → List.Forall₂ (fun a b => f a = .ok b) l r
  | [], r, h => by
    cases h
    exact .nil
  | a :: l, r, h => by
    rw [List.mapM_cons] at h
    cases ha : f a with
    | error e => rw [ha] at h; cases h
    | ok b =>
      rw [ha] at h
      cases hl : l.mapM f with
      | error e =>
        change ((l.mapM f).bind _) = _ at h
        rw [hl] at h
        cases h
      | ok bs =>
        change ((l.mapM f).bind _) = _ at h
        rw [hl] at h
        cases h
        exact .cons ha (mapM_forall2 hl)

theorem percentiles_ok (l : List (Option ℝ)) (ps : List ℝ) (hps : ∀ p ∈ ps, 0 ≤ p ∧ p ≤ 100) :
    ∃ r, ps.mapM (nanPercentile l) = .ok r := by
  induction ps with
  | nil => exact ⟨[], rfl⟩
  | cons p ps ih =>
    obtain ⟨r, hr⟩ := ih fun q hq => hps q (List.mem_cons_of_mem _ hq)
    have hp := hps p List.mem_cons_self
    have : ∃ v, nanPercentile l p = .ok v := by
      by_cases hne : Spec.present l = []
      · exact ⟨none, nanPercentile_empty hp.1 hp.2 hne⟩
      · exact ⟨_, nanPercentile_ok hp.1 hp.2 hne⟩
    obtain ⟨v, hv⟩ := this
    refine ⟨v :: r, ?_⟩
    rw [List.mapM_cons, hv]
    show (ps.mapM (nanPercentile l)).bind _ = _
    rw [hr]
    rfl

theorem statRows_ok (c : Str) (d : StatData) (ps : List ℝ) (hps : ∀ p ∈ ps, 0 ≤ p ∧ p ≤ 100)
    (is : List (List Nat)) :
    (statRows c d ps is).1 = .ok () ∧
    List.Forall₂ (Spec.IsRow c d ps) is (statRows c d ps is).2 := by
  induction is with
  | nil => exact ⟨rfl, .nil⟩
  | cons i is ih =>
    obtain ⟨r, hr⟩ := percentiles_ok (d.vals i) ps hps
    rw [statRows, hr]
    refine ⟨ih.1, .cons ⟨?_, mapM_forall2 hr⟩ ih.2⟩
    show rowLabel c i = _
    unfold rowLabel
    rw [List.flatMap_def]

/-- **C116 (table).** If the items asked for are in the store with data and the percentiles are between
0 and 100, the table has one row for each tensor component of each item, in the order asked for, labelled
with the name and the indices from 1, with the percentiles in the order asked for. -/
theorem C116_table (names : List Str) (read : Str → Except Err (Option StatData)) (ps : List ℝ)
    (components : List Str) (item : Str → StatData) (hps : ∀ p ∈ ps, 0 ≤ p ∧ p ≤ 100)
    (hin : ∀ c ∈ components, c ∈ names) (hread : ∀ c ∈ components, read c = .ok (some (item c))) :
    ∃ blocks : List (List StatRow),
      printStats names read ps components = (.ok (), some ps, blocks.flatten) ∧
      List.Forall₂ (fun c rows => List.Forall₂ (Spec.IsRow c (item c) ps) (ndindex (item c).dims) rows)
        components blocks := by
  unfold printStats
  rw [if_pos hin]
  clear hin
  induction components with
  | nil => exact ⟨[], rfl, .nil⟩
  | cons c cs ih =>
    obtain ⟨blocks, h1, h2⟩ := ih fun x hx => hread x (List.mem_cons_of_mem _ hx)
    have hr := statRows_ok c (item c) ps hps (ndindex (item c).dims)
    refine ⟨(statRows c (item c) ps (ndindex (item c).dims)).2 :: blocks, ?_, .cons hr.2 h2⟩
    simp only [Prod.mk.injEq] at h1 ⊢
    rw [statTable, hread c List.mem_cons_self]
    simp only
    generalize hq : statRows c (item c) ps (ndindex (item c).dims) = q at hr ⊢
    obtain ⟨q1, q2⟩ := q
    obtain rfl : q1 = .ok () := hr.1
    exact ⟨h1.1, trivial, by rw [List.flatten_cons, ← h1.2.2]⟩

/-- **C116 (errors).** A name that is not in the store is an exception and nothing is printed. -/
theorem C116_unknown (names : List Str) (read : Str → Except Err (Option StatData)) (ps : List ℝ)
    (components : List Str) (c : Str) (hc : c ∈ components) (hn : c ∉ names) :
    printStats names read ps components = (.error .exception, none, []) := by
  unfold printStats
  rw [if_neg fun h => hn (h c hc)]

/-- **C116 (false without data).** For the first item without data, as the mask of a map without one, the
call ends with an `AttributeError` after the rows of the items before. -/
theorem C116_no_data (names : List Str) (read : Str → Except Err (Option StatData)) (ps : List ℝ)
    (before after : List Str) (c : Str) (item : Str → StatData) (hps : ∀ p ∈ ps, 0 ≤ p ∧ p ≤ 100)
    (hin : ∀ x ∈ before ++ c :: after, x ∈ names) (hread : ∀ x ∈ before, read x = .ok (some (item x)))
    (hc : read c = .ok none) :
    (printStats names read ps (before ++ c :: after)).1 = .error .attributeError ∧
    (printStats names read ps (before ++ c :: after)).2.2 = (printStats names read ps before).2.2 := by
  unfold printStats
  rw [if_pos hin, if_pos fun x hx => hin x (List.mem_append_left _ hx)]
  clear hin
  simp only
  induction before with
  | nil =>
    show (statTable read ps (c :: after)).1 = _ ∧ (statTable read ps (c :: after)).2 = _
    simp only [statTable, hc]
    exact ⟨trivial, trivial⟩
  | cons b bs ih =>
    have := ih fun x hx => hread x (List.mem_cons_of_mem _ hx)
    have hr := statRows_ok b (item b) ps hps (ndindex (item b).dims)
    rw [List.cons_append, statTable, statTable, hread b List.mem_cons_self]
    simp only
    generalize statRows b (item b) ps (ndindex (item b).dims) = q at hr ⊢
    obtain ⟨q1, q2⟩ := q
    obtain rfl : q1 = .ok () := hr.1
    exact ⟨this.1, by simp only; rw [this.2]⟩

/-- **C116 (percentiles).** For values not all nan and a percentile `p` between 0 and 100 there is a number
`r` with more than `p/100 (n-1)` values at or below it and at least `(1-p/100) (n-1)` at or above, where
`n` counts the values that are not nan. It lies between two values. Percentile 0 is the least and 100 the
greatest value. -/
theorem C116_percentile (l : List (Option ℝ)) (p : ℝ) (hp0 : 0 ≤ p) (hp1 : p ≤ 100)
    (hne : Spec.present l ≠ []) :
    ∃ r, nanPercentile l p = .ok (some r) ∧
      p / 100 * ((Spec.present l).length - 1) < ((Spec.present l).filter fun v => decide (v ≤ r)).length ∧
      (1 - p / 100) * ((Spec.present l).length - 1) ≤
        ((Spec.present l).filter fun v => decide (r ≤ v)).length ∧
      (∃ a ∈ Spec.present l, ∃ b ∈ Spec.present l, a ≤ r ∧ r ≤ b) ∧
      (p = 0 → r ∈ Spec.present l ∧ ∀ v ∈ Spec.present l, r ≤ v) ∧
      (p = 100 → r ∈ Spec.present l ∧ ∀ v ∈ Spec.present l, v ≤ r) := by
  refine ⟨_, nanPercentile_ok hp0 hp1 hne, ?_⟩
  generalize Spec.present l = s at hne ⊢
  have hperm := sortReal_perm s
  have hs := sortReal_sorted s
  have hsn := sortReal_ne hne
  have hr := pos_range (l := s) hp0 hp1
  have hl := hperm.length_eq
  have hlen : 0 < s.length := List.length_pos_iff.2 hne
  have hcast : ((s.length - 1 : ℕ) : ℝ) = (s.length : ℝ) - 1 := by
    rw [Nat.cast_sub hlen]; simp
  have hb := lerpAt_bounds hs hr.1 hr.2 hsn
  have hmem : ∀ i, i < s.length → (sortReal s).getD i 0 ∈ s := by
    intro i hi
    rw [List.getD_eq_getElem _ _ (by omega)]
    exact hperm.mem_iff.1 (List.getElem_mem _)
  have hmin : ∀ v ∈ s, (sortReal s).getD 0 0 ≤ v := by
    intro v hv
    obtain ⟨i, hi, hv⟩ := List.getElem_of_mem (hperm.mem_iff.2 hv)
    have := sorted_getD hs (Nat.zero_le i) hi
    rwa [List.getD_eq_getElem _ _ hi, hv] at this
  have hmax : ∀ v ∈ s, v ≤ (sortReal s).getD ((sortReal s).length - 1) 0 := by
    intro v hv
    obtain ⟨i, hi, hv⟩ := List.getElem_of_mem (hperm.mem_iff.2 hv)
    have := sorted_getD hs (show i ≤ (sortReal s).length - 1 by omega) (by omega)
    rwa [List.getD_eq_getElem _ _ hi, hv] at this
  generalize hh : p / 100 * ((s.length - 1 : ℕ) : ℝ) = h at hr hb ⊢
  have hh' : p / 100 * ((s.length : ℝ) - 1) = h := by rw [← hcast]; exact hh
  refine ⟨?_, ?_, ?_, ?_, ?_⟩
  · rw [hh', perm_filter_length hperm.symm]
    have h1 := count_le_sorted hs hb.1 hb.2.1
    have h2 := Nat.lt_floor_add_one h
    have h3 : ((⌊h⌋₊ + 1 : ℕ) : ℝ) ≤ _ := Nat.cast_le.2 h1
    push_cast at h3
    linarith
  · rw [perm_filter_length hperm.symm]
    have e : (1 - p / 100) * ((s.length : ℝ) - 1) = (s.length : ℝ) - 1 - h := by rw [← hh']; ring
    rw [e]
    have h1 := count_ge_sorted hs (k := min (⌊h⌋₊ + 1) ((sortReal s).length - 1)) (by omega) hb.2.2
    have h2 := Nat.floor_le hr.1
    have h3 : (sortReal s).length - (⌊h⌋₊ + 1) ≤ (sortReal s).length - min (⌊h⌋₊ + 1) ((sortReal s).length - 1) := by
      omega
    have h4 : (((sortReal s).length - (⌊h⌋₊ + 1) : ℕ) : ℝ) ≤ _ := Nat.cast_le.2 (le_trans h3 h1)
    have h5 : ((sortReal s).length : ℝ) - (⌊h⌋₊ + 1) = (((sortReal s).length - (⌊h⌋₊ + 1) : ℕ) : ℝ) := by
      rw [Nat.cast_sub hb.1]; push_cast; ring
    rw [hl] at h5
    rw [hl] at h4
    linarith
  · exact ⟨_, hmem _ (by omega), _, hmem (min (⌊h⌋₊ + 1) ((sortReal s).length - 1)) (by omega), hb.2⟩
  · intro hp
    have : h = 0 := by rw [← hh, hp]; simp
    rw [this, lerpAt_zero]
    exact ⟨hmem 0 hlen, hmin⟩
  · intro hp
    have : h = (((sortReal s).length - 1 : ℕ) : ℝ) := by rw [← hh, hp, hl]; norm_num
    rw [this, lerpAt_last]
    exact ⟨hmem _ (by omega), hmax⟩

/-- **C116 (order of the percentiles).** A greater percentile has no smaller value. -/
theorem C116_monotone (l : List (Option ℝ)) (p q : ℝ) (hp0 : 0 ≤ p) (hpq : p ≤ q) (hq1 : q ≤ 100)
    (a b : ℝ) (ha : nanPercentile l p = .ok (some a)) (hb : nanPercentile l q = .ok (some b)) : a ≤ b := by
  by_cases hne : Spec.present l = []
  · rw [nanPercentile_empty hp0 (le_trans hpq hq1) hne] at ha
    cases ha
  · rw [nanPercentile_ok hp0 (le_trans hpq hq1) hne] at ha
    rw [nanPercentile_ok (le_trans hp0 hpq) hq1 hne] at hb
    cases ha
    cases hb
    have h1 := pos_range (l := Spec.present l) hp0 (le_trans hpq hq1)
    have h2 := pos_range (l := Spec.present l) (le_trans hp0 hpq) hq1
    refine lerpAt_mono (sortReal_sorted _) h1.1 ?_ h2.2 (sortReal_ne hne)
    exact mul_le_mul_of_nonneg_right (by linarith) (Nat.cast_nonneg _)

/-- **C116 (points).** The percentiles depend neither on the order of the points nor on points without
data; without any data they are nan, and outside 0 to 100 they are a `ValueError`. -/
theorem C116_points (l l' : List (Option ℝ)) (p : ℝ) (h : (Spec.present l).Perm (Spec.present l')) :
    nanPercentile l p = nanPercentile l' p ∧
    (0 ≤ p → p ≤ 100 → (∀ v ∈ l, v = none) → nanPercentile l p = .ok none) ∧
    (p < 0 ∨ 100 < p → nanPercentile l p = .error .valueError) := by
  refine ⟨?_, ?_, ?_⟩
  · unfold nanPercentile
    have hl := h.length_eq
    have hs := sortReal_congr h
    have hnil : Spec.present l = [] ↔ Spec.present l' = [] := by
      rw [← List.length_eq_zero_iff, ← List.length_eq_zero_iff, hl]
    simp only [Spec.present] at hl hs hnil
    rw [hl, hs]
    simp only [hnil]
  · intro h0 h1 hn
    unfold nanPercentile
    rw [if_neg (by rintro (h | h) <;> linarith), if_pos]
    rw [List.filterMap_eq_nil_iff]
    exact hn
  · intro hp
    unfold nanPercentile
    rw [if_pos hp]

/-! ### The hypotheses are met -/

/-- A tensor map has four rows, in the order 11, 12, 21, 22. -/
example : (ndindex [2, 2]).map (rowLabel (lit "e")) =
    [lit "e11", lit "e12", lit "e21", lit "e22"] := by decide +kernel

/-- Values with nan. -/
example : Spec.present [some 2, none, some 1] = [2, 1] ∧ Spec.present [none, some 1, some 2] = [1, 2] ∧
    ([2, 1] : List ℝ).Perm [1, 2] := ⟨rfl, rfl, List.Perm.swap _ _ _⟩

end DefDAP
