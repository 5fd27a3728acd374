import Verif.Model.RdrWindow
import Mathlib.Tactic.Ring
import Mathlib.Tactic.Linarith
import Mathlib.Tactic.FieldSimp
import Mathlib.Tactic.Positivity
import Mathlib.Tactic.NormNum

/-! C118: the window of a measured relative displacement ratio. -/

namespace DefDAP

theorem centred_sum_zero (l : List ℝ) : (centred l).sum = 0 := by
  unfold centred
  rcases Nat.eq_zero_or_pos l.length with h | h
  · rw [List.length_eq_zero_iff] at h
    subst h
    rfl
  · have key : ∀ (c : ℝ) (l : List ℝ), (l.map fun v => v - c).sum = l.sum - c * l.length := by
      intro c l
      induction l with
      | nil => simp
      | cons a l ih =>
        rw [List.map_cons, List.sum_cons, ih, List.sum_cons, List.length_cons]
        push_cast
        ring
    rw [key]
    have : (l.length : ℝ) ≠ 0 := by positivity
    field_simp
    ring

theorem centredRows_sum_zero (l : List (List ℝ)) : ((l.map centred).flatten).sum = 0 := by
  induction l with
  | nil => rfl
  | cons a l ih => rw [List.map_cons, List.flatten_cons, List.sum_append, ih, centred_sum_zero, add_zero]

theorem foldlMin_spec (l : List ℝ) (a : ℝ) :
    (l.foldl min a = a ∨ l.foldl min a ∈ l) ∧ l.foldl min a ≤ a ∧ ∀ x ∈ l, l.foldl min a ≤ x := by
  induction l generalizing a with
  | nil => exact ⟨.inl rfl, le_refl _, fun x h => absurd h List.not_mem_nil⟩
  | cons b l ih =>
    obtain ⟨h1, h2, h3⟩ := ih (min a b)
    rw [List.foldl_cons]
    refine ⟨?_, le_trans h2 (min_le_left _ _), fun x hx => ?_⟩
    · rcases h1 with h1 | h1
      · rcases le_total a b with h | h
        · left; rw [h1, min_eq_left h]
        · right; rw [h1, min_eq_right h]; exact List.mem_cons_self
      · exact .inr (List.mem_cons_of_mem _ h1)
    · rcases List.mem_cons.1 hx with rfl | hx
      · exact le_trans h2 (min_le_right _ _)
      · exact h3 x hx

theorem foldlMax_spec (l : List ℝ) (a : ℝ) :
    (l.foldl max a = a ∨ l.foldl max a ∈ l) ∧ a ≤ l.foldl max a ∧ ∀ x ∈ l, x ≤ l.foldl max a := by
  induction l generalizing a with
  | nil => exact ⟨.inl rfl, le_refl _, fun x h => absurd h List.not_mem_nil⟩
  | cons b l ih =>
    obtain ⟨h1, h2, h3⟩ := ih (max a b)
    rw [List.foldl_cons]
    refine ⟨?_, le_trans (le_max_left _ _) h2, fun x hx => ?_⟩
    · rcases h1 with h1 | h1
      · rcases le_total a b with h | h
        · right; rw [h1, max_eq_right h]; exact List.mem_cons_self
        · left; rw [h1, max_eq_left h]
      · exact .inr (List.mem_cons_of_mem _ h1)
    · rcases List.mem_cons.1 hx with rfl | hx
      · exact le_trans (le_max_right _ _) h2
      · exact h3 x hx

theorem leastOf_spec {l : List ℝ} (h : l ≠ []) : leastOf l ∈ l ∧ ∀ x ∈ l, leastOf l ≤ x := by
  cases l with
  | nil => exact absurd rfl h
  | cons a l =>
    obtain ⟨h1, h2, h3⟩ := foldlMin_spec (a :: l) a
    refine ⟨?_, h3⟩
    rcases h1 with h1 | h1
    · show List.foldl min a (a :: l) ∈ _
      rw [h1]
      exact List.mem_cons_self
    · exact h1

theorem greatestOf_spec {l : List ℝ} (h : l ≠ []) : greatestOf l ∈ l ∧ ∀ x ∈ l, x ≤ greatestOf l := by
  cases l with
  | nil => exact absurd rfl h
  | cons a l =>
    obtain ⟨h1, h2, h3⟩ := foldlMax_spec (a :: l) a
    refine ⟨?_, h3⟩
    rcases h1 with h1 | h1
    · show List.foldl max a (a :: l) ∈ _
      rw [h1]
      exact List.mem_cons_self
    · exact h1

theorem rdrBlocks_spec {S : Type} (info : RdrInfo S) (sf : S → ℝ) (active : List Nat) (i : Nat) (off : ℝ)
    (planes : List (List S)) (hne : [] ∉ planes) :
    ∃ bs, rdrBlocks info sf active i off planes = .ok bs ∧ bs.length = planes.length ∧
      ∀ (k : Nat) (g : List S) (s : S), planes[k]? = some g → g.head? = some s →
        bs[k]? = some ⟨info.planeLabel s, info.trace s,
          g.map fun t => (info.dirLabel t, sf t, info.ratio t), decide (i + k ∈ active),
          0.9 - (off + 0.0275 * ((planes.take k).map fun g => (g.length : ℝ) + 1).sum)⟩ := by
  induction planes generalizing i off with
  | nil =>
    refine ⟨[], rfl, rfl, fun k g s h => ?_⟩
    rw [List.getElem?_nil] at h
    cases h
  | cons p rest ih =>
    cases p with
    | nil => exact absurd List.mem_cons_self hne
    | cons s g =>
      obtain ⟨bs, h1, h2, h3⟩ := ih (i + 1) (off + 0.0275 * ((s :: g).length + 1))
        fun h => hne (List.mem_cons_of_mem _ h)
      refine ⟨_, by rw [rdrBlocks, h1]; rfl, by simp [h2], ?_⟩
      intro k g' s' hk hs
      cases k with
      | zero =>
        simp only [List.getElem?_cons_zero, Option.some.injEq] at hk
        subst hk
        cases hs
        simp
      | succ k =>
        rw [List.getElem?_cons_succ] at hk ⊢
        rw [h3 k g' s' hk hs]
        simp only [List.take_succ_cons, List.map_cons, List.sum_cons]
        congr 2
        · rw [show i + 1 + k = i + (k + 1) by omega]
        · ring

/-- **C118 (regression line).** If the measurement succeeds, the line in the window goes from the least to the
greatest centred value of `v`, and through the origin with the slope saved. -/
theorem C118_line {S : Type} (info : RdrInfo S) (active : List Nat) (u v : List (List ℝ)) (slope : ℝ)
    (win : RdrWindow S) (h : finishRdr info active u v = (some slope, .ok win)) :
    win.lineStart.2 = slope * win.lineStart.1 ∧ win.lineEnd.2 = slope * win.lineEnd.1 ∧
    win.lineStart.1 ∈ (v.map centred).flatten ∧ win.lineEnd.1 ∈ (v.map centred).flatten ∧
    ∀ x ∈ (v.map centred).flatten, win.lineStart.1 ≤ x ∧ x ≤ win.lineEnd.1 := by
  unfold finishRdr at h
  cases hs : linregressSlope (v.map centred).flatten (u.map centred).flatten with
  | error e => rw [hs] at h; cases h
  | ok r =>
    rw [hs] at h
    simp only [Prod.mk.injEq, Option.some.injEq] at h
    obtain ⟨rfl, hw⟩ := h
    have hne : (v.map centred).flatten ≠ [] := by
      intro hn
      rw [hn] at hs
      cases hs
    have hc : linregressIntercept r (v.map centred).flatten (u.map centred).flatten = 0 := by
      unfold linregressIntercept
      rw [centredRows_sum_zero, centredRows_sum_zero]
      ring
    unfold plotRdr at hw
    simp only at hw
    rw [hc] at hw
    by_cases hp : [] ∈ info.planes
    · rw [if_pos hp] at hw
      cases hw
    · rw [if_neg hp] at hw
      cases hsf : info.schmid with
      | none => rw [hsf] at hw; cases hw
      | some sf =>
        rw [hsf] at hw
        obtain ⟨bs, hb, -⟩ := rdrBlocks_spec info sf active 0 0 info.planes hp
        simp only [hb] at hw
        cases hw
        have h1 := leastOf_spec hne
        have h2 := greatestOf_spec hne
        exact ⟨add_zero _, add_zero _, h1.1, h2.1, fun x hx => ⟨h1.2 x hx, h2.2 x hx⟩⟩

theorem rdr_text {S : Type} (info : RdrInfo S) (active : List Nat) (us vs : List (List ℝ)) (slope : ℝ)
    (sf : S → ℝ) (hsf : info.schmid = some sf) (hne : [] ∉ info.planes) :
    ∃ win, plotRdr info active us vs slope = .ok win ∧ win.blocks.length = info.planes.length ∧
      (∀ (k : Nat) (g : List S) (s : S), info.planes[k]? = some g → g.head? = some s →
        ∃ b, win.blocks[k]? = some b ∧ b.plane = info.planeLabel s ∧ b.angle = info.trace s ∧
          b.rows = g.map (fun t => (info.dirLabel t, sf t, info.ratio t)) ∧ (b.bold = true ↔ k ∈ active)) ∧
      (∀ b, win.blocks[0]? = some b → b.y = (0.9 : ℝ)) ∧
      ∀ (k : Nat) (b b' : RdrBlock), win.blocks[k]? = some b → win.blocks[k + 1]? = some b' →
        b.y - b'.y = (0.0275 : ℝ) * (b.rows.length + 1) := by
  obtain ⟨bs, h1, h2, h3⟩ := rdrBlocks_spec info sf active 0 0 info.planes hne
  have hget : ∀ (k : Nat) (b : RdrBlock), bs[k]? = some b → ∃ g s, info.planes[k]? = some g ∧
      g.head? = some s := by
    intro k b hb
    have hk : k < info.planes.length := by
      rw [← h2]
      exact (List.getElem?_eq_some_iff.1 hb).1
    refine ⟨info.planes[k], ?_⟩
    have hmem : info.planes[k] ∈ info.planes := List.getElem_mem hk
    cases hg : info.planes[k] with
    | nil => rw [hg] at hmem; exact absurd hmem hne
    | cons s g => exact ⟨s, by rw [List.getElem?_eq_getElem hk, hg], rfl⟩
  refine ⟨_, by unfold plotRdr; simp only; rw [if_neg hne, hsf]; simp only; rw [h1]; rfl, h2, ?_, ?_, ?_⟩
  · intro k g s hg hs
    refine ⟨_, h3 k g s hg hs, rfl, rfl, rfl, ?_⟩
    rw [decide_eq_true_eq, Nat.zero_add]
  · intro b hb
    obtain ⟨g, s, hg, hs⟩ := hget 0 b hb
    have := h3 0 g s hg hs
    change bs[0]? = some b at hb
    rw [hb] at this
    cases this
    show (0.9 : ℝ) - (0 + 0.0275 * (([] : List (List S)).map fun g => (g.length : ℝ) + 1).sum) = 0.9
    simp
  · intro k b b' hb hb'
    obtain ⟨g, s, hg, hs⟩ := hget k b hb
    obtain ⟨g', s', hg', hs'⟩ := hget (k + 1) b' hb'
    have e := h3 k g s hg hs
    have e' := h3 (k + 1) g' s' hg' hs'
    change bs[k]? = some b at hb
    change bs[k + 1]? = some b' at hb'
    rw [hb] at e
    rw [hb'] at e'
    cases e
    cases e'
    have hk : k < info.planes.length := (List.getElem?_eq_some_iff.1 hg).1
    have hgk : info.planes[k] = g := (List.getElem?_eq_some_iff.1 hg).2
    simp only [List.length_map]
    rw [List.take_succ_eq_append_getElem hk, hgk]
    simp only [List.map_append, List.sum_append, List.map_cons, List.map_nil, List.sum_cons, List.sum_nil]
    ring

theorem rdr_labels {S : Type} (info : RdrInfo S) (slope : ℝ) :
    (∀ g ∈ info.planes, ∀ s ∈ g, |info.ratio s - slope| < 1.5 →
      ∃ l, (info.ratio s, l) ∈ rdrLabels info slope ∧ s ∈ l) ∧
    (∀ r l, (r, l) ∈ rdrLabels info slope → |r - slope| < 1.5 ∧ l ≠ [] ∧
      ∀ s ∈ l, info.ratio s = r ∧ ∃ g ∈ info.planes, s ∈ g) ∧
    ((rdrLabels info slope).map Prod.fst).Nodup := by
  classical
  have habs : ∀ r : ℝ, (slope - 1.5 < r ∧ r < slope + 1.5) ↔ |r - slope| < 1.5 := by
    intro r
    rw [abs_lt]
    constructor <;> rintro ⟨a, b⟩ <;> constructor <;> linarith
  unfold rdrLabels
  refine ⟨?_, ?_, ?_⟩
  · intro g hg s hs hr
    refine ⟨_, List.mem_map.2 ⟨info.ratio s, ?_, rfl⟩, ?_⟩
    · rw [List.mem_filter, List.mem_dedup, List.mem_flatten]
      refine ⟨⟨g.map info.ratio, List.mem_map.2 ⟨g, hg, rfl⟩, List.mem_map.2 ⟨s, hs, rfl⟩⟩, ?_⟩
      rw [decide_eq_true_eq, habs]
      exact hr
    · rw [List.mem_flatMap]
      exact ⟨g, hg, List.mem_filter.2 ⟨hs, by simp⟩⟩
  · intro r l hl
    obtain ⟨r', hr', e⟩ := List.mem_map.1 hl
    simp only [Prod.mk.injEq] at e
    obtain ⟨rfl, rfl⟩ := e
    rw [List.mem_filter, List.mem_dedup, List.mem_flatten] at hr'
    obtain ⟨⟨x, hx, hrx⟩, hd⟩ := hr'
    rw [decide_eq_true_eq, habs] at hd
    obtain ⟨g, hg, rfl⟩ := List.mem_map.1 hx
    obtain ⟨s, hs, rfl⟩ := List.mem_map.1 hrx
    refine ⟨hd, ?_, ?_⟩
    · intro hnil
      have : s ∈ info.planes.flatMap fun g => g.filter fun t => decide (info.ratio t = info.ratio s) :=
        List.mem_flatMap.2 ⟨g, hg, List.mem_filter.2 ⟨hs, by simp⟩⟩
      rw [hnil] at this
      exact absurd this List.not_mem_nil
    · intro t ht
      obtain ⟨g', hg', ht⟩ := List.mem_flatMap.1 ht
      obtain ⟨a, b⟩ := List.mem_filter.1 ht
      exact ⟨by simpa using b, g', hg', a⟩
  · rw [List.map_map]
    have : (Prod.fst ∘ fun r : ℝ => (r, info.planes.flatMap fun g => g.filter fun s =>
        decide (info.ratio s = r))) = id := rfl
    rw [this, List.map_id]
    exact List.Nodup.filter _ (List.nodup_dedup _)

/-- **C118 (slip systems).** With Schmid factors the window has one text for each slip plane, in their
order: the plane, its trace angle and the direction, Schmid factor and ratio of each of its systems. It is
bold exactly for the planes of the group. Texts do not overlap: the next one starts below by as many lines
as the text has. -/
theorem C118_text {S : Type} (info : RdrInfo S) (active : List Nat) (u v : List (List ℝ)) (slope : ℝ)
    (res : Except Err (RdrWindow S)) (h : finishRdr info active u v = (some slope, res))
    (sf : S → ℝ) (hsf : info.schmid = some sf) (hne : [] ∉ info.planes) :
    ∃ win, res = .ok win ∧ win.blocks.length = info.planes.length ∧
      (∀ (k : Nat) (g : List S) (s : S), info.planes[k]? = some g → g.head? = some s →
        ∃ b, win.blocks[k]? = some b ∧ b.plane = info.planeLabel s ∧ b.angle = info.trace s ∧
          b.rows = g.map (fun t => (info.dirLabel t, sf t, info.ratio t)) ∧ (b.bold = true ↔ k ∈ active)) ∧
      (∀ b, win.blocks[0]? = some b → b.y = (0.9 : ℝ)) ∧
      ∀ (k : Nat) (b b' : RdrBlock), win.blocks[k]? = some b → win.blocks[k + 1]? = some b' →
        b.y - b'.y = (0.0275 : ℝ) * (b.rows.length + 1) := by
  unfold finishRdr at h
  split at h
  · cases h
  · cases h
    exact rdr_text info active _ _ _ sf hsf hne

/-- **C118 (number line).** Every slip system whose ratio is less than 1.5 from the one measured is in exactly
one label, at its ratio; a label has only systems of its ratio, and at least one; no ratio has two labels. -/
theorem C118_labels {S : Type} (info : RdrInfo S) (active : List Nat) (u v : List (List ℝ)) (slope : ℝ)
    (win : RdrWindow S) (h : finishRdr info active u v = (some slope, .ok win)) :
    (∀ g ∈ info.planes, ∀ s ∈ g, |info.ratio s - slope| < 1.5 →
      ∃ l, (info.ratio s, l) ∈ win.labels ∧ s ∈ l) ∧
    (∀ r l, (r, l) ∈ win.labels → |r - slope| < 1.5 ∧ l ≠ [] ∧
      ∀ s ∈ l, info.ratio s = r ∧ ∃ g ∈ info.planes, s ∈ g) ∧
    (win.labels.map Prod.fst).Nodup := by
  have hw : win.labels = rdrLabels info slope := by
    unfold finishRdr at h
    split at h
    · cases h
    · simp only [Prod.mk.injEq, Option.some.injEq] at h
      obtain ⟨rfl, hw⟩ := h
      unfold plotRdr at hw
      simp only at hw
      split at hw
      · cases hw
      · split at hw
        · cases hw
        · next sf _ =>
          cases hb : rdrBlocks info sf active 0 0 info.planes with
          | error e => rw [hb] at hw; cases hw
          | ok bs => rw [hb] at hw; cases hw; rfl
  rw [hw]
  exact rdr_labels info slope

/-- **C118 (false for the number of values).** The number `n` shown is that of pixels along the lines, not of
the values in the regression. -/
theorem C118_count {S : Type} (info : RdrInfo S) (active : List Nat) (u v : List (List ℝ)) (slope : ℝ)
    (win : RdrWindow S) (h : finishRdr info active u v = (some slope, .ok win)) (m : Nat) (hm : 1 < m)
    (hu : u ≠ []) (hrow : ∀ r ∈ u, r.length = m) :
    win.count = u.length ∧ win.count < (u.map centred).flatten.length := by
  have hc : win.count = u.length := by
    unfold finishRdr at h
    cases hs : linregressSlope (v.map centred).flatten (u.map centred).flatten with
    | error e => rw [hs] at h; cases h
    | ok r =>
      rw [hs] at h
      simp only [Prod.mk.injEq] at h
      have hw := h.2
      unfold plotRdr at hw
      simp only at hw
      by_cases hp : [] ∈ info.planes
      · rw [if_pos hp] at hw
        cases hw
      · rw [if_neg hp] at hw
        cases hsf : info.schmid with
        | none => rw [hsf] at hw; cases hw
        | some sf =>
          rw [hsf] at hw
          obtain ⟨bs, hb, -⟩ := rdrBlocks_spec info sf active 0 0 info.planes hp
          simp only [hb] at hw
          cases hw
          simp
  refine ⟨hc, ?_⟩
  rw [hc]
  have hlen : ∀ u : List (List ℝ), (∀ r ∈ u, r.length = m) → (u.map centred).flatten.length = u.length * m := by
    intro u hu
    induction u with
    | nil => simp
    | cons a u ih =>
      rw [List.map_cons, List.flatten_cons, List.length_append, ih fun r hr => hu r (List.mem_cons_of_mem _ hr),
        List.length_cons]
      have : (centred a).length = m := by
        unfold centred
        rw [List.length_map]
        exact hu a List.mem_cons_self
      rw [this]
      ring
  rw [hlen u hrow]
  have : 0 < u.length := List.length_pos_iff.2 hu
  nlinarith

/-- **C118 (false without Schmid factors).** If the Schmid factors of the grain were not calculated, the call is
an exception, but the ratio is saved. -/
theorem C118_no_schmid {S : Type} (info : RdrInfo S) (active : List Nat) (u v : List (List ℝ)) (slope : ℝ)
    (hs : linregressSlope (v.map centred).flatten (u.map centred).flatten = .ok slope)
    (hne : [] ∉ info.planes) (hsf : info.schmid = none) :
    finishRdr info active u v = (some slope, .error .exception) := by
  unfold finishRdr plotRdr
  rw [hs]
  simp only
  rw [if_neg hne, hsf]

/-! ### The hypotheses are met -/

/-- A measurement with two values, and two systems of one plane with the same ratio. -/
example : ∃ win, finishRdr (S := Bool) ⟨[[true, false]], fun _ => [], fun _ => [], fun _ => 2, fun _ => 0,
    some fun _ => 0⟩ [0] [[0, 2]] [[0, 1]] = (some 2, .ok win) ∧ win.count = 1 := by
  have h : linregressSlope (([[0, 1]] : List (List ℝ)).map centred).flatten
      (([[0, 2]] : List (List ℝ)).map centred).flatten = .ok 2 := by
    simp only [List.map_cons, List.map_nil, List.flatten_cons, List.flatten_nil, List.append_nil, centred,
      List.sum_cons, List.sum_nil, List.length_cons, List.length_nil]
    norm_num [linregressSlope, centred]
  unfold finishRdr
  rw [h]
  exact ⟨_, rfl, rfl⟩

end DefDAP
