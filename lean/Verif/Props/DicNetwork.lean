import Verif.Model.DicNetwork
import Verif.Props.GrainData

/-!
C121: the network of neighbours of DIC maps.
-/

namespace DefDAP

/-- `(x, y)` is a boundary point that is not at the edge of the map. -/
def Spec.InnerBoundary (h w : Nat) (b : Img Bool) (x y : Int) : Prop :=
  0 < x ∧ x < (w : Int) - 1 ∧ 0 < y ∧ y < (h : Int) - 1 ∧ b y x = true

/-- `l` is the label of one of the four points next to `(x, y)`. -/
def Spec.NextLabel (labels : Img Int) (x y l : Int) : Prop :=
  l = labels (y + 1) x ∨ l = labels (y - 1) x ∨ l = labels y (x + 1) ∨ l = labels y (x - 1)

/-- Two grains are joined in the network. -/
def Spec.Joined (net : List Nat × List (Nat × Nat)) (a b : Nat) : Prop := (a, b) ∈ net.2 ∨ (b, a) ∈ net.2

theorem mem_pairsOf {α : Type} (l : List α) (h : l.Nodup) (a b : α) :
    ((a, b) ∈ pairsOf l ∨ (b, a) ∈ pairsOf l) ↔ a ∈ l ∧ b ∈ l ∧ a ≠ b := by
  induction l with
  | nil => simp [pairsOf]
  | cons c l ih =>
    rw [List.nodup_cons] at h
    have ih := ih h.2
    simp only [pairsOf, List.mem_append, List.mem_map, Prod.mk.injEq, List.mem_cons]
    constructor
    · rintro ((⟨d, hd, rfl, rfl⟩ | h1) | (⟨d, hd, rfl, rfl⟩ | h1))
      · exact ⟨.inl rfl, .inr hd, fun e => h.1 (e ▸ hd)⟩
      · have := ih.1 (.inl h1)
        exact ⟨.inr this.1, .inr this.2.1, this.2.2⟩
      · exact ⟨.inr hd, .inl rfl, fun e => h.1 (e ▸ hd)⟩
      · have := ih.1 (.inr h1)
        exact ⟨.inr this.1, .inr this.2.1, this.2.2⟩
    · rintro ⟨h1 | h1, h2 | h2, h3⟩
      · exact absurd (h1.trans h2.symm) h3
      · exact .inl (.inl ⟨b, h2, h1.symm, rfl⟩)
      · exact .inr (.inl ⟨a, h1, h2.symm, rfl⟩)
      · rcases ih.2 ⟨h1, h2, h3⟩ with h | h
        · exact .inl (.inr h)
        · exact .inr (.inr h)

/-- The grain that `self[i]` is. -/
def netGrain (n : Nat) (i : Int) : Nat := if i < 0 then n - 1 else i.toNat

theorem pyGet_range (n : Nat) (i : Int) (h0 : -1 ≤ i) (h1 : i < n) (hn : 0 < n) :
    pyGet (List.range n) i = .ok (netGrain n i) := by
  unfold pyGet netGrain
  rw [List.length_range]
  by_cases hi : i < 0
  · have e : i = -1 := by omega
    subst e
    have h2 : (0 : Int) ≤ -1 + n := by omega
    have h3 : (-1 + (n : Int)).toNat = n - 1 := by omega
    have h4 : n - 1 < n := by omega
    simp [h2, h3, h4]
  · have h2 : (0 : Int) ≤ i := by omega
    have h3 : i.toNat < n := by omega
    simp [hi, h2, h3]

theorem netJoined_iff (nn : List (Nat × Nat)) (a b : Nat) :
    netJoined nn a b = true ↔ (a, b) ∈ nn ∨ (b, a) ∈ nn := by
  unfold netJoined
  rw [Bool.or_eq_true, List.contains_iff_mem, List.contains_iff_mem]

theorem netPairs_spec (n : Nat) (hn : 0 < n) (ps : List (Int × Int))
    (hp : ∀ p ∈ ps, (-1 ≤ p.1 ∧ p.1 < n) ∧ (-1 ≤ p.2 ∧ p.2 < n)) (nn : List (Nat × Nat)) :
    ∃ nn', netPairs n ps nn = .ok nn' ∧ ∀ a b : Nat, ((a, b) ∈ nn' ∨ (b, a) ∈ nn') ↔
      (((a, b) ∈ nn ∨ (b, a) ∈ nn) ∨ ∃ p ∈ ps, (netGrain n p.1 = a ∧ netGrain n p.2 = b) ∨
        (netGrain n p.1 = b ∧ netGrain n p.2 = a)) := by
  induction ps generalizing nn with
  | nil => exact ⟨nn, rfl, fun a b => by simp⟩
  | cons p ps ih =>
    obtain ⟨i, j⟩ := p
    obtain ⟨h1, h2⟩ := hp (i, j) List.mem_cons_self
    obtain ⟨nn', e, h⟩ := ih (fun q hq => hp q (List.mem_cons_of_mem _ hq))
      (if netJoined nn (netGrain n i) (netGrain n j) then nn else nn ++ [(netGrain n i, netGrain n j)])
    refine ⟨nn', ?_, fun a b => ?_⟩
    · rw [netPairs, pyGet_range n i h1.1 h1.2 hn, pyGet_range n j h2.1 h2.2 hn]
      exact e
    · rw [h a b]
      simp only [List.mem_cons, exists_eq_or_imp]
      rw [← or_assoc]
      apply or_congr_left
      split_ifs with hj
      · rw [netJoined_iff] at hj
        constructor
        · exact .inl
        · rintro (h | ⟨rfl, rfl⟩ | ⟨rfl, rfl⟩)
          · exact h
          · exact hj
          · exact hj.symm
      · simp only [List.mem_append, List.mem_singleton, Prod.mk.injEq]
        constructor
        · rintro ((h | ⟨rfl, rfl⟩) | (h | ⟨rfl, rfl⟩))
          · exact .inl (.inl h)
          · exact .inr (.inl ⟨rfl, rfl⟩)
          · exact .inl (.inr h)
          · exact .inr (.inr ⟨rfl, rfl⟩)
        · rintro ((h | h) | ⟨rfl, rfl⟩ | ⟨rfl, rfl⟩)
          · exact .inl (.inl h)
          · exact .inr (.inl h)
          · exact .inl (.inr ⟨rfl, rfl⟩)
          · exact .inr (.inr ⟨rfl, rfl⟩)

theorem pointNeighbours_nodup (labels : Img Int) (p : Px) : (pointNeighbours labels p).Nodup :=
  ((List.nodup_dedup _).filter _).filter _

theorem mem_pointNeighbours (labels : Img Int) (x y i : Int) :
    i ∈ pointNeighbours labels (x, y) ↔ Spec.NextLabel labels x y (i + 1) ∧ i ≠ -2 ∧ i ≠ -3 := by
  unfold pointNeighbours Spec.NextLabel
  simp only [List.mem_filter, List.mem_dedup, List.mem_cons, List.not_mem_nil, or_false, ne_eq, decide_not,
    Bool.not_eq_eq_eq_not, Bool.not_true, decide_eq_false_iff_not]
  constructor
  · rintro ⟨⟨h, h2⟩, h3⟩
    exact ⟨by rcases h with h | h | h | h <;> omega, h2, h3⟩
  · rintro ⟨h, h2, h3⟩
    refine ⟨⟨?_, h2⟩, h3⟩
    rcases h with h | h | h | h
    · exact .inl (by omega)
    · exact .inr (.inl (by omega))
    · exact .inr (.inr (.inl (by omega)))
    · exact .inr (.inr (.inr (by omega)))

/-- Two grains with labels `l`, `l'` around one of the points. -/
def aroundPoint (h w n : Nat) (labels : Img Int) (a b : Nat) (p : Px) : Prop :=
  atMapEdge h w p = false ∧ ∃ i j : Int, i ∈ pointNeighbours labels p ∧ j ∈ pointNeighbours labels p ∧ i ≠ j ∧
    netGrain n i = a ∧ netGrain n j = b

theorem netPoints_spec (h w n : Nat) (hn : 0 < n) (labels : Img Int)
    (hl : ∀ y x, -2 ≤ labels y x ∧ labels y x ≤ n) (ps : List Px) (nn : List (Nat × Nat)) :
    ∃ nn', netPoints h w n labels ps nn = .ok nn' ∧ ∀ a b : Nat, ((a, b) ∈ nn' ∨ (b, a) ∈ nn') ↔
      (((a, b) ∈ nn ∨ (b, a) ∈ nn) ∨ ∃ p ∈ ps, aroundPoint h w n labels a b p) := by
  induction ps generalizing nn with
  | nil => exact ⟨nn, rfl, fun a b => by simp⟩
  | cons p ps ih =>
    rw [netPoints]
    by_cases he : atMapEdge h w p = true
    · rw [if_pos he]
      obtain ⟨nn', e, hh⟩ := ih nn
      refine ⟨nn', e, fun a b => ?_⟩
      rw [hh a b]
      simp only [List.mem_cons, exists_eq_or_imp]
      have : ¬ aroundPoint h w n labels a b p := fun hc => by rw [hc.1] at he; cases he
      simp only [this, false_or]
    · rw [if_neg he]
      have hnd := pointNeighbours_nodup labels p
      have hb : ∀ i ∈ pointNeighbours labels p, -1 ≤ i ∧ i < n := by
        intro i hi
        obtain ⟨x, y⟩ := p
        rw [mem_pointNeighbours] at hi
        obtain ⟨hx, h2, h3⟩ := hi
        unfold Spec.NextLabel at hx
        have h4 : ∃ y' x', i + 1 = labels y' x' := by
          rcases hx with hx | hx | hx | hx
          · exact ⟨_, _, hx⟩
          · exact ⟨_, _, hx⟩
          · exact ⟨_, _, hx⟩
          · exact ⟨_, _, hx⟩
        obtain ⟨y', x', h4⟩ := h4
        have := hl y' x'
        omega
      obtain ⟨nn1, e1, h1⟩ := netPairs_spec n hn (pairsOf (pointNeighbours labels p)) (by
        rintro ⟨i, j⟩ hp
        have := (mem_pairsOf _ hnd i j).1 (.inl hp)
        exact ⟨hb i this.1, hb j this.2.1⟩) nn
      rw [e1]
      obtain ⟨nn', e, h⟩ := ih nn1
      refine ⟨nn', e, fun a b => ?_⟩
      rw [h a b, h1 a b]
      simp only [List.mem_cons, exists_eq_or_imp]
      rw [or_assoc]
      apply or_congr_right
      apply or_congr_left
      constructor
      · rintro ⟨⟨i, j⟩, hp, hij⟩
        have hm := (mem_pairsOf _ hnd i j).1 (.inl hp)
        refine ⟨by simpa using he, ?_⟩
        rcases hij with ⟨h1, h2⟩ | ⟨h1, h2⟩
        · exact ⟨i, j, hm.1, hm.2.1, hm.2.2, h1, h2⟩
        · exact ⟨j, i, hm.2.1, hm.1, hm.2.2.symm, h2, h1⟩
      · rintro ⟨_, i, j, hi, hj, hne, h1, h2⟩
        rcases (mem_pairsOf _ hnd i j).2 ⟨hi, hj, hne⟩ with hp | hp
        · exact ⟨_, hp, .inl ⟨h1, h2⟩⟩
        · exact ⟨_, hp, .inr ⟨h2, h1⟩⟩

theorem mem_boundaryPoints (h w : Nat) (b : Img Bool) (x y : Int) :
    (x, y) ∈ boundaryPoints h w b ↔ 0 ≤ x ∧ x < w ∧ 0 ≤ y ∧ y < h ∧ b y x = true := by
  unfold boundaryPoints
  simp only [List.mem_flatMap, List.mem_range, List.mem_map, List.mem_filter, Prod.mk.injEq]
  constructor
  · rintro ⟨y', hy, x', ⟨hx, hb⟩, rfl, rfl⟩
    exact ⟨by omega, by omega, by omega, by omega, hb⟩
  · rintro ⟨h1, h2, h3, h4, h5⟩
    have e1 : ((x.toNat : Nat) : Int) = x := Int.toNat_of_nonneg h1
    have e2 : ((y.toNat : Nat) : Int) = y := Int.toNat_of_nonneg h3
    exact ⟨y.toNat, by omega, x.toNat, ⟨by omega, by rw [e1, e2]; exact h5⟩, e1, e2⟩

/-- The grain a label counts as: that of its number, and the last one for 0. -/
def Spec.countsAs (n : Nat) (l : Int) (a : Nat) : Prop := l = (a : Int) + 1 ∨ l = 0 ∧ a = n - 1

/-- **C121 (network).** With boundaries set and labels of `n` grains (and -1, -2 and 0 for others) the nodes are the grains, and
two are joined exactly if there is a boundary point, not at the edge of the map, with points of two different
labels next to it that count as these grains. The label 0, of points outside of the EBSD map, counts as the last
grain. -/
theorem C121_network (h w n : Nat) (hn : 0 < n) (labels : Img Int)
    (hl : ∀ y x, -2 ≤ labels y x ∧ labels y x ≤ n) (b : Img Bool) :
    ∃ net, buildBaseNetwork h w n labels (some b) = .ok net ∧ (∀ a, a ∈ net.1 ↔ a < n) ∧
      ∀ a a' : Nat, Spec.Joined net a a' ↔ ∃ x y l l', Spec.InnerBoundary h w b x y ∧
        Spec.NextLabel labels x y l ∧ Spec.NextLabel labels x y l' ∧ l ≠ l' ∧
        Spec.countsAs n l a ∧ Spec.countsAs n l' a' := by
  obtain ⟨nn, e, hnn⟩ := netPoints_spec h w n hn labels hl (boundaryPoints h w b) []
  refine ⟨(List.range n, nn), ?_, fun a => List.mem_range, fun a a' => ?_⟩
  · unfold buildBaseNetwork
    simp only [e]
    rfl
  · show ((a, a') ∈ nn ∨ (a', a) ∈ nn) ↔ _
    rw [hnn a a']
    simp only [List.not_mem_nil, or_self, false_or]
    constructor
    · rintro ⟨⟨x, y⟩, hp, hedge, i, j, hi, hj, hne, h1, h2⟩
      rw [mem_boundaryPoints] at hp
      unfold atMapEdge at hedge
      simp only [decide_eq_false_iff_not, not_or] at hedge
      obtain ⟨hi1, hi2, hi3⟩ := (mem_pointNeighbours labels x y i).1 hi
      obtain ⟨hj1, hj2, hj3⟩ := (mem_pointNeighbours labels x y j).1 hj
      have hrange : ∀ k : Int, Spec.NextLabel labels x y (k + 1) → -2 ≤ k + 1 := by
        intro k hk
        rcases hk with hk | hk | hk | hk <;> rw [hk] <;> exact (hl _ _).1
      have r1 := hrange i hi1
      have r2 := hrange j hj1
      refine ⟨x, y, i + 1, j + 1, ⟨by omega, by omega, by omega, by omega, hp.2.2.2.2⟩, hi1, hj1, by omega, ?_, ?_⟩
      · unfold Spec.countsAs
        unfold netGrain at h1
        split at h1 <;> omega
      · unfold Spec.countsAs
        unfold netGrain at h2
        split at h2 <;> omega
    · rintro ⟨x, y, l, l', ⟨hx1, hx2, hy1, hy2, hb⟩, hl1, hl2, hne, hc1, hc2⟩
      have f : ∀ (k : Int) (c : Nat), Spec.NextLabel labels x y k → Spec.countsAs n k c →
          (k - 1) ∈ pointNeighbours labels (x, y) ∧ netGrain n (k - 1) = c := by
        intro k c hk hc
        unfold Spec.countsAs at hc
        refine ⟨(mem_pointNeighbours labels x y _).2 ⟨by rw [Int.sub_add_cancel]; exact hk, by omega, by omega⟩, ?_⟩
        unfold netGrain
        split <;> omega
      obtain ⟨a1, a2⟩ := f l a hl1 hc1
      obtain ⟨b1, b2⟩ := f l' a' hl2 hc2
      refine ⟨(x, y), (mem_boundaryPoints h w b x y).2 ⟨by omega, by omega, by omega, by omega, hb⟩, ?_, l - 1, l' - 1,
        a1, b1, by omega, a2, b2⟩
      unfold atMapEdge
      simp only [decide_eq_false_iff_not, not_or]
      omega

/-- **C121 (grains everywhere).** Without points outside of the EBSD map, two grains are joined exactly if they are
different and both next to one boundary point that is not at the edge. -/
theorem C121_neighbours (h w n : Nat) (hn : 0 < n) (labels : Img Int)
    (hl : ∀ y x, -2 ≤ labels y x ∧ labels y x ≤ n ∧ labels y x ≠ 0) (b : Img Bool) :
    ∃ net, buildBaseNetwork h w n labels (some b) = .ok net ∧ ∀ a a' : Nat, Spec.Joined net a a' ↔ a ≠ a' ∧
      ∃ x y, Spec.InnerBoundary h w b x y ∧ Spec.NextLabel labels x y (a + 1) ∧
        Spec.NextLabel labels x y (a' + 1) := by
  obtain ⟨net, e, _, h2⟩ := C121_network h w n hn labels (fun y x => ⟨(hl y x).1, (hl y x).2.1⟩) b
  refine ⟨net, e, fun a a' => ?_⟩
  rw [h2 a a']
  have hnz : ∀ x y k, Spec.NextLabel labels x y k → k ≠ 0 := by
    intro x y k hk
    rcases hk with hk | hk | hk | hk <;> rw [hk] <;> exact (hl _ _).2.2
  constructor
  · rintro ⟨x, y, l, l', hb, h3, h4, hne, hc1, hc2⟩
    have z1 := hnz x y l h3
    have z2 := hnz x y l' h4
    unfold Spec.countsAs at hc1 hc2
    have e1 : l = (a : Int) + 1 := by omega
    have e2 : l' = (a' : Int) + 1 := by omega
    subst e1
    subst e2
    exact ⟨by omega, x, y, hb, h3, h4⟩
  · rintro ⟨hne, x, y, hb, h3, h4⟩
    exact ⟨x, y, _, _, hb, h3, h4, by omega, .inl rfl, .inl rfl⟩

/-- **C121 (false at the end of the EBSD map).** A grain with a boundary point between it and a point outside of the
EBSD map is joined to the last grain, wherever that is, and the last grain so to itself. -/
theorem C121_last_grain (h w n : Nat) (hn : 0 < n) (labels : Img Int)
    (hl : ∀ y x, -2 ≤ labels y x ∧ labels y x ≤ n) (b : Img Bool) (x y : Int) (a : Nat)
    (hb : Spec.InnerBoundary h w b x y) (h0 : Spec.NextLabel labels x y 0)
    (ha : Spec.NextLabel labels x y (a + 1)) :
    ∃ net, buildBaseNetwork h w n labels (some b) = .ok net ∧ Spec.Joined net a (n - 1) := by
  obtain ⟨net, e, _, h2⟩ := C121_network h w n hn labels hl b
  exact ⟨net, e, (h2 a (n - 1)).2 ⟨x, y, _, 0, hb, ha, h0, by omega, .inl rfl, .inr ⟨rfl, rfl⟩⟩⟩

/-- **C121 (false as the package is).** Nothing sets the boundaries the method reads: it is an `AttributeError` for
every DIC map. -/
theorem C121_no_boundaries (h w n : Nat) (labels : Img Int) :
    buildBaseNetwork h w n labels none = .error .attributeError := rfl

/-- Two grains with a boundary column between them: joined. -/
example : (∀ _y x : Int, -2 ≤ (if x < 2 then 1 else if x = 2 then -1 else (2 : Int)) ∧
      (if x < 2 then 1 else if x = 2 then -1 else (2 : Int)) ≤ (2 : Nat) ∧
      (if x < 2 then 1 else if x = 2 then -1 else (2 : Int)) ≠ 0) ∧
    buildBaseNetwork 5 5 2 (fun _ x => if x < 2 then 1 else if x = 2 then -1 else 2) (some fun _ x => x == 2) =
      .ok ([0, 1], [(1, 0)]) := by
  refine ⟨fun y x => ?_, by decide +kernel⟩
  split_ifs <;> omega

/-- A grain at the end of the EBSD map, far away from the last of three grains. -/
example : Spec.InnerBoundary 5 5 (fun _ x => x == 2) 2 2 ∧
    Spec.NextLabel (fun _ x => if x < 2 then 1 else if x = 2 then -1 else 0) 2 2 0 ∧
    Spec.NextLabel (fun _ x => if x < 2 then 1 else if x = 2 then -1 else 0) 2 2 ((0 : Nat) + 1) := by
  refine ⟨by unfold Spec.InnerBoundary; decide, .inr (.inr (.inl (by decide))), .inr (.inr (.inr (by decide)))⟩

end DefDAP
