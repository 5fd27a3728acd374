import Verif.Proofs.Neighbours
import Verif.Props.FindGrains

/-! Properties C15, C16 and C79: the neighbour network. -/

namespace DefDAP
open Spec

/-- The network has an edge between grains `a` and `b`. -/
def Linked (net : List Seg) (a b : Nat) : Prop :=
  ∃ s ∈ net, (s.g1 = a ∧ s.g2 = b) ∨ (s.g1 = b ∧ s.g2 = a)

/-- Grains `a` and `b` are different and some boundary point away from the map edge has one
on one side and the other on the other side. -/
def Touching (h w : Nat) (labels : Img Int) (b : BoundarySet) (a c : Nat) : Prop :=
  a ≠ c ∧ ((∃ p ∈ b.pointsX, Separates h w labels true a c p) ∨
    (∃ p ∈ b.pointsY, Separates h w labels false a c p))

/-- **C15** Building the network never fails on a label image that fits the grain list, and
links exactly the touching pairs of grains, with one segment per unordered pair. Labels
that are not grains (0, -1, -2) take part in no link, because links name list positions. -/
theorem C15_network {h w n : Nat} (labels : Img Int) (b : BoundarySet)
    (hn : ∀ q, InMap h w q → labels q.2 q.1 ≤ n)
    (hx : ∀ p ∈ b.pointsX, InMap h w p) (hy : ∀ p ∈ b.pointsY, InMap h w p) :
    ∃ net, buildNetwork h w n labels b = .ok net ∧
      (∀ a c, Linked net a c ↔ Touching h w labels b a c) ∧
      (∀ a c, Linked net a c → a < n ∧ c < n) ∧
      net.Pairwise (fun s t => ¬ ((s.g1 = t.g1 ∧ s.g2 = t.g2) ∨ (s.g1 = t.g2 ∧ s.g2 = t.g1))) := by
  obtain ⟨net, he, hi⟩ := buildNetwork_inv (n := n) b hn hx hy
  refine ⟨net, he, ?_, ?_, ?_⟩
  · intro a c
    constructor
    · rintro ⟨s, hs, hj⟩
      have hj' : s.joins a c = true := Seg.joins_iff.2 hj
      refine ⟨by have := (hi.ends s hs).1; omega, ?_⟩
      obtain ⟨i, hne⟩ := hi.some' s hs
      obtain ⟨p, hp⟩ := List.exists_mem_of_ne_nil _ hne
      rw [hi.pts s hs i] at hp
      obtain ⟨hp1, hp2⟩ := List.mem_filter.1 hp
      have hsep := (separates_joins hj').1 (of_decide_eq_true hp2)
      cases i
      · exact Or.inr ⟨p, by simpa using hp1, hsep⟩
      · exact Or.inl ⟨p, by simpa using hp1, hsep⟩
    · rintro ⟨hne, ⟨p, hp, hs⟩ | ⟨p, hp, hs⟩⟩
      · obtain ⟨s, h1, h2⟩ := hi.cover true p (by simpa using hp) a c hne hs
        exact ⟨s, h1, Seg.joins_iff.1 h2⟩
      · obtain ⟨s, h1, h2⟩ := hi.cover false p (by simpa using hp) a c hne hs
        exact ⟨s, h1, Seg.joins_iff.1 h2⟩
  · rintro a c ⟨s, hs, hj⟩
    have := hi.ends s hs
    omega
  · refine hi.differ.imp ?_
    intro s t hst
    rwa [Seg.joins_iff] at hst

/-- **C15**, order: the links do not depend on the order in which the boundary points (kept
in a set) are visited. -/
theorem C15_order {h w n : Nat} (labels : Img Int) (b b' : BoundarySet)
    (hn : ∀ q, InMap h w q → labels q.2 q.1 ≤ n)
    (hx : ∀ p ∈ b.pointsX, InMap h w p) (hy : ∀ p ∈ b.pointsY, InMap h w p)
    (hxx : ∀ p, p ∈ b.pointsX ↔ p ∈ b'.pointsX) (hyy : ∀ p, p ∈ b.pointsY ↔ p ∈ b'.pointsY)
    (net net' : List Seg) (e : buildNetwork h w n labels b = .ok net)
    (e' : buildNetwork h w n labels b' = .ok net') (a c : Nat) :
    Linked net a c ↔ Linked net' a c := by
  obtain ⟨m, h1, h2, -⟩ := C15_network labels b hn hx hy
  obtain ⟨m', h1', h2', -⟩ := C15_network labels b' hn (fun p hp => hx p ((hxx p).2 hp))
    (fun p hp => hy p ((hyy p).2 hp))
  rw [e] at h1; rw [e'] at h1'
  cases h1; cases h1'
  rw [h2, h2']
  unfold Touching
  simp only [hxx, hyy]

/-- **C16** Each segment records exactly the boundary points between its two grains, in the
order they were visited and as often as they were visited (once, as they come from a set). -/
theorem C16_points {h w n : Nat} (labels : Img Int) (b : BoundarySet)
    (hn : ∀ q, InMap h w q → labels q.2 q.1 ≤ n)
    (hx : ∀ p ∈ b.pointsX, InMap h w p) (hy : ∀ p ∈ b.pointsY, InMap h w p)
    (net : List Seg) (e : buildNetwork h w n labels b = .ok net) (s : Seg) (hs : s ∈ net) :
    s.ptsX = b.pointsX.filter (fun p => Separates h w labels true s.g1 s.g2 p) ∧
    s.ptsY = b.pointsY.filter (fun p => Separates h w labels false s.g1 s.g2 p) ∧ 0 < s.len := by
  obtain ⟨net', he, hi⟩ := buildNetwork_inv (n := n) b hn hx hy
  rw [e] at he; cases he
  have h1 := hi.pts s hs true
  have h2 := hi.pts s hs false
  refine ⟨by simpa [Seg.pts] using h1, by simpa [Seg.pts] using h2, ?_⟩
  obtain ⟨i, hne⟩ := hi.some' s hs
  unfold Seg.len
  cases i
  · have := List.length_pos_of_ne_nil hne
    simp only [Seg.pts, Bool.false_eq_true, if_false] at this
    omega
  · have := List.length_pos_of_ne_nil hne
    simp only [Seg.pts, if_true] at this
    omega

/-- **C16** In every pair of points a segment reports, the first point is in its first
grain, the second point is in its second grain, and they are direct neighbours across the
boundary point: side by side for kind 0, one above the other for the other kind. There is
one pair per recorded point. -/
theorem C16_pairs {h w n : Nat} (labels : Img Int) (b : BoundarySet)
    (hn : ∀ q, InMap h w q → labels q.2 q.1 ≤ n)
    (hx : ∀ p ∈ b.pointsX, InMap h w p) (hy : ∀ p ∈ b.pointsY, InMap h w p)
    (net : List Seg) (e : buildNetwork h w n labels b = .ok net) (s : Seg) (hs : s ∈ net) :
    (s.pairs 0).length = s.ptsX.length ∧ (s.pairs 1).length = s.ptsY.length ∧
    (∀ pq ∈ s.pairs 0, labels pq.1.2 pq.1.1 = s.g1 + 1 ∧ labels pq.2.2 pq.2.1 = s.g2 + 1 ∧
      ∃ p ∈ s.ptsX, pq = (p, (p.1 + 1, p.2)) ∨ pq = ((p.1 + 1, p.2), p)) ∧
    (∀ pq ∈ s.pairs 1, labels pq.1.2 pq.1.1 = s.g1 + 1 ∧ labels pq.2.2 pq.2.1 = s.g2 + 1 ∧
      ∃ p ∈ s.ptsY, pq = (p, (p.1, p.2 + 1)) ∨ pq = ((p.1, p.2 + 1), p)) := by
  obtain ⟨net', he, hi⟩ := buildNetwork_inv (n := n) b hn hx hy
  rw [e] at he; cases he
  have key : ∀ i : Bool, ∀ p ∈ s.pts i, Separates h w labels i s.g1 s.g2 p := by
    intro i p hp
    rw [hi.pts s hs i] at hp
    exact of_decide_eq_true (List.mem_filter.1 hp).2
  have hown : ∀ i, s.own i = (s.pts i).map fun p => decide (labels p.2 p.1 = s.g1 + 1) :=
    hi.own s hs
  have hne := (hi.ends s hs).1
  have oX : s.ownX = s.ptsX.map fun p => decide (labels p.2 p.1 = s.g1 + 1) := hown true
  have oY : s.ownY = s.ptsY.map fun p => decide (labels p.2 p.1 = s.g1 + 1) := hown false
  refine ⟨by simp [Seg.pairs, oX], by simp [Seg.pairs, oY], ?_, ?_⟩
  · intro pq hpq
    simp only [Seg.pairs, if_true, oX, List.zip_map_right, List.map_map, List.mem_map] at hpq
    obtain ⟨⟨p, p'⟩, hz, rfl⟩ := hpq
    have hpp : p' = p ∧ p ∈ s.ptsX := by
      rw [List.zip_eq_zipWith, List.zipWith_self] at hz
      obtain ⟨r, hr, he⟩ := List.mem_map.1 hz
      cases he; exact ⟨rfl, hr⟩
    obtain ⟨rfl, hp⟩ := hpp
    have hsep := key true p' hp
    obtain ⟨-, hsep⟩ := hsep
    simp only [across, if_true] at hsep
    by_cases hl : labels p'.2 p'.1 = s.g1 + 1
    · simp only [Function.comp, Prod.map, id, hl, decide_true, if_true, Int.add_zero]
      refine ⟨trivial, ?_, p', hp, Or.inl rfl⟩
      rcases hsep with ⟨-, h2⟩ | ⟨h2, -⟩
      · exact h2
      · omega
    · simp only [Function.comp, Prod.map, id, hl, decide_false, Bool.false_eq_true, if_false,
        Int.add_zero]
      rcases hsep with ⟨h1, h2⟩ | ⟨h1, h2⟩
      · exact absurd h1 hl
      · exact ⟨h2, h1, p', hp, Or.inr rfl⟩
  · intro pq hpq
    simp only [Seg.pairs, Nat.one_ne_zero, if_false, oY, List.zip_map_right, List.map_map,
      List.mem_map] at hpq
    obtain ⟨⟨p, p'⟩, hz, rfl⟩ := hpq
    have hpp : p' = p ∧ p ∈ s.ptsY := by
      rw [List.zip_eq_zipWith, List.zipWith_self] at hz
      obtain ⟨r, hr, he⟩ := List.mem_map.1 hz
      cases he; exact ⟨rfl, hr⟩
    obtain ⟨rfl, hp⟩ := hpp
    have hsep := key false p' hp
    obtain ⟨-, hsep⟩ := hsep
    simp only [across, Bool.false_eq_true, if_false] at hsep
    by_cases hl : labels p'.2 p'.1 = s.g1 + 1
    · simp only [Function.comp, Prod.map, id, hl, decide_true, if_true, Int.add_zero]
      refine ⟨trivial, ?_, p', hp, Or.inl rfl⟩
      rcases hsep with ⟨-, h2⟩ | ⟨h2, -⟩
      · exact h2
      · omega
    · simp only [Function.comp, Prod.map, id, hl, decide_false, Bool.false_eq_true, if_false,
        Int.add_zero]
      rcases hsep with ⟨h1, h2⟩ | ⟨h1, h2⟩
      · exact absurd h1 hl
      · exact ⟨h2, h1, p', hp, Or.inr rfl⟩

/-- **C16**, collecting: the boundary set made from the segments of the network holds
exactly the boundary points away from the map edge that separate two different grains, and
making it fails exactly when there are no segments. -/
theorem C16_from_segments {h w n : Nat} (labels : Img Int) (b : BoundarySet)
    (hn : ∀ q, InMap h w q → labels q.2 q.1 ≤ n)
    (hx : ∀ p ∈ b.pointsX, InMap h w p) (hy : ∀ p ∈ b.pointsY, InMap h w p)
    (net : List Seg) (e : buildNetwork h w n labels b = .ok net) :
    (net = [] ↔ BoundarySet.fromSegments net = .error .indexError) ∧
    ∀ b', BoundarySet.fromSegments net = .ok b' →
      (∀ p, p ∈ b'.pointsX ↔ p ∈ b.pointsX ∧ ∃ a c, a ≠ c ∧ Separates h w labels true a c p) ∧
      (∀ p, p ∈ b'.pointsY ↔ p ∈ b.pointsY ∧ ∃ a c, a ≠ c ∧ Separates h w labels false a c p) := by
  obtain ⟨net', he, hi⟩ := buildNetwork_inv (n := n) b hn hx hy
  rw [e] at he; cases he
  refine ⟨by cases net <;> simp [BoundarySet.fromSegments], ?_⟩
  intro b' hb'
  have hb : b' = { pointsX := (net.flatMap (·.ptsX)).eraseDups,
                   pointsY := (net.flatMap (·.ptsY)).eraseDups } := by
    cases net with
    | nil => simp [BoundarySet.fromSegments] at hb'
    | cons s l => simp [BoundarySet.fromSegments] at hb'; exact hb'.symm
  have gen : ∀ i p, (∃ s ∈ net, p ∈ s.pts i) ↔ p ∈ (if i = true then b.pointsX else b.pointsY) ∧
      ∃ a c, a ≠ c ∧ Separates h w labels i a c p := by
    intro i p
    constructor
    · rintro ⟨s, hs, hp⟩
      rw [hi.pts s hs i] at hp
      obtain ⟨h1, h2⟩ := List.mem_filter.1 hp
      exact ⟨h1, s.g1, s.g2, (hi.ends s hs).1, of_decide_eq_true h2⟩
    · rintro ⟨h1, a, c, hac, hsep⟩
      obtain ⟨s, hs, hj⟩ := hi.cover i p h1 a c hac hsep
      refine ⟨s, hs, ?_⟩
      rw [hi.pts s hs i]
      exact List.mem_filter.2 ⟨h1, decide_eq_true ((separates_joins hj).2 hsep)⟩
  subst hb
  refine ⟨fun p => ?_, fun p => ?_⟩
  · have := gen true p
    simpa [Seg.pts, List.mem_eraseDups] using this
  · have := gen false p
    simpa [Seg.pts, List.mem_eraseDups] using this

theorem mem_netNeighbours {net : List Seg} (hne : ∀ s ∈ net, s.g1 ≠ s.g2) {a c : Nat} :
    c ∈ netNeighbours net a ↔ Linked net a c := by
  unfold netNeighbours Linked
  rw [List.mem_filterMap]
  constructor
  · rintro ⟨s, hs, h⟩
    refine ⟨s, hs, ?_⟩
    by_cases h1 : s.g1 = a
    · simp [h1] at h; exact Or.inl ⟨h1, h⟩
    · by_cases h2 : s.g2 = a
      · simp [h1, h2] at h; exact Or.inr ⟨h, h2⟩
      · simp [h1, h2] at h
  · rintro ⟨s, hs, ⟨rfl, rfl⟩ | ⟨rfl, rfl⟩⟩
    · exact ⟨s, hs, by simp⟩
    · exact ⟨s, hs, by simp [hne s hs]⟩

theorem foldl_addSecond (hl : List Nat) : ∀ (l acc : List Nat), acc.Nodup →
    (∀ g ∈ acc, g ∉ hl) →
    (l.foldl (addSecond hl) acc).Nodup ∧
    ∀ g, g ∈ l.foldl (addSecond hl) acc ↔ g ∈ acc ∨ (g ∈ l ∧ g ∉ hl) := by
  intro l
  induction l with
  | nil => intro acc hn _; simpa using hn
  | cons x l ih =>
    intro acc hn hd
    rw [List.foldl_cons]
    by_cases hx : x ∉ hl ∧ x ∉ acc
    · have he : addSecond hl acc x = acc ++ [x] := by unfold addSecond; rw [if_pos hx]
      rw [he]
      obtain ⟨h1, h2⟩ := ih (acc ++ [x]) (by
          rw [List.nodup_append]
          refine ⟨hn, by simp, ?_⟩
          intro a ha b hb
          rw [List.mem_singleton] at hb
          subst hb
          exact fun h => hx.2 (h ▸ ha)) (by
          intro g hg
          rcases List.mem_append.1 hg with hg | hg
          · exact hd g hg
          · rw [List.mem_singleton] at hg; subst hg; exact hx.1)
      refine ⟨h1, fun g => ?_⟩
      rw [h2 g]
      simp only [List.mem_append, List.mem_cons, List.not_mem_nil, or_false]
      constructor
      · rintro ((h | rfl) | h)
        · exact Or.inl h
        · exact Or.inr ⟨Or.inl rfl, hx.1⟩
        · exact Or.inr ⟨Or.inr h.1, h.2⟩
      · rintro (h | ⟨rfl | h, h'⟩)
        · exact Or.inl (Or.inl h)
        · exact Or.inl (Or.inr rfl)
        · exact Or.inr ⟨h, h'⟩
    · have he : addSecond hl acc x = acc := by unfold addSecond; rw [if_neg hx]
      rw [he]
      obtain ⟨h1, h2⟩ := ih acc hn hd
      refine ⟨h1, fun g => ?_⟩
      rw [h2 g]
      simp only [List.mem_cons]
      constructor
      · rintro (h | h)
        · exact Or.inl h
        · exact Or.inr ⟨Or.inr h.1, h.2⟩
      · rintro (h | ⟨rfl | h, h'⟩)
        · exact Or.inl h
        · left; by_contra hc; exact hx ⟨h', hc⟩
        · exact Or.inr ⟨h, h'⟩

theorem foldl_second (net : List Seg) (hl : List Nat) : ∀ (l acc : List Nat), acc.Nodup →
    (∀ g ∈ acc, g ∉ hl) →
    (l.foldl (fun acc f => (netNeighbours net f).foldl (addSecond hl) acc) acc).Nodup ∧
    ∀ g, g ∈ l.foldl (fun acc f => (netNeighbours net f).foldl (addSecond hl) acc) acc ↔
      g ∈ acc ∨ ((∃ f ∈ l, g ∈ netNeighbours net f) ∧ g ∉ hl) := by
  intro l
  induction l with
  | nil => intro acc hn _; simpa using hn
  | cons x l ih =>
    intro acc hn hd
    rw [List.foldl_cons]
    obtain ⟨a1, a2⟩ := foldl_addSecond hl (netNeighbours net x) acc hn hd
    obtain ⟨b1, b2⟩ := ih _ a1 (by
      intro g hg
      rcases (a2 g).1 hg with h | h
      · exact hd g h
      · exact h.2)
    refine ⟨b1, fun g => ?_⟩
    rw [b2 g, a2 g]
    simp only [List.mem_cons, exists_eq_or_imp]
    tauto

/-- **C79** Clicking on a grain highlights it, then exactly the grains linked to it, then
exactly the grains linked to one of those, each grain once. -/
theorem C79_highlight {h w n : Nat} (labels : Img Int) (b : BoundarySet)
    (hn : ∀ q, InMap h w q → labels q.2 q.1 ≤ n)
    (hx : ∀ p ∈ b.pointsX, InMap h w p) (hy : ∀ p ∈ b.pointsY, InMap h w p)
    (net : List Seg) (e : buildNetwork h w n labels b = .ok net) (a : Nat) :
    ∃ first second, highlightGrains net a = a :: (first ++ second) ∧
      (highlightGrains net a).Nodup ∧
      (∀ c, c ∈ first ↔ Touching h w labels b a c) ∧
      (∀ c, c ∈ second ↔ c ≠ a ∧ ¬ Touching h w labels b a c ∧
        ∃ f, Touching h w labels b a f ∧ Touching h w labels b f c) := by
  obtain ⟨net', he, hi⟩ := buildNetwork_inv (n := n) b hn hx hy
  rw [e] at he; cases he
  obtain ⟨net', he, hl, -, hpw⟩ := C15_network labels b hn hx hy
  rw [e] at he; cases he
  have hne : ∀ s ∈ net, s.g1 ≠ s.g2 := fun s hs => (hi.ends s hs).1
  have hfirst : (netNeighbours net a).Nodup := by
    unfold netNeighbours
    unfold List.Nodup
    rw [List.pairwise_filterMap]
    refine hpw.imp ?_
    intro s t hst c hc d hd hcd
    subst hcd
    by_cases h1 : s.g1 = a <;> by_cases h2 : t.g1 = a <;> by_cases h3 : s.g2 = a <;>
      by_cases h4 : t.g2 = a <;> simp [h1, h2, h3, h4] at hc hd <;> omega
  obtain ⟨s1, s2⟩ := foldl_second net ([a] ++ netNeighbours net a) (netNeighbours net a) []
    (by simp) (by simp)
  have haf : a ∉ netNeighbours net a := by
    rw [mem_netNeighbours hne]
    rintro ⟨s, hs, h⟩
    have := hne s hs
    omega
  refine ⟨netNeighbours net a, _, rfl, ?_, ?_, ?_⟩
  · unfold highlightGrains
    simp only
    rw [List.nodup_append]
    refine ⟨?_, s1, ?_⟩
    · rw [List.singleton_append, List.nodup_cons]
      exact ⟨haf, hfirst⟩
    · intro c hc d hd hcd
      subst hcd
      rcases (s2 c).1 hd with h | h
      · simp at h
      · exact h.2 hc
  · intro c
    rw [mem_netNeighbours hne, hl]
  · intro c
    rw [s2 c]
    simp only [List.mem_append, List.mem_singleton, mem_netNeighbours hne, hl, List.not_mem_nil,
      false_or, not_or]
    tauto

/-! Example: a 4 x 5 map with three grains, a discarded region (-2) and non-indexed pixels. -/

/-- Labels of the example. -/
def exLabels : Img Int := fun y x =>
  (([[1, 1, 2, 2, 2], [1, 1, 2, 2, 0], [1, 3, 3, -2, 2], [3, 3, 3, 2, 2]] : List (List Int))[y.toNat]?.bind
    (·[x.toNat]?)).getD 0
/-- Boundary points of the example, in an arbitrary order. -/
def exNetBounds : BoundarySet :=
  { pointsX := [(3, 1), (1, 1), (0, 2), (2, 2), (1, 0), (2, 3)],
    pointsY := [(2, 1), (1, 1), (3, 1), (3, 2), (0, 2)] }

example : (∀ y ∈ List.range 4, ∀ x ∈ List.range 5, exLabels y x ≤ 3) ∧
    (∀ p ∈ exNetBounds.pointsX ++ exNetBounds.pointsY, inB 4 5 p.1 p.2 = true) ∧
    (buildNetwork 4 5 3 exLabels exNetBounds).toOption =
      some [{ g1 := 0, g2 := 1, ptsX := [(1, 1)], ownX := [true] },
            { g1 := 1, g2 := 2, ptsY := [(2, 1)], ownY := [true] },
            { g1 := 0, g2 := 2, ptsY := [(1, 1)], ownY := [true] }] := by
  decide +kernel

/-- `exLabels` fits a list of three grains everywhere. -/
example : ∀ q, InMap 4 5 q → exLabels q.2 q.1 ≤ 3 := by
  rintro ⟨x, y⟩ ⟨h1, h2, h3, h4⟩
  obtain ⟨a, rfl⟩ := Int.eq_ofNat_of_zero_le h1
  obtain ⟨b, rfl⟩ := Int.eq_ofNat_of_zero_le h3
  have ha : a < 5 := by simp at h2; omega
  have hb : b < 4 := by simp at h4; omega
  have : ∀ b : Nat, b < 4 → ∀ a : Nat, a < 5 → exLabels (b : Int) (a : Int) ≤ 3 := by decide +kernel
  exact this b hb a ha

theorem foldlM_not_ok {α β : Type} {f : β → α → Except Err β} {x : α} (hx : ∀ b c, f b x ≠ .ok c) :
    ∀ (l : List α) (b c : β), x ∈ l → l.foldlM f b ≠ .ok c := by
  intro l
  induction l with
  | nil => intro b c h; simp at h
  | cons a l ih =>
    intro b c hm h
    rw [List.foldlM_cons] at h
    cases e : f b a with
    | error _ => rw [e] at h; exact absurd h (by simp [bind, Except.bind])
    | ok b' =>
      rw [e] at h
      rcases List.mem_cons.1 hm with rfl | hm
      · exact hx b b' e
      · exact ih b' c hm h

/-- **C15** With a label image for more grains than the list has, if one of the missing grains touches
another grain there is no network. -/
theorem C15_missing {h w n : Nat} (labels : Img Int) (b : BoundarySet) (a c : Nat)
    (ht : Touching h w labels b a c) (ha : n ≤ a ∨ n ≤ c) (net : List Seg) :
    buildNetwork h w n labels b ≠ .ok net := by
  obtain ⟨hne, ht⟩ := ht
  have step : ∀ (i : Bool) (p : Px), Separates h w labels i a c p →
      ∀ net net', netStep h w n labels (kindNo i) net p ≠ .ok net' := by
    intro i p hs net net'
    obtain ⟨hint, hl⟩ := hs
    unfold Interior at hint
    unfold netStep
    rw [if_neg (by omega)]
    have hq : (across i p) = (p.1 - kindNo i + 1, p.2 + kindNo i) := by
      cases i <;> simp [across, kindNo]
    have r1 : rd h w labels p.2 p.1 = .ok (labels p.2 p.1) := by
      have : inB h w p.1 p.2 = true := by unfold inB; simp; omega
      unfold rd; rw [if_pos this]
    have r2 : rd h w labels (p.2 + kindNo i) (p.1 - kindNo i + 1) =
        .ok (labels (across i p).2 (across i p).1) := by
      rw [hq]
      have : inB h w (p.1 - kindNo i + 1) (p.2 + kindNo i) = true := by
        unfold inB; cases i <;> simp [kindNo] <;> omega
      unfold rd; rw [if_pos this]
    rw [r1, r2]
    simp only [bind, Except.bind]
    rw [if_neg (by omega), if_neg (by omega)]
    unfold grainAt
    by_cases h1 : labels p.2 p.1 - 1 < n
    · rw [if_pos h1]
      simp only
      rw [if_neg (by omega)]
      simp
    · rw [if_neg h1]
      simp
  intro e
  unfold buildNetwork at e
  cases e1 : b.pointsX.foldlM (netStep h w n labels 0) [] with
  | error x => rw [e1] at e; exact absurd e (by simp [bind, Except.bind])
  | ok net1 =>
    rw [e1] at e
    rcases ht with ⟨p, hp, hs⟩ | ⟨p, hp, hs⟩
    · exact foldlM_not_ok (step true p hs) _ _ _ hp e1
    · exact foldlM_not_ok (step false p hs) _ _ _ hp e

/-- The example with a list of two grains. -/
example : Touching 4 5 exLabels exNetBounds 0 2 ∧ (2 ≤ 0 ∨ 2 ≤ 2) ∧
    (buildNetwork 4 5 2 exLabels exNetBounds).toOption = none := by
  refine ⟨⟨by decide, Or.inr ⟨(1, 1), by decide, by decide +kernel⟩⟩, by decide, by decide +kernel⟩

end DefDAP
