import Verif.Props.Neighbours
import Verif.Props.MinSize
import Verif.Props.TurnedGrains

/-! C145: how the neighbour network follows the grains. -/

namespace DefDAP
open Spec

theorem label_le {h w : Nat} (hw : 2 ≤ w) (hh : 2 ≤ h) {bx by' : Img Bool}
    {phase : Img Int} {numPhases m : Nat} {r : FGResult}
    (hr : findGrains h w phase numPhases bx by' m = .ok r) (p : Px) :
    r.grains p.2 p.1 ≤ r.list.length := by
  obtain ⟨st, hb, hg, hbuf, hlen, hlist⟩ := findGrains_base hw hh hr
  rw [hg, hlen]
  exact hb.top p

/-- **C145**: with a larger minimum size the network links two of the remaining grains exactly if they
were linked before, and their segment has the same boundary points. `big` lists the remaining grains by
their old numbers. -/
theorem C145_min_size {h w : Nat} (hw : 2 ≤ w) (hh : 2 ≤ h) (bx by' : Img Bool)
    (phase : Img Int) (numPhases m1 m2 : Nat) (hm : m1 ≤ m2) (r1 r2 : FGResult)
    (h1 : findGrains h w phase numPhases bx by' m1 = .ok r1)
    (h2 : findGrains h w phase numPhases bx by' m2 = .ok r2) (b : BoundarySet)
    (hx : ∀ p ∈ b.pointsX, InMap h w p) (hy : ∀ p ∈ b.pointsY, InMap h w p) :
    ∃ net1 net2, buildNetwork h w r1.list.length r1.grains b = .ok net1 ∧
      buildNetwork h w r2.list.length r2.grains b = .ok net2 ∧
      ∀ big : List Nat,
        big = ((List.range r1.list.length).filter fun i => decide (m2 ≤ (r1.points i).length)) →
        ∀ k l i j, big[k]? = some i → big[l]? = some j →
          (Linked net2 k l ↔ Linked net1 i j) ∧
          ∀ s1 ∈ net1, ∀ s2 ∈ net2,
            ((s1.g1 = i ∧ s1.g2 = j) ∨ (s1.g1 = j ∧ s1.g2 = i)) →
            ((s2.g1 = k ∧ s2.g2 = l) ∨ (s2.g1 = l ∧ s2.g2 = k)) →
            s2.ptsX = s1.ptsX ∧ s2.ptsY = s1.ptsY := by
  have le1 : ∀ q, InMap h w q → r1.grains q.2 q.1 ≤ r1.list.length := fun q _ => label_le hw hh h1 q
  have le2 : ∀ q, InMap h w q → r2.grains q.2 q.1 ≤ r2.list.length := fun q _ => label_le hw hh h2 q
  obtain ⟨net1, e1, l1, -⟩ := C15_network r1.grains b le1 hx hy
  obtain ⟨net2, e2, l2, -⟩ := C15_network r2.grains b le2 hx hy
  refine ⟨net1, net2, e1, e2, ?_⟩
  intro big hbig k l i j hk hl
  obtain ⟨big', hb', hlen, hperm, -⟩ := (C143_ebsd hw hh bx by' phase numPhases m1 m2 hm r1 h1).2 r2 h2
  rw [← hbig] at hb'
  subst hb'
  have n1 := (C04_numbering hw hh bx by' phase numPhases m1 r1 h1).1
  have n2 := (C04_numbering hw hh bx by' phase numPhases m2 r2 h2).1
  have key : ∀ k i, big'[k]? = some i → k < r2.list.length ∧ i < r1.list.length ∧
      ∀ p : Px, r2.grains p.2 p.1 = (k : Int) + 1 ↔ r1.grains p.2 p.1 = (i : Int) + 1 := by
    intro k i hk
    have hkl : k < r2.list.length := by
      rw [hlen]
      exact (List.getElem?_eq_some_iff.1 hk).1
    have hi : i < r1.list.length := by
      have := List.mem_of_getElem? hk
      rw [hbig, List.mem_filter, List.mem_range] at this
      exact this.1
    refine ⟨hkl, hi, fun p => ?_⟩
    rw [← (n2 k hkl).2.1 p, ← (n1 i hi).2.1 p]
    exact (hperm k i hk).1.mem_iff
  obtain ⟨hk2, hi1, ek⟩ := key k i hk
  obtain ⟨hl2, hj1, el⟩ := key l j hl
  have hne : k ≠ l ↔ i ≠ j := by
    rw [not_iff_not]
    constructor
    · rintro rfl
      rw [hk] at hl
      exact Option.some.inj hl
    · rintro rfl
      obtain ⟨p, hp⟩ := List.exists_mem_of_ne_nil _ (n1 i hi1).2.2.2.1
      have e := ((n1 i hi1).2.1 p).1 hp
      have f1 := (ek p).2 e
      have f2 := (el p).2 e
      omega
  have hsep : ∀ d p, Separates h w r2.grains d k l p ↔ Separates h w r1.grains d i j p := by
    intro d p
    unfold Separates
    rw [ek p, el p, ek (across d p), el (across d p)]
  refine ⟨?_, ?_⟩
  · rw [l2, l1]
    unfold Touching
    rw [hne]
    simp only [hsep]
  · intro s1 hs1 s2 hs2 hj1 hj2
    obtain ⟨x1, y1, -⟩ := C16_points r1.grains b le1 hx hy net1 e1 s1 hs1
    obtain ⟨x2, y2, -⟩ := C16_points r2.grains b le2 hx hy net2 e2 s2 hs2
    have t1 : ∀ d p, Separates h w r1.grains d s1.g1 s1.g2 p ↔ Separates h w r1.grains d i j p := by
      intro d p
      rcases hj1 with ⟨rfl, rfl⟩ | ⟨rfl, rfl⟩
      · rfl
      · exact separates_swap
    have t2 : ∀ d p, Separates h w r2.grains d s2.g1 s2.g2 p ↔ Separates h w r1.grains d i j p := by
      intro d p
      rw [← hsep]
      rcases hj2 with ⟨rfl, rfl⟩ | ⟨rfl, rfl⟩
      · rfl
      · exact separates_swap
    rw [x1, x2, y1, y2]
    simp only [t1, t2, and_self]

/-- The boundaries of `exNetBounds`, and a corner pixel cut off. -/
def exCutBounds : BoundarySet :=
  { pointsX := (3, 0) :: exNetBounds.pointsX, pointsY := (4, 0) :: exNetBounds.pointsY }

set_option synthInstance.maxHeartbeats 200000 in
set_option synthInstance.maxSize 1000 in
/-- With minimum sizes 1 and 2 the third of five grains goes. The others stay linked, with the same
boundary points and their new numbers. -/
example : ((findGrainsOf 4 5 (fun _ _ => 1) 2 exCutBounds 1).toOption.map fun r =>
      ((List.range r.list.length).map fun i => (r.points i).length,
        (buildNetwork 4 5 r.list.length r.grains exCutBounds).toOption.map
        fun net => net.map fun s => ((s.g1, s.g2), s.ptsX ++ s.ptsY))) =
      some ([5, 4, 1, 5, 5], some [((1, 3), [(3, 1), (3, 1)]), ((0, 1), [(1, 1)]), ((4, 3), [(2, 2)]),
        ((1, 4), [(2, 1)]), ((0, 4), [(1, 1)])]) ∧
    ((findGrainsOf 4 5 (fun _ _ => 1) 2 exCutBounds 2).toOption.map fun r =>
      ((List.range r.list.length).map fun i => (r.points i).length,
        (buildNetwork 4 5 r.list.length r.grains exCutBounds).toOption.map
        fun net => net.map fun s => ((s.g1, s.g2), s.ptsX ++ s.ptsY))) =
      some ([5, 4, 5, 5], some [((1, 2), [(3, 1), (3, 1)]), ((0, 1), [(1, 1)]), ((3, 2), [(2, 2)]),
        ((1, 3), [(2, 1)]), ((0, 3), [(1, 1)])]) := by
  decide +kernel

/-! ### Half a turn -/

/-- The boundary points of a map, turned by half a turn: the boundary to the right of (below) a pixel is
recorded at the pixel opposite of the right (lower) one. -/
def Spec.TurnedBounds (h w : Nat) (b b' : BoundarySet) : Prop :=
  (∀ p, p ∈ b.pointsX ↔ oppositePx h w (across true p) ∈ b'.pointsX) ∧
  (∀ p, p ∈ b.pointsY ↔ oppositePx h w (across false p) ∈ b'.pointsY)

/-- Grain `a` of one map is grain `a'` of the map turned by half a turn. -/
def Spec.TurnedGrain (h w : Nat) (labels labels' : Img Int) (a a' : Nat) : Prop :=
  ∀ p, labels p.2 p.1 = a + 1 ↔ labels' (oppositePx h w p).2 (oppositePx h w p).1 = a' + 1

theorem opposite_across {h w : Nat} (d : Bool) (p : Px) :
    across d (oppositePx h w (across d p)) = oppositePx h w p := by
  obtain ⟨x, y⟩ := p
  cases d <;> simp [across, oppositePx] <;> omega

theorem opposite_interior {h w : Nat} {p : Px} :
    Interior h w (oppositePx h w p) ↔ Interior h w p := by
  unfold Interior oppositePx
  simp only
  omega

/-- **C145**, half a turn: two grains that are linked across a boundary with both its pixels off the
outermost rows and columns are linked in the turned map too. -/
theorem C145_turned {h w n n' : Nat} (labels labels' : Img Int) (b b' : BoundarySet)
    (hn' : ∀ q, InMap h w q → labels' q.2 q.1 ≤ n')
    (hx' : ∀ p ∈ b'.pointsX, InMap h w p) (hy' : ∀ p ∈ b'.pointsY, InMap h w p)
    (hb : TurnedBounds h w b b') {a a' c c' : Nat} (ha : TurnedGrain h w labels labels' a a')
    (hc : TurnedGrain h w labels labels' c c') (hne : a' ≠ c')
    (net net' : List Seg) (e : buildNetwork h w n labels b = .ok net)
    (e' : buildNetwork h w n' labels' b' = .ok net') (s : Seg) (hs : s ∈ net)
    (hac : (s.g1 = a ∧ s.g2 = c) ∨ (s.g1 = c ∧ s.g2 = a))
    (hn : ∀ q, InMap h w q → labels q.2 q.1 ≤ n)
    (hx : ∀ p ∈ b.pointsX, InMap h w p) (hy : ∀ p ∈ b.pointsY, InMap h w p)
    (hin : (∃ p ∈ s.ptsX, Interior h w (across true p)) ∨
      ∃ p ∈ s.ptsY, Interior h w (across false p)) : Linked net' a' c' := by
  obtain ⟨m', f', l', -⟩ := C15_network labels' b' hn' hx' hy'
  rw [e'] at f'; cases f'
  obtain ⟨px, py, -⟩ := C16_points labels b hn hx hy net e s hs
  rw [l']
  refine ⟨hne, ?_⟩
  have key : ∀ d p, Separates h w labels d s.g1 s.g2 p → Interior h w (across d p) →
      Separates h w labels' d a' c' (oppositePx h w (across d p)) := by
    intro d p hsep hi
    have hsep' : Separates h w labels d a c p := by
      rcases hac with ⟨rfl, rfl⟩ | ⟨rfl, rfl⟩
      · exact hsep
      · exact separates_swap.1 hsep
    refine ⟨opposite_interior.2 hi, ?_⟩
    rw [opposite_across, ← ha p, ← hc p, ← ha (across d p), ← hc (across d p)]
    obtain ⟨-, h1 | h1⟩ := hsep'
    · exact Or.inr ⟨h1.2, h1.1⟩
    · exact Or.inl ⟨h1.2, h1.1⟩
  rcases hin with ⟨p, hp, hi⟩ | ⟨p, hp, hi⟩
  · rw [px, List.mem_filter] at hp
    exact Or.inl ⟨_, (hb.1 p).1 hp.1, key true p (of_decide_eq_true hp.2) hi⟩
  · rw [py, List.mem_filter] at hp
    exact Or.inr ⟨_, (hb.2 p).1 hp.1, key false p (of_decide_eq_true hp.2) hi⟩

set_option synthInstance.maxHeartbeats 200000 in
set_option synthInstance.maxSize 1000 in
/-- Two grains of two columns each in a 4 x 4 map are linked in both directions. -/
example : ((buildNetwork 4 4 2 (fun _ x => if x < 2 then 1 else 2)
      { pointsX := [(1, 0), (1, 1), (1, 2), (1, 3)], pointsY := [] }).toOption.map
        fun net => net.map fun s => (s.g1, s.g2, s.ptsX)) = some [(0, 1, [(1, 1), (1, 2)])] ∧
    Interior 4 4 (across true (1, 1)) ∧
    ((buildNetwork 4 4 2 (fun _ x => if x < 2 then 2 else 1)
      { pointsX := [(1, 0), (1, 1), (1, 2), (1, 3)], pointsY := [] }).toOption.map
        fun net => net.map fun s => (s.g1, s.g2, s.ptsX)) = some [(1, 0, [(1, 1), (1, 2)])] := by
  decide +kernel

/-- A grain of one column at the left edge, and the rest of the map. -/
def Spec.stripLabels : Img Int := fun _ x => if x = 0 then 1 else 2
/-- The boundary between them. -/
def Spec.stripBounds (h : Nat) : BoundarySet :=
  { pointsX := (List.range h).map fun y : Nat => (0, (y : Int)), pointsY := [] }
/-- The map turned by half a turn. -/
def Spec.stripLabelsTurned (w : Nat) : Img Int := fun _ x => if x = (w : Int) - 1 then 1 else 2
/-- Its boundary. -/
def Spec.stripBoundsTurned (h w : Nat) : BoundarySet :=
  { pointsX := (List.range h).map fun y : Nat => ((w : Int) - 2, (y : Int)), pointsY := [] }

/-- **C145**, the exception: a grain of one column at the left edge of a map of any size has no
neighbours, but in the map turned by half a turn, where it is at the right edge, it has. -/
theorem C145_turned_false {h w : Nat} (hh : 3 ≤ h) (hw : 3 ≤ w) :
    TurnedGrain h w stripLabels (stripLabelsTurned w) 0 0 ∧
    TurnedGrain h w stripLabels (stripLabelsTurned w) 1 1 ∧
    TurnedBounds h w (stripBounds h) (stripBoundsTurned h w) ∧
    ∃ net net', buildNetwork h w 2 stripLabels (stripBounds h) = .ok net ∧
      buildNetwork h w 2 (stripLabelsTurned w) (stripBoundsTurned h w) = .ok net' ∧
      (∀ a c, ¬ Linked net a c) ∧ Linked net' 0 1 := by
  have hx1 : ∀ p ∈ (stripBounds h).pointsX, InMap h w p := by
    intro p hp
    simp only [stripBounds, List.mem_map, List.mem_range] at hp
    obtain ⟨y, hy, rfl⟩ := hp
    refine ⟨?_, ?_, ?_, ?_⟩ <;> simp <;> omega
  have hx2 : ∀ p ∈ (stripBoundsTurned h w).pointsX, InMap h w p := by
    intro p hp
    simp only [stripBoundsTurned, List.mem_map, List.mem_range] at hp
    obtain ⟨y, hy, rfl⟩ := hp
    refine ⟨?_, ?_, ?_, ?_⟩ <;> simp <;> omega
  obtain ⟨net, e, l, -⟩ := C15_network (h := h) (w := w) (n := 2) stripLabels (stripBounds h)
    (by intro q _; simp only [stripLabels]; split <;> simp) hx1 (by simp [stripBounds])
  obtain ⟨net', e', l', -⟩ := C15_network (h := h) (w := w) (n := 2) (stripLabelsTurned w)
    (stripBoundsTurned h w)
    (by intro q _; simp only [stripLabelsTurned]; split <;> simp) hx2 (by simp [stripBoundsTurned])
  refine ⟨?_, ?_, ?_, net, net', e, e', ?_, ?_⟩
  · intro p
    have ho : (oppositePx h w p).1 = (w : Int) - 1 - p.1 := rfl
    simp only [stripLabels, stripLabelsTurned]
    by_cases hp : p.1 = 0
    · rw [if_pos hp, if_pos (by omega)]
    · rw [if_neg hp, if_neg (by omega)]
  · intro p
    have ho : (oppositePx h w p).1 = (w : Int) - 1 - p.1 := rfl
    simp only [stripLabels, stripLabelsTurned]
    by_cases hp : p.1 = 0
    · rw [if_pos hp, if_pos (by omega)]
    · rw [if_neg hp, if_neg (by omega)]
  · refine ⟨?_, by simp [stripBounds, stripBoundsTurned]⟩
    rintro ⟨x, y⟩
    simp only [stripBounds, stripBoundsTurned, across, oppositePx, List.mem_map, List.mem_range,
      if_true, Prod.mk.injEq]
    constructor
    · rintro ⟨k, hk, rfl, rfl⟩
      exact ⟨h - 1 - k, by omega, by omega, by omega⟩
    · rintro ⟨k, hk, h1, h2⟩
      exact ⟨h - 1 - k, by omega, by omega, by omega⟩
  · intro a c
    rw [l]
    rintro ⟨-, ⟨p, hp, hs⟩ | ⟨p, hp, -⟩⟩
    · simp only [stripBounds, List.mem_map, List.mem_range] at hp
      obtain ⟨y, -, rfl⟩ := hp
      exact absurd hs.1.1 (by simp)
    · simp [stripBounds] at hp
  · rw [l']
    refine ⟨by simp, Or.inl ⟨((w : Int) - 2, 1), ?_, ?_⟩⟩
    · simp only [stripBoundsTurned, List.mem_map, List.mem_range]
      exact ⟨1, by omega, rfl⟩
    · refine ⟨⟨?_, ?_, ?_, ?_⟩, Or.inr ⟨?_, ?_⟩⟩
      · simp only; omega
      · simp only; omega
      · simp
      · simp only; omega
      · simp only [stripLabelsTurned]; rw [if_neg (by omega)]; rfl
      · simp only [stripLabelsTurned, across, if_true]; rw [if_pos (by omega)]; rfl

end DefDAP
