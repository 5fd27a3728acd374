import Verif.Model.Neighbours
import Verif.Spec.Touching
import Mathlib.Data.List.Basic

namespace DefDAP
open Spec

/-- The points of one kind. -/
def Seg.pts (s : Seg) (isX : Bool) : List Px := if isX then s.ptsX else s.ptsY
/-- The owners of one kind. -/
def Seg.own (s : Seg) (isX : Bool) : List Bool := if isX then s.ownX else s.ownY
/-- The number of a kind. -/
def kindNo (isX : Bool) : Nat := if isX then 0 else 1
/-- Segment with a point added. -/
def Seg.add (s : Seg) (p : Px) (isX : Bool) (owner : Nat) : Seg :=
  if isX then { s with ptsX := s.ptsX ++ [p], ownX := s.ownX ++ [decide (owner = s.g1)] }
  else { s with ptsY := s.ptsY ++ [p], ownY := s.ownY ++ [decide (owner = s.g1)] }

theorem Seg.addPoint_eq (s : Seg) (p : Px) (isX : Bool) (o : Nat) :
    s.addPoint p (kindNo isX) o = .ok (s.add p isX o) := by
  cases isX <;> simp [Seg.addPoint, kindNo, Seg.add]

@[simp] theorem Seg.add_g1 (s : Seg) (p : Px) (i : Bool) (o : Nat) : (s.add p i o).g1 = s.g1 := by
  cases i <;> rfl
@[simp] theorem Seg.add_g2 (s : Seg) (p : Px) (i : Bool) (o : Nat) : (s.add p i o).g2 = s.g2 := by
  cases i <;> rfl
@[simp] theorem Seg.add_joins (s : Seg) (p : Px) (i : Bool) (o a b : Nat) :
    (s.add p i o).joins a b = s.joins a b := by simp [Seg.joins]
theorem Seg.add_pts (s : Seg) (p : Px) (i j : Bool) (o : Nat) :
    (s.add p i o).pts j = if i = j then s.pts j ++ [p] else s.pts j := by
  cases i <;> cases j <;> simp [Seg.add, Seg.pts]
theorem Seg.add_own (s : Seg) (p : Px) (i j : Bool) (o : Nat) :
    (s.add p i o).own j = if i = j then s.own j ++ [decide (o = s.g1)] else s.own j := by
  cases i <;> cases j <;> simp [Seg.add, Seg.own]

theorem Seg.joins_iff {s : Seg} {a b : Nat} :
    s.joins a b = true ↔ (s.g1 = a ∧ s.g2 = b) ∨ (s.g1 = b ∧ s.g2 = a) := by
  simp [Seg.joins]

/-- All segments belong to different pairs of grains. -/
def PairsDiffer (net : List Seg) : Prop :=
  net.Pairwise fun s t => ¬ s.joins t.g1 t.g2 = true

theorem joins_trans {s t : Seg} {a b : Nat} (hs : s.joins a b = true) (ht : t.joins a b = true) :
    s.joins t.g1 t.g2 = true := by
  rw [Seg.joins_iff] at *
  omega

/-- The effect of `netAdd`. -/
theorem netAdd_eq (net : List Seg) (a b : Nat) (p : Px) (i : Bool) (hpw : PairsDiffer net) :
    netAdd net a b p (kindNo i) = .ok (
      if net.any (Seg.joins a b) then
        net.map fun s => if s.joins a b then s.add p i a else s
      else net ++ [Seg.add { g1 := a, g2 := b } p i a]) := by
  induction net with
  | nil => simp [netAdd, Seg.addPoint_eq]; rfl
  | cons s rest ih =>
    rw [PairsDiffer, List.pairwise_cons] at hpw
    rw [netAdd]
    by_cases hj : s.joins a b = true
    · have hrest : rest.map (fun s => if s.joins a b then s.add p i a else s) = rest := by
        conv_rhs => rw [← List.map_id rest]
        apply List.map_congr_left
        intro t ht
        have : ¬ t.joins a b = true := fun h => hpw.1 t ht (joins_trans hj h)
        simp [this]
      simp [hj, Seg.addPoint_eq, hrest]; rfl
    · rw [if_neg hj, ih hpw.2]
      simp only [List.any_cons, hj, Bool.false_or, List.map_cons]
      by_cases ha : rest.any (Seg.joins a b) = true
      · simp only [ha, if_true]; rfl
      · simp only [ha]; rfl

/-- What a step does. -/
theorem netStep_cases {h w n : Nat} {labels : Img Int} (i : Bool) (net : List Seg) {p : Px}
    (hp : InMap h w p) (hn : ∀ q, InMap h w q → labels q.2 q.1 ≤ n) :
    (∃ a b : Nat, a ≠ b ∧ a < n ∧ b < n ∧ Interior h w p ∧ labels p.2 p.1 = a + 1 ∧
      labels (across i p).2 (across i p).1 = b + 1 ∧
      netStep h w n labels (kindNo i) net p = netAdd net a b p (kindNo i)) ∨
    ((∀ a b : Nat, a ≠ b → ¬ Separates h w labels i a b p) ∧
      netStep h w n labels (kindNo i) net p = .ok net) := by
  unfold netStep
  obtain ⟨h1, h2, h3, h4⟩ := hp
  by_cases he : p.1 = 0 ∨ p.2 = 0 ∨ p.1 = (w : Int) - 1 ∨ p.2 = (h : Int) - 1
  · right
    rw [if_pos he]
    refine ⟨fun a b _ hs => ?_, rfl⟩
    have := hs.1
    unfold Interior at this
    omega
  · rw [if_neg he]
    have hint : Interior h w p := by unfold Interior; omega
    have hq : (across i p) = (p.1 - kindNo i + 1, p.2 + kindNo i) := by
      cases i <;> simp [across, kindNo]
    have hqm : InMap h w (p.1 - kindNo i + 1, p.2 + kindNo i) := by
      unfold InMap
      cases i <;> simp [kindNo] <;> omega
    have r1 : rd h w labels p.2 p.1 = .ok (labels p.2 p.1) := by
      unfold rd inB; simp [h1, h2, h3, h4]
    have r2 : rd h w labels (p.2 + kindNo i) (p.1 - kindNo i + 1) =
        .ok (labels (across i p).2 (across i p).1) := by
      rw [hq]
      obtain ⟨a1, a2, a3, a4⟩ := hqm
      simp only at a1 a2 a3 a4
      unfold rd inB; simp [a1, a2, a3, a4]
    rw [r1, r2]
    simp only [bind, Except.bind]
    have n1 := hn p ⟨h1, h2, h3, h4⟩
    have n2 := hn (across i p) (by rw [hq]; exact hqm)
    by_cases hab : labels (across i p).2 (across i p).1 - 1 = labels p.2 p.1 - 1
    · right
      rw [if_pos hab]
      refine ⟨fun a b hne hs => ?_, rfl⟩
      rcases hs.2 with ⟨e1, e2⟩ | ⟨e1, e2⟩ <;> omega
    · rw [if_neg hab]
      by_cases hneg : labels (across i p).2 (across i p).1 - 1 < 0 ∨ labels p.2 p.1 - 1 < 0
      · right
        rw [if_pos hneg]
        refine ⟨fun a b hne hs => ?_, rfl⟩
        rcases hs.2 with ⟨e1, e2⟩ | ⟨e1, e2⟩ <;> omega
      · left
        rw [if_neg hneg]
        refine ⟨(labels p.2 p.1 - 1).toNat, (labels (across i p).2 (across i p).1 - 1).toNat,
          by omega, by omega, by omega, hint, by omega, by omega, ?_⟩
        unfold grainAt
        rw [if_pos (by omega)]
        simp only
        rw [if_pos (by omega)]

/-- Invariant of the loops: `d i` are the points of kind `i` done so far. -/
structure NetInv (h w n : Nat) (labels : Img Int) (d : Bool → List Px) (net : List Seg) :
    Prop where
  differ : PairsDiffer net
  ends : ∀ s ∈ net, s.g1 ≠ s.g2 ∧ s.g1 < n ∧ s.g2 < n
  pts : ∀ s ∈ net, ∀ i, s.pts i = (d i).filter fun p => Separates h w labels i s.g1 s.g2 p
  own : ∀ s ∈ net, ∀ i, s.own i = (s.pts i).map fun p => decide (labels p.2 p.1 = s.g1 + 1)
  cover : ∀ i, ∀ p ∈ d i, ∀ a b : Nat, a ≠ b → Separates h w labels i a b p →
    ∃ s ∈ net, s.joins a b = true
  some' : ∀ s ∈ net, ∃ i, s.pts i ≠ []

theorem separates_swap {h w : Nat} {labels : Img Int} {i : Bool} {a b : Nat} {p : Px} :
    Separates h w labels i a b p ↔ Separates h w labels i b a p := by
  unfold Separates; tauto

theorem separates_joins {h w : Nat} {labels : Img Int} {i : Bool} {a b : Nat} {p : Px} {s : Seg}
    (hs : s.joins a b = true) :
    Separates h w labels i s.g1 s.g2 p ↔ Separates h w labels i a b p := by
  rcases Seg.joins_iff.1 hs with ⟨rfl, rfl⟩ | ⟨rfl, rfl⟩
  · exact Iff.rfl
  · exact separates_swap

theorem separates_unique {h w : Nat} {labels : Img Int} {i : Bool} {a b : Nat} {p : Px} {s : Seg}
    (h1 : Separates h w labels i a b p) (h2 : Separates h w labels i s.g1 s.g2 p) :
    s.joins a b = true := by
  rw [Seg.joins_iff]
  obtain ⟨-, h1⟩ := h1
  obtain ⟨-, h2⟩ := h2
  omega

theorem netInv_skip {h w n : Nat} {labels : Img Int} {d : Bool → List Px} {net : List Seg}
    {i : Bool} {p : Px} (hi : NetInv h w n labels d net)
    (hno : ∀ a b : Nat, a ≠ b → ¬ Separates h w labels i a b p) :
    NetInv h w n labels (fun j => if i = j then d j ++ [p] else d j) net := by
  refine { hi with pts := ?_, cover := ?_ }
  · intro s hs j
    rw [hi.pts s hs j]
    by_cases hij : i = j
    · subst hij
      simp [List.filter_append, hno _ _ (hi.ends s hs).1]
    · simp [hij]
  · intro j q hq a b hab hsep
    by_cases hij : i = j
    · subst hij
      simp only [if_true, List.mem_append, List.mem_singleton] at hq
      rcases hq with hq | rfl
      · exact hi.cover i q hq a b hab hsep
      · exact absurd hsep (hno a b hab)
    · simp only [hij, if_false] at hq
      exact hi.cover j q hq a b hab hsep

theorem netInv_add {h w n : Nat} {labels : Img Int} {d : Bool → List Px} {net : List Seg}
    {i : Bool} {p : Px} {a b : Nat} (hi : NetInv h w n labels d net) (hab : a ≠ b) (ha : a < n)
    (hb : b < n) (hint : Interior h w p) (la : labels p.2 p.1 = a + 1)
    (lb : labels (across i p).2 (across i p).1 = b + 1) :
    ∃ net', netAdd net a b p (kindNo i) = .ok net' ∧
    NetInv h w n labels (fun j => if i = j then d j ++ [p] else d j) net' := by
  have hsep : Separates h w labels i a b p := ⟨hint, Or.inl ⟨la, lb⟩⟩
  refine ⟨_, netAdd_eq net a b p i hi.differ, ?_⟩
  -- facts about one updated segment
  have hupd : ∀ s ∈ net, s.joins a b = true →
      (∀ j, (s.add p i a).pts j = (if i = j then d j ++ [p] else d j).filter
        fun q => Separates h w labels j s.g1 s.g2 q) ∧
      (∀ j, (s.add p i a).own j = ((s.add p i a).pts j).map
        fun q => decide (labels q.2 q.1 = s.g1 + 1)) := by
    intro s hs hj
    constructor
    · intro j
      rw [Seg.add_pts, hi.pts s hs j]
      by_cases hij : i = j
      · subst hij
        simp [List.filter_append, separates_joins hj, hsep]
      · simp [hij]
    · intro j
      rw [Seg.add_pts, Seg.add_own, hi.own s hs j]
      by_cases hij : i = j
      · subst hij
        simp [la]
      · simp [hij]
  have hkeep : ∀ s ∈ net, ¬ s.joins a b = true →
      ∀ j, s.pts j = (if i = j then d j ++ [p] else d j).filter
        fun q => Separates h w labels j s.g1 s.g2 q := by
    intro s hs hj j
    rw [hi.pts s hs j]
    by_cases hij : i = j
    · subst hij
      have : ¬ Separates h w labels i s.g1 s.g2 p := fun h2 => hj (separates_unique hsep h2)
      simp [List.filter_append, this]
    · simp [hij]
  have hcov : ∀ net' : List Seg, (∀ s ∈ net, ∃ s' ∈ net', s'.g1 = s.g1 ∧ s'.g2 = s.g2) →
      (∃ s ∈ net', s.joins a b = true) →
      ∀ j, ∀ q ∈ (if i = j then d j ++ [p] else d j), ∀ a b : Nat, a ≠ b →
        Separates h w labels j a b q → ∃ s ∈ net', s.joins a b = true := by
    intro net' hsub hnew j q hq c e hce hsep'
    have hold : ∀ j, q ∈ d j → Separates h w labels j c e q → ∃ s ∈ net', s.joins c e = true := by
      intro j hq hsep'
      obtain ⟨s, hs, hj⟩ := hi.cover j q hq c e hce hsep'
      obtain ⟨s', hs', e1, e2⟩ := hsub s hs
      exact ⟨s', hs', by rw [Seg.joins_iff] at *; omega⟩
    by_cases hij : i = j
    · subst hij
      simp only [if_true, List.mem_append, List.mem_singleton] at hq
      rcases hq with hq | rfl
      · exact hold i hq hsep'
      · obtain ⟨s, hs, hj⟩ := hnew
        refine ⟨s, hs, ?_⟩
        exact separates_unique hsep' ((separates_joins hj).2 hsep)
    · simp only [hij, if_false] at hq
      exact hold j hq hsep'
  by_cases hany : net.any (Seg.joins a b) = true
  · rw [if_pos hany]
    rw [List.any_eq_true] at hany
    obtain ⟨s0, hs0, hj0⟩ := hany
    have hmem : ∀ s', s' ∈ net.map (fun s => if s.joins a b then s.add p i a else s) →
        ∃ s ∈ net, s'.g1 = s.g1 ∧ s'.g2 = s.g2 ∧
          ((s.joins a b = true ∧ s' = s.add p i a) ∨ (¬ s.joins a b = true ∧ s' = s)) := by
      intro s' hs'
      obtain ⟨s, hs, rfl⟩ := List.mem_map.1 hs'
      refine ⟨s, hs, ?_⟩
      by_cases hj : s.joins a b = true
      · simp [hj]
      · simp [hj]
    constructor
    · unfold PairsDiffer
      rw [List.pairwise_map]
      refine hi.differ.imp ?_
      intro s t hst
      have e : ∀ s : Seg, (if s.joins a b = true then s.add p i a else s).g1 = s.g1 ∧
        (if s.joins a b = true then s.add p i a else s).g2 = s.g2 := by
        intro s; split <;> simp
      rw [Seg.joins_iff] at *
      rw [(e s).1, (e s).2, (e t).1, (e t).2]
      exact hst
    · intro s' hs'
      obtain ⟨s, hs, e1, e2, -⟩ := hmem s' hs'
      rw [e1, e2]; exact hi.ends s hs
    · intro s' hs' j
      obtain ⟨s, hs, e1, e2, ⟨hj, rfl⟩ | ⟨hj, rfl⟩⟩ := hmem s' hs'
      · simpa using (hupd s hs hj).1 j
      · exact hkeep s' hs hj j
    · intro s' hs' j
      obtain ⟨s, hs, e1, e2, ⟨hj, rfl⟩ | ⟨hj, rfl⟩⟩ := hmem s' hs'
      · simpa using (hupd s hs hj).2 j
      · exact hi.own s' hs j
    · apply hcov
      · intro s hs
        refine ⟨_, List.mem_map.2 ⟨s, hs, rfl⟩, ?_⟩
        split <;> simp
      · exact ⟨_, List.mem_map.2 ⟨s0, hs0, rfl⟩, by simp [hj0]⟩
    · intro s' hs'
      obtain ⟨s, hs, e1, e2, ⟨hj, rfl⟩ | ⟨hj, rfl⟩⟩ := hmem s' hs'
      · exact ⟨i, by simp [Seg.add_pts]⟩
      · exact hi.some' s' hs
  · rw [if_neg hany]
    have hnone : ∀ s ∈ net, ¬ s.joins a b = true := by
      intro s hs hj
      exact hany (List.any_eq_true.2 ⟨s, hs, hj⟩)
    have hnewpts : ∀ j, (Seg.add { g1 := a, g2 := b } p i a).pts j =
        (if i = j then d j ++ [p] else d j).filter fun q => Separates h w labels j a b q := by
      intro j
      have hnil : (d j).filter (fun q => Separates h w labels j a b q) = [] := by
        rw [List.filter_eq_nil_iff]
        intro q hq hs
        obtain ⟨s, hs1, hs2⟩ := hi.cover j q hq a b hab (of_decide_eq_true hs)
        exact hnone s hs1 hs2
      rw [Seg.add_pts]
      by_cases hij : i = j
      · subst hij
        simp [List.filter_append, hnil, hsep, Seg.pts]
      · simp [hij, hnil, Seg.pts]
    constructor
    · unfold PairsDiffer
      rw [List.pairwise_append]
      refine ⟨hi.differ, List.pairwise_singleton _ _, ?_⟩
      intro s hs t ht
      rw [List.mem_singleton] at ht
      subst ht
      simpa using hnone s hs
    · intro s hs
      rcases List.mem_append.1 hs with hs | hs
      · exact hi.ends s hs
      · rw [List.mem_singleton] at hs; subst hs
        simp only [Seg.add_g1, Seg.add_g2]
        exact ⟨hab, ha, hb⟩
    · intro s hs j
      rcases List.mem_append.1 hs with hs | hs
      · exact hkeep s hs (hnone s hs) j
      · rw [List.mem_singleton] at hs; subst hs
        simpa using hnewpts j
    · intro s hs j
      rcases List.mem_append.1 hs with hs | hs
      · exact hi.own s hs j
      · rw [List.mem_singleton] at hs; subst hs
        rw [Seg.add_pts, Seg.add_own]
        by_cases hij : i = j
        · subst hij; simp [la, Seg.own, Seg.pts]
        · simp [hij, Seg.own, Seg.pts]
    · apply hcov
      · intro s hs
        exact ⟨s, List.mem_append_left _ hs, rfl, rfl⟩
      · exact ⟨_, List.mem_append_right _ (List.mem_singleton.2 rfl), by simp [Seg.joins]⟩
    · intro s hs
      rcases List.mem_append.1 hs with hs | hs
      · exact hi.some' s hs
      · rw [List.mem_singleton] at hs; subst hs
        exact ⟨i, by simp [Seg.add_pts]⟩

theorem netLoop_inv {h w n : Nat} {labels : Img Int} (i : Bool)
    (hn : ∀ q, InMap h w q → labels q.2 q.1 ≤ n) :
    ∀ (l : List Px) (d : Bool → List Px) (net : List Seg), (∀ p ∈ l, InMap h w p) →
      NetInv h w n labels d net →
      ∃ net', l.foldlM (netStep h w n labels (kindNo i)) net = .ok net' ∧
        NetInv h w n labels (fun j => if i = j then d j ++ l else d j) net' := by
  intro l
  induction l with
  | nil =>
    intro d net _ hi
    refine ⟨net, rfl, ?_⟩
    simpa using hi
  | cons p l ih =>
    intro d net hl hi
    have step : ∃ net1, netStep h w n labels (kindNo i) net p = .ok net1 ∧
        NetInv h w n labels (fun j => if i = j then d j ++ [p] else d j) net1 := by
      rcases netStep_cases i net (hl p (by simp)) hn with
        ⟨a, b, hab, ha, hb, hint, la, lb, he⟩ | ⟨hno, he⟩
      · rw [he]; exact netInv_add hi hab ha hb hint la lb
      · exact ⟨net, he, netInv_skip hi hno⟩
    obtain ⟨net1, h1, hi1⟩ := step
    obtain ⟨net2, h2, hi2⟩ := ih _ net1 (fun q hq => hl q (by simp [hq])) hi1
    refine ⟨net2, ?_, ?_⟩
    · rw [List.foldlM_cons, h1]; exact h2
    · have : (fun j => if i = j then (if i = j then d j ++ [p] else d j) ++ l
          else if i = j then d j ++ [p] else d j) = fun j => if i = j then d j ++ p :: l else d j := by
        funext j
        by_cases hij : i = j <;> simp [hij]
      rwa [this] at hi2

theorem buildNetwork_inv {h w n : Nat} {labels : Img Int} (b : BoundarySet)
    (hn : ∀ q, InMap h w q → labels q.2 q.1 ≤ n)
    (hx : ∀ p ∈ b.pointsX, InMap h w p) (hy : ∀ p ∈ b.pointsY, InMap h w p) :
    ∃ net, buildNetwork h w n labels b = .ok net ∧
      NetInv h w n labels (fun j => if j then b.pointsX else b.pointsY) net := by
  have h0 : NetInv h w n labels (fun _ => []) [] := by
    constructor <;> simp [PairsDiffer]
  obtain ⟨net1, e1, i1⟩ := netLoop_inv true hn b.pointsX _ _ hx h0
  obtain ⟨net2, e2, i2⟩ := netLoop_inv false hn b.pointsY _ _ hy i1
  refine ⟨net2, ?_, ?_⟩
  · unfold buildNetwork
    have e1' : b.pointsX.foldlM (netStep h w n labels 0) [] = .ok net1 := e1
    rw [e1']; exact e2
  · have : (fun j => if false = j then (if true = j then ([] : List Px) ++ b.pointsX else []) ++
        b.pointsY else if true = j then [] ++ b.pointsX else []) =
        fun j => if j then b.pointsX else b.pointsY := by
      funext j; cases j <;> simp
    rwa [this] at i2

end DefDAP
