import Verif.Proofs.DicGrains
import Verif.Proofs.Boundaries

/-! Properties C13 and C14: grain finding in DIC maps. -/

namespace DefDAP
open Spec

/-- The points of grain `i` as seen in the final buffer. -/
def DicResult.points (r : DicResult) (i : Nat) : List Px :=
  ((r.list[i]?.map fun v => v.read r.buf).getD [])

/-- **C13** After a successful floodfill run: every pixel that is not a boundary pixel is in
a grain or labelled -2, the latter exactly if its region (with the boundary pixels belonging
to it) is smaller than the minimum; pixels with the same positive label are in one region and
pixels of one region share the label; a boundary pixel stays unassigned (-1) exactly if no
free pixel of the map is directly left of or above it, and otherwise has the label of the
region it belongs to. -/
theorem C13_partition {h w : Nat} (hw : 2 ≤ w) (hh : 2 ≤ h) (bnd : Img Bool) (minSize : Nat)
    (r : DicResult) (hr : findGrainsDic h w bnd minSize = .ok r) :
    (∀ p, InMap h w p → bnd p.2 p.1 = false →
      r.grains p.2 p.1 = -2 ∨ (1 ≤ r.grains p.2 p.1 ∧ r.grains p.2 p.1 ≤ r.list.length)) ∧
    (∀ p, InMap h w p → bnd p.2 p.1 = false →
      (r.grains p.2 p.1 = -2 ↔ dicRegionSize h w bnd p < minSize)) ∧
    (∀ p q, bnd p.2 p.1 = false → 1 ≤ r.grains p.2 p.1 → r.grains q.2 q.1 = r.grains p.2 p.1 →
      InRegion h w bnd p q) ∧
    (∀ p q, InMap h w p → bnd p.2 p.1 = false → InRegion h w bnd p q →
      r.grains q.2 q.1 = r.grains p.2 p.1) ∧
    (∀ q, InMap h w q → bnd q.2 q.1 = true →
      (r.grains q.2 q.1 = -1 ↔
        ¬ ∃ p, InMap h w p ∧ bnd p.2 p.1 = false ∧ RightOrBelow p q)) ∧
    (∀ q, InMap h w q → bnd q.2 q.1 = true → r.grains q.2 q.1 ≠ -1 →
      ∃ p, InMap h w p ∧ bnd p.2 p.1 = false ∧ Owns h w bnd p q) := by
  obtain ⟨st, hb, hg, hbuf, hlist, -⟩ := findGrainsDic_base hw hh hr
  rw [hg, hlist]
  have hused : ∀ q, InMap h w q → bnd q.2 q.1 = true → st.grains q.2 q.1 ≠ -1 → q ∈ st.used := by
    intro q _ hqb hne
    by_contra hu
    have := hb.zero q hu
    rw [hqb] at this
    exact hne this
  refine ⟨?_, ?_, ?_, ?_, ?_, ?_⟩
  · intro p hp hpf
    rcases hb.some' p (hb.done p hp hpf (raster_lt hp)) with h1 | h1
    · exact Or.inl h1
    · exact Or.inr ⟨h1, hb.top p⟩
  · intro p hp hpf
    exact hb.small_iff hp hpf
  · intro p q hpf h1 h2
    obtain ⟨i, v, hv, hpv, k⟩ := hb.kept_of_pos (p := p) h1
    rw [← k.comp p hpv hpf, k.label, h2]
    exact (k.label p).1 hpv
  · intro p q hp hpf hc
    exact hb.label_region hp hpf hc
  · intro q hq hqb
    constructor
    · rintro h1 ⟨p, hp, hpf, hrb⟩
      have hu := hb.taken p (hb.done p hp hpf (raster_lt hp)) hpf q hq hqb hrb
      rcases hb.some' q hu with h2 | h2 <;> omega
    · intro hno
      by_contra hne
      obtain ⟨r', hr', hrf, hrb, -⟩ := hb.first q (hused q hq hqb hne) hqb
      exact hno ⟨r', hb.inmap r' hr', hrf, hrb⟩
  · intro q hq hqb hne
    exact hb.owner (hused q hq hqb hne) hqb

/-- **C13**, the grain list: grain `i` holds, each once, exactly the pixels labelled `i + 1`,
has at least the minimum size and contains a free pixel, and grains are listed in raster
order of their first free pixel. -/
theorem C13_numbering {h w : Nat} (hw : 2 ≤ w) (hh : 2 ≤ h) (bnd : Img Bool) (minSize : Nat)
    (r : DicResult) (hr : findGrainsDic h w bnd minSize = .ok r) :
    (∀ i, i < r.list.length → (r.points i).Nodup ∧
      (∀ p, p ∈ r.points i ↔ r.grains p.2 p.1 = (i : Int) + 1) ∧
      minSize ≤ (r.points i).length ∧ (∃ p ∈ r.points i, bnd p.2 p.1 = false) ∧
      ∀ p ∈ r.points i, InMap h w p) ∧
    (∀ i j, i < j → j < r.list.length → ∃ p ∈ r.points i, bnd p.2 p.1 = false ∧
      ∀ q ∈ r.points j, bnd q.2 q.1 = false → raster w p < raster w q) := by
  obtain ⟨st, hb, hg, hbuf, hlist, -⟩ := findGrainsDic_base hw hh hr
  have hpts : ∀ i v, st.list[i]? = some v → r.points i = v.read st.buf := by
    intro i v hv
    simp [DicResult.points, hlist, hv, hbuf]
  rw [hlist, hg]
  refine ⟨?_, ?_⟩
  · intro i hi
    have hv : st.list[i]? = some st.list[i] := List.getElem?_eq_getElem hi
    have k := hb.kept i _ hv
    rw [hpts i _ hv]
    refine ⟨k.nodup, k.label, ?_, ?_, ?_⟩
    · simpa [View.read] using k.size
    · obtain ⟨p, hp, hpf, -⟩ := k.seed
      exact ⟨p, hp, hpf⟩
    · intro p hp
      exact hb.inmap p (k.in_used hb hp)
  · intro i j hij hj
    have hv : st.list[i]? = some st.list[i] := List.getElem?_eq_getElem (by omega)
    have hu : st.list[j]? = some st.list[j] := List.getElem?_eq_getElem hj
    rw [hpts i _ hv, hpts j _ hu]
    exact hb.order i j _ _ hij hv hu

/-- **C13**, when it fails: `ValueError` exactly if every pixel is a boundary pixel,
`IndexError` exactly if some pixel is free but no region has the minimum size. -/
theorem C13_failure {h w : Nat} (hw : 2 ≤ w) (hh : 2 ≤ h) (bnd : Img Bool) (minSize : Nat) :
    (findGrainsDic h w bnd minSize = .error .valueError ↔
      ∀ p, InMap h w p → bnd p.2 p.1 = true) ∧
    (findGrainsDic h w bnd minSize = .error .indexError ↔
      (∃ p, InMap h w p ∧ bnd p.2 p.1 = false) ∧
      ∀ p, InMap h w p → bnd p.2 p.1 = false → dicRegionSize h w bnd p < minSize) ∧
    ((∃ r, findGrainsDic h w bnd minSize = .ok r) ↔
      ∃ p, InMap h w p ∧ bnd p.2 p.1 = false ∧ minSize ≤ dicRegionSize h w bnd p) := by
  rcases findGrainsDic_run hw hh bnd minSize with ⟨h0, he⟩ | ⟨st, hex, hb, he⟩
  · rw [he]
    refine ⟨⟨fun _ => h0, fun _ => rfl⟩, ⟨by simp, ?_⟩, ⟨by simp, ?_⟩⟩
    · rintro ⟨⟨p, hp, hpi⟩, -⟩; rw [h0 p hp] at hpi; cases hpi
    · rintro ⟨p, hp, hpi, -⟩; rw [h0 p hp] at hpi; cases hpi
  · rw [he]
    have hpos : ∀ p, InMap h w p → bnd p.2 p.1 = false → st.list = [] →
        dicRegionSize h w bnd p < minSize := by
      intro p hp hpi hnil
      have htop := hb.top p
      rw [hnil] at htop
      simp at htop
      rw [← hb.small_iff hp hpi]
      rcases hb.some' p (hb.done p hp hpi (raster_lt hp)) with h1 | h1
      · exact h1
      · omega
    cases hst : st.list with
    | nil =>
      refine ⟨⟨by simp, ?_⟩, ⟨fun _ => ⟨hex, fun p hp hpi => hpos p hp hpi hst⟩, by simp⟩,
        ⟨by simp, ?_⟩⟩
      · intro h0; obtain ⟨p, hp, hpi⟩ := hex; rw [h0 p hp] at hpi; cases hpi
      · rintro ⟨p, hp, hpi, hle⟩
        have := hpos p hp hpi hst
        omega
    | cons v l =>
      have k := hb.kept 0 v (by rw [hst]; rfl)
      obtain ⟨p, hps, hpi, -⟩ := k.seed
      have hp := hb.inmap p (k.in_used hb hps)
      have hle : minSize ≤ dicRegionSize h w bnd p := by
        by_contra hlt
        have := (hb.small_iff hp hpi).2 (by omega)
        rw [(k.label p).1 hps] at this
        omega
      refine ⟨⟨by simp, ?_⟩, ⟨by simp, ?_⟩, ⟨fun _ => ⟨p, hp, hpi, hle⟩, by simp⟩⟩
      · intro h0; rw [h0 p hp] at hpi; cases hpi
      · rintro ⟨-, h0⟩; have := h0 p hp hpi; omega

/-- **C13**, a consequence of how an empty boundary set is read: without any boundary in the
DIC map, on a map of any size, the run fails with `ValueError` although the whole map is
one region. -/
theorem C13_no_boundaries_fails {h w : Nat} (hw : 2 ≤ w) (hh : 2 ≤ h) (minSize : Nat) :
    findGrainsDicOf h w [] minSize = .error .valueError := by
  simp only [findGrainsDicOf, boundaryImage, bind, Except.bind]
  exact (C13_failure hw hh _ minSize).1.2 (fun _ _ => rfl)

/-! A 5 x 4 example with a boundary cross: column 2 and row 2. -/

/-- Boundary image of the example. -/
def exCross : Img Bool := fun y x => decide (x = 2 ∨ y = 2)

/-- The run with minimum size 3: the four quarters have 4, 4, 2, 2 free pixels; each takes
boundary pixels right of and below it. The lower right quarter stays below the minimum, and
no boundary pixel is left over but the crossing, which has no free pixel to its left or
above. -/
example : (findGrainsDic 4 5 exCross 3).toOption.map (fun r =>
      ((List.range 4).map fun (y : Nat) => (List.range 5).map fun (x : Nat) => r.grains y x,
        (List.range r.list.length).map r.points)) =
    some ([[1, 1, 1, 2, 2], [1, 1, 1, 2, 2], [1, 1, -1, 2, 2], [3, 3, 3, -2, -2]],
      [[(0, 0), (1, 0), (0, 1), (1, 1), (0, 2), (2, 1), (1, 2), (2, 0)],
       [(3, 0), (4, 0), (3, 1), (4, 1), (3, 2), (4, 2)], [(0, 3), (1, 3), (2, 3)]]) := by
  decide +kernel

/-- Both failure cases occur. -/
example : (findGrainsDic 4 5 exCross 9).toOption.isNone = true ∧
    (findGrainsDic 4 5 (fun _ _ => true) 1).toOption.isNone = true := by
  decide +kernel

end DefDAP
