import Verif.Proofs.FindGrains
import Verif.Proofs.Boundaries

/-! Properties C03 to C07: grain finding in EBSD maps. -/

namespace DefDAP
open Spec

/-- The points of grain `i` as seen in the final buffer. -/
def FGResult.points (r : FGResult) (i : Nat) : List Px :=
  ((r.list[i]?.map fun g => g.1.read r.buf).getD [])

/-- **C03** After a successful run: every indexed pixel is in a grain (label between 1 and
the number of grains) or labelled -2; pixels with the same positive label are connected
without crossing a boundary; connected pixels have the same label; and if boundaries
separate indexed from non-indexed pixels, every non-indexed pixel keeps 0. -/
theorem C03_partition {h w : Nat} (hw : 2 ≤ w) (hh : 2 ≤ h) (bx by' : Img Bool)
    (phase : Img Int) (numPhases minSize : Nat) (r : FGResult)
    (hr : findGrains h w phase numPhases bx by' minSize = .ok r) :
    (∀ p, InMap h w p → phase p.2 p.1 ≠ 0 →
      r.grains p.2 p.1 = -2 ∨ (1 ≤ r.grains p.2 p.1 ∧ r.grains p.2 p.1 ≤ r.list.length)) ∧
    (∀ p q, 1 ≤ r.grains p.2 p.1 → r.grains p.2 p.1 = r.grains q.2 q.1 →
      Conn h w bx by' p q) ∧
    (∀ p q, Conn h w bx by' p q → r.grains p.2 p.1 = r.grains q.2 q.1) ∧
    (SeparatesIndexed h w bx by' phase →
      ∀ p, InMap h w p → phase p.2 p.1 = 0 → r.grains p.2 p.1 = 0) := by
  obtain ⟨st, hb, hg, hbuf, hlen, hlist⟩ := findGrains_base hw hh hr
  refine ⟨?_, ?_, ?_, ?_⟩
  · intro p hp hpi
    have hu := hb.done p hp hpi (raster_lt hp)
    rw [hg, hlen]
    rcases hb.some' p hu with h1 | h1
    · exact Or.inl h1
    · exact Or.inr ⟨h1, hb.top p⟩
  · intro p q hp hpq
    rw [hg] at hp hpq
    obtain ⟨i, v, hv, hpv, hq⟩ := hb.kept_of_pos (p := p) hp
    exact (hq.comp p hpv q).1 ((hq.label q).2 (by rw [← hpq]; exact (hq.label p).1 hpv))
  · intro p q hc
    rw [hg]
    exact hb.label_conn hc
  · intro hsep p hp hp0
    rw [hg]
    apply hb.zero
    intro hu
    obtain ⟨q, hc, hqi⟩ := hb.has_indexed hu
    have : ∀ a b, Conn h w bx by' a b → (phase a.2 a.1 = 0 ↔ phase b.2 b.1 = 0) := by
      intro a b hab
      induction hab with
      | refl => exact Iff.rfl
      | tail _ hs ih => exact ih.trans (hsep _ _ hs)
    exact hqi ((this p q hc).1 hp0)

/-- **C04** The labels match the grain list: grain `i` holds, each once, exactly the pixels
labelled `i + 1`; it has at least the minimum size; a pixel is labelled -2 exactly if its
region holds an indexed pixel but fewer pixels than the minimum; and grains are listed in
raster order of their first indexed pixel. -/
theorem C04_numbering {h w : Nat} (hw : 2 ≤ w) (hh : 2 ≤ h) (bx by' : Img Bool)
    (phase : Img Int) (numPhases minSize : Nat) (r : FGResult)
    (hr : findGrains h w phase numPhases bx by' minSize = .ok r) :
    (∀ i, i < r.list.length → (r.points i).Nodup ∧
      (∀ p, p ∈ r.points i ↔ r.grains p.2 p.1 = (i : Int) + 1) ∧
      minSize ≤ (r.points i).length ∧ r.points i ≠ [] ∧ ∀ p ∈ r.points i, InMap h w p) ∧
    (∀ p, InMap h w p → (r.grains p.2 p.1 = -2 ↔
      regionSize h w bx by' p < minSize ∧ ∃ q, Conn h w bx by' p q ∧ phase q.2 q.1 ≠ 0)) ∧
    (∀ i j, i < j → j < r.list.length → ∃ p ∈ r.points i, phase p.2 p.1 ≠ 0 ∧
      ∀ q ∈ r.points j, phase q.2 q.1 ≠ 0 → raster w p < raster w q) := by
  obtain ⟨st, hb, hg, hbuf, hlen, hlist⟩ := findGrains_base hw hh hr
  have hpts : ∀ i v, st.list[i]? = some v → r.points i = v.read st.buf := by
    intro i v hv
    simp [FGResult.points, hlist, hv, hbuf]
  refine ⟨?_, ?_, ?_⟩
  · intro i hi
    rw [hlen] at hi
    have hv : st.list[i]? = some st.list[i] := List.getElem?_eq_getElem hi
    have k := hb.kept i _ hv
    rw [hpts i _ hv, hg]
    refine ⟨k.nodup, k.label, ?_, ?_, ?_⟩
    · simpa [View.read] using k.size
    · obtain ⟨p, hp, -⟩ := k.seed
      exact List.ne_nil_of_mem hp
    · intro p hp
      apply hb.inmap
      by_contra hu
      have := hb.zero p hu
      rw [(k.label p).1 hp] at this
      omega
  · intro p hp
    rw [hg]
    exact hb.small_iff hp
  · intro i j hij hj
    rw [hlen] at hj
    have hv : st.list[i]? = some st.list[i] := List.getElem?_eq_getElem (by omega)
    have hu : st.list[j]? = some st.list[j] := List.getElem?_eq_getElem hj
    rw [hpts i _ hv, hpts j _ hu]
    exact hb.order i j _ _ hij hv hu

/-- **C05** With the boundaries of the boundary finder, whatever the orientations and the
tolerance, every pixel of a grain is indexed and has the grain's phase. If the phase map
only uses the listed phases the grain's phase is set. -/
theorem C05_single_phase {α : Type} [Zero α] [LinearOrder α] {h w : Nat} (hw : 2 ≤ w)
    (hh : 2 ≤ h) (ang : Px → Px → α) (tol : α) (htol : 0 ≤ tol) (phase : Img Int)
    (numPhases minSize : Nat) (r : FGResult)
    (hr : findGrainsOf h w phase numPhases (findBoundaries h w ang phase tol).2 minSize = .ok r)
    (hphase : ∀ p, InMap h w p → 0 ≤ phase p.2 p.1 ∧ phase p.2 p.1 ≤ numPhases) :
    (∀ p, InMap h w p → phase p.2 p.1 = 0 → r.grains p.2 p.1 = 0) ∧
    ∀ i g, r.list[i]? = some g → ∃ k : Int, g.2 = some k ∧ 0 ≤ k ∧ k < numPhases ∧
      ∀ p ∈ r.points i, phase p.2 p.1 = k + 1 := by
  obtain ⟨bx, by', hsep, hrun⟩ := findGrainsOf_sep htol hr
  have hsepc : ∀ a b, Conn h w bx by' a b → phase a.2 a.1 = phase b.2 b.1 := by
    intro a b hab
    induction hab with
    | refl => rfl
    | tail _ hs ih => exact ih.trans (hsep _ _ hs)
  refine ⟨?_, ?_⟩
  · exact (C03_partition hw hh bx by' phase numPhases minSize r hrun).2.2.2
      (fun p q hs => by rw [hsep p q hs])
  · intro i g hgi
    obtain ⟨st, hb, hg, hbuf, hlen, hlist⟩ := findGrains_base hw hh hrun
    have hgi' := hgi
    rw [hlist, List.getElem?_map] at hgi'
    obtain ⟨v, hv, rfl⟩ : ∃ v, st.list[i]? = some v ∧
        (v, grainPhase numPhases phase (v.read st.buf)) = g := by
      cases hv : st.list[i]? with
      | none => rw [hv] at hgi'; simp at hgi'
      | some v => rw [hv] at hgi'; simp at hgi'; exact ⟨v, rfl, hgi'⟩
    have k := hb.kept i v hv
    have hpts : r.points i = v.read st.buf := by simp [FGResult.points, hlist, hv, hbuf]
    obtain ⟨s, hs, hsi, -, -⟩ := k.seed
    have hin : ∀ p ∈ v.read st.buf, InMap h w p := by
      intro p hp
      apply hb.inmap
      by_contra hu
      have := hb.zero p hu
      rw [(k.label p).1 hp] at this
      omega
    have hall : ∀ p ∈ v.read st.buf, phase p.2 p.1 = phase s.2 s.1 := fun p hp =>
      hsepc p s ((k.comp p hp s).1 hs)
    obtain ⟨h1, h2⟩ := hphase s (hin s hs)
    rw [hpts]
    refine ⟨phase s.2 s.1 - 1, ?_, by omega, by omega, fun p hp => by rw [hall p hp]; omega⟩
    exact grainPhase_const (List.ne_nil_of_mem hs) hall (by omega) (by omega)

/-- **C06** Later steps of a run never disturb the points of grains already found: whatever
happens in the rest of the loop, a view that lies in the part of the shared buffer used
so far shows the same points at the end of the run. -/
theorem C06_views_stable (h w : Nat) (bx by' : Img Bool) (minSize k : Nat) (st st' : FG)
    (hrun : fgLoop h w bx by' minSize k st = .ok st') (v : View)
    (hv : v.off + v.len ≤ st.off) : v.read st'.buf = v.read st.buf :=
  read_congr hv (fgLoop_frame k st st' hrun).1

/-- **C06**, disjointness: in a successful run the slices of the buffer given to the grains
are disjoint, lie inside the buffer of one slot per pixel, and appear in list order. -/
theorem C06_views_disjoint {h w : Nat} (hw : 2 ≤ w) (hh : 2 ≤ h) (bx by' : Img Bool)
    (phase : Img Int) (numPhases minSize : Nat) (r : FGResult)
    (hr : findGrains h w phase numPhases bx by' minSize = .ok r) :
    (∀ g ∈ r.list, g.1.off + g.1.len ≤ h * w) ∧
    (r.list.Pairwise fun a b => a.1.off + a.1.len ≤ b.1.off) :=
  findGrains_views hw hh hr

/-- **C07** Grain finding fails exactly in two cases: there is no indexed pixel (then
`ValueError`), or there is one but no region with an indexed pixel has the minimum size
(then `IndexError`). Otherwise it succeeds. -/
theorem C07_failure {h w : Nat} (hw : 2 ≤ w) (hh : 2 ≤ h) (bx by' : Img Bool)
    (phase : Img Int) (numPhases minSize : Nat) :
    (findGrains h w phase numPhases bx by' minSize = .error .valueError ↔
      ∀ p, InMap h w p → phase p.2 p.1 = 0) ∧
    (findGrains h w phase numPhases bx by' minSize = .error .indexError ↔
      (∃ p, InMap h w p ∧ phase p.2 p.1 ≠ 0) ∧
      ∀ p, InMap h w p → phase p.2 p.1 ≠ 0 → regionSize h w bx by' p < minSize) ∧
    ((∃ r, findGrains h w phase numPhases bx by' minSize = .ok r) ↔
      ∃ p, InMap h w p ∧ phase p.2 p.1 ≠ 0 ∧ minSize ≤ regionSize h w bx by' p) := by
  rcases findGrains_run hw hh bx by' phase numPhases minSize with ⟨h0, he⟩ | ⟨st, hex, hb, he⟩
  · rw [he]
    refine ⟨⟨fun _ => h0, fun _ => rfl⟩, ⟨by simp, ?_⟩, ⟨by simp, ?_⟩⟩
    · rintro ⟨⟨p, hp, hpi⟩, -⟩; exact absurd (h0 p hp) hpi
    · rintro ⟨p, hp, hpi, -⟩; exact absurd (h0 p hp) hpi
  · rw [he]
    have hpos : ∀ p, InMap h w p → phase p.2 p.1 ≠ 0 → st.list = [] →
        regionSize h w bx by' p < minSize := by
      intro p hp hpi hnil
      have hu := hb.done p hp hpi (raster_lt hp)
      have htop := hb.top p
      rw [hnil] at htop
      simp at htop
      have h2 : st.grains p.2 p.1 = -2 := by
        rcases hb.some' p hu with h1 | h1
        · exact h1
        · omega
      exact ((hb.small_iff hp).1 h2).1
    have hlarge : st.list ≠ [] → ∃ p, InMap h w p ∧ phase p.2 p.1 ≠ 0 ∧
        minSize ≤ regionSize h w bx by' p := by
      intro hne
      cases hst : st.list with
      | nil => exact absurd hst hne
      | cons v l =>
        have k := hb.kept 0 v (by rw [hst]; rfl)
        obtain ⟨s, hs, hsi, -, -⟩ := k.seed
        have hsm : InMap h w s := by
          apply hb.inmap
          by_contra hu
          have := hb.zero s hu
          rw [(k.label s).1 hs] at this
          omega
        refine ⟨s, hsm, hsi, ?_⟩
        by_contra hlt
        have := (hb.small_iff hsm).2 ⟨by omega, s, Relation.ReflTransGen.refl, hsi⟩
        rw [(k.label s).1 hs] at this
        omega
    cases hst : st.list with
    | nil =>
      refine ⟨⟨by simp, ?_⟩, ⟨fun _ => ⟨hex, fun p hp hpi => hpos p hp hpi hst⟩, by simp⟩,
        ⟨by simp, ?_⟩⟩
      · intro h0; obtain ⟨p, hp, hpi⟩ := hex; exact absurd (h0 p hp) hpi
      · rintro ⟨p, hp, hpi, hle⟩
        have := hpos p hp hpi hst
        omega
    | cons v l =>
      obtain ⟨p, hp, hpi, hle⟩ := hlarge (by rw [hst]; simp)
      refine ⟨⟨by simp, ?_⟩, ⟨by simp, ?_⟩, ⟨fun _ => ⟨p, hp, hpi, hle⟩, by simp⟩⟩
      · intro h0; exact absurd (h0 p hp) hpi
      · rintro ⟨-, h0⟩; have := h0 p hp hpi; omega

/-! A 4 x 3 example: column 0 is not indexed, columns 1 and 2 are phase 1, column 3 is
phase 2 (with one pixel of it non-indexed), boundaries between them. -/

/-- Phase map of the example. -/
def exPhase : Img Int := fun y x => if x = 0 then 0 else if x ≤ 2 then 1
  else if y = 0 then 0 else 2
/-- Boundaries of the example: where the phase changes, or the angle 5 exceeds the
tolerance 3 (between rows 0 and 1 in columns 1 and 2). -/
def exAng : Px → Px → Int := fun p q => if p.2 = 0 ∧ q.2 = 1 then 5 else 0
/-- Its boundary set. -/
def exBounds : BoundarySet := (findBoundaries 3 4 exAng exPhase 3).2

/-- The run on the example succeeds with minimum size 2: grains of 2, 4 and 2 pixels,
phases 0, 0 and 1. This meets the hypotheses of C03 to C06. -/
example : (findGrainsOf 3 4 exPhase 2 exBounds 2).toOption.map (fun r =>
      ((List.range 3).map fun (y : Nat) => (List.range 4).map fun (x : Nat) => r.grains y x,
        r.list.map (·.2), (List.range r.list.length).map r.points)) =
    some ([[0, 1, 1, 0], [0, 2, 2, 3], [0, 2, 2, 3]], [some 0, some 0, some 1],
      [[(1, 0), (2, 0)], [(1, 1), (2, 1), (1, 2), (2, 2)], [(3, 1), (3, 2)]]) := by
  decide +kernel

/-- With minimum size 3 the first and the last region are discarded and the remaining one
is renumbered to 1. -/
example : (findGrainsOf 3 4 exPhase 2 exBounds 3).toOption.map (fun r =>
      ((List.range 3).map fun (y : Nat) => (List.range 4).map fun (x : Nat) => r.grains y x)) =
    some [[0, -2, -2, 0], [0, 1, 1, -2], [0, 1, 1, -2]] := by
  decide +kernel

/-- The failure cases of C07 occur: minimum size 5, and an all non-indexed map. -/
example : (findGrainsOf 3 4 exPhase 2 exBounds 5).toOption.isNone = true ∧
    (findGrainsOf 3 4 (fun _ _ => 0) 2 exBounds 1).toOption.isNone = true := by
  decide +kernel

end DefDAP
