import Verif.Proofs.FloodFill

/-! Properties C01 and C02: the EBSD flood fill. -/

namespace DefDAP
open Spec

/-- **C01** On a map at least 2 x 2, filling any seed that is not yet in a grain,
with any boundaries, any earlier labels, any positive grain number and a buffer
slice that has a slot for every pixel not yet in a grain, the fill finishes
(no `fuel` error) without touching anything outside the map or past the end of the
buffer slice (no `outOfBounds` error), and it leaves all memory outside its own
slice alone. -/
theorem C01_flood_fill_safe (c : FillCfg) (seed : Px) (grains : Img Int) (left : Img Bool)
    (buf : Nat → Px) (hw : 2 ≤ c.w) (hh : 2 ≤ c.h) (hidx : 0 < c.index)
    (hseed : InMap c.h c.w seed) (hfree : grains seed.2 seed.1 ≤ 0)
    (hcap : ((mapPixels c.h c.w).filter fun p => grains p.2 p.1 ≤ 0).card ≤ c.cap) :
    ∃ st, floodFill c seed grains left buf = .ok st ∧ st.n ≤ c.cap ∧
      ∀ i, i < c.off ∨ c.off + c.cap ≤ i → st.buf i = buf i := by
  obtain ⟨st, h1, h2, -⟩ := floodFill_ok (l0 := left) (b0 := buf) hw hh hidx hseed
    (room_of_card hseed hfree hcap)
  refine ⟨st, h1, h2.len, fun i hi => h2.frame i ?_⟩
  have := h2.len
  omega

/-- **C02** The fill returns, each once, exactly the pixels that can be reached from
the seed by steps between 4-neighbours that cross no boundary and never enter a
pixel already in a grain. The label map is the new number on exactly these and
unchanged elsewhere, and exactly these are removed from the points still to be
assigned. -/
theorem C02_flood_fill_region (c : FillCfg) (seed : Px) (grains : Img Int) (left : Img Bool)
    (buf : Nat → Px) (hw : 2 ≤ c.w) (hh : 2 ≤ c.h) (hidx : 0 < c.index)
    (hseed : InMap c.h c.w seed) (hfree : grains seed.2 seed.1 ≤ 0)
    (hcap : ((mapPixels c.h c.w).filter fun p => grains p.2 p.1 ≤ 0).card ≤ c.cap) :
    ∃ st, floodFill c seed grains left buf = .ok st ∧
      (st.points c).Nodup ∧
      (∀ p, p ∈ st.points c ↔
        Reach c.h c.w c.bx c.by' (fun q => grains q.2 q.1 ≤ 0) seed p) ∧
      (∀ x y, (x, y) ∈ st.points c → st.grains y x = c.index ∧ st.left y x = false) ∧
      (∀ x y, (x, y) ∉ st.points c → st.grains y x = grains y x ∧ st.left y x = left y x) := by
  obtain ⟨st, h1, h2, h3⟩ := floodFill_ok (l0 := left) (b0 := buf) hw hh hidx hseed
    (room_of_card hseed hfree hcap)
  refine ⟨st, h1, h2.nodup, h3, ?_, ?_⟩
  · intro x y hp
    exact ⟨by rw [h2.grains, if_pos hp], by rw [h2.left, if_pos hp]⟩
  · intro x y hp
    exact ⟨by rw [h2.grains, if_neg hp], by rw [h2.left, if_neg hp]⟩

/-- A 3 x 3 map with a wall to the right of column 0 in rows 0 and 1 and one pixel
already in grain 1. -/
def exCfg : FillCfg :=
  { h := 3, w := 3, bx := fun y x => x == 0 && (y == 0 || y == 1), by' := fun _ _ => false
    index := 2, off := 4, cap := 9 }

/-- The earlier labels of the example: pixel (2, 2) is in grain 1. -/
def exGrains : Img Int := fun y x => if y = 2 ∧ x = 2 then 1 else 0

/-- The hypotheses of C01 and C02 hold for the example, and the fill from (0, 0) goes
around the wall and reaches the eight other pixels. -/
example : 2 ≤ exCfg.w ∧ 2 ≤ exCfg.h ∧ 0 < exCfg.index ∧ InMap exCfg.h exCfg.w (0, 0) ∧
    exGrains 0 0 ≤ 0 ∧
    ((mapPixels exCfg.h exCfg.w).filter fun p => exGrains p.2 p.1 ≤ 0).card ≤ exCfg.cap := by
  refine ⟨by decide, by decide, by decide, ?_, by decide, by decide⟩
  simp [InMap, exCfg]

example : ((floodFill exCfg (0, 0) exGrains (fun _ _ => true) (fun _ => (0, 0))).toOption.map
      (fun st => st.points exCfg)) =
    some [(0, 0), (0, 1), (0, 2), (1, 2), (1, 1), (2, 1), (1, 0), (2, 0)] := by
  decide

/-- **C01**, the exception: on a map one pixel wide the first move already leaves the
map, whatever the data. -/
theorem C01_width_one_leaves_map (c : FillCfg) (seed : Px) (grains : Img Int)
    (left : Img Bool) (buf : Nat → Px) (hw : c.w = 1) (hseed : InMap c.h c.w seed)
    (hcap : 0 < c.cap) :
    floodFill c seed grains left buf = .error .outOfBounds := by
  obtain ⟨x, y⟩ := seed
  have hs := hseed
  obtain ⟨h1, h2, h3, h4⟩ := hseed
  simp only at h1 h2 h3 h4
  obtain rfl : x = 0 := by rw [hw] at h2; omega
  have hhw : c.h * c.w = (c.h - 1) + 1 := by rw [hw]; omega
  have hout : ¬ InMap c.h c.w (0 + 1, y) := by simp [InMap, hw]
  obtain ⟨st0, hput, -, -, -, -⟩ :=
    put_ok (s := 0) (t := y) (core_start c grains left buf) hs (by simp [Fill.points]) hcap
  have hmoves : ∃ tl, ffMoves c.h c.w 0 y = (0 + 1, y) :: tl := by
    unfold ffMoves
    simp only [le_refl, if_true]
    split_ifs <;> simp [List.eraseIdx]
  obtain ⟨tl, htl⟩ := hmoves
  simp only [floodFill, hput, bind, Except.bind, hhw]
  simp only [Fill.push, ffLoop, htl, List.foldlM_cons, ffVisit, rd_err hout, bind, Except.bind]

/-- **C01**, the exception: on a map one pixel high the fill leaves the map as well,
whatever the data. -/
theorem C01_height_one_leaves_map (c : FillCfg) (seed : Px) (grains : Img Int)
    (left : Img Bool) (buf : Nat → Px) (hw : 2 ≤ c.w) (hh : c.h = 1)
    (hseed : InMap c.h c.w seed) (hcap : 0 < c.cap) :
    floodFill c seed grains left buf = .error .outOfBounds := by
  obtain ⟨x, y⟩ := seed
  have hs := hseed
  obtain ⟨h1, h2, h3, h4⟩ := hseed
  simp only at h1 h2 h3 h4
  obtain rfl : y = 0 := by rw [hh] at h4; omega
  have hhw : c.h * c.w = (c.w - 1) + 1 := by rw [hh]; omega
  have hout : ¬ InMap c.h c.w (x, 0 + 1) := by simp [InMap, hh]
  obtain ⟨st0, hput, -, -, -, -⟩ :=
    put_ok (s := x) (t := 0) (core_start c grains left buf) hs (by simp [Fill.points]) hcap
  have hmem : ((x, 0 + 1) : Px) ∈ ffMoves c.h c.w x 0 := by
    unfold ffMoves
    simp only [le_refl, if_true]
    split_ifs <;> simp [List.eraseIdx]
  simp only [floodFill, hput, bind, Except.bind, hhw]
  simp only [Fill.push, ffLoop]
  rw [foldlM_error_of_mem _ _ _ hmem]
  · rfl
  · intro st
    simp only [ffVisit, rd_err hout, bind, Except.bind]

/-- The hypotheses of the two exceptions hold for a 3 x 1 and a 1 x 3 map. -/
example : floodFill { exCfg with w := 1 } (0, 1) exGrains (fun _ _ => true) (fun _ => (0, 0)) =
    .error .outOfBounds :=
  C01_width_one_leaves_map _ _ _ _ _ rfl (by simp [InMap, exCfg]) (by decide)

example : floodFill { exCfg with h := 1 } (1, 0) exGrains (fun _ _ => true) (fun _ => (0, 0)) =
    .error .outOfBounds :=
  C01_height_one_leaves_map _ _ _ _ _ (by decide) rfl (by simp [InMap, exCfg]) (by decide)

end DefDAP
