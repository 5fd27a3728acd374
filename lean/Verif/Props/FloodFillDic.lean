import Verif.Proofs.FloodFillDic

/-! Property C12: the DIC flood fill. -/

namespace DefDAP
open Spec

/-- **C12** On a map of at least 2 x 2 pixels, filling from a free pixel (label 0) with a
buffer with one slot per free or boundary pixel terminates without leaving the map or the
buffer. It returns, each once, exactly the free pixels connected to the seed through free
pixels and the boundary pixels (label -1) directly right of or below one of these. The grain
map and the set of remaining points change at exactly these pixels, memory before and after
the buffer slice used is untouched. -/
theorem C12_flood_fill_dic (c : FillCfg) (seed : Px) (g0 : Img Int) (l0 : Img Bool)
    (b0 : Nat → Px) (hw : 2 ≤ c.w) (hh : 2 ≤ c.h) (hidx : 0 < c.index)
    (hseed : InMap c.h c.w seed) (hfree : g0 seed.2 seed.1 = 0)
    (hcap : ((mapPixels c.h c.w).filter fun p => g0 p.2 p.1 = 0 ∨ g0 p.2 p.1 = -1).card ≤
      c.cap) :
    ∃ st, floodFillDic c seed g0 l0 b0 = .ok st ∧
      (st.points c).Nodup ∧
      (∀ p, p ∈ st.points c ↔
        FreeConn c.h c.w (fun q => g0 q.2 q.1 = 0) seed p ∨
        (InMap c.h c.w p ∧ g0 p.2 p.1 = -1 ∧
          ∃ q, FreeConn c.h c.w (fun q => g0 q.2 q.1 = 0) seed q ∧ RightOrBelow q p)) ∧
      (∀ y x, st.grains y x = if (x, y) ∈ st.points c then c.index else g0 y x) ∧
      (∀ y x, st.left y x = if (x, y) ∈ st.points c then false else l0 y x) ∧
      st.n ≤ c.cap ∧
      (∀ i, i < c.off ∨ c.off + st.n ≤ i → st.buf i = b0 i) := by
  have hroom : RoomD c seed g0 := by
    intro L hn hL
    refine le_trans ?_ hcap
    classical
    rw [← List.toFinset_card_of_nodup hn]
    apply Finset.card_le_card
    intro p hp
    have hp' := hL p (by simpa using hp)
    simp only [Finset.mem_filter, mem_mapPixels]
    refine ⟨hp'.1, ?_⟩
    rcases hp'.2 with h1 | h1
    · exact Or.inl h1.1
    · exact Or.inr h1.2.1
  obtain ⟨st, h1, h2, h3⟩ := floodFillDic_ok (l0 := l0) (b0 := b0) hw hh hidx hseed hfree hroom
  refine ⟨st, h1, h2.nodup, ?_, h2.grains, h2.left, h2.len, h2.frame⟩
  intro p
  rw [h3 p]
  unfold DTarget
  constructor
  · rintro (h | h)
    · exact Or.inl h.2
    · exact Or.inr h
  · rintro (h | h)
    · exact Or.inl ⟨(freeConn_inMap (free := fun q => g0 q.2 q.1 = 0) hseed hfree h).2, h⟩
    · exact Or.inr h

/-- A 4 x 3 map with a boundary in column 1 and at (3, 2); filling from (2, 0) takes the
right part and the boundary pixel below (3, 1), and leaves the boundary to the left. -/
def exDic : Img Int := fun y x => if x = 1 then -1 else if x = 3 ∧ y = 2 then -1 else 0

example : (floodFillDic ⟨3, 4, fun _ _ => false, fun _ _ => false, 1, 0, 12⟩ (2, 0) exDic
      (fun _ _ => true) (fun _ => (0, 0))).toOption.map
        (fun st => (st.points ⟨3, 4, fun _ _ => false, fun _ _ => false, 1, 0, 12⟩)) =
    some [(2, 0), (3, 0), (2, 1), (3, 1), (2, 2), (3, 2)] ∧
    ((mapPixels 3 4).filter fun p => exDic p.2 p.1 = 0 ∨ exDic p.2 p.1 = -1).card ≤ 12 := by
  constructor
  · decide +kernel
  · refine le_trans (Finset.card_filter_le _ _) ?_
    decide

end DefDAP
