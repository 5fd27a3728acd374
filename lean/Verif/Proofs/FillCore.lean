import Mathlib.Data.List.Nodup
import Mathlib.Data.Finset.Card
import Mathlib.Data.Finset.Prod
import Mathlib.Data.Int.Interval
import Mathlib.Tactic.Linarith
import Mathlib.Tactic.SplitIfs
import Verif.Model.FloodFill
import Verif.Spec.Regions

/-! Facts shared by the two flood fills. -/

namespace DefDAP
open Spec

theorem inB_iff {h w : Nat} {x y : Int} : inB h w x y = true ↔ InMap h w (x, y) := by
  simp [inB, InMap, and_assoc]

theorem rd_ok {α : Type} {h w : Nat} {im : Img α} {x y : Int} (hp : InMap h w (x, y)) :
    rd h w im y x = .ok (im y x) := by
  simp [rd, inB_iff.2 hp]

theorem rd_err {α : Type} {h w : Nat} {im : Img α} {x y : Int} (hp : ¬ InMap h w (x, y)) :
    rd h w im y x = .error .outOfBounds := by
  have : inB h w x y = false := by
    cases hb : inB h w x y with
    | false => rfl
    | true => exact absurd (inB_iff.1 hb) hp
  simp [rd, this]

/-- A duplicate-free list of pixels of the map is no longer than the map. -/
theorem nodup_length_le {h w : Nat} {L : List Px} (hn : L.Nodup)
    (hm : ∀ p ∈ L, InMap h w p) : L.length ≤ h * w := by
  classical
  have hsub : L.toFinset ⊆ (Finset.Ico (0:Int) w) ×ˢ (Finset.Ico (0:Int) h) := by
    intro p hp
    have := hm p (by simpa using hp)
    simp only [Finset.mem_product, Finset.mem_Ico]
    exact ⟨⟨this.1, this.2.1⟩, this.2.2.1, this.2.2.2⟩
  have hc := Finset.card_le_card hsub
  rw [List.toFinset_card_of_nodup hn] at hc
  simp only [Finset.card_product, Int.card_Ico, sub_zero, Int.toNat_natCast] at hc
  rw [Nat.mul_comm]; exact hc

/-- Bookkeeping of a fill in progress. -/
structure Core (c : FillCfg) (g0 : Img Int) (l0 : Img Bool) (b0 : Nat → Px)
    (st : Fill) : Prop where
  nodup : (st.points c).Nodup
  inmap : ∀ p ∈ st.points c, InMap c.h c.w p
  grains : ∀ y x, st.grains y x = if (x, y) ∈ st.points c then c.index else g0 y x
  left : ∀ y x, st.left y x = if (x, y) ∈ st.points c then false else l0 y x
  frame : ∀ i, i < c.off ∨ c.off + st.n ≤ i → st.buf i = b0 i
  edge_sub : ∀ p ∈ st.edge, p ∈ st.points c
  len : st.n ≤ c.cap

@[simp] theorem points_length (c : FillCfg) (st : Fill) : (st.points c).length = st.n := by
  simp [Fill.points]

theorem put_ok {c : FillCfg} {g0 l0 b0} {st : Fill} {s t : Int}
    (hc : Core c g0 l0 b0 st) (hm : InMap c.h c.w (s, t))
    (hnew : (s, t) ∉ st.points c) (hcap : st.n < c.cap) :
    ∃ st', st.put c s t = .ok st' ∧ Core c g0 l0 b0 st' ∧
      st'.points c = st.points c ++ [(s, t)] ∧ st'.edge = st.edge ∧ st'.n = st.n + 1 := by
  refine ⟨_, by simp [Fill.put, inB_iff.2 hm, hcap]; rfl, ?_⟩
  have hp : Fill.points c { st with
        buf := fun i => if i = c.off + st.n then (s, t) else st.buf i
        grains := wr st.grains t s c.index
        left := wr st.left t s false
        n := st.n + 1 } = st.points c ++ [(s, t)] := by
    simp only [Fill.points, List.range_succ, List.map_append, List.map_cons, List.map_nil]
    congr 1
    apply List.map_congr_left
    intro i hi
    have : i < st.n := by simpa using hi
    have h1 : ¬ (c.off + i = c.off + st.n) := by omega
    simp only [if_neg h1]
  refine ⟨⟨?_, ?_, ?_, ?_, ?_, ?_, ?_⟩, hp, rfl, rfl⟩
  · rw [hp]
    exact List.Nodup.append hc.nodup (by simp) (by
      intro a ha hb
      simp at hb; subst hb; exact hnew ha)
  · rw [hp]; intro p hp'
    rcases List.mem_append.1 hp' with h | h
    · exact hc.inmap p h
    · simp at h; subst h; exact hm
  · intro y x
    rw [hp]
    simp only [wr, List.mem_append, List.mem_singleton, Prod.mk.injEq]
    by_cases h1 : y = t ∧ x = s
    · rw [if_pos h1, if_pos (Or.inr ⟨h1.2, h1.1⟩)]
    · rw [if_neg h1, hc.grains]
      have h2 : ¬ (x = s ∧ y = t) := fun h => h1 ⟨h.2, h.1⟩
      simp [h2]
  · intro y x
    rw [hp]
    simp only [wr, List.mem_append, List.mem_singleton, Prod.mk.injEq]
    by_cases h1 : y = t ∧ x = s
    · rw [if_pos h1, if_pos (Or.inr ⟨h1.2, h1.1⟩)]
    · rw [if_neg h1, hc.left]
      have h2 : ¬ (x = s ∧ y = t) := fun h => h1 ⟨h.2, h.1⟩
      simp [h2]
  · intro i hi
    simp only
    have h1 : i ≠ c.off + st.n := by
      rcases hi with hi | hi
      · omega
      · simp only at hi; omega
    rw [if_neg h1]
    apply hc.frame
    rcases hi with hi | hi
    · exact Or.inl hi
    · right; simp only at hi; omega
  · intro p hpe
    rw [hp]; exact List.mem_append_left _ (hc.edge_sub p hpe)
  · exact hcap

/-- The start of a fill: nothing written yet. -/
theorem core_start (c : FillCfg) (g0 : Img Int) (l0 : Img Bool) (b0 : Nat → Px) :
    Core c g0 l0 b0 { grains := g0, left := l0, buf := b0, n := 0, edge := [] } := by
  refine ⟨?_, ?_, ?_, ?_, ?_, ?_, ?_⟩ <;> simp [Fill.points]

theorem core_push {c : FillCfg} {g0 l0 b0} {st : Fill} {p : Px}
    (hc : Core c g0 l0 b0 st) (hp : p ∈ st.points c) : Core c g0 l0 b0 (st.push p) where
  nodup := hc.nodup
  inmap := hc.inmap
  grains := hc.grains
  left := hc.left
  frame := hc.frame
  edge_sub := by
    intro q hq
    rcases List.mem_cons.1 hq with rfl | hq
    · exact hp
    · exact hc.edge_sub q hq
  len := hc.len

theorem core_edge {c : FillCfg} {g0 l0 b0} {st : Fill} {e : List Px}
    (hc : Core c g0 l0 b0 st) (he : ∀ p ∈ e, p ∈ st.points c) :
    Core c g0 l0 b0 { st with edge := e } where
  nodup := hc.nodup
  inmap := hc.inmap
  grains := hc.grains
  left := hc.left
  frame := hc.frame
  edge_sub := he
  len := hc.len

/-- 4-neighbours. -/
def Adj (p q : Px) : Prop :=
  q = (p.1 + 1, p.2) ∨ q = (p.1 - 1, p.2) ∨ q = (p.1, p.2 + 1) ∨ q = (p.1, p.2 - 1)

theorem mem_ffMoves {h w : Nat} (hw : 2 ≤ w) (hh : 2 ≤ h) {x y : Int}
    (hp : InMap h w (x, y)) (q : Px) :
    q ∈ ffMoves h w x y ↔ InMap h w q ∧ Adj (x, y) q := by
  obtain ⟨h1, h2, h3, h4⟩ := hp
  simp only at h1 h2 h3 h4
  obtain ⟨a, b⟩ := q
  have hw' : (2:Int) ≤ w := by exact_mod_cast hw
  have hh' : (2:Int) ≤ h := by exact_mod_cast hh
  unfold ffMoves Adj InMap
  simp only [Prod.mk.injEq]
  split_ifs <;>
    simp [List.eraseIdx] <;> omega

theorem mem_ffdMoves {h w : Nat} (hw : 2 ≤ w) (hh : 2 ≤ h) {x y : Int}
    (hp : InMap h w (x, y)) (q : Px) :
    q ∈ ffdMoves h w x y ↔ InMap h w q ∧ Adj (x, y) q := by
  obtain ⟨h1, h2, h3, h4⟩ := hp
  simp only at h1 h2 h3 h4
  obtain ⟨a, b⟩ := q
  have hw' : (2:Int) ≤ w := by exact_mod_cast hw
  have hh' : (2:Int) ≤ h := by exact_mod_cast hh
  unfold ffdMoves Adj InMap
  simp only [Prod.mk.injEq]
  split_ifs <;>
    simp [List.eraseIdx] <;> omega

end DefDAP
