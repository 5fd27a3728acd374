import Verif.Proofs.FloodFill
import Verif.Spec.FreeRegions

/-! The DIC flood fill. -/

namespace DefDAP
open Spec

theorem neighbour_iff_adj {p q : Px} : Neighbour p q ↔ Adj p q := by
  obtain ⟨a, b⟩ := p
  obtain ⟨c, d⟩ := q
  simp only [Neighbour, Adj, Prod.mk.injEq]
  constructor
  · rintro (⟨h1, h2 | h2⟩ | ⟨h1, h2 | h2⟩) <;> omega
  · rintro (h | h | h | h) <;> omega

theorem Spec.Neighbour.symm {p q : Px} (hn : Neighbour p q) : Neighbour q p := by
  simp only [Neighbour] at hn ⊢
  omega

/-- What the DIC fill should return: the free region and its right and lower boundary pixels. -/
def DTarget (h w : Nat) (g0 : Img Int) (seed : Px) (p : Px) : Prop :=
  (g0 p.2 p.1 = 0 ∧ FreeConn h w (fun q => g0 q.2 q.1 = 0) seed p) ∨
  (InMap h w p ∧ g0 p.2 p.1 = -1 ∧ ∃ q, FreeConn h w (fun q => g0 q.2 q.1 = 0) seed q ∧
    RightOrBelow q p)

structure FFD (c : FillCfg) (seed : Px) (g0 : Img Int) (l0 : Img Bool) (b0 : Nat → Px)
    (st : Fill) : Prop extends Core c g0 l0 b0 st where
  target : ∀ p ∈ st.points c, DTarget c.h c.w g0 seed p
  edge_free : ∀ p ∈ st.edge, g0 p.2 p.1 = 0

def RoomD (c : FillCfg) (seed : Px) (g0 : Img Int) : Prop :=
  ∀ L : List Px, L.Nodup →
    (∀ p ∈ L, InMap c.h c.w p ∧ DTarget c.h c.w g0 seed p) → L.length ≤ c.cap

structure ExtD (c : FillCfg) (g0 : Img Int) (st st' : Fill) : Prop where
  sub : ∀ p ∈ st.points c, p ∈ st'.points c
  edge_sub : ∀ p ∈ st.edge, p ∈ st'.edge
  fresh : ∀ p ∈ st'.points c, g0 p.2 p.1 = 0 → p ∉ st.points c → p ∈ st'.edge
  count : st.n + st'.edge.length ≤ st'.n + st.edge.length

theorem ExtD.refl (c : FillCfg) (g0 : Img Int) (st : Fill) : ExtD c g0 st st :=
  ⟨fun _ h => h, fun _ h => h, fun _ h _ h' => absurd h h', le_rfl⟩

theorem ExtD.trans {c : FillCfg} {g0 : Img Int} {a b d : Fill} (h1 : ExtD c g0 a b)
    (h2 : ExtD c g0 b d) : ExtD c g0 a d where
  sub p hp := h2.sub p (h1.sub p hp)
  edge_sub p hp := h2.edge_sub p (h1.edge_sub p hp)
  fresh p hp h0 hn := by
    by_cases hb : p ∈ b.points c
    · exact h2.edge_sub p (h1.fresh p hb h0 hn)
    · exact h2.fresh p hp h0 hb
  count := by
    have := h1.count
    have := h2.count
    omega

/-- The neighbour must be taken: it is free, or a boundary pixel to the right or below. -/
def Takes (g0 : Img Int) (p q : Px) : Prop :=
  g0 q.2 q.1 = 0 ∨ (g0 q.2 q.1 = -1 ∧ RightOrBelow p q)

theorem ffdVisit_ok {c : FillCfg} {seed : Px} {g0 l0 b0} {st : Fill} {x y : Int} {q : Px}
    (hidx : 0 < c.index) (hroom : RoomD c seed g0)
    (hf : FFD c seed g0 l0 b0 st) (hcur : (x, y) ∈ st.points c) (hcur0 : g0 y x = 0)
    (hq : InMap c.h c.w q) (ha : Adj (x, y) q) :
    ∃ st', ffdVisit c x y st q = .ok st' ∧ FFD c seed g0 l0 b0 st' ∧ ExtD c g0 st st' ∧
      (Takes g0 (x, y) q → q ∈ st'.points c) := by
  have hconn : FreeConn c.h c.w (fun q => g0 q.2 q.1 = 0) seed (x, y) := by
    rcases hf.target _ hcur with h1 | h1
    · exact h1.2
    · simp only at h1; omega
  have hrb : RightOrBelow (x, y) q ↔ (q.1 > x ∨ q.2 > y) := by
    unfold RightOrBelow
    rcases ha with rfl | rfl | rfl | rfl <;> simp <;> omega
  unfold ffdVisit
  rw [rd_ok (im := st.grains) hq]
  have hg := hf.grains q.2 q.1
  by_cases hqm : q ∈ st.points c
  · rw [if_pos hqm] at hg
    refine ⟨st, ?_, hf, ExtD.refl _ _ _, fun _ => hqm⟩
    have h1 : ¬ c.index = 0 := by omega
    have h2 : ¬ (c.index = -1 ∧ (q.1 > x ∨ q.2 > y)) := by omega
    simp only [bind, Except.bind, hg, if_neg h1, if_neg h2, pure, Except.pure]
  · rw [if_neg hqm] at hg
    have hcap : DTarget c.h c.w g0 seed q → st.n < c.cap := by
      intro ht
      have := hroom (st.points c ++ [q])
        (List.Nodup.append hf.nodup (by simp) (by
          intro a ha' hb'
          simp at hb'; subst hb'; exact hqm ha'))
        (by
          intro p hp'
          rcases List.mem_append.1 hp' with h | h
          · exact ⟨hf.inmap p h, hf.target p h⟩
          · simp at h; subst h; exact ⟨hq, ht⟩)
      simp at this
      omega
    by_cases h0 : g0 q.2 q.1 = 0
    · have htq : DTarget c.h c.w g0 seed q :=
        Or.inl ⟨h0, hconn.tail ⟨neighbour_iff_adj.2 ha, hq, h0⟩⟩
      obtain ⟨st', hput, hcore, hpts, hedge, hn⟩ :=
        put_ok (s := q.1) (t := q.2) hf.toCore hq hqm (hcap htq)
      have hqin : q ∈ st'.points c := by rw [hpts]; simp
      have hppush : (st'.push q).points c = st'.points c := rfl
      have hcomm : (st.push q).put c q.1 q.2 = .ok (st'.push q) := by
        have hb : inB c.h c.w q.1 q.2 = true := inB_iff.2 hq
        have hc := hcap htq
        have hc' : (st.push q).n < c.cap := hc
        unfold Fill.put at hput ⊢
        rw [if_pos hb, if_pos hc] at hput
        rw [if_pos hb, if_pos hc']
        simp only [Except.ok.injEq] at hput
        rw [← hput]; rfl
      refine ⟨st'.push q, ?_, ⟨core_push hcore hqin, ?_, ?_⟩, ⟨?_, ?_, ?_, ?_⟩, fun _ => hqin⟩
      · simp only [bind, Except.bind, hg, if_pos h0, hcomm]
      · intro p hp'
        rw [hppush, hpts] at hp'
        rcases List.mem_append.1 hp' with h | h
        · exact hf.target p h
        · simp at h; subst h; exact htq
      · intro p hp'
        simp only [Fill.push, hedge, List.mem_cons] at hp'
        rcases hp' with rfl | h
        · exact h0
        · exact hf.edge_free p h
      · intro p hp'
        rw [hppush, hpts]; exact List.mem_append_left _ hp'
      · intro p hp'
        simp only [Fill.push, hedge]
        exact List.mem_cons_of_mem _ hp'
      · intro p hp' _ hn'
        rw [hppush, hpts] at hp'
        rcases List.mem_append.1 hp' with h | h
        · exact absurd h hn'
        · simp at h; subst h; simp [Fill.push]
      · simp [Fill.push, hedge, hn]; omega
    · by_cases h1 : g0 q.2 q.1 = -1 ∧ (q.1 > x ∨ q.2 > y)
      · have htq : DTarget c.h c.w g0 seed q :=
          Or.inr ⟨hq, h1.1, (x, y), hconn, hrb.2 h1.2⟩
        obtain ⟨st', hput, hcore, hpts, hedge, hn⟩ :=
          put_ok (s := q.1) (t := q.2) hf.toCore hq hqm (hcap htq)
        have hqin : q ∈ st'.points c := by rw [hpts]; simp
        refine ⟨st', ?_, ⟨hcore, ?_, ?_⟩, ⟨?_, ?_, ?_, ?_⟩, fun _ => hqin⟩
        · simp only [bind, Except.bind, hg, if_neg h0, if_pos h1, hput]
        · intro p hp'
          rw [hpts] at hp'
          rcases List.mem_append.1 hp' with h | h
          · exact hf.target p h
          · simp at h; subst h; exact htq
        · intro p hp'
          rw [hedge] at hp'
          exact hf.edge_free p hp'
        · intro p hp'
          rw [hpts]; exact List.mem_append_left _ hp'
        · intro p hp'
          rw [hedge]; exact hp'
        · intro p hp' hp0 hn'
          rw [hpts] at hp'
          rcases List.mem_append.1 hp' with h | h
          · exact absurd h hn'
          · simp at h; subst h; exact absurd hp0 h0
        · rw [hedge, hn]; omega
      · refine ⟨st, ?_, hf, ExtD.refl _ _ _, ?_⟩
        · simp only [bind, Except.bind, hg, if_neg h0, if_neg h1, pure, Except.pure]
        · rintro (h2 | h2)
          · exact absurd h2 h0
          · exact absurd ⟨h2.1, hrb.1 h2.2⟩ h1

theorem ffdFold_ok {c : FillCfg} {seed : Px} {g0 l0 b0} {x y : Int}
    (hidx : 0 < c.index) (hroom : RoomD c seed g0) (hcur0 : g0 y x = 0) :
    ∀ (ms : List Px) (st : Fill), FFD c seed g0 l0 b0 st → (x, y) ∈ st.points c →
      (∀ q ∈ ms, InMap c.h c.w q ∧ Adj (x, y) q) →
      ∃ st', ms.foldlM (ffdVisit c x y) st = .ok st' ∧ FFD c seed g0 l0 b0 st' ∧
        ExtD c g0 st st' ∧ (∀ q ∈ ms, Takes g0 (x, y) q → q ∈ st'.points c) := by
  intro ms
  induction ms with
  | nil =>
    intro st hf _ _
    exact ⟨st, rfl, hf, ExtD.refl _ _ _, by simp⟩
  | cons q ms ih =>
    intro st hf hcur hms
    obtain ⟨st1, h1, hf1, he1, hq1⟩ :=
      ffdVisit_ok hidx hroom hf hcur hcur0 (hms q (by simp)).1 (hms q (by simp)).2
    obtain ⟨st2, h2, hf2, he2, hq2⟩ := ih st1 hf1 (he1.sub _ hcur)
      (fun q hq => hms q (List.mem_cons_of_mem _ hq))
    refine ⟨st2, ?_, hf2, he1.trans he2, ?_⟩
    · rw [List.foldlM_cons, h1]; exact h2
    · intro r hr hs
      rcases List.mem_cons.1 hr with rfl | hr
      · exact he2.sub _ (hq1 hs)
      · exact hq2 r hr hs

/-- Free pixels marked but no longer on the stack have had their neighbours taken. -/
def ClosedD (c : FillCfg) (g0 : Img Int) (st : Fill) : Prop :=
  ∀ p ∈ st.points c, g0 p.2 p.1 = 0 → p ∉ st.edge →
    ∀ q, InMap c.h c.w q → Adj p q → Takes g0 p q → q ∈ st.points c

theorem ffdLoop_ok {c : FillCfg} {seed : Px} {g0 l0 b0} (hw : 2 ≤ c.w) (hh : 2 ≤ c.h)
    (hidx : 0 < c.index) (hroom : RoomD c seed g0) :
    ∀ (k : Nat) (st : Fill), FFD c seed g0 l0 b0 st → ClosedD c g0 st →
      c.h * c.w + st.edge.length ≤ k + st.n →
      ∃ st', ffdLoop c k st = .ok st' ∧ FFD c seed g0 l0 b0 st' ∧ ClosedD c g0 st' ∧
        st'.edge = [] ∧ (∀ p ∈ st.points c, p ∈ st'.points c) := by
  intro k
  induction k with
  | zero =>
    intro st hf hcl hk
    have hle : st.n ≤ c.h * c.w := by
      have := nodup_length_le hf.nodup hf.inmap
      simpa using this
    have : st.edge = [] := by
      have : st.edge.length = 0 := by omega
      exact List.length_eq_zero_iff.1 this
    exact ⟨st, by simp [ffdLoop, this], hf, hcl, this, fun _ h => h⟩
  | succ k ih =>
    intro st hf hcl hk
    match hst : st.edge with
    | [] => exact ⟨st, by simp [ffdLoop, hst], hf, hcl, hst, fun _ h => h⟩
    | (x, y) :: rest =>
      have hcur : (x, y) ∈ st.points c := hf.edge_sub _ (by rw [hst]; simp)
      have hcur0 : g0 y x = 0 := hf.edge_free (x, y) (by rw [hst]; simp)
      have hpm := hf.inmap _ hcur
      have hsub : ∀ p ∈ rest, p ∈ st.points c := fun p hp =>
        hf.edge_sub p (by rw [hst]; exact List.mem_cons_of_mem _ hp)
      have hf' : FFD c seed g0 l0 b0 { st with edge := rest } :=
        ⟨core_edge hf.toCore hsub, hf.target, fun p hp =>
          hf.edge_free p (by rw [hst]; exact List.mem_cons_of_mem _ hp)⟩
      obtain ⟨st1, h1, hf1, he1, hq1⟩ := ffdFold_ok (x := x) (y := y) hidx hroom hcur0
        (ffdMoves c.h c.w x y) _ hf' hcur
        (fun q hq => (mem_ffdMoves hw hh hpm q).1 hq)
      have hcl1 : ClosedD c g0 st1 := by
        intro p hp hp0 hpe q hqm hqa ht
        by_cases hps : p ∈ st.points c
        · by_cases hpc : p = (x, y)
          · subst hpc
            exact hq1 q ((mem_ffdMoves hw hh hpm q).2 ⟨hqm, hqa⟩) ht
          · have hpr : p ∉ st.edge := by
              rw [hst]
              intro hmem
              rcases List.mem_cons.1 hmem with h | h
              · exact hpc h
              · exact hpe (he1.edge_sub p h)
            exact he1.sub _ (hcl p hps hp0 hpr q hqm hqa ht)
        · exact absurd (he1.fresh p hp hp0 hps) hpe
      have hcnt := he1.count
      simp only at hcnt
      have hk1 : c.h * c.w + st1.edge.length ≤ k + st1.n := by
        rw [hst] at hk; simp only [List.length_cons] at hk; omega
      obtain ⟨st2, h2, hf2, hcl2, he2, hs2⟩ := ih st1 hf1 hcl1 hk1
      refine ⟨st2, ?_, hf2, hcl2, he2, fun p hp => hs2 p (he1.sub p hp)⟩
      simp only [ffdLoop, hst, h1, bind, Except.bind]
      exact h2

theorem rightOrBelow_adj {p q : Px} (h : RightOrBelow p q) : Adj p q := by
  unfold RightOrBelow at h; unfold Adj; tauto

/-- The full result of the DIC fill, in the form used by grain finding. -/
theorem floodFillDic_ok {c : FillCfg} {seed : Px} {g0 : Img Int} {l0 : Img Bool}
    {b0 : Nat → Px} (hw : 2 ≤ c.w) (hh : 2 ≤ c.h) (hidx : 0 < c.index)
    (hseed : InMap c.h c.w seed) (hfree : g0 seed.2 seed.1 = 0) (hroom : RoomD c seed g0) :
    ∃ st, floodFillDic c seed g0 l0 b0 = .ok st ∧ Core c g0 l0 b0 st ∧
      (∀ p, p ∈ st.points c ↔ DTarget c.h c.w g0 seed p) := by
  have hts : DTarget c.h c.w g0 seed seed := Or.inl ⟨hfree, Relation.ReflTransGen.refl⟩
  have hcap : 0 < c.cap := by
    have := hroom [seed] (by simp) (by
      intro p hp; simp at hp; subst hp; exact ⟨hseed, hts⟩)
    simp at this; omega
  obtain ⟨st0, hput, hcore, hpts, hedge, hn⟩ :=
    put_ok (s := seed.1) (t := seed.2) (core_start c g0 l0 b0) hseed (by simp [Fill.points]) hcap
  have hpts' : st0.points c = [seed] := by rw [hpts]; simp [Fill.points]
  have hpp : (st0.push seed).points c = st0.points c := rfl
  have hsin : seed ∈ st0.points c := by rw [hpts']; simp
  have hff : FFD c seed g0 l0 b0 (st0.push seed) :=
    ⟨core_push hcore hsin, by
      intro p hp
      rw [hpp, hpts'] at hp
      simp at hp; subst hp; exact hts, by
      intro p hp
      simp [Fill.push, hedge] at hp
      subst hp; exact hfree⟩
  have hcl : ClosedD c g0 (st0.push seed) := by
    intro p hp _ hpe
    rw [hpp, hpts'] at hp
    simp at hp; subst hp
    exact absurd (by simp [Fill.push]) hpe
  obtain ⟨st, hl, hf, hclst, he, hs⟩ := ffdLoop_ok hw hh hidx hroom (c.h * c.w) _ hff hcl
    (by
      have : (st0.push seed).edge.length = 1 := by simp [Fill.push, hedge]
      have h2 : (st0.push seed).n = 1 := by simp [Fill.push, hn]
      omega)
  refine ⟨st, ?_, hf.toCore, ?_⟩
  · simp only [floodFillDic, hput, bind, Except.bind]
    exact hl
  · have hfc : ∀ p, FreeConn c.h c.w (fun q => g0 q.2 q.1 = 0) seed p →
        p ∈ st.points c ∧ g0 p.2 p.1 = 0 := by
      intro p hr
      induction hr with
      | refl => exact ⟨hs _ hsin, hfree⟩
      | tail _ hst ih =>
        exact ⟨hclst _ ih.1 ih.2 (by rw [he]; simp) _ hst.2.1 (neighbour_iff_adj.1 hst.1)
          (Or.inl hst.2.2), hst.2.2⟩
    intro p
    constructor
    · exact hf.target p
    · rintro (⟨-, hr⟩ | ⟨hp, hp1, q, hq, hrb⟩)
      · exact (hfc p hr).1
      · exact hclst q (hfc q hq).1 (hfc q hq).2 (by rw [he]; simp) p hp (rightOrBelow_adj hrb)
          (Or.inr ⟨hp1, hrb⟩)

theorem freeConn_inMap {h w : Nat} {free : Px → Prop} {p q : Px} (hp : InMap h w p)
    (hf : free p) (hc : FreeConn h w free p q) : InMap h w q ∧ free q := by
  induction hc with
  | refl => exact ⟨hp, hf⟩
  | tail _ hs _ => exact ⟨hs.2.1, hs.2.2⟩

theorem freeConn_symm {h w : Nat} {free : Px → Prop} {p q : Px} (hp : InMap h w p)
    (hf : free p) (hc : FreeConn h w free p q) : FreeConn h w free q p := by
  induction hc with
  | refl => exact Relation.ReflTransGen.refl
  | tail h1 hs ih =>
    have := freeConn_inMap hp hf h1
    exact Relation.ReflTransGen.head ⟨hs.1.symm, this.1, this.2⟩ ih

end DefDAP
