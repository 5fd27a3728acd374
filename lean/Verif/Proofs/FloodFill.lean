import Verif.Proofs.FillCore

/-! The EBSD flood fill computes the reachable region. -/

namespace DefDAP
open Spec

theorem openStep_iff {h w : Nat} {bx by' : Img Bool} {p q : Px} :
    OpenStep h w bx by' p q ↔ InMap h w p ∧ InMap h w q ∧
      ((q = (p.1 + 1, p.2) ∧ bx p.2 p.1 = false) ∨
       (q = (p.1 - 1, p.2) ∧ bx q.2 q.1 = false) ∨
       (q = (p.1, p.2 + 1) ∧ by' p.2 p.1 = false) ∨
       (q = (p.1, p.2 - 1) ∧ by' q.2 q.1 = false)) := by
  constructor
  · intro hs
    cases hs with
    | right x y h1 h2 h3 => exact ⟨h1, h2, Or.inl ⟨rfl, h3⟩⟩
    | left x y h1 h2 h3 => exact ⟨h2, h1, Or.inr (Or.inl ⟨by simp, h3⟩)⟩
    | down x y h1 h2 h3 => exact ⟨h1, h2, Or.inr (Or.inr (Or.inl ⟨rfl, h3⟩))⟩
    | up x y h1 h2 h3 => exact ⟨h2, h1, Or.inr (Or.inr (Or.inr ⟨by simp, h3⟩))⟩
  · rintro ⟨hp, hq, ⟨rfl, hb⟩ | ⟨rfl, hb⟩ | ⟨rfl, hb⟩ | ⟨rfl, hb⟩⟩
    · exact .right _ _ hp hq hb
    · have := OpenStep.left (bx := bx) (by' := by') (h := h) (w := w) (p.1 - 1) p.2 hq
        (by simpa using hp) hb
      simpa using this
    · exact .down _ _ hp hq hb
    · have := OpenStep.up (bx := bx) (by' := by') (h := h) (w := w) p.1 (p.2 - 1) hq
        (by simpa using hp) hb
      simpa using this

theorem Spec.OpenStep.adj {h w : Nat} {bx by' : Img Bool} {p q : Px}
    (hs : OpenStep h w bx by' p q) : Adj p q := by
  rw [openStep_iff] at hs
  unfold Adj
  tauto

theorem Spec.OpenStep.symm {h w : Nat} {bx by' : Img Bool} {p q : Px}
    (hs : OpenStep h w bx by' p q) : OpenStep h w bx by' q p := by
  cases hs with
  | right x y h1 h2 h3 => exact .left _ _ h1 h2 h3
  | left x y h1 h2 h3 => exact .right _ _ h1 h2 h3
  | down x y h1 h2 h3 => exact .up _ _ h1 h2 h3
  | up x y h1 h2 h3 => exact .down _ _ h1 h2 h3

/-- The boundary pixel read decides whether the step is open. -/
theorem ffBlocked_ok {c : FillCfg} {x y : Int} {q : Px} (hp : InMap c.h c.w (x, y))
    (hq : InMap c.h c.w q) (ha : Adj (x, y) q) :
    ∃ b, ffBlocked c x y q.1 q.2 = .ok b ∧
      (b = false ↔ OpenStep c.h c.w c.bx c.by' (x, y) q) := by
  rw [openStep_iff]
  unfold ffBlocked
  rcases ha with rfl | rfl | rfl | rfl
  · simp only at hq ⊢
    refine ⟨c.bx y x, ?_, ?_⟩
    · rw [if_pos trivial, if_pos (by omega), rd_ok hp]
    · have h1 : ((x + 1, y) : Px) ≠ (x - 1, y) := by simp; omega
      simp [hp, hq]
      omega
  · simp only at hq ⊢
    refine ⟨c.bx y (x - 1), ?_, ?_⟩
    · rw [if_pos trivial, if_neg (by omega), rd_ok hq]
    · simp [hp, hq]
      omega
  · simp only at hq ⊢
    refine ⟨c.by' y x, ?_, ?_⟩
    · rw [if_neg (by omega), if_pos (by omega), rd_ok hp]
    · simp [hp, hq]
      omega
  · simp only at hq ⊢
    refine ⟨c.by' (y - 1) x, ?_, ?_⟩
    · rw [if_neg (by omega), if_neg (by omega), rd_ok hq]
    · simp [hp, hq]
      omega

/-- Invariant of the EBSD fill. -/
structure FF (c : FillCfg) (seed : Px) (g0 : Img Int) (l0 : Img Bool) (b0 : Nat → Px)
    (st : Fill) : Prop extends Core c g0 l0 b0 st where
  reach : ∀ p ∈ st.points c, Reach c.h c.w c.bx c.by' (fun q => g0 q.2 q.1 ≤ 0) seed p

/-- The buffer has room for every pixel the fill can reach. -/
def Room (c : FillCfg) (seed : Px) (g0 : Img Int) : Prop :=
  ∀ L : List Px, L.Nodup →
    (∀ p ∈ L, InMap c.h c.w p ∧
      Reach c.h c.w c.bx c.by' (fun q => g0 q.2 q.1 ≤ 0) seed p) → L.length ≤ c.cap

/-- How far a state has moved on from another while processing the moves of one
pixel. -/
structure Ext (c : FillCfg) (st st' : Fill) : Prop where
  sub : ∀ p ∈ st.points c, p ∈ st'.points c
  edge_sub : ∀ p ∈ st.edge, p ∈ st'.edge
  fresh : ∀ p ∈ st'.points c, p ∉ st.points c → p ∈ st'.edge
  count : st'.n + st.edge.length = st.n + st'.edge.length

theorem Ext.refl (c : FillCfg) (st : Fill) : Ext c st st :=
  ⟨fun _ h => h, fun _ h => h, fun _ h h' => absurd h h', rfl⟩

theorem Ext.trans {c : FillCfg} {a b d : Fill} (h1 : Ext c a b) (h2 : Ext c b d) :
    Ext c a d where
  sub p hp := h2.sub p (h1.sub p hp)
  edge_sub p hp := h2.edge_sub p (h1.edge_sub p hp)
  fresh p hp hn := by
    by_cases hb : p ∈ b.points c
    · exact h2.edge_sub p (h1.fresh p hb hn)
    · exact h2.fresh p hp hb
  count := by
    have := h1.count
    have := h2.count
    omega

theorem ffVisit_ok {c : FillCfg} {seed : Px} {g0 l0 b0} {st : Fill} {x y : Int} {q : Px}
    (hidx : 0 < c.index) (hroom : Room c seed g0)
    (hf : FF c seed g0 l0 b0 st) (hcur : (x, y) ∈ st.points c)
    (hq : InMap c.h c.w q) (ha : Adj (x, y) q) :
    ∃ st', ffVisit c x y st q = .ok st' ∧ FF c seed g0 l0 b0 st' ∧ Ext c st st' ∧
      (OpenStep c.h c.w c.bx c.by' (x, y) q → g0 q.2 q.1 ≤ 0 → q ∈ st'.points c) := by
  have hp := hf.inmap _ hcur
  obtain ⟨b, hb, hbo⟩ := ffBlocked_ok hp hq ha
  unfold ffVisit
  rw [rd_ok (im := st.grains) hq, hb]
  have hg := hf.grains q.2 q.1
  by_cases hqm : q ∈ st.points c
  · rw [if_pos hqm] at hg
    refine ⟨st, ?_, hf, Ext.refl _ _, fun _ _ => hqm⟩
    simp [bind, Except.bind, hg, hidx, pure, Except.pure]
  · rw [if_neg hqm] at hg
    by_cases hpos : 0 < g0 q.2 q.1
    · refine ⟨st, ?_, hf, Ext.refl _ _, fun _ h => by omega⟩
      simp [bind, Except.bind, hg, hpos, pure, Except.pure]
    · cases b with
      | true =>
        refine ⟨st, ?_, hf, Ext.refl _ _, fun h => by simpa using hbo.2 h⟩
        simp [bind, Except.bind, hg, hpos, pure, Except.pure]
      | false =>
        have hstep := hbo.1 rfl
        have hrq : Reach c.h c.w c.bx c.by' (fun q => g0 q.2 q.1 ≤ 0) seed q :=
          (hf.reach _ hcur).tail ⟨hstep, by omega⟩
        have hcap : st.n < c.cap := by
          have := hroom (st.points c ++ [q])
            (List.Nodup.append hf.nodup (by simp) (by
              intro a ha' hb'
              simp at hb'; subst hb'; exact hqm ha'))
            (by
              intro p hp'
              rcases List.mem_append.1 hp' with h | h
              · exact ⟨hf.inmap p h, hf.reach p h⟩
              · simp at h; subst h; exact ⟨hq, hrq⟩)
          simp at this
          omega
        obtain ⟨st', hput, hcore, hpts, hedge, hn⟩ :=
          put_ok (s := q.1) (t := q.2) hf.toCore hq hqm hcap
        have hqin : q ∈ st'.points c := by rw [hpts]; simp
        have hppush : (st'.push q).points c = st'.points c := rfl
        refine ⟨st'.push q, ?_, ⟨core_push hcore hqin, ?_⟩, ⟨?_, ?_, ?_, ?_⟩, fun _ _ => hqin⟩
        · simp [bind, Except.bind, hg, hpos, pure, Except.pure, hput]
        · intro p hp'
          rw [hppush, hpts] at hp'
          rcases List.mem_append.1 hp' with h | h
          · exact hf.reach p h
          · simp at h; subst h; exact hrq
        · intro p hp'
          rw [hppush, hpts]; exact List.mem_append_left _ hp'
        · intro p hp'
          simp only [Fill.push, hedge]
          exact List.mem_cons_of_mem _ hp'
        · intro p hp' hn'
          rw [hppush, hpts] at hp'
          rcases List.mem_append.1 hp' with h | h
          · exact absurd h hn'
          · simp at h; subst h; simp [Fill.push]
        · simp [Fill.push, hedge, hn]; omega

/-- Processing a list of neighbouring moves. -/
theorem ffFold_ok {c : FillCfg} {seed : Px} {g0 l0 b0} {x y : Int}
    (hidx : 0 < c.index) (hroom : Room c seed g0) :
    ∀ (ms : List Px) (st : Fill), FF c seed g0 l0 b0 st → (x, y) ∈ st.points c →
      (∀ q ∈ ms, InMap c.h c.w q ∧ Adj (x, y) q) →
      ∃ st', ms.foldlM (ffVisit c x y) st = .ok st' ∧ FF c seed g0 l0 b0 st' ∧
        Ext c st st' ∧
        (∀ q ∈ ms, OpenStep c.h c.w c.bx c.by' (x, y) q → g0 q.2 q.1 ≤ 0 →
          q ∈ st'.points c) := by
  intro ms
  induction ms with
  | nil =>
    intro st hf _ _
    exact ⟨st, rfl, hf, Ext.refl _ _, by simp⟩
  | cons q ms ih =>
    intro st hf hcur hms
    obtain ⟨st1, h1, hf1, he1, hq1⟩ :=
      ffVisit_ok hidx hroom hf hcur (hms q (by simp)).1 (hms q (by simp)).2
    obtain ⟨st2, h2, hf2, he2, hq2⟩ := ih st1 hf1 (he1.sub _ hcur)
      (fun q hq => hms q (List.mem_cons_of_mem _ hq))
    refine ⟨st2, ?_, hf2, he1.trans he2, ?_⟩
    · rw [List.foldlM_cons, h1]; exact h2
    · intro r hr hs hg
      rcases List.mem_cons.1 hr with rfl | hr
      · exact he2.sub _ (hq1 hs hg)
      · exact hq2 r hr hs hg

/-- All pixels marked but no longer on the stack have had their open free
neighbours marked. -/
def Closed (c : FillCfg) (g0 : Img Int) (st : Fill) : Prop :=
  ∀ p ∈ st.points c, p ∉ st.edge → ∀ q, OpenStep c.h c.w c.bx c.by' p q →
    g0 q.2 q.1 ≤ 0 → q ∈ st.points c

theorem ffLoop_ok {c : FillCfg} {seed : Px} {g0 l0 b0} (hw : 2 ≤ c.w) (hh : 2 ≤ c.h)
    (hidx : 0 < c.index) (hroom : Room c seed g0) :
    ∀ (k : Nat) (st : Fill), FF c seed g0 l0 b0 st → Closed c g0 st →
      c.h * c.w + st.edge.length ≤ k + st.n →
      ∃ st', ffLoop c k st = .ok st' ∧ FF c seed g0 l0 b0 st' ∧ Closed c g0 st' ∧
        st'.edge = [] ∧ (∀ p ∈ st.points c, p ∈ st'.points c) := by
  intro k
  induction k with
  | zero =>
    intro st hf hcl hk
    have hle : st.n ≤ c.h * c.w := by
      have := nodup_length_le hf.nodup hf.inmap
      simpa using this
    have : st.edge = [] := by
      have : st.edge.length = 0 := by omega
      exact List.length_eq_zero_iff.1 this
    exact ⟨st, by simp [ffLoop, this], hf, hcl, this, fun _ h => h⟩
  | succ k ih =>
    intro st hf hcl hk
    match hst : st.edge with
    | [] => exact ⟨st, by simp [ffLoop, hst], hf, hcl, hst, fun _ h => h⟩
    | (x, y) :: rest =>
      have hcur : (x, y) ∈ st.points c := hf.edge_sub _ (by rw [hst]; simp)
      have hpm := hf.inmap _ hcur
      have hsub : ∀ p ∈ rest, p ∈ st.points c := fun p hp =>
        hf.edge_sub p (by rw [hst]; exact List.mem_cons_of_mem _ hp)
      have hf' : FF c seed g0 l0 b0 { st with edge := rest } :=
        ⟨core_edge hf.toCore hsub, hf.reach⟩
      obtain ⟨st1, h1, hf1, he1, hq1⟩ := ffFold_ok (x := x) (y := y) hidx hroom
        (ffMoves c.h c.w x y) _ hf' hcur
        (fun q hq => (mem_ffMoves hw hh hpm q).1 hq)
      have hcl1 : Closed c g0 st1 := by
        intro p hp hpe q hs hg
        by_cases hps : p ∈ st.points c
        · by_cases hpc : p = (x, y)
          · subst hpc
            have hqm : q ∈ ffMoves c.h c.w x y :=
              (mem_ffMoves hw hh hpm q).2 ⟨(openStep_iff.1 hs).2.1, hs.adj⟩
            exact hq1 q hqm hs hg
          · have hpr : p ∉ st.edge := by
              rw [hst]
              intro hmem
              rcases List.mem_cons.1 hmem with h | h
              · exact hpc h
              · exact hpe (he1.edge_sub p h)
            exact he1.sub _ (hcl p hps hpr q hs hg)
        · exact absurd (he1.fresh p hp hps) hpe
      have hcnt := he1.count
      simp only at hcnt
      have hk1 : c.h * c.w + st1.edge.length ≤ k + st1.n := by
        rw [hst] at hk; simp only [List.length_cons] at hk; omega
      obtain ⟨st2, h2, hf2, hcl2, he2, hs2⟩ := ih st1 hf1 hcl1 hk1
      refine ⟨st2, ?_, hf2, hcl2, he2, fun p hp => hs2 p (he1.sub p hp)⟩
      simp only [ffLoop, hst, h1, bind, Except.bind]
      exact h2

/-- The full result of the EBSD fill, in the form used by grain finding. -/
theorem floodFill_ok {c : FillCfg} {seed : Px} {g0 : Img Int} {l0 : Img Bool}
    {b0 : Nat → Px} (hw : 2 ≤ c.w) (hh : 2 ≤ c.h) (hidx : 0 < c.index)
    (hseed : InMap c.h c.w seed) (hroom : Room c seed g0) :
    ∃ st, floodFill c seed g0 l0 b0 = .ok st ∧ Core c g0 l0 b0 st ∧
      (∀ p, p ∈ st.points c ↔
        Reach c.h c.w c.bx c.by' (fun q => g0 q.2 q.1 ≤ 0) seed p) := by
  have hcap : 0 < c.cap := by
    have := hroom [seed] (by simp) (by
      intro p hp; simp at hp; subst hp; exact ⟨hseed, Relation.ReflTransGen.refl⟩)
    simp at this; omega
  obtain ⟨st0, hput, hcore, hpts, hedge, hn⟩ :=
    put_ok (s := seed.1) (t := seed.2) (core_start c g0 l0 b0) hseed (by simp [Fill.points]) hcap
  have hpts' : st0.points c = [seed] := by rw [hpts]; simp [Fill.points]
  have hpp : (st0.push seed).points c = st0.points c := rfl
  have hsin : seed ∈ st0.points c := by rw [hpts']; simp
  have hff : FF c seed g0 l0 b0 (st0.push seed) :=
    ⟨core_push hcore hsin, by
      intro p hp
      rw [hpp, hpts'] at hp
      simp at hp; subst hp; exact Relation.ReflTransGen.refl⟩
  have hcl : Closed c g0 (st0.push seed) := by
    intro p hp hpe
    rw [hpp, hpts'] at hp
    simp at hp; subst hp
    exact absurd (by simp [Fill.push]) hpe
  obtain ⟨st, hl, hf, hclst, he, hs⟩ := ffLoop_ok hw hh hidx hroom (c.h * c.w) _ hff hcl
    (by
      have : (st0.push seed).edge.length = 1 := by simp [Fill.push, hedge]
      have h2 : (st0.push seed).n = 1 := by simp [Fill.push, hn]
      omega)
  refine ⟨st, ?_, hf.toCore, ?_⟩
  · simp only [floodFill, hput, bind, Except.bind]
    exact hl
  · intro p
    constructor
    · exact hf.reach p
    · intro hr
      induction hr with
      | refl => exact hs _ hsin
      | tail _ hst ih => exact hclst _ ih (by rw [he]; simp) _ hst.1 hst.2

theorem mem_mapPixels {h w : Nat} {p : Px} : p ∈ mapPixels h w ↔ InMap h w p := by
  simp only [mapPixels, InMap, Finset.mem_product, Finset.mem_Ico, and_assoc]

/-- Reached pixels other than the seed are free, and all are in the map. -/
theorem reach_free {h w : Nat} {bx by' : Img Bool} {free : Px → Prop} {p q : Px}
    (hp : InMap h w p) (hf : free p) (hr : Reach h w bx by' free p q) :
    InMap h w q ∧ free q := by
  induction hr with
  | refl => exact ⟨hp, hf⟩
  | tail _ hs _ => exact ⟨(openStep_iff.1 hs.1).2.1, hs.2⟩

theorem room_of_card {c : FillCfg} {seed : Px} {g0 : Img Int}
    (hseed : InMap c.h c.w seed) (hfree : g0 seed.2 seed.1 ≤ 0)
    (hcap : ((mapPixels c.h c.w).filter fun p => g0 p.2 p.1 ≤ 0).card ≤ c.cap) :
    Room c seed g0 := by
  classical
  intro L hn hL
  refine le_trans ?_ hcap
  rw [← List.toFinset_card_of_nodup hn]
  apply Finset.card_le_card
  intro p hp
  have hp' := hL p (by simpa using hp)
  have := reach_free (free := fun q => g0 q.2 q.1 ≤ 0) hseed hfree hp'.2
  simp only [Finset.mem_filter, mem_mapPixels]
  exact this

/-- A fold in which the step on one element fails for every state, and every failure is
out of bounds, fails. -/
theorem foldlM_error_of_mem {c : FillCfg} {x y : Int} (ms : List Px) (st : Fill) (q : Px)
    (hq : q ∈ ms) (hf : ∀ st, ffVisit c x y st q = .error .outOfBounds) :
    ms.foldlM (ffVisit c x y) st = .error .outOfBounds := by
  induction ms generalizing st with
  | nil => simp at hq
  | cons r ms ih =>
    rw [List.foldlM_cons]
    cases hv : ffVisit c x y st r with
    | error e =>
      have : e = .outOfBounds := by
        unfold ffVisit ffBlocked rd Fill.put at hv
        simp only [bind, Except.bind, pure, Except.pure] at hv
        split_ifs at hv <;> simp_all <;> split_ifs at hv <;> simp_all
      subst this; rfl
    | ok st' =>
      rcases List.mem_cons.1 hq with rfl | hq
      · rw [hf] at hv; cases hv
      · exact ih st' hq

end DefDAP
