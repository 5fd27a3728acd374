import Mathlib.Data.List.Sort
import Verif.Props.FindGrains
import Verif.Props.DicGrains

/-! C143: what the minimum grain size changes. -/

namespace DefDAP
open Spec

/-! ### EBSD maps -/

/-- The pixels of a grain are those connected to any of them. -/
theorem grain_conn {h w : Nat} (hw : 2 ≤ w) (hh : 2 ≤ h) {bx by' : Img Bool}
    {phase : Img Int} {numPhases m : Nat} {r : FGResult}
    (hr : findGrains h w phase numPhases bx by' m = .ok r) {i : Nat} (hi : i < r.list.length)
    {p : Px} (hp : p ∈ r.points i) (q : Px) : Conn h w bx by' p q ↔ q ∈ r.points i := by
  obtain ⟨-, h2, h3, -⟩ := C03_partition hw hh bx by' phase numPhases m r hr
  obtain ⟨-, hl, -⟩ := (C04_numbering hw hh bx by' phase numPhases m r hr).1 i hi
  constructor
  · intro hc
    rw [hl, ← h3 p q hc]
    exact (hl p).1 hp
  · intro hq
    have e := (hl p).1 hp
    exact h2 p q (by omega) (e.trans ((hl q).1 hq).symm)

theorem grain_size {h w : Nat} (hw : 2 ≤ w) (hh : 2 ≤ h) {bx by' : Img Bool}
    {phase : Img Int} {numPhases m : Nat} {r : FGResult}
    (hr : findGrains h w phase numPhases bx by' m = .ok r) {i : Nat} (hi : i < r.list.length)
    {p : Px} (hp : p ∈ r.points i) : regionSize h w bx by' p = (r.points i).length := by
  classical
  obtain ⟨hn, -, -, -, hin⟩ := (C04_numbering hw hh bx by' phase numPhases m r hr).1 i hi
  rw [← List.toFinset_card_of_nodup hn]
  unfold regionSize
  congr 1
  ext q
  rw [Finset.mem_filter, mem_mapPixels, List.mem_toFinset]
  constructor
  · rintro ⟨-, hc⟩
    exact (grain_conn hw hh hr hi hp q).1 hc
  · intro hq
    exact ⟨hin q hq, (grain_conn hw hh hr hi hp q).2 hq⟩

/-- A positive label is that of a grain. -/
theorem label_grain {h w : Nat} (hw : 2 ≤ w) (hh : 2 ≤ h) {bx by' : Img Bool}
    {phase : Img Int} {numPhases m : Nat} {r : FGResult}
    (hr : findGrains h w phase numPhases bx by' m = .ok r) {p : Px} (hp : InMap h w p)
    (hi : ∃ q, Conn h w bx by' p q ∧ phase q.2 q.1 ≠ 0)
    (hsize : m ≤ regionSize h w bx by' p) : ∃ i, i < r.list.length ∧ p ∈ r.points i := by
  obtain ⟨h1, -, h3, -⟩ := C03_partition hw hh bx by' phase numPhases m r hr
  obtain ⟨n1, n2, -⟩ := C04_numbering hw hh bx by' phase numPhases m r hr
  obtain ⟨q, hc, hq⟩ := hi
  have hqm : InMap h w q := by
    induction hc with
    | refl => exact hp
    | tail _ hs _ => cases hs <;> assumption
  have hne : r.grains p.2 p.1 ≠ -2 := fun e => by
    have := ((n2 p hp).1 e).1
    omega
  rcases h1 q hqm hq with e | ⟨e1, e2⟩
  · rw [← h3 p q hc] at e
    exact absurd e hne
  · refine ⟨(r.grains q.2 q.1 - 1).toNat, by omega, ?_⟩
    rw [((n1 _ (by omega)).2.1 p), h3 p q hc]
    omega

theorem range_of_mono {m : Nat} {f : Nat → Nat} {L : List Nat} (hL : L.Pairwise (· < ·))
    (hf : ∀ i ∈ L, ∀ j ∈ L, i < j → f i < f j) (hr : ∀ i ∈ L, f i < m)
    (hs : ∀ k, k < m → ∃ i ∈ L, f i = k) : L.map f = List.range m := by
  have hp : (L.map f).Pairwise (· < ·) := by
    rw [List.pairwise_map]
    exact List.Pairwise.imp_of_mem (fun ha hb hab => hf _ ha _ hb hab) hL
  have hq : (List.range m).Pairwise (· < ·) := List.pairwise_lt_range
  have nd : ∀ {l : List Nat}, l.Pairwise (· < ·) → l.Nodup := fun h =>
    h.imp fun hab => Nat.ne_of_lt hab
  refine List.Perm.eq_of_pairwise (le := fun a b => decide (a ≤ b)) ?_ ?_ ?_
    ((List.perm_ext_iff_of_nodup (nd hp) (nd hq)).2 fun k => ?_)
  · intro a b _ _ h1 h2
    simp only [decide_eq_true_eq] at h1 h2
    omega
  · exact hp.imp fun hab => by simpa using Nat.le_of_lt hab
  · exact hq.imp fun hab => by simpa using Nat.le_of_lt hab
  · rw [List.mem_map, List.mem_range]
    constructor
    · rintro ⟨i, hi, rfl⟩
      exact hr i hi
    · intro hk
      obtain ⟨i, hi, e⟩ := hs k hk
      exact ⟨i, hi, e⟩

theorem grainPhase_some {n : Nat} {phase : Img Int} {l : List Px} {v : Int} :
    grainPhase n phase l = some v ↔
      l ≠ [] ∧ (∀ p ∈ l, phase p.2 p.1 = v + 1) ∧ 0 ≤ v ∧ v < n := by
  unfold grainPhase
  cases l with
  | nil => simp
  | cons a l =>
    simp only [List.map_cons]
    by_cases hall : ∀ p ∈ l, phase p.2 p.1 = phase a.2 a.1
    · rw [if_neg (by simpa using hall)]
      by_cases hv : 0 ≤ phase a.2 a.1 - 1 ∧ phase a.2 a.1 - 1 < n
      · rw [if_pos hv, Option.some.injEq]
        constructor
        · rintro rfl
          refine ⟨by simp, ?_, hv⟩
          intro p hp
          rcases List.mem_cons.1 hp with rfl | hp
          · omega
          · rw [hall p hp]; omega
        · rintro ⟨-, h1, -⟩
          rw [h1 a (by simp)]; omega
      · rw [if_neg hv]
        constructor
        · intro h; cases h
        · rintro ⟨-, h1, h2⟩
          have := h1 a (by simp)
          omega
    · rw [if_pos (by simpa using hall)]
      constructor
      · intro h; cases h
      · rintro ⟨-, h1, -⟩
        exact absurd (fun p hp => by rw [h1 p (by simp [hp]), h1 a (by simp)]) hall

theorem grainPhase_perm {n : Nat} {phase : Img Int} {l l' : List Px} (h : l.Perm l') :
    grainPhase n phase l = grainPhase n phase l' := by
  refine Option.ext fun v => ?_
  rw [grainPhase_some, grainPhase_some]
  have e : l ≠ [] ↔ l' ≠ [] := by
    rw [← List.length_pos_iff, ← List.length_pos_iff, h.length_eq]
  simp only [e, h.mem_iff]

/-- **C143**: with a larger minimum size the grains of an EBSD map are those found with the smaller one
that have enough pixels, in the same order and with the same phases. The pixels of the others become
-2, and no others. Finding grains succeeds exactly if there is such a grain. -/
theorem C143_ebsd {h w : Nat} (hw : 2 ≤ w) (hh : 2 ≤ h) (bx by' : Img Bool)
    (phase : Img Int) (numPhases m1 m2 : Nat) (hm : m1 ≤ m2) (r1 : FGResult)
    (h1 : findGrains h w phase numPhases bx by' m1 = .ok r1) :
    ((∃ r2, findGrains h w phase numPhases bx by' m2 = .ok r2) ↔
      ∃ i, i < r1.list.length ∧ m2 ≤ (r1.points i).length) ∧
    ∀ r2, findGrains h w phase numPhases bx by' m2 = .ok r2 →
      ∃ big : List Nat,
        big = ((List.range r1.list.length).filter fun i => decide (m2 ≤ (r1.points i).length)) ∧
        r2.list.length = big.length ∧
        (∀ k i, big[k]? = some i → (r2.points k).Perm (r1.points i) ∧
          (r2.list[k]?.map fun g => g.2) = r1.list[i]?.map fun g => g.2) ∧
        ∀ p, InMap h w p → (r2.grains p.2 p.1 = -2 ↔ r1.grains p.2 p.1 = -2 ∨
          ∃ i, p ∈ r1.points i ∧ (r1.points i).length < m2) := by
  obtain ⟨n1, sm1, or1⟩ := C04_numbering hw hh bx by' phase numPhases m1 r1 h1
  have out : ∀ (r : FGResult) i, ¬ i < r.list.length → r.points i = [] := by
    intro r i hi
    unfold FGResult.points
    rw [List.getElem?_eq_none (by omega)]
    rfl
  have ix1 : ∀ i, i < r1.list.length → ∃ p ∈ r1.points i, phase p.2 p.1 ≠ 0 := by
    intro i hi
    obtain ⟨st, hb, -, hbuf, hlen, hlist⟩ := findGrains_base hw hh h1
    have hv : st.list[i]? = some st.list[i] := List.getElem?_eq_getElem (by omega)
    obtain ⟨p, hp, hpi, -⟩ := (hb.kept i _ hv).seed
    refine ⟨p, ?_, hpi⟩
    simpa [FGResult.points, hlist, hv, hbuf] using hp
  constructor
  · rw [(C07_failure hw hh bx by' phase numPhases m2).2.2]
    constructor
    · rintro ⟨p, hp, hpi, hs⟩
      obtain ⟨i, hi, hpi'⟩ := label_grain hw hh h1 hp ⟨p, .refl, hpi⟩ (le_trans hm hs)
      exact ⟨i, hi, by rw [← grain_size hw hh h1 hi hpi']; exact hs⟩
    · rintro ⟨i, hi, hs⟩
      obtain ⟨p, hp, hpi⟩ := ix1 i hi
      exact ⟨p, (n1 i hi).2.2.2.2 p hp, hpi, by rw [grain_size hw hh h1 hi hp]; exact hs⟩
  · intro r2 h2
    obtain ⟨n2, sm2, or2⟩ := C04_numbering hw hh bx by' phase numPhases m2 r2 h2
    have ix2 : ∀ i, i < r2.list.length → ∃ p ∈ r2.points i, phase p.2 p.1 ≠ 0 := by
      intro i hi
      obtain ⟨st, hb, -, hbuf, hlen, hlist⟩ := findGrains_base hw hh h2
      have hv : st.list[i]? = some st.list[i] := List.getElem?_eq_getElem (by omega)
      obtain ⟨p, hp, hpi, -⟩ := (hb.kept i _ hv).seed
      refine ⟨p, ?_, hpi⟩
      simpa [FGResult.points, hlist, hv, hbuf] using hp
    refine ⟨_, rfl, ?_⟩
    set big := (List.range r1.list.length).filter fun i => decide (m2 ≤ (r1.points i).length) with hbig
    have hmem : ∀ i, i ∈ big ↔ i < r1.list.length ∧ m2 ≤ (r1.points i).length := by
      intro i
      rw [hbig, List.mem_filter, List.mem_range, decide_eq_true_eq]
    -- the grain of the second run with the same pixels
    have hto : ∀ i ∈ big, ∃ k, k < r2.list.length ∧ ∀ q, q ∈ r2.points k ↔ q ∈ r1.points i := by
      intro i hi
      obtain ⟨hi1, hi2⟩ := (hmem i).1 hi
      obtain ⟨p, hp, hpi⟩ := ix1 i hi1
      obtain ⟨k, hk, hpk⟩ := label_grain hw hh h2 ((n1 i hi1).2.2.2.2 p hp) ⟨p, .refl, hpi⟩
        (by rw [grain_size hw hh h1 hi1 hp]; exact hi2)
      exact ⟨k, hk, fun q => by rw [← grain_conn hw hh h2 hk hpk, grain_conn hw hh h1 hi1 hp]⟩
    choose! f hf1 hf2 using hto
    have hmap : big.map f = List.range r2.list.length := by
      refine range_of_mono (List.Pairwise.filter _ List.pairwise_lt_range) ?_ hf1 ?_
      · intro i hi j hj hij
        obtain ⟨hi1, -⟩ := (hmem i).1 hi
        obtain ⟨hj1, -⟩ := (hmem j).1 hj
        obtain ⟨p, hp, hpi, hfirst⟩ := or1 i j hij hj1
        rcases lt_trichotomy (f i) (f j) with hlt | heq | hgt
        · exact hlt
        · exfalso
          obtain ⟨q, hq, -⟩ := ix1 j hj1
          have h3 := ((n1 i hi1).2.1 q).1 ((hf2 i hi q).1 (by rw [heq]; exact (hf2 j hj q).2 hq))
          have h4 := ((n1 j hj1).2.1 q).1 hq
          omega
        · exfalso
          obtain ⟨q, hq, hqi, hq2⟩ := or2 (f j) (f i) hgt (hf1 i hi)
          have h3 := hq2 p ((hf2 i hi p).2 hp) hpi
          have h4 := hfirst q ((hf2 j hj q).1 hq) hqi
          omega
      · intro k hk
        obtain ⟨p, hp, hpi⟩ := ix2 k hk
        have hin := (n2 k hk).2.2.2.2 p hp
        have hs := grain_size hw hh h2 hk hp
        have hm2 := (n2 k hk).2.2.1
        obtain ⟨i, hi, hpi'⟩ := label_grain hw hh h1 hin ⟨p, .refl, hpi⟩ (by omega)
        have hib : i ∈ big := (hmem i).2 ⟨hi, by rw [← grain_size hw hh h1 hi hpi', hs]; exact hm2⟩
        refine ⟨i, hib, ?_⟩
        have h3 := ((n2 _ (hf1 i hib)).2.1 p).1 ((hf2 i hib p).2 hpi')
        have h4 := ((n2 k hk).2.1 p).1 hp
        omega
    refine ⟨?_, ?_, ?_⟩
    · have := congrArg List.length hmap
      rw [List.length_map, List.length_range] at this
      exact this.symm
    · intro k i hk
      have hib : i ∈ big := List.mem_of_getElem? hk
      have hi1 := ((hmem i).1 hib).1
      have hfk : f i = k ∧ k < r2.list.length := by
        have := congrArg (fun l : List Nat => l[k]?) hmap
        simp only [List.getElem?_map, hk, Option.map_some] at this
        have hkl : k < (List.range r2.list.length).length :=
          (List.getElem?_eq_some_iff.1 this.symm).1
        rw [List.length_range] at hkl
        rw [List.getElem?_range hkl, Option.some.injEq] at this
        exact ⟨this, hkl⟩
      have hperm : (r2.points k).Perm (r1.points i) := by
        refine (List.perm_ext_iff_of_nodup (n2 k hfk.2).1 (n1 i hi1).1).2 fun q => ?_
        rw [← hfk.1]
        exact hf2 i hib q
      refine ⟨hperm, ?_⟩
      have ph : ∀ {m : Nat} {r : FGResult}, findGrains h w phase numPhases bx by' m = .ok r →
          ∀ j, j < r.list.length →
          (r.list[j]?.map fun g => g.2) = some (grainPhase numPhases phase (r.points j)) := by
        intro m r hr j hj
        obtain ⟨st, hb, -, hbuf, hlen, hlist⟩ := findGrains_base hw hh hr
        have hv : st.list[j]? = some st.list[j] := List.getElem?_eq_getElem (by omega)
        simp [FGResult.points, hlist, hv, hbuf]
      rw [ph h2 k hfk.2, ph h1 i hi1, grainPhase_perm hperm]
    · intro p hp
      rw [sm2 p hp, sm1 p hp]
      constructor
      · rintro ⟨hs, hq⟩
        by_cases hs1 : regionSize h w bx by' p < m1
        · exact Or.inl ⟨hs1, hq⟩
        · obtain ⟨i, hi, hpi⟩ := label_grain hw hh h1 hp hq (by omega)
          exact Or.inr ⟨i, hpi, by rw [← grain_size hw hh h1 hi hpi]; exact hs⟩
      · rintro (⟨hs, hq⟩ | ⟨i, hpi, hs⟩)
        · exact ⟨by omega, hq⟩
        · have hi : i < r1.list.length := by
            by_contra hn
            rw [out r1 i hn] at hpi
            exact absurd hpi (by simp)
          refine ⟨by rw [grain_size hw hh h1 hi hpi]; exact hs, ?_⟩
          obtain ⟨q, hq, hqi⟩ := ix1 i hi
          exact ⟨q, (grain_conn hw hh h1 hi hpi q).2 hq, hqi⟩

/-- The example of `Verif.Props.FindGrains` meets the hypotheses with sizes 2 and 3: of its grains of 2,
4 and 2 pixels the second remains, as grain 1. -/
example : ((findGrainsOf 3 4 exPhase 2 exBounds 2).toOption.map fun r =>
      (List.range r.list.length).map r.points) =
      some [[(1, 0), (2, 0)], [(1, 1), (2, 1), (1, 2), (2, 2)], [(3, 1), (3, 2)]] ∧
    ((findGrainsOf 3 4 exPhase 2 exBounds 3).toOption.map fun r =>
      (List.range r.list.length).map r.points) = some [[(1, 1), (2, 1), (1, 2), (2, 2)]] := by
  decide +kernel

/-! ### DIC maps -/

theorem dicGrain_region {h w : Nat} (hw : 2 ≤ w) (hh : 2 ≤ h) {bnd : Img Bool} {m : Nat}
    {r : DicResult} (hr : findGrainsDic h w bnd m = .ok r) {i : Nat} (hi : i < r.list.length)
    {p : Px} (hp : p ∈ r.points i) (hb : bnd p.2 p.1 = false) (q : Px) :
    InRegion h w bnd p q ↔ q ∈ r.points i := by
  obtain ⟨-, -, h3, h4, -⟩ := C13_partition hw hh bnd m r hr
  obtain ⟨-, hl, -, -, hin⟩ := (C13_numbering hw hh bnd m r hr).1 i hi
  constructor
  · intro hc
    rw [hl, h4 p q (hin p hp) hb hc]
    exact (hl p).1 hp
  · intro hq
    have e := (hl p).1 hp
    exact h3 p q hb (by omega) (((hl q).1 hq).trans e.symm)

theorem dicGrain_size {h w : Nat} (hw : 2 ≤ w) (hh : 2 ≤ h) {bnd : Img Bool} {m : Nat}
    {r : DicResult} (hr : findGrainsDic h w bnd m = .ok r) {i : Nat} (hi : i < r.list.length)
    {p : Px} (hp : p ∈ r.points i) (hb : bnd p.2 p.1 = false) :
    dicRegionSize h w bnd p = (r.points i).length := by
  classical
  obtain ⟨hn, -, -, -, hin⟩ := (C13_numbering hw hh bnd m r hr).1 i hi
  rw [← List.toFinset_card_of_nodup hn]
  unfold dicRegionSize
  congr 1
  ext q
  rw [Finset.mem_filter, mem_mapPixels, List.mem_toFinset]
  constructor
  · rintro ⟨-, hc⟩
    exact (dicGrain_region hw hh hr hi hp hb q).1 hc
  · intro hq
    exact ⟨hin q hq, (dicGrain_region hw hh hr hi hp hb q).2 hq⟩

theorem dicLabel_grain {h w : Nat} (hw : 2 ≤ w) (hh : 2 ≤ h) {bnd : Img Bool} {m : Nat}
    {r : DicResult} (hr : findGrainsDic h w bnd m = .ok r) {p : Px} (hp : InMap h w p)
    (hb : bnd p.2 p.1 = false) (hsize : m ≤ dicRegionSize h w bnd p) :
    ∃ i, i < r.list.length ∧ p ∈ r.points i := by
  obtain ⟨h1, h2, -⟩ := C13_partition hw hh bnd m r hr
  obtain ⟨n1, -⟩ := C13_numbering hw hh bnd m r hr
  rcases h1 p hp hb with e | ⟨e1, e2⟩
  · have := (h2 p hp hb).1 e
    omega
  · refine ⟨(r.grains p.2 p.1 - 1).toNat, by omega, ?_⟩
    rw [(n1 _ (by omega)).2.1 p]
    omega

/-- **C143**, DIC maps: with a larger minimum size the grains found by the floodfill are those found with
the smaller one that have enough pixels (boundary pixels included), in the same order. The pixels of the
others become -2, and no others; the unassigned boundary pixels stay the same. Finding grains succeeds
exactly if there is such a grain. -/
theorem C143_dic {h w : Nat} (hw : 2 ≤ w) (hh : 2 ≤ h) (bnd : Img Bool) (m1 m2 : Nat) (hm : m1 ≤ m2)
    (r1 : DicResult) (h1 : findGrainsDic h w bnd m1 = .ok r1) :
    ((∃ r2, findGrainsDic h w bnd m2 = .ok r2) ↔
      ∃ i, i < r1.list.length ∧ m2 ≤ (r1.points i).length) ∧
    ∀ r2, findGrainsDic h w bnd m2 = .ok r2 →
      ∃ big : List Nat,
        big = ((List.range r1.list.length).filter fun i => decide (m2 ≤ (r1.points i).length)) ∧
        r2.list.length = big.length ∧
        (∀ k i, big[k]? = some i → (r2.points k).Perm (r1.points i)) ∧
        (∀ p, InMap h w p → (r2.grains p.2 p.1 = -2 ↔ r1.grains p.2 p.1 = -2 ∨
          ∃ i, p ∈ r1.points i ∧ (r1.points i).length < m2)) ∧
        ∀ p, InMap h w p → (r2.grains p.2 p.1 = -1 ↔ r1.grains p.2 p.1 = -1) := by
  obtain ⟨n1, or1⟩ := C13_numbering hw hh bnd m1 r1 h1
  obtain ⟨c1, sm1, -, reg1, un1, ow1⟩ := C13_partition hw hh bnd m1 r1 h1
  have out : ∀ (r : DicResult) i, ¬ i < r.list.length → r.points i = [] := by
    intro r i hi
    unfold DicResult.points
    rw [List.getElem?_eq_none (by omega)]
    rfl
  constructor
  · rw [(C13_failure hw hh bnd m2).2.2]
    constructor
    · rintro ⟨p, hp, hpb, hs⟩
      obtain ⟨i, hi, hpi⟩ := dicLabel_grain hw hh h1 hp hpb (le_trans hm hs)
      exact ⟨i, hi, by rw [← dicGrain_size hw hh h1 hi hpi hpb]; exact hs⟩
    · rintro ⟨i, hi, hs⟩
      obtain ⟨p, hp, hpb⟩ := (n1 i hi).2.2.2.1
      exact ⟨p, (n1 i hi).2.2.2.2 p hp, hpb, by rw [dicGrain_size hw hh h1 hi hp hpb]; exact hs⟩
  · intro r2 h2
    obtain ⟨n2, or2⟩ := C13_numbering hw hh bnd m2 r2 h2
    obtain ⟨c2, sm2, -, reg2, un2, ow2⟩ := C13_partition hw hh bnd m2 r2 h2
    refine ⟨_, rfl, ?_⟩
    set big := (List.range r1.list.length).filter fun i => decide (m2 ≤ (r1.points i).length) with hbig
    have hmem : ∀ i, i ∈ big ↔ i < r1.list.length ∧ m2 ≤ (r1.points i).length := by
      intro i
      rw [hbig, List.mem_filter, List.mem_range, decide_eq_true_eq]
    have hto : ∀ i ∈ big, ∃ k, k < r2.list.length ∧ ∀ q, q ∈ r2.points k ↔ q ∈ r1.points i := by
      intro i hi
      obtain ⟨hi1, hi2⟩ := (hmem i).1 hi
      obtain ⟨p, hp, hpb⟩ := (n1 i hi1).2.2.2.1
      obtain ⟨k, hk, hpk⟩ := dicLabel_grain hw hh h2 ((n1 i hi1).2.2.2.2 p hp) hpb
        (by rw [dicGrain_size hw hh h1 hi1 hp hpb]; exact hi2)
      exact ⟨k, hk, fun q => by
        rw [← dicGrain_region hw hh h2 hk hpk hpb, dicGrain_region hw hh h1 hi1 hp hpb]⟩
    choose! f hf1 hf2 using hto
    have hmap : big.map f = List.range r2.list.length := by
      refine range_of_mono (List.Pairwise.filter _ List.pairwise_lt_range) ?_ hf1 ?_
      · intro i hi j hj hij
        obtain ⟨hi1, -⟩ := (hmem i).1 hi
        obtain ⟨hj1, -⟩ := (hmem j).1 hj
        obtain ⟨p, hp, hpi, hfirst⟩ := or1 i j hij hj1
        rcases lt_trichotomy (f i) (f j) with hlt | heq | hgt
        · exact hlt
        · exfalso
          obtain ⟨q, hq, -⟩ := (n1 j hj1).2.2.2.1
          have h3 := ((n1 i hi1).2.1 q).1 ((hf2 i hi q).1 (by rw [heq]; exact (hf2 j hj q).2 hq))
          have h4 := ((n1 j hj1).2.1 q).1 hq
          omega
        · exfalso
          obtain ⟨q, hq, hqi, hq2⟩ := or2 (f j) (f i) hgt (hf1 i hi)
          have h3 := hq2 p ((hf2 i hi p).2 hp) hpi
          have h4 := hfirst q ((hf2 j hj q).1 hq) hqi
          omega
      · intro k hk
        obtain ⟨-, hlab, hm2, ⟨p, hp, hpb⟩, hin⟩ := n2 k hk
        have hs := dicGrain_size hw hh h2 hk hp hpb
        obtain ⟨i, hi, hpi⟩ := dicLabel_grain hw hh h1 (hin p hp) hpb (by omega)
        have hib : i ∈ big := (hmem i).2 ⟨hi, by
          rw [← dicGrain_size hw hh h1 hi hpi hpb, hs]; exact hm2⟩
        refine ⟨i, hib, ?_⟩
        have h3 := ((n2 _ (hf1 i hib)).2.1 p).1 ((hf2 i hib p).2 hpi)
        have h4 := (hlab p).1 hp
        omega
    have hun : ∀ p, InMap h w p → (r2.grains p.2 p.1 = -1 ↔ r1.grains p.2 p.1 = -1) := by
      intro p hp
      cases hpb : bnd p.2 p.1 with
      | false =>
        have e1 := c1 p hp hpb
        have e2 := c2 p hp hpb
        omega
      | true => rw [un1 p hp hpb, un2 p hp hpb]
    have hfree : ∀ p, InMap h w p → bnd p.2 p.1 = false → (r2.grains p.2 p.1 = -2 ↔
        r1.grains p.2 p.1 = -2 ∨ ∃ i, p ∈ r1.points i ∧ (r1.points i).length < m2) := by
      intro p hp hpb
      rw [sm2 p hp hpb, sm1 p hp hpb]
      constructor
      · intro hs
        by_cases hs1 : dicRegionSize h w bnd p < m1
        · exact Or.inl hs1
        · obtain ⟨i, hi, hpi⟩ := dicLabel_grain hw hh h1 hp hpb (by omega)
          exact Or.inr ⟨i, hpi, by rw [← dicGrain_size hw hh h1 hi hpi hpb]; exact hs⟩
      · rintro (hs | ⟨i, hpi, hs⟩)
        · omega
        · have hi : i < r1.list.length := by
            by_contra hn
            rw [out r1 i hn] at hpi
            exact absurd hpi (by simp)
          rw [dicGrain_size hw hh h1 hi hpi hpb]; exact hs
    refine ⟨?_, ?_, ?_, hun⟩
    · have := congrArg List.length hmap
      rw [List.length_map, List.length_range] at this
      exact this.symm
    · intro k i hk
      have hib : i ∈ big := List.mem_of_getElem? hk
      have hi1 := ((hmem i).1 hib).1
      have hfk : f i = k ∧ k < r2.list.length := by
        have := congrArg (fun l : List Nat => l[k]?) hmap
        simp only [List.getElem?_map, hk, Option.map_some] at this
        have hkl : k < (List.range r2.list.length).length :=
          (List.getElem?_eq_some_iff.1 this.symm).1
        rw [List.length_range] at hkl
        rw [List.getElem?_range hkl, Option.some.injEq] at this
        exact ⟨this, hkl⟩
      refine (List.perm_ext_iff_of_nodup (n2 k hfk.2).1 (n1 i hi1).1).2 fun q => ?_
      rw [← hfk.1]
      exact hf2 i hib q
    · intro p hp
      cases hpb : bnd p.2 p.1 with
      | false => exact hfree p hp hpb
      | true =>
        have mem1 : ∀ a b : Px, r1.grains a.2 a.1 = r1.grains b.2 b.1 → ∀ i,
            a ∈ r1.points i → b ∈ r1.points i := by
          intro a b hab i ha
          have hi : i < r1.list.length := by
            by_contra hn
            rw [out r1 i hn] at ha
            exact absurd ha (by simp)
          rw [(n1 i hi).2.1, ← hab]
          exact ((n1 i hi).2.1 a).1 ha
        by_cases hm1 : r1.grains p.2 p.1 = -1
        · have := (hun p hp).2 hm1
          constructor
          · intro e; omega
          · rintro (e | ⟨i, hpi, -⟩)
            · omega
            · have hi : i < r1.list.length := by
                by_contra hn
                rw [out r1 i hn] at hpi
                exact absurd hpi (by simp)
              have := ((n1 i hi).2.1 p).1 hpi
              omega
        · obtain ⟨o, ho, hob, hown⟩ := ow1 p hp hpb hm1
          have e1 := reg1 o p ho hob (Or.inr hown)
          have e2 := reg2 o p ho hob (Or.inr hown)
          rw [e1, e2, hfree o ho hob]
          refine or_congr_right ⟨?_, ?_⟩
          · rintro ⟨i, hoi, hs⟩
            exact ⟨i, mem1 o p e1.symm i hoi, hs⟩
          · rintro ⟨i, hpi, hs⟩
            exact ⟨i, mem1 p o e1 i hpi, hs⟩

/-- The example of `Verif.Props.DicGrains` with sizes 3 and 6: of the grains of 8, 6 and 3 pixels the first
two remain. -/
example : ((findGrainsDic 4 5 exCross 3).toOption.map fun r =>
      (List.range r.list.length).map fun i => (r.points i).length) = some [8, 6, 3] ∧
    ((findGrainsDic 4 5 exCross 6).toOption.map fun r =>
      (List.range r.list.length).map fun i => (r.points i).length) = some [8, 6] := by
  decide +kernel

end DefDAP
