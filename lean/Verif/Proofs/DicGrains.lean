import Verif.Proofs.FloodFillDic
import Verif.Proofs.FindGrains
import Verif.Model.DicGrains

/-! The DIC grain finding loop. -/

namespace DefDAP
open Spec

section
variable {h w : Nat} {bnd : Img Bool}

theorem owns_congr {p p' q : Px} (hp : InMap h w p) (hf : bnd p.2 p.1 = false)
    (hc : FreeConn h w (fun r => bnd r.2 r.1 = false) p p') (ho : Owns h w bnd p q) : Owns h w bnd p' q := by
  have hs : FreeConn h w (fun r => bnd r.2 r.1 = false) p' p := freeConn_symm (free := fun r => bnd r.2 r.1 = false) hp hf hc
  obtain ⟨h1, h2, ⟨r, h3, h4⟩, h5⟩ := ho
  refine ⟨h1, h2, ⟨r, Relation.ReflTransGen.trans hs h3, h4⟩, ?_⟩
  intro r hr hrf hrb t ht
  obtain ⟨s, hs1, hs2⟩ := h5 r hr hrf hrb t ht
  exact ⟨s, Relation.ReflTransGen.trans hs hs1, hs2⟩

theorem inRegion_congr {p p' q : Px} (hp : InMap h w p) (hf : bnd p.2 p.1 = false)
    (hc : FreeConn h w (fun r => bnd r.2 r.1 = false) p p') : InRegion h w bnd p q ↔ InRegion h w bnd p' q := by
  have hs : FreeConn h w (fun r => bnd r.2 r.1 = false) p' p := freeConn_symm (free := fun r => bnd r.2 r.1 = false) hp hf hc
  have hp' := freeConn_inMap (free := fun r => bnd r.2 r.1 = false) hp hf hc
  unfold InRegion
  constructor
  · rintro (h1 | h1)
    · exact Or.inl (Relation.ReflTransGen.trans hs h1)
    · exact Or.inr (owns_congr hp hf hc h1)
  · rintro (h1 | h1)
    · exact Or.inl (Relation.ReflTransGen.trans hc h1)
    · exact Or.inr (owns_congr hp'.1 hp'.2 hs h1)

/-- Facts about a kept view. -/
structure KeptD (h w : Nat) (bnd : Img Bool) (minSize : Nat)
    (st : FG) (N : Nat) (i : Nat) (v : View) : Prop where
  bound : v.off + v.len ≤ st.off
  nodup : (v.read st.buf).Nodup
  label : ∀ p : Px, p ∈ v.read st.buf ↔ st.grains p.2 p.1 = (i : Int) + 1
  size : minSize ≤ v.len
  comp : ∀ p ∈ v.read st.buf, bnd p.2 p.1 = false → ∀ q, q ∈ v.read st.buf ↔
    InRegion h w bnd p q
  seed : ∃ p ∈ v.read st.buf, bnd p.2 p.1 = false ∧ raster w p < N ∧
    ∀ q ∈ v.read st.buf, bnd q.2 q.1 = false → raster w p ≤ raster w q

/-- The loop invariant: every free pixel before raster position `N` has been dealt with. -/
structure BaseD (h w : Nat) (bnd : Img Bool) (minSize : Nat) (st : FG) (N : Nat) : Prop where
  nodup : st.used.Nodup
  inmap : ∀ p ∈ st.used, InMap h w p
  closed : ∀ p ∈ st.used, bnd p.2 p.1 = false → ∀ q,
    FreeConn h w (fun r => bnd r.2 r.1 = false) p q → q ∈ st.used
  taken : ∀ r ∈ st.used, bnd r.2 r.1 = false → ∀ q, InMap h w q → bnd q.2 q.1 = true →
    RightOrBelow r q → q ∈ st.used
  first : ∀ q ∈ st.used, bnd q.2 q.1 = true → ∃ r ∈ st.used, bnd r.2 r.1 = false ∧
    RightOrBelow r q ∧ ∃ t, FreeConn h w (fun r => bnd r.2 r.1 = false) r t ∧ raster w t < N
  zero : ∀ p : Px, p ∉ st.used → st.grains p.2 p.1 = if bnd p.2 p.1 then -1 else 0
  some' : ∀ p : Px, p ∈ st.used → st.grains p.2 p.1 = -2 ∨ 0 < st.grains p.2 p.1
  left : ∀ p : Px, st.left p.2 p.1 = (!bnd p.2 p.1 && decide (p ∉ st.used))
  gidx : st.gidx = st.list.length + 1
  kept : ∀ (i : Nat) (v : View), st.list[i]? = some v → KeptD h w bnd minSize st N i v
  order : ∀ (i j : Nat) (v u : View), i < j → st.list[i]? = some v → st.list[j]? = some u →
    ∃ p ∈ v.read st.buf, bnd p.2 p.1 = false ∧
      ∀ q ∈ u.read st.buf, bnd q.2 q.1 = false → raster w p < raster w q
  small : ∀ p : Px, st.grains p.2 p.1 = -2 →
    ∃ (s : Px) (L : List Px), InMap h w s ∧ bnd s.2 s.1 = false ∧ L.Nodup ∧
      (∀ q, q ∈ L ↔ InRegion h w bnd s q) ∧ L.length < minSize ∧ p ∈ L ∧
      ∀ q ∈ L, st.grains q.2 q.1 = -2
  top : ∀ p : Px, st.grains p.2 p.1 ≤ st.list.length
  done : ∀ p : Px, InMap h w p → bnd p.2 p.1 = false → raster w p < N → p ∈ st.used

variable {minSize : Nat}

theorem baseD_step {st : FG} (hw : 2 ≤ w) (hh : 2 ≤ h)
    (hb : BaseD h w bnd minSize st st.next) (hn : st.next < h * w)
    (hl : st.left (unravel w st.next).2 (unravel w st.next).1 = true) :
    ∃ st' more, fgdStep h w minSize st = .ok (st', more) ∧
      (more = true → BaseD h w bnd minSize st' st'.next ∧ st.next < st'.next ∧
        st'.next < h * w ∧ st'.left (unravel w st'.next).2 (unravel w st'.next).1 = true) ∧
      (more = false → BaseD h w bnd minSize st' (h * w)) := by
  classical
  set seed := unravel w st.next with hseed
  have hseedm : InMap h w seed := unravel_inMap hn
  have hsl := hb.left seed
  rw [hl] at hsl
  have hsl' : bnd seed.2 seed.1 = false ∧ seed ∉ st.used := by
    have := hsl.symm
    simpa using this
  obtain ⟨hsidx, hsused⟩ := hsl'
  have hfcm : ∀ q, FreeConn h w (fun r => bnd r.2 r.1 = false) seed q → InMap h w q ∧ bnd q.2 q.1 = false := fun q hq =>
    freeConn_inMap (free := fun r => bnd r.2 r.1 = false) hseedm hsidx hq
  have hsym : ∀ q, FreeConn h w (fun r => bnd r.2 r.1 = false) seed q → FreeConn h w (fun r => bnd r.2 r.1 = false) q seed := fun q hq =>
    freeConn_symm (free := fun r => bnd r.2 r.1 = false) hseedm hsidx hq
  -- pixels connected to the seed are all unassigned
  have hfreec : ∀ q, FreeConn h w (fun r => bnd r.2 r.1 = false) seed q → q ∉ st.used := fun q hq hqu =>
    hsused (hb.closed q hqu (hfcm q hq).2 seed (hsym q hq))
  let cfg : FillCfg :=
    { h, w, bx := fun _ _ => false, by' := fun _ _ => false, index := st.gidx, off := st.off,
      cap := h * w - st.off }
  have hg0 : ∀ p : Px, st.grains p.2 p.1 = 0 → bnd p.2 p.1 = false ∧ p ∉ st.used := by
    intro p hp
    have hpu : p ∉ st.used := by
      intro hu
      rcases hb.some' p hu with h1 | h1 <;> omega
    refine ⟨?_, hpu⟩
    have := hb.zero p hpu
    rw [hp] at this
    cases hbp : bnd p.2 p.1 with
    | false => rfl
    | true => rw [hbp] at this; simp at this
  have hg1 : ∀ p : Px, st.grains p.2 p.1 = -1 ↔ bnd p.2 p.1 = true ∧ p ∉ st.used := by
    intro p
    constructor
    · intro hp
      have hpu : p ∉ st.used := by
        intro hu
        rcases hb.some' p hu with h1 | h1 <;> omega
      refine ⟨?_, hpu⟩
      have := hb.zero p hpu
      rw [hp] at this
      cases hbp : bnd p.2 p.1 with
      | true => rfl
      | false => rw [hbp] at this; simp at this
    · rintro ⟨h1, h2⟩
      rw [hb.zero p h2, h1]; rfl
  have hfree0 : ∀ p : Px, bnd p.2 p.1 = false → p ∉ st.used → st.grains p.2 p.1 = 0 := by
    intro p h1 h2
    rw [hb.zero p h2, h1]; rfl
  have hreach : ∀ q, FreeConn h w (fun r => st.grains r.2 r.1 = 0) seed q ↔ FreeConn h w (fun r => bnd r.2 r.1 = false) seed q := by
    intro q
    constructor
    · intro hr
      induction hr with
      | refl => exact Relation.ReflTransGen.refl
      | tail _ hs ih => exact ih.tail ⟨hs.1, hs.2.1, (hg0 _ hs.2.2).1⟩
    · intro hc
      induction hc with
      | refl => exact Relation.ReflTransGen.refl
      | tail hp hs ih =>
        refine ih.tail ⟨hs.1, hs.2.1, ?_⟩
        exact hfree0 _ hs.2.2 (hfreec _ (hp.tail hs))
  -- the boundary pixels taken are those belonging to the region of the seed
  have htarget : ∀ q, DTarget h w st.grains seed q ↔ InRegion h w bnd seed q := by
    intro q
    unfold DTarget InRegion
    constructor
    · rintro (⟨-, h1⟩ | ⟨h1, h2, r, h3, h4⟩)
      · exact Or.inl ((hreach q).1 h1)
      · right
        obtain ⟨h5, h6⟩ := (hg1 q).1 h2
        refine ⟨h1, h5, ⟨r, (hreach r).1 h3, h4⟩, ?_⟩
        intro r' hr' hrf hrb t ht
        refine ⟨seed, Relation.ReflTransGen.refl, ?_⟩
        have hr'u : r' ∉ st.used := fun hu => h6 (hb.taken r' hu hrf q h1 h5 hrb)
        have htm := freeConn_inMap (free := fun r => bnd r.2 r.1 = false) hr' hrf ht
        have htu : t ∉ st.used := fun hu => hr'u (hb.closed t hu htm.2 r'
          (freeConn_symm (free := fun r => bnd r.2 r.1 = false) hr' hrf ht))
        have : ¬ raster w t < st.next := fun hlt => htu (hb.done t htm.1 htm.2 hlt)
        rw [hseed, raster_unravel]
        omega
    · rintro (h1 | ⟨h1, h2, ⟨r, h3, h4⟩, h5⟩)
      · exact Or.inl ⟨hfree0 q (hfcm q h1).2 (hfreec q h1), (hreach q).2 h1⟩
      · right
        refine ⟨h1, (hg1 q).2 ⟨h2, ?_⟩, r, (hreach r).2 h3, h4⟩
        intro hu
        obtain ⟨r', hr', hrf, hrb, t, ht, htn⟩ := hb.first q hu h2
        obtain ⟨s, hs, hst⟩ := h5 r' (hb.inmap r' hr') hrf hrb t ht
        exact hfreec s hs (hb.done s (hfcm s hs).1 (hfcm s hs).2 (by omega))
  have hregu : ∀ q, InRegion h w bnd seed q → q ∉ st.used := by
    intro q hq hu
    rcases (htarget q).2 hq with h1 | h1
    · exact (hg0 q h1.1).2 hu
    · exact ((hg1 q).1 h1.2.1).2 hu
  have hregm : ∀ q, InRegion h w bnd seed q → InMap h w q := by
    intro q hq
    rcases hq with h1 | h1
    · exact (hfcm q h1).1
    · exact h1.1
  have hroom : RoomD cfg seed st.grains := by
    intro L hLn hL
    have hnd : (L ++ st.used).Nodup := by
      refine List.Nodup.append hLn hb.nodup ?_
      intro a ha hau
      exact hregu a ((htarget a).1 (hL a ha).2) hau
    have := nodup_length_le (h := h) (w := w) hnd (by
      intro p hp
      rcases List.mem_append.1 hp with hp | hp
      · exact (hL p hp).1
      · exact hb.inmap p hp)
    simp only [List.length_append, FG.used, List.length_map, List.length_range] at this
    show L.length ≤ h * w - st.off
    omega
  have hgpos : 0 < st.gidx := by rw [hb.gidx]; omega
  obtain ⟨f, hf, hcore, hpts⟩ := floodFillDic_ok (c := cfg) (l0 := st.left) (b0 := st.buf)
    hw hh hgpos hseedm (hfree0 seed hsidx hsused) hroom
  have hpts' : ∀ p, p ∈ f.points cfg ↔ InRegion h w bnd seed p := fun p =>
    (hpts p).trans (htarget p)
  set v : View := { off := st.off, len := f.n } with hv
  have hread : v.read f.buf = f.points cfg := rfl
  set st1 : FG := { st with grains := f.grains, left := f.left, buf := f.buf, off := st.off + f.n }
    with hst1
  set st2 : FG := if v.len < minSize then
      { st1 with grains := paint (-2) (v.read st1.buf) st1.grains }
    else { st1 with list := st1.list ++ [v], gidx := st1.gidx + 1 } with hst2
  have hbuf2 : st2.buf = f.buf := by rw [hst2]; split_ifs <;> rfl
  have hoff2 : st2.off = st.off + f.n := by rw [hst2]; split_ifs <;> rfl
  have hleft2 : st2.left = f.left := by rw [hst2]; split_ifs <;> rfl
  have hnext2 : st2.next = st.next := by rw [hst2]; split_ifs <;> rfl
  have hbuff : ∀ i, i < st.off → f.buf i = st.buf i := fun i hi => hcore.frame i (Or.inl hi)
  have hused2 : st2.used = st.used ++ f.points cfg := by
    unfold FG.used
    rw [hbuf2, hoff2, read_append, hread]
    congr 1
    apply List.map_congr_left
    intro i hi
    exact hbuff i (by simpa using hi)
  have hdisj : ∀ p ∈ f.points cfg, p ∉ st.used := fun p hp => hregu p ((hpts' p).1 hp)
  have hgf : ∀ p : Px, f.grains p.2 p.1 = if p ∈ f.points cfg then st.gidx else st.grains p.2 p.1 :=
    fun p => hcore.grains p.2 p.1
  have hg2 : ∀ p : Px, st2.grains p.2 p.1 =
      if p ∈ f.points cfg then (if v.len < minSize then -2 else st.gidx)
      else st.grains p.2 p.1 := by
    intro p
    rw [hst2]
    split_ifs with h1 h2 h2
    · simp only [paint_apply]
      rw [if_pos (show (p.1, p.2) ∈ v.read st1.buf from h2)]
    · simp only [paint_apply]
      rw [if_neg (show ¬ (p.1, p.2) ∈ v.read st1.buf from h2)]
      show f.grains p.2 p.1 = _
      rw [hgf, if_neg h2]
    · show f.grains p.2 p.1 = _
      rw [hgf, if_pos h2]
    · show f.grains p.2 p.1 = _
      rw [hgf, if_neg h2]
  have hlist2 : st2.list = if v.len < minSize then st.list else st.list ++ [v] := by
    rw [hst2]; split_ifs <;> rfl
  have hgidx2 : st2.gidx = if v.len < minSize then st.gidx else st.gidx + 1 := by
    rw [hst2]; split_ifs <;> rfl
  have hread_old : ∀ u : View, u.off + u.len ≤ st.off → u.read st2.buf = u.read st.buf := by
    intro u hu; rw [hbuf2]; exact read_congr hu hbuff
  have hpts_mem : ∀ p, p ∈ f.points cfg → InMap h w p := fun p hp => hcore.inmap p hp
  have hseedpt : seed ∈ f.points cfg := (hpts' seed).2 (Or.inl Relation.ReflTransGen.refl)
  have hfreept : ∀ p ∈ f.points cfg, bnd p.2 p.1 = false → FreeConn h w (fun r => bnd r.2 r.1 = false) seed p := by
    intro p hp hpf
    rcases (hpts' p).1 hp with h1 | h1
    · exact h1
    · rw [h1.2.1] at hpf; cases hpf
  have hcompf : ∀ p ∈ f.points cfg, bnd p.2 p.1 = false → ∀ q, q ∈ f.points cfg ↔
      InRegion h w bnd p q := by
    intro p hp hpf q
    rw [hpts' q]
    exact inRegion_congr hseedm hsidx (hfreept p hp hpf)
  have hseedmin : ∀ q ∈ f.points cfg, bnd q.2 q.1 = false → (st.next : Int) ≤ raster w q := by
    intro q hq hqi
    by_contra hlt
    exact hdisj q hq (hb.done q (hpts_mem q hq) hqi (by omega))
  have hnv : f.n = v.len := rfl
  have hbase2 : BaseD h w bnd minSize st2 (st.next + 1) := by
    refine ⟨?_, ?_, ?_, ?_, ?_, ?_, ?_, ?_, ?_, ?_, ?_, ?_, ?_, ?_⟩
    · rw [hused2]
      exact List.Nodup.append hb.nodup hcore.nodup (fun a ha hb' => hdisj a hb' ha)
    · intro p hp
      rw [hused2] at hp
      rcases List.mem_append.1 hp with hp | hp
      · exact hb.inmap p hp
      · exact hpts_mem p hp
    · intro p hp hpf q hc
      rw [hused2] at hp ⊢
      rcases List.mem_append.1 hp with hp | hp
      · exact List.mem_append_left _ (hb.closed p hp hpf q hc)
      · exact List.mem_append_right _ ((hcompf p hp hpf q).2 (Or.inl hc))
    · intro r hr hrf q hq hqb hrb
      rw [hused2] at hr ⊢
      rcases List.mem_append.1 hr with hr | hr
      · exact List.mem_append_left _ (hb.taken r hr hrf q hq hqb hrb)
      · by_cases hqu : q ∈ st.used
        · exact List.mem_append_left _ hqu
        · apply List.mem_append_right
          rw [hpts]
          exact Or.inr ⟨hq, (hg1 q).2 ⟨hqb, hqu⟩, r, (hreach r).2 (hfreept r hr hrf), hrb⟩
    · intro q hq hqb
      rw [hused2] at hq
      rcases List.mem_append.1 hq with hq | hq
      · obtain ⟨r, h1, h2, h3, t, h4, h5⟩ := hb.first q hq hqb
        refine ⟨r, ?_, h2, h3, t, h4, by push_cast; omega⟩
        rw [hused2]; exact List.mem_append_left _ h1
      · rcases (hpts' q).1 hq with h1 | h1
        · rw [(hfcm q h1).2] at hqb; cases hqb
        · obtain ⟨-, -, ⟨r, h3, h4⟩, -⟩ := h1
          refine ⟨r, ?_, (hfcm r h3).2, h4, seed, hsym r h3, ?_⟩
          · rw [hused2]; exact List.mem_append_right _ ((hpts' r).2 (Or.inl h3))
          · rw [hseed, raster_unravel]; push_cast; omega
    · intro p hp
      rw [hused2, List.mem_append, not_or] at hp
      rw [hg2, if_neg hp.2]
      exact hb.zero p hp.1
    · intro p hp
      rw [hused2] at hp
      rw [hg2]
      by_cases hpf : p ∈ f.points cfg
      · rw [if_pos hpf]
        split_ifs
        · exact Or.inl rfl
        · exact Or.inr hgpos
      · rw [if_neg hpf]
        rcases List.mem_append.1 hp with hp | hp
        · exact hb.some' p hp
        · exact absurd hp hpf
    · intro p
      rw [hleft2]
      have := hcore.left p.2 p.1
      rw [this]
      by_cases hpf : (p.1, p.2) ∈ f.points cfg
      · rw [if_pos hpf]
        have : p ∈ st2.used := by rw [hused2]; exact List.mem_append_right _ hpf
        simp [this]
      · rw [if_neg hpf, hb.left]
        have : p ∈ st2.used ↔ p ∈ st.used := by
          rw [hused2, List.mem_append]
          exact ⟨fun h => h.resolve_right hpf, Or.inl⟩
        simp [this]
    · rw [hgidx2, hlist2, hb.gidx]
      split_ifs <;> simp
    · intro i u hu
      have hcase : (st.list[i]? = some u) ∨ (¬ v.len < minSize ∧ i = st.list.length ∧ u = v) := by
        rw [hlist2] at hu
        split_ifs at hu with h1
        · exact Or.inl hu
        · rw [List.getElem?_append] at hu
          split_ifs at hu with h2
          · exact Or.inl hu
          · right
            have h3 : i - st.list.length = 0 := by
              by_contra hne
              rw [List.getElem?_eq_none (by simp; omega)] at hu
              cases hu
            rw [h3] at hu
            simp at hu
            exact ⟨h1, by omega, hu.symm⟩
      rcases hcase with hu | ⟨h1, rfl, rfl⟩
      · have k := hb.kept i u hu
        have hr := hread_old u k.bound
        have hilt : i < st.list.length := (List.getElem?_eq_some_iff.1 hu).1
        refine ⟨?_, ?_, ?_, k.size, ?_, ?_⟩
        · rw [hoff2]; have := k.bound; omega
        · rw [hr]; exact k.nodup
        · intro p
          rw [hr, k.label, hg2]
          by_cases hpf : p ∈ f.points cfg
          · rw [if_pos hpf, hb.zero p (hdisj p hpf)]
            constructor
            · intro h0; split_ifs at h0 <;> omega
            · intro h0
              exfalso
              split_ifs at h0
              · omega
              · rw [hb.gidx] at h0; omega
          · rw [if_neg hpf]
        · rw [hr]; exact k.comp
        · rw [hr]
          obtain ⟨p, h1, h2, h3, h4⟩ := k.seed
          exact ⟨p, h1, h2, by push_cast; omega, h4⟩
      · have hr : v.read st2.buf = f.points cfg := by rw [hbuf2]; exact hread
        refine ⟨?_, ?_, ?_, by omega, ?_, ?_⟩
        · rw [hoff2]
        · rw [hr]; exact hcore.nodup
        · intro p
          rw [hr, hg2, if_neg h1]
          by_cases hpf : p ∈ f.points cfg
          · rw [if_pos hpf, hb.gidx]; simp [hpf]
          · rw [if_neg hpf]
            have := hb.top p
            constructor
            · intro h0; exact absurd h0 hpf
            · intro h0; omega
        · rw [hr]; exact hcompf
        · rw [hr]
          refine ⟨seed, hseedpt, hsidx, ?_, ?_⟩
          · rw [hseed, raster_unravel]; push_cast; omega
          · intro q hq hqi
            rw [hseed, raster_unravel]
            exact hseedmin q hq hqi
    · intro i j u u' hij hu hu'
      rw [hlist2] at hu hu'
      have hold : ∀ (i j : Nat) (u u' : View), i < j → st.list[i]? = some u → st.list[j]? = some u' →
          ∃ p ∈ u.read st2.buf, bnd p.2 p.1 = false ∧
            ∀ q ∈ u'.read st2.buf, bnd q.2 q.1 = false → raster w p < raster w q := by
        intro i j u u' hij hu hu'
        rw [hread_old u (hb.kept i u hu).bound, hread_old u' (hb.kept j u' hu').bound]
        exact hb.order i j u u' hij hu hu'
      split_ifs at hu hu' with h1
      · exact hold i j u u' hij hu hu'
      · have hj : j < (st.list ++ [v]).length := (List.getElem?_eq_some_iff.1 hu').1
        simp at hj
        have hi : i < st.list.length := by omega
        rw [List.getElem?_append_left hi] at hu
        by_cases hj' : j < st.list.length
        · rw [List.getElem?_append_left hj'] at hu'
          exact hold i j u u' hij hu hu'
        · have hje : j = st.list.length := by omega
          subst hje
          simp at hu'
          subst hu'
          obtain ⟨p, hp1, hp2, hp3, -⟩ := (hb.kept i u hu).seed
          refine ⟨p, ?_, hp2, ?_⟩
          · rw [hread_old u (hb.kept i u hu).bound]; exact hp1
          · intro q hq hqi
            rw [hbuf2] at hq
            have := hseedmin q hq hqi
            omega
    · intro p hp
      have hp0 := hp
      rw [hg2] at hp
      by_cases hpf : p ∈ f.points cfg
      · rw [if_pos hpf] at hp
        split_ifs at hp with h1
        · refine ⟨seed, f.points cfg, hseedm, hsidx, hcore.nodup, hpts', ?_, hpf, ?_⟩
          · rw [points_length]; exact h1
          · intro q hq
            rw [hg2, if_pos hq, if_pos h1]
        · exfalso; rw [hb.gidx] at hp; omega
      · rw [if_neg hpf] at hp
        obtain ⟨s, L, h1, h2, h3, h4, h5, h6, h7⟩ := hb.small p hp
        refine ⟨s, L, h1, h2, h3, h4, h5, h6, ?_⟩
        intro q hq
        have hqu : q ∈ st.used := by
          by_contra hqu
          have := hb.zero q hqu
          rw [h7 q hq] at this
          split_ifs at this <;> omega
        rw [hg2, if_neg (fun hqf => hdisj q hqf hqu)]
        exact h7 q hq
    · intro p
      rw [hg2, hlist2]
      have := hb.top p
      split_ifs
      · omega
      · simp [hb.gidx]
      · exact this
      · simp; omega
    · intro p hp hpi hr
      rw [hused2]
      by_cases hlt : raster w p < st.next
      · exact List.mem_append_left _ (hb.done p hp hpi hlt)
      · apply List.mem_append_right
        obtain ⟨i, hi1, hi2, hi3⟩ := exists_unravel hp
        have : i = st.next := by push_cast at hr; omega
        subst this
        rw [← hi2]; exact hseedpt
  have hadvance : ∀ N : Nat, st.next + 1 ≤ N → N ≤ h * w →
      (∀ i, st.next + 1 ≤ i → i < N → st2.left (unravel w i).2 (unravel w i).1 = false) →
      BaseD h w bnd minSize st2 N := by
    intro N hN1 hN2 hfalse
    refine { hbase2 with kept := ?_, done := ?_, first := ?_ }
    · intro q hq hqb
      obtain ⟨r, h1, h2, h3, t, h4, h5⟩ := hbase2.first q hq hqb
      exact ⟨r, h1, h2, h3, t, h4, by omega⟩
    · intro i u hu
      have k := hbase2.kept i u hu
      obtain ⟨p, h1, h2, h3, h4⟩ := k.seed
      exact { k with seed := ⟨p, h1, h2, by omega, h4⟩ }
    · intro p hp hpi hr
      by_cases hlt : raster w p < (st.next + 1 : Nat)
      · exact hbase2.done p hp hpi hlt
      · obtain ⟨i, hi1, hi2, hi3⟩ := exists_unravel hp
        have := hfalse i (by omega) (by omega)
        rw [hi2, hbase2.left] at this
        simp [hpi] at this
        exact this
  have hstep : fgdStep h w minSize st =
      match findFrom h w st2.left (st2.next + 1) with
      | none => .ok (st2, false)
      | some k => .ok ({ st2 with next := st2.next + (k + 1) }, true) := by
    unfold fgdStep
    simp only [bind, Except.bind]
    rw [show floodFillDic ⟨h, w, fun _ _ => false, fun _ _ => false, st.gidx, st.off,
      h * w - st.off⟩ (unravel w st.next) st.grains st.left st.buf = .ok f from hf]
    rfl
  rw [hstep]
  cases hfind : findFrom h w st2.left (st2.next + 1) with
  | none =>
    refine ⟨st2, false, rfl, by simp, fun _ => ?_⟩
    refine hadvance (h * w) (by omega) le_rfl ?_
    intro i h1 h2
    exact findFrom_none hfind (by rw [hnext2]; exact h1) h2
  | some k =>
    obtain ⟨h1, h2, h3⟩ := findFrom_some hfind
    refine ⟨_, true, rfl, fun _ => ?_, by simp⟩
    have e : st2.next + (k + 1) = st2.next + 1 + k := by omega
    refine ⟨?_, ?_, ?_, ?_⟩
    · have hb3 := hadvance (st2.next + 1 + k) (by omega) (by omega) (by
        intro i hi1 hi2
        exact h3 i (by omega) hi2)
      simp only [e]
      exact ⟨hb3.nodup, hb3.inmap, hb3.closed, hb3.taken, hb3.first, hb3.zero, hb3.some',
        hb3.left, hb3.gidx,
        fun i u hu => by
          have k := hb3.kept i u hu
          exact ⟨k.bound, k.nodup, k.label, k.size, k.comp, k.seed⟩,
        hb3.order, hb3.small, hb3.top, hb3.done⟩
    · simp only; omega
    · simp only; omega
    · simp only [e]; exact h2

theorem fgdLoop_ok (hw : 2 ≤ w) (hh : 2 ≤ h) :
    ∀ (k : Nat) (st : FG), BaseD h w bnd minSize st st.next → st.next < h * w →
      st.left (unravel w st.next).2 (unravel w st.next).1 = true →
      h * w ≤ k + st.next →
      ∃ st', fgdLoop h w minSize k st = .ok st' ∧ BaseD h w bnd minSize st' (h * w) := by
  intro k
  induction k with
  | zero => intro st _ h1 _ h2; omega
  | succ k ih =>
    intro st hb hn hl hk
    obtain ⟨st', more, hs, hm, hf⟩ := baseD_step hw hh hb hn hl
    cases more with
    | false => exact ⟨st', by simp [fgdLoop, hs, bind, Except.bind], hf rfl⟩
    | true =>
      obtain ⟨hb', hlt, hn', hl'⟩ := hm rfl
      obtain ⟨st'', h1, h2⟩ := ih st' hb' hn' hl' (by omega)
      refine ⟨st'', ?_, h2⟩
      simp only [fgdLoop, hs, bind, Except.bind, if_true]
      exact h1

end

/-- The state before the loop satisfies the invariant. -/
theorem baseD_start (h w : Nat) (bnd : Img Bool) (minSize N next : Nat)
    (hN : ∀ i, i < N → i < h * w → bnd (unravel w i).2 (unravel w i).1 = true) :
    BaseD h w bnd minSize
      { grains := fun y x => if bnd y x then -1 else 0,
        left := fun y x => decide ((if bnd y x then (-1 : Int) else 0) = 0),
        buf := fun _ => (0, 0), off := 0, list := [], gidx := 1, next := next } N := by
  refine ⟨?_, ?_, ?_, ?_, ?_, ?_, ?_, ?_, ?_, ?_, ?_, ?_, ?_, ?_⟩ <;> simp [FG.used]
  · intro a b
    cases bnd b a <;> simp
  · intro a b; split_ifs <;> omega
  · intro a b hp hpi
    by_contra hr
    obtain ⟨i, h1, h2, h3⟩ := exists_unravel hp
    have := hN i (by omega) h1
    rw [h2, hpi] at this
    cases this

theorem findGrainsDic_run {h w : Nat} (hw : 2 ≤ w) (hh : 2 ≤ h) (bnd : Img Bool)
    (minSize : Nat) :
    ((∀ p, InMap h w p → bnd p.2 p.1 = true) ∧
      findGrainsDic h w bnd minSize = .error .valueError) ∨
    (∃ st, (∃ p, InMap h w p ∧ bnd p.2 p.1 = false) ∧ BaseD h w bnd minSize st (h * w) ∧
      findGrainsDic h w bnd minSize =
        match st.list with
        | [] => .error .indexError
        | _ :: _ => .ok { grains := st.grains, buf := st.buf, list := st.list }) := by
  unfold findGrainsDic
  simp only [bind, Except.bind]
  cases hf : findFrom h w (fun y x => decide ((if bnd y x then (-1 : Int) else 0) = 0)) 0 with
  | none =>
    left
    refine ⟨?_, rfl⟩
    intro p hp
    obtain ⟨i, h1, h2, -⟩ := exists_unravel hp
    have := findFrom_none hf (Nat.zero_le i) h1
    rw [h2] at this
    simpa using this
  | some next =>
    right
    obtain ⟨h1, h2, h3⟩ := findFrom_some hf
    simp only [Nat.zero_add] at h1 h2 h3
    have hb := baseD_start h w bnd minSize next next (by
      intro i hi _
      have := h3 i (Nat.zero_le _) hi
      simpa using this)
    obtain ⟨st', hl, hb'⟩ := fgdLoop_ok hw hh (h * w) _ hb h1 h2 (by omega)
    refine ⟨st', ⟨unravel w next, unravel_inMap h1, by simpa using h2⟩, hb', ?_⟩
    simp only [hl]
    cases hlst : st'.list with
    | nil => simp
    | cons a l => simp

theorem findGrainsDic_base {h w : Nat} (hw : 2 ≤ w) (hh : 2 ≤ h) {bnd : Img Bool}
    {minSize : Nat} {r : DicResult} (hr : findGrainsDic h w bnd minSize = .ok r) :
    ∃ st, BaseD h w bnd minSize st (h * w) ∧
      r.grains = st.grains ∧ r.buf = st.buf ∧ r.list = st.list ∧ st.list ≠ [] := by
  rcases findGrainsDic_run hw hh bnd minSize with ⟨-, he⟩ | ⟨st, -, hb, he⟩
  · rw [he] at hr; cases hr
  · rw [he] at hr
    refine ⟨st, hb, ?_⟩
    cases hL : st.list with
    | nil => rw [hL] at hr; cases hr
    | cons a l =>
      rw [hL] at hr
      simp only [Except.ok.injEq] at hr
      subst hr
      exact ⟨rfl, rfl, rfl, by simp⟩

section
variable {h w : Nat} {bnd : Img Bool} {minSize : Nat}

theorem BaseD.kept_of_pos {st : FG} {N : Nat} (hb : BaseD h w bnd minSize st N) {p : Px}
    (hp : 1 ≤ st.grains p.2 p.1) :
    ∃ i v, st.list[i]? = some v ∧ p ∈ v.read st.buf ∧ KeptD h w bnd minSize st N i v := by
  have ht := hb.top p
  have hi : (st.grains p.2 p.1 - 1).toNat < st.list.length := by omega
  have hv := List.getElem?_eq_getElem hi
  have k := hb.kept _ _ hv
  refine ⟨_, _, hv, ?_, k⟩
  rw [k.label]
  omega

theorem KeptD.in_used {st : FG} {N i : Nat} {v : View} (hb : BaseD h w bnd minSize st N)
    (k : KeptD h w bnd minSize st N i v) {p : Px} (hp : p ∈ v.read st.buf) : p ∈ st.used := by
  by_contra hu
  have := hb.zero p hu
  rw [(k.label p).1 hp] at this
  split_ifs at this <;> omega

theorem dicRegionSize_eq {p : Px} (hp : InMap h w p) (hf : bnd p.2 p.1 = false) {L : List Px}
    (hn : L.Nodup) (hL : ∀ q, q ∈ L ↔ InRegion h w bnd p q) :
    dicRegionSize h w bnd p = L.length := by
  classical
  unfold dicRegionSize
  rw [← List.toFinset_card_of_nodup hn]
  congr 1
  ext q
  simp only [Finset.mem_filter, List.mem_toFinset, mem_mapPixels, hL]
  refine ⟨fun h => h.2, fun h => ⟨?_, h⟩⟩
  rcases h with h | h
  · exact (freeConn_inMap (free := fun r => bnd r.2 r.1 = false) hp hf h).1
  · exact h.1

/-- Everything in the region of a free pixel has its label. -/
theorem BaseD.label_region {st : FG} (hb : BaseD h w bnd minSize st (h * w)) {p q : Px}
    (hp : InMap h w p) (hf : bnd p.2 p.1 = false) (hc : InRegion h w bnd p q) :
    st.grains q.2 q.1 = st.grains p.2 p.1 := by
  have hu := hb.done p hp hf (raster_lt hp)
  rcases hb.some' p hu with h1 | h1
  · obtain ⟨s, L, h2, h3, h4, h5, h6, h7, h8⟩ := hb.small p h1
    rw [h1]
    apply h8
    rw [h5]
    have hsp : FreeConn h w (fun r => bnd r.2 r.1 = false) s p := by
      rcases (h5 p).1 h7 with h | h
      · exact h
      · rw [h.2.1] at hf; cases hf
    exact (inRegion_congr h2 h3 hsp).2 hc
  · obtain ⟨i, v, hv, hpv, k⟩ := hb.kept_of_pos (p := p) h1
    rw [(k.label p).1 hpv, (k.label q).1 ((k.comp p hpv hf q).2 hc)]

theorem BaseD.small_iff {st : FG} (hb : BaseD h w bnd minSize st (h * w)) {p : Px}
    (hp : InMap h w p) (hf : bnd p.2 p.1 = false) :
    st.grains p.2 p.1 = -2 ↔ dicRegionSize h w bnd p < minSize := by
  constructor
  · intro h1
    obtain ⟨s, L, h2, h3, h4, h5, h6, h7, h8⟩ := hb.small p h1
    have hsp : FreeConn h w (fun r => bnd r.2 r.1 = false) s p := by
      rcases (h5 p).1 h7 with h | h
      · exact h
      · rw [h.2.1] at hf; cases hf
    rw [dicRegionSize_eq hp hf h4 (fun q => (h5 q).trans (inRegion_congr h2 h3 hsp))]
    exact h6
  · intro hlt
    have hu := hb.done p hp hf (raster_lt hp)
    rcases hb.some' p hu with h1 | h1
    · exact h1
    · obtain ⟨i, v, hv, hpv, k⟩ := hb.kept_of_pos (p := p) h1
      rw [dicRegionSize_eq hp hf k.nodup (k.comp p hpv hf)] at hlt
      have := k.size
      simp [View.read] at hlt
      omega

/-- Every assigned boundary pixel belongs to the region of some free pixel. -/
theorem BaseD.owner {st : FG} (hb : BaseD h w bnd minSize st (h * w)) {q : Px}
    (hq : q ∈ st.used) (hqb : bnd q.2 q.1 = true) :
    ∃ p, InMap h w p ∧ bnd p.2 p.1 = false ∧ Owns h w bnd p q := by
  have key : ∀ p, bnd p.2 p.1 = false → InRegion h w bnd p q → Owns h w bnd p q := by
    intro p hpf hr
    rcases hr with h1 | h1
    · exfalso
      cases h1 with
      | refl => rw [hpf] at hqb; cases hqb
      | tail _ hs => rw [hs.2.2] at hqb; cases hqb
    · exact h1
  rcases hb.some' q hq with h1 | h1
  · obtain ⟨s, L, h2, h3, h4, h5, h6, h7, h8⟩ := hb.small q h1
    exact ⟨s, h2, h3, key s h3 ((h5 q).1 h7)⟩
  · obtain ⟨i, v, hv, hqv, k⟩ := hb.kept_of_pos (p := q) h1
    obtain ⟨s, hs, hsf, -⟩ := k.seed
    exact ⟨s, hb.inmap s (k.in_used hb hs), hsf, key s hsf ((k.comp s hs hsf q).1 hqv)⟩

end

end DefDAP
