import Mathlib.Data.List.Range
import Mathlib.Tactic.Ring
import Verif.Proofs.FloodFill
import Verif.Model.FindGrains

/-! The grain finding loop. -/

namespace DefDAP
open Spec

theorem Spec.Conn.symm {h w : Nat} {bx by' : Img Bool} {p q : Px}
    (hc : Conn h w bx by' p q) : Conn h w bx by' q p := by
  induction hc with
  | refl => exact Relation.ReflTransGen.refl
  | tail _ hs ih => exact Relation.ReflTransGen.head hs.symm ih

theorem Spec.Conn.trans {h w : Nat} {bx by' : Img Bool} {p q r : Px}
    (h1 : Conn h w bx by' p q) (h2 : Conn h w bx by' q r) : Conn h w bx by' p r :=
  Relation.ReflTransGen.trans h1 h2

theorem Spec.Conn.inMap {h w : Nat} {bx by' : Img Bool} {p q : Px} (hp : InMap h w p)
    (hc : Conn h w bx by' p q) : InMap h w q := by
  induction hc with
  | refl => exact hp
  | tail _ hs _ => exact (openStep_iff.1 hs).2.1

theorem paint_apply (v : Int) (pts : List Px) (g : Img Int) (y x : Int) :
    paint v pts g y x = if (x, y) ∈ pts then v else g y x := by
  induction pts generalizing g with
  | nil => simp [paint]
  | cons p pts ih =>
    have : paint v (p :: pts) g = paint v pts (wr g p.2 p.1 v) := rfl
    rw [this, ih]
    by_cases h1 : (x, y) ∈ pts
    · simp [h1]
    · simp only [h1, if_false, wr, List.mem_cons, or_false]
      by_cases h2 : y = p.2 ∧ x = p.1
      · rw [if_pos h2, if_pos (by rw [h2.1, h2.2])]
      · rw [if_neg h2, if_neg]
        intro h3; rw [← h3] at h2; exact h2 ⟨rfl, rfl⟩

theorem unravel_inMap {h w i : Nat} (hi : i < h * w) : InMap h w (unravel w i) := by
  have hw : 0 < w := by
    rcases Nat.eq_zero_or_pos w with h0 | h0
    · subst h0; simp at hi
    · exact h0
  refine ⟨Int.natCast_nonneg _, ?_, Int.natCast_nonneg _, ?_⟩
  · have := Nat.mod_lt i hw
    simp only [unravel]; exact_mod_cast this
  · have : i / w < h := (Nat.div_lt_iff_lt_mul hw).2 hi
    simp only [unravel]; exact_mod_cast this

theorem raster_unravel (w i : Nat) : raster w (unravel w i) = i := by
  have := Nat.div_add_mod i w
  simp only [raster, unravel]
  have h2 : ((i / w * w + i % w : Nat) : Int) = i := by
    rw [Nat.mul_comm (i / w) w, this]
  rw [← h2]; push_cast; ring

theorem exists_unravel {h w : Nat} {p : Px} (hp : InMap h w p) :
    ∃ i, i < h * w ∧ unravel w i = p ∧ raster w p = (i : Int) := by
  obtain ⟨x, y⟩ := p
  obtain ⟨h1, h2, h3, h4⟩ := hp
  simp only at h1 h2 h3 h4
  obtain ⟨a, rfl⟩ := Int.eq_ofNat_of_zero_le h1
  obtain ⟨b, rfl⟩ := Int.eq_ofNat_of_zero_le h3
  have ha : a < w := by exact_mod_cast h2
  have hb : b < h := by exact_mod_cast h4
  have hw : 0 < w := by omega
  refine ⟨b * w + a, ?_, ?_, ?_⟩
  · calc b * w + a < b * w + w := by omega
      _ = (b + 1) * w := by ring
      _ ≤ h * w := Nat.mul_le_mul_right _ hb
  · simp only [unravel]
    have e1 : (b * w + a) % w = a := by
      rw [Nat.mul_comm, Nat.mul_add_mod, Nat.mod_eq_of_lt ha]
    have e2 : (b * w + a) / w = b := by
      rw [Nat.mul_comm, Nat.mul_add_div hw, Nat.div_eq_of_lt ha, Nat.add_zero]
    rw [e1, e2]
  · simp only [raster]; push_cast; ring

theorem findFrom_none {h w : Nat} {im : Img Bool} {s : Nat} (hf : findFrom h w im s = none)
    {i : Nat} (h1 : s ≤ i) (h2 : i < h * w) : im (unravel w i).2 (unravel w i).1 = false := by
  unfold findFrom at hf
  rw [List.find?_eq_none] at hf
  have := hf (i - s) (by simp; omega)
  have e : s + (i - s) = i := by omega
  rw [e] at this
  simpa using this

theorem findFrom_some {h w : Nat} {im : Img Bool} {s k : Nat} (hf : findFrom h w im s = some k) :
    s + k < h * w ∧ im (unravel w (s + k)).2 (unravel w (s + k)).1 = true ∧
      ∀ i, s ≤ i → i < s + k → im (unravel w i).2 (unravel w i).1 = false := by
  unfold findFrom at hf
  rw [List.find?_eq_some_iff_getElem] at hf
  obtain ⟨h1, i, hi, h2, h3⟩ := hf
  simp only [List.length_range] at hi
  simp only [List.getElem_range] at h2 h3
  subst h2
  refine ⟨by omega, h1, ?_⟩
  intro j hj1 hj2
  have := h3 (j - s) (by omega)
  have e : s + (j - s) = j := by omega
  rw [e] at this
  simpa using this

/-- The pixels assigned so far: the part of the buffer already used. -/
def FG.used (st : FG) : List Px := (List.range st.off).map st.buf

/-- Facts about a kept view. -/
structure Kept (h w : Nat) (bx by' : Img Bool) (idx : Px → Prop) (minSize : Nat)
    (st : FG) (N : Nat) (i : Nat) (v : View) : Prop where
  bound : v.off + v.len ≤ st.off
  nodup : (v.read st.buf).Nodup
  label : ∀ p : Px, p ∈ v.read st.buf ↔ st.grains p.2 p.1 = (i : Int) + 1
  size : minSize ≤ v.len
  comp : ∀ p ∈ v.read st.buf, ∀ q, q ∈ v.read st.buf ↔ Conn h w bx by' p q
  seed : ∃ p ∈ v.read st.buf, idx p ∧ raster w p < N ∧
    ∀ q ∈ v.read st.buf, idx q → raster w p ≤ raster w q

/-- The loop invariant: everything indexed before raster position `N` has been dealt with. -/
structure Base (h w : Nat) (bx by' : Img Bool) (idx : Px → Prop) [DecidablePred idx]
    (minSize : Nat) (st : FG) (N : Nat) : Prop where
  nodup : st.used.Nodup
  inmap : ∀ p ∈ st.used, InMap h w p
  closed : ∀ p ∈ st.used, ∀ q, Conn h w bx by' p q → q ∈ st.used
  zero : ∀ p : Px, p ∉ st.used → st.grains p.2 p.1 = 0
  some' : ∀ p : Px, p ∈ st.used → st.grains p.2 p.1 = -2 ∨ 0 < st.grains p.2 p.1
  left : ∀ p : Px, st.left p.2 p.1 = (decide (idx p) && decide (p ∉ st.used))
  gidx : st.gidx = st.list.length + 1
  kept : ∀ (i : Nat) (v : View), st.list[i]? = some v → Kept h w bx by' idx minSize st N i v
  order : ∀ (i j : Nat) (v u : View), i < j → st.list[i]? = some v → st.list[j]? = some u →
    ∃ p ∈ v.read st.buf, idx p ∧ ∀ q ∈ u.read st.buf, idx q → raster w p < raster w q
  small : ∀ p : Px, st.grains p.2 p.1 = -2 →
    ∃ L : List Px, L.Nodup ∧ (∀ q, q ∈ L ↔ Conn h w bx by' p q) ∧ L.length < minSize ∧
      ∃ q ∈ L, idx q
  smallc : ∀ p q : Px, st.grains p.2 p.1 = -2 → Conn h w bx by' p q → st.grains q.2 q.1 = -2
  top : ∀ p : Px, st.grains p.2 p.1 ≤ st.list.length
  done : ∀ p : Px, InMap h w p → idx p → raster w p < N → p ∈ st.used

theorem read_append (buf : Nat → Px) (off n : Nat) :
    (List.range (off + n)).map buf = (List.range off).map buf ++
      ((View.mk off n).read buf) := by
  rw [List.range_add, List.map_append, List.map_map]
  rfl

theorem read_congr {v : View} {b b' : Nat → Px} {off : Nat} (hv : v.off + v.len ≤ off)
    (hb : ∀ i, i < off → b' i = b i) : v.read b' = v.read b := by
  unfold View.read
  apply List.map_congr_left
  intro i hi
  have : i < v.len := by simpa using hi
  exact hb _ (by omega)

section
variable {h w : Nat} {bx by' : Img Bool} {idx : Px → Prop} [DecidablePred idx] {minSize : Nat}

theorem base_step {st : FG} (hw : 2 ≤ w) (hh : 2 ≤ h)
    (hb : Base h w bx by' idx minSize st st.next) (hn : st.next < h * w)
    (hl : st.left (unravel w st.next).2 (unravel w st.next).1 = true) :
    ∃ st' more, fgStep h w bx by' minSize st = .ok (st', more) ∧
      (more = true → Base h w bx by' idx minSize st' st'.next ∧ st.next < st'.next ∧
        st'.next < h * w ∧ st'.left (unravel w st'.next).2 (unravel w st'.next).1 = true) ∧
      (more = false → Base h w bx by' idx minSize st' (h * w)) := by
  classical
  set seed := unravel w st.next with hseed
  have hseedm : InMap h w seed := unravel_inMap hn
  have hsl := hb.left seed
  rw [hl] at hsl
  have hsl' : idx seed ∧ seed ∉ st.used := by
    have := hsl.symm
    simpa using this
  obtain ⟨hsidx, hsused⟩ := hsl'
  -- pixels connected to the seed are all unassigned
  have hfreec : ∀ q, Conn h w bx by' seed q → q ∉ st.used := fun q hq hqu =>
    hsused (hb.closed q hqu seed hq.symm)
  let cfg : FillCfg :=
    { h, w, bx, by', index := st.gidx, off := st.off, cap := h * w - st.off }
  have hreach : ∀ q, Reach h w bx by' (fun r => st.grains r.2 r.1 ≤ 0) seed q ↔
      Conn h w bx by' seed q := by
    intro q
    constructor
    · intro hr
      induction hr with
      | refl => exact Relation.ReflTransGen.refl
      | tail _ hs ih => exact ih.tail hs.1
    · intro hc
      induction hc with
      | refl => exact Relation.ReflTransGen.refl
      | tail hp hs ih =>
        refine ih.tail ⟨hs, ?_⟩
        have := hb.zero _ (hfreec _ (hp.tail hs))
        omega
  have hroom : Room cfg seed st.grains := by
    intro L hLn hL
    have hnd : (L ++ st.used).Nodup := by
      refine List.Nodup.append hLn hb.nodup ?_
      intro a ha hau
      exact hfreec a ((hreach a).1 (hL a ha).2) hau
    have := nodup_length_le (h := h) (w := w) hnd (by
      intro p hp
      rcases List.mem_append.1 hp with hp | hp
      · exact (hL p hp).1
      · exact hb.inmap p hp)
    simp only [List.length_append, FG.used, List.length_map, List.length_range] at this
    show L.length ≤ h * w - st.off
    omega
  have hgpos : 0 < st.gidx := by rw [hb.gidx]; omega
  obtain ⟨f, hf, hcore, hpts⟩ := floodFill_ok (c := cfg) (l0 := st.left) (b0 := st.buf)
    hw hh hgpos hseedm hroom
  have hpts' : ∀ p, p ∈ f.points cfg ↔ Conn h w bx by' seed p := fun p =>
    (hpts p).trans (hreach p)
  set v : View := { off := st.off, len := f.n } with hv
  have hread : v.read f.buf = f.points cfg := rfl
  -- state after the fill and the keep/discard decision
  set st1 : FG := { st with grains := f.grains, left := f.left, buf := f.buf, off := st.off + f.n }
    with hst1
  set st2 : FG := if v.len < minSize then
      { st1 with grains := paint (-2) (v.read st1.buf) st1.grains }
    else { st1 with list := st1.list ++ [v], gidx := st1.gidx + 1 } with hst2
  have hbuf2 : st2.buf = f.buf := by rw [hst2]; split_ifs <;> rfl
  have hoff2 : st2.off = st.off + f.n := by rw [hst2]; split_ifs <;> rfl
  have hleft2 : st2.left = f.left := by rw [hst2]; split_ifs <;> rfl
  have hnext2 : st2.next = st.next := by rw [hst2]; split_ifs <;> rfl
  have hbuff : ∀ i, i < st.off → f.buf i = st.buf i := fun i hi => hcore.frame i (Or.inl hi)
  have hused2 : st2.used = st.used ++ f.points cfg := by
    unfold FG.used
    rw [hbuf2, hoff2, read_append, hread]
    congr 1
    apply List.map_congr_left
    intro i hi
    exact hbuff i (by simpa using hi)
  have hdisj : ∀ p ∈ f.points cfg, p ∉ st.used := fun p hp => hfreec p ((hpts' p).1 hp)
  have hgf : ∀ p : Px, f.grains p.2 p.1 = if p ∈ f.points cfg then st.gidx else st.grains p.2 p.1 :=
    fun p => hcore.grains p.2 p.1
  -- the label map after the step
  have hg2 : ∀ p : Px, st2.grains p.2 p.1 =
      if p ∈ f.points cfg then (if v.len < minSize then -2 else st.gidx)
      else st.grains p.2 p.1 := by
    intro p
    rw [hst2]
    split_ifs with h1 h2 h2
    · simp only [paint_apply]
      rw [if_pos (show (p.1, p.2) ∈ v.read st1.buf from h2)]
    · simp only [paint_apply]
      rw [if_neg (show ¬ (p.1, p.2) ∈ v.read st1.buf from h2)]
      show f.grains p.2 p.1 = _
      rw [hgf, if_neg h2]
    · show f.grains p.2 p.1 = _
      rw [hgf, if_pos h2]
    · show f.grains p.2 p.1 = _
      rw [hgf, if_neg h2]
  have hlist2 : st2.list = if v.len < minSize then st.list else st.list ++ [v] := by
    rw [hst2]; split_ifs <;> rfl
  have hgidx2 : st2.gidx = if v.len < minSize then st.gidx else st.gidx + 1 := by
    rw [hst2]; split_ifs <;> rfl
  have hlen2 : st.list.length ≤ st2.list.length := by
    rw [hlist2]; split_ifs <;> simp
  have hread_old : ∀ u : View, u.off + u.len ≤ st.off → u.read st2.buf = u.read st.buf := by
    intro u hu; rw [hbuf2]; exact read_congr hu hbuff
  have hpts_mem : ∀ p, p ∈ f.points cfg → InMap h w p := fun p hp => hcore.inmap p hp
  have hseedpt : seed ∈ f.points cfg := (hpts' seed).2 Relation.ReflTransGen.refl
  have hcompf : ∀ p ∈ f.points cfg, ∀ q, q ∈ f.points cfg ↔ Conn h w bx by' p q := by
    intro p hp q
    rw [hpts' q]
    have := (hpts' p).1 hp
    exact ⟨fun hq => this.symm.trans hq, fun hq => this.trans hq⟩
  have hseedmin : ∀ q ∈ f.points cfg, idx q → (st.next : Int) ≤ raster w q := by
    intro q hq hqi
    by_contra hlt
    exact hdisj q hq (hb.done q (hpts_mem q hq) hqi (by omega))
  have hnv : f.n = v.len := rfl
  -- labels of old kept grains are untouched
  have hbase2 : Base h w bx by' idx minSize st2 (st.next + 1) := by
    refine ⟨?_, ?_, ?_, ?_, ?_, ?_, ?_, ?_, ?_, ?_, ?_, ?_, ?_⟩
    · rw [hused2]
      exact List.Nodup.append hb.nodup hcore.nodup (fun a ha hb' => hdisj a hb' ha)
    · intro p hp
      rw [hused2] at hp
      rcases List.mem_append.1 hp with hp | hp
      · exact hb.inmap p hp
      · exact hpts_mem p hp
    · intro p hp q hc
      rw [hused2] at hp ⊢
      rcases List.mem_append.1 hp with hp | hp
      · exact List.mem_append_left _ (hb.closed p hp q hc)
      · exact List.mem_append_right _ ((hcompf p hp q).2 hc)
    · intro p hp
      rw [hused2, List.mem_append, not_or] at hp
      rw [hg2, if_neg hp.2]
      exact hb.zero p hp.1
    · intro p hp
      rw [hused2] at hp
      rw [hg2]
      by_cases hpf : p ∈ f.points cfg
      · rw [if_pos hpf]
        split_ifs
        · exact Or.inl rfl
        · exact Or.inr hgpos
      · rw [if_neg hpf]
        rcases List.mem_append.1 hp with hp | hp
        · exact hb.some' p hp
        · exact absurd hp hpf
    · intro p
      rw [hleft2]
      have := hcore.left p.2 p.1
      rw [this]
      by_cases hpf : (p.1, p.2) ∈ f.points cfg
      · rw [if_pos hpf]
        have : p ∈ st2.used := by rw [hused2]; exact List.mem_append_right _ hpf
        simp [this]
      · rw [if_neg hpf, hb.left]
        have : p ∈ st2.used ↔ p ∈ st.used := by
          rw [hused2, List.mem_append]
          exact ⟨fun h => h.resolve_right hpf, Or.inl⟩
        simp [this]
    · rw [hgidx2, hlist2, hb.gidx]
      split_ifs <;> simp
    · intro i u hu
      have hcase : (st.list[i]? = some u) ∨ (¬ v.len < minSize ∧ i = st.list.length ∧ u = v) := by
        rw [hlist2] at hu
        split_ifs at hu with h1
        · exact Or.inl hu
        · rw [List.getElem?_append] at hu
          split_ifs at hu with h2
          · exact Or.inl hu
          · right
            have h3 : i - st.list.length = 0 := by
              by_contra hne
              rw [List.getElem?_eq_none (by simp; omega)] at hu
              cases hu
            rw [h3] at hu
            simp at hu
            exact ⟨h1, by omega, hu.symm⟩
      rcases hcase with hu | ⟨h1, rfl, rfl⟩
      · have k := hb.kept i u hu
        have hr := hread_old u k.bound
        have hilt : i < st.list.length := (List.getElem?_eq_some_iff.1 hu).1
        refine ⟨?_, ?_, ?_, k.size, ?_, ?_⟩
        · rw [hoff2]; have := k.bound; omega
        · rw [hr]; exact k.nodup
        · intro p
          rw [hr, k.label, hg2]
          by_cases hpf : p ∈ f.points cfg
          · rw [if_pos hpf, hb.zero p (hdisj p hpf)]
            constructor
            · intro h0; omega
            · intro h0
              exfalso
              split_ifs at h0
              · omega
              · rw [hb.gidx] at h0; omega
          · rw [if_neg hpf]
        · rw [hr]; exact k.comp
        · rw [hr]
          obtain ⟨p, h1, h2, h3, h4⟩ := k.seed
          exact ⟨p, h1, h2, by push_cast; omega, h4⟩
      · have hr : v.read st2.buf = f.points cfg := by rw [hbuf2]; exact hread
        refine ⟨?_, ?_, ?_, by omega, ?_, ?_⟩
        · rw [hoff2]
        · rw [hr]; exact hcore.nodup
        · intro p
          rw [hr, hg2, if_neg h1]
          by_cases hpf : p ∈ f.points cfg
          · rw [if_pos hpf, hb.gidx]; simp [hpf]
          · rw [if_neg hpf]
            have := hb.top p
            constructor
            · intro h0; exact absurd h0 hpf
            · intro h0; omega
        · rw [hr]; exact hcompf
        · rw [hr]
          refine ⟨seed, hseedpt, hsidx, ?_, ?_⟩
          · rw [hseed, raster_unravel]; push_cast; omega
          · intro q hq hqi
            rw [hseed, raster_unravel]
            exact hseedmin q hq hqi
    · intro i j u u' hij hu hu'
      rw [hlist2] at hu hu'
      have hold : ∀ (i j : Nat) (u u' : View), i < j → st.list[i]? = some u → st.list[j]? = some u' →
          ∃ p ∈ u.read st2.buf, idx p ∧ ∀ q ∈ u'.read st2.buf, idx q → raster w p < raster w q := by
        intro i j u u' hij hu hu'
        rw [hread_old u (hb.kept i u hu).bound, hread_old u' (hb.kept j u' hu').bound]
        exact hb.order i j u u' hij hu hu'
      split_ifs at hu hu' with h1
      · exact hold i j u u' hij hu hu'
      · have hj : j < (st.list ++ [v]).length := (List.getElem?_eq_some_iff.1 hu').1
        simp at hj
        have hi : i < st.list.length := by omega
        rw [List.getElem?_append_left hi] at hu
        by_cases hj' : j < st.list.length
        · rw [List.getElem?_append_left hj'] at hu'
          exact hold i j u u' hij hu hu'
        · have hje : j = st.list.length := by omega
          subst hje
          simp at hu'
          subst hu'
          obtain ⟨p, hp1, hp2, hp3, -⟩ := (hb.kept i u hu).seed
          refine ⟨p, ?_, hp2, ?_⟩
          · rw [hread_old u (hb.kept i u hu).bound]; exact hp1
          · intro q hq hqi
            rw [hbuf2] at hq
            have := hseedmin q hq hqi
            omega
    · intro p hp
      rw [hg2] at hp
      by_cases hpf : p ∈ f.points cfg
      · rw [if_pos hpf] at hp
        split_ifs at hp with h1
        · refine ⟨f.points cfg, hcore.nodup, hcompf p hpf, ?_, seed, hseedpt, hsidx⟩
          rw [points_length]; exact h1
        · exfalso; rw [hb.gidx] at hp; omega
      · rw [if_neg hpf] at hp
        exact hb.small p hp
    · intro p q hp hc
      rw [hg2] at hp ⊢
      by_cases hpf : p ∈ f.points cfg
      · rw [if_pos hpf] at hp
        rw [if_pos ((hcompf p hpf q).2 hc)]
        exact hp
      · rw [if_neg hpf] at hp
        have hqf : q ∉ f.points cfg := fun hq => hpf ((hcompf q hq p).2 hc.symm)
        rw [if_neg hqf]
        exact hb.smallc p q hp hc
    · intro p
      rw [hg2, hlist2]
      have := hb.top p
      split_ifs
      · omega
      · simp [hb.gidx]
      · exact this
      · simp; omega
    · intro p hp hpi hr
      rw [hused2]
      by_cases hlt : raster w p < st.next
      · exact List.mem_append_left _ (hb.done p hp hpi hlt)
      · apply List.mem_append_right
        obtain ⟨i, hi1, hi2, hi3⟩ := exists_unravel hp
        have : i = st.next := by push_cast at hr; omega
        subst this
        rw [← hi2]; exact hseedpt
  -- moving the scan position on
  have hadvance : ∀ N : Nat, st.next + 1 ≤ N → N ≤ h * w →
      (∀ i, st.next + 1 ≤ i → i < N → st2.left (unravel w i).2 (unravel w i).1 = false) →
      Base h w bx by' idx minSize st2 N := by
    intro N hN1 hN2 hfalse
    refine { hbase2 with kept := ?_, done := ?_ }
    · intro i u hu
      have k := hbase2.kept i u hu
      obtain ⟨p, h1, h2, h3, h4⟩ := k.seed
      exact { k with seed := ⟨p, h1, h2, by omega, h4⟩ }
    · intro p hp hpi hr
      by_cases hlt : raster w p < (st.next + 1 : Nat)
      · exact hbase2.done p hp hpi hlt
      · obtain ⟨i, hi1, hi2, hi3⟩ := exists_unravel hp
        have := hfalse i (by omega) (by omega)
        rw [hi2, hbase2.left] at this
        simp [hpi] at this
        exact this
  have hstep : fgStep h w bx by' minSize st =
      match findFrom h w st2.left (st2.next + 1) with
      | none => .ok (st2, false)
      | some k => .ok ({ st2 with next := st2.next + (k + 1) }, true) := by
    unfold fgStep
    simp only [bind, Except.bind]
    rw [show floodFill ⟨h, w, bx, by', st.gidx, st.off, h * w - st.off⟩ (unravel w st.next)
      st.grains st.left st.buf = .ok f from hf]
    rfl
  rw [hstep]
  cases hfind : findFrom h w st2.left (st2.next + 1) with
  | none =>
    refine ⟨st2, false, rfl, by simp, fun _ => ?_⟩
    refine hadvance (h * w) (by omega) le_rfl ?_
    intro i h1 h2
    exact findFrom_none hfind (by rw [hnext2]; exact h1) h2
  | some k =>
    obtain ⟨h1, h2, h3⟩ := findFrom_some hfind
    refine ⟨_, true, rfl, fun _ => ?_, by simp⟩
    have e : st2.next + (k + 1) = st2.next + 1 + k := by omega
    refine ⟨?_, ?_, ?_, ?_⟩
    · have hb3 := hadvance (st2.next + 1 + k) (by omega) (by omega) (by
        intro i hi1 hi2
        exact h3 i (by omega) hi2)
      simp only [e]
      exact ⟨hb3.nodup, hb3.inmap, hb3.closed, hb3.zero, hb3.some', hb3.left, hb3.gidx,
        fun i u hu => by
          have k := hb3.kept i u hu
          exact ⟨k.bound, k.nodup, k.label, k.size, k.comp, k.seed⟩,
        hb3.order, hb3.small, hb3.smallc, hb3.top, hb3.done⟩
    · simp only; omega
    · simp only; omega
    · simp only [e]; exact h2

theorem fgLoop_ok (hw : 2 ≤ w) (hh : 2 ≤ h) :
    ∀ (k : Nat) (st : FG), Base h w bx by' idx minSize st st.next → st.next < h * w →
      st.left (unravel w st.next).2 (unravel w st.next).1 = true →
      h * w ≤ k + st.next →
      ∃ st', fgLoop h w bx by' minSize k st = .ok st' ∧
        Base h w bx by' idx minSize st' (h * w) := by
  intro k
  induction k with
  | zero => intro st _ h1 _ h2; omega
  | succ k ih =>
    intro st hb hn hl hk
    obtain ⟨st', more, hs, hm, hf⟩ := base_step hw hh hb hn hl
    cases more with
    | false => exact ⟨st', by simp [fgLoop, hs, bind, Except.bind], hf rfl⟩
    | true =>
      obtain ⟨hb', hlt, hn', hl'⟩ := hm rfl
      obtain ⟨st'', h1, h2⟩ := ih st' hb' hn' hl' (by omega)
      refine ⟨st'', ?_, h2⟩
      simp only [fgLoop, hs, bind, Except.bind, if_true]
      exact h1

end

/-- The state before the loop satisfies the invariant. -/
theorem base_start (h w : Nat) (bx by' : Img Bool) (phase : Img Int) (minSize N : Nat)
    (next : Nat)
    (hN : ∀ i, i < N → i < h * w → phase (unravel w i).2 (unravel w i).1 = 0) :
    Base h w bx by' (fun p => phase p.2 p.1 ≠ 0) minSize
      { grains := fun _ _ => 0, left := fun y x => decide (phase y x ≠ 0),
        buf := fun _ => (0, 0), off := 0, list := [], gidx := 1, next := next } N := by
  refine ⟨?_, ?_, ?_, ?_, ?_, ?_, ?_, ?_, ?_, ?_, ?_, ?_, ?_⟩ <;> simp [FG.used]
  intro a b hp hpi
  by_contra hr
  obtain ⟨i, h1, h2, h3⟩ := exists_unravel hp
  have := hN i (by omega) h1
  rw [h2] at this
  exact hpi this

/-- Everything the loop establishes, for the whole run. -/
theorem findGrains_run {h w : Nat} (hw : 2 ≤ w) (hh : 2 ≤ h) (bx by' : Img Bool)
    (phase : Img Int) (numPhases minSize : Nat) :
    ((∀ p, InMap h w p → phase p.2 p.1 = 0) ∧
      findGrains h w phase numPhases bx by' minSize = .error .valueError) ∨
    (∃ st, (∃ p, InMap h w p ∧ phase p.2 p.1 ≠ 0) ∧
      Base h w bx by' (fun p => phase p.2 p.1 ≠ 0) minSize st (h * w) ∧
      findGrains h w phase numPhases bx by' minSize =
        match st.list.map (fun v => (v, grainPhase numPhases phase (v.read st.buf))) with
        | [] => .error .indexError
        | a :: l => .ok { grains := st.grains, buf := st.buf, list := a :: l }) := by
  unfold findGrains
  simp only [bind, Except.bind]
  cases hf : findFrom h w (fun y x => decide (phase y x ≠ 0)) 0 with
  | none =>
    left
    refine ⟨?_, rfl⟩
    intro p hp
    obtain ⟨i, h1, h2, -⟩ := exists_unravel hp
    have := findFrom_none hf (Nat.zero_le i) h1
    rw [h2] at this
    simpa using this
  | some next =>
    right
    obtain ⟨h1, h2, h3⟩ := findFrom_some hf
    simp only [Nat.zero_add] at h1 h2 h3
    have hb := base_start h w bx by' phase minSize next next (by
      intro i hi _
      have := h3 i (Nat.zero_le _) hi
      simpa using this)
    obtain ⟨st', hl, hb'⟩ := fgLoop_ok hw hh (h * w) _ hb h1 h2 (by omega)
    refine ⟨st', ⟨unravel w next, unravel_inMap h1, by simpa using h2⟩, hb', ?_⟩
    simp only [hl]
    cases hlst : st'.list with
    | nil => simp
    | cons a l => simp

theorem raster_lt {h w : Nat} {p : Px} (hp : InMap h w p) : raster w p < ((h * w : Nat) : Int) := by
  obtain ⟨i, h1, -, h3⟩ := exists_unravel hp
  rw [h3]; exact_mod_cast h1

theorem findGrains_base {h w : Nat} (hw : 2 ≤ w) (hh : 2 ≤ h) {bx by' : Img Bool}
    {phase : Img Int} {numPhases minSize : Nat} {r : FGResult}
    (hr : findGrains h w phase numPhases bx by' minSize = .ok r) :
    ∃ st, Base h w bx by' (fun p => phase p.2 p.1 ≠ 0) minSize st (h * w) ∧
      r.grains = st.grains ∧ r.buf = st.buf ∧ r.list.length = st.list.length ∧
      r.list = st.list.map (fun v => (v, grainPhase numPhases phase (v.read st.buf))) := by
  rcases findGrains_run hw hh bx by' phase numPhases minSize with ⟨-, he⟩ | ⟨st, -, hb, he⟩
  · rw [he] at hr; cases hr
  · rw [he] at hr
    refine ⟨st, hb, ?_⟩
    cases hL : st.list.map (fun v => (v, grainPhase numPhases phase (v.read st.buf))) with
    | nil => rw [hL] at hr; cases hr
    | cons a l =>
      rw [hL] at hr
      simp only [Except.ok.injEq] at hr
      subst hr
      refine ⟨rfl, rfl, ?_, rfl⟩
      have := congrArg List.length hL
      simpa using this.symm

section
variable {h w : Nat} {bx by' : Img Bool} {idx : Px → Prop} [DecidablePred idx] {minSize : Nat}

theorem Base.kept_of_pos {st : FG} {N : Nat} (hb : Base h w bx by' idx minSize st N) {p : Px}
    (hp : 1 ≤ st.grains p.2 p.1) :
    ∃ i v, st.list[i]? = some v ∧ p ∈ v.read st.buf ∧ Kept h w bx by' idx minSize st N i v := by
  have ht := hb.top p
  have hi : (st.grains p.2 p.1 - 1).toNat < st.list.length := by omega
  have hv := List.getElem?_eq_getElem hi
  have k := hb.kept _ _ hv
  refine ⟨_, _, hv, ?_, k⟩
  rw [k.label]
  omega

theorem Base.label_conn {st : FG} {N : Nat} (hb : Base h w bx by' idx minSize st N) {p q : Px}
    (hc : Conn h w bx by' p q) : st.grains p.2 p.1 = st.grains q.2 q.1 := by
  by_cases hu : p ∈ st.used
  · rcases hb.some' p hu with h1 | h1
    · rw [h1, hb.smallc p q h1 hc]
    · obtain ⟨i, v, hv, hpv, k⟩ := hb.kept_of_pos (p := p) h1
      have hqv := (k.comp p hpv q).2 hc
      rw [(k.label p).1 hpv, (k.label q).1 hqv]
  · have hqu : q ∉ st.used := fun hq => hu (hb.closed q hq p hc.symm)
    rw [hb.zero p hu, hb.zero q hqu]

theorem Base.has_indexed {st : FG} {N : Nat} (hb : Base h w bx by' idx minSize st N) {p : Px}
    (hu : p ∈ st.used) : ∃ q, Conn h w bx by' p q ∧ idx q := by
  rcases hb.some' p hu with h1 | h1
  · obtain ⟨L, -, h2, -, q, hq, hqi⟩ := hb.small p h1
    exact ⟨q, (h2 q).1 hq, hqi⟩
  · obtain ⟨i, v, hv, hpv, k⟩ := hb.kept_of_pos (p := p) h1
    obtain ⟨s, hs, hsi, -, -⟩ := k.seed
    exact ⟨s, (k.comp p hpv s).1 hs, hsi⟩

theorem regionSize_eq {p : Px} (hp : InMap h w p) {L : List Px} (hn : L.Nodup)
    (hL : ∀ q, q ∈ L ↔ Conn h w bx by' p q) : regionSize h w bx by' p = L.length := by
  classical
  unfold regionSize
  rw [← List.toFinset_card_of_nodup hn]
  congr 1
  ext q
  simp only [Finset.mem_filter, List.mem_toFinset, mem_mapPixels, hL]
  exact ⟨fun h => h.2, fun h => ⟨h.inMap hp, h⟩⟩

theorem Base.small_iff {st : FG} (hb : Base h w bx by' idx minSize st (h * w)) {p : Px}
    (hp : InMap h w p) : st.grains p.2 p.1 = -2 ↔
      regionSize h w bx by' p < minSize ∧ ∃ q, Conn h w bx by' p q ∧ idx q := by
  constructor
  · intro h2
    obtain ⟨L, hn, hL, hlen, q, hq, hqi⟩ := hb.small p h2
    rw [regionSize_eq hp hn hL]
    exact ⟨hlen, q, (hL q).1 hq, hqi⟩
  · rintro ⟨hlt, q, hc, hqi⟩
    have hqm := hc.inMap hp
    have hqu := hb.done q hqm hqi (raster_lt hqm)
    have hpu := hb.closed q hqu p hc.symm
    rcases hb.some' p hpu with h1 | h1
    · exact h1
    · obtain ⟨i, v, hv, hpv, k⟩ := hb.kept_of_pos (p := p) h1
      rw [regionSize_eq hp k.nodup (k.comp p hpv)] at hlt
      have := k.size
      simp [View.read] at hlt
      omega

end

theorem grainPhase_const {numPhases : Nat} {phase : Img Int} {pts : List Px} {k : Int}
    (hne : pts ≠ []) (hall : ∀ p ∈ pts, phase p.2 p.1 = k) (h1 : 0 ≤ k - 1)
    (h2 : k - 1 < numPhases) : grainPhase numPhases phase pts = some (k - 1) := by
  cases pts with
  | nil => exact absurd rfl hne
  | cons a l =>
    have ha := hall a (by simp)
    have hl : (l.map fun p => phase p.2 p.1).any (fun u => decide (u ≠ phase a.2 a.1)) = false := by
      rw [List.any_eq_false]
      intro u hu
      obtain ⟨p, hp, rfl⟩ := List.mem_map.1 hu
      have := hall p (List.mem_cons_of_mem _ hp)
      simp [this, ha]
    unfold grainPhase
    simp only [List.map_cons]
    rw [hl, ha]
    rw [if_neg (by simp), if_pos ⟨h1, h2⟩]

/-! Memory before the slice of a fill is untouched, whatever the state. -/

theorem put_frame {c : FillCfg} {st st' : Fill} {s t : Int} (hp : st.put c s t = .ok st') :
    ∀ i, i < c.off → st'.buf i = st.buf i := by
  unfold Fill.put at hp
  split_ifs at hp
  simp only [Except.ok.injEq] at hp
  subst hp
  intro i hi
  simp only
  rw [if_neg (by omega)]

theorem ffVisit_frame {c : FillCfg} {x y : Int} {st st' : Fill} {q : Px}
    (hp : ffVisit c x y st q = .ok st') : ∀ i, i < c.off → st'.buf i = st.buf i := by
  unfold ffVisit at hp
  simp only [bind, Except.bind, pure, Except.pure] at hp
  split at hp
  · cases hp
  · split_ifs at hp
    · simp only [Except.ok.injEq] at hp; subst hp; intros; rfl
    · split at hp
      · cases hp
      · split_ifs at hp
        · split at hp
          · cases hp
          · rename_i hput
            simp only [Except.ok.injEq] at hp
            subst hp
            exact fun i hi => put_frame hput i hi
        · simp only [Except.ok.injEq] at hp; subst hp; intros; rfl

theorem ffFold_frame {c : FillCfg} {x y : Int} : ∀ (ms : List Px) (st st' : Fill),
    ms.foldlM (ffVisit c x y) st = .ok st' → ∀ i, i < c.off → st'.buf i = st.buf i := by
  intro ms
  induction ms with
  | nil =>
    intro st st' hf
    simp only [List.foldlM_nil, pure, Except.pure, Except.ok.injEq] at hf
    subst hf; intros; rfl
  | cons q ms ih =>
    intro st st' hf i hi
    rw [List.foldlM_cons] at hf
    cases hv : ffVisit c x y st q with
    | error e => rw [hv] at hf; cases hf
    | ok st1 =>
      rw [hv] at hf
      rw [ih st1 st' hf i hi, ffVisit_frame hv i hi]

theorem ffLoop_frame {c : FillCfg} : ∀ (k : Nat) (st st' : Fill),
    ffLoop c k st = .ok st' → ∀ i, i < c.off → st'.buf i = st.buf i := by
  intro k
  induction k with
  | zero =>
    intro st st' hf
    unfold ffLoop at hf
    split at hf
    · simp only [Except.ok.injEq] at hf; subst hf; intros; rfl
    · cases hf
  | succ k ih =>
    intro st st' hf i hi
    unfold ffLoop at hf
    split at hf
    · simp only [Except.ok.injEq] at hf; subst hf; rfl
    · rename_i x y rest hst
      simp only [bind, Except.bind] at hf
      split at hf
      · cases hf
      · rename_i st1 h1
        rw [ih st1 st' hf i hi, ffFold_frame _ _ _ h1 i hi]

theorem floodFill_frame {c : FillCfg} {seed : Px} {g : Img Int} {l : Img Bool} {b : Nat → Px}
    {f : Fill} (hf : floodFill c seed g l b = .ok f) : ∀ i, i < c.off → f.buf i = b i := by
  intro i hi
  unfold floodFill at hf
  simp only [bind, Except.bind] at hf
  split at hf
  · cases hf
  · rename_i st1 h1
    rw [ffLoop_frame _ _ _ hf i hi]
    exact put_frame h1 i hi

/-- One step of grain finding leaves the used part of the buffer alone and only extends the
list of grains by views of the part it used itself. -/
theorem fgStep_frame {h w : Nat} {bx by' : Img Bool} {minSize : Nat} {st st' : FG} {m : Bool}
    (hs : fgStep h w bx by' minSize st = .ok (st', m)) :
    (∀ i, i < st.off → st'.buf i = st.buf i) ∧ st.off ≤ st'.off ∧
    (st'.list = st.list ∨ ∃ v : View, st'.list = st.list ++ [v] ∧ v.off = st.off ∧
      v.off + v.len = st'.off) := by
  unfold fgStep at hs
  simp only [bind, Except.bind] at hs
  split at hs
  · cases hs
  · rename_i f hf
    have hfr := floodFill_frame hf
    split_ifs at hs <;> split at hs <;>
      simp only [Except.ok.injEq, Prod.mk.injEq] at hs <;> obtain ⟨rfl, -⟩ := hs <;>
      simp only
    · exact ⟨hfr, by omega, Or.inl trivial⟩
    · exact ⟨hfr, by omega, Or.inl trivial⟩
    · exact ⟨hfr, by omega, Or.inr ⟨_, rfl, rfl, rfl⟩⟩
    · exact ⟨hfr, by omega, Or.inr ⟨_, rfl, rfl, rfl⟩⟩

theorem fgLoop_frame {h w : Nat} {bx by' : Img Bool} {minSize : Nat} :
    ∀ (k : Nat) (st st' : FG), fgLoop h w bx by' minSize k st = .ok st' →
      (∀ i, i < st.off → st'.buf i = st.buf i) ∧ st.off ≤ st'.off ∧
      ((∀ v ∈ st.list, v.off + v.len ≤ st.off) →
        (st.list.Pairwise fun a b => a.off + a.len ≤ b.off) →
        (∀ v ∈ st'.list, v.off + v.len ≤ st'.off) ∧
        (st'.list.Pairwise fun a b => a.off + a.len ≤ b.off)) := by
  intro k
  induction k with
  | zero => intro st st' hf; cases hf
  | succ k ih =>
    intro st st' hf
    unfold fgLoop at hf
    simp only [bind, Except.bind] at hf
    split at hf
    · cases hf
    · rename_i res hres
      obtain ⟨st1, m⟩ := res
      obtain ⟨f1, f2, f3⟩ := fgStep_frame hres
      have hpres : (∀ v ∈ st.list, v.off + v.len ≤ st.off) →
          (st.list.Pairwise fun a b => a.off + a.len ≤ b.off) →
          (∀ v ∈ st1.list, v.off + v.len ≤ st1.off) ∧
          (st1.list.Pairwise fun a b => a.off + a.len ≤ b.off) := by
        intro hle hpw
        rcases f3 with f3 | ⟨v, f3, hv1, hv2⟩
        · rw [f3]; exact ⟨fun v hv => le_trans (hle v hv) f2, hpw⟩
        · rw [f3]
          constructor
          · intro u hu
            rcases List.mem_append.1 hu with hu | hu
            · exact le_trans (hle u hu) f2
            · simp at hu; subst hu; omega
          · rw [List.pairwise_append]
            refine ⟨hpw, by simp, ?_⟩
            intro a ha b hb
            simp at hb; subst hb
            have := hle a ha
            omega
      simp only at hf
      split_ifs at hf
      · obtain ⟨g1, g2, g3⟩ := ih st1 st' hf
        refine ⟨fun i hi => by rw [g1 i (by omega), f1 i hi], le_trans f2 g2, ?_⟩
        intro hle hpw
        obtain ⟨a, b⟩ := hpres hle hpw
        exact g3 a b
      · simp only [Except.ok.injEq] at hf
        subst hf
        exact ⟨f1, f2, hpres⟩

theorem findGrains_views {h w : Nat} (hw : 2 ≤ w) (hh : 2 ≤ h) {bx by' : Img Bool}
    {phase : Img Int} {numPhases minSize : Nat} {r : FGResult}
    (hr : findGrains h w phase numPhases bx by' minSize = .ok r) :
    (∀ g ∈ r.list, g.1.off + g.1.len ≤ h * w) ∧
    (r.list.Pairwise fun a b => a.1.off + a.1.len ≤ b.1.off) := by
  have hr0 := hr
  unfold findGrains at hr
  simp only [bind, Except.bind] at hr
  split at hr
  · cases hr
  · rename_i next hf
    split at hr
    · cases hr
    · rename_i st' hl
      obtain ⟨h1, h2, h3⟩ := findFrom_some hf
      simp only [Nat.zero_add] at h1 h2 h3
      have hb := base_start h w bx by' phase minSize next next (by
        intro i hi _
        have := h3 i (Nat.zero_le _) hi
        simpa using this)
      obtain ⟨st'', hl'', hb'⟩ := fgLoop_ok hw hh (h * w) _ hb h1 h2 (by omega)
      rw [hl''] at hl
      simp only [Except.ok.injEq] at hl
      subst hl
      have hoff : st''.off ≤ h * w := by
        have := nodup_length_le hb'.nodup hb'.inmap
        simpa [FG.used] using this
      obtain ⟨a, b⟩ := (fgLoop_frame _ _ _ hl'').2.2 (by simp) (by simp)
      split at hr
      · cases hr
      · rename_i g l hgl
        simp only [Except.ok.injEq] at hr
        subst hr
        constructor
        · intro g hg
          obtain ⟨v, hv, rfl⟩ := List.mem_map.1 hg
          exact le_trans (a v hv) hoff
        · rw [List.pairwise_map]
          exact b

end DefDAP
