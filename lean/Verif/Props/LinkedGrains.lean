import Mathlib.Data.List.GetD
import Mathlib.Tactic.Linarith
import Mathlib.Algebra.Order.Round
import Mathlib.Data.Real.Archimedean
import Verif.Model.LinkedGrains
import Verif.Props.FindGrains
import Verif.Props.WarpGrains

/-!
C137: the grains of a DIC map are those of the linked EBSD map.
-/

namespace DefDAP

open Spec

/-- Rounding to a nearest integer; a half either way. -/
def Spec.Rounds (near : ℝ → Int) : Prop := ∀ u, |(near u : ℝ) - u| ≤ 1 / 2

/-- The EBSD pixel next to the position of a DIC pixel. -/
def Spec.ebsdPx (near : ℝ → Int) (f : ℝ × ℝ → ℝ × ℝ) (p : Px) : Px :=
  (near (f ((p.1 : ℝ), (p.2 : ℝ))).1, near (f ((p.1 : ℝ), (p.2 : ℝ))).2)

theorem rounds_int {near : ℝ → Int} (hn : Rounds near) (k : Int) : near k = k := by
  have h := hn k
  rw [← Int.cast_sub, ← Int.cast_abs] at h
  have : |near k - k| < 1 := by
    have h2 : ((|near k - k| : Int) : ℝ) < 1 := by linarith
    exact_mod_cast h2
  rw [abs_lt] at this
  omega

variable {near : ℝ → Int} {f : ℝ × ℝ → ℝ × ℝ} {H W h w : Nat}

theorem rasterPx_inMap {k : Nat} (hk : k < h * w) : InMap h w (rasterPx w k) ∧
    (rasterPx w k).2.toNat * w + (rasterPx w k).1.toNat = k := by
  have hw : 0 < w := by
    rcases Nat.eq_zero_or_pos w with rfl | h0
    · simp at hk
    · exact h0
  have h1 : k % w < w := Nat.mod_lt _ hw
  have h2 : k / w < h := Nat.div_lt_of_lt_mul (by rw [Nat.mul_comm]; exact hk)
  refine ⟨?_, ?_⟩
  · simp only [InMap, rasterPx]
    exact ⟨by positivity, by exact_mod_cast h1, by positivity, by exact_mod_cast h2⟩
  · simp only [rasterPx, Int.toNat_natCast]
    exact Nat.div_add_mod' k w

theorem rasterPx_surj {p : Px} (hp : InMap h w p) :
    p.2.toNat * w + p.1.toNat < h * w ∧ rasterPx w (p.2.toNat * w + p.1.toNat) = p := by
  obtain ⟨h1, h2, h3, h4⟩ := hp
  have hx : p.1.toNat < w := by omega
  have hy : p.2.toNat < h := by omega
  constructor
  · calc p.2.toNat * w + p.1.toNat < p.2.toNat * w + w := by omega
      _ = (p.2.toNat + 1) * w := by rw [Nat.succ_mul]
      _ ≤ h * w := Nat.mul_le_mul_right _ hy
  · have e1 : (p.2.toNat * w + p.1.toNat) % w = p.1.toNat := by
      rw [Nat.mul_comm, Nat.mul_add_mod, Nat.mod_eq_of_lt hx]
    have e2 : (p.2.toNat * w + p.1.toNat) / w = p.2.toNat := by
      rw [Nat.mul_comm, Nat.mul_add_div (by omega), Nat.div_eq_of_lt hx, Nat.add_zero]
    simp only [rasterPx, e1, e2]
    exact Prod.ext (Int.toNat_of_nonneg h1) (Int.toNat_of_nonneg h3)

theorem raster_get (im : Img Int) (k : Nat) (v : Int) : (rasterList h w im)[k]? = some v ↔
    k < h * w ∧ im (rasterPx w k).2 (rasterPx w k).1 = v := by
  rw [rasterList, List.getElem?_map]
  by_cases hk : k < h * w
  · rw [List.getElem?_range hk]
    simp [rasterPx, hk]
  · rw [List.getElem?_eq_none (by simpa using hk)]
    simp [hk]

/-- The label that a DIC pixel gets from the EBSD map. -/
theorem warpNearest_px (r : FGResult) (p : Px) : warpNearest near H W r.grains f p.2 p.1 =
    if inB H W (ebsdPx near f p).1 (ebsdPx near f p).2 then
      r.grains (ebsdPx near f p).2 (ebsdPx near f p).1 else 0 := rfl

variable {bx by' : Img Bool} {phase : Img Int} {np ms : Nat} {r : FGResult}

theorem warpNearest_grain (hW : 2 ≤ W) (hH : 2 ≤ H)
    (hr : findGrains H W phase np bx by' ms = .ok r) (p : Px) {e : Nat} (he : e < r.list.length) :
    warpNearest near H W r.grains f p.2 p.1 = (e : Int) + 1 ↔ ebsdPx near f p ∈ r.points e := by
  obtain ⟨-, hm, -, -, hin⟩ := (C04_numbering hW hH bx by' phase np ms r hr).1 e he
  rw [warpNearest_px, hm]
  split_ifs with hb
  · rfl
  · constructor
    · intro h0; omega
    · intro h0
      exact absurd ((inB_iff ..).2 (hin _ ((hm _).2 h0))) hb

/-- Which points of the DIC map belong to which of its grains. -/
structure Spec.DicGrainsOf (h w n : Nat) (grain : Px → Nat → Prop) (labels : Img Int)
    (dic : List (List Px × Nat)) : Prop where
  /-- A DIC grain has the points that lie in its EBSD grain. -/
  points : ∀ (i : Nat) (pts : List Px) (e : Nat), dic[i]? = some (pts, e) →
    e < n ∧ pts ≠ [] ∧ pts.Nodup ∧ (∀ p, p ∈ pts ↔ InMap h w p ∧ grain p e) ∧
    ∀ p, InMap h w p → (labels p.2 p.1 = (i : Int) + 1 ↔ p ∈ pts)
  /-- Every EBSD grain with points in the DIC map has a DIC grain, -/
  found : ∀ (e : Nat) (p : Px), e < n → InMap h w p → grain p e → ∃ (i : Nat) (pts : List Px), dic[i]? = some (pts, e)
  /-- and only one: they come in the order of the EBSD grains. -/
  order : ∀ (i j : Nat) (g g' : List Px × Nat), dic[i]? = some g → dic[j]? = some g' → (i < j ↔ g.2 < g'.2)

/-- **C137** The grains of a linked DIC map. A point belongs to the DIC grain of the EBSD grain that
contains the EBSD pixel next to the position of the point. The other points keep the label of the EBSD map,
which is not positive, and have the label 0 outside of it. -/
theorem C137_linked (hW : 2 ≤ W) (hH : 2 ≤ H) (hr : findGrains H W phase np bx by' ms = .ok r)
    (hsome : ∃ p e, InMap h w p ∧ e < r.list.length ∧ ebsdPx near f p ∈ r.points e) :
    ∃ labels dic, linkedGrains near H W r f h w = .ok (labels, dic) ∧
      DicGrainsOf h w r.list.length (fun p e => ebsdPx near f p ∈ r.points e) labels dic ∧
      ∀ p, InMap h w p → (∀ e < r.list.length, ebsdPx near f p ∉ r.points e) →
        (InMap H W (ebsdPx near f p) →
          labels p.2 p.1 = r.grains (ebsdPx near f p).2 (ebsdPx near f p).1 ∧ labels p.2 p.1 ≤ 0) ∧
        (¬ InMap H W (ebsdPx near f p) → labels p.2 p.1 = 0) := by
  set im := warpNearest near H W r.grains f with him
  have hval : ∀ {p : Px} {e : Nat}, e < r.list.length →
      (im p.2 p.1 = (e : Int) + 1 ↔ ebsdPx near f p ∈ r.points e) := fun he =>
    warpNearest_grain hW hH hr _ he
  have htop : ∀ p : Px, im p.2 p.1 ≤ r.list.length := by
    intro p
    obtain ⟨st, hb, hg, -, hlen, -⟩ := findGrains_base hW hH hr
    rw [him, warpNearest_px]
    split_ifs
    · rw [hg, hlen]; exact hb.top _
    · positivity
  have hpos : ∀ p : Px, 0 < im p.2 p.1 → ∃ e, e < r.list.length ∧ ebsdPx near f p ∈ r.points e := by
    intro p hp
    have := htop p
    refine ⟨(im p.2 p.1 - 1).toNat, by omega, ?_⟩
    rw [← hval (by omega)]
    omega
  have hget : ∀ {p : Px}, InMap h w p →
      (rasterList h w im)[p.2.toNat * w + p.1.toNat]? = some (im p.2 p.1) := by
    intro p hp
    obtain ⟨h1, h2⟩ := rasterPx_surj hp
    rw [raster_get]
    exact ⟨h1, by rw [h2]⟩
  obtain ⟨labels, ids, grains, hrel, hg, hlen, hgr⟩ := C14_grains (List.range r.list.length)
    (rasterList h w im) (by
      intro v hv
      obtain ⟨k, hk⟩ := List.mem_iff_getElem?.1 hv
      obtain ⟨-, rfl⟩ := (raster_get ..).1 hk
      rw [List.length_range]
      exact htop _) (by
      obtain ⟨p, e, hp, he, hpe⟩ := hsome
      refine ⟨_, List.mem_of_getElem? (hget hp), ?_⟩
      rw [(hval he).2 hpe]
      omega)
  obtain ⟨labels', ids', hrel', hll, hnd, hids, hlab, -, hord⟩ := C14_relabel (rasterList h w im)
  rw [hrel] at hrel'
  cases hrel'
  have hlget : ∀ {p : Px}, InMap h w p → labels[p.2.toNat * w + p.1.toNat]? =
      some (labels.getD (p.2.toNat * w + p.1.toNat) 0) := by
    intro p hp
    have hk : p.2.toNat * w + p.1.toNat < labels.length := by
      rw [hll]
      exact (List.getElem?_eq_some_iff.1 (hget hp)).1
    rw [List.getD_eq_getElem _ _ hk, List.getElem?_eq_getElem hk]
  -- the grains, in terms of labels
  have hgrain : ∀ (i : Nat) (coords : List Nat) (e : Nat), grains[i]? = some (coords, e) →
      e < r.list.length ∧ coords ≠ [] ∧ coords.Nodup ∧ ids[i]? = some ((e : Int) + 1) ∧
      (∀ k, k ∈ coords ↔ (rasterList h w im)[k]? = some ((e : Int) + 1)) ∧
      (∀ k, k ∈ coords ↔ labels[k]? = some ((i : Int) + 1)) := by
    intro i coords e hi
    obtain ⟨h1, h2, v, h3, h4, h5, h6⟩ := hgr i coords e hi
    have hv0 := ((hids v).1 (List.mem_of_getElem? h3)).2
    obtain ⟨h7, h8⟩ := List.getElem?_eq_some_iff.1 h6
    rw [List.getElem_range] at h8
    rw [List.length_range] at h7
    have hv : v = (e : Int) + 1 := by omega
    subst hv
    exact ⟨by omega, h1, h2, h3, h4, h5⟩
  have hraster : ∀ (k e : Nat), e < r.list.length →
      ((rasterList h w im)[k]? = some ((e : Int) + 1) ↔
        k < h * w ∧ ebsdPx near f (rasterPx w k) ∈ r.points e) := by
    intro k e he
    rw [raster_get, hval he]
  have hdic : ∀ (i : Nat) (pts : List Px) (e : Nat),
      (grains.map fun g => (g.1.map (rasterPx w), g.2))[i]? = some (pts, e) →
      ∃ coords, grains[i]? = some (coords, e) ∧ pts = coords.map (rasterPx w) := by
    intro i pts e hi
    rw [List.getElem?_map] at hi
    cases hc : grains[i]? with
    | none => rw [hc] at hi; simp at hi
    | some g =>
      rw [hc] at hi
      simp only [Option.map_some, Option.some.injEq, Prod.mk.injEq] at hi
      exact ⟨g.1, by rw [← hi.2], hi.1.symm⟩
  refine ⟨_, _, by rw [linkedGrains, ← him, hg]; rfl, ⟨?_, ?_, ?_⟩, ?_⟩
  · intro i pts e hi
    obtain ⟨coords, hc, rfl⟩ := hdic i pts e hi
    obtain ⟨he, h1, h2, -, h4, h5⟩ := hgrain i coords e hc
    have hin : ∀ k ∈ coords, k < h * w := fun k hk => ((hraster k e he).1 ((h4 k).1 hk)).1
    have hmem : ∀ p, p ∈ coords.map (rasterPx w) ↔ InMap h w p ∧ ebsdPx near f p ∈ r.points e := by
      intro p
      rw [List.mem_map]
      constructor
      · rintro ⟨k, hk, rfl⟩
        have := (hraster k e he).1 ((h4 k).1 hk)
        exact ⟨(rasterPx_inMap this.1).1, this.2⟩
      · rintro ⟨hp, hpe⟩
        obtain ⟨h6, h7⟩ := rasterPx_surj hp
        exact ⟨_, (h4 _).2 ((hraster _ e he).2 ⟨h6, by rw [h7]; exact hpe⟩), h7⟩
    refine ⟨he, by simpa using h1, ?_, hmem, ?_⟩
    · refine List.Nodup.map_on ?_ h2
      intro k hk k' hk' hkk
      rw [← (rasterPx_inMap (hin k hk)).2, ← (rasterPx_inMap (hin k' hk')).2, hkk]
    · intro p hp
      rw [hmem, ← (rasterPx_surj hp).2]
      have h8 := h5 (p.2.toNat * w + p.1.toNat)
      rw [hlget hp, h4, hraster _ e he] at h8
      simp only [Option.some.injEq] at h8
      rw [(rasterPx_surj hp).2] at h8 ⊢
      rw [← h8]
      exact ⟨fun h9 => ⟨hp, h9.2⟩, fun h9 => ⟨(rasterPx_surj hp).1, h9.2⟩⟩
  · intro e p he hp hpe
    have hv : (e : Int) + 1 ∈ ids := (hids _).2 ⟨by
      rw [← (hval he).2 hpe]
      exact List.mem_of_getElem? (hget hp), by omega⟩
    obtain ⟨i, hi⟩ := List.mem_iff_getElem?.1 hv
    have hil : i < grains.length := by rw [hlen]; exact (List.getElem?_eq_some_iff.1 hi).1
    obtain ⟨-, -, -, h3, -⟩ := hgrain i grains[i].1 grains[i].2 (List.getElem?_eq_getElem hil)
    rw [hi] at h3
    have h4 : grains[i].2 = e := by
      have := Option.some.inj h3
      omega
    exact ⟨i, grains[i].1.map (rasterPx w), by
      rw [List.getElem?_map, List.getElem?_eq_getElem hil, Option.map_some, h4]⟩
  · rintro i j ⟨pts, e⟩ ⟨pts', e'⟩ hi hj
    obtain ⟨coords, hc, rfl⟩ := hdic i pts e hi
    obtain ⟨coords', hc', rfl⟩ := hdic j pts' e' hj
    obtain ⟨-, h1, -, -, h4, h5⟩ := hgrain i coords e hc
    obtain ⟨-, h1', -, -, h4', h5'⟩ := hgrain j coords' e' hc'
    obtain ⟨k, hk⟩ := List.exists_mem_of_ne_nil _ h1
    obtain ⟨k', hk'⟩ := List.exists_mem_of_ne_nil _ h1'
    have := (hord k k' _ _ _ _ ((h4 k).1 hk) ((h4' k').1 hk') ((h5 k).1 hk) ((h5' k').1 hk')).1
    constructor <;> intro h7 <;> simp only at h7 ⊢ <;> omega
  · intro p hp hno
    have h0 : im p.2 p.1 ≤ 0 := by
      by_contra hcon
      obtain ⟨e, he, hpe⟩ := hpos p (by omega)
      exact hno e he hpe
    have hl := (hlab _ _ _ (hget hp) (hlget hp)).1 h0
    show (_ → labels.getD (p.2.toNat * w + p.1.toNat) 0 = _ ∧
      labels.getD (p.2.toNat * w + p.1.toNat) 0 ≤ 0) ∧
      (_ → labels.getD (p.2.toNat * w + p.1.toNat) 0 = 0)
    rw [hl]
    constructor
    · intro hin
      refine ⟨?_, h0⟩
      have hin' : inB H W (ebsdPx near f p).1 (ebsdPx near f p).2 = true := (inB_iff ..).2 hin
      rw [him, warpNearest_px, if_pos hin']
    · intro hout
      rw [him, warpNearest_px, if_neg]
      intro hcon
      exact hout ((inB_iff ..).1 hcon)

/-- **C137** If no point of the DIC map lies in an EBSD grain, an `IndexError` is raised. -/
theorem C137_nothing (hW : 2 ≤ W) (hH : 2 ≤ H) (hr : findGrains H W phase np bx by' ms = .ok r)
    (hnone : ∀ p e, InMap h w p → e < r.list.length → ebsdPx near f p ∉ r.points e) :
    linkedGrains near H W r f h w = .error .indexError := by
  obtain ⟨labels, ids, hrel, -, -, hids, -⟩ := C14_relabel
    (rasterList h w (warpNearest near H W r.grains f))
  have hnil : ids = [] := by
    rw [List.eq_nil_iff_forall_not_mem]
    intro v hv
    obtain ⟨h1, h2⟩ := (hids v).1 hv
    obtain ⟨k, hk⟩ := List.mem_iff_getElem?.1 h1
    obtain ⟨hk', rfl⟩ := (raster_get ..).1 hk
    obtain ⟨st, hb, hg, -, hlen, -⟩ := findGrains_base hW hH hr
    have htop : warpNearest near H W r.grains f (rasterPx w k).2 (rasterPx w k).1 ≤ r.list.length := by
      rw [warpNearest_px]
      split_ifs
      · rw [hg, hlen]; exact hb.top _
      · positivity
    set v := warpNearest near H W r.grains f (rasterPx w k).2 (rasterPx w k).1 with hv
    refine hnone (rasterPx w k) (v - 1).toNat (rasterPx_inMap hk').1 (by omega) ?_
    rw [← warpNearest_grain hW hH hr _ (by omega)]
    omega
  subst hnil
  simp only [linkedGrains, warpGrains, hrel]
  rfl

/-- The DIC map shows a window of the EBSD map, moved by whole pixels. -/
theorem ebsdPx_window (hn : Rounds near) (a b : Int) (p : Px) :
    ebsdPx near (fun u => (u.1 + a, u.2 + b)) p = (p.1 + a, p.2 + b) := by
  simp only [ebsdPx]
  refine Prod.ext ?_ ?_
  · have := rounds_int hn (p.1 + a)
    simpa using this
  · have := rounds_int hn (p.2 + b)
    simpa using this

/-- **C137** If the two maps show the same area with the same pixels, the DIC grains are the EBSD grains,
in the same order, with the same points and labels. -/
theorem C137_same (hn : Rounds near) (hW : 2 ≤ W) (hH : 2 ≤ H)
    (hr : findGrains H W phase np bx by' ms = .ok r) (hf : ∀ u, f u = u) :
    ∃ labels dic, linkedGrains near H W r f H W = .ok (labels, dic) ∧
      dic.length = r.list.length ∧
      (∀ (i : Nat) (pts : List Px) (e : Nat), dic[i]? = some (pts, e) → e = i ∧ pts.Perm (r.points i)) ∧
      ∀ p, InMap H W p → labels p.2 p.1 = r.grains p.2 p.1 := by
  have he : ∀ p, ebsdPx near f p = p := by
    intro p
    simp only [ebsdPx, hf]
    exact Prod.ext (rounds_int hn _) (rounds_int hn _)
  have hnum := (C04_numbering hW hH bx by' phase np ms r hr).1
  have hne : 0 < r.list.length := by
    obtain ⟨p, hp, hpi, hsz⟩ := (C07_failure hW hH bx by' phase np ms).2.2.1 ⟨r, hr⟩
    rcases (C03_partition hW hH bx by' phase np ms r hr).1 p hp hpi with h0 | h0
    · have := (((C04_numbering hW hH bx by' phase np ms r hr).2.1 p hp).1 h0).1
      omega
    · omega
  obtain ⟨q, hq⟩ := List.exists_mem_of_ne_nil _ (hnum 0 hne).2.2.2.1
  obtain ⟨labels, dic, h1, h2, h3⟩ := C137_linked (near := near) (f := f) (h := H) (w := W) hW hH hr
    ⟨q, 0, (hnum 0 hne).2.2.2.2 q hq, hne, by rw [he]; exact hq⟩
  simp only [he] at h2 h3
  have hids : dic.map Prod.snd = List.range r.list.length := by
    refine List.Perm.eq_of_pairwise (le := (· < ·)) (fun a b _ _ h h' => absurd (h.trans h') (lt_irrefl _)) ?_
      List.pairwise_lt_range ?_
    · rw [List.pairwise_iff_getElem]
      intro i j hi hj hij
      simp only [List.length_map] at hi hj
      simp only [List.getElem_map]
      exact (h2.order i j _ _ (List.getElem?_eq_getElem hi) (List.getElem?_eq_getElem hj)).1 hij
    · refine (List.perm_ext_iff_of_nodup ?_ List.nodup_range).2 fun e => ?_
      · rw [List.nodup_iff_pairwise_ne, List.pairwise_iff_getElem]
        intro i j hi hj hij
        simp only [List.length_map] at hi hj
        simp only [List.getElem_map]
        exact ((h2.order i j _ _ (List.getElem?_eq_getElem hi) (List.getElem?_eq_getElem hj)).1 hij).ne
      · rw [List.mem_map, List.mem_range]
        constructor
        · rintro ⟨g, hg, rfl⟩
          obtain ⟨i, hi⟩ := List.mem_iff_getElem?.1 hg
          exact (h2.points i g.1 g.2 hi).1
        · intro hlt
          obtain ⟨q, hq⟩ := List.exists_mem_of_ne_nil _ (hnum e hlt).2.2.2.1
          obtain ⟨i, pts, hi⟩ := h2.found e q hlt ((hnum e hlt).2.2.2.2 q hq) hq
          exact ⟨_, List.mem_of_getElem? hi, rfl⟩
  have hnth : ∀ (i : Nat) (pts : List Px) (e : Nat), dic[i]? = some (pts, e) → e = i := by
    intro i pts e hi
    have h4 : (dic.map Prod.snd)[i]? = some e := by rw [List.getElem?_map, hi]; rfl
    rw [hids] at h4
    obtain ⟨h5, h6⟩ := List.getElem?_eq_some_iff.1 h4
    rw [List.getElem_range] at h6
    exact h6.symm
  refine ⟨labels, dic, h1, by simpa using congrArg List.length hids, ?_, ?_⟩
  · intro i pts e hi
    obtain rfl := hnth i pts e hi
    obtain ⟨h4, -, h5, h6, -⟩ := h2.points e pts e hi
    refine ⟨rfl, (List.perm_ext_iff_of_nodup h5 (hnum e h4).1).2 fun p => ?_⟩
    rw [h6]
    exact ⟨fun h7 => h7.2, fun h7 => ⟨(hnum e h4).2.2.2.2 p h7, h7⟩⟩
  · intro p hp
    by_cases hg : ∃ e < r.list.length, p ∈ r.points e
    · obtain ⟨e, hlt, hpe⟩ := hg
      obtain ⟨i, pts, hi⟩ := h2.found e p hlt hp hpe
      obtain rfl := hnth i pts e hi
      obtain ⟨-, -, -, h6, h7⟩ := h2.points e pts e hi
      rw [(h7 p hp).2 ((h6 p).2 ⟨hp, hpe⟩), ((hnum e hlt).2.1 p).1 hpe]
    · push Not at hg
      exact ((h3 p hp hg).1 hp).1

/-- The hypotheses are met: a window of the map of C03, moved by one column. -/
example : ∃ r, findGrains 3 4 exPhase 2 (fun y x => decide (exPhase y x ≠ exPhase y (x + 1)))
      (fun y x => decide (exPhase y x ≠ exPhase (y + 1) x)) 2 = .ok r ∧
    Rounds (fun u : ℝ => round u) ∧
    ∃ p e, InMap 2 2 p ∧ e < r.list.length ∧
      ebsdPx (fun u : ℝ => round u) (fun u => (u.1 + (1 : Int), u.2 + (0 : Int))) p ∈ r.points e := by
  have hn : Rounds (fun u : ℝ => round u) := fun u => by
    rw [abs_sub_comm]
    exact abs_sub_round u
  set out := findGrains 3 4 exPhase 2 (fun y x => decide (exPhase y x ≠ exPhase y (x + 1)))
    (fun y x => decide (exPhase y x ≠ exPhase (y + 1) x)) 2 with hout
  have hd : out.toOption.map (fun r => (r.list.length, decide (((1, 0) : Px) ∈ r.points 0))) =
      some (2, true) := by decide +kernel
  cases hr : out with
  | error e => rw [hr] at hd; cases hd
  | ok r =>
    rw [hr] at hd
    simp only [Except.toOption, Option.map_some, Option.some.injEq, Prod.mk.injEq,
      decide_eq_true_eq] at hd
    refine ⟨r, rfl, hn, (0, 0), 0, by simp [InMap], by omega, ?_⟩
    rw [ebsdPx_window hn]
    simpa using hd.2

end DefDAP
