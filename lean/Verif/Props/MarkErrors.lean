import Mathlib.Data.Set.Card
import Mathlib.Algebra.Order.BigOperators.Group.Finset
import Verif.Props.LinkedGrains
import Verif.Props.LinkMargin

/-! C167: what wrong marks change in the grains of a linked DIC map. -/

namespace DefDAP

open Spec

/-- The number of pixels of a map with a property. -/
noncomputable def Spec.pxCount (H W : Nat) (P : Px → Prop) : Nat := Set.ncard {p : Px | InMap H W p ∧ P p}

/-- A pixel of the DIC map in the grain with a given position in the list. -/
def Spec.InDicGrain (h w : Nat) (dic : Img Int) (i : Nat) (q : Px) : Prop :=
  InMap h w q ∧ dic q.2 q.1 = (i : Int) + 1

/-- Pixels whose centre is at most `ε` and half a pixel from a position, in each direction. -/
def Spec.Around (ε : ℝ) (u : ℝ × ℝ) (q : Px) : Prop := |(q.1 : ℝ) - u.1| ≤ ε + 1 / 2 ∧ |(q.2 : ℝ) - u.2| ≤ ε + 1 / 2

/-- Two transforms that differ by at most `ε` in each direction at a pixel. -/
def Spec.OffBy (ε : ℝ) (f f' : ℝ × ℝ → ℝ × ℝ) (p : Px) : Prop :=
  |(f' ((p.1 : ℝ), (p.2 : ℝ))).1 - (f ((p.1 : ℝ), (p.2 : ℝ))).1| ≤ ε ∧
  |(f' ((p.1 : ℝ), (p.2 : ℝ))).2 - (f ((p.1 : ℝ), (p.2 : ℝ))).2| ≤ ε

/-- An EBSD pixel at whose position in the DIC map there is, up to `ε`, a border of the grain. -/
def Spec.AtBorder (h w : Nat) (dic : Img Int) (i : Nat) (ε : ℝ) (f : ℝ × ℝ → ℝ × ℝ) (p : Px) : Prop :=
  ∃ q q', Around ε (f ((p.1 : ℝ), (p.2 : ℝ))) q ∧ Around ε (f ((p.1 : ℝ), (p.2 : ℝ))) q' ∧
    InDicGrain h w dic i q ∧ ¬ InDicGrain h w dic i q'

theorem around_near {near : ℝ → Int} (hn : Rounds near) {ε : ℝ} {f f' : ℝ × ℝ → ℝ × ℝ} {p : Px}
    (ho : OffBy ε f f' p) : Around ε (f ((p.1 : ℝ), (p.2 : ℝ))) (ebsdPx near f' p) := by
  have h1 := hn (f' ((p.1 : ℝ), (p.2 : ℝ))).1
  have h2 := hn (f' ((p.1 : ℝ), (p.2 : ℝ))).2
  obtain ⟨h3, h4⟩ := ho
  rw [abs_le] at h1 h2 h3 h4
  constructor
  · rw [abs_le]
    simp only [ebsdPx]
    constructor <;> linarith [h1.1, h1.2, h3.1, h3.2]
  · rw [abs_le]
    simp only [ebsdPx]
    constructor <;> linarith [h2.1, h2.2, h4.1, h4.2]

theorem offBy_self {ε : ℝ} (hε : 0 ≤ ε) (f : ℝ × ℝ → ℝ × ℝ) (p : Px) : OffBy ε f f p := by
  constructor <;> rw [sub_self, abs_zero] <;> exact hε

theorem pxList_nodup (H W : Nat) : ((List.range (H * W)).map (rasterPx W)).Nodup := by
  refine (List.nodup_map_iff_inj_on List.nodup_range).2 fun a ha b hb hab => ?_
  have h1 := (rasterPx_inMap (h := H) (List.mem_range.1 ha)).2
  have h2 := (rasterPx_inMap (h := H) (List.mem_range.1 hb)).2
  rw [hab] at h1
  omega

theorem mem_pxList {H W : Nat} {p : Px} : p ∈ (List.range (H * W)).map (rasterPx W) ↔ InMap H W p := by
  rw [List.mem_map]
  constructor
  · rintro ⟨k, hk, rfl⟩
    exact (rasterPx_inMap (List.mem_range.1 hk)).1
  · intro hp
    exact ⟨_, List.mem_range.2 (rasterPx_surj hp).1, (rasterPx_surj hp).2⟩

open Classical in
theorem pxCount_sum (H W : Nat) (P : Px → Prop) :
    pxCount H W P = ∑ p ∈ ((List.range (H * W)).map (rasterPx W)).toFinset, if P p then 1 else 0 := by
  rw [← Finset.card_filter, pxCount, ← Set.ncard_coe_finset]
  congr 1
  ext p
  simp only [Set.mem_ofPred_eq, Finset.coe_filter, List.mem_toFinset, mem_pxList]

theorem count_filterMap_if (l : List Px) (c : Px → Prop) [DecidablePred c] (v : Px → Int) (b : Int) :
    (l.filterMap fun p => if c p then some (v p) else none).count b
      = (l.filter fun p => decide (c p ∧ v p = b)).length := by
  induction l with
  | nil => rfl
  | cons a t ih =>
    rw [List.filterMap_cons, List.filter_cons]
    by_cases h1 : c a
    · by_cases h2 : v a = b
      · simp [h1, h2, ih]
      · simp [h1, h2, ih]
    · simp [h1, ih]

theorem warped_iff {near : ℝ → Int} {h w : Nat} {dic : Img Int} {f : ℝ × ℝ → ℝ × ℝ} {i : Nat} {p : Px} :
    warpNearest near h w dic f p.2 p.1 = (i : Int) + 1 ↔ InDicGrain h w dic i (ebsdPx near f p) := by
  have : warpNearest near h w dic f p.2 p.1 = if inB h w (ebsdPx near f p).1 (ebsdPx near f p).2 then
      dic (ebsdPx near f p).2 (ebsdPx near f p).1 else 0 := rfl
  rw [this]
  split_ifs with hb
  · exact ⟨fun h0 => ⟨(inB_iff ..).1 hb, h0⟩, fun h0 => h0.2⟩
  · constructor
    · intro h0; omega
    · intro h0
      exact absurd ((inB_iff ..).2 h0.1) hb

theorem count_overlap (near : ℝ → Int) (h w : Nat) (dic : Img Int) (f : ℝ × ℝ → ℝ × ℝ) (H W : Nat)
    (labels : Img Int) (i : Nat) (b : Int) :
    (((List.range (H * W)).map (rasterPx W)).filterMap fun p =>
      if warpNearest near h w dic f p.2 p.1 = (i : Int) + 1 then some (labels p.2 p.1) else none).count b =
    pxCount H W fun p => InDicGrain h w dic i (ebsdPx near f p) ∧ labels p.2 p.1 = b := by
  rw [count_filterMap_if, pxCount,
    ← List.toFinset_card_of_nodup ((pxList_nodup H W).filter _), ← Set.ncard_coe_finset]
  congr 1
  ext p
  simp only [Set.mem_ofPred_eq, List.coe_toFinset, List.mem_filter, mem_pxList, decide_eq_true_eq, warped_iff]

/-- **C167**: a grain found by flood fill is linked to the EBSD grain with the most pixels whose next DIC pixel is in the
grain, if one has more than every other label. -/
theorem C167_link {α : Type} (near : ℝ → Int) (h w : Nat) (dic : Img Int) (f : ℝ × ℝ → ℝ × ℝ) (H W : Nat)
    (labels : Img Int) (ebsd : List α) (i k : Nat) (g : α) (hk : ebsd[k]? = some g)
    (hlead : ∀ b, b ≠ (k : Int) + 1 →
      (pxCount H W fun p => InDicGrain h w dic i (ebsdPx near f p) ∧ labels p.2 p.1 = b)
        < pxCount H W fun p => InDicGrain h w dic i (ebsdPx near f p) ∧ labels p.2 p.1 = (k : Int) + 1) :
    floodLink near h w dic f H W labels ebsd i = .ok g := by
  refine link_label (winner_mode (leads_winner ⟨?_, fun b hb => ?_⟩)) hk
  · rw [← List.count_pos_iff, count_overlap]
    have := hlead ((k : Int) + 2) (by omega)
    omega
  · rw [count_overlap, count_overlap, Nat.add_zero]
    exact hlead b hb

/-- **C167**: wrong marks and links. `f` is the true transform and `f'` one that is off by at most `ε` in each direction at
every EBSD pixel. If the label of an EBSD grain leads every other by more pixels than there are at the border of the DIC
grain, up to `ε` and half a pixel, the grain is linked to this EBSD grain with both. -/
theorem C167_marks {α : Type} (near : ℝ → Int) (hn : Rounds near) (h w : Nat) (dic : Img Int)
    (f f' : ℝ × ℝ → ℝ × ℝ) (ε : ℝ) (hε : 0 ≤ ε) (H W : Nat) (hoff : ∀ p, InMap H W p → OffBy ε f f' p)
    (labels : Img Int) (ebsd : List α) (i k : Nat) (g : α) (hk : ebsd[k]? = some g)
    (hlead : ∀ b, b ≠ (k : Int) + 1 →
      (pxCount H W fun p => InDicGrain h w dic i (ebsdPx near f p) ∧ labels p.2 p.1 = b)
          + (pxCount H W fun p => AtBorder h w dic i ε f p)
        < pxCount H W fun p => InDicGrain h w dic i (ebsdPx near f p) ∧ labels p.2 p.1 = (k : Int) + 1) :
    floodLink near h w dic f H W labels ebsd i = .ok g ∧ floodLink near h w dic f' H W labels ebsd i = .ok g := by
  classical
  refine ⟨C167_link near h w dic f H W labels ebsd i k g hk fun b hb => ?_,
    C167_link near h w dic f' H W labels ebsd i k g hk fun b hb => ?_⟩
  · have := hlead b hb
    omega
  · have h1 := hlead b hb
    have key : (pxCount H W fun p => InDicGrain h w dic i (ebsdPx near f' p) ∧ labels p.2 p.1 = b)
        + (pxCount H W fun p => InDicGrain h w dic i (ebsdPx near f p) ∧ labels p.2 p.1 = (k : Int) + 1)
      ≤ (pxCount H W fun p => InDicGrain h w dic i (ebsdPx near f p) ∧ labels p.2 p.1 = b)
        + (pxCount H W fun p => InDicGrain h w dic i (ebsdPx near f' p) ∧ labels p.2 p.1 = (k : Int) + 1)
        + (pxCount H W fun p => AtBorder h w dic i ε f p) := by
      simp only [pxCount_sum]
      rw [← Finset.sum_add_distrib, ← Finset.sum_add_distrib, ← Finset.sum_add_distrib]
      refine Finset.sum_le_sum fun p hp => ?_
      rw [List.mem_toFinset, mem_pxList] at hp
      have ha := around_near hn (offBy_self hε f p)
      have ha' := around_near hn (hoff p hp)
      by_cases hbd : AtBorder h w dic i ε f p
      · by_cases hl : labels p.2 p.1 = b
        · have hne : labels p.2 p.1 ≠ (k : Int) + 1 := by rw [hl]; exact hb
          simp only [hbd, hne, and_false, if_true, if_false]
          split_ifs <;> omega
        · simp only [hbd, hl, and_false, if_true, if_false]
          split_ifs <;> omega
      · have hiff : InDicGrain h w dic i (ebsdPx near f' p) ↔ InDicGrain h w dic i (ebsdPx near f p) := by
          by_contra hc
          apply hbd
          by_cases h3 : InDicGrain h w dic i (ebsdPx near f p)
          · exact ⟨_, _, ha, ha', h3, fun h4 => hc ⟨fun _ => h3, fun _ => h4⟩⟩
          · by_cases h4 : InDicGrain h w dic i (ebsdPx near f' p)
            · exact ⟨_, _, ha', ha, h4, h3⟩
            · exact absurd ⟨fun h5 => absurd h5 h4, fun h5 => absurd h5 h3⟩ hc
        simp only [hiff]
        split_ifs <;> omega
    omega

/-- **C167**: wrong marks and grains by warping. A DIC pixel around whose true position in the EBSD map, up to `ε` and half
a pixel, there is only one EBSD grain, is in the DIC grain of this EBSD grain with every transform that is off by at most
`ε` there. -/
theorem C167_warp {near : ℝ → Int} (hn : Rounds near) {H W h w : Nat} (hW : 2 ≤ W) (hH : 2 ≤ H)
    {bx by' : Img Bool} {phase : Img Int} {np ms : Nat} {r : FGResult}
    (hr : findGrains H W phase np bx by' ms = .ok r) (f f' : ℝ × ℝ → ℝ × ℝ) (ε : ℝ) (p : Px) (hp : InMap h w p)
    (e : Nat) (he : e < r.list.length)
    (hin : ∀ q, Around ε (f ((p.1 : ℝ), (p.2 : ℝ))) q → q ∈ r.points e) (hoff : OffBy ε f f' p) :
    ∃ (labels : Img Int) (dic : List (List Px × Nat)) (i : Nat) (pts : List Px),
      linkedGrains near H W r f' h w = .ok (labels, dic) ∧ dic[i]? = some (pts, e) ∧ p ∈ pts := by
  have hq : ebsdPx near f' p ∈ r.points e := hin _ (around_near hn hoff)
  obtain ⟨labels, dic, hok, hd, -⟩ := C137_linked (f := f') (near := near) (h := h) (w := w) hW hH hr ⟨p, e, hp, he, hq⟩
  obtain ⟨i, pts, hi⟩ := hd.found e p he hp hq
  exact ⟨labels, dic, i, pts, hok, hi, ((hd.points i pts e hi).2.2.2.1 p).2 ⟨hp, hq⟩⟩

theorem around_quarter {p q : Px} (h : Around (1 / 4) ((p.1 : ℝ), (p.2 : ℝ)) q) : q = p := by
  have key : ∀ a b : Int, |(a : ℝ) - b| ≤ 1 / 4 + 1 / 2 → a = b := by
    intro a b hab
    rw [← Int.cast_sub, ← Int.cast_abs] at hab
    have h1 : |a - b| < 1 := by
      have h2 : ((|a - b| : Int) : ℝ) < 1 := by linarith
      exact_mod_cast h2
    rw [abs_lt] at h1
    omega
  exact Prod.ext (key _ _ h.1) (key _ _ h.2)

/-- The hypotheses of `C167_marks` are met: the same two halves in both maps, marks a quarter of a pixel off. -/
example : let half : Img Int := fun _ x => if x < 2 then 1 else 2
    (∀ p, InMap 3 4 p → OffBy (1 / 4) (fun u => u) (fun u => (u.1 + 1 / 4, u.2)) p) ∧
    ∀ b, b ≠ ((0 : Nat) : Int) + 1 →
      (pxCount 3 4 fun p => InDicGrain 3 4 half 0 (ebsdPx (fun u : ℝ => round u) (fun u => u) p) ∧ half p.2 p.1 = b)
          + (pxCount 3 4 fun p => AtBorder 3 4 half 0 (1 / 4) (fun u => u) p)
        < pxCount 3 4 fun p => InDicGrain 3 4 half 0 (ebsdPx (fun u : ℝ => round u) (fun u => u) p) ∧
          half p.2 p.1 = ((0 : Nat) : Int) + 1 := by
  intro half
  have hpx : ∀ p : Px, ebsdPx (fun u : ℝ => round u) (fun u => u) p = p := fun p => by
    simp [ebsdPx]
  refine ⟨fun p _ => ⟨?_, ?_⟩, fun b hb => ?_⟩
  · simp only [add_sub_cancel_left]; norm_num [abs_le]
  · simp
  · simp only [hpx]
    have h1 : (pxCount 3 4 fun p => InDicGrain 3 4 half 0 p ∧ half p.2 p.1 = b) = 0 := by
      rw [pxCount]
      convert Set.ncard_empty Px
      rw [Set.eq_empty_iff_forall_notMem]
      rintro p ⟨-, ⟨-, h2⟩, h3⟩
      exact hb (h3.symm.trans h2)
    have h2 : (pxCount 3 4 fun p => AtBorder 3 4 half 0 (1 / 4) (fun u => u) p) = 0 := by
      rw [pxCount]
      convert Set.ncard_empty Px
      rw [Set.eq_empty_iff_forall_notMem]
      rintro p ⟨-, q, q', h3, h4, h5, h6⟩
      rw [around_quarter h3] at h5
      rw [around_quarter h4] at h6
      exact h6 h5
    rw [h1, h2, pxCount, Nat.add_zero]
    refine (Set.ncard_pos (Set.Finite.subset (Finset.finite_toSet
      ((List.range (3 * 4)).map (rasterPx 4)).toFinset) fun p hp => ?_)).2 ⟨(0, 0), ?_⟩
    · simp only [List.coe_toFinset, Set.mem_ofPred_eq]
      exact mem_pxList.2 hp.1
    · exact ⟨by simp [InMap], ⟨by simp [InMap], by simp [half]⟩, by simp [half]⟩

/-- The hypotheses of `C167_warp` are met: the map of C03, with marks a quarter of a pixel off. -/
example : ∃ r, findGrains 3 4 exPhase 2 (fun y x => decide (exPhase y x ≠ exPhase y (x + 1)))
      (fun y x => decide (exPhase y x ≠ exPhase (y + 1) x)) 2 = .ok r ∧
    ∃ (p : Px) (e : Nat), InMap 2 2 p ∧ e < r.list.length ∧
      ∀ q, Around (1 / 4) ((p.1 : ℝ), (p.2 : ℝ)) q → q ∈ r.points e := by
  set out := findGrains 3 4 exPhase 2 (fun y x => decide (exPhase y x ≠ exPhase y (x + 1)))
    (fun y x => decide (exPhase y x ≠ exPhase (y + 1) x)) 2 with hout
  have hd : out.toOption.map (fun r => (r.list.length, decide (((1, 0) : Px) ∈ r.points 0))) =
      some (2, true) := by decide +kernel
  cases hr : out with
  | error e => rw [hr] at hd; cases hd
  | ok r =>
    rw [hr] at hd
    simp only [Except.toOption, Option.map_some, Option.some.injEq, Prod.mk.injEq,
      decide_eq_true_eq] at hd
    refine ⟨r, rfl, (1, 0), 0, by simp [InMap], by omega, fun q hq => ?_⟩
    rw [around_quarter hq]
    exact hd.2

end DefDAP
