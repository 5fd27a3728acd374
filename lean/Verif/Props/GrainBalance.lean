import Verif.Props.GrainData
import Mathlib.Algebra.BigOperators.Group.Finset.Basic

/-!
C160: grain averages and the mean of the map, and how they follow the values of the map.
-/

namespace DefDAP
open Spec

/-- The sum of a map over all its pixels. -/
def Spec.mapSum (h w : Nat) (m : Img Rat) : Rat :=
  ((List.range h).map fun y : Nat => ((List.range w).map fun x : Nat => m y x).sum).sum

/-- All pixels of a map, row by row. -/
def pixelList (h w : Nat) : List Px :=
  (List.range h).flatMap fun y : Nat => (List.range w).map fun x : Nat => ((x : Int), (y : Int))

theorem mem_pixelList {h w : Nat} {p : Px} : p ∈ pixelList h w ↔ InMap h w p := by
  simp only [pixelList, List.mem_flatMap, List.mem_map, List.mem_range]
  constructor
  · rintro ⟨y, hy, x, hx, rfl⟩
    exact ⟨by simp, by simpa using hx, by simp, by simpa using hy⟩
  · rintro ⟨h1, h2, h3, h4⟩
    refine ⟨p.2.toNat, by omega, p.1.toNat, by omega, Prod.ext ?_ ?_⟩ <;> simp only [] <;> omega

theorem pixelList_nodup (h w : Nat) : (pixelList h w).Nodup := by
  rw [pixelList, List.nodup_flatMap]
  refine ⟨fun y _ => (List.nodup_range).map fun a b e => ?_, ?_⟩
  · have := congrArg Prod.fst e
    simpa using this
  · refine List.pairwise_lt_range.imp fun {a b} hab p hp hp' => ?_
    obtain ⟨x, -, rfl⟩ := List.mem_map.1 hp
    obtain ⟨x', -, e⟩ := List.mem_map.1 hp'
    have := congrArg Prod.snd e
    simp at this
    omega

theorem mapSum_eq (h w : Nat) (m : Img Rat) :
    Spec.mapSum h w m = ((pixelList h w).map fun p => m p.2 p.1).sum := by
  unfold Spec.mapSum pixelList
  rw [List.map_flatMap]
  induction List.range h with
  | nil => rfl
  | cons y l ih =>
    simp only [List.map_cons, List.sum_cons, List.flatMap_cons, List.sum_append, ih, List.map_map]
    rfl

theorem balance {h w : Nat} {grains : List (List Px)} (m : Img Rat) (hv : ValidGrains h w grains) :
    (List.zipWith (fun (g : List Px) (a : Option Rat) => (g.length : Rat) * a.getD 0) grains
      (grains.map fun g => some ((g.map fun p => m p.2 p.1).sum / g.length))).sum =
      (grains.flatten.map fun p => m p.2 p.1).sum := by
  have hne := hv.nonempty
  clear hv
  induction grains with
  | nil => rfl
  | cons g l ih =>
    have h0 : (g.length : Rat) ≠ 0 := by
      have := List.length_pos_of_ne_nil (hne g List.mem_cons_self)
      exact_mod_cast this.ne'
    simp only [List.map_cons, List.zipWith_cons_cons, List.sum_cons, List.flatten_cons, List.map_append,
      List.sum_append, Option.getD_some, ih fun x hx => hne x (List.mem_cons_of_mem _ hx)]
    rw [mul_div_cancel₀ _ h0]

/-- **C160** If every pixel of a map is in a grain, the averages of the grains, weighted with the numbers of
their pixels, add up to the sum of the map. -/
theorem C160_balance {h w : Nat} {grains : List (List Px)} (m : Img Rat) (hv : ValidGrains h w grains)
    (hall : ∀ p, InMap h w p → ∃ g ∈ grains, p ∈ g) :
    ∃ avg, calcGrainAverage h w grains m (.int (-1)) = .ok avg ∧
      (List.zipWith (fun (g : List Px) (a : Option Rat) => (g.length : Rat) * a.getD 0) grains avg).sum =
        Spec.mapSum h w m := by
  refine ⟨_, calcGrainAverage_all grains m hv, ?_⟩
  rw [balance m hv, mapSum_eq]
  refine List.Perm.sum_eq (List.Perm.map _ ?_)
  rw [List.perm_ext_iff_of_nodup (validGrains_flat_nodup hv) (pixelList_nodup h w)]
  intro p
  rw [List.mem_flatten, mem_pixelList]
  constructor
  · rintro ⟨g, hg, hp⟩
    exact hv.inMap g hg p hp
  · intro hp
    exact hall p hp

/-- **C160** The average of a grain depends on the values of the map in the grain only, and follows them: it
is not larger for smaller values, and changes by at most the largest change of a value. -/
theorem C160_follow {h w : Nat} {grains : List (List Px)} (m m' : Img Rat) (hv : ValidGrains h w grains) :
    ∃ avg avg', calcGrainAverage h w grains m (.int (-1)) = .ok avg ∧
      calcGrainAverage h w grains m' (.int (-1)) = .ok avg' ∧
      ∀ (i : Nat) (g : List Px), grains[i]? = some g → ∃ a a', avg[i]? = some (some a) ∧
        avg'[i]? = some (some a') ∧
        ((∀ p ∈ g, m p.2 p.1 ≤ m' p.2 p.1) → a ≤ a') ∧
        ∀ e : Rat, (∀ p ∈ g, |m p.2 p.1 - m' p.2 p.1| ≤ e) → |a - a'| ≤ e := by
  refine ⟨_, _, calcGrainAverage_all grains m hv, calcGrainAverage_all grains m' hv, fun i g hg => ?_⟩
  have hne := hv.nonempty g (List.mem_of_getElem? hg)
  have h0 : (0 : Rat) < g.length := by
    have := List.length_pos_of_ne_nil hne
    exact_mod_cast this
  refine ⟨_, _, by rw [List.getElem?_map, hg]; rfl, by rw [List.getElem?_map, hg]; rfl, ?_, ?_⟩
  · intro hle
    exact div_le_div_of_nonneg_right (List.sum_le_sum hle) h0.le
  · intro e he
    have hsub : ∀ l : List Px, (l.map fun p => m p.2 p.1).sum - (l.map fun p => m' p.2 p.1).sum =
        (l.map fun p => m p.2 p.1 - m' p.2 p.1).sum := by
      intro l
      induction l with
      | nil => simp
      | cons p l ih => simp only [List.map_cons, List.sum_cons, ← ih]; ring
    rw [← sub_div, hsub, abs_le]
    exact mean_bounds (fun p : Px => m p.2 p.1 - m' p.2 p.1) (-e) e g hne fun p hp => abs_le.1 (he p hp)

/-- **C160** If values are scaled and shifted, so are the averages. -/
theorem C160_linear {h w : Nat} {grains : List (List Px)} (m : Img Rat) (hv : ValidGrains h w grains) (a b : Rat) :
    ∃ avg, calcGrainAverage h w grains m (.int (-1)) = .ok avg ∧
      calcGrainAverage h w grains (fun y x => a * m y x + b) (.int (-1)) =
        .ok (avg.map fun v => v.map fun v => a * v + b) := by
  refine ⟨_, calcGrainAverage_all grains m hv, ?_⟩
  rw [calcGrainAverage_all grains _ hv, List.map_map]
  congr 1
  refine List.map_congr_left fun g hg => ?_
  have h0 : (g.length : Rat) ≠ 0 := by
    have := List.length_pos_of_ne_nil (hv.nonempty g hg)
    exact_mod_cast this.ne'
  have : ∀ l : List Px, (l.map fun p => a * m p.2 p.1 + b).sum = a * (l.map fun p => m p.2 p.1).sum + l.length * b := by
    intro l
    induction l with
    | nil => simp
    | cons p l ih => simp only [List.map_cons, List.sum_cons, ih, List.length_cons]; push_cast; ring
  simp only [Function.comp_apply, Option.map_some, this, add_div, mul_div_assoc, mul_div_cancel_left₀ _ h0]

/-- **C160** The average of a grain lies between the averages of any two parts of it. -/
theorem C160_parts {h w : Nat} {grains grains' : List (List Px)} (m : Img Rat) (hv : ValidGrains h w grains)
    (hv' : ValidGrains h w grains') (i j k : Nat) (g g1 g2 : List Px) (hg : grains[i]? = some g)
    (h1 : grains'[j]? = some g1) (h2 : grains'[k]? = some g2) (hp : g.Perm (g1 ++ g2)) :
    ∃ avg avg' a a1 a2, calcGrainAverage h w grains m (.int (-1)) = .ok avg ∧
      calcGrainAverage h w grains' m (.int (-1)) = .ok avg' ∧ avg[i]? = some (some a) ∧
      avg'[j]? = some (some a1) ∧ avg'[k]? = some (some a2) ∧
      g.length * a = g1.length * a1 + g2.length * a2 ∧ min a1 a2 ≤ a ∧ a ≤ max a1 a2 := by
  have pos : ∀ {l : List Px}, l ≠ [] → (0 : Rat) < l.length := by
    intro l hl
    have := List.length_pos_of_ne_nil hl
    exact_mod_cast this
  have p0 := pos (hv.nonempty g (List.mem_of_getElem? hg))
  have p1 := pos (hv'.nonempty g1 (List.mem_of_getElem? h1))
  have p2 := pos (hv'.nonempty g2 (List.mem_of_getElem? h2))
  have hlen : (g.length : Rat) = g1.length + g2.length := by
    rw [hp.length_eq, List.length_append]
    push_cast
    rfl
  have hsum : (g.map fun p => m p.2 p.1).sum = (g1.map fun p => m p.2 p.1).sum + (g2.map fun p => m p.2 p.1).sum := by
    rw [(hp.map _).sum_eq, List.map_append, List.sum_append]
  have e : (g.length : Rat) * ((g.map fun p => m p.2 p.1).sum / g.length) =
      g1.length * ((g1.map fun p => m p.2 p.1).sum / g1.length) +
        g2.length * ((g2.map fun p => m p.2 p.1).sum / g2.length) := by
    rw [mul_div_cancel₀ _ p0.ne', mul_div_cancel₀ _ p1.ne', mul_div_cancel₀ _ p2.ne', hsum]
  refine ⟨_, _, _, _, _, calcGrainAverage_all grains m hv, calcGrainAverage_all grains' m hv',
    by rw [List.getElem?_map, hg]; rfl, by rw [List.getElem?_map, h1]; rfl, by rw [List.getElem?_map, h2]; rfl, e, ?_⟩
  generalize (g.map fun p => m p.2 p.1).sum / (g.length : Rat) = a at e
  generalize (g1.map fun p => m p.2 p.1).sum / (g1.length : Rat) = a1 at e
  generalize (g2.map fun p => m p.2 p.1).sum / (g2.length : Rat) = a2 at e
  rw [hlen] at e p0
  have l1 := min_le_left a1 a2
  have l2 := min_le_right a1 a2
  have u1 := le_max_left a1 a2
  have u2 := le_max_right a1 a2
  constructor <;> by_contra hc <;> push Not at hc
  · nlinarith
  · nlinarith

/-- Hypotheses of C160 met: a map of two rows, each a grain; cut in halves the second one has two parts. -/
example : ValidGrains 2 2 [[(0, 0), (1, 0)], [(0, 1), (1, 1)]] ∧
    ValidGrains 2 2 [[(0, 1)], [(1, 1)]] ∧
    (∀ p, InMap 2 2 p → ∃ g ∈ ([[(0, 0), (1, 0)], [(0, 1), (1, 1)]] : List (List Px)), p ∈ g) ∧
    ([(0, 1), (1, 1)] : List Px).Perm ([(0, 1)] ++ [(1, 1)]) := by
  refine ⟨⟨by decide, by decide, ?_, by decide⟩, ⟨by decide, by decide, ?_, by decide⟩, ?_, .refl _⟩
  · simp only [InMap, List.mem_cons, List.not_mem_nil, or_false]
    rintro g (rfl | rfl) p hp <;> simp at hp <;> rcases hp with rfl | rfl <;> decide
  · simp [InMap]
  · rintro ⟨x, y⟩ ⟨h1, h2, h3, h4⟩
    simp only at h1 h2 h3 h4
    have : (x = 0 ∨ x = 1) ∧ (y = 0 ∨ y = 1) := by omega
    rcases this with ⟨rfl | rfl, rfl | rfl⟩ <;> decide

end DefDAP
