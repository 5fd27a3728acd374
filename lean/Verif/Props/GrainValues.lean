import Verif.Model.GrainValues
import Verif.Props.GrainData

/-! C119: maps and inverse pole figures of grain values. -/

namespace DefDAP

open Spec

/-- The mean of a map over a grain. -/
def Spec.grainMean (m : Img Rat) (g : List Px) : Rat := (g.map fun p => m p.2 p.1).sum / g.length

theorem calcGrainAverage_list {h w : Nat} (grains : List (List Px)) (m : Img Rat)
    (hv : ValidGrains h w grains) (ids : List Nat) (hid : ∀ i ∈ ids, i < grains.length) :
    calcGrainAverage h w grains m (.list (ids.map fun (k : Nat) => (k : Int))) =
      .ok (ids.map fun i => some (Spec.grainMean m ((grains[i]?).getD []))) := by
  unfold calcGrainAverage averageIds
  simp only [bind, Except.bind]
  have hf : ∀ i ∈ ids.map (fun (k : Nat) => (k : Int)),
      grainAverage h w grains m i =
      .ok ((fun i : Int => some (Spec.grainMean m ((grains[i.toNat]?).getD []))) i) := by
    intro i hi
    obtain ⟨k, hk, rfl⟩ := List.mem_map.1 hi
    have hk := hid k hk
    have hg : grains[k]? = some grains[k] := List.getElem?_eq_getElem hk
    unfold grainAverage
    rw [pyGet_nat hg]
    simp only [bind, Except.bind]
    rw [grainData_ok m (hv.inMap _ (List.getElem_mem hk))]
    have hne := hv.nonempty _ (List.getElem_mem hk)
    simp only [mean?, List.map_eq_nil_iff, hne, if_false, Int.toNat_natCast, hg, Option.getD_some,
      List.length_map, Spec.grainMean]
  rw [mapM_ok _ hf, List.map_map]
  congr 1

/-- **C119 (map of averages).** With map data and a list of distinct grains every point of a listed grain shows
the mean of the data over its grain, all others the background. -/
theorem C119_map {h w : Nat} (grains : List (List Px)) (hv : ValidGrains h w grains) (m : Img Rat)
    (ids : List Nat) (hid : ∀ i ∈ ids, i < grains.length) (hnd : ids.Nodup) (bg : Option Rat) :
    ∃ im, plotGrainDataMap h w grains (some m) none (.list (ids.map fun (k : Nat) => (k : Int))) bg = .ok im ∧
      (∀ i ∈ ids, ∀ g, grains[i]? = some g → ∀ p ∈ g, im p.2 p.1 = some (Spec.grainMean m g)) ∧
      (∀ p : Px, (∀ i ∈ ids, ∀ g, grains[i]? = some g → p ∉ g) → im p.2 p.1 = bg) := by
  obtain ⟨im, h1, h2, h3⟩ := C20_paint grains hv ids hid hnd
    (ids.map fun i => some (Spec.grainMean m ((grains[i]?).getD []))) (by simp) bg
  refine ⟨im, ?_, ?_, h3⟩
  · unfold plotGrainDataMap
    simp only
    rw [calcGrainAverage_list grains m hv ids hid]
    exact h1
  · intro i hi g hg p hp
    obtain ⟨k, hk⟩ := List.mem_iff_getElem?.1 hi
    exact h2 k i _ g hk (by rw [List.getElem?_map, hk, Option.map_some, hg]; rfl) hg p hp

/-- **C119 (map of all averages).** The same for all grains, the default. -/
theorem C119_map_all {h w : Nat} (grains : List (List Px)) (hv : ValidGrains h w grains) (m : Img Rat)
    (bg : Option Rat) :
    ∃ im, plotGrainDataMap h w grains (some m) none (.int (-1)) bg = .ok im ∧
      (∀ g ∈ grains, ∀ p ∈ g, im p.2 p.1 = some (Spec.grainMean m g)) ∧
      (∀ p : Px, (∀ g ∈ grains, p ∉ g) → im p.2 p.1 = bg) := by
  obtain ⟨im, h1, h2, h3⟩ := (C20_paint_all grains hv
    (grains.map fun g => some ((g.map fun p => m p.2 p.1).sum / (g.length : Rat))) bg).2 (by simp)
  refine ⟨im, ?_, ?_, h3⟩
  · unfold plotGrainDataMap
    simp only
    rw [calcGrainAverage_all grains m hv]
    exact h1
  · intro g hg p hp
    obtain ⟨k, hk⟩ := List.mem_iff_getElem?.1 hg
    exact h2 k _ g (by rw [List.getElem?_map, hk]; rfl) hk p hp

/-- **C119 (arguments).** Given values are painted as they are, whatever the map data; with neither the call is
a `ValueError`, for maps and for pole figures. -/
theorem C119_arguments (h w : Nat) (grains : List (List Px)) (mapData : Option (Img Rat))
    (d : List (Option Rat)) (ids : GrainIds) (bg : Option Rat) (refs : List (Option (Quat ℝ))) (g : SymGroup)
    (triangle : String) (dir : Fin 3 → ℝ) :
    plotGrainDataMap h w grains mapData (some d) ids bg = grainDataToMapData h w grains d ids bg ∧
    plotGrainDataMap h w grains none none ids bg = .error .valueError ∧
    plotGrainDataIpf h w grains refs g triangle dir none none ids = .error .valueError := by
  refine ⟨?_, rfl, rfl⟩
  cases mapData <;> rfl

theorem allQuats_some (l : List (Quat ℝ)) : allQuats (l.map some) = .ok l := by
  induction l with
  | nil => rfl
  | cons q l ih => rw [List.map_cons, allQuats, ih]; rfl

theorem mapM_refs (refs : List (Option (Quat ℝ))) (ids : List Nat) (quats : List (Quat ℝ))
    (h : List.Forall₂ (fun i q => refs[i]? = some (some q)) ids quats) :
    (ids.map fun (k : Nat) => (k : Int)).mapM (pyGet refs) = .ok (quats.map some) := by
  induction h with
  | nil => rfl
  | cons h1 _ ih =>
    rw [List.map_cons, List.mapM_cons, pyGet_nat h1]
    show (List.mapM (pyGet refs) _).bind _ = _
    rw [ih]
    rfl

/-- **C119 (pole figure).** For a list of grains with orientations, the pole figure has one point for each of
them, in their order: at the direction of the orientation of that grain, with the mean of the map data over that
grain. -/
theorem C119_ipf {h w : Nat} (grains : List (List Px)) (hv : ValidGrains h w grains) (m : Img Rat)
    (ids : List Nat) (hid : ∀ i ∈ ids, i < grains.length) (refs : List (Option (Quat ℝ)))
    (quats : List (Quat ℝ)) (href : List.Forall₂ (fun i q => refs[i]? = some (some q)) ids quats)
    (g : SymGroup) (triangle : String) (d : Fin 3 → ℝ) (dirs : List (ℝ × ℝ))
    (hd : calcFundDirs g triangle quats d = .ok dirs) :
    ∃ vals, plotGrainDataIpf h w grains refs g triangle d (some m) none
        (.list (ids.map fun (k : Nat) => (k : Int))) = .ok (dirs, vals) ∧
      List.Forall₂ (fun i v => ∃ gr, grains[i]? = some gr ∧ v = some (Spec.grainMean m gr)) ids vals := by
  refine ⟨ids.map fun i => some (Spec.grainMean m ((grains[i]?).getD [])), ?_, ?_⟩
  · unfold plotGrainDataIpf
    simp only
    rw [calcGrainAverage_list grains m hv ids hid]
    simp only [Except.bind, ipfIds]
    rw [if_pos (by simp), mapM_refs refs ids quats href]
    show (allQuats (quats.map some)).bind _ = _
    rw [allQuats_some]
    show (calcFundDirs g triangle quats d).bind _ = _
    rw [hd]
    rfl
  · rw [List.forall₂_map_right_iff, List.forall₂_same]
    intro i hi
    have hl := hid i hi
    have hg : grains[i]? = some grains[i] := List.getElem?_eq_getElem hl
    exact ⟨_, hg, by rw [hg]; rfl⟩

/-- **C119 (values given).** With values for the grains the points have these values; another number of values is an
exception. -/
theorem C119_ipf_values (h w : Nat) (grains : List (List Px)) (vals : List (Option Rat)) (ids : List Nat)
    (refs : List (Option (Quat ℝ))) (quats : List (Quat ℝ))
    (href : List.Forall₂ (fun i q => refs[i]? = some (some q)) ids quats) (mapData : Option (Img Rat))
    (g : SymGroup) (triangle : String) (d : Fin 3 → ℝ) (dirs : List (ℝ × ℝ))
    (hd : calcFundDirs g triangle quats d = .ok dirs) :
    (vals.length = ids.length → plotGrainDataIpf h w grains refs g triangle d mapData (some vals)
      (.list (ids.map fun (k : Nat) => (k : Int))) = .ok (dirs, vals)) ∧
    (vals.length ≠ ids.length → plotGrainDataIpf h w grains refs g triangle d mapData (some vals)
      (.list (ids.map fun (k : Nat) => (k : Int))) = .error .exception) := by
  have e : plotGrainDataIpf h w grains refs g triangle d mapData (some vals)
      (.list (ids.map fun (k : Nat) => (k : Int))) =
      if vals.length = (ids.map fun (k : Nat) => (k : Int)).length then
        ((ids.map fun (k : Nat) => (k : Int)).mapM (pyGet refs)).bind fun oris =>
        (allQuats oris).bind fun quats =>
        (calcFundDirs g triangle quats d).bind fun dirs => .ok (dirs, vals)
      else .error .exception := by
    cases mapData <;> rfl
  rw [e]
  constructor
  · intro hl
    rw [if_pos (by simpa using hl), mapM_refs refs ids quats href]
    show (allQuats (quats.map some)).bind _ = _
    rw [allQuats_some]
    show (calcFundDirs g triangle quats d).bind _ = _
    rw [hd]
    rfl
  · intro hl
    rw [if_neg (by simpa using hl)]

/-- **C119 (false for one grain).** One grain given by its number, as documented, is a `TypeError`: for the map of
averages, and for the pole figure also with values. -/
theorem C119_one_grain (h w : Nat) (grains : List (List Px)) (m : Img Rat) (i : Nat) (bg : Option Rat)
    (vals : List (Option Rat)) (refs : List (Option (Quat ℝ))) (g : SymGroup) (triangle : String)
    (d : Fin 3 → ℝ) :
    plotGrainDataMap h w grains (some m) none (.int i) bg = .error .typeError ∧
    plotGrainDataIpf h w grains refs g triangle d (some m) none (.int i) = .error .typeError ∧
    plotGrainDataIpf h w grains refs g triangle d none (some vals) (.int i) = .error .typeError := by
  have hi : ¬ (i : Int) = -1 := by omega
  have ha : calcGrainAverage h w grains m (.int i) = .error .typeError := by
    unfold calcGrainAverage averageIds
    simp only [if_neg hi]
    rfl
  have hids : ipfIds grains.length (.int i) = .error .typeError := by
    unfold ipfIds
    simp only [if_neg hi]
  refine ⟨?_, ?_, ?_⟩
  · unfold plotGrainDataMap
    simp only
    rw [ha]
    rfl
  · unfold plotGrainDataIpf
    simp only
    rw [ha]
    rfl
  · unfold plotGrainDataIpf
    simp only [Except.bind]
    rw [hids]

/-- **C119 (false without orientations).** A listed grain without a reference orientation is an
`AttributeError`. -/
theorem C119_no_orientation (h w : Nat) (grains : List (List Px)) (vals : List (Option Rat)) (ids : List Nat)
    (hl : vals.length = ids.length) (refs : List (Option (Quat ℝ))) (hid : ∀ i ∈ ids, i < refs.length)
    (i : Nat) (hi : i ∈ ids) (hn : refs[i]? = some none) (g : SymGroup) (triangle : String) (d : Fin 3 → ℝ) :
    plotGrainDataIpf h w grains refs g triangle d none (some vals)
      (.list (ids.map fun (k : Nat) => (k : Int))) = .error .attributeError := by
  have hm : (ids.map fun (k : Nat) => (k : Int)).mapM (pyGet refs) =
      .ok (ids.map fun k => (refs[k]?).getD none) := by
    have hf : ∀ j ∈ ids.map (fun (k : Nat) => (k : Int)), pyGet refs j =
        .ok ((fun j : Int => (refs[j.toNat]?).getD none) j) := by
      intro j hj
      obtain ⟨k, hk, rfl⟩ := List.mem_map.1 hj
      have := List.getElem?_eq_getElem (hid k hk)
      rw [pyGet_nat this]
      simp [this]
    rw [mapM_ok _ hf, List.map_map]
    congr 1
  have hq : ∀ l : List (Option (Quat ℝ)), none ∈ l → allQuats l = .error .attributeError := by
    intro l
    induction l with
    | nil => intro h; cases h
    | cons a l ih =>
      intro h
      cases a with
      | none => rfl
      | some q =>
        have h : none ∈ l := by simpa using h
        rw [allQuats, ih h]
        rfl
  unfold plotGrainDataIpf
  simp only [Except.bind, ipfIds]
  rw [if_pos (by simpa using hl), hm]
  simp only
  rw [hq _ (List.mem_map.2 ⟨i, hi, by rw [hn]; rfl⟩)]

/-! ### The hypotheses are met -/

/-- Two grains in a list, with orientations. -/
example : (∀ i ∈ [1, 0], i < exGrainList.length) ∧
    List.Forall₂ (fun i q => ([some (⟨1, 0, 0, 0⟩), some ⟨1, 0, 0, 0⟩] : List (Option (Quat ℝ)))[i]? = some (some q))
      [1, 0] [⟨1, 0, 0, 0⟩, ⟨1, 0, 0, 0⟩] ∧ Spec.grainMean (fun y x => 10 * y + x) [(2, 1), (2, 0)] = 7 := by
  refine ⟨by decide, .cons rfl (.cons rfl .nil), by decide +kernel⟩

end DefDAP
