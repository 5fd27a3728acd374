import Verif.Model.MisOriMap
import Verif.Props.Grod
import Verif.Proofs.GrainData

/-! C109: the misorientation map. -/

namespace DefDAP

open Quat

theorem paintPoints_out {α : Type} (l : List (Px × α)) (im : Img α) (p : Px)
    (h : p ∉ l.map Prod.fst) : paintPoints im l p.2 p.1 = im p.2 p.1 := by
  induction l generalizing im with
  | nil => rfl
  | cons a t ih =>
    simp only [List.map_cons, List.mem_cons, not_or] at h
    show paintPoints _ t p.2 p.1 = _
    rw [ih _ h.2]
    refine if_neg fun hh => h.1 ?_
    exact Prod.ext hh.2 hh.1

theorem paintPoints_in {α : Type} (l : List (Px × α)) (im : Img α) (hn : (l.map Prod.fst).Nodup)
    (p : Px) (v : α) (h : (p, v) ∈ l) : paintPoints im l p.2 p.1 = v := by
  induction l generalizing im with
  | nil => simp at h
  | cons a t ih =>
    rw [List.map_cons, List.nodup_cons] at hn
    show paintPoints _ t p.2 p.1 = _
    rcases List.mem_cons.1 h with rfl | h
    · rw [paintPoints_out t _ p hn.1]
      simp
    · exact ih _ hn.2 h

/-- The grains of a map: no point is in two grains or twice in one, every point has an orientation. -/
structure Spec.GrainsOk (gs : List DevGrain) : Prop where
  nodup : (gs.flatMap DevGrain.pts).Nodup
  len : ∀ g ∈ gs, g.pts.length = g.quats.length
  unit : ∀ g ∈ gs, ∀ q ∈ g.quats, q.IsUnit

/-- The grain has a phase with symmetry `sym`, and `r` is its reference orientation: the one it has,
or the average of its points. -/
def Spec.HasRef (g : DevGrain) (sym : SymGroup) (r : Quat ℝ) : Prop :=
  g.phase = some sym ∧ grainRef sym g.quats g.ref = .ok r ∧ r.IsUnit ∧ r.North

theorem buildMisOriList_axes (sym : SymGroup) (quats : List (Quat ℝ))
    (hu : ∀ q ∈ quats, q.IsUnit) (r : Quat ℝ) (hr : r.IsUnit) :
    ∃ mean grod, calcGrod sym quats (some r) = .ok grod ∧
      buildMisOriList sym quats (some r) =
        .ok (quats.map (fun q => some (misOri (symEqv sym) q r)), mean,
          grod.map fun o => o.map fun av => av.2) := by
  by_cases hne : quats = []
  · subst hne
    exact ⟨_, _, rfl, rfl⟩
  · obtain ⟨l, mean, axes, h1, h2, -, -, -, grod, h3, h4⟩ := C88_list sym quats hu r hr hne
    exact ⟨mean, grod, h3, by rw [h1, h2, h4]⟩

theorem build_eq (b : Bool) (g : DevGrain) (sym : SymGroup) (r : Quat ℝ) (h : Spec.HasRef g sym r)
    (hu : ∀ q ∈ g.quats, q.IsUnit) :
    ∃ grod, calcGrod sym g.quats (some r) = .ok grod ∧
      g.build b = .ok { g with
        ref := some r
        misList := some (g.quats.map fun q => some (misOri (symEqv sym) q r))
        axisList := if b then some (grod.map fun o => o.map fun av => av.2) else g.axisList } := by
  obtain ⟨hp, hr, hru, -⟩ := h
  obtain ⟨mean, grod, h1, h2⟩ := buildMisOriList_axes sym g.quats hu r hru
  refine ⟨grod, h1, ?_⟩
  unfold DevGrain.build
  rw [hp]
  show (grainRef sym g.quats g.ref).bind _ = _
  rw [hr]
  simp only [Except.bind, h2, Except.map]

theorem zipLists_ok {α : Type} (f : DevGrain → Option (List α)) (F : DevGrain → List α)
    (gs : List DevGrain) (h : ∀ g ∈ gs, f g = some (F g)) :
    zipLists f gs = .ok (gs.map fun g => g.pts.zip (F g)).flatten := by
  unfold zipLists
  rw [mapM_ok (g := fun g => g.pts.zip (F g)) gs fun g hg => by simp [zipList, h g hg]]
  rfl

theorem flatten_zip_fst {α : Type} (F : DevGrain → List α) (gs : List DevGrain)
    (h : ∀ g ∈ gs, (F g).length = g.pts.length) :
    ((gs.map fun g => g.pts.zip (F g)).flatten).map Prod.fst = gs.flatMap DevGrain.pts := by
  induction gs with
  | nil => rfl
  | cons g t ih =>
    rw [List.map_cons, List.flatten_cons, List.map_append, ih fun g hg => h g (List.mem_cons_of_mem _ hg),
      List.flatMap_cons, List.map_fst_zip (h g (List.mem_cons_self ..)).ge]

theorem mem_flatten_zip {α : Type} (F : DevGrain → List α) (gs : List DevGrain) (g : DevGrain)
    (hg : g ∈ gs) (i : Nat) (p : Px) (v : α) (hp : g.pts[i]? = some p) (hv : (F g)[i]? = some v) :
    (p, v) ∈ (gs.map fun g => g.pts.zip (F g)).flatten := by
  refine List.mem_flatten.2 ⟨g.pts.zip (F g), List.mem_map.2 ⟨g, hg, rfl⟩, ?_⟩
  exact List.mem_of_getElem? (i := i) (List.getElem?_zip_eq_some.2 ⟨hp, hv⟩)

/-- All grains have references: chosen for each grain. -/
theorem build_all (b : Bool) (gs : List DevGrain) (hok : Spec.GrainsOk gs)
    (hr : ∀ g ∈ gs, ∃ sym r, Spec.HasRef g sym r) :
    ∃ B : DevGrain → DevGrain, calcGrainMisOri b gs = .ok (gs.map B) ∧
      ∀ g ∈ gs, (B g).pts = g.pts ∧ ∀ sym r, Spec.HasRef g sym r →
        ∃ grod, calcGrod sym g.quats (some r) = .ok grod ∧ (B g).ref = some r ∧
        (B g).misList = some (g.quats.map fun q => some (misOri (symEqv sym) q r)) ∧
        (B g).axisList = if b then some (grod.map fun o => o.map fun av => av.2) else g.axisList := by
  classical
  have h1 : ∀ g : DevGrain, ∃ g', g ∈ gs → g.build b = .ok g' ∧ g'.pts = g.pts ∧
      ∀ sym r, Spec.HasRef g sym r →
        ∃ grod, calcGrod sym g.quats (some r) = .ok grod ∧ g'.ref = some r ∧
        g'.misList = some (g.quats.map fun q => some (misOri (symEqv sym) q r)) ∧
        g'.axisList = if b then some (grod.map fun o => o.map fun av => av.2) else g.axisList := by
    intro g
    by_cases hg : g ∈ gs
    · obtain ⟨sym, r, h⟩ := hr g hg
      obtain ⟨grod, -, e2⟩ := build_eq b g sym r h (hok.unit g hg)
      refine ⟨_, fun _ => ⟨e2, rfl, fun sym' r' h' => ?_⟩⟩
      obtain ⟨grod', e1', e2'⟩ := build_eq b g sym' r' h' (hok.unit g hg)
      rw [e2] at e2'
      simp only [Except.ok.injEq] at e2'
      rw [e2']
      exact ⟨grod', e1', rfl, rfl, rfl⟩
    · exact ⟨g, fun h => absurd h hg⟩
  choose B hB using h1
  refine ⟨B, ?_, fun g hg => (hB g hg).2⟩
  exact mapM_ok gs fun g hg => (hB g hg).1

/-- **C109.** If the misorientations are not stored for all grains yet, the map shows for every point of
a grain the misorientation angle to the reference of its grain in degrees, between 0 and 120, and
0 for every pixel that is in no grain. All components but 1, 2 and 3 give this map. -/
theorem C109_angle (component : Int) (hc : component ≠ 1 ∧ component ≠ 2 ∧ component ≠ 3)
    (gs : List DevGrain) (hok : Spec.GrainsOk gs) (hr : ∀ g ∈ gs, ∃ sym r, Spec.HasRef g sym r)
    (hnew : ∃ g ∈ gs, g.misList = none) :
    ∃ im gs', misOriMap component gs = .ok (im, gs') ∧
      (∀ g ∈ gs, ∀ sym r, Spec.HasRef g sym r → ∀ (i : Nat) p q, g.pts[i]? = some p →
        g.quats[i]? = some q → ∃ angle, im p.2 p.1 = some (angle * 180 / Real.pi) ∧
          Real.cos (angle / 2) = misOri (symEqv sym) q r ∧ 0 ≤ angle ∧ angle ≤ 2 * Real.pi / 3) ∧
      (∀ p, p ∉ gs.flatMap DevGrain.pts → im p.2 p.1 = some 0) := by
  classical
  obtain ⟨B, hB, hprop⟩ := build_all false gs hok hr
  have : Nonempty SymGroup := ⟨.cubic⟩
  have : Nonempty (Quat ℝ) := ⟨⟨1, 0, 0, 0⟩⟩
  choose! S R hSR using hr
  have hF : ∀ g' ∈ gs.map B, g'.misList = some ((g'.misList).getD []) := by
    intro g' hg'
    obtain ⟨g, hg, rfl⟩ := List.mem_map.1 hg'
    obtain ⟨grod, -, -, h, -⟩ := (hprop g hg).2 _ _ (hSR g hg)
    rw [h]
    rfl
  have hany : gs.any (fun g => g.misList.isNone) = true := by
    obtain ⟨g, hg, h⟩ := hnew
    exact List.any_eq_true.2 ⟨g, hg, by simp [h]⟩
  have hz := zipLists_ok DevGrain.misList (fun g => (g.misList).getD []) (gs.map B) hF
  have hlen : ∀ g' ∈ gs.map B, ((g'.misList).getD []).length = g'.pts.length := by
    intro g' hg'
    obtain ⟨g, hg, rfl⟩ := List.mem_map.1 hg'
    obtain ⟨grod, -, -, h, -⟩ := (hprop g hg).2 _ _ (hSR g hg)
    rw [h, (hprop g hg).1]
    simp [hok.len g hg]
  have hfst := flatten_zip_fst (fun g => (g.misList).getD []) (gs.map B) hlen
  have hpts : (gs.map B).flatMap DevGrain.pts = gs.flatMap DevGrain.pts := by
    rw [List.flatMap_map]
    unfold List.flatMap
    congr 1
    exact List.map_congr_left fun g hg => (hprop g hg).1
  rw [hpts] at hfst
  refine ⟨fun y x => ((paintPoints (fun _ _ => (some 1 : Option ℝ))
      ((gs.map B).map fun g => g.pts.zip ((g.misList).getD [])).flatten) y x).map
        fun v => Real.arccos v * 360 / Real.pi, gs.map B, ?_, ?_, ?_⟩
  · unfold misOriMap
    rw [if_neg (by tauto), hany, if_pos rfl, hB]
    show (zipLists DevGrain.misList (gs.map B)).map _ = _
    rw [hz]
    rfl
  · intro g hg sym r hgr i p q hp hq
    have hu := hok.unit g hg q (List.mem_of_getElem? hq)
    obtain ⟨grod, -, -, h, -⟩ := (hprop g hg).2 sym r hgr
    have hmem := mem_flatten_zip (fun g => (g.misList).getD []) (gs.map B) (B g)
      (List.mem_map.2 ⟨g, hg, rfl⟩) i p (some (misOri (symEqv sym) q r))
      (by rw [(hprop g hg).1]; exact hp) (by simp [h, hq])
    have hval := paintPoints_in _ (fun _ _ => (some 1 : Option ℝ)) (by rw [hfst]; exact hok.nodup)
      p _ hmem
    obtain ⟨out, -, -, hk⟩ := C88_grod sym [q] (by simpa using hu) r hgr.2.2.1 hgr.2.2.2
    obtain ⟨angle, axis, -, h1, h2, h3, -⟩ := hk 0 q rfl
    refine ⟨angle, ?_, h1, h2, h3⟩
    simp only [hval, Option.map_some, Option.some.injEq]
    rw [← h1, Real.arccos_cos (by linarith) (by linarith [Real.pi_pos])]
    ring
  · intro p hp
    have hval := paintPoints_out _ (fun _ _ => (some 1 : Option ℝ)) p (by rw [hfst]; exact hp)
    simp only [hval, Option.map_some, Real.arccos_one]
    simp

/-- The place of a component in the axis. -/
def Spec.axisOf (c : Fin 3) : Int := (c : Nat) + 1

/-- **C109 (axes).** If the axes are not stored for all grains yet, the three component maps show for
every point of a grain that deviates from the reference the three components, in degrees, of one
vector: its length is the misorientation angle and rotating the reference about it by that angle gives a
symmetric equivalent of the point's orientation. Pixels in no grain show 0. -/
theorem C109_axis (gs : List DevGrain) (hok : Spec.GrainsOk gs)
    (hr : ∀ g ∈ gs, ∃ sym r, Spec.HasRef g sym r) (hnew : ∃ g ∈ gs, g.axisList = none) :
    ∃ (im : Fin 3 → Img (Option ℝ)) (gs' : List DevGrain),
      (∀ c, misOriMap (Spec.axisOf c) gs = .ok (im c, gs')) ∧
      (∀ g ∈ gs, ∀ sym r, Spec.HasRef g sym r → ∀ (i : Nat) p q, g.pts[i]? = some p →
        g.quats[i]? = some q → ∃ (angle : ℝ) (axis : Fin 3 → ℝ),
          (∀ c, im c p.2 p.1 = some (axis c * 180 / Real.pi)) ∧
          Real.cos (angle / 2) = misOri (symEqv sym) q r ∧ 0 ≤ angle ∧ angle ≤ 2 * Real.pi / 3 ∧
          (angle ≠ 0 →
            Real.sqrt (axis 0 * axis 0 + axis 1 * axis 1 + axis 2 * axis 2) = angle ∧
            ∃ s ∈ symEqv sym, mul (fromAxisAngle (-axis) angle) r = mul s q ∨
              mul (fromAxisAngle (-axis) angle) r = (mul s q).neg)) ∧
      (∀ c p, p ∉ gs.flatMap DevGrain.pts → im c p.2 p.1 = some 0) := by
  classical
  obtain ⟨B, hB, hprop⟩ := build_all true gs hok hr
  have : Nonempty SymGroup := ⟨.cubic⟩
  have : Nonempty (Quat ℝ) := ⟨⟨1, 0, 0, 0⟩⟩
  choose! S R hSR using hr
  have hF : ∀ g' ∈ gs.map B, g'.axisList = some ((g'.axisList).getD []) := by
    intro g' hg'
    obtain ⟨g, hg, rfl⟩ := List.mem_map.1 hg'
    obtain ⟨grod, -, -, -, h⟩ := (hprop g hg).2 _ _ (hSR g hg)
    rw [h]
    rfl
  have hany : gs.any (fun g => g.axisList.isNone) = true := by
    obtain ⟨g, hg, h⟩ := hnew
    exact List.any_eq_true.2 ⟨g, hg, by simp [h]⟩
  have hz := zipLists_ok DevGrain.axisList (fun g => (g.axisList).getD []) (gs.map B) hF
  have hlen : ∀ g' ∈ gs.map B, ((g'.axisList).getD []).length = g'.pts.length := by
    intro g' hg'
    obtain ⟨g, hg, rfl⟩ := List.mem_map.1 hg'
    obtain ⟨grod, h1, -, -, h⟩ := (hprop g hg).2 _ _ (hSR g hg)
    obtain ⟨out, e1, e2, -⟩ := C88_grod (S g) g.quats (hok.unit g hg) (R g) (hSR g hg).2.2.1
      (hSR g hg).2.2.2
    rw [h1] at e1
    simp only [Except.ok.injEq] at e1
    rw [h, (hprop g hg).1]
    simp [hok.len g hg, e1, e2]
  have hfst := flatten_zip_fst (fun g => (g.axisList).getD []) (gs.map B) hlen
  have hpts : (gs.map B).flatMap DevGrain.pts = gs.flatMap DevGrain.pts := by
    rw [List.flatMap_map]
    unfold List.flatMap
    congr 1
    exact List.map_congr_left fun g hg => (hprop g hg).1
  rw [hpts] at hfst
  generalize hL : ((gs.map B).map fun g => g.pts.zip ((g.axisList).getD [])).flatten = L at hz hfst
  have hfst' : ∀ c : Fin 3, ((L.map fun pv => (pv.1, pv.2.map fun v => v c)) :
      List (Px × Option ℝ)).map Prod.fst = gs.flatMap DevGrain.pts := by
    intro c
    rw [List.map_map, ← hfst]
    rfl
  refine ⟨fun c y x => ((paintPoints (fun _ _ => (some 0 : Option ℝ))
      (L.map fun pv => (pv.1, pv.2.map fun v => v c))) y x).map fun v => v * 180 / Real.pi,
    gs.map B, ?_, ?_, ?_⟩
  · intro c
    unfold misOriMap
    rw [if_pos (by fin_cases c <;> simp [Spec.axisOf]), hany, if_pos rfl, hB]
    show (zipLists DevGrain.axisList (gs.map B)).map _ = _
    rw [hz]
    fin_cases c <;> rfl
  · intro g hg sym r hgr i p q hp hq
    obtain ⟨grod, h1, -, -, h⟩ := (hprop g hg).2 sym r hgr
    obtain ⟨out, e1, -, e3⟩ := C88_grod sym g.quats (hok.unit g hg) r hgr.2.2.1 hgr.2.2.2
    rw [h1] at e1
    simp only [Except.ok.injEq] at e1
    obtain ⟨angle, axis, k1, k2, k3, k4, k5⟩ := e3 i q hq
    refine ⟨angle, axis, ?_, k2, k3, k4, k5⟩
    intro c
    have hmem := mem_flatten_zip (fun g => (g.axisList).getD []) (gs.map B) (B g)
      (List.mem_map.2 ⟨g, hg, rfl⟩) i p (some axis)
      (by rw [(hprop g hg).1]; exact hp) (by simp [h, e1, k1])
    rw [hL] at hmem
    have hval := paintPoints_in _ (fun _ _ => (some 0 : Option ℝ)) (by rw [hfst' c]; exact hok.nodup)
      p (some (axis c)) (List.mem_map.2 ⟨_, hmem, rfl⟩)
    simp only [hval, Option.map_some]
  · intro c p hp
    have hval := paintPoints_out _ (fun _ _ => (some 0 : Option ℝ)) p (by rw [hfst' c]; exact hp)
    simp only [hval, Option.map_some]
    simp

/-- Two grains of one and two points as the theorems ask for. -/
example : ∃ gs : List DevGrain, Spec.GrainsOk gs ∧ (∀ g ∈ gs, ∃ sym r, Spec.HasRef g sym r) ∧
    (∃ g ∈ gs, g.misList = none) ∧ (∃ g ∈ gs, g.axisList = none) ∧ gs.length = 2 := by
  refine ⟨[⟨some .cubic, [(0, 0), (1, 0)], [⟨1, 0, 0, 0⟩, ⟨4 / 5, 3 / 5, 0, 0⟩],
      some ⟨1, 0, 0, 0⟩, none, none⟩,
    ⟨some .hexagonal, [(0, 1)], [⟨1, 0, 0, 0⟩], some ⟨4 / 5, 3 / 5, 0, 0⟩, none, none⟩],
    ⟨by decide, ?_, ?_⟩, ?_, ⟨_, List.mem_cons_self .., rfl⟩, ⟨_, List.mem_cons_self .., rfl⟩, rfl⟩
  · intro g hg
    simp only [List.mem_cons, List.not_mem_nil, or_false] at hg
    rcases hg with rfl | rfl <;> rfl
  · intro g hg q hq
    simp only [List.mem_cons, List.not_mem_nil, or_false] at hg
    rcases hg with rfl | rfl <;> simp only [List.mem_cons, List.not_mem_nil, or_false] at hq
    · rcases hq with rfl | rfl <;> simp only [Quat.IsUnit] <;> norm_num
    · rcases hq with rfl
      simp only [Quat.IsUnit]
      norm_num
  · intro g hg
    simp only [List.mem_cons, List.not_mem_nil, or_false] at hg
    rcases hg with rfl | rfl
    · exact ⟨_, _, rfl, rfl, by simp only [Quat.IsUnit]; norm_num, by simp [Quat.North]⟩
    · exact ⟨_, _, rfl, rfl, by simp only [Quat.IsUnit]; norm_num, by simp only [Quat.North]; norm_num⟩

/-- **C109 (stored lists).** Lists stored for all grains are shown as they are, whatever the references
have become since; calculating the misorientations without axes leaves stored axes as they were. -/
theorem C109_stored (gs : List DevGrain) (component : Int)
    (hc : component ≠ 1 ∧ component ≠ 2 ∧ component ≠ 3) (l : DevGrain → List (Option ℝ))
    (hl : ∀ g ∈ gs, g.misList = some (l g)) (refs : DevGrain → Option (Quat ℝ)) :
    (∃ im, misOriMap component gs = .ok (im, gs) ∧
      misOriMap component (gs.map fun g => ({ g with ref := refs g } : DevGrain)) =
        .ok (im, gs.map fun g => ({ g with ref := refs g } : DevGrain))) ∧
    (∀ g g' : DevGrain, g.build false = .ok g' → g'.axisList = g.axisList) := by
  constructor
  · have h1 : gs.any (fun g => g.misList.isNone) = false := by
      rw [List.any_eq_false]
      intro g hg
      simp [hl g hg]
    have h2 : (gs.map fun g => ({ g with ref := refs g } : DevGrain)).any (fun g => g.misList.isNone) = false := by
      rw [List.any_map]
      exact h1
    have hz1 := zipLists_ok DevGrain.misList l gs hl
    have hz2 : zipLists DevGrain.misList (gs.map fun g => ({ g with ref := refs g } : DevGrain)) =
        .ok (gs.map fun g => g.pts.zip (l g)).flatten := by
      rw [zipLists_ok DevGrain.misList (fun g => (g.misList).getD [])]
      · congr 2
        rw [List.map_map]
        refine List.map_congr_left fun g hg => ?_
        simp [hl g hg]
      · intro g' hg'
        obtain ⟨g, hg, rfl⟩ := List.mem_map.1 hg'
        simp [hl g hg]
    refine ⟨fun y x => ((paintPoints (fun _ _ => (some 1 : Option ℝ))
      (gs.map fun g => g.pts.zip (l g)).flatten) y x).map
        fun v => Real.arccos v * 360 / Real.pi, ?_, ?_⟩
    · unfold misOriMap
      rw [if_neg (by tauto), h1]
      show (zipLists DevGrain.misList gs).map _ = _
      rw [hz1]
      rfl
    · unfold misOriMap
      rw [if_neg (by tauto), h2]
      show (zipLists DevGrain.misList (gs.map fun g => ({ g with ref := refs g } : DevGrain))).map _ = _
      rw [hz2]
      rfl
  · intro g g' h
    unfold DevGrain.build at h
    split at h
    · exact absurd h (by simp)
    · next sym hs =>
      cases hr : grainRef sym g.quats g.ref with
      | error e => rw [hr] at h; exact absurd h (by simp [Except.bind])
      | ok r =>
        rw [hr] at h
        cases hb : buildMisOriList sym g.quats (some r) with
        | error e =>
          simp only [Except.bind, hb, Except.map] at h
          exact absurd h (by simp)
        | ok out =>
          simp only [Except.bind, hb, Except.map, Except.ok.injEq] at h
          rw [← h]
          rfl

/-- **C109 (no phase).** A grain without a phase and without stored misorientations makes the map an
error. -/
theorem C109_no_phase (component : Int) (hc : component ≠ 1 ∧ component ≠ 2 ∧ component ≠ 3)
    (g : DevGrain) (t : List DevGrain) (hp : g.phase = none) (hl : g.misList = none) :
    misOriMap component (g :: t) = .error .attributeError := by
  unfold misOriMap
  rw [if_neg (by tauto), List.any_cons, hl]
  show (calcGrainMisOri false (g :: t)).bind _ = _
  unfold calcGrainMisOri
  rw [List.mapM_cons]
  have : g.build false = .error .attributeError := by
    unfold DevGrain.build
    rw [hp]
  rw [this]
  rfl

end DefDAP
