import Verif.Model.MechSession
import Verif.Props.Schmid
import Verif.Props.GrainData

/-!
C122: Schmid factors and displacement ratios of all grains of a map, over histories of calls.
-/

namespace DefDAP

open Quat Matrix Spec

/-- `sf` are the Schmid factors for the orientation `r`, the load and the slip systems: one list per plane, one value
per system, the product of the load along normal and direction. -/
def Spec.IsSchmid (r : Quat ℝ) (load : Fin 3 → ℝ) (slip : List (List SlipSystem)) (sf : List (List ℝ)) : Prop :=
  List.Forall₂ (List.Forall₂ fun ss v => v =
    |(transformVector r load ⬝ᵥ ss.normal) * (transformVector r load ⬝ᵥ ss.slip)|) slip sf

/-- `rd` are the displacement ratios for the orientation `r`: minus the x by the y component of the slip direction in
the frame of the sample. -/
def Spec.IsRdr (r : Quat ℝ) (slip : List (List SlipSystem)) (rd : List (List ℝ)) : Prop :=
  List.Forall₂ (List.Forall₂ fun ss v => v =
    -(transformVector (conjugate r) ss.slip 0) / transformVector (conjugate r) ss.slip 1) slip rd

theorem forall2_map_self {α β : Type} (R : α → β → Prop) (f : α → β) (l : List α) (h : ∀ a ∈ l, R a (f a)) :
    List.Forall₂ R l (l.map f) := by
  induction l with
  | nil => exact .nil
  | cons a l ih =>
    exact .cons (h a List.mem_cons_self) (ih fun b hb => h b (List.mem_cons_of_mem _ hb))

theorem isSchmid_schmidFactors (r : Quat ℝ) (load : Fin 3 → ℝ) (slip : List (List SlipSystem)) :
    Spec.IsSchmid r load slip (schmidFactors r load slip) :=
  forall2_map_self _ _ _ fun grp _ => forall2_map_self _ _ grp fun _ _ => rfl

theorem isRdr_grainRdr (r : Quat ℝ) (slip : List (List SlipSystem)) :
    Spec.IsRdr r slip (grainRdr r slip) :=
  forall2_map_self _ _ _ fun grp _ => forall2_map_self _ _ grp fun _ _ => rfl

theorem forGrains_length (f : MechGrain → MechGrain × Option Err) (gs : List MechGrain) :
    (forGrains f gs).1.length = gs.length := by
  induction gs with
  | nil => rfl
  | cons g gs ih =>
    rw [forGrains]
    cases hf : f g with
    | mk g' e =>
      cases e with
      | some e => rfl
      | none => simp only [List.length_cons, ih]

/-- Without an exception every grain is calculated. -/
theorem forGrains_ok (f : MechGrain → MechGrain × Option Err) (gs : List MechGrain)
    (h : (forGrains f gs).2 = none) :
    (forGrains f gs).1 = gs.map (fun g => (f g).1) ∧ ∀ g ∈ gs, (f g).2 = none := by
  induction gs with
  | nil => exact ⟨rfl, fun g hg => absurd hg List.not_mem_nil⟩
  | cons g gs ih =>
    rw [forGrains] at h ⊢
    cases hf : f g with
    | mk g' e =>
      rw [hf] at h
      cases e with
      | some e => cases h
      | none =>
        obtain ⟨h1, h2⟩ := ih h
        refine ⟨?_, ?_⟩
        · simp only [List.map_cons, hf, h1]
        · intro x hx
          rcases List.mem_cons.1 hx with rfl | hx
          · rw [hf]
          · exact h2 x hx

/-- Every grain is as it was or as calculated. -/
theorem forGrains_each (f : MechGrain → MechGrain × Option Err) (gs : List MechGrain) (i : Nat) (g' : MechGrain)
    (h : (forGrains f gs).1[i]? = some g') : ∃ g, gs[i]? = some g ∧ (g' = g ∨ g' = (f g).1) := by
  induction gs generalizing i with
  | nil => rw [forGrains] at h; cases h
  | cons g gs ih =>
    rw [forGrains] at h
    cases hf : f g with
    | mk g1 e =>
      rw [hf] at h
      cases e with
      | some e =>
        cases i with
        | zero =>
          cases h
          exact ⟨g, rfl, .inr (by rw [hf])⟩
        | succ i => exact ⟨g', h, .inl rfl⟩
      | none =>
        cases i with
        | zero =>
          cases h
          exact ⟨g, rfl, .inr (by rw [hf])⟩
        | succ i => exact ih i h

/-- **C122 (Schmid factors).** If the call for all grains raises nothing, every grain keeps its orientation, or has
the mean of its points if it had none, and has the Schmid factors for this orientation, the load, and the slip
systems given or else those of its phase, whatever was calculated before. -/
theorem C122_schmid (gs : List MechGrain) (load : Fin 3 → ℝ) (slip : Option (List (List SlipSystem)))
    (h : (mechStep gs (.schmid load slip)).2 = none) :
    List.Forall₂ (fun g g' => ∃ r sf, (g.ref = some r ∨ g.ref = none ∧ grainMeanOri g.sym g.quats = .ok r) ∧
      g'.ref = some r ∧ g'.schmid = some sf ∧ Spec.IsSchmid r load (slip.getD g.slip) sf ∧ g'.rdr = g.rdr)
      gs (mechStep gs (.schmid load slip)).1 := by
  obtain ⟨h1, h2⟩ := forGrains_ok _ _ h
  show List.Forall₂ _ gs (forGrains (mechSchmid load slip) gs).1
  rw [h1]
  refine forall2_map_self _ _ _ fun g hg => ?_
  have h3 := h2 g hg
  unfold mechSchmid at h3 ⊢
  cases hr : grainRef g.sym g.quats g.ref with
  | error e => rw [hr] at h3; cases h3
  | ok r =>
    refine ⟨r, _, ?_, rfl, rfl, isSchmid_schmidFactors _ _ _, rfl⟩
    unfold grainRef at hr
    cases hg : g.ref with
    | some q => rw [hg] at hr; cases hr; exact .inl rfl
    | none => rw [hg] at hr; exact .inr ⟨rfl, hr⟩

theorem mechStep_schmid_keep (gs : List MechGrain) (op : MechOp) (h : ∀ l s, op ≠ .schmid l s) (i : Nat)
    (g' : MechGrain) (hg : (mechStep gs op).1[i]? = some g') :
    ∃ g, gs[i]? = some g ∧ g'.schmid = g.schmid := by
  have key : ∀ f : MechGrain → MechGrain × Option Err, (∀ g, (f g).1.schmid = g.schmid) →
      (forGrains f gs).1[i]? = some g' → ∃ g, gs[i]? = some g ∧ g'.schmid = g.schmid := by
    intro f hf h
    obtain ⟨g, h1, h2⟩ := forGrains_each f gs i g' h
    refine ⟨g, h1, ?_⟩
    rcases h2 with rfl | rfl
    · rfl
    · exact hf g
  cases op with
  | means =>
    refine key _ (fun g => ?_) hg
    unfold mechMean
    split <;> rfl
  | schmid l s => exact absurd rfl (h l s)
  | rdr =>
    refine key _ (fun g => ?_) hg
    unfold mechRdr
    split
    · rfl
    · split_ifs <;> rfl
  | setRef j q =>
    have hg : (gs.modify j fun g => ⟨g.sym, g.quats, g.slip, some q, g.schmid, g.rdr⟩)[i]? = some g' := hg
    rw [List.getElem?_modify] at hg
    cases hi : gs[i]? with
    | none => rw [hi] at hg; cases hg
    | some g =>
      rw [hi] at hg
      refine ⟨g, rfl, ?_⟩
      simp only [Option.map_eq_map, Option.map_some, Option.some.injEq] at hg
      subst hg
      split_ifs <;> rfl

theorem mechRun_schmid_keep (ops : List MechOp) (h : ∀ op ∈ ops, ∀ l s, op ≠ .schmid l s) (gs : List MechGrain)
    (i : Nat) (g' : MechGrain) (hg : (mechRun gs ops)[i]? = some g') :
    ∃ g, gs[i]? = some g ∧ g'.schmid = g.schmid := by
  induction ops generalizing gs with
  | nil => exact ⟨g', hg, rfl⟩
  | cons op ops ih =>
    obtain ⟨g1, h1, h2⟩ := ih (fun o ho => h o (List.mem_cons_of_mem _ ho)) _ hg
    obtain ⟨g, h3, h4⟩ := mechStep_schmid_keep gs op (h op List.mem_cons_self) i g1 h1
    exact ⟨g, h3, h2.trans h4⟩

theorem mechRun_append (gs : List MechGrain) (a b : List MechOp) :
    mechRun gs (a ++ b) = mechRun (mechRun gs a) b := by
  induction a generalizing gs with
  | nil => rfl
  | cons op a ih => exact ih _

/-- **C122 (the last call counts).** After every history, the Schmid factors of a grain are those of the last call for
all grains if that raised nothing, for the orientation the grain had then. -/
theorem C122_last (gs : List MechGrain) (before after : List MechOp) (load : Fin 3 → ℝ)
    (slip : Option (List (List SlipSystem)))
    (hok : (mechStep (mechRun gs before) (.schmid load slip)).2 = none)
    (hafter : ∀ op ∈ after, ∀ l s, op ≠ .schmid l s) (i : Nat) (g' : MechGrain)
    (hg : (mechRun gs (before ++ MechOp.schmid load slip :: after))[i]? = some g') :
    ∃ g r sf, (mechRun gs before)[i]? = some g ∧
      (g.ref = some r ∨ g.ref = none ∧ grainMeanOri g.sym g.quats = .ok r) ∧
      g'.schmid = some sf ∧ Spec.IsSchmid r load (slip.getD g.slip) sf := by
  rw [mechRun_append] at hg
  obtain ⟨g1, h1, h2⟩ := mechRun_schmid_keep after hafter _ i g' hg
  have hf := C122_schmid _ load slip hok
  obtain ⟨hlen, hf⟩ := List.forall₂_iff_get.1 hf
  obtain ⟨hi, e1⟩ := List.getElem?_eq_some_iff.1 h1
  have hi0 : i < (mechRun gs before).length := by rw [hlen]; exact hi
  obtain ⟨r, sf, h3, _, h4, h5, _⟩ := hf i hi0 hi
  refine ⟨(mechRun gs before)[i], r, sf, List.getElem?_eq_getElem hi0, h3, ?_, h5⟩
  rw [h2, ← e1]
  exact h4

/-- **C122 (false after the orientation changed).** Setting the orientation of a grain again keeps its Schmid factors,
which are then not those of its orientation. -/
theorem C122_stale :
    (∀ (gs : List MechGrain) (i : Nat) (q : Quat ℝ) (g : MechGrain), gs[i]? = some g →
      ∃ g', (mechStep gs (.setRef i q)).1[i]? = some g' ∧ g'.ref = some q ∧ g'.schmid = g.schmid) ∧
    ∃ (q r : Quat ℝ) (load : Fin 3 → ℝ) (slip : List (List SlipSystem)) (sf : List (List ℝ)),
      Quat.IsUnit q ∧ Quat.IsUnit r ∧ Spec.IsSchmid r load slip sf ∧ ¬ Spec.IsSchmid q load slip sf := by
  refine ⟨?_, ?_⟩
  · intro gs i q g hg
    refine ⟨⟨g.sym, g.quats, g.slip, some q, g.schmid, g.rdr⟩, ?_, rfl, rfl⟩
    show (gs.modify i _)[i]? = _
    rw [List.getElem?_modify, hg]
    simp
  · refine ⟨⟨1 / 2, 1 / 2, 1 / 2, 1 / 2⟩, ⟨1, 0, 0, 0⟩, ![1, 1, 0],
      [[⟨[], [], ![1, 0, 0], ![0, 1, 0], none⟩]], [[1]], ?_, ?_, ?_, ?_⟩
    · unfold Quat.IsUnit; norm_num
    · unfold Quat.IsUnit; norm_num
    · refine .cons (.cons ?_ .nil) .nil
      norm_num [transformVector, mul, mulRaw, make, conjugate, dotProduct, Fin.sum_univ_three, Matrix.cons_val_two, Matrix.tail_cons, Matrix.head_cons]
    · intro hc
      cases hc with
      | cons h1 _ =>
        cases h1 with
        | cons h2 _ =>
          norm_num [transformVector, mul, mulRaw, make, conjugate, dotProduct, Fin.sum_univ_three, Matrix.cons_val_two, Matrix.tail_cons, Matrix.head_cons] at h2

/-- **C122 (displacement ratios).** If every grain has an orientation the call raises nothing, and every grain has the
ratios for its orientation and the slip systems of its phase. -/
theorem C122_rdr (gs : List MechGrain) (h : ∀ g ∈ gs, g.ref ≠ none) :
    (mechStep gs .rdr).2 = none ∧
    List.Forall₂ (fun g g' => ∃ r rd, g.ref = some r ∧ g'.ref = some r ∧ g'.rdr = some rd ∧
      Spec.IsRdr r g.slip rd ∧ g'.schmid = g.schmid) gs (mechStep gs .rdr).1 := by
  show (forGrains mechRdr gs).2 = none ∧ List.Forall₂ _ gs (forGrains mechRdr gs).1
  induction gs with
  | nil => exact ⟨rfl, .nil⟩
  | cons g gs ih =>
    obtain ⟨h1, h2⟩ := ih fun x hx => h x (List.mem_cons_of_mem _ hx)
    cases hr : g.ref with
    | none => exact absurd hr (h g List.mem_cons_self)
    | some r =>
      have e : mechRdr g = (⟨g.sym, g.quats, g.slip, g.ref, g.schmid, some (grainRdr r g.slip)⟩, none) := by
        unfold mechRdr
        rw [hr]
      rw [forGrains, e]
      exact ⟨h1, .cons ⟨r, _, hr, hr, rfl, isRdr_grainRdr _ _, rfl⟩ h2⟩

/-- **C122 (false without orientations).** Unlike that of Schmid factors, the call for the displacement ratios does
not calculate missing orientations: at the first grain without one it is an `AttributeError`. The grains before
have their ratios then, this one as good as none, and those after it are as before. -/
theorem C122_rdr_no_orientation (done rest : List MechGrain) (g : MechGrain) (hd : ∀ x ∈ done, x.ref ≠ none)
    (hg : g.ref = none) (hs : ∃ grp ∈ g.slip, grp ≠ []) :
    ∃ done' g', mechStep (done ++ g :: rest) .rdr = (done' ++ g' :: rest, some .attributeError) ∧
      List.Forall₂ (fun x x' => ∃ r rd, x.ref = some r ∧ x'.rdr = some rd ∧ Spec.IsRdr r x.slip rd) done done' ∧
      ∃ rd, g'.rdr = some rd ∧ ∀ l ∈ rd, l = [] := by
  show ∃ done' g', forGrains mechRdr (done ++ g :: rest) = _ ∧ _
  induction done with
  | nil =>
    have hall : ¬ g.slip.all List.isEmpty = true := by
      rw [List.all_eq_true]
      intro hc
      obtain ⟨grp, h1, h2⟩ := hs
      have := hc grp h1
      rw [List.isEmpty_iff] at this
      exact h2 this
    have e : mechRdr g = (⟨g.sym, g.quats, g.slip, g.ref, g.schmid,
        some (List.replicate ((g.slip.takeWhile List.isEmpty).length + 1) [])⟩, some .attributeError) := by
      unfold mechRdr
      simp only [hg, if_neg hall]
    refine ⟨[], ⟨g.sym, g.quats, g.slip, g.ref, g.schmid,
        some (List.replicate ((g.slip.takeWhile List.isEmpty).length + 1) [])⟩, ?_, .nil, _, rfl,
      fun l hl => (List.mem_replicate.1 hl).2⟩
    rw [List.nil_append, forGrains, e]
    rfl
  | cons x done ih =>
    obtain ⟨done', g', h1, h2, h3⟩ := ih fun y hy => hd y (List.mem_cons_of_mem _ hy)
    cases hr : x.ref with
    | none => exact absurd hr (hd x List.mem_cons_self)
    | some r =>
      have e : mechRdr x = (⟨x.sym, x.quats, x.slip, x.ref, x.schmid, some (grainRdr r x.slip)⟩, none) := by
        unfold mechRdr
        rw [hr]
      refine ⟨⟨x.sym, x.quats, x.slip, x.ref, x.schmid, some (grainRdr r x.slip)⟩ :: done', g', ?_,
        .cons ⟨r, _, hr, rfl, isRdr_grainRdr _ _⟩ h2, h3⟩
      rw [List.cons_append, forGrains, e, h1]
      rfl

/-- **C122 (map).** If all grains have Schmid factors, at least one each, the map shows at every point of a grain the
largest of its factors, and 0.5 elsewhere. -/
theorem C122_map {h w : Nat} (points : List (List Px)) (hv : ValidGrains h w points) (gs : List MechGrain)
    (hlen : gs.length = points.length) (hne : gs ≠ [])
    (hs : ∀ g ∈ gs, ∃ sf, g.schmid = some sf ∧ ∃ grp ∈ sf, grp ≠ []) (directions : Option (List Int)) :
    ∃ im, plotSchmidMap h w points gs none directions = .ok im ∧
      (∀ (i : Nat) (g : MechGrain) (pts : List Px) (sf : List (List ℝ)), gs[i]? = some g → points[i]? = some pts →
        g.schmid = some sf → ∀ p ∈ pts, (∃ grp ∈ sf, im p.2 p.1 ∈ grp) ∧ ∀ grp ∈ sf, ∀ v ∈ grp, v ≤ im p.2 p.1) ∧
      (∀ p : Px, (∀ pts ∈ points, p ∉ pts) → im p.2 p.1 = 0.5) := by
  have hm : ∀ g ∈ gs, ∃ m sf, g.schmid = some sf ∧ maxSchmid sf none directions = .ok m := by
    intro g hg
    obtain ⟨sf, h1, grp, h2, h3⟩ := hs g hg
    obtain ⟨a, ha⟩ := List.exists_mem_of_ne_nil _ h3
    have hf : a ∈ sf.flatten := List.mem_flatten.2 ⟨grp, h2, ha⟩
    unfold maxSchmid
    cases hfl : sf.flatten with
    | nil => rw [hfl] at hf; cases hf
    | cons b t => exact ⟨_, sf, h1, by rw [hfl]; rfl⟩
  have hvals : ∃ vals, schmidMaxima none directions gs = .ok vals ∧
      List.Forall₂ (fun g m => ∃ sf, g.schmid = some sf ∧ maxSchmid sf none directions = .ok m) gs vals := by
    clear hs hne hlen
    unfold schmidMaxima
    induction gs with
    | nil => exact ⟨[], rfl, .nil⟩
    | cons g gs ih =>
      obtain ⟨vals, h1, h2⟩ := ih fun x hx => hm x (List.mem_cons_of_mem _ hx)
      obtain ⟨m, sf, h3, h4⟩ := hm g List.mem_cons_self
      refine ⟨m :: vals, ?_, .cons ⟨sf, h3, h4⟩ h2⟩
      rw [List.mapM_cons, h1, h3]
      simp only [h4]
      rfl
  obtain ⟨vals, h1, h2⟩ := hvals
  obtain ⟨im, h3, h4, h5⟩ := (C20_paint_all points hv vals (0.5 : ℝ)).2 (h2.length_eq.symm.trans hlen)
  refine ⟨im, ?_, ?_, h5⟩
  · cases gs with
    | nil => exact absurd rfl hne
    | cons g gs =>
      obtain ⟨sf, hsf, _⟩ := hs g List.mem_cons_self
      unfold plotSchmidMap
      simp only [hsf, h1]
      exact h3
  · intro i g pts sf hg hpts hsf p hp
    obtain ⟨hl2, h2⟩ := List.forall₂_iff_get.1 h2
    obtain ⟨hi, e⟩ := List.getElem?_eq_some_iff.1 hg
    have hi' : i < vals.length := by rw [← hl2]; exact hi
    obtain ⟨sf', h6, h7⟩ := h2 i hi hi'
    have e' : gs.get ⟨i, hi⟩ = g := e
    rw [e', hsf] at h6
    cases h6
    have h8 := h4 i _ pts (List.getElem?_eq_getElem hi') hpts p hp
    rw [h8]
    have h7 : maxSchmid sf none none = .ok vals[i] := by
      cases directions with
      | none => exact h7
      | some ds => rw [← (C87_directions_ignored sf ds).1]; exact h7
    exact (C87_maximum sf _).1 h7

/-- **C122 (map without factors).** A map without grains is an `IndexError`. If the first grain has no factors the
exception says what to run; if only a later one has none it is a `TypeError`. -/
theorem C122_map_errors (h w : Nat) (points : List (List Px)) (planes directions : Option (List Int))
    (hp : planes ≠ some []) :
    plotSchmidMap h w points [] planes directions = .error .indexError ∧
    (∀ g gs, g.schmid = none → plotSchmidMap h w points (g :: gs) planes directions = .error .exception) ∧
    ∀ g done x rest, (∀ y ∈ g :: done, ∃ sf m, y.schmid = some sf ∧ maxSchmid sf planes directions = .ok m) →
      x.schmid = none →
      plotSchmidMap h w points (g :: (done ++ x :: rest)) planes directions = .error .typeError := by
  refine ⟨rfl, ?_, ?_⟩
  · intro g gs hg
    unfold plotSchmidMap
    simp only [hg]
  · intro g done x rest hd hx
    have key : ∀ l : List MechGrain, (∀ y ∈ l, ∃ sf m, y.schmid = some sf ∧
        maxSchmid sf planes directions = .ok m) →
        schmidMaxima planes directions (l ++ x :: rest) = .error .typeError := by
      intro l hl
      unfold schmidMaxima
      induction l with
      | nil =>
        rw [List.nil_append, List.mapM_cons, hx]
        simp only [if_neg hp]
        rfl
      | cons y l ih =>
        obtain ⟨sf, m, h1, h2⟩ := hl y List.mem_cons_self
        rw [List.cons_append, List.mapM_cons, ih fun z hz => hl z (List.mem_cons_of_mem _ hz), h1]
        simp only [h2]
        rfl
    obtain ⟨sf, m, h1, h2⟩ := hd g List.mem_cons_self
    have := key (g :: done) hd
    rw [List.cons_append] at this
    unfold plotSchmidMap
    simp only [h1, this]
    rfl

/-- Two grains with orientations: the calls raise nothing. -/
example : let g : MechGrain := ⟨.cubic, [⟨1, 0, 0, 0⟩], [[⟨[], [], ![1, 0, 0], ![0, 1, 0], none⟩]],
      some ⟨1, 0, 0, 0⟩, none, none⟩
    (mechStep (mechRun [g, g] [.rdr]) (.schmid ![1, 1, 0] none)).2 = none ∧ ∀ x ∈ [g, g], x.ref ≠ none := by
  refine ⟨rfl, ?_⟩
  intro x hx
  simp only [List.mem_cons, List.not_mem_nil, or_false, or_self] at hx
  subst hx
  exact Option.some_ne_none _

end DefDAP
