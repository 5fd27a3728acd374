import Mathlib.Tactic.NormNum
import Mathlib.Tactic.FinCases
import Verif.Spec.DerivedData

/-!
C124: the calculated data of an EBSD map over histories of reading, calculating and changing.
-/

namespace DefDAP

open Spec

section
variable {D : Type} (c : DerivedCalc D)

/-! ### What the steps leave alone -/

theorem save_same (st : DerivedSt D) (k : DerivedKey) (v : D) : (st.save k v).saved k = some v := by
  simp [DerivedSt.save]

theorem save_other (st : DerivedSt D) {k k' : DerivedKey} (v : D) (h : k' ≠ k) :
    (st.save k v).saved k' = st.saved k' := by
  simp [DerivedSt.save, h]

/-- Everything but the kept data is equal. -/
def sameLoaded (s t : DerivedSt D) : Prop :=
  t.euler = s.euler ∧ t.phase = s.phase ∧ t.primary = s.primary ∧ t.list = s.list ∧
    t.network = s.network

theorem sameLoaded_save (st : DerivedSt D) (k : DerivedKey) (v : D) :
    sameLoaded st (st.save k v) := ⟨rfl, rfl, rfl, rfl, rfl⟩

theorem sameLoaded_refl (st : DerivedSt D) : sameLoaded st st := ⟨rfl, rfl, rfl, rfl, rfl⟩

theorem sameLoaded_trans {s t u : DerivedSt D} (h : sameLoaded s t) (h' : sameLoaded t u) :
    sameLoaded s u :=
  ⟨h'.1.trans h.1, h'.2.1.trans h.2.1, h'.2.2.1.trans h.2.2.1, h'.2.2.2.1.trans h.2.2.2.1,
    h'.2.2.2.2.trans h.2.2.2.2⟩

theorem readOri_loaded (st : DerivedSt D) : sameLoaded st (readOri c st).2 := by
  unfold readOri; split
  · exact sameLoaded_refl _
  · exact sameLoaded_save _ _ _

theorem readOri_other (st : DerivedSt D) {k : DerivedKey} (h : k ≠ .orientation) :
    (readOri c st).2.saved k = st.saved k := by
  unfold readOri; split
  · rfl
  · exact save_other _ _ h

theorem readOri_saved (st : DerivedSt D) :
    (readOri c st).2.saved .orientation = some (readOri c st).1 := by
  unfold readOri; split
  · assumption
  · exact save_same _ _ _

theorem genBounds_loaded (tol : ℝ) (st : DerivedSt D) : sameLoaded st (genBounds c tol st).2 := by
  unfold genBounds callBounds saveBounds
  simp only
  split
  · exact readOri_loaded c st
  · exact sameLoaded_trans (readOri_loaded c st)
      (sameLoaded_trans (sameLoaded_save _ _ _) (sameLoaded_save _ _ _))

theorem genBounds_other (tol : ℝ) (st : DerivedSt D) {k : DerivedKey} (h : k ≠ .orientation)
    (h1 : k ≠ .phaseBoundaries) (h2 : k ≠ .grainBoundaries) :
    (genBounds c tol st).2.saved k = st.saved k := by
  unfold genBounds callBounds saveBounds
  simp only
  split
  · exact readOri_other c st h
  · rw [save_other _ _ h2, save_other _ _ h1, readOri_other c st h]

theorem genBounds_ori (tol : ℝ) (st : DerivedSt D) :
    (genBounds c tol st).2.saved .orientation = some (readOri c st).1 := by
  unfold genBounds callBounds saveBounds
  simp only
  split
  · exact readOri_saved c st
  · rw [save_other _ _ (by decide), save_other _ _ (by decide), readOri_saved]

theorem genBounds_ok (tol : ℝ) (st : DerivedSt D) {b : D × D}
    (h : c.bounds tol st.primary (readOri c st).1 st.phase = .ok b) :
    (genBounds c tol st).1 = .ok b ∧
      (genBounds c tol st).2.saved .phaseBoundaries = some b.1 ∧
      (genBounds c tol st).2.saved .grainBoundaries = some b.2 := by
  unfold genBounds callBounds saveBounds
  simp only [h, save_same, and_true, true_and]
  rw [save_other _ _ (by decide), save_same]

theorem genBounds_err (tol : ℝ) (st : DerivedSt D) {e : Err}
    (h : c.bounds tol st.primary (readOri c st).1 st.phase = .error e) :
    (genBounds c tol st).1 = .error e ∧ (genBounds c tol st).2 = (readOri c st).2 := by
  unfold genBounds callBounds saveBounds
  simp only [h, and_self]

/-- Reading orientations that are what they should be. -/
theorem readOri_val {st : DerivedSt D} {q : D} (h0 : c.quats st.euler = q)
    (h : ∀ v, st.saved .orientation = some v → v = q) : (readOri c st).1 = q := by
  unfold readOri; split
  · rename_i v hv; exact h v hv
  · exact h0

theorem readBounds_loaded (st : DerivedSt D) : sameLoaded st (readBounds c st).2 := by
  unfold readBounds; split
  · exact sameLoaded_refl _
  · exact genBounds_loaded c 10 st

theorem readPhaseBounds_loaded (st : DerivedSt D) : sameLoaded st (readPhaseBounds c st).2 := by
  unfold readPhaseBounds; split
  · exact sameLoaded_refl _
  · exact genBounds_loaded c 10 st

theorem readBounds_other (st : DerivedSt D) {k : DerivedKey} (h : k ≠ .orientation)
    (h1 : k ≠ .phaseBoundaries) (h2 : k ≠ .grainBoundaries) :
    (readBounds c st).2.saved k = st.saved k := by
  unfold readBounds; split
  · rfl
  · exact genBounds_other c 10 st h h1 h2

theorem readPhaseBounds_other (st : DerivedSt D) {k : DerivedKey} (h : k ≠ .orientation)
    (h1 : k ≠ .phaseBoundaries) (h2 : k ≠ .grainBoundaries) :
    (readPhaseBounds c st).2.saved k = st.saved k := by
  unfold readPhaseBounds; split
  · rfl
  · exact genBounds_other c 10 st h h1 h2

/-! ### The invariant of reading -/

/-- The kept data are those of the loaded data, with the boundaries `B` and the grains `G`. If
nothing is kept, `B` and `G` are what reading would calculate. The distances to boundaries count
if `pr`. -/
structure DInv (e p : D) (B G : Except Err (D × D)) (pr : Prop) (st : DerivedSt D) : Prop where
  he : st.euler = e
  hp : st.phase = p
  h0 : st.primary = 0
  ori : ∀ v, st.saved .orientation = some v → v = c.quats e
  pb : ∀ v, st.saved .phaseBoundaries = some v → B.map (·.1) = .ok v
  gb : ∀ v, st.saved .grainBoundaries = some v → B.map (·.2) = .ok v
  b10 : (st.saved .phaseBoundaries = none ∨ st.saved .grainBoundaries = none) →
    B = boundsOf c 10 e p
  grains : ∀ v, st.saved .grains = some v → ∃ l, G = .ok (v, l) ∧ st.list = some l
  g10 : st.saved .grains = none → G = B.bind fun b => c.grains 10 b.2 p
  kam : ∀ v, st.saved .kam = some v → c.kam (c.quats e) = .ok v
  gnd : ∀ v, st.saved .gnd = some v → (c.nye 0 (c.quats e)).map (·.1) = .ok v
  prox : pr → ∀ v, st.saved .proxigram = some v → (B.bind fun b => c.prox b.2) = .ok v

variable {c} {e p : D} {B G : Except Err (D × D)} {pr : Prop}

theorem DInv.readOri_eq {st : DerivedSt D} (h : DInv c e p B G pr st) :
    (readOri c st).1 = c.quats e := readOri_val c (by rw [h.he]) h.ori

theorem DInv.readOri {st : DerivedSt D} (h : DInv c e p B G pr st) :
    DInv c e p B G pr (readOri c st).2 := by
  have L := readOri_loaded c st
  have hs : ∀ k, k ≠ .orientation → (DefDAP.readOri c st).2.saved k = st.saved k :=
    fun k hk => readOri_other c st hk
  refine ⟨L.1.trans h.he, L.2.1.trans h.hp, L.2.2.1.trans h.h0, ?_, ?_, ?_, ?_, ?_, ?_, ?_, ?_, ?_⟩
  · intro v hv
    rw [readOri_saved, h.readOri_eq] at hv
    exact (Option.some.inj hv).symm
  · rw [hs _ (by decide)]; exact h.pb
  · rw [hs _ (by decide)]; exact h.gb
  · rw [hs _ (by decide), hs _ (by decide)]; exact h.b10
  · rw [hs _ (by decide), L.2.2.2.1]; exact h.grains
  · rw [hs _ (by decide)]; exact h.g10
  · rw [hs _ (by decide)]; exact h.kam
  · rw [hs _ (by decide)]; exact h.gnd
  · rw [hs _ (by decide)]; exact h.prox

theorem DInv.genBounds {st : DerivedSt D} (h : DInv c e p B G pr st)
    (hn : st.saved .phaseBoundaries = none ∨ st.saved .grainBoundaries = none) :
    (genBounds c 10 st).1 = B ∧ DInv c e p B G pr (genBounds c 10 st).2 := by
  have hB := h.b10 hn
  have hb : c.bounds 10 st.primary (DefDAP.readOri c st).1 st.phase = B := by
    rw [h.readOri_eq, h.h0, h.hp, hB]; rfl
  cases hcase : B with
  | error er =>
    obtain ⟨h1, h2⟩ := genBounds_err c 10 st (hb.trans hcase)
    rw [h1, h2]
    refine ⟨rfl, ?_⟩
    rw [← hcase]; exact h.readOri
  | ok b =>
    obtain ⟨h1, h2, h3⟩ := genBounds_ok c 10 st (hb.trans hcase)
    refine ⟨h1, ?_⟩
    rw [← hcase]
    have L := genBounds_loaded c 10 st
    have hs : ∀ k, k ≠ .orientation → k ≠ .phaseBoundaries → k ≠ .grainBoundaries →
        (DefDAP.genBounds c 10 st).2.saved k = st.saved k :=
      fun k hk hk1 hk2 => genBounds_other c 10 st hk hk1 hk2
    refine ⟨L.1.trans h.he, L.2.1.trans h.hp, L.2.2.1.trans h.h0, ?_, ?_, ?_, ?_, ?_, ?_, ?_, ?_,
      ?_⟩
    · intro v hv
      rw [genBounds_ori, h.readOri_eq] at hv
      exact (Option.some.inj hv).symm
    · intro v hv
      rw [h2] at hv
      rw [hcase, ← Option.some.inj hv]; rfl
    · intro v hv
      rw [h3] at hv
      rw [hcase, ← Option.some.inj hv]; rfl
    · intro _; exact hB
    · rw [hs _ (by decide) (by decide) (by decide), L.2.2.2.1]; exact h.grains
    · rw [hs _ (by decide) (by decide) (by decide)]; exact h.g10
    · rw [hs _ (by decide) (by decide) (by decide)]; exact h.kam
    · rw [hs _ (by decide) (by decide) (by decide)]; exact h.gnd
    · rw [hs _ (by decide) (by decide) (by decide)]; exact h.prox

theorem DInv.readBounds {st : DerivedSt D} (h : DInv c e p B G pr st) :
    (readBounds c st).1 = B.map (·.2) ∧ DInv c e p B G pr (readBounds c st).2 := by
  unfold DefDAP.readBounds
  split
  · rename_i v hv; exact ⟨(h.gb v hv).symm, h⟩
  · rename_i hv
    obtain ⟨h1, h2⟩ := h.genBounds (Or.inr hv)
    exact ⟨by rw [h1], h2⟩

theorem DInv.readPhaseBounds {st : DerivedSt D} (h : DInv c e p B G pr st) :
    (readPhaseBounds c st).1 = B.map (·.1) ∧ DInv c e p B G pr (readPhaseBounds c st).2 := by
  unfold DefDAP.readPhaseBounds
  split
  · rename_i v hv; exact ⟨(h.pb v hv).symm, h⟩
  · rename_i hv
    obtain ⟨h1, h2⟩ := h.genBounds (Or.inl hv)
    exact ⟨by rw [h1], h2⟩

theorem map_bind_snd (B : Except Err (D × D)) (f : D → Except Err α) :
    ((B.map (·.2)).bind f) = B.bind fun b => f b.2 := by
  cases B <;> rfl

theorem DInv.readGrains {st : DerivedSt D} (h : DInv c e p B G pr st) :
    (readDerived c .grains st).1 = G.map (·.1) ∧ DInv c e p B G pr (readDerived c .grains st).2 ∧
      ∀ g l, G = .ok (g, l) → (readDerived c .grains st).2.list = some l := by
  show (keptOr .grains (genGrains c 10) st).1 = _ ∧ DInv c e p B G pr (keptOr .grains (genGrains c 10) st).2 ∧
    ∀ g l, _ → (keptOr .grains (genGrains c 10) st).2.list = _
  unfold keptOr
  split
  · rename_i v hv
    obtain ⟨l, h1, h2⟩ := h.grains v hv
    refine ⟨by rw [h1]; rfl, h, ?_⟩
    intro g l' hg
    rw [h1] at hg
    obtain ⟨-, rfl⟩ := Prod.mk.inj (Except.ok.inj hg)
    exact h2
  · rename_i hv
    obtain ⟨r1, r2⟩ := h.readBounds
    have hG := h.g10 hv
    unfold genGrains callGrains grainsFrom
    rw [r1, map_bind_snd, r2.hp, ← hG]
    cases hcase : G with
    | error er =>
      simp only [saveOne]
      rw [← hcase]
      refine ⟨by rw [hcase]; rfl, r2, ?_⟩
      intro g l hg; rw [hcase] at hg; cases hg
    | ok gl =>
      simp only [saveOne]
      refine ⟨rfl, ?_, ?_⟩
      · rw [← hcase]
        refine ⟨r2.he, rfl, r2.h0, ?_, ?_, ?_, ?_, ?_, ?_, ?_, ?_, ?_⟩
        · rw [save_other _ _ (by decide)]; exact r2.ori
        · rw [save_other _ _ (by decide)]; exact r2.pb
        · rw [save_other _ _ (by decide)]; exact r2.gb
        · rw [save_other _ _ (by decide), save_other _ _ (by decide)]; exact r2.b10
        · intro v hv'
          rw [save_same] at hv'
          exact ⟨gl.2, by rw [hcase, ← Option.some.inj hv'], rfl⟩
        · intro _; exact hG
        · rw [save_other _ _ (by decide)]; exact r2.kam
        · rw [save_other _ _ (by decide)]; exact r2.gnd
        · rw [save_other _ _ (by decide)]; exact r2.prox
      · intro g l hg
        obtain rfl := Except.ok.inj hg
        rfl

theorem DInv.save_kam {st : DerivedSt D} (h : DInv c e p B G pr st) {v : D}
    (hv : c.kam (c.quats e) = .ok v) : DInv c e p B G pr (st.save .kam v) := by
  refine ⟨h.he, h.hp, h.h0, ?_, ?_, ?_, ?_, ?_, ?_, ?_, ?_, ?_⟩
  · rw [save_other _ _ (by decide)]; exact h.ori
  · rw [save_other _ _ (by decide)]; exact h.pb
  · rw [save_other _ _ (by decide)]; exact h.gb
  · rw [save_other _ _ (by decide), save_other _ _ (by decide)]; exact h.b10
  · rw [save_other _ _ (by decide)]; exact h.grains
  · rw [save_other _ _ (by decide)]; exact h.g10
  · intro w hw; rw [save_same] at hw; rw [hv, Option.some.inj hw]
  · rw [save_other _ _ (by decide)]; exact h.gnd
  · rw [save_other _ _ (by decide)]; exact h.prox

theorem DInv.save_gnd {st : DerivedSt D} (h : DInv c e p B G pr st) {v : D}
    (hv : (c.nye 0 (c.quats e)).map (·.1) = .ok v) : DInv c e p B G pr (st.save .gnd v) := by
  refine ⟨h.he, h.hp, h.h0, ?_, ?_, ?_, ?_, ?_, ?_, ?_, ?_, ?_⟩
  · rw [save_other _ _ (by decide)]; exact h.ori
  · rw [save_other _ _ (by decide)]; exact h.pb
  · rw [save_other _ _ (by decide)]; exact h.gb
  · rw [save_other _ _ (by decide), save_other _ _ (by decide)]; exact h.b10
  · rw [save_other _ _ (by decide)]; exact h.grains
  · rw [save_other _ _ (by decide)]; exact h.g10
  · rw [save_other _ _ (by decide)]; exact h.kam
  · intro w hw; rw [save_same] at hw; rw [hv, Option.some.inj hw]
  · rw [save_other _ _ (by decide)]; exact h.prox

theorem DInv.save_prox {st : DerivedSt D} (h : DInv c e p B G pr st) {v : D}
    (hv : (B.bind fun b => c.prox b.2) = .ok v) : DInv c e p B G pr (st.save .proxigram v) := by
  refine ⟨h.he, h.hp, h.h0, ?_, ?_, ?_, ?_, ?_, ?_, ?_, ?_, ?_⟩
  · rw [save_other _ _ (by decide)]; exact h.ori
  · rw [save_other _ _ (by decide)]; exact h.pb
  · rw [save_other _ _ (by decide)]; exact h.gb
  · rw [save_other _ _ (by decide), save_other _ _ (by decide)]; exact h.b10
  · rw [save_other _ _ (by decide)]; exact h.grains
  · rw [save_other _ _ (by decide)]; exact h.g10
  · rw [save_other _ _ (by decide)]; exact h.kam
  · rw [save_other _ _ (by decide)]; exact h.gnd
  · intro _ w hw; rw [save_same] at hw; rw [hv, Option.some.inj hw]

theorem DInv.genKam {st : DerivedSt D} (h : DInv c e p B G pr st) :
    (genKam c st).1 = c.kam (c.quats e) ∧ DInv c e p B G pr (genKam c st).2 := by
  unfold DefDAP.genKam saveOne
  simp only [h.readOri_eq]
  split
  · rename_i hk; exact ⟨hk.symm, h.readOri⟩
  · rename_i hk; exact ⟨hk.symm, h.readOri.save_kam hk⟩

theorem DInv.genNye {st : DerivedSt D} (h : DInv c e p B G pr st) :
    (genNye c st).1 = c.nye 0 (c.quats e) ∧ DInv c e p B G pr (genNye c st).2 := by
  unfold DefDAP.genNye
  simp only [h.readOri_eq, h.h0]
  split
  · rename_i hk; exact ⟨hk.symm, h.readOri⟩
  · rename_i hk; exact ⟨hk.symm, h.readOri.save_gnd (by rw [hk]; rfl)⟩

theorem DInv.genProx {st : DerivedSt D} (h : DInv c e p B G pr st) :
    (genProx c st).1 = (B.bind fun b => c.prox b.2) ∧ DInv c e p B G pr (genProx c st).2 := by
  obtain ⟨r1, r2⟩ := h.readBounds
  unfold DefDAP.genProx saveOne
  simp only [r1, map_bind_snd]
  split
  · rename_i hk; exact ⟨hk.symm, r2⟩
  · rename_i hk; exact ⟨hk.symm, r2.save_prox hk⟩

/-- What reading gives, with the boundaries `B` and the grains `G`. -/
def valueWith (c : DerivedCalc D) (e : D) (B G : Except Err (D × D)) :
    DerivedKey → Except Err D
  | .orientation => .ok (c.quats e)
  | .phaseBoundaries => B.map (·.1)
  | .grainBoundaries => B.map (·.2)
  | .grains => G.map (·.1)
  | .kam => c.kam (c.quats e)
  | .gnd => (c.nye 0 (c.quats e)).map (·.1)
  | .nye => (c.nye 0 (c.quats e)).map (·.2)
  | .proxigram => B.bind fun b => c.prox b.2

theorem DInv.read {st : DerivedSt D} (h : DInv c e p B G pr st) (k : DerivedKey) :
    ((pr ∨ k ≠ .proxigram) → (readDerived c k st).1 = valueWith c e B G k) ∧
      DInv c e p B G pr (readDerived c k st).2 := by
  cases k with
  | orientation => exact ⟨fun _ => by show Except.ok _ = _; rw [h.readOri_eq]; rfl, h.readOri⟩
  | phaseBoundaries => exact ⟨fun _ => h.readPhaseBounds.1, h.readPhaseBounds.2⟩
  | grainBoundaries => exact ⟨fun _ => h.readBounds.1, h.readBounds.2⟩
  | grains => exact ⟨fun _ => h.readGrains.1, h.readGrains.2.1⟩
  | kam =>
    simp only [readDerived, keptOr]
    split
    · rename_i hv; exact ⟨fun _ => (h.kam _ hv).symm, h⟩
    · exact ⟨fun _ => h.genKam.1, h.genKam.2⟩
  | gnd =>
    simp only [readDerived, keptOr]
    split
    · rename_i hv; exact ⟨fun _ => (h.gnd _ hv).symm, h⟩
    · exact ⟨fun _ => by rw [h.genNye.1]; rfl, h.genNye.2⟩
  | nye => exact ⟨fun _ => by simp only [readDerived]; rw [h.genNye.1]; rfl, h.genNye.2⟩
  | proxigram =>
    simp only [readDerived, keptOr]
    split
    · rename_i hv
      refine ⟨fun hpr => ?_, h⟩
      rcases hpr with hpr | hpr
      · exact (h.prox hpr _ hv).symm
      · exact absurd rfl hpr
    · exact ⟨fun _ => h.genProx.1, h.genProx.2⟩

theorem DInv.readList {st : DerivedSt D} (h : DInv c e p B G pr st) :
    (readGrainList c st).1 = G.map (fun gl => some gl.2) ∧
      DInv c e p B G pr (readGrainList c st).2 := by
  obtain ⟨h1, h2, h3⟩ := h.readGrains
  unfold readGrainList
  rw [h1]
  cases hcase : G with
  | error er => exact ⟨rfl, by rw [hcase] at h2; exact h2⟩
  | ok gl =>
    refine ⟨?_, by rw [hcase] at h2; exact h2⟩
    show Except.ok _ = Except.ok _
    rw [h3 gl.1 gl.2 hcase]

theorem DInv.setNet {st : DerivedSt D} (h : DInv c e p B G pr st) (n : D) :
    DInv c e p B G pr (setNet st n) :=
  ⟨h.he, h.hp, h.h0, h.ori, h.pb, h.gb, h.b10, h.grains, h.g10, h.kam, h.gnd, h.prox⟩

theorem DInv.buildNet {st : DerivedSt D} (h : DInv c e p B G pr st) :
    DInv c e p B G pr (buildNet c st) := by
  have h1 := h.readList.2
  have h2 := h1.readBounds.2
  have h3 := (h2.read .grains).2
  unfold DefDAP.buildNet
  split
  · exact h3.setNet _
  · exact h1
  · exact h1
  · exact h2
  · exact h3

theorem DInv.step {st : DerivedSt D} (h : DInv c e p B G pr st) {op : DerivedOp D}
    (hop : readsOnly op) : DInv c e p B G pr (derivedStep c st op) := by
  cases op with
  | read k => exact (h.read k).2
  | readList => exact h.readList.2
  | genKam => exact h.genKam.2
  | genNye => exact h.genNye.2
  | genProx => exact h.genProx.2
  | network => exact h.buildNet
  | genBounds tol => exact hop.elim
  | genGrains m => exact hop.elim
  | callBounds tol => exact hop.elim
  | callGrains m => exact hop.elim
  | filter tol => exact hop.elim
  | rotate => exact hop.elim
  | setPrimary n => exact hop.elim

theorem DInv.run {ops : List (DerivedOp D)} (hops : ∀ op ∈ ops, readsOnly op) :
    ∀ {st : DerivedSt D}, DInv c e p B G pr st → DInv c e p B G pr (derivedRun c st ops) := by
  induction ops with
  | nil => exact fun h => h
  | cons op ops ih =>
    intro st h
    exact ih (fun o ho => hops o (List.mem_cons_of_mem _ ho))
      (h.step (hops op List.mem_cons_self))

theorem DInv.loaded (c : DerivedCalc D) (e p : D) :
    DInv c e p (boundsOf c 10 e p) (grainsOf c 10 10 e p) True (DerivedSt.loaded e p) := by
  refine ⟨rfl, rfl, rfl, ?_, ?_, ?_, fun _ => rfl, ?_, fun _ => rfl, ?_, ?_, ?_⟩
  all_goals first
    | (intro v hv; cases hv)
    | (intro _ v hv; cases hv)

theorem valueWith_default (c : DerivedCalc D) (e p : D) (k : DerivedKey) :
    valueWith c e (boundsOf c 10 e p) (grainsOf c 10 10 e p) k = derivedOf c e p k := by
  cases k <;> rfl

/-! ### C124 -/

/-- After every history of reading, in any order, and of calculating again, everything read from
the map is the value calculated from the loaded data, or the error of that calculation; so are the
grains. -/
theorem C124_order (c : DerivedCalc D) (euler phase : D) (ops : List (DerivedOp D))
    (hops : ∀ op ∈ ops, readsOnly op) (k : DerivedKey) :
    (readDerived c k (derivedRun c (DerivedSt.loaded euler phase) ops)).1 =
        derivedOf c euler phase k ∧
      (readGrainList c (derivedRun c (DerivedSt.loaded euler phase) ops)).1 =
        (grainsOf c 10 10 euler phase).map fun gl => some gl.2 := by
  have h := (DInv.loaded c euler phase).run hops
  exact ⟨by rw [(h.read k).1 (Or.inl trivial), valueWith_default], h.readList.1⟩

/-! ### Settings -/

/-- What holds after every history that does not change orientations or the primary phase. -/
structure WInv (c : DerivedCalc D) (e p : D) (st : DerivedSt D) : Prop where
  he : st.euler = e
  hp : st.phase = p
  h0 : st.primary = 0
  ori : ∀ v, st.saved .orientation = some v → v = c.quats e
  kam : ∀ v, st.saved .kam = some v → c.kam (c.quats e) = .ok v
  gnd : ∀ v, st.saved .gnd = some v → (c.nye 0 (c.quats e)).map (·.1) = .ok v
  lst : ∀ v, st.saved .grains = some v → ∃ l, st.list = some l

theorem WInv.readOri_eq {st : DerivedSt D} (h : WInv c e p st) :
    (readOri c st).1 = c.quats e := readOri_val c (by rw [h.he]) h.ori

theorem WInv.readOri {st : DerivedSt D} (h : WInv c e p st) : WInv c e p (readOri c st).2 := by
  have L := readOri_loaded c st
  have hs : ∀ k, k ≠ .orientation → (DefDAP.readOri c st).2.saved k = st.saved k :=
    fun k hk => readOri_other c st hk
  refine ⟨L.1.trans h.he, L.2.1.trans h.hp, L.2.2.1.trans h.h0, ?_, ?_, ?_, ?_⟩
  · intro v hv
    rw [readOri_saved, h.readOri_eq] at hv
    exact (Option.some.inj hv).symm
  · rw [hs _ (by decide)]; exact h.kam
  · rw [hs _ (by decide)]; exact h.gnd
  · rw [hs _ (by decide), L.2.2.2.1]; exact h.lst

theorem WInv.genBounds {st : DerivedSt D} (h : WInv c e p st) (tol : ℝ) :
    WInv c e p (genBounds c tol st).2 := by
  have L := genBounds_loaded c tol st
  have hs : ∀ k, k ≠ .orientation → k ≠ .phaseBoundaries → k ≠ .grainBoundaries →
      (DefDAP.genBounds c tol st).2.saved k = st.saved k :=
    fun k hk hk1 hk2 => genBounds_other c tol st hk hk1 hk2
  refine ⟨L.1.trans h.he, L.2.1.trans h.hp, L.2.2.1.trans h.h0, ?_, ?_, ?_, ?_⟩
  · intro v hv
    rw [genBounds_ori, h.readOri_eq] at hv
    exact (Option.some.inj hv).symm
  · rw [hs _ (by decide) (by decide) (by decide)]; exact h.kam
  · rw [hs _ (by decide) (by decide) (by decide)]; exact h.gnd
  · rw [hs _ (by decide) (by decide) (by decide), L.2.2.2.1]; exact h.lst

theorem WInv.readBounds {st : DerivedSt D} (h : WInv c e p st) :
    WInv c e p (readBounds c st).2 := by
  unfold DefDAP.readBounds; split
  · exact h
  · exact h.genBounds 10

theorem WInv.readPhaseBounds {st : DerivedSt D} (h : WInv c e p st) :
    WInv c e p (readPhaseBounds c st).2 := by
  unfold DefDAP.readPhaseBounds; split
  · exact h
  · exact h.genBounds 10

theorem WInv.callGrains {st : DerivedSt D} (h : WInv c e p st) (m : Int) :
    WInv c e p (callGrains c m st).2 := by
  have h' := h.readBounds
  unfold DefDAP.callGrains grainsFrom
  split
  · exact h'
  · exact ⟨h'.he, h'.hp, h'.h0, h'.ori, h'.kam, h'.gnd, fun _ _ => ⟨_, rfl⟩⟩

theorem WInv.genGrains {st : DerivedSt D} (h : WInv c e p st) (m : Int) :
    WInv c e p (genGrains c m st).2 := by
  have h' := h.readBounds
  unfold DefDAP.genGrains DefDAP.callGrains grainsFrom
  split
  · exact h'
  · simp only [saveOne]
    refine ⟨h'.he, h'.hp, h'.h0, ?_, ?_, ?_, fun _ _ => ⟨_, rfl⟩⟩
    · rw [save_other _ _ (by decide)]; exact h'.ori
    · rw [save_other _ _ (by decide)]; exact h'.kam
    · rw [save_other _ _ (by decide)]; exact h'.gnd

theorem WInv.genKam {st : DerivedSt D} (h : WInv c e p st) : WInv c e p (genKam c st).2 := by
  have h' := h.readOri
  unfold DefDAP.genKam saveOne
  simp only [h.readOri_eq]
  split
  · exact h'
  · rename_i hk
    refine ⟨h'.he, h'.hp, h'.h0, ?_, ?_, ?_, ?_⟩
    · rw [save_other _ _ (by decide)]; exact h'.ori
    · intro w hw; rw [save_same] at hw; rw [hk, Option.some.inj hw]
    · rw [save_other _ _ (by decide)]; exact h'.gnd
    · rw [save_other _ _ (by decide)]; exact h'.lst

theorem WInv.genNye {st : DerivedSt D} (h : WInv c e p st) : WInv c e p (genNye c st).2 := by
  have h' := h.readOri
  unfold DefDAP.genNye
  simp only [h.readOri_eq, h.h0]
  split
  · exact h'
  · rename_i hk
    refine ⟨h'.he, h'.hp, h'.h0, ?_, ?_, ?_, ?_⟩
    · rw [save_other _ _ (by decide)]; exact h'.ori
    · rw [save_other _ _ (by decide)]; exact h'.kam
    · intro w hw; rw [save_same] at hw; rw [hk, ← Option.some.inj hw]; rfl
    · rw [save_other _ _ (by decide)]; exact h'.lst

theorem WInv.genProx {st : DerivedSt D} (h : WInv c e p st) : WInv c e p (genProx c st).2 := by
  have h' := h.readBounds
  unfold DefDAP.genProx saveOne
  simp only
  split
  · exact h'
  · refine ⟨h'.he, h'.hp, h'.h0, ?_, ?_, ?_, ?_⟩
    · rw [save_other _ _ (by decide)]; exact h'.ori
    · rw [save_other _ _ (by decide)]; exact h'.kam
    · rw [save_other _ _ (by decide)]; exact h'.gnd
    · rw [save_other _ _ (by decide)]; exact h'.lst

theorem WInv.read {st : DerivedSt D} (h : WInv c e p st) (k : DerivedKey) :
    WInv c e p (readDerived c k st).2 := by
  cases k with
  | orientation => exact h.readOri
  | phaseBoundaries => exact h.readPhaseBounds
  | grainBoundaries => exact h.readBounds
  | grains =>
    simp only [readDerived, keptOr]
    split
    · exact h
    · exact h.genGrains 10
  | kam =>
    simp only [readDerived, keptOr]
    split
    · exact h
    · exact h.genKam
  | gnd =>
    simp only [readDerived, keptOr]
    split
    · exact h
    · exact h.genNye
  | nye => exact h.genNye
  | proxigram =>
    simp only [readDerived, keptOr]
    split
    · exact h
    · exact h.genProx

theorem readGrainList_state (c : DerivedCalc D) (st : DerivedSt D) :
    (readGrainList c st).2 = (readDerived c .grains st).2 := by
  unfold readGrainList; split <;> rfl

theorem WInv.readList {st : DerivedSt D} (h : WInv c e p st) :
    WInv c e p (readGrainList c st).2 := by
  rw [readGrainList_state]; exact h.read .grains

theorem WInv.buildNet {st : DerivedSt D} (h : WInv c e p st) : WInv c e p (buildNet c st) := by
  have h1 := h.readList
  have h2 := h1.readBounds
  have h3 := h2.read .grains
  unfold DefDAP.buildNet
  split
  · exact ⟨h3.he, h3.hp, h3.h0, h3.ori, h3.kam, h3.gnd, h3.lst⟩
  · exact h1
  · exact h1
  · exact h2
  · exact h3

theorem WInv.step {st : DerivedSt D} (h : WInv c e p st) {op : DerivedOp D}
    (hop : keepsLoaded op) : WInv c e p (derivedStep c st op) := by
  cases op with
  | read k => exact h.read k
  | readList => exact h.readList
  | genKam => exact h.genKam
  | genNye => exact h.genNye
  | genProx => exact h.genProx
  | network => exact h.buildNet
  | genBounds tol => exact h.genBounds tol
  | genGrains m => exact h.genGrains m
  | callBounds tol => exact h.readOri
  | callGrains m => exact h.callGrains m
  | filter tol => exact hop.elim
  | rotate => exact hop.elim
  | setPrimary n => exact hop.elim

theorem WInv.run {ops : List (DerivedOp D)} (hops : ∀ op ∈ ops, keepsLoaded op) :
    ∀ {st : DerivedSt D}, WInv c e p st → WInv c e p (derivedRun c st ops) := by
  induction ops with
  | nil => exact fun h => h
  | cons op ops ih =>
    intro st h
    exact ih (fun o ho => hops o (List.mem_cons_of_mem _ ho))
      (h.step (hops op List.mem_cons_self))

theorem WInv.loaded (c : DerivedCalc D) (e p : D) : WInv c e p (DerivedSt.loaded e p) := by
  refine ⟨rfl, rfl, rfl, ?_, ?_, ?_, ?_⟩ <;> (intro v hv; cases hv)

/-- After boundaries were calculated with a setting, they are those kept. -/
theorem WInv.bounds {st : DerivedSt D} (h : WInv c e p st) {tol : ℝ} {b : D × D}
    (hb : boundsOf c tol e p = .ok b) :
    ∃ G, DInv c e p (.ok b) G False (DefDAP.genBounds c tol st).2 := by
  have hb' : c.bounds tol st.primary (DefDAP.readOri c st).1 st.phase = .ok b := by
    rw [h.readOri_eq, h.h0, h.hp]; exact hb
  obtain ⟨-, h2, h3⟩ := genBounds_ok c tol st hb'
  have w := h.genBounds tol
  have hnone : ¬ ((DefDAP.genBounds c tol st).2.saved .phaseBoundaries = none ∨
      (DefDAP.genBounds c tol st).2.saved .grainBoundaries = none) := by
    rw [h2, h3]; simp
  cases hg : (DefDAP.genBounds c tol st).2.saved .grains with
  | none =>
    refine ⟨(Except.ok b).bind fun b => c.grains 10 b.2 p, w.he, w.hp, w.h0, w.ori, ?_, ?_,
      fun h => absurd h hnone, ?_, fun _ => rfl, w.kam, w.gnd, fun h => h.elim⟩
    · intro v hv; rw [h2] at hv; rw [← Option.some.inj hv]; rfl
    · intro v hv; rw [h3] at hv; rw [← Option.some.inj hv]; rfl
    · intro v hv; rw [hg] at hv; cases hv
  | some g =>
    obtain ⟨l, hl⟩ := w.lst g hg
    refine ⟨.ok (g, l), w.he, w.hp, w.h0, w.ori, ?_, ?_,
      fun h => absurd h hnone, ?_, ?_, w.kam, w.gnd, fun h => h.elim⟩
    · intro v hv; rw [h2] at hv; rw [← Option.some.inj hv]; rfl
    · intro v hv; rw [h3] at hv; rw [← Option.some.inj hv]; rfl
    · intro v hv; rw [hg] at hv; rw [← Option.some.inj hv]; exact ⟨l, rfl, hl⟩
    · intro hn; rw [hg] at hn; cases hn

/-- After grains were calculated with a setting, they are those kept. -/
theorem DInv.genGrains {st : DerivedSt D} (h : DInv c e p B G pr st) {m : Int} {gl : D × D}
    {b : D × D} (hB : B = .ok b) (hb : st.saved .phaseBoundaries = some b.1)
    (hb2 : st.saved .grainBoundaries = some b.2) (hg : c.grains m b.2 p = .ok gl) :
    DInv c e p B (.ok gl) pr (genGrains c m st).2 ∧
      (DefDAP.genGrains c m st).2.saved .phaseBoundaries = some b.1 ∧
      (DefDAP.genGrains c m st).2.saved .grainBoundaries = some b.2 := by
  have hr : DefDAP.readBounds c st = (.ok b.2, st) := by
    unfold DefDAP.readBounds; rw [hb2]
  have hgen : DefDAP.genGrains c m st = (.ok gl.1,
      DerivedSt.save ⟨st.euler, st.phase, st.primary, st.saved, some gl.2, st.network⟩ .grains
        gl.1) := by
    unfold DefDAP.genGrains DefDAP.callGrains grainsFrom
    rw [hr, h.hp]
    simp only [Except.bind, hg, saveOne]
  rw [hgen]
  refine ⟨⟨h.he, h.hp, h.h0, ?_, ?_, ?_, ?_, ?_, ?_, ?_, ?_, ?_⟩, ?_, ?_⟩
  · rw [save_other _ _ (by decide)]; exact h.ori
  · rw [save_other _ _ (by decide)]; exact h.pb
  · rw [save_other _ _ (by decide)]; exact h.gb
  · rw [save_other _ _ (by decide), save_other _ _ (by decide)]; exact h.b10
  · intro v hv
    rw [save_same] at hv
    exact ⟨gl.2, by rw [← Option.some.inj hv], rfl⟩
  · intro hn; rw [save_same] at hn; cases hn
  · rw [save_other _ _ (by decide)]; exact h.kam
  · rw [save_other _ _ (by decide)]; exact h.gnd
  · rw [save_other _ _ (by decide)]; exact h.prox
  · rw [save_other _ _ (by decide)]; exact hb
  · rw [save_other _ _ (by decide)]; exact hb2

/-! ### Boundaries are kept -/

/-- These boundaries are kept. -/
def hasBounds (b : D × D) (st : DerivedSt D) : Prop :=
  st.saved .phaseBoundaries = some b.1 ∧ st.saved .grainBoundaries = some b.2

theorem hasBounds.save {b : D × D} {st : DerivedSt D} (h : hasBounds b st) {k : DerivedKey} (v : D)
    (h1 : .phaseBoundaries ≠ k) (h2 : .grainBoundaries ≠ k) : hasBounds b (st.save k v) :=
  ⟨by rw [save_other _ _ h1]; exact h.1, by rw [save_other _ _ h2]; exact h.2⟩

theorem hasBounds.readOri {b : D × D} {st : DerivedSt D} (h : hasBounds b st) :
    hasBounds b (DefDAP.readOri c st).2 :=
  ⟨by rw [readOri_other c st (by decide)]; exact h.1,
    by rw [readOri_other c st (by decide)]; exact h.2⟩

theorem hasBounds.readBounds {b : D × D} {st : DerivedSt D} (h : hasBounds b st) :
    DefDAP.readBounds c st = (.ok b.2, st) := by
  unfold DefDAP.readBounds; rw [h.2]

theorem hasBounds.readPhaseBounds {b : D × D} {st : DerivedSt D} (h : hasBounds b st) :
    DefDAP.readPhaseBounds c st = (.ok b.1, st) := by
  unfold DefDAP.readPhaseBounds; rw [h.1]

theorem hasBounds.callGrains {b : D × D} {st : DerivedSt D} (h : hasBounds b st) (m : Int) :
    hasBounds b (DefDAP.callGrains c m st).2 := by
  unfold DefDAP.callGrains grainsFrom
  rw [h.readBounds]
  split <;> exact h

theorem hasBounds.saveOne {b : D × D} {r : Except Err D × DerivedSt D} (h : hasBounds b r.2)
    {k : DerivedKey} (h1 : .phaseBoundaries ≠ k) (h2 : .grainBoundaries ≠ k) :
    hasBounds b (DefDAP.saveOne k r).2 := by
  unfold DefDAP.saveOne
  split
  · exact h
  · exact h.save _ h1 h2

theorem hasBounds.genGrains {b : D × D} {st : DerivedSt D} (h : hasBounds b st) (m : Int) :
    hasBounds b (DefDAP.genGrains c m st).2 :=
  (h.callGrains m).saveOne (by decide) (by decide)

theorem hasBounds.genKam {b : D × D} {st : DerivedSt D} (h : hasBounds b st) :
    hasBounds b (DefDAP.genKam c st).2 :=
  hasBounds.saveOne (r := (c.kam (DefDAP.readOri c st).1, (DefDAP.readOri c st).2)) h.readOri
    (by decide) (by decide)

theorem hasBounds.genNye {b : D × D} {st : DerivedSt D} (h : hasBounds b st) :
    hasBounds b (DefDAP.genNye c st).2 := by
  unfold DefDAP.genNye
  split
  · exact h.readOri
  · exact h.readOri.save _ (by decide) (by decide)

theorem hasBounds.genProx {b : D × D} {st : DerivedSt D} (h : hasBounds b st) :
    hasBounds b (DefDAP.genProx c st).2 :=
  hasBounds.saveOne
    (r := ((DefDAP.readBounds c st).1.bind c.prox, (DefDAP.readBounds c st).2))
    (by rw [h.readBounds]; exact h) (by decide) (by decide)

theorem hasBounds.keptOr {b : D × D} {st : DerivedSt D} (h : hasBounds b st) (k : DerivedKey)
    {f : DerivedSt D → Except Err D × DerivedSt D} (hf : hasBounds b (f st).2) :
    hasBounds b (DefDAP.keptOr k f st).2 := by
  unfold DefDAP.keptOr
  split
  · exact h
  · exact hf

theorem hasBounds.read {b : D × D} {st : DerivedSt D} (h : hasBounds b st) (k : DerivedKey) :
    hasBounds b (readDerived c k st).2 := by
  cases k with
  | orientation => exact h.readOri
  | phaseBoundaries => simp only [readDerived, h.readPhaseBounds]; exact h
  | grainBoundaries => simp only [readDerived, h.readBounds]; exact h
  | grains => exact h.keptOr _ (h.genGrains 10)
  | kam => exact h.keptOr _ h.genKam
  | gnd => exact h.keptOr _ h.genNye
  | nye => exact h.genNye
  | proxigram => exact h.keptOr _ h.genProx

theorem hasBounds.buildNet {b : D × D} {st : DerivedSt D} (h : hasBounds b st) :
    hasBounds b (DefDAP.buildNet c st) := by
  have h1 : hasBounds b (readGrainList c st).2 := by
    rw [readGrainList_state]; exact h.read .grains
  have h2 : hasBounds b (DefDAP.readBounds c (readGrainList c st).2).2 := by
    rw [h1.readBounds]; exact h1
  have h3 := h2.read (c := c) .grains
  unfold DefDAP.buildNet
  split
  · exact h3
  · exact h1
  · exact h1
  · exact h2
  · exact h3

theorem hasBounds.step {b : D × D} {st : DerivedSt D} (h : hasBounds b st) {op : DerivedOp D}
    (hop : ∀ tol, op ≠ .genBounds tol) : hasBounds b (derivedStep c st op) := by
  cases op with
  | read k => exact h.read k
  | readList =>
    show hasBounds b (readGrainList c st).2
    rw [readGrainList_state]; exact h.read .grains
  | genKam => exact h.genKam
  | genNye => exact h.genNye
  | genProx => exact h.genProx
  | network => exact h.buildNet
  | genBounds tol => exact absurd rfl (hop tol)
  | genGrains m => exact h.genGrains m
  | callBounds tol => exact h.readOri
  | callGrains m => exact h.callGrains m
  | filter tol => exact h.readOri.save _ (by decide) (by decide)
  | rotate =>
    have h1 : hasBounds b (flipLoaded c st) := h
    exact h1.readOri.save _ (by decide) (by decide)
  | setPrimary n => exact h

theorem hasBounds.run {b : D × D} {ops : List (DerivedOp D)}
    (hops : ∀ op ∈ ops, ∀ tol, op ≠ .genBounds tol) :
    ∀ {st : DerivedSt D}, hasBounds b st → hasBounds b (derivedRun c st ops) := by
  induction ops with
  | nil => exact fun h => h
  | cons op ops ih =>
    intro st h
    exact ih (fun o ho => hops o (List.mem_cons_of_mem _ ho))
      (h.step (hops op List.mem_cons_self))

theorem readsOnly_bounds {op : DerivedOp D} (h : readsOnly op) (tol : ℝ) :
    op ≠ .genBounds tol := by
  rintro rfl; exact h

theorem derivedRun_append (c : DerivedCalc D) (st : DerivedSt D) (l l' : List (DerivedOp D)) :
    derivedRun c st (l ++ l') = derivedRun c (derivedRun c st l) l' := by
  simp [derivedRun]

theorem derivedRun_cons (c : DerivedCalc D) (st : DerivedSt D) (o : DerivedOp D)
    (l : List (DerivedOp D)) :
    derivedRun c st (o :: l) = derivedRun c (derivedStep c st o) l := rfl

/-- Settings: after every history that does not change orientations or the primary phase, then
calculating the boundaries with a tolerance, reading anything, calculating the grains with a
smallest size and reading anything, everything read (but the distances to boundaries) is the value
for these settings, whatever was read or calculated before. -/
theorem C124_settings (c : DerivedCalc D) (euler phase : D) (before reads reads' :
    List (DerivedOp D)) (hb : ∀ op ∈ before, keepsLoaded op) (hr : ∀ op ∈ reads, readsOnly op)
    (hr' : ∀ op ∈ reads', readsOnly op) (tol : ℝ) (m : Int) (b gl : D × D)
    (hbounds : boundsOf c tol euler phase = .ok b)
    (hgrains : grainsOf c tol m euler phase = .ok gl) :
    ∃ st, st = derivedRun c (DerivedSt.loaded euler phase)
        (before ++ .genBounds tol :: (reads ++ .genGrains m :: reads')) ∧
      (readDerived c .orientation st).1 = .ok (c.quats euler) ∧
      (readDerived c .phaseBoundaries st).1 = .ok b.1 ∧
      (readDerived c .grainBoundaries st).1 = .ok b.2 ∧
      (readDerived c .grains st).1 = .ok gl.1 ∧
      (readGrainList c st).1 = .ok (some gl.2) ∧
      (readDerived c .kam st).1 = c.kam (c.quats euler) ∧
      (readDerived c .gnd st).1 = (c.nye 0 (c.quats euler)).map (·.1) ∧
      (readDerived c .nye st).1 = (c.nye 0 (c.quats euler)).map (·.2) := by
  refine ⟨_, rfl, ?_⟩
  have hg : c.grains m b.2 phase = .ok gl := by
    have := hgrains
    unfold grainsOf at this
    rw [hbounds] at this
    exact this
  have w := (WInv.loaded c euler phase).run hb
  obtain ⟨G, h1⟩ := w.bounds hbounds
  have hbnd : hasBounds b (genBounds c tol
      (derivedRun c (DerivedSt.loaded euler phase) before)).2 := by
    have := genBounds_ok c tol (derivedRun c (DerivedSt.loaded euler phase) before) (b := b)
      (by rw [w.readOri_eq, w.h0, w.hp]; exact hbounds)
    exact this.2
  have h2 := h1.run hr
  have hbnd2 := hbnd.run (c := c) fun op ho tol => readsOnly_bounds (hr op ho) tol
  have h3 := (h2.genGrains rfl hbnd2.1 hbnd2.2 hg).1
  have h4 := h3.run hr'
  rw [derivedRun_append, derivedRun_cons, derivedRun_append, derivedRun_cons]
  refine ⟨(h4.read .orientation).1 (Or.inr (by decide)),
    (h4.read .phaseBoundaries).1 (Or.inr (by decide)),
    (h4.read .grainBoundaries).1 (Or.inr (by decide)), (h4.read .grains).1 (Or.inr (by decide)),
    h4.readList.1, (h4.read .kam).1 (Or.inr (by decide)), (h4.read .gnd).1 (Or.inr (by decide)),
    (h4.read .nye).1 (Or.inr (by decide))⟩

/-! ### Grains are kept -/

/-- The image of grains and the list of grains satisfy `P`. -/
def hasGrains (P : Option D → Option D → Prop) (st : DerivedSt D) : Prop :=
  P (st.saved .grains) st.list

variable {P : Option D → Option D → Prop}

theorem hasGrains.save {st : DerivedSt D} (h : hasGrains P st) {k : DerivedKey} (v : D)
    (h1 : .grains ≠ k) : hasGrains P (st.save k v) := by
  unfold hasGrains
  rw [save_other _ _ h1]; exact h

theorem hasGrains.readOri {st : DerivedSt D} (h : hasGrains P st) :
    hasGrains P (DefDAP.readOri c st).2 := by
  unfold hasGrains
  rw [readOri_other c st (by decide), (readOri_loaded c st).2.2.2.1]; exact h

theorem hasGrains.genBounds {st : DerivedSt D} (h : hasGrains P st) (tol : ℝ) :
    hasGrains P (DefDAP.genBounds c tol st).2 := by
  unfold hasGrains
  rw [genBounds_other c tol st (by decide) (by decide) (by decide),
    (genBounds_loaded c tol st).2.2.2.1]
  exact h

theorem hasGrains.readBounds {st : DerivedSt D} (h : hasGrains P st) :
    hasGrains P (DefDAP.readBounds c st).2 := by
  unfold hasGrains
  rw [readBounds_other c st (by decide) (by decide) (by decide),
    (readBounds_loaded c st).2.2.2.1]
  exact h

theorem hasGrains.readPhaseBounds {st : DerivedSt D} (h : hasGrains P st) :
    hasGrains P (DefDAP.readPhaseBounds c st).2 := by
  unfold hasGrains
  rw [readPhaseBounds_other c st (by decide) (by decide) (by decide),
    (readPhaseBounds_loaded c st).2.2.2.1]
  exact h

theorem hasGrains.saveOne {r : Except Err D × DerivedSt D} (h : hasGrains P r.2)
    {k : DerivedKey} (h1 : .grains ≠ k) : hasGrains P (DefDAP.saveOne k r).2 := by
  unfold DefDAP.saveOne
  split
  · exact h
  · exact h.save _ h1

theorem hasGrains.genKam {st : DerivedSt D} (h : hasGrains P st) :
    hasGrains P (DefDAP.genKam c st).2 :=
  hasGrains.saveOne (r := (c.kam (DefDAP.readOri c st).1, (DefDAP.readOri c st).2)) h.readOri
    (by decide)

theorem hasGrains.genNye {st : DerivedSt D} (h : hasGrains P st) :
    hasGrains P (DefDAP.genNye c st).2 := by
  unfold DefDAP.genNye
  split
  · exact h.readOri
  · exact h.readOri.save _ (by decide)

theorem hasGrains.genProx {st : DerivedSt D} (h : hasGrains P st) :
    hasGrains P (DefDAP.genProx c st).2 :=
  hasGrains.saveOne
    (r := ((DefDAP.readBounds c st).1.bind c.prox, (DefDAP.readBounds c st).2)) h.readBounds
    (by decide)

/-- Calculating the grains keeps what holds for the results of all searches. -/
theorem hasGrains.genGrains {st : DerivedSt D} (h : hasGrains P st) (m : Int)
    (hP : ∀ b p gl, c.grains m b p = .ok gl → P (some gl.1) (some gl.2)) :
    hasGrains P (DefDAP.genGrains c m st).2 := by
  unfold DefDAP.genGrains DefDAP.callGrains grainsFrom
  split
  · exact h.readBounds
  · rename_i gl hgl
    cases hb : (DefDAP.readBounds c st).1 with
    | error er => rw [hb] at hgl; cases hgl
    | ok b =>
      rw [hb] at hgl
      simp only [DefDAP.saveOne, hasGrains, save_same]
      exact hP b _ gl hgl

theorem hasGrains.keptOr {st : DerivedSt D} (h : hasGrains P st) (k : DerivedKey)
    {f : DerivedSt D → Except Err D × DerivedSt D} (hf : st.saved k = none → hasGrains P (f st).2) :
    hasGrains P (DefDAP.keptOr k f st).2 := by
  unfold DefDAP.keptOr
  split
  · exact h
  · rename_i hn; exact hf hn

theorem hasGrains.read {st : DerivedSt D} (h : hasGrains P st) (k : DerivedKey)
    (hP : st.saved .grains = none → ∀ b p gl, c.grains 10 b p = .ok gl →
      P (some gl.1) (some gl.2)) :
    hasGrains P (readDerived c k st).2 := by
  cases k with
  | orientation => exact h.readOri
  | phaseBoundaries => exact h.readPhaseBounds
  | grainBoundaries => exact h.readBounds
  | grains => exact h.keptOr _ fun hn => h.genGrains 10 (hP hn)
  | kam => exact h.keptOr _ fun _ => h.genKam
  | gnd => exact h.keptOr _ fun _ => h.genNye
  | nye => exact h.genNye
  | proxigram => exact h.keptOr _ fun _ => h.genProx

theorem hasGrains.readList {st : DerivedSt D} (h : hasGrains P st)
    (hP : st.saved .grains = none → ∀ b p gl, c.grains 10 b p = .ok gl →
      P (some gl.1) (some gl.2)) :
    hasGrains P (readGrainList c st).2 := by
  rw [readGrainList_state]; exact h.read .grains hP

theorem hasGrains.buildNet {st : DerivedSt D} (h : hasGrains P st)
    (hP : ∀ b p gl, c.grains 10 b p = .ok gl → P none st.list ∨ st.saved .grains = none →
      P (some gl.1) (some gl.2)) (hn : ∀ l, ¬ P none l ∨ ∀ b p gl, c.grains 10 b p = .ok gl →
      P (some gl.1) (some gl.2)) :
    hasGrains P (DefDAP.buildNet c st) := by
  have key : ∀ {st : DerivedSt D}, hasGrains P st → st.saved .grains = none →
      ∀ b p gl, c.grains 10 b p = .ok gl → P (some gl.1) (some gl.2) := by
    intro st h hnone b p gl hgl
    rcases hn st.list with h' | h'
    · exact absurd (by unfold hasGrains at h; rw [hnone] at h; exact h) h'
    · exact h' b p gl hgl
  have h1 := h.readList (c := c) (key h)
  have h2 := h1.readBounds (c := c)
  have h3 := h2.read (c := c) .grains (key h2)
  unfold DefDAP.buildNet
  split
  · exact h3
  · exact h1
  · exact h1
  · exact h2
  · exact h3

/-- A step keeps what holds for the results of all searches it can do. -/
theorem hasGrains.step {st : DerivedSt D} (h : hasGrains P st) {op : DerivedOp D}
    (hd : noDirectGrains op)
    (hread : ∀ l, ¬ P none l ∨ ∀ b p gl, c.grains 10 b p = .ok gl → P (some gl.1) (some gl.2))
    (hgen : ∀ m, op = .genGrains m → ∀ b p gl, c.grains m b p = .ok gl →
      P (some gl.1) (some gl.2)) :
    hasGrains P (derivedStep c st op) := by
  have key : ∀ {st : DerivedSt D}, hasGrains P st → st.saved .grains = none →
      ∀ b p gl, c.grains 10 b p = .ok gl → P (some gl.1) (some gl.2) := by
    intro st h hnone b p gl hgl
    rcases hread st.list with h' | h'
    · exact absurd (by unfold hasGrains at h; rw [hnone] at h; exact h) h'
    · exact h' b p gl hgl
  cases op with
  | read k => exact h.read k (key h)
  | readList => exact h.readList (key h)
  | genKam => exact h.genKam
  | genNye => exact h.genNye
  | genProx => exact h.genProx
  | network =>
    refine h.buildNet (fun b p gl hgl hor => ?_) hread
    rcases hread st.list with h' | h'
    · rcases hor with h'' | h''
      · exact absurd h'' h'
      · exact key h h'' b p gl hgl
    · exact h' b p gl hgl
  | genBounds tol => exact h.genBounds tol
  | genGrains m => exact h.genGrains m (hgen m rfl)
  | callBounds tol => exact h.readOri
  | callGrains m => exact hd.elim
  | filter tol => exact h.readOri.save _ (by decide)
  | rotate =>
    have h1 : hasGrains P (flipLoaded c st) := h
    exact h1.readOri.save _ (by decide)
  | setPrimary n => exact h

theorem hasGrains.run {ops : List (DerivedOp D)} (hd : ∀ op ∈ ops, noDirectGrains op)
    (hread : ∀ l, ¬ P none l ∨ ∀ b p gl, c.grains 10 b p = .ok gl → P (some gl.1) (some gl.2))
    (hgen : ∀ m, DerivedOp.genGrains m ∈ ops → ∀ b p gl, c.grains m b p = .ok gl →
      P (some gl.1) (some gl.2)) :
    ∀ {st : DerivedSt D}, hasGrains P st → hasGrains P (derivedRun c st ops) := by
  induction ops with
  | nil => exact fun h => h
  | cons op ops ih =>
    intro st h
    refine ih (fun o ho => hd o (List.mem_cons_of_mem _ ho))
      (fun m hm => hgen m (List.mem_cons_of_mem _ hm))
      (h.step (hd op List.mem_cons_self) hread ?_)
    rintro m rfl
    exact hgen m List.mem_cons_self

/-- The image of grains and the list of grains always come from one search for grains, whatever is
read, calculated or changed, unless the method `find_grains` is called. -/
theorem C124_one_search (c : DerivedCalc D) (euler phase : D) (ops : List (DerivedOp D))
    (hops : ∀ op ∈ ops, noDirectGrains op) (g : D)
    (hg : (readDerived c .grains (derivedRun c (DerivedSt.loaded euler phase) ops)).1 = .ok g) :
    ∃ (m : Int) (b p l : D), c.grains m b p = .ok (g, l) ∧
      (readGrainList c (derivedRun c (DerivedSt.loaded euler phase) ops)).1 = .ok (some l) := by
  let P : Option D → Option D → Prop := fun x y => ∀ g, x = some g →
    ∃ (m : Int) (b p l : D), c.grains m b p = .ok (g, l) ∧ y = some l
  have hP : ∀ m b p gl, c.grains m b p = .ok gl → P (some gl.1) (some gl.2) := by
    intro m b p gl hgl g hg
    exact ⟨m, b, p, gl.2, by rw [hgl, ← Option.some.inj hg], rfl⟩
  have h : hasGrains P (derivedRun c (DerivedSt.loaded euler phase) ops) :=
    hasGrains.run hops (fun l => Or.inr fun b p gl => hP 10 b p gl)
      (fun m _ b p gl => hP m b p gl) (fun g hg => by cases hg)
  have h' := h.read (c := c) .grains fun _ b p gl => hP 10 b p gl
  have hs : (readDerived c .grains (derivedRun c (DerivedSt.loaded euler phase) ops)).2.saved
      .grains = some g := by
    revert hg
    generalize derivedRun c (DerivedSt.loaded euler phase) ops = st
    simp only [readDerived, keptOr]
    split
    · rename_i v hv
      intro hg
      rw [hv, Except.ok.inj hg]
    · unfold genGrains saveOne
      split
      · intro hg; cases hg
      · intro hg
        rw [save_same, Except.ok.inj hg]
  obtain ⟨m, b, p, l, h1, h2⟩ := h' g hs
  refine ⟨m, b, p, l, h1, ?_⟩
  unfold readGrainList
  rw [hg]
  simp only
  rw [h2]

/-- False: calculated data follow the data they are calculated from. Boundaries that were
calculated are read again after anything that does not calculate them, also after filtering,
rotating or choosing another primary phase. -/
theorem C124_stale_boundaries (c : DerivedCalc D) (euler phase : D) (before after :
    List (DerivedOp D)) (hbefore : ∀ op ∈ before, keepsLoaded op)
    (hafter : ∀ op ∈ after, ∀ tol, op ≠ .genBounds tol) (tol : ℝ) (b : D × D)
    (hb : boundsOf c tol euler phase = .ok b) :
    ∃ st, st = derivedRun c (DerivedSt.loaded euler phase) (before ++ .genBounds tol :: after) ∧
      (readDerived c .phaseBoundaries st).1 = .ok b.1 ∧
      (readDerived c .grainBoundaries st).1 = .ok b.2 := by
  refine ⟨_, rfl, ?_⟩
  have w := (WInv.loaded c euler phase).run hbefore
  have hbnd : hasBounds b (genBounds c tol
      (derivedRun c (DerivedSt.loaded euler phase) before)).2 :=
    (genBounds_ok c tol (derivedRun c (DerivedSt.loaded euler phase) before) (b := b)
      (by rw [w.readOri_eq, w.h0, w.hp]; exact hb)).2
  rw [derivedRun_append, derivedRun_cons]
  have h : hasBounds b (derivedRun c (derivedStep c
      (derivedRun c (DerivedSt.loaded euler phase) before) (.genBounds tol)) after) :=
    hbnd.run (c := c) hafter
  exact ⟨by simp only [readDerived]; rw [h.readPhaseBounds],
    by simp only [readDerived]; rw [h.readBounds]⟩

/-- False likewise: grains that were calculated are read again after anything that does not look for
grains, also after calculating the boundaries with another tolerance. -/
theorem C124_stale_grains (c : DerivedCalc D) (euler phase : D) (before after :
    List (DerivedOp D)) (hafter : ∀ op ∈ after, noDirectGrains op ∧ ∀ m, op ≠ .genGrains m)
    (m : Int) (g l : D)
    (hg : (genGrains c m (derivedRun c (DerivedSt.loaded euler phase) before)).1 = .ok g)
    (hl : (genGrains c m (derivedRun c (DerivedSt.loaded euler phase) before)).2.list = some l) :
    ∃ st, st = derivedRun c (DerivedSt.loaded euler phase) (before ++ .genGrains m :: after) ∧
      (readDerived c .grains st).1 = .ok g ∧ (readGrainList c st).1 = .ok (some l) := by
  refine ⟨_, rfl, ?_⟩
  rw [derivedRun_append, derivedRun_cons]
  let P : Option D → Option D → Prop := fun x y => x = some g ∧ y = some l
  have hs : hasGrains P (derivedStep c (derivedRun c (DerivedSt.loaded euler phase) before)
      (.genGrains m)) := by
    refine ⟨?_, hl⟩
    revert hg
    show _ → (genGrains c m _).2.saved .grains = some g
    unfold genGrains saveOne
    split
    · intro hg; cases hg
    · intro hg; rw [save_same, Except.ok.inj hg]
  have h := hs.run (c := c) (fun op ho => (hafter op ho).1)
    (fun l => Or.inl fun h => by cases h.1) (fun m hm => absurd rfl ((hafter _ hm).2 m))
  have hread : readDerived c .grains (derivedRun c (derivedStep c
      (derivedRun c (DerivedSt.loaded euler phase) before) (.genGrains m)) after) =
      (.ok g, derivedRun c (derivedStep c
      (derivedRun c (DerivedSt.loaded euler phase) before) (.genGrains m)) after) := by
    simp only [readDerived, keptOr]
    rw [h.1]
  refine ⟨by rw [hread], ?_⟩
  unfold readGrainList
  rw [hread]
  simp only
  rw [h.2]

/-! ### Methods called directly -/

/-- False: calling the method `find_boundaries` sets the boundaries. What is read after it on a map
just loaded is that for the default tolerance. -/
theorem C124_direct_boundaries (c : DerivedCalc D) (euler phase : D) (tol : ℝ) (k : DerivedKey) :
    (readDerived c k (derivedRun c (DerivedSt.loaded euler phase) [.callBounds tol])).1 =
      derivedOf c euler phase k := by
  have h := (DInv.loaded c euler phase).readOri
  exact ((h.read k).1 (Or.inl trivial)).trans (valueWith_default c euler phase k)

/-- False: calling the method `find_grains` sets the grains. The image read after it on a map just
loaded is that for the default smallest size, and so is the list. -/
theorem C124_direct_grains (c : DerivedCalc D) (euler phase : D) (m : Int) :
    (readDerived c .grains (derivedRun c (DerivedSt.loaded euler phase) [.callGrains m])).1 =
        derivedOf c euler phase .grains ∧
      (readGrainList c (derivedRun c (DerivedSt.loaded euler phase) [.callGrains m])).1 =
        (grainsOf c 10 10 euler phase).map fun gl => some gl.2 := by
  have h : DInv c euler phase (boundsOf c 10 euler phase) (grainsOf c 10 10 euler phase) True
      (callGrains c m (DerivedSt.loaded euler phase)).2 := by
    have h0 := DInv.loaded c euler phase
    have h1 := h0.readBounds.2
    have hn : (readBounds c (DerivedSt.loaded euler phase)).2.saved .grains = none := by
      rw [readBounds_other c _ (by decide) (by decide) (by decide)]; rfl
    unfold callGrains grainsFrom
    split
    · exact h1
    · exact ⟨h1.he, h1.hp, h1.h0, h1.ori, h1.pb, h1.gb, h1.b10,
        fun v hv => (by
          have hv' : (readBounds c (DerivedSt.loaded euler phase)).2.saved .grains = some v := hv
          rw [hn] at hv'; cases hv'), h1.g10, h1.kam, h1.gnd, h1.prox⟩
  exact ⟨h.readGrains.1, h.readList.1⟩

/-- False: the list of grains matches the image of grains. After the image was read, calling the
method `find_grains` replaces the list but not the image. -/
theorem C124_direct_mixed (c : DerivedCalc D) (euler phase : D) (m : Int) (b gl gl' : D × D)
    (hb : boundsOf c 10 euler phase = .ok b) (hg : c.grains 10 b.2 phase = .ok gl)
    (hg' : c.grains m b.2 phase = .ok gl') :
    ∃ st, st = derivedRun c (DerivedSt.loaded euler phase) [.read .grains, .callGrains m] ∧
      (readDerived c .grains st).1 = .ok gl.1 ∧ (readGrainList c st).1 = .ok (some gl'.2) := by
  refine ⟨_, rfl, ?_⟩
  have hG : grainsOf c 10 10 euler phase = .ok gl := by
    unfold grainsOf; rw [hb]; exact hg
  have h := (DInv.loaded c euler phase).readGrains
  rw [hG] at h
  obtain ⟨-, h2, -⟩ := h
  have hs : (readDerived c .grains (DerivedSt.loaded euler phase)).2.saved .grains
      = some gl.1 := by
    have := (DInv.loaded c euler phase).readGrains.1
    rw [hG] at this
    revert this
    simp only [readDerived, keptOr, DerivedSt.loaded]
    unfold genGrains saveOne
    split
    · intro hg; cases hg
    · intro hg; rw [save_same, Except.ok.inj hg]
  have r := h2.readBounds
  have hcall : ∀ st : DerivedSt D, (readBounds c st).1 = .ok b.2 →
      (readBounds c st).2.phase = phase →
      callGrains c m st = (.ok gl'.1, ⟨(readBounds c st).2.euler, (readBounds c st).2.phase,
        (readBounds c st).2.primary, (readBounds c st).2.saved, some gl'.2,
        (readBounds c st).2.network⟩) := by
    intro st h1 h2
    unfold callGrains grainsFrom
    rw [h1, h2]
    simp only [Except.bind, hg']
  have hcall := hcall _ (by rw [r.1, hb]; rfl) r.2.hp
  have hs' : (callGrains c m (readDerived c .grains (DerivedSt.loaded euler phase)).2).2.saved
      .grains = some gl.1 := by
    rw [hcall]
    show (readBounds c _).2.saved .grains = _
    rw [readBounds_other c _ (by decide) (by decide) (by decide), hs]
  have hl' : (callGrains c m (readDerived c .grains (DerivedSt.loaded euler phase)).2).2.list
      = some gl'.2 := by rw [hcall]
  have hread : readDerived c .grains
      (callGrains c m (readDerived c .grains (DerivedSt.loaded euler phase)).2).2 =
      (.ok gl.1, (callGrains c m (readDerived c .grains (DerivedSt.loaded euler phase)).2).2) := by
    rw [readDerived]
    unfold keptOr
    rw [hs']
  show (readDerived c .grains
      (callGrains c m (readDerived c .grains (DerivedSt.loaded euler phase)).2).2).1 = _ ∧
    (readGrainList c
      (callGrains c m (readDerived c .grains (DerivedSt.loaded euler phase)).2).2).1 = _
  refine ⟨by rw [hread], ?_⟩
  unfold readGrainList
  rw [hread]
  simp only
  rw [hl']

/-! ### The network -/

theorem saveOne_network (k : DerivedKey) (r : Except Err D × DerivedSt D) :
    (saveOne k r).2.network = r.2.network := by
  unfold saveOne; split <;> rfl

theorem callGrains_network (c : DerivedCalc D) (m : Int) (st : DerivedSt D) :
    (callGrains c m st).2.network = st.network := by
  unfold callGrains grainsFrom
  split <;> exact (readBounds_loaded c st).2.2.2.2

theorem genGrains_network (c : DerivedCalc D) (m : Int) (st : DerivedSt D) :
    (genGrains c m st).2.network = st.network := by
  unfold genGrains
  rw [saveOne_network, callGrains_network]

theorem genKam_network (c : DerivedCalc D) (st : DerivedSt D) :
    (genKam c st).2.network = st.network := by
  unfold genKam
  rw [saveOne_network]; exact (readOri_loaded c st).2.2.2.2

theorem genNye_network (c : DerivedCalc D) (st : DerivedSt D) :
    (genNye c st).2.network = st.network := by
  unfold genNye
  split <;> exact (readOri_loaded c st).2.2.2.2

theorem genProx_network (c : DerivedCalc D) (st : DerivedSt D) :
    (genProx c st).2.network = st.network := by
  unfold genProx
  rw [saveOne_network]; exact (readBounds_loaded c st).2.2.2.2

theorem readDerived_network (c : DerivedCalc D) (k : DerivedKey) (st : DerivedSt D) :
    (readDerived c k st).2.network = st.network := by
  cases k <;> simp only [readDerived, keptOr]
  · exact (readOri_loaded c st).2.2.2.2
  · exact (readPhaseBounds_loaded c st).2.2.2.2
  · exact (readBounds_loaded c st).2.2.2.2
  · split
    · rfl
    · exact genGrains_network c 10 st
  · split
    · rfl
    · exact genKam_network c st
  · split
    · rfl
    · exact genNye_network c st
  · exact genNye_network c st
  · split
    · rfl
    · exact genProx_network c st

theorem derivedStep_network (c : DerivedCalc D) (st : DerivedSt D) {op : DerivedOp D}
    (hop : op ≠ .network) : (derivedStep c st op).network = st.network := by
  cases op with
  | read k => exact readDerived_network c k st
  | readList =>
    show (readGrainList c st).2.network = _
    rw [readGrainList_state]; exact readDerived_network c .grains st
  | genBounds tol => exact (genBounds_loaded c tol st).2.2.2.2
  | genGrains m => exact genGrains_network c m st
  | genKam => exact genKam_network c st
  | genNye => exact genNye_network c st
  | genProx => exact genProx_network c st
  | callBounds tol => exact (readOri_loaded c st).2.2.2.2
  | callGrains m => exact callGrains_network c m st
  | filter tol => exact (readOri_loaded c st).2.2.2.2
  | rotate => exact (readOri_loaded c (flipLoaded c st)).2.2.2.2
  | setPrimary n => rfl
  | network => exact absurd rfl hop

/-- False: the network of neighbours is that of the grains. It stays as it was built after anything
but building it again, also after looking for grains again. -/
theorem C124_stale_network (c : DerivedCalc D) (st : DerivedSt D) (ops : List (DerivedOp D))
    (hops : ∀ op ∈ ops, op ≠ .network) : (derivedRun c st ops).network = st.network := by
  induction ops generalizing st with
  | nil => rfl
  | cons op ops ih =>
    rw [derivedRun_cons, ih _ fun o ho => hops o (List.mem_cons_of_mem _ ho)]
    exact derivedStep_network c st (hops op List.mem_cons_self)

/-- Building the network on a map with the image `g`, the list `l` and the boundaries `b` kept gives
the network of these. -/
theorem C124_network (c : DerivedCalc D) (st : DerivedSt D) (g l b : D)
    (hg : st.saved .grains = some g) (hl : st.list = some l)
    (hb : st.saved .grainBoundaries = some b) :
    (derivedStep c st .network).network = some (c.network l b g) := by
  have h1 : readDerived c .grains st = (.ok g, st) := by
    simp only [readDerived, keptOr, hg]
  have h2 : readGrainList c st = (.ok (some l), st) := by
    unfold readGrainList; rw [h1]; simp only [hl]
  have h3 : readBounds c st = (.ok b, st) := by
    unfold readBounds; rw [hb]
  show (buildNet c st).network = _
  unfold buildNet
  simp only [h2, h3, h1]
  rfl

end

/-! ### Cases -/

/-- Calculations on numbers: orientations are the Euler angles plus 100, boundaries are the
orientations times the tolerance, grains the boundaries plus the smallest size; filtering adds 1 and
no grains are left for sizes over 50. -/
noncomputable def toyCalc : DerivedCalc ℝ where
  quats := fun e => e + 100
  bounds := fun tol n q p => .ok (p + n, q * tol)
  grains := fun m b _ => if m ≤ 50 then .ok (b + m, m) else .error .indexError
  kam := fun q => .ok (q / 2)
  nye := fun n q => .ok (q, n)
  prox := fun b => .ok (b - 1)
  filter := fun _ q => q + 1
  flip := fun x => -x
  turn := fun x => -x
  network := fun l b g => l + b + g

/-- The hypotheses of `C124_settings` are met, also after reading with the defaults, and the values
differ from the defaults. -/
example : boundsOf toyCalc 5 1 2 = .ok (2, 505) ∧ grainsOf toyCalc 5 20 1 2 = .ok (525, 20) ∧
    grainsOf toyCalc 10 10 1 2 = .ok (1020, 10) ∧
    (∀ op ∈ [DerivedOp.read (D := ℝ) .grains, .callGrains 3], keepsLoaded op) := by
  refine ⟨?_, ?_, ?_, ?_⟩
  · norm_num [boundsOf, toyCalc]
  · simp only [grainsOf, boundsOf, toyCalc, bind, Except.bind]; norm_num
  · simp only [grainsOf, boundsOf, toyCalc, bind, Except.bind]; norm_num
  · intro op ho
    fin_cases ho <;> trivial

/-- A history of reads in two orders; `C124_order` says both give the same. -/
example : ∀ op ∈ [DerivedOp.read (D := ℝ) .nye, .read .proxigram, .readList, .network], readsOnly op := by
  intro op ho
  fin_cases ho <;> trivial

/-- A calculation that fails keeps failing: no grains are large enough. -/
example : grainsOf { toyCalc with grains := fun _ _ _ => .error .indexError } 10 10 1 2 =
    .error .indexError := rfl

/-- The boundaries kept after filtering are not those of the filtered orientations. -/
theorem C124_stale_example :
    ∃ st, st = derivedRun toyCalc (DerivedSt.loaded 1 2) [.genBounds 10, .filter 5] ∧
      (readDerived toyCalc .orientation st).1 = .ok 102 ∧
      (readDerived toyCalc .grainBoundaries st).1 = .ok 1010 ∧
      (toyCalc.bounds 10 0 102 2) = .ok (2, 1020) := by
  refine ⟨_, rfl, ?_, ?_, ?_⟩
  · simp [derivedRun, derivedStep, genBounds, callBounds, saveBounds, readOri, DerivedSt.loaded,
      DerivedSt.save, toyCalc, filterMap, readDerived]
    norm_num
  · simp [derivedRun, derivedStep, genBounds, callBounds, saveBounds, readOri, DerivedSt.loaded,
      DerivedSt.save, toyCalc, filterMap, readDerived, readBounds]
    norm_num
  · norm_num [toyCalc]

/-- The hypotheses of `C124_direct_mixed` are met, with a list that is not that of the image. -/
example : boundsOf toyCalc 10 1 2 = .ok (2, 1010) ∧ toyCalc.grains 10 1010 2 = .ok (1020, 10) ∧
    toyCalc.grains 30 1010 2 = .ok (1040, 30) := by
  refine ⟨?_, ?_, ?_⟩ <;> norm_num [boundsOf, toyCalc]

end DefDAP
