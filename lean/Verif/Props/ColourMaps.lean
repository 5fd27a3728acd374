import Verif.Props.IpfColour

/-! C92: colour maps of phases. -/

namespace DefDAP

open Quat

/-! ### Masks -/

def maskOf (phase : List Int) (x : Int) : List Bool := phase.map fun y => decide (y = x)

theorem maskGet_map {α β : Type} (f : α → β) : ∀ (m : List Bool) (l : List α),
    maskGet m (l.map f) = (maskGet m l).map f
  | [], _ => by simp [maskGet]
  | b :: m, [] => by simp [maskGet]
  | b :: m, x :: l => by
    have := maskGet_map f m l
    cases b <;> simp [maskGet, this]

theorem maskGet_length {α : Type} : ∀ (m : List Bool) (l : List α), m.length = l.length →
    (maskGet m l).length = m.count true
  | [], _, _ => by simp [maskGet]
  | b :: m, [], h => by simp at h
  | b :: m, x :: l, h => by
    have := maskGet_length m l (by simpa using h)
    cases b <;> simp [maskGet, this]

theorem maskSet_length {α : Type} : ∀ (m : List Bool) (l vs : List α), (maskSet m l vs).length = l.length
  | [], _, _ => by simp [maskSet]
  | true :: m, [], _ => by simp [maskSet]
  | false :: m, [], _ => by simp [maskSet]
  | true :: m, x :: l, [] => by simp [maskSet]
  | true :: m, x :: l, v :: vs => by simp [maskSet, maskSet_length m l vs]
  | false :: m, x :: l, vs => by simp [maskSet, maskSet_length m l vs]

theorem maskGet_set {α : Type} : ∀ (m : List Bool) (l vs : List α), m.length = l.length →
    vs.length = m.count true → maskGet m (maskSet m l vs) = vs
  | [], l, vs, _, h => by simp at h; simp [maskGet, h]
  | b :: m, [], _, h, _ => by simp at h
  | true :: m, x :: l, [], _, h => by simp at h
  | true :: m, x :: l, v :: vs, h, h' => by
    simp only [maskSet, maskGet, if_true]
    rw [maskGet_set m l vs (by simpa using h) (by simpa using h')]
  | false :: m, x :: l, vs, h, h' => by
    simp only [maskSet, maskGet]
    exact maskGet_set m l vs (by simpa using h) (by simpa using h')

/-- Masks of different values do not touch. -/
theorem maskGet_other {α : Type} {x y : Int} (hxy : x ≠ y) : ∀ (phase : List Int) (l vs : List α),
    phase.length = l.length → maskGet (maskOf phase x) (maskSet (maskOf phase y) l vs) =
      maskGet (maskOf phase x) l
  | [], l, vs, _ => by simp [maskOf, maskGet]
  | p :: ph, [], vs, h => by simp at h
  | p :: ph, a :: l, vs, h => by
    have h' : ph.length = l.length := by simpa using h
    have ih := fun vs => maskGet_other (α := α) hxy ph l vs h'
    unfold maskOf at *
    by_cases hy : p = y
    · have hx : p ≠ x := fun e => hxy (e.symm.trans hy)
      cases vs with
      | nil => simp [maskSet, hy]
      | cons v vs => simp [maskSet, maskGet, hy, Ne.symm hxy, ih]
    · by_cases hx : p = x
      · simp [maskSet, maskGet, hx, hxy, ih]
      · simp [maskSet, maskGet, hx, hy, ih]

theorem maskGet_ext {α : Type} : ∀ (m : List Bool) (a b : List α), m.length = a.length →
    m.length = b.length → maskGet m a = maskGet m b → ∀ i : Nat, m[i]? = some true → a[i]? = b[i]?
  | [], _, _, _, _, _, i, h => by simp at h
  | c :: m, [], _, h, _, _, _, _ => by simp at h
  | c :: m, x :: a, [], _, h, _, _, _ => by simp at h
  | c :: m, x :: a, y :: b, ha, hb, h, i, hi => by
    have ha' : m.length = a.length := by simpa using ha
    have hb' : m.length = b.length := by simpa using hb
    cases c with
    | true =>
      simp only [maskGet, if_true, List.cons.injEq] at h
      cases i with
      | zero => simp [h.1]
      | succ i =>
        simp only [List.getElem?_cons_succ] at hi ⊢
        exact maskGet_ext m a b ha' hb' h.2 i hi
    | false =>
      simp only [maskGet] at h
      cases i with
      | zero => simp at hi
      | succ i =>
        simp only [List.getElem?_cons_succ] at hi ⊢
        exact maskGet_ext m a b ha' hb' h i hi

theorem maskOf_true {phase : List Int} {i : Nat} {x : Int} (h : phase[i]? = some x) :
    (maskOf phase x)[i]? = some true := by
  simp [maskOf, h]

/-! ### The loop -/

theorem paint_run {α : Type} (colour : SymGroup → List α → Except Err (List Vec)) (isInt : Bool)
    (phase : List Int) (data : List α) : ∀ (ps : List (SymGroup × Int)) (M : List Vec),
    M.length = phase.length →
    (∀ p ∈ ps, ∃ cols, colour p.1 (maskGet (maskOf phase (p.2 + 1)) data) = .ok cols ∧
      cols.length = (maskOf phase (p.2 + 1)).count true) →
    (∀ p ∈ ps, ∀ p' ∈ ps, p.2 = p'.2 → p.1 = p'.1) →
    ∃ R, ps.foldlM (paintPhase colour isInt phase data) M = .ok R ∧ R.length = phase.length ∧
      (∀ x : Int, (∀ p ∈ ps, x ≠ p.2 + 1) → maskGet (maskOf phase x) R = maskGet (maskOf phase x) M) ∧
      ∀ p ∈ ps, ∃ cols, colour p.1 (maskGet (maskOf phase (p.2 + 1)) data) = .ok cols ∧
        maskGet (maskOf phase (p.2 + 1)) R = cols.map (castColour isInt)
  | [], M, hM, _, _ => ⟨M, rfl, hM, fun _ _ => rfl, by simp⟩
  | p :: t, M, hM, hok, hc => by
    obtain ⟨cols, e, hl⟩ := hok p (by simp)
    have hM' : (maskSet (maskOf phase (p.2 + 1)) M (cols.map (castColour isInt))).length =
        phase.length := by rw [maskSet_length, hM]
    obtain ⟨R, eR, hR, h1, h2⟩ := paint_run colour isInt phase data t _ hM'
      (fun q hq => hok q (List.mem_cons_of_mem _ hq))
      (fun q hq q' hq' => hc q (List.mem_cons_of_mem _ hq) q' (List.mem_cons_of_mem _ hq'))
    refine ⟨R, ?_, hR, ?_, ?_⟩
    · rw [List.foldlM_cons]
      have : paintPhase colour isInt phase data M p =
          .ok (maskSet (maskOf phase (p.2 + 1)) M (cols.map (castColour isInt))) := by
        unfold paintPhase
        show (colour p.1 (maskGet (maskOf phase (p.2 + 1)) data)).bind _ = _
        rw [e]
        rfl
      rw [this]
      exact eR
    · intro x hx
      rw [h1 x fun q hq => hx q (List.mem_cons_of_mem _ hq)]
      exact maskGet_other (hx p (by simp)) phase M _ hM.symm
    · intro q hq
      rcases List.mem_cons.1 hq with rfl | hq
      · by_cases hin : ∃ r ∈ t, r.2 = q.2
        · obtain ⟨r, hr, he⟩ := hin
          have hg := hc r (List.mem_cons_of_mem _ hr) q (by simp) he
          have : r = q := Prod.ext hg he
          exact this ▸ h2 r hr
        · refine ⟨cols, e, ?_⟩
          rw [h1 (q.2 + 1) fun r hr hh => hin ⟨r, hr, by omega⟩]
          apply maskGet_set
          · simp [maskOf, hM]
          · simp [hl]
      · exact h2 q hq

theorem phaseAt_nonneg {structs : List SymGroup} {i : Int} (h0 : 0 ≤ i) (h1 : i < structs.length) :
    ∃ h : i.toNat < structs.length, phaseAt structs i = .ok structs[i.toNat] := by
  have h : i.toNat < structs.length := by omega
  refine ⟨h, ?_⟩
  unfold phaseAt
  simp only [if_neg (not_lt.2 h0)]
  rw [List.getElem?_eq_getElem h]

/-- The chosen phases are valid ids, with the structures of the map's phases. -/
theorem chosen_spec {structs : List SymGroup} {ids : Option (List Int)}
    (hv : ∀ l, ids = some l → ∀ i ∈ l, 0 ≤ i ∧ i < structs.length) :
    ∃ ps, chosenPhases structs ids = .ok ps ∧
      (∀ p ∈ ps, 0 ≤ p.2 ∧ structs[p.2.toNat]? = some p.1) ∧
      (∀ i : Int, (∃ p ∈ ps, p.2 = i) ↔ match ids with
        | none => 0 ≤ i ∧ i < structs.length
        | some l => i ∈ l) := by
  cases ids with
  | none =>
    refine ⟨_, rfl, ?_, ?_⟩
    · intro p hp
      obtain ⟨q, hq, rfl⟩ := List.mem_map.1 hp
      have := List.mem_zipIdx_iff_getElem?.1 hq
      exact ⟨by simp, by simpa using this⟩
    · intro i
      constructor
      · rintro ⟨p, hp, rfl⟩
        obtain ⟨q, hq, rfl⟩ := List.mem_map.1 hp
        have := List.mem_zipIdx_iff_getElem?.1 hq
        have := (List.getElem?_eq_some_iff.1 this).1
        simp only
        omega
      · rintro ⟨h0, h1⟩
        have h : i.toNat < structs.length := by omega
        refine ⟨(structs[i.toNat], i), List.mem_map.2 ⟨(structs[i.toNat], i.toNat), ?_, ?_⟩, rfl⟩
        · rw [List.mem_zipIdx_iff_getElem?]; exact List.getElem?_eq_getElem h
        · simp only [Prod.mk.injEq, true_and]; omega
  | some l =>
    have hv' := hv l rfl
    obtain ⟨ps, e, hf⟩ := mapM_forall (f := fun i => (phaseAt structs i).bind fun g => .ok (g, i))
      (P := fun i p => p.2 = i ∧ structs[i.toNat]? = some p.1) l (by
        intro i hi
        obtain ⟨h, e⟩ := phaseAt_nonneg (hv' i hi).1 (hv' i hi).2
        exact ⟨_, by rw [e]; rfl, rfl, List.getElem?_eq_getElem h⟩)
    refine ⟨ps, e, ?_, ?_⟩
    · intro p hp
      obtain ⟨k, hk, rfl⟩ := List.mem_iff_getElem.1 hp
      have hk' : k < l.length := by rw [hf.length_eq]; exact hk
      have := (List.forall₂_iff_get.1 hf).2 k hk' hk
      simp only [List.get_eq_getElem] at this
      rw [this.1]
      exact ⟨(hv' _ (List.getElem_mem hk')).1, this.2⟩
    · intro i
      constructor
      · rintro ⟨p, hp, rfl⟩
        obtain ⟨k, hk, rfl⟩ := List.mem_iff_getElem.1 hp
        have hk' : k < l.length := by rw [hf.length_eq]; exact hk
        have := (List.forall₂_iff_get.1 hf).2 k hk' hk
        simp only [List.get_eq_getElem] at this
        simp only
        rw [this.1]
        exact List.getElem_mem hk'
      · intro hi
        obtain ⟨k, hk, rfl⟩ := List.mem_iff_getElem.1 hi
        have hk' : k < ps.length := by rw [← hf.length_eq]; exact hk
        have := (List.forall₂_iff_get.1 hf).2 k hk hk'
        simp only [List.get_eq_getElem] at this
        exact ⟨_, List.getElem_mem hk', this.1⟩

/-! ### Specification -/

/-- A pixel with phase number `x` (1 for the first phase, 0 if not indexed) is plotted. -/
def Spec.Plotted (structs : List SymGroup) (ids : Option (List Int)) (x : Int) : Prop :=
  match ids with
  | none => 1 ≤ x ∧ x ≤ structs.length
  | some l => x - 1 ∈ l

/-- What is stored for the colour `c` on a background of integers: its whole part. -/
def Spec.WholePart (c s : Vec) : Prop := ∀ k, 0 ≤ c k → ∃ n : ℤ, s k = n ∧ (n : ℝ) ≤ c k ∧ c k < n + 1

/-- A list holds the values of the pixels of phase `x`, in order. -/
def Spec.pixelsOf {α : Type} (phase : List Int) (x : Int) (l : List α) : List α :=
  ((phase.zip l).filter fun p => decide (p.1 = x)).map Prod.snd

theorem pixelsOf_eq {α : Type} (x : Int) : ∀ (phase : List Int) (l : List α),
    maskGet (maskOf phase x) l = Spec.pixelsOf phase x l
  | [], l => by simp [maskOf, maskGet, Spec.pixelsOf]
  | p :: ph, [] => by simp [maskOf, maskGet, Spec.pixelsOf]
  | p :: ph, a :: l => by
    have ih := pixelsOf_eq x ph l
    unfold maskOf Spec.pixelsOf at *
    by_cases h : p = x <;> simp [maskGet, h, ih]

/-! ### Results -/

/-- Both colour maps, for any function that colours a phase. -/
theorem colour_map {α : Type} {colour : SymGroup → List α → Except Err (List Vec)}
    (structs : List SymGroup) (phase : List Int) (data : List α) (hlen : data.length = phase.length)
    (ids : Option (List Int)) (hv : ∀ l, ids = some l → ∀ i ∈ l, 0 ≤ i ∧ i < structs.length)
    (isInt : Bool) (bg : Vec)
    (hcol : ∀ g (l : List α), (∀ a ∈ l, a ∈ data) → ∃ cols, colour g l = .ok cols ∧ cols.length = l.length) :
    ∃ R, colourMap colour structs phase data ids (some (isInt, bg)) = .ok R ∧
      R.length = phase.length ∧
      (∀ (i : Nat) (x : Int), phase[i]? = some x → ¬Spec.Plotted structs ids x → R[i]? = some bg) ∧
      ∀ x g, Spec.Plotted structs ids x → structs[(x - 1).toNat]? = some g →
        ∃ cols, colour g (Spec.pixelsOf phase x data) = .ok cols ∧
          Spec.pixelsOf phase x R = cols.map (castColour isInt) := by
  obtain ⟨ps, e, hp, hids⟩ := chosen_spec hv
  have hmask : ∀ x : Int, (maskOf phase x).length = phase.length := fun x => by simp [maskOf]
  obtain ⟨R, eR, hR, h1, h2⟩ := paint_run colour isInt phase data ps (phase.map fun _ => bg) (by simp)
    (by
      intro p _
      obtain ⟨cols, e, hl⟩ := hcol p.1 (maskGet (maskOf phase (p.2 + 1)) data) (by
        intro a ha
        rw [pixelsOf_eq] at ha
        obtain ⟨q, hq, rfl⟩ := List.mem_map.1 ha
        exact (List.of_mem_zip (List.mem_filter.1 hq).1).2)
      exact ⟨cols, e, by rw [hl, maskGet_length _ _ (by rw [hmask, hlen])]⟩)
    (by
      intro p hp1 p' hp2 he
      have a := (hp p hp1).2
      have b := (hp p' hp2).2
      rw [he, b] at a
      exact (Option.some.inj a).symm)
  have hplot : ∀ x, Spec.Plotted structs ids x ↔ ∃ p ∈ ps, x = p.2 + 1 := by
    intro x
    have := hids (x - 1)
    unfold Spec.Plotted
    constructor
    · intro hx
      obtain ⟨p, hpm, hpe⟩ := this.2 (by
        cases ids with
        | none => simp only at hx ⊢; omega
        | some l => exact hx)
      exact ⟨p, hpm, by omega⟩
    · rintro ⟨p, hpm, hpe⟩
      have := this.1 ⟨p, hpm, by omega⟩
      cases ids with
      | none => simp only at this ⊢; omega
      | some l => exact this
  refine ⟨R, ?_, hR, ?_, ?_⟩
  · unfold colourMap
    rw [e]
    exact eR
  · intro i x hx hn
    have := h1 x fun p hpm hh => hn ((hplot x).2 ⟨p, hpm, hh⟩)
    rw [maskGet_ext _ _ _ (by rw [hmask, hR]) (by rw [hmask]; simp) this i (maskOf_true hx)]
    rw [List.getElem?_map, hx]
    rfl
  · intro x g hx hg
    obtain ⟨p, hpm, rfl⟩ := (hplot x).1 hx
    obtain ⟨cols, ec, hc⟩ := h2 p hpm
    have hgp : p.1 = g := by
      have := (hp p hpm).2
      rw [show p.2 + 1 - 1 = p.2 by omega, this] at hg
      exact Option.some.inj hg
    rw [pixelsOf_eq, hgp] at ec
    rw [pixelsOf_eq] at hc
    exact ⟨cols, ec, hc⟩

/-- A phase number that is plotted belongs to a phase. -/
theorem plotted_phase {structs : List SymGroup} {ids : Option (List Int)}
    (hv : ∀ l, ids = some l → ∀ i ∈ l, 0 ≤ i ∧ i < structs.length) {x : Int}
    (h : Spec.Plotted structs ids x) : ∃ g, structs[(x - 1).toNat]? = some g := by
  have : (x - 1).toNat < structs.length := by
    unfold Spec.Plotted at h
    cases ids with
    | none => simp only at h; omega
    | some l => have := hv l rfl _ h; omega
  exact ⟨_, List.getElem?_eq_getElem this⟩

theorem pixels_getElem {α β : Type} {f : α → β} {phase : List Int} {x : Int} {data : List α} {R : List β}
    (h1 : data.length = phase.length) (h2 : R.length = phase.length)
    (h : Spec.pixelsOf phase x R = (Spec.pixelsOf phase x data).map f) {i : Nat}
    (hi : phase[i]? = some x) : R[i]? = (data[i]?).map f := by
  rw [← pixelsOf_eq, ← pixelsOf_eq, ← maskGet_map] at h
  rw [maskGet_ext _ _ _ (by simp [maskOf, h2]) (by simp [maskOf, h1]) h i (maskOf_true hi),
    List.getElem?_map]

/-- C92: in an Euler map each plotted pixel has its angles divided by the ranges of its own phase,
every other pixel the background. -/
theorem C92_euler (structs : List SymGroup) (phase : List Int) (angles : List Vec)
    (hlen : angles.length = phase.length) (ids : Option (List Int))
    (hv : ∀ l, ids = some l → ∀ i ∈ l, 0 ≤ i ∧ i < structs.length) (bg : Vec) :
    ∃ R, colourMap eulerColours structs phase angles ids (some (false, bg)) = .ok R ∧
      R.length = phase.length ∧ ∀ (i : Nat) (x : Int), phase[i]? = some x →
        (¬Spec.Plotted structs ids x → R[i]? = some bg) ∧
        ∀ v : Vec, Spec.Plotted structs ids x → angles[i]? = some v →
          (structs[(x - 1).toNat]? = some .cubic →
            R[i]? = some ![v 0 / (2 * Real.pi), v 1 / (Real.pi / 2), v 2 / (Real.pi / 2)]) ∧
          (structs[(x - 1).toNat]? = some .hexagonal →
            R[i]? = some ![v 0 / Real.pi, v 1 / Real.pi, v 2 / (Real.pi / 3)]) := by
  obtain ⟨R, e, hR, h1, h2⟩ := colour_map (colour := eulerColours) structs phase angles hlen ids hv
    false bg (fun g l _ => ⟨_, rfl, by simp⟩)
  refine ⟨R, e, hR, fun i x hx => ⟨h1 i x hx, fun v hp hvi => ?_⟩⟩
  have key : ∀ g, structs[(x - 1).toNat]? = some g → R[i]? = some fun k => v k / eulerNorm g k := by
    intro g hg
    obtain ⟨cols, ec, hc⟩ := h2 x g hp hg
    cases ec
    rw [List.map_map] at hc
    rw [pixels_getElem hlen hR hc hx, hvi]
    rfl
  constructor
  · intro hg
    rw [key _ hg]
    congr 1
    funext k
    fin_cases k <;> rfl
  · intro hg
    rw [key _ hg]
    congr 1
    funext k
    fin_cases k <;> rfl

/-- The background is black if none is given. -/
theorem C92_black {α : Type} (colour : SymGroup → List α → Except Err (List Vec))
    (structs : List SymGroup) (phase : List Int) (data : List α) (ids : Option (List Int)) :
    colourMap colour structs phase data ids none =
      colourMap colour structs phase data ids (some (false, ![0, 0, 0])) := rfl

/-- C92: in an IPF map the pixels of a plotted phase have, in order, the IPF colours of their
orientations for the structure of that phase, every other pixel the background. -/
theorem C92_ipf (structs : List SymGroup) (phase : List Int) (quats : List (Quat ℝ))
    (hq : ∀ q ∈ quats, q.IsUnit) (hlen : quats.length = phase.length) (d : Vec) (hd : d ≠ 0)
    (ids : Option (List Int)) (hv : ∀ l, ids = some l → ∀ i ∈ l, 0 ≤ i ∧ i < structs.length)
    (bg : Vec) :
    ∃ R, colourMap (ipfColours d) structs phase quats ids (some (false, bg)) = .ok R ∧
      R.length = phase.length ∧
      (∀ (i : Nat) (x : Int), phase[i]? = some x → ¬Spec.Plotted structs ids x → R[i]? = some bg) ∧
      ∀ x g, Spec.Plotted structs ids x → structs[(x - 1).toNat]? = some g →
        calcIpfColours g (Spec.pixelsOf phase x quats) d = .ok (Spec.pixelsOf phase x R) := by
  obtain ⟨R, e, hR, h1, h2⟩ := colour_map (colour := ipfColours d) structs phase quats hlen ids hv
    false bg (by
      intro g l hl
      obtain ⟨cols, e, hc, -⟩ := C91_range g l (fun q h => hq q (hl q h)) d hd
      exact ⟨cols, e, hc⟩)
  refine ⟨R, e, hR, h1, fun x g hx hg => ?_⟩
  obtain ⟨cols, ec, hc⟩ := h2 x g hx hg
  have : cols.map (castColour false) = cols := by
    rw [show castColour false = id from rfl, List.map_id]
  rw [hc, this]
  exact ec

/-- C92: on a background of integers, such as white `[1, 1, 1]`, only the whole part of each colour
is kept: IPF colours turn into pure red, green, blue or mixtures of them at full strength. -/
theorem C92_integer_background (structs : List SymGroup) (phase : List Int) (quats : List (Quat ℝ))
    (hq : ∀ q ∈ quats, q.IsUnit) (hlen : quats.length = phase.length) (d : Vec) (hd : d ≠ 0)
    (ids : Option (List Int)) (hv : ∀ l, ids = some l → ∀ i ∈ l, 0 ≤ i ∧ i < structs.length)
    (bg : Vec) :
    ∃ R, colourMap (ipfColours d) structs phase quats ids (some (true, bg)) = .ok R ∧
      ∀ x g, Spec.Plotted structs ids x → structs[(x - 1).toNat]? = some g →
        ∃ cols, calcIpfColours g (Spec.pixelsOf phase x quats) d = .ok cols ∧
          List.Forall₂ (fun c s => Spec.WholePart c s ∧ ∀ k, s k = if c k = 1 then 1 else 0)
            cols (Spec.pixelsOf phase x R) := by
  have hok : ∀ g (l : List (Quat ℝ)), (∀ a ∈ l, a ∈ quats) → _ := fun g l hl =>
    C91_range g l (fun q h => hq q (hl q h)) d hd
  obtain ⟨R, e, hR, h1, h2⟩ := colour_map (colour := ipfColours d) structs phase quats hlen ids hv
    true bg (by
      intro g l hl
      obtain ⟨cols, e, hc, -⟩ := hok g l hl
      exact ⟨cols, e, hc⟩)
  refine ⟨R, e, fun x g hx hg => ?_⟩
  obtain ⟨cols, ec, hc⟩ := h2 x g hx hg
  refine ⟨cols, ec, ?_⟩
  rw [hc, List.forall₂_map_right_iff, List.forall₂_same]
  obtain ⟨cols', ec', -, hr⟩ := hok g (Spec.pixelsOf phase x quats) (by
    intro a ha
    obtain ⟨q, hq, rfl⟩ := List.mem_map.1 ha
    exact (List.of_mem_zip (List.mem_filter.1 hq).1).2)
  have : cols' = cols := by
    have h := ec
    unfold ipfColours at h
    rw [ec'] at h
    exact Except.ok.inj h
  subst this
  intro c hcm
  obtain ⟨hrange, -⟩ := hr c hcm
  constructor
  · intro k hk
    refine ⟨⌊c k⌋, ?_, Int.floor_le _, Int.lt_floor_add_one _⟩
    unfold castColour
    simp [hk]
  · intro k
    obtain ⟨a, b⟩ := hrange k
    unfold castColour
    simp only [if_true, if_pos a]
    by_cases h1 : c k = 1
    · rw [if_pos h1, h1]; simp
    · rw [if_neg h1]
      have : ⌊c k⌋ = 0 := Int.floor_eq_zero_iff.2 ⟨a, lt_of_le_of_ne b h1⟩
      rw [this]; simp

/-- C92: a phase id counted from the end is accepted, but then the points that are not indexed are
coloured (id -1) and the pixels of the phase stay background. -/
theorem C92_negative_id (structs : List SymGroup) (g : SymGroup) (phase : List Int) (angles : List Vec)
    (hlen : angles.length = phase.length) (bg : Vec) :
    ∃ R, colourMap eulerColours (structs ++ [g]) phase angles (some [-1]) (some (false, bg)) = .ok R ∧
      ∀ (i : Nat) (x : Int) (v : Vec), phase[i]? = some x → angles[i]? = some v →
        R[i]? = if x = 0 then some fun k => v k / eulerNorm g k else some bg := by
  have hp : phaseAt (structs ++ [g]) (-1) = .ok g := by
    unfold phaseAt
    have e : ((-1 : Int) + (structs ++ [g]).length) = (structs.length : Int) := by
      simp only [List.length_append, List.length_cons, List.length_nil]; omega
    simp only [show ((-1 : Int) < 0) from by decide, if_true, e]
    rw [if_neg (by omega)]
    simp
  have hch : chosenPhases (structs ++ [g]) (some [-1]) = .ok [(g, -1)] := by
    show ([-1] : List Int).mapM _ = _
    rw [List.mapM_cons, hp]
    rfl
  obtain ⟨R, eR, hR, h1, h2⟩ := paint_run eulerColours false phase angles [(g, -1)]
    (phase.map fun _ => bg) (by simp)
    (by
      intro p _
      refine ⟨_, rfl, ?_⟩
      rw [List.length_map, maskGet_length _ _ (by simp [maskOf, hlen])])
    (by simp)
  refine ⟨R, ?_, ?_⟩
  · unfold colourMap
    rw [hch]
    exact eR
  · intro i x v hx hvi
    by_cases h0 : x = 0
    · subst h0
      obtain ⟨cols, ec, hc⟩ := h2 (g, -1) (by simp)
      cases ec
      rw [pixelsOf_eq, pixelsOf_eq, List.map_map] at hc
      rw [if_pos rfl, pixels_getElem hlen hR hc hx, hvi]
      rfl
    · rw [if_neg h0]
      have := h1 x (by intro p hp'; simp only [List.mem_singleton] at hp'; rw [hp']; omega)
      rw [maskGet_ext _ _ _ (by simp [maskOf, hR]) (by simp [maskOf]) this i (maskOf_true hx)]
      rw [List.getElem?_map, hx]
      rfl

theorem phaseAt_cases (structs : List SymGroup) (i : Int) :
    (phaseAt structs i = .error .indexError ↔ i < -(structs.length : Int) ∨ structs.length ≤ i) ∧
      (phaseAt structs i = .error .indexError ∨ ∃ g, phaseAt structs i = .ok g) := by
  unfold phaseAt
  by_cases h : i < 0
  · simp only [if_pos h]
    by_cases h2 : i + structs.length < 0
    · simp only [if_pos h2]
      exact ⟨⟨fun _ => .inl (by omega), fun _ => trivial⟩, .inl trivial⟩
    · simp only [if_neg h2]
      have : (i + structs.length).toNat < structs.length := by omega
      rw [List.getElem?_eq_getElem this]
      exact ⟨⟨fun h => (by cases h), fun h => by omega⟩, .inr ⟨_, rfl⟩⟩
  · simp only [if_neg h]
    by_cases h3 : i < structs.length
    · have : i.toNat < structs.length := by omega
      rw [List.getElem?_eq_getElem this]
      exact ⟨⟨fun h => (by cases h), fun h => by omega⟩, .inr ⟨_, rfl⟩⟩
    · rw [List.getElem?_eq_none (by omega)]
      exact ⟨⟨fun _ => .inr (by omega), fun _ => rfl⟩, .inl rfl⟩

/-- C92: an id with no phase, counted from either end, stops the map with an index error. -/
theorem C92_invalid_id {α : Type} (colour : SymGroup → List α → Except Err (List Vec))
    (structs : List SymGroup) (phase : List Int) (data : List α) (l : List Int)
    (bg : Option (Bool × Vec)) (i : Int) (hi : i ∈ l)
    (h : i < -(structs.length : Int) ∨ structs.length ≤ i) :
    colourMap colour structs phase data (some l) bg = .error .indexError := by
  have : chosenPhases structs (some l) = .error .indexError := by
    show l.mapM (fun i => (phaseAt structs i).bind fun g => Except.ok (g, i)) = _
    induction l with
    | nil => simp at hi
    | cons a t ih =>
      rw [List.mapM_cons]
      rcases (phaseAt_cases structs a).2 with e | ⟨g, e⟩
      · rw [e]; rfl
      · rw [e]
        rcases List.mem_cons.1 hi with rfl | hi
        · rw [(phaseAt_cases structs i).1.2 h] at e; cases e
        · show (t.mapM fun i => (phaseAt structs i).bind fun g => Except.ok (g, i)).bind _ = _
          rw [ih hi]; rfl
  unfold colourMap
  rw [this]
  rfl

/-- A map with a cubic and a hexagonal phase and a point that is not indexed. -/
example : Spec.Plotted [.cubic, .hexagonal] none 2 ∧ ¬Spec.Plotted [.cubic, .hexagonal] none 0 ∧
    Spec.Plotted [.cubic, .hexagonal] (some [1]) 2 ∧ ¬Spec.Plotted [.cubic, .hexagonal] (some [1]) 1 ∧
    Spec.pixelsOf [2, 0, 2, 1] 2 ['a', 'b', 'c', 'd'] = ['a', 'c'] := by
  simp [Spec.Plotted, Spec.pixelsOf]

end DefDAP
