import Verif.Model.LoadData
import Verif.Proofs.Datastore
import Verif.Props.Datastore
import Verif.Props.StoreHeap

/-! C117: loading data into maps. -/

namespace DefDAP

namespace Spec

/-- The last loading that was successful. -/
def lastLoad {α P : Type} (ops : List (LoadOp α P)) : Option (LoadedEbsd α P) :=
  ops.reverse.findSome? fun
    | .load (.ok l) => some l
    | _ => none

/-- The last value of an item: loaded or stored, whichever was later. -/
def lastItem {α P : Type} (ops : List (LoadOp α P)) (name : Str) : Option (NdArr α) :=
  ops.reverse.findSome? fun
    | .load (.ok l) => dget l.data name
    | .load (.error _) => none
    | .store n v => if n = name then some v else none

end Spec

theorem checkPhases_ok {P : Type} (a : PhasesArg P) (l : List P) :
    checkPhases a = .ok l ↔ a = .list (l.map some) := by
  cases a with
  | other => exact ⟨fun h => (by cases h), fun h => (by cases h)⟩
  | list x =>
    simp only [checkPhases, PhasesArg.list.injEq]
    induction x generalizing l with
    | nil =>
      constructor
      · intro h
        cases h
        rfl
      · intro h
        cases l with
        | nil => rfl
        | cons a l => cases h
    | cons a x ih =>
      rw [List.mapM_cons]
      cases a with
      | none =>
        constructor
        · intro h
          cases h
        · intro h
          cases l <;> cases h
      | some p =>
        show (List.mapM isPhase x).bind _ = _ ↔ _
        constructor
        · intro h
          generalize hy : List.mapM isPhase x = y at h
          cases y with
          | error e => cases h
          | ok r =>
            cases h
            rw [(ih r).1 hy]
            rfl
        · intro h
          cases l with
          | nil => cases h
          | cons q l =>
            simp only [List.map_cons, List.cons.injEq, Option.some.injEq] at h
            rw [(ih l).2 h.2, h.1]
            rfl

/-- **C117 (dictionaries).** A dictionary is accepted exactly if it has the five keys, the phases are a list of
phases and the Euler angles have shape 3 by that of the phases of the points; the map gets exactly these. -/
theorem C117_dict {α P : Type} (d : EbsdDict α P) (r : LoadedEbsd α P) :
    loadDict d = .ok r ↔
      ∃ phase step phases bc euler,
        d = ⟨some phase, some step, some (.list (phases.map some)), some bc, some euler⟩ ∧
        euler.shape = 3 :: phase.shape ∧
        r = ⟨phase.shape, step, phases,
          [(lit "phase", phase), (lit "euler_angle", euler), (lit "band_contrast", bc)]⟩ := by
  constructor
  · intro h
    obtain ⟨ph, st, phs, bc, eu⟩ := d
    cases ph with
    | none => cases h
    | some ph =>
    cases st with
    | none => cases h
    | some st =>
    cases phs with
    | none => cases h
    | some phs =>
    change (checkPhases phs).bind _ = _ at h
    cases hp : checkPhases phs with
    | error e => rw [hp] at h; cases h
    | ok phases =>
    rw [hp] at h
    cases bc with
    | none => cases h
    | some bc =>
    cases eu with
    | none => cases h
    | some eu =>
    change (checkEbsdData ph.shape ph eu).bind _ = _ at h
    unfold checkEbsdData at h
    rw [if_pos rfl] at h
    by_cases he : eu.shape = 3 :: ph.shape
    · rw [if_pos he] at h
      cases h
      exact ⟨ph, st, phases, bc, eu, by rw [(checkPhases_ok phs phases).1 hp], he, rfl⟩
    · rw [if_neg he] at h
      cases h
  · rintro ⟨ph, st, phases, bc, eu, rfl, he, rfl⟩
    show (checkPhases (PhasesArg.list (phases.map some))).bind _ = _
    rw [(checkPhases_ok _ phases).2 rfl]
    show (checkEbsdData ph.shape ph eu).bind _ = _
    unfold checkEbsdData
    rw [if_pos rfl, if_pos he]
    rfl

/-- **C117 (errors).** Otherwise the call is a `KeyError` or an `AssertionError`. -/
theorem C117_dict_errors {α P : Type} (d : EbsdDict α P) (e : Err) (h : loadDict d = .error e) :
    e = .keyError ∨ e = .assertionError := by
  obtain ⟨ph, st, phs, bc, eu⟩ := d
  cases ph with
  | none => cases h; exact .inl rfl
  | some ph =>
  cases st with
  | none => cases h; exact .inl rfl
  | some st =>
  cases phs with
  | none => cases h; exact .inl rfl
  | some phs =>
  change (checkPhases phs).bind _ = _ at h
  cases hp : checkPhases phs with
  | error e' =>
    rw [hp] at h
    have : e' = .assertionError := by
      clear h
      cases phs with
      | other => cases hp; rfl
      | list l =>
        simp only [checkPhases] at hp
        induction l with
        | nil => cases hp
        | cons a l ih =>
          rw [List.mapM_cons] at hp
          cases a with
          | none => cases hp; rfl
          | some p =>
            change (List.mapM isPhase l).bind _ = _ at hp
            generalize hy : List.mapM isPhase l = y at hp
            cases y with
            | error e'' => cases hp; exact ih hy
            | ok r => cases hp
    cases h
    exact .inr this
  | ok phases =>
  rw [hp] at h
  cases bc with
  | none => cases h; exact .inl rfl
  | some bc =>
  cases eu with
  | none => cases h; exact .inl rfl
  | some eu =>
  change (checkEbsdData ph.shape ph eu).bind _ = _ at h
  unfold checkEbsdData at h
  rw [if_pos rfl] at h
  by_cases he : eu.shape = 3 :: ph.shape
  · rw [if_pos he] at h
    cases h
  · rw [if_neg he] at h
    cases h
    exact .inr rfl

theorem loadStep_state {α P : Type} (ops : List (LoadOp α P))
    (hn : ∀ l, LoadOp.load (.ok l) ∈ ops → (dkeys l.data).Nodup) :
    let m := ops.foldl loadStep EbsdFields.new
    m.shape = ((Spec.lastLoad ops).map LoadedEbsd.shape).getD [0, 0] ∧
    m.stepSize = (Spec.lastLoad ops).map LoadedEbsd.stepSize ∧
    m.phases = ((Spec.lastLoad ops).map LoadedEbsd.phases).getD [] ∧
    ∀ name, dget m.data name = Spec.lastItem ops name := by
  induction ops using List.reverseRecOn with
  | nil => exact ⟨rfl, rfl, rfl, fun _ => rfl⟩
  | append_singleton ops op ih =>
    have ih := ih fun l hl => hn l (List.mem_append_left _ hl)
    have hop := fun l hl => hn l (List.mem_append_right ops hl)
    simp only at ih ⊢
    rw [List.foldl_append]
    simp only [List.foldl_cons, List.foldl_nil]
    generalize ops.foldl loadStep EbsdFields.new = m at ih ⊢
    obtain ⟨h1, h2, h3, h4⟩ := ih
    simp only [Spec.lastLoad, Spec.lastItem, List.reverse_append, List.reverse_cons,
      List.reverse_nil, List.nil_append, List.singleton_append, List.findSome?_cons] at *
    cases op with
    | load r =>
      cases r with
      | error e => exact ⟨h1, h2, h3, h4⟩
      | ok l =>
        refine ⟨rfl, rfl, rfl, fun name => ?_⟩
        show dget (dupdate m.data l.data) name = _
        rw [dget_merge _ _ (hop l List.mem_cons_self), h4]
        simp only
        cases dget l.data name <;> rfl
    | store n v =>
      refine ⟨h1, h2, h3, fun name => ?_⟩
      show dget (dset m.data n v) name = _
      rw [dget_dset]
      by_cases hc : n = name
      · subst hc
        simp
      · simp only
        rw [if_neg hc, if_neg hc]
        exact h4 name

/-- **C117 (loading).** After every history of loading and generating, the dimensions, the step size and the
phases of an EBSD map are those of the last successful loading; an item is what was last loaded or stored
under its name. A failed loading changes nothing. -/
theorem C117_history {α P : Type} (ops : List (LoadOp α P))
    (hn : ∀ l, LoadOp.load (.ok l) ∈ ops → (dkeys l.data).Nodup) :
    let m := ops.foldl loadStep EbsdFields.new
    (∀ l, Spec.lastLoad ops = some l →
      m.shape = l.shape ∧ m.stepSize = some l.stepSize ∧ m.phases = l.phases) ∧
    (∀ name, dget m.data name = Spec.lastItem ops name) ∧
    ∀ e, loadEbsd m (.error e) = (.error e, m) := by
  obtain ⟨h1, h2, h3, h4⟩ := loadStep_state ops hn
  refine ⟨fun l hl => ?_, h4, fun e => rfl⟩
  rw [hl] at h1 h2 h3
  exact ⟨h1, h2, h3⟩

/-- **C117 (dimensions agree).** If every loading is of a dictionary and only other items are generated, the
phases and Euler angles always have the dimensions of the map. -/
theorem C117_consistent {α P : Type} (ops : List (LoadOp α P))
    (hl : ∀ r, LoadOp.load r ∈ ops → ∃ d : EbsdDict α P, r = loadDict d)
    (hs : ∀ n v, LoadOp.store n v ∈ ops → n ≠ lit "phase" ∧ n ≠ lit "euler_angle")
    (l : LoadedEbsd α P) (hlast : Spec.lastLoad ops = some l) :
    let m := ops.foldl loadStep EbsdFields.new
    ∃ phase euler, dget m.data (lit "phase") = some phase ∧ dget m.data (lit "euler_angle") = some euler ∧
      phase.shape = m.shape ∧ euler.shape = 3 :: m.shape := by
  have hkeys : (dkeys (α := NdArr α) [(lit "phase", ⟨[], fun _ => (l.stepSize)⟩),
      (lit "euler_angle", ⟨[], fun _ => l.stepSize⟩),
      (lit "band_contrast", ⟨[], fun _ => l.stepSize⟩)]).Nodup := by
    show [lit "phase", lit "euler_angle", lit "band_contrast"].Nodup
    decide +kernel
  have hn : ∀ l, LoadOp.load (.ok l) ∈ ops → (dkeys l.data).Nodup := by
    intro l hmem
    obtain ⟨d, hd⟩ := hl _ hmem
    obtain ⟨ph, st, phs, bc, eu, -, -, rfl⟩ := (C117_dict d l).1 hd.symm
    exact hkeys
  obtain ⟨h1, -, -, h4⟩ := loadStep_state ops hn
  rw [hlast] at h1
  have hne : lit "phase" ≠ lit "euler_angle" := by decide +kernel
  -- the last loading decides both items
  have key : ∀ ops : List (LoadOp α P),
      (∀ r, LoadOp.load r ∈ ops → ∃ d : EbsdDict α P, r = loadDict d) →
      (∀ n v, LoadOp.store n v ∈ ops → n ≠ lit "phase" ∧ n ≠ lit "euler_angle") →
      Spec.lastLoad ops = some l →
      ∃ phase euler, Spec.lastItem ops (lit "phase") = some phase ∧
        Spec.lastItem ops (lit "euler_angle") = some euler ∧
        phase.shape = l.shape ∧ euler.shape = 3 :: l.shape := by
    intro ops
    induction ops using List.reverseRecOn with
    | nil => intro _ _ h; cases h
    | append_singleton ops op ih =>
      intro hl hs hlast
      have ih := ih (fun r hr => hl r (List.mem_append_left _ hr))
        (fun n v hv => hs n v (List.mem_append_left _ hv))
      have hl' := fun r hr => hl r (List.mem_append_right ops hr)
      have hs' := fun n v hv => hs n v (List.mem_append_right ops hv)
      simp only [Spec.lastLoad, Spec.lastItem, List.reverse_append, List.reverse_cons,
        List.reverse_nil, List.nil_append, List.singleton_append, List.findSome?_cons] at *
      cases op with
      | load r =>
        cases r with
        | error e => exact ih hlast
        | ok l' =>
          simp only [Option.some.injEq] at hlast
          subst hlast
          obtain ⟨d, hd⟩ := hl' _ List.mem_cons_self
          obtain ⟨ph, st, phs, bc, eu, -, he, rfl⟩ := (C117_dict d l').1 hd.symm
          refine ⟨ph, eu, ?_, ?_, rfl, he⟩
          · simp [dget]
          · simp [dget, hne]
      | store n v =>
        have hx := hs' n v List.mem_cons_self
        simp only [if_neg hx.1, if_neg hx.2]
        exact ih hlast
  obtain ⟨ph, eu, a, b, c, d⟩ := key ops hl hs hlast
  refine ⟨ph, eu, by rw [h4, a], by rw [h4, b], ?_, ?_⟩
  · rw [c]; exact h1.symm
  · rw [d]; exact congrArg (3 :: ·) h1.symm

/-- **C117 (false for a second loading).** An item that the loading does not provide, as the orientations or
grains generated before, keeps the value and the size it had. -/
theorem C117_stale {α P : Type} (ops : List (LoadOp α P)) (name : Str) (v : NdArr α) (l : LoadedEbsd α P)
    (hn : ∀ l, LoadOp.load (.ok l) ∈ ops → (dkeys l.data).Nodup) (hl : (dkeys l.data).Nodup)
    (hnew : dget l.data name = none) :
    let m := (ops ++ [LoadOp.store name v, .load (.ok l)]).foldl loadStep EbsdFields.new
    m.shape = l.shape ∧ dget m.data name = some v := by
  have hn' : ∀ l', LoadOp.load (.ok l') ∈ ops ++ [LoadOp.store name v, .load (.ok l)] →
      (dkeys l'.data).Nodup := by
    intro l' h
    rcases List.mem_append.1 h with h | h
    · exact hn l' h
    · simp only [List.mem_cons, List.not_mem_nil, or_false, reduceCtorEq, false_or, LoadOp.load.injEq,
        Except.ok.injEq] at h
      rw [h]
      exact hl
  obtain ⟨h1, -, -, h4⟩ := loadStep_state (ops ++ [LoadOp.store name v, .load (.ok l)]) hn'
  refine ⟨?_, ?_⟩
  · rw [h1]
    simp [Spec.lastLoad]
  · rw [h4]
    simp [Spec.lastItem, hnew]

/-- **C117 (false for sizes).** The band contrast of a dictionary is not checked: any size is accepted. -/
theorem C117_unchecked {α P : Type} (phase bc euler : NdArr α) (step : α) (phases : List P)
    (he : euler.shape = 3 :: phase.shape) :
    ∃ r, loadDict ⟨some phase, some step, some (.list (phases.map some)), some bc, some euler⟩ = .ok r ∧
      dget r.data (lit "band_contrast") = some bc := by
  refine ⟨_, (C117_dict _ _).2 ⟨phase, step, phases, bc, euler, rfl, he, rfl⟩, ?_⟩
  have h1 : lit "phase" ≠ lit "band_contrast" := by decide +kernel
  have h2 : lit "euler_angle" ≠ lit "band_contrast" := by decide +kernel
  simp [dget, h1, h2]

/-- **C117 (phases).** The number of phases is their count, `None` without phases. The primary phase is the
one set, counted from the end if negative, and an `IndexError` if there is no such phase. -/
theorem C117_phases {α P : Type} (m : EbsdFields α P) :
    (m.numPhases = none ↔ m.phases = []) ∧
    (m.phases ≠ [] → m.numPhases = some m.phases.length) ∧
    (∀ i : Nat, (∀ p, m.primaryPhase i = .ok p ↔ m.phases[i]? = some p) ∧
      (m.phases.length ≤ i → m.primaryPhase i = .error .indexError)) ∧
    (∀ i : Nat, i < m.phases.length → ∀ p, m.primaryPhase (-(i + 1 : Int)) = .ok p ↔
      m.phases[m.phases.length - 1 - i]? = some p) := by
  refine ⟨?_, ?_, ?_, ?_⟩
  · unfold EbsdFields.numPhases
    by_cases h : m.phases = [] <;> simp [h]
  · intro h
    unfold EbsdFields.numPhases
    rw [if_neg (by rwa [List.length_eq_zero_iff])]
  · intro i
    have e : m.primaryPhase (i : Int) = match m.phases[i]? with
        | some p => .ok p
        | none => .error .indexError := by
      unfold EbsdFields.primaryPhase
      rw [if_neg (by omega : ¬ (i : Int) < 0)]
      simp only
      rw [if_pos (by omega)]
      rfl
    refine ⟨fun p => ?_, fun h => ?_⟩
    · rw [e]
      cases m.phases[i]? with
      | none => exact ⟨fun h => (by cases h), fun h => (by cases h)⟩
      | some q => simp
    · rw [e, List.getElem?_eq_none h]
  · intro i hi p
    unfold EbsdFields.primaryPhase
    rw [if_pos (by omega : (-(i + 1 : Int)) < 0)]
    simp only
    rw [if_pos (by omega), show (-(i + 1 : Int) + m.phases.length).toNat = m.phases.length - 1 - i by omega]
    cases m.phases[m.phases.length - 1 - i]? with
    | none => exact ⟨fun h => (by cases h), fun h => (by cases h)⟩
    | some q => simp

/-- **C117 (DIC maps).** Loading sets the dimensions, the sub-window and the data; a failed loading changes
nothing. -/
theorem C117_dic {α : Type} (m : DicFields α) (l : LoadedDic α) (hl : (dkeys l.data).Nodup) :
    (loadDic m (.ok l)).2.shape = l.shape ∧ (loadDic m (.ok l)).2.xdim = l.shape.2 ∧
    (loadDic m (.ok l)).2.ydim = l.shape.1 ∧ (loadDic m (.ok l)).2.binning = some l.binning ∧
    (∀ n, dget (loadDic m (.ok l)).2.data n = (dget l.data n).or (dget m.data n)) ∧
    ∀ e, loadDic m (.error e) = (.error e, m) := by
  refine ⟨rfl, rfl, rfl, rfl, fun n => ?_, fun e => rfl⟩
  show dget (dupdate m.data l.data) n = _
  rw [dget_merge _ _ hl]

/-- **C117 (false for a second loading of a cropped DIC map).** The crop stays, but the dimensions of the map are
those of the whole data: they differ from the data read if the crop leaves something out. -/
theorem C117_dic_crop {α : Type} (m : DicFields α) (l : LoadedDic α)
    (hc : 0 < m.crop.1 + m.crop.2.1) (h0 : 0 < l.shape.2) :
    let m' := (loadDic m (.ok l)).2
    m'.shape.2 ≠ m'.xdim - m'.crop.1 - m'.crop.2.1 := by
  show l.shape.2 ≠ l.shape.2 - m.crop.1 - m.crop.2.1
  omega

/-! ### The hypotheses are met -/

/-- A dictionary with a 1 by 2 map of one phase. -/
example : ∃ r, loadDict (α := Nat) (P := String)
    ⟨some ⟨[1, 2], fun _ => 1⟩, some 1, some (.list [some "Ni"]), some ⟨[1, 2], fun _ => 0⟩,
      some ⟨[3, 1, 2], fun _ => 0⟩⟩ = .ok r ∧ (dkeys r.data).Nodup ∧
    dget r.data (lit "orientation") = none := by
  refine ⟨_, rfl, ?_, ?_⟩
  · show [lit "phase", lit "euler_angle", lit "band_contrast"].Nodup
    decide +kernel
  · have h1 : lit "phase" ≠ lit "orientation" := by decide +kernel
    have h2 : lit "euler_angle" ≠ lit "orientation" := by decide +kernel
    have h3 : lit "band_contrast" ≠ lit "orientation" := by decide +kernel
    simp [dget, h1, h2, h3]

end DefDAP
