import Verif.Props.CutCpr
import Verif.Props.Indices

/-! C147: what a CPR file says about a map, in any order. -/

namespace DefDAP
open Spec

/-- The two files have the same groups with the same entries, in any order. -/
def Spec.SameEntries (m m' : List (Str × List (Str × Str))) : Prop :=
  ∃ mid, m.Perm mid ∧ List.Forall₂ (fun a b => a.1 = b.1 ∧ a.2.Perm b.2) mid m'

theorem strGet_iff {α : Type} {d : List (Str × α)} (h : (d.map Prod.fst).Nodup) (key : Str) (v : α) :
    strGet d key = .ok v ↔ (key, v) ∈ d := by
  refine ⟨strGet_mem, fun hm => ?_⟩
  induction d with
  | nil => simp at hm
  | cons a t ih =>
    rw [List.map_cons, List.nodup_cons] at h
    unfold strGet
    rcases List.mem_cons.1 hm with rfl | hm
    · simp
    · have hne : a.1 ≠ key := fun e => h.1 (by rw [e]; exact List.mem_map.2 ⟨_, hm, rfl⟩)
      rw [List.find?_cons_of_neg (by simpa using hne)]
      exact ih h.2 hm

theorem strGet_error {α : Type} {d : List (Str × α)} {key : Str} {e : Err} (h : strGet d key = .error e) :
    e = .keyError ∧ key ∉ d.map Prod.fst := by
  by_cases hm : key ∈ d.map Prod.fst
  · exfalso
    unfold strGet at h
    cases e' : d.find? fun kv => decide (kv.1 = key) with
    | some kv => rw [e'] at h; simp at h
    | none =>
      rw [List.find?_eq_none] at e'
      obtain ⟨kv, h1, h2⟩ := List.mem_map.1 hm
      exact absurd (by simpa using h2) (e' kv h1)
  · rw [strGet_none hm] at h
    exact ⟨(Except.error.inj h).symm, hm⟩

theorem strGet_perm {α : Type} {d d' : List (Str × α)} (h : (d.map Prod.fst).Nodup) (hp : d.Perm d')
    (key : Str) : strGet d key = strGet d' key := by
  have h' : (d'.map Prod.fst).Nodup := ((hp.map _).nodup_iff).1 h
  cases e : strGet d key with
  | ok v => exact ((strGet_iff h' key v).2 (hp.subset ((strGet_iff h key v).1 e))).symm
  | error x =>
    obtain ⟨rfl, hn⟩ := strGet_error e
    exact (strGet_none fun hm => hn ((hp.map _).symm.subset hm)).symm

theorem spaceAt_perm {d d' : List (Str × Str)} (h : (d.map Prod.fst).Nodup) (hp : d.Perm d') :
    spaceAt d = spaceAt d' := by
  have := strGet_perm h hp (lit "SpaceGroup")
  unfold strGet at this
  unfold spaceAt
  cases e : d.find? fun kv => decide (kv.1 = lit "SpaceGroup") with
  | some a =>
    cases e' : d'.find? fun kv => decide (kv.1 = lit "SpaceGroup") with
    | some b => rw [e, e'] at this; simpa using congrArg parseInt (Except.ok.inj this)
    | none => rw [e, e'] at this; simp at this
  | none =>
    cases e' : d'.find? fun kv => decide (kv.1 = lit "SpaceGroup") with
    | some b => rw [e, e'] at this; simp at this
    | none => rfl

theorem cprPhase_perm {d d' : List (Str × Str)} (h : (d.map Prod.fst).Nodup) (hp : d.Perm d') :
    cprPhase d = cprPhase d' := by
  unfold cprPhase intAt roundAt
  simp only [strGet_perm h hp, spaceAt_perm h hp]

/-- Groups found under a name: the same up to the order of entries. -/
theorem strGet_same {m m' : List (Str × List (Str × Str))} (h : SameEntries m m')
    (hd : (m.map Prod.fst).Nodup) (hk : ∀ g ∈ m, (g.2.map Prod.fst).Nodup) (key : Str) :
    (strGet m key = .error .keyError ∧ strGet m' key = .error .keyError) ∨
    ∃ d d', strGet m key = .ok d ∧ strGet m' key = .ok d' ∧ d.Perm d' ∧ (d.map Prod.fst).Nodup := by
  obtain ⟨mid, hp, hf⟩ := h
  rw [strGet_perm hd hp]
  have hk : ∀ g ∈ mid, (g.2.map Prod.fst).Nodup := fun g hg => hk g (hp.symm.subset hg)
  clear hp hd
  induction hf with
  | nil => left; exact ⟨rfl, rfl⟩
  | @cons a b s t hab hst ih =>
    unfold strGet
    by_cases he : a.1 = key
    · right
      refine ⟨a.2, b.2, ?_, ?_, hab.2, hk a (by simp)⟩
      · rw [List.find?_cons_of_pos (by simpa using he)]
      · rw [List.find?_cons_of_pos (by simpa using hab.1 ▸ he)]
    · rw [List.find?_cons_of_neg (by simpa using he),
        List.find?_cons_of_neg (by simpa using hab.1 ▸ he)]
      exact ih fun g hg => hk g (List.mem_cons_of_mem _ hg)

theorem strGet_bind_same {β : Type} {m m' : List (Str × List (Str × Str))} (h : SameEntries m m')
    (hd : (m.map Prod.fst).Nodup) (hk : ∀ g ∈ m, (g.2.map Prod.fst).Nodup) (key : Str)
    {f f' : List (Str × Str) → Except Err β}
    (hf : ∀ d d', d.Perm d' → (d.map Prod.fst).Nodup → f d = f' d') :
    (strGet m key).bind f = (strGet m' key).bind f' := by
  rcases strGet_same h hd hk key with ⟨e, e'⟩ | ⟨d, d', e, e', hp, hn⟩
  · rw [e, e']; rfl
  · rw [e, e']; exact hf d d' hp hn

theorem fieldLoop_perm (ws : List Str) {d d' : List (Str × Str)} (h : (d.map Prod.fst).Nodup)
    (hp : d.Perm d') : ∀ (n i : Nat) (last : Option Int) (fmt : List (Str × FieldType)),
    fieldLoop ws d n i last fmt = fieldLoop ws d' n i last fmt := by
  intro n
  induction n with
  | zero => intro i last fmt; rfl
  | succ n ih =>
    intro i last fmt
    rw [fieldLoop, fieldLoop, strGet_perm h hp]
    simp only [ih]

theorem fieldFormat_same {m m' : List (Str × List (Str × Str))} (h : SameEntries m m')
    (hd : (m.map Prod.fst).Nodup) (hk : ∀ g ∈ m, (g.2.map Prod.fst).Nodup) (ws : List Str) :
    fieldFormat ws m = fieldFormat ws m' := by
  unfold fieldFormat
  rcases strGet_same h hd hk (lit "Fields") with ⟨e, e'⟩ | ⟨d, d', e, e', hp, hn⟩
  · rw [e, e']
  · rw [e, e']
    simp only [except_ok_bind, strGet_perm hn hp, fieldLoop_perm ws hn hp]

theorem edxWindows_same {m m' : List (Str × List (Str × Str))} (h : SameEntries m m')
    (hd : (m.map Prod.fst).Nodup) (hk : ∀ g ∈ m, (g.2.map Prod.fst).Nodup) :
    edxWindows m = edxWindows m' := by
  unfold edxWindows
  rcases strGet_same h hd hk (lit "EDX Windows") with ⟨e, e'⟩ | ⟨d, d', e, e', hp, hn⟩
  · rw [e, e']
  · rw [e, e']
    simp only [intAt, strGet_perm hn hp]

theorem same_names {m m' : List (Str × List (Str × Str))}
    (hf : List.Forall₂ (fun a b => a.1 = b.1 ∧ a.2.Perm b.2) m m') :
    m.map Prod.fst = m'.map Prod.fst := by
  induction hf with
  | nil => rfl
  | cons hab hst ih => rw [List.map_cons, List.map_cons, hab.1, ih]

theorem same_nodup {m m' : List (Str × List (Str × Str))}
    (hf : List.Forall₂ (fun a b => a.1 = b.1 ∧ a.2.Perm b.2) m m')
    (h : ∀ g ∈ m, (g.2.map Prod.fst).Nodup) : ∀ b ∈ m', (b.2.map Prod.fst).Nodup := by
  induction hf with
  | nil => simp
  | cons hab hst ih =>
    intro b hb
    rcases List.mem_cons.1 hb with rfl | hb
    · exact ((hab.2.map _).nodup_iff).1 (h _ (by simp))
    · exact ih (fun g hg => h g (List.mem_cons_of_mem _ hg)) b hb

/-- **C147**: neither the order of the groups of a CPR file nor that of the entries of a group matters,
nor do comments, blank lines and white space. -/
theorem C147_order (intro intro' : List Str) (groups groups' : List CprGroup)
    (hi : ∀ l ∈ intro, Ignored ';' l ∧ '\n' ∉ l) (hi' : ∀ l ∈ intro', Ignored ';' l ∧ '\n' ∉ l)
    (hg : ∀ g ∈ groups, g.Valid) (hg' : ∀ g ∈ groups', g.Valid)
    (hk : ∀ g ∈ groups, (g.entries.map Prod.fst).Nodup) (hd : (groups.map fun g => g.name).Nodup)
    (h : SameEntries (groups.map fun g => (g.name, g.entries)) (groups'.map fun g => (g.name, g.entries))) :
    loadCpr (cprText intro groups) = loadCpr (cprText intro' groups') := by
  set m := groups.map fun g => (g.name, g.entries) with hm
  set m' := groups'.map fun g => (g.name, g.entries) with hm'
  have hdm : (m.map Prod.fst).Nodup := by rw [hm, List.map_map]; exact hd
  have hkm : ∀ g ∈ m, (g.2.map Prod.fst).Nodup := by
    intro g hgm
    obtain ⟨x, hx, rfl⟩ := List.mem_map.1 hgm
    exact hk x hx
  have hd' : (groups'.map fun g => g.name).Nodup ∧ ∀ g ∈ groups', (g.entries.map Prod.fst).Nodup := by
    obtain ⟨mid, hp, hf⟩ := h
    have h1 : mid.map Prod.fst = m'.map Prod.fst := same_names hf
    have h2 : ∀ b ∈ m', (b.2.map Prod.fst).Nodup :=
      same_nodup hf fun g hg => hkm g (hp.symm.subset hg)
    refine ⟨?_, fun g hgm => h2 (g.name, g.entries) (List.mem_map.2 ⟨g, hgm, rfl⟩)⟩
    have h3 := ((hp.map Prod.fst).nodup_iff).1 hdm
    rw [h1, hm', List.map_map] at h3
    exact h3
  unfold loadCpr
  rw [C67_parse intro groups hi hg hk hd, C67_parse intro' groups' hi' hg' hd'.2 hd'.1]
  simp only [except_ok_bind, ← hm, ← hm']
  refine strGet_bind_same h hdm hkm _ fun job job' hp hn => ?_
  simp only [intAt, floatAt, strGet_perm hn hp]
  congr 1; funext x; congr 1; funext y; congr 1; funext st
  refine strGet_bind_same h hdm hkm _ fun acq acq' hp hn => ?_
  simp only [strGet_perm hn hp]
  congr 1; funext e1; congr 1; funext e2; congr 1; funext e3
  refine strGet_bind_same h hdm hkm _ fun ph ph' hp hn => ?_
  simp only [strGet_perm hn hp]
  congr 1; funext n
  rw [edxWindows_same h hdm hkm]
  simp only [fieldFormat_same h hdm hkm]
  congr 2
  funext i
  exact strGet_bind_same h hdm hkm _ fun d d' hp hn => cprPhase_perm hn hp


/-! ### The values -/

/-- The file has an entry under this heading whose value is as stated. -/
def Spec.Says (groups : List CprGroup) (name key : Str) (P : Str → Prop) : Prop :=
  ∃ g ∈ groups, g.name = name ∧ ∃ v, (key, v) ∈ g.entries ∧ P v

/-- A number with three decimals, and none is nearer. -/
def Spec.ThreeDecimals (q : ℚ) (x : ℝ) : Prop :=
  (∃ z : Int, x = z / 1000) ∧ ∀ z : Int, |(q : ℝ) - x| ≤ |(q : ℝ) - z / 1000|

/-- The group `name` describes this phase. -/
def Spec.SaysPhase (groups : List CprGroup) (name : Str) (p : PhaseData) : Prop :=
  Says groups name (lit "StructureName") (fun v => v = p.name) ∧
  Says groups name (lit "LaueGroup") (fun v => parseInt v = .ok p.laue) ∧
  (p.laue = 9 ∨ p.laue = 11) ∧
  (Says groups name (lit "SpaceGroup") (fun v => parseInt v = .ok p.space) ∨
    (p.space = 0 ∧ ¬ Says groups name (lit "SpaceGroup") fun _ => True)) ∧
  (∀ k : Fin 3, Says groups name (![lit "a", lit "b", lit "c"] k)
    fun v => ∃ q, parseFloat v = .ok q ∧ ThreeDecimals q (p.lengths k)) ∧
  (∀ k : Fin 3, Says groups name (![lit "alpha", lit "beta", lit "gamma"] k)
    fun v => ∃ q x, parseFloat v = .ok q ∧ ThreeDecimals q x ∧ p.angles k = x * Real.pi / 180)

theorem pyRound_three (q : ℚ) : ThreeDecimals q (pyRound 3 (q : ℝ)) := by
  have hp : (10 : ℝ) ^ 3 = 1000 := by norm_num
  unfold pyRound
  rw [hp]
  refine ⟨⟨_, rfl⟩, fun z => ?_⟩
  have h := npRound_nearest ((q : ℝ) * 1000) z
  have e : ∀ y : ℝ, |(q : ℝ) - y / 1000| = |(q : ℝ) * 1000 - y| / 1000 := by
    intro y
    rw [show (q : ℝ) - y / 1000 = ((q : ℝ) * 1000 - y) / 1000 by ring, abs_div]
    norm_num
  rw [e, e]
  exact div_le_div_of_nonneg_right h (by norm_num)

theorem says_of_get {groups : List CprGroup} {name key v : Str} {d : List (Str × Str)}
    (h1 : strGet (groups.map fun g => (g.name, g.entries)) name = .ok d) (h2 : strGet d key = .ok v)
    {P : Str → Prop} (hP : P v) : Says groups name key P := by
  have h := strGet_mem h1
  obtain ⟨g, hg, e⟩ := List.mem_map.1 h
  simp only [Prod.mk.injEq] at e
  obtain ⟨rfl, rfl⟩ := e
  exact ⟨g, hg, rfl, v, strGet_mem h2, hP⟩

theorem says_bind {groups : List CprGroup} {name key : Str} {d : List (Str × Str)} {β : Type}
    {f : Str → Except Err β} {b : β}
    (h1 : strGet (groups.map fun g => (g.name, g.entries)) name = .ok d)
    (h2 : (strGet d key).bind f = .ok b) {P : Str → Prop} (hP : ∀ v, f v = .ok b → P v) :
    Says groups name key P := by
  obtain ⟨v, hv, hf⟩ := except_bind_ok h2
  exact says_of_get h1 hv (hP v hf)

theorem parseRound_ok {v : Str} {x : ℝ} (h : parseRound v = .ok x) :
    ∃ q, parseFloat v = .ok q ∧ ThreeDecimals q x := by
  obtain ⟨q, hq, h⟩ := except_bind_ok h
  cases h
  exact ⟨q, hq, pyRound_three q⟩

theorem says_phase {groups : List CprGroup} (hd : (groups.map fun g => g.name).Nodup) {name : Str}
    {d : List (Str × Str)} {p : PhaseData}
    (h1 : strGet (groups.map fun g => (g.name, g.entries)) name = .ok d) (h : cprPhase d = .ok p) :
    SaysPhase groups name p := by
  unfold cprPhase intAt roundAt at h
  obtain ⟨x1, e1, h⟩ := except_bind_ok h
  obtain ⟨x2, e2, h⟩ := except_bind_ok h
  obtain ⟨x3, e3, h⟩ := except_bind_ok h
  obtain ⟨x4, e4, h⟩ := except_bind_ok h
  obtain ⟨x5, e5, h⟩ := except_bind_ok h
  obtain ⟨x6, e6, h⟩ := except_bind_ok h
  obtain ⟨x7, e7, h⟩ := except_bind_ok h
  obtain ⟨x8, e8, h⟩ := except_bind_ok h
  obtain ⟨x9, e9, h⟩ := except_bind_ok h
  unfold makePhase at h
  split at h
  · rename_i hl
    cases h
    refine ⟨says_of_get h1 e1 rfl, says_bind h1 e2 fun v hv => hv, hl, ?_, ?_, ?_⟩
    · unfold spaceAt at e3
      cases e : d.find? fun kv => decide (kv.1 = lit "SpaceGroup") with
      | some kv =>
        rw [e] at e3
        left
        refine says_of_get h1 (v := kv.2) ?_ e3
        unfold strGet
        rw [e]
      | none =>
        rw [e] at e3
        right
        refine ⟨(Except.ok.inj e3).symm, ?_⟩
        rintro ⟨g, hg, hn, v, hv, -⟩
        have hg' : strGet (groups.map fun g => (g.name, g.entries)) name = .ok g.entries := by
          rw [strGet_iff (by rw [List.map_map]; exact hd)]
          exact List.mem_map.2 ⟨g, hg, by rw [hn]⟩
        rw [h1] at hg'
        rw [List.find?_eq_none] at e
        exact e (lit "SpaceGroup", v) (by rw [Except.ok.inj hg']; exact hv) (by simp)
    · intro k
      fin_cases k
      · exact says_bind h1 e4 fun v hv => parseRound_ok hv
      · exact says_bind h1 e5 fun v hv => parseRound_ok hv
      · exact says_bind h1 e6 fun v hv => parseRound_ok hv
    · have key : ∀ {v : Str} {x : ℝ}, parseRound v = .ok x →
          ∃ q y, parseFloat v = .ok q ∧ ThreeDecimals q y ∧ x * Real.pi / 180 = y * Real.pi / 180 := by
        intro v x hv
        obtain ⟨q, a, b⟩ := parseRound_ok hv
        exact ⟨q, x, a, b, rfl⟩
      intro k
      fin_cases k
      · exact says_bind h1 e7 fun v hv => key hv
      · exact says_bind h1 e8 fun v hv => key hv
      · exact says_bind h1 e9 fun v hv => key hv
  · simp at h

theorem mapM_get_ok {α β : Type} {f : α → Except Err β} : ∀ {l : List α} {r : List β},
    l.mapM f = .ok r → ∀ (i : Nat) (y : β), r[i]? = some y → ∃ x, l[i]? = some x ∧ f x = .ok y := by
  intro l
  induction l with
  | nil => intro r h i y hy; rw [List.mapM_nil] at h; cases h; simp at hy
  | cons a l ih =>
    intro r h i y hy
    rw [List.mapM_cons] at h
    obtain ⟨u, hu, h⟩ := except_bind_ok h
    obtain ⟨v, hv, h⟩ := except_bind_ok h
    cases h
    cases i with
    | zero => exact ⟨a, rfl, by rw [hu]; simpa using hy⟩
    | succ i => exact ih hv i y (by simpa using hy)

/-- **C147**: what is loaded is what the file says: the shape, the step size, the angles of the
acquisition surface, and as many phases as counted, each as its group describes it, in the order of
their numbers. -/
theorem C147_values (intro : List Str) (groups : List CprGroup)
    (hi : ∀ l ∈ intro, Ignored ';' l ∧ '\n' ∉ l) (hg : ∀ g ∈ groups, g.Valid)
    (hk : ∀ g ∈ groups, (g.entries.map Prod.fst).Nodup) (hd : (groups.map fun g => g.name).Nodup)
    (r : CprData) (hr : loadCpr (cprText intro groups) = .ok r) :
    Says groups (lit "Job") (lit "xCells") (fun v => parseInt v = .ok r.cols) ∧
    Says groups (lit "Job") (lit "yCells") (fun v => parseInt v = .ok r.rows) ∧
    Says groups (lit "Job") (lit "GridDistX") (fun v => parseFloat v = .ok r.step) ∧
    Says groups (lit "Acquisition Surface") (lit "Euler1")
      (fun v => parseFloat v = .ok r.acquisition.1) ∧
    Says groups (lit "Acquisition Surface") (lit "Euler2")
      (fun v => parseFloat v = .ok r.acquisition.2.1) ∧
    Says groups (lit "Acquisition Surface") (lit "Euler3")
      (fun v => parseFloat v = .ok r.acquisition.2.2) ∧
    Says groups (lit "Phases") (lit "Count")
      (fun v => ∃ n, parseInt v = .ok n ∧ r.phases.length = n.toNat) ∧
    (∀ i p, r.phases[i]? = some p → SaysPhase groups (lit "Phase" ++ natStr (i + 1)) p) ∧
    ((r.windows = [] ∧ lit "EDX Windows" ∉ groups.map fun g => g.name) ∨
      (Says groups (lit "EDX Windows") (lit "Count")
        (fun v => ∃ n, parseInt v = .ok n ∧ r.windows.length = n.toNat) ∧
      ∀ i w, r.windows[i]? = some w →
        Says groups (lit "EDX Windows") (lit "Window" ++ natStr (i + 1)) fun v => v = w)) := by
  obtain ⟨m, job, acq, ph, n, h1, h2, h3, h4, h5, h6, h7, h8, h9, h10, h11, h12, h13, -, -⟩ :=
    (loadCpr_iff _ r).1 hr
  rw [C67_parse intro groups hi hg hk hd] at h1
  obtain rfl := (Except.ok.inj h1).symm
  refine ⟨says_bind h2 h3 fun v hv => hv, says_bind h2 h4 fun v hv => hv,
    says_bind h2 h5 fun v hv => hv, says_bind h6 h7 fun v hv => hv, says_bind h6 h8 fun v hv => hv,
    says_bind h6 h9 fun v hv => hv, says_bind h10 h11 fun v hv => ⟨n, hv, ?_⟩, ?_, ?_⟩
  · rw [mapM_length_ok h12, List.length_range]
  · intro i p hp
    obtain ⟨x, hx, hf⟩ := mapM_get_ok h12 i p hp
    obtain ⟨hx1, rfl⟩ : i < n.toNat ∧ i = x := by
      obtain ⟨hlt, e⟩ := List.getElem?_eq_some_iff.1 hx
      rw [List.getElem_range] at e
      exact ⟨by simpa using hlt, e⟩
    obtain ⟨d, hd1, hd2⟩ := except_bind_ok hf
    exact says_phase hd hd1 hd2
  · unfold edxWindows at h13
    cases e : strGet (groups.map fun g => (g.name, g.entries)) (lit "EDX Windows") with
    | error x =>
      rw [e] at h13
      left
      refine ⟨(Except.ok.inj h13).symm, ?_⟩
      have := (strGet_error e).2
      rwa [List.map_map] at this
    | ok d =>
      rw [e] at h13
      right
      obtain ⟨c, hc, h13⟩ := except_bind_ok h13
      refine ⟨says_bind e hc fun v hv => ⟨c, hv, ?_⟩, ?_⟩
      · rw [mapM_length_ok h13, List.length_range]
      · intro i w hw
        obtain ⟨x, hx, hf⟩ := mapM_get_ok h13 i w hw
        obtain ⟨hlt, e'⟩ := List.getElem?_eq_some_iff.1 hx
        rw [List.getElem_range] at e'
        subst e'
        exact says_of_get e hf rfl

/-- The two orders of the example. -/
example : ∃ p, loadCpr (cprText [] exFieldsLast) =
    .ok ⟨7, 12, 1 / 2, (0, 90, 0), [p], [], exFormat⟩ ∧ SaysPhase exFieldsLast (lit "Phase1") p := by
  obtain ⟨p, hp⟩ := exFieldsLast_loads
  have h := (C147_values [] exFieldsLast (by simp) ex_valid ex_nodup (by decide +kernel) _ hp).2.2.2.2.2.2.2.1
    0 p rfl
  exact ⟨p, hp, by
    have e : lit "Phase" ++ natStr (0 + 1) = lit "Phase1" := by decide +kernel
    rwa [e] at h⟩

example : SameEntries (exFieldsLast.map fun g => (g.name, g.entries))
    (exPhaseLast.map fun g => (g.name, g.entries)) ∧ exFieldsLast.map (fun g => g.name) ≠
    exPhaseLast.map fun g => g.name := by
  refine ⟨⟨exPhaseLast.map fun g => (g.name, g.entries), List.isPerm_iff.1 (by decide +kernel), ?_⟩,
    by decide +kernel⟩
  exact List.forall₂_same.2 fun x _ => ⟨rfl, List.Perm.refl _⟩

end DefDAP
