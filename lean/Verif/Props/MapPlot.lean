import Verif.Model.MapPlot
import Mathlib.Data.List.Basic
import Mathlib.Tactic.Linarith
import Mathlib.Tactic.FieldSimp

/-! C107, C108: layers of map plots, drawn boundaries and the legend of the phase map. -/

namespace DefDAP

/-- A layer of points. -/
def Spec.isPts {δ : Type} : PlotLayer δ → Bool
  | .pts _ => true
  | _ => false

/-- A layer of highlighted grains. -/
def Spec.isHigh {δ : Type} : PlotLayer δ → Bool
  | .high _ => true
  | _ => false

/-- The positions of the layers of one sort, in order. -/
def Spec.positions {δ : Type} (p : PlotLayer δ → Bool) (l : List (PlotLayer δ)) : List Nat :=
  (List.range l.length).filter fun i => (l[i]?).any p

theorem positions_append {δ : Type} (p : PlotLayer δ → Bool) (l : List (PlotLayer δ))
    (x : PlotLayer δ) :
    Spec.positions p (l ++ [x]) = Spec.positions p l ++ if p x then [l.length] else [] := by
  unfold Spec.positions
  rw [List.length_append, List.length_singleton, List.range_succ, List.filter_append]
  congr 1
  · refine List.filter_congr fun i hi => ?_
    rw [List.getElem?_append_left (List.mem_range.1 hi)]
  · simp [List.filter_cons]

theorem positions_set {δ : Type} (p : PlotLayer δ → Bool) (l : List (PlotLayer δ)) (k : Nat)
    (x : PlotLayer δ) (h : ∀ y, l[k]? = some y → p y = p x) :
    Spec.positions p (l.set k x) = Spec.positions p l := by
  unfold Spec.positions
  rw [List.length_set]
  refine List.filter_congr fun i hi => ?_
  rw [List.getElem?_set]
  have hi := List.mem_range.1 hi
  split_ifs with h1 h2
  · subst h1
    rw [List.getElem?_eq_getElem hi]
    simp [h _ (List.getElem?_eq_getElem hi)]
  · omega
  · rfl

theorem mem_positions {δ : Type} (p : PlotLayer δ → Bool) (l : List (PlotLayer δ)) (k : Nat) :
    k ∈ Spec.positions p l ↔ ∃ x, l[k]? = some x ∧ p x = true := by
  unfold Spec.positions
  rw [List.mem_filter, List.mem_range]
  constructor
  · rintro ⟨h, hp⟩
    refine ⟨l[k], List.getElem?_eq_getElem h, ?_⟩
    rw [List.getElem?_eq_getElem h] at hp
    simpa using hp
  · rintro ⟨x, hx, hp⟩
    exact ⟨(List.getElem?_eq_some_iff.1 hx).1, by simp [hx, hp]⟩

/-- What a plot knows about its layers agrees with the layers. -/
def Spec.LayersKnown {δ : Type} (s : PlotState δ) : Prop :=
  s.ptsIds = Spec.positions Spec.isPts s.layers ∧
  s.highId = (Spec.positions Spec.isHigh s.layers).head?

theorem known_append {δ : Type} (s : PlotState δ) (x : PlotLayer δ) (h : Spec.LayersKnown s)
    (h1 : Spec.isPts x = false) (h2 : Spec.isHigh x = false) :
    Spec.LayersKnown { s with layers := s.layers ++ [x] } := by
  refine ⟨?_, ?_⟩
  · rw [positions_append, h1]
    simpa using h.1
  · show s.highId = _
    rw [positions_append, h2]
    simpa using h.2

theorem pyGet_ok_mem {α : Type} {l : List α} {i : Int} {a : α} (h : pyGet l i = .ok a) : a ∈ l := by
  unfold pyGet at h
  simp only at h
  split_ifs at h with h1 h2
  all_goals
    split at h
    · next b hb =>
      simp only [Except.ok.injEq] at h
      subst h
      exact List.mem_of_getElem? hb
    · exact absurd h (by simp)

theorem known_pts_append {δ : Type} (s : PlotState δ) (d : δ) (h : Spec.LayersKnown s) :
    Spec.LayersKnown { s with ptsIds := s.ptsIds ++ [s.layers.length],
                              layers := s.layers ++ [.pts d] } := by
  refine ⟨?_, ?_⟩
  · show s.ptsIds ++ _ = _
    rw [positions_append, h.1]
    rfl
  · show s.highId = _
    rw [positions_append]
    simpa [Spec.isHigh] using h.2

theorem known_set {δ : Type} (s : PlotState δ) (k : Nat) (x y : PlotLayer δ)
    (h : Spec.LayersKnown s) (hx : s.layers[k]? = some x)
    (h1 : Spec.isPts x = Spec.isPts y) (h2 : Spec.isHigh x = Spec.isHigh y) :
    Spec.LayersKnown { s with layers := s.layers.set k y } := by
  refine ⟨?_, ?_⟩
  · show s.ptsIds = _
    rw [positions_set _ _ _ _ (by intro z hz; rw [hx] at hz; cases hz; exact h1)]
    exact h.1
  · show s.highId = _
    rw [positions_set _ _ _ _ (by intro z hz; rw [hx] at hz; cases hz; exact h2)]
    exact h.2

theorem isPts_iff {δ : Type} (x : PlotLayer δ) : Spec.isPts x = true ↔ ∃ d, x = .pts d := by
  cases x <;> simp [Spec.isPts]

theorem isHigh_iff {δ : Type} (x : PlotLayer δ) : Spec.isHigh x = true ↔ ∃ d, x = .high d := by
  cases x <;> simp [Spec.isHigh]

theorem known_high {δ : Type} (s : PlotState δ) (d : δ) (b : Bool) (h : Spec.LayersKnown s) :
    Spec.LayersKnown (s.addHigh d b) := by
  unfold PlotState.addHigh
  cases hk : s.highId with
  | none =>
    have h2 := h.2
    rw [hk] at h2
    refine ⟨?_, ?_⟩
    · show s.ptsIds = _
      rw [positions_append]
      simpa [Spec.isPts] using h.1
    · show some s.layers.length = _
      rw [positions_append, List.head?_eq_none_iff.1 h2.symm]
      rfl
  | some k =>
    have h2 := h.2
    rw [hk] at h2
    dsimp only
    split_ifs
    · refine ⟨?_, ?_⟩
      · show s.ptsIds = _
        rw [positions_append]
        simpa [Spec.isPts] using h.1
      · show some k = _
        rw [positions_append, List.head?_append, ← h2]
        rfl
    · obtain ⟨x, hx, hp⟩ := (mem_positions _ _ _).1 (List.mem_of_head? h2.symm)
      obtain ⟨d', rfl⟩ := (isHigh_iff x).1 hp
      have := known_set s k _ (.high d) h hx rfl rfl
      rw [hk] at this
      exact this

theorem known_step {δ : Type} (s s' : PlotState δ) (op : PlotOp δ) (h : Spec.LayersKnown s)
    (hs : plotStep s op = .ok s') : Spec.LayersKnown s' := by
  cases op with
  | addMap d =>
    simp only [plotStep, Except.ok.injEq] at hs
    subst hs
    exact known_append s _ h rfl rfl
  | addBounds d =>
    simp only [plotStep, Except.ok.injEq] at hs
    subst hs
    exact known_append s _ h rfl rfl
  | addHigh d b =>
    simp only [plotStep, Except.ok.injEq] at hs
    subst hs
    exact known_high s d b h
  | addBar k =>
    simp only [plotStep, PlotState.addBar] at hs
    cases hk : pyIndex s.layers.length k with
    | error e => rw [hk] at hs; exact absurd hs (by simp [Except.map])
    | ok j =>
      rw [hk] at hs
      simp only [Except.map, Except.ok.injEq] at hs
      subst hs
      exact h
  | addPts d u =>
    simp only [plotStep, PlotState.addPts] at hs
    split at hs
    · simp only [Except.ok.injEq] at hs
      subst hs
      exact known_pts_append s d h
    · simp only [Except.ok.injEq] at hs
      subst hs
      exact known_pts_append s d h
    · next u _ =>
      cases hk : pyGet s.ptsIds u with
      | error e => rw [hk] at hs; exact absurd hs (by simp [Except.map])
      | ok j =>
        rw [hk] at hs
        simp only [Except.map, Except.ok.injEq] at hs
        subst hs
        have hm := pyGet_ok_mem hk
        rw [h.1] at hm
        obtain ⟨x, hx, hp⟩ := (mem_positions _ _ _).1 hm
        obtain ⟨d', rfl⟩ := (isPts_iff x).1 hp
        exact known_set s j _ (.pts d) h hx rfl rfl
  | clear =>
    simp only [plotStep, PlotState.clear] at hs
    split_ifs at hs
    simp only [Except.ok.injEq] at hs
    subst hs
    exact ⟨rfl, rfl⟩

/-- **C107.** After every history of calls on a new plot, failing ones included, the plot knows where
its points and its highlighted grains are. -/
theorem C107_history {δ : Type} (interactive : Bool) (ops : List (PlotOp δ)) :
    Spec.LayersKnown (plotRun (PlotState.new interactive) ops) := by
  have : ∀ (ops : List (PlotOp δ)) (s : PlotState δ), Spec.LayersKnown s →
      Spec.LayersKnown (plotRun s ops) := by
    intro ops
    induction ops with
    | nil => intro s h; exact h
    | cons op t ih =>
      intro s h
      show Spec.LayersKnown (plotRun (match plotStep s op with
        | .ok s' => s'
        | .error _ => s) t)
      apply ih
      cases hs : plotStep s op with
      | ok s' => exact known_step s s' op h hs
      | error e => exact h
  exact this ops _ ⟨rfl, rfl⟩

/-- **C107 (points).** After every history, new points with an update of layer `u` replace those of the
`u`-th layer of points, counted from the end if negative, and change nothing else; without an update
or without any points they are a new layer on top. Layers that do not exist are an error. -/
theorem C107_points {δ : Type} (interactive : Bool) (ops : List (PlotOp δ)) (d : δ) :
    let s := plotRun (PlotState.new interactive) ops
    let pos := Spec.positions Spec.isPts s.layers
    (∃ s', plotStep s (.addPts d none) = .ok s' ∧ s'.layers = s.layers ++ [.pts d]) ∧
    (pos = [] → ∀ u, ∃ s', plotStep s (.addPts d (some u)) = .ok s' ∧
      s'.layers = s.layers ++ [.pts d]) ∧
    (∀ (u : Nat) (k : Nat), pos[u]? = some k → ∃ s', plotStep s (.addPts d (some (u : Int))) = .ok s' ∧
      s'.layers = s.layers.set k (.pts d) ∧ ∃ d', s.layers[k]? = some (.pts d')) ∧
    (∀ (u : Nat) (k : Nat), pos[u]? = some k →
      plotStep s (.addPts d (some ((u : Int) - pos.length))) = plotStep s (.addPts d (some (u : Int)))) ∧
    (∀ u : Int, pos ≠ [] → (pos.length ≤ u ∨ u < -pos.length) →
      plotStep s (.addPts d (some u)) = .error .indexError) := by
  intro s pos
  have hk : s.ptsIds = pos := (C107_history interactive ops).1
  refine ⟨?_, ?_, ?_, ?_, ?_⟩
  · simp only [plotStep, PlotState.addPts]
    cases s.ptsIds <;> exact ⟨_, rfl, rfl⟩
  · intro h u
    simp only [plotStep, PlotState.addPts]
    rw [hk, h]
    exact ⟨_, rfl, rfl⟩
  · intro u k hu
    have hne : pos ≠ [] := by rintro h; rw [h] at hu; simp at hu
    have hg : pyGet s.ptsIds (u : Int) = .ok k := by
      unfold pyGet
      rw [hk]
      simp [hu, show ¬ ((u : Int) < 0) by omega]
    have hm : k ∈ pos := List.mem_of_getElem? hu
    obtain ⟨x, hx, hp⟩ := (mem_positions _ _ _).1 hm
    obtain ⟨d', rfl⟩ := (isPts_iff x).1 hp
    refine ⟨{ s with layers := s.layers.set k (.pts d) }, ?_, rfl, d', hx⟩
    simp only [plotStep, PlotState.addPts]
    split
    · next h => exact absurd (hk ▸ h) hne
    · next h => exact absurd (by assumption : some (u : Int) = none) (by simp)
    · next u' _ h _ =>
      simp only [Option.some.injEq] at h
      subst h
      rw [hg]
      rfl
  · intro u k hu
    have hlt : u < pos.length := (List.getElem?_eq_some_iff.1 hu).1
    have hne : s.ptsIds ≠ [] := by rw [hk]; rintro h; rw [h] at hu; simp at hu
    have hg : pyGet s.ptsIds ((u : Int) - pos.length) = pyGet s.ptsIds (u : Int) := by
      unfold pyGet
      rw [hk]
      simp only [show ((u : Int) - pos.length) < 0 by omega, if_true,
        show ¬ ((u : Int) < 0) by omega, if_false, Int.sub_add_cancel]
    simp only [plotStep, PlotState.addPts]
    cases hl : s.ptsIds with
    | nil => exact absurd hl hne
    | cons a t =>
      rw [hl] at hg
      show (pyGet (a :: t) _).map _ = (pyGet (a :: t) _).map _
      rw [hg]
  · intro u hne hu
    simp only [plotStep, PlotState.addPts]
    have hg : pyGet s.ptsIds u = .error .indexError := by
      unfold pyGet
      rw [hk]
      simp only
      rcases hu with hu | hu
      · rw [if_neg (by omega : ¬ u < 0), if_pos (by omega),
          List.getElem?_eq_none (by omega)]
      · rw [if_pos (by omega : u < 0), if_neg (by omega)]
    cases hl : s.ptsIds with
    | nil => exact absurd (hk ▸ hl) hne
    | cons a t =>
      rw [hl] at hg
      dsimp only
      rw [hg]
      rfl

example : ∃ ops : List (PlotOp Nat),
    (Spec.positions Spec.isPts (plotRun (PlotState.new false) ops).layers)[1]? = some 2 :=
  ⟨[.addMap 0, .addPts 1 none, .addPts 2 none], by decide⟩

/-- **C107 (highlights).** After every history, highlighting grains replaces the first layer of
highlights, if there is one and no new layer is asked for, and otherwise adds a layer on top; nothing
else changes. -/
theorem C107_highlights {δ : Type} (interactive : Bool) (ops : List (PlotOp δ)) (d : δ) (b : Bool) :
    let s := plotRun (PlotState.new interactive) ops
    let pos := Spec.positions Spec.isHigh s.layers
    ∃ s', plotStep s (.addHigh d b) = .ok s' ∧
      (pos = [] ∨ b = true → s'.layers = s.layers ++ [.high d]) ∧
      (∀ k t, pos = k :: t → b = false → s'.layers = s.layers.set k (.high d) ∧
        ∃ d', s.layers[k]? = some (.high d')) := by
  intro s pos
  have hk : s.highId = pos.head? := (C107_history interactive ops).2
  refine ⟨s.addHigh d b, rfl, ?_, ?_⟩
  · intro h
    unfold PlotState.addHigh
    rcases h with h | h
    · rw [hk, h]
      rfl
    · subst h
      cases s.highId <;> rfl
  · intro k t hp hb
    subst hb
    have hm : k ∈ pos := by rw [hp]; simp
    obtain ⟨x, hx, hh⟩ := (mem_positions _ _ _).1 hm
    obtain ⟨d', rfl⟩ := (isHigh_iff x).1 hh
    refine ⟨?_, d', hx⟩
    unfold PlotState.addHigh
    rw [hk, hp]
    rfl

example : ∃ ops : List (PlotOp Nat),
    Spec.positions Spec.isHigh (plotRun (PlotState.new false) ops).layers = [1, 2] :=
  ⟨[.addMap 0, .addHigh 1 false, .addHigh 2 true], by decide⟩

/-- **C107 (numbers).** No call but `clear` removes a layer or changes its number or sort: a layer
added as a map or as boundaries stays as it is. -/
theorem C107_numbers {δ : Type} (interactive : Bool) (ops : List (PlotOp δ)) (op : PlotOp δ)
    (hop : op ≠ .clear) (s' : PlotState δ)
    (h : plotStep (plotRun (PlotState.new interactive) ops) op = .ok s') :
    let s := plotRun (PlotState.new interactive) ops
    (∀ (i : Nat) d, s.layers[i]? = some (.map d) → s'.layers[i]? = some (.map d)) ∧
    (∀ (i : Nat) d, s.layers[i]? = some (.bounds d) → s'.layers[i]? = some (.bounds d)) ∧
    (∀ (i : Nat) d, s.layers[i]? = some (.pts d) → ∃ d', s'.layers[i]? = some (.pts d')) ∧
    (∀ (i : Nat) d, s.layers[i]? = some (.high d) → ∃ d', s'.layers[i]? = some (.high d')) := by
  intro s
  have app : ∀ x : PlotLayer δ, s'.layers = s.layers ++ [x] →
      ∀ (i : Nat) y, s.layers[i]? = some y → s'.layers[i]? = some y := by
    intro x hx i y hy
    rw [hx, List.getElem?_append_left (List.getElem?_eq_some_iff.1 hy).1, hy]
  have fin : (∀ (i : Nat) y, s.layers[i]? = some y → s'.layers[i]? = some y) →
      (∀ (i : Nat) d, s.layers[i]? = some (.map d) → s'.layers[i]? = some (.map d)) ∧
      (∀ (i : Nat) d, s.layers[i]? = some (.bounds d) → s'.layers[i]? = some (.bounds d)) ∧
      (∀ (i : Nat) d, s.layers[i]? = some (.pts d) → ∃ d', s'.layers[i]? = some (.pts d')) ∧
      (∀ (i : Nat) d, s.layers[i]? = some (.high d) → ∃ d', s'.layers[i]? = some (.high d')) :=
    fun hf => ⟨fun i d hd => hf i _ hd, fun i d hd => hf i _ hd,
      fun i d hd => ⟨d, hf i _ hd⟩, fun i d hd => ⟨d, hf i _ hd⟩⟩
  have hset : ∀ (k : Nat) (x y : PlotLayer δ), s.layers[k]? = some x →
      s'.layers = s.layers.set k y → ∀ (i : Nat) z, s.layers[i]? = some z →
      (i = k ∧ z = x ∧ s'.layers[i]? = some y) ∨ s'.layers[i]? = some z := by
    intro k x y hx hs i z hz
    by_cases hik : i = k
    · subst hik
      left
      rw [hx] at hz
      cases hz
      refine ⟨rfl, rfl, ?_⟩
      rw [hs, List.getElem?_set_self (List.getElem?_eq_some_iff.1 hx).1]
    · right
      rw [hs, List.getElem?_set_ne (Ne.symm hik), hz]
  cases op with
  | addMap d =>
    simp only [plotStep, Except.ok.injEq] at h
    exact fin (app _ (by rw [← h]; rfl))
  | addBounds d =>
    simp only [plotStep, Except.ok.injEq] at h
    exact fin (app _ (by rw [← h]; rfl))
  | addBar k =>
    simp only [plotStep, PlotState.addBar] at h
    cases hk : pyIndex (plotRun (PlotState.new interactive) ops).layers.length k with
    | error e => rw [hk] at h; exact absurd h (by simp [Except.map])
    | ok j =>
      rw [hk] at h
      simp only [Except.map, Except.ok.injEq] at h
      exact fin fun i y hy => by rw [← h]; exact hy
  | clear => exact absurd rfl hop
  | addHigh d b =>
    obtain ⟨s'', h1, h2, h3⟩ := C107_highlights interactive ops d b
    have h' := h.symm.trans h1
    simp only [Except.ok.injEq] at h'
    subst h'
    by_cases hc : Spec.positions Spec.isHigh s.layers = [] ∨ b = true
    · exact fin (app _ (h2 hc))
    · obtain ⟨hc1, hc2⟩ := not_or.1 hc
      obtain ⟨k, t, hkt⟩ := List.exists_cons_of_ne_nil hc1
      obtain ⟨h4, d', h5⟩ := h3 k t hkt (by simpa using hc2)
      have hh := hset k _ _ h5 h4
      refine ⟨fun i d hd => ?_, fun i d hd => ?_, fun i d hd => ?_, fun i d hd => ?_⟩ <;>
        rcases hh i _ hd with ⟨_, h6, h7⟩ | h6
      · cases h6
      · exact h6
      · cases h6
      · exact h6
      · cases h6
      · exact ⟨_, h6⟩
      · exact ⟨_, h7⟩
      · exact ⟨_, h6⟩
  | addPts d u =>
    simp only [plotStep, PlotState.addPts] at h
    split at h
    · simp only [Except.ok.injEq] at h
      exact fin (app _ (by rw [← h]))
    · simp only [Except.ok.injEq] at h
      exact fin (app _ (by rw [← h]))
    · next u _ =>
      cases hk : pyGet (plotRun (PlotState.new interactive) ops).ptsIds u with
      | error e => rw [hk] at h; exact absurd h (by simp [Except.map])
      | ok j =>
        rw [hk] at h
        simp only [Except.map, Except.ok.injEq] at h
        have hm := pyGet_ok_mem hk
        rw [(C107_history interactive ops).1] at hm
        obtain ⟨x, hx, hp⟩ := (mem_positions _ _ _).1 hm
        obtain ⟨d', rfl⟩ := (isPts_iff x).1 hp
        have hh := hset j _ (.pts d) hx (by rw [← h])
        refine ⟨fun i d hd => ?_, fun i d hd => ?_, fun i d hd => ?_, fun i d hd => ?_⟩ <;>
          rcases hh i _ hd with ⟨_, h6, h7⟩ | h6
        · cases h6
        · exact h6
        · cases h6
        · exact h6
        · exact ⟨_, h7⟩
        · exact ⟨_, h6⟩
        · cases h6
        · exact ⟨_, h6⟩

/-- **C107 (clear).** Clearing is for interactive plots only and leaves no layers; the last colour bar
is removed. -/
theorem C107_clear {δ : Type} (s : PlotState δ) :
    (s.interactive = false → plotStep s .clear = .error .exception) ∧
    (s.interactive = true → ∃ s', plotStep s .clear = .ok s' ∧ s'.layers = [] ∧ s'.bar = none ∧
      Spec.LayersKnown s' ∧ (s.bar = none → s'.bars = s.bars) ∧
      (∀ k b, s.bar = some k → s.bars = b ++ [k] → s'.bars = b)) := by
  constructor
  · intro h
    simp [plotStep, PlotState.clear, h]
  · intro h
    refine ⟨{ s with layers := [], highId := none, ptsIds := [], bar := none,
                     bars := clearBars s.bar s.bars }, ?_, rfl, rfl, ⟨rfl, rfl⟩, ?_, ?_⟩
    · simp only [plotStep, PlotState.clear, h, if_true]
    · intro hb
      simp [clearBars, hb]
    · intro k b hb hbs
      simp [clearBars, hb, hbs]

/-- **C107 (false for several colour bars).** Of the colour bars made since the last `clear` only the
last is removed: all others stay in the figure. -/
theorem C107_bars {δ : Type} (d : δ) (n : Nat) :
    let s := plotRun (PlotState.new true) (.addMap d :: List.replicate (n + 1) (.addBar 0))
    ∃ s', plotStep s .clear = .ok s' ∧ s'.layers = [] ∧ s'.bars.length = n := by
  have key : ∀ (n : Nat) (s : PlotState δ), s.layers = [.map d] → s.interactive = true →
      (plotRun s (List.replicate (n + 1) (.addBar 0))).interactive = true ∧
      (plotRun s (List.replicate (n + 1) (.addBar 0))).bar = some 0 ∧
      (plotRun s (List.replicate (n + 1) (.addBar 0))).bars.length = s.bars.length + (n + 1) := by
    intro n
    induction n with
    | zero =>
      intro s hs hi
      have : plotStep s (.addBar 0) = .ok { s with bar := some 0, bars := s.bars ++ [0] } := by
        simp [plotStep, PlotState.addBar, hs, pyIndex, Except.map]
      simp [plotRun, this, hi]
    | succ n ih =>
      intro s hs hi
      have : plotStep s (.addBar 0) = .ok { s with bar := some 0, bars := s.bars ++ [0] } := by
        simp [plotStep, PlotState.addBar, hs, pyIndex, Except.map]
      rw [List.replicate_succ]
      have hr : plotRun s (.addBar 0 :: List.replicate (n + 1) (.addBar 0)) =
          plotRun { s with bar := some 0, bars := s.bars ++ [0] }
            (List.replicate (n + 1) (.addBar 0)) := by
        show plotRun (match plotStep s (.addBar 0) with
          | .ok s' => s'
          | .error _ => s) _ = _
        rw [this]
      rw [hr]
      obtain ⟨a, b, c⟩ := ih { s with bar := some 0, bars := s.bars ++ [0] } hs hi
      refine ⟨a, b, ?_⟩
      rw [c]
      simp
      omega
  intro s
  obtain ⟨a, b, c⟩ := key n ((PlotState.new true : PlotState δ).addMap d) rfl rfl
  have hs : s = plotRun ((PlotState.new true : PlotState δ).addMap d)
      (List.replicate (n + 1) (.addBar 0)) := rfl
  rw [← hs] at a b c
  refine ⟨{ s with layers := [], highId := none, ptsIds := [], bar := none, bars := s.bars.dropLast },
    ?_, rfl, ?_⟩
  · simp only [plotStep, PlotState.clear, a, b, if_true, clearBars]
  · simp only [List.length_dropLast, c]
    simp [PlotState.addMap, PlotState.new]

/-- **C107 (create).** In a new plot the map, the boundaries and the highlights are drawn in this order
and the colour bar is that of the map. A colour bar without a map is an error. -/
theorem C107_create {δ : Type} (interactive : Bool) (m : δ) (bar : Bool) (gbs high : Option δ) :
    (∃ s, plotCreate none interactive (some m) bar gbs high = .ok s ∧
      s.layers = .map m :: (gbs.toList.map .bounds ++ high.toList.map .high) ∧
      s.bar = (if bar then some 0 else none) ∧ Spec.LayersKnown s) ∧
    plotCreate none interactive none true gbs high = .error .indexError := by
  constructor
  · cases bar <;> cases gbs <;> cases high <;>
      exact ⟨_, rfl, rfl, rfl, rfl, rfl⟩
  · rfl

/-- **C107 (false in an existing plot).** A map added to a plot that has layers, with a colour bar,
gets that of the first layer. -/
theorem C107_create_existing {δ : Type} (s : PlotState δ) (x : PlotLayer δ) (t : List (PlotLayer δ))
    (hs : s.layers = x :: t) (interactive : Bool) (m : δ) :
    ∃ s', plotCreate (some s) interactive (some m) true none none = .ok s' ∧
      s'.layers = x :: t ++ [.map m] ∧ s'.bar = some 0 ∧ s'.bar ≠ some (s'.layers.length - 1) := by
  refine ⟨{ s with layers := s.layers ++ [.map m], bar := some 0, bars := s.bars ++ [0] }, ?_, ?_,
    rfl, ?_⟩
  · simp [plotCreate, PlotState.addMap, PlotState.addBar, pyIndex, hs, Except.map]
    rfl
  · simp [hs]
  · simp [hs]

/-! ### C108: boundaries -/

/-- **C108 (lines).** A colour name known to matplotlib, or an RGBA tuple, colours all lines, if their
number is not four; a list of one value for each line gives each line its value; anything else is an
error. -/
theorem C108_lines (rgba : Str → Except Err (List ℚ)) (n : Nat) :
    (∀ s c, rgba s = .ok c → c.length = 4 → n ≠ 4 →
      boundaryLineColours rgba (some (.name s)) n = .ok (.one c)) ∧
    (∀ c, rgba (lit "white") = .ok c → c.length = 4 → n ≠ 4 →
      boundaryLineColours rgba none n = .ok (.one c)) ∧
    (∀ l : List ℚ, l.length = 4 → n ≠ 4 →
      boundaryLineColours rgba (some (.values l)) n = .ok (.one l)) ∧
    (∀ l : List ℚ, l.length = n → boundaryLineColours rgba (some (.values l)) n = .ok (.each l)) ∧
    (∀ l : List ℚ, l.length ≠ n → l.length ≠ 4 →
      boundaryLineColours rgba (some (.values l)) n = .error .unboundLocalError) ∧
    (∀ s e, rgba s = .error e → boundaryLineColours rgba (some (.name s)) n = .error e) := by
  refine ⟨?_, ?_, ?_, ?_, ?_, ?_⟩
  · intro s c h h4 hn
    show (rgba s).bind _ = _
    rw [h]
    show (if c.length = n then _ else if c.length = 4 then _ else _) = _
    rw [if_neg (by omega), if_pos h4]
  · intro c h h4 hn
    show (rgba (lit "white")).bind _ = _
    rw [h]
    show (if c.length = n then _ else if c.length = 4 then _ else _) = _
    rw [if_neg (by omega), if_pos h4]
  · intro l h4 hn
    show (if l.length = n then _ else if l.length = 4 then _ else _) = _
    rw [if_neg (by omega), if_pos h4]
  · intro l hl
    show (if l.length = n then _ else if l.length = 4 then _ else _) = _
    rw [if_pos hl]
  · intro l hl h4
    show (if l.length = n then _ else if l.length = 4 then _ else _) = _
    rw [if_neg hl, if_neg h4]
  · intro s e h
    show (rgba s).bind _ = _
    rw [h]
    rfl

/-- **C108 (false for four lines).** With exactly four lines every colour name and RGBA tuple is taken
as four values of the colour map, one for each line. -/
theorem C108_four_lines (rgba : Str → Except Err (List ℚ)) (s : Str) (c : List ℚ)
    (h : rgba s = .ok c) (h4 : c.length = 4) :
    boundaryLineColours rgba (some (.name s)) 4 = .ok (.each c) ∧
    boundaryLineColours rgba (some (.values c)) 4 = .ok (.each c) := by
  constructor
  · show (rgba s).bind _ = _
    rw [h]
    show (if c.length = 4 then _ else if c.length = 4 then _ else _) = _
    rw [if_pos h4]
  · show (if c.length = 4 then _ else if c.length = 4 then _ else _) = _
    rw [if_pos h4]

/-- A pixel is next to another of the map of `h` rows and `w` columns or is it itself. -/
def Spec.Near4 (h w : Nat) (y x y' x' : Int) : Prop :=
  0 ≤ y' ∧ y' < h ∧ 0 ≤ x' ∧ x' < w ∧
    (y' = y ∧ (x' = x ∨ x' = x - 1 ∨ x' = x + 1) ∨ x' = x ∧ (y' = y - 1 ∨ y' = y + 1))

/-- **C108 (pixels).** Boundary pixels are shown in the colour, white if none is given, all with the
same alpha 255/258; all other pixels of the map are left transparent. With `dilate` the boundary
pixels are those with a boundary point in them or in one of the four pixels next to them. -/
theorem C108_pixels (h w : Nat) (im : Img Bool) (colour : Option Str) (dilate : Bool) :
    (boundaryPixels h w im colour dilate).1 = colour.getD (lit "white") ∧
    ∀ y x : Int, 0 ≤ y → y < h → 0 ≤ x → x < w →
      ((dilate = false ∧ im y x = true ∨
        dilate = true ∧ ∃ y' x', Spec.Near4 h w y x y' x' ∧ im y' x' = true) →
        (boundaryPixels h w im colour dilate).2 y x = (1, 255 / 258)) ∧
      (¬ (dilate = false ∧ im y x = true ∨
        dilate = true ∧ ∃ y' x', Spec.Near4 h w y x y' x' ∧ im y' x' = true) →
        ((boundaryPixels h w im colour dilate).2 y x).2 = 0) := by
  refine ⟨rfl, fun y x hy0 hy hx0 hx => ?_⟩
  have hd : dilate4 h w im y x = true ↔ ∃ y' x', Spec.Near4 h w y x y' x' ∧ im y' x' = true := by
    simp only [dilate4, Bool.or_eq_true, Bool.and_eq_true, decide_eq_true_eq, Spec.Near4]
    constructor
    · rintro ((((h1 | ⟨h1, h2⟩) | ⟨h1, h2⟩) | ⟨h1, h2⟩) | ⟨h1, h2⟩)
      · exact ⟨y, x, ⟨hy0, hy, hx0, hx, Or.inl ⟨rfl, Or.inl rfl⟩⟩, h1⟩
      · exact ⟨y - 1, x, ⟨by omega, by omega, hx0, hx, Or.inr ⟨rfl, Or.inl rfl⟩⟩, h2⟩
      · exact ⟨y + 1, x, ⟨by omega, by omega, hx0, hx, Or.inr ⟨rfl, Or.inr rfl⟩⟩, h2⟩
      · exact ⟨y, x - 1, ⟨hy0, hy, by omega, by omega, Or.inl ⟨rfl, Or.inr (Or.inl rfl)⟩⟩, h2⟩
      · exact ⟨y, x + 1, ⟨hy0, hy, by omega, by omega, Or.inl ⟨rfl, Or.inr (Or.inr rfl)⟩⟩, h2⟩
    · rintro ⟨y', x', ⟨a, b, c, d, e⟩, hi⟩
      rcases e with ⟨rfl, rfl | rfl | rfl⟩ | ⟨rfl, rfl | rfl⟩
      · exact Or.inl (Or.inl (Or.inl (Or.inl hi)))
      · exact Or.inl (Or.inr ⟨by omega, hi⟩)
      · exact Or.inr ⟨by omega, hi⟩
      · exact Or.inl (Or.inl (Or.inl (Or.inr ⟨by omega, hi⟩)))
      · exact Or.inl (Or.inl (Or.inr ⟨by omega, hi⟩))
  have h1 : boundaryLut (lutIndex 0 1 256 1) = (1, 255 / 258) := by decide +kernel
  have h0 : (boundaryLut (lutIndex 0 1 256 0)).2 = 0 := by decide +kernel
  have key : ∀ b : Bool, (boundaryPixels h w im colour dilate).2 y x =
      boundaryLut (lutIndex 0 1 256 (if (if dilate then dilate4 h w im else im) y x then 1 else 0)) :=
    fun _ => rfl
  rw [← hd]
  constructor
  · intro hb
    rw [key true, ← h1]
    congr 2
    rcases hb with ⟨rfl, hb⟩ | ⟨rfl, hb⟩ <;> simp [hb]
  · intro hb
    rw [key true, ← h0]
    congr 3
    cases dilate
    · simpa using hb
    · simpa using hb

/-- **C108 (kind).** Only the kind `"line"` draws lines; `plot_gbs=True` and every other text draw
pixels. -/
theorem C108_kind (k : BoundKind) : k.isLine = true ↔ k = .text (lit "line") := by
  cases k with
  | true => simp [BoundKind.isLine]
  | text s => simp [BoundKind.isLine]

/-- **C108 (false for the boundary map).** The boundary map asks for black boundaries by a name which
is not a parameter: unless the caller gives `boundary_colour`, it draws them in white. -/
theorem C108_boundary_map (kwargs : List (Str × Str)) (h w : Nat) (im : Img Bool) :
    ((∀ kv ∈ kwargs, kv.1 ≠ lit "boundary_colour") →
      (boundaryPixels h w im (boundaryMapColour kwargs) false).1 = lit "white") ∧
    (∀ c, boundaryMapColour ((lit "boundary_colour", c) :: kwargs) = some c) := by
  have hne : (lit "boundary_colour" == lit "boundaryColour") = false := by decide
  have hf : ∀ (p : Str × Str → Bool) (l : List (Str × Str)),
      (([(lit "boundaryColour", lit "black")] : List (Str × Str)).filter p ++ l).lookup
        (lit "boundary_colour") = l.lookup (lit "boundary_colour") := by
    intro p l
    rw [List.filter_cons]
    split_ifs
    · simp [List.lookup_cons, hne]
    · rfl
  constructor
  · intro hk
    have : boundaryMapColour kwargs = none := by
      unfold boundaryMapColour
      rw [hf, List.lookup_eq_none_iff]
      intro kv hkv
      have := hk kv hkv
      simpa using Ne.symm this
    rw [this]
    rfl
  · intro c
    unfold boundaryMapColour
    rw [hf]
    simp [List.lookup_cons]

/-- **C108 (phase map).** The legend has an entry for points that are not indexed and one for each
phase, in order, with the colour its points have in the map; with fewer than 256 phases all of these
colours are different entries of the colour map. -/
theorem C108_phase_map (names : List Str) :
    (phaseLegend names).length = names.length + 1 ∧
    (phaseLegend names)[0]? = some (phaseLut names.length 0, lit "Non-indexed") ∧
    (∀ (p : Nat) s, names[p]? = some s →
      (phaseLegend names)[p + 1]? = some (phaseLut names.length (p + 1), s)) ∧
    (names.length < 256 → ∀ p q, p < q → q ≤ names.length →
      phaseLut names.length p < phaseLut names.length q) := by
  refine ⟨?_, ?_, ?_, ?_⟩
  · simp [phaseLegend]
  · simp [phaseLegend, List.range_succ_eq_map]
  · intro p s hp
    have hlt : p < names.length := (List.getElem?_eq_some_iff.1 hp).1
    simp only [phaseLegend, List.getElem?_zip_eq_some]
    refine ⟨?_, by simpa using hp⟩
    simp [hlt]
  · intro hn p q hpq hq
    generalize names.length = n at hn hq
    have hn0 : (0 : Int) ≠ n := by omega
    have hnpos : (0 : ℚ) < n := by
      have : 0 < n := by omega
      exact_mod_cast this
    have hnq : (n : ℚ) ≤ 255 := by
      have : n ≤ 255 := by omega
      exact_mod_cast this
    have hlut : ∀ r : Nat, phaseLut n r = if r = n then 255 else ⌊(r : ℚ) / n * 256⌋.toNat := by
      intro r
      unfold phaseLut lutIndex
      rw [if_neg hn0]
      simp only [Int.cast_zero, Int.cast_natCast, sub_zero, Nat.cast_ofNat]
      by_cases h : r = n
      · rw [if_pos h, if_pos]
        subst h
        field_simp
      · rw [if_neg h, if_neg]
        intro h'
        have : (r : ℚ) = n := by
          field_simp at h'
          linarith
        exact h (by exact_mod_cast this)
    have hp0 : (0 : ℚ) ≤ (p : ℚ) / n * 256 := by positivity
    have hstep : (p : ℚ) / n * 256 + 1 < (q : ℚ) / n * 256 := by
      have hle : (p : ℚ) + 1 ≤ q := by exact_mod_cast hpq
      have h1 : (q : ℚ) / n * 256 = (p : ℚ) / n * 256 + ((q : ℚ) - p) * 256 / n := by
        field_simp
        ring
      rw [h1]
      have : 1 < ((q : ℚ) - p) * 256 / n := by
        rw [lt_div_iff₀ hnpos]
        linarith
      linarith
    have hfl : 0 ≤ ⌊(p : ℚ) / n * 256⌋ := Int.floor_nonneg.2 hp0
    have hfp := Int.floor_le ((p : ℚ) / n * 256)
    rw [hlut, hlut, if_neg (by omega : p ≠ n)]
    split_ifs with hqn
    · have hq1 : (q : ℚ) / n * 256 = 256 := by
        rw [hqn]
        field_simp
      have : (⌊(p : ℚ) / n * 256⌋ : ℚ) < 255 := by linarith
      have : ⌊(p : ℚ) / n * 256⌋ < 255 := by exact_mod_cast this
      omega
    · have : ⌊(p : ℚ) / n * 256⌋ + 1 ≤ ⌊(q : ℚ) / n * 256⌋ := by
        rw [Int.le_floor]
        push_cast
        linarith
      omega

example : ([lit "Ti", lit "Mg"] : List Str).length < 256 := by decide

end DefDAP
