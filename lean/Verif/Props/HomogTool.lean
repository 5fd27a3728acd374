import Verif.Model.HomogTool
import Verif.Proofs.GrainData
import Verif.Proofs.Text

/-! # C94: the homologous point tool, and clicking on maps -/

namespace DefDAP

/-- A click that selects: on the map, with the right button, or the left one with shift held. -/
def Spec.Selects (inAxes : Bool) (button : Nat) (key : Option Str) : Prop :=
  inAxes = true ∧ (button = 3 ∨ (button = 1 ∧ key = some (lit "shift")))

/-- The step of a key: one pixel for an arrow key, ten with shift, and one with any other
modifiers. Other keys do nothing. -/
inductive Spec.Arrow : Str → ℚ × ℚ → Prop
  | plain {d v} : (d, v) ∈ [(lit "left", ((-1 : ℚ), (0 : ℚ))), (lit "right", (1, 0)),
      (lit "up", (0, -1)), (lit "down", (0, 1))] → Spec.Arrow d v
  | shift {d v} : (d, v) ∈ [(lit "left", ((-10 : ℚ), (0 : ℚ))), (lit "right", (10, 0)),
      (lit "up", (0, -10)), (lit "down", (0, 10))] → Spec.Arrow (lit "shift+" ++ d) v
  | other {m d v} : m ≠ lit "shift" → (d, v) ∈ [(lit "left", ((-1 : ℚ), (0 : ℚ))),
      (lit "right", (1, 0)), (lit "up", (0, -1)), (lit "down", (0, 1))] →
      Spec.Arrow (m ++ '+' :: d) v

/-- The selected point after a session, told by its history: the last point clicked since the last
save, moved by the arrow keys pressed after it. -/
inductive Spec.Selected : List HomogEvent → Option (ℚ × ℚ) → Prop
  | start : Spec.Selected [] none
  | click {es a b k x y} : Spec.Selects a b k → -1 < x → -1 < y →
      Spec.Selected (es ++ [.click a b k x y]) (some ((max ⌊x⌋ 0 : Int), (max ⌊y⌋ 0 : Int)))
  | noclick {es a b k x y s} : ¬ Spec.Selects a b k → Spec.Selected es s →
      Spec.Selected (es ++ [.click a b k x y]) s
  | arrow {es k v s} : Spec.Arrow k v → Spec.Selected es s →
      Spec.Selected (es ++ [.key (some k)]) (s.map fun p => (p.1 + v.1, p.2 + v.2))
  | nokey {es k s} : (∀ k' v, k = some k' → ¬ Spec.Arrow k' v) → Spec.Selected es s →
      Spec.Selected (es ++ [.key k]) s
  | save {es} : Spec.Selected (es ++ [.save]) none

theorem homogRun_snoc (b : ℚ) (st : HomogSt) (es : List HomogEvent) (e : HomogEvent) :
    homogRun b st (es ++ [e]) = (homogStep b (homogRun b st es) e).2 := by
  simp [homogRun]

theorem homogClick_spec (st : HomogSt) (a : Bool) (b : Nat) (k : Option Str) (x y : ℚ) :
    (Spec.Selects a b k → homogClick st a b k x y =
      { st with sel := some ((truncInt x : ℚ), (truncInt y : ℚ)) }) ∧
    (¬ Spec.Selects a b k → homogClick st a b k x y = st) := by
  unfold homogClick Spec.Selects
  cases a with
  | false => simp
  | true =>
    refine ⟨fun h => ?_, fun h => ?_⟩
    · rw [if_neg (by simp), if_pos h.2]
    · rw [if_neg (by simp), if_neg fun h' => h ⟨rfl, h'⟩]

/-! ### Keys -/

theorem splitSep_last (a b : Str) (hb : '+' ∉ b) :
    splitSep '+' (a ++ '+' :: b) = splitSep '+' a ++ [b] := by
  unfold splitSep
  rw [splitWhen_append _ _ _ (by simp)]
  have := splitSep_one hb
  unfold splitSep at this
  rw [this]

theorem splitSep_cases (s : Str) : '+' ∉ s ∨ ∃ a b, s = a ++ '+' :: b ∧ '+' ∉ b := by
  by_cases h : '+' ∈ s
  · right
    have hr : '+' ∈ s.reverse := by simpa using h
    obtain ⟨p, q, e, hp⟩ := List.eq_append_cons_of_mem hr
    refine ⟨q.reverse, p.reverse, ?_, by simpa using hp⟩
    have := congrArg List.reverse e
    simpa using this
  · exact .inl h

/-- The unit steps. -/
def unitArrows : List (Str × (ℚ × ℚ)) := [(lit "left", (-1, 0)), (lit "right", (1, 0)),
  (lit "up", (0, -1)), (lit "down", (0, 1))]

theorem keyDir_iff (d : Str) (v : ℚ × ℚ) : keyDir d = some v ↔ (d, v) ∈ unitArrows := by
  unfold keyDir unitArrows
  simp only [List.mem_cons, Prod.mk.injEq, List.not_mem_nil, or_false]
  by_cases h1 : d = lit "left"
  · subst h1
    have : ¬ lit "left" = lit "right" ∧ ¬ lit "left" = lit "up" ∧ ¬ lit "left" = lit "down" := by decide
    simp [this, eq_comm]
  · rw [if_neg h1]
    by_cases h2 : d = lit "right"
    · subst h2
      have : ¬ lit "right" = lit "left" ∧ ¬ lit "right" = lit "up" ∧ ¬ lit "right" = lit "down" := by decide
      simp [this, eq_comm]
    · rw [if_neg h2]
      by_cases h3 : d = lit "up"
      · subst h3
        have : ¬ lit "up" = lit "left" ∧ ¬ lit "up" = lit "right" ∧ ¬ lit "up" = lit "down" := by decide
        simp [this, eq_comm]
      · rw [if_neg h3]
        by_cases h4 : d = lit "down"
        · subst h4
          have : ¬ lit "down" = lit "left" ∧ ¬ lit "down" = lit "right" ∧ ¬ lit "down" = lit "up" := by
            decide
          simp [this, eq_comm]
        · simp [h1, h2, h3, h4]

theorem arrow_noPlus {d : Str} {v : ℚ × ℚ} (h : (d, v) ∈ unitArrows) : '+' ∉ d := by
  unfold unitArrows at h
  simp only [List.mem_cons, Prod.mk.injEq, List.not_mem_nil, or_false] at h
  rcases h with ⟨rfl, -⟩ | ⟨rfl, -⟩ | ⟨rfl, -⟩ | ⟨rfl, -⟩ <;> decide

/-- What a key does to the selected point. -/
def keyStep (k : Str) : Option (ℚ × ℚ) :=
  (keyDir ((splitSep '+' k).getLastD [])).map fun d =>
    (d.1 * keyMove (splitSep '+' k), d.2 * keyMove (splitSep '+' k))

theorem homogMove_eq (st : HomogSt) (k : Str) : homogMove st k =
    match keyStep k with
    | none => st
    | some v => { st with sel := st.sel.map fun p => (p.1 + v.1, p.2 + v.2) } := by
  unfold homogMove keyStep
  simp only
  cases keyDir ((splitSep '+' k).getLastD []) <;> rfl

theorem ten_arrows {d : Str} {v : ℚ × ℚ} : (d, v) ∈ [(lit "left", ((-10 : ℚ), (0 : ℚ))),
    (lit "right", (10, 0)), (lit "up", (0, -10)), (lit "down", (0, 10))] ↔
    ∃ u, (d, u) ∈ unitArrows ∧ v = (u.1 * 10, u.2 * 10) := by
  unfold unitArrows
  simp only [List.mem_cons, Prod.mk.injEq, List.not_mem_nil, or_false]
  constructor
  · rintro (⟨rfl, rfl⟩ | ⟨rfl, rfl⟩ | ⟨rfl, rfl⟩ | ⟨rfl, rfl⟩)
    · exact ⟨(-1, 0), by simp, by norm_num⟩
    · exact ⟨(1, 0), by simp, by norm_num⟩
    · exact ⟨(0, -1), by simp, by norm_num⟩
    · exact ⟨(0, 1), by simp, by norm_num⟩
  · rintro ⟨u, ⟨rfl, rfl⟩ | ⟨rfl, rfl⟩ | ⟨rfl, rfl⟩ | ⟨rfl, rfl⟩, rfl⟩ <;> norm_num

theorem keyStep_spec (k : Str) (v : ℚ × ℚ) : keyStep k = some v ↔ Spec.Arrow k v := by
  have one : ∀ u : ℚ × ℚ, (u.1 * 1, u.2 * 1) = u := fun u => by simp
  constructor
  · intro h
    unfold keyStep at h
    obtain ⟨u, hu, hv⟩ := Option.map_eq_some_iff.1 h
    rw [keyDir_iff] at hu
    rcases splitSep_cases k with hk | ⟨a, b, rfl, hb⟩
    · rw [splitSep_one hk] at hu hv
      simp only [List.getLastD_cons, List.getLastD_nil] at hu
      have : keyMove [k] = 1 := by simp [keyMove]
      rw [this, one] at hv
      exact .plain (hv ▸ hu)
    · rw [splitSep_last a b hb] at hu hv
      simp only [List.getLastD_concat] at hu
      by_cases ha : a = lit "shift"
      · subst ha
        have : keyMove (splitSep '+' (lit "shift") ++ [b]) = 10 := by
          rw [splitSep_one (by decide)]; simp [keyMove]
        rw [this] at hv
        exact .shift (ten_arrows.2 ⟨u, hu, hv.symm⟩)
      · have : keyMove (splitSep '+' a ++ [b]) = 1 := by
          unfold keyMove
          rw [if_neg]
          rintro ⟨hl, h0⟩
          rw [List.length_append, splitSep_length] at hl
          have hc : a.count '+' = 0 := by simp at hl; omega
          rw [splitSep_one (List.count_eq_zero.1 hc)] at h0
          simp at h0
          exact ha h0
        rw [this, one] at hv
        exact .other ha (hv ▸ hu)
  · intro h
    unfold keyStep
    cases h with
    | plain h =>
      have hd := arrow_noPlus h
      rw [splitSep_one hd, List.getLastD_cons, List.getLastD_nil, (keyDir_iff _ v).2 h]
      simp [keyMove]
    | @shift d v h =>
      obtain ⟨u, hu, rfl⟩ := ten_arrows.1 h
      have hd := arrow_noPlus hu
      have : lit "shift+" ++ d = lit "shift" ++ '+' :: d := rfl
      rw [this, splitSep_last _ _ hd, List.getLastD_concat, (keyDir_iff _ _).2 hu,
        splitSep_one (by decide)]
      simp [keyMove]
    | @other m d v hm h =>
      have hd := arrow_noPlus h
      rw [splitSep_last _ _ hd, List.getLastD_concat, (keyDir_iff _ _).2 h]
      have : keyMove (splitSep '+' m ++ [d]) = 1 := by
        unfold keyMove
        rw [if_neg]
        rintro ⟨hl, h0⟩
        rw [List.length_append, splitSep_length] at hl
        have hc : m.count '+' = 0 := by simp at hl; omega
        rw [splitSep_one (List.count_eq_zero.1 hc)] at h0
        simp at h0
        exact hm h0
      simp [this]

/-! ### Sessions -/

theorem truncInt_max {x : ℚ} (h : -1 < x) : truncInt x = max ⌊x⌋ 0 := by
  unfold truncInt
  split
  · rename_i h0
    rw [max_eq_left (Int.floor_nonneg.2 h0)]
  · rename_i h0
    push Not at h0
    have : ⌊x⌋ < 0 := Int.floor_lt.2 (by simpa using h0)
    rw [max_eq_right this.le, Int.ceil_eq_iff]
    exact ⟨by simpa using h, by simpa using h0.le⟩

/-- **C94**: in every session, at every moment: the selected point is the last one clicked since the
last save, moved by the arrow keys since; for clicks on the map, which is drawn from -1/2. -/
theorem C94_selected (binning : ℚ) (points : PointStore) {es : List HomogEvent} {s : Option (ℚ × ℚ)}
    (h : Spec.Selected es s) : (homogRun binning (homogOpen binning points) es).sel = s := by
  induction h with
  | start => rfl
  | click hs hx hy =>
    rw [homogRun_snoc, homogStep, (homogClick_spec _ _ _ _ _ _).1 hs]
    rw [truncInt_max hx, truncInt_max hy]
  | noclick hs _ ih => rw [homogRun_snoc, homogStep, (homogClick_spec _ _ _ _ _ _).2 hs, ih]
  | @arrow es k v s hk _ ih =>
    rw [homogRun_snoc, homogStep, homogMove_eq, (keyStep_spec _ _).2 hk]
    simp [ih]
  | @nokey es k s hk _ ih =>
    rw [homogRun_snoc]
    cases k with
    | none => exact ih
    | some k =>
      rw [homogStep, homogMove_eq]
      cases hv : keyStep k with
      | none => exact ih
      | some v => exact absurd ((keyStep_spec _ _).1 hv) (hk k v rfl)
  | @save es =>
    rw [homogRun_snoc, homogStep, homogSave]
    cases hs : (homogRun binning (homogOpen binning points) es).sel with
    | none => exact hs
    | some p =>
      simp only
      cases (homogRun binning (homogOpen binning points) es).points.append
        (roundEven (p.1 / binning), roundEven (p.2 / binning)) <;> rfl

/-- The points saved in a session: for each save with a point selected, that point over the binning,
rounded. -/
inductive Spec.Saved (binning : ℚ) : List HomogEvent → List (Int × Int) → Prop
  | start : Spec.Saved binning [] []
  | other {es e l} : e ≠ .save → Spec.Saved binning es l → Spec.Saved binning (es ++ [e]) l
  | nothing {es l} : Spec.Selected es none → Spec.Saved binning es l →
      Spec.Saved binning (es ++ [.save]) l
  | save {es l p q} : Spec.Selected es (some p) → Spec.Saved binning es l →
      q = (roundEven (p.1 / binning), roundEven (p.2 / binning)) →
      Spec.Saved binning (es ++ [.save]) (l ++ [q])

theorem homogClick_points (st : HomogSt) (a : Bool) (b : Nat) (k : Option Str) (x y : ℚ) :
    (homogClick st a b k x y).points = st.points ∧ (homogClick st a b k x y).shown = st.shown := by
  unfold homogClick
  split
  · simp
  · split <;> simp

theorem homogMove_points (st : HomogSt) (k : Str) :
    (homogMove st k).points = st.points ∧ (homogMove st k).shown = st.shown := by
  rw [homogMove_eq]
  split <;> simp

/-- **C94**: in every session of a frame whose points are a list, the points are the ones it had,
followed by the saved ones in order, and the ones drawn are these times the binning. -/
theorem C94_saved (binning : ℚ) (l0 : List (Int × Int)) {es : List HomogEvent} {l : List (Int × Int)}
    (h : Spec.Saved binning es l) :
    (homogRun binning (homogOpen binning (.list l0)) es).points = .list (l0 ++ l) ∧
    (homogRun binning (homogOpen binning (.list l0)) es).shown =
      (l0 ++ l).map fun p => (p.1 * binning, p.2 * binning) := by
  induction h with
  | start => simp [homogRun, homogOpen, drawn, PointStore.pts]
  | @other es e l he _ ih =>
    rw [homogRun_snoc]
    cases e with
    | click a b k x y =>
      rw [homogStep]
      simp only [homogClick_points]
      exact ih
    | key k =>
      cases k with
      | none => exact ih
      | some k =>
        rw [homogStep]
        simp only [homogMove_points]
        exact ih
    | save => exact absurd rfl he
  | nothing hs _ ih =>
    rw [homogRun_snoc, homogStep, homogSave, C94_selected binning _ hs]
    exact ih
  | save hs _ hq ih =>
    rw [homogRun_snoc, homogStep, homogSave, C94_selected binning _ hs]
    simp only
    rw [ih.1]
    simp only [PointStore.append, ← hq, PointStore.pts, drawn, List.append_assoc, and_self]

/-- **C94**: no event ever changes or removes a saved point. -/
theorem C94_append_only (binning : ℚ) (l0 : List (Int × Int)) (es es' : List HomogEvent) :
    ∃ l l', (homogRun binning (homogOpen binning (.list l0)) es).points = .list l ∧
      (homogRun binning (homogOpen binning (.list l0)) (es ++ es')).points = .list (l ++ l') := by
  have step : ∀ (st : HomogSt) (l : List (Int × Int)) (e : HomogEvent), st.points = .list l →
      ∃ l', (homogStep binning st e).2.points = .list (l ++ l') := by
    intro st l e h
    cases e with
    | click a b k x y => exact ⟨[], by rw [homogStep]; simp [homogClick_points, h]⟩
    | key k =>
      cases k with
      | none => exact ⟨[], by simpa [homogStep] using h⟩
      | some k => exact ⟨[], by rw [homogStep]; simp [homogMove_points, h]⟩
    | save =>
      unfold homogStep homogSave
      cases st.sel with
      | none => exact ⟨[], by simpa using h⟩
      | some p =>
        exact ⟨[(roundEven (p.1 / binning), roundEven (p.2 / binning))], by simp only [h, PointStore.append]⟩
  have run : ∀ (es : List HomogEvent) (st : HomogSt) (l : List (Int × Int)), st.points = .list l →
      ∃ l', (homogRun binning st es).points = .list (l ++ l') := by
    intro es
    induction es with
    | nil => intro st l h; exact ⟨[], by simpa [homogRun] using h⟩
    | cons e t ih =>
      intro st l h
      obtain ⟨l', h'⟩ := step st l e h
      obtain ⟨l'', h''⟩ := ih _ _ h'
      exact ⟨l' ++ l'', by rw [← List.append_assoc]; exact h''⟩
  obtain ⟨l, hl⟩ := run es (homogOpen binning (.list l0)) l0 rfl
  obtain ⟨l', hl'⟩ := run es' _ _ hl
  refine ⟨l0 ++ l, l', hl, ?_⟩
  rw [← hl']
  simp [homogRun]

/-- **C94**: a saved point is drawn within half the binning of the point selected, and exactly there
if the coordinates are multiples of the binning, as for binning 1. -/
theorem C94_close (binning : ℚ) (hb : 0 < binning) (p : ℚ) :
    |roundEven (p / binning) * binning - p| ≤ binning / 2 ∧
    (∀ z : Int, p = z * binning → roundEven (p / binning) * binning = p) := by
  refine ⟨?_, ?_⟩
  · have h := roundEven_close (p / binning)
    have e : (roundEven (p / binning) : ℚ) * binning - p =
        ((roundEven (p / binning) : ℚ) - p / binning) * binning := by
      rw [sub_mul, div_mul_cancel₀ _ hb.ne']
    rw [e, abs_mul, abs_of_pos hb]
    calc _ ≤ 1 / 2 * binning := mul_le_mul_of_nonneg_right h hb.le
      _ = binning / 2 := by ring
  · rintro z rfl
    rw [mul_div_cancel_right₀ _ hb.ne', roundEven_int]

/-- **C94** fails for points set as an array, which `set_homog_points` is documented to take: saving
is an error, nothing is stored, and the selected point is lost. -/
theorem C94_array (binning : ℚ) (st : HomogSt) (l : List (Int × Int)) (p : ℚ × ℚ)
    (ha : st.points = .array l) (hs : st.sel = some p) :
    (homogStep binning st .save).1 = .error .attributeError ∧
    (homogStep binning st .save).2.points = .array l ∧ (homogStep binning st .save).2.sel = none := by
  unfold homogStep homogSave
  simp [hs, ha, PointStore.append]

/-! ### The pixel under the cursor -/

/-- The pixel a position is in, as the map is drawn: pixel `n` is drawn from `n - 1/2` up to
`n + 1/2`. -/
def Spec.DrawnIn (x : ℚ) (n : Int) : Prop := (n : ℚ) - 1 / 2 ≤ x ∧ x < n + 1 / 2

/-- **C94**: a click takes the pixel it is drawn in exactly when it is in the right half of it (or in
the left half of the first pixel): in the left half of any other pixel, it takes the one before. -/
theorem C94_pixel {x : ℚ} {n : Int} (hn : 0 ≤ n) (h : Spec.DrawnIn x n) :
    (truncInt x = n ↔ (n : ℚ) ≤ x ∨ n = 0) ∧ (¬ (n : ℚ) ≤ x → n ≠ 0 → truncInt x = n - 1) := by
  obtain ⟨h1, h2⟩ := h
  have hn' : (0 : ℚ) ≤ n := by exact_mod_cast hn
  by_cases hx : (n : ℚ) ≤ x
  · have : truncInt x = n := by
      unfold truncInt
      rw [if_pos (by linarith), Int.floor_eq_iff]
      exact ⟨hx, by linarith⟩
    exact ⟨⟨fun _ => .inl hx, fun _ => this⟩, fun h => absurd hx h⟩
  · by_cases h0 : n = 0
    · subst h0
      have : truncInt x = 0 := by
        unfold truncInt
        rw [if_neg (by simpa using hx), Int.ceil_eq_iff]
        push Not at hx
        simp only [Int.cast_zero] at h1 h2 hx ⊢
        exact ⟨by linarith, by linarith⟩
      exact ⟨⟨fun _ => .inr rfl, fun _ => this⟩, fun _ h => absurd rfl h⟩
    · have hn1 : (1 : ℚ) ≤ n := by
        have : 1 ≤ n := by omega
        exact_mod_cast this
      have : truncInt x = n - 1 := by
        unfold truncInt
        rw [if_pos (by linarith), Int.floor_eq_iff]
        push_cast
        push Not at hx
        exact ⟨by linarith, by linarith⟩
      refine ⟨⟨fun e => by omega, ?_⟩, fun _ _ => this⟩
      rintro (h | h)
      · exact absurd h hx
      · exact absurd h h0

/-- **C94**: clicking on a map selects the grain of the pixel taken: nothing outside of the map or
on a pixel without a grain. A click anywhere on the map as drawn is never out of range. -/
theorem C94_grain {h w : Nat} {grains : Img Int} {x y : ℚ} {i j : Int} (hx : Spec.DrawnIn x i)
    (hy : Spec.DrawnIn y j) (hi : 0 ≤ i ∧ i < w) (hj : 0 ≤ j ∧ j < h) :
    clickMapGrain h w grains false x y = .ok none ∧
    ∃ i' j', (i' = i ∨ i' = i - 1) ∧ (j' = j ∨ j' = j - 1) ∧ 0 ≤ i' ∧ 0 ≤ j' ∧
      ((i : ℚ) ≤ x → i' = i) ∧ ((j : ℚ) ≤ y → j' = j) ∧
      clickMapGrain h w grains true x y =
        .ok (if 1 ≤ grains j' i' then some (grains j' i' - 1) else none) := by
  have cases' : ∀ {x : ℚ} {n : Int}, 0 ≤ n → Spec.DrawnIn x n →
      (truncInt x = n ∨ truncInt x = n - 1) ∧ 0 ≤ truncInt x ∧ ((n : ℚ) ≤ x → truncInt x = n) := by
    intro x n hn h
    have H := C94_pixel hn h
    by_cases h1 : (n : ℚ) ≤ x ∨ n = 0
    · have := H.1.2 h1
      exact ⟨.inl this, by omega, fun _ => this⟩
    · push Not at h1
      have := H.2 (not_le.2 h1.1) h1.2
      exact ⟨.inr this, by omega, fun h => absurd h (not_le.2 h1.1)⟩
  obtain ⟨a1, a2, a3⟩ := cases' hi.1 hx
  obtain ⟨b1, b2, b3⟩ := cases' hj.1 hy
  refine ⟨rfl, truncInt x, truncInt y, a1, b1, a2, b2, a3, b3, ?_⟩
  unfold clickMapGrain
  have hr : npRead h w grains (truncInt x, truncInt y) = .ok (grains (truncInt y) (truncInt x)) := by
    unfold npRead npIdx
    simp only
    rw [if_pos ⟨b2, by omega⟩, if_pos ⟨a2, by omega⟩]
    rfl
  simp only [Bool.not_true, Bool.false_eq_true, if_false, hr, Except.bind]
  congr 1
  by_cases hg : 1 ≤ grains (truncInt y) (truncInt x)
  · rw [if_neg (by omega), if_pos hg]
  · rw [if_pos (by omega), if_neg hg]

/-- A session: right click at (20.7, 9.2), ten to the right and one up, save, with binning 2: the
point (15, 4) is stored. -/
example : Spec.Saved 2 ([] ++ [.click true 3 none (207 / 10) (92 / 10)] ++ [.key (some (lit "shift+right"))]
    ++ [.key (some (lit "up"))] ++ [.save]) ([] ++ [(15, 4)]) := by
  refine .save (p := (30, 8)) ?_ (.other (by simp) (.other (by simp) (.other (by simp) .start))) ?_
  · have h : Spec.Selected ([] ++ [.click true 3 none (207 / 10) (92 / 10)])
        (some (((max ⌊(207 / 10 : ℚ)⌋ 0 : Int) : ℚ), ((max ⌊(92 / 10 : ℚ)⌋ 0 : Int) : ℚ))) :=
      .click ⟨rfl, .inl rfl⟩ (by norm_num) (by norm_num)
    have h2 := Spec.Selected.arrow (.shift (d := lit "right") (v := (10, 0)) (by simp)) h
    have h3 := Spec.Selected.arrow (.plain (d := lit "up") (v := (0, -1)) (by simp)) h2
    have e : (some ((30 : ℚ), (8 : ℚ))) = (Option.map (fun p : ℚ × ℚ => (p.1 + 0, p.2 + -1))
        (Option.map (fun p : ℚ × ℚ => (p.1 + 10, p.2 + 0))
          (some (((max ⌊(207 / 10 : ℚ)⌋ 0 : Int) : ℚ), ((max ⌊(92 / 10 : ℚ)⌋ 0 : Int) : ℚ))))) := by
      have h1 : ⌊(207 / 10 : ℚ)⌋ = 20 := by rw [Int.floor_eq_iff]; norm_num
      have h2 : ⌊(92 / 10 : ℚ)⌋ = 9 := by rw [Int.floor_eq_iff]; norm_num
      rw [h1, h2]; norm_num
    rw [e]
    exact h3
  · have h1 := roundEven_int 15
    have h2 := roundEven_int 4
    push_cast at h1 h2
    norm_num [h1, h2]

/-- A click in the left half of pixel 3. -/
example : Spec.DrawnIn (27 / 10) 3 ∧ ¬ ((3 : Int) : ℚ) ≤ 27 / 10 := by
  unfold Spec.DrawnIn; norm_num

end DefDAP
