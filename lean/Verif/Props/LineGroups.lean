import Verif.Proofs.Inspector
import Verif.Props.SlipLine

/-! C74: the groups of slip lines. -/

namespace DefDAP

/-! ### Specification -/

/-- The angles of the lines of a group. -/
def Spec.angles (lines : List SlipLine) (g : Int) : List ℚ :=
  (lines.filter fun l => decide (l.group = g)).map SlipLine.angle

/-- The mean of a list, rounded to two decimals. -/
def Spec.roundedMean (l : List ℚ) : ℚ := round2 (l.sum / l.length)

/-- Groups as the user expects them: numbered from 0 in order, none empty, every line in one of
them. -/
def Spec.GoodGroups (st : LineState) : Prop :=
  (∀ (m : Nat) (g : SlipGroup), st.groups[m]? = some g → g.id = m) ∧
  (∀ g ∈ st.groups, ∃ l ∈ st.lines, l.group = g.id) ∧
  (∀ l ∈ st.lines, ∃ g ∈ st.groups, g.id = l.group)

/-! ### Proofs -/

theorem activePlanes_id (traces : List ℝ) (g : SlipGroup) : (activePlanes traces g).id = g.id := rfl
theorem activePlanes_angle (traces : List ℝ) (g : SlipGroup) :
    (activePlanes traces g).angle = g.angle := rfl
theorem activePlanes_rdr (traces : List ℝ) (g : SlipGroup) :
    (activePlanes traces g).rdr = g.rdr := rfl

theorem groupLines_nil (traces : List ℝ) (st : LineState) (h : st.lines = []) :
    groupLines traces st = ⟨[], []⟩ := by
  unfold groupLines
  rw [if_pos h, h]

theorem groupLines_cons (traces : List ℝ) (st : LineState) (h : st.lines ≠ []) :
    groupLines traces st = ⟨(groupLoop st.lines st.groups).lines,
      (groupLoop st.lines st.groups).groups.map (activePlanes traces)⟩ := by
  unfold groupLines
  rw [if_neg h]

/-- **C74**: after grouping, the groups are numbered from 0, none is empty, and every line belongs
to one; lines keep their points, angles and order. This holds whatever was stored before. -/
theorem C74_groups (traces : List ℝ) (st : LineState) :
    Spec.GoodGroups (groupLines traces st) ∧
    (groupLines traces st).lines.map (fun l => (l.points, l.angle)) =
      st.lines.map fun l => (l.points, l.angle) := by
  by_cases h : st.lines = []
  · rw [groupLines_nil _ _ h, h]
    exact ⟨⟨by simp, by simp, by simp⟩, rfl⟩
  · have hg := groupLoop_grouped st.groups h
    rw [groupLines_cons _ _ h]
    refine ⟨⟨?_, ?_, ?_⟩, hg.same⟩
    · intro m g hm
      simp only [List.getElem?_map, Option.map_eq_some_iff] at hm
      obtain ⟨x, hx, rfl⟩ := hm
      exact hg.ids m x hx
    · intro g hgm
      obtain ⟨x, hx, rfl⟩ := List.mem_map.mp hgm
      obtain ⟨m, hm⟩ := List.mem_iff_getElem?.mp hx
      obtain ⟨t, l, _, hl, hlg, _⟩ := hg.mean m x hm
      exact ⟨l, List.mem_of_getElem? hl, by rw [hlg, activePlanes_id, hg.ids m x hm]⟩
    · intro l hl
      obtain ⟨j, hj⟩ := List.mem_iff_getElem?.mp hl
      have hjl : j < st.lines.length := by
        rw [← grouped_length hg]
        exact (List.getElem?_eq_some_iff.mp hj).1
      obtain ⟨h0, h1⟩ := hg.member j l hjl hj
      have hlt : l.group.toNat < (groupLoop st.lines st.groups).groups.length := by omega
      refine ⟨_, List.mem_map_of_mem (List.getElem_mem hlt), ?_⟩
      rw [activePlanes_id, hg.ids _ _ (List.getElem?_eq_getElem hlt)]
      omega

/-- **C74**: if no line changes from one group to another, every group has the mean of the angles of
its lines, rounded to two decimals. New lines, which are in no group before, may join any. -/
theorem C74_mean (traces : List ℝ) (st : LineState)
    (hround : ∀ l ∈ st.lines, round2 l.angle = l.angle)
    (hkeep : ∀ (j : Nat) (l l' : SlipLine), st.lines[j]? = some l →
      (groupLines traces st).lines[j]? = some l' → l.group = -1 ∨ l.group = l'.group) :
    ∀ g ∈ (groupLines traces st).groups,
      g.angle = Spec.roundedMean (Spec.angles (groupLines traces st).lines g.id) := by
  by_cases h : st.lines = []
  · rw [groupLines_nil _ _ h]
    simp
  · have hg := groupLoop_grouped st.groups h
    have hlen := grouped_length hg
    rw [groupLines_cons _ _ h] at hkeep ⊢
    set v := groupLoop st.lines st.groups with hv
    simp only at hkeep ⊢
    intro g hgm
    obtain ⟨x, hx, rfl⟩ := List.mem_map.mp hgm
    obtain ⟨m, hm⟩ := List.mem_iff_getElem?.mp hx
    rw [activePlanes_id, activePlanes_angle, hg.ids m x hm]
    obtain ⟨t, l, ht, hl, hlg, hlast, hmean⟩ := hg.mean m x hm
    rcases hmean with ⟨ha, honly⟩ | ha
    · -- the only line
      have hfilter : Spec.angles v.lines m = [l.angle] := by
        unfold Spec.angles
        have hsplit : v.lines = v.lines.take t ++ l :: v.lines.drop (t + 1) := by
          obtain ⟨htl, he⟩ := List.getElem?_eq_some_iff.mp hl
          rw [← he, List.getElem_cons_drop, List.take_append_drop]
        have h1 : (v.lines.take t).filter (fun l => decide (l.group = (m : Int))) = [] := by
          rw [List.filter_eq_nil_iff]
          intro y hy hym
          obtain ⟨j, hj⟩ := List.mem_iff_getElem?.mp hy
          have hjt : j < t := by
            by_contra hc
            rw [List.getElem?_take_eq_none (by omega)] at hj
            exact absurd hj (by simp)
          rw [List.getElem?_take_of_lt hjt] at hj
          have := honly j y (by omega) hj (of_decide_eq_true hym)
          omega
        have h2 : (v.lines.drop (t + 1)).filter (fun l => decide (l.group = (m : Int))) = [] := by
          rw [List.filter_eq_nil_iff]
          intro y hy hym
          obtain ⟨j, hj⟩ := List.mem_iff_getElem?.mp hy
          rw [List.getElem?_drop] at hj
          have hjl := (List.getElem?_eq_some_iff.mp hj).1
          have := honly _ y (by omega) hj (of_decide_eq_true hym)
          omega
        rw [hsplit, List.filter_append, List.filter_cons, h1, h2,
          if_pos (decide_eq_true hlg)]
        rfl
      have hmem : ∃ l0 ∈ st.lines, l0.angle = l.angle := by
        have h1 : (v.lines.map fun l => (l.points, l.angle))[t]? = some (l.points, l.angle) := by
          rw [List.getElem?_map, hl]; rfl
        rw [hg.same, List.getElem?_map, Option.map_eq_some_iff] at h1
        obtain ⟨l0, h0, e⟩ := h1
        exact ⟨l0, List.mem_of_getElem? h0, (Prod.mk.inj e).2⟩
      obtain ⟨l0, h0, e0⟩ := hmem
      rw [hfilter, ha]
      unfold Spec.roundedMean
      simp only [List.sum_cons, List.sum_nil, List.length_singleton, Nat.cast_one, add_zero,
        div_one]
      rw [← e0, hround l0 h0]
    · -- several lines: the marks after the last one do not name the group
      rw [ha]
      unfold Spec.roundedMean Spec.angles groupMean
      have e : (v.lines.take (t + 1) ++ st.lines.drop (t + 1)).filter
          (fun l => decide (l.group = (m : Int))) =
          v.lines.filter fun l => decide (l.group = (m : Int)) := by
        conv_rhs => rw [← List.take_append_drop (t + 1) v.lines]
        rw [List.filter_append, List.filter_append]
        congr 1
        have h1 : (st.lines.drop (t + 1)).filter (fun l => decide (l.group = (m : Int))) = [] := by
          rw [List.filter_eq_nil_iff]
          intro y hy hym
          obtain ⟨j, hj⟩ := List.mem_iff_getElem?.mp hy
          rw [List.getElem?_drop] at hj
          have hjl := (List.getElem?_eq_some_iff.mp hj).1
          have hy' := of_decide_eq_true hym
          have hjl' : t + 1 + j < v.lines.length := by omega
          rcases hkeep _ y _ hj (List.getElem?_eq_getElem hjl') with h' | h'
          · omega
          · exact hlast _ _ (by omega) hjl (List.getElem?_eq_getElem hjl') (h' ▸ hy')
        have h2 : (v.lines.drop (t + 1)).filter (fun l => decide (l.group = (m : Int))) = [] := by
          rw [List.filter_eq_nil_iff]
          intro y hy hym
          obtain ⟨j, hj⟩ := List.mem_iff_getElem?.mp hy
          rw [List.getElem?_drop] at hj
          have hjl := (List.getElem?_eq_some_iff.mp hj).1
          exact hlast _ y (by omega) (by omega) hj (of_decide_eq_true hym)
        rw [h1, h2]
      rw [e]

/-- Rounding to two decimals is done once. -/
theorem npRound_ofInt {K : Type} [Field K] [LinearOrder K] [IsStrictOrderedRing K] [FloorRing K]
    (z : Int) : npRound (z : K) = z := by
  unfold npRound
  simp

theorem round2_idem {K : Type} [Field K] [LinearOrder K] [FloorRing K] (x : K) :
    round2 (round2 x) = round2 x := by
  have e : round2 x * 100 = ((npRound (x * 100) : Int) : ℚ) := by
    unfold round2
    rw [div_mul_cancel₀]
    norm_num
  conv_lhs => unfold round2
  have e' : (round2 x : ℚ) * 100 = ((npRound (x * 100) : Int) : ℚ) := e
  unfold round2 at e' ⊢
  rw [e', npRound_ofInt]

/-- **C74**: the slip planes listed for a group are exactly those whose trace differs from the
group's angle by less than five degrees, in order, each with its deviation. -/
theorem C74_planes (traces : List ℝ) (st : LineState) :
    ∀ g ∈ (groupLines traces st).groups,
      (∀ i, i ∈ g.planes ↔ ∃ t, traces[i]? = some t ∧ |(g.angle : ℝ) - t| < 5) ∧
      g.planes.Pairwise (· < ·) ∧
      g.deviation = g.planes.map fun i => round2 ((g.angle : ℝ) - traces.getD i 0) := by
  intro g hg
  by_cases h : st.lines = []
  · rw [groupLines_nil _ _ h] at hg
    simp at hg
  · rw [groupLines_cons _ _ h] at hg
    obtain ⟨x, _, rfl⟩ := List.mem_map.mp hg
    refine ⟨?_, ?_, ?_⟩
    · intro i
      rw [activePlanes_angle]
      unfold activePlanes
      simp only [List.mem_map, List.mem_filter, decide_eq_true_eq]
      constructor
      · rintro ⟨⟨t, j⟩, ⟨hm, h1, h2⟩, rfl⟩
        have := List.mem_zipIdx_iff_getElem?.mp hm
        refine ⟨t, this, ?_⟩
        rw [abs_lt]
        simp only at h1 h2
        constructor <;> linarith
      · rintro ⟨t, ht, ha⟩
        rw [abs_lt] at ha
        refine ⟨(t, i), ⟨List.mem_zipIdx_iff_getElem?.mpr ht, ?_, ?_⟩, rfl⟩
        · simp only; linarith
        · simp only; linarith
    · unfold activePlanes
      simp only
      have hp : traces.zipIdx.Pairwise (fun a b => a.2 < b.2) := by
        rw [List.pairwise_iff_getElem]
        intro i j hi hj hij
        rw [List.getElem_zipIdx, List.getElem_zipIdx]
        simpa using hij
      exact List.pairwise_map.mpr (hp.filter _)
    · rw [activePlanes_angle]
      unfold activePlanes
      simp only [List.map_map]
      apply List.map_congr_left
      rintro ⟨t, j⟩ hm
      have := List.mem_zipIdx_iff_getElem?.mp (List.mem_of_mem_filter hm)
      simp only [Function.comp_apply]
      have this' : traces[j]? = some t := this
      rw [List.getD_eq_getElem?_getD, this']
      rfl

/-- **C74**: grouping discards the RDR of every group. -/
theorem C74_rdr (traces : List ℝ) (st : LineState) :
    ∀ g ∈ (groupLines traces st).groups, g.rdr = none := by
  intro g hg
  by_cases h : st.lines = []
  · rw [groupLines_nil _ _ h] at hg
    simp at hg
  · rw [groupLines_cons _ _ h] at hg
    obtain ⟨x, hx, rfl⟩ := List.mem_map.mp hg
    exact (groupLoop_grouped st.groups h).rdr x hx

/-- The state of a grain after drawing, removing and clearing lines in any order. -/
inductive Spec.Edited (correction : ℝ) (traces : List ℝ) : LineState → Prop
  | new : Spec.Edited correction traces ⟨[], []⟩
  | draw (st : LineState) (p1 p2 : ℝ × ℝ) : Spec.Edited correction traces st →
      Spec.Edited correction traces (saveLine correction traces p1 p2 st)
  | remove (st st' : LineState) (i : Int) : Spec.Edited correction traces st →
      removeLine traces i st = .ok st' → Spec.Edited correction traces st'
  | clear (st : LineState) : Spec.Edited correction traces st →
      Spec.Edited correction traces clearLines

/-- **C74**: the groups are good after any history of editing. -/
theorem C74_history (correction : ℝ) (traces : List ℝ) (st : LineState)
    (h : Spec.Edited correction traces st) : Spec.GoodGroups st := by
  have hnil : Spec.GoodGroups ⟨[], []⟩ := ⟨by simp, by simp, by simp⟩
  cases h with
  | new => exact hnil
  | draw st p1 p2 _ => exact (C74_groups _ _).1
  | remove st st' i _ hr =>
    unfold removeLine at hr
    cases hp : pyIndex st.lines.length i with
    | error e => rw [hp] at hr; exact absurd hr (by simp [Except.bind])
    | ok k =>
      rw [hp] at hr
      simp only [Except.bind, Except.ok.injEq] at hr
      rw [← hr]
      exact (C74_groups _ _).1
  | clear => exact hnil

/-! ### Where the mean is wrong -/

/-- A line of a given angle in degrees, less than 180, is drawn from the origin. -/
theorem lineAngle_of (θ : ℝ) (h0 : 0 ≤ θ) (h1 : θ < 180) :
    lineAngle 0 (0, 0) (Real.sin (θ * Real.pi / 180), Real.cos (θ * Real.pi / 180)) = θ := by
  have hp := Real.pi_pos
  rw [lineAngle_eq]
  simp only [sub_zero]
  set t := θ * Real.pi / 180 with ht
  have ht0 : 0 ≤ t := by positivity
  have ht1 : t < Real.pi := by
    rw [ht, div_lt_iff₀ (by norm_num)]
    nlinarith
  have e : (⟨Real.sin t, Real.cos t⟩ : ℂ) =
      Real.cos (Real.pi / 2 - t) + Real.sin (Real.pi / 2 - t) * Complex.I := by
    rw [Real.cos_pi_div_two_sub, Real.sin_pi_div_two_sub]
    apply Complex.ext
    · simp
      exact (Complex.sin_ofReal_re t).symm
    · simp
      exact (Complex.cos_ofReal_re t).symm
  rw [e, Complex.ofReal_cos, Complex.ofReal_sin,
    Complex.arg_cos_add_sin_mul_I ⟨by linarith, by linarith⟩]
  have e2 : (Real.pi / 2 - t) * 180 / Real.pi = 90 - θ := by
    rw [ht]
    field_simp
    ring
  rw [e2]
  unfold angleOf
  rw [if_neg (by linarith), if_neg (by linarith)]
  ring

/-- Points of a line of `θ` degrees. -/
noncomputable def endFor (θ : ℚ) : ℝ × ℝ :=
  (Real.sin ((θ : ℝ) * Real.pi / 180), Real.cos ((θ : ℝ) * Real.pi / 180))

/-- The state after drawing lines of whole degrees. -/
noncomputable def drawAll (l : List Nat) : LineState :=
  l.foldl (fun st (θ : Nat) => saveLine 0 [] (0, 0) (endFor θ) st) ⟨[], []⟩

theorem drawAll_edited (l : List Nat) : Spec.Edited 0 [] (drawAll l) := by
  have key : ∀ (l : List Nat) (st : LineState), Spec.Edited 0 [] st →
      Spec.Edited 0 [] (l.foldl (fun st (θ : Nat) => saveLine 0 [] (0, 0) (endFor θ) st) st) := by
    intro l
    induction l with
    | nil => intro st h; exact h
    | cons a t ih => intro st h; exact ih _ (Spec.Edited.draw st _ _ h)
  exact key l _ Spec.Edited.new

/-- Ids and angles only, for computing. -/
def idsAngles (st : LineState) : List (ℚ × Int) × List ℚ :=
  (st.lines.map fun l => (l.angle, l.group), st.groups.map SlipGroup.angle)

/-- Grouping without points. -/
def groupBare (lines : List (ℚ × Int)) : List (ℚ × Int) × List ℚ :=
  let v := groupLoop (lines.map fun l => ⟨[], l.1, l.2, false⟩) []
  (v.lines.map fun l => (l.angle, l.group), v.groups.map SlipGroup.angle)

/-- Two states that agree on angles, marks and groups. -/
def Alike (a b : GroupVars) : Prop :=
  a.lines.map (fun l => (l.angle, l.group)) = b.lines.map (fun l => (l.angle, l.group)) ∧
  a.groups = b.groups ∧ a.next = b.next

theorem groupMean_alike {a b : List SlipLine} (g : Int)
    (h : a.map (fun l => (l.angle, l.group)) = b.map fun l => (l.angle, l.group)) :
    groupMean a g = groupMean b g := by
  have key : ∀ l : List SlipLine, (l.filter fun l => decide (l.group = g)).map SlipLine.angle =
      ((l.map fun l => (l.angle, l.group)).filter fun p => decide (p.2 = g)).map Prod.fst := by
    intro l
    rw [List.filter_map, List.map_map]
    rfl
  unfold groupMean
  simp only [key, h]

theorem groupStep_alike {a b : GroupVars} (h : Alike a b) (i : Nat) :
    Alike (groupStep a i) (groupStep b i) := by
  obtain ⟨h1, h2, h3⟩ := h
  have hi : (a.lines[i]?).map (fun l => (l.angle, l.group)) =
      (b.lines[i]?).map fun l => (l.angle, l.group) := by
    rw [← List.getElem?_map, ← List.getElem?_map, h1]
  cases ha : a.lines[i]? with
  | none =>
    rw [ha, Option.map_none] at hi
    have hb : b.lines[i]? = none := Option.map_eq_none_iff.mp hi.symm
    unfold groupStep
    rw [ha, hb]
    exact ⟨h1, h2, h3⟩
  | some la =>
    rw [ha, Option.map_some] at hi
    obtain ⟨lb, hb, e⟩ := Option.map_eq_some_iff.mp hi.symm
    have eangle : lb.angle = la.angle := (Prod.mk.inj e).1
    have hset : ∀ (g : Int) (p : Bool),
        (a.lines.set i { la with group := g, fromNumpy := p }).map (fun l => (l.angle, l.group)) =
        (b.lines.set i ⟨lb.points, la.angle, g, p⟩).map fun l => (l.angle, l.group) := by
      intro g p
      rw [List.map_set, List.map_set, h1]
    unfold groupStep
    simp only [ha, hb, h2, h3, eangle]
    split
    · exact ⟨hset _ _, rfl, rfl⟩
    · split
      · refine ⟨hset _ _, ?_, rfl⟩
        simp only
        rw [groupMean_alike _ (hset _ _)]
      · exact ⟨hset _ _, rfl, rfl⟩

theorem groupLoop_alike {a b : List SlipLine} (ga : List SlipGroup)
    (h : a.map (fun l => (l.angle, l.group)) = b.map fun l => (l.angle, l.group)) :
    Alike (groupLoop a ga) (groupLoop b ga) := by
  have hlen : a.length = b.length := by simpa using congrArg List.length h
  unfold groupLoop
  rw [hlen]
  generalize List.range b.length = r
  have key : ∀ (r : List Nat) (x y : GroupVars), Alike x y →
      Alike (r.foldl groupStep x) (r.foldl groupStep y) := by
    intro r
    induction r with
    | nil => intro x y h; exact h
    | cons i r ih => intro x y h; exact ih _ _ (groupStep_alike h i)
  exact key r _ _ ⟨h, rfl, rfl⟩

/-- The groups before are not used. -/
theorem groupLoop_groups {a : List SlipLine} (h : a ≠ []) (g g' : List SlipGroup) :
    groupLoop a g = groupLoop a g' := by
  unfold groupLoop
  obtain ⟨n, hn⟩ : ∃ n, a.length = n + 1 :=
    ⟨a.length - 1, by have := List.length_pos_iff.mpr h; omega⟩
  rw [hn, List.range_succ_eq_map, List.foldl_cons, List.foldl_cons]
  congr 1
  unfold groupStep
  cases h0 : a[0]? with
  | none => rw [List.getElem?_eq_none_iff] at h0; omega
  | some l => simp

theorem idsAngles_groupLines (st : LineState) (h : st.lines ≠ []) :
    idsAngles (groupLines [] st) = groupBare (st.lines.map fun l => (l.angle, l.group)) := by
  rw [groupLines_cons _ _ h]
  unfold idsAngles groupBare
  simp only [List.map_map]
  rw [groupLoop_groups h st.groups []]
  have hb : st.lines.map (fun l => (l.angle, l.group)) =
      ((st.lines.map ((fun l : ℚ × Int => (⟨[], l.1, l.2, false⟩ : SlipLine)) ∘
        fun l => (l.angle, l.group))).map fun l => (l.angle, l.group)) := by
    rw [List.map_map]
    rfl
  obtain ⟨e1, e2, _⟩ := groupLoop_alike [] hb
  rw [e1, e2]
  rfl

theorem round2_nat (n : Nat) : round2 ((n : ℝ)) = n := by
  unfold round2
  have e : ((n : ℝ)) * 100 = ((n * 100 : Int) : ℝ) := by push_cast; ring
  rw [e]
  rw [npRound_ofInt]
  push_cast
  rw [mul_div_assoc, div_self (by norm_num), mul_one]

theorem drawn_angle {n : Nat} (h : n < 180) : (drawnLine 0 (0, 0) (endFor n)).angle = n := by
  have hn : (n : ℝ) < 180 := by exact_mod_cast h
  show round2 (lineAngle 0 (0, 0) (endFor n)) = n
  unfold endFor
  rw [Rat.cast_natCast, lineAngle_of _ (by positivity) hn, round2_nat]

/-- Drawing one line, computed. -/
theorem idsAngles_draw (st : LineState) {n : Nat} (h : n < 180) :
    idsAngles (saveLine 0 [] (0, 0) (endFor n) st) =
      groupBare ((idsAngles st).1 ++ [((n : ℚ), -1)]) := by
  unfold saveLine
  rw [idsAngles_groupLines _ (by simp)]
  simp only [List.map_append, List.map_cons, List.map_nil]
  rw [drawn_angle h]
  rfl

/-- Drawing several lines, computed. -/
def drawBare (l : List Nat) : List (ℚ × Int) × List ℚ :=
  l.foldl (fun st (n : Nat) => groupBare (st.1 ++ [((n : ℚ), -1)])) ([], [])

theorem idsAngles_drawAll (l : List Nat) (h : ∀ n ∈ l, n < 180) :
    idsAngles (drawAll l) = drawBare l := by
  induction l using List.reverseRecOn with
  | nil => rfl
  | append_singleton l n ih =>
    unfold drawAll drawBare at *
    rw [List.foldl_append, List.foldl_append, List.foldl_cons, List.foldl_cons, List.foldl_nil,
      List.foldl_nil, idsAngles_draw _ (h n (by simp)), ih fun m hm => h m (by simp [hm])]

/-- What the mean of each group should be, from angles and marks. -/
def wantedMeans (p : List (ℚ × Int) × List ℚ) : List ℚ :=
  (List.range p.2.length).map fun m =>
    Spec.roundedMean ((p.1.filter fun q => decide (q.2 = (m : Int))).map Prod.fst)

/-- **C74**: lines of 3, 37, 37 and 11 degrees are drawn and the first is removed. The group of the
two lines of 37 degrees then has an angle of 28.33 degrees: the line of 11 degrees still carried its
old mark when the mean was taken. -/
theorem C74_stale_removed : ∃ st, Spec.Edited 0 [] st ∧
    ∃ g ∈ st.groups, g.angle = 2833 / 100 ∧ Spec.angles st.lines g.id = [37, 37] := by
  have hd : idsAngles (drawAll [3, 37, 37, 11]) = ([(3, 0), (37, 1), (37, 1), (11, 0)], [7, 37]) := by
    rw [idsAngles_drawAll _ (by decide)]
    decide +kernel
  have hl : (drawAll [3, 37, 37, 11]).lines.map (fun l => (l.angle, l.group)) =
      [(3, 0), (37, 1), (37, 1), (11, 0)] := (Prod.mk.inj hd).1
  have hlen : (drawAll [3, 37, 37, 11]).lines.length = 4 := by
    have := congrArg List.length hl
    simpa using this
  let st0 : LineState := ⟨(drawAll [3, 37, 37, 11]).lines.eraseIdx 0, (drawAll [3, 37, 37, 11]).groups⟩
  have hr : removeLine [] 0 (drawAll [3, 37, 37, 11]) = .ok (groupLines [] st0) := by
    unfold removeLine
    rw [hlen]
    rfl
  have hne : st0.lines ≠ [] := by
    intro h
    have := congrArg List.length h
    simp only [st0, List.length_eraseIdx, hlen] at this
    simp at this
  have he : idsAngles (groupLines [] st0) = ([(37, 0), (37, 0), (11, 1)], [2833 / 100, 11]) := by
    rw [idsAngles_groupLines _ hne]
    have : st0.lines.map (fun l => (l.angle, l.group)) = [(37, 1), (37, 1), (11, 0)] := by
      show ((drawAll [3, 37, 37, 11]).lines.eraseIdx 0).map _ = _
      rw [List.eraseIdx_zero, List.map_tail, hl]
      rfl
    rw [this]
    decide +kernel
  obtain ⟨e1, e2⟩ := Prod.mk.inj he
  have hgood := (C74_groups [] st0).1
  have hg0 : ∃ g, (groupLines [] st0).groups[0]? = some g ∧ g.angle = 2833 / 100 := by
    have := congrArg (fun l : List ℚ => l[0]?) e2
    simp only [List.getElem?_map, List.getElem?_cons_zero] at this
    exact Option.map_eq_some_iff.mp this
  obtain ⟨g, hg, ha⟩ := hg0
  refine ⟨groupLines [] st0, Spec.Edited.remove _ _ 0 (drawAll_edited _) hr, g,
    List.mem_of_getElem? hg, ha, ?_⟩
  have hid : g.id = 0 := hgood.1 0 g hg
  rw [hid]
  have key : ∀ l : List SlipLine, Spec.angles l 0 =
      ((l.map fun l => (l.angle, l.group)).filter fun p => decide (p.2 = 0)).map Prod.fst := by
    intro l
    unfold Spec.angles
    rw [List.filter_map, List.map_map]
    rfl
  rw [key, e1]
  decide +kernel

/-- **C74**: it also happens when lines are only added. -/
theorem C74_stale_added : ∃ st, Spec.Edited 0 [] st ∧
    ∃ g ∈ st.groups, g.angle = 333 / 100 ∧ Spec.angles st.lines g.id = [0, 2] := by
  have hd : idsAngles (drawAll [18, 30, 11, 0, 7, 2, 8, 13, 8]) =
      ([(18, 0), (30, 1), (11, 0), (0, 2), (7, 0), (2, 2), (8, 0), (13, 0), (8, 0)],
        [1083 / 100, 30, 333 / 100]) := by
    rw [idsAngles_drawAll _ (by decide)]
    decide +kernel
  obtain ⟨e1, e2⟩ := Prod.mk.inj hd
  have hgood := C74_history 0 [] _ (drawAll_edited [18, 30, 11, 0, 7, 2, 8, 13, 8])
  have hg0 : ∃ g, (drawAll [18, 30, 11, 0, 7, 2, 8, 13, 8]).groups[2]? = some g ∧
      g.angle = 333 / 100 := by
    have := congrArg (fun l : List ℚ => l[2]?) e2
    simp only [List.getElem?_map, List.getElem?_cons_zero, List.getElem?_cons_succ] at this
    exact Option.map_eq_some_iff.mp this
  obtain ⟨g, hg, ha⟩ := hg0
  refine ⟨_, drawAll_edited _, g, List.mem_of_getElem? hg, ha, ?_⟩
  have hid : g.id = 2 := hgood.1 2 g hg
  rw [hid]
  have key : ∀ l : List SlipLine, Spec.angles l 2 =
      ((l.map fun l => (l.angle, l.group)).filter fun p => decide (p.2 = 2)).map Prod.fst := by
    intro l
    unfold Spec.angles
    rw [List.filter_map, List.map_map]
    rfl
  rw [key, e1]
  decide +kernel

/-- **C74**: angles are compared as numbers: a group at 179 degrees is not taken for a slip plane
whose trace is at 1 degree, two degrees from it. -/
theorem C74_wrap (st : LineState) (g : SlipGroup) (hg : g ∈ (groupLines [1] st).groups)
    (h : g.angle = 179) : g.planes = [] := by
  have := (C74_planes [1] st g hg).1
  rw [List.eq_nil_iff_forall_not_mem]
  intro i hi
  obtain ⟨t, ht, ha⟩ := (this i).mp hi
  cases i with
  | zero =>
    simp at ht
    rw [← ht, h] at ha
    norm_num at ha
  | succ i => simp at ht

/-! ### Non-vacuity -/

/-- Three new lines of 10, 16 and 40 degrees: the conditions for the mean hold, and the first two
are together. -/
def exLines : LineState :=
  ⟨[⟨[0, 0, 1, 1], 10, -1, false⟩, ⟨[0, 0, 1, 1], 16, -1, false⟩, ⟨[0, 0, 1, 1], 40, -1, false⟩], []⟩

example : (∀ l ∈ exLines.lines, round2 l.angle = l.angle) ∧ (∀ l ∈ exLines.lines, l.group = -1) ∧
    idsAngles (groupLines [] exLines) = ([(10, 0), (16, 0), (40, 1)], [13, 40]) := by
  refine ⟨by decide +kernel, by decide +kernel, ?_⟩
  rw [idsAngles_groupLines _ (by simp [exLines])]
  decide +kernel

end DefDAP
