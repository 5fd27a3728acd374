import Verif.Model.GrainPlot
import Verif.Props.Schmid
import Verif.Proofs.GrainData

/-! C106: slip traces and slip bands drawn in grain plots. -/

namespace DefDAP

open Quat Matrix

/-- The line at `angle` from the vertical, counter-clockwise, in either of its two directions. -/
def Spec.AlongTrace (angle : ℝ) (d : ℝ × ℝ) : Prop :=
  d = (-Real.sin angle, Real.cos angle) ∨ d = (Real.sin angle, -Real.cos angle)

theorem traceColour_ok {κ : Type} (colours : List κ) (hc : colours ≠ []) (i : Nat) :
    ∃ c, traceColour colours i = .ok c ∧ colours[min i (colours.length - 1)]? = some c := by
  have hl : 0 < colours.length := List.length_pos_iff.2 hc
  by_cases h : colours.length ≤ i
  · refine ⟨colours.getLast hc, ?_, ?_⟩
    · simp [traceColour, h, List.getLast?_eq_some_getLast hc]
    · rw [Nat.min_eq_right (by omega), ← List.getLast?_eq_getElem?,
        List.getLast?_eq_some_getLast hc]
  · refine ⟨colours[i], ?_, ?_⟩
    · simp [traceColour, h, List.getElem?_eq_getElem (by omega : i < colours.length)]
    · rw [Nat.min_eq_left (by omega)]
      exact List.getElem?_eq_getElem (by omega : i < colours.length)

theorem topVec_along (a : ℝ) : Spec.AlongTrace a (topVec (traceVec a)) := by
  unfold topVec traceVec Spec.AlongTrace
  split_ifs
  · right; simp
  · left; rfl

/-- **C106.** With at least one colour there is one line for each angle, in order, at the position,
along the direction of the angle; lines beyond the colours have the last one. Whole lines are drawn
in the direction itself. -/
theorem C106_lines {κ : Type} (angles : List ℝ) (colours : List κ) (hc : colours ≠ [])
    (topOnly : Bool) (pos : ℝ × ℝ) :
    ∃ ls, addTraces angles colours topOnly pos = .ok ls ∧ ls.length = angles.length ∧
      ∀ (i : Nat) a, angles[i]? = some a →
        ∃ c d, colours[min i (colours.length - 1)]? = some c ∧
          ls[i]? = some ⟨pos, d, topOnly, c⟩ ∧ Spec.AlongTrace a d ∧
          (topOnly = false → d = (-Real.sin a, Real.cos a)) ∧
          (topOnly = true → 0 ≤ a → a < Real.pi → 0 ≤ d.2) := by
  choose f hf hf2 using traceColour_ok colours hc
  refine ⟨(angles.zipIdx).map fun ai =>
      ⟨pos, if topOnly then topVec (traceVec ai.1) else traceVec ai.1, topOnly, f ai.2⟩, ?_, ?_, ?_⟩
  · unfold addTraces
    refine mapM_ok _ fun ai _ => ?_
    rw [hf]
    rfl
  · simp
  · intro i a ha
    refine ⟨f i, if topOnly then topVec (traceVec a) else traceVec a, hf2 i, ?_, ?_, ?_, ?_⟩
    · simp [ha]
    · cases topOnly
      · exact Or.inl rfl
      · exact topVec_along a
    · intro h; subst h; rfl
    · intro h h0 h1
      subst h
      simp only [if_true]
      unfold topVec traceVec
      split_ifs with hh
      · exact (neg_pos.2 hh.2).le
      · by_contra hneg
        have hcos : Real.cos a < 0 := not_le.1 hneg
        have ha0 : a ≠ 0 := by
          rintro rfl
          simp at hcos
          linarith
        have := Real.sin_pos_of_pos_of_lt_pi (lt_of_le_of_ne h0 (Ne.symm ha0)) h1
        exact hh ⟨by simpa using this, hcos⟩

example : ∃ (angles : List ℝ) (colours : List Nat), colours ≠ [] ∧ angles.length = 3 ∧
    ∀ a ∈ angles, 0 ≤ a ∧ a < Real.pi := by
  refine ⟨[0, 1, 3 / 2], [7, 8], by simp, rfl, ?_⟩
  have := Real.two_le_pi
  intro a ha
  simp at ha
  rcases ha with rfl | rfl | rfl <;> constructor <;> linarith

/-- **C106 (false beyond half a turn).** A line at more than 180 and less than 270 degrees is drawn
downwards from its start with `top_only`, out of the part of the plot that is shown. -/
theorem C106_below {κ : Type} (a : ℝ) (c : κ) (pos : ℝ × ℝ) (h1 : Real.pi < a)
    (h2 : a < 3 * Real.pi / 2) :
    ∃ l, addTraces [a] [c] true pos = .ok [l] ∧ l.tail = true ∧ l.dir.2 < 0 := by
  have hs : Real.sin a < 0 := by
    have := Real.sin_pos_of_pos_of_lt_pi (x := a - Real.pi) (by linarith) (by linarith)
    rw [Real.sin_sub_pi] at this
    linarith
  have hcos : Real.cos a < 0 := Real.cos_neg_of_pi_div_two_lt_of_lt (by linarith) (by linarith)
  refine ⟨⟨pos, topVec (traceVec a), true, c⟩, rfl, rfl, ?_⟩
  have : ¬ (traceVec a).1 < 0 := by
    simp only [traceVec]
    linarith
  rw [topVec, if_neg fun h => this h.1]
  exact hcos

example : Real.pi < 5 * Real.pi / 4 ∧ 5 * Real.pi / 4 < 3 * Real.pi / 2 := by
  have := Real.pi_pos
  constructor <;> linarith

/-- **C106 (no colours).** Without colours nothing can be drawn. -/
theorem C106_no_colours {κ : Type} (angles : List ℝ) (topOnly : Bool) (pos : ℝ × ℝ) :
    addTraces angles ([] : List κ) topOnly pos =
      if angles = [] then .ok [] else .error .indexError := by
  cases angles with
  | nil => rfl
  | cons a t =>
    rw [if_neg (by simp)]
    unfold addTraces
    rw [List.zipIdx_cons, List.mapM_cons]
    rfl

/-- **C106 (slip planes).** When the angles are not yet stored, the i-th line of a grain is the
intersection of the surface with the slip plane of the i-th group and has the colour of that
group. -/
theorem C106_planes {κ : Type} (g : TraceGrain κ) (r : Quat ℝ) (hr : g.ref = some r)
    (hu : r.IsUnit) (hn : r.North) (hnew : g.angles = none) (hne : ∀ x ∈ g.groups, x ≠ [])
    (hc : g.groups.length ≤ g.colours.length) (hc0 : g.colours ≠ []) (topOnly : Bool)
    (pos : ℝ × ℝ) :
    ∃ ls g', addSlipTraces g none topOnly pos = .ok (ls, g') ∧ ls.length = g.groups.length ∧
      ∀ (i : Nat) (ss : SlipSystem) (t : List SlipSystem), g.groups[i]? = some (ss :: t) →
        (Spec.sampleNormal r ss.normal 0 ≠ 0 ∨ Spec.sampleNormal r ss.normal 1 ≠ 0) →
        ∃ l c, ls[i]? = some l ∧ g.colours[i]? = some c ∧ l.colour = c ∧ l.pos = pos ∧
          l.dir.1 ^ 2 + l.dir.2 ^ 2 = 1 ∧
          (![l.dir.1, l.dir.2, 0] : Fin 3 → ℝ) ⬝ᵥ Spec.sampleNormal r ss.normal = 0 := by
  obtain ⟨out, h1, h2, h3⟩ := C59_groups r g.groups hne
  obtain ⟨ls, l1, l2, l3⟩ := C106_lines (out.map Prod.fst) g.colours hc0 topOnly pos
  refine ⟨ls, { g with ref := some r, angles := some (out.map Prod.fst) }, ?_, by simp [l2, h2], ?_⟩
  · have hcalc : g.calcTraces =
        .ok { g with ref := some r, angles := some (out.map Prod.fst) } := by
      unfold TraceGrain.calcTraces grainRef
      rw [hr]
      show (slipTraces r g.groups).map _ = _
      rw [h1]
      rfl
    have hst : g.slipTraces = .ok (out.map Prod.fst,
        { g with ref := some r, angles := some (out.map Prod.fst) }) := by
      unfold TraceGrain.slipTraces
      rw [hnew]
      show g.calcTraces.bind _ = _
      rw [hcalc]
      rfl
    unfold addSlipTraces
    rw [hst]
    show (addTraces (out.map Prod.fst) g.colours topOnly pos).map _ = _
    rw [l1]
    rfl
  · intro i ss t hi hp
    have ho := h3 i ss t hi
    obtain ⟨c, d, hcc, hl, hal, -, -⟩ := l3 i (slipTrace r ss.normal).1 (by simp [ho])
    obtain ⟨-, -, hz, -⟩ := C59_trace r hu hn ss.normal hp
    have hlt : i < g.groups.length := (List.getElem?_eq_some_iff.1 hi).1
    rw [Nat.min_eq_left (by omega)] at hcc
    refine ⟨_, c, hl, hcc, rfl, rfl, ?_, ?_⟩
    · rcases hal with rfl | rfl
      · simp
      · simp
    · simp only [Spec.traceDir, dotProduct, Fin.sum_univ_three, cons_val_zero, cons_val_one,
        cons_val, zero_mul, add_zero] at hz
      rcases hal with rfl | rfl <;>
        simp only [dotProduct, Fin.sum_univ_three, cons_val_zero, cons_val_one,
          cons_val, zero_mul, add_zero] <;> linarith

/-- **C106 (stored angles).** Once stored, the angles are drawn again whatever the reference
orientation has become, until the traces are calculated again. -/
theorem C106_stored {κ : Type} (g : TraceGrain κ) (a : List ℝ) (ha : g.angles = some a)
    (colours : Option (List κ)) (topOnly : Bool) (pos : ℝ × ℝ) :
    (∀ r, ∃ g', addSlipTraces { g with ref := r } colours topOnly pos =
      (addTraces a (colours.getD g.colours) topOnly pos).map fun ls => (ls, g')) ∧
    (∀ g1, g.calcAverage = .ok g1 → g1.angles = some a) := by
  constructor
  · intro r
    refine ⟨{ g with ref := r }, ?_⟩
    have hst : ({ g with ref := r } : TraceGrain κ).slipTraces = .ok (a, { g with ref := r }) := by
      unfold TraceGrain.slipTraces
      rw [ha]
    unfold addSlipTraces
    rw [hst]
    cases colours <;> rfl
  · intro g1 h
    unfold TraceGrain.calcAverage at h
    cases hm : grainMeanOri g.sym g.quats with
    | error e => rw [hm] at h; exact absurd h (by simp [Except.map])
    | ok r =>
      rw [hm] at h
      simp only [Except.map, Except.ok.injEq] at h
      rw [← h]
      exact ha

/-- **C106 (recalculated).** Calculating the traces replaces stored angles by those of the present
reference orientation. -/
theorem C106_recalculated {κ : Type} (g : TraceGrain κ) (r : Quat ℝ) (hr : g.ref = some r)
    (hne : ∀ x ∈ g.groups, x ≠ []) :
    ∃ g' a, g.calcTraces = .ok g' ∧ g'.slipTraces = .ok (a, g') ∧ g'.ref = some r ∧
      a.length = g.groups.length ∧
      ∀ (i : Nat) (ss : SlipSystem) (t : List SlipSystem), g.groups[i]? = some (ss :: t) →
        a[i]? = some (slipTrace r ss.normal).1 := by
  obtain ⟨out, h1, h2, h3⟩ := C59_groups r g.groups hne
  refine ⟨{ g with ref := some r, angles := some (out.map Prod.fst) }, out.map Prod.fst, ?_, rfl,
    rfl, by simp [h2], ?_⟩
  · unfold TraceGrain.calcTraces grainRef
    rw [hr]
    show (slipTraces r g.groups).map _ = _
    rw [h1]
    rfl
  · intro i ss t hi
    simp [h3 i ss t hi]

/-- **C106 (DIC grains).** The lines of a DIC grain are those of the linked EBSD grain; without a
link there is an error. -/
theorem C106_dic {κ : Type} (colours : Option (List κ)) (topOnly : Bool) (pos : ℝ × ℝ) :
    addSlipTracesDic (κ := κ) none colours topOnly pos = .error .attributeError ∧
    ∀ g : TraceGrain κ, addSlipTracesDic (some g) colours topOnly pos =
      addSlipTraces g colours topOnly pos := ⟨rfl, fun _ => rfl⟩

/-- **C106 (bands).** Slip bands found at whole degrees from 0 to 179 are all drawn in the one
colour, in the upper half with `top_only`, and different angles give lines that are not
parallel. -/
theorem C106_bands {κ : Type} (peaks : List Nat) (hp : ∀ k ∈ peaks, k < 180) (c : κ)
    (topOnly : Bool) (pos : ℝ × ℝ) :
    ∃ ls, addSlipBands peaks c topOnly pos = .ok ls ∧ ls.length = peaks.length ∧
      (∀ l ∈ ls, l.colour = c ∧ l.pos = pos ∧ (topOnly = true → 0 ≤ l.dir.2)) ∧
      (∀ (i j : Nat) li lj ki kj, ls[i]? = some li → ls[j]? = some lj → peaks[i]? = some ki →
        peaks[j]? = some kj → ki ≠ kj → li.dir.1 * lj.dir.2 - li.dir.2 * lj.dir.1 ≠ 0) := by
  obtain ⟨ls, l1, l2, l3⟩ := C106_lines (peaks.map fun k : Nat => (k : ℝ) * Real.pi / 180) [c] (by simp)
    topOnly pos
  have hpi := Real.pi_pos
  have hk : ∀ k : Nat, k < 180 → 0 ≤ (k : ℝ) * Real.pi / 180 ∧ (k : ℝ) * Real.pi / 180 < Real.pi := by
    intro k hk
    have : (k : ℝ) < 180 := by exact_mod_cast hk
    constructor
    · positivity
    · rw [div_lt_iff₀ (by norm_num)]
      nlinarith
  refine ⟨ls, l1, by simpa using l2, ?_, ?_⟩
  · intro l hl
    obtain ⟨i, hi, rfl⟩ := List.getElem_of_mem hl
    have hi' : i < peaks.length := by rw [l2, List.length_map] at hi; exact hi
    obtain ⟨c', d, hcc, hl', -, -, ht⟩ := l3 i ((peaks[i] : ℝ) * Real.pi / 180) (by simp [hi'])
    have hc' : c' = c := by simpa using hcc.symm
    rw [List.getElem?_eq_getElem hi] at hl'
    simp only [Option.some.injEq] at hl'
    rw [hl']
    obtain ⟨a1, a2⟩ := hk _ (hp peaks[i] (List.getElem_mem hi'))
    exact ⟨hc', rfl, fun h => ht h a1 a2⟩
  · intro i j li lj ki kj hi hj hpi' hpj hne
    obtain ⟨ci, di, -, hli, ali, -, -⟩ := l3 i ((ki : ℝ) * Real.pi / 180) (by simp [hpi'])
    obtain ⟨cj, dj, -, hlj, alj, -, -⟩ := l3 j ((kj : ℝ) * Real.pi / 180) (by simp [hpj])
    rw [hi] at hli
    rw [hj] at hlj
    simp only [Option.some.injEq] at hli hlj
    subst hli hlj
    obtain ⟨a1, a2⟩ := hk _ (hp ki (List.mem_of_getElem? hpi'))
    obtain ⟨b1, b2⟩ := hk _ (hp kj (List.mem_of_getElem? hpj))
    have hs : Real.sin ((ki : ℝ) * Real.pi / 180 - (kj : ℝ) * Real.pi / 180) ≠ 0 := by
      intro h
      have hz := (Real.sin_eq_zero_iff_of_lt_of_lt (by linarith) (by linarith)).1 h
      have : ((ki : ℝ) - kj) * Real.pi = 0 := by linarith
      rcases mul_eq_zero.1 this with h' | h'
      · exact hne (by exact_mod_cast sub_eq_zero.1 h')
      · exact hpi.ne' h'
    rw [Real.sin_sub] at hs
    rcases ali with rfl | rfl <;> rcases alj with rfl | rfl <;> simp only <;> intro h <;>
      apply hs <;> linarith

example : ∀ k ∈ [0, 45, 179], k < 180 := by decide

end DefDAP
