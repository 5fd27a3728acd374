import Verif.Model.Hist
import Mathlib.Tactic.Ring
import Mathlib.Tactic.Linarith
import Mathlib.Tactic.FieldSimp
import Mathlib.Algebra.BigOperators.Group.Finset.Basic

/-! C112: histograms. -/

namespace DefDAP

/-- The edge `i` of `n` edges: equal differences, or equal ratios on a logarithmic axis. -/
noncomputable def Spec.edge (log : Bool) (a b : ℝ) (n i : Nat) : ℝ :=
  if log then a * (b / a) ^ ((i : ℝ) / (n - 1)) else a + (b - a) * (i / (n - 1))

/-- A range a histogram can have. -/
def Spec.RangeOk (log : Bool) (a b : ℝ) : Prop := a < b ∧ (log = true → 0 < a)

/-- How many values are in an interval of numbers. -/
noncomputable def Spec.countIn (p : ℝ → Prop) (data : List (Option ℝ)) : Nat :=
  open Classical in data.countP fun v => decide (∃ w, v = some w ∧ p w)

/-! ### Edges -/

theorem histEdges_eq (log : Bool) (a b : ℝ) (n : Nat) (hn : 2 ≤ n) (h : Spec.RangeOk log a b) :
    histEdges log a b n = (List.range n).map fun i => Spec.edge log a b n i := by
  have hn1 : n ≠ 1 := by omega
  cases log with
  | false =>
    simp only [histEdges, histSpace, Spec.edge, hn1, Bool.false_eq_true, if_false]
    refine List.map_congr_left fun i _ => ?_
    ring
  | true =>
    have ha : 0 < a := h.2 rfl
    have hb : 0 < b := ha.trans h.1
    simp only [histEdges, histSpace, Spec.edge, hn1, if_true, if_false, List.map_map]
    refine List.map_congr_left fun i _ => ?_
    have e : Real.logb 10 a + (i : ℝ) * ((Real.logb 10 b - Real.logb 10 a) / ((n : ℝ) - 1)) =
        Real.logb 10 a + Real.logb 10 (b / a) * ((i : ℝ) / ((n : ℝ) - 1)) := by
      rw [Real.logb_div hb.ne' ha.ne']
      ring
    show (10 : ℝ) ^ (Real.logb 10 a + (i : ℝ) * ((Real.logb 10 b - Real.logb 10 a) / ((n : ℝ) - 1))) = _
    rw [e, Real.rpow_add (by norm_num), Real.rpow_mul (by norm_num),
      Real.rpow_logb (by norm_num) (by norm_num) ha,
      Real.rpow_logb (by norm_num) (by norm_num) (by positivity)]

theorem edge_lt (log : Bool) (a b : ℝ) (n : Nat) (hn : 2 ≤ n) (h : Spec.RangeOk log a b) (i j : Nat)
    (hij : i < j) : Spec.edge log a b n i < Spec.edge log a b n j := by
  have hn' : (0 : ℝ) < n - 1 := by
    have : (2 : ℝ) ≤ n := by exact_mod_cast hn
    linarith
  have hlt : (i : ℝ) / (n - 1) < j / (n - 1) := by
    apply div_lt_div_of_pos_right _ hn'
    exact_mod_cast hij
  cases log with
  | false =>
    simp only [Spec.edge, Bool.false_eq_true, if_false]
    nlinarith [h.1]
  | true =>
    have ha : 0 < a := h.2 rfl
    simp only [Spec.edge, if_true]
    apply mul_lt_mul_of_pos_left _ ha
    apply Real.rpow_lt_rpow_of_exponent_lt _ hlt
    rw [one_lt_div ha]
    exact h.1

theorem edge_first (log : Bool) (a b : ℝ) (n : Nat) : Spec.edge log a b n 0 = a := by
  cases log <;> simp [Spec.edge]

theorem edge_last (log : Bool) (a b : ℝ) (n : Nat) (hn : 2 ≤ n) (h : Spec.RangeOk log a b) :
    Spec.edge log a b n (n - 1) = b := by
  have hn' : (n : ℝ) - 1 ≠ 0 := by
    have : (2 : ℝ) ≤ n := by exact_mod_cast hn
    intro h
    linarith
  have hc : ((n - 1 : Nat) : ℝ) = n - 1 := by
    rw [Nat.cast_sub (by omega)]
    simp
  cases log with
  | false =>
    simp only [Spec.edge, Bool.false_eq_true, if_false]
    rw [hc, div_self hn']
    ring
  | true =>
    have ha : 0 < a := h.2 rfl
    simp only [Spec.edge, if_true]
    rw [hc, div_self hn', Real.rpow_one]
    field_simp

/-! ### Counting -/

theorem sum_list_range (m : Nat) (f : Nat → Nat) :
    ((List.range m).map f).sum = ∑ i ∈ Finset.range m, f i := by
  induction m with
  | zero => rfl
  | succ m ih => simp [List.range_succ, Finset.sum_range_succ, ih]

theorem exists_bin (e : Nat → ℝ) (m : Nat) (v : ℝ) (h0 : e 0 ≤ v) (hm : v < e m) :
    ∃ i < m, e i ≤ v ∧ v < e (i + 1) := by
  induction m with
  | zero => linarith
  | succ m ih =>
    by_cases h : v < e m
    · obtain ⟨i, hi, h1⟩ := ih h
      exact ⟨i, by omega, h1⟩
    · exact ⟨m, by omega, not_lt.1 h, hm⟩

theorem inBin_iff (e : Nat → ℝ) (n i : Nat) (hi : i + 1 < n) (w : ℝ) :
    inBin ((List.range n).map e) i (some w) ↔
      e i ≤ w ∧ (w < e (i + 1) ∨ i + 2 = n ∧ w = e (i + 1)) := by
  have h1 : ((List.range n).map e)[i]? = some (e i) := by
    simp [List.getElem?_range (show i < n by omega)]
  have h2 : ((List.range n).map e)[i + 1]? = some (e (i + 1)) := by
    simp [List.getElem?_range hi]
  unfold inBin
  rw [h1, h2]
  simp only [List.length_map, List.length_range, Option.some.injEq]
  constructor
  · rintro ⟨w', lo, hi', rfl, rfl, rfl, h⟩
    exact h
  · intro h
    exact ⟨w, _, _, rfl, rfl, rfl, h⟩

/-- A value in the range is in exactly one bin, other values are in none. -/
theorem one_bin (e : Nat → ℝ) (n : Nat) (hn : 2 ≤ n) (he : ∀ i j, i < j → e i < e j) (w : ℝ) :
    (e 0 ≤ w ∧ w ≤ e (n - 1) →
      ∃! i, i < n - 1 ∧ inBin ((List.range n).map e) i (some w)) ∧
    (¬ (e 0 ≤ w ∧ w ≤ e (n - 1)) → ∀ i < n - 1, ¬ inBin ((List.range n).map e) i (some w)) := by
  have hle : ∀ i j, i ≤ j → e i ≤ e j := by
    intro i j hij
    rcases Nat.lt_or_eq_of_le hij with h | rfl
    · exact (he i j h).le
    · exact le_rfl
  constructor
  · rintro ⟨h0, h1⟩
    have hex : ∃ i, i < n - 1 ∧ inBin ((List.range n).map e) i (some w) := by
      rcases h1.lt_or_eq with h | h
      · obtain ⟨i, hi, hb⟩ := exists_bin e (n - 1) w h0 h
        exact ⟨i, hi, (inBin_iff e n i (by omega) w).2 ⟨hb.1, Or.inl hb.2⟩⟩
      · refine ⟨n - 2, by omega, (inBin_iff e n (n - 2) (by omega) w).2 ?_⟩
        have : n - 2 + 1 = n - 1 := by omega
        rw [this, h]
        exact ⟨hle _ _ (by omega), Or.inr ⟨by omega, rfl⟩⟩
    obtain ⟨i, hi, hb⟩ := hex
    refine ⟨i, ⟨hi, hb⟩, ?_⟩
    rintro j ⟨hj, hb'⟩
    rw [inBin_iff e n i (by omega)] at hb
    rw [inBin_iff e n j (by omega)] at hb'
    rcases Nat.lt_trichotomy i j with h | h | h
    · exfalso
      have := hle (i + 1) j h
      rcases hb.2 with h' | ⟨h', h''⟩
      · linarith [hb'.1]
      · omega
    · exact h.symm
    · exfalso
      have := hle (j + 1) i h
      rcases hb'.2 with h' | ⟨h', h''⟩
      · linarith [hb.1]
      · omega
  · intro h i hi hb
    rw [inBin_iff e n i (by omega)] at hb
    apply h
    refine ⟨(hle 0 i (by omega)).trans hb.1, ?_⟩
    have := hle (i + 1) (n - 1) (by omega)
    rcases hb.2 with h' | ⟨-, h'⟩ <;> linarith

theorem countIn_cons (p : ℝ → Prop) (v : Option ℝ) (t : List (Option ℝ)) :
    Spec.countIn p (v :: t) =
      Spec.countIn p t + (open Classical in if ∃ w, v = some w ∧ p w then 1 else 0) := by
  classical
  unfold Spec.countIn
  rw [List.countP_cons]
  by_cases h : ∃ w, v = some w ∧ p w
  · rw [if_pos h, if_pos (by simpa using h)]
  · rw [if_neg h, if_neg (by simpa using h)]

theorem sum_binCounts (e : Nat → ℝ) (n : Nat) (hn : 2 ≤ n) (he : ∀ i j, i < j → e i < e j)
    (data : List (Option ℝ)) :
    (binCounts ((List.range n).map e) data).sum =
      Spec.countIn (fun w => e 0 ≤ w ∧ w ≤ e (n - 1)) data := by
  classical
  unfold binCounts
  simp only [List.length_map, List.length_range]
  rw [sum_list_range]
  induction data with
  | nil => simp [Spec.countIn]
  | cons v t ih =>
    have hstep : ∀ (p : Option ℝ → Prop) (_ : DecidablePred p),
        (List.countP (fun v => decide (p v)) (v :: t)) =
        List.countP (fun v => decide (p v)) t + if p v then 1 else 0 := by
      intro p _
      by_cases hp : p v <;> simp [hp]
    rw [Finset.sum_congr rfl fun i _ => hstep (inBin ((List.range n).map e) i) _,
      Finset.sum_add_distrib, ih, countIn_cons]
    congr 1
    cases v with
    | none => simp [inBin]
    | some w =>
      by_cases hw : e 0 ≤ w ∧ w ≤ e (n - 1)
      · obtain ⟨i, ⟨hi, hb⟩, hu⟩ := (one_bin e n hn he w).1 hw
        rw [if_pos ⟨w, rfl, hw⟩, Finset.sum_eq_single i]
        · rw [if_pos hb]
        · intro j hj hji
          rw [if_neg]
          intro hb'
          exact hji (hu j ⟨Finset.mem_range.1 hj, hb'⟩)
        · intro h
          exact absurd (Finset.mem_range.2 hi) h
      · rw [if_neg, Finset.sum_eq_zero]
        · intro i hi
          rw [if_neg ((one_bin e n hn he w).2 hw i (Finset.mem_range.1 hi))]
        · rintro ⟨w', h, h'⟩
          cases h
          exact hw h'

/-! ### The property -/

/-- The value of a bin without normalisation. -/
theorem binCounts_get (e : Nat → ℝ) (n : Nat) (data : List (Option ℝ)) (i : Nat) (hi : i + 1 < n) :
    (binCounts ((List.range n).map e) data)[i]? = some (Spec.countIn (fun w =>
      e i ≤ w ∧ (w < e (i + 1) ∨ i + 2 = n ∧ w = e (i + 1))) data) := by
  classical
  unfold binCounts Spec.countIn
  simp only [List.length_map, List.length_range, List.getElem?_map]
  rw [List.getElem?_range (show i < n - 1 by omega)]
  simp only [Option.map_some, Option.some.injEq]
  congr 1
  funext v
  congr 1
  cases v with
  | none => simp [inBin]
  | some w =>
    rw [eq_iff_iff, inBin_iff e n i hi]
    simp

theorem addHist_ok (o : HistOpts) (data : List (Option ℝ)) (n : Nat) (hn : 2 ≤ n) (a b : ℝ)
    (h : Spec.RangeOk o.logX a b) :
    ∃ places, addHist o data n (some (a, b)) = .ok
      ⟨(List.range n).map fun i => Spec.edge o.logX a b n i,
        histValues ((List.range n).map fun i => Spec.edge o.logX a b n i) data o.density, places⟩ ∧
      (o.plotType = lit "scatter" → places = some ((List.range (n - 1)).map fun i =>
        (Spec.edge o.logX a b n i + Spec.edge o.logX a b n (i + 1)) / 2)) ∧
      (o.plotType ≠ lit "scatter" → places = none) := by
  classical
  have hneg : ¬ ((n : Int) < 0) := by omega
  have hmono : ¬ ∃ i : Nat, ∃ u v,
      ((List.range n).map fun i => Spec.edge o.logX a b n i)[i]? = some u ∧
      ((List.range n).map fun i => Spec.edge o.logX a b n i)[i + 1]? = some v ∧ v < u := by
    rintro ⟨i, u, v, hu, hv, hlt⟩
    have hi : i + 1 < n := by
      have := (List.getElem?_eq_some_iff.1 hv).1
      simpa using this
    simp only [List.getElem?_map] at hu hv
    rw [List.getElem?_range (by omega)] at hu
    rw [List.getElem?_range hi] at hv
    simp only [Option.map_some, Option.some.injEq] at hu hv
    have := edge_lt o.logX a b n hn h i (i + 1) (by omega)
    rw [hu, hv] at this
    linarith
  have hne : ((List.range n).map fun i => Spec.edge o.logX a b n i) ≠ [] := by
    intro h
    have := congrArg List.length h
    simp at this
    omega
  refine ⟨if o.plotType = lit "scatter" then some ((List.range
      (((List.range n).map fun i => Spec.edge o.logX a b n i).length - 1)).map fun i =>
        binMiddle ((List.range n).map fun i => Spec.edge o.logX a b n i) i) else none, ?_, ?_, ?_⟩
  · simp only [addHist, if_neg hneg, Int.toNat_natCast]
    unfold drawHist
    rw [histEdges_eq _ _ _ _ hn h, if_neg hmono, if_neg (fun hx => hne hx.1)]
  · intro hs
    rw [if_pos hs]
    simp only [List.length_map, List.length_range, Option.some.injEq]
    refine List.map_congr_left fun i hi => ?_
    have hi' : i < n - 1 := List.mem_range.1 hi
    unfold binMiddle
    rw [List.getD_eq_getElem?_getD, List.getD_eq_getElem?_getD]
    simp only [List.getElem?_map]
    rw [List.getElem?_range (show i < n by omega), List.getElem?_range (show i + 1 < n by omega)]
    simp only [Option.map_some, Option.getD_some]
    ring
  · intro hs
    rw [if_neg hs]

/-- **C112 (bins).** With `n` at least 2 there are `n - 1` bins between `n` edges, from the lower to the
upper end of the range, of equal width on a linear axis and with equal ratios of their edges on a
logarithmic one. Points of a scatter plot are in the middle between the edges. -/
theorem C112_bins (o : HistOpts) (data : List (Option ℝ)) (n : Nat) (hn : 2 ≤ n) (a b : ℝ)
    (h : Spec.RangeOk o.logX a b) :
    ∃ d, addHist o data n (some (a, b)) = .ok d ∧ d.edges.length = n ∧ d.values.length = n - 1 ∧
      d.edges[0]? = some a ∧ d.edges[n - 1]? = some b ∧
      (∀ i (u v : ℝ), d.edges[i]? = some u → d.edges[i + 1]? = some v →
        u < v ∧ (o.logX = false → v - u = (b - a) / (n - 1)) ∧
        (o.logX = true → v / u = (b / a) ^ (1 / ((n : ℝ) - 1))) ∧
        (o.plotType = lit "scatter" → ∃ p, d.places = some p ∧ p[i]? = some ((u + v) / 2))) := by
  obtain ⟨places, hok, hs, -⟩ := addHist_ok o data n hn a b h
  have hget : ∀ i u, ((List.range n).map fun i => Spec.edge o.logX a b n i)[i]? = some u →
      i < n ∧ u = Spec.edge o.logX a b n i := by
    intro i u hu
    have hi : i < n := by
      have := (List.getElem?_eq_some_iff.1 hu).1
      simpa using this
    simp only [List.getElem?_map] at hu
    rw [List.getElem?_range hi] at hu
    simp only [Option.map_some, Option.some.injEq] at hu
    exact ⟨hi, hu.symm⟩
  refine ⟨_, hok, by simp, ?_, ?_, ?_, ?_⟩
  · simp [histValues, binCounts]
  · simp only [List.getElem?_map]
    rw [List.getElem?_range (by omega)]
    simp [edge_first]
  · simp only [List.getElem?_map]
    rw [List.getElem?_range (by omega)]
    simp [edge_last _ _ _ _ hn h]
  · intro i u v hu hv
    obtain ⟨hi, rfl⟩ := hget i u hu
    obtain ⟨hi', rfl⟩ := hget (i + 1) v hv
    have hn' : (0 : ℝ) < n - 1 := by
      have : (2 : ℝ) ≤ n := by exact_mod_cast hn
      linarith
    refine ⟨edge_lt _ _ _ _ hn h _ _ (by omega), ?_, ?_, ?_⟩
    · intro hl
      rw [hl]
      simp only [Spec.edge, Bool.false_eq_true, if_false]
      push_cast
      ring
    · intro hl
      have ha : 0 < a := h.2 hl
      have hb : 0 < b := ha.trans h.1
      rw [hl]
      simp only [Spec.edge, if_true]
      have hba : 0 < b / a := by positivity
      have : ((i + 1 : Nat) : ℝ) / ((n : ℝ) - 1) = (i : ℝ) / (n - 1) + 1 / (n - 1) := by
        push_cast
        ring
      rw [this, Real.rpow_add hba]
      have : (0 : ℝ) < (b / a) ^ ((i : ℝ) / (n - 1)) := Real.rpow_pos_of_pos hba _
      field_simp
    · intro hsc
      refine ⟨_, hs hsc, ?_⟩
      simp only [List.getElem?_map]
      rw [List.getElem?_range (by omega)]
      simp

/-- **C112 (counts).** Without normalisation the value of a bin is the number of values in it: the lower
edge is in the bin, the upper one only in the last. Together these are all values from the lower to the
upper end of the range, each counted once; nan is not counted. -/
theorem C112_counts (o : HistOpts) (hd : o.density = false) (data : List (Option ℝ)) (n : Nat)
    (hn : 2 ≤ n) (a b : ℝ) (h : Spec.RangeOk o.logX a b) :
    ∃ d, addHist o data n (some (a, b)) = .ok d ∧
      (∀ i (u v : ℝ), d.edges[i]? = some u → d.edges[i + 1]? = some v →
        d.values[i]? = some (some (Spec.countIn (fun w => u ≤ w ∧ (w < v ∨ v = b ∧ w = b)) data : ℝ))) ∧
      (d.values.map fun v => v.getD 0).sum = (Spec.countIn (fun w => a ≤ w ∧ w ≤ b) data : ℝ) := by
  obtain ⟨places, hok, -, -⟩ := addHist_ok o data n hn a b h
  refine ⟨_, hok, ?_, ?_⟩
  · intro i u v hu hv
    have hi' : i + 1 < n := by
      have := (List.getElem?_eq_some_iff.1 hv).1
      simpa using this
    simp only [List.getElem?_map] at hu hv
    rw [List.getElem?_range (by omega)] at hu
    rw [List.getElem?_range hi'] at hv
    simp only [Option.map_some, Option.some.injEq] at hu hv
    unfold histValues
    simp only [hd, Bool.false_eq_true, if_false, List.getElem?_map, List.getElem?_zipIdx]
    rw [binCounts_get _ n data i hi']
    simp only [Option.map_some, Option.some.injEq, Nat.cast_inj]
    rw [hu, hv]
    congr 1
    funext w
    have hlast : i + 2 = n ↔ v = b := by
      have hb := edge_last o.logX a b n hn h
      rw [← hv]
      constructor
      · intro h'
        rw [show i + 1 = n - 1 by omega]
        exact hb
      · intro h'
        by_contra hne
        have := edge_lt o.logX a b n hn h (i + 1) (n - 1) (by omega)
        linarith
    rw [hlast]
    apply propext
    constructor
    · rintro ⟨h1, h2 | ⟨h2, h3⟩⟩
      · exact ⟨h1, Or.inl h2⟩
      · exact ⟨h1, Or.inr ⟨h2, by rw [h3, h2]⟩⟩
    · rintro ⟨h1, h2 | ⟨h2, h3⟩⟩
      · exact ⟨h1, Or.inl h2⟩
      · exact ⟨h1, Or.inr ⟨h2, by rw [h3, h2]⟩⟩
  · have hs := sum_binCounts (fun i => Spec.edge o.logX a b n i) n hn
      (fun i j => edge_lt _ _ _ _ hn h i j) data
    simp only [edge_first, edge_last _ _ _ _ hn h] at hs
    rw [← hs]
    unfold histValues
    simp only [hd, Bool.false_eq_true, if_false, List.map_map]
    generalize binCounts _ data = c
    have : ∀ (l : List Nat) (k : Nat), ((l.zipIdx k).map
        ((fun v : Option ℝ => v.getD 0) ∘ fun ci => some (ci.1 : ℝ))).sum = ((l.sum : Nat) : ℝ) := by
      intro l
      induction l with
      | nil => intro k; simp
      | cons x t ih =>
        intro k
        simp only [List.zipIdx_cons, List.map_cons, List.sum_cons, Nat.cast_add]
        rw [ih]
        rfl
    exact this c 0

theorem sum_range_real (m : Nat) (f : Nat → ℝ) :
    ((List.range m).map f).sum = ∑ i ∈ Finset.range m, f i := by
  induction m with
  | zero => rfl
  | succ m ih => simp [List.range_succ, Finset.sum_range_succ, ih]

theorem sum_getD (l : List Nat) :
    ((List.range l.length).map fun i => ((l.getD i 0 : Nat) : ℝ)).sum = ((l.sum : Nat) : ℝ) := by
  have : ((List.range l.length).map fun i => ((l.getD i 0 : Nat) : ℝ)) = l.map fun c : Nat => (c : ℝ) := by
    apply List.ext_getElem?
    intro i
    by_cases hi : i < l.length
    · rw [List.getElem?_map, List.getElem?_range hi, List.getElem?_map, List.getElem?_eq_getElem hi]
      show some (((l.getD i 0 : Nat) : ℝ)) = _
      rw [List.getD_eq_getElem?_getD, List.getElem?_eq_getElem hi]
      rfl
    · rw [List.getElem?_eq_none (by simpa using hi), List.getElem?_eq_none (by simpa using hi)]
  rw [this]
  clear this
  induction l with
  | nil => simp
  | cons x t ih => rw [List.map_cons, List.sum_cons, List.sum_cons, ih, Nat.cast_add]

/-- **C112 (density).** With normalisation the integral is 1 if any value is in the range, and the
values are proportional to the counts divided by the widths; otherwise all are nan. -/
theorem C112_density (o : HistOpts) (hd : o.density = true) (data : List (Option ℝ)) (n : Nat)
    (hn : 2 ≤ n) (a b : ℝ) (h : Spec.RangeOk o.logX a b) :
    ∃ d, addHist o data n (some (a, b)) = .ok d ∧
      (Spec.countIn (fun w => a ≤ w ∧ w ≤ b) data ≠ 0 →
        (∀ i (u v : ℝ), d.edges[i]? = some u → d.edges[i + 1]? = some v → ∃ y, d.values[i]? = some (some y) ∧
          y * (v - u) * Spec.countIn (fun w => a ≤ w ∧ w ≤ b) data =
            Spec.countIn (fun w => u ≤ w ∧ (w < v ∨ v = b ∧ w = b)) data) ∧
        ((List.range (n - 1)).map fun i => ((d.values.getD i none).getD 0) *
          (d.edges.getD (i + 1) 0 - d.edges.getD i 0)).sum = 1) ∧
      (Spec.countIn (fun w => a ≤ w ∧ w ≤ b) data = 0 → ∀ y ∈ d.values, y = none) := by
  obtain ⟨places, hok, -, -⟩ := addHist_ok o data n hn a b h
  obtain ⟨d', hok', hcounts, -⟩ := C112_counts { o with density := false } rfl data n hn a b h
  obtain ⟨places', hok'', -, -⟩ := addHist_ok { o with density := false } data n hn a b h
  have hX : (HistOpts.logX { o with density := false }) = o.logX := rfl
  rw [hX] at hok''
  have hdd : d' = ⟨(List.range n).map fun i => Spec.edge o.logX a b n i,
      histValues ((List.range n).map fun i => Spec.edge o.logX a b n i) data false, places'⟩ := by
    have := hok'.symm.trans hok''
    exact Except.ok.inj this
  have hs := sum_binCounts (fun i => Spec.edge o.logX a b n i) n hn
    (fun i j => edge_lt _ _ _ _ hn h i j) data
  simp only [edge_first, edge_last _ _ _ _ hn h] at hs
  have hedge : ∀ i, i < n → ((List.range n).map fun i => Spec.edge o.logX a b n i)[i]? =
      some (Spec.edge o.logX a b n i) := by
    intro i hi
    simp [List.getElem?_range hi]
  have hgetD : ∀ i, i < n → ((List.range n).map fun i => Spec.edge o.logX a b n i).getD i 0 =
      Spec.edge o.logX a b n i := by
    intro i hi
    rw [List.getD_eq_getElem?_getD, hedge i hi]
    rfl
  have hw : ∀ i, i + 1 < n → 0 < binWidth ((List.range n).map fun i => Spec.edge o.logX a b n i) i := by
    intro i hi
    unfold binWidth
    rw [hgetD _ hi, hgetD _ (by omega)]
    have := edge_lt o.logX a b n hn h i (i + 1) (by omega)
    linarith
  have hval : ∀ i, i + 1 < n → ∃ c : Nat,
      (binCounts ((List.range n).map fun i => Spec.edge o.logX a b n i) data)[i]? = some c ∧
      (histValues ((List.range n).map fun i => Spec.edge o.logX a b n i) data false)[i]? =
        some (some (c : ℝ)) := by
    intro i hi
    refine ⟨_, binCounts_get _ n data i hi, ?_⟩
    unfold histValues
    simp only [Bool.false_eq_true, if_false, List.getElem?_map, List.getElem?_zipIdx]
    rw [binCounts_get _ n data i hi]
    simp
  refine ⟨_, hok, ?_, ?_⟩
  · intro hne
    have hne' : (Spec.countIn (fun w => a ≤ w ∧ w ≤ b) data : ℝ) ≠ 0 := by exact_mod_cast hne
    have hv : ∀ i, i + 1 < n → ∀ c : Nat,
        (binCounts ((List.range n).map fun i => Spec.edge o.logX a b n i) data)[i]? = some c →
        (histValues ((List.range n).map fun i => Spec.edge o.logX a b n i) data o.density)[i]? =
          some (some ((c : ℝ) / ((Spec.countIn (fun w => a ≤ w ∧ w ≤ b) data : ℝ) *
            binWidth ((List.range n).map fun i => Spec.edge o.logX a b n i) i))) := by
      intro i hi c hc
      unfold histValues
      simp only [hd, if_true, List.getElem?_map, List.getElem?_zipIdx]
      rw [hc, hs]
      simp only [Option.map_some, Nat.zero_add]
      rw [if_neg (mul_ne_zero hne' (hw i hi).ne')]
    constructor
    · intro i u v hu hv'
      have hi : i + 1 < n := by
        have := (List.getElem?_eq_some_iff.1 hv').1
        simpa using this
      obtain ⟨c, hc, hc'⟩ := hval i hi
      refine ⟨_, hv i hi c hc, ?_⟩
      have hcc := hcounts i u v (by rw [hdd]; exact hu) (by rw [hdd]; exact hv')
      rw [hdd] at hcc
      have h2 := hc'.symm.trans hcc
      simp only [Option.some.injEq] at h2
      rw [← h2]
      have hwid : binWidth ((List.range n).map fun i => Spec.edge o.logX a b n i) i = v - u := by
        unfold binWidth
        rw [List.getD_eq_getElem?_getD, List.getD_eq_getElem?_getD, hu, hv']
        rfl
      have hw' := (hw i hi).ne'
      rw [hwid] at hw' ⊢
      field_simp
    · have hterm : ∀ i ∈ List.range (n - 1), ((((histValues ((List.range n).map fun i =>
          Spec.edge o.logX a b n i) data o.density).getD i none).getD 0) *
          (((List.range n).map fun i => Spec.edge o.logX a b n i).getD (i + 1) 0 -
            ((List.range n).map fun i => Spec.edge o.logX a b n i).getD i 0)) =
          (((binCounts ((List.range n).map fun i => Spec.edge o.logX a b n i) data).getD i 0 : Nat) : ℝ) /
            (Spec.countIn (fun w => a ≤ w ∧ w ≤ b) data : ℝ) := by
        intro i hi
        have hi' : i + 1 < n := by
          have := List.mem_range.1 hi
          omega
        obtain ⟨c, hc, -⟩ := hval i hi'
        have e1 : ((List.range n).map fun i => Spec.edge o.logX a b n i).getD (i + 1) 0 -
            ((List.range n).map fun i => Spec.edge o.logX a b n i).getD i 0 =
            binWidth ((List.range n).map fun i => Spec.edge o.logX a b n i) i := rfl
        rw [e1, List.getD_eq_getElem?_getD, hv i hi' c hc, List.getD_eq_getElem?_getD, hc]
        have hw' := (hw i hi').ne'
        simp only [Option.getD_some]
        field_simp
      rw [List.map_congr_left hterm, sum_range_real, ← Finset.sum_div]
      rw [div_eq_one_iff_eq hne']
      rw [← hs]
      have hlen : (binCounts ((List.range n).map fun i => Spec.edge o.logX a b n i) data).length =
          n - 1 := by simp [binCounts]
      generalize binCounts ((List.range n).map fun i => Spec.edge o.logX a b n i) data = l at hlen
      rw [← hlen, ← sum_range_real]
      exact sum_getD l
  · intro hz y hy
    unfold histValues at hy
    simp only [hd, if_true, hs, hz, Nat.cast_zero, zero_mul] at hy
    obtain ⟨c, -, rfl⟩ := List.mem_map.1 hy
    rfl

/-- The counts of the three values 1, 2, 4 of four in the bins from 1 to 2 and from 2 to 4. -/
example : Spec.RangeOk true 1 4 ∧ Spec.edge true 1 4 3 1 = 2 ∧
    Spec.countIn (fun w => 1 ≤ w ∧ w ≤ 4) [some 1, none, some 2, some 4, some 5] = 3 := by
  refine ⟨⟨by norm_num, fun _ => by norm_num⟩, ?_, ?_⟩
  · simp only [Spec.edge, if_true]
    norm_num
  · simp [Spec.countIn, List.countP_cons]
    norm_num

/-- **C112 (options).** The types of axes, in any case, and plots that are accepted; a plot given to
`create` keeps its own. -/
theorem C112_options (plotType axesType : Str) (density : Bool) :
    ((∃ o, histNew plotType axesType density = .ok o) ↔
      (lowerStr axesType = lit "linear" ∨ lowerStr axesType = lit "logx" ∨
        lowerStr axesType = lit "logy" ∨ lowerStr axesType = lit "loglog") ∧
      (plotType = lit "scatter" ∨ plotType = lit "bar" ∨ plotType = lit "step")) ∧
    (∀ o, histNew plotType axesType density = .ok o →
      o.plotType = plotType ∧ o.density = density ∧
      (o.logX = true ↔ lowerStr axesType = lit "logx" ∨ lowerStr axesType = lit "loglog")) ∧
    (∀ e, histNew plotType axesType density = .error e → e = .valueError) ∧
    (∀ o data bins range, histCreate (some o) plotType axesType density data bins range =
      (addHist o data bins range).map fun d => (o, d)) := by
  refine ⟨?_, ?_, ?_, fun _ _ _ _ => rfl⟩
  · unfold histNew
    constructor
    · rintro ⟨o, ho⟩
      split_ifs at ho with h1 h2
      simp only [List.mem_cons, List.not_mem_nil, or_false] at h1 h2
      refine ⟨?_, h2⟩
      rcases h1 with h | h | h | h
      · exact Or.inl h
      · exact Or.inr (Or.inr (Or.inl h))
      · exact Or.inr (Or.inl h)
      · exact Or.inr (Or.inr (Or.inr h))
    · rintro ⟨h1, h2⟩
      rw [if_pos, if_pos]
      · exact ⟨_, rfl⟩
      · simp only [List.mem_cons, List.not_mem_nil, or_false]
        exact h2
      · simp only [List.mem_cons, List.not_mem_nil, or_false]
        rcases h1 with h | h | h | h
        · exact Or.inl h
        · exact Or.inr (Or.inr (Or.inl h))
        · exact Or.inr (Or.inl h)
        · exact Or.inr (Or.inr (Or.inr h))
  · intro o ho
    unfold histNew at ho
    split_ifs at ho with h1 h2
    cases ho
    exact ⟨rfl, rfl, by simp [HistOpts.logX]⟩
  · intro e he
    unfold histNew at he
    split_ifs at he <;> cases he <;> rfl

/-- **C112 (false for documented defaults and options).** Without a range, the default, every histogram
is a `TypeError`; the axes type `None` and the plot type `barfilled` are refused. -/
theorem C112_documented :
    (∀ o data bins, addHist o data bins none = .error .typeError) ∧
    (∀ plotType density, histNew plotType (lit "None") density = .error .valueError) ∧
    (∀ axesType density, histNew (lit "barfilled") axesType density = .error .valueError) := by
  refine ⟨fun _ _ _ => rfl, fun plotType density => ?_, fun axesType density => ?_⟩
  · unfold histNew
    rw [if_neg (by decide +kernel)]
  · unfold histNew
    split_ifs with h1 h2
    · exact absurd h2 (by decide +kernel)
    · rfl
    · rfl

/-- **C112 (refused ranges).** A reversed range on a linear axis is a `ValueError`, and so is a negative
number of bins. -/
theorem C112_reversed (o : HistOpts) (data : List (Option ℝ)) (a b : ℝ) :
    (∀ n : Nat, 2 ≤ n → b < a → o.logX = false →
      addHist o data n (some (a, b)) = .error .valueError) ∧
    (∀ n : Int, n < 0 → addHist o data n (some (a, b)) = .error .valueError) := by
  constructor
  · intro n hn hba hl
    have hneg : ¬ ((n : Int) < 0) := by omega
    simp only [addHist, if_neg hneg, Int.toNat_natCast]
    unfold drawHist
    rw [if_pos]
    have hn1 : n ≠ 1 := by omega
    have hn' : (0 : ℝ) < n - 1 := by
      have : (2 : ℝ) ≤ n := by exact_mod_cast hn
      linarith
    have hg : ∀ i < n, (histEdges o.logX a b n)[i]? = some (a + i * ((b - a) / (n - 1))) := by
      intro i hi
      rw [hl]
      simp [histEdges, histSpace, List.getElem?_range hi, hn1]
    refine ⟨0, _, _, hg 0 (by omega), hg 1 (by omega), ?_⟩
    have : (b - a) / ((n : ℝ) - 1) < 0 := div_neg_of_neg_of_pos (by linarith) hn'
    push_cast
    linarith
  · intro n hn
    simp only [addHist, if_pos hn]

end DefDAP
