import Verif.Props.Hist

/-! C171: histograms of joined, reordered, rescaled and noisy data, and with finer bins. -/

namespace DefDAP

/-- The values apart from nan, in their order. -/
def Spec.numbers (data : List (Option ℝ)) : List ℝ := data.filterMap id

/-- Data of which every value is changed by at most `ε`, with nan at the same places. -/
def Spec.Noisy (ε : ℝ) (data data' : List (Option ℝ)) : Prop :=
  List.Forall₂ (fun v v' => (v = none ∧ v' = none) ∨
    ∃ w w', v = some w ∧ v' = some w' ∧ |w' - w| ≤ ε) data data'

/-! ### Counting -/

theorem countIn_append (p : ℝ → Prop) (s t : List (Option ℝ)) :
    Spec.countIn p (s ++ t) = Spec.countIn p s + Spec.countIn p t := by
  classical
  unfold Spec.countIn
  rw [List.countP_append]

theorem countIn_numbers (p : ℝ → Prop) (data : List (Option ℝ)) :
    Spec.countIn p data = (open Classical in (Spec.numbers data).countP fun w => decide (p w)) := by
  classical
  induction data with
  | nil => rfl
  | cons v t ih =>
    rw [countIn_cons, ih]
    cases v with
    | none => simp [Spec.numbers]
    | some w =>
      simp only [Spec.numbers, List.filterMap_cons, id, List.countP_cons, Option.some.injEq,
        exists_eq_left', decide_eq_true_eq]

theorem countIn_split (p q r : ℝ → Prop) (h : ∀ w, p w ↔ q w ∨ r w) (hd : ∀ w, q w → ¬ r w)
    (data : List (Option ℝ)) :
    Spec.countIn p data = Spec.countIn q data + Spec.countIn r data := by
  classical
  induction data with
  | nil => rfl
  | cons v t ih =>
    rw [countIn_cons, countIn_cons, countIn_cons, ih]
    cases v with
    | none => simp
    | some w =>
      simp only [Option.some.injEq, exists_eq_left']
      have := h w
      have := hd w
      by_cases hq : q w <;> by_cases hr : r w <;> simp_all <;> omega

theorem countIn_map (p : ℝ → Prop) (f : ℝ → ℝ) (data : List (Option ℝ)) :
    Spec.countIn p (data.map fun v => v.map f) = Spec.countIn (fun w => p (f w)) data := by
  classical
  induction data with
  | nil => rfl
  | cons v t ih =>
    rw [List.map_cons, countIn_cons, countIn_cons, ih]
    cases v with
    | none => simp
    | some w => simp

theorem countIn_noisy (ε : ℝ) (p q : ℝ → Prop)
    (h : ∀ w w', |w' - w| ≤ ε → ¬ (p w ↔ p w') → q w) (data data' : List (Option ℝ))
    (hn : Spec.Noisy ε data data') :
    |(Spec.countIn p data' : ℝ) - Spec.countIn p data| ≤ Spec.countIn q data := by
  classical
  unfold Spec.Noisy at hn
  induction hn with
  | nil => simp [Spec.countIn]
  | cons hv _ ih =>
    rw [countIn_cons, countIn_cons, countIn_cons]
    rw [abs_le] at ih ⊢
    rcases hv with ⟨rfl, rfl⟩ | ⟨w, w', rfl, rfl, hw⟩
    · simpa using ih
    · have := h w w' hw
      simp only [Option.some.injEq, exists_eq_left']
      push_cast
      by_cases h1 : p w <;> by_cases h2 : p w' <;> by_cases h3 : q w <;>
        simp_all <;> constructor <;> linarith

/-! ### The property -/

theorem binCounts_numbers (edges : List ℝ) (data data' : List (Option ℝ))
    (h : (Spec.numbers data).Perm (Spec.numbers data')) :
    binCounts edges data = binCounts edges data' := by
  classical
  have key : ∀ (i : Nat) (l : List (Option ℝ)), (l.countP fun v => decide (inBin edges i v)) =
      (Spec.numbers l).countP fun w => decide (inBin edges i (some w)) := by
    intro i l
    induction l with
    | nil => rfl
    | cons v t ih =>
      cases v with
      | none => simpa [Spec.numbers, inBin] using ih
      | some w =>
        simp only [Spec.numbers, List.filterMap_cons, id, List.countP_cons] at ih ⊢
        rw [ih]
  unfold binCounts
  apply List.map_congr_left
  intro i _
  have h1 := key i data
  have h2 := key i data'
  have h3 := h.countP_eq (fun w => decide (inBin edges i (some w)))
  convert (h1.trans (h3.trans h2.symm)) using 2

/-- **C171 (order).** Only the numbers matter, not their order and not how many values are nan or where. -/
theorem C171_order (o : HistOpts) (data data' : List (Option ℝ)) (bins : Int) (hb : bins ≠ 0)
    (range : Option (ℝ × ℝ)) (h : (Spec.numbers data).Perm (Spec.numbers data')) :
    addHist o data bins range = addHist o data' bins range := by
  classical
  unfold addHist
  cases range with
  | none => rfl
  | some r =>
    simp only
    split_ifs with hneg
    · rfl
    · have he : histEdges o.logX r.1 r.2 bins.toNat ≠ [] := by
        intro h0
        have hl := congrArg List.length h0
        have : 0 < bins.toNat := by omega
        revert hl
        unfold histEdges histSpace
        cases o.logX <;> simp <;> omega
      unfold drawHist
      simp only [he, false_and, if_false]
      unfold histValues
      rw [binCounts_numbers _ data data' h]

/-- The histogram without normalisation. -/
theorem addHist_counts (o : HistOpts) (hd : o.density = false) (data : List (Option ℝ)) (n : Nat)
    (hn : 2 ≤ n) (a b : ℝ) (h : Spec.RangeOk o.logX a b) :
    ∃ d, addHist o data n (some (a, b)) = .ok d ∧
      d.edges = ((List.range n).map fun i => Spec.edge o.logX a b n i) ∧ d.values.length = n - 1 ∧
      ∀ i, i + 1 < n → d.values[i]? = some (some (Spec.countIn (fun w =>
        Spec.edge o.logX a b n i ≤ w ∧ (w < Spec.edge o.logX a b n (i + 1) ∨
          i + 2 = n ∧ w = Spec.edge o.logX a b n (i + 1))) data : ℝ)) := by
  obtain ⟨places, hok, -, -⟩ := addHist_ok o data n hn a b h
  refine ⟨_, hok, rfl, by simp [histValues, binCounts], ?_⟩
  intro i hi
  unfold histValues
  simp only [hd, Bool.false_eq_true, if_false, List.getElem?_map, List.getElem?_zipIdx]
  rw [binCounts_get _ n data i hi]
  simp

/-- **C171 (joined).** Without normalisation the histogram of two sets of data together has in every bin
the sum of the values of the two histograms. -/
theorem C171_joined (o : HistOpts) (hd : o.density = false) (s t : List (Option ℝ)) (n : Nat)
    (hn : 2 ≤ n) (a b : ℝ) (h : Spec.RangeOk o.logX a b) :
    ∃ ds dt d, addHist o s n (some (a, b)) = .ok ds ∧ addHist o t n (some (a, b)) = .ok dt ∧
      addHist o (s ++ t) n (some (a, b)) = .ok d ∧ d.edges = ds.edges ∧ d.edges = dt.edges ∧
      ∀ i, i + 1 < n → ∃ x y : ℝ, ds.values[i]? = some (some x) ∧ dt.values[i]? = some (some y) ∧
        d.values[i]? = some (some (x + y)) := by
  obtain ⟨ds, h1, e1, -, v1⟩ := addHist_counts o hd s n hn a b h
  obtain ⟨dt, h2, e2, -, v2⟩ := addHist_counts o hd t n hn a b h
  obtain ⟨d, h3, e3, -, v3⟩ := addHist_counts o hd (s ++ t) n hn a b h
  refine ⟨ds, dt, d, h1, h2, h3, by rw [e3, e1], by rw [e3, e2], ?_⟩
  intro i hi
  refine ⟨_, _, v1 i hi, v2 i hi, ?_⟩
  rw [v3 i hi, countIn_append]
  push_cast
  rfl

/-- **C171 (noise).** Without normalisation, if every value is changed by at most `ε`, the value of a bin
changes at most by the number of values within `ε` of one of its two edges. -/
theorem C171_noise (o : HistOpts) (hd : o.density = false) (data data' : List (Option ℝ)) (ε : ℝ)
    (hε : Spec.Noisy ε data data') (n : Nat) (hn : 2 ≤ n) (a b : ℝ) (h : Spec.RangeOk o.logX a b) :
    ∃ d d', addHist o data n (some (a, b)) = .ok d ∧ addHist o data' n (some (a, b)) = .ok d' ∧
      d'.edges = d.edges ∧
      ∀ i (u v : ℝ), d.edges[i]? = some u → d.edges[i + 1]? = some v →
        ∃ x x' : ℝ, d.values[i]? = some (some x) ∧ d'.values[i]? = some (some x') ∧
          |x' - x| ≤ Spec.countIn (fun w => |w - u| ≤ ε ∨ |w - v| ≤ ε) data := by
  obtain ⟨d, h1, e1, -, v1⟩ := addHist_counts o hd data n hn a b h
  obtain ⟨d', h2, e2, -, v2⟩ := addHist_counts o hd data' n hn a b h
  refine ⟨d, d', h1, h2, by rw [e1, e2], ?_⟩
  intro i u v hu hv
  rw [e1] at hu hv
  have hi : i + 1 < n := by
    have := (List.getElem?_eq_some_iff.1 hv).1
    simpa using this
  simp only [List.getElem?_map] at hu hv
  rw [List.getElem?_range (by omega)] at hu
  rw [List.getElem?_range hi] at hv
  simp only [Option.map_some, Option.some.injEq] at hu hv
  refine ⟨_, _, v1 i hi, v2 i hi, ?_⟩
  rw [hu, hv]
  refine countIn_noisy ε _ _ ?_ data data' hε
  intro w w' hw hne
  by_contra hq
  push Not at hq
  obtain ⟨q1, q2⟩ := hq
  apply hne
  rw [abs_le] at hw
  have f1 : u ≤ w ↔ u ≤ w' := by
    rcases lt_abs.1 q1 with q | q
    · exact ⟨fun _ => by linarith, fun _ => by linarith⟩
    · exact ⟨fun _ => by linarith, fun _ => by linarith⟩
  have f2 : w < v ↔ w' < v := by
    rcases lt_abs.1 q2 with q | q
    · exact ⟨fun _ => by linarith, fun _ => by linarith⟩
    · exact ⟨fun _ => by linarith, fun _ => by linarith⟩
  have f3 : ¬ w = v := by
    rintro rfl
    rw [sub_self, abs_zero] at q2
    linarith
  have f4 : ¬ w' = v := by
    rintro rfl
    rcases lt_abs.1 q2 with q | q <;> linarith
  rw [f1, f2]
  simp [f3, f4]

/-- The edges follow a change of units. -/
theorem edge_units (log : Bool) (a b c s : ℝ) (n i : Nat) (ha : log = true → 0 < a) (hc : 0 < c)
    (hs : log = true → s = 0) :
    Spec.edge log (c * a + s) (c * b + s) n i = c * Spec.edge log a b n i + s := by
  cases log with
  | false =>
    simp only [Spec.edge, Bool.false_eq_true, if_false]
    ring
  | true =>
    have := ha rfl
    rw [hs rfl]
    simp only [Spec.edge, if_true, add_zero]
    rw [mul_div_mul_left _ _ hc.ne']
    ring

/-- **C171 (units).** Data and range in other units (`c` times as large, on a linear axis also shifted by
`s`) have the same counts, between edges in the new units; normalised values are divided by `c`. -/
theorem C171_units (o : HistOpts) (data : List (Option ℝ)) (n : Nat) (hn : 2 ≤ n) (a b : ℝ)
    (h : Spec.RangeOk o.logX a b) (c s : ℝ) (hc : 0 < c) (hs : o.logX = true → s = 0) :
    ∃ d d', addHist o data n (some (a, b)) = .ok d ∧
      addHist o (data.map fun v => v.map fun w => c * w + s) n (some (c * a + s, c * b + s)) = .ok d' ∧
      d'.edges = d.edges.map (fun u => c * u + s) ∧
      (o.density = false → d'.values = d.values) ∧
      (o.density = true → d'.values = d.values.map fun v => v.map fun y => y / c) := by
  have h' : Spec.RangeOk o.logX (c * a + s) (c * b + s) := by
    refine ⟨by nlinarith [h.1], fun hl => ?_⟩
    rw [hs hl, add_zero]
    exact mul_pos hc (h.2 hl)
  obtain ⟨p, hok, -, -⟩ := addHist_ok o data n hn a b h
  obtain ⟨p', hok', -, -⟩ := addHist_ok o (data.map fun v => v.map fun w => c * w + s) n hn _ _ h'
  have hedge : ∀ i, Spec.edge o.logX (c * a + s) (c * b + s) n i = c * Spec.edge o.logX a b n i + s :=
    fun i => edge_units _ _ _ _ _ _ _ h.2 hc hs
  have hcounts : binCounts ((List.range n).map fun i => Spec.edge o.logX (c * a + s) (c * b + s) n i)
        (data.map fun v => v.map fun w => c * w + s) =
      binCounts ((List.range n).map fun i => Spec.edge o.logX a b n i) data := by
    apply List.ext_getElem?
    intro i
    by_cases hi : i + 1 < n
    · rw [binCounts_get _ n _ i hi, binCounts_get _ n _ i hi, countIn_map]
      congr 2
      funext w
      rw [hedge, hedge]
      apply propext
      have e1 : ∀ x : ℝ, c * x + s ≤ c * w + s ↔ x ≤ w := fun x =>
        ⟨fun hh => by nlinarith, fun hh => by nlinarith⟩
      have e2 : ∀ x : ℝ, c * w + s < c * x + s ↔ w < x := fun x =>
        ⟨fun hh => by nlinarith, fun hh => by nlinarith⟩
      have e3 : ∀ x : ℝ, c * w + s = c * x + s ↔ w = x := fun x =>
        ⟨fun hh => mul_left_cancel₀ hc.ne' (by linarith), fun hh => by rw [hh]⟩
      rw [e1, e2, e3]
    · rw [List.getElem?_eq_none (by simp [binCounts]; omega),
        List.getElem?_eq_none (by simp [binCounts]; omega)]
  refine ⟨_, _, hok, hok', ?_, ?_, ?_⟩
  · simp only [List.map_map]
    apply List.map_congr_left
    intro i _
    exact hedge i
  · intro hd
    unfold histValues
    rw [hcounts]
    simp only [hd, Bool.false_eq_true, if_false]
  · intro hd
    unfold histValues
    rw [hcounts]
    simp only [hd, if_true, List.map_map]
    apply List.map_congr_left
    rintro ⟨k, i⟩ hki
    have hi : i + 1 < n := by
      have := List.snd_lt_of_mem_zipIdx hki
      simp [binCounts] at this
      omega
    have hw : binWidth ((List.range n).map fun i => Spec.edge o.logX (c * a + s) (c * b + s) n i) i =
        c * binWidth ((List.range n).map fun i => Spec.edge o.logX a b n i) i := by
      unfold binWidth
      simp only [List.getD_eq_getElem?_getD, List.getElem?_map]
      rw [List.getElem?_range hi, List.getElem?_range (show i < n by omega)]
      simp only [Option.map_some, Option.getD_some, hedge]
      ring
    simp only [Function.comp, hw]
    set S : ℝ := ((binCounts ((List.range n).map fun i => Spec.edge o.logX a b n i) data).sum : ℝ)
    set W := binWidth ((List.range n).map fun i => Spec.edge o.logX a b n i) i
    by_cases h0 : S * W = 0
    · rw [if_pos h0, if_pos (by rw [mul_left_comm, h0, mul_zero])]
      rfl
    · rw [if_neg h0, if_neg (by rw [mul_left_comm]; exact mul_ne_zero hc.ne' h0)]
      simp only [Option.map_some, Option.some.injEq]
      rw [mul_left_comm, div_div, mul_comm c]

/-- Bins within a bin. -/
theorem countIn_bins (g : Nat → ℝ) (hg : ∀ i j, i < j → g i < g j) (data : List (Option ℝ)) (m : Nat) :
    Spec.countIn (fun w => g 0 ≤ w ∧ w < g m) data =
      ((List.range m).map fun k => Spec.countIn (fun w => g k ≤ w ∧ w < g (k + 1)) data).sum := by
  induction m with
  | zero =>
    have : (fun w : ℝ => g 0 ≤ w ∧ w < g 0) = fun _ => False := by
      funext w
      apply propext
      constructor
      · rintro ⟨h1, h2⟩
        linarith
      · exact False.elim
    rw [this]
    simp [Spec.countIn]
  | succ m ih =>
    rw [List.range_succ, List.map_append, List.sum_append, ← ih]
    simp only [List.map_cons, List.map_nil, List.sum_cons, List.sum_nil, add_zero]
    have h0 : g 0 ≤ g m := by
      rcases Nat.eq_zero_or_pos m with rfl | hm
      · exact le_rfl
      · exact (hg 0 m hm).le
    have h1 := hg m (m + 1) (by omega)
    apply countIn_split
    · intro w
      constructor
      · rintro ⟨a1, a2⟩
        rcases lt_or_ge w (g m) with hw | hw
        · exact Or.inl ⟨a1, hw⟩
        · exact Or.inr ⟨hw, a2⟩
      · rintro (⟨a1, a2⟩ | ⟨a1, a2⟩)
        · exact ⟨a1, by linarith⟩
        · exact ⟨by linarith, a2⟩
    · rintro w ⟨_, a2⟩ ⟨a3, _⟩
      linarith

/-- **C171 (finer).** With `m` bins instead of each bin the counts of these add up to the count of the
bin: nothing is lost or counted twice. -/
theorem C171_finer (o : HistOpts) (hd : o.density = false) (data : List (Option ℝ)) (n m : Nat)
    (hn : 2 ≤ n) (hm : 1 ≤ m) (a b : ℝ) (h : Spec.RangeOk o.logX a b) :
    ∃ d d', addHist o data n (some (a, b)) = .ok d ∧
      addHist o data (m * (n - 1) + 1 : Nat) (some (a, b)) = .ok d' ∧
      (∀ i, i < n → d'.edges[i * m]? = d.edges[i]?) ∧
      ∀ i, i + 1 < n → ∃ x : ℝ, d.values[i]? = some (some x) ∧ ∃ y : Nat → ℝ,
        (∀ k, k < m → d'.values[i * m + k]? = some (some (y k))) ∧
        x = ((List.range m).map y).sum := by
  have hN : 2 ≤ m * (n - 1) + 1 := by nlinarith [show 1 ≤ n - 1 by omega]
  obtain ⟨d, h1, e1, -, v1⟩ := addHist_counts o hd data n hn a b h
  obtain ⟨d', h2, e2, -, v2⟩ := addHist_counts o hd data (m * (n - 1) + 1) hN a b h
  have hn1 : ((n - 1 : Nat) : ℝ) = n - 1 := by
    rw [Nat.cast_sub (by omega)]
    simp
  have hn0 : (n : ℝ) - 1 ≠ 0 := by
    have : (2 : ℝ) ≤ n := by exact_mod_cast hn
    linarith
  have hm0 : (m : ℝ) ≠ 0 := by
    have : (1 : ℝ) ≤ m := by exact_mod_cast hm
    linarith
  have hedge : ∀ i, Spec.edge o.logX a b (m * (n - 1) + 1) (i * m) = Spec.edge o.logX a b n i := by
    intro i
    have : ((i * m : Nat) : ℝ) / (((m * (n - 1) + 1 : Nat) : ℝ) - 1) = (i : ℝ) / (n - 1) := by
      push_cast
      rw [hn1]
      field_simp
      ring
    unfold Spec.edge
    rw [this]
  refine ⟨d, d', h1, h2, ?_, ?_⟩
  · intro i hi
    have : i * m ≤ (n - 1) * m := Nat.mul_le_mul_right m (by omega)
    have : i * m < m * (n - 1) + 1 := by rw [mul_comm m]; omega
    rw [e1, e2, List.getElem?_map, List.getElem?_map, List.getElem?_range this, List.getElem?_range hi]
    simp only [Option.map_some]
    rw [hedge]
  · intro i hi
    have hle : (i + 1) * m ≤ m * (n - 1) := by
      rw [mul_comm m]
      exact Nat.mul_le_mul_right m (by omega)
    have hexp : (i + 1) * m = i * m + m := by ring
    refine ⟨_, v1 i hi, fun k => (Spec.countIn (fun w =>
        Spec.edge o.logX a b (m * (n - 1) + 1) (i * m + k) ≤ w ∧
        (w < Spec.edge o.logX a b (m * (n - 1) + 1) (i * m + k + 1) ∨
          i * m + k + 2 = m * (n - 1) + 1 ∧
            w = Spec.edge o.logX a b (m * (n - 1) + 1) (i * m + k + 1))) data : ℝ), ?_, ?_⟩
    · intro k hk
      exact v2 (i * m + k) (by omega)
    · obtain ⟨m', rfl⟩ : ∃ m', m = m' + 1 := ⟨m - 1, by omega⟩
      set g : Nat → ℝ := fun k => Spec.edge o.logX a b ((m' + 1) * (n - 1) + 1) (i * (m' + 1) + k)
        with hgdef
      have hg : ∀ j k, j < k → g j < g k := fun j k hjk =>
        edge_lt o.logX a b _ hN h _ _ (by omega)
      have hb0 : Spec.edge o.logX a b n i = g 0 := by
        rw [← hedge i]
        rfl
      have hb1 : Spec.edge o.logX a b n (i + 1) = g (m' + 1) := by
        rw [← hedge (i + 1), hexp]
      have hlast : i * (m' + 1) + m' + 2 = (m' + 1) * (n - 1) + 1 ↔ i + 2 = n := by
        constructor
        · intro hh
          have : (m' + 1) * (i + 1) = (m' + 1) * (n - 1) := by
            rw [mul_comm (m' + 1) (i + 1), hexp]
            omega
          have := Nat.eq_of_mul_eq_mul_left (by omega) this
          omega
        · intro hh
          have : n - 1 = i + 1 := by omega
          rw [this, mul_comm (m' + 1) (i + 1), hexp]
          omega
      rw [List.range_succ, List.map_append, List.sum_append]
      have hfirst : (List.range m').map (fun k => (Spec.countIn (fun w =>
          Spec.edge o.logX a b ((m' + 1) * (n - 1) + 1) (i * (m' + 1) + k) ≤ w ∧
          (w < Spec.edge o.logX a b ((m' + 1) * (n - 1) + 1) (i * (m' + 1) + k + 1) ∨
            i * (m' + 1) + k + 2 = (m' + 1) * (n - 1) + 1 ∧
              w = Spec.edge o.logX a b ((m' + 1) * (n - 1) + 1) (i * (m' + 1) + k + 1))) data : ℝ)) =
          (List.range m').map (fun k => (Spec.countIn (fun w => g k ≤ w ∧ w < g (k + 1)) data : ℝ)) := by
        apply List.map_congr_left
        intro k hk
        have hk' := List.mem_range.1 hk
        have : ¬ i * (m' + 1) + k + 2 = (m' + 1) * (n - 1) + 1 := by omega
        simp only [this, false_and, or_false]
        rfl
      rw [hfirst]
      have hsum := countIn_bins g hg data m'
      have hcast : ((List.range m').map fun k =>
          (Spec.countIn (fun w => g k ≤ w ∧ w < g (k + 1)) data : ℝ)).sum =
          (Spec.countIn (fun w => g 0 ≤ w ∧ w < g m') data : ℝ) := by
        rw [hsum, Nat.cast_list_sum, List.map_map]
        rfl
      rw [hcast]
      simp only [List.map_cons, List.map_nil, List.sum_cons, List.sum_nil, add_zero]
      rw [hlast, hb0, hb1]
      rw [countIn_split (fun w => g 0 ≤ w ∧ (w < g (m' + 1) ∨ i + 2 = n ∧ w = g (m' + 1)))
        (fun w => g 0 ≤ w ∧ w < g m')
        (fun w => g m' ≤ w ∧ (w < g (m' + 1) ∨ i + 2 = n ∧ w = g (m' + 1)))]
      · push_cast
        rfl
      · have h0 : g 0 ≤ g m' := by
          rcases Nat.eq_zero_or_pos m' with rfl | hm'
          · exact le_rfl
          · exact (hg 0 m' hm').le
        have h1 := hg m' (m' + 1) (by omega)
        intro w
        constructor
        · rintro ⟨a1, a2⟩
          rcases lt_or_ge w (g m') with hw | hw
          · exact Or.inl ⟨a1, hw⟩
          · exact Or.inr ⟨hw, a2⟩
        · rintro (⟨a1, a2⟩ | ⟨a1, a2⟩)
          · exact ⟨a1, Or.inl (by linarith)⟩
          · exact ⟨by linarith, a2⟩
      · rintro w ⟨_, a2⟩ ⟨a3, _⟩
        linarith

/-! ### Concrete cases -/

/-- Data with nan in another order. -/
example : (Spec.numbers [some 1, none, some 3]).Perm (Spec.numbers [some 3, some 1]) := by
  simp only [Spec.numbers, List.filterMap_cons, List.filterMap_nil, id]
  exact List.Perm.swap _ _ _

/-- Noise of a tenth, with nan. -/
example : Spec.Noisy (1 / 10) [some 1, none, some 3] [some (11 / 10), none, some 3] := by
  unfold Spec.Noisy
  refine .cons (Or.inr ⟨1, 11 / 10, rfl, rfl, ?_⟩) (.cons (Or.inl ⟨rfl, rfl⟩)
    (.cons (Or.inr ⟨3, 3, rfl, rfl, ?_⟩) .nil))
  · rw [abs_le]; constructor <;> norm_num
  · norm_num

/-- Ranges on both kinds of axis. -/
example : Spec.RangeOk false (-1) 4 ∧ Spec.RangeOk true 1 100 := by
  refine ⟨⟨by norm_num, by simp⟩, by norm_num, by norm_num⟩

end DefDAP
