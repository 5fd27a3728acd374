import Verif.Model.Components
import Verif.Proofs.Text
import Verif.Props.Datastore
import Mathlib.Tactic.Linarith
import Mathlib.Algebra.BigOperators.Group.List.Basic

/-! # C93: components of map and grain data -/

namespace DefDAP

/-- What a plot of a component needs: the item is of the right kind and its data has `order`
component axes before the pixel axes `pixels`. -/
structure Spec.Plottable (kind : Str) (store : Str → Option PlotItem) (name : Str) (it : PlotItem)
    (comps pixels : List Nat) : Prop where
  stored : store name = some it
  kind : it.kind = kind
  order : it.order = some comps.length
  shape : it.data.shape = comps ++ pixels

/-- A tuple of components within the ranges, counted from 0. -/
def Spec.InRange (comps : List Nat) (t : List Nat) : Prop := List.Forall₂ (fun n i => i < n) comps t

/-- All tuples of components. -/
def Spec.allTuples : List Nat → List (List Nat)
  | [] => [[]]
  | n :: ns => (List.range n).flatMap fun i => (Spec.allTuples ns).map (i :: ·)

/-- The stored plot parameters are a dictionary (no key twice), the label in it is a string or
missing, and the binning is not zero: what the library stores. -/
structure Spec.SaneParams (it : PlotItem) : Prop where
  nodup : (dkeys it.params).Nodup
  binning : it.binning ≠ 0
  label : dget it.params "clabel" = none ∨ dget it.params "clabel" = some .none ∨
    ∃ s, dget it.params "clabel" = some (.str s)

theorem dget_mem {κ α : Type} [DecidableEq κ] : ∀ {l : List (κ × α)} {k : κ} {v : α},
    (dkeys l).Nodup → (k, v) ∈ l → dget l k = some v
  | (k', v') :: t, k, v, hn, h => by
    rw [dkeys_cons, List.nodup_cons] at hn
    rw [dget]
    rcases List.mem_cons.1 h with h | h
    · cases h; simp
    · have : k' ≠ k := by
        rintro rfl
        exact hn.1 (List.mem_map.2 ⟨(k', v), h, rfl⟩)
      rw [if_neg this]
      exact dget_mem hn.2 h

theorem dget_copy {κ α : Type} [DecidableEq κ] {l : List (κ × α)} (hn : (dkeys l).Nodup) (k : κ)
    (d : List (κ × α)) : dget (dupdate d l) k = (dget l k).or (dget d k) := by
  rw [dget_dupdate]
  congr 1
  by_cases h : k ∈ dkeys l
  · obtain ⟨p, hp, rfl⟩ := List.mem_map.1 h
    obtain ⟨k, v⟩ := p
    rw [dget_mem hn hp, dget_mem (v := v)]
    · unfold dkeys; rw [List.map_reverse]; exact List.nodup_reverse.2 hn
    · simpa using hp
  · rw [(dget_eq_none _ _).2 h, (dget_eq_none _ _).2]
    unfold dkeys at h ⊢
    rw [List.map_reverse]; simpa using h

theorem labelled_ok {it : PlotItem} (h : Spec.SaneParams it) (comp : Option Comp) :
    ∃ r, labelled comp it.unit (dupdate [] it.params) = .ok r := by
  have hc : dget (dupdate [] it.params) "clabel" = dget it.params "clabel" := by
    rw [dget_copy h.nodup]; simp [dget]
  unfold labelled
  rw [hc]
  rcases h.label with h | h | ⟨s, h⟩ <;> rw [h] <;> exact ⟨_, rfl⟩

theorem scaled_ok {it : PlotItem} (h : Spec.SaneParams it) (scale : Option ℚ)
    (ps : List (String × PVal)) : ∃ r, scaled scale it.binning ps = .ok r := by
  unfold scaled
  cases scale with
  | none => exact ⟨_, rfl⟩
  | some s => simp [h.binning]

theorem validateItem_ok {kind : Str} {store : Str → Option PlotItem} {name : Str} {it : PlotItem}
    {comps pixels : List Nat} (h : Spec.Plottable kind store name it comps pixels) :
    validateItem kind (store name) = .ok (it, comps.length) := by
  unfold validateItem
  rw [h.stored]
  simp [h.kind, h.order]

/-- Everything but the data: the outcome is that of the selection. -/
theorem plotMap_select {kind : Str} {pix : Nat} {p : Painter} {scale : Option ℚ}
    {store : Str → Option PlotItem} {name : Str} {it : PlotItem} {comps pixels : List Nat}
    (h : Spec.Plottable kind store name it comps pixels) (hs : Spec.SaneParams it)
    (component : Option Comp) (kwargs : List (String × PVal)) :
    (∃ params, plotMap kind pix p scale store name component kwargs =
      ((validateComp it comps.length component).bind fun c =>
        extractComp p pix it.data c).map fun a => (a, params)) := by
  unfold plotMap
  rw [validateItem_ok h]
  cases hc : validateComp it comps.length component with
  | error e => exact ⟨[], by simp [Except.bind, Except.map, hc]⟩
  | ok c =>
    obtain ⟨r, hr⟩ := labelled_ok hs c
    obtain ⟨r2, hr2⟩ := scaled_ok hs scale r
    refine ⟨dupdate r2 kwargs, ?_⟩
    simp only [Except.bind, hc, hr, hr2]
    cases extractComp p pix it.data c <;> rfl

/-! ### Picking -/

theorem axisIndex_nat {n i : Nat} (h : i < n) : axisIndex n (i : Int) = .ok i := by
  unfold axisIndex
  rw [if_pos (by omega), if_pos (by omega)]
  simp

theorem axisIndices_nat (rest : List Nat) : ∀ {comps t : List Nat}, Spec.InRange comps t →
    axisIndices (comps ++ rest) (t.map fun (i : Nat) => (i : Int)) = .ok t
  | _, _, .nil => by simp [axisIndices]
  | _, _, .cons (l₁ := l₁) (l₂ := l₂) h hs => by
    have := axisIndices_nat rest hs
    simp only [List.cons_append, List.map_cons, axisIndices, axisIndex_nat h, Except.bind, this]

theorem inRange_length {comps t : List Nat} (h : Spec.InRange comps t) : t.length = comps.length :=
  (List.Forall₂.length_eq h).symm

/-- **C93**: a tuple of components in range shows those components: the result has the shape of the
pixels and its value at every pixel is the value of the component there. Maps and grains. -/
theorem C93_component {kind : Str} {pix : Nat} {p : Painter} {scale : Option ℚ}
    {store : Str → Option PlotItem} {name : Str} {it : PlotItem} {comps pixels t : List Nat}
    (h : Spec.Plottable kind store name it comps pixels) (hs : Spec.SaneParams it)
    (ht : Spec.InRange comps t) (kwargs : List (String × PVal)) :
    ∃ a params, plotMap kind pix p scale store name
        (some (.tuple (t.map fun (i : Nat) => (i : Int)))) kwargs = .ok (a, params) ∧
      a.shape = pixels ∧ ∀ pixel : List Nat, a.get pixel = it.data.get (t ++ pixel) := by
  obtain ⟨params, e⟩ := plotMap_select (p := p) (pix := pix) (scale := scale) h hs
    (some (.tuple (t.map fun (i : Nat) => (i : Int)))) kwargs
  refine ⟨⟨pixels, fun idx => it.data.get (t ++ idx)⟩, params, ?_, rfl, fun _ => rfl⟩
  rw [e]
  have hl := inRange_length ht
  simp only [validateComp, Option.or, checkComp, List.length_map, hl, if_true, Except.bind,
    extractComp, Arr.pick, h.shape, axisIndices_nat pixels ht, Except.map, List.drop_left]

/-- **C93**: a single integer is the same as the tuple of it. -/
theorem C93_int {kind : Str} {pix : Nat} {p : Painter} {scale : Option ℚ}
    {store : Str → Option PlotItem} {name : Str} (i : Int) (kwargs : List (String × PVal)) :
    plotMap kind pix p scale store name (some (.int i)) kwargs =
      plotMap kind pix p scale store name (some (.tuple [i])) kwargs := by
  rfl

/-- **C93**: without a component, the default one of the item is shown; if there is none, data of
order 0 is shown as it is and other data is refused. -/
theorem C93_default {kind : Str} {pix : Nat} {p : Painter} {scale : Option ℚ}
    {store : Str → Option PlotItem} {name : Str} {it : PlotItem} {comps pixels : List Nat}
    (h : Spec.Plottable kind store name it comps pixels) (hs : Spec.SaneParams it)
    (kwargs : List (String × PVal)) :
    (∀ c, it.default' = some c → plotMap kind pix p scale store name none kwargs =
      plotMap kind pix p scale store name (some c) kwargs) ∧
    (it.default' = none → comps = [] → ∃ params,
      plotMap kind pix p scale store name none kwargs = .ok (it.data, params)) ∧
    (it.default' = none → comps ≠ [] →
      plotMap kind pix p scale store name none kwargs = .error .valueError) := by
  refine ⟨?_, ?_, ?_⟩
  · intro c hc
    unfold plotMap
    rw [validateItem_ok h]
    simp only [Except.bind, validateComp, hc, Option.or]
  · intro hd hc
    obtain ⟨params, e⟩ := plotMap_select (p := p) (pix := pix) (scale := scale) h hs none kwargs
    refine ⟨params, ?_⟩
    rw [e]
    simp [validateComp, hd, hc, Except.bind, extractComp, Except.map]
  · intro hd hc
    have : comps.length ≠ 0 := by simpa using hc
    unfold plotMap
    rw [validateItem_ok h]
    simp [Except.bind, validateComp, hd, this]

/-- **C93**: what is refused, always with a `ValueError`: a name that is not stored, an item that is
not a map (or list), one without an order, a tuple of the wrong length, an integer for data not of
order 1. -/
theorem C93_refused {kind : Str} {pix : Nat} {p : Painter} {scale : Option ℚ}
    {store : Str → Option PlotItem} {name : Str} {component : Option Comp}
    (kwargs : List (String × PVal))
    (h : store name = none ∨ (∃ it, store name = some it ∧ (it.kind ≠ kind ∨ it.order = none)) ∨
      ∃ it comps pixels, Spec.Plottable kind store name it comps pixels ∧
        ((∃ t, component = some (.tuple t) ∧ t.length ≠ comps.length) ∨
          ∃ i, component = some (.int i) ∧ comps.length ≠ 1)) :
    plotMap kind pix p scale store name component kwargs = .error .valueError := by
  unfold plotMap
  rcases h with h | ⟨it, h, h'⟩ | ⟨it, comps, pixels, h, h'⟩
  · rw [h]; rfl
  · rw [h]
    unfold validateItem
    by_cases hk : it.kind = kind
    · rcases h' with h' | h'
      · exact absurd hk h'
      · simp [hk, h', Except.bind]
    · simp [hk, Except.bind]
  · rw [validateItem_ok h]
    rcases h' with ⟨t, rfl, ht⟩ | ⟨i, rfl, hi⟩
    · simp [Except.bind, validateComp, checkComp, ht]
    · have : ¬ 1 = comps.length := fun h => hi h.symm
      simp [Except.bind, validateComp, checkComp, this]

/-! ### Norms -/

theorem allTuples_one (n : Nat) : Spec.allTuples [n] = (List.range n).map fun i => [i] := by
  simp [Spec.allTuples, List.flatMap]
  induction List.range n with
  | nil => rfl
  | cons a t ih => simp [ih]

theorem sum_flatMap (f : Nat → List (List Nat)) (g : List Nat → ℝ) : ∀ l : List Nat,
    ((l.flatMap f).map g).sum = (l.map fun i => ((f i).map g).sum).sum
  | [] => rfl
  | a :: t => by simp [List.flatMap_cons, sum_flatMap f g t]

/-- **C93**: `'norm'`, in any case, shows the square root of the sum of the squares of all the
components, for data of order 1 and 2; other data is refused. -/
theorem C93_norm {kind : Str} {pix : Nat} {p : Painter} {scale : Option ℚ}
    {store : Str → Option PlotItem} {name s : Str} {it : PlotItem} {comps pixels : List Nat}
    (h : Spec.Plottable kind store name it comps pixels) (hs : Spec.SaneParams it)
    (hp : pixels.length = pix) (hn : s.map Char.toLower = lit "norm") (kwargs : List (String × PVal)) :
    ((comps.length = 1 ∨ comps.length = 2) → ∃ a params,
      plotMap kind pix p scale store name (some (.name s)) kwargs = .ok (a, params) ∧
      a.shape = pixels ∧ ∀ pixel : List Nat, a.get pixel =
        Real.sqrt ((Spec.allTuples comps).map fun t => it.data.get (t ++ pixel) ^ 2).sum) ∧
    (comps.length ≠ 1 → comps.length ≠ 2 →
      plotMap kind pix p scale store name (some (.name s)) kwargs = .error .valueError) := by
  obtain ⟨params, e⟩ := plotMap_select (p := p) (pix := pix) (scale := scale) h hs
    (some (.name s)) kwargs
  have e' : plotMap kind pix p scale store name (some (.name s)) kwargs =
      (it.data.norm pix).map fun a => (a, params) := by
    rw [e]
    simp [validateComp, checkComp, Except.bind, extractComp, extractName, hn]
  have hlen : it.data.shape.length = comps.length + pix := by rw [h.shape]; simp [hp]
  refine ⟨?_, ?_⟩
  · rintro (h1 | h2)
    · obtain ⟨n, rfl⟩ := List.length_eq_one_iff.1 h1
      refine ⟨it.data.norm1, params, ?_, ?_, ?_⟩
      · rw [e', Arr.norm, if_pos (by rw [hlen]; simp; omega)]; rfl
      · simp [Arr.norm1, h.shape]
      · intro pixel
        rw [allTuples_one]
        simp [Arr.norm1, h.shape, Function.comp_def]
    · obtain ⟨n, m, rfl⟩ := List.length_eq_two.1 h2
      refine ⟨it.data.norm2, params, ?_, ?_, ?_⟩
      · rw [e', Arr.norm, if_neg (by rw [hlen]; simp; omega), if_pos (by rw [hlen]; simp; omega)]; rfl
      · simp [Arr.norm2, h.shape]
      · intro pixel
        rw [Spec.allTuples, sum_flatMap, allTuples_one]
        simp [Arr.norm2, h.shape, Function.comp_def]
  · intro h1 h2
    rw [e', Arr.norm, if_neg (by omega), if_neg (by omega)]; rfl

/-! ### Negative and out of range components -/

/-- In Python's range: at least `-n`, below `n`. -/
def Spec.PyRange (comps : List Nat) (t : List Int) : Prop :=
  List.Forall₂ (fun (n : Nat) (i : Int) => -(n : Int) ≤ i ∧ i < n) comps t

theorem axisIndex_eq (n : Nat) (i : Int) : axisIndex n i =
    if -(n : Int) ≤ i ∧ i < n then .ok (i % n).toNat else .error .indexError := by
  unfold axisIndex
  by_cases h0 : 0 ≤ i
  · rw [if_pos h0]
    by_cases h1 : i < n
    · rw [if_pos h1, if_pos ⟨by omega, h1⟩, Int.emod_eq_of_lt h0 h1]
    · rw [if_neg h1, if_neg (by omega)]
  · rw [if_neg h0]
    by_cases h1 : -(n : Int) ≤ i
    · rw [if_pos h1, if_pos ⟨h1, by omega⟩, ← Int.add_emod_right, Int.emod_eq_of_lt (by omega) (by omega)]
    · rw [if_neg h1, if_neg (by omega)]

theorem axisIndices_ok (rest : List Nat) : ∀ {comps : List Nat} {t : List Int}, Spec.PyRange comps t →
    axisIndices (comps ++ rest) t = .ok (List.zipWith (fun (n : Nat) (i : Int) => (i % n).toNat) comps t)
  | _, _, .nil => by simp [axisIndices]
  | _, _, .cons (l₁ := l₁) (l₂ := l₂) h hs => by
    have := axisIndices_ok rest hs
    simp only [List.cons_append, List.zipWith_cons_cons, axisIndices, axisIndex_eq, if_pos h,
      Except.bind, this]

theorem axisIndices_bad (rest : List Nat) : ∀ {comps : List Nat} {t : List Int},
    t.length = comps.length → ¬ Spec.PyRange comps t →
    axisIndices (comps ++ rest) t = .error .indexError
  | [], [], _, h => absurd .nil h
  | n :: ns, i :: is, hl, h => by
    simp only [List.length_cons, Nat.add_right_cancel_iff] at hl
    simp only [List.cons_append, axisIndices, axisIndex_eq]
    by_cases h1 : -(n : Int) ≤ i ∧ i < n
    · have : ¬ Spec.PyRange ns is := fun h' => h (.cons h1 h')
      simp only [if_pos h1, Except.bind, axisIndices_bad rest hl this]
    · simp only [if_neg h1, Except.bind]

/-- **C93**: negative components count from the end; components out of range are an `IndexError`. -/
theorem C93_negative {kind : Str} {pix : Nat} {p : Painter} {scale : Option ℚ}
    {store : Str → Option PlotItem} {name : Str} {it : PlotItem} {comps pixels : List Nat} {t : List Int}
    (h : Spec.Plottable kind store name it comps pixels) (hs : Spec.SaneParams it)
    (hl : t.length = comps.length) (kwargs : List (String × PVal)) :
    (Spec.PyRange comps t → ∃ a params,
      plotMap kind pix p scale store name (some (.tuple t)) kwargs = .ok (a, params) ∧
      a.shape = pixels ∧ ∀ pixel : List Nat, a.get pixel =
        it.data.get (List.zipWith (fun (n : Nat) (i : Int) => (i % n).toNat) comps t ++ pixel)) ∧
    (¬ Spec.PyRange comps t →
      plotMap kind pix p scale store name (some (.tuple t)) kwargs = .error .indexError) := by
  obtain ⟨params, e⟩ := plotMap_select (p := p) (pix := pix) (scale := scale) h hs
    (some (.tuple t)) kwargs
  refine ⟨fun ht => ?_, fun ht => ?_⟩
  · refine ⟨⟨pixels, fun idx => it.data.get
      (List.zipWith (fun (n : Nat) (i : Int) => (i % n).toNat) comps t ++ idx)⟩, params, ?_, rfl,
      fun _ => rfl⟩
    rw [e]
    simp only [validateComp, Option.or, checkComp, hl, if_true, Except.bind, extractComp, Arr.pick,
      h.shape, axisIndices_ok pixels ht, Except.map, List.drop_left]
  · rw [e]
    simp only [validateComp, Option.or, checkComp, hl, if_true, Except.bind, extractComp, Arr.pick,
      h.shape, axisIndices_bad pixels hl ht, Except.map]

/-! ### Names -/

theorem plotMap_name {kind : Str} {pix : Nat} {p : Painter} {scale : Option ℚ}
    {store : Str → Option PlotItem} {name s : Str} {it : PlotItem} {comps pixels : List Nat}
    (h : Spec.Plottable kind store name it comps pixels) (hs : Spec.SaneParams it)
    (kwargs : List (String × PVal)) : ∃ params,
    plotMap kind pix p scale store name (some (.name s)) kwargs =
      (extractName p pix it.data s).map fun a => (a, params) := by
  obtain ⟨params, e⟩ := plotMap_select (p := p) (pix := pix) (scale := scale) h hs
    (some (.name s)) kwargs
  exact ⟨params, by rw [e]; simp [validateComp, checkComp, Except.bind, extractComp]⟩

theorem lit_prefix_ne {a b s t : Str} (h : a <+: s) (e : s = b) (hn : ¬ a <+: b) : t = s → False :=
  fun _ => hn (e ▸ h)

/-- **C93**: the names, in any case. `all_euler` shows the Euler colours of the data and `ipf_x`,
`ipf_y`, `ipf_z` the inverse pole figure colours along the axis; names that do not begin with `ipf`
are refused with a `ValueError`. -/
theorem C93_names {kind : Str} {pix : Nat} {p : Painter} {scale : Option ℚ}
    {store : Str → Option PlotItem} {name : Str} {it : PlotItem} {comps pixels : List Nat}
    (h : Spec.Plottable kind store name it comps pixels) (hs : Spec.SaneParams it)
    (s : Str) (kwargs : List (String × PVal)) :
    (s.map Char.toLower = lit "all_euler" → ∃ params,
      plotMap kind pix p scale store name (some (.name s)) kwargs =
        (p.euler it.data).map fun a => (a, params)) ∧
    (∀ (k : Nat) (d : String), (k, d) ∈ [(0, "ipf_x"), (1, "ipf_y"), (2, "ipf_z")] →
      s.map Char.toLower = lit d → ∃ params,
      plotMap kind pix p scale store name (some (.name s)) kwargs =
        (p.ipf it.data k).map fun a => (a, params)) ∧
    (s.map Char.toLower ≠ lit "norm" → s.map Char.toLower ≠ lit "all_euler" →
      ¬ lit "ipf" <+: s.map Char.toLower →
      plotMap kind pix p scale store name (some (.name s)) kwargs = .error .valueError) := by
  obtain ⟨params, e⟩ := plotMap_name (p := p) (pix := pix) (scale := scale) (s := s) h hs kwargs
  refine ⟨fun h1 => ⟨params, ?_⟩, fun k d hd h1 => ⟨params, ?_⟩, fun h1 h2 h3 => ?_⟩
  · rw [e, extractName, h1]
    rfl
  · rw [e, extractName, h1]
    simp only [List.mem_cons, Prod.mk.injEq, List.not_mem_nil, or_false] at hd
    rcases hd with ⟨rfl, rfl⟩ | ⟨rfl, rfl⟩ | ⟨rfl, rfl⟩
    · rfl
    · rfl
    · rfl
  · rw [e, extractName]
    rw [if_neg h1, if_neg h2, if_neg]
    · rfl
    · rw [List.isPrefixOf_iff_prefix]; exact h3

/-- **C93** fails for the default component of DIC coordinates and displacements, `magnitude`: there is no
such component, so that plotting without a component is refused. -/
theorem C93_magnitude {p : Painter} {scale : Option ℚ} {store : Str → Option PlotItem} {name label : Str}
    {data : Arr} {n : Nat} {pixels : List Nat} (h : store name = some (dicItem label data))
    (hd : data.shape = n :: pixels) (kwargs : List (String × PVal)) :
    mapPlotMap p scale store name none kwargs = .error .valueError := by
  have hp : Spec.Plottable (lit "map") store name (dicItem label data) [n] pixels := ⟨h, rfl, rfl, hd⟩
  have hs : Spec.SaneParams (dicItem label data) :=
    ⟨by simp [dicItem, dkeys], one_ne_zero, Or.inr (Or.inr ⟨label, rfl⟩)⟩
  unfold mapPlotMap
  rw [(C93_default hp hs kwargs).1 (.name (lit "magnitude")) rfl]
  exact (C93_names hp hs _ kwargs).2.2 (by decide) (by decide) (by decide)

/-- **C93**, where the checks on names stop: after `ipf`, everything up to the first `_` is ignored,
and so is everything from the second one; what lies between must be `x`, `y` or `z`, else it is a
`KeyError`, and a name with no `_` is an `IndexError`. -/
theorem C93_ipf_names {kind : Str} {pix : Nat} {p : Painter} {scale : Option ℚ}
    {store : Str → Option PlotItem} {name : Str} {it : PlotItem} {comps pixels : List Nat}
    (h : Spec.Plottable kind store name it comps pixels) (hs : Spec.SaneParams it)
    (s u : Str) (hu : '_' ∉ u) (kwargs : List (String × PVal)) :
    (s.map Char.toLower = lit "ipf" ++ u →
      plotMap kind pix p scale store name (some (.name s)) kwargs = .error .indexError) ∧
    (∀ (k : Nat) (d v : Str), (k, d) ∈ [(0, lit "x"), (1, lit "y"), (2, lit "z")] →
      v = [] ∨ (∃ w, v = '_' :: w) → s.map Char.toLower = lit "ipf" ++ u ++ '_' :: d ++ v → ∃ params,
      plotMap kind pix p scale store name (some (.name s)) kwargs =
        (p.ipf it.data k).map fun a => (a, params)) ∧
    (∀ d v : Str, '_' ∉ d → d ∉ [lit "x", lit "y", lit "z"] → v = [] ∨ (∃ w, v = '_' :: w) →
      s.map Char.toLower = lit "ipf" ++ u ++ '_' :: d ++ v →
      plotMap kind pix p scale store name (some (.name s)) kwargs = .error .keyError) := by
  have hpu : '_' ∉ lit "ipf" ++ u := by
    rw [List.mem_append, not_or]
    exact ⟨by decide, hu⟩
  have key : ∀ t : Str, s.map Char.toLower = lit "ipf" ++ t → s.map Char.toLower ≠ lit "norm" ∧
      s.map Char.toLower ≠ lit "all_euler" ∧ (lit "ipf").isPrefixOf (s.map Char.toLower) = true := by
    intro t ht
    rw [ht]
    refine ⟨?_, ?_, ?_⟩
    · intro hh
      have := congrArg List.head? hh
      simp [lit] at this
    · intro hh
      have := congrArg List.head? hh
      simp [lit] at this
    · rw [List.isPrefixOf_iff_prefix]; exact List.prefix_append _ _
  obtain ⟨params, e⟩ := plotMap_name (p := p) (pix := pix) (scale := scale) (s := s) h hs kwargs
  have second : ∀ d v : Str, '_' ∉ d → v = [] ∨ (∃ w, v = '_' :: w) →
      s.map Char.toLower = lit "ipf" ++ u ++ '_' :: d ++ v →
      secondPart (s.map Char.toLower) = .ok d := by
    intro d v hd hv hh
    unfold secondPart
    rw [hh, List.append_assoc, List.cons_append, splitSep_cons hpu]
    rcases hv with rfl | ⟨w, rfl⟩
    · rw [List.append_nil, splitSep_one hd]; rfl
    · rw [splitSep_cons hd]; rfl
  refine ⟨fun h1 => ?_, fun k d v hd hv h1 => ⟨params, ?_⟩, fun d v hd hd2 hv h1 => ?_⟩
  · obtain ⟨k1, k2, k3⟩ := key _ h1
    rw [e, extractName]
    rw [if_neg k1, if_neg k2, if_pos k3]
    have : secondPart (s.map Char.toLower) = .error .indexError := by
      unfold secondPart
      rw [h1, splitSep_one hpu]
      rfl
    rw [this]; rfl
  · obtain ⟨k1, k2, k3⟩ := key (u ++ '_' :: d ++ v) (by rw [h1]; simp)
    rw [e, extractName]
    have hd' : '_' ∉ d ∧ ipfAxis d = .ok k := by
      simp only [List.mem_cons, Prod.mk.injEq, List.not_mem_nil, or_false] at hd
      rcases hd with ⟨rfl, rfl⟩ | ⟨rfl, rfl⟩ | ⟨rfl, rfl⟩
      · exact ⟨by decide, rfl⟩
      · exact ⟨by decide, rfl⟩
      · exact ⟨by decide, rfl⟩
    rw [if_neg k1, if_neg k2, if_pos k3, second d v hd'.1 hv h1]
    show ((ipfAxis d).bind _).map _ = _
    rw [hd'.2]; rfl
  · obtain ⟨k1, k2, k3⟩ := key (u ++ '_' :: d ++ v) (by rw [h1]; simp)
    rw [e, extractName]
    rw [if_neg k1, if_neg k2, if_pos k3, second d v hd hv h1]
    show ((ipfAxis d).bind _).map _ = _
    simp only [List.mem_cons, List.not_mem_nil, or_false, not_or] at hd2
    unfold ipfAxis
    rw [if_neg hd2.1, if_neg hd2.2.1, if_neg hd2.2.2]; rfl

/-- **C93** fails for grains: the colours of a grain can not be plotted by name, nor by a default
such as the `IPF_x` of EBSD orientations. -/
theorem C93_grain_colours {scale : Option ℚ} {store : Str → Option PlotItem} {name : Str}
    {it : PlotItem} {comps pixels : List Nat}
    (h : Spec.Plottable (lit "list") store name it comps pixels) (hs : Spec.SaneParams it)
    (s : Str) (hd : s.map Char.toLower ∈ [lit "all_euler", lit "ipf_x", lit "ipf_y", lit "ipf_z"])
    (kwargs : List (String × PVal)) :
    grainPlotMap scale store name (some (.name s)) kwargs = .error .attributeError ∧
    (it.default' = some (.name s) →
      grainPlotMap scale store name none kwargs = .error .attributeError) := by
  have h1 : grainPlotMap scale store name (some (.name s)) kwargs = .error .attributeError := by
    have H := C93_names (p := Painter.absent) (pix := 1) (scale := scale) h hs s kwargs
    simp only [List.mem_cons, List.not_mem_nil, or_false] at hd
    unfold grainPlotMap
    rcases hd with hd | hd | hd | hd
    · obtain ⟨params, e⟩ := H.1 hd
      rw [e]; rfl
    · obtain ⟨params, e⟩ := H.2.1 0 "ipf_x" (by simp) hd
      rw [e]; rfl
    · obtain ⟨params, e⟩ := H.2.1 1 "ipf_y" (by simp) hd
      rw [e]; rfl
    · obtain ⟨params, e⟩ := H.2.1 2 "ipf_z" (by simp) hd
      rw [e]; rfl
  refine ⟨h1, fun hdef => ?_⟩
  rw [← h1]
  unfold grainPlotMap
  exact (C93_default h hs kwargs).1 _ hdef

/-! ### Label, scale and keyword arguments -/

/-- **C93**: what the caller gives wins; the scale is that of the map over the binning; every other
parameter is the stored one, except the label. -/
theorem C93_params {kind : Str} {pix : Nat} {p : Painter} {scale : Option ℚ}
    {store : Str → Option PlotItem} {name : Str} {it : PlotItem} {comps pixels : List Nat}
    (h : Spec.Plottable kind store name it comps pixels) (hs : Spec.SaneParams it)
    {component : Option Comp} {kwargs : List (String × PVal)} (hk : (dkeys kwargs).Nodup)
    {a : Arr} {params : List (String × PVal)}
    (e : plotMap kind pix p scale store name component kwargs = .ok (a, params)) :
    (∀ k v, (k, v) ∈ kwargs → dget params k = some v) ∧
    ("scale" ∉ dkeys kwargs → ∀ s, scale = some s →
      dget params "scale" = some (.num (s / it.binning))) ∧
    (∀ k, k ∉ dkeys kwargs → k ≠ "clabel" → (k = "scale" → scale = none) →
      dget params k = dget it.params k) := by
  obtain ⟨c, r, r2, hr, hr2, rfl⟩ : ∃ c r r2, labelled c it.unit (dupdate [] it.params) = .ok r ∧
      scaled scale it.binning r = .ok r2 ∧ params = dupdate r2 kwargs := by
    unfold plotMap at e
    rw [validateItem_ok h] at e
    cases hc : validateComp it comps.length component with
    | error e' => simp [Except.bind, hc] at e
    | ok c =>
      obtain ⟨r, hr⟩ := labelled_ok hs c
      obtain ⟨r2, hr2⟩ := scaled_ok hs scale r
      refine ⟨c, r, r2, hr, hr2, ?_⟩
      simp only [Except.bind, hc, hr, hr2] at e
      cases hx : extractComp p pix it.data c with
      | error e' => simp [hx] at e
      | ok a' =>
        simp only [hx, Except.ok.injEq, Prod.mk.injEq] at e
        exact e.2.symm
  have copy : ∀ k, dget (dupdate [] it.params) k = dget it.params k := by
    intro k; rw [dget_copy hs.nodup]; simp [dget]
  have hr' : ∀ k, k ≠ "clabel" → dget r k = dget it.params k := by
    intro k hk'
    unfold labelled at hr
    rw [copy] at hr
    rcases hs.label with hh | hh | ⟨s, hh⟩
    · rw [hh] at hr; cases hr; exact copy k
    · rw [hh] at hr; cases hr; exact copy k
    · rw [hh] at hr
      cases hr
      rw [dget_dset, if_neg (Ne.symm hk'), copy]
  refine ⟨fun k v hv => ?_, fun hns s hsc => ?_, fun k hkk hk' hsc => ?_⟩
  · rw [dget_copy hk, dget_mem hk hv]; rfl
  · rw [dget_copy hk, (dget_eq_none _ _).2 hns]
    unfold scaled at hr2
    rw [hsc] at hr2
    simp only [hs.binning, if_false] at hr2
    cases hr2
    rw [dget_dset, if_pos rfl]; rfl
  · rw [dget_copy hk, (dget_eq_none _ _).2 hkk, Option.none_or, ← hr' k hk']
    unfold scaled at hr2
    cases scale with
    | none => cases hr2; rfl
    | some s =>
      simp only [hs.binning, if_false] at hr2
      cases hr2
      rw [dget_dset, if_neg]
      rintro rfl
      exact absurd (hsc rfl) (by simp)

/-- The label for components counted from 0: the numbers are shown counted from 1. -/
def Spec.tupleLabel (label : Str) (t : List Nat) (unit : Option Str) : Str :=
  label ++ lit " (" ++ (t.map fun i => natStr (i + 1)).flatten ++ lit ")" ++
    match unit with
    | some (c :: u) => lit " (" ++ (c :: u) ++ lit ")"
    | _ => []

/-- The label for a calculation: its name as given, with spaces for underscores. -/
def Spec.nameLabel (label s : Str) (unit : Option Str) : Str :=
  label ++ lit " (" ++ (s.map fun c => if c = '_' then ' ' else c) ++ lit ")" ++
    match unit with
    | some (c :: u) => lit " (" ++ (c :: u) ++ lit ")"
    | _ => []

theorem unitSuffix_spec (u : Option Str) : unitSuffix u = match u with
    | some (c :: u) => lit " (" ++ (c :: u) ++ lit ")"
    | _ => [] := by
  rcases u with _ | _ | ⟨c, u⟩ <;> rfl

theorem plotMap_label {kind : Str} {pix : Nat} {p : Painter} {scale : Option ℚ}
    {store : Str → Option PlotItem} {name label : Str} {it : PlotItem} {comps pixels : List Nat}
    (h : Spec.Plottable kind store name it comps pixels) (hs : Spec.SaneParams it)
    (hl : dget it.params "clabel" = some (.str label)) {component : Option Comp} {c : Option Comp}
    (hc : validateComp it comps.length component = .ok c)
    {kwargs : List (String × PVal)} (hk : (dkeys kwargs).Nodup) (hnk : "clabel" ∉ dkeys kwargs)
    {a : Arr} {params : List (String × PVal)}
    (e : plotMap kind pix p scale store name component kwargs = .ok (a, params)) :
    dget params "clabel" = some (.str (label ++ compSuffix c ++ unitSuffix it.unit)) := by
  unfold plotMap at e
  rw [validateItem_ok h] at e
  have hr : labelled c it.unit (dupdate [] it.params) =
      .ok (dset (dupdate [] it.params) "clabel" (.str (label ++ compSuffix c ++ unitSuffix it.unit))) := by
    unfold labelled
    rw [dget_copy hs.nodup, hl]
    rfl
  obtain ⟨r2, hr2⟩ := scaled_ok hs scale (dset (dupdate [] it.params) "clabel"
    (.str (label ++ compSuffix c ++ unitSuffix it.unit)))
  simp only [Except.bind, hc, hr, hr2] at e
  have hp : params = dupdate r2 kwargs := by
    cases hx : extractComp p pix it.data c with
    | error e' => simp [hx] at e
    | ok a' =>
      simp only [hx, Except.ok.injEq, Prod.mk.injEq] at e
      exact e.2.symm
  rw [hp, dget_copy hk, (dget_eq_none _ _).2 hnk, Option.none_or]
  unfold scaled at hr2
  cases scale with
  | none => cases hr2; rw [dget_dset, if_pos rfl]
  | some s =>
    simp only [hs.binning, if_false] at hr2
    cases hr2
    rw [dget_dset, if_neg (by decide), dget_dset, if_pos rfl]

/-- **C93**: the label names the component, counted from 1, and the unit. -/
theorem C93_label {kind : Str} {pix : Nat} {p : Painter} {scale : Option ℚ}
    {store : Str → Option PlotItem} {name label : Str} {it : PlotItem} {comps pixels : List Nat}
    (h : Spec.Plottable kind store name it comps pixels) (hs : Spec.SaneParams it)
    (hl : dget it.params "clabel" = some (.str label))
    {kwargs : List (String × PVal)} (hk : (dkeys kwargs).Nodup) (hnk : "clabel" ∉ dkeys kwargs)
    {a : Arr} {params : List (String × PVal)} :
    (∀ t : List Nat, plotMap kind pix p scale store name
        (some (.tuple (t.map fun (i : Nat) => (i : Int)))) kwargs = .ok (a, params) →
      dget params "clabel" = some (.str (Spec.tupleLabel label t it.unit))) ∧
    (∀ s, plotMap kind pix p scale store name (some (.name s)) kwargs = .ok (a, params) →
      dget params "clabel" = some (.str (Spec.nameLabel label s it.unit))) := by
  refine ⟨fun t e => ?_, fun s e => ?_⟩
  · have hlen : t.length = comps.length := by
      by_contra hne
      rw [C93_refused kwargs (.inr (.inr ⟨it, comps, pixels, h, .inl ⟨_, rfl, by simpa using hne⟩⟩))] at e
      cases e
    have hc : validateComp it comps.length (some (.tuple (t.map fun (i : Nat) => (i : Int)))) =
        .ok (some (.tuple (t.map fun (i : Nat) => (i : Int)))) := by
      simp [validateComp, checkComp, hlen]
    rw [plotMap_label h hs hl hc hk hnk e]
    have : ∀ i : Nat, intStr ((i : Int) + 1) = natStr (i + 1) := by
      intro i
      unfold intStr
      rw [if_neg (by omega)]
      congr 1
    rw [unitSuffix_spec]
    unfold compSuffix Spec.tupleLabel
    simp [this, Function.comp_def]
  · rw [plotMap_label (c := some (.name s)) h hs hl rfl hk hnk e, unitSuffix_spec]
    unfold compSuffix Spec.nameLabel
    simp

/-- **C93** fails in the label of a negative component: `-1` shows the last component under the
number 0. -/
theorem C93_negative_label {kind : Str} {pix : Nat} {p : Painter} {scale : Option ℚ}
    {store : Str → Option PlotItem} {name label : Str} {it : PlotItem} {n : Nat} {pixels : List Nat}
    (h : Spec.Plottable kind store name it [n + 1] pixels) (hs : Spec.SaneParams it)
    (hl : dget it.params "clabel" = some (.str label)) (hu : it.unit = none) :
    ∃ a params, plotMap kind pix p scale store name (some (.int (-1))) [] = .ok (a, params) ∧
      (∀ pixel : List Nat, a.get pixel = it.data.get (n :: pixel)) ∧
      dget params "clabel" = some (.str (label ++ lit " (0)")) := by
  obtain ⟨a, params, e, -, ha⟩ := (C93_negative (p := p) (pix := pix) (scale := scale) (t := [-1])
    h hs rfl []).1 (.cons ⟨by simp, by omega⟩ .nil)
  refine ⟨a, params, by rw [C93_int]; exact e, ?_, ?_⟩
  · intro pixel
    rw [ha pixel]
    have : ((-1 : Int) % ((n + 1 : Nat) : Int)).toNat = n := by
      rw [← Int.add_emod_right, Int.emod_eq_of_lt (by omega) (by omega)]; omega
    simp only [List.zipWith_cons_cons, List.zipWith_nil_left, this]
    rfl
  · rw [plotMap_label (c := some (.tuple [-1])) h hs hl rfl (by simp [dkeys]) (by simp [dkeys]) e, hu]
    unfold compSuffix unitSuffix
    have h0 : intStr 0 = ['0'] := by decide +kernel
    simp [h0, lit]

/-! ### Grains show what the map shows -/

theorem grainArr_get (pts : List (Nat × Nat)) (a : Arr) (pre : List Nat) {i : Nat} {q : Nat × Nat}
    (hi : pts[i]? = some q) : (grainArr pts a).get (pre ++ [i]) = a.get (pre ++ [q.2, q.1]) := by
  have : pts.getD i (0, 0) = q := by simp [List.getD, hi]
  simp only [grainArr, List.dropLast_concat, List.getLastD_concat, this]

theorem grainArr_shape (pts : List (Nat × Nat)) {a : Arr} {comps : List Nat} {h w : Nat}
    (e : a.shape = comps ++ [h, w]) : (grainArr pts a).shape = comps ++ [pts.length] := by
  simp [grainArr, e]

/-- **C93**: for the list of the values of a map at the points of a grain, the component of the
grain is the component of the map at those points: for every tuple, `norm`, and for data of order 0
without a component. -/
theorem C93_grain {p : Painter} {scale scale' : Option ℚ} {storeM storeG : Str → Option PlotItem}
    {name : Str} {im ig : PlotItem} {comps : List Nat} {h w : Nat} {pts : List (Nat × Nat)}
    (hm : Spec.Plottable (lit "map") storeM name im comps [h, w]) (hsm : Spec.SaneParams im)
    (hg : Spec.Plottable (lit "list") storeG name ig comps [pts.length]) (hsg : Spec.SaneParams ig)
    (hd : ig.data = grainArr pts im.data) (hdef : ig.default' = im.default')
    (component : Option Comp)
    (hcol : ∀ s, component.or im.default' = some (.name s) → s.map Char.toLower = lit "norm")
    {kwargs kwargs' : List (String × PVal)} {a : Arr} {params : List (String × PVal)}
    (e : mapPlotMap p scale storeM name component kwargs = .ok (a, params)) :
    ∃ b params', grainPlotMap scale' storeG name component kwargs' = .ok (b, params') ∧
      b.shape = [pts.length] ∧
      ∀ (i : Nat) (q : Nat × Nat), pts[i]? = some q → b.get [i] = a.get [q.2, q.1] := by
  obtain ⟨p1, e1⟩ := plotMap_select (p := p) (pix := 2) (scale := scale) hm hsm component kwargs
  obtain ⟨p2, e2⟩ := plotMap_select (p := Painter.absent) (pix := 1) (scale := scale') hg hsg
    component kwargs'
  unfold mapPlotMap at e
  unfold grainPlotMap
  rw [e1] at e
  rw [e2]
  have hv : validateComp ig comps.length component = validateComp im comps.length component := by
    unfold validateComp; rw [hdef]
  rw [hv]
  cases hc : validateComp im comps.length component with
  | error e' => simp [hc, Except.bind, Except.map] at e
  | ok c =>
    rw [hc] at e
    simp only [Except.bind] at e ⊢
    have hcase : (c = none ∧ comps = []) ∨ (∃ t, c = some (.tuple t) ∧ t.length = comps.length) ∨
        (∃ s, c = some (.name s) ∧ s.map Char.toLower = lit "norm") ∨ c = some .other := by
      unfold validateComp at hc
      cases ho : component.or im.default' with
      | none =>
        rw [ho] at hc
        simp only at hc
        split at hc
        · cases hc; rename_i h0; exact .inl ⟨rfl, List.length_eq_zero_iff.1 h0⟩
        · cases hc
      | some c' =>
        rw [ho] at hc
        cases c' with
        | int i =>
          simp only [checkComp] at hc
          split at hc
          · cases hc; rename_i h0; exact .inr (.inl ⟨[i], rfl, h0⟩)
          · cases hc
        | tuple t =>
          simp only [checkComp] at hc
          split at hc
          · cases hc; rename_i h0; exact .inr (.inl ⟨t, rfl, h0⟩)
          · cases hc
        | name s => cases hc; exact .inr (.inr (.inl ⟨s, rfl, hcol s ho⟩))
        | other => cases hc; exact .inr (.inr (.inr rfl))
    rcases hcase with ⟨rfl, rfl⟩ | ⟨t, rfl, ht⟩ | ⟨s, rfl, hs⟩ | rfl
    · refine ⟨ig.data, p2, rfl, by rw [hg.shape]; rfl, fun i q hq => ?_⟩
      simp only [extractComp, Except.map, Except.ok.injEq, Prod.mk.injEq] at e
      rw [← e.1, hd]
      exact grainArr_get pts im.data [] hq
    · by_cases hr : Spec.PyRange comps t
      · simp only [extractComp, Arr.pick, hm.shape, axisIndices_ok _ hr, Except.bind, Except.map,
          Except.ok.injEq, Prod.mk.injEq] at e
        refine ⟨⟨[pts.length], fun idx => ig.data.get
          (List.zipWith (fun (n : Nat) (i : Int) => (i % n).toNat) comps t ++ idx)⟩, p2, ?_, rfl,
          fun i q hq => ?_⟩
        · simp only [extractComp, Arr.pick, hg.shape, axisIndices_ok _ hr, Except.bind, Except.map,
            ht, List.drop_left]
        · rw [← e.1]
          simp only
          rw [hd, grainArr_get pts im.data _ hq]
      · simp only [extractComp, Arr.pick, hm.shape, axisIndices_bad _ ht hr, Except.bind,
          Except.map] at e
        cases e
    · have hlM : im.data.shape.length = comps.length + 2 := by rw [hm.shape]; simp
      have hlG : ig.data.shape.length = comps.length + 1 := by rw [hg.shape]; simp
      simp only [extractComp, extractName, hs, if_true] at e ⊢
      unfold Arr.norm at e ⊢
      rw [hlM] at e
      rw [hlG]
      by_cases h1 : comps.length = 1
      · obtain ⟨n, rfl⟩ := List.length_eq_one_iff.1 h1
        simp only [List.length_singleton, Nat.reduceAdd, if_true, Except.map, Except.ok.injEq,
          Prod.mk.injEq] at e ⊢
        refine ⟨_, _, ⟨rfl, rfl⟩, by simp [Arr.norm1, hg.shape], fun i q hq => ?_⟩
        rw [← e.1]
        simp only [Arr.norm1, hm.shape, hd, grainArr_shape pts hm.shape]
        congr 3
        funext j
        rw [show [j, i] = [j] ++ [i] from rfl, grainArr_get pts im.data [j] hq]
        rfl
      · by_cases h2 : comps.length = 2
        · obtain ⟨n, m, rfl⟩ := List.length_eq_two.1 h2
          simp only [List.length_cons, List.length_nil, Nat.reduceAdd, Nat.reduceEqDiff, if_false,
            if_true, Except.map, Except.ok.injEq, Prod.mk.injEq] at e ⊢
          refine ⟨_, _, ⟨rfl, rfl⟩, by simp [Arr.norm2, hg.shape], fun i q hq => ?_⟩
          rw [← e.1]
          simp only [Arr.norm2, hm.shape, hd, grainArr_shape pts hm.shape]
          congr 3
          funext j
          congr 2
          funext k
          rw [show [j, k, i] = [j, k] ++ [i] from rfl, grainArr_get pts im.data [j, k] hq]
          rfl
        · rw [if_neg (by omega), if_neg (by omega)] at e
          cases e
    · cases e

/-- The strain map of a DIC map of 3 by 2 pixels. -/
noncomputable def Spec.exampleItem : PlotItem where
  kind := lit "map"
  order := some 2
  default' := some (.tuple [0, 0])
  params := [("plot_colour_bar", .obj 0), ("clabel", .str (lit "Strain"))]
  unit := none
  binning := 1
  data := ⟨[2, 2, 3, 2], fun idx => (idx.sum : ℝ)⟩

/-- It can be plotted, component `(0, 1)` of it exists and its label says so. -/
example : Spec.Plottable (lit "map") (fun n => if n = ['e'] then some Spec.exampleItem else none) ['e']
      Spec.exampleItem [2, 2] [3, 2] ∧ Spec.SaneParams Spec.exampleItem ∧ Spec.InRange [2, 2] [0, 1] ∧
    ¬ Spec.PyRange [2, 2] [0, 2] ∧ (lit "Norm").map Char.toLower = lit "norm" ∧
    Spec.tupleLabel (lit "Strain") [0, 1] none = lit "Strain (12)" := by
  refine ⟨⟨rfl, rfl, rfl, rfl⟩, ⟨by decide, by simp [Spec.exampleItem], .inr (.inr ⟨_, rfl⟩)⟩,
    .cons (by decide) (.cons (by decide) .nil), ?_, by decide +kernel, by decide +kernel⟩
  intro h
  cases h with
  | cons _ h => cases h with | cons h _ => omega

end DefDAP
