import Verif.Model.Highlights
import Verif.Props.GrainData

/-! # C95: highlighting grains -/

namespace DefDAP

/-- Grains as a map has them: not empty, in the map, no pixel in two of them. -/
structure Spec.MapGrains (h w : Nat) (grains : List (List Px)) : Prop where
  nonempty : ∀ g ∈ grains, g ≠ []
  inMap : ∀ g ∈ grains, ∀ p ∈ g, 0 ≤ p.1 ∧ p.1 < w ∧ 0 ≤ p.2 ∧ p.2 < h
  disjoint : ∀ (i j : Nat) (a b : List Px) (p : Px), grains[i]? = some a → grains[j]? = some b →
    p ∈ a → p ∈ b → i = j

/-- Pixel `p` belongs to the grain listed at place `k` of `ids`. -/
def Spec.InListed (grains : List (List Px)) (ids : List Nat) (k : Nat) (p : Px) : Prop :=
  ∃ g pts, ids[k]? = some g ∧ grains[g]? = some pts ∧ p ∈ pts

/-! ### The outline image -/

theorem addOutline_ok {pts : List Px} (hne : pts ≠ []) (fg : Int) (im : Img Int) :
    ∃ im', addOutline pts fg im = .ok im' ∧
      ∀ x y, im' y x = im y x + if (x, y) ∈ pts then fg else 0 := by
  obtain ⟨-, x0, y0, x1, y1, hh, ww, o, he, ho, -, -, hval⟩ := C17_outline pts hne 0 fg
  obtain ⟨x0', y0', x1', y1', he', hb, -⟩ := extremeCoords_spec hne
  rw [he] at he'
  cases he'
  refine ⟨_, by unfold addOutline; rw [ho, he]; rfl, fun x y => ?_⟩
  simp only
  by_cases hin : (y0 ≤ y ∧ y ≤ y1) ∧ x0 ≤ x ∧ x ≤ x1
  · rw [if_pos hin]
    congr 1
    exact hval (x, y)
  · rw [if_neg hin, if_neg, add_zero]
    intro hm
    have := hb _ hm
    exact hin ⟨⟨this.2.2.1, this.2.2.2⟩, this.1, this.2.1⟩

/-- The value added at a pixel by the grains from place `i` on. -/
def hlVal (grains : List (List Px)) (n : Nat) : Nat → List Nat → Px → Int
  | _, [], _ => 0
  | i, g :: gs, p => (if p ∈ grains.getD g [] then ((min i n : Nat) : Int) else 0) +
      hlVal grains n (i + 1) gs p

theorem highlightLoop_ok {h w : Nat} {grains : List (List Px)} (hg : Spec.MapGrains h w grains) (n : Nat) :
    ∀ (ids : List Nat) (i : Nat) (im : Img Int), (∀ g ∈ ids, g < grains.length) →
      ∃ im', highlightLoop grains n i (ids.map fun (g : Nat) => (g : Int)) im = .ok im' ∧
        ∀ x y, im' y x = im y x + hlVal grains n i ids (x, y)
  | [], i, im, _ => ⟨im, rfl, fun x y => by simp [hlVal]⟩
  | g :: gs, i, im, hlt => by
    obtain ⟨pts, hpts⟩ : ∃ pts, grains[g]? = some pts :=
      ⟨_, List.getElem?_eq_getElem (hlt g (by simp))⟩
    have hne := hg.nonempty pts (List.mem_of_getElem? hpts)
    obtain ⟨im1, e1, h1⟩ := addOutline_ok hne ((if n < i then n else i : Nat) : Int) im
    obtain ⟨im2, e2, h2⟩ := highlightLoop_ok hg n gs (i + 1) im1 fun g' hg' => hlt g' (by simp [hg'])
    refine ⟨im2, ?_, fun x y => ?_⟩
    · simp only [List.map_cons, highlightLoop, pyGet_nat hpts, Except.bind, e1]
      exact e2
    · rw [h2, h1, hlVal]
      have hd : grains.getD g [] = pts := by simp [List.getD, hpts]
      have hm : (if n < i then n else i) = min i n := by
        split <;> omega
      rw [hd, hm]
      ring

theorem hlVal_none {grains : List (List Px)} {n : Nat} {p : Px} : ∀ {ids : List Nat} {i : Nat},
    (∀ k, ¬ Spec.InListed grains ids k p) → hlVal grains n i ids p = 0
  | [], i, _ => rfl
  | g :: gs, i, h => by
    have h0 : p ∉ grains.getD g [] := by
      intro hp
      cases hg : grains[g]? with
      | none => simp [List.getD, hg] at hp
      | some pts =>
        simp only [List.getD, hg, Option.getD_some] at hp
        exact h 0 ⟨g, pts, rfl, hg, hp⟩
    rw [hlVal, if_neg h0, hlVal_none (fun k hk => h (k + 1) ?_)]
    · simp
    · obtain ⟨g', pts, a, b, c⟩ := hk
      exact ⟨g', pts, by simpa using a, b, c⟩

theorem hlVal_at {h w : Nat} {grains : List (List Px)} (hg : Spec.MapGrains h w grains) {n : Nat} {p : Px} :
    ∀ {ids : List Nat} {i k : Nat}, ids.Nodup → Spec.InListed grains ids k p →
      hlVal grains n i ids p = ((min (i + k) n : Nat) : Int)
  | [], i, k, _, hk => by obtain ⟨_, _, a, _⟩ := hk; simp at a
  | g :: gs, i, 0, hn, hk => by
    obtain ⟨g', pts, a, b, c⟩ := hk
    simp only [List.getElem?_cons_zero, Option.some.injEq] at a
    subst a
    have hd : grains.getD g [] = pts := by simp [List.getD, b]
    rw [hlVal, hd, if_pos c, hlVal_none]
    · simp
    · rintro k ⟨g', pts', a', b', c'⟩
      have := hg.disjoint _ _ _ _ p b b' c c'
      subst this
      exact (List.nodup_cons.1 hn).1 (List.mem_of_getElem? a')
  | g :: gs, i, k + 1, hn, hk => by
    obtain ⟨g', pts, a, b, c⟩ := hk
    have a' : gs[k]? = some g' := by simpa using a
    have h0 : p ∉ grains.getD g [] := by
      intro hp
      cases hg' : grains[g]? with
      | none => simp [List.getD, hg'] at hp
      | some pts' =>
        simp only [List.getD, hg', Option.getD_some] at hp
        have := hg.disjoint _ _ _ _ p b hg' c hp
        subst this
        exact (List.nodup_cons.1 hn).1 (List.mem_of_getElem? a')
    rw [hlVal, if_neg h0, hlVal_at hg (i := i + 1) (k := k) (List.nodup_cons.1 hn).2 ⟨g', pts, a', b, c⟩,
      zero_add, Nat.add_right_comm, Nat.add_assoc]

theorem mem_imgValues {h w : Nat} {im : Img Int} {v : Int} :
    v ∈ imgValues h w im ↔ ∃ x y : Int, (0 ≤ x ∧ x < w) ∧ (0 ≤ y ∧ y < h) ∧ im y x = v := by
  unfold imgValues
  simp only [List.mem_flatMap, List.mem_map, List.mem_range]
  constructor
  · rintro ⟨y, hy, x, hx, rfl⟩
    exact ⟨x, y, ⟨by omega, by omega⟩, ⟨by omega, by omega⟩, rfl⟩
  · rintro ⟨x, y, ⟨a, b⟩, ⟨c, d⟩, rfl⟩
    exact ⟨y.toNat, by omega, x.toNat, by omega, by rw [Int.toNat_of_nonneg a, Int.toNat_of_nonneg c]⟩

theorem minMax_eq {l : List Int} {a b : Int} (ha : a ∈ l) (hb : b ∈ l) (h : ∀ c ∈ l, a ≤ c ∧ c ≤ b) :
    minMax l = .ok (a, b) := by
  obtain ⟨a', b', e, ha', hb', h'⟩ := minMax_spec (List.ne_nil_of_mem ha)
  have h1 := h a' ha'
  have h2 := h b' hb'
  have h3 := h' a ha
  have h4 := h' b hb
  rw [e, show a' = a by omega, show b' = b by omega]

/-- The image and its limits: when some pixel is in no listed grain. -/
theorem addHighlights_eq {h w : Nat} {grains : List (List Px)} (hg : Spec.MapGrains h w grains)
    {ids : List Nat} (hn : ids.Nodup) (hlt : ∀ g ∈ ids, g < grains.length) (hne : ids ≠ [])
    {free : Px} (hf : (0 ≤ free.1 ∧ free.1 < w) ∧ 0 ≤ free.2 ∧ free.2 < h)
    (hfree : ∀ k, ¬ Spec.InListed grains ids k free) (colours : List Str) :
    ∃ out, addHighlights h w grains (ids.map fun (g : Nat) => (g : Int)) (some colours) =
        .ok (out, lit "white" :: colours) ∧
      ∀ x y, out y x = layerColour colours (lutIndex 0 ((min ids.length colours.length : Nat) : Int)
          (colours.length + 1) (hlVal grains colours.length 1 ids (x, y))) := by
  obtain ⟨im, e, him⟩ := highlightLoop_ok hg colours.length ids 1 (fun _ _ => 0) hlt
  have himv : ∀ x y, im y x = hlVal grains colours.length 1 ids (x, y) := by
    intro x y; rw [him]; simp
  have hpos : 0 < ids.length := List.length_pos_iff.2 hne
  have hlast : ∃ g, ids[ids.length - 1]? = some g := ⟨_, List.getElem?_eq_getElem (by omega)⟩
  obtain ⟨g, hgl⟩ := hlast
  obtain ⟨pts, hpts⟩ : ∃ pts, grains[g]? = some pts :=
    ⟨_, List.getElem?_eq_getElem (hlt g (List.mem_of_getElem? hgl))⟩
  obtain ⟨q, hq⟩ := List.exists_mem_of_ne_nil _ (hg.nonempty pts (List.mem_of_getElem? hpts))
  have hqm := hg.inMap pts (List.mem_of_getElem? hpts) q hq
  have hmm : minMax (imgValues h w im) = .ok (0, ((min ids.length colours.length : Nat) : Int)) := by
    apply minMax_eq
    · rw [mem_imgValues]
      exact ⟨free.1, free.2, hf.1, hf.2, by rw [himv]; exact hlVal_none hfree⟩
    · rw [mem_imgValues]
      refine ⟨q.1, q.2, ⟨hqm.1, hqm.2.1⟩, ⟨hqm.2.2.1, hqm.2.2.2⟩, ?_⟩
      rw [himv, hlVal_at hg (k := ids.length - 1) hn ⟨g, pts, hgl, hpts, hq⟩]
      congr 2
      omega
    · intro v hv
      rw [mem_imgValues] at hv
      obtain ⟨x, y, -, -, rfl⟩ := hv
      rw [himv]
      by_cases hk : ∃ k, Spec.InListed grains ids k (x, y)
      · obtain ⟨k, hk⟩ := hk
        rw [hlVal_at hg hn hk]
        obtain ⟨g', _, a, _⟩ := hk
        have := (List.getElem?_eq_some_iff.1 a).1
        omega
      · push Not at hk
        rw [hlVal_none hk]
        omega
  refine ⟨_, by
    unfold addHighlights
    simp only [Option.getD_some]
    rw [e]
    simp only [Except.bind, hmm]
    rfl, fun x y => ?_⟩
  simp only [himv]

theorem lutIndex_full {n v : Nat} (hv : 1 ≤ v) (hvn : v ≤ n) : lutIndex 0 (n : Int) (n + 1) (v : Int) = v := by
  unfold lutIndex
  have hn0 : (0 : Int) ≠ n := by omega
  have hnq : (0 : ℚ) < n := by exact_mod_cast (by omega : 0 < n)
  rw [if_neg hn0]
  simp only [Int.cast_zero, sub_zero, Int.cast_natCast]
  by_cases h : v = n
  · subst h
    rw [div_self hnq.ne', one_mul, if_pos rfl]
    omega
  · have hlt : (v : ℚ) + 1 ≤ n := by exact_mod_cast (by omega : v + 1 ≤ n)
    have e : (v : ℚ) / n * ((n + 1 : Nat) : ℚ) = v + v / n := by
      push_cast
      field_simp
    have h0 : (0 : ℚ) ≤ v / n := by positivity
    have h1 : (v : ℚ) / n < 1 := by rw [div_lt_one hnq]; linarith
    rw [e, if_neg, show ⌊(v : ℚ) + v / n⌋ = (v : Int) from Int.floor_eq_iff.2 ?_]
    · simp
    · simp only [Int.cast_natCast]; exact ⟨by linarith, by linarith⟩
    · push_cast; intro h'; linarith

theorem lutIndex_last {m n : Nat} (hm : 0 < m) : lutIndex 0 (m : Int) (n + 1) (m : Int) = n := by
  unfold lutIndex
  have hn0 : (0 : Int) ≠ m := by omega
  have hnq : (0 : ℚ) < m := by exact_mod_cast hm
  rw [if_neg hn0]
  simp only [Int.cast_zero, sub_zero, Int.cast_natCast]
  rw [div_self hnq.ne', one_mul, if_pos rfl]
  omega

theorem lutIndex_zero (m : Int) (n : Nat) : lutIndex 0 m (n + 1) 0 = 0 := by
  unfold lutIndex
  split
  · rfl
  · simp only [Int.cast_zero, sub_zero, zero_div, zero_mul, Int.floor_zero, Int.toNat_zero]
    rw [if_neg]
    push_cast
    intro h
    have : (0 : ℚ) < n + 1 := by positivity
    linarith

/-- **C95**: with at least as many grains as colours, and some pixel left over, each listed grain is
covered by its colour, those beyond the list of colours by the last one, and all other pixels show
the map. -/
theorem C95_highlight {h w : Nat} {grains : List (List Px)} (hg : Spec.MapGrains h w grains)
    {ids : List Nat} (hn : ids.Nodup) (hlt : ∀ g ∈ ids, g < grains.length) (hne : ids ≠ [])
    {free : Px} (hf : (0 ≤ free.1 ∧ free.1 < w) ∧ 0 ≤ free.2 ∧ free.2 < h)
    (hfree : ∀ k, ¬ Spec.InListed grains ids k free) {colours : List Str} (hc : colours ≠ [])
    (hm : colours.length ≤ ids.length) :
    ∃ out cs, addHighlights h w grains (ids.map fun (g : Nat) => (g : Int)) (some colours) = .ok (out, cs) ∧
      (∀ (k : Nat) (x y : Int), Spec.InListed grains ids k (x, y) →
        out y x = colours[min k (colours.length - 1)]?) ∧
      ∀ x y : Int, (∀ k, ¬ Spec.InListed grains ids k (x, y)) → out y x = none := by
  obtain ⟨out, e, ho⟩ := addHighlights_eq hg hn hlt hne hf hfree colours
  have hcl : 0 < colours.length := List.length_pos_iff.2 hc
  refine ⟨out, _, e, fun k x y hk => ?_, fun x y hk => ?_⟩
  · rw [ho, hlVal_at hg hn hk, Nat.min_eq_right hm, lutIndex_full (by omega) (by omega)]
    have : min (1 + k) colours.length = min k (colours.length - 1) + 1 := by omega
    rw [this]
    rfl
  · rw [ho, hlVal_none hk, lutIndex_zero]
    rfl

/-- **C95** with the default colour: every listed grain is white. -/
theorem C95_default {h w : Nat} {grains : List (List Px)} (hg : Spec.MapGrains h w grains)
    {ids : List Nat} (hn : ids.Nodup) (hlt : ∀ g ∈ ids, g < grains.length) (hne : ids ≠ [])
    {free : Px} (hf : (0 ≤ free.1 ∧ free.1 < w) ∧ 0 ≤ free.2 ∧ free.2 < h)
    (hfree : ∀ k, ¬ Spec.InListed grains ids k free) :
    ∃ out cs, addHighlights h w grains (ids.map fun (g : Nat) => (g : Int)) none = .ok (out, cs) ∧
      ∀ x y : Int, ((∃ k, Spec.InListed grains ids k (x, y)) → out y x = some (lit "white")) ∧
        ((∀ k, ¬ Spec.InListed grains ids k (x, y)) → out y x = none) := by
  have hpos : 0 < ids.length := List.length_pos_iff.2 hne
  obtain ⟨out, cs, e, h1, h2⟩ := C95_highlight hg hn hlt hne hf hfree
    (colours := [lit "white"]) (by simp) (by simp only [List.length_singleton]; omega)
  refine ⟨out, cs, e, fun x y => ⟨?_, h2 x y⟩⟩
  rintro ⟨k, hk⟩
  rw [h1 k x y hk]
  simp

/-- **C95** fails with fewer grains than colours: the last grain listed gets the last colour of the
list, not its own. -/
theorem C95_fewer {h w : Nat} {grains : List (List Px)} (hg : Spec.MapGrains h w grains)
    {ids : List Nat} (hn : ids.Nodup) (hlt : ∀ g ∈ ids, g < grains.length) (hne : ids ≠ [])
    {free : Px} (hf : (0 ≤ free.1 ∧ free.1 < w) ∧ 0 ≤ free.2 ∧ free.2 < h)
    (hfree : ∀ k, ¬ Spec.InListed grains ids k free) {colours : List Str}
    (hm : ids.length < colours.length) :
    ∃ out cs, addHighlights h w grains (ids.map fun (g : Nat) => (g : Int)) (some colours) = .ok (out, cs) ∧
      ∀ (x y : Int), Spec.InListed grains ids (ids.length - 1) (x, y) →
        out y x = colours[colours.length - 1]? := by
  obtain ⟨out, e, ho⟩ := addHighlights_eq hg hn hlt hne hf hfree colours
  have hpos : 0 < ids.length := List.length_pos_iff.2 hne
  refine ⟨out, _, e, fun x y hk => ?_⟩
  rw [ho, hlVal_at hg hn hk, Nat.min_eq_left hm.le]
  have : min (1 + (ids.length - 1)) colours.length = ids.length := by omega
  rw [this, lutIndex_last hpos]
  obtain ⟨c, hc⟩ : ∃ c, colours.length = c + 1 := ⟨colours.length - 1, by omega⟩
  rw [hc]
  rfl

/-- **C95** fails for a grain that is the whole map: nothing is shown. -/
theorem C95_whole_map {h w : Nat} {grains : List (List Px)} (hg : Spec.MapGrains h w grains)
    {g : Nat} {pts : List Px} (hpts : grains[g]? = some pts)
    (hall : ∀ x y : Int, 0 ≤ x ∧ x < w → 0 ≤ y ∧ y < h → (x, y) ∈ pts) (colours : Option (List Str)) :
    ∃ out cs, addHighlights h w grains [(g : Int)] colours = .ok (out, cs) ∧ ∀ x y, out y x = none := by
  obtain ⟨im, e, him⟩ := highlightLoop_ok hg (colours.getD [lit "white"]).length [g] 1 (fun _ _ => 0)
    (by simpa using (List.getElem?_eq_some_iff.1 hpts).1)
  obtain ⟨q, hq⟩ := List.exists_mem_of_ne_nil _ (hg.nonempty pts (List.mem_of_getElem? hpts))
  have hqm := hg.inMap pts (List.mem_of_getElem? hpts) q hq
  have hd : grains.getD g [] = pts := by simp [List.getD, hpts]
  set v : Int := ((min 1 (colours.getD [lit "white"]).length : Nat) : Int) with hv
  have hval : ∀ x y : Int, 0 ≤ x ∧ x < w → 0 ≤ y ∧ y < h → im y x = v := by
    intro x y hx hy
    rw [him, hlVal, hlVal, hd, if_pos (hall x y hx hy), hv]
    simp
  have hmm : minMax (imgValues h w im) = .ok (v, v) := by
    have hmem : v ∈ imgValues h w im := by
      rw [mem_imgValues]
      exact ⟨q.1, q.2, ⟨hqm.1, hqm.2.1⟩, ⟨hqm.2.2.1, hqm.2.2.2⟩,
        hval _ _ ⟨hqm.1, hqm.2.1⟩ ⟨hqm.2.2.1, hqm.2.2.2⟩⟩
    apply minMax_eq hmem hmem
    intro c hc
    rw [mem_imgValues] at hc
    obtain ⟨x, y, hx, hy, rfl⟩ := hc
    rw [hval x y hx hy]
    exact ⟨le_refl _, le_refl _⟩
  refine ⟨fun _ _ => none, lit "white" :: colours.getD [lit "white"], ?_, fun _ _ => rfl⟩
  unfold addHighlights
  simp only [List.map_cons, List.map_nil] at e
  simp only
  rw [e]
  simp only [Except.bind, hmm]
  congr 2
  simp [lutIndex, layerColour]

/-- **C95** fails when a list of colours is used twice: the list is changed by the call, and with the
changed list the first grain is white and each later one has the colour of the one before it. -/
theorem C95_colours_changed {h w : Nat} {grains : List (List Px)} (hg : Spec.MapGrains h w grains)
    {ids : List Nat} (hn : ids.Nodup) (hlt : ∀ g ∈ ids, g < grains.length) (hne : ids ≠ [])
    {free : Px} (hf : (0 ≤ free.1 ∧ free.1 < w) ∧ 0 ≤ free.2 ∧ free.2 < h)
    (hfree : ∀ k, ¬ Spec.InListed grains ids k free) {colours : List Str}
    (hm : colours.length < ids.length) :
    ∃ out cs out' cs', addHighlights h w grains (ids.map fun (g : Nat) => (g : Int)) (some colours) =
        .ok (out, cs) ∧
      addHighlights h w grains (ids.map fun (g : Nat) => (g : Int)) (some cs) = .ok (out', cs') ∧
      (∀ x y : Int, Spec.InListed grains ids 0 (x, y) → out' y x = some (lit "white")) ∧
      ∀ (k : Nat) (x y : Int), k + 1 ≤ colours.length → Spec.InListed grains ids (k + 1) (x, y) →
        out' y x = colours[k]? := by
  obtain ⟨out, e, -⟩ := addHighlights_eq hg hn hlt hne hf hfree colours
  obtain ⟨out', cs', e', h1, -⟩ := C95_highlight hg hn hlt hne hf hfree
    (colours := lit "white" :: colours) (by simp) (by simpa using hm)
  refine ⟨out, _, out', cs', e, e', fun x y hk => ?_, fun k x y hkl hk => ?_⟩
  · rw [h1 0 x y hk]; simp
  · rw [h1 (k + 1) x y hk, List.length_cons, Nat.add_sub_cancel, Nat.min_eq_left hkl]
    simp

/-! ### Neighbours -/

theorem addSecond_spec (shown : List Nat) : ∀ (l acc : List Nat),
    acc.Nodup → (∀ g ∈ acc, g ∉ shown) →
    (addSecondNb shown acc l).Nodup ∧ (∀ g ∈ addSecondNb shown acc l, g ∉ shown) ∧
    ∀ g, g ∈ addSecondNb shown acc l ↔ g ∈ acc ∨ (g ∈ l ∧ g ∉ shown)
  | [], acc, h1, h2 => ⟨h1, h2, fun g => by simp [addSecondNb]⟩
  | a :: l, acc, h1, h2 => by
    have key : addSecondNb shown acc (a :: l) =
        addSecondNb shown (if a ∉ shown ∧ a ∉ acc then acc ++ [a] else acc) l := rfl
    rw [key]
    by_cases hc : a ∉ shown ∧ a ∉ acc
    · rw [if_pos hc]
      obtain ⟨g1, g2, g3⟩ := addSecond_spec shown l (acc ++ [a])
        (by
          rw [List.nodup_append]
          refine ⟨h1, by simp, ?_⟩
          intro b hb c hcc
          simp only [List.mem_singleton] at hcc
          rintro rfl
          exact hc.2 (hcc ▸ hb))
        (by
          intro g hg
          rcases List.mem_append.1 hg with hg | hg
          · exact h2 g hg
          · simp only [List.mem_singleton] at hg; exact hg ▸ hc.1)
      refine ⟨g1, g2, fun g => ?_⟩
      rw [g3 g]
      simp only [List.mem_append, List.mem_cons, List.not_mem_nil, or_false]
      constructor
      · rintro ((h | rfl) | h)
        · exact .inl h
        · exact .inr ⟨.inl rfl, hc.1⟩
        · exact .inr ⟨.inr h.1, h.2⟩
      · rintro (h | ⟨rfl | h, h'⟩)
        · exact .inl (.inl h)
        · exact .inl (.inr rfl)
        · exact .inr ⟨h, h'⟩
    · rw [if_neg hc]
      obtain ⟨g1, g2, g3⟩ := addSecond_spec shown l acc h1 h2
      refine ⟨g1, g2, fun g => ?_⟩
      rw [g3 g]
      simp only [List.mem_cons]
      constructor
      · rintro (h | h)
        · exact .inl h
        · exact .inr ⟨.inr h.1, h.2⟩
      · rintro (h | ⟨rfl | h, h'⟩)
        · exact .inl h
        · by_cases ha : g ∈ acc
          · exact .inl ha
          · exact absurd ⟨h', ha⟩ hc
        · exact .inr ⟨h, h'⟩

theorem secondFold_spec (nb : Nat → List Nat) (shown : List Nat) : ∀ (fs acc : List Nat),
    acc.Nodup → (∀ g ∈ acc, g ∉ shown) →
    (fs.foldl (fun acc f => addSecondNb shown acc (nb f)) acc).Nodup ∧
    (∀ g ∈ fs.foldl (fun acc f => addSecondNb shown acc (nb f)) acc, g ∉ shown) ∧
    ∀ g, g ∈ fs.foldl (fun acc f => addSecondNb shown acc (nb f)) acc ↔
      g ∈ acc ∨ ((∃ f ∈ fs, g ∈ nb f) ∧ g ∉ shown)
  | [], acc, h1, h2 => ⟨h1, h2, fun g => by simp⟩
  | f :: fs, acc, h1, h2 => by
    obtain ⟨g1, g2, g3⟩ := addSecond_spec shown (nb f) acc h1 h2
    obtain ⟨k1, k2, k3⟩ := secondFold_spec nb shown fs _ g1 g2
    refine ⟨k1, k2, fun g => ?_⟩
    rw [List.foldl_cons, k3 g, g3 g]
    simp only [List.mem_cons, exists_eq_or_imp]
    tauto

/-- **C95**: clicking on a grain of the neighbour tool highlights that grain, its neighbours and their
neighbours, each once and in this order. -/
theorem C95_neighbours (nb : Nat → List Nat) (g : Nat) (hn : (nb g).Nodup) (hself : g ∉ nb g) :
    ∃ second, (neighbourHighlights nb g).1 = g :: nb g ++ second ∧
      (neighbourHighlights nb g).1.Nodup ∧
      ∀ k, k ∈ second ↔ (∃ f ∈ nb g, k ∈ nb f) ∧ k ≠ g ∧ k ∉ nb g := by
  obtain ⟨h1, h2, h3⟩ := secondFold_spec nb (g :: nb g) (nb g) [] .nil (by simp)
  refine ⟨_, rfl, ?_, fun k => ?_⟩
  · show (g :: nb g ++ _).Nodup
    rw [List.nodup_append]
    refine ⟨List.nodup_cons.2 ⟨hself, hn⟩, h1, ?_⟩
    intro a ha b hb
    rintro rfl
    exact h2 a hb ha
  · rw [h3 k]
    simp

/-- **C95**: the colours of the neighbour tool, when there is a second neighbour: white for the grain
clicked, yellow for its neighbours and green for theirs. -/
theorem C95_neighbour_colours {h w : Nat} {grains : List (List Px)} (hg : Spec.MapGrains h w grains)
    (nb : Nat → List Nat) (g : Nat) (hn : (nb g).Nodup) (hself : g ∉ nb g)
    (hlt : ∀ k ∈ (neighbourHighlights nb g).1, k < grains.length)
    {free : Px} (hf : (0 ≤ free.1 ∧ free.1 < w) ∧ 0 ≤ free.2 ∧ free.2 < h)
    (hfree : ∀ k, ¬ Spec.InListed grains (neighbourHighlights nb g).1 k free)
    (hsec : ∃ f ∈ nb g, ∃ k ∈ nb f, k ≠ g ∧ k ∉ nb g) :
    ∃ out cs, addHighlights h w grains
        ((neighbourHighlights nb g).1.map fun (k : Nat) => (k : Int))
        (some (neighbourHighlights nb g).2) = .ok (out, cs) ∧
      ∀ (k : Nat) (pts : List Px) (p : Px), grains[k]? = some pts → p ∈ pts →
        (k = g → out p.2 p.1 = some (lit "white")) ∧
        (k ∈ nb g → out p.2 p.1 = some (lit "yellow")) ∧
        ((∃ f ∈ nb g, k ∈ nb f) → k ≠ g → k ∉ nb g → out p.2 p.1 = some (lit "green")) ∧
        (k ≠ g → k ∉ nb g → (∀ f ∈ nb g, k ∉ nb f) → out p.2 p.1 = none) := by
  obtain ⟨second, e1, hnd, hmem⟩ := C95_neighbours nb g hn hself
  have e2 : (neighbourHighlights nb g).2 =
      lit "white" :: List.replicate (nb g).length (lit "yellow") ++ [lit "green"] := rfl
  have hs : second ≠ [] := by
    obtain ⟨f, hf, k, hk, h1, h2⟩ := hsec
    exact List.ne_nil_of_mem ((hmem k).2 ⟨⟨f, hf, hk⟩, h1, h2⟩)
  have hsl : 0 < second.length := List.length_pos_iff.2 hs
  obtain ⟨out, cs, e, h1, h2⟩ := C95_highlight hg hnd hlt (by rw [e1]; simp) hf hfree
    (colours := (neighbourHighlights nb g).2) (by rw [e2]; simp) (by rw [e1, e2]; simp; omega)
  refine ⟨out, cs, e, fun k pts p hk hp => ⟨?_, ?_, ?_, ?_⟩⟩
  · rintro rfl
    rw [h1 0 p.1 p.2 ⟨k, pts, by rw [e1]; rfl, hk, hp⟩]
    rw [e2]; simp
  · intro hkn
    obtain ⟨j, hj⟩ := List.getElem?_of_mem hkn
    have hjl := (List.getElem?_eq_some_iff.1 hj).1
    rw [h1 (j + 1) p.1 p.2 ⟨k, pts, by
      rw [e1, List.cons_append, List.getElem?_cons_succ, List.getElem?_append_left hjl, hj], hk, hp⟩]
    rw [e2]
    have : min (j + 1) ((lit "white" :: List.replicate (nb g).length (lit "yellow") ++
        [lit "green"]).length - 1) = j + 1 := by simp; omega
    rw [this, List.cons_append, List.getElem?_cons_succ, List.getElem?_append_left (by simpa using hjl)]
    simp [hjl]
  · intro hf' hkg hkn
    obtain ⟨j, hj⟩ := List.getElem?_of_mem ((hmem k).2 ⟨hf', hkg, hkn⟩)
    rw [h1 ((nb g).length + 1 + j) p.1 p.2 ⟨k, pts, by
      rw [e1, List.getElem?_append_right (by simp)]
      simpa using hj, hk, hp⟩]
    rw [e2]
    have : min ((nb g).length + 1 + j) ((lit "white" :: List.replicate (nb g).length (lit "yellow") ++
        [lit "green"]).length - 1) = (nb g).length + 1 := by simp
    rw [this, List.getElem?_append_right (by simp)]
    simp
  · intro hkg hkn hkf
    refine h2 p.1 p.2 ?_
    rintro i ⟨k', pts', a, b, c⟩
    have := hg.disjoint _ _ _ _ p hk b hp c
    subst this
    have hm := List.mem_of_getElem? a
    rw [e1] at hm
    simp only [List.cons_append, List.mem_cons, List.mem_append] at hm
    rcases hm with h | h | h
    · exact hkg h
    · exact hkn h
    · obtain ⟨⟨f, hf, hk'⟩, -⟩ := (hmem k).1 h
      exact hkf f hf hk'

/-- **C95** fails when there is no second neighbour: the last of the neighbours, or the grain clicked
if it has none, is green. -/
theorem C95_no_second {h w : Nat} {grains : List (List Px)} (hg : Spec.MapGrains h w grains)
    (nb : Nat → List Nat) (g : Nat) (hn : (nb g).Nodup) (hself : g ∉ nb g)
    (hlt : ∀ k ∈ (neighbourHighlights nb g).1, k < grains.length)
    {free : Px} (hf : (0 ≤ free.1 ∧ free.1 < w) ∧ 0 ≤ free.2 ∧ free.2 < h)
    (hfree : ∀ k, ¬ Spec.InListed grains (neighbourHighlights nb g).1 k free)
    (hsec : ∀ f ∈ nb g, ∀ k ∈ nb f, k = g ∨ k ∈ nb g) :
    ∃ out cs, addHighlights h w grains
        ((neighbourHighlights nb g).1.map fun (k : Nat) => (k : Int))
        (some (neighbourHighlights nb g).2) = .ok (out, cs) ∧
      ∀ (pts : List Px) (p : Px), grains[(g :: nb g).getLast (by simp)]? = some pts → p ∈ pts →
        out p.2 p.1 = some (lit "green") := by
  obtain ⟨second, e1, hnd, hmem⟩ := C95_neighbours nb g hn hself
  have hs : second = [] := by
    rw [List.eq_nil_iff_forall_not_mem]
    intro k hk
    obtain ⟨⟨f, hf, hk'⟩, h1, h2⟩ := (hmem k).1 hk
    rcases hsec f hf k hk' with h | h
    · exact h1 h
    · exact h2 h
  subst hs
  rw [List.append_nil] at e1
  have e2 : (neighbourHighlights nb g).2 =
      lit "white" :: List.replicate (nb g).length (lit "yellow") ++ [lit "green"] := rfl
  obtain ⟨out, cs, e, h1⟩ := C95_fewer hg hnd hlt (by rw [e1]; simp) hf hfree
    (colours := (neighbourHighlights nb g).2) (by rw [e1, e2]; simp)
  refine ⟨out, cs, e, fun pts p hk hp => ?_⟩
  rw [h1 p.1 p.2 ⟨_, pts, by
    rw [e1, List.getLast_eq_getElem, List.getElem?_eq_getElem (by simp)], hk, hp⟩, e2]
  simp

/-- Two grains of one pixel in a map of three: the hypotheses hold. -/
example : Spec.MapGrains 1 3 [[(0, 0)], [(1, 0)]] ∧
    (∀ k, ¬ Spec.InListed [[((0 : Int), (0 : Int))], [(1, 0)]] [1, 0] k (2, 0)) ∧
    Spec.InListed [[((0 : Int), (0 : Int))], [(1, 0)]] [1, 0] 1 (0, 0) := by
  refine ⟨⟨by decide, by decide, ?_⟩, ?_, ⟨0, [(0, 0)], rfl, rfl, by simp⟩⟩
  · intro i j a b p hi hj ha hb
    match i, j with
    | 0, 0 => rfl
    | 1, 1 => rfl
    | 0, 1 => simp at hi hj; subst hi hj; simp at ha hb; rw [ha] at hb; simp at hb
    | 1, 0 => simp at hi hj; subst hi hj; simp at ha hb; rw [ha] at hb; simp at hb
    | i + 2, _ => simp at hi
    | _, j + 2 => simp at hj
  · rintro k ⟨g, pts, hg, hp, hm⟩
    match k with
    | 0 => simp at hg; subst hg; simp at hp; subst hp; simp at hm
    | 1 => simp at hg; subst hg; simp at hp; subst hp; simp at hm
    | k + 2 => simp at hg

end DefDAP
