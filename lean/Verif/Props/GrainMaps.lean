import Verif.Props.GrainData
import Mathlib.Data.List.Perm.Basic
import Mathlib.Order.Bounds.Basic
import Mathlib.Algebra.BigOperators.Group.List.Basic
import Mathlib.Tactic.NormNum

/-! Properties C21 and C22: coarse grain maps and proxigram. -/

namespace DefDAP
open Spec

/-! ### C21 -/

/-- The values of the grain at the points at most `k` rows and at most `k` columns away from
`c`, in the order of the grain's points; nan values are left out. -/
def kernelValues (pts : List Px) (data : List (Option Rat)) (k : Nat) (c : Px) : List Rat :=
  (pts.zip data).filterMap fun pv =>
    if |pv.1.1 - c.1| ≤ k ∧ |pv.1.2 - c.2| ≤ k then pv.2 else none

/-- The sum and count loop of `coarsePixel` over a list of positions. -/
theorem foldl_acc (f : Nat × Nat → Option Rat) : ∀ (l : List (Nat × Nat)) (s : Rat) (n : Nat),
    l.foldl (fun (s : Rat × Nat) b => coarseAcc s (f b)) (s, n) =
    (s + (l.filterMap f).sum, n + (l.filterMap f).length) := by
  intro l
  induction l with
  | nil => intro s n; simp
  | cons b l ih =>
    intro s n
    rw [List.foldl_cons]
    cases hb : f b with
    | none => simp only [List.filterMap_cons, hb]; exact ih s n
    | some v =>
      simp only [List.filterMap_cons, hb]
      rw [show coarseAcc (s, n) (some v) = (s + v, n + 1) from rfl, ih]
      simp only [List.sum_cons, List.length_cons, Prod.mk.injEq]
      exact ⟨by ring, by omega⟩

theorem foldl_nested (g : Rat × Nat → Nat × Nat → Rat × Nat) (lx : List Nat) :
    ∀ (ly : List Nat) (s : Rat × Nat),
    ly.foldl (fun s a => lx.foldl (fun s b => g s (a, b)) s) s =
      (ly.flatMap fun a => lx.map fun b => (a, b)).foldl g s := by
  intro ly
  induction ly with
  | nil => intro s; rfl
  | cons a ly ih =>
    intro s
    rw [List.foldl_cons, List.flatMap_cons, List.foldl_append, ih, List.foldl_map]

/-- The positions visited by the kernel loops at `(i, j)`. -/
def kernelBox (hh ww k i j : Nat) : List (Nat × Nat) :=
  (List.range' (kernelRange hh i k).1 ((kernelRange hh i k).2 - (kernelRange hh i k).1)).flatMap
    fun a => (List.range' (kernelRange ww j k).1 ((kernelRange ww j k).2 - (kernelRange ww j k).1)).map
      fun b => (a, b)

theorem mem_kernelBox {hh ww k i j a b : Nat} :
    (a, b) ∈ kernelBox hh ww k i j ↔ a < hh ∧ b < ww ∧ |(a : Int) - i| ≤ k ∧ |(b : Int) - j| ≤ k := by
  unfold kernelBox kernelRange
  simp only [List.mem_flatMap, List.mem_map, List.mem_range', Prod.mk.injEq, abs_le]
  constructor
  · rintro ⟨c, ⟨d, hd, rfl⟩, e, ⟨f, hf, rfl⟩, rfl, rfl⟩
    split_ifs at * <;> omega
  · rintro ⟨h1, h2, h3, h4⟩
    refine ⟨a, ⟨a - (if k ≤ i then i - k else 0), ?_, ?_⟩, b,
      ⟨b - (if k ≤ j then j - k else 0), ?_, ?_⟩, rfl, rfl⟩ <;> split_ifs <;> omega

theorem kernelBox_nodup (hh ww k i j : Nat) : (kernelBox hh ww k i j).Nodup := by
  unfold kernelBox
  rw [List.nodup_flatMap]
  refine ⟨?_, ?_⟩
  · intro a _
    exact (List.nodup_range' ).map (fun b c h => by simpa using h)
  · refine List.Pairwise.imp ?_ (List.nodup_range')
    intro a b hab p hp hq
    obtain ⟨_, _, rfl⟩ := List.mem_map.1 hp
    obtain ⟨_, _, h⟩ := List.mem_map.1 hq
    simp only [Prod.mk.injEq] at h
    exact hab h.1.symm

theorem coarsePixel_eq (hh ww k : Nat) (im : Img (Option Rat)) (bg : Option Rat) (i j : Nat) :
    coarsePixel hh ww k im bg i j = match im i j with
      | none => bg
      | some _ => mean? ((kernelBox hh ww k i j).filterMap fun ab => im ab.1 ab.2) := by
  unfold coarsePixel
  cases im i j with
  | none => rfl
  | some v0 =>
    simp only
    have h1 := foldl_nested (fun (s : Rat × Nat) (ab : Nat × Nat) => coarseAcc s (im ab.1 ab.2))
      (List.range' (kernelRange ww j k).1 ((kernelRange ww j k).2 - (kernelRange ww j k).1))
      (List.range' (kernelRange hh i k).1 ((kernelRange hh i k).2 - (kernelRange hh i k).1)) (0, 0)
    have h2 := foldl_acc (fun ab : Nat × Nat => im ab.1 ab.2) (kernelBox hh ww k i j) 0 0
    rw [← kernelBox] at h1
    rw [h1, h2]
    unfold mean?
    simp only [zero_add]
    by_cases hnil : (kernelBox hh ww k i j).filterMap (fun ab => im ab.1 ab.2) = []
    · simp [hnil]
    · have := List.length_pos_of_ne_nil hnil
      rw [if_pos this, if_neg hnil]

/-- **C21** Each pixel of the coarse map of a grain is: the background where the grain has no
point (or a nan value); elsewhere the mean of the grain's own values at the points at most
`k` rows and columns away. The image has the size of the bounding box. -/
theorem C21_coarse_mean (pts : List Px) (hne : pts ≠ []) (hn : pts.Nodup)
    (data : List (Option Rat)) (k : Nat) (bg : Option Rat) :
    ∃ x0 y0 x1 y1 hh ww im, extremeCoords pts = .ok (x0, y0, x1, y1) ∧
      grainMapDataCoarse pts data k bg = .ok (hh, ww, im) ∧
      (hh : Int) = y1 - y0 + 1 ∧ (ww : Int) = x1 - x0 + 1 ∧
      ∀ i j : Nat, i < hh → j < ww →
        ((∀ v, (((j + x0, i + y0) : Px), some v) ∉ pts.zip data) → im i j = bg) ∧
        (∀ v, (((j + x0, i + y0) : Px), some v) ∈ pts.zip data →
          kernelValues pts data k (j + x0, i + y0) ≠ [] ∧
          im i j = some ((kernelValues pts data k (j + x0, i + y0)).sum /
            (kernelValues pts data k (j + x0, i + y0)).length)) := by
  obtain ⟨x0, y0, x1, y1, he, hb, -⟩ := extremeCoords_spec hne
  obtain ⟨q, hq⟩ := List.exists_mem_of_ne_nil _ hne
  have hq' := hb q hq
  set shifted : List (Px × Option Rat) :=
    (pts.zip data).map fun pv => (((pv.1.1 - x0, pv.1.2 - y0) : Px), pv.2) with hsh
  have hmap := grainMapData_ok hne data none he
  rw [← hsh] at hmap
  set im := wrAll (fun _ _ => (none : Option Rat)) shifted with him
  have hnd := shifted_nodup data hn x0 y0
  rw [← hsh] at hnd
  -- what the image shows
  have hshow : ∀ (x y : Int) (v : Rat), im y x = some v ↔ (((x + x0, y + y0) : Px), some v) ∈ pts.zip data := by
    intro x y v
    have hm : (((x, y) : Px), some v) ∈ shifted ↔ (((x + x0, y + y0) : Px), some v) ∈ pts.zip data := by
      rw [hsh, List.mem_map]
      constructor
      · rintro ⟨⟨p, u⟩, hz, heq⟩
        simp only [Prod.mk.injEq] at heq
        obtain ⟨⟨e1, e2⟩, e3⟩ := heq
        have : p = (x + x0, y + y0) := Prod.ext (by simp only; omega) (by simp only; omega)
        rw [← this, ← e3]; exact hz
      · intro hz
        refine ⟨_, hz, ?_⟩
        simp
    rw [← hm]
    constructor
    · intro h
      by_cases hex : ∃ pv ∈ shifted, pv.1 = ((x, y) : Px)
      · obtain ⟨⟨p, u⟩, hpv, heq⟩ := hex
        have := wrAll_mem shifted (fun _ _ => none) hnd (p, u) hpv
        simp only at heq
        subst heq
        rw [← him] at this
        simp only at this
        rw [this] at h
        rw [← h]; exact hpv
      · have := wrAll_notMem shifted (fun _ _ => none) ((x, y) : Px) (fun pv hpv heq =>
          hex ⟨pv, hpv, heq⟩)
        rw [← him] at this
        simp only at this
        rw [this] at h
        simp at h
    · intro h
      exact wrAll_mem shifted (fun _ _ => none) hnd (((x, y) : Px), some v) h
  refine ⟨x0, y0, x1, y1, (y1 - y0 + 1).toNat, (x1 - x0 + 1).toNat,
    fun i j => coarsePixel (y1 - y0 + 1).toNat (x1 - x0 + 1).toNat k im bg i j, he, ?_,
    by omega, by omega, ?_⟩
  · unfold grainMapDataCoarse; rw [hmap]; rfl
  intro i j hi hj
  simp only
  rw [coarsePixel_eq]
  constructor
  · intro hno
    cases hv : im i j with
    | none => rfl
    | some v => exact absurd ((hshow j i v).1 hv) (hno v)
  · intro v hv
    rw [(hshow j i v).2 hv]
    simp only
    -- the values in raster order are a permutation of those in point order
    have hperm : ((kernelBox (y1 - y0 + 1).toNat (x1 - x0 + 1).toNat k i j).filterMap
        fun ab => im ab.1 ab.2).Perm (kernelValues pts data k (j + x0, i + y0)) := by
      -- lists of (pixel, value)
      let A := (kernelBox (y1 - y0 + 1).toNat (x1 - x0 + 1).toNat k i j).filterMap
        fun ab => (im ab.1 ab.2).map fun v => ((((ab.2 : Int) + x0, (ab.1 : Int) + y0) : Px), v)
      let B := (pts.zip data).filterMap fun pv =>
        (if |pv.1.1 - (j + x0)| ≤ k ∧ |pv.1.2 - (i + y0)| ≤ k then pv.2 else none).map fun v => (pv.1, v)
      have hA : A.map (·.2) = (kernelBox (y1 - y0 + 1).toNat (x1 - x0 + 1).toNat k i j).filterMap
          fun ab => im ab.1 ab.2 := by
        simp only [A, List.map_filterMap]
        congr 1
        funext ab
        cases im ab.1 ab.2 <;> rfl
      have hB : B.map (·.2) = kernelValues pts data k (j + x0, i + y0) := by
        simp only [B, kernelValues, List.map_filterMap]
        congr 1
        funext pv
        split_ifs
        · cases pv.2 <;> rfl
        · rfl
      rw [← hA, ← hB]
      apply List.Perm.map
      have nA : A.Nodup := by
        refine List.Nodup.filterMap ?_ (kernelBox_nodup _ _ _ _ _)
        intro a a' b h1 h2
        simp only [Option.mem_def, Option.map_eq_some_iff] at h1 h2
        obtain ⟨v1, -, rfl⟩ := h1
        obtain ⟨v2, -, h2⟩ := h2
        simp only [Prod.mk.injEq] at h2
        exact Prod.ext (by omega) (by omega)
      have nz : (pts.zip data).Nodup := by
        have : ((pts.zip data).map (·.1)).Nodup := hn.sublist (map_fst_zip_sublist _ _)
        exact List.Nodup.of_map _ this
      have nB : B.Nodup := by
        refine List.Nodup.filterMap ?_ nz
        intro a a' b h1 h2
        simp only [Option.mem_def, Option.map_eq_some_iff] at h1 h2
        obtain ⟨v1, h1, rfl⟩ := h1
        obtain ⟨v2, h2, h3⟩ := h2
        simp only [Prod.mk.injEq] at h3
        split_ifs at h1 with c1
        split_ifs at h2 with c2
        refine Prod.ext h3.1.symm ?_
        rw [h1, h2, h3.2]
      rw [List.perm_ext_iff_of_nodup nA nB]
      rintro ⟨p, u⟩
      simp only [A, B, List.mem_filterMap, Option.map_eq_some_iff, Prod.mk.injEq]
      constructor
      · rintro ⟨⟨a, b⟩, hab, v', hv', rfl, rfl⟩
        rw [mem_kernelBox] at hab
        have hz := (hshow b a v').1 hv'
        refine ⟨_, hz, v', ?_, rfl, rfl⟩
        rw [if_pos]
        simp only
        constructor
        · have := hab.2.2.2; rw [abs_le] at this ⊢; omega
        · have := hab.2.2.1; rw [abs_le] at this ⊢; omega
      · rintro ⟨⟨p', o⟩, hz, v', hv', rfl, rfl⟩
        split_ifs at hv' with hc
        simp only at hv' hc
        subst hv'
        have hpm := (List.of_mem_zip hz).1
        have hbp := hb p' hpm
        refine ⟨((p'.2 - y0).toNat, (p'.1 - x0).toNat), ?_, v', ?_, ?_, rfl⟩
        · rw [mem_kernelBox]
          rw [abs_le, abs_le] at hc
          refine ⟨by omega, by omega, ?_, ?_⟩
          · rw [abs_le]; omega
          · rw [abs_le]; omega
        · simp only
          rw [hshow]
          have : ((((p'.1 - x0).toNat : Int) + x0, ((p'.2 - y0).toNat : Int) + y0) : Px) = p' :=
            Prod.ext (by simp only; omega) (by simp only; omega)
          rw [this]; exact hz
        · exact Prod.ext (by simp only; omega) (by simp only; omega)
    have hne' : kernelValues pts data k (j + x0, i + y0) ≠ [] := by
      have : v ∈ kernelValues pts data k (j + x0, i + y0) := by
        unfold kernelValues
        rw [List.mem_filterMap]
        exact ⟨_, hv, by simp⟩
      exact List.ne_nil_of_mem this
    refine ⟨hne', ?_⟩
    unfold mean?
    rw [if_neg (fun h => hne' (by rw [h] at hperm; exact hperm.nil_eq.symm)), hperm.sum_eq,
      hperm.length_eq]

/-- **C21** If all values of the grain lie between `lo` and `hi`, so does every coarse value, and
with a kernel of size zero the coarse map shows the values themselves. -/
theorem C21_coarse_bounds (pts : List Px) (hne : pts ≠ []) (hn : pts.Nodup) (data : List (Option Rat))
    (k : Nat) (bg : Option Rat) (lo hi : Rat)
    (hd : ∀ v, some v ∈ data → lo ≤ v ∧ v ≤ hi) :
    ∃ x0 y0 x1 y1 hh ww im, extremeCoords pts = .ok (x0, y0, x1, y1) ∧
      grainMapDataCoarse pts data k bg = .ok (hh, ww, im) ∧
      ∀ i j : Nat, i < hh → j < ww → ∀ v, (((j + x0, i + y0) : Px), some v) ∈ pts.zip data →
        ∃ u, im i j = some u ∧ lo ≤ u ∧ u ≤ hi ∧ (k = 0 → u = v) := by
  obtain ⟨x0, y0, x1, y1, hh, ww, im, he, hg, -, -, hpix⟩ := C21_coarse_mean pts hne hn data k bg
  refine ⟨x0, y0, x1, y1, hh, ww, im, he, hg, ?_⟩
  intro i j hi' hj v hv
  obtain ⟨hne', hval⟩ := (hpix i j hi' hj).2 v hv
  refine ⟨_, hval, ?_⟩
  have hbd := mean_bounds (fun x : Rat => x) lo hi (kernelValues pts data k (j + x0, i + y0)) hne' (by
    intro a ha
    unfold kernelValues at ha
    rw [List.mem_filterMap] at ha
    obtain ⟨pv, hpv, hif⟩ := ha
    split_ifs at hif
    exact hd a (hif ▸ (List.of_mem_zip (a := pv.1) (b := pv.2) hpv).2))
  rw [List.map_id'] at hbd
  refine ⟨hbd.1, hbd.2, ?_⟩
  rintro rfl
  have hall : ∀ a ∈ kernelValues pts data 0 (j + x0, i + y0), a = v := by
    intro a ha
    unfold kernelValues at ha
    rw [List.mem_filterMap] at ha
    obtain ⟨⟨p, o⟩, hpv, hif⟩ := ha
    split_ifs at hif with hc
    simp only [Nat.cast_zero, abs_le] at hc hif
    subst hif
    have hp : p = ((j + x0, i + y0) : Px) := Prod.ext (by simp only; omega) (by simp only; omega)
    subst hp
    obtain ⟨n1, h1⟩ := List.mem_iff_getElem?.1 hpv
    obtain ⟨n2, h2⟩ := List.mem_iff_getElem?.1 hv
    rw [List.getElem?_zip_eq_some] at h1 h2
    obtain ⟨l1, e1⟩ := List.getElem?_eq_some_iff.1 h1.1
    obtain ⟨l2, e2⟩ := List.getElem?_eq_some_iff.1 h2.1
    have := (List.Nodup.getElem_inj_iff hn).1 (e1.trans e2.symm)
    subst this
    have := h1.2.symm.trans h2.2
    simpa using this
  have hb2 := mean_bounds (fun x : Rat => x) v v _ hne' (fun a ha => by rw [hall a ha]; simp)
  rw [List.map_id'] at hb2
  exact le_antisymm hb2.2 hb2.1

/-! ### C22 -/

theorem foldl_min_real (f : Nat → ℝ) (l : List Nat) : ∀ a,
    l.foldl (fun m k => min m (f k)) a ≤ a ∧ (∀ k ∈ l, l.foldl (fun m k => min m (f k)) a ≤ f k) ∧
    (l.foldl (fun m k => min m (f k)) a = a ∨ ∃ k ∈ l, l.foldl (fun m k => min m (f k)) a = f k) := by
  induction l with
  | nil => intro a; simp
  | cons c l ih =>
    intro a
    obtain ⟨h1, h2, h3⟩ := ih (min a (f c))
    rw [List.foldl_cons]
    refine ⟨h1.trans (min_le_left _ _), ?_, ?_⟩
    · intro k hk
      rcases List.mem_cons.1 hk with rfl | hk
      · exact h1.trans (min_le_right _ _)
      · exact h2 k hk
    · rcases h3 with h3 | ⟨k, hk, h3⟩
      · rw [h3]
        rcases le_total a (f c) with h | h
        · left; exact min_eq_left h
        · right; exact ⟨c, by simp, min_eq_right h⟩
      · right; exact ⟨k, by simp [hk], h3⟩

theorem trialMin_spec (n : Nat) (t : Nat → Img ℝ) (y x : Int) :
    (∀ k ≤ n, trialMin n t y x ≤ t k y x) ∧ ∃ k ≤ n, trialMin n t y x = t k y x := by
  obtain ⟨h1, h2, h3⟩ := foldl_min_real (fun k => t (k + 1) y x) (List.range n) (t 0 y x)
  unfold trialMin
  constructor
  · intro k hk
    cases k with
    | zero => exact h1
    | succ k => exact h2 k (List.mem_range.2 (by omega))
  · rcases h3 with h3 | ⟨k, hk, h3⟩
    · exact ⟨0, by omega, h3⟩
    · have := List.mem_range.1 hk
      exact ⟨k + 1, by omega, h3⟩

/-- The distances a proxigram value can take: 1000, or the distance to a boundary point. -/
def proxValues (points : List Px) (y x : Int) : Set ℝ :=
  {d | d = 1000 ∨ ∃ p ∈ points, d = Real.sqrt (((y : ℝ) - ((p.2 : ℝ) + 1/2)) ^ 2 +
    ((x : ℝ) - ((p.1 : ℝ) + 1/2)) ^ 2)}

theorem prox_loop (n : Nat) (hn : 1 ≤ n) : ∀ (l done : List Px) (t : Nat → Img ℝ) (j : Nat),
    1 ≤ j → j ≤ n →
    (∀ k ≤ n, ∀ y x, t k y x ∈ proxValues done y x) →
    (∀ y x, ∀ s ∈ proxValues done y x, ∃ k < j, t k y x ≤ s) →
    ∃ t' j', l.foldlM (proxStep n) (t, j) = .ok (t', j') ∧ 1 ≤ j' ∧ j' ≤ n ∧
      (∀ k ≤ n, ∀ y x, t' k y x ∈ proxValues (done ++ l) y x) ∧
      (∀ y x, ∀ s ∈ proxValues (done ++ l) y x, ∃ k < j', t' k y x ≤ s) := by
  intro l
  induction l with
  | nil =>
    intro done t j h1 h2 h3 h4
    exact ⟨t, j, rfl, h1, h2, by simpa using h3, by simpa using h4⟩
  | cons p l ih =>
    intro done t j h1 h2 h3 h4
    have hsub : ∀ y x, proxValues done y x ⊆ proxValues (done ++ [p]) y x := by
      intro y x d hd
      rcases hd with hd | ⟨q, hq, hd⟩
      · exact Or.inl hd
      · exact Or.inr ⟨q, by simp [hq], hd⟩
    have hnew : ∀ y x, boundaryDist p y x ∈ proxValues (done ++ [p]) y x := by
      intro y x
      exact Or.inr ⟨p, by simp, rfl⟩
    have hsplit : ∀ y x, ∀ s ∈ proxValues (done ++ [p]) y x,
        s ∈ proxValues done y x ∨ s = boundaryDist p y x := by
      intro y x s hs
      rcases hs with hs | ⟨q, hq, hs⟩
      · exact Or.inl (Or.inl hs)
      · rcases List.mem_append.1 hq with hq | hq
        · exact Or.inl (Or.inr ⟨q, hq, hs⟩)
        · rw [List.mem_singleton] at hq; subst hq; exact Or.inr hs
    set t1 := Function.update t j (boundaryDist p) with ht1
    have g3 : ∀ k ≤ n, ∀ y x, t1 k y x ∈ proxValues (done ++ [p]) y x := by
      intro k hk y x
      by_cases hkj : k = j
      · subst hkj; rw [ht1, Function.update_self]; exact hnew y x
      · rw [ht1, Function.update_of_ne hkj]; exact hsub y x (h3 k hk y x)
    have g4 : ∀ y x, ∀ s ∈ proxValues (done ++ [p]) y x, ∃ k < j + 1, t1 k y x ≤ s := by
      intro y x s hs
      rcases hsplit y x s hs with hs | rfl
      · obtain ⟨k, hk, hle⟩ := h4 y x s hs
        refine ⟨k, by omega, ?_⟩
        rw [ht1, Function.update_of_ne (by omega)]; exact hle
      · exact ⟨j, by omega, by rw [ht1, Function.update_self]⟩
    have happ : done ++ p :: l = (done ++ [p]) ++ l := by simp
    rw [happ]
    by_cases hjn : j = n
    · have hstep : proxStep n (t, j) p = .ok (Function.update t1 0 (trialMin n t1), 0 + 1) := by
        unfold proxStep; simp only [if_true, hjn, ht1]; rw [if_pos le_rfl]
      rw [List.foldlM_cons, hstep]
      refine ih (done ++ [p]) _ _ le_rfl hn ?_ ?_
      · intro k hk y x
        by_cases hk0 : k = 0
        · subst hk0
          rw [Function.update_self]
          obtain ⟨k', hk', he⟩ := (trialMin_spec n t1 y x).2
          rw [he]; exact g3 k' hk' y x
        · rw [Function.update_of_ne hk0]; exact g3 k hk y x
      · intro y x s hs
        obtain ⟨k, hk, hle⟩ := g4 y x s hs
        refine ⟨0, by omega, ?_⟩
        rw [Function.update_self]
        exact ((trialMin_spec n t1 y x).1 k (by omega)).trans hle
    · have hstep : proxStep n (t, j) p = .ok (t1, j + 1) := by
        unfold proxStep; simp only [h2, if_true, hjn, if_false, ht1]
      rw [List.foldlM_cons, hstep]
      exact ih (done ++ [p]) t1 (j + 1) (by omega) (by omega) g3 g4

/-- **C22** For every batch size of at least one the proxigram value of a pixel is the smallest
of 1000 and the distances to all boundary points, a boundary point `(x, y)` sitting at
`(x + 1/2, y + 1/2)`. -/
theorem C22_proxigram (n : Nat) (hn : 1 ≤ n) (points : List Px) :
    ∃ im, calcProxigram n points = .ok im ∧
      ∀ y x : Int, IsLeast (proxValues points y x) (im y x) := by
  obtain ⟨t, j, he, h1, h2, h3, h4⟩ := prox_loop n hn points [] (fun _ _ _ => 1000) 1 le_rfl hn
    (fun k _ y x => Or.inl rfl) (by
      intro y x s hs
      rcases hs with rfl | ⟨q, hq, -⟩
      · exact ⟨0, by omega, le_rfl⟩
      · simp at hq)
  refine ⟨trialMin n t, ?_, ?_⟩
  · unfold calcProxigram; rw [he]; rfl
  · intro y x
    obtain ⟨a, k, hk, b⟩ := trialMin_spec n t y x
    constructor
    · rw [b]; simpa using h3 k hk y x
    · intro s hs
      obtain ⟨k', hk', hle⟩ := h4 y x s (by simpa using hs)
      exact (a k' (by omega)).trans hle

/-- **C22** Neither the batch size nor the order of the boundary points matters. -/
theorem C22_order_and_batch (n n' : Nat) (hn : 1 ≤ n) (hn' : 1 ≤ n') (points points' : List Px)
    (hp : ∀ p, p ∈ points ↔ p ∈ points') : calcProxigram n points = calcProxigram n' points' := by
  obtain ⟨im, h1, h2⟩ := C22_proxigram n hn points
  obtain ⟨im', h1', h2'⟩ := C22_proxigram n' hn' points'
  rw [h1, h1']
  congr 1
  funext y x
  have : proxValues points y x = proxValues points' y x := by
    unfold proxValues; simp only [hp]
  have h3 := h2 y x
  rw [this] at h3
  exact h3.unique (h2' y x)

/-- **C22** A batch size of zero fails as soon as there is a boundary point. -/
theorem C22_zero_batch (p : Px) (points : List Px) :
    calcProxigram 0 (p :: points) = .error .indexError := by
  unfold calcProxigram
  rw [List.foldlM_cons]
  have : proxStep 0 (fun _ _ _ => 1000, 1) p = .error .indexError := by
    unfold proxStep; simp
  rw [this]; rfl

/-- A concrete value: with boundary points `(0, 0)` and `(5, 5)` the pixel `(1, 1)` has distance
`sqrt (1/2)`. -/
example (n : Nat) (hn : 1 ≤ n) : ∃ im, calcProxigram n [(0, 0), (5, 5)] = .ok im ∧
    im 1 1 = Real.sqrt (1 / 2) := by
  obtain ⟨im, h1, h2⟩ := C22_proxigram n hn [(0, 0), (5, 5)]
  refine ⟨im, h1, ?_⟩
  have h3 := h2 1 1
  refine h3.unique ⟨?_, ?_⟩
  · right
    refine ⟨(0, 0), by simp, ?_⟩
    norm_num
  · rintro s (rfl | ⟨p, hp, rfl⟩)
    · rw [Real.sqrt_le_left (by norm_num)]; norm_num
    · simp only [List.mem_cons, List.not_mem_nil, or_false] at hp
      rcases hp with rfl | rfl
      · apply Real.sqrt_le_sqrt; norm_num
      · apply Real.sqrt_le_sqrt; norm_num

/-- A concrete coarse map: three points, kernel 1, one nan. -/
example : (grainMapDataCoarse [(3, 4), (4, 4), (3, 6)] [some 1, some 2, some 7] 1 (some 0)).toOption.map
    (fun r => (r.1, r.2.1, (List.range 3).map fun i => (List.range 2).map fun j => r.2.2 i j)) =
    some (3, 2, [[some (3/2), some (3/2)], [some 0, some 0], [some 7, some 0]]) := by
  decide +kernel

end DefDAP
