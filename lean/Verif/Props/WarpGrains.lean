import Mathlib.Data.List.Sort
import Mathlib.Tactic.Linarith
import Verif.Model.DicGrains

/-! Properties C14 (renumbering of warped grains) and C78 (linking DIC to EBSD grains). -/

namespace DefDAP

theorem getElem?_countP_lt : ∀ {l : List Int} {v : Int}, l.Pairwise (· < ·) → v ∈ l →
    l[l.countP (· < v)]? = some v := by
  intro l
  induction l with
  | nil => intro v _ hv; simp at hv
  | cons a l ih =>
    intro v hs hv
    rw [List.pairwise_cons] at hs
    by_cases hav : a < v
    · have hvl : v ∈ l := by
        rcases List.mem_cons.1 hv with h | h
        · omega
        · exact h
      rw [List.countP_cons_of_pos (by simpa using hav), List.getElem?_cons_succ]
      exact ih hs.2 hvl
    · have hva : v = a := by
        rcases List.mem_cons.1 hv with h | h
        · exact h
        · exact absurd (hs.1 v h) hav
      subst hva
      have h0 : (v :: l).countP (· < v) = 0 := by
        rw [List.countP_eq_zero]
        intro b hb
        rcases List.mem_cons.1 hb with h | h
        · simp [h]
        · have := hs.1 b h; simp; omega
      rw [h0]; rfl

theorem unique_nodup (vals : List Int) : (unique vals).Nodup :=
  (List.perm_insertionSort _ _).nodup_iff.2 (List.nodup_dedup vals)

theorem unique_pairwise (vals : List Int) : (unique vals).Pairwise (· < ·) :=
  (List.sortedLE_insertionSort.pairwise.and (unique_nodup vals)).imp fun h =>
    lt_of_le_of_ne h.1 h.2

theorem mem_unique {vals : List Int} {v : Int} : v ∈ unique vals ↔ v ∈ vals := by
  simp [unique]

/-- The label the code assigns to the value `v`. -/
def relabelOne (vals : List Int) (v : Int) : Int :=
  if v ≤ 0 then v else (((unique vals).filter (0 < ·)).countP (· < v) : Nat) + 1

theorem new_lookup {vals : List Int} {v : Int} (hv : v ∈ vals) :
    (((unique vals).filter (· ≤ 0)) ++
      (List.range ((unique vals).filter (0 < ·)).length).map fun (i : Nat) => (i : Int) + 1)[
        digitizeRight (((unique vals).filter (· ≤ 0)) ++ ((unique vals).filter (0 < ·))) v]? =
      some (relabelOne vals v) := by
  set neg := (unique vals).filter (· ≤ 0) with hneg
  set pos := (unique vals).filter (0 < ·) with hpos
  have hps : pos.Pairwise (· < ·) := (unique_pairwise vals).filter _
  have hns : neg.Pairwise (· < ·) := (unique_pairwise vals).filter _
  unfold digitizeRight relabelOne
  rw [List.countP_append]
  split_ifs with h0
  · have hvn : v ∈ neg := by simp [hneg, mem_unique, hv, h0]
    have hp0 : pos.countP (· < v) = 0 := by
      rw [List.countP_eq_zero]
      intro b hb
      have : 0 < b := by simpa using (List.mem_filter.1 hb).2
      simp; omega
    have hlk := getElem?_countP_lt hns hvn
    have hlt : neg.countP (· < v) < neg.length := (List.getElem?_eq_some_iff.1 hlk).1
    rw [hp0, Nat.add_zero, List.getElem?_append_left hlt]
    exact hlk
  · have hvp : v ∈ pos := by simp [hpos, mem_unique, hv]; omega
    have hn0 : neg.countP (· < v) = neg.length := by
      rw [List.countP_eq_length]
      intro b hb
      have : b ≤ 0 := by simpa using (List.mem_filter.1 hb).2
      simp; omega
    have hlk := getElem?_countP_lt hps hvp
    have hlt : pos.countP (· < v) < pos.length := (List.getElem?_eq_some_iff.1 hlk).1
    rw [hn0, List.getElem?_append_right (by omega), Nat.add_sub_cancel_left]
    rw [List.getElem?_map, List.getElem?_range hlt]
    rfl

theorem mapM_ok_map {α β : Type} {f : α → Except Err β} {g : α → β} :
    ∀ {l : List α}, (∀ a ∈ l, f a = .ok (g a)) → l.mapM f = .ok (l.map g) := by
  intro l
  induction l with
  | nil => intro _; rfl
  | cons a l ih =>
    intro h
    rw [List.mapM_cons, h a (by simp), ih fun b hb => h b (List.mem_cons_of_mem _ hb)]
    rfl

theorem warpRelabel_eq (vals : List Int) :
    warpRelabel vals = .ok (vals.map (relabelOne vals), (unique vals).filter (0 < ·)) := by
  unfold warpRelabel
  simp only [bind, Except.bind]
  rw [mapM_ok_map (g := relabelOne vals)]
  intro v hv
  rw [new_lookup hv]

theorem countP_lt_mono {l : List Int} {a b : Int} (hab : a < b) (ha : a ∈ l) :
    l.countP (· < a) < l.countP (· < b) := by
  induction l with
  | nil => simp at ha
  | cons c l ih =>
    have hmono : l.countP (· < a) ≤ l.countP (· < b) :=
      List.countP_mono_left (by intro x _ hx; simp at hx ⊢; omega)
    rcases List.mem_cons.1 ha with rfl | h
    · rw [List.countP_cons_of_neg (by simp), List.countP_cons_of_pos (by simpa using hab)]
      omega
    · have := ih h
      by_cases hca : c < a
      · rw [List.countP_cons_of_pos (by simpa using hca),
          List.countP_cons_of_pos (by simp; omega)]
        omega
      · rw [List.countP_cons_of_neg (by simpa using hca)]
        by_cases hcb : c < b
        · rw [List.countP_cons_of_pos (by simpa using hcb)]; omega
        · rw [List.countP_cons_of_neg (by simpa using hcb)]; exact this

theorem relabelOne_lt {vals : List Int} {u v : Int} (hu : u ∈ vals)
    (huv : u < v) : relabelOne vals u < relabelOne vals v := by
  unfold relabelOne
  split_ifs with h1 h2
  · exact huv
  · have : (0 : Int) ≤ (((unique vals).filter (0 < ·)).countP (· < v) : Nat) :=
      Int.natCast_nonneg _
    omega
  · omega
  · have : u ∈ (unique vals).filter (0 < ·) := by simp [mem_unique, hu]; omega
    have := countP_lt_mono huv this
    omega

/-- **C14** Renumbering never fails and gives one label per pixel. Labels at or below zero
are kept; the positive ones become 1 to n where n is the number of different positive EBSD
labels present, and the recorded list holds at place `l - 1` the EBSD label that became `l`.
Every number from 1 to n is used, order is kept, and so two pixels get the same label exactly
when they had the same. -/
theorem C14_relabel (vals : List Int) :
    ∃ labels ids, warpRelabel vals = .ok (labels, ids) ∧ labels.length = vals.length ∧
      ids.Nodup ∧ (∀ e, e ∈ ids ↔ e ∈ vals ∧ 0 < e) ∧
      (∀ (k : Nat) (v l : Int), vals[k]? = some v → labels[k]? = some l →
        (v ≤ 0 → l = v) ∧
        (0 < v → 1 ≤ l ∧ l ≤ ids.length ∧ ids[(l - 1).toNat]? = some v)) ∧
      (∀ l : Int, 1 ≤ l → l ≤ ids.length → l ∈ labels) ∧
      (∀ (k k' : Nat) (v v' l l' : Int), vals[k]? = some v → vals[k']? = some v' →
        labels[k]? = some l → labels[k']? = some l' →
        ((l < l' ↔ v < v') ∧ (l = l' ↔ v = v'))) := by
  refine ⟨_, _, warpRelabel_eq vals, by simp, ?_, ?_, ?_, ?_, ?_⟩
  · exact List.Nodup.filter _ (unique_nodup _)
  · intro e; simp [mem_unique]
  · intro k v l hv hl
    have hvm : v ∈ vals := List.mem_of_getElem? hv
    rw [List.getElem?_map, hv] at hl
    simp only [Option.map_some, Option.some.injEq] at hl
    subst hl
    unfold relabelOne
    constructor
    · intro h0; rw [if_pos h0]
    · intro h0
      rw [if_neg (by omega)]
      have hvp : v ∈ (unique vals).filter (0 < ·) := by simp [mem_unique, hvm, h0]
      have hlk := getElem?_countP_lt ((unique_pairwise vals).filter _) hvp
      have hlt := (List.getElem?_eq_some_iff.1 hlk).1
      refine ⟨by omega, by omega, ?_⟩
      rw [Int.add_sub_cancel, Int.toNat_natCast]
      exact hlk
  · intro l h1 h2
    have hi : (l - 1).toNat < ((unique vals).filter (0 < ·)).length := by omega
    set e := ((unique vals).filter (0 < ·))[(l - 1).toNat] with he
    have hem : e ∈ (unique vals).filter (0 < ·) := List.getElem_mem _
    have hem' : e ∈ vals ∧ 0 < e := by simpa [mem_unique] using hem
    refine List.mem_map.2 ⟨e, hem'.1, ?_⟩
    unfold relabelOne
    rw [if_neg (by omega)]
    have hlk := getElem?_countP_lt ((unique_pairwise vals).filter (0 < ·)) hem
    have hnd : ((unique vals).filter (0 < ·)).Nodup :=
      List.Nodup.filter _ (unique_nodup _)
    have : ((unique vals).filter (0 < ·)).countP (· < e) = (l - 1).toNat := by
      obtain ⟨h3, h4⟩ := List.getElem?_eq_some_iff.1 hlk
      exact (List.Nodup.getElem_inj_iff hnd).1 (h4.trans he)
    rw [this]; omega
  · intro k k' v v' l l' hv hv' hl hl'
    have hvm : v ∈ vals := List.mem_of_getElem? hv
    have hvm' : v' ∈ vals := List.mem_of_getElem? hv'
    rw [List.getElem?_map, hv] at hl
    rw [List.getElem?_map, hv'] at hl'
    simp only [Option.map_some, Option.some.injEq] at hl hl'
    subst hl; subst hl'
    rcases lt_trichotomy v v' with h1 | h1 | h1
    · have := relabelOne_lt hvm h1
      constructor <;> constructor <;> intro <;> omega
    · subst h1; simp
    · have := relabelOne_lt hvm' h1
      constructor <;> constructor <;> intro <;> omega

/-- **C14**, the grains: if every positive EBSD label is the number of an EBSD grain and one
occurs in the DIC area, there is one DIC grain per label, holding exactly the pixels that had
its label, and linked to the EBSD grain with that number. -/
theorem C14_grains {α : Type} (ebsd : List α) (vals : List Int)
    (hrange : ∀ v ∈ vals, v ≤ ebsd.length) (hpos : ∃ v ∈ vals, 0 < v) :
    ∃ labels ids grains, warpRelabel vals = .ok (labels, ids) ∧
      warpGrains ebsd vals = .ok (labels, grains) ∧ grains.length = ids.length ∧
      ∀ (i : Nat) (coords : List Nat) (g : α), grains[i]? = some (coords, g) →
        coords ≠ [] ∧ coords.Nodup ∧
        ∃ e : Int, ids[i]? = some e ∧ (∀ k, k ∈ coords ↔ vals[k]? = some e) ∧
          (∀ k, k ∈ coords ↔ labels[k]? = some ((i : Int) + 1)) ∧
          ebsd[(e - 1).toNat]? = some g := by
  obtain ⟨labels, ids, hrel, hlen, hnd, hids, hval, hall, hord⟩ := C14_relabel vals
  have hcoord : ∀ (i : Nat) (e : Int), ids[i]? = some e → ∀ k : Nat,
      labels[k]? = some ((i : Int) + 1) ↔ vals[k]? = some e := by
    intro i e he k
    have hepos := ((hids e).1 (List.mem_of_getElem? he)).2
    have hilt := (List.getElem?_eq_some_iff.1 he).1
    constructor
    · intro hl
      have hk : k < vals.length := by rw [← hlen]; exact (List.getElem?_eq_some_iff.1 hl).1
      have hv := List.getElem?_eq_getElem hk
      obtain ⟨h1, h2⟩ := hval k _ _ hv hl
      have hvp : 0 < vals[k] := by by_contra hn; have := h1 (by omega); omega
      have h3 := (h2 hvp).2.2
      rw [show ((i : Int) + 1 - 1).toNat = i by omega, he] at h3
      rw [hv, h3]
    · intro hv
      have hk : k < labels.length := by rw [hlen]; exact (List.getElem?_eq_some_iff.1 hv).1
      have hl := List.getElem?_eq_getElem hk
      obtain ⟨h1, h2⟩ := hval k _ _ hv hl
      obtain ⟨h3, h4, h5⟩ := h2 hepos
      have : (labels[k] - 1).toNat = i := by
        obtain ⟨a1, a2⟩ := List.getElem?_eq_some_iff.1 h5
        obtain ⟨b1, b2⟩ := List.getElem?_eq_some_iff.1 he
        exact (List.Nodup.getElem_inj_iff hnd).1 (a2.trans b2.symm)
      rw [hl]; congr 1; omega
  have hgrain : ∀ (i : Nat) (e : Int), ids[i]? = some e →
      ∃ g, ebsd[(e - 1).toNat]? = some g ∧ pyGet ebsd (e - 1) = .ok g := by
    intro i e he
    obtain ⟨hem, hepos⟩ := (hids e).1 (List.mem_of_getElem? he)
    have hlt : (e - 1).toNat < ebsd.length := by have := hrange e hem; omega
    have hg := List.getElem?_eq_getElem hlt
    refine ⟨_, hg, ?_⟩
    unfold pyGet
    simp only [if_neg (show ¬ (e - 1 < 0) by omega), if_pos (show 0 ≤ e - 1 by omega), hg]
  have hne : ∀ (i : Nat) (e : Int), ids[i]? = some e →
      (List.range labels.length).filter (fun k => labels[k]? = some ((i : Int) + 1)) ≠ [] := by
    intro i e he hnil
    obtain ⟨hem, -⟩ := (hids e).1 (List.mem_of_getElem? he)
    obtain ⟨k, hk⟩ := List.mem_iff_getElem?.1 hem
    have hl := (hcoord i e he k).2 hk
    have : k ∈ (List.range labels.length).filter
        (fun k => labels[k]? = some ((i : Int) + 1)) := by
      simp only [List.mem_filter, List.mem_range, decide_eq_true_eq]
      exact ⟨(List.getElem?_eq_some_iff.1 hl).1, hl⟩
    rw [hnil] at this; simp at this
  -- the list of grains
  have hex : ∀ i, i < ids.length → ∃ r : List Nat × α,
      warpGrain ebsd labels ids i = .ok r ∧
      r.1 = (List.range labels.length).filter (fun k => labels[k]? = some ((i : Int) + 1)) ∧
      ∃ e, ids[i]? = some e ∧ ebsd[(e - 1).toNat]? = some r.2 := by
    intro i hi
    have he := List.getElem?_eq_getElem hi
    obtain ⟨g, hg1, hg2⟩ := hgrain i _ he
    refine ⟨((List.range labels.length).filter fun k => labels[k]? = some ((i : Int) + 1), g),
      ?_, rfl, _, he, hg1⟩
    simp only [warpGrain, he]
    rw [if_neg (hne i _ he), hg2]
  have hidsne : 0 < ids.length := by
    obtain ⟨v, hv, hv0⟩ := hpos
    exact List.length_pos_of_mem ((hids v).2 ⟨hv, hv0⟩)
  haveI : Nonempty (List Nat × α) := ⟨(hex 0 hidsne).choose⟩
  choose! r hr1 hr2 hr3 using hex
  have hgrains : (List.range ids.length).mapM (warpGrain ebsd labels ids) = .ok ((List.range ids.length).map r) :=
    mapM_ok_map (fun i hi => hr1 i (by simpa using hi))
  refine ⟨labels, ids, (List.range ids.length).map r, hrel, ?_, by simp, ?_⟩
  · unfold warpGrains
    rw [hrel]
    simp only [bind, Except.bind]
    rw [hgrains]
    cases hc : (List.range ids.length).map r with
    | nil => simp at hc; rw [hc] at hidsne; simp at hidsne
    | cons a l => rfl
  · intro i coords g hg
    rw [List.getElem?_map] at hg
    have hi : i < ids.length := by
      by_contra hge
      rw [List.getElem?_eq_none (by simp; omega)] at hg
      simp at hg
    rw [List.getElem?_range hi] at hg
    simp only [Option.map_some, Option.some.injEq] at hg
    have h1 := hr2 i hi
    obtain ⟨e, he, hge⟩ := hr3 i hi
    rw [hg] at h1 hge
    simp only at h1 hge
    subst h1
    have hmem : ∀ k, k ∈ (List.range labels.length).filter
        (fun k => labels[k]? = some ((i : Int) + 1)) ↔ labels[k]? = some ((i : Int) + 1) := by
      intro k
      simp only [List.mem_filter, List.mem_range, decide_eq_true_eq]
      exact ⟨fun h => h.2, fun h => ⟨(List.getElem?_eq_some_iff.1 h).1, h⟩⟩
    refine ⟨hne i e he, List.Nodup.filter _ List.nodup_range, e, he, ?_, hmem, hge⟩
    intro k
    rw [hmem k]
    exact hcoord i e he k

/-- A warped map with EBSD labels 7 and 3, small grains and non-indexed pixels; seven EBSD
grains. -/
example : (warpGrains ["a", "b", "c", "d", "e", "f", "g"] [0, 7, 7, -2, 3, 7]).toOption =
      some ([0, 2, 2, -2, 1, 2], [([4], "c"), ([1, 2, 5], "g")]) ∧
    (∀ v ∈ ([0, 7, 7, -2, 3, 7] : List Int),
      v ≤ (["a", "b", "c", "d", "e", "f", "g"] : List String).length) ∧
    ∃ v ∈ ([0, 7, 7, -2, 3, 7] : List Int), 0 < v := by
  refine ⟨by decide +kernel, by decide, by decide⟩

/-! Linking by the most common overlapping label. -/

theorem foldl_mode {vals : List Int} : ∀ (l : List Int) (a : Int), l.Pairwise (· < ·) →
    (∀ b ∈ l, a < b) →
    let m := l.foldl (fun m v => if vals.count m < vals.count v then v else m) a
    (m = a ∨ m ∈ l) ∧ (∀ b, b = a ∨ b ∈ l → vals.count b ≤ vals.count m ∧
      (vals.count b = vals.count m → m ≤ b)) := by
  intro l
  induction l with
  | nil => intro a _ _; simp
  | cons c l ih =>
    intro a hs ha
    rw [List.pairwise_cons] at hs
    have hac := ha c (by simp)
    simp only [List.foldl_cons]
    by_cases h1 : vals.count a < vals.count c
    · rw [if_pos h1]
      obtain ⟨h2, h3⟩ := ih c hs.2 hs.1
      refine ⟨?_, ?_⟩
      · rcases h2 with h2 | h2
        · right; rw [h2]; simp
        · right; exact List.mem_cons_of_mem _ h2
      · intro b hb
        rcases hb with rfl | hb
        · have := h3 c (Or.inl rfl)
          refine ⟨by omega, fun h => by omega⟩
        · exact h3 b (List.mem_cons.1 hb)
    · rw [if_neg h1]
      obtain ⟨h2, h3⟩ := ih a hs.2 (fun b hb => ha b (List.mem_cons_of_mem _ hb))
      refine ⟨?_, ?_⟩
      · rcases h2 with h2 | h2
        · exact Or.inl h2
        · right; exact List.mem_cons_of_mem _ h2
      · intro b hb
        rcases hb with rfl | hb
        · exact h3 b (Or.inl rfl)
        · rcases List.mem_cons.1 hb with rfl | hb
          · have h4 := h3 a (Or.inl rfl)
            refine ⟨by omega, fun h => ?_⟩
            have := h4.2 (by omega)
            omega
          · exact h3 b (Or.inr hb)

/-- `mode` is the smallest of the most common values. -/
theorem mode_spec {vals : List Int} {m : Int} (hm : mode vals = some m) :
    m ∈ vals ∧ ∀ b ∈ vals, vals.count b ≤ vals.count m ∧
      (vals.count b = vals.count m → m ≤ b) := by
  unfold mode at hm
  have hp := unique_pairwise vals
  have hmem : ∀ v, v ∈ unique vals ↔ v ∈ vals := fun v => mem_unique
  cases hu : unique vals with
  | nil => rw [hu] at hm; cases hm
  | cons a l =>
    rw [hu] at hm hp hmem
    simp only [Option.some.injEq] at hm
    rw [List.pairwise_cons] at hp
    obtain ⟨h1, h2⟩ := foldl_mode (vals := vals) l a hp.2 hp.1
    simp only [hm] at h1 h2
    refine ⟨(hmem m).1 (List.mem_cons.2 h1), ?_⟩
    intro b hb
    exact h2 b (List.mem_cons.1 ((hmem b).2 hb))

theorem mode_none {vals : List Int} : mode vals = none ↔ vals = [] := by
  unfold mode
  cases hu : unique vals with
  | nil =>
    have : ∀ v, v ∉ vals := by
      intro v hv
      have : v ∈ unique vals := mem_unique.2 hv
      rw [hu] at this; simp at this
    simp [List.eq_nil_iff_forall_not_mem.2 this]
  | cons a l =>
    have ha : a ∈ vals := by
      have : a ∈ unique vals := by rw [hu]; simp
      exact mem_unique.1 this
    simp only [reduceCtorEq, false_iff]
    rintro rfl
    simp at ha

/-- **C78** A DIC grain is linked by its most common EBSD label (the smallest of the most
common ones): for the label of a grain, `1` to the number of grains, to that grain; for `0`
and negative labels to a grain counted from the end of the list, where there is one; otherwise
there is an error. -/
theorem C78_link {α : Type} (ebsd : List α) (overlap : List Int) (m : Int)
    (hm : m ∈ overlap)
    (hmax : ∀ b ∈ overlap, overlap.count b ≤ overlap.count m ∧
      (overlap.count b = overlap.count m → m ≤ b)) :
    (∀ k g, m = (k : Nat) + 1 → ebsd[k]? = some g → linkByMode ebsd overlap = .ok g) ∧
    (∀ k g, m = -(k : Nat) → ebsd.reverse[k]? = some g → linkByMode ebsd overlap = .ok g) ∧
    (m < 1 - ebsd.length ∨ ebsd.length < m → linkByMode ebsd overlap = .error .indexError) := by
  have hmode : mode overlap = some m := by
    cases hmode : mode overlap with
    | none => rw [mode_none] at hmode; subst hmode; simp at hm
    | some m' =>
      obtain ⟨h3, h4⟩ := mode_spec hmode
      have : m' = m := by
        have ha := hmax m' h3
        have hb := h4 m hm
        have hc := ha.2 (by omega)
        have hd := hb.2 (by omega)
        omega
      rw [this]
  unfold linkByMode
  rw [hmode]
  simp only
  refine ⟨?_, ?_, ?_⟩
  · rintro k g rfl hg
    have hlt : k < ebsd.length := (List.getElem?_eq_some_iff.1 hg).1
    unfold pyGet
    have e : ((k : Int) + 1 - 1).toNat = k := by omega
    simp only [if_neg (show ¬ ((k : Int) + 1 - 1 < 0) by omega),
      if_pos (show (0 : Int) ≤ (k : Int) + 1 - 1 by omega), e, hg]
  · rintro k g rfl hg
    have hlt : k < ebsd.length := by
      have := (List.getElem?_eq_some_iff.1 hg).1
      simpa using this
    rw [List.getElem?_reverse hlt] at hg
    unfold pyGet
    have e : (-(k : Int) - 1 + ebsd.length).toNat = ebsd.length - 1 - k := by omega
    simp only [if_pos (show -(k : Int) - 1 < 0 by omega),
      if_pos (show (0 : Int) ≤ -(k : Int) - 1 + ebsd.length by omega), e, hg]
  · intro h
    unfold pyGet
    rcases h with h | h
    · simp only [if_pos (show m - 1 < 0 by omega),
        if_neg (show ¬ (0 : Int) ≤ m - 1 + ebsd.length by omega)]
    · have : ebsd[(m - 1).toNat]? = none := List.getElem?_eq_none (by omega)
      simp only [if_neg (show ¬ m - 1 < 0 by omega), if_pos (show (0 : Int) ≤ m - 1 by omega), this]

/-- **C78**, where it fails: if most of the pixels under a DIC grain are not indexed (EBSD
label 0), the grain is linked to the last EBSD grain of the map, wherever that lies. -/
theorem C78_wrong_grain {α : Type} (ebsd : List α) (hne : ebsd ≠ []) (overlap : List Int)
    (h0 : 0 ∈ overlap) (hmax : ∀ b ∈ overlap, b ≠ 0 → overlap.count b < overlap.count 0) :
    linkByMode ebsd overlap = .ok (ebsd.getLast hne) := by
  unfold linkByMode
  cases hmode : mode overlap with
  | none => rw [mode_none] at hmode; subst hmode; simp at h0
  | some m' =>
    obtain ⟨h3, h4⟩ := mode_spec hmode
    have : m' = 0 := by
      by_contra hne'
      have ha := hmax m' h3 hne'
      have hb := h4 0 h0
      omega
    subst this
    have hlen : 0 < ebsd.length := List.length_pos_iff.2 hne
    unfold pyGet
    have e : ((0 : Int) - 1 + ebsd.length).toNat = ebsd.length - 1 := by omega
    simp only [if_pos (show (0 : Int) - 1 < 0 by omega),
      if_pos (show (0 : Int) ≤ 0 - 1 + ebsd.length by omega), e]
    rw [List.getElem?_eq_getElem (by omega), List.getLast_eq_getElem]

/-- Both situations occur. -/
example : (linkByMode ["a", "b", "c"] [2, 2, 0, 1]).toOption = some "b" ∧
    (linkByMode ["a", "b", "c"] [0, 2, 0, 1]).toOption = some "c" := by
  decide +kernel

end DefDAP
