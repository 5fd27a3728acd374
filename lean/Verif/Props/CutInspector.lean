import Verif.Props.InspectorFile
import Verif.Props.CutCtf

/-! C141: loading a file of the grain inspector whose writing was interrupted. -/

namespace DefDAP
open Spec

variable {F : Type}

/-! ### Specification -/

/-- What a file that ends within a grain gives for it: nothing, or all its lines and the first of
its groups. -/
def Spec.CutGrain (s x : InspGrain F) : Prop :=
  x = ⟨[], []⟩ ∨
    ∃ gs, gs <+: s.groups ∧ x = ⟨s.points.map PyVal.plain, gs.map PyVal.plain⟩

/-! ### Brackets -/

/-- Opening less closing brackets. -/
def depth (s : Str) : Int := (s.count '[' : Int) - s.count ']'

theorem depth_append (a b : Str) : depth (a ++ b) = depth a + depth b := by
  unfold depth
  rw [List.count_append, List.count_append]
  push_cast
  omega

theorem depth_free {s : Str} (h : ∀ c ∈ s, c ≠ '[' ∧ c ≠ ']') : depth s = 0 := by
  unfold depth
  rw [List.count_eq_zero_of_not_mem, List.count_eq_zero_of_not_mem]
  · rfl
  · exact fun hc => (h _ hc).2 rfl
  · exact fun hc => (h _ hc).1 rfl

theorem depth_lit {s : Str} (h : ∀ c ∈ s, isNumLit c = true) : depth s = 0 :=
  depth_free fun c hc => ⟨(isNumLit_start (h c hc)).2.1, (isNumLit_start (h c hc)).2.2.1⟩

theorem takeWhile_mem {p : Char → Bool} {s : Str} {c : Char} (h : c ∈ s.takeWhile p) : p c = true := by
  induction s with
  | nil => exact absurd h (by simp)
  | cons a s ih =>
    rw [List.takeWhile_cons] at h
    split at h
    · rcases List.mem_cons.mp h with rfl | h
      · assumption
      · exact ih h
    · exact absurd h (by simp)

theorem skipSp_split (s : Str) : ∃ a, s = a ++ skipSp s ∧ depth a = 0 := by
  refine ⟨s.takeWhile fun c => decide (c = ' '), (List.takeWhile_append_dropWhile).symm, ?_⟩
  apply depth_free
  intro c hc
  have := takeWhile_mem hc
  simp only [decide_eq_true_eq] at this
  rw [this]
  decide

theorem readNumber_split (T : FloatText F) {s r : Str} {v : PyVal F}
    (h : readNumber T s = some (v, r)) : ∃ a, s = a ++ r ∧ depth a = 0 := by
  refine ⟨s.takeWhile isNumLit, ?_, depth_lit fun c hc => takeWhile_mem hc⟩
  have : r = s.dropWhile isNumLit := by
    unfold readNumber at h
    simp only at h
    split at h
    · simp only [Option.some.injEq, Prod.mk.injEq] at h
      exact h.2.symm
    · cases hp : T.parse (s.takeWhile isNumLit) with
      | none => rw [hp] at h; exact absurd h (by simp)
      | some x =>
        rw [hp] at h
        simp only [Option.map_some, Option.some.injEq, Prod.mk.injEq] at h
        exact h.2.symm
  rw [this, List.takeWhile_append_dropWhile]

/-- What is read is balanced. -/
theorem read_split (T : FloatText F) : ∀ (n : Nat),
    (∀ (s r : Str) (v : PyVal F), readVal T n s = some (v, r) → ∃ a, s = a ++ r ∧ depth a = 0) ∧
    (∀ (s r : Str) (l : List (PyVal F)), readItems T n s = some (l, r) →
      ∃ a, s = a ++ r ∧ depth a = -1) := by
  intro n
  induction n with
  | zero =>
    constructor
    · intro s r v h
      exact absurd h (by simp [readVal])
    · intro s r l h
      exact absurd h (by simp [readItems])
  | succ n ih =>
    constructor
    · intro s r v h
      rw [readVal] at h
      obtain ⟨a, ha, hd⟩ := skipSp_split s
      split at h
      · rename_i t e
        obtain ⟨b, hb, hdb⟩ := skipSp_split t
        have hs : s = (a ++ '[' :: b) ++ skipSp t := by
          rw [List.append_assoc, List.cons_append, ← hb, ← e, ← ha]
        have hd1 : depth (a ++ '[' :: b) = 1 := by
          rw [depth_append, show '[' :: b = ['['] ++ b from rfl, depth_append, hd, hdb]
          decide
        split at h
        · rename_i r' e'
          simp only [Option.some.injEq, Prod.mk.injEq] at h
          refine ⟨(a ++ '[' :: b) ++ [']'], ?_, ?_⟩
          · rw [hs, e', h.2, List.append_assoc (a ++ '[' :: b)]
            rfl
          · rw [depth_append, hd1]
            decide
        · cases hi : readItems T n (skipSp t) with
          | none => rw [hi] at h; exact absurd h (by simp)
          | some p =>
            rw [hi] at h
            simp only [Option.map_some, Option.some.injEq, Prod.mk.injEq] at h
            obtain ⟨c, hc, hdc⟩ := ih.2 (skipSp t) p.2 p.1 hi
            refine ⟨(a ++ '[' :: b) ++ c, ?_, ?_⟩
            · rw [hs, hc, h.2, List.append_assoc (a ++ '[' :: b)]
            · rw [depth_append, hd1, hdc]
              rfl
      · obtain ⟨b, hb, hdb⟩ := readNumber_split T h
        exact ⟨a ++ b, by rw [List.append_assoc, ← hb, ← ha], by rw [depth_append, hd, hdb]; rfl⟩
    · intro s r l h
      rw [readItems] at h
      cases hv : readVal T n s with
      | none => rw [hv] at h; exact absurd h (by simp)
      | some p =>
        rw [hv] at h
        simp only [Option.bind_some] at h
        obtain ⟨a, ha, hd⟩ := ih.1 s p.2 p.1 hv
        obtain ⟨b, hb, hdb⟩ := skipSp_split p.2
        split at h
        · rename_i t e
          obtain ⟨c, hc, hdc⟩ := skipSp_split t
          cases hi : readItems T n (skipSp t) with
          | none => rw [hi] at h; exact absurd h (by simp)
          | some q =>
            rw [hi] at h
            simp only [Option.map_some, Option.some.injEq, Prod.mk.injEq] at h
            obtain ⟨f, hf, hdf⟩ := ih.2 (skipSp t) q.2 q.1 hi
            refine ⟨a ++ (b ++ ([','] ++ (c ++ f))), ?_, ?_⟩
            · rw [ha, hb, e]
              simp only [List.append_assoc, List.cons_append, List.nil_append]
              rw [← h.2, ← hf, ← hc]
            · rw [depth_append, depth_append, depth_append, depth_append, hd, hdb, hdc, hdf]
              decide
        · rename_i t e
          simp only [Option.some.injEq, Prod.mk.injEq] at h
          refine ⟨a ++ (b ++ [']']), ?_, ?_⟩
          · rw [ha, hb, e]
            simp only [List.append_assoc, List.cons_append, List.nil_append]
            rw [h.2]
          · rw [depth_append, depth_append, hd, hdb]
            decide
        · exact absurd h (by simp)

/-- What is evaluated is balanced. -/
theorem literalEval_depth {T : FloatText F} {s : Str} {v : PyVal F}
    (h : literalEval T s = .ok v) : depth s = 0 := by
  unfold literalEval at h
  split at h
  · rename_i w r e
    split at h
    · rename_i hr
      obtain ⟨a, ha, hd⟩ := (read_split T _).1 _ _ _ e
      rw [ha, depth_append, hd]
      have : depth r = 0 := by
        apply depth_free
        intro c hc
        have := List.all_eq_true.mp hr c hc
        constructor
        · rintro rfl
          exact absurd this (by decide)
        · rintro rfl
          exact absurd this (by decide)
      omega
    · exact absurd h (by simp)
  · exact absurd h (by simp)

theorem prefix_split {p a b : Str} (h : p <+: a ++ b) :
    p <+: a ∨ ∃ q, p = a ++ q ∧ q <+: b := by
  obtain ⟨v, hv⟩ := h
  rcases List.append_eq_append_iff.mp hv with ⟨a', h1, _⟩ | ⟨a', h1, h2⟩
  · exact Or.inl ⟨a', h1.symm⟩
  · exact Or.inr ⟨a', h1, ⟨v, h2.symm⟩⟩

theorem depth_plain {s : Str} (h : ∀ c ∈ s, c ≠ '[' ∧ c ≠ ']') :
    depth s = 0 ∧ ∀ p, p <+: s → 0 ≤ depth p :=
  ⟨depth_free h, fun _ hp => le_of_eq (depth_free fun c hc => h c (hp.subset hc)).symm⟩

theorem depth_number {s : Str} (h : ∀ c ∈ s, isNumLit c = true) : ∀ c ∈ s, c ≠ '[' ∧ c ≠ ']' :=
  fun c hc => ⟨(isNumLit_start (h c hc)).2.1, (isNumLit_start (h c hc)).2.2.1⟩

theorem depth_numpy {s w : Str} (h : ∀ c ∈ s, isNumLit c = true)
    (hw : ∀ c ∈ w, c ≠ '[' ∧ c ≠ ']') : ∀ c ∈ w ++ s ++ [')'], c ≠ '[' ∧ c ≠ ']' := by
  intro c hc
  rcases List.mem_append.mp hc with hc | hc
  · rcases List.mem_append.mp hc with hc | hc
    · exact hw c hc
    · exact depth_number h c hc
  · rw [List.mem_singleton.mp hc]
    decide

mutual
/-- A value that is written is balanced, and no start of it closes too much. -/
theorem reprVal_depth {T : FloatText F} (hT : T.Lawful) (np2 : Bool) : ∀ (v : PyVal F),
    depth (reprVal T np2 v) = 0 ∧ ∀ p, p <+: reprVal T np2 v → 0 ≤ depth p
  | .int z => depth_plain (depth_number (intStr_lit z))
  | .npInt z => by
    rw [reprVal]
    split
    · exact depth_plain (depth_numpy (intStr_lit z) (by decide))
    · exact depth_plain (depth_number (intStr_lit z))
  | .flt x => depth_plain (depth_number (hT.chars x))
  | .npFlt x => by
    rw [reprVal]
    split
    · exact depth_plain (depth_numpy (hT.chars x) (by decide))
    · exact depth_plain (depth_number (hT.chars x))
  | .list l => by
    obtain ⟨h1, h2⟩ := reprItems_depth hT np2 l
    rw [reprVal, show '[' :: reprItems T np2 l = ['['] ++ reprItems T np2 l from rfl]
    have h0 : depth ['['] = 1 := by decide
    refine ⟨by rw [depth_append, h0, h1]; rfl, ?_⟩
    intro p hp
    rcases prefix_split hp with hp | ⟨q, rfl, hq⟩
    · rcases List.prefix_concat_iff.mp (show p <+: [] ++ ['['] from hp) with rfl | hp
      · decide
      · rw [List.prefix_nil.mp hp]; decide
    · rw [depth_append, h0]
      by_cases e : q = reprItems T np2 l
      · rw [e, h1]; decide
      · have := h2 q hq e
        omega
/-- The entries of a list close one bracket more, at their end. -/
theorem reprItems_depth {T : FloatText F} (hT : T.Lawful) (np2 : Bool) : ∀ (l : List (PyVal F)),
    depth (reprItems T np2 l) = -1 ∧
      ∀ p, p <+: reprItems T np2 l → p ≠ reprItems T np2 l → 0 ≤ depth p
  | [] => by
    rw [reprItems]
    refine ⟨by decide, ?_⟩
    intro p hp hne
    rcases List.prefix_concat_iff.mp (show p <+: [] ++ [']'] from hp) with h | hp
    · exact absurd h hne
    · rw [List.prefix_nil.mp hp]; decide
  | v :: l => by
    obtain ⟨h1, h2⟩ := reprVal_depth hT np2 v
    obtain ⟨h3, h4⟩ := reprTail_depth hT np2 l
    rw [reprItems]
    refine ⟨by rw [depth_append, h1, h3]; rfl, ?_⟩
    intro p hp hne
    rcases prefix_split hp with hp | ⟨q, rfl, hq⟩
    · exact h2 p hp
    · rw [depth_append, h1]
      have := h4 q hq (fun e => hne (by rw [e]))
      omega
/-- So do the entries after the first. -/
theorem reprTail_depth {T : FloatText F} (hT : T.Lawful) (np2 : Bool) : ∀ (l : List (PyVal F)),
    depth (reprTail T np2 l) = -1 ∧
      ∀ p, p <+: reprTail T np2 l → p ≠ reprTail T np2 l → 0 ≤ depth p
  | [] => by
    rw [reprTail]
    refine ⟨by decide, ?_⟩
    intro p hp hne
    rcases List.prefix_concat_iff.mp (show p <+: [] ++ [']'] from hp) with h | hp
    · exact absurd h hne
    · rw [List.prefix_nil.mp hp]; decide
  | v :: l => by
    obtain ⟨h1, h2⟩ := reprVal_depth hT np2 v
    obtain ⟨h3, h4⟩ := reprTail_depth hT np2 l
    obtain ⟨h5, h6⟩ := depth_plain (s := lit ", ") (by decide)
    rw [reprTail]
    refine ⟨by rw [depth_append, depth_append, h1, h3, h5]; rfl, ?_⟩
    intro p hp hne
    rcases prefix_split hp with hp | ⟨q, rfl, hq⟩
    · exact h6 p hp
    · rw [depth_append, h5]
      rcases prefix_split hq with hq | ⟨q', rfl, hq'⟩
      · have := h2 q hq
        omega
      · rw [depth_append, h1]
        have := h4 q' hq' (fun e => hne (by rw [e]))
        omega
end

/-- A list that is cut off cannot be evaluated. -/
theorem literalEval_cut {T : FloatText F} (hT : T.Lawful) (np2 : Bool) (l : List (PyVal F)) {p : Str}
    (hp : p <+: reprVal T np2 (.list l)) (h0 : p ≠ []) (hne : p ≠ reprVal T np2 (.list l))
    {v : PyVal F} : literalEval T p ≠ .ok v := by
  intro h
  have hd := literalEval_depth h
  cases p with
  | nil => exact h0 rfl
  | cons c q =>
    rw [reprVal] at hp hne
    obtain ⟨rfl, hq⟩ := List.cons_prefix_cons.mp hp
    have := (reprItems_depth hT np2 l).2 q hq (fun e => hne (by rw [e]))
    rw [show '[' :: q = ['['] ++ q from rfl, depth_append, show depth ['['] = 1 from by decide] at hd
    omega

/-! ### Cutting the file -/

theorem cut_flatten : ∀ (ts : List Str) (t : Str), t <+: ts.flatten → t = [] ∨
    ∃ (k : Nat) (u x : Str), ts[k]? = some x ∧ t = (ts.take k).flatten ++ u ∧ u <+: x := by
  intro ts
  induction ts with
  | nil =>
    intro t ht
    exact Or.inl (by simpa using ht)
  | cons x ts ih =>
    intro t ht
    rw [List.flatten_cons] at ht
    rcases prefix_split ht with ht | ⟨q, rfl, hq⟩
    · exact Or.inr ⟨0, t, x, rfl, rfl, ht⟩
    · rcases ih q hq with rfl | ⟨k, u, y, h1, rfl, h2⟩
      · exact Or.inr ⟨0, x, x, rfl, by simp, List.prefix_rfl⟩
      · exact Or.inr ⟨k + 1, u, y, h1, by simp, h2⟩

theorem zipIdx_first (m : List (InspGrain F)) (k i : Nat) :
    (m.take k).zipIdx i = (m.zipIdx i).take k := by
  induction m generalizing k i with
  | nil => simp
  | cons a m ih =>
    cases k with
    | zero => rfl
    | succ k => rw [List.take_succ_cons, List.zipIdx_cons, List.zipIdx_cons, List.take_succ_cons, ih]

theorem cut_saved (T : FloatText F) (np2 : Bool) (m : List (InspGrain F)) {t : Str}
    (ht : t <+: saveInsp T np2 m) : t <+: inspHeader ∨
    ∃ (k : Nat) (s : InspGrain F) (u : Str), m[k]? = some s ∧
      t = saveInsp T np2 (m.take k) ++ u ∧ u <+: grainText T np2 k s := by
  unfold saveInsp at ht
  rcases prefix_split ht with ht | ⟨q, rfl, hq⟩
  · exact Or.inl ht
  · rcases cut_flatten _ q hq with rfl | ⟨k, u, x, h1, rfl, h2⟩
    · left
      rw [List.append_nil]
    · right
      rw [List.getElem?_map, List.getElem?_zipIdx, Nat.zero_add] at h1
      cases hs : m[k]? with
      | none => rw [hs] at h1; exact absurd h1 (by simp)
      | some s =>
        rw [hs] at h1
        simp only [Option.map_some, Option.some.injEq] at h1
        refine ⟨k, s, u, hs, ?_, h1 ▸ h2⟩
        unfold saveInsp
        rw [zipIdx_first, List.map_take, List.append_assoc]

/-! ### The index of a file that is cut off -/

theorem scanLine_index {st st' : InspScan} {l : Str} {i : Nat} (hl : hasSub (lit "Groups") l = false)
    (h : scanLine st (l, i) = .ok st') : st'.index = st.index := by
  unfold scanLine at h
  split at h
  · obtain ⟨s1, h1, h⟩ := except_bind_ok h
    obtain ⟨s2, h2, h⟩ := except_bind_ok h
    have e1 : s1.index = st.index := by
      unfold scanGrain at h1
      split at h1
      · obtain ⟨g, _, h1⟩ := except_bind_ok h1
        rw [← Except.ok.inj h1]
      · rw [Except.ok.inj h1]
    have e2 : s2.index = s1.index := by
      unfold scanLines at h2
      split at h2
      · obtain ⟨g, _, h2⟩ := except_bind_ok h2
        rw [← Except.ok.inj h2]
      · rw [Except.ok.inj h2]
    unfold scanGroups at h
    simp only at h
    rw [hl] at h
    rw [← Except.ok.inj h, e2, e1]
  · rw [Except.ok.inj h]

theorem scan_index : ∀ (ls : List Str) (i : Nat) (st st' : InspScan),
    (∀ l ∈ ls, hasSub (lit "Groups") l = false) →
    (ls.zipIdx i).foldlM scanLine st = .ok st' → st'.index = st.index := by
  intro ls
  induction ls with
  | nil =>
    intro i st st' _ h
    have : st = st' := Except.ok.inj h
    rw [this]
  | cons l ls ih =>
    intro i st st' hl h
    rw [List.zipIdx_cons, List.foldlM_cons] at h
    obtain ⟨s1, h1, h⟩ := except_bind_ok h
    rw [ih (i + 1) s1 st' (fun x hx => hl x (List.mem_cons_of_mem _ hx)) h,
      scanLine_index (hl l (by simp)) h1]

/-- The lines of a grain before its groups. -/
def blockFront (T : FloatText F) (np2 : Bool) (b : InspGrain F × Nat) : List Str :=
  (lit "Grain " ++ natStr b.2) :: (natStr b.1.points.length ++ lit " Lines") ::
    b.1.points.map (reprVal T np2)

theorem blockLines_front (T : FloatText F) (np2 : Bool) (b : InspGrain F × Nat) :
    blockLines T np2 b = blockFront T np2 b ++ (natStr b.1.groups.length ++ lit " Groups") ::
      (b.1.groups.map (reprVal T np2) ++ [[]]) := by
  simp [blockLines, blockFront]

theorem front_groups {T : FloatText F} (hT : T.Lawful) (np2 : Bool) (b : InspGrain F × Nat) :
    ∀ l ∈ blockFront T np2 b, hasSub (lit "Groups") (withBreak l) = false := by
  intro l hl
  unfold blockFront at hl
  simp only [List.mem_cons, List.mem_map] at hl
  rcases hl with rfl | rfl | ⟨v, _, rfl⟩
  · refine hasSub_not (c := 'p') (by decide) ?_
    intro h
    rcases List.mem_append.mp h with h | h
    · rcases List.mem_append.mp h with h | h
      · exact absurd h (by decide)
      · exact natStr_val _ (by decide) h
    · exact absurd h (by decide)
  · exact hasSub_not (c := 'p') (by decide) (not_word _ (by decide) (by decide) (by decide))
  · refine hasSub_not (c := 'G') (by decide) ?_
    intro h
    rcases List.mem_append.mp h with h | h
    · exact valChar_not hT np2 v (by decide) h
    · exact absurd h (by decide)

theorem scan_front {T : FloatText F} (hT : T.Lawful) (np2 : Bool) (b : InspGrain F × Nat) (p : Nat)
    (st : InspScan) :
    (((blockFront T np2 b).map withBreak).zipIdx p).foldlM scanLine st =
      .ok ⟨some p, some (b.2 : Int), some (b.1.points.length : Int), st.index⟩ := by
  unfold blockFront
  simp only [List.map_cons, List.zipIdx_cons, List.foldlM_cons]
  rw [scan_grain]
  show (scanLine _ _).bind _ = _
  rw [scan_lines]
  simp only [Except.bind]
  rw [scan_quiet]
  intro l hl
  simp only [List.mem_map] at hl
  obtain ⟨_, ⟨v, _, rfl⟩, rfl⟩ := hl
  exact quiet_val hT np2 v

/-- The line that counts the groups, without its break. -/
theorem scan_groups_cut (st : InspScan) (p n : Nat) :
    scanLine st (natStr n ++ lit " Groups", p) = scanEntry (n : Int) st := by
  have hi : 'i' ∉ natStr n ++ lit " Groups" := by
    intro h
    rcases List.mem_append.mp h with h | h
    · exact natStr_val n (by decide) h
    · exact absurd h (by decide)
  have hl : hasSub (lit "Groups") (natStr n ++ lit " Groups") = true := by
    unfold hasSub
    rw [decide_eq_true_eq]
    exact ⟨natStr n ++ [' '], [], by simp [lit]⟩
  have hf : firstInt (natStr n ++ lit " Groups") = .ok n := by
    unfold firstInt
    rw [show lit " Groups" = ' ' :: lit "Groups" from by decide,
      splitSep_cons (natStr_val n (by decide))]
    exact parseInt_natStr n
  rw [scanLine_look st p (natStr_head _ _) (by simp [lit])]
  unfold scanGrain
  rw [if_neg (by simp [hasSub_not (c := 'i') (by decide : 'i' ∈ lit "Grain") hi])]
  simp only [Except.bind]
  unfold scanLines
  rw [if_neg (by simp [hasSub_not (c := 'i') (by decide : 'i' ∈ lit "Lines") hi])]
  simp only
  unfold scanGroups
  rw [if_pos hl, hf]
  rfl

/-! ### Loading a file that is cut off -/

theorem sliceLines_left (A B : List Str) (s n : Int) (h : s.toNat + n.toNat ≤ A.length) :
    sliceLines (A ++ B) s n = sliceLines A s n := by
  unfold sliceLines
  rw [List.drop_append_of_le_length (by omega), List.take_append_of_le_length]
  rw [List.length_drop]
  omega

theorem load_left {T : FloatText F} (np2 : Bool) (A B : List Str) : ∀ (bs : List (InspGrain F × Nat))
    (p : Nat) (m : List (InspGrain F)), p + (bs.flatMap (blockLines T np2)).length ≤ A.length →
    (entriesOf T np2 p bs).foldlM (loadEntry T (A ++ B)) m =
      (entriesOf T np2 p bs).foldlM (loadEntry T A) m := by
  intro bs
  induction bs with
  | nil => intro p m _; rfl
  | cons b bs ih =>
    intro p m h
    rw [List.flatMap_cons, List.length_append] at h
    have hb : (blockLines T np2 b).length = b.1.points.length + b.1.groups.length + 4 := by
      simp [blockLines]
      omega
    rw [entriesOf, List.foldlM_cons, List.foldlM_cons]
    have e : loadEntry T (A ++ B) m (entryOf p b) = loadEntry T A m (entryOf p b) := by
      unfold loadEntry entryOf
      simp only
      rw [sliceLines_left A B _ _ (by omega), sliceLines_left A B _ _ (by omega)]
    rw [e]
    congr 1
    funext x
    exact ih _ x (by omega)

/-- What was read before the file ends. -/
theorem load_before {T : FloatText F} (hT : T.Lawful) (np2 : Bool) (m m' : List (InspGrain F))
    (B : List Str) (hlen : m.length ≤ m'.length) (hn : np2 = true → ∀ g ∈ m, NoNumpy g) :
    (entriesOf T np2 5 (savedGrains m 0)).foldlM
      (loadEntry T ((inspLines T np2 m).map withBreak ++ B)) m' =
      .ok (applyBlocks (savedGrains m 0) m') := by
  rw [load_left]
  · refine load_blocks hT np2 _ _ inspHeadLines m' rfl ?_ ?_
    · intro b hb
      have := (List.getElem?_eq_some_iff.mp (savedGrains_mem hb).1).1
      omega
    · intro e b hb
      obtain ⟨h1, h2⟩ := savedGrains_mem hb
      exact hn e b.1 (List.mem_of_getElem? h1) h2
  · unfold inspLines
    rw [List.length_map, List.length_append]
    exact le_refl _

theorem applyBlocks_length (bs : List (InspGrain F × Nat)) (x : List (InspGrain F)) :
    (applyBlocks bs x).length = x.length := by
  induction bs generalizing x with
  | nil => rfl
  | cons b bs ih =>
    unfold applyBlocks at ih ⊢
    rw [List.foldl_cons, ih, List.length_modify]

/-- The lines of a text, when the first of them are known. -/
theorem scan_after {T : FloatText F} (hT : T.Lawful) (np2 : Bool) (m : List (InspGrain F))
    (B : List Str) {st' : InspScan}
    (h : scanFile ((inspLines T np2 m).map withBreak ++ B) = .ok st') :
    ∃ st : InspScan, st.index = entriesOf T np2 5 (savedGrains m 0) ∧
      (B.zipIdx (inspLines T np2 m).length).foldlM scanLine st = .ok st' := by
  obtain ⟨st, h1, h2⟩ := scanFile_saved hT np2 m
  unfold scanFile at h h1
  rw [List.zipIdx_append, List.foldlM_append, h1, List.length_map, Nat.zero_add] at h
  exact ⟨st, h2, h⟩

theorem evalLines_append {T : FloatText F} : ∀ (a b : List Str) (r : List (PyVal F)),
    evalLines T (a ++ b) = .ok r → ∃ x y, evalLines T a = .ok x ∧ evalLines T b = .ok y ∧
      r = x ++ y := by
  intro a
  induction a with
  | nil => intro b r h; exact ⟨[], r, rfl, h, rfl⟩
  | cons l a ih =>
    intro b r h
    rw [List.cons_append, evalLines] at h
    obtain ⟨v, hv, h⟩ := except_bind_ok h
    obtain ⟨vs, hvs, h⟩ := except_bind_ok h
    obtain ⟨x, y, hx, hy, rfl⟩ := ih b vs hvs
    refine ⟨v :: x, y, ?_, hy, (Except.ok.inj h).symm⟩
    rw [evalLines, hv]
    simp only [Except.bind, hx]

/-- The entry of the grain in which the file ends. -/
theorem load_last {T : FloatText F} (hT : T.Lawful) (np2 : Bool) (A : List Str) (G : Str)
    (b : InspGrain F × Nat) (gs : List (PyVal F)) (q : List Str) (m r : List (InspGrain F))
    (hk : b.2 < m.length) (hn : np2 = true → ∀ v ∈ b.1.points ++ b.1.groups, v.hasNumpy = false)
    (hl : ∀ v ∈ b.1.groups, ∃ l, v = .list l)
    (hq : (q = [] ∧ gs <+: b.1.groups) ∨ ∃ (g : PyVal F) (p : Str), q = [p] ∧
      gs ++ [g] <+: b.1.groups ∧ p ≠ [] ∧ p <+: reprVal T np2 g)
    (h : loadEntry T (A ++ ((blockFront T np2 b).map withBreak ++ G :: (gs.map (valLine T np2) ++ q)))
      m (entryOf A.length b) = .ok r) :
    ∃ gs', gs' <+: b.1.groups ∧ r = m.modify b.2 fun g =>
      ⟨g.points ++ b.1.points.map PyVal.plain, g.groups ++ gs'.map PyVal.plain⟩ := by
  unfold loadEntry entryOf at h
  simp only at h
  rw [pyIndex_nat hk] at h
  obtain ⟨k, hk', h⟩ := except_bind_ok h
  obtain rfl := Except.ok.inj hk'
  obtain ⟨ps, hps, h⟩ := except_bind_ok h
  obtain ⟨g', hgs, h⟩ := except_bind_ok h
  have e1 : sliceLines (A ++ ((blockFront T np2 b).map withBreak ++
      G :: (gs.map (valLine T np2) ++ q))) ((A.length : Int) + 2) b.1.points.length =
      b.1.points.map (valLine T np2) := by
    unfold sliceLines
    rw [show ((A.length : Int) + 2).toNat = A.length + 2 from by omega, Int.toNat_natCast,
      List.drop_append, List.drop_eq_nil_of_le (by omega), List.nil_append,
      show A.length + 2 - A.length = 2 from by omega]
    unfold blockFront
    simp only [List.map_cons, List.cons_append, List.drop_succ_cons, List.drop_zero, List.map_map]
    rw [List.take_append_of_le_length (by simp), List.take_of_length_le (by simp)]
    rfl
  have hlen : (gs.map (valLine T np2) ++ q).length ≤ b.1.groups.length := by
    rcases hq with ⟨rfl, hq⟩ | ⟨g, p, rfl, hq, _⟩
    · simpa using hq.length_le
    · simpa using hq.length_le
  have e2 : sliceLines (A ++ ((blockFront T np2 b).map withBreak ++
      G :: (gs.map (valLine T np2) ++ q))) ((A.length : Int) + 3 + b.1.points.length)
      b.1.groups.length = gs.map (valLine T np2) ++ q := by
    unfold sliceLines
    have hf : (blockFront T np2 b).length = b.1.points.length + 2 := by simp [blockFront]
    rw [show ((A.length : Int) + 3 + b.1.points.length).toNat =
        A.length + ((blockFront T np2 b).length + 1) from by omega, Int.toNat_natCast,
      List.drop_append, List.drop_eq_nil_of_le (by omega), List.nil_append,
      show A.length + ((blockFront T np2 b).length + 1) - A.length =
        (blockFront T np2 b).length + 1 from by omega,
      List.drop_append, List.drop_eq_nil_of_le (by simp), List.nil_append, List.length_map,
      show (blockFront T np2 b).length + 1 - (blockFront T np2 b).length = 1 from by omega,
      List.drop_succ_cons, List.drop_zero, List.take_of_length_le hlen]
  rw [e1, evalLines_repr hT np2 _ (fun e v hv => hn e v (by simp [hv]))] at hps
  obtain rfl := Except.ok.inj hps
  rw [e2] at hgs
  have hfin : ∃ gs', gs' <+: b.1.groups ∧ g' = gs'.map PyVal.plain := by
    obtain ⟨x, y, hx, hy, rfl⟩ := evalLines_append _ _ _ hgs
    have hpre : gs <+: b.1.groups := by
      rcases hq with ⟨_, hq⟩ | ⟨g, p, _, hq, _⟩
      · exact hq
      · exact (List.prefix_append _ _).trans hq
    rw [evalLines_repr hT np2 _ (fun e v hv => hn e v (by simp [hpre.subset hv]))] at hx
    obtain rfl := Except.ok.inj hx
    rcases hq with ⟨rfl, hq⟩ | ⟨g, p, rfl, hq, hp0, hp⟩
    · rw [evalLines] at hy
      obtain rfl := Except.ok.inj hy
      exact ⟨gs, hq, by simp⟩
    · rw [evalLines] at hy
      obtain ⟨v, hv, hy⟩ := except_bind_ok hy
      have hg : g ∈ b.1.groups := hq.subset (by simp)
      obtain ⟨l, rfl⟩ := hl g hg
      have hsp : (splitSep '\\' p).headD [] = p := by
        rw [splitSep_one]
        · rfl
        · intro h
          exact valChar_not hT np2 (.list l) (by decide) (hp.subset h)
      rw [hsp] at hv
      by_cases hpe : p = reprVal T np2 (.list l)
      · have hev : literalEval T p = .ok (PyVal.list l).plain := by
          unfold literalEval
          have := readVal_repr hT np2 (.list l) (fun e => hn e _ (by simp [hg]))
            (p.length + 1) [] (by rw [hpe]; omega) (by intro c t e; exact absurd e (by simp))
          rw [List.append_nil, ← hpe] at this
          rw [this]
          rfl
        rw [hev] at hv
        obtain rfl := Except.ok.inj hv
        rw [evalLines] at hy
        obtain rfl := Except.ok.inj hy
        exact ⟨gs ++ [.list l], hq, by simp⟩
      · exact absurd hv (literalEval_cut hT np2 l hp hp0 hpe)
  obtain ⟨gs', hg1, rfl⟩ := hfin
  exact ⟨gs', hg1, (Except.ok.inj h).symm⟩

/-- How a grain may be cut off. -/
theorem cut_block {T : FloatText F} (hT : T.Lawful) (np2 : Bool) (b : InspGrain F × Nat) {u : Str}
    (hu : u <+: ((blockLines T np2 b).map withBreak).flatten)
    (hne : u ≠ ((blockLines T np2 b).map withBreak).flatten) :
    (∀ l ∈ linesOf u, hasSub (lit "Groups") l = false) ∨
    ∃ (G : Str) (gs : List (PyVal F)) (q : List Str),
      linesOf u = (blockFront T np2 b).map withBreak ++ G :: (gs.map (valLine T np2) ++ q) ∧
      (G = natStr b.1.groups.length ++ lit " Groups" ∨
        G = withBreak (natStr b.1.groups.length ++ lit " Groups")) ∧
      ((q = [] ∧ gs <+: b.1.groups) ∨ ∃ (g : PyVal F) (p : Str), q = [p] ∧
        gs ++ [g] <+: b.1.groups ∧ p ≠ [] ∧ p <+: reprVal T np2 g) := by
  have hbr := blockLines_break hT np2 b
  obtain ⟨a, p, e, hap⟩ := cut_text (blockLines T np2 b) u hu
  rcases hap with ⟨rfl, rfl⟩ | ⟨l, c, hls, hp⟩
  · exact absurd (by rw [e, List.append_nil]; rfl) hne
  have hna : ∀ x ∈ a, '\n' ∉ x := fun x hx => hbr x (by rw [hls]; simp [hx])
  have hnl : '\n' ∉ l := hbr l (by rw [hls]; simp)
  have hL : linesOf u = a.map withBreak ++ linesOf p := by rw [e, linesOf_lines hna]; rfl
  have hlp := linesOf_short hp hnl
  rw [blockLines_front] at hls
  have case0 : a = blockFront T np2 b → l = natStr b.1.groups.length ++ lit " Groups" →
      (∀ l ∈ linesOf u, hasSub (lit "Groups") l = false) ∨
      ∃ (G : Str) (gs : List (PyVal F)) (q : List Str),
        linesOf u = (blockFront T np2 b).map withBreak ++ G :: (gs.map (valLine T np2) ++ q) ∧
        (G = natStr b.1.groups.length ++ lit " Groups" ∨
          G = withBreak (natStr b.1.groups.length ++ lit " Groups")) ∧
        ((q = [] ∧ gs <+: b.1.groups) ∨ ∃ (g : PyVal F) (p : Str), q = [p] ∧
          gs ++ [g] <+: b.1.groups ∧ p ≠ [] ∧ p <+: reprVal T np2 g) := by
    intro h1 hlG
    rw [hlG] at hp
    by_cases hpe : p = natStr b.1.groups.length ++ lit " Groups"
    · right
      refine ⟨p, [], [], ?_, Or.inl hpe, Or.inl ⟨rfl, List.nil_prefix⟩⟩
      rcases hlp with ⟨h0, _⟩ | h
      · rw [h0] at hpe
        exact absurd (congrArg List.length hpe) (by simp [lit])
      · rw [hL, h, h1]
        rfl
    · left
      rw [hL, h1]
      intro x hx
      rcases List.mem_append.mp hx with hx | hx
      · obtain ⟨w, hw, rfl⟩ := List.mem_map.mp hx
        exact front_groups hT np2 b w hw
      · have hxp : x = p := by
          rcases hlp with ⟨_, h⟩ | h
          · rw [h] at hx; exact absurd hx (by simp)
          · rw [h] at hx; exact List.mem_singleton.mp hx
        have e' : natStr b.1.groups.length ++ lit " Groups" =
            (natStr b.1.groups.length ++ lit " Group") ++ ['s'] := by simp [lit]
        rw [hxp]
        rw [e'] at hp hpe
        rcases List.prefix_concat_iff.mp hp with h | h
        · exact absurd h hpe
        · refine hasSub_not (c := 's') (by decide) ?_
          intro hs
          rcases List.mem_append.mp (h.subset hs) with h | h
          · exact natStr_val _ (by decide) h
          · exact absurd h (by decide)
  rcases List.append_eq_append_iff.mp hls with ⟨a', h1, h2⟩ | ⟨a', h1, h2⟩
  · -- the front is complete
    cases a' with
    | nil =>
      simp only [List.nil_append, List.cons.injEq] at h2
      exact case0 (by simpa using h1) h2.1.symm
    | cons g0 a' =>
      simp only [List.cons_append, List.cons.injEq] at h2
      obtain ⟨rfl, h2⟩ := h2
      right
      -- `a'` are whole groups
      have hlen : a'.length ≤ b.1.groups.length := by
        have := congrArg List.length h2
        simp only [List.length_append, List.length_map, List.length_cons, List.length_nil] at this
        omega
      have hta : a' = (b.1.groups.take a'.length).map (reprVal T np2) := by
        have := congrArg (List.take a'.length) h2
        rw [List.take_append_of_le_length (by simpa using hlen), ← List.map_take,
          List.take_left' rfl] at this
        exact this.symm
      have hval : a'.map withBreak = (b.1.groups.take a'.length).map (valLine T np2) := by
        conv_lhs => rw [hta]
        rw [List.map_map]
        rfl
      refine ⟨_, b.1.groups.take a'.length, linesOf p, ?_, Or.inr rfl, ?_⟩
      · rw [hL, h1, List.map_append, List.map_cons, hval, List.append_assoc]
        rfl
      · rcases hlp with ⟨_, h⟩ | h
        · exact Or.inl ⟨h, List.take_prefix _ _⟩
        · right
          have hp0 : p ≠ [] := by
            rintro rfl
            exact absurd h (by simp [linesOf])
          have hlt : a'.length < b.1.groups.length := by
            by_contra hc
            have hc : a'.length = b.1.groups.length := by omega
            have := congrArg (List.drop a'.length) h2
            rw [List.drop_left' (by rw [List.length_map, hc]), List.drop_left' rfl] at this
            have hl0 : l = [] := by
              simp only [List.cons.injEq] at this
              exact this.1.symm
            rw [hl0] at hp
            exact hp0 (List.prefix_nil.mp hp)
          have hl : l = reprVal T np2 b.1.groups[a'.length] := by
            have := congrArg (fun x => x[a'.length]?) h2
            rw [List.getElem?_append_left (by simpa using hlt), List.getElem?_map,
              List.getElem?_eq_getElem hlt, List.getElem?_append_right (le_refl _), Nat.sub_self,
              List.getElem?_cons_zero] at this
            simpa using this.symm
          refine ⟨b.1.groups[a'.length], p, h, ?_, hp0, hl ▸ hp⟩
          rw [List.take_concat_get' _ _ hlt]
          exact List.take_prefix _ _
  · -- the front is cut off
    cases a' with
    | nil =>
      simp only [List.nil_append, List.cons.injEq] at h2
      exact case0 (by simpa using h1.symm) h2.1
    | cons y a' =>
      simp only [List.cons_append, List.cons.injEq] at h2
      obtain ⟨rfl, _⟩ := h2
      left
      rw [hL]
      intro x hx
      rcases List.mem_append.mp hx with hx | hx
      · obtain ⟨w, hw, rfl⟩ := List.mem_map.mp hx
        exact front_groups hT np2 b w (by rw [h1]; simp [hw])
      · have hxp : x = p := by
          rcases hlp with ⟨_, h⟩ | h
          · rw [h] at hx; exact absurd hx (by simp)
          · rw [h] at hx; exact List.mem_singleton.mp hx
        rw [hxp]
        exact hasSub_cut (hp.trans (List.prefix_append _ _))
          (front_groups hT np2 b l (by rw [h1]; simp))

/-- What the files of the first grains give. -/
theorem applied (m m' : List (InspGrain F)) (k i : Nat) {g s : InspGrain F} (hg : m'[i]? = some g)
    (hs : m[i]? = some s) : (applyBlocks (savedGrains (m.take k) 0) m')[i]? =
      some (if i < k then Join g (Restored s) else g) := by
  rw [applyBlocks_spec, if_pos (by omega), hg, Nat.sub_zero, List.getElem?_take]
  by_cases h : i < k
  · rw [if_pos h, if_pos h, hs]
    rfl
  · rw [if_neg h, if_neg h]
    rfl

/-- **C141**: loading a file whose writing was interrupted stores nothing that was not saved. If it
succeeds, then the grains up to some number get all they had, the grain with this number gets
nothing or all its lines and the first of its groups, and the others get nothing. -/
theorem C141_cut {T : FloatText F} (hT : T.Lawful) (np2 : Bool) (m m' : List (InspGrain F))
    (hlen : m.length ≤ m'.length) (hn : np2 = true → ∀ g ∈ m, NoNumpy g)
    (hl : ∀ g ∈ m, ∀ v ∈ g.groups, ∃ l, v = .list l)
    (t : Str) (ht : t <+: saveInsp T np2 m) (r : List (InspGrain F))
    (hr : loadInsp T t m' = .ok r) :
    r.length = m'.length ∧ ∃ k, ∀ (i : Nat) (g s : InspGrain F), m'[i]? = some g → m[i]? = some s →
      ∃ x, r[i]? = some (Join g x) ∧ (i < k → x = Restored s) ∧ (i = k → CutGrain s x) ∧
        (k < i → x = ⟨[], []⟩) := by
  have hjoin : ∀ g : InspGrain F, Join g ⟨[], []⟩ = g := fun g => by simp [Join]
  -- the result, when the first grains are complete
  have full : ∀ k, r = applyBlocks (savedGrains (m.take k) 0) m' → r.length = m'.length ∧
      ∃ k, ∀ (i : Nat) (g s : InspGrain F), m'[i]? = some g → m[i]? = some s →
      ∃ x, r[i]? = some (Join g x) ∧ (i < k → x = Restored s) ∧ (i = k → CutGrain s x) ∧
        (k < i → x = ⟨[], []⟩) := by
    rintro k rfl
    refine ⟨applyBlocks_length _ _, k, ?_⟩
    intro i g s hg hs
    rw [applied m m' k i hg hs]
    by_cases h : i < k
    · exact ⟨Restored s, by rw [if_pos h], fun _ => rfl, fun e => absurd e (by omega),
        fun e => absurd e (by omega)⟩
    · exact ⟨⟨[], []⟩, by rw [if_neg h, hjoin], fun e => absurd e h, fun _ => Or.inl rfl,
        fun _ => rfl⟩
  have hnk : ∀ k, np2 = true → ∀ g ∈ m.take k, NoNumpy g :=
    fun k e g hg => hn e g (List.mem_of_mem_take hg)
  have hlk : ∀ k, (m.take k).length ≤ m'.length := fun k => by
    rw [List.length_take]; omega
  unfold loadInsp at hr
  obtain ⟨st', hst, hr⟩ := except_bind_ok hr
  rcases cut_saved T np2 m ht with ht | ⟨k, s, u, hs, rfl, hu⟩
  · -- within the first lines
    have hq : ∀ l ∈ linesOf t, Quiet l := by
      rw [inspHeader_eq] at ht
      obtain ⟨a, p, rfl, hap⟩ := cut_text inspHeadLines t ht
      have key : ∀ x ∈ inspHeadLines, '\n' ∉ x ∧
          ((withBreak x).head? = some '#' ∨ (withBreak x).length ≤ 1) ∧
          (x = [] ∨ x.head? = some '#') := by
        decide +kernel
      have hsub : ∀ x ∈ a, x ∈ inspHeadLines := by
        rcases hap with ⟨rfl, _⟩ | ⟨l, b, hls, _⟩
        · exact fun x hx => hx
        · intro x hx
          rw [hls]
          simp [hx]
      rw [linesOf_lines fun x hx => (key x (hsub x hx)).1]
      intro l hl
      rcases List.mem_append.mp hl with hl | hl
      · obtain ⟨x, hx, rfl⟩ := List.mem_map.mp hl
        rcases (key x (hsub x hx)).2.1 with h | h
        · exact Or.inl h
        · exact Or.inr (Or.inl h)
      · rcases hap with ⟨_, rfl⟩ | ⟨y, b, hls, hp⟩
        · exact absurd hl (by simp [linesOf])
        · have hy := key y (by rw [hls]; simp)
          rcases linesOf_short hp hy.1 with ⟨_, h⟩ | h
          · rw [h] at hl; exact absurd hl (by simp)
          · rw [h] at hl
            rw [List.mem_singleton.mp hl]
            left
            have hp0 : p ≠ [] := by
              rintro rfl
              exact absurd h (by simp [linesOf])
            rcases hy.2.2 with rfl | hh
            · exact absurd (List.prefix_nil.mp hp) hp0
            · cases p with
              | nil => exact absurd rfl hp0
              | cons c p =>
                obtain ⟨v, rfl⟩ := hp
                exact hh
    have := scan_quiet (linesOf t) 0 ⟨none, none, none, []⟩ hq
    unfold scanFile at hst
    rw [this] at hst
    rw [← Except.ok.inj hst] at hr
    refine full 0 ?_
    have : m' = r := Except.ok.inj hr
    rw [← this]
    rfl
  · have hsm : s ∈ m := List.mem_of_getElem? hs
    have hk : k < m.length := (List.getElem?_eq_some_iff.mp hs).1
    have hlines : linesOf (saveInsp T np2 (m.take k) ++ u) =
        (inspLines T np2 (m.take k)).map withBreak ++ linesOf u := by
      rw [saveInsp_text]
      exact linesOf_lines (inspLines_break hT np2 _) u
    rw [hlines] at hst hr
    obtain ⟨st, hidx, hscan⟩ := scan_after hT np2 (m.take k) _ hst
    -- no entry for this grain
    have none_case : (∀ l ∈ linesOf u, hasSub (lit "Groups") l = false) →
        r = applyBlocks (savedGrains (m.take k) 0) m' := by
      intro h
      rw [scan_index _ _ _ _ h hscan, hidx,
        load_before hT np2 (m.take k) m' _ (hlk k) (hnk k)] at hr
      exact (Except.ok.inj hr).symm
    by_cases hpt : s.points.isEmpty = true
    · refine full k (none_case ?_)
      have : u = [] := by
        unfold grainText at hu
        rw [if_pos hpt] at hu
        exact List.prefix_nil.mp hu
      rw [this]
      intro l hl
      exact absurd hl (by simp [linesOf])
    have hpt' : s.points.isEmpty = false := by simpa using hpt
    have hgt := grainText_eq T np2 (s, k) hpt'
    simp only at hgt
    rw [hgt] at hu
    have hnum : np2 = true → ∀ v ∈ s.points ++ s.groups, v.hasNumpy = false := by
      intro e v hv
      exact hn e s hsm (by simpa using hpt') v hv
    by_cases hwhole : u = ((blockLines T np2 (s, k)).map withBreak).flatten
    · -- the grain is complete
      refine full (k + 1) ?_
      have e1 : saveInsp T np2 (m.take k) ++ u = saveInsp T np2 (m.take (k + 1)) := by
        have ht' : m.take (k + 1) = m.take k ++ [s] := by
          rw [List.take_add_one, hs]
          rfl
        rw [hwhole, ← hgt, ht']
        unfold saveInsp
        rw [List.zipIdx_append, List.map_append, List.flatten_append, List.length_take,
          Nat.min_eq_left (by omega)]
        simp
      have hall : loadInsp T (saveInsp T np2 (m.take (k + 1))) m' = .ok r := by
        unfold loadInsp
        rw [← e1, hlines]
        simp only [hst, Except.bind]
        exact hr
      rw [loadInsp_saved hT] at hall
      have := load_before hT np2 (m.take (k + 1)) m' [] (hlk _) (hnk _)
      rw [List.append_nil] at this
      rw [show inspHeadLines.length = 5 from rfl, this] at hall
      exact (Except.ok.inj hall).symm
    rcases cut_block hT np2 (s, k) hu hwhole with h | ⟨G, gs, q, hL, hG, hq⟩
    · exact full k (none_case h)
    · -- the groups are cut off
      have hquiet : ∀ l ∈ gs.map (valLine T np2) ++ q, Quiet l := by
        intro l hl
        rcases List.mem_append.mp hl with hl | hl
        · obtain ⟨v, _, rfl⟩ := List.mem_map.mp hl
          exact quiet_val hT np2 v
        · rcases hq with ⟨rfl, _⟩ | ⟨g, p, rfl, _, _, hp⟩
          · exact absurd hl (by simp)
          · rw [List.mem_singleton.mp hl]
            exact Or.inr (Or.inr ⟨fun h => valChar_not hT np2 g (by decide) (hp.subset h),
              fun h => valChar_not hT np2 g (by decide) (hp.subset h)⟩)
      have hst2 : st'.index = st.index ++ [entryOf (inspLines T np2 (m.take k)).length (s, k)] := by
        rw [hL, List.zipIdx_append, List.foldlM_append, scan_front hT] at hscan
        obtain ⟨s1, h1, hscan⟩ := except_bind_ok hscan
        obtain rfl := Except.ok.inj h1
        rw [List.zipIdx_cons, List.foldlM_cons] at hscan
        obtain ⟨s2, h2, hscan⟩ := except_bind_ok hscan
        rw [scan_quiet _ _ _ hquiet] at hscan
        rw [← Except.ok.inj hscan]
        have h2' : scanEntry (s.groups.length : Int)
            ⟨some (inspLines T np2 (m.take k)).length, some (k : Int),
              some (s.points.length : Int), st.index⟩ = .ok s2 := by
          rcases hG with rfl | rfl
          · rw [scan_groups_cut] at h2
            exact h2
          · rw [scan_groups] at h2
            exact h2
        rw [← Except.ok.inj h2']
        rfl
      rw [hst2, hidx, List.foldlM_append, load_before hT np2 (m.take k) m' _ (hlk k) (hnk k)] at hr
      obtain ⟨m1, h1, hr⟩ := except_bind_ok hr
      obtain rfl := Except.ok.inj h1
      rw [List.foldlM_cons, hL] at hr
      obtain ⟨r', h2, hr⟩ := except_bind_ok hr
      have hr' : r' = r := Except.ok.inj hr
      subst hr'
      obtain ⟨gs', hgs, rfl⟩ := load_last hT np2 ((inspLines T np2 (m.take k)).map withBreak) G (s, k)
        gs q (applyBlocks (savedGrains (m.take k) 0) m') r' (by rw [applyBlocks_length]; simp only; omega)
        hnum (hl s hsm) hq (by rw [List.length_map]; exact h2)
      refine ⟨by rw [List.length_modify, applyBlocks_length], k, ?_⟩
      intro i g s' hg hs'
      by_cases hik : i = k
      · subst hik
        rw [hs, Option.some.injEq] at hs'
        subst hs'
        refine ⟨⟨s.points.map PyVal.plain, gs'.map PyVal.plain⟩, ?_, fun e => absurd e (by omega),
          fun _ => Or.inr ⟨gs', hgs, rfl⟩, fun e => absurd e (by omega)⟩
        simp only
        rw [List.getElem?_modify_eq, applied m m' i i hg hs, if_neg (by omega)]
        rfl
      · simp only
        rw [List.getElem?_modify_ne _ _ (by omega), applied m m' k i hg hs']
        by_cases h : i < k
        · exact ⟨Restored s', by rw [if_pos h], fun _ => rfl, fun e => absurd e (by omega),
            fun e => absurd e (by omega)⟩
        · exact ⟨⟨[], []⟩, by rw [if_neg h, hjoin], fun e => absurd e h, fun e => absurd e hik,
            fun _ => rfl⟩

/-- **C141**: that the file is incomplete is not noticed: the file may end after any grain, and is
then loaded without an error, with the grains after it missing. -/
theorem C141_unnoticed {T : FloatText F} (hT : T.Lawful) (np2 : Bool) (m m' : List (InspGrain F))
    (hlen : m.length ≤ m'.length) (hn : np2 = true → ∀ g ∈ m, NoNumpy g) (k : Nat) :
    ∃ t r, t <+: saveInsp T np2 m ∧ loadInsp T t m' = .ok r ∧ ∀ (i : Nat) (g s : InspGrain F),
      m'[i]? = some g → m[i]? = some s → r[i]? = some (if i < k then Join g (Restored s) else g) := by
  refine ⟨saveInsp T np2 (m.take k), applyBlocks (savedGrains (m.take k) 0) m', ?_, ?_, ?_⟩
  · unfold saveInsp
    rw [zipIdx_first, List.map_take, List.prefix_append_right_inj]
    conv_rhs => rw [← List.take_append_drop k (m.zipIdx.map fun p => grainText T np2 p.2 p.1),
      List.flatten_append]
    exact List.prefix_append _ _
  · rw [loadInsp_saved hT]
    have := load_before hT np2 (m.take k) m' [] (by rw [List.length_take]; omega)
      (fun e g hg => hn e g (List.mem_of_mem_take hg))
    rwa [List.append_nil] at this
  · intro i g s hg hs
    exact applied m m' k i hg hs

/-! ### Non-vacuity -/

/-- A grain with a line and two groups. -/
def cutExample (a : Int) : InspGrain Int :=
  ⟨[lineVal (fun q => q.num) ⟨[1, 2, 3, 4], 45, 0, false⟩],
    [.list [.int 0, .flt a, .int 3], .list [.int 1, .flt 7, .int 3]]⟩

/-- A file of two grains that ends after the first group of the first grain meets the hypotheses
and is loaded without the second group. -/
example : wholeFloats.Lawful ∧
    (∀ g ∈ [cutExample 1, cutExample 2], ∀ v ∈ g.groups, ∃ l, v = .list l) ∧
    (saveInsp wholeFloats false [cutExample 1, cutExample 2]).take 350 <+:
      saveInsp wholeFloats false [cutExample 1, cutExample 2] ∧
    ∃ r, loadInsp wholeFloats ((saveInsp wholeFloats false [cutExample 1, cutExample 2]).take 350)
      [⟨[], []⟩, ⟨[], []⟩] = .ok r ∧ r.map (fun g => (g.points.length, g.groups.length)) =
        [(1, 1), (0, 0)] := by
  refine ⟨wholeFloats_lawful, ?_, List.take_prefix _ _, ?_⟩
  · intro g hg v hv
    simp only [List.mem_cons, List.not_mem_nil, or_false] at hg
    rcases hg with rfl | rfl <;>
    · simp only [cutExample, List.mem_cons, List.not_mem_nil, or_false] at hv
      rcases hv with rfl | rfl
      · exact ⟨_, rfl⟩
      · exact ⟨_, rfl⟩
  · have h : ((loadInsp wholeFloats
        ((saveInsp wholeFloats false [cutExample 1, cutExample 2]).take 350)
        [⟨[], []⟩, ⟨[], []⟩]).toOption.map fun r =>
          r.map (fun g => (g.points.length, g.groups.length))) = some [(1, 1), (0, 0)] := by
      decide +kernel
    cases e : loadInsp wholeFloats
        ((saveInsp wholeFloats false [cutExample 1, cutExample 2]).take 350)
        [⟨[], []⟩, ⟨[], []⟩] with
    | error x => rw [e] at h; exact absurd h (by simp [Except.toOption])
    | ok r =>
      rw [e] at h
      exact ⟨r, rfl, by simpa [Except.toOption] using h⟩

end DefDAP
