import Verif.Props.CutCtf
import Verif.Props.EdaxHeader
import Mathlib.Data.List.TakeWhile

/-! C142: EDAX files whose end is missing. -/

namespace DefDAP

/-! ### Words of a text that is cut off -/

theorem splitWhen_glue (p : Char → Bool) (s t : Str) : ∃ (a : List Str) (w f : Str) (b : List Str),
    splitWhen p s = a ++ [w] ∧ splitWhen p t = f :: b ∧ splitWhen p (s ++ t) = a ++ (w ++ f) :: b := by
  obtain ⟨f, b, e⟩ := List.exists_cons_of_ne_nil (splitWhen_ne p t)
  induction s with
  | nil => exact ⟨[], [], f, b, rfl, e, e⟩
  | cons c s ih =>
    obtain ⟨a, w, f', b', h1, h2, h3⟩ := ih
    rw [e, List.cons.injEq] at h2
    obtain ⟨rfl, rfl⟩ := h2
    by_cases hc : p c = true
    · refine ⟨[] :: a, w, f, b, ?_, e, ?_⟩
      · rw [splitWhen, if_pos hc, h1]
        rfl
      · rw [List.cons_append, splitWhen, if_pos hc, h3]
        rfl
    · cases a with
      | nil =>
        refine ⟨[], c :: w, f, b, ?_, e, ?_⟩
        · rw [splitWhen, if_neg hc, h1]
          rfl
        · rw [List.cons_append, splitWhen, if_neg hc, h3]
          rfl
      | cons x a =>
        refine ⟨(c :: x) :: a, w, f, b, ?_, e, ?_⟩
        · rw [splitWhen, if_neg hc, h1]
          rfl
        · rw [List.cons_append, splitWhen, if_neg hc, h3]
          rfl

/-- All words but the last are the same after the cut is taken back. -/
theorem splitWs_same (s t : Str) (n : Nat) (h : n + 1 ≤ (splitWs s).length) :
    (splitWs (s ++ t)).take n = (splitWs s).take n := by
  obtain ⟨a, w, f, b, h1, h2, h3⟩ := splitWhen_glue isWs s t
  unfold splitWs at h ⊢
  rw [h1] at h ⊢
  rw [h3]
  rw [List.filter_append] at h ⊢
  rw [List.filter_append]
  have hn : n ≤ (a.filter fun w => !w.isEmpty).length := by
    rw [List.length_append] at h
    have : ([w].filter fun w => !w.isEmpty).length ≤ 1 := List.length_filter_le _ _
    omega
  rw [List.take_append_of_le_length hn, List.take_append_of_le_length hn]

/-! ### Rows -/

theorem edaxRow_cut {s t : Str} {r r' : List ℚ} (h : edaxRow (splitWs s) = .ok r)
    (h' : edaxRow (splitWs (s ++ t)) = .ok r') : r = r' := by
  have hlen : 10 ≤ (splitWs s).length := by
    unfold edaxRow at h
    obtain ⟨w, hw, -⟩ := except_bind_ok h
    unfold fieldAt at hw
    cases hc : (splitWs s)[9]? with
    | none => rw [hc] at hw; cases hw
    | some x => exact (List.getElem?_eq_some_iff.1 hc).1
  have hsame := splitWs_same s t 9 hlen
  have hget : ∀ i, i < 9 → (splitWs (s ++ t))[i]? = (splitWs s)[i]? := by
    intro i hi
    have := congrArg (fun l : List Str => l[i]?) hsame
    simpa [List.getElem?_take, hi] using this
  unfold edaxRow at h h'
  obtain ⟨w, -, h⟩ := except_bind_ok h
  obtain ⟨w', -, h'⟩ := except_bind_ok h'
  have hcell : ∀ f ∈ edaxCols, rowCell (splitWs (s ++ t)) f = rowCell (splitWs s) f := by
    intro f hf
    unfold rowCell
    rw [hget f.1]
    simp only [edaxCols, List.mem_cons, List.not_mem_nil, or_false] at hf
    rcases hf with rfl | rfl | rfl | rfl | rfl | rfl | rfl <;> decide
  have : edaxCols.mapM (rowCell (splitWs (s ++ t))) = edaxCols.mapM (rowCell (splitWs s)) := by
    simp only [edaxCols, List.mapM_cons, List.mapM_nil]
    simp only [hcell _ (by simp [edaxCols] : (0, lit "ph1", FieldType.float32) ∈ edaxCols),
      hcell _ (by simp [edaxCols] : (1, lit "phi", FieldType.float32) ∈ edaxCols),
      hcell _ (by simp [edaxCols] : (2, lit "ph2", FieldType.float32) ∈ edaxCols),
      hcell _ (by simp [edaxCols] : (5, lit "IQ", FieldType.float32) ∈ edaxCols),
      hcell _ (by simp [edaxCols] : (6, lit "CI", FieldType.float32) ∈ edaxCols),
      hcell _ (by simp [edaxCols] : (7, lit "phase", FieldType.uint8) ∈ edaxCols),
      hcell _ (by simp [edaxCols] : (8, lit "FF", FieldType.float32) ∈ edaxCols)]
  rw [this, h] at h'
  injection h'

theorem edaxRows_append : ∀ {a b : List Str} {table : List (List ℚ)},
    edaxRows (a ++ b) = .ok table →
    ∃ ta tb, edaxRows a = .ok ta ∧ edaxRows b = .ok tb ∧ table = ta ++ tb := by
  intro a
  induction a with
  | nil => intro b table h; exact ⟨[], table, rfl, h, rfl⟩
  | cons l a ih =>
    intro b table h
    rw [List.cons_append, edaxRows] at h
    rw [edaxRows]
    split at h
    · next hc => rw [if_pos hc]; exact ih h
    · next hc =>
      obtain ⟨row, h1, h⟩ := except_bind_ok h
      obtain ⟨rows, h2, h⟩ := except_bind_ok h
      injection h with h
      obtain ⟨ta, tb, e1, e2, e3⟩ := ih h2
      refine ⟨row :: ta, tb, ?_, e2, ?_⟩
      · rw [if_neg hc, h1, e1]
        rfl
      · rw [← h, e3]
        rfl

theorem edaxRows_hash : ∀ {a : List Str}, (∀ l ∈ a, ['#'] <+: l) → edaxRows a = .ok [] := by
  intro a
  induction a with
  | nil => intro _; rfl
  | cons l a ih =>
    intro h
    obtain ⟨u, rfl⟩ := h l (by simp)
    rw [edaxRows]
    have : splitWs ((['#'] ++ u).takeWhile fun c => decide (c ≠ '#')) = [] := by simp; rfl
    simp only [this, List.isEmpty_nil, if_true]
    exact ih fun l hl => h l (List.mem_cons_of_mem _ hl)

theorem edaxRows_length {a : List Str} {table : List (List ℚ)} (h : edaxRows a = .ok table) :
    table.length = ((a.map fun l => splitWs (l.takeWhile fun c => decide (c ≠ '#'))).filter
      fun w => !w.isEmpty).length := (edaxRows_words _ _ h).length_eq.symm

theorem takeWhile_prefix_append (f : Char → Bool) (p u : Str) :
    ∃ v, (p ++ u).takeWhile f = p.takeWhile f ++ v := by
  by_cases h : ∀ c ∈ p, f c = true
  · refine ⟨u.takeWhile f, ?_⟩
    rw [List.takeWhile_append_of_pos h, List.takeWhile_eq_self_iff.2 h]
  · refine ⟨[], ?_⟩
    rw [List.append_nil]
    induction p with
    | nil => exact absurd (by simp) h
    | cons c p ih =>
      rw [List.cons_append, List.takeWhile_cons, List.takeWhile_cons]
      by_cases hc : f c = true
      · rw [if_pos hc, if_pos hc, ih]
        intro hh
        apply h
        intro d hd
        rcases List.mem_cons.1 hd with rfl | hd
        · exact hc
        · exact hh d hd
      · rw [if_neg hc, if_neg hc]

/-- The rows of a cut file are those of the file, if there are as many. -/
theorem edaxRows_cut {c b : List Str} {l p : Str} (hp : p <+: l) (hl : '\n' ∉ l)
    {table table' : List (List ℚ)} (h : edaxRows (c ++ (l ++ ['\n']) :: b) = .ok table)
    (h' : edaxRows (c ++ linesOf p) = .ok table') (hn : table'.length = table.length) :
    table' = table := by
  obtain ⟨tc, tb, e1, e2, rfl⟩ := edaxRows_append h
  obtain ⟨tc', tp, e1', e2', rfl⟩ := edaxRows_append h'
  rw [e1] at e1'
  injection e1' with e1'
  subst e1'
  rw [List.length_append, List.length_append] at hn
  have hn : tp.length = tb.length := by omega
  congr 1
  rcases linesOf_short hp hl with ⟨-, hs⟩ | hs
  · rw [hs] at e2'
    injection e2' with e2'
    subst e2'
    exact (List.eq_nil_of_length_eq_zero hn.symm).symm
  · rw [hs, edaxRows] at e2'
    rw [edaxRows] at e2
    obtain ⟨u, rfl⟩ := hp
    rw [List.append_assoc] at e2
    obtain ⟨v, hv⟩ := takeWhile_prefix_append (fun c => decide (c ≠ '#')) p (u ++ ['\n'])
    rw [hv] at e2
    split at e2'
    · injection e2' with e2'
      subst e2'
      exact (List.eq_nil_of_length_eq_zero hn.symm).symm
    · next hc =>
      obtain ⟨row, h1, e2'⟩ := except_bind_ok e2'
      obtain ⟨rows, h2, e2'⟩ := except_bind_ok e2'
      injection h2 with h2
      subst h2
      injection e2' with e2'
      subst e2'
      rw [if_neg] at e2
      · obtain ⟨row', g1, e2⟩ := except_bind_ok e2
        obtain ⟨rows, g2, e2⟩ := except_bind_ok e2
        injection e2 with e2
        subst e2
        have : rows = [] := by
          apply List.eq_nil_of_length_eq_zero
          simp at hn
          exact hn.symm ▸ rfl
        rw [this, edaxRow_cut h1 g1]
      · intro hh
        apply hc
        rw [List.isEmpty_iff] at hh ⊢
        have := splitWs_cut (p.takeWhile fun c => decide (c ≠ '#')) v
        rw [hh] at this
        exact List.eq_nil_of_length_eq_zero (by simpa using this)

/-! ### The file -/

theorem loadEdax_inv {text : Str} {d : EdaxData} (h : loadEdax false text = .ok d) :
    ∃ s table, edaxHeader (linesOf text) ((linesOf text).length + 1) 0 ⟨[], 0, none, none⟩ = .ok s ∧
      edaxRows (linesOf text) = .ok table ∧ s.y = some d.rows ∧ s.x = some d.cols ∧
      (table.length : Int) = d.rows * d.cols := by
  unfold loadEdax at h
  simp only at h
  obtain ⟨s, hs, h⟩ := except_bind_ok h
  obtain ⟨y, hy, h⟩ := except_bind_ok h
  obtain ⟨x, hx, h⟩ := except_bind_ok h
  obtain ⟨table, ht, h⟩ := except_bind_ok h
  obtain ⟨iq, hiq, h⟩ := except_bind_ok h
  obtain ⟨ci, -, h⟩ := except_bind_ok h
  obtain ⟨ff, -, h⟩ := except_bind_ok h
  obtain ⟨ph, -, h⟩ := except_bind_ok h
  obtain ⟨e1, -, h⟩ := except_bind_ok h
  obtain ⟨e2, -, h⟩ := except_bind_ok h
  obtain ⟨e3, -, h⟩ := except_bind_ok h
  injection h with h
  subst h
  have hb : ∀ {α : Type} {o : Option α} {a : α}, bound o = .ok a → o = some a := by
    intro α o a ho
    cases o with
    | none => cases ho
    | some b => injection ho with ho; rw [ho]
  refine ⟨s, table, hs, ?_, hb hy, hb hx, (tableColumn_ok hiq).1⟩
  unfold edaxTable at ht
  simpa using ht

theorem loadEdax_congr {t text : Str} {s : EdaxState} {table : List (List ℚ)}
    (h1 : edaxHeader (linesOf text) ((linesOf text).length + 1) 0 ⟨[], 0, none, none⟩ = .ok s)
    (h2 : edaxHeader (linesOf t) ((linesOf t).length + 1) 0 ⟨[], 0, none, none⟩ = .ok s)
    (h3 : edaxRows (linesOf text) = .ok table) (h4 : edaxRows (linesOf t) = .ok table) :
    loadEdax false t = loadEdax false text := by
  unfold loadEdax edaxTable
  simp only [h1, h2, h3, h4, Bool.false_eq_true, if_false]

/-- **C142**: an EDAX file that is cut off at any character is either refused, or loaded exactly like
the complete file; only a file that ends within its header can be loaded as a map without pixels. -/
theorem C142_edax (blocks : List Spec.AngBlock) (rows : List Str) (hv : Spec.AngHeader blocks)
    (hr : ∀ l ∈ rows, '\n' ∉ l) (hfirst : ∀ l t, rows = l :: t → ¬ ['#'] <+: l)
    (text : Str)
    (htext : text = ((blocks.flatMap Spec.AngBlock.rows ++ rows).map fun l => l ++ ['\n']).flatten)
    (d : EdaxData) (hd : loadEdax false text = .ok d)
    (t : Str) (ht : t <+: text) (d' : EdaxData) (hd' : loadEdax false t = .ok d') :
    d' = d ∨ d'.rows * d'.cols = 0 ∧
      ¬ ((blocks.flatMap Spec.AngBlock.rows).map fun l => l ++ ['\n']).flatten <+: t := by
  set hs := blocks.flatMap Spec.AngBlock.rows with hhs
  have hhash : ∀ l ∈ hs, ['#'] <+: l := by
    intro l hl
    rw [hhs] at hl
    obtain ⟨b, -, hl⟩ := List.mem_flatMap.1 hl
    cases b with
    | phase head lines close =>
      obtain ⟨x, -, rfl⟩ := List.mem_map.1 hl
      exact ⟨x, rfl⟩
    | line x =>
      rw [List.mem_singleton.1 hl]
      exact ⟨x, rfl⟩
  have hhn : ∀ l ∈ hs, '\n' ∉ l := by
    intro l hl
    rw [hhs] at hl
    obtain ⟨b, hb, hl⟩ := List.mem_flatMap.1 hl
    obtain ⟨p, q, e⟩ := List.append_of_mem hb
    exact (hv p b q e).2 l hl
  have hn : ∀ l ∈ hs ++ rows, '\n' ∉ l := by
    intro l hl
    rcases List.mem_append.1 hl with hl | hl
    · exact hhn l hl
    · exact hr l hl
  have hlines : linesOf text = (hs ++ rows).map fun l => l ++ ['\n'] := by
    rw [htext, linesOf_flatten hn]
  obtain ⟨s, table, es, et, ey, ex, ec⟩ := loadEdax_inv hd
  obtain ⟨s', table', es', et', ey', ex', ec'⟩ := loadEdax_inv hd'
  rw [htext] at ht
  obtain ⟨a, p, e, hcase⟩ := cut_text (hs ++ rows) t ht
  rcases hcase with ⟨rfl, rfl⟩ | ⟨l, b, hab, hp⟩
  · left
    rw [List.append_nil, ← htext] at e
    rw [e, hd] at hd'
    injection hd' with hd'
    exact hd'.symm
  have hcut : (∃ c, hs = a ++ l :: c) ∨ ∃ c, a = hs ++ c ∧ rows = c ++ l :: b := by
    rcases List.append_eq_append_iff.1 hab with ⟨a', h1, h2⟩ | ⟨a', h1, h2⟩
    · exact Or.inr ⟨a', h1, h2⟩
    · cases a' with
      | nil => exact Or.inr ⟨[], by simpa using h1.symm, by simpa using h2.symm⟩
      | cons x a' =>
        rw [List.cons_append, List.cons.injEq] at h2
        exact Or.inl ⟨a', by rw [h1, h2.1]⟩
  have hln : '\n' ∉ l := hn l (by rw [hab]; simp)
  have han : ∀ x ∈ a, '\n' ∉ x := fun x hx => hn x (by rw [hab]; simp [hx])
  have htl : linesOf t = (a.map fun l => l ++ ['\n']) ++ linesOf p := by
    rw [e, linesOf_lines han]
  rcases hcut with ⟨c, hc⟩ | ⟨c, rfl, hc⟩
  · right
    constructor
    · have hall : ∀ x ∈ linesOf t, ['#'] <+: x := by
        intro x hx
        rw [htl] at hx
        rcases List.mem_append.1 hx with hx | hx
        · obtain ⟨y, hy, rfl⟩ := List.mem_map.1 hx
          exact (hhash y (by rw [hc]; simp [hy])).trans (List.prefix_append _ _)
        · rcases linesOf_short hp hln with ⟨-, h0⟩ | h0
          · rw [h0] at hx
            exact absurd hx (by simp)
          · rw [h0, List.mem_singleton] at hx
            subst hx
            obtain ⟨u, hu⟩ := hhash l (by rw [hc]; simp)
            cases x with
            | nil => simp [linesOf] at h0
            | cons z x =>
              obtain ⟨v, hv⟩ := hp
              rw [← hu] at hv
              simp only [List.cons_append, List.nil_append, List.cons.injEq] at hv
              exact ⟨x, by rw [hv.1]; rfl⟩
      have := edaxRows_hash hall
      rw [et'] at this
      injection this with this
      rw [this] at ec'
      simpa using ec'.symm
    · intro hpre
      have h1 := hpre.length_le
      rw [e, hc] at h1
      have h2 := hp.length_le
      simp only [List.map_append, List.map_cons, List.flatten_append, List.flatten_cons,
        List.length_append, List.length_cons, List.length_nil] at h1
      omega
  · left
    obtain ⟨s0, ps, hrun, -⟩ := edaxHeader_run blocks ⟨[], 0, none, none⟩
      (fun p b post e => by simpa using (hv p b post e).1)
    -- the header of both files
    have head : ∀ (file rest : List Str), file = (hs.map fun l => l ++ ['\n']) ++ rest →
        (∀ x y, rest = x :: y → ¬ ['#'] <+: x) →
        edaxHeader file (file.length + 1) 0 ⟨[], 0, none, none⟩ = .ok s0 := by
      intro file rest hf hrest
      obtain ⟨k, ek⟩ := hrun file [] rest (file.length + 1) (by simpa using hf)
        (by rw [hf, ← hhs, List.length_append, List.length_map]; omega)
      have := edaxHeader_end (file := file) (before := hs.map fun l => l ++ ['\n']) hf hrest k s0
      rw [List.length_map] at this
      rw [List.length_nil, Nat.zero_add, ← hhs, this] at ek
      exact ek
    have hnohash : ∀ x : Str, ¬ ['#'] <+: x → ¬ ['#'] <+: x ++ ['\n'] := by
      intro x hx hh
      cases x with
      | nil => revert hh; decide
      | cons z x =>
        obtain ⟨u, hu⟩ := hh
        simp only [List.cons_append, List.nil_append, List.cons.injEq] at hu
        exact hx ⟨x, by rw [← hu.1]; rfl⟩
    have E1 := head (linesOf text) (rows.map fun l => l ++ ['\n']) (by rw [hlines, List.map_append])
      (by
        intro x y hxy
        cases hrows : rows with
        | nil => rw [hrows] at hxy; simp at hxy
        | cons r rs =>
          rw [hrows, List.map_cons, List.cons.injEq] at hxy
          rw [← hxy.1]
          exact hnohash r (hfirst r rs hrows))
    have E2 := head (linesOf t) ((c.map fun l => l ++ ['\n']) ++ linesOf p)
      (by rw [htl, List.map_append, List.append_assoc])
      (by
        intro x y hxy
        cases c with
        | nil =>
          rw [List.map_nil, List.nil_append] at hxy
          rcases linesOf_short hp hln with ⟨-, h0⟩ | h0
          · rw [h0] at hxy
            simp at hxy
          · rw [h0, List.cons.injEq] at hxy
            rw [← hxy.1]
            exact fun hh => hfirst l b hc (hh.trans hp)
        | cons r rs =>
          rw [List.map_cons, List.cons_append, List.cons.injEq] at hxy
          rw [← hxy.1]
          exact hnohash r (hfirst r (rs ++ l :: b) hc))
    rw [es] at E1
    rw [es'] at E2
    injection E1 with E1
    injection E2 with E2
    rw [E1] at es ey ex
    rw [E2] at es' ey' ex'
    rw [ey] at ey'
    rw [ex] at ex'
    injection ey' with ey'
    injection ex' with ex'
    have hlen : table'.length = table.length := by
      rw [← ey', ← ex', ← ec] at ec'
      exact_mod_cast ec'
    have htab : table' = table := by
      refine edaxRows_cut (c := (hs ++ c).map fun l => l ++ ['\n'])
        (b := b.map fun l => l ++ ['\n']) hp hln ?_ ?_ hlen
      · rw [← et, hlines, hc]
        congr 1
        simp
      · rw [← et', htl]
    rw [htab] at et'
    have := loadEdax_congr es es' et et'
    rw [hd, hd'] at this
    injection this

/-! ### A case -/

/-- Two rows of data. -/
def Spec.exampleAngRows : List Str :=
  [lit "0.1 0.2 0.3 0 0 7 1 0 1 0.5", lit "0.1 0.2 0.3 1 0 7 1 0 1 0.25"]

set_option maxRecDepth 20000 in
/-- The hypotheses of `C142_edax` are met: the file is loaded with two pixels, and if it ends in the last
number it is not told apart from the complete one. -/
example : ∃ d, loadEdax false ((Spec.exampleBlocks.flatMap Spec.AngBlock.rows ++
      Spec.exampleAngRows).map fun l => l ++ ['\n']).flatten = .ok d ∧ d.rows = 1 ∧ d.cols = 2 ∧
    ∀ d', loadEdax false ((Spec.exampleBlocks.flatMap Spec.AngBlock.rows ++
      Spec.exampleAngRows).map fun l => l ++ ['\n']).flatten.dropLast.dropLast = .ok d' → d' = d := by
  have hrow : ∀ ws ∈ Spec.dataWords ((Spec.exampleBlocks.flatMap Spec.AngBlock.rows ++
      Spec.exampleAngRows).map fun l => l ++ ['\n']).flatten, Spec.AngRow ws := by
    have : Spec.dataWords ((Spec.exampleBlocks.flatMap Spec.AngBlock.rows ++
        Spec.exampleAngRows).map fun l => l ++ ['\n']).flatten =
        [[lit "0.1", lit "0.2", lit "0.3", ['0'], ['0'], ['7'], ['1'], ['0'], ['1'], lit "0.5"],
         [lit "0.1", lit "0.2", lit "0.3", ['1'], ['0'], ['7'], ['1'], ['0'], ['1'], lit "0.25"]] := by
      decide +kernel
    rw [this]
    intro ws hws
    simp only [List.mem_cons, List.not_mem_nil, or_false] at hws
    rcases hws with rfl | rfl
    all_goals
      refine ⟨by decide, ?_, ['0'], 0, rfl, by decide +kernel, by decide, by decide⟩
      intro i hi
      simp only [List.mem_cons, List.not_mem_nil, or_false] at hi
      rcases hi with rfl | rfl | rfl | rfl | rfl | rfl
      · exact ⟨lit "0.1", 1 / 10, rfl, by decide +kernel⟩
      · exact ⟨lit "0.2", 1 / 5, rfl, by decide +kernel⟩
      · exact ⟨lit "0.3", 3 / 10, rfl, by decide +kernel⟩
      · exact ⟨['7'], 7, rfl, by decide +kernel⟩
      · exact ⟨['1'], 1, rfl, by decide +kernel⟩
      · exact ⟨['1'], 1, rfl, by decide +kernel⟩
  have hr : ∀ l ∈ Spec.exampleAngRows, '\n' ∉ l := by decide +kernel
  have hfirst : ∀ l t, Spec.exampleAngRows = l :: t → ¬ ['#'] <+: l := by
    intro l t h
    rw [Spec.exampleAngRows, List.cons.injEq] at h
    rw [← h.1]
    decide +kernel
  obtain ⟨d, h, h1, h2, -⟩ := C69_file Spec.exampleBlocks Spec.exampleAngRows exampleBlocks_header.1 hr hfirst
    2 1 ['2'] ['1'] (by decide +kernel) (by decide +kernel) (by decide +kernel) (by decide +kernel) hrow
    (by decide +kernel)
  refine ⟨d, h, h1, h2, fun d' h' => ?_⟩
  rcases C142_edax _ _ exampleBlocks_header.1 hr hfirst _ rfl d h _
    ((List.dropLast_prefix _).trans (List.dropLast_prefix _)) d' h' with e | ⟨-, e⟩
  · exact e
  · exact absurd (by decide +kernel) e

end DefDAP
