import Verif.Proofs.InspectorText
import Verif.Props.LineGroups

/-! C75: the file of the grain inspector. -/

namespace DefDAP

variable {F : Type}

/-! ### The lines of the file -/

/-- A line with its break. -/
def withBreak (l : Str) : Str := l ++ ['\n']

/-- The first lines. -/
def inspHeadLines : List Str :=
  [lit "# This is a file generated by defdap which contains definitions of slip lines drawn in grains by grainInspector",
   lit "# [(x0, y0, x1, y1), angle, groupID]",
   lit "# and groups of lines, defined by an average angle and identified sip plane",
   lit "# [groupID, angle, [slip plane id], [angular deviation]", []]

/-- The lines of a grain. -/
def blockLines (T : FloatText F) (np2 : Bool) (b : InspGrain F × Nat) : List Str :=
  (lit "Grain " ++ natStr b.2) :: (natStr b.1.points.length ++ lit " Lines") ::
    (b.1.points.map (reprVal T np2) ++ (natStr b.1.groups.length ++ lit " Groups") ::
      (b.1.groups.map (reprVal T np2) ++ [[]]))

/-- The grains that are saved, with their ids. -/
def savedGrains (m : List (InspGrain F)) (k : Nat) : List (InspGrain F × Nat) :=
  (m.zipIdx k).filter fun b => !b.1.points.isEmpty

theorem inspHeader_eq : inspHeader = (inspHeadLines.map withBreak).flatten := by decide +kernel

theorem grainText_eq (T : FloatText F) (np2 : Bool) (b : InspGrain F × Nat)
    (h : b.1.points.isEmpty = false) :
    grainText T np2 b.2 b.1 = ((blockLines T np2 b).map withBreak).flatten := by
  unfold grainText
  rw [if_neg (by simp [h])]
  have e : ∀ l : List (PyVal F), (l.map fun p => reprVal T np2 p ++ ['\n']) =
      (l.map (reprVal T np2)).map withBreak := by
    intro l; simp [withBreak]
  have e1 : lit " Lines\n" = lit " Lines" ++ ['\n'] := by decide
  have e2 : lit " Groups\n" = lit " Groups" ++ ['\n'] := by decide
  rw [e, e, e1, e2]
  simp [blockLines, withBreak, List.append_assoc]

theorem blocks_eq (T : FloatText F) (np2 : Bool) (m : List (InspGrain F)) (k : Nat) :
    ((m.zipIdx k).map fun p => grainText T np2 p.2 p.1).flatten =
      (((savedGrains m k).flatMap (blockLines T np2)).map withBreak).flatten := by
  unfold savedGrains
  induction m generalizing k with
  | nil => rfl
  | cons g m ih =>
    rw [List.zipIdx_cons, List.map_cons, List.flatten_cons, ih (k + 1)]
    cases hg : g.points.isEmpty with
    | true =>
      rw [List.filter_cons_of_neg (by simp [hg])]
      have : grainText T np2 k g = [] := by unfold grainText; rw [if_pos hg]
      simp [this]
    | false =>
      rw [List.filter_cons_of_pos (by simp [hg]), List.flatMap_cons, List.map_append,
        List.flatten_append, grainText_eq T np2 (g, k) hg]

/-- All lines of the file. -/
def inspLines (T : FloatText F) (np2 : Bool) (m : List (InspGrain F)) : List Str :=
  inspHeadLines ++ (savedGrains m 0).flatMap (blockLines T np2)

theorem natStr_val (n : Nat) {c : Char} (h : isDig c = false) : c ∉ natStr n := by
  intro hc
  rw [natStr_digits n c hc] at h
  exact absurd h (by decide)

theorem saveInsp_text (T : FloatText F) (np2 : Bool) (m : List (InspGrain F)) :
    saveInsp T np2 m = ((inspLines T np2 m).map withBreak).flatten := by
  unfold saveInsp inspLines
  rw [List.map_append, List.flatten_append, ← inspHeader_eq, blocks_eq]

theorem blockLines_break {T : FloatText F} (hT : T.Lawful) (np2 : Bool) (b : InspGrain F × Nat) :
    ∀ l ∈ blockLines T np2 b, '\n' ∉ l := by
  intro l hb
  unfold blockLines at hb
  simp only [List.mem_cons, List.mem_append, List.mem_map, List.not_mem_nil, or_false] at hb
  have hnum : ∀ n, '\n' ∉ natStr n := fun n => natStr_val n (by decide)
  rcases hb with rfl | rfl | ⟨v, _, rfl⟩ | rfl | ⟨v, _, rfl⟩ | rfl
  · intro h
    rcases List.mem_append.mp h with h | h
    · exact absurd h (by decide)
    · exact hnum _ h
  · intro h
    rcases List.mem_append.mp h with h | h
    · exact hnum _ h
    · exact absurd h (by decide)
  · exact valChar_not hT np2 v (by decide)
  · intro h
    rcases List.mem_append.mp h with h | h
    · exact hnum _ h
    · exact absurd h (by decide)
  · exact valChar_not hT np2 v (by decide)
  · simp

theorem inspLines_break {T : FloatText F} (hT : T.Lawful) (np2 : Bool) (m : List (InspGrain F)) :
    ∀ l ∈ inspLines T np2 m, '\n' ∉ l := by
  intro l hl
  unfold inspLines at hl
  rcases List.mem_append.mp hl with hl | hl
  · exact (by decide : ∀ l ∈ inspHeadLines, '\n' ∉ l) l hl
  · obtain ⟨b, _, hb⟩ := List.mem_flatMap.mp hl
    exact blockLines_break hT np2 b l hb

theorem saveInsp_lines {T : FloatText F} (hT : T.Lawful) (np2 : Bool) (m : List (InspGrain F)) :
    linesOf (saveInsp T np2 m) = (inspLines T np2 m).map withBreak := by
  rw [saveInsp_text]
  exact linesOf_flatten (inspLines_break hT np2 m)

/-! ### The index -/

theorem hasSub_not {sub s : Str} {c : Char} (h1 : c ∈ sub) (h2 : c ∉ s) : hasSub sub s = false := by
  unfold hasSub
  rw [decide_eq_false_iff_not]
  intro h
  exact h2 (h.subset h1)

/-- A line that says nothing to the scanner. -/
def Quiet (l : Str) : Prop :=
  l.head? = some '#' ∨ l.length ≤ 1 ∨ (('G' ∉ l) ∧ 'L' ∉ l)

theorem scanLine_quiet (st : InspScan) {l : Str} (p : Nat) (h : Quiet l) :
    scanLine st (l, p) = .ok st := by
  unfold scanLine
  by_cases hc : l.head? ≠ some '#' ∧ 1 < l.length
  · rw [if_pos hc]
    rcases h with h | h | ⟨h1, h2⟩
    · exact absurd h hc.1
    · have := hc.2
      omega
    · unfold scanGrain
      rw [if_neg (by simp [hasSub_not (c := 'G') (by decide : 'G' ∈ lit "Grain") h1])]
      simp only [Except.bind]
      unfold scanLines
      rw [if_neg (by simp [hasSub_not (c := 'L') (by decide : 'L' ∈ lit "Lines") h2])]
      simp only
      unfold scanGroups
      rw [if_neg (by simp [hasSub_not (c := 'G') (by decide : 'G' ∈ lit "Groups") h1])]
  · rw [if_neg hc]

theorem scan_quiet (ls : List Str) (p : Nat) (st : InspScan) (h : ∀ l ∈ ls, Quiet l) :
    (ls.zipIdx p).foldlM scanLine st = .ok st := by
  induction ls generalizing p with
  | nil => rfl
  | cons l ls ih =>
    rw [List.zipIdx_cons, List.foldlM_cons, scanLine_quiet st p (h l (by simp))]
    exact ih (p + 1) fun x hx => h x (by simp [hx])

theorem quiet_val {T : FloatText F} (hT : T.Lawful) (np2 : Bool) (v : PyVal F) :
    Quiet (withBreak (reprVal T np2 v)) := by
  refine Or.inr (Or.inr ⟨?_, ?_⟩)
  · intro h
    rcases List.mem_append.mp h with h | h
    · exact valChar_not hT np2 v (by decide) h
    · exact absurd (List.mem_singleton.mp h) (by decide)
  · intro h
    rcases List.mem_append.mp h with h | h
    · exact valChar_not hT np2 v (by decide) h
    · exact absurd (List.mem_singleton.mp h) (by decide)

/-- A number with a line break. -/
theorem parseInt_break (n : Nat) : parseInt (natStr n ++ ['\n']) = .ok n := by
  have h := parseInt_intStr n
  have e : intStr n = natStr n := by
    unfold intStr
    rw [if_neg (by omega)]
    rfl
  rw [e] at h
  have hs : strip (natStr n ++ ['\n']) = natStr n := by
    have hn : ∀ c ∈ natStr n, isWs c = false := fun c hc =>
      numChar_ws (isDig_num (natStr_digits n c hc))
    have := strip_pad (a := []) (t := natStr n) (b := ['\n']) (by simp) (by
      intro c hc
      rw [List.mem_singleton.mp hc]
      decide) ⟨fun c r e => hn c (by rw [e]; simp), fun c r e => hn c (by rw [e]; simp)⟩
    simpa using this
  have hs' : strip (natStr n) = natStr n :=
    trimmed_num fun c hc => isDig_num (natStr_digits n c hc)
  unfold parseInt at h ⊢
  rw [hs'] at h
  rw [hs]
  exact h

theorem parseInt_natStr (n : Nat) : parseInt (natStr n) = .ok n := by
  have h := parseInt_intStr n
  have e : intStr n = natStr n := by
    unfold intStr
    rw [if_neg (by omega)]
    rfl
  rwa [e] at h

/-- A line starting with a word or a number is looked at. -/
theorem scanLine_look (st : InspScan) {l : Str} (p : Nat) (h1 : l.head? ≠ some '#')
    (h2 : 1 < l.length) : scanLine st (l, p) =
      (scanGrain p l st).bind fun st => (scanLines l st).bind fun st => scanGroups l st := by
  unfold scanLine
  rw [if_pos ⟨h1, h2⟩]

theorem natStr_head (n : Nat) (t : Str) : (natStr n ++ t).head? ≠ some '#' := by
  cases h : natStr n with
  | nil => exact absurd h (natStr_ne n)
  | cons c r =>
    intro e
    simp at e
    have := natStr_digits n c (by rw [h]; simp)
    rw [e] at this
    exact absurd this (by decide)

theorem scan_grain (st : InspScan) (p i : Nat) :
    scanLine st (withBreak (lit "Grain " ++ natStr i), p) =
      .ok { st with start := some p, grain := some (i : Int) } := by
  have hsp : ' ' ∉ natStr i ++ ['\n'] := by
    intro h
    rcases List.mem_append.mp h with h | h
    · exact natStr_val i (by decide) h
    · exact absurd (List.mem_singleton.mp h) (by decide)
  have e : withBreak (lit "Grain " ++ natStr i) = lit "Grain" ++ ' ' :: (natStr i ++ ['\n']) := by
    simp [withBreak, lit]
  have hL : 'L' ∉ withBreak (lit "Grain " ++ natStr i) := by
    intro h
    rcases List.mem_append.mp h with h | h
    · rcases List.mem_append.mp h with h | h
      · exact absurd h (by decide)
      · exact natStr_val i (by decide) h
    · exact absurd (List.mem_singleton.mp h) (by decide)
  have hp : 'p' ∉ withBreak (lit "Grain " ++ natStr i) := by
    intro h
    rcases List.mem_append.mp h with h | h
    · rcases List.mem_append.mp h with h | h
      · exact absurd h (by decide)
      · exact natStr_val i (by decide) h
    · exact absurd (List.mem_singleton.mp h) (by decide)
  have hg : hasSub (lit "Grain") (withBreak (lit "Grain " ++ natStr i)) = true := by
    unfold hasSub
    rw [decide_eq_true_eq, e]
    exact (List.prefix_append _ _).isInfix
  have hl : lastInt (withBreak (lit "Grain " ++ natStr i)) = .ok (i : Int) := by
    unfold lastInt
    rw [e, splitSep_cons (by decide), splitSep_one hsp]
    exact parseInt_break i
  rw [scanLine_look st p (by rw [e]; simp [lit]) (by rw [e]; simp [lit])]
  unfold scanGrain
  rw [if_pos hg, hl]
  simp only [Except.bind]
  unfold scanLines
  rw [if_neg (by simp [hasSub_not (c := 'L') (by decide : 'L' ∈ lit "Lines") hL])]
  simp only
  unfold scanGroups
  rw [if_neg (by simp [hasSub_not (c := 'p') (by decide : 'p' ∈ lit "Groups") hp])]

theorem firstInt_word (n : Nat) {w : Str} : firstInt (withBreak (natStr n ++ ' ' :: w)) = .ok n := by
  have e : withBreak (natStr n ++ ' ' :: w) = natStr n ++ ' ' :: (w ++ ['\n']) := by
    simp [withBreak]
  unfold firstInt
  rw [e, splitSep_cons (natStr_val n (by decide))]
  exact parseInt_natStr n

theorem not_word (n : Nat) {w : Str} {c : Char} (h1 : isDig c = false) (h2 : c ∉ w)
    (h3 : c ≠ '\n') : c ∉ withBreak (natStr n ++ w) := by
  intro h
  rcases List.mem_append.mp h with h | h
  · rcases List.mem_append.mp h with h | h
    · exact natStr_val n h1 h
    · exact h2 h
  · exact h3 (List.mem_singleton.mp h)

theorem scan_lines (st : InspScan) (p n : Nat) :
    scanLine st (withBreak (natStr n ++ lit " Lines"), p) =
      .ok { st with numLines := some (n : Int) } := by
  have e : withBreak (natStr n ++ lit " Lines") = natStr n ++ (lit " Lines" ++ ['\n']) := by
    simp [withBreak]
  have hG : 'G' ∉ withBreak (natStr n ++ lit " Lines") :=
    not_word n (by decide) (by decide) (by decide)
  have hl : hasSub (lit "Lines") (withBreak (natStr n ++ lit " Lines")) = true := by
    unfold hasSub
    rw [decide_eq_true_eq]
    exact ⟨natStr n ++ [' '], ['\n'], by simp [withBreak, lit]⟩
  rw [scanLine_look st p (by rw [e]; exact natStr_head _ _) (by rw [e]; simp [lit])]
  unfold scanGrain
  rw [if_neg (by simp [hasSub_not (c := 'G') (by decide : 'G' ∈ lit "Grain") hG])]
  simp only [Except.bind]
  unfold scanLines
  rw [if_pos hl, show lit " Lines" = ' ' :: lit "Lines" from by decide, firstInt_word]
  simp only [Except.bind]
  unfold scanGroups
  rw [if_neg]
  rw [show ' ' :: lit "Lines" = lit " Lines" from by decide]
  simp [hasSub_not (c := 'G') (by decide : 'G' ∈ lit "Groups") hG]

theorem scan_groups (st : InspScan) (p n : Nat) :
    scanLine st (withBreak (natStr n ++ lit " Groups"), p) = scanEntry (n : Int) st := by
  have e : withBreak (natStr n ++ lit " Groups") = natStr n ++ (lit " Groups" ++ ['\n']) := by
    simp [withBreak]
  have hi : 'i' ∉ withBreak (natStr n ++ lit " Groups") :=
    not_word n (by decide) (by decide) (by decide)
  have hl : hasSub (lit "Groups") (withBreak (natStr n ++ lit " Groups")) = true := by
    unfold hasSub
    rw [decide_eq_true_eq]
    exact ⟨natStr n ++ [' '], ['\n'], by simp [withBreak, lit]⟩
  rw [scanLine_look st p (by rw [e]; exact natStr_head _ _) (by rw [e]; simp [lit])]
  unfold scanGrain
  rw [if_neg (by simp [hasSub_not (c := 'i') (by decide : 'i' ∈ lit "Grain") hi])]
  simp only [Except.bind]
  unfold scanLines
  rw [if_neg (by simp [hasSub_not (c := 'i') (by decide : 'i' ∈ lit "Lines") hi])]
  simp only
  unfold scanGroups
  rw [if_pos hl, show lit " Groups" = ' ' :: lit "Groups" from by decide, firstInt_word]
  rfl

/-- The entry of a grain whose lines start at `p`. -/
def entryOf (p : Nat) (b : InspGrain F × Nat) : Nat × Int × Int × Int :=
  (p, b.2, b.1.points.length, b.1.groups.length)

theorem scan_block {T : FloatText F} (hT : T.Lawful) (np2 : Bool) (b : InspGrain F × Nat) (p : Nat)
    (st : InspScan) :
    (((blockLines T np2 b).map withBreak).zipIdx p).foldlM scanLine st =
      .ok ⟨some p, some (b.2 : Int), some (b.1.points.length : Int),
        st.index ++ [entryOf p b]⟩ := by
  unfold blockLines
  simp only [List.map_cons, List.map_append, List.zipIdx_cons, List.foldlM_cons]
  rw [scan_grain]
  show (scanLine _ _).bind _ = _
  rw [scan_lines]
  simp only [Except.bind]
  rw [List.zipIdx_append, List.foldlM_append, scan_quiet]
  · show Except.bind (.ok _) _ = _
    simp only [Except.bind]
    rw [List.zipIdx_cons, List.foldlM_cons, scan_groups]
    unfold scanEntry
    show Except.bind (.ok _) _ = _
    simp only [Except.bind]
    rw [List.zipIdx_append, List.foldlM_append, scan_quiet]
    · show Except.bind (.ok _) _ = _
      simp only [Except.bind]
      rw [scan_quiet]
      · rfl
      · intro l hl
        simp only [List.map_nil, List.mem_singleton] at hl
        right; left
        simp [hl, withBreak]
    · intro l hl
      simp only [List.mem_map] at hl
      obtain ⟨_, ⟨v, _, rfl⟩, rfl⟩ := hl
      exact quiet_val hT np2 v
  · intro l hl
    simp only [List.mem_map] at hl
    obtain ⟨_, ⟨v, _, rfl⟩, rfl⟩ := hl
    exact quiet_val hT np2 v

/-- The entries of grains whose lines follow each other. -/
def entriesOf (T : FloatText F) (np2 : Bool) : Nat → List (InspGrain F × Nat) →
    List (Nat × Int × Int × Int)
  | _, [] => []
  | p, b :: bs => entryOf p b :: entriesOf T np2 (p + (blockLines T np2 b).length) bs

theorem scan_blocks {T : FloatText F} (hT : T.Lawful) (np2 : Bool)
    (bs : List (InspGrain F × Nat)) : ∀ (p : Nat) (st : InspScan), ∃ st',
    (((bs.flatMap (blockLines T np2)).map withBreak).zipIdx p).foldlM scanLine st = .ok st' ∧
      st'.index = st.index ++ entriesOf T np2 p bs := by
  induction bs with
  | nil => intro p st; exact ⟨st, rfl, by simp [entriesOf]⟩
  | cons b bs ih =>
    intro p st
    rw [List.flatMap_cons, List.map_append, List.zipIdx_append, List.foldlM_append,
      scan_block hT]
    obtain ⟨st', h1, h2⟩ := ih (p + (blockLines T np2 b).length)
      ⟨some p, some (b.2 : Int), some (b.1.points.length : Int), st.index ++ [entryOf p b]⟩
    refine ⟨st', ?_, ?_⟩
    · show Except.bind (.ok _) _ = _
      simp only [Except.bind, List.length_map]
      exact h1
    · rw [h2]
      simp [entriesOf]

theorem scanFile_saved {T : FloatText F} (hT : T.Lawful) (np2 : Bool) (m : List (InspGrain F)) :
    ∃ st, scanFile ((inspLines T np2 m).map withBreak) = .ok st ∧
      st.index = entriesOf T np2 5 (savedGrains m 0) := by
  unfold scanFile inspLines
  rw [List.map_append, List.zipIdx_append, List.foldlM_append, scan_quiet]
  · obtain ⟨st, h1, h2⟩ := scan_blocks hT np2 (savedGrains m 0) (0 + (inspHeadLines.map withBreak).length)
      ⟨none, none, none, []⟩
    refine ⟨st, h1, ?_⟩
    rw [h2]
    rfl
  · intro l hl
    obtain ⟨x, hx, rfl⟩ := List.mem_map.mp hl
    have : ∀ x ∈ inspHeadLines, (withBreak x).head? = some '#' ∨ (withBreak x).length ≤ 1 := by
      decide +kernel
    rcases this x hx with h | h
    · exact Or.inl h
    · exact Or.inr (Or.inl h)

/-! ### Loading -/

theorem slice_points {T : FloatText F} {np2 : Bool} (pre post : List Str) (b : InspGrain F × Nat) :
    sliceLines ((pre ++ (blockLines T np2 b ++ post)).map withBreak) ((pre.length : Int) + 2)
      b.1.points.length = b.1.points.map (valLine T np2) := by
  unfold sliceLines
  have e : ((pre.length : Int) + 2).toNat = (pre.map withBreak).length + 2 := by simp; omega
  rw [e, List.map_append, List.drop_append, List.drop_eq_nil_of_le (by omega), List.nil_append]
  rw [show (pre.map withBreak).length + 2 - (pre.map withBreak).length = 2 from by omega]
  unfold blockLines
  simp only [List.cons_append, List.map_cons, List.drop_succ_cons, List.drop_zero, List.append_assoc,
    List.map_append, List.map_map]
  rw [Int.toNat_natCast, List.take_append_of_le_length (by simp), List.take_of_length_le (by simp)]
  rfl

theorem slice_groups {T : FloatText F} {np2 : Bool} (pre post : List Str) (b : InspGrain F × Nat) :
    sliceLines ((pre ++ (blockLines T np2 b ++ post)).map withBreak)
      ((pre.length : Int) + 3 + b.1.points.length) b.1.groups.length =
      b.1.groups.map (valLine T np2) := by
  unfold sliceLines
  have e : ((pre.length : Int) + 3 + b.1.points.length).toNat =
      (pre.map withBreak).length + (3 + b.1.points.length) := by simp; omega
  rw [e, List.map_append, List.drop_append, List.drop_eq_nil_of_le (by omega), List.nil_append]
  rw [show (pre.map withBreak).length + (3 + b.1.points.length) - (pre.map withBreak).length =
    (b.1.points.length + 1) + 1 + 1 from by omega]
  unfold blockLines
  simp only [List.cons_append, List.map_cons, List.drop_succ_cons, List.append_assoc,
    List.map_append, List.map_map]
  rw [List.drop_append, List.drop_eq_nil_of_le (by simp), List.nil_append]
  simp only [List.length_map]
  rw [show b.1.points.length + 1 - b.1.points.length = 1 from by omega, List.drop_succ_cons,
    List.drop_zero, Int.toNat_natCast, List.take_append_of_le_length (by simp),
    List.take_of_length_le (by simp)]
  rfl

/-- What a grain gets from the file: its lines and groups without numpy types, if it has lines. -/
def Spec.Restored (g : InspGrain F) : InspGrain F :=
  if g.points = [] then ⟨[], []⟩ else ⟨g.points.map PyVal.plain, g.groups.map PyVal.plain⟩

/-- The lists of two grains one after the other. -/
def Spec.Join (a b : InspGrain F) : InspGrain F := ⟨a.points ++ b.points, a.groups ++ b.groups⟩

/-- No numpy scalars in what is saved of a grain. -/
def Spec.NoNumpy (g : InspGrain F) : Prop :=
  g.points ≠ [] → ∀ v ∈ g.points ++ g.groups, v.hasNumpy = false

/-- The effect of the entries on the grains. -/
def applyBlocks (bs : List (InspGrain F × Nat)) (m : List (InspGrain F)) : List (InspGrain F) :=
  bs.foldl (fun m b => m.modify b.2 fun g =>
    ⟨g.points ++ b.1.points.map PyVal.plain, g.groups ++ b.1.groups.map PyVal.plain⟩) m

theorem pyIndex_nat {n i : Nat} (h : i < n) : pyIndex n (i : Int) = .ok i := by
  unfold pyIndex
  rw [if_pos ⟨by omega, by omega⟩]
  rfl

theorem load_blocks {T : FloatText F} (hT : T.Lawful) (np2 : Bool) (lines : List Str)
    (bs : List (InspGrain F × Nat)) : ∀ (pre : List Str) (m : List (InspGrain F)),
    lines = pre ++ bs.flatMap (blockLines T np2) →
    (∀ b ∈ bs, b.2 < m.length) →
    (np2 = true → ∀ b ∈ bs, ∀ v ∈ b.1.points ++ b.1.groups, v.hasNumpy = false) →
    (entriesOf T np2 pre.length bs).foldlM (loadEntry T (lines.map withBreak)) m =
      .ok (applyBlocks bs m) := by
  induction bs with
  | nil => intro pre m _ _ _; rfl
  | cons b bs ih =>
    intro pre m hl hi hn
    rw [entriesOf, List.foldlM_cons]
    have hstep : loadEntry T (lines.map withBreak) m (entryOf pre.length b) =
        .ok (m.modify b.2 fun g =>
          ⟨g.points ++ b.1.points.map PyVal.plain, g.groups ++ b.1.groups.map PyVal.plain⟩) := by
      unfold loadEntry entryOf
      simp only
      rw [pyIndex_nat (hi b (by simp)), hl, List.flatMap_cons, slice_points, slice_groups,
        evalLines_repr hT np2 _ (fun e v hv => hn e b (by simp) v (by simp [hv])),
        evalLines_repr hT np2 _ (fun e v hv => hn e b (by simp) v (by simp [hv]))]
      rfl
    rw [hstep]
    show (entriesOf T np2 (pre.length + (blockLines T np2 b).length) bs).foldlM _ _ = _
    have := ih (pre ++ blockLines T np2 b) (m.modify b.2 fun g =>
        ⟨g.points ++ b.1.points.map PyVal.plain, g.groups ++ b.1.groups.map PyVal.plain⟩)
      (by rw [hl, List.flatMap_cons, List.append_assoc])
      (fun x hx => by rw [List.length_modify]; exact hi x (by simp [hx]))
      (fun e x hx => hn e x (by simp [hx]))
    rw [List.length_append] at this
    rw [this]
    rfl

theorem applyBlocks_spec (m : List (InspGrain F)) : ∀ (k : Nat) (m' : List (InspGrain F)) (j : Nat),
    (applyBlocks (savedGrains m k) m')[j]? =
      if k ≤ j then
        m'[j]?.map fun g => match m[j - k]? with
          | some s => Spec.Join g (Spec.Restored s)
          | none => g
      else m'[j]? := by
  induction m with
  | nil =>
    intro k m' j
    simp [savedGrains, applyBlocks]
  | cons s m ih =>
    intro k m' j
    have hempty : s.points = [] → Spec.Restored s = ⟨[], []⟩ := fun h => by
      unfold Spec.Restored; rw [if_pos h]
    have hfull : s.points ≠ [] → Spec.Restored s =
        ⟨s.points.map PyVal.plain, s.groups.map PyVal.plain⟩ := fun h => by
      unfold Spec.Restored; rw [if_neg h]
    by_cases hs : s.points = []
    · have e : savedGrains (s :: m) k = savedGrains m (k + 1) := by
        unfold savedGrains
        rw [List.zipIdx_cons, List.filter_cons_of_neg (by simp [hs])]
      rw [e, ih]
      by_cases h1 : k + 1 ≤ j
      · rw [if_pos h1, if_pos (by omega), show j - k = (j - (k + 1)) + 1 from by omega,
          List.getElem?_cons_succ]
      · rw [if_neg h1]
        by_cases h2 : k ≤ j
        · rw [if_pos h2, show j - k = 0 from by omega, List.getElem?_cons_zero]
          simp [hempty hs, Spec.Join]
        · rw [if_neg h2]
    · have e : savedGrains (s :: m) k = (s, k) :: savedGrains m (k + 1) := by
        unfold savedGrains
        rw [List.zipIdx_cons, List.filter_cons_of_pos (by simp [hs])]
      have e2 : applyBlocks (savedGrains (s :: m) k) m' =
          applyBlocks (savedGrains m (k + 1)) (m'.modify k fun g =>
            ⟨g.points ++ s.points.map PyVal.plain, g.groups ++ s.groups.map PyVal.plain⟩) := by
        rw [e]
        rfl
      rw [e2, ih]
      by_cases h1 : k + 1 ≤ j
      · rw [if_pos h1, if_pos (by omega), show j - k = (j - (k + 1)) + 1 from by omega,
          List.getElem?_cons_succ, List.getElem?_modify_ne _ _ (by omega)]
      · rw [if_neg h1]
        by_cases h2 : k ≤ j
        · have : j = k := by omega
          subst this
          rw [if_pos h2, show j - j = 0 from by omega, List.getElem?_cons_zero]
          simp [hfull hs, Spec.Join]
        · rw [if_neg h2, List.getElem?_modify_ne _ _ (by omega)]

theorem savedGrains_mem {m : List (InspGrain F)} {b : InspGrain F × Nat}
    (h : b ∈ savedGrains m 0) : m[b.2]? = some b.1 ∧ b.1.points ≠ [] := by
  unfold savedGrains at h
  rw [List.mem_filter] at h
  refine ⟨?_, ?_⟩
  · have := List.mk_mem_zipIdx_iff_getElem?.mp (show (b.1, b.2) ∈ m.zipIdx from h.1)
    exact this
  · simpa using h.2

theorem loadInsp_saved {T : FloatText F} (hT : T.Lawful) (np2 : Bool) (m m' : List (InspGrain F)) :
    loadInsp T (saveInsp T np2 m) m' =
      (entriesOf T np2 inspHeadLines.length (savedGrains m 0)).foldlM
        (loadEntry T ((inspLines T np2 m).map withBreak)) m' := by
  unfold loadInsp
  rw [saveInsp_lines hT]
  obtain ⟨st, h1, h2⟩ := scanFile_saved hT np2 m
  simp only
  rw [h1]
  simp only [Except.bind]
  rw [h2]
  rfl

/-- **C75**: loading a saved file adds to each grain the lines and groups that the grain of the same
number had when saving, if it had lines; numpy scalars come back as plain numbers. This holds with
numpy below 2, and above it if nothing saved is a numpy scalar. -/
theorem C75_round_trip {T : FloatText F} (hT : T.Lawful) (np2 : Bool) (m m' : List (InspGrain F))
    (hlen : m.length ≤ m'.length) (hn : np2 = true → ∀ g ∈ m, Spec.NoNumpy g) :
    ∃ r, loadInsp T (saveInsp T np2 m) m' = .ok r ∧ r.length = m'.length ∧
      ∀ (i : Nat) (g s : InspGrain F), m'[i]? = some g → m[i]? = some s →
        r[i]? = some (Spec.Join g (Spec.Restored s)) := by
  refine ⟨applyBlocks (savedGrains m 0) m', ?_, ?_, ?_⟩
  · rw [loadInsp_saved hT]
    refine load_blocks hT np2 _ _ inspHeadLines m' rfl ?_ ?_
    · intro b hb
      have := (List.getElem?_eq_some_iff.mp (savedGrains_mem hb).1).1
      omega
    · intro e b hb
      obtain ⟨h1, h2⟩ := savedGrains_mem hb
      exact hn e b.1 (List.mem_of_getElem? h1) h2
  · have : ∀ (bs : List (InspGrain F × Nat)) (x : List (InspGrain F)),
        (applyBlocks bs x).length = x.length := by
      intro bs
      induction bs with
      | nil => intro x; rfl
      | cons b bs ih =>
        intro x
        unfold applyBlocks at ih ⊢
        rw [List.foldl_cons, ih, List.length_modify]
    exact this _ _
  · intro i g s hg hs
    rw [applyBlocks_spec, if_pos (by omega), hg, Nat.sub_zero, hs]
    rfl

/-- **C75**: into a fresh map the file restores every grain that has lines, and leaves the others
empty. -/
theorem C75_fresh {T : FloatText F} (hT : T.Lawful) (np2 : Bool) (m : List (InspGrain F))
    (hn : np2 = true → ∀ g ∈ m, Spec.NoNumpy g) :
    loadInsp T (saveInsp T np2 m) (m.map fun _ => ⟨[], []⟩) = .ok (m.map Spec.Restored) := by
  obtain ⟨r, h1, h2, h3⟩ := C75_round_trip hT np2 m (m.map fun _ => ⟨[], []⟩) (by simp) hn
  rw [h1]
  congr 1
  apply List.ext_getElem?
  intro i
  cases hi : m[i]? with
  | none =>
    rw [List.getElem?_map, hi]
    have : m.length ≤ i := List.getElem?_eq_none_iff.mp hi
    rw [List.length_map] at h2
    exact List.getElem?_eq_none (by omega)
  | some s =>
    rw [h3 i ⟨[], []⟩ s (by rw [List.getElem?_map, hi]; rfl) hi, List.getElem?_map, hi]
    rfl

/-- **C75**: loading a file back into the map it was saved from doubles the lines and groups of
every grain with lines. -/
theorem C75_doubled {T : FloatText F} (hT : T.Lawful) (np2 : Bool) (m : List (InspGrain F))
    (hn : np2 = true → ∀ g ∈ m, Spec.NoNumpy g) :
    ∃ r, loadInsp T (saveInsp T np2 m) m = .ok r ∧ ∀ (i : Nat) (g : InspGrain F), m[i]? = some g →
      g.points ≠ [] → ∃ g', r[i]? = some g' ∧ g'.points = g.points ++ g.points.map PyVal.plain ∧
        g'.groups = g.groups ++ g.groups.map PyVal.plain := by
  obtain ⟨r, h1, _, h3⟩ := C75_round_trip hT np2 m m (le_refl _) hn
  refine ⟨r, h1, ?_⟩
  intro i g hg hp
  refine ⟨_, h3 i g g hg hg, ?_, ?_⟩
  · unfold Spec.Join Spec.Restored; rw [if_neg hp]
  · unfold Spec.Join Spec.Restored; rw [if_neg hp]

theorem load_fails {T : FloatText F} (hT : T.Lawful) (lines : List Str)
    (bs : List (InspGrain F × Nat)) : ∀ (pre : List Str) (m : List (InspGrain F)),
    lines = pre ++ bs.flatMap (blockLines T true) →
    (∀ b ∈ bs, b.2 < m.length) →
    (∃ b ∈ bs, ∃ v ∈ b.1.points ++ b.1.groups, v.hasNumpy = true) →
    (entriesOf T true pre.length bs).foldlM (loadEntry T (lines.map withBreak)) m =
      .error .valueError := by
  induction bs with
  | nil => intro pre m _ _ h; simp at h
  | cons b bs ih =>
    intro pre m hl hi hn
    rw [entriesOf, List.foldlM_cons]
    have hstep : loadEntry T (lines.map withBreak) m (entryOf pre.length b) =
        ((evalLines T (b.1.points.map (valLine T true))).bind fun ps =>
          (evalLines T (b.1.groups.map (valLine T true))).bind fun gs =>
          .ok (m.modify b.2 fun g => ⟨g.points ++ ps, g.groups ++ gs⟩)) := by
      unfold loadEntry entryOf
      simp only
      rw [pyIndex_nat (hi b (by simp)), hl, List.flatMap_cons, slice_points, slice_groups]
      rfl
    rw [hstep]
    by_cases hp : ∃ v ∈ b.1.points, v.hasNumpy = true
    · rw [evalLines_numpy hT _ hp]
      rfl
    · have hp' : ∀ v ∈ b.1.points, v.hasNumpy = false := by
        intro v hv
        cases h : v.hasNumpy with
        | false => rfl
        | true => exact absurd ⟨v, hv, h⟩ hp
      rw [evalLines_repr hT true _ (fun _ => hp')]
      by_cases hg : ∃ v ∈ b.1.groups, v.hasNumpy = true
      · simp only [Except.bind]
        rw [evalLines_numpy hT _ hg]
        rfl
      · have hg' : ∀ v ∈ b.1.groups, v.hasNumpy = false := by
          intro v hv
          cases h : v.hasNumpy with
          | false => rfl
          | true => exact absurd ⟨v, hv, h⟩ hg
        simp only [Except.bind]
        rw [evalLines_repr hT true _ (fun _ => hg')]
        show (entriesOf T true (pre.length + (blockLines T true b).length) bs).foldlM _ _ = _
        have := ih (pre ++ blockLines T true b) (m.modify b.2 fun g =>
            ⟨g.points ++ b.1.points.map PyVal.plain, g.groups ++ b.1.groups.map PyVal.plain⟩)
          (by rw [hl, List.flatMap_cons, List.append_assoc])
          (fun x hx => by rw [List.length_modify]; exact hi x (by simp [hx]))
          (by
            obtain ⟨x, hx, v, hv, h⟩ := hn
            rcases List.mem_cons.mp hx with rfl | hx
            · rcases List.mem_append.mp hv with hv | hv
              · exact absurd ⟨v, hv, h⟩ hp
              · exact absurd ⟨v, hv, h⟩ hg
            · exact ⟨x, hx, v, hv, h⟩)
        rw [List.length_append] at this
        exact this

/-- **C75**: from numpy 2 on a file with any numpy scalar in it cannot be loaded. -/
theorem C75_numpy2 {T : FloatText F} (hT : T.Lawful) (m m' : List (InspGrain F))
    (hlen : m.length ≤ m'.length) (hn : ∃ g ∈ m, ¬ Spec.NoNumpy g) :
    loadInsp T (saveInsp T true m) m' = .error .valueError := by
  rw [loadInsp_saved hT]
  refine load_fails hT _ _ inspHeadLines m' rfl ?_ ?_
  · intro b hb
    have := (List.getElem?_eq_some_iff.mp (savedGrains_mem hb).1).1
    omega
  · obtain ⟨g, hg, h⟩ := hn
    unfold Spec.NoNumpy at h
    push Not at h
    obtain ⟨h1, v, hv, h2⟩ := h
    obtain ⟨i, hi, e⟩ := List.getElem_of_mem hg
    refine ⟨(g, i), ?_, v, hv, by simpa using h2⟩
    unfold savedGrains
    rw [List.mem_filter]
    exact ⟨List.mk_mem_zipIdx_iff_getElem?.mpr (by rw [List.getElem?_eq_getElem hi, e]),
      by simpa using h1⟩

/-- **C75**: a map with too few grains. -/
theorem C75_too_small {T : FloatText F} (hT : T.Lawful) (np2 : Bool) (g : InspGrain F)
    (m : List (InspGrain F)) (hg : g.points ≠ []) :
    loadInsp T (saveInsp T np2 (g :: m)) [] = .error .indexError := by
  rw [loadInsp_saved hT]
  have e : savedGrains (g :: m) 0 = (g, 0) :: savedGrains m 1 := by
    unfold savedGrains
    rw [List.zipIdx_cons, List.filter_cons_of_pos (by simp [hg])]
  rw [e, entriesOf, List.foldlM_cons]
  rfl

/-! ### Lines as they are drawn -/

/-- Of two lines with the same group among the first `k` the later has a numpy number. -/
def LaterNumpy (k : Nat) (lines : List SlipLine) : Prop :=
  ∀ (i j : Nat) (a b : SlipLine), i < j → j < k → lines[i]? = some a → lines[j]? = some b →
    a.group = b.group → b.fromNumpy = true

theorem laterNumpy_step {L0 : List SlipLine} {k : Nat} {st : GroupVars} (hg : Grouped L0 k st)
    (hk : 0 < k) (h : LaterNumpy k st.lines) : LaterNumpy (k + 1) (groupStep st k).lines := by
  unfold groupStep
  cases hl : st.lines[k]? with
  | none =>
    intro i j a b hij hj ha hb
    have : j ≠ k := fun e => by rw [e, hl] at hb; exact absurd hb (by simp)
    exact h i j a b hij (by omega) ha hb
  | some line =>
    have hlt : k < st.lines.length := (List.getElem?_eq_some_iff.mp hl).1
    simp only
    rw [if_neg (by omega)]
    have key : ∀ x : SlipLine, (∀ (i : Nat) (a : SlipLine), i < k → st.lines[i]? = some a →
        a.group = x.group → x.fromNumpy = true) → LaterNumpy (k + 1) (st.lines.set k x) := by
      intro x hx i j a b hij hj ha hb he
      rw [List.getElem?_set_ne (by omega)] at ha
      by_cases hjk : j = k
      · subst hjk
        rw [List.getElem?_set_self hlt] at hb
        injection hb with hb
        subst hb
        exact hx i a hij ha he
      · rw [List.getElem?_set_ne (fun e => hjk e.symm)] at hb
        exact h i j a b hij (by omega) ha hb he
    split
    · exact key _ fun _ _ _ _ _ => rfl
    · refine key _ ?_
      intro i a hi ha he
      exfalso
      have h1 := (hg.member i a hi ha).2
      have h2 := hg.next
      simp only at he
      omega

theorem laterNumpy_groupLines (traces : List ℝ) (st : LineState) (k : Nat) :
    LaterNumpy k (groupLines traces st).lines := by
  by_cases h : st.lines = []
  · rw [groupLines_nil _ _ h]
    intro i j a b _ _ ha
    exact absurd ha (by simp)
  · rw [groupLines_cons _ _ h]
    have key : ∀ n, 0 < n → n ≤ st.lines.length →
        LaterNumpy n ((List.range n).foldl groupStep ⟨st.lines, st.groups, 0⟩).lines := by
      intro n
      induction n with
      | zero => intro h; omega
      | succ n ih =>
        intro _ hle
        by_cases hn : n = 0
        · subst hn
          intro i j a b hij hj
          omega
        · rw [List.range_succ, List.foldl_append]
          exact laterNumpy_step (grouped_prefix st.groups n (by omega) (by omega)) (by omega)
            (ih (by omega) (by omega))
    have hlen := grouped_length (groupLoop_grouped st.groups h)
    have := key st.lines.length (List.length_pos_iff.mpr h) (le_refl _)
    intro i j a b hij _ ha hb
    have hj : j < (groupLoop st.lines st.groups).lines.length :=
      (List.getElem?_eq_some_iff.mp hb).1
    exact this i j a b hij (by omega) ha hb

/-- Two of the lines of a grain are in one group. -/
def Spec.Shared (st : LineState) : Prop :=
  ∃ (i j : Nat) (a b : SlipLine), i < j ∧ st.lines[i]? = some a ∧ st.lines[j]? = some b ∧
    a.group = b.group

/-- **C75**: from numpy 2 on, as soon as two lines of some grain are in one group, the saved file
cannot be loaded; whatever was drawn and removed before. -/
theorem C75_shared_group {T : FloatText F} (hT : T.Lawful) (f : ℚ → F) (c : ℝ) (traces : List ℝ)
    (grains : List LineState) (hed : ∀ st ∈ grains, Spec.Edited c traces st)
    (hsh : ∃ st ∈ grains, Spec.Shared st) (m' : List (InspGrain F))
    (hlen : grains.length ≤ m'.length) :
    loadInsp T (saveInsp T true (grains.map (stateVal f))) m' = .error .valueError := by
  obtain ⟨st, hst, i, j, a, b, hij, ha, hb, he⟩ := hsh
  refine C75_numpy2 hT _ _ (by simpa using hlen) ⟨stateVal f st, List.mem_map_of_mem hst, ?_⟩
  have hnp : b.fromNumpy = true := by
    cases hed st hst with
    | new => exact absurd ha (by simp)
    | draw st p1 p2 _ => exact laterNumpy_groupLines _ _ (j + 1) i j a b hij (by omega) ha hb he
    | remove st st' i' _ hr =>
      unfold removeLine at hr
      cases hp : pyIndex st.lines.length i' with
      | error e => rw [hp] at hr; exact absurd hr (by simp [Except.bind])
      | ok k =>
        rw [hp] at hr
        simp only [Except.bind, Except.ok.injEq] at hr
        rw [← hr] at ha hb
        exact laterNumpy_groupLines _ _ (j + 1) i j a b hij (by omega) ha hb he
    | clear st _ => exact absurd ha (by simp [clearLines])
  intro hn
  have hmem := List.mem_of_getElem? hb
  have hne : (stateVal f st).points ≠ [] := by
    unfold stateVal
    simp only [ne_eq, List.map_eq_nil_iff]
    intro e
    rw [e] at hmem
    exact absurd hmem (by simp)
  have := hn hne (lineVal f b) (by
    unfold stateVal
    exact List.mem_append_left _ (List.mem_map_of_mem hmem))
  simp [lineVal, PyVal.hasNumpy, PyVal.anyNumpy, hnp] at this

/-! ### Non-vacuity -/

/-- Floats that are integers, as Python writes them. -/
def wholeFloats : FloatText Int where
  repr z := intStr z ++ ['.', '0']
  parse s := if ['.', '0'] <:+ s then (parseInt (s.take (s.length - 2))).toOption else none

theorem wholeFloats_lawful : wholeFloats.Lawful where
  parse_repr x := by
    show (if ['.', '0'] <:+ intStr x ++ ['.', '0'] then _ else none) = _
    rw [if_pos (List.suffix_append _ _)]
    have : (intStr x ++ ['.', '0']).take ((intStr x ++ ['.', '0']).length - 2) = intStr x := by
      simp
    show (parseInt ((intStr x ++ ['.', '0']).take ((intStr x ++ ['.', '0']).length - 2))).toOption = _
    rw [this, parseInt_intStr]
    rfl
  chars x c hc := by
    rcases List.mem_append.mp hc with hc | hc
    · exact intStr_lit x c hc
    · simp at hc
      rcases hc with rfl | rfl <;> decide
  notInt x := Or.inl (by show '.' ∈ intStr x ++ ['.', '0']; simp)
  parse_nil := by decide

/-- The text of two lines, of which the second joined the group of the first. -/
example : reprVal wholeFloats false (lineVal (fun q => q.num) ⟨[1, 2, 3, 4], 45, 0, true⟩) =
    lit "[[1.0, 2.0, 3.0, 4.0], 45.0, 0]" := by decide +kernel

example : reprVal wholeFloats true (lineVal (fun q => q.num) ⟨[1, 2, 3, 4], 45, 0, true⟩) =
    lit "[[1.0, 2.0, 3.0, 4.0], 45.0, np.int64(0)]" := by decide +kernel

/-- A grain with two lines in one group, as it is after drawing. -/
example : ∃ st, Spec.Edited 0 [] st ∧ Spec.Shared st := by
  refine ⟨drawAll [3, 11], drawAll_edited _, 0, 1, ?_⟩
  have hd : idsAngles (drawAll [3, 11]) = ([(3, 0), (11, 0)], [7]) := by
    rw [idsAngles_drawAll _ (by decide)]
    decide +kernel
  have hl : (drawAll [3, 11]).lines.map (fun l => (l.angle, l.group)) = [(3, 0), (11, 0)] :=
    (Prod.mk.inj hd).1
  cases h : (drawAll [3, 11]).lines with
  | nil => rw [h] at hl; simp at hl
  | cons a t =>
    cases t with
    | nil => rw [h] at hl; simp at hl
    | cons b t =>
      rw [h] at hl
      simp only [List.map_cons, List.cons.injEq, Prod.mk.injEq] at hl
      exact ⟨a, b, by omega, rfl, rfl, by rw [hl.1.2, hl.2.1.2]⟩

end DefDAP
