import Verif.Model.SlipTexts
import Verif.Props.Indices
import Verif.Props.MechSession

/-!
C123: texts about slip systems.
-/

namespace DefDAP

open Quat Matrix Spec

/-! ### Specification: what is printed -/

/-- An index: its digits, with a bar over the last one (`U+0305`) if it is negative. -/
def Spec.indexText (i : Int) : List Char :=
  Nat.toDigits 10 i.natAbs ++ if i < 0 then ['\u0305'] else []

/-- An index for TeX: `$\bar{1}$` for -1. -/
def Spec.indexTex (i : Int) : List Char :=
  if i < 0 then "$\\bar{".toList ++ Nat.toDigits 10 i.natAbs ++ "}$".toList else Nat.toDigits 10 i.natAbs

/-- A plane, such as `(111)`. -/
def Spec.planeText (idc : List Int) : List Char := "(".toList ++ idc.flatMap Spec.indexText ++ ")".toList

/-- A direction, such as `[110]`. -/
def Spec.dirText (idc : List Int) : List Char := "[".toList ++ idc.flatMap Spec.indexText ++ "]".toList

/-- The line of plane `k`. -/
def Spec.planeRow (k : Nat) (idc : List Int) (colour : List Char) : List Char :=
  "Plane ".toList ++ Nat.toDigits 10 k ++ ": ".toList ++ Spec.planeText idc ++ "\tColour: ".toList ++ colour

/-- The line of direction `j`. -/
def Spec.dirRow (j : Nat) (idc : List Int) : List Char :=
  "  Direction ".toList ++ Nat.toDigits 10 j ++ ": ".toList ++ Spec.dirText idc

theorem strIdx_text (i : Int) : strIdx "unicode" i = Spec.indexText i := by
  unfold strIdx Spec.indexText
  rw [if_neg (by decide : ¬ ("unicode" = "tex"))]
  by_cases h : 0 ≤ i
  · rw [if_pos h, if_neg (by omega), List.append_nil]
  · rw [if_neg h, if_pos (by omega)]
    rfl

theorem strIdx_tex (i : Int) : strIdx "tex" i = Spec.indexTex i := by
  unfold strIdx Spec.indexTex
  rw [if_pos rfl]
  by_cases h : 0 ≤ i
  · rw [if_pos h, if_neg (by omega)]
  · rw [if_neg h, if_pos (by omega)]
    rfl

/-- **C53 (text).** The label of indices: the indices one after the other, negative ones with a bar over
them, between the brackets. -/
theorem C53_text (a b : Char) (idc : List Int) :
    idcToString none "unicode" idc = idc.flatMap Spec.indexText ∧
    idcToString none "tex" idc = idc.flatMap Spec.indexTex ∧
    idcToString (some (a, b)) "unicode" idc = a :: idc.flatMap Spec.indexText ++ [b] ∧
    idcToString (some (a, b)) "tex" idc = a :: idc.flatMap Spec.indexTex ++ [b] := by
  have h1 : (idc.map (strIdx "unicode")).flatten = idc.flatMap Spec.indexText := by
    rw [List.flatMap_def]
    exact congrArg (fun f => (idc.map f).flatten) (funext strIdx_text)
  have h2 : (idc.map (strIdx "tex")).flatten = idc.flatMap Spec.indexTex := by
    rw [List.flatMap_def]
    exact congrArg (fun f => (idc.map f).flatten) (funext strIdx_tex)
  unfold idcToString
  rw [h1, h2]
  exact ⟨rfl, rfl, rfl, rfl⟩

example : Spec.planeText [1, -1, 0] = ['(', '1', '1', '\u0305', '0', ')'] := by decide +kernel

/-- **C123 (labels).** The labels and the text of a slip system. -/
theorem C123_labels (s : SlipSystem) : planeLabel s = Spec.planeText s.planeIdc ∧
    dirLabel s = Spec.dirText s.dirIdc ∧
    slipStr s = Spec.planeText s.planeIdc ++ Spec.dirText s.dirIdc := by
  have h1 : planeLabel s = Spec.planeText s.planeIdc := (C53_text '(' ')' s.planeIdc).2.2.1
  have h2 : dirLabel s = Spec.dirText s.dirIdc := (C53_text '[' ']' s.dirIdc).2.2.1
  refine ⟨h1, h2, ?_⟩
  unfold slipStr
  rw [h1, h2]

theorem strIdx_no_bracket (i : Int) (h1 : -9 ≤ i) (h2 : i ≤ 9) : ')' ∉ strIdx "unicode" i := by
  have : i = -9 ∨ i = -8 ∨ i = -7 ∨ i = -6 ∨ i = -5 ∨ i = -4 ∨ i = -3 ∨ i = -2 ∨ i = -1 ∨ i = 0 ∨ i = 1 ∨ i = 2 ∨
    i = 3 ∨ i = 4 ∨ i = 5 ∨ i = 6 ∨ i = 7 ∨ i = 8 ∨ i = 9 := by omega
  rcases this with rfl | rfl | rfl | rfl | rfl | rfl | rfl | rfl | rfl | rfl | rfl | rfl | rfl | rfl | rfl | rfl |
    rfl | rfl | rfl <;> decide +kernel

/-- Two texts with a mark after them that they do not have. -/
theorem append_mark_inj {α : Type} (m : α) (a b c d : List α) (ha : m ∉ a) (hb : m ∉ b)
    (h : a ++ m :: c = b ++ m :: d) : a = b ∧ c = d := by
  induction a generalizing b with
  | nil =>
    cases b with
    | nil => simp at h; exact ⟨rfl, h⟩
    | cons x b =>
      simp at h
      exact absurd (h.1 ▸ List.mem_cons_self) hb
  | cons y a ih =>
    cases b with
    | nil =>
      simp at h
      exact absurd (h.1 ▸ List.mem_cons_self) ha
    | cons x b =>
      simp only [List.cons_append, List.cons.injEq] at h
      obtain ⟨h1, h2⟩ := ih b (fun hm => ha (List.mem_cons_of_mem _ hm)) (fun hm => hb (List.mem_cons_of_mem _ hm)) h.2
      exact ⟨by rw [h.1, h1], h2⟩

theorem text_no_bracket (idc : List Int) (h : Spec.SingleDigits idc) :
    ')' ∉ (idc.map (strIdx "unicode")).flatten := by
  intro hc
  obtain ⟨l, hl, hm⟩ := List.mem_flatten.1 hc
  obtain ⟨i, hi, rfl⟩ := List.mem_map.1 hl
  have := h i hi
  exact strIdx_no_bracket i this.1 this.2 hm

/-- **C123 (text of a slip system).** Slip systems with indices between -9 and 9 have the same text only if they have
the same indices of plane and direction. -/
theorem C123_str (s t : SlipSystem) (hs : Spec.SingleDigits s.planeIdc ∧ Spec.SingleDigits s.dirIdc)
    (ht : Spec.SingleDigits t.planeIdc ∧ Spec.SingleDigits t.dirIdc) (h : slipStr s = slipStr t) :
    s.planeIdc = t.planeIdc ∧ s.dirIdc = t.dirIdc := by
  unfold slipStr planeLabel dirLabel idcToString at h
  simp only [List.cons_append, List.nil_append, List.append_assoc, List.cons.injEq, true_and] at h
  obtain ⟨h1, h2⟩ := append_mark_inj ')' _ _ _ _ (text_no_bracket _ hs.1) (text_no_bracket _ ht.1) h
  refine ⟨text_inj "unicode" _ _ hs.1 ht.1 h1, ?_⟩
  simp only [List.cons.injEq, true_and] at h2
  exact text_inj "unicode" _ _ hs.2 ht.2 (List.append_cancel_right h2)

/-- **C123 (false for larger indices).** Different slip systems with two digit indices can have the same text. -/
theorem C123_str_ambiguous : ∃ s t : SlipSystem, s.planeIdc ≠ t.planeIdc ∧ slipStr s = slipStr t :=
  ⟨⟨[1, 11, 0], [0, 0, 1], ![0, 0, 1], ![0, 0, 1], none⟩, ⟨[11, 1, 0], [0, 0, 1], ![0, 0, 1], ![0, 0, 1], none⟩,
    by show [1, 11, 0] ≠ [11, 1, 0]; decide, by
      show idcToString _ _ [1, 11, 0] ++ idcToString _ _ [0, 0, 1] =
        idcToString _ _ [11, 1, 0] ++ idcToString _ _ [0, 0, 1]
      decide +kernel⟩

/-- The number of lines for planes. -/
def Spec.lineCount (gs : List (List SlipSystem)) : Nat := (gs.map fun g => g.length + 1).sum

theorem slipLines_spec (gs : List (List SlipSystem)) (hne : [] ∉ gs) (cs : List (List Char)) (i : Nat) :
    (slipLines i gs cs).2 = none ∧ (slipLines i gs cs).1.length = Spec.lineCount (gs.take cs.length) ∧
    ∀ (k : Nat) (grp : List SlipSystem) (s : SlipSystem) (c : List Char), gs[k]? = some grp → grp.head? = some s →
      cs[k]? = some c →
      (slipLines i gs cs).1[Spec.lineCount (gs.take k)]? = some (planeLine (i + k) (planeLabel s) c) ∧
      ∀ (j : Nat) (t : SlipSystem), grp[j]? = some t →
        (slipLines i gs cs).1[Spec.lineCount (gs.take k) + 1 + j]? = some (dirLine j (dirLabel t)) := by
  induction gs generalizing cs i with
  | nil =>
    refine ⟨rfl, ?_, fun k grp s c hk => ?_⟩
    · rw [List.take_nil]; rfl
    · rw [List.getElem?_nil] at hk; cases hk
  | cons g gs ih =>
    cases cs with
    | nil =>
      refine ⟨rfl, rfl, fun k grp s c _ _ hc => ?_⟩
      rw [List.getElem?_nil] at hc; cases hc
    | cons c cs =>
      cases g with
      | nil => exact absurd List.mem_cons_self hne
      | cons s rest =>
        obtain ⟨h1, h2, h3⟩ := ih (fun hc => hne (List.mem_cons_of_mem _ hc)) cs (i + 1)
        have e : slipLines i ((s :: rest) :: gs) (c :: cs) =
            ((planeLine i (planeLabel s) c :: (s :: rest).mapIdx fun j t => dirLine j (dirLabel t)) ++
              (slipLines (i + 1) gs cs).1, (slipLines (i + 1) gs cs).2) := rfl
        have hl : (planeLine i (planeLabel s) c :: (s :: rest).mapIdx fun j t => dirLine j (dirLabel t)).length =
            (s :: rest).length + 1 := by
          rw [List.length_cons, List.length_mapIdx]
        rw [e]
        refine ⟨h1, ?_, ?_⟩
        · rw [List.length_append, hl, h2]
          rfl
        · intro k grp s' c' hk hs hc
          cases k with
          | zero =>
            simp only [List.getElem?_cons_zero, Option.some.injEq] at hk hc
            subst hk
            subst hc
            simp only [List.head?_cons, Option.some.injEq] at hs
            subst hs
            refine ⟨rfl, fun j t ht => ?_⟩
            show ((_ :: _) ++ _)[0 + 1 + j]? = _
            have hj : j < (s :: rest).length := (List.getElem?_eq_some_iff.1 ht).1
            rw [List.getElem?_append_left (by rw [hl]; omega), show 0 + 1 + j = j + 1 by omega,
              List.getElem?_cons_succ, List.getElem?_mapIdx, ht]
            rfl
          | succ k =>
            rw [List.getElem?_cons_succ] at hk hc
            obtain ⟨h4, h5⟩ := h3 k grp s' c' hk hs hc
            have e2 : Spec.lineCount (((s :: rest) :: gs).take (k + 1)) =
                ((s :: rest).length + 1) + Spec.lineCount (gs.take k) := by
              rw [List.take_succ_cons]; rfl
            rw [e2]
            refine ⟨?_, fun j t ht => ?_⟩
            · rw [List.getElem?_append_right (by rw [hl]; omega), hl, Nat.add_sub_cancel_left, h4,
                show i + 1 + k = i + (k + 1) by omega]
            · rw [List.getElem?_append_right (by rw [hl]; omega), hl,
                show (s :: rest).length + 1 + Spec.lineCount (gs.take k) + 1 + j - ((s :: rest).length + 1) =
                  Spec.lineCount (gs.take k) + 1 + j by omega]
              exact h5 j t ht

/-- **C123 (listing).** The listing of the slip systems of a phase has for each plane, up to the number of colours, a
line with its number, label and colour, and after it a line for each of its directions with number and label; it
has no other lines. The numbers are those by which planes and directions are chosen elsewhere. -/
theorem C123_listing (gs : List (List SlipSystem)) (hne : [] ∉ gs) (cs : List (List Char)) :
    (printSlipSystems (some (gs, cs))).2 = none ∧
    (printSlipSystems (some (gs, cs))).1.length = Spec.lineCount (gs.take cs.length) ∧
    ∀ (k : Nat) (grp : List SlipSystem) (s : SlipSystem) (c : List Char), gs[k]? = some grp → grp.head? = some s →
      cs[k]? = some c →
      (printSlipSystems (some (gs, cs))).1[Spec.lineCount (gs.take k)]? = some (Spec.planeRow k s.planeIdc c) ∧
      ∀ (j : Nat) (t : SlipSystem), grp[j]? = some t →
        (printSlipSystems (some (gs, cs))).1[Spec.lineCount (gs.take k) + 1 + j]? =
          some (Spec.dirRow j t.dirIdc) := by
  have := slipLines_spec gs hne cs 0
  simp only [Nat.zero_add, (C123_labels _).1, (C123_labels _).2.1] at this
  exact this

/-- **C123 (no slip systems).** For a phase without slip systems the listing is a `TypeError`. -/
theorem C123_no_systems : printSlipSystems none = ([], some .typeError) := rfl

theorem slipTraces_ok (r : Quat ℝ) (slip : List (List SlipSystem)) (hne : [] ∉ slip) :
    ∃ ts, slipTraces r slip = .ok ts ∧
      List.Forall₂ (fun grp t => ∃ s, grp.head? = some s ∧ t = slipTrace r s.normal) slip ts := by
  unfold slipTraces
  induction slip with
  | nil => exact ⟨[], rfl, .nil⟩
  | cons g slip ih =>
    obtain ⟨ts, h1, h2⟩ := ih fun hc => hne (List.mem_cons_of_mem _ hc)
    cases g with
    | nil => exact absurd List.mem_cons_self hne
    | cons s rest =>
      refine ⟨slipTrace r s.normal :: ts, ?_, .cons ⟨s, rfl, rfl⟩ h2⟩
      rw [List.mapM_cons, h1]
      rfl

theorem traceBlocks_spec (slip : List (List SlipSystem)) (hne : [] ∉ slip) (cs : List (List Char))
    (fs : List (List ℝ)) (ts : List (ℝ × ℝ)) :
    ∃ bs, traceBlocks slip cs fs ts = .ok bs ∧
      bs.length = min (min slip.length cs.length) (min fs.length ts.length) ∧
      ∀ (k : Nat) (grp : List SlipSystem) (s : SlipSystem) (c : List Char) (f : List ℝ) (t : ℝ × ℝ),
        slip[k]? = some grp → grp.head? = some s → cs[k]? = some c → fs[k]? = some f → ts[k]? = some t →
        bs[k]? = some ⟨planeLabel s, c, t.1 * 180 / Real.pi, (grp.map dirLabel).zip f⟩ := by
  induction slip generalizing cs fs ts with
  | nil =>
    refine ⟨[], rfl, by simp, fun k grp s c f t hk => ?_⟩
    rw [List.getElem?_nil] at hk; cases hk
  | cons g slip ih =>
    cases cs with
    | nil =>
      refine ⟨[], rfl, by simp, fun k grp s c f t _ _ hc => ?_⟩
      rw [List.getElem?_nil] at hc; cases hc
    | cons c cs =>
      cases fs with
      | nil =>
        refine ⟨[], rfl, by simp, fun k grp s c f t _ _ _ hc => ?_⟩
        rw [List.getElem?_nil] at hc; cases hc
      | cons f fs =>
        cases ts with
        | nil =>
          refine ⟨[], rfl, by simp, fun k grp s c f t _ _ _ _ hc => ?_⟩
          rw [List.getElem?_nil] at hc; cases hc
        | cons t ts =>
          cases g with
          | nil => exact absurd List.mem_cons_self hne
          | cons s rest =>
            obtain ⟨bs, h1, h2, h3⟩ := ih (fun hc => hne (List.mem_cons_of_mem _ hc)) cs fs ts
            refine ⟨⟨planeLabel s, c, t.1 * 180 / Real.pi, ((s :: rest).map dirLabel).zip f⟩ :: bs, ?_, ?_, ?_⟩
            · rw [traceBlocks, h1]
              rfl
            · simp only [List.length_cons, h2]
              omega
            · intro k grp s' c' f' t' hk hs hc hf ht
              cases k with
              | zero =>
                simp only [List.getElem?_cons_zero, Option.some.injEq] at hk hc hf ht
                subst hk hc hf ht
                simp only [List.head?_cons, Option.some.injEq] at hs
                subst hs
                rfl
              | succ k => exact h3 k grp s' c' f' t' hk hs hc hf ht

theorem forall2_zip_left {α β γ : Type} (R : α → β → Prop) (f : α → γ) (l : List α) (m : List β)
    (h : List.Forall₂ R l m) : List.Forall₂ (fun a p => p.1 = f a ∧ R a p.2) l ((l.map f).zip m) := by
  induction h with
  | nil => exact .nil
  | cons h1 _ ih => exact .cons ⟨rfl, h1⟩ ih

/-- **C123 (listing of a grain).** With Schmid factors for the slip systems of the phase and a colour for each plane,
the listing of a grain has one entry for each plane in order: its label and colour, the angle of its trace for the
orientation in degrees, and the label and Schmid factor of each of its systems. -/
theorem C123_traces (r : Quat ℝ) (load : Fin 3 → ℝ) (slip : List (List SlipSystem)) (hne : [] ∉ slip)
    (cs : List (List Char)) (hc : slip.length ≤ cs.length) (sf : List (List ℝ))
    (hsf : Spec.IsSchmid r load slip sf) :
    ∃ bs, printSlipTraces r slip cs (some sf) = .ok bs ∧
      List.Forall₂ (fun grp b => ∃ s, grp.head? = some s ∧ b.plane = Spec.planeText s.planeIdc ∧
        b.angle = (slipTrace r s.normal).1 * 180 / Real.pi ∧
        List.Forall₂ (fun (t : SlipSystem) (row : List Char × ℝ) => row.1 = Spec.dirText t.dirIdc ∧ row.2 =
          |(transformVector r load ⬝ᵥ t.normal) * (transformVector r load ⬝ᵥ t.slip)|) grp b.rows) slip bs ∧
      bs.map TraceBlock.colour = cs.take slip.length := by
  obtain ⟨ts, h1, h2⟩ := slipTraces_ok r slip hne
  obtain ⟨bs, h3, h4, h5⟩ := traceBlocks_spec slip hne cs sf ts
  have l1 := hsf.length_eq
  have l2 := h2.length_eq
  have hbl : bs.length = slip.length := by rw [h4]; omega
  obtain ⟨_, h2⟩ := List.forall₂_iff_get.1 h2
  obtain ⟨_, hsf⟩ := List.forall₂_iff_get.1 hsf
  have hget : ∀ (k : Nat) (hk : k < slip.length), ∃ s c, slip[k].head? = some s ∧ cs[k]? = some c ∧
      bs[k]? = some ⟨planeLabel s, c, (slipTrace r s.normal).1 * 180 / Real.pi,
        (slip[k].map dirLabel).zip (sf[k]'(by omega))⟩ := by
    intro k hk
    obtain ⟨s, hs, ht⟩ := h2 k hk (by omega)
    have hck : k < cs.length := by omega
    refine ⟨s, cs[k], hs, List.getElem?_eq_getElem hck, ?_⟩
    have := h5 k slip[k] s cs[k] (sf[k]'(by omega)) (ts[k]'(by omega)) (List.getElem?_eq_getElem hk) hs
      (List.getElem?_eq_getElem hck) (List.getElem?_eq_getElem (by omega)) (List.getElem?_eq_getElem (by omega))
    rw [this]
    have ht : ts[k]'(by omega) = slipTrace r s.normal := ht
    rw [ht]
  refine ⟨bs, ?_, ?_, ?_⟩
  · unfold printSlipTraces
    simp only [h1, Except.bind]
    exact h3
  · rw [List.forall₂_iff_get]
    refine ⟨hbl.symm, fun k hk hk' => ?_⟩
    obtain ⟨s, c, hs, hck, hb⟩ := hget k hk
    obtain ⟨_, hb⟩ := List.getElem?_eq_some_iff.1 hb
    have hb : bs.get ⟨k, hk'⟩ = _ := hb
    rw [hb]
    refine ⟨s, hs, (C123_labels s).1, rfl, ?_⟩
    have := forall2_zip_left _ dirLabel _ _ (hsf k hk (by omega))
    simp only [(C123_labels _).2.1] at this ⊢
    exact this
  · apply List.ext_getElem?
    intro k
    rw [List.getElem?_map]
    by_cases hk : k < slip.length
    · obtain ⟨s, c, hs, hck, hb⟩ := hget k hk
      rw [hb, List.getElem?_take_of_lt hk, hck]
      rfl
    · rw [List.getElem?_eq_none (by omega), List.getElem?_eq_none (by rw [List.length_take]; omega)]
      rfl

/-- **C123 (without factors).** Without Schmid factors the listing of a grain is an exception. -/
theorem C123_no_factors (r : Quat ℝ) (slip : List (List SlipSystem)) (hne : [] ∉ slip) (cs : List (List Char)) :
    printSlipTraces r slip cs none = .error .exception := by
  obtain ⟨ts, h1, _⟩ := slipTraces_ok r slip hne
  unfold printSlipTraces
  simp only [h1, Except.bind]

/-- **C123 (false for factors of other slip systems).** If the Schmid factors were calculated for slip systems given by
the user, they are listed by position with the labels of the slip systems of the phase: a system with factor 0 is
listed with 1. -/
theorem C123_other_systems : ∃ (r : Quat ℝ) (load : Fin 3 → ℝ) (slip other : List (List SlipSystem))
    (cs : List (List Char)) (sf : List (List ℝ)) (bs : List TraceBlock) (s : SlipSystem),
    Quat.IsUnit r ∧ slip = [[s]] ∧ Spec.IsSchmid r load other sf ∧ printSlipTraces r slip cs (some sf) = .ok bs ∧
    bs.map TraceBlock.rows = [[(dirLabel s, 1)]] ∧ Spec.IsSchmid r load slip [[0]] := by
  have hT : transformVector ⟨1, 0, 0, 0⟩ ![(1 : ℝ), 1, 0] = ![1, 1, 0] := by
    funext k
    fin_cases k <;> norm_num [transformVector, mul, mulRaw, make, conjugate, Matrix.cons_val_two, Matrix.tail_cons, Matrix.head_cons]
  refine ⟨⟨1, 0, 0, 0⟩, ![1, 1, 0], [[⟨[0, 0, 1], [1, 0, 0], ![0, 0, 1], ![1, 0, 0], none⟩]],
    [[⟨[1, 0, 0], [0, 1, 0], ![1, 0, 0], ![0, 1, 0], none⟩]], [['r']], [[1]], [⟨planeLabel ⟨[0, 0, 1], [1, 0, 0], ![0, 0, 1], ![1, 0, 0], none⟩, ['r'],
      (slipTrace ⟨1, 0, 0, 0⟩ ![0, 0, 1]).1 * 180 / Real.pi,
      [(dirLabel ⟨[0, 0, 1], [1, 0, 0], ![0, 0, 1], ![1, 0, 0], none⟩, 1)]⟩], _, ?_, rfl, ?_, ?_, ?_, ?_⟩
  · unfold Quat.IsUnit; norm_num
  · refine .cons (.cons ?_ .nil) .nil
    rw [hT]
    norm_num [dotProduct, Fin.sum_univ_three, Matrix.cons_val_two, Matrix.tail_cons, Matrix.head_cons]
  · rfl
  · rfl
  · refine .cons (.cons ?_ .nil) .nil
    rw [hT]
    norm_num [dotProduct, Fin.sum_univ_three, Matrix.cons_val_two, Matrix.tail_cons, Matrix.head_cons]

/-- Two planes with two and one directions. -/
example : let s : SlipSystem := ⟨[1, 1, 1], [1, -1, 0], ![1, 0, 0], ![0, 1, 0], none⟩
    [] ∉ [[s, s], [s]] ∧ Spec.lineCount [[s, s], [s]] = 5 ∧
    (printSlipSystems (some ([[s, s], [s]], [['r'], ['b']]))).1.length = 5 := by
  refine ⟨?_, rfl, rfl⟩
  intro h
  simp only [List.mem_cons, List.not_mem_nil, or_false] at h
  rcases h with h | h <;> cases h

end DefDAP
