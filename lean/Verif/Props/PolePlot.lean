import Verif.Props.EquivIdc
import Verif.Props.Projections
import Verif.Props.FundCubic
import Verif.Proofs.Text

/-! C104: pole plots. -/

namespace DefDAP

open Quat Matrix

/-- One of the two projections of the library. -/
def Spec.IsProjection (proj : ℝ → ℝ → ℝ → ℝ × ℝ) : Prop :=
  (∀ x y z, stereoProject [x, y, z] = .ok (proj x y z)) ∨
  (∀ x y z, lambertProject [x, y, z] = .ok (proj x y z))

/-- There are such functions. -/
example : ∃ p q : ℝ → ℝ → ℝ → ℝ × ℝ, (∀ x y z, stereoProject [x, y, z] = .ok (p x y z)) ∧
    ∀ x y z, lambertProject [x, y, z] = .ok (q x y z) := ⟨_, _, fun _ _ _ => rfl, fun _ _ _ => rfl⟩

theorem projection_scale {proj : ℝ → ℝ → ℝ → ℝ × ℝ} (h : Spec.IsProjection proj) {c : ℝ} (hc : 0 < c)
    (v : Fin 3 → ℝ) : proj (c * v 0) (c * v 1) (c * v 2) = proj (v 0) (v 1) (v 2) := by
  obtain ⟨e1, e2⟩ := C46_scale v c hc
  rcases h with h | h
  · rw [h, h] at e1; exact Except.ok.inj e1
  · rw [h, h] at e2; exact Except.ok.inj e2

theorem polePosition_cubic (dflt : String) (v : Fin 3 → Int) :
    polePosition dflt .cubic (Spec.idc v) = .ok fun i => (v i : ℝ) := asReals_idc v

theorem pole_ca : (1 : ℝ) / 10 ^ 10 ≤ 0.8165 ∧ (0 : ℝ) < 0.8165 := by norm_num

theorem polePosition_hex {dflt : String} {b : Bool} (hl : hexL dflt 0.8165 = .ok (hexMat b 0.8165))
    (v : (Fin 3 → Int) × Int) :
    polePosition dflt .hexagonal (Spec.idc4 v) = .ok (hexMat b 0.8165 *ᵥ dirIdc3 v) := by
  have hne : ¬ ("mb" = "m") := by decide
  simp only [polePosition, projectToOrth, toMiller, convertIdc, convertDir, mb_lower, asReals, Spec.idc4,
    List.map_cons, List.map_nil, if_neg hne, if_true, Except.bind, hl, matVec, dirIdc3]

/-! ### Labels -/

/-- A text and its position belong together: the text is that of a direction which is projected there. -/
def Spec.Labelled (proj : ℝ → ℝ → ℝ → ℝ × ℝ) (dflt : String) (g : SymGroup) (p : ℝ × ℝ) (e : List Int) :
    Prop := ∃ w, polePosition dflt g e = .ok w ∧ p = proj (w 0) (w 1) (w 2)

/-- **C104** Labels of a direction and its symmetric equivalents in a cubic crystal: the texts are those of the
equivalent indices, each where its direction is projected, if the third index is not negative. -/
theorem C104_labels_cubic (proj : ℝ → ℝ → ℝ → ℝ × ℝ) (dflt : String) (nan : Int) (v : Fin 3 → Int)
    (hv : ∀ i, |v i| ≤ 127) :
    ∃ (idc : List (List Int)) (pos : List (ℝ × ℝ)),
      equivalentIdc dflt nan .cubic (symEqv .cubic) (some (Spec.idc v)) none (some 0.8165) none = .ok idc ∧
      labelPoint proj dflt nan .cubic (Spec.idc v) none true =
        .ok (pos.zip (idc.map fun e => idcToString none "tex" e)) ∧
      pos.length = 24 ∧ idc.length = 24 ∧
      (∀ k, 0 < k → ∀ p e, pos[k]? = some p → idc[k]? = some e → Spec.Labelled proj dflt .cubic p e) ∧
      (0 ≤ v 2 → ∀ (k : Nat) p e, pos[k]? = some p → idc[k]? = some e → Spec.Labelled proj dflt .cubic p e) ∧
      (v 2 < 0 → pos.head? = some (proj (v 0) (v 1) (v 2)) ∧ idc.head? = some (Spec.idc (-v))) := by
  obtain ⟨l, h1, -, h3, h4, h5, -⟩ := C103_cubic dflt nan v hv (some 0.8165) none (Or.inl rfl)
  set pts : List (Fin 3 → ℝ) := (fun i => (v i : ℝ)) :: (symEqv .cubic).tail.map fun s =>
    upperVec (transformVector s fun i => (v i : ℝ)) with hp
  have hlen : (symEqv .cubic).length = 24 := by
    show (cubicExact.map Quat.real).length = 24
    rw [List.length_map]; rfl
  have late : ∀ k, 0 < k → ∀ p e, (pts.map fun v => proj (v 0) (v 1) (v 2))[k]? = some p →
      l[k]? = some e → Spec.Labelled proj dflt .cubic p e := by
    intro k hk p e hpk hek
    obtain ⟨k, rfl⟩ : ∃ j, k = j + 1 := ⟨k - 1, by omega⟩
    rw [hp, List.map_cons, List.getElem?_cons_succ, List.getElem?_map, List.getElem?_map,
      List.getElem?_tail] at hpk
    cases hs : (symEqv .cubic)[k + 1]? with
    | none => rw [hs] at hpk; cases hpk
    | some s =>
      rw [hs] at hpk
      obtain ⟨w, hw, e2⟩ := h5 (k + 1) s hs
      rw [hek] at hw
      cases hw
      refine ⟨_, polePosition_cubic dflt w, ?_⟩
      simp only [Option.map_some, Option.some.injEq] at hpk
      rw [← hpk, e2]
  refine ⟨l, pts.map fun v => proj (v 0) (v 1) (v 2), h1, ?_, ?_, h3, late, ?_, ?_⟩
  · unfold labelPoint poleLabels
    rw [polePosition_cubic]
    simp only [Except.bind, h1, Except.map, if_true]
    rfl
  · rw [List.length_map, hp, List.length_cons, List.length_map, List.length_tail, hlen]
  · intro h0 k p e hpk hek
    by_cases hk : 0 < k
    · exact late k hk p e hpk hek
    · obtain rfl : k = 0 := by omega
      rw [← List.head?_eq_getElem?] at hpk hek
      rw [h4] at hek
      cases hek
      have : Spec.up3 v = v := by unfold Spec.up3; rw [if_neg (by omega)]
      rw [this]
      refine ⟨_, polePosition_cubic dflt v, ?_⟩
      rw [hp] at hpk
      simp only [List.map_cons, List.head?_cons, Option.some.injEq] at hpk
      exact hpk.symm
  · intro h0
    refine ⟨by rw [hp]; rfl, ?_⟩
    rw [h4]
    unfold Spec.up3
    rw [if_pos h0]

/-- **C104** The same in a hexagonal crystal. -/
theorem C104_labels_hexagonal (proj : ℝ → ℝ → ℝ → ℝ × ℝ) (hproj : Spec.IsProjection proj) (dflt : String)
    (hdflt : dflt.toLower = "hkl" ∨ dflt.toLower = "oi" ∨ dflt.toLower = "tsl")
    (nan : Int) (v : (Fin 3 → Int) × Int) (hv : Spec.HexIdc v)
    (g : Nat) (hg : 0 < g) (hgv : Spec.HexSmall (Spec.scale g v)) :
    ∃ (idc : List (List Int)) (pos : List (ℝ × ℝ)),
      equivalentIdc dflt nan .hexagonal (symEqv .hexagonal) (some (Spec.idc4 (Spec.scale g v))) none
        (some 0.8165) none = .ok idc ∧
      labelPoint proj dflt nan .hexagonal (Spec.idc4 (Spec.scale g v)) none true =
        .ok (pos.zip (idc.map fun e => idcToString none "tex" e)) ∧
      pos.length = 12 ∧ idc.length = 12 ∧
      (∀ k, 0 < k → ∀ p e, pos[k]? = some p → idc[k]? = some e →
        Spec.Labelled proj dflt .hexagonal p e) ∧
      (0 ≤ v.2 → ∀ (k : Nat) p e, pos[k]? = some p → idc[k]? = some e →
        Spec.Labelled proj dflt .hexagonal p e) := by
  obtain ⟨l, h1, -, h3, h4, h5, -⟩ := C103_hexagonal dflt hdflt nan 0.8165 pole_ca.1 v hv g hg hgv none
    (Or.inl rfl)
  obtain ⟨b, hl⟩ := hexL_mat dflt 0.8165 pole_ca.1 hdflt
  set p0 := hexMat b 0.8165 *ᵥ dirIdc3 (Spec.scale g v) with hp0
  set pts : List (Fin 3 → ℝ) := p0 :: (symEqv .hexagonal).tail.map fun s =>
    upperVec (transformVector s p0) with hp
  have hlen : (symEqv .hexagonal).length = 12 := by
    show (hexagonalExact.map Quat.real).length = 12
    rw [List.length_map]; rfl
  have hg' : (0 : ℝ) < g := by exact_mod_cast hg
  have late : ∀ k, 0 < k → ∀ p e, (pts.map fun v => proj (v 0) (v 1) (v 2))[k]? = some p →
      l[k]? = some e → Spec.Labelled proj dflt .hexagonal p e := by
    intro k hk p e hpk hek
    obtain ⟨k, rfl⟩ : ∃ j, k = j + 1 := ⟨k - 1, by omega⟩
    rw [hp, List.map_cons, List.getElem?_cons_succ, List.getElem?_map, List.getElem?_map,
      List.getElem?_tail] at hpk
    cases hs : (symEqv .hexagonal)[k + 1]? with
    | none => rw [hs] at hpk; cases hpk
    | some s =>
      rw [hs] at hpk
      obtain ⟨w, p1, p2, hw, q1, q2, e2⟩ := h5 (k + 1) s hs
      rw [hek] at hw
      cases hw
      have q1' := polePosition_hex hl (Spec.scale g v)
      have e1 : p1 = p0 := Except.ok.inj (q1.symm.trans q1')
      subst e1
      refine ⟨p2, q2, ?_⟩
      simp only [Option.map_some, Option.some.injEq] at hpk
      rw [← hpk, e2]
      exact projection_scale hproj hg' p2
  refine ⟨l, pts.map fun v => proj (v 0) (v 1) (v 2), h1, ?_, ?_, h3, late, ?_⟩
  · unfold labelPoint poleLabels
    rw [polePosition_hex hl]
    simp only [Except.bind, h1, Except.map, if_true]
    rfl
  · rw [List.length_map, hp, List.length_cons, List.length_map, List.length_tail, hlen]
  · intro h0 k p e hpk hek
    by_cases hk : 0 < k
    · exact late k hk p e hpk hek
    · obtain rfl : k = 0 := by omega
      rw [← List.head?_eq_getElem?] at hpk hek
      rw [h4] at hek
      cases hek
      have : Spec.up4 v = v := by unfold Spec.up4; rw [if_neg (by omega)]
      rw [this]
      refine ⟨_, polePosition_hex hl v, ?_⟩
      rw [hp] at hpk
      simp only [List.map_cons, List.head?_cons, Option.some.injEq] at hpk
      rw [← hpk, hp0]
      have e : hexMat b 0.8165 *ᵥ dirIdc3 (Spec.scale g v) =
          (g : ℝ) • (hexMat b 0.8165 *ᵥ dirIdc3 v) := by
        rw [← Matrix.mulVec_smul]
        congr 1
        funext i
        fin_cases i <;> simp [dirIdc3, Spec.scale] <;> ring
      rw [e]
      exact projection_scale hproj hg' _

/-- **C104** A text of one's own is put at every one of these places. -/
theorem C104_own_label (proj : ℝ → ℝ → ℝ → ℝ × ℝ) (dflt : String) (nan : Int) (g : SymGroup)
    (idc : List Int) (w : Fin 3 → ℝ) (hw : polePosition dflt g idc = .ok w) (text : List Char) :
    labelPoint proj dflt nan g idc (some text) false = .ok [(proj (w 0) (w 1) (w 2), text)] ∧
    labelPoint proj dflt nan g idc none false =
      .ok [(proj (w 0) (w 1) (w 2), idcToString none "tex" idc)] ∧
    ∃ l, labelPoint proj dflt nan g idc (some text) true = .ok l ∧ l.length = (symEqv g).length ∧
      ∀ x ∈ l, x.2 = text := by
  have hne : (symEqv g) ≠ [] := symEqv_ne_nil g
  refine ⟨?_, ?_, ?_⟩
  · simp [labelPoint, hw, poleLabels, Except.bind]
  · simp [labelPoint, hw, poleLabels, Except.bind]
  · refine ⟨((w :: (symEqv g).tail.map fun s => upperVec (transformVector s w)).map
      fun v => proj (v 0) (v 1) (v 2)).zip (List.replicate (symEqv g).length text),
      by simp only [labelPoint, hw, poleLabels, Except.bind, if_true], ?_, ?_⟩
    · rw [List.length_zip, List.length_map, List.length_cons, List.length_map, List.length_tail,
        List.length_replicate]
      have := List.length_pos_of_ne_nil hne
      omega
    · intro x hx
      have := (List.of_mem_zip hx).2
      exact List.eq_of_mem_replicate this

/-! ### Lines -/

/-- **C104** A line is drawn from the projection of its start to that of its end, through `res` points at equal
distances on the chord between the two. -/
theorem C104_line (proj : ℝ → ℝ → ℝ → ℝ × ℝ) (dflt : String) (g : SymGroup) (a b : List Int)
    (u w : Fin 3 → ℝ) (hu : polePosition dflt g a = .ok u) (hw : polePosition dflt g b = .ok w)
    (res : Nat) (hres : 2 ≤ res) :
    ∃ curve, addLine proj dflt g a b false res = .ok [curve] ∧ curve.length = res ∧
      curve.head? = some (proj (u 0) (u 1) (u 2)) ∧ curve.getLast? = some (proj (w 0) (w 1) (w 2)) ∧
      ∀ k < res, ∃ p : Fin 3 → ℝ, curve[k]? = some (proj (p 0) (p 1) (p 2)) ∧
        p = (1 - (k : ℝ) / ((res : ℝ) - 1)) • u + ((k : ℝ) / ((res : ℝ) - 1)) • w := by
  have hr : (0 : ℝ) < (res : ℝ) - 1 := by
    have : (2 : ℝ) ≤ res := by exact_mod_cast hres
    linarith
  have key : ∀ k : Nat, (fun i => open Classical in
      if u i = w i then u i else linspaceAt (u i) (w i) res k) =
      (1 - (k : ℝ) / ((res : ℝ) - 1)) • u + ((k : ℝ) / ((res : ℝ) - 1)) • w := by
    intro k
    funext i
    simp only [Pi.add_apply, Pi.smul_apply, smul_eq_mul]
    by_cases h : u i = w i
    · rw [if_pos h, h]; ring
    · rw [if_neg h]
      unfold linspaceAt
      field_simp
      ring
  have hk : ∀ k < res, ((linePointsOf res (u, w)).map fun v => proj (v 0) (v 1) (v 2))[k]? =
      some ((fun v : Fin 3 → ℝ => proj (v 0) (v 1) (v 2))
        ((1 - (k : ℝ) / ((res : ℝ) - 1)) • u + ((k : ℝ) / ((res : ℝ) - 1)) • w)) := by
    intro k hk
    unfold linePointsOf
    rw [List.getElem?_map, List.getElem?_map, List.getElem?_range hk]
    simp only [Option.map_some]
    rw [← key k]
  have hlen : ((linePointsOf res (u, w)).map fun v => proj (v 0) (v 1) (v 2)).length = res := by
    simp [linePointsOf]
  refine ⟨(linePointsOf res (u, w)).map fun v => proj (v 0) (v 1) (v 2), ?_, hlen, ?_, ?_, ?_⟩
  · simp [addLine, poleLines, hu, hw, Except.bind]
  · rw [List.head?_eq_getElem?, hk 0 (by omega)]
    simp
  · rw [List.getLast?_eq_getElem?, hlen, hk (res - 1) (by omega)]
    have : ((res - 1 : Nat) : ℝ) / ((res : ℝ) - 1) = 1 := by
      rw [Nat.cast_sub (by omega), Nat.cast_one, div_self hr.ne']
    simp [this]
  · intro k h
    exact ⟨_, hk k h, rfl⟩

theorem upperVec_cases (v : Fin 3 → ℝ) :
    (v 2 < 0 ∧ upperVec v = -v) ∨ (0 ≤ v 2 ∧ upperVec v = v) := by
  unfold upperVec
  by_cases h : v 2 < 0
  · exact Or.inl ⟨h, if_pos h⟩
  · exact Or.inr ⟨not_lt.1 h, if_neg h⟩

theorem poleLines_syms {dflt : String} {g : SymGroup} {a b : List Int} {u w : Fin 3 → ℝ}
    (hu : polePosition dflt g a = .ok u) (hw : polePosition dflt g b = .ok w) :
    poleLines dflt g a b true = .ok ((u, w) :: (symEqv g).tail.map fun s =>
      (upperVec (transformVector s u), upperVec (transformVector s w))) := by
  simp only [poleLines, hu, hw, Except.bind, if_true]

/-- **C104** Symmetric equivalents of a line: one more line for each symmetry but the first. If the operator
takes both ends to the same side of the equator, every point of the line drawn is the image of the
corresponding point of the given line under the operator, or its opposite. -/
theorem C104_sym_line (dflt : String) (g : SymGroup) (a b : List Int)
    (u w : Fin 3 → ℝ) (hu : polePosition dflt g a = .ok u) (hw : polePosition dflt g b = .ok w)
    (res : Nat) (hres : 2 ≤ res) :
    ∃ lines, poleLines dflt g a b true = .ok lines ∧ lines.length = (symEqv g).length ∧
      lines.head? = some (u, w) ∧
      ∀ k s, (symEqv g)[k + 1]? = some s → ∃ line, lines[k + 1]? = some line ∧
        ((0 ≤ transformVector s u 2 ∧ 0 ≤ transformVector s w 2) ∨
          (transformVector s u 2 < 0 ∧ transformVector s w 2 < 0) →
        ∀ (j : Nat) p p', (linePointsOf res (u, w))[j]? = some p → (linePointsOf res line)[j]? = some p' →
          p' = upperVec (transformVector s p)) := by
  have hr : (0 : ℝ) < (res : ℝ) - 1 := by
    have : (2 : ℝ) ≤ res := by exact_mod_cast hres
    linarith
  have hpos := List.length_pos_of_ne_nil (symEqv_ne_nil g)
  refine ⟨_, poleLines_syms hu hw, ?_, rfl, ?_⟩
  · rw [List.length_cons, List.length_map, List.length_tail]; omega
  intro k s hs
  refine ⟨(upperVec (transformVector s u), upperVec (transformVector s w)), ?_, ?_⟩
  · rw [List.getElem?_cons_succ, List.getElem?_map, List.getElem?_tail, hs]; rfl
  intro hside j p p' hp hp'
  have hj : j < res := by
    have := (List.getElem?_eq_some_iff.1 hp).1
    simpa [linePointsOf] using this
  unfold linePointsOf at hp hp'
  rw [List.getElem?_map, List.getElem?_range hj] at hp hp'
  simp only [Option.map_some, Option.some.injEq] at hp hp'
  have hn := (symEqv_table g).north s (List.mem_of_getElem? hs)
  set t : ℝ := (j : ℝ) / ((res : ℝ) - 1) with ht
  have t0 : 0 ≤ t := by positivity
  have t1 : t ≤ 1 := by
    rw [ht, div_le_one hr]
    have : (j : ℝ) + 1 ≤ res := by exact_mod_cast hj
    linarith
  have chord : ∀ a b : ℝ, (open Classical in if a = b then a else linspaceAt a b res j) =
      (1 - t) * a + t * b := by
    intro a b
    by_cases h : a = b
    · rw [if_pos h, h]; ring
    · rw [if_neg h]
      unfold linspaceAt
      rw [ht]
      field_simp
      ring
  have hpe : p = (1 - t) • u + t • w := by
    rw [← hp]
    funext i
    simp only [Pi.add_apply, Pi.smul_apply, smul_eq_mul]
    exact chord _ _
  have hT : transformVector s p = (1 - t) • transformVector s u + t • transformVector s w := by
    rw [hpe, transform_matrix s hn, transform_matrix s hn, transform_matrix s hn, Matrix.mulVec_add,
      Matrix.mulVec_smul, Matrix.mulVec_smul]
  have hz : transformVector s p 2 = (1 - t) * transformVector s u 2 + t * transformVector s w 2 := by
    rw [hT]; simp
  have hpe' : p' = (1 - t) • upperVec (transformVector s u) + t • upperVec (transformVector s w) := by
    rw [← hp']
    funext i
    simp only [Pi.add_apply, Pi.smul_apply, smul_eq_mul]
    exact chord _ _
  rcases hside with ⟨h1, h2⟩ | ⟨h1, h2⟩
  · have e1 : upperVec (transformVector s u) = transformVector s u := if_neg (not_lt.2 h1)
    have e2 : upperVec (transformVector s w) = transformVector s w := if_neg (not_lt.2 h2)
    have e3 : upperVec (transformVector s p) = transformVector s p := by
      refine if_neg (not_lt.2 ?_)
      rw [hz]
      have := mul_nonneg (sub_nonneg.2 t1) h1
      have := mul_nonneg t0 h2
      linarith
    rw [hpe', e1, e2, e3, hT]
  · have e1 : upperVec (transformVector s u) = -transformVector s u := if_pos h1
    have e2 : upperVec (transformVector s w) = -transformVector s w := if_pos h2
    have e3 : upperVec (transformVector s p) = -transformVector s p := by
      refine if_pos ?_
      rw [hz]
      rcases eq_or_lt_of_le t0 with h | h
      · rw [← h]; linarith
      · have a1 := mul_nonneg (sub_nonneg.2 t1) (neg_nonneg.2 h1.le)
        have a2 := mul_pos h (neg_pos.2 h2)
        nlinarith
    rw [hpe', e1, e2, e3, hT]
    funext i
    simp only [Pi.add_apply, Pi.smul_apply, Pi.neg_apply, smul_eq_mul]
    ring

theorem cubic_turn : ∃ q ∈ cubicExact.tail, ∀ i j, exactRotT (conjRaw q) i j =
    surdInt (if j = Equiv.swap (0 : Fin 3) 2 i then Spec.sgn ((![false, false, true] : Fin 3 → Bool) i)
      else 0) := by
  decide +kernel

/-- **C104** Otherwise this is false: among the equivalents of the line from [001] to [111] one goes through
[0-11], which is not equivalent to any direction of the line. -/
theorem C104_sym_line_false (dflt : String) :
    ∃ lines line, poleLines dflt .cubic [0, 0, 1] [1, 1, 1] true = .ok lines ∧ line ∈ lines ∧
      (linePointsOf 3 line)[1]? = some (![0, -1 / 2, 1 / 2] : Fin 3 → ℝ) ∧
      ∀ t c : ℝ, 0 < c → ¬ Spec.EqvDir .cubic ![t, t, 1] (c • ![0, -1 / 2, 1 / 2]) := by
  have p1 := polePosition_cubic dflt ![0, 0, 1]
  have p2 := polePosition_cubic dflt ![1, 1, 1]
  obtain ⟨q, hq, h⟩ := cubic_turn
  have hs : q.real ∈ (symEqv .cubic).tail := by
    show q.real ∈ (cubicExact.map Quat.real).tail
    rw [← List.map_tail]
    exact List.mem_map.2 ⟨q, hq, rfl⟩
  have hn := (symEqv_table .cubic).north _ (List.mem_of_mem_tail hs)
  refine ⟨_, (upperVec (transformVector q.real fun i => ((![0, 0, 1] : Fin 3 → Int) i : ℝ)),
    upperVec (transformVector q.real fun i => ((![1, 1, 1] : Fin 3 → Int) i : ℝ))),
    poleLines_syms p1 p2, ?_, ?_, ?_⟩
  · exact List.mem_cons_of_mem _ (List.mem_map.2 ⟨_, hs, rfl⟩)
  · rw [transform_signed hn h, transform_signed hn h, upperVec_int, upperVec_int]
    have e1 : Spec.up3 (Spec.variant (Equiv.swap (0 : Fin 3) 2) ![false, false, true] ![0, 0, 1]) =
        ![1, 0, 0] := by decide
    have e2 : Spec.up3 (Spec.variant (Equiv.swap (0 : Fin 3) 2) ![false, false, true] ![1, 1, 1]) =
        ![-1, -1, 1] := by decide
    rw [e1, e2]
    unfold linePointsOf
    rw [List.getElem?_map, List.getElem?_range (by omega)]
    simp only [Option.map_some]
    congr 1
    funext i
    fin_cases i <;> simp [linspaceAt] <;> norm_num
  · rintro t c hc ⟨s, hs, he⟩
    have hs' := hs
    obtain ⟨τ, hτ⟩ := cubic_components ![t, t, 1] hs
    have habs : ∀ i, |(c • (![0, -1 / 2, 1 / 2] : Fin 3 → ℝ)) (τ i)| = |(![t, t, 1] : Fin 3 → ℝ) i| := by
      intro i
      rcases he with e | e <;> rw [e]
      · exact hτ i
      · rw [Pi.neg_apply, abs_neg]; exact hτ i
    have v0 : ∀ j : Fin 3, |(c • (![0, -1 / 2, 1 / 2] : Fin 3 → ℝ)) j| = if j = 0 then 0 else c / 2 := by
      intro j
      fin_cases j
      · simp
      · simp [abs_mul, abs_of_pos hc]; ring
      · simp [abs_mul, abs_of_pos hc]; ring
    have h0 := habs 0
    have h1 := habs 1
    have h2 := habs 2
    rw [v0] at h0 h1 h2
    simp only [Matrix.cons_val_zero, Matrix.cons_val_one, Matrix.cons_val, abs_one] at h0 h1 h2
    have n2 : τ 2 ≠ 0 := by
      intro e; rw [if_pos e] at h2; norm_num at h2
    have c2 : c / 2 = 1 := by rw [if_neg n2] at h2; exact h2
    have : τ 0 = 0 ∨ τ 1 = 0 := by
      obtain ⟨i, hi⟩ := τ.surjective 0
      fin_cases i
      · exact Or.inl hi
      · exact Or.inr hi
      · exact absurd hi n2
    rcases this with e | e
    · have ne : τ 1 ≠ 0 := fun h => by
        have := τ.injective (e.trans h.symm)
        exact absurd this (by decide)
      rw [if_pos e] at h0
      rw [if_neg ne] at h1
      linarith
    · have ne : τ 0 ≠ 0 := fun h => by
        have := τ.injective (h.trans e.symm)
        exact absurd this (by decide)
      rw [if_neg ne] at h0
      rw [if_pos e] at h1
      linarith

/-! ### The triangle of inverse pole figures -/

/-- A direction inside the spherical triangle of three others. -/
def Spec.InTriangle (a b c v : Fin 3 → ℝ) : Prop :=
  ∃ x y z : ℝ, 0 ≤ x ∧ 0 ≤ y ∧ 0 ≤ z ∧ v = x • a + y • b + z • c

theorem forall₂_both {α β : Type} {P Q : α → β → Prop} {l : List α} {m : List β}
    (h : List.Forall₂ P l m) (h' : List.Forall₂ Q l m) : List.Forall₂ (fun a b => P a b ∧ Q a b) l m := by
  induction h with
  | nil => exact .nil
  | cons a _ ih =>
    cases h' with
    | cons b t => exact .cons ⟨a, b⟩ (ih t)

theorem forall₂_right {α β : Type} {P : α → β → Prop} {l : List α} {m : List β}
    (h : List.Forall₂ P l m) : ∀ b ∈ m, ∃ a, P a b := by
  induction h with
  | nil => simp
  | cons a _ ih =>
    intro b hb
    rcases List.mem_cons.1 hb with rfl | hb
    · exact ⟨_, a⟩
    · exact ih b hb

theorem mapM_three {α β : Type} {f : α → Except Err β} {x y z : α} {a b c : β}
    (h : [x, y, z].mapM f = .ok [a, b, c]) : f x = .ok a ∧ f y = .ok b ∧ f z = .ok c := by
  simp only [List.mapM_cons, List.mapM_nil] at h
  cases hx : f x with
  | error e => rw [hx] at h; cases h
  | ok x' =>
    cases hy : f y with
    | error e => rw [hx, hy] at h; cases h
    | ok y' =>
      cases hz : f z with
      | error e => rw [hx, hy, hz] at h; cases h
      | ok z' =>
        rw [hx, hy, hz] at h
        cases h
        exact ⟨rfl, rfl, rfl⟩

theorem corners_cubic (dflt triangle : String) :
    (ipfCorners .cubic triangle).mapM (polePosition dflt .cubic) =
      .ok [![0, 0, 1], ![0, 1, 1], ![-1, 1, 1]] := by
  have h := fun v : Fin 3 → Int => polePosition_cubic dflt v
  have h1 := h ![0, 0, 1]
  have h2 := h ![0, 1, 1]
  have h3 := h ![-1, 1, 1]
  have e : ∀ v : Fin 3 → Int, (fun i => (v i : ℝ)) = ![(v 0 : ℝ), (v 1 : ℝ), (v 2 : ℝ)] := by
    intro v; funext i; fin_cases i <;> rfl
  rw [e] at h1 h2 h3
  simp only [Spec.idc, Matrix.cons_val_zero, Matrix.cons_val_one, Matrix.cons_val] at h1 h2 h3
  simp only [ipfCorners, List.mapM_cons, List.mapM_nil, h1, h2, h3]
  simp [bind, Except.bind, pure, Except.pure]

/-- **C104** The triangle drawn for cubic crystals has the fundamental directions in it, except for directions
exactly along a cube axis (see C45). -/
theorem C104_triangle_cubic (dflt triangle : String) (quats : List (Quat ℝ)) (hq : ∀ q ∈ quats, q.IsUnit)
    (d : Fin 3 → ℝ) (hd : d ≠ 0) :
    ∃ a b c out, (ipfCorners .cubic triangle).mapM (polePosition dflt .cubic) = .ok [a, b, c] ∧
      calcFundDirs .cubic triangle quats d = .ok out ∧
      List.Forall₂ (fun q ab => ((∀ i, |Spec.inCrystal q d i| ≠ 1) →
        Spec.InTriangle a b c (Spec.poleDir ab)) ∧
        ((∃ i, |Spec.inCrystal q d i| = 1) → ¬ Spec.InTriangle a b c (Spec.poleDir ab))) quats out := by
  obtain ⟨out, h1, h2⟩ := C45_cubic triangle quats hq d hd
  obtain ⟨out', h1', h3⟩ := C45_cube_axis triangle quats hq d hd
  rw [h1] at h1'
  cases h1'
  refine ⟨_, _, _, out, corners_cubic dflt triangle, h1, ?_⟩
  have key : ∀ v : Fin 3 → ℝ, Spec.CubicTriangle v ↔
      Spec.InTriangle ![0, 0, 1] ![0, 1, 1] ![-1, 1, 1] v := by
    intro v
    constructor
    · rintro ⟨a, b, c⟩
      refine ⟨v 2 - v 1, v 1 + v 0, -v 0, by linarith, by linarith, by linarith, ?_⟩
      funext i
      fin_cases i <;> simp <;> ring
    · rintro ⟨x, y, z, hx, hy, hz, rfl⟩
      refine ⟨?_, ?_, ?_⟩ <;> simp <;> linarith
  refine (forall₂_both h2 h3).imp ?_
  rintro q ab ⟨⟨-, -, -, h⟩, h'⟩
  exact ⟨fun h0 => (key _).1 (h h0), fun h0 ht => (h' h0).2 ((key _).2 ht)⟩

theorem corners_hex {dflt : String} {b : Bool} (hl : hexL dflt 0.8165 = .ok (hexMat b 0.8165))
    (triangle : String) :
    (ipfCorners .hexagonal triangle).mapM (polePosition dflt .hexagonal) =
      .ok [hexMat b 0.8165 *ᵥ ![0, 0, 1], hexMat b 0.8165 *ᵥ ![0, 3, 0],
        hexMat b 0.8165 *ᵥ if triangle = "down" then ![1, 2, 0] else ![-1, 1, 0]] := by
  have h := fun v : (Fin 3 → Int) × Int => polePosition_hex hl v
  have h1 := h (![0, 0, 0], 1)
  have h2 := h (![-1, 2, -1], 0)
  have h3 := h (![-1, 1, 0], 0)
  have h4 := h (![0, 1, -1], 0)
  have c1 : dirIdc3 (![0, 0, 0], 1) = ![0, 0, 1] := by
    funext i; fin_cases i <;> simp [dirIdc3]
  have c2 : dirIdc3 (![-1, 2, -1], 0) = ![0, 3, 0] := by
    funext i; fin_cases i <;> simp [dirIdc3]; norm_num
  have c3 : dirIdc3 (![-1, 1, 0], 0) = ![-1, 1, 0] := by
    funext i; fin_cases i <;> simp [dirIdc3]
  have c4 : dirIdc3 (![0, 1, -1], 0) = ![1, 2, 0] := by
    funext i; fin_cases i <;> simp [dirIdc3]; norm_num
  rw [c1] at h1
  rw [c2] at h2
  rw [c3] at h3
  rw [c4] at h4
  simp only [Spec.idc4, Matrix.cons_val_zero, Matrix.cons_val_one, Matrix.cons_val] at h1 h2 h3 h4
  unfold ipfCorners
  simp only
  split <;> rename_i ht
  · simp only [List.mapM_cons, List.mapM_nil, h1, h2, h4]
    simp [bind, Except.bind, pure, Except.pure]
  · simp only [List.mapM_cons, List.mapM_nil, h1, h2, h3]
    simp [bind, Except.bind, pure, Except.pure]

/-- The azimuth in terms of components. -/
theorem azimuth_up {b : ℝ} (h1 : Real.pi / 2 ≤ b) (h2 : b ≤ 2 * Real.pi / 3) :
    Real.cos b ≤ 0 ∧ 0 ≤ Real.sin b + Real.sqrt 3 * Real.cos b ∧
      (b < 2 * Real.pi / 3 → 0 < Real.sin b + Real.sqrt 3 * Real.cos b) := by
  have hpi := Real.pi_pos
  have e : Real.sin b + Real.sqrt 3 * Real.cos b = 2 * Real.sin (b + Real.pi / 3) := by
    rw [Real.sin_add, Real.cos_pi_div_three, Real.sin_pi_div_three]; ring
  refine ⟨Real.cos_nonpos_of_pi_div_two_le_of_le h1 (by linarith), ?_, fun h => ?_⟩
  · rw [e]
    have := Real.sin_nonneg_of_nonneg_of_le_pi (x := b + Real.pi / 3) (by linarith) (by linarith)
    linarith
  · rw [e]
    have := Real.sin_pos_of_pos_of_lt_pi (x := b + Real.pi / 3) (by linarith) (by linarith)
    linarith

theorem azimuth_down {b : ℝ} (h1 : Real.pi / 3 ≤ b) (h2 : b ≤ Real.pi / 2) :
    0 ≤ Real.cos b ∧ (b < Real.pi / 2 → 0 < Real.cos b) ∧
      0 ≤ Real.sin b - Real.sqrt 3 * Real.cos b := by
  have hpi := Real.pi_pos
  have e : Real.sin b - Real.sqrt 3 * Real.cos b = 2 * Real.sin (b - Real.pi / 3) := by
    rw [Real.sin_sub, Real.cos_pi_div_three, Real.sin_pi_div_three]; ring
  refine ⟨Real.cos_nonneg_of_mem_Icc ⟨by linarith, h2⟩,
    fun h => Real.cos_pos_of_mem_Ioo ⟨by linarith, h⟩, ?_⟩
  rw [e]
  have := Real.sin_nonneg_of_nonneg_of_le_pi (x := b - Real.pi / 3) (by linarith) (by linarith)
  linarith

/-- **C104** The triangle drawn for hexagonal crystals has the fundamental directions in it, if the Cartesian
axes are those of the 'hkl' convention. -/
theorem C104_triangle_hexagonal (dflt : String) (hdflt : dflt.toLower = "hkl" ∨ dflt.toLower = "oi")
    {triangle : String} (ht : triangle = "up" ∨ triangle = "down")
    (quats : List (Quat ℝ)) (hq : ∀ q ∈ quats, q.IsUnit) (d : Fin 3 → ℝ) (hd : d ≠ 0)
    (hoff : ∀ q ∈ quats, Spec.inCrystal q d 0 ≠ 0 ∨ Spec.inCrystal q d 1 ≠ 0) :
    ∃ a b c out, (ipfCorners .hexagonal triangle).mapM (polePosition dflt .hexagonal) = .ok [a, b, c] ∧
      calcFundDirs .hexagonal triangle quats d = .ok out ∧
      ∀ ab ∈ out, Spec.InTriangle a b c (Spec.poleDir ab) := by
  obtain ⟨out, h1, h2⟩ := C45_hexagonal ht quats hq d hd hoff
  have hl : hexL dflt 0.8165 = .ok (hexMat false 0.8165) := (hexL_eq dflt 0.8165 pole_ca.1).1 hdflt
  refine ⟨_, _, _, out, corners_hex hl triangle, h1, ?_⟩
  intro ab hab
  obtain ⟨q, -, ⟨a0, a1⟩, b0, b1⟩ := forall₂_right h2 ab hab
  have hs : 0 ≤ Real.sin ab.1 := Real.sin_nonneg_of_nonneg_of_le_pi a0 (by linarith [Real.pi_pos])
  have hc : 0 ≤ Real.cos ab.1 := Real.cos_nonneg_of_mem_Icc ⟨by linarith, a1⟩
  have h3 := Real.sqrt_pos.2 (by norm_num : (0 : ℝ) < 3)
  have h33 : Real.sqrt 3 * Real.sqrt 3 = 3 := Real.mul_self_sqrt (by norm_num)
  have hne : ¬ ("up" = "down") := by decide
  have hne' : ¬ ("down" = "up") := by decide
  rcases ht with rfl | rfl
  · simp only [Spec.hexBounds, if_true] at b0 b1
    obtain ⟨c1, c2, -⟩ := azimuth_up b0 b1
    refine ⟨Real.cos ab.1 / 0.8165, Real.sin ab.1 * (Real.sin ab.2 + Real.sqrt 3 * Real.cos ab.2) / 3,
      Real.sin ab.1 * (-2 * Real.cos ab.2 / Real.sqrt 3), by positivity, by positivity, ?_, ?_⟩
    · refine mul_nonneg hs (div_nonneg (by linarith) h3.le)
    · rw [if_neg hne]
      funext i
      fin_cases i <;>
        simp [Spec.poleDir, hexMat, hexHkl, Matrix.mulVec, dotProduct, Fin.sum_univ_three] <;>
        field_simp
      linear_combination (-(Real.sin ab.1 * Real.cos ab.2)) * h33
  · simp only [Spec.hexBounds, if_neg hne'] at b0 b1
    obtain ⟨c1, -, c2⟩ := azimuth_down b0 b1
    refine ⟨Real.cos ab.1 / 0.8165, Real.sin ab.1 * (Real.sin ab.2 - Real.sqrt 3 * Real.cos ab.2) / 3,
      Real.sin ab.1 * (2 * Real.cos ab.2 / Real.sqrt 3), by positivity, by positivity, by positivity, ?_⟩
    rw [if_pos rfl]
    funext i
    fin_cases i <;>
      simp [Spec.poleDir, hexMat, hexHkl, Matrix.mulVec, dotProduct, Fin.sum_univ_three] <;>
      field_simp
    linear_combination (Real.sin ab.1 * Real.cos ab.2) * h33

/-- **C104** With the 'tsl' convention this is false of every direction but those on one edge: the triangle is
drawn 30 degrees away from the directions. -/
theorem C104_triangle_tsl (dflt : String) (hdflt : dflt.toLower = "tsl")
    {triangle : String} (ht : triangle = "up" ∨ triangle = "down")
    (quats : List (Quat ℝ)) (hq : ∀ q ∈ quats, q.IsUnit) (d : Fin 3 → ℝ) (hd : d ≠ 0)
    (hoff : ∀ q ∈ quats, Spec.inCrystal q d 0 ≠ 0 ∨ Spec.inCrystal q d 1 ≠ 0) :
    ∃ a b c out, (ipfCorners .hexagonal triangle).mapM (polePosition dflt .hexagonal) = .ok [a, b, c] ∧
      calcFundDirs .hexagonal triangle quats d = .ok out ∧
      ∀ ab ∈ out, ab.1 ≠ 0 → ab.2 < (Spec.hexBounds triangle).2 →
        ¬ Spec.InTriangle a b c (Spec.poleDir ab) := by
  obtain ⟨out, h1, h2⟩ := C45_hexagonal ht quats hq d hd hoff
  have hl : hexL dflt 0.8165 = .ok (hexMat true 0.8165) := (hexL_eq dflt 0.8165 pole_ca.1).2 hdflt
  refine ⟨_, _, _, out, corners_hex hl triangle, h1, ?_⟩
  intro ab hab hne0 hlt
  obtain ⟨q, -, ⟨a0, a1⟩, b0, b1⟩ := forall₂_right h2 ab hab
  have hs : 0 < Real.sin ab.1 := Real.sin_pos_of_pos_of_lt_pi
    (lt_of_le_of_ne a0 (Ne.symm hne0)) (by linarith [Real.pi_pos])
  have h3 := Real.sqrt_pos.2 (by norm_num : (0 : ℝ) < 3)
  have h33 : Real.sqrt 3 * Real.sqrt 3 = 3 := Real.mul_self_sqrt (by norm_num)
  have hne : ¬ ("up" = "down") := by decide
  have hne' : ¬ ("down" = "up") := by decide
  rintro ⟨x, y, z, hx, hy, hz, e⟩
  have e0 := congrFun e 0
  have e1 := congrFun e 1
  rcases ht with rfl | rfl
  · simp only [Spec.hexBounds, if_true] at b0 b1 hlt
    obtain ⟨-, -, c⟩ := azimuth_up b0 b1
    have c := mul_pos hs (c hlt)
    rw [if_neg hne] at e0 e1
    simp [Spec.poleDir, hexMat, hexTsl, Matrix.mulVec, dotProduct, Fin.sum_univ_three] at e0 e1
    rw [mul_add, mul_left_comm, e0, e1] at c
    nlinarith
  · simp only [Spec.hexBounds, if_neg hne'] at b0 b1 hlt
    obtain ⟨-, c, -⟩ := azimuth_down b0 b1
    have c := mul_pos hs (c hlt)
    rw [if_pos rfl] at e0
    simp [Spec.poleDir, hexMat, hexTsl, Matrix.mulVec, dotProduct, Fin.sum_univ_three] at e0
    rw [e0] at c
    nlinarith

/-- **C104** What is drawn as the frame of an inverse pole figure: the three sides of the triangle and the
indices of its corners, each at its corner. -/
theorem C104_axis (proj : ℝ → ℝ → ℝ → ℝ × ℝ) (dflt : String) (nan : Int) (g : SymGroup)
    (triangle : String) (a b c : Fin 3 → ℝ)
    (h : (ipfCorners g triangle).mapM (polePosition dflt g) = .ok [a, b, c]) :
    ∃ curves labels, addAxis proj dflt nan g triangle = .ok (curves, labels) ∧
      labels = ([a, b, c].map fun v => proj (v 0) (v 1) (v 2)).zip
        ((ipfCorners g triangle).map fun e => idcToString none "tex" e) ∧
      List.Forall₂ (fun (uv : (Fin 3 → ℝ) × (Fin 3 → ℝ)) curve => curve.length = 100 ∧
        curve.head? = some (proj (uv.1 0) (uv.1 1) (uv.1 2)) ∧
        curve.getLast? = some (proj (uv.2 0) (uv.2 1) (uv.2 2))) [(a, b), (a, c), (b, c)] curves := by
  obtain ⟨x, y, z, hxyz⟩ : ∃ x y z, ipfCorners g triangle = [x, y, z] := by
    unfold ipfCorners
    cases g with
    | cubic => exact ⟨_, _, _, rfl⟩
    | hexagonal => simp only; split <;> exact ⟨_, _, _, rfl⟩
  rw [hxyz] at h
  obtain ⟨hx, hy, hz⟩ := mapM_three h
  obtain ⟨c1, k1, l1, f1, g1, -⟩ := C104_line proj dflt g x y a b hx hy 100 (by omega)
  obtain ⟨c2, k2, l2, f2, g2, -⟩ := C104_line proj dflt g x z a c hx hz 100 (by omega)
  obtain ⟨c3, k3, l3, f3, g3, -⟩ := C104_line proj dflt g y z b c hy hz 100 (by omega)
  have m1 := (C104_own_label proj dflt nan g x a hx []).2.1
  have m2 := (C104_own_label proj dflt nan g y b hy []).2.1
  have m3 := (C104_own_label proj dflt nan g z c hz []).2.1
  refine ⟨[c1, c2, c3], _, ?_, rfl, .cons ⟨l1, f1, g1⟩ (.cons ⟨l2, f2, g2⟩ (.cons ⟨l3, f3, g3⟩ .nil))⟩
  · unfold addAxis ipfLines
    simp only [hxyz, List.mapM_cons, List.mapM_nil, List.getD_cons_zero, List.getD_cons_succ, k1, k2, k3,
      m1, m2, m3]
    simp [bind, Except.bind, pure, Except.pure]

/-! ### Points and projections -/

/-- **C104** Points: without colours one layer of markers, with two colours one layer for each, and any other
number of colours is an error. A single colour is refused too, which the documentation allows. -/
theorem C104_points (size : Option Nat) (a b : String) (n : Nat) :
    addPoints .none size = .ok [none] ∧
    addPoints (.list [a, b]) (some n) = .ok [some a, some b] ∧
    addPoints (.list [a, b]) none = .error .typeError ∧
    addPoints (.one a) size = .error .exception ∧
    ∀ l : List String, l.length ≠ 2 → addPoints (.list l) size = .error .exception := by
  refine ⟨rfl, rfl, rfl, rfl, fun l hl => ?_⟩
  match l, hl with
  | [], _ | [_], _ | _ :: _ :: _ :: _, _ => rfl
  | [_, _], h => exact absurd rfl h

/-- The names of the projections. -/
def Spec.projNames : List (String × Projection) :=
  [("lambert", .lambert), ("equalarea", .lambert), ("stereographic", .stereo), ("stereo", .stereo),
   ("equalangle", .stereo)]

/-- **C104** The choice of the projection: a name counts without regard to spaces and capitals, a function is
taken as it is, and everything else means the configured projection. A configuration that is not a projection
is an error even if a valid projection is given. -/
theorem C104_projection (conf p : ProjArg) :
    (∀ d, chooseProj none conf = .ok d →
      (∀ n pr s, (n, pr) ∈ Spec.projNames → (s.filter fun c => c ≠ ' ').map Char.toLower = lit n →
        validateProjection conf (.name s) = .ok pr) ∧
      (∀ s, (∀ n pr, (n, pr) ∈ Spec.projNames → (s.filter fun c => c ≠ ' ').map Char.toLower ≠ lit n) →
        validateProjection conf (.name s) = .ok d) ∧
      (∀ n, validateProjection conf (.func n) = .ok (.custom n)) ∧
      validateProjection conf .none = .ok d ∧ validateProjection conf .other = .ok d) ∧
    (∀ e, chooseProj none conf = .error e → e = .valueError ∧
      validateProjection conf p = .error .valueError) ∧
    (chooseProj none conf = .error .valueError ↔ conf = .none ∨ conf = .other ∨
      ∃ s, conf = .name s ∧
        ∀ n pr, (n, pr) ∈ Spec.projNames → (s.filter fun c => c ≠ ' ').map Char.toLower ≠ lit n) := by
  have known : ∀ n pr s, (n, pr) ∈ Spec.projNames →
      (s.filter fun c => c ≠ ' ').map Char.toLower = lit n → projName s = some pr := by
    intro n pr s hn hs
    unfold projName
    simp only [hs]
    simp only [Spec.projNames, List.mem_cons, Prod.mk.injEq, List.not_mem_nil, or_false] at hn
    rcases hn with ⟨rfl, rfl⟩ | ⟨rfl, rfl⟩ | ⟨rfl, rfl⟩ | ⟨rfl, rfl⟩ | ⟨rfl, rfl⟩ <;> decide
  have unknown : ∀ s : Str, projName s = none ↔ ∀ n pr, (n, pr) ∈ Spec.projNames →
      (s.filter fun c => c ≠ ' ').map Char.toLower ≠ lit n := by
    intro s
    constructor
    · intro h n pr hn e
      rw [known n pr s hn e] at h
      cases h
    · intro h
      unfold projName
      simp only
      rw [if_neg, if_neg]
      · rintro (e | e | e)
        · exact h "stereographic" .stereo (by simp [Spec.projNames]) e
        · exact h "stereo" .stereo (by simp [Spec.projNames]) e
        · exact h "equalangle" .stereo (by simp [Spec.projNames]) e
      · rintro (e | e)
        · exact h "lambert" .lambert (by simp [Spec.projNames]) e
        · exact h "equalarea" .lambert (by simp [Spec.projNames]) e
  refine ⟨fun d hd => ⟨fun n pr s hn hs => ?_, fun s hs => ?_, fun n => ?_, ?_, ?_⟩, fun e he => ?_, ?_⟩
  · rw [validateProjection, hd]
    simp [Except.bind, chooseProj, known n pr s hn hs]
  · rw [validateProjection, hd]
    simp [Except.bind, chooseProj, (unknown s).2 hs]
  · rw [validateProjection, hd]
    simp [Except.bind, chooseProj]
  · rw [validateProjection, hd]
    simp [Except.bind, chooseProj]
  · rw [validateProjection, hd]
    simp [Except.bind, chooseProj]
  · have : e = .valueError := by
      unfold chooseProj at he
      split at he <;> cases he
      rfl
    subst this
    exact ⟨rfl, by rw [validateProjection, he]; rfl⟩
  · cases conf with
    | none => simp [chooseProj]
    | other => simp [chooseProj]
    | func n => simp [chooseProj]
    | name s =>
      have := unknown s
      simp only [reduceCtorEq, false_or, ProjArg.name.injEq, exists_eq_left', ← this]
      simp only [chooseProj, Option.or_none]
      cases h : projName s <;> simp

example : validateProjection (.name (lit "lambert")) (.name (lit "Equal Angle")) = .ok .stereo := by
  decide

end DefDAP
