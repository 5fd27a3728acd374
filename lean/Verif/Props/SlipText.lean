import Verif.Model.SlipText
import Verif.Spec.SlipText
import Verif.Proofs.NumText
import Verif.Props.SlipFiles

/-!
C130: slip system files are read as they are written.
-/

namespace DefDAP

open Spec

theorem intercalate_cons2 (sep a b : Str) (t : List Str) :
    sep.intercalate (a :: b :: t) = a ++ (sep ++ sep.intercalate (b :: t)) := by
  simp [List.intercalate, List.intersperse]

theorem splitSep_intercalate {sep : Char} (l : List Str) (hne : l ≠ []) (h : ∀ a ∈ l, sep ∉ a) :
    splitSep sep ([sep].intercalate l) = l := by
  induction l with
  | nil => exact absurd rfl hne
  | cons a t ih =>
    cases t with
    | nil =>
      have := splitSep_one (h a (by simp))
      simpa [List.intercalate] using this
    | cons b t =>
      rw [intercalate_cons2, List.singleton_append, splitSep_cons (h a (by simp)),
        ih (by simp) (fun x hx => h x (List.mem_cons_of_mem _ hx))]

theorem mem_intercalate {sep : Char} {l : List Str} {x : Char} (hx : x ∈ [sep].intercalate l) :
    x = sep ∨ ∃ a ∈ l, x ∈ a := by
  induction l with
  | nil => simp [List.intercalate] at hx
  | cons a t ih =>
    cases t with
    | nil =>
      right
      exact ⟨a, by simp, by simpa [List.intercalate] using hx⟩
    | cons b t =>
      rw [intercalate_cons2] at hx
      simp only [List.mem_append, List.mem_singleton] at hx
      rcases hx with hx | hx | hx
      · exact Or.inr ⟨a, by simp, hx⟩
      · exact Or.inl hx
      · rcases ih hx with h | ⟨c, hc, h⟩
        · exact Or.inl h
        · exact Or.inr ⟨c, List.mem_cons_of_mem _ hc, h⟩

theorem cell_chars (c : Cell) {x : Char} (hx : x ∈ c.text) : x = ' ' ∨ numChar x = true := by
  simp only [Cell.text, List.mem_append] at hx
  rcases hx with hx | hx | hx
  · exact Or.inl (List.eq_of_mem_replicate hx)
  · exact Or.inr (intStr_num _ x hx)
  · exact Or.inl (List.eq_of_mem_replicate hx)

theorem cell_ne (c : Cell) : c.text ≠ [] := by
  intro h
  simp only [Cell.text, List.append_eq_nil_iff] at h
  exact intStr_ne _ h.2.1

theorem cell_read (c : Cell) (h : -128 ≤ c.value ∧ c.value ≤ 127) : cellInt8 c.text = .ok c.value := by
  have hs : strip c.text = intStr c.value := by
    unfold Cell.text
    rw [← List.append_assoc]
    refine strip_pad ?_ ?_ ?_
    · intro x hx; rw [List.eq_of_mem_replicate hx]; decide
    · intro x hx; rw [List.eq_of_mem_replicate hx]; decide
    · constructor
      · intro x r e
        exact numChar_ws (intStr_num c.value x (by rw [e]; simp))
      · intro x r e
        exact numChar_ws (intStr_num c.value x (by rw [e]; simp))
  have h2 := parseInt_intStr c.value
  unfold cellInt8
  have : parseInt c.text = parseInt (intStr c.value) := by
    unfold parseInt
    rw [hs, trimmed_num (intStr_num c.value)]
  rw [this, h2]
  simp only [Except.bind]
  rw [if_pos h]

theorem notTab {x : Char} (h : x = ' ' ∨ numChar x = true) : x ≠ '\t' ∧ x ≠ '\n' ∧ x ≠ '#' := by
  rcases h with rfl | h
  · decide
  · refine ⟨?_, ?_, ?_⟩ <;> rintro rfl <;> exact absurd h (by decide)

/-- The part of a line that is read: the cells. -/
theorem dataPart_line (l : SlipLine) :
    dataPart (l.text ++ ['\n']) = ['\t'].intercalate (l.cells.map Cell.text) := by
  have ha : ∀ x ∈ ['\t'].intercalate (l.cells.map Cell.text),
      (decide (x ≠ '\n') && decide (x ≠ '#')) = true := by
    intro x hx
    rcases mem_intercalate hx with rfl | ⟨a, ha, hx⟩
    · decide
    · obtain ⟨c, -, rfl⟩ := List.mem_map.mp ha
      have := notTab (cell_chars c hx)
      simp [this.2.1, this.2.2]
  unfold dataPart SlipLine.text
  cases l.comment with
  | none =>
    simp only [List.append_nil]
    exact (takeWhile_stop ha (c := '\n') (by decide)).1
  | some c =>
    simp only [List.append_assoc, List.cons_append]
    exact (takeWhile_stop ha (c := '#') (by decide)).1

theorem intercalate_isEmpty (l : List Cell) :
    (['\t'].intercalate (l.map Cell.text)).isEmpty = (l.map Cell.value).isEmpty := by
  cases l with
  | nil => rfl
  | cons a t =>
    have : ['\t'].intercalate ((a :: t).map Cell.text) ≠ [] := by
      cases t with
      | nil => simpa [List.intercalate] using cell_ne a
      | cons b t =>
        rw [List.map_cons, List.map_cons, intercalate_cons2]
        simp [cell_ne a]
    cases h : ['\t'].intercalate ((a :: t).map Cell.text) with
    | nil => exact absurd h this
    | cons => rfl

theorem rows_read (lines : List SlipLine)
    (hv : ∀ l ∈ lines, ∀ c ∈ l.cells, -128 ≤ c.value ∧ c.value ≤ 127) :
    (((lines.map fun l => l.text ++ ['\n']).map dataPart).filter fun l => !l.isEmpty).mapM
      (fun l => (splitSep '\t' l).mapM cellInt8) = .ok (slipFileRows lines) := by
  induction lines with
  | nil => rfl
  | cons l t ih =>
    have ih := ih fun x hx => hv x (List.mem_cons_of_mem _ hx)
    unfold slipFileRows at ih ⊢
    rw [List.map_cons, List.map_cons, List.map_cons, List.filter_cons, List.filter_cons,
      dataPart_line, intercalate_isEmpty]
    change (if (!l.numbers.isEmpty) = true then _ else _ : List Str).mapM _ = _
    by_cases he : (!l.numbers.isEmpty) = true
    · rw [if_pos he, if_pos he, List.mapM_cons, ih]
      have hne : l.cells.map Cell.text ≠ [] := by
        intro h0
        have : l.cells = [] := List.map_eq_nil_iff.mp h0
        simp [SlipLine.numbers, this] at he
      rw [splitSep_intercalate _ hne]
      · have : (l.cells.map Cell.text).mapM cellInt8 = .ok l.numbers := by
          unfold SlipLine.numbers
          have hc := hv l (by simp)
          generalize l.cells = cs at hc
          induction cs with
          | nil => rfl
          | cons c cs ih2 =>
            rw [List.map_cons, List.mapM_cons, cell_read c (hc c (by simp)),
              ih2 (fun x hx => hc x (List.mem_cons_of_mem _ hx))]
            rfl
        rw [this]
        rfl
      · intro a ha
        obtain ⟨c, -, rfl⟩ := List.mem_map.mp ha
        exact fun hx => (notTab (cell_chars c hx)).1 rfl
    · rw [if_neg he, if_neg he]
      exact ih

theorem colours_read {colours : List Str} (hne : colours ≠ [])
    (hc : ∀ c ∈ colours, c ≠ [] ∧ ∀ x ∈ c, x ≠ ',' ∧ isWs x = false) :
    splitSep ',' (strip ([','].intercalate colours ++ ['\n'])) = colours := by
  have hall : ∀ x ∈ [','].intercalate colours, isWs x = false := by
    intro x hx
    rcases mem_intercalate hx with rfl | ⟨a, ha, hx⟩
    · decide
    · exact ((hc a ha).2 x hx).2
  have hs : strip ([','].intercalate colours ++ ['\n']) = [','].intercalate colours := by
    have := strip_pad (a := []) (t := [','].intercalate colours) (b := ['\n']) (by simp)
      (by intro c h; rw [List.mem_singleton.mp h]; decide)
      ⟨fun x r e => hall x (by rw [e]; simp), fun x r e => hall x (by rw [e]; simp)⟩
    simpa using this
  rw [hs, splitSep_intercalate _ hne]
  exact fun a ha hx => ((hc a ha).2 _ hx).1 rfl

/-- **C130** A slip system file is read as it is written: whatever the title, the comments, the empty
lines and the spaces around the numbers, the colours and the rows of numbers are those written, in
order. -/
theorem C130_written {title : Str} {colours : List Str} {lines : List SlipLine}
    (hok : SlipFileOk title colours lines) :
    readSlipText (slipFileText title colours lines) =
      .ok ⟨colours.map String.ofList, slipFileRows lines⟩ := by
  have hl : linesOf (slipFileText title colours lines) =
      ([title, [','].intercalate colours] ++ lines.map SlipLine.text).map fun l => l ++ ['\n'] := by
    refine linesOf_flatten ?_
    intro l hl
    rcases List.mem_append.mp hl with h | h
    · rcases List.mem_cons.mp h with rfl | h
      · exact hok.oneLine
      · rw [List.mem_singleton.mp h]
        intro hx
        rcases mem_intercalate hx with h | ⟨a, ha, hx⟩
        · exact absurd h (by decide)
        · exact absurd ((hok.colour a ha).2 _ hx).2 (by decide)
    · obtain ⟨s, hs, rfl⟩ := List.mem_map.mp h
      intro hx
      rcases List.mem_append.mp hx with hx | hx
      · rcases mem_intercalate hx with h | ⟨a, ha, hx⟩
        · exact absurd h (by decide)
        · obtain ⟨c, -, rfl⟩ := List.mem_map.mp ha
          exact (notTab (cell_chars c hx)).2.1 rfl
      · cases hc : s.comment with
        | none => rw [hc] at hx; simp at hx
        | some c =>
          rw [hc] at hx
          rcases List.mem_cons.mp hx with h | h
          · exact absurd h (by decide)
          · exact hok.comment s hs c hc h
  unfold readSlipText textRows textColours
  rw [hl]
  have hr := rows_read lines hok.value
  simp only [List.cons_append, List.nil_append, List.map_cons, List.drop_succ_cons, List.drop_zero,
    List.getElem?_cons_succ, List.getElem?_cons_zero, Option.getD_some, List.map_map] at hr ⊢
  have e : (lines.map ((fun l => l ++ ['\n']) ∘ SlipLine.text)) = lines.map fun l => l.text ++ ['\n'] := rfl
  rw [colours_read hok.some hok.colour]
  simp only [Function.comp_def] at hr ⊢
  rw [hr]
  rfl

/-! ### The last line break -/

theorem linesOf_snoc (t : Str) : linesOf (t ++ ['\n']) = linesOf t ++ [['\n']] ∨
    ∃ L x, linesOf t = L ++ [x] ∧ linesOf (t ++ ['\n']) = L ++ [x ++ ['\n']] := by
  induction t with
  | nil => left; rfl
  | cons c t ih =>
    by_cases hc : c = '\n'
    · simp only [List.cons_append, linesOf, if_pos hc]
      rcases ih with h | ⟨L, x, h1, h2⟩
      · left; rw [h]
      · right; exact ⟨['\n'] :: L, x, by rw [h1]; rfl, by rw [h2]; rfl⟩
    · simp only [List.cons_append, linesOf, if_neg hc]
      rcases ih with h | ⟨L, x, h1, h2⟩
      · rw [h]
        cases h3 : linesOf t with
        | nil => right; exact ⟨[], [c], rfl, rfl⟩
        | cons a r => left; rfl
      · rw [h1, h2]
        cases L with
        | nil => right; exact ⟨[], c :: x, rfl, rfl⟩
        | cons a L => right; exact ⟨(c :: a) :: L, x, rfl, rfl⟩

theorem dataPart_break (x : Str) : dataPart (x ++ ['\n']) = dataPart x := by
  unfold dataPart
  induction x with
  | nil => rfl
  | cons c t ih =>
    rw [List.cons_append, List.takeWhile_cons, List.takeWhile_cons, ih]

theorem strip_break (x : Str) : strip (x ++ ['\n']) = strip x := by
  obtain ⟨a, b, h1, h2, h3, h4⟩ := strip_spec x
  have h := strip_pad (a := a) (t := strip x) (b := b ++ ['\n']) h2
    (by
      intro c hc
      rcases List.mem_append.mp hc with hc | hc
      · exact h3 c hc
      · rw [List.mem_singleton.mp hc]; decide) h4
  rw [← h]
  congr 1
  conv_lhs => rw [h1]
  simp only [List.append_assoc]

/-- **C130** A line break at the end of the file makes no difference. -/
theorem C130_last_break (text : Str) : readSlipText (text ++ ['\n']) = readSlipText text := by
  unfold readSlipText
  have hrows : ∀ F G : List Str, (G = F ++ [['\n']] ∨ ∃ L x, F = L ++ [x] ∧ G = L ++ [x ++ ['\n']]) →
      textRows G = textRows F ∧ textColours G = textColours F := by
    rintro F G (rfl | ⟨L, x, rfl, rfl⟩)
    · constructor
      · unfold textRows
        congr 1
        rw [List.drop_append, List.map_append, List.filter_append]
        have : ((([['\n']] : List Str).drop (2 - F.length)).map dataPart).filter
            (fun l => !l.isEmpty) = [] := by
          rcases (2 - F.length) with _ | n
          · rfl
          · simp
        rw [this, List.append_nil]
      · unfold textColours
        by_cases h : 1 < F.length
        · rw [List.getElem?_append_left h]
        · rw [List.getElem?_append_right (by omega), List.getElem?_eq_none (l := F) (by omega)]
          rcases (1 - F.length) with _ | n
          · rfl
          · rfl
    · constructor
      · unfold textRows
        congr 1
        rw [List.drop_append, List.drop_append, List.map_append, List.map_append]
        congr 2
        rcases (2 - L.length) with _ | n
        · simp [dataPart_break]
        · rfl
      · unfold textColours
        by_cases h : 1 < L.length
        · rw [List.getElem?_append_left h, List.getElem?_append_left h]
        · rw [List.getElem?_append_right (by omega), List.getElem?_append_right (by omega)]
          rcases (1 - L.length) with _ | n
          · simp [strip_break]
          · rfl
  obtain ⟨h1, h2⟩ := hrows _ _ (linesOf_snoc text)
  rw [h1, h2]

/-! ### Loading -/

variable {fs fs' : Str → Option Str} {packageDir name text : Str} {dflt : String} {cs : CrystalName}
  {ca : Option ℝ}

/-- **C130** From the text to the slip systems: a file in the directory of the package with at least
two rows, each with the three (hexagonal: four) indices of the plane and of the direction, gives one
slip system per row, with the row's indices, and the colours. -/
theorem C130_loaded {title : Str} {colours : List Str} {lines : List SlipLine}
    (hfs : fs (packageDir ++ lit "/slip_systems/" ++ name ++ lit ".txt") =
      some (slipFileText title colours lines))
    (hok : SlipFileOk title colours lines) (hl : Spec.Loadable dflt cs ca)
    (h2 : 2 ≤ (slipFileRows lines).length)
    (hr : ∀ row ∈ slipFileRows lines, row.length = 2 * Spec.indexCount cs) :
    ∃ gs, loadSlipNamed fs packageDir dflt cs ca name = .ok (gs, colours.map String.ofList) ∧
      (gs.flatten.map fun ss => ss.planeIdc ++ ss.dirIdc).Perm (slipFileRows lines) ∧
      (∀ ss ∈ gs.flatten, ss.planeIdc.length = Spec.indexCount cs) ∧
      (∀ g ∈ gs, ∀ a ∈ g, ∀ b ∈ g, Spec.SameLine a.planeIdc b.planeIdc) := by
  obtain ⟨l, gs, h3, h4, h5, h6⟩ := loadSlip_ok dflt cs ca hl ⟨colours.map String.ofList, slipFileRows lines⟩
    h2 hr
  obtain ⟨p1, -, -, p2, -⟩ := C55_partition l gs h4
  refine ⟨gs, ?_, ?_, ?_, p2⟩
  · unfold loadSlipNamed findSlipText slipPath
    rw [hfs]
    simp only [Except.bind, C130_written hok]
    exact h3
  · refine (p1.map _).trans (List.Perm.of_eq ?_)
    have := congrArg (List.map fun pd : List Int × List Int => pd.1 ++ pd.2) h5
    simpa [List.map_map, Function.comp_def] using this
  · intro ss hss
    have hm : (ss.planeIdc, ss.dirIdc) ∈ l.map fun ss => (ss.planeIdc, ss.dirIdc) :=
      List.mem_map.mpr ⟨ss, p1.mem_iff.mp hss, rfl⟩
    rw [h5] at hm
    obtain ⟨row, hrow, he⟩ := List.mem_map.mp hm
    have := hr row hrow
    simp only [Prod.mk.injEq] at he
    rw [← he.1, List.length_take, this]
    omega

/-- **C130** A file of the package is read whatever else there is: a file of the same name in the
working directory is never read instead. A name that is not in the package is a path. If there is no
such file either, the load fails. -/
theorem C130_found :
    (fs (packageDir ++ lit "/slip_systems/" ++ name ++ lit ".txt") ≠ none →
      fs' (packageDir ++ lit "/slip_systems/" ++ name ++ lit ".txt") =
        fs (packageDir ++ lit "/slip_systems/" ++ name ++ lit ".txt") →
      loadSlipNamed fs' packageDir dflt cs ca name = loadSlipNamed fs packageDir dflt cs ca name) ∧
    (fs (packageDir ++ lit "/slip_systems/" ++ name ++ lit ".txt") = none → fs name = some text →
      fs' (packageDir ++ lit "/slip_systems/" ++ name ++ lit ".txt") = some text →
      loadSlipNamed fs packageDir dflt cs ca name = loadSlipNamed fs' packageDir dflt cs ca name) ∧
    (fs (packageDir ++ lit "/slip_systems/" ++ name ++ lit ".txt") = none → fs name = none →
      loadSlipNamed fs packageDir dflt cs ca name = .error .fileNotFoundError) := by
  refine ⟨?_, ?_, ?_⟩
  · intro h1 h2
    unfold loadSlipNamed findSlipText slipPath
    rw [h2]
    cases h3 : fs (packageDir ++ lit "/slip_systems/" ++ name ++ lit ".txt") with
    | none => exact absurd h3 h1
    | some t => rfl
  · intro h1 h2 h3
    unfold loadSlipNamed findSlipText slipPath
    rw [h1, h2, h3]
  · intro h1 h2
    unfold loadSlipNamed findSlipText slipPath
    rw [h1, h2]
    rfl

deriving instance DecidableEq for SlipFile

theorem shipped_read : shippedTexts.map (fun nt => (nt.1, (readSlipText nt.2).toOption)) =
    [("cubic_fcc", some fccFile), ("cubic_fcc_damask", some fccDamaskFile),
     ("cubic_bcc", some bccFile), ("cubic_bcc_110only", some bcc110File),
     ("hexagonal_noca", some hexNocaFile), ("hexagonal_withca", some hexWithcaFile)] := by
  decide +kernel

theorem ok_of_toOption {ε α : Type} {x : Except ε α} {a : α} (h : x.toOption = some a) : x = .ok a := by
  cases x with
  | error e => cases h
  | ok b => cases h; rfl

/-- **C130** The texts of the files that come with the package give the slip systems of the tables that
the other properties of slip system files are about. -/
theorem C130_shipped {n : String} {t : Str} {file : SlipFile}
    (h : (n, t, file) ∈ [("cubic_fcc", fccText, fccFile), ("cubic_fcc_damask", fccDamaskText, fccDamaskFile),
      ("cubic_bcc", bccText, bccFile), ("cubic_bcc_110only", bcc110Text, bcc110File),
      ("hexagonal_noca", hexNocaText, hexNocaFile), ("hexagonal_withca", hexWithcaText, hexWithcaFile)])
    (hfs : fs (packageDir ++ lit "/slip_systems/" ++ lit n ++ lit ".txt") = some t) :
    loadSlipNamed fs packageDir dflt cs ca (lit n) = loadSlip dflt cs ca file := by
  have hr : readSlipText t = .ok file := by
    have hs := shipped_read
    simp only [shippedTexts, List.map_cons, List.map_nil, List.cons.injEq, Prod.mk.injEq, true_and,
      and_true] at hs
    obtain ⟨a1, a2, a3, a4, a5, a6⟩ := hs
    simp only [List.mem_cons, Prod.mk.injEq, List.not_mem_nil, or_false] at h
    rcases h with ⟨-, h, h'⟩ | ⟨-, h, h'⟩ | ⟨-, h, h'⟩ | ⟨-, h, h'⟩ | ⟨-, h, h'⟩ | ⟨-, h, h'⟩ <;> rw [h, h']
    · exact ok_of_toOption a1
    · exact ok_of_toOption a2
    · exact ok_of_toOption a3
    · exact ok_of_toOption a4
    · exact ok_of_toOption a5
    · exact ok_of_toOption a6
  unfold loadSlipNamed findSlipText slipPath
  rw [hfs]
  simp only [Except.bind, hr]

/-- **C130** A file with fewer than two rows, with rows of different length, or with another number of
columns than two times three (hexagonal: four) is refused. -/
theorem C130_refused {file : SlipFile} (hfs : fs name = some text)
    (hpkg : fs (packageDir ++ lit "/slip_systems/" ++ name ++ lit ".txt") = none)
    (hread : readSlipText text = .ok file)
    (hbad : file.rows.length < 2 ∨ ∃ row ∈ file.rows, row.length ≠ 2 * Spec.indexCount cs) :
    ∃ e, loadSlipNamed fs packageDir dflt cs ca name = .error e ∧
      (e = .indexError ∨ e = .valueError ∨ e = .ioError) := by
  have : ∃ e, loadRows (if cs = .hexagonal then 4 else 3) file.rows = .error e ∧
      (e = .indexError ∨ e = .valueError ∨ e = .ioError) := by
    have hsz : Spec.indexCount cs = if cs = .hexagonal then 4 else 3 := by cases cs <;> rfl
    rw [hsz] at hbad
    generalize (if cs = .hexagonal then 4 else 3) = size at hbad
    unfold loadRows
    split
    · exact ⟨_, rfl, Or.inl rfl⟩
    · rename_i r t he
      split
      · rename_i hall
        split
        · exact ⟨_, rfl, Or.inl rfl⟩
        · rename_i hne
          split
          · exact ⟨_, rfl, Or.inr (Or.inr rfl)⟩
          · rename_i hlen
            exfalso
            rcases hbad with h | ⟨row, hrow, h⟩
            · rw [he] at h
              cases t with
              | nil => exact hne rfl
              | cons a t => simp at h
            · rw [he] at hrow
              rcases List.mem_cons.mp hrow with rfl | hrow
              · exact hlen h
              · have := List.all_eq_true.mp hall row hrow
                simp only [decide_eq_true_eq] at this
                rw [this] at h
                exact hlen h
      · exact ⟨_, rfl, Or.inr (Or.inl rfl)⟩
  obtain ⟨e, h1, h2⟩ := this
  refine ⟨e, ?_, h2⟩
  unfold loadSlipNamed findSlipText slipPath
  rw [hpkg, hfs]
  simp only [Except.bind, hread, loadSlip, h1]

/-- The hypotheses are met: a file with a comment, an empty line and spaces. -/
example : SlipFileOk (lit "my file") [lit "red", lit "#00ff00"]
    [⟨[⟨1, 1, 0⟩, ⟨0, -1, 2⟩], none⟩, ⟨[], none⟩, ⟨[], some (lit " more")⟩,
      ⟨[⟨0, 12, 0⟩, ⟨0, 3, 0⟩], some (lit "last")⟩] ∧
    slipFileRows [⟨[⟨1, 1, 0⟩, ⟨0, -1, 2⟩], none⟩, ⟨[], none⟩, ⟨[], some (lit " more")⟩,
      ⟨[⟨0, 12, 0⟩, ⟨0, 3, 0⟩], some (lit "last")⟩] = [[1, -1], [12, 3]] := by
  refine ⟨⟨by decide, by decide, by decide, ?_, ?_⟩, by decide⟩
  · intro l hl c hc
    simp only [List.mem_cons, List.not_mem_nil, or_false] at hl
    rcases hl with rfl | rfl | rfl | rfl
    · cases hc
    · cases hc
    · cases hc; decide
    · cases hc; decide
  · intro l hl c hc
    simp only [List.mem_cons, List.not_mem_nil, or_false] at hl
    rcases hl with rfl | rfl | rfl | rfl <;> simp at hc <;> rcases hc with rfl | rfl <;> decide

end DefDAP
