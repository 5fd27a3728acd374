import Verif.Model.DicImages
import Verif.Props.DicCrop

/-! C115: pattern image, correlation values and scale of a DIC map. -/

namespace DefDAP

namespace Spec

/-- The arguments of the last `set_pattern`. -/
def lastPattern {α : Type} (ops : List (DicImgOp α)) : Option (Str × Int) :=
  ops.reverse.findSome? fun
    | .setPattern p b => some (p, b)
    | _ => none

/-- The content of a file: what was written last, or its first content. -/
def fileNow {α : Type} (files : Str → Option (ImgFile α)) (ops : List (DicImgOp α)) (p : Str) :
    Option (ImgFile α) :=
  (ops.reverse.findSome? fun
    | .writeFile q f => if q = p then some f else none
    | _ => none).getD (files p)

/-- The last scale set. -/
def lastScale {α : Type} (ops : List (DicImgOp α)) : Option ℝ :=
  ops.reverse.findSome? fun
    | .setScale s => some s
    | _ => none

end Spec

/-! ### Lemmas -/

theorem updateLoop_dims {w w' : DicW} {l r t b : Option Int} {u : Bool}
    (h : (setCrop w l r t b u).2 = w') : w'.xdim = w.xdim ∧ w'.ydim = w.ydim := by
  subst h
  unfold setCrop
  simp only
  split_ifs with hc
  · cases updateHomog (cropDists w l r t b).points (-1) none
        (some (cropDelta w.left l, cropDelta w.top t)) with
    | mk a pts => cases a <;> exact ⟨rfl, rfl⟩
  · exact ⟨rfl, rfl⟩

theorem dicImg_state {α : Type} (w : DicW) (dir : Str) (sub : Nat) (files : Str → Option (ImgFile α))
    (ops : List (DicImgOp α)) :
    let m := ops.foldl dicImgStep (DicImages.new w dir sub files)
    m.w.xdim = w.xdim ∧ m.w.ydim = w.ydim ∧ m.dir = dir ∧ m.subWindow = sub ∧
    m.path = (Spec.lastPattern ops).map (fun pb => joinPath dir pb.1) ∧
    m.window = (Spec.lastPattern ops).map Prod.snd ∧
    m.bseScale = Spec.lastScale ops ∧ ∀ p, m.files p = Spec.fileNow files ops p := by
  induction ops using List.reverseRecOn with
  | nil => exact ⟨rfl, rfl, rfl, rfl, rfl, rfl, rfl, fun p => rfl⟩
  | append_singleton ops op ih =>
    simp only at ih ⊢
    rw [List.foldl_append]
    simp only [List.foldl_cons, List.foldl_nil]
    generalize ops.foldl dicImgStep (DicImages.new w dir sub files) = m at ih ⊢
    obtain ⟨h1, h2, h3, h4, h5, h6, h7, h8⟩ := ih
    simp only [Spec.lastPattern, Spec.lastScale, Spec.fileNow, List.reverse_append, List.reverse_cons,
      List.reverse_nil, List.nil_append, List.singleton_append, List.findSome?_cons] at *
    cases op with
    | setPattern p b =>
      refine ⟨h1, h2, h3, h4, ?_, rfl, h7, h8⟩
      simp [dicImgStep, DicImages.setPattern, h3]
    | setCrop l r t b u =>
      have := updateLoop_dims (w := m.w) (l := l) (r := r) (t := t) (b := b) (u := u) rfl
      exact ⟨this.1.trans h1, this.2.trans h2, h3, h4, h5, h6, h7, h8⟩
    | writeFile p f =>
      refine ⟨h1, h2, h3, h4, h5, h6, h7, fun q => ?_⟩
      show (if q = p then f else m.files q) = _
      by_cases hq : q = p
      · subst hq
        simp
      · rw [if_neg hq]
        simp only
        rw [if_neg (Ne.symm hq)]
        exact h8 q
    | loadCorr d f =>
      have : (m.loadCorr d f).2.w = m.w ∧ (m.loadCorr d f).2.dir = m.dir ∧
          (m.loadCorr d f).2.subWindow = m.subWindow ∧ (m.loadCorr d f).2.path = m.path ∧
          (m.loadCorr d f).2.window = m.window ∧ (m.loadCorr d f).2.bseScale = m.bseScale ∧
          (m.loadCorr d f).2.files = m.files := by
        unfold DicImages.loadCorr
        split_ifs
        · cases f <;> exact ⟨rfl, rfl, rfl, rfl, rfl, rfl, rfl⟩
        · exact ⟨rfl, rfl, rfl, rfl, rfl, rfl, rfl⟩
      obtain ⟨a1, a2, a3, a4, a5, a6, a7⟩ := this
      show (m.loadCorr d f).2.w.xdim = _ ∧ (m.loadCorr d f).2.w.ydim = _ ∧ (m.loadCorr d f).2.dir = _ ∧
        (m.loadCorr d f).2.subWindow = _ ∧ (m.loadCorr d f).2.path = _ ∧
        (m.loadCorr d f).2.window = _ ∧ (m.loadCorr d f).2.bseScale = _ ∧
        ∀ p, (m.loadCorr d f).2.files p = _
      rw [a1, a2, a3, a4, a5, a6, a7]
      exact ⟨h1, h2, h3, h4, h5, h6, h7, h8⟩
    | setScale s => exact ⟨h1, h2, h3, h4, h5, h6, rfl, h8⟩

/-! ### The property -/

/-- Where the file of a pattern is: next to the file of the map, unless its path begins at the root. -/
def Spec.patternFile (dir : Str) : Str → Str
  | '/' :: p => '/' :: p
  | p => dir ++ '/' :: p

theorem patternFile_eq (dir p : Str) : Spec.patternFile dir p = joinPath dir p := by
  unfold joinPath
  cases p with
  | nil => simp [Spec.patternFile, lit]
  | cons c p =>
    by_cases hc : c = '/'
    · subst hc; simp [Spec.patternFile]
    · rw [if_neg (by simpa using hc)]
      have : Spec.patternFile dir (c :: p) = dir ++ '/' :: c :: p := by
        unfold Spec.patternFile
        split
        · next h => exact absurd (List.cons.inj h).1 hc
        · rfl
      rw [this]
      simp [lit]

/-- **C115 (pattern).** After every history of calls and changes of files, with a crop that leaves a
pixel, the pattern image is the current content of the file set last, cropped to the points of the map:
it has `b` times as many rows and columns as the map, and its pixel `(y, x)` is pixel `(y + b top, x + b left)` of the
file. This holds exactly if the file has `b` times as many rows and columns as the data loaded. -/
theorem C115_pattern {α : Type} (w : DicW) (dir : Str) (sub : Nat) (files : Str → Option (ImgFile α))
    (ops : List (DicImgOp α)) (p : Str) (b : Nat) (hb : 0 < b)
    (hlast : Spec.lastPattern ops = some (p, (b : Int))) :
    let m := ops.foldl dicImgStep (DicImages.new w dir sub files)
    (∀ g, Spec.fileNow files ops (Spec.patternFile dir p) = some (.gray g) →
      g.rows = w.ydim * b → g.cols = w.xdim * b → m.w.CropOk →
      ∃ out, m.readPattern = .ok out ∧
        (out.rows : Int) = (w.ydim - m.w.top - m.w.bottom) * b ∧
        (out.cols : Int) = (w.xdim - m.w.left - m.w.right) * b ∧
        ∀ y x, out.px y x = g.px (y + m.w.top * b) (x + m.w.left * b)) ∧
    (∀ g, Spec.fileNow files ops (Spec.patternFile dir p) = some (.gray g) →
      ¬ (g.rows = w.ydim * b ∧ g.cols = w.xdim * b) → m.readPattern = .error .valueError) ∧
    (Spec.fileNow files ops (Spec.patternFile dir p) = some .colour → m.readPattern = .error .valueError) ∧
    (Spec.fileNow files ops (Spec.patternFile dir p) = none → m.readPattern = .error .fileNotFoundError) := by
  intro m
  rw [patternFile_eq]
  obtain ⟨h1, h2, h3, h4, h5, h6, h7, h8⟩ := dicImg_state w dir sub files ops
  rw [hlast] at h5 h6
  have hp : m.path = some (joinPath dir p) := h5
  have hw : m.window = some (b : Int) := h6
  have hf : ∀ q, m.files q = Spec.fileNow files ops q := h8
  refine ⟨?_, ?_, ?_, ?_⟩
  · intro g hg hr hc hcrop
    have hr' : g.rows = m.w.ydim * b := by rw [hr]; exact congrArg (· * b) h2.symm
    have hc' : g.cols = m.w.xdim * b := by rw [hc]; exact congrArg (· * b) h1.symm
    have hl : m.loadPattern = .ok g := by
      unfold DicImages.loadPattern
      rw [hp]
      simp only [hf, hg, hw, Option.getD_some]
      rw [if_pos ⟨by rw [hr']; push_cast; rfl, by rw [hc']; push_cast; rfl⟩]
    have hC := C30_crop m.w b hb g hcrop hr' hc'
    refine ⟨cropGrid m.w b g, ?_, ?_, ?_, hC.2⟩
    · unfold DicImages.readPattern
      rw [hl, hw]
      rfl
    · have := congrArg Prod.fst hC.1
      simp only at this
      rw [this, show m.w.ydim = w.ydim from h2]
    · have := congrArg Prod.snd hC.1
      simp only at this
      rw [this, show m.w.xdim = w.xdim from h1]
  · intro g hg hn
    have hl : m.loadPattern = .error .valueError := by
      unfold DicImages.loadPattern
      rw [hp]
      simp only [hf, hg, hw, Option.getD_some]
      rw [if_neg]
      rintro ⟨a1, a2⟩
      rw [show m.w.ydim = w.ydim from h2] at a1
      rw [show m.w.xdim = w.xdim from h1] at a2
      exact hn ⟨by exact_mod_cast a1, by exact_mod_cast a2⟩
    unfold DicImages.readPattern
    rw [hl]
    rfl
  · intro hg
    unfold DicImages.readPattern DicImages.loadPattern
    rw [hp]
    simp only [hf, hg]
    rfl
  · intro hg
    unfold DicImages.readPattern DicImages.loadPattern
    rw [hp]
    simp only [hf, hg]
    rfl

/-- **C115 (no pattern).** If no pattern was set in a history, access to it is a `FileNotFoundError`. -/
theorem C115_no_pattern {α : Type} (w : DicW) (dir : Str) (sub : Nat) (files : Str → Option (ImgFile α))
    (ops : List (DicImgOp α)) (hlast : Spec.lastPattern ops = none) :
    (ops.foldl dicImgStep (DicImages.new w dir sub files)).readPattern =
      .error .fileNotFoundError := by
  obtain ⟨-, -, -, -, h5, -⟩ := dicImg_state w dir sub files ops
  rw [hlast] at h5
  unfold DicImages.readPattern DicImages.loadPattern
  rw [h5]
  rfl

/-- **C115 (scale).** After every history the scale is the last one set times the size of the sub-window,
and `None` if none was set. -/
theorem C115_scale {α : Type} (w : DicW) (dir : Str) (sub : Nat) (files : Str → Option (ImgFile α))
    (ops : List (DicImgOp α)) :
    (∀ s, Spec.lastScale ops = some s →
      (ops.foldl dicImgStep (DicImages.new w dir sub files)).scale = some (s * sub)) ∧
    (Spec.lastScale ops = none →
      (ops.foldl dicImgStep (DicImages.new w dir sub files)).scale = none) := by
  obtain ⟨-, -, -, h4, -, -, h7, -⟩ := dicImg_state w dir sub files ops
  unfold DicImages.scale
  rw [h7, h4]
  refine ⟨fun s hs => by rw [hs]; rfl, fun hs => by rw [hs]; rfl⟩

/-- **C115 (correlation values).** Loading correlation values ends well exactly if the file can be read as
a Davis image of the size of the data loaded, and then stores them as they are. If there is no such file, or
its type is another, the map stays as it was. -/
theorem C115_corr {α : Type} (m : DicImages α) (dataType : Option Str) (file : Except Err (Grid α)) :
    ((m.loadCorr dataType file).1 = .ok () ↔
      (dataType = none ∨ dataType = some (lit "DavisImage")) ∧
        ∃ g, file = .ok g ∧ g.rows = m.w.ydim ∧ g.cols = m.w.xdim) ∧
    (∀ g, (m.loadCorr dataType file).1 = .ok () → file = .ok g →
      (m.loadCorr dataType file).2.corr = some g) ∧
    (((∀ g, file ≠ .ok g) ∨ ∃ d, dataType = some d ∧ d ≠ lit "DavisImage") →
      (m.loadCorr dataType file).2 = m) := by
  have hd : dataType.getD (lit "DavisImage") = lit "DavisImage" ↔
      (dataType = none ∨ dataType = some (lit "DavisImage")) := by
    cases dataType with
    | none => simp
    | some d => simp
  unfold DicImages.loadCorr
  by_cases h : dataType.getD (lit "DavisImage") = lit "DavisImage"
  · rw [if_pos h]
    cases file with
    | error e =>
      refine ⟨⟨fun h => (by cases h), ?_⟩, fun g h => (by cases h), fun _ => rfl⟩
      rintro ⟨-, g, hg, -⟩
      cases hg
    | ok g =>
      have hno : ¬ ((∀ g', (Except.ok g : Except Err (Grid α)) ≠ .ok g') ∨
          ∃ d, dataType = some d ∧ d ≠ lit "DavisImage") := by
        rintro (h0 | ⟨d, rfl, h0⟩)
        · exact h0 g rfl
        · exact h0 (by simpa using h)
      simp only
      by_cases hs : g.cols = m.w.xdim ∧ g.rows = m.w.ydim
      · rw [if_pos hs]
        refine ⟨⟨fun _ => ⟨hd.1 h, g, rfl, hs.2, hs.1⟩, fun _ => rfl⟩, ?_, fun h0 => absurd h0 hno⟩
        intro g' _ hg
        cases hg
        rfl
      · rw [if_neg hs]
        refine ⟨⟨fun h => (by cases h), ?_⟩, fun g' h => (by cases h), fun h0 => absurd h0 hno⟩
        rintro ⟨-, g', hg, h1, h2⟩
        cases hg
        exact absurd ⟨h2, h1⟩ hs
  · rw [if_neg h]
    refine ⟨⟨fun h => (by cases h), ?_⟩, fun g h => (by cases h), fun _ => rfl⟩
    rintro ⟨hh, -⟩
    exact absurd (hd.2 hh) h

/-- **C115 (false for failed loading).** Loading correlation values of a wrong size is an
`AssertionError`, but the map has these values from then on in place of earlier ones. -/
theorem C115_corr_kept {α : Type} (m : DicImages α) (g : Grid α)
    (h : ¬ (g.rows = m.w.ydim ∧ g.cols = m.w.xdim)) :
    (m.loadCorr none (.ok g)).1 = .error .assertionError ∧
    (m.loadCorr none (.ok g)).2.corr = some g := by
  unfold DicImages.loadCorr
  simp only [Option.getD_none, if_true]
  rw [if_neg fun hh => h ⟨hh.2, hh.1⟩]
  exact ⟨rfl, trivial⟩

/-- **C115 (false after cropping).** Correlation values are not cropped: after every history in which they
were loaded well they have the size of the data loaded, whatever the crop. -/
theorem C115_corr_size {α : Type} (w : DicW) (dir : Str) (sub : Nat) (files : Str → Option (ImgFile α))
    (ops later : List (DicImgOp α)) (g : Grid α) (hr : g.rows = w.ydim) (hc : g.cols = w.xdim)
    (hl : ∀ op ∈ later, ∀ d f, op ≠ .loadCorr d f) :
    let m := (ops ++ [DicImgOp.loadCorr none (.ok g)] ++ later).foldl dicImgStep
      (DicImages.new w dir sub files)
    m.corr = some g := by
  intro m
  have hm : m = later.foldl dicImgStep
      (((ops.foldl dicImgStep (DicImages.new w dir sub files)).loadCorr none (.ok g)).2) := by
    show (ops ++ [DicImgOp.loadCorr none (.ok g)] ++ later).foldl dicImgStep _ = _
    rw [List.foldl_append, List.foldl_append]
    rfl
  have h0 : ((ops.foldl dicImgStep (DicImages.new w dir sub files)).loadCorr none (.ok g)).2.corr =
      some g := by
    unfold DicImages.loadCorr
    simp only [Option.getD_none, if_true]
  rw [hm]
  generalize ((ops.foldl dicImgStep (DicImages.new w dir sub files)).loadCorr none (.ok g)).2 = m0 at h0 ⊢
  clear hm m
  induction later generalizing m0 with
  | nil => exact h0
  | cons op t ih =>
    rw [List.foldl_cons]
    refine ih (fun o ho => hl o (List.mem_cons_of_mem _ ho)) _ ?_
    have := hl op List.mem_cons_self
    cases op with
    | loadCorr d f => exact absurd rfl (this d f)
    | _ => exact h0

/-! ### The hypotheses are met -/

/-- A 2 by 3 map with an image of twice the size, replaced and cropped. -/
example : ∃ (ops : List (DicImgOp Nat)) (g : Grid Nat),
    let w := DicW.new 3 2 [] (fun _ => ⟨0, 0, fun _ _ => false⟩)
    let m := ops.foldl dicImgStep (DicImages.new w (lit "d") 8 fun _ => none)
    Spec.lastPattern ops = some (lit "b.tif", 2) ∧
    Spec.fileNow (fun _ => none) ops (joinPath (lit "d") (lit "b.tif")) = some (.gray g) ∧
    g.rows = w.ydim * 2 ∧ g.cols = w.xdim * 2 ∧ m.w.CropOk ∧ m.w.left = 1 := by
  refine ⟨[.setPattern (lit "a.tif") 1, .writeFile (lit "d/b.tif") (some .colour),
    .setPattern (lit "b.tif") 2, .setCrop (some 1) none none none false,
    .writeFile (lit "d/b.tif") (some (.gray ⟨4, 6, fun y x => (10 * y + x).toNat⟩))],
    ⟨4, 6, fun y x => (10 * y + x).toNat⟩, rfl, ?_, rfl, rfl, ?_, rfl⟩
  · have : lit "d/b.tif" = joinPath (lit "d") (lit "b.tif") := by decide +kernel
    rw [this]
    simp [Spec.fileNow]
  · refine ⟨?_, ?_, ?_, ?_, ?_, ?_⟩ <;> decide

end DefDAP
