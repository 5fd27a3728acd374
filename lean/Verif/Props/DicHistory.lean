import Verif.Spec.DicHistory
import Verif.Props.DicCrop
import Verif.Proofs.GrainData

/-!
C125: links, crops and grains of a DIC map over histories.
-/

namespace DefDAP

open Spec

theorem dicRun_append (find : DicFind) (st : DicHist) (l l' : List DicOp) :
    dicRun find st (l ++ l') = dicRun find (dicRun find st l) l' := by
  simp [dicRun]

theorem dicRun_cons (find : DicFind) (st : DicHist) (o : DicOp) (l : List DicOp) :
    dicRun find st (o :: l) = dicRun find (dicStep find st o) l := rfl

/-! ### What steps leave alone -/

theorem call_state (find : DicFind) (st : DicHist) (s : DicSearch) :
    (st.call find s).2.w = st.w ∧ (st.call find s).2.linked = st.linked ∧
      (st.call find s).2.sources = st.sources ∧ (st.call find s).2.grains = st.grains := by
  unfold DicHist.call
  split
  · exact ⟨rfl, rfl, rfl, rfl⟩
  · split <;> exact ⟨rfl, rfl, rfl, rfl⟩

theorem generate_state (find : DicFind) (st : DicHist) (s : DicSearch) :
    (st.generate find s).2.w = st.w ∧ (st.generate find s).2.linked = st.linked ∧
      (st.generate find s).2.sources = st.sources := by
  have h := call_state find st s
  unfold DicHist.generate
  split <;> exact ⟨h.1, h.2.1, h.2.2.1⟩

theorem generate_ok (find : DicFind) (st : DicHist) (s : DicSearch) {f : DicFound × Nat}
    (h : (st.generate find s).1 = .ok f) :
    (st.generate find s).2.grains = some f ∧ (st.generate find s).2.list = some f := by
  revert h
  unfold DicHist.generate
  split
  · intro h; cases h
  · rename_i f' hf
    intro h
    obtain rfl := Except.ok.inj h
    refine ⟨rfl, ?_⟩
    show (st.call find s).2.list = _
    revert hf
    unfold DicHist.call
    split
    · intro h; cases h
    · split
      · intro h; cases h
      · intro h; rw [← Except.ok.inj h]

theorem generate_err (find : DicFind) (st : DicHist) (s : DicSearch) {e : Err}
    (h : (st.generate find s).1 = .error e) : (st.generate find s).2 = st := by
  revert h
  unfold DicHist.generate
  split
  · rename_i er her
    intro _
    revert her
    unfold DicHist.call
    split
    · intro _; rfl
    · split
      · intro _; rfl
      · intro h; cases h
  · intro h; cases h

theorem readGrains_state (find : DicFind) (st : DicHist) :
    (st.readGrains find).2.w = st.w ∧ (st.readGrains find).2.linked = st.linked ∧
      (st.readGrains find).2.sources = st.sources := by
  unfold DicHist.readGrains
  split
  · exact ⟨rfl, rfl, rfl⟩
  · exact generate_state find st _

theorem readList_state (find : DicFind) (st : DicHist) :
    (st.readList find).2 = (st.readGrains find).2 := by
  unfold DicHist.readList; split <;> rfl

/-- What a step does to the links. -/
theorem dicStep_links (find : DicFind) (st : DicHist) (op : DicOp) :
    (dicStep find st op).sources = st.sources ++ linksOf [op] ∧
      (dicStep find st op).linked = ((linksOf [op]).getLast?).or st.linked := by
  cases op with
  | link e => exact ⟨rfl, rfl⟩
  | crop l r t b u =>
    exact ⟨by simp [dicStep, DicHist.crop, linksOf], by simp [dicStep, DicHist.crop, linksOf]⟩
  | read =>
    have h := readGrains_state find st
    exact ⟨by simp [dicStep, h, linksOf], by simp [dicStep, h, linksOf]⟩
  | readList =>
    have h := readGrains_state find st
    exact ⟨by simp [dicStep, readList_state, h, linksOf],
      by simp [dicStep, readList_state, h, linksOf]⟩
  | generate s =>
    have h := generate_state find st s
    exact ⟨by simp [dicStep, h, linksOf], by simp [dicStep, h, linksOf]⟩
  | call s =>
    have h := call_state find st s
    exact ⟨by simp [dicStep, h, linksOf], by simp [dicStep, h, linksOf]⟩

theorem linksOf_cons (op : DicOp) (ops : List DicOp) :
    linksOf (op :: ops) = linksOf [op] ++ linksOf ops := by
  cases op <;> rfl

theorem dicRun_links (find : DicFind) (ops : List DicOp) : ∀ st : DicHist,
    (dicRun find st ops).sources = st.sources ++ linksOf ops ∧
      (dicRun find st ops).linked = ((linksOf ops).getLast?).or st.linked := by
  induction ops with
  | nil => intro st; exact ⟨by simp [dicRun, linksOf], by simp [dicRun, linksOf]⟩
  | cons op ops ih =>
    intro st
    obtain ⟨h1, h2⟩ := dicStep_links find st op
    obtain ⟨h3, h4⟩ := ih (dicStep find st op)
    rw [dicRun_cons, h3, h4, h1, h2, linksOf_cons op ops]
    refine ⟨by rw [List.append_assoc], ?_⟩
    cases op <;> simp [linksOf]
    rename_i e
    cases h : (linksOf ops).getLast? with
    | none =>
      rw [List.getLast?_eq_none_iff] at h
      rw [h]; rfl
    | some x =>
      rw [List.getLast?_cons, h]; rfl

variable {xdim ydim : Nat} {points : List (Option (Int × Int))} {masks : Nat → Grid Bool}

/-- After every history the linked EBSD map is the one linked last, and the boundaries are those of
the EBSD map linked first, not of the linked one. -/
theorem C125_links (find : DicFind) (ops : List DicOp) :
    (dicRun find (DicHist.loaded xdim ydim points masks) ops).linked = (linksOf ops).getLast? ∧
      (dicRun find (DicHist.loaded xdim ydim points masks) ops).boundarySource =
        match (linksOf ops).head? with
        | some e => .ok e
        | none => .error .keyError := by
  obtain ⟨h1, h2⟩ := dicRun_links find ops (DicHist.loaded xdim ydim points masks)
  refine ⟨by rw [h2]; simp [DicHist.loaded], ?_⟩
  unfold DicHist.boundarySource
  rw [h1]
  cases h : linksOf ops <;> simp [DicHist.loaded]

/-- If only one EBSD map is ever linked, the boundaries are those of the linked EBSD map. -/
theorem C125_one_map (find : DicFind) (ops : List DicOp) (e : Nat)
    (h : ∀ e' ∈ linksOf ops, e' = e) (hne : linksOf ops ≠ []) :
    (dicRun find (DicHist.loaded xdim ydim points masks) ops).linked = some e ∧
      (dicRun find (DicHist.loaded xdim ydim points masks) ops).boundarySource = .ok e := by
  obtain ⟨h1, h2⟩ := C125_links (xdim := xdim) (ydim := ydim) (points := points) (masks := masks)
    find ops
  rw [h1, h2]
  constructor
  · rw [List.getLast?_eq_some_getLast hne, h _ (List.getLast_mem hne)]
  · cases hl : linksOf ops with
    | nil => exact absurd hl hne
    | cons a t =>
      rw [h a (by rw [hl]; exact List.mem_cons_self)]
      rfl

/-- False: boundaries are those of the linked EBSD map. After linking another EBSD map, a search
uses the grains of the new one and the boundaries of the old one. -/
theorem C125_other_map (find : DicFind) (e e' : Nat) (s : DicSearch) :
    ∃ st, st = dicRun find (DicHist.loaded xdim ydim points masks) [.link e, .link e'] ∧
      st.linked = some e' ∧ st.boundarySource = .ok e ∧
      (st.call find s).1 = (find s st.w e' (.ok e)).map fun f => (f, e') := by
  refine ⟨_, rfl, rfl, rfl, ?_⟩
  simp only [dicRun, List.foldl, dicStep, DicHist.link, DicHist.call, DicHist.boundarySource,
    DicHist.loaded, List.nil_append, List.cons_append]
  cases find s (DicW.new xdim ydim points masks) e' (Except.ok e) <;> rfl

/-! ### Grains -/

/-- The kept grains and the list agree. -/
def dicAgree (st : DicHist) : Prop := ∀ f, st.grains = some f → st.list = some f

theorem dicAgree_generate (find : DicFind) {st : DicHist} (h : dicAgree st) (s : DicSearch) :
    dicAgree (st.generate find s).2 := by
  cases hr : (st.generate find s).1 with
  | error e => rw [generate_err find st s hr]; exact h
  | ok f =>
    obtain ⟨h1, h2⟩ := generate_ok find st s hr
    intro f' hf'
    rw [h1] at hf'
    rw [h2, hf']

theorem dicAgree_read (find : DicFind) {st : DicHist} (h : dicAgree st) :
    dicAgree (st.readGrains find).2 := by
  unfold DicHist.readGrains
  split
  · exact h
  · exact dicAgree_generate find h _

theorem dicAgree_run (find : DicFind) (ops : List DicOp) (hops : ∀ op ∈ ops, noDicCall op) :
    ∀ {st : DicHist}, dicAgree st → dicAgree (dicRun find st ops) := by
  induction ops with
  | nil => exact fun h => h
  | cons op ops ih =>
    intro st h
    refine ih (fun o ho => hops o (List.mem_cons_of_mem _ ho)) ?_
    cases op with
    | link e => exact h
    | crop l r t b u => exact h
    | read => exact dicAgree_read find h
    | readList =>
      show dicAgree (st.readList find).2
      rw [readList_state]; exact dicAgree_read find h
    | generate s => exact dicAgree_generate find h s
    | call s => exact (hops _ List.mem_cons_self).elim

theorem readGrains_saved (find : DicFind) (st : DicHist) {f : DicFound × Nat}
    (h : (st.readGrains find).1 = .ok f) : (st.readGrains find).2.grains = some f := by
  revert h
  unfold DicHist.readGrains
  split
  · rename_i f' hf
    intro h
    rw [hf, Except.ok.inj h]
  · intro h
    exact (generate_ok find st _ h).1

/-- The image and the list of grains come from one search, whatever is read, searched, linked or
cropped, unless the method `find_grains` is called. -/
theorem C125_one_search (find : DicFind) (ops : List DicOp) (hops : ∀ op ∈ ops, noDicCall op)
    (f : DicFound × Nat)
    (hf : ((dicRun find (DicHist.loaded xdim ydim points masks) ops).readGrains find).1 = .ok f) :
    ((dicRun find (DicHist.loaded xdim ydim points masks) ops).readList find).1 =
      .ok (some f) := by
  have h : dicAgree (dicRun find (DicHist.loaded xdim ydim points masks) ops) :=
    dicAgree_run find ops hops (fun f hf => by cases hf)
  have h2 := dicAgree_read find h f (readGrains_saved find _ hf)
  unfold DicHist.readList
  rw [hf]
  simp only
  rw [h2]

/-- Without a linked EBSD map there are no grains. -/
theorem C125_not_linked (find : DicFind) (ops : List DicOp) (h : linksOf ops = []) :
    ((dicRun find (DicHist.loaded xdim ydim points masks) ops).readGrains find).1 =
      .error .exception := by
  have key : ∀ (ops : List DicOp) (st : DicHist), linksOf ops = [] → st.linked = none →
      st.grains = none → (dicRun find st ops).linked = none ∧
        (dicRun find st ops).grains = none := by
    intro ops
    induction ops with
    | nil => intro st _ h1 h2; exact ⟨h1, h2⟩
    | cons op ops ih =>
      intro st hl h1 h2
      rw [linksOf_cons] at hl
      obtain ⟨ha, hb⟩ := List.append_eq_nil_iff.mp hl
      have hcall : ∀ s, st.call find s = (.error .exception, st) := by
        intro s; unfold DicHist.call; rw [h1]
      have hgen : ∀ s, st.generate find s = (.error .exception, st) := by
        intro s; unfold DicHist.generate; rw [hcall]
      have hread : st.readGrains find = (.error .exception, st) := by
        unfold DicHist.readGrains; rw [h2]; exact hgen _
      rw [dicRun_cons]
      refine ih _ hb ?_ ?_
      · cases op with
        | link e => cases ha
        | crop l r t b u => exact h1
        | read => simp only [dicStep, hread, h1]
        | readList => simp only [dicStep, readList_state, hread, h1]
        | generate s => simp only [dicStep, hgen, h1]
        | call s => simp only [dicStep, hcall, h1]
      · cases op with
        | link e => cases ha
        | crop l r t b u => exact h2
        | read => simp only [dicStep, hread, h2]
        | readList => simp only [dicStep, readList_state, hread, h2]
        | generate s => simp only [dicStep, hgen, h2]
        | call s => simp only [dicStep, hcall, h2]
  obtain ⟨h1, h2⟩ := key ops (DicHist.loaded xdim ydim points masks) h rfl rfl
  unfold DicHist.readGrains
  rw [h2]
  simp only [DicHist.generate, DicHist.call, h1]

/-- Reading gives the points of grains inside the crop, in the full map. -/
theorem grainValuesNow_eq {α : Type} (w : DicW) (hw : w.CropOk) (full : Img α) (pts : List Px)
    (h : InsideCrop w pts) :
    grainValuesNow w full pts = .ok (valuesAt full (pts.map (inFull w))) := by
  obtain ⟨hs, hp⟩ := C30_crop w 1 (by omega) ⟨w.ydim, w.xdim, full⟩ hw (by simp) (by simp)
  have hs1 : ((cropGrid w 1 ⟨w.ydim, w.xdim, full⟩).rows : Int) = w.ydim - w.top - w.bottom := by
    have := congrArg Prod.fst hs
    simpa using this
  have hs2 : ((cropGrid w 1 ⟨w.ydim, w.xdim, full⟩).cols : Int) = w.xdim - w.left - w.right := by
    have := congrArg Prod.snd hs
    simpa using this
  unfold grainValuesNow grainData
  rw [mapM_ok (g := fun p => full (p.2 + w.top) (p.1 + w.left))]
  · simp [valuesAt, inFull, Function.comp_def]
  · intro p hpm
    obtain ⟨h1, h2, h3, h4⟩ := h p hpm
    have e := hp p.2 p.1
    simp only [Nat.cast_one, mul_one] at e
    unfold npRead npIdx
    rw [if_pos ⟨h3, by rw [hs1]; exact h4⟩, if_pos ⟨h1, by rw [hs2]; exact h2⟩]
    show Except.ok _ = _
    rw [e]

theorem keepsGrains_run (find : DicFind) (ops : List DicOp) (hops : ∀ op ∈ ops, keepsGrains op)
    (f : DicFound × Nat) : ∀ {st : DicHist}, st.grains = some f → st.list = some f →
      (dicRun find st ops).grains = some f ∧ (dicRun find st ops).list = some f ∧
        (dicRun find st ops).w = st.w := by
  induction ops with
  | nil => exact fun h1 h2 => ⟨h1, h2, rfl⟩
  | cons op ops ih =>
    intro st h1 h2
    have hread : st.readGrains find = (.ok f, st) := by
      unfold DicHist.readGrains; rw [h1]
    have hst : (dicStep find st op).grains = some f ∧ (dicStep find st op).list = some f ∧
        (dicStep find st op).w = st.w := by
      have hk := hops op List.mem_cons_self
      cases op with
      | link e => exact ⟨h1, h2, rfl⟩
      | read => simp only [dicStep, hread]; exact ⟨h1, h2, trivial⟩
      | readList => simp only [dicStep, readList_state, hread]; exact ⟨h1, h2, trivial⟩
      | crop l r t b u => exact hk.elim
      | generate s => exact hk.elim
      | call s => exact hk.elim
    obtain ⟨h3, h4, h5⟩ := ih (fun o ho => hops o (List.mem_cons_of_mem _ ho)) hst.1 hst.2.1
    exact ⟨h3, h4, h5.trans hst.2.2⟩

/-- The values of a grain are those of the map at the points found: after every history, a search
through the data store whose points are inside the map, and then reading and linking, the grains of
the map are those found, and reading any datum for a grain gives its values at the points of the
full map where the grain was found. -/
theorem C125_values {α : Type} (find : DicFind) (before after : List DicOp) (s : DicSearch)
    (hafter : ∀ op ∈ after, keepsGrains op) (f : DicFound × Nat) (w : DicW)
    (hw : w = (dicRun find (DicHist.loaded xdim ydim points masks) before).w) (hok : w.CropOk)
    (hf : ((dicRun find (DicHist.loaded xdim ydim points masks) before).generate find s).1 = .ok f)
    (hin : ∀ pts ∈ f.1.points, InsideCrop w pts) (full : Img α) :
    ∃ st, st = dicRun find (DicHist.loaded xdim ydim points masks)
        (before ++ .generate s :: after) ∧
      (st.readList find).1 = .ok (some f) ∧
      ∀ pts ∈ f.1.points, grainValuesNow st.w full pts =
        .ok (valuesAt full (pts.map (inFull w))) := by
  refine ⟨_, rfl, ?_⟩
  rw [dicRun_append, dicRun_cons]
  obtain ⟨h1, h2⟩ := generate_ok find _ s hf
  obtain ⟨h3, h4, h5⟩ := keepsGrains_run find after hafter f
    (st := dicStep find (dicRun find (DicHist.loaded xdim ydim points masks) before)
      (.generate s)) h1 h2
  refine ⟨?_, ?_⟩
  · simp only [DicHist.readList, DicHist.readGrains, h3, h4]
  · intro pts hpts
    rw [h5]
    show grainValuesNow ((DicHist.generate find _ s).2.w) full pts = _
    rw [(generate_state find _ s).1, ← hw]
    exact grainValuesNow_eq w hok full pts (hin pts hpts)

/-- False: the values of a grain are those at the points found, if the crop is changed after the
search. The grains and their image are kept as they are; with another crop the values are those of
other points, shifted by the change of the crop at the left and the top, as long as they are
inside. -/
theorem C125_crop_after {α : Type} (find : DicFind) (st : DicHist) (f : DicFound × Nat)
    (hg : st.grains = some f) (hl : st.list = some f) (l r t b : Option Int) (u : Bool)
    (w' : DicW) (hw' : (setCrop st.w l r t b u) = (.ok (), w')) (hok : w'.CropOk) (full : Img α)
    (pts : List Px) (_hpts : pts ∈ f.1.points) (hin : InsideCrop w' pts) :
    ((st.crop l r t b u).readGrains find).1 = .ok f ∧
      ((st.crop l r t b u).readList find).1 = .ok (some f) ∧
      grainValuesNow (st.crop l r t b u).w full pts =
        .ok (valuesAt full (pts.map fun p =>
          ((inFull st.w p).1 + (l.getD st.w.left - st.w.left),
            (inFull st.w p).2 + (t.getD st.w.top - st.w.top)))) := by
  have hs := C30_shape st.w w' l r t b u hw'
  refine ⟨?_, ?_, ?_⟩
  · simp only [DicHist.crop, DicHist.readGrains, hg]
  · simp only [DicHist.crop, DicHist.readList, DicHist.readGrains, hg, hl]
  · have : (st.crop l r t b u).w = w' := by simp only [DicHist.crop, hw']
    rw [this, grainValuesNow_eq w' hok full pts hin]
    congr 2
    apply List.map_congr_left
    intro p _
    unfold inFull
    rw [hs.2.2.1, hs.2.2.2.2.1]
    exact Prod.ext (by show _ = p.1 + st.w.left + _; omega) (by show _ = p.2 + st.w.top + _; omega)

/-- False likewise, with an error: points beyond the new crop are an `IndexError`. -/
theorem C125_crop_error {α : Type} (w : DicW) (hok : w.CropOk) (full : Img α) (pts : List Px)
    (hpos : ∀ p ∈ pts, 0 ≤ p.1 ∧ 0 ≤ p.2) (q : Px) (hq : q ∈ pts)
    (hout : (w.xdim : Int) - w.left - w.right ≤ q.1 ∨ (w.ydim : Int) - w.top - w.bottom ≤ q.2) :
    grainValuesNow w full pts = .error .indexError := by
  obtain ⟨hs, -⟩ := C30_crop w 1 (by omega) ⟨w.ydim, w.xdim, full⟩ hok (by simp) (by simp)
  have hs1 : ((cropGrid w 1 ⟨w.ydim, w.xdim, full⟩).rows : Int) = w.ydim - w.top - w.bottom := by
    have := congrArg Prod.fst hs
    simpa using this
  have hs2 : ((cropGrid w 1 ⟨w.ydim, w.xdim, full⟩).cols : Int) = w.xdim - w.left - w.right := by
    have := congrArg Prod.snd hs
    simpa using this
  unfold grainValuesNow grainData
  generalize cropGrid w 1 ⟨w.ydim, w.xdim, full⟩ = g at hs1 hs2
  have hread : ∀ p : Px, 0 ≤ p.1 → 0 ≤ p.2 → (npRead g.rows g.cols g.px p = .error .indexError ∨
      ∃ v, npRead g.rows g.cols g.px p = .ok v) := by
    intro p h1 h2
    unfold npRead npIdx
    by_cases hy : p.2 < g.rows
    · rw [if_pos ⟨h2, hy⟩]
      by_cases hx : p.1 < g.cols
      · rw [if_pos ⟨h1, hx⟩]; exact Or.inr ⟨_, rfl⟩
      · rw [if_neg (by omega), if_neg (by omega)]; exact Or.inl rfl
    · rw [if_neg (by omega), if_neg (by omega)]; exact Or.inl rfl
  have hbad : npRead g.rows g.cols g.px q = .error .indexError := by
    obtain ⟨h1, h2⟩ := hpos q hq
    unfold npRead npIdx
    by_cases hy : q.2 < g.rows
    · rw [if_pos ⟨h2, hy⟩]
      have hx : ¬ q.1 < g.cols := by
        rcases hout with h | h
        · omega
        · omega
      rw [if_neg (by omega), if_neg (by omega)]; rfl
    · rw [if_neg (by omega), if_neg (by omega)]; rfl
  clear hout hs1 hs2 hs
  induction pts with
  | nil => cases hq
  | cons p ps ih =>
    rw [List.mapM_cons]
    obtain ⟨h1, h2⟩ := hpos p List.mem_cons_self
    rcases hread p h1 h2 with h | ⟨v, h⟩
    · rw [h]; rfl
    · rcases List.mem_cons.mp hq with rfl | hq'
      · rw [hbad] at h; cases h
      · rw [h, ih (fun p hp => hpos p (List.mem_cons_of_mem _ hp)) hq']; rfl

/-- False: calling the method `find_grains` sets the grains: what is read next on a map without
grains is found by a search with the default settings. -/
theorem C125_direct (find : DicFind) (e : Nat) (s : DicSearch) :
    ((dicRun find (DicHist.loaded xdim ydim points masks) [.link e, .call s]).readGrains find).1 =
      (find ⟨none, 10⟩ (DicW.new xdim ydim points masks) e (.ok e)).map fun f => (f, e) := by
  have h : ∀ st : DicHist, st.linked = some e → st.boundarySource = .ok e → st.grains = none →
      (st.readGrains find).1 = (find ⟨none, 10⟩ st.w e (.ok e)).map fun f => (f, e) := by
    intro st h1 h2 h3
    unfold DicHist.readGrains
    rw [h3]
    simp only [DicHist.generate, DicHist.call, h1, h2]
    cases find ⟨none, 10⟩ st.w e (.ok e) <;> rfl
  have hc := call_state find ((DicHist.loaded xdim ydim points masks).link e) s
  show ((((DicHist.loaded xdim ydim points masks).link e).call find s).2.readGrains find).1 = _
  rw [h _ (by rw [hc.2.1]; rfl) (by unfold DicHist.boundarySource; rw [hc.2.2.1]; rfl)
    (by rw [hc.2.2.2]; rfl), hc.1]
  rfl

/-! ### A case -/

/-- One grain of two points on a map of 4 rows and 5 columns cropped by one column on the left. -/
def exW : DicW := (setCrop (DicW.new 5 4 [] fun _ => ⟨0, 0, fun _ _ => false⟩) (some 1) none none none
  false).2

/-- The full datum: ten times the row plus the column. -/
def exFull : Img Int := fun y x => 10 * y + x

/-- The grain of the points (0, 1) and (1, 1) has the values 11 and 12; after setting the crop at the
left to 2 they are read as 12 and 13, and after cropping 3 rows at the bottom reading is an
error. -/
example : grainValuesNow exW exFull [(0, 1), (1, 1)] = .ok [11, 12] ∧
    grainValuesNow (setCrop exW (some 2) none none none false).2 exFull [(0, 1), (1, 1)] =
      .ok [12, 13] ∧
    grainValuesNow (setCrop exW none none none (some 3) false).2 exFull [(0, 1), (1, 1)] =
      .error .indexError ∧ exW.CropOk ∧ InsideCrop exW [(0, 1), (1, 1)] := by
  refine ⟨by decide +kernel, by decide +kernel, by decide +kernel, ?_, ?_⟩
  · unfold DicW.CropOk; decide +kernel
  · unfold InsideCrop; decide +kernel

/-- Searches that find this grain; the hypothesis of `C125_values` is met. -/
example : ((dicRun (fun _ _ _ _ => .ok ⟨fun _ _ => 1, [[(0, 1), (1, 1)]]⟩)
    (DicHist.loaded 5 4 [] fun _ => ⟨0, 0, fun _ _ => false⟩)
    [.link 3, .crop (some 1) none none none false]).generate
      (fun _ _ _ _ => .ok ⟨fun _ _ => 1, [[(0, 1), (1, 1)]]⟩) ⟨some "warp", 10⟩).1 =
    .ok (⟨fun _ _ => 1, [[(0, 1), (1, 1)]]⟩, 3) := rfl

end DefDAP
