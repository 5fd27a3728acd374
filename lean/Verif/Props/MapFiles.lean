import Verif.Model.MapFiles
import Verif.Proofs.Datastore
import Verif.Proofs.Text

/-! C101 (maps in experiments) and C102 (files of a map). -/

namespace DefDAP

/-! ### Experiments -/

theorem addMap_other (w : Experiments) (e k : Nat) (name : String) (obj : Nat) {i : Nat} (h : i ≠ e) :
    addMap w e k name obj i = w i := by
  unfold addMap
  rw [if_neg h]

theorem addMap_same (w : Experiments) (e k : Nat) (name : String) (obj : Nat) :
    addMap w e k name obj e = (w e).modify k fun maps => dset maps name obj := by
  unfold addMap
  rw [if_pos rfl]

theorem addIncrement_same (w : Experiments) (e : Nat) : addIncrement w e e = w e ++ [[]] := by
  unfold addIncrement
  rw [if_pos rfl]

theorem addIncrement_other (w : Experiments) (e : Nat) {i : Nat} (h : i ≠ e) : addIncrement w e i = w i := by
  unfold addIncrement
  rw [if_neg h]

/-- **C101**: a map created without an increment is, whether loading ends well or not, the only map of a
new increment at the end of its experiment, the anonymous one if none is given; nothing else changes. -/
theorem C101_new (w : Experiments) (obj : Nat) (experiment : Option Nat) (name : String)
    (load : Except Err Unit) :
    (mapInit w obj experiment none name load).1 = load ∧
    (mapInit w obj experiment none name load).2 (experiment.getD 0) =
      w (experiment.getD 0) ++ [[(name, obj)]] ∧
    ∀ i, i ≠ experiment.getD 0 → (mapInit w obj experiment none name load).2 i = w i := by
  refine ⟨rfl, ?_, fun i hi => ?_⟩
  · show addMap (addIncrement w _) _ _ name obj _ = _
    rw [addMap_same, addIncrement_same]
    apply List.ext_getElem?
    intro k
    rw [List.getElem?_modify]
    rcases Nat.lt_trichotomy k (w (experiment.getD 0)).length with h | h | h
    · rw [List.getElem?_append_left h, List.getElem?_append_left h]
      simp [Nat.ne_of_gt h]
    · subst h
      simp [dset]
    · obtain ⟨j, rfl⟩ : ∃ j, k = (w (experiment.getD 0)).length + (j + 1) := ⟨k - (w (experiment.getD 0)).length - 1, by omega⟩
      simp
  · show addMap (addIncrement w _) _ _ name obj _ = _
    rw [addMap_other _ _ _ _ _ hi, addIncrement_other _ _ hi]

/-- **C101**: a map created with an increment is, whether loading ends well or not, in this increment under
its name, where it replaces a map of the same name; nothing else changes. -/
theorem C101_increment (w : Experiments) (obj : Nat) (experiment : Option Nat) (e k : Nat)
    (name : String) (load : Except Err Unit) (maps : List (String × Nat)) (hk : (w e)[k]? = some maps)
    (he : experiment = none ∨ experiment = some e) :
    (mapInit w obj experiment (some (e, k)) name load).1 = load ∧
    (∃ maps', ((mapInit w obj experiment (some (e, k)) name load).2 e)[k]? = some maps' ∧
      ∀ n, dget maps' n = if n = name then some obj else dget maps n) ∧
    (∀ j, j ≠ k → ((mapInit w obj experiment (some (e, k)) name load).2 e)[j]? = (w e)[j]?) ∧
    ∀ i, i ≠ e → (mapInit w obj experiment (some (e, k)) name load).2 i = w i := by
  have hm : mapInit w obj experiment (some (e, k)) name load = (load, addMap w e k name obj) := by
    unfold mapInit
    rcases he with rfl | rfl <;> simp
  rw [hm]
  refine ⟨rfl, ⟨dset maps name obj, ?_, fun n => ?_⟩, fun j hj => ?_, fun i hi => ?_⟩
  · show (addMap w e k name obj e)[k]? = _
    rw [addMap_same, List.getElem?_modify, hk]
    simp
  · rw [dget_dset]
    by_cases h : n = name
    · subst h; simp
    · rw [if_neg h, if_neg (by simpa [eq_comm] using h)]
  · show (addMap w e k name obj e)[j]? = _
    rw [addMap_same, List.getElem?_modify]
    simp [Ne.symm hj]
  · exact addMap_other _ _ _ _ _ hi

/-- **C101**: an increment that belongs to another experiment than the one given is refused and nothing
changes. -/
theorem C101_refused (w : Experiments) (obj e' e k : Nat) (name : String) (load : Except Err Unit)
    (h : e' ≠ e) :
    mapInit w obj (some e') (some (e, k)) name load = (.error .assertionError, w) := by
  unfold mapInit
  simp [h]

/-- **C101**: iterating gives each map of that name with the number of its increment, in order. -/
theorem C101_iter (incs : List (List (String × Nat))) (name : String) :
    (∀ k m, (k, m) ∈ iterOverMaps incs name ↔ ∃ maps, incs[k]? = some maps ∧ dget maps name = some m) ∧
    (iterOverMaps incs name).Pairwise fun a b => a.1 < b.1 := by
  refine ⟨fun k m => ?_, ?_⟩
  · unfold iterOverMaps
    rw [List.mem_filterMap]
    constructor
    · rintro ⟨⟨maps, k'⟩, h1, h2⟩
      rw [List.mk_mem_zipIdx_iff_getElem?] at h1
      simp only [Option.map_eq_some_iff, Prod.mk.injEq] at h2
      obtain ⟨m', h3, rfl, rfl⟩ := h2
      exact ⟨maps, h1, h3⟩
    · rintro ⟨maps, h1, h2⟩
      exact ⟨(maps, k), by rw [List.mk_mem_zipIdx_iff_getElem?]; exact h1, by simp [h2]⟩
  · unfold iterOverMaps
    rw [List.pairwise_filterMap]
    have : ∀ (l : List (List (String × Nat))) (n : Nat), (l.zipIdx n).Pairwise fun a b => a.2 < b.2 := by
      intro l
      induction l with
      | nil => intro n; simp
      | cons a t ih =>
        intro n
        rw [List.zipIdx_cons, List.pairwise_cons]
        refine ⟨fun b hb => ?_, ih (n + 1)⟩
        have := List.le_snd_of_mem_zipIdx hb
        simp only
        omega
    refine (this incs 0).imp ?_
    rintro ⟨a, i⟩ ⟨b, j⟩ hij ⟨x, m⟩ hx ⟨y, m'⟩ hy
    simp only [Option.map_eq_some_iff, Prod.mk.injEq] at hx hy
    obtain ⟨_, _, rfl, _⟩ := hx
    obtain ⟨_, _, rfl, _⟩ := hy
    exact hij

/-- **C101** over any history without increments given: the increments of an experiment are one for each
call for it, in order, those that failed to load as well. -/
theorem C101_history (w : Experiments) (calls : List MapCall) (hn : ∀ c ∈ calls, c.increment = none) (e : Nat) :
    mapInits w calls e =
      w e ++ (calls.filter fun c => c.experiment.getD 0 = e).map fun c => [(c.name, c.obj)] := by
  induction calls generalizing w with
  | nil => simp [mapInits]
  | cons c t ih =>
    have hc : c.increment = none := hn c (by simp)
    have hstep : mapInits w (c :: t) = mapInits (mapInit w c.obj c.experiment c.increment c.name c.load).2 t := rfl
    rw [hstep, ih _ fun c' hc' => hn c' (by simp [hc']), hc]
    obtain ⟨-, h1, h2⟩ := C101_new w c.obj c.experiment c.name c.load
    by_cases he : c.experiment.getD 0 = e
    · subst he
      rw [h1]
      simp
    · rw [h2 e (Ne.symm he)]
      simp [he]

/-- **C101** fails for maps that can not be loaded: after the error the map, without data, is found in its
experiment like any other. -/
theorem C101_failed (w : Experiments) (obj : Nat) (experiment : Option Nat) (name : String) (err : Err) :
    (mapInit w obj experiment none name (.error err)).1 = .error err ∧
    ((w (experiment.getD 0)).length, obj) ∈
      iterOverMaps ((mapInit w obj experiment none name (.error err)).2 (experiment.getD 0)) name := by
  obtain ⟨h0, h1, -⟩ := C101_new w obj experiment name (.error err)
  refine ⟨h0, ?_⟩
  rw [(C101_iter _ name).1, h1]
  exact ⟨[(name, obj)], by simp, by simp [dget]⟩

/-- Two maps in two experiments, then a third in the increment of the first. -/
example : ∃ w : Experiments, ∃ maps, (w 1)[0]? = some maps ∧
    w = mapInits (fun _ => []) [⟨7, some 1, none, "ebsd", .ok ()⟩, ⟨8, none, none, "hrdic", .error .fileNotFoundError⟩] ∧
    w 1 = [[("ebsd", 7)]] ∧ w 0 = [[("hrdic", 8)]] := by
  refine ⟨_, [("ebsd", 7)], ?_, rfl, ?_, ?_⟩ <;> decide +kernel

/-! ### Files -/

theorem lastDot_none : ∀ {s : Str}, '.' ∉ s → lastDot s = none
  | [], _ => rfl
  | c :: s, h => by
    rw [lastDot, lastDot_none (fun hs => h (by simp [hs]))]
    simp only
    rw [if_neg]
    rintro rfl
    exact h (by simp)

theorem lastDot_append (b s : Str) (h : '.' ∉ s) : lastDot (b ++ '.' :: s) = some b.length := by
  induction b with
  | nil => simp [lastDot, lastDot_none h]
  | cons c b ih => simp [lastDot, ih]

theorem suffixStart_append {b s : Str} (hb : b ≠ []) (hs : s ≠ []) (h : '.' ∉ s) :
    suffixStart (b ++ '.' :: s) = some b.length := by
  unfold suffixStart
  rw [lastDot_append b s h]
  simp only
  have h1 := List.length_pos_of_ne_nil hb
  have h2 := List.length_pos_of_ne_nil hs
  rw [if_pos ⟨h1, by simp; omega⟩]

theorem pathSuffix_append {b s : Str} (hb : b ≠ []) (hs : s ≠ []) (h : '.' ∉ s) :
    pathSuffix (b ++ '.' :: s) = '.' :: s := by
  unfold pathSuffix
  rw [suffixStart_append hb hs h]
  simp

theorem withSuffix_append {b s : Str} (hb : b ≠ []) (hs : s ≠ []) (h : '.' ∉ s) (t : Str) :
    withSuffix (b ++ '.' :: s) t = b ++ t := by
  unfold withSuffix
  rw [suffixStart_append hb hs h]
  simp

/-- **C102**: without a data type, the file is read that has the name given, as what its extension says; for
the two extensions of binary files the pair with this name is read. -/
theorem C102_extension {b : Str} (hb : b ≠ []) :
    ebsdFiles (.name (b ++ lit ".ctf")) none = .ok (.oxfordText, [b ++ lit ".ctf"]) ∧
    ebsdFiles (.name (b ++ lit ".ang")) none = .ok (.edaxAng, [b ++ lit ".ang"]) ∧
    ebsdFiles (.name (b ++ lit ".cpr")) none = .ok (.oxfordBinary, [b ++ lit ".cpr", b ++ lit ".crc"]) ∧
    ebsdFiles (.name (b ++ lit ".crc")) none = .ok (.oxfordBinary, [b ++ lit ".cpr", b ++ lit ".crc"]) := by
  have key : ∀ s : Str, s ≠ [] → '.' ∉ s → pathSuffix (b ++ '.' :: s) = '.' :: s ∧
      ∀ t, withSuffix (b ++ '.' :: s) t = b ++ t :=
    fun s hs h => ⟨pathSuffix_append hb hs h, withSuffix_append hb hs h⟩
  obtain ⟨a1, -⟩ := key (lit "ctf") (by decide) (by decide)
  obtain ⟨a2, -⟩ := key (lit "ang") (by decide) (by decide)
  obtain ⟨a3, b3⟩ := key (lit "cpr") (by decide) (by decide)
  obtain ⟨a4, b4⟩ := key (lit "crc") (by decide) (by decide)
  have e1 : getEbsdLoader none (b ++ lit ".ctf") = .ok .oxfordText := by
    unfold getEbsdLoader
    rw [show pathSuffix (b ++ lit ".ctf") = lit ".ctf" from a1]
    decide
  have e2 : getEbsdLoader none (b ++ lit ".ang") = .ok .edaxAng := by
    unfold getEbsdLoader
    rw [show pathSuffix (b ++ lit ".ang") = lit ".ang" from a2]
    decide
  have e3 : getEbsdLoader none (b ++ lit ".cpr") = .ok .oxfordBinary := by
    unfold getEbsdLoader
    rw [show pathSuffix (b ++ lit ".cpr") = lit ".cpr" from a3]
    decide
  have e4 : getEbsdLoader none (b ++ lit ".crc") = .ok .oxfordBinary := by
    unfold getEbsdLoader
    rw [show pathSuffix (b ++ lit ".crc") = lit ".crc" from a4]
    decide
  refine ⟨?_, ?_, ?_, ?_⟩
  · simp only [ebsdFiles, e1]; rfl
  · simp only [ebsdFiles, e2]; rfl
  · simp only [ebsdFiles, e3]
    show Except.ok (EbsdLoader.oxfordBinary, [withSuffix (b ++ lit ".cpr") _, withSuffix (b ++ lit ".cpr") _]) = _
    rw [show ∀ t, withSuffix (b ++ lit ".cpr") t = b ++ t from b3, show ∀ t, withSuffix (b ++ lit ".cpr") t = b ++ t from b3]
  · simp only [ebsdFiles, e4]
    show Except.ok (EbsdLoader.oxfordBinary, [withSuffix (b ++ lit ".crc") _, withSuffix (b ++ lit ".crc") _]) = _
    rw [show ∀ t, withSuffix (b ++ lit ".crc") t = b ++ t from b4, show ∀ t, withSuffix (b ++ lit ".crc") t = b ++ t from b4]

/-- **C102**: a name without a dot stands for the pair of binary files of this name. -/
theorem C102_bare {b : Str} (h : '.' ∉ b) :
    ebsdFiles (.name b) none = .ok (.oxfordBinary, [b ++ lit ".cpr", b ++ lit ".crc"]) := by
  have e : suffixStart b = none := by
    unfold suffixStart
    rw [lastDot_none h]
  have e1 : getEbsdLoader none b = .ok .oxfordBinary := by
    unfold getEbsdLoader
    rw [show pathSuffix b = [] by unfold pathSuffix; rw [e]]
    decide
  simp only [ebsdFiles, e1]
  show Except.ok (EbsdLoader.oxfordBinary, [withSuffix b _, withSuffix b _]) = _
  unfold withSuffix
  rw [e]

/-- The names of the types, as documented. -/
def Spec.typeName : EbsdLoader → Str
  | .oxfordBinary => lit "OxfordBinary"
  | .oxfordText => lit "OxfordText"
  | .edaxAng => lit "EdaxAng"
  | .pythonDict => lit "PythonDict"

/-- **C102**: a data type that is given decides, whatever the name of the file; capitals do not matter; all
other types are refused. -/
theorem C102_type (dataType name : Str) :
    (∀ l, lowerStr dataType = lowerStr (Spec.typeName l) → getEbsdLoader (some dataType) name = .ok l) ∧
    ((∀ l, lowerStr dataType ≠ lowerStr (Spec.typeName l)) →
      getEbsdLoader (some dataType) name = .error .valueError) := by
  constructor
  · intro l hl
    unfold getEbsdLoader
    simp only [Option.getD_some, hl]
    cases l <;> decide
  · intro h
    unfold getEbsdLoader
    simp only [Option.getD_some]
    rw [if_neg (by have := h .oxfordBinary; rwa [show lowerStr (Spec.typeName .oxfordBinary) = lit "oxfordbinary" by decide] at this),
      if_neg (by have := h .oxfordText; rwa [show lowerStr (Spec.typeName .oxfordText) = lit "oxfordtext" by decide] at this),
      if_neg (by have := h .edaxAng; rwa [show lowerStr (Spec.typeName .edaxAng) = lit "edaxang" by decide] at this),
      if_neg (by have := h .pythonDict; rwa [show lowerStr (Spec.typeName .pythonDict) = lit "pythondict" by decide] at this)]

/-- **C102**: a map saved under a name is read again under this name with `.ctf`, without a data type. -/
theorem C102_saved {b : Str} (hb : b ≠ []) :
    ∃ file, savedName b none = .ok file ∧ file = b ++ lit ".ctf" ∧
      ebsdFiles (.name file) none = .ok (.oxfordText, [file]) :=
  ⟨_, rfl, rfl, (C102_extension hb).1⟩

/-- **C102** fails for the type of the file saved: names accepted for loading are refused. -/
theorem C102_save_type {dataType : Str} (b : Str) (h : dataType ≠ lit "OxfordText") :
    savedName b (some dataType) = .error .valueError ∧
    getEbsdLoader (some (lit "oxfordtext")) b = .ok .oxfordText ∧ lit "oxfordtext" ≠ lit "OxfordText" := by
  refine ⟨?_, (C102_type _ b).1 .oxfordText (by decide), by decide⟩
  unfold savedName getEbsdWriter
  simp only [Option.getD_some]
  rw [if_neg h]
  rfl

/-- **C102** fails for names without extension that have a dot, as in `scan.1`: the part from the last dot on
is dropped, so that all these names stand for the same files. -/
theorem C102_dots {b s : Str} (hb : b ≠ []) (hs : s ≠ []) (hd : '.' ∉ s) (hctf : s ≠ lit "ctf")
    (hang : s ≠ lit "ang") :
    ebsdFiles (.name (b ++ '.' :: s)) none = .ok (.oxfordBinary, [b ++ lit ".cpr", b ++ lit ".crc"]) := by
  have e1 : getEbsdLoader none (b ++ '.' :: s) = .ok .oxfordBinary := by
    unfold getEbsdLoader
    rw [pathSuffix_append hb hs hd]
    have : typeOfSuffix ('.' :: s) = lit "oxfordbinary" := by
      unfold typeOfSuffix
      have h1 : ¬ '.' :: s = lit ".ctf" := fun h => hctf (by injection h)
      have h2 : ¬ '.' :: s = lit ".ang" := fun h => hang (by injection h)
      rw [if_neg h1, if_neg h2]
      split_ifs <;> rfl
    rw [Option.getD_none, this]
    decide
  simp only [ebsdFiles, e1]
  show Except.ok (EbsdLoader.oxfordBinary, [withSuffix (b ++ '.' :: s) _, withSuffix (b ++ '.' :: s) _]) = _
  rw [withSuffix_append hb hs hd, withSuffix_append hb hs hd]

/-- **C102** fails for extensions in capitals: a text file is taken for a pair of binary files. -/
theorem C102_capitals {b : Str} (hb : b ≠ []) :
    ebsdFiles (.name (b ++ lit ".CTF")) none = .ok (.oxfordBinary, [b ++ lit ".cpr", b ++ lit ".crc"]) :=
  C102_dots hb (s := lit "CTF") (by decide) (by decide) (by decide) (by decide)

/-- **C102** fails for dictionaries: the documented type `PythonDict` can not be used to create a map. -/
theorem C102_dict (dataType : Option Str) : ebsdFiles .dict dataType = .error .typeError := rfl

theorem toLower_hyphen {c : Char} (hc : c.toLower = '-') : c = '-' := by
  unfold Char.toLower at hc
  split_ifs at hc with h
  · exfalso
    have h1 := congrArg Char.val hc
    simp only at h1
    have h2 : c.val ≥ 65 := h.1
    have h3 : c.val ≤ 90 := h.2
    have h4 : ('-').val = 45 := rfl
    rw [h4] at h1
    have := congrArg UInt32.toNat h1
    rw [UInt32.toNat_add] at this
    have h5 : c.val.toNat ≥ 65 := h2
    have h6 : c.val.toNat ≤ 90 := h3
    have h7 : c.toNat = c.val.toNat := rfl
    simp at this
    rw [h7] at this
    omega
  · exact hc

theorem lowerStr_hyphen {s : Str} (h : '-' ∉ s) : '-' ∉ lowerStr s := by
  unfold lowerStr
  rw [List.mem_map]
  rintro ⟨c, hc, h1⟩
  rw [toLower_hyphen h1] at hc
  exact h hc

/-- The types of DIC data, as documented, in lower case. -/
def Spec.dicType : DicLoader → List Str
  | .davis => [lit "davis"]
  | .openPivText => [lit "openpiv", lit "openpivtext"]
  | .openPivBinary => [lit "openpivbinary"]
  | .pyVale => [lit "pyvale"]

/-- **C102** for DIC data: the part before the first hyphen, in any case, chooses the loader and the part
after it is its file type; Davis is the default; all other types are refused. -/
theorem C102_dic {t s : Str} (ht : '-' ∉ t) (hs : '-' ∉ s) :
    getDicLoader none = .ok (.davis, []) ∧
    (∀ l, lowerStr t ∈ Spec.dicType l →
      getDicLoader (some t) = .ok (l, []) ∧ getDicLoader (some (t ++ '-' :: s)) = .ok (l, lowerStr s)) ∧
    ((∀ l, lowerStr t ∉ Spec.dicType l) →
      getDicLoader (some t) = .error .valueError ∧
      getDicLoader (some (t ++ '-' :: s)) = .error .valueError) := by
  have e1 : splitSep '-' (lowerStr t) = [lowerStr t] := splitSep_one (lowerStr_hyphen ht)
  have e2 : splitSep '-' (lowerStr (t ++ '-' :: s)) = [lowerStr t, lowerStr s] := by
    have : lowerStr (t ++ '-' :: s) = lowerStr t ++ '-' :: lowerStr s := by
      simp [lowerStr]
    rw [this, splitSep_cons (lowerStr_hyphen ht), splitSep_one (lowerStr_hyphen hs)]
  refine ⟨by decide, fun l hl => ⟨?_, ?_⟩, fun h => ⟨?_, ?_⟩⟩
  · unfold getDicLoader
    simp only [Option.getD_some, e1]
    cases l <;> simp only [Spec.dicType, List.mem_cons, List.not_mem_nil, or_false] at hl
    · rw [hl]; decide
    · rcases hl with hl | hl <;> rw [hl] <;> decide
    · rw [hl]; decide
    · rw [hl]; decide
  · unfold getDicLoader
    simp only [Option.getD_some, e2]
    cases l <;> simp only [Spec.dicType, List.mem_cons, List.not_mem_nil, or_false] at hl
    · simp [hl, lit]
    · rcases hl with hl | hl <;> simp [hl, lit]
    · simp [hl, lit]
    · simp [hl, lit]
  all_goals
    have h1 := h .davis
    have h2 := h .openPivText
    have h3 := h .openPivBinary
    have h4 := h .pyVale
    simp only [Spec.dicType, List.mem_cons, List.not_mem_nil, or_false, not_or] at h1 h2 h3 h4
    unfold getDicLoader
  · simp only [Option.getD_some, e1]
    simp [h1, h2.1, h2.2, h3, h4]
  · simp only [Option.getD_some, e2]
    simp [h1, h2.1, h2.2, h3, h4]

/-- Names with several dots, and a type in mixed case with a file type. -/
example : lit "a.b" ≠ [] ∧ ebsdFiles (.name (lit "a.b.ctf")) none = .ok (.oxfordText, [lit "a.b.ctf"]) ∧
    lowerStr (lit "oxfordTEXT") = lowerStr (Spec.typeName .oxfordText) ∧
    lowerStr (lit "OpenPIV") ∈ Spec.dicType .openPivText ∧
    ebsdFiles (.name (lit "scan.1")) none = ebsdFiles (.name (lit "scan.2")) none := by
  refine ⟨by decide, (C102_extension (b := lit "a.b") (by decide)).1, by decide, by decide, ?_⟩
  exact (C102_dots (b := lit "scan") (s := lit "1") (by decide) (by decide) (by decide) (by decide)
    (by decide)).trans (C102_dots (b := lit "scan") (s := lit "2") (by decide) (by decide) (by decide)
    (by decide) (by decide)).symm

end DefDAP
