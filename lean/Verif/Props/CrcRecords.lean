import Verif.Model.Oxford
import Mathlib.Tactic.Linarith
import Mathlib.Tactic.Ring

/-! C66: records of CRC files. -/

namespace DefDAP

/-! ### Specification -/

/-- The fields of the Oxford binary format: number, name, bytes. -/
def Spec.crcTable : List (Int × Str × Nat) :=
  [(3, lit "ph1", 4), (4, lit "phi", 4), (5, lit "ph2", 4), (6, lit "MAD", 4), (7, lit "BC", 1),
   (8, lit "BS", 1), (10, lit "numBands", 1), (11, lit "AFI", 1), (12, lit "IB6", 4)]

/-- Field `id` has this name and this number of bytes: from the table, or the EDX window `id - 100`
(counted from one). -/
def Spec.CrcField (windows : List Str) (id : Int) (name : Str) (bytes : Nat) : Prop :=
  (id ≤ 100 ∧ (id, name, bytes) ∈ Spec.crcTable) ∨
  (∃ (i : Nat) (w : Str), windows[i]? = some w ∧ id = 101 + i ∧ name = lit "EDX " ++ w ∧ bytes = 4)

/-- The group `Fields` of the metadata lists these field numbers, in this order. -/
def Spec.ListsFields (metadata : List (Str × List (Str × Str))) (ids : List Int) : Prop :=
  ∃ f, strGet metadata (lit "Fields") = .ok f ∧
    (∃ s, strGet f (lit "Count") = .ok s ∧ parseInt s = .ok (ids.length : Int)) ∧
    ∀ i (h : i < ids.length), ∃ s,
      strGet f (lit "Field" ++ natStr (i + 1)) = .ok s ∧ parseInt s = .ok ids[i]

/-- The bytes of a pixel, field by field, have the sizes of the fields. -/
def Spec.PixelFits {β : Type} (sizes : List Nat) (pixel : List (List β)) : Prop :=
  pixel.map List.length = sizes

/-- The file: the fields of the first pixel, those of the second, and so on. -/
def Spec.crcBytes {β : Type} (pixels : List (List (List β))) : List β :=
  (pixels.map List.flatten).flatten

/-- What field `k` holds, pixel by pixel. -/
def Spec.column {β : Type} (k : Nat) (pixels : List (List (List β))) : List (List β) :=
  pixels.map fun p => p.getD k []

/-! ### Proofs -/

theorem fieldOf_known {windows : List Str} {id : Int} {name : Str} {b : Nat}
    (h : Spec.CrcField windows id name b) :
    ∃ t : FieldType, fieldOf windows id = some (name, t) ∧ t.size = b := by
  rcases h with ⟨hid, h⟩ | ⟨i, w, hw, hid, hn, hb⟩
  · unfold fieldOf
    rw [if_neg (by omega)]
    simp only [Spec.crcTable, List.mem_cons, List.not_mem_nil, or_false, Prod.mk.injEq] at h
    rcases h with ⟨rfl, rfl, rfl⟩ | ⟨rfl, rfl, rfl⟩ | ⟨rfl, rfl, rfl⟩ | ⟨rfl, rfl, rfl⟩ |
      ⟨rfl, rfl, rfl⟩ | ⟨rfl, rfl, rfl⟩ | ⟨rfl, rfl, rfl⟩ | ⟨rfl, rfl, rfl⟩ | ⟨rfl, rfl, rfl⟩ <;>
      exact ⟨_, rfl, rfl⟩
  · have hi : i < windows.length := by
      by_contra hc
      rw [List.getElem?_eq_none (by omega)] at hw
      exact absurd hw (by simp)
    refine ⟨.float32, ?_, hb.symm⟩
    unfold fieldOf
    rw [if_pos (by omega)]
    have : (id - 101).toNat = i := by omega
    rw [this, hw, hn]
    rfl

theorem fieldOf_unknown {windows : List Str} {id : Int}
    (h : ∀ name b, ¬ Spec.CrcField windows id name b) : fieldOf windows id = none := by
  unfold fieldOf
  split
  · next hc =>
    exfalso
    have hi : (id - 101).toNat < windows.length := by omega
    exact h _ _ (Or.inr ⟨(id - 101).toNat, windows[(id - 101).toNat], List.getElem?_eq_getElem hi,
      by omega, rfl, rfl⟩)
  · unfold fieldLookup
    split
    · next e => subst e; exact absurd (Or.inl ⟨by decide, by decide⟩) (h (lit "ph1") 4)
    split
    · next e => subst e; exact absurd (Or.inl ⟨by decide, by decide⟩) (h (lit "phi") 4)
    split
    · next e => subst e; exact absurd (Or.inl ⟨by decide, by decide⟩) (h (lit "ph2") 4)
    split
    · next e => subst e; exact absurd (Or.inl ⟨by decide, by decide⟩) (h (lit "MAD") 4)
    split
    · next e => subst e; exact absurd (Or.inl ⟨by decide, by decide⟩) (h (lit "BC") 1)
    split
    · next e => subst e; exact absurd (Or.inl ⟨by decide, by decide⟩) (h (lit "BS") 1)
    split
    · next e => subst e; exact absurd (Or.inl ⟨by decide, by decide⟩) (h (lit "numBands") 1)
    split
    · next e => subst e; exact absurd (Or.inl ⟨by decide, by decide⟩) (h (lit "AFI") 1)
    split
    · next e => subst e; exact absurd (Or.inl ⟨by decide, by decide⟩) (h (lit "IB6") 4)
    rfl

/-- The loop over a list of known fields. -/
theorem fieldLoop_known (windows : List Str) (f : List (Str × Str)) :
    ∀ (ids : List Int) (fs : List (Str × FieldType)) (n i : Nat) (last : Option Int)
      (fmt : List (Str × FieldType)),
      ids.map (fieldOf windows) = fs.map some →
      (∀ j (h : j < ids.length), ∃ s,
        strGet f (lit "Field" ++ natStr (i + j + 1)) = .ok s ∧ parseInt s = .ok ids[j]) →
      ∃ last', fieldLoop windows f (ids.length + n) i last fmt =
        fieldLoop windows f n (i + ids.length) last' (fmt ++ fs) := by
  intro ids
  induction ids with
  | nil =>
    intro fs n i last fmt hfs _
    cases fs with
    | nil => exact ⟨last, by simp⟩
    | cons a t => simp at hfs
  | cons id ids ih =>
    intro fs n i last fmt hfs hs
    cases fs with
    | nil => simp at hfs
    | cons a t =>
      rw [List.map_cons, List.map_cons, List.cons.injEq] at hfs
      obtain ⟨s, hs1, hs2⟩ := hs 0 (by simp)
      rw [List.getElem_cons_zero] at hs2
      rw [Nat.add_zero] at hs1
      obtain ⟨l, hl⟩ := ih t n (i + 1) (some id) (fmt ++ [a]) hfs.2 (by
        intro j hj
        obtain ⟨s', h1, h2⟩ := hs (j + 1) (by simp; omega)
        refine ⟨s', ?_, by simpa using h2⟩
        rw [show i + 1 + j + 1 = i + (j + 1) + 1 by omega]
        exact h1)
      refine ⟨l, ?_⟩
      rw [List.length_cons, show ids.length + 1 + n = (ids.length + n) + 1 by omega]
      conv_lhs => unfold fieldLoop
      unfold numbered
      rw [hs1]
      simp only [hs2, Except.bind, hfs.1]
      rw [hl, show i + 1 + ids.length = i + (ids.length + 1) by omega]
      simp

theorem known_all {windows : List Str} : ∀ {ids : List Int} {names : List Str} {sizes : List Nat},
    List.Forall₂ (fun id (f : Str × Nat) => Spec.CrcField windows id f.1 f.2) ids
      (names.zip sizes) → names.length = sizes.length →
    ∃ fs : List (Str × FieldType), ids.map (fieldOf windows) = fs.map some ∧
      fs.map (fun f => f.1) = names ∧ fs.map (fun f => f.2.size) = sizes := by
  intro ids
  induction ids with
  | nil =>
    intro names sizes h hl
    cases names with
    | nil => cases sizes with
      | nil => exact ⟨[], rfl, rfl, rfl⟩
      | cons b s => simp at hl
    | cons a n => cases sizes with
      | nil => simp at hl
      | cons b s => cases h
  | cons id ids ih =>
    intro names sizes h hl
    cases names with
    | nil => cases h
    | cons a n => cases sizes with
      | nil => simp at hl
      | cons b s =>
        rw [List.zip_cons_cons, List.forall₂_cons] at h
        obtain ⟨t, ht, hb⟩ := fieldOf_known h.1
        obtain ⟨fs, h1, h2, h3⟩ := ih h.2 (by simpa using hl)
        exact ⟨(a, t) :: fs, by simp [ht, h1], by simp [h2], by simp [hb, h3]⟩

theorem fieldFormat_known {windows : List Str} {metadata : List (Str × List (Str × Str))}
    {ids : List Int} {fs : List (Str × FieldType)} (hids : Spec.ListsFields metadata ids)
    (hfs : ids.map (fieldOf windows) = fs.map some) :
    fieldFormat windows metadata = .ok ((lit "phase", .uint8) :: fs) := by
  obtain ⟨f, hf, ⟨s, hs, hn⟩, hi⟩ := hids
  obtain ⟨l, hl⟩ := fieldLoop_known windows f ids fs 0 0 none [(lit "phase", .uint8)] hfs (by
    intro j hj
    rw [Nat.zero_add]
    exact hi j hj)
  unfold fieldFormat
  simp only [hf, Except.bind, hs, hn, Int.toNat_natCast]
  rw [Nat.add_zero] at hl
  rw [hl]
  rfl

theorem fieldFormat_unknown {windows : List Str} {metadata : List (Str × List (Str × Str))}
    {known : List Int} {u : Int} {rest : List Int} {fs : List (Str × FieldType)}
    (hids : Spec.ListsFields metadata (known ++ u :: rest))
    (hfs : known.map (fieldOf windows) = fs.map some)
    (hu : ∀ name b, ¬ Spec.CrcField windows u name b) :
    fieldFormat windows metadata =
      .ok ((lit "phase", .uint8) :: fs ++ [(lit "unknown_1", .float32)]) := by
  obtain ⟨f, hf, ⟨s, hs, hn⟩, hi⟩ := hids
  obtain ⟨l, hl⟩ := fieldLoop_known windows f known fs (rest.length + 1) 0 none
    [(lit "phase", .uint8)] hfs (by
    intro j hj
    obtain ⟨s', h1, h2⟩ := hi j (by simp; omega)
    rw [Nat.zero_add]
    rw [List.getElem_append_left hj] at h2
    exact ⟨s', h1, h2⟩)
  obtain ⟨s', h1, h2⟩ := hi known.length (by simp)
  rw [List.getElem_append_right (le_refl _)] at h2
  simp only [Nat.sub_self, List.getElem_cons_zero] at h2
  unfold fieldFormat
  simp only [hf, Except.bind, hs, hn, Int.toNat_natCast]
  rw [List.length_append, List.length_cons, hl]
  unfold fieldLoop numbered
  rw [Nat.zero_add, h1]
  simp only [h2, Except.bind, fieldOf_unknown hu, unknownField]
  rfl

/-! #### Records -/

theorem fromFile_length {β : Type} {size : Nat} (hs : 0 < size) : ∀ (n : Nat) (bytes : List β),
    bytes.length ≤ n → (fromFile size n bytes).length = bytes.length / size := by
  intro n
  induction n with
  | zero =>
    intro bytes h
    have : bytes.length = 0 := by omega
    rw [this]
    simp [fromFile]
  | succ n ih =>
    intro bytes h
    unfold fromFile
    split
    · next hlt => rw [Nat.div_eq_of_lt hlt]; rfl
    · next hge =>
      rw [List.length_cons, ih _ (by rw [List.length_drop]; omega), List.length_drop]
      exact (Nat.div_eq_sub_div hs (not_lt.mp hge)).symm

theorem fromFile_records {β : Type} {size : Nat} (hs : 0 < size) : ∀ (recs : List (List β))
    (left : List β) (n : Nat), (∀ r ∈ recs, r.length = size) → left.length < size →
    recs.length ≤ n → fromFile size n (recs.flatten ++ left) = recs := by
  intro recs
  induction recs with
  | nil =>
    intro left n _ hl _
    cases n with
    | zero => rfl
    | succ n =>
      unfold fromFile
      rw [if_pos (by simpa using hl)]
  | cons r t ih =>
    intro left n hr hl hn
    cases n with
    | zero => simp at hn
    | succ n =>
      have hlen := hr r (by simp)
      unfold fromFile
      rw [List.flatten_cons, List.append_assoc, if_neg (by rw [List.length_append]; omega),
        ← hlen, List.take_left, List.drop_left, hlen,
        ih left n (fun x hx => hr x (by simp [hx])) hl (by simpa using hn)]

theorem fieldBytes_chunks {β : Type} (name : Str) : ∀ (fmt : List (Str × FieldType))
    (chunks : List (List β)) (k : Nat), chunks.map List.length = fmt.map (fun f => f.2.size) →
    (fmt.map fun f => f.1).Nodup → (fmt.map fun f => f.1)[k]? = some name →
    fieldBytes name fmt chunks.flatten = .ok (chunks.getD k []) := by
  intro fmt
  induction fmt with
  | nil => intro chunks k _ _ h; simp at h
  | cons f fs ih =>
    intro chunks k hc hn hk
    cases chunks with
    | nil => simp at hc
    | cons c cs =>
      rw [List.map_cons, List.map_cons, List.cons.injEq] at hc
      rw [List.map_cons, List.nodup_cons] at hn
      unfold fieldBytes
      cases k with
      | zero =>
        rw [List.map_cons, List.getElem?_cons_zero, Option.some.injEq] at hk
        rw [if_pos hk, List.flatten_cons, ← hc.1, List.take_left]
        rfl
      | succ k =>
        rw [List.map_cons, List.getElem?_cons_succ] at hk
        have hne : f.1 ≠ name := by
          intro e
          exact hn.1 (e ▸ List.mem_of_getElem? hk)
        rw [if_neg hne, List.flatten_cons, ← hc.1, List.drop_left, ih cs k hc.2 hn.2 hk]
        rfl

theorem mapM_fieldBytes {β : Type} (g : List β → Except Err (List β)) :
    ∀ (pixels : List (List (List β))) (k : Nat),
    (∀ p ∈ pixels, g p.flatten = .ok (p.getD k [])) →
    (pixels.map List.flatten).mapM g = .ok (Spec.column k pixels) := by
  intro pixels
  induction pixels with
  | nil => intro k _; rfl
  | cons p t ih =>
    intro k h
    rw [List.map_cons, List.mapM_cons, h p (by simp), ih k (fun q hq => h q (by simp [hq]))]
    rfl

theorem flatten_length {β : Type} : ∀ (p : List (List β)),
    p.flatten.length = (p.map List.length).sum := fun p => List.length_flatten

theorem length_flatten_ge {β : Type} : ∀ (recs : List (List β)) (s : Nat),
    (∀ r ∈ recs, r.length = s) → recs.flatten.length = recs.length * s := by
  intro recs
  induction recs with
  | nil => intro s _; simp
  | cons r t ih =>
    intro s h
    rw [List.flatten_cons, List.length_append, h r (by simp), ih s (fun x hx => h x (by simp [hx])),
      List.length_cons]
    ring

/-- All fields of a file that fits its format. -/
theorem column_records {β : Type} {fmt : List (Str × FieldType)} {rows cols : Int}
    {pixels : List (List (List β))} {left : List β}
    (hfit : ∀ p ∈ pixels, Spec.PixelFits (fmt.map fun f => f.2.size) p)
    (hleft : left.length < itemSize fmt) (hn : (fmt.map fun f => f.1).Nodup)
    (hshape : (pixels.length : Int) = rows * cols) (hr : 0 ≤ rows) (hc : 0 ≤ cols)
    {name : Str} {k : Nat} (hk : (fmt.map fun f => f.1)[k]? = some name) :
    fieldColumn fmt rows cols (fromFile (itemSize fmt) (Spec.crcBytes pixels ++ left).length
      (Spec.crcBytes pixels ++ left)) name = .ok (Spec.column k pixels) := by
  have hlen : ∀ r ∈ pixels.map List.flatten, r.length = itemSize fmt := by
    intro r hr'
    obtain ⟨p, hp, rfl⟩ := List.mem_map.mp hr'
    rw [flatten_length, hfit p hp]
    rfl
  unfold Spec.crcBytes
  rw [fromFile_records (by omega) _ left _ hlen hleft (by
    rw [List.length_append, length_flatten_ge _ _ hlen]
    have : 1 ≤ itemSize fmt := by omega
    nlinarith)]
  unfold fieldColumn
  rw [if_pos (List.mem_of_getElem? hk), if_pos ⟨by rw [List.length_map]; exact hshape, hr, hc⟩]
  exact mapM_fieldBytes _ pixels k fun p hp =>
    fieldBytes_chunks name fmt p k (hfit p hp) hn hk

theorem mapM_columns {β : Type} {fmt : List (Str × FieldType)} {rows cols : Int}
    {pixels : List (List (List β))} {recs : List (List β)}
    (h : ∀ name k, (fmt.map fun f => f.1)[k]? = some name →
      fieldColumn fmt rows cols recs name = .ok (Spec.column k pixels))
    (names : List Str) (hn : ∀ n ∈ names, n ∈ fmt.map fun f => f.1) :
    names.mapM (fun n => (fieldColumn fmt rows cols recs n).bind fun c => Except.ok (n, c)) =
      .ok (names.map fun n => (n, Spec.column ((fmt.map fun f => f.1).idxOf n) pixels)) := by
  induction names with
  | nil => rfl
  | cons a t ih =>
    rw [List.mapM_cons, ih (fun n hn' => hn n (by simp [hn']))]
    have hlt : (fmt.map fun f => f.1).idxOf a < (fmt.map fun f => f.1).length :=
      List.idxOf_lt_length_iff.mpr (hn a (by simp))
    rw [h a ((fmt.map fun f => f.1).idxOf a) (by
      rw [List.getElem?_eq_getElem hlt]; simp)]
    rfl

/-- Names that every file needs. -/
def Spec.crcRequired : List Str :=
  [lit "BC", lit "BS", lit "MAD", lit "ph1", lit "phi", lit "ph2"]

/-- The loaded data is made of the columns of the fields. -/
def Spec.Loaded {β : Type} (names : List Str) (windows : List Str) (pixels : List (List (List β)))
    (d : CrcData β) : Prop :=
  (∀ k, names[k]? = some (lit "BC") → d.contrast = Spec.column k pixels) ∧
  (∀ k, names[k]? = some (lit "BS") → d.slope = Spec.column k pixels) ∧
  (∀ k, names[k]? = some (lit "MAD") → d.mad = Spec.column k pixels) ∧
  (∀ k, names[k]? = some (lit "phase") → d.phase = Spec.column k pixels) ∧
  (∀ k1 k2 k3, names[k1]? = some (lit "ph1") → names[k2]? = some (lit "phi") →
    names[k3]? = some (lit "ph2") →
    d.euler = [Spec.column k1 pixels, Spec.column k2 pixels, Spec.column k3 pixels]) ∧
  (windows = [] → d.edx = []) ∧
  (windows ≠ [] → ∀ name col, (name, col) ∈ d.edx ↔
    ∃ k, names[k]? = some name ∧ lit "EDX" <+: name ∧ col = Spec.column k pixels)

theorem nodup_get {names : List Str} (hn : names.Nodup) {k k' : Nat} {a : Str}
    (h : names[k]? = some a) (h' : names[k']? = some a) : k = k' := by
  obtain ⟨h1, e1⟩ := List.getElem?_eq_some_iff.mp h
  obtain ⟨h2, e2⟩ := List.getElem?_eq_some_iff.mp h'
  exact (List.Nodup.getElem_inj_iff hn).mp (e1.trans e2.symm)

theorem loadCrc_records {β : Type} {fmt : List (Str × FieldType)} {rows cols : Int}
    {windows : List Str} {pixels : List (List (List β))} {left : List β}
    (hfit : ∀ p ∈ pixels, Spec.PixelFits (fmt.map fun f => f.2.size) p)
    (hleft : left.length < itemSize fmt) (hn : (fmt.map fun f => f.1).Nodup)
    (hshape : (pixels.length : Int) = rows * cols) (hr : 0 ≤ rows) (hc : 0 ≤ cols)
    (hreq : ∀ n ∈ lit "phase" :: Spec.crcRequired, n ∈ fmt.map fun f => f.1) :
    ∃ d, loadCrc fmt rows cols windows (Spec.crcBytes pixels ++ left) = .ok d ∧
      Spec.Loaded (fmt.map fun f => f.1) windows pixels d := by
  have hcol := fun (name : Str) (k : Nat) hk =>
    column_records (fmt := fmt) (name := name) (k := k) hfit hleft hn hshape hr hc hk
  have hget : ∀ n ∈ lit "phase" :: Spec.crcRequired, ∃ k, (fmt.map fun f => f.1)[k]? = some n :=
    fun n h => List.mem_iff_getElem?.mp (hreq n h)
  obtain ⟨k1, h1⟩ := hget (lit "BC") (by decide)
  obtain ⟨k2, h2⟩ := hget (lit "BS") (by decide)
  obtain ⟨k3, h3⟩ := hget (lit "MAD") (by decide)
  obtain ⟨k4, h4⟩ := hget (lit "phase") (by decide)
  obtain ⟨k5, h5⟩ := hget (lit "ph1") (by decide)
  obtain ⟨k6, h6⟩ := hget (lit "phi") (by decide)
  obtain ⟨k7, h7⟩ := hget (lit "ph2") (by decide)
  unfold loadCrc
  simp only [hcol _ _ h1, hcol _ _ h2, hcol _ _ h3, hcol _ _ h4, hcol _ _ h5, hcol _ _ h6,
    hcol _ _ h7, Except.bind]
  have hbase : ∀ e : List (Str × List (List β)),
      ((windows = [] → e = []) ∧ (windows ≠ [] → ∀ name col, (name, col) ∈ e ↔
        ∃ k, (fmt.map fun f => f.1)[k]? = some name ∧ lit "EDX" <+: name ∧
          col = Spec.column k pixels)) →
      Spec.Loaded (fmt.map fun f => f.1) windows pixels
        ⟨Spec.column k1 pixels, Spec.column k2 pixels, Spec.column k3 pixels,
          Spec.column k4 pixels,
          [Spec.column k5 pixels, Spec.column k6 pixels, Spec.column k7 pixels], e⟩ := by
    intro e he
    refine ⟨?_, ?_, ?_, ?_, ?_, he.1, he.2⟩
    · intro k hk; rw [nodup_get hn hk h1]
    · intro k hk; rw [nodup_get hn hk h2]
    · intro k hk; rw [nodup_get hn hk h3]
    · intro k hk; rw [nodup_get hn hk h4]
    · intro a b c ha hb hc'
      rw [nodup_get hn ha h5, nodup_get hn hb h6, nodup_get hn hc' h7]
  by_cases hw : windows = []
  · rw [if_neg (by simp [hw])]
    exact ⟨_, rfl, hbase _ ⟨fun _ => rfl, fun h => absurd hw h⟩⟩
  · rw [if_pos (List.length_pos_iff.mpr hw)]
    have hm := mapM_columns hcol ((fmt.map fun f => f.1).filter fun n => (lit "EDX").isPrefixOf n)
      (fun n hn' => (List.mem_filter.mp hn').1)
    simp only [Except.bind] at hm
    rw [hm]
    refine ⟨_, rfl, hbase _ ⟨fun h => absurd h hw, ?_⟩⟩
    intro _ name col
    constructor
    · intro hmem
      obtain ⟨n, hn1, hn2⟩ := List.mem_map.mp hmem
      obtain ⟨hf1, hf2⟩ := List.mem_filter.mp hn1
      rw [Prod.mk.injEq] at hn2
      obtain ⟨rfl, rfl⟩ := hn2
      have hlt : (fmt.map fun f => f.1).idxOf n < (fmt.map fun f => f.1).length :=
        List.idxOf_lt_length_iff.mpr hf1
      refine ⟨_, ?_, List.isPrefixOf_iff_prefix.mp hf2, rfl⟩
      rw [List.getElem?_eq_getElem hlt]
      simp
    · rintro ⟨k, hk, hp, rfl⟩
      have hmem := List.mem_of_getElem? hk
      refine List.mem_map.mpr ⟨name, List.mem_filter.mpr ⟨hmem, List.isPrefixOf_iff_prefix.mpr hp⟩, ?_⟩
      have hlt : (fmt.map fun f => f.1).idxOf name < (fmt.map fun f => f.1).length :=
        List.idxOf_lt_length_iff.mpr hmem
      rw [nodup_get hn (k := (fmt.map fun f => f.1).idxOf name) (k' := k) (a := name)
        (by rw [List.getElem?_eq_getElem hlt]; simp) hk]

/-- **C66**: if all listed fields are known, every field gets its own bytes of every pixel; the
phase is always the first byte of a record. Bytes after the last full record are ignored. -/
theorem C66_layout {β : Type} (windows : List Str) (metadata : List (Str × List (Str × Str)))
    (ids : List Int) (names : List Str) (sizes : List Nat) (rows cols : Nat)
    (pixels : List (List (List β))) (left : List β)
    (hids : Spec.ListsFields metadata ids)
    (hlen : names.length = sizes.length)
    (hknown : List.Forall₂ (fun id (f : Str × Nat) => Spec.CrcField windows id f.1 f.2) ids
      (names.zip sizes))
    (hdistinct : (lit "phase" :: names).Nodup)
    (hreq : ∀ n ∈ Spec.crcRequired, n ∈ names)
    (hfit : ∀ p ∈ pixels, Spec.PixelFits (1 :: sizes) p)
    (hshape : pixels.length = rows * cols)
    (hleft : left.length < 1 + sizes.sum) :
    ∃ d, readCrc windows metadata rows cols (Spec.crcBytes pixels ++ left) = .ok d ∧
      Spec.Loaded (lit "phase" :: names) windows pixels d := by
  obtain ⟨fs, h1, h2, h3⟩ := known_all hknown hlen
  have e1 : ((lit "phase", FieldType.uint8) :: fs).map (fun f => f.1) = lit "phase" :: names := by
    simp [h2]
  have e2 : ((lit "phase", FieldType.uint8) :: fs).map (fun f => f.2.size) = 1 :: sizes := by
    rw [List.map_cons, h3]
    rfl
  unfold readCrc
  rw [fieldFormat_known hids h1]
  simp only [Except.bind, makeDtype]
  rw [e1, if_pos hdistinct]
  simp only
  rw [← e1]
  refine loadCrc_records (by rw [e2]; exact hfit) ?_ (by rw [e1]; exact hdistinct)
    (by rw [hshape]; push_cast; ring) (by omega) (by omega) ?_
  · unfold itemSize
    rw [e2, List.sum_cons]
    exact hleft
  · rw [e1]
    intro n hn
    rcases List.mem_cons.mp hn with rfl | hn
    · simp
    · exact List.mem_cons_of_mem _ (hreq n hn)

/-- **C66**: one unknown field at the end of the list is skipped over, if it has four bytes. -/
theorem C66_unknown_last {β : Type} (windows : List Str) (metadata : List (Str × List (Str × Str)))
    (ids : List Int) (u : Int) (names : List Str) (sizes : List Nat) (rows cols : Nat)
    (pixels : List (List (List β))) (left : List β)
    (hids : Spec.ListsFields metadata (ids ++ [u]))
    (hlen : names.length = sizes.length)
    (hknown : List.Forall₂ (fun id (f : Str × Nat) => Spec.CrcField windows id f.1 f.2) ids
      (names.zip sizes))
    (hu : ∀ name b, ¬ Spec.CrcField windows u name b)
    (hdistinct : (lit "phase" :: names ++ [lit "unknown_1"]).Nodup)
    (hreq : ∀ n ∈ Spec.crcRequired, n ∈ names)
    (hfit : ∀ p ∈ pixels, Spec.PixelFits (1 :: sizes ++ [4]) p)
    (hshape : pixels.length = rows * cols)
    (hleft : left.length < 1 + sizes.sum + 4) :
    ∃ d, readCrc windows metadata rows cols (Spec.crcBytes pixels ++ left) = .ok d ∧
      Spec.Loaded (lit "phase" :: names ++ [lit "unknown_1"]) windows pixels d := by
  obtain ⟨fs, h1, h2, h3⟩ := known_all hknown hlen
  have e1 : ((lit "phase", FieldType.uint8) :: fs ++ [(lit "unknown_1", FieldType.float32)]).map
      (fun f => f.1) = lit "phase" :: names ++ [lit "unknown_1"] := by
    simp [h2]
  have e2 : ((lit "phase", FieldType.uint8) :: fs ++ [(lit "unknown_1", FieldType.float32)]).map
      (fun f => f.2.size) = 1 :: sizes ++ [4] := by
    rw [List.map_append, List.map_cons, h3]
    rfl
  unfold readCrc
  rw [fieldFormat_unknown hids h1 hu]
  simp only [Except.bind, makeDtype]
  rw [e1, if_pos hdistinct]
  simp only
  rw [← e1]
  refine loadCrc_records (by rw [e2]; exact hfit) ?_ (by rw [e1]; exact hdistinct)
    (by rw [hshape]; push_cast; ring) (by omega) (by omega) ?_
  · unfold itemSize
    rw [e2]
    simpa [add_assoc] using hleft
  · rw [e1]
    intro n hn
    rcases List.mem_cons.mp hn with rfl | hn
    · simp
    · simp [hreq n hn]

/-- **C66**, where it is false: if another field follows an unknown one, `extra` bytes or more per
pixel are not part of the record, and a map of many pixels cannot be loaded. -/
theorem C66_unknown_followed {β : Type} (windows : List Str)
    (metadata : List (Str × List (Str × Str)))
    (ids rest : List Int) (u : Int) (names : List Str) (sizes : List Nat) (rows cols : Nat)
    (bytes : List β) (extra : Nat)
    (hids : Spec.ListsFields metadata (ids ++ u :: rest))
    (hlen : names.length = sizes.length)
    (hknown : List.Forall₂ (fun id (f : Str × Nat) => Spec.CrcField windows id f.1 f.2) ids
      (names.zip sizes))
    (hu : ∀ name b, ¬ Spec.CrcField windows u name b)
    (hbytes : bytes.length = rows * cols * (1 + sizes.sum + 4 + extra))
    (hmany : 1 + sizes.sum + 4 ≤ rows * cols * extra) :
    readCrc windows metadata rows cols bytes = .error .valueError := by
  obtain ⟨fs, h1, h2, h3⟩ := known_all hknown hlen
  have e2 : itemSize ((lit "phase", FieldType.uint8) :: fs ++ [(lit "unknown_1", FieldType.float32)]) =
      1 + sizes.sum + 4 := by
    unfold itemSize
    rw [List.map_append, List.map_cons, h3]
    simp [FieldType.size, add_assoc]
  unfold readCrc
  rw [fieldFormat_unknown hids h1 hu]
  simp only [Except.bind, makeDtype]
  split
  · next e heq =>
    split at heq
    · simp at heq
    · injection heq with h
      rw [h]
  · next dt heq =>
    split at heq
    · simp only [Except.ok.injEq] at heq
      subst heq
      have hcount : ∀ name : Str, fieldColumn
          ((lit "phase", FieldType.uint8) :: fs ++ [(lit "unknown_1", FieldType.float32)]) rows cols
          (fromFile (1 + sizes.sum + 4) bytes.length bytes) name = .error .valueError := by
        intro name
        unfold fieldColumn
        split
        · rw [if_neg]
          rintro ⟨h, _⟩
          rw [fromFile_length (by omega) _ _ (le_refl _), hbytes] at h
          have h' : rows * cols * (1 + sizes.sum + 4 + extra) / (1 + sizes.sum + 4) = rows * cols := by
            exact_mod_cast h
          have : rows * cols + 1 ≤
              rows * cols * (1 + sizes.sum + 4 + extra) / (1 + sizes.sum + 4) := by
            rw [Nat.le_div_iff_mul_le (by omega)]
            generalize 1 + sizes.sum + 4 = S at *
            generalize rows * cols = N at *
            nlinarith
          omega
        · rfl
      unfold loadCrc
      simp only [e2]
      rw [hcount]
      rfl
    · simp at heq

/-! ### Cases -/

/-- A list of eight fields; the first six are those that are needed. -/
def Spec.exampleFields (seventh eighth : String) : List (Str × List (Str × Str)) :=
  [(lit "Job", [(lit "xCells", lit "2")]),
   (lit "Fields", [(lit "Count", lit "8"), (lit "Field1", lit "3"), (lit "Field2", lit "4"),
    (lit "Field3", lit "5"), (lit "Field4", lit "6"), (lit "Field5", lit "7"),
    (lit "Field6", lit "8"), (lit "Field7", lit seventh), (lit "Field8", lit eighth)])]

theorem natStr_digit {n : Nat} (h : n < 10) : natStr n = [digChar n] := by
  unfold natStr
  rw [if_pos h]

theorem exampleFields_lists (seventh eighth : String) (a b : Int)
    (ha : parseInt (lit seventh) = .ok a) (hb : parseInt (lit eighth) = .ok b) :
    Spec.ListsFields (Spec.exampleFields seventh eighth) [3, 4, 5, 6, 7, 8, a, b] := by
  refine ⟨_, rfl, ⟨lit "8", by rfl, by rfl⟩, ?_⟩
  intro i hi
  have hi : i < 8 := hi
  rw [natStr_digit (by omega)]
  rcases (by omega : i = 0 ∨ i = 1 ∨ i = 2 ∨ i = 3 ∨ i = 4 ∨ i = 5 ∨ i = 6 ∨ i = 7) with
    rfl | rfl | rfl | rfl | rfl | rfl | rfl | rfl
  · exact ⟨lit "3", by rfl, by rfl⟩
  · exact ⟨lit "4", by rfl, by rfl⟩
  · exact ⟨lit "5", by rfl, by rfl⟩
  · exact ⟨lit "6", by rfl, by rfl⟩
  · exact ⟨lit "7", by rfl, by rfl⟩
  · exact ⟨lit "8", by rfl, by rfl⟩
  · exact ⟨lit seventh, by rfl, ha⟩
  · exact ⟨lit eighth, by rfl, hb⟩

/-- Two pixels of a file with the fields 3 to 8, field 99 of four bytes and field 10. -/
def Spec.examplePixels : List (List (List Nat)) :=
  [[[1], [10, 11, 12, 13], [20, 21, 22, 23], [30, 31, 32, 33], [40, 41, 42, 43], [50], [60],
    [70, 71, 72, 73], [80]],
   [[2], [110, 111, 112, 113], [120, 121, 122, 123], [130, 131, 132, 133], [140, 141, 142, 143],
    [150], [160], [170, 171, 172, 173], [180]]]

theorem unknown_99 : ∀ (name : Str) (b : Nat), ¬ Spec.CrcField [] 99 name b := by
  intro name b h
  rcases h with ⟨_, h⟩ | ⟨i, w, h, _⟩
  · simp [Spec.crcTable] at h
  · simp at h

/-- **C66**, where it is false: a small map is loaded without an error, and its second pixel gets
the bytes of other fields: the band contrast is the last byte of the mean angular deviation. -/
theorem C66_unknown_silent :
    Spec.ListsFields (Spec.exampleFields "99" "10") [3, 4, 5, 6, 7, 8, 99, 10] ∧
    (∀ p ∈ Spec.examplePixels, Spec.PixelFits [1, 4, 4, 4, 4, 1, 1, 4, 1] p) ∧
    Spec.column 5 Spec.examplePixels = [[50], [150]] ∧
    ∃ d, readCrc [] (Spec.exampleFields "99" "10") 1 2 (Spec.crcBytes Spec.examplePixels) = .ok d ∧
      d.contrast = [[50], [143]] := by
  have hl := exampleFields_lists "99" "10" 99 10 (by rfl) (by rfl)
  refine ⟨hl, by unfold Spec.PixelFits; decide, by decide, ?_⟩
  unfold readCrc
  rw [fieldFormat_unknown (known := [3, 4, 5, 6, 7, 8]) (u := 99) (rest := [10])
    (fs := [(lit "ph1", .float32), (lit "phi", .float32), (lit "ph2", .float32),
      (lit "MAD", .float32), (lit "BC", .uint8), (lit "BS", .uint8)]) hl (by decide) unknown_99]
  exact ⟨_, rfl, by decide⟩

/-- The hypotheses of `C66_layout` are met by a map with the fields 3 to 8, 10 and 101 and one EDX
window. -/
example : ∃ d, readCrc [lit "Fe Ka1"] (Spec.exampleFields "10" "101") 1 2
      (Spec.crcBytes [[[1], [10, 11, 12, 13], [20, 21, 22, 23], [30, 31, 32, 33], [40, 41, 42, 43],
        [50], [60], [70], [80, 81, 82, 83]],
       [[2], [110, 111, 112, 113], [120, 121, 122, 123], [130, 131, 132, 133], [140, 141, 142, 143],
        [150], [160], [170], [180, 181, 182, 183]]] ++ [9, 9]) = .ok d ∧
      d.contrast = [[50], [150]] ∧ d.edx = [(lit "EDX Fe Ka1", [[80, 81, 82, 83],
        [180, 181, 182, 183]])] := by
  obtain ⟨d, h, hd⟩ := C66_layout [lit "Fe Ka1"] (Spec.exampleFields "10" "101")
    [3, 4, 5, 6, 7, 8, 10, 101]
    [lit "ph1", lit "phi", lit "ph2", lit "MAD", lit "BC", lit "BS", lit "numBands",
      lit "EDX Fe Ka1"] [4, 4, 4, 4, 1, 1, 1, 4] 1 2
    [[[1], [10, 11, 12, 13], [20, 21, 22, 23], [30, 31, 32, 33], [40, 41, 42, 43],
        [50], [60], [70], [80, 81, 82, 83]],
       [[2], [110, 111, 112, 113], [120, 121, 122, 123], [130, 131, 132, 133], [140, 141, 142, 143],
        [150], [160], [170], [180, 181, 182, 183]]] [9, 9]
    (exampleFields_lists "10" "101" 10 101 (by rfl) (by rfl)) rfl (by
      iterate 7 refine List.Forall₂.cons (Or.inl ⟨by decide, by decide⟩) ?_
      exact List.Forall₂.cons (Or.inr ⟨0, lit "Fe Ka1", rfl, rfl, rfl, rfl⟩) List.Forall₂.nil)
    (by decide) (by decide) (by unfold Spec.PixelFits; decide) rfl (by decide)
  refine ⟨d, h, hd.1 5 rfl, ?_⟩
  have hfun := hd.2.2.2.2.2.2 (by simp)
  unfold readCrc at h
  rw [fieldFormat_known (fs := [(lit "ph1", .float32), (lit "phi", .float32), (lit "ph2", .float32),
      (lit "MAD", .float32), (lit "BC", .uint8), (lit "BS", .uint8), (lit "numBands", .uint8),
      (lit "EDX Fe Ka1", .float32)])
    (exampleFields_lists "10" "101" 10 101 (by rfl) (by rfl)) (by decide)] at h
  have : d.edx = _ := congrArg (fun (r : Except Err (CrcData Nat)) => match r with
    | .ok d => d.edx
    | .error _ => []) h.symm
  exact this.trans (by decide)

/-- The hypotheses of `C66_unknown_followed` are met by a map of 23 pixels. -/
example : readCrc [] (Spec.exampleFields "99" "10") 1 23 (List.replicate (23 * 24) 0) =
    .error .valueError :=
  C66_unknown_followed [] _ [3, 4, 5, 6, 7, 8] [10] 99
    [lit "ph1", lit "phi", lit "ph2", lit "MAD", lit "BC", lit "BS"] [4, 4, 4, 4, 1, 1] 1 23 _ 1
    (exampleFields_lists "99" "10" 99 10 (by rfl) (by rfl)) rfl (by
      iterate 6 refine List.Forall₂.cons (Or.inl ⟨by decide, by decide⟩) ?_
      exact List.Forall₂.nil) unknown_99 List.length_replicate (by decide)

end DefDAP
