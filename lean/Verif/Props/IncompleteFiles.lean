import Verif.Props.CrcRecords
import Verif.Props.DicPlace

/-! C142: measurement files whose end is missing. -/

namespace DefDAP

/-! ### Specification -/

/-- A PyVale file for a grid of nodes `b` pixels apart: the nodes are listed row by row. -/
def Spec.valeTable (b rows cols : Nat) (x0 y0 : Int) (u v : Nat → Nat → ℚ) : List ValeRow :=
  rowMajor rows cols fun r c => ⟨x0 + b * c, y0 + b * r, u r c, v r c⟩

/-! ### CRC files -/

theorem crcBytes_length {β : Type} {sizes : List Nat} {pixels : List (List (List β))}
    (h : ∀ p ∈ pixels, Spec.PixelFits sizes p) :
    (Spec.crcBytes pixels).length = pixels.length * sizes.sum := by
  unfold Spec.crcBytes
  induction pixels with
  | nil => simp
  | cons p t ih =>
    have hp : p.flatten.length = sizes.sum := by
      rw [List.length_flatten, h p (by simp)]
    rw [List.map_cons, List.flatten_cons, List.length_append, ih fun q hq => h q (by simp [hq]), hp,
      List.length_cons, Nat.add_mul, Nat.one_mul, Nat.add_comm]

/-- **C142**: a CRC file of which any number of bytes at the end is missing is refused. -/
theorem C142_crc {β : Type} (windows : List Str) (metadata : List (Str × List (Str × Str)))
    (ids : List Int) (names : List Str) (sizes : List Nat) (rows cols : Nat)
    (pixels : List (List (List β))) (bytes : List β)
    (hids : Spec.ListsFields metadata ids)
    (hlen : names.length = sizes.length)
    (hknown : List.Forall₂ (fun id (f : Str × Nat) => Spec.CrcField windows id f.1 f.2) ids
      (names.zip sizes))
    (hfit : ∀ p ∈ pixels, Spec.PixelFits (1 :: sizes) p)
    (hshape : pixels.length = rows * cols)
    (hpre : bytes <+: Spec.crcBytes pixels) (hcut : bytes ≠ Spec.crcBytes pixels) :
    readCrc windows metadata rows cols bytes = .error .valueError := by
  obtain ⟨fs, h1, h2, h3⟩ := known_all hknown hlen
  have e2 : itemSize ((lit "phase", FieldType.uint8) :: fs) = 1 + sizes.sum := by
    unfold itemSize
    rw [List.map_cons, h3, List.sum_cons]
    rfl
  have hshort : bytes.length < rows * cols * (1 + sizes.sum) := by
    have := crcBytes_length hfit
    rw [hshape, List.sum_cons] at this
    have hle := hpre.length_le
    have hne : bytes.length ≠ (Spec.crcBytes pixels).length := fun e => hcut (hpre.eq_of_length e)
    omega
  unfold readCrc
  rw [fieldFormat_known hids h1]
  simp only [Except.bind, makeDtype]
  split
  · next e heq =>
    split at heq
    · simp at heq
    · injection heq with h
      rw [h]
  · next dt heq =>
    split at heq
    · simp only [Except.ok.injEq] at heq
      subst heq
      have hcount : ∀ name : Str, fieldColumn
          ((lit "phase", FieldType.uint8) :: fs) rows cols
          (fromFile (1 + sizes.sum) bytes.length bytes) name = .error .valueError := by
        intro name
        unfold fieldColumn
        split
        · rw [if_neg]
          rintro ⟨h, _⟩
          rw [fromFile_length (by omega) _ _ (le_refl _)] at h
          have h' : bytes.length / (1 + sizes.sum) = rows * cols := by exact_mod_cast h
          have := Nat.div_lt_of_lt_mul (m := bytes.length) (n := 1 + sizes.sum) (k := rows * cols)
            (by rw [mul_comm]; exact hshort)
          omega
        · rfl
      unfold loadCrc
      simp only [e2]
      rw [hcount]
      rfl
    · simp at heq

/-! ### Lists of nodes -/

theorem seq_x {l : List ℚ} {k cols : Nat} {b x0 : ℚ} (hb : 0 < b) (hc : 2 ≤ cols) (hk : 2 ≤ k)
    (hl : l.length = k) (h : ∀ i, i < k → l[i]? = some (x0 + b * ((i % cols : Nat) : ℚ))) :
    minOf (absDiffs l) = .ok b := by
  rw [minOf_iff]
  constructor
  · rw [absDiffs_mem]
    refine ⟨0, _, _, h 0 (by omega), h 1 (by omega), ?_⟩
    rw [Nat.mod_eq_of_lt (by omega : 1 < cols), Nat.zero_mod]
    simp [abs_of_pos hb]
  · intro a ha
    obtain ⟨i, p, q, hp, hq, rfl⟩ := (absDiffs_mem _ _).mp ha
    have hi : i + 1 < k := by
      rw [← hl]
      exact (List.getElem?_eq_some_iff.mp hq).1
    rw [h i (by omega), Option.some.injEq] at hp
    rw [h _ hi, Option.some.injEq] at hq
    rw [← hp, ← hq]
    have e : x0 + b * (((i + 1) % cols : Nat) : ℚ) - (x0 + b * ((i % cols : Nat) : ℚ)) =
        b * ((((i + 1) % cols : Nat) : ℚ) - ((i % cols : Nat) : ℚ)) := by ring
    rw [e, abs_mul, abs_of_pos hb]
    have : (1 : ℚ) ≤ |(((i + 1) % cols : Nat) : ℚ) - ((i % cols : Nat) : ℚ)| := by
      rcases step_mod (k := i) hc with e | ⟨e1, e2⟩
      · rw [e]
        push_cast
        rw [add_sub_cancel_left, abs_one]
      · rw [e1, e2, abs_sub_comm]
        have : (1 : ℚ) ≤ ((cols - 1 : Nat) : ℚ) := by exact_mod_cast (by omega : 1 ≤ cols - 1)
        rw [Nat.cast_zero, sub_zero, abs_of_nonneg (by linarith)]
        exact this
    nlinarith

theorem seq_y {l : List ℚ} {k cols : Nat} {b y0 s : ℚ} (hb : 0 < b) (hs : s = 1 ∨ s = -1)
    (hc : 2 ≤ cols) (hk : 2 ≤ k) (hl : l.length = k)
    (h : ∀ i, i < k → l[i]? = some (y0 + s * b * ((i / cols : Nat) : ℚ))) :
    maxOf (absDiffs l) = .ok (if k ≤ cols then 0 else b) := by
  have habs : |s| = 1 := by rcases hs with rfl | rfl <;> simp
  have hval : ∀ i, i + 1 < k → ∀ p q, l[i]? = some p → l[i + 1]? = some q →
      |q - p| = b * |(((i + 1) / cols : Nat) : ℚ) - ((i / cols : Nat) : ℚ)| := by
    intro i hi p q hp hq
    rw [h i (by omega), Option.some.injEq] at hp
    rw [h _ hi, Option.some.injEq] at hq
    rw [← hp, ← hq]
    have e : y0 + s * b * (((i + 1) / cols : Nat) : ℚ) - (y0 + s * b * ((i / cols : Nat) : ℚ)) =
        s * (b * ((((i + 1) / cols : Nat) : ℚ) - ((i / cols : Nat) : ℚ))) := by ring
    rw [e, abs_mul, habs, one_mul, abs_mul, abs_of_pos hb]
  rw [maxOf_iff]
  by_cases hkc : k ≤ cols
  · rw [if_pos hkc]
    have hz : ∀ i, i + 1 < k → |(((i + 1) / cols : Nat) : ℚ) - ((i / cols : Nat) : ℚ)| = 0 := by
      intro i hi
      rw [Nat.div_eq_of_lt (by omega), Nat.div_eq_of_lt (by omega)]
      simp
    constructor
    · rw [absDiffs_mem]
      refine ⟨0, _, _, h 0 (by omega), h 1 (by omega), ?_⟩
      rw [hval 0 (by omega) _ _ (h 0 (by omega)) (h 1 (by omega)), hz 0 (by omega), mul_zero]
    · intro a ha
      obtain ⟨i, p, q, hp, hq, rfl⟩ := (absDiffs_mem _ _).mp ha
      have hi : i + 1 < k := by
        rw [← hl]
        exact (List.getElem?_eq_some_iff.mp hq).1
      rw [hval i hi p q hp hq, hz i hi, mul_zero]
  · rw [if_neg hkc]
    constructor
    · rw [absDiffs_mem]
      have hq := h (cols - 1 + 1) (by omega)
      refine ⟨cols - 1, _, _, h _ (by omega), hq, ?_⟩
      rw [hval (cols - 1) (by omega) _ _ (h _ (by omega)) hq,
        Nat.sub_add_cancel (by omega : 1 ≤ cols), Nat.div_self (by omega),
        Nat.div_eq_of_lt (by omega)]
      simp
    · intro a ha
      obtain ⟨i, p, q, hp, hq, rfl⟩ := (absDiffs_mem _ _).mp ha
      have hi : i + 1 < k := by
        rw [← hl]
        exact (List.getElem?_eq_some_iff.mp hq).1
      rw [hval i hi p q hp hq]
      rcases step_div (k := i) (by omega : 0 < cols) with e | e
      · rw [e, sub_self, abs_zero, mul_zero]
        exact hb.le
      · rw [e]
        push_cast
        rw [add_sub_cancel_left, abs_one, mul_one]

/-- The binning of the first `k` nodes of a grid. -/
theorem seq_binning {xs ys : List ℚ} {k cols b : Nat} {x0 y0 s : ℚ} (hb : 0 < b)
    (hs : s = 1 ∨ s = -1) (hc : 2 ≤ cols) (hlx : xs.length = k) (hly : ys.length = k)
    (hx : ∀ i, i < k → xs[i]? = some (x0 + b * ((i % cols : Nat) : ℚ)))
    (hy : ∀ i, i < k → ys[i]? = some (y0 + s * b * ((i / cols : Nat) : ℚ))) :
    (k ≤ cols → ∀ z, dicBinning xs ys ≠ .ok z) ∧
      (cols < k → dicBinning xs ys = .ok (b : Int)) := by
  have hbq : (0 : ℚ) < b := by exact_mod_cast hb
  constructor
  · intro hk z hz
    by_cases h2 : 2 ≤ k
    · unfold dicBinning at hz
      rw [seq_x hbq hc h2 hlx hx, seq_y hbq hs hc h2 hly hy, if_pos hk] at hz
      simp only [Except.bind] at hz
      rw [if_neg] at hz
      · exact absurd hz (by simp)
      · rw [truncInt_nat]
        have : truncInt (0 : ℚ) = 0 := by exact_mod_cast truncInt_nat 0
        rw [this]
        omega
    · have : absDiffs xs = [] := by
        unfold absDiffs
        apply List.eq_nil_of_length_eq_zero
        rw [List.length_zipWith, List.length_tail]
        omega
      unfold dicBinning at hz
      rw [this] at hz
      exact absurd hz (by simp [minOf, Except.bind])
  · intro hk
    unfold dicBinning
    rw [seq_x hbq hc (by omega) hlx hx, seq_y hbq hs hc (by omega) hly hy, if_neg (by omega)]
    simp only [Except.bind]
    rw [if_pos trivial, truncInt_nat]

theorem prefix_take {α : Type} {t l : List α} (h : t <+: l) : t = l.take t.length := by
  obtain ⟨s, rfl⟩ := h
  rw [List.take_left]

/-! ### OpenPIV -/

/-- **C142**: a text file of OpenPIV listed from the largest y to the smallest, as OpenPIV writes
it, is refused if any number of lines at its end is missing. -/
theorem C142_openpiv (b rows cols : Nat) (u v : Nat → Nat → ℚ) (hb : 0 < b) (hc : 2 ≤ cols)
    (t : List PivRow) (ht : t <+: Spec.pivTable b rows cols false u v)
    (hcut : t ≠ Spec.pivTable b rows cols false u v) (r : DicMeta × DicData) :
    loadPivText t ≠ .ok r := by
  intro hr
  set T := Spec.pivTable b rows cols false u v with hT
  set k := t.length with hk
  have hbq : (0 : ℚ) < b := by exact_mod_cast hb
  have hTl : T.length = rows * cols := by rw [hT]; unfold Spec.pivTable; rw [rowMajor_length]
  have hklt : k < rows * cols := by
    rw [← hTl]
    have h1 := ht.length_le
    have h2 : t.length ≠ T.length := fun e => hcut (ht.eq_of_length e)
    omega
  have hget : ∀ i, i < k → t[i]? = some ⟨b / 2 + b * ((i % cols : Nat) : ℚ),
      b / 2 + b * ((rows : ℚ) - 1 - ((i / cols : Nat) : ℚ)), u (i / cols) (i % cols),
      v (i / cols) (i % cols)⟩ := by
    intro i hi
    rw [prefix_take ht, List.getElem?_take, if_pos hi, hT]
    unfold Spec.pivTable
    rw [rowMajor_get _ _ _ _ (by omega)]
    simp
  have hxs : ∀ i, i < k → (t.map PivRow.x)[i]? = some ((b : ℚ) / 2 + b * ((i % cols : Nat) : ℚ)) := by
    intro i hi
    rw [List.getElem?_map, hget i hi]
    rfl
  have hys : ∀ i, i < k → (t.map PivRow.y)[i]? =
      some ((b : ℚ) / 2 + b * ((rows : ℚ) - 1) + (-1) * b * ((i / cols : Nat) : ℚ)) := by
    intro i hi
    rw [List.getElem?_map, hget i hi, Option.map_some, Option.some.injEq]
    ring
  obtain ⟨hshort, hlong⟩ := seq_binning (xs := t.map PivRow.x) (ys := t.map PivRow.y) (k := k)
    (cols := cols) (x0 := (b : ℚ) / 2) (y0 := (b : ℚ) / 2 + b * ((rows : ℚ) - 1)) (s := -1) hb
    (Or.inr rfl) hc (by simp [hk]) (by simp [hk]) hxs hys
  unfold loadPivText at hr
  by_cases hkc : k ≤ cols
  · cases hd : dicBinning (t.map PivRow.x) (t.map PivRow.y) with
    | error e => rw [hd] at hr; exact absurd hr (by simp [Except.bind])
    | ok z => exact hshort hkc z hd
  · have hmy : maxOf (t.map PivRow.y) = .ok ((b : ℚ) / 2 + b * (rows - 1)) := by
      rw [maxOf_iff]
      constructor
      · have := hys 0 (by omega)
        rw [Nat.zero_div, Nat.cast_zero, mul_zero, add_zero] at this
        exact List.mem_of_getElem? this
      · intro a ha
        obtain ⟨i, hi⟩ := List.mem_iff_getElem?.mp ha
        have hik : i < k := by
          have := (List.getElem?_eq_some_iff.mp hi).1
          simpa [hk] using this
        rw [hys i hik, Option.some.injEq] at hi
        have : (0 : ℚ) ≤ b * ((i / cols : Nat) : ℚ) := by positivity
        linarith
    have hcc : ((cols - 1 : Nat) : ℚ) = cols - 1 := by rw [Nat.cast_sub (by omega), Nat.cast_one]
    have hmx : maxOf (t.map PivRow.x) = .ok ((b : ℚ) / 2 + b * (cols - 1)) := by
      rw [maxOf_iff]
      constructor
      · have := hxs (cols - 1) (by omega)
        rw [Nat.mod_eq_of_lt (by omega), hcc] at this
        exact List.mem_of_getElem? this
      · intro a ha
        obtain ⟨i, hi⟩ := List.mem_iff_getElem?.mp ha
        have hik : i < k := by
          have := (List.getElem?_eq_some_iff.mp hi).1
          simpa [hk] using this
        rw [hxs i hik, Option.some.injEq] at hi
        have hle : ((i % cols : Nat) : ℚ) ≤ cols - 1 := by
          rw [← hcc]
          have := Nat.mod_lt i (by omega : 0 < cols)
          exact_mod_cast (by omega : i % cols ≤ cols - 1)
        nlinarith
    have sh : ∀ n : Nat, truncInt (((b : ℚ) / 2 + b * ((n : ℚ) - 1) + ((b : Int) : ℚ) / 2) /
        ((b : Int) : ℚ)) = n := by
      intro n
      have : ((b : ℚ) / 2 + b * ((n : ℚ) - 1) + ((b : Int) : ℚ) / 2) / ((b : Int) : ℚ) = n := by
        rw [Int.cast_natCast]
        field_simp
        ring
      rw [this, truncInt_nat]
    rw [hlong (by omega), hmy, hmx] at hr
    simp only [Except.bind] at hr
    rw [if_neg (by omega), sh, sh, if_neg] at hr
    · exact absurd hr (by simp)
    · rintro ⟨_, _, h⟩
      have : k = rows * cols := by exact_mod_cast h
      omega

/-- **C142**, where it is false: if y runs up the file, a file that ends after any line of the grid
is loaded as a smaller map. -/
theorem C142_openpiv_up (b rows cols k : Nat) (u v : Nat → Nat → ℚ) (hb : 0 < b) (hc : 2 ≤ cols)
    (hk : 2 ≤ k) (hr : k ≤ rows) :
    ∃ t d, t <+: Spec.pivTable b rows cols true u v ∧
      loadPivText t = .ok (⟨b, ((k : Int), (cols : Int))⟩, d) ∧ d.rows = k ∧ d.cols = cols := by
  obtain ⟨d, h1, h2, h3⟩ := piv_loads b k cols true u v hb hk hc
  refine ⟨_, d, ?_, h1, h2, h3⟩
  obtain ⟨n, rfl⟩ := Nat.exists_eq_add_of_le hr
  unfold Spec.pivTable rowMajor
  simp only [if_true]
  rw [List.range_add, List.flatMap_append]
  exact List.prefix_append _ _

/-! ### PyVale -/

/-- **C142**: a PyVale file of which lines are missing at the end is loaded without an error, with
zero displacements in place of the missing ones, as soon as it reaches the second line of the grid;
a shorter one is refused. -/
theorem C142_pyvale (b rows cols : Nat) (x0 y0 : Int) (u v : Nat → Nat → ℚ) (hb : 0 < b)
    (hc : 2 ≤ cols) (t : List ValeRow) (ht : t <+: Spec.valeTable b rows cols x0 y0 u v) :
    (t.length ≤ cols → ∀ r, loadPyVale t ≠ .ok r) ∧
    (cols < t.length → ∃ m d, loadPyVale t = .ok (m, d) ∧ d.cols = cols ∧
      (d.rows - 1) * cols < t.length ∧ t.length ≤ d.rows * cols ∧
      ∀ r c, r < d.rows → c < cols → d.x r c = x0 + b * c ∧ d.y r c = y0 + b * r ∧
        (r * cols + c < t.length → d.u r c = u r c ∧ d.v r c = v r c) ∧
        (t.length ≤ r * cols + c → d.u r c = 0 ∧ d.v r c = 0)) := by
  set T := Spec.valeTable b rows cols x0 y0 u v with hT
  set k := t.length with hk
  have hbq : (0 : ℚ) < b := by exact_mod_cast hb
  have hTl : T.length = rows * cols := by rw [hT]; unfold Spec.valeTable; rw [rowMajor_length]
  have hkle : k ≤ rows * cols := by
    rw [← hTl]
    exact ht.length_le
  have hget : ∀ i, i < k → t[i]? = some ⟨x0 + b * ((i % cols : Nat) : Int),
      y0 + b * ((i / cols : Nat) : Int), u (i / cols) (i % cols), v (i / cols) (i % cols)⟩ := by
    intro i hi
    rw [prefix_take ht, List.getElem?_take, if_pos hi, hT]
    unfold Spec.valeTable
    rw [rowMajor_get _ _ _ _ (by omega)]
  have hmem : ∀ p ∈ t, ∃ i, i < k ∧ t[i]? = some p := by
    intro p hp
    obtain ⟨i, hi⟩ := List.mem_iff_getElem?.mp hp
    exact ⟨i, (List.getElem?_eq_some_iff.mp hi).1, hi⟩
  have hxs : ∀ i, i < k → (t.map fun p => (p.x : ℚ))[i]? =
      some ((x0 : ℚ) + b * ((i % cols : Nat) : ℚ)) := by
    intro i hi
    rw [List.getElem?_map, hget i hi, Option.map_some, Option.some.injEq]
    push_cast
    rfl
  have hys : ∀ i, i < k → (t.map fun p => (p.y : ℚ))[i]? =
      some ((y0 : ℚ) + 1 * b * ((i / cols : Nat) : ℚ)) := by
    intro i hi
    rw [List.getElem?_map, hget i hi, Option.map_some, Option.some.injEq]
    simp only [Int.cast_add, Int.cast_mul, Int.cast_natCast]
    ring
  obtain ⟨hshort, hlong⟩ := seq_binning (xs := t.map fun p => (p.x : ℚ))
    (ys := t.map fun p => (p.y : ℚ)) (k := k) (cols := cols) (x0 := (x0 : ℚ)) (y0 := (y0 : ℚ))
    (s := 1) hb (Or.inl rfl) hc (by simp [hk]) (by simp [hk]) hxs hys
  constructor
  · intro hkc r hr
    unfold loadPyVale at hr
    cases hd : dicBinning (t.map fun p => (p.x : ℚ)) (t.map fun p => (p.y : ℚ)) with
    | error e => rw [hd] at hr; exact absurd hr (by simp [Except.bind])
    | ok z => exact hshort hkc z hd
  · intro hkc
    have range : ∀ (l : List Int), l ≠ [] → ∃ r, intRange l = .ok r := by
      intro l hl
      cases l with
      | nil => exact absurd rfl hl
      | cons a l => exact ⟨_, rfl⟩
    have htne : t ≠ [] := by
      intro e
      rw [e] at hk
      simp at hk
      omega
    obtain ⟨ys, hy⟩ := range (t.map ValeRow.y) (by simpa using htne)
    obtain ⟨xs, hx⟩ := range (t.map ValeRow.x) (by simpa using htne)
    obtain ⟨hy0, hy1, hyr⟩ := intRange_spec hy
    obtain ⟨hx0, hx1, hxr⟩ := intRange_spec hx
    have hbi : (0 : Int) < b := by exact_mod_cast hb
    -- the extent of the nodes in the file
    have hfirst : (⟨x0 + b * ((0 : Nat) : Int), y0 + b * ((0 : Nat) : Int), u 0 0, v 0 0⟩ : ValeRow) ∈ t := by
      have := hget 0 (by omega)
      rw [Nat.zero_mod, Nat.zero_div] at this
      exact List.mem_of_getElem? this
    have ex0 : xs.1 = x0 := by
      have h1 := (hxr _ (List.mem_map_of_mem hfirst)).1
      obtain ⟨p, hp, e⟩ := List.mem_map.mp hx0
      obtain ⟨i, hi, hpi⟩ := hmem p hp
      rw [hget i hi, Option.some.injEq] at hpi
      rw [← e, ← hpi] at h1 ⊢
      simp only [Nat.cast_zero, mul_zero, add_zero] at h1 ⊢
      have : 0 ≤ (b : Int) * ((i % cols : Nat) : Int) := by positivity
      omega
    have ey0 : ys.1 = y0 := by
      have h1 := (hyr _ (List.mem_map_of_mem hfirst)).1
      obtain ⟨p, hp, e⟩ := List.mem_map.mp hy0
      obtain ⟨i, hi, hpi⟩ := hmem p hp
      rw [hget i hi, Option.some.injEq] at hpi
      rw [← e, ← hpi] at h1 ⊢
      simp only [Nat.cast_zero, mul_zero, add_zero] at h1 ⊢
      have : 0 ≤ (b : Int) * ((i / cols : Nat) : Int) := by positivity
      omega
    have ex1 : xs.2 = x0 + b * ((cols - 1 : Nat) : Int) := by
      apply le_antisymm
      · obtain ⟨p, hp, e⟩ := List.mem_map.mp hx1
        obtain ⟨i, hi, hpi⟩ := hmem p hp
        rw [hget i hi, Option.some.injEq] at hpi
        rw [← e, ← hpi]
        have hm := Nat.mod_lt i (by omega : 0 < cols)
        have : ((i % cols : Nat) : Int) ≤ ((cols - 1 : Nat) : Int) := by omega
        have := mul_le_mul_of_nonneg_left this hbi.le
        simp only
        omega
      · have h := hget (cols - 1) (by omega)
        rw [Nat.mod_eq_of_lt (by omega)] at h
        exact (hxr _ (List.mem_map_of_mem (List.mem_of_getElem? h))).2
    have ey1 : ys.2 = y0 + b * (((k - 1) / cols : Nat) : Int) := by
      apply le_antisymm
      · obtain ⟨p, hp, e⟩ := List.mem_map.mp hy1
        obtain ⟨i, hi, hpi⟩ := hmem p hp
        rw [hget i hi, Option.some.injEq] at hpi
        rw [← e, ← hpi]
        have hm : i / cols ≤ (k - 1) / cols := Nat.div_le_div_right (by omega)
        have : ((i / cols : Nat) : Int) ≤ (((k - 1) / cols : Nat) : Int) := by exact_mod_cast hm
        have := mul_le_mul_of_nonneg_left this hbi.le
        simp only
        omega
      · have h := hget (k - 1) (by omega)
        exact (hyr _ (List.mem_map_of_mem (List.mem_of_getElem? h))).2
    have hdy : ys.2 - ys.1 = b * (((k - 1) / cols : Nat) : Int) := by rw [ey1, ey0]; ring
    have hdx : xs.2 - xs.1 = b * ((cols - 1 : Nat) : Int) := by rw [ex1, ex0]; ring
    have hq : ∀ z : Int, ((b : Int) * z) / b = z := fun z => Int.mul_ediv_cancel_left z hbi.ne'
    set R := (k - 1) / cols with hR
    have hR1 : 1 ≤ R := by
      rw [hR, Nat.le_div_iff_mul_le (by omega)]
      omega
    let ix : ValeRow → Int := fun p => (p.x - xs.1) / b
    let iy : ValeRow → Int := fun p => (p.y - ys.1) / b
    have hload : ∃ d, loadPyVale t = .ok (⟨((b : Int) : ℚ), ((R : Int) + 1, (cols : Int))⟩, d) ∧
        d.rows = R + 1 ∧ d.cols = cols ∧
        ∀ r c : Nat, d.x r c = x0 + b * c ∧ d.y r c = y0 + b * r := by
      refine ⟨⟨R + 1, cols, fun _ c => (xs.1 : ℚ) + ((b : Int) : ℚ) * c,
        fun r _ => (ys.1 : ℚ) + ((b : Int) : ℚ) * r, scatter t ix iy ValeRow.u,
        scatter t ix iy ValeRow.v⟩, ?_, rfl, rfl, fun r c => ⟨by simp [ex0], by simp [ey0]⟩⟩
      unfold loadPyVale
      rw [hlong hkc, hy, hx]
      simp only [Except.bind]
      rw [if_neg (by omega), hdy, hdx, if_pos ⟨Int.mul_emod_right _ _, Int.mul_emod_right _ _⟩, hq, hq]
      have e1 : ((cols - 1 : Nat) : Int) + 1 = cols := by omega
      have e2 : ((R : Int) + 1).toNat = R + 1 := by omega
      rw [e1, e2, Int.toNat_natCast]
      unfold checkedDic
      have hchk := (C70_accept ⟨R + 1, cols, fun _ c => (xs.1 : ℚ) + ((b : Int) : ℚ) * c,
        fun r _ => (ys.1 : ℚ) + ((b : Int) : ℚ) * r, scatter t ix iy ValeRow.u,
        scatter t ix iy ValeRow.v⟩ ((b : Int) : ℚ) xs.1 ys.1 1 1
        ⟨by exact_mod_cast hb, Or.inl rfl, Or.inl rfl, fun r c _ _ => ⟨by ring, by ring⟩⟩
        (by simp only; omega) hc ⟨((b : Int) : ℚ), ((R : Int) + 1, (cols : Int))⟩).mpr
        ⟨rfl, by push_cast; rfl⟩
      rw [hchk]
      rfl
    obtain ⟨d, hd, hdr, hdc, hco⟩ := hload
    have hdiv : ∀ p ∈ t, ∀ q ∈ t, (b : Int) ∣ p.x - q.x ∧ (b : Int) ∣ p.y - q.y := by
      intro p hp q hq
      obtain ⟨i, hi, hpi⟩ := hmem p hp
      obtain ⟨j, hj, hqj⟩ := hmem q hq
      rw [hget i hi, Option.some.injEq] at hpi
      rw [hget j hj, Option.some.injEq] at hqj
      rw [← hpi, ← hqj]
      simp only
      exact ⟨⟨((i % cols : Nat) : Int) - ((j % cols : Nat) : Int), by ring⟩,
        ⟨((i / cols : Nat) : Int) - ((j / cols : Nat) : Int), by ring⟩⟩
    obtain ⟨_, _, hval⟩ := C72_placed t _ d b hd rfl hdiv
    have hdm := Nat.div_add_mod (k - 1) cols
    have hml := Nat.mod_lt (k - 1) (by omega : 0 < cols)
    have hRk : R * cols < k := by
      rw [hR, mul_comm]
      omega
    refine ⟨_, d, hd, hdc, by rw [hdr, Nat.add_sub_cancel]; exact hRk, ?_, ?_⟩
    · rw [hdr, Nat.add_mul, Nat.one_mul, hR, mul_comm]
      omega
    intro r c hr' hc'
    have node : ∀ p ∈ t, ∀ i, i < k → t[i]? = some p →
        (((p.x : ℚ) = d.x r c ∧ (p.y : ℚ) = d.y r c) ↔ i = r * cols + c) := by
      intro p _ i hi hpi
      rw [hget i hi, Option.some.injEq] at hpi
      rw [← hpi, (hco r c).1, (hco r c).2]
      simp only [Int.cast_add, Int.cast_mul, Int.cast_natCast]
      constructor
      · rintro ⟨h1, h2⟩
        have h1' : ((i % cols : Nat) : ℚ) = c := mul_left_cancel₀ hbq.ne' (by linarith)
        have h2' : ((i / cols : Nat) : ℚ) = r := mul_left_cancel₀ hbq.ne' (by linarith)
        have h1'' : i % cols = c := by exact_mod_cast h1'
        have h2'' : i / cols = r := by exact_mod_cast h2'
        have := Nat.div_add_mod i cols
        rw [h1'', h2'', mul_comm] at this
        exact this.symm
      · rintro rfl
        have e1 : (r * cols + c) / cols = r := by
          rw [Nat.add_comm, Nat.add_mul_div_right _ _ (by omega), Nat.div_eq_of_lt hc', Nat.zero_add]
        have e2 : (r * cols + c) % cols = c := by
          rw [Nat.add_comm, Nat.add_mul_mod_self_right, Nat.mod_eq_of_lt hc']
        rw [e1, e2]
        exact ⟨rfl, rfl⟩
    refine ⟨(hco r c).1, (hco r c).2, ?_, ?_⟩
    · intro hlt
      have hat := hget _ hlt
      have e1 : (r * cols + c) / cols = r := by
        rw [Nat.add_comm, Nat.add_mul_div_right _ _ (by omega), Nat.div_eq_of_lt hc', Nat.zero_add]
      have e2 : (r * cols + c) % cols = c := by
        rw [Nat.add_comm, Nat.add_mul_mod_self_right, Nat.mod_eq_of_lt hc']
      rcases hval r c with ⟨hno, _⟩ | ⟨pre, p, post, e, hp, _, hu, hv⟩
      · exact absurd ((node _ (List.mem_of_getElem? hat) _ hlt hat).mpr rfl)
          (hno _ (List.mem_of_getElem? hat))
      · have hpt : p ∈ t := by rw [e]; simp
        obtain ⟨i, hi, hpi⟩ := hmem p hpt
        have := (node p hpt i hi hpi).mp hp
        subst this
        rw [hat, Option.some.injEq] at hpi
        rw [hu, hv, ← hpi]
        simp only [e1, e2, and_self]
    · intro hge
      rcases hval r c with ⟨_, hu, hv⟩ | ⟨pre, p, post, e, hp, _⟩
      · exact ⟨hu, hv⟩
      · have hpt : p ∈ t := by rw [e]; simp
        obtain ⟨i, hi, hpi⟩ := hmem p hpt
        have := (node p hpt i hi hpi).mp hp
        omega

/-! ### Davis -/

/-- **C142**: a Davis file of a map of `rows` by `cols` windows of which `lost` lines are missing at
the end is refused, if less than a quarter of them is missing. -/
theorem C142_davis (header : Str) (words : List Str) (b : Int) (rows cols lost : Nat)
    (table : List (List ℚ)) (hw : splitWs header = words)
    (hb : words[3]? = some (intStr b)) (hrows : words[4]? = some (intStr rows))
    (hcols : words[5]? = some (intStr cols)) (hlen : table.length + lost = rows * cols)
    (hlost : 0 < lost) (hquarter : 4 * lost < rows * cols) :
    loadDavis header 4 table = .error .valueError := by
  unfold loadDavis
  obtain ⟨w0, h0⟩ : ∃ w, words[0]? = some w := by
    have := (List.getElem?_eq_some_iff.mp hb).1
    exact ⟨words[0], List.getElem?_eq_getElem (by omega)⟩
  obtain ⟨w1, h1⟩ : ∃ w, words[1]? = some w := by
    have := (List.getElem?_eq_some_iff.mp hb).1
    exact ⟨words[1], List.getElem?_eq_getElem (by omega)⟩
  rw [hw]
  simp only [h0, h1, hb, hrows, hcols, Except.bind, parseInt_intStr]
  have : reshapeTable 4 table ((rows : Int), (cols : Int)) = .error .valueError := by
    unfold reshapeTable
    simp only [Int.toNat_natCast]
    rw [if_neg]
    rintro ⟨_, _, h⟩
    have hd := Nat.dvd_of_mod_eq_zero h
    have h4 : rows * cols ∣ table.length * 4 + 4 * lost := by
      have : table.length * 4 + 4 * lost = rows * cols * 4 := by omega
      rw [this]
      exact Dvd.intro _ rfl
    have h5 : rows * cols ∣ 4 * lost := (Nat.dvd_add_right hd).mp h4
    have := Nat.le_of_dvd (by omega) h5
    omega
  rw [this]

/-! ### Cases -/

/-- The hypotheses of `C142_crc` are met: two pixels, of which the second has lost its last byte. -/
example : readCrc [] (Spec.exampleFields "10" "11") 1 2
    [1, 10, 11, 12, 13, 20, 21, 22, 23, 30, 31, 32, 33, 40, 41, 42, 43, 50, 60, 70, 80,
     2, 10, 11, 12, 13, 20, 21, 22, 23, 30, 31, 32, 33, 40, 41, 42, 43, 50, 60, 70] =
    .error .valueError :=
  C142_crc [] (Spec.exampleFields "10" "11") [3, 4, 5, 6, 7, 8, 10, 11]
    [lit "ph1", lit "phi", lit "ph2", lit "MAD", lit "BC", lit "BS", lit "numBands", lit "AFI"]
    [4, 4, 4, 4, 1, 1, 1, 1] 1 2
    [[[1], [10, 11, 12, 13], [20, 21, 22, 23], [30, 31, 32, 33], [40, 41, 42, 43], [50], [60], [70],
       [80]],
     [[2], [10, 11, 12, 13], [20, 21, 22, 23], [30, 31, 32, 33], [40, 41, 42, 43], [50], [60], [70],
       [80]]] _
    (exampleFields_lists "10" "11" 10 11 (by rfl) (by rfl)) rfl (by
      iterate 8 refine List.Forall₂.cons (Or.inl ⟨by decide, by decide⟩) ?_
      exact List.Forall₂.nil)
    (by unfold Spec.PixelFits; decide) rfl ⟨[80], by decide⟩ (by decide)

/-- A PyVale file of three lines of two nodes that ends after five nodes: the last one is zero. -/
example : ∃ m d, loadPyVale ((Spec.valeTable 4 3 2 10 20 (fun _ _ => 7) fun _ _ => 8).take 5) =
    .ok (m, d) ∧ d.rows = 3 ∧ d.u 2 0 = 7 ∧ d.u 2 1 = 0 := by
  have hl : ((Spec.valeTable 4 3 2 10 20 (fun _ _ => 7) fun _ _ => 8).take 5).length = 5 := by
    decide
  obtain ⟨m, d, h, hc, h1, h2, hv⟩ := (C142_pyvale 4 3 2 10 20 (fun _ _ => 7) (fun _ _ => 8)
    (by decide) (le_refl _) _ (List.take_prefix 5 _)).2 (by rw [hl]; decide)
  rw [hl] at h1 h2 hv
  have hr : d.rows = 3 := by omega
  exact ⟨m, d, h, hr, ((hv 2 0 (by omega) (by decide)).2.2.1 (by decide)).1,
    ((hv 2 1 (by omega) (by decide)).2.2.2 (by decide)).1⟩

/-- Six windows with one line missing. -/
example : loadDavis (lit "#DaVis 8.4 2D-vector 12 2 3") 4 (List.replicate 5 [0, 0, 0, 0]) =
    .error .valueError :=
  C142_davis _ _ 12 2 3 1 _ rfl (by decide +kernel) (by decide +kernel) (by decide +kernel) rfl
    (by decide) (by decide)

end DefDAP
