import Verif.Props.Kam
import Verif.Props.QuatEuler

/-! C64: rotating a map by 180 degrees. -/

namespace DefDAP

open Quat
open scoped Matrix

/-- The orientations a user reads from a map. -/
noncomputable def Spec.orientations (d : EbsdData) : Int → Int → Quat ℝ :=
  match d.orientation with
  | some q => q
  | none => fun i j => fromEuler (d.euler i j).1 (d.euler i j).2.1 (d.euler i j).2.2

/-- The pixel opposite of `(i, j)`. -/
def Spec.oppositePixel {α : Type} (rows cols : Nat) (f : Int → Int → α) (i j : Int) : α :=
  f (rows - 1 - i) (cols - 1 - j)

/-- Half a turn about the normal of the map. -/
def Spec.halfTurn : Matrix (Fin 3) (Fin 3) ℝ := !![-1, 0, 0; 0, -1, 0; 0, 0, 1]

/-- The orientations have been read before. -/
def Spec.Accessed (d : EbsdData) : Prop := d.orientation ≠ none

/-- Everything but the orientations has moved to the opposite pixel. -/
def Spec.Flipped (rows cols : Nat) (d d' : EbsdData) : Prop :=
  d'.euler = Spec.oppositePixel rows cols d.euler ∧
  d'.bandContrast = d.bandContrast.map (Spec.oppositePixel rows cols) ∧
  d'.bandSlope = d.bandSlope.map (Spec.oppositePixel rows cols) ∧
  d'.phase = Spec.oppositePixel rows cols d.phase

theorem rotTransform_eq : rotTransform = ⟨0, 0, 0, 1⟩ := by
  have h : fromAxisAngle ![0, 0, 1] Real.pi = ⟨0, 0, 0, -1⟩ := by
    unfold fromAxisAngle
    rw [make_north] <;> simp
  unfold rotTransform conjugate
  rw [h, make_north] <;> simp

theorem rotTransform_matrix : rotMatrix rotTransform = Spec.halfTurn := by
  rw [rotTransform_eq]
  ext a b
  fin_cases a <;> fin_cases b <;> simp [rotMatrix, Spec.halfTurn] <;> norm_num

theorem rotMatrix_rotated (q : Quat ℝ) :
    rotMatrix (mul q rotTransform) = rotMatrix q * Spec.halfTurn := by
  rw [mul, rotMatrix_make, rotMatrix_mulRaw, rotTransform_matrix]

theorem halfTurn_twice : Spec.halfTurn * Spec.halfTurn = 1 := by
  ext a b
  fin_cases a <;> fin_cases b <;>
    simp [Spec.halfTurn, Matrix.mul_apply, Fin.sum_univ_three]

theorem flip180_eq {α : Type} (rows cols : Nat) (f : Int → Int → α) :
    flip180 rows cols f = Spec.oppositePixel rows cols f := rfl

theorem oppositePixel_twice {α : Type} (rows cols : Nat) (f : Int → Int → α) :
    Spec.oppositePixel rows cols (Spec.oppositePixel rows cols f) = f := by
  funext i j
  simp [Spec.oppositePixel]

theorem rotateData_ok (rows cols : Nat) (d : EbsdData) (hb : d.bandContrast ≠ none)
    (hs : d.bandSlope ≠ none) :
    ∃ d', rotateData rows cols d = (.ok (), d') ∧ Spec.Flipped rows cols d d' ∧
      d'.orientation = some fun i j =>
        mul (match d.orientation with
          | some q => q i j
          | none => quatArray (Spec.oppositePixel rows cols d.euler) i j) rotTransform := by
  obtain ⟨e, bc, bs, ph, o⟩ := d
  cases bc with
  | none => exact absurd rfl hb
  | some bc =>
    cases bs with
    | none => exact absurd rfl hs
    | some bs =>
      cases o with
      | none => exact ⟨_, rfl, ⟨rfl, rfl, rfl, rfl⟩, rfl⟩
      | some q => exact ⟨_, rfl, ⟨rfl, rfl, rfl, rfl⟩, rfl⟩

/-- **C64** If the orientations have not been read before, rotating moves all data to the opposite
pixel and turns the orientations by half a turn. -/
theorem C64_fresh (rows cols : Nat) (d : EbsdData) (hb : d.bandContrast ≠ none)
    (hs : d.bandSlope ≠ none) (ha : ¬ Spec.Accessed d) :
    ∃ d', rotateData rows cols d = (.ok (), d') ∧ Spec.Flipped rows cols d d' ∧ Spec.Accessed d' ∧
      ∀ i j, rotMatrix (Spec.orientations d' i j) =
        rotMatrix (Spec.oppositePixel rows cols (Spec.orientations d) i j) * Spec.halfTurn := by
  obtain ⟨d', h1, h2, h3⟩ := rotateData_ok rows cols d hb hs
  refine ⟨d', h1, h2, by simp [Spec.Accessed, h3], fun i j => ?_⟩
  have ho : d.orientation = none := by simpa [Spec.Accessed] using ha
  simp only [Spec.orientations, h3, ho, rotMatrix_rotated]
  rfl

/-- **C64** If they have been read before, the orientations stay at their pixels while all other
data moves: they are turned only. -/
theorem C64_accessed (rows cols : Nat) (d : EbsdData) (hb : d.bandContrast ≠ none)
    (hs : d.bandSlope ≠ none) (ha : Spec.Accessed d) :
    ∃ d', rotateData rows cols d = (.ok (), d') ∧ Spec.Flipped rows cols d d' ∧ Spec.Accessed d' ∧
      ∀ i j, rotMatrix (Spec.orientations d' i j) =
        rotMatrix (Spec.orientations d i j) * Spec.halfTurn := by
  obtain ⟨d', h1, h2, h3⟩ := rotateData_ok rows cols d hb hs
  refine ⟨d', h1, h2, by simp [Spec.Accessed, h3], fun i j => ?_⟩
  obtain ⟨q, ho⟩ := Option.ne_none_iff_exists'.1 ha
  simp only [Spec.orientations, h3, ho, rotMatrix_rotated]

/-- **C64** Reading the orientations keeps what was read and changes no other data. -/
theorem C64_read (d : EbsdData) :
    (readOrientation d).1 = Spec.orientations d ∧ Spec.Accessed (readOrientation d).2 ∧
    Spec.orientations (readOrientation d).2 = Spec.orientations d ∧
    (readOrientation d).2.euler = d.euler ∧ (readOrientation d).2.bandContrast = d.bandContrast ∧
    (readOrientation d).2.bandSlope = d.bandSlope ∧ (readOrientation d).2.phase = d.phase := by
  unfold readOrientation Spec.orientations Spec.Accessed
  cases h : d.orientation with
  | none => simp; rfl
  | some q => simp [h]

theorem Flipped.nonempty {rows cols : Nat} {d d' : EbsdData} (h : Spec.Flipped rows cols d d') :
    (d.bandContrast ≠ none → d'.bandContrast ≠ none) ∧ (d.bandSlope ≠ none → d'.bandSlope ≠ none) := by
  obtain ⟨-, h2, h3, -⟩ := h
  rw [h2, h3]
  simp

theorem Flipped.twice {rows cols : Nat} {d d' d'' : EbsdData} (h : Spec.Flipped rows cols d d')
    (h' : Spec.Flipped rows cols d' d'') :
    d''.euler = d.euler ∧ d''.bandContrast = d.bandContrast ∧ d''.bandSlope = d.bandSlope ∧
      d''.phase = d.phase := by
  obtain ⟨a1, a2, a3, a4⟩ := h
  obtain ⟨b1, b2, b3, b4⟩ := h'
  have o2 : ∀ o : Option (Int → Int → ℝ),
      (o.map (Spec.oppositePixel rows cols)).map (Spec.oppositePixel rows cols) = o := by
    intro o
    cases o with
    | none => rfl
    | some f => simp [oppositePixel_twice]
  refine ⟨?_, ?_, ?_, ?_⟩
  · rw [b1, a1, oppositePixel_twice]
  · rw [b2, a2, o2]
  · rw [b3, a3, o2]
  · rw [b4, a4, oppositePixel_twice]

/-- **C64** Rotating twice restores everything if the orientations were read before. -/
theorem C64_twice_accessed (rows cols : Nat) (d : EbsdData) (hb : d.bandContrast ≠ none)
    (hs : d.bandSlope ≠ none) (ha : Spec.Accessed d) :
    ∃ d' d'', rotateData rows cols d = (.ok (), d') ∧ rotateData rows cols d' = (.ok (), d'') ∧
      d''.euler = d.euler ∧ d''.bandContrast = d.bandContrast ∧ d''.bandSlope = d.bandSlope ∧
      d''.phase = d.phase ∧
      ∀ i j, rotMatrix (Spec.orientations d'' i j) = rotMatrix (Spec.orientations d i j) := by
  obtain ⟨d', h1, f1, a1, o1⟩ := C64_accessed rows cols d hb hs ha
  obtain ⟨d'', h2, f2, a2, o2⟩ := C64_accessed rows cols d' (Flipped.nonempty f1 |>.1 hb)
    (Flipped.nonempty f1 |>.2 hs) a1
  obtain ⟨t1, t2, t3, t4⟩ := Flipped.twice f1 f2
  refine ⟨d', d'', h1, h2, t1, t2, t3, t4, fun i j => ?_⟩
  rw [o2, o1, Matrix.mul_assoc, halfTurn_twice, mul_one]

/-- **C64** Rotating twice does not restore the data if the orientations were not read before: all
other data is back at its pixel, but the orientation there is the one of the opposite pixel. -/
theorem C64_twice_fresh (rows cols : Nat) (d : EbsdData) (hb : d.bandContrast ≠ none)
    (hs : d.bandSlope ≠ none) (ha : ¬ Spec.Accessed d) :
    ∃ d' d'', rotateData rows cols d = (.ok (), d') ∧ rotateData rows cols d' = (.ok (), d'') ∧
      d''.euler = d.euler ∧ d''.bandContrast = d.bandContrast ∧ d''.bandSlope = d.bandSlope ∧
      d''.phase = d.phase ∧
      ∀ i j, rotMatrix (Spec.orientations d'' i j) =
        rotMatrix (Spec.oppositePixel rows cols (Spec.orientations d) i j) := by
  obtain ⟨d', h1, f1, a1, o1⟩ := C64_fresh rows cols d hb hs ha
  obtain ⟨d'', h2, f2, a2, o2⟩ := C64_accessed rows cols d' (Flipped.nonempty f1 |>.1 hb)
    (Flipped.nonempty f1 |>.2 hs) a1
  obtain ⟨t1, t2, t3, t4⟩ := Flipped.twice f1 f2
  refine ⟨d', d'', h1, h2, t1, t2, t3, t4, fun i j => ?_⟩
  rw [o2, o1, Matrix.mul_assoc, halfTurn_twice, mul_one]

/-- **C64** Maps without band slope, which are all but those of Oxford files, cannot be rotated: the
call fails, and leaves a map whose Euler angles have moved and whose phases have not. -/
theorem C64_failed (rows cols : Nat) (d : EbsdData) (hs : d.bandSlope = none) :
    ∃ d', rotateData rows cols d = (.error .attributeError, d') ∧
      d'.euler = Spec.oppositePixel rows cols d.euler ∧
      d'.bandContrast = d.bandContrast.map (Spec.oppositePixel rows cols) ∧
      d'.phase = d.phase ∧ d'.orientation = d.orientation := by
  obtain ⟨e, bc, bs, ph, o⟩ := d
  cases hs
  cases bc with
  | none => exact ⟨_, rfl, rfl, rfl, rfl, rfl⟩
  | some bc => exact ⟨_, rfl, rfl, rfl, rfl, rfl⟩

/-- A map of one row and two columns in different orientations. -/
noncomputable def Spec.twoPixels (o : Bool) : EbsdData where
  euler _ j := if j = 0 then (0, 0, 0) else (Real.pi, Real.pi, 0)
  bandContrast := some fun _ _ => 0
  bandSlope := some fun _ _ => 0
  phase _ _ := 1
  orientation := if o then some (quatArray fun _ j => if j = 0 then (0, 0, 0) else (Real.pi, Real.pi, 0))
    else none

/-- **C64** Both failures occur: reading the orientations before gives another rotated map than not
reading them, and rotating twice does not restore a map. -/
theorem C64_history : ∃ d1 d2 d3 d4,
    rotateData 1 2 (Spec.twoPixels false) = (.ok (), d1) ∧
    rotateData 1 2 (Spec.twoPixels true) = (.ok (), d2) ∧
    rotMatrix (Spec.orientations d1 0 0) ≠ rotMatrix (Spec.orientations d2 0 0) ∧
    rotateData 1 2 d1 = (.ok (), d3) ∧
    rotMatrix (Spec.orientations d3 0 0) ≠ rotMatrix (Spec.orientations (Spec.twoPixels false) 0 0) ∧
    rotateData 1 2 d2 = (.ok (), d4) := by
  have key : rotMatrix (fromEuler Real.pi Real.pi 0) ≠ rotMatrix (fromEuler 0 0 0) := by
    intro h
    have := congrFun (congrFun h 2) 2
    unfold fromEuler at this
    rw [rotMatrix_make, rotMatrix_make] at this
    simp [rotMatrix] at this
    norm_num at this
  have o0 : Spec.orientations (Spec.twoPixels false) 0 0 = fromEuler 0 0 0 := by
    simp [Spec.orientations, Spec.twoPixels]
  have o1 : Spec.oppositePixel 1 2 (Spec.orientations (Spec.twoPixels false)) 0 0 =
      fromEuler Real.pi Real.pi 0 := by
    simp [Spec.orientations, Spec.twoPixels, Spec.oppositePixel]
  have o2 : Spec.orientations (Spec.twoPixels true) 0 0 = fromEuler 0 0 0 := by
    simp [Spec.orientations, Spec.twoPixels, quatArray]
  obtain ⟨d1, h1, f1, a1, e1⟩ := C64_fresh 1 2 (Spec.twoPixels false) (by simp [Spec.twoPixels])
    (by simp [Spec.twoPixels]) (by simp [Spec.twoPixels, Spec.Accessed])
  obtain ⟨d1', d3, h1', h3, _, _, _, _, e3⟩ := C64_twice_fresh 1 2 (Spec.twoPixels false)
    (by simp [Spec.twoPixels]) (by simp [Spec.twoPixels]) (by simp [Spec.twoPixels, Spec.Accessed])
  rw [h1] at h1'
  cases h1'
  obtain ⟨d2, d4, h2, h4, -⟩ := C64_twice_accessed 1 2 (Spec.twoPixels true)
    (by simp [Spec.twoPixels]) (by simp [Spec.twoPixels]) (by simp [Spec.twoPixels, Spec.Accessed])
  obtain ⟨d2', h2', _, _, e2⟩ := C64_accessed 1 2 (Spec.twoPixels true)
    (by simp [Spec.twoPixels]) (by simp [Spec.twoPixels]) (by simp [Spec.twoPixels, Spec.Accessed])
  rw [h2] at h2'
  cases h2'
  refine ⟨d1, d2, d3, d4, h1, h2, ?_, h3, ?_, h4⟩
  · rw [e1, e2, o1, o2]
    intro h
    apply key
    have := congrArg (· * Spec.halfTurn) h
    simpa only [Matrix.mul_assoc, halfTurn_twice, mul_one] using this
  · rw [e3, o0, o1]
    exact key

end DefDAP
