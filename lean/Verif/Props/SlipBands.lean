import Verif.Model.SlipBands
import Mathlib.Tactic.Ring
import Mathlib.Tactic.Linarith
import Mathlib.Tactic.FieldSimp
import Mathlib.Algebra.Order.BigOperators.Group.Finset

/-! C111: detection of slip bands. -/

namespace DefDAP

/-! ### What is used of the Radon transform and of the peak finder -/

/-- The transform of a multiple is the multiple of the transform. -/
def Spec.Homogeneous {h w R : Nat} (radon : FGrid h w → FGrid R 180) : Prop :=
  ∀ (c : ℝ) (f : FGrid h w), 0 < c → radon (fun y x => c * f y x) = fun r a => c * radon f r a

/-- The transform of greater data is greater. -/
def Spec.Monotone {h w R : Nat} (radon : FGrid h w → FGrid R 180) : Prop :=
  ∀ f g : FGrid h w, (∀ y x, f y x ≤ g y x) → ∀ r a, radon f r a ≤ radon g r a

/-- The threshold is relative to the profile. -/
def Spec.ScaleFree (peaks : PeakFinder) : Prop :=
  ∀ (c : ℝ) (p : Fin 180 → Option ℝ) (t : ℝ) (m : Nat), 0 < c →
    peaks (fun a => (p a).map fun v => c * v) t m = peaks p t m

/-- A flat profile has no peaks. -/
def Spec.FlatNone (peaks : PeakFinder) : Prop :=
  ∀ (c t : ℝ) (m : Nat), peaks (fun _ => some c) t m = []

/-! ### Lemmas -/

theorem absIfNegative_eq {h w : Nat} (d : FGrid h w) : absIfNegative d = fun y x => |d y x| := by
  unfold absIfNegative
  split_ifs with hn
  · rfl
  · push Not at hn
    funext y x
    exact (abs_of_nonneg (hn y x)).symm

theorem support_mul {h w : Nat} (d : FGrid h w) (c : ℝ) (hc : c ≠ 0) :
    support (fun y x => c * d y x) = support d := by
  funext y x
  simp [support, hc]

theorem cropMap_mul {R : Nat} (sino supp : FGrid R 180) (c : ℝ) :
    cropMap (fun r a => c * sino r a) supp = fun r a => c * cropMap sino supp r a := by
  funext r a
  unfold cropMap
  split_ifs with h
  · ring
  · simp

theorem cropCount_mul {R : Nat} (crop : FGrid R 180) (c : ℝ) (hc : 0 < c) (a : Fin 180) :
    cropCount (fun r a => c * crop r a) a = cropCount crop a := by
  unfold cropCount
  refine Finset.sum_congr rfl fun r _ => ?_
  simp [mul_pos_iff_of_pos_left hc]

theorem bandProfile_mul {R : Nat} (crop : FGrid R 180) (c : ℝ) (hc : 0 < c) (a : Fin 180) :
    bandProfile (fun r a => c * crop r a) a = (bandProfile crop a).map fun v => c ^ 4 * v := by
  unfold bandProfile
  rw [cropCount_mul crop c hc]
  split_ifs with h
  · rfl
  · simp only [Option.map_some, Option.some.injEq]
    rw [← mul_div_assoc, Finset.mul_sum]
    congr 1
    refine Finset.sum_congr rfl fun r _ => ?_
    ring

/-! ### The property -/

/-- **C111 (sign).** The sign of the data has no influence on the bands. -/
theorem C111_sign {h w R : Nat} (radon : FGrid h w → FGrid R 180) (peaks : PeakFinder)
    (d e : Fin h → Fin w → Option ℝ) (thres : Option ℝ) (minDist : Option Nat)
    (he : ∀ y x, (e y x).map abs = (d y x).map abs) :
    calcSlipBands radon peaks e thres minDist = calcSlipBands radon peaks d thres minDist := by
  have : absIfNegative (nanToNum e) = absIfNegative (nanToNum d) := by
    rw [absIfNegative_eq, absIfNegative_eq]
    funext y x
    have := he y x
    unfold nanToNum
    cases hd : d y x with
    | none =>
      rw [hd] at this
      cases hq : e y x with
      | none => rfl
      | some v => rw [hq] at this; cases this
    | some u =>
      rw [hd] at this
      cases hq : e y x with
      | none => rw [hq] at this; cases this
      | some v => rw [hq] at this; simpa using this
  unfold calcSlipBands slipProfile
  rw [this]

/-- **C111 (nan).** Missing values count as zero. -/
theorem C111_nan {h w R : Nat} (radon : FGrid h w → FGrid R 180) (peaks : PeakFinder)
    (d : Fin h → Fin w → Option ℝ) (thres : Option ℝ) (minDist : Option Nat) :
    calcSlipBands radon peaks d thres minDist =
      calcSlipBands radon peaks (fun y x => some ((d y x).getD 0)) thres minDist := rfl

/-- **C111 (scale).** The bands do not depend on the unit of the data: multiplying all values by a
number that is not zero, negative ones included, changes nothing. -/
theorem C111_scale {h w R : Nat} (radon : FGrid h w → FGrid R 180) (peaks : PeakFinder)
    (hr : Spec.Homogeneous radon) (hp : Spec.ScaleFree peaks)
    (d : Fin h → Fin w → Option ℝ) (c : ℝ) (hc : c ≠ 0) (thres : Option ℝ) (minDist : Option Nat) :
    calcSlipBands radon peaks (fun y x => (d y x).map fun v => c * v) thres minDist =
      calcSlipBands radon peaks d thres minDist := by
  have hpos : 0 < |c| := abs_pos.2 hc
  have h1 : absIfNegative (nanToNum fun y x => (d y x).map fun v => c * v) =
      fun y x => |c| * absIfNegative (nanToNum d) y x := by
    rw [absIfNegative_eq, absIfNegative_eq]
    funext y x
    simp only [nanToNum]
    cases hq : d y x with
    | none => simp
    | some v => simp [abs_mul]
  have h2 : slipProfile radon (fun y x => (d y x).map fun v => c * v) =
      fun a => (slipProfile radon d a).map fun v => |c| ^ 4 * v := by
    funext a
    unfold slipProfile
    rw [h1]
    rw [support_mul _ _ hpos.ne', hr _ _ hpos, cropMap_mul, bandProfile_mul _ _ hpos]
  unfold calcSlipBands
  rw [h2, hp _ _ _ _ (by positivity)]

/-- **C111 (angles).** The bands are those the peak finder gives with the threshold and distance asked
for, 0.3 and 30 by default; their angles are whole degrees from 0 to 179, in radians. -/
theorem C111_angles {h w R : Nat} (radon : FGrid h w → FGrid R 180) (peaks : PeakFinder)
    (d : Fin h → Fin w → Option ℝ) :
    (∀ (thres : Option ℝ) (minDist : Option Nat), ∀ angle ∈ calcSlipBands radon peaks d thres minDist,
      0 ≤ angle ∧ angle < Real.pi ∧ ∃ k : Fin 180, angle * 180 / Real.pi = (k : Nat)) ∧
    (∀ t m, (calcSlipBands radon peaks d (some t) (some m)).length =
      (peaks (slipProfile radon d) t m).length) ∧
    calcSlipBands radon peaks d none none =
      calcSlipBands radon peaks d (some (3 / 10)) (some 30) := by
  refine ⟨?_, fun t m => by simp [calcSlipBands], rfl⟩
  intro thres minDist angle ha
  obtain ⟨k, -, rfl⟩ := List.mem_map.1 ha
  have hpi := Real.pi_pos
  have hk : ((k : Nat) : ℝ) < 180 := by exact_mod_cast k.2
  have hk0 : (0 : ℝ) ≤ ((k : Nat) : ℝ) := Nat.cast_nonneg _
  refine ⟨by positivity, ?_, k, ?_⟩
  · rw [div_lt_iff₀ (by norm_num)]
    nlinarith
  · field_simp

/-- The rays of a direction that are counted: they meet the points of the grain that have data other
than zero on more than two thirds of the least diameter. -/
def Spec.Counted {h w R : Nat} (radon : FGrid h w → FGrid R 180) (d : Fin h → Fin w → Option ℝ)
    (r : Fin R) (a : Fin 180) : Prop :=
  minDiameter (radon (support (nanToNum d))) * 2 / 3 < radon (support (nanToNum d)) r a

theorem support_abs {h w : Nat} (d : FGrid h w) : support (absIfNegative d) = support d := by
  rw [absIfNegative_eq]
  funext y x
  simp [support]

theorem minDiameter_nonneg {R : Nat} (supp : FGrid R 180) : 0 ≤ minDiameter supp := by
  unfold minDiameter
  rw [Finset.le_inf'_iff]
  intro a _
  unfold diameter
  exact Finset.sum_nonneg fun r _ => by split_ifs <;> norm_num

/-- **C111 (uniform).** Uniform data shows no bands, whatever the shape of the grain and whichever of
its points have no data, if every direction has rays that are counted. -/
theorem C111_uniform {h w R : Nat} (radon : FGrid h w → FGrid R 180) (peaks : PeakFinder)
    (hr : Spec.Homogeneous radon) (hp : Spec.FlatNone peaks)
    (d : Fin h → Fin w → Option ℝ) (c : ℝ) (hc : 0 < c)
    (hd : ∀ y x v, d y x = some v → v = 0 ∨ |v| = c)
    (hcount : ∀ a, ∃ r, Spec.Counted radon d r a) (thres : Option ℝ) (minDist : Option Nat) :
    calcSlipBands radon peaks d thres minDist = [] := by
  have h1 : absIfNegative (nanToNum d) = fun y x => c * support (nanToNum d) y x := by
    rw [absIfNegative_eq]
    funext y x
    unfold support nanToNum
    cases hq : d y x with
    | none => simp
    | some v =>
      rcases hd y x v hq with rfl | hv
      · simp
      · have : v ≠ 0 := by
          rintro rfl
          rw [abs_zero] at hv
          linarith
        simp [this, hv]
  have h2 : slipProfile radon d = fun _ => some (c ^ 4) := by
    funext a
    unfold slipProfile
    rw [support_abs]
    rw [h1, hr _ _ hc]
    generalize hs : radon (support (nanToNum d)) = s
    have hcount' : ∃ r, minDiameter s * 2 / 3 < s r a := by
      have := hcount a
      unfold Spec.Counted at this
      rwa [hs] at this
    have hcrop : ∀ r, cropMap (fun r a => c * s r a) s r a =
        if minDiameter s * 2 / 3 < s r a then c else 0 := by
      intro r
      unfold cropMap
      split_ifs with h
      · have : 0 < s r a := lt_of_le_of_lt (by linarith [minDiameter_nonneg s]) h
        field_simp
      · rfl
    have hsum : ∑ r : Fin R, cropMap (fun r a => c * s r a) s r a ^ 4 =
        c ^ 4 * cropCount (cropMap (fun r a => c * s r a) s) a := by
      unfold cropCount
      rw [Finset.mul_sum]
      refine Finset.sum_congr rfl fun r _ => ?_
      rw [hcrop]
      split_ifs with h1 h2 <;> simp_all
    have hpos : 0 < cropCount (cropMap (fun r a => c * s r a) s) a := by
      obtain ⟨r, hr'⟩ := hcount'
      unfold cropCount
      refine Finset.sum_pos' (fun r _ => by split_ifs <;> norm_num) ⟨r, Finset.mem_univ _, ?_⟩
      rw [hcrop, if_pos hr', if_pos hc]
      norm_num
    unfold bandProfile
    rw [if_neg hpos.ne', hsum]
    field_simp
  unfold calcSlipBands
  rw [h2, hp]
  rfl

/-- **C111 (profile).** The profile of a direction is not negative and not greater than the fourth power
of the greatest absolute value of the data. -/
theorem C111_bounded {h w R : Nat} (radon : FGrid h w → FGrid R 180) (hr : Spec.Homogeneous radon)
    (hm : Spec.Monotone radon) (d : Fin h → Fin w → Option ℝ) (M : ℝ) (hM : 0 < M)
    (hd : ∀ y x v, d y x = some v → |v| ≤ M) (a : Fin 180) (v : ℝ)
    (hv : slipProfile radon d a = some v) : 0 ≤ v ∧ v ≤ M ^ 4 := by
  unfold slipProfile at hv
  rw [support_abs] at hv
  generalize hs : radon (support (nanToNum d)) = s at hv
  have hle : ∀ r, radon (absIfNegative (nanToNum d)) r a ≤ M * s r a := by
    intro r
    have := hm (absIfNegative (nanToNum d)) (fun y x => M * support (nanToNum d) y x) (by
      intro y x
      rw [absIfNegative_eq]
      unfold support nanToNum
      cases hq : d y x with
      | none => simp [hq]
      | some u =>
        by_cases hu : u = 0
        · simp [hq, hu]
        · simpa [hq, hu] using hd y x u hq) r a
    rw [hr _ _ hM, hs] at this
    exact this
  have hzero : radon (fun _ _ => 0) = fun _ _ => 0 := by
    have := hr 2 (fun _ _ => 0) (by norm_num)
    simp only [mul_zero] at this
    funext r b
    have := congrFun (congrFun this r) b
    linarith
  have hge : ∀ r, 0 ≤ radon (absIfNegative (nanToNum d)) r a := by
    intro r
    have := hm (fun _ _ => 0) (absIfNegative (nanToNum d)) (by
      intro y x
      rw [absIfNegative_eq]
      exact abs_nonneg _) r a
    rwa [hzero] at this
  generalize radon (absIfNegative (nanToNum d)) = t at hv hle hge
  have hcrop : ∀ r, 0 ≤ cropMap t s r a ∧ cropMap t s r a ≤ M := by
    intro r
    unfold cropMap
    split_ifs with h
    · have : 0 < s r a := lt_of_le_of_lt (by linarith [minDiameter_nonneg s]) h
      exact ⟨div_nonneg (hge r) this.le, (div_le_iff₀ this).2 (hle r)⟩
    · exact ⟨le_rfl, hM.le⟩
  unfold bandProfile at hv
  split_ifs at hv with h
  simp only [Option.some.injEq] at hv
  have hc0 : 0 ≤ cropCount (cropMap t s) a := by
    unfold cropCount
    exact Finset.sum_nonneg fun r _ => by split_ifs <;> norm_num
  have hcpos : 0 < cropCount (cropMap t s) a := lt_of_le_of_ne hc0 (Ne.symm h)
  rw [← hv]
  refine ⟨div_nonneg (Finset.sum_nonneg fun r _ => pow_nonneg (hcrop r).1 4) hc0, ?_⟩
  rw [div_le_iff₀ hcpos]
  unfold cropCount
  rw [Finset.mul_sum]
  refine Finset.sum_le_sum fun r _ => ?_
  split_ifs with hq
  · rw [mul_one]
    exact pow_le_pow_left₀ (hcrop r).1 (hcrop r).2 4
  · have : cropMap t s r a = 0 := le_antisymm (not_lt.1 hq) (hcrop r).1
    rw [this]
    simp

/-- **C111 (false without data).** If no point has data other than zero, the profile handed to the peak
finder is nan in every direction. -/
theorem C111_no_data {h w R : Nat} (radon : FGrid h w → FGrid R 180) (hr : Spec.Homogeneous radon)
    (d : Fin h → Fin w → Option ℝ) (hd : ∀ y x v, d y x = some v → v = 0) (a : Fin 180) :
    slipProfile radon d a = none := by
  have hz : nanToNum d = fun _ _ => 0 := by
    funext y x
    unfold nanToNum
    cases hq : d y x with
    | none => rfl
    | some v => simpa using hd y x v hq
  have hzero : radon (fun _ _ => 0) = fun _ _ => 0 := by
    have := hr 2 (fun _ _ => 0) (by norm_num)
    simp only [mul_zero] at this
    funext r b
    have := congrFun (congrFun this r) b
    linarith
  have habs : absIfNegative (nanToNum d) = fun _ _ => 0 := by
    rw [absIfNegative_eq, hz]
    simp
  have hsupp : support (fun (_ : Fin h) (_ : Fin w) => (0 : ℝ)) = fun _ _ => 0 := by
    funext y x
    simp [support]
  unfold slipProfile
  rw [habs, hsupp, hzero]
  have : cropMap (fun (_ : Fin R) (_ : Fin 180) => (0 : ℝ)) (fun _ _ => 0) = fun _ _ => 0 := by
    funext r b
    simp [cropMap]
  rw [this]
  simp [bandProfile, cropCount]

/-! ### A transform and a peak finder as asked for -/

/-- Sums along the rows, for every direction. -/
noncomputable def Spec.rowRadon (h w : Nat) : FGrid h w → FGrid h 180 := fun f r _ => ∑ x, f r x

/-- The directions with a greater value than the first. -/
noncomputable def Spec.aboveFirst : PeakFinder := fun p _ _ =>
  open Classical in
  (List.finRange 180).filter fun a => ∃ u v, p 0 = some u ∧ p a = some v ∧ u < v

example : Spec.Homogeneous (Spec.rowRadon 2 3) ∧ Spec.Monotone (Spec.rowRadon 2 3) ∧
    Spec.ScaleFree Spec.aboveFirst ∧ Spec.FlatNone Spec.aboveFirst ∧
    (∀ a, ∃ r, Spec.Counted (Spec.rowRadon 2 3)
      (fun y _ => if y = 0 then some 5 else none) r a) := by
  refine ⟨?_, ?_, ?_, ?_, ?_⟩
  · intro c f _
    funext r a
    simp [Spec.rowRadon, Finset.mul_sum]
  · intro f g hfg r a
    exact Finset.sum_le_sum fun x _ => hfg r x
  · intro c p t m hc
    unfold Spec.aboveFirst
    congr 1
    funext a
    congr 1
    simp only [Option.map_eq_some_iff, eq_iff_iff]
    constructor
    · rintro ⟨u, v, ⟨u', hu, rfl⟩, ⟨v', hv, rfl⟩, hlt⟩
      exact ⟨u', v', hu, hv, lt_of_mul_lt_mul_left hlt hc.le⟩
    · rintro ⟨u, v, hu, hv, hlt⟩
      exact ⟨c * u, c * v, ⟨u, hu, rfl⟩, ⟨v, hv, rfl⟩, mul_lt_mul_of_pos_left hlt hc⟩
  · intro c t m
    simp [Spec.aboveFirst]
  · intro a
    refine ⟨0, ?_⟩
    unfold Spec.Counted
    have hd : ∀ b, diameter (Spec.rowRadon 2 3
        (support (nanToNum fun y _ => if y = 0 then some 5 else none))) b = 1 := by
      intro b
      simp [diameter, Spec.rowRadon, support, nanToNum, Fin.sum_univ_two]
    have hmin : minDiameter (Spec.rowRadon 2 3
        (support (nanToNum fun y _ => if y = 0 then some 5 else none))) = 1 := by
      unfold minDiameter
      rw [Finset.inf'_congr _ rfl (fun b _ => hd b)]
      simp
    rw [hmin]
    simp [Spec.rowRadon, support, nanToNum]
    norm_num

end DefDAP
