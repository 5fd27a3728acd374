import Verif.Props.GrainMaps

/-! C170: coarse maps of grains: noise, units, points far away, large kernels. -/

namespace DefDAP

/-- Points at most `k` rows and columns from a pixel. -/
def Spec.InKernel (k : Nat) (c p : Px) : Prop := |p.1 - c.1| ≤ k ∧ |p.2 - c.2| ≤ k

/-- Two lists of values of the points of a grain that are in a relation at the points at most `k` rows and columns from a
pixel, nan at the same points there; they may be anything at the others. -/
def Spec.NearPoints (R : Rat → Rat → Prop) (pts : List Px) (k : Nat) (c : Px) (data data' : List (Option Rat)) : Prop :=
  data.length = pts.length ∧ data'.length = pts.length ∧
  ∀ (n : Nat) (p : Px) (o o' : Option Rat), pts[n]? = some p → data[n]? = some o → data'[n]? = some o' →
    Spec.InKernel k c p → Option.Rel R o o'

open Spec

theorem nearPoints_values {R : Rat → Rat → Prop} {k : Nat} {c : Px} : ∀ {pts : List Px} {data data' : List (Option Rat)},
    NearPoints R pts k c data data' →
    List.Forall₂ R (kernelValues pts data k c) (kernelValues pts data' k c)
  | [], [], [], _ => .nil
  | [], _ :: _, _, h => absurd h.1 (by simp)
  | [], _, _ :: _, h => absurd h.2.1 (by simp)
  | _ :: _, [], _, h => absurd h.1 (by simp)
  | _ :: _, _ :: _, [], h => absurd h.2.1 (by simp)
  | p :: pts, o :: data, o' :: data', h => by
    obtain ⟨h1, h2, h3⟩ := h
    have ih : List.Forall₂ R (kernelValues pts data k c) (kernelValues pts data' k c) :=
      nearPoints_values ⟨by simpa using h1, by simpa using h2, fun n q a b hq ha hb hw =>
        h3 (n + 1) q a b (by simpa using hq) (by simpa using ha) (by simpa using hb) hw⟩
    unfold kernelValues at ih ⊢
    rw [List.zip_cons_cons, List.zip_cons_cons, List.filterMap_cons, List.filterMap_cons]
    by_cases hw : |p.1 - c.1| ≤ (k : Int) ∧ |p.2 - c.2| ≤ (k : Int)
    · simp only [if_pos hw]
      have hr := h3 0 p o o' rfl rfl rfl hw
      cases hr with
      | some h => exact .cons h ih
      | none => exact ih
    · simp only [if_neg hw]
      exact ih

theorem sum_close {l l' : List Rat} {ε : Rat} (h : List.Forall₂ (fun v v' => |v - v'| ≤ ε) l l') :
    |l.sum - l'.sum| ≤ ε * l.length := by
  induction h with
  | nil => simp
  | cons h1 _ ih =>
    rw [List.sum_cons, List.sum_cons, List.length_cons]
    push_cast
    rw [show ∀ a b c d : Rat, a + b - (c + d) = (a - c) + (b - d) from fun a b c d => by ring]
    refine le_trans (abs_add_le _ _) ?_
    linarith

/-- **C170**: noise of at most `ε` at the points at most the size of the kernel away, in rows and columns, changes a
coarse value by at most `ε`, whatever happens to the values further away. -/
theorem C170_noise (pts : List Px) (hne : pts ≠ []) (hn : pts.Nodup) (data data' : List (Option Rat)) (k : Nat)
    (bg : Option Rat) (ε : Rat) : ∃ x0 y0 x1 y1 hh ww im im', extremeCoords pts = .ok (x0, y0, x1, y1) ∧
      grainMapDataCoarse pts data k bg = .ok (hh, ww, im) ∧ grainMapDataCoarse pts data' k bg = .ok (hh, ww, im') ∧
      ∀ i j : Nat, i < hh → j < ww →
        NearPoints (fun v v' => |v - v'| ≤ ε) pts k (j + x0, i + y0) data data' →
        ∀ v, (((j + x0, i + y0) : Px), some v) ∈ pts.zip data →
          ∃ u u', im i j = some u ∧ im' i j = some u' ∧ |u - u'| ≤ ε := by
  obtain ⟨x0, y0, x1, y1, hh, ww, im, he, hg, eh, ew, hpix⟩ := C21_coarse_mean pts hne hn data k bg
  obtain ⟨x0', y0', x1', y1', hh', ww', im', he', hg', eh', ew', hpix'⟩ := C21_coarse_mean pts hne hn data' k bg
  rw [he] at he'
  simp only [Except.ok.injEq, Prod.mk.injEq] at he'
  obtain ⟨rfl, rfl, rfl, rfl⟩ := he'
  have e1 : hh' = hh := by omega
  have e2 : ww' = ww := by omega
  subst e1 e2
  refine ⟨x0, y0, x1, y1, hh', ww', im, im', he, hg, hg', fun i j hi hj hnear v hv => ?_⟩
  obtain ⟨hk, hval⟩ := (hpix i j hi hj).2 v hv
  have hv' : ∃ v', (((j + x0, i + y0) : Px), some v') ∈ pts.zip data' := by
    obtain ⟨n, hget⟩ := List.mem_iff_getElem?.1 hv
    rw [List.getElem?_zip_eq_some] at hget
    obtain ⟨hp, hd⟩ := hget
    obtain ⟨l1, -⟩ := List.getElem?_eq_some_iff.1 hp
    have hd' : data'[n]? = some (data'[n]'(by rw [hnear.2.1]; exact l1)) := List.getElem?_eq_getElem _
    have hr := hnear.2.2 n _ _ _ hp hd hd' ⟨by simp, by simp⟩
    generalize hb : data'[n]'(by rw [hnear.2.1]; exact l1) = b at hr hd'
    cases hr with
    | @some _ v' h =>
      exact ⟨v', List.mem_iff_getElem?.2 ⟨n, by rw [List.getElem?_zip_eq_some]; exact ⟨hp, hd'⟩⟩⟩
  obtain ⟨v', hv'⟩ := hv'
  obtain ⟨hk', hval'⟩ := (hpix' i j hi hj).2 v' hv'
  have hf := nearPoints_values hnear
  have hlen := hf.length_eq
  refine ⟨_, _, hval, hval', ?_⟩
  have hpos : (0 : Rat) < (kernelValues pts data k (j + x0, i + y0)).length := by
    exact_mod_cast List.length_pos_iff.2 hk
  rw [← hlen, ← sub_div, abs_div, abs_of_pos hpos, div_le_iff₀ hpos]
  exact sum_close hf

theorem kernelValues_map (pts : List Px) (g : Rat → Rat) (k : Nat) (c : Px) : ∀ data : List (Option Rat),
    kernelValues pts (data.map (Option.map g)) k c = (kernelValues pts data k c).map g := by
  intro data
  unfold kernelValues
  rw [List.zip_map_right, List.filterMap_map, List.map_filterMap]
  congr 1
  funext pv
  simp only [Function.comp, Prod.map, id]
  split_ifs <;> rfl

theorem sum_affine (l : List Rat) (c d : Rat) : (l.map fun v => c * v + d).sum = c * l.sum + d * l.length := by
  induction l with
  | nil => simp
  | cons a t ih =>
    rw [List.map_cons, List.sum_cons, ih, List.sum_cons, List.length_cons]
    push_cast
    ring

/-- **C170**: in other units, `c` times the values and moved by `d`, the coarse map is the same in the other units. -/
theorem C170_units (pts : List Px) (hne : pts ≠ []) (hn : pts.Nodup) (data : List (Option Rat)) (k : Nat)
    (bg : Option Rat) (c d : Rat) : ∃ x0 y0 x1 y1 hh ww im im', extremeCoords pts = .ok (x0, y0, x1, y1) ∧
      grainMapDataCoarse pts data k bg = .ok (hh, ww, im) ∧
      grainMapDataCoarse pts (data.map (Option.map fun v => c * v + d)) k bg = .ok (hh, ww, im') ∧
      ∀ i j : Nat, i < hh → j < ww → ∀ v, (((j + x0, i + y0) : Px), some v) ∈ pts.zip data →
        ∃ u, im i j = some u ∧ im' i j = some (c * u + d) := by
  obtain ⟨x0, y0, x1, y1, hh, ww, im, he, hg, eh, ew, hpix⟩ := C21_coarse_mean pts hne hn data k bg
  obtain ⟨x0', y0', x1', y1', hh', ww', im', he', hg', eh', ew', hpix'⟩ :=
    C21_coarse_mean pts hne hn (data.map (Option.map fun v => c * v + d)) k bg
  rw [he] at he'
  simp only [Except.ok.injEq, Prod.mk.injEq] at he'
  obtain ⟨rfl, rfl, rfl, rfl⟩ := he'
  have e1 : hh' = hh := by omega
  have e2 : ww' = ww := by omega
  subst e1 e2
  refine ⟨x0, y0, x1, y1, hh', ww', im, im', he, hg, hg', fun i j hi hj v hv => ?_⟩
  obtain ⟨hk, hval⟩ := (hpix i j hi hj).2 v hv
  have hv' : (((j + x0, i + y0) : Px), some (c * v + d)) ∈ pts.zip (data.map (Option.map fun v => c * v + d)) := by
    rw [List.zip_map_right]
    exact List.mem_map.2 ⟨_, hv, rfl⟩
  obtain ⟨-, hval'⟩ := (hpix' i j hi hj).2 _ hv'
  refine ⟨_, hval, ?_⟩
  rw [hval', kernelValues_map, sum_affine, List.length_map]
  have hpos : (0 : Rat) < (kernelValues pts data k (j + x0, i + y0)).length := by
    exact_mod_cast List.length_pos_iff.2 hk
  congr 1
  field_simp

/-- **C170**: with a kernel at least as large as the grain every coarse value is the mean of the values of the grain. -/
theorem C170_large (pts : List Px) (hne : pts ≠ []) (hn : pts.Nodup) (data : List (Option Rat)) (k : Nat)
    (bg : Option Rat) (hlen : data.length = pts.length)
    (hk : ∀ p ∈ pts, ∀ q ∈ pts, |p.1 - q.1| ≤ k ∧ |p.2 - q.2| ≤ k) :
    ∃ x0 y0 x1 y1 hh ww im, extremeCoords pts = .ok (x0, y0, x1, y1) ∧
      grainMapDataCoarse pts data k bg = .ok (hh, ww, im) ∧
      ∀ i j : Nat, i < hh → j < ww → ∀ v, (((j + x0, i + y0) : Px), some v) ∈ pts.zip data →
        im i j = some ((data.filterMap id).sum / (data.filterMap id).length) := by
  obtain ⟨x0, y0, x1, y1, hh, ww, im, he, hg, eh, ew, hpix⟩ := C21_coarse_mean pts hne hn data k bg
  refine ⟨x0, y0, x1, y1, hh, ww, im, he, hg, fun i j hi hj v hv => ?_⟩
  obtain ⟨-, hval⟩ := (hpix i j hi hj).2 v hv
  have hmem : (((j + x0, i + y0) : Px)) ∈ pts := (List.of_mem_zip hv).1
  have hall : kernelValues pts data k (j + x0, i + y0) = data.filterMap id := by
    unfold kernelValues
    have h1 : ((pts.zip data).filterMap fun pv =>
        if |pv.1.1 - ((j + x0, i + y0) : Px).1| ≤ (k : Int) ∧ |pv.1.2 - ((j + x0, i + y0) : Px).2| ≤ (k : Int) then pv.2
        else none) = (pts.zip data).filterMap fun pv => pv.2 := by
      refine List.filterMap_congr fun pv hpv => ?_
      rw [if_pos (hk pv.1 (List.of_mem_zip (a := pv.1) (b := pv.2) hpv).1 _ hmem)]
    rw [h1]
    have h2 : (pts.zip data).map Prod.snd = data := List.map_snd_zip (by omega)
    conv_rhs => rw [← h2]
    rw [List.filterMap_map]
    rfl
  rw [hval, hall]

/-- Three points in a row: noise at the first two, anything at the third. -/
example : NearPoints (fun v v' => |v - v'| ≤ 1) [(0, 0), (1, 0), (2, 0)] 1 (0, 0) [some 1, none, some 5]
      [some (1 / 2), none, some 900] ∧
    (∀ p ∈ [((0, 0) : Px), (1, 0), (2, 0)], ∀ q ∈ [((0, 0) : Px), (1, 0), (2, 0)],
      |p.1 - q.1| ≤ ((2 : Nat) : Int) ∧ |p.2 - q.2| ≤ ((2 : Nat) : Int)) := by
  refine ⟨⟨rfl, rfl, fun n p o o' hp ho ho' hw => ?_⟩, by decide⟩
  match n with
  | 0 =>
    cases hp; cases ho; cases ho'
    exact .some (by norm_num [abs_le])
  | 1 =>
    cases hp; cases ho; cases ho'
    exact .none
  | 2 =>
    cases hp
    exact absurd hw.1 (by decide)
  | n + 3 => simp at hp

end DefDAP
