import Verif.Proofs.GrainData
import Verif.Props.FindGrains
import Verif.Spec.Grains

/-! Properties C17 to C22 and C80: data of single grains and of grain lists. -/

namespace DefDAP
open Spec

/-- The grains of a successful run of the EBSD grain finder are a valid grain list: the
hypothesis `ValidGrains` of the theorems below is met by what the library produces. -/
theorem findGrains_valid {h w : Nat} (hw : 2 ≤ w) (hh : 2 ≤ h) (bx by' : Img Bool)
    (phase : Img Int) (numPhases minSize : Nat) (r : FGResult)
    (hr : findGrains h w phase numPhases bx by' minSize = .ok r) :
    ValidGrains h w ((List.range r.list.length).map r.points) := by
  obtain ⟨h1, -, -⟩ := C04_numbering hw hh bx by' phase numPhases minSize r hr
  have hm : ∀ g ∈ (List.range r.list.length).map r.points, ∃ i, i < r.list.length ∧ g = r.points i := by
    intro g hg
    obtain ⟨i, hi, rfl⟩ := List.mem_map.1 hg
    exact ⟨i, List.mem_range.1 hi, rfl⟩
  constructor
  · intro g hg; obtain ⟨i, hi, rfl⟩ := hm g hg; exact (h1 i hi).2.2.2.1
  · intro g hg; obtain ⟨i, hi, rfl⟩ := hm g hg; exact (h1 i hi).1
  · intro g hg; obtain ⟨i, hi, rfl⟩ := hm g hg; exact (h1 i hi).2.2.2.2
  · rw [List.pairwise_map]
    apply List.Pairwise.imp_of_mem (R := (· < ·))
    · intro i j hi hj hij p hp hp'
      have a := ((h1 i (List.mem_range.1 hi)).2.1 p).1 hp
      have b := ((h1 j (List.mem_range.1 hj)).2.1 p).1 hp'
      omega
    · exact List.pairwise_lt_range

theorem validGrains_flat_nodup {h w : Nat} {grains : List (List Px)} (hv : ValidGrains h w grains) :
    grains.flatten.Nodup := by
  rw [List.nodup_flatten]
  refine ⟨hv.nodup, hv.disjoint.imp ?_⟩
  intro a b hab p hpa hpb
  exact hab p hpa hpb

/-- **C17** Extracting the data of every grain from a map and writing it back to a map gives
the original values on all grain pixels and zero elsewhere. -/
theorem C17_roundtrip {α : Type} [Zero α] {h w : Nat} (m : Img α) (grains : List (List Px))
    (hv : ValidGrains h w grains) (hne : grains ≠ []) :
    ∃ (datas : List (List α)) (im : Img α), grains.mapM (grainData h w m) = .ok datas ∧
      grainDataToMap h w (grains.zip datas) = .ok im ∧
      (∀ g ∈ grains, ∀ p ∈ g, im p.2 p.1 = m p.2 p.1) ∧
      (∀ p : Px, (∀ g ∈ grains, p ∉ g) → im p.2 p.1 = 0) := by
  have h1 : grains.mapM (grainData h w m) = .ok (grains.map fun g => g.map fun p => m p.2 p.1) :=
    mapM_ok _ fun g hg => grainData_ok m (hv.inMap g hg)
  have hz : grains.zip (grains.map fun g => g.map fun p => m p.2 p.1) =
      grains.map fun g => (g, g.map fun p => m p.2 p.1) := by
    exact zip_map_self _ _
  have h2 := grainDataToMap_ok (h := h) (w := w)
    (grains.map fun g => (g, g.map fun p => m p.2 p.1)) (by simpa using hne) (by
      intro g hg
      obtain ⟨pts, hp, rfl⟩ := List.mem_map.1 hg
      exact ⟨hv.inMap pts hp, by simp⟩)
  refine ⟨_, _, h1, by rw [hz]; exact h2, ?_, ?_⟩
  all_goals
    have hfun : ∀ pv ∈ (grains.map fun g => (g, g.map fun p => m p.2 p.1)).flatMap
        (fun g => g.1.zip g.2), pv.2 = m pv.1.2 pv.1.1 ∧ ∃ g ∈ grains, pv.1 ∈ g := by
      intro pv hpv
      obtain ⟨g, hg, hpv⟩ := List.mem_flatMap.1 hpv
      obtain ⟨pts, hp, rfl⟩ := List.mem_map.1 hg
      rw [zip_map_self] at hpv
      obtain ⟨p, hpp, rfl⟩ := List.mem_map.1 hpv
      exact ⟨rfl, pts, hp, hpp⟩
    have hall := wrAll_fun (fun p => m p.2 p.1) _ (fun _ _ => (0 : α)) (fun pv hpv => (hfun pv hpv).1)
  · intro g hg p hp
    rw [hall p, if_pos]
    rw [List.mem_map]
    refine ⟨(p, m p.2 p.1), ?_, rfl⟩
    rw [List.mem_flatMap]
    refine ⟨(g, g.map fun p => m p.2 p.1), List.mem_map.2 ⟨g, hg, rfl⟩, ?_⟩
    rw [zip_map_self]
    exact List.mem_map.2 ⟨p, hp, rfl⟩
  · intro p hp
    rw [hall p, if_neg]
    intro hmem
    obtain ⟨pv, hpv, rfl⟩ := List.mem_map.1 hmem
    obtain ⟨-, g, hg, hpg⟩ := hfun pv hpv
    exact hp g hg hpg

/-- **C17** The data extracted for a grain lists the map's value at each point of the grain,
in the order of the points. -/
theorem C17_grain_data {α : Type} {h w : Nat} (m : Img α) (pts : List Px)
    (hp : ∀ p ∈ pts, InMap h w p) :
    ∃ d, grainData h w m pts = .ok d ∧ d.length = pts.length ∧
      ∀ (i : Nat) (p : Px), pts[i]? = some p → d[i]? = some (m p.2 p.1) := by
  refine ⟨_, grainData_ok m hp, by simp, ?_⟩
  intro i p hi
  simp [hi]

/-- **C17** The image of a single grain has the size of its bounding box, shows each point's
value at the point's position relative to the box corner and the background at all other
positions. -/
theorem C17_image {α : Type} (pts : List Px) (hne : pts ≠ []) (hn : pts.Nodup) (data : List α)
    (bg : α) :
    ∃ x0 y0 x1 y1 hh ww im, extremeCoords pts = .ok (x0, y0, x1, y1) ∧
      grainMapData pts data bg = .ok (hh, ww, im) ∧
      (hh : Int) = y1 - y0 + 1 ∧ (ww : Int) = x1 - x0 + 1 ∧
      (∀ (i : Nat) (p : Px) (v : α), pts[i]? = some p → data[i]? = some v →
        im (p.2 - y0) (p.1 - x0) = v) ∧
      (∀ p : Px, p ∉ pts → im (p.2 - y0) (p.1 - x0) = bg) := by
  obtain ⟨x0, y0, x1, y1, he, hb, -⟩ := extremeCoords_spec hne
  obtain ⟨q, hq⟩ := List.exists_mem_of_ne_nil _ hne
  have hq' := hb q hq
  refine ⟨x0, y0, x1, y1, _, _, _, he, grainMapData_ok hne data bg he, by omega, by omega, ?_, ?_⟩
  · intro i p v hp hd
    exact wrAll_mem _ (fun _ _ => bg) (shifted_nodup data hn x0 y0) (((p.1 - x0, p.2 - y0) : Px), v)
      (List.mem_map.2 ⟨(p, v), zip_get hp hd, rfl⟩)
  · intro p hp
    refine wrAll_notMem _ (fun _ _ => bg) ((p.1 - x0, p.2 - y0) : Px) ?_
    intro pv hpv heq
    obtain ⟨⟨r, v⟩, hz, rfl⟩ := List.mem_map.1 hpv
    have hr := (List.of_mem_zip hz).1
    simp only [Prod.mk.injEq] at heq
    have : r = p := Prod.ext (by omega) (by omega)
    exact hp (this ▸ hr)

/-- **C17** The outline image is the foreground value on the grain's points and the background
elsewhere; with the default background `nan` it cannot be made. -/
theorem C17_outline (pts : List Px) (hne : pts ≠ []) (bg fg : Int) :
    grainOutline pts none fg = .error .valueError ∧
    ∃ x0 y0 x1 y1 hh ww im, extremeCoords pts = .ok (x0, y0, x1, y1) ∧
      grainOutline pts (some bg) fg = .ok (hh, ww, im) ∧
      (hh : Int) = y1 - y0 + 1 ∧ (ww : Int) = x1 - x0 + 1 ∧
      ∀ p : Px, im (p.2 - y0) (p.1 - x0) = if p ∈ pts then fg else bg := by
  obtain ⟨x0, y0, x1, y1, he, hb, -⟩ := extremeCoords_spec hne
  obtain ⟨q, hq⟩ := List.exists_mem_of_ne_nil _ hne
  have hq' := hb q hq
  refine ⟨by unfold grainOutline; rw [he]; rfl, x0, y0, x1, y1, (y1 - y0 + 1).toNat,
    (x1 - x0 + 1).toNat, wrAll (fun _ _ => bg) (pts.map fun p => ((p.1 - x0, p.2 - y0), fg)),
    he, ?_, by omega, by omega, ?_⟩
  · unfold grainOutline
    rw [he]
    simp only [bind, Except.bind]
    rw [writeAll_ok]
    intro pv hpv
    obtain ⟨p, hp, rfl⟩ := List.mem_map.1 hpv
    have := hb p hp
    refine ⟨?_, ?_, ?_, ?_⟩ <;> simp only <;> omega
  · intro p
    have := wrAll_fun (fun _ => fg) (pts.map fun p => (((p.1 - x0, p.2 - y0) : Px), fg))
      (fun _ _ => bg) (by
        intro pv hpv
        obtain ⟨p, hp, rfl⟩ := List.mem_map.1 hpv
        rfl) ((p.1 - x0, p.2 - y0) : Px)
    rw [this]
    have hiff : ((p.1 - x0, p.2 - y0) : Px) ∈
        (pts.map fun p => (((p.1 - x0, p.2 - y0) : Px), fg)).map (·.1) ↔ p ∈ pts := by
      rw [List.map_map, List.mem_map]
      constructor
      · rintro ⟨r, hr, heq⟩
        simp only [Function.comp, Prod.mk.injEq] at heq
        have : r = p := Prod.ext (by omega) (by omega)
        exact this ▸ hr
      · intro hp; exact ⟨p, hp, rfl⟩
    by_cases hp : p ∈ pts
    · rw [if_pos (hiff.2 hp), if_pos hp]
    · rw [if_neg (fun h => hp (hiff.1 h)), if_neg hp]

/-- **C80** The image of a single grain made from a map with components (a vector map of shape
`(c, h, w)`) does not show the map: the position of the `i`-th point, for `i` below `c`, holds the
`i`-th components at all points of the grain, the positions of all points from the `c`-th on and all
others are left at the background. -/
theorem C80_vector_image {α : Type} {h w : Nat} (ms : List (Img α)) (pts : List Px)
    (hp : ∀ p ∈ pts, InMap h w p) (hne : pts ≠ []) (hn : pts.Nodup) (bg : α) :
    ∃ x0 y0 x1 y1 hh ww im, extremeCoords pts = .ok (x0, y0, x1, y1) ∧
      grainMapDataOfVecMap h w ms pts bg = .ok (hh, ww, im) ∧
      (hh : Int) = y1 - y0 + 1 ∧ (ww : Int) = x1 - x0 + 1 ∧
      (∀ (i : Nat) (p : Px) (m : Img α), pts[i]? = some p → ms[i]? = some m →
        im (p.2 - y0) (p.1 - x0) = pts.map fun r => m r.2 r.1) ∧
      (∀ (i : Nat) (p : Px), pts[i]? = some p → ms.length ≤ i →
        im (p.2 - y0) (p.1 - x0) = List.replicate pts.length bg) ∧
      ∀ p : Px, p ∉ pts → im (p.2 - y0) (p.1 - x0) = List.replicate pts.length bg := by
  obtain ⟨x0, y0, x1, y1, he, hb, -⟩ := extremeCoords_spec hne
  have hrows : ms.mapM (fun m => grainData h w m pts) =
      .ok (ms.map fun m => pts.map fun p => m p.2 p.1) :=
    mapM_ok _ fun m _ => grainData_ok m hp
  have hg : grainMapDataOfVecMap h w ms pts bg =
      grainMapData pts (ms.map fun m => pts.map fun p => m p.2 p.1)
        (List.replicate pts.length bg) := by
    unfold grainMapDataOfVecMap
    rw [hrows]
    rfl
  obtain ⟨q, hq⟩ := List.exists_mem_of_ne_nil _ hne
  have hq' := hb q hq
  refine ⟨x0, y0, x1, y1, _, _, _, he, hg.trans (grainMapData_ok hne _ _ he), by omega, by omega,
    ?_, ?_, ?_⟩
  · intro i p m hi hm
    exact wrAll_mem _ (fun _ _ => List.replicate pts.length bg) (shifted_nodup _ hn x0 y0)
      (((p.1 - x0, p.2 - y0) : Px), pts.map fun r => m r.2 r.1)
      (List.mem_map.2 ⟨(p, pts.map fun r => m r.2 r.1), zip_get (m := ms.map fun m => pts.map fun p => m p.2 p.1) hi
        (by simp [hm]), rfl⟩)
  rotate_left
  · intro p hp
    refine wrAll_notMem _ (fun _ _ => List.replicate pts.length bg) ((p.1 - x0, p.2 - y0) : Px) ?_
    intro pv hpv heq
    obtain ⟨⟨r, v⟩, hz, rfl⟩ := List.mem_map.1 hpv
    have hr := (List.of_mem_zip hz).1
    simp only [Prod.mk.injEq] at heq
    have : r = p := Prod.ext (by omega) (by omega)
    exact hp (this ▸ hr)
  · intro i p hi hle
    refine wrAll_notMem _ (fun _ _ => List.replicate pts.length bg) ((p.1 - x0, p.2 - y0) : Px) ?_
    intro pv hpv heq
    obtain ⟨⟨r, v⟩, hz, rfl⟩ := List.mem_map.1 hpv
    simp only [Prod.mk.injEq] at heq
    have hrp : r = p := Prod.ext (by omega) (by omega)
    subst hrp
    obtain ⟨k, hk⟩ := List.mem_iff_getElem?.1 hz
    rw [List.getElem?_zip_eq_some] at hk
    have hk2 : k < ms.length := by
      have := (List.getElem?_eq_some_iff.1 hk.2).1
      simpa using this
    obtain ⟨l1, e1⟩ := List.getElem?_eq_some_iff.1 hk.1
    obtain ⟨l2, e2⟩ := List.getElem?_eq_some_iff.1 hi
    have := (List.Nodup.getElem_inj_iff hn).1 (e1.trans e2.symm)
    omega

/-- **C80**, scalar maps: the image of a grain made from a map with one value per pixel does
show the map. -/
theorem C80_scalar_image {α : Type} {h w : Nat} (m : Img α) (pts : List Px)
    (hp : ∀ p ∈ pts, InMap h w p) (hne : pts ≠ []) (hn : pts.Nodup) (bg : α) :
    ∃ x0 y0 x1 y1 hh ww im, extremeCoords pts = .ok (x0, y0, x1, y1) ∧
      grainMapDataOfMap h w m pts bg = .ok (hh, ww, im) ∧
      (hh : Int) = y1 - y0 + 1 ∧ (ww : Int) = x1 - x0 + 1 ∧
      ∀ p : Px, im (p.2 - y0) (p.1 - x0) = if p ∈ pts then m p.2 p.1 else bg := by
  obtain ⟨x0, y0, x1, y1, hh, ww, im, he, hg, e1, e2, e3, e4⟩ :=
    C17_image pts hne hn (pts.map fun p => m p.2 p.1) bg
  refine ⟨x0, y0, x1, y1, hh, ww, im, he, ?_, e1, e2, ?_⟩
  · unfold grainMapDataOfMap; rw [grainData_ok m hp]; exact hg
  · intro p
    by_cases hpp : p ∈ pts
    · rw [if_pos hpp]
      obtain ⟨i, hi⟩ := List.mem_iff_getElem?.1 hpp
      exact e3 i p _ hi (by simp [hi])
    · rw [if_neg hpp]; exact e4 p hpp

/-- **C18** The extreme coordinates of a grain enclose all its points and each side is attained;
they exist exactly for grains with points. -/
theorem C18_bounding_box (pts : List Px) :
    (pts = [] → extremeCoords pts = .error .valueError) ∧
    (pts ≠ [] → ∃ x0 y0 x1 y1, extremeCoords pts = .ok (x0, y0, x1, y1) ∧
      (∀ p ∈ pts, x0 ≤ p.1 ∧ p.1 ≤ x1 ∧ y0 ≤ p.2 ∧ p.2 ≤ y1) ∧
      (∃ p ∈ pts, p.1 = x0) ∧ (∃ p ∈ pts, p.1 = x1) ∧ (∃ p ∈ pts, p.2 = y0) ∧
      (∃ p ∈ pts, p.2 = y1)) := by
  constructor
  · rintro rfl; rfl
  · intro hne; exact extremeCoords_spec hne

theorem half_between (a b : Int) (hab : a ≤ b) :
    a ≤ roundEven (((b + a : Int) : Rat) / 2) ∧ roundEven (((b + a : Int) : Rat) / 2) ≤ b := by
  have : (a : Rat) ≤ b := by exact_mod_cast hab
  apply roundEven_between <;> push_cast <;> linarith

theorem half_close (a b : Int) :
    |2 * roundEven (((b + a : Int) : Rat) / 2) - (a + b)| ≤ 1 := by
  have h := roundEven_close (((b + a : Int) : Rat) / 2)
  rw [abs_le] at h
  have : |((2 * roundEven (((b + a : Int) : Rat) / 2) - (a + b) : Int) : Rat)| ≤ 1 := by
    rw [abs_le]; push_cast at h ⊢; constructor <;> linarith [h.1, h.2]
  exact_mod_cast this

/-- **C19** The centre of a grain's bounding box, in map coordinates, lies in the box and is at
most half a pixel off the exact middle; in grain coordinates it is the same point minus the
box corner. -/
theorem C19_box_centre (pts : List Px) (x0 y0 x1 y1 : Int)
    (he : extremeCoords pts = .ok (x0, y0, x1, y1)) :
    ∃ cx cy, centreCoords pts .box false = .ok (cx, cy) ∧
      centreCoords pts .box true = .ok (cx - x0, cy - y0) ∧
      x0 ≤ cx ∧ cx ≤ x1 ∧ y0 ≤ cy ∧ cy ≤ y1 ∧
      |2 * cx - (x0 + x1)| ≤ 1 ∧ |2 * cy - (y0 + y1)| ≤ 1 := by
  have hne : pts ≠ [] := by rintro rfl; cases he
  obtain ⟨_, _, _, _, he', hb, -⟩ := extremeCoords_spec hne
  rw [he] at he'; cases he'
  obtain ⟨q, hq⟩ := List.exists_mem_of_ne_nil _ hne
  have hq' := hb q hq
  have hx := half_between x0 x1 (by omega)
  have hy := half_between y0 y1 (by omega)
  refine ⟨_, _, ?_, ?_, hx.1, hx.2, hy.1, hy.2, half_close _ _, half_close _ _⟩
  · unfold centreCoords; rw [he]; rfl
  · unfold centreCoords; rw [he]; rfl

/-- **C19** The centre of mass, rounded, also lies in the bounding box, and each of its
coordinates is at most one half off the mean of the points' coordinates. -/
theorem C19_com_centre (pts : List Px) (x0 y0 x1 y1 : Int)
    (he : extremeCoords pts = .ok (x0, y0, x1, y1)) :
    ∃ cx cy, centreCoords pts .com false = .ok (cx, cy) ∧
      centreCoords pts .com true = .ok (cx - x0, cy - y0) ∧
      x0 ≤ cx ∧ cx ≤ x1 ∧ y0 ≤ cy ∧ cy ≤ y1 ∧
      |(cx : Rat) - (pts.map fun p => (p.1 : Rat)).sum / pts.length| ≤ 1 / 2 ∧
      |(cy : Rat) - (pts.map fun p => (p.2 : Rat)).sum / pts.length| ≤ 1 / 2 := by
  have hne : pts ≠ [] := by rintro rfl; cases he
  obtain ⟨_, _, _, _, he', hb, -⟩ := extremeCoords_spec hne
  rw [he] at he'; cases he'
  have mx := mean_bounds (fun p : Px => (p.1 : Rat)) x0 x1 pts hne (fun p hp => by
    have := hb p hp
    constructor <;> norm_cast <;> omega)
  have my := mean_bounds (fun p : Px => (p.2 : Rat)) y0 y1 pts hne (fun p hp => by
    have := hb p hp
    constructor <;> norm_cast <;> omega)
  have hx := roundEven_between mx.1 mx.2
  have hy := roundEven_between my.1 my.2
  refine ⟨_, _, ?_, ?_, hx.1, hx.2, hy.1, hy.2, roundEven_close _, roundEven_close _⟩
  · unfold centreCoords; rw [he]; rfl
  · unfold centreCoords; rw [he]; rfl

/-- **C19** An unknown kind of centre is refused. -/
theorem C19_other (pts : List Px) (b : Bool) : centreCoords pts .other b = .error .valueError := by
  cases pts with
  | nil => rfl
  | cons p l =>
    obtain ⟨x0, y0, x1, y1, he, -⟩ := extremeCoords_spec (pts := p :: l) (by simp)
    unfold centreCoords; rw [he]; rfl

/-! ### Averages and painting -/

theorem pyGet_nat {α : Type} {l : List α} {i : Nat} {a : α} (h : l[i]? = some a) :
    pyGet l (i : Int) = .ok a := by
  have h0 : ¬ ((i : Int) < 0) := by omega
  have h1 : (0 : Int) ≤ i := by omega
  unfold pyGet
  simp only [h0, if_false, h1, if_true, Int.toNat_natCast, h]

theorem calcGrainAverage_all {h w : Nat} (grains : List (List Px)) (m : Img Rat)
    (hv : ValidGrains h w grains) :
    calcGrainAverage h w grains m (.int (-1)) =
      .ok (grains.map fun g => some ((g.map fun p => m p.2 p.1).sum / g.length)) := by
  unfold calcGrainAverage averageIds
  simp only [if_true, bind, Except.bind]
  have hf : ∀ i ∈ (List.range grains.length).map (fun (k : Nat) => (k : Int)),
      grainAverage h w grains m i =
      .ok ((fun i : Int => some ((((grains[i.toNat]?).getD []).map fun (p : Px) => m p.2 p.1).sum /
        ((grains[i.toNat]?).getD []).length)) i) := by
    intro i hi
    obtain ⟨k, hk, rfl⟩ := List.mem_map.1 hi
    rw [List.mem_range] at hk
    have hg : grains[k]? = some grains[k] := List.getElem?_eq_getElem hk
    unfold grainAverage
    rw [pyGet_nat hg]
    simp only [bind, Except.bind]
    rw [grainData_ok m (hv.inMap _ (List.getElem_mem hk))]
    have hne := hv.nonempty _ (List.getElem_mem hk)
    simp only [mean?, List.map_eq_nil_iff, hne, if_false, Int.toNat_natCast, hg, Option.getD_some,
      List.length_map]
  rw [mapM_ok _ hf]
  congr 1
  rw [List.map_map]
  apply List.ext_getElem
  · simp
  · intro i h1 h2
    simp at h1 h2
    simp [h1]

/-- **C20** The grain averages are, in the order of the grain list, the means of the map's
values over each grain's points. -/
theorem C20_average {h w : Nat} (grains : List (List Px)) (m : Img Rat)
    (hv : ValidGrains h w grains) :
    ∃ avg, calcGrainAverage h w grains m (.int (-1)) = .ok avg ∧ avg.length = grains.length ∧
      ∀ (i : Nat) (g : List Px), grains[i]? = some g →
        avg[i]? = some (some ((g.map fun p => m p.2 p.1).sum / g.length)) := by
  refine ⟨_, calcGrainAverage_all grains m hv, by simp, ?_⟩
  intro i g hg
  simp [hg]

theorem paint_ok {α : Type} {h w : Nat} (grains : List (List Px)) (hv : ValidGrains h w grains) :
    ∀ (ivs : List (Nat × α)) (im : Img α), (∀ iv ∈ ivs, iv.1 < grains.length) →
    ((ivs.map fun iv => ((iv.1 : Int), iv.2)).foldlM (fun im (iv : Int × α) => do
      let pts ← pyGet grains iv.1
      writeAll h w im (pts.map fun p => (p, iv.2))) im : Except Err (Img α)) =
    .ok (wrAll im (ivs.flatMap fun iv => ((grains[iv.1]?).getD []).map fun p => (p, iv.2))) := by
  intro ivs
  induction ivs with
  | nil => intro im _; rfl
  | cons iv ivs ih =>
    intro im hl
    have hk := hl iv (by simp)
    have hg : grains[iv.1]? = some grains[iv.1] := List.getElem?_eq_getElem hk
    rw [List.map_cons, List.foldlM_cons]
    simp only [bind, Except.bind, pyGet_nat hg]
    rw [writeAll_ok]
    · simp only [List.flatMap_cons, wrAll_append, hg, Option.getD_some]
      exact ih _ (fun iv' h' => hl iv' (by simp [h']))
    · intro pv hpv
      obtain ⟨p, hp, rfl⟩ := List.mem_map.1 hpv
      exact hv.inMap _ (List.getElem_mem hk) p hp

theorem valid_unique {h w : Nat} {grains : List (List Px)} (hv : ValidGrains h w grains)
    {i j : Nat} {g g' : List Px} (hi : grains[i]? = some g) (hj : grains[j]? = some g') {p : Px}
    (hp : p ∈ g) (hp' : p ∈ g') : i = j := by
  obtain ⟨li, ei⟩ := List.getElem?_eq_some_iff.1 hi
  obtain ⟨lj, ej⟩ := List.getElem?_eq_some_iff.1 hj
  have := List.pairwise_iff_getElem.1 hv.disjoint
  by_contra hne
  rcases Nat.lt_or_gt_of_ne hne with hlt | hlt
  · exact this i j li lj hlt p (ei ▸ hp) (ej ▸ hp')
  · exact this j i lj li hlt p (ej ▸ hp') (ei ▸ hp)

theorem paint_value {α : Type} {h w : Nat} (grains : List (List Px)) (hv : ValidGrains h w grains)
    (ids : List Nat) (hid : ∀ i ∈ ids, i < grains.length) (hnd : ids.Nodup) (vals : List α)
    (hl : vals.length = ids.length) (bg : α) :
    ∃ im, grainDataToMapData h w grains vals (.list (ids.map fun (k : Nat) => (k : Int))) bg = .ok im ∧
      (∀ (k i : Nat) (v : α) (g : List Px), ids[k]? = some i → vals[k]? = some v →
        grains[i]? = some g → ∀ p ∈ g, im p.2 p.1 = v) ∧
      (∀ p : Px, (∀ i ∈ ids, ∀ g, grains[i]? = some g → p ∉ g) → im p.2 p.1 = bg) := by
  refine ⟨wrAll (fun _ _ => bg) ((ids.zip vals).flatMap fun iv =>
      ((grains[iv.1]?).getD []).map fun p => (p, iv.2)), ?_, ?_, ?_⟩
  · unfold grainDataToMapData paintIds
    simp only [List.length_map]
    rw [if_neg (by simpa using hl)]
    have : (ids.map fun (k : Nat) => (k : Int)).zip vals =
        (ids.zip vals).map fun iv => ((iv.1 : Int), iv.2) := by
      rw [List.zip_map_left]; rfl
    rw [this]
    refine paint_ok grains hv (ids.zip vals) _ ?_
    intro iv hiv
    exact hid _ (List.of_mem_zip hiv).1
  · intro k i v g hk hvk hg p hp
    have hnodup : (((ids.zip vals).flatMap fun iv =>
        ((grains[iv.1]?).getD []).map fun p => (p, iv.2)).map (·.1)).Nodup := by
      rw [List.map_flatMap]
      simp only [List.map_map]
      have e : ∀ iv : Nat × α, (((grains[iv.1]?).getD []).map ((fun pv : Px × α => pv.1) ∘
          fun p => (p, iv.2))) = (grains[iv.1]?).getD [] := by
        intro iv
        exact List.map_id _
      simp only [e]
      have hzn : ((ids.zip vals).map (·.1)).Nodup := hnd.sublist (map_fst_zip_sublist _ _)
      rw [List.nodup_flatMap]
      refine ⟨?_, ?_⟩
      · intro iv hiv
        have hk := hid _ (List.of_mem_zip hiv).1
        rw [List.getElem?_eq_getElem hk]
        exact hv.nodup _ (List.getElem_mem hk)
      · unfold List.Nodup at hzn
        rw [List.pairwise_map] at hzn
        refine List.Pairwise.imp_of_mem ?_ hzn
        intro a b ha hb hab p hpa hpb
        have ka := hid _ (List.of_mem_zip ha).1
        have kb := hid _ (List.of_mem_zip hb).1
        simp only [List.getElem?_eq_getElem ka, List.getElem?_eq_getElem kb, Option.getD_some]
          at hpa hpb
        exact hab (valid_unique hv (List.getElem?_eq_getElem ka) (List.getElem?_eq_getElem kb) hpa hpb)
    refine wrAll_mem _ (fun _ _ => bg) hnodup (p, v) ?_
    rw [List.mem_flatMap]
    refine ⟨(i, v), zip_get hk hvk, ?_⟩
    simp only [hg, Option.getD_some]
    exact List.mem_map.2 ⟨p, hp, rfl⟩
  · intro p hp
    refine wrAll_notMem _ (fun _ _ => bg) p ?_
    intro pv hpv he
    obtain ⟨⟨i, v⟩, hiv, hpv⟩ := List.mem_flatMap.1 hpv
    obtain ⟨q, hq, rfl⟩ := List.mem_map.1 hpv
    have hi := (List.of_mem_zip hiv).1
    have hk := hid _ hi
    simp only at he
    subst he
    simp only [List.getElem?_eq_getElem hk, Option.getD_some] at hq
    exact hp i hi _ (List.getElem?_eq_getElem hk) hq

/-- **C20** Painting one value per listed grain gives every pixel of a listed grain its own
grain's value and every other pixel the background. The grain ids are distinct list positions. -/
theorem C20_paint {α : Type} {h w : Nat} (grains : List (List Px)) (hv : ValidGrains h w grains)
    (ids : List Nat) (hid : ∀ i ∈ ids, i < grains.length) (hnd : ids.Nodup) (vals : List α)
    (hl : vals.length = ids.length) (bg : α) :
    ∃ im, grainDataToMapData h w grains vals (.list (ids.map fun (k : Nat) => (k : Int))) bg = .ok im ∧
      (∀ (k i : Nat) (v : α) (g : List Px), ids[k]? = some i → vals[k]? = some v →
        grains[i]? = some g → ∀ p ∈ g, im p.2 p.1 = v) ∧
      (∀ p : Px, (∀ i ∈ ids, ∀ g, grains[i]? = some g → p ∉ g) → im p.2 p.1 = bg) :=
  paint_value grains hv ids hid hnd vals hl bg

/-- **C20** Painting all grains (`grain_ids=-1`): pixel of grain `i` shows value `i`. -/
theorem C20_paint_all {α : Type} {h w : Nat} (grains : List (List Px))
    (hv : ValidGrains h w grains) (vals : List α) (bg : α) :
    (vals.length ≠ grains.length →
      grainDataToMapData h w grains vals (.int (-1)) bg = .error .valueError) ∧
    (vals.length = grains.length →
      ∃ im, grainDataToMapData h w grains vals (.int (-1)) bg = .ok im ∧
      (∀ (i : Nat) (v : α) (g : List Px), vals[i]? = some v → grains[i]? = some g →
        ∀ p ∈ g, im p.2 p.1 = v) ∧
      (∀ p : Px, (∀ g ∈ grains, p ∉ g) → im p.2 p.1 = bg)) := by
  constructor
  · intro hl
    unfold grainDataToMapData paintIds
    simp [hl]
  · intro hl
    obtain ⟨im, h1, h2, h3⟩ := paint_value grains hv (List.range grains.length)
      (fun i hi => List.mem_range.1 hi) List.nodup_range vals (by simpa using hl) bg
    refine ⟨im, ?_, ?_, ?_⟩
    · rw [← h1]; unfold grainDataToMapData paintIds; simp
    · intro i v g hvi hg p hp
      have hi : i < grains.length := (List.getElem?_eq_some_iff.1 hg).1
      exact h2 i i v g (by simp [hi]) hvi hg p hp
    · intro p hp
      refine h3 p ?_
      intro i hi g hg
      exact hp g (List.mem_of_getElem? hg)

/-- **C20** Painting a single grain given by its number: its pixels show the value, all others the
background. -/
theorem C20_paint_one {α : Type} {h w : Nat} (grains : List (List Px))
    (hv : ValidGrains h w grains) (i : Nat) (g : List Px) (hg : grains[i]? = some g) (v bg : α) :
    ∃ im, grainDataToMapData h w grains [v] (.int i) bg = .ok im ∧
      (∀ p ∈ g, im p.2 p.1 = v) ∧ (∀ p : Px, p ∉ g → im p.2 p.1 = bg) := by
  have hi : i < grains.length := (List.getElem?_eq_some_iff.1 hg).1
  obtain ⟨im, h1, h2, h3⟩ := paint_value grains hv [i] (by simpa using hi) (by simp) [v] rfl bg
  refine ⟨im, ?_, fun p hp => h2 0 i v g rfl rfl hg p hp, ?_⟩
  · rw [← h1]; unfold grainDataToMapData paintIds
    have : ¬ ((i : Int) = -1) := by omega
    simp [this]
  · intro p hp
    refine h3 p fun j hj g' hg' => ?_
    simp only [List.mem_singleton] at hj
    subst hj
    rw [hg] at hg'; cases hg'; exact hp

theorem sum_const (l : List Px) (im : Img Rat) (v : Rat) (h : ∀ p ∈ l, im p.2 p.1 = v) :
    (l.map fun p => im p.2 p.1).sum = l.length * v := by
  induction l with
  | nil => simp
  | cons a l ih =>
    rw [List.map_cons, List.sum_cons, h a (by simp), ih (fun p hp => h p (by simp [hp]))]
    simp only [List.length_cons]
    push_cast
    ring

/-- **C20** Painting one value per grain and averaging over the grains gives the values back. -/
theorem C20_paint_average {h w : Nat} (grains : List (List Px)) (hv : ValidGrains h w grains)
    (vals : List Rat) (hl : vals.length = grains.length) (bg : Rat) :
    ∃ im, grainDataToMapData h w grains vals (.int (-1)) bg = .ok im ∧
      calcGrainAverage h w grains im (.int (-1)) = .ok (vals.map some) := by
  obtain ⟨im, h1, h2, -⟩ := (C20_paint_all grains hv vals bg).2 hl
  refine ⟨im, h1, ?_⟩
  rw [calcGrainAverage_all grains im hv]
  congr 1
  apply List.ext_getElem
  · simp [hl]
  · intro i l1 l2
    simp at l1 l2
    have hg : grains[i]? = some grains[i] := List.getElem?_eq_getElem l1
    have hvi : vals[i]? = some vals[i] := List.getElem?_eq_getElem l2
    have hs := sum_const grains[i] im vals[i] (fun p hp => h2 i _ _ hvi hg p hp)
    have hne : (grains[i].length : Rat) ≠ 0 := by
      have := List.length_pos_of_ne_nil (hv.nonempty _ (List.getElem_mem l1))
      exact_mod_cast (by omega : grains[i].length ≠ 0)
    simp only [List.getElem_map, hs]
    congr 1
    field_simp

/-! Example: two grains on a 2 x 3 map with one pixel in no grain. -/

/-- Grains of the example. -/
def exGrainList : List (List Px) := [[(0, 0), (1, 0), (0, 1)], [(2, 1), (2, 0)]]

theorem exGrainList_valid : ValidGrains 2 3 exGrainList := by
  constructor
  · decide
  · decide
  · intro g hg p hp
    have : ∀ g ∈ exGrainList, ∀ p ∈ g, 0 ≤ p.1 ∧ p.1 < 3 ∧ 0 ≤ p.2 ∧ p.2 < 2 := by decide
    exact this g hg p hp
  · decide

example : (calcGrainAverage 2 3 exGrainList (fun y x => 10 * y + x) (.int (-1))).toOption =
    some [some (11 / 3), some 7] := by decide +kernel

example : (grainDataToMapData 2 3 exGrainList [5, 6] (.int (-1)) 9).toOption.map (fun im =>
    [[im 0 0, im 0 1, im 0 2], [im 1 0, im 1 1, im 1 2]]) =
    some [[5, 5, 6], [5, 9, 6]] := by decide +kernel

example : extremeCoords [(4, 7), (6, 7), (5, 10)] = .ok (4, 7, 6, 10) ∧
    centreCoords [(4, 7), (6, 7), (5, 10)] .box false = .ok (5, 8) ∧
    centreCoords [(4, 7), (6, 7), (5, 10)] .com true = .ok (1, 1) := by
  refine ⟨rfl, by decide +kernel, by decide +kernel⟩

/-- A displacement map of two components and a grain of three points: the third point is lost,
and the first two show one row of the data each instead of their own values. -/
example : (grainMapDataOfVecMap 2 3 [fun y x => 10 * y + x, fun y x => -(10 * y + x)]
    [(0, 0), (1, 0), (0, 1)] (99 : Int)).toOption.map (fun r =>
      [r.2.2 0 0, r.2.2 0 1, r.2.2 1 0]) =
    some [[0, 1, 10], [0, -1, -10], [99, 99, 99]] := by decide +kernel

end DefDAP
