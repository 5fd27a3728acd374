import Verif.Model.DicCrop
import Verif.Props.DatastoreGen
import Mathlib.Tactic.Ring

/-! C29–C32: cropping, masking and homologous points of DIC maps. -/

namespace DefDAP

section
variable {α : Type}

/-! ### C30 -/

/-- A crop that leaves at least one pixel. -/
def DicW.CropOk (w : DicW) : Prop :=
  0 ≤ w.left ∧ 0 ≤ w.right ∧ w.left + w.right < w.xdim ∧
  0 ≤ w.top ∧ 0 ≤ w.bottom ∧ w.top + w.bottom < w.ydim

/-- **C30 (cropped data).** For every map size, crop that leaves at least one pixel and
binning: cropping data of the full size (times the binning) gives data of the cropped size
(times the binning), and pixel `(i, j)` of the result is pixel `(i + top, j + left)` (times
the binning) of the data. -/
theorem C30_crop (w : DicW) (bin : Nat) (hbin : 0 < bin) (g : Grid α) (hw : w.CropOk)
    (hr : g.rows = w.ydim * bin) (hc : g.cols = w.xdim * bin) :
    (((cropGrid w bin g).rows : Int), ((cropGrid w bin g).cols : Int)) =
      ((w.ydim - w.top - w.bottom) * bin, (w.xdim - w.left - w.right) * bin) ∧
    ∀ i j, (cropGrid w bin g).px i j = g.px (i + w.top * bin) (j + w.left * bin) := by
  obtain ⟨h1, h2, h3, h4, h5, h6⟩ := hw
  have hb : (0 : Int) < bin := by exact_mod_cast hbin
  have e1 : sliceBound g.rows (w.top * bin) = w.top * bin := by
    unfold sliceBound
    rw [if_neg (by have := mul_nonneg h4 hb.le; omega), hr]
    push_cast
    exact min_eq_left (mul_le_mul_of_nonneg_right (by omega) hb.le)
  have e2 : sliceBound g.rows ((w.ydim - w.bottom) * bin) = (w.ydim - w.bottom) * bin := by
    unfold sliceBound
    rw [if_neg (by
      have := mul_nonneg (show (0 : Int) ≤ w.ydim - w.bottom by omega) hb.le; omega), hr]
    push_cast
    exact min_eq_left (mul_le_mul_of_nonneg_right (by omega) hb.le)
  have e3 : sliceBound g.cols (w.left * bin) = w.left * bin := by
    unfold sliceBound
    rw [if_neg (by have := mul_nonneg h1 hb.le; omega), hc]
    push_cast
    exact min_eq_left (mul_le_mul_of_nonneg_right (by omega) hb.le)
  have e4 : sliceBound g.cols ((w.xdim - w.right) * bin) = (w.xdim - w.right) * bin := by
    unfold sliceBound
    rw [if_neg (by
      have := mul_nonneg (show (0 : Int) ≤ w.xdim - w.right by omega) hb.le; omega), hc]
    push_cast
    exact min_eq_left (mul_le_mul_of_nonneg_right (by omega) hb.le)
  unfold cropGrid Grid.slice
  simp only [e1, e2, e3, e4]
  refine ⟨?_, fun _ _ => trivial⟩
  rw [Int.toNat_of_nonneg, Int.toNat_of_nonneg]
  · ext <;> simp <;> ring
  · rw [← sub_mul]; exact mul_nonneg (by omega) hb.le
  · rw [← sub_mul]; exact mul_nonneg (by omega) hb.le

/-- **C30 (the map's shape).** A call of `set_crop` that does not fail sets the given
distances, keeps the others, and makes the map's shape the full size minus the crop. -/
theorem C30_shape (w w' : DicW) (l r t b : Option Int) (upd : Bool)
    (h : setCrop w l r t b upd = (.ok (), w')) :
    w'.xdim = w.xdim ∧ w'.ydim = w.ydim ∧ w'.left = l.getD w.left ∧ w'.right = r.getD w.right ∧
    w'.top = t.getD w.top ∧ w'.bottom = b.getD w.bottom ∧
    w'.shape = ((w'.ydim : Int) - w'.top - w'.bottom, (w'.xdim : Int) - w'.left - w'.right) := by
  unfold setCrop at h
  simp only at h
  split at h
  · split at h
    · simp only [Prod.mk.injEq, true_and] at h
      rw [← h]; simp [cropShape, cropDists]
    · simp at h
  · simp only [Prod.mk.injEq, true_and] at h
    rw [← h]; simp [cropShape, cropDists]

/-! ### C31 and C32 -/

theorem updatePoint_delta (pts : List (Option (Int × Int))) (i : Nat) (d p : Int × Int)
    (h : pts[i]? = some (some p)) :
    updatePoint pts i none (some d) = (.ok (), pts.set i (some (p.1 + d.1, p.2 + d.2))) := by
  simp [updatePoint, h]

/-- The loop with an increment, over any indices without repetition. -/
theorem updateLoop_delta (d : Int × Int) : ∀ (l : List Nat) (pts : List (Option (Int × Int))),
    l.Nodup → (∀ i ∈ l, ∃ p, pts[i]? = some (some p)) →
    ∃ pts', updateLoop (some d) l pts = (.ok (), pts') ∧ pts'.length = pts.length ∧
      ∀ j : Nat, pts'[j]? = if j ∈ l then
        (pts[j]?).map (fun o => o.map fun p => (p.1 + d.1, p.2 + d.2)) else pts[j]? := by
  intro l
  induction l with
  | nil => intro pts _ _; exact ⟨pts, rfl, rfl, by simp⟩
  | cons i t ih =>
    intro pts hnd hsome
    obtain ⟨hit, hnd'⟩ := List.nodup_cons.1 hnd
    obtain ⟨p, hp⟩ := hsome i List.mem_cons_self
    have hlt : i < pts.length := by
      rcases Nat.lt_or_ge i pts.length with h | h
      · exact h
      · rw [List.getElem?_eq_none h] at hp; simp at hp
    simp only [updateLoop, updatePoint_delta pts i d p hp]
    obtain ⟨pts', h1, h2, h3⟩ := ih (pts.set i (some (p.1 + d.1, p.2 + d.2))) hnd' (by
      intro j hj
      obtain ⟨q, hq⟩ := hsome j (List.mem_cons_of_mem _ hj)
      refine ⟨q, ?_⟩
      rw [List.getElem?_set_ne (by rintro rfl; exact hit hj)]
      exact hq)
    refine ⟨pts', h1, by rw [h2, List.length_set], fun j => ?_⟩
    rw [h3 j]
    by_cases hji : j = i
    · subst hji
      rw [if_neg hit, if_pos List.mem_cons_self, List.getElem?_set_self hlt, hp]
      rfl
    · rw [List.getElem?_set_ne (fun h => hji h.symm)]
      simp [hji]

/-- The loop without an increment. -/
theorem updateLoop_none : ∀ (l : List Nat) (pts : List (Option (Int × Int))),
    ∃ pts', updateLoop none l pts = (.ok (), pts') ∧ pts'.length = pts.length ∧
      ∀ j : Nat, pts'[j]? = if j ∈ l then (pts[j]?).map (fun _ => none) else pts[j]? := by
  intro l
  induction l with
  | nil => intro pts; exact ⟨pts, rfl, rfl, by simp⟩
  | cons i t ih =>
    intro pts
    simp only [updateLoop, updatePoint]
    obtain ⟨pts', h1, h2, h3⟩ := ih (pts.set i none)
    refine ⟨pts', h1, by rw [h2, List.length_set], fun j => ?_⟩
    rw [h3 j]
    by_cases hji : j = i
    · subst hji
      rcases Nat.lt_or_ge j pts.length with h | h
      · simp [h]
      · simp only [List.mem_cons_self, if_true]
        rw [List.getElem?_eq_none (by simpa using h), List.getElem?_eq_none h]
        simp
    · rw [List.getElem?_set_ne (fun h => hji h.symm)]
      simp [hji]

/-- **C32 (one point).** Updating one existing point with a new location puts that location
there; with an increment and no new location it is added to the point. No other point
changes. An index past the end is refused and changes nothing. -/
theorem C32_one_point (pts : List (Option (Int × Int))) (idx : Int) (p d : Int × Int)
    (delta : Option (Int × Int)) :
    (∀ i : Nat, idx = i → i < pts.length →
      updateHomog pts idx (some p) delta = (.ok (), pts.set i (some p)) ∧
      ∀ q, pts[i]? = some (some q) →
        updateHomog pts idx none (some d) = (.ok (), pts.set i (some (q.1 + d.1, q.2 + d.2)))) ∧
    (∀ new delta, (pts.length : Int) ≤ idx →
      updateHomog pts idx new delta = (.error .indexError, pts)) := by
  refine ⟨?_, fun new delta h => by unfold updateHomog; rw [if_pos h]⟩
  rintro i rfl hi
  have h1 : ¬ ((pts.length : Int) ≤ i) := by omega
  have h2 : ¬ ((i : Int) < 0) := by omega
  refine ⟨?_, fun q hq => ?_⟩
  · unfold updateHomog
    rw [if_neg h1, if_neg h2]; rfl
  · unfold updateHomog
    rw [if_neg h1, if_neg h2, Int.toNat_natCast]
    exact updatePoint_delta pts i d q hq

/-- **C32 (all points).** A negative index with an increment moves every point by it. -/
theorem C32_all_points (pts : List (Int × Int)) (idx : Int) (hidx : idx < 0) (d : Int × Int)
    (new : Option (Int × Int)) :
    updateHomog (pts.map some) idx new (some d)
      = (.ok (), pts.map fun p => some (p.1 + d.1, p.2 + d.2)) := by
  unfold updateHomog
  rw [if_neg (by omega), if_pos hidx]
  obtain ⟨pts', h1, h2, h3⟩ := updateLoop_delta d (List.range (pts.map some).length) (pts.map some)
    List.nodup_range (by
      intro i hi
      rw [List.mem_range, List.length_map] at hi
      exact ⟨pts[i], by simp [hi]⟩)
  rw [h1]
  congr 1
  apply List.ext_getElem?
  intro j
  rw [h3 j]
  by_cases hj : j < pts.length
  · rw [if_pos (by simpa using hj)]
    simp [hj]
  · rw [if_neg (by simpa using hj)]
    simp [List.getElem?_eq_none (Nat.not_lt.1 hj)]

/-- **C32 (the last part is false).** Giving a new location with a negative index is
accepted, for every list of points, and turns every point into `None`. -/
theorem C32_all_lost (pts : List (Option (Int × Int))) (idx : Int) (hidx : idx < 0)
    (p : Int × Int) :
    updateHomog pts idx (some p) none = (.ok (), pts.map fun _ => none) := by
  unfold updateHomog
  rw [if_neg (by omega), if_pos hidx]
  obtain ⟨pts', h1, h2, h3⟩ := updateLoop_none (List.range pts.length) pts
  rw [h1]
  congr 1
  apply List.ext_getElem?
  intro j
  rw [h3 j]
  by_cases hj : j < pts.length
  · rw [if_pos (by simpa using hj), List.getElem?_map]
  · rw [if_neg (by simpa using hj), List.getElem?_map, List.getElem?_eq_none (Nat.not_lt.1 hj)]
    rfl

/-- A history of crop changes, all with point updating on. A failing change stops it. -/
def setCrops (w : DicW) : List (Option Int × Option Int × Option Int × Option Int) →
    Except Err Unit × DicW
  | [] => (.ok (), w)
  | (l, r, t, b) :: rest =>
    match setCrop w l r t b true with
    | (.ok _, w') => setCrops w' rest
    | res => res

/-- **C31.** Over any sequence of crop changes with point updating on, starting with any
points, no change fails, and each point plus the current left and top crop distance (its
position in the uncropped map) stays the same. -/
theorem C31_points_fixed (cs : List (Option Int × Option Int × Option Int × Option Int)) :
    ∀ (w : DicW) (pts : List (Int × Int)), w.points = pts.map some →
    ∃ (w' : DicW) (pts' : List (Int × Int)), setCrops w cs = (.ok (), w') ∧ w'.points = pts'.map some ∧
      pts'.map (fun p => (p.1 + w'.left, p.2 + w'.top))
        = pts.map fun p => (p.1 + w.left, p.2 + w.top) := by
  induction cs with
  | nil => intro w pts h; exact ⟨w, pts, rfl, h, rfl⟩
  | cons c rest ih =>
    obtain ⟨l, r, t, b⟩ := c
    intro w pts h
    obtain ⟨w1, pts1, h1, h2, h3⟩ : ∃ (w1 : DicW) (pts1 : List (Int × Int)), setCrop w l r t b true = (.ok (), w1) ∧
        w1.points = pts1.map some ∧ pts1.map (fun p : Int × Int => (p.1 + w1.left, p.2 + w1.top))
          = pts.map fun p => (p.1 + w.left, p.2 + w.top) := by
      unfold setCrop
      simp only
      have hl : cropDelta w.left l = w.left - l.getD w.left := by
        cases l <;> simp [cropDelta]
      have ht : cropDelta w.top t = w.top - t.getD w.top := by
        cases t <;> simp [cropDelta]
      rw [hl, ht]
      split
      · have hp : (cropDists w l r t b).points = pts.map some := h
        rw [hp, C32_all_points pts (-1) (by decide) _ none]
        refine ⟨_, pts.map fun p => (p.1 + (w.left - l.getD w.left), p.2 + (w.top - t.getD w.top)),
          rfl, ?_, ?_⟩
        · simp [cropShape]
        · simp only [cropShape, cropDists, List.map_map]
          apply List.map_congr_left
          intro p _
          ext <;> simp <;> omega
      · rename_i hc
        refine ⟨_, pts, rfl, by simpa [cropShape, cropDists] using h, ?_⟩
        simp only [true_and, not_or, not_not] at hc
        simp only [cropShape, cropDists]
        apply List.map_congr_left
        intro p _
        ext <;> simp <;> omega
    obtain ⟨w', pts', h4, h5, h6⟩ := ih w1 pts1 h2
    refine ⟨w', pts', ?_, h5, by rw [h6, h3]⟩
    simp only [setCrops, h1, h4]

/-! ### C29 -/

variable {gens : Nat → List (String × MVal) → Prog (DicVal α) DicW}
  {fns : Nat → String ⊕ Option (DicVal α) → Prog (DicVal α) DicW}

theorem run_crop (env : Env (DicVal α) DicW) (n : Nat) (x : DicVal α) (bin : MVal) (b : Int)
    (st : DState (DicVal α) DicW) (hb : binningOf bin = some b) :
    runF env (n + 2) (cropProg (some x) bin) st = (.ok (some (cropVal st.world b x)), st) := by
  unfold cropProg
  rw [runF]
  simp only [hb]
  rw [runF]
  rfl

/-- An item that is an uncropped map. -/
structure IsMapItem (it : Item (DicVal α)) (x : DicVal α) (b : Int) : Prop where
  data : it.data = some x
  type : dget it.props "type" = some (.str "map")
  cropped : ((dget it.props "cropped").getD (.bool false)).truthy = false
  binning : binningOf ((dget it.props "binning").getD (.int 1)) = some b

/-- Reading up to the mask. -/
theorem read_crop (s0 n s c : Nat) (k : String) (st : DState (DicVal α) DicW)
    (it : Item (DicVal α)) (x : DicVal α) (b : Int)
    (hit : dget (st.net s).items k = some it) (hx : IsMapItem it x b)
    (hc : (st.net s).cropFn = some c) :
    getDataF (dicEnv s0 gens fns) (n + 3) s k st =
      maskStep (dicEnv s0 gens fns) (fun p st => runF (dicEnv s0 gens fns) (n + 2) p st) s k
        (some (cropVal st.world b x)) st := by
  rw [getDataF]
  simp only [hit, hx.data, valueOrGen]
  rw [bind_ok (x := DM.pure (some x)) (a := some x) (st' := st) rfl]
  unfold finishRead
  rw [bind_ok (lift_eq (f := fun net => metaF net 1 s k "type" .none) (metaF_stored st.been hit)),
    hx.type]
  simp only [Option.getD_some, if_true]
  apply bind_ok
  unfold cropStep
  rw [bind_ok (lift_eq (f := fun net => metaF net 1 s k "cropped" (.bool false))
    (metaF_stored st.been hit)), hx.cropped]
  simp only [Bool.false_eq_true, if_false]
  rw [bind_ok (lift_eq (f := fun net => metaF net 1 s k "binning" (.int 1))
    (metaF_stored st.been hit))]
  simp only [hc]
  exact run_crop _ n x _ b st hx.binning

/-- **C29 (one read).** Reading an uncropped map item that is not masked gives the crop of
the stored data by the *current* crop distances, and changes nothing. -/
theorem C29_read (s0 n s c : Nat) (k : String) (st : DState (DicVal α) DicW)
    (it : Item (DicVal α)) (x : DicVal α) (b : Int)
    (hit : dget (st.net s).items k = some it) (hx : IsMapItem it x b)
    (hc : (st.net s).cropFn = some c)
    (hm : ((dget it.props "apply_mask").getD (.bool true)).truthy = false) :
    getDataF (dicEnv s0 gens fns) (n + 3) s k st = (.ok (some (cropVal st.world b x)), st) := by
  rw [read_crop s0 n s c k st it x b hit hx hc]
  unfold maskStep
  rw [bind_ok (lift_eq (f := fun net => metaF net 1 s k "apply_mask" (.bool true))
    (metaF_stored st.been hit)), hm]
  rfl

theorem modStore_cropFn {D W : Type} (st : DState D W) (s' s : Nat) (f : Store D → Store D)
    (hf : ∀ x, (f x).cropFn = x.cropFn) :
    ((modStore st s' f).net s).cropFn = (st.net s).cropFn := by
  by_cases hs : s = s'
  · subst hs; simp [hf]
  · rw [modStore_net_ne _ _ hs]

theorem putItem_cropFn {D W : Type} (st : DState D W) (s' s : Nat) (key : String) (it : Item D) :
    ((putItem st s' key it).net s).cropFn = (st.net s).cropFn :=
  modStore_cropFn st s' s (fun x => { x with items := dset x.items key it }) fun _ => rfl

theorem fnsInv (env : Env (DicVal α) DicW) (s : Nat) (c : Option Nat) :
    Inv env (fun st => (st.net s).cropFn = c) (fun _ _ => True) (fun _ _ _ => True) where
  been := fun _ _ h => h
  world := fun _ _ h => h
  deriv := by
    intro st s' d h
    exact (modStore_cropFn st s' s (fun x => { x with derivs := addDerivList x.derivs d })
      fun _ => rfl).trans h
  put := fun st s' key it v _ _ h => (putItem_cropFn st s' s key _).trans h
  call := fun _ _ _ _ _ _ _ => trivial
  gen := fun _ _ _ _ _ hI _ _ => ⟨fun _ _ => trivial, fun _ => writes_true _, hI⟩
  fn := fun _ _ => writes_true _
  crop := fun _ _ _ => writes_true _
  mask := fun _ _ => writes_true _

theorem addF_cropFn {D W : Type} (n s' s : Nat) (key : String) (v : Option D)
    (kw : List (String × MVal)) (st : DState D W) :
    ((addF n s' key v kw st).2.net s).cropFn = (st.net s).cropFn := by
  rcases addF_cases n s' key v kw st with ⟨e, b, h⟩ | ⟨b, -, -, h⟩
  · rw [h]
  · rw [h]; exact putItem_cropFn _ _ _ _ _

theorem addGenLoop_cropFn {D W : Type} (n s' s : Nat)
    (ms : Option (List (List (String × MVal)))) (kw : List (String × MVal)) :
    ∀ (ks : List String) (i : Nat) (st : DState D W),
    ((addGenLoop n s' ms kw ks i st).2.net s).cropFn = (st.net s).cropFn := by
  intro ks
  induction ks with
  | nil => intro i st; rfl
  | cons k t ih =>
    intro i st
    simp only [addGenLoop]
    cases metaAt ms i with
    | none => rfl
    | some m =>
      simp only
      have h1 := addF_cropFn n s' s k none (dupdate m kw) st
      cases hr : addF n s' k none (dupdate m kw) st with
      | mk r st1 =>
        rw [hr] at h1
        cases r with
        | error e => rw [bind_err hr]; exact h1
        | ok u => rw [bind_ok hr, ih]; exact h1

theorem step_cropFn (env : Env (DicVal α) DicW) (n s : Nat) (op : DOp (DicVal α) DicW)
    (st : DState (DicVal α) DicW) :
    (((stepF env n op st).2).net s).cropFn = (st.net s).cropFn := by
  have hinv := fnsInv env s ((st.net s).cropFn)
  cases op with
  | add s' key v kw => exact addF_cropFn n s' s key v kw st
  | addGen s' ks g ms kw =>
    show ((addGenF n s' ks g ms kw st).2.net s).cropFn = _
    have h1 := addGenLoop_cropFn n s' s ms kw ks 0 st
    unfold addGenF
    cases hr : addGenLoop n s' ms kw ks 0 st with
    | mk r st1 =>
      rw [hr] at h1
      cases r with
      | error e => rw [bind_err hr]; exact h1
      | ok u =>
        rw [bind_ok hr]
        exact (modStore_cropFn st1 s' s (fun x => { x with gens := dset x.gens ks g })
          fun _ => rfl).trans h1
  | addDeriv s' d => exact hinv.deriv st s' d rfl
  | setData s' key v => exact hinv.keeps_setData n s' key v trivial st rfl
  | setMeta s' key attr m =>
    rcases setMetaF_cases n s' key attr m st with ⟨e, b, h'⟩ | ⟨b, it, -, h'⟩
    · show ((setMetaF n s' key attr m st).2.net s).cropFn = _
      rw [h']
    · show ((setMetaF n s' key attr m st).2.net s).cropFn = _
      rw [h']; exact putItem_cropFn _ _ _ _ _
  | update s' items =>
    exact modStore_cropFn st s' s (fun x => { x with items := dupdate x.items items }) fun _ => rfl
  | read s' key =>
    have h2 : (stepF env n (DOp.read s' key) st).2 = (getDataF env n s' key st).2 := void_snd _ _
    rw [h2]; exact (hinv.keeps_all n).1 s' key st rfl
  | generate s' key kw =>
    have h2 : (stepF env n (DOp.generate s' key kw) st).2 = (generateF env n s' key kw st).2 :=
      void_snd _ _
    rw [h2]; exact (hinv.keeps_all n).2.2.1 s' key kw st trivial rfl
  | getMeta s' key attr dflt =>
    have h2 : (stepF env n (DOp.getMeta s' key attr dflt) st).2
      = (DM.lift (fun net => metaF net n s' key attr dflt) st).2 := void_snd _ _
    rw [h2]; rfl
  | list s' =>
    have h2 : (stepF env n (DOp.list s') st).2
      = (DM.lift (fun net => keysF net n s') st).2 := void_snd _ _
    rw [h2]; rfl
  | setWorld w => rfl

theorem runOps_cropFn (env : Env (DicVal α) DicW) (n s : Nat) :
    ∀ (ops : List (DOp (DicVal α) DicW)) (st : DState (DicVal α) DicW),
    ((runOps env n ops st).2.net s).cropFn = (st.net s).cropFn := by
  intro ops
  induction ops with
  | nil => intro st; rfl
  | cons op t ih => intro st; exact (ih (stepF env n op st).2).trans (step_cropFn env n s op st)

/-- **C29 (any history).** Take any history of crop changes, reads, writes and other
operations on the stores. If `x` is what was last written to item `k`, and its metadata
make it an uncropped, unmasked map, then reading `k` gives the crop of `x` itself by the crop
in force now: no earlier crop or read has left a trace. -/
theorem C29_history (s0 n m s c : Nat) (k : String) (ops : List (DOp (DicVal α) DicW))
    (st0 : DState (DicVal α) DicW) (x : DicVal α) (b : Int)
    (henv : (dicEnv s0 gens fns).LeavesAlone s k)
    (h0 : (st0.net s).items = [] ∧ (st0.net s).gens = [])
    (hgen : ∀ op ∈ ops, ∀ ks g ms kw, op = .addGen s ks g ms kw → k ∉ ks)
    (hc : (st0.net s).cropFn = some c)
    (hx : Spec.lastData s k (runOps (dicEnv s0 gens fns) n ops st0).1.reverse = some (some x))
    (hty : Spec.lastMeta s k "type" (runOps (dicEnv s0 gens fns) n ops st0).1.reverse
      = some (.str "map"))
    (hcr : ((Spec.lastMeta s k "cropped"
      (runOps (dicEnv s0 gens fns) n ops st0).1.reverse).getD (.bool false)).truthy = false)
    (hbin : binningOf ((Spec.lastMeta s k "binning"
      (runOps (dicEnv s0 gens fns) n ops st0).1.reverse).getD (.int 1)) = some b)
    (hmask : ((Spec.lastMeta s k "apply_mask"
      (runOps (dicEnv s0 gens fns) n ops st0).1.reverse).getD (.bool true)).truthy = false) :
    let st := (runOps (dicEnv s0 gens fns) n ops st0).2
    getDataF (dicEnv s0 gens fns) (m + 3) s k st = (.ok (some (cropVal st.world b x)), st) := by
  intro st
  obtain ⟨h1, h2⟩ := C23_last_write (dicEnv s0 gens fns) n ops st0 s k henv h0 hgen
  rw [hx] at h1
  cases hit : dget (st.net s).items k with
  | none => simp only [st] at hit; rw [hit] at h1; simp at h1
  | some it =>
    have hd : it.data = some x := by
      simp only [st] at hit; rw [hit] at h1; simpa using h1
    have hp : ∀ a, dget it.props a
        = Spec.lastMeta s k a (runOps (dicEnv s0 gens fns) n ops st0).1.reverse := by
      intro a
      have := h2 a
      simp only [st] at hit; rw [hit] at this; exact this
    refine C29_read s0 m s c k st it x b hit ⟨hd, ?_, ?_, ?_⟩ ?_ ?_
    · rw [hp]; exact hty
    · rw [hp]; exact hcr
    · rw [hp]; exact hbin
    · rw [runOps_cropFn]; exact hc
    · rw [hp]; exact hmask

/-! ### C82: masking -/

/-- The map's mask item, holding `m`. -/
structure IsMaskItem (it : Item (DicVal α)) (m : Option (Grid Bool)) : Prop where
  data : it.data = m.map .mask
  cropped : ((dget it.props "cropped").getD (.bool false)).truthy = true
  noMask : ((dget it.props "apply_mask").getD (.bool true)).truthy = false

theorem read_mask (s0 n s : Nat) (st : DState (DicVal α) DicW)
    (it : Item (DicVal α)) (m : Grid Bool) (hit : dget (st.net s).items "mask" = some it)
    (hm : IsMaskItem it (some m)) :
    getDataF (dicEnv s0 gens fns) (n + 1) s "mask" st = (.ok (some (.mask m)), st) := by
  have hd : it.data = some (.mask m) := hm.data
  rw [getDataF]
  simp only [hit, hd, valueOrGen]
  rw [bind_ok (x := DM.pure (some (DicVal.mask (α := α) m))) (a := some (.mask m)) (st' := st) rfl]
  unfold finishRead
  rw [bind_ok (lift_eq (f := fun net => metaF net 1 s "mask" "type" .none)
    (metaF_stored st.been hit))]
  split
  · rw [bind_ok (a := some (.mask m)) (st' := st)]
    · unfold maskStep
      rw [bind_ok (lift_eq (f := fun net => metaF net 1 s "mask" "apply_mask" (.bool true))
        (metaF_stored st.been hit)), hm.noMask]
      rfl
    · unfold cropStep
      rw [bind_ok (lift_eq (f := fun net => metaF net 1 s "mask" "cropped" (.bool false))
        (metaF_stored st.been hit)), hm.cropped]
      rfl
  · rfl

/-- **C82 (masked reads).** Reading a map item while a mask is stored gives the current crop
of the stored data, masked where the mask says, if the mask fits the cropped data, and raises
ValueError otherwise; nothing is changed. -/
theorem C82_masked_read (n s c c' : Nat) (k : String) (st : DState (DicVal α) DicW)
    (it itm : Item (DicVal α)) (g : Grid α) (old : Int → Int → Bool) (b : Int) (m : Grid Bool)
    (hit : dget (st.net s).items k = some it) (hx : IsMapItem it (.arr g old) b)
    (hc : (st.net s).cropFn = some c) (hmf : (st.net s).maskFn = some c')
    (hm : ((dget it.props "apply_mask").getD (.bool true)).truthy = true)
    (hitm : dget (st.net s).items "mask" = some itm) (hmi : IsMaskItem itm (some m)) :
    getDataF (dicEnv s gens fns) (n + 6) s k st =
      (match applyMask m (cropGrid st.world b g) (fun y x =>
          old (y + sliceBound g.rows (st.world.top * b)) (x + sliceBound g.cols (st.world.left * b)))
        with
      | some v => .ok (some v)
      | none => .error .valueError, st) := by
  rw [read_crop s (n + 3) s c k st it _ b hit hx hc]
  unfold maskStep
  rw [bind_ok (lift_eq (f := fun net => metaF net 1 s k "apply_mask" (.bool true))
    (metaF_stored st.been hit)), hm]
  simp only [if_true, hmf]
  show runF (dicEnv s gens fns) (n + 5) (maskProg s (some (cropVal st.world b (.arr g old)))) st = _
  unfold maskProg
  rw [runF]
  beta_reduce
  rw [read_mask s (n + 3) s st itm m hitm hmi]
  simp only
  rw [runF]
  beta_reduce
  rw [read_mask s (n + 2) s st itm m hitm hmi]
  simp only [cropVal]
  cases applyMask m (cropGrid st.world b g) (fun y x =>
      old (y + sliceBound g.rows (st.world.top * b)) (x + sliceBound g.cols (st.world.left * b)))
    with
  | none => simp only; rw [runF]; rfl
  | some v => simp only; rw [runF]; rfl

/-- **C82 (what a mask does).** A mask of the size of the data is applied pixel by pixel,
leaving the values alone. -/
theorem C82_pixels (m : Grid Bool) (g : Grid α) (h : m.rows = g.rows ∧ m.cols = g.cols) :
    ∃ masked, applyMask m g (fun _ _ => false) = some (.arr g masked) ∧
      ∀ y x : Int, 0 ≤ y → y < g.rows → 0 ≤ x → x < g.cols → masked y x = m.px y x := by
  unfold applyMask broadcasts
  rw [if_pos (by simp [h.1, h.2])]
  refine ⟨_, rfl, fun y x h1 h2 h3 h4 => ?_⟩
  simp only [Bool.false_or]
  congr 1
  · split
    · omega
    · rfl
  · split
    · omega
    · rfl

theorem crop_bounds (w : DicW) (b : Nat) (g : Grid α) (hw : w.CropOk)
    (hr : g.rows = w.ydim * b) (hc : g.cols = w.xdim * b) :
    sliceBound g.rows (w.top * b) = w.top * b ∧ sliceBound g.cols (w.left * b) = w.left * b := by
  obtain ⟨h1, h2, h3, h4, h5, h6⟩ := hw
  have hb : (0 : Int) ≤ b := by positivity
  unfold sliceBound
  constructor
  · rw [if_neg (by have := mul_nonneg h4 hb; omega), hr]
    push_cast
    exact min_eq_left (mul_le_mul_of_nonneg_right (by omega) hb)
  · rw [if_neg (by have := mul_nonneg h1 hb; omega), hc]
    push_cast
    exact min_eq_left (mul_le_mul_of_nonneg_right (by omega) hb)

/-- **C29 (pixels of a read).** Reading a map item that is not masked, of a map with a crop that
leaves at least one pixel, gives an array of the cropped size (times the binning of the item) that
at pixel `(y, x)` has the stored value of pixel `(y + top, x + left)` (times the binning). -/
theorem C29_pixels (s0 n s c : Nat) (k : String) (st : DState (DicVal α) DicW)
    (it : Item (DicVal α)) (g : Grid α) (old : Int → Int → Bool) (b : Nat) (hb : 0 < b)
    (hit : dget (st.net s).items k = some it) (hx : IsMapItem it (.arr g old) b)
    (hc : (st.net s).cropFn = some c)
    (hm : ((dget it.props "apply_mask").getD (.bool true)).truthy = false)
    (hw : st.world.CropOk) (hrows : g.rows = st.world.ydim * b)
    (hcols : g.cols = st.world.xdim * b) :
    ∃ (g' : Grid α) (masked : Int → Int → Bool),
      getDataF (dicEnv s0 gens fns) (n + 3) s k st = (.ok (some (.arr g' masked)), st) ∧
      (g'.rows : Int) = (st.world.ydim - st.world.top - st.world.bottom) * b ∧
      (g'.cols : Int) = (st.world.xdim - st.world.left - st.world.right) * b ∧
      ∀ y x, g'.px y x = g.px (y + st.world.top * b) (x + st.world.left * b) ∧
        masked y x = old (y + st.world.top * b) (x + st.world.left * b) := by
  obtain ⟨hs, hp⟩ := C30_crop st.world b hb g hw hrows hcols
  obtain ⟨b1, b2⟩ := crop_bounds st.world b g hw hrows hcols
  simp only [Prod.mk.injEq] at hs
  refine ⟨_, _, C29_read s0 n s c k st it (.arr g old) b hit hx hc hm, hs.1, hs.2,
    fun y x => ⟨hp y x, ?_⟩⟩
  rw [b1, b2]

/-- **C82 (pixels of a masked read).** With a stored mask of the cropped size, the read gives the
same values, and those pixels are masked that the stored data masks or the mask. -/
theorem C82_read_pixels (n s c c' : Nat) (k : String) (st : DState (DicVal α) DicW)
    (it itm : Item (DicVal α)) (g : Grid α) (old : Int → Int → Bool) (b : Nat) (hb : 0 < b)
    (m : Grid Bool)
    (hit : dget (st.net s).items k = some it) (hx : IsMapItem it (.arr g old) b)
    (hc : (st.net s).cropFn = some c) (hmf : (st.net s).maskFn = some c')
    (hm : ((dget it.props "apply_mask").getD (.bool true)).truthy = true)
    (hitm : dget (st.net s).items "mask" = some itm) (hmi : IsMaskItem itm (some m))
    (hw : st.world.CropOk) (hrows : g.rows = st.world.ydim * b)
    (hcols : g.cols = st.world.xdim * b)
    (hmr : (m.rows : Int) = (st.world.ydim - st.world.top - st.world.bottom) * b)
    (hmc : (m.cols : Int) = (st.world.xdim - st.world.left - st.world.right) * b) :
    ∃ (g' : Grid α) (masked : Int → Int → Bool),
      getDataF (dicEnv s gens fns) (n + 6) s k st = (.ok (some (.arr g' masked)), st) ∧
      g'.rows = m.rows ∧ g'.cols = m.cols ∧
      ∀ y x : Int, 0 ≤ y → y < m.rows → 0 ≤ x → x < m.cols →
        g'.px y x = g.px (y + st.world.top * b) (x + st.world.left * b) ∧
        (masked y x = true ↔
          old (y + st.world.top * b) (x + st.world.left * b) = true ∨ m.px y x = true) := by
  obtain ⟨hs, hp⟩ := C30_crop st.world b hb g hw hrows hcols
  obtain ⟨b1, b2⟩ := crop_bounds st.world b g hw hrows hcols
  simp only [Prod.mk.injEq] at hs
  have er : (cropGrid st.world b g).rows = m.rows := by
    have := hs.1.trans hmr.symm
    exact_mod_cast this
  have ec : (cropGrid st.world b g).cols = m.cols := by
    have := hs.2.trans hmc.symm
    exact_mod_cast this
  have key := C82_masked_read (gens := gens) (fns := fns) n s c c' k st it itm g old b m hit hx hc
    hmf hm hitm hmi
  unfold applyMask broadcasts at key
  rw [if_pos (by simp [er, ec])] at key
  refine ⟨_, _, key, er, ec, fun y x h1 h2 h3 h4 => ⟨hp y x, ?_⟩⟩
  rw [b1, b2, Bool.or_eq_true]
  have e1 : (if m.rows = 1 then 0 else y) = y := by split <;> omega
  have e2 : (if m.cols = 1 then 0 else x) = x := by split <;> omega
  rw [e1, e2]

/-- Pixels of a mask of `r` rows and `c` columns within `d` steps (up, down, left, right) of a
masked pixel of the mask. -/
def Spec.Within (g : Grid Bool) (d : Nat) (y x : Int) : Prop :=
  ∃ y' x' : Int, (0 ≤ y' ∧ y' < g.rows ∧ 0 ≤ x' ∧ x' < g.cols) ∧ g.px y' x' = true ∧
    |y - y'| + |x - x'| ≤ d

theorem dilate_iterate (g : Grid Bool) (n : Nat) :
    (Nat.iterate dilate n g).rows = g.rows ∧ (Nat.iterate dilate n g).cols = g.cols ∧
    ∀ y x : Int, (0 ≤ y ∧ y < g.rows ∧ 0 ≤ x ∧ x < g.cols) →
      ((Nat.iterate dilate n g).px y x = true ↔ Spec.Within g n y x) := by
  induction n with
  | zero =>
    refine ⟨rfl, rfl, fun y x h => ?_⟩
    constructor
    · intro hp
      exact ⟨y, x, h, hp, by simp⟩
    · rintro ⟨y', x', _, hp, hd⟩
      have h1 := abs_nonneg (y - y')
      have h2 := abs_nonneg (x - x')
      have h3 : |y - y'| = 0 := by push_cast at hd; omega
      have h4 : |x - x'| = 0 := by push_cast at hd; omega
      rw [abs_eq_zero, sub_eq_zero] at h3 h4
      rw [h3, h4]
      exact hp
  | succ n ih =>
    obtain ⟨i1, i2, i3⟩ := ih
    rw [Function.iterate_succ_apply']
    generalize Nat.iterate dilate n g = g' at i1 i2 i3 ⊢
    refine ⟨i1, i2, fun y x h => ?_⟩
    unfold dilate
    simp only [i1, i2, Bool.or_eq_true, Bool.and_eq_true, decide_eq_true_eq]
    constructor
    · intro hp
      rcases hp with (((hp | ⟨hi, hp⟩) | ⟨hi, hp⟩) | ⟨hi, hp⟩) | ⟨hi, hp⟩
      · obtain ⟨a, b, h1, h2, h3⟩ := (i3 _ _ h).1 hp
        exact ⟨a, b, h1, h2, by push_cast; omega⟩
      all_goals
        obtain ⟨a, b, h1, h2, h3⟩ := (i3 _ _ hi).1 hp
        refine ⟨a, b, h1, h2, ?_⟩
        push_cast
        rcases abs_cases (y - a) with ⟨e1, _⟩ | ⟨e1, _⟩ <;>
        rcases abs_cases (x - b) with ⟨e2, _⟩ | ⟨e2, _⟩ <;>
        rw [e1, e2]
      · rcases abs_cases (y - 1 - a) with ⟨e3, _⟩ | ⟨e3, _⟩ <;> rw [e3] at h3 <;> omega
      · rcases abs_cases (y - 1 - a) with ⟨e3, _⟩ | ⟨e3, _⟩ <;> rw [e3] at h3 <;> omega
      · rcases abs_cases (y - 1 - a) with ⟨e3, _⟩ | ⟨e3, _⟩ <;> rw [e3] at h3 <;> omega
      · rcases abs_cases (y - 1 - a) with ⟨e3, _⟩ | ⟨e3, _⟩ <;> rw [e3] at h3 <;> omega
      · rcases abs_cases (y + 1 - a) with ⟨e3, _⟩ | ⟨e3, _⟩ <;> rw [e3] at h3 <;> omega
      · rcases abs_cases (y + 1 - a) with ⟨e3, _⟩ | ⟨e3, _⟩ <;> rw [e3] at h3 <;> omega
      · rcases abs_cases (y + 1 - a) with ⟨e3, _⟩ | ⟨e3, _⟩ <;> rw [e3] at h3 <;> omega
      · rcases abs_cases (y + 1 - a) with ⟨e3, _⟩ | ⟨e3, _⟩ <;> rw [e3] at h3 <;> omega
      · rcases abs_cases (x - 1 - b) with ⟨e3, _⟩ | ⟨e3, _⟩ <;> rw [e3] at h3 <;> omega
      · rcases abs_cases (x - 1 - b) with ⟨e3, _⟩ | ⟨e3, _⟩ <;> rw [e3] at h3 <;> omega
      · rcases abs_cases (x - 1 - b) with ⟨e3, _⟩ | ⟨e3, _⟩ <;> rw [e3] at h3 <;> omega
      · rcases abs_cases (x - 1 - b) with ⟨e3, _⟩ | ⟨e3, _⟩ <;> rw [e3] at h3 <;> omega
      · rcases abs_cases (x + 1 - b) with ⟨e3, _⟩ | ⟨e3, _⟩ <;> rw [e3] at h3 <;> omega
      · rcases abs_cases (x + 1 - b) with ⟨e3, _⟩ | ⟨e3, _⟩ <;> rw [e3] at h3 <;> omega
      · rcases abs_cases (x + 1 - b) with ⟨e3, _⟩ | ⟨e3, _⟩ <;> rw [e3] at h3 <;> omega
      · rcases abs_cases (x + 1 - b) with ⟨e3, _⟩ | ⟨e3, _⟩ <;> rw [e3] at h3 <;> omega
    · rintro ⟨a, b, h1, h2, h3⟩
      push_cast at h3
      rcases lt_trichotomy y a with hy | hy | hy
      · left; left; right
        refine ⟨by omega, (i3 _ _ (by omega)).2 ⟨a, b, h1, h2, ?_⟩⟩
        rw [abs_of_neg (by omega)] at h3
        rw [abs_of_nonpos (by omega)]
        omega
      · rcases lt_trichotomy x b with hx | hx | hx
        · right
          refine ⟨by omega, (i3 _ _ (by omega)).2 ⟨a, b, h1, h2, ?_⟩⟩
          rw [abs_of_neg (a := x - b) (by omega)] at h3
          rw [abs_of_nonpos (a := x + 1 - b) (by omega)]
          omega
        · left; left; left; left
          refine (i3 _ _ h).2 ⟨a, b, h1, h2, ?_⟩
          rw [hy, hx]
          simp
        · left; right
          refine ⟨by omega, (i3 _ _ (by omega)).2 ⟨a, b, h1, h2, ?_⟩⟩
          rw [abs_of_pos (a := x - b) (by omega)] at h3
          rw [abs_of_nonneg (a := x - 1 - b) (by omega)]
          omega
      · left; left; left; right
        refine ⟨by omega, (i3 _ _ (by omega)).2 ⟨a, b, h1, h2, ?_⟩⟩
        rw [abs_of_pos (a := y - a) (by omega)] at h3
        rw [abs_of_nonneg (a := y - 1 - a) (by omega)]
        omega

/-- **C82 (dilation).** Dilating a mask by `d ≥ 1` masks exactly the pixels within `d` steps of a
masked pixel; by a negative number, all pixels, unless none is masked. The size stays. -/
theorem C82_dilation (g : Grid Bool) (d : Int) :
    (dilateN d g).rows = g.rows ∧ (dilateN d g).cols = g.cols ∧
    ∀ y x : Int, (0 ≤ y ∧ y < g.rows ∧ 0 ≤ x ∧ x < g.cols) →
      (1 ≤ d → ((dilateN d g).px y x = true ↔ Spec.Within g d.toNat y x)) ∧
      (d < 1 → ((dilateN d g).px y x = true ↔
        ∃ y' x' : Int, (0 ≤ y' ∧ y' < g.rows ∧ 0 ≤ x' ∧ x' < g.cols) ∧ g.px y' x' = true)) := by
  unfold dilateN
  obtain ⟨i1, i2, i3⟩ := dilate_iterate g (if d < 1 then g.rows + g.cols else d.toNat)
  refine ⟨i1, i2, fun y x h => ⟨?_, ?_⟩⟩
  · intro hd
    rw [i3 y x h, if_neg (by omega)]
  · intro hd
    rw [i3 y x h, if_pos hd]
    constructor
    · rintro ⟨a, b, h1, h2, _⟩
      exact ⟨a, b, h1, h2⟩
    · rintro ⟨a, b, h1, h2⟩
      refine ⟨a, b, h1, h2, ?_⟩
      push_cast
      rcases abs_cases (y - a) with ⟨e1, _⟩ | ⟨e1, _⟩ <;>
      rcases abs_cases (x - b) with ⟨e2, _⟩ | ⟨e2, _⟩ <;>
      rw [e1, e2] <;> omega

/-- **C29 (masked items: false).** When the crop is changed after a mask was set, so that
the cropped data has another number of rows (or columns) than the mask, and the mask has
more than one, reading any masked map item raises ValueError. -/
theorem C29_stale_mask (n s c c' : Nat) (k : String) (st : DState (DicVal α) DicW)
    (it itm : Item (DicVal α)) (g : Grid α) (old : Int → Int → Bool) (b : Int) (m : Grid Bool)
    (hit : dget (st.net s).items k = some it) (hx : IsMapItem it (.arr g old) b)
    (hc : (st.net s).cropFn = some c) (hmf : (st.net s).maskFn = some c')
    (hm : ((dget it.props "apply_mask").getD (.bool true)).truthy = true)
    (hitm : dget (st.net s).items "mask" = some itm) (hmi : IsMaskItem itm (some m))
    (hshape : (m.rows ≠ (cropGrid st.world b g).rows ∧ m.rows ≠ 1) ∨
      (m.cols ≠ (cropGrid st.world b g).cols ∧ m.cols ≠ 1)) :
    getDataF (dicEnv s gens fns) (n + 6) s k st = (.error .valueError, st) := by
  rw [C82_masked_read n s c c' k st it itm g old b m hit hx hc hmf hm hitm hmi]
  have : applyMask m (cropGrid st.world b g) (fun y x => old
      (y + sliceBound g.rows (st.world.top * b)) (x + sliceBound g.cols (st.world.left * b)))
      = none := by
    unfold applyMask broadcasts
    rw [if_neg]
    simp only [Bool.and_eq_true, decide_eq_true_eq]
    tauto
  rw [this]

theorem setData_own (n s : Nat) (k : String) (v : Option (DicVal α)) (st : DState (DicVal α) DicW)
    (it : Item (DicVal α)) (hit : dget (st.net s).items k = some it)
    (hder : (st.net s).derivs = []) :
    setDataF (n + 1) s k v st = (.ok (), putItem st s k { it with data := v }) := by
  unfold setDataF
  rw [bind_ok (lift_eq (f := fun net => keysF net (n + 1) s) (keysF_noderiv st.been hder)),
    if_pos (mem_dkeys_of_dget hit)]
  simp only [hit]

/-- **C82 (setting a mask).** On a map whose `mask` item is made by `calc_mask`: generating
the mask from an array of the map's current shape stores this array, dilated on request;
from an array of another shape raises ValueError and changes no item; and without a mask
stores `None`. -/
theorem C82_set_mask (n s : Nat) (kw : List (String × MVal)) (st : DState (DicVal α) DicW)
    (itm : Item (DicVal α)) (hitm : dget (st.net s).items "mask" = some itm)
    (hsave : dget itm.props "save" = none) (hder : (st.net s).derivs = [])
    (hgen : (st.net s).gens.find? (fun g => decide ("mask" ∈ g.1)) = some (["mask"], 0)) :
    (∀ i, dget kw "mask" = some (.obj i) →
      (((st.world.masks i).rows : Int), ((st.world.masks i).cols : Int)) = st.world.shape →
      ∃ m, (generateF (dicEnv s gens fns) (n + 5) s "mask" kw st).1 = .ok (some (.mask m)) ∧
        (dget ((generateF (dicEnv s gens fns) (n + 5) s "mask" kw st).2.net s).items "mask").map
          (·.data) = some (some (.mask m)) ∧
        (dget kw "dilation" = none → m = st.world.masks i) ∧
        (∀ d, dget kw "dilation" = some (.int d) → d ≠ 0 → m = dilateN d (st.world.masks i))) ∧
    (∀ i, dget kw "mask" = some (.obj i) →
      (((st.world.masks i).rows : Int), ((st.world.masks i).cols : Int)) ≠ st.world.shape →
      (generateF (dicEnv s gens fns) (n + 5) s "mask" kw st).1 = .error .valueError ∧
      (generateF (dicEnv s gens fns) (n + 5) s "mask" kw st).2.net = st.net) ∧
    (dget kw "mask" = none →
      (generateF (dicEnv s gens fns) (n + 5) s "mask" kw st).1 = .ok none ∧
        (dget ((generateF (dicEnv s gens fns) (n + 5) s "mask" kw st).2.net s).items "mask").map
          (·.data) = some none) := by
  -- the whole generation, given that `calc_mask` stores `v` and returns it
  have key : ∀ v : Option (DicVal α),
      runF (dicEnv s gens fns) (n + 4) (calcMaskProg s kw)
          { st with log := st.log ++ [(s, ["mask"])] }
        = (.ok v, putItem { st with log := st.log ++ [(s, ["mask"])] } s "mask"
            { itm with data := v }) →
      (generateF (dicEnv s gens fns) (n + 5) s "mask" kw st).1 = .ok v ∧
        (dget ((generateF (dicEnv s gens fns) (n + 5) s "mask" kw st).2.net s).items "mask").map
          (·.data) = some v := by
    intro v hrun
    have hit2 : dget ((putItem { st with log := st.log ++ [(s, ["mask"])] } s "mask"
            { itm with data := v }).net s).items "mask" = some { itm with data := v } := by
      rw [putItem_dget, if_pos ⟨rfl, rfl⟩]
    have hder2 : ((putItem { st with log := st.log ++ [(s, ["mask"])] } s "mask"
            { itm with data := v }).net s).derivs = [] := by
      rw [putItem_derivs]; exact hder
    have hg : generateF (dicEnv s gens fns) (n + 5) s "mask" kw st = (.ok v,
        putItem (putItem { st with log := st.log ++ [(s, ["mask"])] } s "mask"
            { itm with data := v }) s "mask" { itm with data := v }) := by
      rw [generateF]
      simp only [hgen]
      rw [bind_ok (a := v) (st' := putItem { st with log := st.log ++ [(s, ["mask"])] } s "mask"
            { itm with data := v })]
      · unfold storeResult
        rw [if_pos (show ["mask"].length = 1 from rfl)]
        rw [bind_ok (lift_eq (f := fun net => metaF net (n + 4) s "mask" "save" (.bool true))
          (metaF_stored _ hit2))]
        simp only [hsave, Option.getD_none, MVal.truthy, if_true]
        rw [bind_ok (setData_own (n + 3) s "mask" v _ _ hit2 hder2)]
        rfl
      · exact hrun
    rw [hg]
    refine ⟨rfl, ?_⟩
    rw [putItem_dget, if_pos ⟨rfl, rfl⟩]
    rfl
  have hset : ∀ (j : Nat) (v : Option (DicVal α)),
      setDataF (j + 1) s "mask" v { st with log := st.log ++ [(s, ["mask"])] }
        = (.ok (), putItem { st with log := st.log ++ [(s, ["mask"])] } s "mask"
            { itm with data := v }) := fun j v =>
    setData_own j s "mask" v _ itm hitm hder
  refine ⟨?_, ?_, ?_⟩
  · intro i hi hsh
    refine ⟨match (dget kw "dilation").getD (.int 0) with
        | .int d => if d = 0 then st.world.masks i else dilateN d (st.world.masks i)
        | _ => st.world.masks i, ?_⟩
    have := key (some (.mask (match (dget kw "dilation").getD (.int 0) with
        | .int d => if d = 0 then st.world.masks i else dilateN d (st.world.masks i)
        | _ => st.world.masks i))) (by
      unfold calcMaskProg
      rw [hi]
      simp only [Option.getD_some]
      rw [runF]
      simp only
      rw [if_pos hsh, runF]
      beta_reduce
      rw [hset (n + 1)]
      simp only
      rw [runF]
      rfl)
    refine ⟨this.1, this.2, fun h => by rw [h]; simp, fun d h hd => by rw [h]; simp [hd]⟩
  · intro i hi hsh
    have hrun : runF (dicEnv s gens fns) (n + 4) (calcMaskProg s kw)
          { st with log := st.log ++ [(s, ["mask"])] }
        = (.error .valueError, { st with log := st.log ++ [(s, ["mask"])] }) := by
      unfold calcMaskProg
      rw [hi]
      simp only [Option.getD_some]
      rw [runF]
      simp only
      rw [if_neg hsh, runF]
      rfl
    have hg : generateF (dicEnv s gens fns) (n + 5) s "mask" kw st
        = (.error .valueError, { st with log := st.log ++ [(s, ["mask"])] }) := by
      rw [generateF]
      simp only [hgen]
      exact bind_err hrun
    rw [hg]
    exact ⟨rfl, rfl⟩
  · intro hn
    apply key none
    unfold calcMaskProg
    rw [hn]
    simp only [Option.getD_none]
    rw [runF]
    beta_reduce
    rw [hset (n + 2)]
    simp only
    rw [runF]
    rfl

end

/-! ### Examples -/

/-- The callables of a DIC map write no item but the mask, if the other generators and the
derivative functions do not. -/
theorem dicEnv_leavesAlone {α : Type} (s0 s : Nat) (k : String) (hk : k ≠ "mask")
    (gens : Nat → List (String × MVal) → Prog (DicVal α) DicW)
    (fns : Nat → String ⊕ Option (DicVal α) → Prog (DicVal α) DicW)
    (hg : ∀ g kw, (gens g kw).Writes fun s' k' => ¬ (s' = s ∧ k' = k))
    (hf : ∀ f a, (fns f a).Writes fun s' k' => ¬ (s' = s ∧ k' = k)) :
    (dicEnv s0 gens fns).LeavesAlone s k := by
  refine ⟨fun g kw => ?_, hf, fun f v b => ?_, fun f v => ?_⟩
  · show (if g = 0 then calcMaskProg s0 kw else gens g kw).Writes _
    split
    · unfold calcMaskProg
      split
      · refine ⟨fun h => hk h.2.symm, fun r => ?_⟩
        cases r <;> trivial
      · intro w
        simp only
        split
        · refine ⟨fun h => hk h.2.symm, fun r => ?_⟩
          cases r <;> trivial
        · trivial
      · trivial
    · exact hg g kw
  · intro w
    simp only
    split <;> trivial
  · intro r
    simp only
    split
    · trivial
    · trivial
    · intro r2
      simp only
      split
      · split <;> trivial
      · trivial
      · trivial

namespace CropEx

/-- A map 10 columns wide and 6 rows high; mask 0 is for the crop by 2 columns on the left. -/
def w0 : DicW := DicW.new 10 6 [some (3, 2), some (9, 5)]
  fun _ => { rows := 6, cols := 8, px := fun y x => decide (y = 1 ∧ x = 0) }

def full : Grid Int := { rows := 6, cols := 10, px := fun y x => 100 * y + x }

/-- The map after cropping 2 columns on the left. -/
def w1 : DicW := { w0 with left := 2, shape := (6, 8), points := [some (1, 2), some (7, 5)] }

def gens : Nat → List (String × MVal) → Prog (DicVal Int) DicW := fun _ _ => .ret none
def fns : Nat → String ⊕ Option (DicVal Int) → Prog (DicVal Int) DicW := fun _ _ => .ret none

def st0 : DState (DicVal Int) DicW :=
  { net := fun s => Store.new (DicVal Int) s (some 0) (some 0), been := none, world := w0, log := [] }

def data : DicVal Int := .arr full fun _ _ => false

/-- Add the data, crop, read, crop again. -/
def ops : List (DOp (DicVal Int) DicW) :=
  [.add 0 "e11" (some data) [("type", .str "map"), ("apply_mask", .bool false)],
   .setWorld { w0 with left := 1 }, .read 0 "e11", .setWorld w1]

example : (setCrop w0 (some 2) none none none true) =
    (.ok (), w1) := rfl

example : w1.CropOk := by unfold DicW.CropOk w1 w0 DicW.new; decide

/-- `C30_crop` on the map: 6 rows, 8 columns, pixel (1, 0) of the crop is (1, 2) of the map. -/
example : (cropGrid w1 1 full).rows = 6 ∧ (cropGrid w1 1 full).cols = 8 ∧
    (cropGrid w1 1 full).px 1 0 = 102 := by decide +kernel

/-- The bound in `C30_crop` is needed: cropping 2 columns on the left and 11 of the 10 on
the right leaves 7 columns of data, while the shape says −3. -/
example : (cropGrid { w0 with left := 2, right := 11 } 1 full).cols = 7 ∧
    (setCrop w0 (some 2) (some 11) none none true).2.shape.2 = -3 := by decide +kernel

/-- `C31_points_fixed` on two crops. -/
example : (setCrops w0 [(some 2, none, some 1, none), (some 4, none, none, some 1)]).2.points
    = [some (-1, 1), some (5, 4)] := by decide +kernel

/-- `C32_one_point`, `C32_all_points`, `C32_all_lost`. -/
example : updateHomog w0.points 1 (some (0, 0)) none = (.ok (), [some (3, 2), some (0, 0)]) ∧
    updateHomog w0.points (-1) none (some (1, 1)) = (.ok (), [some (4, 3), some (10, 6)]) ∧
    updateHomog w0.points (-1) (some (0, 0)) none = (.ok (), [none, none]) ∧
    (updateHomog w0.points 2 (some (0, 0)) none).1 = .error .indexError := by decide +kernel

/-- The hypotheses of `C29_history` hold of a history with two crops and a read. -/
example : getDataF (dicEnv 0 gens fns) 4 0 "e11" (runOps (dicEnv 0 gens fns) 9 ops st0).2
    = (.ok (some (cropVal w1 1 data)), (runOps (dicEnv 0 gens fns) 9 ops st0).2) := by
  have := C29_history (gens := gens) (fns := fns) 0 9 1 0 0 "e11" ops st0 data 1
    (dicEnv_leavesAlone 0 0 "e11" (by decide) _ _ (fun _ _ => trivial) (fun _ _ => trivial))
    ⟨rfl, rfl⟩ (by
      intro op hop ks g ms kw he
      subst he
      simp [ops] at hop) rfl (by with_unfolding_all rfl) (by decide +kernel) (by decide +kernel)
        (by decide +kernel) (by decide +kernel)
  exact this

/-- A map with its mask set, cropped by 2 columns. -/
def stM (w : DicW) (m : Grid Bool) : DState (DicVal Int) DicW :=
  { st0 with
    world := w
    net := fun s =>
      { Store.new (DicVal Int) s (some 0) (some 0) with
        items := [("e11", { data := some data, props := [("type", .str "map")] }),
          ("mask", { data := some (.mask m), props := [("type", .str "map"),
            ("cropped", .bool true), ("apply_mask", .bool false)] })]
        gens := [(["mask"], 0)] } }

/-- The hypotheses of `C82_masked_read` hold: pixel (1, 0) of the crop is masked. -/
example : ∃ st, ∃ masked, getDataF (dicEnv 0 gens fns) 6 0 "e11" (stM w1 (w0.masks 0))
    = (.ok (some (.arr (cropGrid w1 1 full) masked)), st) ∧ masked 1 0 = true ∧
      masked 1 1 = false := by
  refine ⟨_, _, C82_masked_read (gens := gens) (fns := fns) 0 0 0 0 "e11" (stM w1 (w0.masks 0))
    _ _ full (fun _ _ => false) 1 (w0.masks 0) rfl ⟨rfl, rfl, rfl, rfl⟩ rfl rfl rfl rfl
    ⟨rfl, rfl, rfl⟩, rfl, rfl⟩

/-- The cropped map with an item that is not masked. -/
def stPlain : DState (DicVal Int) DicW :=
  { stM w1 (w0.masks 0) with
    net := fun s => { Store.new (DicVal Int) s (some 0) (some 0) with
      items := [("e11", { data := some data, props := [("type", .str "map"),
        ("apply_mask", .bool false)] })] } }

/-- The hypotheses of `C29_pixels` and `C82_read_pixels` hold. -/
example : (∃ (g' : Grid Int) (masked : Int → Int → Bool),
      getDataF (dicEnv 0 gens fns) 3 0 "e11" stPlain = (.ok (some (.arr g' masked)), stPlain) ∧
      g'.px 1 0 = 102) ∧
    ∃ (g' : Grid Int) (masked : Int → Int → Bool),
      getDataF (dicEnv 0 gens fns) 6 0 "e11" (stM w1 (w0.masks 0)) =
        (.ok (some (.arr g' masked)), stM w1 (w0.masks 0)) ∧ g'.px 1 0 = 102 ∧ masked 1 0 = true := by
  constructor
  · obtain ⟨g', k, h, -, -, hp⟩ := C29_pixels (gens := gens) (fns := fns) 0 0 0 0 "e11"
      stPlain
      _ full (fun _ _ => false) 1 (by decide) rfl ⟨rfl, rfl, rfl, rfl⟩ rfl rfl
      (by unfold DicW.CropOk; decide +kernel) rfl rfl
    exact ⟨g', k, h, (hp 1 0).1⟩
  · obtain ⟨g', k, h, -, -, hp⟩ := C82_read_pixels (gens := gens) (fns := fns) 0 0 0 0 "e11"
      (stM w1 (w0.masks 0)) _ _ full (fun _ _ => false) 1 (by decide) (w0.masks 0) rfl
      ⟨rfl, rfl, rfl, rfl⟩ rfl rfl rfl rfl ⟨rfl, rfl, rfl⟩ (by unfold DicW.CropOk; decide +kernel)
      rfl rfl (by decide +kernel) (by decide +kernel)
    obtain ⟨h1, h2⟩ := hp 1 0 (by decide) (by decide +kernel) (by decide) (by decide +kernel)
    exact ⟨g', k, h, h1, h2.2 (Or.inr (by decide +kernel))⟩

/-- The hypotheses of `C29_stale_mask` hold: after the crop is taken back, the 8 column mask
does not fit and every read fails. -/
example : getDataF (dicEnv 0 gens fns) 6 0 "e11" (stM w0 (w0.masks 0))
    = (.error .valueError, stM w0 (w0.masks 0)) :=
  C29_stale_mask (gens := gens) (fns := fns) 0 0 0 0 "e11" (stM w0 (w0.masks 0))
    _ _ full (fun _ _ => false) 1 (w0.masks 0) rfl ⟨rfl, rfl, rfl, rfl⟩ rfl rfl rfl rfl
    ⟨rfl, rfl, rfl⟩ (.inr (by decide +kernel))

/-- The hypotheses of `C82_set_mask` hold. -/
example : (generateF (dicEnv 0 gens fns) 5 0 "mask" [("mask", .obj 0)] (stM w0 (w0.masks 0))).1
    = .error .valueError :=
  ((C82_set_mask (gens := gens) (fns := fns) 0 0 [("mask", .obj 0)] (stM w0 (w0.masks 0)) _ rfl rfl
    rfl rfl).2.1 0 rfl (by decide +kernel)).1

end CropEx

end DefDAP
