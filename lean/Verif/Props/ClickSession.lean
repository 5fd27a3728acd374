import Verif.Model.ClickSession
import Mathlib.Data.List.Basic
import Mathlib.Data.List.Nodup

/-!
C120: sessions with interactive maps and their pop-out windows.
-/

namespace DefDAP

/-- A state a session can be in. -/
def ClickReach (m : ClickMap) (st : ClickSt) : Prop := ∃ ops, clickRun m clickInit ops = st

/-- The window is open on the screen. -/
def Spec.OnScreen (st : ClickSt) (w : Nat × Nat) : Prop := w ∈ st.figs.opened

/-- The pop-out was closed and its number now belongs to another window. -/
def Spec.NumberTaken (st : ClickSt) (p : Option (Nat × Nat)) : Prop :=
  ∃ num id id', p = some (num, id) ∧ (num, id') ∈ st.figs.opened ∧ id' ≠ id

/-- A click on grain `g` in the open window `fig` of `locate_grain`. -/
structure Spec.ClicksGrain (m : ClickMap) (st : ClickSt) (fig : Nat) (display : Bool) (x y : Int) (g : Nat) :
    Prop where
  isOpen : ∃ num, (num, fig) ∈ st.figs.opened
  isLocator : st.locators.lookup fig = some display
  label : m.grains y x = (g : Int) + 1
  isGrain : g < m.count

theorem le_foldl_maxNat (l : List Nat) (a : Nat) : a ≤ l.foldl max a ∧ ∀ x ∈ l, x ≤ l.foldl max a := by
  induction l generalizing a with
  | nil => exact ⟨le_refl _, fun x h => absurd h List.not_mem_nil⟩
  | cons b l ih =>
    obtain ⟨h1, h2⟩ := ih (max a b)
    rw [List.foldl_cons]
    refine ⟨le_trans (le_max_left _ _) h1, fun x hx => ?_⟩
    rcases List.mem_cons.1 hx with rfl | hx
    · exact le_trans (le_max_right _ _) h1
    · exact h2 x hx

theorem nextNum_gt (l : List (Nat × Nat)) (p : Nat × Nat) (h : p ∈ l) : p.1 < nextNum l :=
  Nat.lt_succ_of_le ((le_foldl_maxNat (l.map Prod.fst) 0).2 _ (List.mem_map_of_mem h))

/-- What holds of the figures. -/
structure FigsOk (f : Figs) : Prop where
  nums : (f.opened.map Prod.fst).Nodup
  ids : (f.opened.map Prod.snd).Nodup
  lt : ∀ p ∈ f.opened, p.2 < f.fresh

/-- What holds of a pop-out. -/
structure PopOk (f : Figs) (p : Option (Nat × Nat)) : Prop where
  lt : ∀ w, p = some w → w.2 < f.fresh
  num : ∀ w n, p = some w → (n, w.2) ∈ f.opened → n = w.1

theorem FigsOk.new {f : Figs} (h : FigsOk f) (c : FigShows) : FigsOk (newFig f c) := by
  refine ⟨?_, ?_, ?_⟩
  · show ((f.opened ++ [(nextNum f.opened, f.fresh)]).map Prod.fst).Nodup
    rw [List.map_append, List.nodup_append]
    refine ⟨h.nums, List.nodup_singleton _, fun a ha b hb => ?_⟩
    obtain ⟨p, hp, rfl⟩ := List.mem_map.1 ha
    rw [List.map_singleton, List.mem_singleton] at hb
    have := nextNum_gt _ p hp
    subst hb
    exact Nat.ne_of_lt this
  · show ((f.opened ++ [(nextNum f.opened, f.fresh)]).map Prod.snd).Nodup
    rw [List.map_append, List.nodup_append]
    refine ⟨h.ids, List.nodup_singleton _, fun a ha b hb => ?_⟩
    obtain ⟨p, hp, rfl⟩ := List.mem_map.1 ha
    rw [List.map_singleton, List.mem_singleton] at hb
    have := h.lt p hp
    subst hb
    exact Nat.ne_of_lt this
  · intro p hp
    rcases List.mem_append.1 hp with hp | hp
    · exact Nat.lt_succ_of_lt (h.lt p hp)
    · rw [List.mem_singleton] at hp
      subst hp
      exact Nat.lt_succ_self _

theorem FigsOk.close {f : Figs} (h : FigsOk f) (id : Nat) : FigsOk (closeFig f id) :=
  ⟨h.nums.sublist (List.filter_sublist.map _), h.ids.sublist (List.filter_sublist.map _),
    fun p hp => h.lt p (List.mem_filter.1 hp).1⟩

theorem FigsOk.draw {f : Figs} (h : FigsOk f) (id : Nat) (c : FigShows) : FigsOk (drawFig f id c) :=
  ⟨h.nums, h.ids, h.lt⟩

theorem PopOk.new {f : Figs} {p : Option (Nat × Nat)} (h : PopOk f p) (c : FigShows) : PopOk (newFig f c) p := by
  refine ⟨fun w hw => Nat.lt_succ_of_lt (h.lt w hw), fun w n hw hn => ?_⟩
  rcases List.mem_append.1 hn with hn | hn
  · exact h.num w n hw hn
  · rw [List.mem_singleton] at hn
    have := h.lt w hw
    have e := congrArg Prod.snd hn
    simp only at e
    omega

theorem PopOk.close {f : Figs} {p : Option (Nat × Nat)} (h : PopOk f p) (id : Nat) : PopOk (closeFig f id) p :=
  ⟨h.lt, fun w n hw hn => h.num w n hw (List.mem_filter.1 hn).1⟩

theorem PopOk.draw {f : Figs} {p : Option (Nat × Nat)} (h : PopOk f p) (id : Nat) (c : FigShows) :
    PopOk (drawFig f id c) p := ⟨h.lt, h.num⟩

theorem PopOk.none (f : Figs) : PopOk f none := ⟨fun _ h => (by cases h), fun _ _ h => (by cases h)⟩

theorem PopOk.fresh {f : Figs} (h : FigsOk f) (c : FigShows) :
    PopOk (newFig f c) (some (nextNum f.opened, f.fresh)) := by
  refine ⟨fun w hw => ?_, fun w n hw hn => ?_⟩
  · cases hw
    exact Nat.lt_succ_self _
  · cases hw
    rcases List.mem_append.1 hn with hn | hn
    · have := h.lt _ hn
      simp only at this
      omega
    · rw [List.mem_singleton] at hn
      exact congrArg Prod.fst hn

/-- What holds in every session. -/
structure ClickInv (st : ClickSt) : Prop where
  figs : FigsOk st.figs
  pop : PopOk st.figs st.pop
  prof : PopOk st.figs st.prof
  loc : ∀ p ∈ st.locators, p.1 < st.figs.fresh
  lin : ∀ p ∈ st.liners, p < st.figs.fresh
  popLoc : ∀ w, st.pop = some w → ∀ p ∈ st.locators, p.1 ≠ w.2
  profLoc : ∀ w, st.prof = some w → ∀ p ∈ st.locators, p.1 ≠ w.2
  popProf : ∀ w v, st.pop = some w → st.prof = some v → w.2 ≠ v.2

theorem ClickInv.select {st : ClickSt} (h : ClickInv st) (fig g : Nat) : ClickInv (selectGrain st fig g) :=
  ⟨h.figs.draw _ _, h.pop.draw _ _, h.prof.draw _ _, h.loc, h.lin, h.popLoc, h.profLoc, h.popProf⟩

theorem ClickInv.redraw {m : ClickMap} {st : ClickSt} (h : ClickInv st) (id g : Nat) :
    ClickInv (popRedraw m st id g).1 := by
  unfold popRedraw
  split_ifs
  all_goals exact ⟨h.figs.draw _ _, h.pop.draw _ _, h.prof.draw _ _, h.loc, h.lin, h.popLoc, h.profLoc, h.popProf⟩

theorem ClickInv.popNew {m : ClickMap} {st : ClickSt} (h : ClickInv st) (g : Nat) :
    ClickInv (popNew m st g).1 := by
  unfold DefDAP.popNew
  split_ifs
  · exact h
  · exact ⟨h.figs.new _, h.pop.new _, h.prof.new _, fun p hp => Nat.lt_succ_of_lt (h.loc p hp),
      fun p hp => Nat.lt_succ_of_lt (h.lin p hp), h.popLoc, h.profLoc, h.popProf⟩
  · refine ⟨h.figs.new _, PopOk.fresh h.figs _, h.prof.new _, fun p hp => Nat.lt_succ_of_lt (h.loc p hp),
      fun p hp => Nat.lt_succ_of_lt (h.lin p hp), ?_, h.profLoc, ?_⟩
    · intro w hw p hp
      cases hw
      exact Nat.ne_of_lt (h.loc p hp)
    · intro w v hw hv
      cases hw
      exact (Nat.ne_of_lt (h.prof.lt v hv)).symm

theorem ClickInv.popShow {m : ClickMap} {st : ClickSt} (h : ClickInv st) (g : Nat) :
    ClickInv (popShow m st g).1 := by
  unfold DefDAP.popShow
  split_ifs
  · split
    · exact h.redraw _ _
    · exact h.popNew _
  · exact h.popNew _

theorem ClickInv.click {m : ClickMap} {st : ClickSt} (h : ClickInv st) (fig : Nat) (d a : Bool) (x y : Int) :
    ClickInv (clickGrainId m st fig d a x y).1 := by
  unfold clickGrainId
  split_ifs
  · exact h
  · exact h
  · exact h
  · exact (h.select _ _).popShow _
  · exact h.select _ _

theorem ClickInv.profile {st : ClickSt} (h : ClickInv st) (l : ℝ × ℝ × ℝ × ℝ) : ClickInv (showProfile st l) := by
  unfold showProfile
  split_ifs
  · split
    · exact ⟨h.figs.draw _ _, h.pop.draw _ _, h.prof.draw _ _, h.loc, h.lin, h.popLoc, h.profLoc, h.popProf⟩
    · exact h
  · refine ⟨h.figs.new _, h.pop.new _, PopOk.fresh h.figs _, fun p hp => Nat.lt_succ_of_lt (h.loc p hp),
      fun p hp => Nat.lt_succ_of_lt (h.lin p hp), h.popLoc, ?_, ?_⟩
    · intro w hw p hp
      cases hw
      exact Nat.ne_of_lt (h.loc p hp)
    · intro w v hw hv
      cases hv
      exact Nat.ne_of_lt (h.pop.lt w hw)

theorem ClickInv.step {m : ClickMap} {st : ClickSt} (h : ClickInv st) (op : ClickOp) :
    ClickInv (clickStep m st op).1 := by
  cases op with
  | locate d =>
    refine ⟨h.figs.new _, ?_, h.prof.new _, ?_, fun p hp => Nat.lt_succ_of_lt (h.lin p hp), ?_, ?_, ?_⟩
    · show PopOk _ (if d then none else st.pop)
      split
      · exact PopOk.none _
      · exact h.pop.new _
    · intro p hp
      rcases List.mem_append.1 hp with hp | hp
      · exact Nat.lt_succ_of_lt (h.loc p hp)
      · rw [List.mem_singleton] at hp
        subst hp
        exact Nat.lt_succ_self _
    · intro w hw p hp
      have hw : st.pop = some w := by
        have : (if d then none else st.pop) = some w := hw
        split at this
        · cases this
        · exact this
      rcases List.mem_append.1 hp with hp | hp
      · exact h.popLoc w hw p hp
      · rw [List.mem_singleton] at hp
        subst hp
        exact (Nat.ne_of_lt (h.pop.lt w hw)).symm
    · intro w hw p hp
      rcases List.mem_append.1 hp with hp | hp
      · exact h.profLoc w hw p hp
      · rw [List.mem_singleton] at hp
        subst hp
        exact (Nat.ne_of_lt (h.prof.lt w hw)).symm
    · intro w v hw hv
      have hw : st.pop = some w := by
        have : (if d then none else st.pop) = some w := hw
        split at this
        · cases this
        · exact this
      exact h.popProf w v hw hv
  | click fig a x y =>
    unfold clickStep
    simp only
    split_ifs
    · split
      · exact h.click _ _ _ _ _
      · exact h
    · exact h
  | drawLine =>
    refine ⟨h.figs.new _, h.pop.new _, h.prof.new _, fun p hp => Nat.lt_succ_of_lt (h.loc p hp), ?_, h.popLoc,
      h.profLoc, h.popProf⟩
    intro p hp
    rcases List.mem_append.1 hp with hp | hp
    · exact Nat.lt_succ_of_lt (h.lin p hp)
    · rw [List.mem_singleton] at hp
      subst hp
      exact Nat.lt_succ_self _
  | line fig l =>
    unfold clickStep
    simp only
    split_ifs
    · exact h.profile _
    · exact h
  | close fig =>
    exact ⟨h.figs.close _, h.pop.close _, h.prof.close _, h.loc, h.lin, h.popLoc, h.profLoc, h.popProf⟩
  | figure =>
    exact ⟨h.figs.new _, h.pop.new _, h.prof.new _, fun p hp => Nat.lt_succ_of_lt (h.loc p hp),
      fun p hp => Nat.lt_succ_of_lt (h.lin p hp), h.popLoc, h.profLoc, h.popProf⟩

theorem clickRun_inv (m : ClickMap) (ops : List ClickOp) (st : ClickSt) (h : ClickInv st) :
    ClickInv (clickRun m st ops) := by
  induction ops generalizing st with
  | nil => exact h
  | cons op ops ih => exact ih _ (h.step op)

theorem ClickReach.inv {m : ClickMap} {st : ClickSt} (h : ClickReach m st) : ClickInv st := by
  obtain ⟨ops, rfl⟩ := h
  refine clickRun_inv m ops _ ⟨⟨List.nodup_nil, List.nodup_nil, fun p hp => absurd hp List.not_mem_nil⟩,
    PopOk.none _, PopOk.none _, fun p hp => absurd hp List.not_mem_nil, fun p hp => absurd hp List.not_mem_nil,
    ?_, ?_, ?_⟩
  · intro w hw; cases hw
  · intro w hw; cases hw
  · intro w v hw; cases hw

/-- The step of a click on a grain. -/
theorem clickStep_grain {m : ClickMap} {st : ClickSt} {fig : Nat} {d : Bool} {x y : Int} {g : Nat}
    (h : Spec.ClicksGrain m st fig d x y g) :
    clickStep m st (.click fig true x y) =
      if d then popShow m (selectGrain st fig g) g else (selectGrain st fig g, none) := by
  obtain ⟨num, hn⟩ := h.isOpen
  have ho : figOpen st.figs fig = true := by
    unfold figOpen
    rw [List.contains_iff_mem]
    exact List.mem_map_of_mem (f := Prod.snd) hn
  have hl := h.label
  have hc := h.isGrain
  have e : (m.grains y x - 1).toNat = g := by omega
  unfold clickStep
  simp only [ho, if_true, h.isLocator]
  unfold clickGrainId
  rw [e]
  have h1 : ¬ m.grains y x - 1 < 0 := by omega
  have h2 : ¬ m.count ≤ g := by omega
  simp [h1, h2]

theorem mem_of_lookup {β : Type} (l : List (Nat × β)) (k : Nat) (b : β) (h : l.lookup k = some b) :
    (k, b) ∈ l := by
  induction l with
  | nil => cases h
  | cons p l ih =>
    rw [List.lookup_cons] at h
    split at h
    · rename_i hk
      simp only [beq_iff_eq] at hk
      cases h
      subst hk
      exact List.mem_cons_self
    · exact List.mem_cons_of_mem _ (ih h)

theorem popShow_other {m : ClickMap} {st : ClickSt} (hi : ClickInv st) (g : Nat) (i : Nat)
    (hl : i < st.figs.fresh) (hp : ∀ w, st.pop = some w → i ≠ w.2) :
    (popShow m st g).1.figs.shows i = st.figs.shows i ∧ (popShow m st g).1.sel = st.sel ∧
    (popShow m st g).1.prof = st.prof := by
  have hnew : (popNew m st g).1.figs.shows i = st.figs.shows i ∧ (popNew m st g).1.sel = st.sel ∧
      (popNew m st g).1.prof = st.prof := by
    unfold popNew
    split_ifs
    · exact ⟨rfl, rfl, rfl⟩
    · exact ⟨if_neg (Nat.ne_of_lt hl), rfl, rfl⟩
    · exact ⟨if_neg (Nat.ne_of_lt hl), rfl, rfl⟩
  unfold popShow
  split_ifs
  · split
    · rename_i w _ id hw
      unfold popRedraw
      have := hp _ hw
      split_ifs <;> exact ⟨if_neg this, rfl, rfl⟩
    · exact hnew
  · exact hnew

/-- **C120 (selection).** Clicking on a grain in a window of `locate_grain` selects it and highlights it in that
window, whatever becomes of the pop-out; no window shown changes, except this one and the pop-out. -/
theorem C120_select (m : ClickMap) (st : ClickSt) (hr : ClickReach m st) (fig : Nat) (d : Bool) (x y : Int)
    (g : Nat) (h : Spec.ClicksGrain m st fig d x y g) :
    (clickStep m st (.click fig true x y)).1.sel = some g ∧
    (clickStep m st (.click fig true x y)).1.figs.shows fig = .map (some g) ∧
    ∀ w, Spec.OnScreen st w → w.2 ≠ fig → (∀ v, st.pop = some v → w.2 ≠ v.2) →
      (clickStep m st (.click fig true x y)).1.figs.shows w.2 = st.figs.shows w.2 := by
  have hi := hr.inv
  obtain ⟨num, hn⟩ := h.isOpen
  have hfl := hi.figs.lt _ hn
  have hfp : ∀ w, st.pop = some w → fig ≠ w.2 :=
    fun w hw => hi.popLoc w hw _ (mem_of_lookup _ _ _ h.isLocator)
  rw [clickStep_grain h]
  cases d with
  | false =>
    refine ⟨rfl, if_pos rfl, fun w hw hne _ => if_neg hne⟩
  | true =>
    have hs := hi.select fig g
    have h1 := popShow_other (m := m) hs g fig hfl hfp
    refine ⟨h1.2.1, h1.1.trans (if_pos rfl), fun w hw hne hv => ?_⟩
    have h2 := popShow_other (m := m) hs g w.2 (hi.figs.lt _ hw) hv
    exact h2.1.trans (if_neg hne)

/-- **C120 (clicks ignored).** A click outside of the axes, on a point of no grain, on a window that is closed or that
is not of `locate_grain` changes nothing. -/
theorem C120_ignored (m : ClickMap) (st : ClickSt) (fig : Nat) (a : Bool) (x y : Int)
    (h : a = false ∨ m.grains y x ≤ 0 ∨ (∀ num, (num, fig) ∉ st.figs.opened) ∨
      st.locators.lookup fig = none) :
    clickStep m st (.click fig a x y) = (st, none) := by
  unfold clickStep
  simp only
  split_ifs with ho
  · split
    · rename_i d hd
      unfold clickGrainId
      rcases h with rfl | h | h | h
      · rfl
      · have : m.grains y x - 1 < 0 := by omega
        simp only [this, if_true, ite_self]
      · unfold figOpen at ho
        rw [List.contains_iff_mem] at ho
        obtain ⟨p, hp, rfl⟩ := List.mem_map.1 ho
        exact absurd hp (h p.1)
      · rw [h] at hd; cases hd
    · rfl
  · rfl

/-- **C120 (pop-out).** Clicking on a grain that can be drawn, with `display_grain`, unless the number of a closed
pop-out belongs to another window: then the pop-out is on the screen and shows the grain clicked. If it was there
before no window is opened, else one. No window is closed. -/
theorem C120_popup (m : ClickMap) (st : ClickSt) (hr : ClickReach m st) (fig : Nat) (x y : Int) (g : Nat)
    (h : Spec.ClicksGrain m st fig true x y g) (he : m.early g = false) (hl : m.late g = false)
    (hn : ¬ Spec.NumberTaken st st.pop) :
    (clickStep m st (.click fig true x y)).2 = none ∧
    (∃ w, (clickStep m st (.click fig true x y)).1.pop = some w ∧
      Spec.OnScreen (clickStep m st (.click fig true x y)).1 w ∧
      (clickStep m st (.click fig true x y)).1.figs.shows w.2 = .grain (some g) ∧
      ((clickStep m st (.click fig true x y)).1.figs.opened = st.figs.opened ∧ st.pop = some w ∨
        (clickStep m st (.click fig true x y)).1.figs.opened = st.figs.opened ++ [w] ∧
        ∀ v, st.pop = some v → ¬ Spec.OnScreen st v)) := by
  have hi := hr.inv
  rw [clickStep_grain h, if_pos rfl]
  unfold popShow
  by_cases hx : plotExists (selectGrain st fig g).figs (selectGrain st fig g).pop = true
  · rw [if_pos hx]
    have hx : plotExists st.figs st.pop = true := hx
    cases hp : st.pop with
    | none => rw [hp] at hx; cases hx
    | some w =>
      obtain ⟨num, id⟩ := w
      have e : (selectGrain st fig g).pop = some (num, id) := hp
      rw [e]
      simp only
      rw [hp] at hx
      unfold plotExists at hx
      rw [List.contains_iff_mem] at hx
      obtain ⟨p, hpm, hpn⟩ := List.mem_map.1 hx
      have hid : p.2 = id := by
        by_contra hc
        exact hn ⟨num, id, p.2, hp, by rw [← hpn]; exact hpm, hc⟩
      have hmem : (num, id) ∈ st.figs.opened := by rw [← hpn, ← hid]; exact hpm
      unfold popRedraw
      rw [he, hl]
      refine ⟨rfl, (num, id), hp, hmem, if_pos rfl, .inl ⟨rfl, rfl⟩⟩
  · rw [if_neg hx]
    unfold popNew
    rw [he, hl]
    refine ⟨rfl, _, rfl, List.mem_append_right _ List.mem_cons_self, if_pos rfl, .inr ⟨rfl, ?_⟩⟩
    intro v hv hs
    apply hx
    show plotExists st.figs st.pop = true
    rw [hv]
    unfold plotExists
    rw [List.contains_iff_mem]
    exact List.mem_map_of_mem (f := Prod.fst) hs

/-- **C120 (the pop-out stays).** Whatever else the user does, the pop-out keeps showing its grain, and stays on the
screen until it is closed. Only `locate_grain(display_grain=True)` starts another one. -/
theorem C120_keeps (m : ClickMap) (st : ClickSt) (hr : ClickReach m st) (op : ClickOp) (w : Nat × Nat)
    (hw : st.pop = some w) (hop : ∀ fig a x y, op = .click fig a x y → st.locators.lookup fig ≠ some true) :
    ((clickStep m st op).1.pop = some w ∨ op = .locate true) ∧
    (clickStep m st op).1.figs.shows w.2 = st.figs.shows w.2 ∧
    (Spec.OnScreen st w → op ≠ .close w.2 → Spec.OnScreen (clickStep m st op).1 w) := by
  have hi := hr.inv
  have hlt := hi.pop.lt w hw
  have hnew : ∀ c, (newFig st.figs c).shows w.2 = st.figs.shows w.2 := fun c => if_neg (Nat.ne_of_lt hlt)
  cases op with
  | locate d =>
    refine ⟨?_, hnew _, fun h _ => List.mem_append_left _ h⟩
    cases d
    · exact .inl hw
    · exact .inr rfl
  | click fig a x y =>
    have hl := hop fig a x y rfl
    unfold clickStep
    simp only
    split_ifs
    · split
      · rename_i d hd
        have : d = false := by
          cases d
          · rfl
          · exact absurd hd hl
        subst this
        have hf : w.2 ≠ fig := fun e => hi.popLoc w hw _ (mem_of_lookup _ _ _ hd) e.symm
        unfold clickGrainId
        split_ifs
        · exact ⟨.inl hw, rfl, fun h _ => h⟩
        · exact ⟨.inl hw, rfl, fun h _ => h⟩
        · exact ⟨.inl hw, rfl, fun h _ => h⟩
        · rename_i hc; exact hc.elim
        · exact ⟨.inl hw, if_neg hf, fun h _ => h⟩
      · exact ⟨.inl hw, rfl, fun h _ => h⟩
    · exact ⟨.inl hw, rfl, fun h _ => h⟩
  | drawLine => exact ⟨.inl hw, hnew _, fun h _ => List.mem_append_left _ h⟩
  | line fig l =>
    unfold clickStep
    simp only
    split_ifs
    · unfold showProfile
      split_ifs
      · split
        · rename_i hv
          exact ⟨.inl hw, if_neg (hi.popProf _ _ hw hv), fun h _ => h⟩
        · exact ⟨.inl hw, rfl, fun h _ => h⟩
      · exact ⟨.inl hw, hnew _, fun h _ => List.mem_append_left _ h⟩
    · exact ⟨.inl hw, rfl, fun h _ => h⟩
  | close fig =>
    refine ⟨.inl hw, rfl, fun h hc => ?_⟩
    refine List.mem_filter.2 ⟨h, ?_⟩
    simp only [ne_eq, decide_not, Bool.not_eq_eq_eq_not, Bool.not_true, decide_eq_false_iff_not]
    intro e
    exact hc (by rw [e])
  | figure => exact ⟨.inl hw, hnew _, fun h _ => List.mem_append_left _ h⟩

/-- **C120 (profiles).** The same for the window of line profiles: after a line is drawn it is on the screen with
the profile of that line, and only opened if it was not there, unless the number of a closed one belongs to another
window. -/
theorem C120_profile (m : ClickMap) (st : ClickSt) (fig : Nat) (l : ℝ × ℝ × ℝ × ℝ)
    (ho : ∃ num, (num, fig) ∈ st.figs.opened) (hf : fig ∈ st.liners) (hn : ¬ Spec.NumberTaken st st.prof) :
    ∃ w, (clickStep m st (.line fig l)).1.prof = some w ∧ Spec.OnScreen (clickStep m st (.line fig l)).1 w ∧
      (clickStep m st (.line fig l)).1.figs.shows w.2 = .profile (some l) ∧
      ((clickStep m st (.line fig l)).1.figs.opened = st.figs.opened ∧ st.prof = some w ∨
        (clickStep m st (.line fig l)).1.figs.opened = st.figs.opened ++ [w] ∧
        ∀ v, st.prof = some v → ¬ Spec.OnScreen st v) := by
  have e : clickStep m st (.line fig l) = (showProfile st l, none) := by
    obtain ⟨num, ho⟩ := ho
    have h1 : figOpen st.figs fig = true := by
      unfold figOpen
      rw [List.contains_iff_mem]
      exact List.mem_map_of_mem (f := Prod.snd) ho
    have h2 : st.liners.contains fig = true := List.contains_iff_mem.2 hf
    unfold clickStep
    simp only [h1, h2, Bool.and_self, if_true]
  rw [e]
  unfold showProfile
  by_cases hx : plotExists st.figs st.prof = true
  · rw [if_pos hx]
    cases hp : st.prof with
    | none => rw [hp] at hx; cases hx
    | some w =>
      obtain ⟨num, id⟩ := w
      simp only
      rw [hp] at hx
      unfold plotExists at hx
      rw [List.contains_iff_mem] at hx
      obtain ⟨p, hpm, hpn⟩ := List.mem_map.1 hx
      have hid : p.2 = id := by
        by_contra hc
        exact hn ⟨num, id, p.2, hp, by rw [← hpn]; exact hpm, hc⟩
      have hmem : (num, id) ∈ st.figs.opened := by rw [← hpn, ← hid]; exact hpm
      exact ⟨(num, id), rfl, hmem, if_pos rfl, .inl ⟨rfl, rfl⟩⟩
  · rw [if_neg hx]
    refine ⟨_, rfl, List.mem_append_right _ List.mem_cons_self, if_pos rfl, .inr ⟨rfl, ?_⟩⟩
    intro v hv hs
    apply hx
    rw [hv]
    unfold plotExists
    rw [List.contains_iff_mem]
    exact List.mem_map_of_mem (f := Prod.fst) hs

/-- The figures after a step: those before without one that is closed, or with one more. -/
theorem clickStep_opened (m : ClickMap) (st : ClickSt) (op : ClickOp) :
    (∀ q ∈ (clickStep m st op).1.figs.opened, q ∈ st.figs.opened) ∨
    (clickStep m st op).1.figs.opened = st.figs.opened ++ [(nextNum st.figs.opened, st.figs.fresh)] := by
  have hnew : ∀ (st' : ClickSt), st'.figs.opened = st.figs.opened → st'.figs.fresh = st.figs.fresh → ∀ g,
      (∀ q ∈ (popNew m st' g).1.figs.opened, q ∈ st.figs.opened) ∨
      (popNew m st' g).1.figs.opened = st.figs.opened ++ [(nextNum st.figs.opened, st.figs.fresh)] := by
    intro st' ho hf g
    unfold popNew
    split_ifs
    · left; intro q hq; rw [← ho]; exact hq
    · right
      show st'.figs.opened ++ [(nextNum st'.figs.opened, st'.figs.fresh)] = _
      rw [ho, hf]
    · right
      show st'.figs.opened ++ [(nextNum st'.figs.opened, st'.figs.fresh)] = _
      rw [ho, hf]
  cases op with
  | locate d => exact .inr rfl
  | click fig a x y =>
    unfold clickStep
    simp only
    split_ifs
    · split
      · unfold clickGrainId
        split_ifs
        · exact .inl fun _ h => h
        · exact .inl fun _ h => h
        · exact .inl fun _ h => h
        · unfold popShow
          split_ifs
          · split
            · unfold popRedraw
              split_ifs <;> exact .inl fun _ h => h
            · exact hnew (selectGrain st fig (m.grains y x - 1).toNat) rfl rfl _
          · exact hnew (selectGrain st fig (m.grains y x - 1).toNat) rfl rfl _
        · exact .inl fun _ h => h
      · exact .inl fun _ h => h
    · exact .inl fun _ h => h
  | drawLine => exact .inr rfl
  | line fig l =>
    unfold clickStep
    simp only
    split_ifs
    · unfold showProfile
      split_ifs
      · split <;> exact .inl fun _ h => h
      · exact .inr rfl
    · exact .inl fun _ h => h
  | close fig => exact .inl fun q hq => (List.mem_filter.1 hq).1
  | figure => exact .inr rfl

theorem clickStep_pop (m : ClickMap) (st : ClickSt) (op : ClickOp) :
    (clickStep m st op).1.pop = st.pop ∨ (clickStep m st op).1.pop = none ∨
    (clickStep m st op).1.pop = some (nextNum st.figs.opened, st.figs.fresh) := by
  cases op with
  | locate d =>
    cases d
    · exact .inl rfl
    · exact .inr (.inl rfl)
  | click fig a x y =>
    unfold clickStep
    simp only
    split_ifs
    · split
      · unfold clickGrainId
        split_ifs
        · exact .inl rfl
        · exact .inl rfl
        · exact .inl rfl
        · unfold popShow
          have hnew : ∀ g, (popNew m (selectGrain st fig g) g).1.pop = st.pop ∨
              (popNew m (selectGrain st fig g) g).1.pop = none ∨
              (popNew m (selectGrain st fig g) g).1.pop = some (nextNum st.figs.opened, st.figs.fresh) := by
            intro g
            unfold popNew
            split_ifs
            · exact .inl rfl
            · exact .inl rfl
            · exact .inr (.inr rfl)
          split_ifs
          · split
            · unfold popRedraw
              split_ifs <;> exact .inl rfl
            · exact hnew _
          · exact hnew _
        · exact .inl rfl
      · exact .inl rfl
    · exact .inl rfl
  | drawLine => exact .inl rfl
  | line fig l =>
    unfold clickStep
    simp only
    split_ifs
    · unfold showProfile
      split_ifs
      · split <;> exact .inl rfl
      · exact .inl rfl
    · exact .inl rfl
  | close fig => exact .inl rfl
  | figure => exact .inl rfl

/-- **C120 (when a number is taken).** The number of the pop-out comes to belong to another window only when a window is
opened while the pop-out is closed. -/
theorem C120_taken_origin (m : ClickMap) (st : ClickSt) (hr : ClickReach m st) (op : ClickOp)
    (hn : ¬ Spec.NumberTaken st st.pop)
    (ht : Spec.NumberTaken (clickStep m st op).1 (clickStep m st op).1.pop) :
    (∃ w, st.pop = some w ∧ ¬ Spec.OnScreen st w) ∧
    ∃ w, (clickStep m st op).1.figs.opened = st.figs.opened ++ [w] := by
  have hi := hr.inv
  have hi' := hi.step (m := m) op
  obtain ⟨num, id, id', hp, hm, hne⟩ := ht
  rcases clickStep_pop m st op with e | e | e
  · have hp0 : st.pop = some (num, id) := by rw [← e]; exact hp
    rcases clickStep_opened m st op with ho | ho
    · exact absurd ⟨num, id, id', hp0, ho _ hm, hne⟩ hn
    · refine ⟨⟨_, hp0, fun hs => ?_⟩, _, ho⟩
      have hs : (num, id) ∈ st.figs.opened := hs
      rw [ho] at hm
      rcases List.mem_append.1 hm with hm | hm
      · exact hn ⟨num, id, id', hp0, hm, hne⟩
      · rw [List.mem_singleton] at hm
        have h1 := nextNum_gt _ _ hs
        have h2 := congrArg Prod.fst hm
        simp only at h1 h2
        omega
  · rw [e] at hp; cases hp
  · rw [e] at hp
    cases hp
    rcases clickStep_opened m st op with ho | ho
    · have h1 := nextNum_gt _ _ (ho _ hm)
      simp only at h1
      omega
    · rw [ho] at hm
      rcases List.mem_append.1 hm with hm | hm
      · have h1 := nextNum_gt _ _ hm
        simp only at h1
        omega
      · rw [List.mem_singleton] at hm
        exact absurd (congrArg Prod.snd hm) hne

/-- **C120 (false when the number is taken).** If the pop-out was closed and its number belongs to another window,
clicking on a grain shows it nowhere: no window is opened, and none on the screen changes except for the highlight
in the map clicked. -/
theorem C120_reused (m : ClickMap) (st : ClickSt) (hr : ClickReach m st) (fig : Nat) (x y : Int) (g : Nat)
    (h : Spec.ClicksGrain m st fig true x y g) (hn : Spec.NumberTaken st st.pop) :
    (clickStep m st (.click fig true x y)).1.figs.opened = st.figs.opened ∧
    (clickStep m st (.click fig true x y)).1.pop = st.pop ∧
    ∀ w, Spec.OnScreen st w → w.2 ≠ fig →
      (clickStep m st (.click fig true x y)).1.figs.shows w.2 = st.figs.shows w.2 := by
  have hi := hr.inv
  obtain ⟨num, id, id', hp, hm, hne⟩ := hn
  have hnot : ∀ n, (n, id) ∉ st.figs.opened := by
    intro n hc
    have e := hi.pop.num _ n hp hc
    simp only at e
    subst e
    have := List.inj_on_of_nodup_map hi.figs.nums hm hc rfl
    exact hne (congrArg Prod.snd this)
  have hx : plotExists (selectGrain st fig g).figs (selectGrain st fig g).pop = true := by
    show plotExists st.figs st.pop = true
    rw [hp]
    unfold plotExists
    rw [List.contains_iff_mem]
    exact List.mem_map_of_mem (f := Prod.fst) hm
  rw [clickStep_grain h, if_pos rfl]
  unfold popShow
  rw [if_pos hx]
  have e : (selectGrain st fig g).pop = some (num, id) := hp
  rw [e]
  simp only
  have hid : ∀ w, Spec.OnScreen st w → w.2 ≠ id := by
    rintro ⟨a, b⟩ hw rfl
    exact hnot a hw
  unfold popRedraw
  split_ifs <;> exact ⟨rfl, rfl, fun w hw hf => (if_neg (hid w hw)).trans (if_neg hf)⟩

/-- The clicks of a user who tries again `n` times. -/
def Spec.tryAgain (fig : Nat) (x y : Int) (n : Nat) : List ClickOp := List.replicate n (.click fig true x y)

/-- **C120 (false for grains that cannot be drawn).** With a grain whose drawing fails after the window is opened, as
every grain of a DIC map without linked EBSD map, every click opens another window. -/
theorem C120_more_windows (m : ClickMap) (st : ClickSt) (fig : Nat) (x y : Int) (g : Nat)
    (h : Spec.ClicksGrain m st fig true x y g) (hp : st.pop = none) (he : m.early g = false)
    (hl : m.late g = true) (n : Nat) :
    (clickRun m st (Spec.tryAgain fig x y n)).figs.opened.length = st.figs.opened.length + n ∧
    (clickRun m st (Spec.tryAgain fig x y n)).pop = none := by
  induction n generalizing st with
  | zero => exact ⟨rfl, hp⟩
  | succ n ih =>
    have e : clickStep m st (.click fig true x y) =
        (⟨newFig (selectGrain st fig g).figs (.grain (some g)), some g, st.pop, st.prof, st.locators, st.liners⟩,
          some .attributeError) := by
      rw [clickStep_grain h, if_pos rfl]
      unfold popShow
      have hx : ¬ plotExists (selectGrain st fig g).figs (selectGrain st fig g).pop = true := by
        show ¬ plotExists st.figs st.pop = true
        rw [hp]
        exact Bool.false_ne_true
      rw [if_neg hx]
      unfold popNew
      rw [he, hl]
      rfl
    have e1 : clickRun m st (Spec.tryAgain fig x y (n + 1)) =
        clickRun m (clickStep m st (.click fig true x y)).1 (Spec.tryAgain fig x y n) := rfl
    rw [e1, e]
    have := ih ⟨newFig (selectGrain st fig g).figs (.grain (some g)), some g, st.pop, st.prof, st.locators,
      st.liners⟩ ⟨?_, h.isLocator, h.label, h.isGrain⟩ hp
    · refine ⟨this.1.trans ?_, this.2⟩
      show (st.figs.opened ++ [_]).length + n = _
      rw [List.length_append, List.length_singleton]
      omega
    · obtain ⟨num, ho⟩ := h.isOpen
      exact ⟨num, List.mem_append_left _ ho⟩

/-- **C120 (false for grains without orientation).** With a pop-out on the screen and a grain whose drawing fails at
once, as an EBSD grain without orientation, the grain is selected but the pop-out is left empty. -/
theorem C120_emptied (m : ClickMap) (st : ClickSt) (fig : Nat) (x y : Int) (g : Nat)
    (h : Spec.ClicksGrain m st fig true x y g) (w : Nat × Nat) (hp : st.pop = some w) (hs : Spec.OnScreen st w)
    (he : m.early g = true) :
    (clickStep m st (.click fig true x y)).2 = some .attributeError ∧
    (clickStep m st (.click fig true x y)).1.sel = some g ∧
    (clickStep m st (.click fig true x y)).1.figs.shows w.2 = .grain none := by
  obtain ⟨num, id⟩ := w
  rw [clickStep_grain h, if_pos rfl]
  unfold popShow
  have hx : plotExists (selectGrain st fig g).figs (selectGrain st fig g).pop = true := by
    show plotExists st.figs st.pop = true
    rw [hp]
    unfold plotExists
    rw [List.contains_iff_mem]
    exact List.mem_map_of_mem (f := Prod.fst) hs
  rw [if_pos hx]
  have e : (selectGrain st fig g).pop = some (num, id) := hp
  rw [e]
  simp only
  unfold popRedraw
  rw [he]
  exact ⟨rfl, rfl, if_pos rfl⟩

/-- A map of two grains. -/
def exClickMap : ClickMap := ⟨fun _ x => if x = 0 then 1 else if x = 1 then 2 else -1, 2, fun _ => false,
  fun _ => false⟩

/-- Opening, clicking on grain 0, closing the pop-out, opening another figure: the number is taken, and the click on
grain 1 shows it in no window. -/
example : let st := clickRun exClickMap clickInit [.locate true, .click 0 true 0 5, .close 1, .figure]
    st.sel = some 0 ∧ st.pop = some (2, 1) ∧ st.figs.opened = [(1, 0), (2, 2)] ∧
    Spec.NumberTaken st st.pop ∧ Spec.ClicksGrain exClickMap st 0 true 1 5 1 := by
  refine ⟨rfl, rfl, rfl, ⟨2, 1, 2, rfl, by decide +kernel, by decide⟩, ⟨⟨1, by decide +kernel⟩, rfl, rfl, by decide⟩⟩

/-- Without the other figure the pop-out is opened again. -/
example : let st := clickRun exClickMap clickInit [.locate true, .click 0 true 0 5, .close 1]
    ¬ Spec.NumberTaken st st.pop ∧ Spec.ClicksGrain exClickMap st 0 true 1 5 1 ∧
    (clickStep exClickMap st (.click 0 true 1 5)).1.figs.opened = [(1, 0), (2, 2)] := by
  refine ⟨?_, ⟨⟨1, by decide +kernel⟩, rfl, rfl, by decide⟩, rfl⟩
  rintro ⟨num, id, id', h1, h2, h3⟩
  have h1 : some (2, 1) = some (num, id) := h1
  have h2 : (num, id') ∈ [((1 : Nat), 0)] := h2
  cases h1
  simp at h2

/-- Drawing fails after the window is opened. -/
example : Spec.ClicksGrain { exClickMap with late := fun _ => true }
    (clickRun { exClickMap with late := fun _ => true } clickInit [.locate true]) 0 true 0 3 0 :=
  ⟨⟨1, by decide +kernel⟩, rfl, rfl, by decide⟩

/-- A pop-out on the screen. -/
example : let st := clickRun exClickMap clickInit [.locate true, .click 0 true 0 5]
    st.pop = some (2, 1) ∧ Spec.OnScreen st (2, 1) := ⟨rfl, by show _ ∈ _; decide +kernel⟩

/-- A window for lines. -/
example : let st := clickRun exClickMap clickInit [.drawLine]
    (∃ num, (num, 0) ∈ st.figs.opened) ∧ 0 ∈ st.liners := ⟨⟨1, by decide +kernel⟩, by decide +kernel⟩

end DefDAP
