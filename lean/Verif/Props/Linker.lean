import Verif.Model.Linker
import Mathlib.Data.List.Nodup
import Mathlib.Data.List.Induction

/-! C76: links between grains of several maps. -/

namespace DefDAP

/-! ### Links -/

theorem selected_spec : ∀ (maps : List LinkMap) (l : List Nat), selected maps = .ok l ↔
    maps.map LinkMap.sel = l.map some := by
  intro maps
  induction maps with
  | nil => intro l; cases l <;> simp [selected]
  | cons m t ih =>
    intro l
    unfold selected
    cases hm : m.sel with
    | none =>
      constructor
      · intro h; exact absurd h (by simp)
      · intro h
        cases l with
        | nil => simp at h
        | cons a l => simp [hm] at h
    | some g =>
      simp only
      cases hs : selected t with
      | error e =>
        constructor
        · intro h; exact absurd h (by simp [Except.bind])
        · intro h
          cases l with
          | nil => simp at h
          | cons a l =>
            simp only [List.map_cons, List.cons.injEq] at h
            have := (ih l).mpr h.2
            rw [hs] at this
            exact absurd this (by simp)
      | ok l' =>
        have := (ih l').mp hs
        simp only [Except.bind, Except.ok.injEq]
        constructor
        · intro h
          rw [← h]
          simp [hm, this]
        · intro h
          cases l with
          | nil => simp at h
          | cons a l =>
            simp only [List.map_cons, List.cons.injEq, hm, Option.some.injEq] at h
            have h2 := (ih l).mpr h.2
            rw [hs] at h2
            injection h2 with h2
            rw [h.1, h2]

/-- **C76**: making a link fails unless a grain is selected in every map; otherwise the selected
grains, in the order of the maps, are a link afterwards, and nothing else changes. -/
theorem C76_make (st : LinkerState) :
    ((∃ m ∈ st.maps, m.sel = none) → makeLink st = .error .exception) ∧
    (∀ l, st.maps.map LinkMap.sel = l.map some → ∃ st', makeLink st = .ok st' ∧
      st'.maps = st.maps ∧ (∀ k, k ∈ st'.links ↔ k ∈ st.links ∨ k = l) ∧
      (l ∈ st.links → st'.links = st.links) ∧ st.links <+: st'.links) := by
  constructor
  · rintro ⟨m, hm, hn⟩
    have key : ∀ maps : List LinkMap, m ∈ maps → selected maps = .error .exception := by
      intro maps
      induction maps with
      | nil => intro h; simp at h
      | cons a t ih =>
        intro h
        unfold selected
        cases ha : a.sel with
        | none => rfl
        | some g =>
          rcases List.mem_cons.mp h with rfl | h
          · rw [hn] at ha; exact absurd ha (by simp)
          · simp only
            rw [ih h]
            rfl
    unfold makeLink
    rw [key _ hm]
    rfl
  · intro l hl
    have hs := (selected_spec _ _).mpr hl
    unfold makeLink
    rw [hs]
    simp only [Except.bind]
    by_cases hm : l ∈ st.links
    · rw [if_pos hm]
      refine ⟨st, rfl, rfl, ?_, fun _ => rfl, List.prefix_refl _⟩
      intro k
      constructor
      · exact Or.inl
      · rintro (h | rfl)
        · exact h
        · exact hm
    · rw [if_neg hm]
      refine ⟨_, rfl, rfl, ?_, fun h => absurd h hm, List.prefix_append _ _⟩
      intro k
      simp

/-- A property of the linker kept by every action holds after any sequence of them. -/
theorem linkRun_inv {P : LinkerState → Prop} (ok : LinkOp → Prop)
    (h : ∀ op st st', ok op → P st → linkAct op st = .ok st' → P st') :
    ∀ (ops : List LinkOp) (st : LinkerState), (∀ op ∈ ops, ok op) → P st → P (linkRun ops st) := by
  intro ops
  induction ops with
  | nil => intro st _ hp; exact hp
  | cons op ops ih =>
    intro st ho hp
    unfold linkRun
    cases ha : linkAct op st with
    | error e => exact ih st (fun o h => ho o (by simp [h])) hp
    | ok st' => exact ih st' (fun o h => ho o (by simp [h])) (h op st st' (ho op (by simp)) hp ha)

/-- What a successful action does. -/
theorem linkAct_cases {op : LinkOp} {st st' : LinkerState} (h : linkAct op st = .ok st') :
    (st' = st) ∨
    (∃ (i : Nat) (m : LinkMap) (id : Nat), op = .select i ((id : Int) + 1) ∧ st.maps[i]? = some m ∧ id < m.numGrains ∧
      st' = { st with maps := st.maps.set i { m with sel := some id } }) ∨
    (∃ l, op = .link ∧ st.maps.map LinkMap.sel = l.map some ∧ l ∉ st.links ∧
      st' = { st with links := st.links ++ [l] }) ∨
    (op = .reset ∧ st' = resetLinks st) ∨ (∃ i n, op = .refind i n ∧ st' = refind i n st) := by
  cases op with
  | select i label =>
    unfold linkAct selectIn at h
    simp only at h
    cases hm : st.maps[i]? with
    | none => rw [hm] at h; exact absurd h (by simp)
    | some m =>
      rw [hm] at h
      simp only at h
      unfold clickGrain at h
      simp only at h
      split at h
      · left
        simp only [Except.bind, Except.ok.injEq] at h
        rw [← h]
        have : st.maps.set i m = st.maps := by
          obtain ⟨hi, he⟩ := List.getElem?_eq_some_iff.mp hm
          rw [← he, List.set_getElem_self]
        rw [this]
      · split at h
        · next h0 h1 =>
          right; left
          simp only [Except.bind, Except.ok.injEq] at h
          refine ⟨i, m, (label - 1).toNat, ?_, hm, by omega, h.symm⟩
          congr 1
          omega
        · exact absurd h (by simp [Except.bind])
  | guess onMap =>
    unfold linkAct clickGuess at h
    cases onMap with
    | true => exact absurd h (by simp)
    | false => left; simp at h; exact h.symm
  | link =>
    unfold linkAct makeLink at h
    simp only at h
    cases hs : selected st.maps with
    | error e => rw [hs] at h; exact absurd h (by simp [Except.bind])
    | ok l =>
      rw [hs] at h
      simp only [Except.bind] at h
      split at h
      · left; injection h with h; exact h.symm
      · next hn =>
        right; right; left
        injection h with h
        exact ⟨l, rfl, (selected_spec _ _).mp hs, hn, h.symm⟩
  | reset =>
    right; right; right; left
    unfold linkAct at h
    injection h with h
    exact ⟨rfl, h.symm⟩
  | refind i n =>
    right; right; right; right
    unfold linkAct at h
    injection h with h
    exact ⟨i, n, rfl, h.symm⟩

/-- **C76**: after any sequence of selecting, linking, resetting and finding grains again the links
are pairwise different and each has one entry for every map. -/
theorem C76_links (sizes : List Nat) (ops : List LinkOp) :
    (linkRun ops (newLinker sizes)).links.Nodup ∧
    ∀ link ∈ (linkRun ops (newLinker sizes)).links, link.length = sizes.length := by
  let P : LinkerState → Prop := fun st => st.links.Nodup ∧ st.maps.length = sizes.length ∧
    ∀ link ∈ st.links, link.length = sizes.length
  have hP : P (linkRun ops (newLinker sizes)) := by
    refine linkRun_inv (fun _ => True) ?_ ops _ (fun _ _ => trivial) ⟨by simp [newLinker],
      by simp [newLinker], by simp [newLinker]⟩
    rintro op st st' - ⟨h1, h2, h3⟩ ha
    rcases linkAct_cases ha with rfl | ⟨i, m, id, _, _, _, rfl⟩ | ⟨l, _, hl, hn, rfl⟩ | ⟨_, rfl⟩ |
      ⟨i, n, _, rfl⟩
    · exact ⟨h1, h2, h3⟩
    · exact ⟨h1, by simpa using h2, h3⟩
    · have hlen : l.length = sizes.length := by
        have := congrArg List.length hl
        simp at this
        omega
      refine ⟨?_, h2, ?_⟩
      · exact List.nodup_append.mpr ⟨h1, by simp, by
          intro a ha b hb
          rw [List.mem_singleton.mp hb]
          intro e
          exact hn (e ▸ ha)⟩
      · intro link hk
        rcases List.mem_append.mp hk with hk | hk
        · exact h3 link hk
        · rw [List.mem_singleton.mp hk]; exact hlen
    · exact ⟨List.nodup_nil, h2, by simp [resetLinks]⟩
    · exact ⟨h1, by simpa [refind] using h2, h3⟩
  exact ⟨hP.1, hP.2.2⟩

/-- **C76**: as long as grains are not found again, every entry of a link is a grain of its map. -/
theorem C76_grains (sizes : List Nat) (ops : List LinkOp)
    (hops : ∀ op ∈ ops, ∀ i n, op ≠ .refind i n) :
    ∀ link ∈ (linkRun ops (newLinker sizes)).links, ∀ (i g : Nat), link[i]? = some g →
      ∃ n, sizes[i]? = some n ∧ g < n := by
  let P : LinkerState → Prop := fun st => st.maps.map LinkMap.numGrains = sizes ∧
    (∀ m ∈ st.maps, ∀ g, m.sel = some g → g < m.numGrains) ∧
    ∀ link ∈ st.links, ∀ (i g : Nat), link[i]? = some g → ∃ n, sizes[i]? = some n ∧ g < n
  have hP : P (linkRun ops (newLinker sizes)) := by
    refine linkRun_inv (fun op => ∀ i n, op ≠ .refind i n) ?_ ops _ hops ⟨?_, ?_,
      by simp [newLinker]⟩
    · rintro op st st' hop ⟨h1, h2, h3⟩ ha
      rcases linkAct_cases ha with rfl | ⟨i, m, id, _, hm, hlt, rfl⟩ | ⟨l, _, hl, hn, rfl⟩ |
        ⟨_, rfl⟩ | ⟨i, n, e, rfl⟩
      · exact ⟨h1, h2, h3⟩
      · refine ⟨?_, ?_, h3⟩
        · rw [← h1]
          simp only [List.map_set]
          obtain ⟨hi, he⟩ := List.getElem?_eq_some_iff.mp hm
          apply List.ext_getElem?
          intro j
          rw [List.getElem?_set]
          by_cases hj : i = j
          · subst hj
            rw [if_pos rfl, if_pos (by simpa using hi), List.getElem?_map, hm]
            rfl
          · rw [if_neg hj]
        · intro x hx g hg
          rcases List.mem_or_eq_of_mem_set hx with hx | rfl
          · exact h2 x hx g hg
          · simp only [Option.some.injEq] at hg
            rw [← hg]
            exact hlt
      · refine ⟨h1, h2, ?_⟩
        intro link hk i g hg
        rcases List.mem_append.mp hk with hk | hk
        · exact h3 link hk i g hg
        · rw [List.mem_singleton.mp hk] at hg
          have : (st.maps.map LinkMap.sel)[i]? = some (some g) := by
            rw [hl, List.getElem?_map, hg]; rfl
          rw [List.getElem?_map, Option.map_eq_some_iff] at this
          obtain ⟨m, hm, hs⟩ := this
          refine ⟨m.numGrains, ?_, h2 m (List.mem_of_getElem? hm) g hs⟩
          rw [← h1, List.getElem?_map, hm]
          rfl
      · exact ⟨h1, h2, by simp [resetLinks]⟩
      · exact absurd e (hop i n)
    · simp [newLinker, Function.comp_def]
    · intro m hm g hg
      simp only [newLinker, List.mem_map] at hm
      obtain ⟨n, _, rfl⟩ := hm
      exact absurd hg (by simp)
  exact hP.2.2

/-- **C76**: finding grains again leaves links, and the selection, to grains that do not exist: the
third grain of a map that has one. -/
theorem C76_refound :
    let st := linkRun [.select 0 3, .select 1 1, .link, .refind 0 1, .select 1 2, .link]
      (newLinker [3, 2])
    st.links = [[2, 0], [2, 1]] ∧ st.maps.map LinkMap.numGrains = [1, 2] := by
  decide +kernel

/-- **C76**: the tool itself cannot select: with nothing but clicks on its plots and its button no
link is ever made. -/
theorem C76_tool (sizes : List Nat) (hs : sizes ≠ []) (ops : List LinkOp)
    (hops : ∀ op ∈ ops, (∃ b, op = .guess b) ∨ op = .link ∨ op = .reset) :
    (linkRun ops (newLinker sizes)).links = [] := by
  let P : LinkerState → Prop := fun st => st.maps = (newLinker sizes).maps ∧ st.links = []
  have hP : P (linkRun ops (newLinker sizes)) := by
    refine linkRun_inv (fun op => (∃ b, op = .guess b) ∨ op = .link ∨ op = .reset) ?_ ops _ hops
      ⟨rfl, rfl⟩
    rintro op st st' hop ⟨h1, h2⟩ ha
    rcases linkAct_cases ha with rfl | ⟨i, m, id, e, _⟩ | ⟨l, _, hl, hn, rfl⟩ | ⟨_, rfl⟩ | ⟨i, n, e, _⟩
    · exact ⟨h1, h2⟩
    · rcases hop with ⟨b, e'⟩ | e' | e' <;> rw [e'] at e <;> exact absurd e (by simp)
    · exfalso
      rw [h1] at hl
      cases sizes with
      | nil => exact hs rfl
      | cons n t =>
        cases l with
        | nil => simp [newLinker] at hl
        | cons a l => simp [newLinker] at hl
    · exact ⟨h1, rfl⟩
    · rcases hop with ⟨b, e'⟩ | e' | e' <;> rw [e'] at e <;> exact absurd e (by simp)
  exact hP.2

/-! ### Reference orientations -/

/-- What map `i` has after the links: the orientation of the first map's grain of the last link that
names the grain, or its own. -/
def Spec.RefFrom {α : Type} (i : Nat) (links : List (List Nat)) (master old new : List α) : Prop :=
  new.length = old.length ∧ ∀ g : Nat,
    ((∀ k ∈ links, k[i]? ≠ some g) ∧ new[g]? = old[g]?) ∨
    (∃ pre link post g0, links = pre ++ link :: post ∧ link[i]? = some g ∧ link[0]? = some g0 ∧
      (∀ k ∈ post, k[i]? ≠ some g) ∧ new[g]? = master[g0]?)

theorem setRefs_spec {α : Type} {i : Nat} (hi : i ≠ 0) (links : List (List Nat)) (ref : RefOris α)
    (master old : List α) (hm : ref[0]? = some master) (ho : ref[i]? = some old)
    (hl : ∀ link ∈ links, (∃ g, link[i]? = some g ∧ g < old.length) ∧
      ∃ g, link[0]? = some g ∧ g < master.length) :
    ∃ new, setRefs i links ref = .ok (ref.set i new) ∧ Spec.RefFrom i links master old new := by
  induction links using List.reverseRecOn with
  | nil =>
    refine ⟨old, ?_, rfl, fun g => Or.inl ⟨by simp, rfl⟩⟩
    unfold setRefs
    obtain ⟨h1, h2⟩ := List.getElem?_eq_some_iff.mp ho
    rw [List.foldlM_nil, ← h2, List.set_getElem_self]
    rfl
  | append_singleton links link ih =>
    obtain ⟨new, hnew, hlen, hspec⟩ := ih fun k hk => hl k (by simp [hk])
    obtain ⟨⟨g, hg, hgl⟩, ⟨g0, hg0, hg0l⟩⟩ := hl link (by simp)
    have hil : i < ref.length := (List.getElem?_eq_some_iff.mp ho).1
    have hq : master[g0]? = some master[g0] := List.getElem?_eq_getElem hg0l
    refine ⟨new.set g master[g0], ?_, by simpa using hlen, ?_⟩
    · unfold setRefs at hnew ⊢
      rw [List.foldlM_append, hnew]
      show (List.foldlM (setRef i) (ref.set i new) [link]) = _
      rw [List.foldlM_cons]
      have : setRef i (ref.set i new) link = .ok (ref.set i (new.set g master[g0])) := by
        unfold setRef
        simp only [hg, hg0]
        rw [List.getElem?_set_self hil, List.getElem?_set_ne hi, hm]
        simp only [Option.bind_some, hq]
        rw [if_pos (by omega), List.set_set]
      rw [this]
      rfl
    · intro g'
      by_cases hgg : g' = g
      · right
        subst hgg
        refine ⟨links, link, [], g0, rfl, hg, hg0, by simp, ?_⟩
        rw [List.getElem?_set_self (by omega), hq]
      · rw [List.getElem?_set_ne (fun e => hgg e.symm)]
        have hne : link[i]? ≠ some g' := by
          rw [hg]
          intro e
          injection e with e
          exact hgg e.symm
        rcases hspec g' with ⟨h1, h2⟩ | ⟨pre, k, post, k0, e, h1, h2, h3, h4⟩
        · left
          refine ⟨?_, h2⟩
          intro k hk
          rcases List.mem_append.mp hk with hk | hk
          · exact h1 k hk
          · rw [List.mem_singleton.mp hk]; exact hne
        · right
          refine ⟨pre, k, post ++ [link], k0, by rw [e]; simp, h1, h2, ?_, h4⟩
          intro x hx
          rcases List.mem_append.mp hx with hx | hx
          · exact h3 x hx
          · rw [List.mem_singleton.mp hx]; exact hne

/-- **C76**: setting reference orientations from the first map: its own stay, and each grain of
another map gets that of the grain linked to it last, or keeps its own if it is in no link. -/
theorem C76_reference {α : Type} (links : List (List Nat)) (ref : RefOris α) (master : List α)
    (hm : ref[0]? = some master)
    (hl : ∀ link ∈ links, ∀ (i : Nat) (l : List α), ref[i]? = some l →
      ∃ g, link[i]? = some g ∧ g < l.length) :
    ∃ ref', setRefOriFromMaster links ref = .ok ref' ∧ ref'.length = ref.length ∧
      ref'[0]? = some master ∧ ∀ (i : Nat) (old : List α), 0 < i → ref[i]? = some old →
        ∃ new, ref'[i]? = some new ∧ Spec.RefFrom i links master old new := by
  have key : ∀ n, n + 1 ≤ ref.length → ∃ ref',
      (List.range' 1 n).foldlM (fun r i => setRefs i links r) ref = .ok ref' ∧
      ref'.length = ref.length ∧ ref'[0]? = some master ∧
      (∀ (i : Nat), n < i → ref'[i]? = ref[i]?) ∧
      ∀ (i : Nat) (old : List α), 0 < i → i ≤ n → ref[i]? = some old →
        ∃ new, ref'[i]? = some new ∧ Spec.RefFrom i links master old new := by
    intro n
    induction n with
    | zero =>
      intro _
      exact ⟨ref, rfl, rfl, hm, fun _ _ => rfl, fun i old h0 h1 => by omega⟩
    | succ n ih =>
      intro hn
      obtain ⟨r, h1, h2, h3, h4, h5⟩ := ih (by omega)
      obtain ⟨old, hold⟩ : ∃ old, ref[n + 1]? = some old :=
        ⟨ref[n + 1], List.getElem?_eq_getElem (by omega)⟩
      have ho : r[n + 1]? = some old := by rw [h4 _ (by omega), hold]
      obtain ⟨new, hs, hspec⟩ := setRefs_spec (i := n + 1) (by omega) links r master old h3 ho
        fun link hk => ⟨hl link hk _ _ hold, hl link hk 0 master hm⟩
      refine ⟨r.set (n + 1) new, ?_, by simpa using h2, ?_, ?_, ?_⟩
      · rw [List.range'_1_concat, List.foldlM_append, h1]
        show (List.foldlM (fun r i => setRefs i links r) r [1 + n]) = _
        rw [List.foldlM_cons, Nat.add_comm 1 n, hs]
        rfl
      · rw [List.getElem?_set_ne (by omega), h3]
      · intro i hi
        rw [List.getElem?_set_ne (by omega), h4 i (by omega)]
      · intro i o hi0 hi1 hio
        by_cases hin : i = n + 1
        · subst hin
          rw [hold] at hio
          injection hio with hio
          subst hio
          refine ⟨new, ?_, hspec⟩
          rw [List.getElem?_set_self (by omega)]
        · rw [List.getElem?_set_ne (fun e => hin e.symm)]
          exact h5 i o hi0 (by omega) hio
  have hpos : 0 < ref.length := (List.getElem?_eq_some_iff.mp hm).1
  obtain ⟨r, h1, h2, h3, h4, h5⟩ := key (ref.length - 1) (by omega)
  refine ⟨r, h1, h2, h3, ?_⟩
  intro i old hi hio
  have := (List.getElem?_eq_some_iff.mp hio).1
  exact h5 i old hi (by omega) hio

/-! ### Non-vacuity -/

/-- Two maps; the second's only grain is linked twice: the last link wins. -/
example : setRefOriFromMaster [[0, 0], [2, 0]] [[10, 11, 12], [20]] =
    .ok [[10, 11, 12], [12]] := by decide +kernel

example : (linkRun [.select 0 3, .select 1 1, .link, .link, .select 1 2, .link]
    (newLinker [3, 2])).links = [[2, 0], [2, 1]] := by decide +kernel

end DefDAP
