import Verif.Props.Datastore

/-! C24, C25: generators. -/

namespace DefDAP

section
variable {D W : Type}

/-- The state results from some history of operations on stores that were empty at first. -/
def Reachable (env : Env D W) (st : DState D W) : Prop :=
  ∃ (n : Nat) (ops : List (DOp D W)) (st0 : DState D W),
    (∀ s, (st0.net s).items = [] ∧ (st0.net s).gens = []) ∧ st = (runOps env n ops st0).2

/-- Generator registrations are sound: their keys are in the store, without repetition, and
no key belongs to two registrations. -/
def GensOk (st : DState D W) : Prop := ∀ s,
  (∀ e ∈ (st.net s).gens, e.1.Nodup ∧ ∀ k ∈ e.1, k ∈ dkeys (st.net s).items) ∧
  (∀ e ∈ (st.net s).gens, ∀ e' ∈ (st.net s).gens, ∀ k, k ∈ e.1 → k ∈ e'.1 → e = e')

theorem gensOk_of_items {st st' : DState D W} (hg : ∀ s, (st'.net s).gens = (st.net s).gens)
    (hi : ∀ s, dkeys (st.net s).items ⊆ dkeys (st'.net s).items) (h : GensOk st) : GensOk st' := by
  intro s
  rw [hg s]
  exact ⟨fun e he => ⟨((h s).1 e he).1, fun k hk => hi s (((h s).1 e he).2 k hk)⟩, (h s).2⟩

theorem putItem_sub (st : DState D W) (s : Nat) (key : String) (it : Item D) (s' : Nat) :
    dkeys (st.net s').items ⊆ dkeys ((putItem st s key it).net s').items := by
  rw [putItem_dkeys]
  split
  · exact List.subset_append_left _ _
  · exact List.Subset.refl _

theorem gensInv (env : Env D W) :
    Inv env GensOk (fun _ _ => True) (fun _ _ _ => True) where
  been := fun _ _ h => h
  world := fun _ _ h => h
  deriv := fun st s d h => gensOk_of_items (fun s' => addDeriv_gens st s d s')
    (fun s' => by rw [addDeriv_items]; exact List.Subset.refl _) h
  put := fun st s key it v _ _ h => gensOk_of_items (fun s' => putItem_gens st s key _ s')
    (fun s' => putItem_sub st s key _ s') h
  call := fun _ _ _ _ _ _ _ => trivial
  gen := fun _ _ _ _ _ hI _ _ => ⟨fun _ _ => trivial, fun _ => writes_true _, hI⟩
  fn := fun _ _ => writes_true _
  crop := fun _ _ _ => writes_true _
  mask := fun _ _ => writes_true _

theorem mem_dset {κ α : Type} [DecidableEq κ] {l : List (κ × α)} {k : κ} {v : α} {e : κ × α}
    (h : e ∈ dset l k v) : (e ∈ l) ∨ e = (k, v) := by
  induction l with
  | nil => simp only [dset, List.mem_singleton] at h; exact .inr h
  | cons a t ih =>
    simp only [dset] at h
    split at h
    · rename_i hk
      rcases List.mem_cons.1 h with rfl | h
      · right; rw [hk]
      · exact .inl (List.mem_cons_of_mem _ h)
    · rcases List.mem_cons.1 h with rfl | h
      · exact .inl List.mem_cons_self
      · rcases ih h with h | h
        · exact .inl (List.mem_cons_of_mem _ h)
        · exact .inr h

theorem dupdate_sub {κ α : Type} [DecidableEq κ] (e : List (κ × α)) :
    ∀ d : List (κ × α), dkeys d ⊆ dkeys (dupdate d e) := by
  induction e with
  | nil => intro d; exact List.Subset.refl _
  | cons a t ih =>
    intro d
    refine List.Subset.trans ?_ (ih (dset d a.1 a.2))
    rw [dkeys_dset]
    split
    · exact List.Subset.refl _
    · exact List.subset_append_left _ _

theorem step_gensOk (env : Env D W) (n : Nat) (op : DOp D W) (st : DState D W) (h : GensOk st) :
    GensOk (stepF env n op st).2 := by
  have hinv := gensInv env
  cases op with
  | add s key v kw =>
    rcases addF_cases n s key v kw st with ⟨e, b, h'⟩ | ⟨b, -, -, h'⟩
    · have : (stepF env n (DOp.add s key v kw) st).2 = { st with been := b } := by
        show (addF n s key v kw st).2 = _; rw [h']
      rw [this]; exact h
    · have : (stepF env n (DOp.add s key v kw) st).2 = _ := congrArg Prod.snd h'
      rw [this]
      exact gensOk_of_items (st := st) (fun s' => putItem_gens _ s key _ s')
        (fun s' => putItem_sub { st with been := b } s key _ s') h
  | addGen s ks g ms kw =>
    obtain ⟨h1, h2, -, h4, -, h6⟩ := addGenLoop_spec (W := W) (D := D) n s ms kw ks 0 st
    have hsub : ∀ s', dkeys (st.net s').items
        ⊆ dkeys ((addGenLoop n s ms kw ks 0 st).2.net s').items := by
      intro s' k hk
      obtain ⟨it, hit⟩ := Option.isSome_iff_exists.1 ((dget_isSome _ _).2 hk)
      exact mem_dkeys_of_dget (h2 s' k it hit)
    rcases addGen_cases n s ks g ms kw st with ⟨e, -, h'⟩ | ⟨hL, h'⟩
    · have : (stepF env n (DOp.addGen s ks g ms kw) st).2 = (addGenLoop n s ms kw ks 0 st).2 := by
        show (addGenF n s ks g ms kw st).2 = _; rw [h']
      rw [this]
      exact gensOk_of_items (fun s' => (h1 s').1) hsub h
    · have : (stepF env n (DOp.addGen s ks g ms kw) st).2 = _ := congrArg Prod.snd h'
      rw [this]
      intro s'
      by_cases hs : s' = s
      · subst hs
        rw [modStore_net_self]
        obtain ⟨h7, h8, h9⟩ := h6 hL
        simp only [(h1 s').1, h7]
        constructor
        · intro e he
          rcases mem_dset he with he | rfl
          · exact ⟨((h s').1 e he).1, fun k hk => List.mem_append_left _ (((h s').1 e he).2 k hk)⟩
          · exact ⟨h9, fun k hk => List.mem_append_right _ hk⟩
        · intro e he e' he' k hk hk'
          rcases mem_dset he with he | rfl <;> rcases mem_dset he' with he' | rfl
          · exact (h s').2 e he e' he' k hk hk'
          · exact absurd (((h s').1 e he).2 k hk) (h8 k hk')
          · exact absurd (((h s').1 e' he').2 k hk') (h8 k hk)
          · rfl
      · rw [modStore_net_ne _ _ hs]
        exact gensOk_of_items (fun s' => (h1 s').1) hsub h s'
  | addDeriv s d => exact hinv.deriv st s d h
  | setData s key v => exact hinv.keeps_setData n s key v trivial st h
  | setMeta s key attr m =>
    rcases setMetaF_cases n s key attr m st with ⟨e, b, h'⟩ | ⟨b, it, -, h'⟩
    · have : (stepF env n (DOp.setMeta s key attr m) st).2 = { st with been := b } := by
        show (setMetaF n s key attr m st).2 = _; rw [h']
      rw [this]; exact h
    · have : (stepF env n (DOp.setMeta s key attr m) st).2 = _ := congrArg Prod.snd h'
      rw [this]
      exact gensOk_of_items (st := st) (fun s' => putItem_gens _ s key _ s')
        (fun s' => putItem_sub { st with been := b } s key _ s') h
  | update s items =>
    refine gensOk_of_items (fun s' => update_gens s items st s') (fun s' => ?_) h
    show _ ⊆ dkeys ((updateF s items st).2.net s').items
    rw [update_items]
    split
    · exact dupdate_sub _ _
    · exact List.Subset.refl _
  | read s key =>
    have h2 : (stepF env n (DOp.read s key) st).2 = (getDataF env n s key st).2 := void_snd _ _
    rw [h2]; exact (hinv.keeps_all n).1 s key st h
  | generate s key kw =>
    have h2 : (stepF env n (DOp.generate s key kw) st).2 = (generateF env n s key kw st).2 :=
      void_snd _ _
    rw [h2]; exact (hinv.keeps_all n).2.2.1 s key kw st trivial h
  | getMeta s key attr dflt =>
    have h2 : (stepF env n (DOp.getMeta s key attr dflt) st).2
      = (DM.lift (fun net => metaF net n s key attr dflt) st).2 := void_snd _ _
    rw [h2]; exact h
  | list s =>
    have h2 : (stepF env n (DOp.list s) st).2
      = (DM.lift (fun net => keysF net n s) st).2 := void_snd _ _
    rw [h2]; exact h
  | setWorld w => exact h

theorem runOps_gensOk (env : Env D W) (n : Nat) : ∀ (ops : List (DOp D W)) (st : DState D W),
    GensOk st → GensOk (runOps env n ops st).2 := by
  intro ops
  induction ops with
  | nil => intro st h; exact h
  | cons op t ih => intro st h; exact ih _ (step_gensOk env n op st h)

theorem Reachable.gensOk {env : Env D W} {st : DState D W} (h : Reachable env st) :
    GensOk st := by
  obtain ⟨n, ops, st0, h0, rfl⟩ := h
  apply runOps_gensOk
  intro s
  rw [(h0 s).2]
  simp

theorem runOps_append (env : Env D W) (n : Nat) (b : List (DOp D W)) :
    ∀ (a : List (DOp D W)) (st : DState D W),
      (runOps env n (a ++ b) st).2 = (runOps env n b (runOps env n a st).2).2 := by
  intro a
  induction a with
  | nil => intro st; rfl
  | cons op t ih => intro st; exact ih (stepF env n op st).2

/-- The `save` metadata of an item (default true), as seen by a user. -/
def Saved (st : DState D W) (s : Nat) (k : String) : Prop :=
  (((dget (st.net s).items k).bind fun it => dget it.props "save").getD (.bool true)).truthy = true

theorem metaF_stored {net : Nat → Store D} {n s : Nat} {k a : String} {dflt : MVal} {it : Item D}
    (b : Option (List Nat)) (h : dget (net s).items k = some it) :
    metaF net (n + 1) s k a dflt b = (.ok ((dget it.props a).getD dflt), b) := by
  simp only [metaF, h, GM.pure]

/-- What the storing loop does. -/
theorem storeLoop_spec (n s : Nat) (key : String) : ∀ (l : List (String × Option D))
    (acc r : Option (Option D)) (st st' : DState D W),
    (l.map (·.1)).Nodup → (∀ p ∈ l, p.1 ∈ dkeys (st.net s).items) →
    storeLoop n s key l acc st = (.ok r, st') →
    (∀ p ∈ l, Saved st s p.1 → (dget (st'.net s).items p.1).map (·.data) = some p.2) ∧
    (∀ s' k, ¬ (s' = s ∧ k ∈ l.map (·.1) ∧ Saved st s k) →
      dget (st'.net s').items k = dget (st.net s').items k) ∧
    (∀ s' k, (dget (st'.net s').items k).map (·.props) = (dget (st.net s').items k).map (·.props)) ∧
    (∀ v, (key, v) ∈ l → r = some v) ∧ (key ∉ l.map (·.1) → r = acc) := by
  intro l
  induction l with
  | nil =>
    intro acc r st st' _ _ h
    simp only [storeLoop, DM.pure, Prod.mk.injEq, Except.ok.injEq] at h
    obtain ⟨rfl, rfl⟩ := h
    simp
  | cons p t ih =>
    obtain ⟨k, v⟩ := p
    intro acc r st st' hnd hin h
    obtain ⟨hkt, hnd'⟩ := List.nodup_cons.1 hnd
    obtain ⟨it, hit⟩ := Option.isSome_iff_exists.1 ((dget_isSome _ _).2 (hin (k, v) List.mem_cons_self))
    simp only at hit hkt
    simp only [storeLoop] at h
    cases n with
    | zero => simp [DM.bind, DM.lift, metaF, GM.throw] at h
    | succ n =>
      rw [bind_ok (lift_eq (f := fun net => metaF net (n + 1) s k "save" (.bool true))
        (metaF_stored st.been hit))] at h
      have hsv : Saved st s k ↔ ((dget it.props "save").getD (.bool true)).truthy = true := by
        unfold Saved; rw [hit]; rfl
      -- the state after this key
      obtain ⟨st1, hst1, hd1, hf1, hp1⟩ : ∃ st1 : DState D W,
          storeLoop (n + 1) s key t (if k = key then some v else acc) st1 = (.ok r, st') ∧
          (Saved st s k → (dget (st1.net s).items k).map (·.data) = some v) ∧
          (∀ s' k', ¬ (s' = s ∧ k' = k ∧ Saved st s k) →
            dget (st1.net s').items k' = dget (st.net s').items k') ∧
          (∀ s' k', (dget (st1.net s').items k').map (·.props)
            = (dget (st.net s').items k').map (·.props)) := by
        by_cases hs : ((dget it.props "save").getD (.bool true)).truthy = true
        · rw [if_pos hs] at h
          rcases setDataF_cases (n + 1) s k v { st with been := st.been } with ⟨e, b, h'⟩ | ⟨b, it', hit', h'⟩
          · rw [bind_err h'] at h; simp at h
          · rw [bind_ok h'] at h
            have hit'' : dget (st.net s).items k = some it' := hit'
            rw [hit] at hit''; obtain rfl := Option.some.inj hit''
            refine ⟨_, h, fun _ => ?_, fun s' k' hne => ?_, fun s' k' => ?_⟩
            · rw [putItem_dget, if_pos ⟨rfl, rfl⟩]; rfl
            · rw [putItem_dget, if_neg]
              rintro ⟨rfl, rfl⟩
              exact hne ⟨rfl, rfl, hsv.2 hs⟩
            · rw [putItem_dget]
              split
              · rename_i hh; obtain ⟨rfl, rfl⟩ := hh; rw [hit]; rfl
              · rfl
        · rw [if_neg hs] at h
          rw [bind_ok (x := DM.pure ()) (a := ()) rfl] at h
          exact ⟨_, h, fun hh => absurd (hsv.1 hh) hs, fun _ _ _ => rfl, fun _ _ => rfl⟩
      have hsaved : ∀ k', Saved st1 s k' ↔ Saved st s k' := by
        intro k'
        have := hp1 s k'
        unfold Saved
        cases h1 : dget (st1.net s).items k' <;> cases h2 : dget (st.net s).items k' <;>
          rw [h1, h2] at this <;> simp at this ⊢
        rw [this]
      have hkeys : ∀ k', k' ∈ dkeys (st.net s).items → k' ∈ dkeys (st1.net s).items := by
        intro k' hk'
        have := hp1 s k'
        obtain ⟨it2, hit2⟩ := Option.isSome_iff_exists.1 ((dget_isSome _ _).2 hk')
        rw [hit2] at this
        cases h1 : dget (st1.net s).items k' with
        | none => rw [h1] at this; simp at this
        | some x => exact mem_dkeys_of_dget h1
      obtain ⟨i1, i2, i3, i4, i5⟩ := ih _ r st1 st' hnd'
        (fun p hp => hkeys _ (hin p (List.mem_cons_of_mem _ hp))) hst1
      refine ⟨fun p hp hsp => ?_, fun s' k' hne => ?_, fun s' k' => ?_, fun v' hv' => ?_, fun hne => ?_⟩
      · rcases List.mem_cons.1 hp with rfl | hp
        · rw [i2 s k (fun hh => hkt hh.2.1)]
          exact hd1 hsp
        · exact i1 p hp ((hsaved _).2 hsp)
      · rw [i2 s' k', hf1 s' k']
        · rintro ⟨rfl, rfl, hh⟩; exact hne ⟨rfl, List.mem_cons_self, hh⟩
        · rintro ⟨rfl, hh, hh'⟩
          exact hne ⟨rfl, List.mem_cons_of_mem _ hh, (hsaved _).1 hh'⟩
      · rw [i3, hp1]
      · rcases List.mem_cons.1 hv' with hv' | hv'
        · simp only [Prod.mk.injEq] at hv'
          obtain ⟨rfl, rfl⟩ := hv'
          rw [i5 hkt, if_pos rfl]
        · exact i4 v' hv'
      · simp only [List.map_cons, List.mem_cons, not_or] at hne
        rw [i5 hne.2, if_neg (fun hh => hne.1 hh.symm)]

/-- The values a generator result stands for, one per key: the value itself for a single
key, its elements for several. -/
def outputs (env : Env D W) (keys : List String) (r : Option D) : Option (List (Option D)) :=
  if keys.length = 1 then some [r] else r.bind env.iter

theorem storeResult_spec (env : Env D W) (n s : Nat) (key : String) (keys : List String)
    (r v : Option D) (st st' : DState D W) (hkey : key ∈ keys) (hnd : keys.Nodup)
    (hin : ∀ k ∈ keys, k ∈ dkeys (st.net s).items)
    (h : storeResult env n s key keys r st = (.ok v, st')) :
    ∃ outs, outputs env keys r = some outs ∧ outs.length = keys.length ∧
      (∀ (i : Nat) (k : String) (o : Option D), keys[i]? = some k → outs[i]? = some o →
        (Saved st s k → (dget (st'.net s).items k).map (·.data) = some o) ∧
        (k = key → v = o)) ∧
      (∀ s' k, ¬ (s' = s ∧ k ∈ keys ∧ Saved st s k) →
        dget (st'.net s').items k = dget (st.net s').items k) := by
  unfold storeResult at h
  by_cases h1 : keys.length = 1
  · rw [if_pos h1] at h
    obtain ⟨k0, rfl⟩ := List.length_eq_one_iff.1 h1
    obtain rfl := List.mem_singleton.1 hkey
    obtain ⟨it, hit⟩ := Option.isSome_iff_exists.1 ((dget_isSome _ _).2 (hin key List.mem_cons_self))
    cases n with
    | zero => simp [DM.bind, DM.lift, metaF, GM.throw] at h
    | succ n =>
      rw [bind_ok (lift_eq (f := fun net => metaF net (n + 1) s key "save" (.bool true))
        (metaF_stored st.been hit))] at h
      have hsv : Saved st s key ↔ ((dget it.props "save").getD (.bool true)).truthy = true := by
        unfold Saved; rw [hit]; rfl
      refine ⟨[r], by simp [outputs], by simp, ?_⟩
      by_cases hs : ((dget it.props "save").getD (.bool true)).truthy = true
      · rw [if_pos hs] at h
        rcases setDataF_cases (n + 1) s key r { st with been := st.been } with
          ⟨e, b, h'⟩ | ⟨b, it', hit', h'⟩
        · rw [bind_err h'] at h; simp at h
        · rw [bind_ok h'] at h
          simp only [DM.pure, Prod.mk.injEq, Except.ok.injEq] at h
          obtain ⟨rfl, rfl⟩ := h
          constructor
          · intro i k o hk ho
            cases i with
            | zero =>
              simp only [List.getElem?_cons_zero, Option.some.injEq] at hk ho
              subst hk; subst ho
              refine ⟨fun _ => ?_, fun _ => rfl⟩
              rw [putItem_dget, if_pos ⟨rfl, rfl⟩]; rfl
            | succ i => simp at hk
          · intro s' k hne
            rw [putItem_dget, if_neg]
            rintro ⟨rfl, rfl⟩
            exact hne ⟨rfl, List.mem_cons_self, hsv.2 hs⟩
      · rw [if_neg hs] at h
        rw [bind_ok (x := DM.pure ()) (a := ()) rfl] at h
        simp only [DM.pure, Prod.mk.injEq, Except.ok.injEq] at h
        obtain ⟨rfl, rfl⟩ := h
        refine ⟨?_, fun _ _ _ => rfl⟩
        intro i k o hk ho
        cases i with
        | zero =>
          simp only [List.getElem?_cons_zero, Option.some.injEq] at hk ho
          subst hk; subst ho
          exact ⟨fun hh => absurd (hsv.1 hh) hs, fun _ => rfl⟩
        | succ i => simp at hk
  · rw [if_neg h1] at h
    cases hit : r.bind env.iter with
    | none => rw [hit] at h; simp [DM.throw] at h
    | some l =>
      rw [hit] at h
      simp only at h
      by_cases hl : keys.length = l.length
      · rw [if_pos hl] at h
        have hmap : (keys.zip l).map (·.1) = keys := by
          rw [List.map_fst_zip]; omega
        cases hs : storeLoop n s key (keys.zip l) none st with
        | mk r' st1 =>
          cases r' with
          | error e => rw [bind_err hs] at h; simp at h
          | ok rr =>
            rw [bind_ok hs] at h
            obtain ⟨i1, i2, -, i4, -⟩ := storeLoop_spec n s key (keys.zip l) none rr st st1
              (by rw [hmap]; exact hnd)
              (fun p hp => hin p.1 (List.of_mem_zip hp).1) hs
            have hrr : ∀ (i : Nat) (o : Option D), keys[i]? = some key → l[i]? = some o → rr = some o := by
              intro i o hk ho
              apply i4
              apply List.mem_of_getElem? (i := i)
              rw [List.getElem?_zip_eq_some]; exact ⟨hk, ho⟩
            obtain ⟨i, hi, hik⟩ := List.getElem_of_mem hkey
            have hil : i < l.length := by omega
            have hv := hrr i l[i] (by rw [List.getElem?_eq_getElem hi, hik])
              (List.getElem?_eq_getElem hil)
            subst hv
            simp only [DM.pure, Prod.mk.injEq, Except.ok.injEq] at h
            obtain ⟨rfl, rfl⟩ := h
            refine ⟨l, by simp [outputs, h1, hit], hl.symm, ?_, ?_⟩
            · intro j k o hk ho
              refine ⟨fun hsv => ?_, fun hkk => ?_⟩
              · refine i1 (k, o) ?_ hsv
                apply List.mem_of_getElem? (i := j)
                rw [List.getElem?_zip_eq_some]; exact ⟨hk, ho⟩
              · subst hkk
                exact Option.some.inj (hrr j o hk ho)
            · intro s' k hne
              apply i2
              rw [hmap]; exact hne
      · rw [if_neg hl] at h; simp [DM.throw] at h

theorem propsInv (env : Env D W) (P : Nat → String → Option (List (String × MVal))) :
    Inv env (fun st => ∀ s k, (dget (st.net s).items k).map (·.props) = P s k)
      (fun _ _ => True) (fun _ _ _ => True) where
  been := fun _ _ h => h
  world := fun _ _ h => h
  deriv := by
    intro st s d h s' k
    rw [addDeriv_items]; exact h s' k
  put := by
    intro st s key it v _ hd h s' k
    rw [putItem_dget]
    split
    · rename_i hh; obtain ⟨rfl, rfl⟩ := hh
      rw [← h, hd]; rfl
    · exact h s' k
  call := fun _ _ _ _ _ _ _ => trivial
  gen := fun _ _ _ _ _ hI _ _ => ⟨fun _ _ => trivial, fun _ => writes_true _, hI⟩
  fn := fun _ _ => writes_true _
  crop := fun _ _ _ => writes_true _
  mask := fun _ _ => writes_true _

/-- **C24 (generation stores every output).** In every reachable state: when generating
`key` succeeds, the generator registered for it was run to a result with one value per
key; the value for `key` is what generation returns; every output marked to be saved
(the default) is now stored; items that are no saved output are as the generator left them. -/
theorem C24_generate_stores (env : Env D W) (n s : Nat) (key : String)
    (kw : List (String × MVal)) (st st' : DState D W) (v : Option D) (hreach : Reachable env st)
    (h : generateF env (n + 1) s key kw st = (.ok v, st')) :
    ∃ keys gid r outs st1, (keys, gid) ∈ (st.net s).gens ∧ key ∈ keys ∧
      runF env n (env.gen gid kw) { st with log := st.log ++ [(s, keys)] } = (.ok r, st1) ∧
      outputs env keys r = some outs ∧ outs.length = keys.length ∧
      (∀ (i : Nat) (k : String) (o : Option D), keys[i]? = some k → outs[i]? = some o →
        (Saved st s k → (dget (st'.net s).items k).map (·.data) = some o) ∧
        (k = key → v = o)) ∧
      (∀ s' k, ¬ (s' = s ∧ k ∈ keys ∧ Saved st s k) →
        dget (st'.net s').items k = dget (st1.net s').items k) := by
  have hok := hreach.gensOk
  simp only [generateF] at h
  cases hf : (st.net s).gens.find? (fun g => decide (key ∈ g.1)) with
  | none => rw [hf] at h; simp at h
  | some g =>
    obtain ⟨keys, gid⟩ := g
    rw [hf] at h
    simp only at h
    have hmem := List.mem_of_find?_eq_some hf
    have hkey : key ∈ keys := by simpa using List.find?_some hf
    cases hr : runF env n (env.gen gid kw) { st with log := st.log ++ [(s, keys)] } with
    | mk r st1 =>
      cases r with
      | error e => rw [bind_err hr] at h; simp at h
      | ok r =>
        rw [bind_ok hr] at h
        have hp : ∀ s' k', (dget (st1.net s').items k').map (·.props)
            = (dget (st.net s').items k').map (·.props) := by
          have := ((propsInv env fun s' k' => (dget (st.net s').items k').map (·.props)).keeps_all
            n).2.2.2 (env.gen gid kw) (writes_true _)
            { st with log := st.log ++ [(s, keys)] } (fun _ _ => rfl)
          rw [hr] at this; exact this
        have hsv : ∀ k', Saved st1 s k' ↔ Saved st s k' := by
          intro k'
          have := hp s k'
          unfold Saved
          cases h1 : dget (st1.net s).items k' <;> cases h2 : dget (st.net s).items k' <;>
            rw [h1, h2] at this <;> simp at this ⊢
          rw [this]
        have hin : ∀ k ∈ keys, k ∈ dkeys (st1.net s).items := by
          intro k hk
          obtain ⟨it2, hit2⟩ := Option.isSome_iff_exists.1 ((dget_isSome _ _).2
            (((hok s).1 _ hmem).2 k hk))
          have := hp s k
          rw [hit2] at this
          cases h1 : dget (st1.net s).items k with
          | none => rw [h1] at this; simp at this
          | some x => exact mem_dkeys_of_dget h1
        obtain ⟨outs, h1, h2, h3, h4⟩ := storeResult_spec env n s key keys r v st1 st' hkey
          ((hok s).1 _ hmem).1 hin h
        refine ⟨keys, gid, r, outs, st1, hmem, hkey, hr, h1, h2, ?_, ?_⟩
        · intro i k o hk ho
          exact ⟨fun hs => (h3 i k o hk ho).1 ((hsv k).2 hs), (h3 i k o hk ho).2⟩
        · intro s' k hne
          apply h4
          rw [hsv]; exact hne

/-- The items of `keys` in store `s` hold data, namely `vals`. -/
def Holds (st : DState D W) (s : Nat) (keys : List String) (vals : String → D) : Prop :=
  ∀ k ∈ keys, ∃ it, dget (st.net s).items k = some it ∧ it.data = some (vals k)

/-- Operations that do not change items or registrations by themselves. -/
def DOp.Reading : DOp D W → Prop
  | .read _ _ => True
  | .getMeta _ _ _ _ => True
  | .list _ => True
  | .setWorld _ => True
  | .addDeriv _ _ => True
  | _ => False

theorem onceInv {env : Env D W} {s : Nat} {keys : List String} {gid : Nat} {vals : String → D}
    (gens0 : Nat → List (List String × Nat)) (c : Nat) (hmem : (keys, gid) ∈ gens0 s)
    (hdis : ∀ e ∈ gens0 s, ∀ k, k ∈ e.1 → k ∈ keys → e = (keys, gid))
    (hothers : ∀ s' e, e ∈ gens0 s' → ¬ (s' = s ∧ e = (keys, gid)) → ∀ kw,
      (env.gen e.2 kw).Writes fun s' k' => ¬ (s' = s ∧ k' ∈ keys))
    (hfn : ∀ f a, (env.fn f a).Writes fun s' k' => ¬ (s' = s ∧ k' ∈ keys))
    (hcrop : ∀ f v b, (env.crop f v b).Writes fun s' k' => ¬ (s' = s ∧ k' ∈ keys))
    (hmask : ∀ f v, (env.mask f v).Writes fun s' k' => ¬ (s' = s ∧ k' ∈ keys))
    (hne : keys ≠ []) :
    Inv env (fun st => (∀ s', (st.net s').gens = gens0 s') ∧ Holds st s keys vals ∧
        st.log.count (s, keys) = c)
      (fun s' k' => ¬ (s' = s ∧ k' ∈ keys)) (fun _ s' k' => ¬ (s' = s ∧ k' ∈ keys)) where
  been := fun _ _ h => h
  world := fun _ _ h => h
  deriv := by
    rintro st s' d ⟨h1, h2, h3⟩
    refine ⟨fun s'' => by rw [addDeriv_gens]; exact h1 s'', fun k hk => ?_, h3⟩
    rw [addDeriv_items]; exact h2 k hk
  put := by
    rintro st s' key it v hA _ ⟨h1, h2, h3⟩
    refine ⟨fun s'' => by rw [putItem_gens]; exact h1 s'', fun k hk => ?_, h3⟩
    rw [putItem_dget, if_neg]
    · exact h2 k hk
    · rintro ⟨rfl, rfl⟩; exact hA ⟨rfl, hk⟩
  call := by
    rintro st s' key it ⟨-, h2, -⟩ hd hnone ⟨rfl, hk⟩
    obtain ⟨it', hd', hv⟩ := h2 key hk
    rw [hd] at hd'; obtain rfl := Option.some.inj hd'
    rw [hnone] at hv; simp at hv
  gen := by
    rintro st s' key keys' gid' ⟨h1, h2, h3⟩ hC hf
    have hmem' := List.mem_of_find?_eq_some hf
    have hkey' : key ∈ keys' := by simpa using List.find?_some hf
    rw [h1] at hmem'
    have hdiff : ¬ (s' = s ∧ (keys', gid') = (keys, gid)) := by
      rintro ⟨rfl, he⟩
      simp only [Prod.mk.injEq] at he
      exact hC ⟨rfl, he.1 ▸ hkey'⟩
    refine ⟨?_, hothers s' _ hmem' hdiff, h1, h2, ?_⟩
    · rintro k hk ⟨rfl, hk'⟩
      exact hdiff ⟨rfl, hdis _ hmem' k hk hk'⟩
    · simp only [List.count_append, h3]
      have : (s', keys') ≠ (s, keys) := by
        intro he
        simp only [Prod.mk.injEq] at he
        obtain ⟨rfl, rfl⟩ := he
        exact hC ⟨rfl, hkey'⟩
      simp [this]
  fn := hfn
  crop := hcrop
  mask := hmask

/-- **C24 (generators run once).** In every reachable state in which all outputs of a
generator are stored, any further history of reads of any items, listings, metadata
queries, new derivatives and changes outside the stores (such as crops) never runs that
generator again and never changes these outputs, whatever else it generates; and reading
one of the outputs (if it is no map) returns the stored value. The only assumption on the
other callables is that they do not write these items directly. -/
theorem C24_once (env : Env D W) (n : Nat) (st : DState D W) (hreach : Reachable env st)
    (s : Nat) (keys : List String) (gid : Nat) (vals : String → D) (hne : keys ≠ [])
    (hmem : (keys, gid) ∈ (st.net s).gens) (hhold : Holds st s keys vals)
    (hothers : ∀ s' e, e ∈ (st.net s').gens → ¬ (s' = s ∧ e = (keys, gid)) → ∀ kw,
      (env.gen e.2 kw).Writes fun s' k' => ¬ (s' = s ∧ k' ∈ keys))
    (hfn : ∀ f a, (env.fn f a).Writes fun s' k' => ¬ (s' = s ∧ k' ∈ keys))
    (hcrop : ∀ f v b, (env.crop f v b).Writes fun s' k' => ¬ (s' = s ∧ k' ∈ keys))
    (hmask : ∀ f v, (env.mask f v).Writes fun s' k' => ¬ (s' = s ∧ k' ∈ keys))
    (ops : List (DOp D W)) (hops : ∀ op ∈ ops, op.Reading) :
    let st' := (runOps env n ops st).2
    st'.log.count (s, keys) = st.log.count (s, keys) ∧ Holds st' s keys vals ∧
    ∀ k ∈ keys, ∀ m, ((dget (st'.net s).items k).bind fun it => dget it.props "type")
        ≠ some (.str "map") → getDataF env (m + 1) s k st' = (.ok (some (vals k)), st') := by
  have hinv := onceInv (env := env) (vals := vals) (fun s' => (st.net s').gens)
    (st.log.count (s, keys)) hmem (fun e he k hk hk' =>
      (hreach.gensOk s).2 e he _ hmem k hk hk') hothers hfn hcrop hmask hne
  have key : ∀ (ops : List (DOp D W)) (st1 : DState D W), (∀ op ∈ ops, op.Reading) →
      ((∀ s', (st1.net s').gens = (st.net s').gens) ∧ Holds st1 s keys vals ∧
        st1.log.count (s, keys) = st.log.count (s, keys)) →
      ((∀ s', ((runOps env n ops st1).2.net s').gens = (st.net s').gens) ∧
        Holds (runOps env n ops st1).2 s keys vals ∧
        (runOps env n ops st1).2.log.count (s, keys) = st.log.count (s, keys)) := by
    intro ops
    induction ops with
    | nil => intro st1 _ h; exact h
    | cons op t ih =>
      intro st1 hops h
      refine ih (stepF env n op st1).2 (fun o ho => hops o (List.mem_cons_of_mem _ ho)) ?_
      have hop := hops op List.mem_cons_self
      cases op with
      | read s' key =>
        have h2 : (stepF env n (DOp.read s' key) st1).2 = (getDataF env n s' key st1).2 :=
          void_snd _ _
        rw [h2]; exact (hinv.keeps_all n).1 s' key st1 h
      | getMeta s' key attr dflt =>
        have h2 : (stepF env n (DOp.getMeta s' key attr dflt) st1).2
          = (DM.lift (fun net => metaF net n s' key attr dflt) st1).2 := void_snd _ _
        rw [h2]; exact h
      | list s' =>
        have h2 : (stepF env n (DOp.list s') st1).2
          = (DM.lift (fun net => keysF net n s') st1).2 := void_snd _ _
        rw [h2]; exact h
      | setWorld w => exact h
      | addDeriv s' d => exact hinv.deriv st1 s' d h
      | add s' key v kw => exact absurd hop id
      | addGen s' ks g ms kw => exact absurd hop id
      | setData s' key v => exact absurd hop id
      | setMeta s' key attr m => exact absurd hop id
      | update s' items => exact absurd hop id
      | generate s' key kw => exact absurd hop id
  obtain ⟨-, h2, h3⟩ := key ops st hops ⟨fun _ => rfl, hhold, rfl⟩
  refine ⟨h3, h2, fun k hk m hmap => ?_⟩
  obtain ⟨it, hit, hv⟩ := h2 k hk
  exact C23_read env m s k _ it (vals k) hit hv (by rw [hit] at hmap; exact hmap)

theorem gensFrame (env : Env D W) (G : Nat → List (List String × Nat)) :
    Inv env (fun st => ∀ s, (st.net s).gens = G s) (fun _ _ => True) (fun _ _ _ => True) where
  been := fun _ _ h => h
  world := fun _ _ h => h
  deriv := fun st s d h s' => by rw [addDeriv_gens]; exact h s'
  put := fun st s key it v _ _ h s' => by rw [putItem_gens]; exact h s'
  call := fun _ _ _ _ _ _ _ => trivial
  gen := fun _ _ _ _ _ hI _ _ => ⟨fun _ _ => trivial, fun _ => writes_true _, hI⟩
  fn := fun _ _ => writes_true _
  crop := fun _ _ _ => writes_true _
  mask := fun _ _ => writes_true _

theorem logInv (env : Env D W) (L : List (Nat × List String)) :
    Inv env (fun st => L <+: st.log) (fun _ _ => True) (fun _ _ _ => True) where
  been := fun _ _ h => h
  world := fun _ _ h => h
  deriv := fun _ _ _ h => h
  put := fun _ _ _ _ _ _ _ h => h
  call := fun _ _ _ _ _ _ _ => trivial
  gen := fun _ _ _ _ _ hI _ _ => ⟨fun _ _ => trivial, fun _ => writes_true _,
    hI.trans (List.prefix_append _ _)⟩
  fn := fun _ _ => writes_true _
  crop := fun _ _ _ => writes_true _
  mask := fun _ _ => writes_true _

/-- **C24 (first read).** In every reachable state, reading an item whose data is not
there yet runs the generator registered for it: the log gains an entry for it. When
the generation succeeds, and all outputs are to be saved and are not `None`, then after
the read, including cropping and masking, every output of the generator is stored (so that
`C24_once` applies from there on). -/
theorem C24_first_read (env : Env D W) (n s : Nat) (key : String) (st st2 : DState D W)
    (v : Option D) (hreach : Reachable env st) (it : Item D) (keys : List String) (gid : Nat)
    (hit : dget (st.net s).items key = some it) (hnone : it.data = none)
    (hmem : (keys, gid) ∈ (st.net s).gens) (hkey : key ∈ keys) :
    (∃ tail, (getDataF env (n + 2) s key st).2.log = st.log ++ (s, keys) :: tail) ∧
    (generateF env (n + 1) s key [] st = (.ok v, st2) →
      (∀ s' e, e ∈ (st.net s').gens → ¬ (s' = s ∧ e = (keys, gid)) → ∀ kw,
        (env.gen e.2 kw).Writes fun s' k' => ¬ (s' = s ∧ k' ∈ keys)) →
      (∀ f a, (env.fn f a).Writes fun s' k' => ¬ (s' = s ∧ k' ∈ keys)) →
      (∀ f v b, (env.crop f v b).Writes fun s' k' => ¬ (s' = s ∧ k' ∈ keys)) →
      (∀ f v, (env.mask f v).Writes fun s' k' => ¬ (s' = s ∧ k' ∈ keys)) →
      (∀ k ∈ keys, Saved st s k) →
      ∃ r outs st1,
        runF env n (env.gen gid []) { st with log := st.log ++ [(s, keys)] } = (.ok r, st1) ∧
        outputs env keys r = some outs ∧ outs.length = keys.length ∧
        ((∀ o ∈ outs, o.isSome) → ∀ (i : Nat) (k : String) (o : Option D),
          keys[i]? = some k → outs[i]? = some o →
          (dget ((getDataF env (n + 2) s key st).2.net s).items k).map (·.data) = some o)) := by
  have hok := hreach.gensOk
  have hfind : (st.net s).gens.find? (fun g => decide (key ∈ g.1)) = some (keys, gid) := by
    cases hf : (st.net s).gens.find? (fun g => decide (key ∈ g.1)) with
    | none =>
      have := List.find?_eq_none.1 hf _ hmem
      simp [hkey] at this
    | some g =>
      have h1 := List.mem_of_find?_eq_some hf
      have h2 : key ∈ g.1 := by simpa using List.find?_some hf
      rw [(hok s).2 g h1 _ hmem key h2 hkey]
  have hread : getDataF env (n + 2) s key st
      = DM.bind (valueOrGen none (fun st => generateF env (n + 1) s key [] st))
        (fun val => finishRead env (fun p st => runF env (n + 1) p st) s key val) st := by
    rw [getDataF]; simp only [hit, hnone]
  constructor
  · have hinv := logInv env (st.log ++ [(s, keys)])
    have hg : st.log ++ [(s, keys)] <+: (generateF env (n + 1) s key [] st).2.log := by
      have hl : st.log ++ [(s, keys)] <+: ({ st with log := st.log ++ [(s, keys)] } :
        DState D W).log := List.prefix_refl _
      simp only [generateF, hfind]
      exact keeps_bind (I := fun st' : DState D W => st.log ++ [(s, keys)] <+: st'.log)
        ((hinv.keeps_all n).2.2.2 _ (writes_true _)) (fun datas =>
          hinv.keeps_storeResult n s key keys datas hkey fun _ _ => trivial) _ hl
    have hv : st.log ++ [(s, keys)] <+:
        (valueOrGen none (fun st => generateF env (n + 1) s key [] st) st).2.log := by
      unfold valueOrGen
      simp only
      split
      · rename_i h'; rw [h'] at hg; exact hg
      · exact hg
    have hres : st.log ++ [(s, keys)] <+: (getDataF env (n + 2) s key st).2.log := by
      rw [hread]
      cases hr : valueOrGen none (fun st => generateF env (n + 1) s key [] st) st with
      | mk r st' =>
        rw [hr] at hv
        cases r with
        | ok a =>
          rw [bind_ok hr]
          exact hinv.keeps_finish _ ((hinv.keeps_all (n + 1)).2.2.2) s key a st' hv
        | error e => rw [bind_err hr]; exact hv
    obtain ⟨t, ht⟩ := hres
    exact ⟨t, by rw [← ht]; simp⟩
  · intro hgen hothers hfn hcrop hmask hsave
    obtain ⟨keys', gid', r, outs, st1, g1, g2, g3, g4, g5, g6, -⟩ :=
      C24_generate_stores env n s key [] st st2 v hreach hgen
    have he : (keys', gid') = (keys, gid) := (hok s).2 _ g1 _ hmem key g2 hkey
    simp only [Prod.mk.injEq] at he
    obtain ⟨rfl, rfl⟩ := he
    refine ⟨r, outs, st1, g3, g4, g5, fun hsome => ?_⟩
    have hne : keys' ≠ [] := fun h => by rw [h] at hkey; simp at hkey
    have hex : ∀ k ∈ keys', ∃ x : D, (dget (st2.net s).items k).map (·.data) = some (some x) := by
      intro k hk
      obtain ⟨i, hi, hik⟩ := List.getElem_of_mem hk
      have hio : i < outs.length := by omega
      have := (g6 i k outs[i] (by rw [List.getElem?_eq_getElem hi, hik])
        (List.getElem?_eq_getElem hio)).1 (hsave k hk)
      obtain ⟨x, hx⟩ := Option.isSome_iff_exists.1 (hsome _ (List.getElem_mem hio))
      exact ⟨x, by rw [this, hx]⟩
    classical
    have hd : Nonempty D := by
      obtain ⟨x, -⟩ := hex key hkey; exact ⟨x⟩
    let vals : String → D := fun k => if hk : k ∈ keys' then (hex k hk).choose else hd.some
    have hvals : ∀ k ∈ keys', (dget (st2.net s).items k).map (·.data) = some (some (vals k)) := by
      intro k hk
      simp only [vals, dif_pos hk]
      exact (hex k hk).choose_spec
    have hhold : Holds st2 s keys' vals := by
      intro k hk
      have := hvals k hk
      cases hd2 : dget (st2.net s).items k with
      | none => rw [hd2] at this; simp at this
      | some it2 =>
        rw [hd2] at this
        exact ⟨it2, rfl, by simpa using this⟩
    have hgens : ∀ s', (st2.net s').gens = (st.net s').gens := by
      have := ((gensFrame env fun s' => (st.net s').gens).keeps_all (n + 1)).2.2.1 s key [] st
        trivial (fun _ => rfl)
      rw [hgen] at this; exact this
    have hinv := onceInv (env := env) (vals := vals) (fun s' => (st.net s').gens)
      (st2.log.count (s, keys')) hmem (fun e he k hk hk' =>
        (hok s).2 e he _ hmem k hk hk') hothers hfn hcrop hmask hne
    have hfin := hinv.keeps_finish _ ((hinv.keeps_all (n + 1)).2.2.2) s key v st2
      ⟨hgens, hhold, rfl⟩
    have hst' : (getDataF env (n + 2) s key st).2
        = (finishRead env (fun p st => runF env (n + 1) p st) s key v st2).2 := by
      rw [hread, bind_ok (st' := st2) (a := v)]
      unfold valueOrGen
      simp only [hgen]
    intro i k o hk ho
    have hkm := List.mem_of_getElem? hk
    obtain ⟨it2, hit2, hv2⟩ := hfin.2.1 k hkm
    rw [hst', hit2]
    have h1 := (g6 i k o hk ho).1 (hsave k hkm)
    rw [hvals k hkm] at h1
    simp only [Option.map_some, Option.some.injEq]
    rw [hv2]
    exact Option.some.inj h1

/-- **C25 (clash on the first key).** Registering a generator whose first key is already
listed is refused, and the stores are exactly as before. -/
theorem C25_first_clash (n s : Nat) (k : String) (t : List String) (gid : Nat)
    (ms : Option (List (List (String × MVal)))) (kw : List (String × MVal))
    (st : DState D W) (ks : List String) (b : Option (List Nat))
    (hks : keysF st.net n s st.been = (.ok ks, b)) (hk : k ∈ ks) :
    ∃ e, addGenF n s (k :: t) gid ms kw st = (.error e, { (st : DState D W) with been := b }) ∨
      addGenF n s (k :: t) gid ms kw st = (.error e, st) := by
  unfold addGenF
  simp only [addGenLoop]
  cases hm : metaAt ms 0 with
  | none => exact ⟨.indexError, .inr (bind_err rfl)⟩
  | some m =>
    have h1 : addF n s k none (dupdate m kw) st = (.error .valueError, { st with been := b }) := by
      unfold addF
      rw [bind_ok (lift_eq (f := fun net => keysF net n s) hks), if_pos hk]; rfl
    exact ⟨.valueError, .inl (by simp only [DM.bind, h1])⟩

theorem dset_append {κ α : Type} [DecidableEq κ] (k : κ) (v : α) :
    ∀ l : List (κ × α), k ∉ dkeys l → dset l k v = l ++ [(k, v)] := by
  intro l
  induction l with
  | nil => intro _; rfl
  | cons a t ih =>
    intro h
    simp only [dkeys, List.map_cons, List.mem_cons, not_or] at h
    rw [dset, if_neg (fun e => h.1 e.symm), ih h.2]
    rfl

theorem addGenLoop_failed (n s : Nat) (ms : Option (List (List (String × MVal))))
    (kw : List (String × MVal)) : ∀ (keys : List String) (i : Nat) (st : DState D W) (e : Err)
    (st' : DState D W), addGenLoop n s ms kw keys i st = (.error e, st') →
    ∃ pre k post l, keys = pre ++ k :: post ∧ dkeys l = pre ∧ (∀ it ∈ l, it.2.data = none) ∧
      st'.net s = { st.net s with items := (st.net s).items ++ l } ∧
      (∀ s', s' ≠ s → st'.net s' = st.net s') ∧ st'.world = st.world ∧ st'.log = st.log := by
  intro keys
  induction keys with
  | nil => intro i st e st' h; simp [addGenLoop, DM.pure] at h
  | cons x t ih =>
    intro i st e st' h
    rw [addGenLoop] at h
    have stop : ∀ b, st' = { st with been := b } →
        ∃ pre k post l, x :: t = pre ++ k :: post ∧ dkeys l = pre ∧
          (∀ it ∈ l, it.2.data = none) ∧
          st'.net s = { st.net s with items := (st.net s).items ++ l } ∧
          (∀ s', s' ≠ s → st'.net s' = st.net s') ∧ st'.world = st.world ∧ st'.log = st.log := by
      rintro b rfl
      exact ⟨[], x, t, [], rfl, rfl, by simp, by simp, fun _ _ => rfl, rfl, rfl⟩
    cases hm : metaAt ms i with
    | none =>
      rw [hm] at h
      simp only [DM.throw, Prod.mk.injEq] at h
      exact stop st.been h.2.symm
    | some m =>
      rw [hm] at h
      simp only at h
      rcases addF_cases n s x none (dupdate m kw) st with ⟨e', b, ha⟩ | ⟨b, hx, -, ha⟩
      · rw [bind_err ha] at h
        simp only [Prod.mk.injEq] at h
        exact stop b h.2.symm
      · rw [bind_ok ha] at h
        obtain ⟨pre, k, post, l, e1, e2, e3, e4, e5, e6, e7⟩ := ih _ _ _ _ h
        refine ⟨x :: pre, k, post, (x, { data := none, props := dupdate m kw }) :: l, by rw [e1]; rfl,
          by rw [← e2]; rfl, ?_, ?_, ?_, e6, e7⟩
        · intro it hit
          rcases List.mem_cons.1 hit with rfl | hit
          · rfl
          · exact e3 it hit
        · rw [e4]
          simp only [putItem, modStore, if_true]
          rw [dset_append _ _ _ hx, List.append_assoc]
          rfl
        · intro s' hs'
          rw [e5 s' hs']
          simp only [putItem, modStore, if_neg hs']

/-- **C25 (a failed registration).** If registering a generator fails, for whatever reason and
for whatever stores, the keys of the tuple before the one at which it fails are left at the end of
the store, without data; nothing else changes, the generators in particular. -/
theorem C25_failed (n s : Nat) (keys : List String) (gid : Nat)
    (ms : Option (List (List (String × MVal)))) (kw : List (String × MVal))
    (st st' : DState D W) (e : Err) (h : addGenF n s keys gid ms kw st = (.error e, st')) :
    ∃ pre k post l, keys = pre ++ k :: post ∧ dkeys l = pre ∧ (∀ it ∈ l, it.2.data = none) ∧
      st'.net s = { st.net s with items := (st.net s).items ++ l } ∧
      (∀ s', s' ≠ s → st'.net s' = st.net s') ∧ st'.world = st.world ∧ st'.log = st.log := by
  unfold addGenF DM.bind at h
  cases hl : addGenLoop n s ms kw keys 0 st with
  | mk r st1 =>
    rw [hl] at h
    cases r with
    | ok u => simp at h
    | error e' =>
      simp only [Prod.mk.injEq] at h
      obtain ⟨-, rfl⟩ := h
      exact addGenLoop_failed n s ms kw keys 0 st e' st1 hl

theorem addGenLoop_clash (n s : Nat) (k : String) (kw : List (String × MVal))
    (hkw : "data" ∉ dkeys (dupdate [] kw)) : ∀ (pre post : List String) (i : Nat) (st : DState D W),
    (st.net s).derivs = [] → pre.Nodup → (∀ x ∈ pre, x ∉ dkeys (st.net s).items) →
    (k ∈ dkeys (st.net s).items ∨ k ∈ pre) →
    ∃ st', addGenLoop (n + 1) s none kw (pre ++ k :: post) i st = (.error .valueError, st') ∧
      dkeys (st'.net s).items = dkeys (st.net s).items ++ pre := by
  intro pre
  induction pre with
  | nil =>
    intro post i st hder _ _ hk
    have hk : k ∈ dkeys (st.net s).items := by simpa using hk
    have ha : addF (n + 1) s k none (dupdate [] kw) st = (.error .valueError, st) := by
      unfold addF
      rw [bind_ok (lift_eq (f := fun net => keysF net (n + 1) s) (keysF_noderiv (n := n) st.been hder)),
        if_pos hk]
      rfl
    refine ⟨st, ?_, by simp⟩
    rw [List.nil_append, addGenLoop]
    exact bind_err ha
  | cons x t ih =>
    intro post i st hder hn hnew hk
    have hx := hnew x List.mem_cons_self
    have ha : addF (n + 1) s x none (dupdate [] kw) st
        = (.ok (), putItem st s x { data := none, props := dupdate [] kw }) := by
      unfold addF
      rw [bind_ok (lift_eq (f := fun net => keysF net (n + 1) s) (keysF_noderiv (n := n) st.been hder)),
        if_neg hx, if_neg hkw]
    have hk' : dkeys ((putItem st s x { data := none, props := dupdate [] kw }).net s).items
        = dkeys (st.net s).items ++ [x] := by
      rw [putItem_dkeys, if_pos ⟨rfl, hx⟩]
    obtain ⟨st', e1, e2⟩ := ih post (i + 1) (putItem st s x { data := none, props := dupdate [] kw })
      (by rw [putItem_derivs]; exact hder) (List.nodup_cons.1 hn).2
      (by
        intro y hy
        rw [hk', List.mem_append, not_or]
        refine ⟨hnew y (List.mem_cons_of_mem _ hy), ?_⟩
        intro hyx
        rw [List.mem_singleton] at hyx
        subst hyx
        exact (List.nodup_cons.1 hn).1 hy)
      (by
        rw [hk', List.mem_append, List.mem_singleton]
        rcases hk with hk | hk
        · exact .inl (.inl hk)
        · rcases List.mem_cons.1 hk with rfl | hk
          · exact .inl (.inr rfl)
          · exact .inr hk)
    refine ⟨st', ?_, by rw [e2, hk', List.append_assoc, List.singleton_append]⟩
    rw [List.cons_append, addGenLoop]
    show DM.bind _ _ _ = _
    rw [bind_ok ha]
    exact e1

/-- **C25 (which keys are left).** For a store without derivatives, registering a generator for
any keys of which one exists, or comes twice, raises ValueError, and exactly the keys before it are
left behind. So the store is unchanged exactly if the clash is on the first key. -/
theorem C25_clash (n s : Nat) (pre post : List String) (k : String) (gid : Nat)
    (kw : List (String × MVal)) (st : DState D W) (hkw : "data" ∉ dkeys (dupdate [] kw))
    (hder : (st.net s).derivs = []) (hn : pre.Nodup)
    (hnew : ∀ x ∈ pre, x ∉ dkeys (st.net s).items)
    (hk : k ∈ dkeys (st.net s).items ∨ k ∈ pre) :
    ∃ st', addGenF (n + 1) s (pre ++ k :: post) gid none kw st = (.error .valueError, st') ∧
      dkeys (st'.net s).items = dkeys (st.net s).items ++ pre ∧
      ((st'.net s).items = (st.net s).items ↔ pre = []) := by
  obtain ⟨st', e1, e2⟩ := addGenLoop_clash n s k kw hkw pre post 0 st hder hn hnew hk
  have h : addGenF (n + 1) s (pre ++ k :: post) gid none kw st = (.error .valueError, st') := by
    unfold addGenF
    exact bind_err e1
  refine ⟨st', h, e2, ?_⟩
  constructor
  · intro he
    rw [he] at e2
    have := congrArg List.length e2
    rw [List.length_append] at this
    exact List.length_eq_zero_iff.1 (by omega)
  · rintro rfl
    obtain ⟨pre', k', post', l, h1, h2, -, h4, -⟩ := C25_failed _ _ _ _ _ _ _ _ _ h
    rw [h4] at e2 ⊢
    simp only [dkeys, List.map_append, List.append_nil] at e2
    have := congrArg List.length e2
    rw [List.length_append, List.length_map, List.length_map] at this
    have : l = [] := List.length_eq_zero_iff.1 (by omega)
    simp [this]

/-- **C25 (the rest of the claim is false).** For every store without derivatives and all
keys `k1` (new) and `k2` (already there): registering a generator for `(k1, k2)` raises
ValueError but leaves `k1` behind, listed, without a generator; reading `k1` gives `None`,
and registering a generator for `k1` afterwards is refused. -/
theorem C25_clash_leaves_keys (env : Env D W) (n s : Nat) (k1 k2 : String) (gid : Nat)
    (st : DState D W) (hder : (st.net s).derivs = []) (hne : k1 ≠ k2)
    (h1 : k1 ∉ dkeys (st.net s).items) (h2 : k2 ∈ dkeys (st.net s).items)
    (hg : ∀ e ∈ (st.net s).gens, k1 ∉ e.1) :
    let r := addGenF (n + 1) s [k1, k2] gid none [] st
    r.1 = .error .valueError ∧
    keysF r.2.net (n + 1) s r.2.been = (.ok (dkeys (st.net s).items ++ [k1]), r.2.been) ∧
    (r.2.net s).gens = (st.net s).gens ∧
    getDataF env (n + 2) s k1 r.2 = (.ok none, r.2) ∧
    (addGenF (n + 1) s [k1] gid none [] r.2).1 = .error .valueError := by
  intro r
  have hkeys := keysF_noderiv (n := n) st.been hder
  have ha : addF (n + 1) s k1 none (dupdate [] []) st
      = (.ok (), putItem st s k1 { data := none, props := [] }) := by
    unfold addF
    rw [bind_ok (lift_eq (f := fun net => keysF net (n + 1) s) hkeys), if_neg h1, if_neg (by simp [dkeys, dupdate])]
    rfl
  have hder' : ((putItem st s k1 { data := none, props := [] }).net s).derivs = [] := by
    rw [putItem_derivs]; exact hder
  have hk' : dkeys ((putItem st s k1 { data := none, props := [] }).net s).items
      = dkeys (st.net s).items ++ [k1] := by
    rw [putItem_dkeys, if_pos ⟨rfl, h1⟩]
  have hkeys' := keysF_noderiv (n := n) st.been hder'
  rw [hk'] at hkeys'
  have hb : addF (n + 1) s k2 none (dupdate [] []) (putItem st s k1 { data := none, props := [] })
      = (.error .valueError, putItem st s k1 { data := none, props := [] }) := by
    unfold addF
    rw [bind_ok (lift_eq (f := fun net => keysF net (n + 1) s) (b := st.been) hkeys'),
      if_pos (List.mem_append_left _ h2)]
    rfl
  have hr : r = (.error .valueError, putItem st s k1 { data := none, props := [] }) := by
    show addGenF (n + 1) s [k1, k2] gid none [] st = _
    unfold addGenF
    simp only [addGenLoop, metaAt]
    apply bind_err
    rw [bind_ok ha]
    exact bind_err hb
  rw [hr]
  refine ⟨rfl, hkeys', putItem_gens _ _ _ _ _, ?_, ?_⟩
  · have hit : dget ((putItem st s k1 { data := none, props := [] }).net s).items k1
        = some { data := none, props := [] } := by rw [putItem_dget, if_pos ⟨rfl, rfl⟩]
    have hgen : generateF env (n + 1) s k1 [] (putItem st s k1 { data := none, props := [] })
        = (.error .dataGenerationError, putItem st s k1 { data := none, props := [] }) := by
      simp only [generateF]
      have : ((putItem st s k1 { data := none, props := [] }).net s).gens.find?
          (fun g => decide (k1 ∈ g.1)) = none := by
        rw [putItem_gens, List.find?_eq_none]
        intro e he; simpa using hg e he
      rw [this]
    simp only [getDataF, hit, valueOrGen]
    rw [bind_ok (st' := putItem st s k1 { data := none, props := [] }) (a := none)]
    · unfold finishRead
      rw [bind_ok (lift_eq (f := fun net => metaF net 1 s k1 "type" .none) (metaF_stored _ hit))]
      rfl
    · simp only [hgen]
  · unfold addGenF
    simp only [addGenLoop, metaAt]
    have : addF (n + 1) s k1 none (dupdate [] []) (putItem st s k1 { data := none, props := [] })
        = (.error .valueError, putItem st s k1 { data := none, props := [] }) := by
      unfold addF
      rw [bind_ok (lift_eq (f := fun net => keysF net (n + 1) s) (b := st.been) hkeys'),
        if_pos (List.mem_append_right _ List.mem_cons_self)]
      rfl
    simp only [DM.bind, this]

/-- **C25 (wrong number of values).** When the generator returns a sequence whose length is
not the number of keys (more than one), ValueError is raised and nothing is stored: the
state is the one the generator itself left. -/
theorem C25_wrong_count (env : Env D W) (n s : Nat) (key : String) (kw : List (String × MVal))
    (st st1 : DState D W) (keys : List String) (gid : Nat) (r : Option D) (l : List (Option D))
    (hf : (st.net s).gens.find? (fun g => decide (key ∈ g.1)) = some (keys, gid))
    (hrun : runF env n (env.gen gid kw) { st with log := st.log ++ [(s, keys)] } = (.ok r, st1))
    (hit : r.bind env.iter = some l) (h1 : keys.length ≠ 1) (hl : keys.length ≠ l.length) :
    generateF env (n + 1) s key kw st = (.error .valueError, st1) := by
  simp only [generateF, hf]
  rw [bind_ok hrun]
  unfold storeResult
  rw [if_neg h1, hit]
  simp only
  rw [if_neg hl]
  rfl

/-- **C25 (errors in a generator).** When an item without a value is read and its generator
raises an exception other than `DataGenerationError`, the caller gets this exception and the
state is the one the generator left. A `DataGenerationError`, also one from inside the
generator, is taken as "no value": a plain item then reads as `None`. -/
theorem C25_generator_error (env : Env D W) (n s : Nat) (key : String) (st st1 : DState D W)
    (it : Item D) (e : Err) (hit : dget (st.net s).items key = some it) (hnone : it.data = none)
    (hgen : generateF env n s key [] st = (.error e, st1)) :
    (e ≠ .dataGenerationError → getDataF env (n + 1) s key st = (.error e, st1)) ∧
    (e = .dataGenerationError → dget (st1.net s).items key = some it →
      dget it.props "type" ≠ some (.str "map") → getDataF env (n + 1) s key st = (.ok none, st1)) := by
  rw [getDataF]
  simp only [hit, hnone]
  constructor
  · intro he
    refine bind_err ?_
    unfold valueOrGen
    simp only [hgen]
    cases e <;> first | rfl | exact absurd rfl he
  · rintro rfl hit1 hty
    rw [bind_ok (a := none) (st' := st1) (by unfold valueOrGen; simp only [hgen])]
    unfold finishRead
    rw [bind_ok (lift_eq (f := fun net => metaF net 1 s key "type" .none)
      (metaF_stored st1.been hit1))]
    rw [if_neg]
    · rfl
    · cases h : dget it.props "type" with
      | none => simp
      | some v => rw [h] at hty; simpa using hty

end

/-! ### Examples

One store; data are numbers, `iter v` gives `[v, v + 1]`. Generator 0 returns 7, generator 1
reads item `a` and returns it plus ten. -/

namespace GenEx

def env : Env Nat Unit where
  gen := fun g _ => match g with
    | 0 => .ret (some 7)
    | _ => .read 0 "a" fun r => match r with
      | .ok (some v) => .ret (some (v + 10))
      | .ok none => .ret none
      | .error e => .fail e
  fn := fun _ _ => .ret none
  crop := fun _ v _ => .ret v
  mask := fun _ v => .ret v
  iter := fun v => some [some v, some (v + 1)]

def st0 : DState Nat Unit :=
  { net := fun _ => Store.new Nat 0 none none, been := none, world := (), log := [] }

/-- Two generators with two and one outputs, an ordinary item. -/
def ops : List (DOp Nat Unit) :=
  [.addGen 0 ["a", "b"] 0 none [], .addGen 0 ["c"] 1 none [], .add 0 "d" (some 1) []]

/-- The history of the example. -/
def st1 : DState Nat Unit := (runOps env 9 ops st0).2

theorem st1_reachable : Reachable env st1 := ⟨9, ops, st0, fun _ => ⟨rfl, rfl⟩, rfl⟩

/-- Reading `c` runs both generators, once, and stores all three outputs. -/
def st2 : DState Nat Unit := (getDataF env 9 0 "c" st1).2

example : (getDataF env 9 0 "c" st1).1 = .ok (some 17) ∧
    st2.log = [(0, ["c"]), (0, ["a", "b"])] ∧
    (dkeys (st2.net 0).items) = ["a", "b", "c", "d"] ∧
    (dget (st2.net 0).items "b").map (·.data) = some (some 8) := by decide +kernel

theorem st2_reachable : Reachable env st2 :=
  ⟨9, ops ++ [.read 0 "c"], st0, fun _ => ⟨rfl, rfl⟩, by
    rw [runOps_append]
    exact (void_snd (getDataF env 9 0 "c") st1).symm⟩

/-- The hypotheses of `C24_once` hold in `st2`, for the two outputs of generator 0. -/
example : (runOps env 9 [.read 0 "c", .read 0 "b", .list 0, .read 0 "a"] st2).2.log.count
      (0, ["a", "b"]) = 1 ∧
    getDataF env 1 0 "b" (runOps env 9 [.read 0 "c", .read 0 "b", .list 0, .read 0 "a"] st2).2
      = (.ok (some 8), (runOps env 9 [.read 0 "c", .read 0 "b", .list 0, .read 0 "a"] st2).2) := by
  have h := C24_once env 9 st2 st2_reachable 0 ["a", "b"] 0 (fun k => if k = "a" then 7 else 8)
    (by simp) (by decide +kernel)
    (by
      intro k hk
      rcases List.mem_cons.1 hk with rfl | hk
      · exact ⟨⟨some 7, []⟩, by decide +kernel, rfl⟩
      · rcases List.mem_cons.1 hk with rfl | hk
        · exact ⟨⟨some 8, []⟩, by decide +kernel, rfl⟩
        · simp at hk)
    (by
      intro s' e _ _ kw
      show (env.gen e.2 kw).Writes _
      unfold env
      simp only
      split
      · trivial
      · intro r
        rcases r with e | v
        · trivial
        · cases v <;> trivial)
    (fun _ _ => trivial) (fun _ _ _ => trivial) (fun _ _ => trivial)
    [.read 0 "c", .read 0 "b", .list 0, .read 0 "a"]
    (by simp [DOp.Reading])
  obtain ⟨h1, -, h3⟩ := h
  exact ⟨by rw [h1]; decide +kernel, h3 "b" (by simp) 0 (by decide +kernel)⟩

/-- A generator output marked not to be saved is generated again at every read. -/
example :
    let st := (runOps env 9 [.addGen 0 ["c"] 0 none [("save", .bool false)],
      .read 0 "c", .read 0 "c"] st0).2
    st.log.count (0, ["c"]) = 2 ∧ (dget (st.net 0).items "c").map (·.data) = some none := by
  decide +kernel

/-- An output that was set by hand is overwritten when a sibling is first read. -/
example :
    let st := (runOps env 9 [.addGen 0 ["a", "b"] 0 none [], .setData 0 "b" (some 100),
      .read 0 "a"] st0).2
    (dget (st.net 0).items "b").map (·.data) = some (some 8) := by
  decide +kernel

/-- The hypotheses of `C25_clash` hold in `st1`: of three keys the last exists. -/
example : ∃ st', addGenF 1 0 ["e", "f", "d"] 5 none [] st1 = (.error .valueError, st') ∧
    dkeys (st'.net 0).items = dkeys (st1.net 0).items ++ ["e", "f"] := by
  obtain ⟨st', h1, h2, -⟩ := C25_clash 0 0 ["e", "f"] [] "d" 5 [] st1 (by decide) (by decide +kernel)
    (by decide) (by decide +kernel) (by decide +kernel)
  exact ⟨st', h1, h2⟩

/-- The hypotheses of `C25_clash_leaves_keys` hold in `st1`, with the existing key `d`. -/
example : (addGenF 1 0 ["e", "d"] 5 none [] st1).1 = .error .valueError ∧
    getDataF env 2 0 "e" (addGenF 1 0 ["e", "d"] 5 none [] st1).2
      = (.ok none, (addGenF 1 0 ["e", "d"] 5 none [] st1).2) := by
  have h := C25_clash_leaves_keys env 0 0 "e" "d" 5 st1 (by decide +kernel) (by decide)
    (by decide +kernel) (by decide +kernel) (by decide +kernel)
  exact ⟨h.1, h.2.2.2.1⟩

/-- The hypotheses of `C25_generator_error` hold: generator 1 passes on the KeyError of its
reading an item that does not exist. -/
example : (getDataF env 9 0 "c" (runOps env 9 [.addGen 0 ["c"] 1 none []] st0).2).1
    = .error .keyError := by
  rw [(C25_generator_error env 8 0 "c" _ _ ⟨none, []⟩ .keyError (by decide +kernel) rfl
    (Prod.ext (by decide +kernel) rfl)).1 (by decide)]

/-- Three keys for a generator that returns two values. -/
example : (generateF env 3 0 "a" [] (runOps env 9 [.addGen 0 ["a", "b", "c"] 0 none []] st0).2).1
    = .error .valueError := by decide +kernel

end GenEx

end DefDAP
