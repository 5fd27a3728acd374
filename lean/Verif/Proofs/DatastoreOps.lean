import Verif.Proofs.Datastore
import Verif.Spec.Datastore

/-! Effects of the single operations of a data store. -/

namespace DefDAP

section
variable {D W : Type}

theorem keysF_sub {net : Nat → Store D} {n s : Nat} {b b' : Option (List Nat)}
    {ks : List String} (h : keysF net n s b = (.ok ks, b')) : dkeys (net s).items ⊆ ks := by
  cases n with
  | zero => simp [keysF, GM.throw] at h
  | succ n =>
    simp only [keysF, GM.bind] at h
    split at h
    · simp only [GM.pure, Prod.mk.injEq, Except.ok.injEq] at h
      rw [← h.1]
      exact List.subset_append_left _ _
    · simp at h

theorem keysF_noderiv {net : Nat → Store D} {n s : Nat} (b : Option (List Nat))
    (h : (net s).derivs = []) : keysF net (n + 1) s b = (.ok (dkeys (net s).items), b) := by
  simp [keysF, GM.bind, h, GM.collect, GM.pure]

@[simp] theorem modStore_net_self (st : DState D W) (s : Nat) (f : Store D → Store D) :
    (modStore st s f).net s = f (st.net s) := by simp [modStore]

theorem modStore_net_ne (st : DState D W) {s s' : Nat} (f : Store D → Store D) (h : s' ≠ s) :
    (modStore st s f).net s' = st.net s' := by simp [modStore, h]

/-- `add`: either refused with only the guard changed, or the key was not in the store
and is now. -/
theorem addF_cases (n s : Nat) (key : String) (v : Option D) (kw : List (String × MVal))
    (st : DState D W) :
    (∃ e b, addF n s key v kw st = (.error e, { st with been := b })) ∨
    (∃ b, key ∉ dkeys (st.net s).items ∧ "data" ∉ dkeys kw ∧
      addF n s key v kw st =
        (.ok (), putItem { st with been := b } s key { data := v, props := kw })) := by
  unfold addF
  cases hk : keysF st.net n s st.been with
  | mk r b =>
    cases r with
    | error e =>
      rw [bind_err (lift_eq (f := fun net => keysF net n s) hk)]
      exact .inl ⟨e, b, rfl⟩
    | ok ks =>
      rw [bind_ok (lift_eq (f := fun net => keysF net n s) hk)]
      by_cases h1 : key ∈ ks
      · rw [if_pos h1]; exact .inl ⟨_, b, rfl⟩
      · rw [if_neg h1]
        by_cases h2 : "data" ∈ dkeys kw
        · rw [if_pos h2]; exact .inl ⟨_, b, rfl⟩
        · rw [if_neg h2]
          exact .inr ⟨b, fun h => h1 (keysF_sub hk h), h2, rfl⟩

theorem setDataF_cases (n s : Nat) (key : String) (v : Option D) (st : DState D W) :
    (∃ e b, setDataF n s key v st = (.error e, { st with been := b })) ∨
    (∃ b it, dget (st.net s).items key = some it ∧
      setDataF n s key v st = (.ok (), putItem { st with been := b } s key { it with data := v })) := by
  unfold setDataF
  cases hk : keysF st.net n s st.been with
  | mk r b =>
    cases r with
    | error e =>
      rw [bind_err (lift_eq (f := fun net => keysF net n s) hk)]
      exact .inl ⟨e, b, rfl⟩
    | ok ks =>
      rw [bind_ok (lift_eq (f := fun net => keysF net n s) hk)]
      by_cases h1 : key ∈ ks
      · rw [if_pos h1]
        cases hd : dget (st.net s).items key with
        | none => exact .inl ⟨.keyError, b, by simp only [hd]⟩
        | some it => exact .inr ⟨b, it, rfl, by simp only [hd]⟩
      · rw [if_neg h1]; exact .inl ⟨_, b, rfl⟩

theorem setMetaF_cases (n s : Nat) (key attr : String) (m : MVal) (st : DState D W) :
    (∃ e b, setMetaF n s key attr m st = (.error e, { st with been := b })) ∨
    (∃ b it, dget (st.net s).items key = some it ∧
      setMetaF n s key attr m st =
        (.ok (), putItem { st with been := b } s key { it with props := dset it.props attr m })) := by
  unfold setMetaF
  cases hk : keysF st.net n s st.been with
  | mk r b =>
    cases r with
    | error e =>
      rw [bind_err (lift_eq (f := fun net => keysF net n s) hk)]
      exact .inl ⟨e, b, rfl⟩
    | ok ks =>
      rw [bind_ok (lift_eq (f := fun net => keysF net n s) hk)]
      by_cases h1 : key ∈ ks
      · rw [if_pos h1]
        cases hd : dget (st.net s).items key with
        | none => exact .inl ⟨.keyError, b, by simp only [hd]⟩
        | some it => exact .inr ⟨b, it, rfl, by simp only [hd]⟩
      · rw [if_neg h1]; exact .inl ⟨_, b, rfl⟩

/-- Items of all stores after `putItem`. -/
theorem putItem_dget (st : DState D W) (s : Nat) (key : String) (it : Item D) (s' : Nat)
    (k : String) : dget ((putItem st s key it).net s').items k =
      if s' = s ∧ key = k then some it else dget (st.net s').items k := by
  unfold putItem
  by_cases h : s' = s
  · subst h; simp [dget_dset]
  · rw [modStore_net_ne _ _ h]; simp [h]

theorem putItem_dkeys (st : DState D W) (s : Nat) (key : String) (it : Item D) (s' : Nat) :
    dkeys ((putItem st s key it).net s').items =
      if s' = s ∧ key ∉ dkeys (st.net s').items then dkeys (st.net s').items ++ [key]
      else dkeys (st.net s').items := by
  unfold putItem
  by_cases h : s' = s
  · subst h
    simp only [modStore_net_self, dkeys_dset, true_and]
    by_cases hk : key ∈ dkeys (st.net s').items <;> simp [hk]
  · rw [modStore_net_ne _ _ h]; simp [h]

theorem putItem_gens (st : DState D W) (s : Nat) (key : String) (it : Item D) (s' : Nat) :
    ((putItem st s key it).net s').gens = (st.net s').gens := by
  unfold putItem
  by_cases h : s' = s
  · subst h; simp
  · rw [modStore_net_ne _ _ h]

theorem putItem_derivs (st : DState D W) (s : Nat) (key : String) (it : Item D) (s' : Nat) :
    ((putItem st s key it).net s').derivs = (st.net s').derivs := by
  unfold putItem
  by_cases h : s' = s
  · subst h; simp
  · rw [modStore_net_ne _ _ h]

theorem addDeriv_items (st : DState D W) (s : Nat) (d : Deriv) (s' : Nat) :
    ((addDerivF s d st).2.net s').items = (st.net s').items := by
  unfold addDerivF
  by_cases h : s' = s
  · subst h; simp
  · simp only []; rw [modStore_net_ne _ _ h]

theorem addDeriv_gens (st : DState D W) (s : Nat) (d : Deriv) (s' : Nat) :
    ((addDerivF s d st).2.net s').gens = (st.net s').gens := by
  unfold addDerivF
  by_cases h : s' = s
  · subst h; simp
  · simp only []; rw [modStore_net_ne _ _ h]

/-- The loop of `add_generator`: items keep their entries, new keys are appended in order;
if it succeeds all keys were new and are added. -/
theorem addGenLoop_spec (n s : Nat) (metas : Option (List (List (String × MVal))))
    (kw : List (String × MVal)) : ∀ (keys : List String) (i : Nat) (st : DState D W),
    let r := addGenLoop n s metas kw keys i st
    (∀ s', (r.2.net s').gens = (st.net s').gens ∧ (r.2.net s').derivs = (st.net s').derivs) ∧
    (∀ s' k it, dget (st.net s').items k = some it → dget (r.2.net s').items k = some it) ∧
    (∀ s' k, k ∉ keys → dget (r.2.net s').items k = dget (st.net s').items k) ∧
    (∀ s', s' ≠ s → (r.2.net s').items = (st.net s').items) ∧
    r.2.log = st.log ∧
    (r.1 = .ok () → dkeys (r.2.net s).items = dkeys (st.net s).items ++ keys ∧
      (∀ k ∈ keys, k ∉ dkeys (st.net s).items) ∧ keys.Nodup) := by
  intro keys
  induction keys with
  | nil =>
    intro i st
    simp [addGenLoop, DM.pure]
  | cons k t ih =>
    intro i st
    simp only [addGenLoop]
    cases hm : metaAt metas i with
    | none => simp [DM.throw]
    | some m =>
      rcases addF_cases n s k none (dupdate m kw) st with ⟨e, b, h⟩ | ⟨b, hk, -, h⟩
      · simp only [bind_err h]; simp
      · simp only [bind_ok h]
        obtain ⟨h1, h2, h3, h4, h5, h6⟩ := ih (i + 1)
          (putItem { st with been := b } s k { data := none, props := dupdate m kw })
        generalize (addGenLoop n s metas kw t (i + 1)
          (putItem { st with been := b } s k { data := none, props := dupdate m kw })) = r at *
        refine ⟨fun s' => ?_, fun s' k' it hd => ?_, fun s' k' hk' => ?_, fun s' hs => ?_, ?_,
          fun hr => ?_⟩
        · rw [(h1 s').1, (h1 s').2, putItem_gens, putItem_derivs]; exact ⟨rfl, rfl⟩
        · apply h2
          rw [putItem_dget]
          rw [if_neg]
          · exact hd
          · rintro ⟨rfl, rfl⟩
            exact hk (mem_dkeys_of_dget hd)
        · rw [h3 s' k' (fun h => hk' (List.mem_cons_of_mem _ h)), putItem_dget, if_neg]
          rintro ⟨-, rfl⟩
          exact hk' List.mem_cons_self
        · rw [h4 s' hs]; unfold putItem; rw [modStore_net_ne _ _ hs]
        · rw [h5]; rfl
        · obtain ⟨h7, h8, h9⟩ := h6 hr
          have hk0 : k ∉ dkeys (st.net s).items := hk
          rw [putItem_dkeys] at h7 h8
          rw [if_pos ⟨rfl, hk0⟩] at h7 h8
          refine ⟨by rw [h7]; simp, ?_, List.nodup_cons.2 ⟨fun hkt =>
            h8 k hkt (by simp), h9⟩⟩
          intro k' hk'
          rcases List.mem_cons.1 hk' with rfl | hk'
          · exact hk0
          · intro hmem
            exact h8 k' hk' (List.mem_append_left _ hmem)

end

end DefDAP
