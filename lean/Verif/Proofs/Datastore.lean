import Verif.Proofs.DatastoreKeys

/-! Invariants of the data store that hold through every computation. -/

namespace DefDAP

section dict
variable {κ α : Type} [DecidableEq κ]

theorem dget_dset (l : List (κ × α)) (k k' : κ) (v : α) :
    dget (dset l k v) k' = if k = k' then some v else dget l k' := by
  induction l with
  | nil => simp [dset, dget]
  | cons a t ih =>
    obtain ⟨a1, a2⟩ := a
    by_cases h : a1 = k
    · subst h; simp only [dset, if_true, dget]
      by_cases h' : a1 = k' <;> simp [h']
    · simp only [dset, if_neg h, dget, ih]
      by_cases h' : a1 = k'
      · subst h'; simp [h, Ne.symm h]
      · simp [h']

omit [DecidableEq κ] in
theorem dkeys_cons (a : κ × α) (t : List (κ × α)) : dkeys (a :: t) = a.1 :: dkeys t := rfl

theorem dkeys_dset (l : List (κ × α)) (k : κ) (v : α) :
    dkeys (dset l k v) = if k ∈ dkeys l then dkeys l else dkeys l ++ [k] := by
  induction l with
  | nil => simp [dset, dkeys]
  | cons a t ih =>
    obtain ⟨a1, a2⟩ := a
    by_cases h : a1 = k
    · subst h; simp [dset, dkeys_cons]
    · have hk : k ≠ a1 := fun e => h e.symm
      simp only [dset, if_neg h, dkeys_cons, List.mem_cons, hk, false_or]
      rw [ih]
      by_cases hm : k ∈ dkeys t
      · rw [if_pos hm, if_pos hm]
      · rw [if_neg hm, if_neg hm]; rfl

theorem dkeys_dset_of_mem {l : List (κ × α)} {k : κ} (v : α) (h : k ∈ dkeys l) :
    dkeys (dset l k v) = dkeys l := by rw [dkeys_dset, if_pos h]

theorem mem_dkeys_of_dget {l : List (κ × α)} {k : κ} {v : α} (h : dget l k = some v) :
    k ∈ dkeys l := by rw [← dget_isSome, h]; rfl

end dict

section
variable {D W : Type}

/-- All writes of the program go to allowed items. -/
def Prog.Writes (A : Nat → String → Prop) : Prog D W → Prop
  | .ret _ => True
  | .fail _ => True
  | .read _ _ k => ∀ r, (k r).Writes A
  | .getMeta _ _ _ _ k => ∀ r, (k r).Writes A
  | .set s key _ k => A s key ∧ ∀ r, (k r).Writes A
  | .addDeriv _ _ k => k.Writes A
  | .world k => ∀ w, (k w).Writes A
  | .setWorld _ k => k.Writes A

/-- What an invariant `I` has to satisfy to survive every read: it does not look at the
guard, the outside state or the derivatives, and survives writes to items in `A`; and
generators that may be called (`C`) write only there. -/
structure Inv (env : Env D W) (I : DState D W → Prop) (A : Nat → String → Prop)
    (C : DState D W → Nat → String → Prop) : Prop where
  been : ∀ st b, I st → I { st with been := b }
  world : ∀ st w, I st → I { st with world := w }
  deriv : ∀ st s d, I st → I (addDerivF s d st).2
  put : ∀ st s key it v, A s key → dget (st.net s).items key = some it → I st →
    I (putItem st s key { it with data := v })
  call : ∀ st s key it, I st → dget (st.net s).items key = some it → it.data = none → C st s key
  gen : ∀ st s key keys gid, I st → C st s key →
    (st.net s).gens.find? (fun g => decide (key ∈ g.1)) = some (keys, gid) →
    (∀ k ∈ keys, A s k) ∧ (∀ kw, (env.gen gid kw).Writes A) ∧
      I { st with log := st.log ++ [(s, keys)] }
  fn : ∀ f a, (env.fn f a).Writes A
  crop : ∀ f v b, (env.crop f v b).Writes A
  mask : ∀ f v, (env.mask f v).Writes A

theorem bind_ok {α β : Type} {x : DM D W α} {f : α → DM D W β} {st st' : DState D W} {a : α}
    (h : x st = (.ok a, st')) : DM.bind x f st = f a st' := by
  unfold DM.bind; rw [h]

theorem bind_err {α β : Type} {x : DM D W α} {f : α → DM D W β} {st st' : DState D W} {e : Err}
    (h : x st = (.error e, st')) : DM.bind x f st = (.error e, st') := by
  unfold DM.bind; rw [h]

theorem lift_eq {α : Type} {f : (Nat → Store D) → GM α} {st : DState D W}
    {r : Except Err α} {b : Option (List Nat)} (h : f st.net st.been = (r, b)) :
    DM.lift f st = (r, { st with been := b }) := by
  unfold DM.lift; rw [h]

/-- A computation keeps an invariant. -/
def Keeps {α : Type} (I : DState D W → Prop) (x : DM D W α) : Prop := ∀ st, I st → I (x st).2

theorem keeps_bind {α β : Type} {I : DState D W → Prop} {x : DM D W α} {f : α → DM D W β}
    (hx : Keeps I x) (hf : ∀ a, Keeps I (f a)) : Keeps I (DM.bind x f) := by
  intro st h
  have h1 := hx st h
  unfold DM.bind
  cases hr : x st with
  | mk r st' =>
    rw [hr] at h1
    cases r with
    | ok a => exact hf a st' h1
    | error e => exact h1

theorem keeps_pure {α : Type} {I : DState D W → Prop} (a : α) :
    Keeps I (DM.pure a : DM D W α) := fun _ h => h

theorem keeps_throw {α : Type} {I : DState D W → Prop} (e : Err) :
    Keeps I (DM.throw e : DM D W α) := fun _ h => h

variable {env : Env D W} {I : DState D W → Prop} {A : Nat → String → Prop}
  {C : DState D W → Nat → String → Prop}

theorem Inv.keeps_lift {α : Type} (hI : Inv env I A C) (f : (Nat → Store D) → GM α) :
    Keeps I (DM.lift f : DM D W α) := fun st h => hI.been st _ h

theorem Inv.keeps_setData (hI : Inv env I A C) (n s : Nat) (key : String) (v : Option D)
    (ha : A s key) : Keeps I (setDataF n s key v : DM D W Unit) := by
  apply keeps_bind (hI.keeps_lift _)
  intro ks
  split
  · intro st h
    cases hd : dget (st.net s).items key with
    | some it => simp only [hd]; exact hI.put st s key it v ha hd h
    | none => simp only [hd]; exact h
  · exact keeps_throw _

theorem Inv.keeps_storeLoop (hI : Inv env I A C) (n s : Nat) (key : String) :
    ∀ (l : List (String × Option D)) (acc : Option (Option D)), (∀ p ∈ l, A s p.1) →
      Keeps I (storeLoop n s key l acc : DM D W (Option (Option D))) := by
  intro l
  induction l with
  | nil => intro acc _; exact keeps_pure _
  | cons p t ih =>
    obtain ⟨k, v⟩ := p
    intro acc ha
    apply keeps_bind (hI.keeps_lift _)
    intro sv
    apply keeps_bind
    · split
      · exact hI.keeps_setData n s k v (ha (k, v) List.mem_cons_self)
      · exact keeps_pure _
    · intro _
      exact ih _ fun p hp => ha p (List.mem_cons_of_mem _ hp)

theorem Inv.keeps_storeResult (hI : Inv env I A C) (n s : Nat) (key : String)
    (keys : List String) (datas : Option D) (hkey : key ∈ keys) (hA : ∀ k ∈ keys, A s k) :
    Keeps I (storeResult env n s key keys datas) := by
  unfold storeResult
  split
  · apply keeps_bind (hI.keeps_lift _)
    intro sv
    apply keeps_bind
    · split
      · exact hI.keeps_setData n s key datas (hA key hkey)
      · exact keeps_pure _
    · intro _; exact keeps_pure _
  · split
    · exact keeps_throw _
    · split
      · refine keeps_bind (hI.keeps_storeLoop n s key _ _ ?_) (fun r => ?_)
        · intro p hp
          exact hA p.1 (List.of_mem_zip hp).1
        · split
          · exact keeps_pure _
          · exact keeps_throw _
      · exact keeps_throw _

theorem Inv.keeps_finish (hI : Inv env I A C) (run : Prog D W → DM D W (Option D))
    (hrun : ∀ p : Prog D W, p.Writes A → Keeps I (run p)) (s : Nat) (key : String)
    (val : Option D) : Keeps I (finishRead env run s key val) := by
  apply keeps_bind (hI.keeps_lift _)
  intro ty
  split
  · apply keeps_bind
    · apply keeps_bind (hI.keeps_lift _)
      intro cr
      split
      · exact keeps_pure _
      · apply keeps_bind (hI.keeps_lift _)
        intro bin st h
        cases hc : (st.net s).cropFn with
        | some c => simp only [hc]; exact hrun _ (hI.crop c val bin) st h
        | none => simp only [hc]; exact h
    · intro val
      apply keeps_bind (hI.keeps_lift _)
      intro am
      split
      · intro st h
        cases hc : (st.net s).maskFn with
        | some c => simp only [hc]; exact hrun _ (hI.mask c val) st h
        | none => simp only [hc]; exact h
      · exact keeps_pure _
  · exact keeps_pure _

/-- Every computation of the store keeps the invariant. -/
theorem Inv.keeps_all (hI : Inv env I A C) (n : Nat) :
    (∀ s key, Keeps I (getDataF env n s key)) ∧
    (∀ s key, Keeps I (derDataF env n s key)) ∧
    (∀ s key kw st, C st s key → I st → I (generateF env n s key kw st).2) ∧
    (∀ p : Prog D W, p.Writes A → Keeps I (runF env n p)) := by
  induction n with
  | zero =>
    refine ⟨fun s key => ?_, fun s key => ?_, fun s key kw st _ h => ?_, fun p _ => ?_⟩
    · simp only [getDataF]; exact keeps_throw _
    · simp only [derDataF]; exact keeps_throw _
    · simp only [generateF]; exact h
    · simp only [runF]; exact keeps_throw _
  | succ n ih =>
    obtain ⟨ihG, ihD, ihN, ihR⟩ := ih
    refine ⟨fun s key => ?_, fun s key => ?_, fun s key kw st hC h => ?_, fun p hp => ?_⟩
    · intro st h
      simp only [getDataF]
      cases hd : dget (st.net s).items key with
      | none =>
        simp only [hd]
        refine keeps_bind (hI.keeps_lift _) (fun ks => ?_) st h
        split
        · exact ihD s key
        · exact keeps_throw _
      | some it =>
        simp only [hd]
        have hval : I (valueOrGen it.data (fun st => generateF env n s key [] st) st).2 := by
          unfold valueOrGen
          cases hit : it.data with
          | some v => exact h
          | none =>
            have := ihN s key [] st (hI.call st s key it h hd hit) h
            simp only
            split
            · rename_i h'; rw [h'] at this; exact this
            · exact this
        have hrest : ∀ val, Keeps I (finishRead env (fun p st => runF env n p st) s key val) :=
          hI.keeps_finish _ ihR s key
        unfold DM.bind
        cases hr : valueOrGen it.data (fun st => generateF env n s key [] st) st with
        | mk r st' =>
          rw [hr] at hval
          cases r with
          | ok a => exact hrest a st' hval
          | error e => exact hval
    · intro st h
      simp only [derDataF]
      cases hd : (st.net s).derivs with
      | nil => exact h
      | cons d t =>
        refine keeps_bind (hI.keeps_lift _) (fun ks => ?_) st h
        split
        · split
          · exact ihR _ (hI.fn _ _)
          · exact keeps_bind (ihG _ _) fun v => ihR _ (hI.fn _ _)
        · exact keeps_throw _
    · simp only [generateF]
      cases hf : (st.net s).gens.find? (fun g => decide (key ∈ g.1)) with
      | none => simp only [hf]; exact h
      | some g =>
        obtain ⟨keys, gid⟩ := g
        simp only [hf]
        obtain ⟨hA, hw, hl⟩ := hI.gen st s key keys gid h hC hf
        have hkey : key ∈ keys := by simpa using List.find?_some hf
        refine keeps_bind (ihR _ (hw kw)) (fun datas => ?_) _ hl
        exact hI.keeps_storeResult n s key keys datas hkey hA
    · cases p with
      | ret v => simp only [runF]; exact keeps_pure _
      | fail e => simp only [runF]; exact keeps_throw _
      | read s key k =>
        intro st h
        simp only [runF]
        exact ihR _ (hp _) _ (ihG s key st h)
      | getMeta s key attr dflt k =>
        intro st h
        simp only [runF]
        exact ihR _ (hp _) _ (hI.keeps_lift _ st h)
      | set s key v k =>
        intro st h
        simp only [runF]
        exact ihR _ (hp.2 _) _ (hI.keeps_setData n s key v hp.1 st h)
      | addDeriv s d k =>
        intro st h
        simp only [runF]
        exact ihR k hp _ (hI.deriv st s d h)
      | world k =>
        intro st h
        simp only [runF]
        exact ihR _ (hp _) _ h
      | setWorld w k =>
        intro st h
        simp only [runF]
        exact ihR k hp _ (hI.world st w h)

end

end DefDAP
