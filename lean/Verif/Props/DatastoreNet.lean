import Verif.Props.DatastoreGen

/-! C26–C28: key listing over derivatives, derived items and derived metadata. -/

namespace DefDAP

section
variable {D W : Type}

/-! ### More fuel does not change a result -/

/-- `y` gives what `x` gives, unless `x` runs out of fuel. -/
def GM.le {α : Type} (x y : GM α) : Prop := ∀ b, (x b).1 = .error .fuel ∨ x b = y b

theorem GM.le_refl {α : Type} (x : GM α) : GM.le x x := fun _ => .inr rfl

theorem GM.le_bind {α β : Type} {x y : GM α} {f g : α → GM β} (h : GM.le x y)
    (hf : ∀ a, GM.le (f a) (g a)) : GM.le (GM.bind x f) (GM.bind y g) := by
  intro b
  unfold GM.bind
  rcases h b with h | h
  · left
    cases hx : x b with
    | mk r b' => rw [hx] at h; simp only at h; subst h; rfl
  · rw [h]
    cases hy : y b with
    | mk r b' =>
      cases r with
      | error e => exact .inr rfl
      | ok a => exact hf a b'

theorem GM.le_collect {α : Type} {f g : α → GM (List String)} (h : ∀ a, GM.le (f a) (g a)) :
    ∀ l, GM.le (GM.collect f l) (GM.collect g l) := by
  intro l
  induction l with
  | nil => exact GM.le_refl _
  | cons a t ih =>
    exact GM.le_bind (h a) fun x => GM.le_bind ih fun y => GM.le_refl _

theorem GM.le_filter {f g : String → GM Bool} (h : ∀ a, GM.le (f a) (g a)) :
    ∀ l, GM.le (GM.filter f l) (GM.filter g l) := by
  intro l
  induction l with
  | nil => exact GM.le_refl _
  | cons a t ih =>
    exact GM.le_bind (h a) fun x => GM.le_bind ih fun y => GM.le_refl _

theorem GM.le_all {f g : String × MVal → GM Bool} (h : ∀ a, GM.le (f a) (g a)) :
    ∀ l, GM.le (GM.all f l) (GM.all g l) := by
  intro l
  induction l with
  | nil => exact GM.le_refl _
  | cons a t ih =>
    refine GM.le_bind (h a) fun x => ?_
    cases x
    · exact GM.le_refl _
    · exact ih

theorem GM.le_fuel {α : Type} (y : GM α) : GM.le (GM.throw .fuel) y := fun _ => .inl rfl

theorem listing_mono (net : Nat → Store D) (n : Nat) :
    (∀ s, GM.le (keysF net n s) (keysF net (n + 1) s)) ∧
    (∀ s d, GM.le (lookupF net n s d) (lookupF net (n + 1) s d)) ∧
    (∀ s k a v, GM.le (metaF net n s k a v) (metaF net (n + 1) s k a v)) ∧
    (∀ s k a, GM.le (derMetaF net n s k a) (derMetaF net (n + 1) s k a)) ∧
    (∀ s k a, GM.le (itemMetaF net n s k a) (itemMetaF net (n + 1) s k a)) := by
  induction n with
  | zero =>
    refine ⟨fun s => ?_, fun s d => ?_, fun s k a v => ?_, fun s k a => ?_, fun s k a => ?_⟩
    · rw [keysF]; exact GM.le_fuel _
    · rw [lookupF]; exact GM.le_fuel _
    · rw [metaF]; exact GM.le_fuel _
    · rw [derMetaF]; exact GM.le_fuel _
    · rw [itemMetaF]; exact GM.le_fuel _
  | succ n ih =>
    obtain ⟨ihK, ihL, ihM, ihD, ihI⟩ := ih
    refine ⟨fun s => ?_, fun s d => ?_, fun s k a v => ?_, fun s k a => ?_, fun s k a => ?_⟩
    · rw [keysF, keysF]
      exact GM.le_bind (GM.le_collect (fun d => ihL s d) _) fun _ => GM.le_refl _
    · intro b
      rw [lookupF, lookupF]
      simp only
      split
      · exact .inr rfl
      · have hle := GM.le_bind (ihK d.source) (fun ks => GM.le_filter (fun k =>
            GM.le_all (fun p => GM.le_bind (ihM d.source k p.1 .none) fun m =>
              GM.le_refl (GM.pure (decide (m = p.2)))) d.inProps) ks)
        rcases hle (some ((net s).group :: b.getD [])) with h | h
        · left
          split
          · rename_i h'; rw [h'] at h; simp at h
          · rename_i h'; rw [h'] at h; simp at h; simp [h]
        · right; rw [h]
    · rw [metaF, metaF]
      cases dget (net s).items k with
      | some it => exact GM.le_refl _
      | none =>
        intro b
        simp only
        rcases ihD s k a b with h | h
        · left
          cases hd : derMetaF net n s k a b with
          | mk r b' => rw [hd] at h; simp only at h; subst h; rfl
        · right; rw [h]
    · rw [derMetaF, derMetaF]
      cases (net s).derivs with
      | nil => exact GM.le_refl _
      | cons d t =>
        refine GM.le_bind (ihL s d) fun ks => ?_
        split
        · split
          · exact GM.le_refl _
          · exact ihI _ _ _
        · exact GM.le_refl _
    · rw [itemMetaF, itemMetaF]
      cases dget (net s).items k with
      | some it => exact GM.le_refl _
      | none =>
        refine GM.le_bind (ihK s) fun ks => ?_
        split
        · exact ihD _ _ _
        · exact GM.le_refl _

/-- **C26 (listing terminates).** For every network of stores with finitely many groups
(in particular every finite one, with any cycles), every store and every state of the cycle
guard, listing the keys ends without an exception after a number of steps that depends only
on the number of groups; giving it more steps does not change the outcome. -/
theorem C26_terminates (net : Nat → Store D) (G : Finset Nat) (hG : ∀ s, (net s).group ∈ G)
    (s : Nat) (b : Option (List Nat)) :
    ∃ ks b', ∀ n, 6 * G.card + 2 ≤ n → keysF net n s b = (.ok ks, b') := by
  obtain ⟨ks, b', h⟩ := keys_any hG s b _ (Nat.le_refl _)
  refine ⟨ks, b', fun n hn => ?_⟩
  induction n, hn using Nat.le_induction with
  | base => exact h
  | succ m _ ih =>
    rcases (listing_mono net m).1 s b with hh | hh
    · rw [ih] at hh; simp at hh
    · rw [← hh, ih]

/-- **C26 (the guard is reset).** A listing that starts with a reset guard leaves it reset
exactly when no derivative of the store has its source in the store's own group. -/
theorem C26_reset (net : Nat → Store D) (G : Finset Nat) (hG : ∀ s, (net s).group ∈ G)
    (s n : Nat) (hn : 6 * G.card + 2 ≤ n) :
    (keysF net n s none).2 = none ↔
      ∀ d ∈ (net s).derivs, (net d.source).group ≠ (net s).group :=
  keys_root hG s n hn

theorem visited_collect (net : Nat → Store D) (n s : Nat) (B : List Nat) :
    ∀ (l : List Deriv), (∀ d ∈ l, (net d.source).group ∈ (net s).group :: B) →
    ∀ B', (net s).group :: B ⊆ (net s).group :: B' →
      ∃ B'', GM.collect (fun d => lookupF net (n + 1) s d) l (some B') = (.ok [], some B'') := by
  intro l
  induction l with
  | nil => intro _ B' _; exact ⟨B', rfl⟩
  | cons d t ih =>
    intro hd B' hB'
    have h1 : lookupF net (n + 1) s d (some B') = (.ok [], some ((net s).group :: B')) := by
      simp only [lookupF, Option.getD_some]
      rw [if_pos (hB' (hd d List.mem_cons_self))]
    obtain ⟨B'', h2⟩ := ih (fun d' hd' => hd d' (List.mem_cons_of_mem _ hd'))
      ((net s).group :: B') (fun x hx => List.mem_cons_of_mem _ (hB' hx))
    refine ⟨B'', ?_⟩
    simp only [GM.collect, GM.bind, h1, h2, GM.pure, List.append_nil]

theorem all_pure (f : String × MVal → GM Bool) (g : String × MVal → Bool)
    (h : ∀ p b, f p b = (.ok (g p), b)) : ∀ l b, GM.all f l b = (.ok (l.all g), b) := by
  intro l
  induction l with
  | nil => intro b; rfl
  | cons p t ih =>
    intro b
    simp only [GM.all, GM.bind, h, List.all_cons]
    cases g p with
    | false => rfl
    | true => simp only [if_true, Bool.true_and]; exact ih b

theorem filter_pure (f : String → GM Bool) (g : String → Bool) (K : List String)
    (h : ∀ k ∈ K, ∀ b, f k b = (.ok (g k), b)) :
    ∀ l, l ⊆ K → ∀ b, GM.filter f l b = (.ok (l.filter g), b) := by
  intro l
  induction l with
  | nil => intro _ b; rfl
  | cons k t ih =>
    intro hl b
    simp only [GM.filter, GM.bind, h k (hl List.mem_cons_self),
      ih (fun x hx => hl (List.mem_cons_of_mem _ hx)), GM.pure, List.filter_cons]

/-- What one derivative contributes to a root listing. -/
theorem lookup_direct (net : Nat → Store D) (n s : Nat) (d : Deriv)
    (h1 : (net d.source).group ≠ (net s).group)
    (h2 : ∀ d' ∈ (net d.source).derivs, (net d'.source).group = (net s).group ∨
      (net d'.source).group = (net d.source).group) :
    lookupF net (n + 3) s d none
      = (.ok (Spec.matching (net d.source).items d.inProps), none) := by
  rw [lookupF]
  simp only [Option.isNone_none, Option.getD_none, if_true]
  rw [if_neg (by simpa using h1)]
  obtain ⟨B, hB⟩ := visited_collect net n d.source [(net s).group] (net d.source).derivs
    (by
      intro d' hd'
      rcases h2 d' hd' with h | h
      · rw [h]; simp
      · rw [h]; simp) [(net s).group] (List.Subset.refl _)
  have hk : keysF net (n + 2) d.source (some [(net s).group])
      = (.ok (dkeys (net d.source).items), some B) := by
    rw [keysF]
    simp only [GM.bind, hB, GM.pure, List.append_nil]
  have hf := filter_pure (fun k =>
            GM.all (fun p => GM.bind (metaF net (n + 2) d.source k p.1 .none) fun m =>
              GM.pure (decide (m = p.2))) d.inProps)
      (fun k => match dget (net d.source).items k with
        | some it => Spec.matchesProps it d.inProps
        | none => false) (dkeys (net d.source).items) (by
        intro k hk b
        obtain ⟨it, hit⟩ := Option.isSome_iff_exists.1 ((dget_isSome _ _).2 hk)
        rw [all_pure _ (fun p => decide ((dget it.props p.1).getD .none = p.2))]
        · simp only [hit]; rfl
        · intro p b
          simp only [GM.bind, metaF_stored b hit, GM.pure]) _ (List.Subset.refl _) (some B)
  have hb : (GM.bind (keysF net (n + 2) d.source) fun ks =>
          GM.filter (fun k =>
            GM.all (fun p => GM.bind (metaF net (n + 2) d.source k p.1 .none) fun m =>
              GM.pure (decide (m = p.2))) d.inProps) ks) (some [(net s).group])
      = (.ok (Spec.matching (net d.source).items d.inProps), some B) := by
    rw [GM.bind]
    simp only [hk]
    exact hf
  rw [hb]

/-- **C26 (what is listed).** If the derivatives of the stores a store derives from lead
only back to that store's group or stay in their own (as between a map and its grains),
the listing consists of the store's own keys followed, for each derivative, by the names of
the source's own items with the wanted metadata; and the guard is reset. -/
theorem C26_lists (net : Nat → Store D) (n s : Nat)
    (h : ∀ d ∈ (net s).derivs, (net d.source).group ≠ (net s).group ∧
      ∀ d' ∈ (net d.source).derivs, (net d'.source).group = (net s).group ∨
        (net d'.source).group = (net d.source).group) :
    keysF net (n + 4) s none = (.ok (dkeys (net s).items ++
      (net s).derivs.flatMap fun d => Spec.matching (net d.source).items d.inProps), none) := by
  have key : ∀ l : List Deriv, (∀ d ∈ l, d ∈ (net s).derivs) →
      GM.collect (fun d => lookupF net (n + 3) s d) l none
        = (.ok (l.flatMap fun d => Spec.matching (net d.source).items d.inProps), none) := by
    intro l
    induction l with
    | nil => intro _; rfl
    | cons d t ih =>
      intro hl
      have hd := h d (hl d List.mem_cons_self)
      simp only [GM.collect, GM.bind, lookup_direct net n s d hd.1 hd.2,
        ih fun d' hd' => hl d' (List.mem_cons_of_mem _ hd'), GM.pure, List.flatMap_cons]
  rw [keysF]
  simp only [GM.bind, key _ (fun d hd => hd), GM.pure]

/-- **C27 (reading through the first derivative).** A key that is not held by the store
itself but supplied by its first derivative is read by applying the derivative's function
to the source's item (or to the name). -/
theorem C27_first_derivative (env : Env D W) (n s : Nat) (key : String)
    (st : DState D W) (d : Deriv) (rest : List Deriv) (ks ks1 : List String)
    (hb : st.been = none) (hown : key ∉ dkeys (st.net s).items)
    (hder : (st.net s).derivs = d :: rest)
    (hks : keysF st.net (n + 1) s none = (.ok ks, none))
    (hks1 : lookupF st.net n s d none = (.ok ks1, none)) (hk : key ∈ ks) (hk1 : key ∈ ks1) :
    getDataF env (n + 2) s key st =
      (if d.passRef then runF env n (env.fn d.fid (.inl key)) st
       else DM.bind (getDataF env n d.source key) (fun v => runF env n (env.fn d.fid (.inr v)))
        st) := by
  obtain ⟨net, been, world, log⟩ := st
  simp only at hb hown hder hks hks1
  subst hb
  have hnone := (dget_eq_none _ _).2 hown
  rw [getDataF]
  simp only [hnone]
  rw [bind_ok (lift_eq (f := fun net => keysF net (n + 1) s) hks), if_pos hk]
  rw [derDataF]
  simp only [hder]
  rw [bind_ok (lift_eq (f := fun net => lookupF net n s d) hks1), if_pos hk1]
  split <;> rfl

/-- **C27 (one derivative per function).** Adding a derivative whose function is already
registered replaces the earlier entry at its place and keeps all others; otherwise it is added
at the end. Other stores and all items are unchanged. -/
theorem C27_add_derivative (s : Nat) (d : Deriv) (st : DState D W) :
    (addDerivF s d st).1 = .ok () ∧
    (∀ pre d' post, (st.net s).derivs = pre ++ d' :: post → d'.fid = d.fid →
      (∀ x ∈ pre, x.fid ≠ d.fid) → ((addDerivF s d st).2.net s).derivs = pre ++ d :: post) ∧
    ((∀ x ∈ (st.net s).derivs, x.fid ≠ d.fid) →
      ((addDerivF s d st).2.net s).derivs = (st.net s).derivs ++ [d]) ∧
    (∀ s', s' ≠ s → (addDerivF s d st).2.net s' = st.net s') ∧
    ((addDerivF s d st).2.net s).items = (st.net s).items := by
  refine ⟨rfl, ?_, ?_, ?_, ?_⟩
  · intro pre d' post hl hd hpre
    simp only [addDerivF, modStore, if_true]
    rw [hl]
    clear hl
    induction pre with
    | nil => simp [addDerivList, hd]
    | cons x pre ih =>
      have hx := hpre x (List.mem_cons_self ..)
      rw [List.cons_append, addDerivList, if_neg hx,
        ih fun y hy => hpre y (List.mem_cons_of_mem _ hy)]
      rfl
  · simp only [addDerivF, modStore, if_true]
    generalize (st.net s).derivs = l
    intro h
    induction l with
    | nil => rfl
    | cons x l ih =>
      rw [addDerivList, if_neg (h x (List.mem_cons_self ..)),
        ih fun y hy => h y (List.mem_cons_of_mem _ hy)]
      rfl
  · intro s' hs
    simp [addDerivF, modStore, hs]
  · simp [addDerivF, modStore]

/-- **C27 (the claim is false).** In every store, a listed key that is neither held by the
store itself nor supplied by its *first* derivative cannot be read: KeyError. -/
theorem C27_other_derivatives (env : Env D W) (n s : Nat) (key : String)
    (st : DState D W) (d : Deriv) (rest : List Deriv) (ks ks1 : List String)
    (hb : st.been = none) (hown : key ∉ dkeys (st.net s).items)
    (hder : (st.net s).derivs = d :: rest)
    (hks : keysF st.net (n + 1) s none = (.ok ks, none))
    (hks1 : lookupF st.net n s d none = (.ok ks1, none)) (hk1 : key ∉ ks1) :
    getDataF env (n + 2) s key st = (.error .keyError, st) := by
  obtain ⟨net, been, world, log⟩ := st
  simp only at hb hown hder hks hks1
  subst hb
  have hnone := (dget_eq_none _ _).2 hown
  rw [getDataF]
  simp only [hnone]
  rw [bind_ok (lift_eq (f := fun net => keysF net (n + 1) s) hks)]
  split
  · rw [derDataF]
    simp only [hder]
    rw [bind_ok (lift_eq (f := fun net => lookupF net n s d) hks1), if_neg hk1]
    rfl
  · rfl

/-- `x` does not reset the guard. -/
def GM.Keeps {α : Type} (x : GM α) : Prop := ∀ B, ∃ B', (x (some B)).2 = some B'

theorem GM.keeps_pure {α : Type} (a : α) : GM.Keeps (GM.pure a) := fun B => ⟨B, rfl⟩

theorem GM.keeps_throw {α : Type} (e : Err) : GM.Keeps (GM.throw e : GM α) := fun B => ⟨B, rfl⟩

theorem GM.keeps_bind {α β : Type} {x : GM α} {f : α → GM β} (h : GM.Keeps x)
    (hf : ∀ a, GM.Keeps (f a)) : GM.Keeps (GM.bind x f) := by
  intro B
  obtain ⟨B', h'⟩ := h B
  unfold GM.bind
  cases hx : x (some B) with
  | mk r b' =>
    rw [hx] at h'
    simp only at h'
    subst h'
    cases r with
    | error e => exact ⟨B', rfl⟩
    | ok a => exact hf a B'

theorem GM.keeps_collect {α : Type} {f : α → GM (List String)} (h : ∀ a, GM.Keeps (f a)) :
    ∀ l, GM.Keeps (GM.collect f l) := by
  intro l
  induction l with
  | nil => exact GM.keeps_pure _
  | cons a t ih =>
    exact GM.keeps_bind (h a) fun x => GM.keeps_bind ih fun y => GM.keeps_pure _

theorem GM.keeps_filter {f : String → GM Bool} (h : ∀ a, GM.Keeps (f a)) :
    ∀ l, GM.Keeps (GM.filter f l) := by
  intro l
  induction l with
  | nil => exact GM.keeps_pure _
  | cons a t ih =>
    exact GM.keeps_bind (h a) fun x => GM.keeps_bind ih fun y => GM.keeps_pure _

theorem GM.keeps_all {f : String × MVal → GM Bool} (h : ∀ a, GM.Keeps (f a)) :
    ∀ l, GM.Keeps (GM.all f l) := by
  intro l
  induction l with
  | nil => exact GM.keeps_pure _
  | cons a t ih =>
    refine GM.keeps_bind (h a) fun x => ?_
    cases x
    · exact GM.keeps_pure _
    · exact ih

theorem listing_keeps (net : Nat → Store D) (n : Nat) :
    (∀ s, GM.Keeps (keysF net n s)) ∧
    (∀ s d, GM.Keeps (lookupF net n s d)) ∧
    (∀ s k a v, GM.Keeps (metaF net n s k a v)) ∧
    (∀ s k a, GM.Keeps (derMetaF net n s k a)) ∧
    (∀ s k a, GM.Keeps (itemMetaF net n s k a)) := by
  induction n with
  | zero =>
    refine ⟨fun s => ?_, fun s d => ?_, fun s k a v => ?_, fun s k a => ?_, fun s k a => ?_⟩
    · rw [keysF]; exact GM.keeps_throw _
    · rw [lookupF]; exact GM.keeps_throw _
    · rw [metaF]; exact GM.keeps_throw _
    · rw [derMetaF]; exact GM.keeps_throw _
    · rw [itemMetaF]; exact GM.keeps_throw _
  | succ n ih =>
    obtain ⟨ihK, ihL, ihM, ihD, ihI⟩ := ih
    refine ⟨fun s => ?_, fun s d => ?_, fun s k a v => ?_, fun s k a => ?_, fun s k a => ?_⟩
    · rw [keysF]
      exact GM.keeps_bind (GM.keeps_collect (fun d => ihL s d) _) fun _ => GM.keeps_pure _
    · intro B
      rw [lookupF]
      simp only
      split
      · exact ⟨_, rfl⟩
      · have hk := GM.keeps_bind (ihK d.source) (fun ks => GM.keeps_filter (fun k =>
            GM.keeps_all (fun p => GM.keeps_bind (ihM d.source k p.1 .none) fun m =>
              GM.keeps_pure (decide (m = p.2))) d.inProps) ks)
        obtain ⟨B', hB'⟩ := hk ((net s).group :: (some B).getD [])
        split
        · rename_i h'; rw [h'] at hB'; exact ⟨B', by simpa using hB'⟩
        · rename_i h'; rw [h'] at hB'; exact ⟨B', hB'⟩
    · rw [metaF]
      cases dget (net s).items k with
      | some it => exact GM.keeps_pure _
      | none =>
        intro B
        simp only
        obtain ⟨B', hB'⟩ := ihD s k a B
        split
        · rename_i h'; rw [h'] at hB'; exact ⟨B', hB'⟩
        · exact ⟨B', hB'⟩
    · rw [derMetaF]
      cases (net s).derivs with
      | nil => exact GM.keeps_throw _
      | cons d t =>
        refine GM.keeps_bind (ihL s d) fun ks => ?_
        split
        · split
          · exact GM.keeps_pure _
          · exact ihI _ _ _
        · exact GM.keeps_throw _
    · rw [itemMetaF]
      cases dget (net s).items k with
      | some it =>
        simp only
        split
        · exact GM.keeps_pure _
        · exact GM.keeps_throw _
      | none =>
        refine GM.keeps_bind (ihK s) fun ks => ?_
        split
        · exact ihD _ _ _
        · exact GM.keeps_throw _

theorem collect_each {α : Type} {f : α → GM (List String)} (hf : ∀ a, GM.Keeps (f a)) :
    ∀ (l : List α) (ks : List String), GM.collect f l none = (.ok ks, none) →
      (∀ a ∈ l, ∃ k', f a none = (.ok k', none)) ∧
      ∀ k, k ∈ ks ↔ ∃ a ∈ l, ∃ k', f a none = (.ok k', none) ∧ k ∈ k' := by
  intro l
  induction l with
  | nil =>
    intro ks h
    simp only [GM.collect, GM.pure, Prod.mk.injEq, Except.ok.injEq, and_true] at h
    subst h
    simp
  | cons a t ih =>
    intro ks h
    simp only [GM.collect, GM.bind] at h
    cases hx : f a none with
    | mk r b =>
      rw [hx] at h
      cases r with
      | error e => simp at h
      | ok x =>
        simp only at h
        cases hy : GM.collect f t b with
        | mk r' b' =>
          rw [hy] at h
          cases r' with
          | error e => simp at h
          | ok y =>
            simp only [GM.pure, Prod.mk.injEq, Except.ok.injEq] at h
            obtain ⟨rfl, rfl⟩ := h
            cases b with
            | some B =>
              obtain ⟨B', hB'⟩ := GM.keeps_collect hf t B
              rw [hy] at hB'
              simp at hB'
            | none =>
              obtain ⟨h1, h2⟩ := ih y hy
              refine ⟨?_, ?_⟩
              · intro c hc
                rcases List.mem_cons.1 hc with rfl | hc
                · exact ⟨x, hx⟩
                · exact h1 c hc
              · intro k
                rw [List.mem_append, h2]
                constructor
                · rintro (hk | ⟨c, hc, k', e, hk⟩)
                  · exact ⟨a, List.mem_cons_self, x, hx, hk⟩
                  · exact ⟨c, List.mem_cons_of_mem _ hc, k', e, hk⟩
                · rintro ⟨c, hc, k', e, hk⟩
                  rcases List.mem_cons.1 hc with rfl | hc
                  · rw [hx] at e
                    simp only [Prod.mk.injEq, Except.ok.injEq, and_true] at e
                    subst e
                    exact .inl hk
                  · exact .inr ⟨c, hc, k', e, hk⟩

/-- **C27 (every listed key).** A listed key is held by the store itself, or supplied by its
first derivative and read through that, or supplied only by a later derivative: then reading it
is a missing-key error. -/
theorem C27_listed (env : Env D W) (n s : Nat) (key : String) (st : DState D W)
    (ks : List String) (hb : st.been = none)
    (hks : keysF st.net (n + 1) s none = (.ok ks, none)) (hk : key ∈ ks) :
    let Supplies := fun d => ∃ k', lookupF st.net n s d none = (.ok k', none) ∧ key ∈ k'
    key ∈ dkeys (st.net s).items ∨
    ∃ d rest, (st.net s).derivs = d :: rest ∧
      ((Supplies d ∧ getDataF env (n + 2) s key st =
          (if d.passRef then runF env n (env.fn d.fid (.inl key)) st
           else DM.bind (getDataF env n d.source key) (fun v => runF env n (env.fn d.fid (.inr v)))
            st)) ∨
       (¬ Supplies d ∧ (∃ d' ∈ rest, Supplies d') ∧
          getDataF env (n + 2) s key st = (.error .keyError, st))) := by
  intro Supplies
  by_cases hown : key ∈ dkeys (st.net s).items
  · exact .inl hown
  right
  have hks' := hks
  rw [keysF, GM.bind] at hks'
  cases hc : GM.collect (fun d => lookupF st.net n s d) (st.net s).derivs none with
  | mk r b =>
    rw [hc] at hks'
    cases r with
    | error e => simp at hks'
    | ok y =>
      simp only [GM.pure, Prod.mk.injEq, Except.ok.injEq] at hks'
      obtain ⟨rfl, rfl⟩ := hks'
      obtain ⟨h1, h2⟩ := collect_each (fun d => (listing_keeps st.net n).2.1 s d) _ _ hc
      have hy : key ∈ y := (List.mem_append.1 hk).resolve_left hown
      obtain ⟨a, ha, k', ea, hka⟩ := (h2 key).1 hy
      cases hder : (st.net s).derivs with
      | nil => rw [hder] at ha; simp at ha
      | cons d rest =>
        obtain ⟨ks1, hks1⟩ := h1 d (by rw [hder]; exact List.mem_cons_self)
        refine ⟨d, rest, rfl, ?_⟩
        by_cases hk1 : key ∈ ks1
        · exact .inl ⟨⟨ks1, hks1, hk1⟩,
            C27_first_derivative env n s key st d rest _ ks1 hb hown hder hks hks1 hk hk1⟩
        · have hnot : ¬ Supplies d := by
            rintro ⟨k'', e, hk''⟩
            rw [hks1] at e
            simp only [Prod.mk.injEq, Except.ok.injEq, and_true] at e
            subst e
            exact hk1 hk''
          refine .inr ⟨hnot, ?_, C27_other_derivatives env n s key st d rest _ ks1 hb hown hder hks
            hks1 hk1⟩
          rw [hder] at ha
          rcases List.mem_cons.1 ha with rfl | ha
          · exact absurd ⟨k', ea, hka⟩ hnot
          · exact ⟨a, ha, k', ea, hka⟩

/-- **C28 (default).** Metadata that a stored item does not have, and metadata of a key
that the store does not hold and its first derivative does not supply, is the default. -/
theorem C28_default (net : Nat → Store D) (n s : Nat) (k a : String) (dflt : MVal) :
    (∀ it b, dget (net s).items k = some it →
      metaF net (n + 1) s k a dflt b = (.ok ((dget it.props a).getD dflt), b)) ∧
    (∀ d rest ks1 b b', (net s).derivs = d :: rest → k ∉ dkeys (net s).items →
      lookupF net n s d b = (.ok ks1, b') → k ∉ ks1 →
      metaF net (n + 2) s k a dflt b = (.ok dflt, b')) := by
  refine ⟨fun it b h => metaF_stored b h, ?_⟩
  intro d rest ks1 b b' hder hown hl hk
  rw [metaF]
  simp only [(dget_eq_none _ _).2 hown]
  have : derMetaF net (n + 1) s k a b = (.error .keyError, b') := by
    rw [derMetaF]
    simp only [hder, GM.bind, hl, if_neg hk]
    rfl
  rw [this]

/-- **C28 (derived metadata).** For a key supplied by the first derivative, metadata is
the value the derivative gives for it, else the source item's, else the default. -/
theorem C28_derived (net : Nat → Store D) (n s : Nat) (k a : String) (dflt : MVal)
    (d : Deriv) (rest : List Deriv) (ks1 : List String) (b b' : Option (List Nat)) (it : Item D)
    (hder : (net s).derivs = d :: rest) (hown : k ∉ dkeys (net s).items)
    (hl : lookupF net (n + 1) s d b = (.ok ks1, b')) (hk : k ∈ ks1)
    (hsrc : dget (net d.source).items k = some it) :
    metaF net (n + 3) s k a dflt b
      = (.ok (((dget d.outProps a).or (dget it.props a)).getD dflt), b') := by
  rw [metaF]
  simp only [(dget_eq_none _ _).2 hown]
  rw [derMetaF]
  simp only [hder, GM.bind, hl, if_pos hk]
  cases ho : dget d.outProps a with
  | some v => simp [GM.pure]
  | none =>
    rw [itemMetaF]
    simp only [hsrc]
    cases hp : dget it.props a with
    | some v => simp [GM.pure]
    | none => simp [GM.throw]

/-- **C28 (derived metadata, any depth).** For a key supplied by the first derivative, metadata
is the value the derivative gives for it, else that of the item in the source, whichever way the
source has it, and the default where that is a missing key. -/
theorem C28_chain (net : Nat → Store D) (n s : Nat) (k a : String) (dflt : MVal)
    (d : Deriv) (rest : List Deriv) (ks1 : List String) (b b' : Option (List Nat))
    (hder : (net s).derivs = d :: rest) (hown : k ∉ dkeys (net s).items)
    (hl : lookupF net n s d b = (.ok ks1, b')) (hk : k ∈ ks1) :
    (∀ v, dget d.outProps a = some v → metaF net (n + 2) s k a dflt b = (.ok v, b')) ∧
    (∀ r b'', dget d.outProps a = none → itemMetaF net n d.source k a b' = (r, b'') →
      metaF net (n + 2) s k a dflt b = (if r = .error .keyError then .ok dflt else r, b'')) := by
  rw [metaF]
  simp only [(dget_eq_none _ _).2 hown]
  rw [derMetaF]
  simp only [hder, GM.bind, hl, if_pos hk]
  refine ⟨?_, ?_⟩
  · intro v hv
    simp [hv, GM.pure]
  · intro r b'' hv hr
    simp only [hv, hr]
    cases r with
    | ok v => simp
    | error e => cases e <;> simp

/-- **C28 (the claim is false).** In every store without derivatives, asking for the
metadata of an unknown key raises an unbound-variable error instead of giving the default. -/
theorem C28_no_derivatives (net : Nat → Store D) (n s : Nat) (k a : String) (dflt : MVal)
    (b : Option (List Nat)) (hder : (net s).derivs = []) (hk : k ∉ dkeys (net s).items) :
    metaF net (n + 2) s k a dflt b = (.error .unboundLocalError, b) := by
  rw [metaF]
  simp only [(dget_eq_none _ _).2 hk]
  rw [derMetaF]
  simp only [hder]
  rfl

end

/-! ### Examples

Store 0 is a DIC map, store 1 its first grain, store 2 the linked EBSD map. The DIC map was
linked to the EBSD map first and then its grains were found. -/

namespace NetEx

def mapProps : List (String × MVal) := [("type", .str "map")]
def listProps : List (String × MVal) := [("type", .str "list")]

def net : Nat → Store Nat
  | 0 => { items := [("max_shear", ⟨some 5, mapProps⟩)], gens := [],
           derivs := [⟨2, 0, mapProps, [], false⟩, ⟨1, 1, listProps, mapProps, true⟩],
           group := 0, cropFn := none, maskFn := none }
  | 1 => { items := [("point", ⟨some 1, listProps⟩), ("note", ⟨some 2, []⟩)], gens := [],
           derivs := [⟨0, 2, mapProps, listProps, false⟩],
           group := 1, cropFn := none, maskFn := none }
  | _ => { items := [("euler", ⟨some 7, mapProps⟩), ("x", ⟨some 8, []⟩)], gens := [],
           derivs := [], group := 2, cropFn := none, maskFn := none }

theorem groups : ∀ s, (net s).group ∈ ({0, 1, 2} : Finset Nat) := by
  intro s
  match s with
  | 0 => decide
  | 1 => decide
  | _ + 2 => show 2 ∈ _; decide

/-- The map and its grain derive from each other; the listing is what `C26_lists` says. -/
example : keysF net 4 0 none = (.ok ["max_shear", "euler", "point"], none) := by
  have h := C26_lists net 0 0 (by
    intro d hd
    simp only [net, List.mem_cons, List.not_mem_nil, or_false] at hd
    rcases hd with rfl | rfl
    · exact ⟨by decide, by intro d' hd'; simp [net] at hd'⟩
    · refine ⟨by decide, fun d' hd' => ?_⟩
      simp only [net, List.mem_cons, List.not_mem_nil, or_false] at hd'
      subst hd'; left; rfl)
  rw [h]; decide +kernel

example : ∃ ks b', ∀ n, 20 ≤ n → keysF net n 1 (some [7]) = (.ok ks, b') :=
  C26_terminates net {0, 1, 2} groups 1 (some [7])

example : (keysF net 20 1 none).2 = none :=
  (C26_reset net {0, 1, 2} groups 1 20 (by decide)).2 (by decide)

/-- When a store derives from one of its own group the guard stays set, and the next
listing of another store of the network loses keys: here `b` is listed first and not at
the second time. -/
def stuck : Nat → Store Nat
  | 0 => { items := [("a", ⟨some 5, mapProps⟩)], gens := [], derivs := [⟨2, 0, [], [], false⟩],
           group := 0, cropFn := none, maskFn := none }
  | 1 => { items := [], gens := [], derivs := [⟨3, 1, [], [], false⟩],
           group := 1, cropFn := none, maskFn := none }
  | 2 => { items := [("b", ⟨some 5, mapProps⟩)], gens := [], derivs := [],
           group := 1, cropFn := none, maskFn := none }
  | _ => { items := [], gens := [], derivs := [], group := 1, cropFn := none, maskFn := none }

example : keysF stuck 20 0 none = (.ok ["a", "b"], none) ∧
    keysF stuck 20 1 none = (.ok [], some [1]) ∧
    keysF stuck 20 0 (some [1]) = (.ok ["a"], some [0, 1]) := by decide +kernel

def env : Env Nat Unit where
  gen := fun _ _ => .ret none
  fn := fun f a => match f, a with
    | 0, .inr v => .ret (v.map (· + 100))
    | _, _ => .ret (some 42)
  crop := fun _ v _ => .ret v
  mask := fun _ v => .ret v
  iter := fun _ => none

def st : DState Nat Unit := { net := net, been := none, world := (), log := [] }

/-- `euler` comes through the first derivative and can be read. -/
example : (getDataF env 9 0 "euler" st).1 = .ok (some 107) := by
  rw [C27_first_derivative env 7 0 "euler" st _ _ ["max_shear", "euler", "point"] ["euler"]
    rfl (by decide) rfl (by decide +kernel) (by decide +kernel) (by decide) (by decide)]
  decide +kernel

example : metaF net 9 0 "nothing" "unit" (.str "px") none = (.ok (.str "px"), none) :=
  (C28_default net 7 0 "nothing" "unit" (.str "px")).2 _ _ ["euler"] none none rfl
    (by decide) (by decide +kernel) (by decide)

example : metaF net 9 1 "max_shear" "type" .none none = (.ok (.str "list"), none) := by
  rw [C28_derived net 6 1 "max_shear" "type" .none _ _ ["max_shear", "euler"] none none
    ⟨some 5, mapProps⟩ rfl (by decide) (by decide +kernel) (by decide) rfl]
  decide +kernel

example : metaF net 9 2 "nothing" "unit" (.str "px") none = (.error .unboundLocalError, none) :=
  C28_no_derivatives net 7 2 "nothing" "unit" (.str "px") none rfl (by decide)

end NetEx

/-- `point` is listed but comes through the second derivative: reading it fails. -/
theorem C27_counterexample : (keysF NetEx.net 9 0 none).1 = .ok ["max_shear", "euler", "point"] ∧
    getDataF NetEx.env 9 0 "point" NetEx.st = (.error .keyError, NetEx.st) :=
  ⟨by decide +kernel, C27_other_derivatives NetEx.env 7 0 "point" NetEx.st _ _
    ["max_shear", "euler", "point"] ["euler"] rfl (by decide) rfl (by decide +kernel)
    (by decide +kernel) (by decide)⟩

end DefDAP
