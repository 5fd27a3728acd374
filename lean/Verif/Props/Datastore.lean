import Verif.Proofs.DatastoreOps

/-! C23-C25: storing and generating data. -/

namespace DefDAP

section
variable {D W : Type}

/-- No callable given to the stores writes item `k` of store `s` directly. (The library's
only direct write is `calc_mask`, which writes its own item.) -/
def Env.LeavesAlone (env : Env D W) (s : Nat) (k : String) : Prop :=
  let A : Nat → String → Prop := fun s' k' => ¬ (s' = s ∧ k' = k)
  (∀ g kw, (env.gen g kw).Writes A) ∧ (∀ f a, (env.fn f a).Writes A) ∧
  (∀ f v b, (env.crop f v b).Writes A) ∧ (∀ f v, (env.mask f v).Writes A)

theorem writes_true (p : Prog D W) : p.Writes (fun _ _ => True) := by
  induction p with
  | ret v => trivial
  | fail e => trivial
  | read s key k ih => exact fun r => ih r
  | getMeta s key a d k ih => exact fun r => ih r
  | set s key v k ih => exact ⟨trivial, fun r => ih r⟩
  | addDeriv s d k ih => exact ih
  | world k ih => exact fun w => ih w
  | setWorld w k ih => exact ih

theorem frameInv {env : Env D W} {s : Nat} {k : String} (h : env.LeavesAlone s k)
    (x : Option (Item D)) :
    Inv env (fun st => dget (st.net s).items k = x ∧ ∀ e ∈ (st.net s).gens, k ∉ e.1)
      (fun s' k' => ¬ (s' = s ∧ k' = k)) (fun _ _ _ => True) where
  been := fun _ _ h => h
  world := fun _ _ h => h
  deriv := by
    intro st s' d h
    rw [addDeriv_items, addDeriv_gens]; exact h
  put := by
    intro st s' key it v hA _ h
    rw [putItem_dget, putItem_gens, if_neg]
    · exact h
    · rintro ⟨rfl, rfl⟩; exact hA ⟨rfl, rfl⟩
  call := fun _ _ _ _ _ _ _ => trivial
  gen := by
    intro st s' key keys gid hI _ hf
    refine ⟨?_, h.1 gid, hI⟩
    rintro k' hk' ⟨rfl, rfl⟩
    exact hI.2 _ (List.mem_of_find?_eq_some hf) hk'
  fn := h.2.1
  crop := h.2.2.1
  mask := h.2.2.2

theorem keysInv (env : Env D W) (s : Nat) (K : List String) :
    Inv env (fun st => dkeys (st.net s).items = K) (fun _ _ => True) (fun _ _ _ => True) where
  been := fun _ _ h => h
  world := fun _ _ h => h
  deriv := by
    intro st s' d h
    rw [addDeriv_items]; exact h
  put := by
    intro st s' key it v _ hd h
    rw [putItem_dkeys, if_neg]
    · exact h
    · rintro ⟨rfl, hk⟩; exact hk (mem_dkeys_of_dget hd)
  call := fun _ _ _ _ _ _ _ => trivial
  gen := fun _ _ _ _ _ hI _ _ => ⟨fun _ _ => trivial, fun _ => writes_true _, hI⟩
  fn := fun _ _ => writes_true _
  crop := fun _ _ _ => writes_true _
  mask := fun _ _ => writes_true _

theorem dget_dupdate {κ α : Type} [DecidableEq κ] (e : List (κ × α)) (k : κ) :
    ∀ d : List (κ × α), dget (dupdate d e) k = (dget e.reverse k).or (dget d k) := by
  have happ : ∀ (l l' : List (κ × α)), dget (l ++ l') k = (dget l k).or (dget l' k) := by
    intro l l'
    induction l with
    | nil => simp [dget]
    | cons a t ih =>
      simp only [List.cons_append, dget]
      split <;> simp [ih]
  induction e with
  | nil => intro d; simp [dupdate, dget]
  | cons a t ih =>
    intro d
    have : dupdate d (a :: t) = dupdate (dset d a.1 a.2) t := rfl
    rw [this, ih, List.reverse_cons, happ, dget_dset]
    cases dget t.reverse k with
    | some v => simp
    | none =>
      simp only [Option.none_or, dget]
      split <;> simp

theorem dkeys_dupdate {κ α : Type} [DecidableEq κ] (e : List (κ × α)) :
    ∀ d : List (κ × α), dkeys (dupdate d e) =
      (dkeys e).foldl (fun ks k => if k ∈ ks then ks else ks ++ [k]) (dkeys d) := by
  induction e with
  | nil => intro d; rfl
  | cons a t ih =>
    intro d
    have : dupdate d (a :: t) = dupdate (dset d a.1 a.2) t := rfl
    rw [this, ih, dkeys_dset, dkeys_cons]
    rfl

theorem void_snd {α : Type} (x : DM D W α) (st : DState D W) : (DM.void x st).2 = (x st).2 := by
  unfold DM.void DM.bind
  cases x st with
  | mk r st' => cases r <;> rfl

theorem update_items (s : Nat) (items : List (String × Item D)) (st : DState D W) (s' : Nat) :
    ((updateF s items st).2.net s').items =
      if s' = s then dupdate (st.net s').items items else (st.net s').items := by
  unfold updateF
  by_cases h : s' = s
  · subst h; simp
  · simp only []; rw [modStore_net_ne _ _ h, if_neg h]

theorem update_gens (s : Nat) (items : List (String × Item D)) (st : DState D W) (s' : Nat) :
    ((updateF s items st).2.net s').gens = (st.net s').gens := by
  unfold updateF
  by_cases h : s' = s
  · subst h; simp
  · simp only []; rw [modStore_net_ne _ _ h]

theorem addGen_cases (n s : Nat) (keys : List String) (gid : Nat)
    (metas : Option (List (List (String × MVal)))) (kw : List (String × MVal))
    (st : DState D W) :
    let L := addGenLoop n s metas kw keys 0 st
    (∃ e, L.1 = .error e ∧ addGenF n s keys gid metas kw st = (.error e, L.2)) ∨
    (L.1 = .ok () ∧ addGenF n s keys gid metas kw st =
      (.ok (), modStore L.2 s fun x => { x with gens := dset x.gens keys gid })) := by
  intro L
  cases hL : L with
  | mk r st' =>
    cases r with
    | error e => exact .inl ⟨e, rfl, by unfold addGenF; rw [bind_err hL]⟩
    | ok u => exact .inr ⟨rfl, by unfold addGenF; rw [bind_ok hL]⟩

/-- Effect of one operation on an item no callable writes and no generator makes. -/
theorem step_item {env : Env D W} {s : Nat} {k : String} (henv : env.LeavesAlone s k) (n : Nat)
    (op : DOp D W) (hop : ∀ ks g ms kw, op = .addGen s ks g ms kw → k ∉ ks)
    (st : DState D W) (hg : ∀ e ∈ (st.net s).gens, k ∉ e.1)
    (before : List (DOp D W × Except Err Unit))
    (hd : (dget (st.net s).items k).map (·.data) = Spec.lastData s k before)
    (hm : ∀ a, (dget (st.net s).items k).bind (fun it => dget it.props a)
      = Spec.lastMeta s k a before) :
    let r := stepF env n op st
    (∀ e ∈ (r.2.net s).gens, k ∉ e.1) ∧
    (dget (r.2.net s).items k).map (·.data) = Spec.lastData s k ((op, r.1) :: before) ∧
    (∀ a, (dget (r.2.net s).items k).bind (fun it => dget it.props a)
      = Spec.lastMeta s k a ((op, r.1) :: before)) := by
  have hframe := frameInv henv (dget (st.net s).items k)
  -- operations that leave the item and the specification alone
  have same : ∀ st' : DState D W, (dget (st'.net s).items k = dget (st.net s).items k ∧
      ∀ e ∈ (st'.net s).gens, k ∉ e.1) → (∀ e ∈ (st'.net s).gens, k ∉ e.1) ∧
      (dget (st'.net s).items k).map (·.data) = Spec.lastData s k before ∧
      (∀ a, (dget (st'.net s).items k).bind (fun it => dget it.props a)
        = Spec.lastMeta s k a before) := by
    rintro st' ⟨h1, h2⟩
    rw [h1]; exact ⟨h2, hd, hm⟩
  intro r
  cases op with
  | add s' key v kw =>
    rcases addF_cases n s' key v kw st with ⟨e, b, h⟩ | ⟨b, hk, -, h⟩
    · have hr : r = (.error e, { st with been := b }) := h
      rw [hr]; exact ⟨hg, by simpa [Spec.lastData, Spec.accepted] using hd,
        by simpa [Spec.lastMeta, Spec.accepted] using hm⟩
    · have hr : r = (.ok (), putItem { st with been := b } s' key { data := v, props := kw }) := h
      rw [hr]
      simp only [Spec.lastData, Spec.lastMeta, Spec.accepted, if_true, putItem_dget, putItem_gens]
      refine ⟨hg, ?_, fun a => ?_⟩
      · by_cases h' : s' = s ∧ key = k
        · rw [if_pos ⟨h'.1.symm, h'.2⟩, if_pos h']; rfl
        · rw [if_neg (fun h'' => h' ⟨h''.1.symm, h''.2⟩), if_neg h']; exact hd
      · by_cases h' : s' = s ∧ key = k
        · rw [if_pos ⟨h'.1.symm, h'.2⟩, if_pos h']; rfl
        · rw [if_neg (fun h'' => h' ⟨h''.1.symm, h''.2⟩), if_neg h']; exact hm a
  | addGen s' ks g ms kw =>
    obtain ⟨h1, -, h3, h4, -, -⟩ := addGenLoop_spec (W := W) (D := D) n s' ms kw ks 0 st
    have hdk : dget ((addGenLoop n s' ms kw ks 0 st).2.net s).items k
        = dget (st.net s).items k := by
      by_cases hs : s = s'
      · subst hs; exact h3 s k (hop ks g ms kw rfl)
      · rw [h4 s hs]
    have hspec : ∀ x, Spec.lastData s k ((DOp.addGen s' ks g ms kw, x) :: before)
        = Spec.lastData s k before ∧ ∀ a, Spec.lastMeta s k a ((DOp.addGen s' ks g ms kw, x)
          :: before) = Spec.lastMeta s k a before := by
      intro x
      constructor
      · simp only [Spec.lastData]; split <;> rfl
      · intro a; simp only [Spec.lastMeta]; split <;> rfl
    rw [(hspec r.1).1]; simp only [(hspec r.1).2]
    apply same
    rcases addGen_cases n s' ks g ms kw st with ⟨e, -, h⟩ | ⟨-, h⟩
    · have hr : r.2 = (addGenLoop n s' ms kw ks 0 st).2 :=
        (congrArg Prod.snd h : (addGenF n s' ks g ms kw st).2 = _)
      rw [hr]; exact ⟨hdk, by rw [(h1 s).1]; exact hg⟩
    · have hr : r.2 = modStore (addGenLoop n s' ms kw ks 0 st).2 s'
          fun x => { x with gens := dset x.gens ks g } := congrArg Prod.snd h
      rw [hr]
      by_cases hs : s = s'
      · subst hs
        rw [modStore_net_self]
        refine ⟨hdk, ?_⟩
        simp only [(h1 s).1]
        have : ∀ (l : List (List String × Nat)), (∀ e ∈ l, k ∉ e.1) →
            ∀ e ∈ dset l ks g, k ∉ e.1 := by
          intro l
          induction l with
          | nil =>
            intro _ e he
            simp only [dset, List.mem_singleton] at he
            subst he; exact hop ks g ms kw rfl
          | cons a t ih =>
            intro hl e he
            simp only [dset] at he
            split at he
            · rcases List.mem_cons.1 he with rfl | he
              · exact hl a List.mem_cons_self
              · exact hl e (List.mem_cons_of_mem _ he)
            · rcases List.mem_cons.1 he with rfl | he
              · exact hl _ List.mem_cons_self
              · exact ih (fun e he => hl e (List.mem_cons_of_mem _ he)) e he
        exact this _ hg
      · rw [modStore_net_ne _ _ hs]
        exact ⟨hdk, by rw [(h1 s).1]; exact hg⟩
  | addDeriv s' d =>
    have hr : r = addDerivF s' d st := rfl
    have : r.1 = .ok () := rfl
    simp only [Spec.lastData, Spec.lastMeta, this, Spec.accepted, if_true]
    apply same
    rw [hr, addDeriv_items, addDeriv_gens]; exact ⟨rfl, hg⟩
  | setData s' key v =>
    rcases setDataF_cases n s' key v st with ⟨e, b, h⟩ | ⟨b, it, hk, h⟩
    · have hr : r = (.error e, { st with been := b }) := h
      rw [hr]; exact ⟨hg, by simpa [Spec.lastData, Spec.accepted] using hd,
        by simpa [Spec.lastMeta, Spec.accepted] using hm⟩
    · have hr : r = (.ok (), putItem { st with been := b } s' key { it with data := v }) := h
      rw [hr]
      simp only [Spec.lastData, Spec.lastMeta, Spec.accepted, if_true, putItem_dget, putItem_gens]
      refine ⟨hg, ?_, fun a => ?_⟩
      · by_cases h' : s' = s ∧ key = k
        · rw [if_pos ⟨h'.1.symm, h'.2⟩, if_pos h']; rfl
        · rw [if_neg (fun h'' => h' ⟨h''.1.symm, h''.2⟩), if_neg h']; exact hd
      · by_cases h' : s' = s ∧ key = k
        · obtain ⟨rfl, rfl⟩ := h'
          rw [if_pos ⟨rfl, rfl⟩, ← hm a, hk]; rfl
        · rw [if_neg (fun h'' => h' ⟨h''.1.symm, h''.2⟩)]; exact hm a
  | setMeta s' key attr m =>
    rcases setMetaF_cases n s' key attr m st with ⟨e, b, h⟩ | ⟨b, it, hk, h⟩
    · have hr : r = (.error e, { st with been := b }) := h
      rw [hr]; exact ⟨hg, by simpa [Spec.lastData, Spec.accepted] using hd,
        by simpa [Spec.lastMeta, Spec.accepted] using hm⟩
    · have hr : r = (.ok (), putItem { st with been := b } s' key
          { it with props := dset it.props attr m }) := h
      rw [hr]
      simp only [Spec.lastData, Spec.lastMeta, Spec.accepted, if_true, putItem_dget, putItem_gens]
      refine ⟨hg, ?_, fun a => ?_⟩
      · by_cases h' : s' = s ∧ key = k
        · obtain ⟨rfl, rfl⟩ := h'
          rw [if_pos ⟨rfl, rfl⟩, ← hd, hk]; rfl
        · rw [if_neg (fun h'' => h' ⟨h''.1.symm, h''.2⟩)]; exact hd
      · by_cases h' : s' = s ∧ key = k
        · obtain ⟨rfl, rfl⟩ := h'
          rw [if_pos ⟨rfl, rfl⟩]
          simp only [Option.bind_some, dget_dset, true_and]
          split
          · rfl
          · rw [← hm a, hk]; rfl
        · rw [if_neg (fun h'' => h' ⟨h''.1.symm, h''.2⟩), if_neg (fun h'' => h' ⟨h''.1, h''.2.1⟩)]
          exact hm a
  | update s' items =>
    have hr : r = updateF s' items st := rfl
    have h1 : r.1 = .ok () := rfl
    simp only [Spec.lastData, Spec.lastMeta, h1, Spec.accepted, if_true]
    rw [hr, update_items, update_gens]
    refine ⟨hg, ?_, fun a => ?_⟩
    · by_cases h' : s' = s
      · subst h'
        rw [if_pos rfl, if_pos rfl, dget_dupdate, ← hd]
        cases dget items.reverse k <;> simp
      · rw [if_neg (Ne.symm h'), if_neg h']; exact hd
    · by_cases h' : s' = s
      · subst h'
        rw [if_pos rfl, if_pos rfl, dget_dupdate, ← hm a]
        cases dget items.reverse k <;> simp
      · rw [if_neg (Ne.symm h'), if_neg h']; exact hm a
  | read s' key =>
    have hspec : ∀ x, Spec.lastData s k ((DOp.read s' key, x) :: before)
        = Spec.lastData s k before ∧ ∀ a, Spec.lastMeta s k a ((DOp.read s' key, x)
          :: before) = Spec.lastMeta s k a before := by
      intro x
      constructor
      · simp only [Spec.lastData]; split <;> rfl
      · intro a; simp only [Spec.lastMeta]; split <;> rfl
    rw [(hspec r.1).1]; simp only [(hspec r.1).2]
    apply same
    have hr : r.2 = (getDataF env n s' key st).2 := void_snd _ _
    rw [hr]
    exact (hframe.keeps_all n).1 s' key st ⟨rfl, hg⟩
  | generate s' key kw =>
    have hspec : ∀ x, Spec.lastData s k ((DOp.generate s' key kw, x) :: before)
        = Spec.lastData s k before ∧ ∀ a, Spec.lastMeta s k a ((DOp.generate s' key kw, x)
          :: before) = Spec.lastMeta s k a before := by
      intro x
      constructor
      · simp only [Spec.lastData]; split <;> rfl
      · intro a; simp only [Spec.lastMeta]; split <;> rfl
    rw [(hspec r.1).1]; simp only [(hspec r.1).2]
    apply same
    have hr : r.2 = (generateF env n s' key kw st).2 := void_snd _ _
    rw [hr]
    exact (hframe.keeps_all n).2.2.1 s' key kw st trivial ⟨rfl, hg⟩
  | getMeta s' key attr dflt =>
    have hspec : ∀ x, Spec.lastData s k ((DOp.getMeta s' key attr dflt, x) :: before)
        = Spec.lastData s k before ∧ ∀ a, Spec.lastMeta s k a ((DOp.getMeta s' key attr dflt, x)
          :: before) = Spec.lastMeta s k a before := by
      intro x
      constructor
      · simp only [Spec.lastData]; split <;> rfl
      · intro a; simp only [Spec.lastMeta]; split <;> rfl
    rw [(hspec r.1).1]; simp only [(hspec r.1).2]
    apply same
    have hr : r.2 = (DM.lift (fun net => metaF net n s' key attr dflt) st).2 := void_snd _ _
    rw [hr]
    exact ⟨rfl, hg⟩
  | list s' =>
    have hspec : ∀ x, Spec.lastData s k ((DOp.list s', x) :: before)
        = Spec.lastData s k before ∧ ∀ a, Spec.lastMeta s k a ((DOp.list s', x)
          :: before) = Spec.lastMeta s k a before := by
      intro x
      constructor
      · simp only [Spec.lastData]; split <;> rfl
      · intro a; simp only [Spec.lastMeta]; split <;> rfl
    rw [(hspec r.1).1]; simp only [(hspec r.1).2]
    apply same
    have hr : r.2 = (DM.lift (fun net => keysF net n s') st).2 := void_snd _ _
    rw [hr]
    exact ⟨rfl, hg⟩
  | setWorld w =>
    have h1 : r.1 = .ok () := rfl
    simp only [Spec.lastData, Spec.lastMeta, h1, Spec.accepted, if_true]
    apply same
    exact ⟨rfl, hg⟩

theorem runOps_item {env : Env D W} {s : Nat} {k : String} (henv : env.LeavesAlone s k) (n : Nat) :
    ∀ (ops : List (DOp D W)) (st : DState D W) (before : List (DOp D W × Except Err Unit)),
    (∀ op ∈ ops, ∀ ks g ms kw, op = .addGen s ks g ms kw → k ∉ ks) →
    (∀ e ∈ (st.net s).gens, k ∉ e.1) →
    (dget (st.net s).items k).map (·.data) = Spec.lastData s k before →
    (∀ a, (dget (st.net s).items k).bind (fun it => dget it.props a)
      = Spec.lastMeta s k a before) →
    let r := runOps env n ops st
    (∀ e ∈ (r.2.net s).gens, k ∉ e.1) ∧
    (dget (r.2.net s).items k).map (·.data) = Spec.lastData s k (r.1.reverse ++ before) ∧
    (∀ a, (dget (r.2.net s).items k).bind (fun it => dget it.props a)
      = Spec.lastMeta s k a (r.1.reverse ++ before)) := by
  intro ops
  induction ops with
  | nil => intro st before _ hg hd hm; exact ⟨hg, hd, hm⟩
  | cons op t ih =>
    intro st before hop hg hd hm
    obtain ⟨h1, h2, h3⟩ := step_item henv n op (hop op List.mem_cons_self) st hg before hd hm
    have := ih (stepF env n op st).2 ((op, (stepF env n op st).1) :: before)
      (fun o ho => hop o (List.mem_cons_of_mem _ ho)) h1 h2 h3
    simp only [runOps, List.reverse_cons, List.append_assoc, List.singleton_append]
    exact this

/-- **C23 (last write).** Start with empty stores and apply any history of operations –
adds, sets, metadata changes, updates, reads that may run generators, listings – on any
number of stores. For an item that no generator produces and no callable writes directly,
the stored data is the data of the last accepted add, set or update of that very item,
and each piece of its metadata is the last one given. -/
theorem C23_last_write (env : Env D W) (n : Nat) (ops : List (DOp D W)) (st0 : DState D W)
    (s : Nat) (k : String) (henv : env.LeavesAlone s k)
    (h0 : (st0.net s).items = [] ∧ (st0.net s).gens = [])
    (hgen : ∀ op ∈ ops, ∀ ks g ms kw, op = .addGen s ks g ms kw → k ∉ ks) :
    let r := runOps env n ops st0
    (dget (r.2.net s).items k).map (·.data) = Spec.lastData s k r.1.reverse ∧
    (∀ a, (dget (r.2.net s).items k).bind (fun it => dget it.props a)
      = Spec.lastMeta s k a r.1.reverse) := by
  have := runOps_item henv n ops st0 [] hgen (by rw [h0.2]; simp)
    (by rw [h0.1]; rfl) (by intro a; rw [h0.1]; rfl)
  simp only [List.append_nil] at this
  exact this.2

/-- **C23 (reading).** Reading an item whose data is present and which is not a map gives
that data and changes nothing at all. -/
theorem C23_read (env : Env D W) (n s : Nat) (k : String) (st : DState D W) (it : Item D)
    (v : D) (hit : dget (st.net s).items k = some it) (hv : it.data = some v)
    (hmap : dget it.props "type" ≠ some (.str "map")) :
    getDataF env (n + 1) s k st = (.ok (some v), st) := by
  simp only [getDataF, hit, hv, valueOrGen]
  rw [bind_ok (x := DM.pure (some v)) (a := some v) (st' := st) rfl]
  unfold finishRead
  have : metaF st.net 1 s k "type" .none st.been = (.ok ((dget it.props "type").getD .none), st.been) := by
    simp only [metaF, hit, GM.pure]
  rw [bind_ok (lift_eq (f := fun net => metaF net 1 s k "type" .none) this)]
  rw [if_neg]
  · rfl
  · intro h
    apply hmap
    cases hc : dget it.props "type" with
    | none => rw [hc] at h; simp at h
    | some x => rw [hc] at h; simpa using h

/-- **C23 (rejections).** Adding succeeds exactly when the key is not listed and no
metadata is called `data`; setting succeeds exactly when the store holds the key. Refused
operations leave every store, the outside state and the generator log as they were. `ks`
is the store's listing. -/
theorem C23_reject (n s : Nat) (k : String) (v : Option D) (kw : List (String × MVal))
    (st : DState D W) (ks : List String) (b : Option (List Nat))
    (hks : keysF st.net n s st.been = (.ok ks, b)) :
    (((addF n s k v kw st).1 = .ok () ↔ k ∉ ks ∧ "data" ∉ dkeys kw) ∧
      ((addF n s k v kw st).1 ≠ .ok () → addF n s k v kw st =
        (.error .valueError, { st with been := b }))) ∧
    (((setDataF n s k v st).1 = .ok () ↔ k ∈ dkeys (st.net s).items) ∧
      (k ∉ ks → setDataF n s k v st = (.error .valueError, { st with been := b })) ∧
      ((setDataF n s k v st).1 ≠ .ok () → (setDataF n s k v st).2 = { st with been := b })) := by
  have hsub := keysF_sub hks
  constructor
  · unfold addF
    rw [bind_ok (lift_eq (f := fun net => keysF net n s) hks)]
    by_cases h1 : k ∈ ks
    · simp [h1, DM.throw]
    · by_cases h2 : "data" ∈ dkeys kw
      · simp [h1, h2, DM.throw]
      · simp [h1, h2]
  · unfold setDataF
    rw [bind_ok (lift_eq (f := fun net => keysF net n s) hks)]
    by_cases h1 : k ∈ ks
    · simp only [h1, if_true, not_true, false_implies, true_and]
      cases hd : dget (st.net s).items k with
      | none => simp [(dget_eq_none _ _).1 hd]
      | some it => simp [mem_dkeys_of_dget hd]
    · have : k ∉ dkeys (st.net s).items := fun h => h1 (hsub h)
      simp [h1, this, DM.throw]

theorem step_keys {env : Env D W} {s : Nat} (n : Nat) (op : DOp D W) (st : DState D W)
    (hop : ∀ ks g ms kw, op = .addGen s ks g ms kw → (stepF env n op st).1 = .ok ())
    (before : List (DOp D W × Except Err Unit))
    (hk : dkeys (st.net s).items = Spec.addedKeys s before) :
    dkeys ((stepF env n op st).2.net s).items
      = Spec.addedKeys s ((op, (stepF env n op st).1) :: before) := by
  have hinv := keysInv env s (Spec.addedKeys s before)
  generalize hr : stepF env n op st = r at *
  cases op with
  | add s' key v kw =>
    rcases addF_cases n s' key v kw st with ⟨e, b, h⟩ | ⟨b, hkk, -, h⟩
    · have hr : r = (.error e, { st with been := b }) := hr.symm.trans h
      rw [hr]; simpa [Spec.addedKeys, Spec.accepted] using hk
    · have hr : r = (.ok (), putItem { st with been := b } s' key { data := v, props := kw }) :=
        hr.symm.trans h
      rw [hr]
      simp only [Spec.addedKeys, Spec.accepted, if_true, putItem_dkeys]
      by_cases h' : s' = s
      · subst h'
        rw [if_pos ⟨rfl, hkk⟩, if_pos rfl, hk]
      · rw [if_neg (fun h => h' h.1.symm), if_neg h', hk]
  | addGen s' ks g ms kw =>
    obtain ⟨h1, -, -, h4, -, h6⟩ := addGenLoop_spec (W := W) (D := D) n s' ms kw ks 0 st
    by_cases hs : s' = s
    · subst hs
      have hok := hop ks g ms kw rfl
      rcases addGen_cases n s' ks g ms kw st with ⟨e, -, h⟩ | ⟨hL, h⟩
      · have : r.1 = .error e := by rw [← hr]; exact congrArg Prod.fst h
        rw [this] at hok; simp at hok
      · have hr2 : r.2 = modStore (addGenLoop n s' ms kw ks 0 st).2 s'
          fun x => { x with gens := dset x.gens ks g } := by
            rw [← hr]; exact congrArg Prod.snd h
        rw [hr2, modStore_net_self]
        simp only [Spec.addedKeys, hok, Spec.accepted, if_true]
        rw [(h6 hL).1, hk]
    · have hspec : Spec.addedKeys s ((DOp.addGen s' ks g ms kw, r.1) :: before)
          = Spec.addedKeys s before := by
        simp only [Spec.addedKeys, hs]; split <;> rfl
      rw [hspec]
      rcases addGen_cases n s' ks g ms kw st with ⟨e, -, h⟩ | ⟨-, h⟩
      · have hr2 : r.2 = (addGenLoop n s' ms kw ks 0 st).2 := by
          rw [← hr]; exact (congrArg Prod.snd h : (addGenF n s' ks g ms kw st).2 = _)
        rw [hr2, h4 s (Ne.symm hs)]; exact hk
      · have hr2 : r.2 = modStore (addGenLoop n s' ms kw ks 0 st).2 s'
          fun x => { x with gens := dset x.gens ks g } := by
            rw [← hr]; exact congrArg Prod.snd h
        rw [hr2, modStore_net_ne _ _ (Ne.symm hs), h4 s (Ne.symm hs)]; exact hk
  | addDeriv s' d =>
    have h : r = addDerivF s' d st := hr.symm
    have h1 : r.1 = .ok () := by rw [h]; rfl
    simp only [Spec.addedKeys, h1, Spec.accepted, if_true]
    rw [h, addDeriv_items]; exact hk
  | setData s' key v =>
    have hspec : Spec.addedKeys s ((DOp.setData s' key v, r.1) :: before)
        = Spec.addedKeys s before := by simp only [Spec.addedKeys]; split <;> rfl
    rw [hspec, ← hr]
    exact hinv.keeps_setData n s' key v trivial st hk
  | setMeta s' key attr m =>
    have hspec : Spec.addedKeys s ((DOp.setMeta s' key attr m, r.1) :: before)
        = Spec.addedKeys s before := by simp only [Spec.addedKeys]; split <;> rfl
    rw [hspec]
    rcases setMetaF_cases n s' key attr m st with ⟨e, b, h⟩ | ⟨b, it, hkk, h⟩
    · have hr : r = (.error e, { st with been := b }) := hr.symm.trans h
      rw [hr]; exact hk
    · have hr : r = (.ok (), putItem { st with been := b } s' key
          { it with props := dset it.props attr m }) := hr.symm.trans h
      rw [hr]
      simp only [putItem_dkeys]
      rw [if_neg]
      · exact hk
      · rintro ⟨rfl, h'⟩; exact h' (mem_dkeys_of_dget hkk)
  | update s' items =>
    have h : r = updateF s' items st := hr.symm
    have h1 : r.1 = .ok () := by rw [h]; rfl
    simp only [Spec.addedKeys, h1, Spec.accepted, if_true]
    rw [h, update_items]
    by_cases h' : s' = s
    · subst h'; rw [if_pos rfl, if_pos rfl, dkeys_dupdate, hk]
    · rw [if_neg (Ne.symm h'), if_neg h']; exact hk
  | read s' key =>
    have hspec : Spec.addedKeys s ((DOp.read s' key, r.1) :: before)
        = Spec.addedKeys s before := by simp only [Spec.addedKeys]; split <;> rfl
    rw [hspec, ← hr]
    have h2 : (stepF env n (DOp.read s' key) st).2 = (getDataF env n s' key st).2 := void_snd _ _
    rw [h2]
    exact (hinv.keeps_all n).1 s' key st hk
  | generate s' key kw =>
    have hspec : Spec.addedKeys s ((DOp.generate s' key kw, r.1) :: before)
        = Spec.addedKeys s before := by simp only [Spec.addedKeys]; split <;> rfl
    rw [hspec, ← hr]
    have h2 : (stepF env n (DOp.generate s' key kw) st).2 = (generateF env n s' key kw st).2 :=
      void_snd _ _
    rw [h2]
    exact (hinv.keeps_all n).2.2.1 s' key kw st trivial hk
  | getMeta s' key attr dflt =>
    have hspec : Spec.addedKeys s ((DOp.getMeta s' key attr dflt, r.1) :: before)
        = Spec.addedKeys s before := by simp only [Spec.addedKeys]; split <;> rfl
    rw [hspec, ← hr]
    have h2 : (stepF env n (DOp.getMeta s' key attr dflt) st).2
      = (DM.lift (fun net => metaF net n s' key attr dflt) st).2 := void_snd _ _
    rw [h2]; exact hk
  | list s' =>
    have hspec : Spec.addedKeys s ((DOp.list s', r.1) :: before)
        = Spec.addedKeys s before := by simp only [Spec.addedKeys]; split <;> rfl
    rw [hspec, ← hr]
    have h2 : (stepF env n (DOp.list s') st).2
      = (DM.lift (fun net => keysF net n s') st).2 := void_snd _ _
    rw [h2]; exact hk
  | setWorld w =>
    have h1 : r.1 = .ok () := by rw [← hr]; rfl
    simp only [Spec.addedKeys, h1, Spec.accepted, if_true]
    rw [← hr]; exact hk

/-- **C23 (listing).** After any history in which no generator registration failed, a
store without derivatives lists exactly the keys added to it, in the order they were
added. -/
theorem C23_keys (env : Env D W) (n : Nat) (ops : List (DOp D W)) (st0 : DState D W)
    (s : Nat) (h0 : (st0.net s).items = [])
    (hgen : ∀ e ∈ (runOps env n ops st0).1, ∀ ks g ms kw, e.1 = .addGen s ks g ms kw → e.2 = .ok ())
    (hder : ((runOps env n ops st0).2.net s).derivs = []) (m : Nat) (b : Option (List Nat)) :
    keysF (runOps env n ops st0).2.net (m + 1) s b =
      (.ok (Spec.addedKeys s (runOps env n ops st0).1.reverse), b) := by
  rw [keysF_noderiv b hder]
  have key : ∀ (ops : List (DOp D W)) (st : DState D W) (before : List (DOp D W × Except Err Unit)),
      (∀ e ∈ (runOps env n ops st).1, ∀ ks g ms kw, e.1 = .addGen s ks g ms kw → e.2 = .ok ()) →
      dkeys (st.net s).items = Spec.addedKeys s before →
      dkeys ((runOps env n ops st).2.net s).items
        = Spec.addedKeys s ((runOps env n ops st).1.reverse ++ before) := by
    intro ops
    induction ops with
    | nil => intro st before _ h; exact h
    | cons op t ih =>
      intro st before hop hk
      have h1 := step_keys n op st (fun ks g ms kw h =>
        hop (op, (stepF env n op st).1) (by simp [runOps]) ks g ms kw h) before hk
      have h2 := ih (stepF env n op st).2 ((op, (stepF env n op st).1) :: before)
        (fun e he => hop e (by simp only [runOps]; exact List.mem_cons_of_mem _ he)) h1
      simp only [runOps, List.reverse_cons, List.append_assoc, List.singleton_append]
      exact h2
  rw [key ops st0 [] hgen (by rw [h0]; rfl), List.append_nil]

end

/-! ### Examples -/

namespace StoreEx

/-- Callables that do nothing. -/
def env : Env Nat Unit where
  gen := fun _ _ => .ret (some 7)
  fn := fun _ _ => .ret none
  crop := fun _ v _ => .ret v
  mask := fun _ v => .ret v
  iter := fun _ => none

def st0 : DState Nat Unit :=
  { net := fun s => Store.new Nat s none none, been := none, world := (), log := [] }

/-- Adds, sets, a refused add, a refused set, a generator, reads and metadata. -/
def ops : List (DOp Nat Unit) :=
  [.add 0 "a" (some 1) [("unit", .str "m")], .add 0 "b" none [], .add 0 "a" (some 9) [],
   .addGen 0 ["g"] 0 none [], .setData 0 "zz" (some 3), .setData 0 "b" (some 4), .read 0 "g",
   .setMeta 0 "a" "unit" (.str "um"), .add 1 "a" (some 100) [], .read 0 "a"]

/-- The hypotheses of `C23_last_write` and `C23_keys` hold of this history. -/
example :
    let r := runOps env 9 ops st0
    (dget (r.2.net 0).items "b").map (·.data) = some (some 4) ∧
    keysF r.2.net 1 0 none = (.ok ["a", "b", "g"], none) := by
  have h := C23_last_write env 9 ops st0 0 "b"
    ⟨fun _ _ => trivial, fun _ _ => trivial, fun _ _ _ => trivial, fun _ _ => trivial⟩
    ⟨rfl, rfl⟩ (by
      intro op hop ks g ms kw he
      subst he
      simp only [ops, List.mem_cons, List.not_mem_nil, or_false] at hop
      simp at hop
      rw [hop.1]; decide)
  have hl : (runOps env 9 ops st0).1 = ops.zip [.ok (), .ok (), .error .valueError, .ok (),
    .error .valueError, .ok (), .ok (), .ok (), .ok (), .ok ()] := by decide +kernel
  have h2 := C23_keys env 9 ops st0 0 rfl (by
      rw [hl]
      intro e he ks g ms kw hop
      obtain ⟨o, r⟩ := e
      simp only at hop
      subst hop
      simp [ops] at he
      exact he.2) (by decide +kernel) 0 none
  refine ⟨?_, ?_⟩
  · rw [h.1]; decide +kernel
  · rw [h2]; decide +kernel

end StoreEx

end DefDAP
