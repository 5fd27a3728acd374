import Verif.Model.StoreHeap
import Verif.Props.DatastoreNet

/-! C113: merging data stores, and their data as attributes. -/

namespace DefDAP

/-- No name twice in a dictionary, and the items of dictionaries exist. -/
def HeapOk {D : Type} (h : StoreHeap D) : Prop :=
  (∀ d, (dkeys (h.dicts d)).Nodup) ∧ ∀ d k i, dget (h.dicts d) k = some i → i < h.next

/-- The histories of calls on new stores. -/
def Spec.heapAfter {D : Type} (ops : List (HeapOp D)) : StoreHeap D := ops.foldl heapStep StoreHeap.new

theorem dget_reverse {κ α : Type} [DecidableEq κ] (l : List (κ × α)) (h : (dkeys l).Nodup) (k : κ) :
    dget l.reverse k = dget l k := by
  have happ : ∀ (l l' : List (κ × α)), dget (l ++ l') k = (dget l k).or (dget l' k) := by
    intro l l'
    induction l with
    | nil => simp [dget]
    | cons a t ih =>
      simp only [List.cons_append, dget]
      split <;> simp [ih]
  induction l with
  | nil => rfl
  | cons a t ih =>
    have ht : (dkeys t).Nodup := (List.nodup_cons.1 h).2
    have ha : a.1 ∉ dkeys t := (List.nodup_cons.1 h).1
    rw [List.reverse_cons, happ, ih ht]
    simp only [dget]
    by_cases e : a.1 = k
    · rw [if_pos e, if_pos e]
      rw [e] at ha
      rw [(dget_eq_none t k).2 ha]
      rfl
    · rw [if_neg e, if_neg e]
      simp

theorem nodup_dset {κ α : Type} [DecidableEq κ] (l : List (κ × α)) (k : κ) (v : α)
    (h : (dkeys l).Nodup) : (dkeys (dset l k v)).Nodup := by
  rw [dkeys_dset]
  split_ifs with hk
  · exact h
  · rw [List.nodup_append]
    refine ⟨h, List.nodup_singleton _, ?_⟩
    intro a ha b hb
    rw [List.mem_singleton] at hb
    subst hb
    rintro rfl
    exact hk ha

theorem nodup_dupdate {κ α : Type} [DecidableEq κ] (e d : List (κ × α))
    (h : (dkeys d).Nodup) : (dkeys (dupdate d e)).Nodup := by
  induction e generalizing d with
  | nil => exact h
  | cons a t ih =>
    have : dupdate d (a :: t) = dupdate (dset d a.1 a.2) t := rfl
    rw [this]
    exact ih _ (nodup_dset d _ _ h)

theorem dget_merge {κ α : Type} [DecidableEq κ] (d e : List (κ × α)) (he : (dkeys e).Nodup) (k : κ) :
    dget (dupdate d e) k = (dget e k).or (dget d k) := by
  rw [dget_dupdate, dget_reverse e he]

theorem heapOk_step {D : Type} (h : StoreHeap D) (hk : HeapOk h) (op : HeapOp D) :
    HeapOk (heapStep h op) := by
  cases op with
  | add s key it =>
    unfold heapStep StoreHeap.add
    by_cases h1 : key ∈ h.keys s
    · simp only [if_pos h1]
      exact hk
    · by_cases h2 : "data" ∈ dkeys it.props
      · simp only [if_neg h1, if_pos h2]
        exact hk
      · simp only [if_neg h1, if_neg h2]
        constructor
        · intro d
          by_cases hd : d = h.dictOf s
          · subst hd
            simp only [Function.update_self]
            exact nodup_dset _ _ _ (hk.1 _)
          · simp only [Function.update_of_ne hd]
            exact hk.1 d
        · intro d k i hi
          show i < h.next + 1
          by_cases hd : d = h.dictOf s
          · subst hd
            simp only [Function.update_self] at hi
            rw [dget_dset] at hi
            split_ifs at hi with e
            · cases hi; omega
            · have := hk.2 _ _ _ hi
              omega
          · simp only [Function.update_of_ne hd] at hi
            have := hk.2 _ _ _ hi
            omega
  | set s key v =>
    cases hg : dget (h.dict s) key with
    | none => simp only [heapStep, StoreHeap.set, hg]; exact hk
    | some i => simp only [heapStep, StoreHeap.set, hg]; exact hk
  | update s o p =>
    show HeapOk (h.update s o p)
    unfold StoreHeap.update
    cases p with
    | true =>
      simp only [if_true]
      constructor
      · intro d
        by_cases hd : d = h.dictOf o
        · subst hd
          simp only [Function.update_self]
          exact nodup_dupdate _ _ (hk.1 _)
        · simp only [Function.update_of_ne hd]
          exact hk.1 d
      · intro d k i hi
        by_cases hd : d = h.dictOf o
        · subst hd
          simp only [Function.update_self] at hi
          rw [dget_merge _ _ (show (dkeys (StoreHeap.dict h _)).Nodup from hk.1 _)] at hi
          rcases Option.or_eq_some_iff.1 hi with h1 | ⟨-, h1⟩
          · exact hk.2 _ _ _ h1
          · exact hk.2 _ _ _ h1
        · simp only [Function.update_of_ne hd] at hi
          exact hk.2 _ _ _ hi
    | false =>
      simp only [Bool.false_eq_true, if_false]
      constructor
      · intro d
        by_cases hd : d = h.dictOf s
        · subst hd
          simp only [Function.update_self]
          exact nodup_dupdate _ _ (hk.1 _)
        · simp only [Function.update_of_ne hd]
          exact hk.1 d
      · intro d k i hi
        by_cases hd : d = h.dictOf s
        · subst hd
          simp only [Function.update_self] at hi
          rw [dget_merge _ _ (show (dkeys (StoreHeap.dict h _)).Nodup from hk.1 _)] at hi
          rcases Option.or_eq_some_iff.1 hi with h1 | ⟨-, h1⟩
          · exact hk.2 _ _ _ h1
          · exact hk.2 _ _ _ h1
        · simp only [Function.update_of_ne hd] at hi
          exact hk.2 _ _ _ hi

theorem heapOk_after {D : Type} (ops : List (HeapOp D)) : HeapOk (Spec.heapAfter ops) := by
  have : ∀ (ops : List (HeapOp D)) (h : StoreHeap D), HeapOk h → HeapOk (ops.foldl heapStep h) := by
    intro ops
    induction ops with
    | nil => intro h hk; exact hk
    | cons op t ih => intro h hk; exact ih _ (heapOk_step h hk op)
  refine this ops _ ⟨fun d => by simp [StoreHeap.new, dkeys], fun d k i hi => ?_⟩
  simp [StoreHeap.new, dget] at hi

/-- **C113 (update).** After every history, an update takes over all items of the other store, in place
of own ones of the same name, and keeps the other own ones; own names stay first and in order. If the
two have dictionaries of their own, the other store is unchanged. -/
theorem C113_update {D : Type} (ops : List (HeapOp D)) (s o : Nat) :
    let h := Spec.heapAfter ops
    (∀ k, (h.update s o false).item? s k = (h.item? o k).or (h.item? s k)) ∧
    (∀ k, k ∈ (h.update s o false).keys s ↔ k ∈ h.keys s ∨ k ∈ h.keys o) ∧
    h.keys s <+: (h.update s o false).keys s ∧
    (∀ x, h.dictOf x ≠ h.dictOf s → (∀ k, (h.update s o false).item? x k = h.item? x k) ∧
      (h.update s o false).keys x = h.keys x) := by
  intro h
  have hk := heapOk_after ops
  have hd : (h.update s o false).dict s = dupdate (h.dict s) (h.dict o) := by
    simp [StoreHeap.update, StoreHeap.dict]
  have hv : (h.update s o false).vals = h.vals := by simp [StoreHeap.update]
  refine ⟨?_, ?_, ?_, ?_⟩
  · intro k
    unfold StoreHeap.item?
    rw [hd, hv, dget_merge _ _ (show (dkeys (StoreHeap.dict h _)).Nodup from hk.1 _)]
    show Option.map h.vals ((dget (h.dict o) k).or (dget (h.dict s) k)) = _
    cases dget (h.dict o) k with
    | none => simp
    | some i => simp
  · intro k
    unfold StoreHeap.keys
    rw [hd, ← dget_isSome, dget_merge _ _ (show (dkeys (StoreHeap.dict h _)).Nodup from hk.1 _), Option.isSome_or, Bool.or_eq_true, dget_isSome,
      dget_isSome]
    exact or_comm
  · unfold StoreHeap.keys
    rw [hd, dkeys_dupdate]
    generalize dkeys (h.dict o) = l
    generalize dkeys (h.dict s) = m
    induction l generalizing m with
    | nil => exact List.prefix_refl m
    | cons a t ih =>
      simp only [List.foldl_cons]
      split_ifs
      · exact ih m
      · exact (List.prefix_append m [a]).trans (ih _)
  · intro x hx
    have hdx : (h.update s o false).dict x = h.dict x := by
      simp [StoreHeap.update, StoreHeap.dict, Function.update_of_ne hx]
    refine ⟨fun k => ?_, ?_⟩
    · unfold StoreHeap.item?
      rw [hdx, hv]
    · unfold StoreHeap.keys
      rw [hdx]

/-- **C113 (priority).** With priority `'self'` own items stay and the others are added. -/
theorem C113_priority {D : Type} (ops : List (HeapOp D)) (s o : Nat) :
    let h := Spec.heapAfter ops
    (∀ k, (h.update s o true).item? s k = (h.item? s k).or (h.item? o k)) ∧
    (∀ k, k ∈ (h.update s o true).keys s ↔ k ∈ h.keys s ∨ k ∈ h.keys o) := by
  intro h
  have hk := heapOk_after ops
  have hd : (h.update s o true).dict s = dupdate (h.dict o) (h.dict s) := by
    simp [StoreHeap.update, StoreHeap.dict]
  have hv : (h.update s o true).vals = h.vals := by simp [StoreHeap.update]
  refine ⟨?_, ?_⟩
  · intro k
    unfold StoreHeap.item?
    rw [hd, hv, dget_merge _ _ (show (dkeys (StoreHeap.dict h _)).Nodup from hk.1 _)]
    show Option.map h.vals ((dget (h.dict s) k).or (dget (h.dict o) k)) = _
    cases dget (h.dict s) k with
    | none => simp
    | some i => simp
  · intro k
    unfold StoreHeap.keys
    rw [hd, ← dget_isSome, dget_merge _ _ (show (dkeys (StoreHeap.dict h _)).Nodup from hk.1 _), Option.isSome_or, Bool.or_eq_true, dget_isSome,
      dget_isSome]

/-- A call that lets one of two stores use another dictionary. -/
def Spec.Repoints {D : Type} (s o : Nat) : HeapOp D → Prop
  | .update x _ true => x = s ∨ x = o
  | _ => False

theorem same_dict_step {D : Type} (h : StoreHeap D) (s o : Nat) (hso : h.dictOf s = h.dictOf o)
    (op : HeapOp D) (hop : ¬ Spec.Repoints s o op) :
    (heapStep h op).dictOf s = (heapStep h op).dictOf o := by
  cases op with
  | add x key it =>
    unfold heapStep StoreHeap.add
    by_cases h1 : key ∈ h.keys x
    · simp only [if_pos h1]
      exact hso
    · by_cases h2 : "data" ∈ dkeys it.props
      · simp only [if_neg h1, if_pos h2]
        exact hso
      · simp only [if_neg h1, if_neg h2]
        exact hso
  | set x key v =>
    cases hg : dget (h.dict x) key <;> simp only [heapStep, StoreHeap.set, hg] <;> exact hso
  | update x y p =>
    cases p with
    | false => exact hso
    | true =>
      have hx : ¬ (x = s ∨ x = o) := hop
      push Not at hx
      show (h.update x y true).dictOf s = (h.update x y true).dictOf o
      simp only [StoreHeap.update, if_true, Function.update_of_ne (Ne.symm hx.1),
        Function.update_of_ne (Ne.symm hx.2)]
      exact hso

/-- **C113 (false with priority).** An update with priority `'self'` makes the two stores one: the other
store has the merged items, too, and every later addition to or change of one of them is one of the
other, through every history of calls that does not merge one of them again in this way. -/
theorem C113_joined {D : Type} (ops later : List (HeapOp D)) (s o : Nat)
    (hl : ∀ op ∈ later, ¬ Spec.Repoints s o op) :
    let h := later.foldl heapStep ((Spec.heapAfter ops).update s o true)
    h.keys s = h.keys o ∧ (∀ k, h.item? s k = h.item? o k) ∧
    (∀ k it, h.add s k it = h.add o k it) ∧ (∀ k v, h.set s k v = h.set o k v) := by
  intro h
  have key : ∀ (later : List (HeapOp D)) (g : StoreHeap D), g.dictOf s = g.dictOf o →
      (∀ op ∈ later, ¬ Spec.Repoints s o op) →
      (later.foldl heapStep g).dictOf s = (later.foldl heapStep g).dictOf o := by
    intro later
    induction later with
    | nil => intro g hg _; exact hg
    | cons op t ih =>
      intro g hg hop
      exact ih _ (same_dict_step g s o hg op (hop op List.mem_cons_self))
        fun op' h' => hop op' (List.mem_cons_of_mem _ h')
  have hso : h.dictOf s = h.dictOf o := by
    refine key later _ ?_ hl
    by_cases e : o = s
    · rw [e]
    · simp [StoreHeap.update, Function.update_of_ne e]
  have hd : h.dict s = h.dict o := by
    unfold StoreHeap.dict
    rw [hso]
  refine ⟨?_, ?_, ?_, ?_⟩
  · unfold StoreHeap.keys
    rw [hd]
  · intro k
    unfold StoreHeap.item?
    rw [hd]
  · intro k it
    unfold StoreHeap.add StoreHeap.keys
    rw [hd, hso]
  · intro k v
    unfold StoreHeap.set
    rw [hd]

/-- **C113 (false for later changes).** The items taken over by an update are those of the other store:
setting one of them in either store sets it in both. -/
theorem C113_shared {D : Type} (ops : List (HeapOp D)) (s o : Nat) (k : String)
    (hk : k ∈ (Spec.heapAfter ops).keys o) (v : Option D) :
    (∃ h', ((Spec.heapAfter ops).update s o false).set s k v = .ok h' ∧
      h'.get s k = .ok v ∧ h'.get o k = .ok v) ∧
    (∃ h', ((Spec.heapAfter ops).update s o false).set o k v = .ok h' ∧
      h'.get s k = .ok v ∧ h'.get o k = .ok v) := by
  have hok := heapOk_after ops
  generalize Spec.heapAfter ops = h at hk hok
  obtain ⟨i, hi⟩ := Option.isSome_iff_exists.1 ((dget_isSome _ _).2 hk)
  have hs : dget ((h.update s o false).dict s) k = some i := by
    have hd : (h.update s o false).dict s = dupdate (h.dict s) (h.dict o) := by
      simp [StoreHeap.update, StoreHeap.dict]
    rw [hd, dget_merge _ _ (show (dkeys (StoreHeap.dict h _)).Nodup from hok.1 _), hi]
    rfl
  have ho : dget ((h.update s o false).dict o) k = some i := by
    by_cases e : h.dictOf o = h.dictOf s
    · have : (h.update s o false).dict o = (h.update s o false).dict s := by
        simp [StoreHeap.update, StoreHeap.dict, e]
      rw [this, hs]
    · have : (h.update s o false).dict o = h.dict o := by
        simp [StoreHeap.update, StoreHeap.dict, Function.update_of_ne e]
      rw [this, hi]
  generalize h.update s o false = g at hs ho
  have hget : ∀ x, dget (g.dict x) k = some i →
      ({ g with vals := Function.update g.vals i { g.vals i with data := v } } : StoreHeap D).get x k =
        .ok v := by
    intro x hx
    have hx' : dget (({ g with vals := Function.update g.vals i { g.vals i with data := v } } :
        StoreHeap D).dict x) k = some i := hx
    unfold StoreHeap.get StoreHeap.item?
    rw [hx']
    simp
  constructor
  · refine ⟨_, ?_, hget s hs, hget o ho⟩
    unfold StoreHeap.set
    rw [hs]
  · refine ⟨_, ?_, hget s hs, hget o ho⟩
    unfold StoreHeap.set
    rw [ho]

/-- A call that is no update. -/
def Spec.NoUpdate {D : Type} : HeapOp D → Prop
  | .update _ _ _ => False
  | _ => True

/-- Every dictionary is that of one store and every item is in one dictionary, once. -/
def AllApart {D : Type} (h : StoreHeap D) : Prop :=
  (∀ s, h.dictOf s = s) ∧ (∀ s k k' i, dget (h.dicts s) k = some i → dget (h.dicts s) k' = some i → k = k') ∧
    ∀ s o, s ≠ o → ∀ k k' i, dget (h.dicts s) k = some i → dget (h.dicts o) k' ≠ some i

theorem allApart_step {D : Type} (h : StoreHeap D) (hok : HeapOk h) (ha : AllApart h) (op : HeapOp D)
    (hop : Spec.NoUpdate op) : AllApart (heapStep h op) := by
  obtain ⟨h0, h1, h2⟩ := ha
  cases op with
  | add s key it =>
    unfold heapStep StoreHeap.add
    by_cases e1 : key ∈ h.keys s
    · simp only [if_pos e1]
      exact ⟨h0, h1, h2⟩
    · by_cases e2 : "data" ∈ dkeys it.props
      · simp only [if_neg e1, if_pos e2]
        exact ⟨h0, h1, h2⟩
      · simp only [if_neg e1, if_neg e2]
        have hget : ∀ x k i, dget (Function.update h.dicts (h.dictOf s) (dset (h.dict s) key h.next) x) k =
            some i → (x = s ∧ k = key ∧ i = h.next) ∨ (¬ (x = s ∧ k = key) ∧ dget (h.dicts x) k = some i) := by
          intro x k i hx
          by_cases ex : x = s
          · subst ex
            rw [h0, Function.update_self, dget_dset] at hx
            split_ifs at hx with e
            · cases hx
              exact Or.inl ⟨rfl, e.symm, rfl⟩
            · refine Or.inr ⟨fun hh => e hh.2.symm, ?_⟩
              have : h.dict x = h.dicts x := by
                unfold StoreHeap.dict
                rw [h0]
              rw [← this]
              exact hx
          · rw [Function.update_of_ne (by rw [h0]; exact ex)] at hx
            exact Or.inr ⟨fun hh => ex hh.1, hx⟩
        refine ⟨h0, ?_, ?_⟩
        · intro x k k' i hk hk'
          rcases hget x k i hk with ⟨a1, a2, a3⟩ | ⟨-, a⟩ <;>
            rcases hget x k' i hk' with ⟨b1, b2, b3⟩ | ⟨-, b⟩
          · rw [a2, b2]
          · have := hok.2 _ _ _ b
            omega
          · have := hok.2 _ _ _ a
            omega
          · exact h1 x k k' i a b
        · intro x y hxy k k' i hk hk'
          rcases hget x k i hk with ⟨a1, a2, a3⟩ | ⟨-, a⟩ <;>
            rcases hget y k' i hk' with ⟨b1, b2, b3⟩ | ⟨-, b⟩
          · exact hxy (a1.trans b1.symm)
          · have := hok.2 _ _ _ b
            omega
          · have := hok.2 _ _ _ a
            omega
          · exact h2 x y hxy k k' i a b
  | set s key v =>
    cases hg : dget (h.dict s) key <;> simp only [heapStep, StoreHeap.set, hg] <;> exact ⟨h0, h1, h2⟩
  | update s o p => exact absurd hop id

/-- **C113 (without updates).** In every history without updates, an addition to or a change in one store
changes exactly that item of that store. -/
theorem C113_separate {D : Type} (ops : List (HeapOp D)) (hops : ∀ op ∈ ops, Spec.NoUpdate op) (s : Nat)
    (key : String) :
    let h := Spec.heapAfter ops
    (∀ it h', h.add s key it = .ok h' → ∀ x k, h'.item? x k =
      if x = s ∧ k = key then some it else h.item? x k) ∧
    (∀ v h', h.set s key v = .ok h' → ∀ x k, h'.item? x k =
      if x = s ∧ k = key then (h.item? x k).map fun it => { it with data := v } else h.item? x k) := by
  intro h
  have hall : ∀ (ops : List (HeapOp D)) (g : StoreHeap D), HeapOk g → AllApart g →
      (∀ op ∈ ops, Spec.NoUpdate op) → AllApart (ops.foldl heapStep g) := by
    intro ops
    induction ops with
    | nil => intro g _ hg _; exact hg
    | cons op t ih =>
      intro g hok hg hop
      exact ih _ (heapOk_step g hok op) (allApart_step g hok hg op (hop op List.mem_cons_self))
        fun op' h' => hop op' (List.mem_cons_of_mem _ h')
  have hnew : HeapOk (StoreHeap.new : StoreHeap D) := heapOk_after []
  have ha : AllApart h := hall ops _ hnew
    ⟨fun _ => rfl, fun s k k' i hi => by simp [StoreHeap.new, dget] at hi,
      fun s o _ k k' i hi => by simp [StoreHeap.new, dget] at hi⟩ hops
  have hok : HeapOk h := heapOk_after ops
  obtain ⟨h0, h1, h2⟩ := ha
  have hdict : ∀ x, h.dict x = h.dicts x := by
    intro x
    unfold StoreHeap.dict
    rw [h0]
  constructor
  · intro it h' hh x k
    unfold StoreHeap.add at hh
    by_cases e1 : key ∈ h.keys s
    · simp [e1] at hh
    · by_cases e2 : "data" ∈ dkeys it.props
      · simp [e1, e2] at hh
      · simp only [if_neg e1, if_neg e2, Except.ok.injEq] at hh
        subst hh
        unfold StoreHeap.item? StoreHeap.dict
        simp only [h0]
        by_cases ex : x = s
        · subst ex
          simp only [Function.update_self, dget_dset, true_and]
          by_cases ek : k = key
          · subst ek
            simp
          · rw [if_neg (Ne.symm ek), if_neg ek]
            cases hg : dget (h.dicts x) k with
            | none => simp [hg]
            | some i =>
              have := hok.2 _ _ _ hg
              simp [hg, Function.update_of_ne (show i ≠ h.next by omega)]
        · rw [Function.update_of_ne ex, if_neg (fun hh => ex hh.1)]
          cases hg : dget (h.dicts x) k with
          | none => simp
          | some i =>
            have := hok.2 _ _ _ hg
            simp [Function.update_of_ne (show i ≠ h.next by omega)]
  · intro v h' hh x k
    unfold StoreHeap.set at hh
    cases hg : dget (h.dict s) key with
    | none => rw [hg] at hh; cases hh
    | some i =>
      rw [hg] at hh
      cases hh
      rw [hdict] at hg
      unfold StoreHeap.item? StoreHeap.dict
      simp only [h0]
      cases hx : dget (h.dicts x) k with
      | none => simp [hx]
      | some j =>
        by_cases exk : x = s ∧ k = key
        · obtain ⟨rfl, rfl⟩ := exk
          rw [hg] at hx
          cases hx
          simp
        · have hij : j ≠ i := by
            rintro rfl
            by_cases ex : x = s
            · subst ex
              exact exk ⟨rfl, h1 x _ _ _ hx hg⟩
            · exact h2 x s ex _ _ _ hx hg
          simp [exk, Function.update_of_ne hij]

/-- Two stores with an item of the same name each, one of them merged into the other: the later change of
one is seen in the other. -/
example : let h := Spec.heapAfter [HeapOp.add 0 "a" ⟨some 1, []⟩, .add 1 "a" ⟨some 2, []⟩,
      .add 1 "b" ⟨some 3, []⟩, .update 0 1 false, .set 0 "b" (some (7 : Nat))]
    (h.get 0 "a").toOption = some (some 2) ∧ (h.get 1 "b").toOption = some (some 7) ∧
      h.keys 0 = ["a", "b"] := by
  decide +kernel

theorem get_set {D : Type} (h h' : StoreHeap D) (s : Nat) (name : String) (v : Option D)
    (hh : h.set s name v = .ok h') : h'.get s name = .ok v := by
  unfold StoreHeap.set at hh
  cases hg : dget (h.dict s) name with
  | none => rw [hg] at hh; cases hh
  | some i =>
    rw [hg] at hh
    cases hh
    have : dget (({ h with vals := Function.update h.vals i { h.vals i with data := v } } :
      StoreHeap D).dict s) name = some i := hg
    simp [StoreHeap.get, StoreHeap.item?, this]

/-- **C113 (attributes).** An attribute that is no name of the class is the data of that name, and setting
it sets that data; a name that is missing is a `KeyError`, and a `ValueError` to set. -/
theorem C113_attributes {D : Type} (h : StoreHeap D) (s : Nat) (name : String)
    (hn : name ∉ storeSlots ∧ name ∉ storeMethods) :
    (∀ v, h.attr s name = .ok (.data v) ↔ h.get s name = .ok v) ∧
    (name ∉ h.keys s → h.attr s name = .error .keyError) ∧
    (∀ v h', h.setAttr s name v = .ok h' → h'.attr s name = .ok (.data v)) ∧
    (∀ v, name ∉ h.keys s → h.setAttr s name v = .error .valueError) := by
  have ha : ∀ g : StoreHeap D, g.attr s name = (g.get s name).map .data := by
    intro g
    unfold StoreHeap.attr
    rw [if_neg (not_or.2 hn)]
  have hnone : name ∉ h.keys s → dget (h.dict s) name = none := fun hk => (dget_eq_none _ _).2 hk
  refine ⟨?_, ?_, ?_, ?_⟩
  · intro v
    rw [ha]
    cases h.get s name with
    | error e => simp [Except.map]
    | ok a => simp [Except.map]
  · intro hk
    rw [ha]
    simp [StoreHeap.get, StoreHeap.item?, hnone hk, Except.map]
  · intro v h' hh
    rw [ha]
    unfold StoreHeap.setAttr StoreHeap.set at hh
    cases hg : dget (h.dict s) name with
    | none => rw [hg] at hh; cases hh
    | some i =>
      rw [hg] at hh
      cases hh
      have : dget (({ h with vals := Function.update h.vals i { h.vals i with data := v } } :
        StoreHeap D).dict s) name = some i := hg
      simp [StoreHeap.get, StoreHeap.item?, this, Except.map]
  · intro v hk
    unfold StoreHeap.setAttr StoreHeap.set
    rw [hnone hk]

/-- **C113 (false for names of methods).** Data with the name of a method, which can be added, cannot be
read as an attribute, though it is set by one; and asking for an attribute that is missing with `hasattr`
is an error instead of `False`. -/
theorem C113_hidden {D : Type} (h : StoreHeap D) (s : Nat) :
    (∀ name ∈ storeMethods, ∀ it : Item D, name ∉ h.keys s → "data" ∉ dkeys it.props →
      ∃ h', h.add s name it = .ok h' ∧ h'.get s name = .ok it.data ∧
        h'.attr s name = .ok (.own name) ∧ ∀ v h'', h'.setAttr s name v = .ok h'' →
          h''.get s name = .ok v ∧ h''.attr s name = .ok (.own name)) ∧
    (∀ name, name ∉ storeSlots → name ∉ storeMethods → name ∉ h.keys s →
      h.hasAttr s name = .error .keyError) := by
  constructor
  · intro name hn it hk hd
    have hattr : ∀ g : StoreHeap D, g.attr s name = .ok (.own name) := by
      intro g
      unfold StoreHeap.attr
      rw [if_pos (Or.inr hn)]
    refine ⟨_, by unfold StoreHeap.add; rw [if_neg hk, if_neg hd], ?_, hattr _, ?_⟩
    · simp [StoreHeap.get, StoreHeap.item?, StoreHeap.dict, dget_dset]
    · intro v h'' hh
      refine ⟨?_, hattr _⟩
      exact get_set _ _ s name v hh
  · intro name h1 h2 h3
    have := (C113_attributes h s name ⟨h1, h2⟩).2.1 h3
    unfold StoreHeap.hasAttr
    rw [this]

/-- **C113 (false for the length).** The length is the number of own items and of those each derivative
supplies. So a name that two derivatives supply, as that of the boundaries after an EBSD map was linked
twice, is listed and counted twice. -/
theorem C113_length {D : Type} (net : Nat → Store D) (n s : Nat)
    (h : ∀ d ∈ (net s).derivs, (net d.source).group ≠ (net s).group ∧
      ∀ d' ∈ (net d.source).derivs, (net d'.source).group = (net s).group ∨
        (net d'.source).group = (net d.source).group) :
    ∃ ks, keysF net (n + 4) s none = (.ok ks, none) ∧
      ks.length = (net s).items.length +
        ((net s).derivs.map fun d => (Spec.matching (net d.source).items d.inProps).length).sum ∧
      ∀ pre mid post d d' k, (net s).derivs = pre ++ d :: mid ++ d' :: post →
        k ∈ Spec.matching (net d.source).items d.inProps →
        k ∈ Spec.matching (net d'.source).items d'.inProps → 2 ≤ ks.count k := by
  refine ⟨_, C26_lists net n s h, ?_, ?_⟩
  · simp [List.length_flatMap, dkeys]
  · intro pre mid post d d' k hder hk hk'
    rw [hder]
    simp only [List.count_append, List.flatMap_append, List.flatMap_cons]
    have h1 := List.count_pos_iff.2 hk
    have h2 := List.count_pos_iff.2 hk'
    omega

end DefDAP
