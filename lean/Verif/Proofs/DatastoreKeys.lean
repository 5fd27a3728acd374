import Mathlib.Data.Finset.Card
import Mathlib.Data.Finset.Basic
import Mathlib.Tactic.Ring
import Mathlib.Tactic.Linarith
import Verif.Model.Datastore

/-! Listing keys over a network of stores terminates, and what happens to the guard. -/

namespace DefDAP

theorem dget_isSome {κ α : Type} [DecidableEq κ] (l : List (κ × α)) (k : κ) :
    (dget l k).isSome ↔ k ∈ dkeys l := by
  induction l with
  | nil => simp [dget, dkeys]
  | cons a t ih =>
    simp only [dget, dkeys, List.map_cons, List.mem_cons]
    by_cases h : a.1 = k
    · simp [h]
    · simp only [if_neg h, ih, dkeys]
      constructor
      · exact Or.inr
      · rintro (h' | h')
        · exact absurd h'.symm h
        · exact h'

theorem dget_eq_none {κ α : Type} [DecidableEq κ] (l : List (κ × α)) (k : κ) :
    dget l k = none ↔ k ∉ dkeys l := by
  rw [← dget_isSome, Option.not_isSome_iff_eq_none]

section
variable {D : Type} (net : Nat → Store D) (G : Finset Nat)

/-- Groups not yet visited once `g` is added to `B`. -/
def unvisited (B : List Nat) (g : Nat) : Nat := (G \ (g :: B).toFinset).card

theorem unvisited_mono {B B' : List Nat} (h : B ⊆ B') (g : Nat) :
    unvisited G B' g ≤ unvisited G B g := by
  apply Finset.card_le_card
  intro x hx
  simp only [Finset.mem_sdiff, List.mem_toFinset, List.mem_cons, not_or] at hx ⊢
  exact ⟨hx.1, hx.2.1, fun h' => hx.2.2 (h h')⟩

theorem unvisited_lt {B B' : List Nat} {g g' : Nat} (hg' : g' ∈ G) (h : g' ∉ g :: B)
    (hB : g :: B ⊆ B') : unvisited G B' g' < unvisited G B g := by
  apply Finset.card_lt_card
  refine ⟨?_, ?_⟩
  · intro x hx
    simp only [Finset.mem_sdiff, List.mem_toFinset] at hx ⊢
    refine ⟨hx.1, fun h' => hx.2 ?_⟩
    exact List.mem_cons_of_mem _ (hB h')
  · intro hsub
    have := hsub (show g' ∈ G \ (g :: B).toFinset by
      simp only [Finset.mem_sdiff, List.mem_toFinset]; exact ⟨hg', h⟩)
    simp at this

/-- The outcome of a listing step with the guard set. -/
def OkFrom {α : Type} (P : Except Err α → Prop) (r : Except Err α × Option (List Nat))
    (B : List Nat) : Prop := P r.1 ∧ ∃ B', r.2 = some B' ∧ B ⊆ B'

def IsOk {α : Type} (r : Except Err α) : Prop := ∃ a, r = .ok a
def IsOkOrKey {α : Type} (r : Except Err α) : Prop := (∃ a, r = .ok a) ∨ r = .error .keyError

/-- The five claims of the induction. -/
def ClA (m : Nat) : Prop := ∀ (s : Nat) (d : Deriv) (B : List Nat) (n : Nat),
  unvisited G B (net s).group ≤ m → 6 * m + 1 ≤ n →
  ∃ ks B', lookupF net n s d (some B) = (.ok ks, some B') ∧ (net s).group :: B ⊆ B' ∧
    (ks ≠ [] → (net d.source).group ∉ (net s).group :: B)
def ClK (m : Nat) : Prop := ∀ (s : Nat) (B : List Nat) (n : Nat),
  unvisited G B (net s).group ≤ m → 6 * m + 2 ≤ n →
  ∃ ks B', keysF net n s (some B) = (.ok ks, some B') ∧ B ⊆ B' ∧
    ((net s).derivs = [] → ks = dkeys (net s).items)
def ClD (m : Nat) : Prop := ∀ (s : Nat) (k a : String) (B : List Nat) (n : Nat),
  unvisited G B (net s).group ≤ m → 6 * m + 3 ≤ n → (net s).derivs ≠ [] →
  OkFrom IsOkOrKey (derMetaF net n s k a (some B)) B
def ClI (m : Nat) : Prop := ∀ (s : Nat) (k a : String) (B : List Nat) (n : Nat),
  unvisited G B (net s).group ≤ m → 6 * m + 4 ≤ n →
  OkFrom IsOkOrKey (itemMetaF net n s k a (some B)) B
def ClM (m : Nat) : Prop := ∀ (s : Nat) (k a : String) (v : MVal) (B : List Nat) (n : Nat),
  unvisited G B (net s).group ≤ m → 6 * m + 4 ≤ n →
  ((net s).derivs = [] → k ∈ dkeys (net s).items) →
  OkFrom IsOk (metaF net n s k a v (some B)) B

theorem all_ok (f : String × MVal → GM Bool) (B0 : List Nat)
    (hf : ∀ p B, B0 ⊆ B → OkFrom IsOk (f p (some B)) B) :
    ∀ (l : List (String × MVal)) (B : List Nat), B0 ⊆ B → OkFrom IsOk (GM.all f l (some B)) B := by
  intro l
  induction l with
  | nil => intro B _; exact ⟨⟨_, rfl⟩, B, rfl, List.Subset.refl _⟩
  | cons p t ih =>
    intro B hB
    obtain ⟨⟨x, hx⟩, B1, hB1, hs1⟩ := hf p B hB
    have he : f p (some B) = (.ok x, some B1) := Prod.ext hx hB1
    simp only [GM.all, GM.bind, he]
    cases x with
    | false => exact ⟨⟨_, rfl⟩, B1, rfl, hs1⟩
    | true =>
      simp only [if_true]
      obtain ⟨h1, B2, h2, hs2⟩ := ih B1 (List.Subset.trans hB hs1)
      exact ⟨h1, B2, h2, List.Subset.trans hs1 hs2⟩

theorem filter_ok (f : String → GM Bool) (B0 : List Nat) (K : List String)
    (hf : ∀ k ∈ K, ∀ B, B0 ⊆ B → OkFrom IsOk (f k (some B)) B) :
    ∀ (l : List String) (B : List Nat), l ⊆ K → B0 ⊆ B →
      OkFrom IsOk (GM.filter f l (some B)) B := by
  intro l
  induction l with
  | nil => intro B _ _; exact ⟨⟨_, rfl⟩, B, rfl, List.Subset.refl _⟩
  | cons k t ih =>
    intro B hl hB
    obtain ⟨⟨x, hx⟩, B1, hB1, hs1⟩ := hf k (hl List.mem_cons_self) B hB
    have he : f k (some B) = (.ok x, some B1) := Prod.ext hx hB1
    obtain ⟨⟨y, hy⟩, B2, hB2, hs2⟩ := ih B1 (fun a ha => hl (List.mem_cons_of_mem _ ha))
      (List.Subset.trans hB hs1)
    have he2 : GM.filter f t (some B1) = (.ok y, some B2) := Prod.ext hy hB2
    simp only [GM.filter, GM.bind, he, he2, GM.pure]
    exact ⟨⟨_, rfl⟩, B2, rfl, List.Subset.trans hs1 hs2⟩

theorem collect_ok {α : Type} (f : α → GM (List String)) (B0 : List Nat)
    (hf : ∀ d B, B0 ⊆ B → OkFrom IsOk (f d (some B)) B) :
    ∀ (l : List α) (B : List Nat), B0 ⊆ B → OkFrom IsOk (GM.collect f l (some B)) B := by
  intro l
  induction l with
  | nil => intro B _; exact ⟨⟨_, rfl⟩, B, rfl, List.Subset.refl _⟩
  | cons k t ih =>
    intro B hB
    obtain ⟨⟨x, hx⟩, B1, hB1, hs1⟩ := hf k B hB
    have he : f k (some B) = (.ok x, some B1) := Prod.ext hx hB1
    obtain ⟨⟨y, hy⟩, B2, hB2, hs2⟩ := ih B1 (List.Subset.trans hB hs1)
    have he2 : GM.collect f t (some B1) = (.ok y, some B2) := Prod.ext hy hB2
    simp only [GM.collect, GM.bind, he, he2, GM.pure]
    exact ⟨⟨_, rfl⟩, B2, rfl, List.Subset.trans hs1 hs2⟩

variable {net G} (hG : ∀ s, (net s).group ∈ G)
include hG

/-- The keys listed by the source and their filtering, once the source is not yet visited. -/
theorem source_ok {m : Nat} (hK : ∀ m' < m, ClK net G m') (hM : ∀ m' < m, ClM net G m')
    (s : Nat) (d : Deriv) (B : List Nat) (n : Nat)
    (hm : unvisited G B (net s).group ≤ m) (hn : 6 * m + 1 ≤ n + 1)
    (hv : (net d.source).group ∉ (net s).group :: B) :
    OkFrom IsOk ((GM.bind (keysF net n d.source) fun ks =>
          GM.filter (fun k =>
            GM.all (fun p => GM.bind (metaF net n d.source k p.1 .none) fun m =>
              GM.pure (decide (m = p.2))) d.inProps) ks) (some ((net s).group :: B)))
      ((net s).group :: B) := by
  have hlt := unvisited_lt G (hG d.source) hv (List.Subset.refl _)
  have hmu : unvisited G ((net s).group :: B) (net d.source).group ≤ m - 1 := by omega
  have hm1 : m - 1 < m := by omega
  obtain ⟨ks, B1, hk, hs1, hks⟩ := hK (m - 1) hm1 d.source _ n hmu (by omega)
  simp only [GM.bind, hk]
  have := filter_ok (fun k =>
            GM.all (fun p => GM.bind (metaF net n d.source k p.1 .none) fun m =>
              GM.pure (decide (m = p.2))) d.inProps) B1 ks ?_ ks B1 (List.Subset.refl _)
              (List.Subset.refl _)
  · obtain ⟨h1, B2, h2, hs2⟩ := this
    exact ⟨h1, B2, h2, List.Subset.trans hs1 hs2⟩
  · intro k hkk B2 hB2
    apply all_ok (B0 := B1) _ _ _ B2 hB2
    · intro p B3 hB3
      obtain ⟨⟨v, hv⟩, B4, hB4, hs4⟩ := hM (m - 1) hm1 d.source k p.1 .none B3 n
        (le_trans (unvisited_mono G (List.Subset.trans hs1 hB3) _) hmu) (by omega)
        (fun h0 => by rw [hks h0] at hkk; exact hkk)
      have he : metaF net n d.source k p.1 .none (some B3) = (.ok v, some B4) := Prod.ext hv hB4
      simp only [GM.bind, he, GM.pure]
      exact ⟨⟨_, rfl⟩, B4, rfl, hs4⟩

theorem clA_of {m : Nat} (hK : ∀ m' < m, ClK net G m') (hM : ∀ m' < m, ClM net G m') :
    ClA net G m := by
  intro s d B n hm hn
  obtain ⟨n, rfl⟩ : ∃ n', n = n' + 1 := ⟨n - 1, by omega⟩
  simp only [lookupF, Option.isNone_some, Option.getD_some]
  by_cases hv : (net d.source).group ∈ (net s).group :: B
  · rw [if_pos hv]
    exact ⟨[], _, rfl, List.Subset.refl _, fun h => absurd rfl h⟩
  · rw [if_neg hv]
    obtain ⟨⟨ms, h1⟩, B', h2, hs⟩ := source_ok hG hK hM s d B n hm hn hv
    have he := Prod.ext (y := ((.ok ms, some B') : Except Err (List String) × Option (List Nat))) h1 h2
    rw [he]
    exact ⟨ms, B', rfl, hs, fun _ => hv⟩

omit hG in
theorem clK_of {m : Nat} (hA : ClA net G m) : ClK net G m := by
  intro s B n hm hn
  obtain ⟨n, rfl⟩ : ∃ n', n = n' + 1 := ⟨n - 1, by omega⟩
  obtain ⟨⟨ks, h1⟩, B', h2, hs⟩ := collect_ok (fun d => lookupF net n s d) B (by
    intro d B1 hB1
    obtain ⟨ks, B2, h, hs, -⟩ := hA s d B1 n (le_trans (unvisited_mono G hB1 _) hm) (by omega)
    rw [h]
    exact ⟨⟨_, rfl⟩, B2, rfl, fun x hx => hs (List.mem_cons_of_mem _ hx)⟩)
    (net s).derivs B (List.Subset.refl _)
  have he : GM.collect (fun d => lookupF net n s d) (net s).derivs (some B) = (.ok ks, some B') :=
    Prod.ext h1 h2
  simp only [keysF, GM.bind, he, GM.pure]
  refine ⟨_, B', rfl, hs, fun h0 => ?_⟩
  rw [h0] at he
  simp only [GM.collect, GM.pure, Prod.mk.injEq, Except.ok.injEq] at he
  rw [← he.1, List.append_nil]

theorem clD_of {m : Nat} (hA : ClA net G m) (hI : ∀ m' < m, ClI net G m') : ClD net G m := by
  intro s k a B n hm hn hd
  obtain ⟨n, rfl⟩ : ∃ n', n = n' + 1 := ⟨n - 1, by omega⟩
  simp only [derMetaF]
  obtain ⟨d, t, hdt⟩ : ∃ d t, (net s).derivs = d :: t := by
    cases h : (net s).derivs with
    | nil => exact absurd h hd
    | cons d t => exact ⟨d, t, rfl⟩
  rw [hdt]
  obtain ⟨ks, B1, h, hs, hne⟩ := hA s d B n hm (by omega)
  simp only [GM.bind, h]
  have hsB : B ⊆ B1 := fun x hx => hs (List.mem_cons_of_mem _ hx)
  by_cases hk : k ∈ ks
  · rw [if_pos hk]
    cases hp : dget d.outProps a with
    | some v => exact ⟨.inl ⟨v, rfl⟩, B1, rfl, hsB⟩
    | none =>
      have hv := hne (List.ne_nil_of_mem hk)
      have hlt := unvisited_lt G (hG d.source) hv hs
      obtain ⟨h1, B2, h2, hs2⟩ := hI (m - 1) (by omega) d.source k a B1 n (by omega) (by omega)
      exact ⟨h1, B2, h2, List.Subset.trans hsB hs2⟩
  · rw [if_neg hk]
    exact ⟨.inr rfl, B1, rfl, hsB⟩

omit hG in
theorem clI_of {m : Nat} (hK : ClK net G m) (hD : ClD net G m) : ClI net G m := by
  intro s k a B n hm hn
  obtain ⟨n, rfl⟩ : ∃ n', n = n' + 1 := ⟨n - 1, by omega⟩
  simp only [itemMetaF]
  cases hit : dget (net s).items k with
  | some it =>
    cases hp : dget it.props a with
    | some v => exact ⟨.inl ⟨v, by simp [hp, GM.pure]⟩, B, by simp [hp, GM.pure], List.Subset.refl _⟩
    | none => exact ⟨.inr (by simp [hp, GM.throw]), B, by simp [hp, GM.throw], List.Subset.refl _⟩
  | none =>
    obtain ⟨ks, B1, h, hs1, hks⟩ := hK s B n hm (by omega)
    simp only [GM.bind, h]
    by_cases hk : k ∈ ks
    · rw [if_pos hk]
      obtain ⟨h1, B2, h2, hs2⟩ := hD s k a B1 n (le_trans (unvisited_mono G hs1 _) hm) (by omega)
        (fun h0 => by
          rw [hks h0] at hk
          exact (dget_eq_none _ _).1 hit hk)
      exact ⟨h1, B2, h2, List.Subset.trans hs1 hs2⟩
    · rw [if_neg hk]
      exact ⟨.inr rfl, B1, rfl, hs1⟩

omit hG in
theorem clM_of {m : Nat} (hD : ClD net G m) : ClM net G m := by
  intro s k a v B n hm hn hk
  obtain ⟨n, rfl⟩ : ∃ n', n = n' + 1 := ⟨n - 1, by omega⟩
  simp only [metaF]
  cases hit : dget (net s).items k with
  | some it => exact ⟨⟨_, rfl⟩, B, rfl, List.Subset.refl _⟩
  | none =>
    obtain ⟨h1, B2, h2, hs2⟩ := hD s k a B n hm (by omega)
        (fun h0 => (dget_eq_none _ _).1 hit (hk h0))
    rcases h1 with ⟨x, h1⟩ | h1
    · have he : derMetaF net n s k a (some B) = (.ok x, some B2) := Prod.ext h1 h2
      simp only [he]
      exact ⟨⟨_, rfl⟩, B2, rfl, hs2⟩
    · have he : derMetaF net n s k a (some B) = (.error .keyError, some B2) := Prod.ext h1 h2
      simp only [he]
      exact ⟨⟨_, rfl⟩, B2, rfl, hs2⟩

theorem listing_claims (m : Nat) :
    ClA net G m ∧ ClK net G m ∧ ClD net G m ∧ ClI net G m ∧ ClM net G m := by
  induction m using Nat.strong_induction_on with
  | _ m ih =>
    have hA := clA_of hG (fun m' h => (ih m' h).2.1) (fun m' h => (ih m' h).2.2.2.2)
    have hK := clK_of hA
    have hD := clD_of hG hA (fun m' h => (ih m' h).2.2.2.1)
    exact ⟨hA, hK, hD, clI_of hK hD, clM_of hD⟩

/-- A root lookup: always succeeds, and resets the guard unless source and store share
their group. -/
theorem lookup_root (s : Nat) (d : Deriv) (n : Nat) (hn : 6 * G.card + 1 ≤ n) :
    ∃ ks, lookupF net n s d none =
      (.ok ks, if (net d.source).group = (net s).group then some [(net s).group] else none) ∧
      ((net d.source).group = (net s).group → ks = []) := by
  obtain ⟨n, rfl⟩ : ∃ n', n = n' + 1 := ⟨n - 1, by omega⟩
  have hm : unvisited G [] (net s).group ≤ G.card := Finset.card_le_card Finset.sdiff_subset
  simp only [lookupF, Option.isNone_none, Option.getD_none, List.mem_singleton]
  by_cases hv : (net d.source).group = (net s).group
  · simp only [hv, if_true]
    exact ⟨[], rfl, fun _ => rfl⟩
  · simp only [hv, if_false]
    obtain ⟨⟨ms, h1⟩, B', h2, hs⟩ := source_ok hG (fun m' _ => (listing_claims hG m').2.1)
      (fun m' _ => (listing_claims hG m').2.2.2.2) s d [] n hm hn (by simpa using hv)
    have he := Prod.ext (y := ((.ok ms, some B') : Except Err (List String) × Option (List Nat))) h1 h2
    rw [he]
    exact ⟨ms, rfl, fun h => absurd h id⟩

/-- A listing started from any state of the guard succeeds. -/
theorem keys_any (s : Nat) (b : Option (List Nat)) (n : Nat) (hn : 6 * G.card + 2 ≤ n) :
    ∃ ks b', keysF net n s b = (.ok ks, b') := by
  have hm : ∀ B, unvisited G B (net s).group ≤ G.card := fun B =>
    Finset.card_le_card Finset.sdiff_subset
  obtain ⟨n, rfl⟩ : ∃ n', n = n' + 1 := ⟨n - 1, by omega⟩
  have key : ∀ (l : List Deriv) (b : Option (List Nat)),
      ∃ ks b', GM.collect (fun d => lookupF net n s d) l b = (.ok ks, b') := by
    intro l
    induction l with
    | nil => intro b; exact ⟨_, _, rfl⟩
    | cons d t ih =>
      intro b
      obtain ⟨ks, b1, h⟩ : ∃ ks b', lookupF net n s d b = (.ok ks, b') := by
        cases b with
        | none =>
          obtain ⟨ks, h, -⟩ := lookup_root hG s d n (by omega)
          exact ⟨_, _, h⟩
        | some B =>
          obtain ⟨ks, B', h, -⟩ := (listing_claims hG G.card).1 s d B n (hm B) (by omega)
          exact ⟨_, _, h⟩
      obtain ⟨ks2, b2, h2⟩ := ih b1
      simp only [GM.collect, GM.bind, h, h2, GM.pure]
      exact ⟨_, _, rfl⟩
  obtain ⟨ks, b', h⟩ := key (net s).derivs b
  simp only [keysF, GM.bind, h, GM.pure]
  exact ⟨_, _, rfl⟩

/-- A root listing resets the guard exactly when no derivative of the store has a source
in the store's own group. -/
theorem keys_root (s : Nat) (n : Nat) (hn : 6 * G.card + 2 ≤ n) :
    ((keysF net n s none).2 = none ↔
      ∀ d ∈ (net s).derivs, (net d.source).group ≠ (net s).group) := by
  have hm : ∀ B, unvisited G B (net s).group ≤ G.card := fun B =>
    Finset.card_le_card Finset.sdiff_subset
  obtain ⟨n, rfl⟩ : ∃ n', n = n' + 1 := ⟨n - 1, by omega⟩
  have hsome : ∀ (l : List Deriv) (B : List Nat),
      ∃ ks B', GM.collect (fun d => lookupF net n s d) l (some B) = (.ok ks, some B') := by
    intro l
    induction l with
    | nil => intro B; exact ⟨_, _, rfl⟩
    | cons d t ih =>
      intro B
      obtain ⟨ks, B1, h, -⟩ := (listing_claims hG G.card).1 s d B n (hm B) (by omega)
      obtain ⟨ks2, B2, h2⟩ := ih B1
      simp only [GM.collect, GM.bind, h, h2, GM.pure]
      exact ⟨_, _, rfl⟩
  have key : ∀ (l : List Deriv), ∃ ks b', GM.collect (fun d => lookupF net n s d) l none
      = (.ok ks, b') ∧ (b' = none ↔ ∀ d ∈ l, (net d.source).group ≠ (net s).group) := by
    intro l
    induction l with
    | nil => exact ⟨_, _, rfl, by simp⟩
    | cons d t ih =>
      obtain ⟨ks, h, -⟩ := lookup_root hG s d n (by omega)
      by_cases hv : (net d.source).group = (net s).group
      · rw [if_pos hv] at h
        obtain ⟨ks2, B2, h2⟩ := hsome t [(net s).group]
        simp only [GM.collect, GM.bind, h, h2, GM.pure]
        refine ⟨_, _, rfl, ?_⟩
        simp [hv]
      · rw [if_neg hv] at h
        obtain ⟨ks2, b2, h2, hb2⟩ := ih
        simp only [GM.collect, GM.bind, h, h2, GM.pure]
        refine ⟨_, _, rfl, ?_⟩
        simp [hb2, hv]
  obtain ⟨ks, b', h, hb⟩ := key (net s).derivs
  simp only [keysF, GM.bind, h, GM.pure]
  exact hb

end

end DefDAP
