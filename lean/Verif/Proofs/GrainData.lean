import Verif.Model.GrainData
import Verif.Spec.Regions
import Mathlib.Tactic.Ring
import Mathlib.Tactic.Linarith
import Mathlib.Tactic.FieldSimp
import Mathlib.Tactic.Positivity

namespace DefDAP
open Spec

theorem npIdx_ok {n : Nat} {i : Int} (h0 : 0 ≤ i) (h1 : i < n) : npIdx n i = .ok i := by
  unfold npIdx; rw [if_pos ⟨h0, h1⟩]

theorem npRead_ok {α : Type} {h w : Nat} (im : Img α) {p : Px} (hp : InMap h w p) :
    npRead h w im p = .ok (im p.2 p.1) := by
  obtain ⟨h1, h2, h3, h4⟩ := hp
  unfold npRead
  rw [npIdx_ok h3 h4, npIdx_ok h1 h2]; rfl

theorem npWrite_ok {α : Type} {h w : Nat} (im : Img α) {p : Px} (v : α) (hp : InMap h w p) :
    npWrite h w im p v = .ok (wr im p.2 p.1 v) := by
  obtain ⟨h1, h2, h3, h4⟩ := hp
  unfold npWrite
  rw [npIdx_ok h3 h4, npIdx_ok h1 h2]; rfl

theorem mapM_ok {α β : Type} {f : α → Except Err β} {g : α → β} :
    ∀ (l : List α), (∀ a ∈ l, f a = .ok (g a)) → l.mapM f = .ok (l.map g) := by
  intro l
  induction l with
  | nil => intro _; rfl
  | cons a l ih =>
    intro hl
    rw [List.mapM_cons, hl a (by simp), ih (fun b hb => hl b (by simp [hb]))]
    rfl

theorem grainData_ok {α : Type} {h w : Nat} (m : Img α) {pts : List Px}
    (hp : ∀ p ∈ pts, InMap h w p) :
    grainData h w m pts = .ok (pts.map fun p => m p.2 p.1) :=
  mapM_ok _ fun p hpp => npRead_ok m (hp p hpp)

/-- Unchecked version of `writeAll`. -/
def wrAll {α : Type} (im : Img α) (l : List (Px × α)) : Img α :=
  l.foldl (fun im pv => wr im pv.1.2 pv.1.1 pv.2) im

theorem writeAll_ok {α : Type} {h w : Nat} : ∀ (l : List (Px × α)) (im : Img α),
    (∀ pv ∈ l, InMap h w pv.1) → writeAll h w im l = .ok (wrAll im l) := by
  intro l
  induction l with
  | nil => intro im _; rfl
  | cons a l ih =>
    intro im hl
    unfold writeAll at ih ⊢
    rw [List.foldlM_cons, npWrite_ok im a.2 (hl a (by simp))]
    exact ih _ (fun b hb => hl b (by simp [hb]))

theorem wr_same {α : Type} (im : Img α) (y x : Int) (v : α) : wr im y x v y x = v := by
  simp [wr]

theorem wr_other {α : Type} (im : Img α) {p q : Px} (v : α) (hne : q ≠ p) :
    wr im p.2 p.1 v q.2 q.1 = im q.2 q.1 := by
  unfold wr
  rw [if_neg]
  rintro ⟨h1, h2⟩
  exact hne (Prod.ext h2 h1)

theorem wrAll_notMem {α : Type} : ∀ (l : List (Px × α)) (im : Img α) (q : Px),
    (∀ pv ∈ l, pv.1 ≠ q) → wrAll im l q.2 q.1 = im q.2 q.1 := by
  intro l
  induction l with
  | nil => intro im q _; rfl
  | cons a l ih =>
    intro im q hq
    have := ih (wr im a.1.2 a.1.1 a.2) q (fun pv hpv => hq pv (by simp [hpv]))
    rw [wr_other im a.2 (fun h => hq a (by simp) h.symm)] at this
    exact this

theorem wrAll_mem {α : Type} : ∀ (l : List (Px × α)) (im : Img α), (l.map (·.1)).Nodup →
    ∀ pv ∈ l, wrAll im l pv.1.2 pv.1.1 = pv.2 := by
  intro l
  induction l with
  | nil => intro im _ pv h; simp at h
  | cons a l ih =>
    intro im hn pv hpv
    rw [List.map_cons, List.nodup_cons] at hn
    rcases List.mem_cons.1 hpv with rfl | hpv
    · have := wrAll_notMem l (wr im pv.1.2 pv.1.1 pv.2) pv.1 (by
        intro qv hqv he
        exact hn.1 (List.mem_map.2 ⟨qv, hqv, he⟩))
      rw [wr_same] at this
      exact this
    · exact ih _ hn.2 pv hpv

theorem wrAll_append {α : Type} (l m : List (Px × α)) (im : Img α) :
    wrAll im (l ++ m) = wrAll (wrAll im l) m := by
  unfold wrAll; rw [List.foldl_append]

/-- The list of assignments when all of them agree with a function. -/
theorem wrAll_fun {α : Type} (f : Px → α) : ∀ (l : List (Px × α)) (im : Img α),
    (∀ pv ∈ l, pv.2 = f pv.1) → ∀ q, wrAll im l q.2 q.1 =
      if q ∈ l.map (·.1) then f q else im q.2 q.1 := by
  intro l
  induction l with
  | nil => intro im _ q; simp [wrAll]
  | cons a l ih =>
    intro im hl q
    have := ih (wr im a.1.2 a.1.1 a.2) (fun pv hpv => hl pv (by simp [hpv])) q
    have e : wrAll im (a :: l) = wrAll (wr im a.1.2 a.1.1 a.2) l := rfl
    rw [e, this]
    by_cases hq : q ∈ l.map (·.1)
    · have h2 : q ∈ (a :: l).map (·.1) := by
        rw [List.map_cons]; exact List.mem_cons_of_mem _ hq
      rw [if_pos hq, if_pos h2]
    · by_cases hqa : q = a.1
      · subst hqa
        have h2 : a.1 ∈ (a :: l).map (·.1) := by simp
        rw [if_neg hq, if_pos h2, wr_same, hl a (by simp)]
      · have h2 : q ∉ (a :: l).map (·.1) := by
          rw [List.map_cons, List.mem_cons]
          rintro (h | h)
          · exact hqa h
          · exact hq h
        rw [if_neg hq, if_neg h2, wr_other im a.2 hqa]

/-! ### Bounding box -/

theorem foldl_min_spec (l : List Int) : ∀ a, (l.foldl min a ≤ a ∧ ∀ b ∈ l, l.foldl min a ≤ b) ∧
    (l.foldl min a = a ∨ l.foldl min a ∈ l) := by
  induction l with
  | nil => intro a; simp
  | cons c l ih =>
    intro a
    obtain ⟨⟨h1, h2⟩, h3⟩ := ih (min a c)
    rw [List.foldl_cons]
    refine ⟨⟨by omega, ?_⟩, ?_⟩
    · intro b hb
      rcases List.mem_cons.1 hb with rfl | hb
      · omega
      · exact h2 b hb
    · rcases h3 with h3 | h3
      · rw [h3]
        rcases le_total a c with h | h
        · left; omega
        · right; rw [min_eq_right h]; simp
      · right; simp [h3]

theorem foldl_max_spec (l : List Int) : ∀ a, (a ≤ l.foldl max a ∧ ∀ b ∈ l, b ≤ l.foldl max a) ∧
    (l.foldl max a = a ∨ l.foldl max a ∈ l) := by
  induction l with
  | nil => intro a; simp
  | cons c l ih =>
    intro a
    obtain ⟨⟨h1, h2⟩, h3⟩ := ih (max a c)
    rw [List.foldl_cons]
    refine ⟨⟨by omega, ?_⟩, ?_⟩
    · intro b hb
      rcases List.mem_cons.1 hb with rfl | hb
      · omega
      · exact h2 b hb
    · rcases h3 with h3 | h3
      · rw [h3]
        rcases le_total c a with h | h
        · left; omega
        · right; rw [max_eq_right h]; simp
      · right; simp [h3]

theorem minMax_spec {l : List Int} (hl : l ≠ []) : ∃ a b, minMax l = .ok (a, b) ∧ a ∈ l ∧ b ∈ l ∧
    ∀ c ∈ l, a ≤ c ∧ c ≤ b := by
  cases l with
  | nil => exact absurd rfl hl
  | cons c l =>
    obtain ⟨⟨h1, h2⟩, h3⟩ := foldl_min_spec l c
    obtain ⟨⟨g1, g2⟩, g3⟩ := foldl_max_spec l c
    refine ⟨_, _, rfl, ?_, ?_, ?_⟩
    · rcases h3 with h | h
      · rw [h]; simp
      · exact List.mem_cons_of_mem _ h
    · rcases g3 with h | h
      · rw [h]; simp
      · exact List.mem_cons_of_mem _ h
    · intro d hd
      rcases List.mem_cons.1 hd with rfl | hd
      · exact ⟨h1, g1⟩
      · exact ⟨h2 d hd, g2 d hd⟩

theorem extremeCoords_spec {pts : List Px} (hl : pts ≠ []) : ∃ x0 y0 x1 y1,
    extremeCoords pts = .ok (x0, y0, x1, y1) ∧
    (∀ p ∈ pts, x0 ≤ p.1 ∧ p.1 ≤ x1 ∧ y0 ≤ p.2 ∧ p.2 ≤ y1) ∧
    (∃ p ∈ pts, p.1 = x0) ∧ (∃ p ∈ pts, p.1 = x1) ∧ (∃ p ∈ pts, p.2 = y0) ∧
    (∃ p ∈ pts, p.2 = y1) := by
  obtain ⟨x0, x1, hx, a1, a2, a3⟩ := minMax_spec (l := pts.map (·.1)) (by simpa using hl)
  obtain ⟨y0, y1, hy, b1, b2, b3⟩ := minMax_spec (l := pts.map (·.2)) (by simpa using hl)
  refine ⟨x0, y0, x1, y1, ?_, ?_, ?_, ?_, ?_, ?_⟩
  · unfold extremeCoords; rw [hx, hy]; rfl
  · intro p hp
    have h1 := a3 _ (List.mem_map.2 ⟨p, hp, rfl⟩)
    have h2 := b3 _ (List.mem_map.2 ⟨p, hp, rfl⟩)
    exact ⟨h1.1, h1.2, h2.1, h2.2⟩
  · simpa using a1
  · simpa using a2
  · simpa using b1
  · simpa using b2

/-! ### Rounding -/

theorem roundEven_close (q : Rat) : |(roundEven q : Rat) - q| ≤ 1 / 2 := by
  have h1 := Int.floor_le q
  have h2 := Int.lt_floor_add_one q
  unfold roundEven
  rw [abs_le]
  dsimp only
  split_ifs with c1 c2 c3
  · constructor <;> linarith
  · push_cast; constructor <;> linarith
  · constructor <;> linarith
  · push_cast; constructor <;> linarith

theorem roundEven_between {q : Rat} {a b : Int} (ha : (a : Rat) ≤ q) (hb : q ≤ b) :
    a ≤ roundEven q ∧ roundEven q ≤ b := by
  have h := abs_le.1 (roundEven_close q)
  have h1 := Int.floor_le q
  have h2 := Int.lt_floor_add_one q
  have hfa : a ≤ ⌊q⌋ := Int.le_floor.2 ha
  constructor
  · unfold roundEven; dsimp only; split_ifs <;> omega
  · by_contra hc
    push Not at hc
    have : (b : Rat) + 1 ≤ roundEven q := by exact_mod_cast hc
    linarith [h.2]

theorem roundEven_int (a : Int) : roundEven (a : Rat) = a := by
  have := roundEven_between (q := (a : Rat)) (a := a) (b := a) le_rfl le_rfl
  omega

/-- A tie goes to the even neighbour. -/
theorem roundEven_tie (a : Int) : roundEven ((a : Rat) + 1 / 2) % 2 = 0 := by
  have hf : ⌊(a : Rat) + 1 / 2⌋ = a := by
    rw [Int.floor_eq_iff]; constructor <;> linarith
  unfold roundEven
  rw [hf]
  dsimp only
  rw [if_neg (by norm_num), if_neg (by norm_num)]
  split_ifs <;> omega

/-! ### Sums -/

theorem sum_bounds {α : Type} (f : α → Rat) (lo hi : Rat) : ∀ l : List α,
    (∀ a ∈ l, lo ≤ f a ∧ f a ≤ hi) →
    lo * l.length ≤ (l.map f).sum ∧ (l.map f).sum ≤ hi * l.length := by
  intro l
  induction l with
  | nil => intro _; simp
  | cons a l ih =>
    intro hl
    obtain ⟨h1, h2⟩ := ih (fun b hb => hl b (by simp [hb]))
    obtain ⟨h3, h4⟩ := hl a (by simp)
    simp only [List.map_cons, List.sum_cons, List.length_cons]
    push_cast
    constructor <;> nlinarith

theorem mean_bounds {α : Type} (f : α → Rat) (lo hi : Rat) (l : List α) (hne : l ≠ [])
    (hl : ∀ a ∈ l, lo ≤ f a ∧ f a ≤ hi) :
    lo ≤ (l.map f).sum / l.length ∧ (l.map f).sum / l.length ≤ hi := by
  obtain ⟨h1, h2⟩ := sum_bounds f lo hi l hl
  have : (0 : Rat) < l.length := by
    have := List.length_pos_of_ne_nil hne
    exact_mod_cast this
  rw [le_div_iff₀ this, div_le_iff₀ this]
  exact ⟨h1, h2⟩

/-! ### Grain images -/

theorem grainMapData_ok {α : Type} {pts : List Px} (hne : pts ≠ []) (data : List α) (bg : α)
    {x0 y0 x1 y1 : Int} (he : extremeCoords pts = .ok (x0, y0, x1, y1)) :
    grainMapData pts data bg = .ok ((y1 - y0 + 1).toNat, (x1 - x0 + 1).toNat,
      wrAll (fun _ _ => bg) ((pts.zip data).map fun pv => ((pv.1.1 - x0, pv.1.2 - y0), pv.2))) := by
  obtain ⟨_, _, _, _, he', hb, -⟩ := extremeCoords_spec hne
  rw [he] at he'
  cases he'
  unfold grainMapData
  rw [he]
  simp only [bind, Except.bind]
  rw [writeAll_ok]
  intro pv hpv
  obtain ⟨⟨p, v⟩, hz, rfl⟩ := List.mem_map.1 hpv
  have hp := (List.of_mem_zip hz).1
  have := hb p hp
  refine ⟨?_, ?_, ?_, ?_⟩ <;> simp only <;> omega

theorem zip_map_self {α β : Type} (f : α → β) (l : List α) :
    l.zip (l.map f) = l.map fun a => (a, f a) := by
  induction l with
  | nil => rfl
  | cons a l ih => rw [List.map_cons, List.zip_cons_cons, ih, List.map_cons]

theorem zip_get {α β : Type} {l : List α} {m : List β} {i : Nat} {a : α} {b : β}
    (h1 : l[i]? = some a) (h2 : m[i]? = some b) : (a, b) ∈ l.zip m := by
  rw [List.mem_iff_getElem?]
  refine ⟨i, ?_⟩
  rw [List.getElem?_zip_eq_some]
  exact ⟨h1, h2⟩

theorem map_fst_zip_sublist {α β : Type} (l : List α) (m : List β) :
    ((l.zip m).map (·.1)).Sublist l := by
  induction l generalizing m with
  | nil => simp
  | cons a l ih =>
    cases m with
    | nil => simp
    | cons b m =>
      rw [List.zip_cons_cons, List.map_cons]
      exact (ih m).cons_cons a

theorem shifted_nodup {α : Type} {pts : List Px} (data : List α) (hn : pts.Nodup) (x0 y0 : Int) :
    (((pts.zip data).map fun pv => (((pv.1.1 - x0, pv.1.2 - y0) : Px), pv.2)).map (·.1)).Nodup := by
  rw [List.map_map]
  have h1 : ((pts.zip data).map (·.1)).Nodup := hn.sublist (map_fst_zip_sublist _ _)
  have h2 : ((fun pv : Px × α => pv.1) ∘ fun pv : Px × α => (((pv.1.1 - x0, pv.1.2 - y0) : Px), pv.2)) =
      (fun p : Px => ((p.1 - x0, p.2 - y0) : Px)) ∘ (·.1) := rfl
  rw [h2, ← List.map_map]
  apply h1.map
  intro p q hpq
  simp only [Prod.mk.injEq] at hpq
  exact Prod.ext (by omega) (by omega)

/-! ### Writing lists of grains -/

theorem grainToMap_ok {α : Type} {h w : Nat} (im : Img α) (pts : List Px) (vals : List α)
    (hp : ∀ p ∈ pts, InMap h w p) (hl : pts.length = vals.length) :
    grainToMap h w im (pts, vals) = .ok (wrAll im (pts.zip vals)) := by
  have key : ∀ n, n ≤ pts.length → (List.range n).foldlM (fun im i =>
      match pts[i]?, vals[i]? with
      | some p, some v => npWrite h w im p v
      | _, _ => Except.error Err.indexError) im = .ok (wrAll im ((pts.zip vals).take n)) := by
    intro n
    induction n with
    | zero => intro _; rfl
    | succ n ih =>
      intro hn
      rw [List.range_succ, List.foldlM_append, ih (by omega)]
      have e1 : pts[n]? = some pts[n] := List.getElem?_eq_getElem (by omega)
      have e2 : vals[n]? = some vals[n] := List.getElem?_eq_getElem (by omega)
      have e3 : (pts.zip vals)[n]? = some (pts[n], vals[n]) := by
        rw [List.getElem?_zip_eq_some]; exact ⟨e1, e2⟩
      have e4 : (pts.zip vals).take (n + 1) = (pts.zip vals).take n ++ [(pts[n], vals[n])] := by
        rw [List.take_add_one, e3]; rfl
      simp only [bind, Except.bind, List.foldlM_cons, List.foldlM_nil, e1, e2]
      rw [npWrite_ok _ _ (hp _ (List.getElem_mem _)), e4, wrAll_append]
      rfl
  have := key pts.length le_rfl
  rw [List.take_of_length_le (by simp)] at this
  exact this

theorem grainDataToMap_ok {α : Type} [Zero α] {h w : Nat} : ∀ (gs : List (List Px × List α)),
    gs ≠ [] → (∀ g ∈ gs, (∀ p ∈ g.1, InMap h w p) ∧ g.1.length = g.2.length) →
    grainDataToMap h w gs = .ok (wrAll (fun _ _ => 0) (gs.flatMap fun g => g.1.zip g.2)) := by
  intro gs hne hg
  have key : ∀ (gs : List (List Px × List α)) (im : Img α),
      (∀ g ∈ gs, (∀ p ∈ g.1, InMap h w p) ∧ g.1.length = g.2.length) →
      gs.foldlM (grainToMap h w) im = .ok (wrAll im (gs.flatMap fun g => g.1.zip g.2)) := by
    intro gs
    induction gs with
    | nil => intro im _; rfl
    | cons g gs ih =>
      intro im hg
      obtain ⟨h1, h2⟩ := hg g (by simp)
      rw [List.foldlM_cons]
      have := grainToMap_ok im g.1 g.2 h1 h2
      rw [show grainToMap h w im g = grainToMap h w im (g.1, g.2) from rfl, this,
        List.flatMap_cons, wrAll_append]
      exact ih _ (fun g' hg' => hg g' (by simp [hg']))
  cases gs with
  | nil => exact absurd rfl hne
  | cons g gs => exact key _ _ hg

end DefDAP
