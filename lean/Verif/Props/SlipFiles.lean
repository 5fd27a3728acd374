import Verif.Props.SlipSystems

/-! C56, C84: the shipped slip system files, as loaded. -/

namespace DefDAP

open Matrix

/-- Number of indices per plane or direction. -/
def Spec.indexCount (cs : CrystalName) : Nat := if cs = .hexagonal then 4 else 3

/-- A crystal structure with all that loading needs: for hexagonal crystals a c/a ratio, and a
valid convention for the axes. -/
def Spec.Loadable (dflt : String) (cs : CrystalName) (ca : Option ℝ) : Prop :=
  cs = .cubic ∨ (cs = .hexagonal ∧ (dflt.toLower = "hkl" ∨ dflt.toLower = "oi" ∨ dflt.toLower = "tsl") ∧
    ∃ r, ca = some r ∧ 1 / 10 ^ 10 ≤ r)

theorem hexL_valid (dflt : String) (ca : ℝ) (h : 1 / 10 ^ 10 ≤ ca)
    (hv : dflt.toLower = "hkl" ∨ dflt.toLower = "oi" ∨ dflt.toLower = "tsl") :
    ∃ l, hexL dflt ca = .ok l := by
  obtain ⟨h1, h2⟩ := hexL_eq dflt ca h
  rcases hv with hv | hv | hv
  · exact ⟨_, h1 (Or.inl hv)⟩
  · exact ⟨_, h1 (Or.inr hv)⟩
  · exact ⟨_, h2 hv⟩

theorem slipSystem_ok (dflt : String) (cs : CrystalName) (ca : Option ℝ)
    (hl : Spec.Loadable dflt cs ca) (plane dir : List Int)
    (hp : plane.length = Spec.indexCount cs) (hd : dir.length = Spec.indexCount cs) :
    ∃ ss, slipSystem dflt cs plane dir ca = .ok ss ∧ ss.planeIdc = plane ∧ ss.dirIdc = dir := by
  rcases hl with rfl | ⟨rfl, hv, r, rfl, hr⟩
  · rcases plane with _ | ⟨p0, _ | ⟨p1, _ | ⟨p2, _ | ⟨p3, pt⟩⟩⟩⟩ <;> simp [Spec.indexCount] at hp
    rcases dir with _ | ⟨d0, _ | ⟨d1, _ | ⟨d2, _ | ⟨d3, dt⟩⟩⟩⟩ <;> simp [Spec.indexCount] at hd
    exact ⟨_, rfl, rfl, rfl⟩
  · rcases plane with _ | ⟨p0, _ | ⟨p1, _ | ⟨p2, _ | ⟨p3, _ | ⟨p4, pt⟩⟩⟩⟩⟩ <;>
      simp [Spec.indexCount] at hp
    rcases dir with _ | ⟨d0, _ | ⟨d1, _ | ⟨d2, _ | ⟨d3, _ | ⟨d4, dt⟩⟩⟩⟩⟩ <;>
      simp [Spec.indexCount] at hd
    obtain ⟨l, hl⟩ := hexL_valid dflt r hr hv
    have h2 : "mb".toLower = "mb" := by with_unfolding_all rfl
    have hne : ¬ ("mb" = "m") := by decide
    unfold slipSystem
    simp only [convertIdc, convertPlane, convertDir, h2, asReals, if_neg hne, if_true, List.map_cons,
      List.map_nil, Except.bind, hl, matVec]
    exact ⟨_, rfl, rfl, rfl⟩

/-- The rows as slip systems. -/
theorem rowSystems_ok (dflt : String) (cs : CrystalName) (ca : Option ℝ)
    (hl : Spec.Loadable dflt cs ca) (rows : List (List Int))
    (hr : ∀ row ∈ rows, row.length = 2 * Spec.indexCount cs) :
    ∃ l, rowSystems dflt cs ca (Spec.indexCount cs) rows = .ok l ∧
      l.map (fun ss => (ss.planeIdc, ss.dirIdc)) =
        rows.map (fun row => (row.take (Spec.indexCount cs), row.drop (Spec.indexCount cs))) ∧
      ∀ ss ∈ l, slipSystem dflt cs ss.planeIdc ss.dirIdc ca = .ok ss := by
  induction rows with
  | nil => exact ⟨[], rfl, rfl, by simp⟩
  | cons row rows ih =>
    obtain ⟨l, h1, h2, h3⟩ := ih fun r hr' => hr r (List.mem_cons_of_mem _ hr')
    have hlen := hr row (List.mem_cons_self ..)
    have ht : (row.drop (Spec.indexCount cs)).take (Spec.indexCount cs) =
        row.drop (Spec.indexCount cs) := by
      rw [List.take_of_length_le]
      rw [List.length_drop]; omega
    obtain ⟨ss, e1, e2, e3⟩ := slipSystem_ok dflt cs ca hl (row.take (Spec.indexCount cs))
      (row.drop (Spec.indexCount cs)) (by rw [List.length_take]; omega)
      (by rw [List.length_drop]; omega)
    refine ⟨ss :: l, ?_, ?_, ?_⟩
    · unfold rowSystems at h1 ⊢
      rw [List.mapM_cons, ht, e1, h1]
      rfl
    · rw [List.map_cons, List.map_cons, h2, e2, e3]
    · intro s hs
      rcases List.mem_cons.1 hs with rfl | hs
      · rw [e2, e3]; exact e1
      · exact h3 s hs

theorem loadSlip_ok (dflt : String) (cs : CrystalName) (ca : Option ℝ)
    (hl : Spec.Loadable dflt cs ca) (file : SlipFile) (h2 : 2 ≤ file.rows.length)
    (hr : ∀ row ∈ file.rows, row.length = 2 * Spec.indexCount cs) :
    ∃ l gs, loadSlip dflt cs ca file = .ok (gs, file.colours) ∧ groupPlane l = .ok gs ∧
      l.map (fun ss => (ss.planeIdc, ss.dirIdc)) =
        file.rows.map (fun row => (row.take (Spec.indexCount cs), row.drop (Spec.indexCount cs))) ∧
      ∀ ss ∈ l, slipSystem dflt cs ss.planeIdc ss.dirIdc ca = .ok ss := by
  obtain ⟨l, e1, e2, e3⟩ := rowSystems_ok dflt cs ca hl file.rows hr
  have hne : l ≠ [] := by
    intro h0
    have := congrArg List.length e2
    rw [h0] at this
    simp at this
    omega
  obtain ⟨gs, hgs⟩ := (C55_defined l).2 hne
  refine ⟨l, gs, ?_, hgs, e2, e3⟩
  have hrows : loadRows (Spec.indexCount cs) file.rows = .ok file.rows := by
    unfold loadRows
    rcases hf : file.rows with _ | ⟨r, _ | ⟨r2, t⟩⟩
    · rw [hf] at h2; simp at h2
    · rw [hf] at h2; simp at h2
    · rw [hf] at hr
      have hr0 := hr r (List.mem_cons_self ..)
      simp only
      rw [if_pos, if_neg (by simp), if_neg (by simpa using hr0)]
      rw [List.all_eq_true]
      intro x hx
      rw [decide_eq_true_iff, hr0, hr x (List.mem_cons_of_mem _ hx)]
  unfold loadSlip
  simp only
  rw [show (if cs = .hexagonal then 4 else 3) = Spec.indexCount cs from rfl, hrows]
  simp only [Except.bind, e1, hgs]

/-- Decidable form of "the direction lies in the plane" for a row. -/
def rowInPlane (n : Nat) (row : List Int) : Bool :=
  match n, row with
  | 3, [h, k, l, u, v, w] => decide (h * u + k * v + l * w = 0)
  | 4, [h, k, i, l, u, v, t, w] => decide (h + k + i = 0) && decide (u + v + t = 0) &&
      decide (h * u + k * v + i * t + l * w = 0)
  | _, _ => false

theorem rowInPlane_spec {cs : CrystalName} {row : List Int}
    (h : rowInPlane (Spec.indexCount cs) row = true) :
    row.length = 2 * Spec.indexCount cs ∧
    Spec.InPlane (row.take (Spec.indexCount cs)) (row.drop (Spec.indexCount cs)) ∧
    (∀ a b c d, row.take (Spec.indexCount cs) = [a, b, c, d] → a + b + c = 0) ∧
    (∀ a b c d, row.drop (Spec.indexCount cs) = [a, b, c, d] → a + b + c = 0) := by
  unfold rowInPlane at h
  split at h
  · rename_i he
    rw [he]
    refine ⟨rfl, Or.inl ⟨_, _, _, _, _, _, rfl, rfl, of_decide_eq_true h⟩, ?_, ?_⟩ <;>
      simp
  · rename_i he
    rw [he]
    simp only [Bool.and_eq_true, decide_eq_true_iff] at h
    refine ⟨rfl, Or.inr ⟨_, _, _, _, _, _, _, _, rfl, rfl, h.1.1, h.2⟩, ?_, ?_⟩
    · intro a b c d e
      simp at e
      obtain ⟨rfl, rfl, rfl, rfl⟩ := e
      exact h.1.1
    · intro a b c d e
      simp at e
      obtain ⟨rfl, rfl, rfl, rfl⟩ := e
      exact h.1.2
  · cases h

/-- The checks on the numbers of a file. -/
def fileGood (n : Nat) (rows : List (List Int)) : Bool :=
  decide (2 ≤ rows.length) && rows.all (rowInPlane n) &&
  rows.all (fun row => (row.take n).any (fun x => decide (x ≠ 0)) &&
    (row.drop n).any (fun x => decide (x ≠ 0))) &&
  decide (rows.Pairwise fun r r' =>
    ¬ (posIdc (r.take n) = posIdc (r'.take n) ∧ posIdc (r.drop n) = posIdc (r'.drop n)))

theorem file_consistent (dflt : String) (cs : CrystalName) (ca : Option ℝ)
    (hl : Spec.Loadable dflt cs ca) (file : SlipFile)
    (hg : fileGood (Spec.indexCount cs) file.rows = true) :
    ∃ gs, loadSlip dflt cs ca file = .ok (gs, file.colours) ∧
      gs.flatten.length = file.rows.length ∧
      (∀ ss ∈ gs.flatten, ss.normal ⬝ᵥ ss.normal = 1 ∧ ss.slip ⬝ᵥ ss.slip = 1 ∧
        ss.normal ⬝ᵥ ss.slip = 0) ∧
      gs.flatten.Pairwise fun a b => slipEq a b = false := by
  unfold fileGood at hg
  simp only [Bool.and_eq_true, decide_eq_true_iff, List.all_eq_true] at hg
  obtain ⟨⟨⟨g1, g2⟩, g3⟩, g4⟩ := hg
  obtain ⟨l, gs, h1, h2, h3, h4⟩ := loadSlip_ok dflt cs ca hl file g1
    fun row hr => (rowInPlane_spec (g2 row hr)).1
  have hperm := (C55_partition l gs h2).1
  have hca : ∀ r, ca = some r → cs ≠ .cubic → 1 / 10 ^ 10 ≤ r := by
    intro r hr hc
    rcases hl with h | ⟨_, _, r', hr', h⟩
    · exact absurd h hc
    · rw [hr] at hr'; cases hr'; exact h
  refine ⟨gs, h1, ?_, ?_, ?_⟩
  · rw [hperm.length_eq]
    simpa using congrArg List.length h3
  · intro ss hss
    have hmem := hperm.mem_iff.1 hss
    have : (ss.planeIdc, ss.dirIdc) ∈ l.map fun ss => (ss.planeIdc, ss.dirIdc) :=
      List.mem_map.2 ⟨ss, hmem, rfl⟩
    rw [h3] at this
    obtain ⟨row, hrow, he⟩ := List.mem_map.1 this
    simp only [Prod.mk.injEq] at he
    obtain ⟨s1, s2, s3, s4⟩ := rowInPlane_spec (g2 row hrow)
    obtain ⟨n1, n2⟩ := g3 row hrow
    rw [List.any_eq_true] at n1 n2
    obtain ⟨x, hx, hx0⟩ := n1
    obtain ⟨y, hy, hy0⟩ := n2
    rw [he.1] at s2 s3 hx
    rw [he.2] at s2 s4 hy
    have hok := h4 ss hmem
    have hdot : ∀ (ca' : Option ℝ), slipSystem dflt cs ss.planeIdc ss.dirIdc ca' = .ok ss →
        (∀ r, ca' = some r → 1 / 10 ^ 10 ≤ r) → ss.normal ⬝ᵥ ss.normal = 1 ∧
          ss.slip ⬝ᵥ ss.slip = 1 ∧ ss.normal ⬝ᵥ ss.slip = 0 := by
      intro ca' hok' hca'
      have u := slip_unit dflt cs ca' hca' _ _ ss hok' ⟨⟨x, hx, of_decide_eq_true hx0⟩, s3⟩
        ⟨⟨y, hy, of_decide_eq_true hy0⟩, s4⟩
      exact ⟨u.1, u.2, slip_perp dflt cs ca' hca' _ _ ss hok' s2⟩
    by_cases hc : cs = .cubic
    · subst hc
      refine hdot none ?_ (by simp)
      unfold slipSystem at hok ⊢
      exact hok
    · exact hdot ca hok fun r hr => hca r hr hc
  · have hsym : ∀ {a b : SlipSystem}, slipEq a b = false → slipEq b a = false := by
      intro a b h
      cases hb : slipEq b a with
      | false => rfl
      | true => rw [C54_equivalence.symm hb] at h; cases h
    refine (hperm.pairwise_iff (R := fun a b => slipEq a b = false) hsym).2 ?_
    have hp : (l.map fun ss => (ss.planeIdc, ss.dirIdc)).Pairwise
        fun a b => ¬ (posIdc a.1 = posIdc b.1 ∧ posIdc a.2 = posIdc b.2) := by
      rw [h3, List.pairwise_map]
      exact g4
    rw [List.pairwise_map] at hp
    refine hp.imp fun {a b} hab => ?_
    cases hb : slipEq a b with
    | false => rfl
    | true => exact absurd ((slipEq_iff a b).1 hb) hab

/-- **C56** All shipped slip system files but `cubic_bcc` load, and the slip systems loaded have
unit plane normals and slip directions, every slip direction lies in its slip plane, and no slip
system is there twice. -/
theorem C56_consistent (dflt : String) (ca : ℝ) (hca : 1 / 10 ^ 10 ≤ ca)
    (hv : dflt.toLower = "hkl" ∨ dflt.toLower = "oi" ∨ dflt.toLower = "tsl")
    (cs : CrystalName) (file : SlipFile)
    (hf : (cs, file) ∈ [(CrystalName.cubic, fccFile), (.cubic, fccDamaskFile), (.cubic, bcc110File),
      (.hexagonal, hexNocaFile), (.hexagonal, hexWithcaFile)]) :
    ∃ gs, loadSlip dflt cs (some ca) file = .ok (gs, file.colours) ∧
      gs.flatten.length = file.rows.length ∧
      (∀ ss ∈ gs.flatten, ss.normal ⬝ᵥ ss.normal = 1 ∧ ss.slip ⬝ᵥ ss.slip = 1 ∧
        ss.normal ⬝ᵥ ss.slip = 0) ∧
      gs.flatten.Pairwise fun a b => slipEq a b = false := by
  have hl : Spec.Loadable dflt cs (some ca) := by
    unfold Spec.Loadable
    simp only [List.mem_cons, Prod.mk.injEq, List.not_mem_nil, or_false] at hf
    rcases hf with ⟨rfl, _⟩ | ⟨rfl, _⟩ | ⟨rfl, _⟩ | ⟨rfl, _⟩ | ⟨rfl, _⟩
    · exact Or.inl rfl
    · exact Or.inl rfl
    · exact Or.inl rfl
    · exact Or.inr ⟨rfl, hv, ca, rfl, hca⟩
    · exact Or.inr ⟨rfl, hv, ca, rfl, hca⟩
  refine file_consistent dflt cs (some ca) hl file ?_
  simp only [List.mem_cons, Prod.mk.injEq, List.not_mem_nil, or_false] at hf
  rcases hf with ⟨rfl, rfl⟩ | ⟨rfl, rfl⟩ | ⟨rfl, rfl⟩ | ⟨rfl, rfl⟩ | ⟨rfl, rfl⟩ <;> decide +kernel

/-- **C56** `cubic_bcc` loads, but holds slip systems whose slip direction is not in the slip
plane, and one slip system twice: 12 of its 48 rows have a direction outside the plane. -/
theorem C56_bcc (dflt : String) (ca : Option ℝ) :
    ∃ gs, loadSlip dflt .cubic ca bccFile = .ok (gs, bccFile.colours) ∧
      (∃ ss ∈ gs.flatten, ss.normal ⬝ᵥ ss.slip ≠ 0) ∧
      ¬ (gs.flatten.Pairwise fun a b => slipEq a b = false) ∧
      (bccFile.rows.filter fun row => !rowInPlane 3 row).length = 12 := by
  have hrows : ∀ row ∈ bccFile.rows, row.length = 2 * Spec.indexCount .cubic := by decide +kernel
  obtain ⟨l, gs, h1, h2, h3, h4⟩ := loadSlip_ok dflt .cubic ca (Or.inl rfl) bccFile
    (by decide +kernel) hrows
  have hperm := (C55_partition l gs h2).1
  refine ⟨gs, h1, ?_, ?_, by decide +kernel⟩
  · have hmem : (([1, 2, 3], [1, 1, 1]) : List Int × List Int) ∈
        l.map fun ss => (ss.planeIdc, ss.dirIdc) := by
      rw [h3]; decide +kernel
    obtain ⟨ss, hss, he⟩ := List.mem_map.1 hmem
    refine ⟨ss, hperm.mem_iff.2 hss, ?_⟩
    have hok := h4 ss hss
    simp only [Prod.mk.injEq] at he
    rw [he.1, he.2] at hok
    obtain ⟨_, _, x, k, m, u, v, w, e1, e2, hn, hs⟩ := slipSystem_cubic _ _ _ _ _ hok
    simp only [List.cons.injEq, and_true] at e1 e2
    obtain ⟨rfl, rfl, rfl⟩ := e1
    obtain ⟨rfl, rfl, rfl⟩ := e2
    rw [hn, hs, unitVec_dot]
    refine div_ne_zero ?_ (mul_ne_zero ?_ ?_)
    · simp [dotProduct, Fin.sum_univ_three]
      norm_num
    · refine (Real.sqrt_pos.2 ?_).ne'
      simp [dotProduct, Fin.sum_univ_three]
      norm_num
    · refine (Real.sqrt_pos.2 ?_).ne'
      simp [dotProduct, Fin.sum_univ_three]
      norm_num
  · intro hp
    have hsym : ∀ {a b : SlipSystem}, slipEq a b = false → slipEq b a = false := by
      intro a b h
      cases hb : slipEq b a with
      | false => rfl
      | true => rw [C54_equivalence.symm hb] at h; cases h
    have hp := (hperm.pairwise_iff (R := fun a b => slipEq a b = false) hsym).1 hp
    have hq : (l.map fun ss => (ss.planeIdc, ss.dirIdc)).Pairwise
        fun a b => ¬ (posIdc a.1 = posIdc b.1 ∧ posIdc a.2 = posIdc b.2) := by
      rw [List.pairwise_map]
      refine hp.imp fun {a b} hab he => ?_
      rw [(slipEq_iff a b).2 he] at hab
      cases hab
    rw [h3] at hq
    revert hq
    decide +kernel

/-! ### C84 -/

/-- The grouping loop on plane indices alone. -/
def groupIdx (p : List Int) : List (List (List Int)) → List (List (List Int))
  | [] => [[p]]
  | g :: gs =>
    match g with
    | [] => [] :: groupIdx p gs
    | r :: t => if posIdc p = posIdc r then (r :: t ++ [p]) :: gs else (r :: t) :: groupIdx p gs

theorem groupInsert_idx (ss : SlipSystem) (gs : List (List SlipSystem)) :
    (groupInsert ss gs).map (fun g => g.map (·.planeIdc)) =
      groupIdx ss.planeIdc (gs.map fun g => g.map (·.planeIdc)) := by
  induction gs with
  | nil => rfl
  | cons g gs ih =>
    cases g with
    | nil => simp only [groupInsert, groupIdx, List.map_cons, List.map_nil, ih]
    | cons r t =>
      simp only [groupInsert, groupIdx, List.map_cons]
      split
      · simp
      · simp [ih]

theorem groupPlane_idx (l : List SlipSystem) (gs : List (List SlipSystem))
    (h : groupPlane l = .ok gs) (ps : List (List Int)) (hp : l.map (·.planeIdc) = ps) :
    gs.length = (ps.tail.foldl (fun gs p => groupIdx p gs) [[ps.headD []]]).length := by
  cases l with
  | nil => cases h
  | cons s t =>
    unfold groupPlane at h
    cases h
    subst hp
    have gen : ∀ (t : List SlipSystem) (gs : List (List SlipSystem)),
        (t.foldl (fun gs ss => groupInsert ss gs) gs).map (fun g => g.map (·.planeIdc)) =
          (t.map (·.planeIdc)).foldl (fun gs p => groupIdx p gs)
            (gs.map fun g => g.map (·.planeIdc)) := by
      intro t
      induction t with
      | nil => intro gs; rfl
      | cons a t ih =>
        intro gs
        rw [List.foldl_cons, ih, groupInsert_idx, List.map_cons, List.foldl_cons]
    have := congrArg List.length (gen t [[s]])
    simpa using this

theorem file_groups (dflt : String) (cs : CrystalName) (ca : Option ℝ)
    (hl : Spec.Loadable dflt cs ca) (file : SlipFile) (h2 : 2 ≤ file.rows.length)
    (hr : ∀ row ∈ file.rows, row.length = 2 * Spec.indexCount cs) (n : Nat)
    (hn : ((file.rows.map fun r => r.take (Spec.indexCount cs)).tail.foldl
      (fun gs p => groupIdx p gs)
      [[(file.rows.map fun r => r.take (Spec.indexCount cs)).headD []]]).length = n) :
    ∃ gs, loadSlip dflt cs ca file = .ok (gs, file.colours) ∧ gs.length = n := by
  obtain ⟨l, gs, h1, hg, h3, _⟩ := loadSlip_ok dflt cs ca hl file h2 hr
  refine ⟨gs, h1, ?_⟩
  rw [groupPlane_idx l gs hg _ rfl]
  have : l.map (·.planeIdc) = file.rows.map fun r => r.take (Spec.indexCount cs) := by
    have := congrArg (List.map Prod.fst) h3
    simpa [List.map_map, Function.comp_def] using this
  rw [this]
  exact hn

/-- **C84** In the files for face-centred cubic and hexagonal crystals there is one trace colour
for every group of slip systems sharing a plane. -/
theorem C84_colours (dflt : String) (ca : ℝ) (hca : 1 / 10 ^ 10 ≤ ca)
    (hv : dflt.toLower = "hkl" ∨ dflt.toLower = "oi" ∨ dflt.toLower = "tsl")
    (cs : CrystalName) (file : SlipFile)
    (hf : (cs, file) ∈ [(CrystalName.cubic, fccFile), (.cubic, fccDamaskFile),
      (.hexagonal, hexNocaFile), (.hexagonal, hexWithcaFile)]) :
    ∃ gs cols, loadSlip dflt cs (some ca) file = .ok (gs, cols) ∧ gs.length = cols.length := by
  simp only [List.mem_cons, Prod.mk.injEq, List.not_mem_nil, or_false] at hf
  have hh : Spec.Loadable dflt .hexagonal (some ca) := Or.inr ⟨rfl, hv, ca, rfl, hca⟩
  rcases hf with ⟨rfl, rfl⟩ | ⟨rfl, rfl⟩ | ⟨rfl, rfl⟩ | ⟨rfl, rfl⟩
  · obtain ⟨gs, h1, h2⟩ := file_groups dflt .cubic (some ca) (Or.inl rfl) fccFile
      (by decide +kernel) (by decide +kernel) 4 (by decide +kernel)
    exact ⟨gs, _, h1, h2⟩
  · obtain ⟨gs, h1, h2⟩ := file_groups dflt .cubic (some ca) (Or.inl rfl) fccDamaskFile
      (by decide +kernel) (by decide +kernel) 4 (by decide +kernel)
    exact ⟨gs, _, h1, h2⟩
  · obtain ⟨gs, h1, h2⟩ := file_groups dflt .hexagonal (some ca) hh hexNocaFile
      (by decide +kernel) (by decide +kernel) 10 (by decide +kernel)
    exact ⟨gs, _, h1, h2⟩
  · obtain ⟨gs, h1, h2⟩ := file_groups dflt .hexagonal (some ca) hh hexWithcaFile
      (by decide +kernel) (by decide +kernel) 10 (by decide +kernel)
    exact ⟨gs, _, h1, h2⟩

/-- **C84** For body-centred cubic crystals there are not enough colours: 30 planes and 12
colours, and 6 planes and 4 colours in the file with {110} planes only. Pairing planes with
colours, as the listings do, leaves out the rest. -/
theorem C84_bcc (dflt : String) (ca : Option ℝ) :
    (∃ gs cols, loadSlip dflt .cubic ca bccFile = .ok (gs, cols) ∧ gs.length = 30 ∧
      cols.length = 12) ∧
    (∃ gs cols, loadSlip dflt .cubic ca bcc110File = .ok (gs, cols) ∧ gs.length = 6 ∧
      cols.length = 4) := by
  constructor
  · obtain ⟨gs, h1, h2⟩ := file_groups dflt .cubic ca (Or.inl rfl) bccFile
      (by decide +kernel) (by decide +kernel) 30 (by decide +kernel)
    exact ⟨gs, _, h1, h2, rfl⟩
  · obtain ⟨gs, h1, h2⟩ := file_groups dflt .cubic ca (Or.inl rfl) bcc110File
      (by decide +kernel) (by decide +kernel) 6 (by decide +kernel)
    exact ⟨gs, _, h1, h2, rfl⟩

/-- **C85** Which crystal structure and slip systems a phase gets: hexagonal for Laue group 9, cubic
for 11 (with slip systems for space groups 225 and 229), and all other Laue groups are refused. -/
theorem C85_phase (dflt : String) (laue space : Int) (a c : ℝ) (h : 1 / 10 ^ 10 ≤ c / a)
    (hv : dflt.toLower = "hkl" ∨ dflt.toLower = "oi" ∨ dflt.toLower = "tsl") :
    (laue = 9 → ∃ gs cols, phaseSlip dflt laue space a c = .ok (.hexagonal, some (gs, cols)) ∧
      loadSlip dflt .hexagonal (some (c / a)) hexWithcaFile = .ok (gs, cols)) ∧
    (laue = 11 → space = 225 → ∃ gs cols,
      phaseSlip dflt laue space a c = .ok (.cubic, some (gs, cols)) ∧
      loadSlip dflt .cubic none fccFile = .ok (gs, cols)) ∧
    (laue = 11 → space = 229 → ∃ gs cols,
      phaseSlip dflt laue space a c = .ok (.cubic, some (gs, cols)) ∧
      loadSlip dflt .cubic none bccFile = .ok (gs, cols)) ∧
    (laue = 11 → space ≠ 225 → space ≠ 229 →
      phaseSlip dflt laue space a c = .ok (.cubic, none)) ∧
    (laue ≠ 9 → laue ≠ 11 → phaseSlip dflt laue space a c = .error .valueError) := by
  refine ⟨?_, ?_, ?_, ?_, ?_⟩
  · rintro rfl
    obtain ⟨gs, h1, _⟩ := C56_consistent dflt (c / a) h hv .hexagonal hexWithcaFile (by simp)
    refine ⟨gs, _, ?_, h1⟩
    simp [phaseSlip, phaseFile, Except.bind, h1]
  · rintro rfl rfl
    obtain ⟨gs, h1, _⟩ := file_groups dflt .cubic none (Or.inl rfl) fccFile
      (by decide +kernel) (by decide +kernel) 4 (by decide +kernel)
    refine ⟨gs, _, ?_, h1⟩
    simp [phaseSlip, phaseFile, Except.bind, h1]
  · rintro rfl rfl
    obtain ⟨gs, h1, _⟩ := C56_bcc dflt none
    refine ⟨gs, _, ?_, h1⟩
    simp [phaseSlip, phaseFile, Except.bind, h1]
  · rintro rfl h1 h2
    simp [phaseSlip, phaseFile, Except.bind, h1, h2]
  · intro h1 h2
    simp [phaseSlip, phaseFile, Except.bind, h1, h2]

/-- **C85** A slip system file with a single row cannot be loaded (`np.loadtxt` gives one axis only). -/
theorem C85_single_row (dflt : String) (cs : CrystalName) (ca : Option ℝ) (row : List Int)
    (colours : List String) :
    loadSlip dflt cs ca ⟨colours, [row]⟩ = .error .indexError := by
  simp [loadSlip, loadRows, Except.bind]

/-! ### Concrete cases -/

/-- **C54** non-vacuity: `(1 1 -1)[1 0 1]` and `(-1 -1 1)[-1 0 -1]` exist and are the same slip
system; `(1 1 -1)[1 0 1]` and `(1 1 -1)[0 1 1]` are not. -/
example : ∃ a b c : SlipSystem,
    slipSystem "hkl" .cubic [1, 1, -1] [1, 0, 1] none = .ok a ∧
    slipSystem "hkl" .cubic [-1, -1, 1] [-1, 0, -1] none = .ok b ∧
    slipSystem "hkl" .cubic [1, 1, -1] [0, 1, 1] none = .ok c ∧
    slipEq a b = true ∧ slipEq a c = false := by
  obtain ⟨a, ha, ha1, ha2⟩ := slipSystem_ok "hkl" .cubic none (Or.inl rfl) [1, 1, -1] [1, 0, 1] rfl rfl
  obtain ⟨b, hb, hb1, hb2⟩ := slipSystem_ok "hkl" .cubic none (Or.inl rfl) [-1, -1, 1] [-1, 0, -1] rfl rfl
  obtain ⟨c, hc, hc1, hc2⟩ := slipSystem_ok "hkl" .cubic none (Or.inl rfl) [1, 1, -1] [0, 1, 1] rfl rfl
  refine ⟨a, b, c, ha, hb, hc, ?_, ?_⟩
  · rw [slipEq_iff, ha1, ha2, hb1, hb2]
    decide +kernel
  · rw [Bool.eq_false_iff]
    intro h
    rw [slipEq_iff, ha1, ha2, hc1, hc2] at h
    revert h
    decide +kernel

/-- **C55** non-vacuity: the twelve face-centred cubic slip systems group into four planes. -/
example : ∃ l gs, l.length = 12 ∧ groupPlane l = .ok gs ∧ gs.length = 4 := by
  obtain ⟨l, gs, h1, hg, h3, _⟩ := loadSlip_ok "hkl" .cubic none (Or.inl rfl) fccFile
    (by decide +kernel) (by decide +kernel)
  obtain ⟨gs', h1', h2⟩ := file_groups "hkl" .cubic none (Or.inl rfl) fccFile
    (by decide +kernel) (by decide +kernel) 4 (by decide +kernel)
  rw [h1] at h1'
  cases h1'
  refine ⟨l, gs, ?_, hg, h2⟩
  have := congrArg List.length h3
  simp only [List.length_map] at this
  rw [this]
  rfl

/-- **C56**, **C84**, **C85** non-vacuity: titanium's `c / a`, in the default convention. -/
example : ∃ gs cols, phaseSlip "hkl" 9 194 1 (1587 / 1000) = .ok (.hexagonal, some (gs, cols)) ∧
    gs.flatten.length = 24 := by
  obtain ⟨gs, h1, h2, _⟩ := C56_consistent "hkl" (1587 / 1000 / 1) (by norm_num)
    (Or.inl (by with_unfolding_all rfl)) .hexagonal hexWithcaFile (by simp)
  refine ⟨gs, hexWithcaFile.colours, ?_, h2⟩
  simp only [phaseSlip, phaseFile, if_true, Except.bind, h1]

end DefDAP
