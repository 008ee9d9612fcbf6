import Verif.Props.BreakupTable
import Verif.Props.Potential
/-! Exact conditions for C74, C83 and C84: what the list of breakup cells of one energy contains, and how often. -/
noncomputable section
namespace TicTac
open Spec

section cells
variable (E : ℝ) (Q P : ℕ → ℝ)

/-- A cell of a rectangular grid contains the energy. -/
abbrev GridHit (i j : ℕ) : Prop := CellHit E (Q i) (Q (i + 1)) (P j) (P (j + 1))

/-- The cells met by a line of constant energy are connected: two of them imply two neighbouring ones. -/
theorem hits_connected (Nq Np : ℕ) (hQ : ∀ i < Nq, Q i ≤ Q (i + 1)) (hP : ∀ j < Np, P j ≤ P (j + 1)) (i j i' j' : ℕ) (hi : i < Nq) (hj : j < Np) (hi' : i' < Nq)
    (hj' : j' < Np) (h : GridHit E Q P i j) (h' : GridHit E Q P i' j') (hne : (i, j) ≠ (i', j')) :
    (∃ i j, i + 1 < Nq ∧ j < Np ∧ GridHit E Q P i j ∧ GridHit E Q P (i + 1) j) ∨ (∃ i j, i < Nq ∧ j + 1 < Np ∧ GridHit E Q P i j ∧ GridHit E Q P i (j + 1)) := by
  have mono : ∀ (F : ℕ → ℝ) (N : ℕ), (∀ k < N, F k ≤ F (k + 1)) → ∀ k l, k ≤ l → l ≤ N → F k ≤ F l := by
    intro F N hF k l hkl
    induction l, hkl using Nat.le_induction with
    | base => intro _; exact le_rfl
    | succ l _ ih => intro hl; exact (ih (by omega)).trans (hF l (by omega))
  have mQ := mono Q Nq hQ
  have mP := mono P Np hP
  have same : ∀ i j j', i < Nq → j < j' → j' < Np → GridHit E Q P i j → GridHit E Q P i j' → GridHit E Q P i (j + 1) := by
    intro i j j' hi hjj hj' ⟨a1, a2, a3, a4⟩ ⟨b1, b2, b3, b4⟩
    have := mP (j + 1) j' hjj hj'.le
    have h2 := mP (j + 1) (j + 1 + 1) (by omega) (by omega)
    exact ⟨by linarith, by linarith, by linarith, by linarith⟩
  have up : ∀ i j i' j', i < i' → i' < Nq → j < Np → j' < Np → GridHit E Q P i j → GridHit E Q P i' j' →
      GridHit E Q P (i + 1) j ∨ (j' < j ∧ GridHit E Q P i (j - 1)) := by
    intro i j i' j' hii hi' hj hj' ⟨a1, a2, a3, a4⟩ ⟨b1, b2, b3, b4⟩
    have q1 := mQ (i + 1) i' hii hi'.le
    have q2 := mQ (i + 1) (i + 1 + 1) (by omega) (by omega)
    by_cases hjj : j ≤ j'
    · have p1 := mP j j' hjj hj'.le
      exact Or.inl ⟨by linarith, by linarith, a3, a4⟩
    · by_cases hc : Q (i + 1) + P j ≤ E
      · exact Or.inl ⟨by linarith, by linarith, a3, a4⟩
      · have p1 := mP j' (j - 1) (by omega) (by omega)
        have p2 := mP (j - 1) j (by omega) (by omega)
        have e : j - 1 + 1 = j := by omega
        exact Or.inr ⟨by omega, by linarith, by rw [e]; linarith, by linarith, by rw [e]; linarith⟩
  rcases lt_trichotomy i i' with c | c | c
  · rcases up i j i' j' c hi' hj hj' h h' with u | ⟨u, v⟩
    · exact Or.inl ⟨i, j, by omega, hj, h, u⟩
    · exact Or.inr ⟨i, j - 1, hi, by omega, v, by rw [show j - 1 + 1 = j by omega]; exact h⟩
  · subst c
    rcases lt_trichotomy j j' with d | d | d
    · exact Or.inr ⟨i, j, hi, by omega, h, same i j j' hi d hj' h h'⟩
    · exact absurd (by rw [d]) hne
    · exact Or.inr ⟨i, j', hi, by omega, h', same i j' j hi d hj h' h⟩
  · rcases up i' j' i j c hi hj' hj h' h with u | ⟨u, v⟩
    · exact Or.inl ⟨i', j', by omega, hj', h', u⟩
    · exact Or.inr ⟨i', j' - 1, hi', by omega, v, by rw [show j' - 1 + 1 = j' by omega]; exact h'⟩

/-- Two neighbouring cells that contain the energy record a common cell. -/
theorem neighbours_overlap (a : Int) (i j : ℕ) (hQ : Q i ≤ Q (i + 1)) (hP : P j ≤ P (j + 1)) :
    (Q (i + 1) ≤ Q (i + 2) → GridHit E Q P i j → GridHit E Q P (i + 1) j →
      ∃ t, t ∈ breakupCell E (Q i) (Q (i + 1)) (P j) (P (j + 1)) a i j ∧ t ∈ breakupCell E (Q (i + 1)) (Q (i + 2)) (P j) (P (j + 1)) a (i + 1 : ℕ) j) ∧
    (P (j + 1) ≤ P (j + 2) → GridHit E Q P i j → GridHit E Q P i (j + 1) →
      ∃ t, t ∈ breakupCell E (Q i) (Q (i + 1)) (P j) (P (j + 1)) a i j ∧ t ∈ breakupCell E (Q i) (Q (i + 1)) (P (j + 1)) (P (j + 2)) a i (j + 1 : ℕ)) := by
  constructor
  · intro hQ' h h'
    by_cases c : (Q i + Q (i + 1)) / 2 + P j ≤ E
    · refine ⟨(a, (i + 1 : ℕ), j), ?_, ?_⟩
      · rw [mem_breakupCell_iff hQ hP]; exact ⟨h, rfl, Or.inr (by rw [if_pos c]; push_cast; ring), Or.inl rfl⟩
      · rw [mem_breakupCell_iff hQ' hP]; exact ⟨h', rfl, Or.inl rfl, Or.inl rfl⟩
    · refine ⟨(a, i, j), ?_, ?_⟩
      · rw [mem_breakupCell_iff hQ hP]; exact ⟨h, rfl, Or.inl rfl, Or.inl rfl⟩
      · rw [mem_breakupCell_iff hQ' hP]
        refine ⟨h', rfl, Or.inr ?_, Or.inl rfl⟩
        rw [if_neg (by intro x; apply c; linarith)]; push_cast; ring
  · intro hP' h h'
    by_cases c : (Q i + Q (i + 1)) / 2 + (P j + P (j + 1)) / 2 ≤ E
    · refine ⟨(a, i, (j + 1 : ℕ)), ?_, ?_⟩
      · rw [mem_breakupCell_iff hQ hP]; exact ⟨h, rfl, Or.inl rfl, Or.inr (by rw [if_pos c]; push_cast; ring)⟩
      · rw [mem_breakupCell_iff hQ hP']; exact ⟨h', rfl, Or.inl rfl, Or.inl rfl⟩
    · refine ⟨(a, i, j), ?_, ?_⟩
      · rw [mem_breakupCell_iff hQ hP]; exact ⟨h, rfl, Or.inl rfl, Or.inl rfl⟩
      · rw [mem_breakupCell_iff hQ hP']
        refine ⟨h', rfl, Or.inl rfl, Or.inr ?_⟩
        rw [if_neg (by intro x; apply c; linarith)]; push_cast; ring

end cells

theorem range_pairwise {R : ℕ → ℕ → Prop} (N : ℕ) : (List.range N).Pairwise R ↔ ∀ i j, i < j → j < N → R i j := by
  rw [List.pairwise_iff_getElem]
  constructor
  · intro h i j hij hj
    have := h i j (by simpa using hij.trans hj) (by simpa using hj) hij
    rwa [List.getElem_range, List.getElem_range] at this
  · intro h i j hi hj hij
    rw [List.getElem_range, List.getElem_range]
    exact h i j hij (by simpa using hj)

/-- One partial wave: the cells recorded are distinct exactly when at most one cell contains the energy. -/
theorem breakupState_nodup (Np Nq : Nat) (q : Nat → ℝ) (e : Bool → Int → ℝ) (E : ℝ) (a : Nat) (b : Bool) (n : Int)
    (hq : ∀ i < Nq, ndEnergy 0 (q i) ≤ ndEnergy 0 (q (i + 1))) (he : ∀ j < Np, e b (n + j) ≤ e b (n + j + 1)) :
    (breakupState Np Nq q e E a (b, n)).Nodup ↔ ∀ i < Nq, ∀ j < Np, ∀ i' < Nq, ∀ j' < Np,
      CellHit E (ndEnergy 0 (q i)) (ndEnergy 0 (q (i + 1))) (e b (n + j)) (e b (n + j + 1)) →
      CellHit E (ndEnergy 0 (q i')) (ndEnergy 0 (q (i' + 1))) (e b (n + j')) (e b (n + j' + 1)) → i = i' ∧ j = j' := by
  have cast : ∀ j : ℕ, e b (n + j + 1) = e b (n + ((j + 1 : ℕ) : Int)) := fun j => by congr 1; push_cast; ring
  have cast2 : ∀ j : ℕ, e b (n + ((j + 1 : ℕ) : Int) + 1) = e b (n + ((j + 2 : ℕ) : Int)) := fun j => by congr 1; push_cast; ring
  set Q : ℕ → ℝ := fun i => ndEnergy 0 (q i) with hQdef
  set P : ℕ → ℝ := fun j => e b (n + (j : Int)) with hPdef
  have hP : ∀ j < Np, P j ≤ P (j + 1) := fun j hj => by have := he j hj; rw [cast] at this; exact this
  have key : breakupState Np Nq q e E a (b, n) = (List.range Nq).flatMap fun i => (List.range Np).flatMap fun j =>
      breakupCell E (Q i) (Q (i + 1)) (P j) (P (j + 1)) a i j := by
    rw [breakupState_nd]; simp only [cast, hPdef, hQdef]
  rw [key]
  simp only [cast]
  change _ ↔ ∀ i < Nq, ∀ j < Np, ∀ i' < Nq, ∀ j' < Np, GridHit E Q P i j → GridHit E Q P i' j' → i = i' ∧ j = j'
  rw [List.nodup_flatMap]
  simp only [List.nodup_flatMap, List.mem_range, range_pairwise, Function.onFun, one_cell_distinct, implies_true, true_and]
  constructor
  · rintro ⟨h1, h2⟩ i hi j hj i' hi' j' hj' hh hh'
    by_contra hne
    rcases hits_connected E Q P Nq Np hq hP i j i' j' hi hj hi' hj' hh hh' (fun x => hne (by simpa using x)) with ⟨x, y, hx, hy, k1, k2⟩ | ⟨x, y, hx, hy, k1, k2⟩
    · obtain ⟨t, t1, t2⟩ := (neighbours_overlap E Q P a x y (hq x (by omega)) (hP y hy)).1 (hq (x + 1) hx) k1 k2
      exact h2 x (x + 1) (by omega) hx (List.mem_flatMap.2 ⟨y, List.mem_range.2 hy, t1⟩) (List.mem_flatMap.2 ⟨y, List.mem_range.2 hy, t2⟩)
    · obtain ⟨t, t1, t2⟩ := (neighbours_overlap E Q P a x y (hq x hx) (hP y (by omega))).2 (hP (y + 1) hy) k1 k2
      exact h1 x hx y (y + 1) (by omega) hy t1 t2
  · intro h
    refine ⟨fun i hi j j' hjj hj' t t1 t2 => ?_, fun i i' hii hi' t t1 t2 => ?_⟩
    · have := h i hi j (by omega) i hi j' hj' (mem_breakupCell t1).1 (mem_breakupCell t2).1
      omega
    · obtain ⟨j, hj, t1⟩ := List.mem_flatMap.1 t1
      obtain ⟨j', hj', t2⟩ := List.mem_flatMap.1 t2
      have := h i (by omega) j (List.mem_range.1 hj) i' hi' j' (List.mem_range.1 hj') (mem_breakupCell t1).1 (mem_breakupCell t2).1
      omega

/-- The list of one energy, partial wave by partial wave. -/
theorem breakupEnergy_parts {p : PWParams} {Np Nq : Nat} {q : Nat → ℝ} {e : Bool → Int → ℝ} {Eb Ecom : ℝ} {states : List PWState} {l : List (Int × Int × Int)}
    (h : breakupEnergy p Np Nq q e Eb states Ecom = .ok l) (h0 : 0 ≤ Ecom + Eb) :
    ∃ ls : List (List (Int × Int × Int)), l = ls.flatten ∧ ls.length = states.length ∧
      ∀ a (ha : a < states.length) (ha' : a < ls.length), ∃ b n, ePtr p Np states[a] = some (b, n) ∧ ls[a] = breakupState Np Nq q e Ecom a (b, n) := by
  unfold breakupEnergy at h
  rw [if_neg (not_lt.2 h0)] at h
  split at h
  · simp at h
  · rename_i ls hls
    split at h
    · simp at h
    · simp only [Except.ok.injEq] at h
      refine ⟨ls, h.symm, ?_⟩
      have hf := mapM_forall2 hls
      have hlen := hf.length_eq
      rw [List.length_zipIdx] at hlen
      refine ⟨hlen.symm, fun a ha ha' => ?_⟩
      have := List.forall₂_iff_get.1 hf |>.2 a (by simpa using ha) ha'
      simp only [List.get_eq_getElem, List.getElem_zipIdx, Nat.zero_add] at this
      cases hp : ePtr p Np states[a] with
      | none => rw [hp] at this; simp at this
      | some bn => rw [hp] at this; exact ⟨bn.1, bn.2, rfl, by simpa using this.symm⟩

/-- **C84, exactly.** Above the breakup threshold, for ordered grids: no cell is recorded twice for an energy exactly when no partial wave has two cells that
contain it. -/
theorem C84_exactly (p : PWParams) (Np Nq : Nat) (q : Nat → ℝ) (e : Bool → Int → ℝ) (Eb Ecom : ℝ) (states : List PWState)
    (l : List (Int × Int × Int)) (h : breakupEnergy p Np Nq q e Eb states Ecom = .ok l) (h0 : 0 ≤ Ecom + Eb) (hg : IsGrid Nq q)
    (he : ∀ s ∈ states, ∀ b n, ePtr p Np s = some (b, n) → ∀ ip < Np, e b (n + ip) ≤ e b (n + ip + 1)) :
    l.Nodup ↔ ∀ a (ha : a < states.length), ∀ iq < Nq, ∀ ip < Np, ∀ iq' < Nq, ∀ ip' < Np,
      StateCellHit p Np q e Ecom states[a] iq ip → StateCellHit p Np q e Ecom states[a] iq' ip' → iq = iq' ∧ ip = ip' := by
  have hq : ∀ iq < Nq, ndEnergy 0 (q iq) ≤ ndEnergy 0 (q (iq + 1)) := fun iq hi =>
    (ndEnergy_strict 0 _ _ (by norm_num [Mn, Mp]) (grid_nonneg hg iq hi.le) (hg.2 iq hi)).le
  obtain ⟨ls, rfl, hlen, hls⟩ := breakupEnergy_parts h h0
  rw [List.nodup_flatten]
  constructor
  · rintro ⟨h1, -⟩ a ha iq hiq ip hip iq' hiq' ip' hip' ⟨b, n, hp, hh⟩ ⟨b', n', hp', hh'⟩
    rw [hp] at hp'; cases hp'
    obtain ⟨b', n', hp', hl⟩ := hls a ha (by omega)
    rw [hp] at hp'; cases hp'
    have := h1 _ (List.getElem_mem (by omega : a < ls.length))
    rw [hl, breakupState_nodup Np Nq q e Ecom a b n hq (he _ (List.getElem_mem ha) b n hp)] at this
    exact this iq hiq ip hip iq' hiq' ip' hip' hh hh'
  · intro hh
    refine ⟨fun m hm => ?_, ?_⟩
    · obtain ⟨a, ha, rfl⟩ := List.getElem_of_mem hm
      obtain ⟨b, n, hp, hl⟩ := hls a (by omega) ha
      rw [hl, breakupState_nodup Np Nq q e Ecom a b n hq (he _ (List.getElem_mem (by omega)) b n hp)]
      intro i hi j hj i' hi' j' hj' c c'
      exact hh a (by omega) i hi j hj i' hi' j' hj' ⟨b, n, hp, c⟩ ⟨b, n, hp, c'⟩
    · rw [List.pairwise_iff_getElem]
      intro x y hx hy hxy t t1 t2
      obtain ⟨b, n, hp, hl⟩ := hls x (by omega) hx
      obtain ⟨b', n', hp', hl'⟩ := hls y (by omega) hy
      rw [hl] at t1
      rw [hl'] at t2
      obtain ⟨_, _, _, _, t1⟩ := mem_breakupState.1 t1
      obtain ⟨_, _, _, _, t2⟩ := mem_breakupState.1 t2
      have e1 := (mem_breakupCell t1).2.1
      have e2 := (mem_breakupCell t2).2.1
      omega

/-- **C83, exactly.** A p bin whose lower boundary has negative energy is recorded for a partial wave exactly when the next bin has no negative energies and, with
some q bin, contains the energy in its lower half. -/
theorem C83_exactly (p : PWParams) (Np Nq : Nat) (q : Nat → ℝ) (e : Bool → Int → ℝ) (Eb Ecom : ℝ) (states : List PWState)
    (l : List (Int × Int × Int)) (h : breakupEnergy p Np Nq q e Eb states Ecom = .ok l) (h0 : 0 ≤ Ecom + Eb) (hg : IsGrid Nq q)
    (he : ∀ s ∈ states, ∀ b n, ePtr p Np s = some (b, n) → ∀ ip < Np, e b (n + ip) ≤ e b (n + ip + 1))
    (a : Nat) (ha : a < states.length) (b : Bool) (n : Int) (hp : ePtr p Np states[a] = some (b, n)) (j : Int) (hneg : e b (n + j) < 0) :
    (∃ iq, ((a : Int), iq, j) ∈ l) ↔ ∃ iq < Nq, ∃ ip < Np, (ip : Int) = j + 1 ∧
      CellHit Ecom (ndEnergy 0 (q iq)) (ndEnergy 0 (q (iq + 1))) (e b (n + ip)) (e b (n + ip + 1)) ∧
      Ecom < (ndEnergy 0 (q iq) + ndEnergy 0 (q (iq + 1))) / 2 + (e b (n + ip) + e b (n + ip + 1)) / 2 := by
  have hx := C40_recorded_exactly p Np Nq q e Eb Ecom states l h h0 hg he
  constructor
  · rintro ⟨iq, ht⟩
    obtain ⟨a', ha', b', n', hp', i, hi, ip, hip, hh, e1, e2, e3⟩ := (hx _).1 ht
    have : a' = a := by simp only [Nat.cast_inj] at e1; exact e1.symm
    subst this
    rw [hp] at hp'; cases hp'
    simp only at e3
    rcases e3 with rfl | e3
    · exact absurd hneg (not_lt.2 hh.2.2.1)
    · split_ifs at e3 with c
      · subst e3
        exact absurd hneg (not_lt.2 (by rw [← add_assoc]; exact hh.2.2.2))
      · exact ⟨i, hi, ip, hip, by omega, hh, not_le.1 c⟩
  · rintro ⟨iq, hiq, ip, hip, hj, hh, hlt⟩
    refine ⟨iq, (hx _).2 ⟨a, ha, b, n, hp, iq, hiq, ip, hip, hh, rfl, Or.inl rfl, Or.inr ?_⟩⟩
    rw [if_neg (not_le.2 hlt)]
    simp only
    omega

/-- **C74, exactly.** For a partial wave and a cell of positive pair energies: the cell is selected on account of its own energies exactly when it contains E_com; the
resolvent at the total energy E_com + E_bound has a cut in a selected cell exactly when its lowest energy is below the total energy; and a cell with a cut is not selected
exactly when its highest energy is below E_com. -/
theorem C74_exactly (p : PWParams) (Np : Nat) (q : Nat → ℝ) (e : Bool → Int → ℝ) (Eb Ecom : ℝ) (hb : Eb < 0) (s : PWState) (b : Bool) (n : Int)
    (hp : ePtr p Np s = some (b, n)) (iq ip : Nat) (hq0 : 0 ≤ q iq) (hq : q iq < q (iq + 1)) (he0 : 0 ≤ e b (n + ip)) (he1 : e b (n + ip) < e b (n + ip + 1)) :
    (StateCellHit p Np q e Ecom s iq ip ↔ e b (n + ip) + ndEnergy 0 (q iq) ≤ Ecom ∧ Ecom ≤ e b (n + ip + 1) + ndEnergy 0 (q (iq + 1))) ∧
    (StateCellHit p Np q e Ecom s iq ip →
      ((resolventCell (Ecom + Eb) (e b (n + ip)) (e b (n + ip + 1)) (q iq) (q (iq + 1))).im ≠ 0 ↔ e b (n + ip) + ndEnergy 0 (q iq) < Ecom + Eb)) ∧
    ((resolventCell (Ecom + Eb) (e b (n + ip)) (e b (n + ip + 1)) (q iq) (q (iq + 1))).im ≠ 0 →
      (¬StateCellHit p Np q e Ecom s iq ip ↔ e b (n + ip + 1) + ndEnergy 0 (q (iq + 1)) < Ecom)) := by
  classical
  have h1 : StateCellHit p Np q e Ecom s iq ip ↔ e b (n + ip) + ndEnergy 0 (q iq) ≤ Ecom ∧ Ecom ≤ e b (n + ip + 1) + ndEnergy 0 (q (iq + 1)) := by
    constructor
    · rintro ⟨b', n', hp', c1, c2, -, -⟩
      rw [hp] at hp'; cases hp'
      exact ⟨c1, c2⟩
    · rintro ⟨c1, c2⟩
      exact ⟨b, n, hp, c1, c2, he0, by linarith⟩
  have him : (resolventCell (Ecom + Eb) (e b (n + ip)) (e b (n + ip + 1)) (q iq) (q (iq + 1))).im ≠ 0 ↔
      e b (n + ip) + ndEnergy 0 (q iq) < Ecom + Eb ∧ Ecom + Eb < e b (n + ip + 1) + ndEnergy 0 (q (iq + 1)) := by
    unfold resolventCell
    simp only
    rw [if_neg (not_lt.2 he0), if_neg (not_lt.2 he0), if_neg (not_lt.2 he0), zero_add]
    unfold resolventCC
    have := C42_imaginary_part (Ecom + Eb) _ _ _ _ he1 (spectatorE_strict 0 _ _ (by norm_num [Mn, Mp]) hq0 hq)
    simp only [spectatorE_eq] at this ⊢
    constructor
    · intro hne
      by_contra hc
      refine hne (this.2.1 ?_)
      by_contra hc'
      push Not at hc'
      exact hc hc'
    · rintro ⟨c1, c2⟩
      exact (this.2.2.1 c1 c2).ne
  refine ⟨h1, fun hh => ?_, fun hn => ?_⟩
  · rw [him]
    have := (h1.1 hh).2
    exact ⟨fun x => x.1, fun x => ⟨x, by linarith⟩⟩
  · obtain ⟨c1, c2⟩ := him.1 hn
    rw [h1]
    constructor
    · intro x
      by_contra hc
      exact x ⟨by linarith, not_lt.1 hc⟩
    · intro x ⟨_, y⟩
      linarith

/-- The hypotheses of `C84_exactly` are met by a wide first q bin and 1 MeV energy bins, where cells repeat: bins 0 and 1 both contain the energy. -/
example : ∃ l, breakupEnergy { J2max := 1, twoJ3max := 1, isoBreak := false } 3 1 (fun i => 1000 * i) (fun _ i => ((i % 4 : Int) : ℝ)) (-2.2)
    [⟨0, 0, 0, 1, 0, 1, 1, 1, 1⟩] 3 = .ok l ∧ ¬l.Nodup := by
  have hm : ndEnergy 0 0 = 0 := by unfold ndEnergy; simp
  have hM : (500 : ℝ) < ndEnergy 0 1000 := by unfold ndEnergy ndReducedMass; norm_num
  have hptr : ePtr { J2max := 1, twoJ3max := 1, isoBreak := false } 3 ⟨0, 0, 0, 1, 0, 1, 1, 1, 1⟩ = some (false, 0) := by decide
  obtain ⟨l, hl⟩ := breakupEnergy_ok { J2max := 1, twoJ3max := 1, isoBreak := false } 3 1 (fun i => 1000 * i) (fun _ i => ((i % 4 : Int) : ℝ)) (-2.2)
    3 [⟨0, 0, 0, 1, 0, 1, 1, 1, 1⟩] (by simp [hptr]) 0 (by simp) 0 (by norm_num) 0 (by norm_num)
    ⟨false, 0, hptr, by unfold CellHit; simp [hm]; linarith⟩
  refine ⟨l, hl, ?_⟩
  rw [C84_exactly _ _ _ _ _ _ _ _ l hl (by norm_num) ⟨by simp, fun i _ => by push_cast; linarith⟩ (by
    intro s hs b n hp ip hip
    rw [List.mem_singleton] at hs
    subst hs
    rw [hptr] at hp
    cases hp
    interval_cases ip <;> norm_num)]
  intro hx
  have := hx 0 (by simp) 0 (by norm_num) 0 (by norm_num) 0 (by norm_num) 1 (by norm_num) ⟨false, 0, hptr, by unfold CellHit; simp [hm]; linarith⟩
    ⟨false, 0, hptr, by unfold CellHit; norm_num [hm]; linarith⟩
  simp at this

/-- The same with a single energy bin: one cell contains the energy and nothing repeats. -/
example : ∃ l, breakupEnergy { J2max := 1, twoJ3max := 1, isoBreak := false } 1 1 (fun i => 1000 * i) (fun _ i => ((i % 2 : Int) : ℝ)) (-2.2)
    [⟨0, 0, 0, 1, 0, 1, 1, 1, 1⟩] 3 = .ok l ∧ l.Nodup ∧ l ≠ [] := by
  have hm : ndEnergy 0 0 = 0 := by unfold ndEnergy; simp
  have hM : (500 : ℝ) < ndEnergy 0 1000 := by unfold ndEnergy ndReducedMass; norm_num
  have hptr : ePtr { J2max := 1, twoJ3max := 1, isoBreak := false } 1 ⟨0, 0, 0, 1, 0, 1, 1, 1, 1⟩ = some (false, 0) := by decide
  have hit : CellHit 3 (ndEnergy 0 (1000 * ((0 : ℕ) : ℝ))) (ndEnergy 0 (1000 * ((0 + 1 : ℕ) : ℝ))) ((((0 : Int) + (0 : ℕ)) % 2 : Int) : ℝ)
      ((((0 : Int) + (0 : ℕ) + 1) % 2 : Int) : ℝ) := by unfold CellHit; simp [hm]; linarith
  obtain ⟨l, hl⟩ := breakupEnergy_ok { J2max := 1, twoJ3max := 1, isoBreak := false } 1 1 (fun i => 1000 * i) (fun _ i => ((i % 2 : Int) : ℝ)) (-2.2)
    3 [⟨0, 0, 0, 1, 0, 1, 1, 1, 1⟩] (by simp [hptr]) 0 (by simp) 0 (by norm_num) 0 (by norm_num)
    ⟨false, 0, hptr, hit⟩
  have hg : IsGrid 1 (fun i : Nat => (1000 * i : ℝ)) := ⟨by simp, fun i _ => by push_cast; linarith⟩
  have he : ∀ s ∈ [(⟨0, 0, 0, 1, 0, 1, 1, 1, 1⟩ : PWState)], ∀ b n, ePtr { J2max := 1, twoJ3max := 1, isoBreak := false } 1 s = some (b, n) → ∀ ip < 1,
      (fun (_ : Bool) (i : Int) => ((i % 2 : Int) : ℝ)) b (n + (ip : ℕ)) ≤ (fun (_ : Bool) (i : Int) => ((i % 2 : Int) : ℝ)) b (n + (ip : ℕ) + 1) := by
    intro s hs b n hp ip hip
    rw [List.mem_singleton] at hs
    subst hs
    rw [hptr] at hp
    cases hp
    interval_cases ip <;> norm_num
  refine ⟨l, hl, ?_, ?_⟩
  · rw [C84_exactly _ _ _ _ _ _ _ _ l hl (by norm_num) hg he]
    intro a ha iq hiq ip hip iq' hiq' ip' hip' _ _
    omega
  · have := (C40_recorded_exactly _ _ _ _ _ _ _ _ l hl (by norm_num) hg he (0, 0, 0)).2 ⟨0, by simp, false, 0, hptr, 0, by norm_num, 0, by norm_num, hit, rfl, Or.inl rfl, Or.inl rfl⟩
    exact List.ne_nil_of_mem this

end TicTac
end
