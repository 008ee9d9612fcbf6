import Verif.Props.Repro2
import Verif.Spec.Accept
import Verif.Props.Exact4
/-! C77, C78: which approximant the iterative solver reports, exactly. -/
noncomputable section
namespace TicTac
open Spec
open Classical

/-! ### the rule -/

theorem smallest_unique {b : Option ℂ} {PA : Nat → Option ℂ} {NM k k' : Nat} {d d' : ℝ} (h : SmallestChange b PA NM k d) (h' : SmallestChange b PA NM k' d') :
    k = k' ∧ d = d' := by
  rcases h with ⟨h1, h2, h3, h4⟩ | ⟨h1, h2, h3⟩ <;> rcases h' with ⟨g1, g2, g3, g4⟩ | ⟨g1, g2, g3⟩
  · obtain ⟨a1, a2⟩ := h4 k' g1 d' g2
    obtain ⟨b1, b2⟩ := g4 k h1 d h2
    have hd := le_antisymm a1 b1
    refine ⟨?_, hd⟩
    rcases lt_trichotomy k k' with c | c | c
    · exact absurd (b2 c) (by rw [hd]; exact lt_irrefl _)
    · exact c
    · exact absurd (a2 c) (by rw [hd]; exact lt_irrefl _)
  · exact absurd (g3 k h1 d h2) (not_le.2 h3)
  · exact absurd (h3 k' g1 d' g2) (not_le.2 g3)
  · exact ⟨h1.trans g1.symm, h2.trans g2.symm⟩

/-- The model's comparison of one cell with the cell before. -/
theorem paDiff_change (x y : Option ℂ) (b : ℝ) : paDiff x y b = match change x y with | some d => if d < b then some d else none | none => none := by
  unfold paDiff change
  cases x with
  | none => rfl
  | some x =>
    cases y with
    | none => rfl
    | some y =>
      dsimp only
      by_cases h : 1 / 10 ^ 15 < ‖x - y‖
      · rw [if_pos h]
        by_cases h2 : ‖x - y‖ < b
        · rw [if_pos ⟨h2, h⟩]; simp only; rw [if_pos h2]
        · rw [if_neg (fun hh => h2 hh.1)]; simp only; rw [if_neg h2]
      · rw [if_neg h, if_neg (fun hh => h hh.2)]

theorem withFirst_change (b : Option ℂ) (PA : Nat → Option ℂ) (k : Nat) :
    change (withFirst b PA (((0 : Nat) : Int) * 15 + k)) (withFirst b PA (((0 : Nat) : Int) * 15 + k - 1)) = changeAt b PA k := by
  cases k with
  | zero => rfl
  | succ k =>
    unfold withFirst changeAt
    rw [if_neg (by omega), if_neg (by omega)]
    congr 2 <;> omega

/-- The search of the program finds the smallest change. -/
theorem bestPA_smallest (b : Option ℂ) (PA : Nat → Option ℂ) (NM : Nat) :
    SmallestChange b PA NM (bestPA (withFirst b PA) 0 NM).1 (bestPA (withFirst b PA) 0 NM).2 := by
  unfold bestPA
  simp only [paDiff_change, withFirst_change]
  have : ∀ m, ∀ r, r = (List.range m).foldl (fun r (k : Nat) =>
      match (match changeAt b PA k with | some d => if d < r.2 then some d else none | none => none : Option ℝ) with
      | some d => (k, d)
      | none => r) ((0, 1) : Nat × ℝ) →
      (r.1 < m ∧ changeAt b PA r.1 = some r.2 ∧ r.2 < 1 ∧ ∀ l < m, ∀ d', changeAt b PA l = some d' → r.2 ≤ d' ∧ (l < r.1 → r.2 < d')) ∨
      (r.1 = 0 ∧ r.2 = 1 ∧ ∀ l < m, ∀ d', changeAt b PA l = some d' → 1 ≤ d') := by
    intro m
    induction m with
    | zero => rintro r rfl; exact Or.inr ⟨rfl, rfl, fun l hl => absurd hl (by omega)⟩
    | succ m ih =>
      intro r hr
      rw [List.range_succ, List.foldl_append, List.foldl_cons, List.foldl_nil] at hr
      have hp := ih _ rfl
      generalize (List.range m).foldl (fun r (k : Nat) =>
        match (match changeAt b PA k with | some d => if d < r.2 then some d else none | none => none : Option ℝ) with
        | some d => (k, d)
        | none => r) ((0, 1) : Nat × ℝ) = r0 at hr hp
      cases hc : changeAt b PA m with
      | none =>
        rw [hc] at hr
        dsimp only at hr
        subst hr
        rcases hp with ⟨p1, p2, p3, p4⟩ | ⟨p1, p2, p3⟩
        · refine Or.inl ⟨by omega, p2, p3, fun l hl d' hd => ?_⟩
          rcases Nat.lt_succ_iff_lt_or_eq.1 hl with hl | rfl
          · exact p4 l hl d' hd
          · rw [hc] at hd; cases hd
        · refine Or.inr ⟨p1, p2, fun l hl d' hd => ?_⟩
          rcases Nat.lt_succ_iff_lt_or_eq.1 hl with hl | rfl
          · exact p3 l hl d' hd
          · rw [hc] at hd; cases hd
      | some d =>
        rw [hc] at hr
        dsimp only at hr
        by_cases hd : d < r0.2
        · rw [if_pos hd] at hr
          dsimp only at hr
          subst hr
          have h1 : r0.2 ≤ 1 := by rcases hp with ⟨_, _, p3, _⟩ | ⟨_, p2, _⟩ <;> linarith
          refine Or.inl ⟨Nat.lt_succ_self _, hc, hd.trans_le h1, fun l hl d' hd' => ?_⟩
          dsimp only
          rcases Nat.lt_succ_iff_lt_or_eq.1 hl with hl | rfl
          · have : r0.2 ≤ d' := by
              rcases hp with ⟨_, _, _, p4⟩ | ⟨_, p2, p3⟩
              · exact (p4 l hl d' hd').1
              · rw [p2]; exact p3 l hl d' hd'
            exact ⟨by linarith, fun _ => by linarith⟩
          · rw [hc] at hd'; cases hd'
            exact ⟨le_rfl, fun hh => absurd hh (lt_irrefl _)⟩
        · rw [if_neg hd] at hr
          dsimp only at hr
          subst hr
          push Not at hd
          rcases hp with ⟨p1, p2, p3, p4⟩ | ⟨p1, p2, p3⟩
          · refine Or.inl ⟨by omega, p2, p3, fun l hl d' hd' => ?_⟩
            rcases Nat.lt_succ_iff_lt_or_eq.1 hl with hl | rfl
            · exact p4 l hl d' hd'
            · rw [hc] at hd'; cases hd'
              exact ⟨hd, fun hh => absurd hh (by omega)⟩
          · refine Or.inr ⟨p1, p2, fun l hl d' hd' => ?_⟩
            rcases Nat.lt_succ_iff_lt_or_eq.1 hl with hl | rfl
            · exact p3 l hl d' hd'
            · rw [hc] at hd'; cases hd'
              rw [← p2]; exact hd
  have := this (NM + 1) _ rfl
  rcases this with ⟨p1, p2, p3, p4⟩ | ⟨p1, p2, p3⟩
  · exact Or.inl ⟨Nat.lt_succ_iff.1 p1, p2, p3, fun l hl => p4 l (Nat.lt_succ_iff.2 hl)⟩
  · exact Or.inr ⟨p1, p2, fun l hl => p3 l (Nat.lt_succ_iff.2 hl)⟩

theorem bestPA_iff (b : Option ℂ) (PA : Nat → Option ℂ) (NM k : Nat) (d : ℝ) :
    SmallestChange b PA NM k d ↔ bestPA (withFirst b PA) 0 NM = (k, d) := by
  constructor
  · intro h
    obtain ⟨h1, h2⟩ := smallest_unique (bestPA_smallest b PA NM) h
    exact Prod.ext h1 h2
  · intro h
    have := bestPA_smallest b PA NM
    rwa [h] at this

/-- The test of the program is the rule of the specification. -/
theorem paConverged_iff (b : Option ℂ) (PA : Nat → Option ℂ) (NM : Nat) : paConverged (withFirst b PA) 0 NM = true ↔ AcceptedAt b PA NM := by
  have hw : ∀ l : Nat, withFirst b PA (((0 : Nat) : Int) * 15 + l) = PA l := by
    intro l; unfold withFirst; rw [if_neg (by omega)]; congr 1; omega
  unfold paConverged AcceptedAt
  dsimp only
  rw [decide_eq_true_eq, hw]
  have hs := bestPA_smallest b PA NM
  constructor
  · intro h
    refine ⟨_, _, hs, ?_⟩
    rcases h with h | h | h | h
    · exact Or.inl h
    · exact Or.inr (Or.inl (by omega))
    · refine Or.inr (Or.inr (Or.inr ?_))
      cases hx : PA (bestPA (withFirst b PA) 0 NM).1 with
      | none => rw [hx] at h; exact absurd h (by simp)
      | some x => rw [hx] at h; exact ⟨x, rfl, h⟩
    · exact Or.inr (Or.inr (Or.inl h))
  · rintro ⟨k, d, h1, h⟩
    rw [(bestPA_iff b PA NM k d).1 h1]
    rcases h with h | h | h | ⟨x, hx, h⟩
    · exact Or.inl h
    · exact Or.inr (Or.inl (by dsimp only; omega))
    · exact Or.inr (Or.inr (Or.inr h))
    · refine Or.inr (Or.inr (Or.inl ?_))
      dsimp only
      rw [hx]
      exact h

theorem accepted_14 (b : Option ℂ) (PA : Nat → Option ℂ) : AcceptedAt b PA 14 := ⟨_, _, bestPA_smallest b PA 14, Or.inl rfl⟩

/-! ### the loop -/

/-- In a pass over elements with increasing numbers the cells by which an element is judged are not changed afterwards. -/
theorem paPass_judge (NM : Nat) (hNM : NM < 15) (es : List OsElem) (hs : es.Pairwise fun e e' => e.idx < e'.idx) (t : OsTab) :
    ∀ e ∈ es, t.conv e.idx = false → (paPass NM es t).1.conv e.idx = paConverged (paPass NM es t).1.pa e.idx NM ∧
      ((paPass NM es t).1.conv e.idx = true → (paPass NM es t).1.best e.idx = (bestPA (paPass NM es t).1.pa e.idx NM).1) := by
  induction es using List.reverseRecOn with
  | nil => simp
  | append_singleton es e ih =>
    obtain ⟨hs1, -, hs2⟩ := List.pairwise_append.1 hs
    have hlt : ∀ e' ∈ es, e'.idx < e.idx := fun e' he' => hs2 e' he' e (by simp)
    have hnd : (es.map (·.idx)).Nodup := by
      unfold List.Nodup
      rw [List.pairwise_map]
      exact hs1.imp fun h => h.ne
    have hp := paPass_spec NM hNM es hnd t
    have ih := ih hs1
    have hfold : (paPass NM (es ++ [e]) t).1 = (paElem NM (paPass NM es t).1 e.idx).1 := by
      unfold paPass
      rw [List.foldl_append, List.foldl_cons, List.foldl_nil]
    rw [hfold]
    generalize (paPass NM es t).1 = t1 at ih hp ⊢
    intro e' he' hc
    rcases List.mem_append.1 he' with he' | he'
    · obtain ⟨i1, i2⟩ := ih e' he' hc
      have hl := hlt e' he'
      obtain ⟨o1, o2, o3⟩ := paElem_other NM hNM t1 e.idx e'.idx hl.ne
      have hpa : ∀ k : Nat, k ≤ NM → (paElem NM t1 e.idx).1.pa ((e'.idx : Int) * 15 + k) = t1.pa ((e'.idx : Int) * 15 + k) := fun k hk => o3 k (by omega)
      have hpb : (paElem NM t1 e.idx).1.pa ((e'.idx : Int) * 15 - 1) = t1.pa ((e'.idx : Int) * 15 - 1) := paElem_slot NM t1 e.idx _ (by omega)
      rw [o1, o2, paConverged_congr hpa hpb, bestPA_congr hpa hpb]
      exact ⟨i1, i2⟩
    · simp only [List.mem_singleton] at he'
      subst he'
      have h0 : t1.conv e'.idx = false := by
        rw [(hp.2.2.1 e'.idx fun x hx => (hlt x hx).ne).1]; exact hc
      unfold paElem
      rw [if_neg (by simp [h0])]
      dsimp only
      split
      · rename_i hcv
        dsimp only
        rw [Function.update_self, Function.update_self, hcv]
        exact ⟨rfl, fun _ => rfl⟩
      · rename_i hcv
        dsimp only
        rw [h0]
        refine ⟨by simpa using hcv, fun h => by cases h⟩

theorem el_sorted (c : PadeCfg) : (elElems c).Pairwise fun e e' => e.idx < e'.idx := by
  unfold elElems
  simp only [List.pairwise_flatMap, List.pairwise_map, List.mem_flatMap, List.mem_map, List.mem_range, range_pairwise]
  refine ⟨fun i hi => ⟨fun j hj x y hxy hy => by omega, ?_⟩, ?_⟩
  · rintro j j' hjj hj' _ ⟨q, hq, rfl⟩ _ ⟨q', hq', rfl⟩
    dsimp only
    have : (j + 1) * c.nq ≤ j' * c.nq := Nat.mul_le_mul_right _ hjj
    rw [Nat.add_mul, Nat.one_mul] at this
    omega
  · rintro i i' hii hi' _ ⟨j, hj, q, hq, rfl⟩ _ ⟨j', hj', q', hq', rfl⟩
    dsimp only
    have h1 := radix_lt hj hq
    have : (i + 1) * (c.nd * c.nq) ≤ i' * (c.nd * c.nq) := Nat.mul_le_mul_right _ hii
    rw [Nat.add_mul, Nat.one_mul, ← Nat.mul_assoc, ← Nat.mul_assoc] at this
    omega

/-- What stands before the cells of an element until order 14. -/
def cellBefore (cell : Option ℂ) (idx : Nat) : Option ℂ := if idx = 0 then cell else some 0

/-- State of one table after `m` orders, as far as acceptance is concerned. -/
structure AccInv {n Nq Np nd nq : Nat} (c : PadeCfg) (PA : Fin nd → Fin nq → Idx n Nq Np → Nat → Option ℂ) (cell : Option ℂ) (L m : Nat) (es : List OsElem)
    (t : OsTab) : Prop where
  mem : t.pa (-1) = cell
  zero : m ≤ 14 → ∀ idx, 0 < idx → idx < L → t.pa ((idx : Int) * 15 - 1) = some 0
  elem : ∀ e ∈ es, ∀ (i : Fin nd) (q : Fin nq) (y : Idx n Nq Np), ElemIs c e i q y →
    (t.conv e.idx = false → ∀ NM < m, ¬AcceptedAt (cellBefore cell e.idx) (PA i q y) NM) ∧
    (t.conv e.idx = true → ∃ NM < m, (∀ l < NM, ¬AcceptedAt (cellBefore cell e.idx) (PA i q y) l) ∧
      ∃ first, (NM < 14 ∨ e.idx = 0 → first = cellBefore cell e.idx) ∧
        (NM = 14 → (es.Pairwise fun e e' => e.idx < e'.idx) → ∀ e' ∈ es, e'.idx + 1 = e.idx → ∀ (i' : Fin nd) (q' : Fin nq) (y' : Idx n Nq Np), ElemIs c e' i' q' y' →
          first = if ∀ l < 14, ¬AcceptedAt (cellBefore cell e'.idx) (PA i' q' y') l then PA i' q' y' 14 else some 0) ∧
        AcceptedAt first (PA i q y) NM ∧ ∃ d, SmallestChange first (PA i q y) NM (t.best e.idx) d)

theorem AccInv.step {n Nq Np nd nq : Nat} {c : PadeCfg} {PA : Fin nd → Fin nq → Idx n Nq Np → Nat → Option ℂ} {cell : Option ℂ} {L m : Nat} {es : List OsElem}
    {t : OsTab} (h : AccInv c PA cell L m es t) (hT : TabInv c PA m es t) (hm : m < 15) (hnd : (es.map (·.idx)).Nodup) (hL : ∀ e ∈ es, e.idx < L)
    (ha : ∀ e ∈ es, t.conv e.idx = false → ∀ (i : Fin nd) (q : Fin nq) (y : Idx n Nq Np), ElemIs c e i q y →
      padeApproximant (fun k => t.a (e.idx * 29 + k)) m m 1 = PA i q y m) :
    AccInv c PA cell L (m + 1) es (paPass m es t).1 := by
  obtain ⟨_, s2, _, _, s5⟩ := paPass_spec m hm es hnd t
  refine ⟨?_, ?_, ?_⟩
  · rw [s5 (-1) fun e _ => by omega]; exact h.mem
  · intro hm' idx h0 hi
    rw [s5 _ fun e _ => by omega]
    exact h.zero (by omega) idx h0 hi
  · intro e he i q y hy
    obtain ⟨h1, h2⟩ := h.elem e he i q y hy
    have hp := s2 e he
    have hj := fun hs => paPass_judge m hm es hs t e he
    generalize (paPass m es t).1 = t' at hp hj s2 s5 ⊢
    by_cases hc : t.conv e.idx = true
    · obtain ⟨d1, d2, d3⟩ := hp.done hc
      refine ⟨fun hx => (by rw [d1] at hx; cases hx), fun _ => ?_⟩
      obtain ⟨NM, g1, g2⟩ := h2 hc
      exact ⟨NM, by omega, by rw [d2]; exact g2⟩
    · have hc : t.conv e.idx = false := by simpa using hc
      obtain ⟨t1, t2, P, t3, t4, t5, t6, hsort⟩ : t'.pa ((e.idx : Int) * 15 + m) = padeApproximant (fun k => t.a (e.idx * 29 + k)) m m 1 ∧
          (∀ k : Nat, k < 15 → k ≠ m → t'.pa ((e.idx : Int) * 15 + k) = t.pa ((e.idx : Int) * 15 + k)) ∧
          ∃ P : Int → Option ℂ, (∀ k : Nat, k < 15 → P ((e.idx : Int) * 15 + k) = t'.pa ((e.idx : Int) * 15 + k)) ∧
          (m < 14 ∨ e.idx = 0 → P ((e.idx : Int) * 15 - 1) = t.pa ((e.idx : Int) * 15 - 1)) ∧
          t'.conv e.idx = paConverged P e.idx m ∧ (t'.conv e.idx = true → t'.best e.idx = (bestPA P e.idx m).1) ∧
          ((es.Pairwise fun e e' => e.idx < e'.idx) → P ((e.idx : Int) * 15 - 1) = t'.pa ((e.idx : Int) * 15 - 1)) := by
        obtain ⟨t1, t2, P, t3, t4, t5, t6, _⟩ := hp.todo hc
        by_cases hs : es.Pairwise fun e e' => e.idx < e'.idx
        · obtain ⟨j1, j2⟩ := hj hs hc
          exact ⟨t1, t2, t'.pa, fun _ _ => rfl, fun hh => s5 _ fun e' _ => by omega, j1, j2, fun _ => rfl⟩
        · exact ⟨t1, t2, P, t3, t4, t5, t6, fun hh => absurd hh hs⟩
      obtain ⟨_, hT⟩ := (hT e he i q y hy).1 hc
      have h1 := h1 hc
      have hall : ∀ k ≤ m, t'.pa ((e.idx : Int) * 15 + k) = PA i q y k := by
        intro k hk
        by_cases hkm : k = m
        · subst hkm; rw [t1]; exact ha e he hc i q y hy
        · rw [t2 k (by omega) hkm]; exact hT k (by omega)
      have hP : ∀ k : Nat, k ≤ m → P ((e.idx : Int) * 15 + k) = withFirst (P ((e.idx : Int) * 15 - 1)) (PA i q y) (((0 : Nat) : Int) * 15 + k) := by
        intro k hk
        rw [t3 k (by omega), hall k hk]
        unfold withFirst
        rw [if_neg (by omega)]
        congr 1
        omega
      have hP' : P ((e.idx : Int) * 15 - 1) = withFirst (P ((e.idx : Int) * 15 - 1)) (PA i q y) (((0 : Nat) : Int) * 15 - 1) := by
        unfold withFirst
        rw [if_pos (by omega)]
      have hfirst : m < 14 ∨ e.idx = 0 → P ((e.idx : Int) * 15 - 1) = cellBefore cell e.idx := by
        intro hh
        rw [t4 hh]
        unfold cellBefore
        by_cases h0 : e.idx = 0
        · rw [if_pos h0, h0]; exact h.mem
        · rw [if_neg h0]
          exact h.zero (by omega) _ (by omega) (hL e he)
      rw [paConverged_congr hP hP'] at t5
      rw [bestPA_congr hP hP'] at t6
      have hprev : m = 14 → (es.Pairwise fun e e' => e.idx < e'.idx) → ∀ e' ∈ es, e'.idx + 1 = e.idx → ∀ (i' : Fin nd) (q' : Fin nq) (y' : Idx n Nq Np), ElemIs c e' i' q' y' →
          P ((e.idx : Int) * 15 - 1) = if ∀ l < 14, ¬AcceptedAt (cellBefore cell e'.idx) (PA i' q' y') l then PA i' q' y' 14 else some 0 := by
        intro h14 hs e' he' hidx i' q' y' hy'
        subst h14
        have ei : (e.idx : Int) * 15 - 1 = (e'.idx : Int) * 15 + (14 : Nat) := by omega
        obtain ⟨k1, k2⟩ := h.elem e' he' i' q' y' hy'
        rw [hsort hs]
        by_cases hc' : t.conv e'.idx = true
        · obtain ⟨NM, n1, n2, first, n3, _, n4, _⟩ := k2 hc'
          rw [n3 (Or.inl n1)] at n4
          rw [if_neg (fun hh => hh NM n1 n4), ei, ((s2 e' he').done hc').2.2 14 (by omega), ← ei]
          exact h.zero le_rfl _ (by omega) (hL e he)
        · have hc' : t.conv e'.idx = false := by simpa using hc'
          rw [if_pos (k1 hc'), ei, ((s2 e' he').todo hc').1]
          exact ha e' he' hc' i' q' y' hy'
      generalize P ((e.idx : Int) * 15 - 1) = first at t5 t6 hfirst hprev
      constructor
      · intro hx NM hNM
        rcases Nat.lt_succ_iff_lt_or_eq.1 hNM with hNM | rfl
        · exact h1 NM hNM
        · have h14 : NM < 14 := by
            by_contra hge
            obtain rfl : NM = 14 := by omega
            rw [(paConverged_iff _ _ _).2 (accepted_14 first (PA i q y))] at t5
            rw [t5] at hx; cases hx
          rw [← hfirst (Or.inl h14), ← paConverged_iff, ← t5, hx]
          simp
      · intro hx
        refine ⟨m, by omega, h1, first, hfirst, hprev, (paConverged_iff _ _ _).1 (by rw [← t5]; exact hx),
          (bestPA (withFirst first (PA i q y)) 0 m).2, ?_⟩
        rw [t6 hx]
        exact bestPA_smallest first (PA i q y) m

section
variable {states : List PWState} {Nq Np : Nat} {c : PadeCfg} {A : Matrix (Idx states.length Nq Np) (Idx states.length Nq Np) ℝ}
  {deut : List (Fin states.length)} {qidx : List (Fin Nq)} {sched : List Nat} {hNp : 0 < Np}

theorem bu_idx_lt (S : PadeSetup c A deut qidx sched hNp) {e : OsElem} (he : e ∈ buElems c) : e.idx < c.numBU := by
  obtain ⟨hb, q, h1, dr, h2, b, h3, h4, rfl⟩ := (mem_buElems c e).1 he
  have hmono : ∀ k, q + 1 + k ≤ c.nq → c.buStart (q + 1) ≤ c.buStart (q + 1 + k) := by
    intro k
    induction k with
    | zero => intro _; exact le_rfl
    | succ k ih => intro hk; exact (ih (by omega)).trans (S.buMono hb (q + 1 + k) (by omega))
  have := hmono (c.nq - (q + 1)) (by omega)
  rw [show q + 1 + (c.nq - (q + 1)) = c.nq by omega] at this
  have := S.buMax hb
  exact radix_lt h2 (show b < c.nBU by omega)

/-- The loop: acceptance in both tables. -/
theorem padeLoopN_acc (S : PadeSetup c A deut qidx sched hNp) (junk : PadeJunk) (m : Nat) (hm : m ≤ 15) :
    ∃ m0 ≤ m, LoopInv c A deut qidx hNp m0 (padeLoopN c (padeInit c sched junk) m) ∧
      AccInv c (exactPA c A deut qidx hNp) (junk.pa (-1)) c.numEL m0 (elElems c) (padeLoopN c (padeInit c sched junk) m).el ∧
      AccInv c (exactPA c A deut qidx hNp) (junk.paBU (-1)) c.numBU m0 (buElems c) (padeLoopN c (padeInit c sched junk) m).bu ∧
      (m0 = m ∨ (padeLoopN c (padeInit c sched junk) m).numConv = c.numEL) := by
  induction m with
  | zero =>
    have hi : ∀ (N : Nat) (jk : Int → Option ℂ) (es : List OsElem) (t : OsTab), t.pa = freshPA (N * 15) jk → (∀ i, t.conv i = false) →
        AccInv c (exactPA c A deut qidx hNp) (jk (-1)) N 0 es t := by
      intro N jk es t h1 h2
      refine ⟨?_, fun _ idx h0 hL => ?_, fun e _ i q y _ => ⟨fun _ NM hNM => absurd hNM (by omega), fun h => ?_⟩⟩
      · rw [h1]; unfold freshPA; rw [if_neg (by omega)]
      · rw [h1]; unfold freshPA; rw [if_pos ⟨by omega, by push_cast; omega⟩]
      · rw [h2] at h; cases h
    exact ⟨0, le_rfl, LoopInv.init S junk, hi _ _ _ _ rfl (fun _ => rfl), hi _ _ _ _ rfl (fun _ => rfl), Or.inl rfl⟩
  | succ m ih =>
    obtain ⟨m0, h1, h2, h3, h4, h5⟩ := ih (by omega)
    rw [padeLoopN_succ]
    by_cases hn : (padeLoopN c (padeInit c sched junk) m).numConv = c.numEL
    · rw [if_pos hn]; exact ⟨m0, by omega, h2, h3, h4, Or.inr hn⟩
    · rw [if_neg hn]
      obtain rfl := h5.resolve_right hn
      have hstep := LoopInv.step S h2 (by omega)
      refine ⟨m0 + 1, le_rfl, hstep, ?_, ?_, Or.inl rfl⟩
      · generalize padeLoopN c (padeInit c sched junk) m0 = s at h2 h3 h4 ⊢
        obtain ⟨f1, f2, f3, f4, f5, f6, f7⟩ := termsFor_frame c m0 s
        have hn := termsFor_inv S h2.neumann (by omega)
        rw [padeBody_eq]
        refine AccInv.step (t := (termsFor c m0 s).el) ⟨by rw [f2]; exact h3.mem, by rw [f2]; exact h3.zero, ?_⟩ ?_ (by omega) (el_nodup c) (fun e he => (el_of_mem S he).1) ?_
        · rw [f1, f3]; exact h3.elem
        · intro e he i q y hy
          rw [f1, f2, f3]
          exact h2.el e he i q y hy
        · intro e he hc i q y hy
          exact padeApproximant_congr 1 fun k hk => hn.el e he hc i q y hy k (by omega)
      · generalize padeLoopN c (padeInit c sched junk) m0 = s at h2 h3 h4 ⊢
        obtain ⟨f1, f2, f3, f4, f5, f6, f7⟩ := termsFor_frame c m0 s
        have hn := termsFor_inv S h2.neumann (by omega)
        rw [padeBody_eq]
        refine AccInv.step (t := (termsFor c m0 s).bu) ⟨by rw [f5]; exact h4.mem, by rw [f5]; exact h4.zero, ?_⟩ ?_ (by omega) (bu_nodup S) (fun e he => bu_idx_lt S he) ?_
        · rw [f4, f6]; exact h4.elem
        · intro e he i q y hy
          rw [f4, f5, f6]
          exact h2.bu e he i q y hy
        · intro e he hc i q y hy
          exact padeApproximant_congr 1 fun k hk => hn.bu e he hc i q y hy k (by omega)

end

/-! ### C77 -/

section
variable {p : PWParams} {twoJ3 P : Int} {states : List PWState} {Nq Np : Nat} {V C : Bool → Int → ℝ} {P123 : List (Entry ℝ)} {c : PadeCfg}
  {deut : List (Fin states.length)} {qidx : List (Fin Nq)} {sched : List Nat}

/-- The elastic elements are numbered without gaps. -/
theorem elNum_pred {A : Matrix (Idx states.length Nq Np) (Idx states.length Nq Np) ℝ} {hNp : 0 < Np} (S : PadeSetup c A deut qidx sched hNp)
    (i j : Fin deut.length) (q : Fin qidx.length) (n : Nat) (h : elNum c i j q = n + 1) :
    ∃ (i' j' : Fin deut.length) (q' : Fin qidx.length), elNum c i' j' q' = n := by
  have hnd := S.nd_eq
  have hnq := S.nq_eq
  obtain ⟨e, he, h1, -⟩ := el_mem S i j q
  have hlt := (el_of_mem S he).1
  rw [h1, h] at hlt
  unfold PadeCfg.numEL at hlt
  have hq0 : 0 < c.nq := by have := q.2; omega
  have hd0 : 0 < c.nd := by have := i.2; omega
  refine ⟨⟨n / c.nq / c.nd, ?_⟩, ⟨n / c.nq % c.nd, ?_⟩, ⟨n % c.nq, ?_⟩, ?_⟩
  · rw [← hnd]
    rw [Nat.div_lt_iff_lt_mul hd0, Nat.div_lt_iff_lt_mul hq0]; omega
  · rw [← hnd]; exact Nat.mod_lt _ hd0
  · rw [← hnq]; exact Nat.mod_lt _ hq0
  · unfold elNum
    dsimp only
    have e1 := Nat.div_add_mod n c.nq
    have e2 := Nat.div_add_mod (n / c.nq) c.nd
    calc n / c.nq / c.nd * c.nd * c.nq + n / c.nq % c.nd * c.nq + n % c.nq = c.nq * (c.nd * (n / c.nq / c.nd) + n / c.nq % c.nd) + n % c.nq := by ring
      _ = n := by rw [e2, e1]

/-- **C77, exactly.** Let `PA n` be the diagonal approximants of the exact Neumann series of the elastic element with number `n`. Without breakup elements, the reported value of
element `n` is `PA n k`, where `k` is the order of the smallest change at the first order `NM` at which the rule accepts; the place of the approximant of order −1 in the
first change is taken by zero — by the memory cell before the array for the first element, and at order 14 by the last approximant of the previous element if that was
not accepted earlier. -/
theorem C77_exactly (ht : p.tensor = true) (h : IsChannel p twoJ3 P states) (hNp : 0 < Np) (hin : SolverInput p states Nq Np V C P123 c deut qidx sched)
    (hD : 0 < states.length * Nq * Np) (hD' : states.length * Nq * Np ≤ 2 ^ 28) (hb : c.breakup = false) (junk : PadeJunk) (PA : Nat → Nat → Option ℂ)
    (hPA : ∀ (i j : Fin deut.length) (q : Fin qidx.length), PA (elNum c i j q) = fun k => padeApproximant (fun m =>
      neumannTerm (toC (kernelMatrix p states Nq Np V C P123)) (fun x => c.G (q * c.D + flat x)) m (deut.get i, qidx.get q, ⟨0, hNp⟩) (deut.get j, qidx.get q, ⟨0, hNp⟩)) k k 1) :
    ∃ s, padeSolve c sched junk = some s ∧ ∀ (i j : Fin deut.length) (q : Fin qidx.length), ∃ NM ≤ 14, ∃ k d,
      (∀ l < NM, ¬AcceptedAt (before (junk.pa (-1)) PA (elNum c i j q) l) (PA (elNum c i j q)) l) ∧
      AcceptedAt (before (junk.pa (-1)) PA (elNum c i j q) NM) (PA (elNum c i j q)) NM ∧
      SmallestChange (before (junk.pa (-1)) PA (elNum c i j q) NM) (PA (elNum c i j q)) NM k d ∧
      padeU s (elNum c i j q) = PA (elNum c i j q) k := by
  have S := hin.setup ht h hNp hD hD'
  refine ⟨_, padeSolve_eq S junk, fun i j q => ?_⟩
  have hall := elastic_all_converged S hb (padeSolve_eq S junk)
  obtain ⟨m0, hm0, hL, hA, -, -⟩ := padeLoopN_acc S junk 15 le_rfl
  generalize padeLoopN c (padeInit c sched junk) 15 = s at hL hA hall ⊢
  obtain ⟨e, he, g1, g2⟩ := el_mem S i j q
  have hpa : ∀ (i j : Fin deut.length) (q : Fin qidx.length), exactPA c (kernelMatrix p states Nq Np V C P123) deut qidx hNp i q (deut.get j, qidx.get q, ⟨0, hNp⟩) =
      PA (elNum c i j q) := fun i j q => (hPA i j q).symm
  obtain ⟨NM, n1, n2, first, n3, n4, n5, d, n6⟩ := (hA.elem e he i q _ g2).2 (hall e he)
  obtain ⟨NM', -, -, -, -, hpaV⟩ := (hL.el e he i q _ g2).2 (hall e he)
  obtain ⟨_, _, _, _, _, _, v1, _⟩ := hL.el.value he (hall e he) g2
  rw [hpa] at n2 n5 n6 v1
  have hcb : ∀ l, l < 14 ∨ elNum c i j q = 0 → before (junk.pa (-1)) PA (elNum c i j q) l = cellBefore (junk.pa (-1)) e.idx := by
    intro l hl
    rw [g1]
    unfold cellBefore
    cases hn : elNum c i j q with
    | zero => rfl
    | succ n =>
      rw [hn] at hl
      rw [if_neg (by omega)]
      rw [before, if_neg (fun hh => by omega)]
  have hfirst : first = before (junk.pa (-1)) PA (elNum c i j q) NM := by
    by_cases hc : NM < 14 ∨ elNum c i j q = 0
    · rw [hcb NM hc]; exact n3 (by rw [g1]; exact hc)
    · push Not at hc
      have h14 : NM = 14 := by omega
      cases hn : elNum c i j q with
      | zero => exact absurd hn hc.2
      | succ n =>
        obtain ⟨i', j', q', hn'⟩ := elNum_pred S i j q n hn
        obtain ⟨e', he', g1', g2'⟩ := el_mem S i' j' q'
        have := n4 h14 (el_sorted c) e' he' (by rw [g1, g1', hn, hn']) i' q' _ g2'
        rw [hpa, g1', hn'] at this
        rw [this]
        rw [before, h14]
        unfold cellBefore
        by_cases hx : ∀ l < 14, ¬AcceptedAt (if n = 0 then junk.pa (-1) else some 0) (PA n) l
        · rw [if_pos hx, if_pos ⟨rfl, hx⟩]
        · rw [if_neg hx, if_neg (fun hh => hx hh.2)]
  rw [hfirst] at n5 n6
  refine ⟨NM, by omega, s.el.best e.idx, d, fun l hl => ?_, n5, n6, ?_⟩
  · rw [hcb l (Or.inl (by omega))]; exact n2 l hl
  · unfold padeU
    rw [← g1]
    rw [← g1] at v1
    exact v1

/-! ### C78 -/

/-- Two states that differ in the cells outside the arrays and in unassigned indices only. -/
structure SameRun (c : PadeCfg) (s s' : PadeState) : Prop where
  vec : ∃ e b, s' = { s with el := e, bu := b }
  ela : s'.el.a = s.el.a
  bua : s'.bu.a = s.bu.a
  el : SameTab c.numEL s.el s'.el
  bu : SameTab c.numBU s.bu s'.bu

theorem SameRun.terms {c : PadeCfg} {s s' : PadeState} (h : SameRun c s s') (m : Nat) : SameRun c (termsFor c m s) (termsFor c m s') := by
  obtain ⟨⟨⟨a, pa, cv, bs⟩, ⟨a', pa', cv', bs'⟩, rfl⟩, h1, h2, h3, h4⟩ := h
  obtain rfl : a = s.el.a := h1
  obtain rfl : a' = s.bu.a := h2
  obtain rfl : s.el.conv = cv := h3.conv
  obtain rfl : s.bu.conv = cv' := h4.conv
  unfold termsFor
  by_cases hm : m = 0
  · rw [if_pos hm, if_pos hm]
    exact ⟨⟨_, _, rfl⟩, rfl, rfl, h3, h4⟩
  · rw [if_neg hm, if_neg hm]
    exact ⟨⟨_, _, rfl⟩, rfl, rfl, ⟨h3.conv, h3.pa, h3.best⟩, ⟨h4.conv, h4.pa, h4.best⟩⟩

theorem SameRun.body {A : Matrix (Idx states.length Nq Np) (Idx states.length Nq Np) ℝ} {hNp : 0 < Np} (S : PadeSetup c A deut qidx sched hNp) {s s' : PadeState}
    (h : SameRun c s s') {m : Nat} (hm : m < 15) : SameRun c (padeBody c s m) (padeBody c s' m) := by
  have ht := h.terms m
  rw [padeBody_eq, padeBody_eq]
  generalize termsFor c m s = t at ht ⊢
  generalize termsFor c m s' = t' at ht ⊢
  obtain ⟨p1, p2⟩ := paPass_same (NM := m) hm (elElems c) (fun e he => (el_of_mem S he).1) ht.el (fun e _ _ k _ => by rw [ht.ela])
  obtain ⟨p3, p4⟩ := paPass_same (NM := m) hm (buElems c) (fun e he => bu_idx_lt S he) ht.bu (fun e _ _ k _ => by rw [ht.bua])
  have a1 := (paPass_spec m hm (elElems c) (el_nodup c) t.el).1
  have a2 := (paPass_spec m hm (elElems c) (el_nodup c) t'.el).1
  have a3 := (paPass_spec m hm (buElems c) (bu_nodup S) t.bu).1
  have a4 := (paPass_spec m hm (buElems c) (bu_nodup S) t'.bu).1
  refine ⟨⟨(paPass m (elElems c) t'.el).1, (paPass m (buElems c) t'.bu).1, ?_⟩, ?_, ?_, p1, p3⟩
  · rw [p2, p4]
    obtain ⟨e, b, hv⟩ := ht.vec
    rw [hv]
  · show (paPass m (elElems c) t'.el).1.a = (paPass m (elElems c) t.el).1.a
    rw [a1, a2, ht.ela]
  · show (paPass m (buElems c) t'.bu).1.a = (paPass m (buElems c) t.bu).1.a
    rw [a3, a4, ht.bua]

/-- Memory contents other than the two cells before the arrays do not influence the course of the solver. -/
theorem padeLoopN_memory {A : Matrix (Idx states.length Nq Np) (Idx states.length Nq Np) ℝ} {hNp : 0 < Np} (S : PadeSetup c A deut qidx sched hNp) {junk junk' : PadeJunk}
    (h1 : junk.pa (-1) = junk'.pa (-1)) (h2 : junk.paBU (-1) = junk'.paBU (-1)) (m : Nat) (hm : m ≤ 15) :
    SameRun c (padeLoopN c (padeInit c sched junk) m) (padeLoopN c (padeInit c sched junk') m) := by
  induction m with
  | zero =>
    have hf : ∀ (N : Nat) (j j' : Int → Option ℂ), j (-1) = j' (-1) → ∀ z : Int, -1 ≤ z → z < (N : Int) * 15 → freshPA (N * 15) j z = freshPA (N * 15) j' z := by
      intro N j j' hj z k1 k2
      unfold freshPA
      by_cases h0 : 0 ≤ z
      · rw [if_pos ⟨h0, by push_cast; exact k2⟩, if_pos ⟨h0, by push_cast; exact k2⟩]
      · obtain rfl : z = -1 := by omega
        rw [if_neg (by omega), if_neg (by omega), hj]
    exact ⟨⟨(padeInit c sched junk').el, (padeInit c sched junk').bu, rfl⟩, rfl, rfl, ⟨rfl, hf _ _ _ h1, fun i hi => absurd hi (by simp [padeLoopN, padeInit, extract])⟩,
      ⟨rfl, hf _ _ _ h2, fun i hi => absurd hi (by simp [padeLoopN, padeInit, extract])⟩⟩
  | succ m ih =>
    have ih := ih (by omega)
    rw [padeLoopN_succ, padeLoopN_succ]
    have hc : (padeLoopN c (padeInit c sched junk') m).numConv = (padeLoopN c (padeInit c sched junk) m).numConv := by
      obtain ⟨e, b, hv⟩ := ih.vec; rw [hv]
    rw [hc]
    split
    · exact ih
    · exact ih.body S (by omega)

/-- Cells beyond the arrays keep their content. -/
theorem padeLoopN_outside {A : Matrix (Idx states.length Nq Np) (Idx states.length Nq Np) ℝ} {hNp : 0 < Np} (S : PadeSetup c A deut qidx sched hNp) (junk : PadeJunk)
    (m : Nat) (hm : m ≤ 15) :
    (∀ z : Int, (c.numEL : Int) * 15 ≤ z → (padeLoopN c (padeInit c sched junk) m).el.pa z = junk.pa z) ∧
    (∀ z : Int, (c.numBU : Int) * 15 ≤ z → (padeLoopN c (padeInit c sched junk) m).bu.pa z = junk.paBU z) := by
  induction m with
  | zero =>
    constructor
    · intro z hz
      show freshPA (c.numEL * 15) junk.pa z = _
      unfold freshPA; rw [if_neg (by push_cast; omega)]
    · intro z hz
      show freshPA (c.numBU * 15) junk.paBU z = _
      unfold freshPA; rw [if_neg (by push_cast; omega)]
  | succ m ih =>
    obtain ⟨i1, i2⟩ := ih (by omega)
    rw [padeLoopN_succ]
    split
    · exact ⟨i1, i2⟩
    · generalize padeLoopN c (padeInit c sched junk) m = s at i1 i2 ⊢
      obtain ⟨f1, f2, f3, f4, f5, f6, f7⟩ := termsFor_frame c m s
      rw [padeBody_eq]
      constructor
      · intro z hz
        dsimp only
        rw [(paPass_spec m (by omega) (elElems c) (el_nodup c) _).2.2.2.2 z (fun e he => by have := (el_of_mem S he).1; omega), f2]
        exact i1 z hz
      · intro z hz
        dsimp only
        rw [(paPass_spec m (by omega) (buElems c) (bu_nodup S) _).2.2.2.2 z (fun e he => by have := bu_idx_lt S he; omega), f5]
        exact i2 z hz

/-- What is reported for a breakup element that was not accepted. -/
theorem unaccepted_any {A : Matrix (Idx states.length Nq Np) (Idx states.length Nq Np) ℝ} {hNp : 0 < Np} (S : PadeSetup c A deut qidx sched hNp) (junk : PadeJunk) (idx : Nat)
    (hc : (padeLoopN c (padeInit c sched junk) 15).bu.conv idx = false) (v : Option ℂ) :
    ∃ junk' : PadeJunk, junk'.pa (-1) = junk.pa (-1) ∧ junk'.paBU (-1) = junk.paBU (-1) ∧ padeUBU (padeLoopN c (padeInit c sched junk') 15) idx = v := by
  obtain ⟨junk', h1, h2, h3, h4⟩ : ∃ junk' : PadeJunk, junk'.pa = junk.pa ∧ junk'.paBU (-1) = junk.paBU (-1) ∧ (∀ z : Int, 0 ≤ z → junk'.paBU z = v) ∧
      junk'.bestBU idx = c.numBU * 15 :=
    ⟨{ junk with paBU := fun z => if z = -1 then junk.paBU (-1) else v, bestBU := fun _ => c.numBU * 15 }, rfl, rfl, fun z hz => if_neg (by omega), rfl⟩
  have hsame := padeLoopN_memory S (junk := junk) (junk' := junk') (by rw [h1]) h2.symm 15 le_rfl
  refine ⟨junk', by rw [h1], h2, ?_⟩
  have hc' : (padeLoopN c (padeInit c sched junk') 15).bu.conv idx = false := by rw [← hsame.bu.conv]; exact hc
  have hb := (best_junk S junk' 15 le_rfl).2 idx hc'
  have ho := (padeLoopN_outside S junk' 15 le_rfl).2
  generalize padeLoopN c (padeInit c sched junk') 15 = s' at hb ho ⊢
  unfold padeUBU
  rw [hb, h4, ho _ (by push_cast; omega)]
  exact h3 _ (by omega)

/-- **C78 (and C47), exactly, iterative solver.** `M` orders are done, all 15 unless the number of accepted elements (elastic and breakup together) equals the number of elastic ones.
A breakup element (with an in-range state) that the rule accepts at one of these orders is reported as the approximant of the smallest change; one that is not accepted is reported as whatever memory
holds: for every `v` there is a content of memory for which `v` is reported while the course of the solver is the same. -/
theorem C78_exactly (ht : p.tensor = true) (h : IsChannel p twoJ3 P states) (hNp : 0 < Np) (hin : SolverInput p states Nq Np V C P123 c deut qidx sched)
    (hD : 0 < states.length * Nq * Np) (hD' : states.length * Nq * Np ≤ 2 ^ 28) (junk : PadeJunk) :
    ∃ s M, padeSolve c sched junk = some s ∧ M ≤ 15 ∧ (M < 15 → s.numConv = c.numEL) ∧
      ∀ (i : Fin deut.length) (q : Fin qidx.length) (b : Nat) (y : Idx states.length Nq Np), BuIs c q b y →
        let PA := fun k => padeApproximant (fun m => neumannTerm (toC (kernelMatrix p states Nq Np V C P123)) (fun x => c.G (q * c.D + flat x)) m
          (deut.get i, qidx.get q, ⟨0, hNp⟩) y) k k 1
        let cell := if i * c.nBU + b = 0 then junk.paBU (-1) else some 0
        ((∃ NM < M, AcceptedAt cell PA NM) → ∃ NM < M, (∀ l < NM, ¬AcceptedAt cell PA l) ∧ ∃ first, (NM < 14 → first = cell) ∧ AcceptedAt first PA NM ∧
          ∃ k d, SmallestChange first PA NM k d ∧ padeUBU s (i * c.nBU + b) = PA k) ∧
        ((∀ NM < M, ¬AcceptedAt cell PA NM) → ∀ v, ∃ junk' s', junk'.pa (-1) = junk.pa (-1) ∧ junk'.paBU (-1) = junk.paBU (-1) ∧
          padeSolve c sched junk' = some s' ∧ padeUBU s' (i * c.nBU + b) = v) := by
  have S := hin.setup ht h hNp hD hD'
  obtain ⟨M, hM, hL, -, hB, hor⟩ := padeLoopN_acc S junk 15 le_rfl
  refine ⟨_, M, padeSolve_eq S junk, hM, fun hlt => hor.resolve_left (by omega), fun i q b y hb => ?_⟩
  intro PA cell
  obtain ⟨e, he, g1, g2⟩ := bu_mem S i q b y hb
  have hpa : exactPA c (kernelMatrix p states Nq Np V C P123) deut qidx hNp i q y = PA := rfl
  have hcell : cellBefore (junk.paBU (-1)) e.idx = cell := by unfold cellBefore; rw [g1]
  obtain ⟨k1, k2⟩ := hB.elem e he i q y g2
  rw [hpa, hcell] at k1 k2
  have hval := fun hc => hL.bu.value he hc g2
  rw [hpa] at hval
  constructor
  · rintro ⟨NM, n1, n2⟩
    have hc : (padeLoopN c (padeInit c sched junk) 15).bu.conv e.idx = true := by
      by_contra hx
      exact k1 (by simpa using hx) NM n1 n2
    obtain ⟨NM, n1, n2, first, n3, -, n5, d, n6⟩ := k2 hc
    obtain ⟨_, _, _, _, _, _, v1, _⟩ := hval hc
    refine ⟨NM, n1, n2, first, fun h14 => n3 (Or.inl h14), n5, _, d, n6, ?_⟩
    unfold padeUBU
    rw [← g1]
    exact v1
  · intro hno v
    have hc : (padeLoopN c (padeInit c sched junk) 15).bu.conv e.idx = false := by
      by_contra hx
      obtain ⟨NM, n1, n2, first, n3, -, n5, -⟩ := k2 (by simpa using hx)
      by_cases h14 : NM < 14
      · exact hno NM n1 (by rw [← n3 (Or.inl h14)]; exact n5)
      · obtain rfl : NM = 14 := by omega
        exact hno 14 n1 (accepted_14 _ _)
    obtain ⟨junk', j1, j2, j3⟩ := unaccepted_any S junk e.idx hc v
    exact ⟨junk', _, j1, j2, padeSolve_eq S junk', by rw [← g1]; exact j3⟩

/-- The numbers of the elastic elements are different, so the family `PA` of `C77_exactly` exists for every solver input. -/
theorem elNum_family (hNp : 0 < Np) {A : Matrix (Idx states.length Nq Np) (Idx states.length Nq Np) ℝ} (S : PadeSetup c A deut qidx sched hNp)
    {β : Type} (F : Fin deut.length → Fin deut.length → Fin qidx.length → β) (b : β) :
    ∃ PA : Nat → β, ∀ (i j : Fin deut.length) (q : Fin qidx.length), PA (elNum c i j q) = F i j q := by
  have hd : c.nd = deut.length := S.nd_eq
  have hq : c.nq = qidx.length := S.nq_eq
  have inj : ∀ (i j : Fin deut.length) (q : Fin qidx.length) (i' j' : Fin deut.length) (q' : Fin qidx.length), elNum c i j q = elNum c i' j' q' → i = i' ∧ j = j' ∧ q = q' := by
    intro i j q i' j' q' he
    unfold elNum at he
    rw [hd, hq, show (i : Nat) * deut.length * qidx.length + j * qidx.length + q = (i * deut.length + j) * qidx.length + q by ring,
      show (i' : Nat) * deut.length * qidx.length + j' * qidx.length + q' = (i' * deut.length + j') * qidx.length + q' by ring] at he
    obtain ⟨h1, h2⟩ := radix_inj q.2 q'.2 he
    obtain ⟨h3, h4⟩ := radix_inj j.2 j'.2 h1
    exact ⟨Fin.ext h3, Fin.ext h4, Fin.ext h2⟩
  classical
  refine ⟨fun n => if h : ∃ x : Fin deut.length × Fin deut.length × Fin qidx.length, elNum c x.1 x.2.1 x.2.2 = n then F h.choose.1 h.choose.2.1 h.choose.2.2 else b, fun i j q => ?_⟩
  have hex : ∃ x : Fin deut.length × Fin deut.length × Fin qidx.length, elNum c x.1 x.2.1 x.2.2 = elNum c i j q := ⟨(i, j, q), rfl⟩
  simp only [dif_pos hex]
  obtain ⟨h1, h2, h3⟩ := inj _ _ _ _ _ _ hex.choose_spec
  rw [h1, h2, h3]

/-- Non-vacuity of `C77_exactly`: an input with two energies and no breakup elements; `C47_breakup_unassigned` gives one with breakup elements for `C78_exactly`. -/
example : ∃ (p : PWParams) (twoJ3 P : Int) (states : List PWState) (P123 : List (Entry ℝ)) (c : PadeCfg) (deut : List (Fin states.length)) (qidx : List (Fin 2)),
    p.tensor = true ∧ IsChannel p twoJ3 P states ∧ SolverInput p states 2 1 (unitPot 1) (unitPot 1) P123 c deut qidx (List.range states.length) ∧ c.breakup = false ∧
    deut.length = 1 ∧ qidx.length = 2 ∧ 0 < states.length * 2 * 1 ∧ states.length * 2 * 1 ≤ 2 ^ 28 := by
  obtain ⟨p, twoJ3, P, states, ht, h, hl, hl'⟩ := small_channel
  obtain ⟨c, hin, hG, hbk, hbs, hnb, hst⟩ := exists_solverInput ht h 2 1 (unitPot 1) (unitPot 1) [⟨1, 1, 1 / 2 * (1 / 10 ^ 8)⟩]
    (by intro e he; simp only [List.mem_cons, List.not_mem_nil, or_false] at he; rcases he with rfl; dsimp only; omega)
    [⟨0, hl⟩] [0, 1] (fun _ => 5 * 10 ^ 7) false (fun _ => 0) 0 (fun _ => (0, 0, 0)) (by intro q _; omega) (by simp)
  exact ⟨p, twoJ3, P, states, _, c, _, _, ht, h, hin, hbk, rfl, rfl, by omega, by omega⟩

end
end TicTac
end
