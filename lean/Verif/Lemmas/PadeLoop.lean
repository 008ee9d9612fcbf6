import Verif.Lemmas.PadeInv
import Mathlib.Tactic.FieldSimp
import Mathlib.Tactic.NormNum
/-! Invariant of the loop over the Padé orders. -/
noncomputable section
namespace TicTac
open Spec

/-- A sequence of approximants preceded by `first`. -/
def withFirst (first : Option ℂ) (pa : Nat → Option ℂ) : Int → Option ℂ := fun z => if z < 0 then first else pa z.toNat

theorem bestPA_congr {P Q : Int → Option ℂ} {idx idx' NM : Nat} (h : ∀ k : Nat, k ≤ NM → P ((idx : Int) * 15 + k) = Q ((idx' : Int) * 15 + k))
    (h' : P ((idx : Int) * 15 - 1) = Q ((idx' : Int) * 15 - 1)) : bestPA P idx NM = bestPA Q idx' NM := by
  unfold bestPA
  have : ∀ (l : List Nat) (b : Nat × ℝ), (∀ k ∈ l, k ≤ NM) →
      l.foldl (fun b (k : Nat) => match paDiff (P ((idx : Int) * 15 + k)) (P ((idx : Int) * 15 + k - 1)) b.2 with | some d => (k, d) | none => b) b =
      l.foldl (fun b (k : Nat) => match paDiff (Q ((idx' : Int) * 15 + k)) (Q ((idx' : Int) * 15 + k - 1)) b.2 with | some d => (k, d) | none => b) b := by
    intro l
    induction l with
    | nil => intro b _; rfl
    | cons k l ih =>
      intro b hl
      have hk := hl k List.mem_cons_self
      rw [List.foldl_cons, List.foldl_cons, h k hk]
      have e : P ((idx : Int) * 15 + k - 1) = Q ((idx' : Int) * 15 + k - 1) := by
        cases k with
        | zero => simpa using h'
        | succ k =>
          have := h k (by omega)
          have e1 : (idx : Int) * 15 + ((k + 1 : Nat) : Int) - 1 = (idx : Int) * 15 + k := by omega
          have e2 : (idx' : Int) * 15 + ((k + 1 : Nat) : Int) - 1 = (idx' : Int) * 15 + k := by omega
          rw [e1, e2, this]
      rw [e]
      exact ih _ fun x hx => hl x (List.mem_cons_of_mem _ hx)
  apply this
  intro k hk
  have := List.mem_range.1 hk
  omega

theorem paConverged_congr {P Q : Int → Option ℂ} {idx idx' NM : Nat} (h : ∀ k : Nat, k ≤ NM → P ((idx : Int) * 15 + k) = Q ((idx' : Int) * 15 + k))
    (h' : P ((idx : Int) * 15 - 1) = Q ((idx' : Int) * 15 - 1)) : paConverged P idx NM = paConverged Q idx' NM := by
  unfold paConverged
  rw [bestPA_congr h h']
  dsimp only
  rw [h _ (bestPA_spec Q idx' NM).1]

/-- State of the elements of one table after `m` orders; `PA i q y k` is the exact approximant of order `k`. -/
def TabInv {n Nq Np nd nq : Nat} (c : PadeCfg) (PA : Fin nd → Fin nq → Idx n Nq Np → Nat → Option ℂ) (m : Nat) (es : List OsElem) (t : OsTab) : Prop :=
  ∀ e ∈ es, ∀ (i : Fin nd) (q : Fin nq) (y : Idx n Nq Np), ElemIs c e i q y →
    (t.conv e.idx = false → m < 15 ∧ ∀ k < m, t.pa ((e.idx : Int) * 15 + k) = PA i q y k) ∧
    (t.conv e.idx = true → ∃ NM < m, ∃ first, paConverged (withFirst first (PA i q y)) 0 NM = true ∧
      t.best e.idx = (bestPA (withFirst first (PA i q y)) 0 NM).1 ∧ ∀ k ≤ NM, t.pa ((e.idx : Int) * 15 + k) = PA i q y k)

theorem TabInv.step {n Nq Np nd nq : Nat} {c : PadeCfg} {PA : Fin nd → Fin nq → Idx n Nq Np → Nat → Option ℂ} {m : Nat} {es : List OsElem} {t : OsTab}
    (h : TabInv c PA m es t) (hm : m < 15) (hnd : (es.map (·.idx)).Nodup)
    (ha : ∀ e ∈ es, t.conv e.idx = false → ∀ (i : Fin nd) (q : Fin nq) (y : Idx n Nq Np), ElemIs c e i q y →
      padeApproximant (fun k => t.a (e.idx * 29 + k)) m m 1 = PA i q y m) :
    TabInv c PA (m + 1) es (paPass m es t).1 := by
  obtain ⟨_, s2, _, _, _⟩ := paPass_spec m hm es hnd t
  intro e he i q y hy
  obtain ⟨h1, h2⟩ := h e he i q y hy
  have hp := s2 e he
  generalize (paPass m es t).1 = t' at hp ⊢
  by_cases hc : t.conv e.idx = true
  · obtain ⟨d1, d2, d3⟩ := hp.done hc
    refine ⟨fun hx => (by rw [d1] at hx; cases hx), fun _ => ?_⟩
    obtain ⟨NM, g1, first, g2, g3, g4⟩ := h2 hc
    exact ⟨NM, by omega, first, g2, d2.trans g3, fun k hk => (d3 k (by omega)).trans (g4 k hk)⟩
  · have hc : t.conv e.idx = false := by simpa using hc
    obtain ⟨t1, t2, P, t3, t4, t5, t6, _⟩ := hp.todo hc
    obtain ⟨_, h1⟩ := h1 hc
    have hall : ∀ k ≤ m, t'.pa ((e.idx : Int) * 15 + k) = PA i q y k := by
      intro k hk
      by_cases hkm : k = m
      · subst hkm; rw [t1]; exact ha e he hc i q y hy
      · rw [t2 k (by omega) hkm]; exact h1 k (by omega)
    have hP : ∀ k : Nat, k ≤ m → P ((e.idx : Int) * 15 + k) = withFirst (P ((e.idx : Int) * 15 - 1)) (PA i q y) (((0 : Nat) : Int) * 15 + k) := by
      intro k hk
      rw [t3 k (by omega), hall k hk]
      unfold withFirst
      rw [if_neg (by omega)]
      congr 1
      omega
    have hP' : P ((e.idx : Int) * 15 - 1) = withFirst (P ((e.idx : Int) * 15 - 1)) (PA i q y) (((0 : Nat) : Int) * 15 - 1) := by
      unfold withFirst
      rw [if_pos (by omega)]
    constructor
    · intro hx
      refine ⟨?_, fun k hk => hall k (by omega)⟩
      by_contra hm14
      have : m = 14 := by omega
      rw [t5] at hx
      unfold paConverged at hx
      simp [this] at hx
    · intro hx
      refine ⟨m, by omega, P ((e.idx : Int) * 15 - 1), ?_, ?_, hall⟩
      · rw [← paConverged_congr hP hP', ← t5]; exact hx
      · rw [← bestPA_congr hP hP']; exact t6 hx

section
variable {n Nq Np : Nat} {c : PadeCfg} {A : Matrix (Idx n Nq Np) (Idx n Nq Np) ℝ} {deut : List (Fin n)} {qidx : List (Fin Nq)}
  {sched : List Nat} {hNp : 0 < Np} (S : PadeSetup c A deut qidx sched hNp)

/-- Order-`k` diagonal approximant of the exact Neumann series of an element. -/
def exactPA (c : PadeCfg) (A : Matrix (Idx n Nq Np) (Idx n Nq Np) ℝ) (deut : List (Fin n)) (qidx : List (Fin Nq)) (hNp : 0 < Np)
    (i : Fin deut.length) (q : Fin qidx.length) (y : Idx n Nq Np) (k : Nat) : Option ℂ :=
  padeApproximant (exactTerm c A deut qidx hNp i q y) k k 1

/-- Invariant after `m` orders. -/
structure LoopInv (c : PadeCfg) (A : Matrix (Idx n Nq Np) (Idx n Nq Np) ℝ) (deut : List (Fin n)) (qidx : List (Fin Nq)) (hNp : 0 < Np)
    (m : Nat) (s : PadeState) : Prop where
  neumann : NInv c A deut qidx hNp (2 * (m - 1)) s
  el : TabInv c (exactPA c A deut qidx hNp) m (elElems c) s.el
  bu : TabInv c (exactPA c A deut qidx hNp) m (buElems c) s.bu
  count : s.numConv = convCount s.el (elElems c) + convCount s.bu (buElems c)

include S in
theorem LoopInv.init (junk : PadeJunk) : LoopInv c A deut qidx hNp 0 (padeInit c sched junk) := by
  refine ⟨NInv.init S junk, ?_, ?_, ?_⟩
  · intro e _ i q y _
    exact ⟨fun _ => ⟨by omega, fun k hk => by omega⟩, fun h => by cases h⟩
  · intro e _ i q y _
    exact ⟨fun _ => ⟨by omega, fun k hk => by omega⟩, fun h => by cases h⟩
  · have h1 : convCount (padeInit c sched junk).el (elElems c) = 0 := by
      unfold convCount; rw [List.filter_eq_nil_iff.2]; · rfl
      intro e _; show ¬ false = true; simp
    have h2 : convCount (padeInit c sched junk).bu (buElems c) = 0 := by
      unfold convCount; rw [List.filter_eq_nil_iff.2]; · rfl
      intro e _; show ¬ false = true; simp
    rw [h1, h2]; rfl

/-- The two Neumann terms computed before the approximants of order `m`. -/
def termsFor (c : PadeCfg) (m : Nat) (s : PadeState) : PadeState := if m = 0 then s else neumannStep c (2 * m) (neumannStep c (2 * m - 1) s)

theorem termsFor_frame (c : PadeCfg) (m : Nat) (s : PadeState) : (termsFor c m s).el.conv = s.el.conv ∧ (termsFor c m s).el.pa = s.el.pa ∧
    (termsFor c m s).el.best = s.el.best ∧ (termsFor c m s).bu.conv = s.bu.conv ∧ (termsFor c m s).bu.pa = s.bu.pa ∧
    (termsFor c m s).bu.best = s.bu.best ∧ (termsFor c m s).numConv = s.numConv := by
  unfold termsFor
  split
  · exact ⟨rfl, rfl, rfl, rfl, rfl, rfl, rfl⟩
  · exact ⟨rfl, rfl, rfl, rfl, rfl, rfl, rfl⟩

theorem padeBody_eq (c : PadeCfg) (s : PadeState) (m : Nat) : padeBody c s m =
    { termsFor c m s with el := (paPass m (elElems c) (termsFor c m s).el).1, bu := (paPass m (buElems c) (termsFor c m s).bu).1,
                          numConv := (termsFor c m s).numConv + (paPass m (elElems c) (termsFor c m s).el).2 + (paPass m (buElems c) (termsFor c m s).bu).2 } := rfl

include S in
theorem termsFor_inv {m : Nat} {s : PadeState} (h : NInv c A deut qidx hNp (2 * (m - 1)) s) (hm : m < 15) : NInv c A deut qidx hNp (2 * m) (termsFor c m s) := by
  unfold termsFor
  by_cases h0 : m = 0
  · rw [if_pos h0]; subst h0; exact h
  · rw [if_neg h0]
    have e1 : 2 * m - 1 = 2 * (m - 1) + 1 := by omega
    have e2 : 2 * m = 2 * (m - 1) + 1 + 1 := by omega
    rw [e1, e2]
    exact NInv.step S (NInv.step S h (by omega)) (by omega)

theorem pass_conv_mono {m : Nat} (hm : m < 15) {es : List OsElem} (hnd : (es.map (·.idx)).Nodup) (t : OsTab) (i : Nat) (h : t.conv i = true) :
    (paPass m es t).1.conv i = true := by
  obtain ⟨_, s2, s3, _, _⟩ := paPass_spec m hm es hnd t
  by_cases he : ∃ e ∈ es, e.idx = i
  · obtain ⟨e, he, rfl⟩ := he
    exact ((s2 e he).done h).1
  · rw [(s3 i fun e h1 h2 => he ⟨e, h1, h2⟩).1]; exact h

theorem convCount_congr {t t' : OsTab} (h : t.conv = t'.conv) (es : List OsElem) : convCount t es = convCount t' es := by unfold convCount; rw [h]

include S in
theorem LoopInv.step {m : Nat} {s : PadeState} (h : LoopInv c A deut qidx hNp m s) (hm : m < 15) : LoopInv c A deut qidx hNp (m + 1) (padeBody c s m) := by
  obtain ⟨f1, f2, f3, f4, f5, f6, f7⟩ := termsFor_frame c m s
  have hn := termsFor_inv S h.neumann hm
  rw [padeBody_eq]
  have hel := paPass_spec m hm (elElems c) (el_nodup c) (termsFor c m s).el
  have hbu := paPass_spec m hm (buElems c) (bu_nodup S) (termsFor c m s).bu
  refine ⟨?_, ?_, ?_, ?_⟩
  · have e : 2 * (m + 1 - 1) = 2 * m := by omega
    rw [e]
    exact NInv.mono hn rfl rfl hel.1 hbu.1 (fun i hi => pass_conv_mono hm (el_nodup c) _ i hi) (fun i hi => pass_conv_mono hm (bu_nodup S) _ i hi)
  · refine TabInv.step (t := (termsFor c m s).el) ?_ hm (el_nodup c) ?_
    · intro e he i q y hy
      rw [f1, f2, f3]
      exact h.el e he i q y hy
    · intro e he hc i q y hy
      exact padeApproximant_congr 1 fun k hk => hn.el e he hc i q y hy k (by omega)
  · refine TabInv.step (t := (termsFor c m s).bu) ?_ hm (bu_nodup S) ?_
    · intro e he i q y hy
      rw [f4, f5, f6]
      exact h.bu e he i q y hy
    · intro e he hc i q y hy
      exact padeApproximant_congr 1 fun k hk => hn.bu e he hc i q y hy k (by omega)
  · dsimp only
    have c1 := hel.2.2.2.1
    have c2 := hbu.2.2.2.1
    rw [convCount_congr f1] at c1
    rw [convCount_congr f4] at c2
    rw [f7, h.count]
    omega

/-- The loop, order by order. -/
def padeLoopN (c : PadeCfg) (s : PadeState) (m : Nat) : PadeState :=
  (List.range m).foldl (fun s NM => if s.numConv = c.numEL then s else padeBody c s NM) s

theorem padeLoopN_succ (c : PadeCfg) (s : PadeState) (m : Nat) : padeLoopN c s (m + 1) =
    if (padeLoopN c s m).numConv = c.numEL then padeLoopN c s m else padeBody c (padeLoopN c s m) m := by
  unfold padeLoopN
  rw [List.range_succ, List.foldl_append, List.foldl_cons, List.foldl_nil]

include S in
theorem padeLoopN_inv (junk : PadeJunk) (m : Nat) (hm : m ≤ 15) : ∃ m0 ≤ m, LoopInv c A deut qidx hNp m0 (padeLoopN c (padeInit c sched junk) m) ∧
    (m0 = m ∨ (padeLoopN c (padeInit c sched junk) m).numConv = c.numEL) := by
  induction m with
  | zero => exact ⟨0, le_rfl, LoopInv.init S junk, Or.inl rfl⟩
  | succ m ih =>
    obtain ⟨m0, h1, h2, h3⟩ := ih (by omega)
    rw [padeLoopN_succ]
    by_cases hn : (padeLoopN c (padeInit c sched junk) m).numConv = c.numEL
    · rw [if_pos hn]; exact ⟨m0, by omega, h2, Or.inr hn⟩
    · rw [if_neg hn]
      obtain rfl := h3.resolve_right hn
      exact ⟨m0 + 1, le_rfl, LoopInv.step S h2 (by omega), Or.inl rfl⟩

include S in
theorem padeSolve_eq (junk : PadeJunk) : padeSolve c sched junk = some (padeLoopN c (padeInit c sched junk) 15) := by
  unfold padeSolve
  have h := S.chunk
  have hD : c.D ≠ 0 := by
    intro h0
    unfold colsPerChunk at h
    rw [h0] at h
    simp at h
  rw [if_neg (by omega)]
  rfl

theorem exactPA_zero (i : Fin deut.length) (q : Fin qidx.length) (y : Idx n Nq Np) :
    exactPA c A deut qidx hNp i q y 0 = some (toC A (deut.get i, qidx.get q, ⟨0, hNp⟩) y) := by
  unfold exactPA
  rw [padeApproximant_zero]
  unfold exactTerm neumannTerm
  rw [pow_zero, Matrix.mul_one]

/-- The value read for a converged element is a finite approximant. -/
theorem TabInv.value {m : Nat} {es : List OsElem} {t : OsTab} (h : TabInv c (exactPA c A deut qidx hNp) m es t) {e : OsElem} (he : e ∈ es)
    (hc : t.conv e.idx = true) {i : Fin deut.length} {q : Fin qidx.length} {y : Idx n Nq Np} (hy : ElemIs c e i q y) :
    ∃ NM < m, ∃ first, paConverged (withFirst first (exactPA c A deut qidx hNp i q y)) 0 NM = true ∧
      t.best e.idx = (bestPA (withFirst first (exactPA c A deut qidx hNp i q y)) 0 NM).1 ∧ t.best e.idx ≤ NM ∧
      t.pa ((e.idx : Int) * 15 + t.best e.idx) = exactPA c A deut qidx hNp i q y (t.best e.idx) ∧ (exactPA c A deut qidx hNp i q y (t.best e.idx)).isSome := by
  obtain ⟨NM, h1, first, h2, h3, h4⟩ := (h e he i q y hy).2 hc
  have hs := bestPA_spec (withFirst first (exactPA c A deut qidx hNp i q y)) 0 NM
  rw [← h3] at hs
  refine ⟨NM, h1, first, h2, h3, hs.1, h4 _ hs.1, ?_⟩
  by_cases h0 : t.best e.idx = 0
  · rw [h0, exactPA_zero]; rfl
  · have := hs.2 h0
    unfold withFirst at this
    rw [if_neg (by omega)] at this
    have e : (((0 : Nat) : Int) * 15 + (t.best e.idx : Int)).toNat = t.best e.idx := by omega
    rwa [e] at this

end
end TicTac
end
