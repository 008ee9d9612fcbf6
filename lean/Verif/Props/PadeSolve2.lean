import Verif.Lemmas.KernelAny
import Mathlib.Analysis.Complex.Norm
/-! The iterative solver: counterexamples for C47, acceptance rule C77. -/
noncomputable section
namespace TicTac
open Spec
open Classical

theorem bestPA_zero (P : Int → Option ℂ) (idx : Nat) : bestPA P idx 0 = match paDiff (P ((idx : Int) * 15)) (P ((idx : Int) * 15 - 1)) 1 with
    | some d => (0, d) | none => (0, 1) := by
  unfold bestPA
  simp only [Nat.zero_add, List.range_one, List.foldl_cons, List.foldl_nil, Nat.cast_zero, Int.add_zero]
  cases paDiff (P ((idx : Int) * 15)) (P ((idx : Int) * 15 - 1)) 1 <;> rfl

/-- The smallest change: its defining property. -/
theorem bestPA_min (pa : Int → Option ℂ) (idx NM : Nat) :
    (∀ k : Nat, k ≤ NM → ∀ x y, pa ((idx : Int) * 15 + k) = some x → pa ((idx : Int) * 15 + k - 1) = some y → 1 / 10 ^ 15 < ‖x - y‖ → (bestPA pa idx NM).2 ≤ ‖x - y‖) ∧
    (((bestPA pa idx NM) = (0, 1)) ∨ ∃ x y, pa ((idx : Int) * 15 + (bestPA pa idx NM).1) = some x ∧ pa ((idx : Int) * 15 + (bestPA pa idx NM).1 - 1) = some y ∧
      (bestPA pa idx NM).2 = ‖x - y‖ ∧ ‖x - y‖ < 1 ∧ 1 / 10 ^ 15 < ‖x - y‖) := by
  unfold bestPA
  have : ∀ m, ∀ b, b = (List.range m).foldl (fun b (k : Nat) => match paDiff (pa ((idx : Int) * 15 + k)) (pa ((idx : Int) * 15 + k - 1)) b.2 with
    | some d => (k, d)
    | none => b) ((0, 1) : Nat × ℝ) → b.2 ≤ 1 ∧
      (∀ k : Nat, k < m → ∀ x y, pa ((idx : Int) * 15 + k) = some x → pa ((idx : Int) * 15 + k - 1) = some y → 1 / 10 ^ 15 < ‖x - y‖ → b.2 ≤ ‖x - y‖) ∧
      (b = (0, 1) ∨ ∃ x y, pa ((idx : Int) * 15 + b.1) = some x ∧ pa ((idx : Int) * 15 + b.1 - 1) = some y ∧ b.2 = ‖x - y‖ ∧ ‖x - y‖ < 1 ∧ 1 / 10 ^ 15 < ‖x - y‖) := by
    intro m
    induction m with
    | zero => rintro b rfl; exact ⟨le_rfl, fun k hk => absurd hk (by omega), Or.inl rfl⟩
    | succ m ih =>
      intro b hb
      rw [List.range_succ, List.foldl_append, List.foldl_cons, List.foldl_nil] at hb
      have hprev := ih _ rfl
      generalize (List.range m).foldl (fun b (k : Nat) => match paDiff (pa ((idx : Int) * 15 + k)) (pa ((idx : Int) * 15 + k - 1)) b.2 with
        | some d => (k, d)
        | none => b) ((0, 1) : Nat × ℝ) = b0 at hb hprev
      obtain ⟨p1, p2, p3⟩ := hprev
      cases hx : pa ((idx : Int) * 15 + m) with
      | none =>
        have hd : paDiff (pa ((idx : Int) * 15 + m)) (pa ((idx : Int) * 15 + m - 1)) b0.2 = none := by unfold paDiff; rw [hx]
        simp only [hd] at hb
        subst hb
        refine ⟨p1, fun k hk x y h1 h2 h3 => ?_, p3⟩
        by_cases hkm : k = m
        · subst hkm; rw [hx] at h1; cases h1
        · exact p2 k (by omega) x y h1 h2 h3
      | some x =>
        cases hy : pa ((idx : Int) * 15 + m - 1) with
        | none =>
          have hd : paDiff (pa ((idx : Int) * 15 + m)) (pa ((idx : Int) * 15 + m - 1)) b0.2 = none := by unfold paDiff; rw [hx, hy]
          simp only [hd] at hb
          subst hb
          refine ⟨p1, fun k hk x y h1 h2 h3 => ?_, p3⟩
          by_cases hkm : k = m
          · subst hkm; rw [hy] at h2; cases h2
          · exact p2 k (by omega) x y h1 h2 h3
        | some y =>
          by_cases hc : ‖x - y‖ < b0.2 ∧ ‖x - y‖ > 1 / 10 ^ 15
          · have hd : paDiff (pa ((idx : Int) * 15 + m)) (pa ((idx : Int) * 15 + m - 1)) b0.2 = some ‖x - y‖ := by
              unfold paDiff; rw [hx, hy]; dsimp only; rw [if_pos hc]
            simp only [hd] at hb
            subst hb
            refine ⟨(hc.1.trans_le p1).le, fun k hk x' y' h1 h2 h3 => ?_, Or.inr ⟨x, y, hx, hy, rfl, hc.1.trans_le p1, hc.2⟩⟩
            by_cases hkm : k = m
            · subst hkm
              rw [hx] at h1; rw [hy] at h2
              cases h1; cases h2
              exact le_rfl
            · exact hc.1.le.trans (p2 k (by omega) x' y' h1 h2 h3)
          · have hd : paDiff (pa ((idx : Int) * 15 + m)) (pa ((idx : Int) * 15 + m - 1)) b0.2 = none := by
              unfold paDiff; rw [hx, hy]; dsimp only; rw [if_neg hc]
            simp only [hd] at hb
            subst hb
            refine ⟨p1, fun k hk x' y' h1 h2 h3 => ?_, p3⟩
            by_cases hkm : k = m
            · subst hkm
              rw [hx] at h1; rw [hy] at h2
              cases h1; cases h2
              by_contra hlt
              exact hc ⟨not_le.1 hlt, h3⟩
            · exact p2 k (by omega) x' y' h1 h2 h3
  obtain ⟨_, h2, h3⟩ := this (NM + 1) _ rfl
  exact ⟨fun k hk => h2 k (by omega), h3⟩

section
variable {p : PWParams} {twoJ3 P : Int} {states : List PWState} {Nq Np : Nat} {V C : Bool → Int → ℝ} {P123 : List (Entry ℝ)} {c : PadeCfg}
  {deut : List (Fin states.length)} {qidx : List (Fin Nq)} {sched : List Nat}

/-- Once the counter has its final value nothing changes. -/
theorem padeLoopN_stop (c : PadeCfg) (s : PadeState) (m k : Nat) (h : (padeLoopN c s m).numConv = c.numEL) : padeLoopN c s (m + k) = padeLoopN c s m := by
  induction k with
  | zero => rfl
  | succ k ih => rw [← Nat.add_assoc, padeLoopN_succ, ih, if_pos h]

/-- A converged elastic element keeps its index. -/
theorem padeLoopN_keep (c : PadeCfg) (s : PadeState) (m k idx : Nat) (hk : m + k ≤ 15) (h : (padeLoopN c s m).el.conv idx = true) :
    (padeLoopN c s (m + k)).el.conv idx = true ∧ (padeLoopN c s (m + k)).el.best idx = (padeLoopN c s m).el.best idx := by
  induction k with
  | zero => exact ⟨h, rfl⟩
  | succ k ih =>
    obtain ⟨i1, i2⟩ := ih (by omega)
    rw [← Nat.add_assoc, padeLoopN_succ]
    split
    · exact ⟨i1, i2⟩
    · generalize padeLoopN c s (m + k) = s' at i1 i2 ⊢
      obtain ⟨f1, f2, f3, _⟩ := termsFor_frame c (m + k) s'
      rw [padeBody_eq]
      dsimp only
      obtain ⟨_, s2, s3, _, _⟩ := paPass_spec (m + k) (by omega) (elElems c) (el_nodup c) (termsFor c (m + k) s').el
      by_cases he : ∃ e ∈ elElems c, e.idx = idx
      · obtain ⟨e, he, rfl⟩ := he
        obtain ⟨d1, d2, _⟩ := (s2 e he).done (by rw [f1]; exact i1)
        exact ⟨d1, by rw [d2, f3]; exact i2⟩
      · obtain ⟨g1, g2, _⟩ := s3 idx fun e h1 h2 => he ⟨e, h1, h2⟩
        exact ⟨by rw [g1, f1]; exact i1, by rw [g2, f3]; exact i2⟩

/-- The first pass: what decides about an elastic element. -/
theorem first_pass {A : Matrix (Idx states.length Nq Np) (Idx states.length Nq Np) ℝ} {hNp : 0 < Np} (S : PadeSetup c A deut qidx sched hNp) (junk : PadeJunk)
    (hEL : c.numEL ≠ 0) {e : OsElem} (he : e ∈ elElems c) {i : Fin deut.length} {q : Fin qidx.length} {y : Idx states.length Nq Np} (hy : ElemIs c e i q y) :
    ∃ Q : Int → Option ℂ, Q ((e.idx : Int) * 15) = some (toC A (deut.get i, qidx.get q, ⟨0, hNp⟩) y) ∧
      Q ((e.idx : Int) * 15 - 1) = freshPA (c.numEL * 15) junk.pa ((e.idx : Int) * 15 - 1) ∧
      (padeLoopN c (padeInit c sched junk) 1).el.conv e.idx = paConverged Q e.idx 0 ∧
      ((padeLoopN c (padeInit c sched junk) 1).el.conv e.idx = true → (padeLoopN c (padeInit c sched junk) 1).el.best e.idx = (bestPA Q e.idx 0).1) ∧
      (∀ z : Int, (∀ e' ∈ elElems c, z ≠ (e'.idx : Int) * 15) → (padeLoopN c (padeInit c sched junk) 1).el.pa z = freshPA (c.numEL * 15) junk.pa z) := by
  have h1 : padeLoopN c (padeInit c sched junk) 1 = padeBody c (padeInit c sched junk) 0 := by
    rw [padeLoopN_succ]
    have h0 : padeLoopN c (padeInit c sched junk) 0 = padeInit c sched junk := rfl
    rw [h0, if_neg (fun hh => hEL (by rw [← hh]; rfl))]
  have hI := NInv.init S junk
  rw [h1, padeBody_eq]
  have ht : termsFor c 0 (padeInit c sched junk) = padeInit c sched junk := rfl
  rw [ht]
  obtain ⟨_, s2, _, _, s5⟩ := paPass_spec 0 (by omega) (elElems c) (el_nodup c) (padeInit c sched junk).el
  have hc : (padeInit c sched junk).el.conv e.idx = false := rfl
  obtain ⟨t1, _, Q, t3, t4, t5, t6, _⟩ := (s2 e he).todo hc
  refine ⟨Q, ?_, ?_, t5, t6, ?_⟩
  · have := t3 0 (by omega)
    rw [Nat.cast_zero, Int.add_zero] at this
    rw [Nat.cast_zero, Int.add_zero] at t1
    rw [this, t1, padeApproximant_zero]
    have := hI.el e he hc i q y hy 0 le_rfl
    rw [this]
    unfold exactTerm neumannTerm
    rw [pow_zero, Matrix.mul_one]
  · exact t4 (by omega)
  · intro z hz
    exact s5 z fun e' he' => by rw [Nat.cast_zero, Int.add_zero]; exact hz e' he'

theorem small_element {A : Matrix (Idx states.length Nq Np) (Idx states.length Nq Np) ℝ} {hNp : 0 < Np} (S : PadeSetup c A deut qidx sched hNp) (junk : PadeJunk)
    {e : OsElem} (he : e ∈ elElems c) {i : Fin deut.length} {q : Fin qidx.length} {y : Idx states.length Nq Np} (g2 : ElemIs c e i q y) (hidx : 0 < e.idx)
    (h1 : 1 / 10 ^ 15 < |A (deut.get i, qidx.get q, ⟨0, hNp⟩) y|) (h2 : |A (deut.get i, qidx.get q, ⟨0, hNp⟩) y| < 1 / 10 ^ 7) :
    padeU (padeLoopN c (padeInit c sched junk) 15) e.idx = some ((A (deut.get i, qidx.get q, ⟨0, hNp⟩) y : ℝ) : ℂ) := by
  have hidx' : e.idx < c.numEL := by
    obtain ⟨dr, k1, dc, k2, q', k3, rfl⟩ := (mem_elElems c e).1 he
    unfold PadeCfg.numEL
    dsimp only
    have := radix_lt (radix_lt k1 k2) k3
    calc dr * c.nd * c.nq + dc * c.nq + q' = (dr * c.nd + dc) * c.nq + q' := by ring
      _ < _ := this
  have hEL : c.numEL ≠ 0 := by omega
  obtain ⟨Q, q1, q2, q3, q4, _⟩ := first_pass S junk hEL he g2
  have q2' : Q ((e.idx : Int) * 15 - 1) = some 0 := by
    rw [q2]; unfold freshPA
    rw [if_pos ⟨by omega, by push_cast; omega⟩]
  have hA : toC A (deut.get i, qidx.get q, ⟨0, hNp⟩) y = ((A (deut.get i, qidx.get q, ⟨0, hNp⟩) y : ℝ) : ℂ) := rfl
  have hpa0 := exactPA_zero (c := c) (A := A) (hNp := hNp) i q y
  rw [hA] at hpa0
  rw [hA] at q1
  generalize A (deut.get i, qidx.get q, ⟨0, hNp⟩) y = x at q1 h1 h2 hpa0 ⊢
  have hnorm : ‖(x : ℂ) - 0‖ = |x| := by
    rw [sub_zero]; exact Complex.norm_real _
  have hb : bestPA Q e.idx 0 = (0, |x|) := by
    rw [bestPA_zero, q1, q2']
    unfold paDiff
    dsimp only
    rw [hnorm, if_pos ⟨h2.trans (by norm_num), h1⟩]
  have hconv : (padeLoopN c (padeInit c sched junk) 1).el.conv e.idx = true := by
    rw [q3]
    unfold paConverged
    rw [hb]
    dsimp only
    rw [decide_eq_true_eq]
    right; right; right
    exact h2
  have hbest := q4 hconv
  rw [hb] at hbest
  have hkeep := padeLoopN_keep c (padeInit c sched junk) 1 14 e.idx (by omega) hconv
  rw [show 1 + 14 = 15 from rfl] at hkeep
  obtain ⟨k1, k2⟩ := hkeep
  obtain ⟨m0, hm0, hL, _⟩ := padeLoopN_inv S junk 15 le_rfl
  obtain ⟨NM, _, first, _, _, _, v1, _⟩ := hL.el.value he k1 g2
  unfold padeU
  have hb0 : (padeLoopN c (padeInit c sched junk) 15).el.best e.idx = 0 := k2.trans hbest
  rw [v1, hb0, hpa0]

/-- C77 (what happens instead): every elastic element except the first one of the array whose kernel element has modulus between 1e-15
and 1e-7 is accepted at order 0, because the program takes the (zero) cell of the previous element for "the previous approximant"; the
result is the bare kernel element, whatever the higher terms of the series are. -/
theorem C77_small_element_not_resummed (ht : p.tensor = true) (h : IsChannel p twoJ3 P states) (hNp : 0 < Np) (hin : SolverInput p states Nq Np V C P123 c deut qidx sched)
    (hD : 0 < states.length * Nq * Np) (hD' : states.length * Nq * Np ≤ 2 ^ 28) (junk : PadeJunk) (i j : Fin deut.length) (q : Fin qidx.length)
    (hidx : 0 < elNum c i j q) (h1 : 1 / 10 ^ 15 < |kernelMatrix p states Nq Np V C P123 (deut.get i, qidx.get q, ⟨0, hNp⟩) (deut.get j, qidx.get q, ⟨0, hNp⟩)|)
    (h2 : |kernelMatrix p states Nq Np V C P123 (deut.get i, qidx.get q, ⟨0, hNp⟩) (deut.get j, qidx.get q, ⟨0, hNp⟩)| < 1 / 10 ^ 7) :
    ∃ s, padeSolve c sched junk = some s ∧
      padeU s (elNum c i j q) = some (kernelMatrix p states Nq Np V C P123 (deut.get i, qidx.get q, ⟨0, hNp⟩) (deut.get j, qidx.get q, ⟨0, hNp⟩) : ℝ) := by
  have S := hin.setup ht h hNp hD hD'
  obtain ⟨e, he, g1, g2⟩ := el_mem S i j q
  refine ⟨_, padeSolve_eq S junk, ?_⟩
  rw [← g1] at hidx ⊢
  exact small_element S junk he g2 hidx h1 h2

/-- C77, in weaker form (exact form: `C77_exactly`).  Without breakup
elements: the result is the approximant of some order `k`, all approximants up to some order `NM ≥ k` were formed; no change between consecutive
approximants of orders up to `NM` (changes of at most 1e-15 are ignored) is smaller than the change into order `k` when `k ≥ 1`; and acceptance happened because `NM`
was the last order, or the best change was five orders back, or the change into order `k` was below the tolerances, or `k = 0`. -/
theorem C77_smallest_change (ht : p.tensor = true) (h : IsChannel p twoJ3 P states) (hNp : 0 < Np) (hin : SolverInput p states Nq Np V C P123 c deut qidx sched)
    (hD : 0 < states.length * Nq * Np) (hD' : states.length * Nq * Np ≤ 2 ^ 28) (hb : c.breakup = false) (junk : PadeJunk) (i j : Fin deut.length) (q : Fin qidx.length) :
    let PA := fun k => padeApproximant (fun m => neumannTerm (toC (kernelMatrix p states Nq Np V C P123)) (fun x => c.G (q * c.D + flat x)) m
      (deut.get i, qidx.get q, ⟨0, hNp⟩) (deut.get j, qidx.get q, ⟨0, hNp⟩)) k k 1
    ∃ s, padeSolve c sched junk = some s ∧ ∃ NM ≤ 14, ∃ k ≤ NM, padeU s (elNum c i j q) = PA k ∧
      (1 ≤ k → ∃ u v, PA k = some u ∧ PA (k - 1) = some v ∧ ‖u - v‖ < 1 ∧ 1 / 10 ^ 15 < ‖u - v‖ ∧
        ∀ l, 1 ≤ l → l ≤ NM → ∀ x y, PA l = some x → PA (l - 1) = some y → 1 / 10 ^ 15 < ‖x - y‖ → ‖u - v‖ ≤ ‖x - y‖) ∧
      (NM = 14 ∨ NM - k > 4 ∨ k = 0 ∨ ∃ u v, PA k = some u ∧ PA (k - 1) = some v ∧ (‖u - v‖ < 1 / 10 ^ 6 * ‖u‖ ∨ ‖u - v‖ < 1 / 10 ^ 7)) := by
  intro PA
  have S := hin.setup ht h hNp hD hD'
  refine ⟨_, padeSolve_eq S junk, ?_⟩
  obtain ⟨m0, hm0, hL, hor⟩ := padeLoopN_inv S junk 15 le_rfl
  generalize padeLoopN c (padeInit c sched junk) 15 = s at hL hor ⊢
  obtain ⟨e, he, g1, g2⟩ := el_mem S i j q
  have hc : s.el.conv e.idx = true := by
    rcases hor with hor | hor
    · by_contra hx
      have := ((hL.el e he i q _ g2).1 (by simpa using hx)).1
      omega
    · have hb0 : buElems c = [] := by unfold buElems; rw [if_neg (by simp [hb])]
      rw [hL.count, hb0, ← numEL_length] at hor
      exact convCount_all (by simpa [convCount] using hor) e he
  obtain ⟨NM, n1, first, n2, n3, n4, n5, _⟩ := hL.el.value he hc g2
  have hPA : exactPA c (kernelMatrix p states Nq Np V C P123) deut qidx hNp i q (deut.get j, qidx.get q, ⟨0, hNp⟩) = PA := rfl
  rw [hPA] at n2 n3 n5
  clear_value PA
  rw [← g1]
  refine ⟨NM, by omega, s.el.best e.idx, n4, n5, ?_⟩
  have hw : ∀ l : Nat, withFirst first PA (((0 : Nat) : Int) * 15 + l) = PA l := by
    intro l; unfold withFirst; rw [if_neg (by omega)]; congr 1; omega
  have hw' : ∀ l : Nat, 1 ≤ l → withFirst first PA (((0 : Nat) : Int) * 15 + l - 1) = PA (l - 1) := by
    intro l hl; unfold withFirst; rw [if_neg (by omega)]; congr 1; omega
  obtain ⟨b1, b2⟩ := bestPA_min (withFirst first PA) 0 NM
  have key : 1 ≤ s.el.best e.idx → ∃ u v, PA (s.el.best e.idx) = some u ∧ PA (s.el.best e.idx - 1) = some v ∧
      (bestPA (withFirst first PA) 0 NM).2 = ‖u - v‖ ∧ ‖u - v‖ < 1 ∧ 1 / 10 ^ 15 < ‖u - v‖ := by
    intro hk
    rcases b2 with b2 | ⟨x, y, c1, c2, c3, c4, c5⟩
    · rw [n3, b2] at hk; exact absurd hk (by norm_num)
    · rw [← n3] at c1 c2
      rw [hw] at c1; rw [hw' _ hk] at c2
      exact ⟨x, y, c1, c2, c3, c4, c5⟩
  constructor
  · intro hk
    obtain ⟨u, v, k1, k2, k3, k4, k5⟩ := key hk
    refine ⟨u, v, k1, k2, k4, k5, fun l hl hl' x y hx hy hxy => ?_⟩
    rw [← k3]
    exact b1 l hl' x y (by rw [hw]; exact hx) (by rw [hw' l hl]; exact hy) hxy
  · by_cases hk : s.el.best e.idx = 0
    · exact Or.inr (Or.inr (Or.inl hk))
    obtain ⟨u, v, k1, k2, k3, k4, k5⟩ := key (by omega)
    unfold paConverged at n2
    dsimp only at n2
    rw [decide_eq_true_eq] at n2
    rcases n2 with n2 | n2 | n2 | n2
    · exact Or.inl n2
    · exact Or.inr (Or.inl (by rw [n3]; exact n2))
    · right; right; right
      rw [← n3, hw, k1] at n2
      dsimp only at n2
      rw [k3] at n2
      exact ⟨u, v, k1, k2, Or.inl n2⟩
    · right; right; right
      rw [k3] at n2
      exact ⟨u, v, k1, k2, Or.inr n2⟩

end
end TicTac
end
