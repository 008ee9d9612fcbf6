import Verif.Props.PadeSolve2
import Mathlib.Tactic.NormNum
import Mathlib.Tactic.Linarith
/-! The iterative solver: counterexamples (C47 with breakup, C77) on concrete runs. -/
noncomputable section
namespace TicTac
open Spec
open Classical

/-- A three-nucleon channel of the program with tensor force. -/
theorem small_channel : ∃ (p : PWParams) (twoJ3 P : Int) (states : List PWState), p.tensor = true ∧ IsChannel p twoJ3 P states ∧ 0 < states.length ∧ states.length ≤ 2 ^ 20 := by
  have hv : ValidTruncation { J2max := 1, twoJ3max := 1, isoBreak := true } := by
    unfold ValidTruncation; decide
  obtain ⟨w, hw, h0, hi, h1, h5⟩ : ∃ w, constructPW { J2max := 1, twoJ3max := 1, isoBreak := true } = some w ∧ w.chnIdx[0]? = some 0 ∧
      ∃ hi, w.chnIdx[1]? = some hi ∧ 0 < w.nChn ∧ 5 < hi ∧ hi ≤ w.states.length ∧ hi ≤ 2 ^ 20 := ⟨_, rfl, rfl, _, rfl, by decide, by decide, by decide, by decide⟩
  refine ⟨_, _, _, _, rfl, C43_program_channels _ hv w hw 0 0 hi h5.1 h0 h1, ?_, ?_⟩
  · rw [List.length_take, List.length_drop]; omega
  · rw [List.length_take, List.length_drop]; omega

/-- With a vanishing resolvent only the order-0 coefficient is non-zero. -/
theorem neumann_zero {ι : Type} [Fintype ι] [DecidableEq ι] (A : Matrix ι ι ℂ) (n : Nat) (x y : ι) : neumannTerm A (fun _ => 0) (n + 1) x y = 0 := by
  unfold neumannTerm
  have : (Matrix.diagonal (fun _ : ι => (0 : ℂ)) : Matrix ι ι ℂ) = 0 := by ext i j; simp [Matrix.diagonal]
  rw [this, Matrix.zero_mul, pow_succ, Matrix.mul_zero, Matrix.mul_zero]
  rfl

/-- Approximants of order ≥ 1 of a series that breaks off after order 0 do not exist. -/
theorem pade_constant {a : Nat → ℂ} (h : ∀ n, a (n + 1) = 0) (k : Nat) : padeApproximant a (k + 1) (k + 1) 1 = none := by
  unfold padeApproximant
  rw [if_pos]
  apply Matrix.det_eq_zero_of_row_eq_zero (0 : Fin (k + 1 + 1))
  intro c
  unfold padeQ
  rw [if_pos (by simp)]
  have : k + 1 + 1 + ((0 : Fin (k + 1 + 1)) : Nat) + c - (k + 1) = c + 1 := by simp; omega
  rw [this, h]

/-- C47 is false with breakup: in every channel there are arguments, one energy, one deuteron state and one breakup state, for which the loop stops with
the elastic element unassigned: the element of `A` is 1 and the resolvent vanishes, so the solution of `U = A + A G U` is 1 and the
only finite approximant is 1, but the program returns the content of a cell chosen by an uninitialised index, here 0. -/
theorem C47_breakup_unassigned {p : PWParams} (ht : p.tensor = true) {twoJ3 P : Int} {states : List PWState} (h : IsChannel p twoJ3 P states)
    (hl : 0 < states.length) (hl' : states.length ≤ 2 ^ 20) :
    ∃ (P123 : List (Entry ℝ)) (c : PadeCfg) (deut : List (Fin states.length)) (qidx : List (Fin 1)) (i : Fin deut.length) (q : Fin qidx.length)
      (y : Idx states.length 1 2) (junk : PadeJunk) (s : PadeState),
      SolverInput p states 1 2 (unitPot 2) (unitPot 2) P123 c deut qidx (List.range states.length) ∧ BuIs c q 0 y ∧
      padeSolve c (List.range states.length) junk = some s ∧
      c.G = (fun _ => 0) ∧ kernelMatrix p states 1 2 (unitPot 2) (unitPot 2) P123 (deut.get i, qidx.get q, ⟨0, by omega⟩) (deut.get i, qidx.get q, ⟨0, by omega⟩) = 1 ∧
      padeU s (elNum c i i q) = some 0 ∧
      ¬ IsApproximant (Np := 2) p states (unitPot 2) (unitPot 2) P123 c deut qidx (by omega) i q (deut.get i, qidx.get q, ⟨0, by omega⟩) 0 := by
  obtain ⟨c, hin, hG, hbk, hbs, hnb, hst⟩ := exists_solverInput ht h 1 2 (unitPot 2) (unitPot 2) [⟨0, 0, 1 / 2⟩, ⟨0, 1, 5 * 10 ^ 6⟩]
    (by intro e he; simp only [List.mem_cons, List.not_mem_nil, or_false] at he; rcases he with rfl | rfl <;> dsimp only <;> omega)
    [⟨0, hl⟩] [0] (fun _ => 0) true (fun q => q) 1 (fun _ => (0, 0, 1)) (by intro q _; omega) (by simp)
  have hy : BuIs c 0 0 ((⟨0, hl⟩, 0, 1) : Idx states.length 1 2) := ⟨hbk, by rw [hbs], by rw [hbs]; exact Nat.zero_lt_one, by rw [hst]; rfl⟩
  have hNp : 0 < 2 := by omega
  have S := hin.setup ht h hNp (by omega) (by omega)
  have hA := kernel_unit ht h 1 2 [⟨0, 0, 1 / 2⟩, ⟨0, 1, 5 * 10 ^ 6⟩]
  have hA0 : kernelMatrix p states 1 2 (unitPot 2) (unitPot 2) [⟨0, 0, 1 / 2⟩, ⟨0, 1, 5 * 10 ^ 6⟩] (⟨0, hl⟩, 0, ⟨0, hNp⟩) (⟨0, hl⟩, 0, ⟨0, hNp⟩) = 1 := by
    rw [hA, Matrix.smul_apply]
    simp [sparseMatrix, flat]
  have hA1 : kernelMatrix p states 1 2 (unitPot 2) (unitPot 2) [⟨0, 0, 1 / 2⟩, ⟨0, 1, 5 * 10 ^ 6⟩] (⟨0, hl⟩, 0, ⟨0, hNp⟩) (⟨0, hl⟩, 0, 1) = 10 ^ 7 := by
    rw [hA, Matrix.smul_apply]
    simp [sparseMatrix, flat]
    norm_num
  let junk : PadeJunk := ⟨fun _ => some 0, fun _ => some 0, fun _ => 7, fun _ => 7⟩
  have hnd : c.nd = 1 := by rw [S.nd_eq]; rfl
  have hnq : c.nq = 1 := by rw [S.nq_eq]; rfl
  have hEL : c.numEL = 1 := by unfold PadeCfg.numEL; rw [hnd, hnq]
  refine ⟨_, c, [⟨0, hl⟩], [0], 0, 0, _, junk, _, hin, hy, padeSolve_eq S junk, hG, hA0, ?_, ?_⟩
  · generalize kernelMatrix p states 1 2 (unitPot 2) (unitPot 2) [⟨0, 0, 1 / 2⟩, ⟨0, 1, 5 * 10 ^ 6⟩] = A at S hA0 hA1
    obtain ⟨e, he, e1, e2⟩ := el_mem S 0 0 0
    obtain ⟨e', he', e1', e2'⟩ := bu_mem S 0 0 0 _ hy
    have hidx : e.idx = 0 := by rw [e1]; unfold elNum; simp
    have hidx' : e'.idx = 0 := by rw [e1']; simp
    have hL : LoopInv c A [⟨0, hl⟩] [0] hNp 1 (padeLoopN c (padeInit c (List.range states.length) junk) 1) := by
      rw [padeLoopN_succ]
      have h0 : padeLoopN c (padeInit c (List.range states.length) junk) 0 = padeInit c (List.range states.length) junk := rfl
      rw [h0, if_neg (by rw [hEL]; show ¬ 0 = 1; omega)]
      exact LoopInv.step S (LoopInv.init S junk) (by omega)
    obtain ⟨Q, q1, q2, q3, q4, q5⟩ := first_pass S junk (by omega) he e2
    have hc : (padeLoopN c (padeInit c (List.range states.length) junk) 1).el.conv e.idx = false := by
      rw [q3]
      have q2' : Q ((e.idx : Int) * 15 - 1) = some 0 := by
        rw [q2]; unfold freshPA; split <;> rfl
      have hA0' : toC A (List.get [(⟨0, hl⟩ : Fin states.length)] 0, List.get [(0 : Fin 1)] 0, ⟨0, hNp⟩) (List.get [(⟨0, hl⟩ : Fin states.length)] 0, List.get [(0 : Fin 1)] 0, ⟨0, hNp⟩) = 1 := by
        show ((A _ _ : ℝ) : ℂ) = 1
        rw [show A (List.get [(⟨0, hl⟩ : Fin states.length)] 0, List.get [(0 : Fin 1)] 0, ⟨0, hNp⟩) (List.get [(⟨0, hl⟩ : Fin states.length)] 0, List.get [(0 : Fin 1)] 0, ⟨0, hNp⟩) = 1 from hA0]
        simp
      rw [hA0'] at q1
      have hb : bestPA Q e.idx 0 = (0, 1) := by
        rw [bestPA_zero, q1, q2']
        unfold paDiff
        dsimp only
        rw [if_neg (by simp)]
      unfold paConverged
      rw [hb]
      dsimp only
      rw [Nat.cast_zero, Int.add_zero, q1]
      simp
      norm_num
    -- the breakup element converges at once
    have hcb : (padeLoopN c (padeInit c (List.range states.length) junk) 1).bu.conv e'.idx = true := by
      have h1 : padeLoopN c (padeInit c (List.range states.length) junk) 1 = padeBody c (padeInit c (List.range states.length) junk) 0 := by
        rw [padeLoopN_succ]
        have h0 : padeLoopN c (padeInit c (List.range states.length) junk) 0 = padeInit c (List.range states.length) junk := rfl
        rw [h0, if_neg (by rw [hEL]; show ¬ 0 = 1; omega)]
      have hI := NInv.init S junk
      rw [h1, padeBody_eq]
      have ht0 : termsFor c 0 (padeInit c (List.range states.length) junk) = padeInit c (List.range states.length) junk := rfl
      rw [ht0]
      obtain ⟨_, s2, _, _, s5⟩ := paPass_spec 0 (by omega) (buElems c) (bu_nodup S) (padeInit c (List.range states.length) junk).bu
      have hc0 : (padeInit c (List.range states.length) junk).bu.conv e'.idx = false := rfl
      obtain ⟨t1, _, Q, t3, t4, t5, t6, _⟩ := (s2 e' he').todo hc0
      dsimp only
      rw [t5]
      have r1 : Q ((e'.idx : Int) * 15) = some (10 ^ 7) := by
        have := t3 0 (by omega)
        rw [Nat.cast_zero, Int.add_zero] at this t1
        rw [this, t1, padeApproximant_zero]
        have := hI.bu e' he' hc0 0 0 _ e2' 0 le_rfl
        rw [this]
        unfold exactTerm neumannTerm
        rw [pow_zero, Matrix.mul_one]
        show some ((A _ _ : ℝ) : ℂ) = _
        rw [show A (List.get [(⟨0, hl⟩ : Fin states.length)] 0, List.get [(0 : Fin 1)] 0, ⟨0, hNp⟩) (⟨0, hl⟩, 0, 1) = 10 ^ 7 from hA1]
        norm_num
      have r2 : Q ((e'.idx : Int) * 15 - 1) = some 0 := by
        rw [t4 (by omega)]
        show freshPA _ _ _ = _
        unfold freshPA; split <;> rfl
      have hb : bestPA Q e'.idx 0 = (0, 1) := by
        rw [bestPA_zero, r1, r2]
        unfold paDiff
        dsimp only
        rw [if_neg (by norm_num)]
      unfold paConverged
      rw [hb]
      dsimp only
      rw [Nat.cast_zero, Int.add_zero, r1]
      dsimp only
      rw [decide_eq_true_eq]
      right; right; left
      norm_num
    -- so the counter has its final value
    have hlenEl : (elElems c).length = 1 := by rw [numEL_length, hEL]
    have hlenBu : (buElems c).length = 1 := by
      unfold buElems
      rw [if_pos hbk, hnd, hnq, hbs]
      simp
    obtain ⟨a, ha⟩ := List.length_eq_one_iff.1 hlenEl
    obtain ⟨b, hb⟩ := List.length_eq_one_iff.1 hlenBu
    have hea : a = e := by rw [ha] at he; exact (List.mem_singleton.1 he).symm
    have heb : b = e' := by rw [hb] at he'; exact (List.mem_singleton.1 he').symm
    have hcount : (padeLoopN c (padeInit c (List.range states.length) junk) 1).numConv = c.numEL := by
      rw [hL.count, ha, hb, hea, heb, hEL]
      unfold convCount
      rw [List.filter_cons, List.filter_cons, hc, hcb]
      rfl
    have hstop := padeLoopN_stop c (padeInit c (List.range states.length) junk) 1 14 hcount
    rw [show 1 + 14 = 15 from rfl] at hstop
    rw [hstop, ← e1]
    unfold padeU
    rw [(best_junk S junk 1 (by omega)).1 _ hc, q5]
    · rw [hidx]; unfold freshPA; split <;> rfl
    · intro x hx
      rw [ha, hea] at hx
      rw [List.mem_singleton.1 hx, hidx]
      decide
  · rintro ⟨k, hk, hu⟩
    rw [hG] at hu
    cases k with
    | zero =>
      rw [padeApproximant_zero] at hu
      have hu := Option.some.inj hu
      unfold neumannTerm at hu
      rw [pow_zero, Matrix.mul_one] at hu
      have : ((kernelMatrix p states 1 2 (unitPot 2) (unitPot 2) [⟨0, 0, 1 / 2⟩, ⟨0, 1, 5 * 10 ^ 6⟩] (⟨0, hl⟩, 0, ⟨0, hNp⟩) (⟨0, hl⟩, 0, ⟨0, hNp⟩) : ℝ) : ℂ) = 0 := hu
      rw [hA0] at this
      simp at this
    | succ k =>
      rw [pade_constant] at hu
      · cases hu
      · intro n
        exact neumann_zero _ n _ _

/-- C77 is false: in every channel there are arguments (two energies, one deuteron state) for which the second elastic element is
accepted with half the value that every solution of `U = A + A G U` has there. -/
theorem C77_wrong_by_half {p : PWParams} (ht : p.tensor = true) {twoJ3 P : Int} {states : List PWState} (h : IsChannel p twoJ3 P states)
    (hl : 0 < states.length) (hl' : states.length ≤ 2 ^ 20) :
    ∃ (P123 : List (Entry ℝ)) (c : PadeCfg) (deut : List (Fin states.length)) (qidx : List (Fin 2)) (i : Fin deut.length) (q : Fin qidx.length),
      SolverInput p states 2 1 (unitPot 1) (unitPot 1) P123 c deut qidx (List.range states.length) ∧
      ∀ junk, ∃ s u, padeSolve c (List.range states.length) junk = some s ∧ padeU s (elNum c i i q) = some u ∧
        ∀ U : Matrix (Idx states.length 2 1) (Idx states.length 2 1) ℂ,
          U = toC (kernelMatrix p states 2 1 (unitPot 1) (unitPot 1) P123) +
            toC (kernelMatrix p states 2 1 (unitPot 1) (unitPot 1) P123) * Matrix.diagonal (fun x => c.G (q * c.D + flat x)) * U →
          U (deut.get i, qidx.get q, ⟨0, by omega⟩) (deut.get i, qidx.get q, ⟨0, by omega⟩) = 2 * u ∧ u ≠ 0 := by
  obtain ⟨c, hin, hG, hbk, hbs, hnb, hst⟩ := exists_solverInput ht h 2 1 (unitPot 1) (unitPot 1) [⟨1, 1, 1 / 2 * (1 / 10 ^ 8)⟩]
    (by intro e he; simp only [List.mem_cons, List.not_mem_nil, or_false] at he; rcases he with rfl; dsimp only; omega)
    [⟨0, hl⟩] [0, 1] (fun _ => 5 * 10 ^ 7) false (fun _ => 0) 0 (fun _ => (0, 0, 0)) (by intro q _; omega) (by simp)
  have hNp : 0 < 1 := by omega
  have S := hin.setup ht h hNp (by omega) (by omega)
  have hA := kernel_unit ht h 2 1 [⟨1, 1, 1 / 2 * (1 / 10 ^ 8)⟩]
  have hrow : ∀ z : Idx states.length 2 1, kernelMatrix p states 2 1 (unitPot 1) (unitPot 1) [⟨1, 1, 1 / 2 * (1 / 10 ^ 8)⟩] (⟨0, hl⟩, 1, ⟨0, hNp⟩) z =
      if z = (⟨0, hl⟩, 1, ⟨0, hNp⟩) then 1 / 10 ^ 8 else 0 := by
    intro z
    rw [hA, Matrix.smul_apply]
    unfold sparseMatrix
    have hf : flat ((⟨0, hl⟩, 1, ⟨0, hNp⟩) : Idx states.length 2 1) = 1 := by simp [flat]
    by_cases hz : z = (⟨0, hl⟩, 1, ⟨0, hNp⟩)
    · rw [if_pos hz, hz, hf]
      simp
    · rw [if_neg hz, hf]
      have hz' : ¬ 1 = flat z := fun hh => hz (flat_inj (by rw [← hh, hf]))
      simp [hz']
  have hA0 := hrow (⟨0, hl⟩, 1, ⟨0, hNp⟩)
  rw [if_pos rfl] at hA0
  have hnd : c.nd = 1 := by rw [S.nd_eq]; rfl
  have hnq : c.nq = 2 := by rw [S.nq_eq]; rfl
  refine ⟨_, c, [⟨0, hl⟩], [0, 1], 0, 1, hin, fun junk => ?_⟩
  obtain ⟨s, hs, hu⟩ := C77_small_element_not_resummed ht h hNp hin (by omega) (by omega) junk 0 0 1 (by unfold elNum; rw [hnd, hnq]; simp)
    (by show _ < |kernelMatrix p states 2 1 (unitPot 1) (unitPot 1) [⟨1, 1, 1 / 2 * (1 / 10 ^ 8)⟩] (⟨0, hl⟩, 1, ⟨0, hNp⟩) (⟨0, hl⟩, 1, ⟨0, hNp⟩)|
        rw [hA0]; norm_num)
    (by show |kernelMatrix p states 2 1 (unitPot 1) (unitPot 1) [⟨1, 1, 1 / 2 * (1 / 10 ^ 8)⟩] (⟨0, hl⟩, 1, ⟨0, hNp⟩) (⟨0, hl⟩, 1, ⟨0, hNp⟩)| < _
        rw [hA0]; norm_num)
  have hu' : padeU s (elNum c 0 0 1) = some ((kernelMatrix p states 2 1 (unitPot 1) (unitPot 1) [⟨1, 1, 1 / 2 * (1 / 10 ^ 8)⟩] (⟨0, hl⟩, 1, ⟨0, hNp⟩) (⟨0, hl⟩, 1, ⟨0, hNp⟩) : ℝ) : ℂ) := hu
  rw [hA0] at hu'
  refine ⟨s, _, hs, hu', fun U hU => ?_⟩
  have hU0 : U (⟨0, hl⟩, 1, ⟨0, hNp⟩) (⟨0, hl⟩, 1, ⟨0, hNp⟩) = 1 / 10 ^ 8 + 1 / 10 ^ 8 * (5 * 10 ^ 7) * U (⟨0, hl⟩, 1, ⟨0, hNp⟩) (⟨0, hl⟩, 1, ⟨0, hNp⟩) := by
    conv_lhs => rw [hU]
    rw [Matrix.add_apply, Matrix.mul_apply, Finset.sum_eq_single (⟨0, hl⟩, 1, ⟨0, hNp⟩)]
    · rw [Matrix.mul_diagonal, hG]
      unfold toC
      rw [Matrix.map_apply, hA0]
      norm_num
    · intro z _ hz
      rw [Matrix.mul_diagonal]
      unfold toC
      rw [Matrix.map_apply, hrow z, if_neg hz]
      simp
    · intro hh; exact absurd (Finset.mem_univ _) hh
  constructor
  · show U (⟨0, hl⟩, 1, ⟨0, hNp⟩) (⟨0, hl⟩, 1, ⟨0, hNp⟩) = _
    generalize U (⟨0, hl⟩, 1, ⟨0, hNp⟩) (⟨0, hl⟩, 1, ⟨0, hNp⟩) = x at hU0
    push_cast
    have h2 : x = 1 / 10 ^ 8 + x / 2 := by
      rw [show (1 / 10 ^ 8 * (5 * 10 ^ 7) * x : ℂ) = x / 2 by ring] at hU0
      exact hU0
    have h3 : x / 2 = 1 / 10 ^ 8 := by
      have : x - x / 2 = 1 / 10 ^ 8 := by rw [sub_eq_iff_eq_add]; exact h2
      rw [← this]; ring
    rw [← h3]; ring
  · norm_num

-- there are channels for these statements (and for the hypotheses of C44, C47, C77)
example : ∃ (p : PWParams) (twoJ3 P : Int) (states : List PWState) (c : PadeCfg) (deut : List (Fin states.length)) (qidx : List (Fin 2)),
    p.tensor = true ∧ IsChannel p twoJ3 P states ∧ deut ≠ [] ∧ qidx ≠ [] ∧ c.breakup = false ∧
    SolverInput p states 2 3 (unitPot 3) (unitPot 3) [⟨0, 3, 1⟩, ⟨3, 0, 2⟩] c deut qidx (List.range states.length) := by
  obtain ⟨p, J, P, states, ht, h, hl, _⟩ := small_channel
  obtain ⟨c, hc, _, hb, _⟩ := exists_solverInput ht h 2 3 (unitPot 3) (unitPot 3) [⟨0, 3, 1⟩, ⟨3, 0, 2⟩]
    (by intro e he; simp only [List.mem_cons, List.not_mem_nil, or_false] at he; rcases he with rfl | rfl <;> dsimp only <;> omega)
    [⟨0, hl⟩] [0, 1] (fun _ => 1) false (fun _ => 0) 0 (fun _ => (0, 0, 0)) (by intro q _; omega) (by simp)
  exact ⟨p, J, P, states, c, _, _, ht, h, by simp, by simp, hb, hc⟩

end TicTac
end
