import Verif.Props.Repro
import Verif.Props.PadeSolve3
/-! C89: the iterative solver's first elastic element depends on the content of the memory before an array. -/
noncomputable section
namespace TicTac
open Spec
open Classical

section
variable {states : List PWState} {Nq Np : Nat} {c : PadeCfg} {A : Matrix (Idx states.length Nq Np) (Idx states.length Nq Np) ℝ}
  {deut : List (Fin states.length)} {qidx : List (Fin Nq)} {sched : List Nat} {hNp : 0 < Np}

/-- The element with number 0 is judged with the content of the cell before the array as the approximant of order -1. -/
theorem element0 (S : PadeSetup c A deut qidx sched hNp) (junk : PadeJunk) {e : OsElem} (he : e ∈ elElems c) (h0 : e.idx = 0)
    {i : Fin deut.length} {q : Fin qidx.length} {y : Idx states.length Nq Np} (hy : ElemIs c e i q y) (m : Nat) (hm : m ≤ 15) :
    (padeLoopN c (padeInit c sched junk) m).el.pa (-1) = junk.pa (-1) ∧
    ((padeLoopN c (padeInit c sched junk) m).el.conv e.idx = true → ∃ NM < 15,
      paConverged (withFirst (junk.pa (-1)) (exactPA c A deut qidx hNp i q y)) 0 NM = true ∧
      padeU (padeLoopN c (padeInit c sched junk) m) e.idx =
        exactPA c A deut qidx hNp i q y (bestPA (withFirst (junk.pa (-1)) (exactPA c A deut qidx hNp i q y)) 0 NM).1) := by
  induction m with
  | zero =>
    refine ⟨?_, fun h => ?_⟩
    · show freshPA (c.numEL * 15) junk.pa (-1) = _
      unfold freshPA; rw [if_neg (by omega)]
    · change false = true at h; cases h
  | succ m ih =>
    obtain ⟨i1, i2⟩ := ih (by omega)
    rw [padeLoopN_succ]
    obtain ⟨m0, hm0, hL, hor⟩ := padeLoopN_inv S junk m (by omega)
    by_cases hn : (padeLoopN c (padeInit c sched junk) m).numConv = c.numEL
    · rw [if_pos hn]; exact ⟨i1, i2⟩
    rw [if_neg hn]
    obtain rfl := hor.resolve_right hn
    have hL' := LoopInv.step S hL (by omega)
    generalize padeLoopN c (padeInit c sched junk) m0 = s at i1 i2 hL hL' ⊢
    obtain ⟨f1, f2, f3, -⟩ := termsFor_frame c m0 s
    rw [padeBody_eq] at hL' ⊢
    obtain ⟨-, s2, -, -, s5⟩ := paPass_spec m0 (by omega) (elElems c) (el_nodup c) (termsFor c m0 s).el
    have hp := s2 e he
    dsimp only at hL' ⊢
    have hval := hL'.el e he i q y hy
    unfold padeU
    dsimp only at hval ⊢
    generalize (paPass m0 (elElems c) (termsFor c m0 s).el).1 = t' at hp hval s5 ⊢
    refine ⟨?_, fun hc' => ?_⟩
    · rw [s5 (-1) (fun e' _ => by omega), f2, i1]
    by_cases hc : s.el.conv e.idx = true
    · obtain ⟨d1, d2, d3⟩ := hp.done (by rw [f1]; exact hc)
      obtain ⟨NM, g1, g2, g3⟩ := i2 hc
      refine ⟨NM, g1, g2, ?_⟩
      rw [← g3, d2, f3]
      obtain ⟨NM', b1, first, -, b3, -⟩ := (hL.el e he i q y hy).2 hc
      have hb : s.el.best e.idx < 15 := by rw [b3]; have := (bestPA_spec (withFirst first (exactPA c A deut qidx hNp i q y)) 0 NM').1; omega
      rw [d3 _ hb, f2]; rfl
    · have hcf : (termsFor c m0 s).el.conv e.idx = false := by rw [f1]; simpa using hc
      obtain ⟨t1, t2, P, t3, t4, t5, t6, -⟩ := hp.todo hcf
      have hall : ∀ k ≤ m0, t'.pa ((e.idx : Int) * 15 + k) = exactPA c A deut qidx hNp i q y k := by
        intro k hk
        by_cases hkm : k = m0
        · subst hkm; rw [t1]
          have hn := termsFor_inv S hL.neumann (by omega)
          exact padeApproximant_congr 1 fun k hk => hn.el e he hcf i q y hy k (by omega)
        · rw [t2 k (by omega) hkm, f2]
          exact ((hL.el e he i q y hy).1 (by simpa using hc)).2 k (by omega)
      have hP' : P ((e.idx : Int) * 15 - 1) = withFirst (junk.pa (-1)) (exactPA c A deut qidx hNp i q y) (((0 : Nat) : Int) * 15 - 1) := by
        rw [t4 (Or.inr h0), f2, h0]
        unfold withFirst
        rw [if_pos (by omega)]
        exact i1
      have hP : ∀ k : Nat, k ≤ m0 → P ((e.idx : Int) * 15 + k) = withFirst (junk.pa (-1)) (exactPA c A deut qidx hNp i q y) (((0 : Nat) : Int) * 15 + k) := by
        intro k hk
        rw [t3 k (by omega), hall k hk]
        unfold withFirst
        rw [if_neg (by omega)]
        congr 1
        omega
      refine ⟨m0, by omega, ?_, ?_⟩
      · rw [← paConverged_congr hP hP', ← t5]; exact hc'
      · rw [t6 hc', ← bestPA_congr hP hP']
        exact hall _ (bestPA_spec P e.idx m0).1

end

theorem bestPA_succ (P : Int → Option ℂ) (NM : Nat) : bestPA P 0 (NM + 1) =
    match paDiff (P (NM + 1 : Nat)) (P NM) (bestPA P 0 NM).2 with | some d => (NM + 1, d) | none => bestPA P 0 NM := by
  unfold bestPA
  rw [List.range_succ, List.foldl_append, List.foldl_cons, List.foldl_nil]
  simp only [Nat.cast_zero, zero_mul, zero_add]
  have : ((NM + 1 : Nat) : Int) - 1 = (NM : Int) := by omega
  rw [this]
  rfl

/-- The approximants of a geometric series of ratio 1/3. -/
theorem pade_third {a : Nat → ℂ} (h : ∀ n, a n = (1 / 3) ^ n) : padeApproximant a 0 0 1 = some 1 ∧ padeApproximant a 1 1 1 = some (3 / 2) ∧
    ∀ k, padeApproximant a (k + 2) (k + 2) 1 = none := by
  refine ⟨?_, ?_, fun k => ?_⟩
  · rw [padeApproximant_zero, h]; norm_num
  · unfold padeApproximant
    have hQ : (padeQ a 1 1 1).det = 1 / 3 - 1 / 9 := by
      rw [Matrix.det_fin_two]
      simp [padeQ, h]
      norm_num
    have hP : (padeP a 1 1 1).det = 1 / 3 := by
      rw [Matrix.det_fin_two]
      simp [padeP, h, List.range']
      norm_num
    rw [hQ, hP, if_neg (by norm_num)]
    norm_num
  · unfold padeApproximant
    rw [if_pos]
    have hsm : (padeQ a (k + 2) (k + 2) 1).det = (Matrix.updateRow (padeQ a (k + 2) (k + 2) 1) ⟨1, by omega⟩
        ((1 / 3 : ℂ) • (padeQ a (k + 2) (k + 2) 1) ⟨0, by omega⟩)).det := by
      congr 1
      ext r c
      by_cases hr : r = ⟨1, by omega⟩
      · subst hr
        rw [Matrix.updateRow_self, Pi.smul_apply, smul_eq_mul]
        unfold padeQ
        rw [if_pos (show 1 < k + 2 by omega), if_pos (show 0 < k + 2 by omega), h, h,
          show k + 2 + 1 + 1 + (c : Nat) - (k + 2) = (k + 2 + 1 + 0 + c - (k + 2)) + 1 by omega, pow_succ, mul_comm]
      · rw [Matrix.updateRow_ne hr]
    rw [hsm, Matrix.det_updateRow_smul]
    rw [Matrix.det_zero_of_row_eq (i := ⟨1, by omega⟩) (j := ⟨0, by omega⟩) (by simp)]
    · simp
    · rw [Matrix.updateRow_self, Matrix.updateRow_ne (by simp)]

theorem third_accept {P : Nat → Option ℂ} (h0 : P 0 = some 1) (h1 : P 1 = some (3 / 2)) (h2 : ∀ k, P (k + 2) = none) :
    (∀ NM, paConverged (withFirst none P) 0 NM = true → P (bestPA (withFirst none P) 0 NM).1 = some (3 / 2)) ∧
    ∀ NM, P (bestPA (withFirst (some (1 + 5 / 10 ^ 8)) P) 0 NM).1 = some 1 := by
  have w : ∀ f (k : Nat), withFirst f P k = P k := by
    intro f k; unfold withFirst; rw [if_neg (by omega)]; rfl
  have wm : ∀ f, withFirst f P (-1) = f := fun f => by unfold withFirst; rw [if_pos (by omega)]
  have b0 : ∀ f, bestPA (withFirst f P) 0 0 = match paDiff (some 1) f 1 with | some d => (0, d) | none => (0, 1) := by
    intro f
    rw [bestPA_zero]
    have e1 : withFirst f P (((0 : Nat) : Int) * 15) = some 1 := by rw [← h0]; exact w f 0
    have e2 : withFirst f P (((0 : Nat) : Int) * 15 - 1) = f := wm f
    rw [e1, e2]
    cases paDiff (some 1) f 1 <;> rfl
  constructor
  · intro NM hc
    have hb0 : bestPA (withFirst none P) 0 0 = (0, 1) := by rw [b0]; rfl
    have hb : ∀ NM, bestPA (withFirst none P) 0 (NM + 1) = (1, 1 / 2) := by
      intro NM
      induction NM with
      | zero =>
        rw [bestPA_succ, w, w, h0, h1, hb0]
        have : ‖(3 / 2 : ℂ) - 1‖ = 1 / 2 := by norm_num
        unfold paDiff
        dsimp only
        rw [this, if_pos (by norm_num)]
      | succ NM ih =>
        rw [bestPA_succ, w, h2, ih]
        rfl
    cases NM with
    | zero =>
      exfalso
      unfold paConverged at hc
      rw [hb0] at hc
      dsimp only at hc
      rw [decide_eq_true_eq] at hc
      have e1 : withFirst none P (((0 : Nat) : Int) * 15 + (0 : Nat)) = some 1 := by rw [← h0]; exact w none 0
      rw [e1] at hc
      rcases hc with hc | hc | hc | hc
      · omega
      · omega
      · norm_num at hc
      · norm_num at hc
    | succ NM => rw [hb]; exact h1
  · have hb : ∀ NM, bestPA (withFirst (some (1 + 5 / 10 ^ 8)) P) 0 NM = (0, 5 / 10 ^ 8) := by
      intro NM
      induction NM with
      | zero =>
        rw [b0]
        have : ‖(1 : ℂ) - (1 + 5 / 10 ^ 8)‖ = 5 / 10 ^ 8 := by
          rw [show (1 : ℂ) - (1 + 5 / 10 ^ 8) = ((-(5 / 10 ^ 8) : ℝ) : ℂ) by push_cast; ring, Complex.norm_real]
          norm_num
        unfold paDiff
        dsimp only
        rw [this, if_pos (by norm_num)]
      | succ NM ih =>
        rw [bestPA_succ, w, w, ih]
        have hd : paDiff (P (NM + 1)) (P NM) (5 / 10 ^ 8) = none := by
          unfold paDiff
          cases NM with
          | zero =>
            rw [h0, h1]
            dsimp only
            have : ‖(3 / 2 : ℂ) - 1‖ = 1 / 2 := by norm_num
            rw [this, if_neg (by norm_num)]
          | succ NM => rw [h2]
        dsimp only
        rw [hd]
    intro NM
    rw [hb]; exact h0

/-- **C89 is false for the iterative solver.** In every channel there are arguments (one energy, one deuteron state, no breakup), for which
the equation has the solution 3/2 in the on-shell element, and two contents of the memory before the array of approximants, such that the
program returns 3/2 with one and 1 with the other. -/
theorem C89_memory_dependent {p : PWParams} (ht : p.tensor = true) {twoJ3 P : Int} {states : List PWState} (h : IsChannel p twoJ3 P states)
    (hl : 0 < states.length) (hl' : states.length ≤ 2 ^ 20) :
    ∃ (P123 : List (Entry ℝ)) (c : PadeCfg) (deut : List (Fin states.length)) (qidx : List (Fin 1)) (i : Fin deut.length) (q : Fin qidx.length),
      SolverInput p states 1 1 (unitPot 1) (unitPot 1) P123 c deut qidx (List.range states.length) ∧ c.breakup = false ∧
      ∃ junk junk' s s', padeSolve c (List.range states.length) junk = some s ∧ padeSolve c (List.range states.length) junk' = some s' ∧
        padeU s (elNum c i i q) = some (3 / 2) ∧ padeU s' (elNum c i i q) = some 1 ∧
        ∀ U : Matrix (Idx states.length 1 1) (Idx states.length 1 1) ℂ,
          U = toC (kernelMatrix p states 1 1 (unitPot 1) (unitPot 1) P123) +
            toC (kernelMatrix p states 1 1 (unitPot 1) (unitPot 1) P123) * Matrix.diagonal (fun x => c.G (q * c.D + flat x)) * U →
          U (deut.get i, qidx.get q, ⟨0, by omega⟩) (deut.get i, qidx.get q, ⟨0, by omega⟩) = 3 / 2 := by
  obtain ⟨c, hin, hG, hbk, hbs, hnb, hst⟩ := exists_solverInput ht h 1 1 (unitPot 1) (unitPot 1) [⟨0, 0, 1 / 2⟩]
    (by intro e he; simp only [List.mem_cons, List.not_mem_nil, or_false] at he; rcases he with rfl; dsimp only; omega)
    [⟨0, hl⟩] [0] (fun _ => 1 / 3) false (fun _ => 0) 0 (fun _ => (0, 0, 0)) (by intro q _; omega) (by simp)
  have hNp : 0 < 1 := by omega
  have S := hin.setup ht h hNp (by omega) (by omega)
  have hA := kernel_unit ht h 1 1 [⟨0, 0, 1 / 2⟩]
  have hrow : ∀ z : Idx states.length 1 1, kernelMatrix p states 1 1 (unitPot 1) (unitPot 1) [⟨0, 0, 1 / 2⟩] (⟨0, hl⟩, 0, ⟨0, hNp⟩) z =
      if z = (⟨0, hl⟩, 0, ⟨0, hNp⟩) then 1 else 0 := by
    intro z
    rw [hA, Matrix.smul_apply]
    unfold sparseMatrix
    have hf : flat ((⟨0, hl⟩, 0, ⟨0, hNp⟩) : Idx states.length 1 1) = 0 := by simp [flat]
    by_cases hz : z = (⟨0, hl⟩, 0, ⟨0, hNp⟩)
    · rw [if_pos hz, hz, hf]
      simp
    · rw [if_neg hz, hf]
      have hz' : ¬ 0 = flat z := fun hh => hz (flat_inj (by rw [← hh, hf]))
      simp [hz']
  generalize hAk : kernelMatrix p states 1 1 (unitPot 1) (unitPot 1) [⟨0, 0, 1 / 2⟩] = A at S hrow
  have hrow' : ∀ (M : Matrix (Idx states.length 1 1) (Idx states.length 1 1) ℂ) w, (toC A * M) (⟨0, hl⟩, 0, ⟨0, hNp⟩) w = M (⟨0, hl⟩, 0, ⟨0, hNp⟩) w := by
    intro M w
    rw [Matrix.mul_apply, Finset.sum_eq_single (⟨0, hl⟩, 0, ⟨0, hNp⟩)]
    · unfold toC
      rw [Matrix.map_apply, hrow, if_pos rfl]; simp
    · intro z _ hz
      unfold toC
      rw [Matrix.map_apply, hrow, if_neg hz]; simp
    · intro hh; exact absurd (Finset.mem_univ _) hh
  have hterm : ∀ n, exactTerm c A [⟨0, hl⟩] [0] hNp 0 0 (⟨0, hl⟩, 0, ⟨0, hNp⟩) n = (1 / 3) ^ n := by
    intro n
    unfold exactTerm neumannTerm
    show (toC A * (Matrix.diagonal (gAt c states.length 1 1 0) * toC A) ^ n) (⟨0, hl⟩, 0, ⟨0, hNp⟩) (⟨0, hl⟩, 0, ⟨0, hNp⟩) = _
    rw [hrow']
    induction n with
    | zero => simp
    | succ n ih =>
      rw [pow_succ', Matrix.mul_assoc, Matrix.diagonal_mul, hrow', ih]
      unfold gAt
      rw [hG]
      ring
  obtain ⟨p0, p1, p2⟩ := pade_third hterm
  obtain ⟨t1, t2⟩ := third_accept (P := exactPA c A [⟨0, hl⟩] [0] hNp 0 0 (⟨0, hl⟩, 0, ⟨0, hNp⟩)) p0 p1 p2
  obtain ⟨e, he, e1, e2⟩ := el_mem S 0 0 0
  have hidx : e.idx = 0 := by rw [e1]; unfold elNum; simp
  have val : ∀ junk, ∃ NM, paConverged (withFirst (junk.pa (-1)) (exactPA c A [⟨0, hl⟩] [0] hNp 0 0 (⟨0, hl⟩, 0, ⟨0, hNp⟩))) 0 NM = true ∧
      padeU (padeLoopN c (padeInit c (List.range states.length) junk) 15) (elNum c 0 0 0) =
        exactPA c A [⟨0, hl⟩] [0] hNp 0 0 (⟨0, hl⟩, 0, ⟨0, hNp⟩)
          (bestPA (withFirst (junk.pa (-1)) (exactPA c A [⟨0, hl⟩] [0] hNp 0 0 (⟨0, hl⟩, 0, ⟨0, hNp⟩))) 0 NM).1 := by
    intro junk
    obtain ⟨NM, -, g2, g3⟩ := (element0 S junk he hidx e2 15 le_rfl).2 (elastic_all_converged S hbk (padeSolve_eq S junk) e he)
    exact ⟨NM, g2, by rw [e1] at g3; exact g3⟩
  refine ⟨_, c, [⟨0, hl⟩], [0], 0, 0, hin, hbk, ⟨fun _ => none, fun _ => none, fun _ => 0, fun _ => 0⟩,
    ⟨fun _ => some (1 + 5 / 10 ^ 8), fun _ => none, fun _ => 0, fun _ => 0⟩, _, _, padeSolve_eq S _, padeSolve_eq S _, ?_, ?_, ?_⟩
  · obtain ⟨NM, g2, g3⟩ := val ⟨fun _ => none, fun _ => none, fun _ => 0, fun _ => 0⟩
    exact g3.trans (t1 NM g2)
  · obtain ⟨NM, g2, g3⟩ := val ⟨fun _ => some (1 + 5 / 10 ^ 8), fun _ => none, fun _ => 0, fun _ => 0⟩
    exact g3.trans (t2 NM)
  · intro U hU
    rw [hAk, Matrix.mul_assoc] at hU
    have h1 : U (⟨0, hl⟩, 0, ⟨0, hNp⟩) (⟨0, hl⟩, 0, ⟨0, hNp⟩) = 1 + 1 / 3 * U (⟨0, hl⟩, 0, ⟨0, hNp⟩) (⟨0, hl⟩, 0, ⟨0, hNp⟩) := by
      conv_lhs => rw [hU]
      rw [Matrix.add_apply, hrow', Matrix.diagonal_mul, hG]
      congr 1
      unfold toC
      rw [Matrix.map_apply, hrow, if_pos rfl]; simp
    show U (⟨0, hl⟩, 0, ⟨0, hNp⟩) (⟨0, hl⟩, 0, ⟨0, hNp⟩) = 3 / 2
    linear_combination (3 / 2) * h1

end TicTac
end
