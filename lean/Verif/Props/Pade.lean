import Verif.Model.Pade
import Verif.Spec.Pade
import Mathlib.LinearAlgebra.Matrix.Adjugate
import Mathlib.LinearAlgebra.Matrix.ToLinearEquiv
import Mathlib.RingTheory.PowerSeries.Trunc
import Mathlib.LinearAlgebra.Matrix.Block
import Mathlib.LinearAlgebra.Matrix.NonsingularInverse
import Mathlib.Algebra.Polynomial.Eval.Coeff
import Mathlib.Algebra.Polynomial.BigOperators
import Mathlib.Tactic.Linarith
/-! Padé approximants: C46, C76. -/
noncomputable section
namespace TicTac
open Spec Polynomial

theorem det_swaps {N : Nat} (ipiv : Fin N → Fin N) (l : List (Fin N)) (A : Matrix (Fin N) (Fin N) ℂ) :
    (l.foldl (fun M i => M.submatrix (Equiv.swap i (ipiv i)) id) A).det = (l.map fun i => if ipiv i ≠ i then (-1 : ℂ) else 1).prod * A.det := by
  induction l generalizing A with
  | nil => simp
  | cons i l ih =>
    rw [List.foldl_cons, ih, Matrix.det_permute, List.map_cons, List.prod_cons]
    by_cases h : ipiv i = i
    · rw [h, Equiv.swap_self]; simp
    · rw [Equiv.Perm.sign_swap (Ne.symm h), if_pos h]; push_cast; ring

theorem detRoutine_eq {N : Nat} (LU : Matrix (Fin N) (Fin N) ℂ) (ipiv : Fin N → Fin N) (l : List (Fin N)) (s : ℂ) :
    l.foldl (fun p i => if ipiv i ≠ i then p * -(LU i i) else p * LU i i) s =
      s * ((l.map fun i => if ipiv i ≠ i then (-1 : ℂ) else 1).prod * (l.map fun i => LU i i).prod) := by
  induction l generalizing s with
  | nil => simp
  | cons i l ih =>
    rw [List.foldl_cons, ih, List.map_cons, List.prod_cons, List.map_cons, List.prod_cons]
    by_cases h : ipiv i = i
    · rw [if_neg (by simpa using h), if_neg (by simpa using h)]; ring
    · rw [if_pos h, if_pos h]; ring

theorem signs_sq {N : Nat} (ipiv : Fin N → Fin N) (l : List (Fin N)) :
    (l.map fun i => if ipiv i ≠ i then (-1 : ℂ) else 1).prod * (l.map fun i => if ipiv i ≠ i then (-1 : ℂ) else 1).prod = 1 := by
  induction l with
  | nil => simp
  | cons i l ih =>
    rw [List.map_cons, List.prod_cons]
    calc _ = ((if ipiv i ≠ i then (-1 : ℂ) else 1) * (if ipiv i ≠ i then (-1 : ℂ) else 1)) *
        ((l.map fun i => if ipiv i ≠ i then (-1 : ℂ) else 1).prod * (l.map fun i => if ipiv i ≠ i then (-1 : ℂ) else 1).prod) := by ring
      _ = 1 := by rw [ih]; split <;> simp

/-- **C76.** For every matrix and every pivoting order, the value `determinant` computes from the LU factors is the determinant. -/
theorem C76_determinant {N : Nat} (A LU : Matrix (Fin N) (Fin N) ℂ) (ipiv : Fin N → Fin N) (h : Getrf A LU ipiv) :
    detRoutine LU ipiv = A.det := by
  unfold detRoutine
  rw [detRoutine_eq, one_mul]
  have h1 : (applySwaps ipiv A).det = ((List.finRange N).map fun i => LU i i).prod := by
    rw [h, Matrix.det_mul, Matrix.det_of_lowerTriangular, Matrix.det_of_upperTriangular]
    · have e1 : ∏ i, lowerOf LU i i = 1 := by simp [lowerOf]
      have e2 : ∀ i, upperOf LU i i = LU i i := by simp [upperOf]
      rw [e1, one_mul, Finset.prod_congr rfl (fun i _ => e2 i), ← List.prod_ofFn, List.ofFn_eq_map]
    · intro i j hij
      simp only [id] at hij
      unfold upperOf; rw [if_neg (by omega)]
    · intro i j hij
      have : i < j := by simpa using hij
      unfold lowerOf; rw [if_neg (by omega), if_neg (by omega)]
  unfold applySwaps at h1
  rw [det_swaps] at h1
  rw [← h1, ← mul_assoc, signs_sq, one_mul]

-- a matrix that needs a row interchange
example : Getrf !![0, 2; 3, 4] !![3, 4; 0, 2] ![1, 1] ∧ detRoutine !![3, 4; 0, 2] ![1, 1] = -6 := by
  constructor
  · unfold Getrf applySwaps
    ext i j
    rw [Matrix.mul_apply, Fin.sum_univ_two]
    unfold lowerOf upperOf
    fin_cases i <;> fin_cases j <;> simp [List.finRange_succ, Equiv.swap_apply_def]
  · simp [detRoutine, List.finRange_succ]; norm_num

/-- Coefficients of the denominator, highest first. -/
def padeVec (q : ℂ[X]) (M : Nat) : Fin (M + 1) → ℂ := fun c => q.coeff (M - c)

/-- `q · Σ aₙ zⁿ` agrees with `p` up to order `n`. -/
def AgreesTo (a : Nat → ℂ) (p q : ℂ[X]) (n : Nat) : Prop :=
  ∀ k ≤ n, PowerSeries.coeff k ((q : PowerSeries ℂ) * PowerSeries.mk a) = p.coeff k

theorem agree_of_taylor {a : Nat → ℂ} {p q : ℂ[X]} (h : IsTaylorOf a p q) (n : Nat) : AgreesTo a p q n := by
  intro k _
  rw [show (q : PowerSeries ℂ) * PowerSeries.mk a = (p : PowerSeries ℂ) from h, Polynomial.coeff_coe]

theorem taylor_coeff {a : Nat → ℂ} {p q : ℂ[X]} {m : Nat} (h : AgreesTo a p q m) (n : Nat) (hn : n ≤ m) :
    p.coeff n = ∑ k ∈ Finset.range (n + 1), q.coeff k * a (n - k) := by
  have := h n hn
  rw [PowerSeries.coeff_mul, Finset.Nat.sum_antidiagonal_eq_sum_range_succ_mk] at this
  simp only [Polynomial.coeff_coe, PowerSeries.coeff_mk] at this
  exact this.symm

theorem foldl_range' (f : Nat → ℂ) (s n : Nat) (x : ℂ) : (List.range' s n).foldl (fun t j => t + f j) x = x + ∑ i ∈ Finset.range n, f (s + i) := by
  induction n generalizing s x with
  | zero => simp
  | succ n ih => rw [List.range'_succ, List.foldl_cons, ih, Finset.sum_range_succ']; simp only [Nat.add_zero, Nat.add_assoc, Nat.add_comm 1]; ring

theorem hankel_row {a : Nat → ℂ} {p q : ℂ[X]} {N M : Nat} (h : AgreesTo a p q (N + M)) (hMN : M ≤ N + 1) (hq : q.natDegree ≤ M) (r : Nat) (hr : r < M) :
    ∑ c : Fin (M + 1), a (N + 1 + r + c - M) * padeVec q M c = p.coeff (N + 1 + r) := by
  rw [taylor_coeff h _ (by omega)]
  have e : ∑ k ∈ Finset.range (N + 1 + r + 1), q.coeff k * a (N + 1 + r - k) = ∑ k ∈ Finset.range (M + 1), q.coeff k * a (N + 1 + r - k) := by
    symm
    apply Finset.sum_subset
    · intro k; simp only [Finset.mem_range]; omega
    · intro k _ hk
      rw [Polynomial.coeff_eq_zero_of_natDegree_lt (by simp only [Finset.mem_range] at hk; omega), zero_mul]
  rw [e, ← Finset.sum_range_reflect, Finset.sum_range]
  refine Finset.sum_congr rfl fun c _ => ?_
  unfold padeVec
  rw [mul_comm]
  have := c.2
  congr 2 <;> omega

theorem padeQ_mulVec {a : Nat → ℂ} {p q : ℂ[X]} {N M : Nat} (h : AgreesTo a p q (N + M)) (hMN : M ≤ N + 1) (hp : p.natDegree ≤ N) (hq : q.natDegree ≤ M) (z : ℂ) :
    (padeQ a N M z).mulVec (padeVec q M) = Pi.single (Fin.last M) (q.eval z) := by
  funext r
  unfold Matrix.mulVec dotProduct padeQ
  by_cases hr : (r : Nat) < M
  · simp only [if_pos hr]
    rw [hankel_row h hMN hq _ hr, Polynomial.coeff_eq_zero_of_natDegree_lt (by omega), Pi.single_eq_of_ne]
    intro hh; rw [hh] at hr; simp at hr
  · simp only [if_neg hr]
    have : r = Fin.last M := by apply Fin.ext; have := r.2; simp; omega
    rw [this, Pi.single_eq_same, Polynomial.eval_eq_sum_range' (show q.natDegree < M + 1 by omega), ← Finset.sum_range_reflect, Finset.sum_range]
    refine Finset.sum_congr rfl fun c _ => ?_
    unfold padeVec
    have := c.2
    rw [mul_comm]
    congr 2 <;> omega

theorem padeP_mulVec {a : Nat → ℂ} {p q : ℂ[X]} {N M : Nat} (h : AgreesTo a p q (N + M)) (hMN : M ≤ N + 1) (hp : p.natDegree ≤ N) (hq : q.natDegree ≤ M) (z : ℂ) :
    (padeP a N M z).mulVec (padeVec q M) = Pi.single (Fin.last M) (p.eval z) := by
  funext r
  unfold Matrix.mulVec dotProduct padeP
  by_cases hr : (r : Nat) < M
  · simp only [if_pos hr]
    rw [hankel_row h hMN hq _ hr, Polynomial.coeff_eq_zero_of_natDegree_lt (by omega), Pi.single_eq_of_ne]
    intro hh; rw [hh] at hr; simp at hr
  · simp only [if_neg hr]
    have : r = Fin.last M := by apply Fin.ext; have := r.2; simp; omega
    rw [this, Pi.single_eq_same, Polynomial.eval_eq_sum_range' (show p.natDegree < N + 1 by omega)]
    have e1 : ∀ j ∈ Finset.range (N + 1), p.coeff j * z ^ j = (∑ k ∈ Finset.range (M + 1), if k ≤ j then q.coeff k * a (j - k) else 0) * z ^ j := by
      intro j hj
      have hj := Finset.mem_range.1 hj
      have g1 : ∑ k ∈ Finset.range (M + 1), (if k ≤ j then q.coeff k * a (j - k) else 0) =
          ∑ k ∈ Finset.range (M + 1 + (j + 1)), if k ≤ j then q.coeff k * a (j - k) else 0 := by
        apply Finset.sum_subset
        · intro k; simp only [Finset.mem_range]; omega
        · intro k _ hk
          rw [Polynomial.coeff_eq_zero_of_natDegree_lt (by simp only [Finset.mem_range] at hk; omega), zero_mul, ite_self]
      have g2 : ∑ k ∈ Finset.range (j + 1), q.coeff k * a (j - k) = ∑ k ∈ Finset.range (M + 1 + (j + 1)), if k ≤ j then q.coeff k * a (j - k) else 0 := by
        rw [← Finset.sum_filter]
        apply Finset.sum_congr _ (fun _ _ => rfl)
        ext k; simp only [Finset.mem_range, Finset.mem_filter]; omega
      rw [taylor_coeff h j (by omega), g2, g1]
    have e2 : ∀ k, k < M + 1 → (∑ i ∈ Finset.range (N + 1 - k), a (k + i - k) * z ^ (k + i)) * q.coeff k =
        ∑ j ∈ Finset.range (N + 1), (if k ≤ j then q.coeff k * a (j - k) else 0) * z ^ j := by
      intro k hk
      obtain ⟨m, hm⟩ : ∃ m, N + 1 = k + m := ⟨N + 1 - k, by omega⟩
      rw [hm, Finset.sum_range_add, show k + m - k = m by omega, Finset.sum_eq_zero (s := Finset.range k), zero_add, Finset.sum_mul]
      · refine Finset.sum_congr rfl fun i _ => ?_
        rw [if_pos (by omega)]; ring
      · intro j hj
        rw [if_neg (by simp only [Finset.mem_range] at hj; omega), zero_mul]
    rw [Finset.sum_congr rfl e1]
    simp only [Finset.sum_mul]
    rw [Finset.sum_comm, ← Finset.sum_range_reflect, Finset.sum_range]
    refine Finset.sum_congr rfl fun c _ => ?_
    have hc := c.2
    rw [foldl_range' (fun j => a (j - (M - c)) * z ^ j), zero_add]
    have e3 := e2 (M - c) (by omega)
    unfold padeVec
    rw [e3]
    have : M + 1 - 1 - (c : Nat) = M - c := by omega
    rw [this]

theorem adj_last (a : Nat → ℂ) (N M : Nat) (z : ℂ) (i : Fin (M + 1)) :
    (padeP a N M z).adjugate i (Fin.last M) = (padeQ a N M z).adjugate i (Fin.last M) := by
  rw [Matrix.adjugate_apply, Matrix.adjugate_apply]
  congr 1
  ext r c
  by_cases hr : r = Fin.last M
  · rw [hr, Matrix.updateRow_self, Matrix.updateRow_self]
  · rw [Matrix.updateRow_ne hr, Matrix.updateRow_ne hr]
    have : (r : Nat) < M := by
      have := r.2
      have : (r : Nat) ≠ M := fun hh => hr (Fin.ext hh)
      omega
    unfold padeP padeQ
    rw [if_pos this, if_pos this]

theorem det_smul_vec {n : Nat} (A : Matrix (Fin (n + 1)) (Fin (n + 1)) ℂ) (v : Fin (n + 1) → ℂ) (x : ℂ) (h : A.mulVec v = Pi.single (Fin.last n) x) (i : Fin (n + 1)) :
    A.det * v i = A.adjugate i (Fin.last n) * x := by
  have h1 : A.adjugate.mulVec (A.mulVec v) i = A.det * v i := by
    rw [Matrix.mulVec_mulVec, Matrix.adjugate_mul, Matrix.smul_mulVec, Matrix.one_mulVec, Pi.smul_apply, smul_eq_mul]
  rw [← h1, h, Matrix.mulVec_single]
  simp

theorem padeVec_ne {q : ℂ[X]} {M : Nat} (hq : q.natDegree ≤ M) (hq0 : q ≠ 0) : ∃ i, padeVec q M i ≠ 0 := by
  refine ⟨⟨M - q.natDegree, by omega⟩, ?_⟩
  unfold padeVec
  show q.coeff (M - (M - q.natDegree)) ≠ 0
  rw [show M - (M - q.natDegree) = q.natDegree by omega]
  simpa using hq0

/-- The key identity: `det P · q(z) = det Q · p(z)`. -/
theorem pade_cross {a : Nat → ℂ} {p q : ℂ[X]} {N M : Nat} (h : AgreesTo a p q (N + M)) (hMN : M ≤ N + 1) (hp : p.natDegree ≤ N) (hq : q.natDegree ≤ M) (z : ℂ)
    (hq0 : q ≠ 0) : (padeP a N M z).det * q.eval z = (padeQ a N M z).det * p.eval z := by
  have h1 := det_smul_vec _ _ _ (padeP_mulVec h hMN hp hq z)
  have h2 := det_smul_vec _ _ _ (padeQ_mulVec h hMN hp hq z)
  have hi := padeVec_ne hq hq0
  obtain ⟨i, hi⟩ := hi
  have e1 := h1 i
  have e2 := h2 i
  rw [adj_last] at e1
  apply mul_right_cancel₀ hi
  calc (padeP a N M z).det * q.eval z * padeVec q M i = ((padeP a N M z).det * padeVec q M i) * q.eval z := by ring
    _ = ((padeQ a N M z).det * padeVec q M i) * p.eval z := by rw [e1, e2]; ring
    _ = _ := by ring

/-- **C46.** The approximant of a rational series is the value of the rational function, for all orders large enough, whenever the
determinant in the denominator and the denominator of the function do not vanish. -/
theorem C46_exact_on_rational {a : Nat → ℂ} {p q : ℂ[X]} (h : IsTaylorOf a p q) {N M : Nat} (hMN : M ≤ N + 1) (hp : p.natDegree ≤ N)
    (hq : q.natDegree ≤ M) (z : ℂ) (hz : q.eval z ≠ 0) (hdet : (padeQ a N M z).det ≠ 0) :
    padeApproximant a N M z = some (p.eval z / q.eval z) := by
  unfold padeApproximant
  rw [if_neg hdet]
  congr 1
  rw [div_eq_div_iff hdet hz, pade_cross (agree_of_taylor h _) hMN hp hq z (by rintro rfl; simp at hz)]
  ring

/-- C46, where the determinant does vanish: when the series is already rational of one order less, in numerator and denominator, the
quotient is 0/0 and the program gets no number. -/
theorem C46_breakdown {a : Nat → ℂ} {p q : ℂ[X]} (h : IsTaylorOf a p q) {N M : Nat} (hMN : M ≤ N + 1) (hp : p.natDegree + 1 ≤ N)
    (hq : q.natDegree + 1 ≤ M) (z : ℂ) (hq0 : q ≠ 0) : padeApproximant a N M z = none ∧ (padeP a N M z).det = 0 := by
  have hT : IsTaylorOf a ((X - C z) * p) ((X - C z) * q) := by
    unfold IsTaylorOf at h ⊢
    rw [Polynomial.coe_mul, Polynomial.coe_mul, mul_assoc, h]
  have hX : (X - C z : ℂ[X]) ≠ 0 := Polynomial.X_sub_C_ne_zero z
  have hdp : ((X - C z) * p).natDegree ≤ N := (Polynomial.natDegree_mul_le).trans (by rw [Polynomial.natDegree_X_sub_C]; omega)
  have hdq : ((X - C z) * q).natDegree ≤ M := (Polynomial.natDegree_mul_le).trans (by rw [Polynomial.natDegree_X_sub_C]; omega)
  have h1 := det_smul_vec _ _ _ (padeQ_mulVec (agree_of_taylor hT _) hMN hdp hdq z)
  have h2 := det_smul_vec _ _ _ (padeP_mulVec (agree_of_taylor hT _) hMN hdp hdq z)
  simp only [Polynomial.eval_mul, Polynomial.eval_sub, Polynomial.eval_X, Polynomial.eval_C, sub_self, zero_mul, mul_zero] at h1 h2
  have hi := padeVec_ne hdq (mul_ne_zero hX hq0)
  obtain ⟨i, hi⟩ := hi
  have hQ : (padeQ a N M z).det = 0 := (mul_eq_zero.1 (h1 i)).resolve_right hi
  refine ⟨?_, (mul_eq_zero.1 (h2 i)).resolve_right hi⟩
  unfold padeApproximant
  rw [if_pos hQ]

/-- The polynomial with the coefficients `v`, highest first. -/
def vecPoly {M : Nat} (v : Fin (M + 1) → ℂ) : ℂ[X] := ∑ c : Fin (M + 1), Polynomial.monomial (M - c) (v c)

theorem vecPoly_coeff {M : Nat} (v : Fin (M + 1) → ℂ) (c : Fin (M + 1)) : (vecPoly v).coeff (M - c) = v c := by
  unfold vecPoly
  rw [Polynomial.finset_sum_coeff, Finset.sum_eq_single c]
  · rw [Polynomial.coeff_monomial, if_pos rfl]
  · intro b _ hb
    rw [Polynomial.coeff_monomial, if_neg]
    intro h
    apply hb; apply Fin.ext
    have := b.2; have := c.2
    omega
  · intro h; exact absurd (Finset.mem_univ _) h

theorem vecPoly_natDegree {M : Nat} (v : Fin (M + 1) → ℂ) : (vecPoly v).natDegree ≤ M := by
  unfold vecPoly
  refine Polynomial.natDegree_sum_le_of_forall_le _ _ fun c _ => ?_
  exact (Polynomial.natDegree_monomial_le _).trans (Nat.sub_le _ _)

theorem padeVec_vecPoly {M : Nat} (v : Fin (M + 1) → ℂ) : padeVec (vecPoly v) M = v := by
  funext c; exact vecPoly_coeff v c

/-- The coefficients of `q · Σ aₙ zⁿ` in the orders above `N` are the Hankel rows of the two arrays. -/
theorem hankel_coeff (a : Nat → ℂ) {N M : Nat} (hMN : M ≤ N + 1) {q : ℂ[X]} (hq : q.natDegree ≤ M) (r : Nat) :
    PowerSeries.coeff (N + 1 + r) ((q : PowerSeries ℂ) * PowerSeries.mk a) =
      ∑ c : Fin (M + 1), a (N + 1 + r + c - M) * padeVec q M c := by
  rw [PowerSeries.coeff_mul, Finset.Nat.sum_antidiagonal_eq_sum_range_succ_mk]
  simp only [Polynomial.coeff_coe, PowerSeries.coeff_mk]
  have e : ∑ k ∈ Finset.range (N + 1 + r).succ, q.coeff k * a (N + 1 + r - k) = ∑ k ∈ Finset.range (M + 1), q.coeff k * a (N + 1 + r - k) := by
    symm
    apply Finset.sum_subset
    · intro k; simp only [Finset.mem_range]; omega
    · intro k _ hk
      rw [Polynomial.coeff_eq_zero_of_natDegree_lt (by simp only [Finset.mem_range] at hk; omega), zero_mul]
  rw [e, ← Finset.sum_range_reflect, Finset.sum_range]
  refine Finset.sum_congr rfl fun c _ => ?_
  unfold padeVec
  rw [mul_comm]
  have := c.2
  congr 2 <;> omega

/-- A vector annihilated by the Hankel rows is the denominator of a Padé pair. -/
theorem pade_of_vec (a : Nat → ℂ) {N M : Nat} (hMN : M ≤ N + 1) (z : ℂ) (v : Fin (M + 1) → ℂ) (hv : v ≠ 0)
    (hrow : ∀ r : Fin (M + 1), (r : Nat) < M → (padeQ a N M z).mulVec v r = 0) :
    ∃ p q : ℂ[X], IsPade a N M p q ∧ padeVec q M = v := by
  set q := vecPoly v with hqdef
  have hq : q.natDegree ≤ M := vecPoly_natDegree v
  have hqv : padeVec q M = v := padeVec_vecPoly v
  refine ⟨PowerSeries.trunc (N + 1) ((q : PowerSeries ℂ) * PowerSeries.mk a), q, ⟨?_, hq, ?_, fun k hk => ?_⟩, hqv⟩
  · have := PowerSeries.natDegree_trunc_lt ((q : PowerSeries ℂ) * PowerSeries.mk a) N
    omega
  · intro h0
    apply hv
    rw [← hqv, h0]
    funext c; simp [padeVec]
  · rw [PowerSeries.coeff_trunc]
    by_cases hkN : k < N + 1
    · rw [if_pos hkN]
    · rw [if_neg hkN]
      obtain ⟨r, rfl⟩ : ∃ r, k = N + 1 + r := ⟨k - (N + 1), by omega⟩
      rw [hankel_coeff a hMN hq, hqv]
      have := hrow ⟨r, by omega⟩ (show r < M by omega)
      unfold Matrix.mulVec dotProduct padeQ at this
      simp only [if_pos (show r < M by omega)] at this
      exact this

/-- **C46, the value is a Padé approximant.** For every series and every evaluation point: whatever the routine returns is
`p(z)/q(z)` for some `[N/M]` Padé pair of the series, with `q(z) ≠ 0`. -/
theorem C46_is_pade {a : Nat → ℂ} {N M : Nat} (hMN : M ≤ N + 1) {z u : ℂ} (h : padeApproximant a N M z = some u) :
    ∃ p q : ℂ[X], IsPade a N M p q ∧ q.eval z ≠ 0 ∧ u = p.eval z / q.eval z := by
  unfold padeApproximant at h
  by_cases hdet : (padeQ a N M z).det = 0
  · rw [if_pos hdet] at h; exact absurd h (by simp)
  rw [if_neg hdet, Option.some.injEq] at h
  set v : Fin (M + 1) → ℂ := fun c => (padeQ a N M z).adjugate c (Fin.last M) with hvdef
  have hmul : ∀ (A : Matrix (Fin (M + 1)) (Fin (M + 1)) ℂ) (r : Fin (M + 1)),
      A.mulVec (fun c => A.adjugate c (Fin.last M)) r = if r = Fin.last M then A.det else 0 := by
    intro A r
    have := congrFun (congrFun (Matrix.mul_adjugate A) r) (Fin.last M)
    rw [Matrix.mul_apply] at this
    unfold Matrix.mulVec dotProduct
    rw [this, Matrix.smul_apply, Matrix.one_apply, smul_eq_mul]
    split <;> simp
  have hQ : ∀ r, (padeQ a N M z).mulVec v r = if r = Fin.last M then (padeQ a N M z).det else 0 := fun r => hmul _ r
  have hP : ∀ r, (padeP a N M z).mulVec v r = if r = Fin.last M then (padeP a N M z).det else 0 := by
    intro r
    rw [← hmul (padeP a N M z) r]
    congr 1
    funext c
    rw [adj_last]
  have hv : v ≠ 0 := by
    intro h0
    apply hdet
    have := hQ (Fin.last M)
    rw [h0, Matrix.mulVec_zero, if_pos rfl] at this
    exact this.symm
  obtain ⟨p, q, hpade, hqv⟩ := pade_of_vec a hMN z v hv (fun r hr => by
    rw [hQ r, if_neg]
    rintro rfl
    simp at hr)
  obtain ⟨hp, hq, hq0, hag⟩ := hpade
  have e1 := congrFun (padeQ_mulVec (a := a) (p := p) (q := q) hag hMN hp hq z) (Fin.last M)
  have e2 := congrFun (padeP_mulVec (a := a) (p := p) (q := q) hag hMN hp hq z) (Fin.last M)
  rw [hqv, hQ, if_pos rfl, Pi.single_eq_same] at e1
  rw [hqv, hP, if_pos rfl, Pi.single_eq_same] at e2
  refine ⟨p, q, ⟨hp, hq, hq0, hag⟩, ?_, ?_⟩
  · rw [← e1]; exact hdet
  · rw [← e1, ← e2]; exact h.symm

/-- **C46, which pair does not matter.** Every `[N/M]` Padé pair whose denominator does not vanish at `z` gives the value
returned. -/
theorem C46_every_pade {a : Nat → ℂ} {N M : Nat} (hMN : M ≤ N + 1) {z u : ℂ} (h : padeApproximant a N M z = some u)
    {p q : ℂ[X]} (hpq : IsPade a N M p q) : q.eval z ≠ 0 ∧ u = p.eval z / q.eval z := by
  obtain ⟨hp, hq, hq0, hag⟩ := hpq
  unfold padeApproximant at h
  by_cases hdet : (padeQ a N M z).det = 0
  · rw [if_pos hdet] at h; exact absurd h (by simp)
  rw [if_neg hdet, Option.some.injEq] at h
  have hz : q.eval z ≠ 0 := by
    intro hz
    obtain ⟨i, hi⟩ := padeVec_ne hq hq0
    have := det_smul_vec _ _ _ (padeQ_mulVec (a := a) (p := p) (q := q) hag hMN hp hq z) i
    rw [hz, mul_zero] at this
    exact (mul_ne_zero hdet hi) this
  refine ⟨hz, ?_⟩
  rw [← h, div_eq_div_iff hdet hz, pade_cross hag hMN hp hq z hq0]
  ring

/-- **C46, exactly when there is no value.** The routine produces no number if and only if some `[N/M]` Padé pair of the
series has a denominator vanishing at the evaluation point. -/
theorem C46_no_value_iff {a : Nat → ℂ} {N M : Nat} (hMN : M ≤ N + 1) {z : ℂ} :
    padeApproximant a N M z = none ↔ ∃ p q : ℂ[X], IsPade a N M p q ∧ q.eval z = 0 := by
  constructor
  · intro h
    have hdet : (padeQ a N M z).det = 0 := by
      by_contra hd
      unfold padeApproximant at h
      rw [if_neg hd] at h
      exact absurd h (by simp)
    obtain ⟨v, hv, hz⟩ := Matrix.exists_mulVec_eq_zero_iff.2 hdet
    obtain ⟨p, q, hpade, hqv⟩ := pade_of_vec a hMN z v hv (fun r _ => by rw [hz]; rfl)
    refine ⟨p, q, hpade, ?_⟩
    obtain ⟨hp, hq, hq0, hag⟩ := hpade
    have e1 := congrFun (padeQ_mulVec (a := a) (p := p) (q := q) hag hMN hp hq z) (Fin.last M)
    rw [hqv, hz, Pi.single_eq_same] at e1
    exact e1.symm
  · rintro ⟨p, q, hpq, hz⟩
    cases h : padeApproximant a N M z with
    | none => rfl
    | some u => exact absurd hz (C46_every_pade hMN h hpq).1

-- 1/(2-z) = Σ 2^-(n+1) zⁿ: [1/1] at z = 1 gives 1, and [2/2] breaks down
theorem geometric_taylor : IsTaylorOf (fun n => (1 / 2 : ℂ) ^ (n + 1)) 1 (C 2 - X) := by
  unfold IsTaylorOf
  ext n
  rw [Polynomial.coe_sub, sub_mul, map_sub]
  cases n with
  | zero => simp
  | succ n => simp [PowerSeries.coeff_one, pow_succ]; ring

example : padeApproximant (fun n => (1 / 2 : ℂ) ^ (n + 1)) 1 1 1 = some 1 := by
  rw [C46_exact_on_rational geometric_taylor (by omega) (by simp) (by compute_degree) 1 (by norm_num)]
  · norm_num
  · rw [Matrix.det_fin_two]; simp [padeQ]; norm_num

end TicTac
end
