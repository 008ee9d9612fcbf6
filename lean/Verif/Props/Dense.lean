import Verif.Model.Dense
import Verif.Props.PadeSolve3
import Mathlib.LinearAlgebra.Matrix.Polynomial
import Mathlib.LinearAlgebra.Matrix.NonsingularInverse
import Mathlib.Tactic.LinearCombination
/-! The direct solver and its relation to the iterative one: C48, C78. -/
noncomputable section
namespace TicTac
open Spec
open Classical

/-! ### linear algebra of the LAPACK contracts -/

theorem applySwaps_mul {N : Nat} (ipiv : Fin N → Fin N) (A B : Matrix (Fin N) (Fin N) ℂ) : applySwaps ipiv (A * B) = applySwaps ipiv A * B := by
  unfold applySwaps
  have : ∀ (l : List (Fin N)) (A : Matrix (Fin N) (Fin N) ℂ), l.foldl (fun M i => M.submatrix (Equiv.swap i (ipiv i)) id) (A * B) =
      l.foldl (fun M i => M.submatrix (Equiv.swap i (ipiv i)) id) A * B := by
    intro l
    induction l with
    | nil => intro A; rfl
    | cons i l ih =>
      intro A
      rw [List.foldl_cons, List.foldl_cons, ← ih]
      congr 1
  exact this _ _

theorem applySwaps_inj {N : Nat} (ipiv : Fin N → Fin N) {A B : Matrix (Fin N) (Fin N) ℂ} (h : applySwaps ipiv A = applySwaps ipiv B) : A = B := by
  unfold applySwaps at h
  have : ∀ (l : List (Fin N)) (A B : Matrix (Fin N) (Fin N) ℂ), l.foldl (fun M i => M.submatrix (Equiv.swap i (ipiv i)) id) A =
      l.foldl (fun M i => M.submatrix (Equiv.swap i (ipiv i)) id) B → A = B := by
    intro l
    induction l with
    | nil => intro A B h; exact h
    | cons i l ih =>
      intro A B h
      rw [List.foldl_cons, List.foldl_cons] at h
      have h1 := ih _ _ h
      ext r c
      have h2 := congrFun (congrFun h1 (Equiv.swap i (ipiv i) r)) c
      simpa using h2
  exact this _ _ _ h

/-- `solve_MM` solves `A X = B` for every non-singular `A`, whatever pivots are chosen. -/
theorem C48_solve_MM {N : Nat} (A B X : Matrix (Fin N) (Fin N) ℂ) (h : SolveMM A B X) (hA : A.det ≠ 0) : A * X = B := by
  obtain ⟨LU, ipiv, h1, h2⟩ := h
  have hdet : detRoutine LU ipiv = A.det := C76_determinant A LU ipiv h1
  have hd : ∀ i, LU i i ≠ 0 := by
    intro i hi
    apply hA
    rw [← hdet, detRoutine, detRoutine_eq]
    have : ((List.finRange N).map fun i => LU i i).prod = 0 := List.prod_eq_zero (List.mem_map.2 ⟨i, List.mem_finRange i, hi⟩)
    simp [this]
  have h3 := h2 hd
  rw [← h1, ← applySwaps_mul] at h3
  exact applySwaps_inj ipiv h3

/-- The contract is satisfiable: with the identity as pivots, for the matrix `1`. -/
example (B : Matrix (Fin 2) (Fin 2) ℂ) : SolveMM 1 B B := by
  have hs : ∀ A : Matrix (Fin 2) (Fin 2) ℂ, applySwaps id A = A := by
    intro A; simp [applySwaps, List.finRange_succ]
  have hl : lowerOf (1 : Matrix (Fin 2) (Fin 2) ℂ) = 1 := by ext i j; fin_cases i <;> fin_cases j <;> simp [lowerOf]
  have hu : upperOf (1 : Matrix (Fin 2) (Fin 2) ℂ) = 1 := by ext i j; fin_cases i <;> fin_cases j <;> simp [upperOf]
  refine ⟨1, id, ?_, fun _ => ?_⟩
  · unfold Getrf; rw [hs, hl, hu, Matrix.mul_one]
  · rw [hs, hl, hu, Matrix.mul_one, Matrix.one_mul]

/-! ### the contracts can always be met -/

theorem applySwaps_succ {N : Nat} (r : Fin (N + 1)) (ip : Fin N → Fin N) (A : Matrix (Fin (N + 1)) (Fin (N + 1)) ℂ) :
    applySwaps (Fin.cons r (fun i => (ip i).succ)) A =
      fun i j => Fin.cases ((A.submatrix (Equiv.swap 0 r) id) 0 j)
        (fun i => ((List.finRange N).foldl (fun (M : Matrix (Fin N) (Fin (N + 1)) ℂ) i => M.submatrix (Equiv.swap i (ip i)) id)
          ((A.submatrix (Equiv.swap 0 r) id).submatrix Fin.succ id)) i j) i := by
  unfold applySwaps
  rw [List.finRange_succ, List.foldl_cons, Fin.cons_zero, List.foldl_map]
  generalize A.submatrix (Equiv.swap 0 r) id = B
  have : ∀ (l : List (Fin N)) (B : Matrix (Fin (N + 1)) (Fin (N + 1)) ℂ),
      l.foldl (fun M i => M.submatrix (Equiv.swap i.succ ((Fin.cons r (fun i => (ip i).succ) : Fin (N + 1) → Fin (N + 1)) i.succ)) id) B =
      fun i j => Fin.cases (B 0 j) (fun i => (l.foldl (fun (M : Matrix (Fin N) (Fin (N + 1)) ℂ) i => M.submatrix (Equiv.swap i (ip i)) id) (B.submatrix Fin.succ id)) i j) i := by
    intro l
    induction l with
    | nil =>
      intro B
      ext i j
      cases i using Fin.cases <;> rfl
    | cons k l ih =>
      intro B
      rw [List.foldl_cons, ih]
      have e0 : Equiv.swap k.succ ((Fin.cons r (fun i => (ip i).succ) : Fin (N + 1) → Fin (N + 1)) k.succ) 0 = 0 := by
        rw [Fin.cons_succ]
        exact Equiv.swap_apply_of_ne_of_ne (Fin.succ_ne_zero _).symm (Fin.succ_ne_zero _).symm
      have e1 : (B.submatrix (Equiv.swap k.succ ((Fin.cons r (fun i => (ip i).succ) : Fin (N + 1) → Fin (N + 1)) k.succ)) id).submatrix Fin.succ id =
          (B.submatrix Fin.succ id).submatrix (Equiv.swap k (ip k)) id := by
        ext i j
        simp only [Matrix.submatrix_apply, Fin.cons_succ, id_eq]
        congr 1
        rw [Equiv.swap_apply_def, Equiv.swap_apply_def]
        simp only [Fin.succ_inj]
        split
        · rfl
        · split <;> rfl
      ext i j
      cases i using Fin.cases with
      | zero => simp only [Fin.cases_zero]; rw [Matrix.submatrix_apply, e0]; rfl
      | succ i => simp only [Fin.cases_succ]; rw [e1, List.foldl_cons]
  exact this _ _

/-- Row interchanges are one permutation of the rows. -/
theorem swaps_perm {N : Nat} (ip : Fin N → Fin N) (l : List (Fin N)) : ∃ σ : Equiv.Perm (Fin N), ∀ {κ : Type} (M : Matrix (Fin N) κ ℂ),
    l.foldl (fun (M : Matrix (Fin N) κ ℂ) i => M.submatrix (Equiv.swap i (ip i)) id) M = M.submatrix σ id := by
  induction l with
  | nil => exact ⟨1, fun M => rfl⟩
  | cons k l ih =>
    obtain ⟨σ, h⟩ := ih
    refine ⟨σ.trans (Equiv.swap k (ip k)), fun M => ?_⟩
    rw [List.foldl_cons, h]
    rfl

/-- Every square matrix has factors with row interchanges as `zgetrf` is required to deliver. -/
theorem exists_getrf : ∀ (N : Nat) (A : Matrix (Fin N) (Fin N) ℂ), ∃ LU ipiv, Getrf A LU ipiv := by
  intro N
  induction N with
  | zero => intro A; exact ⟨A, id, by unfold Getrf; ext i; exact i.elim0⟩
  | succ N ih =>
    intro A
    obtain ⟨r, hr⟩ : ∃ r, A r 0 = 0 → ∀ i, A i 0 = 0 := by
      by_cases h : ∃ r, A r 0 ≠ 0
      · obtain ⟨r, h⟩ := h; exact ⟨r, fun h' => absurd h' h⟩
      · refine ⟨0, fun _ i => ?_⟩
        by_contra hi; exact h ⟨i, hi⟩
    let B := A.submatrix (Equiv.swap 0 r) id
    have hB0 : B 0 0 = A r 0 := by show A (Equiv.swap 0 r 0) 0 = _; rw [Equiv.swap_apply_left]
    have hB : B 0 0 = 0 → ∀ i, B i 0 = 0 := fun h i => hr (hB0 ▸ h) _
    -- multipliers and the remaining block
    let m : Fin N → ℂ := fun i => B i.succ 0 / B 0 0
    have hm : ∀ i, m i * B 0 0 = B i.succ 0 := by
      intro i
      by_cases h0 : B 0 0 = 0
      · rw [h0, mul_zero, hB h0]
      · exact div_mul_cancel₀ _ h0
    let S : Matrix (Fin N) (Fin N) ℂ := fun i j => B i.succ j.succ - m i * B 0 j.succ
    obtain ⟨LU, ip, hS⟩ := ih S
    obtain ⟨σ, hσ⟩ := swaps_perm ip (List.finRange N)
    refine ⟨fun i j => Fin.cases (B 0 j) (fun i => Fin.cases (m (σ i)) (fun j => LU i j) j) i, Fin.cons r (fun i => (ip i).succ), ?_⟩
    unfold Getrf
    rw [applySwaps_succ, hσ]
    unfold Getrf applySwaps at hS
    rw [hσ] at hS
    ext i j
    rw [Matrix.mul_apply, Fin.sum_univ_succ]
    cases i using Fin.cases with
    | zero =>
      simp only [Fin.cases_zero, lowerOf, upperOf, if_true, one_mul, Fin.zero_le]
      rw [Finset.sum_eq_zero, add_zero]
      intro k _
      rw [if_neg (Fin.succ_ne_zero k).symm, if_neg (by simp), zero_mul]
    | succ i =>
      simp only [Fin.cases_succ]
      cases j using Fin.cases with
      | zero =>
        rw [Finset.sum_eq_zero]
        · simp only [lowerOf, upperOf, Fin.succ_ne_zero, if_false, Fin.succ_pos, if_true, Fin.cases_succ, Fin.cases_zero, le_refl, add_zero]
          exact (hm (σ i)).symm
        · intro k _
          simp [upperOf]
      | succ j =>
        have h1 := congrFun (congrFun hS i) j
        rw [Matrix.mul_apply] at h1
        have h2 : ∀ k : Fin N, lowerOf (fun i j => Fin.cases (B 0 j) (fun i => Fin.cases (m (σ i)) (fun j => LU i j) j) i) i.succ k.succ *
            upperOf (fun i j => Fin.cases (B 0 j) (fun i => Fin.cases (m (σ i)) (fun j => LU i j) j) i) k.succ j.succ = lowerOf LU i k * upperOf LU k j := by
          intro k
          simp [lowerOf, upperOf]
        rw [Finset.sum_congr rfl fun k _ => h2 k, ← h1]
        simp only [lowerOf, upperOf, Fin.succ_ne_zero, if_false, Fin.succ_pos, if_true, Fin.cases_succ, Fin.cases_zero, Fin.zero_le]
        show B (σ i).succ j.succ = m (σ i) * B 0 j.succ + (B (σ i).succ j.succ - m (σ i) * B 0 j.succ)
        ring

/-- The contracts of the two routines allow a result for every non-singular matrix. -/
theorem exists_solveMM {N : Nat} (A B : Matrix (Fin N) (Fin N) ℂ) (hA : A.det ≠ 0) : ∃ X, SolveMM A B X := by
  obtain ⟨LU, ip, h⟩ := exists_getrf N A
  refine ⟨A⁻¹ * B, LU, ip, h, fun _ => ?_⟩
  unfold Getrf at h
  rw [← h, ← applySwaps_mul, ← Matrix.mul_assoc, Matrix.mul_nonsing_inv _ (Ne.isUnit hA), Matrix.one_mul]

/-! ### the arrays of the direct solver -/

/-- Writing whole columns: each cell `(r, col)` gets the value of the (unique) column with that number. -/
theorem columns_fold {D : Nat} {α : Type} (val : α → Nat → ℂ) (num : α → Nat) (post : α → (Nat → ℂ) → (Nat → ℂ)) (fin : α → Nat → ℂ)
    (hpost : ∀ a (f : Nat → ℂ) r, r < D → num a < D → (∀ r < D, f (r * D + num a) = val a r) → post a f (r * D + num a) = fin a r)
    (hother : ∀ a (f : Nat → ℂ) r k, k < D → num a < D → k ≠ num a → post a f (r * D + k) = f (r * D + k))
    (l : List α) (hl : ∀ a ∈ l, num a < D) (hnd : (l.map num).Nodup) (init : Nat → ℂ) :
    (∀ a ∈ l, ∀ r < D, l.foldl (fun L a => post a (writeAll L ((List.range D).map fun r => (r * D + num a, val a r)))) init (r * D + num a) = fin a r) := by
  induction l using List.reverseRecOn with
  | nil => simp
  | append_singleton l b ih =>
    rw [List.map_append, List.nodup_append] at hnd
    obtain ⟨h1, _, h3⟩ := hnd
    intro a ha r hr
    rw [List.foldl_append, List.foldl_cons, List.foldl_nil]
    have hb := hl b (by simp)
    generalize hg : l.foldl (fun L a => post a (writeAll L ((List.range D).map fun r => (r * D + num a, val a r)))) init = g
    have hw : ∀ r < D, writeAll g ((List.range D).map fun r => (r * D + num b, val b r)) (r * D + num b) = val b r := by
      intro r hr
      apply writeAll_eq
      · exact List.mem_map.2 ⟨r, List.mem_range.2 hr, rfl⟩
      · intro w hw he
        obtain ⟨r', hr', rfl⟩ := List.mem_map.1 hw
        dsimp only at he ⊢
        obtain ⟨e1, _⟩ := radix_inj hb hb he
        rw [e1]
    rcases List.mem_append.1 ha with ha | ha
    · have hab : num a ≠ num b := h3 _ (List.mem_map_of_mem ha) _ (by simp)
      have haD := hl a (List.mem_append_left _ ha)
      rw [hother b _ r (num a) haD hb hab]
      have : writeAll g ((List.range D).map fun r => (r * D + num b, val b r)) (r * D + num a) = g (r * D + num a) := by
        apply writeAll_frame
        intro w hw he
        obtain ⟨r', hr', rfl⟩ := List.mem_map.1 hw
        dsimp only at he
        exact hab (radix_inj hb haD he).2.symm
      rw [this, ← hg]
      exact ih (fun x hx => hl x (List.mem_append_left _ hx)) h1 a ha r hr
    · rw [List.mem_singleton.1 ha]
      exact hpost b _ r hr hb hw

section
variable {p : PWParams} {twoJ3 P : Int} {states : List PWState} {Nq Np : Nat} {V C : Bool → Int → ℝ} {P123 : List (Entry ℝ)} {c : PadeCfg}
  {deut : List (Fin states.length)} {qidx : List (Fin Nq)} {sched : List Nat}

theorem mem_denseColumns (c : PadeCfg) (k : Nat × Nat × Nat × Nat) : k ∈ denseColumns c ↔ ∃ q < c.Nq, ∃ a < c.Nalpha, ∃ p < c.Np, k = (a * c.Np * c.Nq + q * c.Np + p, a, p, q) := by
  unfold denseColumns
  simp only [List.mem_flatMap, List.mem_map, List.mem_range]
  constructor
  · rintro ⟨q, h1, a, h2, p, h3, rfl⟩; exact ⟨q, h1, a, h2, p, h3, rfl⟩
  · rintro ⟨q, h1, a, h2, p, h3, rfl⟩; exact ⟨q, h1, a, h2, p, h3, rfl⟩

theorem denseCol_inj (c : PadeCfg) {a q p a' q' p' : Nat} (hq : q < c.Nq) (hp : p < c.Np) (hq' : q' < c.Nq) (hp' : p' < c.Np)
    (h : a * c.Np * c.Nq + q * c.Np + p = a' * c.Np * c.Nq + q' * c.Np + p') : a = a' ∧ q = q' ∧ p = p' := by
  have e : ∀ a q p : Nat, a * c.Np * c.Nq + q * c.Np + p = (a * c.Nq + q) * c.Np + p := fun a q p => by ring
  rw [e, e] at h
  obtain ⟨h1, rfl⟩ := radix_inj hp hp' h
  obtain ⟨rfl, rfl⟩ := radix_inj hq hq' h1
  exact ⟨rfl, rfl, rfl⟩

theorem denseColumns_nodup (c : PadeCfg) : ((denseColumns c).map (·.1)).Nodup := by
  unfold denseColumns
  rw [List.map_flatMap]
  apply flatMap_nodup List.nodup_range
  · intro q hq
    rw [List.map_flatMap]
    apply flatMap_nodup List.nodup_range
    · intro a ha
      rw [List.map_map]
      apply List.Nodup.map_on _ List.nodup_range
      intro p _ p' _ h
      simp only [Function.comp_apply] at h
      omega
    · intro a ha a' ha' x hx hx'
      simp only [List.map_map, List.mem_map, List.mem_range, Function.comp_apply] at hx hx' hq
      obtain ⟨p, hp, rfl⟩ := hx
      obtain ⟨p', hp', h⟩ := hx'
      exact (denseCol_inj c hq hp' hq hp h).1.symm
  · intro q hq q' hq' x hx hx'
    simp only [List.map_flatMap, List.mem_flatMap, List.map_map, List.mem_map, List.mem_range, Function.comp_apply] at hx hx' hq hq'
    obtain ⟨a, ha, p, hp, rfl⟩ := hx
    obtain ⟨a', ha', p', hp', h⟩ := hx'
    exact (denseCol_inj c hq' hp' hq hp h).2.1.symm

theorem dense_entries {A : Matrix (Idx states.length Nq Np) (Idx states.length Nq Np) ℝ} {hNp : 0 < Np} (S : PadeSetup c A deut qidx sched hNp) (j : Nat)
    (x y : Idx states.length Nq Np) :
    denseL c j (flat x * c.D + flat y) = ((1 - toC A * Matrix.diagonal (fun z => c.G (j * c.D + flat z)) : Matrix (Idx states.length Nq Np) (Idx states.length Nq Np) ℂ)) x y ∧
    denseR c (flat x * c.D + flat y) = toC A x y := by
  have hn := S.hn
  have hq := S.hq
  have hp := S.hp
  have hD : c.D = states.length * Nq * Np := by unfold PadeCfg.D; rw [hn, hq, hp]
  have hcolD : ∀ k ∈ denseColumns c, k.1 < c.D := by
    intro k hk
    obtain ⟨q, h1, a, h2, p, h3, rfl⟩ := (mem_denseColumns c k).1 hk
    unfold PadeCfg.D
    dsimp only
    have := radix_lt (radix_lt h2 h1) h3
    calc a * c.Np * c.Nq + q * c.Np + p = (a * c.Nq + q) * c.Np + p := by ring
      _ < _ := this
  have hmem : (flat y, y.1.val, y.2.2.val, y.2.1.val) ∈ denseColumns c := by
    rw [mem_denseColumns]
    refine ⟨y.2.1, by rw [hq]; exact y.2.1.2, y.1, by rw [hn]; exact y.1.2, y.2.2, by rw [hp]; exact y.2.2.2, ?_⟩
    unfold flat
    rw [hq, hp]
    congr 1
    ring
  have hval : denseColumn c (flat y, y.1.val, y.2.2.val, y.2.1.val) (flat x) = A x y := by
    unfold denseColumn
    dsimp only
    have := S.kernel x y
    rw [← this, hn, hq, hp]
  have hxD : flat x < c.D := by rw [hD]; exact flat_lt x
  constructor
  · unfold denseL
    have := columns_fold (D := c.D) (α := Nat × Nat × Nat × Nat) (fun k r => -(denseColumn c k r : ℂ) * c.G (j * c.D + k.1)) (·.1)
      (fun k L => Function.update L (k.1 * c.D + k.1) (L (k.1 * c.D + k.1) + 1))
      (fun k r => -(denseColumn c k r : ℂ) * c.G (j * c.D + k.1) + if r = k.1 then 1 else 0)
      (by
        intro a f r hr ha hf
        by_cases hra : r = a.1
        · rw [if_pos hra, hra, Function.update_self, hf _ ha]
        · rw [if_neg hra, Function.update_of_ne, hf r hr, add_zero]
          intro hh
          exact hra (radix_inj ha ha hh).1)
      (by
        intro a f r k hk ha hne
        rw [Function.update_of_ne]
        intro hh
        exact hne (radix_inj hk ha hh).2)
      (denseColumns c) hcolD (denseColumns_nodup c) (fun _ => 0) _ hmem (flat x) hxD
    refine this.trans ?_
    dsimp only
    rw [hval, Matrix.sub_apply, Matrix.mul_diagonal, Matrix.one_apply]
    have e1 : (flat x = flat y) ↔ x = y := ⟨fun h => flat_inj h, fun h => by rw [h]⟩
    have e2 : toC A x y = ((A x y : ℝ) : ℂ) := rfl
    rw [e2]
    by_cases hxy : x = y
    · rw [if_pos (e1.2 hxy), if_pos hxy]; ring
    · rw [if_neg (fun h => hxy (e1.1 h)), if_neg hxy]; ring
  · unfold denseR
    have := columns_fold (D := c.D) (α := Nat × Nat × Nat × Nat) (fun k r => (denseColumn c k r : ℂ)) (·.1) (fun _ L => L) (fun k r => (denseColumn c k r : ℂ))
      (by intro a f r hr _ hf; exact hf r hr) (by intro a f r k _ _ _; rfl)
      (denseColumns c) hcolD (denseColumns_nodup c) (fun _ => 0) _ hmem (flat x) hxD
    refine this.trans ?_
    rw [hval]; rfl

/-- Basis vectors and positions in the program's vectors. -/
def flatEquiv (n Nq Np : Nat) : Idx n Nq Np ≃ Fin (n * Nq * Np) :=
  Equiv.ofBijective (fun x => ⟨flat x, flat_lt x⟩) ((Fintype.bijective_iff_injective_and_card _).2
    ⟨fun x y h => flat_inj (by simpa using h), by simp [Nat.mul_assoc]⟩)

/-- C48, direct solver: whenever `1 - A G` is non-singular at an energy, the equation `U = A + A G U` has exactly one solution there and
the result array holds its on-shell elements, whatever pivots LAPACK chooses. -/
theorem C48_dense (ht : p.tensor = true) (h : IsChannel p twoJ3 P states) (hNp : 0 < Np) (hin : SolverInput p states Nq Np V C P123 c deut qidx sched)
    (hD : 0 < states.length * Nq * Np) (hD' : states.length * Nq * Np ≤ 2 ^ 28) (U : Nat → ℂ) (hU : DenseSolve c U) (q : Fin qidx.length)
    (hdet : (1 - toC (kernelMatrix p states Nq Np V C P123) * Matrix.diagonal (fun x => c.G (q * c.D + flat x))).det ≠ 0) :
    ∃ X : Matrix (Idx states.length Nq Np) (Idx states.length Nq Np) ℂ,
      (∀ Y, Y = toC (kernelMatrix p states Nq Np V C P123) + toC (kernelMatrix p states Nq Np V C P123) * Matrix.diagonal (fun x => c.G (q * c.D + flat x)) * Y ↔ Y = X) ∧
      ∀ i j : Fin deut.length, U (elNum c i j q) = X (deut.get i, qidx.get q, ⟨0, hNp⟩) (deut.get j, qidx.get q, ⟨0, hNp⟩) := by
  have S := hin.setup ht h hNp hD hD'
  generalize kernelMatrix p states Nq Np V C P123 = A at S hdet ⊢
  have hent := dense_entries S q
  have hcD : c.D = states.length * Nq * Np := by unfold PadeCfg.D; rw [S.hn, S.hq, S.hp]
  have hnd := S.nd_eq
  have hnq := S.nq_eq
  obtain ⟨Xf, h1, h2⟩ := hU q (by have := q.2; omega)
  generalize hK : toC A * Matrix.diagonal (fun x => c.G (q * c.D + flat x)) = K at hdet hent ⊢
  rw [hcD] at h1
  have hL : matOf (states.length * Nq * Np) (denseL c q) = (1 - K).submatrix (flatEquiv _ _ _).symm (flatEquiv _ _ _).symm := by
    ext i j
    obtain ⟨x, rfl⟩ := (flatEquiv states.length Nq Np).surjective i
    obtain ⟨y, rfl⟩ := (flatEquiv states.length Nq Np).surjective j
    rw [Matrix.submatrix_apply, Equiv.symm_apply_apply, Equiv.symm_apply_apply, ← (hent x y).1, hcD]
    rfl
  have hR : matOf (states.length * Nq * Np) (denseR c) = (toC A).submatrix (flatEquiv _ _ _).symm (flatEquiv _ _ _).symm := by
    ext i j
    obtain ⟨x, rfl⟩ := (flatEquiv states.length Nq Np).surjective i
    obtain ⟨y, rfl⟩ := (flatEquiv states.length Nq Np).surjective j
    rw [Matrix.submatrix_apply, Equiv.symm_apply_apply, Equiv.symm_apply_apply, ← (hent x y).2, hcD]
    rfl
  have hsol := C48_solve_MM _ _ _ h1 (by rw [hL, Matrix.det_submatrix_equiv_self]; exact hdet)
  rw [hL, hR] at hsol
  have hX : (1 - K) * (matOf (states.length * Nq * Np) Xf).submatrix (flatEquiv _ _ _) (flatEquiv _ _ _) = toC A := by
    have := congrArg (fun M => M.submatrix (flatEquiv states.length Nq Np) (flatEquiv states.length Nq Np)) hsol
    rw [← Matrix.submatrix_mul_equiv _ _ _ (flatEquiv states.length Nq Np)] at this
    simpa using this
  refine ⟨(matOf (states.length * Nq * Np) Xf).submatrix (flatEquiv _ _ _) (flatEquiv _ _ _), ?_, ?_⟩
  · intro Y
    have hiff : Y = toC A + K * Y ↔ (1 - K) * Y = toC A := by
      rw [Matrix.sub_mul, Matrix.one_mul, sub_eq_iff_eq_add]
    rw [hiff]
    constructor
    · intro hY
      have := congrArg (fun M => (1 - K)⁻¹ * M) (hY.trans hX.symm)
      rwa [← Matrix.mul_assoc, ← Matrix.mul_assoc, Matrix.nonsing_inv_mul _ (Ne.isUnit hdet), Matrix.one_mul, Matrix.one_mul] at this
    · rintro rfl; exact hX
  · intro i j
    have := h2 i (by have := i.2; omega) j (by have := j.2; omega)
    unfold elNum
    rw [this, Matrix.submatrix_apply]
    have e : ∀ d : Fin deut.length, c.deut.getD d 0 * c.Nq * c.Np + c.qidx.getD q 0 * c.Np + 0 = flat ((deut.get d, qidx.get q, ⟨0, hNp⟩) : Idx states.length Nq Np) := by
      intro d
      unfold flat
      dsimp only
      rw [S.deut_eq, S.qidx_eq, S.hq, S.hp]
      simp [List.getD]
    rw [e, e, hcD]
    rfl

/-- The hypotheses of `C48_dense` can be met: results of the direct solver exist whenever no energy has a singular `1 - A G`. -/
theorem C48_dense_exists (ht : p.tensor = true) (h : IsChannel p twoJ3 P states) (hNp : 0 < Np) (hin : SolverInput p states Nq Np V C P123 c deut qidx sched)
    (hD : 0 < states.length * Nq * Np) (hD' : states.length * Nq * Np ≤ 2 ^ 28)
    (hdet : ∀ q < qidx.length, (1 - toC (kernelMatrix p states Nq Np V C P123) * Matrix.diagonal (fun x => c.G (q * c.D + flat x))).det ≠ 0) : ∃ U, DenseSolve c U := by
  have S := hin.setup ht h hNp hD hD'
  generalize kernelMatrix p states Nq Np V C P123 = A at S hdet
  have hcD : c.D = states.length * Nq * Np := by unfold PadeCfg.D; rw [S.hn, S.hq, S.hp]
  have hnq := S.nq_eq
  have hX : ∀ j < c.nq, ∃ X : Nat → ℂ, SolveMM (matOf c.D (denseL c j)) (matOf c.D (denseR c)) (matOf c.D X) := by
    intro j hj
    have hent := dense_entries S j
    have hL : (matOf c.D (denseL c j)).det ≠ 0 := by
      have := hdet j (by omega)
      generalize toC A * Matrix.diagonal (fun x => c.G (j * c.D + flat x)) = K at this hent
      rw [hcD]
      have hL : matOf (states.length * Nq * Np) (denseL c j) = (1 - K).submatrix (flatEquiv _ _ _).symm (flatEquiv _ _ _).symm := by
        ext i k
        obtain ⟨x, rfl⟩ := (flatEquiv states.length Nq Np).surjective i
        obtain ⟨y, rfl⟩ := (flatEquiv states.length Nq Np).surjective k
        rw [Matrix.submatrix_apply, Equiv.symm_apply_apply, Equiv.symm_apply_apply, ← (hent x y).1, hcD]
        rfl
      rwa [hL, Matrix.det_submatrix_equiv_self]
    obtain ⟨X, hX⟩ := exists_solveMM _ (matOf c.D (denseR c)) hL
    refine ⟨fun n => if hn : n < c.D * c.D then X ⟨n / c.D, Nat.div_lt_of_lt_mul hn⟩ ⟨n % c.D, Nat.mod_lt _ (by rw [hcD]; exact hD)⟩ else 0, ?_⟩
    convert hX
    ext i k
    unfold matOf
    refine (dif_pos (by exact radix_lt i.2 k.2)).trans ?_
    exact congrArg₂ X (Fin.ext (by exact radix_div k.2)) (Fin.ext (by exact radix_mod k.2))
  choose! X hX using hX
  -- the cells of `U` are numbered without collisions, so a function with these values exists
  refine ⟨fun n => X (n % c.nq) ((c.deut.getD (n / (c.nd * c.nq)) 0 * c.Nq * c.Np + c.qidx.getD (n % c.nq) 0 * c.Np + 0) * c.D +
    (c.deut.getD (n / c.nq % c.nd) 0 * c.Nq * c.Np + c.qidx.getD (n % c.nq) 0 * c.Np + 0)), fun j hj => ⟨X j, hX j hj, fun dr hdr dc hdc => ?_⟩⟩
  have e : dr * c.nd * c.nq + dc * c.nq + j = (dr * c.nd + dc) * c.nq + j := by ring
  have e1 : (dr * c.nd * c.nq + dc * c.nq + j) % c.nq = j := by rw [e]; exact radix_mod hj
  have e2 : (dr * c.nd * c.nq + dc * c.nq + j) / c.nq = dr * c.nd + dc := by rw [e]; exact radix_div hj
  have e3 : (dr * c.nd * c.nq + dc * c.nq + j) / (c.nd * c.nq) = dr := by
    rw [Nat.mul_comm c.nd, ← Nat.div_div_eq_div_mul, e2]; exact radix_div hdc
  dsimp only
  rw [e1, e2, e3, radix_mod hdc]

end

/-! ### C78 -/

/-- C78 is false with the direct solver: in every channel there are arguments for which the equation has a solution, every solution has the
element 1 at a breakup state, and the breakup amplitude reported for it is 0 for every admissible behaviour of LAPACK. -/
theorem C78_dense_breakup_zero {p : PWParams} (ht : p.tensor = true) {twoJ3 P : Int} {states : List PWState} (h : IsChannel p twoJ3 P states)
    (hl : 0 < states.length) (hl' : states.length ≤ 2 ^ 20) :
    ∃ (P123 : List (Entry ℝ)) (c : PadeCfg) (deut : List (Fin states.length)) (qidx : List (Fin 1)) (i : Fin deut.length) (q : Fin qidx.length)
      (y : Idx states.length 1 2),
      SolverInput p states 1 2 (unitPot 2) (unitPot 2) P123 c deut qidx (List.range states.length) ∧ BuIs c q 0 y ∧
      (∀ junk, ∃ U UBU, SolveFaddeev c true (List.range states.length) junk U UBU) ∧
      (∀ junk U UBU, SolveFaddeev c true (List.range states.length) junk U UBU → UBU (i * c.nBU + 0) = some 0) ∧
      ∀ X : Matrix (Idx states.length 1 2) (Idx states.length 1 2) ℂ,
        X = toC (kernelMatrix p states 1 2 (unitPot 2) (unitPot 2) P123) +
          toC (kernelMatrix p states 1 2 (unitPot 2) (unitPot 2) P123) * Matrix.diagonal (fun x => c.G (q * c.D + flat x)) * X →
        X (deut.get i, qidx.get q, ⟨0, by omega⟩) y = 1 := by
  obtain ⟨c, hin, hG, hbk, hbs, hnb, hst⟩ := exists_solverInput ht h 1 2 (unitPot 2) (unitPot 2) [⟨0, 1, 1 / 2⟩]
    (by intro e he; simp only [List.mem_cons, List.not_mem_nil, or_false] at he; rcases he with rfl; dsimp only; omega)
    [⟨0, hl⟩] [0] (fun _ => 0) true (fun q => q) 1 (fun _ => (0, 0, 1)) (by intro q _; omega) (by simp)
  have hy : BuIs c 0 0 ((⟨0, hl⟩, 0, 1) : Idx states.length 1 2) := ⟨hbk, by rw [hbs], by rw [hbs]; exact Nat.zero_lt_one, by rw [hst]; rfl⟩
  have hNp : 0 < 2 := by omega
  have hA := kernel_unit ht h 1 2 [⟨0, 1, 1 / 2⟩]
  have hA1 : kernelMatrix p states 1 2 (unitPot 2) (unitPot 2) [⟨0, 1, 1 / 2⟩] (⟨0, hl⟩, 0, ⟨0, hNp⟩) (⟨0, hl⟩, 0, 1) = 1 := by
    rw [hA, Matrix.smul_apply]
    simp [sparseMatrix, flat]
  have hd0 : (Matrix.diagonal (fun _ : Idx states.length 1 2 => (0 : ℂ)) : Matrix (Idx states.length 1 2) (Idx states.length 1 2) ℂ) = 0 := by ext i j; simp [Matrix.diagonal]
  refine ⟨_, c, [⟨0, hl⟩], [0], 0, 0, _, hin, hy, fun junk => ?_, ?_, fun X hX => ?_⟩
  · obtain ⟨U, hU⟩ := C48_dense_exists ht h hNp hin (by omega) (by omega) (by
      intro q _
      rw [hG, hd0, Matrix.mul_zero, sub_zero, Matrix.det_one]
      exact one_ne_zero)
    refine ⟨fun i => some (U i), fun _ => some 0, ?_⟩
    unfold SolveFaddeev
    rw [if_pos rfl]
    exact ⟨⟨U, hU, rfl⟩, rfl⟩
  · intro junk U UBU hs
    unfold SolveFaddeev at hs
    rw [if_pos rfl] at hs
    rw [hs.2]
  · rw [hG, hd0, Matrix.mul_zero, Matrix.zero_mul, add_zero] at hX
    rw [hX]
    show ((kernelMatrix p states 1 2 (unitPot 2) (unitPot 2) [⟨0, 1, 1 / 2⟩] (⟨0, hl⟩, 0, ⟨0, hNp⟩) (⟨0, hl⟩, 0, 1) : ℝ) : ℂ) = 1
    rw [hA1]
    simp

section
variable {p : PWParams} {twoJ3 P : Int} {states : List PWState} {Nq Np : Nat} {V C : Bool → Int → ℝ} {P123 : List (Entry ℝ)} {c : PadeCfg}
  {deut : List (Fin states.length)} {qidx : List (Fin Nq)} {sched : List Nat}

/-- C78 with the iterative solver, restricted to runs that do not stop on the count of converged elements (`C47_breakup_unassigned` shows the
restriction is needed): every reported breakup amplitude is a diagonal approximant of the element's own series. -/
theorem C78_iterative_count (ht : p.tensor = true) (h : IsChannel p twoJ3 P states) (hNp : 0 < Np)
    (hin : SolverInput p states Nq Np V C P123 c deut qidx sched) (hD : 0 < states.length * Nq * Np) (hD' : states.length * Nq * Np ≤ 2 ^ 28) (junk : PadeJunk)
    (U UBU : Nat → Option ℂ) (hs : SolveFaddeev c false sched junk U UBU) (hne : ∀ s, padeSolve c sched junk = some s → s.numConv ≠ c.numEL)
    (i : Fin deut.length) (q : Fin qidx.length) (b : Nat) (y : Idx states.length Nq Np) (hb : BuIs c q b y) :
    ∃ u, UBU (i * c.nBU + b) = some u ∧ IsApproximant p states V C P123 c deut qidx hNp i q y u := by
  unfold SolveFaddeev at hs
  rw [if_neg (by simp)] at hs
  obtain ⟨s, h1, _, h3⟩ := hs
  obtain ⟨s', h4, h5⟩ := C47_complete_unless_count ht h hNp hin hD hD' junk
  rw [h1] at h4
  have := Option.some.inj h4
  subst this
  rw [h3]
  exact (h5 (hne _ h1) i q).2 b y hb

end

/-! ### the series and the equation -/

section
variable {ι : Type} [Fintype ι] [DecidableEq ι]

theorem neumannTerm_left (A : Matrix ι ι ℂ) (g : ι → ℂ) (n : Nat) : neumannTerm A g (n + 1) = A * Matrix.diagonal g * neumannTerm A g n := by
  unfold neumannTerm
  rw [pow_succ', Matrix.mul_assoc, Matrix.mul_assoc]

/-- C48: a terminating Neumann series sums to a solution of `U = A + A G U`. -/
theorem C48_terminating (A : Matrix ι ι ℂ) (g : ι → ℂ) (N : Nat) (hN : neumannTerm A g N = 0) :
    ∑ n ∈ Finset.range N, neumannTerm A g n = A + A * Matrix.diagonal g * ∑ n ∈ Finset.range N, neumannTerm A g n := by
  rw [Finset.mul_sum]
  simp_rw [← neumannTerm_left]
  have h0 : neumannTerm A g 0 = A := by unfold neumannTerm; rw [pow_zero, Matrix.mul_one]
  have := Finset.sum_range_succ' (neumannTerm A g) N
  rw [Finset.sum_range_succ, hN, add_zero, h0] at this
  rw [this, add_comm]

/-- C48: the series of every element is the Taylor series of a rational function with numerator and denominator of degree at most the
dimension, whose value at 1 is the element of the solution. -/
theorem neumann_rational (A : Matrix ι ι ℂ) (g : ι → ℂ) (x y : ι) : ∃ p q : Polynomial ℂ, IsTaylorOf (fun n => neumannTerm A g n x y) p q ∧
    p.natDegree ≤ Fintype.card ι ∧ q.natDegree ≤ Fintype.card ι ∧ q.eval 1 = (1 - A * Matrix.diagonal g).det ∧
    p.eval 1 = ((1 - A * Matrix.diagonal g).adjugate * A) x y := by
  let K := A * Matrix.diagonal g
  let M : Matrix ι ι (Polynomial ℂ) := (Polynomial.X : Polynomial ℂ) • (-K).map Polynomial.C + (1 : Matrix ι ι ℂ).map Polynomial.C
  have hMe : ∀ i j, M i j = (if i = j then 1 else 0) - Polynomial.X * Polynomial.C (K i j) := by
    intro i j
    show (Polynomial.X : Polynomial ℂ) • Polynomial.C (-(K i j)) + Polynomial.C ((1 : Matrix ι ι ℂ) i j) = _
    rw [Matrix.one_apply, smul_eq_mul, map_neg]
    split
    · rw [map_one]; ring
    · rw [map_zero]; ring
  have heval : M.map (Polynomial.eval (1 : ℂ)) = 1 - K := by
    ext i j
    rw [Matrix.map_apply, hMe, Matrix.sub_apply, Matrix.one_apply]
    split <;> simp
  refine ⟨(M.adjugate * A.map Polynomial.C) x y, M.det, ?_, ?_, Polynomial.natDegree_det_X_add_C_le _ _, ?_, ?_⟩
  · unfold IsTaylorOf
    let φ : Polynomial ℂ →+* PowerSeries ℂ := Polynomial.coeToPowerSeries.ringHom
    let Sm : Matrix ι ι (PowerSeries ℂ) := fun i j => PowerSeries.mk fun n => neumannTerm A g n i j
    have h1 : M.map φ * Sm = (A.map Polynomial.C).map φ := by
      ext i j n
      rw [Matrix.mul_apply, Matrix.map_apply, Matrix.map_apply, map_sum]
      have hterm : ∀ k, (PowerSeries.coeff n) (M.map φ i k * Sm k j) = (if i = k then neumannTerm A g n k j else 0) -
          (if n = 0 then 0 else K i k * neumannTerm A g (n - 1) k j) := by
        intro k
        have hφ : φ (M i k) = (if i = k then 1 else 0) - PowerSeries.X * PowerSeries.C (R := ℂ) (K i k) := by
          rw [hMe]
          have hφ0 : ∀ f : Polynomial ℂ, φ f = (f : PowerSeries ℂ) := fun _ => rfl
          rw [map_sub, map_mul, hφ0 Polynomial.X, hφ0 (Polynomial.C _), Polynomial.coe_X, Polynomial.coe_C]
          split <;> simp
        rw [Matrix.map_apply, hφ, sub_mul, map_sub]
        congr 1
        · split
          · rw [one_mul]; exact PowerSeries.coeff_mk _ _
          · rw [zero_mul, map_zero]
        · cases n with
          | zero => rw [if_pos rfl, mul_assoc, PowerSeries.coeff_zero_X_mul]
          | succ n =>
            rw [if_neg (by omega), mul_assoc, PowerSeries.coeff_succ_X_mul, PowerSeries.coeff_C_mul]
            congr 1
            exact PowerSeries.coeff_mk _ _
      rw [Finset.sum_congr rfl fun k _ => hterm k, Finset.sum_sub_distrib, Finset.sum_ite_eq, if_pos (Finset.mem_univ _)]
      show _ = (PowerSeries.coeff n) ((Polynomial.C (A i j) : Polynomial ℂ) : PowerSeries ℂ)
      rw [Polynomial.coe_C, PowerSeries.coeff_C]
      cases n with
      | zero =>
        simp only [if_true, Finset.sum_const_zero, sub_zero]
        unfold neumannTerm; rw [pow_zero, Matrix.mul_one]
      | succ n =>
        rw [if_neg (by omega)]
        simp only [Nat.add_sub_cancel, if_neg (Nat.succ_ne_zero n)]
        rw [neumannTerm_left, Matrix.mul_apply, sub_self]
    have h2 : M.det.map (RingHom.id ℂ) = M.det := Polynomial.map_id
    have h3 : (M.map φ).adjugate * (M.map φ * Sm) = (φ M.det) • Sm := by
      rw [← Matrix.mul_assoc, Matrix.adjugate_mul, Matrix.smul_mul, Matrix.one_mul]
      congr 1
      rw [RingHom.map_det]; rfl
    rw [h1] at h3
    have h4 : (M.map φ).adjugate = M.adjugate.map φ := (RingHom.map_adjugate φ M).symm
    rw [h4] at h3
    have h5 := congrFun (congrFun h3 x) y
    rw [Matrix.smul_apply] at h5
    have h6 : (M.adjugate.map φ * (A.map Polynomial.C).map φ) = (M.adjugate * A.map Polynomial.C).map φ := (Matrix.map_mul (f := φ)).symm
    rw [h6] at h5
    exact h5.symm
  · rw [Matrix.mul_apply]
    refine Polynomial.natDegree_sum_le_of_forall_le _ _ fun k _ => ?_
    rw [Matrix.map_apply]
    refine (Polynomial.natDegree_mul_C_le _ _).trans ?_
    rw [Matrix.adjugate_apply]
    have : M.updateRow k (Pi.single x 1) = (Polynomial.X : Polynomial ℂ) • ((-K).updateRow k 0).map Polynomial.C + ((1 : Matrix ι ι ℂ).updateRow k (Pi.single x 1)).map Polynomial.C := by
      apply Matrix.ext
      intro i j
      by_cases hik : i = k
      · subst hik
        rw [Matrix.updateRow_self, Matrix.add_apply, Matrix.smul_apply, Matrix.map_apply, Matrix.map_apply, Matrix.updateRow_self, Matrix.updateRow_self]
        by_cases hj : j = x
        · subst hj; simp
        · simp [Pi.single_apply, hj]
      · rw [Matrix.updateRow_ne hik, Matrix.add_apply, Matrix.smul_apply, Matrix.map_apply, Matrix.map_apply, Matrix.updateRow_ne hik, Matrix.updateRow_ne hik]
        rfl
    rw [this]
    exact Polynomial.natDegree_det_X_add_C_le _ _
  · have := RingHom.map_det (Polynomial.evalRingHom (1 : ℂ)) M
    have e : (Polynomial.evalRingHom (1 : ℂ)).mapMatrix M = 1 - K := heval
    rw [e] at this
    exact this
  · have e1 : (M.adjugate.map (Polynomial.eval (1 : ℂ))) = (1 - K).adjugate := by
      have := RingHom.map_adjugate (Polynomial.evalRingHom (1 : ℂ)) M
      have e : (Polynomial.evalRingHom (1 : ℂ)).mapMatrix M = 1 - K := heval
      rw [e] at this
      exact this
    rw [Matrix.mul_apply, Polynomial.eval_finset_sum, Matrix.mul_apply]
    refine Finset.sum_congr rfl fun k _ => ?_
    rw [Polynomial.eval_mul, Matrix.map_apply, Polynomial.eval_C]
    congr 1
    exact congrFun (congrFun e1 x) k

/-- C48: an approximant of order at least the dimension whose denominator does not vanish is the element of the solution of
`U = A + A G U`. -/
theorem C48_pade_agrees (A : Matrix ι ι ℂ) (g : ι → ℂ) (N : Nat) (hN : Fintype.card ι ≤ N) (hdet : (1 - A * Matrix.diagonal g).det ≠ 0) (x y : ι)
    (u : ℂ) (hu : padeApproximant (fun n => neumannTerm A g n x y) N N 1 = some u) (U : Matrix ι ι ℂ) (hU : U = A + A * Matrix.diagonal g * U) : U x y = u := by
  obtain ⟨p, q, h1, h2, h3, h4, h5⟩ := neumann_rational A g x y
  have hQ : (padeQ (fun n => neumannTerm A g n x y) N N 1).det ≠ 0 := by
    intro h0
    unfold padeApproximant at hu
    rw [if_pos h0] at hu
    cases hu
  rw [C46_exact_on_rational h1 (by omega) (h2.trans hN) (h3.trans hN) 1 (by rw [h4]; exact hdet) hQ] at hu
  rw [← Option.some.inj hu, h4, h5, eq_div_iff hdet]
  have h6 : (1 - A * Matrix.diagonal g) * U = A := by rw [Matrix.sub_mul, Matrix.one_mul, sub_eq_iff_eq_add]; exact hU
  have h7 : (1 - A * Matrix.diagonal g).adjugate * A = (1 - A * Matrix.diagonal g).adjugate * ((1 - A * Matrix.diagonal g) * U) := congrArg (fun M => (1 - A * Matrix.diagonal g).adjugate * M) h6.symm
  rw [h7, ← Matrix.mul_assoc, Matrix.adjugate_mul, Matrix.smul_mul, Matrix.one_mul, Matrix.smul_apply, smul_eq_mul, mul_comm]

end

-- the hypotheses of `C48_pade_agrees` are met by the one-dimensional problem with `A = 1`, `G = 1/2` (solution 2)
example : ∃ u, padeApproximant (fun n => neumannTerm (1 : Matrix (Fin 1) (Fin 1) ℂ) (fun _ => 1 / 2) n 0 0) 1 1 1 = some u ∧
    Fintype.card (Fin 1) ≤ 1 ∧ (1 - (1 : Matrix (Fin 1) (Fin 1) ℂ) * Matrix.diagonal (fun _ => (1 / 2 : ℂ))).det ≠ 0 := by
  have ht : ∀ n, neumannTerm (1 : Matrix (Fin 1) (Fin 1) ℂ) (fun _ => 1 / 2) n 0 0 = (1 / 2) ^ n := by
    intro n
    unfold neumannTerm
    rw [Matrix.one_mul, Matrix.mul_one, Matrix.diagonal_pow, Matrix.diagonal_apply_eq]
    rfl
  have hQ : (padeQ (fun n => neumannTerm (1 : Matrix (Fin 1) (Fin 1) ℂ) (fun _ => 1 / 2) n 0 0) 1 1 1).det ≠ 0 := by
    rw [Matrix.det_fin_two]
    simp only [padeQ, ht]
    norm_num
  refine ⟨_, if_neg hQ, by simp, ?_⟩
  rw [Matrix.det_fin_one]
  norm_num

end TicTac
end