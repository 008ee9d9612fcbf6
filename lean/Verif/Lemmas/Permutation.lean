import Verif.Spec.Permutation
import Verif.Lemmas.Tables
import Verif.Lemmas.Sparse
import Verif.Props.Jacobi
import Verif.Props.Tables
/-! Lemmas for the permutation matrix: the tabulated geometric function is the formula with unrestricted sums. -/
noncomputable section
namespace TicTac
open Spec Classical

theorem powNeg1_sgn (m : Int) : powNeg1 m = sgn m := by
  unfold powNeg1 sgn
  split_ifs with h
  · exact Even.neg_one_pow (by rw [Nat.even_iff]; omega)
  · exact Odd.neg_one_pow (by rw [Nat.odd_iff]; omega)

theorem plmSigned_harmonic (g : Gsl) (l m : Int) (c : ℝ) : plmSigned g.sph l m c = harmonic g l m c := by
  unfold plmSigned harmonic
  rw [powNeg1_sgn]

theorem clebschGordan_eq {g : Gsl} (hg : GslContract g) (l1 m1 l2 m2 L M : Int) :
    clebschGordan g (2 * l1) (2 * l2) (2 * L) (2 * m1) (2 * m2) (2 * M) = clebsch g l1 m1 l2 m2 L M := by
  unfold clebschGordan clebsch
  split_ifs with h
  · rw [powNeg1_sgn, show (2 * l1 - 2 * l2 + 2 * M).tdiv 2 = l1 - l2 + M by
      rw [show 2 * l1 - 2 * l2 + 2 * M = 2 * (l1 - l2 + M) by ring]; exact Int.mul_tdiv_cancel_left _ (by decide)]
    push_cast
    rfl
  · by_contra hne
    have h3 : g.threeJ (2 * l1) (2 * l2) (2 * L) (2 * m1) (2 * m2) (-(2 * M)) ≠ 0 := fun h0 => hne (by rw [h0, mul_zero])
    obtain ⟨-, -, h4, h5, -⟩ := hg.threeJ_sel _ _ _ _ _ _ h3
    apply h
    rw [abs_le] at h4 h5
    omega

/-- Where a Clebsch–Gordan coefficient can be non-zero. -/
theorem clebsch_sel {g : Gsl} (hg : GslContract g) {l1 m1 l2 m2 L M : Int} (h : clebsch g l1 m1 l2 m2 L M ≠ 0) :
    m1 + m2 = M ∧ |m1| ≤ l1 ∧ |m2| ≤ l2 ∧ |M| ≤ L := by
  have h3 : g.threeJ (2 * l1) (2 * l2) (2 * L) (2 * m1) (2 * m2) (-(2 * M)) ≠ 0 := fun h0 => h (by unfold clebsch; rw [h0, mul_zero])
  obtain ⟨-, h2, h4, h5, h6⟩ := hg.threeJ_sel _ _ _ _ _ _ h3
  rw [abs_le] at h4 h5 h6 ⊢
  rw [abs_le, abs_le]
  omega

theorem finsum_list {ι : Type} {f : ι → ℝ} {l : List ι} (hn : l.Nodup) (h : ∀ i, f i ≠ 0 → i ∈ l) : ∑ᶠ i, f i = (l.map f).sum := by
  rw [finsum_eq_sum_of_support_subset (s := l.toFinset) f (fun i hi => by simpa using h i hi), List.sum_toFinset f hn]

theorem forRange_nodup (lo hi : Int) : (forRange lo hi 1).Nodup := by
  unfold forRange
  refine List.Nodup.map ?_ List.nodup_range
  intro a b h
  simpa using h

theorem permP_eq (p q x : ℝ) : pi1Tilde p q x = permP p q x := by
  unfold pi1Tilde permP; congr 1; norm_num; ring

theorem permQ_eq (p q x : ℝ) : pi2Tilde p q x = permQ p q x := by
  unfold pi2Tilde permQ; congr 1; norm_num; ring

theorem cosP_eq {p q x : ℝ} (hx : x ^ 2 ≤ 1) (h : pi1Tilde p q x ≠ 0) : cosTheta1 p q x = cosP p q x := by
  rw [((C27_cos_physical p q x hx).1 h).2]
  unfold cosTheta1Raw cosP
  rw [permP_eq]; norm_num; ring

theorem cosQ_eq {p q x : ℝ} (hx : x ^ 2 ≤ 1) (h : pi2Tilde p q x ≠ 0) : cosTheta2 p q x = cosQ p q x := by
  rw [((C27_cos_physical p q x hx).2 h).2]
  unfold cosTheta2Raw cosQ
  rw [permQ_eq]; norm_num; ring

/-- Quantum numbers used below, for an allowed state. -/
structure GoodState (s : PWState) : Prop where
  L0 : 0 ≤ s.L
  l0 : 0 ≤ s.l
  S0 : 0 ≤ s.S
  S1 : s.S ≤ 1
  T0 : 0 ≤ s.T
  T1 : s.T ≤ 1
  T3 : s.twoT3 = 1 ∨ s.twoT3 = 3

theorem recoupling_sel {g : Gsl} (hg : GslContract g) {a b : PWState} (ha : GoodState a) {L : Nat} (h : recoupling g a b L ≠ 0) :
    a.twoT3 = b.twoT3 ∧ ((a.L - a.l).natAbs : Int) ≤ L ∧ (L : Int) ≤ a.L + a.l ∧ ((b.L - b.l).natAbs : Int) ≤ L ∧ (L : Int) ≤ b.L + b.l ∧
      2 * (L : Int) ≤ a.twoJ3 + 3 := by
  unfold recoupling at h
  split_ifs at h with hT
  · have hs : (∑ᶠ twoS : Nat, ((twoS : ℝ) + 1) * g.nineJ (2 * a.L) (2 * a.S) (2 * a.J) (2 * a.l) 1 a.twoj (2 * L) twoS a.twoJ3
      * g.nineJ (2 * b.L) (2 * b.S) (2 * b.J) (2 * b.l) 1 b.twoj (2 * L) twoS a.twoJ3
      * g.sixJ 1 1 (2 * a.S).toNat 1 twoS (2 * b.S).toNat) ≠ 0 := fun h0 => h (by rw [h0, mul_zero])
    obtain ⟨twoS, hS⟩ : ∃ twoS : Nat, ((twoS : ℝ) + 1) * g.nineJ (2 * a.L) (2 * a.S) (2 * a.J) (2 * a.l) 1 a.twoj (2 * L) twoS a.twoJ3
      * g.nineJ (2 * b.L) (2 * b.S) (2 * b.J) (2 * b.l) 1 b.twoj (2 * L) twoS a.twoJ3
      * g.sixJ 1 1 (2 * a.S).toNat 1 twoS (2 * b.S).toNat ≠ 0 := by
      by_contra hno
      push Not at hno
      exact hs (finsum_eq_zero_of_forall_eq_zero hno)
    have h1 : g.nineJ (2 * a.L) (2 * a.S) (2 * a.J) (2 * a.l) 1 a.twoj (2 * L) twoS a.twoJ3 ≠ 0 := fun h0 => hS (by rw [h0]; ring)
    have h2 : g.nineJ (2 * b.L) (2 * b.S) (2 * b.J) (2 * b.l) 1 b.twoj (2 * L) twoS a.twoJ3 ≠ 0 := fun h0 => hS (by rw [h0]; ring)
    obtain ⟨-, -, c3, c4, c5, -⟩ := hg.nineJ_sel _ _ _ _ _ _ _ _ _ h1
    obtain ⟨-, -, -, d4, -, -⟩ := hg.nineJ_sel _ _ _ _ _ _ _ _ _ h2
    unfold Couples at c3 c4 c5 d4
    have := ha.S1
    refine ⟨hT, ?_, ?_, ?_, ?_, ?_⟩ <;> omega
  · exact absurd rfl h

/-- The sum over the total spin: only 1/2 and 3/2 contribute. -/
theorem recoupling_eq {g : Gsl} (hg : GslContract g) {a b : PWState} (ha : GoodState a) (hT : a.twoT3 = b.twoT3) (six : Nat → ℝ) (jmax : Nat)
    (hS : ∀ twoS ≤ 3, six (sixjIdx jmax 1 1 (2 * a.S).toNat 1 twoS (2 * b.S).toNat) = g.sixJ 1 1 (2 * a.S).toNat 1 twoS (2 * b.S).toNat)
    (hTT : six (sixjIdx jmax 1 1 (2 * a.T).toNat 1 a.twoT3.toNat (2 * b.T).toNat) = g.sixJ 1 1 (2 * a.T).toNat 1 a.twoT3.toNat (2 * b.T).toNat)
    (L : Nat) : atilde g six jmax a b L a.twoJ3 a.twoT3 = recoupling g a b L := by
  have hl : ∑ᶠ twoS : Nat, ((twoS : ℝ) + 1) * g.nineJ (2 * a.L) (2 * a.S) (2 * a.J) (2 * a.l) 1 a.twoj (2 * L) twoS a.twoJ3
      * g.nineJ (2 * b.L) (2 * b.S) (2 * b.J) (2 * b.l) 1 b.twoj (2 * L) twoS a.twoJ3
      * g.sixJ 1 1 (2 * a.S).toNat 1 twoS (2 * b.S).toNat = ([1, 3].map fun (twoS : Nat) => ((twoS : ℝ) + 1) * g.nineJ (2 * a.L) (2 * a.S) (2 * a.J) (2 * a.l) 1 a.twoj (2 * L) twoS a.twoJ3
      * g.nineJ (2 * b.L) (2 * b.S) (2 * b.J) (2 * b.l) 1 b.twoj (2 * L) twoS a.twoJ3
      * g.sixJ 1 1 (2 * a.S).toNat 1 twoS (2 * b.S).toNat).sum := by
    apply finsum_list (by decide)
    intro twoS h
    have h1 : g.nineJ (2 * a.L) (2 * a.S) (2 * a.J) (2 * a.l) 1 a.twoj (2 * L) twoS a.twoJ3 ≠ 0 := fun h0 => h (by rw [h0]; ring)
    obtain ⟨-, -, -, -, c5, -⟩ := hg.nineJ_sel _ _ _ _ _ _ _ _ _ h1
    unfold Couples at c5
    have := ha.S1
    have : twoS = 1 ∨ twoS = 3 := by omega
    simpa using this
  unfold recoupling
  rw [if_pos hT, hl]
  unfold atilde
  rw [show forRange 1 3 2 = [1, 3] by decide]
  simp only [List.map_cons, List.map_nil, List.sum_cons, List.sum_nil]
  rw [show (1 : Int).toNat = 1 by rfl, show (3 : Int).toNat = 3 by rfl, hS 1 (by omega), hS 3 (by omega), hTT, powNeg1_sgn]
  rw [show ((1 : Nat) : Int) = 1 by rfl, show ((3 : Nat) : Int) = 3 by rfl]
  generalize g.sixJ 1 1 (2 * a.S).toNat 1 1 (2 * b.S).toNat = u1
  generalize g.sixJ 1 1 (2 * a.S).toNat 1 3 (2 * b.S).toNat = u3
  generalize g.sixJ 1 1 (2 * a.T).toNat 1 a.twoT3.toNat (2 * b.T).toNat = t
  generalize g.nineJ (2 * a.L) (2 * a.S) (2 * a.J) (2 * a.l) 1 a.twoj (2 * L) 1 a.twoJ3 = n1
  generalize g.nineJ (2 * a.L) (2 * a.S) (2 * a.J) (2 * a.l) 1 a.twoj (2 * L) 3 a.twoJ3 = n3
  generalize g.nineJ (2 * b.L) (2 * b.S) (2 * b.J) (2 * b.l) 1 b.twoj (2 * L) 1 a.twoJ3 = m1
  generalize g.nineJ (2 * b.L) (2 * b.S) (2 * b.J) (2 * b.l) 1 b.twoj (2 * L) 3 a.twoJ3 = m3
  generalize sgn (b.S + b.T) = e
  have hr : (((2 * a.J + 1) * (a.twoj + 1) * (2 * a.S + 1) * (2 * a.T + 1) * (2 * b.J + 1) * (b.twoj + 1) * (2 * b.S + 1) * (2 * b.T + 1) : Int) : ℝ) =
      (2 * a.J + 1) * (a.twoj + 1) * (2 * a.S + 1) * (2 * a.T + 1) * ((2 * b.J + 1) * (b.twoj + 1) * (2 * b.S + 1) * (2 * b.T + 1)) := by
    push_cast; ring
  rw [hr]
  generalize Real.sqrt _ = r
  norm_num
  ring

/-- **Geometric function.** The reference formula of the code with the stored coefficients is the formula with unrestricted sums. -/
theorem gtildeNew_geometric {g : Gsl} (hg : GslContract g) {a b : PWState} (ha : GoodState a) {A : Int → ℝ}
    (hA : ∀ L : Nat, (L : Int) ≤ a.L + a.l → (L : Int) ≤ b.L + b.l → A L = recoupling g a b L) {p q x : ℝ} (hx : x ^ 2 ≤ 1) (h1 : pi1Tilde p q x ≠ 0) (h2 : pi2Tilde p q x ≠ 0) :
    gtildeNew (clebschGordan g) g.sph A a.twoJ3 a.L a.l b.L b.l p q x = geometric g a b p q x := by
  have hl0 := ha.l0
  unfold geometric
  rw [finsum_list (l := (ltotalRange a.twoJ3 a.L a.l b.L b.l).map Int.toNat)]
  · unfold gtildeNew
    rw [List.map_map]
    apply sum_map_congr
    intro Lt hLt
    unfold ltotalRange at hLt
    rw [mem_forRange_one] at hLt
    have hmax := hLt.1
    have hmin := hLt.2
    rw [max_le_iff] at hmax
    rw [le_min_iff, le_min_iff] at hmin
    obtain ⟨n, rfl⟩ : ∃ n : Nat, Lt = n := ⟨Lt.toNat, by omega⟩
    simp only [Function.comp_apply, Int.toNat_natCast]
    rw [hA n hmin.2.1 hmin.2.2, finsum_list (forRange_nodup (-(min a.l n)) (min a.l n)), ← List.sum_map_mul_left]
    · apply sum_map_congr
      intro M hM
      rw [mem_forRange_one] at hM
      rw [finsum_list (forRange_nodup (-b.L) b.L), ← List.sum_map_mul_left, ← List.sum_map_mul_left]
      · apply sum_map_congr
        intro M' hM'
        rw [mem_forRange_one] at hM'
        have e1 : clebschGordan g (2 * a.L) (2 * a.l) (2 * n) 0 (2 * M) (2 * M) = clebsch g a.L 0 a.l M n M := clebschGordan_eq hg a.L 0 a.l M n M
        have e2 : clebschGordan g (2 * b.L) (2 * b.l) (2 * n) (2 * M') (2 * M - 2 * M') (2 * M) = clebsch g b.L M' b.l (M - M') n M := by
          rw [← mul_sub]; exact clebschGordan_eq hg b.L M' b.l (M - M') n M
        simp only [plmSigned_harmonic, e1, e2, cosP_eq hx h1, cosQ_eq hx h2, powNeg1_sgn]
        split_ifs with h
        · rw [pow_two]; ring
        · have : clebsch g b.L M' b.l (M - M') n M = 0 := by
            by_contra hne
            have := (clebsch_sel hg hne).2.2.1
            rw [abs_le] at this
            omega
          rw [this]; ring
      · intro M' h
        have hne : clebsch g b.L M' b.l (M - M') n M ≠ 0 := fun h0 => h (by rw [h0]; ring)
        have := (clebsch_sel hg hne).2.1
        rw [abs_le] at this
        rw [mem_forRange_one]; omega
    · intro M h
      have hne : clebsch g a.L 0 a.l M n M ≠ 0 := fun h0 => h (by rw [h0]; ring)
      obtain ⟨-, -, c1, c2⟩ := clebsch_sel hg hne
      rw [abs_le] at c1 c2
      rw [mem_forRange_one]
      rcases min_cases a.l (n : Int) with h' | h' <;> omega
  · refine List.Nodup.map_on ?_ (forRange_nodup _ _)
    intro u hu v hv huv
    unfold ltotalRange at hu hv
    rw [mem_forRange_one, max_le_iff] at hu hv
    omega
  · intro L h
    have hne : recoupling g a b L ≠ 0 := fun h0 => h (by rw [h0]; ring)
    obtain ⟨-, c1, c2, c3, c4, c5⟩ := recoupling_sel hg ha hne
    rw [List.mem_map]
    refine ⟨L, ?_, by simp⟩
    unfold ltotalRange
    rw [mem_forRange_one, max_le_iff, le_min_iff, le_min_iff]
    omega

end TicTac
end
