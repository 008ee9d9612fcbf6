import Verif.Lemmas.Tables
import Mathlib.Tactic.IntervalCases
import Mathlib.Tactic.FinCases
import Mathlib.Data.Fin.VecNotation
/-!
Property theorems C53 (tables do not alias), C59 (size overflow), C60 (table-based geometric function equals the
direct formula).
-/
namespace TicTac

/-- **C53 (Clebsch–Gordan).** For every table size and every order in which the fill loop's iterations are executed
(any thread schedule), every lookup with legal quantum numbers is inside the allocation and returns the
coefficient of exactly those quantum numbers. -/
theorem C53_clebsch_lookup (cg : Int → Int → Int → Int → Int → Int → ℝ) (jmax : Int) (init : Int → ℝ)
    (order : List (Int × Int × Int × Int × Int)) (hord : order.Perm (cgTuples jmax))
    (j1 j2 j3 m1 m2 : Int) (h1 : 0 ≤ j1 ∧ j1 ≤ jmax) (h2 : 0 ≤ j2 ∧ j2 ≤ jmax) (h3 : 0 ≤ j3 ∧ j3 ≤ 2 * jmax)
    (hm1 : |m1| ≤ j1) (hm2 : |m2| ≤ j2) :
    0 ≤ cgIdx jmax j1 j2 j3 m1 m2 ∧ cgIdx jmax j1 j2 j3 m1 m2 < cgSize jmax ∧
      cgTable cg jmax init order (cgIdx jmax j1 j2 j3 m1 m2) = cg j1 j2 j3 m1 m2 (m1 + m2) := by
  rw [abs_le] at hm1 hm2
  have hl : CgLegal jmax (j1, j2, j3, m1, m2) := ⟨h1.1, h1.2, h2.1, h2.2, h3.1, h3.2, hm1.1, hm1.2, hm2.1, hm2.2⟩
  have hr := cgIdx_range hl
  have ht := cgTable_lookup cg jmax init order hord (j1, j2, j3, m1, m2) hl
  dsimp only at hr ht
  exact ⟨hr.1, hr.2, ht⟩

/-- **C53 (6j).** The 6j index is injective and in range for all six arguments up to the maximum. -/
theorem C53_sixj_index (jmax : Nat) (a b : Fin 6 → Nat) (ha : ∀ i, a i ≤ jmax) (hb : ∀ i, b i ≤ jmax) :
    sixjIdx jmax (a 0) (a 1) (a 2) (a 3) (a 4) (a 5) < sixjSize jmax ∧
    (sixjIdx jmax (a 0) (a 1) (a 2) (a 3) (a 4) (a 5) = sixjIdx jmax (b 0) (b 1) (b 2) (b 3) (b 4) (b 5) → a = b) := by
  have la : ∀ i, a i < jmax + 1 := fun i => Nat.lt_succ_of_le (ha i)
  have lb : ∀ i, b i < jmax + 1 := fun i => Nat.lt_succ_of_le (hb i)
  constructor
  · rw [sixjIdx_eq]
    unfold sixjSize
    exact radix_lt (radix_lt (radix_lt (radix_lt (radix_lt (la 0) (la 1)) (la 2)) (la 3)) (la 4)) (la 5)
  · intro h
    rw [sixjIdx_eq, sixjIdx_eq] at h
    obtain ⟨h, e5⟩ := radix_inj (la 5) (lb 5) h
    obtain ⟨h, e4⟩ := radix_inj (la 4) (lb 4) h
    obtain ⟨h, e3⟩ := radix_inj (la 3) (lb 3) h
    obtain ⟨h, e2⟩ := radix_inj (la 2) (lb 2) h
    obtain ⟨e0, e1⟩ := radix_inj (la 1) (lb 1) h
    funext i
    fin_cases i <;> assumption

/-- **C53 (6j lookup).** For every table size and every order of the fill iterations, every lookup with arguments up
to the maximum is inside the allocation and returns the 6j symbol of exactly those arguments. -/
theorem C53_sixj_lookup (sixj : Nat → Nat → Nat → Nat → Nat → Nat → ℝ) (jmax : Nat) (init : Nat → ℝ)
    (order : List (Nat × Nat × Nat × Nat × Nat × Nat)) (hord : order.Perm (sixjTuples jmax))
    (a b c d e f : Nat) (ha : a ≤ jmax) (hb : b ≤ jmax) (hc : c ≤ jmax) (hd : d ≤ jmax) (he : e ≤ jmax)
    (hf : f ≤ jmax) :
    sixjIdx jmax a b c d e f < sixjSize jmax ∧
      sixjTable sixj jmax init order (sixjIdx jmax a b c d e f) = sixj a b c d e f := by
  have key : ∀ a b c d e f : Nat, (a, b, c, d, e, f) ∈ sixjTuples jmax ↔
      a ≤ jmax ∧ b ≤ jmax ∧ c ≤ jmax ∧ d ≤ jmax ∧ e ≤ jmax ∧ f ≤ jmax := by
    intro a b c d e f
    unfold sixjTuples
    simp only [List.mem_flatMap, List.mem_map, List.mem_range, Prod.mk.injEq, Nat.lt_succ_iff]
    constructor
    · rintro ⟨a, ha, b, hb, c, hc, d, hd, e, he, f, hf, rfl, rfl, rfl, rfl, rfl, rfl⟩
      exact ⟨ha, hb, hc, hd, he, hf⟩
    · rintro ⟨ha, hb, hc, hd, he, hf⟩
      exact ⟨a, ha, b, hb, c, hc, d, hd, e, he, f, hf, rfl, rfl, rfl, rfl, rfl, rfl⟩
  have all : ∀ a b c d e f : Nat, a ≤ jmax ∧ b ≤ jmax ∧ c ≤ jmax ∧ d ≤ jmax ∧ e ≤ jmax ∧ f ≤ jmax →
      ∀ i, (![a, b, c, d, e, f] : Fin 6 → Nat) i ≤ jmax := by
    rintro a b c d e f ⟨ha, hb, hc, hd, he, hf⟩ i
    fin_cases i <;> assumption
  have hA := all a b c d e f ⟨ha, hb, hc, hd, he, hf⟩
  refine ⟨(C53_sixj_index jmax ![a, b, c, d, e, f] ![a, b, c, d, e, f] hA hA).1, ?_⟩
  unfold sixjTable
  apply writeAll_eq
  · rw [List.mem_map]
    exact ⟨(a, b, c, d, e, f), hord.mem_iff.2 ((key _ _ _ _ _ _).2 ⟨ha, hb, hc, hd, he, hf⟩), rfl⟩
  · intro w hw hw1
    obtain ⟨⟨a', b', c', d', e', f'⟩, ht', rfl⟩ := List.mem_map.1 hw
    have hB := all _ _ _ _ _ _ ((key _ _ _ _ _ _).1 (hord.mem_iff.1 ht'))
    have := (C53_sixj_index jmax ![a', b', c', d', e', f'] ![a, b, c, d, e, f] hB hA).2 hw1
    have h0 := congrFun this 0
    have h1 := congrFun this 1
    have h2 := congrFun this 2
    have h3 := congrFun this 3
    have h4 := congrFun this 4
    have h5 := congrFun this 5
    simp only [Matrix.cons_val] at h0 h1 h2 h3 h4 h5
    subst h0 h1 h2 h3 h4 h5
    rfl

-- a non-trivial legal tuple: j1 = 3/2, j2 = 1, j3 = 1/2, m1 = -1/2, m2 = 1 in a table of two_jmax = 6
example : (0 ≤ (3:Int) ∧ (3:Int) ≤ 6) ∧ (0 ≤ (2:Int) ∧ (2:Int) ≤ 6) ∧ (0 ≤ (1:Int) ∧ (1:Int) ≤ 12) ∧ |(-1:Int)| ≤ 3 ∧ |(2:Int)| ≤ 2 := by decide

/-- **C59 (false of the code).** The 6j table size is computed in a 32-bit `int`; at `lmax = 20`
(`two_jmax = 40`, reached e.g. when the largest orbital angular momentum in the channel is 17) the true size does
not fit, yet the "negative size" check reports nothing: the array is allocated too small. -/
theorem C59_overflow_unreported :
    ∃ jmax, (2 ^ 31 : Nat) ≤ sixjSize jmax ∧ sixjOverflowReported jmax = false ∧ sixjSizeInt32 jmax < sixjSize jmax := by
  refine ⟨40, ?_, ?_, ?_⟩ <;> decide +kernel

/-- C59 (small sizes): for `lmax ≤ 17` the size fits in 32 bits and nothing is reported; for `lmax = 18, 19` the
overflow is reported. -/
theorem C59_overflow_small (lmax : Nat) (h : lmax ≤ 19) :
    (lmax ≤ 17 → sixjSizeInt32 (2 * lmax) = sixjSize (2 * lmax) ∧ sixjOverflowReported (2 * lmax) = false) ∧
    (18 ≤ lmax → sixjOverflowReported (2 * lmax) = true) := by
  have : ∀ n, n < 20 → (n ≤ 17 → sixjSizeInt32 (2 * n) = sixjSize (2 * n) ∧ sixjOverflowReported (2 * n) = false) ∧
    (18 ≤ n → sixjOverflowReported (2 * n) = true) := by decide +kernel
  exact this lmax (by omega)

/-- **C60.** For all quantum numbers within the prestored maxima, all momenta and angles, and any table fill order,
the optimised geometric function (prestored tables, sign fixes, skipped zero factors, common factor pulled out)
equals the direct formula.  Hypotheses: the Legendre arrays hold GSL's values at `x`, `costheta1`, `costheta2`
(GSL's contract), `lmax ≥` all orbital angular momenta. -/
theorem C60_prestored_G_eq_direct (cg : Int → Int → Int → Int → Int → Int → ℝ) (sph : Int → Int → ℝ → ℝ)
    (A : Int → ℝ) (init : Int → ℝ) (lmax maxL maxl : Int) (order : List (Int × Int × Int × Int × Int))
    (hord : order.Perm (cgTuples (2 * lmax)))
    (arr1 arr2 arr3 : Nat → ℝ) (p q x : ℝ)
    (ha1 : ∀ l m : Nat, (l : Int) ≤ maxl → m ≤ l → arr1 (gslIdx l m) = sph l m x)
    (ha2 : ∀ l m : Nat, (l : Int) ≤ maxL → m ≤ l → arr2 (gslIdx l m) = sph l m (cosTheta1 p q x))
    (ha3 : ∀ l m : Nat, (l : Int) ≤ maxl → m ≤ l → arr3 (gslIdx l m) = sph l m (cosTheta2 p q x))
    (twoJ L l L' l' : Int) (hL : 0 ≤ L ∧ L ≤ maxL) (hl : 0 ≤ l ∧ l ≤ maxl) (hL' : 0 ≤ L' ∧ L' ≤ maxL)
    (hl' : 0 ≤ l' ∧ l' ≤ maxl) (hmax : max maxl maxL + 3 = lmax) :
    gtildeSub (cgTable cg (2 * lmax) init order) (2 * lmax) arr1 arr2 arr3 A twoJ L l L' l' =
      gtildeNew cg sph A twoJ L l L' l' p q x := by
  have hm1 : maxl ≤ lmax := by have := le_max_left maxl maxL; omega
  have hm2 : maxL ≤ lmax := by have := le_max_right maxl maxL; omega
  unfold gtildeSub gtildeNew
  rw [← List.sum_map_mul_right]
  apply sum_map_congr
  intro Lt hLt
  unfold ltotalRange at hLt
  rw [mem_forRange_one] at hLt
  have hLt0 : 0 ≤ Lt := by
    have := le_max_left (((L - l).natAbs : Int)) ((L' - l').natAbs : Int)
    omega
  have hLt2 : Lt ≤ L + l := by
    have h1 := hLt.2
    have h2 := min_le_right ((twoJ + 5) / 2) (min (L + l) (L' + l'))
    have h3 := min_le_left (L + l) (L' + l')
    omega
  simp only
  by_cases hf1 : 8 * Real.pi * Real.pi * A Lt = 0
  · rw [if_neg (by simpa using hf1)]
    simp [hf1]
  · rw [if_pos hf1, ← List.sum_map_mul_right]
    apply sum_map_congr
    intro M hM
    rw [mem_forRange_one] at hM
    have hMl : -l ≤ M ∧ M ≤ l := by have := min_le_left l Lt; omega
    have e1 : cgTable cg (2 * lmax) init order (cgIdx (2 * lmax) (2 * L) (2 * l) (2 * Lt) 0 (2 * M)) =
        cg (2 * L) (2 * l) (2 * Lt) 0 (2 * M) (2 * M) := by
      have := cgTable_lookup cg (2 * lmax) init order hord (2 * L, 2 * l, 2 * Lt, 0, 2 * M)
        (by unfold CgLegal; simp only; omega)
      simpa using this
    have e2 : plmStored arr1 l M = plmSigned sph l M x := plmStored_eq ha1 hl.1 hl.2 (by omega)
    rw [e1, e2]
    by_cases hf2 : cg (2 * L) (2 * l) (2 * Lt) 0 (2 * M) (2 * M) * powNeg1 M * plmSigned sph l M x = 0
    · rw [if_neg (not_not.2 hf2), zero_mul]
      symm
      apply List.sum_eq_zero
      intro v hv
      obtain ⟨M', _, rfl⟩ := List.mem_map.1 hv
      split_ifs
      · linear_combination (8 * Real.pi * Real.pi * A Lt) * Real.sqrt ((2 * (L : ℝ) + 1) / (4 * Real.pi)) *
          (cg (2 * L') (2 * l') (2 * Lt) (2 * M') (2 * M - 2 * M') (2 * M)
            * plmSigned sph L' M' (cosTheta1 p q x) * plmSigned sph l' (M - M') (cosTheta2 p q x)) * hf2
      · rfl
    · rw [if_pos hf2, ← List.sum_map_mul_right]
      apply sum_map_congr
      intro M' hM'
      rw [mem_forRange_one] at hM'
      by_cases hd : ((M - M').natAbs : Int) ≤ l'
      · rw [if_pos hd, if_pos hd]
        have e3 : cgTable cg (2 * lmax) init order
            (cgIdx (2 * lmax) (2 * L') (2 * l') (2 * Lt) (2 * M') (2 * M - 2 * M')) =
            cg (2 * L') (2 * l') (2 * Lt) (2 * M') (2 * M - 2 * M') (2 * M) := by
          have := cgTable_lookup cg (2 * lmax) init order hord (2 * L', 2 * l', 2 * Lt, 2 * M', 2 * M - 2 * M')
            (by unfold CgLegal; simp only; omega)
          simpa using this
        have e4 : plmStored arr2 L' M' = plmSigned sph L' M' (cosTheta1 p q x) :=
          plmStored_eq ha2 hL'.1 hL'.2 (by omega)
        have e5 : plmStored arr3 l' (M - M') = plmSigned sph l' (M - M') (cosTheta2 p q x) :=
          plmStored_eq ha3 hl'.1 hl'.2 hd
        rw [e3, e4, e5]; ring
      · rw [if_neg hd, if_neg hd, zero_mul]

-- the hypotheses are satisfiable: arrays defined through the triangular index exist
example : ∃ arr : Nat → ℝ, ∀ l m : Nat, (l : Int) ≤ 2 → m ≤ l → arr (gslIdx l m) = (l : ℝ) + m := by
  refine ⟨fun i => [0, 1, 2, 2, 3, 4].getD i 0, fun l m hl hm => ?_⟩
  have : l ≤ 2 := by exact_mod_cast hl
  interval_cases l <;> interval_cases m <;> norm_num [gslIdx]

end TicTac
