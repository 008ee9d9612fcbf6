import Verif.Lemmas.NijmegenSum
import Verif.Spec.NijmegenNear
/-! How errors of the numerical functions enter the Nijmegen elements. -/
noncomputable section
namespace TicTac
open Polynomial Spec MeasureTheory Set

/-- Numerical functions that are exact. -/
def exactNum : NijNum where
  sex x y a _ _ := (fun n => 1 / 2 * Real.exp (a ^ 2) * ∫ z in (-1 : ℝ)..1, (legendre (n - 1)).eval z * (Real.exp (-(y * (x - z))) / (x - z)),
    fun n => 1 / 2 * Real.exp (a ^ 2) * ∫ z in (-1 : ℝ)..1, (legendre (n - 1)).eval z * Real.exp (-(y * (x - z))))
  ce1 x := Real.exp x * ∫ t in Ioi x, Real.exp (-t) / t
  fdexp := Real.exp

theorem exactNum_ok (po pi : ℝ) : NijExact exactNum po pi where
  yuk _ _ _ _ _ := ⟨fun _ _ => rfl, fun _ _ _ => rfl⟩
  dif _ _ _ := ⟨fun _ _ => rfl, fun _ _ _ => rfl⟩
  ce1 _ _ := rfl
  fdexp _ := rfl

variable (po pi : ℝ)

/-- A quantity that follows errors of the numerical functions in proportion. -/
def LipOn (P : NijNum → ℝ → Prop) (F : NijNum → ℝ) : Prop := ∃ K, 0 ≤ K ∧ ∀ N ε, 0 ≤ ε → P N ε → |F N - F exactNum| ≤ K * (ε + Real.exp (-100))

theorem LipOn.const {P : NijNum → ℝ → Prop} (c : ℝ) : LipOn P fun _ => c := ⟨0, le_rfl, fun N ε h _ => by simp⟩

theorem LipOn.add {P : NijNum → ℝ → Prop} {F G : NijNum → ℝ} (hF : LipOn P F) (hG : LipOn P G) : LipOn P fun N => F N + G N := by
  obtain ⟨K, k0, hK⟩ := hF
  obtain ⟨M, m0, hM⟩ := hG
  refine ⟨K + M, by positivity, fun N ε h hN => ?_⟩
  have := abs_add_le (F N - F exactNum) (G N - G exactNum)
  rw [show F N + G N - (F exactNum + G exactNum) = F N - F exactNum + (G N - G exactNum) by ring, add_mul]
  exact this.trans (add_le_add (hK N ε h hN) (hM N ε h hN))

theorem LipOn.smul {P : NijNum → ℝ → Prop} (c : ℝ) {F : NijNum → ℝ} (hF : LipOn P F) : LipOn P fun N => c * F N := by
  obtain ⟨K, k0, hK⟩ := hF
  refine ⟨|c| * K, by positivity, fun N ε h hN => ?_⟩
  rw [← mul_sub, abs_mul, mul_assoc]
  exact mul_le_mul_of_nonneg_left (hK N ε h hN) (abs_nonneg _)

theorem LipOn.mono {P Q : NijNum → ℝ → Prop} {F : NijNum → ℝ} (hF : LipOn P F) (h : ∀ N ε, Q N ε → P N ε) : LipOn Q F := by
  obtain ⟨K, k0, hK⟩ := hF
  exact ⟨K, k0, fun N ε e hN => hK N ε e (h N ε hN)⟩

theorem LipOn.fsum {P : NijNum → ℝ → Prop} {α : Type} (s : Finset α) (F : α → NijNum → ℝ) (h : ∀ a ∈ s, LipOn P (F a)) : LipOn P fun N => ∑ a ∈ s, F a N := by
  classical
  induction s using Finset.induction_on with
  | empty => simpa using LipOn.const 0
  | insert a s ha ih =>
    simp only [Finset.sum_insert ha]
    exact (h a (by simp)).add (ih fun b hb => h b (by simp [hb]))

/-- The same at one pair of momenta. -/
def Lip (F : NijNum → ℝ) : Prop := LipOn (fun N ε => NijNear N po pi ε) F

variable {po pi}

theorem Lip.const (c : ℝ) : Lip po pi fun _ => c := LipOn.const c

theorem Lip.add {F G : NijNum → ℝ} (hF : Lip po pi F) (hG : Lip po pi G) : Lip po pi fun N => F N + G N := LipOn.add hF hG

theorem Lip.smul (c : ℝ) {F : NijNum → ℝ} (hF : Lip po pi F) : Lip po pi fun N => c * F N := LipOn.smul c hF

theorem Lip.mul_const (c : ℝ) {F : NijNum → ℝ} (hF : Lip po pi F) : Lip po pi fun N => F N * c := by
  have := hF.smul c
  simpa only [mul_comm] using this

theorem Lip.sub {F G : NijNum → ℝ} (hF : Lip po pi F) (hG : Lip po pi G) : Lip po pi fun N => F N - G N := by
  have := hF.add (hG.smul (-1))
  refine (funext fun N => ?_ : (fun N => F N + -1 * G N) = fun N => F N - G N) ▸ this
  ring

theorem Lip.div_const (c : ℝ) {F : NijNum → ℝ} (hF : Lip po pi F) : Lip po pi fun N => F N / c := by
  have := hF.mul_const c⁻¹
  simpa only [div_eq_mul_inv] using this

/-- Only what holds near the exact functions matters. -/
theorem Lip.congr {F G : NijNum → ℝ} (hG : Lip po pi G) (h0 : F exactNum = G exactNum) (h : ∀ N ε, NijNear N po pi ε → F N = G N) : Lip po pi F := by
  obtain ⟨K, k0, hK⟩ := hG
  exact ⟨K, k0, fun N ε e hN => by rw [h0, h N ε hN]; exact hK N ε e hN⟩

theorem Lip.of_abs {F : NijNum → ℝ} (h : ∀ N ε, NijNear N po pi ε → |F N - F exactNum| ≤ ε) : Lip po pi F :=
  ⟨1, zero_le_one, fun N ε _ hN => (h N ε hN).trans (by have := Real.exp_pos (-100); linarith)⟩

theorem Lip.sum {α : Type} (l : List α) (F : α → NijNum → ℝ) (h : ∀ a ∈ l, Lip po pi (F a)) : Lip po pi fun N => (l.map fun a => F a N).sum := by
  induction l with
  | nil => simpa using Lip.const 0
  | cons a l ih =>
    simp only [List.map_cons, List.sum_cons]
    exact (h a (by simp)).add (ih fun b hb => h b (by simp [hb]))

/-- The damped tail at the far end. -/
theorem Lip.tail (x y : ℝ) (hx : 0 ≤ x) (hy : 0.01 ≤ y) : Lip po pi fun N => N.fdexp (-x) * N.ce1 y := by
  refine ⟨1 + |exactNum.ce1 y|, by positivity, fun N ε h hN => ?_⟩
  have c1 : |N.ce1 y - exactNum.ce1 y| ≤ ε := hN.ce1 y hy
  beta_reduce
  rw [hN.fdexp, show exactNum.fdexp (-x) = Real.exp (-x) from rfl]
  generalize exactNum.ce1 y = C at *
  generalize N.ce1 y = D at *
  have p100 := Real.exp_pos (-100)
  have ha := abs_nonneg C
  split_ifs with hc
  · have : Real.exp (-x) ≤ Real.exp (-100) := Real.exp_le_exp.2 hc
    rw [zero_mul, zero_sub, abs_neg, abs_mul, abs_of_pos (Real.exp_pos _)]
    nlinarith [mul_le_mul_of_nonneg_right this ha]
  · rw [← mul_sub, abs_mul, abs_of_pos (Real.exp_pos _)]
    have : Real.exp (-x) ≤ 1 := Real.exp_le_one_iff.2 (by linarith)
    have e1 : Real.exp (-x) * |D - C| ≤ ε := by nlinarith [Real.exp_pos (-x), abs_nonneg (D - C)]
    nlinarith [mul_nonneg ha h, mul_nonneg ha p100.le]

theorem Lip.damp (x : ℝ) (hx : 0 ≤ x) : Lip po pi fun N => N.fdexp (-x) := by
  refine ⟨1, zero_le_one, fun N ε h hN => ?_⟩
  beta_reduce
  rw [hN.fdexp, show exactNum.fdexp (-x) = Real.exp (-x) from rfl]
  have p100 := Real.exp_pos (-100)
  split_ifs with hc
  · have : Real.exp (-x) ≤ Real.exp (-100) := Real.exp_le_exp.2 hc
    rw [zero_sub, abs_neg, abs_of_pos (Real.exp_pos _)]
    linarith
  · rw [sub_self, abs_zero]; linarith

section
variable (J : Nat) (h1 : 0 < po) (h2 : 0 < pi)
include h1 h2

/-- The arrays of an exchange with a propagator. -/
theorem lip_yukArr (lam m : ℝ) (hm : 100 ≤ m ∧ m ≤ 1200) (hl : 500 ≤ lam ∧ lam ≤ 1000) (jmax : Nat) (hj : jmax ≤ 13) (A : NijNum → NijArr)
    (hA : ∀ N, A N = yukArr N (N.sex (0.5 * (po * po + pi * pi) / (po * pi) + 0.5 * (m * m) / (po * pi)) (2 * (po * pi) / (lam * lam)) (m / lam) jmax 1).1
      (N.sex (0.5 * (po * po + pi * pi) / (po * pi) + 0.5 * (m * m) / (po * pi)) (2 * (po * pi) / (lam * lam)) (m / lam) jmax 1).2
      ((po + pi) * (po + pi)) (m * m) (lam * lam)) :
    (∀ n : Int, n ≤ jmax → Lip po pi fun N => (A N).u n) ∧ (∀ n : Int, n ≤ jmax → Lip po pi fun N => (A N).r n) ∧
    (∀ n : Int, n + 1 ≤ jmax → Lip po pi fun N => (A N).s n) ∧ (∀ n : Int, n + 1 ≤ jmax → Lip po pi fun N => (A N).g n) := by
  have e1 : ∀ n, 1 ≤ n → n ≤ jmax + 1 → Lip po pi fun N => (N.sex (0.5 * (po * po + pi * pi) / (po * pi) + 0.5 * (m * m) / (po * pi)) (2 * (po * pi) / (lam * lam)) (m / lam) jmax 1).1 n := by
    intro n n1 n2
    obtain ⟨k, rfl⟩ : ∃ k, n = k + 1 := ⟨n - 1, by omega⟩
    exact Lip.of_abs fun N ε hN => (hN.yuk m lam jmax hm.1 hm.2 hl.1 hl.2 hj).eln rfl k (by omega)
  have e2 : ∀ n, 1 ≤ n → n ≤ jmax + 1 → Lip po pi fun N => (N.sex (0.5 * (po * po + pi * pi) / (po * pi) + 0.5 * (m * m) / (po * pi)) (2 * (po * pi) / (lam * lam)) (m / lam) jmax 1).2 n := by
    intro n n1 n2
    obtain ⟨k, rfl⟩ : ∃ k, n = k + 1 := ⟨n - 1, by omega⟩
    exact Lip.of_abs fun N ε hN => (hN.yuk m lam jmax hm.1 hm.2 hl.1 hl.2 hj).ern k (by omega)
  simp only [hA]
  refine ⟨fun n hn => ?_, fun n hn => ?_, fun n hn => ?_, fun n hn => ?_⟩
  · simp only [yukArr]
    split_ifs with c
    · exact Lip.const 0
    · exact e1 _ (by omega) (by omega)
  · simp only [yukArr]
    split_ifs with c
    · exact Lip.const 0
    · exact e2 _ (by omega) (by omega)
  · simp only [yukArr]
    split_ifs with c d
    · exact Lip.const 0
    · subst d; exact e2 2 (by omega) (by omega)
    · exact (((e2 _ (by omega) (by omega)).smul _).add ((e2 _ (by omega) (by omega)).smul _)).div_const _
  · simp only [yukArr]
    split_ifs with c d
    · exact Lip.const 0
    · subst d
      refine ((e1 2 (by omega) (by omega)).sub (e1 1 (by omega) (by omega))).sub (Lip.tail _ _ (div_nonneg (mul_self_nonneg _) (mul_self_nonneg _)) ?_)
      have l1 : 0 < lam * lam := by nlinarith
      rw [le_div_iff₀ l1]
      nlinarith [mul_pos h1 h2, mul_le_mul hl.2 hl.2 (by linarith) (by norm_num), mul_le_mul hm.1 hm.1 (by norm_num) (by linarith), mul_pos h1 h1, mul_pos h2 h2]
    · exact ((e1 _ (by omega) (by omega)).sub (e1 _ (by omega) (by omega))).div_const _

theorem lip_yuk (lam m : ℝ) (hm : 100 ≤ m ∧ m ≤ 1200) (hl : 500 ≤ lam ∧ lam ≤ 1000) (jmax : Nat) (hj : jmax ≤ 13) (c : NijCoef)
    (hJ : J + 4 ≤ jmax ∨ (J + 2 ≤ jmax ∧ c.xq = 0)) (i : Fin 6) (k : Int) (w : k ≤ window i) :
    Lip po pi fun N => (yukExchange N J po pi lam m jmax c).get i k := by
  obtain ⟨hu, hr, hs, hg⟩ := lip_yukArr h1 h2 lam m hm hl jmax hj _ fun N => rfl
  fin_cases i
  · have w : k ≤ 1 := w
    exact ((((hu _ (by omega)).smul _).sub ((hr _ (by omega)).smul _)).sub ((hs _ (by omega)).smul _)).add ((hu _ (by omega)).smul _)
  · have w : k ≤ 1 := w
    exact (((hu _ (by omega)).smul _).sub ((hr _ (by omega)).smul _)).sub ((hs _ (by omega)).smul _)
  · have w : k ≤ 2 := w
    exact ((hu _ (by omega)).smul _).sub ((hr _ (by omega)).smul _)
  · have w : k ≤ 2 := w
    exact ((hu _ (by omega)).smul _).sub ((hr _ (by omega)).smul _)
  · have w : k ≤ 3 := w
    rcases hJ with hJ | ⟨-, hq⟩
    · exact (hu _ (by omega)).smul _
    · refine (Lip.const 0).congr ?_ fun N _ _ => ?_
      · show c.xq * _ = 0
        rw [hq, zero_mul]
      · show c.xq * _ = 0
        rw [hq, zero_mul]
  · have w : k ≤ 2 := w
    rcases hJ with hJ | ⟨-, hq⟩
    · exact (hg _ (by omega)).smul _
    · refine (Lip.const 0).congr ?_ fun N _ _ => ?_
      · show c.xq * _ * _ = 0
        rw [hq, zero_mul, zero_mul]
      · show c.xq * _ * _ = 0
        rw [hq, zero_mul, zero_mul]

theorem lip_dif (m : ℝ) (hm : 100 ≤ m ∧ m ≤ 300) (jmax : Nat) (hj : jmax ≤ 13) (c : NijCoef) (hJ : J + 4 ≤ jmax) (i : Fin 6) (k : Int) (w : k ≤ window i) :
    Lip po pi fun N => (difExchange N J po pi (m * m) jmax c).get i k := by
  have e2 : ∀ n, 1 ≤ n → n ≤ jmax + 1 → Lip po pi fun N => (N.sex (0.5 * (po * po + pi * pi) / (po * pi)) (0.5 * (po * pi) / (m * m)) 0 jmax 2).2 n := by
    intro n n1 n2
    obtain ⟨k, rfl⟩ : ∃ k, n = k + 1 := ⟨n - 1, by omega⟩
    exact Lip.of_abs fun N ε hN => (hN.dif m jmax hm.1 hm.2 hj).ern k (by omega)
  have hr : ∀ n : Int, n ≤ jmax → Lip po pi fun N => (difArr N (N.sex (0.5 * (po * po + pi * pi) / (po * pi)) (0.5 * (po * pi) / (m * m)) 0 jmax 2).2 ((po + pi) * (po + pi)) (po * pi) (m * m)).r n := by
    intro n hn
    simp only [difArr]
    split_ifs with c
    · exact Lip.const 0
    · exact e2 _ (by omega) (by omega)
  have hs : ∀ n : Int, n + 1 ≤ jmax → Lip po pi fun N => (difArr N (N.sex (0.5 * (po * po + pi * pi) / (po * pi)) (0.5 * (po * pi) / (m * m)) 0 jmax 2).2 ((po + pi) * (po + pi)) (po * pi) (m * m)).s n := by
    intro n hn
    simp only [difArr]
    split_ifs with c d
    · exact Lip.const 0
    · subst d; exact e2 2 (by omega) (by omega)
    · exact (((e2 _ (by omega) (by omega)).smul _).add ((e2 _ (by omega) (by omega)).smul _)).div_const _
  have hg : ∀ n : Int, n + 1 ≤ jmax → Lip po pi fun N => (difArr N (N.sex (0.5 * (po * po + pi * pi) / (po * pi)) (0.5 * (po * pi) / (m * m)) 0 jmax 2).2 ((po + pi) * (po + pi)) (po * pi) (m * m)).g n := by
    intro n hn
    simp only [difArr]
    split_ifs with c d
    · exact Lip.const 0
    · subst d
      exact ((e2 2 (by omega) (by omega)).sub (e2 1 (by omega) (by omega))).sub ((((Lip.damp _ (div_nonneg (div_nonneg (mul_self_nonneg _) (by norm_num)) (mul_self_nonneg _))).smul 2).mul_const _).div_const _)
    · exact ((e2 _ (by omega) (by omega)).sub (e2 _ (by omega) (by omega))).div_const _
  fin_cases i
  · have w : k ≤ 1 := w
    exact (((hr _ (by omega)).smul _).add ((hs _ (by omega)).smul _)).add ((hr _ (by omega)).smul _)
  · exact Lip.const 0
  · exact Lip.const 0
  · have w : k ≤ 2 := w
    exact (hr _ (by omega)).smul _
  · have w : k ≤ 3 := w
    exact (hr _ (by omega)).smul _
  · have w : k ≤ 2 := w
    exact (hg _ (by omega)).smul _
end

/-- Cutoffs and masses are in the range asked for. -/
def NijPars.Range (p : NijPars) : Prop := (500 ≤ p.alamp ∧ p.alamp ≤ 1000) ∧ (500 ≤ p.alamv ∧ p.alamv ≤ 1000) ∧ (500 ≤ p.alams ∧ p.alams ≤ 1000) ∧
  (100 ≤ p.ame1 ∧ p.ame1 ≤ 1200) ∧ (100 ≤ p.ame2 ∧ p.ame2 ≤ 1200) ∧ (100 ≤ p.ampom ∧ p.ampom ≤ 300) ∧ (100 ≤ p.ama2d ∧ p.ama2d ≤ 300)
instance (p : NijPars) : Decidable p.Range := by unfold NijPars.Range; infer_instance

theorem nijTable_range (p : PhName) (s : Int) : (nijPars (nijTable p s)).Range := by
  have ii : ∀ (c : Prop) [Decidable c] (a b : List ℚ), (nijPars a).Range → (nijPars b).Range → (nijPars (if c then a else b)).Range := by
    intro c _ a b ha hb
    by_cases h : c
    · rwa [if_pos h]
    · rwa [if_neg h]
  unfold nijTable
  refine ii _ _ _ (ii _ _ _ ?_ ?_) (ii _ _ _ ?_ (ii _ _ _ ?_ (ii _ _ _ ?_ (ii _ _ _ ?_ (ii _ _ _ ?_ (ii _ _ _ ?_ (ii _ _ _ ?_ (ii _ _ _ ?_ (ii _ _ _ ?_ (ii _ _ _ ?_ (ii _ _ _ ?_
    (ii _ _ _ ?_ (ii _ _ _ ?_ ?_)))))))))))))
  all_goals decide +kernel

theorem charged_range (m : ℝ) (h : 120 ≤ m ∧ m ≤ 1200) : 100 ≤ nijFac * Real.sqrt (m ^ 2 - (neutm - protm) ^ 2) ∧ nijFac * Real.sqrt (m ^ 2 - (neutm - protm) ^ 2) ≤ 1200 := by
  have f1 : 0.9 ≤ nijFac := by
    unfold nijFac
    rw [le_div_iff₀ (by norm_num [protm, neutm])]
    have : (938 : ℝ) ≤ Real.sqrt (protm * neutm) := Real.le_sqrt_of_sq_le (by norm_num [protm, neutm])
    have e : protm + neutm ≤ 1880 := by norm_num [protm, neutm]
    linarith
  have f2 : nijFac ≤ 1 := by
    unfold nijFac
    rw [div_le_one (by norm_num [protm, neutm])]
    have : Real.sqrt (protm * neutm) ≤ (protm + neutm) / 2 := Real.sqrt_le_left (by norm_num [protm, neutm]) |>.mpr (by norm_num [protm, neutm])
    linarith
  have d : (neutm - protm) ^ 2 ≤ 4 := by norm_num [protm, neutm]
  have s1 : 115 ≤ Real.sqrt (m ^ 2 - (neutm - protm) ^ 2) := Real.le_sqrt_of_sq_le (by nlinarith)
  have s2 : Real.sqrt (m ^ 2 - (neutm - protm) ^ 2) ≤ m := Real.sqrt_le_left (by linarith) |>.mpr (by nlinarith [sq_nonneg (neutm - protm)])
  constructor
  · nlinarith
  · nlinarith

/-- A list of exchanges that follows errors in proportion. -/
def LipL (po pi : ℝ) (L : NijNum → List PotMom) : Prop := ∀ (i : Fin 6) (k : Int), k ≤ window i → Lip po pi fun N => ((L N).map fun b => b.get i k).sum

theorem LipL.nil : LipL po pi fun _ => [] := fun i k _ => by simpa using Lip.const 0

theorem LipL.cons {A : NijNum → PotMom} {L : NijNum → List PotMom} (hA : ∀ (i : Fin 6) (k : Int), k ≤ window i → Lip po pi fun N => (A N).get i k) (hL : LipL po pi L) :
    LipL po pi fun N => A N :: L N := fun i k w => by
  simp only [List.map_cons, List.sum_cons]
  exact (hA i k w).add (hL i k w)

theorem LipL.append {L M : NijNum → List PotMom} (hL : LipL po pi L) (hM : LipL po pi M) : LipL po pi fun N => L N ++ M N := fun i k w => by
  simp only [List.map_append, List.sum_append]
  exact (hL i k w).add (hM i k w)

theorem LipL.ite (c : Prop) [Decidable c] {L : NijNum → List PotMom} (hL : LipL po pi L) : LipL po pi fun N => if c then L N else [] := by
  split_ifs
  · exact hL
  · exact LipL.nil

theorem lip_terms (h1 : 0 < po) (h2 : 0 < pi) (J : Nat) (hJ : J ≤ 9) (p : NijPars) (hp : p.Range) (k : NijCop) (m : AmCoef) (typ : NijType) :
    LipL po pi fun N => nijTerms N J po pi p k m typ := by
  obtain ⟨c1, c2, c3, c4, c5, c6, c7⟩ := hp
  have up : ∀ (a b : ℚ) (x : ℚ), a ≤ x ∧ x ≤ b → (a : ℝ) ≤ (x : ℝ) ∧ (x : ℝ) ≤ (b : ℝ) := fun a b x h => ⟨by exact_mod_cast h.1, by exact_mod_cast h.2⟩
  have c1 : (500 : ℝ) ≤ p.alamp ∧ (p.alamp : ℝ) ≤ 1000 := by exact_mod_cast c1
  have c2 : (500 : ℝ) ≤ p.alamv ∧ (p.alamv : ℝ) ≤ 1000 := by exact_mod_cast c2
  have c3 : (500 : ℝ) ≤ p.alams ∧ (p.alams : ℝ) ≤ 1000 := by exact_mod_cast c3
  have c4 : (100 : ℝ) ≤ p.ame1 ∧ (p.ame1 : ℝ) ≤ 1200 := by exact_mod_cast c4
  have c5 : (100 : ℝ) ≤ p.ame2 ∧ (p.ame2 : ℝ) ≤ 1200 := by exact_mod_cast c5
  have c6 : (100 : ℝ) ≤ p.ampom ∧ (p.ampom : ℝ) ≤ 300 := by exact_mod_cast c6
  have c7 : (100 : ℝ) ≤ p.ama2d ∧ (p.ama2d : ℝ) ≤ 300 := by exact_mod_cast c7
  have y2 : ∀ (lam m : ℝ) (c : NijCoef), 100 ≤ m ∧ m ≤ 1200 → 500 ≤ lam ∧ lam ≤ 1000 → c.xq = 0 → ∀ (i : Fin 6) (k : Int), k ≤ window i → Lip po pi fun N => (yukExchange N J po pi lam m (J + 2) c).get i k :=
    fun lam m c hm hl hc i k w => lip_yuk J h1 h2 lam m hm hl _ (by omega) c (Or.inr ⟨le_rfl, hc⟩) i k w
  have y4 : ∀ (lam m : ℝ) (c : NijCoef), 100 ≤ m ∧ m ≤ 1200 → 500 ≤ lam ∧ lam ≤ 1000 → ∀ (i : Fin 6) (k : Int), k ≤ window i → Lip po pi fun N => (yukExchange N J po pi lam m (J + 4) c).get i k :=
    fun lam m c hm hl i k w => lip_yuk J h1 h2 lam m hm hl _ (by omega) c (Or.inl le_rfl) i k w
  have d4 : ∀ (m : ℝ) (c : NijCoef), 100 ≤ m ∧ m ≤ 300 → ∀ (i : Fin 6) (k : Int), k ≤ window i → Lip po pi fun N => (difExchange N J po pi (m * m) (J + 4) c).get i k :=
    fun m c hm i k w => lip_dif J h1 h2 m hm _ (by omega) c le_rfl i k w
  unfold nijTerms
  refine LipL.append (LipL.append (LipL.append (LipL.append (LipL.append (LipL.append (LipL.append ?_ ?_) ?_) ?_) ?_) ?_) ?_) ?_
  · exact LipL.cons (y2 _ _ _ (by norm_num [nijAmpi]) c1 rfl) (LipL.cons (y2 _ _ _ (by norm_num [nijAmeta]) c1 rfl) (LipL.cons (y2 _ _ _ (by norm_num [nijAmetp]) c1 rfl) LipL.nil))
  · exact LipL.ite _ (LipL.cons (y2 _ _ _ (charged_range _ (by norm_num [nijAmpic])) c1 rfl) LipL.nil)
  · exact LipL.cons (y4 _ _ _ (by norm_num [nijAmr1]) c2) (LipL.cons (y4 _ _ _ (by norm_num [nijAmr2]) c2) (LipL.cons (y4 _ _ _ (by norm_num [nijAmom]) c2)
      (LipL.cons (y4 _ _ _ (by norm_num [nijAmfi]) c2) LipL.nil)))
  · exact LipL.ite _ (LipL.cons (y4 _ _ _ (charged_range _ (by norm_num [nijAmrc1])) c2) (LipL.cons (y4 _ _ _ (charged_range _ (by norm_num [nijAmrc2])) c2) LipL.nil))
  · exact LipL.cons (y4 _ _ _ (by norm_num [nijAma0]) c3) (LipL.cons (y4 _ _ _ c4 c3) (LipL.cons (y4 _ _ _ c5 c3) (LipL.cons (y4 _ _ _ (by norm_num [nijAmf0]) c3) LipL.nil)))
  · exact LipL.ite _ (LipL.cons (y4 _ _ _ (charged_range _ (by norm_num [nijAma0c])) c3) LipL.nil)
  · exact LipL.cons (d4 _ _ c6) (LipL.cons (d4 _ _ c7) LipL.nil)
  · exact LipL.ite _ (LipL.cons (d4 _ _ c7) LipL.nil)

theorem nymcop_near (N : NijNum) (ε : ℝ) (hN : NijNear N po pi ε) (p : NijPars) (hp : p.Range) (typ : NijType) (iso : Nat) (b : Bool) :
    nymcop N p typ iso b = nymcop exactNum p typ iso b := by
  have c1 : (500 : ℝ) ≤ p.alamp := by exact_mod_cast hp.1.1
  have e : N.fdexp (-((nijAmpi / p.alamp) ^ 2)) = exactNum.fdexp (-((nijAmpi / p.alamp) ^ 2)) := by
    rw [hN.fdexp, if_neg]
    · rfl
    · have : nijAmpi / (p.alamp : ℝ) ≤ 1 := (div_le_one (by linarith)).2 (by unfold nijAmpi; linarith)
      have h0 : 0 ≤ nijAmpi / (p.alamp : ℝ) := div_nonneg (by norm_num [nijAmpi]) (by linarith)
      nlinarith
  unfold nymcop
  rw [e]

theorem lip_vmom (h1 : 0 < po) (h2 : 0 < pi) (p : PhName) (hJ : p.j ≤ 9) (typ : NijType) (i : Fin 6) (k : Int) (w : k ≤ window i) :
    Lip po pi fun N => (vmom N p typ po pi).get i k := by
  have hr := nijTable_range p (nijIsign typ)
  have hwj : (waveOf p).j = p.j := rfl
  have main := lip_terms h1 h2 p.j hJ _ hr (nymcop exactNum (nijPars (nijTable p (nijIsign typ))) typ (waveOf p).iso (p = ⟨'1', 'S', 0⟩)) (amfacs (nijAmy typ) (nijAmn typ)) typ i k w
  refine ((Lip.const (PotMom.zero.get i k)).add main).congr ?_ fun N ε hN => ?_
  · unfold vmom
    rw [foldl_get]
    rfl
  · unfold vmom
    dsimp only
    rw [foldl_get, nymcop_near N ε hN _ hr]
    rfl

theorem Lip.lin {f : PotMom → ℝ} (hf : Lin f) {A : NijNum → PotMom} (hA : ∀ (i : Fin 6) (k : Int), k ≤ window i → Lip po pi fun N => (A N).get i k) : Lip po pi fun N => f (A N) := by
  obtain ⟨l, hl, e⟩ := hf
  simp only [e, linEval]
  exact Lip.sum l (fun t N => t.1 * (A N).get t.2.1 t.2.2) fun t ht => (hA _ _ (hl t ht).2).smul _

theorem lip_pnijmlsj (p : PhName) (A : NijNum → PotMom) (hA : ∀ (i : Fin 6) (k : Int), k ≤ window i → Lip po pi fun N => (A N).get i k) :
    Lip po pi (fun N => (pnijmlsj p po pi (A N)).v11) ∧ Lip po pi (fun N => (pnijmlsj p po pi (A N)).v12) ∧
    Lip po pi (fun N => (pnijmlsj p po pi (A N)).v21) ∧ Lip po pi (fun N => (pnijmlsj p po pi (A N)).v22) := by
  have z := Lip.const (po := po) (pi := pi) 0
  unfold pnijmlsj
  dsimp only
  split_ifs
  · exact ⟨z, z, z, z⟩
  · exact ⟨Lip.lin (lin_singlet _ _ _) hA, z, z, z⟩
  · exact ⟨Lip.lin (lin_triplet _ _ _) hA, z, z, z⟩
  · exact ⟨Lip.lin (lin_upper _ _ _) hA, z, z, z⟩
  · exact ⟨z, z, z, z⟩
  · exact ⟨Lip.lin (lin_lower _ _ _) hA, Lip.lin (lin_mix12 _ _ _) hA, Lip.lin (lin_mix21 _ _ _) hA, Lip.lin (lin_upper _ _ _) hA⟩

theorem nijName_j (j i : Nat) (p : PhName) (h : nijName j i = some p) : p.j = j := by
  unfold nijName at h
  split at h <;> first | (cases h; rfl) | cases h

theorem lip_element (h1 : 0 < po) (h2 : 0 < pi) (c : Bool) (S : Int) (J : Nat) (Tz : Int) (old : NijType) (k : Fin 6) :
    Lip po pi fun N => nijmegenV N pi po c S J Tz old k := by
  have key : ∀ (b : Bool) (i : Nat) (f : VPot → ℝ) (hf : ∀ (p : PhName) (A : NijNum → PotMom), (∀ (i : Fin 6) (k : Int), k ≤ window i → Lip po pi fun N => (A N).get i k) →
      Lip po pi (fun N => f (pnijmlsj p po pi (A N)))),
      Lip po pi fun N => ((if J > 9 ∨ b = false then none else (nijName J i).map fun p => pnijmlsj p po pi (vmom N p (nijTypeOf (-Tz) old) po pi)).map f).getD 0 := by
    intro b i f hf
    split_ifs with hc
    · exact Lip.const 0
    · cases hn : nijName J i with
      | none => exact Lip.const 0
      | some p =>
        have hj : p.j ≤ 9 := by
          have := nijName_j J i p hn
          push Not at hc
          omega
        exact hf p _ fun i k w => lip_vmom h1 h2 p hj _ i k w
  have k11 := fun b i => key b i VPot.v11 fun p A hA => (lip_pnijmlsj p A hA).1
  have k12 := fun b i => key b i VPot.v12 fun p A hA => (lip_pnijmlsj p A hA).2.1
  have k21 := fun b i => key b i VPot.v21 fun p A hA => (lip_pnijmlsj p A hA).2.2.1
  have k22 := fun b i => key b i VPot.v22 fun p A hA => (lip_pnijmlsj p A hA).2.2.2
  have all : ∀ q : Fin 6, Lip po pi fun N => vnijm N pi po c S J (-Tz) old q := by
    intro q
    unfold vnijm nijmCollect
    dsimp only
    refine Lip.mul_const _ ?_
    by_cases h0 : J = 0
    · simp only [if_pos h0]
      fin_cases q
      · exact k11 _ 1
      · exact Lip.const 0
      · exact k11 _ 2
      · exact k11 _ 3
      · exact k21 _ 3
      · exact k12 _ 3
    · simp only [if_neg h0]
      fin_cases q
      · exact k11 _ 1
      · exact k11 _ 2
      · exact k22 _ 3
      · exact k11 _ 3
      · exact k21 _ 3
      · exact k12 _ 3
  unfold nijmegenV reorderExternal
  split_ifs <;> exact all _

end TicTac
end
