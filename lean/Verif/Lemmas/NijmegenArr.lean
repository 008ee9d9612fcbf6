import Verif.Lemmas.NijmegenYuk
/-! The arrays of an exchange when the numerical functions are exact. -/
noncomputable section
namespace TicTac
open Polynomial Spec MeasureTheory Set intervalIntegral

theorem transfer_nonneg (po pi z : ℝ) (hz : z ∈ uIcc (-1 : ℝ) 1) : 0 ≤ transfer po pi z := by
  rw [uIcc_of_le (by norm_num)] at hz
  unfold transfer
  have e : po ^ 2 + pi ^ 2 - 2 * po * pi * z = (1 - z) / 2 * (po + pi) ^ 2 + (1 + z) / 2 * (po - pi) ^ 2 := by ring
  rw [e]
  have h1 : 0 ≤ (1 - z) / 2 := by linarith [hz.2]
  have h2 : 0 ≤ (1 + z) / 2 := by linarith [hz.1]
  positivity

theorem transfer_deriv (po pi z : ℝ) : HasDerivAt (transfer po pi) (-(2 * (po * pi))) z := by
  unfold transfer
  have := ((hasDerivAt_id z).const_mul (2 * po * pi)).const_sub (po ^ 2 + pi ^ 2)
  exact this.congr_deriv (by ring)

/-- The strength of the tail is differentiable. -/
theorem tail_z {f : ℝ → ℝ} {b : ℝ} (po pi : ℝ) (hb : b < 0) (hf : ContinuousOn f (Ioi b)) (hi : ∀ t, b < t → IntegrableOn f (Ioi t)) :
    (∀ z ∈ uIcc (-1 : ℝ) 1, HasDerivAt (fun z => ∫ k in Ioi (transfer po pi z), f k) (2 * (po * pi) * f (transfer po pi z)) z) ∧
    ContinuousOn (fun z => f (transfer po pi z)) (uIcc (-1) 1) ∧ ContinuousOn (fun z => ∫ k in Ioi (transfer po pi z), f k) (uIcc (-1) 1) := by
  have h1 : ∀ z ∈ uIcc (-1 : ℝ) 1, HasDerivAt (fun z => ∫ k in Ioi (transfer po pi z), f k) (2 * (po * pi) * f (transfer po pi z)) z := by
    intro z hz
    have := HasDerivAt.comp (h₂ := fun t => ∫ k in Ioi t, f k) z (tail_deriv hf hi (lt_of_lt_of_le hb (transfer_nonneg po pi z hz))) (transfer_deriv po pi z)
    rw [neg_mul_neg, mul_comm] at this
    exact this
  refine ⟨h1, ?_, fun z hz => (h1 z hz).continuousAt.continuousWithinAt⟩
  exact hf.comp (transfer_cont po pi).continuousOn fun z hz => lt_of_lt_of_le hb (transfer_nonneg po pi z hz)

theorem yukawa_cont {m2 lam : ℝ} : ContinuousOn (yukawaSq m2 lam) (Ioi (-m2)) := by
  unfold yukawaSq
  apply ContinuousOn.div
  · fun_prop
  · fun_prop
  · intro k hk
    have : -m2 < k := hk
    linarith

theorem yukawa_integrable {m2 lam t : ℝ} (hl : 0 < lam) (ht : -m2 < t) : IntegrableOn (yukawaSq m2 lam) (Ioi t) := by
  have hp := Real.pi_pos
  have h1 : IntegrableOn (fun k => 4 * Real.pi / (t + m2) * Real.exp (-(1 / lam ^ 2) * k)) (Ioi t) :=
    (integrableOn_exp_mul_Ioi (by have : 0 < 1 / lam ^ 2 := by positivity
                                  linarith) t).const_mul _
  refine Integrable.mono' h1 ((yukawa_cont.mono fun k hk => lt_trans ht hk).aestronglyMeasurable measurableSet_Ioi) ?_
  rw [ae_restrict_iff' measurableSet_Ioi]
  refine Filter.Eventually.of_forall fun k hk => ?_
  have hk : t < k := hk
  have a1 : 0 < t + m2 := by linarith
  have a2 : 0 < k + m2 := by linarith
  unfold yukawaSq
  rw [Real.norm_of_nonneg (by positivity), show -(1 / lam ^ 2) * k = -(k / lam ^ 2) by ring, div_mul_eq_mul_div]
  gcongr

theorem gaussian_cont (m : ℝ) (s : Set ℝ) : ContinuousOn (gaussian m) s := by unfold gaussian; fun_prop

theorem gaussian_eq (m : ℝ) : gaussian m = fun k => 4 * Real.pi * Real.exp (-(1 / (4 * m ^ 2)) * k) := by
  funext k
  unfold gaussian
  congr 2
  ring

theorem gaussian_integrable {m : ℝ} (hm : 0 < m) (t : ℝ) : IntegrableOn (gaussian m) (Ioi t) := by
  rw [gaussian_eq]
  exact (integrableOn_exp_mul_Ioi (by have : 0 < 1 / (4 * m ^ 2) := by positivity
                                      linarith) t).const_mul _

theorem gaussian_tail {m : ℝ} (hm : 0 < m) (t : ℝ) : ∫ k in Ioi t, gaussian m k = 16 * Real.pi * m ^ 2 * Real.exp (-(t / (4 * m ^ 2))) := by
  have h : -(1 / (4 * m ^ 2)) < 0 := by have : 0 < 1 / (4 * m ^ 2) := by positivity
                                        linarith
  rw [gaussian_eq, MeasureTheory.integral_const_mul, integral_exp_mul_Ioi h, show -(1 / (4 * m ^ 2)) * t = -(t / (4 * m ^ 2)) by ring]
  field_simp
  norm_num

theorem shift_Ioi (g : ℝ → ℝ) (s c : ℝ) : ∫ k in Ioi s, g (k + c) = ∫ k in Ioi (s + c), g k := by
  have := (measurePreserving_add_right (volume : Measure ℝ) c).setIntegral_preimage_emb (measurableEmbedding_addRight c) g (Ioi (s + c))
  rw [preimage_add_const_Ioi, add_sub_cancel_right] at this
  exact this

theorem yukawa_tail {m2 lam t : ℝ} (hl : 0 < lam) (ht : -m2 < t) :
    ∫ k in Ioi t, yukawaSq m2 lam k = 4 * Real.pi * Real.exp (-(t / lam ^ 2)) * (Real.exp ((t + m2) / lam ^ 2) * ∫ u in Ioi ((t + m2) / lam ^ 2), Real.exp (-u) / u) := by
  have hb : 0 < 1 / lam ^ 2 := by positivity
  have e1 : ∫ k in Ioi t, yukawaSq m2 lam k = 4 * Real.pi * Real.exp (m2 / lam ^ 2) * (1 / lam ^ 2) *
      ∫ k in Ioi t, (fun u => Real.exp (-(1 / lam ^ 2 * u)) / (1 / lam ^ 2 * u)) (k + m2) := by
    rw [← MeasureTheory.integral_const_mul]
    apply setIntegral_congr_fun measurableSet_Ioi
    intro k hk
    have hk : t < k := hk
    have a : k + m2 ≠ 0 := by linarith
    unfold yukawaSq
    have : Real.exp (-(k / lam ^ 2)) = Real.exp (m2 / lam ^ 2) * Real.exp (-(1 / lam ^ 2 * (k + m2))) := by rw [← Real.exp_add]; congr 1; ring
    beta_reduce
    rw [this]
    generalize Real.exp (m2 / lam ^ 2) = A
    generalize Real.exp (-(1 / lam ^ 2 * (k + m2))) = B
    field_simp
  rw [e1, shift_Ioi (fun u => Real.exp (-(1 / lam ^ 2 * u)) / (1 / lam ^ 2 * u)), integral_comp_mul_left_Ioi (fun u => Real.exp (-u) / u) _ hb, smul_eq_mul, show 1 / lam ^ 2 * (t + m2) = (t + m2) / lam ^ 2 by ring]
  have : Real.exp (-(t / lam ^ 2)) * Real.exp ((t + m2) / lam ^ 2) = Real.exp (m2 / lam ^ 2) := by rw [← Real.exp_add]; congr 1; ring
  rw [← this]
  field_simp

theorem exOK_yuk (e : Exchange) (po pi m2 lam : ℝ) (hm : 0 < m2) (hl : 0 < lam) (he : e.prop = yukawaSq m2 lam) : ExOK e po pi := by
  have := tail_z po pi (neg_lt_zero.2 hm) yukawa_cont (fun t ht => yukawa_integrable hl ht)
  constructor
  · rw [he]; exact this.2.1
  · rw [he]; exact this.2.2

theorem exOK_gauss (e : Exchange) (po pi m : ℝ) (hm : 0 < m) (he : e.prop = gaussian m) : ExOK e po pi := by
  have := tail_z (b := -1) po pi (by norm_num) (gaussian_cont m _) (fun t _ => gaussian_integrable hm t)
  constructor
  · rw [he]; exact this.2.1
  · rw [he]; exact this.2.2

theorem legCoef_nat (f : ℝ → ℝ) (n : Nat) : legCoef f n = 1 / 2 * ∫ z in (-1 : ℝ)..1, (legendre n).eval z * f z := by
  unfold legCoef
  simp only [legI_nat]

section
variable (po pi m lam z : ℝ)

theorem yuk_x (hq : po * pi ≠ 0) : 0.5 * (po * po + pi * pi) / (po * pi) + 0.5 * (m * m) / (po * pi) - z = (transfer po pi z + m * m) / (2 * (po * pi)) := by
  obtain ⟨h1, h2⟩ := mul_ne_zero_iff.1 hq
  unfold transfer
  field_simp
  ring

theorem yuk_exp (hq : po * pi ≠ 0) (hl : lam ≠ 0) :
    Real.exp ((m / lam) ^ 2) * Real.exp (-(2 * (po * pi) / (lam * lam) * (0.5 * (po * po + pi * pi) / (po * pi) + 0.5 * (m * m) / (po * pi) - z))) = Real.exp (-(transfer po pi z / lam ^ 2)) := by
  obtain ⟨h1, h2⟩ := mul_ne_zero_iff.1 hq
  rw [yuk_x po pi m z hq, ← Real.exp_add]
  congr 1
  field_simp
  ring

theorem dif_exp (m2 : ℝ) (hq : po * pi ≠ 0) (hm : m2 ≠ 0) :
    Real.exp (-(0.5 * (po * pi) / m2 * (0.5 * (po * po + pi * pi) / (po * pi) - z))) = Real.exp (-(transfer po pi z / (4 * m2))) := by
  obtain ⟨h1, h2⟩ := mul_ne_zero_iff.1 hq
  congr 1
  unfold transfer
  field_simp
  ring
end

/-- Coefficients with a constant factor taken out. -/
theorem coef_of (n : Nat) (A : ℝ) {f g : ℝ → ℝ} (h : ∀ z ∈ uIcc (-1 : ℝ) 1, A * f z = g z) :
    A * (1 / 2 * ∫ z in (-1 : ℝ)..1, (legendre n).eval z * f z) = legCoef g n := by
  rw [← legCoef_nat, ← legCoef_smul]
  exact legCoef_congr h n

theorem arr_s {R : Nat → ℝ} {fac : ℝ} {E : ℝ → ℝ} (hE : ContinuousOn E (uIcc (-1) 1)) (j : Nat) (hR : ∀ n ≤ j, fac * R (n + 1) = legCoef E n) (n : Int) (hn : n + 1 ≤ j) :
    fac * (if n < 0 then 0 else if n = 0 then R 2 else (n.toNat * R n.toNat + (n.toNat + 1) * R (n.toNat + 2)) / (2 * n.toNat + 1)) = legCoef (fun z => z * E z) n := by
  split_ifs with h1 h2
  · rw [legCoef_neg _ _ h1, mul_zero]
  · subst h2
    have := legCoef_z hE 0
    rw [if_pos rfl] at this
    have h1 := hR 1 (by omega)
    push_cast at this h1
    rw [this, ← h1]
  · obtain ⟨i, rfl⟩ : ∃ i : Nat, n = ((i + 1 : Nat) : Int) := ⟨(n - 1).toNat, by omega⟩
    rw [Int.toNat_natCast, legCoef_z hE (i + 1), if_neg (by omega), show ((i + 1 : Nat) : Int) - 1 = (i : Nat) by push_cast; ring,
      show ((i + 1 : Nat) : Int) + 1 = ((i + 2 : Nat) : Int) by push_cast; ring, ← hR i (by omega), ← hR (i + 2) (by omega)]
    ring

theorem arr_g {U : Nat → ℝ} {fac qq b : ℝ} {W T : ℝ → ℝ} (hW : ContinuousOn W (uIcc (-1) 1)) (hT : ∀ z ∈ uIcc (-1 : ℝ) 1, HasDerivAt T (2 * qq * W z) z)
    (hb : 2 * qq * (fac * b) = T (-1)) (j : Nat) (hU : ∀ n ≤ j, fac * U (n + 1) = legCoef W n) (n : Int) (hn : n + 1 ≤ j) :
    fac * (qq * (if n < 0 then 0 else if n = 0 then U 2 - U 1 - b else (U (n.toNat + 2) - U n.toNat) / (2 * n.toNat + 1))) = -(1 / 2 * legCoef T n) := by
  have hc : ContinuousOn (fun z => 2 * qq * W z) (uIcc (-1) 1) := continuousOn_const.mul hW
  split_ifs with h1 h2
  · rw [legCoef_neg _ _ h1]; ring
  · subst h2
    have := legCoef_parts hT hc 0
    rw [if_pos rfl, legCoef_smul, legCoef_smul, ← hb] at this
    have e0 := hU 0 (by omega)
    have e1 := hU 1 (by omega)
    push_cast at this e0 e1
    rw [this, ← e0, ← e1]
    ring
  · obtain ⟨i, rfl⟩ : ∃ i : Nat, n = ((i + 1 : Nat) : Int) := ⟨(n - 1).toNat, by omega⟩
    rw [Int.toNat_natCast, legCoef_parts hT hc (i + 1), if_neg (by omega), show ((i + 1 : Nat) : Int) - 1 = (i : Nat) by push_cast; ring,
      show ((i + 1 : Nat) : Int) + 1 = ((i + 2 : Nat) : Int) by push_cast; ring, legCoef_smul, legCoef_smul, ← hU i (by omega), ← hU (i + 2) (by omega)]
    ring

theorem arrOK_yuk (N : NijNum) (po pi m lam : ℝ) (hq1 : 0 < po) (hq2 : 0 < pi) (hm : 0 < m) (hl : 0 < lam) (hN : NijExact N po pi) (j : Nat) :
    let x := 0.5 * (po * po + pi * pi) / (po * pi) + 0.5 * (m * m) / (po * pi)
    let e := N.sex x (2 * (po * pi) / (lam * lam)) (m / lam) j 1
    ArrOK (yukArr N e.1 e.2 ((po + pi) * (po + pi)) (m * m) (lam * lam)) x (facYuk po pi) (po * pi) (fun z => yukawaSq (m * m) lam (transfer po pi z))
      (fun z => ∫ k2 in Ioi (transfer po pi z), yukawaSq (m * m) lam k2) j := by
  intro x e
  have hq : 0 < po * pi := by positivity
  have hp := Real.pi_pos
  have hm2 : 0 < m * m := by positivity
  obtain ⟨s1, s2⟩ := hN.yuk m lam hm hl j
  have s2 := s2 rfl
  have htl := tail_z po pi (neg_lt_zero.2 hm2) (yukawa_cont (m2 := m * m) (lam := lam)) (fun t ht => yukawa_integrable hl ht)
  have hU : ∀ n ≤ j, facYuk po pi * e.1 (n + 1) = legCoef (fun z => yukawaSq (m * m) lam (transfer po pi z)) n := by
    intro n hn
    rw [show e.1 (n + 1) = _ from s2 n hn, ← coef_of n (facYuk po pi * Real.exp ((m / lam) ^ 2))]
    · ring
    · intro z hz
      have := transfer_nonneg po pi z hz
      rw [mul_assoc, ← mul_div_assoc, yuk_exp po pi m lam z hq.ne' hl.ne', yuk_x po pi m z hq.ne']
      unfold facYuk yukawaSq
      field_simp
      norm_num
  have hR : ∀ n ≤ j, facYuk po pi * e.2 (n + 1) = legCoef (fun z => (x - z) * yukawaSq (m * m) lam (transfer po pi z)) n := by
    intro n hn
    rw [show e.2 (n + 1) = _ from s1 n hn, ← coef_of n (facYuk po pi * Real.exp ((m / lam) ^ 2))]
    · ring
    · intro z hz
      have := transfer_nonneg po pi z hz
      rw [mul_assoc, yuk_exp po pi m lam z hq.ne' hl.ne', yuk_x po pi m z hq.ne']
      unfold facYuk yukawaSq
      field_simp
      norm_num
  have hE : ContinuousOn (fun z => (x - z) * yukawaSq (m * m) lam (transfer po pi z)) (uIcc (-1) 1) :=
    (by fun_prop : ContinuousOn (fun z => x - z) (uIcc (-1) 1)).mul htl.2.1
  have nn : ∀ n : Int, ¬ n < 0 → n = (n.toNat : Int) := fun n h => by omega
  refine ⟨fun n hn => ?_, fun n hn => ?_, fun n hn => ?_, fun n hn => ?_⟩
  · show facYuk po pi * (if n < 0 then 0 else e.1 (n.toNat + 1)) = _
    split_ifs with h
    · rw [legCoef_neg _ _ h, mul_zero]
    · rw [hU _ (by omega), ← nn n h]
  · show facYuk po pi * (if n < 0 then 0 else e.2 (n.toNat + 1)) = _
    split_ifs with h
    · rw [legCoef_neg _ _ h, mul_zero]
    · rw [hR _ (by omega), ← nn n h]
  · exact arr_s hE j hR n hn
  · refine arr_g htl.2.1 htl.1 ?_ j hU n hn
    have t1 : transfer po pi (-1) = (po + pi) * (po + pi) := by unfold transfer; ring
    beta_reduce
    rw [t1, yukawa_tail hl (by nlinarith), hN.fdexp, hN.ce1 _ (by positivity), ← pow_two lam]
    unfold facYuk
    field_simp
    ring

theorem arrOK_dif (N : NijNum) (po pi m : ℝ) (hq1 : 0 < po) (hq2 : 0 < pi) (hm : 0 < m) (hN : NijExact N po pi) (j : Nat) :
    let e := N.sex (0.5 * (po * po + pi * pi) / (po * pi)) (0.5 * (po * pi) / (m * m)) 0 j 2
    let A := difArr N e.2 ((po + pi) * (po + pi)) (po * pi) (m * m)
    (∀ n : Int, n ≤ j → facDif * A.r n = legCoef (fun z => gaussian m (transfer po pi z)) n) ∧
    (∀ n : Int, n + 1 ≤ j → facDif * A.s n = legCoef (fun z => z * gaussian m (transfer po pi z)) n) ∧
    (∀ n : Int, n + 1 ≤ j → facDif * (po * pi * A.g n) = -(1 / 2 * legCoef (fun z => ∫ k2 in Ioi (transfer po pi z), gaussian m k2) n)) := by
  intro e A
  have hq : 0 < po * pi := by positivity
  have hm2 : 0 < m * m := by positivity
  obtain ⟨s1, -⟩ := hN.dif (m * m) hm2 j
  have htl := tail_z (b := -1) po pi (by norm_num) (gaussian_cont m _) (fun t _ => gaussian_integrable hm t)
  have hR : ∀ n ≤ j, facDif * e.2 (n + 1) = legCoef (fun z => gaussian m (transfer po pi z)) n := by
    intro n hn
    have := coef_of n facDif (f := fun z => Real.exp (-(0.5 * (po * pi) / (m * m) * (0.5 * (po * po + pi * pi) / (po * pi) - z))))
      (g := fun z => gaussian m (transfer po pi z)) (fun z _ => by rw [dif_exp po pi z (m * m) hq.ne' hm2.ne', ← pow_two]; rfl)
    rw [show e.2 (n + 1) = _ from s1 n hn, ← this, zero_pow (by norm_num), Real.exp_zero, mul_one]
  have nn : ∀ n : Int, ¬ n < 0 → n = (n.toNat : Int) := fun n h => by omega
  refine ⟨fun n hn => ?_, fun n hn => ?_, fun n hn => ?_⟩
  · show facDif * (if n < 0 then 0 else e.2 (n.toNat + 1)) = _
    split_ifs with h
    · rw [legCoef_neg _ _ h, mul_zero]
    · rw [hR _ (by omega), ← nn n h]
  · exact arr_s htl.2.1 j hR n hn
  · refine arr_g htl.2.1 htl.1 ?_ j hR n hn
    have t1 : transfer po pi (-1) = (po + pi) * (po + pi) := by unfold transfer; ring
    beta_reduce
    rw [t1, gaussian_tail hm, hN.fdexp, ← pow_two m, div_div]
    unfold facDif
    field_simp
    norm_num

end TicTac
end
