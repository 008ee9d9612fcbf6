import Verif.Lemmas.NijmegenPW
import Verif.Spec.NijmegenNum
/-! What one exchange adds to the amplitudes is the Legendre coefficient of its strengths. -/
noncomputable section
namespace TicTac
open Polynomial Spec MeasureTheory Set intervalIntegral

/-- The part of one exchange. -/
def exAmp (e : Exchange) (po pi : ℝ) (J : Nat) : PotMom where
  vc k := legCoef (fun z => (e.central0 + e.central1 * transfer po pi z + e.central2 * transfer po pi z ^ 2 + e.nonlocal * (po ^ 2 + pi ^ 2)) * e.prop (transfer po pi z)) (J + k)
  vs k := legCoef (fun z => (e.spin1 * transfer po pi z + e.spin2 * transfer po pi z ^ 2) * e.prop (transfer po pi z)) (J + k)
  vt k := legCoef (fun z => (e.tensor0 + e.tensor1 * transfer po pi z) * e.prop (transfer po pi z)) (J + k)
  vls k := legCoef (fun z => (e.orbit0 + e.orbit1 * transfer po pi z) * e.prop (transfer po pi z)) (J + k)
  vq k := legCoef (fun z => e.quad * e.prop (transfer po pi z)) (J + k)
  vqp k := -legCoef (fun z => 1 / 2 * (e.quad * ∫ k2 in Ioi (transfer po pi z), e.prop k2)) (J + k)

structure ExOK (e : Exchange) (po pi : ℝ) : Prop where
  p : ContinuousOn (fun z => e.prop (transfer po pi z)) (uIcc (-1) 1)
  t : ContinuousOn (fun z => ∫ k2 in Ioi (transfer po pi z), e.prop k2) (uIcc (-1) 1)

theorem transfer_cont (po pi : ℝ) : Continuous (transfer po pi) := by unfold transfer; fun_prop

theorem legCoef_zero (n : Int) : legCoef (fun _ => 0) n = 0 := by simp [legCoef]

/-- Sums of exchanges. -/
theorem potMom_list (es : List Exchange) (po pi : ℝ) (J : Nat) (h : ∀ e ∈ es, ExOK e po pi) :
    NijCont (exchangeForce es po pi) ∧ ∀ c k, (potMomOf (exchangeForce es po pi) J).get c k = (es.map fun e => (exAmp e po pi J).get c k).sum := by
  induction es with
  | nil =>
    refine ⟨⟨continuousOn_const, continuousOn_const, continuousOn_const, continuousOn_const, continuousOn_const, continuousOn_const⟩, fun c k => ?_⟩
    fin_cases c <;> simp [PotMom.get, potMomOf, exchangeForce, legCoef_zero]
  | cons e es ih =>
    obtain ⟨ic, ih⟩ := ih fun e he => h e (List.mem_cons_of_mem _ he)
    obtain ⟨hp, ht⟩ := h e List.mem_cons_self
    have tc := (transfer_cont po pi).continuousOn (s := uIcc (-1) 1)
    have c1 : ContinuousOn (fun z => (e.central0 + e.central1 * transfer po pi z + e.central2 * transfer po pi z ^ 2 + e.nonlocal * (po ^ 2 + pi ^ 2)) * e.prop (transfer po pi z)) (uIcc (-1) 1) :=
      (by fun_prop : ContinuousOn (fun z => e.central0 + e.central1 * transfer po pi z + e.central2 * transfer po pi z ^ 2 + e.nonlocal * (po ^ 2 + pi ^ 2)) (uIcc (-1) 1)).mul hp
    have c2 : ContinuousOn (fun z => (e.spin1 * transfer po pi z + e.spin2 * transfer po pi z ^ 2) * e.prop (transfer po pi z)) (uIcc (-1) 1) :=
      (by fun_prop : ContinuousOn (fun z => e.spin1 * transfer po pi z + e.spin2 * transfer po pi z ^ 2) (uIcc (-1) 1)).mul hp
    have c3 : ContinuousOn (fun z => (e.tensor0 + e.tensor1 * transfer po pi z) * e.prop (transfer po pi z)) (uIcc (-1) 1) :=
      (by fun_prop : ContinuousOn (fun z => e.tensor0 + e.tensor1 * transfer po pi z) (uIcc (-1) 1)).mul hp
    have c4 : ContinuousOn (fun z => (e.orbit0 + e.orbit1 * transfer po pi z) * e.prop (transfer po pi z)) (uIcc (-1) 1) :=
      (by fun_prop : ContinuousOn (fun z => e.orbit0 + e.orbit1 * transfer po pi z) (uIcc (-1) 1)).mul hp
    have c5 : ContinuousOn (fun z => e.quad * e.prop (transfer po pi z)) (uIcc (-1) 1) := continuousOn_const.mul hp
    have c6 : ContinuousOn (fun z => 1 / 2 * (e.quad * ∫ k2 in Ioi (transfer po pi z), e.prop k2)) (uIcc (-1) 1) := continuousOn_const.mul (continuousOn_const.mul ht)
    refine ⟨⟨?_, ?_, ?_, ?_, ?_, ?_⟩, fun c k => ?_⟩
    · exact c1.add ic.c
    · exact c2.add ic.s
    · exact c3.add ic.t
    · exact c4.add ic.ls
    · exact c5.add ic.q
    · exact c6.add ic.qp
    · rw [List.map_cons, List.sum_cons, ← ih]
      fin_cases c
      · exact legCoef_add c1 ic.c (J + k)
      · exact legCoef_add c2 ic.s (J + k)
      · exact legCoef_add c3 ic.t (J + k)
      · exact legCoef_add c4 ic.ls (J + k)
      · exact legCoef_add c5 ic.q (J + k)
      · have := legCoef_add c6 ic.qp (J + k)
        show -legCoef (exchangeForce (e :: es) po pi).qp (J + k) = -legCoef _ (J + k) + -legCoef (exchangeForce es po pi).qp (J + k)
        rw [← neg_add, ← this]
        simp only [exchangeForce, List.map_cons, List.sum_cons]

/-- The combination of the arrays with a quadratic polynomial in the cosine. -/
theorem legCoef_quadratic {W : ℝ → ℝ} (hW : ContinuousOn W (uIcc (-1) 1)) (x X Y Z : ℝ) (n : Int) :
    (X + x * Y + x * x * Z) * legCoef W n - (Y + x * Z) * legCoef (fun z => (x - z) * W z) n - Z * legCoef (fun z => z * ((x - z) * W z)) n
      = legCoef (fun z => (X + Y * z + Z * z ^ 2) * W z) n := by
  have h1 : ContinuousOn (fun z => (x - z) * W z) (uIcc (-1) 1) := (by fun_prop : ContinuousOn (fun z => x - z) (uIcc (-1) 1)).mul hW
  have h2 : ContinuousOn (fun z => z * ((x - z) * W z)) (uIcc (-1) 1) := continuousOn_id.mul h1
  rw [sub_eq_add_neg, sub_eq_add_neg, ← neg_mul, ← neg_mul, ← legCoef_smul, ← legCoef_smul, ← legCoef_smul,
    ← legCoef_add (by exact continuousOn_const.mul hW) (by exact continuousOn_const.mul h1),
    ← legCoef_add (by exact (continuousOn_const.mul hW).add (continuousOn_const.mul h1)) (by exact continuousOn_const.mul h2)]
  apply legCoef_congr
  intro z _
  ring

/-- What the arrays of an exchange are. -/
structure ArrOK (A : NijArr) (x fac qq : ℝ) (W T : ℝ → ℝ) (j : Nat) : Prop where
  u : ∀ n : Int, n ≤ j → fac * A.u n = legCoef W n
  r : ∀ n : Int, n ≤ j → fac * A.r n = legCoef (fun z => (x - z) * W z) n
  s : ∀ n : Int, n + 1 ≤ j → fac * A.s n = legCoef (fun z => z * ((x - z) * W z)) n
  g : ∀ n : Int, n + 1 ≤ j → fac * (qq * A.g n) = -(1 / 2 * legCoef T n)

/-- What the coefficients of an exchange are. -/
structure CoefOK (c : NijCoef) (fac po pi : ℝ) (e : Exchange) : Prop where
  c0 : c.xc + c.xnl = fac * (e.central0 + e.central1 * (po ^ 2 + pi ^ 2) + e.central2 * (po ^ 2 + pi ^ 2) ^ 2 + e.nonlocal * (po ^ 2 + pi ^ 2))
  c1 : c.yc = fac * (-(2 * (po * pi)) * e.central1 - 4 * (po * pi) * (po ^ 2 + pi ^ 2) * e.central2)
  c2 : c.zc = fac * (4 * (po * pi) ^ 2 * e.central2)
  s0 : c.xs = fac * (e.spin1 * (po ^ 2 + pi ^ 2) + e.spin2 * (po ^ 2 + pi ^ 2) ^ 2)
  s1 : c.ys = fac * (-(2 * (po * pi)) * e.spin1 - 4 * (po * pi) * (po ^ 2 + pi ^ 2) * e.spin2)
  s2 : c.zs = fac * (4 * (po * pi) ^ 2 * e.spin2)
  t0 : c.xt = fac * (e.tensor0 + e.tensor1 * (po ^ 2 + pi ^ 2))
  t1 : c.yt = fac * (-(2 * (po * pi)) * e.tensor1)
  l0 : c.xls = fac * (e.orbit0 + e.orbit1 * (po ^ 2 + pi ^ 2))
  l1 : c.yls = fac * (-(2 * (po * pi)) * e.orbit1)
  q : c.xq = fac * e.quad

theorem yukAdd_agree (J j : Nat) (x fac po pi : ℝ) (c : NijCoef) (A : NijArr) (e : Exchange) (he : ExOK e po pi)
    (hA : ArrOK A x fac (po * pi) (fun z => e.prop (transfer po pi z)) (fun z => ∫ k2 in Ioi (transfer po pi z), e.prop k2) j) (hc : CoefOK c fac po pi e)
    (hj : J + 4 ≤ j ∨ (J + 2 ≤ j ∧ e.quad = 0)) : (yukAdd J x (po * pi) c A).agree (exAmp e po pi J) := by
  have tr : ∀ z, transfer po pi z = po ^ 2 + pi ^ 2 - 2 * (po * pi) * z := fun z => by unfold transfer; ring
  intro i k h1 h2
  fin_cases i
  · have h2 : k ≤ 1 := h2
    show (c.xc + x * c.yc + x * x * c.zc) * A.u (J + k) - (c.yc + x * c.zc) * A.r (J + k) - c.zc * A.s (J + k) + c.xnl * A.u (J + k) = _
    have := legCoef_quadratic he.p x (e.central0 + e.central1 * (po ^ 2 + pi ^ 2) + e.central2 * (po ^ 2 + pi ^ 2) ^ 2 + e.nonlocal * (po ^ 2 + pi ^ 2))
      (-(2 * (po * pi)) * e.central1 - 4 * (po * pi) * (po ^ 2 + pi ^ 2) * e.central2) (4 * (po * pi) ^ 2 * e.central2) (J + k)
    rw [← hA.u _ (by omega), ← hA.r _ (by omega), ← hA.s _ (by omega)] at this
    have e1 : (exAmp e po pi J).get 0 k = legCoef (fun z => (e.central0 + e.central1 * (po ^ 2 + pi ^ 2) + e.central2 * (po ^ 2 + pi ^ 2) ^ 2 + e.nonlocal * (po ^ 2 + pi ^ 2) +
      (-(2 * (po * pi)) * e.central1 - 4 * (po * pi) * (po ^ 2 + pi ^ 2) * e.central2) * z + 4 * (po * pi) ^ 2 * e.central2 * z ^ 2) * e.prop (transfer po pi z)) (J + k) := by
      apply legCoef_congr
      intro z _
      show _ * e.prop (transfer po pi z) = _ * e.prop (transfer po pi z)
      congr 1
      rw [tr]
      ring
    refine Eq.trans ?_ e1.symm
    rw [← this, hc.c1, hc.c2]
    linear_combination A.u (J + k) * hc.c0
  · have h2 : k ≤ 1 := h2
    show (c.xs + x * c.ys + x * x * c.zs) * A.u (J + k) - (c.ys + x * c.zs) * A.r (J + k) - c.zs * A.s (J + k) = _
    have := legCoef_quadratic he.p x (e.spin1 * (po ^ 2 + pi ^ 2) + e.spin2 * (po ^ 2 + pi ^ 2) ^ 2)
      (-(2 * (po * pi)) * e.spin1 - 4 * (po * pi) * (po ^ 2 + pi ^ 2) * e.spin2) (4 * (po * pi) ^ 2 * e.spin2) (J + k)
    rw [← hA.u _ (by omega), ← hA.r _ (by omega), ← hA.s _ (by omega)] at this
    have e1 : (exAmp e po pi J).get 1 k = legCoef (fun z => (e.spin1 * (po ^ 2 + pi ^ 2) + e.spin2 * (po ^ 2 + pi ^ 2) ^ 2 +
      (-(2 * (po * pi)) * e.spin1 - 4 * (po * pi) * (po ^ 2 + pi ^ 2) * e.spin2) * z + 4 * (po * pi) ^ 2 * e.spin2 * z ^ 2) * e.prop (transfer po pi z)) (J + k) := by
      apply legCoef_congr
      intro z _
      show _ * e.prop (transfer po pi z) = _ * e.prop (transfer po pi z)
      congr 1
      rw [tr]
      ring
    refine Eq.trans ?_ e1.symm
    rw [← this, hc.s0, hc.s1, hc.s2]
    ring
  · have h2 : k ≤ 2 := h2
    show (c.xt + x * c.yt) * A.u (J + k) - c.yt * A.r (J + k) = _
    have := legCoef_quadratic he.p x (e.tensor0 + e.tensor1 * (po ^ 2 + pi ^ 2)) (-(2 * (po * pi)) * e.tensor1) 0 (J + k)
    rw [← hA.u _ (by omega), ← hA.r _ (by omega)] at this
    have e1 : (exAmp e po pi J).get 2 k = legCoef (fun z => (e.tensor0 + e.tensor1 * (po ^ 2 + pi ^ 2) + -(2 * (po * pi)) * e.tensor1 * z + 0 * z ^ 2) * e.prop (transfer po pi z)) (J + k) := by
      apply legCoef_congr
      intro z _
      show _ * e.prop (transfer po pi z) = _ * e.prop (transfer po pi z)
      congr 1
      rw [tr]
      ring
    refine Eq.trans ?_ e1.symm
    rw [← this, hc.t0, hc.t1]
    ring
  · have h2 : k ≤ 2 := h2
    show (c.xls + x * c.yls) * A.u (J + k) - c.yls * A.r (J + k) = _
    have := legCoef_quadratic he.p x (e.orbit0 + e.orbit1 * (po ^ 2 + pi ^ 2)) (-(2 * (po * pi)) * e.orbit1) 0 (J + k)
    rw [← hA.u _ (by omega), ← hA.r _ (by omega)] at this
    have e1 : (exAmp e po pi J).get 3 k = legCoef (fun z => (e.orbit0 + e.orbit1 * (po ^ 2 + pi ^ 2) + -(2 * (po * pi)) * e.orbit1 * z + 0 * z ^ 2) * e.prop (transfer po pi z)) (J + k) := by
      apply legCoef_congr
      intro z _
      show _ * e.prop (transfer po pi z) = _ * e.prop (transfer po pi z)
      congr 1
      rw [tr]
      ring
    refine Eq.trans ?_ e1.symm
    rw [← this, hc.l0, hc.l1]
    ring
  · have h2 : k ≤ 3 := h2
    show c.xq * A.u (J + k) = legCoef (fun z => e.quad * e.prop (transfer po pi z)) (J + k)
    rw [legCoef_smul, hc.q]
    rcases hj with hj | ⟨_, hj⟩
    · rw [← hA.u _ (by omega)]; ring
    · rw [hj]; ring
  · have h2 : k ≤ 2 := h2
    show c.xq * (po * pi) * A.g (J + k) = -legCoef (fun z => 1 / 2 * (e.quad * ∫ k2 in Ioi (transfer po pi z), e.prop k2)) (J + k)
    rw [legCoef_smul, legCoef_smul, hc.q]
    rcases hj with hj | ⟨_, hj⟩
    · have := hA.g (J + k) (by omega)
      linear_combination e.quad * this
    · rw [hj]; ring

end TicTac
end
