import Verif.Lemmas.Ce1Check
import Verif.Lemmas.NijmegenInt
import Mathlib.Analysis.Calculus.MeanValue
import Mathlib.Analysis.SpecialFunctions.Log.Deriv
import Mathlib.Analysis.Complex.ExponentialBounds
/-! The accuracy of `CE1`. -/
noncomputable section
namespace TicTac
open Set MeasureTheory Filter Topology

/-- The exponential integral `E₁`. -/
def ei1 (x : ℝ) : ℝ := ∫ t in Ioi x, Real.exp (-t) / t

theorem ei1_integrable {x : ℝ} (hx : 0 < x) : IntegrableOn (fun t => Real.exp (-t) / t) (Ioi x) := by
  have h1 : IntegrableOn (fun t : ℝ => Real.exp (-t)) (Ioi x) := by simpa using integrableOn_exp_mul_Ioi (a := -1) (by norm_num) x
  refine (h1.const_mul (1 / x)).mono' ?_ ?_
  · exact (ContinuousOn.div (by fun_prop) continuousOn_id (fun t ht => (hx.trans ht).ne')).aestronglyMeasurable measurableSet_Ioi
  · refine (ae_restrict_mem measurableSet_Ioi).mono fun t ht => ?_
    have ht' : x < t := ht
    rw [Real.norm_eq_abs, abs_of_nonneg (div_nonneg (Real.exp_pos _).le (hx.trans ht').le), div_eq_mul_inv, mul_comm]
    exact mul_le_mul_of_nonneg_right (by rw [one_div]; exact inv_anti₀ hx ht'.le) (Real.exp_pos _).le

theorem ei1_deriv {x : ℝ} (hx : 0 < x) : HasDerivAt ei1 (-(Real.exp (-x) / x)) x :=
  tail_deriv (f := fun t => Real.exp (-t) / t) (b := 0) (ContinuousOn.div (by fun_prop) continuousOn_id (fun t ht => (ne_of_gt ht)))
    (fun t ht => ei1_integrable ht) hx

theorem ei1_nonneg {x : ℝ} (hx : 0 < x) : 0 ≤ ei1 x :=
  setIntegral_nonneg measurableSet_Ioi fun t ht => div_nonneg (Real.exp_pos _).le (hx.trans ht).le

theorem ei1_le {x : ℝ} (hx : 0 < x) : ei1 x ≤ Real.exp (-x) / x := by
  have h1 : IntegrableOn (fun t : ℝ => Real.exp (-t)) (Ioi x) := by simpa using integrableOn_exp_mul_Ioi (a := -1) (by norm_num) x
  have e : ∫ t in Ioi x, 1 / x * Real.exp (-t) = Real.exp (-x) / x := by
    rw [integral_const_mul, integral_exp_neg_Ioi]; ring
  rw [← e]
  refine setIntegral_mono_on (ei1_integrable hx) (h1.const_mul _) measurableSet_Ioi fun t ht => ?_
  have ht' : x < t := ht
  rw [div_eq_mul_inv, mul_comm]
  exact mul_le_mul_of_nonneg_right (by rw [one_div]; exact inv_anti₀ hx ht'.le) (Real.exp_pos _).le

/-- From a bound on the defect `r' − r + 1/t` to a bound on the error. -/
theorem defect_bound {r r' : ℝ → ℝ} {a b η : ℝ} (ha : 0 < a) (hab : a ≤ b) (hd : ∀ t ∈ Icc a b, HasDerivAt r (r' t) t)
    (hη : ∀ t ∈ Icc a b, |r' t - r t + 1 / t| ≤ η) :
    |r a - Real.exp a * ei1 a| ≤ Real.exp (a - b) * |r b - Real.exp b * ei1 b| + η := by
  have hpos : ∀ t ∈ Icc a b, 0 < t := fun t ht => lt_of_lt_of_le ha ht.1
  have hg : ∀ c : ℝ, ∀ t ∈ Icc a b, HasDerivAt (fun t => Real.exp (-t) * r t - ei1 t + c * Real.exp (-t)) (Real.exp (-t) * (r' t - r t + 1 / t - c)) t := by
    intro c t ht
    have he : HasDerivAt (fun t : ℝ => Real.exp (-t)) (-Real.exp (-t)) t := by
      have := (hasDerivAt_neg t).exp
      refine this.congr_deriv (by ring)
    have := ((he.mul (hd t ht)).sub (ei1_deriv (hpos t ht))).add (he.const_mul c)
    refine this.congr_deriv ?_
    have := (hpos t ht).ne'
    field_simp
    ring
  have hcont : ∀ c : ℝ, ContinuousOn (fun t => Real.exp (-t) * r t - ei1 t + c * Real.exp (-t)) (Icc a b) := fun c t ht => (hg c t ht).continuousAt.continuousWithinAt
  have up := monotoneOn_of_deriv_nonneg (convex_Icc a b) (hcont (-η)) (fun t ht => (hg (-η) t (interior_subset ht)).differentiableAt.differentiableWithinAt) (fun t ht => by
    have ht' := interior_subset ht
    rw [(hg (-η) t ht').deriv]
    have := (abs_le.1 (hη t ht')).1
    exact mul_nonneg (Real.exp_pos _).le (by linarith)) (left_mem_Icc.2 hab) (right_mem_Icc.2 hab) hab
  have lo := antitoneOn_of_deriv_nonpos (convex_Icc a b) (hcont η) (fun t ht => (hg η t (interior_subset ht)).differentiableAt.differentiableWithinAt) (fun t ht => by
    have ht' := interior_subset ht
    rw [(hg η t ht').deriv]
    have := (abs_le.1 (hη t ht')).2
    exact mul_nonpos_of_nonneg_of_nonpos (Real.exp_pos _).le (by linarith)) (left_mem_Icc.2 hab) (right_mem_Icc.2 hab) hab
  simp only at up lo
  have hη0 : 0 ≤ η := (abs_nonneg _).trans (hη a (left_mem_Icc.2 hab))
  have ea : Real.exp a * Real.exp (-a) = 1 := by rw [← Real.exp_add]; simp
  have eb : Real.exp b * Real.exp (-b) = 1 := by rw [← Real.exp_add]; simp
  have eab : Real.exp (a - b) = Real.exp a * Real.exp (-b) := by rw [← Real.exp_add]; congr 1
  have pa := Real.exp_pos a
  have pb := Real.exp_pos (-b)
  set A := Real.exp a
  set A' := Real.exp (-a)
  set B := Real.exp b
  set B' := Real.exp (-b)
  have key1 : r a - A * ei1 a ≤ A * (B' * r b - ei1 b) + η := by
    have h := mul_le_mul_of_nonneg_left up pa.le
    have h2 : 0 ≤ A * (η * B') := by positivity
    have : A * (A' * r a - ei1 a + -η * A') = r a - A * ei1 a - η := by linear_combination (r a - η) * ea
    nlinarith
  have key2 : -(r a - A * ei1 a) ≤ -(A * (B' * r b - ei1 b)) + η := by
    have h := mul_le_mul_of_nonneg_left lo pa.le
    have h2 : 0 ≤ A * (η * B') := by positivity
    have : A * (A' * r a - ei1 a + η * A') = r a - A * ei1 a + η := by linear_combination (r a + η) * ea
    nlinarith
  have key3 : A * (B' * r b - ei1 b) = A * B' * (r b - B * ei1 b) := by linear_combination (A * ei1 b) * eb
  have key4 := le_abs_self (A * B' * (r b - B * ei1 b))
  have key5 := neg_le_abs (A * B' * (r b - B * ei1 b))
  have key6 : |A * B' * (r b - B * ei1 b)| = A * B' * |r b - B * ei1 b| := by rw [abs_mul, abs_of_pos (by positivity)]
  rw [eab, abs_le]
  constructor <;> linarith

theorem defect_bound' {r r' : ℝ → ℝ} {a b η : ℝ} (ha : 0 < a) (hab : a ≤ b) (hd : ∀ t ∈ Icc a b, HasDerivAt r (r' t) t)
    (hη : ∀ t ∈ Icc a b, |r' t - r t + 1 / t| ≤ η) :
    |r a - Real.exp a * ei1 a| ≤ |r b - Real.exp b * ei1 b| + η := by
  refine (defect_bound ha hab hd hη).trans ?_
  have : Real.exp (a - b) ≤ 1 := Real.exp_le_one_iff.2 (by linarith)
  have := mul_le_mul_of_nonneg_right this (abs_nonneg (r b - Real.exp b * ei1 b))
  linarith

theorem horner_pos {Q : List ℚ} (hQ : Q.all (0 ≤ ·) = true) {t : ℝ} (ht : 0 < t) : 0 ≤ horner Q t := by
  induction Q with
  | nil => exact le_rfl
  | cons c l ih =>
    simp only [List.all_cons, Bool.and_eq_true, decide_eq_true_eq] at hQ
    have h1 : (0 : ℝ) ≤ c := by exact_mod_cast hQ.1
    rw [horner_cons]
    have := ih hQ.2
    positivity

theorem horner_defNum (P Q : List ℚ) (x : ℝ) : horner (defNum P Q) x =
    x * (horner (pDer P) x * horner Q x - horner P x * horner (pDer Q) x - horner P x * horner Q x) + horner Q x * horner Q x := by
  simp only [defNum, horner_add, horner_cons, horner_scale, horner_mul]
  push_cast
  ring

/-- One rational piece. -/
theorem piece_bound {d : Nat} {η a b : ℚ} {P Q : List ℚ} (hok : pieceOk d η a b P (1 :: Q) = true) (ha : 0 < a) (hab : a < b) {x : ℝ} (h1 : (a : ℝ) ≤ x) (h2 : x ≤ b) :
    |horner P x / horner (1 :: Q) x - Real.exp x * ei1 x| ≤ |horner P b / horner (1 :: Q) b - Real.exp b * ei1 b| + η := by
  have ha' : (0 : ℝ) < a := by exact_mod_cast ha
  simp only [pieceOk, Bool.and_eq_true] at hok
  obtain ⟨⟨hu, hl⟩, hq⟩ := hok
  have qpos : ∀ t : ℝ, 0 < t → 0 < horner (1 :: Q) t := by
    intro t ht
    rw [horner_cons]
    have h := horner_pos (Q := Q) (by simp only [List.all_cons, Bool.and_eq_true] at hq; exact hq.2) ht
    have : (0 : ℝ) < ((1 : ℚ) : ℝ) := by norm_num
    positivity
  refine defect_bound' (r := fun t => horner P t / horner (1 :: Q) t)
    (r' := fun t => (horner (pDer P) t * horner (1 :: Q) t - horner P t * horner (pDer (1 :: Q)) t) / horner (1 :: Q) t ^ 2) (by linarith) h2 ?_ ?_
  · intro t ht
    exact (horner_der P t).div (horner_der (1 :: Q) t) (qpos t (by linarith [ht.1])).ne'
  · intro t ht
    have tpos : 0 < t := by linarith [ht.1]
    have u := nonnegOn_sound d a b hab _ hu t (by linarith [ht.1]) ht.2
    have l := nonnegOn_sound d a b hab _ hl t (by linarith [ht.1]) ht.2
    simp only [defUp, defLo, horner_add, horner_scale, horner_cons 0, horner_mul, horner_defNum] at u l
    have q := qpos t tpos
    generalize horner (1 :: Q) t = q' at *
    generalize horner (pDer (1 :: Q)) t = dq at *
    generalize horner P t = p at *
    generalize horner (pDer P) t = dp at *
    have e : (dp * q' - p * dq) / q' ^ 2 - p / q' + 1 / t = (t * (dp * q' - p * dq - p * q') + q' * q') / (t * (q' * q')) := by
      field_simp
    rw [e, abs_le, div_le_iff₀ (by positivity), le_div_iff₀ (by positivity)]
    push_cast at u l
    constructor <;> linarith

/-- The asymptotic sum. -/
def asySum (n : Nat) (x : ℝ) : ℝ := ∑ k ∈ Finset.range n, (-1) ^ k * k.factorial / x ^ (k + 1)

theorem asySum_deriv (n : Nat) {x : ℝ} (hx : 0 < x) : HasDerivAt (asySum n) (asySum (n + 1) x - 1 / x) x := by
  induction n with
  | zero =>
    have e : asySum 0 = fun _ => 0 := by funext t; simp [asySum]
    rw [e]
    exact (hasDerivAt_const x (0 : ℝ)).congr_deriv (by simp [asySum])
  | succ n ih =>
    have h1 : HasDerivAt (fun t : ℝ => (-1) ^ n * n.factorial / t ^ (n + 1)) ((-1) ^ (n + 1) * (n + 1).factorial / x ^ (n + 1 + 1)) x := by
      have := (((hasDerivAt_pow (n + 1) x).fun_inv (pow_ne_zero _ hx.ne')).const_mul ((-1 : ℝ) ^ n * n.factorial))
      refine (this.congr_of_eventuallyEq (Eventually.of_forall fun t => by rw [div_eq_mul_inv])).congr_deriv ?_
      have := hx.ne'
      rw [Nat.factorial_succ, Nat.add_sub_cancel]
      push_cast
      field_simp
      ring
    have := ih.add h1
    refine (this.congr_of_eventuallyEq (Eventually.of_forall fun t => ?_)).congr_deriv ?_
    · simp only [asySum, Finset.sum_range_succ, Pi.add_apply]
    · rw [asySum, asySum, Finset.sum_range_succ _ (n + 1)]; ring

theorem asy_bound (n : Nat) {x : ℝ} (hx : 1 ≤ x) : |asySum n x - Real.exp x * ei1 x| ≤ n.factorial / x ^ (n + 1) := by
  have hx0 : 0 < x := by linarith
  set C : ℝ := ∑ k ∈ Finset.range n, (k.factorial : ℝ)
  have bnd : ∀ b, x ≤ b → |asySum n x - Real.exp x * ei1 x| ≤ Real.exp (x - b) * (C + 1) + n.factorial / x ^ (n + 1) := by
    intro b hb
    have h := defect_bound (r := asySum n) (r' := fun t => asySum (n + 1) t - 1 / t) (η := n.factorial / x ^ (n + 1)) hx0 hb (fun t ht => asySum_deriv n (by linarith [ht.1])) (by
      intro t ht
      have t0 : 0 < t := by linarith [ht.1]
      have : asySum (n + 1) t - 1 / t - asySum n t + 1 / t = (-1) ^ n * n.factorial / t ^ (n + 1) := by
        rw [asySum, Finset.sum_range_succ, ← asySum]; ring
      simp only [this]
      rw [abs_div, abs_mul, abs_pow, abs_neg, abs_one, one_pow, one_mul, Nat.abs_cast, abs_of_pos (by positivity)]
      exact div_le_div_of_nonneg_left (by positivity) (by positivity) (pow_le_pow_left₀ hx0.le ht.1 _))
    refine h.trans (add_le_add (mul_le_mul_of_nonneg_left ?_ (Real.exp_pos _).le) le_rfl)
    have b0 : 1 ≤ b := hx.trans hb
    have e1 : |asySum n b| ≤ C := by
      refine (Finset.abs_sum_le_sum_abs _ _).trans (Finset.sum_le_sum fun k _ => ?_)
      rw [abs_div, abs_mul, abs_pow, abs_neg, abs_one, one_pow, one_mul, Nat.abs_cast, abs_of_pos (by positivity)]
      exact div_le_self (by positivity) (one_le_pow₀ b0)
    have e2 : |Real.exp b * ei1 b| ≤ 1 := by
      have bp : 0 < b := by linarith
      rw [abs_of_nonneg (mul_nonneg (Real.exp_pos _).le (ei1_nonneg bp))]
      have := mul_le_mul_of_nonneg_left (ei1_le bp) (Real.exp_pos b).le
      refine this.trans ?_
      rw [← mul_div_assoc, ← Real.exp_add, add_neg_cancel, Real.exp_zero, div_le_one bp]
      exact b0
    exact (abs_sub _ _).trans (add_le_add e1 e2)
  have lim : Tendsto (fun b => Real.exp (x - b) * (C + 1) + n.factorial / x ^ (n + 1)) atTop (𝓝 (0 * (C + 1) + n.factorial / x ^ (n + 1))) := by
    refine Tendsto.add_const _ (Tendsto.mul_const _ ?_)
    refine Real.tendsto_exp_atBot.comp ?_
    exact tendsto_atBot_add_const_left _ x tendsto_neg_atTop_atBot
  have := ge_of_tendsto lim ((eventually_ge_atTop x).mono bnd)
  simpa using this

/-- Evaluation over the rationals. -/
def hornerQ (l : List ℚ) (x : ℚ) : ℚ := l.foldr (fun c r => c + x * r) 0
theorem hornerQ_cast (l : List ℚ) (x : ℚ) : ((hornerQ l x : ℚ) : ℝ) = horner l x := by
  induction l with
  | nil => simp [hornerQ, horner]
  | cons c l ih =>
    have : hornerQ (c :: l) x = c + x * hornerQ l x := rfl
    rw [this, horner_cons, ← ih]; push_cast; ring
theorem quot_cast (P Q : List ℚ) (x : ℚ) : horner P x / horner Q x = ((hornerQ P x / hornerQ Q x : ℚ) : ℝ) := by
  rw [Rat.cast_div, hornerQ_cast, hornerQ_cast]

theorem jump {b c₁ c₂ j : ℚ} (h : |c₁ - c₂| ≤ j) {v e : ℝ} (h2 : |((c₂ : ℚ) : ℝ) - v| ≤ e) : |((c₁ : ℚ) : ℝ) - v| ≤ (j : ℝ) + e := by
  have h' : |((c₁ : ℚ) : ℝ) - c₂| ≤ j := by exact_mod_cast h
  exact (abs_sub_le _ _ _).trans (add_le_add h' h2)

def asySumQ (n : Nat) (x : ℚ) : ℚ := ∑ k ∈ Finset.range n, (-1) ^ k * k.factorial / x ^ (k + 1)
theorem asySumQ_cast (n : Nat) (x : ℚ) : asySum n x = ((asySumQ n x : ℚ) : ℝ) := by
  simp [asySum, asySumQ]

theorem pieceF {x : ℝ} (h1 : 70 ≤ x) (h2 : x ≤ 165) : |horner ceFP x / horner ceFQ x - Real.exp x * ei1 x| ≤ 1.5e-15 := by
  refine (piece_bound okF (by norm_num) (by norm_num) (by exact_mod_cast h1) (by exact_mod_cast h2)).trans ?_
  have h0 := asy_bound 8 (x := ((165 : ℚ) : ℝ)) (by norm_num)
  rw [asySumQ_cast] at h0
  have j : |hornerQ ceFP 165 / hornerQ ceFQ 165 - asySumQ 8 165| ≤ 6e-16 := by decide +kernel
  have := jump (b := 165) j h0
  rw [← quot_cast] at this
  have e : ((Nat.factorial 8 : ℕ) : ℝ) / ((165 : ℚ) : ℝ) ^ (8 + 1) ≤ 4.5e-16 := by norm_num [Nat.factorial]
  have e2 : ((3e-16 : ℚ) : ℝ) = 3e-16 := by norm_num
  have e3 : ((6e-16 : ℚ) : ℝ) = 6e-16 := by norm_num
  rw [e3] at this
  refine (add_le_add (this.trans (add_le_add le_rfl e)) e2.le).trans (by norm_num)

theorem pieceE {x : ℝ} (h1 : 25 ≤ x) (h2 : x ≤ 70) : |horner ceEP x / horner ceEQ x - Real.exp x * ei1 x| ≤ 4e-15 := by
  refine (piece_bound okE (by norm_num) (by norm_num) (by exact_mod_cast h1) (by exact_mod_cast h2)).trans ?_
  have h0 := pieceF (x := ((70 : ℚ) : ℝ)) (by norm_num) (by norm_num)
  rw [quot_cast] at h0
  have j : |hornerQ ceEP 70 / hornerQ ceEQ 70 - hornerQ ceFP 70 / hornerQ ceFQ 70| ≤ 1.5e-15 := by decide +kernel
  have := jump (b := 70) j h0
  rw [← quot_cast] at this
  refine (add_le_add this le_rfl).trans (by norm_num)

theorem pieceD {x : ℝ} (h1 : 14 ≤ x) (h2 : x ≤ 25) : |horner ceDP x / horner ceDQ x - Real.exp x * ei1 x| ≤ 8.5e-15 := by
  refine (piece_bound okD (by norm_num) (by norm_num) (by exact_mod_cast h1) (by exact_mod_cast h2)).trans ?_
  have h0 := pieceE (x := ((25 : ℚ) : ℝ)) (by norm_num) (by norm_num)
  rw [quot_cast] at h0
  have j : |hornerQ ceDP 25 / hornerQ ceDQ 25 - hornerQ ceEP 25 / hornerQ ceEQ 25| ≤ 1.5e-15 := by decide +kernel
  have := jump (b := 25) j h0
  rw [← quot_cast] at this
  refine (add_le_add this le_rfl).trans (by norm_num)

theorem pieceC {x : ℝ} (h1 : 6 ≤ x) (h2 : x ≤ 14) : |horner ceCP x / horner ceCQ x - Real.exp x * ei1 x| ≤ 2e-14 := by
  refine (piece_bound okC (by norm_num) (by norm_num) (by exact_mod_cast h1) (by exact_mod_cast h2)).trans ?_
  have h0 := pieceD (x := ((14 : ℚ) : ℝ)) (by norm_num) (by norm_num)
  rw [quot_cast] at h0
  have j : |hornerQ ceCP 14 / hornerQ ceCQ 14 - hornerQ ceDP 14 / hornerQ ceDQ 14| ≤ 1.5e-15 := by decide +kernel
  have := jump (b := 14) j h0
  rw [← quot_cast] at this
  refine (add_le_add this le_rfl).trans (by norm_num)

theorem pieceB {x : ℝ} (h1 : 3 ≤ x) (h2 : x ≤ 6) : |horner ceBP x / horner ceBQ x - Real.exp x * ei1 x| ≤ 6.2e-14 := by
  refine (piece_bound okB (by norm_num) (by norm_num) (by exact_mod_cast h1) (by exact_mod_cast h2)).trans ?_
  have h0 := pieceC (x := ((6 : ℚ) : ℝ)) (by norm_num) (by norm_num)
  rw [quot_cast] at h0
  have j : |hornerQ ceBP 6 / hornerQ ceBQ 6 - hornerQ ceCP 6 / hornerQ ceCQ 6| ≤ 2.2e-14 := by decide +kernel
  have := jump (b := 6) j h0
  rw [← quot_cast] at this
  refine (add_le_add this le_rfl).trans (by norm_num)

theorem pieceA {x : ℝ} (h1 : 1 ≤ x) (h2 : x ≤ 3) : |horner ceAP x / horner ceAQ x - Real.exp x * ei1 x| ≤ 4.7e-13 := by
  refine (piece_bound okA (by norm_num) (by norm_num) (by exact_mod_cast h1) (by exact_mod_cast h2)).trans ?_
  have h0 := pieceB (x := ((3 : ℚ) : ℝ)) (by norm_num) (by norm_num)
  rw [quot_cast] at h0
  have j : |hornerQ ceAP 3 / hornerQ ceAQ 3 - hornerQ ceBP 3 / hornerQ ceBQ 3| ≤ 3e-15 := by decide +kernel
  have := jump (b := 3) j h0
  rw [← quot_cast] at this
  refine (add_le_add this le_rfl).trans (by norm_num)

end TicTac
end
