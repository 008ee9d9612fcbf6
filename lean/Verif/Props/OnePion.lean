import Verif.Lemmas.PoleQuad
import Verif.Props.LOPot
import Verif.Spec.OnePion
import Mathlib.Analysis.Real.Pi.Bounds
/-! C124: the accuracy of the angular integration in `LO_internal`. -/
noncomputable section
namespace TicTac
open Polynomial Spec

theorem pole_lip (P : ℝ[X]) (B K : ℝ) (hB : ∀ x, -1 ≤ x → x ≤ 1 → |P.eval x| ≤ B) (hK : ∀ x, -1 ≤ x → x ≤ 1 → |(derivative P).eval x| ≤ K)
    (d0 d1 m : ℝ) (h1 : 0 ≤ d1) (hm : 0 < m) (h01 : m ≤ d0 - d1) (x y : ℝ) (hx1 : -1 ≤ x) (hx2 : x ≤ 1) (hy1 : -1 ≤ y) (hy2 : y ≤ 1) :
    |P.eval x / (d0 - d1 * x) - P.eval y / (d0 - d1 * y)| ≤ (K / m + B * d1 / m ^ 2) * |x - y| := by
  have hB0 : 0 ≤ B := (abs_nonneg _).trans (hB 0 (by norm_num) (by norm_num))
  have dx : m ≤ d0 - d1 * x := by nlinarith
  have dy : m ≤ d0 - d1 * y := by nlinarith
  have e : P.eval x / (d0 - d1 * x) - P.eval y / (d0 - d1 * y) =
      (P.eval x - P.eval y) / (d0 - d1 * x) + P.eval y * d1 * (x - y) / ((d0 - d1 * x) * (d0 - d1 * y)) := by
    have a : d0 - d1 * x ≠ 0 := by linarith
    have b : d0 - d1 * y ≠ 0 := by linarith
    field_simp
    ring
  have l := poly_lip P K hK x y hx1 hx2 hy1 hy2
  have t1 : |(P.eval x - P.eval y) / (d0 - d1 * x)| ≤ K / m * |x - y| := by
    rw [abs_div, abs_of_pos (lt_of_lt_of_le hm dx)]
    calc _ ≤ (K * |x - y|) / m := div_le_div₀ ((abs_nonneg _).trans l) l hm dx
      _ = _ := by ring
  have t2 : |P.eval y * d1 * (x - y) / ((d0 - d1 * x) * (d0 - d1 * y))| ≤ B * d1 / m ^ 2 * |x - y| := by
    have hp : m ^ 2 ≤ (d0 - d1 * x) * (d0 - d1 * y) := by nlinarith
    rw [abs_div, abs_of_pos (lt_of_lt_of_le (by positivity) hp), abs_mul, abs_mul, abs_of_nonneg h1]
    calc _ ≤ (B * d1 * |x - y|) / m ^ 2 := div_le_div₀ (by positivity) (by
          have := hB y hy1 hy2
          gcongr) (by positivity) hp
      _ = _ := by ring
  rw [e]
  refine (abs_add_le _ _).trans ?_
  linarith

/-- The error of a stored rule for `P(z)/(d0 - d1 z)`. -/
theorem near_pole (N : Nat) (hN : 1 ≤ N) {dx dw : ℝ} {l g : List (ℝ × ℝ)} (hl : ∀ p ∈ l, -1 < p.1 ∧ p.1 < 1 ∧ 0 < p.2) (G : Spec.IsGauss N g)
    (near : Spec.RuleNear dx dw l g) (P : ℝ[X]) (k : Nat) (hk : P.natDegree + k ≤ 2 * N) (hP : P.natDegree < 2 * N) (B K : ℝ)
    (hB : ∀ x, -1 ≤ x → x ≤ 1 → |P.eval x| ≤ B) (hK : ∀ x, -1 ≤ x → x ≤ 1 → |(derivative P).eval x| ≤ K)
    (d0 d1 m s : ℝ) (hs : 0 ≤ s) (h1 : 0 ≤ d1) (hm : 0 < m) (h01 : m ≤ d0 - d1) (hsd : d1 * s ^ 2 ≤ 2 * m) :
    |(l.map fun p => p.2 * (P.eval p.1 / (d0 - d1 * p.1))).sum - ∫ x in (-1 : ℝ)..1, P.eval x / (d0 - d1 * x)| ≤
      1 / m * (8 * B / (1 + s) ^ k + 2 * (dw * B + dx * (K + B * d1 / m))) := by
  have hB0 : 0 ≤ B := (abs_nonneg _).trans (hB 0 (by norm_num) (by norm_num))
  have hK0 : 0 ≤ K := (abs_nonneg _).trans (hK 0 (by norm_num) (by norm_num))
  have hsum : (g.map Prod.snd).sum = 2 := by
    have := G.exact 1 (by simp; omega)
    simp only [eval_one, mul_one] at this
    rw [show (fun xw : ℝ × ℝ => xw.2) = Prod.snd from rfl] at this
    rw [this]
    simp
    norm_num
  have a := gauss_pole N hN G P k hk B hB d0 d1 s hs h1 (by linarith) hP (by linarith)
  have a' : 8 * B / ((d0 - d1) * (1 + s) ^ k) ≤ 8 * B / (m * (1 + s) ^ k) := by
    gcongr
  have b := near_sum (fun x => P.eval x / (d0 - d1 * x)) hl (fun p hp => ⟨(G.inside p hp).1, (G.inside p hp).2, G.positive p hp⟩) (B := B / m) (K := K / m + B * d1 / m ^ 2)
    (by
      intro x x1 x2
      have : m ≤ d0 - d1 * x := by nlinarith
      rw [abs_div, abs_of_pos (lt_of_lt_of_le hm this)]
      exact div_le_div₀ hB0 (hB x x1 x2) hm this) (by positivity)
    (fun x y => pole_lip P B K hB hK d0 d1 m h1 hm h01 x y) near
  rw [hsum] at b
  have e : 1 / m * (8 * B / (1 + s) ^ k + 2 * (dw * B + dx * (K + B * d1 / m))) = 8 * B / (m * (1 + s) ^ k) + (dw * (B / m) + (K / m + B * d1 / m ^ 2) * dx) * 2 := by
    field_simp
  rw [e]
  rw [abs_le] at a b ⊢
  constructor <;> linarith [a.1, a.2, b.1, b.2]

theorem integrand_eq (qi qo z : ℝ) (n l : Nat) : pionPropagator qi qo z * z ^ l * (legendre n).eval z =
    -(1.289 ^ 2 / (4 * 92.2 ^ 2)) * ((X ^ l * legendre n : ℝ[X]).eval z / (qi ^ 2 + qo ^ 2 + 138.039 ^ 2 - 2 * qi * qo * z)) := by
  rw [eval_mul, eval_pow, eval_X, pionPropagator, show qi ^ 2 + qo ^ 2 - 2 * qi * qo * z + 138.039 ^ 2 = qi ^ 2 + qo ^ 2 + 138.039 ^ 2 - 2 * qi * qo * z by ring]
  ring

theorem weighted_legendre (n l : Nat) (hl : l ≤ 1) (x : ℝ) (h1 : -1 ≤ x) (h2 : x ≤ 1) : |(X ^ l * legendre n : ℝ[X]).eval x| ≤ 1 ∧
    |(derivative (X ^ l * legendre n : ℝ[X])).eval x| ≤ 1 + (n : ℝ) * (n + 1) / 2 := by
  have hx : |x| ≤ 1 := abs_le.2 ⟨h1, h2⟩
  have a := legendre_abs_le_one n x hx
  have b := legendre_deriv_bound n x hx
  obtain rfl | rfl : l = 0 ∨ l = 1 := by omega
  · rw [pow_zero, one_mul]; exact ⟨a, by linarith⟩
  · rw [pow_one, derivative_mul, derivative_X]
    simp only [eval_mul, eval_X, eval_add, one_mul]
    constructor
    · rw [abs_mul]; exact mul_le_one₀ hx (abs_nonneg _) a
    · refine (abs_add_le _ _).trans (add_le_add a ?_)
      rw [abs_mul]
      calc _ ≤ 1 * |(derivative (legendre n)).eval x| := mul_le_mul_of_nonneg_right hx (abs_nonneg _)
        _ ≤ _ := by rw [one_mul]; exact b

/-- C124: the program's angular integrals of one-pion exchange, against the exact ones: Legendre polynomials up to 101, momenta up to `Q`. -/
theorem C124_angular (fuel : Nat) (hf : 7 ≤ fuel) (x0 w0 : Nat → ℝ) (rule : List (ℝ × ℝ)) (h : gaussFill 150 3e-16 fuel x0 w0 = some rule)
    (qi qo Q : ℝ) (hi : 0 ≤ qi) (hiQ : qi ≤ Q) (ho : 0 ≤ qo) (hoQ : qo ≤ Q) (hQ0 : 0 < Q) (hQ : Q ≤ 10 ^ 6) (n l : Nat) (hn : n ≤ 101) (hl : l ≤ 1) :
    |angular rule qi qo n l - angularExact qi qo n l| ≤
      Real.pi * (1.289 ^ 2 / (4 * 92.2 ^ 2 * 138.039 ^ 2)) * (8 / (1 + 138.039 / Q) ^ (300 - n - l) + 5e-11) := by
  obtain ⟨-, -, hin⟩ := C121_shape 150 (by norm_num) (by norm_num) fuel hf x0 w0 rule h
  obtain ⟨l', hl', g, G, -, near⟩ := C121_gauss 150 (by norm_num) (by norm_num)
  obtain rfl : l' = rule := by have := hl' fuel x0 w0 hf; rw [h] at this; exact (Option.some.inj this).symm
  have hdeg : (X ^ l * legendre n : ℝ[X]).natDegree ≤ l + n := by
    refine natDegree_mul_le.trans ?_
    rw [natDegree_X_pow]
    exact Nat.add_le_add_left (legendre_natDegree_le n) l
  have hq : qi * qo ≤ Q ^ 2 := by nlinarith
  have hq0 : 0 ≤ qi * qo := by positivity
  have np := near_pole 150 (by norm_num) hin G near (X ^ l * legendre n) (300 - n - l) (by omega) (by omega) 1 (1 + (n : ℝ) * (n + 1) / 2)
    (fun x h1 h2 => (weighted_legendre n l hl x h1 h2).1) (fun x h1 h2 => (weighted_legendre n l hl x h1 h2).2)
    (qi ^ 2 + qo ^ 2 + 138.039 ^ 2) (2 * qi * qo) (138.039 ^ 2) (138.039 / Q) (by positivity) (by positivity) (by norm_num) (by nlinarith [sq_nonneg (qi - qo)]) (by
      rw [div_pow]
      have : 2 * qi * qo * (138.039 ^ 2 / Q ^ 2) = 2 * 138.039 ^ 2 * ((qi * qo) / Q ^ 2) := by ring
      rw [this]
      have h1 : (qi * qo) / Q ^ 2 ≤ 1 := by rw [div_le_one (by positivity)]; exact hq
      nlinarith)
  have e1 : angular l' qi qo n l = Real.pi * (-(1.289 ^ 2 / (4 * 92.2 ^ 2)) *
      (l'.map fun p => p.2 * ((X ^ l * legendre n : ℝ[X]).eval p.1 / (qi ^ 2 + qo ^ 2 + 138.039 ^ 2 - 2 * qi * qo * p.1))).sum) := by
    unfold angular
    congr 1
    rw [← List.sum_map_mul_left]
    congr 2
    funext p
    rw [integrand_eq]
    ring
  have e2 : angularExact qi qo n l = Real.pi * (-(1.289 ^ 2 / (4 * 92.2 ^ 2)) *
      ∫ x in (-1 : ℝ)..1, (X ^ l * legendre n : ℝ[X]).eval x / (qi ^ 2 + qo ^ 2 + 138.039 ^ 2 - 2 * qi * qo * x)) := by
    unfold angularExact
    congr 1
    rw [← intervalIntegral.integral_const_mul]
    congr 1
    funext z
    exact integrand_eq qi qo z n l
  rw [e1, e2, ← mul_sub, ← mul_sub, abs_mul, abs_mul, abs_of_pos Real.pi_pos, abs_neg, abs_of_pos (by norm_num : (0 : ℝ) < 1.289 ^ 2 / (4 * 92.2 ^ 2)), mul_assoc Real.pi (1.289 ^ 2 / (4 * 92.2 ^ 2 * 138.039 ^ 2))]
  refine mul_le_mul_of_nonneg_left ?_ Real.pi_pos.le
  have hn' : (n : ℝ) ≤ 101 := by exact_mod_cast hn
  have hn0 : (0 : ℝ) ≤ n := Nat.cast_nonneg n
  have hQ2 : qi * qo ≤ 10 ^ 12 := by
    have : Q ^ 2 ≤ (10 ^ 6) ^ 2 := pow_le_pow_left₀ hQ0.le hQ 2
    calc _ ≤ Q ^ 2 := hq
      _ ≤ _ := this
      _ = _ := by norm_num
  have hnn : (n : ℝ) * (n + 1) ≤ 101 * 102 := by nlinarith
  have hE : 2 * (1e-15 * ((150 : ℕ) + 1/2 : ℝ) ^ 2 * 1 + 3e-31 * ((150 : ℕ) + 1/2 : ℝ) ^ 2 * (1 + (n : ℝ) * (n + 1) / 2 + 1 * (2 * qi * qo) / 138.039 ^ 2)) ≤ 5e-11 := by
    have : 1 + (n : ℝ) * (n + 1) / 2 + 1 * (2 * qi * qo) / 138.039 ^ 2 ≤ 10 ^ 9 := by
      have : 1 * (2 * qi * qo) / 138.039 ^ 2 ≤ 2 * 10 ^ 12 / 138.039 ^ 2 := by
        rw [div_le_div_iff_of_pos_right (by norm_num)]
        linarith
      have h2 : (2 : ℝ) * 10 ^ 12 / 138.039 ^ 2 ≤ 10 ^ 8 * 2 := by norm_num
      have h3 : (n : ℝ) * (n + 1) / 2 ≤ 5151 := by linarith
      linarith
    calc _ ≤ 2 * (1e-15 * ((150 : ℕ) + 1/2 : ℝ) ^ 2 * 1 + 3e-31 * ((150 : ℕ) + 1/2 : ℝ) ^ 2 * 10 ^ 9) := by gcongr
      _ ≤ _ := by norm_num
  calc _ ≤ 1.289 ^ 2 / (4 * 92.2 ^ 2) * (1 / 138.039 ^ 2 * (8 * 1 / (1 + 138.039 / Q) ^ (300 - n - l) +
        2 * (1e-15 * ((150 : ℕ) + 1/2 : ℝ) ^ 2 * 1 + 3e-31 * ((150 : ℕ) + 1/2 : ℝ) ^ 2 * (1 + (n : ℝ) * (n + 1) / 2 + 1 * (2 * qi * qo) / 138.039 ^ 2)))) :=
        mul_le_mul_of_nonneg_left np (by norm_num)
    _ ≤ 1.289 ^ 2 / (4 * 92.2 ^ 2) * (1 / 138.039 ^ 2 * (8 * 1 / (1 + 138.039 / Q) ^ (300 - n - l) + 5e-11)) := by gcongr
    _ = _ := by ring


/-- A combination of six elements from angular integrals known up to `e`. -/
theorem opep_near (rule : List (ℝ × ℝ)) (qi qo e : ℝ) (hi : 0 ≤ qi) (ho : 0 ≤ qo) (J : Nat)
    (h0 : |angular rule qi qo J 0 - angularExact qi qo J 0| ≤ e) (h1 : |angular rule qi qo J 1 - angularExact qi qo J 1| ≤ e)
    (hp : |angular rule qi qo (J + 1) 0 - angularExact qi qo (J + 1) 0| ≤ e) (hm : |angular rule qi qo (J - 1) 0 - angularExact qi qo (J - 1) 0| ≤ e) (k : Fin 6) :
    |opepJ rule qi qo J k - opepExact qi qo J k| ≤ 2 * (qi + qo) ^ 2 * e := by
  have he : 0 ≤ e := (abs_nonneg _).trans h0
  have hJ : (0 : ℝ) ≤ J := Nat.cast_nonneg J
  have key : ∀ a b c x y z : ℝ, |x| ≤ e → |y| ≤ e → |z| ≤ e → |a| + |b| + |c| ≤ 2 * (qi + qo) ^ 2 → |a * x + b * y + c * z| ≤ 2 * (qi + qo) ^ 2 * e := by
    intro a b c x y z hx hy hz hs
    calc _ ≤ |a * x + b * y| + |c * z| := abs_add_le _ _
      _ ≤ |a * x| + |b * y| + |c * z| := by linarith [abs_add_le (a * x) (b * y)]
      _ ≤ |a| * e + |b| * e + |c| * e := by
        rw [abs_mul, abs_mul, abs_mul]
        have u1 := mul_le_mul_of_nonneg_left hx (abs_nonneg a)
        have u2 := mul_le_mul_of_nonneg_left hy (abs_nonneg b)
        have u3 := mul_le_mul_of_nonneg_left hz (abs_nonneg c)
        linarith
      _ = (|a| + |b| + |c|) * e := by ring
      _ ≤ _ := mul_le_mul_of_nonneg_right hs he
  have hqq : 0 ≤ qi * qo := mul_nonneg hi ho
  have hc : 0 < 2 * (J : ℝ) + 1 := by positivity
  have hc1 : 2 / (2 * (J : ℝ) + 1) ≤ 2 := by rw [div_le_iff₀ hc]; linarith
  have hc0 : 0 ≤ 2 / (2 * (J : ℝ) + 1) := by positivity
  set u := 2 / (2 * (J : ℝ) + 1) with hu
  have hr : Real.sqrt ((J : ℝ) * (J + 1)) ≤ (2 * J + 1) / 2 := by
    apply Real.sqrt_le_iff.2
    constructor
    · positivity
    · nlinarith
  have hv0 : 0 ≤ 4 * Real.sqrt ((J : ℝ) * (J + 1)) / (2 * J + 1) := by positivity
  have hv1 : 4 * Real.sqrt ((J : ℝ) * (J + 1)) / (2 * J + 1) ≤ 2 := by rw [div_le_iff₀ hc]; linarith
  have hsq : 0 ≤ (qi + qo) ^ 2 := sq_nonneg _
  fin_cases k
  · have := key (4 * (qi * qo)) (-(2 * (qi ^ 2 + qo ^ 2))) 0 _ _ 0 h1 h0 (by simpa using he) (by
      rw [abs_of_nonneg (by positivity), abs_neg, abs_of_nonneg (by positivity), abs_zero]; nlinarith)
    refine le_of_eq_of_le ?_ this
    show |2 * (2 * qi * qo * angular rule qi qo J 1 - (qi ^ 2 + qo ^ 2) * angular rule qi qo J 0) - 2 * (2 * qi * qo * angularExact qi qo J 1 - (qi ^ 2 + qo ^ 2) * angularExact qi qo J 0)| = _
    congr 1; ring
  · have := key (2 * (qi ^ 2 + qo ^ 2)) (-(4 * (qi * qo) * (J / (2 * J + 1)))) (-(4 * (qi * qo) * ((J + 1) / (2 * J + 1)))) _ _ _ h0 hp hm (by
      rw [abs_of_nonneg (by positivity), abs_neg, abs_of_nonneg (by positivity), abs_neg, abs_of_nonneg (by positivity)]
      have : (J : ℝ) / (2 * J + 1) + (J + 1) / (2 * J + 1) = 1 := by field_simp; ring
      have e2 : 4 * (qi * qo) * ((J : ℝ) / (2 * J + 1)) + 4 * (qi * qo) * ((J + 1) / (2 * J + 1)) = 4 * (qi * qo) := by rw [← mul_add, this, mul_one]
      nlinarith)
    refine le_of_eq_of_le ?_ this
    show |2 * ((qi ^ 2 + qo ^ 2) * angular rule qi qo J 0 - 2 * qi * qo * (J * angular rule qi qo (J + 1) 0 + (J + 1) * angular rule qi qo (J - 1) 0) / (2 * J + 1)) -
      2 * ((qi ^ 2 + qo ^ 2) * angularExact qi qo J 0 - 2 * qi * qo * (J * angularExact qi qo (J + 1) 0 + (J + 1) * angularExact qi qo (J - 1) 0) / (2 * J + 1))| = _
    congr 1; field_simp; ring
  · have := key (u * (qi ^ 2 + qo ^ 2)) (-(u * (2 * (qi * qo)))) 0 _ _ 0 hm h0 (by simpa using he) (by
      rw [abs_of_nonneg (by positivity), abs_neg, abs_of_nonneg (by positivity), abs_zero]
      have := mul_le_mul_of_nonneg_right hc1 hsq
      nlinarith)
    refine le_of_eq_of_le ?_ this
    show |u * ((qi ^ 2 + qo ^ 2) * angular rule qi qo (J - 1) 0 - 2 * qi * qo * angular rule qi qo J 0) - u * ((qi ^ 2 + qo ^ 2) * angularExact qi qo (J - 1) 0 - 2 * qi * qo * angularExact qi qo J 0)| = _
    congr 1; ring
  · set v := 4 * Real.sqrt ((J : ℝ) * (J + 1)) / (2 * J + 1) with hv
    have := key (v * qi ^ 2) (v * qo ^ 2) (-(v * (2 * (qi * qo)))) _ _ _ hp hm h0 (by
      rw [abs_of_nonneg (by positivity), abs_of_nonneg (by positivity), abs_neg, abs_of_nonneg (by positivity)]
      have := mul_le_mul_of_nonneg_right hv1 hsq
      nlinarith)
    refine le_of_eq_of_le ?_ this
    show |v * (qi ^ 2 * angular rule qi qo (J + 1) 0 + qo ^ 2 * angular rule qi qo (J - 1) 0 - 2 * qi * qo * angular rule qi qo J 0) -
      v * (qi ^ 2 * angularExact qi qo (J + 1) 0 + qo ^ 2 * angularExact qi qo (J - 1) 0 - 2 * qi * qo * angularExact qi qo J 0)| = _
    congr 1; ring
  · set v := 4 * Real.sqrt ((J : ℝ) * (J + 1)) / (2 * J + 1) with hv
    have := key (v * qo ^ 2) (v * qi ^ 2) (-(v * (2 * (qi * qo)))) _ _ _ hp hm h0 (by
      rw [abs_of_nonneg (by positivity), abs_of_nonneg (by positivity), abs_neg, abs_of_nonneg (by positivity)]
      have := mul_le_mul_of_nonneg_right hv1 hsq
      nlinarith)
    refine le_of_eq_of_le ?_ this
    show |v * (qo ^ 2 * angular rule qi qo (J + 1) 0 + qi ^ 2 * angular rule qi qo (J - 1) 0 - 2 * qi * qo * angular rule qi qo J 0) -
      v * (qo ^ 2 * angularExact qi qo (J + 1) 0 + qi ^ 2 * angularExact qi qo (J - 1) 0 - 2 * qi * qo * angularExact qi qo J 0)| = _
    congr 1; ring
  · have := key (u * (2 * (qi * qo))) (-(u * (qi ^ 2 + qo ^ 2))) 0 _ _ 0 h0 hp (by simpa using he) (by
      rw [abs_of_nonneg (by positivity), abs_neg, abs_of_nonneg (by positivity), abs_zero]
      have := mul_le_mul_of_nonneg_right hc1 hsq
      nlinarith)
    refine le_of_eq_of_le ?_ this
    show |u * (2 * qi * qo * angular rule qi qo J 0 - (qi ^ 2 + qo ^ 2) * angular rule qi qo (J + 1) 0) - u * (2 * qi * qo * angularExact qi qo J 0 - (qi ^ 2 + qo ^ 2) * angularExact qi qo (J + 1) 0)| = _
    congr 1; ring

/-- The leading-order force with the exact angular integrals: one-pion exchange, contact term, regulator and minimal-relativity factor. -/
def Spec.loExact (qi qo : ℝ) (J : Nat) (T : Int) (k : Fin 6) : ℝ :=
  (opepExact qi qo J k * tauTau T + contact J k) *
    (Real.exp (-(qi / 450) ^ 6) * Real.exp (-(qo / 450) ^ 6) * Real.sqrt (MN / Real.sqrt (MN ^ 2 + qi ^ 2)) * Real.sqrt (MN / Real.sqrt (MN ^ 2 + qo ^ 2)) / (2 * Real.pi) ^ 3)

theorem tau_bound {L S T : Int} (h : PauliT L S T) : |((tauTau T : Int) : ℝ)| ≤ 3 := by
  rcases h.1 with rfl | rfl <;> norm_num [tauTau]

/-- C124: the elements of `LO_internal`, as computed with the program's own mesh, against the force with exact angular integrals. -/
theorem C124_force (fuel : Nat) (hf : 7 ≤ fuel) (x0 w0 : Nat → ℝ) (rule : List (ℝ × ℝ)) (h : gaussFill 150 3e-16 fuel x0 w0 = some rule)
    (qi qo Q : ℝ) (hi : 0 ≤ qi) (hiQ : qi ≤ Q) (ho : 0 ≤ qo) (hoQ : qo ≤ Q) (hQ0 : 0 < Q) (hQ : Q ≤ 10 ^ 6) (J : Nat) (hJ : J ≤ 100) :
    ∃ V, loV (rule.map (·.1)) (rule.map (·.2)) qi qo J = some V ∧ ∀ k, (present J k → ∀ T, PauliT (orbital J k).1 (orbital J k).2 T →
      |V k - loExact qi qo J T k| ≤ 6 * (qi + qo) ^ 2 * (Real.pi * (1.289 ^ 2 / (4 * 92.2 ^ 2 * 138.039 ^ 2)) * (8 / (1 + 138.039 / Q) ^ (299 - J) + 5e-11)) / (2 * Real.pi) ^ 3) ∧
      (¬ present J k → V k = 0) := by
  obtain ⟨V, hV, hk⟩ := C30_leading_order rule qi qo J hJ
  refine ⟨V, hV, fun k => ⟨fun hp T hT => ?_, (hk k).2⟩⟩
  rw [(hk k).1 hp T hT]
  set e := Real.pi * (1.289 ^ 2 / (4 * 92.2 ^ 2 * 138.039 ^ 2)) * (8 / (1 + 138.039 / Q) ^ (299 - J) + 5e-11) with he
  have ang : ∀ n l, n ≤ 101 → l ≤ 1 → n + l ≤ J + 1 → |angular rule qi qo n l - angularExact qi qo n l| ≤ e := by
    intro n l h1 h2 h3
    refine (C124_angular fuel hf x0 w0 rule h qi qo Q hi hiQ ho hoQ hQ0 hQ n l h1 h2).trans ?_
    rw [he]
    have h5 : (1 : ℝ) ≤ 1 + 138.039 / Q := by
      have : 0 ≤ 138.039 / Q := by positivity
      linarith
    have h6 : (1 + 138.039 / Q) ^ (299 - J) ≤ (1 + 138.039 / Q) ^ (300 - n - l) := pow_le_pow_right₀ h5 (by omega)
    have h7 : 8 / (1 + 138.039 / Q) ^ (300 - n - l) ≤ 8 / (1 + 138.039 / Q) ^ (299 - J) :=
      div_le_div_of_nonneg_left (by norm_num) (by positivity) h6
    have h8 : 0 ≤ Real.pi * (1.289 ^ 2 / (4 * 92.2 ^ 2 * 138.039 ^ 2)) := by positivity
    exact mul_le_mul_of_nonneg_left (by linarith) h8
  have near := opep_near rule qi qo e hi ho J (ang J 0 (by omega) (by omega) (by omega)) (ang J 1 (by omega) (by omega) (by omega))
    (ang (J + 1) 0 (by omega) (by omega) (by omega)) (ang (J - 1) 0 (by omega) (by omega) (by omega)) k
  have he0 : 0 ≤ e := by rw [he]; positivity
  have ht := tau_bound hT
  unfold loExact
  rw [← sub_mul, abs_mul, show opepJ rule qi qo J k * (tauTau T : ℝ) + contact J k - (opepExact qi qo J k * (tauTau T : ℝ) + contact J k) =
    (opepJ rule qi qo J k - opepExact qi qo J k) * (tauTau T : ℝ) by ring, abs_mul]
  have hMN : 0 < MN := by unfold MN Mp Mn; norm_num
  have r1 : ∀ q : ℝ, Real.sqrt (MN / Real.sqrt (MN ^ 2 + q ^ 2)) ≤ 1 := by
    intro q
    rw [Real.sqrt_le_one]
    · apply div_le_one_of_le₀ _ (Real.sqrt_nonneg _)
      exact Real.le_sqrt_of_sq_le (by nlinarith [sq_nonneg q])
  have r2 : ∀ q : ℝ, Real.exp (-(q / 450) ^ 6) ≤ 1 := by
    intro q
    rw [Real.exp_le_one_iff]
    have : 0 ≤ (q / 450) ^ 6 := by positivity
    linarith
  have hc : |Real.exp (-(qi / 450) ^ 6) * Real.exp (-(qo / 450) ^ 6) * Real.sqrt (MN / Real.sqrt (MN ^ 2 + qi ^ 2)) * Real.sqrt (MN / Real.sqrt (MN ^ 2 + qo ^ 2)) / (2 * Real.pi) ^ 3| ≤
      1 / (2 * Real.pi) ^ 3 := by
    rw [abs_of_nonneg (by positivity)]
    gcongr
    refine mul_le_one₀ (mul_le_one₀ (mul_le_one₀ (r2 qi) (by positivity) (r2 qo)) (by positivity) (r1 qi)) (by positivity) (r1 qo)
  calc _ ≤ 2 * (qi + qo) ^ 2 * e * 3 * (1 / (2 * Real.pi) ^ 3) := by
        have a1 := mul_le_mul near ht (abs_nonneg _) (by positivity)
        exact mul_le_mul a1 hc (abs_nonneg _) (by positivity)
    _ = _ := by ring

/-- C124: for momenta up to 1000 MeV and every `J` the program supports the error is below `1.3e-13` MeV⁻²; the contact term of the `1S0` wave at rest is more than
`4e-6` MeV⁻². -/
theorem C124_digits (fuel : Nat) (hf : 7 ≤ fuel) (x0 w0 : Nat → ℝ) (rule : List (ℝ × ℝ)) (h : gaussFill 150 3e-16 fuel x0 w0 = some rule)
    (qi qo : ℝ) (hi : 0 ≤ qi) (hiQ : qi ≤ 1000) (ho : 0 ≤ qo) (hoQ : qo ≤ 1000) (J : Nat) (hJ : J ≤ 100) :
    ∃ V, loV (rule.map (·.1)) (rule.map (·.2)) qi qo J = some V ∧ ∀ k, (present J k → ∀ T, PauliT (orbital J k).1 (orbital J k).2 T →
      |V k - loExact qi qo J T k| ≤ 1.3e-13) ∧ (¬ present J k → V k = 0) := by
  obtain ⟨V, hV, hk⟩ := C124_force fuel hf x0 w0 rule h qi qo 1000 hi hiQ ho hoQ (by norm_num) (by norm_num) J hJ
  refine ⟨V, hV, fun k => ⟨fun hp T hT => ((hk k).1 hp T hT).trans ?_, (hk k).2⟩⟩
  have h1 : 8 / (1 + 138.039 / 1000) ^ (299 - J) ≤ (6e-11 : ℝ) := by
    have : (1 + 138.039 / 1000 : ℝ) ^ 199 ≤ (1 + 138.039 / 1000) ^ (299 - J) := pow_le_pow_right₀ (by norm_num) (by omega)
    have h3 : 8 / (1 + 138.039 / 1000) ^ (299 - J) ≤ 8 / (1 + 138.039 / 1000 : ℝ) ^ 199 := div_le_div_of_nonneg_left (by norm_num) (by positivity) this
    refine h3.trans ?_
    norm_num
  have h2 : (qi + qo) ^ 2 ≤ 2000 ^ 2 := pow_le_pow_left₀ (by positivity) (by linarith) 2
  have pi3 := Real.pi_gt_three
  have pi4 : Real.pi ≤ 4 := Real.pi_le_four
  have h4 : (6 : ℝ) ^ 3 ≤ (2 * Real.pi) ^ 3 := pow_le_pow_left₀ (by norm_num) (by linarith) 3
  calc _ ≤ (6 : ℝ) * 2000 ^ 2 * (4 * (1.289 ^ 2 / (4 * 92.2 ^ 2 * 138.039 ^ 2)) * (6e-11 + 5e-11)) / 6 ^ 3 := by gcongr
    _ ≤ (1.3e-13 : ℝ) := by norm_num

/-- The scale of the force: the `1S0` element at rest. -/
example : |loExact 0 0 0 1 0| ≥ 4e-6 := by
  have hMN : 0 < MN := by unfold MN Mp Mn; norm_num
  have e : loExact 0 0 0 1 0 = contact 0 0 / (2 * Real.pi) ^ 3 := by
    unfold loExact opepExact
    have : Real.sqrt (MN ^ 2 + 0 ^ 2) = MN := by rw [show MN ^ 2 + (0 : ℝ) ^ 2 = MN ^ 2 by ring, Real.sqrt_sq hMN.le]
    rw [this, div_self hMN.ne']
    simp
    ring
  have hc : contact 0 0 = -0.112927 / 100 := by simp [contact]
  have hp : (2 * Real.pi) ^ 3 ≤ 6.2832 ^ 3 := pow_le_pow_left₀ (by positivity) (by linarith [Real.pi_lt_d4]) 3
  rw [e, hc, abs_div, abs_of_pos (by positivity : 0 < (2 * Real.pi) ^ 3), ge_iff_le, le_div_iff₀ (by positivity)]
  calc _ ≤ (4e-6 : ℝ) * 6.2832 ^ 3 := by gcongr
    _ ≤ _ := by norm_num

/-- The mesh exists, so the hypotheses can be met. -/
example : ∃ rule, gaussFill 150 3e-16 7 (fun _ => 0) (fun _ => 0) = some rule := by
  obtain ⟨l, hl, -⟩ := C121_gauss 150 (by norm_num) (by norm_num)
  exact ⟨l, hl 7 _ _ le_rfl⟩

end TicTac
end
