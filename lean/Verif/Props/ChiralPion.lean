import Verif.Spec.ChiralExact
import Verif.Props.OnePion
import Verif.Props.ChpMesh
import Verif.Props.ChpMatrix
/-! C125: the accuracy of the angular integration in the chiral potentials. -/
noncomputable section
namespace TicTac
open Polynomial Spec

theorem weighted_degree (n l : Nat) : (X ^ l * legendre n : ℝ[X]).natDegree ≤ n + l := by
  refine natDegree_mul_le.trans ?_
  rw [natDegree_X_pow, Nat.add_comm]
  exact Nat.add_le_add_right (legendre_natDegree_le n) l

/-- A combination of three weighted Legendre polynomials of degree at most `J + 1`. -/
theorem combo_bound (J : Nat) (a b c : ℝ) (n1 l1 n2 l2 n3 l3 : Nat) (h1 : l1 ≤ 1) (h2 : l2 ≤ 1) (h3 : l3 ≤ 1) (d1 : n1 + l1 ≤ J + 1) (d2 : n2 + l2 ≤ J + 1) (d3 : n3 + l3 ≤ J + 1)
    (s : ℝ) (hs : |a| + |b| + |c| ≤ s) :
    ∃ P : ℝ[X], P.natDegree ≤ J + 1 ∧ (∀ x, -1 ≤ x → x ≤ 1 → |P.eval x| ≤ s) ∧ (∀ x, -1 ≤ x → x ≤ 1 → |(derivative P).eval x| ≤ s * (1 + ((J : ℝ) + 1) * (J + 2) / 2)) ∧
      ∀ x, P.eval x = a * (x ^ l1 * (legendre n1).eval x) + b * (x ^ l2 * (legendre n2).eval x) + c * (x ^ l3 * (legendre n3).eval x) := by
  have bd : ∀ n l, l ≤ 1 → n + l ≤ J + 1 → ∀ x, -1 ≤ x → x ≤ 1 → |(X ^ l * legendre n : ℝ[X]).eval x| ≤ 1 ∧
      |(derivative (X ^ l * legendre n : ℝ[X])).eval x| ≤ 1 + ((J : ℝ) + 1) * (J + 2) / 2 := by
    intro n l hl hd x x1 x2
    obtain ⟨u, v⟩ := weighted_legendre n l hl x x1 x2
    refine ⟨u, v.trans ?_⟩
    have hn : (n : ℝ) ≤ J + 1 := by exact_mod_cast (by omega : n ≤ J + 1)
    have hn0 : (0 : ℝ) ≤ n := Nat.cast_nonneg n
    nlinarith
  have dg : ∀ (k : ℝ) n l, n + l ≤ J + 1 → (C k * (X ^ l * legendre n) : ℝ[X]).natDegree ≤ J + 1 := fun k n l h =>
    (natDegree_C_mul_le _ _).trans ((weighted_degree n l).trans h)
  have key : ∀ x y z e : ℝ, 0 ≤ e → |x| ≤ e → |y| ≤ e → |z| ≤ e → |a * x + b * y + c * z| ≤ s * e := by
    intro x y z e he hx hy hz
    calc _ ≤ |a * x + b * y| + |c * z| := abs_add_le _ _
      _ ≤ |a * x| + |b * y| + |c * z| := by linarith [abs_add_le (a * x) (b * y)]
      _ ≤ |a| * e + |b| * e + |c| * e := by
        rw [abs_mul, abs_mul, abs_mul]
        have u1 := mul_le_mul_of_nonneg_left hx (abs_nonneg a)
        have u2 := mul_le_mul_of_nonneg_left hy (abs_nonneg b)
        have u3 := mul_le_mul_of_nonneg_left hz (abs_nonneg c)
        linarith
      _ = (|a| + |b| + |c|) * e := by ring
      _ ≤ _ := mul_le_mul_of_nonneg_right hs he
  refine ⟨C a * (X ^ l1 * legendre n1) + C b * (X ^ l2 * legendre n2) + C c * (X ^ l3 * legendre n3),
    natDegree_add_le_of_degree_le (natDegree_add_le_of_degree_le (dg a _ _ d1) (dg b _ _ d2)) (dg c _ _ d3), ?_, ?_, ?_⟩
  · intro x x1 x2
    rw [eval_add, eval_add, eval_mul, eval_mul (p := C b), eval_mul (p := C c), eval_C, eval_C, eval_C]
    have := key _ _ _ 1 (by norm_num) (bd n1 l1 h1 d1 x x1 x2).1 (bd n2 l2 h2 d2 x x1 x2).1 (bd n3 l3 h3 d3 x x1 x2).1
    linarith
  · intro x x1 x2
    rw [derivative_add, derivative_add, derivative_C_mul, derivative_C_mul, derivative_C_mul, eval_add, eval_add, eval_mul, eval_mul (p := C b), eval_mul (p := C c), eval_C, eval_C, eval_C]
    exact key _ _ _ _ (by positivity) (bd n1 l1 h1 d1 x x1 x2).2 (bd n2 l2 h2 d2 x x1 x2).2 (bd n3 l3 h3 d3 x x1 x2).2
  · intro x
    simp only [eval_add, eval_mul, eval_C, eval_pow, eval_X]

theorem legI_cast (z : ℝ) (j : Int) (n : Nat) (h : j = n) : legI z j = (legendre n).eval z := by subst h; unfold legI; simp

theorem kern_tensor (F : Force) (hc : F.c = 0) (hs : F.s = 0) (hls : F.ls = 0) (hsl : F.sl = 0) (J : Nat) (coup : Bool) (S : Int) (pp p z : ℝ) (k : Fin 6) :
    kern F J coup S pp p z k = F.t z * coefT J coup S pp p z k := by
  unfold kern
  rw [hc, hs, hls, hsl]
  simp

/-- The integrand of the projection of a tensor force is its strength times a polynomial. -/
theorem tensor_density (po pi : ℝ) (ho : 0 ≤ po) (hi : 0 ≤ pi) (S Lo Li T : Int) (J : Nat) (hw : Waves S J Lo Li T) :
    ∃ P : ℝ[X], P.natDegree ≤ J + 1 ∧ (∀ x, -1 ≤ x → x ≤ 1 → |P.eval x| ≤ (po + pi) ^ 2) ∧
      (∀ x, -1 ≤ x → x ≤ 1 → |(derivative P).eval x| ≤ (po + pi) ^ 2 * (1 + ((J : ℝ) + 1) * (J + 2) / 2)) ∧
      ∀ F : Force, F.c = 0 → F.s = 0 → F.ls = 0 → F.sl = 0 → ∀ z u v, Dirs z u v →
        (if S = 0 then (legendre J).eval z * singletOp F po pi u v else contract (tripletStates J Lo Li u v) (tripletOp F po pi u v)) = F.t z * P.eval z := by
  obtain ⟨hs, hO, hI, hp, hT⟩ := hw
  have a1 := abs_le.1 hO.1
  have a2 := abs_le.1 hI.1
  have hqq : 0 ≤ pi * po := mul_nonneg hi ho
  have hJ0 : (0 : ℝ) ≤ J := Nat.cast_nonneg J
  have hc : 0 < 2 * (J : ℝ) + 1 := by positivity
  have hsq : 0 ≤ (po + pi) ^ 2 := sq_nonneg _
  have hr : Real.sqrt ((J : ℝ) * (J + 1)) ≤ (2 * J + 1) / 2 := by
    apply Real.sqrt_le_iff.2
    constructor
    · positivity
    · nlinarith
  have hu0 : 0 ≤ 1 / (2 * (J : ℝ) + 1) := by positivity
  have hu1 : 1 / (2 * (J : ℝ) + 1) ≤ 1 := by rw [div_le_one hc]; linarith
  have hv0 : 0 ≤ 2 * Real.sqrt ((J : ℝ) * (J + 1)) / (2 * J + 1) := by positivity
  have hv1 : 2 * Real.sqrt ((J : ℝ) * (J + 1)) / (2 * J + 1) ≤ 1 := by rw [div_le_one hc]; linarith
  have e1 : (1 : Int) ≠ 0 := by decide
  rcases hs with rfl | rfl
  · obtain ⟨rfl, rfl⟩ : Lo = J ∧ Li = J := by omega
    obtain ⟨P, h1, h2, h3, h4⟩ := combo_bound J (-(pi ^ 2 + po ^ 2)) (2 * (pi * po)) 0 J 0 J 1 0 0 (by omega) (by omega) (by omega) (by omega) (by omega) (by omega) ((po + pi) ^ 2) (by
      rw [abs_neg, abs_of_nonneg (by positivity), abs_of_nonneg (by positivity), abs_zero]; nlinarith)
    refine ⟨P, h1, h2, h3, fun F c1 c2 c3 c4 z u v hd => ?_⟩
    rw [if_pos rfl, ← kern_singlet F J po pi z u v hd, kern_tensor F c1 c2 c3 c4, h4]
    congr 1
    simp [coefT, leg_self]
    ring
  · by_cases hLo : Lo = J
    · obtain rfl : Li = J := by omega
      subst hLo
      have hJ1 : 1 ≤ J := by omega
      obtain ⟨P, h1, h2, h3, h4⟩ := combo_bound J (pi ^ 2 + po ^ 2) (-(2 * (pi * po) * (J / (2 * J + 1)))) (-(2 * (pi * po) * ((J + 1) / (2 * J + 1)))) J 0 (J + 1) 0 (J - 1) 0 (by omega) (by omega) (by omega) (by omega) (by omega) (by omega) ((po + pi) ^ 2) (by
        rw [abs_of_nonneg (by positivity), abs_neg, abs_of_nonneg (by positivity), abs_neg, abs_of_nonneg (by positivity)]
        have : (J : ℝ) / (2 * J + 1) + (J + 1) / (2 * J + 1) = 1 := by field_simp; ring
        have e2 : 2 * (pi * po) * ((J : ℝ) / (2 * J + 1)) + 2 * (pi * po) * ((J + 1) / (2 * J + 1)) = 2 * (pi * po) := by rw [← mul_add, this, mul_one]
        nlinarith)
      refine ⟨P, h1, h2, h3, fun F c1 c2 c3 c4 z u v hd => ?_⟩
      rw [if_neg e1, ← kern_uncoupled F J po pi z u v hd hJ1, kern_tensor F c1 c2 c3 c4, h4]
      congr 1
      simp only [coefT]
      simp [legI_cast z J J rfl, legI_cast z (J + 1) (J + 1) (by push_cast; ring), legI_cast z (J - 1) (J - 1) (by omega)]
      field_simp
      ring
    · rcases (show (Lo = J + 1 ∨ Lo = J - 1) by omega) with rfl | rfl <;> rcases (show (Li = J + 1 ∨ Li = J - 1) by omega) with rfl | rfl
      · obtain ⟨P, h1, h2, h3, h4⟩ := combo_bound J (-((1 / (2 * J + 1)) * (pi ^ 2 + po ^ 2))) ((1 / (2 * J + 1)) * (2 * (pi * po))) 0 (J + 1) 0 J 0 0 0 (by omega) (by omega) (by omega) (by omega) (by omega) (by omega) ((po + pi) ^ 2) (by
          rw [abs_neg, abs_of_nonneg (by positivity), abs_of_nonneg (by positivity), abs_zero]
          have := mul_le_mul_of_nonneg_right hu1 hsq
          nlinarith)
        refine ⟨P, h1, h2, h3, fun F c1 c2 c3 c4 z u v hd => ?_⟩
        rw [if_neg e1, ← kern_upper F J po pi z u v hd, kern_tensor F c1 c2 c3 c4, h4]
        congr 1
        simp only [coefT]
        simp [legI_cast z J J rfl, legI_cast z (J + 1) (J + 1) (by push_cast; ring)]
        field_simp
        ring
      · have hJ1 : 1 ≤ J := by omega
        obtain ⟨P, h1, h2, h3, h4⟩ := combo_bound J (2 * Real.sqrt ((J : ℝ) * (J + 1)) / (2 * J + 1) * po ^ 2) (2 * Real.sqrt ((J : ℝ) * (J + 1)) / (2 * J + 1) * pi ^ 2)
          (-(2 * Real.sqrt ((J : ℝ) * (J + 1)) / (2 * J + 1) * (2 * (pi * po)))) (J - 1) 0 (J + 1) 0 J 0 (by omega) (by omega) (by omega) (by omega) (by omega) (by omega) ((po + pi) ^ 2) (by
          rw [abs_of_nonneg (by positivity), abs_of_nonneg (by positivity), abs_neg, abs_of_nonneg (by positivity)]
          have := mul_le_mul_of_nonneg_right hv1 hsq
          nlinarith)
        refine ⟨P, h1, h2, h3, fun F c1 c2 c3 c4 z u v hd => ?_⟩
        rw [if_neg e1, ← kern_mixUL F J po pi z u v hd hJ1, kern_tensor F c1 c2 c3 c4, h4, ← mul_neg]
        congr 1
        simp only [coefT]
        simp [legI_cast z J J rfl, legI_cast z (J + 1) (J + 1) (by push_cast; ring), legI_cast z (J - 1) (J - 1) (by omega), show J ≠ 0 by omega]
        field_simp
        ring
      · have hJ1 : 1 ≤ J := by omega
        obtain ⟨P, h1, h2, h3, h4⟩ := combo_bound J (2 * Real.sqrt ((J : ℝ) * (J + 1)) / (2 * J + 1) * po ^ 2) (2 * Real.sqrt ((J : ℝ) * (J + 1)) / (2 * J + 1) * pi ^ 2)
          (-(2 * Real.sqrt ((J : ℝ) * (J + 1)) / (2 * J + 1) * (2 * (pi * po)))) (J + 1) 0 (J - 1) 0 J 0 (by omega) (by omega) (by omega) (by omega) (by omega) (by omega) ((po + pi) ^ 2) (by
          rw [abs_of_nonneg (by positivity), abs_of_nonneg (by positivity), abs_neg, abs_of_nonneg (by positivity)]
          have := mul_le_mul_of_nonneg_right hv1 hsq
          nlinarith)
        refine ⟨P, h1, h2, h3, fun F c1 c2 c3 c4 z u v hd => ?_⟩
        rw [if_neg e1, ← kern_mixLU F J po pi z u v hd hJ1, kern_tensor F c1 c2 c3 c4, h4, ← mul_neg]
        congr 1
        simp only [coefT]
        simp [legI_cast z J J rfl, legI_cast z (J + 1) (J + 1) (by push_cast; ring), legI_cast z (J - 1) (J - 1) (by omega), show J ≠ 0 by omega]
        field_simp
        ring
      · have hJ1 : 1 ≤ J := by omega
        obtain ⟨P, h1, h2, h3, h4⟩ := combo_bound J ((1 / (2 * J + 1)) * (pi ^ 2 + po ^ 2)) (-((1 / (2 * J + 1)) * (2 * (pi * po)))) 0 (J - 1) 0 J 0 0 0 (by omega) (by omega) (by omega) (by omega) (by omega) (by omega) ((po + pi) ^ 2) (by
          rw [abs_of_nonneg (by positivity), abs_neg, abs_of_nonneg (by positivity), abs_zero]
          have := mul_le_mul_of_nonneg_right hu1 hsq
          nlinarith)
        refine ⟨P, h1, h2, h3, fun F c1 c2 c3 c4 z u v hd => ?_⟩
        rw [if_neg e1, ← kern_lower F J po pi z u v hd hJ1, kern_tensor F c1 c2 c3 c4, h4]
        congr 1
        simp only [coefT]
        simp [legI_cast z J J rfl, legI_cast z (J - 1) (J - 1) (by omega), show J ≠ 0 by omega]
        field_simp
        ring

theorem mapped_unit (g : List (ℝ × ℝ)) : mapped (-1) 1 g = g := by
  unfold mapped
  conv_rhs => rw [← List.map_id g]
  refine List.map_congr_left fun p _ => ?_
  ext <;> simp <;> ring

/-- The error of the 96-point rule for a tensor force of the form of one-pion exchange. -/
theorem pion_quad (fuel : Nat) (hf : 7 ≤ fuel) (pp0 : ℝ) (x0 w0 : Nat → ℝ) (rule : List (ℝ × ℝ)) (h : meshFill 96 3e-14 fuel (-1) 1 pp0 x0 w0 = some rule)
    (po pi mu Q : ℝ) (ho : 0 ≤ po) (hoQ : po ≤ Q) (hi : 0 ≤ pi) (hiQ : pi ≤ Q) (hQ0 : 0 < Q) (hQ : Q ≤ 1000) (hmu : 100 ≤ mu) (J : Nat) (hJ : J ≤ 38) (P : ℝ[X]) (hP : P.natDegree ≤ J + 1)
    (hB : ∀ x, -1 ≤ x → x ≤ 1 → |P.eval x| ≤ (po + pi) ^ 2) (hK : ∀ x, -1 ≤ x → x ≤ 1 → |(derivative P).eval x| ≤ (po + pi) ^ 2 * (1 + ((J : ℝ) + 1) * (J + 2) / 2)) :
    |(rule.map fun p => p.2 * (P.eval p.1 / (transfer po pi p.1 + mu ^ 2))).sum - ∫ z in (-1 : ℝ)..1, P.eval z / (transfer po pi z + mu ^ 2)| ≤
      (po + pi) ^ 2 / mu ^ 2 * (8 / (1 + mu / Q) ^ (191 - J) + 2e-9) := by
  obtain ⟨-, -, hin⟩ := C122_points 96 (by norm_num) (by norm_num) (by norm_num) (-1) 1 (by norm_num) fuel hf pp0 x0 w0 rule h
  obtain ⟨l', hl', g, G, near⟩ := C122_even 96 (by norm_num) (by norm_num) (by norm_num) (-1) 1 (by norm_num)
  obtain rfl : l' = rule := by have := hl' fuel pp0 x0 w0 hf; rw [h] at this; exact (Option.some.inj this).symm
  rw [mapped_unit] at near
  have hmu0 : 0 < mu := by linarith
  have hq : po * pi ≤ Q ^ 2 := by nlinarith
  have hq0 : 0 ≤ po * pi := by positivity
  have np := near_pole 96 (by norm_num) hin G near P (191 - J) (by omega) (by omega) _ _ hB hK (po ^ 2 + pi ^ 2 + mu ^ 2) (2 * po * pi) (mu ^ 2) (mu / Q)
    (by positivity) (by positivity) (by positivity) (by nlinarith [sq_nonneg (po - pi)]) (by
      rw [div_pow]
      have : 2 * po * pi * (mu ^ 2 / Q ^ 2) = 2 * mu ^ 2 * ((po * pi) / Q ^ 2) := by ring
      rw [this]
      have h1 : (po * pi) / Q ^ 2 ≤ 1 := by rw [div_le_one (by positivity)]; exact hq
      nlinarith [sq_nonneg mu])
  have et : ∀ z, po ^ 2 + pi ^ 2 + mu ^ 2 - 2 * po * pi * z = transfer po pi z + mu ^ 2 := fun z => by unfold transfer; ring
  simp only [et] at np
  refine np.trans ?_
  have hB0 : 0 ≤ (po + pi) ^ 2 := sq_nonneg _
  have hJ' : (J : ℝ) ≤ 38 := by exact_mod_cast hJ
  have hJ0 : (0 : ℝ) ≤ J := Nat.cast_nonneg J
  have hd : 2 * po * pi / mu ^ 2 ≤ 200 := by
    rw [div_le_iff₀ (by positivity)]
    nlinarith
  have hx : 1 + ((J : ℝ) + 1) * (J + 2) / 2 + 2 * po * pi / mu ^ 2 ≤ 1000 := by nlinarith
  generalize (1 + mu / Q) ^ (191 - J) = R
  generalize (J : ℝ) = j at *
  have e : (po + pi) ^ 2 * (1 + (j + 1) * (j + 2) / 2) + (po + pi) ^ 2 * (2 * po * pi) / mu ^ 2 = (po + pi) ^ 2 * (1 + (j + 1) * (j + 2) / 2 + 2 * po * pi / mu ^ 2) := by ring
  rw [e]
  generalize 1 + (j + 1) * (j + 2) / 2 + 2 * po * pi / mu ^ 2 = y at *
  generalize (po + pi) ^ 2 = b at *
  have hm : 0 ≤ 1 / mu ^ 2 := by positivity
  rw [show b / mu ^ 2 * (8 / R + 2e-9) = 1 / mu ^ 2 * (8 * b / R + 2e-9 * b) by ring]
  refine mul_le_mul_of_nonneg_left ?_ hm
  have : b * y ≤ b * 1000 := mul_le_mul_of_nonneg_left hx hB0
  norm_num
  linarith

/-- C125: one-pion exchange of a chiral model with its own 96-point mesh, against the exact projection. -/
theorem pion_projected (m : ChiralModel) (hm : m ≠ .idaho) (c : Constants) (fuel : Nat) (hf : 7 ≤ fuel) (pp0 : ℝ) (x0 w0 : Nat → ℝ) (rule : List (ℝ × ℝ))
    (h : meshFill 96 3e-14 fuel (-1) 1 pp0 x0 w0 = some rule) (dirs : ℝ → Vec × Vec) (hd : ∀ z, |z| ≤ 1 → Dirs z (dirs z).1 (dirs z).2)
    (po pi Q : ℝ) (ho : 0 ≤ po) (hoQ : po ≤ Q) (hi : 0 ≤ pi) (hiQ : pi ≤ Q) (hQ0 : 0 < Q) (hQ : Q ≤ 1000) (S J Lo Li T Tz : Int) (hw : Waves S J Lo Li T) (hz : |Tz| ≤ T) (hJ : J ≤ 38) :
    |projected rule dirs (onePionForce m c T Tz po pi) po pi S J.toNat Lo Li - projectedExact dirs (onePionForce m c T Tz po pi) po pi S J.toNat Lo Li| ≤
      2 * Real.pi * (3 * (c.gA ^ 2 / (4 * pionDecay m ^ 2)) * ((po + pi) ^ 2 / 134.9766 ^ 2 * (8 / (1 + 134.9766 / Q) ^ (191 - J.toNat) + 2e-9))) := by
  have hJ0 : 0 ≤ J := le_trans (abs_nonneg _) hw.out.1
  obtain ⟨n, rfl⟩ : ∃ n : Nat, J = n := ⟨J.toNat, by omega⟩
  rw [Int.toNat_natCast]
  obtain ⟨-, -, hin⟩ := C122_points 96 (by norm_num) (by norm_num) (by norm_num) (-1) 1 (by norm_num) fuel hf pp0 x0 w0 rule h
  obtain ⟨P, hP, hB, hK, hden⟩ := tensor_density po pi ho hi S Lo Li T n hw
  set F := onePionForce m c T Tz po pi with hF
  set e := (po + pi) ^ 2 / 134.9766 ^ 2 * (8 / (1 + 134.9766 / Q) ^ (191 - n) + 2e-9) with he
  have key : ∀ mu : ℝ, 134.9766 ≤ mu → |(rule.map fun p => p.2 * (P.eval p.1 / (transfer po pi p.1 + mu ^ 2))).sum - ∫ z in (-1 : ℝ)..1, P.eval z / (transfer po pi z + mu ^ 2)| ≤ e := by
    intro mu hmu
    refine (pion_quad fuel hf pp0 x0 w0 rule h po pi mu Q ho hoQ hi hiQ hQ0 hQ (by linarith) n (by omega) P hP hB hK).trans ?_
    rw [he]
    have h1 : 134.9766 / Q ≤ mu / Q := by gcongr
    have h0 : 0 ≤ 134.9766 / Q := by positivity
    have h2 : (1 + 134.9766 / Q) ^ (191 - n) ≤ (1 + mu / Q) ^ (191 - n) := by gcongr
    have h3 : (134.9766 : ℝ) ^ 2 ≤ mu ^ 2 := by gcongr
    gcongr
  have he0 : 0 ≤ e := (abs_nonneg _).trans (key 134.9766 le_rfl)
  -- the strength as two poles
  obtain ⟨k1, k2, m1, m2, hm1, hm2, hk, hFt⟩ : ∃ k1 k2 m1 m2 : ℝ, 134.9766 ≤ m1 ∧ 134.9766 ≤ m2 ∧ |k1| + |k2| ≤ 3 * (c.gA ^ 2 / (4 * pionDecay m ^ 2)) ∧
      ∀ z, F.t z = k1 * (1 / (transfer po pi z + m1 ^ 2)) + k2 * (1 / (transfer po pi z + m2 ^ 2)) := by
    have hg : 0 ≤ c.gA ^ 2 / (4 * pionDecay m ^ 2) := by positivity
    have hT := hw.pauli.1
    have hz' := abs_le.1 hz
    have ch : 134.9766 ≤ chargedPion m := by cases m <;> norm_num [chargedPion]
    by_cases hlo : m = .isLO
    · refine ⟨-((tauTau T : ℝ) * (c.gA ^ 2 / (4 * pionDecay m ^ 2))), 0, meanPion m, neutralPion, ?_, le_rfl, ?_, ?_⟩
      · unfold meanPion neutralPion; linarith
      · rw [abs_zero, add_zero, abs_neg, abs_mul, abs_of_nonneg hg]
        exact mul_le_mul_of_nonneg_right (tau_bound hw.pauli) hg
      · intro z
        rw [hF]
        subst hlo
        simp only [onePionForce, pionExchange]
        ring
    · refine ⟨-((tauZ Tz : ℝ) * (c.gA ^ 2 / (4 * pionDecay m ^ 2))), -(((tauTau T : ℝ) - tauZ Tz) * (c.gA ^ 2 / (4 * pionDecay m ^ 2))), neutralPion, chargedPion m, le_rfl, ch, ?_, ?_⟩
      · rw [abs_neg, abs_neg, abs_mul, abs_mul, abs_of_nonneg hg, ← add_mul]
        refine mul_le_mul_of_nonneg_right ?_ hg
        rcases hT with rfl | rfl
        · obtain rfl : Tz = 0 := by omega
          norm_num [tauZ, tauTau]
        · unfold tauZ
          split_ifs <;> norm_num [tauTau]
      · intro z
        rw [hF]
        have : (onePionForce m c T Tz po pi).t z = tauZ Tz * pionExchange c.gA (pionDecay m) neutralPion (transfer po pi z)
            + (tauTau T - tauZ Tz) * pionExchange c.gA (pionDecay m) (chargedPion m) (transfer po pi z) := by
          cases m <;> first | rfl | (exact absurd rfl hlo) | (exact absurd rfl hm)
        rw [this]
        simp only [pionExchange]
        ring
  have hFc : F.c = 0 ∧ F.s = 0 ∧ F.ls = 0 ∧ F.sl = 0 := ⟨rfl, rfl, rfl, rfl⟩
  have dens := hden F hFc.1 hFc.2.1 hFc.2.2.1 hFc.2.2.2
  have cont : ∀ mu : ℝ, 134.9766 ≤ mu → IntervalIntegrable (fun z => P.eval z / (transfer po pi z + mu ^ 2)) MeasureTheory.volume (-1) 1 := by
    intro mu hmu
    refine ContinuousOn.intervalIntegrable ?_
    rw [Set.uIcc_of_le (by norm_num)]
    refine P.continuous.continuousOn.div (Continuous.continuousOn (by unfold transfer; fun_prop)) fun z hz => ?_
    have : 0 ≤ po * pi := by positivity
    have h2 : 0 < mu ^ 2 := by positivity
    have : 0 < transfer po pi z + mu ^ 2 := by
      unfold transfer
      nlinarith [sq_nonneg (po - pi), mul_le_mul_of_nonneg_left hz.2 this]
    exact this.ne'
  have E1 : projected rule dirs F po pi S n Lo Li = 2 * Real.pi * (k1 * (rule.map fun p => p.2 * (P.eval p.1 / (transfer po pi p.1 + m1 ^ 2))).sum
      + k2 * (rule.map fun p => p.2 * (P.eval p.1 / (transfer po pi p.1 + m2 ^ 2))).sum) := by
    unfold projected
    congr 1
    rw [← List.sum_map_mul_left, ← List.sum_map_mul_left, ← List.sum_map_add]
    congr 1
    refine List.map_congr_left fun p hp => ?_
    obtain ⟨b1, b2, -⟩ := hin p hp
    rw [dens p.1 _ _ (hd p.1 (abs_le.2 ⟨by linarith, by linarith⟩)), hFt]
    ring
  have E2 : projectedExact dirs F po pi S n Lo Li = 2 * Real.pi * (k1 * (∫ z in (-1 : ℝ)..1, P.eval z / (transfer po pi z + m1 ^ 2))
      + k2 * ∫ z in (-1 : ℝ)..1, P.eval z / (transfer po pi z + m2 ^ 2)) := by
    unfold projectedExact
    congr 1
    rw [← intervalIntegral.integral_const_mul, ← intervalIntegral.integral_const_mul, ← intervalIntegral.integral_add ((cont m1 hm1).const_mul k1) ((cont m2 hm2).const_mul k2)]
    refine intervalIntegral.integral_congr fun z hz => ?_
    rw [Set.uIcc_of_le (by norm_num)] at hz
    beta_reduce
    rw [dens z _ _ (hd z (abs_le.2 ⟨hz.1, hz.2⟩)), hFt]
    ring
  have b1 := key m1 hm1
  have b2 := key m2 hm2
  rw [E1, E2]
  generalize (rule.map fun p => p.2 * (P.eval p.1 / (transfer po pi p.1 + m1 ^ 2))).sum = s1 at *
  generalize (rule.map fun p => p.2 * (P.eval p.1 / (transfer po pi p.1 + m2 ^ 2))).sum = s2 at *
  generalize (∫ z in (-1 : ℝ)..1, P.eval z / (transfer po pi z + m1 ^ 2)) = i1 at *
  generalize (∫ z in (-1 : ℝ)..1, P.eval z / (transfer po pi z + m2 ^ 2)) = i2 at *
  rw [show 2 * Real.pi * (k1 * s1 + k2 * s2) - 2 * Real.pi * (k1 * i1 + k2 * i2) = 2 * Real.pi * (k1 * (s1 - i1) + k2 * (s2 - i2)) by ring, abs_mul, abs_of_pos (by positivity)]
  refine mul_le_mul_of_nonneg_left ?_ (by positivity)
  calc _ ≤ |k1 * (s1 - i1)| + |k2 * (s2 - i2)| := abs_add_le _ _
    _ ≤ |k1| * e + |k2| * e := by
      rw [abs_mul, abs_mul]
      exact add_le_add (mul_le_mul_of_nonneg_left b1 (abs_nonneg _)) (mul_le_mul_of_nonneg_left b2 (abs_nonneg _))
    _ = (|k1| + |k2|) * e := by ring
    _ ≤ _ := mul_le_mul_of_nonneg_right hk he0

theorem minrel_le (m : ChiralModel) (Tz : Int) (po pi : ℝ) : 0 ≤ minimalRelativity m Tz po pi ∧ minimalRelativity m Tz po pi ≤ 1 := by
  have hM : 0 < nucleonMass m Tz := by cases m <;> simp only [nucleonMass] <;> split_ifs <;> norm_num
  have r1 : ∀ q : ℝ, Real.sqrt (nucleonMass m Tz / Real.sqrt (nucleonMass m Tz ^ 2 + q ^ 2)) ≤ 1 := by
    intro q
    rw [Real.sqrt_le_one]
    · apply div_le_one_of_le₀ _ (Real.sqrt_nonneg _)
      exact Real.le_sqrt_of_sq_le (by nlinarith [sq_nonneg q])
  unfold minimalRelativity
  exact ⟨by positivity, mul_le_one₀ (r1 po) (by positivity) (r1 pi)⟩

/-- C125: the elements of the chiral models (all but Idaho) as computed with their own 96-point mesh, against the force whose one-pion exchange is projected exactly. -/
theorem C125_one_pion (m : ChiralModel) (hm : m ≠ .idaho) (a : Nat → ℝ) (fuel : Nat) (hf : 7 ≤ fuel) (pp0 : ℝ) (x0 w0 : Nat → ℝ) (rule : List (ℝ × ℝ))
    (h : meshFill 96 3e-14 fuel (-1) 1 pp0 x0 w0 = some rule) (dirs : ℝ → Vec × Vec) (hd : ∀ z, |z| ≤ 1 → Dirs z (dirs z).1 (dirs z).2) (prof : Profiles)
    (qi qo Q : ℝ) (hi : 0 ≤ qi) (hiQ : qi ≤ Q) (ho : 0 ≤ qo) (hoQ : qo ≤ Q) (hQ0 : 0 < Q) (hQ : Q ≤ 2 * cutoff m)
    (S J Lo Li T Tz : Int) (hw : Waves S J Lo Li T) (hz : |Tz| ≤ T) (hJ : J ≤ 38) :
    ∃ V, chiralV rule prof (preset m a) qi qo (decide (Lo ≠ J)) S J T Tz = some V ∧
      |phase Lo Li * V (component S Lo Li J) - chiralExactPion rule dirs prof m (constants a m) S J Lo Li T Tz qo qi| ≤
        regulator m (onePionPower m) qo qi / (2 * Real.pi) ^ 2 *
          (3 * ((constants a m).gA ^ 2 / (4 * pionDecay m ^ 2)) * ((qo + qi) ^ 2 / 134.9766 ^ 2 * (8 / (1 + 134.9766 / Q) ^ (191 - J.toNat) + 2e-9))) := by
  obtain ⟨-, -, hin⟩ := C122_points 96 (by norm_num) (by norm_num) (by norm_num) (-1) 1 (by norm_num) fuel hf pp0 x0 w0 rule h
  obtain ⟨V, hV, e⟩ := C93_partial_waves m a rule dirs (fun p hp => hd p.1 (abs_le.2 ⟨(hin p hp).1.le, (hin p hp).2.1.le⟩)) prof qi qo S J Lo Li T Tz hw hz hJ (hiQ.trans hQ) (hoQ.trans hQ)
  refine ⟨V, hV, ?_⟩
  rw [e]
  have hc : cutoff m ≤ 500 := by cases m <;> norm_num [cutoff]
  have key := pion_projected m hm (constants a m) fuel hf pp0 x0 w0 rule h dirs hd qo qi Q ho hoQ hi hiQ hQ0 (by linarith) S J Lo Li T Tz hw hz hJ
  obtain ⟨r0, r1⟩ := minrel_le m Tz qo qi
  unfold chiralElement chiralExactPion
  have hreg : 0 ≤ regulator m (onePionPower m) qo qi := Real.exp_nonneg _
  generalize projected rule dirs (onePionForce m (constants a m) T Tz qo qi) qo qi S J.toNat Lo Li = A at *
  generalize projectedExact dirs (onePionForce m (constants a m) T Tz qo qi) qo qi S J.toNat Lo Li = B at *
  generalize 3 * ((constants a m).gA ^ 2 / (4 * pionDecay m ^ 2)) * ((qo + qi) ^ 2 / 134.9766 ^ 2 * (8 / (1 + 134.9766 / Q) ^ (191 - J.toNat) + 2e-9)) = E at *
  generalize projected rule dirs (twoPionForce m (constants a m) prof T Tz qo qi) qo qi S J.toNat Lo Li = D
  generalize minimalRelativity m Tz qo qi = mr at *
  generalize regulator m (onePionPower m) qo qi = R at *
  generalize contactForce m (constants a m) Tz S J Lo Li qo qi = K
  generalize regulator m (twoPionPower m) qo qi = R2
  have pi0 := Real.pi_pos
  rw [show mr / (2 * Real.pi) ^ 3 * (R * A + R2 * D + K) - mr / (2 * Real.pi) ^ 3 * (R * B + R2 * D + K) = mr / (2 * Real.pi) ^ 3 * R * (A - B) by ring,
    abs_mul, abs_of_nonneg (by positivity)]
  have hE : 0 ≤ 2 * Real.pi * E := (abs_nonneg _).trans key
  calc _ ≤ mr / (2 * Real.pi) ^ 3 * R * (2 * Real.pi * E) := mul_le_mul_of_nonneg_left key (by positivity)
    _ ≤ 1 / (2 * Real.pi) ^ 3 * R * (2 * Real.pi * E) := by gcongr
    _ = _ := by field_simp

theorem projected_null (rule : List (ℝ × ℝ)) (dirs : ℝ → Vec × Vec) (F : Force) (hc : F.c = 0) (hs : F.s = 0) (hls : F.ls = 0) (ht : F.t = 0) (hsl : F.sl = 0)
    (po pi : ℝ) (S : Int) (J : Nat) (Lo Li : Int) : projected rule dirs F po pi S J Lo Li = 0 := by
  have h1 : ∀ u v, singletOp F po pi u v = 0 := fun u v => by unfold singletOp; simp [hc, hs, ht, hsl]
  have h2 : ∀ u v, tripletOp F po pi u v = 0 := fun u v => by unfold tripletOp; simp [hc, hs, hls, ht, hsl]
  unfold projected
  rw [List.sum_eq_zero, mul_zero]
  intro x hx
  obtain ⟨p, -, rfl⟩ := List.mem_map.1 hx
  simp [h1, h2, contract]

/-- The leading-order model has no further terms. -/
theorem leading_eq (rule : List (ℝ × ℝ)) (dirs : ℝ → Vec × Vec) (prof : Profiles) (a : Nat → ℝ) (S J Lo Li T Tz : Int) (hw : Waves S J Lo Li T) (po pi : ℝ) :
    chiralExactPion rule dirs prof .isLO (constants a .isLO) S J Lo Li T Tz po pi = leadingExact dirs (constants a .isLO) S J Lo Li T Tz po pi := by
  obtain ⟨hs, hO, hI, hp, hT⟩ := hw
  have a1 := abs_le.1 hO.1
  have a2 := abs_le.1 hI.1
  unfold chiralExactPion leadingExact
  rw [projected_null rule dirs _ (by funext z; simp [twoPionForce, strength, twoPionTerms]) (by funext z; simp [twoPionForce, strength, twoPionTerms])
    (by funext z; simp [twoPionForce, strength, twoPionTerms]) (by funext z; simp [twoPionForce, strength, twoPionTerms]) (by funext z; simp [twoPionForce, strength, twoPionTerms]),
    mul_zero, add_zero]
  congr 2
  simp only [contactForce, constants, powerC, powerD]
  rcases hs with rfl | rfl
  · by_cases h0 : J = 0
    · subst h0
      obtain ⟨rfl, rfl⟩ : Lo = 0 ∧ Li = 0 := by omega
      simp
    · simp [h0]
  · by_cases h0 : J = 1 ∧ Lo = 0 ∧ Li = 0
    · obtain ⟨rfl, rfl, rfl⟩ := h0
      simp
    · rw [if_neg (by rintro ⟨h, -⟩; omega), if_neg (by rintro ⟨-, h1, h2, h3⟩; exact h0 ⟨h3, h1, h2⟩)]
      simp
      exact fun h1 h2 h3 => absurd ⟨h1, h2, h3⟩ h0

/-- C125: the whole leading-order element of IS_LO against its exact projection. -/
theorem C125_leading (a : Nat → ℝ) (fuel : Nat) (hf : 7 ≤ fuel) (pp0 : ℝ) (x0 w0 : Nat → ℝ) (rule : List (ℝ × ℝ))
    (h : meshFill 96 3e-14 fuel (-1) 1 pp0 x0 w0 = some rule) (dirs : ℝ → Vec × Vec) (hd : ∀ z, |z| ≤ 1 → Dirs z (dirs z).1 (dirs z).2) (prof : Profiles)
    (qi qo : ℝ) (hi : 0 ≤ qi) (hiQ : qi ≤ 900) (ho : 0 ≤ qo) (hoQ : qo ≤ 900)
    (S J Lo Li T Tz : Int) (hw : Waves S J Lo Li T) (hz : |Tz| ≤ T) (hJ : J ≤ 38) :
    ∃ V, chiralV rule prof (preset .isLO a) qi qo (decide (Lo ≠ J)) S J T Tz = some V ∧
      |phase Lo Li * V (component S Lo Li J) - leadingExact dirs (constants a .isLO) S J Lo Li T Tz qo qi| ≤ 1e-11 * regulator .isLO 3 qo qi := by
  have hc : cutoff .isLO = 450 := rfl
  obtain ⟨V, hV, hb⟩ := C125_one_pion .isLO (by simp) a fuel hf pp0 x0 w0 rule h dirs hd prof qi qo 900 hi hiQ ho hoQ (by norm_num) (by rw [hc]; norm_num) S J Lo Li T Tz hw hz hJ
  refine ⟨V, hV, ?_⟩
  rw [leading_eq rule dirs prof a S J Lo Li T Tz hw] at hb
  refine hb.trans ?_
  have hg : (constants a .isLO).gA = 1.289 := rfl
  have hf' : pionDecay .isLO = 92.2 := rfl
  have hp : onePionPower .isLO = 3 := rfl
  rw [hg, hf', hp]
  have hreg : 0 ≤ regulator .isLO 3 qo qi := Real.exp_nonneg _
  have h1 : 8 / (1 + 134.9766 / 900) ^ (191 - J.toNat) ≤ (5e-9 : ℝ) := by
    have : (1 + 134.9766 / 900 : ℝ) ^ 153 ≤ (1 + 134.9766 / 900) ^ (191 - J.toNat) := pow_le_pow_right₀ (by norm_num) (by omega)
    have h3 : 8 / (1 + 134.9766 / 900) ^ (191 - J.toNat) ≤ 8 / (1 + 134.9766 / 900 : ℝ) ^ 153 := div_le_div_of_nonneg_left (by norm_num) (by positivity) this
    refine h3.trans ?_
    norm_num
  have h2 : (qo + qi) ^ 2 ≤ 1800 ^ 2 := pow_le_pow_left₀ (by positivity) (by linarith) 2
  have pi3 := Real.pi_gt_three
  have h4 : (6 : ℝ) ^ 2 ≤ (2 * Real.pi) ^ 2 := pow_le_pow_left₀ (by norm_num) (by linarith) 2
  calc _ ≤ regulator .isLO 3 qo qi / 6 ^ 2 * (3 * (1.289 ^ 2 / (4 * 92.2 ^ 2)) * (1800 ^ 2 / 134.9766 ^ 2 * (5e-9 + 2e-9))) := by gcongr
    _ = regulator .isLO 3 qo qi * (1 / 6 ^ 2 * (3 * (1.289 ^ 2 / (4 * 92.2 ^ 2)) * (1800 ^ 2 / 134.9766 ^ 2 * (5e-9 + 2e-9)))) := by ring
    _ ≤ regulator .isLO 3 qo qi * 1e-11 := mul_le_mul_of_nonneg_left (by norm_num) hreg
    _ = _ := by ring

/-- The hypotheses can be met: the mesh exists, `twoDirs` are directions, and the coupled deuteron waves are waves. -/
example : (∃ rule, meshFill 96 3e-14 7 (-1) 1 0 (fun _ => 0) (fun _ => 0) = some rule) ∧ (∀ z, |z| ≤ 1 → Dirs z (twoDirs z).1 (twoDirs z).2) ∧
    Waves 1 1 0 2 0 ∧ |(0 : Int)| ≤ 0 := by
  refine ⟨?_, twoDirs_ok, ⟨Or.inr rfl, by decide, by decide, by decide, by unfold PauliT; decide⟩, by decide⟩
  obtain ⟨l, hl, -⟩ := C122_even 96 (by norm_num) (by norm_num) (by norm_num) (-1) 1 (by norm_num)
  exact ⟨l, hl 7 _ _ _ le_rfl⟩

end TicTac
end
