import Verif.Model.Numeric
import Verif.Lemmas.Legendre
import Verif.Lemmas.GaussLegendre
import Mathlib.Analysis.SpecialFunctions.Trigonometric.Bounds
import Mathlib.Analysis.SpecialFunctions.Integrals.Basic
import Mathlib.Tactic.NormNum
import Mathlib.Data.List.GetD
import Mathlib.Analysis.Calculus.Deriv.Polynomial
/-! Kinematics, grids, quadrature map, Legendre recursion, free Hamiltonian: C22, C23, C26, C29, C33, C69, C70. -/
noncomputable section
namespace TicTac
open Polynomial

theorem Mp_pos : 0 < Mp := by norm_num [Mp]
theorem Mn_pos : 0 < Mn := by norm_num [Mn]
theorem MN_pos : 0 < MN := by norm_num [MN, Mp, Mn]
theorem mu23_pos : 0 < mu23 := by norm_num [mu23, Mp, Mn]

/-! ### C22 -/

/-- The quadratic equation shared by both conversions. -/
private theorem lab_quadratic {Md T q2 : ℝ} (hMd : 0 < Md) (hT : 0 ≤ T)
    (h : q2 = Md * Md * T * (T + 2 * Mp) / ((Mp + Md) * (Mp + Md) + 2 * T * Md)) :
    T * T + 2 * (Mp - q2 / Md) * T + -q2 * (Mp + Md) * (Mp + Md) / (Md * Md) = 0 := by
  have hM := Mp_pos
  have hD : (Mp + Md) * (Mp + Md) + 2 * T * Md ≠ 0 := by positivity
  subst h
  field_simp
  ring

private theorem labMom_sq {T Eb : ℝ} (hMd : 0 < deuteronMass Eb) (hT : 0 ≤ T) :
    labEnergyToComMomentum T Eb * labEnergyToComMomentum T Eb =
      deuteronMass Eb * deuteronMass Eb * T * (T + 2 * Mp) /
        ((Mp + deuteronMass Eb) * (Mp + deuteronMass Eb) + 2 * T * deuteronMass Eb) := by
  have hM := Mp_pos
  unfold labEnergyToComMomentum
  exact Real.mul_self_sqrt (by positivity)

/-- C22: lab energy → c.m. momentum → lab energy is the identity. -/
theorem C22_lab_roundtrip (T Eb : ℝ) (hMd : 0 < deuteronMass Eb) (hT : 0 ≤ T) :
    comMomentumToLabEnergy (labEnergyToComMomentum T Eb) Eb = T := by
  have hM := Mp_pos
  have hsq := labMom_sq hMd hT
  have hq := lab_quadratic hMd hT hsq
  set q2 := labEnergyToComMomentum T Eb * labEnergyToComMomentum T Eb with hq2
  set Md := deuteronMass Eb with hMdd
  have hq2n : 0 ≤ q2 := mul_self_nonneg _
  have hnn : 0 ≤ T + (T + 2 * (Mp - q2 / Md)) := by
    rcases hT.eq_or_lt with h0 | h0
    · have : q2 = 0 := by rw [hsq, ← h0]; simp
      rw [this, ← h0]; simp; linarith
    · have hc : 0 ≤ q2 * (Mp + Md) * (Mp + Md) / (Md * Md) := by positivity
      have h2 : T * (T + 2 * (Mp - q2 / Md)) = q2 * (Mp + Md) * (Mp + Md) / (Md * Md) := by
        have : -q2 * (Mp + Md) * (Mp + Md) / (Md * Md) = -(q2 * (Mp + Md) * (Mp + Md) / (Md * Md)) := by ring
        linarith [hq, this]
      have : 0 ≤ T + 2 * (Mp - q2 / Md) := by
        by_contra hneg
        push Not at hneg
        have := mul_neg_of_pos_of_neg h0 hneg
        linarith
      linarith
  unfold comMomentumToLabEnergy
  simp only [← hMdd]
  have e1 : -labEnergyToComMomentum T Eb * labEnergyToComMomentum T Eb = -q2 := by rw [hq2]; ring
  rw [e1, ← hq2]
  have : 2 * (Mp - q2 / Md) * (2 * (Mp - q2 / Md)) - 4 * (-q2 * (Mp + Md) * (Mp + Md) / (Md * Md)) =
      (T + (T + 2 * (Mp - q2 / Md))) * (T + (T + 2 * (Mp - q2 / Md))) := by linear_combination (-4) * hq
  rw [this, Real.sqrt_mul_self hnn]
  ring

/-- C22: c.m. momentum → lab energy is non-negative and goes back to the momentum. -/
theorem C22_com_roundtrip (q Eb : ℝ) (hMd : 0 < deuteronMass Eb) (hq : 0 ≤ q) :
    0 ≤ comMomentumToLabEnergy q Eb ∧ labEnergyToComMomentum (comMomentumToLabEnergy q Eb) Eb = q := by
  have hM := Mp_pos
  set Md := deuteronMass Eb with hMdd
  set b := 2 * (Mp - q * q / Md) with hb
  set c := -q * q * (Mp + Md) * (Mp + Md) / (Md * Md) with hc
  have hcn : c ≤ 0 := by
    have : 0 ≤ q * q * (Mp + Md) * (Mp + Md) / (Md * Md) := by positivity
    have e : c = -(q * q * (Mp + Md) * (Mp + Md) / (Md * Md)) := by rw [hc]; ring
    linarith
  have hdisc : 0 ≤ b * b - 4 * c := by nlinarith [mul_self_nonneg b]
  have hT : comMomentumToLabEnergy q Eb = 0.5 * (-b + Real.sqrt (b * b - 4 * c)) := rfl
  have hs := Real.mul_self_sqrt hdisc
  have hs0 := Real.sqrt_nonneg (b * b - 4 * c)
  set s := Real.sqrt (b * b - 4 * c) with hsd
  have hbs : b ≤ s := by
    rw [hsd]; apply Real.le_sqrt_of_sq_le; nlinarith
  set T := comMomentumToLabEnergy q Eb with hTd
  have hT0 : 0 ≤ T := by rw [hT]; norm_num; linarith
  refine ⟨hT0, ?_⟩
  have hquad : T * T + b * T + c = 0 := by
    rw [hT]; norm_num; linear_combination (1/4) * hs
  unfold labEnergyToComMomentum
  simp only [← hMdd]
  have hD : (Mp + Md) * (Mp + Md) + 2 * T * Md ≠ 0 := by positivity
  have : Md * Md * T * (T + 2 * Mp) / ((Mp + Md) * (Mp + Md) + 2 * T * Md) = q * q := by
    rw [div_eq_iff hD]
    rw [hb, hc] at hquad
    field_simp at hquad
    linear_combination hquad
  rw [this, Real.sqrt_mul_self hq]

/-- C22: the c.m. momentum grows strictly with the lab energy. -/
theorem C22_lab_to_com_strict (T₁ T₂ Eb : ℝ) (hMd : 0 < deuteronMass Eb) (h0 : 0 ≤ T₁) (h : T₁ < T₂) :
    labEnergyToComMomentum T₁ Eb < labEnergyToComMomentum T₂ Eb := by
  have hM := Mp_pos
  unfold labEnergyToComMomentum
  set Md := deuteronMass Eb
  have h2 : 0 < T₂ := h0.trans_lt h
  apply Real.sqrt_lt_sqrt (by positivity)
  rw [div_lt_div_iff₀ (by positivity) (by positivity)]
  have k1 : 0 < (Mp + Md) * (Mp + Md) * (T₂ - T₁) * (T₁ + T₂ + 2 * Mp) := by
    have : 0 < T₂ - T₁ := by linarith
    positivity
  have k2 : 0 ≤ 2 * Md * T₁ * T₂ * (T₂ - T₁) := by
    have : 0 < T₂ - T₁ := by linarith
    positivity
  have k3 : 0 < Md * Md * ((Mp + Md) * (Mp + Md) * (T₂ - T₁) * (T₁ + T₂ + 2 * Mp) + 2 * Md * T₁ * T₂ * (T₂ - T₁)) := by
    have := add_pos_of_pos_of_nonneg k1 k2
    positivity
  linarith [k3]

/-- C22: the lab energy grows strictly with the c.m. momentum. -/
theorem C22_com_to_lab_strict (q₁ q₂ Eb : ℝ) (hMd : 0 < deuteronMass Eb) (h0 : 0 ≤ q₁) (h : q₁ < q₂) :
    comMomentumToLabEnergy q₁ Eb < comMomentumToLabEnergy q₂ Eb := by
  obtain ⟨a1, b1⟩ := C22_com_roundtrip q₁ Eb hMd h0
  obtain ⟨a2, b2⟩ := C22_com_roundtrip q₂ Eb hMd (h0.trans h.le)
  by_contra hc
  push Not at hc
  rcases hc.eq_or_lt with he | hl
  · rw [he] at b2; linarith
  · have := C22_lab_to_com_strict _ _ Eb hMd a2 hl
    linarith

/-- C22, second Jacobi momentum: energy ↔ momentum are inverse to each other and strictly increasing. -/
theorem C22_q_energy (E q : ℝ) (hE : 0 ≤ E) (hq : 0 ≤ q) :
    comQToComEnergy (comEnergyToComQ E) = E ∧ comEnergyToComQ (comQToComEnergy q) = q ∧
      (∀ E', E < E' → comEnergyToComQ E < comEnergyToComQ E') ∧
      (∀ q', q < q' → comQToComEnergy q < comQToComEnergy q') := by
  have hM := MN_pos
  refine ⟨?_, ?_, ?_, ?_⟩
  · unfold comQToComEnergy comEnergyToComQ
    rw [mul_assoc, Real.mul_self_sqrt (by positivity)]
    field_simp
  · unfold comQToComEnergy comEnergyToComQ
    rw [show 4 * (3 * q * q / (4 * MN)) * MN / 3 = q * q by field_simp, Real.sqrt_mul_self hq]
  · intro E' h
    unfold comEnergyToComQ
    apply Real.sqrt_lt_sqrt (by positivity)
    have := mul_lt_mul_of_pos_right h hM
    linarith
  · intro q' h
    unfold comQToComEnergy
    apply div_lt_div_of_pos_right _ (by positivity)
    nlinarith

/-- C22, first Jacobi momentum. -/
theorem C22_p_energy (E p : ℝ) (hE : 0 ≤ E) (hp : 0 ≤ p) :
    comPToComEnergy (comEnergyToComP E) = E ∧ comEnergyToComP (comPToComEnergy p) = p ∧
      (∀ E', E < E' → comEnergyToComP E < comEnergyToComP E') ∧
      (∀ p', p < p' → comPToComEnergy p < comPToComEnergy p') := by
  have hM := mu23_pos
  refine ⟨?_, ?_, ?_, ?_⟩
  · unfold comPToComEnergy comEnergyToComP
    rw [Real.mul_self_sqrt (by positivity)]
    field_simp
  · unfold comPToComEnergy comEnergyToComP
    rw [show 2 * (p * p / (2 * mu23)) * mu23 = p * p by field_simp, Real.sqrt_mul_self hp]
  · intro E' h
    unfold comEnergyToComP
    apply Real.sqrt_lt_sqrt (by positivity)
    have := mul_lt_mul_of_pos_right h hM
    linarith
  · intro p' h
    unfold comPToComEnergy
    apply div_lt_div_of_pos_right _ (by positivity)
    nlinarith

/-- The deuteron's binding energy meets the hypotheses. -/
theorem deuteronMass_physical : 0 < deuteronMass (-2.2246) := by norm_num [deuteronMass, Mn, Mp]
example : comMomentumToLabEnergy (labEnergyToComMomentum 10 (-2.2246)) (-2.2246) = 10 :=
  C22_lab_roundtrip 10 _ deuteronMass_physical (by norm_num)
example : labEnergyToComMomentum 3 (-2.2246) < labEnergyToComMomentum 10 (-2.2246) :=
  C22_lab_to_com_strict _ _ _ deuteronMass_physical (by norm_num) (by norm_num)

/-! ### C70 -/

/-- C70: the momentum is the relativistic one: a proton and a deuteron of opposite momentum `q` have the same total c.m.
energy as a proton of kinetic energy `T` hitting a deuteron at rest (invariant mass squared `(Mp+Md)² + 2 T Md`). -/
theorem C70_relativistic (T Eb : ℝ) (hMd : 0 < deuteronMass Eb) (hT : 0 ≤ T) :
    let q := labEnergyToComMomentum T Eb
    let Md := deuteronMass Eb
    let pLab := Real.sqrt ((T + Mp) ^ 2 - Mp ^ 2)
    (Real.sqrt (q ^ 2 + Mp ^ 2) + Real.sqrt (q ^ 2 + Md ^ 2)) ^ 2 = (T + Mp + Md) ^ 2 - pLab ^ 2 := by
  intro q Md pLab
  have hM := Mp_pos
  have hp : pLab ^ 2 = (T + Mp) ^ 2 - Mp ^ 2 := Real.sq_sqrt (by nlinarith)
  have hq : q ^ 2 = Md * Md * T * (T + 2 * Mp) / ((Mp + Md) * (Mp + Md) + 2 * T * Md) := by
    rw [pow_two]; exact labMom_sq hMd hT
  set s := (Mp + Md) * (Mp + Md) + 2 * T * Md with hs
  have hspos : 0 < s := by positivity
  have hMd' : 0 < Md := hMd
  have e1 : q ^ 2 + Mp ^ 2 = ((Mp * (Mp + Md) + T * Md)) ^ 2 / s := by
    rw [hq, eq_div_iff hspos.ne', add_mul, div_mul_cancel₀ _ hspos.ne', hs]; ring
  have e2 : q ^ 2 + Md ^ 2 = (Md * (Mp + Md + T)) ^ 2 / s := by
    rw [hq, eq_div_iff hspos.ne', add_mul, div_mul_cancel₀ _ hspos.ne', hs]; ring
  rw [e1, e2, Real.sqrt_div (sq_nonneg _), Real.sqrt_div (sq_nonneg _), Real.sqrt_sq (by positivity),
    Real.sqrt_sq (by positivity), ← add_div, div_pow, Real.sq_sqrt hspos.le, hp, div_eq_iff hspos.ne', hs]
  ring

/-! ### C23 -/

private theorem update_loop (f : Nat → ℝ) (init : Nat → ℝ) (N i : Nat) :
    ((List.range N).foldl (fun (arr : Nat → ℝ) k => Function.update arr (k + 1) (f (k + 1))) init) i =
      if 1 ≤ i ∧ i ≤ N then f i else init i := by
  induction N with
  | zero => simp; omega
  | succ N ih =>
    rw [List.range_succ, List.foldl_append]
    simp only [List.foldl_cons, List.foldl_nil]
    by_cases h : i = N + 1
    · subst h; simp
    · rw [Function.update_of_ne h, ih]
      have : (1 ≤ i ∧ i ≤ N + 1) ↔ (1 ≤ i ∧ i ≤ N) := by omega
      simp [this]

private theorem cheb_at (N : Nat) (s t : ℝ) (init : Nat → ℝ) (i : Nat) (h : i ≤ N) :
    chebArray N s t init i = if i = 0 then 0 else chebValue N s t i := by
  unfold chebArray
  by_cases h0 : i = 0
  · subst h0; simp
  · rw [Function.update_of_ne h0, update_loop (fun i => chebValue N s t i)]
    have : 1 ≤ i ∧ i ≤ N := by omega
    simp [h0, this]

/-- C23: for every N, positive scale and sparseness, the boundaries are 0 = b₀ < b₁ < … < b_N, whatever the array held. -/
theorem C23_grid_strict (N : Nat) (scale t : ℝ) (hs : 0 < scale) (ht : 0 < t) (init : Nat → ℝ) :
    chebArray N scale t init 0 = 0 ∧ ∀ i j, i < j → j ≤ N → chebArray N scale t init i < chebArray N scale t init j := by
  refine ⟨by rw [cheb_at _ _ _ _ _ (Nat.zero_le _)]; simp, fun i j hij hj => ?_⟩
  rw [cheb_at _ _ _ _ i (by omega), cheb_at _ _ _ _ j hj, if_neg (show j ≠ 0 by omega)]
  have hNp : (0 : ℝ) < N := by exact_mod_cast (show 0 < N by omega)
  have arg_pos : ∀ k : Nat, 1 ≤ k → 0 < (2 * (k : ℝ) - 1) * Real.pi / (4 * N) := fun k hk => by
    have : (1 : ℝ) ≤ k := by exact_mod_cast hk
    have : 0 < 2 * (k : ℝ) - 1 := by linarith
    have := Real.pi_pos
    positivity
  have arg_lt : ∀ k : Nat, k ≤ N → (2 * (k : ℝ) - 1) * Real.pi / (4 * N) < Real.pi / 2 := fun k hk => by
    have hk' : (k : ℝ) ≤ N := by exact_mod_cast hk
    rw [div_lt_div_iff₀ (by positivity) (by norm_num)]
    nlinarith [Real.pi_pos]
  have val_pos : ∀ k : Nat, 1 ≤ k → k ≤ N → 0 < Real.tan ((2 * (k : ℝ) - 1) * Real.pi / (4 * N)) := fun k h1 h2 =>
    Real.tan_pos_of_pos_of_lt_pi_div_two (arg_pos k h1) (arg_lt k h2)
  unfold chebValue
  by_cases hi : i = 0
  · rw [if_pos hi]
    have := Real.rpow_pos_of_pos (val_pos j (by omega) hj) t
    positivity
  · rw [if_neg hi]
    apply mul_lt_mul_of_pos_left _ hs
    apply Real.rpow_lt_rpow (val_pos i (by omega) (by omega)).le _ ht
    apply Real.tan_lt_tan_of_lt_of_lt_pi_div_two
    · have := arg_pos i (by omega); have := Real.pi_pos; linarith
    · exact arg_lt j hj
    · have : (i : ℝ) < j := by exact_mod_cast hij
      apply div_lt_div_of_pos_right _ (by positivity)
      nlinarith [Real.pi_pos]

/-- Strictly increasing boundaries: every momentum of the covered range is in exactly one bin. -/
theorem exists_unique_bin (b : Nat → ℝ) (N : Nat) (hb : ∀ i j, i < j → j ≤ N → b i < b j) (x : ℝ)
    (h0 : b 0 ≤ x) (hN : x < b N) : ∃! i, i < N ∧ b i ≤ x ∧ x < b (i + 1) := by
  have hex : ∃ i, x < b i := ⟨N, hN⟩
  classical
  obtain ⟨m, hm, hmin⟩ : ∃ m, x < b m ∧ ∀ k < m, b k ≤ x :=
    ⟨Nat.find hex, Nat.find_spec hex, fun k hk => not_lt.1 (Nat.find_min hex hk)⟩
  have hm0 : m ≠ 0 := by rintro rfl; linarith
  have hmN : m ≤ N := by
    by_contra h
    have := hmin N (by omega); linarith
  obtain ⟨i, rfl⟩ := Nat.exists_eq_succ_of_ne_zero hm0
  refine ⟨i, ⟨by omega, hmin i (by omega), hm⟩, ?_⟩
  rintro j ⟨hjN, hj1, hj2⟩
  rcases lt_trichotomy j i with h | h | h
  · have : b (j + 1) ≤ x := hmin (j + 1) (by omega)
    linarith
  · exact h
  · have : b (i + 1) ≤ b j := by
      rcases Nat.lt_or_ge (i + 1) j with h' | h'
      · exact (hb _ _ h' (by omega)).le
      · have : i + 1 = j := by omega
        rw [this]
    linarith

/-- C23: every momentum below the last boundary lies in exactly one bin. -/
theorem C23_bins_partition (N : Nat) (scale t : ℝ) (hs : 0 < scale) (ht : 0 < t) (init : Nat → ℝ) (x : ℝ)
    (h0 : 0 ≤ x) (hN : x < chebArray N scale t init N) :
    ∃! i, i < N ∧ chebArray N scale t init i ≤ x ∧ x < chebArray N scale t init (i + 1) := by
  obtain ⟨hz, hlt⟩ := C23_grid_strict N scale t hs ht init
  exact exists_unique_bin _ N hlt x (by rw [hz]; exact h0) hN

example : ∃! i, i < 30 ∧ chebArray 30 200 1 (fun _ => 7) i ≤ 0 ∧ 0 < chebArray 30 200 1 (fun _ => 7) (i + 1) :=
  C23_bins_partition 30 200 1 (by norm_num) (by norm_num) _ 0 le_rfl
    (by
      have := C23_grid_strict 30 200 1 (by norm_num) (by norm_num) (fun _ => 7)
      rw [← this.1]; exact this.2 0 30 (by norm_num) le_rfl)

/-! ### C26 -/

/-- Exactness of a rule: `Σ w f(x) = ∫_a^b f`. -/
def Spec.RuleExact (rule : List (ℝ × ℝ)) (a b : ℝ) (f : ℝ → ℝ) : Prop :=
  (rule.map fun xw => xw.2 * f xw.1).sum = ∫ x in a..b, f x

/-- C26: in the stored arrays, the `Nper` points starting at `b·Nper` are the rule mapped to bin `b`. -/
theorem C26_layout (N Nper : Nat) (bounds : Nat → ℝ) (rule : List (ℝ × ℝ)) (stale : Nat → List (ℝ × ℝ))
    (hr : rule.length = Nper) (b i : Nat) (hb : b < N) (hi : i < Nper) :
    (binQuadrature N Nper bounds rule stale)[b * Nper + i]? = (binRule (bounds b) (bounds (b + 1)) rule)[i]? := by
  have inner : ∀ b, 0 < Nper → (List.range Nper).foldl
      (fun (_old : List (ℝ × ℝ)) _ => binRule (bounds b) (bounds (b + 1)) rule) (stale b) = binRule (bounds b) (bounds (b + 1)) rule := by
    intro b h
    obtain ⟨m, rfl⟩ := Nat.exists_eq_succ_of_ne_zero h.ne'
    rw [List.range_succ, List.foldl_append]; rfl
  have hpos : 0 < Nper := by omega
  have hlen : ∀ b, (binRule (bounds b) (bounds (b + 1)) rule).length = Nper := fun b => by simp [binRule, hr]
  unfold binQuadrature
  simp only [inner _ hpos]
  have hlenF : ∀ M, ((List.range M).flatMap fun b => binRule (bounds b) (bounds (b + 1)) rule).length = M * Nper := by
    intro M
    induction M with
    | zero => simp
    | succ M ih => rw [List.range_succ, List.flatMap_append, List.length_append, ih]; simp [hlen]; ring
  induction N with
  | zero => omega
  | succ N ih =>
    rw [List.range_succ, List.flatMap_append]
    rcases Nat.lt_or_ge b N with h | h
    · rw [List.getElem?_append_left]
      · exact ih h
      · rw [hlenF]; nlinarith
    · have : b = N := by omega
      subst this
      rw [List.getElem?_append_right (by rw [hlenF]; omega), hlenF]
      simp

/-- C26: mapped points are inside the bin, mapped weights sum up to the bin width times half the rule's, the mapped rule
is exact for `f` on the bin whenever the rule is exact on (-1,1) for the pulled-back function. -/
theorem C26_mapped_rule (a b : ℝ) (hab : a < b) (rule : List (ℝ × ℝ)) :
    ((∀ xw ∈ rule, -1 < xw.1 ∧ xw.1 < 1 ∧ 0 < xw.2) → ∀ xw ∈ binRule a b rule, a < xw.1 ∧ xw.1 < b ∧ 0 < xw.2) ∧
    (Spec.RuleExact rule (-1) 1 (fun _ => 1) → ((binRule a b rule).map Prod.snd).sum = b - a) ∧
    (∀ f : ℝ → ℝ, Spec.RuleExact rule (-1) 1 (fun x => f ((b - a) / 2 * x + (a + b) / 2)) → Spec.RuleExact (binRule a b rule) a b f) := by
  have key : ∀ f : ℝ → ℝ, Spec.RuleExact rule (-1) 1 (fun x => f ((b - a) / 2 * x + (a + b) / 2)) →
      Spec.RuleExact (binRule a b rule) a b f := by
    intro f h
    unfold Spec.RuleExact at *
    have hne : (b - a) / 2 ≠ 0 := by linarith
    rw [intervalIntegral.integral_comp_mul_add f hne, smul_eq_mul] at h
    rw [show (b - a) / 2 * -1 + (a + b) / 2 = a by ring, show (b - a) / 2 * 1 + (a + b) / 2 = b by ring] at h
    have : (List.map (fun xw : ℝ × ℝ => xw.2 * f xw.1) (binRule a b rule)).sum =
        (b - a) / 2 * (rule.map fun xw => xw.2 * f ((b - a) / 2 * xw.1 + (a + b) / 2)).sum := by
      unfold binRule
      rw [List.map_map, ← List.sum_map_mul_left]
      congr 1
      apply List.map_congr_left
      intro xw _
      simp only [Function.comp, mapNode, mapWeight]
      rw [show (0.5 : ℝ) * (b - a) * xw.1 + 0.5 * (b + a) = (b - a) / 2 * xw.1 + (a + b) / 2 by norm_num; ring]
      norm_num
      ring
    rw [this, h, mul_inv_cancel_left₀ hne]
  refine ⟨?_, ?_, key⟩
  · intro h xw hx
    unfold binRule at hx
    obtain ⟨y, hy, rfl⟩ := List.mem_map.1 hx
    obtain ⟨h1, h2, h3⟩ := h y hy
    simp only [mapNode, mapWeight]
    norm_num
    refine ⟨by nlinarith, by nlinarith, by nlinarith⟩
  · intro h
    have := key (fun _ => 1) h
    unfold Spec.RuleExact at this
    simpa using this

/-- The two-point midpoint-type rule `{(0,2)}` meets the hypotheses for constants. -/
example : ((binRule 3 7 [(0, 2)]).map Prod.snd).sum = 7 - 3 :=
  (C26_mapped_rule 3 7 (by norm_num) [(0, 2)]).2.1 (by simp [Spec.RuleExact]; norm_num)

/-- Bin midpoints lie strictly inside their bins. -/
theorem C26_midpoint (a b : ℝ) (h : a < b) : a < binMidpoint a b ∧ binMidpoint a b < b := by
  unfold binMidpoint; norm_num; constructor <;> linarith

/-! ### C33 -/

/-- C33: the free-Hamiltonian element is the average of p²/2μ over the bin. -/
theorem C33_bin_average (p₁ p₂ : ℝ) (h : p₁ < p₂) :
    freeH p₁ p₂ = (∫ p in p₁..p₂, p ^ 2 / (2 * mu23)) / (p₂ - p₁) := by
  have hm := mu23_pos
  have : p₂ - p₁ ≠ 0 := by linarith
  rw [intervalIntegral.integral_div, integral_pow]
  unfold freeH
  push_cast
  field_simp
  ring

/-- C33: it lies strictly between the kinetic energies of the bin ends and grows from bin to bin. -/
theorem C33_between (p₁ p₂ p₃ : ℝ) (h0 : 0 ≤ p₁) (h : p₁ < p₂) (h' : p₂ < p₃) :
    p₁ ^ 2 / (2 * mu23) < freeH p₁ p₂ ∧ freeH p₁ p₂ < p₂ ^ 2 / (2 * mu23) ∧ freeH p₁ p₂ < freeH p₂ p₃ := by
  have hm := mu23_pos
  have a1 : ∀ x y : ℝ, 0 ≤ x → x < y → x ^ 2 / (2 * mu23) < freeH x y := fun x y hx hxy => by
    unfold freeH
    rw [div_lt_div_iff₀ (by positivity) (by positivity)]
    have : 0 < 2 * mu23 * (y * y + y * x - 2 * (x * x)) := by
      have : 0 < (y * y + y * x - 2 * (x * x)) := by nlinarith
      positivity
    nlinarith
  have a2 : freeH p₁ p₂ < p₂ ^ 2 / (2 * mu23) := by
    unfold freeH
    rw [div_lt_div_iff₀ (by positivity) (by positivity)]
    have : 0 < 2 * mu23 * (2 * (p₂ * p₂) - p₂ * p₁ - p₁ * p₁) := by
      have : 0 < (2 * (p₂ * p₂) - p₂ * p₁ - p₁ * p₁) := by nlinarith
      positivity
    nlinarith
  exact ⟨a1 _ _ h0 h, a2, a2.trans (a1 _ _ (h0.trans h.le) h')⟩

example : freeH 0 10 < freeH 10 25 := (C33_between 0 10 25 le_rfl (by norm_num) (by norm_num)).2.2

/-! ### C29 -/

private theorem legLoop (x : ℝ) (m : Nat) :
    (List.range m).foldl (fun s k => legStep x s (k + 1)) (1, x) =
      ((Spec.legendre m).eval x, (Spec.legendre (m + 1)).eval x) := by
  induction m with
  | zero => simp [legendre_zero, legendre_one]
  | succ m ih =>
    rw [List.range_succ, List.foldl_append, ih]
    simp only [List.foldl_cons, List.foldl_nil, legStep]
    rw [legendre_eval_bonnet]
    push_cast
    congr 1
    congr 1
    · ring
    · ring

/-- C29: for every degree and every x the recursion returns the Legendre polynomial (Rodrigues' formula). -/
theorem C29_legendre (n : Nat) (x : ℝ) : findRoot n x = (Spec.legendre n).eval x := by
  unfold findRoot
  match n with
  | 0 => simp [legendre_zero]
  | 1 => simp [legendre_one]
  | m + 2 =>
    rw [if_neg (by omega), if_neg (by omega), show m + 2 - 1 = m + 1 by omega, legLoop]

/-- C29: the tabulated version stores `P_l(z_i)` in row `l`, column `i`, for `l ≤ L`. -/
theorem C29_table (L : Nat) (hL : 1 ≤ L) (z : List ℝ) (l i : Nat) (hl : l ≤ L) (hi : i < z.length) :
    ((findRoots L z).getD l []).getD i 0 = (Spec.legendre l).eval (z.getD i 0) ∧ (findRoots L z).length = L + 1 := by
  have key : ∀ m, ∀ rs : List (List ℝ), rs = (List.range m).foldl (fun (rs : List (List ℝ)) k =>
      let l : Nat := k + 1
      rs ++ [(List.range z.length).map fun i =>
        ((2 * (l : ℝ) + 1) * z.getD i 0 * (rs.getD l []).getD i 0 - l * (rs.getD (l - 1) []).getD i 0) / (l + 1)])
      [List.replicate z.length 1, z] →
      rs.length = m + 2 ∧ ∀ l ≤ m + 1, ∀ i < z.length, (rs.getD l []).getD i 0 = (Spec.legendre l).eval (z.getD i 0) := by
    intro m
    induction m with
    | zero =>
      rintro rs rfl
      refine ⟨rfl, fun l hl i hi => ?_⟩
      have : l = 0 ∨ l = 1 := by omega
      rcases this with rfl | rfl
      · simp [legendre_zero, hi]
      · simp [legendre_one]
    | succ m ih =>
      intro rs hrs
      rw [List.range_succ, List.foldl_append] at hrs
      obtain ⟨h1, h2⟩ := ih _ rfl
      generalize (List.range m).foldl _ _ = rs' at hrs h1 h2
      simp only [List.foldl_cons, List.foldl_nil] at hrs
      subst hrs
      refine ⟨by simp [h1], fun l hl i hi => ?_⟩
      rcases Nat.lt_or_ge l (m + 2) with hlt | hge
      · rw [List.getD_append _ _ _ _ (by omega)]
        exact h2 l (by omega) i hi
      · have : l = m + 2 := by omega
        subst this
        rw [List.getD_append_right _ _ _ _ (by omega), h1]
        simp only [Nat.sub_self, List.getD_cons_zero]
        rw [List.getD_eq_getElem _ _ (by simpa using hi)]
        simp only [List.getElem_map, List.getElem_range, Nat.add_sub_cancel]
        rw [h2 (m + 1) (by omega) i hi, h2 m (by omega) i hi, legendre_eval_bonnet]
        push_cast
        congr 1
        · ring
        · ring
  have := key (L - 1) (findRoots L z) rfl
  exact ⟨this.2 l (by omega) i hi, by omega⟩

/-- C29: normalisation, parity and Legendre's differential equation. -/
theorem C29_properties (n : Nat) (x : ℝ) :
    findRoot n 1 = 1 ∧ findRoot n (-x) = (-1) ^ n * findRoot n x ∧
    deriv (fun y => (y ^ 2 - 1) * deriv (findRoot n) y) x = n * (n + 1) * findRoot n x := by
  have hfun : findRoot n = fun y => (Spec.legendre n).eval y := funext (C29_legendre n)
  refine ⟨?_, ?_, ?_⟩
  · rw [C29_legendre]
    induction n using Nat.strong_induction_on with
    | _ n ih =>
      match n with
      | 0 => simp [legendre_zero]
      | 1 => simp [legendre_one]
      | m + 2 =>
        rw [legendre_eval_bonnet, ih m (by omega) (funext (C29_legendre m)), ih (m + 1) (by omega) (funext (C29_legendre (m + 1)))]
        have : (m : ℝ) + 2 ≠ 0 := by positivity
        field_simp
        ring
  · rw [C29_legendre, C29_legendre]
    clear hfun
    induction n using Nat.strong_induction_on with
    | _ n ih =>
      match n with
      | 0 => simp [legendre_zero]
      | 1 => simp [legendre_one]
      | m + 2 =>
        rw [legendre_eval_bonnet, legendre_eval_bonnet, ih m (by omega), ih (m + 1) (by omega)]
        ring
  · have hd : deriv (findRoot n) = fun y => (derivative (Spec.legendre n)).eval y := by
      rw [hfun]; funext y; exact Polynomial.deriv _
    have hf2 : (fun y => (y ^ 2 - 1) * deriv (findRoot n) y) = fun y => ((X ^ 2 - 1) * derivative (Spec.legendre n)).eval y := by
      funext y; rw [hd]; simp
    rw [hf2, Polynomial.deriv, legendre_ode, C29_legendre]
    simp

example : findRoot 2 0.5 = -0.125 := by norm_num [findRoot, legStep, List.range_succ]

/-! ### C69 -/

theorem gaussLoop_eq (N : Nat) (t : ℝ) :
    gaussLoop (N + 1) t = ((Spec.legendre (N + 1)).eval t, (Spec.legendre N).eval t) := by
  unfold gaussLoop
  induction N with
  | zero => simp [List.range_succ, legendre_zero, legendre_one]; norm_num
  | succ N ih =>
    rw [List.range_succ, List.foldl_append, ih]
    simp only [List.foldl_cons, List.foldl_nil]
    rw [legendre_eval_bonnet]
    push_cast
    congr 1
    congr 1
    · ring
    · ring

theorem gaussPP_eq (N : Nat) (hN : 1 ≤ N) (t : ℝ) (ht : t ^ 2 ≠ 1) :
    gaussPP N t = (derivative (Spec.legendre N)).eval t ∧ (gaussLoop N t).1 = (Spec.legendre N).eval t := by
  obtain ⟨m, rfl⟩ := Nat.exists_eq_succ_of_ne_zero (show N ≠ 0 by omega)
  unfold gaussPP
  rw [Nat.succ_eq_add_one, gaussLoop_eq]
  have h := congrArg (eval t) (legendre_deriv m)
  simp only [eval_mul, eval_sub, eval_add, eval_pow, eval_X, eval_one, eval_natCast] at h
  have hne : t * t - 1 ≠ 0 := fun h => ht (by linarith)
  refine ⟨?_, rfl⟩
  rw [div_eq_iff hne]
  push_cast
  linear_combination -h

/-- C69: whenever the Newton loop stops (exact arithmetic, no division by zero met), its last step was shorter than the
tolerance, `pp` is P_N' at the last point, and a true root of P_N is within `(N+1)` tolerances of the stored node. -/
theorem C69_newton_stop (N : Nat) (hN : 1 ≤ N) (hN7 : N ≤ 10 ^ 7) (fuel i : Nat) (h1 : 1 ≤ i) (hi : i ≤ (N + 1) / 2)
    (t t1 pp : ℝ) (h : gaussRun N 3e-16 fuel i = some (t, t1, pp)) (ht1 : t1 ^ 2 ≠ 1) (hpp : pp ≠ 0) :
    pp = (derivative (Spec.legendre N)).eval t1 ∧ |t - t1| < 3e-16 ∧
      ∃ r, (Spec.legendre N).eval r = 0 ∧ |t - r| < (N + 1) * 3e-16 := by
  have hstart : |gaussStart N i - 1| ≥ 3e-16 := by
    have hNr : (N : ℝ) ≤ 10 ^ 7 := by exact_mod_cast hN7
    have hir : (1 : ℝ) ≤ i := by exact_mod_cast h1
    have hi2 : (i : ℝ) ≤ ((N : ℝ) + 1) / 2 := by
      have : i * 2 ≤ N + 1 := by omega
      have : (i : ℝ) * 2 ≤ N + 1 := by exact_mod_cast this
      linarith
    have hNp : (1 : ℝ) ≤ N := by exact_mod_cast hN
    set th := Real.pi * ((i : ℝ) - 0.25) / ((N : ℝ) + 0.5) with hth
    have hpi := Real.pi_pos
    have hfrac : 0.75 / ((N : ℝ) + 0.5) ≤ ((i : ℝ) - 0.25) / ((N : ℝ) + 0.5) :=
      div_le_div_of_nonneg_right (by norm_num; linarith) (by positivity)
    have hfr1 : ((i : ℝ) - 0.25) / ((N : ℝ) + 0.5) ≤ 1 := by
      rw [div_le_one (by positivity)]; norm_num; linarith
    have hth2 : th = Real.pi * (((i : ℝ) - 0.25) / ((N : ℝ) + 0.5)) := by rw [hth]; ring
    have hfp : (0 : ℝ) < 0.75 / ((N : ℝ) + 0.5) := by positivity
    have habs : |th| ≤ Real.pi := by
      rw [abs_of_nonneg (by rw [hth2]; nlinarith), hth2]
      nlinarith
    have hc := Real.cos_le_one_sub_mul_cos_sq habs
    have hlow : (5e-16 : ℝ) ≤ (0.75 / ((N : ℝ) + 0.5)) ^ 2 := by
      have : (0.75 / (10 ^ 7 + 0.5) : ℝ) ≤ 0.75 / ((N : ℝ) + 0.5) :=
        div_le_div_of_nonneg_left (by norm_num) (by positivity) (by linarith)
      have h2 := pow_le_pow_left₀ (by positivity) this 2
      refine le_trans ?_ h2
      norm_num
    have hsq := pow_le_pow_left₀ hfp.le hfrac 2
    have e : 2 / Real.pi ^ 2 * th ^ 2 = 2 * (((i : ℝ) - 0.25) / ((N : ℝ) + 0.5)) ^ 2 := by
      rw [hth2]; field_simp
    rw [e] at hc
    have hle : gaussStart N i ≤ 1 - 3e-16 := by
      show Real.cos th ≤ _
      norm_num at *
      linarith
    rw [abs_of_nonpos (by norm_num at *; linarith)]
    norm_num at *
    linarith
  -- generic exit condition
  have key : ∀ fuel (s : ℝ × ℝ × ℝ), gaussWhile N 3e-16 fuel s = some (t, t1, pp) →
      (s = (t, t1, pp) ∧ ¬ |t - t1| ≥ 3e-16) ∨
      (t = gaussNewton N t1 ∧ pp = gaussPP N t1 ∧ |t - t1| < 3e-16) := by
    intro fuel
    induction fuel with
    | zero =>
      rintro ⟨a, b, c⟩ h
      unfold gaussWhile at h
      split at h
      · cases h
      · rename_i hn
        obtain ⟨rfl, rfl, rfl⟩ : a = t ∧ b = t1 ∧ c = pp := by simpa using h
        exact Or.inl ⟨rfl, hn⟩
    | succ f ih =>
      rintro ⟨a, b, c⟩ h
      unfold gaussWhile at h
      split at h
      · rcases ih _ h with ⟨h2, h3⟩ | h2
        · obtain ⟨rfl, rfl, rfl⟩ : gaussNewton N a = t ∧ a = t1 ∧ gaussPP N a = pp := by simpa using h2
          exact Or.inr ⟨rfl, rfl, not_le.1 h3⟩
        · exact Or.inr h2
      · rename_i hn
        obtain ⟨rfl, rfl, rfl⟩ : a = t ∧ b = t1 ∧ c = pp := by simpa using h
        exact Or.inl ⟨rfl, hn⟩
  rcases key fuel _ h with ⟨h2, h3⟩ | ⟨h2, h3, h4⟩
  · exfalso
    obtain ⟨rfl, rfl, _⟩ : gaussStart N i = t ∧ (1 : ℝ) = t1 ∧ (0 : ℝ) = pp := by simpa using h2
    exact h3 hstart
  · obtain ⟨p1, p2⟩ := gaussPP_eq N hN t1 ht1
    have hd : (derivative (Spec.legendre N)).eval t1 ≠ 0 := by rw [← p1, ← h3]; exact hpp
    refine ⟨by rw [h3, p1], h4, ?_⟩
    have hstep : t - t1 = -((Spec.legendre N).eval t1 / (derivative (Spec.legendre N)).eval t1) := by
      rw [h2]; unfold gaussNewton; rw [p1, p2]; ring
    obtain ⟨r, hr, hrc⟩ := newton_root_close N t1 3e-16 hd (by rw [← abs_neg, ← hstep]; exact h4)
    refine ⟨r, hr, ?_⟩
    have := abs_sub_le t t1 r
    linarith

/-- The one-point rule really stops after one pass, so the hypotheses of `C69_newton_stop` can be met. -/
example : gaussRun 1 3e-16 1 1 = some (0, 0, 1) := by
  have h0 : gaussStart 1 1 = 0 := by
    unfold gaussStart
    rw [show Real.pi * (((1 : Nat) : ℝ) - 0.25) / (((1 : Nat) : ℝ) + 0.5) = Real.pi / 2 by push_cast; norm_num; ring, Real.cos_pi_div_two]
  have hl : gaussLoop 1 0 = (0, 1) := by simp [gaussLoop, List.range_succ]
  have hpp : gaussPP 1 0 = 1 := by simp [gaussPP, hl]
  have hn : gaussNewton 1 0 = 0 := by simp [gaussNewton, hl]
  unfold gaussRun
  rw [h0]
  unfold gaussWhile
  rw [if_pos (by norm_num)]
  show gaussWhile 1 3e-16 0 (gaussNewton 1 0, 0, gaussPP 1 0) = _
  rw [hn, hpp]
  unfold gaussWhile
  rw [if_neg (by norm_num)]

theorem gaussStore (N : Nat) (t : Nat → ℝ) (x0 : Nat → ℝ) (m : Nat) (hm : m ≤ (N + 1) / 2) (sgn : ℝ) (k : Nat) (hk : k < N) :
    let x := (List.range m).foldl (fun (x : Nat → ℝ) k =>
      Function.update (Function.update x k (sgn * t (k + 1))) (N - (k + 1)) (t (k + 1))) x0
    (k < m → x k = sgn * t (k + 1) ∨ (k = N - (k + 1) ∧ x k = t (k + 1))) ∧
      (N - (k + 1) < m → x k = t (N - k)) := by
  induction m with
  | zero => simp
  | succ m ih =>
    obtain ⟨i1, i2⟩ := ih (by omega)
    rw [List.range_succ, List.foldl_append]
    simp only [List.foldl_cons, List.foldl_nil]
    generalize (List.range m).foldl _ _ = x at i1 i2 ⊢
    constructor
    · intro hlt
      by_cases h1 : k = N - (m + 1)
      · have : k = m := by omega
        subst this
        rw [Function.update_apply, if_pos h1]
        exact Or.inr ⟨h1, rfl⟩
      · rw [Function.update_of_ne h1]
        by_cases h2 : k = m
        · subst h2; rw [Function.update_self]; exact Or.inl rfl
        · rw [Function.update_of_ne h2]
          exact i1 (by omega)
    · intro hlt
      by_cases h1 : k = N - (m + 1)
      · rw [Function.update_apply, if_pos h1]
        congr 1
        omega
      · rw [Function.update_of_ne h1]
        have h2 : k ≠ m := by omega
        rw [Function.update_of_ne h2]
        exact i2 (by omega)

/-- C69: if the Newton iterations have reached fixed points and the stored nodes are all different, the stored rule
integrates every polynomial of degree below 2N exactly over (-1,1). -/
theorem C69_gauss_exact (N : Nat) (hN : 1 ≤ N) (t pp x0 w0 : Nat → ℝ)
    (hfix : ∀ i, 1 ≤ i → i ≤ (N + 1) / 2 → (t i) ^ 2 ≠ 1 ∧ pp i = gaussPP N (t i) ∧ pp i ≠ 0 ∧ gaussNewton N (t i) = t i)
    (hdist : ((gaussRule N t pp x0 w0).map Prod.fst).Nodup) (f : ℝ[X]) (hf : f.natDegree < 2 * N) :
    Spec.RuleExact (gaussRule N t pp x0 w0) (-1) 1 (fun x => f.eval x) := by
  have hroot : ∀ i, 1 ≤ i → i ≤ (N + 1) / 2 → (Spec.legendre N).eval (t i) = 0 ∧ pp i = (derivative (Spec.legendre N)).eval (t i) := by
    intro i h1 h2
    obtain ⟨a, b, c, d⟩ := hfix i h1 h2
    obtain ⟨p1, p2⟩ := gaussPP_eq N hN (t i) a
    unfold gaussNewton at d
    have hz : (gaussLoop N (t i)).1 / gaussPP N (t i) = 0 := by linarith
    rw [← b] at hz
    rcases div_eq_zero_iff.1 hz with h | h
    · exact ⟨by rw [← p2, h], by rw [b, p1]⟩
    · exact absurd h c
  have hev : ∀ x, ((derivative (Spec.legendre N)).eval (-x)) ^ 2 = ((derivative (Spec.legendre N)).eval x) ^ 2 := by
    intro x
    have hc : (Spec.legendre N).comp (-X) = C ((-1) ^ N) * Spec.legendre N := by
      apply Polynomial.funext
      intro y
      rw [eval_comp]
      simp [legendre_eval_neg]
    have hd := congrArg (fun p => (derivative p).eval x) hc
    simp only [derivative_comp, derivative_C_mul, eval_mul, eval_comp, derivative_neg, derivative_X, eval_neg, eval_one, eval_X, eval_C] at hd
    have : (derivative (Spec.legendre N)).eval (-x) = -((-1) ^ N * (derivative (Spec.legendre N)).eval x) := by linarith
    rw [this, neg_sq, mul_pow, ← pow_mul, mul_comm N 2, pow_mul]
    simp
  -- every stored pair
  have hst : ∀ k < N, (Spec.legendre N).eval (gaussNodes N t x0 k) = 0 ∧
      gaussWeights N (fun i => gaussW (t i) (pp i)) w0 k =
        2 / ((1 - (gaussNodes N t x0 k) ^ 2) * ((derivative (Spec.legendre N)).eval (gaussNodes N t x0 k)) ^ 2) := by
    intro k hk
    have hx := gaussStore N t x0 ((N + 1) / 2) le_rfl (-1) k hk
    have hw := gaussStore N (fun i => gaussW (t i) (pp i)) w0 ((N + 1) / 2) le_rfl 1 k hk
    simp only [neg_one_mul] at hx
    simp only [one_mul] at hw
    have ex : gaussNodes N t x0 k = ((List.range ((N + 1) / 2)).foldl (fun (x : Nat → ℝ) k =>
      Function.update (Function.update x k (-(t (k + 1)))) (N - (k + 1)) (t (k + 1))) x0) k := rfl
    have ew : gaussWeights N (fun i => gaussW (t i) (pp i)) w0 k = ((List.range ((N + 1) / 2)).foldl (fun (x : Nat → ℝ) k =>
      Function.update (Function.update x k (gaussW (t (k + 1)) (pp (k + 1)))) (N - (k + 1)) (gaussW (t (k + 1)) (pp (k + 1)))) w0) k := rfl
    rw [← ex] at hx
    rw [← ew] at hw
    have fin : ∀ i, 1 ≤ i → i ≤ (N + 1) / 2 → gaussWeights N (fun i => gaussW (t i) (pp i)) w0 k = gaussW (t i) (pp i) →
        (gaussNodes N t x0 k = t i ∨ gaussNodes N t x0 k = -t i) → (Spec.legendre N).eval (gaussNodes N t x0 k) = 0 ∧
      gaussWeights N (fun i => gaussW (t i) (pp i)) w0 k =
        2 / ((1 - (gaussNodes N t x0 k) ^ 2) * ((derivative (Spec.legendre N)).eval (gaussNodes N t x0 k)) ^ 2) := by
      intro i h1 h2 hwi hxi
      obtain ⟨r1, r2⟩ := hroot i h1 h2
      have hWi : gaussW (t i) (pp i) = 2 / ((1 - (t i) ^ 2) * ((derivative (Spec.legendre N)).eval (t i)) ^ 2) := by
        unfold gaussW; rw [r2]; congr 1; ring
      rcases hxi with h | h
      · rw [h, hwi]; exact ⟨r1, hWi⟩
      · rw [h, hwi, legendre_eval_neg, r1, hev, neg_sq]; exact ⟨by simp, hWi⟩
    rcases Nat.lt_or_ge k ((N + 1) / 2) with hlt | hge
    · have hwk : gaussWeights N (fun i => gaussW (t i) (pp i)) w0 k = gaussW (t (k + 1)) (pp (k + 1)) := by
        rcases hw.1 hlt with h | h
        · exact h
        · exact h.2
      refine fin (k + 1) (by omega) (by omega) hwk ?_
      rcases hx.1 hlt with h | h
      · exact Or.inr h
      · exact Or.inl h.2
    · have hlt2 : N - (k + 1) < (N + 1) / 2 := by omega
      exact fin (N - k) (by omega) (by omega) (hw.2 hlt2) (Or.inl (hx.2 hlt2))
  -- assemble
  classical
  have hinj : Set.InjOn (gaussNodes N t x0) (Finset.range N : Set Nat) := by
    have h2 : (gaussRule N t pp x0 w0).map Prod.fst = (List.range N).map (gaussNodes N t x0) := by
      simp [gaussRule, Function.comp_def]
    rw [h2] at hdist
    intro a ha b hb hab
    exact List.inj_on_of_nodup_map hdist (by simpa using ha) (by simpa using hb) hab
  have hg := gauss_exact N ((Finset.range N).image (gaussNodes N t x0)) (by
      intro x hx
      obtain ⟨k, hk, rfl⟩ := Finset.mem_image.1 hx
      exact (hst k (Finset.mem_range.1 hk)).1) (by rw [Finset.card_image_of_injOn hinj, Finset.card_range]) f hf
  unfold Spec.RuleExact
  rw [Finset.sum_image hinj] at hg
  unfold pint at hg
  rw [hg]
  simp only [gaussRule, List.map_map, Function.comp_def]
  rw [← List.sum_toFinset _ List.nodup_range, List.toFinset_range]
  exact Finset.sum_congr rfl fun k hk => by rw [(hst k (Finset.mem_range.1 hk)).2]

/-- Two-point rule: `t₁ = 1/√3` is a Newton fixed point, and the stored rule is exact for cubics. -/
example (f : ℝ[X]) (hf : f.natDegree < 4) : Spec.RuleExact
    (gaussRule 2 (fun _ => Real.sqrt (1/3)) (fun _ => gaussPP 2 (Real.sqrt (1/3))) (fun _ => 0) (fun _ => 0)) (-1) 1 (fun x => f.eval x) := by
  have hs : Real.sqrt (1/3) * Real.sqrt (1/3) = 1/3 := Real.mul_self_sqrt (by norm_num)
  have hpos : 0 < Real.sqrt (1/3) := Real.sqrt_pos.2 (by norm_num)
  have hl : (gaussLoop 2 (Real.sqrt (1/3))).1 = 0 := by
    simp [gaussLoop, List.range_succ]
    simp at hs
    nlinarith
  have hpp : gaussPP 2 (Real.sqrt (1/3)) = 3 * Real.sqrt (1/3) := by
    obtain ⟨h1, -⟩ := gaussPP_eq 2 (by norm_num) (Real.sqrt (1/3)) (by nlinarith)
    rw [h1, legendre_deriv_up 1, legendre_one]
    simp
    ring
  refine C69_gauss_exact 2 (by norm_num) _ _ _ _ (fun i _ _ => ⟨by nlinarith, rfl, ?_, ?_⟩) ?_ f (by omega)
  · rw [hpp]; positivity
  · unfold gaussNewton; rw [hl]; simp
  · have : (gaussRule 2 (fun _ => Real.sqrt (1/3)) (fun _ => gaussPP 2 (Real.sqrt (1/3))) (fun _ => 0) (fun _ => 0)).map Prod.fst =
        [-Real.sqrt (1/3), Real.sqrt (1/3)] := by
      simp [gaussRule, gaussNodes, List.range_succ, Function.update]
    rw [this]
    refine List.nodup_cons.2 ⟨fun h => ?_, List.nodup_singleton _⟩
    have := List.mem_singleton.1 h
    linarith

end TicTac
end
