import Verif.Spec.LOPot
import Verif.Props.Numeric
import Verif.Props.PotModes
import Mathlib.Analysis.SpecialFunctions.Integrals.Basic
/-! The potentials computed by the program itself: C30, C79. -/
noncomputable section
namespace TicTac
open Spec

/-- The isospin factor is `τ₁·τ₂` of the isospin allowed by antisymmetry. -/
theorem C30_isospin (L S T : Int) (h : PauliT L S T) : isoFac L S = tauTau T := by
  obtain ⟨h1, h2⟩ := h
  unfold isoFac tauTau
  dsimp only
  have : (1 - L - S) % 2 = T := by omega
  rw [this]
  rcases h1 with rfl | rfl <;> rfl

/-- -3 for isospin 0, +1 for isospin 1. -/
theorem C30_isospin_values : tauTau 0 = -3 ∧ tauTau 1 = 1 := ⟨rfl, rfl⟩

example : PauliT 0 1 0 ∧ PauliT 0 0 1 ∧ isoFac 0 1 = -3 ∧ isoFac 0 0 = 1 := by
  unfold PauliT; decide

theorem findRoots_rows (L : Nat) (z : List ℝ) : ∀ r ∈ findRoots L z, r.length = z.length := by
  unfold findRoots
  generalize L - 1 = m
  induction m with
  | zero => intro r hr; simp only [List.range_zero, List.foldl_nil, List.mem_cons, List.not_mem_nil, or_false] at hr; rcases hr with rfl | rfl <;> simp
  | succ m ih =>
    rw [List.range_succ, List.foldl_append]
    generalize (List.range m).foldl _ _ = rs at ih
    intro r hr
    simp only [List.foldl_cons, List.foldl_nil] at hr
    rcases List.mem_append.1 hr with h | h
    · exact ih r h
    · rw [List.mem_singleton.1 h]; simp

theorem fetchRoot_eq (L : Nat) (hL : 1 ≤ L) (z : List ℝ) (l i : Nat) (hl : l ≤ L) (hi : i < z.length) :
    fetchRoot (findRoots L z) l i = some ((legendre l).eval (z.getD i 0)) := by
  obtain ⟨h1, h2⟩ := C29_table L hL z l i hl hi
  have hl' : l < (findRoots L z).length := by omega
  have hr := findRoots_rows L z _ (List.getElem_mem hl')
  unfold fetchRoot
  rw [if_neg (by omega), Int.toNat_natCast, List.getElem?_eq_getElem hl', Option.bind_some, List.getElem?_eq_getElem (by omega), ← h1]
  rw [List.getD_eq_getElem _ _ hl', List.getD_eq_getElem _ _ (by omega)]

theorem fetchRoot_none (L : Nat) (hL : 1 ≤ L) (z : List ℝ) (d : Int) (i : Nat) (hi : i < z.length) (hd : d < 0 ∨ (L : Int) < d) :
    fetchRoot (findRoots L z) d i = none := by
  obtain ⟨_, h2⟩ := C29_table L hL z 0 i (by omega) hi
  unfold fetchRoot
  split
  · rfl
  · rw [List.getElem?_eq_none (by omega)]; rfl

theorem pion_eq (qi qo z : ℝ) : potOPEPmom qi qo z = pionPropagator qi qo z := by
  unfold potOPEPmom pionPropagator gA fpi mpi
  dsimp only
  rw [mul_one_div]
  congr 1 <;> ring

theorem pion_symm (qi qo z : ℝ) : pionPropagator qi qo z = pionPropagator qo qi z := by
  unfold pionPropagator; congr 1; ring

theorem angular_symm (rule : List (ℝ × ℝ)) (qi qo : ℝ) (n l : Nat) : angular rule qi qo n l = angular rule qo qi n l := by
  unfold angular; congr 3; funext xw; rw [pion_symm]

theorem foldlM_sum (f : Nat → ℝ) (g : Nat → Option ℝ) (h : ℝ → Nat → ℝ → ℝ) (n : Nat) (hg : ∀ i < n, ∃ r, g i = some r ∧ ∀ s, h s i r = s + f i) (s : ℝ) :
    (List.range n).foldlM (fun (s : ℝ) (i : Nat) => (g i).map fun r => h s i r) s = some (s + ((List.range n).map f).sum) := by
  induction n with
  | zero => simp
  | succ n ih =>
    rw [List.range_succ, List.foldlM_append, ih fun i hi => hg i (by omega)]
    obtain ⟨r, h1, h2⟩ := hg n (by omega)
    simp [h1, h2, add_assoc]

theorem angIntegral_eq (Jmax : Nat) (rule : List (ℝ × ℝ)) (qi qo : ℝ) (n l : Nat) (hl : l ≤ 1) (hn : n ≤ Jmax + 1) :
    angIntegral (findRoots (Jmax + 1) (rule.map (·.1))) (rule.map (·.1)) (rule.map (·.2)) qi qo n l = some (angular rule qi qo n l) := by
  unfold angIntegral angular
  rw [foldlM_sum (fun i => (rule.map (·.2)).getD i 0 * (pionPropagator qi qo ((rule.map (·.1)).getD i 0) * (rule.map (·.1)).getD i 0 ^ l * (legendre n).eval ((rule.map (·.1)).getD i 0)))]
  · rw [Option.map_some, zero_add, List.length_map]
    congr 3
    apply List.ext_getElem
    · simp
    · intro i h1 h2
      simp only [List.length_map] at h2
      simp [h2]
  · intro i hi
    rw [List.length_map] at hi
    refine ⟨_, fetchRoot_eq _ (by omega) _ _ _ hn (by simpa using hi), fun s => ?_⟩
    rw [pion_eq]
    have : l = 0 ∨ l = 1 := by omega
    rcases this with rfl | rfl
    · simp only [if_true, pow_zero]; ring
    · simp only [one_ne_zero, if_false, pow_one]; ring

/-- C30: the program's partial-wave elements of one-pion exchange, for every `J` up to the size of its table and every quadrature rule. -/
theorem C30_one_pion_exchange (Jmax : Nat) (rule : List (ℝ × ℝ)) (qi qo : ℝ) (J : Nat) (hJ : J ≤ Jmax) :
    ∃ V, opepPotential Jmax (rule.map (·.1)) (rule.map (·.2)) qi qo J = some V ∧
      ∀ k, (present J k → ∀ T, PauliT (orbital J k).1 (orbital J k).2 T → V k = opepJ rule qi qo J k * tauTau T) ∧ (¬ present J k → V k = 0) := by
  have h0 := angIntegral_eq Jmax rule qi qo J 0 (by omega) (by omega)
  have h1 := angIntegral_eq Jmax rule qi qo J 1 (by omega) (by omega)
  have hP := angIntegral_eq Jmax rule qi qo (J + 1) 0 (by omega) (by omega)
  have hM := angIntegral_eq Jmax rule qi qo (J - 1) 0 (by omega) (by omega)
  unfold opepPotential
  dsimp only
  rw [h0, Option.bind_some, h1, Option.bind_some, show ((J : Int) + 1) = ((J + 1 : Nat) : Int) by push_cast; rfl, hP, Option.bind_some]
  by_cases hz : J = 0
  · subst hz
    rw [if_neg (by simp)]
    refine ⟨_, rfl, fun k => ⟨fun hk T hT => ?_, fun hk => ?_⟩⟩
    · rcases hk with hk | rfl | rfl
      · exact absurd rfl hk
      · rw [← C30_isospin _ _ T hT]
        refine congrArg₂ (· * ·) ?_ rfl
        simp [opepJ]
        ring
      · rw [← C30_isospin _ _ T hT]
        refine congrArg₂ (· * ·) ?_ rfl
        simp [opepJ]
        ring
    · have : k ≠ 0 ∧ k ≠ 5 := by
        constructor
        · rintro rfl; exact hk (Or.inr (Or.inl rfl))
        · rintro rfl; exact hk (Or.inr (Or.inr rfl))
      fin_cases k <;> simp at this ⊢
  · rw [if_pos (by omega), show ((J : Int) - 1) = ((J - 1 : Nat) : Int) by omega, hM]
    refine ⟨_, rfl, fun k => ⟨fun hk T hT => ?_, fun hk => absurd (Or.inl hz) hk⟩⟩
    rw [← C30_isospin _ _ T hT]
    have e1 : ((J - 1 : Nat) : Int) = (J : Int) - 1 := by omega
    have ecast : (((J : Int) : ℝ)) = (J : ℝ) := by norm_cast
    fin_cases k
    · refine congrArg₂ (· * ·) ?_ rfl
      simp [opepJ]; ring
    · refine congrArg₂ (· * ·) ?_ rfl
      simp [opepJ]; ring
    · refine congrArg₂ (· * ·) ?_ (by rw [e1]; rfl)
      simp [opepJ]; left; ring
    · refine congrArg₂ (· * ·) ?_ (by rw [e1]; rfl)
      simp [opepJ]; left; ring
    · refine congrArg₂ (· * ·) ?_ (by push_cast; rfl)
      simp [opepJ]; left; ring
    · refine congrArg₂ (· * ·) ?_ (by push_cast; rfl)
      simp [opepJ]; left; ring

/-- Exchanging the momenta transposes the one-pion-exchange elements. -/
theorem opepJ_symm (rule : List (ℝ × ℝ)) (qi qo : ℝ) (J : Nat) :
    opepJ rule qi qo J 0 = opepJ rule qo qi J 0 ∧ opepJ rule qi qo J 1 = opepJ rule qo qi J 1 ∧ opepJ rule qi qo J 2 = opepJ rule qo qi J 2 ∧
    opepJ rule qi qo J 5 = opepJ rule qo qi J 5 ∧ opepJ rule qi qo J 3 = opepJ rule qo qi J 4 := by
  have h : angular rule qi qo = angular rule qo qi := by funext n l; exact angular_symm rule qi qo n l
  unfold opepJ
  simp only [h]
  generalize angular rule qo qi = A
  refine ⟨?_, ?_, ?_, ?_, ?_⟩ <;> simp only [Matrix.cons_val] <;> ring

theorem opepPotential_none (Jmax : Nat) (z wz : List ℝ) (hlen : wz.length = z.length) (hz : z ≠ []) (qi qo : ℝ) (J : Int) (hJ : J < 0 ∨ (Jmax : Int) < J) :
    opepPotential Jmax z wz qi qo J = none := by
  have hpos : 0 < z.length := List.length_pos_of_ne_nil hz
  have hnone : ∀ (d : Int) (l : Nat), (d < 0 ∨ ((Jmax + 1 : Nat) : Int) < d) → angIntegral (findRoots (Jmax + 1) z) z wz qi qo d l = none := by
    intro d l hd
    unfold angIntegral
    obtain ⟨n, hn⟩ : ∃ n, wz.length = n + 1 := ⟨wz.length - 1, by omega⟩
    rw [hn, List.range_succ_eq_map, List.foldlM_cons, fetchRoot_none _ (by omega) _ _ _ hpos hd]
    rfl
  unfold opepPotential
  dsimp only
  rcases hJ with h | h
  · rw [hnone J 0 (Or.inl h)]; rfl
  · rw [hnone (J + 1) 0 (Or.inr (by push_cast; omega))]
    cases angIntegral (findRoots (Jmax + 1) z) z wz qi qo J 0 <;> cases angIntegral (findRoots (Jmax + 1) z) z wz qi qo J 1 <;> rfl

theorem exists_pauliT (L S : Int) : ∃ T, PauliT L S T := ⟨(1 + L + S) % 2, by unfold PauliT; omega⟩

/-- Strengths in a channel: contact term of the two S waves, in 10⁴ GeV⁻² = MeV⁻²/100. -/
def Spec.contact (J : Nat) (k : Fin 6) : ℝ := if J = 0 ∧ k = 0 then -0.112927 / 100 else if J = 1 ∧ k = 2 then -0.087340 / 100 else 0

/-- C30: the leading-order potential in every channel with `J ≤ 100`: one-pion exchange with the isospin factor of the channel plus the contact
term of the S wave, times regulators `exp(-(q/Λ)^6)`, minimal-relativity factors `√(M/E)` and `(2π)⁻³`. -/
theorem C30_leading_order (rule : List (ℝ × ℝ)) (qi qo : ℝ) (J : Nat) (hJ : J ≤ 100) :
    ∃ V, loV (rule.map (·.1)) (rule.map (·.2)) qi qo J = some V ∧ ∀ k,
      (present J k → ∀ T, PauliT (orbital J k).1 (orbital J k).2 T → V k = (opepJ rule qi qo J k * tauTau T + contact J k) *
        (Real.exp (-(qi / 450) ^ 6) * Real.exp (-(qo / 450) ^ 6) * Real.sqrt (MN / Real.sqrt (MN ^ 2 + qi ^ 2)) * Real.sqrt (MN / Real.sqrt (MN ^ 2 + qo ^ 2)) /
          (2 * Real.pi) ^ 3)) ∧ (¬ present J k → V k = 0) := by
  obtain ⟨V, h1, h2⟩ := C30_one_pion_exchange 100 rule qi qo J hJ
  have hc : loCoeff MN qi qo = Real.exp (-(qi / 450) ^ 6) * Real.exp (-(qo / 450) ^ 6) * Real.sqrt (MN / Real.sqrt (MN ^ 2 + qi ^ 2)) *
      Real.sqrt (MN / Real.sqrt (MN ^ 2 + qo ^ 2)) / (2 * Real.pi) ^ 3 := by
    unfold loCoeff cLambda
    dsimp only
    congr 1
    · congr 1
      · congr 1
        · congr 1 <;> congr 1 <;> ring
        · congr 3; ring
      · congr 3; ring
    · ring
  unfold loV
  rw [h1, Option.map_some]
  refine ⟨_, rfl, fun k => ?_⟩
  rw [← hc]
  have hcon : ∀ k, (if (J : Int) = 0 then Function.update V 0 (V 0 + C1S0) else if (J : Int) = 1 then Function.update V 2 (V 2 + C3S1) else V) k = V k + contact J k := by
    intro k
    unfold contact C1S0 C3S1
    by_cases hJ0 : J = 0
    · subst hJ0
      rw [if_pos (by rfl)]
      by_cases hk : k = 0
      · subst hk; simp
      · simp [hk]
    · rw [if_neg (by omega)]
      by_cases hJ1 : J = 1
      · subst hJ1
        rw [if_pos (by rfl)]
        by_cases hk : k = 2
        · subst hk; simp
        · simp [hk]
      · rw [if_neg (by omega)]
        simp [hJ0, hJ1]
  rw [hcon]
  refine ⟨fun hk T hT => ?_, fun hk => ?_⟩
  · rw [(h2 k).1 hk T hT]
  · rw [(h2 k).2 hk]
    have : contact J k = 0 := by
      unfold present at hk
      unfold contact
      rw [if_neg (fun h => hk (Or.inr (Or.inl h.2))), if_neg (fun h => hk (Or.inl (by omega)))]
    rw [this]; simp

/-- C30: beyond the table of Legendre polynomials (`J > 100`) the routine reads past its end. -/
theorem C30_table_end (z wz : List ℝ) (hlen : wz.length = z.length) (hz : z ≠ []) (qi qo : ℝ) (J : Int) (hJ : J < 0 ∨ 100 < J) : loV z wz qi qo J = none := by
  unfold loV
  rw [opepPotential_none 100 z wz hlen hz qi qo J hJ]; rfl

/-- With nodes in [-1, 1] the pion propagator never divides by zero. -/
theorem C30_regular (qi qo z : ℝ) (hz : |z| ≤ 1) : 0 < qi ^ 2 + qo ^ 2 - 2 * qi * qo * z + mpi * mpi := by
  have h1 : 0 ≤ qi ^ 2 + qo ^ 2 - 2 * qi * qo * z := by
    obtain ⟨a, b⟩ := abs_le.1 hz
    nlinarith [sq_nonneg (qi - qo), sq_nonneg (qi + qo), mul_nonneg (sub_nonneg.2 b) (sq_nonneg (qi + qo)), mul_nonneg (by linarith : 0 ≤ 1 + z) (sq_nonneg (qi - qo))]
  have : 0 < mpi * mpi := by unfold mpi; norm_num
  linarith

/-- The program's LO potential as seen by the code that builds the matrices (zeros where it has no value). -/
def loModel (rule : List (ℝ × ℝ)) : PotModel := fun qi qo _ _ J _ _ => (loV (rule.map (·.1)) (rule.map (·.2)) qi qo J).getD fun _ => 0

/-- C30: exchanging the momenta transposes the leading-order potential. -/
theorem C30_hermitian (rule : List (ℝ × ℝ)) (hr : rule ≠ []) : Hermitian (loModel rule) := by
  intro qi qo c S J T Tz
  unfold loModel
  by_cases hJ : J < 0 ∨ 100 < J
  · rw [C30_table_end _ _ (by simp) (by simpa using hr) qi qo J hJ, C30_table_end _ _ (by simp) (by simpa using hr) qo qi J hJ]
    exact ⟨rfl, rfl, rfl, rfl, rfl⟩
  · obtain ⟨n, rfl⟩ : ∃ n : Nat, J = n := ⟨J.toNat, by omega⟩
    obtain ⟨V, h1, h2⟩ := C30_leading_order rule qi qo n (by omega)
    obtain ⟨W, g1, g2⟩ := C30_leading_order rule qo qi n (by omega)
    rw [h1, g1]
    obtain ⟨s0, s1, s2, s5, s3⟩ := opepJ_symm rule qi qo n
    have key : ∀ k k' : Fin 6, (present n k ↔ present n k') → (∀ T, PauliT (orbital n k).1 (orbital n k).2 T → PauliT (orbital n k').1 (orbital n k').2 T) →
        contact n k = contact n k' → opepJ rule qi qo n k = opepJ rule qo qi n k' → V k = W k' := by
      intro k k' e1 e2 e3 e4
      by_cases hp : present n k
      · obtain ⟨T, hT⟩ := exists_pauliT (orbital n k).1 (orbital n k).2
        rw [(h2 k).1 hp T hT, (g2 k').1 (e1.1 hp) T (e2 T hT), e3, e4]
        ring
      · rw [(h2 k).2 hp, (g2 k').2 (fun h => hp (e1.2 h))]
    simp only [Option.getD_some]
    refine ⟨key _ _ Iff.rfl (fun _ h => h) rfl s0, key _ _ Iff.rfl (fun _ h => h) rfl s1, key _ _ Iff.rfl (fun _ h => h) rfl s2,
      key _ _ Iff.rfl (fun _ h => h) rfl s5, key 3 4 ?_ ?_ ?_ s3⟩
    · unfold present; simp
    · intro T hT
      unfold PauliT orbital at *
      simp at hT ⊢
      omega
    · unfold contact; simp

/-- C31 for the built-in LO potential: its potential matrices are symmetric. -/
theorem C31_LO_symmetric (rule : List (ℝ × ℝ)) (hr : rule ≠ []) (p : PWParams) (ht : p.tensor = true) (hv : ValidTruncation p) (w : PWSpace)
    (h : constructPW p = some w) (g : PotGrid) (junk : Job → Nat → Nat → Six) (init : PotKey → ℝ) (mem : PotKey → ℝ)
    (hmem : potMatrices p g (loModel rule) junk init w.states = some mem) (a b : PWState) (ha : a ∈ w.states) (hb : b ∈ w.states)
    (hab : SameInteraction true a b) (sl : Slot) (hsl : slotOf p a = some sl) (i j : Nat) (hi : i < g.Np) (hj : j < g.Np) :
    mem (sl, blockOf p a, blockOf p b, i, j) = mem (sl, blockOf p b, blockOf p a, j, i) :=
  C31_potential_symmetric p ht hv w h g _ (C30_hermitian rule hr) junk init mem hmem a b ha hb hab sl hsl i j hi hj

/-! ### Malfliet-Tjon -/

theorem yukawa_log (V mu qi qo : ℝ) (hi : 0 < qi) (ho : 0 < qo) (hmu : 0 < mu) :
    yukawaS V mu qi qo = V * Real.log (((qo + qi) * (qo + qi) + mu * mu) / ((qo - qi) * (qo - qi) + mu * mu)) / (2 * Real.pi * qi * qo) := by
  have hq : 0 < qi * qo := mul_pos hi ho
  have hden : 0 < (qo - qi) * (qo - qi) + mu * mu := by nlinarith [sq_nonneg (qo - qi), mul_pos hmu hmu]
  have hnum : 0 < (qo + qi) * (qo + qi) + mu * mu := by nlinarith [sq_nonneg (qo + qi), mul_pos hmu hmu]
  unfold yukawaS
  have h1 : ∀ z : ℝ, V / (Real.pi * (qi ^ 2 + qo ^ 2 - 2 * qi * qo * z + mu ^ 2)) = (V / Real.pi) * ((fun x => x⁻¹) ((qi ^ 2 + qo ^ 2 + mu ^ 2) - (2 * qi * qo) * z)) := by
    intro z
    dsimp only
    rw [div_mul_eq_div_div, div_eq_mul_inv (V / Real.pi)]
    congr 2; ring
  simp_rw [h1]
  rw [intervalIntegral.integral_const_mul, intervalIntegral.integral_comp_sub_mul _ (by positivity)]
  rw [integral_inv_of_pos (by nlinarith) (by nlinarith)]
  rw [show (qi ^ 2 + qo ^ 2 + mu ^ 2 - 2 * qi * qo * -1) = (qo + qi) * (qo + qi) + mu * mu by ring,
    show (qi ^ 2 + qo ^ 2 + mu ^ 2 - 2 * qi * qo * 1) = (qo - qi) * (qo - qi) + mu * mu by ring, smul_eq_mul]
  field_simp

/-- C79: the Malfliet-Tjon elements are the S-wave projections of a repulsive and an attractive Yukawa force, with the singlet strength for `J = 0`
and the triplet strength for `J = 1`. -/
theorem C79_yukawa (qi qo : ℝ) (hi : 0 < qi) (ho : 0 < qo) :
    mtV qi qo 0 0 = yukawaS (1438.720 / 197.327) (3.110 * 197.327) qi qo + yukawaS (-(513.968 / 197.327)) (1.550 * 197.327) qi qo ∧
    mtV qi qo 1 2 = yukawaS (1438.720 / 197.327) (3.110 * 197.327) qi qo + yukawaS (-(626.885 / 197.327)) (1.550 * 197.327) qi qo := by
  simp only [yukawa_log _ _ qi qo hi ho (show (0 : ℝ) < 3.110 * 197.327 by norm_num), yukawa_log _ _ qi qo hi ho (show (0 : ℝ) < 1.550 * 197.327 by norm_num)]
  constructor
  · simp only [mtV, hbarc, if_true]
    simp only [Matrix.cons_val_zero]
    ring
  · simp only [mtV, hbarc, if_true, one_ne_zero, if_false]
    simp only [Matrix.cons_val]
    ring

/-- The Malfliet-Tjon force as seen by the code that builds the matrices. -/
def mtModel : PotModel := fun qi qo _ _ J _ _ => mtV qi qo J

/-- C79: in every physical pair of partial waves only the S waves feel the force. -/
theorem C79_only_S_waves (qi qo : ℝ) (S J L Lp : Int) (coupled : Bool) (hc : coupled = true ↔ L ≠ J ∨ L ≠ Lp)
    (hpar : (L - Lp) % 2 = 0) (h0 : 0 ≤ L) (h0' : 0 ≤ Lp) (v : ℝ) (hv : extractPot L Lp J S coupled (mtV qi qo J) = some v) (hne : v ≠ 0) : L = 0 ∧ Lp = 0 := by
  unfold extractPot at hv
  split at hv
  · cases hv
  · rename_i hphys
    dsimp only at hv
    have hv := Option.some.inj hv
    subst hv
    push Not at hphys
    obtain ⟨p1, p2, p3, p4⟩ := hphys
    rw [abs_le] at p1 p3
    have hj : J = 0 ∨ J = 1 := by
      by_contra hj
      push Not at hj
      apply hne
      simp only [mtV, hj.1, hj.2, if_false]
      simp
    have hz : ∀ k : Fin 6, ¬ (J = 0 ∧ k = 0) → ¬ (J = 1 ∧ k = 2) → mtV qi qo J k = 0 := by
      intro k h1 h2
      rcases hj with rfl | rfl
      · simp only [mtV, if_true]
        fin_cases k <;> simp at h1 ⊢
      · simp only [mtV, if_true, one_ne_zero, if_false]
        fin_cases k <;> simp at h2 ⊢
    by_contra hL
    apply hne
    clear hne
    have : L = Lp → L ≠ 0 := fun h h' => hL ⟨h', h ▸ h'⟩
    cases coupled
    · simp only [Bool.false_eq_true, if_false]
      have hc' : L = J ∧ L = Lp := by
        by_contra hcc
        have : L ≠ J ∨ L ≠ Lp := by omega
        exact absurd (hc.2 this) (by simp)
      split_ifs
      · exact hz 5 (by simp) (by simp)
      · omega
      · exact hz 0 (by omega) (by simp)
      · exact hz 1 (by simp) (by simp)
      · rfl
    · simp only [if_true]
      split_ifs
      · omega
      · exact hz 5 (by simp) (by simp)
      · rw [hz 4 (by simp) (by simp), mul_zero]
      · rw [hz 3 (by simp) (by simp), mul_zero]

/-- C79: the Malfliet-Tjon force is Hermitian. -/
theorem C79_hermitian : Hermitian mtModel := by
  intro qi qo c S J T Tz
  have hs : mtV qi qo J = mtV qo qi J := by
    unfold mtV
    dsimp only
    have e1 : (qo + qi) * (qo + qi) = (qi + qo) * (qi + qo) := by ring
    have e2 : (qo - qi) * (qo - qi) = (qi - qo) * (qi - qo) := by ring
    have e3 : 2 * Real.pi * qi * qo = 2 * Real.pi * qo * qi := by ring
    rw [e1, e2, e3]
  unfold mtModel
  refine ⟨by rw [hs], by rw [hs], by rw [hs], by rw [hs], ?_⟩
  simp only [mtV]
  split_ifs <;> simp

-- the 3S1 wave, and the tensor-coupled 3S1-3D1 pair, meet the hypotheses of `C79_only_S_waves`
example : extractPot 0 0 1 1 true (mtV 1 1 1) = some (mtV 1 1 1 2) ∧ extractPot 0 2 1 1 true (mtV 1 1 1) = some 0 := by
  constructor
  · simp [extractPot]
  · simp [extractPot, mtV]

end TicTac
end
