import Verif.Props.Loops
/-! C99, C101: the two-loop terms of IS_N3LO are dispersion integrals over the published spectral functions. -/
noncomputable section
namespace TicTac
open Spec

theorem quad_add (l : List (ℝ × ℝ)) (F G : ℝ → ℝ) : quad l F + quad l G = quad l fun x => F x + G x := by
  unfold quad; rw [← List.sum_map_add]; congr 2; funext x; ring
theorem quad_mul (l : List (ℝ × ℝ)) (c : ℝ) (F : ℝ → ℝ) : c * quad l F = quad l fun x => c * F x := by
  unfold quad; rw [← List.sum_map_mul_left]; congr 2; funext x; ring
theorem quad_congr (l : List (ℝ × ℝ)) (F G : ℝ → ℝ) (h : ∀ xw ∈ l, F xw.1 = G xw.1) : quad l F = quad l G := by
  unfold quad; congr 1; exact List.map_congr_left fun xw hx => by rw [h xw hx]

theorem zip_map_self {α β : Type} (l : List α) (f : α → β) : l.zip (l.map f) = l.map fun a => (a, f a) := by
  induction l with
  | nil => rfl
  | cons a t ih => simp [ih]
theorem vtsEntry_eq (r : LoopRules) (zw : ℝ × ℝ) : vtsEntry r zw = zw.2 * (-1 / (1024 * pi2 * pi2) * zw.1 * Real.sqrt (1 - zw.1 * zw.1) * (1 - zw.1 * zw.1)
    * quad r.x (fun v => (1 - v * v) * (loopHelper (v * Real.sqrt (1 - zw.1 * zw.1) / zw.1) - 1 / 6))) := by
  unfold vtsEntry
  rw [quad_mul, quad_mul]
  unfold quad
  refine congrArg List.sum (List.map_congr_left fun xw h => ?_)
  ring

theorem sqrt_radius (m z : ℝ) (hm : 0 < m) (h0 : 0 < z) (h1 : z < 1) : radius m (2 * m / z) = m * (Real.sqrt (1 - z ^ 2) / z) := by
  unfold radius
  rw [show (2 * m / z) ^ 2 - 4 * m ^ 2 = (2 * m / z) ^ 2 * (1 - z ^ 2) by field_simp; ring, Real.sqrt_mul (by positivity),
    Real.sqrt_sq (by positivity)]
  field_simp

variable (p : PionData) (q2 : ℝ) (hm : 0 < p.mpi 2) (hq2 : 0 < q2)
include hm hq2

theorem wt_point (z : ℝ) (h0 : 0 < z) (h1 : z < 1) (hf : p.fpi ≠ 0) : inZ (p.mpi 2) (tensorIntegrand q2 (etaT p.gA p.fpi (p.mpi 2))) z =
    -fpiInv p ^ 6 * gA2 p * gA2 p / (pi2 * 4096) * q2 ^ 2 *
      ((1 - z * z) * ((z * z - 1) * z * 0.5 * Real.log ((1 + z) / (1 - z)) + (1 + 2 * gA2 p) * (z * z)) / (4 * mpi2 p + z * z * q2)) := by
  unfold inZ tensorIntegrand etaT
  have hpi := Real.pi_ne_zero
  have h1' : (1 - z) ≠ 0 := by linarith
  have e : (2 * p.mpi 2 / z + 2 * p.mpi 2) / (2 * p.mpi 2 / z - 2 * p.mpi 2) = (1 + z) / (1 - z) := by
    have : 2 * p.mpi 2 / z - 2 * p.mpi 2 ≠ 0 := by
      rw [show 2 * p.mpi 2 / z - 2 * p.mpi 2 = 2 * p.mpi 2 * (1 - z) / z by field_simp]; positivity
    rw [div_eq_div_iff this h1']; field_simp
  rw [e]
  generalize Real.log _ = l
  unfold fpiInv gA2 pi2 mpi2
  have hd : 4 * p.mpi 2 ^ 2 + z ^ 2 * q2 ≠ 0 := by positivity
  generalize Real.pi = π at *
  generalize p.mpi 2 = m at *
  generalize p.fpi = f at *
  have e2 : (2 * m / z) ^ 2 + q2 = (4 * m ^ 2 + z ^ 2 * q2) / z ^ 2 := by field_simp; ring
  rw [e2, show 4 * (m * m) + z * z * q2 = 4 * m ^ 2 + z ^ 2 * q2 by ring]
  generalize 4 * m ^ 2 + z ^ 2 * q2 = D at *
  field_simp
  ring

theorem wt_sum (r : LoopRules) (hf : p.fpi ≠ 0) (hl : p.loopInt = true) (hz : ∀ zw ∈ r.z (zLow p), 0 < zw.1 ∧ zw.1 < 1) :
    l2WTSFR r p q2 = quad (r.z (zLow p)) (inZ (p.mpi 2) (tensorIntegrand q2 (etaT p.gA p.fpi (p.mpi 2)))) := by
  unfold l2WTSFR quad
  simp only [hl, Bool.true_eq_false, if_false]
  rw [← List.sum_map_mul_left]
  refine congrArg List.sum (List.map_congr_left fun zw h => ?_)
  rw [wt_point p q2 hm hq2 zw.1 (hz zw h).1 (hz zw h).2 hf]
  ring

/-- The two mean values and the constant at `z`. -/
theorem vt_point (x : List (ℝ × ℝ)) (b : ℝ → ℝ) (z : ℝ) (h0 : 0 < z) (h1 : z < 1) (hf : p.fpi ≠ 0) :
    inZ (p.mpi 2) (tensorIntegrand q2 fun μ => rhoT p.gA p.fpi (p.mpi 2) p.d1415 (quad x fun v => (1 - v ^ 2) / 6) (J1 x b (p.mpi 2) μ)
      (J2 x b (p.mpi 2) μ) μ) z =
    -p.d1415 * fpiInv p ^ 4 * gA2 p / (pi2 * 32) * q2 ^ 2 * (z * Real.sqrt (1 - z * z) * (1 - z * z) / (4 * mpi2 p + z * z * q2))
    + (p.gA * fpiInv p) ^ 6 * q2 ^ 2 * (-1 / (1024 * pi2 * pi2) * z * Real.sqrt (1 - z * z) * (1 - z * z)
      * quad x (fun v => (1 - v * v) * (b (v * Real.sqrt (1 - z * z) / z) - 1 / 6)) / (4 * mpi2 p + z * z * q2)) := by
  have hj : (quad x fun v => (1 - v ^ 2) / 6) - J1 x b (p.mpi 2) (2 * p.mpi 2 / z) + J2 x b (p.mpi 2) (2 * p.mpi 2 / z) =
      - quad x (fun v => (1 - v * v) * (b (v * Real.sqrt (1 - z * z) / z) - 1 / 6)) := by
    unfold J1 J2
    rw [sqrt_radius _ z hm h0 h1]
    have e : ∀ v, p.mpi 2 * (Real.sqrt (1 - z ^ 2) / z) * v / p.mpi 2 = v * Real.sqrt (1 - z * z) / z := fun v => by
      rw [show z * z = z ^ 2 by ring]; field_simp
    simp only [e]
    rw [sub_eq_add_neg, ← neg_one_mul (quad x fun v => b _), quad_mul, quad_add, quad_add, ← neg_one_mul (quad _ _), quad_mul]
    congr 1; funext v; ring
  unfold inZ tensorIntegrand rhoT
  beta_reduce
  rw [hj, sqrt_radius _ z hm h0 h1]
  generalize quad x _ = Q
  have hpi := Real.pi_ne_zero
  unfold fpiInv gA2 pi2 mpi2
  have hs : Real.sqrt (1 - z ^ 2) ^ 2 = 1 - z ^ 2 := Real.sq_sqrt (by nlinarith)
  have hd : 4 * p.mpi 2 ^ 2 + z ^ 2 * q2 ≠ 0 := by positivity
  rw [show z * z = z ^ 2 by ring]
  generalize Real.sqrt (1 - z ^ 2) = s at *
  generalize Real.pi = π at *
  generalize p.mpi 2 = m at *
  generalize p.fpi = f at *
  have e2 : (2 * m / z) ^ 2 + q2 = (4 * m ^ 2 + z ^ 2 * q2) / z ^ 2 := by field_simp; ring
  rw [e2, show 4 * (m * m) + z ^ 2 * q2 = 4 * m ^ 2 + z ^ 2 * q2 by ring, ← hs]
  generalize 4 * m ^ 2 + z ^ 2 * q2 = D at *
  field_simp
  ring

theorem vt_sum (r : LoopRules) (hf : p.fpi ≠ 0) (hl : p.loopInt = true) (hz : ∀ zw ∈ r.z (zLow p), 0 < zw.1 ∧ zw.1 < 1) :
    l2VTSFRa r p q2 + l2VTb r p (vtsTable r p) q2 = quad (r.z (zLow p)) (inZ (p.mpi 2) (tensorIntegrand q2 fun μ =>
      rhoT p.gA p.fpi (p.mpi 2) p.d1415 (quad r.x fun v => (1 - v ^ 2) / 6) (J1 r.x loopHelper (p.mpi 2) μ) (J2 r.x loopHelper (p.mpi 2) μ) μ)) := by
  unfold l2VTSFRa l2VTb vtsTable
  rw [quad]
  simp only [hl, Bool.true_eq_false, if_false]
  rw [zip_map_self, List.map_map, mul_assoc (List.sum _), mul_comm (List.sum _), ← List.sum_map_mul_left, ← List.sum_map_mul_left, ← List.sum_map_add]
  refine congrArg List.sum (List.map_congr_left fun zw h => ?_)
  rw [vt_point p q2 hm hq2 r.x loopHelper zw.1 (hz zw h).1 (hz zw h).2 hf]
  dsimp only [Function.comp]
  rw [vtsEntry_eq]
  ring

/-- The two mean values in `W_C`. -/
theorem wc_point (x : List (ℝ × ℝ)) (b : ℝ → ℝ) (z : ℝ) (h0 : 0 < z) (h1 : z < 1) (hf : p.fpi ≠ 0) :
    inZ (p.mpi 2) (centralIntegrand q2 fun μ => etaC p.gA p.fpi (p.mpi 2) p.d12 p.d3 p.d5 (J1 x b (p.mpi 2) μ)
      (J2 x b (p.mpi 2) μ) μ) z =
    fpiInv p ^ 6 / (pi2 * pi2 * 3 * 2 ^ 10) * q2 ^ 3 * (z / (4 * mpi2 p + z ^ 2 * q2) *
      ((-(1 + 2 * gA2 p) ^ 2 / 3 * (z ^ 2) ^ 2 * z ^ 2 + (1 + 6 * gA2 p + 8 * gA2 p * gA2 p) * (z ^ 2) ^ 2 + -gA2 p * (8 + 15 * gA2 p) * z ^ 2
          + (-4 + 29 * gA2 p + 122 * gA2 p * gA2 p + 3 * gA2 p ^ 3) / 15) * Real.log ((1 + Real.sqrt (1 - z ^ 2)) / z)
        + (quad x (fun v => b (v * Real.sqrt (1 - z ^ 2) / z) * (-gA2 p ^ 3 * (2 - z ^ 2) ^ 2 +
              gA2 p * gA2 p * (2 * gA2 p - 1) * (2 - z ^ 2) * (1 - z ^ 2) * v * v))
            + -(171 + 2 * gA2 p * (1 + gA2 p) * (327 + 49 * gA2 p)) / 450 * (z ^ 2) ^ 2
            + (-73 + 1748 * gA2 p + 2549 * gA2 p * gA2 p + 726 * gA2 p ^ 3) / 450 * z ^ 2
            + -(-64 + 389 * gA2 p + 1782 * gA2 p * gA2 p + 1093 * gA2 p ^ 3) / 450) * Real.sqrt (1 - z ^ 2)))
    + q2 ^ 3 * (z * Real.sqrt (1 - z ^ 2) / (4 * mpi2 p + z ^ 2 * q2) *
      (-p.d12 * fpiInv p ^ 4 / (pi2 * 96) * ((2 - z ^ 2) * ((gA2 p - 1) * (1 - z ^ 2) - 3 * gA2 p * (2 - z ^ 2)))
        + -p.d3 * fpiInv p ^ 4 / (pi2 * 480) * ((1 - z ^ 2) * (3 * (gA2 p - 1) * (1 - z ^ 2) - 5 * gA2 p * (2 - z ^ 2)))
        + p.d5 * fpiInv p ^ 4 / (pi2 * 48) * (z ^ 2 * ((gA2 p - 1) * (1 - z ^ 2) - 3 * gA2 p * (2 - z ^ 2))))) := by
  have e : ∀ v, p.mpi 2 * (Real.sqrt (1 - z ^ 2) / z) * v / p.mpi 2 = v * Real.sqrt (1 - z ^ 2) / z := fun v => by field_simp
  have hj : quad x (fun v => b (v * Real.sqrt (1 - z ^ 2) / z) * (-gA2 p ^ 3 * (2 - z ^ 2) ^ 2 +
              gA2 p * gA2 p * (2 * gA2 p - 1) * (2 - z ^ 2) * (1 - z ^ 2) * v * v)) =
      -gA2 p ^ 3 * (2 - z ^ 2) ^ 2 * J1 x b (p.mpi 2) (2 * p.mpi 2 / z)
      + gA2 p * gA2 p * (2 * gA2 p - 1) * (2 - z ^ 2) * (1 - z ^ 2) * J2 x b (p.mpi 2) (2 * p.mpi 2 / z) := by
    unfold J1 J2
    rw [sqrt_radius _ z hm h0 h1]
    simp only [e]
    rw [quad_mul, quad_mul, quad_add]
    congr 1; funext v; ring
  rw [hj]
  unfold inZ centralIntegrand etaC tSq
  beta_reduce
  generalize J1 x b (p.mpi 2) (2 * p.mpi 2 / z) = j1
  generalize J2 x b (p.mpi 2) (2 * p.mpi 2 / z) = j2
  rw [sqrt_radius _ z hm h0 h1]
  have hlog : (2 * (p.mpi 2 * (Real.sqrt (1 - z ^ 2) / z)) + 2 * p.mpi 2 / z) / (2 * p.mpi 2) = (1 + Real.sqrt (1 - z ^ 2)) / z := by
    field_simp; ring
  rw [hlog]
  generalize Real.log _ = l
  have hpi := Real.pi_ne_zero
  unfold fpiInv gA2 pi2 mpi2
  have hs : Real.sqrt (1 - z ^ 2) ^ 2 = 1 - z ^ 2 := Real.sq_sqrt (by nlinarith)
  have hd : 4 * p.mpi 2 ^ 2 + z ^ 2 * q2 ≠ 0 := by positivity
  generalize Real.sqrt (1 - z ^ 2) = s at *
  generalize Real.pi = π at *
  generalize p.mpi 2 = m at *
  generalize p.fpi = f at *
  generalize p.gA = g at *
  generalize p.d12 = d12 at *
  generalize p.d3 = d3 at *
  generalize p.d5 = d5 at *
  clear e hj hlog h1
  have e2 : (2 * m / z) ^ 2 + q2 = (4 * m ^ 2 + z ^ 2 * q2) / z ^ 2 := by field_simp; ring
  rw [e2, show 4 * (m * m) + z ^ 2 * q2 = 4 * m ^ 2 + z ^ 2 * q2 by ring]
  rw [← hs]
  generalize 4 * m ^ 2 + z ^ 2 * q2 = D at *
  field_simp
  ring

theorem wcSFREntry_eq (r : LoopRules) (z : ℝ) : wcSFREntry r p z = quad r.x (fun v => loopHelper (v * Real.sqrt (1 - z ^ 2) / z) *
    (-gA2 p ^ 3 * (2 - z ^ 2) ^ 2 + gA2 p * gA2 p * (2 * gA2 p - 1) * (2 - z ^ 2) * (1 - z ^ 2) * v * v)) := by
  unfold wcSFREntry quad
  refine congrArg List.sum (List.map_congr_left fun xw h => ?_)
  rw [show z * z = z ^ 2 by ring]
  ring

theorem wc_sum (r : LoopRules) (hf : p.fpi ≠ 0) (hz : ∀ zw ∈ r.z (zLow p), 0 < zw.1 ∧ zw.1 < 1) :
    l2WcSFRa r p (wcSFRTable r p) q2 + l2WcSFRb r p q2 = quad (r.z (zLow p)) (inZ (p.mpi 2) (centralIntegrand q2 fun μ =>
      etaC p.gA p.fpi (p.mpi 2) p.d12 p.d3 p.d5 (J1 r.x loopHelper (p.mpi 2) μ) (J2 r.x loopHelper (p.mpi 2) μ) μ)) := by
  unfold l2WcSFRa l2WcSFRb wcSFRTable
  rw [quad]
  dsimp only
  rw [zip_map_self, List.map_map]
  simp only [← List.sum_map_mul_left, ← List.sum_map_add]
  refine congrArg List.sum (List.map_congr_left fun zw h => ?_)
  rw [wc_point p q2 hm hq2 r.x loopHelper zw.1 (hz zw h).1 (hz zw h).2 hf]
  dsimp only [Function.comp]
  rw [wcSFREntry_eq p q2 hm hq2]
  ring

/-- The two-loop class with a spectral cutoff. -/
theorem class_l2_sfr (r : LoopRules) (im : Int) (k2 Λ : ℝ) (hf : p.fpi ≠ 0) (hs : p.sfr = some Λ) (hl : p.loopInt = true)
    (hz : ∀ zw ∈ r.z (zLow p), 0 < zw.1 ∧ zw.1 < 1) (A : Amp) : loopProf r p .l2 A im q2 k2 =
      dispersive r.x (r.z (zLow p)) loopHelper (l2VcSFR r p q2) (tpeOf p im q2 k2) A := by
  have hi : p.sfr.isSome = true := by rw [hs]; rfl
  cases A <;> simp only [loopProf, loopCall, twoLoopSFR, hi, hl, dispersive, withSpin, if_true, tpeOf, useWcSFR, useVTS, LoopMem.empty]
  · exact wc_sum p q2 hm hq2 r hf hz
  · rw [← vt_sum p q2 hm hq2 r hf hl hz]
    unfold l2VsSFRa l2Vsb; ring
  · rw [← wt_sum p q2 hm hq2 r hf hl hz]
    unfold l2WsSFR; ring
  · exact vt_sum p q2 hm hq2 r hf hl hz
  · exact wt_sum p q2 hm hq2 r hf hl hz

omit hm hq2

theorem loop_zero (r : LoopRules) (t : TwoPE) (A : Amp) (im : Int) (k2 : ℝ) (h : A ∉ amplitudes t) : loopProf r p t A im q2 k2 = 0 := by
  cases t <;> cases A <;> first
    | rfl
    | (simp only [loopProf, loopCall]; split_ifs <;> rfl)
    | exact absurd (by simp [amplitudes]) h

theorem loop_k2 (r : LoopRules) (t : TwoPE) (A : Amp) (im : Int) (k2 k2' : ℝ) (h : t ≠ .lrr) : loopProf r p t A im q2 k2 = loopProf r p t A im q2 k2' := by
  cases t <;> cases A <;> first | rfl | exact absurd rfl h

theorem zLow_n3lo (c : Constants) : zLow (pionData .isN3LO c) = 2 * meanPion .isN3LO / 700 := by
  unfold zLow pionData spectralCutoff meanPion chargedPion neutralPion
  norm_num

theorem meanPion_pos (m : ChiralModel) : 0 < meanPion m := by
  cases m <;> norm_num [meanPion, chargedPion, neutralPion]

theorem pionDecay_ne (m : ChiralModel) : pionDecay m ≠ 0 := by cases m <;> norm_num [pionDecay]

theorem tpeOf_pionData (m : ChiralModel) (c : Constants) (Tz : Int) (hz : Tz = -1 ∨ Tz = 0 ∨ Tz = 1) (k2 : ℝ) :
    tpeOf (pionData m c) (if m = .n2loopt ∨ m = .idaho then -Tz else 0) q2 k2 = tpe m c Tz q2 k2 := by
  have h2 : (pionData m c).mpi 2 = meanPion m := by simp [pionData]
  have hu : (pionData m c).mnuc (if m = .n2loopt ∨ m = .idaho then -Tz else 0) = nucleonMass m (if m = .n2loopt ∨ m = .idaho then Tz else 0) := by
    unfold pionData
    dsimp only
    split_ifs <;> first | rfl | (rw [neg_neg]) | omega
  unfold tpeOf tpe
  rw [hu, h2]
  rfl

/-- **C99.** For every chiral model, parameter line, nucleon pair and pair of momenta and cosine with non-zero momentum transfer, the strength of every amplitude
of two-pion exchange is the published expression of that model's order, with the loop functions `L` and `A` given by the two-pion spectrum up to the spectral
cutoff of 700 MeV (all of it in Idaho); in IS_N3LO the two-loop terms of `W_C`, `V_T`, `V_S`, `W_T` and `W_S` are the dispersion integrals over the published
spectral functions, summed with the rule in `z = 2m/μ`. -/
theorem C99_two_pion (m : ChiralModel) (c : Constants) (r : LoopRules) (Tz : Int) (hTz : Tz = -1 ∨ Tz = 0 ∨ Tz = 1) (po pi z : ℝ) (hq : 0 < transfer po pi z)
    (hz : m = .isN3LO → ∀ zw ∈ r.z (2 * meanPion m / 700), 0 < zw.1 ∧ zw.1 < 1) (A : Amp) :
    strength m c (loopProf r) Tz po pi A z =
      twoPionOrder m (tpe m c Tz (transfer po pi z) ((po ^ 2 + pi ^ 2 + 2 * po * pi * z) / 4))
        (dispersive r.x (r.z (2 * meanPion m / 700)) loopHelper (l2VcSFR r (pionData m c) (transfer po pi z))
          (tpe m c Tz (transfer po pi z) ((po ^ 2 + pi ^ 2 + 2 * po * pi * z) / 4))) A := by
  have h2 : (pionData m c).mpi 2 = meanPion m := by simp [pionData]
  have hm : 0 < (pionData m c).mpi 2 := by rw [h2]; exact meanPion_pos m
  have hterm : ∀ t, (if A ∈ amplitudes t then
      loopProf r (pionData m c) t A (if m = .n2loopt ∨ m = .idaho then -Tz else 0) (transfer po pi z)
        (if t = .lrr then (po ^ 2 + pi ^ 2 + 2 * po * pi * z) / 4 else 0) else 0) =
      loopProf r (pionData m c) t A (if m = .n2loopt ∨ m = .idaho then -Tz else 0) (transfer po pi z) ((po ^ 2 + pi ^ 2 + 2 * po * pi * z) / 4) := by
    intro t
    by_cases hA : A ∈ amplitudes t
    · rw [if_pos hA]
      by_cases ht : t = .lrr
      · rw [if_pos ht]
      · exact loop_k2 _ _ _ _ _ _ _ _ ht
    · rw [if_neg hA, loop_zero _ _ _ _ _ _ _ hA]
  unfold strength
  simp only [hterm]
  clear hterm
  rw [← tpeOf_pionData (transfer po pi z) m c Tz hTz]
  generalize (po ^ 2 + pi ^ 2 + 2 * po * pi * z) / 4 = k2
  generalize transfer po pi z = q2 at *
  cases m
  case isN3LO =>
    have hr : (pionData .isN3LO c).rMode = 202 := rfl
    rw [← zLow_n3lo c] at hz ⊢
    simp only [twoPionTerms, List.map_cons, List.map_nil, List.sum_cons, List.sum_nil, twoPionOrder, class_l0 _ _ _ _ _ hm hq, class_ld _ _ _ _ _ hm hq,
      class_lr_202 _ _ _ _ _ hm hq hr, class_ldd _ _ _ _ _ hm hq, class_l2_sfr _ _ hm hq r _ _ 700 (show (pionData .isN3LO c).fpi ≠ 0 from pionDecay_ne .isN3LO) rfl rfl (hz rfl)]
    ring
  case n2loopt =>
    have hr : (pionData .n2loopt c).rMode = 201 := rfl
    simp only [twoPionTerms, List.map_cons, List.map_nil, List.sum_cons, List.sum_nil, twoPionOrder, class_l0 _ _ _ _ _ hm hq, class_ld _ _ _ _ _ hm hq,
      class_lr_201 _ _ _ _ _ hm hq hr]
    ring
  case idaho =>
    have hr : (pionData .idaho c).rMode = 201 := rfl
    have hs : (pionData .idaho c).sfr = none := rfl
    have hl : (pionData .idaho c).loopInt = false := rfl
    simp only [twoPionTerms, List.map_cons, List.map_nil, List.sum_cons, List.sum_nil, twoPionOrder, class_l0 _ _ _ _ _ hm hq, class_ld _ _ _ _ _ hm hq,
      class_lr_201 _ _ _ _ _ hm hq hr, class_ldd _ _ _ _ _ hm hq, class_ldr _ _ _ _ _ hm hq, class_lrr _ _ _ _ _ hm hq, class_l2 _ _ _ _ _ hm hq hs hl]
    ring
  all_goals simp only [twoPionTerms, List.map_cons, List.map_nil, List.sum_cons, List.sum_nil, twoPionOrder, class_l0 _ _ _ _ _ hm hq, class_ld _ _ _ _ _ hm hq]
  all_goals ring

end TicTac
end
