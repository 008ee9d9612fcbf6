import Verif.Props.Dispersion
/-! C100 (bounds), C104-C107: consequences for the loop functions of two-pion exchange. -/
noncomputable section
namespace TicTac
open Spec MeasureTheory Set Filter Topology

/-! ### Bounds and the limit of a large spectral cutoff -/

theorem transfer_pos (po pi z : ℝ) (hz : |z| < 1) (h : po ≠ 0 ∨ pi ≠ 0) : 0 < transfer po pi z := by
  obtain ⟨h1, h2⟩ := abs_lt.1 hz
  unfold transfer
  have e : po ^ 2 + pi ^ 2 - 2 * po * pi * z = (1 - z) / 2 * (po + pi) ^ 2 + (1 + z) / 2 * (po - pi) ^ 2 := by ring
  rw [e]
  by_cases c : po + pi = 0
  · have : po - pi ≠ 0 := by
      intro c'
      have a : po = 0 := by linarith
      have b : pi = 0 := by linarith
      rcases h with h | h
      · exact h a
      · exact h b
    have := sq_pos_of_pos (abs_pos.2 this)
    rw [sq_abs] at this
    have k : 0 ≤ (1 - z) / 2 * (po + pi) ^ 2 := mul_nonneg (by linarith) (sq_nonneg _)
    have k2 : 0 < (1 + z) / 2 * (po - pi) ^ 2 := mul_pos (by linarith) this
    linarith
  · have := sq_pos_of_pos (abs_pos.2 c)
    rw [sq_abs] at this
    have k : 0 ≤ (1 + z) / 2 * (po - pi) ^ 2 := mul_nonneg (by linarith) (sq_nonneg _)
    have k2 : 0 < (1 - z) / 2 * (po + pi) ^ 2 := mul_pos (by linarith) this
    linarith

section
variable (p : PionData) (q2 : ℝ) (hm : 0 < p.mpi 2) (hq2 : 0 < q2)
include hm hq2

theorem loopA_cut (Λ : ℝ) (h : 2 * p.mpi 2 < Λ) : loopA { p with sfr := some Λ } q2 = antiA (2 * p.mpi 2) (Real.sqrt q2) Λ / 2 := by
  have hq : 0 < Real.sqrt q2 := Real.sqrt_pos.2 hq2
  have hqq : Real.sqrt q2 ^ 2 = q2 := Real.sq_sqrt hq2.le
  unfold loopA antiA twompi
  dsimp only
  rw [if_neg (by linarith), hqq]
  field_simp

theorem loopA_uncut : loopA { p with sfr := none } q2 = Real.arctan (Real.sqrt q2 / (2 * p.mpi 2)) / Real.sqrt q2 / 2 := by
  unfold loopA twompi
  dsimp only
  field_simp

/-- C100 (3): without a cutoff `A` is positive; with a cutoff it is positive, smaller, and tends to the former as the cutoff grows. -/
theorem C100_A_cutoff :
    0 < loopA { p with sfr := none } q2 ∧
    (∀ Λ, 2 * p.mpi 2 < Λ → 0 < loopA { p with sfr := some Λ } q2 ∧ loopA { p with sfr := some Λ } q2 < loopA { p with sfr := none } q2) ∧
    Tendsto (fun Λ => loopA { p with sfr := some Λ } q2) atTop (𝓝 (loopA { p with sfr := none } q2)) := by
  have hq : 0 < Real.sqrt q2 := Real.sqrt_pos.2 hq2
  have ha : 0 < 2 * p.mpi 2 := by positivity
  have hlim : Tendsto (fun Λ => loopA { p with sfr := some Λ } q2) atTop (𝓝 (loopA { p with sfr := none } q2)) := by
    rw [loopA_uncut p q2 hm hq2]
    refine ((antiA_lim ha hq).div_const 2).congr' ?_
    filter_upwards [eventually_gt_atTop (2 * p.mpi 2)] with Λ h
    rw [loopA_cut p q2 hm hq2 Λ h]
  refine ⟨?_, fun Λ h => ?_, hlim⟩
  · rw [loopA_uncut p q2 hm hq2]
    have : 0 < Real.arctan (Real.sqrt q2 / (2 * p.mpi 2)) := Real.arctan_pos.2 (by positivity)
    positivity
  · rw [loopA_cut p q2 hm hq2 Λ h, loopA_uncut p q2 hm hq2]
    unfold antiA
    have hΛ : 0 < Λ := by linarith
    have h1 : 0 < Real.arctan (Real.sqrt q2 * (Λ - 2 * p.mpi 2) / (Real.sqrt q2 ^ 2 + Λ * (2 * p.mpi 2))) := by
      refine Real.arctan_pos.2 (div_pos (mul_pos hq (by linarith)) (by positivity))
    have h2 : Real.arctan (Real.sqrt q2 * (Λ - 2 * p.mpi 2) / (Real.sqrt q2 ^ 2 + Λ * (2 * p.mpi 2))) < Real.arctan (Real.sqrt q2 / (2 * p.mpi 2)) := by
      refine Real.arctan_strictMono ?_
      rw [div_lt_div_iff₀ (by positivity) ha]
      have : 0 < Real.sqrt q2 ^ 3 := by positivity
      have : 0 < Real.sqrt q2 * (2 * p.mpi 2) ^ 2 := by positivity
      nlinarith
    constructor
    · positivity
    · gcongr

omit hm in
theorem loopL_cut (Λ : ℝ) (h : 2 * p.mpi 2 < Λ) : loopL { p with sfr := some Λ } q2 = loopW p q2 ^ 2 * antiL (2 * p.mpi 2) (Real.sqrt q2) (loopW p q2) Λ := by
  have hq : 0 < Real.sqrt q2 := Real.sqrt_pos.2 hq2
  have hqq : Real.sqrt q2 ^ 2 = q2 := Real.sq_sqrt hq2.le
  have hw := loopW_pos p q2 hq2
  have e : loopW { p with sfr := some Λ } q2 = loopW p q2 := rfl
  unfold loopL antiL twompi fourmpi2 mpi2
  dsimp only
  rw [if_neg (by linarith), e, show Λ * Λ - 4 * (p.mpi 2 * p.mpi 2) = Λ ^ 2 - (2 * p.mpi 2) ^ 2 by ring]
  generalize loopW p q2 = w at *
  generalize Real.sqrt (Λ ^ 2 - (2 * p.mpi 2) ^ 2) = s at *
  generalize Real.sqrt q2 = q at *
  subst hqq
  rw [show (Λ * Λ * w * w + q ^ 2 * s * s + 2 * Λ * q * w * s) / (4 * (p.mpi 2 * p.mpi 2) * (Λ * Λ + q ^ 2)) =
    (Λ * w + q * s) ^ 2 / ((2 * p.mpi 2) ^ 2 * (Λ ^ 2 + q ^ 2)) by ring_nf]
  generalize Real.log _ = l
  field_simp

theorem loopL_uncut : loopL { p with sfr := none } q2 =
    loopW p q2 ^ 2 * (Real.log ((loopW p q2 + Real.sqrt q2) / (2 * p.mpi 2)) / (loopW p q2 * Real.sqrt q2)) := by
  have hw := loopW_pos p q2 hq2
  have hq : 0 < Real.sqrt q2 := Real.sqrt_pos.2 hq2
  have e : loopW { p with sfr := none } q2 = loopW p q2 := rfl
  unfold loopL twompi
  dsimp only
  rw [e]
  generalize loopW p q2 = w at *
  field_simp

/-- C100 (4): the same for `L`. -/
theorem C100_L_cutoff :
    0 < loopL { p with sfr := none } q2 ∧
    (∀ Λ, 2 * p.mpi 2 < Λ → 0 < loopL { p with sfr := some Λ } q2 ∧ loopL { p with sfr := some Λ } q2 < loopL { p with sfr := none } q2) ∧
    Tendsto (fun Λ => loopL { p with sfr := some Λ } q2) atTop (𝓝 (loopL { p with sfr := none } q2)) := by
  have hq : 0 < Real.sqrt q2 := Real.sqrt_pos.2 hq2
  have hqq : Real.sqrt q2 ^ 2 = q2 := Real.sq_sqrt hq2.le
  have ha : 0 < 2 * p.mpi 2 := by positivity
  have hw := loopW_pos p q2 hq2
  have hw2 : loopW p q2 ^ 2 = (2 * p.mpi 2) ^ 2 + Real.sqrt q2 ^ 2 := by rw [loopW_sq p q2 hq2, hqq]; ring
  have hww : 0 < loopW p q2 ^ 2 := by positivity
  have hlim : Tendsto (fun Λ => loopL { p with sfr := some Λ } q2) atTop (𝓝 (loopL { p with sfr := none } q2)) := by
    rw [loopL_uncut p q2 hm hq2]
    refine ((antiL_lim ha hq hw).const_mul (loopW p q2 ^ 2)).congr' ?_
    filter_upwards [eventually_gt_atTop (2 * p.mpi 2)] with Λ h
    rw [loopL_cut p q2 hq2 Λ h]
  have hmono : StrictMonoOn (antiL (2 * p.mpi 2) (Real.sqrt q2) (loopW p q2)) (Ici (2 * p.mpi 2)) := by
    refine strictMonoOn_of_deriv_pos (convex_Ici _) (antiL_cont ha hq hw) fun x hx => ?_
    rw [interior_Ici] at hx
    rw [(antiL_deriv ha hq hw hw2 hx).deriv]
    have : 0 < x ^ 2 - (2 * p.mpi 2) ^ 2 := by have : 2 * p.mpi 2 < x := hx; nlinarith
    have := Real.sqrt_pos.2 this
    positivity
  have hcut : ∀ Λ, 2 * p.mpi 2 < Λ → 0 < loopL { p with sfr := some Λ } q2 ∧ loopL { p with sfr := some Λ } q2 < loopL { p with sfr := none } q2 := by
    intro Λ h
    constructor
    · rw [loopL_cut p q2 hq2 Λ h]
      have := hmono self_mem_Ici h.le h
      rw [antiL_self ha hw2] at this
      positivity
    · have h1 : loopL { p with sfr := some Λ } q2 < loopL { p with sfr := some (Λ + 1) } q2 := by
        rw [loopL_cut p q2 hq2 Λ h, loopL_cut p q2 hq2 (Λ + 1) (by linarith)]
        have := hmono (mem_Ici.2 h.le) (mem_Ici.2 (by linarith : 2 * p.mpi 2 ≤ Λ + 1)) (by linarith : Λ < Λ + 1)
        gcongr
      refine lt_of_lt_of_le h1 (ge_of_tendsto hlim ?_)
      filter_upwards [eventually_ge_atTop (Λ + 1)] with M hM
      rw [loopL_cut p q2 hq2 M (by linarith), loopL_cut p q2 hq2 (Λ + 1) (by linarith)]
      have := hmono.monotoneOn (mem_Ici.2 (by linarith : 2 * p.mpi 2 ≤ Λ + 1)) (mem_Ici.2 (by linarith : 2 * p.mpi 2 ≤ M)) hM
      gcongr
  exact ⟨(hcut (2 * p.mpi 2 + 1) (by linarith)).1.trans (hcut (2 * p.mpi 2 + 1) (by linarith)).2, hcut, hlim⟩

end

/-! ### Definedness -/

/-- **C104.** At every point of an angular mesh inside `(-1, 1)` and for momenta that are not both zero, the operations in the loop functions are defined: the momentum
transfer and every denominator are positive, every logarithm has an argument above 1. -/
theorem C104_defined (p : PionData) (po pi z : ℝ) (hm : 0 < p.mpi 2) (hz : |z| < 1) (h : po ≠ 0 ∨ pi ≠ 0) :
    0 < transfer po pi z ∧ 0 < Real.sqrt (transfer po pi z) ∧ 0 < loopW p (transfer po pi z) ∧
    1 < (loopW p (transfer po pi z) + Real.sqrt (transfer po pi z)) / twompi p ∧
    (∀ Λ, twompi p < Λ → 0 < Λ * Λ - fourmpi2 p ∧ 0 < transfer po pi z + Λ * twompi p ∧
      1 < (Λ * Λ * loopW p (transfer po pi z) * loopW p (transfer po pi z) + transfer po pi z * Real.sqrt (Λ * Λ - fourmpi2 p) * Real.sqrt (Λ * Λ - fourmpi2 p)
        + 2 * Λ * Real.sqrt (transfer po pi z) * loopW p (transfer po pi z) * Real.sqrt (Λ * Λ - fourmpi2 p)) / (fourmpi2 p * (Λ * Λ + transfer po pi z))) ∧
    (∀ v, 0 < 4 * mpi2 p + v * transfer po pi z ∨ v < 0) := by
  have hq2 := transfer_pos po pi z hz h
  generalize transfer po pi z = q2 at *
  have hq : 0 < Real.sqrt q2 := Real.sqrt_pos.2 hq2
  have hqq : Real.sqrt q2 ^ 2 = q2 := Real.sq_sqrt hq2.le
  have hw := loopW_pos p q2 hq2
  have hw2 := loopW_sq p q2 hq2
  have hm2 : 0 < mpi2 p := mul_pos hm hm
  refine ⟨hq2, hq, hw, ?_, fun Λ hΛ => ?_, fun v => ?_⟩
  · unfold twompi
    rw [lt_div_iff₀ (by positivity)]
    nlinarith
  · unfold twompi at hΛ ⊢
    have hΛ0 : 0 < Λ := by linarith
    have h1 : 0 < Λ * Λ - fourmpi2 p := by unfold fourmpi2 mpi2; nlinarith
    have hs := Real.sqrt_pos.2 h1
    have hss := Real.sq_sqrt h1.le
    refine ⟨h1, by positivity, ?_⟩
    have hf : 0 < fourmpi2 p := by unfold fourmpi2; positivity
    rw [lt_div_iff₀ (by positivity)]
    have e4 : loopW p q2 ^ 2 = fourmpi2 p + q2 := by rw [hw2]; unfold fourmpi2 mpi2; ring
    generalize loopW p q2 = w at *
    generalize Real.sqrt (Λ * Λ - fourmpi2 p) = s at *
    generalize Real.sqrt q2 = q at *
    have a1 : Λ * Λ * w * w = Λ * Λ * (fourmpi2 p + q2) := by rw [← e4]; ring
    have a2 : q2 * s * s = q2 * (Λ * Λ - fourmpi2 p) := by rw [← hss]; ring
    rw [a1, a2]
    have a3 : 0 < 2 * Λ * q * w * s := by positivity
    have a4 : 0 < q2 * (Λ * Λ - fourmpi2 p) := by positivity
    nlinarith
  · by_cases hv : v < 0
    · exact Or.inr hv
    · exact Or.inl (by have := not_lt.1 hv; positivity)

/-! ### Transversality -/

/-- **C105.** In every class of two-pion exchange, for every setting and momentum transfer, the spin-spin amplitudes are `-q²` times the tensor amplitudes. -/
theorem C105_transverse (r : LoopRules) (p : PionData) (t : TwoPE) (im : Int) (q2 k2 : ℝ) :
    loopProf r p t .Vs im q2 k2 = -q2 * loopProf r p t .VT im q2 k2 ∧ loopProf r p t .Ws im q2 k2 = -q2 * loopProf r p t .WT im q2 k2 := by
  cases t
  case l2 =>
    simp only [loopProf, loopCall, twoLoopSFR, twoLoopDR]
    constructor <;> split_ifs <;> simp only [l2VsDRa, l2VsSFRa, l2Vsb, l2WsDR, l2WsSFR] <;> ring
  all_goals
    simp only [loopProf, loopCall, oneLoop, l0Vs, l0VT, ldWs, lrVs, lrWs, lddWs, ldrWs, lrrVs, lrrWs]
    constructor <;> first | rfl | (symm; simp; done) | ring | (simp; done)

/-- C105 (2): the same for the sum over the classes of a model. -/
theorem C105_strength (m : ChiralModel) (c : Constants) (r : LoopRules) (Tz : Int) (po pi z : ℝ) :
    strength m c (loopProf r) Tz po pi .Vs z = -transfer po pi z * strength m c (loopProf r) Tz po pi .VT z ∧
    strength m c (loopProf r) Tz po pi .Ws z = -transfer po pi z * strength m c (loopProf r) Tz po pi .WT z := by
  unfold strength
  simp only [← List.sum_map_mul_left]
  constructor <;>
  · refine congrArg List.sum (List.map_congr_left fun t _ => ?_)
    have h := C105_transverse r (pionData m c) t (if m = .n2loopt ∨ m = .idaho then -Tz else 0) (transfer po pi z)
      (if t = .lrr then (po ^ 2 + pi ^ 2 + 2 * po * pi * z) / 4 else 0)
    have hV : Amp.Vs ∈ amplitudes t ↔ Amp.VT ∈ amplitudes t := by cases t <;> decide
    have hW : Amp.Ws ∈ amplitudes t ↔ Amp.WT ∈ amplitudes t := by cases t <;> decide
    simp only [hV, hW]
    split
    all_goals first | exact h.1 | exact h.2 | (symm; exact mul_zero _)

/-! ### Versions of the relativistic corrections -/

/-- **C106.** The two versions of the `1/M` corrections differ by polynomials in `q²` only (which contact terms can absorb); the third is the second. -/
theorem C106_versions (r : LoopRules) (p : PionData) (im : Int) (q2 k2 : ℝ) (hm : 0 < p.mpi 2) (hq2 : 0 < q2) (A : Amp) :
    loopProf r { p with rMode := 204 } .lr A im q2 k2 = loopProf r { p with rMode := 202 } .lr A im q2 k2 ∧
    loopProf r { p with rMode := 202 } .lr A im q2 k2 - loopProf r { p with rMode := 201 } .lr A im q2 k2 =
      p.gA ^ 4 * p.mpi 2 / (512 * Real.pi * p.fpi ^ 4 * p.mnuc im) *
        (match A with
          | .Vc => 6 * (4 * p.mpi 2 ^ 2 + q2)
          | .Wc => -4 * (4 * p.mpi 2 ^ 2 + q2)
          | .VT => -3
          | .WT => 2
          | .Vs => 3 * q2
          | .Ws => -2 * q2
          | _ => 0) := by
  have h4 := class_lr_204 r { p with rMode := 204 } im q2 k2 hm hq2 rfl A
  have h2 := class_lr_202 r { p with rMode := 202 } im q2 k2 hm hq2 rfl A
  have h1 := class_lr_201 r { p with rMode := 201 } im q2 k2 hm hq2 rfl A
  have e4 : tpeOf { p with rMode := 204 } im q2 k2 = tpeOf p im q2 k2 := rfl
  have e2 : tpeOf { p with rMode := 202 } im q2 k2 = tpeOf p im q2 k2 := rfl
  have e1 : tpeOf { p with rMode := 201 } im q2 k2 = tpeOf p im q2 k2 := rfl
  rw [e4] at h4
  rw [e2] at h2
  rw [e1] at h1
  refine ⟨h4.trans h2.symm, ?_⟩
  rw [h2, h1]
  clear h1 h2 h4
  cases A <;> simp only [TPE.recoil, TPE.n2lo, TPE.iterated, withSpin, tpeOf, TPE.w2, TPE.wt2]
  all_goals
    generalize spectralA (p.mpi 2) p.sfr q2 = A
    generalize Real.pi = π
    have : 4 * p.mpi 2 ^ 2 + q2 ≠ 0 := by positivity
    field_simp
    ring

/-! ### Tables kept between calls -/

/-- The values without memory: those of the preset in force. -/
def freshHistory (prof : Profiles) : PionData → List LoopEvent → List ℝ
  | _, [] => []
  | _, .preset p :: es => freshHistory prof p es
  | p, .eval t a im q2 k2 :: es => prof p t a im q2 k2 :: freshHistory prof p es

/-- A memory that holds only tables of the present setting. -/
def LoopMem.Good (r : LoopRules) (p : PionData) (m : LoopMem) : Prop :=
  (m.vts = none ∨ m.vts = some (vtsTable r p)) ∧ (m.wcDR = none ∨ m.wcDR = some (wcDRTable r p)) ∧ (m.wcSFR = none ∨ m.wcSFR = some (wcSFRTable r p))

theorem use_good (r : LoopRules) (p : PionData) (m : LoopMem) (h : m.Good r p) :
    ((useVTS r p m).1 = vtsTable r p ∧ (useVTS r p m).2.Good r p) ∧ ((useWcDR r p m).1 = wcDRTable r p ∧ (useWcDR r p m).2.Good r p) ∧
    ((useWcSFR r p m).1 = wcSFRTable r p ∧ (useWcSFR r p m).2.Good r p) := by
  obtain ⟨v, d, s⟩ := m
  obtain ⟨h1, h2, h3⟩ := h
  simp only at h1 h2 h3
  refine ⟨?_, ?_, ?_⟩
  · rcases h1 with rfl | rfl <;> exact ⟨rfl, Or.inr rfl, h2, h3⟩
  · rcases h2 with rfl | rfl <;> exact ⟨rfl, h1, Or.inr rfl, h3⟩
  · rcases h3 with rfl | rfl <;> exact ⟨rfl, h1, h2, Or.inr rfl⟩

theorem empty_good (r : LoopRules) (p : PionData) : LoopMem.empty.Good r p := ⟨Or.inl rfl, Or.inl rfl, Or.inl rfl⟩

theorem loopCall_good (r : LoopRules) (p : PionData) (t : TwoPE) (a : Amp) (im : Int) (q2 k2 : ℝ) (m : LoopMem) (h : m.Good r p) :
    (loopCall r p t a im q2 k2 m).1 = loopProf r p t a im q2 k2 ∧ (loopCall r p t a im q2 k2 m).2.Good r p := by
  obtain ⟨⟨v1, v2⟩, ⟨d1, d2⟩, ⟨s1, s2⟩⟩ := use_good r p m h
  obtain ⟨⟨v1', _⟩, ⟨d1', _⟩, ⟨s1', _⟩⟩ := use_good r p LoopMem.empty (empty_good r p)
  cases t
  case l2 =>
    by_cases hs : p.sfr.isSome = true
    · simp only [loopProf, loopCall, if_pos hs]
      cases a <;> simp only [twoLoopSFR] <;> (try split_ifs) <;> simp only [v1, v1', s1, s1', true_and] <;> first | exact h | exact v2 | exact s2
    · simp only [loopProf, loopCall, if_neg hs]
      cases a <;> simp only [twoLoopDR] <;> (try split_ifs) <;> simp only [v1, v1', d1, d1', true_and] <;> first | exact h | exact v2 | exact d2
  all_goals exact ⟨rfl, h⟩

/-- **C107.** In every history of presets and evaluations each value is that of the preset in force, as if no table had been kept. -/
theorem C107_history (r : LoopRules) (p : PionData) (es : List LoopEvent) : loopHistory r p LoopMem.empty es = freshHistory (loopProf r) p es := by
  have key : ∀ (es : List LoopEvent) (p : PionData) (m : LoopMem), m.Good r p → loopHistory r p m es = freshHistory (loopProf r) p es := by
    intro es
    induction es with
    | nil => intro p m _; rfl
    | cons e es ih =>
      intro p m h
      cases e with
      | preset p' => exact ih p' _ (empty_good r p')
      | eval t a im q2 k2 =>
        obtain ⟨h1, h2⟩ := loopCall_good r p t a im q2 k2 m h
        simp only [loopHistory, freshHistory]
        rw [h1, ih p _ h2]
  exact key es p _ (empty_good r p)

end TicTac
end
