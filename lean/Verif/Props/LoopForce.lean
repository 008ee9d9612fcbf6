import Verif.Props.LoopFacts
import Verif.Props.CentralTail
import Verif.Props.LoopHelper
import Verif.Props.ChpMatrix
/-! C99 carried to the potential: the partial-wave elements of the program are projections of the published two-pion force; C102 for the momenta a run uses; examples
for C99-C107. -/
noncomputable section
namespace TicTac
open Spec MeasureTheory

/-- Two-pion exchange with published amplitudes; `two z` are the two-loop amplitudes of IS_N3LO at cosine `z`. -/
def publishedForce (m : ChiralModel) (c : Constants) (two : ℝ → Amp → ℝ) (T Tz : Int) (po pi : ℝ) : Force :=
  let F := fun (A : Amp) (z : ℝ) => twoPionOrder m (tpe m c Tz (transfer po pi z) ((po ^ 2 + pi ^ 2 + 2 * po * pi * z) / 4)) (two z) A
  { c := fun z => F .Vc z + tauTau T * F .Wc z
    s := fun z => F .Vs z + tauTau T * F .Ws z
    ls := fun z => F .VLS z + tauTau T * F .WLS z
    t := fun z => F .VT z + tauTau T * F .WT z
    sl := fun z => F .VsigL z }

/-- The two-loop amplitudes of IS_N3LO: published spectral functions integrated with the rules of the program. -/
def twoLoopSums (r : LoopRules) (m : ChiralModel) (c : Constants) (Tz : Int) (po pi z : ℝ) : Amp → ℝ :=
  dispersive r.x (r.z (2 * meanPion m / 700)) loopHelper (l2VcSFR r (pionData m c) (transfer po pi z))
    (tpe m c Tz (transfer po pi z) ((po ^ 2 + pi ^ 2 + 2 * po * pi * z) / 4))

/-- The partial-wave element with the published two-pion force. -/
def publishedElement (rule : List (ℝ × ℝ)) (dirs : ℝ → Vec × Vec) (r : LoopRules) (m : ChiralModel) (c : Constants) (S J Lo Li T Tz : Int) (po pi : ℝ) : ℝ :=
  minimalRelativity m Tz po pi / (2 * Real.pi) ^ 3 *
    (regulator m (onePionPower m) po pi * projected rule dirs (onePionForce m c T Tz po pi) po pi S J.toNat Lo Li
      + regulator m (twoPionPower m) po pi * projected rule dirs (publishedForce m c (twoLoopSums r m c Tz po pi) T Tz po pi) po pi S J.toNat Lo Li
      + contactForce m c Tz S J Lo Li po pi)

/-- The projection depends on the force at the points of the rule only. -/
theorem projected_congr (rule : List (ℝ × ℝ)) (dirs : ℝ → Vec × Vec) (hd : ∀ xw ∈ rule, Dirs xw.1 (dirs xw.1).1 (dirs xw.1).2) (F G : Force) (po pi : ℝ) (S : Int) (J : Nat)
    (Lo Li : Int) (h : ∀ xw ∈ rule, F.c xw.1 = G.c xw.1 ∧ F.s xw.1 = G.s xw.1 ∧ F.ls xw.1 = G.ls xw.1 ∧ F.t xw.1 = G.t xw.1 ∧ F.sl xw.1 = G.sl xw.1) :
    projected rule dirs F po pi S J Lo Li = projected rule dirs G po pi S J Lo Li := by
  unfold projected
  refine congrArg _ (congrArg List.sum (List.map_congr_left fun xw hx => ?_))
  obtain ⟨h1, h2, h3, h4, h5⟩ := h xw hx
  have e := (hd xw hx).uv
  unfold singletOp tripletOp
  dsimp only
  rw [e, h1, h2, h3, h4, h5]

/-- **C99 (potential).** For every chiral model, parameter line, partial wave and momenta not both zero, with an angular rule inside `(-1, 1)`, the potential the
program evaluates is the projection of one-pion exchange, the published two-pion exchange of that order and the contact terms. -/
theorem C99_potential (m : ChiralModel) (a : Nat → ℝ) (rule : List (ℝ × ℝ)) (hr : ∀ xw ∈ rule, |xw.1| < 1) (dirs : ℝ → Vec × Vec)
    (hd : ∀ xw ∈ rule, Dirs xw.1 (dirs xw.1).1 (dirs xw.1).2) (r : LoopRules)
    (hz : m = .isN3LO → ∀ zw ∈ r.z (2 * meanPion m / 700), 0 < zw.1 ∧ zw.1 < 1) (qi qo : ℝ) (S J Lo Li T Tz : Int) (hw : Waves S J Lo Li T)
    (hTz : |Tz| ≤ T) (hJ : J ≤ 38) (hqi : qi ≤ 2 * cutoff m) (hqo : qo ≤ 2 * cutoff m) (h0 : qo ≠ 0 ∨ qi ≠ 0) :
    ∃ V, chiralV rule (loopProf r) (preset m a) qi qo (decide (Lo ≠ J)) S J T Tz = some V ∧
      phase Lo Li * V (component S Lo Li J) = publishedElement rule dirs r m (constants a m) S J Lo Li T Tz qo qi := by
  obtain ⟨V, h1, h2⟩ := C93_partial_waves m a rule dirs hd (loopProf r) qi qo S J Lo Li T Tz hw hTz hJ hqi hqo
  refine ⟨V, h1, h2.trans ?_⟩
  have hz' : Tz = -1 ∨ Tz = 0 ∨ Tz = 1 := by
    have hT : T = 0 ∨ T = 1 := hw.pauli.1
    have := abs_le.1 hTz; omega
  unfold chiralElement publishedElement
  rw [projected_congr rule dirs hd (twoPionForce m (constants a m) (loopProf r) T Tz qo qi) (publishedForce m (constants a m) (twoLoopSums r m (constants a m) Tz qo qi) T Tz qo qi)]
  intro xw hx
  have key := fun A => C99_two_pion m (constants a m) r Tz hz' qo qi xw.1 (transfer_pos qo qi xw.1 (hr xw hx) h0) hz A
  unfold twoPionForce publishedForce twoLoopSums
  simp only [key, and_self]

/-- **C102 (momenta of a run).** For all momenta the potential lets through (up to twice the cutoff) and every angle the documented accuracy `2.6·10⁻¹⁰` holds in IS_N3LO. -/
theorem C102_momenta (c : Constants) (po pi z : ℝ) (ho : 0 ≤ po) (hi : 0 ≤ pi) (ho' : po ≤ 2 * cutoff .isN3LO) (hi' : pi ≤ 2 * cutoff .isN3LO) (hz : |z| < 1)
    (h0 : po ≠ 0 ∨ pi ≠ 0) :
    |vcTail (pionData .isN3LO c) (transfer po pi z) - ∫ x in (0.95 : ℝ)..1, centralLog (meanPion .isN3LO) (transfer po pi z) x| ≤
      2.6e-10 * ∫ x in (0.95 : ℝ)..1, centralLog (meanPion .isN3LO) (transfer po pi z) x := by
  have h2 : (pionData .isN3LO c).mpi 2 = meanPion .isN3LO := by simp [pionData]
  have h := C102_tail (pionData .isN3LO c) (transfer po pi z) (by rw [h2]; exact meanPion_pos _) (transfer_pos po pi z hz h0)
  rw [h2] at h
  refine h.2.2.1 ?_
  obtain ⟨z1, z2⟩ := abs_lt.1 hz
  have hm : (138 : ℝ) ≤ meanPion .isN3LO := by norm_num [meanPion, chargedPion, neutralPion]
  unfold cutoff at ho' hi'
  norm_num at ho' hi'
  have e : transfer po pi z ≤ (po + pi) ^ 2 := by
    unfold transfer; nlinarith [mul_nonneg ho hi]
  nlinarith

/-! ### The hypotheses are met -/

/-- One point in each mesh. -/
def oneRules : LoopRules := ⟨[(0.5, 1)], fun a => [((a + 1) / 2, 1 - a)], fun a => [((a + 0.95) / 2, 0.95 - a)]⟩

/-- C99-C107: IS_N3LO at `p' = 100`, `p = 200`, cosine `1/2` with one-point rules. -/
example (c : Constants) : 0 < transfer 100 200 0.5 ∧ (∀ zw ∈ oneRules.z (2 * meanPion .isN3LO / 700), 0 < zw.1 ∧ zw.1 < 1) ∧ 0 < (pionData .isN3LO c).mpi 2 ∧
    (pionData .isN3LO c).sfr = some 700 ∧ 2 * (pionData .isN3LO c).mpi 2 ≤ 700 ∧ (pionData .isN3LO c).loopInt = true ∧
    transfer 100 200 0.5 ≤ 396 * (pionData .isN3LO c).mpi 2 ^ 2 := by
  have h2 : (pionData .isN3LO c).mpi 2 = meanPion .isN3LO := by simp [pionData]
  refine ⟨by norm_num [transfer], ?_, by rw [h2]; exact meanPion_pos _, rfl, ?_, rfl, ?_⟩
  · intro zw h
    simp only [oneRules, List.mem_singleton] at h
    subst h
    norm_num [meanPion, chargedPion, neutralPion]
  · rw [h2]; norm_num [meanPion, chargedPion, neutralPion]
  · rw [h2]; norm_num [meanPion, chargedPion, neutralPion, transfer]

/-- C107: a history that switches between settings with different tables. -/
example (c c' : Constants) : loopHistory oneRules (pionData .isN3LO c) LoopMem.empty
    [.eval .l2 .Wc 0 100 0, .preset (pionData .isN3LO c'), .eval .l2 .Wc 0 100 0] =
    [loopProf oneRules (pionData .isN3LO c) .l2 .Wc 0 100 0, loopProf oneRules (pionData .isN3LO c') .l2 .Wc 0 100 0] := by
  rw [C107_history]; rfl

/-- The amplitudes are not all zero: next-to-leading order has a tensor force. -/
example (c : Constants) (hg : 0 < c.gA) (hL : 0 < spectralL (meanPion .isNLO) (some 700) (transfer 100 200 0.5)) :
    twoPionOrder .isNLO (tpe .isNLO c 0 (transfer 100 200 0.5) 0) (fun _ => 0) .VT < 0 := by
  simp only [twoPionOrder, TPE.nlo, withSpin, tpe, spectralCutoff]
  have : 0 < pionDecay .isNLO := by norm_num [pionDecay]
  have := Real.pi_pos
  have h : 0 < 3 * c.gA ^ 4 * spectralL (meanPion .isNLO) (some 700) (transfer 100 200 0.5) / (64 * Real.pi ^ 2 * pionDecay .isNLO ^ 4) := by positivity
  linarith

end TicTac
end
