import Verif.Props.FillP123
import Verif.Props.RunExample
/-! Non-vacuity of C85–C87: functions that satisfy GSL's contract, and a complete run with its own permutation matrix. -/
noncomputable section
namespace TicTac
open Spec Classical
namespace Example

/-- Every allowed coupling coefficient is 1. -/
def gsl : Gsl where
  threeJ j1 j2 j3 m1 m2 m3 := if Couples j1 j2 j3 ∧ m1 + m2 + m3 = 0 ∧ |m1| ≤ j1 ∧ |m2| ≤ j2 ∧ |m3| ≤ j3 then 1 else 0
  sixJ _ _ _ _ _ _ := 1
  nineJ a b c d e f h i j := if Couples a b c ∧ Couples d e f ∧ Couples h i j ∧ Couples a d h ∧ Couples b e i ∧ Couples c f j then 1 else 0
  sph _ _ _ := 1
  plmLen n := gslIdx n n + 1
  plmChunk _ _ _ := 1

theorem gsl_contract : GslContract gsl where
  threeJ_sel := by
    intro j1 j2 j3 m1 m2 m3 h
    by_contra hc
    exact h (if_neg hc)
  nineJ_sel := by
    intro a b c d e f h' i j h
    by_contra hc
    exact h (if_neg hc)
  plm_len := by
    intro n l m h1 h2
    show gslIdx l m < gslIdx n n + 1
    unfold gslIdx
    have : l * (l + 1) / 2 ≤ n * (n + 1) / 2 := Nat.div_le_div_right (Nat.mul_le_mul h2 (by omega))
    omega
  plm_chunk := fun _ _ _ _ _ _ => rfl

/-- Two points in x, one in φ. -/
def quad : Quad := { Nx := 2, x := fun k => if k = 0 then -1 / 2 else 1 / 2, wx := fun _ => 1, Nphi := 1, z := fun _ => 0, P := fun n x => if n = 1 then x else 1 }

def p123Env (states : List PWState) : P123Env where
  sixInit := fun _ => 7
  sixOrder := (sixjTuples (2 * lmaxOf states).toNat).reverse
  cgInit := fun _ => 7
  cgOrder := (cgTuples (2 * lmaxOf states)).reverse
  phiInit := fun _ => 7
  phiOrder := (phiWrites (input.grid.input quad)).reverse
  ovInit := fun _ => true
  ovOrder := (overlapWrites (input.grid.input quad)).reverse
  aJunk := fun _ => 7
  plm1Init := fun _ => 7
  plm2Init := fun _ => 7
  plm3Init := fun _ => 7
  gInit := fun _ => 7

theorem fill_hyps (states : List PWState) : FillHyps gsl input.grid quad (p123Env states) states where
  gsl := gsl_contract
  xIn := by intro k _; show -1 < (if k = 0 then (-1 / 2 : ℝ) else 1 / 2) ∧ (if k = 0 then (-1 / 2 : ℝ) else 1 / 2) < 1; split <;> norm_num
  zIn := by intro f _; show (-1 : ℝ) < 0 ∧ (0 : ℝ) < 1; norm_num
  qgrid := ⟨by simp [input, RunInput.grid], fun i _ => by simp [input, RunInput.grid]⟩
  pgrid := ⟨by simp [input, RunInput.grid, grid], fun i _ => by simp [input, RunInput.grid, grid]⟩
  phiOrder := List.reverse_perm _
  ovOrder := List.reverse_perm _
  sixOrder := List.reverse_perm _
  cgOrder := List.reverse_perm _

theorem fill_runs (states : List PWState) : ∃ P123 f, FillComputed gsl input.grid quad (p123Env states) states P123 f := by
  set c := p123Cfg gsl (input.grid.input quad) (p123Env states) states (channelTwoJ states) with hc
  obtain ⟨out, ho⟩ := C85_completes gsl (input.grid.input quad) (p123Env states) states (channelTwoJ states) 1 5 (fun _ _ => none) (fun _ => List.range 2)
    (((List.range 2).flatMap (rowElems c)).map fun e => (0, e)) (by
      show ((List.range 1).flatMap fun _ => List.range 2).Perm (List.range 2)
      simp) (by
      refine ⟨by intro ev hev; rw [List.mem_map] at hev; obtain ⟨e, -, rfl⟩ := hev; exact Nat.one_pos, ?_⟩
      intro t ht
      have : t = 0 := by omega
      subst this
      rw [List.filter_eq_self.2 (by intro a ha; rw [List.mem_map] at ha; obtain ⟨e, -, rfl⟩ := ha; simp), List.map_map]
      simp [hc])
  exact ⟨out, _, ho, storeP123_ok _ _ _⟩

theorem clebsch_zero {M L M' : Int} (hL : 0 ≤ L) : clebsch gsl 0 M' 0 M L (M + M') = if L = 0 ∧ M = 0 ∧ M' = 0 then 1 else 0 := by
  unfold clebsch gsl Couples
  dsimp only
  split_ifs with h h2 h2
  · obtain ⟨rfl, rfl, rfl⟩ := h2; simp [sgn]
  · exfalso; apply h2
    obtain ⟨h1, h3, h4, h5, -⟩ := h
    rw [abs_le] at h4 h5
    omega
  · exfalso; apply h; obtain ⟨rfl, rfl, rfl⟩ := h2; simp
  · simp

theorem geometric_value (s c x : ℝ) : geometric gsl deuteronState deuteronState s c x = -(8 * Real.pi ^ 2 * (36 * Real.sqrt (1 / (4 * Real.pi)))) := by
  have hrec : recoupling gsl deuteronState deuteronState 0 = -36 := by
    unfold recoupling deuteronState
    dsimp only
    rw [if_pos rfl, finsum_eq_single _ 1]
    · have : Real.sqrt 324 = 18 := by rw [show (324 : ℝ) = 18 ^ 2 by norm_num]; exact Real.sqrt_sq (by norm_num)
      norm_num [gsl, sgn, Couples]
      rw [this]; norm_num
    · intro n hn
      have : gsl.nineJ (2 * 0) (2 * 1) (2 * 1) (2 * 0) 1 1 (2 * ((0 : Nat) : Int)) n 1 = 0 := by
        apply if_neg
        rintro ⟨-, -, h, -⟩
        unfold Couples at h
        simp only [Nat.cast_zero, mul_zero] at h
        omega
      rw [this]; ring
  unfold geometric
  rw [finsum_eq_single _ 0]
  · rw [hrec, finsum_eq_single _ 0]
    · rw [finsum_eq_single _ 0]
      · have h := clebsch_zero (M := 0) (L := 0) (M' := 0) le_rfl
        norm_num at h
        unfold deuteronState
        dsimp only
        have hs : ∀ l m c, gsl.sph l m c = 1 := fun _ _ _ => rfl
        norm_num [h, harmonic, hs, sgn]
        ring
      · intro M hM
        have h := clebsch_zero (M := 0 - M) (L := 0) (M' := M) le_rfl
        rw [if_neg (by omega)] at h
        show clebsch gsl 0 M 0 (0 - M) ((0 : Nat) : Int) 0 * _ * _ = 0
        rw [show (0 : Int) - M + M = 0 by ring] at h
        rw [Nat.cast_zero, h]; ring
    · intro M hM
      have h := clebsch_zero (M := M) (L := 0) (M' := 0) le_rfl
      rw [if_neg (by omega), add_zero] at h
      show _ * clebsch gsl 0 0 0 M ((0 : Nat) : Int) M * _ * _ * _ = 0
      rw [Nat.cast_zero, h]; ring
  · intro L hL
    rw [show (∑ᶠ M : Int, Real.sqrt ((2 * (deuteronState.L : ℝ) + 1) / (4 * Real.pi)) * clebsch gsl deuteronState.L 0 deuteronState.l M L M * sgn M * harmonic gsl deuteronState.l M x *
      ∑ᶠ M' : Int, clebsch gsl deuteronState.L M' deuteronState.l (M - M') L M * harmonic gsl deuteronState.L M' (cosP s c x) * harmonic gsl deuteronState.l (M - M') (cosQ s c x)) = 0 from ?_, mul_zero]
    rw [← finsum_zero (α := Int) (M := ℝ)]
    congr 1
    funext M
    have h := clebsch_zero (M := M) (L := L) (M' := 0) (by omega)
    rw [if_neg (by omega), add_zero] at h
    show _ * clebsch gsl 0 0 0 M L M * _ * _ * _ = 0
    rw [h]; ring

theorem hyper_pos {s c x : ℝ} (hs : 0 < s) (hc : 0 < c) : 0 < ∫ k in hyperRange ⟨0, 1, 0, 1⟩ ⟨0, 1, 0, 1⟩ s c x, k := by
  have hP : 0 ≤ permP s c x := Real.sqrt_nonneg _
  have hQ : 0 ≤ permQ s c x := Real.sqrt_nonneg _
  set b := 1 / (s + c + permP s c x + permQ s c x) with hb
  have hd : 0 < s + c + permP s c x + permQ s c x := by linarith
  have hb0 : 0 < b := by positivity
  have hbm : b * (s + c + permP s c x + permQ s c x) = 1 := by rw [hb]; field_simp
  have hsub : Set.Icc 0 b ⊆ hyperRange ⟨0, 1, 0, 1⟩ ⟨0, 1, 0, 1⟩ s c x := by
    rintro k ⟨k0, kb⟩
    have e1 : k * (s + c + permP s c x + permQ s c x) ≤ 1 := by
      rw [← hbm]; exact mul_le_mul_of_nonneg_right kb hd.le
    have e2 := mul_nonneg k0 hs.le
    have e3 := mul_nonneg k0 hc.le
    have e4 := mul_nonneg k0 hP
    have e5 := mul_nonneg k0 hQ
    have e6 : k * s + k * c + k * permP s c x + k * permQ s c x ≤ 1 := by nlinarith
    exact ⟨⟨e2, by dsimp only; linarith⟩, ⟨e3, by dsimp only; linarith⟩, ⟨e4, by dsimp only; linarith⟩, ⟨e5, by dsimp only; linarith⟩⟩
  have hsup : hyperRange ⟨0, 1, 0, 1⟩ ⟨0, 1, 0, 1⟩ s c x ⊆ Set.Icc 0 (1 / s) := by
    rintro k ⟨⟨h1, h2⟩, -⟩
    dsimp only at h1 h2
    refine ⟨by by_contra hk; push Not at hk; nlinarith, ?_⟩
    rw [le_div_iff₀ hs]; exact h2
  have hmeas : MeasurableSet (hyperRange ⟨0, 1, 0, 1⟩ ⟨0, 1, 0, 1⟩ s c x) := by
    apply IsClosed.measurableSet
    unfold hyperRange
    simp only [Set.setOf_and]
    have : ∀ t : ℝ, IsClosed {k : ℝ | 0 ≤ k * t} ∧ IsClosed {k : ℝ | k * t ≤ 1} := fun t =>
      ⟨isClosed_le (by fun_prop) (by fun_prop), isClosed_le (by fun_prop) (by fun_prop)⟩
    exact ((this s).1.inter (this s).2).inter (((this c).1.inter (this c).2).inter (((this _).1.inter (this _).2).inter ((this _).1.inter (this _).2)))
  have hint : MeasureTheory.IntegrableOn (fun k : ℝ => k) (hyperRange ⟨0, 1, 0, 1⟩ ⟨0, 1, 0, 1⟩ s c x) :=
    (continuous_id.integrableOn_Icc).mono_set hsup
  have hle : ∫ k in Set.Icc 0 b, k ≤ ∫ k in hyperRange ⟨0, 1, 0, 1⟩ ⟨0, 1, 0, 1⟩ s c x, k := by
    apply MeasureTheory.setIntegral_mono_set hint
    · rw [Filter.EventuallyLE, MeasureTheory.ae_restrict_iff' hmeas]
      exact Filter.Eventually.of_forall fun k hk => (hsup hk).1
    · exact Filter.Eventually.of_forall hsub
  refine lt_of_lt_of_le ?_ hle
  rw [MeasureTheory.integral_Icc_eq_integral_Ioc, ← intervalIntegral.integral_of_le hb0.le, integral_id]
  nlinarith

/-- With these functions the element of P123 of the deuteron S wave between the first bins is negative, so the matrix is not zero. -/
theorem operator_nonzero (states : List PWState) (a : Fin states.length) (ha : states.get a = deuteronState) :
    gridOperator gsl input.grid quad states (a, ⟨0, by decide⟩, ⟨0, by show 0 < 3; decide⟩) (a, ⟨0, by decide⟩, ⟨0, by show 0 < 3; decide⟩) < 0 := by
  unfold gridOperator p123Operator p123Formula
  dsimp only
  rw [ha]
  have hcell : (⟨input.grid.p 0, input.grid.p (0 + 1), input.grid.q 0, input.grid.q (0 + 1)⟩ : Cell) = ⟨0, 1, 0, 1⟩ := by
    simp [input, RunInput.grid, grid]
  have hmesh : cellRule quad.P quad.Nphi quad.z ⟨0, 1, 0, 1⟩ = [(Real.pi / 4, Real.pi / 2)] := by
    show [((hyperAngle 0 1 + hyperAngle 1 0) / 2 + (hyperAngle 1 0 - hyperAngle 0 1) / 2 * 0,
      (hyperAngle 1 0 - hyperAngle 0 1) / 2 * (2 / ((1 - (0 : ℝ) ^ 2) * legendreSlope (fun n x => if n = 1 then x else 1) 1 0 ^ 2)))] = _
    unfold hyperAngle legendreSlope
    norm_num
    ring
  have hcell' := hcell
  simp only [hcell, hmesh, geometric_value]
  have hs : Real.sin (Real.pi / 4) = Real.sqrt 2 / 2 := Real.sin_pi_div_four
  have hc : Real.cos (Real.pi / 4) = Real.sqrt 2 / 2 := Real.cos_pi_div_four
  have hxs : (List.range quad.Nx).map (fun (k : Nat) => (quad.x k, quad.wx k)) = [((-1 / 2 : ℝ), (1 : ℝ)), ((1 / 2 : ℝ), (1 : ℝ))] := by
    show (List.range 2).map (fun (k : Nat) => ((if k = 0 then (-1 / 2 : ℝ) else 1 / 2), (1 : ℝ))) = _
    simp [List.range_succ]
  rw [hxs]
  simp only [List.map_cons, List.map_nil, List.sum_cons, List.sum_nil, add_zero, hs, hc]
  have h2 : 0 < Real.sqrt 2 / 2 := by positivity
  have hsq : Real.sqrt 2 / 2 * (Real.sqrt 2 / 2) = 1 / 2 := by
    have := Real.mul_self_sqrt (show (0 : ℝ) ≤ 2 by norm_num)
    nlinarith
  have hK : 0 < 8 * Real.pi ^ 2 * (36 * Real.sqrt (1 / (4 * Real.pi))) := by positivity
  have hterm : ∀ x : ℝ, -1 < x → x < 1 → 1 * (Real.pi / 2) * (Real.sqrt 2 / 2 * (Real.sqrt 2 / 2)) * -(8 * Real.pi ^ 2 * (36 * Real.sqrt (1 / (4 * Real.pi))))
      / (permP (Real.sqrt 2 / 2) (Real.sqrt 2 / 2) x * permQ (Real.sqrt 2 / 2) (Real.sqrt 2 / 2) x)
      * ∫ k in hyperRange ⟨0, 1, 0, 1⟩ ⟨0, 1, 0, 1⟩ (Real.sqrt 2 / 2) (Real.sqrt 2 / 2) x, k < 0 := by
    intro x x1 x2
    have hp : 0 < permP (Real.sqrt 2 / 2) (Real.sqrt 2 / 2) x := by
      unfold permP; apply Real.sqrt_pos.2
      have e : (3 / 4 * (Real.sqrt 2 / 2) * (Real.sqrt 2 / 2) * x : ℝ) = 3 / 8 * x := by rw [mul_assoc (3 / 4 : ℝ), hsq]; ring
      rw [e, pow_two, hsq]; linarith
    have hq : 0 < permQ (Real.sqrt 2 / 2) (Real.sqrt 2 / 2) x := by
      unfold permQ; apply Real.sqrt_pos.2
      rw [pow_two, hsq]; linarith
    have hi := hyper_pos (x := x) h2 h2
    have hpi := Real.pi_pos
    rw [hsq]
    have : 1 * (Real.pi / 2) * (1 / 2) * -(8 * Real.pi ^ 2 * (36 * Real.sqrt (1 / (4 * Real.pi)))) < 0 := by
      have : 0 < Real.pi / 2 * (1 / 2) * (8 * Real.pi ^ 2 * (36 * Real.sqrt (1 / (4 * Real.pi)))) := by positivity
      linarith
    exact mul_neg_of_neg_of_pos (div_neg_of_neg_of_pos this (mul_pos hp hq)) hi
  have t1 := hterm (-1 / 2) (by norm_num) (by norm_num)
  have t2 := hterm (1 / 2) (by norm_num) (by norm_num)
  apply div_neg_of_neg_of_pos
  · exact add_neg t1 t2
  · simp [input, RunInput.grid, grid]

/-- **Non-vacuity of C87.** A complete run that computes its own permutation matrix. -/
example : ∃ (env : RunEnv) (w : PWSpace) (s : RunSetup) (U UBU : Nat → Option ℂ) (P123 : List (Entry ℝ)), RunBase input env w 0 ∧
    P123Source true gsl input.grid quad (w.block 0) P123 ∧ RunChannel input env w 0 P123 s U UBU ∧ -(Mn + Mp) < s.swp.Eb ∧ s.os.Tlab ≠ [] ∧ P123 ≠ [] := by
  obtain ⟨w, hw, hmem⟩ := C01_basis_exact par par_valid
  obtain ⟨n1, n2⟩ := block_size hw
  have hch := (block_channel par_valid hw (show 0 < w.nChn by omega)).1
  obtain ⟨P123, f, hf⟩ := fill_runs (w.block 0)
  have hst := C87_computed (fill_hyps (w.block 0)) hch hf
  obtain ⟨env, s, U, UBU, H, hrun, h1, -, h3, -⟩ := example_run hw P123 (by
    intro e he
    obtain ⟨r, k, e1, e2⟩ := hst.1 e he
    have a1 := flat_lt r
    have a2 := flat_lt k
    rw [← e1, n2] at a1
    rw [← e2, n2] at a2
    exact ⟨a1, a2⟩)
  refine ⟨env, w, s, U, UBU, P123, H.toRunBase, ?_, hrun, h1, h3, ?_⟩
  · unfold P123Source
    rw [if_pos rfl]
    exact ⟨_, f, fill_hyps _, hf⟩
  · have hdm : deuteronState ∈ w.block 0 := (hch.2 _).2 ⟨deuteron_allowed, rfl, rfl⟩
    obtain ⟨a, ha⟩ := List.get_of_mem hdm
    have := operator_nonzero _ a ha
    rw [← hst.2] at this
    rintro rfl
    unfold sparseMatrix at this
    simp at this

/-- A second run that reads the file of the first. -/
example : ∃ (w : PWSpace) (P123 : List (Entry ℝ)), P123Source false gsl input.grid quad (w.block 0) P123 := by
  obtain ⟨w, hw, hmem⟩ := C01_basis_exact par par_valid
  obtain ⟨n1, n2⟩ := block_size hw
  have hch := (block_channel par_valid hw (show 0 < w.nChn by omega)).1
  have hne : w.block 0 ≠ [] := by intro h0; rw [h0] at n2; simp at n2
  obtain ⟨P123, f, hf⟩ := fill_runs (w.block 0)
  have hwf : (input.grid.key (w.block 0)).WF := ⟨by simp [WPGrid.key], by simp [WPGrid.key], hne⟩
  obtain ⟨f', hf', hr⟩ := C17_roundtrip (input.grid.key (w.block 0)) hwf (arraysOf P123) ⟨[], [], []⟩ (by simp [arraysOf]) (by simp [arraysOf])
  have : f' = f := by
    have h2 := hf.2
    rw [show (arraysOf P123).val.length = P123.length by simp [arraysOf], h2] at hf'
    cases hf'; rfl
  subst this
  refine ⟨w, P123, ?_⟩
  unfold P123Source
  rw [if_neg (by simp)]
  exact ⟨input.grid, _, _, par, _, _, P123, f', ⟨[], [], []⟩, fill_hyps _, hch, hne, hf, _, _, hr, (entries_arrays P123).symm⟩

end Example
end TicTac
end
