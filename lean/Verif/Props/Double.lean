import Verif.Lemmas.DoubleSub
/-! C128: rounding in the kinematic conversions. -/
noncomputable section
namespace TicTac
open Spec

section
variable {F : Fpu} (hF : IEEE F)

theorem rng_Mp : Rng 3 Mp := by unfold Rng Mp; constructor <;> norm_num
theorem rng_Mn : Rng 3 Mn := by unfold Rng Mn; constructor <;> norm_num
theorem dv_int (n p : Nat) (h : n < 2 ^ 53) (h1 : 1 ≤ n) (h2 : n ≤ 10 ^ p) : Dv 0 p (n : ℝ) n := by
  refine Dv.nat h ⟨?_, by exact_mod_cast h2⟩
  have a : (1 : ℝ) ≤ n := by exact_mod_cast h1
  have b : (1 : ℝ) ≤ 10 ^ p := one_le_pow₀ (by norm_num)
  rw [div_le_iff₀ (by positivity)]
  nlinarith

include hF in
theorem dv_Mp : Dv 1 3 F.Mp Mp := Dv.lit hF rng_Mp (by norm_num)
include hF in
theorem dv_Mn : Dv 1 3 F.Mn Mn := Dv.lit hF rng_Mn (by norm_num)
include hF in
theorem dv_sum : Dv 2 4 (F.add F.Mn F.Mp) (Mn + Mp) := Dv.add hF 1 3 (dv_Mn hF) (dv_Mp hF) (by norm_num) (by norm_num) (by norm_num) (by norm_num) (by norm_num) (by norm_num)

theorem md_range {Eb : ℝ} (h1 : -3 ≤ Eb) (h2 : Eb ≤ 0) : 1874 ≤ deuteronMass Eb ∧ deuteronMass Eb ≤ 1878 := by
  unfold deuteronMass Mn Mp
  constructor <;> norm_num <;> linarith

include hF in
theorem dv_Md {Eb : ℝ} (hd : IsDouble Eb) (h1 : -3 ≤ Eb) (h2 : Eb ≤ 0) : Dv 4 4 (F.deuteronMass Eb) (deuteronMass Eb) := by
  have hr := md_range h1 h2
  unfold Fpu.deuteronMass
  refine Dv.add_small hF (dv_sum hF) hd h2 (by norm_num) ?_ ?_ (by norm_num)
  · unfold Mn Mp; push_cast; norm_num; linarith
  · constructor
    · exact le_trans (by norm_num) hr.1
    · exact le_trans hr.2 (by norm_num)

include hF in
theorem dv_MN : Dv 4 5 F.MN MN := by
  unfold Fpu.MN MN
  have h5 : Dv 1 1 (F.lit 0.5) (0.5 : ℝ) := Dv.lit hF (by constructor <;> norm_num) (by norm_num)
  have hs : Dv 2 4 (F.add F.Mp F.Mn) (Mp + Mn) := Dv.add hF 1 3 (dv_Mp hF) (dv_Mn hF) (by norm_num) (by norm_num) (by norm_num) (by norm_num) (by norm_num) (by norm_num)
  exact Dv.mul hF h5 hs (by norm_num) (by norm_num)

include hF in
theorem dv_mu23 : Dv 6 10 F.mu23 mu23 := by
  unfold Fpu.mu23 mu23
  exact Dv.div hF (Dv.mul hF (dv_Mp hF) (dv_Mn hF) (by norm_num) (by norm_num)) (dv_sum hF) (by norm_num) (by norm_num)

/-- From roundings to a decimal bound. -/
theorem Dv.bound {k n : Nat} {x X : ℝ} (h : Dv k n x X) (hk : k ≤ 1000) {e : ℝ} (he : 1.001 * k * (1 / 2 ^ 53) ≤ e) : |x - X| ≤ e * X :=
  (h.2.1.rel hk).trans (mul_le_mul_of_nonneg_right he h.2.1.1.le)

include hF in
theorem dv_lab_to_com {T Eb : ℝ} (hT : IsDouble T) (hE : IsDouble Eb) (hTr : Rng 50 T) (h1 : -3 ≤ Eb) (h2 : Eb ≤ 0) :
    Dv 34 170 (F.labEnergyToComMomentum T Eb) (labEnergyToComMomentum T Eb) := by
  have md := dv_Md hF hE h1 h2
  have t := Dv.exact hT hTr
  have mp := dv_Mp hF
  have two : Dv 0 1 (2 : ℝ) 2 := by exact_mod_cast dv_int 2 1 (by norm_num) (by norm_num) (by norm_num)
  unfold Fpu.labEnergyToComMomentum labEnergyToComMomentum
  dsimp only
  have a := Dv.mul hF (Dv.mul hF md md (by norm_num) (by norm_num)) t (by norm_num) (by norm_num)
  have b := Dv.add hF 2 50 t (Dv.mul hF two mp (by norm_num) (by norm_num)) (by norm_num) (by norm_num) (by norm_num) (by norm_num) (by norm_num) (by norm_num)
  have n := Dv.mul hF a b (by norm_num) (by norm_num)
  have s := Dv.add hF 4 4 mp md (by norm_num) (by norm_num) (by norm_num) (by norm_num) (by norm_num) (by norm_num)
  have d1 := Dv.mul hF s s (by norm_num) (by norm_num)
  have d2 := Dv.mul hF (Dv.mul hF two t (by norm_num) (by norm_num)) md (by norm_num) (by norm_num)
  have d := Dv.add hF 11 55 d1 d2 (by norm_num) (by norm_num) (by norm_num) (by norm_num) (by norm_num) (by norm_num)
  have q := Dv.sqrt hF (Dv.div hF n d (by norm_num) (by norm_num)) (by norm_num) (by norm_num)
  exact ⟨q.1, q.2.1.mono (by norm_num), q.2.2.mono (by norm_num)⟩

/-- C128. `lab_energy_to_com_momentum` in double precision: relative error at most 4·10⁻¹⁵, for every lab energy and every binding energy between 0 and 3 MeV. -/
theorem C128_lab_to_com (T Eb : ℝ) (hT : IsDouble T) (hE : IsDouble Eb) (h1 : 1 / 10 ^ 50 ≤ T) (h2 : T ≤ 10 ^ 50) (h3 : -3 ≤ Eb) (h4 : Eb ≤ 0) (hF : IEEE F) :
    |F.labEnergyToComMomentum T Eb - labEnergyToComMomentum T Eb| ≤ 4 / 10 ^ 15 * labEnergyToComMomentum T Eb :=
  (dv_lab_to_com hF hT hE ⟨h1, h2⟩ h3 h4).bound (by norm_num) (by norm_num)

/-- C128. The conversions between c.m. energies and momenta: relative error at most 2·10⁻¹⁵. -/
theorem C128_energies (x : ℝ) (hx : IsDouble x) (h1 : 1 / 10 ^ 100 ≤ x) (h2 : x ≤ 10 ^ 100) (hF : IEEE F) :
    |F.comEnergyToComQ x - comEnergyToComQ x| ≤ 2 / 10 ^ 15 * comEnergyToComQ x ∧ |F.comQToComEnergy x - comQToComEnergy x| ≤ 2 / 10 ^ 15 * comQToComEnergy x ∧
    |F.comEnergyToComP x - comEnergyToComP x| ≤ 2 / 10 ^ 15 * comEnergyToComP x ∧ |F.comPToComEnergy x - comPToComEnergy x| ≤ 2 / 10 ^ 15 * comPToComEnergy x := by
  have t := Dv.exact hx (n := 100) ⟨h1, h2⟩
  have two : Dv 0 1 (2 : ℝ) 2 := by exact_mod_cast dv_int 2 1 (by norm_num) (by norm_num) (by norm_num)
  have three : Dv 0 1 (3 : ℝ) 3 := by exact_mod_cast dv_int 3 1 (by norm_num) (by norm_num) (by norm_num)
  have four : Dv 0 1 (4 : ℝ) 4 := by exact_mod_cast dv_int 4 1 (by norm_num) (by norm_num) (by norm_num)
  have mn := dv_MN hF
  have mu := dv_mu23 hF
  refine ⟨?_, ?_, ?_, ?_⟩
  · unfold Fpu.comEnergyToComQ comEnergyToComQ
    have := Dv.sqrt hF (Dv.div hF (Dv.mul hF (Dv.mul hF four t (by norm_num) (by norm_num)) mn (by norm_num) (by norm_num)) three (by norm_num) (by norm_num)) (by norm_num) (by norm_num)
    exact this.bound (by norm_num) (by norm_num)
  · unfold Fpu.comQToComEnergy comQToComEnergy
    have := Dv.div hF (Dv.mul hF (Dv.mul hF three t (by norm_num) (by norm_num)) t (by norm_num) (by norm_num)) (Dv.mul hF four mn (by norm_num) (by norm_num)) (by norm_num) (by norm_num)
    exact this.bound (by norm_num) (by norm_num)
  · unfold Fpu.comEnergyToComP comEnergyToComP
    have := Dv.sqrt hF (Dv.mul hF (Dv.mul hF two t (by norm_num) (by norm_num)) mu (by norm_num) (by norm_num)) (by norm_num) (by norm_num)
    exact this.bound (by norm_num) (by norm_num)
  · unfold Fpu.comPToComEnergy comPToComEnergy
    have := Dv.div hF (Dv.mul hF t t (by norm_num) (by norm_num)) (Dv.mul hF two mu (by norm_num) (by norm_num)) (by norm_num) (by norm_num)
    exact this.bound (by norm_num) (by norm_num)

/-- Rounding of a value of known size. -/
theorem rd_abs {v r K : ℝ} (h : Nearest v r) (hv : |v| ≤ K) (hK : K ≤ 10 ^ 220) : |r - v| ≤ ulpHalf * (K + 1 / 1000) := by
  have hu := u_pos
  have big : (10 : ℝ) ^ 220 ≤ 2 ^ 1023 := by
    have : (10 : ℝ) ^ 220 ≤ (2 ^ 4) ^ 220 := pow_le_pow_left₀ (by norm_num) (by norm_num) _
    refine this.trans ?_
    rw [← pow_mul]
    exact pow_le_pow_right₀ (by norm_num) (by norm_num)
  have tiny : (2 : ℝ) ^ (-1022 : ℤ) ≤ ulpHalf * (1 / 1000) := by
    have : (2 : ℝ) ^ (-1022 : ℤ) ≤ (2 : ℝ) ^ (-100 : ℤ) := zpow_le_zpow_right₀ (by norm_num) (by norm_num)
    refine this.trans ?_
    unfold ulpHalf
    norm_num
  have := nearest_abs h (hv.trans (hK.trans big))
  have h2 := mul_le_mul_of_nonneg_left hv hu.le
  generalize (2 : ℝ) ^ (-1022 : ℤ) = A at *
  linarith

/-- A value for which the contract applies. -/
theorem rd_range {v K : ℝ} (hv : |v| ≤ K) (hK : K ≤ 10 ^ 220) : |v| ≤ 2 ^ 1023 := by
  have : (10 : ℝ) ^ 220 ≤ (2 ^ 4) ^ 220 := pow_le_pow_left₀ (by norm_num) (by norm_num) _
  refine hv.trans (hK.trans (this.trans ?_))
  rw [← pow_mul]
  exact pow_le_pow_right₀ (by norm_num) (by norm_num)

/-- The square root of a value known up to an absolute error. -/
theorem sqrt_abs {s S m e : ℝ} (hs : 0 ≤ s) (hm : 0 < m) (hS : m ^ 2 ≤ S) (h : |s - S| ≤ e) : |Real.sqrt s - Real.sqrt S| ≤ e / m := by
  have hS0 : 0 ≤ S := le_trans (sq_nonneg m) hS
  have h1 : m ≤ Real.sqrt S := Real.le_sqrt_of_sq_le hS
  have h2 := Real.sqrt_nonneg s
  rw [le_div_iff₀ hm]
  refine le_trans ?_ h
  have : s - S = (Real.sqrt s - Real.sqrt S) * (Real.sqrt s + Real.sqrt S) := by
    have a := Real.mul_self_sqrt hs
    have b := Real.mul_self_sqrt hS0
    nlinarith
  rw [this, abs_mul]
  refine mul_le_mul_of_nonneg_left ?_ (abs_nonneg _)
  rw [abs_of_nonneg (by linarith)]
  linarith

/-- Size of the exact radicand. -/
theorem com_to_lab_exact {q Eb : ℝ} (hq : 0 < q) (h1 : -3 ≤ Eb) (h2 : Eb ≤ 0) :
    4 * (q * q * (Mp + deuteronMass Eb) * (Mp + deuteronMass Eb) / (deuteronMass Eb * deuteronMass Eb)) ≤ 4.7 * (Mp + q * q / deuteronMass Eb) ^ 2 ∧
    (2 * (Mp + q * q / deuteronMass Eb)) ^ 2 ≤ 2 * (Mp - q * q / deuteronMass Eb) * (2 * (Mp - q * q / deuteronMass Eb)) +
      4 * (q * q * (Mp + deuteronMass Eb) * (Mp + deuteronMass Eb) / (deuteronMass Eb * deuteronMass Eb)) := by
  have hm := md_range h1 h2
  have hp : (938.272 : ℝ) = Mp := rfl
  generalize deuteronMass Eb = M at hm ⊢
  have hM : 0 < M := by linarith
  have hp0 : 0 < Mp := by rw [← hp]; norm_num
  obtain ⟨t, ht⟩ : ∃ t, t = q * q / M := ⟨_, rfl⟩
  have ht0 : 0 < t := by rw [ht]; positivity
  have e : q * q * (Mp + M) * (Mp + M) / (M * M) = t * ((Mp + M) * (Mp + M) / M) := by rw [ht]; field_simp
  rw [e, ← ht]
  have w1 : (Mp + M) * (Mp + M) / M ≤ 4.52 * Mp := by
    rw [div_le_iff₀ hM, ← hp]; norm_num; nlinarith
  have w2 : 4 * Mp ≤ (Mp + M) * (Mp + M) / M := by
    rw [le_div_iff₀ hM]; nlinarith [sq_nonneg (Mp - M)]
  generalize (Mp + M) * (Mp + M) / M = w at *
  have a1 : t * w ≤ t * (4.52 * Mp) := mul_le_mul_of_nonneg_left w1 ht0.le
  have a2 : t * (4 * Mp) ≤ t * w := mul_le_mul_of_nonneg_left w2 ht0.le
  constructor
  · norm_num at *; nlinarith [sq_nonneg (Mp - t)]
  · nlinarith

set_option maxHeartbeats 3200000 in
theorem com_to_lab_double (q Eb : ℝ) (hq : IsDouble q) (hE : IsDouble Eb) (h1 : 1 / 10 ^ 50 ≤ q) (h2 : q ≤ 10 ^ 50) (h3 : -3 ≤ Eb) (h4 : Eb ≤ 0) (hF : IEEE F) :
    IsDouble (F.comMomentumToLabEnergy q Eb) ∧ |F.comMomentumToLabEnergy q Eb - comMomentumToLabEnergy q Eb| ≤ 1 / 10 ^ 14 * (Mp + q * q / deuteronMass Eb) := by
  have hq0 : 0 < q := lt_of_lt_of_le (by positivity) h1
  have hx := com_to_lab_exact hq0 h3 h4
  have mdr := md_range h3 h4
  have md := dv_Md hF hE h3 h4
  have mp := dv_Mp hF
  have t : Dv 0 50 q q := Dv.exact hq ⟨h1, h2⟩
  have tn : Dv 0 50 (-(-q)) q := by rw [neg_neg]; exact t
  have two : IsDouble 2 := by simpa using double_nat 2 (by norm_num)
  have four : Dv 0 1 (4 : ℝ) 4 := by exact_mod_cast dv_int 4 1 (by norm_num) (by norm_num) (by norm_num)
  have hp : (938.272 : ℝ) = Mp := rfl
  unfold Fpu.comMomentumToLabEnergy comMomentumToLabEnergy
  dsimp only
  have qq := Dv.div hF (Dv.mul hF t t (by norm_num) (by norm_num)) md (by norm_num) (by norm_num)
  have s := Dv.add hF 4 4 mp md (by norm_num) (by norm_num) (by norm_num) (by norm_num) (by norm_num) (by norm_num)
  have c := Dv.neg_mul hF four (Dv.div_neg hF (Dv.mul_neg hF (Dv.mul_neg hF (Dv.mul_neg hF tn t (by norm_num) (by norm_num)) s (by norm_num) (by norm_num)) s (by norm_num) (by norm_num)) (Dv.mul hF md md (by norm_num) (by norm_num)) (by norm_num) (by norm_num)) (by norm_num) (by norm_num)
  have hC : (2 * (Mp - q * q / deuteronMass Eb)) * (2 * (Mp - q * q / deuteronMass Eb)) - 4 * (-q * q * (Mp + deuteronMass Eb) * (Mp + deuteronMass Eb) / (deuteronMass Eb * deuteronMass Eb))
      = 2 * (Mp - q * q / deuteronMass Eb) * (2 * (Mp - q * q / deuteronMass Eb)) + 4 * (q * q * (Mp + deuteronMass Eb) * (Mp + deuteronMass Eb) / (deuteronMass Eb * deuteronMass Eb)) := by ring
  rw [hC]
  have hRbig : Mp + q * q / deuteronMass Eb ≤ 10 ^ 100 := by
    have a1 : q * q ≤ 10 ^ 50 * 10 ^ 50 := mul_le_mul h2 h2 hq0.le (by positivity)
    have a2 : q * q / deuteronMass Eb ≤ 10 ^ 50 * 10 ^ 50 / 1874 := by gcongr; exact mdr.1
    rw [← hp]
    norm_num at a2 ⊢
    linarith
  -- names
  have ec := c.2.1.rel (by norm_num)
  have c1 := c.1
  have c0 := c.2.1.pos
  have C0 := c.2.1.1
  have em := mp.2.1.rel (by norm_num)
  have et := qq.2.1.rel (by norm_num)
  have dm := mp.1
  have dt := qq.1
  have t0 := qq.2.1.1
  have tp := qq.2.1.pos
  have mp0 := mp.2.1.pos
  generalize F.mul 4 (F.div (F.mul (F.mul (F.mul (-q) q) (F.add F.Mp (F.deuteronMass Eb))) (F.add F.Mp (F.deuteronMass Eb))) (F.mul (F.deuteronMass Eb) (F.deuteronMass Eb))) = c4 at *
  generalize 4 * (q * q * (Mp + deuteronMass Eb) * (Mp + deuteronMass Eb) / (deuteronMass Eb * deuteronMass Eb)) = C4 at *
  generalize F.div (F.mul q q) (F.deuteronMass Eb) = tt at *
  generalize q * q / deuteronMass Eb = T at *
  generalize F.Mp = m at *
  clear s c qq md t tn four mp hC
  have hMp : 938 ≤ Mp := by rw [← hp]; norm_num
  have hu := u_pos
  have hus := u_small
  obtain ⟨R, hR⟩ : ∃ R, R = Mp + T := ⟨_, rfl⟩
  rw [← hR] at hx hRbig ⊢
  have hR1 : 938 ≤ R := by linarith
  have huR : ulpHalf * R ≤ R * (1 / 10 ^ 15) := by rw [mul_comm]; exact mul_le_mul_of_nonneg_left hus (by linarith)
  have hu1 : ulpHalf ≤ ulpHalf * R * (1 / 900) := by
    have : 1 ≤ R * (1 / 900) := by linarith
    have := mul_le_mul_of_nonneg_left this hu.le
    linarith
  have hR2 : R ≤ R * R := by nlinarith
  have hRR : R * R ≤ 10 ^ 200 := by
    calc R * R ≤ 10 ^ 100 * 10 ^ 100 := mul_le_mul hRbig hRbig (by linarith) (by positivity)
      _ = 10 ^ 200 := by rw [← pow_add]
  have e220 : (10 : ℝ) ^ 220 = 10 ^ 20 * 10 ^ 200 := by rw [← pow_add]
  have big : ∀ x : ℝ, x ≤ 10 ^ 10 * (R * R) → x ≤ 10 ^ 220 := by
    intro x hx
    rw [e220]
    have hp' : (0 : ℝ) < 10 ^ 200 := by positivity
    generalize (10 : ℝ) ^ 200 = z at *
    norm_num at *
    linarith
  have uR0 : 0 ≤ ulpHalf * R := by positivity
  have uRR : ulpHalf * (R * R) ≤ R * R * (1 / 10 ^ 15) := by rw [mul_comm]; exact mul_le_mul_of_nonneg_left hus (by nlinarith)
  push_cast at em et
  have um : ulpHalf * Mp ≤ ulpHalf * R := mul_le_mul_of_nonneg_left (by linarith) hu.le
  have uT : ulpHalf * T ≤ ulpHalf * R := mul_le_mul_of_nonneg_left (by linarith) hu.le
  have emt : ulpHalf * Mp + ulpHalf * T = ulpHalf * R := by rw [hR]; ring
  have uT0 : 0 ≤ ulpHalf * T := by positivity
  have um0 : 0 ≤ ulpHalf * Mp := by positivity
  have em' : |m - Mp| ≤ 1.001 * (ulpHalf * Mp) := by refine em.trans (le_of_eq (by ring))
  have et' : |tt - T| ≤ 6.006 * (ulpHalf * T) := by refine et.trans (le_of_eq (by ring))
  have em2 := abs_le.1 em'
  have et2 := abs_le.1 et'
  -- difference
  have v1 : |m - tt| ≤ 1.001 * R := by rw [abs_le]; constructor <;> norm_num at * <;> linarith
  have n1 := hF.sub m tt dm dt (rd_range v1 (big _ (by norm_num at *; linarith)))
  have r1 := abs_le.1 (rd_abs n1 v1 (big _ (by norm_num at *; linarith)))
  generalize F.sub m tt = s at *
  have es : |s - (Mp - T)| ≤ 7.1 * (ulpHalf * R) := by rw [abs_le]; constructor <;> norm_num at * <;> linarith [r1.1, r1.2]
  have es2 := abs_le.1 es
  -- twice
  have v2 : |2 * s| ≤ 2.001 * R := by rw [abs_le]; constructor <;> norm_num at * <;> linarith
  have n2 := hF.mul 2 s two n1.1 (rd_range v2 (big _ (by norm_num at *; linarith)))
  have r2 := abs_le.1 (rd_abs n2 v2 (big _ (by norm_num at *; linarith)))
  generalize F.mul 2 s = b at *
  obtain ⟨B, hB⟩ : ∃ B, B = 2 * (Mp - T) := ⟨_, rfl⟩
  rw [← hB] at hx ⊢
  have eb : |b - B| ≤ 16.3 * (ulpHalf * R) := by rw [abs_le]; constructor <;> norm_num at * <;> linarith [r2.1, r2.2]
  have eb2 := abs_le.1 eb
  have hBR : |B| ≤ 2 * R := by rw [abs_le]; constructor <;> linarith
  have hbR : |b| ≤ 2.001 * R := by
    have := abs_le.1 hBR
    rw [abs_le]; constructor <;> norm_num at * <;> linarith
  -- square
  have v3 : |b * b| ≤ 4.01 * (R * R) := by
    rw [abs_mul]
    calc |b| * |b| ≤ (2.001 * R) * (2.001 * R) := mul_le_mul hbR hbR (abs_nonneg _) (by positivity)
      _ ≤ 4.01 * (R * R) := by
        have : 0 < R * R := by positivity
        norm_num; linarith
  have n3 := hF.mul b b n2.1 n2.1 (rd_range v3 (big _ (by norm_num at *; linarith)))
  have r3 := abs_le.1 (rd_abs n3 v3 (big _ (by norm_num at *; linarith)))
  have ebb : |b * b - B * B| ≤ 65.3 * (ulpHalf * (R * R)) := by
    have : b * b - B * B = (b - B) * (b + B) := by ring
    rw [this, abs_mul]
    have h5 : |b + B| ≤ 4.001 * R := (abs_add_le b B).trans (by norm_num at *; linarith)
    calc |b - B| * |b + B| ≤ 16.3 * (ulpHalf * R) * (4.001 * R) := mul_le_mul eb h5 (abs_nonneg _) (by positivity)
      _ ≤ _ := by
        have : 0 ≤ ulpHalf * (R * R) := by positivity
        norm_num; nlinarith
  have ebb2 := abs_le.1 ebb
  generalize F.mul b b = bb at *
  have uRR0 : 0 ≤ ulpHalf * (R * R) := by positivity
  have hu2 : ulpHalf ≤ ulpHalf * (R * R) * (1 / 900) := hu1.trans (by
    have := mul_le_mul_of_nonneg_left hR2 hu.le
    linarith)
  have ebbB : |bb - B * B| ≤ 69.4 * (ulpHalf * (R * R)) := by rw [abs_le]; constructor <;> norm_num at * <;> linarith [r3.1, r3.2]
  have ebbB2 := abs_le.1 ebbB
  -- c
  have hC4 : C4 ≤ 4.7 * (R * R) := by rw [← sq]; exact hx.1
  have ec' : |-c4 - C4| ≤ 113 * (ulpHalf * (R * R)) := by
    refine ec.trans ?_
    push_cast
    have := mul_le_mul_of_nonneg_left hC4 (show (0 : ℝ) ≤ ulpHalf * 24.03 by positivity)
    norm_num at *
    linarith
  have ec2 := abs_le.1 ec'
  have hBB : B * B ≤ 4 * (R * R) := by
    have := mul_le_mul hBR hBR (abs_nonneg _) (by positivity)
    rw [abs_mul_abs_self] at this
    linarith
  have hBB0 : 0 ≤ B * B := mul_self_nonneg B
  have dc : IsDouble c4 := by simpa using isDouble_neg c1
  have v4 : |bb - c4| ≤ 8.8 * (R * R) := by rw [abs_le]; constructor <;> norm_num at * <;> linarith
  have n4 := hF.sub bb c4 n3.1 dc (rd_range v4 (big _ (by norm_num at *; linarith)))
  have r4 := abs_le.1 (rd_abs n4 v4 (big _ (by norm_num at *; linarith)))
  generalize F.sub bb c4 = S at *
  have eS : |S - (B * B + C4)| ≤ 192 * (ulpHalf * (R * R)) := by rw [abs_le]; constructor <;> norm_num at * <;> linarith [r4.1, r4.2]
  have eS2 := abs_le.1 eS
  have hlow : (2 * R) ^ 2 ≤ B * B + C4 := hx.2
  have hS0 : 0 ≤ S := by
    have : (2 * R) ^ 2 = 4 * (R * R) := by ring
    norm_num at *; linarith
  have e5 := sqrt_abs hS0 (by linarith) hlow eS
  have e5' : 192 * (ulpHalf * (R * R)) / (2 * R) = 96 * (ulpHalf * R) := by field_simp; norm_num
  rw [e5'] at e5
  have e52 := abs_le.1 e5
  have hDup : Real.sqrt (B * B + C4) ≤ 3 * R := by
    rw [Real.sqrt_le_left (by linarith)]
    have : (3 * R) ^ 2 = 9 * (R * R) := by ring
    norm_num at *; linarith
  have hD0 := Real.sqrt_nonneg (B * B + C4)
  have v5 : |Real.sqrt S| ≤ 3.01 * R := by
    rw [abs_of_nonneg (Real.sqrt_nonneg _)]
    norm_num at *; linarith
  have n5 := hF.sqrt S n4.1 hS0
  have r5 := abs_le.1 (rd_abs n5 v5 (big _ (by norm_num at *; linarith)))
  generalize F.sqrt S = d at *
  generalize Real.sqrt (B * B + C4) = D at *
  generalize Real.sqrt S = D' at *
  have ed : |d - D| ≤ 99.2 * (ulpHalf * R) := by rw [abs_le]; constructor <;> norm_num at * <;> linarith [r5.1, r5.2]
  have ed2 := abs_le.1 ed
  have hB2 := abs_le.1 hBR
  -- sum
  have v6 : |-b + d| ≤ 5.02 * R := by rw [abs_le]; constructor <;> norm_num at * <;> linarith
  have n6 := hF.add (-b) d (isDouble_neg n2.1) n5.1 (rd_range v6 (big _ (by norm_num at *; linarith)))
  have r6 := abs_le.1 (rd_abs n6 v6 (big _ (by norm_num at *; linarith)))
  generalize F.add (-b) d = w at *
  have ew : |w - (-B + D)| ≤ 121 * (ulpHalf * R) := by rw [abs_le]; constructor <;> norm_num at * <;> linarith [r6.1, r6.2]
  have ew2 := abs_le.1 ew
  have hl : F.lit 0.5 = 0.5 := nearest_eq (hF.lit 0.5 (by rw [abs_of_pos (by norm_num)]; exact le_trans (by norm_num) (one_le_pow₀ (by norm_num)))) double_half
  rw [hl]
  have v7 : |0.5 * w| ≤ 2.52 * R := by rw [abs_le]; constructor <;> norm_num at * <;> linarith
  have n7 := hF.mul 0.5 w double_half n6.1 (rd_range v7 (big _ (by norm_num at *; linarith)))
  have r7 := abs_le.1 (rd_abs n7 v7 (big _ (by norm_num at *; linarith)))
  generalize F.mul 0.5 w = z at *
  refine ⟨n7.1, ?_⟩
  have fin : 64 * (ulpHalf * R) ≤ 1 / 10 ^ 14 * R := by
    have : ulpHalf * 64 ≤ 1 / 10 ^ 14 := by unfold ulpHalf; norm_num
    have := mul_le_mul_of_nonneg_right this (show 0 ≤ R by linarith)
    linarith
  have : |z - 0.5 * (-B + D)| ≤ 64 * (ulpHalf * R) := by rw [abs_le]; constructor <;> norm_num at * <;> linarith [r7.1, r7.2]
  exact this.trans fin

/-- C128. `com_momentum_to_lab_energy` in double precision: absolute error at most 10⁻¹⁴ (m_p + q²/m_d), so at most 2·10⁻¹¹ MeV for momenta up to 1300 MeV (the two terms of the root
formula cancel for small momenta, so the error does not shrink with the energy). -/
theorem C128_com_to_lab (q Eb : ℝ) (hq : IsDouble q) (hE : IsDouble Eb) (h1 : 1 / 10 ^ 50 ≤ q) (h2 : q ≤ 10 ^ 50) (h3 : -3 ≤ Eb) (h4 : Eb ≤ 0) (hF : IEEE F) :
    |F.comMomentumToLabEnergy q Eb - comMomentumToLabEnergy q Eb| ≤ 1 / 10 ^ 14 * (Mp + q ^ 2 / deuteronMass Eb) := by
  rw [sq]; exact (com_to_lab_double q Eb hq hE h1 h2 h3 h4 hF).2

end
end TicTac
end
