import Verif.Lemmas.ChpPoint
import Verif.Spec.ChiralForce
import Verif.Props.Potential
/-! The chiral potentials: C93. -/
noncomputable section
namespace TicTac
open Matrix Polynomial Spec

section
variable (rule : List (ℝ × ℝ)) (hr : ∀ xw ∈ rule, |xw.1| ≤ 1) (prof : Profiles) (s : ChpSet) (S T tz : Int) (J : Nat) (hJ : J ≤ 38) (coup : Bool) (pp p : ℝ)

/-- The one-pion force as the code has it. -/
def modelOne : Force where
  c := fun _ => 0
  s := fun _ => 0
  ls := fun _ => 0
  sl := fun _ => 0
  t := fun z => onePionWT s ⟨S, J, T, tz, coup⟩ (pp * pp + p * p - 2 * p * pp * z)
    (if s.relcorr then 1 - (pp * pp + p * p) / (2 * s.pion.mnuc 0 ^ 2) else 1)

/-- The two-pion force as the code has it. -/
def modelTwo : Force where
  c := fun z => twoPionAmp prof s ⟨S, J, T, tz, coup⟩ pp p .Vc z + twoPionAmp prof s ⟨S, J, T, tz, coup⟩ pp p .Wc z
  s := fun z => twoPionAmp prof s ⟨S, J, T, tz, coup⟩ pp p .Vs z + twoPionAmp prof s ⟨S, J, T, tz, coup⟩ pp p .Ws z
  ls := fun z => twoPionAmp prof s ⟨S, J, T, tz, coup⟩ pp p .VLS z + twoPionAmp prof s ⟨S, J, T, tz, coup⟩ pp p .WLS z
  t := fun z => twoPionAmp prof s ⟨S, J, T, tz, coup⟩ pp p .VT z + twoPionAmp prof s ⟨S, J, T, tz, coup⟩ pp p .WT z
  sl := fun z => twoPionAmp prof s ⟨S, J, T, tz, coup⟩ pp p .VsigL z

theorem amp_zero (a : Amp) (h : s.loops.any (hasAmp · a) = false) (c : Chn) (z : ℝ) : twoPionAmp prof s c pp p a z = 0 := by
  unfold twoPionAmp
  dsimp only
  apply List.sum_eq_zero
  intro x hx
  obtain ⟨t, ht, rfl⟩ := List.mem_map.1 hx
  have := List.any_eq_false.1 h t ht
  rw [if_neg this]

theorem projectIf_eq (a : Amp) (f : Six → Option Six) (g : ℝ → Six) (c : Chn) (POT : Six)
    (hf : ∀ POT, f POT = some (POT + fun k => ang rule fun z => twoPionAmp prof s c pp p a z * g z k)) :
    projectIf s a f POT = some (POT + fun k => ang rule fun z => twoPionAmp prof s c pp p a z * g z k) := by
  unfold projectIf
  split_ifs with h
  · exact hf POT
  · simp only [amp_zero prof s pp p a (by simpa using h), zero_mul, ang_zero]
    congr 1; funext k; simp

include hr hJ

theorem onePionPart_eq (h1 : s.onePE = true) : onePionPart rule s ⟨S, J, T, tz, coup⟩ pp p =
    some (fun k => ang rule fun z => kern (modelOne s S T tz J coup pp p) J coup S pp p z k) := by
  unfold onePionPart
  rw [if_pos h1, pwdT_eq rule hr _ S T tz J hJ]
  congr 1
  funext k
  simp [kern, modelOne]

theorem twoPion_eq : twoPion rule prof s ⟨S, J, T, tz, coup⟩ pp p =
    some (fun k => ang rule fun z => kern (modelTwo prof s S T tz J coup pp p) J coup S pp p z k) := by
  unfold twoPion
  dsimp only
  rw [projectIf_eq rule prof s pp p _ _ _ _ _ fun P => pwdC_eq rule hr _ S T tz J hJ coup P, Option.bind_some,
    projectIf_eq rule prof s pp p _ _ _ _ _ fun P => pwdC_eq rule hr _ S T tz J hJ coup P, Option.bind_some,
    projectIf_eq rule prof s pp p _ _ _ _ _ fun P => pwdLS_eq rule hr _ S T tz J hJ coup pp p P, Option.bind_some,
    projectIf_eq rule prof s pp p _ _ _ _ _ fun P => pwdLS_eq rule hr _ S T tz J hJ coup pp p P, Option.bind_some,
    projectIf_eq rule prof s pp p _ _ _ _ _ fun P => pwdT_eq rule hr _ S T tz J hJ coup pp p P, Option.bind_some,
    projectIf_eq rule prof s pp p _ _ _ _ _ fun P => pwdS_eq rule hr _ S T tz J hJ coup P, Option.bind_some,
    projectIf_eq rule prof s pp p _ _ _ _ _ fun P => pwdT_eq rule hr _ S T tz J hJ coup pp p P, Option.bind_some,
    projectIf_eq rule prof s pp p _ _ _ _ _ fun P => pwdS_eq rule hr _ S T tz J hJ coup P, Option.bind_some,
    projectIf_eq rule prof s pp p _ _ _ _ _ fun P => pwdSigL_eq rule hr _ S T tz J hJ coup pp p P]
  congr 1
  funext k
  simp only [Pi.add_apply, Pi.zero_apply, kern, modelTwo]
  clear * -
  unfold ang
  induction rule with
  | nil => simp
  | cons xw r ih =>
    simp only [List.map_cons, List.sum_cons] at ih ⊢
    linear_combination ih

/-- `chp` in terms of the projected forces. -/
theorem chp_eq (h1 : s.onePE = true) (hS : S = 0 → coup = false) (hpp : pp ≤ 2 * s.lambda) (hp : p ≤ 2 * s.lambda) :
    chp rule prof s pp p ⟨S, J, T, tz, coup⟩ = some fun k => mrFactor s tz pp p / (2 * Real.pi) ^ 3 *
      (freg s.lambda pp p s.n1PE * (ang rule fun z => kern (modelOne s S T tz J coup pp p) J coup S pp p z k)
        + freg s.lambda pp p s.n2PE * (ang rule fun z => kern (modelTwo prof s S T tz J coup pp p) J coup S pp p z k)
        + contacts s ⟨S, J, T, tz, coup⟩ pp p k) := by
  unfold chp
  dsimp only
  rw [if_neg (by rintro ⟨a, b⟩; rw [hS a] at b; cases b), if_neg (by push Not; exact ⟨hp, hpp⟩), onePionPart_eq rule hr s S T tz J hJ coup pp p h1, Option.bind_some,
    twoPion_eq rule hr prof s S T tz J hJ coup pp p, Option.map_some]
  congr 1
  funext k
  ring
end

/-- The stored component, with the program's phase, is the projection of the force. -/
theorem ang_projected (rule : List (ℝ × ℝ)) (dirs : ℝ → Vec × Vec) (hd : ∀ xw ∈ rule, Dirs xw.1 (dirs xw.1).1 (dirs xw.1).2) (F : Force) (S Lo Li T : Int) (J : Nat)
    (hw : Waves S J Lo Li T) (po pi : ℝ) (V : Six) (hV : ∀ k, V k = ang rule fun z => kern F J (decide (Lo ≠ J)) S pi po z k) :
    phase Lo Li * reorderExternal V (component S Lo Li J) = projected rule dirs F po pi S J Lo Li := by
  obtain ⟨hs, ho, hi, hp, hT⟩ := hw
  have a1 := abs_le.1 ho.1
  have a2 := abs_le.1 hi.1
  have hproj : ∀ k (ε : ℝ), (∀ xw ∈ rule, ε * kern F J (decide (Lo ≠ J)) S pi po xw.1 k = (if S = 0 then (legendre J).eval xw.1 * singletOp F po pi (dirs xw.1).1 (dirs xw.1).2
      else contract (tripletStates J Lo Li (dirs xw.1).1 (dirs xw.1).2) (tripletOp F po pi (dirs xw.1).1 (dirs xw.1).2))) → ε * V k = projected rule dirs F po pi S J Lo Li := by
    intro k ε h
    rw [hV]
    unfold projected
    have := ang_lin rule ε 0 0 (fun z => kern F J (decide (Lo ≠ J)) S pi po z k) (fun _ => 0) (fun _ => 0) _ (fun z => rfl)
    rw [zero_mul, zero_mul, add_zero, add_zero] at this
    rw [this]
    unfold ang
    congr 2
    refine List.map_congr_left fun xw hx => ?_
    rw [← h xw hx]; ring
  rcases hs with rfl | rfl
  · obtain ⟨rfl, rfl⟩ : Lo = J ∧ Li = J := by omega
    rw [show phase (J : Int) J = 1 by simp [phase], show reorderExternal V (component 0 J J J) = V 0 by simp [reorderExternal, component]]
    refine hproj 0 1 fun xw hx => ?_
    rw [if_pos rfl, one_mul, show decide ((J : Int) ≠ J) = false by simp]
    exact kern_singlet F J po pi xw.1 _ _ (hd xw hx)
  · by_cases hLo : Lo = J
    · obtain rfl : Li = J := by omega
      subst hLo
      rw [show phase (J : Int) J = 1 by simp [phase], show reorderExternal V (component 1 J J J) = V 1 by simp [reorderExternal, component]]
      refine hproj 1 1 fun xw hx => ?_
      rw [if_neg (by omega), one_mul, show decide ((J : Int) ≠ J) = false by simp]
      exact kern_uncoupled F J po pi xw.1 _ _ (hd xw hx) (by omega)
    · have hd1 : decide (Lo ≠ (J : Int)) = true := by simpa using hLo
      rw [hd1] at hproj
      have e1 : (1 : Int) ≠ 0 := by decide
      rcases (show (Lo = J + 1 ∨ Lo = J - 1) by omega) with rfl | rfl <;> rcases (show (Li = J + 1 ∨ Li = J - 1) by omega) with rfl | rfl
      · have ec : reorderExternal V (component 1 (J + 1) (J + 1) J) = V 2 := by simp [reorderExternal, component]
        rw [ec, show phase ((J : Int) + 1) (J + 1) = 1 by simp [phase]]
        refine hproj 2 1 fun xw hx => ?_
        rw [if_neg e1, one_mul]
        exact kern_upper F J po pi xw.1 _ _ (hd xw hx)
      · have ec : reorderExternal V (component 1 (J + 1) (J - 1) J) = V 5 := by
          simp [reorderExternal, component, show (J : Int) - 1 < J + 1 by omega]
        rw [ec, show phase ((J : Int) + 1) (J - 1) = -1 by unfold phase; rw [if_neg (by omega)]]
        refine hproj 5 (-1) fun xw hx => ?_
        rw [if_neg e1, neg_one_mul]
        exact kern_mixUL F J po pi xw.1 _ _ (hd xw hx) (by omega)
      · have ec : reorderExternal V (component 1 (J - 1) (J + 1) J) = V 4 := by
          simp [reorderExternal, component, show (J : Int) - 1 < J + 1 by omega, show ¬ ((J : Int) + 1 < J - 1) by omega]
        rw [ec, show phase ((J : Int) - 1) (J + 1) = -1 by unfold phase; rw [if_neg (by omega)]]
        refine hproj 4 (-1) fun xw hx => ?_
        rw [if_neg e1, neg_one_mul]
        exact kern_mixLU F J po pi xw.1 _ _ (hd xw hx) (by omega)
      · have ec : reorderExternal V (component 1 (J - 1) (J - 1) J) = V 3 := by simp [reorderExternal, component]
        rw [ec, show phase ((J : Int) - 1) (J - 1) = 1 by simp [phase]]
        refine hproj 3 1 fun xw hx => ?_
        rw [if_neg e1, one_mul]
        exact kern_lower F J po pi xw.1 _ _ (hd xw hx) (by omega)

theorem preset_basic (m : ChiralModel) (a : Nat → ℝ) : (preset m a).onePE = true ∧ (preset m a).lambda = cutoff m ∧ (preset m a).n1PE = onePionPower m ∧
    (preset m a).n2PE = twoPionPower m ∧ (preset m a).relcorr = false ∧ (preset m a).loops = twoPionTerms m ∧ (preset m a).kamada = false ∧ (preset m a).minRel = true ∧
    ((preset m a).csbMass = true ↔ m = .n2loopt ∨ m = .idaho) := by
  cases m <;> simp [preset, presetLO, presetNLO, presetN2LO, presetN3LO, presetN2LOopt, presetIdaho, isBase, cutoff, onePionPower, twoPionPower, twoPionTerms]

theorem preset_mnuc (m : ChiralModel) (a : Nat → ℝ) (Tz : Int) (h : Tz = -1 ∨ Tz = 0 ∨ Tz = 1) : (preset m a).pion.mnuc (-Tz) = nucleonMass m Tz := by
  rcases h with rfl | rfl | rfl <;> cases m <;>
    simp [preset, presetLO, presetNLO, presetN2LO, presetN3LO, presetN2LOopt, presetIdaho, isBase, isPion, emPion, nucleonMass, massTable]

theorem preset_pion (m : ChiralModel) (a : Nat → ℝ) : (preset m a).pion = pionData m (constants a m) := by
  have hmp : ∀ x y : ℝ, massTable x y x = fun i => if i = 0 then y else if i = -1 ∨ i = 1 then x else (2 * x + y) / 3 := by
    intro x y; funext i; unfold massTable
    by_cases h1 : i = -1
    · subst h1; simp
    · by_cases h2 : i = 0
      · simp [h2]
      · by_cases h3 : i = 1
        · simp [h3]
        · simp [h1, h2, h3]; ring
  have hmn : ∀ x y w : ℝ, massTable x y w = fun i => if i = -1 ∨ i = 0 ∨ i = 1 then (if -i = 1 then x else if -i = 0 then y else w) else (w + x + y) / 3 := by
    intro x y w; funext i; unfold massTable
    by_cases h1 : i = -1
    · subst h1; simp
    · by_cases h2 : i = 0
      · simp [h2]
      · by_cases h3 : i = 1
        · simp [h3]
        · simp [h1, h2, h3]
  cases m <;> simp only [preset, presetLO, presetNLO, presetN2LO, presetN3LO, presetN2LOopt, presetIdaho, isBase, isPion, emPion, hmp, hmn, pionData, constants,
    nucleonMass, chargedPion, neutralPion, meanPion, pionDecay, fineStructure, spectralCutoff, relativisticMode, loopIntegrals] <;> simp

theorem regulator_eq (m : ChiralModel) (n po pi : ℝ) : freg (cutoff m) pi po n = regulator m n po pi := by
  unfold freg regulator; congr 1; ring

theorem mr_eq (m : ChiralModel) (a : Nat → ℝ) (Tz : Int) (h : Tz = -1 ∨ Tz = 0 ∨ Tz = 1) (po pi : ℝ) :
    mrFactor (preset m a) (-Tz) pi po = minimalRelativity m Tz po pi := by
  obtain ⟨_, _, _, _, _, _, h1, h2, _⟩ := preset_basic m a
  unfold mrFactor minimalRelativity cmEnergy
  rw [if_neg (by simp [h1]), if_pos h2, preset_mnuc m a Tz h]
  have hM : 0 ≤ nucleonMass m Tz := by unfold nucleonMass; cases m <;> dsimp only <;> split_ifs <;> norm_num
  generalize nucleonMass m Tz = M at hM ⊢
  rw [← Real.sqrt_mul (show 0 ≤ M / Real.sqrt (M ^ 2 + po ^ 2) by positivity), div_mul_div_comm, Real.sqrt_div (by positivity), Real.sqrt_mul_self hM]
  congr 3 <;> congr 1 <;> ring

theorem tau_iso (T : Int) (h : T = 0 ∨ T = 1) : chpIso T = (tauTau T : ℝ) := by
  rcases h with rfl | rfl <;> norm_num [chpIso, tauTau]

theorem onePion_eq (m : ChiralModel) (a : Nat → ℝ) (q2 : ℝ) (i : Int) :
    onePion (preset m a) q2 1 i = pionExchange (constants a m).gA (pionDecay m) ((pionData m (constants a m)).mpi i) q2 := by
  unfold onePion pionExchange
  rw [preset_pion]
  dsimp only [pionData]
  generalize (if i = 0 then neutralPion else _) = mu
  ring

theorem gamma_eq (a : Nat → ℝ) (q2 : ℝ) :
    onePionGamma (preset .idaho a) q2 1 = piGamma (fineStructure .idaho) (constants a .idaho).gA (pionDecay .idaho) (chargedPion .idaho) q2 := by
  unfold onePionGamma piGamma
  rw [preset_pion]
  simp only [pionData, one_ne_zero, if_false, or_true, if_true]
  rw [show chargedPion .idaho * chargedPion .idaho = chargedPion .idaho ^ 2 by ring]
  generalize chargedPion .idaho ^ 2 = mu
  rw [add_comm (q2 / mu) 1]
  generalize q2 / mu = b
  generalize Real.log (1 + b) = lg
  congr 1
  · rw [neg_inj]
    ring
  · ring

theorem forceOne_eq (m : ChiralModel) (a : Nat → ℝ) (S T Tz : Int) (J : Nat) (coup : Bool) (po pi : ℝ) (hT : T = 0 ∨ T = 1) (hz : |Tz| ≤ T) :
    modelOne (preset m a) S T (-Tz) J coup pi po = onePionForce m (constants a m) T Tz po pi := by
  obtain ⟨_, _, _, _, h5, _, _, _, _⟩ := preset_basic m a
  unfold modelOne onePionForce
  congr 1
  funext z
  rw [h5, if_neg (by simp), show pi * pi + po * po - 2 * po * pi * z = transfer po pi z by unfold transfer; ring]
  unfold onePionWT
  dsimp only
  rw [onePion_eq, onePion_eq, onePion_eq]
  have e0 : (pionData m (constants a m)).mpi 0 = neutralPion := by simp [pionData]
  have e1 : (pionData m (constants a m)).mpi 1 = chargedPion m := by simp [pionData]
  have e2 : (pionData m (constants a m)).mpi 2 = meanPion m := by simp [pionData]
  rw [e0, e1, e2]
  have hcase : (T = 0 ∧ Tz = 0) ∨ (T = 1 ∧ Tz = 0) ∨ (T = 1 ∧ Tz ≠ 0) := by
    have := abs_le.1 hz
    omega
  have hmp0 : minusPower 1 = -1 := by simp [minusPower]
  have hmp1 : minusPower 2 = 1 := by simp [minusPower]
  cases m
  · have : (preset .isLO a).onePECIB = false := rfl
    rw [this, if_neg (by simp), tau_iso T hT]
  all_goals
    first
    | (have : (preset .idaho a).onePECIB = true := rfl
       have hg : (preset .idaho a).gamma = true := rfl
       rw [gamma_eq]
       rcases hcase with ⟨rfl, rfl⟩ | ⟨rfl, rfl⟩ | ⟨rfl, hne⟩
       · norm_num [this, hg, hmp0, tauTau, tauZ]; ring
       · norm_num [this, hg, hmp1, tauTau, tauZ]; ring
       · simp [this, hne, tauTau, tauZ])
    | (rename_i ma
       have : ∀ m : ChiralModel, m ≠ .isLO → (preset m a).onePECIB = true := by intro m hm; cases m <;> first | rfl | exact absurd rfl hm
       have hg : ∀ m : ChiralModel, m ≠ .idaho → (preset m a).gamma = false := by intro m hm; cases m <;> first | rfl | exact absurd rfl hm
       rw [this _ (by decide), hg _ (by decide)]
       rcases hcase with ⟨rfl, rfl⟩ | ⟨rfl, rfl⟩ | ⟨rfl, hne⟩
       · norm_num [hmp0, tauTau, tauZ]
       · norm_num [hmp1, tauTau, tauZ]
       · norm_num [hne, tauTau, tauZ])

theorem hasAmp_iff (t : TwoPE) (A : Amp) : hasAmp t A = true ↔ A ∈ amplitudes t := by
  cases t <;> cases A <;> decide

theorem amp_eq (m : ChiralModel) (a : Nat → ℝ) (prof : Profiles) (S T Tz : Int) (J : Nat) (coup : Bool) (po pi : ℝ) (hT : T = 0 ∨ T = 1) (A : Amp) (z : ℝ) :
    twoPionAmp prof (preset m a) ⟨S, J, T, -Tz, coup⟩ pi po A z = (if isovector A then (tauTau T : ℝ) else 1) * strength m (constants a m) prof Tz po pi A z := by
  obtain ⟨_, _, _, _, _, h6, _, _, h9⟩ := preset_basic m a
  unfold twoPionAmp strength imnuc
  dsimp only
  rw [h6, preset_pion, tau_iso T hT, ← List.sum_map_mul_left]
  congr 1
  refine List.map_congr_left fun t _ => ?_
  have e1 : pi * pi + po * po - 2 * po * pi * z = transfer po pi z := by unfold transfer; ring
  have e2 : 1 / 4 * (pi * pi + po * po) + 1 / 2 * po * pi * z = (po ^ 2 + pi ^ 2 + 2 * po * pi * z) / 4 := by ring
  have e3 : (if (preset m a).csbMass = true then -Tz else 0) = (if m = .n2loopt ∨ m = .idaho then -Tz else 0) := by simp only [h9]
  rw [e1, e2, e3]
  simp only [hasAmp_iff]
  split_ifs <;> simp

theorem forceTwo_eq (m : ChiralModel) (a : Nat → ℝ) (prof : Profiles) (S T Tz : Int) (J : Nat) (coup : Bool) (po pi : ℝ) (hT : T = 0 ∨ T = 1) :
    modelTwo prof (preset m a) S T (-Tz) J coup pi po = twoPionForce m (constants a m) prof T Tz po pi := by
  unfold modelTwo twoPionForce
  simp only [amp_eq m a prof S T Tz J coup po pi hT, isovector, if_true, Bool.false_eq_true, if_false, one_mul]

theorem cib_one (Tz : Int) (hz : Tz = -1 ∨ Tz = 0 ∨ Tz = 1) (pp np nn s1 : ℝ) :
    cibTable pp np nn s1 (-Tz) 1 = 0.01 * (if Tz = -1 then nn else if Tz = 0 then np else pp) := by
  rcases hz with rfl | rfl | rfl <;> simp [cibTable] <;> ring
theorem cib_two (tz : Int) (pp np nn s1 : ℝ) : cibTable pp np nn s1 tz 2 = 0.01 * s1 := by simp [cibTable]; ring
theorem same_three (Tz : Int) (x : ℝ) : (if Tz = -1 then x else if Tz = 0 then x else x) = x := by split_ifs <;> rfl
theorem reg_freg (m : ChiralModel) (n po pi : ℝ) : regulator m n po pi = freg (cutoff m) po pi n := by unfold freg regulator; congr 1; ring

/-- Both sides of the contact terms in one wave. -/
local syntax "contact_calc" ident : tactic
local macro_rules
  | `(tactic| contact_calc $m) => `(tactic| (
    cases $m:ident <;> (try simp [-mul_eq_mul_right_iff, -mul_eq_mul_left_iff, Matrix.cons_val, contacts, preset, presetLO, presetNLO, presetN2LO, presetN3LO, presetN2LOopt, presetIdaho, isBase, loContactCIB, loContact, nloContact,
      n3loContact, contactForce, constants, cib_one, cib_two, same_three, reg_freg, cutoff, powerC, powerD, nloTable]) <;> (try (rw [if_neg (show ¬ ((3 : ℝ) < 0) by norm_num)])) <;> (try ring)))
local syntax "contact_none" ident "[" Lean.Parser.Tactic.simpLemma,* "]" : tactic
local macro_rules
  | `(tactic| contact_none $m [$l,*]) => `(tactic| (
    cases $m:ident <;> simp [contacts, preset, presetLO, presetNLO, presetN2LO, presetN3LO, presetN2LOopt, presetIdaho, isBase, loContactCIB, loContact, nloContact,
      n3loContact, contactForce, $l,*] <;> split_ifs <;> simp))

set_option maxHeartbeats 4000000 in
/-- The contact terms as the code has them, with `pi` in the first argument. -/
theorem contacts_eq (m : ChiralModel) (a : Nat → ℝ) (S Lo Li T Tz : Int) (J : Nat) (hw : Waves S J Lo Li T) (hz : Tz = -1 ∨ Tz = 0 ∨ Tz = 1) (po pi : ℝ) :
    phase Lo Li * reorderExternal (contacts (preset m a) ⟨S, J, T, -Tz, decide (Lo ≠ J)⟩ pi po) (component S Lo Li J) =
      contactForce m (constants a m) Tz S J Lo Li po pi := by
  obtain ⟨hs, ho, hi, hp, hT⟩ := hw
  have a1 := abs_le.1 ho.1
  have a2 := abs_le.1 hi.1
  rcases hs with rfl | rfl
  · obtain ⟨rfl, rfl⟩ : Lo = J ∧ Li = J := by omega
    rw [show phase (J : Int) J = 1 by simp [phase], one_mul]
    have ec : ∀ V : Six, reorderExternal V (component 0 J J J) = V 0 := fun V => by simp [reorderExternal, component]
    rw [ec]
    have hd : decide ((J : Int) ≠ J) = false := by simp
    rw [hd]
    rcases (show J = 0 ∨ J = 1 ∨ J = 2 ∨ 3 ≤ J by omega) with rfl | rfl | rfl | hJ
    · cases m <;> simp [-mul_eq_mul_right_iff, -mul_eq_mul_left_iff, contacts, preset, presetLO, presetNLO, presetN2LO, presetN3LO, presetN2LOopt, presetIdaho, isBase, loContactCIB, loContact, nloContact, n3loContact,
        contactForce, constants, cib_one Tz hz, same_three, reg_freg, cutoff, powerC, powerD, nloTable] <;> ring
    · contact_calc m
    · contact_calc m
    · have n0 : J ≠ 0 := by omega
      have n1 : J ≠ 1 := by omega
      have n2 : J ≠ 2 := by omega
      have n3 : ¬ ((J : Int) = 1) := by omega
      have n4 : ¬ ((J : Int) = 2) := by omega
      contact_none m [n0, n1, n2, n3, n4]
  · by_cases hLo : Lo = J
    · obtain rfl : Li = J := by omega
      subst hLo
      rw [show phase (J : Int) J = 1 by simp [phase], one_mul]
      have ec : ∀ V : Six, reorderExternal V (component 1 J J J) = V 1 := fun V => by simp [reorderExternal, component]
      rw [ec]
      have hd : decide ((J : Int) ≠ J) = false := by simp
      rw [hd]
      rcases (show J = 1 ∨ J = 2 ∨ 3 ≤ J by omega) with rfl | rfl | hJ
      · contact_calc m
      · contact_calc m
      · have n0 : J ≠ 0 := by omega
        have n1 : J ≠ 1 := by omega
        have n2 : J ≠ 2 := by omega
        have n3 : ¬ ((J : Int) = 1) := by omega
        have n4 : ¬ ((J : Int) = 2) := by omega
        contact_none m [n0, n1, n2, n3, n4]
    · have hd : decide (Lo ≠ (J : Int)) = true := by simpa using hLo
      rw [hd]
      rcases (show (Lo = J + 1 ∨ Lo = J - 1) by omega) with rfl | rfl <;> rcases (show (Li = J + 1 ∨ Li = J - 1) by omega) with rfl | rfl
      · have ec : ∀ V : Six, reorderExternal V (component 1 (J + 1) (J + 1) J) = V 2 := fun V => by simp [reorderExternal, component]
        rw [ec, show phase ((J : Int) + 1) (J + 1) = 1 by simp [phase], one_mul]
        rcases (show J = 0 ∨ J = 1 ∨ J = 2 ∨ 3 ≤ J by omega) with rfl | rfl | rfl | hJ
        · contact_calc m
        · contact_calc m
        · contact_calc m
        · have n0 : J ≠ 0 := by omega
          have n1 : J ≠ 1 := by omega
          have n2 : J ≠ 2 := by omega
          have n3 : ¬ ((J : Int) + 1 = 0) := by omega
          have n4 : ¬ ((J : Int) + 1 = 2) := by omega
          have n5 : ¬ ((J : Int) + 1 = 1) := by omega
          have n6 : ¬ ((J : Int) = 1) := by omega
          have n7 : ¬ ((J : Int) = 2) := by omega
          contact_none m [n0, n1, n2, n3, n4, n5, n6, n7]
      · have ec : ∀ V : Six, reorderExternal V (component 1 (J + 1) (J - 1) J) = V 5 := fun V => by
          simp [reorderExternal, component, show (J : Int) - 1 < J + 1 by omega]
        rw [ec, show phase ((J : Int) + 1) (J - 1) = -1 by unfold phase; rw [if_neg (by omega)]]
        rcases (show J = 1 ∨ J = 2 ∨ 3 ≤ J by omega) with rfl | rfl | hJ
        · contact_calc m
        · contact_calc m
        · have n0 : J ≠ 0 := by omega
          have n1 : J ≠ 1 := by omega
          have n2 : J ≠ 2 := by omega
          have n3 : ¬ ((J : Int) + 1 = 0) := by omega
          have n4 : ¬ ((J : Int) + 1 = 2) := by omega
          have n5 : ¬ ((J : Int) + 1 = 1) := by omega
          have n6 : ¬ ((J : Int) = 1) := by omega
          have n7 : ¬ ((J : Int) = 2) := by omega
          contact_none m [n0, n1, n2, n3, n4, n5, n6, n7]
      · have ec : ∀ V : Six, reorderExternal V (component 1 (J - 1) (J + 1) J) = V 4 := fun V => by
          simp [reorderExternal, component, show (J : Int) - 1 < J + 1 by omega, show ¬ ((J : Int) + 1 < J - 1) by omega]
        rw [ec, show phase ((J : Int) - 1) (J + 1) = -1 by unfold phase; rw [if_neg (by omega)]]
        rcases (show J = 1 ∨ J = 2 ∨ 3 ≤ J by omega) with rfl | rfl | hJ
        · contact_calc m
        · contact_calc m
        · have n0 : J ≠ 0 := by omega
          have n1 : J ≠ 1 := by omega
          have n2 : J ≠ 2 := by omega
          have n3 : ¬ ((J : Int) + 1 = 0) := by omega
          have n4 : ¬ ((J : Int) + 1 = 2) := by omega
          have n5 : ¬ ((J : Int) - 1 = 0) := by omega
          have n6 : ¬ ((J : Int) = 1) := by omega
          have n7 : ¬ ((J : Int) = 2) := by omega
          have n8 : ¬ ((J : Int) - 1 = 1) := by omega
          have n9 : ¬ ((J : Int) + 1 = 1) := by omega
          contact_none m [n0, n1, n2, n3, n4, n5, n6, n7, n8, n9]
      · have ec : ∀ V : Six, reorderExternal V (component 1 (J - 1) (J - 1) J) = V 3 := fun V => by simp [reorderExternal, component]
        rw [ec, show phase ((J : Int) - 1) (J - 1) = 1 by simp [phase], one_mul]
        rcases (show J = 1 ∨ J = 2 ∨ J = 3 ∨ 4 ≤ J by omega) with rfl | rfl | rfl | hJ
        · contact_calc m
        · contact_calc m
        · contact_calc m
        · have n0 : J ≠ 0 := by omega
          have n1 : J ≠ 1 := by omega
          have n2 : J ≠ 2 := by omega
          have n3 : J ≠ 3 := by omega
          have n4 : ¬ ((J : Int) = 3) := by omega
          have n5 : ¬ ((J : Int) - 1 = 0) := by omega
          have n6 : ¬ ((J : Int) = 1) := by omega
          have n7 : ¬ ((J : Int) = 2) := by omega
          have n8 : ¬ ((J : Int) - 1 = 1) := by omega
          have n9 : ¬ ((J : Int) - 1 = 2) := by omega
          contact_none m [n0, n1, n2, n3, n4, n5, n6, n7, n8, n9]

theorem phase_lin (A : ℝ) (U V W : Six) (al be : ℝ) (Lo Li S J : Int) :
    phase Lo Li * reorderExternal (fun k => A * (al * U k + be * V k + W k)) (component S Lo Li J) =
      A * (al * (phase Lo Li * reorderExternal U (component S Lo Li J)) + be * (phase Lo Li * reorderExternal V (component S Lo Li J))
        + phase Lo Li * reorderExternal W (component S Lo Li J)) := by
  obtain ⟨σ, hσ⟩ := C55_permutation
  rw [hσ, hσ, hσ, hσ]; ring

/-- **C93.** For every chiral model and every parameter line, and for every pair of partial waves with `J ≤ 38` and momenta up to twice the cutoff, the element
the program uses (with its sign for mixing elements) is the partial-wave projection of the model's force. -/
theorem C93_partial_waves (m : ChiralModel) (a : Nat → ℝ) (rule : List (ℝ × ℝ)) (dirs : ℝ → Vec × Vec) (hd : ∀ xw ∈ rule, Dirs xw.1 (dirs xw.1).1 (dirs xw.1).2)
    (prof : Profiles) (qi qo : ℝ) (S J Lo Li T Tz : Int) (hw : Waves S J Lo Li T) (hz : |Tz| ≤ T) (hJ : J ≤ 38) (hqi : qi ≤ 2 * cutoff m) (hqo : qo ≤ 2 * cutoff m) :
    ∃ V, chiralV rule prof (preset m a) qi qo (decide (Lo ≠ J)) S J T Tz = some V ∧
      phase Lo Li * V (component S Lo Li J) = chiralElement rule dirs prof m (constants a m) S J Lo Li T Tz qo qi := by
  have hJ0 : 0 ≤ J := le_trans (abs_nonneg _) hw.out.1
  obtain ⟨n, rfl⟩ : ∃ n : Nat, J = n := ⟨J.toNat, by omega⟩
  have hT : T = 0 ∨ T = 1 := hw.pauli.1
  have hz' : Tz = -1 ∨ Tz = 0 ∨ Tz = 1 := by have := abs_le.1 hz; omega
  obtain ⟨p1, p2, p3, p4, _⟩ := preset_basic m a
  have hS : S = 0 → decide (Lo ≠ (n : Int)) = false := by
    rintro rfl
    have h1 := abs_le.1 hw.out.1
    have h2 := hw.out.2
    simp only [decide_eq_false_iff_not, not_not]
    omega
  have hr : ∀ xw ∈ rule, |xw.1| ≤ 1 := fun xw hx => dirs_abs_le (hd xw hx)
  unfold chiralV tzReverse
  rw [chp_eq rule hr prof (preset m a) S T (-Tz) n (by omega) _ qi qo p1 hS (by rw [p2]; exact hqi) (by rw [p2]; exact hqo), Option.map_some]
  refine ⟨_, rfl, ?_⟩
  rw [phase_lin _ (fun k => ang rule fun z => kern (modelOne (preset m a) S T (-Tz) n (decide (Lo ≠ n)) qi qo) n (decide (Lo ≠ n)) S qi qo z k)
    (fun k => ang rule fun z => kern (modelTwo prof (preset m a) S T (-Tz) n (decide (Lo ≠ n)) qi qo) n (decide (Lo ≠ n)) S qi qo z k)]
  rw [contacts_eq m a S Lo Li T Tz n hw hz' qo qi, ang_projected rule dirs hd _ S Lo Li T n hw qo qi _ (fun k => rfl),
    ang_projected rule dirs hd _ S Lo Li T n hw qo qi _ (fun k => rfl), forceOne_eq m a S T Tz n _ qo qi hT hz, forceTwo_eq m a prof S T Tz n _ qo qi hT,
    p2, p3, p4, regulator_eq, regulator_eq, mr_eq m a Tz hz']
  unfold chiralElement
  rw [Int.toNat_natCast]

end TicTac
end
