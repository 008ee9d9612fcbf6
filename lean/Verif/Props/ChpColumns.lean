import Verif.Props.ChpMatrix
import Verif.Spec.ChiralColumns
/-! C95: which column of a parameter line acts where. -/
noncomputable section
namespace TicTac
open Spec

/-- A constant replaced. -/
def setConst (c : Constants) (n : Const) (x : ℝ) : Constants :=
  match n with
  | .gA => { c with gA := x } | .c1 => { c with c1 := x } | .c2 => { c with c2 := x } | .c3 => { c with c3 := x } | .c4 => { c with c4 := x }
  | .d12 => { c with d12 := x } | .d3 => { c with d3 := x } | .d5 => { c with d5 := x } | .d1415 => { c with d1415 := x }
  | .Ct1S0 => { c with Ct1S0pp := x, Ct1S0np := x, Ct1S0nn := x }
  | .Ct1S0pp => { c with Ct1S0pp := x } | .Ct1S0np => { c with Ct1S0np := x } | .Ct1S0nn => { c with Ct1S0nn := x } | .Ct3S1 => { c with Ct3S1 := x }
  | .C1S0 => { c with C1S0 := x } | .C3P0 => { c with C3P0 := x } | .C1P1 => { c with C1P1 := x } | .C3P1 => { c with C3P1 := x } | .C3S1 => { c with C3S1 := x }
  | .C3SD1 => { c with C3SD1 := x } | .C3P2 => { c with C3P2 := x } | .Dh1S0 => { c with Dh1S0 := x } | .D1S0 => { c with D1S0 := x } | .D3P0 => { c with D3P0 := x }
  | .D1P1 => { c with D1P1 := x } | .D3P1 => { c with D3P1 := x } | .Dh3S1 => { c with Dh3S1 := x } | .D3S1 => { c with D3S1 := x } | .D3D1 => { c with D3D1 := x }
  | .Dh3SD1 => { c with Dh3SD1 := x } | .D3SD1 => { c with D3SD1 := x } | .D1D2 => { c with D1D2 := x } | .D3D2 => { c with D3D2 := x } | .D3P2 => { c with D3P2 := x }
  | .D3PF2 => { c with D3PF2 := x } | .D3D3 => { c with D3D3 := x } | .threeNucleon => c

theorem constants_update (m : ChiralModel) (a : Nat → ℝ) (k : Nat) (x : ℝ) (n : Const) (h : (columnNames m)[k]? = some n) :
    constants (Function.update a k x) m = setConst (constants a m) n x := by
  have hk := (List.getElem?_eq_some_iff.1 h).1
  cases m <;> simp only [columnNames, List.length_cons, List.length_nil] at hk h <;> interval_cases k <;>
    (simp only [List.getElem?_cons_zero, List.getElem?_cons_succ, Option.some.injEq] at h; subst h; simp [constants, setConst, Function.update])

/-- Replacing a constant that is not pionic leaves the pion exchanges alone. -/
theorem pion_setConst (m : ChiralModel) (c : Constants) (n : Const) (x : ℝ) (h : n.pionic = false) :
    pionData m (setConst c n x) = pionData m c ∧ (setConst c n x).gA = c.gA := by
  cases n <;> first | (simp [Const.pionic] at h; done) | exact ⟨rfl, rfl⟩

theorem ite_same {q : Prop} [Decidable q] {x y x' y' : ℝ} (h1 : q → x = x') (h2 : y = y') : (if q then x else y) = (if q then x' else y') := by
  split_ifs with h
  · exact h1 h
  · exact h2

set_option maxHeartbeats 2000000 in
theorem contact_setConst (m : ChiralModel) (c : Constants) (n : Const) (x : ℝ) (S J Lo Li Tz : Int) (po pi : ℝ) (hz : Tz = -1 ∨ Tz = 0 ∨ Tz = 1) (h : ¬ n.actsIn S J Lo Li Tz) :
    contactForce m (setConst c n x) Tz S J Lo Li po pi = contactForce m c Tz S J Lo Li po pi := by
  unfold contactForce
  dsimp only
  cases n <;> simp only [Const.actsIn] at h <;> simp only [setConst] <;>
    refine ite_same (fun e => ?_) (ite_same (fun e => ?_) (ite_same (fun e => ?_) (ite_same (fun e => ?_) (ite_same (fun e => ?_) (ite_same (fun e => ?_) (ite_same (fun e => ?_)
      (ite_same (fun e => ?_) (ite_same (fun e => ?_) (ite_same (fun e => ?_) (ite_same (fun e => ?_) (ite_same (fun e => ?_) (ite_same (fun e => ?_) (ite_same (fun e => ?_) rfl))))))))))))) <;>
    first | rfl | (exfalso; clear * - e h; omega) | (rcases hz with rfl | rfl | rfl <;> first | rfl | (exfalso; clear * - e h; omega))
/-- The derivative of a contact term with respect to its constant, up to the sign of the mixing elements. -/
def shape (m : ChiralModel) (n : Const) (Lo : Int) (po pi : ℝ) : ℝ :=
  match n with
  | .Ct1S0 => 0.01 * regulator m 3 po pi
  | .Ct1S0pp => 0.01 * regulator m 3 po pi
  | .Ct1S0np => 0.01 * regulator m 3 po pi
  | .Ct1S0nn => 0.01 * regulator m 3 po pi
  | .Ct3S1 => 0.01 * regulator m 3 po pi
  | .C1S0 => 1e-8 * (po ^ 2 + pi ^ 2) * regulator m (powerC m) po pi
  | .C3S1 => 1e-8 * (po ^ 2 + pi ^ 2) * regulator m (powerC m) po pi
  | .C3P0 => 1e-8 * po * pi * regulator m (powerC m) po pi
  | .C1P1 => 1e-8 * po * pi * regulator m (powerC m) po pi
  | .C3P1 => 1e-8 * po * pi * regulator m (powerC m) po pi
  | .C3P2 => 1e-8 * po * pi * regulator m (powerC m) po pi
  | .Dh1S0 => 1e-14 * (po ^ 4 + pi ^ 4) * regulator m (powerD m 2) po pi
  | .Dh3S1 => 1e-14 * (po ^ 4 + pi ^ 4) * regulator m (powerD m 2) po pi
  | .D1S0 => 1e-14 * (po ^ 2 * pi ^ 2) * regulator m (powerD m 2) po pi
  | .D3S1 => 1e-14 * (po ^ 2 * pi ^ 2) * regulator m (powerD m 2) po pi
  | .D3D1 => 1e-14 * (po ^ 2 * pi ^ 2) * regulator m (powerD m 2) po pi
  | .D3D2 => 1e-14 * (po ^ 2 * pi ^ 2) * regulator m (powerD m 2) po pi
  | .D1D2 => 1e-14 * (po ^ 2 * pi ^ 2) * regulator m (powerD m 4) po pi
  | .D3P0 => 1e-14 * po * pi * (po ^ 2 + pi ^ 2) * regulator m (powerD m 3) po pi
  | .D1P1 => 1e-14 * po * pi * (po ^ 2 + pi ^ 2) * regulator m (powerD m 2) po pi
  | .D3P1 => 1e-14 * po * pi * (po ^ 2 + pi ^ 2) * regulator m (powerD m 4) po pi
  | .D3P2 => 1e-14 * po * pi * (po ^ 2 + pi ^ 2) * regulator m (powerD m 2) po pi
  | .C3SD1 => 1e-8 * (if Lo = 0 then pi ^ 2 else po ^ 2) * regulator m (powerC m) po pi
  | .Dh3SD1 => 1e-14 * (if Lo = 0 then pi ^ 4 else po ^ 4) * regulator m (powerD m 2) po pi
  | .D3SD1 => 1e-14 * (po ^ 2 * pi ^ 2) * regulator m (powerD m 2) po pi
  | .D3PF2 => 1e-14 * (if Lo = 1 then po * pi ^ 3 else po ^ 3 * pi) * regulator m (powerD m 4) po pi
  | .D3D3 => 1e-14 * po ^ 2 * pi ^ 2 * (match m with | .idaho => (regulator m 2 po pi + regulator m 3 po pi) / 2 | _ => regulator m 3 po pi)
  | _ => 1

theorem regulator_pos (m : ChiralModel) (n po pi : ℝ) : 0 < regulator m n po pi := Real.exp_pos _

theorem shape_pos (m : ChiralModel) (n : Const) (Lo : Int) (po pi : ℝ) (h1 : 0 < po) (h2 : 0 < pi) : 0 < shape m n Lo po pi := by
  have r2 := regulator_pos m 2 po pi
  have r3 := regulator_pos m 3 po pi
  have rC := regulator_pos m (powerC m) po pi
  have rD2 := regulator_pos m (powerD m 2) po pi
  have rD3 := regulator_pos m (powerD m 3) po pi
  have rD4 := regulator_pos m (powerD m 4) po pi
  cases n <;> simp only [shape]
  case D3D3 => cases m <;> simp only <;> positivity
  all_goals first | positivity | (split_ifs <;> positivity)

theorem contact_shape (m : ChiralModel) (c : Constants) (n : Const) (x y : ℝ) (S J Lo Li Tz : Int) (po pi : ℝ) (hz : Tz = -1 ∨ Tz = 0 ∨ Tz = 1) (h : n.actsIn S J Lo Li Tz) :
    contactForce m (setConst c n x) Tz S J Lo Li po pi - contactForce m (setConst c n y) Tz S J Lo Li po pi = (x - y) * (phase Lo Li * shape m n Lo po pi) := by
  cases n <;> simp only [Const.actsIn] at h
  case C3SD1 => rcases h with ⟨rfl, rfl, ⟨rfl, rfl⟩ | ⟨rfl, rfl⟩⟩ <;> simp [contactForce, setConst, shape, phase] <;> ring
  case Dh3SD1 => rcases h with ⟨rfl, rfl, ⟨rfl, rfl⟩ | ⟨rfl, rfl⟩⟩ <;> simp [contactForce, setConst, shape, phase] <;> ring
  case D3SD1 => rcases h with ⟨rfl, rfl, ⟨rfl, rfl⟩ | ⟨rfl, rfl⟩⟩ <;> simp [contactForce, setConst, shape, phase] <;> ring
  case D3PF2 => rcases h with ⟨rfl, rfl, ⟨rfl, rfl⟩ | ⟨rfl, rfl⟩⟩ <;> simp [contactForce, setConst, shape, phase] <;> ring
  case D3D3 => obtain ⟨rfl, rfl, rfl, rfl⟩ := h; cases m <;> simp [contactForce, setConst, shape, phase] <;> ring
  all_goals
    first
    | (exact h.elim)
    | (obtain ⟨rfl, rfl, rfl, rfl, rfl⟩ := h; simp [contactForce, setConst, shape, phase]; ring)
    | (obtain ⟨rfl, rfl, rfl, rfl⟩ := h; simp [contactForce, setConst, shape, phase]; ring)

/-- **C95 (scope).** A column that holds a contact constant changes nothing outside the partial waves (and charges) of that constant. -/
theorem C95_scope (m : ChiralModel) (a : Nat → ℝ) (k : Nat) (x : ℝ) (n : Const) (hn : (columnNames m)[k]? = some n) (hp : n.pionic = false)
    (rule : List (ℝ × ℝ)) (hr : ∀ xw ∈ rule, |xw.1| ≤ 1) (prof : Profiles) (qi qo : ℝ) (S J Lo Li T Tz : Int) (hw : Waves S J Lo Li T) (hz : |Tz| ≤ T) (hJ : J ≤ 38)
    (hout : ¬ n.actsIn S J Lo Li Tz) :
    chiralModel rule prof (preset m (Function.update a k x)) qi qo (decide (Lo ≠ J)) S J T Tz (component S Lo Li J) =
      chiralModel rule prof (preset m a) qi qo (decide (Lo ≠ J)) S J T Tz (component S Lo Li J) := by
  have hT : T = 0 ∨ T = 1 := hw.pauli.1
  have hz' : Tz = -1 ∨ Tz = 0 ∨ Tz = 1 := by have := abs_le.1 hz; omega
  have h1 := chiral_value m a rule hr prof qi qo S J Lo Li T Tz hw hz hJ
  have h2 := chiral_value m (Function.update a k x) rule hr prof qi qo S J Lo Li T Tz hw hz hJ
  have h0 : phase Lo Li ≠ 0 := by unfold phase; split_ifs <;> norm_num
  refine mul_left_cancel₀ h0 ?_
  rw [h1, h2]
  unfold cutElement chiralElement
  rw [constants_update m a k x n hn, contact_setConst m _ n x S J Lo Li Tz qo qi hz' hout]
  obtain ⟨e1, e2⟩ := pion_setConst m (constants a m) n x hp
  have e3 : onePionForce m (setConst (constants a m) n x) T Tz qo qi = onePionForce m (constants a m) T Tz qo qi := by
    unfold onePionForce; rw [e2]
  have e4 : twoPionForce m (setConst (constants a m) n x) prof T Tz qo qi = twoPionForce m (constants a m) prof T Tz qo qi := by
    unfold twoPionForce strength; rw [e1]
  rw [e3, e4]

/-- **C95 (effect).** In the waves of a contact constant every value of its column gives a different element. -/
theorem C95_effect (m : ChiralModel) (a : Nat → ℝ) (k : Nat) (x y : ℝ) (hxy : x ≠ y) (n : Const) (hn : (columnNames m)[k]? = some n) (hp : n.pionic = false)
    (rule : List (ℝ × ℝ)) (hr : ∀ xw ∈ rule, |xw.1| ≤ 1) (prof : Profiles) (qi qo : ℝ) (hi : 0 < qi) (hi' : qi ≤ 2 * cutoff m) (ho : 0 < qo) (ho' : qo ≤ 2 * cutoff m)
    (S J Lo Li T Tz : Int) (hw : Waves S J Lo Li T) (hz : |Tz| ≤ T) (hJ : J ≤ 38) (hin : n.actsIn S J Lo Li Tz) :
    chiralModel rule prof (preset m (Function.update a k x)) qi qo (decide (Lo ≠ J)) S J T Tz (component S Lo Li J) ≠
      chiralModel rule prof (preset m (Function.update a k y)) qi qo (decide (Lo ≠ J)) S J T Tz (component S Lo Li J) := by
  have hT : T = 0 ∨ T = 1 := hw.pauli.1
  have hz' : Tz = -1 ∨ Tz = 0 ∨ Tz = 1 := by have := abs_le.1 hz; omega
  have h1 := chiral_value m (Function.update a k x) rule hr prof qi qo S J Lo Li T Tz hw hz hJ
  have h2 := chiral_value m (Function.update a k y) rule hr prof qi qo S J Lo Li T Tz hw hz hJ
  intro heq
  rw [heq, h2] at h1
  unfold cutElement chiralElement at h1
  rw [if_pos ⟨hi', ho'⟩, if_pos ⟨hi', ho'⟩, constants_update m a k x n hn, constants_update m a k y n hn] at h1
  have e3 : ∀ x, onePionForce m (setConst (constants a m) n x) T Tz qo qi = onePionForce m (constants a m) T Tz qo qi := by
    intro x; unfold onePionForce; rw [(pion_setConst m (constants a m) n x hp).2]
  have e4 : ∀ x, twoPionForce m (setConst (constants a m) n x) prof T Tz qo qi = twoPionForce m (constants a m) prof T Tz qo qi := by
    intro x; unfold twoPionForce strength; rw [(pion_setConst m (constants a m) n x hp).1]
  rw [e3, e4, e3, e4] at h1
  have hM : 0 < minimalRelativity m Tz qo qi / (2 * Real.pi) ^ 3 := by
    have hM : 0 < nucleonMass m Tz := by unfold nucleonMass; cases m <;> dsimp only <;> split_ifs <;> norm_num
    unfold minimalRelativity
    have := Real.pi_pos
    positivity
  have h3 := mul_left_cancel₀ hM.ne' h1
  have h4 := contact_shape m (constants a m) n x y S J Lo Li Tz qo qi hz' hin
  have h5 : (x - y) * (phase Lo Li * shape m n Lo qo qi) = 0 := by rw [← h4]; linarith
  have h0 : phase Lo Li ≠ 0 := by unfold phase; split_ifs <;> norm_num
  rcases mul_eq_zero.1 h5 with h | h
  · exact hxy (sub_eq_zero.1 h)
  · rcases mul_eq_zero.1 h with h | h
    · exact h0 h
    · exact (shape_pos m n Lo qo qi ho hi).ne' h

/-- **C95 (unused columns).** The columns of the three-nucleon constants, which every line for IS_NLO and IS_N2LO must have, change nothing at all. -/
theorem C95_unused (m : ChiralModel) (a : Nat → ℝ) (k : Nat) (x : ℝ) (hn : (columnNames m)[k]? = some .threeNucleon) :
    preset m (Function.update a k x) = preset m a := by
  have hk := (List.getElem?_eq_some_iff.1 hn).1
  have key : ∀ b k0 j, j > b → k0 + 6 = b → nloTable (Function.update a j x) k0 = nloTable a k0 := by
    intro b k0 j h1 h2
    funext i
    unfold nloTable
    split_ifs with h
    · rw [Function.update_of_ne (by omega)]
    · rfl
  cases m <;> simp only [columnNames, List.length_cons, List.length_nil] at hk hn <;> interval_cases k <;>
    simp only [List.getElem?_cons_zero, List.getElem?_cons_succ, Option.some.injEq, reduceCtorEq] at hn
  all_goals
    simp only [preset, presetNLO, presetN2LO]
    first
    | rw [key 10 4 _ (by norm_num) rfl]
    | rw [key 13 7 _ (by norm_num) rfl]
    simp [Function.update]

-- the hypotheses are met: the 3S1-3D1 constant of Idaho acts in the mixing element and not in 3P0
example : (columnNames .idaho)[9]? = some .C3SD1 ∧ Const.C3SD1.pionic = false ∧ Const.C3SD1.actsIn 1 1 0 2 0 ∧ ¬ Const.C3SD1.actsIn 1 0 1 1 0 ∧
    Waves 1 0 1 1 1 ∧ (columnNames .isN2LO)[15]? = some .threeNucleon := by
  refine ⟨rfl, rfl, ?_, ?_, ⟨by decide, by decide, by decide, by decide, by decide, by decide⟩, rfl⟩ <;> simp [Const.actsIn]

-- the columns listed are those the routines read
example (m : ChiralModel) : (columnNames m).length = m.columns := by cases m <;> rfl

end TicTac
end
