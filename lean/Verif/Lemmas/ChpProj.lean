import Verif.Model.Chp
import Verif.Lemmas.Chp
/-! The projection routines of the chiral potential as one integral with polynomial weights. -/
noncomputable section
namespace TicTac
open Matrix Polynomial Spec

theorem chpLegLoop_eq (z : ℝ) (n : Nat) : chpLegLoop z n = ((legendre n).eval z, (legendre (n + 1)).eval z) := by
  induction n with
  | zero => simp [chpLegLoop, legendre_zero, legendre_one]
  | succ n ih =>
    simp only [chpLegLoop, ih]
    rw [legendre_eval_bonnet n z]
    congr 1
    congr 1 <;> ring

theorem chpLegendre_eq (l : Nat) (z : ℝ) (hz : |z| ≤ 1) : chpLegendre l z = (legendre l).eval z := by
  unfold chpLegendre
  rw [if_neg (not_lt.2 hz)]
  split_ifs with h
  · subst h; simp [legendre_zero]
  · rw [chpLegLoop_eq]; simp only [show l - 1 + 1 = l by omega]

/-- `P_j(z)`, zero for negative `j`. -/
def legI (z : ℝ) (j : Int) : ℝ := if j < 0 then 0 else (legendre j.toNat).eval z

/-- `2π ∫ dz` by the quadrature rule. -/
def ang (rule : List (ℝ × ℝ)) (f : ℝ → ℝ) : ℝ := 2 * Real.pi * (rule.map fun xw => xw.2 * f xw.1).sum

theorem ang_lin (rule : List (ℝ × ℝ)) (a b c : ℝ) (f g h k : ℝ → ℝ) (e : ∀ z, a * f z + b * g z + c * h z = k z) :
    a * ang rule f + b * ang rule g + c * ang rule h = ang rule k := by
  unfold ang
  induction rule with
  | nil => simp
  | cons xw r ih =>
    simp only [List.map_cons, List.sum_cons]
    rw [← e]
    linear_combination ih

theorem ang_congr (rule : List (ℝ × ℝ)) (f g : ℝ → ℝ) (h : ∀ xw ∈ rule, f xw.1 = g xw.1) : ang rule f = ang rule g := by
  unfold ang
  congr 2
  exact List.map_congr_left fun xw hx => by rw [h xw hx]

theorem ang_zero (rule : List (ℝ × ℝ)) : ang rule (fun _ => 0) = 0 := by unfold ang; simp

theorem pwdIntegral_eq (rule : List (ℝ × ℝ)) (hr : ∀ xw ∈ rule, |xw.1| ≤ 1) (W : ℝ → ℝ) (l : Nat) (j : Int) (hj : j ≤ 40) :
    pwdIntegral rule W l j = some (1 / 2 * ang rule fun z => W z * (z ^ l * legI z j)) := by
  unfold pwdIntegral legI
  split_ifs with h1 h2
  · simp [ang_zero]
  · unfold chpJmax at h2; omega
  · unfold ang
    congr 1
    rw [← mul_assoc, ← mul_assoc]
    congr 1
    · ring
    · congr 1
      refine List.map_congr_left fun xw hx => ?_
      rw [chpLegendre_eq _ _ (hr xw hx)]
      ring

section
variable (J : Nat) (coup : Bool) (S : Int) (pp p z : ℝ)
/-- The weights of the central force. -/
def coefC : Six :=
  if coup = false ∧ S = 0 then ![legI z J, 0, 0, 0, 0, 0]
  else if coup = false ∧ S = 1 then ![0, legI z J, 0, 0, 0, 0]
  else if coup then ![0, 0, legI z (J + 1), (if J = 0 then 0 else legI z (J - 1)), 0, 0] else 0
/-- The weights of the spin-spin force. -/
def coefS : Six := (if coup = false ∧ S = 0 then -3 else 1 : ℝ) • coefC J coup S z
/-- The weights of the spin-orbit force. -/
def coefLS : Six :=
  if coup = false ∧ S = 0 then 0
  else if coup = false ∧ S = 1 then ![0, pp * p * (legI z (J + 1) - legI z (J - 1)) / (2 * J + 1), 0, 0, 0, 0]
  else if coup then ![0, 0, pp * p * (J + 2) * (legI z (J + 2) - legI z J) / (2 * J + 3),
    (if J = 0 then 0 else pp * p * (J - 1) * (legI z (J - 2) - legI z J) / (2 * J - 1)), 0, 0] else 0
/-- The weights of the sigma-L force. -/
def coefSL : Six :=
  if coup = false ∧ S = 0 then ![pp ^ 2 * p ^ 2 * (z ^ 2 - 1) * legI z J, 0, 0, 0, 0, 0]
  else if coup = false ∧ S = 1 then
    ![0, pp ^ 2 * p ^ 2 * (-legI z J + ((J - 1) * z * legI z (J + 1) + (J + 2) * z * legI z (J - 1)) / (2 * J + 1)), 0, 0, 0, 0]
  else if coup then
    ![0, 0, pp ^ 2 * p ^ 2 * (-z ^ 2 * legI z (J + 1) + ((2 * J + 3) * legI z (J + 1) - 2 * z * legI z J) / (2 * J + 1)),
      (if J = 0 then 0 else pp ^ 2 * p ^ 2 * (-z ^ 2 * legI z (J - 1) + ((2 * J - 1) * legI z (J - 1) + 2 * z * legI z J) / (2 * J + 1))),
      (if J = 0 then 0 else -(Real.sqrt (J * (J + 1)) * 2 * pp ^ 2 * p ^ 2 * (legI z (J + 1) - legI z (J - 1)) / (2 * J + 1) ^ 2)),
      (if J = 0 then 0 else -(Real.sqrt (J * (J + 1)) * 2 * pp ^ 2 * p ^ 2 * (legI z (J + 1) - legI z (J - 1)) / (2 * J + 1) ^ 2))]
  else 0
/-- The weights of the tensor force. -/
def coefT : Six :=
  if coup = false ∧ S = 0 then ![(-(pp ^ 2 + p ^ 2) + 2 * pp * p * z) * legI z J, 0, 0, 0, 0, 0]
  else if coup = false ∧ S = 1 then
    ![0, (pp ^ 2 + p ^ 2) * legI z J - 2 * pp * p * (J * legI z (J + 1) + (J + 1) * legI z (J - 1)) / (2 * J + 1), 0, 0, 0, 0]
  else if coup then
    ![0, 0, (-(pp ^ 2 + p ^ 2) * legI z (J + 1) + 2 * pp * p * legI z J) / (2 * J + 1),
      (if J = 0 then 0 else ((pp ^ 2 + p ^ 2) * legI z (J - 1) - 2 * pp * p * legI z J) / (2 * J + 1)),
      (if J = 0 then 0 else -(2 * Real.sqrt (J * (J + 1)) * (p ^ 2 * legI z (J + 1) + pp ^ 2 * legI z (J - 1) - 2 * pp * p * legI z J) / (2 * J + 1))),
      (if J = 0 then 0 else -(2 * Real.sqrt (J * (J + 1)) * (p ^ 2 * legI z (J - 1) + pp ^ 2 * legI z (J + 1) - 2 * pp * p * legI z J) / (2 * J + 1)))]
  else 0
end

/-- Equality of two linear combinations of integrals over the same rule. -/
local macro "ang_linear" r:ident : tactic => `(tactic| (
  clear * -
  unfold ang
  induction $r:ident with
  | nil => simp
  | cons xw r ih =>
    simp only [List.map_cons, List.sum_cons]
    linear_combination ih))

section
variable (rule : List (ℝ × ℝ)) (hr : ∀ xw ∈ rule, |xw.1| ≤ 1) (W : ℝ → ℝ) (S T tz : Int) (J : Nat) (hJ : J ≤ 38) (coup : Bool) (pp p : ℝ) (POT : Six)
include hr hJ

theorem pwdC_eq : pwdC (pwdIntegral rule W) ⟨S, J, T, tz, coup⟩ POT = some (POT + fun k => ang rule fun z => W z * coefC J coup S z k) := by
  unfold pwdC coefC
  dsimp only
  rw [pwdIntegral_eq rule hr W 0 J (by omega), pwdIntegral_eq rule hr W 0 (J + 1) (by omega), pwdIntegral_eq rule hr W 0 (J - 1) (by omega)]
  simp only [Option.map_some, Option.bind_some, Nat.cast_eq_zero, pow_zero, one_mul]
  split_ifs <;> congr 1 <;> (try congr 1) <;> funext k <;> fin_cases k <;> simp [ang_zero]

theorem pwdS_eq : pwdS (pwdIntegral rule W) ⟨S, J, T, tz, coup⟩ POT = some (POT + fun k => ang rule fun z => W z * coefS J coup S z k) := by
  have h3 : ∀ f : ℝ → ℝ, ang rule (fun z => W z * (-3 * f z)) = -3 * ang rule fun z => W z * f z := by
    intro f
    have := ang_lin rule (-3) 0 0 (fun z => W z * f z) (fun _ => 0) (fun _ => 0) (fun z => W z * (-3 * f z)) (fun z => by ring)
    linear_combination -this
  unfold pwdS coefS coefC
  dsimp only
  rw [pwdIntegral_eq rule hr W 0 J (by omega), pwdIntegral_eq rule hr W 0 (J + 1) (by omega), pwdIntegral_eq rule hr W 0 (J - 1) (by omega)]
  simp only [Option.map_some, Option.bind_some, Nat.cast_eq_zero, pow_zero, one_mul]
  split_ifs <;> congr 1 <;> (try congr 1) <;> funext k <;> fin_cases k <;> simp [ang_zero]
  have := h3 fun z => legI z J
  simp only [neg_mul, mul_neg] at this
  rw [this]; ring

theorem pwdLS_eq : pwdLS (pwdIntegral rule W) ⟨S, J, T, tz, coup⟩ pp p POT = some (POT + fun k => ang rule fun z => W z * coefLS J coup S pp p z k) := by
  unfold pwdLS coefLS
  dsimp only
  rw [pwdIntegral_eq rule hr W 0 J (by omega), pwdIntegral_eq rule hr W 0 (J + 1) (by omega), pwdIntegral_eq rule hr W 0 (J - 1) (by omega),
    pwdIntegral_eq rule hr W 0 (J + 2) (by omega), pwdIntegral_eq rule hr W 0 (J - 2) (by omega)]
  simp only [Option.map_some, Option.bind_some, Nat.cast_eq_zero, pow_zero, one_mul, Int.cast_natCast]
  split_ifs <;> congr 1 <;> (try congr 1) <;> funext k <;> fin_cases k <;> simp [ang_zero]
  all_goals ang_linear rule

theorem pwdT_eq : pwdT (pwdIntegral rule W) ⟨S, J, T, tz, coup⟩ pp p POT = some (POT + fun k => ang rule fun z => W z * coefT J coup S pp p z k) := by
  unfold pwdT coefT
  dsimp only
  rw [pwdIntegral_eq rule hr W 0 J (by omega), pwdIntegral_eq rule hr W 1 J (by omega), pwdIntegral_eq rule hr W 0 (J + 1) (by omega), pwdIntegral_eq rule hr W 0 (J - 1) (by omega)]
  simp only [Option.map_some, Option.bind_some, Nat.cast_eq_zero, pow_zero, pow_one, one_mul, Int.cast_natCast]
  split_ifs <;> congr 1 <;> (try congr 1) <;> funext k <;> fin_cases k <;> simp [ang_zero]
  all_goals ang_linear rule

theorem pwdSigL_eq : pwdSigL (pwdIntegral rule W) ⟨S, J, T, tz, coup⟩ pp p POT = some (POT + fun k => ang rule fun z => W z * coefSL J coup S pp p z k) := by
  unfold pwdSigL coefSL
  dsimp only
  rw [pwdIntegral_eq rule hr W 0 J (by omega), pwdIntegral_eq rule hr W 2 J (by omega), pwdIntegral_eq rule hr W 1 J (by omega), pwdIntegral_eq rule hr W 0 (J + 1) (by omega), pwdIntegral_eq rule hr W 0 (J - 1) (by omega),
    pwdIntegral_eq rule hr W 1 (J + 1) (by omega), pwdIntegral_eq rule hr W 1 (J - 1) (by omega), pwdIntegral_eq rule hr W 2 (J + 1) (by omega), pwdIntegral_eq rule hr W 2 (J - 1) (by omega)]
  simp only [Option.map_some, Option.bind_some, Nat.cast_eq_zero, pow_zero, pow_one, one_mul, Int.cast_natCast]
  split_ifs <;> congr 1 <;> (try congr 1) <;> funext k <;> fin_cases k <;> simp [ang_zero]
  all_goals ang_linear rule
end

end TicTac
end
