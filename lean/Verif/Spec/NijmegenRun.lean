import Verif.Model.NijmegenRun
import Verif.Spec.NijmegenSml
/-! What a user relies on in a run that evaluates the Nijmegen potential many times. -/
noncomputable section
namespace TicTac

/-- The waves and momenta (MeV) covered. -/
structure NijEval.Covered (e : NijEval) : Prop where
  j : e.p.j ≤ 4
  qi : 0 < e.qi
  qf : 0 < e.qf
  sum : e.qi + e.qf ≤ 3300

/-- The parameters of a wave. -/
def NijEval.pars (e : NijEval) : NijPars := nijPars (nijTable e.p (nijIsign e.typ))
/-- The argument `y` of the exchanges with a cutoff, and of the diffractive ones. -/
def NijEval.yCut (e : NijEval) (lam : ℚ) : ℝ := 2 * (e.qi * e.qf) / (lam * lam)
def NijEval.yDif (e : NijEval) : ℝ := 0.5 * (e.qi * e.qf) / (e.pars.ampom * e.pars.ampom)

/-- The memory after a history of evaluations (latest first) since the start of the program. -/
inductive NijReach (N : NijNum) (fuel : Nat) : List NijEval → SexAll → Prop
  | start (tn : Nat → ℝ) : NijReach N fuel [] ⟨⟨tn, 1e20, 1e20, 1e20⟩, fun _ => 0⟩
  | eval {h : List NijEval} {m m' : SexAll} {e : NijEval} {junk : Nat → (Nat → ℝ) × (Nat → ℝ)} {v : PotMom} : NijReach N fuel h m →
      vmomRun N fuel junk m e = some (m', v) → NijReach N fuel (e :: h) m'

/-- An evaluation that finds tables left by the diffractive exchanges of an earlier one does not want more waves than they had, or has other values of `y`. -/
def NijSteady : List NijEval → Prop
  | [] => True
  | e :: h => (∀ newer d older, h = newer ++ d :: older → (∀ b ∈ newer, b.yDif ≤ 1e-3) → 1e-3 < d.yDif →
      e.p.j ≤ d.p.j ∨ (e.yCut e.pars.alamp ≠ d.yDif ∧ e.yCut e.pars.alamv ≠ d.yDif ∧ e.yCut e.pars.alams ≠ d.yDif ∧ e.yDif ≠ d.yDif)) ∧ NijSteady h

/-- The arrays `l`, `r` (`ELN`, `ERN`) returned by a call are close to the integrals: all waves with the propagator, all but the highest without it. -/
structure CallNear (c : SexCall) (l r : Nat → ℝ) : Prop where
  noProp : 1e-3 < c.y → ∀ n < c.j, |r (n + 1) - sexR c n| ≤ 3 ^ n * 1.3e-7 * sexSize c
  prop5 : 1e-3 < c.y → c.kom = 1 → 5 < c.x → ∀ n ≤ c.j, |l (n + 1) - sexL c n| ≤ 3 ^ n * 6.7e-6 * sexSize c
  prop : 1e-3 < c.y → c.kom = 1 → c.x ≤ 5 → ∀ n ≤ c.j, |l (n + 1) - sexL c n| ≤ 15 ^ n * 3.3e-8 * sexSize c
  small : c.y ≤ 1e-3 → c.kom = 1 → ∀ n ≤ c.j, |l (n + 1) - sexL c n| ≤ (1.35e-7 + c.y ^ 2) * smlSize c / (c.x - 1)
  small01 : c.y ≤ 1e-3 → ∀ n ≤ c.j, n ≤ 1 → |r (n + 1) - sexR c n| ≤ c.y ^ 20 * smlSize c
  small2 : c.y ≤ 1e-3 → ∀ n ≤ c.j, 2 ≤ n → |r (n + 1) - sexR c n| ≤ (3 * c.y) ^ n * smlSize c

end TicTac
end
