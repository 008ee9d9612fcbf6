import Verif.Model.Format
import Verif.Model.Numeric
/-! Kinematics and momentum grid in double precision: CPP/General_functions/kinetic_conversion.cpp, CPP/make_wp_states.cpp:26-43, CPP/constants.h:19-22, operation by operation
in the order C++ evaluates them (the makefile sets `-O3` without `-ffast-math` and without a target with fused operations).
The unit that executes the operations is a parameter; its contract (IEEE 754) is in Spec/Double. -/
noncomputable section
namespace TicTac

/-- Operations on doubles; `lit` is the conversion of a decimal literal by the compiler, `tan` and `pow` are the C library. -/
structure Fpu where
  add : ℝ → ℝ → ℝ
  sub : ℝ → ℝ → ℝ
  mul : ℝ → ℝ → ℝ
  div : ℝ → ℝ → ℝ
  sqrt : ℝ → ℝ
  lit : ℝ → ℝ
  tan : ℝ → ℝ
  pow : ℝ → ℝ → ℝ

namespace Fpu
variable (F : Fpu)

/-- constants.h:19-22. -/
def Mp : ℝ := F.lit 938.272
def Mn : ℝ := F.lit 939.565
def MN : ℝ := F.mul (F.lit 0.5) (F.add F.Mp F.Mn)
def mu23 : ℝ := F.div (F.mul F.Mp F.Mn) (F.add F.Mn F.Mp)

/-- `deuteron_mass`, kinetic_conversion.cpp:5-7. -/
def deuteronMass (Eb : ℝ) : ℝ := F.add (F.add F.Mn F.Mp) Eb

/-- `com_momentum_to_lab_energy`, kinetic_conversion.cpp:22-30; `-x` is exact. -/
def comMomentumToLabEnergy (q Eb : ℝ) : ℝ :=
  let Md := F.deuteronMass Eb
  let b := F.mul 2 (F.sub F.Mp (F.div (F.mul q q) Md))
  let c := F.div (F.mul (F.mul (F.mul (-q) q) (F.add F.Mp Md)) (F.add F.Mp Md)) (F.mul Md Md)
  F.mul (F.lit 0.5) (F.add (-b) (F.sqrt (F.sub (F.mul b b) (F.mul 4 c))))

/-- `lab_energy_to_com_momentum`, kinetic_conversion.cpp:33-36. -/
def labEnergyToComMomentum (T Eb : ℝ) : ℝ :=
  let Md := F.deuteronMass Eb
  F.sqrt (F.div (F.mul (F.mul (F.mul Md Md) T) (F.add T (F.mul 2 F.Mp))) (F.add (F.mul (F.add F.Mp Md) (F.add F.Mp Md)) (F.mul (F.mul 2 T) Md)))

/-- `com_energy_to_com_q_momentum`, kinetic_conversion.cpp:39-41. -/
def comEnergyToComQ (E : ℝ) : ℝ := F.sqrt (F.div (F.mul (F.mul 4 E) F.MN) 3)

/-- `com_q_momentum_to_com_energy`, kinetic_conversion.cpp:44-46. -/
def comQToComEnergy (q : ℝ) : ℝ := F.div (F.mul (F.mul 3 q) q) (F.mul 4 F.MN)

/-- `com_energy_to_com_p_momentum`, kinetic_conversion.cpp:49-51. -/
def comEnergyToComP (E : ℝ) : ℝ := F.sqrt (F.mul (F.mul 2 E) F.mu23)

/-- `com_p_momentum_to_com_energy`, kinetic_conversion.cpp:52-54. -/
def comPToComEnergy (p : ℝ) : ℝ := F.div (F.mul p p) (F.mul 2 F.mu23)

/-- `M_PI`, `math.h`. -/
def mPi : ℝ := F.lit 3.14159265358979323846

/-- Loop body of `make_chebyshev_distribution`, make_wp_states.cpp:34-36; the integers `2*i-1` and `4*N_WP` are converted to double. -/
def chebValue (N : Nat) (scale t : ℝ) (i : Nat) : ℝ :=
  F.mul scale (F.pow (F.tan (F.div (F.mul (((2 * i - 1 : Int) : ℝ)) F.mPi) ((4 * N : Int) : ℝ))) t)

/-- `make_chebyshev_distribution`, make_wp_states.cpp:26-43. -/
def chebArray (N : Nat) (scale t : ℝ) (init : Nat → ℝ) : Nat → ℝ :=
  Function.update ((List.range N).foldl (fun arr k => Function.update arr (k + 1) (F.chebValue N scale t (k + 1))) init) 0 0

/-- `p_normalization`, `q_normalization`, make_wp_states.cpp:3-15. -/
def normalization (x0 x1 : ℝ) : ℝ := F.sqrt (F.sub x1 x0)

/-- Bin midpoints, make_wp_states.cpp:150-162. -/
def binMidpoint (a b : ℝ) : ℝ := F.mul (F.lit 0.5) (F.add a b)

end Fpu
end TicTac
end
