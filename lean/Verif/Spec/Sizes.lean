/-!
Specification for C118: for which sizes of a calculation the 32-bit `int` arithmetic of the program is exact.
Only plain inequalities between the sizes the user (or the channel) determines; nothing of the model is used here.
-/
namespace TicTac.Spec

/-- The sizes of a calculation: partial-wave states of the 3N channel, q and p bins, points of the angular meshes, quadrature points per
bin, uncoupled and coupled two-nucleon channels, largest total orbital angular momentum of the prestored recoupling coefficients, largest
angular momentum of the 6j table, recorded breakup cells. -/
structure Sizes where
  Na : Nat
  Nq : Nat
  Np : Nat
  Nphi : Nat
  Nx : Nat
  pPer : Nat
  qPer : Nat
  unco : Nat
  coup : Nat
  Lmax : Nat
  lmax : Nat
  bu : Nat

/-- There is at least one of everything that is looped over (breakup cells and coupled channels may be missing). -/
def Sizes.Proper (s : Sizes) : Prop :=
  1 ≤ s.Na ∧ 1 ≤ s.Nq ∧ 1 ≤ s.Np ∧ 1 ≤ s.Nphi ∧ 1 ≤ s.Nx ∧ 1 ≤ s.pPer ∧ 1 ≤ s.qPer ∧ 1 ≤ s.unco

/-- The sizes a 32-bit program can treat. -/
structure Fits (s : Sizes) : Prop where
  /-- pairs of momentum cells: one overlap flag each -/
  cells : s.Nq ^ 2 * s.Np ^ 2 < 2 ^ 31
  /-- four energies for every (state, q bin, p bin) -/
  boundaries : 4 * (s.Na * s.Np * s.Nq) < 2 ^ 31
  /-- phi mesh of every momentum cell -/
  angles : s.Nq * s.Np * s.Nphi < 2 ^ 31
  /-- (phi, x) mesh -/
  mesh : s.Nphi * s.Nx < 2 ^ 31
  /-- recoupling coefficients -/
  recoupling : s.Na ^ 2 * (s.Lmax + 1) < 2 ^ 31
  /-- matrices of the uncoupled channels -/
  uncoupled : s.Np ^ 2 * s.unco < 2 ^ 31
  /-- matrices of the coupled channels (four blocks); one of them at least must fit -/
  coupled : 4 * s.Np ^ 2 * max 1 s.coup < 2 ^ 31
  /-- twice the offset of the last packed triangle of the uncoupled Hamiltonians; one of them at least must fit -/
  trianglesUnco : s.Np * (s.Np + 1) * max 1 (s.unco - 1) < 2 ^ 31
  /-- the same for the coupled ones -/
  trianglesCoup : 2 * s.Np * (2 * s.Np + 1) * max 1 (s.coup - 1) < 2 ^ 31
  /-- energies of the uncoupled channels -/
  energiesUnco : (s.Np + 1) * s.unco < 2 ^ 31
  /-- energies of the coupled channels -/
  energiesCoup : 2 * (s.Np + 1) * max 1 s.coup < 2 ^ 31
  /-- quadrature points of all p bins and of all q bins -/
  pPoints : s.Np * s.pPer < 2 ^ 31
  qPoints : s.Nq * s.qPer < 2 ^ 31
  /-- 6j coefficients -/
  sixj : (2 * s.lmax + 1) ^ 6 < 2 ^ 31
  /-- pairs (breakup cell, deuteron state) -/
  breakup : s.bu * s.Na ≤ 2 ^ 31

end TicTac.Spec
