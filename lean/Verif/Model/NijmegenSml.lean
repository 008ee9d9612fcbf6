import Verif.Model.NijmegenSex
/-! `SMLLEX`, `QJ99`, `HYPRG99` and `SEX` of Interactions/nijmegen/pnijm.f (P).  Arithmetic is exact (real numbers). -/
noncomputable section
namespace TicTac

/-- The loop of `HYPRG99`, P:2654-2663, with `left` rounds left (it then prints a message and returns the sum all the same). -/
def hypLoop (z : ℝ) : Nat → ℝ → ℝ → ℝ → ℝ → ℝ → ℝ → ℝ
  | 0, _, _, _, _, _, s => s
  | left + 1, az, bz, cz, dz, t, s =>
    let az := az + 1
    let bz := bz + 1
    let cz := cz + 1
    let dz := dz + 1
    let t := t * az * bz / cz / dz * z
    if |t / s| ≤ 1e-7 then s else hypLoop z left az bz cz dz t (s + t)

/-- `HYPRG99`, P:2638-2668. -/
def hyprg (a b c z : ℝ) (nmax : Nat) : ℝ := hypLoop z (nmax - 1) a b c 1 (a * b * z / c) (a * b * z / c + 1)

/-- The loop at label 20 of `QJ99`, P:2587-2595, with the sums for `J`=1 (`QX`) and `J`=2 (`QX`); `none` if it has not ended after `fuel` rounds. -/
def qjSeries (x : ℝ) : Nat → ℝ → ℝ → ℝ → ℝ → Option (ℝ × ℝ)
  | 0, _, _, _, _ => none
  | fuel + 1, ak, fact, q0, q1 =>
    let ak := ak + 2
    let fact := fact * (1 / x / x)
    let term0 := fact / ak
    let term1 := fact / x / (ak + 2)
    if |term0| < 1e-40 then some (q0, q1) else qjSeries x fuel ak fact (q0 + term0) (q1 + term1)

/-- P:2599-2621, the value of the second pass. -/
def qjHyp (l : Nat) (x : ℝ) : ℝ :=
  let z := 1 / (x + Real.sqrt (x * x - 1))
  (∏ i ∈ Finset.range l, ((i + 1 : Nat) : ℝ) / (2 * (i + 1 : Nat) + 1)) * (2 * z) ^ (l + 1) * hyprg 0.5 (l + 1 : Nat) ((l + 1 : Nat) + 0.5) (z * z) 400

/-- `QX` of `QJ99`, P:2559-2634, for `x` above 1 (others are not passed, see `smllex`). -/
def qj99 (fuel : Nat) (l : Nat) (x : ℝ) : Option ℝ :=
  if x < 1e4 ∧ l = 0 then some (Real.log ((x + 1) / (x - 1)) / 2)
  else if x < 1e4 ∧ l = 1 then some (x * (Real.log ((x + 1) / (x - 1)) / 2) - 1)
  else if 1e4 < x then
    (qjSeries x fuel 1 (1 / x) (1 / x / 1) (1 / x / x / (1 + 2))).map fun q => if l = 0 then q.1 else if l = 1 then q.2 else qjHyp l x
  else some (qjHyp l x)

/-- A number assigned to an integer variable. -/
def truncInt (r : ℝ) : Int := if 0 ≤ r then ⌊r⌋ else ⌈r⌉

/-- `TERM`, P:2532-2544; `ALN` is an integer variable (P:2483). -/
def smlTerm (l k : Nat) : ℝ := ∑ n ∈ Finset.range 13, if (n + k) % 2 = 0 ∧ truncInt (legTab l n) ≠ 0 then (truncInt (legTab l n) : ℝ) * (1 / (n + k + 1 : Nat)) else 0

/-- `AKFAC` before the loop, P:2523-2526. -/
def smlStart (l : Nat) : ℝ := ∏ kk ∈ Finset.Icc 1 (l + 1), if kk ≠ 1 ∧ kk ≠ l + 1 then ((kk - 1 : Nat) : ℝ) else 1

/-- The loop of P:2527-2546, with `left` rounds left. -/
def smlLoop (y ex : ℝ) (l : Nat) : Nat → Nat → ℝ → ℝ → ℝ
  | 0, _, _, acc => acc
  | left + 1, k, ak, acc =>
    let ak := if k ≠ 0 then k * ak else ak
    smlLoop y ex l left (k + 1) ak (acc + ex * y ^ k * smlTerm l k / ak)

/-- `SMLLEX`, P:2477-2551, with the array `QLEG` it keeps; `none` if it leaves that array or `QJ99` does not end. -/
def smllex (fuel : Nat) (qleg : Nat → ℝ) (x y a : ℝ) (j : Nat) (eln ern : Nat → ℝ) : Option ((Nat → ℝ) × (Nat → ℝ) × (Nat → ℝ)) :=
  let max := j + 3
  if 15 < max + 1 then none
  else if a ≠ 0 ∧ ∃ k < max, qj99 fuel k x = none then none
  else
    let enu := nijFdexp (a * a)
    let ex := nijFdexp (-(y * x))
    let q := fun k => if 1 ≤ k ∧ k ≤ max then (if a ≠ 0 then (qj99 fuel (k - 1) x).getD 0 else 0) else qleg k
    some (q, fun i => if 1 ≤ i ∧ i ≤ max then
        enu * (if i = 1 then ex * (q 1 + y * q 2) else ex * (q i + y * ((i : Nat) / (2 * (i - 1 : Nat) + 1) * q (i + 1) + (i - 1 : Nat) / (2 * (i - 1 : Nat) + 1) * q (i - 1))))
      else eln i,
      fun i => if 1 ≤ i ∧ i ≤ max then enu * smlLoop y ex (i - 1) (20 - (i - 1)) (i - 1) (smlStart (i - 1)) 0 else ern i)

/-- What `SEX` keeps between calls. -/
structure SexAll where
  sexn : SexMem
  qleg : Nat → ℝ

/-- `SEX`, P:2266-2296, for `x` of at least 1 or `y` up to 1e-3; the other branches (`WEX` and negative `x`) are not modelled. -/
def sexTop (ce1 : ℝ → ℝ) (fuel : Nat) (m : SexAll) (x y a : ℝ) (j kom : Nat) (eln ern : Nat → ℝ) : Option (SexAll × (Nat → ℝ) × (Nat → ℝ)) :=
  if y ≤ 1e-3 then (smllex fuel m.qleg x y a j eln ern).map fun r => ({ m with qleg := r.1 }, r.2)
  else if 1 ≤ x then (sexn ce1 m.sexn x y a j kom eln ern).map fun r => ({ m with sexn := r.1 }, r.2)
  else none

end TicTac
end
