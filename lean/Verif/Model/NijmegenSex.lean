import Verif.Model.NijmegenNum
import Mathlib.Analysis.SpecialFunctions.Pow.Real
import Mathlib.Analysis.SpecialFunctions.Trigonometric.DerivHyp
import Mathlib.Algebra.Order.Floor.Ring
/-! `SEXN`, `PLCFS` and `GRENS` of Interactions/nijmegen/pnijm.f (P): the integrals of the Nijmegen potential, with what is kept between calls.
Arithmetic is exact; the single-precision numbers of P:2341, P:2358-2363 and `GRENS` are taken as written. -/
noncomputable section
namespace TicTac

/-- The table `ANL` of `PLCFS`, P:2886-2921, `legTab l n` being `ANL(n+1,l+1)`; every entry is set once. -/
def legTab : Nat → Nat → ℝ
  | 0, n => if n = 0 then 1 else 0
  | 1, n => if n = 1 then 1 else 0
  | l + 2, n =>
    if n ≤ l + 2 then
      let bb := if 1 ≤ n ∧ n - 1 ≤ l + 1 then legTab (l + 1) (n - 1) else 0
      let cc := if n + 1 ≤ l + 1 then legTab l n else 0
      ((2 * (l + 1 : Nat) + 1) * bb - (l + 1 : Nat) * cc) / ((l + 1 : Nat) + 1)
    else 0

/-- `GRENS`, P:2927-2951. -/
def sexGrens (x : ℝ) : ℝ :=
  if 1.2e6 < x then x ^ (0.847 : ℝ)
  else if 9e4 < x then x ^ (0.825 : ℝ)
  else if 6900 < x then x ^ (0.806 : ℝ)
  else if 460 < x then x ^ (0.781 : ℝ)
  else if 23 < x then x ^ (0.751 : ℝ)
  else (x * 0.1809910 - -0.0595734 + Real.sqrt ((-0.0595734 - x * 0.1809910) ^ 2 - 4 * 0.649227 * (-0.589654 - x))) / 2 / 0.649227

/-- `CHECK`, P:2341. -/
def sexCheck (y : ℝ) (max : Nat) : ℝ := 0.434 * (-max + (y + max + 0.5) * Real.log (1 + (max + 1) / y))

/-- `MMAX`, P:2355-2372; conversions to integers cut off the fraction. -/
def sexStart (y : ℝ) (max : Nat) : Nat :=
  let mmax :=
    if y < 1e-4 then max + 4
    else
      let grens1 := 9.197 / y
      let grens2 := max * Real.log ((max + 1) / 2.718 / y) / 2.718 / y + 8.829 / y
      let grens1 := sexGrens grens1 * 2.718 * y
      let grens2 := sexGrens grens2 * 2.718 * y
      Nat.max ⌊grens1 + 1⌋₊ ⌊grens2 + 1⌋₊
  if mmax % 2 = 0 then mmax + 1 else mmax

/-- The loop of P:2345-2351: `TN(n+1)`, `SH` and `CH` after `n` rounds. -/
def tnForward (y sh ch : ℝ) : Nat → ℝ × ℝ × ℝ
  | 0 => (sh, sh, ch)
  | n + 1 =>
    let r := tnForward y sh ch n
    (r.2.2 - (n + 1 : Nat) * r.1 / y, r.2.2, r.2.1)

/-- The loop of P:2371-2383 from `I` = `k`+1 down to 2. -/
def tnBack (y : ℝ) (max : Nat) : Nat → ℝ → ℝ → ℝ → (Nat → ℝ) → (Nat → ℝ)
  | 0, _, _, _, tn => tn
  | k + 1, t, sh, ch, tn =>
    let t := (sh - y * t) / (k + 1 : Nat)
    let tn := if k + 2 ≤ max + 1 then Function.update tn (k + 1) t else tn
    tnBack y max k t ch sh tn

/-- `UN(n+1)` in P:2406-2410. -/
def unForward (x u1 : ℝ) (tn : Nat → ℝ) : Nat → ℝ
  | 0 => u1
  | n + 1 => x * unForward x u1 tn n - tn (n + 1)

/-- The loop of P:2421-2426 with `left` rounds left, the next one being round `i`; `none` if it reads beyond `TN(30)`; a division by zero does not end it. -/
def unSeries (x : ℝ) (tn : Nat → ℝ) (max : Nat) : Nat → Nat → ℝ → ℝ → ℝ → Option ℝ
  | 0, _, sum, _, _ => some sum
  | left + 1, i, sum, xi, dsum =>
    let sum := sum + dsum
    let xi := xi / x
    if 30 < max + i then none
    else
      let dsum := tn (max + i) * xi
      if sum ≠ 0 ∧ |dsum / sum| < 1e-13 then some sum else unSeries x tn max left (i + 1) sum xi dsum

/-- `UN(max-k)` in P:2428-2432. -/
def unBack (x umax : ℝ) (tn : Nat → ℝ) (max : Nat) : Nat → ℝ
  | 0 => umax
  | k + 1 => (unBack x umax tn max k + tn (max - (k + 1))) / x

/-- What `SEXN` keeps between calls, P:2302-2321. -/
structure SexMem where
  tn : Nat → ℝ
  xyhh : ℝ
  yh : ℝ
  xh : ℝ

/-- The sums of P:2447-2457 and P:2459-2466. -/
def legSum (f : Nat → ℝ) (n : Nat) : ℝ := ∑ k ∈ Finset.range (n + 1), legTab n k * f (k + 1)

/-- The tables of labels 9 to 51 for `EP`, `EM`, `ENU` as computed before, P:2332-2384; `none` if they write beyond `TN(30)`. -/
def sexFill (m : SexMem) (x y a ep em enu : ℝ) (j : Nat) : Option SexMem :=
  let max := if 5 < x then j + 2 + 20 else j + 2
  if sexCheck y max ≤ 7 then
    if 30 < max then none
    else some { m with tn := fun i => if 1 ≤ i ∧ i ≤ max then (tnForward y ((ep - em) / y) ((ep + em) / y) (i - 1)).1 else m.tn i, xyhh := y * x - a * a, yh := y }
  else
    let mmax := sexStart y max
    if 30 < Nat.min max (mmax - 1) then none
    else some { m with tn := tnBack y max (mmax - 1) 0 (enu * Real.sinh y * nijFdexp (-(y * x))) (ep + em) m.tn, xyhh := y * x - a * a, yh := y }

/-- `SEXN`, P:2299-2467, on the arrays `ELN`, `ERN` of the caller; `none` if it leaves the table `TN`. -/
def sexn (ce1 : ℝ → ℝ) (m : SexMem) (x y a : ℝ) (j kom : Nat) (eln ern : Nat → ℝ) : Option (SexMem × (Nat → ℝ) × (Nat → ℝ)) :=
  let ym := y - y * x
  let yp := y + y * x
  let yx := y * x
  if ym - a ^ 2 < -160 then
    some ({ m with tn := fun i => if 1 ≤ i ∧ i ≤ 30 then 0 else m.tn i },
      fun i => if 1 ≤ i ∧ i ≤ j + 1 then 0 else eln i, fun i => if 1 ≤ i ∧ i ≤ j + 1 then 0 else ern i)
  else
    let enu := nijFdexp (a * a)
    let ep := if -160 < ym then nijFdexp ym * enu / 2 else 0
    let em := if -160 < -yp then nijFdexp (-yp) * enu / 2 else 0
    let xyh := yx - a * a
    let same := |xyh - m.xyhh| < 1e-10 * xyh ∧ y = m.yh
    (if same ∧ ¬(5 < x ∧ m.xh ≤ 5) then some m else sexFill m x y a ep em enu j).bind fun m =>
      let m := { m with xh := x }
      let ern := fun i => if 1 ≤ i ∧ i ≤ j + 1 then legSum m.tn (i - 1) else ern i
      if kom = 2 then some (m, eln, ern)
      else
        (if 5 < x then
          let sum := m.tn (j + 1) / x
          (if sum = 0 then some sum else unSeries x m.tn (j + 1) 20 1 sum (1 / x) 0).map fun umax => fun i => unBack x umax m.tn (j + 1) (j + 1 - i)
        else some fun i => unForward x (ep * ce1 (-ym) - em * ce1 yp) m.tn (i - 1)).map fun un =>
          (m, fun i => if 1 ≤ i ∧ i ≤ j + 1 then legSum un (i - 1) else eln i, ern)

end TicTac
end
