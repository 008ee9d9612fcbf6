import Mathlib.Analysis.SpecialFunctions.Exp
import Mathlib.Analysis.SpecialFunctions.Log.Basic
/-! `FDEXP` and `CE1` of Interactions/nijmegen/pnijm.f (P).  Arithmetic is exact (real numbers). -/
noncomputable section
namespace TicTac

/-- `FDEXP`, P:2135-2143. -/
def nijFdexp (x : ℝ) : ℝ := if x ≤ -100 then 0 else Real.exp x

/-- The coefficients of `PPX` and `PQX`, P:2149-2186. -/
def ceAP : List ℚ := [0.463996004278035e+01, 0.127788778637147e+03, 0.735910238555843e+03, 0.139583023127254e+04, 0.101614779141469e+04, 0.286647946600883e+03, 0.256489038620717e+02]
def ceAQ : List ℚ := [1, 0.512251050448444e+02, 0.503800829553457e+03, 0.165169408854742e+04, 0.220150290642078e+04, 0.127719811988873e+04, 0.312294439564262e+03, 0.256489625816454e+02]
def ceBP : List ℚ := [0.335956527252693e+01, 0.204955591333077e+02, 0.267757325223533e+02, 0.112883678215773e+02, 0.164680678114210e+01, 0.655193572680895e-01]
def ceBQ : List ℚ := [1, 0.143836492361913e+02, 0.400563387674630e+02, 0.366148021121537e+02, 0.128696120312766e+02, 0.171232738644327e+01, 0.655193403549186e-01]
def ceCP : List ℚ := [0.298014627030798e+01, 0.113803314436134e+02, 0.947288802836929e+01, 0.247747160891423e+01, 0.188516317695352e+00]
def ceCQ : List ℚ := [1, 0.988019055335016e+01, 0.189408176576544e+02, 0.117618585876339e+02, 0.266598761793551e+01, 0.188516320637495e+00]
def ceDP : List ℚ := [0.242331331460798e+01, 0.432777141801875e+01, 0.160959648287707e+01, 0.148720388893508e+00]
def ceDQ : List ℚ := [1, 0.558734308280980e+01, 0.578865453197840e+01, 0.175831677540018e+01, 0.148720389489176e+00]
def ceEP : List ℚ := [0.226526458912153e+01, 0.332000741007556e+01, 0.104761178441346e+01, 0.837423061701825e-01]
def ceEQ : List ℚ := [1, 0.478887726713541e+01, 0.428387700117901e+01, 0.113135408983342e+01, 0.837423061723804e-01]
def ceFP : List ℚ := [0.190053654321203e+01, 0.151285969203750e+01, 0.205314346964057e+00, 0.264152351883344e-03]
def ceFQ : List ℚ := [1, 0.320887608816311e+01, 0.171790987670629e+01, 0.205578499347658e+00, 0.264152351839874e-03]

/-- `C0+X*(C1+X*(...))`. -/
def horner (l : List ℚ) (x : ℝ) : ℝ := l.foldr (fun c r => c + x * r) 0

/-- `EPS` (written `10D-14`) and `GAM`, P:2147-2148. -/
def ceEps : ℝ := 10e-14
def ceGam : ℝ := 0.577215664901532861

/-- The loop at label 1, P:2193-2199, with `E1`, `N`, `IX`, `TERM` at its start; `none` if it has not ended after `fuel` rounds. -/
def ceSmall (x : ℝ) : Nat → ℝ → Nat → ℝ → ℝ → Option ℝ
  | 0, _, _, _, _ => none
  | fuel + 1, e1, n, ix, term =>
    let n := n + 1
    let ix := -ix
    let term := term * x / n
    if term < ceEps then some e1 else ceSmall x fuel (e1 + ix * term / n) n ix term

/-- The loop at label 2, P:2225-2233, with `CE1`, `N`, `IN`, `K`, `Y` at its start; `none` if it has not ended after `fuel` rounds. -/
def ceLarge (x : ℝ) : Nat → ℝ → Nat → ℝ → Nat → ℝ → Option ℝ
  | 0, _, _, _, _, _ => none
  | fuel + 1, ce1, n, sgn, k, y =>
    let n := n + 1
    let sgn := -sgn
    let y := y / x
    let k := k * n
    let term := y * k
    if term / ce1 < ceEps then some ce1 else ceLarge x fuel (ce1 + sgn * term) n sgn k y

/-- `CE1`, P:2145-2240. -/
def nijCe1 (fuel : Nat) (x : ℝ) : Option ℝ :=
  if x < 1 then (ceSmall x fuel (-ceGam - Real.log x + x) 1 1 x).map fun e1 => nijFdexp x * e1 / 1
  else if x < 3 then some (horner ceAP x / horner ceAQ x)
  else if x < 6 then some (horner ceBP x / horner ceBQ x)
  else if x < 14 then some (horner ceCP x / horner ceCQ x)
  else if x < 25 then some (horner ceDP x / horner ceDQ x)
  else if x < 70 then some (horner ceEP x / horner ceEQ x)
  else if x < 165 then some (horner ceFP x / horner ceFQ x)
  else (ceLarge x fuel (1 / x) 0 1 1 (1 / x)).map fun c => c / 1

end TicTac
end
