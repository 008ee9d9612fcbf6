import Verif.Spec.ChiralForce
import Mathlib.MeasureTheory.Integral.IntervalIntegral.Basic
import Mathlib.MeasureTheory.Measure.Lebesgue.Basic
/-! Published expressions for two-pion exchange.  [ME] = Machleidt and Entem, Phys. Rep. 503 (2011) 1; [EKMN] = Entem, Kaiser, Machleidt,
Nosyk, Phys. Rev. C 91 (2015) 014002; [EGM] = Epelbaum, Glöckle, Meißner, Nucl. Phys. A 747 (2005) 362.  From the model only the names `Amp`
and `ChiralModel` are used. -/
noncomputable section
namespace TicTac.Spec
open MeasureTheory

/-- The masses above the two-pion threshold up to the spectral cutoff (no cutoff: all of them). -/
def twoPionSpectrum (m : ℝ) : Option ℝ → Set ℝ
  | none => Set.Ioi (2 * m)
  | some Λ => Set.Ioc (2 * m) Λ

/-- The loop function `A(q) = ½ ∫ dμ /(μ² + q²)` over the two-pion spectrum. -/
def spectralA (m : ℝ) (cut : Option ℝ) (q2 : ℝ) : ℝ := (∫ μ in twoPionSpectrum m cut, 1 / (μ ^ 2 + q2)) / 2

/-- The loop function `L(q) = (4m² + q²) ∫ dμ /((μ² + q²) √(μ² - 4m²))` over the two-pion spectrum. -/
def spectralL (m : ℝ) (cut : Option ℝ) (q2 : ℝ) : ℝ :=
  (4 * m ^ 2 + q2) * ∫ μ in twoPionSpectrum m cut, 1 / ((μ ^ 2 + q2) * Real.sqrt (μ ^ 2 - 4 * m ^ 2))

/-- What the expressions depend on: `gA`, `fπ`, the pion mass, the inverse nucleon mass `u`, the pion-nucleon constants, the loop
functions, `q²` and `k²`. -/
structure TPE where
  g : ℝ
  f : ℝ
  m : ℝ
  u : ℝ
  c1 : ℝ
  c2 : ℝ
  c3 : ℝ
  c4 : ℝ
  d12 : ℝ
  d3 : ℝ
  d5 : ℝ
  d1415 : ℝ
  L : ℝ
  A : ℝ
  q2 : ℝ
  k2 : ℝ

/-- `w² = 4m² + q²` and `w̃² = 2m² + q²`. -/
def TPE.w2 (t : TPE) : ℝ := 4 * t.m ^ 2 + t.q2
def TPE.wt2 (t : TPE) : ℝ := 2 * t.m ^ 2 + t.q2

/-- The spin-spin amplitudes that go with the tensor ones: `V_S = -q² V_T`, `W_S = -q² W_T`. -/
def withSpin (q2 : ℝ) (F : Amp → ℝ) : Amp → ℝ
  | .Vs => -q2 * F .VT
  | .Ws => -q2 * F .WT
  | a => F a

/-- Next-to-leading order, [ME] (4.9), (4.10). -/
def TPE.nlo (t : TPE) : Amp → ℝ := withSpin t.q2 fun
  | .Wc => -(t.L / (384 * Real.pi ^ 2 * t.f ^ 4)) * (4 * t.m ^ 2 * (5 * t.g ^ 4 - 4 * t.g ^ 2 - 1)
      + t.q2 * (23 * t.g ^ 4 - 10 * t.g ^ 2 - 1) + 48 * t.g ^ 4 * t.m ^ 4 / t.w2)
  | .VT => -(3 * t.g ^ 4 * t.L / (64 * Real.pi ^ 2 * t.f ^ 4))
  | _ => 0

/-- Next-to-next-to-leading order with its `1/M` corrections, [ME] (4.13)-(4.18). -/
def TPE.n2lo (t : TPE) : Amp → ℝ := withSpin t.q2 fun
  | .Vc => 3 * t.g ^ 2 / (16 * Real.pi * t.f ^ 4) * (t.g ^ 2 * t.m ^ 5 * t.u / (16 * t.w2)
      - (2 * t.m ^ 2 * (2 * t.c1 - t.c3) - t.q2 * (t.c3 + 3 * t.g ^ 2 * t.u / 16)) * t.wt2 * t.A)
  | .Wc => t.g ^ 2 * t.u / (128 * Real.pi * t.f ^ 4) * (3 * t.g ^ 2 * t.m ^ 5 / t.w2
      - (4 * t.m ^ 2 + 2 * t.q2 - t.g ^ 2 * (4 * t.m ^ 2 + 3 * t.q2)) * t.wt2 * t.A)
  | .VT => 9 * t.g ^ 4 * t.wt2 * t.A * t.u / (512 * Real.pi * t.f ^ 4)
  | .WT => -(t.g ^ 2 * t.A / (32 * Real.pi * t.f ^ 4)) * ((t.c4 + t.u / 4) * t.w2 - t.g ^ 2 * t.u / 8 * (10 * t.m ^ 2 + 3 * t.q2))
  | .VLS => 3 * t.g ^ 4 * t.wt2 * t.A * t.u / (32 * Real.pi * t.f ^ 4)
  | .WLS => t.g ^ 2 * (1 - t.g ^ 2) * t.w2 * t.A * t.u / (32 * Real.pi * t.f ^ 4)
  | _ => 0

/-- The correction for the subtraction of iterated one-pion exchange, [ME] (4.21)-(4.24). -/
def TPE.iterated (t : TPE) : Amp → ℝ := withSpin t.q2 fun
  | .Vc => -(3 * t.g ^ 4 * t.u / (256 * Real.pi * t.f ^ 4)) * (t.m * t.w2 + t.wt2 ^ 2 * t.A)
  | .Wc => t.g ^ 4 * t.u / (128 * Real.pi * t.f ^ 4) * (t.m * t.w2 + t.wt2 ^ 2 * t.A)
  | .VT => 3 * t.g ^ 4 * t.u / (512 * Real.pi * t.f ^ 4) * (t.m + t.w2 * t.A)
  | .WT => -(t.g ^ 4 * t.u / (256 * Real.pi * t.f ^ 4)) * (t.m + t.w2 * t.A)
  | _ => 0

/-- The `1/M` corrections of [EKMN], (D7)-(D12). -/
def TPE.recoil (t : TPE) : Amp → ℝ := withSpin t.q2 fun
  | .Vc => 3 * t.g ^ 4 * t.u / (128 * Real.pi * t.f ^ 4) * (t.m ^ 5 / (2 * t.w2) + (2 * t.m ^ 2 + t.q2) * (t.q2 - t.m ^ 2) * t.A)
  | .Wc => t.g ^ 2 * t.u / (64 * Real.pi * t.f ^ 4) * (3 * t.g ^ 2 * t.m ^ 5 / (2 * t.w2)
      + (t.g ^ 2 * (3 * t.m ^ 2 + 2 * t.q2) - t.q2 - 2 * t.m ^ 2) * (2 * t.m ^ 2 + t.q2) * t.A)
  | .VT => 3 * t.g ^ 4 * t.u / (256 * Real.pi * t.f ^ 4) * (5 * t.m ^ 2 + 2 * t.q2) * t.A
  | .WT => t.g ^ 2 * t.u / (128 * Real.pi * t.f ^ 4) * (t.g ^ 2 * (3 * t.m ^ 2 + t.q2) - t.w2) * t.A
  | .VLS => 3 * t.g ^ 4 * t.u / (32 * Real.pi * t.f ^ 4) * (2 * t.m ^ 2 + t.q2) * t.A
  | .WLS => t.g ^ 2 * (1 - t.g ^ 2) * t.u / (32 * Real.pi * t.f ^ 4) * t.w2 * t.A
  | _ => 0

/-- Fourth order, `c_i²`, [ME] (D.1), (D.2). -/
def TPE.ci2 (t : TPE) : Amp → ℝ := withSpin t.q2 fun
  | .Vc => 3 * t.L / (16 * Real.pi ^ 2 * t.f ^ 4) * ((t.c2 / 6 * t.w2 + t.c3 * t.wt2 - 4 * t.c1 * t.m ^ 2) ^ 2 + t.c2 ^ 2 / 45 * t.w2 ^ 2)
  | .WT => t.c4 ^ 2 * t.w2 * t.L / (96 * Real.pi ^ 2 * t.f ^ 4)
  | _ => 0

/-- Fourth order, `c_i/M`, [ME] (D.4)-(D.8). -/
def TPE.ciM (t : TPE) : Amp → ℝ := withSpin t.q2 fun
  | .Vc => -(t.g ^ 2 * t.L * t.u / (32 * Real.pi ^ 2 * t.f ^ 4)) * ((t.c2 - 6 * t.c3) * t.q2 ^ 2
      + 4 * (6 * t.c1 + t.c2 - 3 * t.c3) * t.q2 * t.m ^ 2 + 6 * (t.c2 - 2 * t.c3) * t.m ^ 4 + 24 * (2 * t.c1 + t.c3) * t.m ^ 6 / t.w2)
  | .Wc => -(t.c4 * t.q2 * t.L * t.u / (192 * Real.pi ^ 2 * t.f ^ 4)) * (t.g ^ 2 * (8 * t.m ^ 2 + 5 * t.q2) + t.w2)
  | .WT => -(t.c4 * t.L * t.u / (192 * Real.pi ^ 2 * t.f ^ 4)) * (t.g ^ 2 * (16 * t.m ^ 2 + 7 * t.q2) - t.w2)
  | .VLS => t.c2 * t.g ^ 2 / (8 * Real.pi ^ 2 * t.f ^ 4) * t.u * t.w2 * t.L
  | .WLS => -(t.c4 * t.L * t.u / (48 * Real.pi ^ 2 * t.f ^ 4)) * (t.g ^ 2 * (8 * t.m ^ 2 + 5 * t.q2) + t.w2)
  | _ => 0

/-- Fourth order, `1/M²`, [ME] (D.9)-(D.15). -/
def TPE.overM2 (t : TPE) : Amp → ℝ := withSpin t.q2 fun
  | .Vc => -(t.g ^ 4 * t.u ^ 2 / (32 * Real.pi ^ 2 * t.f ^ 4)) * (t.L * (2 * t.m ^ 8 / t.w2 ^ 2 + 8 * t.m ^ 6 / t.w2 - t.q2 ^ 2 - 2 * t.m ^ 4)
      + t.m ^ 6 / (2 * t.w2))
  | .Wc => -(t.u ^ 2 / (768 * Real.pi ^ 2 * t.f ^ 4)) * (t.L * (8 * t.g ^ 2 * (3 / 2 * t.q2 ^ 2 + 3 * t.m ^ 2 * t.q2 + 3 * t.m ^ 4
        - 6 * t.m ^ 6 / t.w2 - t.k2 * (8 * t.m ^ 2 + 5 * t.q2))
      + 4 * t.g ^ 4 * (t.k2 * (20 * t.m ^ 2 + 7 * t.q2 - 16 * t.m ^ 4 / t.w2) + 16 * t.m ^ 8 / t.w2 ^ 2 + 12 * t.m ^ 6 / t.w2
        - 4 * t.m ^ 4 * t.q2 / t.w2 - 5 * t.q2 ^ 2 - 6 * t.m ^ 2 * t.q2 - 6 * t.m ^ 4) - 4 * t.k2 * t.w2) + 16 * t.g ^ 4 * t.m ^ 6 / t.w2)
  | .VT => t.g ^ 4 * t.L * t.u ^ 2 / (32 * Real.pi ^ 2 * t.f ^ 4) * (t.k2 + 5 / 8 * t.q2 + t.m ^ 4 / t.w2)
  | .WT => t.L * t.u ^ 2 / (1536 * Real.pi ^ 2 * t.f ^ 4) * (4 * t.g ^ 4 * (7 * t.m ^ 2 + 17 / 4 * t.q2 + 4 * t.m ^ 4 / t.w2)
      - 32 * t.g ^ 2 * (t.m ^ 2 + 7 / 16 * t.q2) + t.w2)
  | .VLS => t.g ^ 4 * t.L * t.u ^ 2 / (4 * Real.pi ^ 2 * t.f ^ 4) * (11 / 32 * t.q2 + t.m ^ 4 / t.w2)
  | .WLS => t.L * t.u ^ 2 / (256 * Real.pi ^ 2 * t.f ^ 4) * (16 * t.g ^ 2 * (t.m ^ 2 + 3 / 8 * t.q2)
      + 4 / 3 * t.g ^ 4 * (4 * t.m ^ 4 / t.w2 - 11 / 4 * t.q2 - 9 * t.m ^ 2) - t.w2)
  | .VsigL => t.g ^ 4 * t.L * t.u ^ 2 / (32 * Real.pi ^ 2 * t.f ^ 4)
  | _ => 0

/-- Fourth order, the two-loop terms given in closed form in dimensional regularisation, [ME] (D.18), (D.20), (D.24), (D.27). -/
def TPE.twoLoop (t : TPE) : Amp → ℝ := withSpin t.q2 fun
  | .Vc => 3 * t.g ^ 4 * t.wt2 * t.A / (1024 * Real.pi ^ 2 * t.f ^ 6) * ((t.m ^ 2 + 2 * t.q2) * (2 * t.m + t.wt2 * t.A) + 4 * t.g ^ 2 * t.m * t.wt2)
  | .Wc => t.L / (18432 * Real.pi ^ 4 * t.f ^ 6) * (192 * Real.pi ^ 2 * t.f ^ 2 * t.w2 * t.d3 * (2 * t.g ^ 2 * t.wt2 - 3 / 5 * (t.g ^ 2 - 1) * t.w2)
      + (6 * t.g ^ 2 * t.wt2 - (t.g ^ 2 - 1) * t.w2) * (384 * Real.pi ^ 2 * t.f ^ 2 * (t.wt2 * t.d12 + 4 * t.m ^ 2 * t.d5)
        + t.L * (4 * t.m ^ 2 * (1 + 2 * t.g ^ 2) + t.q2 * (1 + 5 * t.g ^ 2))
        - (t.q2 / 3 * (5 + 13 * t.g ^ 2) + 8 * t.m ^ 2 * (1 + 2 * t.g ^ 2))))
  | .VT => -(t.g ^ 2 * t.w2 * t.L / (32 * Real.pi ^ 2 * t.f ^ 4)) * t.d1415
  | .WT => t.g ^ 4 * t.w2 * t.A / (2048 * Real.pi ^ 2 * t.f ^ 6) * (t.w2 * t.A + 2 * t.m * (1 + 2 * t.g ^ 2))
  | _ => 0

/-! ### Two-loop terms as dispersion integrals, [EGM] (2.18)-(2.20) -/

/-- `r = ½√(μ² - 4m²)` and `t² = μ² - 2m²`. -/
def radius (m μ : ℝ) : ℝ := Real.sqrt (μ ^ 2 - 4 * m ^ 2) / 2
def tSq (m μ : ℝ) : ℝ := μ ^ 2 - 2 * m ^ 2

/-- The bracket `1/y² - (1 + 1/y²)^{3/2} ln(y + √(1 + y²))` of the integrals `J₁`, `J₂`, with `y = r x/m`. -/
def bracket (y : ℝ) : ℝ := 1 / y ^ 2 - Real.sqrt (1 + 1 / y ^ 2) ^ 3 * Real.log (y + Real.sqrt (1 + y ^ 2))

/-- A sum over a quadrature rule. -/
def quad (rule : List (ℝ × ℝ)) (F : ℝ → ℝ) : ℝ := (rule.map fun xw => xw.2 * F xw.1).sum

/-- `J₁`, `J₂`: the mean of the bracket `b` with weight 1 and `x²`, by a rule on the unit interval. -/
def J1 (rule : List (ℝ × ℝ)) (b : ℝ → ℝ) (m μ : ℝ) : ℝ := quad rule fun x => b (radius m μ * x / m)
def J2 (rule : List (ℝ × ℝ)) (b : ℝ → ℝ) (m μ : ℝ) : ℝ := quad rule fun x => x ^ 2 * b (radius m μ * x / m)

/-- Spectral density of `V_C`. -/
def rhoC (g f m μ : ℝ) : ℝ :=
  -(3 * g ^ 4 * (μ ^ 2 - 2 * m ^ 2) / (Real.pi * μ * (4 * f) ^ 6)) *
    ((m ^ 2 - 2 * μ ^ 2) * (2 * m + (2 * m ^ 2 - μ ^ 2) / (2 * μ) * Real.log ((μ + 2 * m) / (μ - 2 * m))) + 4 * g ^ 2 * m * (2 * m ^ 2 - μ ^ 2))

/-- Spectral density of `W_T` (that of `W_S` divided by `μ²`). -/
def etaT (g f m μ : ℝ) : ℝ :=
  -(g ^ 4 * (μ ^ 2 - 4 * m ^ 2) / (Real.pi * (4 * f) ^ 6)) *
    ((m ^ 2 - μ ^ 2 / 4) * Real.log ((μ + 2 * m) / (μ - 2 * m)) + (1 + 2 * g ^ 2) * μ * m) / μ ^ 2

/-- Spectral density of `V_T`; `j1`, `j2` are the values of the two integrals, and `unit` that of `∫(1 - x²)/6 = 1/9`. -/
def rhoT (g f m d1415 unit j1 j2 μ : ℝ) : ℝ :=
  -(g ^ 2 * radius m μ ^ 3 * μ / (8 * f ^ 4 * Real.pi) * d1415
    - 2 * g ^ 6 * μ * radius m μ ^ 3 / (8 * Real.pi * f ^ 2) ^ 3 * (unit - j1 + j2)) / μ ^ 2

/-- Spectral density of `W_C`. -/
def etaC (g f m d12 d3 d5 j1 j2 μ : ℝ) : ℝ :=
  radius m μ * tSq m μ / (24 * f ^ 4 * μ * Real.pi) * (2 * (g ^ 2 - 1) * radius m μ ^ 2 - 3 * g ^ 2 * tSq m μ) * d12
  + radius m μ ^ 3 / (60 * f ^ 4 * μ * Real.pi) * (6 * (g ^ 2 - 1) * radius m μ ^ 2 - 5 * g ^ 2 * tSq m μ) * d3
  - radius m μ * m ^ 2 / (6 * f ^ 4 * μ * Real.pi) * (2 * (g ^ 2 - 1) * radius m μ ^ 2 - 3 * g ^ 2 * tSq m μ) * d5
  - 1 / (92160 * f ^ 6 * μ ^ 2 * Real.pi ^ 3) * (-320 * (1 + 2 * g ^ 2) ^ 2 * m ^ 6 + 240 * (1 + 6 * g ^ 2 + 8 * g ^ 4) * m ^ 4 * μ ^ 2
      - 60 * g ^ 2 * (8 + 15 * g ^ 2) * m ^ 2 * μ ^ 4 + (-4 + 29 * g ^ 2 + 122 * g ^ 4 + 3 * g ^ 6) * μ ^ 6)
      * Real.log ((2 * radius m μ + μ) / (2 * m))
  - radius m μ / (2700 * μ * (8 * Real.pi * f ^ 2) ^ 3) * (-16 * (171 + 2 * g ^ 2 * (1 + g ^ 2) * (327 + 49 * g ^ 2)) * m ^ 4
      + 4 * (-73 + 1748 * g ^ 2 + 2549 * g ^ 4 + 726 * g ^ 6) * m ^ 2 * μ ^ 2 - (-64 + 389 * g ^ 2 + 1782 * g ^ 4 + 1093 * g ^ 6) * μ ^ 4)
  + 2 * radius m μ / (3 * μ * (8 * Real.pi * f ^ 2) ^ 3) * (g ^ 6 * tSq m μ ^ 2 * j1 - 2 * g ^ 4 * (2 * g ^ 2 - 1) * radius m μ ^ 2 * tSq m μ * j2)

/-- The integrands of `V_C(q) = -(2q⁶/π) ∫ρ(μ) dμ /(μ⁵(μ² + q²))` and `V_T(q) = (2q⁴/π) ∫ρ(μ) dμ /(μ³(μ² + q²))`. -/
def centralIntegrand (q2 : ℝ) (rho : ℝ → ℝ) (μ : ℝ) : ℝ := -(2 * q2 ^ 3 / Real.pi) * (rho μ / (μ ^ 5 * (μ ^ 2 + q2)))
def tensorIntegrand (q2 : ℝ) (rho : ℝ → ℝ) (μ : ℝ) : ℝ := 2 * q2 ^ 2 / Real.pi * (rho μ / (μ ^ 3 * (μ ^ 2 + q2)))

/-- An integral over `μ` in the variable `z = 2m/μ`: `dμ = -2m/z² dz`. -/
def inZ (m : ℝ) (F : ℝ → ℝ) (z : ℝ) : ℝ := F (2 * m / z) * (2 * m / z ^ 2)

/-- The part of the integrand of `V_C` in `z` that has no elementary antiderivative, up to a factor: the one with the logarithm. -/
def centralLog (m q2 z : ℝ) : ℝ := (2 - z ^ 2) ^ 2 * (8 - z ^ 2) * z / 2 * Real.log ((1 + z) / (1 - z)) / (4 * m ^ 2 + z ^ 2 * q2)

/-! ### What each model contains -/

/-- The inputs of the expressions for a model: the pair `Tz` fixes the nucleon mass in N2LOopt and Idaho, the others use that of neutron and proton. -/
def tpe (m : ChiralModel) (c : Constants) (Tz : Int) (q2 k2 : ℝ) : TPE where
  g := c.gA
  f := pionDecay m
  m := meanPion m
  u := 1 / nucleonMass m (if m = .n2loopt ∨ m = .idaho then Tz else 0)
  c1 := c.c1 * 1e-3
  c2 := c.c2 * 1e-3
  c3 := c.c3 * 1e-3
  c4 := c.c4 * 1e-3
  d12 := c.d12 * 1e-6
  d3 := c.d3 * 1e-6
  d5 := c.d5 * 1e-6
  d1415 := c.d1415 * 1e-6
  L := spectralL (meanPion m) (spectralCutoff m) q2
  A := spectralA (meanPion m) (spectralCutoff m) q2
  q2 := q2
  k2 := k2

/-- The two-loop amplitudes of IS_N3LO: the dispersion integrals by a rule in `z`, the integrals `J₁`, `J₂` by a rule `x` and the function `b` for
their bracket; `vc` is the value used for `V_C`. -/
def dispersive (x z : List (ℝ × ℝ)) (b : ℝ → ℝ) (vc : ℝ) (t : TPE) : Amp → ℝ := withSpin t.q2 fun
  | .Vc => vc
  | .Wc => quad z (inZ t.m (centralIntegrand t.q2 fun μ => etaC t.g t.f t.m t.d12 t.d3 t.d5 (J1 x b t.m μ) (J2 x b t.m μ) μ))
  | .VT => quad z (inZ t.m (tensorIntegrand t.q2 fun μ => rhoT t.g t.f t.m t.d1415 (quad x fun v => (1 - v ^ 2) / 6) (J1 x b t.m μ) (J2 x b t.m μ) μ))
  | .WT => quad z (inZ t.m (tensorIntegrand t.q2 (etaT t.g t.f t.m)))
  | _ => 0

/-- Two-pion exchange of the models by order; `twoLoopN3LO` is the part of IS_N3LO that is integrated numerically. -/
def twoPionOrder (m : ChiralModel) (t : TPE) (twoLoopN3LO : Amp → ℝ) (A : Amp) : ℝ :=
  match m with
  | .isLO => 0
  | .isNLO => t.nlo A
  | .isN2LO => t.nlo A + { t with u := 0 }.n2lo A
  | .isN3LO => t.nlo A + { t with u := 0 }.n2lo A + t.recoil A + t.ci2 A + twoLoopN3LO A
  | .n2loopt => t.nlo A + t.n2lo A + t.iterated A
  | .idaho => t.nlo A + t.n2lo A + t.iterated A + t.ci2 A + t.ciM A + t.overM2 A + t.twoLoop A

end TicTac.Spec
end
