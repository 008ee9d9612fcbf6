import Verif.Spec.OwnMeshes
import Verif.Props.Program
import Verif.Props.ProgramBreakup
import Verif.Props.PhiRun
import Verif.Props.ChpMesh
import Verif.Props.ChiralPion
/-! **C127.** Complete runs with the grids and meshes the program itself makes. -/
noncomputable section
namespace TicTac
open Spec

theorem own_grid {N : Nat} {b : Nat → ℝ} (h : OwnGrid N b) : IsGrid N b := by
  obtain ⟨scale, t, init, hs, ht, e⟩ := h
  obtain ⟨h0, h1⟩ := C23_grid_strict N scale t hs ht init
  refine ⟨by rw [e 0 (Nat.zero_le _), h0], fun i hi => ?_⟩
  rw [e i hi.le, e (i + 1) hi]
  exact h1 i (i + 1) (Nat.lt_succ_self i) hi

theorem own_angles {rule : List (ℝ × ℝ)} (h : OwnAngles rule) : ∀ xw ∈ rule, |xw.1| ≤ 1 := by
  obtain ⟨fuel, pp0, x0, w0, hf, h⟩ := h
  intro p hp
  obtain ⟨-, -, h3⟩ := C122_points 96 (by decide) (by decide) (by decide) (-1) 1 (by norm_num) fuel hf pp0 x0 w0 rule h
  obtain ⟨a, b, -⟩ := h3 p hp
  exact abs_le.2 ⟨a.le, b.le⟩

/-- What stays open about the computation of the permutation matrix: GSL and the order of the threads. -/
structure Spec.FillEnv (g : Gsl) (w : WPGrid) (m : Quad) (env : P123Env) (states : List PWState) : Prop where
  gsl : GslContract g
  phiOrder : env.phiOrder.Perm (phiWrites (w.input m))
  ovOrder : env.ovOrder.Perm (overlapWrites (w.input m))
  sixOrder : env.sixOrder.Perm (sixjTuples (2 * lmaxOf states).toNat)
  cgOrder : env.cgOrder.Perm (cgTuples (2 * lmaxOf states))

/-- The permutation matrix of a run: computed, or read from the file of a run with its own grids and a basis of its own. -/
def Spec.OwnSource (computed : Bool) (g : Gsl) (w : WPGrid) (m : Quad) (states : List PWState) (P123 : List (Entry ℝ)) : Prop :=
  if computed then ∃ env f, FillEnv g w m env states ∧ FillComputed g w m env states P123 f
  else ∃ (w₁ : WPGrid) (env : P123Env) (states₁ : List PWState) (p₁ : PWParams) (J₁ P₁ : Int) (P123₁ : List (Entry ℝ)) (f : H5File ℝ) (junk : SparseArrays ℝ),
    OwnGrid w₁.Np w₁.p ∧ OwnGrid w₁.Nq w₁.q ∧ FillEnv g w₁ m env states₁ ∧ IsChannel p₁ J₁ P₁ states₁ ∧ states₁ ≠ [] ∧ FillComputed g w₁ m env states₁ P123₁ f ∧ FillRead w states f junk P123

theorem fill_own {g : Gsl} {w : WPGrid} {m : Quad} {env : P123Env} {states : List PWState} (hm : OwnQuad m) (hp : OwnGrid w.Np w.p) (hq : OwnGrid w.Nq w.q)
    (h : FillEnv g w m env states) : FillHyps g w m env states := by
  obtain ⟨a, b, c, d⟩ := hm.sizes
  obtain ⟨h1, h2, -⟩ := C123_quad hm.legendre a b c d hm.made
  exact ⟨h.gsl, h1, h2, own_grid hq, own_grid hp, h.phiOrder, h.ovOrder, h.sixOrder, h.cgOrder⟩

theorem own_source {computed : Bool} {g : Gsl} {w : WPGrid} {m : Quad} {states : List PWState} {P123 : List (Entry ℝ)} (hm : OwnQuad m) (hp : OwnGrid w.Np w.p)
    (hq : OwnGrid w.Nq w.q) (h : OwnSource computed g w m states P123) : P123Source computed g w m states P123 := by
  unfold OwnSource at h
  unfold P123Source
  split_ifs at h ⊢
  · obtain ⟨env, f, h1, h2⟩ := h
    exact ⟨env, f, fill_own hm hp hq h1, h2⟩
  · obtain ⟨w₁, env, states₁, p₁, J₁, P₁, P123₁, f, junk, g1, g2, h1, h2, h3, h4, h5⟩ := h
    exact ⟨w₁, env, states₁, p₁, J₁, P₁, P123₁, f, junk, fill_own hm g1 g2 h1, h2, h3, h4, h5⟩

/-- What stays open about one solve: LAPACK, the order of the threads, the size, the spectrum, and (iterative solver with breakup) that the last
convergence count is not reached by the elastic elements alone. -/
structure Spec.SolveEnv (X : ProgramInput) (w : PWSpace) (P123 : List (Entry ℝ)) (env : RunEnv) (chn : Nat) (V : PotModel) : Prop where
  lapack : LapackContract env.diag
  sched : env.sched.Perm (List.range (w.block chn).length)
  size : 0 < (w.block chn).length * X.x.Nq * X.x.g.Np ∧ (w.block chn).length * X.x.Nq * X.x.g.Np ≤ 2 ^ 28
  simple : ∀ Eb C lam, ScatteringBasis X.x.p.isoBreak X.x.g V (w.block chn) X.x.Nq Eb C lam → Nondegenerate (w.block chn) X.x.g.Np lam ∧ -(939.565 + 938.272) < Eb
  solver : X.x.dense = true ∨ X.x.breakup = false ∨ ∀ s U UBU, RunChannel { X.x with pot := V } env w chn P123 s U UBU → CountedOut env s

theorem work_channel {cfg : DriverCfg} {nChn : Nat} {ws : List Work} (h : mainWork cfg nChn = some ws) {chn psi : Int}
    (hm : Work.solve chn psi ∈ ws) : 0 ≤ chn ∧ chn.toNat < nChn := by
  unfold mainWork at h
  split_ifs at h
  cases h
  obtain ⟨c, hcr, hc⟩ := List.mem_flatMap.1 hm
  rw [mem_forRange_one] at hcr
  unfold channelWork at hc
  split_ifs at hc <;> simp only [List.mem_cons, List.mem_map, reduceCtorEq, false_or, List.not_mem_nil] at hc
  obtain ⟨s, hs, e⟩ := hc
  cases e
  omega

theorem solve_own {X : ProgramInput} (hx : LegalInput X.x) {w : PWSpace} (hb : constructPW X.x.p = some w) {computed : Bool} {g : Gsl} {quad : Quad} (hquad : OwnQuad quad)
    {P123 : List (Entry ℝ)} {env : RunEnv} {chn : Int} (h0 : 0 ≤ chn) (hc : chn.toNat < w.nChn) {V : PotModel} (hV : Hermitian V)
    (hsrc : OwnSource computed g X.x.grid quad (w.block chn.toNat) P123) (h : SolveEnv X w P123 env chn.toNat V) :
    SolveHyps X w computed g quad P123 env chn V where
  base := { basis := hb, tensor := hx.tensor, valid := hx.valid, mid := hx.mid, hermitian := hV, pgrid := (own_grid hx.pgrid).2, bins := hx.bins, qgrid := own_grid hx.qgrid,
            lapack := h.lapack, channel := hc, sched := h.sched, size := h.size, simple := fun Eb C lam hl => (h.simple Eb C lam hl).1 }
  nonneg := h0
  source := own_source hquad hx.pgrid hx.qgrid hsrc
  solver := h.solver
  shallow := fun Eb C lam hl => by
    have := (h.simple Eb C lam hl).2
    unfold Mn Mp
    linarith

/-- **C127.** A run with a chiral model and a walk through a parameter file that makes its own grids and meshes: every file of amplitudes holds the solution
of the discretised problem for the force of its line of constants (compare C115, where the properties of grids and meshes were hypotheses). -/
theorem C127_walk {pe : PotEnv} (hang : OwnAngles pe.rule) {fresh : Nat → ℝ} {m : ChiralModel} {stod : Str → Option ℝ} {val : Str → ℝ} {n : Nat} (hn : m.columns ≤ n)
    {rows : List (List Str)} (hrows : rows ≠ []) (hlen : ∀ r ∈ rows, r.length = n) (hsp : ∀ r ∈ rows, ∀ t ∈ r, ' ' ∉ t) (hval : ∀ r ∈ rows, ∀ t ∈ r, stod t = some (val t))
    {X : ProgramInput} (hx : LegalInput X.x) (hname : X.name = chiralName m) (hlines : X.lines = rows.map joinSpace) (hwalk : X.cfg.parameterWalk = true) (h0 : 0 ≤ X.cfg.psiStart)
    (hend : X.cfg.psiEnd ≤ rows.length) {w : PWSpace} {ws : List Work} (hws : mainWork X.cfg w.nChn = some ws)
    {computed : Bool} {g : Gsl} {quad : Quad} (hquad : OwnQuad quad) {P123 : Nat → List (Entry ℝ)} {env : Int → Int → RunEnv} {files files' : Files}
    (hsrc : ∀ chn < w.nChn, OwnSource computed g X.x.grid quad (w.block chn) (P123 chn))
    (H : ∀ chn psi row, Work.solve chn psi ∈ ws → rows[psi.toNat]? = some row →
      SolveEnv X w (P123 chn.toNat) (env chn psi) chn.toNat (chiralModel pe.rule pe.prof (preset m fun i => (row.map val).getD i 0)))
    (h : ProgramRun pe fresh stod X w P123 env files files') :
    (∀ chn psi, Work.solve chn psi ∈ ws → ∃ row V t, rows[psi.toNat]? = some row ∧
      (∀ qi qo S J Lo Li T Tz, Waves S J Lo Li T → |Tz| ≤ T → J ≤ 38 →
        phase Lo Li * V qi qo (decide (Lo ≠ J)) S J T Tz (component S Lo Li J) = cutElement pe.rule pe.prof m (fun i => (row.map val).getD i 0) S J Lo Li T Tz qo qi) ∧
      files' (amplitudeFileName X chn psi) = some (.elastic t) ∧
      AmplitudeFile X.x.dense X.x.p.isoBreak X.x.g V (w.block chn.toNat) X.x.Nq X.x.q X.x.Tlab (gridOperator g X.x.grid quad (w.block chn.toNat)) t ∧
      (X.x.breakup = true → ∃ tb, files' (breakupFileName X chn psi) = some (.breakup tb) ∧
        BreakupFile X.x.dense X.x.p.isoBreak X.x.g V (w.block chn.toNat) X.x.Nq X.x.q (gridOperator g X.x.grid quad (w.block chn.toNat)) t tb)) ∧
    ∀ name, (∀ chn psi, Work.solve chn psi ∈ ws → name ≠ amplitudeFileName X chn psi ∧ (X.x.breakup = true → name ≠ breakupFileName X chn psi)) → files' name = files name := by
  refine C115_walk (own_angles hang) hn hrows hlen hsp hval hname hlines hwalk h0 hend hws (computed := computed) (g := g) (quad := quad) (fun chn psi row hm hr => ?_) h
  obtain ⟨c1, c2⟩ := work_channel hws hm
  exact solve_own hx h.1 hquad c1 c2 (C94_hermitian _ _ _ _) (hsrc _ c2) (H chn psi row hm hr)

/-- **C127, leading order.** For IS_LO the force in every file is, up to 1e-11 MeV⁻² times the regulator, one-pion exchange and the contact terms with the
constants of its line, projected on partial waves with the exact angular integral. -/
theorem C127_leading {pe : PotEnv} (hang : OwnAngles pe.rule) {fresh : Nat → ℝ} {stod : Str → Option ℝ} {val : Str → ℝ} {n : Nat} (hn : 2 ≤ n)
    {rows : List (List Str)} (hrows : rows ≠ []) (hlen : ∀ r ∈ rows, r.length = n) (hsp : ∀ r ∈ rows, ∀ t ∈ r, ' ' ∉ t) (hval : ∀ r ∈ rows, ∀ t ∈ r, stod t = some (val t))
    {X : ProgramInput} (hx : LegalInput X.x) (hname : X.name = chiralName .isLO) (hlines : X.lines = rows.map joinSpace) (hwalk : X.cfg.parameterWalk = true) (h0 : 0 ≤ X.cfg.psiStart)
    (hend : X.cfg.psiEnd ≤ rows.length) {w : PWSpace} {ws : List Work} (hws : mainWork X.cfg w.nChn = some ws)
    {computed : Bool} {g : Gsl} {quad : Quad} (hquad : OwnQuad quad) {P123 : Nat → List (Entry ℝ)} {env : Int → Int → RunEnv} {files files' : Files}
    (hsrc : ∀ chn < w.nChn, OwnSource computed g X.x.grid quad (w.block chn) (P123 chn))
    (H : ∀ chn psi row, Work.solve chn psi ∈ ws → rows[psi.toNat]? = some row →
      SolveEnv X w (P123 chn.toNat) (env chn psi) chn.toNat (chiralModel pe.rule pe.prof (preset .isLO fun i => (row.map val).getD i 0)))
    (h : ProgramRun pe fresh stod X w P123 env files files') (dirs : ℝ → Vec × Vec) (hd : ∀ z, |z| ≤ 1 → Dirs z (dirs z).1 (dirs z).2) :
    ∀ chn psi, Work.solve chn psi ∈ ws → ∃ row V t, rows[psi.toNat]? = some row ∧
      (∀ qi qo S J Lo Li T Tz, 0 ≤ qi → qi ≤ 900 → 0 ≤ qo → qo ≤ 900 → Waves S J Lo Li T → |Tz| ≤ T → J ≤ 38 →
        |phase Lo Li * V qi qo (decide (Lo ≠ J)) S J T Tz (component S Lo Li J) -
          leadingExact dirs { Ct1S0pp := (row.map val).getD 0 0, Ct1S0np := (row.map val).getD 0 0, Ct1S0nn := (row.map val).getD 0 0, Ct3S1 := (row.map val).getD 1 0 }
            S J Lo Li T Tz qo qi| ≤ 1e-11 * regulator .isLO 3 qo qi) ∧
      files' (amplitudeFileName X chn psi) = some (.elastic t) ∧
      AmplitudeFile X.x.dense X.x.p.isoBreak X.x.g V (w.block chn.toNat) X.x.Nq X.x.q X.x.Tlab (gridOperator g X.x.grid quad (w.block chn.toNat)) t := by
  intro chn psi hm
  obtain ⟨row, V, t, e1, e2, e3, e4, -⟩ := (C127_walk hang (m := .isLO) hn hrows hlen hsp hval hx hname hlines hwalk h0 hend hws hquad hsrc H h).1 chn psi hm
  refine ⟨row, V, t, e1, fun qi qo S J Lo Li T Tz h1 h2 h3 h4 hw hz hJ => ?_, e3, e4⟩
  obtain ⟨fuel, pp0, x0, w0, hf, hmesh⟩ := hang
  obtain ⟨V', hV', hb⟩ := C125_leading (fun i => (row.map val).getD i 0) fuel hf pp0 x0 w0 pe.rule hmesh dirs hd pe.prof qi qo h1 h2 h3 h4 S J Lo Li T Tz hw hz hJ
  have hc := chiral_value .isLO (fun i => (row.map val).getD i 0) pe.rule (own_angles ⟨fuel, pp0, x0, w0, hf, hmesh⟩) pe.prof qi qo S J Lo Li T Tz hw hz hJ
  rw [e2 qi qo S J Lo Li T Tz hw hz hJ, ← hc]
  unfold chiralModel
  rw [hV', Option.getD_some]
  exact hb

/-- **C127, fixed constants.** The same without a walk, for every potential with a Hermitian force. -/
theorem C127_fixed {pe : PotEnv} {fresh : Nat → ℝ} {stod : Str → Option ℝ} {X : ProgramInput} (hx : LegalInput X.x) {k : PotKind} (hname : potKind X.name = some k)
    (hwalk : X.cfg.parameterWalk = false) (hV : Hermitian (potOf pe (fetchPot fresh k)))
    {w : PWSpace} {ws : List Work} (hws : mainWork X.cfg w.nChn = some ws) {computed : Bool} {g : Gsl} {quad : Quad} (hquad : OwnQuad quad) {P123 : Nat → List (Entry ℝ)}
    {env : Int → Int → RunEnv} {files files' : Files} (hsrc : ∀ chn < w.nChn, OwnSource computed g X.x.grid quad (w.block chn) (P123 chn))
    (H : ∀ chn psi, Work.solve chn psi ∈ ws → SolveEnv X w (P123 chn.toNat) (env chn psi) chn.toNat (potOf pe (fetchPot fresh k)))
    (h : ProgramRun pe fresh stod X w P123 env files files') :
    (∀ chn psi, Work.solve chn psi ∈ ws → ∃ t, files' (amplitudeFileName X chn psi) = some (.elastic t) ∧
      AmplitudeFile X.x.dense X.x.p.isoBreak X.x.g (potOf pe (fetchPot fresh k)) (w.block chn.toNat) X.x.Nq X.x.q X.x.Tlab
        (gridOperator g X.x.grid quad (w.block chn.toNat)) t ∧
      (X.x.breakup = true → ∃ tb, files' (breakupFileName X chn psi) = some (.breakup tb) ∧
        BreakupFile X.x.dense X.x.p.isoBreak X.x.g (potOf pe (fetchPot fresh k)) (w.block chn.toNat) X.x.Nq X.x.q (gridOperator g X.x.grid quad (w.block chn.toNat)) t tb)) ∧
    ∀ name, (∀ chn psi, Work.solve chn psi ∈ ws → name ≠ amplitudeFileName X chn psi ∧ (X.x.breakup = true → name ≠ breakupFileName X chn psi)) → files' name = files name := by
  refine C115_fixed hname hwalk hws (computed := computed) (g := g) (quad := quad) (fun chn psi hm => ?_) h
  obtain ⟨c1, c2⟩ := work_channel hws hm
  exact solve_own hx h.1 hquad c1 c2 hV (hsrc _ c2) (H chn psi hm)

/-! ### the hypotheses are met (a complete run: Props/ProgramExample) -/

/-- For all sizes the program has its quadrature, and it has its angular mesh, whatever memory held. -/
theorem C127_meshes {P : Int → ℝ → ℝ} (hP : IsLegendrePl P) (Nx Nphi : Nat) (hx : 1 ≤ Nx) (hx7 : Nx ≤ 10 ^ 7) (hN : 1 ≤ Nphi) (hN3 : Nphi ≤ 3000) :
    (∃ m : Quad, m.P = P ∧ m.Nx = Nx ∧ m.Nphi = Nphi ∧ OwnQuad m) ∧ ∃ rule, OwnAngles rule := by
  constructor
  · obtain ⟨m, h1, h2⟩ := C123_quad_exists hP Nx Nphi hx hx7 hN hN3
    obtain ⟨s1, s2⟩ : m.Nx = Nx ∧ m.Nphi = Nphi := ⟨h2.sizeX, h2.sizePhi⟩
    exact ⟨m, h1, s1, s2, ⟨by rw [s1, s2]; exact ⟨hx, hx7, hN, hN3⟩, by rw [h1]; exact hP, by rw [s1, s2]; exact h2⟩⟩
  · obtain ⟨l, h, -⟩ := C122_even 96 (by decide) (by decide) (by decide) (-1) 1 (by norm_num)
    exact ⟨l, 7, 0, fun _ => 0, fun _ => 0, le_refl _, h 7 0 _ _ (le_refl _)⟩

/-- Input with the default sizes of the program. -/
example : ∃ x : RunInput, LegalInput x ∧ x.g.Np = 30 ∧ x.Nq = 30 :=
  ⟨{ p := ⟨1, 1, false, true⟩, g := ⟨30, 8, false, chebArray 30 100 1 fun _ => 0, fun _ => 0, fun _ => 0, fun _ => 1, fun _ => 1⟩, Nq := 30, q := chebArray 30 100 1 fun _ => 0,
     pot := fun _ _ _ _ _ _ _ _ => 0, Tlab := [3], dense := true, breakup := false },
   ⟨by unfold ValidTruncation; decide, rfl, Or.inl rfl, by decide, ⟨100, 1, _, by norm_num, by norm_num, fun _ _ => rfl⟩, ⟨100, 1, _, by norm_num, by norm_num, fun _ _ => rfl⟩⟩, rfl, rfl⟩

end TicTac
end
