import Verif.Props.Permutation
import Verif.Props.Run
import Verif.Props.H5
import Verif.Model.FillP123
/-! C87: the permutation matrix used by the solver, computed by the run or read from a file, and the amplitudes computed with it. -/
noncomputable section
namespace TicTac
open Spec Classical
open scoped Polynomial

/-- The list of entries `P123` stands for the matrix `op`. -/
def Spec.StandsFor {n Nq Np : Nat} (P123 : List (Entry ℝ)) (op : Matrix (Idx n Nq Np) (Idx n Nq Np) ℝ) : Prop :=
  (∀ e ∈ P123, ∃ r k : Idx n Nq Np, e.row = flat r ∧ e.col = flat k) ∧ sparseMatrix n Nq Np P123 = op

/-- P123 in the basis of wave packets of grid `w`, quadrature `m`. -/
def Spec.gridOperator (g : Gsl) (w : WPGrid) (m : Quad) (states : List PWState) : Matrix (Idx states.length w.Nq w.Np) (Idx states.length w.Nq w.Np) ℝ :=
  p123Operator g states w.Nq w.Np w.q w.p ((List.range m.Nx).map fun (k : Nat) => (m.x k, m.wx k)) 
    fun qp pp => cellRule m.P m.Nphi m.z ⟨w.p pp, w.p (pp + 1), w.q qp, w.q (qp + 1)⟩

/-- Hypotheses on grid, quadrature, GSL and OpenMP. -/
structure FillHyps (g : Gsl) (w : WPGrid) (m : Quad) (env : P123Env) (states : List PWState) : Prop where
  gsl : GslContract g
  xIn : ∀ k < m.Nx, -1 < m.x k ∧ m.x k < 1
  zIn : ∀ f < m.Nphi, -1 < m.z f ∧ m.z f < 1
  qgrid : IsGrid w.Nq w.q
  pgrid : IsGrid w.Np w.p
  phiOrder : env.phiOrder.Perm (phiWrites (w.input m))
  ovOrder : env.ovOrder.Perm (overlapWrites (w.input m))
  sixOrder : env.sixOrder.Perm (sixjTuples (2 * lmaxOf states).toNat)
  cgOrder : env.cgOrder.Perm (cgTuples (2 * lmaxOf states))

theorem FillHyps.p123 {g : Gsl} {w : WPGrid} {m : Quad} {env : P123Env} {states : List PWState} (H : FillHyps g w m env states)
    {p : PWParams} {J P : Int} (hch : IsChannel p J P states) : P123Hyps g (w.input m) env states (channelTwoJ states) where
  gsl := H.gsl
  good := by
    intro s hs
    obtain ⟨h1, h2⟩ := good_of_channel hch s hs
    refine ⟨h1, ?_⟩
    unfold channelTwoJ
    cases states with
    | nil => simp at hs
    | cons t l => dsimp only; rw [h2, (good_of_channel hch t (by simp)).2]
  xIn := H.xIn
  zIn := H.zIn
  qgrid := H.qgrid
  pgrid := H.pgrid
  phiOrder := H.phiOrder
  ovOrder := H.ovOrder
  sixOrder := H.sixOrder
  cgOrder := H.cgOrder

/-- **C87, computed.** The entries handed to the solver stand for the matrix of P123. -/
theorem C87_computed {g : Gsl} {w : WPGrid} {m : Quad} {env : P123Env} {states : List PWState} (H : FillHyps g w m env states)
    {p : PWParams} {J P : Int} (hch : IsChannel p J P states) {P123 : List (Entry ℝ)} {f : H5File ℝ} (h : FillComputed g w m env states P123 f) :
    StandsFor P123 (gridOperator g w m states) := by
  obtain ⟨⟨run⟩, -⟩ := h
  obtain ⟨-, h2, -, h4⟩ := C85_permutation_matrix (H.p123 hch) run
  refine ⟨fun e he => ?_, h4⟩
  obtain ⟨r, k, rfl, -⟩ := h2 e he
  exact ⟨r, k, rfl, rfl⟩

theorem entries_arrays (out : List (Entry ℝ)) : entriesOf (arraysOf out) = out := by
  unfold entriesOf arraysOf
  dsimp only
  induction out with
  | nil => rfl
  | cons e l ih =>
    simp only [List.map_cons, List.zip_cons_cons, Int.toNat_natCast]
    rw [ih]

theorem range_map_eq {N : Nat} {f h : Nat → ℝ} (e : (List.range (N + 1)).map f = (List.range (N + 1)).map h) : ∀ k ≤ N, f k = h k := by
  intro k hk
  exact List.map_inj_left.1 e k (List.mem_range.2 (by omega))

def channelPar (states : List PWState) : Int := match states with | [] => 0 | s :: _ => s.P

theorem states_eq {s t : List PWState} {J P J' P' : Int} {p p' : PWParams} (hs : IsChannel p J P s) (ht : IsChannel p' J' P' t)
    (hl : s.length = t.length)
    (h : ∀ i : Nat, ∀ a b : PWState, s[i]? = some a → t[i]? = some b →
      a.L = b.L ∧ a.S = b.S ∧ a.J = b.J ∧ a.T = b.T ∧ a.l = b.l ∧ a.twoj = b.twoj ∧ a.twoT3 = b.twoT3)
    (hJ : channelTwoJ s = channelTwoJ t) (hP : channelPar s = channelPar t) : s = t := by
  apply List.ext_getElem hl
  intro i h1 h2
  obtain ⟨e1, e2, e3, e4, e5, e6, e7⟩ := h i _ _ (List.getElem?_eq_getElem h1) (List.getElem?_eq_getElem h2)
  have j1 := ((hs.2 _).1 (List.getElem_mem h1)).2
  have j2 := ((ht.2 _).1 (List.getElem_mem h2)).2
  cases s with
  | nil => simp at h1
  | cons a s =>
  cases t with
  | nil => simp at h2
  | cons b t =>
    have a1 := ((hs.2 a).1 (by simp)).2
    have b1 := ((ht.2 b).1 (by simp)).2
    unfold channelTwoJ at hJ
    unfold channelPar at hP
    dsimp only at hJ hP
    have e8 : (a :: s)[i].twoJ3 = (b :: t)[i].twoJ3 := by rw [j1.1, j2.1, ← a1.1, ← b1.1, hJ]
    have e9 : (a :: s)[i].P = (b :: t)[i].P := by rw [j1.2, j2.2, ← a1.2, ← b1.2, hP]
    generalize (a :: s)[i] = u at *
    generalize (b :: t)[i] = v at *
    cases u; cases v
    simp only [PWState.mk.injEq]
    exact ⟨e1, e2, e3, e4, e5, e6, e8, e7, e9⟩

/-- **C87, read.** A run that reads a file computed and stored earlier – by a run with any basis, grid and quadrature – either stops, or gets
the matrix of P123 in its own basis and grid, with the quadrature of the run that computed it. -/
theorem C87_read {g : Gsl} {w₁ w : WPGrid} {m : Quad} {env : P123Env} {states₁ states : List PWState} (H : FillHyps g w₁ m env states₁)
    {p₁ p : PWParams} {J₁ P₁ J P : Int} (hch₁ : IsChannel p₁ J₁ P₁ states₁) (hch : IsChannel p J P states) (hne₁ : states₁ ≠ []) (hne : states ≠ [])
    {P123₁ P123 : List (Entry ℝ)} {f : H5File ℝ} (h₁ : FillComputed g w₁ m env states₁ P123₁ f) {junk : SparseArrays ℝ}
    (h : FillRead w states f junk P123) : StandsFor P123 (gridOperator g w m states) := by
  have hcomp := C87_computed H hch₁ h₁
  obtain ⟨-, hst⟩ := h₁
  obtain ⟨a, n, hrd, rfl⟩ := h
  have hwf₁ : (w₁.key states₁).WF := ⟨by simp [WPGrid.key], by simp [WPGrid.key], hne₁⟩
  have hwf : (w.key states).WF := ⟨by simp [WPGrid.key], by simp [WPGrid.key], hne⟩
  have hsame : Spec.SameBasisAndGrid (w₁.key states₁) (w.key states) := by
    by_contra hc
    rw [(C18_mismatch_rejected _ _ hwf₁ hwf _ _ junk f hst).2 hc] at hrd
    cases hrd
  obtain ⟨e1, e2, e3, e4, e5, e6, e7, e8⟩ := hsame
  have hsts : states₁ = states := by
    refine states_eq hch₁ hch e5 e6 ?_ ?_
    · unfold channelTwoJ; exact e7
    · unfold channelPar; exact e8
  subst hsts
  have ha : a = arraysOf P123₁ := by
    obtain ⟨f', hf', hr'⟩ := C17_roundtrip (w₁.key states₁) hwf₁ (arraysOf P123₁) junk (by simp [arraysOf]) (by simp [arraysOf])
    rw [show (arraysOf P123₁).val.length = P123₁.length by simp [arraysOf], hst] at hf'
    cases hf'
    rw [storeP123_ok] at hst
    cases hst
    rw [readP123_store] at hrd hr'
    split_ifs at hrd
    · simp only [Except.ok.injEq, Prod.mk.injEq] at hrd
      rw [← hrd.1]
      unfold arraysOf
      simp only [SparseArrays.mk.injEq]
      exact ⟨List.take_of_length_le (by simp), List.take_of_length_le (by simp), List.take_of_length_le (by simp)⟩
  rw [ha, entries_arrays]
  obtain ⟨Np₁, p₁', Nq₁, q₁'⟩ := w₁
  obtain ⟨Np₂, p₂', Nq₂, q₂'⟩ := w
  have e1' : Np₁ = Np₂ := e1
  have e2' : Nq₁ = Nq₂ := e2
  subst e1' e2'
  have hp : ∀ k ≤ Np₁, p₁' k = p₂' k := range_map_eq e3
  have hq : ∀ k ≤ Nq₁, q₁' k = q₂' k := range_map_eq e4
  refine ⟨hcomp.1, hcomp.2.trans ?_⟩
  funext r k
  have hr1 := r.2.1.2
  have hr2 := r.2.2.2
  have hk1 := k.2.1.2
  have hk2 := k.2.2.2
  unfold gridOperator p123Operator
  dsimp only at hr1 hr2 hk1 hk2 ⊢
  rw [hp _ (show (r.2.2 : Nat) ≤ Np₁ by omega), hp _ (show (r.2.2 : Nat) + 1 ≤ Np₁ by omega), hp _ (show (k.2.2 : Nat) ≤ Np₁ by omega), hp _ (show (k.2.2 : Nat) + 1 ≤ Np₁ by omega),
    hq _ (show (r.2.1 : Nat) ≤ Nq₁ by omega), hq _ (show (r.2.1 : Nat) + 1 ≤ Nq₁ by omega), hq _ (show (k.2.1 : Nat) ≤ Nq₁ by omega), hq _ (show (k.2.1 : Nat) + 1 ≤ Nq₁ by omega)]

/-- Where a run's permutation matrix comes from: computed by the run with quadrature `m`, or read from a file that an earlier run computed
with quadrature `m` (`computed` is `calculate_and_store_P123`). -/
def P123Source (computed : Bool) (g : Gsl) (w : WPGrid) (m : Quad) (states : List PWState) (P123 : List (Entry ℝ)) : Prop :=
  if computed then ∃ env f, FillHyps g w m env states ∧ FillComputed g w m env states P123 f
  else ∃ (w₁ : WPGrid) (env : P123Env) (states₁ : List PWState) (p₁ : PWParams) (J₁ P₁ : Int) (P123₁ : List (Entry ℝ)) (f : H5File ℝ) (junk : SparseArrays ℝ),
    FillHyps g w₁ m env states₁ ∧ IsChannel p₁ J₁ P₁ states₁ ∧ states₁ ≠ [] ∧ FillComputed g w₁ m env states₁ P123₁ f ∧ FillRead w states f junk P123

theorem source_stands {computed : Bool} {g : Gsl} {w : WPGrid} {m : Quad} {states : List PWState} {P123 : List (Entry ℝ)} {p : PWParams} {J P : Int}
    (hch : IsChannel p J P states) (hne : states ≠ []) (h : P123Source computed g w m states P123) : StandsFor P123 (gridOperator g w m states) := by
  unfold P123Source at h
  split at h
  · obtain ⟨env, f, H, hf⟩ := h
    exact C87_computed H hch hf
  · obtain ⟨w₁, env, states₁, p₁, J₁, P₁, P123₁, f, junk, H, hch₁, hne₁, hf, hr⟩ := h
    exact C87_read H hch₁ hch hne₁ hne hf hr

theorem run_of_source {computed : Bool} {g : Gsl} {m : Quad} {x : RunInput} {env : RunEnv} {w : PWSpace} {chn : Nat} {P123 : List (Entry ℝ)}
    (H : RunBase x env w chn) (h : P123Source computed g x.grid m (w.block chn) P123) :
    RunHyps x env w chn P123 ∧ sparseMatrix (w.block chn).length x.Nq x.g.Np P123 = gridOperator g x.grid m (w.block chn) := by
  have hne : w.block chn ≠ [] := by
    intro h0
    have := H.size.1
    rw [h0] at this
    simp at this
  have hs := source_stands (block_channel H.valid H.basis H.channel).1 hne h
  refine ⟨{ toRunBase := H, entries := ?_ }, hs.2⟩
  intro e he
  obtain ⟨r, k, h1, h2⟩ := hs.1 e he
  rw [h1, h2]
  exact ⟨flat_lt r, flat_lt k⟩

/-- **C87, direct solver.** From the user's input to the reported numbers, with nothing computed by the program left as a hypothesis: the
number reported for energy `k` and deuteron states `i`, `j` is the element of the unique solution of `X = A + A G X`, where `A` is formed with
the permutation operator P123 in the run's basis – whether computed in this run or read from a file computed by another – and with the
interaction, and `G` is the resolvent at that energy. -/
theorem C87_direct {computed : Bool} {g : Gsl} {m : Quad} {x : RunInput} {env : RunEnv} {w : PWSpace} {chn : Nat} {P123 : List (Entry ℝ)}
    (H : RunBase x env w chn) (hP : P123Source computed g x.grid m (w.block chn) P123)
    (hd : x.dense = true) {s : RunSetup} {U UBU : Nat → Option ℂ} (h : RunChannel x env w chn P123 s U UBU) (hEb : -(Mn + Mp) < s.swp.Eb) :
    ∃ deut : List (Fin (w.block chn).length), IsDeuteronList (w.block chn) deut ∧
    ∀ (k : Nat) (T E : ℝ), s.os.Tlab[k]? = some T → s.os.Ecom[k]? = some E →
      ∃ qb A G, IsOnShellPoint x.Nq x.q s.swp.Eb T E qb ∧
        FaddeevProblem x.p.isoBreak x.g x.pot (w.block chn) x.Nq x.q s.swp.Eb E (gridOperator g ⟨x.g.Np, x.g.pWP, x.Nq, x.q⟩ m (w.block chn)) A G ∧
        ((1 - A * Matrix.diagonal G).det ≠ 0 → ∃ X, (∀ Y, IsAmplitude A G Y ↔ Y = X) ∧
          ∀ i j : Fin deut.length, U (i * deut.length * s.os.Tlab.length + j * s.os.Tlab.length + k) =
            some (X (deut.get i, qb, ⟨0, by have := H.bins; omega⟩) (deut.get j, qb, ⟨0, by have := H.bins; omega⟩))) := by
  obtain ⟨H', hop⟩ := run_of_source H hP
  have := C80_direct H' hd h hEb
  rw [hop] at this
  exact this

/-- **C87, iterative solver without breakup.** -/
theorem C87_iterative {computed : Bool} {g : Gsl} {m : Quad} {x : RunInput} {env : RunEnv} {w : PWSpace} {chn : Nat} {P123 : List (Entry ℝ)}
    (H : RunBase x env w chn) (hP : P123Source computed g x.grid m (w.block chn) P123)
    (hd : x.dense = false) (hb : x.breakup = false) {s : RunSetup} {U UBU : Nat → Option ℂ} (h : RunChannel x env w chn P123 s U UBU)
    (hEb : -(Mn + Mp) < s.swp.Eb) :
    ∃ deut : List (Fin (w.block chn).length), IsDeuteronList (w.block chn) deut ∧
    ∀ (k : Nat) (T E : ℝ), s.os.Tlab[k]? = some T → s.os.Ecom[k]? = some E →
      ∃ qb A G, IsOnShellPoint x.Nq x.q s.swp.Eb T E qb ∧
        FaddeevProblem x.p.isoBreak x.g x.pot (w.block chn) x.Nq x.q s.swp.Eb E (gridOperator g ⟨x.g.Np, x.g.pWP, x.Nq, x.q⟩ m (w.block chn)) A G ∧
        ∀ i j : Fin deut.length, ∃ n ≤ 14, ∃ pp qq : ℂ[X],
          IsPade (fun m => neumannTerm A G m (deut.get i, qb, ⟨0, by have := H.bins; omega⟩) (deut.get j, qb, ⟨0, by have := H.bins; omega⟩)) n n pp qq ∧
          qq.eval 1 ≠ 0 ∧
          U (i * deut.length * s.os.Tlab.length + j * s.os.Tlab.length + k) = some (pp.eval 1 / qq.eval 1) := by
  obtain ⟨H', hop⟩ := run_of_source H hP
  have := C80_iterative H' hd hb h hEb
  rw [hop] at this
  exact this

end TicTac
end
