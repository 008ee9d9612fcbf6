import Verif.Props.Bounds
import Verif.Props.Run
import Verif.Props.PermutationExample
/-! C132 for the arrays of a whole run: the hypotheses of `C132_inside` follow from the user's input. -/
noncomputable section
namespace TicTac
open Spec
open Classical

/-- The arrays of one channel of a run. -/
def runArrays (x : RunInput) (w : PWSpace) (chn : Nat) (ents : List (Entry ℝ)) (s : RunSetup) (plm : Nat → Nat) (Nphi Nx permThreads solverThreads : Nat) :
    ArrCalc where
  p := x.p
  basis := w.states
  states := w.block chn
  Nq := x.Nq
  Np := x.g.Np
  Nphi := Nphi
  Nx := Nx
  plm := plm
  permThreads := permThreads
  solverThreads := solverThreads
  qidx := s.cfg.qidx
  deut := s.cfg.deut
  p123Rows := ents.map (·.row)
  p123Cols := ents.map (·.col)
  numBU := s.cfg.nBU
  offs := if s.cfg.breakup then (List.range (s.cfg.qidx.length + 1)).map s.cfg.buStart else []

theorem run_inRun {x : RunInput} {env : RunEnv} {w : PWSpace} {chn : Nat} {P123 ents : List (Entry ℝ)} (H : RunHyps x env w chn P123) {s : RunSetup}
    (hs : ColMajorSorted ((w.block chn).length * x.Nq * x.g.Np) P123 ents) (hrun : runSetup x env w chn ents = .ok s) (hEb : -(Mn + Mp) < s.swp.Eb)
    {gsl : Gsl} (hg : GslContract gsl) (Nphi Nx permThreads solverThreads : Nat) :
    InRun (runArrays x w chn ents s gsl.plmLen Nphi Nx permThreads solverThreads) (2 * ((chn / 2 : Nat) : Int) + 1) (if chn % 2 = 0 then 1 else -1) := by
  obtain ⟨deut, qidx, -, hin, -⟩ := run_setup H hs hrun hEb
  obtain ⟨hch, -⟩ := block_channel H.valid H.basis H.channel
  obtain ⟨w', hw', hall⟩ := C01_basis_exact x.p H.valid
  rw [H.basis] at hw'; cases hw'
  have hb : ∀ e ∈ ents, e.row < (w.block chn).length * x.Nq * x.g.Np := fun e he => (H.entries e (hs.perm.mem_iff.1 he)).1
  exact
    { valid := H.valid
      tensor := H.tensor
      Np := by have := H.bins; show 0 < x.g.Np; omega
      basis := fun a ha => (hall a).1 ha
      channel := hch
      deut := by
        intro a ha
        change a ∈ s.cfg.deut at ha
        rw [hin.deut_eq, List.mem_map] at ha
        obtain ⟨i, -, rfl⟩ := ha
        exact i.2
      qidx := by
        intro a ha
        change a ∈ s.cfg.qidx at ha
        rw [hin.qidx_eq, List.mem_map] at ha
        obtain ⟨i, -, rfl⟩ := ha
        exact i.2
      sorted := colSorted_cols hs H.entries
      rowsLen := by show (ents.map (·.col)).length = (ents.map (·.row)).length; rw [List.length_map, List.length_map]
      rows := by
        intro r hr
        obtain ⟨e, he, rfl⟩ := List.mem_map.1 hr
        exact hb e he
      offs := by
        intro o ho
        change o ∈ (if s.cfg.breakup then _ else _) at ho
        show o ≤ s.cfg.nBU
        by_cases hbr : s.cfg.breakup = true
        · rw [if_pos hbr] at ho
          obtain ⟨k, hk, rfl⟩ := List.mem_map.1 ho
          rw [List.mem_range, hin.qidx_eq, List.length_map] at hk
          have hm := hin.buMono hbr
          have : ∀ n, n ≤ qidx.length → s.cfg.buStart (qidx.length - n) ≤ s.cfg.buStart qidx.length := by
            intro n hn
            induction n with
            | zero => exact le_refl _
            | succ n ih =>
              have h1 := hm (qidx.length - (n + 1)) (by omega)
              rw [show qidx.length - (n + 1) + 1 = qidx.length - n by omega] at h1
              exact h1.trans (ih (by omega))
          have := this (qidx.length - k) (by omega)
          rw [show qidx.length - (qidx.length - k) = k by omega] at this
          exact this.trans (hin.buMax hbr)
        · rw [if_neg hbr] at ho
          cases ho
      plm := hg.plm_len }

/-- **C132, for a run.** In the calculation of the permutation matrix of a 3N channel and in the set-up and solution of its Faddeev equation no array is
indexed outside its bounds, except that the loop that prepares the approximants addresses the element before the first one, provided that
at least one thread was asked for the permutation matrix and that the solver runs with at most 100 threads.  The interaction, LAPACK's choices, memory
contents, thread order, quadrature sizes and the stored permutation matrix are arbitrary. -/
theorem C132_run {x : RunInput} {env : RunEnv} {w : PWSpace} {chn : Nat} {P123 ents : List (Entry ℝ)} (H : RunHyps x env w chn P123) {s : RunSetup}
    (hs : ColMajorSorted ((w.block chn).length * x.Nq * x.g.Np) P123 ents) (hrun : runSetup x env w chn ents = .ok s) (hEb : -(Mn + Mp) < s.swp.Eb)
    {gsl : Gsl} (hg : GslContract gsl) (Nphi Nx permThreads solverThreads : Nat) (hP : 0 < permThreads) (hT : solverThreads ≤ 100) (a : Arr) (i : Int)
    (acc : Access (runArrays x w chn ents s gsl.plmLen Nphi Nx permThreads solverThreads) a i) :
    (0 ≤ i ∧ i < arrLen (runArrays x w chn ents s gsl.plmLen Nphi Nx permThreads solverThreads) a) ∨ (i = -1 ∧ (a = .approx ∨ a = .approxBU)) := by
  rcases C132_inside _ _ _ (run_inRun H hs hrun hEb hg Nphi Nx permThreads solverThreads) a i acc (fun _ => hT) (fun _ => hP) with h | ⟨h, h1 | h1 | h1⟩
  · exact Or.inl h
  · exact Or.inr ⟨h, Or.inl h1⟩
  · exact Or.inr ⟨h, Or.inr h1⟩
  · have e1 : x.g.Np = 1 := h1.1
    have := H.bins
    omega

/-- **Non-vacuity of C132.** The run of C80: ten states, two q bins, three p bins, hence 60 columns; its arrays satisfy the hypotheses, there is a deuteron
state and an energy, and the element before the first approximant is addressed. -/
theorem C132_example : ∃ (w : PWSpace) (ents : List (Entry ℝ)) (s : RunSetup), constructPW Example.par = some w ∧ ents ≠ [] ∧
    InRun (runArrays Example.input w 0 ents s Example.gsl.plmLen 1 2 4 8) 1 1 ∧ (runArrays Example.input w 0 ents s Example.gsl.plmLen 1 2 4 8).D = 60 ∧
    Access (runArrays Example.input w 0 ents s Example.gsl.plmLen 1 2 4 8) .approx (-1) := by
  obtain ⟨w, hw, -⟩ := C01_basis_exact Example.par Example.par_valid
  obtain ⟨env, s, U, UBU, H, hrun, h1, -, h3, h4⟩ := Example.example_run hw Example.perm (by
    intro e he
    simp only [Example.perm, List.mem_cons, List.not_mem_nil, or_false] at he
    rcases he with rfl | rfl | rfl <;> simp)
  obtain ⟨ents, hs, hset, -⟩ := hrun
  have hin := run_inRun H hs hset h1 Example.gsl_contract 1 2 4 8
  obtain ⟨deut, qidx, hdl, hsi, hl, -⟩ := run_setup H hs hset h1
  refine ⟨w, ents, s, hw, ?_, hin, ?_, (C132_before_first _).1 ?_ ?_⟩
  · rintro rfl
    have := hs.perm.length_eq
    simp [Example.perm] at this
  · unfold ArrCalc.D ArrCalc.Na runArrays
    rw [(Example.block_size hw).2]
    rfl
  · show 0 < s.cfg.deut.length
    obtain ⟨a, ha, hd⟩ := h4
    obtain ⟨i, hi⟩ := List.get_of_mem ha
    have : i ∈ deut := (hdl.2 i).2 (by rw [hi]; exact hd)
    rw [hsi.deut_eq, List.length_map]
    exact List.length_pos_of_mem this
  · show 0 < s.cfg.qidx.length
    rw [hsi.qidx_eq, List.length_map, ← hl]
    exact List.length_pos_of_ne_nil h3

end TicTac
end
