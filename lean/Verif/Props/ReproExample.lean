import Verif.Props.Repro2
import Verif.Props.RunExample
/-! Two different machines for the hypotheses of C89. -/
noncomputable section
namespace TicTac
open Spec
open Classical

/-- The other sign of every eigenvector is as good. -/
theorem lapack_flip {diag : Diag} (h : LapackContract diag) : LapackContract fun d ap => ((diag d ap).1, fun i => -(diag d ap).2 i) := by
  intro dim ap
  obtain ⟨h1, h2, h3⟩ := h dim ap
  refine ⟨h1, fun k hk r hr => ?_, fun k hk l hl => ?_⟩
  · have := h2 k hk r hr
    simp only [mul_neg, Finset.sum_neg_distrib]
    rw [this]
  · have := h3 k hk l hl
    simp only [neg_mul_neg]
    exact this

/-- Two machines that differ in the signs of the eigenvectors, the contents of fresh memory and the order of the workers. -/
theorem two_machines : ∃ env env' : RunEnv, LapackContract env.diag ∧ LapackContract env'.diag ∧ env.sched.Perm (List.range 10) ∧
    env'.sched.Perm (List.range 10) ∧ env.pade.pa (-1) = env'.pade.pa (-1) ∧ env.sched ≠ env'.sched ∧ env.garbage ≠ env'.garbage ∧ env.diag ≠ env'.diag := by
  obtain ⟨diag, hd⟩ := exists_lapack
  refine ⟨{ diag := diag, junkV := fun _ _ _ _ => 7, initV := fun _ => 7, garbage := fun _ => 7, C0 := fun _ _ => 7, junkCT := fun _ _ _ => 7
            junkVC := fun _ _ _ => 7, G0 := fun _ => 7, junkBU := fun _ => 7, sched := List.range 10, pade := ⟨fun _ => some 7, fun _ => none, fun _ => 7, fun _ => 7⟩ },
    { diag := fun d ap => ((diag d ap).1, fun i => -(diag d ap).2 i), junkV := fun _ _ _ _ => 8, initV := fun _ => 8, garbage := fun _ => 8, C0 := fun _ _ => 8
      junkCT := fun _ _ _ => 8, junkVC := fun _ _ _ => 8, G0 := fun _ => 8, junkBU := fun _ => 8, sched := (List.range 10).reverse
      pade := ⟨fun z => if z = -1 then some 7 else none, fun _ => some 3, fun _ => 8, fun _ => 8⟩ },
    hd, lapack_flip hd, List.Perm.refl _, List.reverse_perm _, by simp, show List.range 10 ≠ (List.range 10).reverse by decide, fun h => ?_, fun h => ?_⟩
  · have := congrFun h 0
    norm_num at this
  · have h1 := congrFun (congrArg Prod.snd (congrFun (congrFun h 1) fun _ => 0)) 0
    have h2 := (hd 1 fun _ => 0).2.2 0 (by omega) 0 (by omega)
    simp only [Finset.sum_range_one, Nat.zero_mul, Nat.add_zero, if_true] at h2
    dsimp only at h1
    have h3 : (diag 1 fun _ => 0).2 0 = 0 := by linarith
    rw [h3] at h2; norm_num at h2

/-- **Non-vacuity of C89.** -/
example : ∃ (env env' : RunEnv) (w : PWSpace) (s s' : RunSetup) (U UBU U' UBU' : Nat → Option ℂ), env.diag ≠ env'.diag ∧
    RunHyps Example.input env w 0 Example.perm ∧ RunHyps Example.input env' w 0 Example.perm ∧ env.pade.pa (-1) = env'.pade.pa (-1) ∧
    RunChannel Example.input env w 0 Example.perm s U UBU ∧ RunChannel Example.input env' w 0 Example.perm s' U' UBU' ∧
    -(Mn + Mp) < s.swp.Eb ∧ s.os.Tlab ≠ [] ∧ ∃ a ∈ w.block 0, IsDeuteronS a := by
  obtain ⟨env, env', d, d', h1, h2, h3, -, -, h4⟩ := two_machines
  obtain ⟨w, hw, -⟩ := C01_basis_exact Example.par Example.par_valid
  have hp : ∀ e ∈ Example.perm, e.row < 60 ∧ e.col < 60 := by
    intro e he
    simp only [Example.perm, List.mem_cons, List.not_mem_nil, or_false] at he
    rcases he with rfl | rfl | rfl <;> simp
  obtain ⟨s, U, UBU, H, R, e1, -, e3, e4⟩ := Example.example_run_env hw Example.perm hp env d h1
  obtain ⟨s', U', UBU', H', R', -⟩ := Example.example_run_env hw Example.perm hp env' d' h2
  exact ⟨env, env', w, s, s', U, UBU, U', UBU', h4, H, H', h3, R, R', e1, e3, e4⟩

end TicTac
end
