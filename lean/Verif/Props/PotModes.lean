import Verif.Props.Potential
/-! The potential matrices in every mode, also midpoint rule with isospin breaking; C31 without exception. -/
noncomputable section
namespace TicTac
open Spec

/-- What the 1S0 pair gets when the midpoint rule is combined with isospin breaking: the plain average of the
interaction's components 2 to 5, numbered by the isospins of the two states (make_potential_matrix.cpp:289-321 fill,
:411-416 store). -/
def Spec.midpoint1S0 (V : PotModel) (a b : PWState) (pin pout : ℝ) : ℝ :=
  let k : Fin 6 := if a.twoT3 = 3 then (if b.twoT3 = 3 then 5 else 4) else (if b.twoT3 = 3 then 3 else 2);
  2 / 3 * V pin pout false 0 0 1 (-1) k + 1 / 3 * V pin pout false 0 0 1 0 k

/-- The interaction whose wave-packet average is stored for a pair of states, in every mode. -/
def Spec.storedInteraction (V : PotModel) (mid isoBreak : Bool) (a b : PWState) : ℝ → ℝ → ℝ :=
  if mid = true ∧ isoBreak = true ∧ a.S = 0 ∧ a.J = 0 then midpoint1S0 V a b else element V isoBreak a b

theorem rep_T3 {p : PWParams} {r : PWState} (hT : coupledViaT p r = true) (hL : coupledViaL p r = false) (b : Nat) (hb : b < 2) :
    (rep p r b).twoT3 = if b = 1 then 3 else 1 := by
  unfold rep
  rw [hL, hT]
  interval_cases b <;> rfl

theorem rep_SJ {p : PWParams} {r : PWState} (b : Nat) : (rep p r b).S = r.S ∧ (rep p r b).J = r.J := by
  unfold rep
  split_ifs <;> exact ⟨rfl, rfl⟩

/-- The stores of a 1S0 job with the midpoint rule and isospin breaking. -/
theorem binWrites_mid {p : PWParams} (hb : p.isoBreak = true) {g : PotGrid} (hm : g.mid = true) {job : Job}
    (hrS : job.r.S = 0) (hrJ : job.r.J = 0) (hrL : job.r.L = 0) (hcL : job.c.L = 0) (hrT : job.r.T = 1) (V : PotModel) (junk : Nat → Nat → Six) (ij : Nat × Nat) :
    binWrites p g 1 V junk job ij = some ((blocks (coupledViaL p job.r || coupledViaT p job.r)).map fun b =>
      ((job.slot, b.1, b.2, ij.1, ij.2),
        wpElement g (storedInteraction V g.mid p.isoBreak (rep p job.r b.1) (rep p job.r b.2)) ij.1 ij.2)) := by
  have hT : coupledViaT p job.r = true := by unfold coupledViaT is1S0; simp [hb, hrS, hrJ, hrL]
  have hLf : pairViaL p job.r job.c = false := by unfold pairViaL; simp [hrL, hcL, hrJ]
  have hL : coupledViaL p job.r = false := by unfold coupledViaL; simp [hrJ, hrL]
  have h1 : ∀ b1 b2, storedInteraction V g.mid p.isoBreak (rep p job.r b1) (rep p job.r b2) =
      midpoint1S0 V (rep p job.r b1) (rep p job.r b2) := by
    intro b1 b2
    unfold storedInteraction
    rw [if_pos ⟨hm, hb, by rw [(rep_SJ b1).1, hrS], by rw [(rep_SJ b1).2, hrJ]⟩]
  have hcm : coupledModel job.r job.c = false := by unfold coupledModel; simp [hrL, hcL, hrJ]
  unfold binWrites wpElements isoElements isoAverage blocks
  simp only [hm, hT, hLf, hrS, hrJ, hrT, hL, hcm, Bool.false_or, Bool.or_true, if_true, Bool.false_eq_true, if_false, Option.bind_eq_bind, Option.bind_some,
    one_ne_zero, Option.pure_def, List.map_cons, List.map_nil, Option.some.injEq]
  have h2 : ∀ b1 b2, b1 < 2 → b2 < 2 → wpElement g (storedInteraction V true p.isoBreak (rep p job.r b1) (rep p job.r b2)) ij.1 ij.2 =
      g.p ij.2 * g.p ij.1 * g.fp ij.2 * g.fp ij.1 * (g.pWP (ij.1 + 1) - g.pWP ij.1) * (g.pWP (ij.2 + 1) - g.pWP ij.2) *
        (2 / 3 * V (g.p ij.2) (g.p ij.1) false 0 0 1 (-1) (if b1 = 1 then (if b2 = 1 then 5 else 4) else (if b2 = 1 then 3 else 2)) +
          1 / 3 * V (g.p ij.2) (g.p ij.1) false 0 0 1 0 (if b1 = 1 then (if b2 = 1 then 5 else 4) else (if b2 = 1 then 3 else 2))) / (g.norm ij.1 * g.norm ij.2) := by
    intro b1 b2 e1 e2
    rw [← hm, h1]
    unfold wpElement midpoint1S0
    rw [if_pos hm, rep_T3 hT hL _ e1, rep_T3 hT hL _ e2]
    interval_cases b1 <;> interval_cases b2 <;> simp
  rw [h2 0 0 (by omega) (by omega), h2 0 1 (by omega) (by omega), h2 1 0 (by omega) (by omega), h2 1 1 (by omega) (by omega)]
  simp

/-- The writes of all channels in every mode. -/
theorem potMatrices_modes {p : PWParams} (ht : p.tensor = true) (hv : ValidTruncation p) {w : PWSpace} (hw : constructPW p = some w) (g : PotGrid) (V : PotModel)
    (hs : ∀ s ∈ w.states, Allowed p.J2max p.twoJ3max p.isoBreak s) (junk : Job → Nat → Nat → Six) (init : PotKey → ℝ) :
    ∃ mem, potMatrices p g V junk init w.states = some mem ∧ ∀ s ∈ w.states, ∃ r ∈ w.states, ∃ sl,
      slotOf p s = some sl ∧ slotOf p r = some sl ∧
      ∀ b ∈ blocks (coupledViaL p r || coupledViaT p r), ∀ i < g.Np, ∀ j < g.Np,
        mem (sl, b.1, b.2, i, j) = wpElement g (storedInteraction V g.mid p.isoBreak (rep p r b.1) (rep p r b.2)) i j := by
  obtain ⟨jobs, h1, hi, hcov, hf⟩ := pairLoop_spec (stepOK_of_basis ht hs true)
  have h1' : potJobs p w.states = some jobs := h1
  set W : Job → List (PotKey × ℝ) := fun job => ((binPairs g.Np).map fun ij =>
    (blocks (coupledViaL p job.r || coupledViaT p job.r)).map fun b => ((job.slot, b.1, b.2, ij.1, ij.2),
        wpElement g (storedInteraction V g.mid p.isoBreak (rep p job.r b.1) (rep p job.r b.2)) ij.1 ij.2)).flatten with hW
  have hjob : ∀ job ∈ jobs, jobWrites p g V (junk job) job = some (W job) := by
    intro job hj
    obtain ⟨hr, hc, hsl⟩ := hi.row job hj
    obtain ⟨_, pre, post, _, hok, _⟩ := hf job hj
    by_cases hbad : g.mid = true ∧ p.isoBreak = true ∧ job.r.S = 0 ∧ job.r.J = 0
    · obtain ⟨hm, hb, hrS, hrJ⟩ := hbad
      obtain ⟨hty, hrL, hcL, hrT⟩ := pot_1S0_job_type ht hv hb hw h1' hj hrS hrJ
      unfold jobWrites
      rw [hty]
      simp only [Option.bind_eq_bind, Option.bind_some]
      rw [mapM_some (fun ij _ => binWrites_mid hb hm hrS hrJ hrL hcL hrT V (junk job) ij)]
      rfl
    · have hm' : g.mid = false ∨ coupledViaT p job.r = false := by
        by_contra hc
        push Not at hc
        apply hbad
        obtain ⟨c1, c2⟩ := hc
        replace c2 : coupledViaT p job.r = true := by simpa using c2
        unfold coupledViaT is1S0 at c2
        simp only [Bool.and_eq_true, beq_iff_eq] at c2
        refine ⟨by simpa using c1, by tauto, by tauto, by tauto⟩
      have hst : ∀ b1 b2, storedInteraction V g.mid p.isoBreak (rep p job.r b1) (rep p job.r b2) =
          element V p.isoBreak (rep p job.r b1) (rep p job.r b2) := by
        intro b1 b2
        unfold storedInteraction
        rw [if_neg]
        rw [(rep_SJ b1).1, (rep_SJ b1).2]
        exact hbad
      have hty := isoscalarType_isSome (hs _ hr) (hs _ hc)
      unfold jobWrites
      rw [hW]
      simp only [hst]
      cases hq : isoscalarType job.r job.c with
      | none => exact absurd hq hty
      | some ty =>
        simp only [Option.bind_eq_bind, Option.bind_some]
        rw [mapM_some (fun ij _ => binWrites_spec (hs _ hr) (hs _ hc) hok hm' V hq (junk job) ij)]
        rfl
  refine ⟨writeAll init (jobs.map W).flatten, ?_, ?_⟩
  · unfold potMatrices
    rw [h1']
    simp only [Option.bind_eq_bind, Option.bind_some]
    rw [mapM_some hjob]
    rfl
  · intro s hsm
    obtain ⟨job, hj, hsl⟩ := hcov s hsm
    obtain ⟨hr, hc, hsl'⟩ := hi.row job hj
    refine ⟨job.r, hr, job.slot, hsl, hsl', ?_⟩
    intro b hb i hi' j hj'
    apply writeAll_eq
    · rw [List.mem_flatten]
      refine ⟨W job, List.mem_map_of_mem hj, ?_⟩
      rw [hW]
      simp only [List.mem_flatten, List.mem_map]
      exact ⟨_, ⟨(i, j), mem_binPairs.2 ⟨hi', hj'⟩, rfl⟩, List.mem_map.2 ⟨b, hb, rfl⟩⟩
    · intro w hw he
      rw [List.mem_flatten] at hw
      obtain ⟨l, hl, hwl⟩ := hw
      obtain ⟨job', hj'', rfl⟩ := List.mem_map.1 hl
      rw [hW] at hwl
      simp only [List.mem_flatten, List.mem_map] at hwl
      obtain ⟨l, ⟨ij, _, rfl⟩, hwl⟩ := hwl
      obtain ⟨b', _, rfl⟩ := List.mem_map.1 hwl
      simp only [Prod.mk.injEq] at he
      obtain ⟨e1, e2, e3, e4, e5⟩ := he
      have : job' = job := List.inj_on_of_nodup_map hi.nodup hj'' hj e1
      subst this
      rw [e2, e3, e4, e5]

/-- **C32 (every mode).** With the tensor force the potential matrices are always computed, and every stored element is the wave-packet average of
`storedInteraction`: the required interaction, except for the 1S0 pair when the midpoint rule is combined with isospin breaking. -/
theorem C32_all_modes (p : PWParams) (ht : p.tensor = true) (hv : ValidTruncation p) (w : PWSpace) (h : constructPW p = some w) (g : PotGrid) (V : PotModel)
    (junk : Job → Nat → Nat → Six) (init : PotKey → ℝ) :
    ∃ mem, potMatrices p g V junk init w.states = some mem ∧
      ∀ a ∈ w.states, ∀ b ∈ w.states, SameInteraction true a b → ∃ sl, slotOf p a = some sl ∧
        ∀ i < g.Np, ∀ j < g.Np,
          mem (sl, blockOf p a, blockOf p b, i, j) = wpElement g (storedInteraction V g.mid p.isoBreak a b) i j := by
  obtain ⟨w', hw', hw⟩ := C01_basis_exact p hv
  rw [h] at hw'; cases hw'
  obtain ⟨mem, hmem, hval⟩ := potMatrices_modes ht hv h g V (fun s hs => (hw s).1 hs) junk init
  refine ⟨mem, hmem, ?_⟩
  intro a ha b hb hab
  obtain ⟨r, hr, sl, hsa, hsr, hbl⟩ := hval a ha
  refine ⟨sl, hsa, ?_⟩
  intro i hi j hj
  have hra : SameInteraction p.tensor r a := by
    rw [ht]; exact (C05_slot_shared_iff p ht hv w h r a hr ha).1 (hsr.trans hsa.symm)
  have hrb : SameInteraction p.tensor r b := by
    rw [ht]
    refine (C05_slot_shared_iff p ht hv w h r b hr hb).1 ?_
    rw [hsr, ← hsa]
    exact (C05_slot_shared_iff p ht hv w h a b ha hb).2 hab
  obtain ⟨a1, a2, a3, a4, a5, a6, a7⟩ := rep_blockOf ((hw r).1 hr) ((hw a).1 ha) hra
  obtain ⟨b1, b2, b3, b4, b5, b6, b7⟩ := rep_blockOf ((hw r).1 hr) ((hw b).1 hb) hrb
  have hmemb : (blockOf p a, blockOf p b) ∈ blocks (coupledViaL p r || coupledViaT p r) := by
    unfold blocks
    split_ifs with hc
    · have e1 : blockOf p a = 0 ∨ blockOf p a = 1 := by omega
      have e2 : blockOf p b = 0 ∨ blockOf p b = 1 := by omega
      rcases e1 with e1 | e1 <;> rcases e2 with e2 | e2 <;> rw [e1, e2] <;> simp
    · have e1 : blockOf p a = 0 := by by_contra hx; exact hc (a7 hx)
      have e2 : blockOf p b = 0 := by by_contra hx; exact hc (b7 hx)
      rw [e1, e2]; simp
  rw [hbl _ hmemb i hi j hj]
  congr 1
  funext pin pout
  unfold storedInteraction
  rw [a2, a3]
  split_ifs
  · unfold midpoint1S0
    rw [a5, b5]
  · unfold element isospinMix
    rw [a1, a2, a3, a4, a5, b1, b5]

/-- **C31 (symmetry).** With the tensor force, for a Hermitian interaction the stored potential matrix of every channel is symmetric in every mode. -/
theorem C31_potential_symmetric (p : PWParams) (ht : p.tensor = true) (hv : ValidTruncation p) (w : PWSpace)
    (h : constructPW p = some w) (g : PotGrid) (V : PotModel) (hV : Hermitian V) (junk : Job → Nat → Nat → Six) (init : PotKey → ℝ) (mem : PotKey → ℝ)
    (hmem : potMatrices p g V junk init w.states = some mem) (a b : PWState) (ha : a ∈ w.states) (hb : b ∈ w.states)
    (hab : SameInteraction true a b) (sl : Slot) (hsl : slotOf p a = some sl) (i j : Nat) (hi : i < g.Np) (hj : j < g.Np) :
    mem (sl, blockOf p a, blockOf p b, i, j) = mem (sl, blockOf p b, blockOf p a, j, i) := by
  obtain ⟨mem', hmem', hval⟩ := C32_all_modes p ht hv w h g V junk init
  rw [hmem] at hmem'; cases hmem'
  obtain ⟨w', hw', hw⟩ := C01_basis_exact p hv
  rw [h] at hw'; cases hw'
  have hslab := (C05_slot_shared_iff p ht hv w h a b ha hb).2 hab
  have hba : SameInteraction true b a := (C05_slot_shared_iff p ht hv w h b a hb ha).1 hslab.symm
  obtain ⟨s1, e1, v1⟩ := hval a ha b hb hab
  obtain ⟨s2, e2, v2⟩ := hval b hb a ha hba
  rw [hsl] at e1; cases e1
  rw [← hslab, hsl] at e2; cases e2
  rw [v1 i hi j hj, v2 j hj i hi]
  apply wpElement_swap
  intro x y
  unfold storedInteraction
  have eS := hab.1
  have eJ := hab.2.1
  rw [← eS, ← eJ]
  split_ifs with hc
  · have e := fun Tz => hV x y false 0 0 1 Tz
    have e' := fun Tz => hV y x false 0 0 1 Tz
    unfold midpoint1S0
    dsimp only
    by_cases t1 : a.twoT3 = 3 <;> by_cases t2 : b.twoT3 = 3 <;> simp only [t1, t2, if_true, if_false]
    · rw [(e _).2.2.2.1, (e _).2.2.2.1]
    · rw [(e' _).2.2.2.2, (e' _).2.2.2.2]
    · rw [(e _).2.2.2.2, (e _).2.2.2.2]
    · rw [(e _).2.2.1, (e _).2.2.1]
  · exact element_hermitian hV _ hab ((hw a).1 ha).facts ((hw b).1 hb).facts x y

/-- The hypotheses are met with the midpoint rule and isospin breaking, and the exceptional case occurs there. -/
example : ValidTruncation { J2max := 3, twoJ3max := 1, isoBreak := true } ∧ ({ J2max := 3, twoJ3max := 1, isoBreak := true } : PWParams).tensor = true ∧
    Hermitian (fun qi qo _ _ _ _ _ k => if k = 3 then qi else if k = 4 then qo else qi + qo) ∧
    storedInteraction (fun qi qo _ _ _ _ _ k => if k = 3 then qi else if k = 4 then qo else qi + qo) true true
      ⟨0, 0, 0, 1, 0, 1, 1, 1, 1⟩ ⟨0, 0, 0, 1, 0, 1, 1, 3, 1⟩ 5 7 = 5 := by
  refine ⟨by unfold ValidTruncation; decide, rfl, ?_, ?_⟩
  · intro qi qo c S J T Tz
    simp [add_comm]
  · simp [storedInteraction, midpoint1S0]
    norm_num

end TicTac
end
