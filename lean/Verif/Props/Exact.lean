import Verif.Props.Channels2N
import Verif.Props.Main
import Verif.Props.OnShell
import Verif.Props.PadeSolve
import Verif.Props.Format
import Verif.Props.Potential
import Verif.Props.Tables
/-! Sharp forms of properties that hold under a condition only: the condition is proved to be necessary as well as sufficient. -/
noncomputable section
namespace TicTac
open Spec

/-- **C06 (exact condition).** Without tensor force and isospin breaking all slots lie inside the allocated array exactly when `J_2N_max ≤ 1`. -/
theorem C06_fits_exactly (p : PWParams) (ht : p.tensor = false) (hi : p.isoBreak = false) (hv : ValidTruncation p) (w : PWSpace) (h : constructPW p = some w) :
    (∀ s ∈ w.states, ∃ i, slotOf p s = some (false, i) ∧ 0 ≤ i ∧ i < numUnco p) ↔ p.J2max ≤ 1 := by
  constructor
  · intro hall
    by_contra hc
    obtain ⟨s, hs, i, h1, h2⟩ := C06_slot_out_of_range p ht hi hv (by omega) w h
    obtain ⟨j, h3, _, h4⟩ := hall s hs
    rw [h1] at h3
    cases h3
    omega
  · intro hJ s hs
    obtain ⟨⟨i, h1, h2, h3⟩, _⟩ := C06_slots_distinct p ht hi hv w h s s hs hs
    exact ⟨i, h1, h2, h3 hJ⟩

theorem foldlM_isSome {α β : Type} (f : β → α → Option β) (l : List α) (h : ∀ b, ∀ a ∈ l, (f b a).isSome = true) : ∀ b, (l.foldlM f b).isSome = true := by
  induction l with
  | nil => intro b; rfl
  | cons a l ih =>
    intro b
    rw [List.foldlM_cons]
    obtain ⟨c, hc⟩ := Option.isSome_iff_exists.1 (h b a (by simp))
    rw [hc]
    exact ih (fun b a ha => h b a (by simp [ha])) c

/-- **C07 (exact condition).** The loops over two-nucleon channels run through exactly when the tensor force is on or isospin breaking is off. -/
theorem C07_runs_exactly (p : PWParams) (hv : ValidTruncation p) (w : PWSpace) (h : constructPW p = some w) :
    ((potJobs p w.states).isSome = true ∧ (swpJobs p w.states).isSome = true ↔ p.tensor = true ∨ p.isoBreak = false) ∧
    ((potJobs p w.states).isSome = (swpJobs p w.states).isSome) := by
  obtain ⟨w', hw', hw⟩ := C01_basis_exact p hv
  rw [h] at hw'; cases hw'
  cases ht : p.tensor with
  | true =>
    obtain ⟨h1, h2⟩ := C07_tensor_on_runs p ht hv w h
    simp [h1, h2]
  | false =>
    cases hi : p.isoBreak with
    | true =>
      obtain ⟨h1, h2⟩ := C07_no_tensor_with_isospin_breaking_stops p ht hi hv w h
      simp [h1, h2]
    | false =>
      have hslot : ∀ r c, ∃ i, pairSlot p r c = some (false, i) := by
        intro r c
        unfold pairSlot pairViaL coupledViaT unique2NIdx
        simp [ht, hi]
      have hstep : ∀ ok typed jobs r c, (typed = true → ok r c = true → isoscalarType r c ≠ none) → (pairStep p ok typed jobs r c).isSome = true := by
        intro ok typed jobs r c hty
        obtain ⟨i, hs⟩ := hslot r c
        unfold pairStep
        split_ifs with h1 h2
        · exact absurd h2.2 (hty h2.1 h1)
        · rw [hs]; simp only; split_ifs <;> rfl
        · rfl
      have hloop : ∀ ok typed, (∀ r ∈ w.states, ∀ c ∈ w.states, typed = true → ok r c = true → isoscalarType r c ≠ none) →
          (pairLoop p ok typed w.states).isSome = true := by
        intro ok typed hty
        unfold pairLoop
        apply foldlM_isSome
        intro jobs r hr
        apply foldlM_isSome
        intro jobs c hc
        exact hstep _ _ _ _ _ (hty r hr c hc)
      have h1 : (potJobs p w.states).isSome = true := by
        apply hloop
        intro r hr c hc _ hok
        have fr := (hw r).1 hr
        have fc := (hw c).1 hc
        have tr : r.T = 0 ∨ r.T = 1 := fr.facts.T01
        have t3 : ∀ s, Allowed p.J2max p.twoJ3max p.isoBreak s → s.twoT3 = 1 := by
          intro s hs
          unfold Allowed at hs
          simp [hi] at hs
          exact hs.2.2.2.2.2.2.2.2.2.2.2
        unfold isoscalarType
        rw [t3 r fr, t3 c fc]
        rcases tr with e | e <;> simp [e]
      have h2 : (swpJobs p w.states).isSome = true := by
        apply hloop
        intro r hr c hc h
        cases h
      simp [h1, h2]

/-- **C24 (exact condition).** The q grid comes from the file exactly when the q type is not `chebyshev` and the p type is `custom`. -/
theorem C24_custom_q_exactly (pType qType qFile : Str) :
    (qGridSource pType qType qFile = .ok (.file qFile) ↔ qType ≠ "chebyshev".toList ∧ pType = "custom".toList) ∧
    (qGridSource pType qType qFile = .ok .chebyshev ↔ qType = "chebyshev".toList) ∧
    (qGridSource pType qType qFile = .error .raiseError ↔ qType ≠ "chebyshev".toList ∧ pType ≠ "custom".toList) := by
  unfold qGridSource
  generalize "chebyshev".toList = x
  generalize "custom".toList = y
  by_cases h1 : qType = x <;> by_cases h2 : pType = y <;> simp [h1, h2]

/-- **C25 (exact condition).** Memory outside the `N + 1` boundaries is written exactly when the first `N + 2` lines of the file are numbers. -/
theorem C25_overflow_exactly {D : Type} (parse : Str → Option D) (n : Nat) (lines : List Str) :
    (readBoundaries parse n lines = .outOfBounds ↔ n + 2 ≤ lines.length ∧ ∀ l ∈ lines.take (n + 2), (parse l).isSome) ∧
    (∀ b, readBoundaries parse n lines = .ok b ↔ lines.length = n + 1 ∧ (∀ l ∈ lines, (parse l).isSome) ∧ b = lines.filterMap parse) := by
  unfold readBoundaries
  rw [readBoundariesLoop_spec parse n [] lines (by simp)]
  simp only [List.length_nil, Nat.sub_zero, Nat.zero_add, List.nil_append]
  by_cases h1 : ∀ l ∈ lines.take (n + 2), (parse l).isSome
  · rw [if_pos h1]
    by_cases h2 : lines.length = n + 1
    · rw [if_pos h2]
      rw [List.take_of_length_le (by omega)] at h1
      refine ⟨by constructor <;> intro h <;> first | (cases h; done) | omega, fun b => ?_⟩
      simp only [BoundaryEnd.ok.injEq]
      exact ⟨fun h => ⟨h2, h1, h.symm⟩, fun h => h.2.2.symm⟩
    · rw [if_neg h2]
      split_ifs with h3
      · exact ⟨⟨fun _ => ⟨by omega, h1⟩, fun _ => rfl⟩, fun b => ⟨fun h => (by cases h), fun h => absurd h.1 h2⟩⟩
      · exact ⟨⟨fun h => (by cases h), fun h => by omega⟩, fun b => ⟨fun h => (by cases h), fun h => absurd h.1 h2⟩⟩
  · rw [if_neg h1]
    refine ⟨⟨fun h => (by cases h), fun h => absurd h.2 h1⟩, fun b => ⟨fun h => (by cases h), fun h => ?_⟩⟩
    exact absurd (fun l hl => h.2.1 l (List.mem_of_mem_take hl)) h1

/-- With isospin breaking and the midpoint rule the potential matrices are computed for every potential. -/
theorem pot_midpoint_breaking_runs (p : PWParams) (ht : p.tensor = true) (hb : p.isoBreak = true) (hv : ValidTruncation p) (w : PWSpace) (hw : constructPW p = some w)
    (g : PotGrid) (hm : g.mid = true) (V : PotModel) : ∃ mem, potMatrices p g V (fun _ _ _ _ => 0) (fun _ => 0) w.states = some mem := by
  obtain ⟨w', hw', hx⟩ := C01_basis_exact p hv
  rw [hw] at hw'; cases hw'
  have hs : ∀ s ∈ w.states, Allowed p.J2max p.twoJ3max p.isoBreak s := fun s hs => (hx s).1 hs
  obtain ⟨jobs, h1, hinv, hcov, hf⟩ := pairLoop_spec (stepOK_of_basis ht hs true)
  have h1' : potJobs p w.states = some jobs := h1
  have hall : ∀ job ∈ jobs, (jobWrites p g V (fun _ _ => 0) job).isSome = true := by
    intro job hj
    obtain ⟨hr, hc, hsl⟩ := hinv.row job hj
    obtain ⟨_, pre, post, _, hok, _⟩ := hf job hj
    cases hT : coupledViaT p job.r
    · have hty := isoscalarType_isSome (hs _ hr) (hs _ hc)
      unfold jobWrites
      cases hq : isoscalarType job.r job.c with
      | none => exact absurd hq hty
      | some ty =>
        simp only [Option.bind_eq_bind, Option.bind_some]
        rw [mapM_some (fun ij _ => binWrites_spec (hs _ hr) (hs _ hc) hok (Or.inr hT) V hq (fun _ _ => 0) ij)]
        rfl
    · have h0 : job.r.S = 0 ∧ job.r.J = 0 := by
        unfold coupledViaT is1S0 at hT
        simp only [Bool.and_eq_true, beq_iff_eq] at hT
        tauto
      obtain ⟨hty, hrL, hcL, hrT⟩ := pot_1S0_job_type ht hv hb hw h1' hj h0.1 h0.2
      have hLf : pairViaL p job.r job.c = false := by unfold pairViaL; simp [hrL, hcL, h0.2]
      unfold jobWrites
      rw [hty]
      simp only [Option.bind_eq_bind, Option.bind_some]
      rw [mapM_some (g := fun ij => (binWrites p g 1 V (fun _ _ => 0) job ij).getD [])]
      · rfl
      · intro ij _
        unfold binWrites wpElements isoElements
        simp [hm, hT, hLf]
  unfold potMatrices
  rw [h1']
  simp only [Option.bind_eq_bind, Option.bind_some]
  rw [mapM_some (g := fun job => (jobWrites p g V (fun _ _ => 0) job).getD [])]
  · exact ⟨_, rfl⟩
  · intro job hj
    obtain ⟨v, hv⟩ := Option.isSome_iff_exists.1 (hall job hj)
    have hv' : jobWrites p g V (fun _ _ _ => 0) job = some v := hv
    rw [hv']
    show _ = some ((jobWrites p g V (fun _ _ _ => 0) job).getD [])
    rw [hv']; rfl

/-- **C32 (exact condition).** With the tensor force on, the stored matrices are the required ones for every interaction exactly when the midpoint rule is not combined
with isospin breaking - for every truncation and every proper grid. -/
theorem C32_matrix_exactly (p : PWParams) (ht : p.tensor = true) (hv : ValidTruncation p) (w : PWSpace) (h : constructPW p = some w) (g : PotGrid) (hNp : 0 < g.Np)
    (hg : g.mid = true → g.p 0 ≠ 0 ∧ g.fp 0 ≠ 0 ∧ g.pWP 0 < g.pWP 1 ∧ g.norm 0 ≠ 0) :
    (∀ V junk init mem, potMatrices p g V junk init w.states = some mem → ∀ a ∈ w.states, ∀ b ∈ w.states, SameInteraction true a b →
      ∀ sl, slotOf p a = some sl → ∀ i < g.Np, ∀ j < g.Np, mem (sl, blockOf p a, blockOf p b, i, j) = wpElement g (element V p.isoBreak a b) i j) ↔
    g.mid = false ∨ p.isoBreak = false := by
  constructor
  · intro hall
    by_contra hc
    push Not at hc
    obtain ⟨hm, hb⟩ := hc
    replace hm : g.mid = true := by simpa using hm
    replace hb : p.isoBreak = true := by simpa using hb
    obtain ⟨g1, g2, g3, g4⟩ := hg hm
    obtain ⟨w', hw', hx⟩ := C01_basis_exact p hv
    rw [h] at hw'; cases hw'
    have hv1 := hv.1
    have hv2 := hv.2
    set V : PotModel := fun _ _ _ _ _ _ _ k => if k = 0 then 1 else 0 with hVd
    set a : PWState := ⟨0, 0, 0, 1, 0, 1, 1, 1, 1⟩ with haD
    have ha : a ∈ w.states := by
      rw [hx, haD]
      unfold Allowed Couples
      simp only
      refine ⟨by omega, by omega, by omega, by omega, by omega, by omega, by omega, by simp, by omega, by omega, by omega, Or.inl trivial⟩
    obtain ⟨mem, hmem⟩ := pot_midpoint_breaking_runs p ht hb hv w h g hm V
    have hblk : blockOf p a = 0 := by
      unfold blockOf coupledViaL coupledViaT is1S0; simp [haD]
    obtain ⟨sl, hsl, h0⟩ := C32_midpoint_breaking_loses_1S0 p ht hb hv w h g hm V
      (by intro x y c Tz k hk; rw [hVd]; exact if_neg (by rintro rfl; exact absurd hk (by decide)))
      _ _ mem hmem a ha rfl rfl (blockOf p a) (blockOf p a) 0 0 (by rw [hblk]; omega) (by rw [hblk]; omega) hNp hNp
    have := hall V _ _ mem hmem a ha a ha (by simp [SameInteraction]) sl hsl 0 hNp 0 hNp
    rw [h0] at this
    unfold wpElement at this
    rw [if_pos hm] at this
    have hel : element V p.isoBreak a a (g.p 0) (g.p 0) = 1 := by
      unfold element phase isospinMix component
      simp [hVd, haD, hb]
      try norm_num
    rw [hel] at this
    have h3 : g.pWP (0 + 1) - g.pWP 0 ≠ 0 := by simpa using (sub_pos.2 g3).ne'
    have : (0 : ℝ) ≠ g.p 0 * g.p 0 * g.fp 0 * g.fp 0 * (g.pWP (0 + 1) - g.pWP 0) * (g.pWP (0 + 1) - g.pWP 0) * 1 / (g.norm 0 * g.norm 0) := by
      symm; positivity
    contradiction
  · intro hm V junk init mem hmem a ha b hb hab sl hsl i hi j hj
    obtain ⟨mem', h1, h2⟩ := C32_potential_matrix p ht hv w h g hm V junk init
    rw [hmem] at h1
    cases h1
    obtain ⟨sl', h3, h4⟩ := h2 a ha b hb hab
    rw [hsl] at h3
    cases h3
    exact h4 i hi j hj

/-- The midpoint energies of two bins are ordered like the bins. -/
theorem midpoint_unique (q : Nat → ℝ) {Eb : ℝ} (hEb : -(Mn + Mp) < Eb) (i : Nat) (t : ℝ) (ht : IsMidpointEnergy q Eb i t) : t = midT q Eb i := by
  obtain ⟨s0, s1, s2, -⟩ := midT_spec hEb q i
  have hm := (mu1_pos hEb).1
  have he : comQToComEnergy (labEnergyToComMomentum t Eb) = comQToComEnergy (labEnergyToComMomentum (midT q Eb i) Eb) := by
    rw [ht.2, s2, midE_eq]
  by_contra hne
  have key : ∀ x y, 0 ≤ x → x < y → comQToComEnergy (labEnergyToComMomentum x Eb) < comQToComEnergy (labEnergyToComMomentum y Eb) := by
    intro x y hx hxy
    exact (C22_q_energy 0 _ le_rfl (Real.sqrt_nonneg _)).2.2.2 _ (C22_lab_to_com_strict x y Eb hm hx hxy)
  rcases lt_or_gt_of_ne hne with hlt | hlt
  · exact absurd he (key _ _ ht.1 hlt).ne
  · exact absurd he (key _ _ s0 hlt).ne'

/-- **C38 (exact condition).** A requested energy is bracketed by the energies of two neighbouring bins, both computed, exactly when it lies between the first and the
last midpoint energy. -/
theorem C38_bracketed_exactly (Nq : Nat) (q : Nat → ℝ) (hg : IsGrid Nq q) (Eb : ℝ) (hEb : -(Mn + Mp) < Eb) (inputs : List ℝ)
    (o : OnShell) (ho : findOnShell Nq q Eb inputs = .ok o) (T : ℝ) (hT : T ∈ inputs) (t0 t1 : ℝ) (hN : 2 ≤ Nq)
    (h0 : IsMidpointEnergy q Eb 0 t0) (h1 : IsMidpointEnergy q Eb (Nq - 1) t1) :
    (∃ i a b, i + 1 < Nq ∧ IsMidpointEnergy q Eb i a ∧ IsMidpointEnergy q Eb (i + 1) b ∧ a ∈ o.Tlab ∧ b ∈ o.Tlab ∧ a ≤ T ∧ T ≤ b) ↔ t0 ≤ T ∧ T ≤ t1 := by
  constructor
  · rintro ⟨i, a, b, hi, ha, hb, _, _, hlo, hhi⟩
    rw [midpoint_unique q hEb _ _ ha] at hlo
    rw [midpoint_unique q hEb _ _ hb] at hhi
    rw [midpoint_unique q hEb _ _ h0, midpoint_unique q hEb _ _ h1]
    constructor
    · rcases Nat.eq_zero_or_pos i with rfl | hp
      · exact hlo
      · exact (midT_strict hg hEb 0 i hp (by omega)).le.trans hlo
    · rcases Nat.lt_or_ge (i + 1) (Nq - 1) with hp | hp
      · exact hhi.trans (midT_strict hg hEb (i + 1) (Nq - 1) hp (by omega)).le
      · rw [show Nq - 1 = i + 1 by omega]; exact hhi
  · rintro ⟨hlo, hhi⟩
    exact C38_bracketed Nq q hg Eb hEb inputs o ho T hT t0 t1 hN h0 h1 hlo hhi

/-- **C45 (exact condition).** There is a column per chunk, so that the chunks can cover the matrix, exactly up to dimension `2^28`. -/
theorem C45_chunks_exactly (D : Nat) (hD : 0 < D) :
    (0 < colsPerChunk D ∧ ∀ col < D, ∃! i, i < numChunks D ∧ chunkStart D i ≤ col ∧ col < chunkEnd D i) ↔ D ≤ 2 ^ 28 := by
  constructor
  · rintro ⟨h, _⟩
    unfold colsPerChunk at h
    by_contra hc
    rw [Nat.div_eq_of_lt (by omega)] at h
    omega
  · intro h
    obtain ⟨a, _, b, _⟩ := C45_chunks D hD h
    exact ⟨a, b⟩

/-- **C49 (exact condition).** Every column of the elastic table is under the heading of its element exactly for one and for three deuteron states. -/
theorem C49_headings_exactly (nd : Nat) (hnd : 1 ≤ nd) :
    (∀ r c, r < nd → c < nd → uHeaders[r * nd + c]? = some (r, c)) ↔ nd = 1 ∨ nd = 3 := by
  constructor
  · intro h
    by_contra hc
    rcases Nat.lt_or_ge nd 4 with h4 | h4
    · have : nd = 2 := by omega
      subst this
      have := h 1 0 (by omega) (by omega)
      revert this
      decide
    · have := h (nd - 1) 0 (by omega) (by omega)
      have h9 : 9 ≤ (nd - 1) * nd + 0 := by nlinarith [Nat.sub_add_cancel hnd, (by omega : 3 ≤ nd - 1)]
      rw [List.getElem?_eq_none (by simpa [uHeaders] using h9)] at this
      cases this
  · rintro (rfl | rfl) r c hr hc <;> interval_cases r <;> interval_cases c <;> rfl

/-- **C51 (exact condition).** All reads of a walk are inside the numbers of the file exactly when the range is empty or lies in `0 ≤ PSI_start`, `PSI_end ≤` number of
lines; the program's own check is on the length of the range only. -/
theorem C51_range_exactly (cfg : DriverCfg) (hw : cfg.parameterWalk = true) (numInFile numModelParams : Nat) (hm : 1 ≤ numModelParams) :
    ((∀ psi ∈ psiRange cfg, ∀ i ∈ psiReads psi numModelParams, 0 ≤ i ∧ i < (numInFile * numModelParams : Nat)) ↔
      cfg.psiEnd ≤ cfg.psiStart ∨ (0 ≤ cfg.psiStart ∧ cfg.psiEnd ≤ numInFile)) ∧
    (psiCheck true cfg.psiStart cfg.psiEnd numInFile = true ↔ cfg.psiEnd - cfg.psiStart ≤ numInFile) := by
  refine ⟨⟨?_, ?_⟩, by unfold psiCheck; simp⟩
  · intro h
    by_contra hc
    push Not at hc
    obtain ⟨h1, h2⟩ := hc
    have hread : ∀ psi : Int, psi * numModelParams ∈ psiReads psi numModelParams := by
      intro psi
      unfold psiReads
      exact List.mem_map.2 ⟨0, List.mem_range.2 hm, by simp⟩
    have hin : ∀ psi, psi ∈ psiRange cfg ↔ cfg.psiStart ≤ psi ∧ psi < cfg.psiEnd := by
      intro psi
      unfold psiRange
      rw [mem_forRange_one]
      simp only [hw, if_true]
      omega
    have hm' : (0 : Int) < numModelParams := by omega
    rcases lt_or_ge cfg.psiStart 0 with hs | hs
    · have := (h cfg.psiStart ((hin _).2 ⟨le_rfl, h1⟩) _ (hread _)).1
      nlinarith
    · have h3 := h2 hs
      have := (h (cfg.psiEnd - 1) ((hin _).2 ⟨by omega, by omega⟩) _ (hread _)).2
      push_cast at this
      have h4 := lt_of_mul_lt_mul_right this hm'.le
      omega
  · rintro (h | h)
    · intro psi hpsi
      unfold psiRange at hpsi
      rw [mem_forRange_one] at hpsi
      simp only [hw, if_true] at hpsi
      omega
    · exact C51_range cfg hw numInFile numModelParams (Or.inr h)

/-- **C52 (exact condition).** With at least one recorded cell the writes of breakup amplitudes stay inside the allocation exactly when there are at most as many
deuteron states as energies. -/
theorem C52_writes_exactly (nd numT numBU : Nat) (offs : List Nat) (hoffs : ∀ s e, (s, e) ∈ offs.zip offs.tail → e ≤ numBU)
    (hsome : ∃ s e, (s, e) ∈ offs.zip offs.tail ∧ s < e) : (∀ i ∈ buWrites offs nd numBU, i < buAlloc numT numBU) ↔ nd ≤ numT := by
  constructor
  · intro h
    by_contra hc
    obtain ⟨s, e, h1, h2⟩ := hsome
    obtain ⟨i, h3, h4⟩ := C52_breakup_write_out_of_range nd numT numBU offs (by omega) ⟨s, e, h1, h2, hoffs s e h1⟩
    exact h4 (h i h3)
  · intro h
    exact C52_breakup_write nd numT numBU offs h hoffs

/-- **C64 (exact).** What a parallel job does: exactly the work of its channel if the index is one of a channel, otherwise nothing - without an error. -/
theorem C64_job_exactly (cfg : DriverCfg) (c : Int) (nChn : Nat) (h : cfg.solveFaddeev = true ∨ cfg.calcP123 = true) :
    (mainWork (cfg.forChannel c) nChn = some [] ↔ ¬ (0 ≤ c ∧ c < nChn)) ∧ mainWork (cfg.forChannel c) nChn ≠ none := by
  rw [mainWork_forChannel cfg c nChn h]
  split_ifs with hc
  · simp [hc, channelWork]
  · simp [hc]

/-- **C91 (exact condition).** The text of a finite amplitude is a complex number exactly when neither part is minus zero. -/
theorem C91_wellformed_exactly {nr ni : Bool} {mr mi : Nat} {er ei : Int} (hr : (Dbl.fin nr mr er).OK) (hi : (Dbl.fin ni mi ei).OK) {s : Str}
    (h : ComplexText (.fin nr mr er) (.fin ni mi ei) s) : (readComplex s).isSome = true ↔ ¬ (nr = true ∧ mr = 0) ∧ ¬ (ni = true ∧ mi = 0) := by
  by_cases h1 : nr = true ∧ mr = 0
  · obtain ⟨rfl, rfl⟩ := h1
    rw [(C91_minus_zero_malformed (e := er) h).1 rfl]
    simp
  · have p1 : Plain (.fin nr mr er) := ⟨hr, fun a b => h1 ⟨a, b⟩⟩
    by_cases h2 : ni = true ∧ mi = 0
    · obtain ⟨rfl, rfl⟩ := h2
      rw [(C91_minus_zero_malformed (e := ei) h).2 p1 rfl]
      simp
    · have := C91_wellformed p1 (im := .fin ni mi ei) ⟨hi, fun a b => h2 ⟨a, b⟩⟩ h
      simp [this, h1, h2]

/-- **C59 (exact condition).** The overflow of the table size `(two_jmax + 1)^6` is reported exactly when the size, reduced modulo `2^32`, is at least `2^31`; the size
is held correctly exactly when it is below `2^31`, that is for `two_jmax ≤ 34`. -/
theorem C59_reported_exactly (jmax : Nat) :
    (sixjOverflowReported jmax = true ↔ 2 ^ 31 ≤ (jmax + 1) ^ 6 % 2 ^ 32) ∧ (sixjSizeInt32 jmax = ((jmax + 1) ^ 6 : Nat) ↔ (jmax + 1) ^ 6 < 2 ^ 31) ∧
    ((jmax + 1) ^ 6 < 2 ^ 31 ↔ jmax ≤ 34) := by
  have e : sixjSize jmax = (jmax + 1) ^ 6 := by unfold sixjSize; ring
  unfold sixjOverflowReported sixjSizeInt32
  rw [e]
  refine ⟨?_, ?_, ?_⟩
  · generalize (jmax + 1) ^ 6 = n
    simp only [decide_eq_true_eq]
    rw [Int.bmod_def]
    split_ifs <;> omega
  · generalize (jmax + 1) ^ 6 = n
    rw [Int.bmod_def]
    split_ifs <;> omega
  · constructor
    · intro h
      by_contra hc
      have : 36 ^ 6 ≤ (jmax + 1) ^ 6 := Nat.pow_le_pow_left (by omega) 6
      norm_num at this h
      omega
    · intro h
      have : (jmax + 1) ^ 6 ≤ 35 ^ 6 := Nat.pow_le_pow_left (by omega) 6
      norm_num at this ⊢
      omega

/-- Sizes of both kinds occur: `two_jmax = 36` is reported, `two_jmax = 40` is not although it does not fit. -/
example : sixjOverflowReported 36 = true ∧ sixjOverflowReported 40 = false ∧ ¬ (40 + 1) ^ 6 < 2 ^ 31 := by decide +kernel

/-- The conditions are met by non-trivial cases: truncations without tensor force, a walk in and one outside the file, one energy and two deuteron states, the energy of
an amplitude with a part minus zero. -/
example : ValidTruncation { J2max := 3, twoJ3max := 1, tensor := false, isoBreak := false } ∧ ValidTruncation { J2max := 1, twoJ3max := 1, tensor := false, isoBreak := false } := by
  unfold ValidTruncation; decide
example : (∃ s e, (s, e) ∈ [0, 3].zip [0, 3].tail ∧ s < e) ∧ ¬ 2 ≤ 1 ∧ psiCheck true 5 7 4 = true ∧ psiCheck true 1 3 4 = true := by
  refine ⟨⟨0, 3, by simp⟩, by omega, by decide, by decide⟩

end TicTac
end
