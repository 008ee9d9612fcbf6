import Verif.Lemmas.Potential
/-!
Property theorems C31, C32, C55: the two-nucleon potential matrices.
-/
noncomputable section
namespace TicTac
open Spec

theorem mem_binPairs {n i j : Nat} : (i, j) ∈ binPairs n ↔ i < n ∧ j < n := by
  unfold binPairs
  simp only [List.mem_flatMap, List.mem_range, List.mem_map, Prod.mk.injEq]
  constructor
  · rintro ⟨a, ha, b, hb, rfl, rfl⟩; exact ⟨ha, hb⟩
  · rintro ⟨h1, h2⟩; exact ⟨i, h1, j, h2, rfl, rfl⟩

/-- **C31 (selection).** For every orbital pair allowed by the coupling rules (spin 0 or 1) the routine returns the
component documented for (outgoing L, ingoing L', S, J), with the program's phase for the off-diagonal elements. -/
theorem C31_component_selected (S J L Lp : Int) (coupled : Bool) (V : Six) (hS : S = 0 ∨ S = 1)
    (hL : |S - L| ≤ J ∧ J ≤ S + L) (hLp : |S - Lp| ≤ J ∧ J ≤ S + Lp) (hpar : (L - Lp) % 2 = 0)
    (hc : coupled = true → S = 1 ∧ 1 ≤ J ∧ L ≠ J) (hu : coupled = false → L = Lp) :
    extractPot L Lp J S coupled V = some (phase L Lp * V (component S L Lp J)) := by
  have a1 := abs_le.1 hL.1
  have a2 := abs_le.1 hLp.1
  cases coupled
  · have := hu rfl
    subst this
    rw [extractPot_uncoupled hS (by omega) (by omega) (by omega)]
    simp [phase]
  · obtain ⟨rfl, h2, h3⟩ := hc rfl
    exact extractPot_coupled h2 (by omega) (by omega) V

example : |(1 : Int) - 0| ≤ 1 ∧ (1 : Int) ≤ 1 + 0 ∧ |(1 : Int) - 2| ≤ 1 ∧ (1 : Int) ≤ 1 + 2 ∧
    component 1 0 2 1 = 4 ∧ component 1 2 0 1 = 3 ∧ component 1 1 1 0 = 5 := by decide

/-- **C31 (unphysical pairs stop the run).** -/
theorem C31_unphysical_stops (S J L Lp : Int) (coupled : Bool) (V : Six) :
    extractPot L Lp J S coupled V = none ↔ ¬ (|S - L| ≤ J ∧ J ≤ S + L ∧ |S - Lp| ≤ J ∧ J ≤ S + Lp) := by
  unfold extractPot
  split_ifs with h
  · simp only [true_iff]; omega
  · simp only [reduceCtorEq, false_iff, not_not]; omega

theorem mapM_forall2 {α β : Type} {f : α → Option β} {l : List α} {l' : List β} (h : l.mapM f = some l') :
    List.Forall₂ (fun a b => f a = some b) l l' := by
  induction l generalizing l' with
  | nil => cases h; exact .nil
  | cons x xs ih =>
    rw [List.mapM_cons] at h
    obtain ⟨y, hy, h⟩ := Option.bind_eq_some_iff.1 h
    obtain ⟨ys, hys, h⟩ := Option.bind_eq_some_iff.1 h
    cases h
    exact .cons hy (ih hys)

/-- The writes of all channels are those of the representatives. -/
theorem potMatrices_spec {p : PWParams} (ht : p.tensor = true) {g : PotGrid}
    (hm : g.mid = false ∨ p.isoBreak = false) (V : PotModel) {states : List PWState}
    (hs : ∀ s ∈ states, Allowed p.J2max p.twoJ3max p.isoBreak s) (junk : Job → Nat → Nat → Six)
    (init : PotKey → ℝ) :
    ∃ mem, potMatrices p g V junk init states = some mem ∧ ∀ s ∈ states, ∃ r ∈ states, ∃ sl,
      slotOf p s = some sl ∧ slotOf p r = some sl ∧
      ∀ b ∈ blocks (coupledViaL p r || coupledViaT p r), ∀ i < g.Np, ∀ j < g.Np,
        mem (sl, b.1, b.2, i, j) = wpElement g (element V p.isoBreak (rep p r b.1) (rep p r b.2)) i j := by
  obtain ⟨jobs, h1, hi, hcov, hf⟩ := pairLoop_spec (stepOK_of_basis ht hs true)
  have h1' : potJobs p states = some jobs := h1
  set W : Job → List (PotKey × ℝ) := fun job => ((binPairs g.Np).map fun ij =>
    (blocks (coupledViaL p job.r || coupledViaT p job.r)).map fun b => ((job.slot, b.1, b.2, ij.1, ij.2),
        wpElement g (element V p.isoBreak (rep p job.r b.1) (rep p job.r b.2)) ij.1 ij.2)).flatten with hW
  have hjob : ∀ job ∈ jobs, jobWrites p g V (junk job) job = some (W job) := by
    intro job hj
    obtain ⟨hr, hc, hsl⟩ := hi.row job hj
    obtain ⟨_, pre, post, _, hok, _⟩ := hf job hj
    have hty := isoscalarType_isSome (hs _ hr) (hs _ hc)
    unfold jobWrites
    cases hq : isoscalarType job.r job.c with
    | none => exact absurd hq hty
    | some ty =>
      simp only [Option.bind_eq_bind, Option.bind_some]
      rw [mapM_some (fun ij _ => binWrites_spec (hs _ hr) (hs _ hc) hok
        (hm.imp_right (fun hb => by unfold coupledViaT; simp [hb])) V hq (junk job) ij)]
      rfl
  refine ⟨writeAll init (jobs.map W).flatten, ?_, ?_⟩
  · unfold potMatrices
    rw [h1']
    simp only [Option.bind_eq_bind, Option.bind_some]
    rw [mapM_some hjob]
    rfl
  · intro s hsm
    obtain ⟨job, hj, hsl⟩ := hcov s hsm
    obtain ⟨hr, hc, hsl'⟩ := hi.row job hj
    refine ⟨job.r, hr, job.slot, hsl, hsl', ?_⟩
    intro b hb i hi' j hj'
    apply writeAll_eq
    · rw [List.mem_flatten]
      refine ⟨W job, List.mem_map_of_mem hj, ?_⟩
      rw [hW]
      simp only [List.mem_flatten, List.mem_map]
      exact ⟨_, ⟨(i, j), mem_binPairs.2 ⟨hi', hj'⟩, rfl⟩, List.mem_map.2 ⟨b, hb, rfl⟩⟩
    · intro w hw he
      rw [List.mem_flatten] at hw
      obtain ⟨l, hl, hwl⟩ := hw
      obtain ⟨job', hj'', rfl⟩ := List.mem_map.1 hl
      rw [hW] at hwl
      simp only [List.mem_flatten, List.mem_map] at hwl
      obtain ⟨l, ⟨ij, _, rfl⟩, hwl⟩ := hwl
      obtain ⟨b', _, rfl⟩ := List.mem_map.1 hwl
      simp only [Prod.mk.injEq] at he
      obtain ⟨e1, e2, e3, e4, e5⟩ := he
      have : job' = job := List.inj_on_of_nodup_map hi.nodup hj'' hj e1
      subst this
      rw [e2, e3, e4, e5]

/-- The block of a state in its channel is one of the stored blocks, and its representative has the same interaction
quantum numbers. -/
theorem rep_blockOf {p : PWParams} {r a : PWState} (hr : Allowed p.J2max p.twoJ3max p.isoBreak r)
    (ha : Allowed p.J2max p.twoJ3max p.isoBreak a) (h : SameInteraction p.tensor r a) :
    (rep p r (blockOf p a)).L = a.L ∧ (rep p r (blockOf p a)).S = a.S ∧ (rep p r (blockOf p a)).J = a.J ∧
    (rep p r (blockOf p a)).T = a.T ∧ (rep p r (blockOf p a)).twoT3 = a.twoT3 ∧ blockOf p a < 2 ∧
    (blockOf p a ≠ 0 → (coupledViaL p r || coupledViaT p r) = true) := by
  have fr := hr.facts
  have fa := ha.facts
  have ir := hr.2.2.2.2.2.2.2.2.2.2.2
  have ia := ha.2.2.2.2.2.2.2.2.2.2.2
  obtain ⟨hS, hJ, hL⟩ := h
  obtain ⟨aS, aT, aJ, a1, a2, a3, a4⟩ := fr
  obtain ⟨bS, bT, bJ, b1, b2, b3, b4⟩ := fa
  have hLL : coupledViaL p r = coupledViaL p a := by
    unfold coupledViaL
    cases ht : p.tensor
    · simp
    · rw [Bool.eq_iff_iff]
      simp only [Bool.true_and, Bool.and_eq_true, bne_iff_ne, ne_eq]
      simp only [ht, true_and] at hL
      omega
  cases hc : coupledViaL p r
  · have hLe : r.L = a.L := by
      unfold coupledViaL at hc
      cases ht : p.tensor
      · simpa [ht] using hL
      · simp only [ht, Bool.true_and, Bool.and_eq_false_iff, bne_eq_false_iff_eq] at hc
        omega
    have hTT : coupledViaT p r = coupledViaT p a := by
      unfold coupledViaT is1S0; rw [hS, hJ, hLe]
    have hblk : blockOf p a = if coupledViaT p r then (if a.twoT3 = 3 then 1 else 0) else 0 := by
      unfold blockOf; rw [← hLL, hc, hTT]; simp
    rw [hblk]
    unfold rep
    rw [hc]
    cases hT : coupledViaT p r
    · have h3 : ∀ s : PWState, s.S = r.S → s.J = r.J → s.L = r.L →
          (s.twoT3 = 1 ∨ (p.isoBreak = true ∧ s.twoT3 = 3 ∧ s.L = 0 ∧ s.S = 0 ∧ s.J = 0)) → s.twoT3 = 1 := by
        intro s e1 e2 e3 hi
        rcases hi with hi | ⟨hb, _, x1, x2, x3⟩
        · exact hi
        · exfalso
          unfold coupledViaT is1S0 at hT
          simp [hb, ← e1, ← e2, ← e3, x1, x2, x3] at hT
      have t1 := h3 r rfl rfl rfl ir
      have t2 := h3 a hS.symm hJ.symm hLe.symm ia
      simp only [Bool.false_eq_true, if_false]
      refine ⟨hLe, hS, hJ, by omega, by omega, by omega, by simp⟩
    · simp only [Bool.false_eq_true, if_false, if_true]
      refine ⟨hLe, hS, hJ, by omega, ?_, by split_ifs <;> omega, by simp⟩
      rcases ia with ia | ⟨_, ia, _⟩ <;> rw [ia] <;> simp
  · have hl : p.tensor = true ∧ r.L ≠ r.J ∧ r.J ≠ 0 := by
      unfold coupledViaL at hc
      simp only [Bool.and_eq_true, bne_iff_ne] at hc
      tauto
    have hblk : blockOf p a = if a.L > a.J then 1 else 0 := by
      unfold blockOf; rw [← hLL, hc]; simp
    rw [hblk]
    unfold rep
    rw [hc]
    simp only [if_true]
    refine ⟨?_, hS, hJ, by omega, ?_, by split_ifs <;> omega, by simp⟩
    · split_ifs with hx
      · push_cast; omega
      · push_cast; omega
    · rcases ir with ir | ⟨_, _, _, _, ir⟩
      · rcases ia with ia | ⟨_, _, _, _, ia⟩ <;> omega
      · omega

/-- **C31/C32 (whole matrix).** With the tensor force, and unless 1S0 isospin breaking is combined with the midpoint
approximation: filling the potential matrices finishes and, for every two basis states `a`, `b` of one
two-nucleon channel and every pair of bins, the stored element at (channel slot, block of `a`, block of `b`, row bin,
column bin) is the wave-packet average of `⟨a|V|b⟩`: the documented component, the program's phase and the exact
nn/np mixture, whatever the previous contents of the arrays. -/
theorem C32_potential_matrix (p : PWParams) (ht : p.tensor = true) (hv : ValidTruncation p) (w : PWSpace)
    (h : constructPW p = some w) (g : PotGrid) (hm : g.mid = false ∨ p.isoBreak = false) (V : PotModel)
    (junk : Job → Nat → Nat → Six) (init : PotKey → ℝ) :
    ∃ mem, potMatrices p g V junk init w.states = some mem ∧
      ∀ a ∈ w.states, ∀ b ∈ w.states, SameInteraction true a b → ∃ sl, slotOf p a = some sl ∧
        ∀ i < g.Np, ∀ j < g.Np,
          mem (sl, blockOf p a, blockOf p b, i, j) = wpElement g (element V p.isoBreak a b) i j := by
  obtain ⟨w', hw', hw⟩ := C01_basis_exact p hv
  rw [h] at hw'; cases hw'
  obtain ⟨mem, hmem, hval⟩ := potMatrices_spec ht hm V (fun s hs => (hw s).1 hs) junk init
  refine ⟨mem, hmem, ?_⟩
  intro a ha b hb hab
  obtain ⟨r, hr, sl, hsa, hsr, hbl⟩ := hval a ha
  refine ⟨sl, hsa, ?_⟩
  intro i hi j hj
  have hra : SameInteraction p.tensor r a := by
    rw [ht]; exact (C05_slot_shared_iff p ht hv w h r a hr ha).1 (hsr.trans hsa.symm)
  have hrb : SameInteraction p.tensor r b := by
    rw [ht]
    refine (C05_slot_shared_iff p ht hv w h r b hr hb).1 ?_
    rw [hsr, ← hsa]
    exact (C05_slot_shared_iff p ht hv w h a b ha hb).2 hab
  obtain ⟨a1, a2, a3, a4, a5, a6, a7⟩ := rep_blockOf ((hw r).1 hr) ((hw a).1 ha) hra
  obtain ⟨b1, b2, b3, b4, b5, b6, b7⟩ := rep_blockOf ((hw r).1 hr) ((hw b).1 hb) hrb
  have hmemb : (blockOf p a, blockOf p b) ∈ blocks (coupledViaL p r || coupledViaT p r) := by
    unfold blocks
    split_ifs with hc
    · have e1 : blockOf p a = 0 ∨ blockOf p a = 1 := by omega
      have e2 : blockOf p b = 0 ∨ blockOf p b = 1 := by omega
      rcases e1 with e1 | e1 <;> rcases e2 with e2 | e2 <;> rw [e1, e2] <;> simp
    · have e1 : blockOf p a = 0 := by by_contra hx; exact hc (a7 hx)
      have e2 : blockOf p b = 0 := by by_contra hx; exact hc (b7 hx)
      rw [e1, e2]; simp
  rw [hbl _ hmemb i hi j hj]
  congr 1
  funext pin pout
  unfold element isospinMix
  rw [a1, a2, a3, a4, a5, b1, b5]

-- the hypotheses are met by the default truncation with isospin breaking (quadrature)
example : ValidTruncation { J2max := 3, twoJ3max := 1, isoBreak := true } ∧
    ({ J2max := 3, twoJ3max := 1, isoBreak := true } : PWParams).tensor = true := by
  unfold ValidTruncation; decide

theorem element_hermitian {V : PotModel} (hV : Hermitian V) (ib : Bool) {a b : PWState} (h : SameInteraction true a b)
    (ha : PairFacts a) (hb : PairFacts b) (x y : ℝ) : element V ib a b x y = element V ib b a y x := by
  obtain ⟨hS, hJ, hL⟩ := h
  obtain ⟨aS, aT, aJ, a1, a2, a3, a4⟩ := ha
  obtain ⟨bS, bT, bJ, b1, b2, b3, b4⟩ := hb
  have hT : a.T = b.T := by omega
  have hd : decide (a.L ≠ a.J) = decide (b.L ≠ b.J) := by
    rw [decide_eq_decide]; omega
  have hph : phase a.L b.L = phase b.L a.L := by unfold phase; simp only [eq_comm]
  have hmix : ∀ m n : ℝ, isospinMix ib a b m n = isospinMix ib b a m n := by
    intro m n
    unfold isospinMix
    rw [hS, hT, hJ]
    simp only [and_comm (a := a.twoT3 = 1), and_comm (a := a.twoT3 = 3)]
  have hco : ∀ Tz, V x y (decide (a.L ≠ a.J)) a.S a.J a.T Tz (component a.S a.L b.L a.J) =
      V y x (decide (b.L ≠ b.J)) b.S b.J b.T Tz (component b.S b.L a.L b.J) := by
    intro Tz
    rw [hd, ← hS, ← hJ, ← hT]
    have e := fun c => hV x y c a.S a.J a.T Tz
    have e' := fun c => hV y x c a.S a.J a.T Tz
    unfold component
    by_cases hs : a.S = 0
    · rw [if_pos hs, if_pos hs]; exact (e _).1
    · simp only [hs, if_false]
      rcases lt_trichotomy a.L b.L with hl | hl | hl
      · rw [if_neg (by omega), if_pos (by omega), if_pos hl]; exact (e' _).2.2.2.2.symm
      · rw [← hl]
        simp only [lt_irrefl, if_false]
        by_cases x1 : a.L = a.J
        · rw [if_pos x1]; exact (e _).2.1
        · rw [if_neg x1]
          by_cases x2 : a.L < a.J
          · rw [if_pos x2]; exact (e _).2.2.1
          · rw [if_neg x2]; exact (e _).2.2.2.1
      · rw [if_pos hl, if_neg (by omega), if_pos (by omega)]; exact (e _).2.2.2.2
  unfold element
  rw [hph, hmix, hco, hco]

theorem wpElement_swap (g : PotGrid) (f f' : ℝ → ℝ → ℝ) (hf : ∀ x y, f x y = f' y x) (i j : Nat) :
    wpElement g f i j = wpElement g f' j i := by
  unfold wpElement
  split_ifs
  · rw [hf]; ring
  · rw [Finset.sum_comm]
    refine Finset.sum_congr rfl fun _ _ => Finset.sum_congr rfl fun _ _ => ?_
    rw [hf]; ring

/-- A Hermitian interaction with all six components present exists. -/
example : Hermitian (fun qi qo _ _ _ _ _ k => if k = 3 then qi else if k = 4 then qo else qi + qo) := by
  intro qi qo c S J T Tz
  simp [add_comm]

/-- **C32 (false of the code).** With 1S0 isospin breaking and the midpoint approximation, the stored 1S0 matrix of
every run is built from the plain average of components 2…5 of the interaction and never from the 1S0 component 0: an
interaction that (as all the program's models do) returns zeros there for the 1S0 pair gives an identically zero 1S0
force, whatever its 1S0 strength is. -/
theorem C32_midpoint_breaking_loses_1S0 (p : PWParams) (ht : p.tensor = true) (hb : p.isoBreak = true)
    (hv : ValidTruncation p) (w : PWSpace) (h : constructPW p = some w) (g : PotGrid) (hm : g.mid = true)
    (V : PotModel) (hV : ∀ x y c Tz k, 2 ≤ k → V x y c 0 0 1 Tz k = 0) (junk : Job → Nat → Nat → Six)
    (init : PotKey → ℝ) (mem : PotKey → ℝ) (hmem : potMatrices p g V junk init w.states = some mem)
    (a : PWState) (ha : a ∈ w.states) (haS : a.S = 0) (haJ : a.J = 0) (br bc i j : Nat) (hbr : br < 2) (hbc : bc < 2)
    (hi : i < g.Np) (hj : j < g.Np) : ∃ sl, slotOf p a = some sl ∧ mem (sl, br, bc, i, j) = 0 := by
  obtain ⟨w', hw', hw⟩ := C01_basis_exact p hv
  rw [h] at hw'; cases hw'
  have hs : ∀ s ∈ w.states, Allowed p.J2max p.twoJ3max p.isoBreak s := fun s hs => (hw s).1 hs
  obtain ⟨jobs, h1, hinv, hcov, hf⟩ := pairLoop_spec (stepOK_of_basis ht hs true)
  have h1' : potJobs p w.states = some jobs := h1
  obtain ⟨job, hjm, hsl⟩ := hcov a ha
  obtain ⟨hr, hc, hsl'⟩ := hinv.row job hjm
  have hsame := (C05_slot_shared_iff p ht hv w h job.r a hr ha).1 (hsl'.trans hsl.symm)
  have hrS : job.r.S = 0 := by have := hsame.1; omega
  have hrJ : job.r.J = 0 := by have := hsame.2.1; omega
  obtain ⟨hty, hrL, hcL, hrT⟩ := pot_1S0_job_type ht hv hb h h1' hjm hrS hrJ
  refine ⟨job.slot, hsl, ?_⟩
  -- the values written by this job
  have hT : coupledViaT p job.r = true := by unfold coupledViaT is1S0; simp [hb, hrS, hrJ, hrL]
  have hLf : pairViaL p job.r job.c = false := by unfold pairViaL; simp [hrL, hcL, hrJ]
  have hbw : ∀ ij, binWrites p g 1 V (junk job) job ij = some
      [((job.slot, 0, 0, ij.1, ij.2), 0), ((job.slot, 0, 1, ij.1, ij.2), 0),
        ((job.slot, 1, 0, ij.1, ij.2), 0), ((job.slot, 1, 1, ij.1, ij.2), 0)] := by
    intro ij
    unfold binWrites wpElements isoElements isoAverage
    simp [hm, hT, hLf, hrS, hrJ, hrT, hV]
  unfold potMatrices at hmem
  rw [h1'] at hmem
  simp only [Option.bind_eq_bind, Option.bind_some] at hmem
  obtain ⟨ws, hws, hmem⟩ := Option.bind_eq_some_iff.1 hmem
  cases hmem
  have hws' := mapM_forall2 hws
  have hlen := hws'.length_eq
  obtain ⟨n, hn, hjn⟩ := List.getElem_of_mem hjm
  have hjw : jobWrites p g V (junk job) job = some ((binPairs g.Np).map fun ij =>
      [((job.slot, 0, 0, ij.1, ij.2), (0 : ℝ)), ((job.slot, 0, 1, ij.1, ij.2), 0),
        ((job.slot, 1, 0, ij.1, ij.2), 0), ((job.slot, 1, 1, ij.1, ij.2), 0)]).flatten := by
    unfold jobWrites
    rw [hty]
    simp only [Option.bind_eq_bind, Option.bind_some]
    rw [mapM_some (fun ij _ => hbw ij)]
    rfl
  apply writeAll_eq
  · rw [List.mem_flatten]
    have hx := List.forall₂_iff_get.1 hws' |>.2 n hn (by omega)
    simp only [List.get_eq_getElem, hjn] at hx
    rw [hjw, Option.some.injEq] at hx
    refine ⟨_, List.getElem_mem (by omega : n < ws.length), ?_⟩
    rw [← hx]
    simp only [List.mem_flatten, List.mem_map]
    refine ⟨_, ⟨(i, j), mem_binPairs.2 ⟨hi, hj⟩, rfl⟩, ?_⟩
    interval_cases br <;> interval_cases bc <;> simp
  · intro wr hw' he
    rw [List.mem_flatten] at hw'
    obtain ⟨l, hl, hwl⟩ := hw'
    obtain ⟨m, hm', rfl⟩ := List.getElem_of_mem hl
    have hx := List.forall₂_iff_get.1 hws' |>.2 m (by omega) hm'
    simp only [List.get_eq_getElem] at hx
    -- every write of a job carries the job's slot
    have hslotw : ∀ (jb : Job) (L : List (PotKey × ℝ)), jobWrites p g V (junk jb) jb = some L →
        ∀ x ∈ L, x.1.1 = jb.slot := by
      intro jb L hL x hxL
      unfold jobWrites at hL
      obtain ⟨ty, _, hL⟩ := Option.bind_eq_some_iff.1 hL
      obtain ⟨ls, hls, hL⟩ := Option.bind_eq_some_iff.1 hL
      cases hL
      obtain ⟨l', hl', hxl'⟩ := List.mem_flatten.1 hxL
      obtain ⟨k, hk, rfl⟩ := List.getElem_of_mem hl'
      have hls' := mapM_forall2 hls
      have hy := List.forall₂_iff_get.1 hls' |>.2 k (by rw [hls'.length_eq]; exact hk) hk
      simp only [List.get_eq_getElem] at hy
      generalize ls[k] = lk at hy hxl'
      unfold binWrites at hy
      obtain ⟨e, _, hy⟩ := Option.bind_eq_some_iff.1 hy
      dsimp only at hy
      split at hy
      · split at hy
        · obtain ⟨_, _, hy⟩ := Option.bind_eq_some_iff.1 hy
          obtain ⟨_, _, hy⟩ := Option.bind_eq_some_iff.1 hy
          obtain ⟨_, _, hy⟩ := Option.bind_eq_some_iff.1 hy
          obtain ⟨_, _, hy⟩ := Option.bind_eq_some_iff.1 hy
          cases hy
          simp only [List.mem_cons, List.not_mem_nil, or_false] at hxl'
          rcases hxl' with rfl | rfl | rfl | rfl <;> rfl
        · cases hy
          simp only [List.mem_cons, List.not_mem_nil, or_false] at hxl'
          rcases hxl' with rfl | rfl | rfl | rfl <;> rfl
      · obtain ⟨_, _, hy⟩ := Option.bind_eq_some_iff.1 hy
        cases hy
        simp only [List.mem_cons, List.not_mem_nil, or_false] at hxl'
        rw [hxl']
    have hslot := hslotw _ _ hx wr hwl
    rw [he] at hslot
    have hjj : jobs[m]'(by omega) = job :=
      List.inj_on_of_nodup_map hinv.nodup (List.getElem_mem _) hjm hslot.symm
    rw [hjj, hjw, Option.some.injEq] at hx
    rw [← hx] at hwl
    simp only [List.mem_flatten, List.mem_map] at hwl
    obtain ⟨l', ⟨ij, _, rfl⟩, hwl⟩ := hwl
    simp only [List.mem_cons, List.not_mem_nil, or_false] at hwl
    rcases hwl with rfl | rfl | rfl | rfl <;> rfl

/-- … whereas the required 1S0 element is non-zero: the two facts together refute C32 for this mode. -/
theorem C32_midpoint_breaking_wrong : ∃ (p : PWParams) (w : PWSpace) (g : PotGrid) (V : PotModel)
    (mem : PotKey → ℝ) (a : PWState) (sl : Slot), p.tensor = true ∧ ValidTruncation p ∧ constructPW p = some w ∧
    potMatrices p g V (fun _ _ _ _ => 0) (fun _ => 0) w.states = some mem ∧ a ∈ w.states ∧ slotOf p a = some sl ∧
    0 < g.Np ∧ mem (sl, blockOf p a, blockOf p a, 0, 0) ≠ wpElement g (element V p.isoBreak a a) 0 0 := by
  set p : PWParams := { J2max := 0, twoJ3max := 1, isoBreak := true } with hp
  have hv : ValidTruncation p := by unfold ValidTruncation; decide
  obtain ⟨w, hw, hx⟩ := C01_basis_exact p hv
  set g : PotGrid := ⟨1, 1, true, fun n => n, fun _ => 1, fun _ => 1, fun _ => 1, fun _ => 1⟩ with hg
  set V : PotModel := fun _ _ _ _ _ _ _ k => if k = 0 then 1 else 0 with hVd
  set a : PWState := ⟨0, 0, 0, 1, 0, 1, 1, 1, 1⟩ with haD
  have ha : a ∈ w.states := by rw [hx]; simp [Allowed, Couples, hp, haD]
  -- the run finishes: every job's types and extractions succeed
  have hs : ∀ s ∈ w.states, Allowed p.J2max p.twoJ3max p.isoBreak s := fun s hs => (hx s).1 hs
  obtain ⟨jobs, h1, hinv, hcov, hf⟩ := pairLoop_spec (stepOK_of_basis rfl hs true)
  have h1' : potJobs p w.states = some jobs := h1
  have hex : ∃ mem, potMatrices p g V (fun _ _ _ _ => 0) (fun _ => 0) w.states = some mem := by
    have hall : ∀ job ∈ jobs, (jobWrites p g V (fun _ _ => 0) job).isSome = true := by
      intro job hj
      obtain ⟨hr, hc, hsl⟩ := hinv.row job hj
      obtain ⟨_, pre, post, _, hok, _⟩ := hf job hj
      cases hT : coupledViaT p job.r
      · have hty := isoscalarType_isSome (hs _ hr) (hs _ hc)
        unfold jobWrites
        cases hq : isoscalarType job.r job.c with
        | none => exact absurd hq hty
        | some ty =>
          simp only [Option.bind_eq_bind, Option.bind_some]
          rw [mapM_some (fun ij _ => binWrites_spec (hs _ hr) (hs _ hc) hok (Or.inr hT) V hq (fun _ _ => 0) ij)]
          rfl
      · have h0 : job.r.S = 0 ∧ job.r.J = 0 := by
          unfold coupledViaT is1S0 at hT
          simp only [Bool.and_eq_true, beq_iff_eq] at hT
          tauto
        obtain ⟨hty, hrL, hcL, hrT⟩ := pot_1S0_job_type rfl hv rfl hw h1' hj h0.1 h0.2
        have hLf : pairViaL p job.r job.c = false := by unfold pairViaL; simp [hrL, hcL, h0.2]
        unfold jobWrites
        rw [hty]
        simp only [Option.bind_eq_bind, Option.bind_some]
        rw [mapM_some (g := fun ij => (binWrites p g 1 V (fun _ _ => 0) job ij).getD [])]
        · rfl
        · intro ij _
          unfold binWrites wpElements isoElements
          simp [hg, hT, hLf]
    unfold potMatrices
    rw [h1']
    simp only [Option.bind_eq_bind, Option.bind_some]
    rw [mapM_some (g := fun job => (jobWrites p g V (fun _ _ => 0) job).getD [])]
    · exact ⟨_, rfl⟩
    · intro job hj
      obtain ⟨v, hv⟩ := Option.isSome_iff_exists.1 (hall job hj)
      have hv' : jobWrites p g V (fun _ _ _ => 0) job = some v := hv
      rw [hv']
      show _ = some ((jobWrites p g V (fun _ _ _ => 0) job).getD [])
      rw [hv']; rfl
  obtain ⟨mem, hmem⟩ := hex
  have hblk : blockOf p a = 0 := by
    unfold blockOf coupledViaL coupledViaT is1S0; simp [haD]
  obtain ⟨sl, hsl, h0⟩ := C32_midpoint_breaking_loses_1S0 p rfl rfl hv w hw g rfl V
    (by intro x y c Tz k hk; rw [hVd]; exact if_neg (by rintro rfl; exact absurd hk (by decide)))
    _ _ mem hmem a ha rfl rfl (blockOf p a) (blockOf p a) 0 0 (by rw [hblk]; omega) (by rw [hblk]; omega)
    (by simp [hg]) (by simp [hg])
  refine ⟨p, w, g, V, mem, a, sl, rfl, hv, hw, hmem, ha, hsl, by simp [hg], ?_⟩
  rw [h0]
  unfold wpElement element phase isospinMix component
  simp [hg, hVd, haD, hp]
  norm_num

/-! ### C55 -/

/-- **C55.** The re-ordering of the external potentials is a permutation of the components that takes the Fortran order
(S=0, S=1, ++, --, +-, -+) to the order documented for the rest of the program: with `+`/`-` standing for L = J±1
(first sign outgoing), the component read for each pair (S, Lo, Li) is the external one with that label. -/
theorem C55_reorder (t : Six) (J : Int) (hJ : 1 ≤ J) :
    reorderExternal t (component 0 J J J) = t 0 ∧ reorderExternal t (component 1 J J J) = t 1 ∧
    reorderExternal t (component 1 (J + 1) (J + 1) J) = t 2 ∧
    reorderExternal t (component 1 (J - 1) (J - 1) J) = t 3 ∧
    reorderExternal t (component 1 (J - 1) (J + 1) J) = t 4 ∧
    reorderExternal t (component 1 (J + 1) (J - 1) J) = t 5 ∧
    reorderExternal t (component 1 1 1 0) = t 2 := by
  have e3 : J - 1 < J + 1 := by omega
  have e4 : ¬ (J + 1 < J - 1) := by omega
  unfold reorderExternal component
  refine ⟨by simp, by simp, by simp, by simp, ?_, ?_, by simp⟩ <;> simp [e3, e4]

/-- **C55 (permutation).** -/
theorem C55_permutation : ∃ σ : Equiv.Perm (Fin 6), ∀ t : Six, ∀ k, reorderExternal t k = t (σ k) := by
  refine ⟨⟨![0, 1, 3, 5, 4, 2], ![0, 1, 5, 2, 4, 3], by decide, by decide⟩, ?_⟩
  intro t k
  fin_cases k <;> rfl

end TicTac
end
