import Verif.Lemmas.PadeLoop
import Verif.Props.Kernel
import Verif.Props.Pade
/-! The iterative solver: C44, C45, C47, C77. -/
noncomputable section
namespace TicTac
open Spec
open Classical

/-- The arguments of `pade_method_solve` for one 3N channel with states `states`: kernel tables as in C43, deuteron states `deut`, on-shell
q bins `qidx`, a worker order `sched`, and the breakup offsets that `find_on_shell_bins` guarantees (C40_offsets). -/
structure SolverInput (p : PWParams) (states : List PWState) (Nq Np : Nat) (V C : Bool → Int → ℝ) (P123 : List (Entry ℝ)) (c : PadeCfg)
    (deut : List (Fin states.length)) (qidx : List (Fin Nq)) (sched : List Nat) : Prop where
  kernel : KernelInput p states Nq Np V C P123 c.CT c.VC c.ents
  ptr : c.ptr = csPtr (c.ents.map (·.col))
  hn : c.Nalpha = states.length
  hq : c.Nq = Nq
  hp : c.Np = Np
  deut_eq : c.deut = deut.map (·.val)
  qidx_eq : c.qidx = qidx.map (·.val)
  sched_perm : sched.Perm (List.range states.length)
  buMono : c.breakup = true → ∀ q < qidx.length, c.buStart q ≤ c.buStart (q + 1)
  buMax : c.breakup = true → c.buStart qidx.length ≤ c.nBU

/-! ### C45 -/

/-- C45: up to dimension 2^28 the chunks are in range, disjoint, cover all columns, and the buffer cells used lie inside the buffer of
`num_cols_per_chunk * dense_dim` numbers; each column is computed from the index of exactly one chunk. -/
theorem C45_chunks (D : Nat) (hD : 0 < D) (hD' : D ≤ 2 ^ 28) :
    0 < colsPerChunk D ∧
    (∀ i < numChunks D, chunkStart D i ≤ chunkEnd D i ∧ chunkEnd D i ≤ D) ∧
    (∀ col < D, ∃! i, i < numChunks D ∧ chunkStart D i ≤ col ∧ col < chunkEnd D i) ∧
    (∀ i < numChunks D, ∀ col r, chunkStart D i ≤ col → col < chunkEnd D i → r < D → (col - chunkStart D i) * D + r < colsPerChunk D * D) := by
  have hc : 0 < colsPerChunk D := by
    unfold colsPerChunk
    apply Nat.div_pos
    · have : 16 * D ≤ 16 * 2 ^ 28 := Nat.mul_le_mul_left _ hD'
      exact this.trans (by norm_num)
    · omega
  refine ⟨hc, ?_, ?_, ?_⟩
  · intro i hi
    refine ⟨?_, chunkEnd_le D i⟩
    rw [chunkEnd_eq]
    exact le_min (chunkStart_mono D (by omega)) (chunkStart_le D hi)
  · intro col hcol
    refine ⟨col / colsPerChunk D, ⟨?_, ?_, ?_⟩, ?_⟩
    · unfold numChunks
      have := Nat.div_le_div_right (c := colsPerChunk D) hcol.le
      omega
    · unfold chunkStart; exact Nat.div_mul_le_self _ _
    · rw [chunkEnd_eq]
      refine lt_min ?_ hcol
      unfold chunkStart
      have := Nat.div_add_mod col (colsPerChunk D)
      have h2 := Nat.mod_lt col hc
      rw [Nat.add_mul, Nat.one_mul, Nat.mul_comm]
      omega
    · rintro j ⟨_, h1, h2⟩
      rw [chunkEnd_eq] at h2
      have h3 := lt_of_lt_of_le h2 (min_le_left _ _)
      unfold chunkStart at h1 h3
      have := Nat.div_eq_of_lt_le h1 h3
      exact this.symm
  · intro i _ col r h1 h2 hr
    rw [chunkEnd_eq] at h2
    have h3 := lt_of_lt_of_le h2 (min_le_left _ _)
    have h4 : col - chunkStart D i < colsPerChunk D := by
      unfold chunkStart at h1 h3 ⊢
      rw [Nat.add_mul, Nat.one_mul] at h3
      omega
    exact radix_lt h4 hr

/-- C45, negation for larger dimensions: beyond 2^28 the number of columns per chunk is 0 and the solver stops with a division by zero,
whatever its other arguments. -/
theorem C45_too_large (c : PadeCfg) (hD : 2 ^ 28 < c.D) (sched : List Nat) (junk : PadeJunk) : padeSolve c sched junk = none := by
  unfold padeSolve
  rw [if_pos]
  right
  unfold colsPerChunk
  apply Nat.div_eq_of_lt
  calc 4 * 1024 ^ 3 = 16 * 2 ^ 28 := by norm_num
    _ < 16 * c.D := by omega

-- a production-size dimension (30 states, 32 x 32 bins) and one with more than one chunk
example : numChunks (30 * 32 * 32) = 4 ∧ chunkEnd (30 * 32 * 32) 3 = 30 * 32 * 32 := by decide

/-! ### the setup -/

section
variable {p : PWParams} {twoJ3 P : Int} {states : List PWState} {Nq Np : Nat} {V C : Bool → Int → ℝ} {P123 : List (Entry ℝ)} {c : PadeCfg}
  {deut : List (Fin states.length)} {qidx : List (Fin Nq)} {sched : List Nat}

theorem SolverInput.setup (ht : p.tensor = true) (h : IsChannel p twoJ3 P states) (hNp : 0 < Np) (hin : SolverInput p states Nq Np V C P123 c deut qidx sched)
    (hD : 0 < states.length * Nq * Np) (hD' : states.length * Nq * Np ≤ 2 ^ 28) : PadeSetup c (kernelMatrix p states Nq Np V C P123) deut qidx sched hNp := by
  have hcD : c.D = states.length * Nq * Np := by unfold PadeCfg.D; rw [hin.hn, hin.hq, hin.hp]
  have hnq : c.nq = qidx.length := by unfold PadeCfg.nq; rw [hin.qidx_eq]; simp
  refine ⟨hin.hn, hin.hq, hin.hp, hin.deut_eq, hin.qidx_eq, ?_, ?_, ?_, ?_, ?_⟩
  · intro x y
    rw [hin.ptr, C43_kernel_column ht h hin.kernel, zero_add]
  · intro i j y
    rw [hin.ptr, hin.hn, hin.hq, hin.hp, hin.deut_eq, hin.qidx_eq, hcD]
    exact C43_kernel_rows ht h hNp hin.kernel qidx deut sched hin.sched_perm (fun _ => 0) i j y
  · rw [hcD]; exact (C45_chunks _ hD hD').1
  · rw [hnq]; exact hin.buMono
  · rw [hnq]; exact hin.buMax

/-- Number of the elastic element (row deuteron `i`, column deuteron `j`, energy `q`) in the result array. -/
def elNum (c : PadeCfg) (i j q : Nat) : Nat := i * c.nd * c.nq + j * c.nq + q

theorem el_mem {A : Matrix (Idx states.length Nq Np) (Idx states.length Nq Np) ℝ} {hNp : 0 < Np} (S : PadeSetup c A deut qidx sched hNp)
    (i j : Fin deut.length) (q : Fin qidx.length) :
    ∃ e ∈ elElems c, e.idx = elNum c i j q ∧ ElemIs c e i q ((deut.get j, qidx.get q, ⟨0, hNp⟩) : Idx states.length Nq Np) := by
  have hnd := S.nd_eq
  have hnq := S.nq_eq
  refine ⟨_, (mem_elElems c _).2 ⟨i, by have := i.2; omega, j, by have := j.2; omega, q, by have := q.2; omega, rfl⟩, rfl, rfl, ?_⟩
  unfold flat
  dsimp only
  rw [S.deut_eq, S.qidx_eq, S.hq, S.hp]
  simp [List.getD]

/-- Breakup entry `b` of energy `q` is the state `y`. -/
def BuIs {n Nq Np : Nat} (c : PadeCfg) (q b : Nat) (y : Idx n Nq Np) : Prop :=
  c.breakup = true ∧ c.buStart q ≤ b ∧ b < c.buStart (q + 1) ∧ c.buState b = (y.1.val, y.2.1.val, y.2.2.val)

theorem bu_mem {A : Matrix (Idx states.length Nq Np) (Idx states.length Nq Np) ℝ} {hNp : 0 < Np} (S : PadeSetup c A deut qidx sched hNp)
    (i : Fin deut.length) (q : Fin qidx.length) (b : Nat) (y : Idx states.length Nq Np) (hb : BuIs c q b y) :
    ∃ e ∈ buElems c, e.idx = i * c.nBU + b ∧ ElemIs c e i q y := by
  have hnd := S.nd_eq
  have hnq := S.nq_eq
  obtain ⟨h1, h2, h3, h4⟩ := hb
  refine ⟨_, (mem_buElems c _).2 ⟨h1, q, by have := q.2; omega, i, by have := i.2; omega, b, h2, h3, rfl⟩, rfl, rfl, ?_⟩
  unfold flat
  dsimp only
  rw [h4, S.hq, S.hp]

/-! ### C44 -/

/-- Declare further elements converged. -/
def withDropped (d : (Nat → Bool) × (Nat → Bool)) (s : PadeState) : PadeState :=
  { s with el := { s.el with conv := fun i => s.el.conv i || d.1 i }, bu := { s.bu with conv := fun i => s.bu.conv i || d.2 i } }

/-- The Neumann iteration with an arbitrary schedule of elements declared converged after each term. -/
def dropRun (c : PadeCfg) (s : PadeState) (drop : Nat → (Nat → Bool) × (Nat → Bool)) : Nat → PadeState
  | 0 => withDropped (drop 0) s
  | k + 1 => withDropped (drop (k + 1)) (neumannStep c (k + 1) (dropRun c s drop k))

theorem dropRun_inv {A : Matrix (Idx states.length Nq Np) (Idx states.length Nq Np) ℝ} {hNp : 0 < Np} (S : PadeSetup c A deut qidx sched hNp) (junk : PadeJunk)
    (drop : Nat → (Nat → Bool) × (Nat → Bool)) (k : Nat) (hk : k < 29) : NInv c A deut qidx hNp k (dropRun c (padeInit c sched junk) drop k) := by
  have hd : ∀ (d : (Nat → Bool) × (Nat → Bool)) (s : PadeState) (m : Nat), NInv c A deut qidx hNp m s → NInv c A deut qidx hNp m (withDropped d s) := by
    intro d s m h
    exact NInv.mono h rfl rfl rfl rfl (fun i hi => by show (s.el.conv i || d.1 i) = true; rw [hi]; rfl)
      (fun i hi => by show (s.bu.conv i || d.2 i) = true; rw [hi]; rfl)
  induction k with
  | zero => exact hd _ _ _ (NInv.init S junk)
  | succ k ih => exact hd _ _ _ (NInv.step S (ih (by omega)) (by omega))

/-- C44: whatever elements are declared converged after each term (and so whatever rows are dropped), after `k` terms every coefficient
stored for an active elastic or breakup element is the exact element of `A (G A)^m`. -/
theorem C44_neumann_terms (ht : p.tensor = true) (h : IsChannel p twoJ3 P states) (hNp : 0 < Np) (hin : SolverInput p states Nq Np V C P123 c deut qidx sched)
    (hD : 0 < states.length * Nq * Np) (hD' : states.length * Nq * Np ≤ 2 ^ 28) (junk : PadeJunk) (drop : Nat → (Nat → Bool) × (Nat → Bool))
    (k : Nat) (hk : k ≤ 28) (m : Nat) (hm : m ≤ k) (i : Fin deut.length) (q : Fin qidx.length) :
    let s := dropRun c (padeInit c sched junk) drop k
    let a := fun y : Idx states.length Nq Np => neumannTerm (toC (kernelMatrix p states Nq Np V C P123)) (fun x => c.G (q * c.D + flat x)) m (deut.get i, qidx.get q, ⟨0, hNp⟩) y
    (∀ j : Fin deut.length, s.el.conv (elNum c i j q) = false → s.el.a (elNum c i j q * 29 + m) = a (deut.get j, qidx.get q, ⟨0, hNp⟩)) ∧
    (∀ b y, BuIs c q b y → s.bu.conv (i * c.nBU + b) = false → s.bu.a ((i * c.nBU + b) * 29 + m) = a y) := by
  intro s a
  have S := hin.setup ht h hNp hD hD'
  have hI := dropRun_inv S junk drop k (by omega)
  constructor
  · intro j hc
    obtain ⟨e, he, h1, h2⟩ := el_mem S i j q
    rw [← h1] at hc ⊢
    exact hI.el e he hc i q _ h2 m hm
  · intro b y hb hc
    obtain ⟨e, he, h1, h2⟩ := bu_mem S i q b y hb
    rw [← h1] at hc ⊢
    exact hI.bu e he hc i q _ h2 m hm

/-- C44 for the program's own schedule: when order `NM` of the loop is reached, the approximants of order `NM` are formed from exact
coefficients for every element not yet converged. -/
theorem C44_program (ht : p.tensor = true) (h : IsChannel p twoJ3 P states) (hNp : 0 < Np) (hin : SolverInput p states Nq Np V C P123 c deut qidx sched)
    (hD : 0 < states.length * Nq * Np) (hD' : states.length * Nq * Np ≤ 2 ^ 28) (junk : PadeJunk) (NM : Nat) (hNM : NM < 15)
    (hrun : (padeLoopN c (padeInit c sched junk) NM).numConv ≠ c.numEL) (m : Nat) (hm : m ≤ 2 * NM) (i : Fin deut.length) (q : Fin qidx.length) :
    let s := termsFor c NM (padeLoopN c (padeInit c sched junk) NM)
    let a := fun y : Idx states.length Nq Np => neumannTerm (toC (kernelMatrix p states Nq Np V C P123)) (fun x => c.G (q * c.D + flat x)) m (deut.get i, qidx.get q, ⟨0, hNp⟩) y
    (∀ j : Fin deut.length, s.el.conv (elNum c i j q) = false → s.el.a (elNum c i j q * 29 + m) = a (deut.get j, qidx.get q, ⟨0, hNp⟩)) ∧
    (∀ b y, BuIs c q b y → s.bu.conv (i * c.nBU + b) = false → s.bu.a ((i * c.nBU + b) * 29 + m) = a y) := by
  intro s a
  have S := hin.setup ht h hNp hD hD'
  obtain ⟨m0, _, hL, hor⟩ := padeLoopN_inv S junk NM (by omega)
  obtain rfl := hor.resolve_right hrun
  have hI := termsFor_inv S hL.neumann hNM
  constructor
  · intro j hc
    obtain ⟨e, he, h1, h2⟩ := el_mem S i j q
    rw [← h1] at hc ⊢
    exact hI.el e he hc i q _ h2 m hm
  · intro b y hb hc
    obtain ⟨e, he, h1, h2⟩ := bu_mem S i q b y hb
    rw [← h1] at hc ⊢
    exact hI.bu e he hc i q _ h2 m hm

/-! ### C47 -/

/-- `u` is a diagonal Padé approximant of order at most 14 of the exact Neumann series of the element (row deuteron `i`, energy `q`,
column `y`). -/
def IsApproximant (p : PWParams) (states : List PWState) {Nq Np : Nat} (V C : Bool → Int → ℝ) (P123 : List (Entry ℝ)) (c : PadeCfg)
    (deut : List (Fin states.length)) (qidx : List (Fin Nq)) (hNp : 0 < Np) (i : Fin deut.length) (q : Fin qidx.length) (y : Idx states.length Nq Np) (u : ℂ) : Prop :=
  ∃ k ≤ 14, padeApproximant (fun m => neumannTerm (toC (kernelMatrix p states Nq Np V C P123)) (fun x => c.G (q * c.D + flat x)) m (deut.get i, qidx.get q, ⟨0, hNp⟩) y) k k 1 = some u

theorem numEL_length (c : PadeCfg) : (elElems c).length = c.numEL := by
  unfold elElems PadeCfg.numEL
  simp only [List.length_flatMap, List.length_map, List.length_range]
  simp [Nat.mul_assoc]

theorem convCount_all {t : OsTab} {es : List OsElem} (h : convCount t es = es.length) : ∀ e ∈ es, t.conv e.idx = true := by
  unfold convCount at h
  intro e he
  have := List.length_filter_eq_length_iff.1 h e he
  simpa using this

theorem convCount_le (t : OsTab) (es : List OsElem) : convCount t es ≤ es.length := List.length_filter_le _ _

theorem all_convCount {t : OsTab} {es : List OsElem} (h : ∀ e ∈ es, t.conv e.idx = true) : convCount t es = es.length := by
  unfold convCount
  exact List.length_filter_eq_length_iff.2 fun e he => by simpa using h e he

theorem value_el {A : Matrix (Idx states.length Nq Np) (Idx states.length Nq Np) ℝ} {hNp : 0 < Np} {m : Nat} {es : List OsElem} {t : OsTab}
    (h : TabInv c (exactPA c A deut qidx hNp) m es t) (hm : m ≤ 15) {e : OsElem} (he : e ∈ es) (hc : t.conv e.idx = true) {i : Fin deut.length} {q : Fin qidx.length}
    {y : Idx states.length Nq Np} (hy : ElemIs c e i q y) : ∃ u, t.pa ((e.idx : Int) * 15 + t.best e.idx) = some u ∧ ∃ k ≤ 14, exactPA c A deut qidx hNp i q y k = some u := by
  obtain ⟨NM, h1, first, h2, h3, h4, h5, h6⟩ := h.value he hc hy
  obtain ⟨u, hu⟩ := Option.isSome_iff_exists.1 h6
  exact ⟨u, h5.trans hu, _, by omega, hu⟩

/-- C47 without breakup: the solver returns, and every elastic element is a finite diagonal Padé approximant, of order at most 14, of its
exact Neumann series. -/
theorem C47_elastic_complete (ht : p.tensor = true) (h : IsChannel p twoJ3 P states) (hNp : 0 < Np) (hin : SolverInput p states Nq Np V C P123 c deut qidx sched)
    (hD : 0 < states.length * Nq * Np) (hD' : states.length * Nq * Np ≤ 2 ^ 28) (hb : c.breakup = false) (junk : PadeJunk) :
    ∃ s, padeSolve c sched junk = some s ∧ ∀ (i j : Fin deut.length) (q : Fin qidx.length),
      ∃ u, padeU s (elNum c i j q) = some u ∧ IsApproximant p states V C P123 c deut qidx hNp i q (deut.get j, qidx.get q, ⟨0, hNp⟩) u := by
  have S := hin.setup ht h hNp hD hD'
  refine ⟨_, padeSolve_eq S junk, fun i j q => ?_⟩
  obtain ⟨m0, hm0, hL, hor⟩ := padeLoopN_inv S junk 15 le_rfl
  generalize padeLoopN c (padeInit c sched junk) 15 = s at hL hor ⊢
  obtain ⟨e, he, h1, h2⟩ := el_mem S i j q
  have hc : s.el.conv e.idx = true := by
    rcases hor with hor | hor
    · by_contra hx
      have := ((hL.el e he i q _ h2).1 (by simpa using hx)).1
      omega
    · have hb0 : buElems c = [] := by unfold buElems; rw [if_neg (by simp [hb])]
      rw [hL.count, hb0, ← numEL_length] at hor
      exact convCount_all (by simpa [convCount] using hor) e he
  rw [← h1]
  exact value_el hL.el hm0 he hc h2

theorem best_junk {A : Matrix (Idx states.length Nq Np) (Idx states.length Nq Np) ℝ} {hNp : 0 < Np} (S : PadeSetup c A deut qidx sched hNp) (junk : PadeJunk)
    (m : Nat) (hm : m ≤ 15) :
    (∀ idx, (padeLoopN c (padeInit c sched junk) m).el.conv idx = false → (padeLoopN c (padeInit c sched junk) m).el.best idx = junk.best idx) ∧
    (∀ idx, (padeLoopN c (padeInit c sched junk) m).bu.conv idx = false → (padeLoopN c (padeInit c sched junk) m).bu.best idx = junk.bestBU idx) := by
  have key : ∀ (m : Nat) (hm : m < 15) (es : List OsElem) (hnd : (es.map (·.idx)).Nodup) (t : OsTab) (jk : Nat → Nat),
      (∀ idx, t.conv idx = false → t.best idx = jk idx) → ∀ idx, (paPass m es t).1.conv idx = false → (paPass m es t).1.best idx = jk idx := by
    intro m hm es hnd t jk ht idx hc
    obtain ⟨_, s2, s3, _, _⟩ := paPass_spec m hm es hnd t
    by_cases he : ∃ e ∈ es, e.idx = idx
    · obtain ⟨e, he, rfl⟩ := he
      have hp := s2 e he
      have hc0 : t.conv e.idx = false := by
        by_contra hx
        rw [(hp.done (by simpa using hx)).1] at hc
        cases hc
      obtain ⟨_, _, _, _, _, _, _, t7⟩ := hp.todo hc0
      rw [t7 hc]; exact ht _ hc0
    · obtain ⟨g1, g2, _⟩ := s3 idx fun e h1 h2 => he ⟨e, h1, h2⟩
      rw [g2]; exact ht _ (g1 ▸ hc)
  induction m with
  | zero => exact ⟨fun _ _ => rfl, fun _ _ => rfl⟩
  | succ m ih =>
    obtain ⟨i1, i2⟩ := ih (by omega)
    rw [padeLoopN_succ]
    split
    · exact ⟨i1, i2⟩
    · generalize padeLoopN c (padeInit c sched junk) m = s at i1 i2 ⊢
      obtain ⟨f1, f2, f3, f4, f5, f6, f7⟩ := termsFor_frame c m s
      rw [padeBody_eq]
      exact ⟨key m (by omega) _ (el_nodup c) _ _ (by rw [f1, f3]; exact i1), key m (by omega) _ (bu_nodup S) _ _ (by rw [f4, f6]; exact i2)⟩

/-- C47 with breakup elements.  Missing from the full claim: the loop may stop when the number of converged elements of both kinds
happens to equal the number of elastic elements.  When the final count differs from it, every elastic and every breakup element (with an
in-range state) holds a finite approximant of its exact series. -/
theorem C47_complete_unless_count (ht : p.tensor = true) (h : IsChannel p twoJ3 P states) (hNp : 0 < Np)
    (hin : SolverInput p states Nq Np V C P123 c deut qidx sched) (hD : 0 < states.length * Nq * Np) (hD' : states.length * Nq * Np ≤ 2 ^ 28) (junk : PadeJunk) :
    ∃ s, padeSolve c sched junk = some s ∧ (s.numConv ≠ c.numEL → ∀ (i : Fin deut.length) (q : Fin qidx.length),
      (∀ j : Fin deut.length, ∃ u, padeU s (elNum c i j q) = some u ∧ IsApproximant p states V C P123 c deut qidx hNp i q (deut.get j, qidx.get q, ⟨0, hNp⟩) u) ∧
      (∀ b y, BuIs c q b y → ∃ u, padeUBU s (i * c.nBU + b) = some u ∧ IsApproximant p states V C P123 c deut qidx hNp i q y u)) := by
  have S := hin.setup ht h hNp hD hD'
  refine ⟨_, padeSolve_eq S junk, fun hne i q => ?_⟩
  obtain ⟨m0, hm0, hL, hor⟩ := padeLoopN_inv S junk 15 le_rfl
  generalize padeLoopN c (padeInit c sched junk) 15 = s at hL hor hne ⊢
  obtain rfl := hor.resolve_right hne
  constructor
  · intro j
    obtain ⟨e, he, h1, h2⟩ := el_mem S i j q
    have hc : s.el.conv e.idx = true := by
      by_contra hx
      have := ((hL.el e he i q _ h2).1 (by simpa using hx)).1
      omega
    rw [← h1]
    exact value_el hL.el hm0 he hc h2
  · intro b y hb
    obtain ⟨e, he, h1, h2⟩ := bu_mem S i q b y hb
    have hc : s.bu.conv e.idx = true := by
      by_contra hx
      have := ((hL.bu e he i q _ h2).1 (by simpa using hx)).1
      omega
    rw [← h1]
    exact value_el hL.bu hm0 he hc h2

/-- C47, the other case: with at least one breakup element, a final count equal to the number of elastic elements means that some
element's result is read through an index that was never assigned. -/
theorem C47_count_stop_unassigned (ht : p.tensor = true) (h : IsChannel p twoJ3 P states) (hNp : 0 < Np)
    (hin : SolverInput p states Nq Np V C P123 c deut qidx sched) (hD : 0 < states.length * Nq * Np) (hD' : states.length * Nq * Np ≤ 2 ^ 28) (junk : PadeJunk)
    (hbu : buElems c ≠ []) (s : PadeState) (hs : padeSolve c sched junk = some s) (hcount : s.numConv = c.numEL) :
    (∃ e ∈ elElems c, s.el.best e.idx = junk.best e.idx ∧ padeU s e.idx = s.el.pa ((e.idx : Int) * 15 + junk.best e.idx)) ∨
    (∃ e ∈ buElems c, s.bu.best e.idx = junk.bestBU e.idx ∧ padeUBU s e.idx = s.bu.pa ((e.idx : Int) * 15 + junk.bestBU e.idx)) := by
  have S := hin.setup ht h hNp hD hD'
  rw [padeSolve_eq S junk] at hs
  have hs := Option.some.inj hs
  subst hs
  obtain ⟨m0, hm0, hL, _⟩ := padeLoopN_inv S junk 15 le_rfl
  obtain ⟨b1, b2⟩ := best_junk S junk 15 le_rfl
  generalize padeLoopN c (padeInit c sched junk) 15 = s at hL hcount b1 b2 ⊢
  by_cases h1 : ∃ e ∈ elElems c, s.el.conv e.idx = false
  · obtain ⟨e, he, hc⟩ := h1
    left
    refine ⟨e, he, b1 _ hc, ?_⟩
    unfold padeU; rw [b1 _ hc]
  · by_cases h2 : ∃ e ∈ buElems c, s.bu.conv e.idx = false
    · obtain ⟨e, he, hc⟩ := h2
      right
      refine ⟨e, he, b2 _ hc, ?_⟩
      unfold padeUBU; rw [b2 _ hc]
    · exfalso
      have g1 : convCount s.el (elElems c) = (elElems c).length := all_convCount fun e he => by
        by_contra hx; exact h1 ⟨e, he, by simpa using hx⟩
      have g2 : convCount s.bu (buElems c) = (buElems c).length := all_convCount fun e he => by
        by_contra hx; exact h2 ⟨e, he, by simpa using hx⟩
      have := hL.count
      rw [g1, g2, numEL_length, hcount] at this
      have := List.length_pos_iff.2 hbu
      omega

end
end TicTac
end
