import Verif.Lemmas.PadeSolve
import Verif.Lemmas.PadePass
/-! Invariant of the iterative solver. -/
noncomputable section
namespace TicTac
open Spec

/-- A run of the solver on the kernel matrix `A`: deuteron states `deut`, on-shell q bins `qidx`, worker order `sched`. -/
structure PadeSetup {n Nq Np : Nat} (c : PadeCfg) (A : Matrix (Idx n Nq Np) (Idx n Nq Np) ℝ) (deut : List (Fin n)) (qidx : List (Fin Nq))
    (sched : List Nat) (hNp : 0 < Np) : Prop where
  hn : c.Nalpha = n
  hq : c.Nq = Nq
  hp : c.Np = Np
  deut_eq : c.deut = deut.map (·.val)
  qidx_eq : c.qidx = qidx.map (·.val)
  kernel : HasKernel c A
  rows : ∀ (i : Fin deut.length) (j : Fin qidx.length) (y : Idx n Nq Np),
    allRows c.Nalpha c.Nq c.Np c.CT c.VC c.ents c.ptr c.qidx c.deut sched (fun _ => 0) ((i * qidx.length + j) * c.D + flat y) = A (deut.get i, qidx.get j, ⟨0, hNp⟩) y
  chunk : 0 < colsPerChunk c.D
  buMono : c.breakup = true → ∀ q < c.nq, c.buStart q ≤ c.buStart (q + 1)
  buMax : c.breakup = true → c.buStart c.nq ≤ c.nBU

section
variable {n Nq Np : Nat} {c : PadeCfg} {A : Matrix (Idx n Nq Np) (Idx n Nq Np) ℝ} {deut : List (Fin n)} {qidx : List (Fin Nq)}
  {sched : List Nat} {hNp : 0 < Np} (S : PadeSetup c A deut qidx sched hNp)

/-- Resolvent of energy `q` as a function on the channel space. -/
def gAt (c : PadeCfg) (n Nq Np : Nat) (q : Nat) : Idx n Nq Np → ℂ := fun x => c.G (q * c.D + flat x)

/-- The exact Neumann coefficient of the element (row deuteron `i`, energy `q`, column `y`). -/
def exactTerm (c : PadeCfg) (A : Matrix (Idx n Nq Np) (Idx n Nq Np) ℝ) (deut : List (Fin n)) (qidx : List (Fin Nq)) (hNp : 0 < Np)
    (i : Fin deut.length) (q : Fin qidx.length) (y : Idx n Nq Np) (k : Nat) : ℂ :=
  neumannTerm (toC A) (gAt c n Nq Np q) k (deut.get i, qidx.get q, ⟨0, hNp⟩) y

/-- Element `e` is the one with row deuteron `i`, energy `q`, column `y`. -/
def ElemIs (c : PadeCfg) (e : OsElem) (i q : Nat) (y : Idx n Nq Np) : Prop := e.row = i * c.nq + q ∧ e.col = flat y

/-- Invariant after `k` Neumann terms. -/
structure NInv (c : PadeCfg) (A : Matrix (Idx n Nq Np) (Idx n Nq Np) ℝ) (deut : List (Fin n)) (qidx : List (Fin Nq)) (hNp : 0 < Np)
    (k : Nat) (s : PadeState) : Prop where
  row : ∀ (i : Fin deut.length) (q : Fin qidx.length), rowActive c s i q = true → ∀ y,
    rowVec c.D s.rePrev s.imPrev (i * c.nq + q) y = exactTerm c A deut qidx hNp i q y k
  el : ∀ e ∈ elElems c, s.el.conv e.idx = false → ∀ (i : Fin deut.length) (q : Fin qidx.length) (y : Idx n Nq Np), ElemIs c e i q y →
    ∀ m ≤ k, s.el.a (e.idx * 29 + m) = exactTerm c A deut qidx hNp i q y m
  bu : ∀ e ∈ buElems c, s.bu.conv e.idx = false → ∀ (i : Fin deut.length) (q : Fin qidx.length) (y : Idx n Nq Np), ElemIs c e i q y →
    ∀ m ≤ k, s.bu.a (e.idx * 29 + m) = exactTerm c A deut qidx hNp i q y m

include S in
theorem PadeSetup.nd_eq : c.nd = deut.length := by unfold PadeCfg.nd; rw [S.deut_eq]; simp
include S in
theorem PadeSetup.nq_eq : c.nq = qidx.length := by unfold PadeCfg.nq; rw [S.qidx_eq]; simp

theorem mem_elElems (c : PadeCfg) (e : OsElem) : e ∈ elElems c ↔ ∃ dr < c.nd, ∃ dc < c.nd, ∃ q < c.nq,
    e = ⟨dr * c.nq + q, c.deut.getD dc 0 * c.Nq * c.Np + c.qidx.getD q 0 * c.Np + 0, dr * c.nd * c.nq + dc * c.nq + q⟩ := by
  unfold elElems
  simp only [List.mem_flatMap, List.mem_map, List.mem_range]
  constructor
  · rintro ⟨dr, h1, dc, h2, q, h3, rfl⟩; exact ⟨dr, h1, dc, h2, q, h3, rfl⟩
  · rintro ⟨dr, h1, dc, h2, q, h3, rfl⟩; exact ⟨dr, h1, dc, h2, q, h3, rfl⟩

theorem mem_buElems (c : PadeCfg) (e : OsElem) : e ∈ buElems c ↔ c.breakup = true ∧ ∃ q < c.nq, ∃ dr < c.nd, ∃ b, c.buStart q ≤ b ∧ b < c.buStart (q + 1) ∧
    e = ⟨dr * c.nq + q, (c.buState b).1 * c.Nq * c.Np + (c.buState b).2.1 * c.Np + (c.buState b).2.2, dr * c.nBU + b⟩ := by
  unfold buElems
  by_cases hb : c.breakup = true
  · rw [if_pos hb]
    simp only [List.mem_flatMap, List.mem_map, List.mem_range, List.mem_range']
    constructor
    · rintro ⟨q, h1, dr, h2, b, ⟨i, h3, rfl⟩, rfl⟩; exact ⟨hb, q, h1, dr, h2, _, by omega, by omega, rfl⟩
    · rintro ⟨_, q, h1, dr, h2, b, h3, h4, rfl⟩; exact ⟨q, h1, dr, h2, b, ⟨b - c.buStart q, by omega, by omega⟩, rfl⟩
  · rw [if_neg hb]; simp [hb]

theorem el_idx_inj (c : PadeCfg) {dr dc q dr' dc' q' : Nat} (h1 : dc < c.nd) (h2 : q < c.nq) (h3 : dc' < c.nd) (h4 : q' < c.nq)
    (h : dr * c.nd * c.nq + dc * c.nq + q = dr' * c.nd * c.nq + dc' * c.nq + q') : dr = dr' ∧ dc = dc' ∧ q = q' := by
  have e : ∀ a b d : Nat, a * c.nd * c.nq + b * c.nq + d = (a * c.nd + b) * c.nq + d := fun a b d => by ring
  rw [e, e] at h
  obtain ⟨h5, rfl⟩ := radix_inj h2 h4 h
  obtain ⟨rfl, rfl⟩ := radix_inj h1 h3 h5
  exact ⟨rfl, rfl, rfl⟩

theorem el_uniq (c : PadeCfg) : ∀ e ∈ elElems c, ∀ e' ∈ elElems c, e.idx = e'.idx → e.row = e'.row ∧ e.col = e'.col := by
  intro e he e' he' h
  obtain ⟨dr, h1, dc, h2, q, h3, rfl⟩ := (mem_elElems c e).1 he
  obtain ⟨dr', h1', dc', h2', q', h3', rfl⟩ := (mem_elElems c e').1 he'
  dsimp only at h
  obtain ⟨rfl, rfl, rfl⟩ := el_idx_inj c h2 h3 h2' h3' h
  exact ⟨rfl, rfl⟩

theorem bu_mono (hm : ∀ q < c.nq, c.buStart q ≤ c.buStart (q + 1)) : ∀ q q', q ≤ q' → q' ≤ c.nq → c.buStart q ≤ c.buStart q' := by
  intro q q' h h'
  induction q', h using Nat.le_induction with
  | base => exact le_rfl
  | succ q' h ih => exact (ih (by omega)).trans (hm q' (by omega))

include S in
theorem bu_idx_inj (hbu : c.breakup = true) {dr b q dr' b' q' : Nat} (hq : q < c.nq) (hq' : q' < c.nq) (h1 : c.buStart q ≤ b) (h2 : b < c.buStart (q + 1)) (h1' : c.buStart q' ≤ b')
    (h2' : b' < c.buStart (q' + 1)) (h : dr * c.nBU + b = dr' * c.nBU + b') : dr = dr' ∧ b = b' ∧ q = q' := by
  have m := bu_mono (c := c) (S.buMono hbu)
  have g1 := m (q + 1) c.nq (by omega) le_rfl
  have g2 := m (q' + 1) c.nq (by omega) le_rfl
  have g3 := S.buMax hbu
  obtain ⟨rfl, rfl⟩ := radix_inj (show b < c.nBU by omega) (show b' < c.nBU by omega) h
  refine ⟨rfl, rfl, ?_⟩
  rcases Nat.lt_trichotomy q q' with hh | hh | hh
  · have := m (q + 1) q' (by omega) (by omega); omega
  · exact hh
  · have := m (q' + 1) q (by omega) (by omega); omega

include S in
theorem bu_uniq : ∀ e ∈ buElems c, ∀ e' ∈ buElems c, e.idx = e'.idx → e.row = e'.row ∧ e.col = e'.col := by
  intro e he e' he' h
  obtain ⟨hbu, q, h1, dr, h2, b, h3, h4, rfl⟩ := (mem_buElems c e).1 he
  obtain ⟨_, q', h1', dr', h2', b', h3', h4', rfl⟩ := (mem_buElems c e').1 he'
  dsimp only at h
  obtain ⟨rfl, rfl, rfl⟩ := bu_idx_inj S hbu h1 h1' h3 h4 h3' h4' h
  exact ⟨rfl, rfl⟩

theorem flatMap_nodup {α β : Type} {l : List α} {f : α → List β} (hl : l.Nodup) (hf : ∀ a ∈ l, (f a).Nodup)
    (hd : ∀ a ∈ l, ∀ a' ∈ l, ∀ b, b ∈ f a → b ∈ f a' → a = a') : (l.flatMap f).Nodup := by
  rw [List.nodup_flatMap]
  refine ⟨hf, ?_⟩
  refine hl.imp_of_mem ?_
  intro a a' ha ha' hne b hb hb'
  exact hne (hd a ha a' ha' b hb hb')

theorem el_nodup (c : PadeCfg) : ((elElems c).map (·.idx)).Nodup := by
  unfold elElems
  rw [List.map_flatMap]
  apply flatMap_nodup List.nodup_range
  · intro dr hdr
    rw [List.map_flatMap]
    apply flatMap_nodup List.nodup_range
    · intro dc hdc
      rw [List.map_map]
      apply List.Nodup.map_on _ List.nodup_range
      intro q _ q' _ h
      simp only [Function.comp_apply] at h
      omega
    · intro dc hdc dc' hdc' b hb hb'
      simp only [List.map_map, List.mem_map, List.mem_range, Function.comp_apply] at hb hb' hdc hdc'
      obtain ⟨q, hq, rfl⟩ := hb
      obtain ⟨q', hq', h⟩ := hb'
      exact (el_idx_inj c hdc' hq' hdc hq h).2.1.symm
  · intro dr hdr dr' hdr' b hb hb'
    simp only [List.map_flatMap, List.mem_flatMap, List.map_map, List.mem_map, List.mem_range, Function.comp_apply] at hb hb' hdr hdr'
    obtain ⟨dc, hdc, q, hq, rfl⟩ := hb
    obtain ⟨dc', hdc', q', hq', h⟩ := hb'
    exact (el_idx_inj c hdc' hq' hdc hq h).1.symm

include S in
theorem bu_nodup : ((buElems c).map (·.idx)).Nodup := by
  unfold buElems
  split_ifs with hbu
  · rw [List.map_flatMap]
    apply flatMap_nodup List.nodup_range
    · intro q hq
      rw [List.map_flatMap]
      have hq := List.mem_range.1 hq
      apply flatMap_nodup List.nodup_range
      · intro dr hdr
        rw [List.map_map]
        apply List.Nodup.map_on _ List.nodup_range'
        intro q _ q' _ h
        simp only [Function.comp_apply] at h
        omega
      · intro dr hdr dr' hdr' x hb hb'
        simp only [List.map_map, List.mem_map, List.mem_range', Function.comp_apply] at hb hb'
        obtain ⟨b, ⟨i, hi, rfl⟩, rfl⟩ := hb
        obtain ⟨b', ⟨i', hi', rfl⟩, h⟩ := hb'
        exact (bu_idx_inj S hbu hq hq (by omega) (by omega) (by omega) (by omega) h).1.symm
    · intro q hq q' hq' x hb hb'
      simp only [List.map_flatMap, List.mem_flatMap, List.map_map, List.mem_map, List.mem_range, List.mem_range', Function.comp_apply] at hb hb' hq hq'
      obtain ⟨dr, hdr, b, ⟨i, hi, rfl⟩, rfl⟩ := hb
      obtain ⟨dr', hdr', b', ⟨i', hi', rfl⟩, h⟩ := hb'
      exact (bu_idx_inj S hbu hq' hq (by omega) (by omega) (by omega) (by omega) h).2.2.symm
  · simp

theorem el_active {s : PadeState} {e : OsElem} (he : e ∈ elElems c) (hc : s.el.conv e.idx = false) {i q : Nat} (hq : q < c.nq)
    (hr : e.row = i * c.nq + q) : rowActive c s i q = true := by
  obtain ⟨dr, h1, dc, h2, q', h3, rfl⟩ := (mem_elElems c e).1 he
  dsimp only at hc hr
  obtain ⟨rfl, rfl⟩ := radix_inj h3 hq hr
  unfold rowActive
  rw [Bool.or_eq_true]
  left
  rw [List.any_eq_true]
  exact ⟨dc, List.mem_range.2 h2, by rw [hc]; rfl⟩

theorem bu_active {s : PadeState} {e : OsElem} (he : e ∈ buElems c) (hc : s.bu.conv e.idx = false) {i q : Nat} (hq : q < c.nq)
    (hr : e.row = i * c.nq + q) : rowActive c s i q = true := by
  obtain ⟨hb, q', h3, dr, h1, b, h4, h5, rfl⟩ := (mem_buElems c e).1 he
  dsimp only at hc hr
  obtain ⟨rfl, rfl⟩ := radix_inj h3 hq hr
  unfold rowActive
  rw [Bool.or_eq_true]
  right
  rw [hb, Bool.true_and, List.any_eq_true]
  exact ⟨b, by rw [List.mem_range']; exact ⟨b - c.buStart q', by omega, by omega⟩, by rw [hc]; rfl⟩

theorem neumannTerm_succ {ι : Type} [Fintype ι] [DecidableEq ι] (B : Matrix ι ι ℂ) (g : ι → ℂ) (k : Nat) (x y : ι) :
    neumannTerm B g (k + 1) x y = ∑ z, neumannTerm B g k x z * g z * B z y := by
  unfold neumannTerm
  rw [pow_succ, ← Matrix.mul_assoc, Matrix.mul_apply]
  refine Finset.sum_congr rfl fun z _ => ?_
  rw [Matrix.diagonal_mul]; ring

include S in
theorem NInv.init (junk : PadeJunk) : NInv c A deut qidx hNp 0 (padeInit c sched junk) := by
  have hrow : ∀ (i : Fin deut.length) (q : Fin qidx.length) (y : Idx n Nq Np),
      rowVec c.D (padeInit c sched junk).rePrev (padeInit c sched junk).imPrev (i * c.nq + q) y = exactTerm c A deut qidx hNp i q y 0 := by
    intro i q y
    unfold rowVec padeInit exactTerm neumannTerm toC
    dsimp only
    rw [S.nq_eq, S.rows i q y, pow_zero, Matrix.mul_one]
    rfl
  refine ⟨fun i q _ y => hrow i q y, ?_, ?_⟩
  · intro e he hc i q y hy m hm
    obtain rfl : m = 0 := by omega
    rw [← hrow i q y]
    have := (extract_a c.D 0 (by omega) (padeInit c sched junk).rePrev (fun _ => 0) (elElems c)
      { a := fun _ => 0, pa := freshPA (c.numEL * 15) junk.pa, conv := fun _ => false, best := junk.best } (el_uniq c)).1 e he rfl
    refine this.trans ?_
    unfold rowVec
    rw [hy.1, hy.2]; rfl
  · intro e he hc i q y hy m hm
    obtain rfl : m = 0 := by omega
    rw [← hrow i q y]
    have := (extract_a c.D 0 (by omega) (padeInit c sched junk).rePrev (fun _ => 0) (buElems c)
      { a := fun _ => 0, pa := freshPA (c.numBU * 15) junk.paBU, conv := fun _ => false, best := junk.bestBU } (bu_uniq S)).1 e he rfl
    refine this.trans ?_
    unfold rowVec
    rw [hy.1, hy.2]; rfl

include S in
theorem NInv.step {k : Nat} {s : PadeState} (h : NInv c A deut qidx hNp k s) (hk : k + 1 < 29) : NInv c A deut qidx hNp (k + 1) (neumannStep c (k + 1) s) := by
  have hnd := S.nd_eq
  have hnq := S.nq_eq
  have hstep : ∀ (i : Fin deut.length) (q : Fin qidx.length), rowActive c s i q = true → ∀ y,
      rowVec c.D (neumannStep c (k + 1) s).re (neumannStep c (k + 1) s).im (i * c.nq + q) y = exactTerm c A deut qidx hNp i q y (k + 1) ∧
      rowVec c.D (neumannStep c (k + 1) s).rePrev (neumannStep c (k + 1) s).imPrev (i * c.nq + q) y = exactTerm c A deut qidx hNp i q y (k + 1) := by
    intro i q hact y
    obtain ⟨h1, h2⟩ := neumannStep_row c S.hn S.hq S.hp A S.kernel S.chunk (k + 1) s i q (by have := i.2; omega) (by have := q.2; omega) hact y
    have h3 : rowVec c.D (neumannStep c (k + 1) s).re (neumannStep c (k + 1) s).im (i * c.nq + q) y = exactTerm c A deut qidx hNp i q y (k + 1) := by
      rw [h1]
      unfold exactTerm
      rw [neumannTerm_succ]
      refine Finset.sum_congr rfl fun x _ => ?_
      rw [h.row i q hact x]
      rfl
    exact ⟨h3, h2.trans h3⟩
  refine ⟨fun i q hact y => (hstep i q hact y).2, ?_, ?_⟩
  · intro e he hc i q y hy m hm
    have hc' : s.el.conv e.idx = false := hc
    obtain ⟨x1, x2⟩ := extract_a c.D (k + 1) hk (neumannStep c (k + 1) s).re (neumannStep c (k + 1) s).im (elElems c) s.el (el_uniq c)
    rw [neumannStep_el]
    by_cases hmk : m = k + 1
    · subst hmk
      rw [x1 e he hc']
      have := (hstep i q (el_active he hc' (by have := q.2; omega) hy.1) y).1
      unfold rowVec at this
      rw [hy.1, hy.2]
      exact this
    · rw [x2 _ _ (by omega) hmk]
      exact h.el e he hc' i q y hy m (by omega)
  · intro e he hc i q y hy m hm
    have hc' : s.bu.conv e.idx = false := hc
    obtain ⟨x1, x2⟩ := extract_a c.D (k + 1) hk (neumannStep c (k + 1) s).re (neumannStep c (k + 1) s).im (buElems c) s.bu (bu_uniq S)
    rw [neumannStep_bu]
    by_cases hmk : m = k + 1
    · subst hmk
      rw [x1 e he hc']
      have := (hstep i q (bu_active he hc' (by have := q.2; omega) hy.1) y).1
      unfold rowVec at this
      rw [hy.1, hy.2]
      exact this
    · rw [x2 _ _ (by omega) hmk]
      exact h.bu e he hc' i q y hy m (by omega)

/-- Declaring more elements converged (and storing approximants) keeps the invariant. -/
theorem NInv.mono {k : Nat} {s s' : PadeState} (h : NInv c A deut qidx hNp k s) (h1 : s'.rePrev = s.rePrev) (h2 : s'.imPrev = s.imPrev)
    (h3 : s'.el.a = s.el.a) (h4 : s'.bu.a = s.bu.a) (h5 : ∀ i, s.el.conv i = true → s'.el.conv i = true)
    (h6 : ∀ i, s.bu.conv i = true → s'.bu.conv i = true) : NInv c A deut qidx hNp k s' := by
  have f5 : ∀ i, s'.el.conv i = false → s.el.conv i = false := fun i hi => by
    by_contra hx
    have := h5 i (by simpa using hx)
    rw [hi] at this; cases this
  have f6 : ∀ i, s'.bu.conv i = false → s.bu.conv i = false := fun i hi => by
    by_contra hx
    have := h6 i (by simpa using hx)
    rw [hi] at this; cases this
  refine ⟨fun i q ha y => ?_, fun e he hc i q y hy m hm => ?_, fun e he hc i q y hy m hm => ?_⟩
  · rw [h1, h2]
    refine h.row i q ?_ y
    unfold rowActive at ha ⊢
    rw [Bool.or_eq_true] at ha ⊢
    rcases ha with ha | ha
    · left
      obtain ⟨dc, hd, hx⟩ := List.any_eq_true.1 ha
      exact List.any_eq_true.2 ⟨dc, hd, by rw [f5 _ (by simpa using hx)]; rfl⟩
    · right
      rw [Bool.and_eq_true] at ha ⊢
      refine ⟨ha.1, ?_⟩
      obtain ⟨dc, hd, hx⟩ := List.any_eq_true.1 ha.2
      exact List.any_eq_true.2 ⟨dc, hd, by rw [f6 _ (by simpa using hx)]; rfl⟩
  · rw [h3]; exact h.el e he (f5 _ hc) i q y hy m hm
  · rw [h4]; exact h.bu e he (f6 _ hc) i q y hy m hm

end
end TicTac
end
