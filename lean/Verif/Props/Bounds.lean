import Verif.Model.Bounds
import Verif.Spec.Kernel
import Verif.Lemmas.Layout
import Verif.Lemmas.Tables
import Verif.Lemmas.Kernel
import Verif.Lemmas.KernelAny
import Verif.Lemmas.Permutation2
import Verif.Lemmas.Sparse
import Verif.Props.Channels2N
import Verif.Props.PadeSolve
import Verif.Props.Tables
/-!
Property theorems C132: which array accesses leave their arrays.
-/
namespace TicTac
open Spec

/-- What is known when the arrays are used. -/
structure InRun (c : ArrCalc) (twoJ3 P : Int) : Prop where
  /-- accepted parameters (C08-C12, C06, C07 for the case without the tensor force) -/
  valid : ValidTruncation c.p
  tensor : c.p.tensor = true
  Np : 0 < c.Np
  /-- the basis and the 3N channel (C01, C02) -/
  basis : ∀ s ∈ c.basis, Allowed c.p.J2max c.p.twoJ3max c.p.isoBreak s
  channel : IsChannel c.p twoJ3 P c.states
  /-- deuteron states and on-shell bins (C24, C39) -/
  deut : ∀ a ∈ c.deut, a < c.Na
  qidx : ∀ q ∈ c.qidx, q < c.Nq
  /-- the stored permutation matrix in column order (C15, C19) -/
  sorted : c.p123Cols.Pairwise (· ≤ ·)
  rowsLen : c.p123Cols.length = c.p123Rows.length
  rows : ∀ r ∈ c.p123Rows, r < c.D
  /-- the breakup channels of each energy (C40) -/
  offs : ∀ o ∈ c.offs, o ≤ c.numBU
  /-- contract of `gsl_sf_legendre_array_n` and `gsl_sf_legendre_array_index` -/
  plm : ∀ n l m : Nat, m ≤ l → l ≤ n → gslIdx l m < c.plm n

/-! ### Pieces -/

theorem boundPair {p : PWParams} (ht : p.tensor = true) {r d : PWState} (hr : Allowed p.J2max p.twoJ3max p.isoBreak r)
    (hd : Allowed p.J2max p.twoJ3max p.isoBreak d) (ok : swpPairOK p r d = true) {b : Bool} {n : Int} (h : pairSlot p r d = some (b, n)) :
    0 ≤ n ∧ n < (if b then numCoup p else numUnco p) := by
  unfold swpPairOK at ok
  simp only [Bool.and_eq_true, beq_iff_eq, decide_eq_true_eq] at ok
  rw [pairSlot_eq_slotOf ht hr.facts hd.facts ok.1.1.1 ok.1.1.2 ok.1.2] at h
  exact slot_range ht hr h

/-- Position inside the part of one channel. -/
theorem part_range {n N w k : Int} (h0 : 0 ≤ n) (h1 : n < N) (k0 : 0 ≤ k) (k1 : k < w) : 0 ≤ n * w + k ∧ n * w + k < w * N := by
  constructor
  · nlinarith
  · have : (n + 1) * w ≤ N * w := mul_le_mul_of_nonneg_right (by omega) (by omega)
    nlinarith

theorem natPart {x y : Nat} (h : x < y) : (0 : Int) ≤ (x : Int) ∧ (x : Int) < (y : Int) := ⟨by positivity, by exact_mod_cast h⟩

theorem idx3_lt {A B C a b d : Nat} (ha : a < A) (hb : b < B) (hd : d < C) : a * B * C + b * C + d < A * B * C := by
  have := radix_lt ha (radix_lt hb hd)
  calc a * B * C + b * C + d = a * (B * C) + (b * C + d) := by ring
    _ < A * (B * C) := this
    _ = A * B * C := by ring

theorem bIdx3_lt {A B C a b d : Nat} (ha : a < A) (hb : b < B) (hd : d < C) : a * B * C + (b * C + d) < A * B * C := by
  have := idx3_lt ha hb hd; omega

/-- Index inside, in integers. -/
def In (c : ArrCalc) (a : Arr) (i : Int) : Prop := 0 ≤ i ∧ i < arrLen c a

theorem channel_allowed {c : ArrCalc} {twoJ3 P : Int} (h : InRun c twoJ3 P) {s : PWState} (hs : s ∈ c.states) :
    Allowed c.p.J2max c.p.twoJ3max c.p.isoBreak s := ((h.channel.2 s).1 hs).1

theorem maxL_eq (c : ArrCalc) : (c.maxL : Int) = maxQ (·.L) c.states := Int.toNat_of_nonneg (maxQ_ge (·.L) c.states).1
theorem maxl_eq (c : ArrCalc) : (c.maxl : Int) = maxQ (·.l) c.states := Int.toNat_of_nonneg (maxQ_ge (·.l) c.states).1
theorem lmaxOf_nonneg (states : List PWState) : 3 ≤ lmaxOf states := by
  have := (maxQ_ge (·.L) states).1
  unfold lmaxOf; omega
theorem jmax_eq (c : ArrCalc) : (c.jmax : Int) = 2 * lmaxOf c.states := Int.toNat_of_nonneg (by have := lmaxOf_nonneg c.states; omega)
theorem LmaxOf_eq (c : ArrCalc) : (LmaxOf c.states : Int) = maxQ (·.L) c.states + maxQ (·.l) c.states := by
  have h1 := (maxQ_ge (·.L) c.states).1
  have h2 := (maxQ_ge (·.l) c.states).1
  exact Int.toNat_of_nonneg (by omega)

/-- The orbital angular momenta of a state of the channel. -/
theorem orbital {c : ArrCalc} {twoJ3 P : Int} (h : InRun c twoJ3 P) {s : PWState} (hs : s ∈ c.states) :
    0 ≤ s.L ∧ s.L ≤ maxQ (·.L) c.states ∧ 0 ≤ s.l ∧ s.l ≤ maxQ (·.l) c.states := by
  have ha := channel_allowed h hs
  have h1 := ha.2.2.1.1
  have h2 := ha.2.2.2.1.1
  exact ⟨by omega, (maxQ_ge (·.L) c.states).2 s hs, by omega, (maxQ_ge (·.l) c.states).2 s hs⟩

theorem total_range {twoJ L l L' l' Lt : Int} (h : Lt ∈ ltotalRange twoJ L l L' l') : 0 ≤ Lt ∧ Lt ≤ L + l ∧ Lt ≤ L' + l' := by
  unfold ltotalRange at h
  rw [mem_forRange_one] at h
  omega

theorem sixj_lt {j a b d e f g : Nat} (h1 : a ≤ j) (h2 : b ≤ j) (h3 : d ≤ j) (h4 : e ≤ j) (h5 : f ≤ j) (h6 : g ≤ j) :
    sixjIdx j a b d e f g < (j + 1) ^ 6 := by
  rw [sixjIdx_eq]
  have e : (j + 1) ^ 6 = (((((j + 1) * (j + 1)) * (j + 1)) * (j + 1)) * (j + 1)) * (j + 1) := by ring
  rw [e]
  exact radix_lt (radix_lt (radix_lt (radix_lt (radix_lt (Nat.lt_succ_of_le h1) (Nat.lt_succ_of_le h2)) (Nat.lt_succ_of_le h3)) (Nat.lt_succ_of_le h4))
    (Nat.lt_succ_of_le h5)) (Nat.lt_succ_of_le h6)

theorem in_sixSpin {c : ArrCalc} {twoJ3 P : Int} (h : InRun c twoJ3 P) {s s' : PWState} (hs : s ∈ c.states) (hs' : s' ∈ c.states) {twoS : Nat}
    (ht : twoS = 1 ∨ twoS = 3) : In c .sixj (sixjIdx c.jmax 1 1 (2 * s.S).toNat 1 twoS (2 * s'.S).toNat) := by
  have h1 := (channel_allowed h hs).1
  have h2 := (channel_allowed h hs').1
  have hj := jmax_eq c
  have hl := lmaxOf_nonneg c.states
  unfold Couples at h1 h2
  exact natPart (sixj_lt (by omega) (by omega) (by omega) (by omega) (by omega) (by omega))

theorem in_sixIso {c : ArrCalc} {twoJ3 P : Int} (h : InRun c twoJ3 P) {s s' : PWState} (hs : s ∈ c.states) (hs' : s' ∈ c.states) :
    In c .sixj (sixjIdx c.jmax 1 1 (2 * s.T).toNat 1 s.twoT3.toNat (2 * s'.T).toNat) := by
  have h1 := (channel_allowed h hs).2.1
  have h2 := (channel_allowed h hs').2.1
  have h3 := (channel_allowed h hs).2.2.2.2.2.2.2.2.2.2.2
  have hj := jmax_eq c
  have hl := lmaxOf_nonneg c.states
  unfold Couples at h1 h2
  exact natPart (sixj_lt (by omega) (by omega) (by omega) (by omega) (by omega) (by omega))

theorem atilde_lt {N L a a' k : Nat} (ha : a < N) (ha' : a' < N) (hk : k ≤ L) :
    a * N * (L + 1) + a' * (L + 1) + k < N * N * (L + 1) := idx3_lt ha ha' (Nat.lt_succ_of_le hk)

theorem in_atildeRead {c : ArrCalc} {twoJ3 P : Int} (h : InRun c twoJ3 P) {a a' : Nat} {s s' : PWState} (ha : c.states[a]? = some s)
    (ha' : c.states[a']? = some s') {twoJ L : Int} (hL : L ∈ ltotalRange twoJ s.L s.l s'.L s'.l) :
    In c .atilde (a * c.Na * (LmaxOf c.states + 1) + a' * (LmaxOf c.states + 1) + L) := by
  obtain ⟨l1, l2⟩ := List.getElem?_eq_some_iff.1 ha
  obtain ⟨l1', l2'⟩ := List.getElem?_eq_some_iff.1 ha'
  obtain ⟨o1, o2, o3, o4⟩ := orbital h (List.mem_of_getElem? ha)
  obtain ⟨t1, t2, t3⟩ := total_range hL
  have hm := LmaxOf_eq c
  obtain ⟨k, rfl⟩ := Int.eq_ofNat_of_zero_le t1
  have := atilde_lt (N := c.Na) (L := LmaxOf c.states) (k := k) l1 l1' (by omega)
  show (0 : Int) ≤ _ ∧ _ < ((c.Na * c.Na * (LmaxOf c.states + 1) : Nat) : Int)
  exact_mod_cast natPart this

theorem cg_len (c : ArrCalc) : arrLen c .cg = cgSize (c.jmax : Int) := by
  unfold arrLen cgSize
  push_cast
  ring

theorem in_cg {c : ArrCalc} {j1 j2 j3 m1 m2 : Int} (h : CgLegal c.jmax (j1, j2, j3, m1, m2)) : In c .cg (cgIdx c.jmax j1 j2 j3 m1 m2) := by
  have := cgIdx_range h
  unfold In
  rw [cg_len]
  exact this

theorem in_cgFirst {c : ArrCalc} {twoJ3 P : Int} (h : InRun c twoJ3 P) {s s' : PWState} (hs : s ∈ c.states) {twoJ L M : Int}
    (hL : L ∈ ltotalRange twoJ s.L s.l s'.L s'.l) (hM : M ∈ forRange (-(min s.l L)) (min s.l L) 1) :
    In c .cg (cgIdx c.jmax (2 * s.L) (2 * s.l) (2 * L) 0 (2 * M)) := by
  obtain ⟨o1, o2, o3, o4⟩ := orbital h hs
  obtain ⟨t1, t2, t3⟩ := total_range hL
  rw [mem_forRange_one] at hM
  have hj := jmax_eq c
  have hl : lmaxOf c.states = max (maxQ (·.l) c.states) (maxQ (·.L) c.states) + 3 := rfl
  apply in_cg
  unfold CgLegal
  dsimp only
  omega

theorem in_cgSecond {c : ArrCalc} {twoJ3 P : Int} (h : InRun c twoJ3 P) {s s' : PWState} (hs' : s' ∈ c.states) {twoJ L M M' : Int}
    (hL : L ∈ ltotalRange twoJ s.L s.l s'.L s'.l) (hM' : M' ∈ forRange (-s'.L) s'.L 1) (hd : ((M - M').natAbs : Int) ≤ s'.l) :
    In c .cg (cgIdx c.jmax (2 * s'.L) (2 * s'.l) (2 * L) (2 * M') (2 * M - 2 * M')) := by
  obtain ⟨o1, o2, o3, o4⟩ := orbital h hs'
  obtain ⟨t1, t2, t3⟩ := total_range hL
  rw [mem_forRange_one] at hM'
  have hj := jmax_eq c
  have hl : lmaxOf c.states = max (maxQ (·.l) c.states) (maxQ (·.L) c.states) + 3 := rfl
  apply in_cg
  unfold CgLegal
  dsimp only
  omega

theorem in_plm1 {c : ArrCalc} {x o : Nat} (hx : x < c.Nx) (ho : o < c.plm c.maxl) : In c .plm1 (x * c.plm c.maxl + o : Nat) := by
  have := radix_lt hx ho
  exact natPart (by rw [Nat.mul_comm (c.plm _)]; exact this)

theorem grid_lt {Nq Np Nf Nx w q p f x o : Nat} (hq : q < Nq) (hp : p < Np) (hf : f < Nf) (hx : x < Nx) (ho : o < w) :
    (q * Np * Nf * Nx + p * Nf * Nx + f * Nx + x) * w + o < w * Np * Nq * Nf * Nx := by
  have := radix_lt (radix_lt (radix_lt (radix_lt hq hp) hf) hx) ho
  calc (q * Np * Nf * Nx + p * Nf * Nx + f * Nx + x) * w + o = ((((q * Np + p) * Nf + f) * Nx + x) * w + o) := by ring
    _ < Nq * Np * Nf * Nx * w := this
    _ = w * Np * Nq * Nf * Nx := by ring

theorem in_plm2 {c : ArrCalc} {q p f x o : Nat} (hq : q < c.Nq) (hp : p < c.Np) (hf : f < c.Nphi) (hx : x < c.Nx) (ho : o < c.plm c.maxL) :
    In c .plm2 ((q * c.Np * c.Nphi * c.Nx + p * c.Nphi * c.Nx + f * c.Nx + x) * c.plm c.maxL + o : Nat) := natPart (grid_lt hq hp hf hx ho)
theorem in_plm3 {c : ArrCalc} {q p f x o : Nat} (hq : q < c.Nq) (hp : p < c.Np) (hf : f < c.Nphi) (hx : x < c.Nx) (ho : o < c.plm c.maxl) :
    In c .plm3 ((q * c.Np * c.Nphi * c.Nx + p * c.Nphi * c.Nx + f * c.Nx + x) * c.plm c.maxl + o : Nat) := natPart (grid_lt hq hp hf hx ho)

theorem plm_l {c : ArrCalc} {twoJ3 P : Int} (h : InRun c twoJ3 P) {s : PWState} (hs : s ∈ c.states) {M : Int} (hM : (M.natAbs : Int) ≤ s.l) :
    gslIdx s.l.toNat M.natAbs < c.plm c.maxl := by
  obtain ⟨o1, o2, o3, o4⟩ := orbital h hs
  have hm := maxl_eq c
  exact h.plm _ _ _ (by omega) (by omega)

theorem plm_L {c : ArrCalc} {twoJ3 P : Int} (h : InRun c twoJ3 P) {s : PWState} (hs : s ∈ c.states) {M : Int} (hM : (M.natAbs : Int) ≤ s.L) :
    gslIdx s.L.toNat M.natAbs < c.plm c.maxL := by
  obtain ⟨o1, o2, o3, o4⟩ := orbital h hs
  have hm := maxL_eq c
  exact h.plm _ _ _ (by omega) (by omega)

/-- Boundaries of one two-nucleon channel. -/
theorem in_e {c : ArrCalc} {b : Bool} {n k : Int} (h : 0 ≤ n ∧ n < (if b then numCoup c.p else numUnco c.p))
    (k0 : 0 ≤ k) (k1 : k < (if b then 2 * ((c.Np : Int) + 1) else (c.Np : Int) + 1)) :
    In c (.e b) (n * (if b then 2 * ((c.Np : Int) + 1) else (c.Np : Int) + 1) + k) := by
  cases b
  · exact part_range h.1 h.2 k0 k1
  · exact part_range h.1 h.2 k0 k1

theorem part_before {n N w : Int} (h0 : 1 ≤ n) (h1 : n < N) (hw : 1 ≤ w) : 0 ≤ n * w + -1 ∧ n * w + -1 < w * N := by
  have h2 : n * w ≤ N * w := mul_le_mul_of_nonneg_right (by omega) (by omega)
  have h3 : 1 * 1 ≤ n * w := mul_le_mul h0 hw (by omega) (by omega)
  have h4 : w * N = N * w := mul_comm _ _
  constructor <;> linarith

/-- The index before the first of a part. -/
theorem in_e_before {c : ArrCalc} {b : Bool} {n : Int} (h : 0 ≤ n ∧ n < (if b then numCoup c.p else numUnco c.p)) :
    In c (.e b) (n * (if b then 2 * ((c.Np : Int) + 1) else (c.Np : Int) + 1) + -1) ∨
      n * (if b then 2 * ((c.Np : Int) + 1) else (c.Np : Int) + 1) + -1 = -1 := by
  rcases eq_or_lt_of_le h.1 with h0 | h0
  · right; rw [← h0]; ring
  · left
    cases b
    · exact part_before h0 h.2 (by omega)
    · exact part_before h0 h.2 (by omega)

theorem D_eq (c : ArrCalc) : c.D = c.Na * c.Nq * c.Np := rfl

theorem state_lt {c : ArrCalc} {a q p : Nat} (ha : a < c.Na) (hq : q < c.Nq) (hp : p < c.Np) : a * c.Nq * c.Np + q * c.Np + p < c.D := idx3_lt ha hq hp

theorem in_G {c : ArrCalc} {j i : Nat} (hj : j < c.nq) (hi : i < c.D) : In c .G (j * c.D + i : Nat) :=
  natPart (by rw [Nat.mul_comm c.D]; exact radix_lt hj hi)

theorem in_rows {c : ArrCalc} {r i : Nat} (hr : r < c.nd * c.nq) (hi : i < c.D) : In c .rows (r * c.D + i : Nat) :=
  natPart (by rw [Nat.mul_comm c.D]; exact radix_lt hr hi)

theorem in_rowsOnShell {c : ArrCalc} {twoJ3 P : Int} (h : InRun c twoJ3 P) {d d' j q a : Nat} (hd : d < c.nd) (hj : c.qidx[j]? = some q)
    (ha : c.deut[d']? = some a) : In c .rows ((d * c.nq + j) * c.D + (a * c.Nq * c.Np + q * c.Np + 0) : Nat) := by
  have h1 := h.deut a (List.mem_of_getElem? ha)
  have h2 := h.qidx q (List.mem_of_getElem? hj)
  obtain ⟨l, -⟩ := List.getElem?_eq_some_iff.1 hj
  exact in_rows (radix_lt hd l) (state_lt h1 h2 h.Np)

theorem chunk_le {D i k : Nat} (hk : k < chunkEnd D i - chunkStart D i) : chunkStart D i + k < D := by
  have := chunkEnd_le D i
  omega

theorem in_rowsProduct {c : ArrCalc} {r i k : Nat} (hr : r < c.nd * c.nq) (hk : k < chunkEnd c.D i - chunkStart c.D i) :
    In c .rows (chunkStart c.D i + (r * c.D + k) : Nat) := by
  have := in_rows (c := c) hr (chunk_le hk)
  rwa [show chunkStart c.D i + (r * c.D + k) = r * c.D + (chunkStart c.D i + k) by ring]

theorem nd3_lt {nd nq d d' j : Nat} (hd : d < nd) (hd' : d' < nd) (hj : j < nq) : d * nd * nq + d' * nq + j < nd * nd * nq := idx3_lt hd hd' hj

theorem chunk_width (D i : Nat) : chunkEnd D i - chunkStart D i ≤ colsPerChunk D := by
  have h : chunkEnd D i ≤ (i + 1) * colsPerChunk D := by unfold chunkEnd; split <;> omega
  have h2 : (i + 1) * colsPerChunk D = chunkStart D i + colsPerChunk D := by unfold chunkStart; ring
  omega

theorem in_cols {c : ArrCalc} {i col a q p : Nat} (h1 : chunkStart c.D i ≤ col) (h2 : col < chunkEnd c.D i) (ha : a < c.Na)
    (hq : q < c.Nq) (hp : p < c.Np) : In c .cols ((col - chunkStart c.D i) * c.D + (a * c.Nq * c.Np + q * c.Np + p) : Nat) := by
  have hw := chunk_width c.D i
  exact natPart (by rw [Nat.mul_comm c.D]; exact radix_lt (by omega) (state_lt ha hq hp))

theorem csPtr_le {l : List Nat} (h : l.Pairwise (· ≤ ·)) (i : Nat) : csPtr l i ≤ l.length := by
  rw [csPtr_eq l h]; exact List.length_filter_le _ _

theorem in_p123 {c : ArrCalc} {twoJ3 P : Int} (h : InRun c twoJ3 P) {k j : Nat} (hk : k < c.ptr j) : k < c.p123Rows.length := by
  have := csPtr_le h.sorted j
  rw [h.rowsLen] at this
  exact lt_of_lt_of_le hk this

theorem in_p123ptr {c : ArrCalc} {a q p k : Nat} (ha : a < c.Na) (hq : q < c.Nq) (hp : p < c.Np) (hk : k = 0 ∨ k = 1) :
    In c .p123ptr (a * c.Np * c.Nq + q * c.Np + p + k : Nat) := by
  have h := state_lt ha hq hp
  have e : a * c.Np * c.Nq = a * c.Nq * c.Np := by ring
  exact natPart (y := c.D + 1) (by rw [e]; omega)

open Classical in
theorem in_blockRead {c : ArrCalc} {twoJ3 P : Int} (h : InRun c twoJ3 P) {r d : PWState} (hr : r ∈ c.states) (hd : d ∈ c.states) {b : Bool} {n : Int}
    {blk : Nat} (hk : kernelPtr c.p r d = some (some (b, n, blk))) {i j : Nat} (hi : i < c.Np) (hj : j < c.Np) :
    In c (.block b) (if b then n * 4 * c.Np * c.Np + blk * c.Np * c.Np + (i * c.Np + j) else n * c.Np * c.Np + (i * c.Np + j)) := by
  have ar := channel_allowed h hr
  obtain ⟨b', n', hs, -, -, hp⟩ := kernelPtr_eq h.tensor ar (channel_allowed h hd)
  rw [hp] at hk
  by_cases hc : PairConnected r d
  · rw [if_pos hc] at hk
    simp only [Option.some.injEq, Prod.mk.injEq] at hk
    obtain ⟨rfl, rfl, hb⟩ := hk
    have hn := slot_range h.tensor ar hs
    have hij := radix_lt hi hj
    have hblk : blk < 4 := by
      rw [← hb]; split
      · have h1 : secNum r ≤ 1 := by unfold secNum; split <;> omega
        have h2 : secNum d ≤ 1 := by unfold secNum; split <;> omega
        omega
      · omega
    cases b'
    · have := part_range (w := (c.Np * c.Np : Nat)) (k := (i * c.Np + j : Nat)) hn.1 hn.2 (by positivity) (by exact_mod_cast hij)
      simp only [Bool.false_eq_true, if_false] at this ⊢
      refine ⟨?_, ?_⟩
      · have h1 := this.1; push_cast at h1 ⊢; linarith only [h1]
      · have h1 := this.2; unfold arrLen; push_cast at h1 ⊢; linarith only [h1]
    · have h4 := radix_lt hblk hij
      have := part_range (w := (4 * (c.Np * c.Np) : Nat)) (k := (blk * (c.Np * c.Np) + (i * c.Np + j) : Nat)) hn.1 hn.2 (by positivity)
        (by exact_mod_cast h4)
      simp only [if_true] at this ⊢
      refine ⟨?_, ?_⟩
      · have h1 := this.1; push_cast at h1 ⊢; linarith only [h1]
      · have h1 := this.2; unfold arrLen; push_cast at h1 ⊢; linarith only [h1]
  · rw [if_neg hc] at hk; simp at hk

theorem in_bu {c : ArrCalc} {twoJ3 P : Int} (h : InRun c twoJ3 P) {d j hi b : Nat} (hd : d < c.nd) (h2 : c.offs[j]? = some hi) (hb' : b < hi) :
    d * c.numBU + b < c.nd * c.numBU := radix_lt hd (lt_of_lt_of_le hb' (h.offs hi (List.mem_of_getElem? h2)))

/-- Index inside its array, or one of the exceptions: element −1. -/
def Out (c : ArrCalc) (a : Arr) (i : Int) : Prop := i = -1 ∧ (a = .approx ∨ a = .approxBU ∨ c.Np = 1 ∧ ∃ b, a = .e b)

theorem scale_lt {x n w k : Nat} (hx : x < n) (hk : k < w) : x * w + k < n * w := radix_lt hx hk

theorem in_approxBefore {c : ArrCalc} {x N n : Nat} (hx : x < N) (hn : n ≤ 14) :
    (0 ≤ ((x * 15 + n : Nat) : Int) - 1 ∧ ((x * 15 + n : Nat) : Int) - 1 < ((N * 15 : Nat) : Int)) ∨ ((x * 15 + n : Nat) : Int) - 1 = -1 := by
  omega

theorem in_eLast {c : ArrCalc} (hN : 0 < c.Np) {b : Bool} {n : Int} (h : 0 ≤ n ∧ n < (if b then numCoup c.p else numUnco c.p)) {k : Int}
    (hk : k = c.Np ∨ k = (c.Np : Int) - 1 ∨ k = (c.Np : Int) - 2) :
    In c (.e b) (n * (if b then 2 * ((c.Np : Int) + 1) else (c.Np : Int) + 1) + k) ∨
      Out c (.e b) (n * (if b then 2 * ((c.Np : Int) + 1) else (c.Np : Int) + 1) + k) := by
  have hw : (c.Np : Int) + 1 ≤ (if b then 2 * ((c.Np : Int) + 1) else (c.Np : Int) + 1) := by split <;> omega
  by_cases h0 : 0 ≤ k
  · exact Or.inl (in_e h h0 (by omega))
  · have h1 : c.Np = 1 := by omega
    have h2 : k = -1 := by omega
    subst h2
    rcases in_e_before h with h3 | h3
    · exact Or.inl h3
    · exact Or.inr ⟨h3, Or.inr (Or.inr ⟨h1, b, rfl⟩)⟩

/-- **C132 (inside).** Every index the listed places of the code can produce lies inside the array, except: (1) the solver reads the element before the
first of the approximants; (2) with a single momentum bin the construction of the bin boundaries reads the element before the first;
(3) the counters of more than 100 threads; (4) all arrays with an entry per thread of the calculation of the permutation matrix when it is asked for with
0 threads. -/
theorem C132_inside (c : ArrCalc) (twoJ3 P : Int) (h : InRun c twoJ3 P) (a : Arr) (i : Int) (acc : Access c a i)
    (hT : a = .counter → c.solverThreads ≤ 100) (hP : a = .permThread → 0 < c.permThreads) :
    (0 ≤ i ∧ i < arrLen c a) ∨ (i = -1 ∧ (a = .approx ∨ a = .approxBU ∨ c.Np = 1 ∧ ∃ b, a = .e b)) := by
  cases acc with
  | qLower q hq => left; exact ⟨by omega, by unfold arrLen; dsimp only; omega⟩
  | qUpper q hq => left; exact ⟨by omega, by unfold arrLen; dsimp only; omega⟩
  | pLower q hq => left; exact ⟨by omega, by unfold arrLen; dsimp only; omega⟩
  | pUpper q hq => left; exact ⟨by omega, by unfold arrLen; dsimp only; omega⟩
  | phi q p f hq hp hf => left; exact natPart (radix_lt (radix_lt hq hp) hf)
  | overlap q' p' q p h1 h2 h3 h4 =>
    left
    have := radix_lt (radix_lt (radix_lt h1 h2) h3) h4
    exact natPart (by
      calc _ = ((q' * c.Np + p') * c.Nq + q) * c.Np + p := by ring
        _ < c.Nq * c.Np * c.Nq * c.Np := this
        _ = _ := by ring)
  | node x hx => left; exact natPart hx
  | sixFill a b d e f g h1 h2 h3 h4 h5 h6 => left; exact natPart (sixj_lt h1 h2 h3 h4 h5 h6)
  | sixSpin s s' hs hs' t ht => left; exact in_sixSpin h hs hs' ht
  | sixIso s s' hs hs' => left; exact in_sixIso h hs hs'
  | atildeFill a a' L ha ha' hL => left; exact natPart (atilde_lt ha ha' hL)
  | atildeRead a a' s s' ha ha' twoJ L hL => left; exact in_atildeRead h ha ha' hL
  | cgFill t ht => left; exact in_cg (mem_cgTuples.1 ht)
  | cgFirst s s' hs hs' twoJ L M hL hM => left; exact in_cgFirst h hs hL hM
  | cgSecond s s' hs hs' twoJ L M M' hL hM hM' hd => left; exact in_cgSecond h hs' hL hM' hd
  | plm1Fill x o hx ho => left; exact in_plm1 hx ho
  | plm1Read x hx s s' hs hs' twoJ L M hL hM =>
    left
    rw [mem_forRange_one] at hM
    exact in_plm1 hx (plm_l h hs (by omega))
  | plm2Fill q p f x o hq hp hf hx ho => left; exact in_plm2 hq hp hf hx ho
  | plm3Fill q p f x o hq hp hf hx ho => left; exact in_plm3 hq hp hf hx ho
  | plm2Read q p f x hq hp hf hx s' hs' M' hM' =>
    left
    rw [mem_forRange_one] at hM'
    have := in_plm2 hq hp hf hx (plm_L h hs' (M := M') (by omega))
    rwa [show ∀ A B w o : Nat, A * w + B * w + o = (A + B) * w + o by intros; ring, ← Nat.add_assoc]
  | plm3Read q p f x hq hp hf hx s' hs' Md hd =>
    left
    have := in_plm3 hq hp hf hx (plm_l h hs' hd)
    rwa [show ∀ A B w o : Nat, A * w + B * w + o = (A + B) * w + o by intros; ring, ← Nat.add_assoc]
  | prefacL l m hl hm => left; exact natPart (h.plm _ _ _ (by omega) (by omega))
  | prefacl l m hl hm => left; exact natPart (h.plm _ _ _ (by omega) (by omega))
  | gtilde f x hf hx => left; exact natPart (radix_lt hf hx)
  | permThread t ht => left; exact natPart ht
  | permTeam t ht =>
    left
    have := hP rfl
    unfold ompTeam at ht
    rw [if_neg (by omega)] at ht
    exact natPart ht
  | eFirst r d hr hd n b ok hs =>
    left
    have := in_e (c := c) (k := 0) (boundPair h.tensor (h.basis r hr) (h.basis d hd) ok hs) (by omega) (by split <;> omega)
    rw [add_zero] at this
    exact this
  | eFirst2 r d hr hd n ok hs =>
    left
    exact in_e (c := c) (b := true) (boundPair h.tensor (h.basis r hr) (h.basis d hd) ok hs) (by omega) (by simp only [if_true]; omega)
  | eMiddle r d hr hd n b ok hs i hi =>
    left
    exact in_e (boundPair h.tensor (h.basis r hr) (h.basis d hd) ok hs) (by omega) (by split <;> omega)
  | eMiddle2 r d hr hd n ok hs i hi =>
    left
    exact in_e (c := c) (b := true) (boundPair h.tensor (h.basis r hr) (h.basis d hd) ok hs) (by omega) (by simp only [if_true]; omega)
  | eLast r d hr hd n b ok hs k hk => exact in_eLast h.Np (boundPair h.tensor (h.basis r hr) (h.basis d hd) ok hs) hk
  | eLast2 r d hr hd n ok hs k hk =>
    left
    have := h.Np
    exact in_e (c := c) (b := true) (boundPair h.tensor (h.basis r hr) (h.basis d hd) ok hs) (by omega) (by simp only [if_true]; omega)
  | eBound r d hr hd n b ok hs k hk =>
    left
    have := h.Np
    exact in_e (boundPair h.tensor (h.basis r hr) (h.basis d hd) ok hs) (by omega) (by split <;> omega)
  | eigen b i hi => left; cases b <;> exact ⟨by omega, by unfold arrLen; dsimp only; omega⟩
  | eigen2 i hi => left; exact ⟨by omega, by unfold arrLen; dsimp only; omega⟩
  | eigenNext b i hi => left; cases b <;> exact ⟨by omega, by unfold arrLen; dsimp only; omega⟩
  | eigenNext2 i hi => left; exact ⟨by omega, by unfold arrLen; dsimp only; omega⟩
  | eResolvent s hs n b hn second hsec i hi k hk =>
    left
    have := in_e (c := c) (b := b) (k := (if second then (c.Np : Int) + 1 else 0) + (i + k)) (slot_range h.tensor (channel_allowed h hs) hn)
      (by split <;> omega) (by
        rcases Bool.eq_false_or_eq_true second with h2 | h2
        · rw [hsec h2, h2]; simp only [if_true]; omega
        · rw [h2]; simp only [Bool.false_eq_true, if_false]; split <;> omega)
    rwa [add_assoc]
  | gWrite j a q p hj ha hq hp => left; exact in_G hj (state_lt ha hq hp)
  | gRead j i hj hi => left; exact in_G hj hi
  | rowsFull d j i hd hj hi => left; exact in_rows (radix_lt hd hj) hi
  | rowsCompact r i hr hi => left; exact in_rows hr hi
  | rowsOnShell d d' j q a hd hj ha => left; exact in_rowsOnShell h hd hj ha
  | rowsProduct r i k hr hi hk => left; exact in_rowsProduct hr hk
  | indexing r hr => left; exact natPart hr
  | coeff d d' j n hd hd' hj hn => left; exact natPart (by rw [Nat.mul_comm 29]; exact radix_lt (nd3_lt hd hd' hj) (by omega))
  | approx d d' j n hd hd' hj hn => left; exact natPart (radix_lt (nd3_lt hd hd' hj) (by omega))
  | approxBefore d d' j n hd hd' hj hn =>
    rcases in_approxBefore (c := c) (nd3_lt hd hd' hj) hn with h1 | h1
    · exact Or.inl h1
    · exact Or.inr ⟨h1, Or.inl rfl⟩
  | element d d' j hd hd' hj => left; exact natPart (nd3_lt hd hd' hj)
  | colsReset i hi => left; exact natPart hi
  | cols i col a q p hi h1 h2 ha hq hp => left; exact in_cols h1 h2 ha hq hp
  | threadCols t i ht hi => left; exact natPart (by rw [Nat.mul_comm c.D]; exact radix_lt ht hi)
  | counterInit i hi => left; exact ⟨by omega, by unfold arrLen; dsimp only; omega⟩
  | counterAdd i t hi ht hs =>
    left
    have := hT rfl
    exact ⟨by omega, by unfold arrLen; dsimp only; omega⟩
  | pvcReset i hi => left; exact natPart hi
  | p123ptr a q p k ha hq hp hk => left; exact in_p123ptr ha hq hp hk
  | p123 a q p k ha hq hp h1 h2 => left; exact natPart (in_p123 h h2)
  | pvcAdd a q p k row ha hq hp h1 h2 hrow => left; exact natPart (h.rows _ (List.mem_of_getElem? hrow))
  | pvcRead a q p ha hq hp => left; exact natPart (bIdx3_lt ha hq hp)
  | ptrTab a a' ha ha' => left; exact natPart (radix_lt ha ha')
  | blockRead r d hr hd b n blk hk i j hi hj => left; exact in_blockRead h hr hd hk hi hj
  | blockFillUnco n h0 h1 i hi =>
    left
    have := part_range (w := (c.Np * c.Np : Nat)) (k := (i : Nat)) h0 h1 (by positivity) (by exact_mod_cast hi)
    refine ⟨?_, ?_⟩
    · have h1 := this.1; push_cast at h1 ⊢; linarith only [h1]
    · have h1 := this.2; unfold arrLen; push_cast at h1 ⊢; linarith only [h1]
  | blockFillCoup n h0 h1 i hi =>
    left
    have := part_range (w := (4 * c.Np * c.Np : Nat)) (k := (i : Nat)) h0 h1 (by positivity) (by exact_mod_cast hi)
    refine ⟨?_, ?_⟩
    · have h1 := this.1; push_cast at h1 ⊢; linarith only [h1]
    · have h1 := this.2; unfold arrLen; push_cast at h1 ⊢; linarith only [h1]
  | U d d' j hd hd' hj => left; exact natPart (lt_of_lt_of_eq (nd3_lt hd hd' hj) (by ring))
  | qcom j hj => left; exact natPart hj
  | deuteron d hd => left; exact natPart hd
  | coeffBU d j lo hi b n hd h1 h2 hb hb' hn => left; exact natPart (by rw [Nat.mul_comm 29]; exact radix_lt (in_bu h hd h2 hb') (by omega))
  | approxBU d j lo hi b n hd h1 h2 hb hb' hn => left; exact natPart (radix_lt (in_bu h hd h2 hb') (by omega))
  | approxBeforeBU d j lo hi b n hd h1 h2 hb hb' hn =>
    rcases in_approxBefore (c := c) (in_bu h hd h2 hb') hn with h1 | h1
    · exact Or.inl h1
    · exact Or.inr ⟨h1, Or.inr (Or.inl rfl)⟩
  | elementBU d j lo hi b hd h1 h2 hb hb' => left; exact natPart (in_bu h hd h2 hb')

/-- **C132 (counters).** The solver's counters per thread stay inside their array exactly when there are at most 100 threads or no block of columns has
more than 100 of them. -/
theorem C132_counter (c : ArrCalc) : (∀ i, Access c .counter i → 0 ≤ i ∧ i < arrLen c .counter) ↔
    (c.solverThreads ≤ 100 ∨ ∀ i < numChunks c.D, chunkEnd c.D i - chunkStart c.D i ≤ 100) := by
  have hl : arrLen c .counter = 100 := rfl
  constructor
  · intro h
    by_contra hc
    push Not at hc
    obtain ⟨hT, i, hi, hn⟩ := hc
    have hs : 0 < staticShare c.solverThreads (chunkEnd c.D i - chunkStart c.D i) 100 := by
      unfold staticShare
      rcases Nat.lt_or_ge (chunkEnd c.D i - chunkStart c.D i) c.solverThreads with h1 | h1
      · rw [Nat.mod_eq_of_lt h1, if_pos hn]; exact Nat.succ_pos _
      · have := Nat.div_pos h1 (by omega); omega
    have := h _ (Access.counterAdd i 100 hi hT hs)
    rw [hl] at this
    omega
  · intro h i acc
    rw [hl]
    cases acc with
    | counterInit i hi => omega
    | counterAdd i t hi ht hs =>
      rcases h with h | h
      · omega
      · have hn := h i hi
        refine ⟨by omega, ?_⟩
        by_contra hc
        have h1 : 100 ≤ t := by omega
        unfold staticShare at hs
        rw [Nat.div_eq_of_lt (by omega), Nat.mod_eq_of_lt (by omega), if_neg (by omega)] at hs
        omega

/-- **C132 (more than 100 threads).** With more than 100 threads a channel of any usual size writes past the end of the counters. -/
theorem C132_counter_overflow (c : ArrCalc) (hD : 101 ≤ c.D) (hD2 : c.D ≤ 2 ^ 21) (hT : 100 < c.solverThreads) :
    Access c .counter 100 ∧ ¬ (100 < arrLen c .counter) := by
  refine ⟨?_, by rw [show arrLen c .counter = 100 from rfl]; omega⟩
  have hc : 101 ≤ colsPerChunk c.D := by
    unfold colsPerChunk
    rw [Nat.le_div_iff_mul_le (by omega)]
    omega
  have hn : 101 ≤ chunkEnd c.D 0 - chunkStart c.D 0 := by
    unfold chunkEnd chunkStart
    split <;> omega
  refine Access.counterAdd 0 100 (by unfold numChunks; exact Nat.succ_pos _) hT ?_
  unfold staticShare
  rcases Nat.lt_or_ge (chunkEnd c.D 0 - chunkStart c.D 0) c.solverThreads with h1 | h1
  · rw [Nat.mod_eq_of_lt h1, if_pos (by omega)]; exact Nat.succ_pos _
  · have := Nat.div_pos h1 (by omega); omega

/-- **C132 (shares).** The iterations the runtime gives to the threads are all of them. -/
theorem C132_shares (T n : Nat) (hT : 0 < T) : ((List.range T).map (staticShare T n)).sum = n := by
  have h : ∀ k ≤ T, ((List.range k).map (staticShare T n)).sum = k * (n / T) + min k (n % T) := by
    intro k hk
    induction k with
    | zero => simp
    | succ k ih =>
      rw [List.range_succ, List.map_append, List.sum_append, ih (by omega)]
      simp only [List.map_cons, List.map_nil, List.sum_cons, List.sum_nil, staticShare]
      have e : (k + 1) * (n / T) = k * (n / T) + n / T := by ring
      rw [e]
      split <;> omega
  rw [h T le_rfl, min_eq_right (Nat.mod_lt n hT).le, Nat.div_add_mod]

/-- **C132 (element −1).** The exceptions do occur: whenever there is an on-shell element, and in the first two-nucleon channel of either kind when
there is one momentum bin. -/
theorem C132_before_first (c : ArrCalc) : (0 < c.nd → 0 < c.nq → Access c .approx (-1)) ∧
    (c.Np = 1 → ∀ r ∈ c.basis, ∀ d ∈ c.basis, swpPairOK c.p r d = true → ∀ b, pairSlot c.p r d = some (b, 0) → Access c (.e b) (-1)) := by
  constructor
  · intro hd hq
    have := Access.approxBefore (c := c) 0 0 0 0 hd hd hq (by omega)
    simpa using this
  · intro hN r hr d hd ok b hs
    have := Access.eLast r d hr hd 0 b ok hs (-1) (Or.inr (Or.inr (by omega)))
    simpa using this

/-- **C132 (no thread asked for).** With `P123_omp_num_threads=0` the one thread that runs writes to arrays of no element. -/
theorem C132_zero_threads (c : ArrCalc) (h : c.permThreads = 0) : Access c .permThread 0 ∧ ¬ (0 < arrLen c .permThread) := by
  refine ⟨Access.permTeam 0 (by unfold ompTeam; rw [if_pos h]; omega), ?_⟩
  unfold arrLen
  simp [h]

theorem maxThreads_append (m : Nat) (xs ys : List OmpCall) : maxThreads m (xs ++ ys) = maxThreads (maxThreads m xs) ys := by
  induction xs generalizing m with
  | nil => rfl
  | cons x xs ih => cases x <;> exact ih _

/-- **C132 (threads of the solver).** The solver runs with the threads of the machine only as long as no permutation matrix has been computed; from the
first computed one on it runs with the number asked for the permutation matrix: the call that is to change the number back keeps it. -/
theorem C132_solver_threads (m permThreads : Nat) (computed : List Bool) :
    solverMaxThreads m permThreads computed = if true ∈ computed then ompTeam permThreads else m := by
  have hid : ∀ n, ompTeam (ompTeam n) = ompTeam n := by intro n; unfold ompTeam; split <;> simp_all
  induction computed using List.reverseRecOn with
  | nil => rfl
  | append_singleton l b ih =>
    unfold solverMaxThreads at ih ⊢
    rw [List.flatMap_append, maxThreads_append, ih]
    cases b
    · simp [maxThreads]
    · simp [maxThreads, hid]

end TicTac
