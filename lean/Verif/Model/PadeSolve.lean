import Verif.Model.Kernel
import Verif.Model.Pade
/-! Model of `pade_method_solve`, solve_faddeev.cpp:440-1440 (with the constants fixed in the code: `NM_max = 14`, `keep_CPVC_in_mem =
false`; printing and the text dump of the Neumann terms are left out).  `double` is ℝ, `std::complex<double>` is ℂ, NaN/infinity is `none`.
`new std::complex<double>[n]` is zero-initialised by the default constructor; `new size_t[n]` is not. -/
noncomputable section
namespace TicTac

/-- Arguments of `pade_method_solve`, solve_faddeev.cpp:440-456. -/
structure PadeCfg where
  Nalpha : Nat
  Nq : Nat
  Np : Nat
  CT : PtrTab
  VC : PtrTab
  /-- `P123` in CSC format. -/
  ents : List (Entry ℝ)
  ptr : Nat → Nat
  G : Nat → ℂ
  qidx : List Nat
  deut : List Nat
  /-- `run_parameters.include_breakup_channels` -/
  breakup : Bool
  /-- `chn_os_indexing.q_com_BU_idx_array` -/
  buStart : Nat → Nat
  /-- `chn_os_indexing.num_BU_chns` -/
  nBU : Nat
  /-- `chn_os_indexing.alphapq_idx_array[3*i+0..2]`: α, q, p -/
  buState : Nat → Nat × Nat × Nat

namespace PadeCfg
/-- `dense_dim`, solve_faddeev.cpp:495. -/
def D (c : PadeCfg) : Nat := c.Nalpha * c.Nq * c.Np
/-- `num_q_com` -/
def nq (c : PadeCfg) : Nat := c.qidx.length
/-- `num_deuteron_states` -/
def nd (c : PadeCfg) : Nat := c.deut.length
/-- `num_on_shell_A_rows`, solve_faddeev.cpp:479. -/
def rows (c : PadeCfg) : Nat := c.nd * c.nq
/-- `num_EL_A_vals`, solve_faddeev.cpp:480. -/
def numEL (c : PadeCfg) : Nat := c.nd * c.nd * c.nq
end PadeCfg

/-- `num_cols_per_chunk`, solve_faddeev.cpp:554-558 (`sizeof(cdouble) = 16`). -/
def colsPerChunk (D : Nat) : Nat := 4 * 1024 ^ 3 / (16 * D)

/-- `num_chunks`, solve_faddeev.cpp:559. -/
def numChunks (D : Nat) : Nat := D / colsPerChunk D + 1

/-- `idx_col_start`, `idx_col_end`, solve_faddeev.cpp:1025-1030. -/
def chunkStart (D i : Nat) : Nat := i * colsPerChunk D
def chunkEnd (D i : Nat) : Nat := if (i + 1) * colsPerChunk D > D then D else (i + 1) * colsPerChunk D

/-- One on-shell element: row of the row arrays, column in the channel space, number in the result arrays. -/
structure OsElem where
  row : Nat
  col : Nat
  idx : Nat

/-- Elastic elements in loop order, solve_faddeev.cpp:805-825, 1142-1158, 1222-1226. -/
def elElems (c : PadeCfg) : List OsElem :=
  (List.range c.nd).flatMap fun dr => (List.range c.nd).flatMap fun dc => (List.range c.nq).map fun q =>
    ⟨dr * c.nq + q, c.deut.getD dc 0 * c.Nq * c.Np + c.qidx.getD q 0 * c.Np + 0, dr * c.nd * c.nq + dc * c.nq + q⟩

/-- Breakup elements in loop order, solve_faddeev.cpp:836-857, 1182-1200, 1284-1291. -/
def buElems (c : PadeCfg) : List OsElem :=
  if c.breakup then
    (List.range c.nq).flatMap fun q => (List.range c.nd).flatMap fun dr => (List.range' (c.buStart q) (c.buStart (q + 1) - c.buStart q)).map fun b =>
      ⟨dr * c.nq + q, (c.buState b).1 * c.Nq * c.Np + (c.buState b).2.1 * c.Np + (c.buState b).2.2, dr * c.nBU + b⟩
  else []

/-- The arrays kept for the elastic or the breakup elements, solve_faddeev.cpp:488-489, 536-546, 573-583. -/
structure OsTab where
  /-- `a_coeff_array`, 29 coefficients per element -/
  a : Nat → ℂ
  /-- `pade_approximants_array`, 15 per element; indices outside the allocation are possible -/
  pa : Int → Option ℂ
  conv : Nat → Bool
  best : Nat → Nat

/-- Working state of the solver. -/
structure PadeState where
  re : Nat → ℝ
  im : Nat → ℝ
  rePrev : Nat → ℝ
  imPrev : Nat → ℝ
  reComp : Nat → ℝ
  imComp : Nat → ℝ
  reProd : Nat → ℝ
  imProd : Nat → ℝ
  el : OsTab
  bu : OsTab
  numConv : Nat

/-- Multiplication with the resolvent, solve_faddeev.cpp:950-966: each cell is read and written once. -/
def mulG (c : PadeCfg) (s : PadeState) : PadeState :=
  let cells := (List.range c.nq).flatMap fun q => (List.range c.nd).flatMap fun dr => (List.range c.D).map fun i => ((dr * c.nq + q) * c.D + i, q * c.D + i)
  { s with
    rePrev := writeAll s.rePrev (cells.map fun k => (k.1, s.rePrev k.1 * (c.G k.2).re - s.imPrev k.1 * (c.G k.2).im))
    imPrev := writeAll s.imPrev (cells.map fun k => (k.1, s.rePrev k.1 * (c.G k.2).im + s.imPrev k.1 * (c.G k.2).re)) }

/-- `row_conv == false`, solve_faddeev.cpp:982-1004. -/
def rowActive (c : PadeCfg) (s : PadeState) (dr q : Nat) : Bool :=
  ((List.range c.nd).any fun dc => !s.el.conv (dr * c.nd * c.nq + dc * c.nq + q)) ||
  (c.breakup && (List.range' (c.buStart q) (c.buStart (q + 1) - c.buStart q)).any fun b => !s.bu.conv (dr * c.nBU + b))

/-- `A_An_indexing_array`, solve_faddeev.cpp:970-1015: the rows that take part, in order. -/
def activeRows (c : PadeCfg) (s : PadeState) : List Nat :=
  (List.range c.nd).flatMap fun dr => (List.range c.nq).flatMap fun q => if rowActive c s dr q then [dr * c.nq + q] else []

/-- Copy the active rows to the compact arrays, solve_faddeev.cpp:1006-1013. -/
def compact (D : Nat) (rows : List Nat) (comp prev : Nat → ℝ) : Nat → ℝ :=
  writeAll comp (rows.zipIdx.flatMap fun rk => (List.range D).map fun i => (rk.2 * D + i, prev (rk.1 * D + i)))

/-- `CPVC_cols_array` of a chunk, solve_faddeev.cpp:1035-1070: the columns are computed in parallel, each thread writes its own ones. -/
def chunkCols (c : PadeCfg) (i : Nat) : Nat → ℝ := fun k =>
  if k / c.D < chunkEnd c.D i - chunkStart c.D i then
    let col := chunkStart c.D i + k / c.D
    cpvcCol c.Nalpha c.Nq c.Np c.CT c.VC c.ents c.ptr (fun _ => 0) (col / (c.Np * c.Nq)) (col % c.Np) (col % (c.Np * c.Nq) / c.Np) (k % c.D)
  else 0

/-- `cblas_dgemm(RowMajor, NoTrans, Trans, M, N, K, 1, A, D, B, D, 0, C, D)` with `C = &prod[start]`, by its contract,
solve_faddeev.cpp:1075-1092. -/
def gemmChunk (D M N start : Nat) (A B prod : Nat → ℝ) : Nat → ℝ := fun k =>
  if start ≤ k ∧ (k - start) / D < M ∧ (k - start) % D < N then
    ∑ j ∈ Finset.range D, A ((k - start) / D * D + j) * B ((k - start) % D * D + j)
  else prod k

/-- All chunks, solve_faddeev.cpp:1019-1093. -/
def gemmAll (c : PadeCfg) (M : Nat) (A prod : Nat → ℝ) : Nat → ℝ :=
  (List.range (numChunks c.D)).foldl (fun prod i => gemmChunk c.D M (chunkEnd c.D i - chunkStart c.D i) (chunkStart c.D i) A (chunkCols c i) prod) prod

/-- Write the compact rows back, solve_faddeev.cpp:1114-1121. -/
def writeBack (D : Nat) (rows : List Nat) (cur prod : Nat → ℝ) : Nat → ℝ :=
  writeAll cur (rows.zipIdx.flatMap fun rk => (List.range D).map fun i => (rk.1 * D + i, prod (rk.2 * D + i)))

/-- Copy of the first `n` cells, solve_faddeev.cpp:1131-1135. -/
def copyN (n : Nat) (dst src : Nat → ℝ) : Nat → ℝ := fun i => if i < n then src i else dst i

/-- Store the coefficients of order `n` of the elements not yet converged, solve_faddeev.cpp:1139-1206. -/
def extract (D n : Nat) (re im : Nat → ℝ) (es : List OsElem) (t : OsTab) : OsTab :=
  { t with a := es.foldl (fun a e => if t.conv e.idx then a else Function.update a (e.idx * 29 + n) ⟨re (e.row * D + e.col), im (e.row * D + e.col)⟩) t.a }

/-- One Neumann term, solve_faddeev.cpp:932-1206. -/
def neumannStep (c : PadeCfg) (n : Nat) (s : PadeState) : PadeState :=
  let s := mulG c s
  let rows := activeRows c s
  let s := { s with reComp := compact c.D rows s.reComp s.rePrev, imComp := compact c.D rows s.imComp s.imPrev }
  let s := { s with reProd := gemmAll c rows.length s.reComp s.reProd, imProd := gemmAll c rows.length s.imComp s.imProd }
  let s := { s with re := writeBack c.D rows s.re s.reProd, im := writeBack c.D rows s.im s.imProd }
  let s := { s with rePrev := copyN (c.rows * c.D) s.rePrev s.re, imPrev := copyN (c.rows * c.D) s.imPrev s.im }
  { s with el := extract c.D n s.re s.im (elElems c) s.el, bu := extract c.D n s.re s.im (buElems c) s.bu }

open Classical in
/-- `d < bound && d > 1e-15` for a difference of two stored approximants (false when one is not finite). -/
def paDiff (x y : Option ℂ) (bound : ℝ) : Option ℝ :=
  match x, y with
  | some x, some y => if ‖x - y‖ < bound ∧ ‖x - y‖ > 1 / 10 ^ 15 then some ‖x - y‖ else none
  | _, _ => none

/-- Search of the smallest change so far, solve_faddeev.cpp:1242-1264 (`1309-1331` for breakup): result is (`idx_best_PA`, `min_PA_diff`). -/
def bestPA (pa : Int → Option ℂ) (idx NM : Nat) : Nat × ℝ :=
  (List.range (NM + 1)).foldl (fun b (k : Nat) => match paDiff (pa ((idx : Int) * 15 + k)) (pa ((idx : Int) * 15 + k - 1)) b.2 with
    | some d => (k, d)
    | none => b) (0, 1)

open Classical in
/-- Convergence criteria, solve_faddeev.cpp:1268-1275 (`1335-1342`). `NM - idx_best_PA` does not wrap as `idx_best_PA ≤ NM`. -/
def paConverged (pa : Int → Option ℂ) (idx NM : Nat) : Bool :=
  let b := bestPA pa idx NM
  decide (NM = 14 ∨ NM - b.1 > 4 ∨ (match pa ((idx : Int) * 15 + b.1) with | some x => b.2 < 1 / 10 ^ 6 * ‖x‖ | none => False) ∨ b.2 < 1 / 10 ^ 7)

/-- One element of the Padé pass, solve_faddeev.cpp:1224-1279 (`1291-1346`): result is the table and the increment of
`num_converged_elements`. -/
def paElem (NM : Nat) (t : OsTab) (idx : Nat) : OsTab × Nat :=
  if t.conv idx then (t, 0)
  else
    let pa := Function.update t.pa ((idx : Int) * 15 + NM) (padeApproximant (fun k => t.a (idx * 29 + k)) NM NM 1)
    if paConverged pa idx NM then
      ({ t with pa := pa, conv := Function.update t.conv idx true, best := Function.update t.best idx (bestPA pa idx NM).1 }, 1)
    else ({ t with pa := pa }, 0)

/-- Padé pass over a list of elements. -/
def paPass (NM : Nat) (es : List OsElem) (t : OsTab) : OsTab × Nat :=
  es.foldl (fun r e => let r' := paElem NM r.1 e.idx; (r'.1, r.2 + r'.2)) (t, 0)

/-- Body of the loop over the orders, solve_faddeev.cpp:918-1351. For `NM = 0` the loop over `n` has nothing to do. -/
def padeBody (c : PadeCfg) (s : PadeState) (NM : Nat) : PadeState :=
  let s := if NM = 0 then s else neumannStep c (2 * NM) (neumannStep c (2 * NM - 1) s)
  let el := paPass NM (elElems c) s.el
  let bu := paPass NM (buElems c) s.bu
  { s with el := el.1, bu := bu.1, numConv := s.numConv + el.2 + bu.2 }

/-- Loop over the orders with its early exit, solve_faddeev.cpp:903-1352. -/
def padeLoop (c : PadeCfg) (s : PadeState) : PadeState :=
  (List.range 15).foldl (fun s NM => if s.numConv = c.numEL then s else padeBody c s NM) s

/-- Memory the program reads without having written it: cells outside the two arrays of approximants, and the uninitialised index
arrays. -/
structure PadeJunk where
  pa : Int → Option ℂ
  paBU : Int → Option ℂ
  best : Nat → Nat
  bestBU : Nat → Nat

/-- A fresh array of `n` complex numbers. -/
def freshPA (n : Nat) (junk : Int → Option ℂ) : Int → Option ℂ := fun i => if 0 ≤ i ∧ i < n then some 0 else junk i

/-- Number of breakup elements, solve_faddeev.cpp:574. -/
def PadeCfg.numBU (c : PadeCfg) : Nat := c.nd * c.nBU

/-- State before the loop, solve_faddeev.cpp:478-860: rows of the kernel for `sched` (order of the workers), the coefficients of
order 0 (the imaginary part is not read). -/
def padeInit (c : PadeCfg) (sched : List Nat) (junk : PadeJunk) : PadeState :=
  let prev := allRows c.Nalpha c.Nq c.Np c.CT c.VC c.ents c.ptr c.qidx c.deut sched (fun _ => 0)
  let t0 : OsTab := { a := fun _ => 0, pa := freshPA (c.numEL * 15) junk.pa, conv := fun _ => false, best := junk.best }
  let b0 : OsTab := { a := fun _ => 0, pa := freshPA (c.numBU * 15) junk.paBU, conv := fun _ => false, best := junk.bestBU }
  { re := fun _ => 0, im := fun _ => 0, rePrev := prev, imPrev := fun _ => 0, reComp := fun _ => 0, imComp := fun _ => 0,
    reProd := fun _ => 0, imProd := fun _ => 0,
    el := extract c.D 0 prev (fun _ => 0) (elElems c) t0, bu := extract c.D 0 prev (fun _ => 0) (buElems c) b0, numConv := 0 }

/-- `pade_method_solve`: final state; `none` is the integer division by zero of solve_faddeev.cpp:558-559. -/
def padeSolve (c : PadeCfg) (sched : List Nat) (junk : PadeJunk) : Option PadeState :=
  if c.D = 0 ∨ colsPerChunk c.D = 0 then none else some (padeLoop c (padeInit c sched junk))

/-- `U_array[idx]`, solve_faddeev.cpp:1356-1375. -/
def padeU (s : PadeState) (idx : Nat) : Option ℂ := s.el.pa ((idx : Int) * 15 + s.el.best idx)

/-- `U_BU_array[idx]`, solve_faddeev.cpp:1377-1397. -/
def padeUBU (s : PadeState) (idx : Nat) : Option ℂ := s.bu.pa ((idx : Int) * 15 + s.bu.best idx)

end TicTac
end
