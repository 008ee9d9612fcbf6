import Verif.Model.OnShell
import Verif.Model.Main
import Verif.Model.Tables
/-! Model of `restructure_breakup_data`, disk_io_routines.cpp:342-562: the table of breakup amplitudes written by
`store_U_BU_matrix_elements_txt`.  Keys of the `std::map`s are unbounded (the C code uses `int`). -/
noncomputable section
namespace TicTac

/-- `std::map<int,int>`: key/value pairs, at most one per key. -/
abbrev StdMap := List (Nat × Nat)

/-- `m.find(k)`. -/
def StdMap.get (m : StdMap) (k : Nat) : Option Nat := (m.find? fun kv => kv.1 == k).map (·.2)

/-- `m[k] = v`. -/
def StdMap.set (m : StdMap) (k v : Nat) : StdMap := (k, v) :: m.filter fun kv => kv.1 != k

/-- Largest value, the loop at disk_io_routines.cpp:447-452 (order of iteration does not matter). -/
def StdMap.maxVal (m : StdMap) : Nat := m.foldl (fun a kv => if a < kv.2 then kv.2 else a) 0

/-- What the table is made from. -/
structure BuInput where
  p : PWParams
  /-- partial waves of the channel (`pw_states`) -/
  states : List PWState
  Np : Nat
  /-- `deuteron_idx_array` -/
  deut : List Nat
  /-- number of on-shell energies, `num_T_lab` -/
  nq : Nat
  /-- `q_com_BU_idx_array` -/
  off : Nat → Nat
  /-- `num_BU_chns` -/
  nBU : Nat
  /-- `alphapq_idx_array`: partial wave, q bin, p bin (the bins can be -1, property C40) -/
  alpha : Nat → Nat
  qBin : Nat → Int
  pBin : Nat → Int
  Tlab : Nat → ℝ
  Ecom : Nat → ℝ
  qcom : Nat → ℝ
  /-- `q_com_idx_array` -/
  qIdx : Nat → Nat
  /-- `q_WP_array`, also outside its bounds -/
  qWP : Int → ℝ
  /-- `e_SWP_unco_array`, `e_SWP_coup_array` -/
  e : Bool → Int → ℝ
  /-- the amplitudes, `U_BU_array` -/
  U : Nat → ℂ

/-- Element of an array of quantum numbers of the channel (0 outside). -/
def BuInput.state (x : BuInput) (a : Nat) : PWState := x.states.getD a ⟨0, 0, 0, 0, 0, 0, 0, 0, 0⟩

/-- Column heading of the amplitudes from `ar` to `ac`, disk_io_routines.cpp:402-419. -/
def buLabel (x : BuInput) (ac ar : Nat) : Str :=
  let s := x.state ac
  "<".toList ++ dec s.L ++ ",".toList ++ dec s.S ++ ",".toList ++ dec s.J ++ ",".toList ++ dec s.l ++ ",".toList ++ dec s.twoj ++ "|U|".toList ++
    dec (x.state ar).l ++ ",".toList ++ dec (x.state ar).twoj ++ ">".toList

/-- First headings, disk_io_routines.cpp:382-386; `true` = "comp". -/
def buHead0 : List (Bool × Str) :=
  [(false, "Tlab [MeV]".toList), (false, "Ecm [MeV]".toList), (false, "qcm [MeV] (init.)".toList), (false, "qlo [MeV] (init.)".toList),
    (false, "qup [MeV] (init.)".toList)]

/-- Headings of one pair of partial waves, disk_io_routines.cpp:425-429. -/
def buHeads (x : BuInput) (ac ar : Nat) : List (Bool × Str) :=
  [(true, buLabel x ac ar), (false, "qlo [MeV]".toList), (false, "qup [MeV]".toList), (false, "plo [MeV]".toList), (false, "pup [MeV]".toList)]

/-- `key_alpha` and `key_row_idx`, disk_io_routines.cpp:422-423. -/
def keyAlpha (x : BuInput) (ac ar : Nat) : Nat := ac * x.states.length + ar
def keyRow (x : BuInput) (b ar : Nat) : Nat := b * x.states.length + ar

/-- Local variables of the first pass: headings, `alpha_map` (its size is `alpha_counter`), `row_idx_map`. -/
structure BuScan where
  headers : List (Bool × Str)
  alphaMap : StdMap
  counter : Nat
  rowIdx : StdMap

/-- Body of the innermost loop of the first pass, disk_io_routines.cpp:407-443; `ar` is the partial wave of the deuteron state, `base` is
`num_rows_vec[q_idx]`, the second component is `row_num_map`. -/
def buStep (x : BuInput) (base : Nat) (st : BuScan × StdMap) (ev : Nat × Nat) : BuScan × StdMap :=
  let ar := ev.1; let b := ev.2
  let ac := x.alpha b
  let s := st.1
  let s1 := if (s.alphaMap.get (keyAlpha x ac ar)).isNone then
      { s with headers := s.headers ++ buHeads x ac ar, alphaMap := s.alphaMap.set (keyAlpha x ac ar) s.counter, counter := s.counter + 1 }
    else s
  match st.2.get (keyAlpha x ac ar) with
  | none => ({ s1 with rowIdx := s1.rowIdx.set (keyRow x b ar) base }, st.2.set (keyAlpha x ac ar) (base + 1))
  | some n => ({ s1 with rowIdx := s1.rowIdx.set (keyRow x b ar) n }, st.2.set (keyAlpha x ac ar) (n + 1))

/-- The pairs (deuteron partial wave, breakup channel) of one energy in the order of the loops, disk_io_routines.cpp:401-408. -/
def buEvents (x : BuInput) (q : Nat) : List (Nat × Nat) :=
  x.deut.flatMap fun ar => (List.range' (x.off q) (x.off (q + 1) - x.off q)).map fun b => (ar, b)

/-- One energy of the first pass, disk_io_routines.cpp:395-454; the second component is `num_rows_vec`. -/
def buEnergy (x : BuInput) (st : BuScan × List Nat) (q : Nat) : BuScan × List Nat :=
  let r := (buEvents x q).foldl (buStep x (st.2.getD q 0)) (st.1, [])
  (r.1, st.2 ++ [r.2.maxVal])

/-- The first pass, disk_io_routines.cpp:381-454. -/
def buScan (x : BuInput) : BuScan × List Nat :=
  (List.range x.nq).foldl (buEnergy x) ({ headers := buHead0, alphaMap := [], counter := 0, rowIdx := [] }, [0])

/-- Five consecutive cells. -/
def five (i : Nat) (v : Fin 5 → ℂ) : List (Nat × ℂ) := [(i, v 0), (i + 1, v 1), (i + 2, v 2), (i + 3, v 3), (i + 4, v 4)]

/-- What is written for one amplitude, disk_io_routines.cpp:489-559; `none` = `raise_error` in `unique_2N_idx`.
`d` is the number of the deuteron state, `ar` its partial wave. -/
def buCells (x : BuInput) (s : BuScan) (cols : Nat) (d ar b : Nat) : Option (List (Nat × ℂ)) :=
  (ePtr x.p x.Np (x.state (x.alpha b))).map fun ptr =>
    let c := 5 * (s.alphaMap.get (keyAlpha x (x.alpha b) ar)).getD 0 + 5
    let r := (s.rowIdx.get (keyRow x b ar)).getD 0
    five (r * cols + c) ![x.U (d * x.nBU + b), (x.qWP (x.qBin b) : ℝ), (x.qWP (x.qBin b + 1) : ℝ),
      (comEnergyToComP (x.e ptr.1 (ptr.2 + x.pBin b)) : ℝ), (comEnergyToComP (x.e ptr.1 (ptr.2 + (x.pBin b + 1))) : ℝ)]

/-- One energy of the second pass, disk_io_routines.cpp:467-560. -/
def buFill (x : BuInput) (s : BuScan) (rows : List Nat) (cols q : Nat) : Option (List (Nat × ℂ)) := do
  let lead := (List.range' (rows.getD q 0) (rows.getD (q + 1) 0 - rows.getD q 0)).flatMap fun row =>
    five (row * cols) ![(x.Tlab q : ℝ), (x.Ecom q : ℝ), (x.qcom q : ℝ), (x.qWP (x.qIdx q) : ℝ), (x.qWP (x.qIdx q + 1) : ℝ)]
  let cells ← x.deut.zipIdx.mapM fun da => (List.range' (x.off q) (x.off (q + 1) - x.off q)).mapM fun b => buCells x s cols da.2 da.1 b
  return lead ++ (cells.map List.flatten).flatten

/-- The table. -/
structure BuTable where
  headers : List (Bool × Str)
  rows : Nat
  cols : Nat
  data : Nat → ℂ

/-- `restructure_breakup_data`. `headers.size()/2` is the number of headings. -/
def breakupTable (x : BuInput) : Option BuTable := do
  let s := buScan x
  let cols := s.1.headers.length
  let ws ← (List.range x.nq).mapM (buFill x s.1 s.2 cols)
  return { headers := s.1.headers, rows := s.2.getLastD 0, cols := cols, data := writeAll (fun _ => 0) ws.flatten }

/-- The arguments of `restructure_breakup_data` in a run: `solve_config`, `chn_os_indexing` from `find_on_shell_bins` (main.cpp:353-373), the
deuteron states of the channel and the amplitudes (main.cpp:463).  `qOut` is what lies outside `q_WP_array`. -/
def buInputOf (p : PWParams) (states : List PWState) (Np : Nat) (q : Nat → ℝ) (qOut : Int → ℝ) (e : Bool → Int → ℝ) (deut : List Nat) (o : OnShell)
    (v : List (Int × Int × Int)) (off : List Nat) (U : Nat → ℂ) : BuInput where
  p := p
  states := states
  Np := Np
  deut := deut
  nq := o.Tlab.length
  off := fun i => off.getD i 0
  nBU := v.length
  alpha := fun b => (v.getD b (0, 0, 0)).1.toNat
  qBin := fun b => (v.getD b (0, 0, 0)).2.1
  pBin := fun b => (v.getD b (0, 0, 0)).2.2
  Tlab := fun i => o.Tlab.getD i 0
  Ecom := fun i => o.Ecom.getD i 0
  qcom := fun i => o.qcom.getD i 0
  qIdx := fun i => o.qIdx.getD i 0
  qWP := fun i => if 0 ≤ i then q i.toNat else qOut i
  e := e
  U := U

end TicTac
end
