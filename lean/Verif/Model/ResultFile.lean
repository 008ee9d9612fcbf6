import Verif.Model.Format
import Verif.Model.Record
/-! The result files as whole texts: CPP/disk_io_routines.cpp:563-704 (`store_U_BU_matrix_elements_txt`) and 753-911 (`store_U_matrix_elements_txt`).
The rows of numbers are those of `Model/Format`.  The text of the deuteron energy (`operator<<` with eight digits) is any text without an end of line. -/
noncomputable section
namespace TicTac

/-- What the heads of the files are made from, disk_io_routines.cpp:573-590, 762-777. -/
structure ResultHead where
  twoJ : Nat
  parity : Int
  potential : Str
  Np : Nat
  Nq : Nat
  bound : Str

/-- `parity_sgn`; `none` = `raise_error`, disk_io_routines.cpp:601-604, 787-790. -/
def paritySign (P : Int) : Option Str := if P = 1 then some ['+'] else if P = -1 then some ['-'] else none

/-- A line `# Label:      value`; the value begins in column 16. -/
def headLine (label v : Str) : Str := label ++ ':' :: (List.replicate (14 - label.length) ' ' ++ v)

/-- The line of hash signs, disk_io_routines.cpp:633, 698, 811, 855, 906. -/
def sepLine : Str := "# ################################################################################################### ".toList

/-- The head of a file, disk_io_routines.cpp:608-633, 794-811. -/
def headLines (title : Str) (h : ResultHead) (sgn : Str) (legend : List Str) : List Str :=
  [title, "# ".toList, "# The calculations below were done for: ".toList, headLine "# JP".toList (Nat.toDigits 10 h.twoJ ++ "/2".toList ++ sgn),
    headLine "# Potential".toList h.potential, headLine "# Np".toList (Nat.toDigits 10 h.Np ++ [' ']), headLine "# Nq".toList (Nat.toDigits 10 h.Nq ++ [' ']),
    headLine "# Particles".toList "nd-scattering".toList, headLine "# Deuteron BE".toList (h.bound ++ " MeV ".toList), "# ".toList,
    "# Symbol definitions: ".toList] ++ legend ++ ["# ".toList, sepLine]

/-- Legend of the elastic file, disk_io_routines.cpp:804-809. -/
def elasticLegend : List Str :=
  ["# Uij:   U-matrix element in MeV with row-idx i and col-idx j (NOTE in wave-packet representation!)  ".toList,
   "# l:     Spectator nucleon orbital angular momentum  ".toList,
   "# j:     Spectator nucleon total angular momentum  ".toList,
   "# Tlab:  Laboratory scattering/kinetic energy  ".toList,
   "# Ecm:   Centre-of-mass scattering/kinetic energy  ".toList,
   "# q_idx: Index of on-shell q-momentum bin correponding to Tlab/Ecm  ".toList]

/-- Legend of the breakup file, disk_io_routines.cpp:619-631. -/
def breakupLegend : List Str :=
  ["# <L,S,J,2*l,2*j|U|2*l,2*j>:   U-matrix element in MeV with for channel <L S J l j|U|L=0 S=1 J=1 l j> (NOTE in wave-packet representation!)  ".toList,
   "# L:                           Pair orbital angular momentum  ".toList,
   "# S:                           Pair spin  ".toList,
   "# J:                           Pair total angular momentum  ".toList,
   "# l:                           Spectator orbital angular momentum  ".toList,
   "# j:                           Spectator total angular momentum  ".toList,
   "# Tlab:                        Laboratory scattering/kinetic energy  ".toList,
   "# Ecm:                         Centre-of-mass scattering/kinetic energy  ".toList,
   "# qcm:                         Spectator centre-of-mass momentum bin midpoint ".toList,
   "# qlo:                         Spectator centre-of-mass momentum bin lower boundary ".toList,
   "# qup:                         Spectator centre-of-mass momentum bin upper boundary ".toList,
   "# plo:                         Pair centre-of-mass momentum bin lower boundary ".toList,
   "# pup:                         Pair centre-of-mass momentum bin upper boundary ".toList,
   "# init.:                       Pre-scattering ".toList]

/-- Headings of the first table of the elastic file, disk_io_routines.cpp:818-824. -/
def elasticHeads1 : Str :=
  '#' :: ["Name", "row-idx", "col-idx", "l'", "2*j'", "l", "2*j"].flatMap fun t => setw 10 t.toList

/-- Headings of its second table, disk_io_routines.cpp:858-874 (names of the amplitudes: `uHeaders`). -/
def elasticHeads2 : Str :=
  '#' :: (setw 24 "Tlab [MeV]".toList ++ setw 24 "Ecm [MeV]".toList ++ setw 10 "q_idx".toList ++
    uHeaders.flatMap fun rc => setw 50 ("U".toList ++ Nat.toDigits 10 rc.1 ++ Nat.toDigits 10 rc.2 ++ " [MeV]".toList))

/-- What the elastic file lists: `nd` deuteron states with quantum numbers `l`, `2j` of the spectator, `nq` energies with their bins, amplitudes. -/
structure ElasticData where
  nd : Nat
  nq : Nat
  l : Nat → Nat
  twoj : Nat → Nat
  T : Nat → Dbl
  E : Nat → Dbl
  bin : Nat → Nat
  U : Nat → Dbl × Dbl

/-- A row of the first table, disk_io_routines.cpp:827-853. -/
def indexRow (d : ElasticData) (r c : Nat) : Str :=
  ' ' :: (setw 10 ("U".toList ++ Nat.toDigits 10 r ++ Nat.toDigits 10 c) ++
    [r, c, d.l r, d.twoj r, d.l c, d.twoj c].flatMap fun n => setw 10 (Nat.toDigits 10 n))

/-- The first table. -/
def indexRows (d : ElasticData) : List Str := (List.range d.nd).flatMap fun r => (List.range d.nd).map fun c => indexRow d r c

/-- `store_U_matrix_elements_txt`, disk_io_routines.cpp:753-911: `s` is the text of the file (`std::endl` at the end gives an empty line). -/
def ElasticText (h : ResultHead) (d : ElasticData) (s : Str) : Prop :=
  ∃ sgn, paritySign h.parity = some sgn ∧ ∃ rows : List Str,
    List.Forall₂ (fun q l => RowText (elasticFields (d.T q) (d.E q) (d.bin q) d.U d.nd d.nq q) l) (List.range d.nq) rows ∧
    s = linesText (headLines "# Elastic Nd-scattering U-matrix elements in a wave-packet, Jj-scheme representation. ".toList h sgn elasticLegend ++
      [elasticHeads1] ++ indexRows d ++ [sepLine, elasticHeads2] ++ rows ++ [sepLine, []])

/-- Width of a column of the breakup table, disk_io_routines.cpp:641-642; `true` = "comp". -/
def columnWidth (comp : Bool) : Nat := if comp then 50 else 24

/-- Line of headings of the breakup table, disk_io_routines.cpp:667-679. -/
def breakupHeadLine (heads : List (Bool × Str)) : Str := '#' :: heads.flatMap fun h => setw (columnWidth h.1) h.2

/-- Entries of a row: a column headed "real" shows the real part, disk_io_routines.cpp:682-696. -/
def tableFields (heads : List (Bool × Str)) (row : List (Dbl × Dbl)) : List Field :=
  breakupFields (List.zipWith (fun h v => (!h.1, v)) heads row)

/-- `store_U_BU_matrix_elements_txt`, disk_io_routines.cpp:563-704, for the table (`heads`, `rows`) of `restructure_breakup_data`. -/
def BreakupText (h : ResultHead) (heads : List (Bool × Str)) (rows : List (List (Dbl × Dbl))) (s : Str) : Prop :=
  ∃ sgn, paritySign h.parity = some sgn ∧ ∃ ls : List Str, List.Forall₂ (fun r l => RowText (tableFields heads r) l) rows ls ∧
    s = linesText (headLines "# Breakup Nd-scattering U-matrix elements in a wave-packet, Jj-scheme representation. ".toList h sgn breakupLegend ++
      [breakupHeadLine heads] ++ ls ++ [sepLine, []])

end TicTac
end
