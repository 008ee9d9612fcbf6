import Verif.Model.BreakupTable
/-! What a user reads off the breakup file: rows belong to energies, blocks of five columns to pairs of partial waves. -/
noncomputable section
namespace TicTac.Spec

/-- Heading of the amplitudes from a deuteron state `ket` to a breakup state `bra`: `<L,S,J,l,2j|U|l,2j>`. -/
def buHeading (bra ket : PWState) : Str :=
  "<".toList ++ dec bra.L ++ ",".toList ++ dec bra.S ++ ",".toList ++ dec bra.J ++ ",".toList ++ dec bra.l ++ ",".toList ++ dec bra.twoj ++
    "|U|".toList ++ dec ket.l ++ ",".toList ++ dec ket.twoj ++ ">".toList

/-- Amplitude `b` (a number of a recorded breakup cell) belongs to energy `q`. -/
def OfEnergy (x : BuInput) (q b : Nat) : Prop := q < x.nq ∧ x.off q ≤ b ∧ b < x.off (q + 1)

/-- The table is a faithful listing: `start q` is the first row of energy `q`; the amplitude from deuteron state `d` to breakup cell `b` is in
row `row d b`, and its block of columns starts at `col d b`. -/
structure IsBreakupTable (x : BuInput) (t : BuTable) (start : Nat → Nat) (row col : Nat → Nat → Nat) : Prop where
  /-- the rows are divided among the energies in order -/
  first : start 0 = 0
  last : start x.nq = t.rows
  mono : ∀ q < x.nq, start q ≤ start (q + 1)
  /-- one heading per column; the first five -/
  width : t.headers.length = t.cols
  leadHeadings : t.headers.take 5 = [(false, "Tlab [MeV]".toList), (false, "Ecm [MeV]".toList), (false, "qcm [MeV] (init.)".toList),
    (false, "qlo [MeV] (init.)".toList), (false, "qup [MeV] (init.)".toList)]
  /-- each row begins with the data of its energy -/
  lead : ∀ q < x.nq, ∀ r, start q ≤ r → r < start (q + 1) →
    t.data (r * t.cols) = (x.Tlab q : ℝ) ∧ t.data (r * t.cols + 1) = (x.Ecom q : ℝ) ∧ t.data (r * t.cols + 2) = (x.qcom q : ℝ) ∧
    t.data (r * t.cols + 3) = (x.qWP (x.qIdx q) : ℝ) ∧ t.data (r * t.cols + 4) = (x.qWP (x.qIdx q + 1) : ℝ)
  /-- an amplitude is in a row of its energy, in columns that exist -/
  inside : ∀ q b, OfEnergy x q b → ∀ d < x.deut.length, start q ≤ row d b ∧ row d b < start (q + 1) ∧ 5 ≤ col d b ∧ col d b + 5 ≤ t.cols
  /-- the columns are headed with its partial waves -/
  headings : ∀ q b, OfEnergy x q b → ∀ d (h : d < x.deut.length), (t.headers.drop (col d b)).take 5 =
    [(true, buHeading (x.state (x.alpha b)) (x.state x.deut[d])), (false, "qlo [MeV]".toList), (false, "qup [MeV]".toList), (false, "plo [MeV]".toList),
      (false, "pup [MeV]".toList)]
  /-- they hold the amplitude and the boundaries of its bins -/
  value : ∀ q b, OfEnergy x q b → ∀ d < x.deut.length, t.data (row d b * t.cols + col d b) = x.U (d * x.nBU + b) ∧
    t.data (row d b * t.cols + (col d b + 1)) = (x.qWP (x.qBin b) : ℝ) ∧ t.data (row d b * t.cols + (col d b + 2)) = (x.qWP (x.qBin b + 1) : ℝ) ∧
    ∃ ptr, ePtr x.p x.Np (x.state (x.alpha b)) = some ptr ∧
      t.data (row d b * t.cols + (col d b + 3)) = (comEnergyToComP (x.e ptr.1 (ptr.2 + x.pBin b)) : ℝ) ∧
      t.data (row d b * t.cols + (col d b + 4)) = (comEnergyToComP (x.e ptr.1 (ptr.2 + (x.pBin b + 1))) : ℝ)
  /-- the block of columns is decided by the pair of partial waves; blocks of different pairs do not overlap -/
  pairs : ∀ q b, OfEnergy x q b → ∀ d < x.deut.length, ∀ q' b', OfEnergy x q' b' → ∀ d' < x.deut.length,
    (x.alpha b = x.alpha b' → d = d' → col d b = col d' b') ∧
    (¬ (x.alpha b = x.alpha b' ∧ d = d') → col d b + 5 ≤ col d' b' ∨ col d' b' + 5 ≤ col d b)
  /-- no two amplitudes share a place -/
  apart : ∀ q b, OfEnergy x q b → ∀ d < x.deut.length, ∀ q' b', OfEnergy x q' b' → ∀ d' < x.deut.length,
    row d b = row d' b' → col d b = col d' b' → d = d' ∧ b = b'
  /-- places without an amplitude hold zero -/
  blank : ∀ r < t.rows, ∀ c, 5 ≤ c → c < t.cols → (∀ q b, OfEnergy x q b → ∀ d < x.deut.length, ¬ (row d b = r ∧ col d b ≤ c ∧ c < col d b + 5)) →
    t.data (r * t.cols + c) = 0
  /-- no column is superfluous, and no row is without amplitude -/
  columns : ∀ c, 5 ≤ c → c < t.cols → ∃ q b, OfEnergy x q b ∧ ∃ d < x.deut.length, col d b ≤ c ∧ c < col d b + 5
  full : ∀ q < x.nq, ∀ r, start q ≤ r → r < start (q + 1) → ∃ b, OfEnergy x q b ∧ ∃ d < x.deut.length, row d b = r

/-- The table in terms of what the run found: energies `o`, recorded cells `v` with their offsets `off`, amplitudes `U`; `deut` are the
deuteron states among the `states` of the channel, `q` the boundaries of the q bins and `e` the energies of the pair bins. -/
structure ListsRun (p : PWParams) (states : List PWState) (Np Nq : Nat) (q : Nat → ℝ) (e : Bool → Int → ℝ) (deut : List Nat) (o : OnShell)
    (v : List (Int × Int × Int)) (off : List Nat) (U : Nat → ℂ) (t : BuTable) (start : Nat → Nat) (row col : Nat → Nat → Nat) : Prop where
  /-- rows of energy `k`: its lab and c.m. energies, its momentum and the boundaries of the bin that contains the momentum -/
  energies : ∀ k (h1 : k < o.Tlab.length), ∀ r, start k ≤ r → r < start (k + 1) → ∃ E qc qi, o.Ecom[k]? = some E ∧ o.qcom[k]? = some qc ∧ qi < Nq ∧
    q qi < qc ∧ qc < q (qi + 1) ∧ t.data (r * t.cols) = (o.Tlab[k] : ℝ) ∧ t.data (r * t.cols + 1) = (E : ℝ) ∧ t.data (r * t.cols + 2) = (qc : ℝ) ∧
    t.data (r * t.cols + 3) = (q qi : ℝ) ∧ t.data (r * t.cols + 4) = (q (qi + 1) : ℝ)
  /-- cell `b` of energy `k` and deuteron state `d` -/
  cells : ∀ k < o.Tlab.length, ∀ b, off.getD k 0 ≤ b → b < off.getD (k + 1) 0 → ∀ d (hd : d < deut.length), start k ≤ row d b ∧ row d b < start (k + 1) ∧
    ∃ a qb pb s s' ptr, v[b]? = some (a, qb, pb) ∧ states[a.toNat]? = some s ∧ states[deut[d]]? = some s' ∧ ePtr p Np s = some ptr ∧
      t.headers[col d b]? = some (true, buHeading s s') ∧
      t.data (row d b * t.cols + col d b) = U (d * v.length + b) ∧
      (0 ≤ qb → t.data (row d b * t.cols + (col d b + 1)) = (q qb.toNat : ℝ) ∧ t.data (row d b * t.cols + (col d b + 2)) = (q (qb.toNat + 1) : ℝ)) ∧
      t.data (row d b * t.cols + (col d b + 3)) = (comEnergyToComP (e ptr.1 (ptr.2 + pb)) : ℝ) ∧
      t.data (row d b * t.cols + (col d b + 4)) = (comEnergyToComP (e ptr.1 (ptr.2 + pb + 1)) : ℝ)

end TicTac.Spec
end
