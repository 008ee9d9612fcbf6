import Verif.Lemmas.BreakupTable
import Verif.Props.OnShell
import Verif.Props.Dense
import Verif.Lemmas.Run4
import Verif.Lemmas.Main
/-! C81, C82, C83: the file of breakup amplitudes. -/
noncomputable section
namespace TicTac
open Spec

theorem mem_five {i : Nat} {v : Fin 5 → ℂ} {w : Nat × ℂ} : w ∈ five i v ↔ ∃ j : Fin 5, w = (i + j, v j) := by
  unfold five
  simp only [List.mem_cons, List.not_mem_nil, or_false]
  constructor
  · rintro (h | h | h | h | h)
    · exact ⟨0, h⟩
    · exact ⟨1, h⟩
    · exact ⟨2, h⟩
    · exact ⟨3, h⟩
    · exact ⟨4, h⟩
  · rintro ⟨j, h⟩
    fin_cases j
    · exact Or.inl h
    · exact Or.inr (Or.inl h)
    · exact Or.inr (Or.inr (Or.inl h))
    · exact Or.inr (Or.inr (Or.inr (Or.inl h)))
    · exact Or.inr (Or.inr (Or.inr (Or.inr h)))

/-- Place of an amplitude according to the maps of the first pass. -/
def rowAt (x : BuInput) (s : BuScan) (d b : Nat) : Nat := (s.rowIdx.get (keyRow x b (x.deut.getD d 0))).getD 0
def colAt (x : BuInput) (s : BuScan) (d b : Nat) : Nat := 5 * (s.alphaMap.get (keyAlpha x (x.alpha b) (x.deut.getD d 0))).getD 0 + 5

/-- Contents of the five cells of an amplitude. -/
def cellVals (x : BuInput) (ptr : Bool × Int) (d b : Nat) : Fin 5 → ℂ :=
  ![x.U (d * x.nBU + b), (x.qWP (x.qBin b) : ℝ), (x.qWP (x.qBin b + 1) : ℝ),
      (comEnergyToComP (x.e ptr.1 (ptr.2 + x.pBin b)) : ℝ), (comEnergyToComP (x.e ptr.1 (ptr.2 + (x.pBin b + 1))) : ℝ)]

def leadVals (x : BuInput) (q : Nat) : Fin 5 → ℂ := ![(x.Tlab q : ℝ), (x.Ecom q : ℝ), (x.qcom q : ℝ), (x.qWP (x.qIdx q) : ℝ), (x.qWP (x.qIdx q + 1) : ℝ)]

theorem mem_zipIdx_deut {l : List Nat} {a : Nat × Nat} : a ∈ l.zipIdx ↔ a.2 < l.length ∧ l.getD a.2 0 = a.1 := by
  obtain ⟨v, i⟩ := a
  rw [List.mem_zipIdx_iff_getElem?]
  simp only [List.getD_eq_getElem?_getD]
  constructor
  · intro h
    exact ⟨(List.getElem?_eq_some_iff.1 h).1, by rw [h]; rfl⟩
  · rintro ⟨h1, h2⟩
    rw [List.getElem?_eq_getElem h1] at h2 ⊢
    simpa using h2

/-- All writes of the second pass. -/
theorem mem_buFill {x : BuInput} {s : BuScan} {rows : List Nat} {cols q : Nat} {l : List (Nat × ℂ)} (h : buFill x s rows cols q = some l)
    (hle : rows.getD q 0 ≤ rows.getD (q + 1) 0) (hoff : x.off q ≤ x.off (q + 1)) (w : Nat × ℂ) :
    w ∈ l ↔ (∃ r, rows.getD q 0 ≤ r ∧ r < rows.getD (q + 1) 0 ∧ ∃ j : Fin 5, w = (r * cols + j, leadVals x q j)) ∨
      ∃ d < x.deut.length, ∃ b, x.off q ≤ b ∧ b < x.off (q + 1) ∧ ∃ ptr, ePtr x.p x.Np (x.state (x.alpha b)) = some ptr ∧
        ∃ j : Fin 5, w = (rowAt x s d b * cols + colAt x s d b + j, cellVals x ptr d b j) := by
  unfold buFill at h
  simp only [bind, Option.bind, pure] at h
  split at h
  · cases h
  rename_i cells hc
  simp only [Option.some.injEq] at h
  subst h
  rw [List.mem_append, List.mem_flatMap]
  refine or_congr ?_ ?_
  · constructor
    · rintro ⟨r, h1, h2⟩
      rw [List.mem_range'_1] at h1
      exact ⟨r, by omega, by omega, mem_five.1 h2⟩
    · rintro ⟨r, h1, h2, h3⟩
      exact ⟨r, List.mem_range'_1.2 (by omega), mem_five.2 h3⟩
  · have hm := optMapM_mem hc
    simp only [List.mem_flatten, List.mem_map]
    constructor
    · rintro ⟨l1, ⟨l2, h2, rfl⟩, hw⟩
      obtain ⟨da, hda, hb⟩ := hm.1 l2 h2
      rw [List.mem_flatten] at hw
      obtain ⟨l3, h3, hw⟩ := hw
      obtain ⟨b, hbr, hcell⟩ := (optMapM_mem hb).1 l3 h3
      rw [List.mem_range'_1] at hbr
      rw [mem_zipIdx_deut] at hda
      unfold buCells at hcell
      rw [Option.map_eq_some_iff] at hcell
      obtain ⟨ptr, hp, rfl⟩ := hcell
      obtain ⟨j, hj⟩ := mem_five.1 hw
      refine ⟨da.2, hda.1, b, by omega, by omega, ptr, hp, j, ?_⟩
      rw [hj]
      unfold rowAt colAt
      rw [hda.2]
      rfl
    · rintro ⟨d, hd, b, h1, h2, ptr, hp, j, rfl⟩
      have hda : (x.deut.getD d 0, d) ∈ x.deut.zipIdx := mem_zipIdx_deut.2 ⟨hd, rfl⟩
      obtain ⟨l2, hl2, hb⟩ := hm.2 _ hda
      have hcell : buCells x s cols d (x.deut.getD d 0) b = some (five (rowAt x s d b * cols + colAt x s d b) (cellVals x ptr d b)) := by
        unfold buCells
        rw [hp]; rfl
      obtain ⟨l3, hl3, hb3⟩ := (optMapM_mem hb).2 b (List.mem_range'_1.2 (by omega))
      rw [hcell] at hb3
      cases hb3
      exact ⟨l2.flatten, ⟨l2, hl2, rfl⟩, List.mem_flatten.2 ⟨_, hl3, mem_five.2 ⟨j, rfl⟩⟩⟩

theorem flatMap_heads_length (x : BuInput) (pairs : List (Nat × Nat)) : (pairs.flatMap fun p => buHeads x p.1 p.2).length = 5 * pairs.length := by
  induction pairs with
  | nil => rfl
  | cons p ps ih => rw [List.flatMap_cons, List.length_append, ih, List.length_cons]; simp [buHeads]; ring

theorem flatMap_heads_at (x : BuInput) (pairs : List (Nat × Nat)) (k : Nat) (hk : k < pairs.length) :
    ((pairs.flatMap fun p => buHeads x p.1 p.2).drop (5 * k)).take 5 = buHeads x pairs[k].1 pairs[k].2 := by
  induction pairs generalizing k with
  | nil => simp at hk
  | cons p ps ih =>
    rw [List.flatMap_cons]
    have hl : (buHeads x p.1 p.2).length = 5 := rfl
    cases k with
    | zero =>
      rw [Nat.mul_zero, List.drop_zero, List.take_append_of_le_length (by rw [hl]), List.take_of_length_le (by rw [hl])]
      rfl
    | succ k =>
      rw [show 5 * (k + 1) = (buHeads x p.1 p.2).length + 5 * k by rw [hl]; ring, List.drop_length_add_append]
      exact ih k (by simpa using hk)

/-- **C81.** For every run, whenever the table of breakup amplitudes is made: each amplitude has its own place, in a row of its own energy and
under the heading of its own partial waves, next to the boundaries of its own bins; all other places of these columns are zero; no row is
superfluous. -/
theorem C81_breakup_table {x : BuInput} (h : BuOk x) {t : BuTable} (ht : breakupTable x = some t) :
    ∃ start row col, IsBreakupTable x t start row col := by
  obtain ⟨pairs, S⟩ := scan_ok h x.nq le_rfl
  unfold breakupTable at ht
  simp only [bind, Option.bind, pure] at ht
  split at ht
  · cases ht
  rename_i ws hws
  simp only [Option.some.injEq] at ht
  subst ht
  change Scanned x x.nq (buScan x).1 (buScan x).2 pairs at S
  set s := (buScan x).1 with hs
  set rows := (buScan x).2 with hrows
  have hcols : s.headers.length = 5 + 5 * pairs.length := by
    rw [S.cols.headers, List.length_append, flatMap_heads_length]; rfl
  have hdl : ∀ d < x.deut.length, x.deut.getD d 0 ∈ x.deut ∧ x.deut.getD d 0 < x.states.length := by
    intro d hd
    have : x.deut.getD d 0 = x.deut[d] := by rw [List.getD_eq_getElem?_getD, List.getElem?_eq_getElem hd]; rfl
    rw [this]
    exact ⟨List.getElem_mem hd, h.bound _ (List.getElem_mem hd)⟩
  have hdinj : ∀ d < x.deut.length, ∀ d' < x.deut.length, x.deut.getD d 0 = x.deut.getD d' 0 → d = d' := by
    intro d hd d' hd' he
    rw [List.getD_eq_getElem?_getD, List.getD_eq_getElem?_getD, List.getElem?_eq_getElem hd, List.getElem?_eq_getElem hd'] at he
    exact (List.Nodup.getElem_inj_iff h.nodup).1 (by simpa using he)
  -- the column of an amplitude
  have hcolk : ∀ q b, OfEnergy x q b → ∀ d < x.deut.length, ∃ k, ∃ hk : k < pairs.length, pairs[k] = (x.alpha b, x.deut.getD d 0) ∧ colAt x s d b = 5 * k + 5 := by
    intro q b hb d hd
    have := S.seen q hb.1 (x.deut.getD d 0, b) (mem_buEvents.2 ⟨(hdl d hd).1, hb.2.1, hb.2.2⟩)
    obtain ⟨k, hk, he⟩ := List.mem_iff_getElem.1 this
    have hg := S.cols.some_ k hk
    rw [he] at hg
    refine ⟨k, hk, he, ?_⟩
    unfold colAt
    simp only at hg
    rw [hg]; rfl
  -- the row of an amplitude
  have hrowk : ∀ q b, OfEnergy x q b → ∀ d < x.deut.length, ∃ pre post, buEvents x q = pre ++ (x.deut.getD d 0, b) :: post ∧
      rowAt x s d b = rows.getD q 0 + place x pre (x.deut.getD d 0, b) ∧ rowAt x s d b < rows.getD (q + 1) 0 := by
    intro q b hb d hd
    have hm : (x.deut.getD d 0, b) ∈ buEvents x q := mem_buEvents.2 ⟨(hdl d hd).1, hb.2.1, hb.2.2⟩
    obtain ⟨pre, post, he⟩ := List.append_of_mem hm
    obtain ⟨h1, h2⟩ := S.rowOf q hb.1 pre _ post he
    have : rowAt x s d b = rows.getD q 0 + place x pre (x.deut.getD d 0, b) := by
      unfold rowAt
      have h3 : s.rowIdx.get (keyRow x b (x.deut.getD d 0)) = some (rows.getD q 0 + place x pre (x.deut.getD d 0, b)) := h1
      rw [h3]; rfl
    exact ⟨pre, post, he, this, by rw [this]; exact h2⟩
  have hmono : ∀ q q', q ≤ q' → q' ≤ x.nq → rows.getD q 0 ≤ rows.getD q' 0 := by
    intro q q' hq
    induction q', hq using Nat.le_induction with
    | base => intro _; exact le_rfl
    | succ n hn ih => intro hh; exact (ih (by omega)).trans (S.mono n (by omega))
  have hsameq : ∀ q < x.nq, ∀ q' < x.nq, ∀ r, rows.getD q 0 ≤ r → r < rows.getD (q + 1) 0 → rows.getD q' 0 ≤ r → r < rows.getD (q' + 1) 0 → q = q' := by
    intro q hq q' hq' r a1 a2 a3 a4
    rcases Nat.lt_trichotomy q q' with hl | he | hl
    · have := hmono (q + 1) q' (by omega) (by omega); omega
    · exact he
    · have := hmono (q' + 1) q (by omega) (by omega); omega
  have hapart : ∀ q b, OfEnergy x q b → ∀ d < x.deut.length, ∀ q' b', OfEnergy x q' b' → ∀ d' < x.deut.length,
      rowAt x s d b = rowAt x s d' b' → colAt x s d b = colAt x s d' b' → d = d' ∧ b = b' := by
    intro q b hb d hd q' b' hb' d' hd' hr hc
    obtain ⟨pre, post, e1, e2, e3⟩ := hrowk q b hb d hd
    obtain ⟨pre', post', e1', e2', e3'⟩ := hrowk q' b' hb' d' hd'
    have hqq := hsameq q hb.1 q' hb'.1 (rowAt x s d b) (by omega) e3 (by omega) (by omega)
    subst hqq
    obtain ⟨k, hk, f1, f2⟩ := hcolk q b hb d hd
    obtain ⟨k', hk', f1', f2'⟩ := hcolk q b' hb' d' hd'
    have hkk : k = k' := by omega
    subst hkk
    rw [f1] at f1'
    have g1 := congrArg Prod.fst f1'
    have g2 := congrArg Prod.snd f1'
    have := place_inj e1 e1' ((evCol_inj (hdl d hd).2 (hdl d' hd').2).2 ⟨g1, g2⟩) (by omega)
    exact ⟨hdinj d hd d' hd' g2, congrArg Prod.snd this⟩
  -- the writes
  have hall : ∀ w, w ∈ ws.flatten ↔ ∃ q < x.nq, (∃ r, rows.getD q 0 ≤ r ∧ r < rows.getD (q + 1) 0 ∧ ∃ j : Fin 5, w = (r * s.headers.length + j, leadVals x q j)) ∨
      ∃ d < x.deut.length, ∃ b, x.off q ≤ b ∧ b < x.off (q + 1) ∧ ∃ ptr, ePtr x.p x.Np (x.state (x.alpha b)) = some ptr ∧
        ∃ j : Fin 5, w = (rowAt x s d b * s.headers.length + colAt x s d b + j, cellVals x ptr d b j) := by
    intro w
    rw [List.mem_flatten]
    constructor
    · rintro ⟨l, hl, hw⟩
      obtain ⟨q, hq, hf⟩ := (optMapM_mem hws).1 l hl
      rw [List.mem_range] at hq
      exact ⟨q, hq, (mem_buFill hf (S.mono q hq) (h.mono q hq) w).1 hw⟩
    · rintro ⟨q, hq, hw⟩
      obtain ⟨l, hl, hf⟩ := (optMapM_mem hws).2 q (List.mem_range.2 hq)
      exact ⟨l, hl, (mem_buFill hf (S.mono q hq) (h.mono q hq) w).2 hw⟩
  have hptr : ∀ q b, OfEnergy x q b → ∀ d < x.deut.length, ∃ ptr, ePtr x.p x.Np (x.state (x.alpha b)) = some ptr := by
    intro q b hb d hd
    obtain ⟨l, hl, hf⟩ := (optMapM_mem hws).2 q (List.mem_range.2 hb.1)
    unfold buFill at hf
    simp only [bind, Option.bind, pure] at hf
    split at hf
    · cases hf
    rename_i cells hc
    obtain ⟨l2, hl2, hb2⟩ := (optMapM_mem hc).2 (x.deut.getD d 0, d) (mem_zipIdx_deut.2 ⟨hd, rfl⟩)
    obtain ⟨l3, hl3, hb3⟩ := (optMapM_mem hb2).2 b (List.mem_range'_1.2 (by have := hb.2.1; have := hb.2.2; omega))
    unfold buCells at hb3
    rw [Option.map_eq_some_iff] at hb3
    obtain ⟨ptr, hp, -⟩ := hb3
    exact ⟨ptr, hp⟩
  set D := s.headers.length with hD
  have hread : ∀ i v, (i, v) ∈ ws.flatten → (∀ w ∈ ws.flatten, w.1 = i → w.2 = v) → writeAll (fun _ => 0) ws.flatten i = v :=
    fun i v h1 h2 => writeAll_eq _ _ i v h1 h2
  have hcellpos : ∀ q b, OfEnergy x q b → ∀ d < x.deut.length, ∀ j : Fin 5, 5 ≤ colAt x s d b + j ∧ colAt x s d b + j < D := by
    intro q b hb d hd j
    obtain ⟨k, hk, f1, f2⟩ := hcolk q b hb d hd
    have := j.2
    omega
  have hlead : ∀ q < x.nq, ∀ r, rows.getD q 0 ≤ r → r < rows.getD (q + 1) 0 → ∀ j : Fin 5, writeAll (fun _ => 0) ws.flatten (r * D + j) = leadVals x q j := by
    intro q hq r h1 h2 j
    refine hread _ _ ((hall _).2 ⟨q, hq, Or.inl ⟨r, h1, h2, j, rfl⟩⟩) ?_
    intro w hw hwi
    have hj := j.2
    obtain ⟨q', hq', ⟨r', a1, a2, j', rfl⟩ | ⟨d, hd, b, b1, b2, ptr, hp, j', rfl⟩⟩ := (hall w).1 hw
    · simp only at hwi ⊢
      have hj' := j'.2
      obtain ⟨e1, e2⟩ := radix_inj (B := D) (by omega) (by omega) hwi
      subst e1
      have := hsameq q hq q' hq' r' h1 h2 a1 a2
      subst this
      rw [Fin.ext e2]
    · simp only at hwi
      have := hcellpos q' b ⟨hq', b1, b2⟩ d hd j'
      rw [Nat.add_assoc] at hwi
      obtain ⟨e1, e2⟩ := radix_inj (B := D) (by omega) (by omega) hwi
      omega
  have hcell : ∀ q b, OfEnergy x q b → ∀ d < x.deut.length, ∀ ptr, ePtr x.p x.Np (x.state (x.alpha b)) = some ptr → ∀ j : Fin 5,
      writeAll (fun _ => 0) ws.flatten (rowAt x s d b * D + (colAt x s d b + j)) = cellVals x ptr d b j := by
    intro q b hb d hd ptr hp j
    have hc := hcellpos q b hb d hd j
    refine hread _ _ ((hall _).2 ⟨q, hb.1, Or.inr ⟨d, hd, b, hb.2.1, hb.2.2, ptr, hp, j, by rw [Nat.add_assoc]⟩⟩) ?_
    intro w hw hwi
    obtain ⟨q', hq', ⟨r', a1, a2, j', rfl⟩ | ⟨d', hd', b', b1, b2, ptr', hp', j', rfl⟩⟩ := (hall w).1 hw
    · simp only at hwi
      have hj' := j'.2
      obtain ⟨e1, e2⟩ := radix_inj (B := D) (by omega) (by omega) hwi
      omega
    · simp only at hwi ⊢
      have hc' := hcellpos q' b' ⟨hq', b1, b2⟩ d' hd' j'
      rw [Nat.add_assoc] at hwi
      obtain ⟨e1, e2⟩ := radix_inj (B := D) (by omega) (by omega) hwi
      obtain ⟨k, hk, f1, f2⟩ := hcolk q b hb d hd
      obtain ⟨k', hk', f1', f2'⟩ := hcolk q' b' ⟨hq', b1, b2⟩ d' hd'
      have hj := j.2
      have hj' := j'.2
      have hkk : k = k' ∧ (j' : Nat) = j := by omega
      obtain ⟨rfl, hjj⟩ := hkk
      obtain ⟨rfl, rfl⟩ := hapart q b hb d hd q' b' ⟨hq', b1, b2⟩ d' hd' e1.symm (by omega)
      rw [hp] at hp'
      cases hp'
      rw [Fin.ext hjj]
  refine ⟨fun q => rows.getD q 0, rowAt x s, colAt x s, ?_⟩
  refine { first := S.zero, last := ?_, mono := S.mono, width := rfl, leadHeadings := ?_, lead := ?_, inside := ?_, headings := ?_, value := ?_, pairs := ?_, apart := hapart, blank := ?_, columns := ?_, full := ?_ }
  · show rows.getD x.nq 0 = rows.getLastD 0
    rw [List.getLastD_eq_getLast?, List.getLast?_eq_getElem?, S.len, List.getD_eq_getElem?_getD]
    rfl
  · show s.headers.take 5 = _
    rw [S.cols.headers, List.take_append_of_le_length (by rfl)]
    rfl
  · intro q hq r h1 h2
    exact ⟨hlead q hq r h1 h2 0, hlead q hq r h1 h2 1, hlead q hq r h1 h2 2, hlead q hq r h1 h2 3, hlead q hq r h1 h2 4⟩
  · intro q b hb d hd
    obtain ⟨pre, post, e1, e2, e3⟩ := hrowk q b hb d hd
    have h0 := hcellpos q b hb d hd 0
    have h4 := hcellpos q b hb d hd 4
    refine ⟨by omega, e3, by simpa using h0.1, ?_⟩
    have : ((4 : Fin 5) : Nat) = 4 := rfl
    show _ ≤ D
    omega
  · intro q b hb d hd
    obtain ⟨k, hk, f1, f2⟩ := hcolk q b hb d hd
    show (s.headers.drop _).take 5 = _
    rw [S.cols.headers, f2, show 5 * k + 5 = buHead0.length + 5 * k by rw [show buHead0.length = 5 from rfl]; ring, List.drop_length_add_append,
      flatMap_heads_at x pairs k hk, f1]
    rw [List.getD_eq_getElem?_getD, List.getElem?_eq_getElem hd]
    rfl
  · intro q b hb d hd
    obtain ⟨ptr, hp⟩ := hptr q b hb d hd
    have := hcell q b hb d hd ptr hp
    exact ⟨this 0, this 1, this 2, ptr, hp, this 3, this 4⟩
  · intro q b hb d hd q' b' hb' d' hd'
    obtain ⟨k, hk, f1, f2⟩ := hcolk q b hb d hd
    obtain ⟨k', hk', f1', f2'⟩ := hcolk q' b' hb' d' hd'
    constructor
    · intro ha hdd
      subst hdd
      have : pairs[k] = pairs[k'] := by rw [f1, f1', ha]
      have := (List.Nodup.getElem_inj_iff S.cols.nodup).1 this
      rw [f2, f2', this]
    · intro hne
      have hkk : k ≠ k' := by
        rintro rfl
        rw [f1] at f1'
        exact hne ⟨congrArg Prod.fst f1', hdinj d hd d' hd' (congrArg Prod.snd f1')⟩
      omega
  · intro r hr c hc5 hc hno
    show writeAll (fun _ => 0) ws.flatten (r * D + c) = 0
    have hcD : c < D := hc
    rw [writeAll_frame]
    intro w hw hwi
    obtain ⟨q', hq', ⟨r', a1, a2, j', rfl⟩ | ⟨d', hd', b', b1, b2, ptr', hp', j', rfl⟩⟩ := (hall w).1 hw
    · simp only at hwi
      have hj' := j'.2
      obtain ⟨e1, e2⟩ := radix_inj (B := D) (by omega) hcD hwi
      omega
    · simp only at hwi
      have hc' := hcellpos q' b' ⟨hq', b1, b2⟩ d' hd' j'
      rw [Nat.add_assoc] at hwi
      obtain ⟨e1, e2⟩ := radix_inj (B := D) (by omega) hcD hwi
      have hj' := j'.2
      exact hno q' b' ⟨hq', b1, b2⟩ d' hd' ⟨e1, by omega, by omega⟩
  · intro c hc5 hc
    have hcD : c < 5 + 5 * pairs.length := by rw [← hcols]; exact hc
    have hk : (c - 5) / 5 < pairs.length := by omega
    obtain ⟨q, hq, e, he, hpe⟩ := S.used _ (List.getElem_mem hk)
    obtain ⟨m1, m2, m3⟩ := mem_buEvents.1 he
    obtain ⟨d, hd, hde⟩ := List.mem_iff_getElem.1 m1
    have hgd : x.deut.getD d 0 = e.1 := by rw [List.getD_eq_getElem?_getD, List.getElem?_eq_getElem hd]; simpa using hde
    obtain ⟨k, hk', f1, f2⟩ := hcolk q e.2 ⟨hq, m2, m3⟩ d hd
    rw [hgd, ← hpe] at f1
    have := (List.Nodup.getElem_inj_iff S.cols.nodup).1 f1
    exact ⟨q, e.2, ⟨hq, m2, m3⟩, d, hd, by omega, by omega⟩
  · intro q hq r h1 h2
    obtain ⟨pre, e, post, p1, p2⟩ := S.full q hq r h1 h2
    have hm : e ∈ buEvents x q := by rw [p1]; simp
    obtain ⟨m1, m2, m3⟩ := mem_buEvents.1 hm
    obtain ⟨d, hd, hde⟩ := List.mem_iff_getElem.1 m1
    have hgd : x.deut.getD d 0 = e.1 := by rw [List.getD_eq_getElem?_getD, List.getElem?_eq_getElem hd]; simpa using hde
    refine ⟨e.2, ⟨hq, m2, m3⟩, d, hd, ?_⟩
    have h3 := (S.rowOf q hq pre e post p1).1
    unfold rowAt
    rw [hgd]
    have h4 : s.rowIdx.get (keyRow x e.2 e.1) = some (rows.getD q 0 + place x pre e) := h3
    rw [h4, p2]
    rfl

theorem optMapM_exists {α β : Type} {f : α → Option β} : ∀ {l : List α}, (∀ a ∈ l, ∃ b, f a = some b) → ∃ r, l.mapM f = some r
  | [], _ => ⟨[], by simp⟩
  | a :: l, h => by
    obtain ⟨b, hb⟩ := h a (by simp)
    obtain ⟨r, hr⟩ := optMapM_exists (l := l) fun a ha => h a (by simp [ha])
    exact ⟨b :: r, by simp [hb, hr]⟩

/-- The table is made when every recorded partial wave has a place among the energies. -/
theorem breakupTable_exists {x : BuInput} (h : ∀ q b, OfEnergy x q b → ∃ ptr, ePtr x.p x.Np (x.state (x.alpha b)) = some ptr) :
    ∃ t, breakupTable x = some t := by
  have hf : ∀ s rows cols, ∀ q ∈ List.range x.nq, ∃ l, buFill x s rows cols q = some l := by
    intro s rows cols q hq
    rw [List.mem_range] at hq
    have : ∃ cells, (x.deut.zipIdx.mapM fun da => (List.range' (x.off q) (x.off (q + 1) - x.off q)).mapM fun b => buCells x s cols da.2 da.1 b) = some cells := by
      apply optMapM_exists
      intro da _
      apply optMapM_exists
      intro b hb
      rw [List.mem_range'_1] at hb
      obtain ⟨ptr, hp⟩ := h q b ⟨hq, by omega, by omega⟩
      unfold buCells
      rw [hp]
      exact ⟨_, rfl⟩
    obtain ⟨cells, hc⟩ := this
    unfold buFill
    simp only [hc, bind, Option.bind, pure]
    exact ⟨_, rfl⟩
  obtain ⟨ws, hws⟩ := optMapM_exists (hf (buScan x).1 (buScan x).2 (buScan x).1.headers.length)
  unfold breakupTable
  simp only [hws, bind, Option.bind, pure]
  exact ⟨_, rfl⟩

/-- What a run hands over. -/
theorem run_facts {p : PWParams} (hv : ValidTruncation p) {w : PWSpace} (hw : constructPW p = some w) {chn : Nat} (hc : chn < w.nChn)
    (Np Nq : Nat) (q : Nat → ℝ) (hg : IsGrid Nq q) (qOut : Int → ℝ) (e : Bool → Int → ℝ) (Eb : ℝ) (hEb : -(Mn + Mp) < Eb) (inputs : List ℝ) (o : OnShell)
    (ho : findOnShell Nq q Eb inputs = .ok o) (v : List (Int × Int × Int)) (off : List Nat)
    (hbu : findBreakup p Np Nq q e Eb (w.block chn) o.Ecom = .ok (v, off)) (U : Nat → ℂ) :
    BuOk (buInputOf p (w.block chn) Np q qOut e ((findDeuteronChannels w).getD chn []) o v off U) ∧
    ∀ k b, OfEnergy (buInputOf p (w.block chn) Np q qOut e ((findDeuteronChannels w).getD chn []) o v off U) k b →
      (buInputOf p (w.block chn) Np q qOut e ((findDeuteronChannels w).getD chn []) o v off U).alpha b < (w.block chn).length ∧
      (∃ ptr, ePtr p Np ((buInputOf p (w.block chn) Np q qOut e ((findDeuteronChannels w).getD chn []) o v off U).state
        ((buInputOf p (w.block chn) Np q qOut e ((findDeuteronChannels w).getD chn []) o v off U).alpha b)) = some ptr) ∧ b < v.length := by
  set x := buInputOf p (w.block chn) Np q qOut e ((findDeuteronChannels w).getD chn []) o v off U with hx
  obtain ⟨deut, hdeut, hdl⟩ := deut_list hv hw hc
  obtain ⟨hTs, ⟨bins, hbs, hl1, hl2, hbin⟩, -, -, -⟩ := C39_on_shell_rows Nq q hg Eb hEb inputs o ho
  obtain ⟨o1, o2, o3, o4⟩ := C40_offsets p Np Nq q e Eb (w.block chn) o.Ecom v off hbu
  have hnq : x.nq = o.Ecom.length := by show o.Tlab.length = _; omega
  have hgetD : ∀ {k lo : Nat}, off[k]? = some lo → x.off k = lo := by
    intro k lo hk
    show off.getD k 0 = lo
    rw [List.getD_eq_getElem?_getD, hk]; rfl
  -- the cells of one energy
  have hcells : ∀ k (hk : k < o.Ecom.length), x.off k ≤ x.off (k + 1) ∧ x.off (k + 1) ≤ v.length ∧
      breakupEnergy p Np Nq q e Eb (w.block chn) o.Ecom[k] = .ok ((v.drop (x.off k)).take (x.off (k + 1) - x.off k)) := by
    intro k hk
    obtain ⟨lo, hi, a1, a2, a3, a4⟩ := o4 k hk
    rw [hgetD a1, hgetD a2]
    refine ⟨a3, ?_, a4⟩
    -- offsets grow up to the length of the vector
    have hmono : ∀ m, k + 1 ≤ m → m ≤ o.Ecom.length → x.off (k + 1) ≤ x.off m := by
      intro m hm
      induction m, hm using Nat.le_induction with
      | base => intro _; exact le_rfl
      | succ n hn ih =>
        intro hh
        obtain ⟨lo', hi', b1, b2, b3, -⟩ := o4 n (by omega)
        have := ih (by omega)
        rw [hgetD b1] at this
        rw [hgetD b2]
        omega
    have := hmono o.Ecom.length (by omega) le_rfl
    rw [hgetD a2, hgetD o3] at this
    exact this
  have hEcom : ∀ k k' (hk : k ≤ k') (hk' : k' < o.Ecom.length), o.Ecom[k] ≤ o.Ecom[k'] := by
    intro k k' hk hk'
    rcases Nat.eq_or_lt_of_le hk with rfl | hlt
    · exact le_rfl
    have b1 := (hbin k (by omega) (by omega) (by omega)).2.2
    have b2 := (hbin k' (by omega) (by omega) hk').2.2
    have hb := List.pairwise_iff_getElem.1 hbs k k' (by omega) (by omega) hlt
    have hlt1 := (hbin k' (by omega) (by omega) hk').1
    have hqm : ∀ a b, a ≤ b → b ≤ Nq → q a ≤ q b := by
      intro a b hab
      induction b, hab using Nat.le_induction with
      | base => intro _; exact le_rfl
      | succ n hn ih => intro hh; exact (ih (by omega)).trans (hg.2 n (by omega)).le
    have hE : ∀ a b, a ≤ b → b ≤ Nq → ndEnergy Eb (q a) ≤ ndEnergy Eb (q b) := by
      intro a b hab hb
      have h0 := grid_nonneg hg a (by omega)
      have h1 := hqm a b hab hb
      have hm : 0 < mu1 Eb := (mu1_pos hEb).2
      simp only [nd_unfold]
      gcongr
    rw [b1, b2]
    have c1 := hE bins[k] bins[k'] (by omega) (by omega)
    have c2 := hE (bins[k] + 1) (bins[k'] + 1) (by omega) (by omega)
    linarith
  have hempty : ∀ k (hk : k < o.Ecom.length), x.off k = x.off (k + 1) ↔ o.Ecom[k] + Eb < 0 := by
    intro k hk
    obtain ⟨a1, a2, a3⟩ := hcells k hk
    have hcc := C40_recorded_cells p Np Nq q e Eb o.Ecom[k] (w.block chn) _ a3
    constructor
    · intro heq
      by_contra hge
      exact (hcc.2 (not_lt.1 hge)).1 (by rw [heq, Nat.sub_self, List.take_zero])
    · intro hlt
      have := congrArg List.length (hcc.1 hlt)
      simp only [List.length_take, List.length_drop, List.length_nil] at this
      omega
  have hok : BuOk x := by
    refine { nodup := ?_, bound := ?_, mono := ?_, emptyFirst := ?_ }
    · show ((findDeuteronChannels w).getD chn []).Nodup
      rw [hdl]
      exact List.Nodup.map Fin.val_injective (hdeut.1.imp fun hab => ne_of_lt hab)
    · show ∀ ar ∈ (findDeuteronChannels w).getD chn [], ar < (w.block chn).length
      rw [hdl]
      intro ar har
      obtain ⟨d, -, rfl⟩ := List.mem_map.1 har
      exact d.2
    · intro k hk
      rw [hnq] at hk
      exact (hcells k hk).1
    · intro k k' hkk hk' he
      rw [hnq] at hk'
      have := (hempty k' hk').1 he
      exact (hempty k (by omega)).2 (by have := hEcom k k' hkk hk'; linarith)
  refine ⟨hok, ?_⟩
  · rintro k b ⟨hk, hb1, hb2⟩
    rw [hnq] at hk
    obtain ⟨a1, a2, a3⟩ := hcells k hk
    have hcc := C40_recorded_cells p Np Nq q e Eb o.Ecom[k] (w.block chn) _ a3
    have hge : 0 ≤ o.Ecom[k] + Eb := by
      by_contra hlt
      have := (hempty k hk).2 (not_le.1 hlt)
      omega
    have hbv : b < v.length := by omega
    have hmem : v[b] ∈ (v.drop (x.off k)).take (x.off (k + 1) - x.off k) := by
      rw [List.mem_iff_getElem]
      refine ⟨b - x.off k, by simp only [List.length_take, List.length_drop]; omega, ?_⟩
      simp only [List.getElem_take, List.getElem_drop]
      congr 1
      omega
    obtain ⟨a, ha, iq, hiq, ip, hip, t1, -, -, bb, n, hp, -⟩ := (hcc.2 hge).2.1 _ hmem
    have hal : x.alpha b = a := by
      show (v.getD b (0, 0, 0)).1.toNat = a
      rw [List.getD_eq_getElem?_getD, List.getElem?_eq_getElem hbv]
      simp [t1]
    rw [hal]
    refine ⟨ha, ⟨(bb, n), ?_⟩, hbv⟩
    show ePtr p Np ((w.block chn).getD a _) = _
    rw [List.getD_eq_getElem?_getD, List.getElem?_eq_getElem ha]
    exact hp

/-- In a run everything the table is made from is as required, so the table is made: the deuteron states and the partial waves are those of
one channel of the state space, the energies and cells those the program found. -/
theorem C81_run {p : PWParams} (hv : ValidTruncation p) {w : PWSpace} (hw : constructPW p = some w) {chn : Nat} (hc : chn < w.nChn)
    (Np Nq : Nat) (q : Nat → ℝ) (hg : IsGrid Nq q) (qOut : Int → ℝ) (e : Bool → Int → ℝ) (Eb : ℝ) (hEb : -(Mn + Mp) < Eb) (inputs : List ℝ) (o : OnShell)
    (ho : findOnShell Nq q Eb inputs = .ok o) (v : List (Int × Int × Int)) (off : List Nat)
    (hbu : findBreakup p Np Nq q e Eb (w.block chn) o.Ecom = .ok (v, off)) (U : Nat → ℂ) :
    ∃ t start row col, breakupTable (buInputOf p (w.block chn) Np q qOut e ((findDeuteronChannels w).getD chn []) o v off U) = some t ∧
      IsBreakupTable (buInputOf p (w.block chn) Np q qOut e ((findDeuteronChannels w).getD chn []) o v off U) t start row col ∧
      ListsRun p (w.block chn) Np Nq q e ((findDeuteronChannels w).getD chn []) o v off U t start row col := by
  obtain ⟨-, -, hq1, hq2, hqi⟩ := C39_on_shell_rows Nq q hg Eb hEb inputs o ho
  obtain ⟨-, ⟨bins, -, hT1, hT2, -⟩, -⟩ := C39_on_shell_rows Nq q hg Eb hEb inputs o ho
  obtain ⟨hok, hptr⟩ := run_facts hv hw hc Np Nq q hg qOut e Eb hEb inputs o ho v off hbu U
  obtain ⟨t, ht⟩ := breakupTable_exists fun k b hb => (hptr k b hb).2.1
  obtain ⟨start, row, col, hI⟩ := C81_breakup_table hok ht
  refine ⟨t, start, row, col, ht, hI, ?_, ?_⟩
  · intro k h1 r hr1 hr2
    obtain ⟨a1, a2, a3, a4, a5⟩ := hI.lead k h1 r hr1 hr2
    have i1 : k < o.qIdx.length := by omega
    have i2 : k < o.qcom.length := by omega
    have i3 : k < o.Ecom.length := by omega
    obtain ⟨b1, b2, b3⟩ := hqi k i1 i2
    refine ⟨o.Ecom[k], o.qcom[k], o.qIdx[k], List.getElem?_eq_getElem i3, List.getElem?_eq_getElem i2, b1, b2, b3, ?_, ?_, ?_, ?_, ?_⟩
    · rw [a1]; simp [buInputOf, h1]
    · rw [a2]; simp [buInputOf, i3]
    · rw [a3]; simp [buInputOf, i2]
    · rw [a4]; simp [buInputOf, i1]
    · rw [a5]; simp only [buInputOf, List.getD_eq_getElem?_getD, List.getElem?_eq_getElem i1, Option.getD_some]
      rw [if_pos (by omega)]
      congr 2
  · intro k hk b hb1 hb2 d hd
    obtain ⟨i1, -, hbv⟩ := hptr k b ⟨hk, hb1, hb2⟩
    obtain ⟨j1, j2, j3, j4⟩ := hI.inside k b ⟨hk, hb1, hb2⟩ d hd
    obtain ⟨c1, c2, c3, ptr, c4, c5, c6⟩ := hI.value k b ⟨hk, hb1, hb2⟩ d hd
    have hh := hI.headings k b ⟨hk, hb1, hb2⟩ d hd
    have hdb : ((findDeuteronChannels w).getD chn [])[d] < (w.block chn).length := hok.bound _ (List.getElem_mem hd)
    have hstate : ∀ i (hi : i < (w.block chn).length),
        (buInputOf p (w.block chn) Np q qOut e ((findDeuteronChannels w).getD chn []) o v off U).state i = (w.block chn)[i] := by
      intro i hi
      show (w.block chn).getD i _ = _
      rw [List.getD_eq_getElem?_getD, List.getElem?_eq_getElem hi]; rfl
    have hal : (buInputOf p (w.block chn) Np q qOut e ((findDeuteronChannels w).getD chn []) o v off U).alpha b = v[b].1.toNat := by
      show (v.getD b (0, 0, 0)).1.toNat = _
      rw [List.getD_eq_getElem?_getD, List.getElem?_eq_getElem hbv]; rfl
    have hqb : (buInputOf p (w.block chn) Np q qOut e ((findDeuteronChannels w).getD chn []) o v off U).qBin b = v[b].2.1 := by
      show (v.getD b (0, 0, 0)).2.1 = _
      rw [List.getD_eq_getElem?_getD, List.getElem?_eq_getElem hbv]; rfl
    have hpb : (buInputOf p (w.block chn) Np q qOut e ((findDeuteronChannels w).getD chn []) o v off U).pBin b = v[b].2.2 := by
      show (v.getD b (0, 0, 0)).2.2 = _
      rw [List.getD_eq_getElem?_getD, List.getElem?_eq_getElem hbv]; rfl
    have i1' := i1
    rw [hal] at i1'
    rw [hstate _ i1] at hh c4
    have hdst := hstate _ hdb
    refine ⟨j1, j2, v[b].1, v[b].2.1, v[b].2.2, (w.block chn)[v[b].1.toNat], _, ptr, List.getElem?_eq_getElem hbv, List.getElem?_eq_getElem i1',
      List.getElem?_eq_getElem hdb, ?_, ?_, c1, ?_, ?_, ?_⟩
    · simp only [hal] at c4; exact c4
    · have := congrArg (·[0]?) hh
      simp only [hal] at this
      rw [← hdst]
      have h2 : ((t.headers.drop (col d b)).take 5)[0]? = t.headers[col d b]? := by simp [List.getElem?_take, List.getElem?_drop]
      rw [← h2]
      exact this
    · intro h0
      rw [c2, c3, hqb]
      constructor
      · show ((if 0 ≤ v[b].2.1 then q v[b].2.1.toNat else qOut v[b].2.1 : ℝ) : ℂ) = _
        rw [if_pos h0]
      · show ((if 0 ≤ v[b].2.1 + 1 then q (v[b].2.1 + 1).toNat else qOut (v[b].2.1 + 1) : ℝ) : ℂ) = _
        rw [if_pos (by omega), show (v[b].2.1 + 1).toNat = v[b].2.1.toNat + 1 by omega]
    · rw [c5, hpb]; rfl
    · rw [c6, hpb, ← add_assoc]; rfl

/-- The search succeeds when it succeeds for each energy. -/
theorem findBreakup_ok (p : PWParams) (Np Nq : Nat) (q : Nat → ℝ) (e : Bool → Int → ℝ) (Eb : ℝ) (states : List PWState) (Ecom : List ℝ)
    (h : ∀ E ∈ Ecom, ∃ l, breakupEnergy p Np Nq q e Eb states E = .ok l) : ∃ r, findBreakup p Np Nq q e Eb states Ecom = .ok r := by
  unfold findBreakup
  generalize (([], [0]) : List (Int × Int × Int) × List Nat) = s
  induction Ecom generalizing s with
  | nil => exact ⟨s, rfl⟩
  | cons E Es ih =>
    obtain ⟨l, hl⟩ := h E (by simp)
    rw [List.foldlM_cons]
    simp only [hl, bind, Except.bind, pure, Except.pure]
    exact ih (fun E hE => h E (by simp [hE])) _

/-- Quantum numbers of the examples. -/
def buPar (iso : Bool) : PWParams := { J2max := 1, twoJ3max := 1, isoBreak := iso }

theorem buPar_space (iso : Bool) : (constructPW (buPar iso)).map (fun w => decide (0 < w.nChn) && decide (0 < (w.block 0).length) &&
    (w.block 0).all (fun s => decide ((ePtr (buPar iso) 3 s).map (fun x => x.2 % 4) = some 0)) &&
    decide ((findDeuteronChannels w).getD 0 [] ≠ [])) = some true := by
  cases iso <;> decide

/-- The hypotheses of C81 are satisfied: a run with three p bins and three q bins that records a cell for every partial wave of the channel. -/
theorem bu_example (iso : Bool) : ∃ w o v off, constructPW (buPar iso) = some w ∧ 0 < w.nChn ∧
    findOnShell 3 (fun i => 100 * i) (-2.2) [midT (fun i => 100 * i) (-2.2) 0] = .ok o ∧
    findBreakup (buPar iso) 3 3 (fun i => 100 * i) (fun _ i => ((i % 4 : Int) : ℝ)) (-2.2) (w.block 0) o.Ecom = .ok (v, off) ∧
    (findDeuteronChannels w).getD 0 [] ≠ [] ∧ 0 < (w.block 0).length ∧ 0 < o.Tlab.length ∧
    ∀ a < (w.block 0).length, ∃ b, off.getD 0 0 ≤ b ∧ b < off.getD 1 0 ∧ (v.getD b (0, 0, 0)).1.toNat = a := by
  have hg : IsGrid 3 (fun i : Nat => (100 * i : ℝ)) := ⟨by simp, fun i _ => by push_cast; linarith⟩
  have hEb : -(Mn + Mp) < (-2.2 : ℝ) := by norm_num [Mn, Mp]
  obtain ⟨o, ho, -, hl, -⟩ := C39_indices 3 (fun i => 100 * i) hg (by
    intro i hi; have : (i : ℝ) ≤ 2 := by exact_mod_cast (by omega : i ≤ 2)
    push_cast; nlinarith) (-2.2) (by norm_num) (by norm_num) [midT (fun i => 100 * i) (-2.2) 0]
  have hwc := buPar_space iso
  rw [Option.map_eq_some_iff] at hwc
  obtain ⟨w, hw, hwc⟩ := hwc
  simp only [Bool.and_eq_true, decide_eq_true_eq, List.all_eq_true] at hwc
  obtain ⟨⟨⟨c1, c2⟩, c3⟩, c4⟩ := hwc
  have hp4 : ∀ s ∈ w.block 0, ∃ b n, ePtr (buPar iso) 3 s = some (b, n) ∧ n % 4 = 0 := by
    intro s hs
    have := c3 s hs
    rw [Option.map_eq_some_iff] at this
    obtain ⟨⟨b, n⟩, h1, h2⟩ := this
    exact ⟨b, n, h1, h2⟩
  have hp : ∀ s ∈ w.block 0, ∃ x, ePtr (buPar iso) 3 s = some x := by
    intro s hs
    obtain ⟨b, n, h, -⟩ := hp4 s hs
    exact ⟨_, h⟩
  obtain ⟨-, ⟨bins, hbs, hl1, hl2, hbin⟩, -, -, -⟩ := C39_on_shell_rows 3 _ hg (-2.2) hEb _ o ho
  have hEv : ∀ k (hk : k < o.Ecom.length) (hkb : k < bins.length), 2.2 < o.Ecom[k] ∧ ndEnergy 0 (100 * (bins[k] : Nat)) ≤ o.Ecom[k] ∧
      o.Ecom[k] ≤ 1 + ndEnergy 0 (100 * ((bins[k] : Nat) + 1)) := by
    intro k hk hkb
    obtain ⟨hb, -, hE⟩ := hbin k (by omega) (by omega) hk
    rw [hE]
    unfold ndEnergy ndReducedMass
    generalize bins[k] = i at hb
    interval_cases i <;> norm_num
  have hhit : ∀ k (hk : k < o.Ecom.length) (hkb : k < bins.length) a (ha : a < (w.block 0).length),
      StateCellHit (buPar iso) 3 (fun i => 100 * i) (fun _ i => ((i % 4 : Int) : ℝ)) o.Ecom[k] (w.block 0)[a] bins[k] 0 := by
    intro k hk hkb a ha
    obtain ⟨-, e2, e3⟩ := hEv k hk hkb
    obtain ⟨b, n, h1, h2⟩ := hp4 _ (List.getElem_mem ha)
    have z : (n + (0 : Nat)) % 4 = 0 := by simpa using h2
    have z1 : (n + (0 : Nat) + 1) % 4 = 1 := by omega
    refine ⟨b, n, h1, ?_⟩
    unfold CellHit
    simp only [z, z1]
    push_cast
    exact ⟨by linarith, e3, le_rfl, by norm_num⟩
  have hE : ∀ k (hk : k < o.Ecom.length), ∃ l, breakupEnergy (buPar iso) 3 3 (fun i => 100 * i) (fun _ i => ((i % 4 : Int) : ℝ)) (-2.2) (w.block 0) o.Ecom[k] = .ok l := by
    intro k hk
    exact breakupEnergy_ok (buPar iso) 3 3 (fun i => 100 * i) (fun _ i => ((i % 4 : Int) : ℝ)) (-2.2) o.Ecom[k] (w.block 0) hp 0 c2 bins[k]
      (hbin k (by omega) (by omega) hk).1 0 (by norm_num) (hhit k hk (by omega) 0 c2)
  obtain ⟨⟨v, off⟩, hbu⟩ := findBreakup_ok (buPar iso) 3 3 (fun i => 100 * i) (fun _ i => ((i % 4 : Int) : ℝ)) (-2.2) (w.block 0) o.Ecom (by
    intro E hE'
    obtain ⟨k, hk, rfl⟩ := List.mem_iff_getElem.1 hE'
    exact hE k hk)
  have hmem : 0 ∈ onShellBins 3 (fun i : Nat => (100 * i : ℝ)) (-2.2) [midT (fun i => 100 * i) (-2.2) 0] :=
    (mem_onShellBins _ _ _ _ _).2 ⟨by norm_num, _, List.mem_singleton.2 rfl, Or.inl ⟨by norm_num, le_rfl, (midT_strict hg hEb 0 1 (by norm_num) (by norm_num)).le⟩⟩
  have hposT : 0 < o.Tlab.length := by
    rw [(findOnShell_ok ho).1, List.length_map]
    exact List.length_pos_of_mem hmem
  have hpos : 0 < o.Ecom.length := by omega
  refine ⟨w, o, v, off, hw, c1, ho, hbu, c4, c2, hposT, ?_⟩
  intro a ha
  obtain ⟨-, -, -, h4⟩ := C40_offsets _ _ _ _ _ _ _ _ _ _ hbu
  obtain ⟨lo, hi, g1, g2, -, hh⟩ := h4 0 hpos
  have hin := ((C40_recorded_cells _ _ _ _ _ _ _ _ _ hh).2 (by have := (hEv 0 hpos (by omega)).1; linarith)).2.2 a ha bins[0]
    (hbin 0 (by omega) (by omega) hpos).1 0 (by norm_num) (hhit 0 hpos (by omega) a ha)
  obtain ⟨i, hi1, hi2⟩ := List.mem_iff_getElem.1 hin
  simp only [List.length_take, List.length_drop] at hi1
  simp only [List.getElem_take, List.getElem_drop] at hi2
  refine ⟨lo + i, ?_, ?_, ?_⟩
  · rw [List.getD_eq_getElem?_getD, g1]; simp
  · rw [List.getD_eq_getElem?_getD, g2]; simp; omega
  · rw [List.getD_eq_getElem?_getD, List.getElem?_eq_getElem (by omega), Option.getD_some, hi2]
    rfl

/-! ### C82: do the headings identify the partial waves? -/

theorem comma_notMem_dec (n : Int) : ',' ∉ dec n := by
  intro h
  rcases dec_chars h with h | h <;> revert h <;> decide

theorem bar_notMem_dec (n : Int) : '|' ∉ dec n := by
  intro h
  rcases dec_chars h with h | h <;> revert h <;> decide

theorem gt_notMem_dec (n : Int) : '>' ∉ dec n := by
  intro h
  rcases dec_chars h with h | h <;> revert h <;> decide

/-- A heading determines the seven numbers in it. -/
theorem buLabel_inj {x : BuInput} {ac ar ac' ar' : Nat} (h : buLabel x ac ar = buLabel x ac' ar') :
    (x.state ac).L = (x.state ac').L ∧ (x.state ac).S = (x.state ac').S ∧ (x.state ac).J = (x.state ac').J ∧ (x.state ac).l = (x.state ac').l ∧
    (x.state ac).twoj = (x.state ac').twoj ∧ (x.state ar).l = (x.state ar').l ∧ (x.state ar).twoj = (x.state ar').twoj := by
  unfold buLabel at h
  simp only [List.append_assoc] at h
  have e1 : ∀ r : Str, "<".toList ++ r = '<' :: r := fun _ => rfl
  have e2 : ∀ r : Str, ",".toList ++ r = ',' :: r := fun _ => rfl
  have e3 : ∀ r : Str, "|U|".toList ++ r = '|' :: 'U' :: '|' :: r := fun _ => rfl
  have e4 : ">".toList = '>' :: [] := rfl
  simp only [e1, e2, e3, e4] at h
  have h := (List.cons.inj h).2
  have sep : ∀ {m n : Int} {r s : Str}, dec m ++ ',' :: r = dec n ++ ',' :: s → m = n ∧ r = s := by
    intro m n r s h
    obtain ⟨h1, h2⟩ := sep_inj (comma_notMem_dec m) (comma_notMem_dec n) h
    exact ⟨dec_inj h1, h2⟩
  obtain ⟨a1, h⟩ := sep h
  obtain ⟨a2, h⟩ := sep h
  obtain ⟨a3, h⟩ := sep h
  obtain ⟨a4, h⟩ := sep h
  obtain ⟨a5, h⟩ := sep_inj (bar_notMem_dec _) (bar_notMem_dec _) h
  have h := (List.cons.inj (List.cons.inj h).2).2
  obtain ⟨a6, h⟩ := sep h
  obtain ⟨a7, -⟩ := sep_inj (gt_notMem_dec _) (gt_notMem_dec _) h
  exact ⟨a1, a2, a3, a4, dec_inj a5, a6, dec_inj a7⟩

/-- Without isospin breaking the isospins follow from the other quantum numbers. -/
theorem allowed_ext {J2 J3 : Int} {s s' : PWState} (A : Allowed J2 J3 false s) (B : Allowed J2 J3 false s') (g1 : s.L = s'.L) (g2 : s.S = s'.S)
    (g3 : s.J = s'.J) (g4 : s.l = s'.l) (g5 : s.twoj = s'.twoj) (g6 : s.twoJ3 = s'.twoJ3) (g7 : s.P = s'.P) : s = s' := by
  obtain ⟨-, At, -, -, -, -, Ap, -, -, -, -, Ai⟩ := A
  obtain ⟨-, Bt, -, -, -, -, Bp, -, -, -, -, Bi⟩ := B
  unfold Couples at At Bt
  have hT3 : s.twoT3 = s'.twoT3 := by simp at Ai Bi; rw [Ai, Bi]
  have hT : s.T = s'.T := by
    clear Ai Bi
    omega
  cases s; cases s'
  simp only at *
  subst g1 g2 g3 g4 g5 g6 g7 hT3 hT
  rfl

/-- **C82, partial**: without isospin breaking no two columns of amplitudes have the same heading. -/
theorem C82_headings_distinct {p : PWParams} (hv : ValidTruncation p) (hiso : p.isoBreak = false) {w : PWSpace} (hw : constructPW p = some w)
    {chn : Nat} (hc : chn < w.nChn) (Np Nq : Nat) (q : Nat → ℝ) (hg : IsGrid Nq q) (qOut : Int → ℝ) (e : Bool → Int → ℝ) (Eb : ℝ)
    (hEb : -(Mn + Mp) < Eb) (inputs : List ℝ) (o : OnShell) (ho : findOnShell Nq q Eb inputs = .ok o) (v : List (Int × Int × Int)) (off : List Nat)
    (hbu : findBreakup p Np Nq q e Eb (w.block chn) o.Ecom = .ok (v, off)) (U : Nat → ℂ) (t : BuTable)
    (ht : breakupTable (buInputOf p (w.block chn) Np q qOut e ((findDeuteronChannels w).getD chn []) o v off U) = some t)
    (c c' : Nat) (label : Str) (h1 : t.headers[c]? = some (true, label)) (h2 : t.headers[c']? = some (true, label)) : c = c' := by
  obtain ⟨hok, hst⟩ := run_facts hv hw hc Np Nq q hg qOut e Eb hEb inputs o ho v off hbu U
  obtain ⟨start, row, col, I⟩ := C81_breakup_table hok ht
  obtain ⟨deut, hdeut, hdl⟩ := deut_list hv hw hc
  have hch := (block_channel hv hw hc).1
  set x := buInputOf p (w.block chn) Np q qOut e ((findDeuteronChannels w).getD chn []) o v off U with hx
  -- the column of a heading
  have key : ∀ c, t.headers[c]? = some (true, label) → ∃ q b, OfEnergy x q b ∧ ∃ d, ∃ hd : d < x.deut.length, c = col d b ∧ label = buLabel x (x.alpha b) x.deut[d] := by
    intro c hcc
    have hlt : c < t.cols := by rw [← I.width]; exact (List.getElem?_eq_some_iff.1 hcc).1
    have h5 : 5 ≤ c := by
      by_contra hlt5
      have hg5 : (t.headers.take 5)[c]? = some (true, label) := by rw [List.getElem?_take_of_lt (by omega)]; exact hcc
      rw [I.leadHeadings] at hg5
      have : c = 0 ∨ c = 1 ∨ c = 2 ∨ c = 3 ∨ c = 4 := by omega
      rcases this with rfl | rfl | rfl | rfl | rfl <;> simp at hg5
    obtain ⟨qq, b, hb, d, hd, l1, l2⟩ := I.columns c h5 hlt
    have hh : (t.headers.drop (col d b)).take 5 = (true, buLabel x (x.alpha b) x.deut[d]) :: _ := I.headings qq b hb d hd
    have hg5 : ((t.headers.drop (col d b)).take 5)[c - col d b]? = some (true, label) := by
      rw [List.getElem?_take_of_lt (by omega), List.getElem?_drop, show col d b + (c - col d b) = c by omega]; exact hcc
    rw [hh] at hg5
    have : c = col d b ∨ c - col d b = 1 ∨ c - col d b = 2 ∨ c - col d b = 3 ∨ c - col d b = 4 := by omega
    rcases this with he | he | he | he | he
    · refine ⟨qq, b, hb, d, hd, he, ?_⟩
      rw [he, Nat.sub_self] at hg5
      simpa using hg5.symm
    all_goals (rw [he] at hg5; simp at hg5)
  obtain ⟨q1, b1, o1, d1, hd1, rfl, l1⟩ := key c h1
  obtain ⟨q2, b2, o2, d2, hd2, rfl, l2⟩ := key c' h2
  obtain ⟨a1, a2, a3, a4, a5, a6, a7⟩ := buLabel_inj (l1.symm.trans l2)
  -- two states of the channel that agree in the printed numbers are the same
  have hstate : ∀ i (hi : i < (w.block chn).length), x.state i = (w.block chn)[i] := by
    intro i hi
    show (w.block chn).getD i _ = _
    rw [List.getD_eq_getElem?_getD, List.getElem?_eq_getElem hi]; rfl
  have same : ∀ i (_ : i < (w.block chn).length) j (_ : j < (w.block chn).length), (x.state i).L = (x.state j).L → (x.state i).S = (x.state j).S →
      (x.state i).J = (x.state j).J → (x.state i).l = (x.state j).l → (x.state i).twoj = (x.state j).twoj → i = j := by
    intro i hi j hj g1 g2 g3 g4 g5
    rw [hstate i hi, hstate j hj] at g1 g2 g3 g4 g5
    apply (List.Nodup.getElem_inj_iff hch.1).1
    obtain ⟨A, A1, A2⟩ := (hch.2 _).1 (List.getElem_mem hi)
    obtain ⟨B, B1, B2⟩ := (hch.2 _).1 (List.getElem_mem hj)
    exact allowed_ext (hiso ▸ A) (hiso ▸ B) g1 g2 g3 g4 g5 (A1.trans B1.symm) (A2.trans B2.symm)
  have hal := same _ (hst q1 b1 o1).1 _ (hst q2 b2 o2).1 a1 a2 a3 a4 a5
  have hdmem : ∀ d (hd : d < x.deut.length), ∃ h : x.deut[d] < (w.block chn).length, IsDeuteronS (x.state x.deut[d]) := by
    intro d hd
    have hm : x.deut[d] ∈ deut.map (·.val) := by
      have := List.getElem_mem hd
      exact hdl ▸ this
    obtain ⟨a, ha, hav⟩ := List.mem_map.1 hm
    refine ⟨hav ▸ a.2, ?_⟩
    rw [← hav, hstate a.val a.2]
    exact (hdeut.2 a).1 ha
  obtain ⟨k1, D1⟩ := hdmem d1 hd1
  obtain ⟨k2, D2⟩ := hdmem d2 hd2
  have hdd := same _ k1 _ k2 (D1.1.trans D2.1.symm) (D1.2.1.trans D2.2.1.symm) (D1.2.2.trans D2.2.2.symm) a6 a7
  have hdeq : d1 = d2 := (List.Nodup.getElem_inj_iff hok.nodup).1 hdd
  exact (I.pairs q1 b1 o1 d1 hd1 q2 b2 o2 d2 hd2).1 hal hdeq

/-- **C82 fails** with isospin breaking: the total isospin is not part of the heading, so as soon as amplitudes to two partial waves are
recorded that differ in the total isospin only, two different columns have the same heading. -/
theorem C82_same_heading {x : BuInput} (h : BuOk x) {t : BuTable} (ht : breakupTable x = some t) {q q' b b' d : Nat} (hb : OfEnergy x q b)
    (hb' : OfEnergy x q' b') (hd : d < x.deut.length) (hne : x.alpha b ≠ x.alpha b')
    (hs : { x.state (x.alpha b) with twoT3 := 0 } = { x.state (x.alpha b') with twoT3 := 0 }) :
    ∃ (c c' : Nat) (label : Str), c ≠ c' ∧ t.headers[c]? = some (true, label) ∧ t.headers[c']? = some (true, label) := by
  obtain ⟨start, row, col, I⟩ := C81_breakup_table h ht
  have hh : (t.headers.drop (col d b)).take 5 = (true, buLabel x (x.alpha b) x.deut[d]) :: _ := I.headings q b hb d hd
  have hh' : (t.headers.drop (col d b')).take 5 = (true, buLabel x (x.alpha b') x.deut[d]) :: _ := I.headings q' b' hb' d hd
  have hp := (I.pairs q b hb d hd q' b' hb' d hd).2 (fun hx => hne hx.1)
  have hl : buLabel x (x.alpha b) x.deut[d] = buLabel x (x.alpha b') x.deut[d] := by
    unfold buLabel
    simp only [PWState.mk.injEq] at hs
    obtain ⟨e1, e2, e3, e4, e5, e6, -⟩ := hs
    simp only [e1, e2, e3, e5, e6]
  refine ⟨col d b, col d b', buLabel x (x.alpha b) x.deut[d], by omega, ?_, ?_⟩
  · have := congrArg (·[0]?) hh
    simpa [List.getElem?_take, List.getElem?_drop] using this
  · have := congrArg (·[0]?) hh'
    rw [hl]
    simpa [List.getElem?_take, List.getElem?_drop] using this

/-- Two 1S0 states of the channel 1/2+ that differ in the total isospin only. -/
theorem buPar_pair : (constructPW (buPar true)).map (fun w => (List.range (w.block 0).length).any fun i => (List.range (w.block 0).length).any fun j =>
    decide (i ≠ j) && decide (({ (w.block 0).getD i ⟨0, 0, 0, 0, 0, 0, 0, 0, 0⟩ with twoT3 := 0 } : PWState) =
      { (w.block 0).getD j ⟨0, 0, 0, 0, 0, 0, 0, 0, 0⟩ with twoT3 := 0 })) = some true := by decide

/-- With isospin breaking there is a run whose table has two columns of amplitudes with the same heading. -/
theorem C82_example : ∃ w o v off t, constructPW (buPar true) = some w ∧ 0 < w.nChn ∧
    findOnShell 3 (fun i => 100 * i) (-2.2) [midT (fun i => 100 * i) (-2.2) 0] = .ok o ∧
    findBreakup (buPar true) 3 3 (fun i => 100 * i) (fun _ i => ((i % 4 : Int) : ℝ)) (-2.2) (w.block 0) o.Ecom = .ok (v, off) ∧
    breakupTable (buInputOf (buPar true) (w.block 0) 3 (fun i => 100 * i) (fun _ => 0) (fun _ i => ((i % 4 : Int) : ℝ)) ((findDeuteronChannels w).getD 0 [])
      o v off fun _ => 0) = some t ∧
    ∃ (c c' : Nat) (label : Str), c ≠ c' ∧ t.headers[c]? = some (true, label) ∧ t.headers[c']? = some (true, label) := by
  obtain ⟨w, o, v, off, hw, hc, ho, hbu, hd, h0, hT, hall⟩ := bu_example true
  have hg : IsGrid 3 (fun i : Nat => (100 * i : ℝ)) := ⟨by simp, fun i _ => by push_cast; linarith⟩
  have hEb : -(Mn + Mp) < (-2.2 : ℝ) := by norm_num [Mn, Mp]
  have hv : ValidTruncation (buPar true) := by unfold ValidTruncation buPar; simp
  obtain ⟨hok, hst⟩ := run_facts hv hw hc 3 3 _ hg (fun _ => 0) _ (-2.2) hEb _ o ho v off hbu fun _ => 0
  obtain ⟨t, ht⟩ := breakupTable_exists fun k b hb => (hst k b hb).2.1
  have hpair := buPar_pair
  rw [hw, Option.map_some, Option.some.injEq] at hpair
  simp only [List.any_eq_true, List.mem_range, Bool.and_eq_true, decide_eq_true_eq] at hpair
  obtain ⟨i, hi, j, hj, hne, hs⟩ := hpair
  obtain ⟨b, b1, b2, b3⟩ := hall i hi
  obtain ⟨b', b1', b2', b3'⟩ := hall j hj
  refine ⟨w, o, v, off, t, hw, hc, ho, hbu, ht, C82_same_heading hok ht (q := 0) (q' := 0) (b := b) (b' := b') (d := 0) ⟨hT, b1, b2⟩ ⟨hT, b1', b2'⟩ ?_ ?_ ?_⟩
  · exact List.length_pos_of_ne_nil hd
  · show (v.getD b (0, 0, 0)).1.toNat ≠ (v.getD b' (0, 0, 0)).1.toNat
    rw [b3, b3']; exact hne
  · show ({ (w.block 0).getD (v.getD b (0, 0, 0)).1.toNat _ with twoT3 := 0 } : PWState) = { (w.block 0).getD (v.getD b' (0, 0, 0)).1.toNat _ with twoT3 := 0 }
    rw [b3, b3']; exact hs

/-! ### C83: bins of negative pair energy -/

/-- In the lower half of a selected cell the next lower p bin is recorded as well. -/
theorem lower_neighbour (p : PWParams) (Np Nq : Nat) (q : Nat → ℝ) (e : Bool → Int → ℝ) (Eb Ecom : ℝ) (states : List PWState)
    (l : List (Int × Int × Int)) (h : breakupEnergy p Np Nq q e Eb states Ecom = .ok l) (h0 : 0 ≤ Ecom + Eb)
    (a : Nat) (ha : a < states.length) (iq : Nat) (hiq : iq < Nq) (ip : Nat) (hip : ip < Np) (b : Bool) (n : Int) (hp : ePtr p Np states[a] = some (b, n))
    (he0 : 0 ≤ e b (n + ip)) (he1 : e b (n + ip) ≤ e b (n + ip + 1)) (hq : q iq ^ 2 ≤ q (iq + 1) ^ 2)
    (hlo : e b (n + ip) + ndEnergy 0 (q iq) ≤ Ecom) (hhi : Ecom < e b (n + ip) + (ndEnergy 0 (q iq) + ndEnergy 0 (q (iq + 1))) / 2) :
    ((a : Int), (iq : Int), (ip : Int) - 1) ∈ breakupCell Ecom (ndEnergy 0 (q iq)) (ndEnergy 0 (q (iq + 1))) (e b (n + ip)) (e b (n + ip + 1)) a iq ip := by
  classical
  have hm : (0:ℝ) < mu1Free := by unfold mu1Free Mn Mp; norm_num
  have hqE : ndEnergy 0 (q iq) ≤ ndEnergy 0 (q (iq + 1)) := by
    rw [← freeSpectatorE_eq, ← freeSpectatorE_eq]
    unfold freeSpectatorE
    apply div_le_div_of_nonneg_right _ hm.le
    nlinarith
  generalize ndEnergy 0 (q iq) = ql at *
  generalize ndEnergy 0 (q (iq + 1)) = qu at *
  generalize e b (n + ip) = pl at *
  generalize e b (n + ip + 1) = pu at *
  unfold breakupCell
  rw [if_pos ⟨hlo, by linarith, he0, by linarith⟩]
  refine List.mem_cons_of_mem _ ?_
  rw [if_neg (show ¬ (0.5 * (qu + ql) + 0.5 * (pu + pl) ≤ Ecom ∧ Ecom ≤ pu + qu) by intro hx; linarith),
    if_neg (show ¬ (0.5 * (qu + ql) + pl ≤ Ecom ∧ Ecom ≤ 0.5 * (pu + pl) + qu) by intro hx; linarith),
    if_pos (show pl + ql ≤ Ecom ∧ Ecom ≤ 0.5 * (qu + ql) + 0.5 * (pu + pl) by constructor <;> linarith)]
  rw [mem_squareNeighbours]
  simp

/-- **C83 fails.** When the first bin of a partial wave is the bound state (from a negative energy to 0) and the energy lies in the lower half
of a cell with the second bin, the bound-state bin is recorded as a breakup cell; its lower boundary is a negative pair energy, for which no
relative momentum exists. -/
theorem C83_bound_bin_recorded (p : PWParams) (Np Nq : Nat) (q : Nat → ℝ) (e : Bool → Int → ℝ) (Eb Ecom : ℝ) (states : List PWState)
    (l : List (Int × Int × Int)) (h : breakupEnergy p Np Nq q e Eb states Ecom = .ok l) (h0 : 0 ≤ Ecom + Eb)
    (a : Nat) (ha : a < states.length) (iq : Nat) (hiq : iq < Nq) (hNp : 1 < Np) (b : Bool) (n : Int) (hp : ePtr p Np states[a] = some (b, n))
    (he0 : e b n < 0) (he1 : e b (n + 1) = 0) (he2 : 0 ≤ e b (n + 2)) (hq : q iq ^ 2 ≤ q (iq + 1) ^ 2)
    (hlo : ndEnergy 0 (q iq) ≤ Ecom) (hhi : Ecom < (ndEnergy 0 (q iq) + ndEnergy 0 (q (iq + 1))) / 2) :
    ∃ t ∈ l, t.1 = a ∧ 0 ≤ t.2.2 ∧ t.2.2 < Np ∧ e b (n + t.2.2) < 0 := by
  refine ⟨((a : Int), (iq : Int), (0 : Int)), ?_, rfl, le_rfl, by simp only; omega, by simpa using he0⟩
  have e2 : n + ((1 : Nat) : Int) + 1 = n + 2 := by push_cast; ring
  have := lower_neighbour p Np Nq q e Eb Ecom states l h h0 a ha iq hiq 1 hNp b n hp (by rw [show n + ((1 : Nat) : Int) = n + 1 from rfl, he1])
    (by rw [e2, show n + ((1 : Nat) : Int) = n + 1 from rfl, he1]; exact he2) hq (by rw [show n + ((1 : Nat) : Int) = n + 1 from rfl, he1]; linarith)
    (by rw [show n + ((1 : Nat) : Int) = n + 1 from rfl, he1]; linarith)
  exact (breakupEnergy_mem h h0 _).2 ⟨a, ha, (b, n), hp, mem_breakupState.2 ⟨iq, hiq, 1, hNp, this⟩⟩

/-- a recorded bin with a boundary of negative energy is never on shell itself; it is the lower neighbour of one that is. -/
theorem negative_is_neighbour (p : PWParams) (Np Nq : Nat) (q : Nat → ℝ) (e : Bool → Int → ℝ) (Eb Ecom : ℝ) (states : List PWState)
    (l : List (Int × Int × Int)) (h : breakupEnergy p Np Nq q e Eb states Ecom = .ok l) (t : Int × Int × Int) (ht : t ∈ l) (a : Nat) (ha : a < states.length)
    (hta : t.1 = a) (b : Bool) (n : Int) (hp : ePtr p Np states[a] = some (b, n)) (hneg : e b (n + t.2.2) < 0) :
    ∃ iq < Nq, ∃ ip < Np, StateCellHit p Np q e Ecom states[a] iq ip ∧ t.2.2 = (ip : Int) - 1 ∧ |t.2.1 - (iq : Int)| ≤ 1 := by
  have hcc := C40_recorded_cells p Np Nq q e Eb Ecom states l h
  have h0 : 0 ≤ Ecom + Eb := by
    by_contra hlt
    rw [hcc.1 (not_le.1 hlt)] at ht
    simp at ht
  obtain ⟨a', ha', iq, hiq, ip, hip, t1, t2, t3, hit⟩ := (hcc.2 h0).2.1 t ht
  have : a' = a := by rw [hta] at t1; exact_mod_cast t1.symm
  subst this
  refine ⟨iq, hiq, ip, hip, hit, ?_, t2⟩
  obtain ⟨b', n', hp', -, -, g1, g2⟩ := hit
  rw [hp] at hp'
  cases hp'
  rw [abs_le] at t3
  have : t.2.2 = (ip : Int) - 1 ∨ t.2.2 = ip ∨ t.2.2 = (ip : Int) + 1 := by omega
  rcases this with he | he | he
  · exact he
  · rw [he] at hneg; linarith
  · rw [he, ← add_assoc] at hneg; linarith

/-- The situation occurs: deuteron channel with boundaries -2, 0, 1, 2 MeV. -/
example : ∃ l, breakupEnergy (buPar false) 3 1 (fun i => 1000 * i) (fun _ i => if i % 4 = 0 then -2 else ((i % 4 - 1 : Int) : ℝ)) (-2)
    [⟨0, 1, 1, 0, 0, 1, 1, 1, 1⟩] 3 = .ok l ∧ ((0 : Int), (0 : Int), (0 : Int)) ∈ l := by
  have hm : ndEnergy 0 0 = 0 := by unfold ndEnergy; simp
  have hM : (500 : ℝ) < ndEnergy 0 1000 := by unfold ndEnergy ndReducedMass; norm_num
  have hptr : ePtr (buPar false) 3 ⟨0, 1, 1, 0, 0, 1, 1, 1, 1⟩ = some (true, 0) := by decide
  obtain ⟨l, hl⟩ := breakupEnergy_ok (buPar false) 3 1 (fun i => 1000 * i) (fun _ i => if i % 4 = 0 then -2 else ((i % 4 - 1 : Int) : ℝ)) (-2)
    3 [⟨0, 1, 1, 0, 0, 1, 1, 1, 1⟩] (by simp [hptr]) 0 (by simp) 0 (by norm_num) 1 (by norm_num)
    ⟨true, 0, hptr, by unfold CellHit; norm_num [hm]; linarith⟩
  refine ⟨l, hl, ?_⟩
  have := lower_neighbour (buPar false) 3 1 (fun i => 1000 * i) (fun _ i => if i % 4 = 0 then -2 else ((i % 4 - 1 : Int) : ℝ)) (-2) 3
    [⟨0, 1, 1, 0, 0, 1, 1, 1, 1⟩] l hl (by norm_num) 0 (by simp) 0 (by norm_num) 1 (by norm_num) true 0 hptr
    (by norm_num) (by norm_num) (by norm_num) (by norm_num [hm]) (by norm_num [hm]; linarith)
  exact (breakupEnergy_mem hl (by norm_num) _).2 ⟨0, by simp, (true, 0), hptr, mem_breakupState.2 ⟨0, by norm_num, 1, by norm_num, this⟩⟩

/-! ### C84: cells recorded more than once -/

/-- **C84 fails.** When two neighbouring p bins are both on shell and the energy is in the lower half of the upper one, the lower one is
recorded twice for the same energy. -/
theorem C84_cell_listed_twice (p : PWParams) (Np Nq : Nat) (q : Nat → ℝ) (e : Bool → Int → ℝ) (Eb Ecom : ℝ) (states : List PWState)
    (l : List (Int × Int × Int)) (h : breakupEnergy p Np Nq q e Eb states Ecom = .ok l) (h0 : 0 ≤ Ecom + Eb)
    (a : Nat) (ha : a < states.length) (iq : Nat) (hiq : iq < Nq) (ip : Nat) (hip : ip + 1 < Np) (hhit : StateCellHit p Np q e Ecom states[a] iq ip)
    (b : Bool) (n : Int) (hp : ePtr p Np states[a] = some (b, n))
    (he0 : 0 ≤ e b (n + (ip + 1 : Nat))) (he1 : e b (n + (ip + 1 : Nat)) ≤ e b (n + (ip + 1 : Nat) + 1)) (hq : q iq ^ 2 ≤ q (iq + 1) ^ 2)
    (hlo : e b (n + (ip + 1 : Nat)) + ndEnergy 0 (q iq) ≤ Ecom)
    (hhi : Ecom < e b (n + (ip + 1 : Nat)) + (ndEnergy 0 (q iq) + ndEnergy 0 (q (iq + 1))) / 2) :
    2 ≤ l.count ((a : Int), (iq : Int), (ip : Int)) := by
  classical
  have h2 := lower_neighbour p Np Nq q e Eb Ecom states l h h0 a ha iq hiq (ip + 1) hip b n hp he0 he1 hq hlo hhi
  rw [show ((ip + 1 : Nat) : Int) - 1 = ip by push_cast; ring] at h2
  obtain ⟨b', n', hp', hc⟩ := hhit
  rw [hp] at hp'
  cases hp'
  have h1 := centre_mem_breakupCell (a : Int) (iq : Int) (ip : Int) hc
  -- both cells' lists are consecutive parts of the list
  set f : Nat → List (Int × Int × Int) := fun i =>
    breakupCell Ecom (ndEnergy 0 (q iq)) (ndEnergy 0 (q (iq + 1))) (e b (n + i)) (e b (n + i + 1)) a iq i with hf
  have s1 : List.Sublist [ip, ip + 1] (List.range Np) := by
    have : List.Sublist (List.range (ip + 2)) (List.range Np) := List.range_sublist.2 (by omega)
    refine List.Sublist.trans ?_ this
    rw [List.range_succ, List.range_succ, List.append_assoc]
    exact List.sublist_append_right _ _
  have s2 : List.Sublist (f ip ++ f (ip + 1)) ((List.range Np).flatMap f) := by
    have := s1.flatMap f
    simpa using this
  have s3 : List.Sublist ((List.range Np).flatMap f) (breakupState Np Nq q e Ecom a (b, n)) := by
    simp only [breakupState_nd]
    have := (List.singleton_sublist.2 (List.mem_range.2 hiq)).flatMap fun (iq : Nat) => (List.range Np).flatMap fun (ip : Nat) =>
      breakupCell Ecom (ndEnergy 0 (q iq)) (ndEnergy 0 (q (iq + 1))) (e b (n + ip)) (e b (n + ip + 1)) a iq ip
    simpa using this
  have s4 : List.Sublist (breakupState Np Nq q e Ecom a (b, n)) l := by
    unfold breakupEnergy at h
    rw [if_neg (not_lt.2 h0)] at h
    split at h
    · simp at h
    · rename_i ls hls
      split at h
      · simp at h
      · simp only [Except.ok.injEq] at h
        subst h
        obtain ⟨l', hl', he⟩ := (optMapM_mem hls).2 (states[a], a) (by
          rw [List.mem_zipIdx_iff_getElem?]
          exact List.getElem?_eq_getElem ha)
        simp only [hp, Option.map_some, Option.some.injEq] at he
        rw [he]
        exact List.sublist_flatten_of_mem hl'
  have hsub := (s2.trans s3).trans s4
  have := hsub.count_le ((a : Int), (iq : Int), (ip : Int))
  rw [List.count_append] at this
  have c1 : 0 < (f ip).count ((a : Int), (iq : Int), (ip : Int)) := List.count_pos_iff.2 h1
  have c2 : 0 < (f (ip + 1)).count ((a : Int), (iq : Int), (ip : Int)) := List.count_pos_iff.2 h2
  omega

/-- what is recorded on account of one cell is recorded once. -/
theorem one_cell_distinct (E Eql Equ Epl Epu : ℝ) (a iq ip : Int) : (breakupCell E Eql Equ Epl Epu a iq ip).Nodup := by
  classical
  have hn : ∀ p0 q0, (squareNeighbours a iq ip p0 q0).Nodup := by
    intro p0 q0
    unfold squareNeighbours
    refine List.Nodup.filter _ ?_
    simp
  have hc : ∀ p0 q0, ((a, iq, ip) :: squareNeighbours a iq ip p0 q0).Nodup := by
    intro p0 q0
    rw [List.nodup_cons]
    refine ⟨?_, hn p0 q0⟩
    rw [mem_squareNeighbours]
    simp
  unfold breakupCell
  dsimp only
  split_ifs
  · exact hc _ _
  · exact hc _ _
  · exact hc _ _
  · exact hc _ _
  · simp
  · simp

/-- The situation of C84 occurs: boundaries 0, 1, 2, 3 MeV, energy 3 MeV; the first bin is recorded twice. -/
example : ∃ l, breakupEnergy (buPar false) 3 1 (fun i => 1000 * i) (fun _ i => ((i % 4 : Int) : ℝ)) (-2.2)
    [⟨0, 0, 0, 1, 0, 1, 1, 1, 1⟩] 3 = .ok l ∧ 2 ≤ l.count ((0 : Int), (0 : Int), (0 : Int)) := by
  have hm : ndEnergy 0 0 = 0 := by unfold ndEnergy; simp
  have hM : (500 : ℝ) < ndEnergy 0 1000 := by unfold ndEnergy ndReducedMass; norm_num
  have hptr : ePtr (buPar false) 3 ⟨0, 0, 0, 1, 0, 1, 1, 1, 1⟩ = some (false, 0) := by decide
  have hhit : StateCellHit (buPar false) 3 (fun i => 1000 * i) (fun _ i => ((i % 4 : Int) : ℝ)) 3 ⟨0, 0, 0, 1, 0, 1, 1, 1, 1⟩ 0 0 :=
    ⟨false, 0, hptr, by unfold CellHit; simp [hm]; linarith⟩
  obtain ⟨l, hl⟩ := breakupEnergy_ok (buPar false) 3 1 (fun i => 1000 * i) (fun _ i => ((i % 4 : Int) : ℝ)) (-2.2)
    3 [⟨0, 0, 0, 1, 0, 1, 1, 1, 1⟩] (by simp [hptr]) 0 (by simp) 0 (by norm_num) 0 (by norm_num) hhit
  refine ⟨l, hl, ?_⟩
  have := C84_cell_listed_twice (buPar false) 3 1 (fun i => 1000 * i) (fun _ i => ((i % 4 : Int) : ℝ)) (-2.2) 3 [⟨0, 0, 0, 1, 0, 1, 1, 1, 1⟩] l hl
    (by norm_num) 0 (by simp) 0 (by norm_num) 0 (by norm_num) hhit false 0 hptr (by norm_num) (by norm_num) (by norm_num) (by norm_num [hm])
    (by norm_num [hm]; linarith)
  simpa using this

end TicTac
end
