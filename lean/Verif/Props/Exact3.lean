import Verif.Props.BreakupTable
/-! C82: the exact condition for two columns of a breakup file to have the same heading. -/
noncomputable section
namespace TicTac
open Spec

/-- Two allowed states with the same printed numbers, total angular momentum and parity differ in the total isospin at most. -/
theorem allowed_ext_T3 {J2 J3 : Int} {iso : Bool} {a b : PWState} (ha : Allowed J2 J3 iso a) (hb : Allowed J2 J3 iso b) (h1 : a.L = b.L) (h2 : a.S = b.S) (h3 : a.J = b.J)
    (h4 : a.l = b.l) (h5 : a.twoj = b.twoj) (h6 : a.twoJ3 = b.twoJ3) (h7 : a.P = b.P) : { a with twoT3 := 0 } = { b with twoT3 := 0 } := by
  have fa := ha.facts
  have fb := hb.facts
  obtain ⟨aS, aT, aJ, a1, a2, a3, a4⟩ := fa
  obtain ⟨bS, bT, bJ, b1, b2, b3, b4⟩ := fb
  have hT : a.T = b.T := by omega
  cases a; cases b
  simp_all

theorem T3_ext {a b : PWState} (h : { a with twoT3 := 0 } = { b with twoT3 := 0 }) (h3 : a.twoT3 = b.twoT3) : a = b := by
  cases a; cases b
  simp_all

/-- **C82 (exact condition).** In the breakup file of a run two different amplitude columns have the same heading exactly when amplitudes are recorded for two partial
waves that differ in the total isospin only. -/
theorem C82_same_heading_exactly {p : PWParams} (hv : ValidTruncation p) {w : PWSpace} (hw : constructPW p = some w)
    {chn : Nat} (hc : chn < w.nChn) (Np Nq : Nat) (q : Nat → ℝ) (hg : IsGrid Nq q) (qOut : Int → ℝ) (e : Bool → Int → ℝ) (Eb : ℝ)
    (hEb : -(Mn + Mp) < Eb) (inputs : List ℝ) (o : OnShell) (ho : findOnShell Nq q Eb inputs = .ok o) (v : List (Int × Int × Int)) (off : List Nat)
    (hbu : findBreakup p Np Nq q e Eb (w.block chn) o.Ecom = .ok (v, off)) (U : Nat → ℂ) (t : BuTable) (x : BuInput)
    (hx : x = buInputOf p (w.block chn) Np q qOut e ((findDeuteronChannels w).getD chn []) o v off U) (ht : breakupTable x = some t) :
    (∃ (c c' : Nat) (label : Str), c ≠ c' ∧ t.headers[c]? = some (true, label) ∧ t.headers[c']? = some (true, label)) ↔
      0 < x.deut.length ∧ ∃ k b k' b', OfEnergy x k b ∧ OfEnergy x k' b' ∧ x.alpha b ≠ x.alpha b' ∧
        { x.state (x.alpha b) with twoT3 := 0 } = { x.state (x.alpha b') with twoT3 := 0 } := by
  obtain ⟨hok, hst⟩ := run_facts hv hw hc Np Nq q hg qOut e Eb hEb inputs o ho v off hbu U
  rw [← hx] at hok hst
  constructor
  swap
  · rintro ⟨hd, k, b, k', b', hb, hb', hne, hs⟩
    exact C82_same_heading hok ht hb hb' hd hne hs
  rintro ⟨c, c', label, hcc, h1, h2⟩
  obtain ⟨start, row, col, I⟩ := C81_breakup_table hok ht
  obtain ⟨deut, hdeut, hdl⟩ := deut_list hv hw hc
  have hch := (block_channel hv hw hc).1
  have key : ∀ c, t.headers[c]? = some (true, label) → ∃ q b, OfEnergy x q b ∧ ∃ d, ∃ hd : d < x.deut.length, c = col d b ∧ label = buLabel x (x.alpha b) x.deut[d] := by
    intro c hcc
    have hlt : c < t.cols := by rw [← I.width]; exact (List.getElem?_eq_some_iff.1 hcc).1
    have h5 : 5 ≤ c := by
      by_contra hlt5
      have hg5 : (t.headers.take 5)[c]? = some (true, label) := by rw [List.getElem?_take_of_lt (by omega)]; exact hcc
      rw [I.leadHeadings] at hg5
      have : c = 0 ∨ c = 1 ∨ c = 2 ∨ c = 3 ∨ c = 4 := by omega
      rcases this with rfl | rfl | rfl | rfl | rfl <;> simp at hg5
    obtain ⟨qq, b, hb, d, hd, l1, l2⟩ := I.columns c h5 hlt
    have hh : (t.headers.drop (col d b)).take 5 = (true, buLabel x (x.alpha b) x.deut[d]) :: _ := I.headings qq b hb d hd
    have hg5 : ((t.headers.drop (col d b)).take 5)[c - col d b]? = some (true, label) := by
      rw [List.getElem?_take_of_lt (by omega), List.getElem?_drop, show col d b + (c - col d b) = c by omega]; exact hcc
    rw [hh] at hg5
    have : c = col d b ∨ c - col d b = 1 ∨ c - col d b = 2 ∨ c - col d b = 3 ∨ c - col d b = 4 := by omega
    rcases this with he | he | he | he | he
    · refine ⟨qq, b, hb, d, hd, he, ?_⟩
      rw [he, Nat.sub_self] at hg5
      simpa using hg5.symm
    all_goals (rw [he] at hg5; simp at hg5)
  obtain ⟨q1, b1, o1, d1, hd1, rfl, l1⟩ := key c h1
  obtain ⟨q2, b2, o2, d2, hd2, rfl, l2⟩ := key c' h2
  obtain ⟨a1, a2, a3, a4, a5, a6, a7⟩ := buLabel_inj (l1.symm.trans l2)
  have hstate : ∀ i (hi : i < (w.block chn).length), x.state i = (w.block chn)[i] := by
    intro i hi
    rw [hx]
    show (w.block chn).getD i _ = _
    rw [List.getD_eq_getElem?_getD, List.getElem?_eq_getElem hi]; rfl
  have same : ∀ i (_ : i < (w.block chn).length) j (_ : j < (w.block chn).length), (x.state i).L = (x.state j).L → (x.state i).S = (x.state j).S →
      (x.state i).J = (x.state j).J → (x.state i).l = (x.state j).l → (x.state i).twoj = (x.state j).twoj →
      { x.state i with twoT3 := 0 } = { x.state j with twoT3 := 0 } ∧ ((x.state i).S = 1 → i = j) := by
    intro i hi j hj g1 g2 g3 g4 g5
    rw [hstate i hi, hstate j hj] at *
    obtain ⟨A, A1, A2⟩ := (hch.2 _).1 (List.getElem_mem hi)
    obtain ⟨B, B1, B2⟩ := (hch.2 _).1 (List.getElem_mem hj)
    have hE := allowed_ext_T3 A B g1 g2 g3 g4 g5 (A1.trans B1.symm) (A2.trans B2.symm)
    refine ⟨hE, fun hS => ?_⟩
    apply (List.Nodup.getElem_inj_iff hch.1).1
    have t1 : (w.block chn)[i].twoT3 = 1 := by
      rcases A.2.2.2.2.2.2.2.2.2.2.2 with h | ⟨_, _, _, h, _⟩
      · exact h
      · omega
    have t2 : (w.block chn)[j].twoT3 = 1 := by
      rcases B.2.2.2.2.2.2.2.2.2.2.2 with h | ⟨_, _, _, h, _⟩
      · exact h
      · omega
    exact T3_ext hE (t1.trans t2.symm)
  obtain ⟨hal, _⟩ := same _ (hst q1 b1 o1).1 _ (hst q2 b2 o2).1 a1 a2 a3 a4 a5
  have hdmem : ∀ d (hd : d < x.deut.length), ∃ h : x.deut[d] < (w.block chn).length, IsDeuteronS (x.state x.deut[d]) := by
    intro d hd
    have hm : x.deut[d] ∈ deut.map (·.val) := by
      have := List.getElem_mem hd
      subst hx
      exact hdl ▸ this
    obtain ⟨a, ha, hav⟩ := List.mem_map.1 hm
    refine ⟨hav ▸ a.2, ?_⟩
    rw [← hav, hstate a.val a.2]
    exact (hdeut.2 a).1 ha
  obtain ⟨k1, D1⟩ := hdmem d1 hd1
  obtain ⟨k2, D2⟩ := hdmem d2 hd2
  have hdd := (same _ k1 _ k2 (D1.1.trans D2.1.symm) (D1.2.1.trans D2.2.1.symm) (D1.2.2.trans D2.2.2.symm) a6 a7).2 D1.2.1
  have hdeq : d1 = d2 := (List.Nodup.getElem_inj_iff hok.nodup).1 hdd
  refine ⟨by omega, q1, b1, q2, b2, o1, o2, fun hα => ?_, hal⟩
  exact hcc ((I.pairs q1 b1 o1 d1 hd1 q2 b2 o2 d2 hd2).1 hα hdeq)

end TicTac
end
