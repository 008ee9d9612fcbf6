import Verif.Spec.Potential
import Verif.Lemmas.Channels2N
import Verif.Lemmas.Tables
import Verif.Props.Channels2N
import Mathlib.Tactic.IntervalCases
/-! Lemmas about the potential-matrix model. -/
noncomputable section
namespace TicTac
open Spec

theorem foldlM_add {ι M : Type} [AddCommMonoid M] {l : List ι} {f : M → ι → Option M} {g : ι → M}
    (h : ∀ acc x, x ∈ l → f acc x = some (acc + g x)) (acc : M) :
    l.foldlM f acc = some (acc + (l.map g).sum) := by
  induction l generalizing acc with
  | nil => simp
  | cons x xs ih =>
    rw [List.foldlM_cons, h acc x (by simp)]
    simp only [Option.bind_eq_bind, Option.bind_some]
    rw [ih (fun acc y hy => h acc y (by simp [hy]))]
    simp [add_assoc]

theorem mapM_some {α β : Type} {l : List α} {f : α → Option β} {g : α → β} (h : ∀ x ∈ l, f x = some (g x)) :
    l.mapM f = some (l.map g) := by
  induction l with
  | nil => rfl
  | cons x xs ih =>
    rw [List.mapM_cons, h x (by simp), ih (fun y hy => h y (by simp [hy]))]
    rfl

theorem sum_list_range {M : Type} [AddCommMonoid M] (n : Nat) (f : Nat → M) :
    ((List.range n).map f).sum = ∑ a ∈ Finset.range n, f a := by
  induction n with
  | zero => simp
  | succ n ih => rw [List.range_succ, List.map_append, List.sum_append, Finset.sum_range_succ, ih]; simp

/-- The averaged elements of a pair of bins, component by component. -/
theorem wpElements_spec {p : PWParams} {g : PotGrid} {ty : Nat} {r c : PWState} {V : PotModel}
    {E : Six → ℝ → ℝ → Six}
    (hE : ∀ jk pin pout, isoElements p g.mid ty r c V jk pin pout = some (E jk pin pout))
    (junk : Nat → Nat → Six) (i j : Nat) :
    ∃ W, wpElements p g ty r c V junk i j = some W ∧
      ∀ k e, (∀ jk pin pout, E jk pin pout k = e pin pout) → W k = wpElement g e i j := by
  unfold wpElements wpElement
  cases hm : g.mid
  · rw [hm] at hE
    simp only [Bool.false_eq_true, if_false]
    refine ⟨_, foldlM_add (g := fun a => ((List.range g.Nper).map fun b => (fun k =>
      g.fp (i * g.Nper + a) * g.wp (i * g.Nper + a) * g.p (i * g.Nper + a) *
      (g.fp (j * g.Nper + b) * g.wp (j * g.Nper + b) * g.p (j * g.Nper + b)) *
      E (junk (i * g.Nper + a) (j * g.Nper + b)) (g.p (j * g.Nper + b)) (g.p (i * g.Nper + a)) k /
        (g.norm i * g.norm j) : Six)).sum) ?_ 0, ?_⟩
    · intro acc a ha
      apply foldlM_add
      intro acc b hb
      rw [hE]; rfl
    · intro k e he
      rw [zero_add, sum_list_range, Finset.sum_apply]
      refine Finset.sum_congr rfl fun a _ => ?_
      rw [sum_list_range, Finset.sum_apply]
      refine Finset.sum_congr rfl fun b _ => ?_
      rw [he]
  · rw [hm] at hE
    simp only [if_true]
    refine ⟨_, by rw [hE]; rfl, ?_⟩
    intro k e he
    simp [he]

theorem wpElement_smul (g : PotGrid) (a : ℝ) (f : ℝ → ℝ → ℝ) (i j : Nat) :
    wpElement g (fun x y => a * f x y) i j = a * wpElement g f i j := by
  unfold wpElement
  split_ifs
  · ring
  · rw [Finset.mul_sum]
    refine Finset.sum_congr rfl fun _ _ => ?_
    rw [Finset.mul_sum]
    refine Finset.sum_congr rfl fun _ _ => ?_
    ring

/-- Selection of the component: uncoupled. -/
theorem extractPot_uncoupled {L J S : Int} (hS : S = 0 ∨ S = 1) (h1 : L - S ≤ J) (h2 : S - L ≤ J) (h3 : J ≤ L + S)
    (V : Six) : extractPot L L J S false V = some (V (component S L L J)) := by
  unfold extractPot component
  have hg : ¬ (J < |S - L| ∨ J > S + L ∨ J < |S - L| ∨ J > S + L) := by
    have : |S - L| ≤ J := abs_le.2 ⟨by omega, by omega⟩
    omega
  rw [if_neg hg]
  simp only [Bool.false_eq_true, if_false, lt_irrefl, gt_iff_lt, Option.some.injEq]
  rcases hS with rfl | rfl
  · have : L = J := by omega
    subst this
    simp
    intro h; omega
  · have hc : L = J ∨ L = J + 1 ∨ L = J - 1 := by omega
    rcases hc with rfl | rfl | rfl
    · simp
      intro h; omega
    · simp
    · simp
      intro h; omega

/-- Selection of the component: tensor-coupled. -/
theorem extractPot_coupled {J : Int} (hJ : 1 ≤ J) {L Lp : Int} (hL : L = J - 1 ∨ L = J + 1)
    (hLp : Lp = J - 1 ∨ Lp = J + 1) (V : Six) :
    extractPot L Lp J 1 true V = some (phase L Lp * V (component 1 L Lp J)) := by
  unfold extractPot component phase
  have h1 : |1 - L| ≤ J := by rw [abs_le]; omega
  have h2 : |1 - Lp| ≤ J := by rw [abs_le]; omega
  have hg : ¬ (J < |1 - L| ∨ J > 1 + L ∨ J < |1 - Lp| ∨ J > 1 + Lp) := by omega
  have e1 : ¬ (J - 1 = J + 1) := by omega
  have e2 : ¬ (J + 1 = J - 1) := by omega
  have e3 : J - 1 < J + 1 := by omega
  have e4 : ¬ (J + 1 < J - 1) := by omega
  rw [if_neg hg]
  simp only [if_true, Option.some.injEq]
  rcases hL with rfl | rfl <;> rcases hLp with rfl | rfl
  · simp
  · simp only [e1, e3, e4, gt_iff_lt, false_and, if_false, if_true]; simp
  · simp only [e2, e3, e4, gt_iff_lt, false_and, if_false, if_true]; simp
  · simp

/-- Representative state of block `b` of the channel of `r`. -/
def rep (p : PWParams) (r : PWState) (b : Nat) : PWState :=
  if coupledViaL p r then { r with L := r.J - 1 + 2 * b }
  else if coupledViaT p r then { r with twoT3 := 1 + 2 * b }
  else r

/-- Blocks of a channel's matrix. -/
def blocks (coupled : Bool) : List (Nat × Nat) := if coupled then [(0, 0), (0, 1), (1, 0), (1, 1)] else [(0, 0)]

theorem potPairOK_facts {p : PWParams} {r c : PWState} (h : potPairOK p r c = true) :
    r.T = c.T ∧ r.J = c.J ∧ r.S = c.S := by
  unfold potPairOK at h
  simp only [Bool.and_eq_true, beq_iff_eq] at h
  exact ⟨h.1.1.1, h.1.1.2, h.1.2⟩

/-- For an interacting pair the pair test and the single-state test of tensor coupling agree. -/
theorem pairViaL_eq {p : PWParams} {r c : PWState} (hr : PairFacts r) (hc : PairFacts c)
    (h : potPairOK p r c = true) : pairViaL p r c = coupledViaL p r := by
  obtain ⟨hT, hJ, hS⟩ := potPairOK_facts h
  obtain ⟨aS, aT, aJ, a1, a2, a3, a4⟩ := hr
  obtain ⟨bS, bT, bJ, b1, b2, b3, b4⟩ := hc
  unfold pairViaL coupledViaL
  cases p.tensor
  · simp
  · rw [Bool.eq_iff_iff]
    simp only [Bool.true_and, Bool.or_eq_true, Bool.and_eq_true, bne_iff_ne, beq_iff_eq, ne_eq]
    omega

theorem coupledModel_eq {p : PWParams} {r c : PWState} (hr : PairFacts r) (hc : PairFacts c)
    (h : potPairOK p r c = true) : coupledModel r c = decide (r.L ≠ r.J) := by
  obtain ⟨hT, hJ, hS⟩ := potPairOK_facts h
  obtain ⟨aS, aT, aJ, a1, a2, a3, a4⟩ := hr
  obtain ⟨bS, bT, bJ, b1, b2, b3, b4⟩ := hc
  unfold coupledModel
  rw [Bool.eq_iff_iff]
  simp only [Bool.or_eq_true, Bool.and_eq_true, bne_iff_ne, beq_iff_eq, ne_eq, decide_eq_true_eq]
  omega

/-- Without a T-coupled channel the isoscalar type is decided by the pair isospin. -/
theorem isoscalarType_plain {p : PWParams} {r c : PWState} (hr : Allowed p.J2max p.twoJ3max p.isoBreak r)
    (hc : Allowed p.J2max p.twoJ3max p.isoBreak c) (h : potPairOK p r c = true) (hT : coupledViaT p r = false) :
    isoscalarType r c = some (if r.T = 0 then 0 else 1) := by
  obtain ⟨eT, eJ, eS⟩ := potPairOK_facts h
  have fr := hr.facts
  have fc := hc.facts
  have ir := hr.2.2.2.2.2.2.2.2.2.2.2
  have ic := hc.2.2.2.2.2.2.2.2.2.2.2
  have tT := fr.T01
  obtain ⟨aS, aT, aJ, a1, a2, a3, a4⟩ := fr
  obtain ⟨bS, bT, bJ, b1, b2, b3, b4⟩ := fc
  have hno : ∀ s : PWState, PairFacts s → s.S = r.S → s.J = r.J →
      (s.twoT3 = 1 ∨ (p.isoBreak = true ∧ s.twoT3 = 3 ∧ s.L = 0 ∧ s.S = 0 ∧ s.J = 0)) → s.twoT3 = 1 := by
    intro s hs e1 e2 hi
    rcases hi with hi | ⟨hb, _, hL, hS0, hJ0⟩
    · exact hi
    · exfalso
      have hrL : r.L = 0 := by omega
      rw [show coupledViaT p r = true by
        unfold coupledViaT is1S0; simp [hb, hrL, ← e1, hS0, ← e2, hJ0]] at hT
      exact absurd hT (by simp)
  have r1 := hno r hr.facts rfl rfl ir
  have c1 := hno c hc.facts eS.symm eJ.symm ic
  unfold isoscalarType
  rcases tT with t | t <;> simp [r1, c1, t]

/-- The isospin-mixed elements of an interacting pair of basis states, component by component. -/
theorem isoElements_spec {p : PWParams} {g : PotGrid} {r c : PWState}
    (hr : Allowed p.J2max p.twoJ3max p.isoBreak r) (hc : Allowed p.J2max p.twoJ3max p.isoBreak c)
    (h : potPairOK p r c = true) (hm : g.mid = false ∨ coupledViaT p r = false) (V : PotModel) {ty : Nat}
    (hty : isoscalarType r c = some ty) :
    ∃ E : Six → ℝ → ℝ → Six,
      (∀ jk pin pout, isoElements p g.mid ty r c V jk pin pout = some (E jk pin pout)) ∧
      (coupledViaT p r = false → ∀ jk pin pout k, E jk pin pout k = isospinMix p.isoBreak r r
        (V pin pout (decide (r.L ≠ r.J)) r.S r.J r.T (-1) k) (V pin pout (decide (r.L ≠ r.J)) r.S r.J r.T 0 k)) ∧
      (coupledViaT p r = true → ∀ jk pin pout (a b : Nat) (k : Fin 6), a < 2 → b < 2 → k.val = 2 + 2 * a + b →
        E jk pin pout k = isospinMix p.isoBreak { r with twoT3 := 1 + 2 * a } { r with twoT3 := 1 + 2 * b }
        (V pin pout (decide (r.L ≠ r.J)) r.S r.J r.T (-1) 0) (V pin pout (decide (r.L ≠ r.J)) r.S r.J r.T 0 0)) := by
  have fr := hr.facts
  have fc := hc.facts
  have hcm := coupledModel_eq fr fc h
  cases hT : coupledViaT p r
  · have hpl := isoscalarType_plain hr hc h hT
    rw [hty, Option.some.injEq] at hpl
    refine ⟨fun jk pin pout k => isospinMix p.isoBreak r r
        (V pin pout (decide (r.L ≠ r.J)) r.S r.J r.T (-1) k) (V pin pout (decide (r.L ≠ r.J)) r.S r.J r.T 0 k),
      ?_, fun _ _ _ _ _ => rfl, fun hx => absurd hx (by simp)⟩
    intro jk pin pout
    have hnb : r.T ≠ 0 → ¬ (p.isoBreak = true ∧ r.S = 0 ∧ r.J = 0) := by
      rintro - ⟨hb, hS, hJ⟩
      have hL : r.L = 0 := by have := fr.Llo; have := fr.Lhi; omega
      rw [show coupledViaT p r = true by unfold coupledViaT is1S0; simp [hb, hL, hS, hJ]] at hT
      exact absurd hT (by simp)
    unfold isoElements isospinMix
    rw [hcm, hT]
    by_cases ht : r.T = 0
    · rw [if_pos ht] at hpl
      subst hpl
      simp only [ht, if_true]
      cases g.mid <;> simp
    · rw [if_neg ht] at hpl
      subst hpl
      have := hnb ht
      simp only [ht, if_false, this]
      cases g.mid <;> simp <;> (funext k; unfold isoAverage; ring)
  · have hmid : g.mid = false := by simpa [hT] using hm
    have h1S0 : p.isoBreak = true ∧ r.S = 0 ∧ r.J = 0 ∧ r.L = 0 := by
      unfold coupledViaT is1S0 at hT
      simp only [Bool.and_eq_true, beq_iff_eq] at hT
      tauto
    obtain ⟨hb, hS, hJ, hL⟩ := h1S0
    have hcL : c.L = 0 := by
      obtain ⟨_, e1, e2⟩ := potPairOK_facts h
      have := fc.Llo; have := fc.Lhi; omega
    have hrT : r.T = 1 := by have := fr.pauli; have := fr.T01; omega
    have hx : ∀ W : Six, extractPot 0 0 0 0 false W = some (W 0) := by
      intro W
      rw [extractPot_uncoupled (Or.inl rfl) (by omega) (by omega) (by omega)]
      simp [component]
    refine ⟨fun jk pin pout => isoBlock jk (V pin pout (decide (r.L ≠ r.J)) r.S r.J r.T (-1) 0)
      (V pin pout (decide (r.L ≠ r.J)) r.S r.J r.T 0 0), ?_, fun hx => absurd hx (by simp), ?_⟩
    · intro jk pin pout
      unfold isoElements
      rw [hcm, hT, hmid]
      simp only [Bool.false_eq_true, Bool.true_eq_false, false_and, if_false, if_true]
      rw [hL, hcL, hJ, hS, hx, hx]
      rfl
    · intro _ jk pin pout a b k ha hb' hk
      unfold isoBlock isospinMix
      simp only [hrT, hb, hS, hJ, true_and, if_true, one_ne_zero, if_false]
      interval_cases a <;> interval_cases b
      · have : k = 2 := Fin.ext (by simpa using hk)
        subst this; simp
      · have : k = 3 := Fin.ext (by simpa using hk)
        subst this; simp
      · have : k = 4 := Fin.ext (by simpa using hk)
        subst this; simp
      · have : k = 5 := Fin.ext (by simpa using hk)
        subst this; simp

/-- The stores for one pair of bins. -/
theorem binWrites_spec {p : PWParams} {g : PotGrid} {job : Job}
    (hr : Allowed p.J2max p.twoJ3max p.isoBreak job.r) (hc : Allowed p.J2max p.twoJ3max p.isoBreak job.c)
    (h : potPairOK p job.r job.c = true) (hm : g.mid = false ∨ coupledViaT p job.r = false) (V : PotModel)
    {ty : Nat} (hty : isoscalarType job.r job.c = some ty) (junk : Nat → Nat → Six) (ij : Nat × Nat) :
    binWrites p g ty V junk job ij = some ((blocks (coupledViaL p job.r || coupledViaT p job.r)).map fun b =>
      ((job.slot, b.1, b.2, ij.1, ij.2),
        wpElement g (element V p.isoBreak (rep p job.r b.1) (rep p job.r b.2)) ij.1 ij.2)) := by
  obtain ⟨E, hE, hE1, hE2⟩ := isoElements_spec (g := g) hr hc h hm V hty
  obtain ⟨W, hW, hWk⟩ := wpElements_spec hE junk ij.1 ij.2
  have fr := hr.facts
  have fc := hc.facts
  obtain ⟨eT, eJ, eS⟩ := potPairOK_facts h
  unfold binWrites
  simp only [hW, Option.bind_eq_bind, Option.bind_some, pairViaL_eq fr fc h]
  cases hL : coupledViaL p job.r
  · cases hT : coupledViaT p job.r
    · simp only [Bool.or_false, Bool.false_eq_true, if_false]
      have hcl : job.c.L = job.r.L := by
        have hx := pairViaL_eq fr fc h
        rw [hL] at hx
        unfold potPairOK at h
        unfold pairViaL at hx
        unfold coupledViaL at hL
        cases ht : p.tensor
        · simp [ht] at h; exact h.2.symm
        · by_contra hne
          rw [ht] at hx
          simp [Ne.symm hne] at hx
      rw [hcl, extractPot_uncoupled fr.S01 (by have := fr.Lhi; omega) (by have := fr.Llo'; omega)
        (by have := fr.Llo; omega)]
      have hrep : rep p job.r 0 = job.r := by unfold rep; simp [hL, hT]
      simp only [blocks, Bool.false_eq_true, if_false, List.map_cons, List.map_nil, hrep, Option.bind_some]
      rw [hWk _ _ (fun jk pin pout => hE1 hT jk pin pout _)]
      congr 4
      unfold element phase
      simp
    · simp only [Bool.or_true, Bool.false_eq_true, if_false, if_true, blocks, List.map_cons, List.map_nil]
      have h1S0 : job.r.S = 0 ∧ job.r.L = 0 ∧ job.r.J = 0 := by
        unfold coupledViaT is1S0 at hT
        simp only [Bool.and_eq_true, beq_iff_eq] at hT
        tauto
      have key : ∀ (a b : Nat) (k : Fin 6), a < 2 → b < 2 → k.val = 2 + 2 * a + b →
          W k = wpElement g (element V p.isoBreak (rep p job.r a) (rep p job.r b)) ij.1 ij.2 := by
        intro a b k ha hb hk
        rw [hWk k _ (fun jk pin pout => hE2 hT jk pin pout a b k ha hb hk)]
        congr 1
        funext pin pout
        unfold element phase rep component
        simp only [hL, hT, Bool.false_eq_true, if_false, if_true, h1S0, one_mul]
      rw [key 0 0 2 (by omega) (by omega) rfl, key 0 1 3 (by omega) (by omega) rfl,
        key 1 0 4 (by omega) (by omega) rfl, key 1 1 5 (by omega) (by omega) rfl]
      rfl
  · have hl : p.tensor = true ∧ job.r.L ≠ job.r.J ∧ job.r.J ≠ 0 := by
      unfold coupledViaL at hL
      simp only [Bool.and_eq_true, bne_iff_ne] at hL
      tauto
    have hS : job.r.S = 1 := by
      have := fr.S01; have := fr.Llo; have := fr.Lhi; have := fr.Llo'; omega
    have hJ : 1 ≤ job.r.J := by have := fr.J0; omega
    have hT : coupledViaT p job.r = false := by
      unfold coupledViaT is1S0; simp [hS]
    have key : ∀ (a b : Nat), a < 2 → b < 2 →
        extractPot (job.r.J - 1 + 2 * a) (job.r.J - 1 + 2 * b) job.r.J job.r.S true W =
          some (wpElement g (element V p.isoBreak (rep p job.r a) (rep p job.r b)) ij.1 ij.2) := by
      intro a b ha hb
      rw [hS, extractPot_coupled hJ (by omega) (by omega), hWk _ _ (fun jk pin pout => hE1 hT jk pin pout _),
        ← wpElement_smul]
      congr 2
      funext pin pout
      unfold element rep isospinMix
      have hne : decide (job.r.J - 1 + 2 * (a : Int) ≠ job.r.J) = decide (job.r.L ≠ job.r.J) := by
        rw [decide_eq_decide]; constructor <;> intro <;> omega
      simp only [hL, if_true, hS, hne]
    have k00 := key 0 0 (by omega) (by omega)
    have k01 := key 0 1 (by omega) (by omega)
    have k10 := key 1 0 (by omega) (by omega)
    have k11 := key 1 1 (by omega) (by omega)
    have e0 : job.r.J - 1 + 2 * ((0 : Nat) : Int) = job.r.J - 1 := by simp
    have e1 : job.r.J - 1 + 2 * ((1 : Nat) : Int) = job.r.J + 1 := by push_cast; omega
    rw [e0] at k00 k01 k10
    rw [e1] at k01 k10 k11
    simp only [Bool.true_or, if_true, blocks, List.map_cons, List.map_nil, k00, k01, k10, k11, Option.bind_some]
    rfl

end TicTac
end
