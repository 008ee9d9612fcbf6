import Verif.Props.Run
/-! A complete run that satisfies the hypotheses of C80: three p bins, two q bins, an interaction acting in 3S1 only that binds the
deuteron at -2 MeV. -/
noncomputable section
namespace TicTac
open Spec
open Classical

/-- Elements of the channel Hamiltonian, by the states they belong to. -/
theorem ham_entry {p : PWParams} (ht : p.tensor = true) (hv : ValidTruncation p) {w : PWSpace} (hw : constructPW p = some w) {g : PotGrid}
    {pot : PotModel} {M : Bool → Int → ℝ} (hM : HoldsPotential p g pot w.states M) {s : PWState} (hs : s ∈ w.states) {b : Bool} {n : Int}
    (hsl : slotOf p s = some (b, n)) {r c : Nat} (hr : r < chnDim g.Np b) (hc : c < chnDim g.Np b) :
    ∃ a d : PWState, a ∈ w.states ∧ d ∈ w.states ∧ PairConnected s a ∧ PairConnected s d ∧ ∃ i < g.Np, ∃ j < g.Np,
      chanPos g.Np a i = r ∧ chanPos g.Np d j = c ∧ (r = c → a = d ∧ i = j) ∧
      hamiltonian g.Np g.pWP (fun r c => M b (n * (chnDim g.Np b * chnDim g.Np b : Nat) + (r * chnDim g.Np b + c : Nat))) r c =
        wpElement g (element pot p.isoBreak a d) i j + if r = c then pairKinetic g i else 0 := by
  have hch := channel_of_state hv hw s.twoJ3 s.P
  set L := w.states.filter fun x => decide (x.twoJ3 = s.twoJ3 ∧ x.P = s.P) with hL
  have hsub : ∀ x ∈ L, x ∈ w.states := fun x hx => (List.mem_filter.1 hx).1
  have hsL : s ∈ L := List.mem_filter.2 ⟨hs, by simp⟩
  obtain ⟨a, ha, i, hi⟩ := row_cover ht hch s hsL hsl g.Np r hr
  obtain ⟨d, hd, j, hj⟩ := row_cover ht hch s hsL hsl g.Np c hc
  have had := pairConnected_trans (pairConnected_symm ha) hd
  have aa := IsChannel.allowed hch (List.get_mem L a)
  have as' := IsChannel.allowed hch hsL
  have e1 : slotOf p (L.get a) = some (b, n) := by rw [← slot_connected ht as' aa ha, hsl]
  obtain ⟨b1, n1, f1, v1⟩ := hM _ (hsub _ (List.get_mem L a)) _ (hsub _ (List.get_mem L d)) had.1
  rw [e1] at f1; cases f1
  have w1 := v1 i i.2 j j.2
  rw [hi, hj] at w1
  refine ⟨L.get a, L.get d, hsub _ (List.get_mem L a), hsub _ (List.get_mem L d), ha, hd, i, i.2, j, j.2, hi, hj, ?_, ?_⟩
  · intro he
    rw [← hi, ← hj] at he
    obtain ⟨q1, q2⟩ := chanPos_inj ht hch had i.2 j.2 he
    exact ⟨by rw [q1], q2⟩
  · unfold hamiltonian
    dsimp only
    rw [w1]
    congr 1
    by_cases he : r = c
    · rw [if_pos he, if_pos he, ← hi, chanPos_mod _ _ _ i.2]; rfl
    · rw [if_neg he, if_neg he]

namespace Example

def par : PWParams := { J2max := 1, twoJ3max := 1, isoBreak := false }

/-- Boundaries 0, 1, 2, 3 MeV, midpoint rule. -/
def grid : PotGrid :=
  { Np := 3, Nper := 1, mid := true, pWP := fun i => i, p := fun i => i + 1 / 2, wp := fun _ => 1, fp := fun _ => 1, norm := fun _ => 1 }

/-- Strength in the three bins. -/
def strength (i : Nat) : ℝ := if i = 0 then -2 - pairKinetic grid 0 else 100 * i

def strengthAt (x : ℝ) : ℝ := if x = 1 / 2 then strength 0 else if x = 3 / 2 then strength 1 else strength 2

theorem strengthAt_eq {i : Nat} (hi : i < 3) : strengthAt ((i : ℝ) + 1 / 2) = strength i := by
  unfold strengthAt
  interval_cases i
  · rw [if_pos (by norm_num)]
  · rw [if_neg (by norm_num), if_pos (by norm_num)]
  · rw [if_neg (by norm_num), if_neg (by norm_num)]

/-- Interaction in 3S1, diagonal in the momenta. -/
def pot : PotModel := fun pin pout _ _ _ _ _ k =>
  if k = 2 ∧ pin = pout then strengthAt pin / (pin * pin) else 0

theorem pot_hermitian : Hermitian pot := by
  intro qi qo c S J T Tz
  unfold pot
  refine ⟨by simp, by simp, ?_, by simp, by simp⟩
  by_cases h : qi = qo
  · subst h; rfl
  · rw [if_neg (fun hh => h hh.2), if_neg (fun hh => h hh.2.symm)]

theorem par_valid : ValidTruncation par := by unfold ValidTruncation par; simp

/-- Matrix elements of the interaction. -/
theorem element_value {a d : PWState} (ha : Allowed par.J2max par.twoJ3max par.isoBreak a) (hd : Allowed par.J2max par.twoJ3max par.isoBreak d)
    (h : SameInteraction true a d) {i j : Nat} (hi : i < 3) (hj : j < 3) :
    wpElement grid (element pot par.isoBreak a d) i j = if a.L = d.L ∧ IsDeuteronS a ∧ i = j then strength i else 0 := by
  have hf := ha.facts
  have hg := hd.facts
  have hJ : a.J ≤ 1 := ha.2.2.2.2.2.2.2.2.1
  obtain ⟨f1, f2, f3, f4, f5, f6, f7⟩ := hf
  obtain ⟨g1, g2, g3, g4, g5, g6, g7⟩ := hg
  obtain ⟨k1, k2, k3⟩ := h
  unfold wpElement
  rw [if_pos (show grid.mid = true from rfl)]
  have hmix : ∀ v : ℝ, isospinMix par.isoBreak a d v v = v := by
    intro v
    unfold isospinMix
    split_ifs with h1 h2
    · rfl
    · exact absurd h2.1 (by simp [par])
    · exact absurd h2.1 (by simp [par])
    · exact absurd h2.1 (by simp [par])
    · ring
  have hco : component a.S a.L d.L a.J = 2 ↔ a.L = d.L ∧ IsDeuteronS a := by
    unfold component IsDeuteronS
    have e0 : (0 : Fin 6) ≠ 2 := by decide
    have e1 : (1 : Fin 6) ≠ 2 := by decide
    have e3 : (3 : Fin 6) ≠ 2 := by decide
    have e4 : (4 : Fin 6) ≠ 2 := by decide
    have e5 : (5 : Fin 6) ≠ 2 := by decide
    split_ifs
    · simp only [e0, false_iff]; omega
    · simp only [e3, false_iff]; omega
    · simp only [e4, false_iff]; omega
    · simp only [e1, false_iff]; omega
    · simp only [true_iff]; omega
    · simp only [e5, false_iff]; omega
  unfold element pot
  rw [hmix]
  simp only [hco]
  have hp : ∀ n : Nat, grid.p n = n + 1 / 2 := fun _ => rfl
  rw [hp, hp]
  by_cases h1 : a.L = d.L ∧ IsDeuteronS a
  · by_cases hij : i = j
    · subst hij
      rw [if_pos ⟨h1, rfl⟩, if_pos ⟨h1.1, h1.2, rfl⟩, show phase a.L d.L = 1 from if_pos h1.1]
      rw [strengthAt_eq hi]
      simp only [grid]
      have : ((i : ℝ) + 1 / 2) ≠ 0 := by positivity
      push_cast
      field_simp
      ring
    · have hne : ((j : ℝ) + 1 / 2) ≠ i + 1 / 2 := by
        intro h; apply hij
        have : (j : ℝ) = i := by linarith
        exact_mod_cast this.symm
      rw [if_neg (fun hh => hne hh.2), if_neg (fun hh => hij hh.2.2)]
      simp
  · rw [if_neg (fun hh => h1 hh.1), if_neg (fun hh => h1 ⟨hh.1, hh.2.1⟩)]
    simp

theorem kinetic_value {i : Nat} (hi : i < 3) : pairKinetic grid i = (3 * i * i + 3 * i + 1) / (6 * mu23) := by
  have h := C33_bin_average (i : ℝ) ((i : ℝ) + 1) (by linarith)
  unfold pairKinetic
  have e : ∀ n : Nat, grid.pWP n = (n : ℝ) := fun _ => rfl
  rw [e, e]
  push_cast
  rw [← h]
  unfold freeH
  have := mu23_pos
  field_simp
  ring

/-- Energy of a wave packet of the example. -/
def hOf (s : PWState) (i : Nat) : ℝ := pairKinetic grid i + if IsDeuteronS s then strength i else 0

theorem hOf_value : ∃ K : ℝ, 0 < K ∧ K < 1 ∧ ∀ s : PWState, ∀ i < 3,
    hOf s i = if IsDeuteronS s then (if i = 0 then -2 else if i = 1 then 100 + 7 * K else 200 + 19 * K) else (if i = 0 then K else if i = 1 then 7 * K else 19 * K) := by
  have hm := mu23_pos
  refine ⟨1 / (6 * mu23), by positivity, ?_, ?_⟩
  · rw [div_lt_one (by positivity)]
    have : (1 : ℝ) < mu23 := by norm_num [mu23, Mn, Mp]
    linarith
  · intro s i hi
    unfold hOf strength
    by_cases hs : IsDeuteronS s
    all_goals
      interval_cases i
      all_goals
        simp only [hs, if_true, if_false, one_ne_zero, OfNat.ofNat_ne_zero, OfNat.ofNat_ne_one]
        try rw [kinetic_value (by norm_num)]
        push_cast
        ring

/-- The only negative energy is the bound state. -/
theorem hOf_sign {s : PWState} {i : Nat} (hi : i < 3) : hOf s i ≠ 0 ∧ (hOf s i < 0 → hOf s i = -2 ∧ IsDeuteronS s ∧ i = 0) ∧ (IsDeuteronS s → hOf s 0 = -2) := by
  obtain ⟨K, h0, h1, hv⟩ := hOf_value
  rw [hv s i hi, hv s 0 (by norm_num)]
  refine ⟨?_, ?_, ?_⟩
  · split_ifs <;> first | positivity | norm_num
  · split_ifs <;> intro h <;> first | (exact ⟨rfl, by assumption, by assumption⟩) | (exfalso; linarith)
  · intro h; rw [if_pos h, if_pos rfl]

theorem hOf_inj {s t : PWState} {i j : Nat} (hi : i < 3) (hj : j < 3) (h : hOf s i = hOf t j) : (IsDeuteronS s ↔ IsDeuteronS t) ∧ i = j := by
  obtain ⟨K, h0, h1, hv⟩ := hOf_value
  rw [hv s i hi, hv t j hj] at h
  by_cases hs : IsDeuteronS s <;> by_cases ht : IsDeuteronS t
  all_goals
    simp only [hs, ht, if_true, if_false] at h
    interval_cases i <;> interval_cases j
    all_goals
      simp only [if_true, if_false, one_ne_zero, OfNat.ofNat_ne_zero, OfNat.ofNat_ne_one] at h
      first
        | (exfalso; linarith)
        | exact ⟨Iff.rfl, rfl⟩
        | exact ⟨by simp [hs, ht], rfl⟩

theorem second_iff {a d : PWState} (ha : Allowed par.J2max par.twoJ3max par.isoBreak a) (hd : Allowed par.J2max par.twoJ3max par.isoBreak d)
    (h : PairConnected a d) (he : IsDeuteronS a ↔ IsDeuteronS d) (N i : Nat) : chanPos N a i = chanPos N d i := by
  have ia := ha.2.2.2.2.2.2.2.2.2.2.2
  have id' := hd.2.2.2.2.2.2.2.2.2.2.2
  have hJ : a.J ≤ 1 := ha.2.2.2.2.2.2.2.2.1
  obtain ⟨f1, f2, f3, f4, f5, f6, f7⟩ := ha.facts
  obtain ⟨g1, g2, g3, g4, g5, g6, g7⟩ := hd.facts
  obtain ⟨⟨k1, k2, k3⟩, -, -⟩ := h
  unfold chanPos
  have e1 : a.twoT3 = 1 := ia.resolve_right (fun h => by simp [par] at h)
  have e2 : d.twoT3 = 1 := id'.resolve_right (fun h => by simp [par] at h)
  have : SecondMember a ↔ SecondMember d := by
    unfold SecondMember
    unfold IsDeuteronS at he
    clear * - k1 k2 k3 e1 e2 he hJ f1 f3 g1 g3
    omega
  simp only [this]

theorem same_L {a d : PWState} (h : PairConnected a d) (hL : a.L = d.L) : IsDeuteronS a ↔ IsDeuteronS d := by
  unfold IsDeuteronS; rw [hL, h.1.1, h.1.2.1]

/-- The pair Hamiltonian is diagonal. -/
theorem ham_diag {J P : Int} {states : List PWState} (h : IsChannel par J P states) (Nq : Nat) :
    interactionMatrix par.isoBreak grid pot states Nq + Matrix.diagonal (fun x => pairKinetic grid x.2.2) =
      Matrix.diagonal fun x => hOf (states.get x.1) x.2.2 := by
  ext x y
  rw [Matrix.add_apply]
  have ax := IsChannel.allowed h (List.get_mem states x.1)
  have ay := IsChannel.allowed h (List.get_mem states y.1)
  unfold interactionMatrix
  by_cases hxy : x = y
  · subst hxy
    have hc : PairConnected (states.get x.1) (states.get x.1) := ⟨⟨rfl, rfl, Or.inl rfl⟩, rfl, rfl⟩
    rw [if_pos ⟨rfl, hc⟩, Matrix.diagonal_apply_eq, Matrix.diagonal_apply_eq, element_value ax ax hc.1 x.2.2.2 x.2.2.2]
    unfold hOf
    rw [add_comm]
    simp
  · rw [Matrix.diagonal_apply_ne _ hxy, Matrix.diagonal_apply_ne _ hxy, add_zero]
    split_ifs with hc
    · rw [element_value ax ay hc.2.1 x.2.2.2 y.2.2.2, if_neg]
      rintro ⟨h1, h2, h3⟩
      have := second_iff ax ay hc.2 (same_L hc.2 h1) 3 x.2.2
      obtain ⟨q1, q2⟩ := chanPos_inj rfl h hc.2 x.2.2.2 y.2.2.2 (by rw [← h3]; exact this)
      exact hxy (Prod.ext q1 (Prod.ext hc.1 (Fin.ext q2)))
    · rfl

/-- Every energy of a scattering basis of this interaction is one of `hOf`, and its wave packet is a single bin. -/
theorem column {J P : Int} {states : List PWState} (h : IsChannel par J P states) {Nq : Nat} {Eb : ℝ}
    {C : Matrix (Idx states.length Nq grid.Np) (Idx states.length Nq grid.Np) ℝ} {lam : Fin states.length → Nat → ℝ}
    (hb : ScatteringBasis par.isoBreak grid pot states Nq Eb C lam) (y : Idx states.length Nq grid.Np) :
    ∃ x, C x y ≠ 0 ∧ ∀ z, C z y ≠ 0 → lam y.1 y.2.2 = hOf (states.get z.1) z.2.2 ∧ z = x := by
  have hs := hb.schroedinger
  rw [ham_diag h Nq] at hs
  have hel : ∀ z, C z y ≠ 0 → lam y.1 y.2.2 = hOf (states.get z.1) z.2.2 := by
    intro z hz
    have := congrFun (congrFun hs z) y
    rw [Matrix.diagonal_mul, Matrix.mul_diagonal] at this
    have : (hOf (states.get z.1) z.2.2 - lam y.1 y.2.2) * C z y = 0 := by linarith
    rcases mul_eq_zero.1 this with h | h
    · linarith
    · exact absurd h hz
  have hex : ∃ x, C x y ≠ 0 := by
    by_contra hno
    simp only [not_exists, not_not] at hno
    have := congrFun (congrFun hb.orthonormal y) y
    rw [Matrix.mul_apply, Matrix.one_apply_eq, Finset.sum_eq_zero (fun z _ => by rw [hno z]; ring)] at this
    exact zero_ne_one this
  obtain ⟨x, hx⟩ := hex
  refine ⟨x, hx, fun z hz => ⟨hel z hz, ?_⟩⟩
  have he := (hel z hz).symm.trans (hel x hx)
  obtain ⟨p1, p2⟩ := hb.pairOnly _ _ hx
  obtain ⟨p3, p4⟩ := hb.pairOnly _ _ hz
  have hc := pairConnected_trans p4 (pairConnected_symm p2)
  obtain ⟨i1, i2⟩ := hOf_inj z.2.2.2 x.2.2.2 he
  have := second_iff (IsChannel.allowed h (List.get_mem states z.1)) (IsChannel.allowed h (List.get_mem states x.1)) hc i1 3 z.2.2
  obtain ⟨q1, q2⟩ := chanPos_inj rfl h hc z.2.2.2 x.2.2.2 (by rw [← i2]; exact this)
  exact Prod.ext q1 (Prod.ext (p3.trans p1.symm) (Fin.ext q2))

theorem nondegenerate {J P : Int} {states : List PWState} (h : IsChannel par J P states) {Nq : Nat} (hq : 0 < Nq) {Eb : ℝ}
    {C : Matrix (Idx states.length Nq grid.Np) (Idx states.length Nq grid.Np) ℝ} {lam : Fin states.length → Nat → ℝ}
    (hb : ScatteringBasis par.isoBreak grid pot states Nq Eb C lam) : Nondegenerate states grid.Np lam := by
  constructor
  · intro a b i hi j hj hab hl
    let y : Idx states.length Nq grid.Np := (a, ⟨0, hq⟩, ⟨i, hi⟩)
    let z : Idx states.length Nq grid.Np := (b, ⟨0, hq⟩, ⟨j, hj⟩)
    obtain ⟨x, hx, hxu⟩ := column h hb y
    obtain ⟨x', hx', hxu'⟩ := column h hb z
    have e1 := (hxu x hx).1
    have e2 := (hxu' x' hx').1
    have he : hOf (states.get x.1) x.2.2 = hOf (states.get x'.1) x'.2.2 := by rw [← e1, ← e2]; exact hl
    obtain ⟨p1, p2⟩ := hb.pairOnly _ _ hx
    obtain ⟨p3, p4⟩ := hb.pairOnly _ _ hx'
    have hc : PairConnected (states.get x.1) (states.get x'.1) :=
      pairConnected_trans p2 (pairConnected_trans hab (pairConnected_symm p4))
    obtain ⟨i1, i2⟩ := hOf_inj x.2.2.2 x'.2.2.2 he
    have hcp := second_iff (IsChannel.allowed h (List.get_mem states x.1)) (IsChannel.allowed h (List.get_mem states x'.1)) hc i1 3 x.2.2
    obtain ⟨q1, q2⟩ := chanPos_inj rfl h hc x.2.2.2 x'.2.2.2 (by rw [← i2]; exact hcp)
    have hxx : x = x' := Prod.ext q1 (Prod.ext (p1.trans p3.symm) (Fin.ext q2))
    subst hxx
    by_contra hne
    have hyz : y ≠ z := by
      intro hh
      have h1 := congrArg Prod.fst hh
      have h2 := congrArg (fun t => (t.2.2 : Nat)) hh
      exact hne ⟨h1, h2⟩
    have := congrFun (congrFun hb.orthonormal y) z
    rw [Matrix.mul_apply, Matrix.one_apply_ne hyz, Finset.sum_eq_single x] at this
    · rw [Matrix.transpose_apply] at this
      exact (mul_ne_zero hx hx') this
    · intro t _ ht
      rw [Matrix.transpose_apply]
      by_cases h0 : C t y = 0
      · rw [h0, zero_mul]
      · exact absurd (hxu t h0).2 ht
    · intro hh; exact absurd (Finset.mem_univ _) hh
  · intro a i hi
    obtain ⟨x, hx, hxu⟩ := column h hb (a, ⟨0, hq⟩, ⟨i, hi⟩)
    have e1 := (hxu x hx).1
    have e2 : lam a i = hOf (states.get x.1) x.2.2 := e1
    rw [e2]
    exact (hOf_sign x.2.2.2).1

/-- The deuteron state with the nucleon in an S wave, total spin and parity 1/2⁺. -/
def deuteronState : PWState := { L := 0, S := 1, J := 1, T := 0, l := 0, twoj := 1, twoJ3 := 1, twoT3 := 1, P := 1 }

theorem deuteron_allowed : Allowed par.J2max par.twoJ3max par.isoBreak deuteronState := by
  unfold Allowed Couples par deuteronState
  decide

/-- The spectra of the example pass the check for bound states. -/
theorem swp_runs {w : PWSpace} (hw : constructPW par = some w) {M : Bool → Int → ℝ} (hM : HoldsPotential par grid pot w.states M) {diag : Diag}
    (hd : LapackContract diag) (garbage : Nat → ℝ) (C0 : Bool → Int → ℝ) :
    ∃ st, makeSwpStates par grid.Np grid.pWP M diag garbage C0 0 w.states = .ok st ∧ st.Eb = -2 := by
  obtain ⟨w', hw', hmem⟩ := C01_basis_exact par par_valid
  rw [hw] at hw'; cases hw'
  have hgrid : ∀ i < grid.Np, grid.pWP i < grid.pWP (i + 1) := by
    intro i _
    show ((i : Nat) : ℝ) < ((i + 1 : Nat) : ℝ)
    push_cast; linarith
  obtain ⟨st, hst⟩ := (C37_run par rfl par_valid w hw grid.Np grid.pWP hgrid M (pot_symm rfl par_valid hw hM pot_hermitian) diag hd garbage C0 0).1 (by
    intro s hs b n hsl lam z hdec
    have hent := fun r hr c hc => ham_entry (r := r) (c := c) rfl par_valid hw hM hs hsl hr hc
    have hdim : 0 < chnDim grid.Np b := by cases b <;> simp [chnDim, grid]
    have hdg : ∀ r < chnDim grid.Np b, ∃ a : PWState, PairConnected s a ∧ ∃ i < 3, chanPos 3 a i = r ∧
        hamiltonian grid.Np grid.pWP (fun r c => M b (n * (chnDim grid.Np b * chnDim grid.Np b : Nat) + (r * chnDim grid.Np b + c : Nat))) r r = hOf a i ∧
        Allowed par.J2max par.twoJ3max par.isoBreak a := by
      intro r hr
      obtain ⟨a, d, m1, m2, c1, c2, i, hi, j, hj, e1, e2, e3, e4⟩ := hent r hr r hr
      obtain ⟨rfl, rfl⟩ := e3 rfl
      have al := (hmem a).1 m1
      refine ⟨a, c1, i, hi, e1, ?_, al⟩
      rw [e4, element_value al al ⟨rfl, rfl, Or.inl rfl⟩ hi hi, if_pos rfl]
      unfold hOf
      rw [add_comm]
      simp
    obtain ⟨g1, g2⟩ := diagonal_one_negative (chnDim grid.Np b) hdim _
      (fun r => hamiltonian grid.Np grid.pWP (fun r c => M b (n * (chnDim grid.Np b * chnDim grid.Np b : Nat) + (r * chnDim grid.Np b + c : Nat))) r r) (by
      intro r hr c hc
      by_cases hrc : r = c
      · rw [if_pos hrc, hrc]
      · rw [if_neg hrc]
        obtain ⟨a, d, m1, m2, c1, c2, i, hi, j, hj, e1, e2, e3, e4⟩ := hent r hr c hc
        have had := pairConnected_trans (pairConnected_symm c1) c2
        have al := (hmem a).1 m1
        have dl := (hmem d).1 m2
        rw [e4, element_value al dl had.1 hi hj, if_neg hrc, if_neg, add_zero]
        rintro ⟨h1, h2, h3⟩
        apply hrc
        rw [← e1, ← e2, ← h3]
        exact second_iff al dl had (same_L had h1) _ _) (by
      intro r h1 hr
      obtain ⟨a, c1, i, hi, e1, e2, al⟩ := hdg r hr
      rw [e2]
      by_contra hneg
      obtain ⟨-, d1, d2⟩ := (hOf_sign hi).2.1 (not_le.1 hneg)
      have : chanPos 3 a i = 0 := by
        unfold chanPos
        rw [if_neg ((secondMember_iff_deuteron al).2 d1).1, d2]
      omega) lam z hdec
    obtain ⟨a, c1, i, hi, e1, e2, al⟩ := hdg 0 hdim
    have h0 : ¬ SecondMember a ∧ i = 0 := by
      unfold chanPos at e1
      split_ifs at e1 with h
      · omega
      · exact ⟨h, e1⟩
    have hdch : IsDeuteronChannel s ↔ IsDeuteronChannel a := by
      unfold IsDeuteronChannel
      obtain ⟨⟨k1, k2, k3⟩, -, -⟩ := c1
      omega
    by_cases hde : IsDeuteronChannel s
    · rw [if_pos hde]
      apply g1
      have hS : IsDeuteronS a := by
        rcases (secondMember_iff_deuteron al).1.1 (hdch.1 hde) with h | h
        · exact h
        · exact absurd h.2 h0.1
      rw [e2, h0.2, (hOf_sign (s := a) (i := 0) (by norm_num)).2.2 hS]
      norm_num
    · rw [if_neg hde]
      apply g2
      rw [e2]
      by_contra hneg
      obtain ⟨-, d1, d2⟩ := (hOf_sign hi).2.1 (not_le.1 hneg)
      exact hde (hdch.2 ((secondMember_iff_deuteron al).2 d1).2))
  refine ⟨st, hst, ?_⟩
  have hch := channel_of_state par_valid hw 1 1
  set L := w.states.filter fun x => decide (x.twoJ3 = 1 ∧ x.P = 1) with hL
  have hbas := basis_of_run rfl par_valid hw hgrid pot_hermitian hM hd hst hch (fun x hx => (List.mem_filter.1 hx).1) 1
  have hmL : deuteronState ∈ L := (hch.2 _).2 ⟨deuteron_allowed, rfl, rfl⟩
  obtain ⟨a, ha⟩ := List.mem_iff_get.1 hmL
  obtain ⟨b1, b2⟩ := hbas.bound a (by rw [ha]; exact ⟨rfl, rfl, rfl⟩) (by norm_num [grid])
  obtain ⟨x, hx, hxu⟩ := column hch hbas (a, ⟨0, by norm_num⟩, ⟨0, by norm_num [grid]⟩)
  have e1 := (hxu x hx).1
  have e2 : hOf (L.get x.1) x.2.2 = st.Eb := by rw [← e1]; exact b1
  rw [← e2]
  exact ((hOf_sign x.2.2.2).2.1 (by rw [e2]; exact b2)).1

/-- Three entries of a permutation matrix, unsorted, one repeated position. -/
def perm : List (Entry ℝ) := [⟨7, 3, 1 / 2⟩, ⟨0, 1, 1⟩, ⟨7, 3, 1⟩]

/-- Two q bins with boundaries 0, 1, 2 MeV; one requested lab energy. -/
def input : RunInput :=
  { p := par, g := grid, Nq := 2, q := fun i => i, pot := pot, Tlab := [midT (fun i => i) (-2) 0], dense := false, breakup := false }

theorem block_size {w : PWSpace} (hw : constructPW par = some w) : w.nChn = 2 ∧ (w.block 0).length = 10 := by
  have : ((constructPW par).map fun w => (w.nChn, (w.block 0).length)) = some (2, 10) := by rfl
  rw [hw] at this
  simpa using this

/-- On every machine the run of the example completes; it reports at least one energy and has a deuteron state, for every permutation
matrix. -/
theorem example_run_env {w : PWSpace} (hw : constructPW par = some w) (perm : List (Entry ℝ)) (hperm : ∀ e ∈ perm, e.row < 60 ∧ e.col < 60)
    (env : RunEnv) (hd : LapackContract env.diag) (hsch : env.sched.Perm (List.range 10)) :
    ∃ (s : RunSetup) (U UBU : Nat → Option ℂ), RunHyps input env w 0 perm ∧ RunChannel input env w 0 perm s U UBU ∧
    -(Mn + Mp) < s.swp.Eb ∧ s.swp.Eb = -2 ∧ s.os.Tlab ≠ [] ∧ ∃ a ∈ w.block 0, IsDeuteronS a := by
  obtain ⟨n1, n2⟩ := block_size hw
  have hch := (block_channel par_valid hw (show 0 < w.nChn by omega)).1
  have H : RunHyps input env w 0 perm :=
    { basis := hw, tensor := rfl, valid := par_valid, mid := Or.inr rfl, hermitian := pot_hermitian
      pgrid := fun i _ => by
        show ((i : Nat) : ℝ) < ((i + 1 : Nat) : ℝ)
        push_cast; linarith
      bins := le_refl 3
      qgrid := ⟨by simp [input], fun i _ => by simp [input]⟩
      lapack := hd, channel := by omega
      entries := by
        intro e he
        rw [n2]
        exact hperm e he
      sched := by rw [n2]; exact hsch
      size := by rw [n2]; simp [input, grid]
      simple := fun Eb C lam hb => nondegenerate hch (show 0 < 2 by norm_num) hb }
  have hEb : ∀ M, potArrays input.p input.g input.pot env.junkV env.initV w.states = some M →
      ∃ st, makeSwpStates input.p input.g.Np input.g.pWP (fun b i => M (b, i)) env.diag env.garbage env.C0 0 w.states = .ok st ∧ st.Eb = -2 := by
    intro M hM
    obtain ⟨M', hM', hread⟩ := potArrays_read (p := par) rfl par_valid hw (g := grid) (Or.inr rfl) pot env.junkV env.initV
    have : M = M' := by
      have h2 : some M = some M' := hM.symm.trans hM'
      exact Option.some.inj h2
    subst this
    have hh : HoldsPotential par grid pot w.states (fun b i => M (b, i)) := hread
    exact swp_runs hw hh hd _ _
  obtain ⟨s, U, UBU, hrun, hb⟩ := C80_completes H rfl rfl (by
    intro i hi
    have hi2 : i < 2 := hi
    show 1.0011 * ((i : Nat) : ℝ) ≤ ((i + 1 : Nat) : ℝ)
    interval_cases i <;> norm_num) (fun M hM => by
      obtain ⟨st, h1, h2⟩ := hEb M hM
      exact ⟨st, h1, by rw [h2]; norm_num, by rw [h2]; norm_num⟩)
  obtain ⟨ents, -, hset, -⟩ := id hrun
  obtain ⟨M, bu, Gs, CT, VC, hM, hst, hos, -⟩ := runSetup_ok hset
  obtain ⟨st, h1, h2⟩ := hEb M hM
  have hswp : s.swp = st := by
    have := hst.symm.trans h1
    exact Except.ok.inj this
  have hE : s.swp.Eb = -2 := by rw [hswp, h2]
  have hdm : deuteronState ∈ w.block 0 := (hch.2 _).2 ⟨deuteron_allowed, rfl, rfl⟩
  refine ⟨s, U, UBU, H, hrun, hb, hE, ?_, deuteronState, hdm, rfl, rfl, rfl⟩
  rw [(findOnShell_ok hos).1, hE]
  have hg : IsGrid 2 (fun i : Nat => (i : ℝ)) := ⟨by simp, fun i _ => by simp⟩
  have hmono : midT (fun i : Nat => (i : ℝ)) (-2) 0 ≤ midT (fun i : Nat => (i : ℝ)) (-2) 1 :=
    (midT_strict hg (by norm_num [Mn, Mp]) 0 1 (by norm_num) (by norm_num)).le
  intro hnil
  rw [List.map_eq_nil_iff] at hnil
  have : 0 ∈ onShellBins 2 (fun i : Nat => (i : ℝ)) (-2) [midT (fun i : Nat => (i : ℝ)) (-2) 0] :=
    (mem_onShellBins _ _ _ _ _).2 ⟨by norm_num, _, List.mem_singleton.2 rfl, Or.inl ⟨by norm_num, le_refl _, hmono⟩⟩
  have hnil' : onShellBins 2 (fun i : Nat => (i : ℝ)) (-2) [midT (fun i : Nat => (i : ℝ)) (-2) 0] = [] := hnil
  rw [hnil'] at this
  exact absurd this List.not_mem_nil

/-- There is a complete run that meets all hypotheses, reports at least one energy, and has a deuteron state, for every permutation matrix. -/
theorem example_run {w : PWSpace} (hw : constructPW par = some w) (perm : List (Entry ℝ)) (hperm : ∀ e ∈ perm, e.row < 60 ∧ e.col < 60) :
    ∃ (env : RunEnv) (s : RunSetup) (U UBU : Nat → Option ℂ), RunHyps input env w 0 perm ∧ RunChannel input env w 0 perm s U UBU ∧
    -(Mn + Mp) < s.swp.Eb ∧ s.swp.Eb = -2 ∧ s.os.Tlab ≠ [] ∧ ∃ a ∈ w.block 0, IsDeuteronS a := by
  obtain ⟨diag, hd⟩ := exists_lapack
  exact ⟨{ diag := diag, junkV := fun _ _ _ _ => 7, initV := fun _ => 7, garbage := fun _ => 7, C0 := fun _ _ => 7, junkCT := fun _ _ _ => 7
           junkVC := fun _ _ _ => 7, G0 := fun _ => 7, junkBU := fun _ => 7, sched := List.range 10, pade := ⟨fun _ => some 7, fun _ => none, fun _ => 7, fun _ => 7⟩ },
    example_run_env hw perm hperm _ hd (List.Perm.refl _)⟩

/-- **Non-vacuity of C80.** -/
example : ∃ (env : RunEnv) (w : PWSpace) (s : RunSetup) (U UBU : Nat → Option ℂ), RunHyps input env w 0 perm ∧ RunChannel input env w 0 perm s U UBU ∧
    -(Mn + Mp) < s.swp.Eb ∧ s.swp.Eb = -2 ∧ s.os.Tlab ≠ [] ∧ ∃ a ∈ w.block 0, IsDeuteronS a := by
  obtain ⟨w, hw, hmem⟩ := C01_basis_exact par par_valid
  obtain ⟨env, s, U, UBU, h⟩ := example_run hw perm (by
    intro e he
    simp only [perm, List.mem_cons, List.not_mem_nil, or_false] at he
    rcases he with rfl | rfl | rfl <;> simp)
  exact ⟨env, w, s, U, UBU, h⟩

end Example
end TicTac
end
