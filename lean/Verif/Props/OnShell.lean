import Verif.Model.OnShell
import Verif.Spec.OnShell
import Verif.Props.Resolvent
import Mathlib.Data.List.Induction
/-! On-shell energies and bins: C38, C39, C40, C74, C75. -/
noncomputable section
namespace TicTac
open Spec

theorem mu1_pos {Eb : ℝ} (h : -(Mn + Mp) < Eb) : 0 < deuteronMass Eb ∧ 0 < mu1 Eb := by
  have h1 : 0 < deuteronMass Eb := by unfold deuteronMass; linarith
  have := Mn_pos
  exact ⟨h1, by unfold mu1; positivity⟩

theorem midE_eq (q : Nat → ℝ) (Eb : ℝ) (i : Nat) : midE q Eb i = (ndEnergy Eb (q i) + ndEnergy Eb (q (i + 1))) / 2 := by
  unfold midE
  simp only [nd_unfold]
  rw [← div_div, ← div_div]
  ring

theorem midE_nonneg {Eb : ℝ} (h : -(Mn + Mp) < Eb) (q : Nat → ℝ) (i : Nat) : 0 ≤ midE q Eb i := by
  have := (mu1_pos h).2
  rw [midE_eq]; simp only [nd_unfold]; positivity

theorem midT_spec {Eb : ℝ} (h : -(Mn + Mp) < Eb) (q : Nat → ℝ) (i : Nat) :
    0 ≤ midT q Eb i ∧ labEnergyToComMomentum (midT q Eb i) Eb = comEnergyToComQ (midE q Eb i) ∧
    comQToComEnergy (labEnergyToComMomentum (midT q Eb i) Eb) = midE q Eb i ∧ IsMidpointEnergy q Eb i (midT q Eb i) := by
  have hq : 0 ≤ comEnergyToComQ (midE q Eb i) := by unfold comEnergyToComQ; exact Real.sqrt_nonneg _
  obtain ⟨a, b⟩ := C22_com_roundtrip _ Eb (mu1_pos h).1 hq
  have c := (C22_q_energy (midE q Eb i) 0 (midE_nonneg h q i) le_rfl).1
  have d : comQToComEnergy (labEnergyToComMomentum (midT q Eb i) Eb) = midE q Eb i := by
    unfold midT; rw [b, c]
  exact ⟨a, b, d, a, by rw [d, midE_eq]⟩

theorem grid_nonneg {N : Nat} {q : Nat → ℝ} (h : IsGrid N q) : ∀ i ≤ N, 0 ≤ q i := by
  intro i
  induction i with
  | zero => intro _; exact h.1
  | succ i ih => intro hi; exact (ih (by omega)).trans (h.2 i (by omega)).le

theorem midE_strict {N : Nat} {q : Nat → ℝ} (h : IsGrid N q) {Eb : ℝ} (hEb : -(Mn + Mp) < Eb) (i : Nat) (hi : i + 1 < N) :
    midE q Eb i < midE q Eb (i + 1) := by
  have := (mu1_pos hEb).2
  rw [midE_eq, midE_eq]
  have h1 := h.2 i (by omega)
  have h2 := h.2 (i + 1) (by omega)
  have h0 := grid_nonneg h i (by omega)
  have : ndEnergy Eb (q i) < ndEnergy Eb (q (i + 1 + 1)) := by
    simp only [nd_unfold]
    apply div_lt_div_of_pos_right _ (by positivity)
    nlinarith
  linarith

theorem midT_strict {N : Nat} {q : Nat → ℝ} (h : IsGrid N q) {Eb : ℝ} (hEb : -(Mn + Mp) < Eb) :
    ∀ i j, i < j → j < N → midT q Eb i < midT q Eb j := by
  have step : ∀ i, i + 1 < N → midT q Eb i < midT q Eb (i + 1) := by
    intro i hi
    unfold midT
    apply C22_com_to_lab_strict _ _ _ (mu1_pos hEb).1 (Real.sqrt_nonneg _)
    exact (C22_q_energy (midE q Eb i) 0 (midE_nonneg hEb q i) le_rfl).2.2.1 _ (midE_strict h hEb i hi)
  intro i j hij
  induction j, hij using Nat.le_induction with
  | base => intro hj; exact step i hj
  | succ j _ ih => intro hj; exact (ih (by omega)).trans (step j hj)

theorem binMark_eq (Nq : Nat) (mark : Nat → Bool) (i : Nat) :
    binMark Nq mark i = true ↔ (i < Nq - 1 ∧ mark i = true) ∨ (1 ≤ i ∧ i - 1 < Nq - 1 ∧ mark (i - 1) = true) := by
  unfold binMark
  generalize Nq - 1 = m
  induction m with
  | zero => simp
  | succ m ih =>
    rw [List.range_succ, List.foldl_append]
    simp only [List.foldl_cons, List.foldl_nil]
    generalize (List.range m).foldl _ _ = b at ih ⊢
    by_cases hm : mark m = true
    · rw [if_pos hm, Function.update_apply, Function.update_apply]
      by_cases h1 : i = m + 1
      · subst h1; simp [hm]
      · rw [if_neg h1]
        by_cases h2 : i = m
        · subst h2; simp [hm]
        · rw [if_neg h2, ih]
          constructor
          · rintro (⟨a, b⟩ | ⟨a, b, c⟩)
            · exact Or.inl ⟨by omega, b⟩
            · exact Or.inr ⟨a, by omega, c⟩
          · rintro (⟨a, b⟩ | ⟨a, b, c⟩)
            · exact Or.inl ⟨by omega, b⟩
            · exact Or.inr ⟨a, by omega, c⟩
    · rw [if_neg hm, ih]
      constructor
      · rintro (⟨a, b⟩ | ⟨a, b, c⟩)
        · exact Or.inl ⟨by omega, b⟩
        · exact Or.inr ⟨a, by omega, c⟩
      · rintro (⟨a, b⟩ | ⟨a, b, c⟩)
        · refine Or.inl ⟨?_, b⟩
          by_contra hx
          have : i = m := by omega
          subst this; exact hm b
        · refine Or.inr ⟨a, ?_, c⟩
          by_contra hx
          have : i - 1 = m := by omega
          rw [this] at c; exact hm c

/-- Which bins become on-shell bins: exactly the two neighbours of a requested energy. -/
theorem mem_onShellBins (Nq : Nat) (q : Nat → ℝ) (Eb : ℝ) (inputs : List ℝ) (i : Nat) :
    i ∈ onShellBins Nq q Eb inputs ↔ i < Nq ∧ ∃ T ∈ inputs, (i + 1 < Nq ∧ midT q Eb i ≤ T ∧ T ≤ midT q Eb (i + 1)) ∨
      (1 ≤ i ∧ midT q Eb (i - 1) ≤ T ∧ T ≤ midT q Eb i) := by
  classical
  unfold onShellBins
  rw [List.mem_filter, List.mem_range, binMark_eq]
  unfold midMark
  simp only [Bool.and_eq_true, decide_eq_true_eq, List.any_eq_true]
  constructor
  · rintro ⟨h, (⟨a, -, T, hT, b⟩ | ⟨a, b, -, T, hT, c⟩)⟩
    · exact ⟨h, T, hT, Or.inl ⟨by omega, b⟩⟩
    · rw [Nat.sub_add_cancel a] at c
      exact ⟨h, T, hT, Or.inr ⟨a, c⟩⟩
  · rintro ⟨h, T, hT, (⟨a, b⟩ | ⟨a, b⟩)⟩
    · exact ⟨h, Or.inl ⟨by omega, by omega, T, hT, b⟩⟩
    · exact ⟨h, Or.inr ⟨a, by omega, by omega, T, hT, by rw [Nat.sub_add_cancel a]; exact b⟩⟩

theorem onShellBins_sorted (Nq : Nat) (q : Nat → ℝ) (Eb : ℝ) (inputs : List ℝ) : (onShellBins Nq q Eb inputs).Pairwise (· < ·) :=
  List.Pairwise.sublist List.filter_sublist List.pairwise_lt_range

theorem mapM_ok {α β : Type} (f : α → Except Stop β) (l : List α) (r : List β) (h : l.mapM f = .ok r) :
    r.length = l.length ∧ ∀ k (h1 : k < l.length) (h2 : k < r.length), f l[k] = .ok r[k] := by
  induction l generalizing r with
  | nil =>
    simp [pure, Except.pure] at h
    subst h; simp
  | cons a l ih =>
    rw [List.mapM_cons] at h
    rcases ha : f a with s | b
    · rw [ha] at h; simp [bind, Except.bind] at h
    · rw [ha] at h
      rcases hl : l.mapM f with s | bs
      · rw [hl] at h; simp [bind, Except.bind] at h
      · rw [hl] at h
        simp only [bind, Except.bind, pure, Except.pure, Except.ok.injEq] at h
        subst h
        obtain ⟨h1, h2⟩ := ih bs hl
        refine ⟨by simp [h1], fun k hk1 hk2 => ?_⟩
        cases k with
        | zero => simpa using ha
        | succ k => simpa using h2 k (by simpa using hk1) (by simpa using hk2)

theorem mapM_ok_of {α β : Type} (f : α → Except Stop β) (g : α → β) (l : List α) (h : ∀ a ∈ l, f a = .ok (g a)) : l.mapM f = .ok (l.map g) := by
  induction l with
  | nil => rfl
  | cons a l ih =>
    rw [List.mapM_cons, h a (by simp), ih (fun x hx => h x (by simp [hx]))]
    rfl

/-- Shape of a successful run. -/
theorem findOnShell_ok {Nq : Nat} {q : Nat → ℝ} {Eb : ℝ} {inputs : List ℝ} {o : OnShell} (h : findOnShell Nq q Eb inputs = .ok o) :
    o.Tlab = (onShellBins Nq q Eb inputs).map (midT q Eb) ∧ o.qcom = o.Tlab.map (fun T => labEnergyToComMomentum T Eb) ∧
    o.Ecom = o.qcom.map comQToComEnergy ∧ o.qcom.mapM (findQBin Nq q) = .ok o.qIdx := by
  unfold findOnShell at h
  simp only [bind, Except.bind] at h
  split at h
  · simp at h
  · rename_i r hr
    simp only [pure, Except.pure, Except.ok.injEq] at h
    subst h
    exact ⟨rfl, rfl, rfl, hr⟩

/-- **C38.** Every requested energy between the first and the last midpoint energy is bracketed by the midpoint
energies of two neighbouring bins, both of which are in the list of computed energies.  (Energies outside that range are
silently dropped, see `C38_outside_dropped`.) -/
theorem C38_bracketed (Nq : Nat) (q : Nat → ℝ) (hg : IsGrid Nq q) (Eb : ℝ) (hEb : -(Mn + Mp) < Eb) (inputs : List ℝ)
    (o : OnShell) (ho : findOnShell Nq q Eb inputs = .ok o) (T : ℝ) (hT : T ∈ inputs) (t0 t1 : ℝ) (hN : 2 ≤ Nq)
    (h0 : IsMidpointEnergy q Eb 0 t0) (h1 : IsMidpointEnergy q Eb (Nq - 1) t1) (hlo : t0 ≤ T) (hhi : T ≤ t1) :
    ∃ i a b, i + 1 < Nq ∧ IsMidpointEnergy q Eb i a ∧ IsMidpointEnergy q Eb (i + 1) b ∧ a ∈ o.Tlab ∧ b ∈ o.Tlab ∧ a ≤ T ∧ T ≤ b := by
  have huniq : ∀ i t, IsMidpointEnergy q Eb i t → t = midT q Eb i := by
    intro i t ht
    obtain ⟨s0, s1, s2, -⟩ := midT_spec hEb q i
    have hm := (mu1_pos hEb).1
    have he : comQToComEnergy (labEnergyToComMomentum t Eb) = comQToComEnergy (labEnergyToComMomentum (midT q Eb i) Eb) := by
      rw [ht.2, s2, midE_eq]
    by_contra hne
    have key : ∀ x y, 0 ≤ x → x < y → comQToComEnergy (labEnergyToComMomentum x Eb) < comQToComEnergy (labEnergyToComMomentum y Eb) := by
      intro x y hx hxy
      exact (C22_q_energy 0 _ le_rfl (Real.sqrt_nonneg _)).2.2.2 _ (C22_lab_to_com_strict x y Eb hm hx hxy)
    rcases lt_or_gt_of_ne hne with hlt | hlt
    · exact absurd he (key _ _ ht.1 hlt).ne
    · exact absurd he (key _ _ s0 hlt).ne'
  rw [huniq 0 t0 h0] at hlo
  rw [huniq _ t1 h1] at hhi
  have hex : ∀ m, m < Nq → T ≤ midT q Eb m → 1 ≤ m → ∃ i, i + 1 < Nq ∧ midT q Eb i ≤ T ∧ T ≤ midT q Eb (i + 1) := by
    intro m
    induction m with
    | zero => intro _ _ h; omega
    | succ m ih =>
      intro hm hT' _
      by_cases hc : midT q Eb m ≤ T
      · exact ⟨m, hm, hc, hT'⟩
      · rcases Nat.eq_zero_or_pos m with rfl | hp
        · exact absurd hlo hc
        · exact ih (by omega) (not_le.1 hc).le hp
  obtain ⟨i, hi, a, b⟩ := hex (Nq - 1) (by omega) hhi (by omega)
  obtain ⟨e1, -⟩ := findOnShell_ok ho
  refine ⟨i, midT q Eb i, midT q Eb (i + 1), hi, (midT_spec hEb q i).2.2.2, (midT_spec hEb q (i + 1)).2.2.2, ?_, ?_, a, b⟩
  · rw [e1]; exact List.mem_map_of_mem ((mem_onShellBins _ _ _ _ _).2 ⟨by omega, T, hT, Or.inl ⟨hi, a, b⟩⟩)
  · rw [e1]; exact List.mem_map_of_mem ((mem_onShellBins _ _ _ _ _).2 ⟨by omega, T, hT, Or.inr ⟨by omega, by simpa using ⟨a, b⟩⟩⟩)

/-- C38 fails for energies outside the midpoints: if all requested energies are, the program computes nothing and does
not stop. -/
theorem C38_outside_dropped (Nq : Nat) (q : Nat → ℝ) (hg : IsGrid Nq q) (Eb : ℝ) (hEb : -(Mn + Mp) < Eb) (inputs : List ℝ)
    (h : ∀ T ∈ inputs, T < midT q Eb 0 ∨ midT q Eb (Nq - 1) < T) :
    findOnShell Nq q Eb inputs = .ok ⟨[], [], [], []⟩ := by
  have hmono : ∀ i j, i ≤ j → j < Nq → midT q Eb i ≤ midT q Eb j := by
    intro i j hij hj
    rcases Nat.lt_or_eq_of_le hij with hl | rfl
    · exact (midT_strict hg hEb i j hl hj).le
    · exact le_rfl
  have hnil : onShellBins Nq q Eb inputs = [] := by
    rw [List.eq_nil_iff_forall_not_mem]
    intro i hi
    obtain ⟨hN, T, hT, hx⟩ := (mem_onShellBins _ _ _ _ _).1 hi
    rcases hx with ⟨a, b, c⟩ | ⟨a, b, c⟩
    · rcases h T hT with h' | h'
      · have := hmono 0 i (by omega) (by omega); linarith
      · have := hmono (i + 1) (Nq - 1) (by omega) (by omega); linarith
    · rcases h T hT with h' | h'
      · have := hmono 0 (i - 1) (by omega) (by omega); linarith
      · have := hmono i (Nq - 1) (by omega) (by omega); linarith
  unfold findOnShell
  rw [hnil]
  rfl

/-- The hypothesis of `C38_outside_dropped` is met by a request above the grid. -/
example : findOnShell 2 (fun i => i) (-2.2) [midT (fun i => i) (-2.2) 1 + 1] = .ok ⟨[], [], [], []⟩ := by
  apply C38_outside_dropped 2 (fun i => i) ⟨by simp, fun i _ => by push_cast; linarith⟩ (-2.2) (by norm_num [Mn, Mp])
  intro T hT
  right
  simp only [List.mem_singleton] at hT
  rw [hT]
  norm_num

/-! ### C39 -/

theorem findQBin_ok {Nq : Nat} {q : Nat → ℝ} {qc : ℝ} {i : Nat} (h : findQBin Nq q qc = .ok i) : i < Nq ∧ q i < qc ∧ qc < q (i + 1) := by
  unfold findQBin at h
  split at h
  · rename_i k hk
    simp only [Except.ok.injEq] at h
    subst h
    have h1 := List.find?_some hk
    have h2 := List.mem_of_find?_eq_some hk
    simp only [Bool.and_eq_true, decide_eq_true_eq] at h1
    exact ⟨List.mem_range.1 h2, h1⟩
  · simp at h

theorem findQBin_of {Nq : Nat} {q : Nat → ℝ} (hg : IsGrid Nq q) {qc : ℝ} {i : Nat} (hi : i < Nq) (h1 : q i < qc) (h2 : qc < q (i + 1)) :
    findQBin Nq q qc = .ok i := by
  classical
  have hmono : ∀ i j, i ≤ j → j ≤ Nq → q i ≤ q j := by
    intro i j hij
    induction j, hij using Nat.le_induction with
    | base => intro _; exact le_rfl
    | succ j _ ih => intro hj; exact (ih (by omega)).trans (hg.2 j (by omega)).le
  rcases hf : (List.range Nq).find? (fun i => decide (q i < qc) && decide (qc < q (i + 1))) with _ | k
  · rw [List.find?_eq_none] at hf
    have := hf i (List.mem_range.2 hi)
    simp [h1, h2] at this
  · have e : findQBin Nq q qc = .ok k := by
      unfold findQBin; rw [hf]
    obtain ⟨a, b, c⟩ := findQBin_ok e
    rw [e]
    congr 1
    by_contra hne
    rcases lt_or_gt_of_ne hne with hl | hl
    · have := hmono (k + 1) i hl (by omega); linarith
    · have := hmono (i + 1) k hl (by omega); linarith

/-- **C39.** The computed energies are strictly increasing midpoint energies of bins; c.m. energies are the midpoints; each
recorded bin index is in range and its bin contains the on-shell momentum. -/
theorem C39_on_shell_rows (Nq : Nat) (q : Nat → ℝ) (hg : IsGrid Nq q) (Eb : ℝ) (hEb : -(Mn + Mp) < Eb) (inputs : List ℝ)
    (o : OnShell) (ho : findOnShell Nq q Eb inputs = .ok o) :
    o.Tlab.Pairwise (· < ·) ∧
    (∃ bins : List Nat, bins.Pairwise (· < ·) ∧ o.Tlab.length = bins.length ∧ o.Ecom.length = bins.length ∧
      ∀ k (h1 : k < bins.length) (h2 : k < o.Tlab.length) (h3 : k < o.Ecom.length), bins[k] < Nq ∧ IsMidpointEnergy q Eb bins[k] o.Tlab[k] ∧
        o.Ecom[k] = (ndEnergy Eb (q bins[k]) + ndEnergy Eb (q (bins[k] + 1))) / 2) ∧
    o.qIdx.length = o.Tlab.length ∧ o.qcom.length = o.Tlab.length ∧
    ∀ k (h1 : k < o.qIdx.length) (h2 : k < o.qcom.length), o.qIdx[k] < Nq ∧ q o.qIdx[k] < o.qcom[k] ∧ o.qcom[k] < q (o.qIdx[k] + 1) := by
  obtain ⟨e1, e2, e3, e4⟩ := findOnShell_ok ho
  have hs := onShellBins_sorted Nq q Eb inputs
  have hmem := mem_onShellBins Nq q Eb inputs
  set bins := onShellBins Nq q Eb inputs with hbins
  obtain ⟨l1, l2⟩ := mapM_ok _ _ _ e4
  refine ⟨?_, ⟨bins, hs, by rw [e1]; simp, by rw [e3, e2, e1]; simp, ?_⟩, by rw [l1, e2]; simp, by rw [e2]; simp, fun k h1 h2 => findQBin_ok (l2 k h2 h1)⟩
  · rw [e1, List.pairwise_map]
    exact hs.imp_of_mem fun {a b} ha hb hab => midT_strict hg hEb a b hab ((hmem b).1 hb).1
  · intro k h1 h2 h3
    have hk := ((hmem bins[k]).1 (List.getElem_mem h1)).1
    refine ⟨hk, ?_, ?_⟩
    · simp only [e1, List.getElem_map]
      exact (midT_spec hEb q _).2.2.2
    · simp only [e3, e2, e1, List.getElem_map]
      rw [(midT_spec hEb q _).2.2.1, midE_eq]

/-- Ratio of the average nucleon mass used for momenta to the reduced mass used for energies. -/
theorem mass_ratio (Eb : ℝ) (h1 : -3 ≤ Eb) (h2 : Eb ≤ 0) : 0.4997 ≤ MN / (3 * mu1 Eb) ∧ MN / (3 * mu1 Eb) ≤ 0.5001 := by
  have hm : 0 < mu1 Eb := (mu1_pos (by norm_num [Mn, Mp]; linarith)).2
  have hd : (0:ℝ) < 939.565 + (939.565 + 938.272 + Eb) := by linarith
  rw [le_div_iff₀ (by positivity), div_le_iff₀ (by positivity)]
  unfold mu1 deuteronMass MN Mn Mp
  constructor
  · rw [show (0.4997 : ℝ) * (3 * (939.565 * (939.565 + 938.272 + Eb) / (939.565 + (939.565 + 938.272 + Eb)))) =
      (0.4997 * 3 * 939.565 * (939.565 + 938.272 + Eb)) / (939.565 + (939.565 + 938.272 + Eb)) by ring, div_le_iff₀ hd]
    nlinarith
  · rw [show (0.5001 : ℝ) * (3 * (939.565 * (939.565 + 938.272 + Eb) / (939.565 + (939.565 + 938.272 + Eb)))) =
      (0.5001 * 3 * 939.565 * (939.565 + 938.272 + Eb)) / (939.565 + (939.565 + 938.272 + Eb)) by ring, le_div_iff₀ hd]
    nlinarith

theorem qm_sq {Eb : ℝ} (hEb : -(Mn + Mp) < Eb) (q : Nat → ℝ) (i : Nat) :
    comEnergyToComQ (midE q Eb i) ^ 2 = MN / (3 * mu1 Eb) * (q i ^ 2 + q (i + 1) ^ 2) := by
  have hm := (mu1_pos hEb).2
  have hM := MN_pos
  have h0 := midE_nonneg hEb q i
  unfold comEnergyToComQ
  rw [Real.sq_sqrt (by positivity), midE_eq]
  simp only [nd_unfold]
  field_simp
  ring

/-- **C39, bin indices.** For deuteron-like binding energies and bins wider than 0.11 %, the run does not stop and the
recorded indices are exactly the bins whose midpoints were selected, hence distinct and increasing. -/
theorem C39_indices (Nq : Nat) (q : Nat → ℝ) (hg : IsGrid Nq q) (hw : ∀ i < Nq, 1.0011 * q i ≤ q (i + 1)) (Eb : ℝ) (h1 : -3 ≤ Eb) (h2 : Eb ≤ 0)
    (inputs : List ℝ) :
    ∃ o, findOnShell Nq q Eb inputs = .ok o ∧ o.qIdx.Pairwise (· < ·) ∧ o.qIdx.length = o.Tlab.length ∧
      ∀ k (hk : k < o.qIdx.length) (hk' : k < o.Tlab.length), o.qIdx[k] < Nq ∧ IsMidpointEnergy q Eb o.qIdx[k] o.Tlab[k] := by
  have hEb : -(Mn + Mp) < Eb := by norm_num [Mn, Mp]; linarith
  have hown : ∀ i < Nq, findQBin Nq q (labEnergyToComMomentum (midT q Eb i) Eb) = .ok i := by
    intro i hi
    rw [(midT_spec hEb q i).2.1]
    have hs := qm_sq hEb q i
    obtain ⟨r1, r2⟩ := mass_ratio Eb h1 h2
    set r := MN / (3 * mu1 Eb)
    have hq0 := grid_nonneg hg i (by omega)
    have hq1 := hg.2 i hi
    have hwi := hw i hi
    have hnn : 0 ≤ comEnergyToComQ (midE q Eb i) := Real.sqrt_nonneg _
    have hb : 1.0022 * q i ^ 2 ≤ q (i + 1) ^ 2 := by nlinarith
    have hbp : 0 < q (i + 1) ^ 2 := by nlinarith
    have ha0 : 0 ≤ q i ^ 2 := sq_nonneg _
    apply findQBin_of hg hi
    · apply lt_of_pow_lt_pow_left₀ 2 hnn
      rw [hs]
      nlinarith
    · apply lt_of_pow_lt_pow_left₀ 2 (by linarith)
      rw [hs]
      nlinarith
  have hm : ((onShellBins Nq q Eb inputs).map fun i => labEnergyToComMomentum (midT q Eb i) Eb).mapM (findQBin Nq q) = .ok (onShellBins Nq q Eb inputs) := by
    have hb : ∀ i ∈ onShellBins Nq q Eb inputs, i < Nq := fun i hi => ((mem_onShellBins _ _ _ _ _).1 hi).1
    generalize onShellBins Nq q Eb inputs = l at hb
    induction l with
    | nil => rfl
    | cons a l ih =>
      rw [List.map_cons, List.mapM_cons, hown a (hb a (by simp)), ih (fun i hi => hb i (by simp [hi]))]
      rfl
  refine ⟨⟨(onShellBins Nq q Eb inputs).map (midT q Eb), (onShellBins Nq q Eb inputs).map fun i => labEnergyToComMomentum (midT q Eb i) Eb,
    (onShellBins Nq q Eb inputs).map fun i => comQToComEnergy (labEnergyToComMomentum (midT q Eb i) Eb), onShellBins Nq q Eb inputs⟩, ?_,
    onShellBins_sorted _ _ _ _, by simp, ?_⟩
  · unfold findOnShell
    simp only [List.map_map]
    have e : List.map ((fun T => labEnergyToComMomentum T Eb) ∘ midT q Eb) (onShellBins Nq q Eb inputs) =
      (onShellBins Nq q Eb inputs).map fun i => labEnergyToComMomentum (midT q Eb i) Eb := rfl
    rw [e, hm]
    rfl
  · intro k hk hk'
    simp only [List.getElem_map]
    exact ⟨((mem_onShellBins _ _ _ _ _).1 (List.getElem_mem hk)).1, (midT_spec hEb q _).2.2.2⟩

/-- C39 fails for very narrow bins: momenta are converted with the average nucleon mass but energies with the reduced mass,
so the on-shell momentum of a narrow bin falls below that bin and another index is recorded (or the run stops). -/
theorem C39_narrow_bin_wrong (Nq : Nat) (q : Nat → ℝ) (hg : IsGrid Nq q) (Eb : ℝ) (hEb : -(Mn + Mp) < Eb) (inputs : List ℝ) (o : OnShell)
    (ho : findOnShell Nq q Eb inputs = .ok o) (i : Nat) (hi : i < Nq) (hn : MN / (3 * mu1 Eb) * (q i ^ 2 + q (i + 1) ^ 2) ≤ q i ^ 2)
    (k : Nat) (hk : k < o.Tlab.length) (hk' : k < o.qIdx.length) (hT : o.Tlab[k] = midT q Eb i) : o.qIdx[k] ≠ i := by
  obtain ⟨e1, e2, e3, e4⟩ := findOnShell_ok ho
  obtain ⟨l1, l2⟩ := mapM_ok _ _ _ e4
  have hkq : k < o.qcom.length := by rw [← l1]; exact hk'
  obtain ⟨a, b, c⟩ := findQBin_ok (l2 k hkq hk')
  intro heq
  rw [heq] at b
  have : o.qcom[k] = comEnergyToComQ (midE q Eb i) := by
    simp only [e2, List.getElem_map]
    rw [hT, (midT_spec hEb q i).2.1]
  rw [this] at b
  have hq0 := grid_nonneg hg i (by omega)
  have := qm_sq hEb q i
  have h2 : q i ^ 2 < comEnergyToComQ (midE q Eb i) ^ 2 := by
    apply pow_lt_pow_left₀ b hq0 (by norm_num)
  linarith

/-- Narrow bins in this sense exist at the deuteron's binding energy: [100, 100.001]. -/
example : MN / (3 * mu1 (-2.2)) * ((100 : ℝ) ^ 2 + (100.001 : ℝ) ^ 2) ≤ 100 ^ 2 := by
  unfold MN mu1 deuteronMass Mn Mp
  norm_num

/-! ### C40 -/

theorem mem_squareNeighbours (a iq ip p0 q0 : Int) (t : Int × Int × Int) :
    t ∈ squareNeighbours a iq ip p0 q0 ↔ t.1 = a ∧ (t.2.1 = q0 ∨ t.2.1 = q0 + 1) ∧ (t.2.2 = p0 ∨ t.2.2 = p0 + 1) ∧ ¬ (t.2.2 = ip ∧ t.2.1 = iq) := by
  obtain ⟨x, y, z⟩ := t
  unfold squareNeighbours
  simp only [List.mem_filter, List.mem_flatMap, List.mem_map, List.mem_cons, List.not_mem_nil, or_false, Prod.mk.injEq, Bool.or_eq_true, bne_iff_ne, ne_eq]
  constructor
  · rintro ⟨⟨pi, h1, qj, h2, rfl, rfl, rfl⟩, h3⟩
    exact ⟨rfl, h2, h1, by tauto⟩
  · rintro ⟨rfl, h2, h1, h3⟩
    exact ⟨⟨z, h1, y, h2, rfl, rfl, rfl⟩, by tauto⟩

/-- The energy condition under which a cell is selected. -/
def CellHit (E Eql Equ Epl Epu : ℝ) : Prop := Epl + Eql ≤ E ∧ E ≤ Epu + Equ ∧ 0 ≤ Epl ∧ 0 ≤ Epu

theorem mem_breakupCell {E Eql Equ Epl Epu : ℝ} {a iq ip : Int} {t : Int × Int × Int} (h : t ∈ breakupCell E Eql Equ Epl Epu a iq ip) :
    CellHit E Eql Equ Epl Epu ∧ t.1 = a ∧ (iq - 1 ≤ t.2.1 ∧ t.2.1 ≤ iq + 1) ∧ (ip - 1 ≤ t.2.2 ∧ t.2.2 ≤ ip + 1) := by
  classical
  unfold breakupCell at h
  by_cases hc : Epl + Eql ≤ E ∧ E ≤ Epu + Equ ∧ 0 ≤ Epl ∧ 0 ≤ Epu
  · rw [if_pos hc] at h
    refine ⟨hc, ?_⟩
    simp only [List.mem_cons] at h
    rcases h with rfl | h
    · exact ⟨rfl, by dsimp only; omega, by dsimp only; omega⟩
    · split at h
      · have := (mem_squareNeighbours _ _ _ _ _ _).1 h; omega
      · split at h
        · have := (mem_squareNeighbours _ _ _ _ _ _).1 h; omega
        · split at h
          · have := (mem_squareNeighbours _ _ _ _ _ _).1 h; omega
          · split at h
            · have := (mem_squareNeighbours _ _ _ _ _ _).1 h; omega
            · simp at h
  · rw [if_neg hc] at h; simp at h

theorem centre_mem_breakupCell {E Eql Equ Epl Epu : ℝ} (a iq ip : Int) (h : CellHit E Eql Equ Epl Epu) :
    (a, iq, ip) ∈ breakupCell E Eql Equ Epl Epu a iq ip := by
  classical
  unfold breakupCell
  unfold CellHit at h
  rw [if_pos h]; simp

theorem freeSpectatorE_eq (q : ℝ) : freeSpectatorE q = ndEnergy 0 q := by
  have hm : mu1Free = mu1 0 := by unfold mu1Free mu1 deuteronMass; ring
  rw [nd_unfold]; unfold freeSpectatorE; rw [hm, ← div_div]; ring

theorem breakupState_nd (Np Nq : Nat) (q : Nat → ℝ) (e : Bool → Int → ℝ) (E : ℝ) (a : Nat) (ptr : Bool × Int) :
    breakupState Np Nq q e E a ptr = (List.range Nq).flatMap fun (iq : Nat) => (List.range Np).flatMap fun (ip : Nat) =>
      breakupCell E (ndEnergy 0 (q iq)) (ndEnergy 0 (q (iq + 1))) (e ptr.1 (ptr.2 + ip)) (e ptr.1 (ptr.2 + ip + 1)) a iq ip := by
  unfold breakupState; simp only [freeSpectatorE_eq]

/-- Cell of state `a` with boundaries taken from the state's own channel. -/
def StateCellHit (p : PWParams) (Np : Nat) (q : Nat → ℝ) (e : Bool → Int → ℝ) (E : ℝ) (s : PWState) (iq ip : Nat) : Prop :=
  ∃ b n, ePtr p Np s = some (b, n) ∧ CellHit E (ndEnergy 0 (q iq)) (ndEnergy 0 (q (iq + 1))) (e b (n + ip)) (e b (n + ip + 1))

theorem mem_breakupState {Np Nq : Nat} {q : Nat → ℝ} {e : Bool → Int → ℝ} {E : ℝ} {a : Nat} {ptr : Bool × Int} {t : Int × Int × Int} :
    t ∈ breakupState Np Nq q e E a ptr ↔ ∃ iq < Nq, ∃ ip < Np, t ∈ breakupCell E (ndEnergy 0 (q iq)) (ndEnergy 0 (q (iq + 1)))
      (e ptr.1 (ptr.2 + ip)) (e ptr.1 (ptr.2 + ip + 1)) a iq ip := by
  unfold breakupState
  simp only [List.mem_flatMap, List.mem_range, freeSpectatorE_eq]

theorem optMapM_mem {α β : Type} {f : α → Option β} {l : List α} {r : List β} (h : l.mapM f = some r) :
    (∀ b ∈ r, ∃ a ∈ l, f a = some b) ∧ ∀ a ∈ l, ∃ b ∈ r, f a = some b := by
  induction l generalizing r with
  | nil => simp [pure] at h; subst h; simp
  | cons a l ih =>
    rw [List.mapM_cons] at h
    rcases ha : f a with _ | b
    · rw [ha] at h; simp at h
    · rw [ha] at h
      rcases hl : l.mapM f with _ | bs
      · rw [hl] at h; simp at h
      · rw [hl] at h
        simp at h
        subst h
        obtain ⟨h1, h2⟩ := ih hl
        constructor
        · intro b' hb'
          rcases List.mem_cons.1 hb' with rfl | hb'
          · exact ⟨a, by simp, ha⟩
          · obtain ⟨x, hx, hx'⟩ := h1 b' hb'
            exact ⟨x, by simp [hx], hx'⟩
        · intro a' ha'
          rcases List.mem_cons.1 ha' with rfl | ha'
          · exact ⟨b, by simp, ha⟩
          · obtain ⟨x, hx, hx'⟩ := h2 a' ha'
            exact ⟨x, by simp [hx], hx'⟩

theorem breakupEnergy_mem {p : PWParams} {Np Nq : Nat} {q : Nat → ℝ} {e : Bool → Int → ℝ} {Eb Ecom : ℝ} {states : List PWState}
    {l : List (Int × Int × Int)} (h : breakupEnergy p Np Nq q e Eb states Ecom = .ok l) (h0 : 0 ≤ Ecom + Eb) (t : Int × Int × Int) :
    t ∈ l ↔ ∃ a, ∃ ha : a < states.length, ∃ ptr, ePtr p Np states[a] = some ptr ∧ t ∈ breakupState Np Nq q e Ecom a ptr := by
  classical
  unfold breakupEnergy at h
  rw [if_neg (not_lt.2 h0)] at h
  split at h
  · simp at h
  · rename_i ls hls
    split at h
    · simp at h
    · simp only [Except.ok.injEq] at h
      subst h
      obtain ⟨h1, h2⟩ := optMapM_mem hls
      rw [List.mem_flatten]
      constructor
      · rintro ⟨l', hl', ht⟩
        obtain ⟨⟨s, a⟩, hsa, hx⟩ := h1 l' hl'
        rw [Option.map_eq_some_iff] at hx
        obtain ⟨ptr, hp, rfl⟩ := hx
        have hz := List.mem_zipIdx' hsa
        exact ⟨a, hz.1, ptr, by rw [← hz.2]; exact hp, ht⟩
      · rintro ⟨a, ha, ptr, hp, ht⟩
        obtain ⟨b, hb, hx⟩ := h2 (states[a], a) (by rw [List.mem_zipIdx_iff_getElem?]; simp [ha])
        simp only [hp, Option.map_some, Option.some.injEq] at hx
        exact ⟨b, hb, by rw [← hx]; exact ht⟩

/-- **C40.** Whatever is recorded for an energy above threshold belongs to a state of the basis and is a selected cell of the
grid or one of its eight neighbours; every selected cell is recorded with its own (valid) indices; below threshold nothing is
recorded.  (A neighbour may lie one step outside the grid, see `C40_index_minus_one`.) -/
theorem C40_recorded_cells (p : PWParams) (Np Nq : Nat) (q : Nat → ℝ) (e : Bool → Int → ℝ) (Eb Ecom : ℝ) (states : List PWState)
    (l : List (Int × Int × Int)) (h : breakupEnergy p Np Nq q e Eb states Ecom = .ok l) :
    (Ecom + Eb < 0 → l = []) ∧
    (0 ≤ Ecom + Eb → l ≠ [] ∧
      (∀ t ∈ l, ∃ a, ∃ ha : a < states.length, ∃ iq < Nq, ∃ ip < Np, t.1 = a ∧ |t.2.1 - (iq : Int)| ≤ 1 ∧ |t.2.2 - (ip : Int)| ≤ 1 ∧
        StateCellHit p Np q e Ecom states[a] iq ip) ∧
      ∀ a (ha : a < states.length), ∀ iq < Nq, ∀ ip < Np, StateCellHit p Np q e Ecom states[a] iq ip → ((a : Int), (iq : Int), (ip : Int)) ∈ l) := by
  classical
  refine ⟨fun hlt => ?_, fun h0 => ⟨?_, ?_, ?_⟩⟩
  · unfold breakupEnergy at h
    rw [if_pos hlt] at h
    simpa using h.symm
  · unfold breakupEnergy at h
    rw [if_neg (not_lt.2 h0)] at h
    split at h
    · simp at h
    · split at h
      · simp at h
      · rename_i hne
        simp only [Except.ok.injEq] at h
        subst h
        intro hx; rw [hx] at hne; simp at hne
  · intro t ht
    obtain ⟨a, ha, ptr, hp, ht⟩ := (breakupEnergy_mem h h0 t).1 ht
    obtain ⟨iq, hiq, ip, hip, ht⟩ := mem_breakupState.1 ht
    obtain ⟨h1, h2, h3, h4⟩ := mem_breakupCell ht
    exact ⟨a, ha, iq, hiq, ip, hip, h2, by rw [abs_le]; omega, by rw [abs_le]; omega, ptr.1, ptr.2, hp, h1⟩
  · rintro a ha iq hiq ip hip ⟨b, n, hp, hc⟩
    exact (breakupEnergy_mem h h0 _).2 ⟨a, ha, (b, n), hp, mem_breakupState.2 ⟨iq, hiq, ip, hip, centre_mem_breakupCell _ _ _ hc⟩⟩

theorem mem_breakupCell_iff {E Eql Equ Epl Epu : ℝ} (hq : Eql ≤ Equ) (hp : Epl ≤ Epu) (a iq ip : Int) (t : Int × Int × Int) :
    t ∈ breakupCell E Eql Equ Epl Epu a iq ip ↔ CellHit E Eql Equ Epl Epu ∧ t.1 = a ∧
      (t.2.1 = iq ∨ t.2.1 = if (Eql + Equ) / 2 + Epl ≤ E then iq + 1 else iq - 1) ∧
      (t.2.2 = ip ∨ t.2.2 = if (Eql + Equ) / 2 + (Epl + Epu) / 2 ≤ E then ip + 1 else ip - 1) := by
  classical
  unfold breakupCell CellHit
  obtain ⟨x, y, z⟩ := t
  have e1 : (0.5 : ℝ) * (Equ + Eql) = (Eql + Equ) / 2 := by ring
  have e2 : (0.5 : ℝ) * (Epu + Epl) = (Epl + Epu) / 2 := by ring
  simp only [e1, e2]
  by_cases h : Epl + Eql ≤ E ∧ E ≤ Epu + Equ ∧ 0 ≤ Epl ∧ 0 ≤ Epu
  · rw [if_pos h]
    obtain ⟨h1, h2, h3, h4⟩ := h
    by_cases c1 : (Eql + Equ) / 2 + (Epl + Epu) / 2 ≤ E
    · have c2 : (Eql + Equ) / 2 + Epl ≤ E := by linarith
      simp only [if_pos (show (Eql + Equ) / 2 + (Epl + Epu) / 2 ≤ E ∧ E ≤ Epu + Equ from ⟨c1, h2⟩), if_pos c1, if_pos c2, List.mem_cons, mem_squareNeighbours,
        Prod.mk.injEq]
      simp only [h1, h2, h3, h4, true_and]
      omega
    · rw [if_neg (show ¬ ((Eql + Equ) / 2 + (Epl + Epu) / 2 ≤ E ∧ E ≤ Epu + Equ) from fun hx => c1 hx.1)]
      push Not at c1
      by_cases c2 : (Eql + Equ) / 2 + Epl ≤ E
      · simp only [if_pos (show (Eql + Equ) / 2 + Epl ≤ E ∧ E ≤ (Epl + Epu) / 2 + Equ from ⟨c2, by linarith⟩), if_neg (not_le.2 c1), if_pos c2, List.mem_cons,
          mem_squareNeighbours, Prod.mk.injEq]
        simp only [h1, h2, h3, h4, true_and]
        omega
      · rw [if_neg (show ¬ ((Eql + Equ) / 2 + Epl ≤ E ∧ E ≤ (Epl + Epu) / 2 + Equ) from fun hx => c2 hx.1)]
        simp only [if_pos (show Epl + Eql ≤ E ∧ E ≤ (Eql + Equ) / 2 + (Epl + Epu) / 2 from ⟨h1, c1.le⟩), if_neg (not_le.2 c1), if_neg c2, List.mem_cons,
          mem_squareNeighbours, Prod.mk.injEq]
        simp only [h1, h2, h3, h4, true_and]
        omega
  · rw [if_neg h]
    simp only [List.not_mem_nil, h, false_and]

/-- **C40, exactly what is recorded.** With increasing bin boundaries, the recorded triples are, for each cell of a state's own channel that
contains E_com, the cell itself and its three neighbours towards one corner: the corner is on the upper p side iff E_com is at or above the cell's
mid-point energy, and on the upper q side iff E_com is at or above the q mid-point energy plus the lower p boundary. Hence a neighbour on the
upper p and lower q side is never recorded. -/
theorem C40_recorded_exactly (p : PWParams) (Np Nq : Nat) (q : Nat → ℝ) (e : Bool → Int → ℝ) (Eb Ecom : ℝ) (states : List PWState)
    (l : List (Int × Int × Int)) (h : breakupEnergy p Np Nq q e Eb states Ecom = .ok l) (h0 : 0 ≤ Ecom + Eb) (hg : IsGrid Nq q)
    (he : ∀ s ∈ states, ∀ b n, ePtr p Np s = some (b, n) → ∀ ip < Np, e b (n + ip) ≤ e b (n + ip + 1)) (t : Int × Int × Int) :
    t ∈ l ↔ ∃ a, ∃ ha : a < states.length, ∃ b n, ePtr p Np states[a] = some (b, n) ∧ ∃ iq < Nq, ∃ ip < Np,
      CellHit Ecom (ndEnergy 0 (q iq)) (ndEnergy 0 (q (iq + 1))) (e b (n + ip)) (e b (n + ip + 1)) ∧ t.1 = a ∧
      (t.2.1 = iq ∨ t.2.1 = if (ndEnergy 0 (q iq) + ndEnergy 0 (q (iq + 1))) / 2 + e b (n + ip) ≤ Ecom then (iq : Int) + 1 else iq - 1) ∧
      (t.2.2 = ip ∨ t.2.2 = if (ndEnergy 0 (q iq) + ndEnergy 0 (q (iq + 1))) / 2 + (e b (n + ip) + e b (n + ip + 1)) / 2 ≤ Ecom
        then (ip : Int) + 1 else ip - 1) := by
  have hq : ∀ iq < Nq, ndEnergy 0 (q iq) ≤ ndEnergy 0 (q (iq + 1)) := fun iq hi =>
    (ndEnergy_strict 0 _ _ (by norm_num [Mn, Mp]) (grid_nonneg hg iq hi.le) (hg.2 iq hi)).le
  rw [breakupEnergy_mem h h0]
  constructor
  · rintro ⟨a, ha, ⟨b, n⟩, hp, hm⟩
    obtain ⟨iq, hiq, ip, hip, hm⟩ := mem_breakupState.1 hm
    exact ⟨a, ha, b, n, hp, iq, hiq, ip, hip, (mem_breakupCell_iff (hq iq hiq) (he _ (List.getElem_mem ha) b n hp ip hip) _ _ _ _).1 hm⟩
  · rintro ⟨a, ha, b, n, hp, iq, hiq, ip, hip, hm⟩
    exact ⟨a, ha, (b, n), hp, mem_breakupState.2 ⟨iq, hiq, ip, hip, (mem_breakupCell_iff (hq iq hiq) (he _ (List.getElem_mem ha) b n hp ip hip) _ _ _ _).2 hm⟩⟩

/-- C40 fails: whenever the energy lies in the lower half of the q-bin of a cell with the first p-bin, the p index −1 is
recorded (used later as an array index). -/
theorem C40_index_minus_one (p : PWParams) (Np Nq : Nat) (q : Nat → ℝ) (e : Bool → Int → ℝ) (Eb Ecom : ℝ) (states : List PWState)
    (l : List (Int × Int × Int)) (h : breakupEnergy p Np Nq q e Eb states Ecom = .ok l) (h0 : 0 ≤ Ecom + Eb)
    (a : Nat) (ha : a < states.length) (iq : Nat) (hiq : iq < Nq) (hNp : 0 < Np) (b : Bool) (n : Int) (hp : ePtr p Np states[a] = some (b, n))
    (he0 : 0 ≤ e b n) (he1 : e b n ≤ e b (n + 1)) (hq : q iq ^ 2 ≤ q (iq + 1) ^ 2)
    (hlo : e b n + ndEnergy 0 (q iq) ≤ Ecom) (hhi : Ecom < e b n + (ndEnergy 0 (q iq) + ndEnergy 0 (q (iq + 1))) / 2) :
    ((a : Int), (iq : Int), (-1 : Int)) ∈ l := by
  classical
  have hm : (0:ℝ) < mu1Free := by unfold mu1Free Mn Mp; norm_num
  have hqE : ndEnergy 0 (q iq) ≤ ndEnergy 0 (q (iq + 1)) := by
    rw [← freeSpectatorE_eq, ← freeSpectatorE_eq]
    unfold freeSpectatorE
    apply div_le_div_of_nonneg_right _ hm.le
    nlinarith
  refine (breakupEnergy_mem h h0 _).2 ⟨a, ha, (b, n), hp, mem_breakupState.2 ⟨iq, hiq, 0, hNp, ?_⟩⟩
  simp only [Nat.cast_zero, add_zero]
  generalize ndEnergy 0 (q iq) = ql at *
  generalize ndEnergy 0 (q (iq + 1)) = qu at *
  generalize e b n = pl at *
  generalize e b (n + 1) = pu at *
  unfold breakupCell
  rw [if_pos ⟨hlo, by linarith, he0, by linarith⟩]
  refine List.mem_cons_of_mem _ ?_
  rw [if_neg (show ¬ (0.5 * (qu + ql) + 0.5 * (pu + pl) ≤ Ecom ∧ Ecom ≤ pu + qu) by intro hx; linarith),
    if_neg (show ¬ (0.5 * (qu + ql) + pl ≤ Ecom ∧ Ecom ≤ 0.5 * (pu + pl) + qu) by intro hx; linarith),
    if_pos (show pl + ql ≤ Ecom ∧ Ecom ≤ 0.5 * (qu + ql) + 0.5 * (pu + pl) by constructor <;> linarith)]
  rw [mem_squareNeighbours]
  simp

/-- The offsets written for the energies delimit each energy's own cells. -/
theorem C40_offsets (p : PWParams) (Np Nq : Nat) (q : Nat → ℝ) (e : Bool → Int → ℝ) (Eb : ℝ) (states : List PWState) (Ecom : List ℝ)
    (v : List (Int × Int × Int)) (off : List Nat) (h : findBreakup p Np Nq q e Eb states Ecom = .ok (v, off)) :
    off.length = Ecom.length + 1 ∧ off[0]? = some 0 ∧ off[Ecom.length]? = some v.length ∧
    ∀ k (hk : k < Ecom.length), ∃ lo hi, off[k]? = some lo ∧ off[k + 1]? = some hi ∧ lo ≤ hi ∧
      breakupEnergy p Np Nq q e Eb states Ecom[k] = .ok ((v.drop lo).take (hi - lo)) := by
  unfold findBreakup at h
  induction Ecom using List.reverseRecOn generalizing v off with
  | nil =>
    simp [pure, Except.pure] at h
    obtain ⟨rfl, rfl⟩ := h
    simp
  | append_singleton es E ih =>
    rw [List.foldlM_append] at h
    simp only [bind, Except.bind] at h
    split at h
    · simp at h
    · rename_i r hr
      obtain ⟨v0, off0⟩ := r
      simp only [List.foldlM_cons, List.foldlM_nil, bind, Except.bind] at h
      rcases hb : breakupEnergy p Np Nq q e Eb states E with s | l
      · rw [hb] at h; simp at h
      · rw [hb] at h
        simp only [pure, Except.pure, Except.ok.injEq, Prod.mk.injEq] at h
        obtain ⟨rfl, rfl⟩ := h
        obtain ⟨h1, h2, h3, h4⟩ := ih v0 off0 hr
        refine ⟨by simp [h1], ?_, ?_, ?_⟩
        · rw [List.getElem?_append_left (by omega)]; exact h2
        · rw [List.getElem?_append_right (by simp [h1])]; simp [h1]
        · intro k hk
          simp only [List.length_append, List.length_singleton] at hk
          rcases Nat.lt_or_ge k es.length with hlt | hge
          · obtain ⟨lo, hi, a, b, c, d⟩ := h4 k hlt
            refine ⟨lo, hi, by rw [List.getElem?_append_left (by omega)]; exact a, by rw [List.getElem?_append_left (by omega)]; exact b, c, ?_⟩
            rw [List.getElem_append_left hlt, d]
            have hv : hi ≤ v0.length := by
              have mono : ∀ j, k + 1 ≤ j → j ≤ es.length → ∃ x, off0[j]? = some x ∧ hi ≤ x := by
                intro j hj
                induction j, hj using Nat.le_induction with
                | base => intro _; exact ⟨hi, b, le_rfl⟩
                | succ j hj ihj =>
                  intro hjl
                  obtain ⟨x, hx, hx'⟩ := ihj (by omega)
                  obtain ⟨lo', hi', a', b', c', -⟩ := h4 j (by omega)
                  rw [hx] at a'
                  simp only [Option.some.injEq] at a'
                  exact ⟨hi', b', by omega⟩
              obtain ⟨x, hx, hx'⟩ := mono es.length (by omega) le_rfl
              rw [h3] at hx
              simp only [Option.some.injEq] at hx
              omega
            rw [List.drop_append_of_le_length (by omega), List.take_append_of_le_length (by simp; omega)]
          · have : k = es.length := by omega
            subst this
            refine ⟨v0.length, v0.length + l.length, by rw [List.getElem?_append_left (by omega)]; exact h3, ?_, by omega, ?_⟩
            · rw [List.getElem?_append_right (by omega)]; simp [h1]
            · simp [hb]

/-- The search succeeds as soon as one cell is selected. -/
theorem breakupEnergy_ok (p : PWParams) (Np Nq : Nat) (q : Nat → ℝ) (e : Bool → Int → ℝ) (Eb Ecom : ℝ) (states : List PWState)
    (hp : ∀ s ∈ states, ∃ x, ePtr p Np s = some x) (a : Nat) (ha : a < states.length) (iq : Nat) (hiq : iq < Nq) (ip : Nat) (hip : ip < Np)
    (hh : StateCellHit p Np q e Ecom states[a] iq ip) : ∃ l, breakupEnergy p Np Nq q e Eb states Ecom = .ok l := by
  classical
  by_cases h0 : Ecom + Eb < 0
  · exact ⟨[], by unfold breakupEnergy; rw [if_pos h0]⟩
  · let ptr : PWState → Bool × Int := fun s => (ePtr p Np s).getD (false, 0)
    have hm : (states.zipIdx.mapM fun sa => (ePtr p Np sa.1).map (breakupState Np Nq q e Ecom sa.2)) =
        some (states.zipIdx.map fun sa => breakupState Np Nq q e Ecom sa.2 (ptr sa.1)) := by
      apply optMapM_some
      intro sa hsa
      have : sa.1 ∈ states := by
        have := List.mem_zipIdx' hsa
        rw [this.2]; exact List.getElem_mem _
      obtain ⟨x, hx⟩ := hp _ this
      simp [ptr, hx]
    obtain ⟨b, n, h1, h2⟩ := hh
    have hmem : ((a : Int), (iq : Int), (ip : Int)) ∈ (states.zipIdx.map fun sa => breakupState Np Nq q e Ecom sa.2 (ptr sa.1)).flatten := by
      rw [List.mem_flatten]
      refine ⟨breakupState Np Nq q e Ecom a (ptr states[a]), List.mem_map.2 ⟨(states[a], a), ?_, rfl⟩, ?_⟩
      · rw [List.mem_zipIdx_iff_getElem?]; simp [ha]
      · have : ptr states[a] = (b, n) := by simp [ptr, h1]
        rw [this]
        exact mem_breakupState.2 ⟨iq, hiq, ip, hip, centre_mem_breakupCell _ _ _ h2⟩
    unfold breakupEnergy
    rw [if_neg h0, hm]
    simp only
    rw [if_neg]
    · exact ⟨_, rfl⟩
    · intro hx
      rw [List.isEmpty_iff] at hx
      rw [hx] at hmem; simp at hmem

/-- A situation with all hypotheses of `C40_index_minus_one`: the 1S0 state, E_com = 3 MeV, a first q bin [0, 1000] MeV, energy
bins of width 1 MeV. -/
example : ∃ l, breakupEnergy { J2max := 1, twoJ3max := 1, isoBreak := false } 3 1 (fun i => 1000 * i) (fun _ i => ((i % 4 : Int) : ℝ)) (-2.2)
    [⟨0, 0, 0, 1, 0, 1, 1, 1, 1⟩] 3 = .ok l ∧ ((0 : Int), (0 : Int), (-1 : Int)) ∈ l := by
  have hm : ndEnergy 0 0 = 0 := by unfold ndEnergy; simp
  have hM : (500 : ℝ) < ndEnergy 0 1000 := by unfold ndEnergy ndReducedMass; norm_num
  have hptr : ePtr { J2max := 1, twoJ3max := 1, isoBreak := false } 3 ⟨0, 0, 0, 1, 0, 1, 1, 1, 1⟩ = some (false, 0) := by decide
  obtain ⟨l, hl⟩ := breakupEnergy_ok { J2max := 1, twoJ3max := 1, isoBreak := false } 3 1 (fun i => 1000 * i) (fun _ i => ((i % 4 : Int) : ℝ)) (-2.2)
    3 [⟨0, 0, 0, 1, 0, 1, 1, 1, 1⟩] (by simp [hptr]) 0 (by simp) 0 (by norm_num) 0 (by norm_num)
    ⟨false, 0, hptr, by unfold CellHit; simp [hm]; linarith⟩
  refine ⟨l, hl, ?_⟩
  have := C40_index_minus_one _ _ _ _ _ _ _ _ l hl (by norm_num) 0 (by simp) 0 (by norm_num) (by norm_num) false 0 hptr (by norm_num) (by norm_num)
    (by norm_num) (by simp [hm]) (by simp [hm]; linarith)
  simpa using this

/-- The same situation meets the hypotheses of `C40_recorded_exactly`; bin 0 is recorded with p neighbour −1 and q neighbour −1, no other. -/
example : ∃ l, breakupEnergy { J2max := 1, twoJ3max := 1, isoBreak := false } 3 1 (fun i => 1000 * i) (fun _ i => ((i % 4 : Int) : ℝ)) (-2.2)
    [⟨0, 0, 0, 1, 0, 1, 1, 1, 1⟩] 3 = .ok l ∧ ∀ t ∈ l, t.2.1 = 0 ∨ t.2.1 = -1 := by
  have hm : ndEnergy 0 0 = 0 := by unfold ndEnergy; simp
  have hM : (500 : ℝ) < ndEnergy 0 1000 := by unfold ndEnergy ndReducedMass; norm_num
  have hptr : ePtr { J2max := 1, twoJ3max := 1, isoBreak := false } 3 ⟨0, 0, 0, 1, 0, 1, 1, 1, 1⟩ = some (false, 0) := by decide
  obtain ⟨l, hl⟩ := breakupEnergy_ok { J2max := 1, twoJ3max := 1, isoBreak := false } 3 1 (fun i => 1000 * i) (fun _ i => ((i % 4 : Int) : ℝ)) (-2.2)
    3 [⟨0, 0, 0, 1, 0, 1, 1, 1, 1⟩] (by simp [hptr]) 0 (by simp) 0 (by norm_num) 0 (by norm_num)
    ⟨false, 0, hptr, by unfold CellHit; simp [hm]; linarith⟩
  refine ⟨l, hl, fun t ht => ?_⟩
  have hg : IsGrid 1 (fun i : Nat => (1000 * i : ℝ)) := ⟨by simp, fun i _ => by push_cast; linarith⟩
  obtain ⟨a, ha, b, n, hp, iq, hiq, ip, hip, -, -, h2, -⟩ := (C40_recorded_exactly _ _ _ _ _ _ _ _ l hl (by norm_num) hg (by
    intro s hs b n hp ip hip
    rw [List.mem_singleton] at hs
    subst hs
    rw [hptr] at hp
    cases hp
    interval_cases ip <;> norm_num) t).1 ht
  have : iq = 0 := by omega
  subst this
  have : a = 0 := by simpa using ha
  subst this
  rw [show [(⟨0, 0, 0, 1, 0, 1, 1, 1, 1⟩ : PWState)][0] = ⟨0, 0, 0, 1, 0, 1, 1, 1, 1⟩ from rfl, hptr] at hp
  cases hp
  rcases h2 with h2 | h2
  · left; simpa using h2
  · right
    rw [h2, if_neg]
    · simp
    · simp [hm]
      have : (3 : ℝ) < ndEnergy 0 1000 / 2 := by linarith
      refine this.trans_le ?_
      interval_cases ip <;> norm_num

/-! ### C74: which energy the breakup cells are compared with -/

/-- **C74 fails.** The resolvent (and hence the equation) is set up at the total energy E_com + E_bound, but cells are selected by E_com:
a cell whose energies all exceed the total energy is recorded, although no breakup state of that cell is on shell and the
resolvent has no imaginary part there. -/
theorem C74_off_shell_cell_recorded (p : PWParams) (Np Nq : Nat) (q : Nat → ℝ) (e : Bool → Int → ℝ) (Eb Ecom : ℝ) (states : List PWState)
    (l : List (Int × Int × Int)) (h : breakupEnergy p Np Nq q e Eb states Ecom = .ok l) (h0 : 0 ≤ Ecom + Eb)
    (a : Nat) (ha : a < states.length) (iq : Nat) (hiq : iq < Nq) (ip : Nat) (hip : ip < Np) (b : Bool) (n : Int) (hp : ePtr p Np states[a] = some (b, n))
    (he0 : 0 ≤ e b (n + ip)) (he1 : e b (n + ip) < e b (n + ip + 1)) (hq0 : 0 ≤ q iq) (hq : q iq < q (iq + 1))
    (hlo : e b (n + ip) + ndEnergy 0 (q iq) ≤ Ecom) (hhi : Ecom ≤ e b (n + ip + 1) + ndEnergy 0 (q (iq + 1)))
    (hoff : Ecom + Eb ≤ e b (n + ip) + ndEnergy 0 (q iq)) :
    ((a : Int), (iq : Int), (ip : Int)) ∈ l ∧
      (resolventCell (Ecom + Eb) (e b (n + ip)) (e b (n + ip + 1)) (q iq) (q (iq + 1))).im = 0 := by
  classical
  refine ⟨((C40_recorded_cells p Np Nq q e Eb Ecom states l h).2 h0).2.2 a ha iq hiq ip hip ⟨b, n, hp, hlo, hhi, he0, by linarith⟩, ?_⟩
  unfold resolventCell
  simp only
  rw [if_neg (not_lt.2 he0), if_neg (not_lt.2 he0), if_neg (not_lt.2 he0), zero_add]
  unfold resolventCC
  refine (C42_imaginary_part _ _ _ _ _ he1 (spectatorE_strict 0 _ _ (by norm_num [Mn, Mp]) hq0 hq)).2.1 (Or.inl ?_)
  rw [spectatorE_eq]; exact hoff

/-- The cells at the total energy are recorded only if they also contain E_com or touch a cell that does: what is true is that cells
containing both energies are always recorded. -/
theorem common_cell_recorded (p : PWParams) (Np Nq : Nat) (q : Nat → ℝ) (e : Bool → Int → ℝ) (Eb Ecom : ℝ) (states : List PWState)
    (l : List (Int × Int × Int)) (h : breakupEnergy p Np Nq q e Eb states Ecom = .ok l) (h0 : 0 ≤ Ecom + Eb) (hb : Eb ≤ 0)
    (a : Nat) (ha : a < states.length) (iq : Nat) (hiq : iq < Nq) (ip : Nat) (hip : ip < Np) (b : Bool) (n : Int) (hp : ePtr p Np states[a] = some (b, n))
    (he0 : 0 ≤ e b (n + ip)) (he1 : e b (n + ip) < e b (n + ip + 1))
    (hin : e b (n + ip) + ndEnergy 0 (q iq) ≤ Ecom + Eb) (hhi : Ecom ≤ e b (n + ip + 1) + ndEnergy 0 (q (iq + 1))) :
    ((a : Int), (iq : Int), (ip : Int)) ∈ l :=
  ((C40_recorded_cells p Np Nq q e Eb Ecom states l h).2 h0).2.2 a ha iq hiq ip hip ⟨b, n, hp, by linarith, hhi, he0, by linarith⟩

/-- Hypotheses of both C74 theorems are met: 1S0, E_com = 3, E_bound = −2.2, 1 MeV bins; bin [1,2] is recorded though the total
energy is 0.8; bin [0,1] contains the total energy (with the spectator) and E_com. -/
example : ∃ l, breakupEnergy { J2max := 1, twoJ3max := 1, isoBreak := false } 3 1 (fun i => 1000 * i) (fun _ i => ((i % 4 : Int) : ℝ)) (-2.2)
    [⟨0, 0, 0, 1, 0, 1, 1, 1, 1⟩] 3 = .ok l ∧ ((0 : Int), (0 : Int), (1 : Int)) ∈ l ∧ ((0 : Int), (0 : Int), (0 : Int)) ∈ l := by
  have hm : ndEnergy 0 0 = 0 := by unfold ndEnergy; simp
  have hM : (500 : ℝ) < ndEnergy 0 1000 := by unfold ndEnergy ndReducedMass; norm_num
  have hptr : ePtr { J2max := 1, twoJ3max := 1, isoBreak := false } 3 ⟨0, 0, 0, 1, 0, 1, 1, 1, 1⟩ = some (false, 0) := by decide
  obtain ⟨l, hl⟩ := breakupEnergy_ok { J2max := 1, twoJ3max := 1, isoBreak := false } 3 1 (fun i => 1000 * i) (fun _ i => ((i % 4 : Int) : ℝ)) (-2.2)
    3 [⟨0, 0, 0, 1, 0, 1, 1, 1, 1⟩] (by simp [hptr]) 0 (by simp) 0 (by norm_num) 0 (by norm_num)
    ⟨false, 0, hptr, by unfold CellHit; simp [hm]; linarith⟩
  refine ⟨l, hl, ?_, ?_⟩
  · have := (C74_off_shell_cell_recorded _ _ _ _ _ _ _ _ l hl (by norm_num) 0 (by simp) 0 (by norm_num) 1 (by norm_num) false 0 hptr (by norm_num) (by norm_num)
      (by norm_num) (by norm_num) (by simp [hm]) (by norm_num; linarith) (by norm_num; rw [hm]; norm_num)).1
    simpa using this
  · have := common_cell_recorded _ _ _ _ _ _ _ _ l hl (by norm_num) (by norm_num) 0 (by simp) 0 (by norm_num) 0 (by norm_num) false 0 hptr (by norm_num) (by norm_num)
      (by norm_num; rw [hm]; norm_num) (by norm_num; linarith)
    simpa using this

/-! ### C75: the on-shell bin carries the cut of the resolvent -/

/-- **C75.** For deuteron-like binding energies and bins wider than 0.11 %: at the total energy E_com + E_bound of the k-th computed energy, the
resolvent of the deuteron's bound bin has imaginary part −π/width in exactly the recorded q bin and is real in all others. -/
theorem C75_on_shell_cut (Nq : Nat) (q : Nat → ℝ) (hg : IsGrid Nq q) (hw : ∀ i < Nq, 1.0011 * q i ≤ q (i + 1)) (Eb : ℝ) (h1 : -3 ≤ Eb) (h2 : Eb < 0)
    (inputs : List ℝ) (o : OnShell) (ho : findOnShell Nq q Eb inputs = .ok o) (k : Nat) (hk : k < o.Ecom.length) (hk' : k < o.qIdx.length)
    (j : Nat) (hj : j < Nq) (eU : ℝ) :
    (resolventCell (o.Ecom[k] + Eb) Eb eU (q j) (q (j + 1))).im =
      if j = o.qIdx[k] then -Real.pi / (ndEnergy Eb (q (j + 1)) - ndEnergy Eb (q j)) else 0 := by
  classical
  have hEb : -(Mn + Mp) < Eb := by norm_num [Mn, Mp]; linarith
  obtain ⟨o', ho', -, hlen, hidx⟩ := C39_indices Nq q hg hw Eb h1 h2.le inputs
  rw [ho] at ho'
  simp only [Except.ok.injEq] at ho'
  subst ho'
  obtain ⟨e1, e2, e3, e4⟩ := findOnShell_ok ho
  obtain ⟨hi, hmid⟩ := hidx k hk' (by omega)
  have hE : o.Ecom[k] = (ndEnergy Eb (q o.qIdx[k]) + ndEnergy Eb (q (o.qIdx[k] + 1))) / 2 := by
    rw [← hmid.2]; simp only [e3, e2, List.getElem_map]
  have hsp : ∀ x, spectatorE Eb x = ndEnergy Eb x := spectatorE_eq Eb
  have hstrict : ∀ i < Nq, ndEnergy Eb (q i) < ndEnergy Eb (q (i + 1)) := by
    intro i hi'
    rw [← hsp, ← hsp]
    exact spectatorE_strict Eb _ _ hEb (grid_nonneg hg i hi'.le) (hg.2 i hi')
  have hmono : ∀ i j, i ≤ j → j ≤ Nq → ndEnergy Eb (q i) ≤ ndEnergy Eb (q j) := by
    intro i j hij
    induction j, hij using Nat.le_induction with
    | base => intro _; exact le_rfl
    | succ j _ ih => intro hj; exact (ih (by omega)).trans (hstrict j (by omega)).le
  unfold resolventCell
  simp only
  rw [if_pos h2, if_pos h2, if_pos h2, add_zero, hE]
  have him := C41_imaginary_part ((ndEnergy Eb (q o.qIdx[k]) + ndEnergy Eb (q (o.qIdx[k] + 1))) / 2 + Eb) Eb (q j) (q (j + 1))
    (hstrict j hj)
  rw [add_sub_cancel_right] at him
  generalize hm : o.qIdx[k] = m at *
  have hms := hstrict m hi
  by_cases hjm : j = m
  · subst hjm
    rw [if_pos rfl]
    exact him.1 (by linarith) (by linarith)
  · rw [if_neg hjm]
    rcases lt_or_gt_of_ne hjm with hl | hl
    · have := hmono (j + 1) m hl (by omega)
      exact him.2 (Or.inr (by linarith))
    · have := hmono (m + 1) j hl (by omega)
      exact him.2 (Or.inl (by linarith))

/-- Wide grids with requested energies exist: hypotheses of C39/C75 are met by q_i = 100 i and the request of the midpoint of bin 0. -/
example : ∃ o, findOnShell 3 (fun i => 100 * i) (-2.2) [midT (fun i => 100 * i) (-2.2) 0] = .ok o ∧ o.qIdx ≠ [] := by
  have hg : IsGrid 3 (fun i : Nat => (100 * i : ℝ)) := ⟨by simp, fun i _ => by push_cast; linarith⟩
  obtain ⟨o, ho, -, hl, -⟩ := C39_indices 3 (fun i => 100 * i) hg (by
    intro i hi; have : (i : ℝ) ≤ 2 := by exact_mod_cast (by omega : i ≤ 2)
    push_cast; nlinarith) (-2.2) (by norm_num) (by norm_num) [midT (fun i => 100 * i) (-2.2) 0]
  refine ⟨o, ho, fun hx => ?_⟩
  have hEb : -(Mn + Mp) < (-2.2 : ℝ) := by norm_num [Mn, Mp]
  obtain ⟨e1, -⟩ := findOnShell_ok ho
  have hmem : 0 ∈ onShellBins 3 (fun i : Nat => (100 * i : ℝ)) (-2.2) [midT (fun i => 100 * i) (-2.2) 0] :=
    (mem_onShellBins _ _ _ _ _).2 ⟨by norm_num, _, List.mem_singleton.2 rfl, Or.inl ⟨by norm_num, le_rfl, (midT_strict hg hEb 0 1 (by norm_num) (by norm_num)).le⟩⟩
  rw [hx, e1] at hl
  simp only [List.length_nil, List.length_map] at hl
  rw [List.length_eq_zero_iff.1 hl.symm] at hmem
  simp at hmem

end TicTac
end
