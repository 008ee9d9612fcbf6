import Verif.Lemmas.Channels2N
/-!
Property theorems C05, C06, C07, C34: two-nucleon channel storage.
-/
namespace TicTac
open Spec

/-- **C05 (range).** With the tensor force every basis state gets a slot, and the slot lies inside the array
allocated in `main` for its kind. -/
theorem C05_slots_in_range (p : PWParams) (ht : p.tensor = true) (w : PWSpace) (h : constructPW p = some w)
    (hv : ValidTruncation p) (s : PWState) (hs : s ∈ w.states) :
    ∃ i : Int, 0 ≤ i ∧ ((slotOf p s = some (true, i) ∧ i < numCoup p ∧ i < coupMatricesAllocated p) ∨
      (slotOf p s = some (false, i) ∧ i < numUnco p)) := by
  obtain ⟨w', hw', hw⟩ := C01_basis_exact p hv
  rw [h] at hw'; cases hw'
  have ha := (hw s).1 hs
  have hf := ha.facts
  have hJ : s.J ≤ p.J2max := ha.2.2.2.2.2.2.2.2.1
  obtain ⟨hS, _, hJ0, h1, h2, h3, h4⟩ := hf
  rw [slotOf_tensor ht ha.facts]
  unfold coupMatricesAllocated numCoup numUnco
  simp only [ht, if_true]
  rcases hb : p.isoBreak with _ | _
  · by_cases hc : s.L ≠ s.J ∧ s.J ≠ 0
    · exact ⟨s.J - 1, by omega, Or.inl ⟨by simp [hc], by simp; omega, by simp; omega⟩⟩
    · exact ⟨2 * s.J + s.S, by omega, Or.inr ⟨by rw [if_neg hc]; simp, by simp; omega⟩⟩
  · by_cases hc : s.L ≠ s.J ∧ s.J ≠ 0
    · exact ⟨s.J, by omega, Or.inl ⟨by simp [hc], by simp; omega, by simp; omega⟩⟩
    · by_cases h0 : s.S = 0 ∧ s.J = 0
      · exact ⟨0, by omega, Or.inl ⟨by rw [if_neg hc]; simp [h0.1, h0.2], by simp; omega, by simp; omega⟩⟩
      · refine ⟨2 * s.J + s.S - 1, by omega, Or.inr ⟨?_, by simp; omega⟩⟩
        rw [if_neg hc, if_neg (by simpa using h0)]; simp

/-- **C05 (sharing).** With the tensor force two basis states share a slot exactly when they belong to the same
two-nucleon interaction channel. -/
theorem C05_slot_shared_iff (p : PWParams) (ht : p.tensor = true) (hv : ValidTruncation p) (w : PWSpace)
    (h : constructPW p = some w) (a b : PWState) (ha : a ∈ w.states) (hb : b ∈ w.states) :
    slotOf p a = slotOf p b ↔ SameInteraction true a b := by
  obtain ⟨w', hw', hw⟩ := C01_basis_exact p hv
  rw [h] at hw'; cases hw'
  have fa := ((hw a).1 ha).facts
  have fb := ((hw b).1 hb).facts
  rw [slotOf_tensor ht fa, slotOf_tensor ht fb, Option.some.injEq]
  obtain ⟨aS, aT, aJ, a1, a2, a3, a4⟩ := fa
  obtain ⟨bS, bT, bJ, b1, b2, b3, b4⟩ := fb
  unfold SameInteraction
  simp only [true_and]
  rcases p.isoBreak with _ | _ <;>
    simp only [Bool.false_eq_true, false_and, if_false, true_and, if_true] <;> split_ifs <;>
    simp only [Prod.mk.injEq, true_and, false_and, false_iff, Bool.true_eq_false,
      Bool.false_eq_true, true_iff] <;> omega

-- two distinct interaction channels and a tensor-coupled pair of the basis (default truncation)
example : ∃ w, constructPW { J2max := 3, twoJ3max := 1, isoBreak := true } = some w ∧
    (∃ a ∈ w.states, ∃ b ∈ w.states, a ≠ b ∧ a.L = 0 ∧ b.L = 2 ∧ SameInteraction true a b) ∧
    ∃ a ∈ w.states, ∃ b ∈ w.states, ¬ SameInteraction true a b := by
  obtain ⟨w, hw, hx⟩ := C01_basis_exact { J2max := 3, twoJ3max := 1, isoBreak := true } (by unfold ValidTruncation; decide)
  refine ⟨w, hw, ⟨⟨0,1,1,0,0,1,1,1,1⟩, ?_, ⟨2,1,1,0,0,1,1,1,1⟩, ?_, by decide, rfl, rfl, ?_⟩,
    ⟨⟨0,1,1,0,0,1,1,1,1⟩, ?_, ⟨0,0,0,1,0,1,1,1,1⟩, ?_, ?_⟩⟩
  all_goals first | (rw [hx]; simp [Allowed, Couples]) | simp [SameInteraction]

/-! ### Without tensor force -/

theorem slotOf_noTensor {p : PWParams} (ht : p.tensor = false) (hi : p.isoBreak = false) (s : PWState) :
    slotOf p s = some (false, s.J * (4 * (if s.J > 1 then 1 else 0) + 2) + (if s.S = 1 then 1 else 0)
          + (if s.S = 1 ∧ s.J ≠ 0 then 1 else 0) * (s.J - s.L + 1)) := by
  unfold slotOf coupledViaL coupledViaT unique2NIdx
  simp [ht, hi]

/-- **C06.** Without tensor force and isospin breaking different two-nucleon channels always get
different non-negative slots.  Missing: the slots fit the array only for `J_2N_max ≤ 1`
(`C06_slot_out_of_range` proves the full claim false). -/
theorem C06_slots_distinct (p : PWParams) (ht : p.tensor = false) (hi : p.isoBreak = false)
    (hv : ValidTruncation p) (w : PWSpace) (h : constructPW p = some w) (a b : PWState)
    (ha : a ∈ w.states) (hb : b ∈ w.states) :
    (∃ i, slotOf p a = some (false, i) ∧ 0 ≤ i ∧ (p.J2max ≤ 1 → i < numUnco p)) ∧
    (slotOf p a = slotOf p b ↔ SameInteraction false a b) := by
  obtain ⟨w', hw', hw⟩ := C01_basis_exact p hv
  rw [h] at hw'; cases hw'
  have fa := ((hw a).1 ha).facts
  have fb := ((hw b).1 hb).facts
  have hJa : a.J ≤ p.J2max := ((hw a).1 ha).2.2.2.2.2.2.2.2.1
  rw [slotOf_noTensor ht hi, slotOf_noTensor ht hi, Option.some.injEq]
  obtain ⟨aS, aT, aJ, a1, a2, a3, a4⟩ := fa
  obtain ⟨bS, bT, bJ, b1, b2, b3, b4⟩ := fb
  constructor
  · refine ⟨_, rfl, ?_, ?_⟩
    · split_ifs <;> omega
    · intro h1
      simp only [numUnco, ht, hi, Bool.false_eq_true, if_false]
      split_ifs <;> omega
  · unfold SameInteraction
    simp only [Bool.false_eq_true, false_and, or_false, Prod.mk.injEq, true_and]
    split_ifs <;> omega

/-- **C06 (false of the code).** For every `J_2N_max ≥ 2`, without tensor force, the basis contains a state whose
slot lies outside the array allocated in `main`: every such run reads and writes out of bounds. -/
theorem C06_slot_out_of_range (p : PWParams) (ht : p.tensor = false) (hi : p.isoBreak = false)
    (hv : ValidTruncation p) (hJ : 2 ≤ p.J2max) (w : PWSpace) (h : constructPW p = some w) :
    ∃ s ∈ w.states, ∃ i, slotOf p s = some (false, i) ∧ numUnco p ≤ i := by
  obtain ⟨w', hw', hw⟩ := C01_basis_exact p hv
  rw [h] at hw'; cases hw'
  have hv2 := hv.2
  refine ⟨⟨p.J2max, 0, p.J2max, (p.J2max + 1) % 2, p.J2max, 2 * p.J2max + 1, 1, 1, 1⟩, ?_, ?_⟩
  · rw [hw]
    unfold Allowed Couples
    simp only
    refine ⟨by omega, by omega, by omega, by omega, by omega, by omega, by omega, ?_, by omega, by omega, by omega,
      Or.inl trivial⟩
    rw [if_pos (by omega)]
  · refine ⟨_, slotOf_noTensor ht hi _, ?_⟩
    have h1 : (if p.J2max > 1 then (1 : Int) else 0) = 1 := if_pos (by omega)
    simp only [numUnco, ht, hi, Bool.false_eq_true, if_false, h1]
    norm_num
    omega

example : ValidTruncation { J2max := 3, twoJ3max := 1, isoBreak := false, tensor := false } := by
  unfold ValidTruncation; decide

/-- **C07 (false of the code).** With `tensor_force=false` and the default `isospin_breaking_1S0=true`, the run
stops with an error both when the potential matrices and when the SWP states are built, for every truncation. -/
theorem C07_no_tensor_with_isospin_breaking_stops (p : PWParams) (ht : p.tensor = false) (hi : p.isoBreak = true)
    (hv : ValidTruncation p) (w : PWSpace) (h : constructPW p = some w) :
    potJobs p w.states = none ∧ swpJobs p w.states = none := by
  obtain ⟨w', hw', hw⟩ := C01_basis_exact p hv
  rw [h] at hw'; cases hw'
  have hv2 := hv.2
  have hv1 := hv.1
  have key : ∀ (ok : PWState → PWState → Bool) (typed : Bool), (∀ r, ok r r = true) →
      pairLoop p ok typed w.states = none := by
    intro ok typed hok
    set s0 : PWState := ⟨0, 0, 0, 1, 0, 1, 1, 1, 1⟩ with hs0
    have hmem : s0 ∈ w.states := by
      rw [hw, hs0]
      unfold Allowed Couples
      simp only
      refine ⟨by omega, by omega, by omega, by omega, by omega, by omega, by omega, by simp, by omega, by omega,
        by omega, Or.inl trivial⟩
    have hslot : pairSlot p s0 s0 = none := by
      unfold pairSlot pairViaL coupledViaT is1S0 unique2NIdx
      simp [ht, hi, hs0]
    have hstep : ∀ jobs, pairStep p ok typed jobs s0 s0 = none := by
      intro jobs
      unfold pairStep
      rw [if_pos (hok s0), hslot]
      split <;> rfl
    have hfold : ∀ {β : Type} (f : List Job → β → Option (List Job)) (b : β) (l : List β),
        b ∈ l → (∀ jobs, f jobs b = none) → ∀ jobs, l.foldlM f jobs = none := by
      intro β f b l hb hf
      induction l with
      | nil => simp at hb
      | cons x xs ih =>
        intro jobs
        rw [List.foldlM_cons]
        rcases List.mem_cons.1 hb with rfl | hb
        · rw [hf]; rfl
        · cases hx : f jobs x with
          | none => rfl
          | some v => exact ih hb v
    unfold pairLoop
    exact hfold _ s0 _ hmem (fun jobs => hfold _ s0 _ hmem hstep jobs) []
  exact ⟨key _ _ (fun r => by unfold potPairOK; simp), key _ _ (fun r => by unfold swpPairOK; simp)⟩

/-- C07, the accepted half: with the tensor force on, neither loop stops, whatever the isospin flag. -/
theorem C07_tensor_on_runs (p : PWParams) (ht : p.tensor = true)
    (hv : ValidTruncation p) (w : PWSpace) (h : constructPW p = some w) :
    (potJobs p w.states).isSome = true ∧ (swpJobs p w.states).isSome = true := by
  obtain ⟨w', hw', hw⟩ := C01_basis_exact p hv
  rw [h] at hw'; cases hw'
  have e : swpPairOK p = potPairOK p := by funext r c; exact pairOK_iff ht
  obtain ⟨o1, h1, _⟩ := pairLoop_spec (stepOK_of_basis ht (fun s hs => (hw s).1 hs) true)
  obtain ⟨o2, h2, _⟩ := pairLoop_spec (stepOK_of_basis ht (fun s hs => (hw s).1 hs) false)
  unfold potJobs swpJobs
  rw [e, h1, h2]; simp

/-! ### C34 -/

/-- First processed row of the coupled J=1 channel is the 3S1 state. -/
theorem first_row_coupled_J1 {p : PWParams} (ht : p.tensor = true) (hv : ValidTruncation p) (hJ : 1 ≤ p.J2max)
    {w : PWSpace} (h : constructPW p = some w) {r : PWState} (hr : FirstRow p w.states r)
    (hS : r.S = 1) (hrJ : r.J = 1) (hL : r.L ≠ 1) : r.L = 0 := by
  obtain ⟨w', hw', hw⟩ := C01_basis_exact p hv
  rw [h] at hw'; cases hw'
  obtain ⟨pre, post, hpp, hpre⟩ := hr
  have hrm : r ∈ w.states := by rw [hpp]; simp
  have fr := ((hw r).1 hrm).facts
  set s0 : PWState := ⟨0, 1, 1, 0, 0, 1, 1, 1, 1⟩ with hs0
  have hv2 := hv.2
  have h0 : s0 ∈ w.states := by
    rw [hw, hs0]
    unfold Allowed Couples
    simp only
    refine ⟨by omega, by omega, by omega, by omega, by omega, by omega, by omega, by simp, by omega, by omega,
      by omega, Or.inl trivial⟩
  have hslot : slotOf p s0 = slotOf p r := by
    rw [slotOf_tensor ht fr, slotOf_tensor ht ((hw s0).1 h0).facts]
    have : r.L ≠ r.J ∧ r.J ≠ 0 := by omega
    rw [if_pos this]
    simp [hs0, hrJ]
  have hn : s0 ∉ pre := fun hx => hpre s0 hx hslot
  have := fr.Llo'
  rcases first_hit_before h hpp h0 hn rfl rfl with hx | ⟨_, _, hx⟩
  · rw [hx, hs0]
  · have i := ((hw r).1 hrm).2.2.2.2.2.2.2.2.2.2.2
    simp only [hs0] at hx
    omega

/-- **C34.** With the tensor force, for every truncation and isospin flag, building the SWP states finishes with a
list of diagonalised channels such that: no channel appears twice; every slot of every basis state appears;
nothing else appears; and (for `J_2N_max ≥ 1`) the bound-state search for the deuteron is used for a channel
exactly when that channel is the one of the 3S1–3D1 states. -/
theorem C34_each_channel_once (p : PWParams) (ht : p.tensor = true) (hv : ValidTruncation p) (w : PWSpace)
    (h : constructPW p = some w) :
    ∃ jobs, swpJobs p w.states = some jobs ∧ (jobs.map Job.slot).Nodup ∧
      (∀ s ∈ w.states, ∃ j ∈ jobs, slotOf p s = some j.slot) ∧
      (∀ j ∈ jobs, ∃ s ∈ w.states, slotOf p s = some j.slot) ∧
      (1 ≤ p.J2max → ∀ j ∈ jobs, chn3S1 j = true ↔
        ∃ s ∈ w.states, slotOf p s = some j.slot ∧ s.L = 0 ∧ s.S = 1 ∧ s.J = 1 ∧ s.T = 0) := by
  obtain ⟨w', hw', hw⟩ := C01_basis_exact p hv
  rw [h] at hw'; cases hw'
  have e : swpPairOK p = potPairOK p := by funext r c; exact pairOK_iff ht
  obtain ⟨o, h1, hi, hc, hf⟩ := pairLoop_spec (stepOK_of_basis ht (fun s hs => (hw s).1 hs) false)
  refine ⟨o, by unfold swpJobs; rw [e]; exact h1, hi.nodup, hc, ?_, ?_⟩
  · intro j hj
    exact ⟨j.r, (hi.row j hj).1, (hi.row j hj).2.2⟩
  · intro hJ j hj
    obtain ⟨hr, _, hsl⟩ := hi.row j hj
    have fr := ((hw _).1 hr).facts
    unfold chn3S1
    simp only [Bool.and_eq_true, beq_iff_eq]
    constructor
    · rintro ⟨⟨⟨a, b⟩, c⟩, d⟩
      exact ⟨j.r, hr, hsl, a, b, c, d⟩
    · rintro ⟨s, hs, hss, a, b, c, d⟩
      have hsame := (C05_slot_shared_iff p ht hv w h j.r s hr hs).1 (hsl.trans hss.symm)
      unfold SameInteraction at hsame
      have hS : j.r.S = 1 := by omega
      have hJr : j.r.J = 1 := by omega
      have hL : j.r.L ≠ 1 := by omega
      have := first_row_coupled_J1 ht hv hJ h (hf j hj).1 hS hJr hL
      have := fr.pauli
      have := fr.T01
      omega

/-- C34 for the potential matrices: each channel's matrix is computed exactly once. -/
theorem C34_potential_each_channel_once (p : PWParams) (ht : p.tensor = true) (hv : ValidTruncation p)
    (w : PWSpace) (h : constructPW p = some w) :
    ∃ jobs, potJobs p w.states = some jobs ∧ (jobs.map Job.slot).Nodup ∧
      (∀ s ∈ w.states, ∃ j ∈ jobs, slotOf p s = some j.slot) ∧
      (∀ j ∈ jobs, ∃ s ∈ w.states, slotOf p s = some j.slot) := by
  obtain ⟨w', hw', hw⟩ := C01_basis_exact p hv
  rw [h] at hw'; cases hw'
  obtain ⟨o, h1, hi, hc, hf⟩ := pairLoop_spec (stepOK_of_basis ht (fun s hs => (hw s).1 hs) true)
  exact ⟨o, h1, hi.nodup, hc, fun j hj => ⟨j.r, (hi.row j hj).1, (hi.row j hj).2.2⟩⟩

/-- The potential matrix of the isospin-broken 1S0 channel is always computed from the pair
`two_T_3N = 1, 1` (isoscalar type 1): used for C32. -/
theorem pot_1S0_job_type {p : PWParams} (ht : p.tensor = true) (hv : ValidTruncation p) (hi : p.isoBreak = true)
    {w : PWSpace} (h : constructPW p = some w) {jobs : List Job} (hj : potJobs p w.states = some jobs)
    {j : Job} (hm : j ∈ jobs) (hS : j.r.S = 0) (hJ : j.r.J = 0) :
    isoscalarType j.r j.c = some 1 ∧ j.r.L = 0 ∧ j.c.L = 0 ∧ j.r.T = 1 := by
  obtain ⟨w', hw', hw⟩ := C01_basis_exact p hv
  rw [h] at hw'; cases hw'
  obtain ⟨o, h1, hinv, hc, hf⟩ := pairLoop_spec (stepOK_of_basis ht (fun s hs => (hw s).1 hs) true)
  have : o = jobs := by
    have h1' : potJobs p w.states = some o := h1
    rw [hj] at h1'; exact (Option.some.inj h1').symm
  subst this
  obtain ⟨hr, hcm, hsl⟩ := hinv.row j hm
  have fr := ((hw _).1 hr).facts
  have fc := ((hw _).1 hcm).facts
  obtain ⟨⟨pre, post, hpp, hpre⟩, ⟨pre', post', hpp', hok, hpre'⟩⟩ := hf j hm
  set s0 : PWState := ⟨0, 0, 0, 1, 0, 1, 1, 1, 1⟩ with hs0
  have hv1 := hv.1
  have hv2 := hv.2
  have h0 : s0 ∈ w.states := by
    rw [hw, hs0]
    unfold Allowed Couples
    simp only
    refine ⟨by omega, by omega, by omega, by omega, by omega, by omega, by omega, by simp, by omega, by omega,
      by omega, Or.inl trivial⟩
  have hL : j.r.L = 0 := by have := fr.Llo; have := fr.Lhi; omega
  have hT : j.r.T = 1 := by have := fr.pauli; have := fr.T01; omega
  have hslot : slotOf p s0 = slotOf p j.r := by
    rw [slotOf_tensor ht fr, slotOf_tensor ht ((hw s0).1 h0).facts]
    simp [hs0, hS, hJ, hi]
  have ir := ((hw _).1 hr).2.2.2.2.2.2.2.2.2.2.2
  have ic := ((hw _).1 hcm).2.2.2.2.2.2.2.2.2.2.2
  have hr1 : j.r.twoT3 = 1 := by
    rcases first_hit_before h hpp h0 (fun hx => hpre s0 hx hslot) rfl rfl with hx | ⟨_, _, hx⟩
    · rw [hx, hs0]
    · simp only [hs0] at hx; omega
  have hok' : potPairOK p j.r s0 = true := by
    unfold potPairOK; simp [hs0, hT, hJ, hS, hL]
  have hc1 : j.c.twoT3 = 1 := by
    rcases first_hit_before h hpp' h0 (fun hx => by rw [hpre' s0 hx] at hok'; exact absurd hok' (by simp)) rfl rfl
      with hx | ⟨_, _, hx⟩
    · rw [hx, hs0]
    · simp only [hs0] at hx; omega
  have hcL : j.c.L = 0 := by
    unfold potPairOK at hok
    simp only [Bool.and_eq_true, beq_iff_eq] at hok
    have := fc.Llo; have := fc.Lhi; omega
  refine ⟨?_, hL, hcL, hT⟩
  unfold isoscalarType is1S0
  simp [hr1, hc1, hT, hL, hS, hJ]

example : ∃ w, constructPW { J2max := 1, twoJ3max := 1, isoBreak := true } = some w ∧
    ∃ jobs, swpJobs { J2max := 1, twoJ3max := 1, isoBreak := true } w.states = some jobs ∧
      jobs.map Job.slot = [(true, 0), (false, 0), (false, 1), (true, 1), (false, 2)] :=
  ⟨_, rfl, _, rfl, by decide +kernel⟩

end TicTac
