import Verif.Lemmas.PWChannels
/-!
Property theorems C01–C04, C56, C57: the three-nucleon partial-wave basis.
-/
namespace TicTac
open Spec

/-- **C01.** For every accepted truncation the construction succeeds and lists exactly the allowed states. -/
theorem C01_basis_exact (p : PWParams) (hv : ValidTruncation p) :
    ∃ w, constructPW p = some w ∧ ∀ s, s ∈ w.states ↔ Allowed p.J2max p.twoJ3max p.isoBreak s := by
  obtain ⟨hJ, hJ3, hodd⟩ := hv
  refine ⟨_, constructPW_closed hJ, fun s => ?_⟩
  simp only [List.mem_flatMap, mem_channelLoop, mem_channelStates]
  unfold Allowed Couples
  constructor
  · rintro ⟨c, hc, ht, hJ', hS, hL, hT, hpa, htj, hl, hpar, h3, hJ3', hP⟩
    have htt : s.twoT3 = 1 ∨ (p.isoBreak = true ∧ s.twoT3 = 3) := by
      unfold twoT3max at ht
      split at ht
      · rename_i hb
        by_cases h1 : s.twoT3 = 1
        · exact Or.inl h1
        · exact Or.inr ⟨hb, by omega⟩
      · exact Or.inl (by omega)
    have hT2 : 0 ≤ s.T ∧ s.T ≤ 1 := by
      have := hT.2
      split at this <;> omega
    refine ⟨by omega, by omega, by omega, by omega, by omega, ?_, by omega, ?_, by omega, by omega, by omega, ?_⟩
    · rcases htt with h | ⟨_, h⟩ <;> rw [h] at hT ⊢ <;> omega
    · split <;> omega
    · rcases htt with h | ⟨hb, h⟩
      · exact Or.inl h
      · refine Or.inr ⟨hb, h, ?_⟩
        by_contra hn
        exact h3 ⟨h, fun hx => hn ⟨hx.2.1, hx.1, hx.2.2⟩⟩
  · rintro ⟨hS, hT, hLSJ, hl, hJj, hT3, hpa, hP, hJm, hJ3m, hJ3o, hiso⟩
    refine ⟨(s.twoJ3, (s.L + s.l) % 2), ⟨by omega, by omega⟩, ?_, by omega, by omega, by omega, ?_, by omega,
      by omega, by omega, rfl, ?_, rfl, ?_⟩
    · unfold twoT3max
      rcases hiso with h | ⟨hb, h, _⟩
      · split <;> omega
      · rw [hb, h]; decide
    · rcases hiso with h | ⟨hb, h, _⟩ <;> rw [h] at hT3 ⊢ <;> norm_num <;> omega
    · rintro ⟨h3, hn⟩
      rcases hiso with h | ⟨hb, h, h1, h2, h4⟩
      · omega
      · exact hn ⟨h2, h1, h4⟩
    · split at hP <;> simp only <;> omega

/-- C01, error branch: the only rejected truncation at this point is a negative `J_2N_max`. -/
theorem C01_rejects_iff (p : PWParams) : constructPW p = none ↔ p.J2max < 0 := by
  unfold constructPW; split <;> simp_all

-- a non-trivial accepted truncation, and a state of it (with isospin 3/2)
example : ValidTruncation { J2max := 3, twoJ3max := 5, isoBreak := true } := by unfold ValidTruncation; decide
example : Allowed 3 5 true { L := 0, S := 0, J := 0, T := 1, l := 2, twoj := 5, twoJ3 := 5, twoT3 := 3, P := 1 } := by
  simp [Allowed, Couples]
example : ¬ Allowed 3 5 false { L := 0, S := 0, J := 0, T := 1, l := 2, twoj := 5, twoJ3 := 5, twoT3 := 3, P := 1 } := by
  simp [Allowed, Couples]

/-- **C02.** No state is listed twice, for any parameters. -/
theorem C02_no_duplicates (p : PWParams) (w : PWSpace) (h : constructPW p = some w) : w.states.Nodup := by
  rw [constructPW_states h]
  refine nodup_flatMap_key (fun s => (s.twoJ3, (s.L + s.l) % 2)) (nodup_channelLoop p)
    (fun c _ => nodup_channelStates p c.1 c.2) ?_
  intro c _ s hs
  rw [mem_channelStates] at hs
  obtain ⟨_, _, _, _, _, _, _, _, h1, _, h2, _⟩ := hs
  exact Prod.ext h2 h1

example : ∃ w, constructPW { J2max := 1, twoJ3max := 1, isoBreak := true } = some w ∧ w.states.length = 22 :=
  ⟨_, rfl, by decide +kernel⟩

/-- **C03.** For every accepted truncation: there are `two_J_3N_max + 1` channels; the index array starts at 0,
is strictly increasing and ends at `Nalpha`; and position `i` lies in block `c` exactly when the state there has
`2 J3 = 2 (c/2) + 1` and parity `(-1)^c`. -/
theorem C03_channels_contiguous (p : PWParams) (hv : ValidTruncation p) (w : PWSpace)
    (h : constructPW p = some w) :
    (w.nChn : Int) = p.twoJ3max + 1 ∧
    w.chnIdx.length = w.nChn + 1 ∧
    w.chnIdx[0]? = some 0 ∧
    w.chnIdx[w.nChn]? = some w.states.length ∧
    w.chnIdx.Pairwise (· < ·) ∧
    ∀ c lo hi, c < w.nChn → w.chnIdx[c]? = some lo → w.chnIdx[c + 1]? = some hi →
      ∀ i s, w.states[i]? = some s →
        (lo ≤ i ∧ i < hi ↔ s.twoJ3 = 2 * ((c / 2 : Nat) : Int) + 1 ∧ s.P = if c % 2 = 0 then 1 else -1) := by
  have hlen := channelLoop_length hv
  have hJ := hv.1
  have h0 := h
  rw [constructPW_closed hJ] at h
  simp only [Option.some.injEq] at h
  have hget : ∀ c, c ≤ (channelLoop p).length →
      ((List.range ((channelLoop p).length + 1)).map (chanOffset p))[c]? = some (chanOffset p c) := by
    intro c hc
    rw [List.getElem?_map, List.getElem?_range (by omega)]; rfl
  have hch : ∀ c (hc : c < (channelLoop p).length),
      (channelLoop p)[c] = (2 * ((c / 2 : Nat) : Int) + 1, ((c % 2 : Nat) : Int)) := by
    intro c hc
    simp [channelLoop_eq hv]
  have hstep : ∀ c, c < (channelLoop p).length → chanOffset p c < chanOffset p (c + 1) := by
    intro c hc
    rw [chanOffset_succ p hc]
    have := channelStates_ne_nil hJ (List.getElem_mem hc)
    have := List.length_pos_iff.2 this
    omega
  have hmono : ∀ b, b ≤ (channelLoop p).length → ∀ a, a < b → chanOffset p a < chanOffset p b := by
    intro b
    induction b with
    | zero => intro _ a ha; omega
    | succ b ih =>
      intro hb a ha
      have h1 := hstep b (by omega)
      rcases Nat.lt_or_ge a b with h2 | h2
      · have := ih (by omega) a h2; omega
      · have : a = b := by omega
        subst this; exact h1
  subst h
  refine ⟨?_, by simp, ?_, ?_, ?_, ?_⟩
  · simp only [hlen]; have := hv.2.1; omega
  · simp only [hget 0 (by omega), chanOffset_zero]
  · simp only [hget _ (le_refl _), chanOffset_length]
  · rw [List.pairwise_map]
    refine List.Pairwise.imp_of_mem ?_ (List.pairwise_lt_range (n := (channelLoop p).length + 1))
    intro a b _ hb hab
    exact hmono b (by rw [List.mem_range] at hb; omega) a hab
  · intro c lo hi hc hlo hhi i s hs
    simp only at hc
    simp only [hget c (by omega), hget (c + 1) (by omega), Option.some.injEq] at hlo hhi
    -- which block is i in?
    have hkey : ∀ b, b < (channelLoop p).length → chanOffset p b ≤ i → i < chanOffset p (b + 1) →
        s.twoJ3 = 2 * ((b / 2 : Nat) : Int) + 1 ∧ s.P = 1 - 2 * ((b % 2 : Nat) : Int) := by
      intro b hb h1 h2
      have hbe := block_eq hJ h0 hb
      have hmem : s ∈ channelStates p ((channelLoop p)[b]).1 ((channelLoop p)[b]).2 := by
        rw [← hbe]
        unfold PWSpace.block
        simp only [List.getD_eq_getElem?_getD, hget b (by omega), hget (b + 1) (by omega), Option.getD_some]
        rw [List.mem_iff_getElem?]
        refine ⟨i - chanOffset p b, ?_⟩
        rw [List.getElem?_take, if_pos (by omega), List.getElem?_drop]
        rw [show chanOffset p b + (i - chanOffset p b) = i by omega]
        exact hs
      rw [mem_channelStates, hch b hb] at hmem
      exact ⟨hmem.2.2.2.2.2.2.2.2.2.2.1, hmem.2.2.2.2.2.2.2.2.2.2.2⟩
    constructor
    · rintro ⟨h1, h2⟩
      have := hkey c hc (by omega) (by omega)
      refine ⟨this.1, ?_⟩
      split <;> omega
    · rintro ⟨h1, h2⟩
      have hil : i < chanOffset p (channelLoop p).length := by
        rw [chanOffset_length]
        exact (List.getElem?_eq_some_iff.1 hs).1
      -- find the block of i
      have : ∀ n, n ≤ (channelLoop p).length → i < chanOffset p n →
          ∃ b, b < n ∧ chanOffset p b ≤ i ∧ i < chanOffset p (b + 1) := by
        intro n
        induction n with
        | zero => intro _ hi; simp [chanOffset_zero] at hi
        | succ n ih =>
          intro hn hi
          rcases Nat.lt_or_ge i (chanOffset p n) with h3 | h3
          · obtain ⟨b, hb, h4⟩ := ih (by omega) h3
            exact ⟨b, by omega, h4⟩
          · exact ⟨n, by omega, h3, hi⟩
      obtain ⟨b, hb, hb1, hb2⟩ := this _ (le_refl _) hil
      have hk := hkey b hb hb1 hb2
      have : b = c := by
        split at h2 <;> omega
      subst this
      omega

example : ∃ w, constructPW { J2max := 1, twoJ3max := 3, isoBreak := true } = some w ∧
    w.nChn = 4 ∧ w.chnIdx = [0, 11, 22, 37, 52] := ⟨_, rfl, by decide +kernel, by decide +kernel⟩

/-- **C04.** With `J_2N_max ≥ 1`, for every channel the deuteron index list is increasing, contains position `i`
(relative to the channel start) exactly when the state there has a 3S1, T=0 pair, and has length 2 for `J3 = 1/2`
and 3 for every higher `J3`. -/
theorem C04_deuteron_channels (p : PWParams) (hv : ValidTruncation p) (hJ1 : 1 ≤ p.J2max) (w : PWSpace)
    (h : constructPW p = some w) (c lo hi : Nat) (hc : c < w.nChn)
    (hlo : w.chnIdx[c]? = some lo) (hhi : w.chnIdx[c + 1]? = some hi) :
    ∃ ds, (findDeuteronChannels w)[c]? = some ds ∧ ds.Pairwise (· < ·) ∧
      (∀ i, i ∈ ds ↔ lo + i < hi ∧ ∃ s, w.states[lo + i]? = some s ∧
        s.L = 0 ∧ s.S = 1 ∧ s.J = 1 ∧ s.T = 0) ∧
      ds.length = if c < 2 then 2 else 3 := by
  have hJ := hv.1
  have hn : w.nChn = (channelLoop p).length := by
    have h' := h
    rw [constructPW_closed hJ] at h'
    simp only [Option.some.injEq] at h'
    subst h'; rfl
  have hc' : c < (channelLoop p).length := by omega
  have hch : (channelLoop p)[c] = (2 * ((c / 2 : Nat) : Int) + 1, ((c % 2 : Nat) : Int)) := by
    simp [channelLoop_eq hv]
  refine ⟨indicesWhere isDeuteron (w.block c), ?_, sorted_indicesWhere _ _, ?_, ?_⟩
  · unfold findDeuteronChannels
    rw [List.getElem?_map, List.getElem?_range hc]; rfl
  · intro i
    rw [mem_indicesWhere]
    have hb : ∀ j : Nat, (w.block c)[j]? = if j < hi - lo then w.states[lo + j]? else none := by
      intro j
      unfold PWSpace.block
      simp only [List.getD_eq_getElem?_getD, hlo, hhi, Option.getD_some]
      rw [List.getElem?_take]
      split
      · rw [List.getElem?_drop]
      · rfl
    constructor
    · rintro ⟨hl, hd⟩
      have h1 := hb i
      rw [List.getElem?_eq_getElem hl] at h1
      split at h1
      · refine ⟨by omega, _, h1.symm, ?_⟩
        simp only [isDeuteron, Bool.and_eq_true, beq_iff_eq] at hd
        omega
      · simp at h1
    · rintro ⟨hl, s, hs, h1, h2, h3, h4⟩
      have h5 := hb i
      rw [if_pos (by omega), hs] at h5
      obtain ⟨hx, hy⟩ := List.getElem?_eq_some_iff.1 h5
      refine ⟨hx, ?_⟩
      rw [hy]
      simp [isDeuteron, h1, h2, h3, h4]
  · rw [length_indicesWhere, block_eq hJ h hc', hch]
    rw [filter_deuteron_length hJ1 (by omega) (by omega) (by omega)]
    split <;> split <;> omega

/-- C04, no pair state with J=1: with `J_2N_max = 0` there is no elastic channel at all. -/
theorem C04_no_deuteron_when_J0 (p : PWParams) (hv : ValidTruncation p) (hJ0 : p.J2max = 0) (w : PWSpace)
    (h : constructPW p = some w) : ∀ ds ∈ findDeuteronChannels w, ds = [] := by
  intro ds hds
  unfold findDeuteronChannels at hds
  simp only [List.mem_map, List.mem_range] at hds
  obtain ⟨c, hc, rfl⟩ := hds
  have hJ := hv.1
  have hn : w.nChn = (channelLoop p).length := by
    have h' := h
    rw [constructPW_closed hJ] at h'
    simp only [Option.some.injEq] at h'
    subst h'; rfl
  rw [List.eq_nil_iff_forall_not_mem]
  intro i hi
  rw [mem_indicesWhere] at hi
  obtain ⟨hl, hd⟩ := hi
  have hmem := List.getElem_mem hl
  have hbe := block_eq hJ h (c := c) (by omega)
  generalize (w.block c)[i] = s at hd hmem
  rw [hbe, mem_channelStates] at hmem
  simp only [isDeuteron, Bool.and_eq_true, beq_iff_eq] at hd
  have := hmem.2.1
  omega

example : ∃ w, constructPW { J2max := 2, twoJ3max := 3, isoBreak := true } = some w ∧
    (findDeuteronChannels w).map List.length = [2, 2, 3, 3] := ⟨_, rfl, by decide +kernel⟩

/-- **C56 (false of the code).** Building the basis reads `chn_idx_temp` out of range in *every* accepted run:
the loop at make_pw_symm_states.cpp:236-244 reads entry `N_chn` before it is appended at line 249. -/
theorem C56_construction_reads_out_of_range (p : PWParams) (hv : ValidTruncation p) :
    largestNalpha (pwLoop p).chn = none := by
  have hlen : 0 < (pwLoop p).chn.length := by
    rw [pwLoop_chn p hv.1]
    simp [channelLoop_length hv]
    have := hv.2.1; omega
  unfold largestNalpha
  generalize (pwLoop p).chn = l at *
  obtain ⟨n, hn⟩ : ∃ n, l.length = n + 1 := ⟨l.length - 1, by omega⟩
  rw [hn, List.range_succ, List.foldlM_append]
  have hx : l[n + 1]? = none := by rw [List.getElem?_eq_none_iff]; omega
  have hy : ∀ b : Int, List.foldlM (fun (best : Int) (c : Nat) => do
    let lo ← l[c]?
    let hi ← l[c + 1]?
    let n := (hi : Int) - lo
    pure (if n > best then n else best)) b [n] = none := by
    intro b
    simp [hx]
  simp only [hy]
  cases (List.foldlM (fun (best : Int) (c : Nat) => do
    let lo ← l[c]?
    let hi ← l[c + 1]?
    let n := (hi : Int) - lo
    pure (if n > best then n else best)) 0 (List.range n) : Option Int) <;> rfl

/-- C56, repaired order: after the final `push_back` the same loop is in range and returns the largest block. -/
theorem C56_in_range_after_push (p : PWParams) (hv : ValidTruncation p) (w : PWSpace)
    (h : constructPW p = some w) (c : Nat) (hc : c < w.nChn) :
    ∃ lo hi, w.chnIdx[c]? = some lo ∧ w.chnIdx[c + 1]? = some hi := by
  have := (C03_channels_contiguous p hv w h).2.1
  exact ⟨_, _, List.getElem?_eq_getElem (by omega), List.getElem?_eq_getElem (by omega)⟩

/-- **C57 (false of the code).** The parity character in the "Constructing channel" banner is always the opposite
of the parity `P_3N` stored for every state of that channel. -/
theorem C57_banner_parity_wrong (p : PWParams) (c : Int × Int) (s : PWState)
    (hs : s ∈ channelStates p c.1 c.2) :
    printedParity c.2 = '-' ↔ s.P = 1 := by
  rw [mem_channelStates] at hs
  have hP := hs.2.2.2.2.2.2.2.2.2.2.2
  unfold printedParity
  split <;> simp <;> omega

end TicTac
