import Verif.Model.Channels2N
import Verif.Spec.Channels2N
import Verif.Props.PWStates
namespace TicTac
open Spec

/-- Quantum-number facts of basis states used below. -/
structure PairFacts (s : PWState) : Prop where
  S01 : s.S = 0 ∨ s.S = 1
  T01 : s.T = 0 ∨ s.T = 1
  J0 : 0 ≤ s.J
  Llo : s.J - s.S ≤ s.L
  Llo' : s.S - s.J ≤ s.L
  Lhi : s.L ≤ s.J + s.S
  pauli : (s.L + s.S + s.T) % 2 = 1

theorem Spec.Allowed.facts {J2 J3 : Int} {b : Bool} {s : PWState} (h : Allowed J2 J3 b s) : PairFacts s := by
  obtain ⟨a1, a2, a3, _, _, _, a4, _⟩ := h
  unfold Couples at a1 a2 a3
  constructor <;> omega

theorem slotOf_tensor {p : PWParams} (ht : p.tensor = true) {s : PWState} (h : PairFacts s) :
    slotOf p s = some (
      if s.L ≠ s.J ∧ s.J ≠ 0 then (true, if p.isoBreak then s.J else s.J - 1)
      else if p.isoBreak = true ∧ s.S = 0 ∧ s.J = 0 then (true, 0)
      else (false, if p.isoBreak then 2 * s.J + s.S - 1 else 2 * s.J + s.S)) := by
  obtain ⟨hS, hT, hJ, h1, h2, h3, h4⟩ := h
  unfold slotOf coupledViaL coupledViaT is1S0 unique2NIdx
  simp only [ht, Bool.true_and, Bool.and_eq_true, bne_iff_ne, ne_eq, beq_iff_eq, Bool.or_eq_true,
    reduceCtorEq, and_false, if_false, if_true]
  rcases hb : p.isoBreak with _ | _
  · by_cases hc : s.L ≠ s.J ∧ s.J ≠ 0
    · simp [hc]
    · have hc' : ¬ (¬ s.L = s.J ∧ ¬ s.J = 0) := hc
      simp only [hc', if_false]
      have : ((s.L != s.J && s.J != 0) || (s.S == 0 && s.J == 0 && s.L == 0 && false)) = false := by
        simp only [Bool.and_false, Bool.or_false]
        by_contra hx; exact hc (by simpa using hx)
      simp
      intro h5; by_contra h6; exact hc' ⟨h5, h6⟩
  · by_cases hc : s.L ≠ s.J ∧ s.J ≠ 0
    · have hn : ¬ (s.S = 0 ∧ s.J = 0 ∧ s.L = 0) := by omega
      simp [hc]
    · by_cases h0 : s.S = 0 ∧ s.J = 0
      · have e1 : s.L = 0 := by omega
        have e2 : s.T = 1 := by omega
        simp [h0.1, h0.2, e1, e2]
      · have hc' : ¬ (¬ s.L = s.J ∧ ¬ s.J = 0) := hc
        have e3 : (s.S == 0 && s.J == 0 && s.L == 0) = false := by
          by_contra hx
          simp at hx; exact h0 ⟨hx.1, hx.2.1⟩
        have e4 : (s.L != s.J && s.J != 0) = false := by
          by_contra hx; exact hc (by simpa using hx)
        simp [hc', h0, e3, e4]

/-- For interacting pairs of basis states the pair slot is the slot of the row state. -/
theorem pairSlot_eq_slotOf {p : PWParams} (ht : p.tensor = true) {r c : PWState} (hr : PairFacts r)
    (hc : PairFacts c) (hT : r.T = c.T) (hJ : r.J = c.J) (hS : r.S = c.S) :
    pairSlot p r c = slotOf p r := by
  have : pairViaL p r c = coupledViaL p r := by
    unfold pairViaL coupledViaL
    by_cases hL : r.L = c.L
    · simp [hL, Bool.and_assoc]
    · have h1 : r.L ≠ r.J := by
        have := hr.pauli; have := hc.pauli; have := hr.Llo; have := hr.Lhi; have := hc.Llo; have := hc.Lhi
        have := hr.S01
        omega
      have h2 : r.J ≠ 0 := by
        have := hr.pauli; have := hc.pauli; have := hr.Llo; have := hr.Lhi; have := hc.Llo; have := hc.Lhi
        have := hr.Llo'; have := hc.Llo'; have := hr.S01
        omega
      simp only [bne_iff_ne.2 hL, bne_iff_ne.2 h1, bne_iff_ne.2 h2, ht, Bool.true_or, Bool.and_self]
  unfold pairSlot slotOf
  rw [this]

theorem pairOK_iff {p : PWParams} (ht : p.tensor = true) {r c : PWState} :
    swpPairOK p r c = potPairOK p r c := by
  unfold swpPairOK potPairOK
  by_cases h : r.L = c.L
  · simp [h]
  · rw [beq_eq_false_iff_ne.2 h]; simp [ht]

theorem isoscalarType_isSome {J2 J3 : Int} {b : Bool} {r c : PWState} (hr : Allowed J2 J3 b r)
    (hc : Allowed J2 J3 b c) :
    isoscalarType r c ≠ none := by
  have fr := hr.facts
  have fc := hc.facts
  obtain ⟨_, _, _, _, _, _, _, _, _, _, _, ir⟩ := hr
  obtain ⟨_, _, _, _, _, _, _, _, _, _, _, ic⟩ := hc
  unfold isoscalarType is1S0
  have hT01 := fr.T01
  rcases ir with ir | ⟨_, ir, l1, s1, j1⟩ <;> rcases ic with ic | ⟨_, ic, l2, s2, j2⟩
  · rcases hT01 with h | h <;> simp [ir, ic, h]
  · simp [ir, ic]
  · simp [ir, ic, l1, s1, j1]
  · simp [ir, ic, l1, s1, j1]

/-! ### The double loop -/

section loop
variable {p : PWParams} {ok : PWState → PWState → Bool} {typed : Bool}

/-- Invariant: slots distinct; every job's slot is its row's slot. -/
structure JobsInv (p : PWParams) (states : List PWState) (jobs : List Job) : Prop where
  nodup : (jobs.map Job.slot).Nodup
  row : ∀ j ∈ jobs, j.r ∈ states ∧ j.c ∈ states ∧ slotOf p j.r = some j.slot

/-- Assumptions under which the step never stops. -/
structure StepOK (p : PWParams) (ok : PWState → PWState → Bool) (typed : Bool) (states : List PWState) : Prop where
  slot : ∀ r ∈ states, ∀ c ∈ states, ok r c = true → pairSlot p r c = slotOf p r ∧ (slotOf p r).isSome = true
  typ : typed = true → ∀ r ∈ states, ∀ c ∈ states, ok r c = true → isoscalarType r c ≠ none
  self : ∀ r ∈ states, ok r r = true

theorem pairStep_spec {states jobs : List _} (hok : StepOK p ok typed states) (hi : JobsInv p states jobs)
    {r c : PWState} (hr : r ∈ states) (hc : c ∈ states) :
    ∃ ext, pairStep p ok typed jobs r c = some (jobs ++ ext) ∧ JobsInv p states (jobs ++ ext) ∧
      (∀ j ∈ ext, j.r = r ∧ j.c = c ∧ ok r c = true ∧ slotOf p r = some j.slot ∧ ∀ j' ∈ jobs, j'.slot ≠ j.slot) ∧
      (ok r c = true → ∃ j ∈ jobs ++ ext, slotOf p r = some j.slot) := by
  unfold pairStep
  by_cases h : ok r c = true
  · rw [if_pos h]
    have htyp : ¬ (typed = true ∧ isoscalarType r c = none) := fun hx => hok.typ hx.1 r hr c hc h hx.2
    rw [if_neg htyp]
    obtain ⟨he, hs⟩ := hok.slot r hr c hc h
    obtain ⟨sl, hsl⟩ := Option.isSome_iff_exists.1 hs
    rw [he, hsl]
    simp only
    by_cases ha : jobs.any (fun j => j.slot == sl) = true
    · rw [if_pos ha]
      obtain ⟨j, hj, hjs⟩ := List.any_eq_true.1 ha
      refine ⟨[], by simp, by simpa using hi, by simp, fun _ => ⟨j, by simpa using hj, ?_⟩⟩
      rw [beq_iff_eq] at hjs; rw [hjs]
    · rw [if_neg ha]
      have hne : ∀ j' ∈ jobs, j'.slot ≠ sl := by
        intro j' hj' hx
        exact ha (List.any_eq_true.2 ⟨j', hj', by simpa using hx⟩)
      refine ⟨[⟨sl, r, c⟩], rfl, ⟨?_, ?_⟩, ?_, ?_⟩
      · rw [List.map_append, List.nodup_append]
        refine ⟨hi.nodup, by simp, ?_⟩
        intro a ha' b hb hab
        simp only [List.map_cons, List.map_nil, List.mem_singleton] at hb
        obtain ⟨j', hj', rfl⟩ := List.mem_map.1 ha'
        exact hne j' hj' (hab.trans hb)
      · intro j hj
        rcases List.mem_append.1 hj with hj | hj
        · exact hi.row j hj
        · simp only [List.mem_singleton] at hj; subst hj; exact ⟨hr, hc, hsl⟩
      · intro j hj
        simp only [List.mem_singleton] at hj; subst hj
        exact ⟨rfl, rfl, h, rfl, hne⟩
      · intro _
        exact ⟨⟨sl, r, c⟩, by simp, rfl⟩
  · rw [if_neg h]
    exact ⟨[], by simp, by simpa using hi, by simp, fun hx => absurd hx h⟩

/-- `c` is the first column interacting with `r`. -/
def FirstCol (ok : PWState → PWState → Bool) (cols : List PWState) (r c : PWState) : Prop :=
  ∃ pre post, cols = pre ++ c :: post ∧ ok r c = true ∧ ∀ x ∈ pre, ok r x = false

theorem rowLoop_spec {states : List PWState} (hok : StepOK p ok typed states) {r : PWState} (hr : r ∈ states)
    (cols : List PWState) (hcols : ∀ c ∈ cols, c ∈ states) (jobs : List Job) (hi : JobsInv p states jobs) :
    ∃ ext, cols.foldlM (fun jobs c => pairStep p ok typed jobs r c) jobs = some (jobs ++ ext) ∧
      JobsInv p states (jobs ++ ext) ∧
      (∀ j ∈ ext, j.r = r ∧ slotOf p r = some j.slot ∧ (∀ j' ∈ jobs, j'.slot ≠ j.slot) ∧
        FirstCol ok cols r j.c) ∧
      ((∃ c ∈ cols, ok r c = true) → ∃ j ∈ jobs ++ ext, slotOf p r = some j.slot) := by
  induction cols generalizing jobs with
  | nil => exact ⟨[], by simp, by simpa using hi, by simp, by simp⟩
  | cons c cols ih =>
    obtain ⟨e1, h1, i1, p1, q1⟩ := pairStep_spec hok hi hr (hcols c (by simp))
    obtain ⟨e2, h2, i2, p2, q2⟩ := ih (fun c hc => hcols c (by simp [hc])) _ i1
    refine ⟨e1 ++ e2, ?_, by simpa [List.append_assoc] using i2, ?_, ?_⟩
    · rw [List.foldlM_cons, h1]
      simpa [List.append_assoc] using h2
    · intro j hj
      rcases List.mem_append.1 hj with hj | hj
      · obtain ⟨a, a2, a3, b, d⟩ := p1 j hj
        exact ⟨a, b, d, [], cols, by simp [a2], by rw [a2]; exact a3, by simp⟩
      · obtain ⟨a, b, d, pre, post, hpp, hokc, hpre⟩ := p2 j hj
        refine ⟨a, b, fun j' hj' => d j' (by simp [hj']), c :: pre, post, by simp [hpp], hokc, ?_⟩
        intro x hx
        rcases List.mem_cons.1 hx with rfl | hx
        · by_contra hne
          obtain ⟨j', hj', hjs'⟩ := q1 (by simpa using hne)
          exact d j' hj' (by rw [b] at hjs'; exact (Option.some.inj hjs').symm)
        · exact hpre x hx
    · rintro ⟨c', hc', hok'⟩
      rcases List.mem_cons.1 hc' with rfl | hc'
      · obtain ⟨j, hj, hjs⟩ := q1 hok'
        exact ⟨j, by rw [← List.append_assoc]; exact List.mem_append_left _ hj, hjs⟩
      · obtain ⟨j, hj, hjs⟩ := q2 ⟨c', hc', hok'⟩
        exact ⟨j, by simpa [List.append_assoc] using hj, hjs⟩

/-- `r` is the first row having its slot. -/
def FirstRow (p : PWParams) (rows : List PWState) (r : PWState) : Prop :=
  ∃ pre post, rows = pre ++ r :: post ∧ ∀ x ∈ pre, slotOf p x ≠ slotOf p r

theorem outerLoop_spec {states : List PWState} (hok : StepOK p ok typed states) :
    ∀ (rows done : List PWState) (_ : ∀ r ∈ done ++ rows, r ∈ states) (jobs : List Job)
      (_ : JobsInv p states jobs)
      (_ : ∀ r ∈ done, ∃ j ∈ jobs, slotOf p r = some j.slot)
      (_ : ∀ j ∈ jobs, FirstRow p (done ++ rows) j.r ∧ FirstCol ok states j.r j.c),
    ∃ out, rows.foldlM (fun jobs r => states.foldlM (fun jobs c => pairStep p ok typed jobs r c) jobs) jobs
        = some out ∧ JobsInv p states out ∧
      (∀ r ∈ done ++ rows, ∃ j ∈ out, slotOf p r = some j.slot) ∧
      (∀ j ∈ out, FirstRow p (done ++ rows) j.r ∧ FirstCol ok states j.r j.c) := by
  intro rows
  induction rows with
  | nil =>
    intro done _ jobs hi hd hf
    exact ⟨jobs, by simp, hi, by simpa using hd, by simpa using hf⟩
  | cons r rows ih =>
    intro done hsub jobs hi hd hf
    have hr : r ∈ states := hsub r (by simp)
    obtain ⟨ext, h1, i1, p1, q1⟩ := rowLoop_spec hok hr states (fun c hc => hc) jobs hi
    have q1' := q1 ⟨r, hr, hok.self r hr⟩
    obtain ⟨out, h2, i2, c2, f2⟩ := ih (done ++ [r]) (by simpa using hsub) (jobs ++ ext) i1
      (by
        intro x hx
        rcases List.mem_append.1 hx with hx | hx
        · obtain ⟨j, hj, hjs⟩ := hd x hx
          exact ⟨j, by simp [hj], hjs⟩
        · simp only [List.mem_singleton] at hx; subst hx; exact q1')
      (by
        intro j hj
        rcases List.mem_append.1 hj with hj | hj
        · simpa using hf j hj
        · obtain ⟨a, b, d, e⟩ := p1 j hj
          refine ⟨⟨done, rows, by simp [a], ?_⟩, by rw [a]; exact e⟩
          intro x hx hxs
          obtain ⟨j', hj', hjs'⟩ := hd x hx
          have : j'.slot = j.slot := by
            rw [a] at hxs
            rw [hjs', b] at hxs
            exact Option.some.inj hxs
          exact d j' hj' this)
    refine ⟨out, ?_, i2, by simpa using c2, by simpa using f2⟩
    rw [List.foldlM_cons, h1]
    simpa using h2

theorem pairLoop_spec {states : List PWState} (hok : StepOK p ok typed states) :
    ∃ out, pairLoop p ok typed states = some out ∧ JobsInv p states out ∧
      (∀ r ∈ states, ∃ j ∈ out, slotOf p r = some j.slot) ∧
      (∀ j ∈ out, FirstRow p states j.r ∧ FirstCol ok states j.r j.c) := by
  have := outerLoop_spec hok states [] (by simp) [] ⟨by simp, by simp⟩ (by simp) (by simp)
  simpa [pairLoop] using this

end loop

theorem stepOK_of_basis {p : PWParams} (ht : p.tensor = true) {states : List PWState}
    (hs : ∀ s ∈ states, Allowed p.J2max p.twoJ3max p.isoBreak s) (typed : Bool) :
    StepOK p (potPairOK p) typed states := by
  have key : ∀ r c : PWState, potPairOK p r c = true → r.T = c.T ∧ r.J = c.J ∧ r.S = c.S := by
    intro r c h
    unfold potPairOK at h
    simp only [Bool.and_eq_true, beq_iff_eq] at h
    exact ⟨h.1.1.1, h.1.1.2, h.1.2⟩
  refine ⟨?_, ?_, ?_⟩
  · intro r hr c hc h
    obtain ⟨a, b, d⟩ := key r c h
    refine ⟨pairSlot_eq_slotOf ht (hs r hr).facts (hs c hc).facts a b d, ?_⟩
    rw [slotOf_tensor ht (hs r hr).facts]; rfl
  · intro _ r hr c hc h
    obtain ⟨a, b, d⟩ := key r c h
    exact isoscalarType_isSome (hs r hr) (hs c hc)
  · intro r _
    unfold potPairOK; simp

/-! ### Order of the basis inside the first channel -/

/-- `x` precedes `y` in the loop order of the quantum numbers of `y` (used with `y` in the first channel). -/
def Before (x y : PWState) : Prop :=
  x.twoJ3 = y.twoJ3 ∧ x.P = y.P ∧ (x.twoT3 < y.twoT3 ∨ (x.twoT3 = y.twoT3 ∧
    (x.J < y.J ∨ (x.J = y.J ∧ (x.S < y.S ∨ (x.S = y.S ∧ x.L ≤ y.L))))))

theorem pairwise_forRange {lo hi step : Int} (hs : 0 < step) : (forRange lo hi step).Pairwise (· < ·) := by
  unfold forRange
  rw [List.pairwise_map]
  refine List.Pairwise.imp ?_ (List.pairwise_lt_range)
  intro a b h
  have : (a : Int) < b := by exact_mod_cast h
  nlinarith

theorem channelStates_order (p : PWParams) (twoJ3 rem : Int) :
    (channelStates p twoJ3 rem).Pairwise Before := by
  have hT : ∀ {twoT3 J S L : Int} {s : PWState}, s ∈ loopT twoJ3 rem twoT3 J S L →
      s.twoJ3 = twoJ3 ∧ s.P = 1 - 2 * rem ∧ s.twoT3 = twoT3 ∧ s.J = J ∧ s.S = S ∧ s.L = L := by
    intro twoT3 J S L s hs
    rw [mem_loopT] at hs
    tauto
  have hB : ∀ {a b : PWState}, a.twoJ3 = b.twoJ3 → a.P = b.P → (a.twoT3 < b.twoT3 ∨ (a.twoT3 = b.twoT3 ∧
    (a.J < b.J ∨ (a.J = b.J ∧ (a.S < b.S ∨ (a.S = b.S ∧ a.L ≤ b.L)))))) → Before a b :=
    fun h1 h2 h3 => ⟨h1, h2, h3⟩
  unfold channelStates
  rw [List.pairwise_flatMap]
  refine ⟨fun t _ => ?_, ?_⟩
  · rw [List.pairwise_flatMap]
    refine ⟨fun J _ => ?_, ?_⟩
    · rw [List.pairwise_flatMap]
      refine ⟨fun S _ => ?_, ?_⟩
      · rw [List.pairwise_flatMap]
        refine ⟨fun L _ => ?_, ?_⟩
        · refine List.Pairwise.imp_of_mem (R := fun _ _ => True) ?_ (List.pairwise_of_forall (fun _ _ => trivial))
          intro a b ha hb _
          have := hT ha; have := hT hb
          apply hB <;> omega
        · refine List.Pairwise.imp ?_ (pairwise_forRange (by omega))
          intro a b hab x hx y hy
          have := hT hx; have := hT hy
          apply hB <;> omega
      · refine List.Pairwise.imp ?_ (pairwise_forRange (by omega))
        intro a b hab x hx y hy
        obtain ⟨_, _, hx⟩ := List.mem_flatMap.1 hx
        obtain ⟨_, _, hy⟩ := List.mem_flatMap.1 hy
        have := hT hx; have := hT hy
        apply hB <;> omega
    · refine List.Pairwise.imp ?_ (pairwise_forRange (by omega))
      intro a b hab x hx y hy
      simp only [List.mem_flatMap] at hx hy
      obtain ⟨_, _, _, _, hx⟩ := hx
      obtain ⟨_, _, _, _, hy⟩ := hy
      have := hT hx; have := hT hy
      apply hB <;> omega
  · refine List.Pairwise.imp ?_ (pairwise_forRange (by omega))
    intro a b hab x hx y hy
    simp only [List.mem_flatMap] at hx hy
    obtain ⟨_, _, _, _, _, _, hx⟩ := hx
    obtain ⟨_, _, _, _, _, _, hy⟩ := hy
    have := hT hx; have := hT hy
    apply hB <;> omega

/-- Anything listed before a state of the first channel (J3 = 1/2, P = +1) precedes it in loop order. -/
theorem basis_order {p : PWParams} {w : PWSpace} (h : constructPW p = some w) :
    w.states.Pairwise (fun x y => y.twoJ3 = 1 → y.P = 1 → Before x y) := by
  rw [constructPW_states h, List.pairwise_flatMap]
  refine ⟨fun c _ => (channelStates_order p c.1 c.2).imp (fun h _ _ => h), ?_⟩
  have hlex : (channelLoop p).Pairwise (fun a b => a.1 < b.1 ∨ (a.1 = b.1 ∧ a.2 < b.2)) := by
    unfold channelLoop
    rw [List.pairwise_flatMap]
    refine ⟨fun t _ => ?_, ?_⟩
    · rw [List.pairwise_map]
      exact (pairwise_forRange (by omega)).imp (fun h => Or.inr ⟨rfl, h⟩)
    · refine List.Pairwise.imp ?_ (pairwise_forRange (by omega))
      intro a b hab x hx y hy
      obtain ⟨_, _, rfl⟩ := List.mem_map.1 hx
      obtain ⟨_, _, rfl⟩ := List.mem_map.1 hy
      exact Or.inl hab
  refine List.Pairwise.imp_of_mem ?_ hlex
  intro a b ha hb hab x hx y hy h1 h2
  rw [mem_channelStates] at hy
  rw [mem_channelLoop] at ha
  exfalso
  obtain ⟨_, _, _, _, _, _, _, _, _, _, e1, e2⟩ := hy
  omega

/-- A first-channel state `s0` that satisfies the search condition bounds the first hit `r` in loop order. -/
theorem first_hit_before {p : PWParams} {w : PWSpace} (h : constructPW p = some w) {pre post : List PWState}
    {r s0 : PWState} (hpp : w.states = pre ++ r :: post) (h0 : s0 ∈ w.states) (hpre : s0 ∉ pre)
    (h1 : s0.twoJ3 = 1) (h2 : s0.P = 1) : r = s0 ∨ Before r s0 := by
  have ho := basis_order h
  rw [hpp] at ho h0
  rw [List.pairwise_append] at ho
  rcases List.mem_append.1 h0 with h0 | h0
  · exact absurd h0 hpre
  · rcases List.mem_cons.1 h0 with h0 | h0
    · exact Or.inl h0.symm
    · exact Or.inr ((List.pairwise_cons.1 ho.2.1).1 s0 h0 h1 h2)

end TicTac
