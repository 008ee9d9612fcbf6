import Verif.Model.Run
import Verif.Props.Potential
import Verif.Lemmas.KernelAny
import Verif.Props.Resolvent
import Verif.Props.OnShell
import Verif.Props.Dense
/-! Lemmas for the whole run: the flat potential arrays, products of two-nucleon operators in the three-nucleon space. -/
noncomputable section
namespace TicTac
open Spec
open Classical

/-- Stored address of an element, in the form used by the readers. -/
theorem flatKey_eq (N : Nat) (b : Bool) (n : Int) (br bc i j : Nat) (h : b = false → br = 0 ∧ bc = 0) :
    flatKey N ((b, n), br, bc, i, j) = (b, n * (chnDim N b * chnDim N b : Nat) + ((N * br + i) * chnDim N b + (N * bc + j) : Nat)) := by
  unfold flatKey chnDim
  cases b
  · obtain ⟨rfl, rfl⟩ := h rfl
    simp only [Bool.false_eq_true, if_false, Prod.mk.injEq, true_and]
    push_cast; ring
  · simp only [if_true, Prod.mk.injEq, true_and]
    push_cast; ring

theorem int_radix_inj {B : Nat} {a a' : Int} {b b' : Nat} (hb : b < B) (hb' : b' < B) (h : a * B + b = a' * B + b') : a = a' ∧ b = b' := by
  have hB : (0 : Int) < B := by omega
  have h1 : (a * B + b) / B = a := by
    rw [Int.add_comm, Int.add_mul_ediv_right _ _ hB.ne', Int.ediv_eq_zero_of_lt (by omega) (by exact_mod_cast hb)]; ring
  have h2 : (a' * B + b') / B = a' := by
    rw [Int.add_comm, Int.add_mul_ediv_right _ _ hB.ne', Int.ediv_eq_zero_of_lt (by omega) (by exact_mod_cast hb')]; ring
  have e : a = a' := by rw [← h1, ← h2, h]
  subst e
  exact ⟨rfl, by omega⟩

theorem mem_blocks {b : Bool} {k : Nat × Nat} (h : k ∈ blocks b) : k.1 < 2 ∧ k.2 < 2 ∧ (b = false → k.1 = 0 ∧ k.2 = 0) := by
  unfold blocks at h
  cases b
  · simp at h; subst h; simp
  · simp at h; rcases h with rfl | rfl | rfl | rfl <;> simp

theorem flatKey_inj {N : Nat} {b b' : Bool} {n n' : Int} {k k' : Nat × Nat} {i j i' j' : Nat} (hk : k ∈ blocks b) (hk' : k' ∈ blocks b')
    (hi : i < N) (hj : j < N) (hi' : i' < N) (hj' : j' < N)
    (h : flatKey N ((b, n), k.1, k.2, i, j) = flatKey N ((b', n'), k'.1, k'.2, i', j')) :
    b = b' ∧ n = n' ∧ k = k' ∧ i = i' ∧ j = j' := by
  obtain ⟨k1, k2, k3⟩ := mem_blocks hk
  obtain ⟨l1, l2, l3⟩ := mem_blocks hk'
  rw [flatKey_eq _ _ _ _ _ _ _ k3, flatKey_eq _ _ _ _ _ _ _ l3] at h
  simp only [Prod.mk.injEq] at h
  obtain ⟨rfl, h⟩ := h
  have bd : ∀ (x y : Nat), (b = false → x = 0) → x < 2 → y < N → N * x + y < chnDim N b := by
    intro x y hx hx2 hy
    unfold chnDim
    cases b
    · simp [hx rfl]; exact hy
    · simp only [if_true]
      have : N * x ≤ N * 1 := Nat.mul_le_mul_left _ (by omega)
      omega
  have e1 := bd k.1 i (fun hb => (k3 hb).1) k1 hi
  have e2 := bd k.2 j (fun hb => (k3 hb).2) k2 hj
  have e3 := bd k'.1 i' (fun hb => (l3 hb).1) l1 hi'
  have e4 := bd k'.2 j' (fun hb => (l3 hb).2) l2 hj'
  obtain ⟨rfl, h'⟩ := int_radix_inj (radix_lt e1 e2) (radix_lt e3 e4) h
  obtain ⟨h1, h2⟩ := radix_inj e2 e4 h'
  rw [Nat.mul_comm N, Nat.mul_comm N] at h1 h2
  obtain ⟨h3, h4⟩ := radix_inj hi hi' h1
  obtain ⟨h5, h6⟩ := radix_inj hj hj' h2
  exact ⟨rfl, rfl, Prod.ext h3 h5, h4, h6⟩

/-- As `potMatrices_spec`, for the flat arrays. -/
theorem potArrays_spec {p : PWParams} (ht : p.tensor = true) {g : PotGrid}
    (hm : g.mid = false ∨ p.isoBreak = false) (V : PotModel) {states : List PWState}
    (hs : ∀ s ∈ states, Allowed p.J2max p.twoJ3max p.isoBreak s) (junk : Job → Nat → Nat → Six)
    (init : Bool × Int → ℝ) :
    ∃ M, potArrays p g V junk init states = some M ∧ ∀ s ∈ states, ∃ r ∈ states, ∃ sl,
      slotOf p s = some sl ∧ slotOf p r = some sl ∧
      ∀ b ∈ blocks (coupledViaL p r || coupledViaT p r), ∀ i < g.Np, ∀ j < g.Np,
        M (flatKey g.Np (sl, b.1, b.2, i, j)) = wpElement g (element V p.isoBreak (rep p r b.1) (rep p r b.2)) i j := by
  obtain ⟨jobs, h1, hi, hcov, hf⟩ := pairLoop_spec (stepOK_of_basis ht hs true)
  have h1' : potJobs p states = some jobs := h1
  set W : Job → List (PotKey × ℝ) := fun job => ((binPairs g.Np).map fun ij =>
    (blocks (coupledViaL p job.r || coupledViaT p job.r)).map fun b => ((job.slot, b.1, b.2, ij.1, ij.2),
        wpElement g (element V p.isoBreak (rep p job.r b.1) (rep p job.r b.2)) ij.1 ij.2)).flatten with hW
  have hjob : ∀ job ∈ jobs, jobWrites p g V (junk job) job = some (W job) := by
    intro job hj
    obtain ⟨hr, hc, hsl⟩ := hi.row job hj
    obtain ⟨_, pre, post, _, hok, _⟩ := hf job hj
    have hty := isoscalarType_isSome (hs _ hr) (hs _ hc)
    unfold jobWrites
    cases hq : isoscalarType job.r job.c with
    | none => exact absurd hq hty
    | some ty =>
      simp only [Option.bind_eq_bind, Option.bind_some]
      rw [mapM_some (fun ij _ => binWrites_spec (hs _ hr) (hs _ hc) hok
        (hm.imp_right (fun hb => by unfold coupledViaT; simp [hb])) V hq (junk job) ij)]
      rfl
  have hflag : ∀ job ∈ jobs, job.slot.1 = (coupledViaL p job.r || coupledViaT p job.r) := by
    intro job hj
    obtain ⟨hr, hc, hsl⟩ := hi.row job hj
    unfold slotOf at hsl
    split_ifs at hsl with hx
    simp only [Option.map_eq_some_iff] at hsl
    obtain ⟨n, _, hn⟩ := hsl
    rw [← hn]
  refine ⟨writeAll init (((jobs.map W).flatten).map fun w => (flatKey g.Np w.1, w.2)), ?_, ?_⟩
  · unfold potArrays
    rw [h1']
    simp only [Option.bind_eq_bind, Option.bind_some]
    rw [mapM_some hjob]
    rfl
  · intro s hsm
    obtain ⟨job, hj, hsl⟩ := hcov s hsm
    obtain ⟨hr, hc, hsl'⟩ := hi.row job hj
    refine ⟨job.r, hr, job.slot, hsl, hsl', ?_⟩
    intro b hb i hi' j hj'
    apply writeAll_eq
    · rw [List.mem_map]
      refine ⟨((job.slot, b.1, b.2, i, j), wpElement g (element V p.isoBreak (rep p job.r b.1) (rep p job.r b.2)) i j), ?_, rfl⟩
      rw [List.mem_flatten]
      refine ⟨W job, List.mem_map_of_mem hj, ?_⟩
      rw [hW]
      simp only [List.mem_flatten, List.mem_map]
      exact ⟨_, ⟨(i, j), mem_binPairs.2 ⟨hi', hj'⟩, rfl⟩, List.mem_map.2 ⟨b, hb, rfl⟩⟩
    · intro w0 hw0 he
      obtain ⟨w, hw1, rfl⟩ := List.mem_map.1 hw0
      rw [List.mem_flatten] at hw1
      obtain ⟨l, hl, hwl⟩ := hw1
      obtain ⟨job', hj'', rfl⟩ := List.mem_map.1 hl
      rw [hW] at hwl
      simp only [List.mem_flatten, List.mem_map] at hwl
      obtain ⟨l, ⟨ij, hij, rfl⟩, hwl⟩ := hwl
      obtain ⟨b', hb', rfl⟩ := List.mem_map.1 hwl
      obtain ⟨hij1, hij2⟩ := mem_binPairs.1 hij
      dsimp only at he ⊢
      obtain ⟨e1, e2, e3, e4, e5⟩ := flatKey_inj (b := job'.slot.1) (b' := job.slot.1) (n := job'.slot.2) (n' := job.slot.2)
        (by rw [hflag _ hj'']; exact hb') (by rw [hflag _ hj]; exact hb) hij1 hij2 hi' hj' he
      have : job' = job := List.inj_on_of_nodup_map hi.nodup hj'' hj (Prod.ext e1 e2)
      subst this
      rw [e3, e4, e5]

theorem blockOf_secNum {p : PWParams} (ht : p.tensor = true) {s : PWState} (hs : Allowed p.J2max p.twoJ3max p.isoBreak s) :
    blockOf p s = secNum s := by
  have hi := hs.2.2.2.2.2.2.2.2.2.2.2
  obtain ⟨aS, aT, aJ, a1, a2, a3, a4⟩ := hs.facts
  unfold blockOf secNum SecondMember coupledViaL coupledViaT is1S0
  simp only [ht, Bool.true_and, Bool.and_eq_true, bne_iff_ne, ne_eq, beq_iff_eq]
  clear * - hi aS aT aJ a1 a2 a3 a4
  rcases hi with hi | ⟨h1, h2, h3, h4, h5⟩
  · split_ifs <;> omega
  · simp [h1, h2, h3, h4, h5]

/-- Element of the flat arrays in the readers' form. -/
theorem potArrays_read {p : PWParams} (ht : p.tensor = true) (hv : ValidTruncation p) {w : PWSpace} (h : constructPW p = some w) {g : PotGrid}
    (hm : g.mid = false ∨ p.isoBreak = false) (V : PotModel) (junk : Job → Nat → Nat → Six) (init : Bool × Int → ℝ) :
    ∃ M, potArrays p g V junk init w.states = some M ∧ ∀ a ∈ w.states, ∀ c ∈ w.states, SameInteraction true a c → ∃ b n, slotOf p a = some (b, n) ∧
      ∀ i < g.Np, ∀ j < g.Np, M (b, n * (chnDim g.Np b * chnDim g.Np b : Nat) + (chanPos g.Np a i * chnDim g.Np b + chanPos g.Np c j : Nat)) =
        wpElement g (element V p.isoBreak a c) i j := by
  obtain ⟨w', hw', hw⟩ := C01_basis_exact p hv
  rw [h] at hw'; cases hw'
  obtain ⟨M, hM, hval⟩ := potArrays_spec ht hm V (fun s hs => (hw s).1 hs) junk init
  refine ⟨M, hM, ?_⟩
  intro a ha c hc hac
  obtain ⟨r, hr, sl, hsa, hsr, hbl⟩ := hval a ha
  refine ⟨sl.1, sl.2, hsa, ?_⟩
  intro i hi j hj
  have hra : SameInteraction p.tensor r a := by
    rw [ht]; exact (C05_slot_shared_iff p ht hv w h r a hr ha).1 (hsr.trans hsa.symm)
  have hrb : SameInteraction p.tensor r c := by
    rw [ht]
    refine (C05_slot_shared_iff p ht hv w h r c hr hc).1 ?_
    rw [hsr, ← hsa]
    exact (C05_slot_shared_iff p ht hv w h a c ha hc).2 hac
  obtain ⟨a1, a2, a3, a4, a5, a6, a7⟩ := rep_blockOf ((hw r).1 hr) ((hw a).1 ha) hra
  obtain ⟨b1, b2, b3, b4, b5, b6, b7⟩ := rep_blockOf ((hw r).1 hr) ((hw c).1 hc) hrb
  have hmemb : (blockOf p a, blockOf p c) ∈ blocks (coupledViaL p r || coupledViaT p r) := by
    unfold blocks
    split_ifs with hcc
    · have e1 : blockOf p a = 0 ∨ blockOf p a = 1 := by omega
      have e2 : blockOf p c = 0 ∨ blockOf p c = 1 := by omega
      rcases e1 with e1 | e1 <;> rcases e2 with e2 | e2 <;> rw [e1, e2] <;> simp
    · have e1 : blockOf p a = 0 := by by_contra hx; exact hcc (a7 hx)
      have e2 : blockOf p c = 0 := by by_contra hx; exact hcc (b7 hx)
      rw [e1, e2]; simp
  have hflag : sl.1 = (coupledViaL p r || coupledViaT p r) := by
    unfold slotOf at hsr
    split_ifs at hsr with hx
    simp only [Option.map_eq_some_iff] at hsr
    obtain ⟨n, _, hn⟩ := hsr
    rw [← hn]
  have := hbl _ hmemb i hi j hj
  rw [show sl = (sl.1, sl.2) from rfl, flatKey_eq _ _ _ _ _ _ _ (by rw [hflag]; exact (mem_blocks hmemb).2.2),
    blockOf_secNum ht ((hw a).1 ha), blockOf_secNum ht ((hw c).1 hc), ← chanPos_eq, ← chanPos_eq] at this
  rw [this, ← blockOf_secNum ht ((hw a).1 ha), ← blockOf_secNum ht ((hw c).1 hc)]
  congr 1
  funext pin pout
  unfold element isospinMix
  rw [a1, a2, a3, a4, a5, b1, b5]

end TicTac
end
