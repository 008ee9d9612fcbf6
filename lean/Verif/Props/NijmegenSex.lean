import Verif.Lemmas.SexHist
import Verif.Lemmas.SexStart
import Verif.Props.NijmegenCe1
/-! C111: the integrals `SEX` returns, in every history of calls. -/
noncomputable section
namespace TicTac
open Polynomial Spec Set MeasureTheory

/-- `CE1` as `SEXN` calls it. -/
def ce1Of (t : ℝ) : ℝ := (nijCe1 15 t).getD 0

theorem ce1Of_near (t : ℝ) (ht : 0 < t) : |ce1Of t - Real.exp t * ei1 t| ≤ 1e-12 := by
  obtain ⟨v, h1, h2, _⟩ := C110_ce1 t ht
  unfold ce1Of
  rw [h1 15 le_rfl]
  exact h2

/-- **C111.** Whatever calls came before, a call returns the integrals. -/
theorem C111_in_every_history {h : List SexCall} {m : SexMem} (hr : SexReach ce1Of h m) (hreg : ∀ d ∈ h, d.Regular) {c : SexCall} (hc : c.Regular) (hs : Steady (c :: h)) (eln ern : Nat → ℝ) :
    ∃ m' eln' ern', sexn ce1Of m c.x c.y c.a c.j c.kom eln ern = some (m', eln', ern') ∧
      (∀ n ≤ c.j, |ern' (n + 1) - sexR c n| ≤ 3 ^ n * 1.3e-7 * sexSize c) ∧
      (c.kom = 1 → 5 < c.x → ∀ n ≤ c.j, |eln' (n + 1) - sexL c n| ≤ 3 ^ n * 6.7e-6 * sexSize c) ∧
      (c.kom = 1 → c.x ≤ 5 → ∀ n ≤ c.j, |eln' (n + 1) - sexL c n| ≤ 15 ^ n * 3.3e-8 * sexSize c) ∧
      (c.kom = 2 → eln' = eln) ∧ (∀ i, ¬(1 ≤ i ∧ i ≤ c.j + 1) → ern' i = ern i ∧ eln' i = eln i) := by
  have inv := reach_inv (ρ := 1e-7) (by norm_num) (fun c hc => start_ok hc) ce1Of_near hr hreg hs.2
  obtain ⟨m', l', r', q1, _, q2, q3, q4, q5, q6⟩ := call_result (ρ := 1e-7) (by norm_num) (fun c hc => start_ok hc) ce1Of_near inv hc hs eln ern
  have hz : 0 < sexSize c := Real.exp_pos _
  have hz2 := fun (b : ℝ) (n : Nat) (hb : 0 ≤ b) => mul_nonneg (pow_nonneg hb n) hz.le
  refine ⟨m', l', r', q1, ?_, ?_, ?_, q5, q6⟩
  · intro n hn
    refine (q2 n hn).trans (le_of_eq ?_)
    ring
  · intro hk hx n hn
    refine (q3 hk hx n hn).trans ?_
    have := hz2 3 n (by norm_num)
    linarith
  · intro hk hx n hn
    refine (q4 hk (not_lt.2 hx) n hn).trans ?_
    have := hz2 15 n (by norm_num)
    linarith

/-- A history in which the second call uses the tables of the first. -/
example : ∃ m, SexReach ce1Of [⟨2, 1, 0, 3, 1⟩] m ∧ Steady [⟨2, 1, 0, 4, 2⟩, ⟨2, 1, 0, 3, 1⟩] ∧ (⟨2, 1, 0, 4, 2⟩ : SexCall).Regular ∧ (⟨2, 1, 0, 3, 1⟩ : SexCall).Regular ∧ m.xyhh = 2 ∧ m.yh = 1 := by
  have r1 : (⟨2, 1, 0, 3, 1⟩ : SexCall).Regular := ⟨by norm_num, by norm_num, by norm_num, by norm_num, by norm_num, by norm_num, Or.inl rfl⟩
  have r2 : (⟨2, 1, 0, 4, 2⟩ : SexCall).Regular := ⟨by norm_num, by norm_num, by norm_num, by norm_num, by norm_num, by norm_num, Or.inr rfl⟩
  have s1 : Steady [⟨2, 1, 0, 3, 1⟩] := ⟨fun n c' o h => by simp at h, trivial⟩
  obtain ⟨m', l', r', q1, q2, -⟩ := call_result (ρ := 1e-7) (by norm_num) (fun c hc => start_ok hc) ce1Of_near (h := []) (m := ⟨fun _ => 0, 1e20, 1e20, 1e20⟩) (Or.inl ⟨rfl, rfl⟩) r1 s1 (fun _ => 0) (fun _ => 0)
  refine ⟨m', .call (.start _) q1, ⟨?_, s1⟩, r2, r1, ?_⟩
  · intro n c' o h _ _
    rcases n with _ | ⟨d, n⟩
    · simp only [List.nil_append, List.cons.injEq] at h
      rw [← h.1]
    · simp at h
  · obtain ⟨f1, f2, f3, f4, f5⟩ := reg_facts r1
    obtain ⟨m2, t1, t2, t3, -⟩ := sexFill_spec r1 (ρ := 1e-7) (by norm_num) (start_ok r1) ⟨fun _ => 0, 1e20, 1e20, 1e20⟩
    unfold sexn at q1
    dsimp only at q1 f1 f2 f3 f4 t1 t2 t3
    rw [if_neg f1, f2, f3, f4, if_neg (by norm_num), t1] at q1
    simp only [Option.bind, show ¬ ((1 : Nat) = 2) by decide, if_false, show ¬ ((5 : ℝ) < 2) by norm_num, Option.map, Option.some.injEq, Prod.mk.injEq] at q1
    rw [← q1.1]
    refine ⟨?_, t3⟩
    change m2.xyhh = 2
    rw [t2]; norm_num

/-- With more than eight waves and `x` above 5 the tables of a call that fills them do not fit into their 30 places. -/
theorem C111_beyond_table (m : SexMem) (c : SexCall) (hx : 5 < c.x) (hy : 1e-3 < c.y) (hyx : c.y * (c.x + 1) < 100) (ha : c.a ^ 2 ≤ 60) (hj : 9 ≤ c.j) (hj2 : c.j ≤ 13)
    (hk : c.y ≠ m.yh) (ce1 : ℝ → ℝ) (eln ern : Nat → ℝ) : sexn ce1 m c.x c.y c.a c.j c.kom eln ern = none := by
  have y0 : 0 < c.y := by linarith [show (0 : ℝ) < 1e-3 by norm_num]
  have hz : ¬(c.y - c.y * c.x - c.a ^ 2 < -160) := by nlinarith
  have hM : c.j + 2 + 20 < sexStart c.y (c.j + 2 + 20) := (start_gen hy (by norm_num; nlinarith) (by omega) (by omega)).1
  unfold sexn
  dsimp only
  rw [if_neg hz, if_neg (fun h => hk h.1.2)]
  unfold sexFill
  dsimp only
  rw [if_pos hx, if_pos (show 30 < c.j + 2 + 20 by omega), if_pos (show 30 < Nat.min (c.j + 2 + 20) (sexStart c.y (c.j + 2 + 20) - 1) from Nat.lt_min.2 ⟨by omega, by omega⟩)]
  split_ifs <;> rfl

/-- The keys after a call. -/
theorem sexn_keys {c : SexCall} (hc : c.Regular) (hpos : c.a ^ 2 < c.y * c.x) {ce1 : ℝ → ℝ} {m m1 : SexMem} {eln ern l1 r1 : Nat → ℝ} (q : sexn ce1 m c.x c.y c.a c.j c.kom eln ern = some (m1, l1, r1)) :
    |c.y * c.x - c.a * c.a - m1.xyhh| < 1e-10 * (c.y * c.x - c.a * c.a) ∧ c.y = m1.yh ∧ m1.xh = c.x := by
  obtain ⟨f1, f2, f3, f4, -⟩ := reg_facts hc
  have κ0 : 0 < c.y * c.x - c.a * c.a := by nlinarith
  have hmem : ∃ mm, (if (|c.y * c.x - c.a * c.a - m.xyhh| < 1e-10 * (c.y * c.x - c.a * c.a) ∧ c.y = m.yh) ∧ ¬(5 < c.x ∧ m.xh ≤ 5) then some m else
        sexFill m c.x c.y c.a (Real.exp (c.y - (c.y * c.x - c.a * c.a)) / 2) (Real.exp (-c.y - (c.y * c.x - c.a * c.a)) / 2) (Real.exp (c.a * c.a)) c.j) = some mm ∧ m1 = { mm with xh := c.x } := by
    unfold sexn at q
    dsimp only at q
    rw [if_neg f1, f2, f3, f4, Option.bind_eq_some_iff] at q
    obtain ⟨mm, e1, e2⟩ := q
    refine ⟨mm, e1, ?_⟩
    split_ifs at e2
    · simp only [Option.some.injEq, Prod.mk.injEq] at e2
      exact e2.1.symm
    · rw [Option.map_eq_some_iff] at e2
      obtain ⟨un, -, e3⟩ := e2
      simp only [Prod.mk.injEq] at e3
      exact e3.1.symm
    · rw [Option.map_eq_some_iff] at e2
      obtain ⟨un, -, e3⟩ := e2
      simp only [Prod.mk.injEq] at e3
      exact e3.1.symm
    · rw [Option.map_eq_some_iff] at e2
      obtain ⟨un, -, e3⟩ := e2
      simp only [Prod.mk.injEq] at e3
      exact e3.1.symm
  obtain ⟨mm, e1, e2⟩ := hmem
  rw [e2]
  refine ⟨?_, ?_, rfl⟩
  · by_cases hk : (|c.y * c.x - c.a * c.a - m.xyhh| < 1e-10 * (c.y * c.x - c.a * c.a) ∧ c.y = m.yh) ∧ ¬(5 < c.x ∧ m.xh ≤ 5)
    · rw [if_pos hk] at e1
      rw [← Option.some.inj e1]
      exact hk.1.1
    · rw [if_neg hk] at e1
      obtain ⟨m', s1, s2, s3, -⟩ := sexFill_spec hc (ρ := 1e-7) (by norm_num) (start_ok hc) m
      rw [s1] at e1
      change |_ - mm.xyhh| < _
      rw [← Option.some.inj e1, s2, sub_self, abs_zero]
      positivity
  · by_cases hk : (|c.y * c.x - c.a * c.a - m.xyhh| < 1e-10 * (c.y * c.x - c.a * c.a) ∧ c.y = m.yh) ∧ ¬(5 < c.x ∧ m.xh ≤ 5)
    · rw [if_pos hk] at e1
      rw [← Option.some.inj e1]
      exact hk.1.2
    · rw [if_neg hk] at e1
      obtain ⟨m', s1, s2, s3, -⟩ := sexFill_spec hc (ρ := 1e-7) (by norm_num) (start_ok hc) m
      rw [s1] at e1
      change c.y = mm.yh
      rw [← Option.some.inj e1, s3]

theorem sexR_zero_pos (c : SexCall) : 0 < sexR c 0 := by
  have hi : 0 < ∫ z in (-1 : ℝ)..1, (legendre 0).eval z * Real.exp (-(c.y * (c.x - z))) := by
    refine intervalIntegral.intervalIntegral_pos_of_pos_on ?_ ?_ (by norm_num)
    · exact (Continuous.mul (legendre 0).continuous (by fun_prop)).intervalIntegrable _ _
    · intro z _
      rw [← legTab_sum]
      simp [legTab]
      positivity
  unfold sexR
  have := Real.exp_pos (c.a ^ 2)
  positivity

/-- A call in the region where everything is negligible spoils the tables of the call before it: repeated, that call returns zeros. -/
theorem C111_zeroed_tables {h : List SexCall} {m : SexMem} (hr : SexReach ce1Of h m) (hreg : ∀ d ∈ h, d.Regular) {c : SexCall} (hc : c.Regular) (hs : Steady (c :: h)) (hpos : c.a ^ 2 < c.y * c.x)
    {z : SexCall} (hz : z.y - z.y * z.x - z.a ^ 2 < -160) (eln ern : Nat → ℝ) :
    ∃ m1 m2 m3 l1 r1 l2 r2 l3 r3, sexn ce1Of m c.x c.y c.a c.j c.kom eln ern = some (m1, l1, r1) ∧ sexn ce1Of m1 z.x z.y z.a z.j z.kom l1 r1 = some (m2, l2, r2) ∧
      sexn ce1Of m2 c.x c.y c.a c.j c.kom l2 r2 = some (m3, l3, r3) ∧ (∀ n ≤ c.j, r3 (n + 1) = 0) ∧ 0 < sexR c 0 := by
  obtain ⟨m1, l1, r1, q1, -⟩ := C111_in_every_history hr hreg hc hs eln ern
  obtain ⟨k1, k2, k3⟩ := sexn_keys hc hpos q1
  obtain ⟨f1, f2, f3, f4, -⟩ := reg_facts hc
  have qz : sexn ce1Of m1 z.x z.y z.a z.j z.kom l1 r1 = some ({ m1 with tn := fun i => if 1 ≤ i ∧ i ≤ 30 then 0 else m1.tn i },
      fun i => if 1 ≤ i ∧ i ≤ z.j + 1 then 0 else l1 i, fun i => if 1 ≤ i ∧ i ≤ z.j + 1 then 0 else r1 i) := by
    unfold sexn
    dsimp only
    rw [if_pos hz]
  have hkept : (|c.y * c.x - c.a * c.a - m1.xyhh| < 1e-10 * (c.y * c.x - c.a * c.a) ∧ c.y = m1.yh) ∧ ¬(5 < c.x ∧ m1.xh ≤ 5) := ⟨⟨k1, k2⟩, fun h => by rw [k3] at h; linarith [h.1, h.2]⟩
  have hj := hc.j1
  have hsum : ∀ n ≤ c.j, legSum (fun i => if 1 ≤ i ∧ i ≤ 30 then 0 else m1.tn i) n = 0 := by
    intro n hn
    unfold legSum
    refine Finset.sum_eq_zero fun k hk => ?_
    have := Finset.mem_range.1 hk
    beta_reduce
    rw [if_pos ⟨by omega, by omega⟩, mul_zero]
  have qc : ∃ m3 l3 r3, sexn ce1Of { m1 with tn := fun i => if 1 ≤ i ∧ i ≤ 30 then 0 else m1.tn i } c.x c.y c.a c.j c.kom (fun i => if 1 ≤ i ∧ i ≤ z.j + 1 then 0 else l1 i)
      (fun i => if 1 ≤ i ∧ i ≤ z.j + 1 then 0 else r1 i) = some (m3, l3, r3) ∧ ∀ n ≤ c.j, r3 (n + 1) = 0 := by
    unfold sexn
    dsimp only
    rw [if_neg f1, f2, f3, f4, if_pos hkept]
    dsimp only [Option.bind]
    rcases hc.kom with hk | hk
    · rw [if_neg (by omega)]
      by_cases h5 : 5 < c.x
      · have h0 : (if 1 ≤ c.j + 1 ∧ c.j + 1 ≤ 30 then (0 : ℝ) else m1.tn (c.j + 1)) / c.x = 0 := by rw [if_pos ⟨by omega, by omega⟩, zero_div]
        simp only [if_pos h5, if_pos h0]
        refine ⟨_, _, _, rfl, fun n hn => ?_⟩
        rw [if_pos ⟨by omega, by omega⟩, Nat.add_sub_cancel]
        exact hsum n hn
      · simp only [if_neg h5]
        refine ⟨_, _, _, rfl, fun n hn => ?_⟩
        rw [if_pos ⟨by omega, by omega⟩, Nat.add_sub_cancel]
        exact hsum n hn
    · rw [if_pos hk]
      refine ⟨_, _, _, rfl, fun n hn => ?_⟩
      rw [if_pos ⟨by omega, by omega⟩, Nat.add_sub_cancel]
      exact hsum n hn
  obtain ⟨m3, l3, r3, q3, q4⟩ := qc
  exact ⟨m1, _, m3, l1, r1, _, _, l3, r3, q1, qz, q3, q4, sexR_zero_pos c⟩

/-- Such a history. -/
example : (⟨2, 1, 0, 3, 1⟩ : SexCall).Regular ∧ (0 : ℝ) ^ 2 < 1 * 2 ∧ (1 : ℝ) - 1 * 200 - 0 ^ 2 < -160 :=
  ⟨⟨by norm_num, by norm_num, by norm_num, by norm_num, by norm_num, by norm_num, Or.inl rfl⟩, by norm_num, by norm_num⟩

end TicTac
end
