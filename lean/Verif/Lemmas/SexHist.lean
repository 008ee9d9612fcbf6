import Verif.Lemmas.SexCallLem
/-! Histories of calls of `SEXN`. -/
noncomputable section
namespace TicTac
open Polynomial Spec Set MeasureTheory

/-- What the tables are good for after a history. -/
def SexInv (ρ : ℝ) (h : List SexCall) (m : SexMem) : Prop :=
  (h = [] ∧ m.yh = 1e20) ∨ ∃ newer c0 older, h = newer ++ c0 :: older ∧ (∀ d ∈ newer, d.y = m.yh) ∧ c0.y = m.yh ∧ TabOk m c0.j ρ

/-- Entries needed by a call. -/
def needLen (c : SexCall) : Nat := if 5 < c.x then c.j + 21 else c.j + 1

/-- The tables a call works with, whether they were kept or filled anew. -/
theorem call_tables {ρ : ℝ} (hρ : 0 ≤ ρ) (hstart : ∀ c : SexCall, c.Regular → StartOk c.y (tabLen c.x c.j) ρ) {h : List SexCall} {m : SexMem} (inv : SexInv ρ h m) {c : SexCall}
    (hc : c.Regular) (hs : Steady (c :: h)) :
    ∃ m', (if (|c.y * c.x - c.a * c.a - m.xyhh| < 1e-10 * (c.y * c.x - c.a * c.a) ∧ c.y = m.yh) ∧ ¬(5 < c.x ∧ m.xh ≤ 5) then some m else
        sexFill m c.x c.y c.a (Real.exp (c.y - (c.y * c.x - c.a * c.a)) / 2) (Real.exp (-c.y - (c.y * c.x - c.a * c.a)) / 2) (Real.exp (c.a * c.a)) c.j) = some m' ∧
      (∀ i, 1 ≤ i → i ≤ needLen c → |m'.tn i - tMom c.y (c.y * c.x - c.a * c.a) (i - 1)| ≤ (1.1 * ρ + 2e-8) * sexSize c) ∧ SexInv ρ (c :: h) { m' with xh := c.x } := by
  have hsz : sexSize c = Real.exp (c.y - (c.y * c.x - c.a * c.a)) := by unfold sexSize; congr 1; ring
  rw [hsz]
  by_cases hk : (|c.y * c.x - c.a * c.a - m.xyhh| < 1e-10 * (c.y * c.x - c.a * c.a) ∧ c.y = m.yh) ∧ ¬(5 < c.x ∧ m.xh ≤ 5)
  · rw [if_pos hk]
    obtain ⟨⟨k1, k2⟩, k3⟩ := hk
    refine ⟨m, rfl, ?_, ?_⟩
    · intro i h1 h2
      rcases inv with ⟨_, e⟩ | ⟨newer, c0, older, eh, en, e0, ht⟩
      · exfalso
        have := hc.yx
        have := hc.x1
        have := hc.y1
        have : (1e20 : ℝ) < 100 := by rw [← e, ← k2]; nlinarith
        norm_num at this
      · have hj := hs.1 newer c0 older eh (fun d hd => (en d hd).trans k2.symm) (e0.trans k2.symm)
        have hlen : i ≤ tabLen m.xh c0.j := by
          unfold needLen at h2
          unfold tabLen
          by_cases h5 : 5 < c.x
          · rw [if_pos h5] at h2
            rw [if_pos (by by_contra h; exact k3 ⟨h5, not_lt.1 h⟩)]
            omega
          · rw [if_neg h5] at h2
            split_ifs <;> omega
        exact kept_tables hc hρ (ht.tab i h1 hlen) k1 k2
    · rcases inv with ⟨_, e⟩ | ⟨newer, c0, older, eh, en, e0, ht⟩
      · exfalso
        have := hc.yx
        have := hc.x1
        have := hc.y1
        have : (1e20 : ℝ) < 100 := by rw [← e, ← k2]; nlinarith
        norm_num at this
      · refine Or.inr ⟨c :: newer, c0, older, by rw [eh]; rfl, ?_, e0, ⟨?_⟩⟩
        · intro d hd
          rcases List.mem_cons.1 hd with rfl | hd
          · exact k2
          · exact en d hd
        · intro i h1 h2
          refine ht.tab i h1 (h2.trans ?_)
          change tabLen c.x c0.j ≤ tabLen m.xh c0.j
          unfold tabLen
          by_cases h5 : 5 < c.x
          · rw [if_pos h5, if_pos (by by_contra h; exact k3 ⟨h5, not_lt.1 h⟩)]
          · rw [if_neg h5]; split_ifs <;> omega
  · rw [if_neg hk]
    obtain ⟨m', e1, e2, e3, e4⟩ := sexFill_spec hc hρ (hstart c hc) m
    refine ⟨m', e1, ?_, ?_⟩
    · intro i h1 h2
      refine (e4 i h1 ?_).trans ?_
      · refine h2.trans ?_
        unfold needLen tabLen
        split_ifs <;> omega
      · exact mul_le_mul_of_nonneg_right (by linarith) (Real.exp_pos _).le
    · refine Or.inr ⟨[], c, h, rfl, by simp, e3.symm, ⟨?_⟩⟩
      intro i h1 h2
      have := e4 i h1 h2
      change |m'.tn i - tMom m'.yh m'.xyhh (i - 1)| ≤ ρ * Real.exp (m'.yh - m'.xyhh)
      rw [e2, e3]
      exact this

/-- One call in a history. -/
theorem call_result {ρ : ℝ} (hρ : 0 ≤ ρ) (hstart : ∀ c : SexCall, c.Regular → StartOk c.y (tabLen c.x c.j) ρ) {ce1 : ℝ → ℝ} (hce : ∀ t, 0 < t → |ce1 t - Real.exp t * ei1 t| ≤ 1e-12)
    {h : List SexCall} {m : SexMem} (inv : SexInv ρ h m) {c : SexCall} (hc : c.Regular) (hs : Steady (c :: h)) (eln ern : Nat → ℝ) :
    ∃ m' eln' ern', sexn ce1 m c.x c.y c.a c.j c.kom eln ern = some (m', eln', ern') ∧ SexInv ρ (c :: h) m' ∧
      (∀ n ≤ c.j, |ern' (n + 1) - sexR c n| ≤ 3 ^ n * ((1.1 * ρ + 2e-8) * sexSize c)) ∧
      (c.kom = 1 → 5 < c.x → ∀ n ≤ c.j, |eln' (n + 1) - sexL c n| ≤ 3 ^ n * (7e-12 * sexSize c + 51 * ((1.1 * ρ + 2e-8) * sexSize c))) ∧
      (c.kom = 1 → ¬ 5 < c.x → ∀ n ≤ c.j, |eln' (n + 1) - sexL c n| ≤ 15 ^ n * (1e-12 * sexSize c + (1.1 * ρ + 2e-8) * sexSize c / 4)) ∧
      (c.kom = 2 → eln' = eln) ∧ (∀ i, ¬(1 ≤ i ∧ i ≤ c.j + 1) → ern' i = ern i ∧ eln' i = eln i) := by
  obtain ⟨f1, f2, f3, f4, f5⟩ := reg_facts hc
  obtain ⟨m', t1, t2, t3⟩ := call_tables hρ hstart inv hc hs
  have hl : (if 5 < c.x then c.j + 20 else c.j) ≤ needLen c := by unfold needLen; split_ifs <;> omega
  have hl2 : c.j < needLen c := by unfold needLen; split_ifs <;> omega
  obtain ⟨v1, v2, v3⟩ := call_values hc (m := m') hce hl (by omega) t2
  unfold sexn
  dsimp only
  rw [if_neg f1, f2, f3, f4, t1]
  dsimp only [Option.bind]
  rcases hc.kom with hk | hk
  · rw [if_neg (by omega)]
    by_cases h5 : 5 < c.x
    · simp only [if_pos h5]
      obtain ⟨um, u1, u2⟩ := v2 hk h5
      rw [u1]
      refine ⟨_, _, _, rfl, t3, ?_, ?_, fun _ h => absurd h5 h, fun h => absurd h (by omega), fun i hi => ⟨if_neg hi, if_neg hi⟩⟩
      · intro n hn; rw [if_pos ⟨by omega, by omega⟩, Nat.add_sub_cancel]; exact v1 n (by omega)
      · intro _ _ n hn
        rw [if_pos ⟨by omega, by omega⟩, Nat.add_sub_cancel]
        exact u2 n hn
    · simp only [if_neg h5]
      refine ⟨_, _, _, rfl, t3, ?_, fun _ h => absurd h h5, ?_, fun h => absurd h (by omega), fun i hi => ⟨if_neg hi, if_neg hi⟩⟩
      · intro n hn; rw [if_pos ⟨by omega, by omega⟩, Nat.add_sub_cancel]; exact v1 n (by omega)
      · intro _ _ n hn
        rw [if_pos ⟨by omega, by omega⟩, Nat.add_sub_cancel]
        exact v3 hk h5 n hn
  · rw [if_pos hk]
    refine ⟨_, _, _, rfl, t3, ?_, fun h => absurd h (by omega), fun h => absurd h (by omega), fun _ => rfl, fun i hi => ⟨if_neg hi, rfl⟩⟩
    intro n hn; rw [if_pos ⟨by omega, by omega⟩, Nat.add_sub_cancel]; exact v1 n (by omega)

/-- The invariant holds after every history. -/
theorem reach_inv {ρ : ℝ} (hρ : 0 ≤ ρ) (hstart : ∀ c : SexCall, c.Regular → StartOk c.y (tabLen c.x c.j) ρ) {ce1 : ℝ → ℝ} (hce : ∀ t, 0 < t → |ce1 t - Real.exp t * ei1 t| ≤ 1e-12)
    {h : List SexCall} {m : SexMem} (hr : SexReach ce1 h m) : (∀ c ∈ h, c.Regular) → Steady h → SexInv ρ h m := by
  induction hr with
  | start tn => intro _ _; exact Or.inl ⟨rfl, rfl⟩
  | @call h m m' c eln ern eln' ern' hr e ih =>
    intro hreg hs
    have inv := ih (fun d hd => hreg d (List.mem_cons_of_mem _ hd)) hs.2
    obtain ⟨m2, l2, r2, q, inv', _⟩ := call_result hρ hstart hce inv (hreg c (List.mem_cons_self ..)) hs eln ern
    rw [e] at q
    simp only [Option.some.injEq, Prod.mk.injEq] at q
    rw [q.1]
    exact inv'

end TicTac
end
