import Verif.Lemmas.SmlErr
import Verif.Props.NijmegenSex
/-! C112: the integrals `SEX` returns for small `y`, and histories mixing both branches. -/
noncomputable section
namespace TicTac
open Polynomial Spec Set MeasureTheory

/-- What a call for small `y` returns, in terms of the expansion. -/
theorem smllex_run {c : SexCall} (hc : c.Small) {fuel : Nat} (hf : 5 ≤ fuel) (qleg eln ern : Nat → ℝ) :
    ∃ q l r, smllex fuel qleg c.x c.y c.a c.j eln ern = some (q, l, r) ∧
      (∀ n ≤ c.j + 1, c.a ≠ 0 → ∃ q0 q1 q2 : ℝ, qj99 fuel n c.x = some q0 ∧ qj99 fuel (n + 1) c.x = some q1 ∧ qj99 fuel (n - 1) c.x = some q2 ∧
        l (n + 1) = smlSize c * (q0 + c.y * (((n : ℝ) + 1) / (2 * n + 1) * q1 + (n : ℝ) / (2 * n + 1) * q2))) ∧
      (c.a = 0 → ∀ n ≤ c.j + 1, l (n + 1) = 0) ∧ (∀ n ≤ c.j + 2, r (n + 1) = smlSize c * smlSum c.y n) ∧
      (∀ i, ¬(1 ≤ i ∧ i ≤ c.j + 3) → l i = eln i ∧ r i = ern i) := by
  have hj := hc.j1
  have some99 : ∀ k, c.a ≠ 0 → ∃ v, qj99 fuel k c.x = some v := fun k ha => by
    obtain ⟨v, hv, -⟩ := qj99_err (hc.x2 ha) k hf
    exact ⟨v, hv⟩
  have hno : ¬(c.a ≠ 0 ∧ ∃ k < c.j + 3, qj99 fuel k c.x = none) := by
    rintro ⟨ha, k, _, hk⟩
    obtain ⟨v, hv⟩ := some99 k ha
    rw [hv] at hk
    exact absurd hk (by simp)
  have e1 : nijFdexp (c.a * c.a) = Real.exp (c.a ^ 2) := by
    unfold nijFdexp
    rw [if_neg (by nlinarith [mul_self_nonneg c.a]), pow_two]
  have e2 : nijFdexp (-(c.y * c.x)) = Real.exp (-(c.y * c.x)) := by
    unfold nijFdexp
    rw [if_neg (by linarith [hc.yx])]
  unfold smllex
  dsimp only
  rw [if_neg (by omega), if_neg hno, e1, e2]
  refine ⟨_, _, _, rfl, ?_, ?_, ?_, ?_⟩
  · intro n hn ha
    obtain ⟨q0, h0⟩ := some99 n ha
    obtain ⟨q1, h1⟩ := some99 (n + 1) ha
    obtain ⟨q2, h2⟩ := some99 (n - 1) ha
    refine ⟨q0, q1, q2, h0, h1, h2, ?_⟩
    beta_reduce
    rw [if_pos ⟨by omega, by omega⟩]
    unfold smlSize
    rcases n with _ | n
    · rw [if_pos rfl, if_pos ⟨by omega, by omega⟩, if_pos ha, if_pos ⟨by omega, by omega⟩, if_pos ha]
      simp only [Nat.sub_self, show (2 : Nat) - 1 = 0 + 1 by rfl, h0, h1, Option.getD_some]
      norm_num
      ring
    · rw [if_neg (by omega), if_pos ⟨by omega, by omega⟩, if_pos ha, if_pos ⟨by omega, by omega⟩, if_pos ha, if_pos ⟨by omega, by omega⟩, if_pos ha]
      simp only [Nat.add_sub_cancel, h0, h1]
      rw [show n + 1 - 1 = n by omega] at h2
      rw [h2]
      simp only [Option.getD_some]
      push_cast
      ring
  · intro ha n hn
    beta_reduce
    rw [if_pos ⟨by omega, by omega⟩]
    rcases n with _ | n
    · rw [if_pos rfl, if_pos ⟨by omega, by omega⟩, if_neg (by simpa using ha), if_pos ⟨by omega, by omega⟩, if_neg (by simpa using ha)]
      ring
    · rw [if_neg (by omega), if_pos ⟨by omega, by omega⟩, if_neg (by simpa using ha), if_pos ⟨by omega, by omega⟩, if_neg (by simpa using ha), if_pos ⟨by omega, by omega⟩,
        if_neg (by simpa using ha)]
      ring
  · intro n hn
    beta_reduce
    rw [if_pos ⟨by omega, by omega⟩, Nat.add_sub_cancel, smlLoop_eq _ _ _ _ _ _ _ (smlStart_eq n)]
    unfold smlSize smlSum
    rw [show n + (20 - n) = 20 by omega]
    ring
  · intro i hi
    beta_reduce
    rw [if_neg hi, if_neg hi]
    exact ⟨rfl, rfl⟩

theorem eln_err {c : SexCall} (hc : c.Small) (ha : c.a ≠ 0) {n : Nat} {fuel : Nat} (hf : 5 ≤ fuel) {q0 q1 q2 : ℝ} (h0 : qj99 fuel n c.x = some q0) (h1 : qj99 fuel (n + 1) c.x = some q1)
    (h2 : qj99 fuel (n - 1) c.x = some q2) :
    |smlSize c * (q0 + c.y * (((n : ℝ) + 1) / (2 * n + 1) * q1 + (n : ℝ) / (2 * n + 1) * q2)) - sexL c n| ≤ (1.35e-7 + c.y ^ 2) * smlSize c / (c.x - 1) := by
  have hx := hc.x2 ha
  have hx1 : 1 < c.x := by linarith
  have y0 := hc.y0
  have y1 := hc.y1
  rw [sexL_eq, leg_split hx1, ← mul_sub, abs_mul, abs_of_pos (smlSize_pos c), mul_comm (1.35e-7 + c.y ^ 2), mul_div_assoc]
  refine mul_le_mul_of_nonneg_left ?_ (smlSize_pos c).le
  have q : ∀ l v, qj99 fuel l c.x = some v → |v - legQ l c.x| ≤ 1.34e-7 / (c.x - 1) := by
    intro l v hv
    obtain ⟨w, e, w0, w1, w2⟩ := qj99_err hx l hf
    rw [hv, Option.some.injEq] at e
    subst e
    have hb := (le_abs_self _).trans (legQ_abs hx1 l)
    rw [abs_sub_comm, abs_of_nonneg (by linarith)]
    rw [show (1.34e-7 : ℝ) / (c.x - 1) = 1.34e-7 * (1 / (c.x - 1)) by ring]
    linarith
  have a0 := q _ _ h0
  have a1 := q _ _ h1
  have a2 := q _ _ h2
  have hr := legRem_abs hx1 y0.le (y1.trans (by norm_num)) n
  have d : (0 : ℝ) < 1 / (c.x - 1) := by
    have : 0 < c.x - 1 := by linarith
    positivity
  unfold legNb
  set α := ((n : ℝ) + 1) / (2 * n + 1)
  set β := (n : ℝ) / (2 * n + 1)
  have hα : 0 ≤ α := by positivity
  have hβ : 0 ≤ β := by positivity
  have hs : α + β = 1 := by
    simp only [α, β]; field_simp; ring
  have e : q0 + c.y * (α * q1 + β * q2) - (legQ n c.x + c.y * (α * legQ (n + 1) c.x + β * legQ (n - 1) c.x) + legRem n c.x c.y) =
      (q0 - legQ n c.x) + c.y * (α * (q1 - legQ (n + 1) c.x) + β * (q2 - legQ (n - 1) c.x)) + -legRem n c.x c.y := by ring
  rw [e]
  have nb : |α * (q1 - legQ (n + 1) c.x) + β * (q2 - legQ (n - 1) c.x)| ≤ 1.34e-7 / (c.x - 1) := by
    refine (abs_add_le _ _).trans ?_
    rw [abs_mul, abs_mul, abs_of_nonneg hα, abs_of_nonneg hβ]
    have u1 := mul_le_mul_of_nonneg_left a1 hα
    have u2 := mul_le_mul_of_nonneg_left a2 hβ
    have : 1.34e-7 / (c.x - 1) = α * (1.34e-7 / (c.x - 1)) + β * (1.34e-7 / (c.x - 1)) := by rw [← add_mul, hs, one_mul]
    linarith
  refine (abs_add_le _ _).trans ((add_le_add_left ((abs_add_le _ _)) _).trans ?_)
  rw [abs_neg, abs_mul c.y, abs_of_pos y0]
  have u3 := mul_le_mul_of_nonneg_left nb y0.le
  have u4 : c.y * (1.34e-7 / (c.x - 1)) ≤ 1e-3 * (1.34e-7 / (c.x - 1)) := mul_le_mul_of_nonneg_right y1 (by rw [div_eq_mul_one_div]; positivity)
  rw [add_div, div_eq_mul_one_div (1.35e-7 : ℝ)]
  rw [div_eq_mul_one_div (1.34e-7 : ℝ)] at a0 u3 u4
  have u5 : (1.34e-7 : ℝ) * (1 / (c.x - 1)) + 1e-3 * (1.34e-7 * (1 / (c.x - 1))) ≤ 1.35e-7 * (1 / (c.x - 1)) := by
    have : (1.34e-7 : ℝ) * (1 / (c.x - 1)) + 1e-3 * (1.34e-7 * (1 / (c.x - 1))) = (1.34e-7 + 1e-3 * 1.34e-7) * (1 / (c.x - 1)) := by ring
    rw [this]
    exact mul_le_mul_of_nonneg_right (by norm_num) d.le
  linarith only [a0, u3, u4, u5, hr]

/-- **C112.** For small `y` a call returns the integrals: the ones with the propagator to second order in `y`, those without it for waves 0 and 1; the error in higher waves is of the order of their size. -/
theorem C112_small {c : SexCall} (hc : c.Small) {fuel : Nat} (hf : 5 ≤ fuel) (ce1 : ℝ → ℝ) (m : SexAll) (eln ern : Nat → ℝ) :
    ∃ m' eln' ern', sexTop ce1 fuel m c.x c.y c.a c.j c.kom eln ern = some (m', eln', ern') ∧ m'.sexn = m.sexn ∧
      (c.a ≠ 0 → ∀ n ≤ c.j, |eln' (n + 1) - sexL c n| ≤ (1.35e-7 + c.y ^ 2) * smlSize c / (c.x - 1)) ∧
      (c.a = 0 → ∀ n ≤ c.j, eln' (n + 1) = 0) ∧
      (∀ n ≤ c.j, n ≤ 1 → |ern' (n + 1) - sexR c n| ≤ c.y ^ 20 * smlSize c) ∧
      (∀ n ≤ c.j, 2 ≤ n → |ern' (n + 1) - sexR c n| ≤ (3 * c.y) ^ n * smlSize c) ∧
      (∀ i, ¬(1 ≤ i ∧ i ≤ c.j + 3) → eln' i = eln i ∧ ern' i = ern i) := by
  obtain ⟨q, l, r, e, p1, p2, p3, p4⟩ := smllex_run hc hf m.qleg eln ern
  refine ⟨{ m with qleg := q }, l, r, ?_, rfl, ?_, fun ha n hn => p2 ha n (by omega), ?_, ?_, p4⟩
  · unfold sexTop
    rw [if_pos hc.y1, e]
    rfl
  · intro ha n hn
    obtain ⟨q0, q1, q2, h0, h1, h2, h3⟩ := p1 n (by omega) ha
    rw [h3]
    exact eln_err hc ha hf h0 h1 h2
  · intro n hn h1
    rw [p3 n (by omega), sexR_eq, ← mul_sub, abs_mul, abs_of_pos (smlSize_pos c), mul_comm (c.y ^ 20)]
    exact mul_le_mul_of_nonneg_left (smlSum_low hc.y0.le (hc.y1.trans (by norm_num)) h1) (smlSize_pos c).le
  · intro n hn h1
    rw [p3 n (by omega), sexR_eq, ← mul_sub, abs_mul, abs_of_pos (smlSize_pos c), mul_comm ((3 * c.y) ^ n)]
    exact mul_le_mul_of_nonneg_left (smlSum_high hc.y0.le hc.y1 h1) (smlSize_pos c).le

/-- Wave 2 without the propagator comes out half as large again as the integral (the coefficients of `P_2` are cut to integers). -/
theorem C112_wave_two {c : SexCall} (hc : c.Small) {fuel : Nat} (hf : 5 ≤ fuel) (ce1 : ℝ → ℝ) (m : SexAll) (eln ern : Nat → ℝ) :
    ∃ m' eln' ern', sexTop ce1 fuel m c.x c.y c.a c.j c.kom eln ern = some (m', eln', ern') ∧ 0 < sexR c 2 ∧ 1.49 * sexR c 2 ≤ ern' 3 := by
  obtain ⟨q, l, r, e, -, -, p3, -⟩ := smllex_run hc hf m.qleg eln ern
  obtain ⟨a, b⟩ := smlSum_two hc.y0 hc.y1
  refine ⟨{ m with qleg := q }, l, r, ?_, ?_, ?_⟩
  · unfold sexTop
    rw [if_pos hc.y1, e]
    rfl
  · rw [sexR_eq]; exact mul_pos (smlSize_pos c) a
  · rw [p3 2 (by omega), sexR_eq]
    have := mul_le_mul_of_nonneg_left b (smlSize_pos c).le
    linarith

/-- Wave 2 with the propagator comes out too small, by a fifth once `yx` is 1 or more (the second order in `y` is left out). -/
theorem C112_wave_two_propagator {c : SexCall} (hc : c.Small) (ha : c.a ≠ 0) {fuel : Nat} (hf : 5 ≤ fuel) (ce1 : ℝ → ℝ) (m : SexAll) (eln ern : Nat → ℝ) (hj : 1 ≤ c.j) :
    ∃ m' eln' ern', sexTop ce1 fuel m c.x c.y c.a c.j c.kom eln ern = some (m', eln', ern') ∧ 0 < sexL c 2 ∧
      (1 + c.y * c.x + 0.49 * (c.y * c.x) ^ 2) * eln' 3 ≤ (1 + c.y * c.x) * sexL c 2 ∧ (1 ≤ c.y * c.x → eln' 3 ≤ 0.81 * sexL c 2) := by
  obtain ⟨q, l, r, e, p1, -, -, -⟩ := smllex_run hc hf m.qleg eln ern
  obtain ⟨q0, q1, q2, h0, h1, h2, h3⟩ := p1 2 (by omega) ha
  have hx := hc.x2 ha
  have hx1 : 1 < c.x := by linarith
  have y0 := hc.y0
  have bnd : ∀ k v, qj99 fuel k c.x = some v → 0 < v ∧ v ≤ legQ k c.x := by
    intro k v hv
    obtain ⟨w, e, w0, w1, w2⟩ := qj99_err hx k hf
    rw [hv, Option.some.injEq] at e
    subst e
    exact ⟨w0, w1⟩
  obtain ⟨b0, b0'⟩ := bnd _ _ h0
  obtain ⟨b1, b1'⟩ := bnd _ _ h1
  obtain ⟨b2, b2'⟩ := bnd _ _ h2
  have nb : legNb 2 c.x = c.x * legQ 2 c.x := by
    have h := legQ_rec hx1 1
    unfold legNb
    norm_num at h ⊢
    linarith
  have rem := legRem_two hx y0 hc.y1
  have w0 : 0 < c.y * c.x := by positivity
  have lv : l 3 ≤ smlSize c * ((1 + c.y * c.x) * legQ 2 c.x) := by
    rw [h3]
    refine mul_le_mul_of_nonneg_left ?_ (smlSize_pos c).le
    have : (1 + c.y * c.x) * legQ 2 c.x = legQ 2 c.x + c.y * legNb 2 c.x := by rw [nb]; ring
    rw [this]
    unfold legNb
    refine add_le_add b0' (mul_le_mul_of_nonneg_left (add_le_add ?_ ?_) y0.le)
    · exact mul_le_mul_of_nonneg_left b1' (by positivity)
    · exact mul_le_mul_of_nonneg_left b2' (by positivity)
  have lp : 0 < l 3 := by
    rw [h3]
    have := smlSize_pos c
    positivity
  have tv : smlSize c * ((1 + c.y * c.x + 0.49 * (c.y * c.x) ^ 2) * legQ 2 c.x) ≤ sexL c 2 := by
    rw [sexL_eq, leg_split hx1, nb]
    refine mul_le_mul_of_nonneg_left ?_ (smlSize_pos c).le
    linarith
  have Q : 0 < legQ 2 c.x := lt_of_lt_of_le b0 b0'
  generalize hw : c.y * c.x = w at *
  have main : (1 + w + 0.49 * w ^ 2) * l 3 ≤ (1 + w) * sexL c 2 := by
    have u1 := mul_le_mul_of_nonneg_left lv (show 0 ≤ 1 + w + 0.49 * w ^ 2 by positivity)
    have u2 := mul_le_mul_of_nonneg_left tv (show 0 ≤ 1 + w by linarith)
    linarith
  have sp : 0 < sexL c 2 := lt_of_lt_of_le (mul_pos (smlSize_pos c) (mul_pos (by positivity) Q)) tv
  refine ⟨{ m with qleg := q }, l, r, ?_, sp, main, ?_⟩
  · unfold sexTop
    rw [if_pos hc.y1, e]
    rfl
  · intro h
    have h5 : 1 + w ≤ 0.81 * (1 + w + 0.49 * w ^ 2) := by norm_num; nlinarith
    have u3 := mul_le_mul_of_nonneg_right h5 sp.le
    have h6 : 0 < 1 + w + 0.49 * w ^ 2 := by positivity
    refine le_of_mul_le_mul_left (le_trans main ?_) h6
    linarith

/-- The calls of a history that reach `SEXN`. -/
def sexPart (h : List SexCall) : List SexCall := h.filter fun c => decide (1e-3 < c.y)

theorem top_reach {fuel : Nat} {h : List SexCall} {m : SexAll} (hr : SexTopReach ce1Of fuel h m) : SexReach ce1Of (sexPart h) m.sexn := by
  induction hr with
  | start tn => exact .start tn
  | @call h m m' c eln ern eln' ern' hr hc ih =>
    unfold sexTop at hc
    unfold sexPart
    by_cases hy : c.y ≤ 1e-3
    · rw [if_pos hy, Option.map_eq_some_iff] at hc
      obtain ⟨r, -, e⟩ := hc
      rw [List.filter_cons_of_neg (by simpa using hy)]
      simp only [Prod.mk.injEq] at e
      rw [← e.1]
      exact ih
    · rw [if_neg hy] at hc
      rw [List.filter_cons_of_pos (by simpa using hy)]
      split_ifs at hc with hx
      rw [Option.map_eq_some_iff] at hc
      obtain ⟨r, hr, e⟩ := hc
      simp only [Prod.mk.injEq] at e
      rw [← e.1]
      exact .call ih hr

/-- **C112.** Calls for small `y` do not disturb the others: in every history that mixes them, a call of the other kind returns the integrals. -/
theorem C112_mixed_history {fuel : Nat} {h : List SexCall} {m : SexAll} (hr : SexTopReach ce1Of fuel h m) (hreg : ∀ d ∈ h, 1e-3 < d.y → d.Regular) {c : SexCall} (hc : c.Regular)
    (hs : Steady (sexPart (c :: h))) (eln ern : Nat → ℝ) :
    ∃ m' eln' ern', sexTop ce1Of fuel m c.x c.y c.a c.j c.kom eln ern = some (m', eln', ern') ∧
      (∀ n ≤ c.j, |ern' (n + 1) - sexR c n| ≤ 3 ^ n * 1.3e-7 * sexSize c) ∧
      (c.kom = 1 → 5 < c.x → ∀ n ≤ c.j, |eln' (n + 1) - sexL c n| ≤ 3 ^ n * 6.7e-6 * sexSize c) ∧
      (c.kom = 1 → c.x ≤ 5 → ∀ n ≤ c.j, |eln' (n + 1) - sexL c n| ≤ 15 ^ n * 3.3e-8 * sexSize c) := by
  have hp : sexPart (c :: h) = c :: sexPart h := by
    unfold sexPart
    rw [List.filter_cons_of_pos (by simpa using hc.y1)]
  rw [hp] at hs
  obtain ⟨m', l', r', q1, q2, q3, q4, -⟩ := C111_in_every_history (top_reach hr) (fun d hd => by
    unfold sexPart at hd
    rw [List.mem_filter] at hd
    exact hreg d hd.1 (by simpa using hd.2)) hc hs eln ern
  refine ⟨{ m with sexn := m' }, l', r', ?_, q2, q3, q4⟩
  unfold sexTop
  rw [if_neg (not_le.2 hc.y1), if_pos hc.x1, q1]
  rfl

/-- A heavy meson at low momenta: `yx` is above 1; and a diffractive call between. -/
example : (⟨2000, 1e-3, 1, 2, 1⟩ : SexCall).Small ∧ (1 : ℝ) ≤ 1e-3 * 2000 ∧ (⟨1, 1e-4, 0, 2, 2⟩ : SexCall).Small ∧
    ∃ m, SexTopReach ce1Of 5 [⟨1, 1e-4, 0, 2, 2⟩, ⟨2, 1, 0, 3, 1⟩] m ∧ (∀ d ∈ [(⟨1, 1e-4, 0, 2, 2⟩ : SexCall), ⟨2, 1, 0, 3, 1⟩], 1e-3 < d.y → d.Regular) ∧
      Steady (sexPart [⟨2, 1, 0, 4, 2⟩, ⟨1, 1e-4, 0, 2, 2⟩, ⟨2, 1, 0, 3, 1⟩]) := by
  have s1 : (⟨2000, 1e-3, 1, 2, 1⟩ : SexCall).Small := ⟨by norm_num, fun _ => by norm_num, by norm_num, by norm_num, by norm_num, by norm_num⟩
  have s2 : (⟨1, 1e-4, 0, 2, 2⟩ : SexCall).Small := ⟨by norm_num, fun h => absurd rfl h, by norm_num, by norm_num, by norm_num, by norm_num⟩
  have r1 : (⟨2, 1, 0, 3, 1⟩ : SexCall).Regular := ⟨by norm_num, by norm_num, by norm_num, by norm_num, by norm_num, by norm_num, Or.inl rfl⟩
  have st1 : Steady [⟨2, 1, 0, 3, 1⟩] := ⟨fun n c' o h => by simp at h, trivial⟩
  have b : (1e-3 : ℝ) < 1 := by norm_num
  have b2 : ¬ (1e-3 : ℝ) < 1e-4 := by norm_num
  have e1 : sexPart [⟨2, 1, 0, 3, 1⟩] = [⟨2, 1, 0, 3, 1⟩] := by simp [sexPart, b]
  have e2 : sexPart [⟨2, 1, 0, 4, 2⟩, ⟨1, 1e-4, 0, 2, 2⟩, ⟨2, 1, 0, 3, 1⟩] = [⟨2, 1, 0, 4, 2⟩, ⟨2, 1, 0, 3, 1⟩] := by simp [sexPart, b, b2]
  obtain ⟨m1, l1, q1, h1, -⟩ := C112_mixed_history (fuel := 5) (.start fun _ => 0) (fun d hd => by simp at hd) r1 (by rw [e1]; exact st1) (fun _ => 0) (fun _ => 0)
  obtain ⟨m2, l2, q2, h2, -⟩ := C112_small s2 (fuel := 5) le_rfl ce1Of m1 l1 q1
  refine ⟨s1, by norm_num, s2, m2, .call (.call (.start _) h1) h2, ?_, ?_⟩
  · intro d hd hy
    simp only [List.mem_cons, List.not_mem_nil, or_false] at hd
    rcases hd with rfl | rfl
    · exact absurd hy b2
    · exact r1
  · rw [e2]
    refine ⟨?_, st1⟩
    intro n c' o h _ _
    rcases n with _ | ⟨d, n⟩
    · simp only [List.nil_append, List.cons.injEq] at h
      rw [← h.1]
    · simp at h

end TicTac
end
