import Verif.Lemmas.NijmegenRun
/-! C113: the Nijmegen potential with the memory of `SEX`, in every history of evaluations. -/
noncomputable section
namespace TicTac
open Polynomial Spec Set MeasureTheory

/-- The run adds up the terms of `vmom`, with the arrays of each call in place of `N.sex`. -/
theorem C113_same_terms (N : NijNum) (e : NijEval) :
    vmom N e.p e.typ e.qi e.qf = (((e.exchanges N).map fun x => x.add (N.sex x.call.x x.call.y x.call.a x.call.j x.call.kom).1 (N.sex x.call.x x.call.y x.call.a x.call.j x.call.kom).2)).foldl PotMom.add PotMom.zero := by
  unfold vmom NijEval.exchanges nijTerms nijPs nijVec nijSc nijDif
  dsimp only
  congr 1
  by_cases ht : e.typ = .pn
  · simp only [if_pos ht]
    rfl
  · simp only [if_neg ht]
    rfl

/-- **C113.** After every history, an evaluation stays inside the tables and adds up the exchanges with integrals that are close to what they should be. -/
theorem C113_in_every_history {N : NijNum} (hN : N.ce1 = ce1Of) {fuel : Nat} (hf : 5 ≤ fuel) {h : List NijEval} {m : SexAll} (hr : NijReach N fuel h m) (hh : ∀ d ∈ h, d.Covered) {e : NijEval} (he : e.Covered)
    (hs : NijSteady (e :: h)) (junk : Nat → (Nat → ℝ) × (Nat → ℝ)) :
    ∃ (m' : SexAll) (arr : List ((Nat → ℝ) × (Nat → ℝ))), vmomRun N fuel junk m e = some (m', (((e.exchanges N).zip arr).map fun t => t.1.add t.2.1 t.2.2).foldl PotMom.add PotMom.zero) ∧
      arr.length = (e.exchanges N).length ∧ ∀ t ∈ (e.exchanges N).zip arr, CallNear t.1.call t.2.1 t.2.2 := by
  have hce : ∀ t, 0 < t → |N.ce1 t - Real.exp t * ei1 t| ≤ 1e-12 := by rw [hN]; exact ce1Of_near
  obtain ⟨m', arr, g1, g2, g3, -⟩ := eval_step hce hf he hs (reach_hist hce hf hr hh hs.2) junk
  exact ⟨m', arr, g1, g2, g3⟩

/-- The entry left out, the highest wave without the propagator, does not enter. -/
theorem C113_entries_used (N : NijNum) (e : NijEval) {x : NijExchange} (hx : x ∈ e.exchanges N) {l r l' r' : Nat → ℝ} (hl : x.call.kom = 1 → ∀ n ≤ x.call.j, l (n + 1) = l' (n + 1))
    (hr : ∀ n < x.call.j, r (n + 1) = r' (n + 1)) : (x.add l r).agree (x.add l' r') := by
  have arrY : ∀ (j : Nat) (a b c : ℝ), (∀ n ≤ j, l (n + 1) = l' (n + 1)) → (∀ n < j, r (n + 1) = r' (n + 1)) →
      (∀ k : Int, k ≤ j → (yukArr N l r a b c).u k = (yukArr N l' r' a b c).u k) ∧ (∀ k : Int, k < j → (yukArr N l r a b c).r k = (yukArr N l' r' a b c).r k) ∧
      (∀ k : Int, k + 1 < j → (yukArr N l r a b c).s k = (yukArr N l' r' a b c).s k) ∧ (∀ k : Int, k + 1 ≤ j → (yukArr N l r a b c).g k = (yukArr N l' r' a b c).g k) := by
    intro j a b c hl hr
    have l1 : ∀ i, 1 ≤ i → i ≤ j + 1 → l i = l' i := fun i h1 h2 => by obtain ⟨n, rfl⟩ : ∃ n, i = n + 1 := ⟨i - 1, by omega⟩; exact hl n (by omega)
    have r1 : ∀ i, 1 ≤ i → i ≤ j → r i = r' i := fun i h1 h2 => by obtain ⟨n, rfl⟩ : ∃ n, i = n + 1 := ⟨i - 1, by omega⟩; exact hr n (by omega)
    refine ⟨fun k hk => ?_, fun k hk => ?_, fun k hk => ?_, fun k hk => ?_⟩
    · simp only [yukArr]
      split_ifs with c
      · rfl
      · exact l1 _ (by omega) (by omega)
    · simp only [yukArr]
      split_ifs with c
      · rfl
      · exact r1 _ (by omega) (by omega)
    · simp only [yukArr]
      split_ifs with c d
      · rfl
      · exact r1 _ (by omega) (by omega)
      · rw [r1 k.toNat (by omega) (by omega), r1 (k.toNat + 2) (by omega) (by omega)]
    · simp only [yukArr]
      split_ifs with c d
      · rfl
      · rw [l1 2 (by omega) (by omega), l1 1 (by omega) (by omega)]
      · rw [l1 k.toNat (by omega) (by omega), l1 (k.toNat + 2) (by omega) (by omega)]
  cases exchanges_kind N e x hx with
  | ps m c h1 h2 h3 =>
    obtain ⟨hu, hr, hs, hg⟩ := arrY (e.p.j + 2) ((e.qi + e.qf) * (e.qi + e.qf)) (m * m) (e.pars.alamp * e.pars.alamp) (hl rfl) hr
    obtain ⟨z1, z2, z3, z4, z5⟩ := h3
    intro i k k1 k2
    fin_cases i
    · have w : k ≤ 1 := k2
      change _ * _ - _ * _ - c.zc * _ + _ * _ = _ * _ - _ * _ - c.zc * _ + _ * _
      rw [z5, zero_mul, zero_mul, hu _ (by push_cast; omega), hr _ (by push_cast; omega)]
    · have w : k ≤ 1 := k2
      change _ * _ - _ * _ - c.zs * _ = _ * _ - _ * _ - c.zs * _
      rw [z4, zero_mul, zero_mul, hu _ (by push_cast; omega), hr _ (by push_cast; omega)]
    · have w : k ≤ 2 := k2
      change _ * _ - c.yt * _ = _ * _ - c.yt * _
      rw [z2, zero_mul, zero_mul, hu _ (by push_cast; omega)]
    · have w : k ≤ 2 := k2
      change _ * _ - c.yls * _ = _ * _ - c.yls * _
      rw [z3, zero_mul, zero_mul, hu _ (by push_cast; omega)]
    · change c.xq * _ = c.xq * _
      rw [z1, zero_mul, zero_mul]
    · change c.xq * _ * _ = c.xq * _ * _
      rw [z1, zero_mul, zero_mul, zero_mul]
  | vec lam hlam m c h1 h2 =>
    obtain ⟨hu, hr, hs, hg⟩ := arrY (e.p.j + 4) ((e.qi + e.qf) * (e.qi + e.qf)) (m * m) (lam * lam) (hl rfl) hr
    intro i k k1 k2
    fin_cases i
    · have w : k ≤ 1 := k2
      change _ * _ - _ * _ - c.zc * _ + _ * _ = _ * _ - _ * _ - c.zc * _ + _ * _
      rw [hu _ (by push_cast; omega), hr _ (by push_cast; omega), hs _ (by push_cast; omega)]
    · have w : k ≤ 1 := k2
      change _ * _ - _ * _ - c.zs * _ = _ * _ - _ * _ - c.zs * _
      rw [hu _ (by push_cast; omega), hr _ (by push_cast; omega), hs _ (by push_cast; omega)]
    · have w : k ≤ 2 := k2
      change _ * _ - c.yt * _ = _ * _ - c.yt * _
      rw [hu _ (by push_cast; omega), hr _ (by push_cast; omega)]
    · have w : k ≤ 2 := k2
      change _ * _ - c.yls * _ = _ * _ - c.yls * _
      rw [hu _ (by push_cast; omega), hr _ (by push_cast; omega)]
    · have w : k ≤ 3 := k2
      change c.xq * _ = c.xq * _
      rw [hu _ (by push_cast; omega)]
    · have w : k ≤ 2 := k2
      change c.xq * _ * _ = c.xq * _ * _
      rw [hg _ (by push_cast; omega)]
  | dif c =>
    have r1 : ∀ i, 1 ≤ i → i ≤ e.p.j + 4 → r i = r' i := fun i h1 h2 => by obtain ⟨n, rfl⟩ : ∃ n, i = n + 1 := ⟨i - 1, by omega⟩; exact hr n (by change n < e.p.j + 4; omega)
    have hr : ∀ (a b c : ℝ) (k : Int), k < e.p.j + 4 → (difArr N r a b c).r k = (difArr N r' a b c).r k := by
      intro a b c k hk
      simp only [difArr]
      split_ifs with c
      · rfl
      · exact r1 _ (by omega) (by omega)
    have hs : ∀ (a b c : ℝ) (k : Int), k + 1 < e.p.j + 4 → (difArr N r a b c).s k = (difArr N r' a b c).s k := by
      intro a b c k hk
      simp only [difArr]
      split_ifs with c d
      · rfl
      · exact r1 _ (by omega) (by omega)
      · rw [r1 k.toNat (by omega) (by omega), r1 (k.toNat + 2) (by omega) (by omega)]
    have hg : ∀ (a b c : ℝ) (k : Int), k + 1 < e.p.j + 4 → (difArr N r a b c).g k = (difArr N r' a b c).g k := by
      intro a b c k hk
      simp only [difArr]
      split_ifs with c d
      · rfl
      · rw [r1 2 (by omega) (by omega), r1 1 (by omega) (by omega)]
      · rw [r1 k.toNat (by omega) (by omega), r1 (k.toNat + 2) (by omega) (by omega)]
    intro i k k1 k2
    fin_cases i
    · have w : k ≤ 1 := k2
      change _ * _ + _ * _ + _ * _ = _ * _ + _ * _ + _ * _
      rw [hr _ _ _ _ (by omega), hs _ _ _ _ (by omega)]
    · rfl
    · rfl
    · have w : k ≤ 2 := k2
      change _ * _ = _ * _
      rw [hr _ _ _ _ (by omega)]
    · have w : k ≤ 3 := k2
      change _ * _ = _ * _
      rw [hr _ _ _ _ (by omega)]
    · have w : k ≤ 2 := k2
      change _ * _ * _ = _ * _ * _
      rw [hg _ _ _ _ (by omega)]

/-- Loops over momenta for one wave are steady. -/
theorem C113_fixed_wave {J : Nat} : ∀ {h : List NijEval}, (∀ e ∈ h, e.p.j = J) → NijSteady h
  | [], _ => trivial
  | e :: h, hh => ⟨fun newer d older e1 _ _ => Or.inl (by
      rw [hh e (by simp), hh d (by rw [e1]; simp)]), C113_fixed_wave fun d hd => hh d (List.mem_cons_of_mem _ hd)⟩

/-- Starting a new wave at lower momenta (with smaller arguments of the diffractive exchanges) is steady too. -/
theorem C113_new_wave {e : NijEval} {h : List NijEval} (h1 : 0 < e.qi) (h2 : 0 < e.qf) (hs : NijSteady h) (hl : ∀ d ∈ h, e.p.j ≤ d.p.j ∨ e.yDif < d.yDif) : NijSteady (e :: h) := by
  refine ⟨fun newer d older e1 _ _ => ?_, hs⟩
  rcases hl d (by rw [e1]; simp) with hj | hy
  · exact Or.inl hj
  · have := ys_lt h1 h2
    simp only [NijEval.ys, List.forall_mem_cons] at this
    exact Or.inr ⟨by linarith [this.1], by linarith [this.2.1], by linarith [this.2.2.1], by linarith⟩

/-- A covered history of two waves, and its next evaluation. -/
example : ∃ m, NijReach ⟨fun _ _ _ _ _ => (fun _ => 0, fun _ => 0), ce1Of, nijFdexp⟩ 5 [⟨⟨'3', 'C', 1⟩, .pn, 400, 300⟩] m ∧ (⟨⟨'3', 'C', 1⟩, .pn, 400, 300⟩ : NijEval).Covered ∧
    (⟨⟨'3', 'D', 2⟩, .pn, 10, 20⟩ : NijEval).Covered ∧ NijSteady [⟨⟨'3', 'D', 2⟩, .pn, 10, 20⟩, ⟨⟨'3', 'C', 1⟩, .pn, 400, 300⟩] := by
  have c1 : (⟨⟨'3', 'C', 1⟩, .pn, 400, 300⟩ : NijEval).Covered := ⟨by decide, by norm_num, by norm_num, by norm_num⟩
  have c2 : (⟨⟨'3', 'D', 2⟩, .pn, 10, 20⟩ : NijEval).Covered := ⟨by decide, by norm_num, by norm_num, by norm_num⟩
  have s1 : NijSteady [⟨⟨'3', 'C', 1⟩, .pn, 400, 300⟩] := C113_fixed_wave (J := 1) (by simp)
  obtain ⟨m', arr, q, -⟩ := C113_in_every_history (N := ⟨fun _ _ _ _ _ => (fun _ => 0, fun _ => 0), ce1Of, nijFdexp⟩) rfl le_rfl (.start fun _ => 0) (by simp) c1 s1 fun _ => (fun _ => 0, fun _ => 0)
  refine ⟨m', .eval (.start _) q, c1, c2, C113_new_wave (by norm_num) (by norm_num) s1 ?_⟩
  intro d hd
  simp only [List.mem_cons, List.not_mem_nil, or_false] at hd
  subst hd
  refine Or.inr ?_
  have e1 : (⟨⟨'3', 'D', 2⟩, .pn, 10, 20⟩ : NijEval).pars.ampom = 169.3534 := by decide +kernel
  have e2 : (⟨⟨'3', 'C', 1⟩, .pn, 400, 300⟩ : NijEval).pars.ampom = 257.9522 := by decide +kernel
  unfold NijEval.yDif
  rw [e1, e2]
  norm_num

/-- With nine or more waves and `x` above 5 the tables do not fit, unless they are kept from a call with `x` above 5. -/
theorem beyond_table {m : SexMem} {c : SexCall} (hx : 5 < c.x) (hy : 1e-3 < c.y) (hyx : c.y * (c.x + 1) < 100) (ha : c.a ^ 2 ≤ 60) (hj : 9 ≤ c.j) (hj2 : c.j ≤ 13)
    (hk : c.y ≠ m.yh ∨ m.xh ≤ 5) (ce1 : ℝ → ℝ) (eln ern : Nat → ℝ) : sexn ce1 m c.x c.y c.a c.j c.kom eln ern = none := by
  have y0 : 0 < c.y := by linarith [show (0 : ℝ) < 1e-3 by norm_num]
  have hz : ¬(c.y - c.y * c.x - c.a ^ 2 < -160) := by nlinarith
  have hM : c.j + 2 + 20 < sexStart c.y (c.j + 2 + 20) := (start_gen hy (by norm_num; nlinarith) (by omega) (by omega)).1
  unfold sexn
  dsimp only
  rw [if_neg hz, if_neg (fun h => hk.elim (fun k => k h.1.2) (fun k => h.2 ⟨hx, k⟩))]
  unfold sexFill
  dsimp only
  rw [if_pos hx, if_pos (show 30 < c.j + 2 + 20 by omega), if_pos (show 30 < Nat.min (c.j + 2 + 20) (sexStart c.y (c.j + 2 + 20) - 1) from Nat.lt_min.2 ⟨by omega, by omega⟩)]
  split_ifs <;> rfl

theorem sexFill_yh {m m' : SexMem} {x y a ep em enu : ℝ} {j : Nat} (h : sexFill m x y a ep em enu j = some m') : m'.yh = y := by
  unfold sexFill at h
  dsimp only at h
  generalize (if 5 < x then j + 2 + 20 else j + 2) = K at h
  split_ifs at h
  · rw [← Option.some.inj h]
  · rw [← Option.some.inj h]

/-- A call that succeeds leaves its `y` and `x` as keys. -/
theorem sexn_yh {c : SexCall} (hz : ¬(c.y - c.y * c.x - c.a ^ 2 < -160)) {ce1 : ℝ → ℝ} {m m1 : SexMem} {eln ern l1 r1 : Nat → ℝ} (q : sexn ce1 m c.x c.y c.a c.j c.kom eln ern = some (m1, l1, r1)) :
    m1.yh = c.y ∧ m1.xh = c.x := by
  unfold sexn at q
  dsimp only at q
  rw [if_neg hz, Option.bind_eq_some_iff] at q
  obtain ⟨mm, e1, e2⟩ := q
  have hy : mm.yh = c.y := by
    split_ifs at e1 with hk
    · rw [← Option.some.inj e1]; exact hk.1.2.symm
    all_goals exact sexFill_yh e1
  have hm : m1 = { mm with xh := c.x } := by
    split_ifs at e2
    · simp only [Option.some.injEq, Prod.mk.injEq] at e2
      exact e2.1.symm
    all_goals
      rw [Option.map_eq_some_iff] at e2
      obtain ⟨un, -, e3⟩ := e2
      simp only [Prod.mk.injEq] at e3
      exact e3.1.symm
  rw [hm]
  exact ⟨hy, rfl⟩

theorem runEx_append (ce1 : ℝ → ℝ) (fuel : Nat) : ∀ (a b : List NijExchange) (junk : Nat → (Nat → ℝ) × (Nat → ℝ)) (m : SexAll) (v : PotMom),
    runEx ce1 fuel (a ++ b) junk m v = (runEx ce1 fuel a junk m v).bind fun r => runEx ce1 fuel b (fun k => junk (k + a.length)) r.1 r.2
  | [], b, junk, m, v => rfl
  | e :: a, b, junk, m, v => by
    rw [List.cons_append, runEx, runEx]
    cases sexTop ce1 fuel m e.call.x e.call.y e.call.a e.call.j e.call.kom (junk 0).1 (junk 0).2 with
    | none => rfl
    | some r =>
      change runEx ce1 fuel (a ++ b) _ _ _ = (runEx ce1 fuel a _ _ _).bind _
      rw [runEx_append ce1 fuel a b]
      rfl

theorem runEx_one (ce1 : ℝ → ℝ) (fuel : Nat) (e : NijExchange) (hy : 1e-3 < e.call.y) (hx : 1 ≤ e.call.x) (hz : ¬(e.call.y - e.call.y * e.call.x - e.call.a ^ 2 < -160)) (junk : Nat → (Nat → ℝ) × (Nat → ℝ)) (m : SexAll)
    (v : PotMom) (m' : SexAll) (v' : PotMom) (h : runEx ce1 fuel [e] junk m v = some (m', v')) : m'.sexn.yh = e.call.y ∧ m'.sexn.xh = e.call.x := by
  unfold runEx at h
  rw [Option.bind_eq_some_iff] at h
  obtain ⟨r, r1, r2⟩ := h
  simp only [runEx, Option.some.injEq, Prod.mk.injEq] at r2
  unfold sexTop at r1
  rw [if_neg (not_le.2 hy), if_pos hx, Option.map_eq_some_iff] at r1
  obtain ⟨s, s1, s2⟩ := r1
  rw [← r2.1, ← s2]
  exact sexn_yh hz s1

/-- Facts about a call with a cutoff. -/
theorem yuk_facts {qi qf lam m : ℝ} (h1 : 0 < qi) (h2 : 0 < qf) (h3 : qi + qf ≤ 3300) (hl : 500 ≤ lam ∧ lam ≤ 1000) (hm : 100 ≤ m ∧ m ≤ 1200) (N : NijNum) (J j : Nat) (c : NijCoef) :
    1 ≤ (yukEx N J qi qf lam m j c).call.x ∧ (yukEx N J qi qf lam m j c).call.y * ((yukEx N J qi qf lam m j c).call.x + 1) < 100 ∧ (yukEx N J qi qf lam m j c).call.a ^ 2 ≤ 60 := by
  have q0 := mul_pos h1 h2
  rcases yuk_kind h1 h2 h3 hl hm N J 0 (by omega) c with ⟨-, k⟩ | ⟨k1, k, -⟩
  · exact ⟨k.x1, k.yx, k.a1⟩
  · have e := k.yx
    have e2 := k.x1
    refine ⟨e2, ?_, ?_⟩
    · change 2 * (qi * qf) / (lam * lam) * ((0.5 * (qi * qi + qf * qf) / (qi * qf) + 0.5 * (m * m) / (qi * qf)) + 1) < 100
      have hyx : 2 * (qi * qf) / (lam * lam) * (0.5 * (qi * qi + qf * qf) / (qi * qf) + 0.5 * (m * m) / (qi * qf)) = (qi * qi + qf * qf + m * m) / (lam * lam) := by
        have : 0 < lam := by linarith
        field_simp; ring
      have l1 : 250000 ≤ lam * lam := by nlinarith
      have m2 : m * m ≤ 1440000 := by nlinarith
      have hs : (qi + qf) ^ 2 ≤ 3300 ^ 2 := pow_le_pow_left₀ (by linarith) h3 2
      rw [mul_add, hyx, mul_one, ← add_div, div_lt_iff₀ (by linarith)]
      nlinarith
    · change (m / lam) ^ 2 ≤ 60
      have : 0 < lam := by linarith
      rw [div_pow, div_le_iff₀ (by positivity)]
      nlinarith

theorem split5 {α : Type} (X : List α) (a b c d f g h i : α) : X ++ ([a, b, c, d] ++ [f]) ++ ([g, h] ++ [i]) = ((X ++ [a, b, c, d]) ++ [f]) ++ (g :: [h, i]) := by
  simp only [List.append_assoc, List.cons_append, List.nil_append]
theorem split4 {α : Type} (X : List α) (a b c d g h : α) : X ++ ([a, b, c, d] ++ []) ++ ([g, h] ++ []) = ((X ++ [a, b, c]) ++ [d]) ++ (g :: [h]) := by
  simp only [List.append_assoc, List.cons_append, List.nil_append, List.append_nil]
theorem split3 {α : Type} (a b c : α) (X Y Z W : List α) : [a, b, c] ++ X ++ Y ++ Z ++ W = [a] ++ ([b] ++ (c :: (X ++ Y ++ Z ++ W))) := by
  simp only [List.append_assoc, List.cons_append, List.nil_append]

/-- From J = 5 on, an evaluation at momenta of which one is ten times the other writes beyond the tables, in whatever state it finds them. -/
theorem C113_beyond_tables (N : NijNum) (fuel : Nat) (junk : Nat → (Nat → ℝ) × (Nat → ℝ)) (m : SexAll) {e : NijEval} (hj : 5 ≤ e.p.j) (hj2 : e.p.j ≤ 9) (h1 : 0 < e.qi) (h2 : 0 < e.qf) (h3 : e.qi + e.qf ≤ 3300)
    (h4 : 10 * e.qi ≤ e.qf ∨ 10 * e.qf ≤ e.qi) (h5 : 500 < e.qi * e.qf) : vmomRun N fuel junk m e = none := by
  obtain ⟨c1, c2, c3, c4, c5, -⟩ := nijTable_range e.p (nijIsign e.typ)
  obtain ⟨r1, -⟩ := nijTable_range2 e.p (nijIsign e.typ)
  have c3 : (500 : ℝ) ≤ e.pars.alams ∧ (e.pars.alams : ℝ) ≤ 1000 := by exact_mod_cast c3
  have r1 : (169 : ℝ) ≤ e.pars.ampom := by exact_mod_cast r1
  have q0 := mul_pos h1 h2
  have hys : 1e-3 < e.yCut e.pars.alams := by
    unfold NijEval.yCut
    rw [lt_div_iff₀ (by nlinarith)]
    norm_num
    nlinarith
  have hlt : e.yCut e.pars.alams < e.yDif := ys_lt h1 h2 _ (by simp [NijEval.ys])
  -- the last scalar meson and the first diffractive one
  have split : ∃ (A : List NijExchange) (mm : ℝ) (c d : NijCoef) (B : List NijExchange), (100 ≤ mm ∧ mm ≤ 1200) ∧
      e.exchanges N = (A ++ [yukEx N e.p.j e.qi e.qf e.pars.alams mm (e.p.j + 4) c]) ++ (difEx N e.p.j e.qi e.qf (e.pars.ampom * e.pars.ampom) (e.p.j + 4) d :: B) := by
    have hw : (waveOf e.p).j = e.p.j := rfl
    unfold NijEval.exchanges
    dsimp only
    rw [hw]
    change ∃ A mm c d B, _ ∧ nijPs N e.p.j e.qi e.qf e.pars _ _ e.typ ++ nijVec N e.p.j e.qi e.qf e.pars _ _ e.typ ++ nijSc N e.p.j e.qi e.qf e.pars _ _ e.typ ++ nijDif N e.p.j e.qi e.qf e.pars _ _ e.typ = _
    generalize nijPs N e.p.j e.qi e.qf e.pars _ _ e.typ ++ nijVec N e.p.j e.qi e.qf e.pars _ _ e.typ = X
    unfold nijSc nijDif
    by_cases ht : e.typ = .pn
    · simp only [if_pos ht]
      exact ⟨_, nijAwa0c, _, _, _, charged_range _ (by norm_num [nijAma0c]), split5 ..⟩
    · simp only [if_neg ht]
      exact ⟨_, nijAmf0, _, _, _, by norm_num [nijAmf0], split4 ..⟩
  obtain ⟨A, mm, c, d, B, hmm, hsp⟩ := split
  have F := yuk_facts h1 h2 h3 c3 hmm N e.p.j (e.p.j + 4) c
  unfold vmomRun
  rw [hsp, runEx_append, runEx_append]
  cases hA : runEx N.ce1 fuel A junk m PotMom.zero with
  | none => rfl
  | some r =>
    rw [Option.bind_some]
    cases hB : runEx N.ce1 fuel [yukEx N e.p.j e.qi e.qf e.pars.alams mm (e.p.j + 4) c] (fun k => junk (k + A.length)) r.1 r.2 with
    | none => rfl
    | some s =>
      have hy : s.1.sexn.yh = e.yCut e.pars.alams := (runEx_one N.ce1 fuel _ hys F.1 (by nlinarith [F.2.1, F.1, F.2.2, hys]) _ _ _ s.1 s.2 hB).1
      rw [Option.bind_some]
      have hx : 5 < 0.5 * (e.qi * e.qi + e.qf * e.qf) / (e.qi * e.qf) := by
        rw [lt_div_iff₀ q0]
        rcases h4 with h | h
        · nlinarith [mul_le_mul_of_nonneg_right h h2.le]
        · nlinarith [mul_le_mul_of_nonneg_right h h1.le]
      have hyx : e.yDif * (0.5 * (e.qi * e.qi + e.qf * e.qf) / (e.qi * e.qf) + 1) < 100 := by
        unfold NijEval.yDif
        generalize (e.pars.ampom : ℝ) = M at *
        have m1 : 28561 ≤ M * M := by nlinarith
        have hs : (e.qi + e.qf) ^ 2 ≤ 3300 ^ 2 := pow_le_pow_left₀ (by linarith) h3 2
        have : 0.5 * (e.qi * e.qf) / (M * M) * (0.5 * (e.qi * e.qi + e.qf * e.qf) / (e.qi * e.qf) + 1) = 0.25 * (e.qi + e.qf) ^ 2 / (M * M) := by field_simp; ring
        rw [this, div_lt_iff₀ (by linarith)]
        nlinarith
      have hd : 1e-3 < e.yDif := hys.trans hlt
      rw [runEx]
      unfold sexTop
      change ((if e.yDif ≤ 1e-3 then _ else if 1 ≤ 0.5 * (e.qi * e.qi + e.qf * e.qf) / (e.qi * e.qf) then _ else _ : Option _)).bind _ = none
      rw [if_neg (not_le.2 hd), if_pos (by linarith)]
      have := beyond_table (m := s.1.sexn) (c := (difEx N e.p.j e.qi e.qf (e.pars.ampom * e.pars.ampom) (e.p.j + 4) d).call) hx hd hyx (by change (0 : ℝ) ^ 2 ≤ 60; norm_num) (by change 9 ≤ e.p.j + 4; omega)
        (by change e.p.j + 4 ≤ 13; omega) (Or.inl (by rw [hy]; exact hlt.ne')) N.ce1
      rw [this]
      rfl

/-- Such an evaluation: the wave 1H5 at 20 and 400 MeV. -/
example : 5 ≤ (⟨⟨'1', 'H', 5⟩, .pn, 20, 400⟩ : NijEval).p.j ∧ (10 : ℝ) * 20 ≤ 400 ∧ (500 : ℝ) < 20 * 400 := ⟨le_rfl, by norm_num, by norm_num⟩

/-- From J = 7 on the same happens already in the exchange of the pseudoscalar mesons, at all but high momenta, unless the previous evaluation left the same `y`. -/
theorem C113_beyond_tables_seven (N : NijNum) (fuel : Nat) (junk : Nat → (Nat → ℝ) × (Nat → ℝ)) (m : SexAll) {e : NijEval} (hj : 7 ≤ e.p.j) (hj2 : e.p.j ≤ 9) (h1 : 0 < e.qi) (h2 : 0 < e.qf) (h3 : e.qi + e.qf ≤ 3300)
    (h4 : e.qi * e.qf < 114000) (h5 : 500 < e.qi * e.qf) (h6 : m.sexn.yh ≠ e.yCut e.pars.alamp) : vmomRun N fuel junk m e = none := by
  obtain ⟨c1, -⟩ := nijTable_range e.p (nijIsign e.typ)
  have c1 : (500 : ℝ) ≤ e.pars.alamp ∧ (e.pars.alamp : ℝ) ≤ 1000 := by exact_mod_cast c1
  have q0 := mul_pos h1 h2
  have hyp : 1e-3 < e.yCut e.pars.alamp := by
    unfold NijEval.yCut
    rw [lt_div_iff₀ (by nlinarith)]
    norm_num
    nlinarith
  have split : ∃ (a b c : NijCoef) (B : List NijExchange), e.exchanges N = [yukEx N e.p.j e.qi e.qf e.pars.alamp nijAmpi (e.p.j + 2) a] ++ ([yukEx N e.p.j e.qi e.qf e.pars.alamp nijAmeta (e.p.j + 2) b] ++
      (yukEx N e.p.j e.qi e.qf e.pars.alamp nijAmetp (e.p.j + 2) c :: B)) := by
    have hw : (waveOf e.p).j = e.p.j := rfl
    unfold NijEval.exchanges
    dsimp only
    rw [hw]
    change ∃ a b c B, nijPs N e.p.j e.qi e.qf e.pars _ _ e.typ ++ nijVec N e.p.j e.qi e.qf e.pars _ _ e.typ ++ nijSc N e.p.j e.qi e.qf e.pars _ _ e.typ ++ nijDif N e.p.j e.qi e.qf e.pars _ _ e.typ = _
    unfold nijPs
    exact ⟨_, _, _, _, split3 ..⟩
  obtain ⟨a, b, c, B, hsp⟩ := split
  -- a call with `x` above 5 fails, one with `x` up to 5 leaves `y` and an `x` up to 5
  have ok : ∀ (mm : ℝ) (hm : 100 ≤ mm ∧ mm ≤ 1200) (c : NijCoef) (jk : Nat → (Nat → ℝ) × (Nat → ℝ)) (m : SexAll) (v : PotMom), (m.sexn.yh ≠ e.yCut e.pars.alamp ∨ m.sexn.xh ≤ 5) →
      (∀ B, 5 < (yukEx N e.p.j e.qi e.qf e.pars.alamp mm (e.p.j + 2) c).call.x → runEx N.ce1 fuel (yukEx N e.p.j e.qi e.qf e.pars.alamp mm (e.p.j + 2) c :: B) jk m v = none) ∧
      ∀ m' v', runEx N.ce1 fuel [yukEx N e.p.j e.qi e.qf e.pars.alamp mm (e.p.j + 2) c] jk m v = some (m', v') → (m'.sexn.yh ≠ e.yCut e.pars.alamp ∨ m'.sexn.xh ≤ 5) := by
    intro mm hm c jk m v hk
    have F := yuk_facts h1 h2 h3 c1 hm N e.p.j (e.p.j + 2) c
    have none5 : ∀ B, 5 < (yukEx N e.p.j e.qi e.qf e.pars.alamp mm (e.p.j + 2) c).call.x → runEx N.ce1 fuel (yukEx N e.p.j e.qi e.qf e.pars.alamp mm (e.p.j + 2) c :: B) jk m v = none := by
      intro B hx
      rw [runEx]
      unfold sexTop
      have := beyond_table (m := m.sexn) (c := (yukEx N e.p.j e.qi e.qf e.pars.alamp mm (e.p.j + 2) c).call) hx hyp F.2.1 F.2.2 (by change 9 ≤ e.p.j + 2; omega) (by change e.p.j + 2 ≤ 13; omega)
        (hk.imp (fun h => Ne.symm h) id) N.ce1
      have hyp' : ¬ (yukEx N e.p.j e.qi e.qf e.pars.alamp mm (e.p.j + 2) c).call.y ≤ 1e-3 := not_le.2 hyp
      rw [if_neg hyp', if_pos F.1, this]
      rfl
    refine ⟨none5, ?_⟩
    intro m' v' h
    right
    have := (runEx_one N.ce1 fuel _ hyp F.1 (by nlinarith [F.2.1, F.1, F.2.2, hyp]) _ _ _ m' v' h).2
    rw [this]
    by_contra hx
    rw [none5 [] (not_le.1 hx)] at h
    exact absurd h (by simp)
  unfold vmomRun
  rw [hsp, runEx_append]
  cases hA : runEx N.ce1 fuel [yukEx N e.p.j e.qi e.qf e.pars.alamp nijAmpi (e.p.j + 2) a] junk m PotMom.zero with
  | none => rfl
  | some r =>
    have k1 := (ok nijAmpi (by norm_num [nijAmpi]) a _ _ _ (Or.inl h6)).2 r.1 r.2 hA
    rw [Option.bind_some, runEx_append]
    cases hB : runEx N.ce1 fuel [yukEx N e.p.j e.qi e.qf e.pars.alamp nijAmeta (e.p.j + 2) b] (fun k => junk (k + [yukEx N e.p.j e.qi e.qf e.pars.alamp nijAmpi (e.p.j + 2) a].length)) r.1 r.2 with
    | none => rfl
    | some s =>
      have k2 := (ok nijAmeta (by norm_num [nijAmeta]) b _ _ _ k1).2 s.1 s.2 hB
      rw [Option.bind_some]
      refine (ok nijAmetp (by norm_num [nijAmetp]) c _ _ _ k2).1 B ?_
      change 5 < 0.5 * (e.qi * e.qi + e.qf * e.qf) / (e.qi * e.qf) + 0.5 * (nijAmetp * nijAmetp) / (e.qi * e.qf)
      rw [← add_div, lt_div_iff₀ q0]
      norm_num [nijAmetp]
      nlinarith [sq_nonneg (e.qi - e.qf)]

/-- Such an evaluation: the wave 1J7 at 100 and 200 MeV, the first of the program. -/
example : 7 ≤ (⟨⟨'1', 'J', 7⟩, .pn, 100, 200⟩ : NijEval).p.j ∧ (100 * 200 : ℝ) < 114000 ∧ (500 : ℝ) < 100 * 200 ∧ (1e20 : ℝ) ≠ (⟨⟨'1', 'J', 7⟩, .pn, 100, 200⟩ : NijEval).yCut (⟨⟨'1', 'J', 7⟩, .pn, 100, 200⟩ : NijEval).pars.alamp := by
  have e1 : (⟨⟨'1', 'J', 7⟩, .pn, 100, 200⟩ : NijEval).pars.alamp = 827.5346 := by decide +kernel
  refine ⟨le_rfl, by norm_num, by norm_num, ?_⟩
  unfold NijEval.yCut
  rw [e1]
  norm_num

end TicTac
end
