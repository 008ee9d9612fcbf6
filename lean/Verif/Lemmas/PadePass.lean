import Verif.Model.PadeSolve
import Mathlib.Tactic.Ring
import Mathlib.Tactic.Linarith
/-! Lemmas for the iterative solver: the Padé pass. -/
noncomputable section
namespace TicTac

theorem padeMat_congr {a b : Nat → ℂ} {N M : Nat} (z : ℂ) (h : ∀ k ≤ N + M, a k = b k) : padeP a N M z = padeP b N M z ∧ padeQ a N M z = padeQ b N M z := by
  constructor
  · funext r c
    unfold padeP
    have := r.2; have := c.2
    split
    · exact h _ (by omega)
    · have e : ∀ (l : List Nat) (s : ℂ), (∀ j ∈ l, j < N + 1) →
          l.foldl (fun s j => s + a (j - (M - c)) * z ^ j) s = l.foldl (fun s j => s + b (j - (M - c)) * z ^ j) s := by
        intro l
        induction l with
        | nil => intro s _; rfl
        | cons j l ih =>
          intro s hl
          rw [List.foldl_cons, List.foldl_cons, h _ (by have := hl j List.mem_cons_self; omega)]
          exact ih _ fun x hx => hl x (List.mem_cons_of_mem _ hx)
      apply e
      intro j hj
      rw [List.mem_range'] at hj
      omega
  · funext r c
    unfold padeQ
    have := r.2; have := c.2
    split
    · exact h _ (by omega)
    · rfl

/-- The approximant depends on the first `N+M+1` coefficients only. -/
theorem padeApproximant_congr {a b : Nat → ℂ} {N M : Nat} (z : ℂ) (h : ∀ k ≤ N + M, a k = b k) : padeApproximant a N M z = padeApproximant b N M z := by
  unfold padeApproximant
  rw [(padeMat_congr z h).1, (padeMat_congr z h).2]

theorem padeApproximant_zero (a : Nat → ℂ) (z : ℂ) : padeApproximant a 0 0 z = some (a 0) := by
  unfold padeApproximant
  have hQ : (padeQ a 0 0 z).det = 1 := by rw [Matrix.det_fin_one]; simp [padeQ]
  have hP : (padeP a 0 0 z).det = a 0 := by rw [Matrix.det_fin_one]; simp [padeP]
  rw [hQ, hP]; simp

theorem bestPA_spec (pa : Int → Option ℂ) (idx NM : Nat) :
    (bestPA pa idx NM).1 ≤ NM ∧ ((bestPA pa idx NM).1 ≠ 0 → (pa ((idx : Int) * 15 + (bestPA pa idx NM).1)).isSome) := by
  unfold bestPA
  have : ∀ m, m ≤ NM + 1 → ∀ b, b = (List.range m).foldl (fun b (k : Nat) => match paDiff (pa ((idx : Int) * 15 + k)) (pa ((idx : Int) * 15 + k - 1)) b.2 with
    | some d => (k, d)
    | none => b) ((0, 1) : Nat × ℝ) → b.1 ≤ NM ∧ (b.1 ≠ 0 → (pa ((idx : Int) * 15 + b.1)).isSome) := by
    intro m
    induction m with
    | zero => rintro _ b rfl; simp
    | succ m ih =>
      intro hm b hb
      rw [List.range_succ, List.foldl_append, List.foldl_cons, List.foldl_nil] at hb
      have hprev := ih (by omega) _ rfl
      generalize (List.range m).foldl (fun b (k : Nat) => match paDiff (pa ((idx : Int) * 15 + k)) (pa ((idx : Int) * 15 + k - 1)) b.2 with
        | some d => (k, d)
        | none => b) ((0, 1) : Nat × ℝ) = b0 at hb hprev
      cases hd : paDiff (pa ((idx : Int) * 15 + m)) (pa ((idx : Int) * 15 + m - 1)) b0.2 with
      | none => simp only [hd] at hb; rw [hb]; exact hprev
      | some d =>
        simp only [hd] at hb
        rw [hb]
        refine ⟨by show m ≤ NM; omega, fun _ => ?_⟩
        unfold paDiff at hd
        cases hp : pa ((idx : Int) * 15 + m) with
        | none => rw [hp] at hd; simp at hd
        | some x => simp [hp]
  exact this (NM + 1) le_rfl _ rfl

/-- What one pass does to one element. `P` is the array of approximants at the moment the element is judged. -/
structure PassElem (NM : Nat) (t t' : OsTab) (idx : Nat) : Prop where
  done : t.conv idx = true → t'.conv idx = true ∧ t'.best idx = t.best idx ∧ ∀ k : Nat, k < 15 → t'.pa ((idx : Int) * 15 + k) = t.pa ((idx : Int) * 15 + k)
  todo : t.conv idx = false →
    t'.pa ((idx : Int) * 15 + NM) = padeApproximant (fun k => t.a (idx * 29 + k)) NM NM 1 ∧
    (∀ k : Nat, k < 15 → k ≠ NM → t'.pa ((idx : Int) * 15 + k) = t.pa ((idx : Int) * 15 + k)) ∧
    ∃ P : Int → Option ℂ, (∀ k : Nat, k < 15 → P ((idx : Int) * 15 + k) = t'.pa ((idx : Int) * 15 + k)) ∧
      (NM < 14 ∨ idx = 0 → P ((idx : Int) * 15 - 1) = t.pa ((idx : Int) * 15 - 1)) ∧
      t'.conv idx = paConverged P idx NM ∧ (t'.conv idx = true → t'.best idx = (bestPA P idx NM).1) ∧
      (t'.conv idx = false → t'.best idx = t.best idx)

theorem paElem_self (NM : Nat) (t : OsTab) (idx : Nat) : PassElem NM t (paElem NM t idx).1 idx := by
  unfold paElem
  by_cases h : t.conv idx = true
  · rw [if_pos h]
    exact ⟨fun _ => ⟨h, rfl, fun _ _ => rfl⟩, fun h' => by rw [h] at h'; cases h'⟩
  · rw [if_neg h]
    have hf : t.conv idx = false := by simpa using h
    dsimp only
    have hne : ∀ k : Nat, k ≠ NM → ((idx : Int) * 15 + k) ≠ (idx : Int) * 15 + NM := fun k hk => by omega
    split
    · rename_i hc
      refine ⟨fun h' => absurd h' h, fun _ => ⟨?_, ?_, _, fun _ _ => rfl, ?_, ?_, ?_, ?_⟩⟩
      · exact Function.update_self ..
      · intro k _ hk; exact Function.update_of_ne (hne k hk) ..
      · intro _; exact Function.update_of_ne (by omega) ..
      · rw [hc]; exact Function.update_self ..
      · intro _; exact Function.update_self ..
      · intro h'; dsimp only at h'; rw [Function.update_self] at h'; cases h'
    · rename_i hc
      refine ⟨fun h' => absurd h' h, fun _ => ⟨?_, ?_, _, fun _ _ => rfl, ?_, ?_, ?_, ?_⟩⟩
      · exact Function.update_self ..
      · intro k _ hk; exact Function.update_of_ne (hne k hk) ..
      · intro _; exact Function.update_of_ne (by omega) ..
      · dsimp only; rw [hf]; symm; simpa using hc
      · intro h'; dsimp only at h'; exact absurd h' h
      · intro _; rfl

/-- A pass over one element does not touch another one. -/
theorem paElem_other (NM : Nat) (hNM : NM < 15) (t : OsTab) (idx idx' : Nat) (hne : idx' ≠ idx) :
    (paElem NM t idx).1.conv idx' = t.conv idx' ∧ (paElem NM t idx).1.best idx' = t.best idx' ∧
    ∀ k : Nat, k < 15 → (paElem NM t idx).1.pa ((idx' : Int) * 15 + k) = t.pa ((idx' : Int) * 15 + k) := by
  unfold paElem
  by_cases h : t.conv idx = true
  · rw [if_pos h]; exact ⟨rfl, rfl, fun _ _ => rfl⟩
  · rw [if_neg h]
    dsimp only
    have hne' : ∀ k : Nat, k < 15 → ((idx' : Int) * 15 + k) ≠ (idx : Int) * 15 + NM := fun k hk => by omega
    split
    · exact ⟨Function.update_of_ne hne .., Function.update_of_ne hne .., fun k hk => Function.update_of_ne (hne' k hk) ..⟩
    · exact ⟨rfl, rfl, fun k hk => Function.update_of_ne (hne' k hk) ..⟩

theorem paElem_slot (NM : Nat) (t : OsTab) (idx : Nat) (z : Int) (hz : z ≠ (idx : Int) * 15 + NM) : (paElem NM t idx).1.pa z = t.pa z := by
  unfold paElem
  split
  · rfl
  · dsimp only
    split <;> exact Function.update_of_ne hz ..

theorem paElem_a (NM : Nat) (t : OsTab) (idx : Nat) : (paElem NM t idx).1.a = t.a := by
  unfold paElem
  split
  · rfl
  · dsimp only; split <;> rfl

theorem paElem_count (NM : Nat) (t : OsTab) (idx : Nat) :
    (paElem NM t idx).2 = (if (paElem NM t idx).1.conv idx then 1 else 0) - (if t.conv idx then 1 else 0) ∧
    ((paElem NM t idx).1.conv idx = false → t.conv idx = false) := by
  unfold paElem
  by_cases h : t.conv idx = true
  · rw [if_pos h]; simp [h]
  · rw [if_neg h]
    dsimp only
    split
    · simp [h]
    · simp [h]

/-- Number of converged elements of a list. -/
def convCount (t : OsTab) (es : List OsElem) : Nat := (es.filter fun e => t.conv e.idx).length

theorem paPass_spec (NM : Nat) (hNM : NM < 15) (es : List OsElem) (hnd : (es.map (·.idx)).Nodup) (t : OsTab) :
    (paPass NM es t).1.a = t.a ∧
    (∀ e ∈ es, PassElem NM t (paPass NM es t).1 e.idx) ∧
    (∀ idx, (∀ e ∈ es, e.idx ≠ idx) → (paPass NM es t).1.conv idx = t.conv idx ∧ (paPass NM es t).1.best idx = t.best idx ∧
      ∀ k : Nat, k < 15 → (paPass NM es t).1.pa ((idx : Int) * 15 + k) = t.pa ((idx : Int) * 15 + k)) ∧
    (paPass NM es t).2 + convCount t es = convCount (paPass NM es t).1 es ∧
    (∀ z : Int, (∀ e ∈ es, z ≠ (e.idx : Int) * 15 + NM) → (paPass NM es t).1.pa z = t.pa z) := by
  unfold paPass
  induction es using List.reverseRecOn with
  | nil => refine ⟨rfl, by simp, fun _ _ => ⟨rfl, rfl, fun _ _ => rfl⟩, by simp [convCount], fun _ _ => rfl⟩
  | append_singleton es e ih =>
    rw [List.map_append, List.nodup_append] at hnd
    obtain ⟨hnd1, _, hdis⟩ := hnd
    obtain ⟨i1, i2, i3, i4, i5⟩ := ih hnd1
    rw [List.foldl_append, List.foldl_cons, List.foldl_nil]
    generalize es.foldl (fun r e => let r' := paElem NM r.1 e.idx; (r'.1, r.2 + r'.2)) (t, 0) = r at i1 i2 i3 i4 i5 ⊢
    dsimp only
    have hne : ∀ e' ∈ es, e'.idx ≠ e.idx := fun e' he' => hdis e'.idx (List.mem_map_of_mem he') e.idx (by simp)
    obtain ⟨j1, j2, j3⟩ := i3 e.idx hne
    refine ⟨by rw [paElem_a, i1], ?_, ?_, ?_, ?_⟩
    · intro e' he'
      rcases List.mem_append.1 he' with he' | he'
      · obtain ⟨o1, o2, o3⟩ := paElem_other NM hNM r.1 e.idx e'.idx (hne e' he')
        have := i2 e' he'
        refine ⟨fun h => ?_, fun h => ?_⟩
        · obtain ⟨a1, a2, a3⟩ := this.done h
          exact ⟨o1.trans a1, o2.trans a2, fun k hk => (o3 k hk).trans (a3 k hk)⟩
        · obtain ⟨a1, a2, P, a3, a4, a5, a6, a7⟩ := this.todo h
          refine ⟨(o3 NM hNM).trans a1, fun k hk hk' => (o3 k hk).trans (a2 k hk hk'), P, fun k hk => (a3 k hk).trans (o3 k hk).symm, a4, o1.trans a5, fun h' => ?_, fun h' => o2.trans (a7 (o1 ▸ h'))⟩
          rw [o2]
          exact a6 (o1 ▸ h')
      · simp only [List.mem_singleton] at he'
        subst he'
        have := paElem_self NM r.1 e'.idx
        refine ⟨fun h => ?_, fun h => ?_⟩
        · obtain ⟨a1, a2, a3⟩ := this.done (j1.trans h)
          exact ⟨a1, a2.trans j2, fun k hk => (a3 k hk).trans (j3 k hk)⟩
        · obtain ⟨a1, a2, P, a3, a4, a5, a6, a7⟩ := this.todo (j1.trans h)
          refine ⟨?_, fun k hk hk' => (a2 k hk hk').trans (j3 k hk), P, a3, fun h14 => (a4 h14).trans (i5 _ fun x _ => by omega), a5, a6, fun h' => (a7 h').trans j2⟩
          rw [a1, i1]
    · intro idx hidx
      have h1 := i3 idx (fun e' he' => hidx e' (List.mem_append_left _ he'))
      obtain ⟨o1, o2, o3⟩ := paElem_other NM hNM r.1 e.idx idx (fun h => hidx e (by simp) h.symm)
      exact ⟨o1.trans h1.1, o2.trans h1.2.1, fun k hk => (o3 k hk).trans (h1.2.2 k hk)⟩
    · obtain ⟨c1, c2⟩ := paElem_count NM r.1 e.idx
      have hes : convCount (paElem NM r.1 e.idx).1 es = convCount r.1 es := by
        unfold convCount
        congr 1
        apply List.filter_congr
        intro e' he'
        exact (paElem_other NM hNM r.1 e.idx e'.idx (hne e' he')).1
      have happ : ∀ t : OsTab, convCount t (es ++ [e]) = convCount t es + if t.conv e.idx then 1 else 0 := by
        intro t
        unfold convCount
        rw [List.filter_append, List.length_append]
        congr 1
        cases h : t.conv e.idx <;> simp [h]
      rw [happ, happ, hes, c1, ← j1]
      by_cases hc : r.1.conv e.idx = true
      · have : (paElem NM r.1 e.idx).1.conv e.idx = true := by
          by_contra hx
          have := c2 (by simpa using hx)
          rw [hc] at this; cases this
        simp only [hc, this, if_true]
        omega
      · simp only [hc]
        simp only [Bool.false_eq_true, if_false, Nat.sub_zero]
        omega
    · intro z hz
      rw [paElem_slot NM r.1 e.idx z (hz e (by simp))]
      exact i5 z fun x hx => hz x (List.mem_append_left _ hx)

end TicTac
end
