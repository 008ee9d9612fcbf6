import Verif.Props.Sparse
/-! C16: exactly when `P123_recovery=true` gives back the matrix of a completed calculation. -/
namespace TicTac
open TicTac.Spec

/-- Counted files of every thread hold a full buffer each, other files do not exist. -/
def FullFiles {V : Type} (B : Nat) (s : P123State V) : Prop :=
  ∀ t, (∀ k < s.tfc t, ∃ l, s.file t k = some l ∧ l.length = B) ∧ ∀ k, s.tfc t ≤ k → s.file t k = none

theorem store_full {V : Type} (B : Nat) (hB : 1 ≤ B) (s : P123State V) (hb : ∀ t, (s.buf t).length < B) (h : FullFiles B s) (t : Nat) (e : Entry V) :
    FullFiles B (p123Store B s t e) := by
  intro u
  unfold p123Store p123Flush
  simp only
  split_ifs with hf
  · by_cases hu : u = t
    · subst hu
      simp only [Function.update_self] at hf ⊢
      refine ⟨fun k hk => ?_, fun k hk => ?_⟩
      · by_cases hk' : k = s.tfc u
        · subst hk'
          refine ⟨_, Function.update_self .., ?_⟩
          have := hb u
          rw [List.length_append, List.length_singleton] at hf ⊢
          omega
        · rw [Function.update_of_ne hk']
          exact (h u).1 k (by omega)
      · rw [Function.update_of_ne (by omega)]
        exact (h u).2 k (by omega)
    · simp only [Function.update_of_ne hu]
      exact h u
  · exact h u

theorem exec_full {V : Type} (B : Nat) (hB : 1 ≤ B) (s : P123State V) (hb : ∀ t, (s.buf t).length < B) (h : FullFiles B s)
    (tr : List (Nat × Entry V)) : FullFiles B (p123Exec B s tr) := by
  induction tr generalizing s with
  | nil => exact h
  | cons ev tr ih =>
    refine ih (p123Store B s ev.1 ev.2) (fun t => ?_) (store_full B hB s hb h _ _)
    exact exec_buf_lt B hB s hb [ev] t

/-- What the last flush leaves of thread `u`. -/
theorem finish_files {V : Type} (T : Nat) (s : P123State V) (u : Nat) (hu : u < T) :
    (p123Finish T s).tfc u = s.tfc u + 1 ∧ (p123Finish T s).file u = Function.update (s.file u) (s.tfc u) (some (s.buf u)) := by
  have aux : ∀ n, u ≥ n → (p123Finish n s).tfc u = s.tfc u ∧ (p123Finish n s).file u = s.file u ∧ (p123Finish n s).buf u = s.buf u := by
    intro n
    induction n with
    | zero => intro _; exact ⟨rfl, rfl, rfl⟩
    | succ n ih =>
      intro h
      obtain ⟨h1, h2, h3⟩ := ih (by omega)
      unfold p123Finish at h1 h2 h3 ⊢
      rw [List.range_succ, List.foldl_append]
      simp only [List.foldl_cons, List.foldl_nil, p123Flush]
      rw [Function.update_of_ne (by omega), Function.update_of_ne (by omega), Function.update_of_ne (by omega)]
      exact ⟨h1, h2, h3⟩
  induction T with
  | zero => omega
  | succ T ih =>
    by_cases h : u = T
    · subst h
      obtain ⟨h1, h2, h3⟩ := aux u (Nat.le_refl _)
      unfold p123Finish at h1 h2 h3 ⊢
      rw [List.range_succ, List.foldl_append]
      simp only [List.foldl_cons, List.foldl_nil, p123Flush, Function.update_self]
      rw [h1, h2, h3]
      exact ⟨rfl, rfl⟩
    · obtain ⟨h1, h2⟩ := ih (by omega)
      unfold p123Finish at h1 h2 ⊢
      rw [List.range_succ, List.foldl_append]
      simp only [List.foldl_cons, List.foldl_nil, p123Flush]
      rw [Function.update_of_ne h, Function.update_of_ne h]
      exact ⟨h1, h2⟩

/-- Reading `r` blocks of which the first `n` are full, the next is the last. -/
theorem take_blocks {α : Type} (B n : Nat) (g : Nat → List α) (h1 : ∀ k < n, (g k).length = B) (h2 : (g n).length ≤ B) (h3 : ∀ k, n < k → g k = [])
    (r : Nat) : (List.range r).flatMap g = ((List.range (n + 1)).flatMap g).take (r * B) := by
  have hlen : ∀ m ≤ n, ((List.range m).flatMap g).length = m * B := by
    intro m
    induction m with
    | zero => intro _; simp
    | succ m ih =>
      intro hm
      rw [List.range_succ, List.flatMap_append, List.length_append, ih (by omega), List.flatMap_singleton, h1 m (by omega)]
      ring
  by_cases hr : r ≤ n
  · obtain ⟨d, hd⟩ := Nat.exists_eq_add_of_le (show r ≤ n + 1 by omega)
    rw [hd, List.range_add, List.flatMap_append, List.take_append_of_le_length (by rw [hlen r hr]), List.take_of_length_le (by rw [hlen r hr])]
  · obtain ⟨d, hd⟩ := Nat.exists_eq_add_of_le (show n + 1 ≤ r by omega)
    have hl : ((List.range (n + 1)).flatMap g).length ≤ r * B := by
      rw [List.range_succ, List.flatMap_append, List.length_append, hlen n (Nat.le_refl _), List.flatMap_singleton]
      have : (n + 1) * B ≤ r * B := Nat.mul_le_mul_right _ (by omega)
      have h5 : (n + 1) * B = n * B + B := by ring
      omega
    rw [List.take_of_length_le hl, hd, List.range_add, List.flatMap_append]
    conv_rhs => rw [← List.append_nil (List.flatMap _ _)]
    congr 1
    rw [List.flatMap_map, List.flatMap_eq_nil_iff]
    intro k _
    exact h3 _ (by omega)

/-- Reading `r` files of every thread gives the first `r·B` elements each thread produced. -/
theorem readSome {V : Type} (T B : Nat) (hB : 1 ≤ B) (prog : Nat → List (Entry V)) (tr : List (Nat × Entry V)) (h : IsInterleaving T prog tr) (r : Nat) :
    p123ReadAll T (fun _ => r) (p123Finish T (p123Exec B (p123Init fun _ _ => none) tr)).file =
      (List.range T).flatMap fun t => (prog t).take (r * B) := by
  have hfull : FullFiles B (p123Exec B (p123Init fun _ _ => (none : Option (List (Entry V)))) tr) :=
    exec_full B hB _ (fun _ => by simp [p123Init]; omega) (fun t => ⟨fun k hk => by simp [p123Init] at hk, fun k _ => rfl⟩) tr
  have hbuf := exec_buf_lt B hB (p123Init fun _ _ => (none : Option (List (Entry V)))) (fun _ => by simp [p123Init]; omega) tr
  unfold p123ReadAll
  rw [List.flatMap_def, List.flatMap_def]
  congr 1
  apply List.map_congr_left
  intro t ht
  rw [List.mem_range] at ht
  have h1 := finish_collected T (p123Exec B (p123Init fun _ _ => none) tr) t
  rw [exec_collected, h.2 t ht] at h1
  unfold collected at h1
  rw [finish_buf T _ t ht, List.append_nil] at h1
  obtain ⟨h2, h3⟩ := finish_files T (p123Exec B (p123Init fun _ _ => none) tr) t ht
  rw [h2] at h1
  have h4 : prog t = (List.range ((p123Exec B (p123Init fun _ _ => none) tr).tfc t + 1)).flatMap
      fun k => ((p123Finish T (p123Exec B (p123Init fun _ _ => none) tr)).file t k).getD [] := by
    rw [h1]; simp [p123Init]
  rw [h4]
  apply take_blocks B _ _ _ _ _ r
  · intro k hk
    obtain ⟨l, hl, hl'⟩ := (hfull t).1 k hk
    beta_reduce
    rw [h3, Function.update_of_ne (by omega), hl]
    exact hl'
  · beta_reduce
    rw [h3, Function.update_self]
    exact Nat.le_of_lt (hbuf t)
  · intro k hk
    beta_reduce
    rw [h3, Function.update_of_ne (by omega), (hfull t).2 k (by omega)]
    rfl

theorem sum_eq_iff_le {n : Nat} {f g : Nat → Nat} (h : ∀ i < n, f i ≤ g i) :
    ((List.range n).map f).sum ≤ ((List.range n).map g).sum ∧
    (((List.range n).map f).sum = ((List.range n).map g).sum → ∀ i < n, f i = g i) := by
  induction n with
  | zero => exact ⟨Nat.le_refl _, fun _ i hi => absurd hi (by omega)⟩
  | succ n ih =>
    obtain ⟨h1, h2⟩ := ih (fun i hi => h i (by omega))
    have h3 := h n (by omega)
    rw [List.range_succ]
    simp only [List.map_append, List.map_cons, List.map_nil, List.sum_append, List.sum_cons, List.sum_nil, Nat.add_zero]
    refine ⟨by omega, fun he i hi => ?_⟩
    by_cases hin : i = n
    · subst hin; omega
    · exact h2 (by omega) i (by omega)

/-- **C16.** Recovery after a completed calculation on an empty disk.  With `r` the number of files it assumes per thread and `B` the size of a thread's buffer, the
result consists of the first `r·B` elements of every thread; it is the matrix exactly when no thread produced more than `r·B` elements. -/
theorem C16_exactly {V : Type} [DecidableEq V] [Zero V] (c : P123Cfg V) (T B : Nat) (hB : 1 ≤ B) (assign : Nat → List Nat) (trace : List (Nat × Entry V))
    (hs : IsWorkSharing c.Nq T assign) (hi : IsInterleaving T (fun t => (assign t).flatMap (rowElems c)) trace) (r : Nat)
    (hr : r = recoveryTFC (overlapFalseCount c) (c.Nq * c.Nq * c.Np * c.Np) c.dim T)
    (out : List (Entry V)) (h : RecoveryResult c T (p123Finish T (p123Exec B (p123Init fun _ _ => none) trace)).file out) :
    out.Perm ((List.range T).flatMap fun t => ((assign t).flatMap (rowElems c)).take (r * B)) ∧
    (IsSparseForm c.dim (p123Matrix c) out ↔ ∀ t < T, ((assign t).flatMap (rowElems c)).length ≤ r * B) := by
  unfold RecoveryResult at h
  rw [← hr] at h
  have hp := h.2.perm
  rw [readSome T B hB _ trace hi r] at hp
  refine ⟨hp, fun hform => ?_, fun hle => ?_⟩
  · obtain ⟨out', ho'⟩ := C15_no_error c T B (fun _ _ => none) assign trace hs hi
    have he := sparseForm_unique hform (C15_result_is_matrix c out' ⟨T, B, _, assign, trace, hs, hi, ho'⟩)
    subst he
    have h1 := ho'.2.perm.length_eq
    rw [readAll_finish T B _ _ trace hi] at h1
    have h2 := hp.length_eq
    rw [h1] at h2
    rw [List.length_flatMap, List.length_flatMap] at h2
    have := (sum_eq_iff_le (n := T) (f := fun t => (((assign t).flatMap (rowElems c)).take (r * B)).length)
      (g := fun t => ((assign t).flatMap (rowElems c)).length) (fun i _ => by simp only [List.length_take]; omega)).2 h2.symm
    intro t ht
    have := this t ht
    simp only [List.length_take] at this
    omega
  · refine sparseForm_of_perm c _ out ?_ h.2
    rw [readSome T B hB _ trace hi r]
    have h1 := readAll_perm c T B (fun _ _ => none) assign trace hs hi
    rw [readAll_finish T B _ _ trace hi] at h1
    refine List.Perm.trans (List.Perm.of_eq ?_) h1
    rw [List.flatMap_def, List.flatMap_def]
    congr 1
    apply List.map_congr_left
    intro t ht
    exact List.take_of_length_le (hle t (List.mem_range.1 ht))

/-- Both sides occur.  With the channel of `exCfg` (dimension 2) recovery reads nothing and the three elements of the matrix are lost. -/
example : ∃ out, RecoveryResult exCfg 2 (p123Finish 2 (p123Exec 1 (p123Init fun _ _ => none)
    [(1, ⟨0, 0, 1⟩), (0, ⟨1, 0, 2⟩), (0, ⟨1, 1, 4⟩)])).file out ∧ ¬IsSparseForm exCfg.dim (p123Matrix exCfg) out := by
  have hs : IsWorkSharing exCfg.Nq 2 (fun t => if t = 0 then [1] else [0]) := by unfold IsWorkSharing; decide
  have hi : IsInterleaving 2 (fun t => ((if t = 0 then [1] else [0] : List Nat)).flatMap (rowElems exCfg))
      [(1, ⟨0, 0, 1⟩), (0, ⟨1, 0, 2⟩), (0, ⟨1, 1, 4⟩)] := by
    refine ⟨by decide, ?_⟩
    intro t ht
    interval_cases t <;> decide
  have h : RecoveryResult exCfg 2 (p123Finish 2 (p123Exec 1 (p123Init fun _ _ => none)
      [(1, ⟨0, 0, 1⟩), (0, ⟨1, 0, 2⟩), (0, ⟨1, 1, 4⟩)])).file [] := by
    have h0 : recoveryTFC (overlapFalseCount exCfg) (exCfg.Nq * exCfg.Nq * exCfg.Np * exCfg.Np) exCfg.dim 2 = 0 := by decide
    unfold RecoveryResult
    rw [h0]
    exact ⟨by decide, ⟨[], ⟨by decide, by decide⟩, by decide⟩⟩
  refine ⟨[], h, fun hf => ?_⟩
  have := (C16_exactly exCfg 2 1 (by decide) _ _ hs hi _ rfl [] h).2.1 hf 0 (by decide)
  revert this
  decide

end TicTac
