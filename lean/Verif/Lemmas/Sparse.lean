import Verif.Spec.Sparse
import Verif.Lemmas.Layout
import Mathlib.Data.List.Sort
import Mathlib.Data.List.Nodup
import Mathlib.Data.List.Induction
import Mathlib.Tactic.SplitIfs
namespace TicTac
open Spec

/-! ### Sorting -/

theorem filterMap_getElem_range {α : Type} (l : List α) : (List.range l.length).filterMap (l[·]?) = l := by
  induction l using List.reverseRecOn with
  | nil => simp
  | append_singleton l a ih =>
    rw [List.length_append, List.length_singleton, List.range_succ, List.filterMap_append]
    congr 1
    · refine Eq.trans ?_ ih
      apply List.filterMap_congr
      intro i hi
      rw [List.mem_range] at hi
      rw [List.getElem?_append_left hi]
    · simp

theorem IsSortedBy.perm {V : Type} {key : Entry V → Nat} {entries out : List (Entry V)}
    (h : IsSortedBy key entries out) : out.Perm entries := by
  obtain ⟨idx, ⟨hp, _⟩, rfl⟩ := h
  rw [List.length_map] at hp
  have := hp.filterMap (entries[·]?)
  rwa [filterMap_getElem_range] at this

theorem IsSortedBy.pairwise {V : Type} {key : Entry V → Nat} {entries out : List (Entry V)}
    (h : IsSortedBy key entries out) : out.Pairwise (fun e f => key e ≤ key f) := by
  obtain ⟨idx, ⟨_, hs⟩, rfl⟩ := h
  rw [List.pairwise_filterMap]
  refine hs.imp ?_
  intro i j hij e he f hf
  simpa [List.getD_eq_getElem?_getD, he, hf] using hij

/-- Some sorted arrangement always exists. -/
theorem exists_isSortedBy {V : Type} (key : Entry V → Nat) (entries : List (Entry V)) :
    ∃ out, IsSortedBy key entries out := by
  refine ⟨_, (List.range (entries.map key).length).mergeSort
    (fun i j => decide ((entries.map key).getD i 0 ≤ (entries.map key).getD j 0)), ⟨List.mergeSort_perm _ _, ?_⟩, rfl⟩
  have := List.pairwise_mergeSort (le := fun i j : Nat => decide ((entries.map key).getD i 0 ≤ (entries.map key).getD j 0))
    (by intro a b c; simp only [decide_eq_true_eq]; exact Nat.le_trans)
    (by intro a b; simp only [Bool.or_eq_true, decide_eq_true_eq]; exact Nat.le_total _ _)
    (List.range (entries.map key).length)
  exact this.imp (by intro a b h; simpa using h)

/-! ### Buffers and files -/

/-- Everything thread `t` has stored so far: its files, then its buffer. -/
def collected {V : Type} (s : P123State V) (t : Nat) : List (Entry V) :=
  ((List.range (s.tfc t)).flatMap fun k => (s.file t k).getD []) ++ s.buf t

theorem flush_collected {V : Type} (s : P123State V) (t u : Nat) : collected (p123Flush s t) u = collected s u := by
  unfold collected p123Flush
  by_cases h : u = t
  · subst h
    simp only [Function.update_self, List.append_nil]
    rw [List.range_succ, List.flatMap_append]
    simp only [List.flatMap_singleton, Function.update_self, Option.getD_some]
    congr 1
    rw [List.flatMap_def, List.flatMap_def]
    congr 1
    apply List.map_congr_left
    intro k hk
    rw [List.mem_range] at hk
    rw [Function.update_of_ne (by omega)]
  · simp only [Function.update_of_ne h]

theorem store_collected {V : Type} (B : Nat) (s : P123State V) (t : Nat) (e : Entry V) (u : Nat) :
    collected (p123Store B s t e) u = collected s u ++ (if u = t then [e] else []) := by
  have h0 : collected { s with buf := Function.update s.buf t (s.buf t ++ [e]) } u =
      collected s u ++ (if u = t then [e] else []) := by
    unfold collected
    by_cases h : u = t
    · subst h; simp
    · simp [Function.update_of_ne h, h]
  unfold p123Store
  simp only
  split_ifs with h h'
  · rw [flush_collected, h0, if_pos h']
  · rw [flush_collected, h0, if_neg h']
  · rw [h0, if_pos (by assumption)]
  · rw [h0, if_neg (by assumption)]

theorem exec_collected {V : Type} (B : Nat) (s : P123State V) (tr : List (Nat × Entry V)) (u : Nat) :
    collected (p123Exec B s tr) u = collected s u ++ (tr.filter (·.1 = u)).map (·.2) := by
  unfold p123Exec
  induction tr generalizing s with
  | nil => simp
  | cons ev tr ih =>
    rw [List.foldl_cons, ih, store_collected, List.filter_cons]
    by_cases h : ev.1 = u
    · simp [h]
    · have : ¬ u = ev.1 := fun e => h e.symm
      simp [h, this]

theorem finish_collected {V : Type} (T : Nat) (s : P123State V) (u : Nat) :
    collected (p123Finish T s) u = collected s u := by
  unfold p123Finish
  induction T with
  | zero => rfl
  | succ T ih => rw [List.range_succ, List.foldl_append]; simp only [List.foldl_cons, List.foldl_nil, flush_collected, ih]

theorem finish_buf {V : Type} (T : Nat) (s : P123State V) (u : Nat) (hu : u < T) : (p123Finish T s).buf u = [] := by
  unfold p123Finish
  induction T with
  | zero => omega
  | succ T ih =>
    rw [List.range_succ, List.foldl_append]
    simp only [List.foldl_cons, List.foldl_nil, p123Flush]
    by_cases h : u = T
    · subst h; simp
    · rw [Function.update_of_ne h, ih (by omega)]

/-- The buffer of every thread stays below its capacity. -/
theorem exec_buf_lt {V : Type} (B : Nat) (hB : 1 ≤ B) (s : P123State V) (hs : ∀ t, (s.buf t).length < B)
    (tr : List (Nat × Entry V)) (t : Nat) : ((p123Exec B s tr).buf t).length < B := by
  unfold p123Exec
  induction tr generalizing s with
  | nil => exact hs t
  | cons ev tr ih =>
    rw [List.foldl_cons]
    apply ih
    intro u
    unfold p123Store p123Flush
    simp only
    split_ifs with h
    · by_cases hu : u = ev.1
      · subst hu; simp; omega
      · simp only [Function.update_of_ne hu]; exact hs u
    · by_cases hu : u = ev.1
      · subst hu; simp only [Function.update_self] at h ⊢; omega
      · simp only [Function.update_of_ne hu]; exact hs u

theorem readAll_finish {V : Type} (T B : Nat) (disk : Nat → Nat → Option (List (Entry V))) (prog : Nat → List (Entry V))
    (tr : List (Nat × Entry V)) (h : IsInterleaving T prog tr) :
    p123ReadAll T (p123Finish T (p123Exec B (p123Init disk) tr)).tfc (p123Finish T (p123Exec B (p123Init disk) tr)).file =
      (List.range T).flatMap prog := by
  unfold p123ReadAll
  rw [List.flatMap_def, List.flatMap_def]
  congr 1
  apply List.map_congr_left
  intro t ht
  rw [List.mem_range] at ht
  have h1 := finish_collected T (p123Exec B (p123Init disk) tr) t
  rw [exec_collected, h.2 t ht] at h1
  unfold collected at h1
  rw [finish_buf T _ t ht, List.append_nil] at h1
  rw [h1]
  simp [p123Init]

/-! ### The elements -/

theorem mem_rowElems {V : Type} [DecidableEq V] [Zero V] (c : P123Cfg V) (qp : Nat) (e : Entry V) :
    e ∈ rowElems c qp ↔ ∃ pp < c.Np, ∃ ap < c.Nalpha, ∃ a < c.Nalpha, ∃ q < c.Nq, ∃ p < c.Np,
      c.overlap (idxOverlap c.Np c.Nq qp pp q p) = true ∧ c.elem ap qp pp a q p ≠ 0 ∧
      e = ⟨idxAQP c.Nq c.Np ap qp pp, idxAQP c.Nq c.Np a q p, c.elem ap qp pp a q p⟩ := by
  unfold rowElems
  simp only [List.mem_flatMap, List.mem_range]
  constructor
  · rintro ⟨pp, h1, ap, h2, a, h3, q, h4, p, h5, h6⟩
    refine ⟨pp, h1, ap, h2, a, h3, q, h4, p, h5, ?_⟩
    split_ifs at h6 with h7 h8
    · exact ⟨h7, h8, by simpa using h6⟩
    · simp at h6
    · simp at h6
  · rintro ⟨pp, h1, ap, h2, a, h3, q, h4, p, h5, h6, h7, h8⟩
    refine ⟨pp, h1, ap, h2, a, h3, q, h4, p, h5, ?_⟩
    rw [if_pos h6, if_pos h7, h8]
    simp

theorem pairwise_flatMap_key {α β K : Type} {l : List α} {f : α → List β} {κ : β → K} (hl : l.Nodup)
    (h1 : ∀ a ∈ l, (f a).Pairwise (fun x y => κ x ≠ κ y))
    (h2 : ∀ a ∈ l, ∀ b ∈ l, ∀ x ∈ f a, ∀ y ∈ f b, κ x = κ y → a = b) :
    (l.flatMap f).Pairwise (fun x y => κ x ≠ κ y) := by
  rw [List.pairwise_flatMap]
  refine ⟨h1, ?_⟩
  have := List.Pairwise.and_mem.1 hl
  refine this.imp ?_
  rintro a b ⟨ha, hb, hne⟩ x hx y hy he
  exact hne (h2 a ha b hb x hx y hy he)

theorem idxAQP_inj {Nq Np a q p a' q' p' : Nat} (hq : q < Nq) (hp : p < Np) (hq' : q' < Nq) (hp' : p' < Np)
    (h : idxAQP Nq Np a q p = idxAQP Nq Np a' q' p') : a = a' ∧ q = q' ∧ p = p' := by
  rw [idxAQP_eq, idxAQP_eq] at h
  obtain ⟨h1, h2⟩ := radix_inj (radix_lt hq hp) (radix_lt hq' hp') h
  obtain ⟨h3, h4⟩ := radix_inj hp hp' h2
  exact ⟨h1, h3, h4⟩

theorem idxAQP_lt {Nα Nq Np a q p : Nat} (ha : a < Nα) (hq : q < Nq) (hp : p < Np) :
    idxAQP Nq Np a q p < Np * Nq * Nα := by
  rw [idxAQP_eq, show Np * Nq * Nα = Nα * (Nq * Np) by ring]
  exact radix_lt ha (radix_lt hq hp)

theorem idxAQP_decode {Nq Np a q p : Nat} (hq : q < Nq) (hp : p < Np) :
    idxAQP Nq Np a q p / (Np * Nq) = a ∧ (idxAQP Nq Np a q p / Np) % Nq = q ∧ idxAQP Nq Np a q p % Np = p := by
  refine ⟨?_, ?_, ?_⟩
  · rw [idxAQP_eq, Nat.mul_comm Np Nq]; exact radix_div (radix_lt hq hp)
  · have : idxAQP Nq Np a q p = (a * Nq + q) * Np + p := by unfold idxAQP; ring
    rw [this, radix_div hp]; exact radix_mod hq
  · have : idxAQP Nq Np a q p = (a * Nq + q) * Np + p := by unfold idxAQP; ring
    rw [this]; exact radix_mod hp

theorem idxAQP_surj {Nα Nq Np i : Nat} (h : i < Np * Nq * Nα) :
    ∃ a q p, a < Nα ∧ q < Nq ∧ p < Np ∧ idxAQP Nq Np a q p = i := by
  rw [show Np * Nq * Nα = Nα * (Nq * Np) by ring] at h
  obtain ⟨a, j, ha, hj, rfl⟩ := radix_surj h
  obtain ⟨q, p, hq, hp, rfl⟩ := radix_surj hj
  exact ⟨a, q, p, ha, hq, hp, idxAQP_eq _ _ _ _ _⟩

/-- The (row, column) pairs of all stored elements are distinct. -/
theorem allElems_distinct {V : Type} [DecidableEq V] [Zero V] (c : P123Cfg V) :
    ((List.range c.Nq).flatMap (rowElems c)).Pairwise (fun e f => (e.row, e.col) ≠ (f.row, f.col)) := by
  apply pairwise_flatMap_key List.nodup_range
  · intro qp hqp
    rw [List.mem_range] at hqp
    unfold rowElems
    have hmem : ∀ (x : Entry V) (pp ap a q p : Nat), x ∈ (if c.overlap (idxOverlap c.Np c.Nq qp pp q p) then
      (if c.elem ap qp pp a q p ≠ 0 then
        [(⟨idxAQP c.Nq c.Np ap qp pp, idxAQP c.Nq c.Np a q p, c.elem ap qp pp a q p⟩ : Entry V)]
      else []) else []) → x.row = idxAQP c.Nq c.Np ap qp pp ∧ x.col = idxAQP c.Nq c.Np a q p := by
      intro x pp ap a q p hx
      split_ifs at hx <;> simp at hx
      rw [hx]; exact ⟨rfl, rfl⟩
    apply pairwise_flatMap_key List.nodup_range
    · intro pp hpp
      rw [List.mem_range] at hpp
      apply pairwise_flatMap_key List.nodup_range
      · intro ap hap
        apply pairwise_flatMap_key List.nodup_range
        · intro a ha
          apply pairwise_flatMap_key List.nodup_range
          · intro q hq
            rw [List.mem_range] at hq
            apply pairwise_flatMap_key List.nodup_range
            · intro p hp
              split_ifs <;> simp
            · intro p hp p' hp' x hx y hy he
              rw [List.mem_range] at hp hp'
              have h1 := (hmem _ _ _ _ _ _ hx).2
              have h2 := (hmem _ _ _ _ _ _ hy).2
              have := (Prod.mk.inj he).2
              rw [h1, h2] at this
              exact (idxAQP_inj hq hp hq hp' this).2.2
          · intro q hq q' hq' x hx y hy he
            simp only [List.mem_flatMap, List.mem_range] at hx hy hq hq'
            obtain ⟨p, hp, hx⟩ := hx
            obtain ⟨p', hp', hy⟩ := hy
            have h1 := (hmem _ _ _ _ _ _ hx).2
            have h2 := (hmem _ _ _ _ _ _ hy).2
            have := (Prod.mk.inj he).2
            rw [h1, h2] at this
            exact (idxAQP_inj hq hp hq' hp' this).2.1
        · intro a ha a' ha' x hx y hy he
          simp only [List.mem_flatMap, List.mem_range] at hx hy
          obtain ⟨q, hq, p, hp, hx⟩ := hx
          obtain ⟨q', hq', p', hp', hy⟩ := hy
          have h1 := (hmem _ _ _ _ _ _ hx).2
          have h2 := (hmem _ _ _ _ _ _ hy).2
          have := (Prod.mk.inj he).2
          rw [h1, h2] at this
          exact (idxAQP_inj hq hp hq' hp' this).1
      · intro ap hap ap' hap' x hx y hy he
        simp only [List.mem_flatMap, List.mem_range] at hx hy
        obtain ⟨a, ha, q, hq, p, hp, hx⟩ := hx
        obtain ⟨a', ha', q', hq', p', hp', hy⟩ := hy
        have h1 := (hmem _ _ _ _ _ _ hx).1
        have h2 := (hmem _ _ _ _ _ _ hy).1
        have := (Prod.mk.inj he).1
        rw [h1, h2] at this
        exact (idxAQP_inj hqp hpp hqp hpp this).1
    · intro pp hpp pp' hpp' x hx y hy he
      simp only [List.mem_flatMap, List.mem_range] at hx hy hpp hpp'
      obtain ⟨ap, hap, a, ha, q, hq, p, hp, hx⟩ := hx
      obtain ⟨ap', hap', a', ha', q', hq', p', hp', hy⟩ := hy
      have h1 := (hmem _ _ _ _ _ _ hx).1
      have h2 := (hmem _ _ _ _ _ _ hy).1
      have := (Prod.mk.inj he).1
      rw [h1, h2] at this
      exact (idxAQP_inj hqp hpp hqp hpp' this).2.2
  · intro qp hqp qp' hqp' x hx y hy he
    rw [mem_rowElems] at hx hy
    rw [List.mem_range] at hqp hqp'
    obtain ⟨pp, hpp, ap, _, a, _, q, _, p, _, _, _, rfl⟩ := hx
    obtain ⟨pp', hpp', ap', _, a', _, q', _, p', _, _, _, rfl⟩ := hy
    exact (idxAQP_inj hqp hpp hqp' hpp' (Prod.mk.inj he).1).2.1

theorem mem_allElems {V : Type} [DecidableEq V] [Zero V] (c : P123Cfg V) (r k : Nat) (v : V) :
    (⟨r, k, v⟩ : Entry V) ∈ (List.range c.Nq).flatMap (rowElems c) ↔
      r < c.dim ∧ k < c.dim ∧ v = p123Matrix c r k ∧ v ≠ 0 := by
  have hov : ∀ qp pp q p, idxOverlap c.Np c.Nq qp pp q p = ((qp * c.Np + pp) * c.Nq + q) * c.Np + p := by
    intro qp pp q p; unfold idxOverlap; ring
  simp only [List.mem_flatMap, List.mem_range, mem_rowElems]
  constructor
  · rintro ⟨qp, hqp, pp, hpp, ap, hap, a, ha, q, hq, p, hp, h1, h2, h3⟩
    injection h3 with h3 h4 h5
    subst h3; subst h4; subst h5
    refine ⟨idxAQP_lt hap hqp hpp, idxAQP_lt ha hq hp, ?_, h2⟩
    obtain ⟨d1, d2, d3⟩ := idxAQP_decode (a := ap) hqp hpp
    obtain ⟨e1, e2, e3⟩ := idxAQP_decode (a := a) hq hp
    unfold p123Matrix
    simp only [d1, d2, d3, e1, e2, e3]
    rw [← hov, if_pos h1]
  · rintro ⟨hr, hk, hv, hne⟩
    obtain ⟨ap, qp, pp, hap, hqp, hpp, rfl⟩ := idxAQP_surj hr
    obtain ⟨a, q, p, ha, hq, hp, rfl⟩ := idxAQP_surj hk
    obtain ⟨d1, d2, d3⟩ := idxAQP_decode (a := ap) hqp hpp
    obtain ⟨e1, e2, e3⟩ := idxAQP_decode (a := a) hq hp
    unfold p123Matrix at hv
    simp only [d1, d2, d3, e1, e2, e3] at hv
    rw [← hov] at hv
    split_ifs at hv with h
    · refine ⟨qp, hqp, pp, hpp, ap, hap, a, ha, q, hq, p, hp, h, ?_, ?_⟩
      · rw [← hv]; exact hne
      · rw [hv]
    · exact absurd hv hne

/-- Strict order of a sorted arrangement of distinct in-range entries. -/
theorem sorted_strict {V : Type} {n : Nat} {entries out : List (Entry V)}
    (h : IsSortedBy (fun e => e.row * n + e.col) entries out)
    (hb : ∀ e ∈ entries, e.col < n)
    (hd : entries.Pairwise (fun e f => (e.row, e.col) ≠ (f.row, f.col))) :
    out.Pairwise (fun e f => e.row < f.row ∨ (e.row = f.row ∧ e.col < f.col)) := by
  have hp := h.perm
  have hd' : out.Pairwise (fun e f => (e.row, e.col) ≠ (f.row, f.col)) :=
    (hp.pairwise_iff (fun {a b} (hab : (a.row, a.col) ≠ (b.row, b.col)) => Ne.symm hab)).2 hd
  have hs := h.pairwise
  have := List.Pairwise.and_mem.1 (hs.and hd')
  refine this.imp ?_
  rintro e f ⟨he, hf, hle, hne⟩
  have h1 := hb e (hp.mem_iff.1 he)
  have h2 := hb f (hp.mem_iff.1 hf)
  by_contra hcon
  have hcon : f.row ≤ e.row ∧ (e.row = f.row → f.col ≤ e.col) := by
    constructor
    · by_contra hx; exact hcon (Or.inl (by omega))
    · intro hx; by_contra hy; exact hcon (Or.inr ⟨hx, by omega⟩)
  rcases Nat.lt_or_ge f.row e.row with hlt | hge
  · have : (f.row + 1) * n ≤ e.row * n := Nat.mul_le_mul_right _ hlt
    have : (f.row + 1) * n = f.row * n + n := by ring
    omega
  · have heq : e.row = f.row := by omega
    have := hcon.2 heq
    rw [heq] at hle
    exact hne (by rw [heq, show e.col = f.col by omega])

theorem sparseForm_unique {V : Type} [Zero V] {n : Nat} {M : Nat → Nat → V} {l₁ l₂ : List (Entry V)}
    (h₁ : IsSparseForm n M l₁) (h₂ : IsSparseForm n M l₂) : l₁ = l₂ := by
  have hsub : ∀ e : Entry V, e ∈ l₁ ↔ e ∈ l₂ := by
    rintro ⟨r, k, v⟩
    rw [h₁.2, h₂.2]
  have key : ∀ (l : List (Entry V)), l.Pairwise (fun e f => e.row < f.row ∨ (e.row = f.row ∧ e.col < f.col)) → l.Nodup := by
    intro l hl
    refine hl.imp ?_
    rintro a b hab rfl
    omega
  have hperm : l₁.Perm l₂ := (List.perm_ext_iff_of_nodup (key _ h₁.1) (key _ h₂.1)).2 hsub
  refine List.Perm.eq_of_pairwise ?_ h₁.1 h₂.1 hperm
  intro a b _ _ h h'
  omega

/-! ### Compressed formats -/

theorem takeWhile_length_sorted (l : List Nat) (h : l.Pairwise (· ≤ ·)) (p : Nat → Bool)
    (hp : ∀ a b, a ≤ b → p b = true → p a = true) : l.takeWhile p = l.filter p := by
  induction l with
  | nil => rfl
  | cons a l ih =>
    rw [List.pairwise_cons] at h
    by_cases ha : p a = true
    · rw [List.takeWhile_cons_of_pos ha, List.filter_cons_of_pos ha, ih h.2]
    · rw [List.takeWhile_cons_of_neg ha, List.filter_cons_of_neg ha]
      symm
      rw [List.filter_eq_nil_iff]
      intro b hb hpb
      exact ha (hp a b (h.1 b hb) hpb)

theorem drop_filter_length (l : List Nat) (h : l.Pairwise (· ≤ ·)) (i : Nat) :
    l.drop (l.filter (· < i)).length = l.filter (fun r => ¬ r < i) := by
  induction l with
  | nil => rfl
  | cons a l ih =>
    rw [List.pairwise_cons] at h
    by_cases ha : a < i
    · rw [List.filter_cons_of_pos (by simpa using ha), List.length_cons, List.drop_succ_cons, ih h.2,
        List.filter_cons_of_neg (by simpa using ha)]
    · rw [List.filter_cons_of_neg (by simpa using ha), List.filter_cons_of_pos (by simpa using ha)]
      have h1 : l.filter (· < i) = [] := by
        rw [List.filter_eq_nil_iff]; intro b hb; have := h.1 b hb; simp; omega
      have h2 : l.filter (fun r => ¬ r < i) = l := by
        rw [List.filter_eq_self]; intro b hb; have := h.1 b hb; simp; omega
      rw [h1, h2]; rfl

theorem csPtr_eq (l : List Nat) (h : l.Pairwise (· ≤ ·)) (i : Nat) : csPtr l i = (l.filter (· < i)).length := by
  induction i with
  | zero => simp [csPtr]
  | succ i ih =>
    rw [csPtr, ih]
    unfold countRun
    rw [drop_filter_length l h, takeWhile_length_sorted _ (h.filter _) _ (by
      intro a b hab hb
      simp only [Bool.not_eq_true', decide_eq_false_iff_not] at hb ⊢; omega), List.filter_filter]
    clear ih
    induction l with
    | nil => rfl
    | cons a l ih =>
      rw [List.pairwise_cons] at h
      have := ih h.2
      by_cases h1 : a < i
      · simp only [List.filter_cons, h1, decide_true, Nat.lt_succ_of_lt h1, if_true, List.length_cons]
        simp only [not_true_eq_false, decide_false, Bool.and_false, Bool.false_eq_true, if_false]
        omega
      · by_cases h2 : a = i
        · subst h2
          simp [List.filter_cons]
          simp at this
          omega
        · have h3 : ¬ a < i + 1 := by omega
          have h4 : a > i := by omega
          simp [List.filter_cons, h1, h3, h4]
          simp at this
          omega

/-- Slice of a sorted entry list given by consecutive pointers. -/
theorem csPtr_slice {V : Type} (key : Entry V → Nat) (l : List (Entry V)) (h : (l.map key).Pairwise (· ≤ ·)) (i : Nat) :
    (l.drop (csPtr (l.map key) i)).take (csPtr (l.map key) (i + 1) - csPtr (l.map key) i) = l.filter (fun e => key e = i) := by
  rw [csPtr_eq _ h, csPtr_eq _ h]
  induction l with
  | nil => rfl
  | cons a l ih =>
    rw [List.map_cons, List.pairwise_cons] at h
    have := ih h.2
    rw [List.map_cons]
    have e1 : ∀ j, key a < j → (key a :: l.map key).filter (· < j) = key a :: (l.map key).filter (· < j) :=
      fun j hj => List.filter_cons_of_pos (by simpa using hj)
    have e2 : ∀ j, ¬ key a < j → (key a :: l.map key).filter (· < j) = (l.map key).filter (· < j) :=
      fun j hj => List.filter_cons_of_neg (by simpa using hj)
    by_cases h1 : key a < i
    · have h2 : key a < i + 1 := by omega
      rw [e1 i h1, e1 (i + 1) h2, List.length_cons, List.length_cons, List.drop_succ_cons, Nat.add_sub_add_right, this,
        List.filter_cons_of_neg (by simp; omega)]
    · have h0 : (l.map key).filter (· < i) = [] := by
        rw [List.filter_eq_nil_iff]; intro b hb; have := h.1 b hb; simp; omega
      rw [e2 i h1, h0]
      rw [h0] at this
      simp only [List.length_nil, List.drop_zero, Nat.sub_zero] at this ⊢
      by_cases h2 : key a < i + 1
      · rw [e1 _ h2, List.length_cons, List.take_succ_cons, this, List.filter_cons_of_pos (by simp; omega)]
      · have h3 : (l.map key).filter (· < i + 1) = [] := by
          rw [List.filter_eq_nil_iff]; intro b hb; have := h.1 b hb; simp; omega
        rw [e2 _ h2, h3]
        rw [h3] at this
        simp only [List.length_nil, List.take_zero] at this ⊢
        rw [List.filter_cons_of_neg (by simp; omega), ← this]

end TicTac
