import Verif.Model.Swp
import Verif.Props.Layout
/-! Loop lemmas for the scattering wave-packet model. -/
noncomputable section
namespace TicTac

theorem radix2_inj {n a b c d : Nat} (hb : b < n) (hd : d < n) : a * n + b = c * n + d ↔ a = c ∧ b = d := by
  constructor
  · intro h
    have h1 : (a * n + b) / n = (c * n + d) / n := by rw [h]
    have h2 : (a * n + b) % n = (c * n + d) % n := by rw [h]
    have hn : 0 < n := by omega
    rw [Nat.add_comm (a * n), Nat.add_comm (c * n), Nat.add_mul_div_right _ _ hn, Nat.add_mul_div_right _ _ hn,
      Nat.div_eq_of_lt hb, Nat.div_eq_of_lt hd] at h1
    rw [Nat.mul_add_mod', Nat.mul_add_mod', Nat.mod_eq_of_lt hb, Nat.mod_eq_of_lt hd] at h2
    exact ⟨by omega, h2⟩
  · rintro ⟨rfl, rfl⟩; rfl

/-! ### Reordering -/

theorem reorderBufVals_eq (N : Nat) (ev buf : Nat → ℝ) (k : Nat) (hk : k < 2 * N) :
    reorderBufVals N ev buf k = if k < N then ev (2 * k) else ev (2 * (k - N) + 1) := by
  have key : ∀ m ≤ N, ∀ k, ((List.range m).foldl (fun (b : Nat → ℝ) i =>
      Function.update (Function.update b i (ev (2 * i))) (i + N) (ev (2 * i + 1))) buf) k =
      if k < m then ev (2 * k) else if N ≤ k ∧ k < N + m then ev (2 * (k - N) + 1) else buf k := by
    intro m hm
    induction m with
    | zero => intro k; simp
    | succ m ih =>
      intro k
      rw [List.range_succ, List.foldl_append]
      simp only [List.foldl_cons, List.foldl_nil]
      rw [Function.update_apply, Function.update_apply, ih (by omega)]
      by_cases h1 : k = m + N
      · subst h1
        rw [if_pos rfl, if_neg (by omega), if_pos (by omega), Nat.add_sub_cancel]
      · rw [if_neg h1]
        by_cases h2 : k = m
        · subst h2; rw [if_pos rfl, if_pos (by omega)]
        · rw [if_neg h2]
          by_cases h3 : k < m
          · rw [if_pos h3, if_pos (by omega)]
          · rw [if_neg h3, if_neg (show ¬ k < m + 1 by omega)]
            by_cases h4 : N ≤ k ∧ k < N + m
            · rw [if_pos h4, if_pos (by omega)]
            · rw [if_neg h4, if_neg (by omega)]
  unfold reorderBufVals
  rw [key N le_rfl]
  by_cases h : k < N
  · simp [h]
  · rw [if_neg h, if_neg h, if_pos (by omega)]

theorem copyVals_eq (n : Nat) (src dst : Nat → ℝ) (k : Nat) :
    copyVals n src dst k = if k < n then src k else dst k := by
  unfold copyVals
  induction n with
  | zero => simp
  | succ n ih =>
    rw [List.range_succ, List.foldl_append]
    simp only [List.foldl_cons, List.foldl_nil]
    rw [Function.update_apply, ih]
    by_cases h : k = n
    · subst h; simp
    · rw [if_neg h]
      by_cases h2 : k < n
      · rw [if_pos h2, if_pos (by omega)]
      · rw [if_neg h2, if_neg (by omega)]

theorem copyVecs_eq (n : Nat) (src dst : Nat → ℝ) (r c : Nat) (hr : r < n) (hc : c < n) :
    copyVecs n src dst (r * n + c) = src (r * n + c) := by
  have inner : ∀ (d : Nat → ℝ) (i m : Nat), m ≤ n → ∀ r c, c < n → ((List.range m).foldl (fun (d : Nat → ℝ) j =>
      Function.update d (i * n + j) (src (i * n + j))) d) (r * n + c) = if r = i ∧ c < m then src (r * n + c) else d (r * n + c) := by
    intro d i m hm
    induction m with
    | zero => intro r c _; simp
    | succ m ih =>
      intro r c hc
      rw [List.range_succ, List.foldl_append]
      simp only [List.foldl_cons, List.foldl_nil]
      rw [Function.update_apply, ih (by omega) r c hc]
      by_cases h : r * n + c = i * n + m
      · rw [if_pos h]
        obtain ⟨h1, h2⟩ := (radix2_inj hc (by omega)).1 h
        rw [if_pos ⟨h1, by omega⟩, h]
      · rw [if_neg h]
        by_cases h2 : r = i ∧ c < m
        · rw [if_pos h2, if_pos ⟨h2.1, by omega⟩]
        · rw [if_neg h2, if_neg]
          rintro ⟨rfl, h3⟩
          exact h ((radix2_inj hc (by omega)).2 ⟨rfl, by omega⟩)
  have outer : ∀ m ≤ n, ∀ r c, c < n → ((List.range m).foldl (fun (d : Nat → ℝ) i => (List.range n).foldl (fun (d : Nat → ℝ) j =>
      Function.update d (i * n + j) (src (i * n + j))) d) dst) (r * n + c) = if r < m then src (r * n + c) else dst (r * n + c) := by
    intro m hm
    induction m with
    | zero => intro r c _; simp
    | succ m ih =>
      intro r c hc
      rw [List.range_succ, List.foldl_append]
      simp only [List.foldl_cons, List.foldl_nil]
      rw [inner _ m n le_rfl r c hc, ih (by omega) r c hc]
      by_cases h : r = m
      · subst h; rw [if_pos ⟨rfl, hc⟩, if_pos (by omega)]
      · rw [if_neg (by tauto)]
        by_cases h2 : r < m
        · rw [if_pos h2, if_pos (by omega)]
        · rw [if_neg h2, if_neg (by omega)]
  unfold copyVecs
  rw [outer n le_rfl r c hc, if_pos hr]

theorem reorderBufVecs_eq (N : Nat) (z buf : Nat → ℝ) (r k : Nat) (hr : r < 2 * N) (hk : k < 2 * N) :
    reorderBufVecs N z buf (r * (2 * N) + k) =
      if k < N then z (r * (2 * N) + 2 * k) else z (r * (2 * N) + (2 * (k - N) + 1)) := by
  have inner : ∀ (b : Nat → ℝ) (i m : Nat), i < N → ∀ r c, c < 2 * N → ((List.range m).foldl (fun (b : Nat → ℝ) j =>
      Function.update (Function.update b (j * (2 * N) + i) (z (j * (2 * N) + 2 * i)))
      (j * (2 * N) + i + N) (z (j * (2 * N) + 2 * i + 1))) b) (r * (2 * N) + c) =
      if r < m ∧ c = i then z (r * (2 * N) + 2 * i) else if r < m ∧ c = i + N then z (r * (2 * N) + (2 * i + 1)) else b (r * (2 * N) + c) := by
    intro b i m hi
    induction m with
    | zero => intro r c _; simp
    | succ m ih =>
      intro r c hc
      rw [List.range_succ, List.foldl_append]
      simp only [List.foldl_cons, List.foldl_nil]
      rw [Function.update_apply, Function.update_apply, ih r c hc, Nat.add_assoc (m * (2 * N)) i N]
      by_cases h : r * (2 * N) + c = m * (2 * N) + (i + N)
      · obtain ⟨h1, h2⟩ := (radix2_inj hc (by omega)).1 h
        subst h1
        rw [if_pos h, if_neg (by omega), if_pos ⟨by omega, h2⟩, Nat.add_assoc]
      · rw [if_neg h]
        have hne : ¬ (r = m ∧ c = i + N) := fun hh => h ((radix2_inj hc (by omega)).2 hh)
        by_cases h' : r * (2 * N) + c = m * (2 * N) + i
        · obtain ⟨h1, h2⟩ := (radix2_inj hc (by omega)).1 h'
          subst h1
          rw [if_pos h', if_pos ⟨by omega, h2⟩]
        · rw [if_neg h']
          have hne' : ¬ (r = m ∧ c = i) := fun hh => h' ((radix2_inj hc (by omega)).2 hh)
          by_cases h3 : r < m ∧ c = i
          · rw [if_pos h3, if_pos ⟨by omega, h3.2⟩]
          · rw [if_neg h3, if_neg (c := r < m + 1 ∧ c = i) (by omega)]
            by_cases h4 : r < m ∧ c = i + N
            · rw [if_pos h4, if_pos ⟨by omega, h4.2⟩]
            · rw [if_neg h4, if_neg (by omega)]
  have outer : ∀ m ≤ N, ∀ r c, r < 2 * N → c < 2 * N → ((List.range m).foldl (fun (b : Nat → ℝ) i => (List.range (2 * N)).foldl
      (fun (b : Nat → ℝ) j => Function.update (Function.update b (j * (2 * N) + i) (z (j * (2 * N) + 2 * i)))
      (j * (2 * N) + i + N) (z (j * (2 * N) + 2 * i + 1))) b) buf) (r * (2 * N) + c) =
      if c < m then z (r * (2 * N) + 2 * c) else if N ≤ c ∧ c < N + m then z (r * (2 * N) + (2 * (c - N) + 1)) else buf (r * (2 * N) + c) := by
    intro m hm
    induction m with
    | zero => intro r c _ _; simp
    | succ m ih =>
      intro r c hr hc
      rw [List.range_succ, List.foldl_append]
      simp only [List.foldl_cons, List.foldl_nil]
      rw [inner _ m (2 * N) (by omega) r c hc, ih (by omega) r c hr hc]
      by_cases h1 : c = m
      · subst h1; rw [if_pos ⟨hr, rfl⟩, if_pos (by omega)]
      · rw [if_neg (by omega)]
        by_cases h2 : c = m + N
        · subst h2; rw [if_pos ⟨hr, rfl⟩, if_neg (by omega), if_pos (by omega), Nat.add_sub_cancel]
        · rw [if_neg (by omega)]
          by_cases h3 : c < m
          · rw [if_pos h3, if_pos (by omega)]
          · rw [if_neg h3, if_neg (show ¬ c < m + 1 by omega)]
            by_cases h4 : N ≤ c ∧ c < N + m
            · rw [if_pos h4, if_pos (by omega)]
            · rw [if_neg h4, if_neg (by omega)]
  unfold reorderBufVecs
  rw [outer N le_rfl r k hr hk]
  by_cases h : k < N
  · simp [h]
  · rw [if_neg h, if_neg h, if_pos (by omega)]

/-! ### Hamiltonian -/

theorem packed_inj {n r c r' c' : Nat} (h1 : r ≤ c) (h2 : c < n) (h3 : r' ≤ c') (h4 : c' < n)
    (h : idxPacked n r c = idxPacked n r' c') : r = r' ∧ c = c' := by
  have := (C20_packed_index n).1.2.1 (r, c) (r', c') ⟨h1, h2⟩ ⟨h3, h4⟩ (by simp [h])
  simpa using this

theorem hRow_eq (dim : Nat) (V : Nat → ℝ) (r : Nat) (H : Int → ℝ) (hr : r < dim) (i j : Nat) (hij : i ≤ j) (hj : j < dim) :
    hRow dim V r H (idxPacked dim i j) = H (idxPacked dim i j) + if i = r then V (r * dim + j) else 0 := by
  have key : ∀ m ≤ dim - r, ((List.range m).foldl (fun (H : Int → ℝ) k =>
      Function.update H (idxPacked dim r (r + k)) (H (idxPacked dim r (r + k)) + V (r * dim + (r + k)))) H) (idxPacked dim i j) =
      H (idxPacked dim i j) + if i = r ∧ j < r + m then V (r * dim + j) else 0 := by
    intro m hm
    induction m with
    | zero => simp; intro h1 h2; omega
    | succ m ih =>
      rw [List.range_succ, List.foldl_append]
      simp only [List.foldl_cons, List.foldl_nil]
      by_cases h : idxPacked dim i j = idxPacked dim r (r + m)
      · obtain ⟨h1, h2⟩ := packed_inj hij hj (by omega) (by omega) h
        subst h1 h2
        rw [Function.update_self, ih (by omega), if_neg (by omega), if_pos (by omega)]
        ring
      · rw [Function.update_of_ne h, ih (by omega)]
        congr 1
        by_cases h2 : i = r ∧ j < r + m
        · rw [if_pos h2, if_pos (by omega)]
        · rw [if_neg h2, if_neg]
          rintro ⟨rfl, h3⟩
          exact h (by rw [show j = i + m by omega])
  unfold hRow
  rw [key _ le_rfl]
  congr 1
  by_cases h : i = r
  · rw [if_pos ⟨h, by omega⟩, if_pos h]
  · rw [if_neg (by tauto), if_neg h]

theorem fullH_eq (dim : Nat) (H0 V : Nat → ℝ) (H : Int → ℝ) (i j : Nat) (hij : i ≤ j) (hj : j < dim) :
    fullH dim H0 V H (idxPacked dim i j) = H (idxPacked dim i j) + (if i = j then H0 i else 0) + V (i * dim + j) := by
  have key : ∀ m ≤ dim, ((List.range m).foldl (fun (H : Int → ℝ) r =>
      hRow dim V r (Function.update H (idxPacked dim r r) (H (idxPacked dim r r) + H0 r))) H) (idxPacked dim i j) =
      H (idxPacked dim i j) + if i < m then (if i = j then H0 i else 0) + V (i * dim + j) else 0 := by
    intro m hm
    induction m with
    | zero => simp
    | succ m ih =>
      rw [List.range_succ, List.foldl_append]
      simp only [List.foldl_cons, List.foldl_nil]
      rw [hRow_eq dim V m _ (by omega) i j hij hj]
      by_cases h : idxPacked dim i j = idxPacked dim m m
      · obtain ⟨h1, h2⟩ := packed_inj hij hj le_rfl (by omega) h
        subst h1 h2
        rw [Function.update_self, ih (by omega), if_neg (by omega), if_pos (by omega)]
        simp
        ring
      · rw [Function.update_of_ne h, ih (by omega)]
        by_cases h1 : i = m
        · subst h1
          have : i ≠ j := fun hh => h (by rw [← hh])
          simp [this]
        · by_cases h2 : i < m
          · simp [h1, h2, Nat.lt_succ_of_lt h2]
          · have : ¬ i < m + 1 := by omega
            simp [h1, h2, this]
  unfold fullH
  rw [key dim le_rfl, if_pos (by omega)]
  ring

/-! ### Bound-state search -/

theorem lookBound_fold (ev : Nat → ℝ) (Eb : ℝ) (dim : Nat) : open Classical in
    let s := (List.range dim).foldl (fun (s : Nat × ℝ) i => if ev i < 0 then (s.1 + 1, ev i) else s) (0, Eb)
    s.1 = ((List.range dim).filter fun i => ev i < 0).length ∧
      (s.1 = 0 → s.2 = Eb) ∧ (0 < s.1 → ∃ i < dim, ev i < 0 ∧ s.2 = ev i) := by
  classical
  induction dim with
  | zero => simp
  | succ n ih =>
    simp only at ih ⊢
    rw [List.range_succ, List.foldl_append, List.filter_append, List.length_append]
    simp only [List.foldl_cons, List.foldl_nil]
    generalize (List.range n).foldl _ _ = s at ih ⊢
    obtain ⟨h1, h2, h3⟩ := ih
    by_cases h : ev n < 0
    · rw [if_pos h]
      refine ⟨by simp [h, h1], by simp, fun _ => ⟨n, by omega, h, rfl⟩⟩
    · rw [if_neg h]
      refine ⟨by simp [h, h1], h2, fun hp => ?_⟩
      obtain ⟨i, a, b, c⟩ := h3 hp
      exact ⟨i, by omega, b, c⟩

/-! ### Boundaries -/

/-- Middle boundaries before the last one and the deuteron correction. -/
def midB (ev : Nat → ℝ) (i : Nat) : ℝ := if i = 0 then 0 else 0.5 * (ev i + ev (i - 1))

private theorem midLoop (N : Nat) (coupled : Bool) (ev e : Nat → ℝ) (h0 : e 0 = 0) (h1 : coupled = true → e (N + 1) = 0) (m : Nat) (hm : m ≤ N - 1) :
    let e' := (List.range m).foldl (fun (e : Nat → ℝ) i =>
      let e := Function.update e (i + 1) (0.5 * (ev (i + 1) + ev i))
      if coupled then Function.update e (i + 1 + N + 1) (0.5 * (ev (i + 1 + N) + ev (i + N))) else e) e
    (∀ i ≤ m, e' i = midB ev i) ∧ (coupled = true → ∀ i ≤ m, e' (N + 1 + i) = midB (fun k => ev (k + N)) i) := by
  induction m with
  | zero =>
    refine ⟨fun i hi => ?_, fun hc i hi => ?_⟩
    · have : i = 0 := by omega
      subst this; simpa [midB] using h0
    · have : i = 0 := by omega
      subst this; simpa [midB] using h1 hc
  | succ m ih =>
    obtain ⟨a, b⟩ := ih (by omega)
    simp only at a b ⊢
    rw [List.range_succ, List.foldl_append]
    simp only [List.foldl_cons, List.foldl_nil]
    generalize (List.range m).foldl _ _ = x at a b ⊢
    cases coupled with
    | false =>
      simp only [Bool.false_eq_true, if_false, false_implies, and_true] at *
      intro i hi
      rw [Function.update_apply]
      by_cases h : i = m + 1
      · subst h; simp [midB]
      · rw [if_neg h]; exact a i (by omega)
    | true =>
      simp only [if_true, true_implies] at *
      constructor
      · intro i hi
        rw [Function.update_of_ne (by omega), Function.update_apply]
        by_cases h : i = m + 1
        · subst h; simp [midB]
        · rw [if_neg h]; exact a i (by omega)
      · intro i hi
        rw [Function.update_apply]
        by_cases h : i = m + 1
        · subst h
          rw [if_pos (by omega)]
          simp [midB]
        · rw [if_neg (by omega), Function.update_of_ne (by omega)]
          exact b i (by omega)

/-- Closed form of the boundary arrays (`2 ≤ N`). -/
theorem swpBoundaries_eq (N : Nat) (hN : 2 ≤ N) (coupled chn : Bool) (ev e : Nat → ℝ) :
    (∀ i ≤ N, swpBoundaries N coupled chn ev e i =
      if chn = true ∧ i = 0 then ev 0 else if chn = true ∧ i = 1 then 0
      else if i = N then ev (N - 1) + 0.5 * (midB ev (N - 1) - midB ev (N - 2)) else midB ev i) ∧
    (coupled = true → ∀ i ≤ N, swpBoundaries N coupled chn ev e (N + 1 + i) =
      if i = N then ev (N - 1 + N) + 0.5 * (midB (fun k => ev (k + N)) (N - 1) - midB (fun k => ev (k + N)) (N - 2))
      else midB (fun k => ev (k + N)) i) := by
  unfold swpBoundaries
  simp only
  have hm := midLoop N coupled ev (if coupled = true then Function.update (Function.update e 0 0) (N + 1) 0 else Function.update e 0 0)
    (by cases coupled <;> simp [Function.update_apply]) (by rintro rfl; simp) (N - 1) le_rfl
  simp only at hm
  generalize (List.range (N - 1)).foldl _ _ = x at hm ⊢
  obtain ⟨a, b⟩ := hm
  have aN1 := a (N - 1) le_rfl
  have aN2 := a (N - 2) (by omega)
  cases coupled with
  | false =>
    simp only [Bool.false_eq_true, if_false, false_implies, and_true]
    intro i hi
    rw [aN1, aN2]
    cases chn with
    | false =>
      simp only [Bool.false_eq_true, if_false, false_and]
      rw [Function.update_apply]
      by_cases h : i = N
      · rw [if_pos h, if_pos h]
      · rw [if_neg h, if_neg h]; exact a i (by omega)
    | true =>
      simp only [if_true, true_and]
      rw [Function.update_apply, Function.update_apply, Function.update_apply]
      by_cases h0 : i = 0
      · subst h0; simp
      · by_cases h1 : i = 1
        · subst h1; simp
        · rw [if_neg h1, if_neg h0, if_neg h0, if_neg h1]
          by_cases h : i = N
          · rw [if_pos h, if_pos h]
          · rw [if_neg h, if_neg h]; exact a i (by omega)
  | true =>
    simp only [if_true, true_implies] at *
    rw [aN1, aN2]
    have e1 : Function.update x N (ev (N - 1) + 0.5 * (midB ev (N - 1) - midB ev (N - 2))) (2 * N) = midB (fun k => ev (k + N)) (N - 1) := by
      rw [Function.update_of_ne (by omega), show 2 * N = N + 1 + (N - 1) by omega]
      exact b (N - 1) le_rfl
    have e2 : Function.update x N (ev (N - 1) + 0.5 * (midB ev (N - 1) - midB ev (N - 2))) (2 * N - 1) = midB (fun k => ev (k + N)) (N - 2) := by
      rw [Function.update_of_ne (by omega), show 2 * N - 1 = N + 1 + (N - 2) by omega]
      exact b (N - 2) (by omega)
    rw [e1, e2]
    have e3 : 2 * N - 1 = N - 1 + N := by omega
    rw [e3]
    constructor
    · intro i hi
      cases chn with
      | false =>
        simp only [Bool.false_eq_true, if_false, false_and]
        rw [Function.update_of_ne (by omega), Function.update_apply]
        by_cases h : i = N
        · rw [if_pos h, if_pos h]
        · rw [if_neg h, if_neg h]; exact a i (by omega)
      | true =>
        simp only [if_true, true_and]
        rw [Function.update_apply, Function.update_apply]
        by_cases h0 : i = 0
        · subst h0; simp
        · by_cases h1 : i = 1
          · subst h1; simp
          · rw [if_neg h1, if_neg h0, if_neg h0, if_neg h1, Function.update_of_ne (by omega), Function.update_apply]
            by_cases h : i = N
            · rw [if_pos h, if_pos h]
            · rw [if_neg h, if_neg h]; exact a i (by omega)
    · intro i hi
      have : ∀ y : Nat → ℝ, (if chn = true then Function.update (Function.update y 0 (ev 0)) 1 0 else y) (N + 1 + i) = y (N + 1 + i) := by
        intro y
        cases chn with
        | false => rfl
        | true => simp only [if_true]; rw [Function.update_of_ne (by omega), Function.update_of_ne (by omega)]
      rw [this, Function.update_apply]
      by_cases h : i = N
      · rw [if_pos (by omega), if_pos h]
      · rw [if_neg (by omega), if_neg h, Function.update_of_ne (by omega)]
        exact b i (by omega)

/-- A block with positive strictly increasing energies: boundaries ordered, from 0, enclosing the energies. -/
theorem block_ordered (N : Nat) (hN : 2 ≤ N) (f b : Nat → ℝ) (hpos : 0 < f 0) (hf : ∀ i, i + 1 < N → f i < f (i + 1))
    (hb : ∀ i ≤ N, b i = if i = N then f (N - 1) + 0.5 * (midB f (N - 1) - midB f (N - 2)) else midB f i) :
    b 0 = 0 ∧ ∀ i < N, b i < f i ∧ f i < b (i + 1) := by
  have hmid : ∀ i, i + 1 < N → f i < midB f (i + 1) ∧ midB f (i + 1) < f (i + 1) := by
    intro i hi
    have := hf i hi
    simp only [midB, Nat.add_sub_cancel, if_neg (Nat.succ_ne_zero i)]
    norm_num
    constructor <;> linarith
  have hlow : ∀ i < N, b i < f i := by
    intro i hi
    rw [hb i hi.le, if_neg (by omega)]
    rcases Nat.eq_zero_or_pos i with rfl | h
    · simpa [midB] using hpos
    · obtain ⟨k, rfl⟩ := Nat.exists_eq_succ_of_ne_zero h.ne'
      exact (hmid k hi).2
  refine ⟨by rw [hb 0 (by omega), if_neg (by omega)]; simp [midB], fun i hi => ⟨hlow i hi, ?_⟩⟩
  rw [hb (i + 1) (by omega)]
  by_cases h : i + 1 = N
  · rw [if_pos h]
    have hi' : i = N - 1 := by omega
    have hd : midB f (N - 2) < midB f (N - 1) := by
      obtain ⟨k, rfl⟩ : ∃ k, N = k + 2 := ⟨N - 2, by omega⟩
      simp only [Nat.add_sub_cancel, show k + 2 - 1 = k + 1 by omega]
      have h1 := (hmid k (by omega)).1
      have h2 := hlow k (by omega)
      rw [hb k (by omega), if_neg (by omega)] at h2
      linarith
    rw [← hi']
    norm_num
    rw [hi']
    linarith
  · rw [if_neg h]
    exact (hmid i (by omega)).1

/-- The deuteron block: one negative energy first; boundaries start at it, then 0. -/
theorem deuteron_block_ordered (N : Nat) (hN : 3 ≤ N) (f b : Nat → ℝ) (hneg : f 0 < 0) (hpos : 0 < f 1) (hf : ∀ i, i + 1 < N → f i < f (i + 1))
    (hb : ∀ i ≤ N, b i = if i = 0 then f 0 else if i = 1 then 0
      else if i = N then f (N - 1) + 0.5 * (midB f (N - 1) - midB f (N - 2)) else midB f i) :
    b 0 = f 0 ∧ b 1 = 0 ∧ (∀ i < N, b i ≤ f i ∧ f i < b (i + 1)) ∧ ∀ i, 1 ≤ i → i < N → b i < f i := by
  have hmid : ∀ i, i + 1 < N → f i < midB f (i + 1) ∧ midB f (i + 1) < f (i + 1) := by
    intro i hi
    have := hf i hi
    simp only [midB, Nat.add_sub_cancel, if_neg (Nat.succ_ne_zero i)]
    norm_num
    constructor <;> linarith
  have b0 : b 0 = f 0 := by rw [hb 0 (by omega), if_pos rfl]
  have b1 : b 1 = 0 := by rw [hb 1 (by omega), if_neg (by omega), if_pos rfl]
  have hlow : ∀ i, 1 ≤ i → i < N → b i < f i := by
    intro i h1 hi
    by_cases h : i = 1
    · subst h; rw [b1]; exact hpos
    · rw [hb i hi.le, if_neg (by omega), if_neg h, if_neg (by omega)]
      obtain ⟨k, rfl⟩ := Nat.exists_eq_succ_of_ne_zero (show i ≠ 0 by omega)
      exact (hmid k hi).2
  refine ⟨b0, b1, fun i hi => ⟨?_, ?_⟩, hlow⟩
  · rcases Nat.eq_zero_or_pos i with rfl | h
    · exact b0.le
    · exact (hlow i h hi).le
  · rcases Nat.eq_zero_or_pos i with rfl | h0
    · rw [zero_add, b1]; exact hneg
    · rw [hb (i + 1) (by omega), if_neg (by omega), if_neg (by omega)]
      by_cases h : i + 1 = N
      · rw [if_pos h]
        have hi' : i = N - 1 := by omega
        have hd : midB f (N - 2) < midB f (N - 1) := by
          obtain ⟨k, rfl⟩ : ∃ k, N = k + 3 := ⟨N - 3, by omega⟩
          simp only [show k + 3 - 2 = k + 1 by omega, show k + 3 - 1 = k + 1 + 1 by omega]
          have h1 := (hmid (k + 1) (by omega)).1
          have h2 := (hmid k (by omega)).2
          linarith
        rw [← hi']
        norm_num
        rw [hi']
        linarith
      · rw [if_neg h]
        exact (hmid i (by omega)).1

end TicTac
end
