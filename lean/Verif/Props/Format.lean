import Verif.Lemmas.Format
/-! C90–C92: the numbers in the output files. -/
noncomputable section
namespace TicTac
open Spec

/-- Finite double that is not minus zero. -/
def Spec.Plain : Dbl → Prop
  | .fin neg m e => (Dbl.fin neg m e).OK ∧ (neg = true → m ≠ 0)
  | _ => False

/-- Entries a table row is meant for: energies and momenta are finite and not negative, amplitudes finite and not minus zero, indices
have at most nine digits. -/
def Spec.PlainField : Field → Prop
  | .real x => Plain x ∧ x.geZero = true
  | .index n => n < 10 ^ 9
  | .cplx re im => Plain re ∧ Plain im

set_option exponentiation.threshold 2000 in
theorem pow_fact1 : 2 ^ 53 * 2 ^ 971 < 10 ^ 309 := by decide

set_option exponentiation.threshold 2000 in
theorem pow_fact2 : 2 ^ 1074 < 10 ^ 324 := by decide

theorem exponent_bound {n : Bool} {m : Nat} {e : Int} (hok : (Dbl.fin n m e).OK) (hm : m ≠ 0) {N : Nat} {E : Int}
    (h : SciRound 16 (m * (2 : ℝ) ^ e) N E) : E.natAbs < 1000 := by
  obtain ⟨h1, h2, h3⟩ := h
  obtain ⟨m1, m2, m3, -⟩ := hok
  rw [show ((16 : Nat) : Int) = 16 from rfl] at h3
  have hu : (0 : ℝ) < 10 ^ (E - 16) := by positivity
  have hN : (10 : ℝ) ^ 16 ≤ N := by exact_mod_cast h1
  have hN2 : (N : ℝ) < 10 ^ 17 := by exact_mod_cast h2
  obtain ⟨a, b⟩ := abs_le.1 h3
  have hv1 : (m : ℝ) * 2 ^ e < 10 ^ (309 : Int) := by
    have hm' : (m : ℝ) < 2 ^ 53 := by exact_mod_cast m1
    have he : (2 : ℝ) ^ e ≤ 2 ^ (971 : Int) := zpow_le_zpow_right₀ (by norm_num) m3
    have : (m : ℝ) * 2 ^ e ≤ 2 ^ 53 * 2 ^ (971 : Int) := mul_le_mul hm'.le he (by positivity) (by positivity)
    refine lt_of_le_of_lt this ?_
    rw [show (971 : Int) = ((971 : Nat) : Int) from rfl, show (309 : Int) = ((309 : Nat) : Int) from rfl, zpow_natCast, zpow_natCast]
    have : 2 ^ 53 * 2 ^ 971 < 10 ^ 309 := pow_fact1
    exact_mod_cast this
  have hv2 : (10 : ℝ) ^ (-324 : Int) < (m : ℝ) * 2 ^ e := by
    have hm' : (1 : ℝ) ≤ m := by exact_mod_cast Nat.one_le_iff_ne_zero.2 hm
    have he : (2 : ℝ) ^ (-1074 : Int) ≤ 2 ^ e := zpow_le_zpow_right₀ (by norm_num) m2
    have h3 : (10 : ℝ) ^ (-324 : Int) < 2 ^ (-1074 : Int) := by
      rw [show (-324 : Int) = -((324 : Nat) : Int) from rfl, show (-1074 : Int) = -((1074 : Nat) : Int) from rfl, zpow_neg, zpow_neg, zpow_natCast, zpow_natCast]
      rw [inv_lt_inv₀ (by positivity) (by positivity)]
      have : 2 ^ 1074 < 10 ^ 324 := pow_fact2
      exact_mod_cast this
    have h0 : (0 : ℝ) < 2 ^ e := by positivity
    nlinarith
  have e1 : (10 : ℝ) ^ (E - 1) = 10 ^ 15 * 10 ^ (E - 16) := by
    rw [← zpow_natCast, ← zpow_add₀ (by norm_num)]; congr 1; push_cast; ring
  have e2 : (10 : ℝ) ^ (E + 2) = 10 ^ 18 * 10 ^ (E - 16) := by
    rw [← zpow_natCast, ← zpow_add₀ (by norm_num)]; congr 1; push_cast; ring
  have l1 : (10 : ℝ) ^ (E - 1) < 10 ^ (309 : Int) := by
    rw [e1]
    refine lt_of_le_of_lt ?_ hv1
    rw [show (10 : ℝ) ^ 16 = 10000000000000000 by norm_num] at hN
    rw [show (10 : ℝ) ^ 15 = 1000000000000000 by norm_num]
    nlinarith
  have l2 : (10 : ℝ) ^ (-324 : Int) < 10 ^ (E + 2) := by
    rw [e2]
    refine lt_of_lt_of_le hv2 ?_
    rw [show (10 : ℝ) ^ 17 = 100000000000000000 by norm_num] at hN2
    rw [show (10 : ℝ) ^ 18 = 1000000000000000000 by norm_num]
    nlinarith
  have k1 := (zpow_lt_zpow_iff_right₀ (by norm_num : (1 : ℝ) < 10)).1 l1
  have k2 := (zpow_lt_zpow_iff_right₀ (by norm_num : (1 : ℝ) < 10)).1 l2
  omega

/-- The text of a finite double: digits and exponent. -/
theorem prints_fin {neg : Bool} {m : Nat} {e : Int} (hok : (Dbl.fin neg m e).OK) {s : Str} (h : Prints 16 (.fin neg m e) s) :
    ∃ (N : Nat) (E : Int), s = sciText 16 neg N E ∧ N < 10 ^ 17 ∧ E.natAbs < 1000 ∧ Determines (sg neg * N * (10 : ℝ) ^ (E - 16)) (.fin neg m e) := by
  change (if m = 0 then s = sciText 16 neg 0 0 else ∃ N E, SciRound 16 (m * (2 : ℝ) ^ e) N E ∧ s = sciText 16 neg N E) at h
  by_cases hm : m = 0
  · rw [if_pos hm] at h
    subst hm
    exact ⟨0, 0, h, by norm_num, by norm_num, by exact_mod_cast determines_zero (sg neg)⟩
  · rw [if_neg hm] at h
    obtain ⟨N, E, hr, rfl⟩ := h
    exact ⟨N, E, rfl, hr.2.1, exponent_bound hok hm hr, determines_of_round hok hr⟩

theorem sciText_length {neg : Bool} {N : Nat} {E : Int} (hN : N < 10 ^ 17) (hE : E.natAbs < 1000) :
    (sciText 16 neg N E).length ≤ 23 + (if neg then 1 else 0) := by
  have h1 := pad_length (w := 17) (by norm_num) hN
  have h2 := pad_length_le (w := 2) (k := 3) (by norm_num) (by norm_num) (show E.natAbs < 10 ^ 3 from hE)
  have h3 : (if neg then ['-'] else ([] : Str)).length = if neg then 1 else 0 := by cases neg <;> rfl
  unfold sciText
  simp only [List.length_append, List.length_take, List.length_drop, h1, List.length_cons, List.length_nil, h3]
  omega

theorem sciText_chars {neg : Bool} {N : Nat} {E : Int} : ∀ c ∈ sciText 16 neg N E, isDig c = true ∨ c = '-' ∨ c = '.' ∨ c = 'e' ∨ c = '+' := by
  intro c hc
  unfold sciText at hc
  simp only [List.mem_append, List.mem_singleton] at hc
  have hp : ∀ c ∈ padDigits 17 N, isDig c = true := padDigits_isDig
  rcases hc with (((((hc | hc) | hc) | hc) | hc) | hc) | hc
  · cases neg <;> simp at hc; exact Or.inr (Or.inl hc)
  · exact Or.inl (hp c (List.mem_of_mem_take hc))
  · exact Or.inr (Or.inr (Or.inl hc))
  · exact Or.inl (hp c (List.mem_of_mem_drop hc))
  · exact Or.inr (Or.inr (Or.inr (Or.inl hc)))
  · split at hc
    · exact Or.inr (Or.inl hc)
    · exact Or.inr (Or.inr (Or.inr (Or.inr hc)))
  · exact Or.inl (padDigits_isDig c hc)

theorem sciText_ne_nil {neg : Bool} {N : Nat} {E : Int} : sciText 16 neg N E ≠ [] := by
  unfold sciText; simp

theorem sciText_noblank {neg : Bool} {N : Nat} {E : Int} : ' ' ∉ sciText 16 neg N E := by
  intro h
  rcases sciText_chars _ h with h | h | h | h | h
  · simp [isDig] at h
  all_goals simp at h

/-- Signed text of a plain double. -/
theorem signed_plain {x : Dbl} (h : Plain x) {s : Str} (hs : SignedText 16 x s) :
    ∃ (pre : Str) (neg : Bool) (N : Nat) (E : Int), s = pre ++ sciText 16 neg N E ∧ (pre = [] ∧ neg = true ∨ pre = ['+'] ∧ neg = false) ∧ N < 10 ^ 17 ∧
      E.natAbs < 1000 ∧ Determines (sg neg * N * (10 : ℝ) ^ (E - 16)) x := by
  cases x with
  | inf => exact absurd h id
  | nan => exact absurd h id
  | fin neg m e =>
    obtain ⟨hok, hz⟩ := h
    obtain ⟨t, ht, rfl⟩ := hs
    obtain ⟨N, E, rfl, h1, h2, h3⟩ := prints_fin hok ht
    refine ⟨_, neg, N, E, rfl, ?_, h1, h2, h3⟩
    cases neg
    · right; exact ⟨by simp [Dbl.geZero], rfl⟩
    · left
      have := hz rfl
      exact ⟨by simp [Dbl.geZero, this], rfl⟩

/-- The text of a complex number reads back. -/
theorem complex_reads {re im : Dbl} (hr : Plain re) (hi : Plain im) {s : Str} (h : ComplexText re im s) :
    (∃ d d', readComplex s = some (d, d') ∧ Determines d re ∧ Determines d' im) ∧ s ≠ [] ∧ ' ' ∉ s ∧ s.length ≤ 49 := by
  obtain ⟨a, b, ha, hb, rfl⟩ := h
  obtain ⟨p1, n1, N1, E1, rfl, q1, r1, t1, d1⟩ := signed_plain hr ha
  obtain ⟨p2, n2, N2, E2, rfl, q2, r2, t2, d2⟩ := signed_plain hi hb
  have w1 := sciText_length (neg := n1) r1 t1
  have w2 := sciText_length (neg := n2) r2 t2
  have hpre : ∀ {p : Str} {n : Bool}, (p = [] ∧ n = true ∨ p = ['+'] ∧ n = false) → (p = [] ∨ p = ['+'] ∧ n = false) := by
    rintro p n (⟨h, -⟩ | h)
    · exact Or.inl h
    · exact Or.inr h
  have hsecond : ∃ c s', p2 ++ sciText 16 n2 N2 E2 ++ ['j'] = c :: s' ∧ (c = '+' ∨ c = '-') := by
    rcases q2 with ⟨rfl, rfl⟩ | ⟨rfl, rfl⟩
    · refine ⟨'-', (sciText 16 true N2 E2).tail ++ ['j'], ?_, Or.inr rfl⟩
      unfold sciText
      simp only [if_true, List.nil_append, List.cons_append, List.append_assoc, List.tail_cons]
    · exact ⟨'+', _, rfl, Or.inl rfl⟩
  obtain ⟨c, s', hc, hcs⟩ := hsecond
  have hj : ∀ (c : Char) (s : Str), ['j'] = c :: s → isDig c = false := by
    intro c s h; cases h; rfl
  have k2 : readNum (p2 ++ sciText 16 n2 N2 E2 ++ ['j']) = some (sg n2 * N2 * (10 : ℝ) ^ (E2 - 16), ['j']) := by
    rw [List.append_assoc]; exact readNum_sci r2 hj (hpre q2)
  have k1 : readNum (p1 ++ (sciText 16 n1 N1 E1 ++ (p2 ++ sciText 16 n2 N2 E2 ++ ['j']))) =
      some (sg n1 * N1 * (10 : ℝ) ^ (E1 - 16), p2 ++ sciText 16 n2 N2 E2 ++ ['j']) := by
    refine readNum_sci r1 ?_ (hpre q1)
    intro c' t h
    rw [hc] at h
    cases h
    rcases hcs with rfl | rfl <;> rfl
  refine ⟨⟨_, _, ?_, d1, d2⟩, ?_, ?_, ?_⟩
  · rw [show p1 ++ sciText 16 n1 N1 E1 ++ (p2 ++ sciText 16 n2 N2 E2) ++ ['j'] = p1 ++ (sciText 16 n1 N1 E1 ++ (p2 ++ sciText 16 n2 N2 E2 ++ ['j'])) by
      simp only [List.append_assoc]]
    unfold readComplex
    rw [k1, hc]
    dsimp only
    rw [if_pos hcs, ← hc, k2]
    rfl
  · simp
  · intro h
    simp only [List.mem_append, List.mem_singleton] at h
    have hp : ∀ {p : Str} {n : Bool}, (p = [] ∧ n = true ∨ p = ['+'] ∧ n = false) → ' ' ∉ p := by
      rintro p n (⟨rfl, -⟩ | ⟨rfl, -⟩) <;> simp
    rcases h with ((h | h) | (h | h)) | h
    · exact hp q1 h
    · exact sciText_noblank h
    · exact hp q2 h
    · exact sciText_noblank h
    · simp at h
  · have hl : ∀ {p : Str} {n : Bool}, (p = [] ∧ n = true ∨ p = ['+'] ∧ n = false) → p.length + (if n then 1 else 0) ≤ 1 := by
      rintro p n (⟨rfl, rfl⟩ | ⟨rfl, rfl⟩) <;> simp
    have := hl q1
    have := hl q2
    simp only [List.length_append, List.length_cons, List.length_nil]
    omega

/-- The text of an entry: at least one blank, then a word that reads back. -/
theorem field_word {f : Field} (hf : PlainField f) {s : Str} (h : FieldText f s) :
    ∃ (k : Nat) (w : Str), s = List.replicate (k + 1) ' ' ++ w ∧ w ≠ [] ∧ ' ' ∉ w ∧ ReadsBack w f := by
  have hset : ∀ {n : Nat} {t : Str}, t.length < n → setw n t = List.replicate (n - t.length - 1 + 1) ' ' ++ t := by
    intro n t ht
    unfold setw
    rw [show n - t.length - 1 + 1 = n - t.length by omega]
  cases f with
  | real x =>
    obtain ⟨hx, hg⟩ := hf
    obtain ⟨t, ht, rfl⟩ := h
    cases x with
    | inf => exact absurd hx id
    | nan => exact absurd hx id
    | fin neg m e =>
      obtain ⟨hok, hz⟩ := hx
      obtain ⟨N, E, rfl, h1, h2, h3⟩ := prints_fin hok ht
      have hneg : neg = false := by
        cases neg
        · rfl
        · have := hz rfl
          simp [Dbl.geZero, this] at hg
      subst hneg
      have hl := sciText_length (neg := false) h1 h2
      refine ⟨_, _, hset (by simp at hl; omega), sciText_ne_nil, sciText_noblank, _, ?_, h3⟩
      unfold readReal
      have := readNum_sci (neg := false) (E := E) h1 (rest := []) (pre := []) (by intro c s h; cases h) (Or.inl rfl)
      rw [List.nil_append, List.append_nil] at this
      rw [this]
  | index n =>
    have hl : (Nat.toDigits 10 n).length ≤ 9 := (Nat.length_toDigits_le_iff (by decide) (by decide)).2 hf
    refine ⟨_, _, h.trans (hset (by omega)), Nat.toDigits_ne_nil, ?_, Nat.toDigits_ne_nil, ?_, digitsNum_toDigits n⟩
    · intro hb
      have := toDigits_isDig _ hb
      simp [isDig] at this
    · rw [List.all_eq_true]; exact toDigits_isDig
  | cplx re im =>
    obtain ⟨t, ht, rfl⟩ := h
    obtain ⟨h1, h2, h3, h4⟩ := complex_reads hf.1 hf.2 ht
    exact ⟨_, _, hset (by omega), h2, h3, h1⟩

theorem fields_words {fs : List Field} (hf : ∀ f ∈ fs, PlainField f) {s : Str} (h : FieldsText fs s) :
    (s = [] ∨ ∃ t, s = ' ' :: t) ∧ List.Forall₂ ReadsBack (words s) fs := by
  induction fs generalizing s with
  | nil => rw [show s = [] from h]; exact ⟨Or.inl rfl, by simp [words]⟩
  | cons f fs ih =>
    obtain ⟨a, b, ha, hb, rfl⟩ := h
    obtain ⟨k, w, rfl, h1, h2, h3⟩ := field_word (hf f (by simp)) ha
    obtain ⟨i1, i2⟩ := ih (fun f hf' => hf f (by simp [hf'])) hb
    refine ⟨Or.inr ⟨List.replicate k ' ' ++ w ++ b, by rw [List.replicate_succ]; simp⟩, ?_⟩
    rw [List.append_assoc, words_blanks, words_tok h1 h2 i1]
    exact List.Forall₂.cons h3 i2

/-- **C90.** Every row of the elastic and of the breakup table, split at blanks, gives back its entries: every word is read as one entry,
and the decimal number determines the double it was printed from (no other double is as near). -/
theorem C90_row_reads_back {fs : List Field} (hf : ∀ f ∈ fs, PlainField f) {s : Str} (h : RowText fs s) : List.Forall₂ ReadsBack (words s) fs := by
  obtain ⟨t, ht, rfl⟩ := h
  rw [words_blank]
  exact (fields_words hf ht).2

/-- A decimal determines one double only. -/
theorem determines_unique {d : ℝ} {x y : Dbl} (hx : Plain x) (hy : Plain y) (h1 : Determines d x) (h2 : Determines d y) : x = y := by
  cases x with
  | inf => exact absurd hx id
  | nan => exact absurd hx id
  | fin n m e =>
  cases y with
  | inf => exact absurd hy id
  | nan => exact absurd hy id
  | fin n' m' e' =>
    have hv : dblValue n m e = dblValue n' m' e' := by
      by_contra hne
      have a := h1 n' m' e' hy.1 (fun h => hne h.symm)
      have b := h2 n m e hx.1 hne
      linarith
    unfold dblValue at hv
    obtain ⟨⟨a1, a2, a3, a4⟩, az⟩ := hx
    obtain ⟨⟨b1, b2, b3, b4⟩, bz⟩ := hy
    have hp : (0 : ℝ) < 2 ^ e := by positivity
    have hp' : (0 : ℝ) < 2 ^ e' := by positivity
    have hm : (0 : ℝ) ≤ m := by positivity
    have hm' : (0 : ℝ) ≤ m' := by positivity
    have key : (m : ℝ) * 2 ^ e = m' * 2 ^ e' → m = m' ∧ e = e' := by
      intro h
      have aux : ∀ (m m' : Nat) (e e' : Int), m < 2 ^ 53 → m' < 2 ^ 53 → -1074 ≤ e → -1074 ≤ e' → (2 ^ 52 ≤ m ∨ e = -1074) → (2 ^ 52 ≤ m' ∨ e' = -1074) →
          (m : ℝ) * 2 ^ e = m' * 2 ^ e' → e ≤ e' → m = m' ∧ e = e' := by
        intro m m' e e' a1 b1 a2 b2 a4 b4 h hle
        obtain ⟨k, rfl⟩ := Int.le.dest hle
        rw [zpow_add₀ (by norm_num), zpow_natCast] at h
        have hp : (0 : ℝ) < 2 ^ e := by positivity
        have hmm : (m : ℝ) = (m' * 2 ^ k : Nat) := by
          push_cast
          have : (m : ℝ) * 2 ^ e = (m' * 2 ^ k) * 2 ^ e := by rw [h]; ring
          exact mul_right_cancel₀ hp.ne' this
        have hmm : m = m' * 2 ^ k := by exact_mod_cast hmm
        rcases Nat.eq_zero_or_pos k with rfl | hk
        · exact ⟨by simpa using hmm, by simp⟩
        · have hb : 2 ^ 52 ≤ m' := by
            rcases b4 with h | h
            · exact h
            · omega
          have : 2 ^ 52 * 2 ^ 1 ≤ m' * 2 ^ k := Nat.mul_le_mul hb (Nat.pow_le_pow_right (by norm_num) hk)
          rw [← hmm] at this
          omega
      rcases le_total e e' with hle | hle
      · exact aux m m' e e' a1 b1 a2 b2 a4 b4 h hle
      · obtain ⟨c1, c2⟩ := aux m' m e' e b1 a1 b2 a2 b4 a4 h.symm hle
        exact ⟨c1.symm, c2.symm⟩
    have hv1 : (0 : ℝ) ≤ m * 2 ^ e := by positivity
    have hv2 : (0 : ℝ) ≤ m' * 2 ^ e' := by positivity
    cases n <;> cases n'
    · simp only [Bool.false_eq_true, if_false, one_mul] at hv
      obtain ⟨rfl, rfl⟩ := key hv; rfl
    · simp only [Bool.false_eq_true, if_false, if_true, one_mul, neg_mul] at hv
      have hz : (m' : ℝ) * 2 ^ e' = 0 := by linarith
      have : (m' : ℝ) = 0 := by
        rcases mul_eq_zero.1 hz with h | h
        · exact h
        · exact absurd h hp'.ne'
      exact absurd (by exact_mod_cast this) (bz rfl)
    · simp only [Bool.false_eq_true, if_false, if_true, one_mul, neg_mul] at hv
      have hz : (m : ℝ) * 2 ^ e = 0 := by linarith
      have : (m : ℝ) = 0 := by
        rcases mul_eq_zero.1 hz with h | h
        · exact h
        · exact absurd h hp.ne'
      exact absurd (by exact_mod_cast this) (az rfl)
    · simp only [if_true, one_mul, neg_mul, neg_inj] at hv
      obtain ⟨rfl, rfl⟩ := key hv; rfl

/-- Kind of an entry. -/
def Field.kind : Field → Nat
  | .real _ => 0
  | .index _ => 1
  | .cplx _ _ => 2

theorem reads_unique {w : Str} {f g : Field} (hf : PlainField f) (hg : PlainField g) (hk : f.kind = g.kind) (h1 : ReadsBack w f) (h2 : ReadsBack w g) :
    f = g := by
  cases f <;> cases g <;> try (exfalso; revert hk; simp [Field.kind]; done)
  · obtain ⟨d, a, b⟩ := h1
    obtain ⟨d', a', b'⟩ := h2
    rw [a] at a'; cases a'
    rw [determines_unique hf.1 hg.1 b b']
  · rw [← h1.2.2, ← h2.2.2]
  · obtain ⟨d, e, a, b, c⟩ := h1
    obtain ⟨d', e', a', b', c'⟩ := h2
    rw [a] at a'; cases a'
    rw [determines_unique hf.1 hg.1 b b', determines_unique hf.2 hg.2 c c']

/-- **C90.** Two rows of a table with the same text hold the same numbers, bit for bit. -/
theorem C90_row_lossless {fs gs : List Field} (hf : ∀ f ∈ fs, PlainField f) (hg : ∀ f ∈ gs, PlainField f) (hk : fs.map Field.kind = gs.map Field.kind)
    {s : Str} (h1 : RowText fs s) (h2 : RowText gs s) : fs = gs := by
  have a := C90_row_reads_back hf h1
  have b := C90_row_reads_back hg h2
  clear h1 h2
  generalize words s = ws at a b
  induction a generalizing gs with
  | nil => cases b; rfl
  | cons h t ih =>
    cases b with
    | cons h' t' =>
      simp only [List.map_cons, List.cons.injEq] at hk
      rw [reads_unique (hf _ (by simp)) (hg _ (by simp)) hk.1 h h', ih (fun f hf' => hf f (by simp [hf'])) (fun f hf' => hg f (by simp [hf'])) hk.2 t']

theorem rows_inj {α : Type} {f g : Nat → Nat → α} {n m : Nat}
    (h : (List.range n).flatMap (fun r => (List.range m).map (f r)) = (List.range n).flatMap fun r => (List.range m).map (g r)) :
    ∀ r < n, ∀ c < m, f r c = g r c := by
  induction n with
  | zero => intro r hr; omega
  | succ n ih =>
    rw [List.range_succ, List.flatMap_append, List.flatMap_append] at h
    obtain ⟨h1, h2⟩ := List.append_inj' h (by simp)
    intro r hr c hc
    rcases Nat.lt_succ_iff_lt_or_eq.1 hr with hr | rfl
    · exact ih h1 r hr c hc
    · simp only [List.flatMap_cons, List.flatMap_nil, List.append_nil] at h2
      have := List.map_inj_left.1 h2 c (List.mem_range.2 hc)
      exact this

/-- **C90, elastic table.** The row of an energy determines its lab and c.m. energy, its bin and every amplitude, bit for bit. -/
theorem C90_elastic_row {T E T' E' : Dbl} {qw qw' nd nq q : Nat} {U U' : Nat → Dbl × Dbl} {s : Str}
    (hT : Plain T ∧ T.geZero) (hE : Plain E ∧ E.geZero) (hq : qw < 10 ^ 9) (hU : ∀ i, Plain (U i).1 ∧ Plain (U i).2)
    (hT' : Plain T' ∧ T'.geZero) (hE' : Plain E' ∧ E'.geZero) (hq' : qw' < 10 ^ 9) (hU' : ∀ i, Plain (U' i).1 ∧ Plain (U' i).2)
    (h : RowText (elasticFields T E qw U nd nq q) s) (h' : RowText (elasticFields T' E' qw' U' nd nq q) s) :
    T = T' ∧ E = E' ∧ qw = qw' ∧ ∀ r < nd, ∀ c < nd, U (r * nd * nq + c * nq + q) = U' (r * nd * nq + c * nq + q) := by
  have hplain : ∀ {T E : Dbl} {qw : Nat} {U : Nat → Dbl × Dbl}, Plain T ∧ T.geZero → Plain E ∧ E.geZero → qw < 10 ^ 9 → (∀ i, Plain (U i).1 ∧ Plain (U i).2) →
      ∀ f ∈ elasticFields T E qw U nd nq q, PlainField f := by
    intro T E qw U hT hE hq hU f hf
    unfold elasticFields at hf
    simp only [List.cons_append, List.nil_append, List.mem_cons, List.mem_map] at hf
    rcases hf with rfl | rfl | rfl | ⟨u, hu, rfl⟩
    · exact hT
    · exact hE
    · exact hq
    · unfold uRow at hu
      simp only [List.mem_flatMap, List.mem_map] at hu
      obtain ⟨r, -, c, -, rfl⟩ := hu
      exact hU _
  have hk : (elasticFields T E qw U nd nq q).map Field.kind = (elasticFields T' E' qw' U' nd nq q).map Field.kind := by
    unfold elasticFields uRow
    simp only [List.map_append, List.map_cons, List.map_nil, List.map_map, List.map_flatMap, Field.kind]
    rfl
  have := C90_row_lossless (hplain hT hE hq hU) (hplain hT' hE' hq' hU') hk h h'
  unfold elasticFields at this
  simp only [List.cons_append, List.nil_append, List.cons.injEq, Field.real.injEq, Field.index.injEq] at this
  obtain ⟨a, b, c, d⟩ := this
  refine ⟨a, b, c, fun r hr c hc => ?_⟩
  have inj : Function.Injective (fun u : Dbl × Dbl => Field.cplx u.1 u.2) := by
    intro u v h; simp only [Field.cplx.injEq] at h; exact Prod.ext h.1 h.2
  have hrow := (List.map_injective_iff.2 inj) d
  unfold uRow at hrow
  exact rows_inj hrow r hr c hc

/-- **C91.** A complex number with a component minus zero is written in a form that is not a number: `+-0.0000000000000000e+00`. -/
theorem C91_minus_zero_malformed {re im : Dbl} {e : Int} {s : Str} (h : ComplexText re im s) :
    (re = .fin true 0 e → readComplex s = none) ∧ (Plain re → im = .fin true 0 e → readComplex s = none) := by
  have hz : ∀ {b rest : Str}, SignedText 16 (.fin true 0 e) b → ∃ t, b ++ rest = '+' :: '-' :: t ∧ readNum (b ++ rest) = none := by
    rintro b rest ⟨t, ht, rfl⟩
    have ht : t = sciText 16 true 0 0 := by simpa [Prints] using ht
    subst ht
    refine ⟨"0.0000000000000000e+00".toList ++ rest, rfl, rfl⟩
  constructor
  · rintro rfl
    obtain ⟨a, b, ha, hb, rfl⟩ := h
    obtain ⟨t, -, hn⟩ := hz (rest := b ++ ['j']) ha
    unfold readComplex
    rw [List.append_assoc, hn]
  · rintro hr rfl
    obtain ⟨a, b, ha, hb, rfl⟩ := h
    obtain ⟨p1, n1, N1, E1, rfl, q1, r1, t1, d1⟩ := signed_plain hr ha
    obtain ⟨t, h1, hn⟩ := hz (rest := ['j']) hb
    have k1 : readNum (p1 ++ (sciText 16 n1 N1 E1 ++ (b ++ ['j']))) = some (sg n1 * N1 * (10 : ℝ) ^ (E1 - 16), b ++ ['j']) := by
      refine readNum_sci r1 ?_ ?_
      · intro c s h
        rw [h1] at h; cases h; rfl
      · rcases q1 with ⟨h, -⟩ | h
        · exact Or.inl h
        · exact Or.inr h
    rw [show p1 ++ sciText 16 n1 N1 E1 ++ b ++ ['j'] = p1 ++ (sciText 16 n1 N1 E1 ++ (b ++ ['j'])) by simp only [List.append_assoc]]
    unfold readComplex
    rw [k1, h1]
    dsimp only
    rw [if_pos (Or.inl rfl), ← h1, hn]

/-- C91, what holds: every finite complex number without a minus zero is written as a complex number. -/
theorem C91_wellformed {re im : Dbl} (hr : Plain re) (hi : Plain im) {s : Str} (h : ComplexText re im s) : (readComplex s).isSome := by
  obtain ⟨⟨d, d', h, -⟩, -⟩ := complex_reads hr hi h
  rw [h]; rfl

/-! ### C92: the boundary file -/

/-- A line of the boundary file reads back as the rounded number. -/
theorem fixed_reads {neg : Bool} {N : Nat} : readFixed (fixedText 8 neg N) = some (sg neg * N / 10 ^ 8) := by
  have hdig : ∀ c ∈ padDigits 9 N, isDig c = true := padDigits_isDig
  have hnum := digitsNum_pad 9 N
  have hlen : 9 ≤ (padDigits 9 N).length := by unfold padDigits; simp only [List.length_append, List.length_replicate]; omega
  set d := padDigits 9 N with hd
  have htxt : fixedText 8 neg N = (if neg then '-' else '+') :: (d.take (d.length - 8) ++ '.' :: d.drop (d.length - 8)) := by
    unfold fixedText
    show [if neg then '-' else '+'] ++ d.take (d.length - 8) ++ ['.'] ++ d.drop (d.length - 8) = _
    simp
  have hs : optSign (fixedText 8 neg N) = (neg, d.take (d.length - 8) ++ '.' :: d.drop (d.length - 8)) := by
    rw [htxt]; cases neg <;> rfl
  obtain ⟨t1, t2⟩ := takeWhile_dig (a := d.take (d.length - 8)) (rest := '.' :: d.drop (d.length - 8))
    (fun c hc => hdig c (List.mem_of_mem_take hc)) (by intro c s h; cases h; rfl)
  have hall : (d.drop (d.length - 8)).all isDig = true := by
    rw [List.all_eq_true]; exact fun c hc => hdig c (List.mem_of_mem_drop hc)
  unfold readFixed
  rw [hs]
  dsimp only
  rw [t1, t2, show expect '.' ('.' :: d.drop (d.length - 8)) = some (d.drop (d.length - 8)) from rfl]
  dsimp only
  rw [if_pos, List.take_append_drop, hnum, List.length_drop, show d.length - (d.length - 8) = 8 by omega]
  refine ⟨?_, hall⟩
  intro h
  have := congrArg List.length h
  rw [List.length_take] at this
  simp at this
  omega

/-- C92, what holds: every line of the boundary file is a decimal number within half of 1e-8 of the boundary of the grid. -/
theorem C92_boundary {bs : List (Bool × Nat × Int)} {ls : List Str} (h : List.Forall₂ (fun b s => BoundaryLine b.1 b.2.1 b.2.2 s) bs ls) :
    List.Forall₂ (fun b s => ∃ d, readFixed s = some d ∧ |d - dblValue b.1 b.2.1 b.2.2| ≤ 5e-9) bs ls := by
  refine List.Forall₂.imp ?_ h
  rintro ⟨neg, m, e⟩ s ⟨N, h, rfl⟩
  refine ⟨_, fixed_reads, ?_⟩
  unfold FixedRound at h
  have hh : |(N : ℝ) / 10 ^ 8 - m * 2 ^ e| ≤ 5e-9 := by
    rw [abs_sub_comm]
    refine le_trans ?_ (le_trans h ?_)
    · exact le_of_eq (by push_cast; rfl)
    · norm_num
  have hsplit : sg neg * N / 10 ^ 8 - dblValue neg m e = (if neg then -1 else 1) * ((N : ℝ) / 10 ^ 8 - m * 2 ^ e) := by
    unfold sg dblValue; ring
  dsimp only
  rw [hsplit, abs_mul]
  cases neg <;> simpa using hh

/-- **C92 is false.** Two different grids of any number of bins give the same file: a first boundary 2^-30 MeV (1e-9) higher leaves no trace. -/
theorem C92_grids_collide (tail : List (Bool × Nat × Int)) (ls : List Str)
    (h : List.Forall₂ (fun b s => BoundaryLine b.1 b.2.1 b.2.2 s) tail ls) :
    ∃ (b b' : Nat × Int) (l : Str), (Dbl.fin false b.1 b.2).OK ∧ (Dbl.fin false b'.1 b'.2).OK ∧ dblValue false b.1 b.2 < dblValue false b'.1 b'.2 ∧
      dblValue false b'.1 b'.2 ≤ 1e-8 ∧
      List.Forall₂ (fun b s => BoundaryLine b.1 b.2.1 b.2.2 s) ((false, b.1, b.2) :: tail) (l :: ls) ∧
      List.Forall₂ (fun b s => BoundaryLine b.1 b.2.1 b.2.2 s) ((false, b'.1, b'.2) :: tail) (l :: ls) := by
  refine ⟨(0, -1074), (2 ^ 52, -82), fixedText 8 false 0, by norm_num [Dbl.OK], by norm_num [Dbl.OK], ?_, ?_, .cons ⟨0, ?_, rfl⟩ h, .cons ⟨0, ?_, rfl⟩ h⟩
  · unfold dblValue; norm_num
  · unfold dblValue; norm_num
  · unfold FixedRound; norm_num
  · unfold FixedRound; norm_num

/-- The whole of C92 fails: the file of boundaries is not injective on grids. -/
theorem C92_false : ¬ ∀ (g g' : List (Bool × Nat × Int)) (ls : List Str), (∀ b ∈ g, (Dbl.fin b.1 b.2.1 b.2.2).OK) → (∀ b ∈ g', (Dbl.fin b.1 b.2.1 b.2.2).OK) →
    List.Forall₂ (fun b s => BoundaryLine b.1 b.2.1 b.2.2 s) g ls → List.Forall₂ (fun b s => BoundaryLine b.1 b.2.1 b.2.2 s) g' ls → g = g' := by
  intro h
  obtain ⟨b, b', l, h1, h2, h3, -, h4, h5⟩ := C92_grids_collide [] [] .nil
  have := h _ _ _ (by simpa using h1) (by simpa using h2) h4 h5
  simp only [List.cons.injEq, Prod.mk.injEq, true_and, and_true] at this
  rw [this.1, this.2] at h3
  exact lt_irrefl _ h3

/-! ### the hypotheses are met -/

/-- 1.5 is a plain double; its text. -/
example : Plain (.fin false (3 * 2 ^ 51) (-52)) ∧ Prints 16 (.fin false (3 * 2 ^ 51) (-52)) "1.5000000000000000e+00".toList := by
  refine ⟨⟨by norm_num [Dbl.OK], by simp⟩, ?_⟩
  simp only [Prints]; rw [if_neg (by norm_num)]
  refine ⟨15 * 10 ^ 15, 0, ⟨by norm_num, by norm_num, ?_⟩, by decide⟩
  norm_num

/-- An elastic row with one amplitude 1.5 - 0i is a text the theorems speak about. -/
example : ∃ s, RowText (elasticFields (.fin false (3 * 2 ^ 51) (-52)) (.fin false 0 (-1074)) 7 (fun _ => (.fin true (3 * 2 ^ 51) (-52), .fin false 0 (-1074))) 1 1 0) s := by
  have hp : ∀ neg, ∃ t, Prints 16 (.fin neg (3 * 2 ^ 51) (-52)) t := by
    intro neg
    refine ⟨sciText 16 neg (15 * 10 ^ 15) 0, ?_⟩
    simp only [Prints]; rw [if_neg (by norm_num)]
    exact ⟨15 * 10 ^ 15, 0, ⟨by norm_num, by norm_num, by norm_num⟩, rfl⟩
  have h0 : ∃ t, Prints 16 (.fin false 0 (-1074)) t := ⟨sciText 16 false 0 0, by simp [Prints]⟩
  obtain ⟨a, ha⟩ := hp false
  obtain ⟨b, hb⟩ := hp true
  obtain ⟨c, hc⟩ := h0
  exact ⟨_, _, ⟨_, _, ⟨a, ha, rfl⟩, ⟨_, _, ⟨c, hc, rfl⟩, ⟨_, _, rfl, ⟨_, _, ⟨_, ⟨_, _, ⟨b, hb, rfl⟩, ⟨c, hc, rfl⟩, rfl⟩, rfl⟩, rfl, rfl⟩, rfl⟩, rfl⟩, rfl⟩, rfl⟩

end TicTac
end
