import Verif.Spec.Format
import Mathlib.Tactic.Linarith
import Mathlib.Tactic.Ring
import Mathlib.Tactic.NormNum
import Mathlib.Tactic.Positivity
import Mathlib.Tactic.FieldSimp
import Mathlib.Algebra.Order.Field.Power
/-! Lemmas for the text of numbers: spacing of doubles, digits, words. -/
noncomputable section
namespace TicTac
open Spec

/-! ### spacing of doubles -/

/-- Two different magnitudes of doubles differ by at least the fraction 2^-53 of each of them. -/
theorem dbl_gap {n n' : Bool} {m m' : Nat} {e e' : Int} (h : (Dbl.fin n m e).OK) (h' : (Dbl.fin n' m' e').OK)
    (hne : (m : ℝ) * 2 ^ e ≠ m' * 2 ^ e') : (m : ℝ) * 2 ^ e / 2 ^ 53 ≤ |(m : ℝ) * 2 ^ e - m' * 2 ^ e'| := by
  obtain ⟨h1, h2, h3, h4⟩ := h
  obtain ⟨h1', h2', h3', h4'⟩ := h'
  have hm : (m : ℝ) < 2 ^ 53 := by exact_mod_cast h1
  rcases le_or_gt e e' with hle | hlt
  · obtain ⟨k, rfl⟩ := Int.le.dest hle
    have he : (0 : ℝ) < 2 ^ e := by positivity
    have e1 : (m' : ℝ) * 2 ^ (e + (k : Int)) = (m' * 2 ^ k : Nat) * 2 ^ e := by
      rw [zpow_add₀ (by norm_num), zpow_natCast]; push_cast; ring
    rw [e1] at hne ⊢
    have hi : ((m : Int) - ((m' * 2 ^ k : Nat) : Int)) ≠ 0 := by
      intro h0
      apply hne
      have : (m : Int) = ((m' * 2 ^ k : Nat) : Int) := by omega
      have : m = m' * 2 ^ k := by exact_mod_cast this
      rw [← this]
    have h1 : (1 : ℝ) ≤ |(m : ℝ) - ((m' * 2 ^ k : Nat) : ℝ)| := by
      have := Int.one_le_abs hi
      have h2 : ((1 : Int) : ℝ) ≤ ((|(m : Int) - ((m' * 2 ^ k : Nat) : Int)| : Int) : ℝ) := by exact_mod_cast this
      rw [Int.cast_abs] at h2
      push_cast at h2 ⊢
      exact h2
    rw [← sub_mul, abs_mul, abs_of_pos he]
    have : (m : ℝ) * 2 ^ e / 2 ^ 53 ≤ 1 * 2 ^ e := by
      rw [div_le_iff₀ (by positivity)]
      nlinarith
    nlinarith
  · obtain ⟨k, rfl⟩ := Int.le.dest (Int.le_of_lt hlt)
    have hk : 1 ≤ k := by omega
    have hm52 : 2 ^ 52 ≤ m := by
      rcases h4 with h4 | h4
      · exact h4
      · omega
    have he : (0 : ℝ) < 2 ^ e' := by positivity
    have e1 : (m : ℝ) * 2 ^ (e' + (k : Int)) = (m * 2 ^ k : Nat) * 2 ^ e' := by
      rw [zpow_add₀ (by norm_num), zpow_natCast]; push_cast; ring
    rw [e1]
    have hM : 2 ^ 53 ≤ m * 2 ^ k := by
      calc 2 ^ 53 = 2 ^ 52 * 2 ^ 1 := by norm_num
        _ ≤ m * 2 ^ k := Nat.mul_le_mul hm52 (Nat.pow_le_pow_right (by norm_num) hk)
    have hM' : (2 : ℝ) ^ 53 ≤ ((m * 2 ^ k : Nat) : ℝ) := by exact_mod_cast hM
    have hm' : (m' : ℝ) ≤ 2 ^ 53 - 1 := by
      have : m' + 1 ≤ 2 ^ 53 := h1'
      have : (m' : ℝ) + 1 ≤ 2 ^ 53 := by exact_mod_cast this
      linarith
    generalize ((m * 2 ^ k : Nat) : ℝ) = M at *
    rw [← sub_mul, abs_mul, abs_of_pos he, abs_of_nonneg (by linarith), mul_div_right_comm]
    apply mul_le_mul_of_nonneg_right _ he.le
    rw [div_le_iff₀ (by positivity)]
    rw [show (2 : ℝ) ^ 53 = 9007199254740992 by norm_num] at hM' hm' ⊢
    nlinarith

/-- Rounding to 17 digits has an error below the spacing of doubles. -/
theorem sci_unit {v : ℝ} {N : Nat} {E : Int} (h : SciRound 16 v N E) : (10 : ℝ) ^ (E - 16) < v / 2 ^ 53 := by
  obtain ⟨h1, -, h3⟩ := h
  have hu : (0 : ℝ) < 10 ^ (E - ((16 : Nat) : Int)) := by positivity
  rw [show ((16 : Nat) : Int) = 16 from rfl] at hu h3
  have hN : (10 : ℝ) ^ 16 ≤ N := by exact_mod_cast h1
  have := (abs_le.1 h3).1
  rw [lt_div_iff₀ (by positivity)]
  generalize (10 : ℝ) ^ (E - 16) = u at *
  rw [show (2 : ℝ) ^ 53 = 9007199254740992 by norm_num]
  rw [show (10 : ℝ) ^ 16 = 10000000000000000 by norm_num] at hN
  nlinarith

/-- A decimal within half a unit of its 17th digit determines the double. -/
theorem determines_of_round {neg : Bool} {m : Nat} {e : Int} (hok : (Dbl.fin neg m e).OK) {N : Nat} {E : Int}
    (h : SciRound 16 (m * (2 : ℝ) ^ e) N E) : Determines (sg neg * N * (10 : ℝ) ^ (E - 16)) (.fin neg m e) := by
  intro neg' m' e' hok' hne
  have hu := sci_unit h
  obtain ⟨-, -, h3⟩ := h
  rw [show ((16 : Nat) : Int) = 16 from rfl] at h3
  have h0 : (0 : ℝ) < 10 ^ (E - 16) := by positivity
  unfold dblValue at hne ⊢
  have hv' : (0 : ℝ) ≤ m' * 2 ^ e' := by positivity
  have hgap : (m : ℝ) * 2 ^ e / 2 ^ 53 ≤ |(if neg then (-1 : ℝ) else 1) * (m * 2 ^ e) - (if neg' then (-1 : ℝ) else 1) * (m' * 2 ^ e')| := by
    have hv : (0 : ℝ) ≤ m * 2 ^ e := by positivity
    have hbig : (m : ℝ) * 2 ^ e / 2 ^ 53 ≤ m * 2 ^ e + m' * 2 ^ e' := by
      have : (m : ℝ) * 2 ^ e / 2 ^ 53 ≤ m * 2 ^ e := div_le_self hv (by norm_num)
      linarith
    have hpos : (0 : ℝ) ≤ m * 2 ^ e + m' * 2 ^ e' := by linarith
    cases neg <;> cases neg'
    · simp only [Bool.false_eq_true, if_false, one_mul] at hne ⊢
      exact dbl_gap hok hok' (fun hh => hne hh.symm)
    · simp only [Bool.false_eq_true, if_false, if_true, one_mul, neg_mul, sub_neg_eq_add]
      rw [abs_of_nonneg hpos]; exact hbig
    · simp only [Bool.false_eq_true, if_false, if_true, one_mul, neg_mul]
      rw [← neg_add', abs_neg, abs_of_nonneg hpos]; exact hbig
    · simp only [if_true, neg_mul, one_mul] at hne ⊢
      rw [← neg_sub', abs_neg]
      exact dbl_gap hok hok' (fun hh => hne (by rw [hh]))
  have hd : |sg neg * N * (10 : ℝ) ^ (E - 16) - (if neg then (-1 : ℝ) else 1) * (m * 2 ^ e)| ≤ (10 : ℝ) ^ (E - 16) / 2 := by
    have : sg neg * N * (10 : ℝ) ^ (E - 16) - (if neg then (-1 : ℝ) else 1) * (m * 2 ^ e) = -(sg neg * (m * 2 ^ e - N * (10 : ℝ) ^ (E - 16))) := by
      unfold sg; ring
    rw [this, abs_neg, abs_mul]
    have : |sg neg| = 1 := by unfold sg; cases neg <;> simp
    rw [this, one_mul]
    exact h3
  have htri := abs_sub_le ((if neg then (-1 : ℝ) else 1) * (m * 2 ^ e)) (sg neg * N * (10 : ℝ) ^ (E - 16)) ((if neg' then (-1 : ℝ) else 1) * (m' * 2 ^ e'))
  rw [abs_sub_comm ((if neg then (-1 : ℝ) else 1) * (m * 2 ^ e)) (sg neg * N * (10 : ℝ) ^ (E - 16))] at htri
  linarith

theorem determines_zero {neg : Bool} {e : Int} (s : ℝ) : Determines (s * (0 : Nat) * (10 : ℝ) ^ ((0 : Int) - 16)) (.fin neg 0 e) := by
  intro neg' m' e' _ hne
  unfold dblValue at hne ⊢
  simp only [Nat.cast_zero, mul_zero, zero_mul, sub_zero, abs_zero, zero_sub, abs_neg] at hne ⊢
  exact abs_pos.2 hne

/-! ### digits -/

theorem isDig_of_isDigit {c : Char} (h : c.isDigit) : isDig c = true := by
  simp only [Char.isDigit, Bool.and_eq_true, decide_eq_true_eq] at h
  simp only [isDig, Bool.and_eq_true, decide_eq_true_eq]
  exact h

theorem toDigits_isDig {n : Nat} : ∀ c ∈ Nat.toDigits 10 n, isDig c = true := fun _ hc =>
  isDig_of_isDigit (Nat.isDigit_of_mem_toDigits (by decide) (by decide) hc)

theorem padDigits_isDig {w n : Nat} : ∀ c ∈ padDigits w n, isDig c = true := by
  intro c hc
  unfold padDigits at hc
  rw [List.mem_append] at hc
  rcases hc with hc | hc
  · rw [(List.mem_replicate.1 hc).2]; rfl
  · exact toDigits_isDig c hc

theorem digitsNum_toDigits (n : Nat) : digitsNum (Nat.toDigits 10 n) = n :=
  Nat.ofDigitChars_toDigits (b := 10) (n := n) (by decide) (by decide)

theorem digitsNum_zeros (k : Nat) (s : Str) : digitsNum (List.replicate k '0' ++ s) = digitsNum s := by
  unfold digitsNum
  rw [List.foldl_append]
  congr 1
  induction k with
  | zero => rfl
  | succ k ih => rw [List.replicate_succ, List.foldl_cons]; exact ih

theorem digitsNum_pad (w n : Nat) : digitsNum (padDigits w n) = n := by
  unfold padDigits
  rw [digitsNum_zeros, digitsNum_toDigits]

theorem pad_length {w n : Nat} (hw : 0 < w) (h : n < 10 ^ w) : (padDigits w n).length = w := by
  have : (Nat.toDigits 10 n).length ≤ w := (Nat.length_toDigits_le_iff (by decide) hw).2 h
  unfold padDigits
  rw [List.length_append, List.length_replicate]
  omega

theorem pad_length_le {w n k : Nat} (hk : w ≤ k) (hk0 : 0 < k) (h : n < 10 ^ k) : (padDigits w n).length ≤ k := by
  have : (Nat.toDigits 10 n).length ≤ k := (Nat.length_toDigits_le_iff (by decide) hk0).2 h
  unfold padDigits
  rw [List.length_append, List.length_replicate]
  omega

theorem pad_ne_nil (w n : Nat) : padDigits w n ≠ [] := by
  unfold padDigits
  intro h
  exact Nat.toDigits_ne_nil (List.append_eq_nil_iff.1 h).2

theorem takeWhile_dig {a rest : Str} (ha : ∀ c ∈ a, isDig c = true) (hr : ∀ c s, rest = c :: s → isDig c = false) :
    (a ++ rest).takeWhile isDig = a ∧ (a ++ rest).dropWhile isDig = rest := by
  have h1 : rest.takeWhile isDig = [] ∧ rest.dropWhile isDig = rest := by
    cases rest with
    | nil => exact ⟨rfl, rfl⟩
    | cons c s => have := hr c s rfl; simp [this]
  constructor
  · rw [List.takeWhile_append_of_pos ha, h1.1, List.append_nil]
  · rw [List.dropWhile_append_of_pos ha, h1.2]

theorem optSign_dig {s : Str} (h : ∀ c t, s = c :: t → isDig c = true) : optSign s = (false, s) := by
  cases s with
  | nil => rfl
  | cons c t =>
    have := h c t rfl
    unfold optSign
    split
    · rename_i heq; cases heq; simp [isDig] at this
    · rename_i heq; cases heq; simp [isDig] at this
    · rfl

/-- Reading back the text of a number, with or without a plus sign. -/
theorem readNum_sci {neg : Bool} {N : Nat} {E : Int} (hN : N < 10 ^ 17) {rest pre : Str} (hr : ∀ c s, rest = c :: s → isDig c = false)
    (hpre : pre = [] ∨ (pre = ['+'] ∧ neg = false)) :
    readNum (pre ++ (sciText 16 neg N E ++ rest)) = some (sg neg * N * (10 : ℝ) ^ (E - 16), rest) := by
  have hlen := pad_length (w := 17) (by norm_num) hN
  obtain ⟨d, ds, hd⟩ := List.exists_cons_of_ne_nil (pad_ne_nil 17 N)
  have hdig : ∀ c ∈ padDigits 17 N, isDig c = true := padDigits_isDig
  have hnum := digitsNum_pad 17 N
  rw [hd] at hlen hdig hnum
  have hds : ds.length = 16 := by simpa using hlen
  have hd0 : isDig d = true := hdig d (by simp)
  have hbody : (optSign (pre ++ (sciText 16 neg N E ++ rest))) =
      (neg, d :: '.' :: (ds ++ 'e' :: (if E < 0 then '-' else '+') :: (padDigits 2 E.natAbs ++ rest))) := by
    have hs : sciText 16 neg N E = (if neg then ['-'] else []) ++ (d :: '.' :: (ds ++ 'e' :: (if E < 0 then '-' else '+') :: padDigits 2 E.natAbs)) := by
      unfold sciText
      show (if neg then ['-'] else []) ++ (padDigits 17 N).take 1 ++ ['.'] ++ (padDigits 17 N).drop 1 ++ ['e'] ++ [if E < 0 then '-' else '+'] ++ padDigits 2 E.natAbs = _
      rw [hd]
      simp
    rw [hs]
    cases neg
    · have hb : optSign ([] ++ (d :: '.' :: (ds ++ 'e' :: (if E < 0 then '-' else '+') :: padDigits 2 E.natAbs)) ++ rest) =
          (false, d :: '.' :: (ds ++ 'e' :: (if E < 0 then '-' else '+') :: (padDigits 2 E.natAbs ++ rest))) := by
        rw [optSign_dig]
        · simp
        · intro c t h
          simp only [List.nil_append, List.cons_append, List.cons.injEq] at h
          rw [← h.1]; exact hd0
      rcases hpre with rfl | ⟨rfl, -⟩
      · exact hb
      · simp only [Bool.false_eq_true, if_false, List.nil_append, List.cons_append, optSign, List.append_assoc]
    · rcases hpre with rfl | ⟨-, hf⟩
      · simp only [if_true, List.nil_append, List.cons_append, optSign, List.append_assoc]
      · cases hf
  have hsg : isDig (if E < 0 then '-' else '+') = false := by split <;> rfl
  have hse : optSign ((if E < 0 then '-' else '+') :: (padDigits 2 E.natAbs ++ rest)) = (decide (E < 0), padDigits 2 E.natAbs ++ rest) := by
    by_cases h : E < 0
    · rw [if_pos h, decide_eq_true h]; rfl
    · rw [if_neg h, decide_eq_false h]; rfl
  obtain ⟨t1, t2⟩ := takeWhile_dig (a := [d]) (rest := '.' :: (ds ++ 'e' :: (if E < 0 then '-' else '+') :: (padDigits 2 E.natAbs ++ rest)))
    (by simpa using hd0) (by intro c s h; cases h; rfl)
  obtain ⟨t3, t4⟩ := takeWhile_dig (a := ds) (rest := 'e' :: (if E < 0 then '-' else '+') :: (padDigits 2 E.natAbs ++ rest))
    (fun c hc => hdig c (by simp [hc])) (by intro c s h; cases h; rfl)
  obtain ⟨t5, t6⟩ := takeWhile_dig (a := padDigits 2 E.natAbs) (rest := rest) padDigits_isDig hr
  unfold readNum
  rw [hbody]
  dsimp only
  rw [show d :: '.' :: (ds ++ 'e' :: (if E < 0 then '-' else '+') :: (padDigits 2 E.natAbs ++ rest)) =
    [d] ++ '.' :: (ds ++ 'e' :: (if E < 0 then '-' else '+') :: (padDigits 2 E.natAbs ++ rest)) from rfl, t1, t2]
  rw [show expect '.' ('.' :: (ds ++ 'e' :: (if E < 0 then '-' else '+') :: (padDigits 2 E.natAbs ++ rest))) =
    some (ds ++ 'e' :: (if E < 0 then '-' else '+') :: (padDigits 2 E.natAbs ++ rest)) from rfl]
  dsimp only
  rw [t3, t4]
  rw [show expect 'e' ('e' :: (if E < 0 then '-' else '+') :: (padDigits 2 E.natAbs ++ rest)) =
    some ((if E < 0 then '-' else '+') :: (padDigits 2 E.natAbs ++ rest)) from rfl]
  dsimp only
  rw [hse]
  try dsimp only
  rw [t5, t6, if_neg (by simp [pad_ne_nil])]
  have e1 : digitsNum ([d] ++ ds) = N := hnum
  have e2 : sgi (decide (E < 0)) * (digitsNum (padDigits 2 E.natAbs) : Int) = E := by
    rw [digitsNum_pad]
    unfold sgi
    by_cases h : E < 0
    · rw [decide_eq_true h, if_pos rfl]; omega
    · rw [decide_eq_false h]; simp only [Bool.false_eq_true, if_false]; omega
  rw [e1, e2, hds]
  rfl

/-! ### words -/

theorem words_blank (s : Str) : words (' ' :: s) = words s := by
  unfold words
  rw [show (' ' :: s) = [] ++ ' ' :: s from rfl, List.splitOn_append_cons_self]
  simp

theorem words_blanks (k : Nat) (s : Str) : words (List.replicate k ' ' ++ s) = words s := by
  induction k with
  | zero => rfl
  | succ k ih => rw [List.replicate_succ, List.cons_append, words_blank, ih]

theorem words_tok {w rest : Str} (hw : w ≠ []) (hb : ' ' ∉ w) (hr : rest = [] ∨ ∃ s, rest = ' ' :: s) : words (w ++ rest) = w :: words rest := by
  rcases hr with rfl | ⟨s, rfl⟩
  · unfold words
    rw [List.append_nil]
    have : w.splitOn ' ' = [w] := by
      rw [List.splitOn_eq_splitOnP]
      apply List.splitOnP_eq_singleton
      intro x hx
      simp only [beq_eq_false_iff_ne]
      rintro rfl
      exact hb hx
    rw [this]
    simp [hw]
  · rw [words_blank]
    unfold words
    rw [List.splitOn_append_cons_self_of_not_mem hb, List.filter_cons_of_pos (by simpa using hw)]

end TicTac
end
