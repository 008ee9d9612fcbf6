import Verif.Model.Kinematics
import Verif.Spec.Kinematics
import Verif.Props.Record
/-! Text of numbers in any precision. -/
noncomputable section
namespace TicTac
open Spec

/-- Reading back the text of a number, with or without a plus sign. -/
theorem readNum_sciP (prec : Nat) {neg : Bool} {N : Nat} {E : Int} (hN : N < 10 ^ (prec + 1)) {rest pre : Str} (hr : ∀ c s, rest = c :: s → isDig c = false)
    (hpre : pre = [] ∨ (pre = ['+'] ∧ neg = false)) :
    readNum (pre ++ (sciText prec neg N E ++ rest)) = some (sg neg * N * (10 : ℝ) ^ (E - prec), rest) := by
  have hlen := pad_length (w := prec + 1) (by omega) hN
  obtain ⟨d, ds, hd⟩ := List.exists_cons_of_ne_nil (pad_ne_nil (prec + 1) N)
  have hdig : ∀ c ∈ padDigits (prec + 1) N, isDig c = true := padDigits_isDig
  have hnum := digitsNum_pad (prec + 1) N
  rw [hd] at hlen hdig hnum
  have hds : ds.length = prec := by simpa using hlen
  have hd0 : isDig d = true := hdig d (by simp)
  have hbody : (optSign (pre ++ (sciText prec neg N E ++ rest))) =
      (neg, d :: '.' :: (ds ++ 'e' :: (if E < 0 then '-' else '+') :: (padDigits 2 E.natAbs ++ rest))) := by
    have hs : sciText prec neg N E = (if neg then ['-'] else []) ++ (d :: '.' :: (ds ++ 'e' :: (if E < 0 then '-' else '+') :: padDigits 2 E.natAbs)) := by
      unfold sciText
      show (if neg then ['-'] else []) ++ (padDigits (prec + 1) N).take 1 ++ ['.'] ++ (padDigits (prec + 1) N).drop 1 ++ ['e'] ++ [if E < 0 then '-' else '+'] ++ padDigits 2 E.natAbs = _
      rw [hd]
      simp
    rw [hs]
    cases neg
    · have hb : optSign ([] ++ (d :: '.' :: (ds ++ 'e' :: (if E < 0 then '-' else '+') :: padDigits 2 E.natAbs)) ++ rest) =
          (false, d :: '.' :: (ds ++ 'e' :: (if E < 0 then '-' else '+') :: (padDigits 2 E.natAbs ++ rest))) := by
        rw [optSign_dig]
        · simp
        · intro c t h
          simp only [List.nil_append, List.cons_append, List.cons.injEq] at h
          rw [← h.1]; exact hd0
      rcases hpre with rfl | ⟨rfl, -⟩
      · exact hb
      · simp only [Bool.false_eq_true, if_false, List.nil_append, List.cons_append, optSign, List.append_assoc]
    · rcases hpre with rfl | ⟨-, hf⟩
      · simp only [if_true, List.nil_append, List.cons_append, optSign, List.append_assoc]
      · cases hf
  have hsg : isDig (if E < 0 then '-' else '+') = false := by split <;> rfl
  have hse : optSign ((if E < 0 then '-' else '+') :: (padDigits 2 E.natAbs ++ rest)) = (decide (E < 0), padDigits 2 E.natAbs ++ rest) := by
    by_cases h : E < 0
    · rw [if_pos h, decide_eq_true h]; rfl
    · rw [if_neg h, decide_eq_false h]; rfl
  obtain ⟨t1, t2⟩ := takeWhile_dig (a := [d]) (rest := '.' :: (ds ++ 'e' :: (if E < 0 then '-' else '+') :: (padDigits 2 E.natAbs ++ rest)))
    (by simpa using hd0) (by intro c s h; cases h; rfl)
  obtain ⟨t3, t4⟩ := takeWhile_dig (a := ds) (rest := 'e' :: (if E < 0 then '-' else '+') :: (padDigits 2 E.natAbs ++ rest))
    (fun c hc => hdig c (by simp [hc])) (by intro c s h; cases h; rfl)
  obtain ⟨t5, t6⟩ := takeWhile_dig (a := padDigits 2 E.natAbs) (rest := rest) padDigits_isDig hr
  unfold readNum
  rw [hbody]
  dsimp only
  rw [show d :: '.' :: (ds ++ 'e' :: (if E < 0 then '-' else '+') :: (padDigits 2 E.natAbs ++ rest)) =
    [d] ++ '.' :: (ds ++ 'e' :: (if E < 0 then '-' else '+') :: (padDigits 2 E.natAbs ++ rest)) from rfl, t1, t2]
  rw [show expect '.' ('.' :: (ds ++ 'e' :: (if E < 0 then '-' else '+') :: (padDigits 2 E.natAbs ++ rest))) =
    some (ds ++ 'e' :: (if E < 0 then '-' else '+') :: (padDigits 2 E.natAbs ++ rest)) from rfl]
  dsimp only
  rw [t3, t4]
  rw [show expect 'e' ('e' :: (if E < 0 then '-' else '+') :: (padDigits 2 E.natAbs ++ rest)) =
    some ((if E < 0 then '-' else '+') :: (padDigits 2 E.natAbs ++ rest)) from rfl]
  dsimp only
  rw [hse]
  try dsimp only
  rw [t5, t6, if_neg (by simp [pad_ne_nil])]
  have e1 : digitsNum ([d] ++ ds) = N := hnum
  have e2 : sgi (decide (E < 0)) * (digitsNum (padDigits 2 E.natAbs) : Int) = E := by
    rw [digitsNum_pad]
    unfold sgi
    by_cases h : E < 0
    · rw [decide_eq_true h, if_pos rfl]; omega
    · rw [decide_eq_false h]; simp only [Bool.false_eq_true, if_false]; omega
  rw [e1, e2, hds]

theorem sciTextP_chars {prec : Nat} {neg : Bool} {N : Nat} {E : Int} : ∀ c ∈ sciText prec neg N E, isDig c = true ∨ c = '-' ∨ c = '.' ∨ c = 'e' ∨ c = '+' := by
  intro c hc
  unfold sciText at hc
  simp only [List.mem_append, List.mem_singleton] at hc
  have hp : ∀ c ∈ padDigits (prec + 1) N, isDig c = true := padDigits_isDig
  rcases hc with (((((hc | hc) | hc) | hc) | hc) | hc) | hc
  · cases neg <;> simp at hc; exact Or.inr (Or.inl hc)
  · exact Or.inl (hp c (List.mem_of_mem_take hc))
  · exact Or.inr (Or.inr (Or.inl hc))
  · exact Or.inl (hp c (List.mem_of_mem_drop hc))
  · exact Or.inr (Or.inr (Or.inr (Or.inl hc)))
  · split at hc
    · exact Or.inr (Or.inl hc)
    · exact Or.inr (Or.inr (Or.inr (Or.inr hc)))
  · exact Or.inl (padDigits_isDig c hc)

theorem sciTextP_ne_nil {prec : Nat} {neg : Bool} {N : Nat} {E : Int} : sciText prec neg N E ≠ [] := by
  unfold sciText; simp

theorem sciTextP_noblank {prec : Nat} {neg : Bool} {N : Nat} {E : Int} : ' ' ∉ sciText prec neg N E := by
  intro h
  rcases sciTextP_chars _ h with h | h | h | h | h
  · simp [isDig] at h
  all_goals simp at h

end TicTac
end
