import Verif.Model.Main
import Std.Data.String.ToInt
import Verif.Lemmas.PWStates
import Verif.Lemmas.Layout
import Mathlib.Tactic.SplitIfs
import Mathlib.Data.List.Basic
namespace TicTac

/-- Characters of a printed integer are digits or `-`. -/
theorem dec_chars {n : Int} {c : Char} (h : c ∈ dec n) : c.isDigit ∨ c = '-' := by
  unfold dec at h
  cases n with
  | ofNat m =>
    have : (Int.repr (Int.ofNat m)).toList = Nat.toDigits 10 m := by
      show (Nat.repr m).toList = _
      exact Nat.toList_repr
    rw [this] at h
    exact Or.inl (Nat.isDigit_of_mem_toDigits (by omega) (by omega) h)
  | negSucc m =>
    have : (Int.repr (Int.negSucc m)).toList = '-' :: Nat.toDigits 10 (m + 1) := by
      show ("-" ++ Nat.repr (m + 1)).toList = _
      rw [String.toList_append, Nat.toList_repr]; rfl
    rw [this] at h
    rcases List.mem_cons.1 h with h | h
    · exact Or.inr h
    · exact Or.inl (Nat.isDigit_of_mem_toDigits (by omega) (by omega) h)

theorem underscore_notMem_dec (n : Int) : '_' ∉ dec n := by
  intro h
  rcases dec_chars h with h | h <;> revert h <;> decide

theorem dot_notMem_dec (n : Int) : '.' ∉ dec n := by
  intro h
  rcases dec_chars h with h | h <;> revert h <;> decide

theorem dec_inj {m n : Int} (h : dec m = dec n) : m = n := by
  unfold dec at h
  exact Int.repr_injective (String.toList_inj.1 h)

/-- Text before the first separator is determined. -/
theorem sep_inj {x : Char} {a b r s : Str} (ha : x ∉ a) (hb : x ∉ b) (h : a ++ x :: r = b ++ x :: s) :
    a = b ∧ r = s := by
  induction a generalizing b with
  | nil =>
    cases b with
    | nil => simpa using h
    | cons c b =>
      simp only [List.nil_append, List.cons_append, List.cons.injEq] at h
      exact absurd (by rw [h.1]; simp) hb
  | cons c a ih =>
    cases b with
    | nil =>
      simp only [List.nil_append, List.cons_append, List.cons.injEq] at h
      exact absurd (by rw [← h.1]; simp) ha
    | cons d b =>
      simp only [List.cons_append, List.cons.injEq] at h
      obtain ⟨h1, h2⟩ := ih (fun hm => ha (by simp [hm])) (fun hm => hb (by simp [hm])) h.2
      exact ⟨by rw [h.1, h1], h2⟩

theorem dec_sep_inj {m n : Int} {r s : Str} (h : dec m ++ '_' :: r = dec n ++ '_' :: s) : m = n ∧ r = s := by
  obtain ⟨h1, h2⟩ := sep_inj (underscore_notMem_dec m) (underscore_notMem_dec n) h
  exact ⟨dec_inj h1, h2⟩

theorem dec_dot_inj {m n : Int} {r s : Str} (h : dec m ++ '.' :: r = dec n ++ '.' :: s) : m = n ∧ r = s := by
  obtain ⟨h1, h2⟩ := sep_inj (dot_notMem_dec m) (dot_notMem_dec n) h
  exact ⟨dec_inj h1, h2⟩

theorem splitSpace_token (t : Str) (h : ' ' ∉ t) : splitSpace t = [t] := by
  induction t with
  | nil => rfl
  | cons c t ih =>
    unfold splitSpace
    rw [if_neg (fun e => h (by simp [e])), ih (fun hm => h (by simp [hm]))]

theorem splitSpace_cons (t rest : Str) (h : ' ' ∉ t) : splitSpace (t ++ ' ' :: rest) = t :: splitSpace rest := by
  induction t with
  | nil => rfl
  | cons c t ih =>
    show splitSpace (c :: (t ++ ' ' :: rest)) = _
    rw [splitSpace, if_neg (fun e => h (by simp [e])), ih (fun hm => h (by simp [hm]))]

theorem mapM_some_of_forall {α β : Type} (f : α → Option β) (g : α → β) (l : List α) (h : ∀ a ∈ l, f a = some (g a)) :
    l.mapM f = some (l.map g) := by
  induction l with
  | nil => rfl
  | cons a l ih =>
    rw [List.mapM_cons, h a (by simp), ih (fun b hb => h b (by simp [hb]))]
    rfl

end TicTac
