import Mathlib.Analysis.Calculus.Deriv.Basic
import Mathlib.Analysis.Calculus.Deriv.Mul
import Mathlib.Analysis.Calculus.Deriv.Add
import Mathlib.Analysis.Calculus.Deriv.Pow
import Mathlib.Tactic.Ring
import Mathlib.Tactic.Linarith
import Mathlib.Tactic.FieldSimp
import Mathlib.Tactic.Positivity
import Verif.Model.NijmegenNum
/-! Polynomials as lists of rational coefficients, and a check that one is not negative on an interval. -/
noncomputable section
namespace TicTac

/-- `Σ cᵢ uⁱ vⁿ⁻ⁱ`. -/
def homEval : List ℚ → ℝ → ℝ → ℝ
  | [], _, _ => 0
  | c :: l, u, v => c * v ^ l.length + u * homEval l u v

def pAdd : List ℚ → List ℚ → List ℚ
  | [], b => b
  | a, [] => a
  | a :: l, b :: m => (a + b) :: pAdd l m
def pScale (c : ℚ) (l : List ℚ) : List ℚ := l.map (c * ·)
def pMul : List ℚ → List ℚ → List ℚ
  | [], _ => []
  | a :: l, m => pAdd (pScale a m) (0 :: pMul l m)
def pDerAux : Nat → List ℚ → List ℚ
  | _, [] => []
  | k, a :: l => (k * a) :: pDerAux (k + 1) l
def pDer : List ℚ → List ℚ
  | [] => []
  | _ :: l => pDerAux 1 l

theorem horner_nil (x : ℝ) : horner [] x = 0 := rfl
theorem horner_cons (c : ℚ) (l : List ℚ) (x : ℝ) : horner (c :: l) x = c + x * horner l x := rfl

theorem horner_add (a b : List ℚ) (x : ℝ) : horner (pAdd a b) x = horner a x + horner b x := by
  induction a generalizing b with
  | nil => simp [pAdd, horner_nil]
  | cons c l ih =>
    cases b with
    | nil => simp [pAdd, horner_nil]
    | cons d m => simp only [pAdd, horner_cons, ih]; push_cast; ring

theorem horner_scale (c : ℚ) (l : List ℚ) (x : ℝ) : horner (pScale c l) x = c * horner l x := by
  induction l with
  | nil => simp [pScale, horner_nil]
  | cons d m ih => simp only [pScale, List.map_cons, horner_cons] at *; rw [ih]; push_cast; ring

theorem horner_mul (a b : List ℚ) (x : ℝ) : horner (pMul a b) x = horner a x * horner b x := by
  induction a with
  | nil => simp [pMul, horner_nil]
  | cons c l ih => simp only [pMul, horner_add, horner_scale, horner_cons, ih]; push_cast; ring

theorem horner_derAux (k : Nat) (l : List ℚ) (x : ℝ) : HasDerivAt (fun t => t ^ (k + 1) * horner l t) (x ^ k * horner (pDerAux (k + 1) l) x) x := by
  induction l generalizing k with
  | nil =>
    simp only [pDerAux, horner_nil, mul_zero]
    exact hasDerivAt_const x 0
  | cons c l ih =>
    have h1 : HasDerivAt (fun t : ℝ => t ^ (k + 1) * (c : ℝ)) (((k + 1 : ℕ) : ℝ) * x ^ k * c) x := (hasDerivAt_pow (k + 1) x).mul_const _
    have h2 := h1.add (ih (k + 1))
    refine (h2.congr_of_eventuallyEq (Filter.Eventually.of_forall fun t => ?_)).congr_deriv ?_
    · simp only [horner_cons, Pi.add_apply]; ring
    · simp only [pDerAux, horner_cons]
      push_cast
      ring

theorem horner_der (l : List ℚ) (x : ℝ) : HasDerivAt (fun t => horner l t) (horner (pDer l) x) x := by
  cases l with
  | nil => exact hasDerivAt_const x 0
  | cons c l =>
    have := (horner_derAux 0 l x).const_add (c : ℝ)
    simpa [horner_cons, pDer] using this

/-- Coefficients of `(b u + a v)·l`. -/
def hMulAux (a b : ℚ) (prev : ℚ) : List ℚ → List ℚ
  | [] => [b * prev]
  | c :: l => (b * prev + a * c) :: hMulAux a b c l
def hMul (a b : ℚ) (l : List ℚ) : List ℚ := hMulAux a b 0 l

theorem hMulAux_length (a b p : ℚ) (l : List ℚ) : (hMulAux a b p l).length = l.length + 1 := by
  induction l generalizing p with
  | nil => rfl
  | cons c l ih => simp [hMulAux, ih]

theorem hMulAux_eval (a b p : ℚ) (l : List ℚ) (u v : ℝ) : homEval (hMulAux a b p l) u v = b * p * v ^ l.length + (b * u + a * v) * homEval l u v := by
  induction l generalizing p with
  | nil => simp [hMulAux, homEval]
  | cons c l ih =>
    simp only [hMulAux, homEval, ih, hMulAux_length, List.length_cons]
    push_cast
    ring

theorem hMul_eval (a b : ℚ) (l : List ℚ) (u v : ℝ) : homEval (hMul a b l) u v = (b * u + a * v) * homEval l u v := by
  rw [hMul, hMulAux_eval]; push_cast; ring

theorem homEval_add (l m : List ℚ) (h : l.length = m.length) (u v : ℝ) : homEval (pAdd l m) u v = homEval l u v + homEval m u v := by
  induction l generalizing m with
  | nil =>
    cases m with
    | nil => simp [pAdd, homEval]
    | cons d m => simp at h
  | cons c l ih =>
    cases m with
    | nil => simp at h
    | cons d m =>
      simp only [List.length_cons, Nat.add_right_cancel_iff] at h
      have hl : (pAdd l m).length = l.length := by
        clear ih
        induction l generalizing m with
        | nil => cases m with
          | nil => rfl
          | cons => simp at h
        | cons x l ih => cases m with
          | nil => simp at h
          | cons y m => simp only [pAdd, List.length_cons] at *; rw [ih m (by omega)]
      simp only [pAdd, homEval, ih m h, hl, ← h]
      push_cast; ring

theorem homEval_scale (c : ℚ) (l : List ℚ) (u v : ℝ) : homEval (pScale c l) u v = c * homEval l u v := by
  induction l with
  | nil => simp [pScale, homEval]
  | cons d m ih =>
    simp only [pScale, List.map_cons, homEval, List.length_map] at *
    rw [ih]; push_cast; ring

theorem homEval_nonneg (l : List ℚ) (h : ∀ c ∈ l, 0 ≤ c) (u v : ℝ) (hu : 0 ≤ u) (hv : 0 ≤ v) : 0 ≤ homEval l u v := by
  induction l with
  | nil => exact le_rfl
  | cons c l ih =>
    have h1 : (0 : ℝ) ≤ c := by exact_mod_cast h c (by simp)
    have := ih fun d hd => h d (by simp [hd])
    unfold homEval
    positivity

/-- The Bernstein coefficients of a polynomial on `[a,b]` (times binomial coefficients), together with those of 1. -/
def bern (a b : ℚ) : List ℚ → List ℚ × List ℚ
  | [] => ([0], [1])
  | c :: l =>
    let r := bern a b l
    let B := hMul 1 1 r.2
    (pAdd (hMul a b r.1) (pScale c B), B)

theorem bern_length (a b : ℚ) (l : List ℚ) : (bern a b l).1.length = l.length + 1 ∧ (bern a b l).2.length = l.length + 1 := by
  induction l with
  | nil => exact ⟨rfl, rfl⟩
  | cons c l ih =>
    have h2 : (hMul 1 1 (bern a b l).2).length = l.length + 1 + 1 := by rw [hMul, hMulAux_length, ih.2]
    refine ⟨?_, by simpa [bern] using h2⟩
    have key : ∀ (l m : List ℚ), l.length = m.length → (pAdd l m).length = l.length := by
      intro l
      induction l with
      | nil => intro m h; cases m with
        | nil => rfl
        | cons => simp at h
      | cons x l ih => intro m h; cases m with
        | nil => simp at h
        | cons y m => simp only [pAdd, List.length_cons] at *; rw [ih m (by omega)]
    simp only [bern]
    rw [key]
    · rw [hMul, hMulAux_length, ih.1]; rfl
    · rw [pScale, List.length_map, h2, hMul, hMulAux_length, ih.1]

theorem bern_eval (a b : ℚ) (l : List ℚ) (x : ℝ) :
    homEval (bern a b l).1 (x - a) (b - x) = (b - a) ^ l.length * horner l x ∧ homEval (bern a b l).2 (x - a) (b - x) = (b - a) ^ l.length := by
  induction l with
  | nil => simp [bern, homEval, horner_nil]
  | cons c l ih =>
    have e2 : homEval (hMul 1 1 (bern a b l).2) (x - a) (b - x) = (b - a) ^ (c :: l).length := by
      rw [hMul_eval, ih.2, List.length_cons]; push_cast; ring
    refine ⟨?_, by simpa [bern] using e2⟩
    simp only [bern]
    have hl := bern_length a b l
    rw [homEval_add _ _ (by rw [pScale, List.length_map, hMul, hMul, hMulAux_length, hMulAux_length, hl.1, hl.2]), hMul_eval, homEval_scale, e2, ih.1, horner_cons, List.length_cons]
    ring

/-- Not negative on `[a,b]`, checked with at most `2^depth` pieces. -/
def nonnegOn : Nat → ℚ → ℚ → List ℚ → Bool
  | 0, a, b, l => (bern a b l).1.all (0 ≤ ·)
  | d + 1, a, b, l => if (bern a b l).1.all (0 ≤ ·) then true else nonnegOn d a ((a + b) / 2) l && nonnegOn d ((a + b) / 2) b l

theorem bern_sound (a b : ℚ) (hab : a < b) (l : List ℚ) (h : (bern a b l).1.all (0 ≤ ·) = true) (x : ℝ) (h1 : a ≤ x) (h2 : x ≤ b) : 0 ≤ horner l x := by
  have hn := homEval_nonneg (bern a b l).1 (fun c hc => by simpa using List.all_eq_true.1 h c hc) (x - a) (b - x) (by linarith) (by linarith)
  rw [(bern_eval a b l x).1] at hn
  have hp : (0 : ℝ) < (b - a) ^ l.length := by
    have : (a : ℝ) < b := by exact_mod_cast hab
    have : (0 : ℝ) < b - a := by linarith
    positivity
  exact nonneg_of_mul_nonneg_right hn hp

theorem nonnegOn_sound (d : Nat) (a b : ℚ) (hab : a < b) (l : List ℚ) (h : nonnegOn d a b l = true) (x : ℝ) (h1 : a ≤ x) (h2 : x ≤ b) : 0 ≤ horner l x := by
  induction d generalizing a b with
  | zero => exact bern_sound a b hab l h x h1 h2
  | succ d ih =>
    unfold nonnegOn at h
    split_ifs at h with hc
    · exact bern_sound a b hab l hc x h1 h2
    · rw [Bool.and_eq_true] at h
      by_cases hx : x ≤ ((a + b) / 2 : ℚ)
      · exact ih a _ (by linarith) h.1 h1 hx
      · exact ih _ b (by linarith) h.2 (le_of_lt (not_le.1 hx)) h2

end TicTac
end
