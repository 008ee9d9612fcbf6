import Verif.Lemmas.NijmegenInt
/-! `PNIJMLSJ` is linear in the amplitudes, so its matrices are the projections of the force. -/
noncomputable section
namespace TicTac
open Polynomial Spec MeasureTheory Set intervalIntegral

def PotMom.get (a : PotMom) (c : Fin 6) (k : Int) : ℝ := ![a.vc k, a.vs k, a.vt k, a.vls k, a.vq k, a.vqp k] c

/-- The entries the program keeps. -/
def window (c : Fin 6) : Int := ![1, 1, 2, 2, 3, 2] c

def PotMom.agree (a b : PotMom) : Prop := ∀ c k, -window c ≤ k → k ≤ window c → a.get c k = b.get c k

def linEval (l : List (ℝ × Fin 6 × Int)) (a : PotMom) : ℝ := (l.map fun t => t.1 * a.get t.2.1 t.2.2).sum

/-- Linear in the kept entries. -/
def Lin (f : PotMom → ℝ) : Prop := ∃ l : List (ℝ × Fin 6 × Int), (∀ t ∈ l, -window t.2.1 ≤ t.2.2 ∧ t.2.2 ≤ window t.2.1) ∧ ∀ a, f a = linEval l a

theorem Lin.congr {f : PotMom → ℝ} (hf : Lin f) {a b : PotMom} (h : a.agree b) : f a = f b := by
  obtain ⟨l, hl, e⟩ := hf
  rw [e, e]
  unfold linEval
  congr 1
  exact List.map_congr_left fun t ht => by rw [h _ _ (hl t ht).1 (hl t ht).2]

macro "lin_tac" : tactic => `(tactic| (intro a; simp only [linEval, PotMom.get, List.map_cons, List.map_nil, List.sum_cons, List.sum_nil, Matrix.cons_val]))

section
variable (j qi qf : ℝ)
theorem lin_singlet : Lin (vpotSinglet j qi qf) := by
  refine ⟨[(1, 0, 0), (-3, 1, 0), (qi * qi * (qf * qf) * (j * (j - 1) / (2 * j - 1) / (2 * j + 1)), 4, -2),
    (qi * qi * (qf * qf) * (-2 * (j * j + (j - 1)) / (2 * j - 1) / (2 * j + 3)), 4, 0),
    (qi * qi * (qf * qf) * ((j + 1) * (j + 2) / (2 * j + 1) / (2 * j + 3)), 4, 2), (-2 * (qi * qf) / (2 * j + 1) * j, 5, -1),
    (-2 * (qi * qf) / (2 * j + 1) * (j + 1), 5, 1)], by simp [window], ?_⟩
  lin_tac
  unfold vpotSinglet
  ring

theorem lin_triplet : Lin (vpotTriplet j qi qf) := by
  refine ⟨[(1, 0, 0), (1, 1, 0), (-(qi * qf / (2 * j + 1)), 3, -1), (qi * qf / (2 * j + 1), 3, 1), (2 / 3 * (qi * qi + qf * qf), 2, 0),
    (-(2 / 3 * (qi * qi + qf * qf) * (1 / 2 * (2 * (qi * qf) / (qi * qi + qf * qf)) * (2 * j + 3) / (2 * j + 1))), 2, -1),
    (-(2 / 3 * (qi * qi + qf * qf) * (1 / 2 * (2 * (qi * qf) / (qi * qi + qf * qf)) * (2 * j - 1) / (2 * j + 1))), 2, 1),
    (qi * qi * (qf * qf) * ((j - 1) * (j + 2) / (2 * j - 1) / (2 * j + 1)), 4, -2),
    (qi * qi * (qf * qf) * (-2 * (j - 1) * (j + 2) / (2 * j - 1) / (2 * j + 3)), 4, 0),
    (qi * qi * (qf * qf) * ((j - 1) * (j + 2) / (2 * j + 1) / (2 * j + 3)), 4, 2), (-(qi * qf / (2 * j + 1)), 5, -1), (qi * qf / (2 * j + 1), 5, 1)], by simp [window], ?_⟩
  lin_tac
  unfold vpotTriplet
  ring

theorem lin_upper : Lin (vpotUpper j qi qf) := by
  refine ⟨[(1, 0, 1), (1, 1, 1), (-(qi * qf * (j + 2) / (2 * j + 3)), 3, 0), (qi * qf * (j + 2) / (2 * j + 3), 3, 2),
    (-(2 / 3 * (qi * qi + qf * qf) * (j + 2) / (2 * j + 1)), 2, 1),
    (2 / 3 * (qi * qi + qf * qf) * (j + 2) / (2 * j + 1) * (1 / 2 * (2 * (qi * qf) / (qi * qi + qf * qf)) * (2 * j + 5) / (2 * j + 3)), 2, 0),
    (2 / 3 * (qi * qi + qf * qf) * (j + 2) / (2 * j + 1) * (1 / 2 * (2 * (qi * qf) / (qi * qi + qf * qf)) * (2 * j + 1) / (2 * j + 3)), 2, 2),
    (qi * qi * (qf * qf) * (-j * (2 * j * j + 7 * (j + 1)) / (2 * j + 1) / (2 * j + 1) / (2 * j + 3)), 4, -1),
    (qi * qi * (qf * qf) * (2 * (2 * j * j * j + 9 * j * j + 10 * j + 1) / (2 * j + 1) / (2 * j + 1) / (2 * j + 5)), 4, 1),
    (qi * qi * (qf * qf) * (-(j + 2) * (j + 3) / (2 * j + 3) / (2 * j + 5)), 4, 3),
    (qi * qf * ((2 * j * j + 5 * j + 4) / (2 * j + 1)) / (2 * j + 3), 5, 0), (qi * qf * (j + 2) / (2 * j + 3), 5, 2)], by simp [window], ?_⟩
  lin_tac
  unfold vpotUpper
  ring

theorem lin_lower : Lin (vpotLower j qi qf) := by
  refine ⟨[(1, 0, -1), (1, 1, -1), (qi * qf * (j - 1) / (2 * j - 1), 3, -2), (-(qi * qf * (j - 1) / (2 * j - 1)), 3, 0),
    (-(2 / 3 * (qi * qi + qf * qf) * (j - 1) / (2 * j + 1)), 2, -1),
    (2 / 3 * (qi * qi + qf * qf) * (j - 1) / (2 * j + 1) * (1 / 2 * (2 * (qi * qf) / (qi * qi + qf * qf)) * (2 * j - 3) / (2 * j - 1)), 2, 0),
    (2 / 3 * (qi * qi + qf * qf) * (j - 1) / (2 * j + 1) * (1 / 2 * (2 * (qi * qf) / (qi * qi + qf * qf)) * (2 * j + 1) / (2 * j - 1)), 2, -2),
    (qi * qi * (qf * qf) * (-(j - 1) * (j - 2) / (2 * j - 1) / (2 * j - 3)), 4, -3),
    (qi * qi * (qf * qf) * (2 * (2 * j * j * j - 3 * j * j - 2 * (j - 1)) / (2 * j + 1) / (2 * j + 1) / (2 * j - 3)), 4, -1),
    (qi * qi * (qf * qf) * (-(2 * j * j - 3 * j + 2) * (j + 1) / (2 * j - 1) / (2 * j + 1) / (2 * j + 1)), 4, 1),
    (qi * qf * (j - 1) / (2 * j - 1), 5, -2), (qi * qf * ((2 * j * j - (j - 1)) / (2 * j + 1)) / (2 * j - 1), 5, 0)], by simp [window], ?_⟩
  lin_tac
  unfold vpotLower
  ring

theorem lin_mix12 : Lin (vpotMix12 j qi qf) := by
  refine ⟨[(2 * (qi * qi + qf * qf) * Real.sqrt (j * (j + 1)) / (2 * j + 1) * (2 * (qi * qf) / (qi * qi + qf * qf)), 2, 0),
    (-2 * (qi * qi + qf * qf) * Real.sqrt (j * (j + 1)) / (2 * j + 1) * (qi * qi / (qi * qi + qf * qf)), 2, -1),
    (-2 * (qi * qi + qf * qf) * Real.sqrt (j * (j + 1)) / (2 * j + 1) * (qf * qf / (qi * qi + qf * qf)), 2, 1),
    (-(qi * qi * (qf * qf) * (2 * Real.sqrt (j * (j + 1)) / (2 * j + 1) / (2 * j + 1))), 4, 1),
    (qi * qi * (qf * qf) * (2 * Real.sqrt (j * (j + 1)) / (2 * j + 1) / (2 * j + 1)), 4, -1),
    (2 * (qi * qf) * Real.sqrt (j * (j + 1)) / (2 * j + 1), 5, 0)], by simp [window], ?_⟩
  lin_tac
  unfold vpotMix12
  ring

theorem lin_mix21 : Lin (vpotMix21 j qi qf) := by
  refine ⟨[(2 * (qi * qi + qf * qf) * Real.sqrt (j * (j + 1)) / (2 * j + 1) * (2 * (qi * qf) / (qi * qi + qf * qf)), 2, 0),
    (-2 * (qi * qi + qf * qf) * Real.sqrt (j * (j + 1)) / (2 * j + 1) * (qf * qf / (qi * qi + qf * qf)), 2, -1),
    (-2 * (qi * qi + qf * qf) * Real.sqrt (j * (j + 1)) / (2 * j + 1) * (qi * qi / (qi * qi + qf * qf)), 2, 1),
    (-(qi * qi * (qf * qf) * (2 * Real.sqrt (j * (j + 1)) / (2 * j + 1) / (2 * j + 1))), 4, 1),
    (qi * qi * (qf * qf) * (2 * Real.sqrt (j * (j + 1)) / (2 * j + 1) / (2 * j + 1)), 4, -1),
    (2 * (qi * qf) * Real.sqrt (j * (j + 1)) / (2 * j + 1), 5, 0)], by simp [window], ?_⟩
  lin_tac
  unfold vpotMix21
  ring
end

/-- The amplitudes of a force: the Legendre coefficients of its strengths (the last one with the opposite sign). -/
def potMomOf (F : NijForce) (J : Nat) : PotMom where
  vc k := legCoef F.c (J + k)
  vs k := legCoef F.s (J + k)
  vt k := legCoef F.t (J + k)
  vls k := legCoef F.ls (J + k)
  vq k := legCoef F.q (J + k)
  vqp k := -legCoef F.qp (J + k)

structure NijCont (F : NijForce) : Prop where
  c : ContinuousOn F.c (uIcc (-1) 1)
  s : ContinuousOn F.s (uIcc (-1) 1)
  t : ContinuousOn F.t (uIcc (-1) 1)
  ls : ContinuousOn F.ls (uIcc (-1) 1)
  q : ContinuousOn F.q (uIcc (-1) 1)
  qp : ContinuousOn F.qp (uIcc (-1) 1)

variable {F : NijForce} (hF : NijCont F) (J : Nat)
include hF

theorem get_cont (c : Fin 6) (k : Int) : ContinuousOn (fun z => (wavesAt F J z).get c k) (uIcc (-1) 1) := by
  have hl := (legI_cont (J + k)).continuousOn (s := uIcc (-1) 1)
  fin_cases c
  · exact hl.mul hF.c
  · exact hl.mul hF.s
  · exact hl.mul hF.t
  · exact hl.mul hF.ls
  · exact hl.mul hF.q
  · exact (hl.mul hF.qp).neg

omit hF in
theorem get_int (c : Fin 6) (k : Int) : (potMomOf F J).get c k = 1 / 2 * ∫ z in (-1 : ℝ)..1, (wavesAt F J z).get c k := by
  fin_cases c
  · rfl
  · rfl
  · rfl
  · rfl
  · rfl
  · show -legCoef F.qp (J + k) = 1 / 2 * ∫ z in (-1 : ℝ)..1, -(legI z (J + k) * F.qp z)
    rw [intervalIntegral.integral_neg]
    unfold legCoef
    ring

theorem linEval_int (l : List (ℝ × Fin 6 × Int)) : ContinuousOn (fun z => linEval l (wavesAt F J z)) (uIcc (-1) 1) ∧
    linEval l (potMomOf F J) = 1 / 2 * ∫ z in (-1 : ℝ)..1, linEval l (wavesAt F J z) := by
  induction l with
  | nil => exact ⟨continuousOn_const, by simp [linEval]⟩
  | cons t l ih =>
    have e : ∀ a, linEval (t :: l) a = t.1 * a.get t.2.1 t.2.2 + linEval l a := fun a => by simp [linEval]
    have hc : ContinuousOn (fun z => t.1 * (wavesAt F J z).get t.2.1 t.2.2) (uIcc (-1) 1) := continuousOn_const.mul (get_cont hF J _ _)
    simp only [e]
    refine ⟨hc.add ih.1, ?_⟩
    rw [integral_add hc.intervalIntegrable ih.1.intervalIntegrable, ih.2, get_int (F := F), intervalIntegral.integral_const_mul]
    ring

theorem Lin.int {f : PotMom → ℝ} (hf : Lin f) : f (potMomOf F J) = 1 / 2 * ∫ z in (-1 : ℝ)..1, f (wavesAt F J z) := by
  obtain ⟨l, _, e⟩ := hf
  simp only [e]
  exact (linEval_int hF J l).2

end TicTac
end
