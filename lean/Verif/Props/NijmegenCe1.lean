import Verif.Lemmas.Ce1Loop
import Verif.Spec.NijmegenNear
/-! C110: the exponential integral of the Nijmegen potential. -/
noncomputable section
namespace TicTac
open Set

/-- C110: for every positive argument `CE1` ends after at most 15 rounds of its loops and returns `e^x E₁(x)` up to the stated errors. -/
theorem C110_ce1 (x : ℝ) (hx : 0 < x) : ∃ v, (∀ fuel, 15 ≤ fuel → nijCe1 fuel x = some v) ∧
    |v - Real.exp x * ∫ t in Ioi x, Real.exp (-t) / t| ≤ 1e-12 ∧
    (1 ≤ x → |v - Real.exp x * ∫ t in Ioi x, Real.exp (-t) / t| ≤ 4.7e-13) ∧
    (3 ≤ x → |v - Real.exp x * ∫ t in Ioi x, Real.exp (-t) / t| ≤ 6.2e-14) ∧
    (14 ≤ x → |v - Real.exp x * ∫ t in Ioi x, Real.exp (-t) / t| ≤ 8.5e-15) ∧
    (165 ≤ x → |v - Real.exp x * ∫ t in Ioi x, Real.exp (-t) / t| ≤ 2e-13 * (Real.exp x * ∫ t in Ioi x, Real.exp (-t) / t)) := by
  change ∃ v, (∀ fuel, 15 ≤ fuel → nijCe1 fuel x = some v) ∧ |v - Real.exp x * ei1 x| ≤ 1e-12 ∧ (1 ≤ x → |v - Real.exp x * ei1 x| ≤ 4.7e-13) ∧
    (3 ≤ x → |v - Real.exp x * ei1 x| ≤ 6.2e-14) ∧ (14 ≤ x → |v - Real.exp x * ei1 x| ≤ 8.5e-15) ∧ (165 ≤ x → |v - Real.exp x * ei1 x| ≤ 2e-13 * (Real.exp x * ei1 x))
  have piece : ∀ (P Q : List ℚ) (a b e : ℝ), a ≤ x → x < b → b ≤ 165 → |horner P x / horner Q x - Real.exp x * ei1 x| ≤ e → 0 ≤ e → e ≤ 4.7e-13 → 1 ≤ a →
      (3 < b → e ≤ 6.2e-14) → (14 < b → e ≤ 8.5e-15) → (∀ fuel, nijCe1 fuel x = some (horner P x / horner Q x)) →
      ∃ v, (∀ fuel, 15 ≤ fuel → nijCe1 fuel x = some v) ∧ |v - Real.exp x * ei1 x| ≤ 1e-12 ∧ (1 ≤ x → |v - Real.exp x * ei1 x| ≤ 4.7e-13) ∧
      (3 ≤ x → |v - Real.exp x * ei1 x| ≤ 6.2e-14) ∧ (14 ≤ x → |v - Real.exp x * ei1 x| ≤ 8.5e-15) ∧ (165 ≤ x → |v - Real.exp x * ei1 x| ≤ 2e-13 * (Real.exp x * ei1 x)) := by
    intro P Q a b e h1 h2 h3 h4 h5 h6 h7 h8 h9 h10
    exact ⟨_, fun f _ => h10 f, by linarith, fun _ => by linarith, fun h => h4.trans (h8 (by linarith)), fun h => h4.trans (h9 (by linarith)), fun h => by linarith⟩
  by_cases c1 : x < 1
  · obtain ⟨m, m1, m2, m3, m4⟩ := ceSmall_run hx c1 14 1 (by norm_num) le_rfl
    refine ⟨Real.exp x * eiSum m x, ?_, small_bound m m1 (by omega) hx c1 m3, fun h => by linarith, fun h => by linarith, fun h => by linarith, fun h => by linarith⟩
    intro fuel hf
    have h := m4 fuel (by omega)
    have e1 : eiSum 1 x = -ceGam - Real.log x + x := by simp [eiSum]
    rw [e1] at h
    have h' : ceSmall x fuel (-ceGam - Real.log x + x) 1 1 x = some (eiSum m x) := by simpa using h
    have hfd : nijFdexp x = Real.exp x := if_neg (by linarith)
    rw [nijCe1, if_pos c1, h', Option.map_some, hfd, div_one]
  have c1' := not_lt.1 c1
  by_cases c2 : x < 3
  · exact piece ceAP ceAQ 1 3 _ c1' c2 (by norm_num) (pieceA c1' c2.le) (by norm_num) le_rfl le_rfl (fun h => absurd h (by norm_num)) (fun h => absurd h (by norm_num))
      (fun f => by rw [nijCe1, if_neg c1, if_pos c2])
  have c2' := not_lt.1 c2
  by_cases c3 : x < 6
  · exact piece ceBP ceBQ 3 6 _ c2' c3 (by norm_num) (pieceB c2' c3.le) (by norm_num) (by norm_num) (by norm_num) (fun _ => le_rfl) (fun h => absurd h (by norm_num))
      (fun f => by rw [nijCe1, if_neg c1, if_neg c2, if_pos c3])
  have c3' := not_lt.1 c3
  by_cases c4 : x < 14
  · exact piece ceCP ceCQ 6 14 _ c3' c4 (by norm_num) (pieceC c3' c4.le) (by norm_num) (by norm_num) (by norm_num) (fun _ => by norm_num) (fun h => absurd h (by norm_num))
      (fun f => by rw [nijCe1, if_neg c1, if_neg c2, if_neg c3, if_pos c4])
  have c4' := not_lt.1 c4
  by_cases c5 : x < 25
  · exact piece ceDP ceDQ 14 25 _ c4' c5 (by norm_num) (pieceD c4' c5.le) (by norm_num) (by norm_num) (by norm_num) (fun _ => by norm_num) (fun _ => le_rfl)
      (fun f => by rw [nijCe1, if_neg c1, if_neg c2, if_neg c3, if_neg c4, if_pos c5])
  have c5' := not_lt.1 c5
  by_cases c6 : x < 70
  · exact piece ceEP ceEQ 25 70 _ c5' c6 (by norm_num) (pieceE c5' c6.le) (by norm_num) (by norm_num) (by norm_num) (fun _ => by norm_num) (fun _ => by norm_num)
      (fun f => by rw [nijCe1, if_neg c1, if_neg c2, if_neg c3, if_neg c4, if_neg c5, if_pos c6])
  have c6' := not_lt.1 c6
  by_cases c7 : x < 165
  · exact piece ceFP ceFQ 70 165 _ c6' c7 le_rfl (pieceF c6' c7.le) (by norm_num) (by norm_num) (by norm_num) (fun _ => by norm_num) (fun _ => by norm_num)
      (fun f => by rw [nijCe1, if_neg c1, if_neg c2, if_neg c3, if_neg c4, if_neg c5, if_neg c6, if_pos c7])
  have c7' := not_lt.1 c7
  obtain ⟨m, m1, m2, m3, m4⟩ := ceLarge_run c7' 7 0 (by norm_num)
  have herr := large_err c7' m1 m2 m3
  have hv : Real.exp x * ei1 x ≤ 1 / 165 := by
    have h := mul_le_mul_of_nonneg_left (ei1_le hx) (Real.exp_pos x).le
    rw [← mul_div_assoc, ← Real.exp_add, add_neg_cancel, Real.exp_zero] at h
    exact h.trans (one_div_le_one_div_of_le (by norm_num) c7')
  refine ⟨asySum m x, ?_, by linarith, fun _ => by linarith, fun _ => by linarith, fun _ => by linarith, fun _ => herr⟩
  intro fuel hf
  have h := m4 fuel (by omega)
  have e1 : asySum (0 + 1) x = 1 / x := by simp [asySum]
  rw [e1] at h
  have h' : ceLarge x fuel (1 / x) 0 1 1 (1 / x) = some (asySum m x) := by simpa using h
  rw [nijCe1, if_neg c1, if_neg c2, if_neg c3, if_neg c4, if_neg c5, if_neg c6, if_neg c7, h', Option.map_some, div_one]

/-- Each of the two loops and a rational piece are reached. -/
example : (∃ v, nijCe1 15 (1 / 2) = some v) ∧ (∃ v, nijCe1 15 2 = some v) ∧ ∃ v, nijCe1 15 200 = some v :=
  ⟨let ⟨v, h, _⟩ := C110_ce1 (1 / 2) (by norm_num); ⟨v, h 15 le_rfl⟩, let ⟨v, h, _⟩ := C110_ce1 2 (by norm_num); ⟨v, h 15 le_rfl⟩,
    let ⟨v, h, _⟩ := C110_ce1 200 (by norm_num); ⟨v, h 15 le_rfl⟩⟩

end TicTac
end
