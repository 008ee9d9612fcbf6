import Verif.Model.PhiMesh
import Verif.Lemmas.Sonin
import Verif.Props.Numeric
import Verif.Props.Permutation
import Mathlib.Analysis.Real.Pi.Bounds
/-! Phi mesh of the permutation matrix: C88. -/
noncomputable section
namespace TicTac
open Polynomial Classical

/-- Contract of `gsl_sf_legendre_Pl` on [-1, 1]. -/
def Spec.IsLegendrePl (P : Int → ℝ → ℝ) : Prop := ∀ (n : Nat) (x : ℝ), x ^ 2 ≤ 1 → P n x = (Spec.legendre n).eval x

theorem dLegendre_eq {P : Int → ℝ → ℝ} (hP : Spec.IsLegendrePl P) (N : Nat) (hN : 1 ≤ N) (x : ℝ) (hx : x ^ 2 < 1) :
    dLegendre P x N = (derivative (Spec.legendre N)).eval x := by
  obtain ⟨m, rfl⟩ := Nat.exists_eq_add_of_le' hN
  unfold dLegendre
  have h := congrArg (eval x) (legendre_deriv m)
  simp only [eval_mul, eval_sub, eval_add, eval_pow, eval_X, eval_one, eval_natCast] at h
  rw [show ((m + 1 : ℕ) : Int) - 1 = (m : ℕ) by push_cast; ring, hP _ x hx.le, hP _ x hx.le]
  have hne : x * x - 1 ≠ 0 := fun h => by nlinarith
  rw [div_eq_iff hne]
  push_cast
  linear_combination -h

/-- What the loop delivers: a point of (-1, 1) reached by a Newton step from a point of (-1, 1) with nonvanishing derivative; the step passed the
test unless all iterations were used. -/
theorem newtonRoot_spec {P : Int → ℝ → ℝ} (hP : Spec.IsLegendrePl P) (N : Nat) (hN : 1 ≤ N) : ∀ (k : Nat) (x z : ℝ), newtonRoot P N (k + 1) x = some z →
    z ^ 2 < 1 ∧ ∃ x0, x0 ^ 2 < 1 ∧ (derivative (Spec.legendre N)).eval x0 ≠ 0 ∧
      z = x0 - (Spec.legendre N).eval x0 / (derivative (Spec.legendre N)).eval x0 ∧
      (testDelta z x0 ∨ ∃ it : Nat → ℝ, it 0 = x ∧ it (k + 1) = z ∧ it k = x0 ∧ ∀ i ≤ k, ¬ testDelta (it (i + 1)) (it i)) := by
  intro k
  induction k with
  | zero =>
    intro x z h
    unfold newtonRoot at h
    split at h
    · cases h
    · rename_i hx
      push Not at hx
      rw [dLegendre_eq hP N hN x hx.1, hP N x hx.1.le] at h
      dsimp only at h
      split at h
      · cases h
      · rename_i hx1
        push Not at hx1
        rw [dLegendre_eq hP N hN x hx.1] at hx
        split at h
        · rename_i ht
          cases h
          exact ⟨hx1, x, hx.1, hx.2, rfl, Or.inl ht⟩
        · rename_i ht
          unfold newtonRoot at h
          cases h
          refine ⟨hx1, x, hx.1, hx.2, rfl, Or.inr ⟨fun i => if i = 0 then x else _, if_pos rfl, if_neg (by omega), if_pos rfl, ?_⟩⟩
          intro i hi
          have : i = 0 := by omega
          subst this
          simpa using ht
  | succ k ih =>
    intro x z h
    unfold newtonRoot at h
    split at h
    · cases h
    · rename_i hx
      push Not at hx
      rw [dLegendre_eq hP N hN x hx.1, hP N x hx.1.le] at h
      dsimp only at h
      split at h
      · cases h
      · rename_i hx1
        push Not at hx1
        rw [dLegendre_eq hP N hN x hx.1] at hx
        split at h
        · rename_i ht
          cases h
          exact ⟨hx1, x, hx.1, hx.2, rfl, Or.inl ht⟩
        · rename_i ht
          obtain ⟨h1, x0, h2, h3, h4, h5⟩ := ih _ _ h
          refine ⟨h1, x0, h2, h3, h4, h5.imp id ?_⟩
          rintro ⟨it, i1, i2, i3, i4⟩
          refine ⟨fun i => if i = 0 then x else it (i - 1), if_pos rfl, by simpa using i2, by simpa using i3, ?_⟩
          intro i hi
          rcases Nat.eq_zero_or_pos i with rfl | hpos
          · simpa [i1] using ht
          · obtain ⟨j, rfl⟩ := Nat.exists_eq_add_of_le' hpos
            simpa using i4 j (by omega)

/-- The iterates of a root: Newton steps from the start value, stopped at the first step that passes the test, or at the last one allowed. -/
theorem newtonRoot_iterates {P : Int → ℝ → ℝ} (hP : Spec.IsLegendrePl P) (N : Nat) (hN : 1 ≤ N) (K : Nat) (x z : ℝ) (h : newtonRoot P N K x = some z) :
    ∃ (it : Nat → ℝ) (k : Nat), k ≤ K ∧ it 0 = x ∧ it k = z ∧
      (∀ i < k, it (i + 1) = it i - (Spec.legendre N).eval (it i) / (derivative (Spec.legendre N)).eval (it i)) ∧
      (∀ i, i + 1 < k → ¬ testDelta (it (i + 1)) (it i)) ∧ (k < K → ∃ i, k = i + 1 ∧ testDelta (it (i + 1)) (it i)) := by
  induction K generalizing x with
  | zero => unfold newtonRoot at h; cases h; exact ⟨fun _ => z, 0, le_rfl, rfl, rfl, by intro i hi; omega, by intro i hi; omega, by intro h; omega⟩
  | succ K ih =>
    unfold newtonRoot at h
    split at h
    · cases h
    · rename_i hx
      push Not at hx
      rw [dLegendre_eq hP N hN x hx.1, hP N x hx.1.le] at h
      dsimp only at h
      split at h
      · cases h
      · split at h
        · rename_i ht
          cases h
          refine ⟨fun i => if i = 0 then x else _, 1, by omega, if_pos rfl, if_neg (by omega), ?_, by intro i hi; omega, fun _ => ⟨0, rfl, ?_⟩⟩
          · intro i hi
            obtain rfl : i = 0 := by omega
            simp
          · simpa using ht
        · rename_i ht
          obtain ⟨it, k, h1, h2, h3, h4, h5, h6⟩ := ih _ h
          refine ⟨fun i => if i = 0 then x else it (i - 1), k + 1, by omega, if_pos rfl, by simpa using h3, ?_, ?_, ?_⟩
          · intro i hi
            rcases Nat.eq_zero_or_pos i with rfl | hpos
            · simpa using h2
            · obtain ⟨j, rfl⟩ := Nat.exists_eq_add_of_le' hpos
              simpa using h4 j (by omega)
          · intro i hi
            rcases Nat.eq_zero_or_pos i with rfl | hpos
            · simpa [h2] using ht
            · obtain ⟨j, rfl⟩ := Nat.exists_eq_add_of_le' hpos
              simpa using h5 j (by omega)
          · intro hk
            obtain ⟨i, rfl, hi⟩ := h6 (by omega)
            exact ⟨i + 1, rfl, by simpa using hi⟩

/-- A point returned after the convergence test: a root of P_N is near, and the derivative (hence the weight) is regular. -/
theorem newton_converged {N : Nat} (hN : 1 ≤ N) {z x0 : ℝ} (hz : z ^ 2 < 1) (h0 : x0 ^ 2 < 1)
    (hd : (derivative (Spec.legendre N)).eval x0 ≠ 0) (hs : z = x0 - (Spec.legendre N).eval x0 / (derivative (Spec.legendre N)).eval x0)
    (ht : testDelta z x0) :
    (∃ r, (Spec.legendre N).eval r = 0 ∧ |z - r| ≤ (N + 1) * 1e-9 * |z|) ∧ (N ≤ 3000 → (derivative (Spec.legendre N)).eval z ≠ 0) := by
  have hz1 : |z| ≤ 1 := (sq_le_one_iff_abs_le_one _).1 hz.le
  have hx1 : |x0| ≤ 1 := (sq_le_one_iff_abs_le_one _).1 h0.le
  have hstep : (Spec.legendre N).eval x0 = (derivative (Spec.legendre N)).eval x0 * (x0 - z) := by rw [hs]; field_simp; ring
  rcases ht with ht | ht
  · refine ⟨?_, fun h3 => newton_deriv_ne N hN h3 x0 z hx1 hz hstep (lt_of_lt_of_le ht (by nlinarith))⟩
    have hq : |(Spec.legendre N).eval x0 / (derivative (Spec.legendre N)).eval x0| < 1e-9 * |z| := by
      rw [show (Spec.legendre N).eval x0 / (derivative (Spec.legendre N)).eval x0 = x0 - z by linarith, abs_sub_comm]; exact ht
    obtain ⟨r, hr, hc⟩ := newton_root_close N x0 _ hd hq
    refine ⟨r, hr, ?_⟩
    have := abs_sub_le z x0 r
    linarith
  · subst ht
    have hroot : (Spec.legendre N).eval z = 0 := by rw [hstep]; simp
    exact ⟨⟨z, hroot, by simp; positivity⟩, fun _ => hd⟩

theorem optMapM_getElem {α β : Type} {f : α → Option β} {l : List α} {r : List β} (h : l.mapM f = some r) (j : Nat) (hj : j < l.length) :
    ∃ hr : j < r.length, f l[j] = some r[j] := by
  induction l generalizing r j with
  | nil => simp at hj
  | cons a l ih =>
    rw [List.mapM_cons] at h
    rcases ha : f a with _ | b
    · rw [ha] at h; simp at h
    · rw [ha] at h
      rcases hl : l.mapM f with _ | bs
      · rw [hl] at h; simp at h
      · rw [hl] at h
        simp at h
        subst h
        cases j with
        | zero => exact ⟨by simp, by simpa using ha⟩
        | succ j =>
          obtain ⟨h1, h2⟩ := ih hl j (by simpa using hj)
          exact ⟨by simpa using h1, by simpa using h2⟩

theorem legendre_ge_one (n : Nat) (x : ℝ) (hx : 1 ≤ x) : 1 ≤ (Spec.legendre n).eval x ∧ 0 ≤ (derivative (Spec.legendre n)).eval x := by
  induction n with
  | zero => simp [legendre_zero]
  | succ n ih =>
    have hu := congrArg (eval x) (legendre_up n)
    have hd := congrArg (eval x) (legendre_deriv_up n)
    simp only [eval_add, eval_mul, eval_X, eval_natCast, eval_one, eval_sub, eval_pow] at hu hd
    have hn : (0 : ℝ) < (n : ℝ) + 1 := by positivity
    constructor
    · by_contra hlt
      push Not at hlt
      have h1 := mul_lt_mul_of_pos_left hlt hn
      have h2 : 0 ≤ (x ^ 2 - 1) * (derivative (Spec.legendre n)).eval x := mul_nonneg (by nlinarith) ih.2
      have h3 : (1 : ℝ) ≤ x * (Spec.legendre n).eval x := by nlinarith [ih.1]
      have h4 := mul_le_mul_of_nonneg_left h3 hn.le
      linarith
    · rw [hd]
      have h1 : 0 ≤ ((n : ℝ) + 1) * (Spec.legendre n).eval x := mul_nonneg hn.le (by linarith [ih.1])
      have h2 : 0 ≤ x * (derivative (Spec.legendre n)).eval x := mul_nonneg (by linarith) ih.2
      linarith

theorem legendre_root_inside (n : Nat) (r : ℝ) (h : (Spec.legendre n).eval r = 0) : -1 < r ∧ r < 1 := by
  constructor
  · by_contra hr
    have := (legendre_ge_one n (-r) (by linarith)).1
    rw [legendre_eval_neg, h] at this
    norm_num at this
  · by_contra hr
    have := (legendre_ge_one n r (by linarith)).1
    linarith

/-- **C88.** Whenever the phi mesh is delivered (the program was not stopped by GSL), it has N points; for every interval the nodes lie strictly
inside it; each node for which the Newton iteration passed its test within 100 steps is the image of a point within (N+1)·1e-9 (relative) of a root
of P_N, and its weight is positive (N ≤ 3000).  Every node is the image of the last of at most 100 Newton steps for P_N started from the
classical estimate of the root number N - j. -/
theorem C88_phi_mesh {P : Int → ℝ → ℝ} (hP : Spec.IsLegendrePl P) (N : Nat) (lo hi : ℝ) (hlh : lo < hi) (m : List (ℝ × ℝ))
    (h : gaussMesh P N lo hi = some m) :
    m.length = N ∧ ∀ j (hj : j < m.length), lo < m[j].1 ∧ m[j].1 < hi ∧
      ((∃ r, -1 < r ∧ r < 1 ∧ (Spec.legendre N).eval r = 0 ∧ |m[j].1 - (lo + (hi - lo) * (r + 1) / 2)| ≤ (N + 1) * 1e-9 * ((hi - lo) / 2) ∧
          (N ≤ 3000 → 0 < m[j].2)) ∨
        ∃ it : Nat → ℝ, it 0 = Real.cos (3.14159 * (N - j - 1 / 4) / (N + 1 / 2)) ∧ (∀ i < 100, ¬ testDelta (it (i + 1)) (it i)) ∧
          m[j].1 = lo + (hi - lo) * (it 100 + 1) / 2) ∧
      ∃ (it : Nat → ℝ) (k : Nat), k ≤ 100 ∧ it 0 = Real.cos (3.14159 * (N - j - 1 / 4) / (N + 1 / 2)) ∧
        (∀ i < k, it (i + 1) = it i - (Spec.legendre N).eval (it i) / (derivative (Spec.legendre N)).eval (it i)) ∧
        (∀ i, i + 1 < k → ¬ (|it (i + 1) - it i| < 1e-9 * |it (i + 1)|)) ∧ m[j].1 = lo + (hi - lo) * (it k + 1) / 2 := by
  unfold gaussMesh at h
  rcases hr : rootsGsl P N with _ | z
  · rw [hr] at h; cases h
  rw [hr] at h
  simp only [Option.map_some, Option.some.injEq] at h
  subst h
  refine ⟨by simp, fun j hj => ?_⟩
  have hjN : j < N := by simpa using hj
  unfold rootsGsl at hr
  have hzj := optMapM_getElem hr j (by simpa using hjN)
  obtain ⟨hjz, hzj⟩ := hzj
  simp only [List.getElem_range] at hzj
  simp only [List.getElem_map, List.getElem_range]
  have hget : z.getD j 0 = z[j] := by rw [List.getD_eq_getElem?_getD, List.getElem?_eq_getElem hjz]; rfl
  generalize z[j] = w at hzj hget
  obtain ⟨h1, x0, h2, h3, h4, h5⟩ := newtonRoot_spec hP N (by omega) 99 _ _ hzj
  have hab := abs_lt.1 ((sq_lt_one_iff_abs_lt_one w).1 h1)
  obtain ⟨g1, g2⟩ := gaussPoint_mem (P := P) (N := N) (z := fun k => z.getD k 0) hlh (f := j) (by rw [hget]; exact hab)
  have hstart : rootStart N j = Real.cos (3.14159 * (N - j - 1 / 4) / (N + 1 / 2)) := by
    unfold rootStart
    have : ((N - 1 - j : Nat) : ℝ) = N - 1 - j := by rw [Nat.cast_sub (by omega), Nat.cast_sub (by omega)]; simp
    rw [this]
    congr 1
    norm_num
    ring_nf
  have hiter := newtonRoot_iterates hP N (by omega) 100 _ _ hzj
  rw [hstart] at hiter
  refine ⟨g1, g2, ?_, ?_⟩
  rotate_left
  · obtain ⟨it, k, k1, k2, k3, k4, k5, -⟩ := hiter
    refine ⟨it, k, k1, k2, k4, fun i hi ht => k5 i hi (Or.inl ht), ?_⟩
    rw [k3]; unfold gaussPoint; simp only [hget]; ring
  have hnode : (gaussPoint P N (fun k => z.getD k 0) lo hi j).1 = lo + (hi - lo) * (w + 1) / 2 := by unfold gaussPoint; simp only [hget]; ring
  rcases h5 with h5 | ⟨it, i1, i2, -, i4⟩
  · left
    obtain ⟨⟨r, hr0, hrc⟩, hdz⟩ := newton_converged (by omega) h1 h2 h3 h4 h5
    have hr1 := legendre_root_inside N r hr0
    refine ⟨r, hr1.1, hr1.2, hr0, ?_, fun h3000 => ?_⟩
    · rw [hnode, show lo + (hi - lo) * (w + 1) / 2 - (lo + (hi - lo) * (r + 1) / 2) = (hi - lo) / 2 * (w - r) by ring, abs_mul,
        abs_of_pos (by linarith), mul_comm]
      refine mul_le_mul_of_nonneg_right (hrc.trans ?_) (by linarith)
      have : |w| ≤ 1 := abs_le.2 ⟨hab.1.le, hab.2.le⟩
      have h0 : (0 : ℝ) ≤ (N + 1) * 1e-9 := by positivity
      nlinarith
    · unfold gaussPoint
      simp only [hget]
      rw [dLegendre_eq hP N (by omega) w h1]
      have := hdz h3000
      have hw : 0 < 1 - w * w := by nlinarith
      have hd2 : 0 < (derivative (Spec.legendre N)).eval w * (derivative (Spec.legendre N)).eval w := mul_self_pos.2 this
      have : 0 < hi - lo := by linarith
      positivity
  · right
    exact ⟨it, i1.trans hstart, fun i hi => i4 i (by omega), by rw [hnode, i2]⟩

/-- C88: points that are the N different roots of P_N give a rule on [lo, hi] that integrates every polynomial of degree below 2N exactly. -/
theorem C88_phi_exact {P : Int → ℝ → ℝ} (hP : Spec.IsLegendrePl P) (N : Nat) (hN : 1 ≤ N) (z : Nat → ℝ)
    (hz : ∀ j < N, (Spec.legendre N).eval (z j) = 0) (hinj : ∀ i < N, ∀ j < N, z i = z j → i = j) (lo hi : ℝ) (hlh : lo < hi)
    (f : ℝ[X]) (hf : f.natDegree < 2 * N) :
    Spec.RuleExact ((List.range N).map fun (j : Nat) => gaussPoint P N z lo hi j) lo hi (fun x => f.eval x) := by
  set rule : List (ℝ × ℝ) := (List.range N).map fun (j : Nat) =>
    (z j, 2 / ((1 - z j ^ 2) * ((derivative (Spec.legendre N)).eval (z j)) ^ 2)) with hrule
  have hmap : ((List.range N).map fun (j : Nat) => gaussPoint P N z lo hi j) = binRule lo hi rule := by
    rw [hrule]
    unfold binRule
    rw [List.map_map]
    apply List.map_congr_left
    intro j hj
    have hin := legendre_root_inside N (z j) (hz j (List.mem_range.1 hj))
    have hsq : z j ^ 2 < 1 := by nlinarith [hin.1, hin.2]
    unfold gaussPoint
    rw [dLegendre_eq hP N hN (z j) hsq]
    simp only [Function.comp, mapNode, mapWeight, Prod.mk.injEq]
    have h1 : (1 - z j * z j) ≠ 0 := by nlinarith
    have h2 := legendre_deriv_ne N (z j) (hz j (List.mem_range.1 hj))
    constructor
    · norm_num; ring
    · rw [show z j * z j = z j ^ 2 by ring] at h1 ⊢
      norm_num
      field_simp
  rw [hmap]
  refine (C26_mapped_rule lo hi hlh rule).2.2 (fun x => f.eval x) ?_
  have hcomp : (fun x : ℝ => f.eval ((hi - lo) / 2 * x + (lo + hi) / 2)) = fun x => (f.comp (C ((hi - lo) / 2) * X + C ((lo + hi) / 2))).eval x := by
    funext x; simp [eval_comp]
  rw [hcomp]
  have hdeg : (f.comp (C ((hi - lo) / 2) * X + C ((lo + hi) / 2))).natDegree < 2 * N := by
    refine lt_of_le_of_lt natDegree_comp_le ?_
    have : (C ((hi - lo) / 2) * X + C ((lo + hi) / 2) : ℝ[X]).natDegree ≤ 1 := natDegree_linear_le
    nlinarith
  have hi' : Set.InjOn z (Finset.range N : Set Nat) := fun a ha b hb h => hinj a (by simpa using ha) b (by simpa using hb) h
  have hg := gauss_exact N ((Finset.range N).image z) (by
      intro x hx
      obtain ⟨k, hk, rfl⟩ := Finset.mem_image.1 hx
      exact hz k (Finset.mem_range.1 hk)) (by rw [Finset.card_image_of_injOn hi', Finset.card_range]) _ hdeg
  unfold Spec.RuleExact
  rw [Finset.sum_image hi'] at hg
  unfold pint at hg
  rw [hg, hrule]
  simp only [List.map_map, Function.comp_def]
  rw [← List.sum_toFinset _ List.nodup_range, List.toFinset_range]

/-- The one-point mesh is really delivered: start value near 0, one Newton step gives 0 exactly, the next one stays there. -/
theorem gaussMesh_one (lo hi : ℝ) : gaussMesh (fun n x => (Spec.legendre n.toNat).eval x) 1 lo hi = some [((lo + hi) / 2, hi - lo)] := by
  have hP : Spec.IsLegendrePl (fun n x => (Spec.legendre n.toNat).eval x) := fun n x _ => by simp
  have hd : ∀ x : ℝ, x ^ 2 < 1 → dLegendre (fun n x => (Spec.legendre n.toNat).eval x) x 1 = 1 := fun x hx => by
    rw [dLegendre_eq hP 1 le_rfl x hx]; simp [legendre_one]
  have hone : ∀ x : ℝ, (fun (n : Int) x => (Spec.legendre n.toNat).eval x) ((1 : Nat) : Int) x = x := fun x => by simp [legendre_one]
  have hst : rootStart 1 0 ^ 2 < 1 ∧ rootStart 1 0 ≠ 0 := by
    have hs : rootStart 1 0 = Real.cos 1.570795 := by unfold rootStart; congr 1; norm_num
    have h1 : 0 < Real.cos 1.570795 := Real.cos_pos_of_mem_Ioo ⟨by norm_num; linarith [Real.pi_pos], by have := Real.pi_gt_d6; norm_num at *; linarith⟩
    have h2 : Real.cos 1.570795 < 1 := by
      have := Real.cos_lt_cos_of_nonneg_of_le_pi (x := 0) (y := 1.570795) le_rfl (by have := Real.pi_gt_three; norm_num; linarith) (by norm_num)
      rwa [Real.cos_zero] at this
    rw [hs]
    exact ⟨by nlinarith, h1.ne'⟩
  have hroot : newtonRoot (fun n x => (Spec.legendre n.toNat).eval x) 1 100 (rootStart 1 0) = some 0 := by
    generalize rootStart 1 0 = x at hst
    have s1 : newtonRoot (fun n x => (Spec.legendre n.toNat).eval x) 1 99 0 = some 0 := by
      rw [newtonRoot, if_neg (by rw [hd 0 (by norm_num)]; norm_num)]
      dsimp only
      rw [hd 0 (by norm_num)]
      have : (0 : ℝ) - (Spec.legendre (((1 : Nat) : Int)).toNat).eval 0 / 1 = 0 := by simp [legendre_one]
      rw [this, if_neg (by norm_num), if_pos (show testDelta 0 0 from Or.inr rfl)]
    rw [newtonRoot, if_neg (by rw [hd x hst.1]; push Not; exact ⟨hst.1, one_ne_zero⟩)]
    dsimp only
    rw [hd x hst.1]
    have : x - (Spec.legendre (((1 : Nat) : Int)).toNat).eval x / 1 = 0 := by simp [legendre_one]
    rw [this, if_neg (by norm_num), if_neg, s1]
    rintro (h | h)
    · simp at h; linarith [abs_nonneg x]
    · exact hst.2 h.symm
  unfold gaussMesh rootsGsl
  rw [show List.range 1 = [0] from rfl]
  simp only [List.mapM_cons, List.mapM_nil, hroot, Option.pure_def, Option.bind_eq_bind, Option.bind_some, Option.map_some, List.map_cons, List.map_nil]
  unfold gaussPoint
  simp only [show ([(0:ℝ)].getD 0 0) = 0 from rfl, hd 0 (by norm_num)]
  norm_num
  ring

/-- Three points: the roots 0 and ±√(3/5) satisfy the hypotheses of `C88_phi_exact`. -/
example : ∃ z : Nat → ℝ, (∀ j < 3, (Spec.legendre 3).eval (z j) = 0) ∧ ∀ i < 3, ∀ j < 3, z i = z j → i = j := by
  have hs : Real.sqrt (3 / 5) ^ 2 = 3 / 5 := Real.sq_sqrt (by norm_num)
  have hp : 0 < Real.sqrt (3 / 5) := Real.sqrt_pos.2 (by norm_num)
  have h3 : ∀ x : ℝ, (Spec.legendre 3).eval x = x * (5 * x ^ 2 - 3) / 2 := by
    intro x
    rw [legendre_eval_bonnet 1, legendre_eval_bonnet 0]
    simp [legendre_zero, legendre_one]
    ring
  refine ⟨fun j => ((j : ℝ) - 1) * Real.sqrt (3 / 5), ?_, ?_⟩
  · intro j hj
    rw [h3]
    generalize Real.sqrt (3 / 5) = s at hs
    interval_cases j
    · push_cast; linear_combination (-5 * s / 2) * hs
    · simp
    · push_cast; linear_combination (5 * s / 2) * hs
  · intro i _ j _ h
    have := mul_right_cancel₀ hp.ne' h
    have : (i : ℝ) = j := by linarith
    exact_mod_cast this

/-- The mesh the permutation matrix is computed with meets the condition used there (`zIn` in C85–C87). -/
theorem C88_points_inside {P : Int → ℝ → ℝ} (hP : Spec.IsLegendrePl P) (N : Nat) (z : List ℝ) (h : rootsGsl P N = some z) :
    ∀ j < N, -1 < z.getD j 0 ∧ z.getD j 0 < 1 := by
  intro j hj
  obtain ⟨h1, h2⟩ := optMapM_getElem h j (by simpa using hj)
  rw [List.getD_eq_getElem?_getD, List.getElem?_eq_getElem h1]
  simp only [Option.getD_some]
  exact abs_lt.1 ((sq_lt_one_iff_abs_lt_one _).1 (newtonRoot_spec hP N (by omega) 99 _ _ h2).1)

end TicTac
end
