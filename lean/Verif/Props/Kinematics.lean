import Verif.Lemmas.Kinematics
import Verif.Props.OnShell
import Verif.Props.Format
/-! The kinematics table: C120. -/
noncomputable section
namespace TicTac
open Spec

/-! ### text -/

theorem shown_of_prints {x : Dbl} {w : Str} (h : ShowposText 8 x w) : Shown w x ∧ w ≠ [] ∧ ' ' ∉ w ∧ '\n' ∉ w := by
  obtain ⟨t, ht, rfl⟩ := h
  cases x with
  | inf n =>
    have : t = "inf".toList := by simpa [Dbl.unsigned, Prints] using ht
    subst this
    cases n
    · exact ⟨rfl, by decide, by decide, by decide⟩
    · exact ⟨rfl, by decide, by decide, by decide⟩
  | nan n =>
    have : t = "nan".toList := by simpa [Dbl.unsigned, Prints] using ht
    subst this
    cases n
    · exact ⟨rfl, by decide, by decide, by decide⟩
    · exact ⟨rfl, by decide, by decide, by decide⟩
  | fin neg m e =>
    have key : ∀ (N : Nat) (E : Int), N < 10 ^ 9 → t = sciText 8 false N E →
        readReal ((if neg = true then '-' else '+') :: t) = some (sg neg * N * (10 : ℝ) ^ (E - 8)) ∧
        ((if neg = true then '-' else '+') :: t) ≠ [] ∧ ' ' ∉ ((if neg = true then '-' else '+') :: t) ∧ '\n' ∉ ((if neg = true then '-' else '+') :: t) := by
      intro N E hN ht
      have hr : readNum ((if neg = true then '-' else '+') :: t) = some (sg neg * N * (10 : ℝ) ^ (E - 8), []) := by
        rw [ht]
        cases neg
        · have := readNum_sciP 8 (neg := false) (N := N) (E := E) hN (rest := []) (pre := ['+']) (by simp) (Or.inr ⟨rfl, rfl⟩)
          simpa using this
        · have := readNum_sciP 8 (neg := true) (N := N) (E := E) hN (rest := []) (pre := []) (by simp) (Or.inl rfl)
          simpa [sciText] using this
      refine ⟨by unfold readReal; rw [hr], by simp, ?_, ?_⟩
      · intro hc
        rcases List.mem_cons.1 hc with h | h
        · cases neg <;> simp at h
        · rw [ht] at h; exact sciTextP_noblank h
      · intro hc
        rcases List.mem_cons.1 hc with h | h
        · cases neg <;> simp at h
        · rw [ht] at h
          rcases sciTextP_chars _ h with h | h | h | h | h
          · simp [isDig] at h
          all_goals simp at h
    change (if m = 0 then t = sciText 8 false 0 0 else ∃ N E, SciRound 8 (m * (2 : ℝ) ^ e) N E ∧ t = sciText 8 false N E) at ht
    show (∃ d, readReal ((if neg = true then '-' else '+') :: t) = some d ∧ _) ∧ _
    by_cases hm : m = 0
    · rw [if_pos hm] at ht
      obtain ⟨k1, k2⟩ := key 0 0 (by norm_num) ht
      refine ⟨⟨_, k1, ?_⟩, k2⟩
      subst hm
      simp [dblValue]
    · rw [if_neg hm] at ht
      obtain ⟨N, E, ⟨r1, r2, r3⟩, ht⟩ := ht
      obtain ⟨k1, k2⟩ := key N E r2 ht
      refine ⟨⟨_, k1, ?_⟩, k2⟩
      have hs : |sg neg| = 1 := by unfold sg; cases neg <;> simp
      have hv : (0 : ℝ) ≤ m * (2 : ℝ) ^ e := by positivity
      have e1 : dblValue neg m e = sg neg * (m * (2 : ℝ) ^ e) := by unfold dblValue sg; rfl
      rw [e1, show sg neg * (N : ℝ) * (10 : ℝ) ^ (E - 8) - sg neg * (m * (2 : ℝ) ^ e) = sg neg * ((N : ℝ) * (10 : ℝ) ^ (E - 8) - m * (2 : ℝ) ^ e) by ring,
        abs_mul, abs_mul, hs, one_mul, one_mul, abs_of_nonneg hv, abs_sub_comm]
      have hN : ((10 : ℝ) ^ 8) ≤ N := by exact_mod_cast r1
      have hu : (0 : ℝ) < (10 : ℝ) ^ (E - 8) := by positivity
      have r3' : |(m : ℝ) * (2 : ℝ) ^ e - N * (10 : ℝ) ^ (E - 8)| ≤ (10 : ℝ) ^ (E - 8) / 2 := by exact_mod_cast r3
      generalize (m : ℝ) * (2 : ℝ) ^ e = v at *
      generalize (10 : ℝ) ^ (E - 8) = u at *
      have := (abs_le.1 r3').1
      have hNu : (10 : ℝ) ^ 8 * u ≤ N * u := mul_le_mul_of_nonneg_right hN hu.le
      have hub : u / 2 ≤ 5.01e-9 * v := by
        norm_num at hNu ⊢
        linarith only [hNu, this, hu]
      linarith only [r3', hub]

theorem toDigits_nonl {i : Nat} : ' ' ∉ Nat.toDigits 10 i ∧ '\n' ∉ Nat.toDigits 10 i ∧ '#' ∉ Nat.toDigits 10 i := by
  refine ⟨fun h => ?_, fun h => ?_, fun h => ?_⟩ <;> exact absurd (toDigits_isDig _ h) (by decide)

theorem kinRow_reads {i : Nat} {x : Dbl × Dbl × Dbl} {s : Str} (h : KinRow i x s) :
    ShownRow i x (words s) ∧ s ≠ [] ∧ s.head? ≠ some '#' ∧ '\n' ∉ s := by
  obtain ⟨a, b, c, ⟨ta, ha, rfl⟩, ⟨tb, hb, rfl⟩, ⟨tc, hc, rfl⟩, rfl⟩ := h
  obtain ⟨a1, a2, a3, a4⟩ := shown_of_prints ha
  obtain ⟨b1, b2, b3, b4⟩ := shown_of_prints hb
  obtain ⟨c1, c2, c3, c4⟩ := shown_of_prints hc
  obtain ⟨d1, d2, d3⟩ := toDigits_nonl (i := i)
  have dne : Nat.toDigits 10 i ≠ [] := Nat.toDigits_ne_nil
  have hten : setw 10 [' '] = List.replicate 10 ' ' := by decide
  have hw : words (setw 7 (Nat.toDigits 10 i) ++ (setw 10 [' '] ++ ta) ++ (setw 10 [' '] ++ tb) ++ (setw 10 [' '] ++ tc)) =
      [Nat.toDigits 10 i, ta, tb, tc] := by
    unfold setw
    rw [show List.replicate (10 - [' '].length) ' ' ++ [' '] = List.replicate 10 ' ' from hten]
    simp only [List.append_assoc]
    have blank : ∀ t : Str, List.replicate 10 ' ' ++ t = ' ' :: (List.replicate 9 ' ' ++ t) := fun t => rfl
    rw [words_blanks, words_tok dne d1 (Or.inr ⟨_, blank _⟩), words_blanks, words_tok a2 a3 (Or.inr ⟨_, blank _⟩), words_blanks,
      words_tok b2 b3 (Or.inr ⟨_, blank _⟩), words_blanks]
    have := words_tok c2 c3 (rest := []) (Or.inl rfl)
    rw [List.append_nil] at this
    rw [this]
    rfl
  refine ⟨?_, ?_, ?_, ?_⟩
  · rw [hw]
    exact ⟨_, _, _, _, rfl, dne, List.all_eq_true.2 toDigits_isDig, digitsNum_toDigits i, a1, b1, c1⟩
  · intro h
    rw [hten] at h
    simp at h
  · intro h
    unfold setw at h
    obtain ⟨y, ys, hy⟩ := List.exists_cons_of_ne_nil dne
    have hyd : isDig y = true := toDigits_isDig y (by rw [hy]; simp)
    rw [hy] at h
    rcases hk : 7 - (y :: ys).length with _ | k
    · rw [hk] at h
      simp only [List.replicate_zero, List.nil_append, List.cons_append, List.head?_cons, Option.some.injEq] at h
      rw [h] at hyd
      exact absurd hyd (by decide)
    · rw [hk, List.replicate_succ] at h
      simp at h
  · rw [hten]
    unfold setw
    simp only [List.mem_append, not_or]
    have r : ∀ k, '\n' ∉ List.replicate k ' ' := fun k h => absurd (List.mem_replicate.1 h).2 (by decide)
    exact ⟨⟨⟨⟨r _, d2⟩, r _, a4⟩, r _, b4⟩, r _, c4⟩

theorem forall2_map_of {α β γ : Type} {R : α → β → Prop} {S : α → γ → Prop} (f : β → γ) {l : List α} {r : List β} (h : List.Forall₂ R l r)
    (hs : ∀ a b, R a b → S a (f b)) : List.Forall₂ S l (r.map f) := by
  induction h with
  | nil => exact .nil
  | cons a _ ih => exact .cons (hs _ _ a) ih

theorem forall2_right {α β : Type} {R : α → β → Prop} {P : β → Prop} {l : List α} {r : List β} (h : List.Forall₂ R l r)
    (hs : ∀ a b, R a b → P b) : ∀ b ∈ r, P b := by
  induction h with
  | nil => simp
  | cons a _ ih =>
    intro b hb
    rcases List.mem_cons.1 hb with rfl | hb
    · exact hs _ _ a
    · exact ih b hb

/-- **C120, text.** The data rows of the file are, in this order, `N + 1` boundary rows and `N` midpoint rows; each has four words: its index
and its three numbers to nine digits. -/
theorem C120_file {N : Nat} {edge mid : Nat → Dbl × Dbl × Dbl} {s : Str} (h : KinFile N edge mid s) :
    ∃ r1 r2, dataRows s = r1 ++ r2 ∧ List.Forall₂ (fun i r => ShownRow i (edge i) r) (List.range (N + 1)) r1 ∧
      List.Forall₂ (fun i r => ShownRow i (mid i) r) (List.range N) r2 := by
  obtain ⟨l1, l2, h1, h2, rfl⟩ := h
  have g1 := forall2_right h1 (P := fun s => s ≠ [] ∧ s.head? ≠ some '#' ∧ '\n' ∉ s) (fun a b hb => (kinRow_reads hb).2)
  have g2 := forall2_right h2 (P := fun s => s ≠ [] ∧ s.head? ≠ some '#' ∧ '\n' ∉ s) (fun a b hb => (kinRow_reads hb).2)
  refine ⟨l1.map words, l2.map words, ?_, forall2_map_of words h1 fun a b hb => (kinRow_reads hb).1, forall2_map_of words h2 fun a b hb => (kinRow_reads hb).1⟩
  have keep : ∀ l : List Str, (∀ s ∈ l, s ≠ [] ∧ s.head? ≠ some '#' ∧ '\n' ∉ s) →
      l.filter (fun l => decide (l ≠ []) && decide (l.head? ≠ some '#')) = l := by
    intro l hl
    rw [List.filter_eq_self]
    intro a ha
    obtain ⟨x, y, -⟩ := hl a ha
    simp [x, y]
  unfold dataRows
  rw [textLines_linesText]
  · simp only [List.filter_append, keep l1 g1, keep l2 g2, List.map_append]
    have f1 : ([("# First table of numbers are bin boundaries. ".toList : Str),
      "# Second table of numbers are bin mid-points for energy WPs.".toList,
      "# This means Ecm in the 2nd table is the mid-point of the corresponding Ecm boundaries.".toList,
      "# ".toList, "# BOUNDARIES: ".toList, "# ".toList, kinHeader].filter (fun l => decide (l ≠ []) && decide (l.head? ≠ some '#'))) = [] := by decide +kernel
    have f2 : (["# ".toList, "# BIN MID-POINTS: ".toList, "# ".toList, kinHeader].filter (fun l => decide (l ≠ []) && decide (l.head? ≠ some '#'))) = [] := by
      decide +kernel
    have f3 : ([([] : Str)].filter (fun l => decide (l ≠ []) && decide (l.head? ≠ some '#'))) = [] := by decide
    rw [f1, f2, f3]
    simp
  · intro l hl
    have f1 : ∀ l ∈ [("# First table of numbers are bin boundaries. ".toList : Str),
      "# Second table of numbers are bin mid-points for energy WPs.".toList,
      "# This means Ecm in the 2nd table is the mid-point of the corresponding Ecm boundaries.".toList,
      "# ".toList, "# BOUNDARIES: ".toList, "# ".toList, kinHeader], '\n' ∉ l := by decide +kernel
    have f2 : ∀ l ∈ ["# ".toList, "# BIN MID-POINTS: ".toList, "# ".toList, kinHeader], '\n' ∉ l := by decide +kernel
    simp only [List.mem_append] at hl
    rcases hl with (((hl | hl) | hl) | hl) | hl
    · exact f1 l hl
    · exact (g1 l hl).2.2
    · exact f2 l hl
    · exact (g2 l hl).2.2
    · simp only [List.mem_singleton] at hl
      subst hl; simp

/-- Tables of one calculation do not collide with those of another number of bins in the same folder. -/
theorem C120_path {o : Str} {N N' : Nat} (h : kinPath o N = kinPath o N') : N = N' := by
  unfold kinPath at h
  have h := List.append_cancel_left (List.append_cancel_right h)
  rw [← digitsNum_toDigits N, h, digitsNum_toDigits]

/-! ### values -/

theorem midRow_eq (q : Nat → ℝ) (Eb : ℝ) (i : Nat) : midRow q Eb i = (comEnergyToComQ (midE q Eb i), midE q Eb i, midT q Eb i) := rfl

/-- **C120, the table and the amplitudes.** The on-shell momentum, c.m. energy and lab energy the calculation uses and prints are, for every computed
energy, the three numbers of one row of the midpoint table; if every bin is wider than 0.11 %, of the row with the recorded bin index. -/
theorem C120_matches (Nq : Nat) (q : Nat → ℝ) (hg : IsGrid Nq q) (Eb : ℝ) (h1 : -3 ≤ Eb) (h2 : Eb ≤ 0) (inputs : List ℝ) (o : OnShell)
    (ho : findOnShell Nq q Eb inputs = .ok o) (k : Nat) (hk : k < o.Tlab.length) (hE : k < o.Ecom.length) (hq : k < o.qcom.length) (hi : k < o.qIdx.length) :
    (∃ i < Nq, midRow q Eb i = (o.qcom[k], o.Ecom[k], o.Tlab[k])) ∧
    ((∀ i < Nq, 1.0011 * q i ≤ q (i + 1)) → midRow q Eb o.qIdx[k] = (o.qcom[k], o.Ecom[k], o.Tlab[k])) := by
  have hEb : -(Mn + Mp) < Eb := by norm_num [Mn, Mp]; linarith
  obtain ⟨e1, e2, e3, e4⟩ := findOnShell_ok ho
  have row : ∀ i, o.Tlab[k] = midT q Eb i → midRow q Eb i = (o.qcom[k], o.Ecom[k], o.Tlab[k]) := by
    intro i hT
    have hqk : o.qcom[k] = comEnergyToComQ (midE q Eb i) := by
      simp only [e2, List.getElem_map]
      rw [hT, (midT_spec hEb q i).2.1]
    have hEk : o.Ecom[k] = midE q Eb i := by
      have : o.Ecom[k] = comQToComEnergy o.qcom[k] := by simp only [e3, List.getElem_map]
      rw [this, hqk, ← (midT_spec hEb q i).2.1, (midT_spec hEb q i).2.2.1]
    rw [midRow_eq, hqk, hEk, hT]
  constructor
  · have hkb : k < (onShellBins Nq q Eb inputs).length := by rw [e1] at hk; simpa using hk
    refine ⟨(onShellBins Nq q Eb inputs)[k], ((mem_onShellBins _ _ _ _ _).1 (List.getElem_mem hkb)).1, row _ ?_⟩
    simp only [e1, List.getElem_map]
  · intro hw
    obtain ⟨o', ho', p1, p2, p3⟩ := C39_indices Nq q hg hw Eb h1 h2 inputs
    rw [ho] at ho'
    cases ho'
    obtain ⟨p4, p5⟩ := p3 k hi hk
    apply row
    have hs := (midT_spec hEb q o.qIdx[k]).2.2.2
    have hm := (mu1_pos hEb).1
    have he : comQToComEnergy (labEnergyToComMomentum o.Tlab[k] Eb) = comQToComEnergy (labEnergyToComMomentum (midT q Eb o.qIdx[k]) Eb) := by
      rw [p5.2, hs.2]
    by_contra hne
    have key : ∀ x y, 0 ≤ x → x < y → comQToComEnergy (labEnergyToComMomentum x Eb) < comQToComEnergy (labEnergyToComMomentum y Eb) := by
      intro x y hx hxy
      exact (C22_q_energy 0 _ le_rfl (Real.sqrt_nonneg _)).2.2.2 _ (C22_lab_to_com_strict x y Eb hm hx hxy)
    rcases lt_or_gt_of_ne hne with hlt | hlt
    · exact absurd he (key _ _ p5.1 hlt).ne
    · exact absurd he (key _ _ hs.1 hlt).ne'

/-- **C120, requesting a row.** A requested energy near the lab energy of a midpoint row - between those of the neighbouring rows - makes the
program compute at that row, and at no row but it and its two neighbours. -/
theorem C120_request (Nq : Nat) (q : Nat → ℝ) (hg : IsGrid Nq q) (Eb : ℝ) (hEb : -(Mn + Mp) < Eb) (i : Nat) (hi0 : 1 ≤ i) (hi : i + 1 < Nq) (T : ℝ)
    (hlo : (midRow q Eb (i - 1)).2.2 < T) (hhi : T < (midRow q Eb (i + 1)).2.2) (o : OnShell) (ho : findOnShell Nq q Eb [T] = .ok o) :
    (midRow q Eb i).2.2 ∈ o.Tlab ∧ ∀ t ∈ o.Tlab, t = (midRow q Eb (i - 1)).2.2 ∨ t = (midRow q Eb i).2.2 ∨ t = (midRow q Eb (i + 1)).2.2 := by
  simp only [midRow_eq] at *
  obtain ⟨e1, -⟩ := findOnShell_ok ho
  have hmono : ∀ i j, i ≤ j → j < Nq → midT q Eb i ≤ midT q Eb j := by
    intro i j hij hj
    rcases Nat.lt_or_eq_of_le hij with hl | rfl
    · exact (midT_strict hg hEb i j hl hj).le
    · exact le_rfl
  have lt_of : ∀ a b, a < Nq → midT q Eb a < midT q Eb b → a < b := by
    intro a b ha hab
    by_contra hc
    have := hmono b a (by omega) ha
    linarith
  rw [e1]
  constructor
  · refine List.mem_map_of_mem ((mem_onShellBins _ _ _ _ _).2 ⟨by omega, T, by simp, ?_⟩)
    rcases le_total T (midT q Eb i) with h | h
    · exact Or.inr ⟨hi0, hlo.le, h⟩
    · exact Or.inl ⟨hi, h, hhi.le⟩
  · intro t ht
    obtain ⟨j, hj, rfl⟩ := List.mem_map.1 ht
    obtain ⟨hjN, T', hT', hx⟩ := (mem_onShellBins _ _ _ _ _).1 hj
    simp only [List.mem_singleton] at hT'
    subst hT'
    rcases hx with ⟨a, b, c⟩ | ⟨a, b, c⟩
    · have h1 := lt_of j (i + 1) hjN (lt_of_le_of_lt b hhi)
      have h2 := lt_of (i - 1) (j + 1) (by omega) (lt_of_lt_of_le hlo c)
      have : j = i - 1 ∨ j = i := by omega
      rcases this with rfl | rfl
      · exact Or.inl rfl
      · exact Or.inr (Or.inl rfl)
    · have h1 := lt_of (j - 1) (i + 1) (by omega) (lt_of_le_of_lt b hhi)
      have h2 := lt_of (i - 1) j (by omega) (lt_of_lt_of_le hlo c)
      have : j = i ∨ j = i + 1 := by omega
      rcases this with rfl | rfl
      · exact Or.inr (Or.inl rfl)
      · exact Or.inr (Or.inr rfl)

/-- **C120, copying a row.** The number read in the last column of midpoint row `i` (not the first or last), used as requested energy, makes the program
compute at that row, if rows differ by more than `10^-8` and the stored doubles are accurate to `10^-9`. -/
theorem C120_copy (Nq : Nat) (q : Nat → ℝ) (hg : IsGrid Nq q) (Eb : ℝ) (hEb : -(Mn + Mp) < Eb) {edge mid : Nat → Dbl × Dbl × Dbl} {s : Str}
    (hs : KinFile Nq edge mid s) (i : Nat) (hi0 : 1 ≤ i) (hi : i + 1 < Nq) {neg : Bool} {m : Nat} {e : Int} (hm : (mid i).2.2 = .fin neg m e)
    (hacc : |dblValue neg m e - (midRow q Eb i).2.2| ≤ 1e-9 * (midRow q Eb i).2.2)
    (hlo : (midRow q Eb (i - 1)).2.2 < (1 - 1e-8) * (midRow q Eb i).2.2) (hhi : (1 + 1e-8) * (midRow q Eb i).2.2 < (midRow q Eb (i + 1)).2.2) :
    ∃ w T, ((dataRows s)[Nq + 1 + i]?.bind (·[3]?)) = some w ∧ readReal w = some T ∧
      ∀ o, findOnShell Nq q Eb [T] = .ok o → (midRow q Eb i).2.2 ∈ o.Tlab ∧
        ∀ t ∈ o.Tlab, t = (midRow q Eb (i - 1)).2.2 ∨ t = (midRow q Eb i).2.2 ∨ t = (midRow q Eb (i + 1)).2.2 := by
  obtain ⟨r1, r2, hd, f1, f2⟩ := C120_file hs
  have n1 := f1.length_eq
  have n2 := f2.length_eq
  rw [List.length_range] at n1 n2
  have hir : i < r2.length := by omega
  have hrow : (dataRows s)[Nq + 1 + i]? = some r2[i] := by
    rw [hd, List.getElem?_append_right (by omega), n1, Nat.add_sub_cancel_left, List.getElem?_eq_getElem hir]
  have hsr := List.Forall₂.get f2 (i := i) (by simp; omega) hir
  simp only [List.get_eq_getElem, List.getElem_range] at hsr
  obtain ⟨a, b, c, d, hr, -, -, -, -, -, hT⟩ := hsr
  rw [hm] at hT
  obtain ⟨T, hT1, hT2⟩ := hT
  refine ⟨d, T, by rw [hrow, hr]; rfl, hT1, fun o ho => ?_⟩
  have hpos : 0 ≤ (midRow q Eb i).2.2 := (midT_spec hEb q i).1
  generalize hv : dblValue neg m e = v at *
  have hv0 : |v| ≤ (1 + 1e-9) * (midRow q Eb i).2.2 := by
    obtain ⟨x, y⟩ := abs_le.1 hacc
    rw [abs_le]
    constructor <;> norm_num at x y ⊢ <;> linarith
  obtain ⟨x, y⟩ := abs_le.1 hacc
  obtain ⟨x', y'⟩ := abs_le.1 hT2
  refine C120_request Nq q hg Eb hEb i hi0 hi T ?_ ?_ o ho
  · norm_num at x y x' y' hlo hv0 ⊢; linarith
  · norm_num at x y x' y' hhi hv0 ⊢; linarith

/-- The first and the last row cannot be requested safely: a number read slightly low (high) there - as half of all roundings are - is dropped
without a message, and nothing is computed. -/
theorem C120_end_rows (Nq : Nat) (q : Nat → ℝ) (hg : IsGrid Nq q) (Eb : ℝ) (hEb : -(Mn + Mp) < Eb) (T : ℝ)
    (h : T < (midRow q Eb 0).2.2 ∨ (midRow q Eb (Nq - 1)).2.2 < T) : findOnShell Nq q Eb [T] = .ok ⟨[], [], [], []⟩ :=
  C38_outside_dropped Nq q hg Eb hEb [T] (by intro t ht; rw [List.mem_singleton] at ht; subst ht; exact h)

/-! ### what the two tables have to do with each other -/

theorem edge_energy (q : Nat → ℝ) (Eb : ℝ) (i : Nat) : (edgeRow q Eb i).2.1 = equalMassEnergy (q i) := by
  unfold edgeRow equalMassEnergy comQToComEnergy MN Mp Mn
  norm_num
  ring

theorem mid_energy_ratio {Eb : ℝ} (hEb : -(Mn + Mp) < Eb) (q : Nat → ℝ) (i : Nat) :
    (midRow q Eb i).2.1 = 2 * MN / (3 * mu1 Eb) * (((edgeRow q Eb i).2.1 + (edgeRow q Eb (i + 1)).2.1) / 2) := by
  have hm := (mu1_pos hEb).2
  have hM := MN_pos
  rw [midRow_eq]
  unfold midE edgeRow comQToComEnergy
  field_simp
  norm_num
  ring

/-- The file says that the energies of the second table are the mid-points of those of the first.  They are not: the first table converts with the average
nucleon mass, the second with the reduced mass of nucleon and deuteron.  For a bound pair between 2.1 and 2.3 MeV the numbers differ by a
relative 0.4 to 0.9 in 10000, in the fifth of the nine digits shown. -/
theorem C120_not_midpoints (Eb : ℝ) (h1 : -2.3 ≤ Eb) (h2 : Eb ≤ -2.1) (Nq : Nat) (q : Nat → ℝ) (hg : IsGrid Nq q) (i : Nat) (hi : i < Nq) :
    (1 - 0.9e-4) * (((edgeRow q Eb i).2.1 + (edgeRow q Eb (i + 1)).2.1) / 2) < (midRow q Eb i).2.1 ∧
    (midRow q Eb i).2.1 < (1 - 0.4e-4) * (((edgeRow q Eb i).2.1 + (edgeRow q Eb (i + 1)).2.1) / 2) := by
  have hEb : -(Mn + Mp) < Eb := by norm_num [Mn, Mp]; linarith
  rw [mid_energy_ratio hEb]
  have hm := (mu1_pos hEb).2
  have hr : 1 - 0.9e-4 < 2 * MN / (3 * mu1 Eb) ∧ 2 * MN / (3 * mu1 Eb) < 1 - 0.4e-4 := by
    rw [lt_div_iff₀ (by positivity), div_lt_iff₀ (by positivity)]
    unfold mu1 deuteronMass MN Mn Mp
    have hd : (0:ℝ) < 939.565 + (939.565 + 938.272 + Eb) := by linarith
    constructor
    · rw [← mul_div_assoc, ← mul_div_assoc, div_lt_iff₀ hd]
      norm_num
      nlinarith
    · rw [← mul_div_assoc, ← mul_div_assoc, lt_div_iff₀ hd]
      norm_num
      nlinarith
  have hpos : 0 < ((edgeRow q Eb i).2.1 + (edgeRow q Eb (i + 1)).2.1) / 2 := by
    rw [edge_energy, edge_energy]
    have hq0 := grid_nonneg hg i (by omega)
    have hq1 := hg.2 i hi
    have : 0 < q (i + 1) := by linarith
    unfold equalMassEnergy
    positivity
  exact ⟨mul_lt_mul_of_pos_right hr.1 hpos, mul_lt_mul_of_pos_right hr.2 hpos⟩

/-- For exactly one binding energy the claim of the file holds (near -2.6 MeV). -/
theorem C120_midpoints_iff {Eb : ℝ} (hEb : -(Mn + Mp) < Eb) (Nq : Nat) (q : Nat → ℝ) (hg : IsGrid Nq q) (i : Nat) (hi : i < Nq) :
    (midRow q Eb i).2.1 = ((edgeRow q Eb i).2.1 + (edgeRow q Eb (i + 1)).2.1) / 2 ↔ ndReducedMass Eb = 2 / 3 * ((939.565 + 938.272) / 2) := by
  have hm := (mu1_pos hEb).2
  have hpos : 0 < ((edgeRow q Eb i).2.1 + (edgeRow q Eb (i + 1)).2.1) / 2 := by
    rw [edge_energy, edge_energy]
    have hq0 := grid_nonneg hg i (by omega)
    have hq1 := hg.2 i hi
    have : 0 < q (i + 1) := by linarith
    unfold equalMassEnergy
    positivity
  have e : ndReducedMass Eb = mu1 Eb := rfl
  have eM : (2 : ℝ) / 3 * ((939.565 + 938.272) / 2) = 2 * MN / 3 := by unfold MN Mn Mp; norm_num
  rw [mid_energy_ratio hEb, e, eM]
  constructor
  · intro h
    have : 2 * MN / (3 * mu1 Eb) = 1 := by
      have := mul_right_cancel₀ hpos.ne' (h.trans (one_mul _).symm)
      exact this
    rw [div_eq_one_iff_eq (by positivity)] at this
    linarith
  · intro h
    rw [h]
    have hM := MN_pos
    rw [show 2 * MN / (3 * (2 * MN / 3)) = 1 by field_simp, one_mul]

/-- **C120, order.** Midpoint row `i` lies between boundary rows `i` and `i + 1` in all three columns, if the bin is wider than 0.11 % - and below both in all
three columns, if it is narrower than 0.003 % (`C120_narrow_below`). -/
theorem C120_between (Nq : Nat) (q : Nat → ℝ) (hg : IsGrid Nq q) (Eb : ℝ) (h1 : -3 ≤ Eb) (h2 : Eb ≤ 0) (i : Nat) (hi : i < Nq)
    (hw : 1.0011 * q i ≤ q (i + 1)) :
    ((edgeRow q Eb i).1 < (midRow q Eb i).1 ∧ (midRow q Eb i).1 < (edgeRow q Eb (i + 1)).1) ∧
    ((edgeRow q Eb i).2.1 < (midRow q Eb i).2.1 ∧ (midRow q Eb i).2.1 < (edgeRow q Eb (i + 1)).2.1) ∧
    ((edgeRow q Eb i).2.2 < (midRow q Eb i).2.2 ∧ (midRow q Eb i).2.2 < (edgeRow q Eb (i + 1)).2.2) := by
  have hEb : -(Mn + Mp) < Eb := by norm_num [Mn, Mp]; linarith
  have hs := qm_sq hEb q i
  obtain ⟨r1, r2⟩ := mass_ratio Eb h1 h2
  set r := MN / (3 * mu1 Eb)
  have hq0 := grid_nonneg hg i (by omega)
  have hq1 := hg.2 i hi
  have hnn : 0 ≤ comEnergyToComQ (midE q Eb i) := Real.sqrt_nonneg _
  have hb : 1.0022 * q i ^ 2 ≤ q (i + 1) ^ 2 := by nlinarith
  have hbp : 0 < q (i + 1) ^ 2 := by nlinarith
  have ha0 : 0 ≤ q i ^ 2 := sq_nonneg _
  have a1 : q i < comEnergyToComQ (midE q Eb i) := by
    apply lt_of_pow_lt_pow_left₀ 2 hnn
    rw [hs]
    nlinarith
  have a2 : comEnergyToComQ (midE q Eb i) < q (i + 1) := by
    apply lt_of_pow_lt_pow_left₀ 2 (by linarith)
    rw [hs]
    nlinarith
  have hE : comQToComEnergy (comEnergyToComQ (midE q Eb i)) = midE q Eb i := (C22_q_energy (midE q Eb i) 0 (midE_nonneg hEb q i) le_rfl).1
  have m := (mu1_pos hEb).1
  refine ⟨⟨a1, a2⟩, ⟨?_, ?_⟩, ?_, ?_⟩
  · rw [midRow_eq, ← hE]
    exact (C22_q_energy 0 _ le_rfl hq0).2.2.2 _ a1
  · rw [midRow_eq, ← hE]
    exact (C22_q_energy 0 _ le_rfl hnn).2.2.2 _ a2
  · exact C22_com_to_lab_strict _ _ _ m hq0 a1
  · exact C22_com_to_lab_strict _ _ _ m hnn a2

/-- Very narrow bins: the row called mid-point lies below the bin. -/
theorem C120_narrow_below (Nq : Nat) (q : Nat → ℝ) (hg : IsGrid Nq q) (Eb : ℝ) (h1 : -2.3 ≤ Eb) (h2 : Eb ≤ -2.1) (i : Nat) (hi : i < Nq) (h0 : 0 < q i)
    (hw : q (i + 1) ≤ 1.00003 * q i) :
    (midRow q Eb i).1 < (edgeRow q Eb i).1 ∧ (midRow q Eb i).2.1 < (edgeRow q Eb i).2.1 ∧ (midRow q Eb i).2.2 < (edgeRow q Eb i).2.2 := by
  have hEb : -(Mn + Mp) < Eb := by norm_num [Mn, Mp]; linarith
  have hm := (C120_not_midpoints Eb h1 h2 Nq q hg i hi).2
  have hE : comQToComEnergy (comEnergyToComQ (midE q Eb i)) = midE q Eb i := (C22_q_energy (midE q Eb i) 0 (midE_nonneg hEb q i) le_rfl).1
  have hnn : 0 ≤ comEnergyToComQ (midE q Eb i) := Real.sqrt_nonneg _
  have hq1 := hg.2 i hi
  have hsq : q (i + 1) ^ 2 ≤ (1 + 6.0001e-5) * q i ^ 2 := by nlinarith
  have b : (midRow q Eb i).2.1 < (edgeRow q Eb i).2.1 := by
    refine hm.trans_le ?_
    rw [edge_energy, edge_energy]
    unfold equalMassEnergy
    norm_num at hsq ⊢
    nlinarith [sq_nonneg (q i)]
  have a : comEnergyToComQ (midE q Eb i) < q i := by
    by_contra hc
    rcases (not_lt.1 hc).lt_or_eq with hc | hc
    · have := (C22_q_energy 0 _ le_rfl h0.le).2.2.2 _ hc
      rw [hE] at this
      exact absurd b (not_lt.2 this.le)
    · have : midE q Eb i = comQToComEnergy (q i) := by rw [hc, hE]
      exact absurd b (by rw [midRow_eq]; show ¬ midE q Eb i < comQToComEnergy (q i); rw [this]; exact lt_irrefl _)
  exact ⟨a, b, C22_com_to_lab_strict _ _ _ (mu1_pos hEb).1 hnn a⟩

/-! ### the hypotheses are met -/

/-- A grid with three bins, wide ones. -/
theorem kin_grid : IsGrid 3 (fun i => 100 * (i : ℝ)) ∧ ∀ i : ℕ, i < 3 → 1.0011 * (100 * (i : ℝ)) ≤ 100 * ((i + 1 : ℕ) : ℝ) := by
  refine ⟨⟨by simp, fun i _ => by push_cast; linarith⟩, fun i hi => ?_⟩
  interval_cases i <;> norm_num

example : ∃ o, findOnShell 3 (fun i => 100 * (i : ℝ)) (-2.2) [(midRow (fun i => 100 * (i : ℝ)) (-2.2) 1).2.2] = .ok o ∧
    (midRow (fun i => 100 * (i : ℝ)) (-2.2) 1).2.2 ∈ o.Tlab := by
  obtain ⟨o, ho, -⟩ := C39_indices 3 (fun i => 100 * (i : ℝ)) kin_grid.1 kin_grid.2 (-2.2) (by norm_num) (by norm_num)
    [(midRow (fun i => 100 * (i : ℝ)) (-2.2) 1).2.2]
  have hEb : -(Mn + Mp) < (-2.2 : ℝ) := by norm_num [Mn, Mp]
  exact ⟨o, ho, (C120_request 3 _ kin_grid.1 (-2.2) hEb 1 le_rfl (by norm_num) _ (midT_strict kin_grid.1 hEb 0 1 (by norm_num) (by norm_num))
    (midT_strict kin_grid.1 hEb 1 2 (by norm_num) (by norm_num)) o ho).1⟩

/-- A file exists for every table of zeros and infinities (other values need the digits of a double). -/
example : ∃ s, KinFile 1 (fun _ => (.fin false 0 (-1074), .inf true, .nan false)) (fun _ => (.fin true 0 (-1074), .inf false, .nan true)) s := by
  have f : ∀ x, (∃ t, Prints 8 (Dbl.unsigned x) t) → ∃ s, KinField x s := fun x ⟨t, ht⟩ => ⟨_, _, ⟨t, ht, rfl⟩, rfl⟩
  have z : ∀ n, ∃ t, Prints 8 (Dbl.unsigned (.fin n 0 (-1074))) t := fun n => ⟨sciText 8 false 0 0, by simp [Dbl.unsigned, Prints]⟩
  have y : ∀ n, ∃ t, Prints 8 (Dbl.unsigned (.inf n)) t := fun n => ⟨_, rfl⟩
  have w : ∀ n, ∃ t, Prints 8 (Dbl.unsigned (.nan n)) t := fun n => ⟨_, rfl⟩
  have row : ∀ i n1 n2 n3, ∃ s, KinRow i (.fin n1 0 (-1074), .inf n2, .nan n3) s := by
    intro i n1 n2 n3
    obtain ⟨a, ha⟩ := f _ (z n1)
    obtain ⟨b, hb⟩ := f _ (y n2)
    obtain ⟨c, hc⟩ := f _ (w n3)
    exact ⟨_, a, b, c, ha, hb, hc, rfl⟩
  obtain ⟨a, ha⟩ := row 0 false true false
  obtain ⟨b, hb⟩ := row 1 false true false
  obtain ⟨c, hc⟩ := row 0 true false true
  exact ⟨_, [a, b], [c], .cons ha (.cons hb .nil), .cons hc .nil, rfl⟩

end TicTac
end
