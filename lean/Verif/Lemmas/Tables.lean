import Verif.Model.Tables
import Verif.Lemmas.PWStates
import Verif.Lemmas.Layout
import Mathlib.Tactic.LinearCombination
import Mathlib.Algebra.BigOperators.Group.List.Basic
import Mathlib.Algebra.BigOperators.Ring.List
namespace TicTac

/-- After any sequence of writes, an index written (only) with value `v` holds `v`. -/
theorem writeAll_eq {ι α : Type} [DecidableEq ι] (init : ι → α) (ws : List (ι × α)) (i : ι) (v : α)
    (hmem : (i, v) ∈ ws) (huniq : ∀ w ∈ ws, w.1 = i → w.2 = v) : writeAll init ws i = v := by
  unfold writeAll
  induction ws using List.reverseRecOn with
  | nil => simp at hmem
  | append_singleton ws w ih =>
    rw [List.foldl_append]
    simp only [List.foldl_cons, List.foldl_nil]
    by_cases h : i = w.1
    · rw [if_pos h]; exact huniq w (by simp) h.symm
    · rw [if_neg h]
      refine ih ?_ (fun w' hw' => huniq w' (by simp [hw']))
      rcases List.mem_append.1 hmem with h' | h'
      · exact h'
      · simp only [List.mem_singleton] at h'
        rw [← h'] at h; exact absurd rfl h

theorem writeAll_frame {ι α : Type} [DecidableEq ι] (init : ι → α) (ws : List (ι × α)) (i : ι) (h : ∀ w ∈ ws, w.1 ≠ i) : writeAll init ws i = init i := by
  unfold writeAll
  induction ws using List.reverseRecOn with
  | nil => rfl
  | append_singleton ws w ih =>
    rw [List.foldl_append, List.foldl_cons, List.foldl_nil]
    refine (if_neg (fun hh => h w (by simp) hh.symm)).trans ?_
    exact ih fun x hx => h x (List.mem_append_left _ hx)

/-- Legal arguments of the Clebsch–Gordan table. -/
def CgLegal (jmax : Int) (t : Int × Int × Int × Int × Int) : Prop :=
  0 ≤ t.1 ∧ t.1 ≤ jmax ∧ 0 ≤ t.2.1 ∧ t.2.1 ≤ jmax ∧ 0 ≤ t.2.2.1 ∧ t.2.2.1 ≤ 2 * jmax ∧
    -t.1 ≤ t.2.2.2.1 ∧ t.2.2.2.1 ≤ t.1 ∧ -t.2.1 ≤ t.2.2.2.2 ∧ t.2.2.2.2 ≤ t.2.1

theorem mem_cgTuples {jmax : Int} {t : Int × Int × Int × Int × Int} : t ∈ cgTuples jmax ↔ CgLegal jmax t := by
  obtain ⟨j1, j2, j3, m1, m2⟩ := t
  unfold cgTuples CgLegal
  simp only [List.mem_flatMap, List.mem_map, mem_forRange_one, Prod.mk.injEq]
  constructor
  · rintro ⟨a, ha, b, hb, c, hc, d, hd, e, he, rfl, rfl, rfl, rfl, rfl⟩
    omega
  · intro h
    exact ⟨j1, by omega, j2, by omega, j3, by omega, m1, by omega, m2, by omega, rfl, rfl, rfl, rfl, rfl⟩

/-- The single-spin code `(j+1)² + m - j - 1` determines `(j, m)` and lies in `[j², (j+1)²)`. -/
theorem spinCode_bounds {j m : Int} (h1 : -j ≤ m) (h2 : m ≤ j) :
    j * j ≤ (j + 1) * (j + 1) + m - j - 1 ∧ (j + 1) * (j + 1) + m - j - 1 < (j + 1) * (j + 1) := by
  constructor <;> nlinarith

theorem spinCode_inj {j m j' m' : Int} (h0 : 0 ≤ j) (h0' : 0 ≤ j') (h1 : -j ≤ m) (h2 : m ≤ j) (h1' : -j' ≤ m')
    (h2' : m' ≤ j') (h : (j + 1) * (j + 1) + m - j - 1 = (j' + 1) * (j' + 1) + m' - j' - 1) : j = j' ∧ m = m' := by
  have b := spinCode_bounds h1 h2
  have b' := spinCode_bounds h1' h2'
  have : j = j' := by
    rcases lt_trichotomy j j' with hlt | heq | hgt
    · exfalso
      have : (j + 1) * (j + 1) ≤ j' * j' := by nlinarith
      omega
    · exact heq
    · exfalso
      have : (j' + 1) * (j' + 1) ≤ j * j := by nlinarith
      omega
  subst this
  exact ⟨rfl, by omega⟩

theorem spinCode_lt {j m jmax : Int} (h0 : 0 ≤ j) (hj : j ≤ jmax) (h1 : -j ≤ m) (h2 : m ≤ j) :
    0 ≤ (j + 1) * (j + 1) + m - j - 1 ∧ (j + 1) * (j + 1) + m - j - 1 < (jmax + 1) * (jmax + 1) := by
  have b := spinCode_bounds h1 h2
  constructor <;> nlinarith

/-- Euclid uniqueness for integers. -/
theorem intRadix_inj {B a b a' b' : Int} (hb0 : 0 ≤ b) (hb : b < B) (hb0' : 0 ≤ b') (hb' : b' < B)
    (h : a * B + b = a' * B + b') : a = a' ∧ b = b' := by
  have h1 : (a - a') * B = b' - b := by linarith
  have : a - a' = 0 := by
    by_contra hne
    rcases lt_or_gt_of_ne hne with hlt | hgt
    · have : (a - a') * B ≤ -1 * B := by nlinarith
      omega
    · have : 1 * B ≤ (a - a') * B := by nlinarith
      omega
  rw [this] at h1
  constructor <;> omega

theorem cgIdx_inj {jmax : Int} {t t' : Int × Int × Int × Int × Int} (h : CgLegal jmax t) (h' : CgLegal jmax t')
    (he : cgIdx jmax t.1 t.2.1 t.2.2.1 t.2.2.2.1 t.2.2.2.2 =
      cgIdx jmax t'.1 t'.2.1 t'.2.2.1 t'.2.2.2.1 t'.2.2.2.2) : t = t' := by
  obtain ⟨j1, j2, j3, m1, m2⟩ := t
  obtain ⟨j1', j2', j3', m1', m2'⟩ := t'
  unfold CgLegal at h h'
  simp only at h h' he
  obtain ⟨a1, a2, a3, a4, a5, a6, a7, a8, a9, a10⟩ := h
  obtain ⟨b1, b2, b3, b4, b5, b6, b7, b8, b9, b10⟩ := h'
  unfold cgIdx at he
  set A := (j1 + 1) * (j1 + 1) + m1 - j1 - 1
  set A' := (j1' + 1) * (j1' + 1) + m1' - j1' - 1
  have c2 := spinCode_lt a3 a4 a9 a10
  have c2' := spinCode_lt b3 b4 b9 b10
  set B := (j2 + 1) * (j2 + 1) + m2 - j2 - 1
  set B' := (j2' + 1) * (j2' + 1) + m2' - j2' - 1
  have he2 : (A * ((jmax + 1) * (jmax + 1)) + B) * (2 * jmax + 1) + j3 =
      (A' * ((jmax + 1) * (jmax + 1)) + B') * (2 * jmax + 1) + j3' := by linear_combination he
  obtain ⟨e1, e2⟩ := intRadix_inj a5 (by omega) b5 (by omega) he2
  obtain ⟨e3, e4⟩ := intRadix_inj c2.1 c2.2 c2'.1 c2'.2 e1
  obtain ⟨e5, e6⟩ := spinCode_inj a1 b1 a7 a8 b7 b8 e3
  obtain ⟨e7, e8⟩ := spinCode_inj a3 b3 a9 a10 b9 b10 e4
  subst e2 e5 e6 e7 e8
  rfl

theorem cgIdx_range {jmax : Int} {t : Int × Int × Int × Int × Int} (h : CgLegal jmax t) :
    0 ≤ cgIdx jmax t.1 t.2.1 t.2.2.1 t.2.2.2.1 t.2.2.2.2 ∧
      cgIdx jmax t.1 t.2.1 t.2.2.1 t.2.2.2.1 t.2.2.2.2 < cgSize jmax := by
  obtain ⟨j1, j2, j3, m1, m2⟩ := t
  unfold CgLegal at h
  simp only at h ⊢
  obtain ⟨a1, a2, a3, a4, a5, a6, a7, a8, a9, a10⟩ := h
  have c1 := spinCode_lt a1 a2 a7 a8
  have c2 := spinCode_lt a3 a4 a9 a10
  unfold cgIdx cgSize
  set A := (j1 + 1) * (j1 + 1) + m1 - j1 - 1
  set B := (j2 + 1) * (j2 + 1) + m2 - j2 - 1
  set K := (jmax + 1) * (jmax + 1) with hK
  have hj : 0 ≤ jmax := by omega
  have e1 : A * (jmax + 1) * (jmax + 1) * (2 * jmax + 1) + B * (2 * jmax + 1) + j3 =
      (A * K + B) * (2 * jmax + 1) + j3 := by rw [hK]; ring
  have e2 : (jmax + 1) * (jmax + 1) * (jmax + 1) * (jmax + 1) * (2 * jmax + 1) = (K * K) * (2 * jmax + 1) := by
    rw [hK]; ring
  rw [e1, e2]
  have hK0 : 0 ≤ K := by rw [hK]; positivity
  have h1 : 0 ≤ A * K + B := by nlinarith
  have h2 : A * K + B + 1 ≤ K * K := by nlinarith
  constructor
  · nlinarith
  · nlinarith

theorem cgTable_lookup (cg : Int → Int → Int → Int → Int → Int → ℝ) (jmax : Int) (init : Int → ℝ)
    (order : List (Int × Int × Int × Int × Int)) (hord : order.Perm (cgTuples jmax))
    (t : Int × Int × Int × Int × Int) (ht : CgLegal jmax t) :
    cgTable cg jmax init order (cgIdx jmax t.1 t.2.1 t.2.2.1 t.2.2.2.1 t.2.2.2.2) =
      cg t.1 t.2.1 t.2.2.1 t.2.2.2.1 t.2.2.2.2 (t.2.2.2.1 + t.2.2.2.2) := by
  unfold cgTable
  apply writeAll_eq
  · rw [List.mem_map]
    exact ⟨t, hord.mem_iff.2 (mem_cgTuples.2 ht), rfl⟩
  · intro w hw he
    obtain ⟨t', ht', rfl⟩ := List.mem_map.1 hw
    have := cgIdx_inj (mem_cgTuples.1 (hord.mem_iff.1 ht')) ht he
    subst this; rfl

/-! ### Six-j table -/

theorem sixjIdx_eq (jmax j1 j2 j3 j4 j5 j6 : Nat) : sixjIdx jmax j1 j2 j3 j4 j5 j6 =
    ((((j1 * (jmax + 1) + j2) * (jmax + 1) + j3) * (jmax + 1) + j4) * (jmax + 1) + j5) * (jmax + 1) + j6 := by
  unfold sixjIdx; ring

/-! ### Stored Legendre values -/

theorem powNeg1_of_tmod {m : Int} (hm : m < 0) : powNeg1 m = if m.tmod 2 = -1 then -1 else 1 := by
  unfold powNeg1
  have hcase : m.tmod 2 = -((m.natAbs % 2 : Nat) : Int) := by
    obtain ⟨n, hn⟩ : ∃ n : Nat, m = -(n : Int) := ⟨m.natAbs, by omega⟩
    subst hn
    rw [Int.neg_tmod, Int.tmod_eq_emod_of_nonneg (by omega)]
    simp
  split_ifs with h
  · rw [hcase] at h
    have : m.natAbs % 2 = 1 := by omega
    exact Odd.neg_one_pow (Nat.odd_iff.2 this)
  · rw [hcase] at h
    have : m.natAbs % 2 = 0 := by omega
    exact Even.neg_one_pow (Nat.even_iff.2 this)

theorem plmStored_eq {sph : Int → Int → ℝ → ℝ} {arr : Nat → ℝ} {lmax : Int} {c : ℝ}
    (harr : ∀ l m : Nat, (l : Int) ≤ lmax → m ≤ l → arr (gslIdx l m) = sph l m c) {l m : Int} (h0 : 0 ≤ l)
    (hl : l ≤ lmax) (hm : (m.natAbs : Int) ≤ l) : plmStored arr l m = plmSigned sph l m c := by
  unfold plmStored plmSigned
  have hv := harr l.toNat m.natAbs (by omega) (by omega)
  rw [Int.toNat_of_nonneg h0] at hv
  simp only [hv]
  by_cases hneg : m < 0
  · rw [if_neg (show ¬ m ≥ 0 by omega), powNeg1_of_tmod hneg]
    have : (m.natAbs : Int) = -m := by omega
    rw [this]
    by_cases hodd : m.tmod 2 = -1
    · rw [if_pos ⟨hneg, hodd⟩, if_pos hodd]; ring
    · rw [if_neg (by tauto), if_neg hodd]; ring
  · rw [if_neg (by tauto), if_pos (by omega)]
    have : (m.natAbs : Int) = m := by omega
    rw [this]

theorem sum_map_congr {α : Type} {l : List α} {f g : α → ℝ} (h : ∀ a ∈ l, f a = g a) :
    (l.map f).sum = (l.map g).sum := by
  rw [List.map_congr_left h]

end TicTac
