import Verif.Model.Layout
import Mathlib.Tactic.Ring
import Mathlib.Tactic.Linarith
import Mathlib.Tactic.NormNum
import Mathlib.Data.Nat.Choose.Basic
namespace TicTac

/-- Two-digit mixed radix. -/
theorem radix_lt {A B a b : Nat} (ha : a < A) (hb : b < B) : a * B + b < A * B := by
  have : (a + 1) * B ≤ A * B := Nat.mul_le_mul_right _ ha
  have : (a + 1) * B = a * B + B := by ring
  omega

theorem radix_div {B a b : Nat} (hb : b < B) : (a * B + b) / B = a := by
  rw [Nat.add_comm, Nat.add_mul_div_right _ _ (by omega), Nat.div_eq_of_lt hb]; omega

theorem radix_mod {B a b : Nat} (hb : b < B) : (a * B + b) % B = b := by
  rw [Nat.add_comm, Nat.add_mul_mod_self_right, Nat.mod_eq_of_lt hb]

theorem radix_inj {B a b a' b' : Nat} (hb : b < B) (hb' : b' < B) (h : a * B + b = a' * B + b') :
    a = a' ∧ b = b' := by
  constructor
  · have := congrArg (· / B) h
    simpa [radix_div hb, radix_div hb'] using this
  · have := congrArg (· % B) h
    simpa [radix_mod hb, radix_mod hb'] using this

theorem radix_surj {A B i : Nat} (h : i < A * B) : ∃ a b, a < A ∧ b < B ∧ a * B + b = i := by
  have hB : 0 < B := by
    rcases Nat.eq_zero_or_pos B with h0 | h0
    · subst h0; simp at h
    · exact h0
  refine ⟨i / B, i % B, ?_, Nat.mod_lt _ hB, ?_⟩
  · exact (Nat.div_lt_iff_lt_mul hB).2 h
  · rw [Nat.mul_comm]; exact Nat.div_add_mod i B

theorem idxAQP_eq (Nq Np a q p : Nat) : idxAQP Nq Np a q p = a * (Nq * Np) + (q * Np + p) := by
  unfold idxAQP; ring

theorem idxOverlap_eq (Np Nq qp pp q p : Nat) :
    idxOverlap Np Nq qp pp q p = qp * (Np * (Nq * Np)) + (pp * (Nq * Np) + (q * Np + p)) := by
  unfold idxOverlap; ring

theorem idxPlm_eq (Np Nphi Nx qp pp phi x : Nat) :
    idxPlm Np Nphi Nx qp pp phi x = qp * (Np * (Nphi * Nx)) + (pp * (Nphi * Nx) + (phi * Nx + x)) := by
  unfold idxPlm; ring

theorem idxU_eq (nd nq dr dc q : Nat) : idxU nd nq dr dc q = dr * (nd * nq) + (dc * nq + q) := by
  unfold idxU; ring

theorem idxVunco_eq (Np chn r c : Nat) : idxVunco Np chn r c = chn * (Np * Np) + (r * Np + c) := by
  unfold idxVunco; ring

theorem idxVcoup_eq (Np chn br bc r c : Nat) : idxVcoup Np chn br bc r c =
    chn * (2 * Np * (2 * Np)) + ((br * Np + r) * (2 * Np) + (bc * Np + c)) := by
  unfold idxVcoup; ring

theorem idxAtilde_eq (dim Lmax a a' L : Nat) :
    idxAtilde dim Lmax a a' L = a * (dim * (Lmax + 1)) + (a' * (Lmax + 1) + L) := by
  unfold idxAtilde; ring

/-- Packed index in closed form, doubled to avoid division. -/
theorem two_mul_idxPacked (n r c : Nat) :
    2 * idxPacked n r c = 2 * n * r - r * r - r + 2 * c := by
  unfold idxPacked
  have h1 : (2 : Int) ∣ (n : Int) * ((n : Int) - 1) := by
    have := Int.even_mul_succ_self ((n : Int) - 1)
    rw [sub_add_cancel, mul_comm] at this
    exact this.two_dvd
  have h2 : (2 : Int) ∣ ((n : Int) - r) * ((n : Int) - r - 1) := by
    have := Int.even_mul_succ_self ((n : Int) - r - 1)
    rw [sub_add_cancel, mul_comm] at this
    exact this.two_dvd
  obtain ⟨u, hu⟩ := h1
  obtain ⟨v, hv⟩ := h2
  rw [hu, hv, Int.mul_ediv_cancel_left _ (by decide), Int.mul_ediv_cancel_left _ (by decide)]
  have e : 2 * (u - v + (c : Int)) = 2 * u - 2 * v + 2 * c := by ring
  rw [e, ← hu, ← hv]; ring

end TicTac
