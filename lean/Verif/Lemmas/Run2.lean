import Verif.Lemmas.Run
import Verif.Spec.Run
/-! Lemmas for the whole run: the scattering basis as a matrix in the three-nucleon space. -/
noncomputable section
namespace TicTac
open Spec
open Classical

/-- Every row of a channel matrix belongs to a bin of some state connected with `x`. -/
theorem row_cover {p : PWParams} (ht : p.tensor = true) {twoJ3 P : Int} {states : List PWState} (h : IsChannel p twoJ3 P states)
    (x : PWState) (hx : x ∈ states) {b : Bool} {n : Int} (hslot : slotOf p x = some (b, n)) (N k : Nat) (hk : k < chnDim N b) :
    ∃ a : Fin states.length, PairConnected x (states.get a) ∧ ∃ t : Fin N, chanPos N (states.get a) t = k := by
  have hs := sum_connected ht h x hx hslot N (fun m => if m = k then 1 else 0)
  rw [Finset.sum_ite_eq' (Finset.range (chnDim N b)) k, if_pos (Finset.mem_range.2 hk)] at hs
  by_contra hno
  push_neg at hno
  rw [Finset.sum_eq_zero] at hs
  · exact zero_ne_one hs
  · intro a _
    split_ifs with hc
    · refine Finset.sum_eq_zero fun t _ => ?_
      rw [if_neg (hno a hc t)]
    · rfl

/-- The states of one channel are a channel in the sense of the specification. -/
theorem channel_of_state {p : PWParams} (hv : ValidTruncation p) {w : PWSpace} (h : constructPW p = some w) (J P : Int) :
    IsChannel p J P (w.states.filter fun s => decide (s.twoJ3 = J ∧ s.P = P)) := by
  obtain ⟨w', hw', hw⟩ := C01_basis_exact p hv
  rw [h] at hw'; cases hw'
  refine ⟨(C02_no_duplicates p w h).filter _, fun s => ?_⟩
  rw [List.mem_filter, hw]
  simp

/-- A flat array of channel matrices with given elements. -/
def flatOf (N : Nat) (F : Bool → Int → Nat → Nat → ℝ) : Bool → Int → ℝ := fun b i =>
  let d := chnDim N b
  F b (i / ((d * d : Nat) : Int)) ((i % ((d * d : Nat) : Int)).toNat / d) ((i % ((d * d : Nat) : Int)).toNat % d)

theorem flatOf_eq (N : Nat) (F : Bool → Int → Nat → Nat → ℝ) (b : Bool) (n : Int) (r c : Nat) (hr : r < chnDim N b) (hc : c < chnDim N b) :
    flatOf N F b (n * (chnDim N b * chnDim N b : Nat) + (r * chnDim N b + c : Nat)) = F b n r c := by
  unfold flatOf
  dsimp only
  generalize chnDim N b = d at hr hc
  have hlt : r * d + c < d * d := radix_lt hr hc
  have hd : ((d * d : Nat) : Int) ≠ 0 := by omega
  have h1 : (n * (d * d : Nat) + (r * d + c : Nat)) % ((d * d : Nat) : Int) = ((r * d + c : Nat) : Int) := by
    rw [Int.add_comm, Int.add_mul_emod_self_right]
    exact Int.emod_eq_of_lt (by omega) (by exact_mod_cast hlt)
  have h2 : (n * (d * d : Nat) + (r * d + c : Nat)) / ((d * d : Nat) : Int) = n := by
    rw [Int.add_comm, Int.add_mul_ediv_right _ _ hd, Int.ediv_eq_zero_of_lt (by omega) (by exact_mod_cast hlt), zero_add]
  rw [h1, h2, Int.toNat_natCast, radix_div hc, radix_mod hc]

section
variable {p : PWParams} (ht : p.tensor = true) {twoJ3 P : Int} {states : List PWState} (h : IsChannel p twoJ3 P states) {Nq Np : Nat}
include ht h

/-- Slot of a state of the channel, and of its partners. -/
theorem slot_info (x y : Fin states.length) (hc : PairConnected (states.get x) (states.get y)) :
    ∃ b n, slotOf p (states.get x) = some (b, n) ∧ slotOf p (states.get y) = some (b, n) ∧ (SecondMember (states.get x) → b = true) ∧
      (SecondMember (states.get y) → b = true) := by
  have hx := IsChannel.allowed h (List.get_mem states x)
  have hy := IsChannel.allowed h (List.get_mem states y)
  obtain ⟨b, n, s1, s2, s3, _⟩ := kernelPtr_eq ht hx hy
  exact ⟨b, n, s1, by rw [← slot_connected ht hx hy hc, s1], s2, s3 hc⟩

/-- Entry of a two-nucleon operator between connected states. -/
theorem twoBody_apply (X : Bool → Int → ℝ) (x y : Idx states.length Nq Np) (hq : x.2.1 = y.2.1)
    (hc : PairConnected (states.get x.1) (states.get y.1)) {b : Bool} {n : Int} (hs : slotOf p (states.get x.1) = some (b, n)) :
    twoBody p states Nq Np X x y =
      X b (n * (chnDim Np b * chnDim Np b : Nat) + (chanPos Np (states.get x.1) x.2.2 * chnDim Np b + chanPos Np (states.get y.1) y.2.2 : Nat)) := by
  unfold twoBody
  rw [if_pos ⟨hq, hc⟩]
  unfold channelMatrix
  rw [hs]

omit ht h in
theorem twoBody_off (X : Bool → Int → ℝ) (x y : Idx states.length Nq Np)
    (hc : ¬ (x.2.1 = y.2.1 ∧ PairConnected (states.get x.1) (states.get y.1))) : twoBody p states Nq Np X x y = 0 := by
  unfold twoBody
  rw [if_neg hc]

/-- Transposition exchanges row and column of every channel matrix. -/
theorem twoBody_transpose (C : Bool → Int → ℝ) :
    (twoBody p states Nq Np C).transpose = twoBody p states Nq Np
      (flatOf Np fun b n r c => C b (n * (chnDim Np b * chnDim Np b : Nat) + (c * chnDim Np b + r : Nat))) := by
  ext x y
  rw [Matrix.transpose_apply]
  by_cases hc : x.2.1 = y.2.1 ∧ PairConnected (states.get x.1) (states.get y.1)
  · obtain ⟨b, n, s1, s2, s3, s4⟩ := slot_info ht h x.1 y.1 hc.2
    rw [twoBody_apply ht h C y x hc.1.symm (pairConnected_symm hc.2) s2, twoBody_apply ht h _ x y hc.1 hc.2 s1,
      flatOf_eq _ _ _ _ _ _ (chanPos_lt ht h s3 _) (chanPos_lt ht h s4 _)]
  · rw [twoBody_off C y x (fun hh => hc ⟨hh.1.symm, pairConnected_symm hh.2⟩), twoBody_off _ x y hc]

end

/-- Number of the eigenpair stored at bin `i` of state `s`. -/
def eigNum (b : Bool) (s : PWState) (i : Nat) : Nat := if b then 2 * i + secNum s else i

theorem eigNum_pos (N : Nat) (b : Bool) (s : PWState) (hb : SecondMember s → b = true) (i : Nat) (hi : i < N) :
    eigNum b s i < chnDim N b ∧ swpPos N b (eigNum b s i) = chanPos N s i := by
  unfold eigNum chnDim swpPos chanPos secNum
  cases b
  · simp only [Bool.false_eq_true, if_false]
    rw [if_neg (fun hh => by simpa using hb hh)]
    exact ⟨hi, rfl⟩
  · simp only [if_true]
    by_cases g : SecondMember s
    · rw [if_pos g, if_pos g, if_neg (by omega)]
      constructor
      · omega
      · congr 1; omega
    · rw [if_neg g, if_neg g, if_pos (by omega)]
      constructor <;> omega

/-- The Rayleigh quotient of an eigenvector is its energy. -/
theorem rayleigh {dim : Nat} {H : Nat → Nat → ℝ} {lam : Nat → ℝ} {vec : Nat → Nat → ℝ} (h : ChannelSolved dim H lam vec) (k : Nat) (hk : k < dim) :
    (∑ r ∈ Finset.range dim, vec r k * ∑ c ∈ Finset.range dim, H r c * vec c k) = lam k := by
  obtain ⟨_, h2, h3⟩ := h
  have e : ∀ r ∈ Finset.range dim, vec r k * ∑ c ∈ Finset.range dim, H r c * vec c k = lam k * (vec r k * vec r k) := by
    intro r hr
    rw [h2 k hk r (Finset.mem_range.1 hr)]; ring
  rw [Finset.sum_congr rfl e, ← Finset.mul_sum, h3 k hk k hk, if_pos rfl, mul_one]

end TicTac
end
