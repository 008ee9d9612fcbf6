import Verif.Props.BreakupShell
import Verif.Props.RunExample
/-! Non-vacuity of C117. -/
noncomputable section
namespace TicTac
open Spec Classical
namespace Example

/-- Spectator bins of 5 MeV. -/
def qF (i : Nat) : ℝ := 5 * i

/-- Boundaries of the pair's energy bins, one eV apart. -/
def eF : Bool → Int → ℝ := fun _ i => i / 1000000

def EcomF : ℝ := (ndEnergy 0 (qF 11) + ndEnergy 0 (qF 12)) / 2

theorem gridF : IsGrid 13 qF := ⟨by simp [qF], fun i _ => by unfold qF; push_cast; linarith⟩

/-- **Non-vacuity of C117.** A channel, a fine grid and an energy above the threshold for which the search for cells succeeds; some continuum cell is recorded and not open, and some cell
is open. -/
example : ∃ (w : PWSpace) (l : List (Int × Int × Int)) (G : Nat → ℂ), constructPW par = some w ∧ IsChannel par 1 1 (w.block 0) ∧ par.tensor = true ∧
    breakupEnergy par 3 13 qF eF (-2) (w.block 0) EcomF = .ok l ∧ 0 ≤ EcomF + -2 ∧ resolventArray par 3 13 qF eF (EcomF + -2) (w.block 0) (fun _ => 7) = some G ∧
    (∀ a, ∀ k < 3, edgeOf par 3 eF ((w.block 0).get a) k < edgeOf par 3 eF ((w.block 0).get a) (k + 1)) ∧
    (∀ y : Idx (w.block 0).length 13 3, 0 ≤ edgeOf par 3 eF ((w.block 0).get y.1) y.2.2 →
      cellHigh (fun a k => edgeOf par 3 eF ((w.block 0).get a) k) qF y - cellLow (fun a k => edgeOf par 3 eF ((w.block 0).get a) k) qF y ≤ -(-2) / 2) ∧
    (∃ y : Idx (w.block 0).length 13 3, 0 ≤ edgeOf par 3 eF ((w.block 0).get y.1) y.2.2 ∧ ((y.1 : Int), (y.2.1 : Int), (y.2.2 : Int)) ∈ l ∧ (G (flat y)).im = 0) ∧
    ∃ y : Idx (w.block 0).length 13 3, (G (flat y)).im < 0 := by
  obtain ⟨w, hw, hmem⟩ := C01_basis_exact par par_valid
  obtain ⟨n1, n2⟩ := block_size hw
  have hch : IsChannel par 1 1 (w.block 0) := (block_channel par_valid hw (show 0 < w.nChn by omega)).1
  have hdm : deuteronState ∈ w.block 0 := (hch.2 _).2 ⟨deuteron_allowed, rfl, rfl⟩
  obtain ⟨a0, ha0⟩ := List.get_of_mem hdm
  obtain ⟨r, hr, hr1, hr2⟩ : ∃ r : ℝ, (∀ i : Nat, ndEnergy 0 (qF i) = 25 * (i : ℝ) ^ 2 * r) ∧ 1 / 1254 ≤ r ∧ r ≤ 1 / 1252 := by
    have hm : (626 : ℝ) ≤ ndReducedMass 0 ∧ ndReducedMass 0 ≤ 627 := by unfold ndReducedMass; norm_num [Mn, Mp]
    refine ⟨1 / (2 * ndReducedMass 0), fun i => by unfold ndEnergy qF; ring, ?_, ?_⟩
    · exact div_le_div_of_nonneg_left (by norm_num) (by linarith [hm.1]) (by linarith [hm.2])
    · exact div_le_div_of_nonneg_left (by norm_num) (by norm_num) (by linarith [hm.1])
  have hptr : ∀ s ∈ w.block 0, ∃ pt, ePtr par 3 s = some pt := by
    intro s hs
    obtain ⟨b, n, -, h, -⟩ := ePtr_eq (p := par) rfl 3 (IsChannel.allowed hch hs)
    exact ⟨_, h⟩
  have hp0 : ePtr par 3 ((w.block 0).get a0) = some (true, 0) := by rw [ha0]; decide
  have hedge : ∀ k : Nat, edgeOf par 3 eF ((w.block 0).get a0) k = k / 1000000 := by
    intro k
    obtain ⟨b, n, hp, hk⟩ := edge_ptr (p := par) rfl hch 3 eF a0
    rw [hp0] at hp; cases hp
    rw [hk]; unfold eF; push_cast; ring
  have hE : EcomF = 3312.5 * r := by unfold EcomF; rw [hr, hr]; push_cast; ring
  have h0 : 0 ≤ EcomF + -2 := by rw [hE]; linarith
  have hmono : ∀ a, ∀ k < 3, edgeOf par 3 eF ((w.block 0).get a) k < edgeOf par 3 eF ((w.block 0).get a) (k + 1) := by
    intro a k _
    obtain ⟨b, n, hp, hk⟩ := edge_ptr (p := par) rfl hch 3 eF a
    rw [hk, hk]; unfold eF; push_cast; linarith
  have hfine : ∀ y : Idx (w.block 0).length 13 3, 0 ≤ edgeOf par 3 eF ((w.block 0).get y.1) y.2.2 →
      cellHigh (fun a k => edgeOf par 3 eF ((w.block 0).get a) k) qF y - cellLow (fun a k => edgeOf par 3 eF ((w.block 0).get a) k) qF y ≤ -(-2) / 2 := by
    intro y _
    obtain ⟨b, n, hp, hk⟩ := edge_ptr (p := par) rfl hch 3 eF y.1
    unfold cellHigh cellLow
    dsimp only
    rw [hk, hk, hr, hr]
    unfold eF
    have h13 : ((y.2.1 : Nat) : ℝ) ≤ 12 := by exact_mod_cast (show (y.2.1 : Nat) ≤ 12 by have := y.2.1.2; omega)
    generalize ((y.2.1 : Nat)) = i at h13
    have : 25 * ((i + 1 : Nat) : ℝ) ^ 2 * r - 25 * (i : ℝ) ^ 2 * r = (50 * (i : ℝ) + 25) * r := by push_cast; ring
    have h2 : (50 * (i : ℝ) + 25) * r ≤ 625 * (1 / 1252) := mul_le_mul (by linarith) hr2 (by linarith) (by norm_num)
    push_cast at this ⊢
    linarith
  have hit : StateCellHit par 3 qF eF EcomF ((w.block 0).get a0) 11 0 := by
    refine ⟨true, 0, hp0, ?_, ?_, ?_, ?_⟩
    · rw [hr, hE]; unfold eF; push_cast; linarith
    · rw [hr, hE]; unfold eF; push_cast; linarith
    · unfold eF; norm_num
    · unfold eF; norm_num
  obtain ⟨l, hl⟩ := breakup_ok (Eb := -2) hptr (show 11 < 13 by norm_num) (show 0 < 3 by norm_num) hit
  obtain ⟨G, hG, -⟩ := resolventArray_eq par rfl 3 13 qF eF (EcomF + -2) (w.block 0) (fun s hs => IsChannel.allowed hch hs) (fun _ => 7)
  refine ⟨w, l, G, hw, hch, rfl, hl, h0, hG, hmono, hfine, ⟨(a0, ⟨11, by norm_num⟩, ⟨0, by norm_num⟩), ?_, ?_, ?_⟩, ⟨(a0, ⟨5, by norm_num⟩, ⟨0, by norm_num⟩), ?_⟩⟩
  · dsimp only; rw [hedge]; norm_num
  · exact ((C40_recorded_cells par 3 13 qF eF (-2) EcomF _ l hl).2 h0).2.2 a0 a0.2 11 (by norm_num) 0 (by norm_num) hit
  · refine (C117_fine_grid rfl hch gridF (fun _ _ => rfl) hmono hl h0 hG hfine _ ?_ ?_).2
    · dsimp only; rw [hedge]; norm_num
    · exact ((C40_recorded_cells par 3 13 qF eF (-2) EcomF _ l hl).2 h0).2.2 a0 a0.2 11 (by norm_num) 0 (by norm_num) hit
  · refine (C117_open rfl hch gridF (fun _ _ => rfl) hl h0 (by norm_num) hG _ ?_ ?_).1.2 ?_
    · dsimp only; rw [hedge]; norm_num
    · exact hmono _ _ (by norm_num)
    · unfold cellLow cellHigh
      dsimp only
      rw [hedge, hedge, hr, hr, hE]
      push_cast
      constructor <;> linarith

end Example
end TicTac
end
