import Verif.Lemmas.NijmegenNear
import Verif.Props.ChpMatrix
/-! C108: the Nijmegen potential. -/
noncomputable section
namespace TicTac
open Polynomial Spec MeasureTheory Set

theorem tzOf_typeOf (Tz : Int) (old : NijType) (hz : |Tz| ≤ 1) : tzOf (nijTypeOf (-Tz) old) = Tz ∧ decide (nijTypeOf (-Tz) old = .pn) = decide (Tz = 0) := by
  have h := abs_le.1 hz
  have : Tz = -1 ∨ Tz = 0 ∨ Tz = 1 := by omega
  rcases this with rfl | rfl | rfl <;> simp [nijTypeOf, tzOf]

theorem wave_pars (S : Int) (J : Nat) (Lo Li T : Int) (hw : Waves S J Lo Li T) (hJ : J ≤ 9) (p : PhName) (hp : nijName J (nijKind S J Lo) = some p) (typ : NijType) :
    nijPars (nijTable p (nijIsign typ)) = parsOf (nijSet (decide (typ = .pn)) S J (decide (Lo ≠ J ∧ J ≠ 0))) ∧ (waveOf p).j = J ∧ ((waveOf p).iso : Int) = T := by
  obtain ⟨s1, ⟨s2, s2'⟩, -, -, s5⟩ := hw
  have w1 := abs_le.1 s2
  obtain ⟨t1, t2⟩ := s5
  rcases s1 with rfl | rfl
  · obtain rfl : Lo = J := by omega
    have hp : nijName J 1 = some p := by simpa [nijKind] using hp
    obtain ⟨p', e1, e2, -⟩ := nijName_singlet J hJ
    rw [hp] at e1; cases e1
    refine ⟨by simpa using pars_singlet J hJ p hp typ, by rw [e2], ?_⟩
    rw [e2]; push_cast; omega
  · rcases Nat.eq_zero_or_pos J with h0 | h0
    · subst h0
      obtain rfl : Lo = 1 := by push_cast at *; omega
      have hp : nijName 0 2 = some p := by simpa [nijKind] using hp
      refine ⟨by simpa using pars_triplet 0 hJ p hp typ, ?_⟩
      cases hp
      exact ⟨by decide, by rw [show (waveOf ⟨'3', 'P', 0⟩).iso = 1 by decide]; push_cast; omega⟩
    · by_cases hL : Lo = J
      · subst hL
        have hp : nijName J 2 = some p := by simpa [nijKind] using hp
        obtain ⟨p', e1, e2, -⟩ := nijName_triplet J h0 hJ
        rw [hp] at e1; cases e1
        refine ⟨by simpa using pars_triplet J hJ p hp typ, by rw [e2], ?_⟩
        rw [e2]; push_cast; omega
      · have hp : nijName J 3 = some p := by simpa [nijKind, hL, h0.ne'] using hp
        obtain ⟨p', e1, e2⟩ := nijName_coupled J h0 hJ
        rw [hp] at e1; cases e1
        have hLb : Lo = J - 1 ∨ Lo = J + 1 := by omega
        refine ⟨by simpa [hL, h0.ne'] using pars_coupled J h0 hJ p hp typ, by rw [e2], ?_⟩
        rw [e2]; push_cast; omega

/-- **C108.** For every pair of partial waves with `J ≤ 9`, all positive momenta that differ by at most 30ħc per fm, and every charge state, the element the program
uses (with its sign for mixing elements) is the partial-wave projection of the Nijmegen I force, if the numerical functions return the integrals they stand for. -/
theorem C108_partial_waves (N : NijNum) (dirs : ℝ → Vec × Vec) (hd : ∀ z, |z| ≤ 1 → Dirs z (dirs z).1 (dirs z).2) (qi qo : ℝ) (h1 : 0 < qi) (h2 : 0 < qo)
    (hN : NijExact N qo qi) (hq : |qo - qi| ≤ 30 * 197.326971941683) (S : Int) (J : Nat) (Lo Li T Tz : Int) (hw : Waves S J Lo Li T) (hz : |Tz| ≤ 1) (hJ : J ≤ 9) (old : NijType) :
    phase Lo Li * nijmegenV N qi qo (decide (Lo ≠ J)) S J Tz old (component S Lo Li J) =
      nijProjected dirs (nijmegenForce Tz T S J (decide (Lo ≠ J ∧ J ≠ 0)) qo qi) qo qi S J Lo Li / (2 * Real.pi) ^ 3 := by
  have hpos := nijSet_pos (decide (Tz = 0)) S J (decide (Lo ≠ J ∧ J ≠ 0))
  obtain ⟨e1, e2⟩ := tzOf_typeOf Tz old hz
  unfold nijmegenV vnijm nijmegenForce
  refine nij_element (force_cont _ hpos Tz T qo qi) J qo qi (by positivity) dirs hd hJ hq S Lo Li T hw _ fun p hp => ?_
  obtain ⟨p1, p2, p3⟩ := wave_pars S J Lo Li T hw hJ p hp (nijTypeOf (-Tz) old)
  have := vmom_agree N qo qi h2 h1 hN p (nijTypeOf (-Tz) old) _ (nijSet_pos ..) p1
  rw [p2, p3, e1, e2] at this
  exact this

/-- C108: waves above `J = 9` and momenta further apart get no force. -/
theorem C108_cut (N : NijNum) (qi qo : ℝ) (c : Bool) (S : Int) (J : Nat) (Tz : Int) (old : NijType) (h : 9 < J ∨ 30 * 197.326971941683 < |qo - qi|) :
    nijmegenV N qi qo c S J Tz old = 0 := by
  have key : vnijm N qi qo c S J (-Tz) old = 0 := by
    unfold vnijm nijmCollect
    rcases h with h | h
    · funext k
      fin_cases k <;> simp [h]
    · have e : ∀ p a, pnijmlsj p qo qi a = ⟨0, 0, 0, 0⟩ := fun p a => by unfold pnijmlsj; dsimp only; rw [if_pos (by exact h)]
      simp only [e]
      funext k
      have : ∀ (b : Bool) (i : Nat) (f : VPot → ℝ), f ⟨0, 0, 0, 0⟩ = 0 →
          ((if J > 9 ∨ b = false then none else Option.map (fun _ => (⟨0, 0, 0, 0⟩ : VPot)) (nijName J i)).map f).getD 0 = 0 := by
        intro b i f hf
        split_ifs
        · rfl
        · cases nijName J i <;> simp [hf]
      simp only [this _ _ VPot.v11 rfl, this _ _ VPot.v12 rfl, this _ _ VPot.v21 rfl, this _ _ VPot.v22 rfl]
      fin_cases k <;> simp
  unfold nijmegenV
  rw [key]
  funext k
  simp [reorderExternal]

/-- The hypotheses are met: the deuteron channel at 100 and 200 MeV. -/
example : NijExact exactNum 200 100 ∧ |(200 : ℝ) - 100| ≤ 30 * 197.326971941683 ∧ Waves 1 (1 : Nat) 0 2 0 ∧ |(0 : Int)| ≤ 1 ∧ (1 : Nat) ≤ 9 :=
  ⟨exactNum_ok _ _, by norm_num, ⟨Or.inr rfl, by decide, by decide, by decide, ⟨Or.inl rfl, by decide⟩⟩, by decide, by decide⟩

/-- The Nijmegen interaction as the matrix builder calls it. -/
def nijmegenModel (N : NijNum) (old : NijType) : PotModel := fun qi qo c S J _ Tz => nijmegenV N qi qo c S J.toNat Tz old

/-- `⟨Lo, po|V|Li, pi⟩` of the Nijmegen I force, cut at `J = 9` and at a momentum difference of 30ħc per fm. -/
def nijElement (S J Lo Li T Tz : Int) (po pi : ℝ) : ℝ :=
  if J ≤ 9 ∧ |po - pi| ≤ 30 * 197.326971941683 then
    nijProjected twoDirs (nijmegenForce Tz T S J.toNat (decide (Lo ≠ J ∧ J ≠ 0)) po pi) po pi S J.toNat Lo Li / (2 * Real.pi) ^ 3
  else 0

theorem nij_value (N : NijNum) (old : NijType) (qi qo : ℝ) (h1 : 0 < qi) (h2 : 0 < qo) (hN : NijExact N qo qi) (S J Lo Li T Tz : Int) (hw : Waves S J Lo Li T) (hz : |Tz| ≤ 1) :
    phase Lo Li * nijmegenModel N old qi qo (decide (Lo ≠ J)) S J T Tz (component S Lo Li J) = nijElement S J Lo Li T Tz qo qi := by
  have hJ0 : 0 ≤ J := le_trans (abs_nonneg _) hw.out.1
  obtain ⟨n, rfl⟩ : ∃ n : Nat, J = n := ⟨J.toNat, by omega⟩
  unfold nijElement nijmegenModel
  rw [Int.toNat_natCast]
  split_ifs with h
  · have := C108_partial_waves N twoDirs twoDirs_ok qi qo h1 h2 hN h.2 S n Lo Li T Tz hw hz (by omega) old
    simpa using this
  · rw [C108_cut N qi qo _ S n Tz old (by by_contra hc; push Not at hc; exact h ⟨by omega, hc.2⟩)]
    simp

theorem wpElement_congr (g : PotGrid) (f f' : ℝ → ℝ → ℝ) (hp : ∀ k < g.Np * (if g.mid then 1 else g.Nper), 0 < g.p k) (h : ∀ x y, 0 < x → 0 < y → f x y = f' x y)
    (i j : Nat) (hi : i < g.Np) (hj : j < g.Np) : wpElement g f i j = wpElement g f' i j := by
  unfold wpElement
  split_ifs at hp ⊢ with hm
  · rw [h _ _ (hp j (by simpa using hj)) (hp i (by simpa using hi))]
  · have hlt : ∀ i < g.Np, ∀ a < g.Nper, i * g.Nper + a < g.Np * g.Nper := fun i hi a ha => by nlinarith
    refine Finset.sum_congr rfl fun a ha => Finset.sum_congr rfl fun b hb => ?_
    rw [h _ _ (hp _ (hlt j hj b (Finset.mem_range.1 hb))) (hp _ (hlt i hi a (Finset.mem_range.1 ha)))]

/-- **C108 (stored matrices).** The matrices the program stores for the Nijmegen model are the wave-packet averages of its force, with the nn/np mixture. -/
theorem C108_stored_matrix (N : NijNum) (hN : ∀ po pi, 0 < po → 0 < pi → NijExact N po pi) (old : NijType)
    (p : PWParams) (ht : p.tensor = true) (hv : ValidTruncation p) (w : PWSpace) (h : constructPW p = some w) (g : PotGrid)
    (hp : ∀ k < g.Np * (if g.mid then 1 else g.Nper), 0 < g.p k)
    (hm : g.mid = false ∨ p.isoBreak = false) (junk : Job → Nat → Nat → Six) (init : PotKey → ℝ) :
    ∃ mem, potMatrices p g (nijmegenModel N old) junk init w.states = some mem ∧
      ∀ a ∈ w.states, ∀ b ∈ w.states, SameInteraction true a b → ∃ sl, slotOf p a = some sl ∧
        ∀ i < g.Np, ∀ j < g.Np, mem (sl, blockOf p a, blockOf p b, i, j) =
          wpElement g (fun pin pout => isospinMix p.isoBreak a b (nijElement a.S a.J a.L b.L a.T (-1) pout pin) (nijElement a.S a.J a.L b.L a.T 0 pout pin)) i j := by
  obtain ⟨mem, h1, h2⟩ := C32_potential_matrix p ht hv w h g hm (nijmegenModel N old) junk init
  refine ⟨mem, h1, fun a ha b hb hab => ?_⟩
  obtain ⟨sl, hs, hval⟩ := h2 a ha b hb hab
  refine ⟨sl, hs, fun i hi j hj => ?_⟩
  rw [hval i hi j hj]
  obtain ⟨w', hw', hw⟩ := C01_basis_exact p hv
  rw [h] at hw'; cases hw'
  have haA := (hw a).1 ha
  have hbA := (hw b).1 hb
  have fa := haA.facts
  have fb := hbA.facts
  obtain ⟨hS, hJJ, hL⟩ := hab
  obtain ⟨aS, aT, aJ, a1, a2, a3, a4⟩ := fa
  obtain ⟨bS, bT, bJ, b1, b2, b3, b4⟩ := fb
  apply wpElement_congr g _ _ hp _ i j hi hj
  intro x y hx hy
  unfold element
  have hw : Waves a.S a.J a.L b.L a.T := by
    refine ⟨aS, ⟨abs_le.2 ⟨?_, ?_⟩, ?_⟩, ⟨abs_le.2 ⟨?_, ?_⟩, ?_⟩, ?_, aT, a4⟩ <;> omega
  rw [← nij_value N old x y hx hy (hN y x hy hx) a.S a.J a.L b.L a.T 0 hw (by decide), ← nij_value N old x y hx hy (hN y x hy hx) a.S a.J a.L b.L a.T (-1) hw (by decide)]
  unfold isospinMix
  split_ifs <;> ring

theorem phase_abs (a b : Int) : |phase a b| ≤ 1 := by
  unfold phase
  split_ifs <;> norm_num

/-- **C108 (accuracy).** With `FDEXP` as written, and `SEX` and `CE1` right up to an error, the element differs from the projection of the force at most in proportion
to that error plus the `e^{-100}` that `FDEXP` drops. -/
theorem C108_accuracy (dirs : ℝ → Vec × Vec) (hd : ∀ z, |z| ≤ 1 → Dirs z (dirs z).1 (dirs z).2) (qi qo : ℝ) (h1 : 0 < qi) (h2 : 0 < qo)
    (hq : |qo - qi| ≤ 30 * 197.326971941683) (S : Int) (J : Nat) (Lo Li T Tz : Int) (hw : Waves S J Lo Li T) (hz : |Tz| ≤ 1) (hJ : J ≤ 9) (old : NijType) :
    ∃ K, 0 ≤ K ∧ ∀ N ε, 0 ≤ ε → NijNear N qo qi ε →
      |phase Lo Li * nijmegenV N qi qo (decide (Lo ≠ J)) S J Tz old (component S Lo Li J) -
        nijProjected dirs (nijmegenForce Tz T S J (decide (Lo ≠ J ∧ J ≠ 0)) qo qi) qo qi S J Lo Li / (2 * Real.pi) ^ 3| ≤ K * (ε + Real.exp (-100)) := by
  rw [← C108_partial_waves exactNum dirs hd qi qo h1 h2 (exactNum_ok _ _) hq S J Lo Li T Tz hw hz hJ old]
  exact (lip_element h2 h1 (decide (Lo ≠ J)) S J Tz old (component S Lo Li J)).smul (phase Lo Li)

/-- The hypotheses are met without error by functions that use `FDEXP` as written. -/
example (po pi : ℝ) : NijNear { exactNum with fdexp := fun x => if x ≤ -100 then 0 else Real.exp x } po pi 0 where
  yuk _ _ _ _ _ _ _ _ := ⟨fun _ _ => (abs_nonpos_iff.2 (sub_self _)), fun _ _ _ => (abs_nonpos_iff.2 (sub_self _))⟩
  dif _ _ _ _ _ := ⟨fun _ _ => (abs_nonpos_iff.2 (sub_self _)), fun _ _ _ => (abs_nonpos_iff.2 (sub_self _))⟩
  ce1 _ _ := abs_nonpos_iff.2 (sub_self _)
  fdexp _ := rfl

theorem lip_wpElement {P : NijNum → ℝ → Prop} (g : PotGrid) (f : NijNum → ℝ → ℝ → ℝ) (i j : Nat) (hi : i < g.Np) (hj : j < g.Np)
    (h : ∀ k < g.Np * (if g.mid then 1 else g.Nper), ∀ l < g.Np * (if g.mid then 1 else g.Nper), LipOn P fun N => f N (g.p k) (g.p l)) :
    LipOn P fun N => wpElement g (f N) i j := by
  unfold wpElement
  have hdiv : ∀ (F : NijNum → ℝ) (a b : ℝ), LipOn P F → LipOn P fun N => a * F N / b := by
    intro F a b hF
    have := hF.smul (a / b)
    refine (funext fun N => ?_ : (fun N => a / b * F N) = fun N => a * F N / b) ▸ this
    ring
  by_cases hm : g.mid = true
  · simp only [if_pos hm] at h ⊢
    exact hdiv _ _ _ (h j (by omega) i (by omega))
  · simp only [if_neg hm] at h ⊢
    have hlt : ∀ i < g.Np, ∀ a < g.Nper, i * g.Nper + a < g.Np * g.Nper := fun i hi a ha => by nlinarith
    exact LipOn.fsum _ _ fun a ha => LipOn.fsum _ _ fun b hb => hdiv _ _ _ (h _ (hlt j hj b (Finset.mem_range.1 hb)) _ (hlt i hi a (Finset.mem_range.1 ha)))

/-- **C108 (accuracy of stored matrices).** The same for every entry of the stored matrices. -/
theorem C108_stored_accuracy (old : NijType) (p : PWParams) (ht : p.tensor = true) (hv : ValidTruncation p) (w : PWSpace) (h : constructPW p = some w) (g : PotGrid)
    (hp : ∀ k < g.Np * (if g.mid then 1 else g.Nper), 0 < g.p k) (hm : g.mid = false ∨ p.isoBreak = false) (junk : Job → Nat → Nat → Six) (init : PotKey → ℝ)
    (a : PWState) (ha : a ∈ w.states) (b : PWState) (hb : b ∈ w.states) (hab : SameInteraction true a b) (i j : Nat) (hi : i < g.Np) (hj : j < g.Np) :
    ∃ K, 0 ≤ K ∧ ∀ N ε, 0 ≤ ε → (∀ k < g.Np * (if g.mid then 1 else g.Nper), ∀ l < g.Np * (if g.mid then 1 else g.Nper), NijNear N (g.p k) (g.p l) ε) →
      ∃ mem sl, potMatrices p g (nijmegenModel N old) junk init w.states = some mem ∧ slotOf p a = some sl ∧
        |mem (sl, blockOf p a, blockOf p b, i, j) -
          wpElement g (fun pin pout => isospinMix p.isoBreak a b (nijElement a.S a.J a.L b.L a.T (-1) pout pin) (nijElement a.S a.J a.L b.L a.T 0 pout pin)) i j| ≤
          K * (ε + Real.exp (-100)) := by
  obtain ⟨mem0, e1, e2⟩ := C108_stored_matrix exactNum (fun po pi _ _ => exactNum_ok po pi) old p ht hv w h g hp hm junk init
  obtain ⟨sl0, s1, s2⟩ := e2 a ha b hb hab
  obtain ⟨mem0', f1, f2⟩ := C32_potential_matrix p ht hv w h g hm (nijmegenModel exactNum old) junk init
  rw [e1] at f1; cases f1
  obtain ⟨sl0', g1, g2⟩ := f2 a ha b hb hab
  rw [s1] at g1; cases g1
  have exact0 := (s2 i hi j hj).symm.trans (g2 i hi j hj)
  have lip : LipOn (fun N ε => ∀ k < g.Np * (if g.mid then 1 else g.Nper), ∀ l < g.Np * (if g.mid then 1 else g.Nper), NijNear N (g.p k) (g.p l) ε)
      fun N => wpElement g (fun pin pout => element (nijmegenModel N old) p.isoBreak a b pin pout) i j := by
    refine lip_wpElement g _ i j hi hj fun k hk l hl => ?_
    have le : ∀ Tz, LipOn (fun N ε => ∀ k < g.Np * (if g.mid then 1 else g.Nper), ∀ l < g.Np * (if g.mid then 1 else g.Nper), NijNear N (g.p k) (g.p l) ε)
        fun N => nijmegenV N (g.p k) (g.p l) (decide (a.L ≠ a.J)) a.S a.J.toNat Tz old (component a.S a.L b.L a.J) := fun Tz =>
      LipOn.mono (lip_element (hp l hl) (hp k hk) (decide (a.L ≠ a.J)) a.S a.J.toNat Tz old (component a.S a.L b.L a.J)) fun N ε hN => hN l hl k hk
    generalize (fun (N : NijNum) (ε : ℝ) => ∀ k < g.Np * (if g.mid then 1 else g.Nper), ∀ l < g.Np * (if g.mid then 1 else g.Nper), NijNear N (g.p k) (g.p l) ε) = P at le ⊢
    unfold element isospinMix nijmegenModel
    refine LipOn.smul _ ?_
    split_ifs
    · exact le 0
    · exact ((le (-1)).smul _).add ((le 0).smul _)
    · exact ((le (-1)).smul _).add ((le 0).smul _)
    · have := (((le (-1)).add ((le 0).smul (-1))).smul (Real.sqrt 2 / 3))
      simpa only [neg_one_mul, ← sub_eq_add_neg] using this
    · exact ((le (-1)).smul _).add ((le 0).smul _)
  obtain ⟨K, k0, hK⟩ := lip
  refine ⟨K, k0, fun N ε hε hN => ?_⟩
  obtain ⟨mem, h1, h2⟩ := C32_potential_matrix p ht hv w h g hm (nijmegenModel N old) junk init
  obtain ⟨sl, t1, t2⟩ := h2 a ha b hb hab
  refine ⟨mem, sl, h1, t1, ?_⟩
  rw [t2 i hi j hj, exact0]
  exact hK N ε hε hN

end TicTac
end
