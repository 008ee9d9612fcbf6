import Verif.Props.Chp
import Verif.Props.PotModes
/-! C93 for the stored matrices, C94: the chiral potential matrices are symmetric. -/
noncomputable section
namespace TicTac
open Matrix Spec

/-- A chiral potential as the code that builds the matrices sees it (zeros where the code reads beyond its table). -/
def chiralModel (rule : List (ℝ × ℝ)) (prof : Profiles) (s : ChpSet) : PotModel := fun qi qo c S J T Tz => (chiralV rule prof s qi qo c S J T Tz).getD 0

/-- Two directions with a given cosine. -/
def twoDirs (z : ℝ) : Vec × Vec := (![0, 0, 1], ![Real.sqrt (1 - z ^ 2), 0, z])

theorem twoDirs_ok (z : ℝ) (hz : |z| ≤ 1) : Dirs z (twoDirs z).1 (twoDirs z).2 := by
  have h1 : z ^ 2 ≤ 1 := by rw [sq_le_one_iff_abs_le_one]; exact hz
  have h2 := Real.mul_self_sqrt (show (0 : ℝ) ≤ 1 - z ^ 2 by linarith)
  refine ⟨?_, ?_, ?_⟩ <;> simp [twoDirs, dotProduct, Fin.sum_univ_three]
  linarith

/-- C93: above twice the cutoff there is no force. -/
theorem C93_cut (m : ChiralModel) (a : Nat → ℝ) (rule : List (ℝ × ℝ)) (prof : Profiles) (qi qo : ℝ) (c : Bool) (S J T Tz : Int)
    (h : 2 * cutoff m < qi ∨ 2 * cutoff m < qo) : chiralV rule prof (preset m a) qi qo c S J T Tz = some 0 := by
  obtain ⟨_, p2, _⟩ := preset_basic m a
  unfold chiralV chp
  split_ifs with h1 h2
  · simp only [Option.map_some, Option.some.injEq]; funext k; simp [reorderExternal]
  · simp only [Option.map_some, Option.some.injEq]; funext k; simp [reorderExternal]
  · exfalso; apply h2; rw [p2]; rcases h with h | h
    · exact Or.inr h
    · exact Or.inl h

/-- The force between nucleons as the wave-packet matrices need it, zero above twice the cutoff. -/
def cutElement (rule : List (ℝ × ℝ)) (prof : Profiles) (m : ChiralModel) (a : Nat → ℝ) (S J Lo Li T Tz : Int) (po pi : ℝ) : ℝ :=
  if pi ≤ 2 * cutoff m ∧ po ≤ 2 * cutoff m then chiralElement rule twoDirs prof m (constants a m) S J Lo Li T Tz po pi else 0

theorem chiral_value (m : ChiralModel) (a : Nat → ℝ) (rule : List (ℝ × ℝ)) (hr : ∀ xw ∈ rule, |xw.1| ≤ 1)
    (prof : Profiles) (qi qo : ℝ) (S J Lo Li T Tz : Int) (hw : Waves S J Lo Li T) (hz : |Tz| ≤ T) (hJ : J ≤ 38) :
    phase Lo Li * chiralModel rule prof (preset m a) qi qo (decide (Lo ≠ J)) S J T Tz (component S Lo Li J) = cutElement rule prof m a S J Lo Li T Tz qo qi := by
  unfold cutElement chiralModel
  split_ifs with h
  · obtain ⟨V, h1, h2⟩ := C93_partial_waves m a rule twoDirs (fun xw hx => twoDirs_ok _ (hr xw hx)) prof qi qo S J Lo Li T Tz hw hz hJ h.1 h.2
    rw [h1, Option.getD_some, h2]
  · rw [C93_cut m a rule prof qi qo _ S J T Tz (by by_contra hc; push Not at hc; exact h hc)]
    simp

/-- **C93 (stored matrices).** The matrices the program stores for a chiral model are the wave-packet averages of its force, with the nn/np mixture of the three-nucleon
system. -/
theorem C93_stored_matrix (m : ChiralModel) (par : Nat → ℝ) (rule : List (ℝ × ℝ)) (hr : ∀ xw ∈ rule, |xw.1| ≤ 1) (prof : Profiles)
    (p : PWParams) (ht : p.tensor = true) (hv : ValidTruncation p) (hJ : p.J2max ≤ 38) (w : PWSpace) (h : constructPW p = some w) (g : PotGrid)
    (hm : g.mid = false ∨ p.isoBreak = false) (junk : Job → Nat → Nat → Six) (init : PotKey → ℝ) :
    ∃ mem, potMatrices p g (chiralModel rule prof (preset m par)) junk init w.states = some mem ∧
      ∀ a ∈ w.states, ∀ b ∈ w.states, SameInteraction true a b → ∃ sl, slotOf p a = some sl ∧
        ∀ i < g.Np, ∀ j < g.Np, mem (sl, blockOf p a, blockOf p b, i, j) =
          wpElement g (fun pin pout => isospinMix p.isoBreak a b (cutElement rule prof m par a.S a.J a.L b.L a.T (-1) pout pin)
            (cutElement rule prof m par a.S a.J a.L b.L a.T 0 pout pin)) i j := by
  obtain ⟨mem, h1, h2⟩ := C32_potential_matrix p ht hv w h g hm (chiralModel rule prof (preset m par)) junk init
  refine ⟨mem, h1, fun a ha b hb hab => ?_⟩
  obtain ⟨sl, hs, hval⟩ := h2 a ha b hb hab
  refine ⟨sl, hs, fun i hi j hj => ?_⟩
  rw [hval i hi j hj]
  obtain ⟨w', hw', hw⟩ := C01_basis_exact p hv
  rw [h] at hw'; cases hw'
  have haA := (hw a).1 ha
  have hbA := (hw b).1 hb
  have fa := haA.facts
  have fb := hbA.facts
  obtain ⟨hS, hJJ, hL⟩ := hab
  obtain ⟨aS, aT, aJ, a1, a2, a3, a4⟩ := fa
  obtain ⟨bS, bT, bJ, b1, b2, b3, b4⟩ := fb
  congr 1
  funext x y
  unfold element
  have hw : Waves a.S a.J a.L b.L a.T := by
    refine ⟨aS, ⟨abs_le.2 ⟨?_, ?_⟩, ?_⟩, ⟨abs_le.2 ⟨?_, ?_⟩, ?_⟩, ?_, aT, a4⟩ <;> omega
  have haJ : a.J ≤ 38 := by obtain ⟨_, _, _, _, _, _, _, _, h9, _⟩ := haA; omega
  have hnp := chiral_value m par rule hr prof x y a.S a.J a.L b.L a.T 0 hw (by rcases aT with e | e <;> rw [e] <;> decide) haJ
  have hnn : a.T = 1 → _ := fun e => chiral_value m par rule hr prof x y a.S a.J a.L b.L a.T (-1) hw (by rw [e]; decide) haJ
  rw [← hnp]
  unfold isospinMix
  rcases aT with e | e
  · rw [if_pos e, if_pos e]
  · rw [← hnn e]
    split_ifs <;> ring

/-- The hypotheses are met: a two-point rule, momenta below the cutoff, `J ≤ 3`. -/
example : (∀ xw ∈ [((0.5 : ℝ), (1 : ℝ)), (-0.5, 1)], |xw.1| ≤ 1) ∧ Waves 1 1 0 2 0 ∧ |(0 : Int)| ≤ 0 ∧ (1 : Int) ≤ 38 ∧ (100 : ℝ) ≤ 2 * cutoff .idaho := by
  refine ⟨?_, ?_, by decide, by decide, by norm_num [cutoff]⟩
  · intro xw hx
    simp only [List.mem_cons, List.not_mem_nil, or_false] at hx
    rcases hx with rfl | rfl <;> norm_num [abs_le]
  · refine ⟨by decide, by decide, by decide, by decide, by decide, by decide⟩

/-! ### Hermiticity -/

/-- Exchange of the two mixing elements. -/
def swapMix (v : Six) : Six := fun k => if k = 4 then v 5 else if k = 5 then v 4 else v k

theorem swapMix_vec (a b c d e f : ℝ) : swapMix ![a, b, c, d, e, f] = ![a, b, c, d, f, e] := by
  funext k; fin_cases k <;> rfl
theorem swapMix_add (u v : Six) : swapMix (u + v) = swapMix u + swapMix v := by
  funext k; unfold swapMix; simp only [Pi.add_apply]; split_ifs <;> rfl
theorem swapMix_zero : swapMix 0 = 0 := by
  funext k; unfold swapMix; simp

section
variable (I : Nat → Int → Option ℝ) (c : Chn) (pp p : ℝ) (POT : Six)

theorem pwdC_swap : pwdC I c (swapMix POT) = (pwdC I c POT).map swapMix := by
  unfold pwdC
  split_ifs
  · cases I 0 c.J <;> simp only [Option.bind_none, Option.bind_some, Option.map_some, Option.map_none, swapMix_add, swapMix_vec]
  · cases I 0 c.J <;> simp only [Option.bind_none, Option.bind_some, Option.map_some, Option.map_none, swapMix_add, swapMix_vec]
  · cases I 0 (c.J + 1) <;> simp only [Option.bind_none, Option.bind_some, Option.map_some, Option.map_none, swapMix_add, swapMix_vec]
  · cases I 0 (c.J + 1) <;> cases I 0 (c.J - 1) <;> simp only [Option.bind_none, Option.bind_some, Option.map_some, Option.map_none, swapMix_add, swapMix_vec]
  · rfl

theorem pwdS_swap : pwdS I c (swapMix POT) = (pwdS I c POT).map swapMix := by
  unfold pwdS
  split_ifs
  · cases I 0 c.J <;> simp only [Option.bind_none, Option.bind_some, Option.map_some, Option.map_none, swapMix_add, swapMix_vec]
  · cases I 0 c.J <;> simp only [Option.bind_none, Option.bind_some, Option.map_some, Option.map_none, swapMix_add, swapMix_vec]
  · cases I 0 (c.J + 1) <;> simp only [Option.bind_none, Option.bind_some, Option.map_some, Option.map_none, swapMix_add, swapMix_vec]
  · cases I 0 (c.J + 1) <;> cases I 0 (c.J - 1) <;> simp only [Option.bind_none, Option.bind_some, Option.map_some, Option.map_none, swapMix_add, swapMix_vec]
  · rfl

theorem pwdLS_swap : pwdLS I c p pp (swapMix POT) = (pwdLS I c pp p POT).map swapMix := by
  unfold pwdLS
  dsimp only
  rw [show 2 * p * pp = 2 * pp * p by ring]
  split_ifs
  · rfl
  · cases I 0 (c.J + 1) <;> cases I 0 (c.J - 1) <;> simp only [Option.bind_none, Option.bind_some, Option.map_some, Option.map_none, swapMix_add, swapMix_vec]
  · cases I 0 (c.J + 2) <;> cases I 0 c.J <;> simp only [Option.bind_none, Option.bind_some, Option.map_some, Option.map_none, swapMix_add, swapMix_vec]
  · cases I 0 (c.J + 2) <;> cases I 0 c.J <;> cases I 0 (c.J - 2) <;> simp only [Option.bind_none, Option.bind_some, Option.map_some, Option.map_none, swapMix_add, swapMix_vec]
  · rfl

theorem pwdSigL_swap : pwdSigL I c p pp (swapMix POT) = (pwdSigL I c pp p POT).map swapMix := by
  unfold pwdSigL
  dsimp only
  have e1 : 2 * (p * p) * (pp * pp) = 2 * (pp * pp) * (p * p) := by ring
  have e2 : ∀ r : ℝ, r * 4 * (p * p) * (pp * pp) = r * 4 * (pp * pp) * (p * p) := fun r => by ring
  rw [e1, e2]
  split_ifs
  · cases I 2 c.J <;> cases I 0 c.J <;> simp only [Option.bind_none, Option.bind_some, Option.map_some, Option.map_none, swapMix_add, swapMix_vec]
  · cases I 0 c.J <;> cases I 1 (c.J + 1) <;> cases I 1 (c.J - 1) <;> simp only [Option.bind_none, Option.bind_some, Option.map_some, Option.map_none, swapMix_add, swapMix_vec]
  · cases I 2 (c.J + 1) <;> cases I 0 (c.J + 1) <;> cases I 1 c.J <;> simp only [Option.bind_none, Option.bind_some, Option.map_some, Option.map_none, swapMix_add, swapMix_vec]
  · cases I 2 (c.J + 1) <;> cases I 0 (c.J + 1) <;> cases I 1 c.J <;> cases I 2 (c.J - 1) <;> cases I 0 (c.J - 1) <;> simp only [Option.bind_none, Option.bind_some, Option.map_some, Option.map_none, swapMix_add, swapMix_vec]
  · rfl

theorem pwdT_swap : pwdT I c p pp (swapMix POT) = (pwdT I c pp p POT).map swapMix := by
  unfold pwdT
  dsimp only
  have e1 : 2 * p * pp = 2 * pp * p := by ring
  rw [e1, add_comm (p * p) (pp * pp)]
  split_ifs
  · cases I 0 c.J <;> cases I 1 c.J <;> simp only [Option.bind_none, Option.bind_some, Option.map_some, Option.map_none, swapMix_add, swapMix_vec]
  · cases I 0 c.J <;> cases I 0 (c.J + 1) <;> cases I 0 (c.J - 1) <;> simp only [Option.bind_none, Option.bind_some, Option.map_some, Option.map_none, swapMix_add, swapMix_vec]
  · cases I 0 (c.J + 1) <;> cases I 0 c.J <;> simp only [Option.bind_none, Option.bind_some, Option.map_some, Option.map_none, swapMix_add, swapMix_vec]
  · cases I 0 (c.J + 1) with
    | none => simp
    | some a =>
      cases I 0 c.J with
      | none => simp
      | some b =>
        cases I 0 (c.J - 1) with
        | none => simp
        | some d =>
          simp only [Option.bind_some, Option.map_some, swapMix_add, swapMix_vec, Option.some.injEq]
          congr 1
          rw [add_comm (pp * pp * a) (p * p * d), add_comm (pp * pp * d) (p * p * a)]
  · rfl
end

theorem projectIf_swap (s : ChpSet) (a : Amp) (f g : Six → Option Six) (POT : Six) (h : ∀ P, f (swapMix P) = (g P).map swapMix) :
    projectIf s a f (swapMix POT) = (projectIf s a g POT).map swapMix := by
  unfold projectIf; split_ifs
  · exact h POT
  · rfl

theorem bind_swap {x y : Option Six} {f g : Six → Option Six} (h : x = y.map swapMix) (hf : ∀ P, f (swapMix P) = (g P).map swapMix) :
    x.bind f = (y.bind g).map swapMix := by
  subst h; cases y <;> simp [hf]

theorem amp_swap (prof : Profiles) (s : ChpSet) (c : Chn) (pp p : ℝ) (a : Amp) : twoPionAmp prof s c p pp a = twoPionAmp prof s c pp p a := by
  funext z
  unfold twoPionAmp
  dsimp only
  rw [show p * p + pp * pp - 2 * pp * p * z = pp * pp + p * p - 2 * p * pp * z by ring,
    show 1 / 4 * (p * p + pp * pp) + 1 / 2 * pp * p * z = 1 / 4 * (pp * pp + p * p) + 1 / 2 * p * pp * z by ring]

theorem twoPion_swap (rule : List (ℝ × ℝ)) (prof : Profiles) (s : ChpSet) (c : Chn) (pp p : ℝ) :
    twoPion rule prof s c p pp = (twoPion rule prof s c pp p).map swapMix := by
  unfold twoPion
  simp only [amp_swap prof s c pp p]
  conv_lhs => rw [← swapMix_zero]
  refine bind_swap (projectIf_swap _ _ _ _ _ fun _ => pwdC_swap _ _ _) fun _ => ?_
  refine bind_swap (projectIf_swap _ _ _ _ _ fun _ => pwdC_swap _ _ _) fun _ => ?_
  refine bind_swap (projectIf_swap _ _ _ _ _ fun _ => pwdLS_swap _ _ _ _ _) fun _ => ?_
  refine bind_swap (projectIf_swap _ _ _ _ _ fun _ => pwdLS_swap _ _ _ _ _) fun _ => ?_
  refine bind_swap (projectIf_swap _ _ _ _ _ fun _ => pwdT_swap _ _ _ _ _) fun _ => ?_
  refine bind_swap (projectIf_swap _ _ _ _ _ fun _ => pwdS_swap _ _ _) fun _ => ?_
  refine bind_swap (projectIf_swap _ _ _ _ _ fun _ => pwdT_swap _ _ _ _ _) fun _ => ?_
  refine bind_swap (projectIf_swap _ _ _ _ _ fun _ => pwdS_swap _ _ _) fun _ => ?_
  exact projectIf_swap _ _ _ _ _ fun _ => pwdSigL_swap _ _ _ _ _

theorem onePion_swap (rule : List (ℝ × ℝ)) (s : ChpSet) (c : Chn) (pp p : ℝ) : onePionPart rule s c p pp = (onePionPart rule s c pp p).map swapMix := by
  unfold onePionPart
  split_ifs
  · dsimp only
    rw [add_comm (p * p) (pp * pp), show 2 * pp * p = 2 * p * pp by ring]
    conv_lhs => rw [← swapMix_zero]
    exact pwdT_swap _ _ _ _ _
  · dsimp only
    rw [add_comm (p * p) (pp * pp), show 2 * pp * p = 2 * p * pp by ring]
    conv_lhs => rw [← swapMix_zero]
    exact pwdT_swap _ _ _ _ _
  · simp [swapMix_zero]

theorem freg_swap (l pp p n : ℝ) : freg l p pp n = freg l pp p n := by unfold freg; rw [add_comm]

theorem six_ext {a b c d e f a' b' c' d' e' f' : ℝ} (h1 : a = a') (h2 : b = b') (h3 : c = c') (h4 : d = d') (h5 : e = e') (h6 : f = f') :
    (![a, b, c, d, e, f] : Six) = ![a', b', c', d', e', f'] := by subst h1 h2 h3 h4 h5 h6; rfl

theorem ite_swap {q : Prop} [Decidable q] {x y : Six} {u v : Six} (h1 : x = swapMix u) (h2 : y = swapMix v) : (if q then x else y) = swapMix (if q then u else v) := by
  split_ifs
  · exact h1
  · exact h2

theorem contacts_swap (s : ChpSet) (c : Chn) (pp p : ℝ) : contacts s c p pp = swapMix (contacts s c pp p) := by
  have hf : ∀ n, freg s.lambda p pp n = freg s.lambda pp p n := fun n => freg_swap _ _ _ n
  have h1 : ∀ P, loContactCIB s c pp p (swapMix P) = swapMix (loContactCIB s c p pp P) := by
    intro P; unfold loContactCIB; simp only [hf]; split_ifs <;> simp only [swapMix_add, swapMix_vec]
  have h2 : ∀ P, loContact s c pp p (swapMix P) = swapMix (loContact s c p pp P) := by
    intro P; unfold loContact; simp only [hf]; split_ifs <;> simp only [swapMix_add, swapMix_vec]
  have h3 : ∀ P, nloContact s c pp p (swapMix P) = swapMix (nloContact s c p pp P) := by
    intro P; unfold nloContact; simp only [hf]; generalize freg s.lambda pp p = F; split_ifs <;> simp only [swapMix_add, swapMix_vec] <;> refine congrArg _ (six_ext ?_ ?_ ?_ ?_ ?_ ?_) <;> ring
  have h4 : ∀ P, n3loContact s c pp p (swapMix P) = swapMix (n3loContact s c p pp P) := by
    intro P; unfold n3loContact; simp only [hf]; generalize freg s.lambda pp p = F
    refine ite_swap ?_ (ite_swap ?_ (ite_swap ?_ (ite_swap ?_ (ite_swap ?_ (ite_swap ?_ (ite_swap ?_ (ite_swap ?_ (ite_swap ?_ rfl)))))))) <;>
      simp only [swapMix_add, swapMix_vec] <;> refine congrArg _ (six_ext ?_ ?_ ?_ ?_ ?_ ?_) <;> (try rw [mul_comm (p * p)]) <;> ring
  unfold contacts
  dsimp only
  have e0 : (if s.ctCIB then loContactCIB s c pp p 0 else if s.ct then loContact s c pp p 0 else 0) =
      swapMix (if s.ctCIB then loContactCIB s c p pp 0 else if s.ct then loContact s c p pp 0 else 0) := by
    have := h1 0; have := h2 0; rw [swapMix_zero] at *
    split_ifs <;> simp_all [swapMix_zero]
  rw [e0]
  split_ifs <;> simp only [h3, h4]

theorem mr_swap (s : ChpSet) (hk : s.kamada = false) (tz : Int) (pp p : ℝ) : mrFactor s tz p pp = mrFactor s tz pp p := by
  unfold mrFactor; simp only [hk, Bool.false_eq_true, if_false]; rw [mul_comm]

theorem chp_swap (rule : List (ℝ × ℝ)) (prof : Profiles) (s : ChpSet) (hk : s.kamada = false) (c : Chn) (pp p : ℝ) :
    chp rule prof s p pp c = (chp rule prof s pp p c).map swapMix := by
  unfold chp
  simp only [or_comm (a := pp > 2 * s.lambda)]
  split_ifs
  · simp [swapMix_zero]
  · simp [swapMix_zero]
  · refine bind_swap (onePion_swap rule s c pp p) fun P => ?_
    rw [twoPion_swap rule prof s c pp p, contacts_swap s c pp p, mr_swap s hk c.tz pp p, freg_swap s.lambda pp p, freg_swap s.lambda pp p]
    cases twoPion rule prof s c pp p with
    | none => rfl
    | some v =>
      simp only [Option.map_some, Option.some.injEq]
      funext k
      unfold swapMix
      dsimp only
      split_ifs <;> rfl

/-- **C94.** Every chiral potential is Hermitian: exchanging the momenta transposes it, for every parameter line, every wave and all momenta. -/
theorem C94_hermitian (m : ChiralModel) (a : Nat → ℝ) (rule : List (ℝ × ℝ)) (prof : Profiles) : Hermitian (chiralModel rule prof (preset m a)) := by
  intro qi qo c S J T Tz
  obtain ⟨_, _, _, _, _, _, hk, _⟩ := preset_basic m a
  unfold chiralModel chiralV
  rw [chp_swap rule prof _ hk _ qi qo]
  cases chp rule prof (preset m a) qi qo ⟨S, J, T, tzReverse Tz, c⟩ with
  | none => exact ⟨rfl, rfl, rfl, rfl, rfl⟩
  | some v => exact ⟨rfl, rfl, rfl, rfl, rfl⟩

/-- C94: the stored potential matrices of the chiral models are symmetric. -/
theorem C94_matrix_symmetric (m : ChiralModel) (par : Nat → ℝ) (rule : List (ℝ × ℝ)) (prof : Profiles) (p : PWParams) (ht : p.tensor = true) (hv : ValidTruncation p)
    (w : PWSpace) (h : constructPW p = some w) (g : PotGrid) (junk : Job → Nat → Nat → Six) (init : PotKey → ℝ) (mem : PotKey → ℝ)
    (hmem : potMatrices p g (chiralModel rule prof (preset m par)) junk init w.states = some mem) (a b : PWState) (ha : a ∈ w.states) (hb : b ∈ w.states)
    (hab : SameInteraction true a b) (sl : Slot) (hsl : slotOf p a = some sl) (i j : Nat) (hi : i < g.Np) (hj : j < g.Np) :
    mem (sl, blockOf p a, blockOf p b, i, j) = mem (sl, blockOf p b, blockOf p a, j, i) :=
  C31_potential_symmetric p ht hv w h g _ (C94_hermitian m par rule prof) junk init mem hmem a b ha hb hab sl hsl i j hi hj

end TicTac
end
