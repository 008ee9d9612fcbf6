import Verif.Model.NijmegenCache
/-! C114: what the Nijmegen routines keep between calls has no effect on what they return. -/
noncomputable section
namespace TicTac

theorem cop_cached (N : NijNum) (p : NijPars) (typ : NijType) (iso : Nat) (name : PhName) (old : NijCop) :
    copIso (Real.sqrt (0.075 * N.fdexp (-((nijAmpi / p.alamp) ^ 2)))) p typ iso name (copKept N p (nijIsign typ) old) = nymcop N p typ iso (name = ⟨'1', 'S', 0⟩) := by
  unfold copIso copKept nymcop
  simp only [decide_eq_true_eq]

/-- What the memory holds is what its keys say. -/
structure NijMem.Good (N : NijNum) (m : NijMem) : Prop where
  wave : ∀ p, m.waveName = some p → m.wave = waveOf p
  both : ∀ t, m.typ0 = some t → ∃ p, m.name0 = some p ∧ m.isign = nijIsign t ∧ m.am = amfacs (nijAmy t) (nijAmn t) ∧ m.pars = nijPars (nijTable p (nijIsign t)) ∧
    m.fpi = Real.sqrt (0.075 * N.fdexp (-((nijAmpi / m.pars.alamp) ^ 2))) ∧
    ∀ typ iso name, copIso m.fpi m.pars typ iso name m.cop = copIso m.fpi m.pars typ iso name (copKept N m.pars (nijIsign t) m.cop)

theorem keep_good {N : NijNum} {m : NijMem} (h : m.Good N) (name : PhName) (typ : NijType) :
    (vmomKeep N name typ m).Good N ∧ (vmomKeep N name typ m).typ0 = some typ ∧ (vmomKeep N name typ m).name0 = some name ∧ (vmomKeep N name typ m).inn = m.inn ∧
      (vmomKeep N name typ m).waveName = m.waveName ∧ (vmomKeep N name typ m).wave = m.wave := by
  unfold vmomKeep
  dsimp only
  by_cases ht : some typ = m.typ0
  · rw [if_pos ht]
    obtain ⟨p, b1, b2, b3, b4, b5, b6⟩ := h.both typ ht.symm
    by_cases hn : some name ≠ m.name0
    · rw [if_pos hn]
      refine ⟨⟨h.wave, fun t e => ?_⟩, ht.symm, rfl, rfl, rfl, rfl⟩
      have : t = typ := by simpa using e.symm.trans ht.symm
      subst this
      exact ⟨name, rfl, b2, b3, by rw [b2], rfl, fun _ _ _ => by rw [b2]; rfl⟩
    · rw [if_neg hn]
      exact ⟨h, ht.symm, (not_not.1 hn).symm, rfl, rfl, rfl⟩
  · rw [if_neg ht]
    refine ⟨⟨h.wave, fun t e => ?_⟩, rfl, rfl, rfl, rfl, rfl⟩
    have : typ = t := by simpa using e
    subst this
    exact ⟨name, rfl, rfl, rfl, rfl, rfl, fun _ _ _ => rfl⟩

theorem vmom_good {N : NijNum} {m : NijMem} (h : m.Good N) (name : PhName) (typ : NijType) (qi qf : ℝ) :
    (vmomMem N name typ (waveOf name) qi qf m).1.Good N ∧ (vmomMem N name typ (waveOf name) qi qf m).1.inn = m.inn ∧ (vmomMem N name typ (waveOf name) qi qf m).2 = vmom N name typ qi qf := by
  obtain ⟨g, k1, k2, k3, -, -⟩ := keep_good h name typ
  unfold vmomMem vmom
  dsimp only
  generalize vmomKeep N name typ m = m1 at *
  obtain ⟨p, b1, b2, b3, b4, b5, b6⟩ := g.both typ k1
  have : p = name := by simpa using b1.symm.trans k2
  subst this
  refine ⟨⟨g.wave, fun t e => ?_⟩, k3, ?_⟩
  · have : typ = t := by simpa using k1.symm.trans e
    subst this
    exact ⟨p, b1, b2, b3, b4, b5, fun a b c => b6 a b c⟩
  · rw [b6, b5, cop_cached, b3, b4]

theorem pnijmlsj_good {N : NijNum} {m : NijMem} (h : m.Good N) (name : PhName) (typ : NijType) (qi qf : ℝ) :
    (pnijmlsjMem N name typ qi qf m).1.Good N ∧ (pnijmlsjMem N name typ qi qf m).1.inn = m.inn ∧ (pnijmlsjMem N name typ qi qf m).2 = pnijmlsj name qi qf (vmom N name typ qi qf) := by
  unfold pnijmlsjMem pnijmlsj
  dsimp only
  by_cases hq : |qi - qf| > 30 * nijHbarc
  · simp only [if_pos hq]
    exact ⟨h, trivial, trivial⟩
  · simp only [if_neg hq]
    have key : ∃ m1 : NijMem, (if some name ≠ m.waveName then { m with waveName := some name, wave := waveOf name } else m) = m1 ∧ m1.Good N ∧ m1.wave = waveOf name ∧ m1.inn = m.inn := by
      by_cases hn : some name ≠ m.waveName
      · rw [if_pos hn]
        exact ⟨_, rfl, ⟨fun p e => by rw [← (Option.some.inj e)], h.both⟩, rfl, rfl⟩
      · rw [if_neg hn]
        exact ⟨_, rfl, h, h.wave _ (not_not.1 hn).symm, rfl⟩
    obtain ⟨m1, e, g, w, i⟩ := key
    rw [e, w]
    obtain ⟨v1, v2, v3⟩ := vmom_good g name typ qi qf
    rw [v3]
    exact ⟨v1, v2.trans i, rfl⟩

theorem turn_good {N : NijNum} {m : NijMem} (h : m.Good N) (typ : NijType) (a : NijArgs) (on : Bool) (i : Nat) :
    (nijmTurn N typ a on i m).1.Good N ∧ (nijmTurn N typ a on i m).1.inn = m.inn ∧
      (nijmTurn N typ a on i m).2 = if a.J > 9 ∨ on = false then none else (nijName a.J i).map fun p => pnijmlsj p a.qo a.qi (vmom N p typ a.qo a.qi) := by
  unfold nijmTurn
  by_cases hc : a.J > 9 ∨ on = false
  · simp only [if_pos hc]
    exact ⟨h, trivial, trivial⟩
  · simp only [if_neg hc]
    cases nijName a.J i with
    | none => exact ⟨h, rfl, rfl⟩
    | some p =>
      obtain ⟨g1, g2, g3⟩ := pnijmlsj_good h p typ a.qo a.qi
      exact ⟨g1, g2, by change some _ = some _; rw [g3]⟩

theorem call_good {N : NijNum} {m : NijMem} (h : m.Good N) (undef : NijType) (a : NijArgs) :
    (nijmegenCall N undef a m).1.Good N ∧ (nijmegenCall N undef a m).1.inn = (if |a.Tz| ≤ 1 then some (nijTypeOf (-a.Tz) undef) else m.inn) ∧
      (nijmegenCall N undef a m).2 = nijmegenV N a.qi a.qo a.coup a.S a.J a.Tz (m.inn.getD undef) := by
  have hi : (if -a.Tz = -1 then some NijType.pp else if -a.Tz = 0 then some .pn else if -a.Tz = 1 then some .nn else m.inn) = (if |a.Tz| ≤ 1 then some (nijTypeOf (-a.Tz) undef) else m.inn) := by
    unfold nijTypeOf
    split_ifs with c1 c2 c3 c4 c5 c6 <;> first | rfl | (exfalso; rw [abs_le] at *; omega) | skip
  unfold nijmegenCall nijmegenV vnijm nijmCollect
  dsimp only
  have ht : (if -a.Tz = -1 then some NijType.pp else if -a.Tz = 0 then some .pn else if -a.Tz = 1 then some .nn else m.inn).getD undef = nijTypeOf (-a.Tz) (m.inn.getD undef) := by
    unfold nijTypeOf
    split_ifs <;> rfl
  rw [ht]
  generalize hm1 : ({ m with inn := _ } : NijMem) = m1
  have g0 : m1.Good N := by subst hm1; exact ⟨h.wave, h.both⟩
  have i0 : m1.inn = (if |a.Tz| ≤ 1 then some (nijTypeOf (-a.Tz) undef) else m.inn) := by subst hm1; exact hi
  generalize nijTypeOf (-a.Tz) (m.inn.getD undef) = typ at *
  clear hm1
  obtain ⟨g1, i1, r1⟩ := turn_good g0 typ a (a.S = 0) 1
  obtain ⟨g2, i2, r2⟩ := turn_good g1 typ a (a.S = 1) 2
  obtain ⟨g3, i3, r3⟩ := turn_good g2 typ a a.coup 3
  refine ⟨g3, by rw [i3, i2, i1, i0], ?_⟩
  rw [r1, r2, r3]

/-- The charge type in force after the calls `h`: that of the last one with `Tz` of −1, 0 or 1, `undef` if there is none. -/
def lastType (undef : NijType) : List NijArgs → NijType
  | [] => undef
  | a :: as => lastType (if |a.Tz| ≤ 1 then nijTypeOf (-a.Tz) undef else undef) as

theorem calls_good {N : NijNum} (undef : NijType) : ∀ (h : List NijArgs) {m : NijMem}, m.Good N → (nijmegenCalls N undef h m).1.Good N ∧ (nijmegenCalls N undef h m).1.inn.getD undef = lastType (m.inn.getD undef) h
  | [], _, g => ⟨g, rfl⟩
  | a :: as, m, g => by
    obtain ⟨c1, c2, -⟩ := call_good g undef a
    obtain ⟨d1, d2⟩ := calls_good undef as c1
    refine ⟨d1, d2.trans ?_⟩
    change lastType _ as = lastType (if |a.Tz| ≤ 1 then _ else _) as
    rw [c2]
    by_cases hz : |a.Tz| ≤ 1
    · simp only [if_pos hz]
      have : nijTypeOf (-a.Tz) undef = nijTypeOf (-a.Tz) (m.inn.getD undef) := by
        rw [abs_le] at hz
        unfold nijTypeOf
        split_ifs <;> first | rfl | omega
      rw [← this]
      rfl
    · simp only [if_neg hz]

theorem start_good (N : NijNum) (junk : NijMem) : (NijMem.start junk).Good N := ⟨fun _ h => absurd h (by simp [NijMem.start]), fun _ h => absurd h (by simp [NijMem.start])⟩

/-- **C114.** After every history of calls since the start of the program, a call returns what it returns without any memory. -/
theorem C114_history_free (N : NijNum) (junk : NijMem) (undef : NijType) (h : List NijArgs) (a : NijArgs) (ha : |a.Tz| ≤ 1) (old : NijType) :
    (nijmegenCall N undef a (nijmegenCalls N undef h (NijMem.start junk)).1).2 = nijmegenV N a.qi a.qo a.coup a.S a.J a.Tz old := by
  obtain ⟨g, -⟩ := calls_good undef h (start_good N junk)
  rw [(call_good g undef a).2.2]
  have : nijTypeOf (-a.Tz) ((nijmegenCalls N undef h (NijMem.start junk)).1.inn.getD undef) = nijTypeOf (-a.Tz) old := by
    rw [abs_le] at ha
    unfold nijTypeOf
    split_ifs <;> first | rfl | omega
  unfold nijmegenV vnijm
  rw [this]

/-- C114: a value of `Tz` outside −1, 0, 1 is not refused: the call uses the charge type of the last call that had one. -/
theorem C114_other_charge (N : NijNum) (junk : NijMem) (undef : NijType) (h : List NijArgs) (a : NijArgs) (ha : 1 < |a.Tz|) :
    (nijmegenCall N undef a (nijmegenCalls N undef h (NijMem.start junk)).1).2 =
      nijmegenV N a.qi a.qo a.coup a.S a.J (match lastType undef h with | .pp => 1 | .pn => 0 | .nn => -1) undef := by
  obtain ⟨g, e⟩ := calls_good undef h (start_good N junk)
  rw [(call_good g undef a).2.2, e]
  change nijmegenV N _ _ _ _ _ a.Tz (lastType undef h) = _
  unfold nijmegenV vnijm
  have : nijTypeOf (-a.Tz) (lastType undef h) = lastType undef h := by
    rw [lt_abs] at ha
    unfold nijTypeOf
    rw [if_neg (by omega), if_neg (by omega), if_neg (by omega)]
  rw [this]
  cases lastType undef h <;> rfl

/-- C114: the results of a whole sequence of calls, in any order of waves, charges and momenta, are those of single calls; in particular repeating a call repeats its result and permuting calls permutes the results. -/
theorem C114_sequence (N : NijNum) (junk : NijMem) (undef : NijType) (h : List NijArgs) (hh : ∀ a ∈ h, |a.Tz| ≤ 1) (old : NijType) :
    (nijmegenCalls N undef h (NijMem.start junk)).2 = h.map fun a => nijmegenV N a.qi a.qo a.coup a.S a.J a.Tz old := by
  suffices ∀ m : NijMem, m.Good N → (nijmegenCalls N undef h m).2 = h.map fun a => nijmegenV N a.qi a.qo a.coup a.S a.J a.Tz old from this _ (start_good N junk)
  induction h with
  | nil => intro m _; rfl
  | cons a as ih =>
    intro m g
    obtain ⟨c1, -, c3⟩ := call_good g undef a
    change _ :: _ = _ :: _
    rw [ih (fun b hb => hh b (List.mem_cons_of_mem _ hb)) _ c1, c3]
    have : nijTypeOf (-a.Tz) (m.inn.getD undef) = nijTypeOf (-a.Tz) old := by
      have := abs_le.1 (hh a (List.mem_cons_self ..))
      unfold nijTypeOf
      split_ifs <;> first | rfl | omega
    unfold nijmegenV vnijm
    rw [this]

/-- Three calls whose parameters differ: 1S0 for pp, 1S0 for np, which has other parameters, and the coupled wave with J = 1. -/
example (N : NijNum) (junk : NijMem) : (∀ a ∈ ([⟨10, 20, false, 0, 0, 1⟩, ⟨10, 20, false, 0, 0, 0⟩, ⟨30, 20, true, 1, 1, 0⟩] : List NijArgs), |a.Tz| ≤ 1) ∧
    (nijmegenCalls N .pp [⟨10, 20, false, 0, 0, 1⟩, ⟨10, 20, false, 0, 0, 0⟩, ⟨30, 20, true, 1, 1, 0⟩] (NijMem.start junk)).2 =
      [nijmegenV N 10 20 false 0 0 1 .pn, nijmegenV N 10 20 false 0 0 0 .pn, nijmegenV N 30 20 true 1 1 0 .pn] ∧
    nijPars (nijTable ⟨'1', 'S', 0⟩ (nijIsign .pp)) ≠ nijPars (nijTable ⟨'1', 'S', 0⟩ (nijIsign .pn)) ∧
    nijPars (nijTable ⟨'1', 'S', 0⟩ (nijIsign .pn)) ≠ nijPars (nijTable ⟨'3', 'C', 1⟩ (nijIsign .pn)) := by
  have h : ∀ a ∈ ([⟨10, 20, false, 0, 0, 1⟩, ⟨10, 20, false, 0, 0, 0⟩, ⟨30, 20, true, 1, 1, 0⟩] : List NijArgs), |a.Tz| ≤ 1 := by
    intro a ha
    simp only [List.mem_cons, List.not_mem_nil, or_false] at ha
    rcases ha with rfl | rfl | rfl <;> decide
  exact ⟨h, C114_sequence N junk .pp _ h .pn, by decide +kernel, by decide +kernel⟩

end TicTac
end
