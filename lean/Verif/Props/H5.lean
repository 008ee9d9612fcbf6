import Verif.Model.H5
import Mathlib.Tactic.SplitIfs
import Mathlib.Data.List.Basic
/-!
Properties C17, C18, C66, C67.
-/
namespace TicTac

/-- Everything the current run and the run that wrote the file must share. -/
def Spec.SameBasisAndGrid {D : Type} (a b : P123Key D) : Prop :=
  a.Np = b.Np ∧ a.Nq = b.Nq ∧ a.pBounds = b.pBounds ∧ a.qBounds = b.qBounds ∧
  a.states.length = b.states.length ∧
  (∀ i : Nat, ∀ s t : PWState, a.states[i]? = some s → b.states[i]? = some t →
    s.L = t.L ∧ s.S = t.S ∧ s.J = t.J ∧ s.T = t.T ∧ s.l = t.l ∧ s.twoj = t.twoj ∧ s.twoT3 = t.twoT3) ∧
  a.twoJ3 = b.twoJ3 ∧ a.par = b.par

theorem bounds_second {D : Type} (b : List D) :
    ((((List.range b.length).map (fun (i : Nat) => (i : Int))).zip b).map (·.2)) = b := by
  apply List.map_snd_zip
  simp

theorem boundsAgree_iff {D : Type} [DecidableEq D] (n : Nat) (a b : List D) (ha : a.length = n + 1) (hb : b.length = n + 1) :
    boundsAgree n a b = true ↔ a = b := by
  unfold boundsAgree
  simp only [List.all_eq_true, List.mem_range, beq_iff_eq]
  constructor
  · intro h
    apply List.ext_getElem?
    intro i
    by_cases hi : i < n + 1
    · exact h i hi
    · rw [List.getElem?_eq_none (by omega), List.getElem?_eq_none (by omega)]
  · rintro rfl i _; rfl

theorem pwTable_row {D : Type} (k : P123Key D) (i : Nat) :
    (((List.range k.states.length).zip k.states).map fun (x : Nat × PWState) =>
      (⟨x.1, x.2.L, x.2.S, x.2.J, x.2.T, x.2.l, x.2.twoj, x.2.twoT3, k.twoJ3, k.par⟩ : PwRow))[i]? =
      k.states[i]?.map fun s => ⟨i, s.L, s.S, s.J, s.T, s.l, s.twoj, s.twoT3, k.twoJ3, k.par⟩ := by
  rw [List.getElem?_map]
  by_cases hi : i < k.states.length
  · rw [List.getElem?_eq_getElem (by simpa using hi), List.getElem?_eq_getElem hi]
    simp
  · rw [List.getElem?_eq_none (by simpa using hi), List.getElem?_eq_none (by omega)]
    rfl

theorem pwAgree_iff {D : Type} (a b : P123Key D) (hne : b.states ≠ []) (hlen : a.states.length = b.states.length) :
    pwAgree b (((List.range a.states.length).zip a.states).map fun (x : Nat × PWState) =>
      (⟨x.1, x.2.L, x.2.S, x.2.J, x.2.T, x.2.l, x.2.twoj, x.2.twoT3, a.twoJ3, a.par⟩ : PwRow)) = true ↔
    (∀ i : Nat, ∀ s t : PWState, a.states[i]? = some s → b.states[i]? = some t →
      s.L = t.L ∧ s.S = t.S ∧ s.J = t.J ∧ s.T = t.T ∧ s.l = t.l ∧ s.twoj = t.twoj ∧ s.twoT3 = t.twoT3) ∧
      a.twoJ3 = b.twoJ3 ∧ a.par = b.par := by
  unfold pwAgree
  simp only [List.all_eq_true, List.mem_range, pwTable_row]
  have hrow : ∀ i (hi : i < b.states.length), ∃ s t, a.states[i]? = some s ∧ b.states[i]? = some t := by
    intro i hi
    exact ⟨_, _, List.getElem?_eq_getElem (by omega), List.getElem?_eq_getElem hi⟩
  have hpos : 0 < b.states.length := List.length_pos_iff.2 hne
  constructor
  · intro h
    have hh : ∀ (i : Nat) (s t : PWState), a.states[i]? = some s → b.states[i]? = some t → s.L = t.L ∧ s.S = t.S ∧ s.J = t.J ∧ s.T = t.T ∧
        s.l = t.l ∧ s.twoj = t.twoj ∧ s.twoT3 = t.twoT3 ∧ a.twoJ3 = b.twoJ3 ∧ a.par = b.par := by
      intro i s t hs ht
      have hi : i < b.states.length := by
        by_contra hc
        rw [List.getElem?_eq_none (by omega)] at ht; cases ht
      have := h i hi
      rw [hs, ht] at this
      simpa [and_assoc] using this
    refine ⟨?_, ?_⟩
    · intro i s t hs ht
      have := hh i s t hs ht
      tauto
    · obtain ⟨s, t, hs, ht⟩ := hrow 0 hpos
      have := hh 0 s t hs ht
      tauto
  · rintro ⟨h1, h2, h3⟩ i hi
    obtain ⟨s, t, hs, ht⟩ := hrow i hi
    have := h1 i s t hs ht
    rw [hs, ht]
    simp [this, h2, h3]

theorem storeP123_ok {D : Type} [Zero D] (k : P123Key D) (m : SparseArrays D) (dim : Nat) :
    storeP123 (fun _ => true) k m dim = .ok ((storeOps k m dim).map fun op => (op.name, op.data)) := by
  unfold storeP123 storeOps
  simp only [runOps, if_true, Except.map, List.map_cons, List.map_nil]

/-- The reader on a stored file, with the comparisons spelled out. -/
theorem readP123_store {D : Type} [DecidableEq D] [Zero D] (a b : P123Key D) (m : SparseArrays D) (dim : Nat)
    (junk : SparseArrays D) :
    readP123 b ((storeOps a m dim).map fun op => (op.name, op.data)) junk =
      (if (a.states.length : Int) ≠ b.states.length ∨ (a.Np : Int) ≠ b.Np ∨ (a.Nq : Int) ≠ b.Nq then .error .raiseError
       else if boundsAgree b.Np a.pBounds b.pBounds = false then .error .raiseError
       else if boundsAgree b.Nq a.qBounds b.qBounds = false then .error .raiseError
       else if pwAgree b (((List.range a.states.length).zip a.states).map fun (x : Nat × PWState) =>
          (⟨x.1, x.2.L, x.2.S, x.2.J, x.2.T, x.2.l, x.2.twoj, x.2.twoT3, a.twoJ3, a.par⟩ : PwRow)) = false then
          .error .raiseError
       else .ok (⟨m.val.take dim, m.row.take dim, m.col.take dim⟩, dim)) := by
  have f1 : readInt ((storeOps a m dim).map fun op => (op.name, op.data)) "Nalpha" = .ok (a.states.length : Int) := rfl
  have f2 : readInt ((storeOps a m dim).map fun op => (op.name, op.data)) "Np_WP" = .ok (a.Np : Int) := rfl
  have f3 : readInt ((storeOps a m dim).map fun op => (op.name, op.data)) "Nq_WP" = .ok (a.Nq : Int) := rfl
  have f4 : readUll ((storeOps a m dim).map fun op => (op.name, op.data)) "P123_sparse_dim" = .ok dim := rfl
  have f5 : readBounds ((storeOps a m dim).map fun op => (op.name, op.data)) "p boundaries" = .ok a.pBounds := by
    show Except.ok _ = _
    rw [bounds_second]
  have f6 : readBounds ((storeOps a m dim).map fun op => (op.name, op.data)) "q boundaries" = .ok a.qBounds := by
    show Except.ok _ = _
    rw [bounds_second]
  have f7 : readPw ((storeOps a m dim).map fun op => (op.name, op.data)) =
      .ok (((List.range a.states.length).zip a.states).map fun (x : Nat × PWState) =>
          (⟨x.1, x.2.L, x.2.S, x.2.J, x.2.T, x.2.l, x.2.twoj, x.2.twoT3, a.twoJ3, a.par⟩ : PwRow)) := rfl
  have f8 : readArrays ((storeOps a m dim).map fun op => (op.name, op.data)) junk =
      ⟨m.val.take dim, m.row.take dim, m.col.take dim⟩ := rfl
  unfold readP123
  rw [f1, f2, f3, f4, f5, f6, f7, f8]
  simp only [bind, Except.bind, pure, Except.pure, throw, throwThe, MonadExceptOf.throw]

/-- **C18.** Reading a file written (without I/O failure) by any run succeeds exactly when the two runs have the same
numbers of states and bins, the same boundaries, and the same quantum numbers; otherwise the program stops with an
error. -/
theorem C18_mismatch_rejected {D : Type} [DecidableEq D] [Zero D] (a b : P123Key D) (ha : a.WF) (hb : b.WF)
    (m : SparseArrays D) (dim : Nat) (junk : SparseArrays D) (f : H5File D)
    (hf : storeP123 (fun _ => true) a m dim = .ok f) :
    (Spec.SameBasisAndGrid a b → ∃ r, readP123 b f junk = .ok r) ∧
    (¬ Spec.SameBasisAndGrid a b → readP123 b f junk = .error .raiseError) := by
  rw [storeP123_ok] at hf
  cases hf
  rw [readP123_store]
  have hpb : a.Np = b.Np → (boundsAgree b.Np a.pBounds b.pBounds = true ↔ a.pBounds = b.pBounds) := fun h =>
    boundsAgree_iff b.Np _ _ (by rw [ha.1, h]) hb.1
  have hqb : a.Nq = b.Nq → (boundsAgree b.Nq a.qBounds b.qBounds = true ↔ a.qBounds = b.qBounds) := fun h =>
    boundsAgree_iff b.Nq _ _ (by rw [ha.2.1, h]) hb.2.1
  constructor
  · rintro ⟨h1, h2, h3, h4, h5, h6, h7, h8⟩
    rw [if_neg (by simp [h1, h2, h5]), if_neg (by simp [(hpb h1).2 h3]), if_neg (by simp [(hqb h2).2 h4]),
      if_neg (by simp [(pwAgree_iff a b hb.2.2 h5).2 ⟨h6, h7, h8⟩])]
    exact ⟨_, rfl⟩
  · intro hn
    split_ifs with h1 h2 h3 h4
    · rfl
    · rfl
    · rfl
    · rfl
    · exfalso
      apply hn
      simp only [not_or, not_not, Int.natCast_inj] at h1
      simp only [Bool.not_eq_false] at h2 h3 h4
      obtain ⟨e1, e2, e3⟩ := h1
      obtain ⟨g1, g2, g3⟩ := (pwAgree_iff a b hb.2.2 e1).1 h4
      exact ⟨e2, e3, (hpb e2).1 h2, (hqb e3).1 h3, e1, g1, g2, g3⟩

/-- **C17.** Storing any sparse matrix (arrays of length `dim`) and reading it back in a run with the same basis and grid
returns the same values, row indices, column indices and count. -/
theorem C17_roundtrip {D : Type} [DecidableEq D] [Zero D] (k : P123Key D) (hk : k.WF) (m : SparseArrays D)
    (junk : SparseArrays D) (hr : m.row.length = m.val.length) (hc : m.col.length = m.val.length) :
    ∃ f, storeP123 (fun _ => true) k m m.val.length = .ok f ∧ readP123 k f junk = .ok (m, m.val.length) := by
  refine ⟨_, storeP123_ok k m _, ?_⟩
  rw [readP123_store, if_neg (by simp), if_neg (by simp [(boundsAgree_iff k.Np _ _ hk.1 hk.1).2 rfl]),
    if_neg (by simp [(boundsAgree_iff k.Nq _ _ hk.2.1 hk.2.1).2 rfl]), if_neg ?_]
  · rw [List.take_of_length_le (by omega), List.take_of_length_le (by omega), List.take_of_length_le (by omega)]
  · rw [Bool.not_eq_false, pwAgree_iff k k hk.2.2 rfl]
    refine ⟨?_, rfl, rfl⟩
    intro i s t hs ht
    rw [hs] at ht
    cases ht
    exact ⟨rfl, rfl, rfl, rfl, rfl, rfl, rfl⟩

/-- A concrete key: one S-wave state, one p bin and two q bins. -/
def exKey : P123Key Int := ⟨1, [0, 3], 2, [0, 1, 2], [⟨0, 0, 0, 1, 0, 1, 1, 1, 1⟩]⟩

example : exKey.WF := ⟨rfl, rfl, by decide⟩
example : ∃ f, storeP123 (fun _ => true) exKey ⟨[5, 7], [0, 1], [1, 1]⟩ 2 = .ok f ∧
    readP123 exKey f ⟨[], [], []⟩ = .ok (⟨[5, 7], [0, 1], [1, 1]⟩, 2) ∧
    readP123 { exKey with qBounds := [0, 1, 3] } f ⟨[], [], []⟩ = .error .raiseError := by
  refine ⟨_, storeP123_ok _ _ _, ?_, ?_⟩ <;> rfl

/-! ### C66: settings the file does not record -/

/-- **C66 (false of the code).** A matrix computed with any quadrature sizes, or with the test values of
`production_run=false`, is accepted by a run with any other settings. -/
theorem C66_other_settings_accepted {D : Type} [DecidableEq D] [Zero D] (k : P123Key D) (hk : k.WF) (m : SparseArrays D)
    (junk : SparseArrays D) (hr : m.row.length = m.val.length) (hc : m.col.length = m.val.length)
    (set set' : P123Settings) :
    ∃ f, storeRun set k m m.val.length = .ok f ∧ readRun set' k f junk = .ok (m, m.val.length) :=
  C17_roundtrip k hk m junk hr hc

/-- C66: settings that change the basis or the grid are rejected (this is C18). -/
theorem C66_other_basis_rejected {D : Type} [DecidableEq D] [Zero D] (a b : P123Key D) (ha : a.WF) (hb : b.WF)
    (m junk : SparseArrays D) (dim : Nat) (set set' : P123Settings) (f : H5File D) (hf : storeRun set a m dim = .ok f)
    (hne : ¬ Spec.SameBasisAndGrid a b) : readRun set' b f junk = .error .raiseError :=
  (C18_mismatch_rejected a b ha hb m dim junk f hf).2 hne

/-! ### C67: failing writes -/

/-- **C67 (false of the code).** If exactly the write of the values fails (disk full), the store routine reports nothing
and a later run reads, without error, a matrix whose values are all zero. -/
theorem C67_failed_write_unreported {D : Type} [DecidableEq D] [Zero D] (k : P123Key D) (hk : k.WF) (m : SparseArrays D)
    (junk : SparseArrays D) (hr : m.row.length = m.val.length) (hc : m.col.length = m.val.length) :
    ∃ f, storeP123 (fun name => name != "values") k m m.val.length = .ok f ∧
      readP123 k f junk = .ok (⟨List.replicate m.val.length 0, m.row, m.col⟩, m.val.length) := by
  obtain ⟨f, hf, hread⟩ := C17_roundtrip k hk ⟨List.replicate m.val.length 0, m.row, m.col⟩ junk (by simpa) (by simpa)
  refine ⟨f, ?_, ?_⟩
  · rw [storeP123_ok] at hf
    rw [← hf]
    unfold storeP123 storeOps
    simp only [runOps, Except.map, List.map_cons, List.map_nil, List.length_replicate]
    simp
  · simpa using hread

theorem readInt_cases {D : Type} (f : H5File D) (n : String) :
    readInt f n = .error .raiseError ∨ ∃ v, readInt f n = .ok v := by
  unfold readInt; split <;> simp

theorem readUll_cases {D : Type} (f : H5File D) (n : String) :
    readUll f n = .error .raiseError ∨ ∃ v, readUll f n = .ok v := by
  unfold readUll; split <;> simp

theorem readBounds_cases {D : Type} (f : H5File D) (n : String) :
    readBounds f n = .error .raiseError ∨ ∃ v, readBounds f n = .ok v := by
  unfold readBounds; split <;> simp

/-- A file without one of the tables is never accepted. -/
theorem readP123_missing {D : Type} [DecidableEq D] (b : P123Key D) (f : H5File D) (junk : SparseArrays D)
    (h : f.find "p boundaries" = none ∨ f.find "q boundaries" = none ∨ f.find "pw channels" = none) :
    readP123 b f junk = .error .raiseError := by
  have hp : f.find "p boundaries" = none → readBounds f "p boundaries" = .error .raiseError := by
    intro h; unfold readBounds; rw [h]
  have hq : f.find "q boundaries" = none → readBounds f "q boundaries" = .error .raiseError := by
    intro h; unfold readBounds; rw [h]
  have hw : f.find "pw channels" = none → readPw f = .error .raiseError := by
    intro h; unfold readPw; rw [h]
  unfold readP123
  simp only [bind, Except.bind, pure, Except.pure, throw, throwThe, MonadExceptOf.throw]
  rcases readInt_cases f "Nalpha" with h1 | ⟨v1, h1⟩ <;> rw [h1] <;> simp only
  rcases readInt_cases f "Np_WP" with h2 | ⟨v2, h2⟩ <;> rw [h2] <;> simp only
  rcases readInt_cases f "Nq_WP" with h3 | ⟨v3, h3⟩ <;> rw [h3] <;> simp only
  rcases readUll_cases f "P123_sparse_dim" with h4 | ⟨v4, h4⟩ <;> rw [h4] <;> simp only
  split_ifs with c1
  · rfl
  rcases readBounds_cases f "p boundaries" with h5 | ⟨v5, h5⟩ <;> rw [h5] <;> simp only
  split_ifs with c2
  · rfl
  rcases readBounds_cases f "q boundaries" with h6 | ⟨v6, h6⟩ <;> rw [h6] <;> simp only
  split_ifs with c3
  · rfl
  rcases h with h | h | h
  · rw [hp h] at h5; cases h5
  · rw [hq h] at h6; cases h6
  · rw [hw h]

/-- C67: a failing write of one of the four counts stops the program at once, and a failing write of a
boundary table or of the state-space table makes every later read stop with an error. -/
theorem C67_failed_write {D : Type} [DecidableEq D] [Zero D] (k : P123Key D) (m : SparseArrays D) (dim : Nat)
    (junk : SparseArrays D) (b : P123Key D) :
    (∀ bad ∈ ["Nalpha", "Np_WP", "Nq_WP", "P123_sparse_dim"],
      storeP123 (fun name => name != bad) k m dim = .error .raiseError) ∧
    (∀ bad ∈ ["p boundaries", "q boundaries", "pw channels"], ∀ f,
      storeP123 (fun name => name != bad) k m dim = .ok f → readP123 b f junk = .error .raiseError) := by
  constructor
  · intro bad hbad
    simp only [List.mem_cons, List.not_mem_nil, or_false] at hbad
    rcases hbad with rfl | rfl | rfl | rfl <;> rfl
  · intro bad hbad f hf
    simp only [List.mem_cons, List.not_mem_nil, or_false] at hbad
    rcases hbad with rfl | rfl | rfl <;> cases hf
    · exact readP123_missing b _ junk (Or.inl rfl)
    · exact readP123_missing b _ junk (Or.inr (Or.inl rfl))
    · exact readP123_missing b _ junk (Or.inr (Or.inr rfl))

end TicTac
