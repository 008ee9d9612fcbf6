import Verif.Spec.RunParams
import Mathlib.Tactic.SplitIfs
import Mathlib.Tactic.ByContra
import Mathlib.Data.List.Induction
import Mathlib.Logic.Basic
namespace TicTac
open Spec

/-- The key an option text refers to, in the order of the code's branches. -/
def keyOf (option : Str) : Option Key :=
  if option = "two_J_3N_max".toList then some (.int .two_J_3N_max)
  else if option = "Np_WP".toList then some (.int .Np_WP)
  else if option = "Nq_WP".toList then some (.int .Nq_WP)
  else if option = "J_2N_max".toList then some (.int .J_2N_max)
  else if option = "Nphi".toList then some (.int .Nphi)
  else if option = "Nx".toList then some (.int .Nx)
  else if option = "chebyshev_t".toList then some (.dbl .chebyshev_t)
  else if option = "chebyshev_s".toList then some (.dbl .chebyshev_s)
  else if option = "Np_per_WP".toList then some (.int .Np_per_WP)
  else if option = "Nq_per_WP".toList then some (.int .Nq_per_WP)
  else if option = "P123_omp_num_threads".toList then some (.int .P123_omp_num_threads)
  else if option = "PSI_start".toList then some (.int .PSI_start)
  else if option = "PSI_end".toList then some (.int .PSI_end)
  else if option = "channel_idx".toList then some (.int .channel_idx)
  else if option = "parallel_run".toList then some (.bool .parallel_run)
  else if option = "P123_recovery".toList then some (.bool .P123_recovery)
  else if option = "tensor_force".toList then some (.bool .tensor_force)
  else if option = "isospin_breaking_1S0".toList then some (.bool .isospin_breaking_1S0)
  else if option = "midpoint_approx".toList then some (.bool .midpoint_approx)
  else if option = "calculate_and_store_P123".toList then some (.bool .calculate_and_store_P123)
  else if option = "include_breakup_channels".toList then some (.bool .include_breakup_channels)
  else if option = "solve_faddeev".toList then some (.bool .solve_faddeev)
  else if option = "solve_dense".toList then some (.bool .solve_dense)
  else if option = "production_run".toList then some (.bool .production_run)
  else if option = "parameter_walk".toList then some (.bool .parameter_walk)
  else if option = "potential_model".toList then some (.str .potential_model)
  else if option = "subfolder".toList then some (.str .subfolder)
  else if option = "p_grid_type".toList then some (.str .p_grid_type)
  else if option = "p_grid_filename".toList then some (.str .p_grid_filename)
  else if option = "q_grid_type".toList then some (.str .q_grid_type)
  else if option = "q_grid_filename".toList then some (.str .q_grid_filename)
  else if option = "parameter_file".toList then some (.str .parameter_file)
  else if option = "energy_input_file".toList then some (.str .energy_input_file)
  else if option = "output_folder".toList then some (.str .output_folder)
  else if option = "P123_folder".toList then some (.str .P123_folder)
  else none

/-- What assigning to a key does. -/
def assignKey {D : Type} (stod : Str → Option D) (p : RunParams D) (input : Str) : Key → SetResult D
  | .int k => assignInt p k input
  | .dbl k => assignDbl stod p k input
  | .bool k => assignBool p k input
  | .str k => assignStr p k input

/-- Dispatch on the key. -/
def onKey {D : Type} (stod : Str → Option D) (p : RunParams D) (input : Str) : Option Key → SetResult D
  | some k => assignKey stod p input k
  | none => .ok (p, false)

theorem chain_eq {α β : Type} (F : Option α → β) (k : α) (c : Prop) [Decidable c] (r : β) (r' : Option α)
    (h : r = F r') : (if c then F (some k) else r) = F (if c then some k else r') := by
  by_cases hc : c
  · rw [if_pos hc, if_pos hc]
  · rw [if_neg hc, if_neg hc, h]

theorem readAndSet_onKey {D : Type} (stod : Str → Option D) (p : RunParams D) (option input : Str) :
    readAndSet stod p option input = onKey stod p input (keyOf option) := by
  unfold readAndSet keyOf
  refine chain_eq (onKey stod p input) (.int .two_J_3N_max) _ _ _ ?_
  refine chain_eq (onKey stod p input) (.int .Np_WP) _ _ _ ?_
  refine chain_eq (onKey stod p input) (.int .Nq_WP) _ _ _ ?_
  refine chain_eq (onKey stod p input) (.int .J_2N_max) _ _ _ ?_
  refine chain_eq (onKey stod p input) (.int .Nphi) _ _ _ ?_
  refine chain_eq (onKey stod p input) (.int .Nx) _ _ _ ?_
  refine chain_eq (onKey stod p input) (.dbl .chebyshev_t) _ _ _ ?_
  refine chain_eq (onKey stod p input) (.dbl .chebyshev_s) _ _ _ ?_
  refine chain_eq (onKey stod p input) (.int .Np_per_WP) _ _ _ ?_
  refine chain_eq (onKey stod p input) (.int .Nq_per_WP) _ _ _ ?_
  refine chain_eq (onKey stod p input) (.int .P123_omp_num_threads) _ _ _ ?_
  refine chain_eq (onKey stod p input) (.int .PSI_start) _ _ _ ?_
  refine chain_eq (onKey stod p input) (.int .PSI_end) _ _ _ ?_
  refine chain_eq (onKey stod p input) (.int .channel_idx) _ _ _ ?_
  refine chain_eq (onKey stod p input) (.bool .parallel_run) _ _ _ ?_
  refine chain_eq (onKey stod p input) (.bool .P123_recovery) _ _ _ ?_
  refine chain_eq (onKey stod p input) (.bool .tensor_force) _ _ _ ?_
  refine chain_eq (onKey stod p input) (.bool .isospin_breaking_1S0) _ _ _ ?_
  refine chain_eq (onKey stod p input) (.bool .midpoint_approx) _ _ _ ?_
  refine chain_eq (onKey stod p input) (.bool .calculate_and_store_P123) _ _ _ ?_
  refine chain_eq (onKey stod p input) (.bool .include_breakup_channels) _ _ _ ?_
  refine chain_eq (onKey stod p input) (.bool .solve_faddeev) _ _ _ ?_
  refine chain_eq (onKey stod p input) (.bool .solve_dense) _ _ _ ?_
  refine chain_eq (onKey stod p input) (.bool .production_run) _ _ _ ?_
  refine chain_eq (onKey stod p input) (.bool .parameter_walk) _ _ _ ?_
  refine chain_eq (onKey stod p input) (.str .potential_model) _ _ _ ?_
  refine chain_eq (onKey stod p input) (.str .subfolder) _ _ _ ?_
  refine chain_eq (onKey stod p input) (.str .p_grid_type) _ _ _ ?_
  refine chain_eq (onKey stod p input) (.str .p_grid_filename) _ _ _ ?_
  refine chain_eq (onKey stod p input) (.str .q_grid_type) _ _ _ ?_
  refine chain_eq (onKey stod p input) (.str .q_grid_filename) _ _ _ ?_
  refine chain_eq (onKey stod p input) (.str .parameter_file) _ _ _ ?_
  refine chain_eq (onKey stod p input) (.str .energy_input_file) _ _ _ ?_
  refine chain_eq (onKey stod p input) (.str .output_folder) _ _ _ ?_
  refine chain_eq (onKey stod p input) (.str .P123_folder) _ _ _ ?_
  rfl

theorem readAndSet_eq {D : Type} (stod : Str → Option D) (p : RunParams D) (option input : Str) :
    readAndSet stod p option input = match keyOf option with
      | some k => assignKey stod p input k
      | none => .ok (p, false) := by
  rw [readAndSet_onKey]
  cases keyOf option <;> rfl

theorem keyOf_name (k : Key) : keyOf k.name = some k := by
  rcases k with k | k | k | k <;> cases k <;> decide

theorem chain_name {s : Str} {k : Key} (k0 : Key) (c : Prop) [Decidable c] (r : Option Key) (hc : c → s = k0.name)
    (hr : r = some k → s = k.name) : (if c then some k0 else r) = some k → s = k.name := by
  intro h
  by_cases hh : c
  · rw [if_pos hh] at h
    rw [← Option.some.inj h]; exact hc hh
  · rw [if_neg hh] at h; exact hr h

theorem name_of_keyOf {s : Str} {k : Key} (h : keyOf s = some k) : s = k.name := by
  revert h
  unfold keyOf
  refine chain_name (.int .two_J_3N_max) _ _ (fun h => h) ?_
  refine chain_name (.int .Np_WP) _ _ (fun h => h) ?_
  refine chain_name (.int .Nq_WP) _ _ (fun h => h) ?_
  refine chain_name (.int .J_2N_max) _ _ (fun h => h) ?_
  refine chain_name (.int .Nphi) _ _ (fun h => h) ?_
  refine chain_name (.int .Nx) _ _ (fun h => h) ?_
  refine chain_name (.dbl .chebyshev_t) _ _ (fun h => h) ?_
  refine chain_name (.dbl .chebyshev_s) _ _ (fun h => h) ?_
  refine chain_name (.int .Np_per_WP) _ _ (fun h => h) ?_
  refine chain_name (.int .Nq_per_WP) _ _ (fun h => h) ?_
  refine chain_name (.int .P123_omp_num_threads) _ _ (fun h => h) ?_
  refine chain_name (.int .PSI_start) _ _ (fun h => h) ?_
  refine chain_name (.int .PSI_end) _ _ (fun h => h) ?_
  refine chain_name (.int .channel_idx) _ _ (fun h => h) ?_
  refine chain_name (.bool .parallel_run) _ _ (fun h => h) ?_
  refine chain_name (.bool .P123_recovery) _ _ (fun h => h) ?_
  refine chain_name (.bool .tensor_force) _ _ (fun h => h) ?_
  refine chain_name (.bool .isospin_breaking_1S0) _ _ (fun h => h) ?_
  refine chain_name (.bool .midpoint_approx) _ _ (fun h => h) ?_
  refine chain_name (.bool .calculate_and_store_P123) _ _ (fun h => h) ?_
  refine chain_name (.bool .include_breakup_channels) _ _ (fun h => h) ?_
  refine chain_name (.bool .solve_faddeev) _ _ (fun h => h) ?_
  refine chain_name (.bool .solve_dense) _ _ (fun h => h) ?_
  refine chain_name (.bool .production_run) _ _ (fun h => h) ?_
  refine chain_name (.bool .parameter_walk) _ _ (fun h => h) ?_
  refine chain_name (.str .potential_model) _ _ (fun h => h) ?_
  refine chain_name (.str .subfolder) _ _ (fun h => h) ?_
  refine chain_name (.str .p_grid_type) _ _ (fun h => h) ?_
  refine chain_name (.str .p_grid_filename) _ _ (fun h => h) ?_
  refine chain_name (.str .q_grid_type) _ _ (fun h => h) ?_
  refine chain_name (.str .q_grid_filename) _ _ (fun h => h) ?_
  refine chain_name (.str .parameter_file) _ _ (fun h => h) ?_
  refine chain_name (.str .energy_input_file) _ _ (fun h => h) ?_
  refine chain_name (.str .output_folder) _ _ (fun h => h) ?_
  refine chain_name (.str .P123_folder) _ _ (fun h => h) ?_
  exact fun h => by cases h

theorem keyOf_eq_some_iff {s : Str} {k : Key} : keyOf s = some k ↔ s = k.name :=
  ⟨name_of_keyOf, fun h => h ▸ keyOf_name k⟩

theorem name_inj {a b : Key} (h : a.name = b.name) : a = b := by
  have := keyOf_name a
  rw [h, keyOf_name b] at this
  exact (Option.some.inj this).symm

theorem splitEq_eq (s : Str) : splitEq s = assignment s := by
  unfold assignment
  induction s with
  | nil => rfl
  | cons c cs ih =>
    unfold splitEq
    by_cases h : c = '='
    · subst h; simp
    · rw [if_neg h, ih]
      by_cases h' : '=' ∈ cs
      · simp [h', h]
      · simp [h', Ne.symm h]

theorem txt_suffix_iff {a : Str} (h : ¬ a.length < 4) :
    a.drop (a.length - 4) = ".txt".toList ↔ ".txt".toList <:+ a := by
  constructor
  · intro e; rw [← e]; exact List.drop_suffix _ _
  · rintro ⟨t, rfl⟩
    simp

theorem not_txt_suffix {a : Str} (h : a.length < 4) : ¬ ".txt".toList <:+ a := by
  rintro ⟨t, rfl⟩
  simp at h
  omega

/-- One assignment as the loops perform it. -/
def stepAsg {D : Type} (stod : Str → Option D) (p : RunParams D) (kv : Str × Str) : Except Stop (RunParams D) :=
  (readAndSet stod p kv.1 kv.2).map (·.1)

theorem useInputList_eq {D : Type} (stod : Str → Option D) (files : Str → List Str) (p : RunParams D) (name : Str) :
    useInputList stod files p name = ((files name).filterMap lineAssignment).foldlM (stepAsg stod) p := by
  unfold useInputList
  generalize files name = ls
  induction ls generalizing p with
  | nil => rfl
  | cons a as ih =>
    rw [List.foldlM_cons]
    unfold fileLine
    rw [splitEq_eq]
    rw [List.filterMap_cons]
    unfold lineAssignment
    cases hs : assignment a with
    | none =>
      simp only [Option.bind_none]
      exact ih p
    | some kv =>
      obtain ⟨k, v⟩ := kv
      simp only [Option.bind_some]
      by_cases hv : v.all (· == ' ') = true
      · rw [if_pos hv, if_pos hv]; exact ih p
      · rw [if_neg hv, if_neg hv]
        simp only [List.foldlM_cons]
        show Except.bind _ _ = Except.bind _ _
        congr 1
        funext q; exact ih q

/-- An argument that does not stop the program by itself. -/
theorem handleArg_eq {D : Type} (stod : Str → Option D) (files : Str → List Str) (argc : Nat) (p : RunParams D)
    (arg : Str) (hlen : arg = "-h".toList ∨ 4 ≤ arg.length)
    (hh : (arg = "-h".toList ∨ arg = "--help".toList) → argc ≠ 2) :
    handleArg stod files argc p arg = (argAssignments files arg).foldlM (stepAsg stod) p := by
  unfold handleArg argAssignments
  by_cases h1 : arg = "-h".toList ∨ arg = "--help".toList
  · rw [if_pos h1, if_pos h1, if_neg (hh h1)]; rfl
  · rw [if_neg h1, if_neg h1]
    have h2 : ¬ arg.length < 4 := by
      rcases hlen with h | h
      · exact absurd (Or.inl h) h1
      · omega
    rw [if_neg h2]
    by_cases h3 : ".txt".toList <:+ arg
    · rw [if_pos h3, if_pos ((txt_suffix_iff h2).2 h3)]
      exact useInputList_eq stod files p arg
    · rw [if_neg h3, if_neg (fun h => h3 ((txt_suffix_iff h2).1 h)), splitEq_eq]
      cases hs : assignment arg with
      | none => rfl
      | some kv =>
        obtain ⟨k, v⟩ := kv
        by_cases hv : v = []
        · subst hv
          simp only [if_true]
          simp [Option.filter]
          rfl
        · simp only [if_neg hv]
          simp only [Option.filter, hv, ne_eq, not_false_eq_true, decide_true, if_true, Option.toList_some,
            List.foldlM_cons, List.foldlM_nil, stepAsg]
          cases readAndSet stod p k v <;> rfl

theorem handleArg_error {D : Type} (stod : Str → Option D) (files : Str → List Str) (argc : Nat) (p : RunParams D)
    (arg : Str) (h : ¬ ((arg = "-h".toList ∨ 4 ≤ arg.length) ∧ ((arg = "-h".toList ∨ arg = "--help".toList) → argc ≠ 2))) :
    ∃ e, handleArg stod files argc p arg = .error e := by
  unfold handleArg
  by_cases h1 : arg = "-h".toList ∨ arg = "--help".toList
  · rw [if_pos h1]
    by_cases h2 : argc = 2
    · rw [if_pos h2]; exact ⟨_, rfl⟩
    · exfalso; apply h
      refine ⟨?_, fun _ => h2⟩
      rcases h1 with h1 | h1
      · exact Or.inl h1
      · subst h1; right; decide
  · rw [if_neg h1]
    have : arg.length < 4 := by
      by_contra h2
      exact h ⟨Or.inr (by omega), fun h' => absurd h' h1⟩
    rw [if_pos this]; exact ⟨_, rfl⟩

theorem foldlM_flatMap {σ α β ε : Type} (f : σ → β → Except ε σ) (g : α → List β) (h : σ → α → Except ε σ)
    (l : List α) (p : σ) (hl : ∀ a ∈ l, ∀ p, h p a = (g a).foldlM f p) :
    l.foldlM h p = (l.flatMap g).foldlM f p := by
  induction l generalizing p with
  | nil => rfl
  | cons a as ih =>
    rw [List.foldlM_cons, List.flatMap_cons, List.foldlM_append, hl a (by simp)]
    congr 1
    funext q
    exact ih q (fun b hb => hl b (by simp [hb]))

/-- Arguments that neither throw nor request the help exit. -/
def ArgsOk (args : List Str) : Prop :=
  ∀ a ∈ args, (a = "-h".toList ∨ 4 ≤ a.length) ∧ ((a = "-h".toList ∨ a = "--help".toList) → args.length ≠ 1)

theorem readArgs_eq {D : Type} (stod : Str → Option D) (files : Str → List Str) (p : RunParams D) (args : List Str)
    (h : ArgsOk args) : readArgs stod files p args = (assignments files args).foldlM (stepAsg stod) p := by
  unfold readArgs assignments
  apply foldlM_flatMap
  intro a ha q
  exact handleArg_eq stod files _ q a (h a ha).1 (fun h' => by have := (h a ha).2 h'; omega)

theorem foldlM_ok_mem {σ α ε : Type} (h : σ → α → Except ε σ) (l : List α) (p p' : σ) (hok : l.foldlM h p = .ok p')
    (a : α) (ha : a ∈ l) : ∃ q q', h q a = .ok q' := by
  induction l generalizing p with
  | nil => simp at ha
  | cons b bs ih =>
    rw [List.foldlM_cons] at hok
    cases hb : h p b with
    | error e => rw [hb] at hok; cases hok
    | ok q =>
      rw [hb] at hok
      rcases List.mem_cons.1 ha with rfl | ha'
      · exact ⟨p, q, hb⟩
      · exact ih q hok ha'

theorem argsOk_of_readArgs {D : Type} {stod : Str → Option D} {files : Str → List Str} {p p' : RunParams D}
    {args : List Str} (h : readArgs stod files p args = .ok p') : ArgsOk args := by
  intro a ha
  by_contra hc
  obtain ⟨q, q', hq⟩ := foldlM_ok_mem _ _ _ _ h a ha
  obtain ⟨e, he⟩ := handleArg_error stod files (args.length + 1) q a (by
    intro h'; exact hc ⟨h'.1, fun x => by have := h'.2 x; omega⟩)
  rw [he] at hq; cases hq

/-- `p.val k` relates to text `v`: what the parameter is after assigning `v`. -/
def Holds {D : Type} (stod : Str → Option D) (p : RunParams D) (v : Str) : Key → Prop
  | .int k => stoi v = some (p.int k)
  | .dbl k => stod v = some (p.dbl k)
  | .bool k => (v = "true".toList ∧ p.bool k = true) ∨ (v = "false".toList ∧ p.bool k = false)
  | .str k => v = p.str k

/-- Two parameter records agree on one key. -/
def Agree {D : Type} (p q : RunParams D) : Key → Prop
  | .int k => p.int k = q.int k
  | .dbl k => p.dbl k = q.dbl k
  | .bool k => p.bool k = q.bool k
  | .str k => p.str k = q.str k

theorem assignKey_ok {D : Type} {stod : Str → Option D} {p : RunParams D} {v : Str} {k : Key}
    {r : RunParams D × Bool} (h : assignKey stod p v k = .ok r) :
    Holds stod r.1 v k ∧ ∀ k', k' ≠ k → Agree r.1 p k' := by
  cases k with
  | int k =>
    simp only [assignKey, assignInt] at h
    cases hs : stoi v with
    | none => rw [hs] at h; cases h
    | some n =>
      rw [hs] at h; cases h
      refine ⟨by simp [Holds, RunParams.setInt, hs], ?_⟩
      intro k' hk
      cases k' <;> simp_all [Agree, RunParams.setInt]
  | dbl k =>
    simp only [assignKey, assignDbl] at h
    cases hs : stod v with
    | none => rw [hs] at h; cases h
    | some n =>
      rw [hs] at h; cases h
      refine ⟨by simp [Holds, RunParams.setDbl, hs], ?_⟩
      intro k' hk
      cases k' <;> simp_all [Agree, RunParams.setDbl]
  | bool k =>
    simp only [assignKey, assignBool] at h
    split_ifs at h with hb
    cases h
    refine ⟨?_, ?_⟩
    · rcases hb with hb | hb
      · subst hb; left; simp [RunParams.setBool]
      · subst hb; right; simp [RunParams.setBool]
    · intro k' hk
      cases k' <;> simp_all [Agree, RunParams.setBool]
  | str k =>
    simp only [assignKey, assignStr] at h
    cases h
    refine ⟨by simp [Holds, RunParams.setStr], ?_⟩
    intro k' hk
    cases k' <;> simp_all [Agree, RunParams.setStr]

theorem Agree.trans {D : Type} {p q r : RunParams D} {k : Key} (h : Agree p q k) (h' : Agree q r k) : Agree p r k := by
  cases k <;> exact Eq.trans h h'

theorem Agree.refl {D : Type} (p : RunParams D) (k : Key) : Agree p p k := by cases k <;> exact rfl

theorem Holds.congr {D : Type} {stod : Str → Option D} {p q : RunParams D} {v : Str} {k : Key} (h : Holds stod q v k)
    (h' : Agree p q k) : Holds stod p v k := by
  cases k <;> simp_all [Holds, Agree]

theorem stepAsg_ok {D : Type} {stod : Str → Option D} {p q : RunParams D} {kv : Str × Str}
    (h : stepAsg stod p kv = .ok q) (k : Key) :
    (kv.1 = k.name → Holds stod q kv.2 k) ∧ (kv.1 ≠ k.name → Agree q p k) := by
  unfold stepAsg at h
  rw [readAndSet_eq] at h
  cases hk : keyOf kv.1 with
  | none =>
    rw [hk] at h; cases h
    exact ⟨fun e => (by rw [e, keyOf_name] at hk; cases hk), fun _ => Agree.refl _ _⟩
  | some k0 =>
    rw [hk] at h
    simp only at h
    cases ha : assignKey stod p kv.2 k0 with
    | error e => rw [ha] at h; cases h
    | ok r =>
      rw [ha] at h; cases h
      obtain ⟨h1, h2⟩ := assignKey_ok ha
      have hn := name_of_keyOf hk
      constructor
      · intro e
        have : k0 = k := name_inj (hn.symm.trans e)
        exact this ▸ h1
      · intro e
        exact h2 k (fun hkk => e (by rw [hkk]; exact hn))

/-- The last-assignment-wins invariant over any successful sequence of assignments. -/
theorem foldAsg_ok {D : Type} (stod : Str → Option D) (l : List (Str × Str)) (p q : RunParams D)
    (h : l.foldlM (stepAsg stod) p = .ok q) (k : Key) :
    match lastValue k.name l with
    | some v => Holds stod q v k
    | none => Agree q p k := by
  induction l using List.reverseRecOn generalizing q with
  | nil => cases h; exact Agree.refl _ _
  | append_singleton l kv ih =>
    rw [List.foldlM_append] at h
    cases hl : l.foldlM (stepAsg stod) p with
    | error e => rw [hl] at h; cases h
    | ok r =>
      rw [hl] at h
      have hstep : stepAsg stod r kv = .ok q := by
        have : (Except.bind (stepAsg stod r kv) fun x => Except.ok x) = Except.ok q := h
        cases hs : stepAsg stod r kv with
        | error e => rw [hs] at this; cases this
        | ok x => rw [hs] at this; exact this
      have h1 := ih r hl
      obtain ⟨hs1, hs2⟩ := stepAsg_ok hstep k
      by_cases hk : kv.1 = k.name
      · have : lastValue k.name (l ++ [kv]) = some kv.2 := by
          simp [lastValue, hk, List.filter_append]
        rw [this]; exact hs1 hk
      · have : lastValue k.name (l ++ [kv]) = lastValue k.name l := by
          simp [lastValue, hk, List.filter_append]
        rw [this]
        cases hv : lastValue k.name l with
        | none => rw [hv] at h1; exact (hs2 hk).trans h1
        | some v => rw [hv] at h1; exact Holds.congr h1 (hs2 hk)

theorem stepAsg_wf {D : Type} {stod : Str → Option D} {p : RunParams D} {kv : Str × Str}
    (h : WellFormed stod kv.1 kv.2) : ∃ q, stepAsg stod p kv = .ok q := by
  unfold stepAsg
  rw [readAndSet_eq]
  cases hk : keyOf kv.1 with
  | none => exact ⟨p, rfl⟩
  | some k0 =>
    have hn := name_of_keyOf hk
    cases k0 with
    | int k =>
      obtain ⟨v, hv⟩ := Option.isSome_iff_exists.1 (h.1 k hn)
      simp only [assignKey, assignInt, hv]; exact ⟨_, rfl⟩
    | dbl k =>
      obtain ⟨v, hv⟩ := Option.isSome_iff_exists.1 (h.2.1 k hn)
      simp only [assignKey, assignDbl, hv]; exact ⟨_, rfl⟩
    | bool k =>
      have := h.2.2 k hn
      simp only [assignKey, assignBool, if_pos this]; exact ⟨_, rfl⟩
    | str k => exact ⟨_, rfl⟩

theorem foldAsg_wf {D : Type} (stod : Str → Option D) (l : List (Str × Str)) (p : RunParams D)
    (h : ∀ kv ∈ l, WellFormed stod kv.1 kv.2) : ∃ q, l.foldlM (stepAsg stod) p = .ok q := by
  induction l generalizing p with
  | nil => exact ⟨p, rfl⟩
  | cons a as ih =>
    obtain ⟨q, hq⟩ := stepAsg_wf (p := p) (h a (by simp))
    rw [List.foldlM_cons, hq]
    exact ih q (fun kv hkv => h kv (by simp [hkv]))

end TicTac
