import Verif.Spec.Messages
import Verif.Lemmas.RunParams
import Verif.Props.RunParams
/-! C131: what the parser tells the user. -/
namespace TicTac
open Spec
variable {D : Type} {stod : Str → Option D}

theorem assignKey_found {p q : RunParams D} {v : Str} {k : Key} {b : Bool} (h : assignKey stod p v k = .ok (q, b)) : b = true := by
  rcases k with k | k | k | k
  · simp only [assignKey, assignInt] at h
    split at h
    · simp only [Except.ok.injEq, Prod.mk.injEq] at h; exact h.2.symm
    · cases h
  · simp only [assignKey, assignDbl] at h
    split at h
    · simp only [Except.ok.injEq, Prod.mk.injEq] at h; exact h.2.symm
    · cases h
  · simp only [assignKey, assignBool] at h
    split at h
    · simp only [Except.ok.injEq, Prod.mk.injEq] at h; exact h.2.symm
    · cases h
  · simp only [assignKey, assignStr, Except.ok.injEq, Prod.mk.injEq] at h; exact h.2.symm

/-- `read_and_set_parameter` knows exactly the options. -/
theorem found_iff {p q : RunParams D} {o v : Str} {b : Bool} (h : readAndSet stod p o v = .ok (q, b)) : b = true ↔ IsOption o := by
  rw [readAndSet_onKey] at h
  rcases hk : keyOf o with _ | k
  · rw [hk] at h
    simp only [onKey, Except.ok.injEq, Prod.mk.injEq] at h
    rw [← h.2]
    simp only [Bool.false_eq_true, false_iff]
    rintro ⟨k, rfl⟩
    rw [keyOf_name] at hk
    cases hk
  · rw [hk] at h
    exact ⟨fun _ => ⟨k, name_of_keyOf hk⟩, fun _ => assignKey_found h⟩

theorem reported_snd (s : Str) (r : SetResult D) : (reported s r).2 = r.map (·.1) := by
  rcases r with e | ⟨p, b⟩ <;> rfl

theorem foldLog_snd (f : RunParams D → Str → Logged D) (g : RunParams D → Str → Except Stop (RunParams D)) (h : ∀ p a, (f p a).2 = g p a) (p : RunParams D) (l : List Str) :
    (foldLog f p l).2 = l.foldlM g p := by
  induction l generalizing p with
  | nil => rfl
  | cons a l ih =>
    rw [List.foldlM_cons, ← h p a, foldLog]
    rcases hf : f p a with ⟨w, e | q⟩
    · rfl
    · exact ih q

theorem fileLineLog_snd (p : RunParams D) (l : Str) : (fileLineLog stod p l).2 = fileLine stod p l := by
  unfold fileLineLog fileLine
  rcases splitEq l with _ | ⟨o, i⟩
  · rfl
  · dsimp only
    split
    · rfl
    · exact reported_snd _ _

theorem useInputListLog_snd (files : Str → List Str) (p : RunParams D) (n : Str) : (useInputListLog stod files p n).2 = useInputList stod files p n := by
  have := foldLog_snd (fileLineLog stod) (fileLine stod) fileLineLog_snd p (files n)
  unfold useInputListLog useInputList
  rw [← this]
  rcases foldLog (fileLineLog stod) p (files n) with ⟨w, e | q⟩ <;> rfl

theorem handleArgLog_snd (files : Str → List Str) (argc : Nat) (p : RunParams D) (a : Str) : (handleArgLog stod files argc p a).2 = handleArg stod files argc p a := by
  unfold handleArgLog handleArg
  split
  · split <;> rfl
  · split
    · rfl
    · split
      · exact useInputListLog_snd files p a
      · rcases splitEq a with _ | ⟨o, i⟩
        · rfl
        · dsimp only
          split
          · rfl
          · exact reported_snd _ _

theorem readArgsLog_snd (files : Str → List Str) (p : RunParams D) (args : List Str) : (readArgsLog stod files p args).2 = readArgs stod files p args := by
  unfold readArgsLog readArgs
  rcases args with _ | ⟨a, l⟩
  · rfl
  · rw [if_neg (by simp)]
    exact foldLog_snd _ _ (handleArgLog_snd files _) p _

theorem finalChecksLog_snd (p : RunParams D) : (finalChecksLog p).2 = finalChecks p := by
  unfold finalChecksLog finalChecks
  dsimp only
  split
  · rfl
  · split <;> split <;> rfl

/-- Printing does not change what the parser does. -/
theorem C131_same_result (stod : Str → Option D) (files : Str → List Str) (threads : Int) (one hundred : D) (args : List Str) :
    (setRunParametersLog stod files threads one hundred args).2 = setRunParameters stod files threads one hundred args := by
  unfold setRunParametersLog setRunParameters
  rw [← readArgsLog_snd]
  rcases readArgsLog stod files (defaultParams threads one hundred) args with ⟨w, e | q⟩
  · rfl
  · exact finalChecksLog_snd q

/-- Messages of a loop: those of the passes made so far. -/
theorem foldLog_fst (f : RunParams D → Str → Logged D) (m : Str → List Msg)
    (hok : ∀ p a q, (f p a).2 = .ok q → (f p a).1 = m a) (herr : ∀ p a e, (f p a).2 = .error e → (f p a).1 <+: m a ∨ e = .helpExit) (p : RunParams D) (l : List Str) :
    (∀ q, (foldLog f p l).2 = .ok q → (foldLog f p l).1 = l.flatMap m) ∧ (∀ e, (foldLog f p l).2 = .error e → (foldLog f p l).1 <+: l.flatMap m ∨ e = .helpExit) := by
  induction l generalizing p with
  | nil => exact ⟨fun _ _ => rfl, fun e h => by cases h⟩
  | cons a l ih =>
    have h1 := hok p a
    have h2 := herr p a
    rw [foldLog]
    rcases hf : f p a with ⟨w, e | q⟩
    · rw [hf] at h2
      refine ⟨fun q h => (by cases h), fun e' h => ?_⟩
      simp only [Except.error.injEq] at h
      subst h
      rw [List.flatMap_cons]
      exact (h2 e rfl).imp_left fun h => h.trans (List.prefix_append _ _)
    · rw [hf] at h1
      have hw := h1 q rfl
      dsimp only at hw ⊢
      rw [List.flatMap_cons, hw]
      refine ⟨fun r h => by rw [(ih q).1 r h], fun e h => ?_⟩
      exact ((ih q).2 e h).imp_left fun h => (List.prefix_append_right_inj _).2 h

open Classical in
theorem reported_fst {p : RunParams D} {o v s : Str} :
    (∀ q, (reported s (readAndSet stod p o v)).2 = .ok q → (reported s (readAndSet stod p o v)).1 = if IsOption o then [] else [.unrecognised s]) ∧
    (∀ e, (reported s (readAndSet stod p o v)).2 = .error e → (reported s (readAndSet stod p o v)).1 = []) := by
  rcases h : readAndSet stod p o v with e | ⟨q, b⟩
  · exact ⟨fun q h => (by cases h), fun _ _ => rfl⟩
  · refine ⟨fun r _ => ?_, fun e h => by cases h⟩
    have := found_iff h
    unfold reported
    dsimp only
    rcases b with _ | _
    · have hn : ¬ IsOption o := fun hh => by simpa using this.2 hh
      simp only [hn, if_true, if_false]
    · have hy : IsOption o := this.1 rfl
      simp only [hy, if_true, if_false, Bool.true_eq_false]

open Classical in
/-- Messages of a line of a file. -/
noncomputable def lineMessages (l : Str) : List Msg := if ∃ kv, lineAssignment l = some kv ∧ ¬ IsOption kv.1 then [.unrecognised l] else []

open Classical in
theorem lines_messages (ls : List Str) : ls.flatMap lineMessages = (unknownLines ls).map Msg.unrecognised := by
  induction ls with
  | nil => rfl
  | cons l ls ih =>
    rw [List.flatMap_cons, ih]
    unfold unknownLines lineMessages
    rw [List.filter_cons]
    by_cases h : ∃ kv, lineAssignment l = some kv ∧ ¬ IsOption kv.1
    · simp only [h, if_true, decide_true]; rfl
    · simp only [h, if_false, decide_false]; rfl

open Classical in
theorem fileLineLog_fst (p : RunParams D) (l : Str) :
    (∀ q, (fileLineLog stod p l).2 = .ok q → (fileLineLog stod p l).1 = lineMessages l) ∧ (∀ e, (fileLineLog stod p l).2 = .error e → (fileLineLog stod p l).1 = []) := by
  have hla : lineAssignment l = (assignment l).bind fun kv => if kv.2.all (· == ' ') then none else some (kv.1, kv.2.filter fun c => !isSpaceC c) := rfl
  have hno : lineAssignment l = none → lineMessages l = [] := by
    intro h
    unfold lineMessages
    rw [if_neg]
    rintro ⟨kv, h', -⟩
    rw [h] at h'
    cases h'
  unfold fileLineLog
  rw [splitEq_eq]
  rcases ha : assignment l with _ | ⟨o, i⟩
  · refine ⟨fun q _ => ?_, fun e h => by cases h⟩
    rw [ha] at hla
    exact (hno hla).symm
  · rw [ha] at hla
    dsimp only [Option.bind] at hla ⊢
    by_cases hb : i.all (· == ' ') = true
    · rw [if_pos hb] at hla ⊢
      exact ⟨fun q _ => (hno hla).symm, fun e h => by cases h⟩
    · rw [if_neg hb] at hla ⊢
      obtain ⟨r1, r2⟩ := reported_fst (stod := stod) (p := p) (o := o) (v := i.filter fun c => !isSpaceC c) (s := l)
      refine ⟨fun q h => ?_, r2⟩
      rw [r1 q h]
      unfold lineMessages
      by_cases ho : IsOption o
      · rw [if_pos ho, if_neg]
        rintro ⟨kv, h, hn⟩
        rw [hla] at h
        simp only [Option.some.injEq] at h
        subst h
        exact hn ho
      · rw [if_neg ho, if_pos ⟨_, hla, ho⟩]

theorem useInputListLog_fst (files : Str → List Str) (p : RunParams D) (n : Str) :
    (∀ q, (useInputListLog stod files p n).2 = .ok q → (useInputListLog stod files p n).1 = (unknownLines (files n)).map Msg.unrecognised ++ [.usingFile n]) ∧
    (∀ e, (useInputListLog stod files p n).2 = .error e → (useInputListLog stod files p n).1 <+: (unknownLines (files n)).map Msg.unrecognised ++ [.usingFile n] ∨ e = .helpExit) := by
  obtain ⟨h1, h2⟩ := foldLog_fst (fileLineLog stod) lineMessages (fun p a => (fileLineLog_fst p a).1)
    (fun p a e h => Or.inl (by rw [(fileLineLog_fst p a).2 e h]; exact List.nil_prefix)) p (files n)
  unfold useInputListLog
  rw [lines_messages] at h1 h2
  rcases hf : foldLog (fileLineLog stod) p (files n) with ⟨w, e | q⟩
  · rw [hf] at h2
    refine ⟨fun q h => (by cases h), fun e' h => ?_⟩
    simp only [Except.error.injEq] at h
    subst h
    exact (h2 e rfl).imp_left fun h => h.trans (List.prefix_append _ _)
  · rw [hf] at h1
    refine ⟨fun r _ => ?_, fun e h => by cases h⟩
    have := h1 q rfl
    dsimp only at this ⊢
    rw [this]

theorem handleArgLog_fst (files : Str → List Str) (argc : Nat) (p : RunParams D) (a : Str) :
    (∀ q, (handleArgLog stod files argc p a).2 = .ok q → (handleArgLog stod files argc p a).1 = argMessages files a) ∧
    (∀ e, (handleArgLog stod files argc p a).2 = .error e → (handleArgLog stod files argc p a).1 <+: argMessages files a ∨ e = .helpExit) := by
  unfold handleArgLog argMessages
  by_cases hh : a = "-h".toList ∨ a = "--help".toList
  · rw [if_pos hh, if_pos hh]
    split
    · refine ⟨fun q h => (by cases h), fun e h => ?_⟩
      simp only [Except.error.injEq] at h
      exact Or.inr h.symm
    · exact ⟨fun _ _ => rfl, fun e h => by cases h⟩
  · rw [if_neg hh, if_neg hh]
    by_cases hl : a.length < 4
    · rw [if_pos hl]
      exact ⟨fun q h => (by cases h), fun e h => Or.inl List.nil_prefix⟩
    · rw [if_neg hl]
      by_cases ht : a.drop (a.length - 4) = ".txt".toList
      · rw [if_pos ht, if_pos ((txt_suffix_iff hl).1 ht)]
        exact useInputListLog_fst files p a
      · rw [if_neg ht, if_neg (fun h => ht ((txt_suffix_iff hl).2 h)), splitEq_eq]
        rcases ha : assignment a with _ | ⟨o, i⟩
        · exact ⟨fun _ _ => rfl, fun e h => by cases h⟩
        · dsimp only
          by_cases hi : i = []
          · rw [if_pos hi, if_neg (fun h => h.1 hi)]
            exact ⟨fun _ _ => rfl, fun e h => by cases h⟩
          · rw [if_neg hi]
            obtain ⟨r1, r2⟩ := reported_fst (stod := stod) (p := p) (o := o) (v := i) (s := a)
            refine ⟨fun q h => ?_, fun e h => Or.inl (by rw [r2 e h]; exact List.nil_prefix)⟩
            rw [r1 q h]
            by_cases ho : IsOption o
            · rw [if_pos ho, if_neg (fun h => h.2 ho)]
            · rw [if_neg ho, if_pos ⟨hi, ho⟩]

theorem readArgsLog_fst (files : Str → List Str) (p : RunParams D) (args : List Str) :
    (∀ q, (readArgsLog stod files p args).2 = .ok q → (readArgsLog stod files p args).1 = allMessages files args) ∧
    (∀ e, (readArgsLog stod files p args).2 = .error e → (readArgsLog stod files p args).1 <+: allMessages files args ∨ e = .helpExit) := by
  unfold readArgsLog allMessages
  rcases args with _ | ⟨a, l⟩
  · exact ⟨fun _ _ => rfl, fun e h => by cases h⟩
  · rw [if_neg (by simp), if_neg (by simp)]
    exact foldLog_fst _ _ (fun p a => (handleArgLog_fst files _ p a).1) (fun p a => (handleArgLog_fst files _ p a).2) p _

/-- C131. What the program prints when it accepts a command line: for every argument, in order, what the specification says, then a note about the number of threads exactly
if the requested number (the last assignment, or the machine's number) exceeds `Nq_WP`. -/
theorem C131_messages (stod : Str → Option D) (files : Str → List Str) (threads : Int) (one hundred : D) (args : List Str) (p : RunParams D)
    (h : (setRunParametersLog stod files threads one hundred args).2 = .ok p) :
    ∃ n, (match lastValue "P123_omp_num_threads".toList (assignments files args) with
      | some v => stoi v = some n
      | none => n = threads) ∧
      (setRunParametersLog stod files threads one hundred args).1 = allMessages files args ++ if p.int .Nq_WP < n then [.threadsCapped] else [] := by
  have hr := C131_same_result stod files threads one hundred args
  have hm := (readArgsLog_fst (stod := stod) files (defaultParams threads one hundred) args).1
  have hs := readArgsLog_snd (stod := stod) files (defaultParams threads one hundred) args
  rw [h] at hr
  unfold setRunParametersLog at h ⊢
  rcases hra : readArgsLog stod files (defaultParams threads one hundred) args with ⟨w, e | q⟩
  · rw [hra] at h; cases h
  · rw [hra] at h hm hs
    dsimp only at h hm hs ⊢
    have hw := hm q rfl
    rw [hw]
    -- the value read
    have hra' : readArgs stod files (defaultParams threads one hundred) args = .ok q := hs.symm
    have hra2 := hra'
    rw [readArgs_eq _ _ _ _ (argsOk_of_readArgs hra')] at hra2
    have key := foldAsg_ok stod _ _ _ hra2 (.int .P123_omp_num_threads)
    have hf : finalChecks q = .ok p := by rw [← finalChecksLog_snd]; exact h
    obtain ⟨_, _, _, _, hint, -⟩ := finalChecks_ok hf
    refine ⟨q.int .P123_omp_num_threads, ?_, ?_⟩
    · change match lastValue "P123_omp_num_threads".toList (assignments files args) with
        | some v => _ | none => _ at key
      cases hv : lastValue "P123_omp_num_threads".toList (assignments files args) <;> (rw [hv] at key; exact key)
    · rw [hint .Nq_WP (by decide)]
      unfold finalChecksLog at h ⊢
      by_cases hp : q.bool .parallel_run = true ∧ q.int .channel_idx = -1
      · rw [if_pos hp] at h; cases h
      · rw [if_neg hp]
        dsimp only
        congr 1
        split_ifs <;> rfl

/-- C131. When the program stops while reading (a bad value, a failed check, an argument that is too short), it has printed the beginning of these messages and nothing else;
`-h` alone prints the usage. -/
theorem C131_stopped (stod : Str → Option D) (files : Str → List Str) (threads : Int) (one hundred : D) (args : List Str) (e : Stop)
    (h : (setRunParametersLog stod files threads one hundred args).2 = .error e) (he : e ≠ .helpExit) :
    (setRunParametersLog stod files threads one hundred args).1 <+: allMessages files args ++ [.threadsCapped] := by
  have hm := readArgsLog_fst (stod := stod) files (defaultParams threads one hundred) args
  unfold setRunParametersLog at h ⊢
  rcases hra : readArgsLog stod files (defaultParams threads one hundred) args with ⟨w, e' | q⟩
  · rw [hra] at h hm
    simp only [Except.error.injEq] at h
    subst h
    exact ((hm.2 e' rfl).resolve_right he).trans (List.prefix_append _ _)
  · rw [hra] at h hm
    dsimp only at h ⊢
    have hw := hm.1 q rfl
    dsimp only at hw
    rw [hw, List.prefix_append_right_inj]
    unfold finalChecksLog
    dsimp only
    split_ifs <;> simp

theorem C131_help (stod : Str → Option D) (files : Str → List Str) (threads : Int) (one hundred : D) (a : Str) (ha : a = "-h".toList ∨ a = "--help".toList) :
    setRunParametersLog stod files threads one hundred [a] = ([.usage, .onlyUsage], .error .helpExit) := by
  rcases ha with rfl | rfl <;> rfl

/-- Membership in the messages of an argument. -/
theorem mem_argMessages {files : Str → List Str} {a s : Str} : Msg.unrecognised s ∈ argMessages files a ↔
    ¬ (a = "-h".toList ∨ a = "--help".toList) ∧ ((".txt".toList <:+ a ∧ s ∈ files a ∧ ∃ kv, lineAssignment s = some kv ∧ ¬ IsOption kv.1) ∨
      (¬ ".txt".toList <:+ a ∧ s = a ∧ ('=' ∉ a ∨ ∃ kv, assignment a = some kv ∧ kv.2 ≠ [] ∧ ¬ IsOption kv.1))) := by
  have hsplit : assignment a = none ↔ '=' ∉ a := by unfold assignment; split_ifs with h <;> simp [h]
  unfold argMessages
  by_cases hh : a = "-h".toList ∨ a = "--help".toList
  · rw [if_pos hh]
    simp only [List.mem_singleton, reduceCtorEq, false_iff, not_and]
    intro h
    exact absurd hh h
  · rw [if_neg hh]
    by_cases ht : ".txt".toList <:+ a
    · rw [if_pos ht, List.mem_append, List.mem_map]
      simp only [List.mem_singleton, reduceCtorEq, or_false, Msg.unrecognised.injEq, exists_eq_right]
      unfold unknownLines
      rw [List.mem_filter]
      simp only [decide_eq_true_eq]
      constructor
      · intro h; exact ⟨hh, Or.inl ⟨ht, h⟩⟩
      · rintro ⟨-, (⟨-, h⟩ | ⟨h, -⟩)⟩
        · exact h
        · exact absurd ht h
    · rw [if_neg ht]
      rcases ha : assignment a with _ | kv
      · have := hsplit.1 ha
        simp only [List.mem_singleton, Msg.unrecognised.injEq]
        constructor
        · intro h; exact ⟨hh, Or.inr ⟨ht, h, Or.inl this⟩⟩
        · rintro ⟨-, (⟨h, -⟩ | ⟨-, h, -⟩)⟩
          · exact absurd h ht
          · exact h
      · have hn : ¬ '=' ∉ a := fun hc => by rw [hsplit.2 hc] at ha; cases ha
        dsimp only
        split_ifs with hk
        · simp only [List.mem_singleton, Msg.unrecognised.injEq]
          constructor
          · intro h; exact ⟨hh, Or.inr ⟨ht, h, Or.inr ⟨kv, rfl, hk⟩⟩⟩
          · rintro ⟨-, (⟨h, -⟩ | ⟨-, h, -⟩)⟩
            · exact absurd h ht
            · exact h
        · simp only [List.not_mem_nil, false_iff]
          rintro ⟨-, (⟨h, -⟩ | ⟨-, -, (h | ⟨kv', h, h'⟩)⟩)⟩
          · exact ht h
          · exact hn h
          · cases h
            exact hk h'

/-- C131. No misspelt option goes unnoticed: if the program accepts a command line, then every assignment in it or in its input files whose key is no option has been reported with
the text it stands in, and whatever has been reported is either such a text or an argument without `=`. -/
theorem C131_unknown_reported (stod : Str → Option D) (files : Str → List Str) (threads : Int) (one hundred : D) (args : List Str) (p : RunParams D)
    (h : (setRunParametersLog stod files threads one hundred args).2 = .ok p) :
    (∀ kv ∈ assignments files args, ¬ IsOption kv.1 → ∃ s, Msg.unrecognised s ∈ (setRunParametersLog stod files threads one hundred args).1 ∧
      (s ∈ args ∧ assignment s = some kv ∨ ∃ a ∈ args, s ∈ files a ∧ lineAssignment s = some kv)) ∧
    (∀ s, Msg.unrecognised s ∈ (setRunParametersLog stod files threads one hundred args).1 →
      (s ∈ args ∧ '=' ∉ s) ∨ ∃ kv ∈ assignments files args, ¬ IsOption kv.1 ∧ (s ∈ args ∧ assignment s = some kv ∨ ∃ a ∈ args, s ∈ files a ∧ lineAssignment s = some kv)) := by
  obtain ⟨n, -, hl⟩ := C131_messages stod files threads one hundred args p h
  have hmem : ∀ s, Msg.unrecognised s ∈ (setRunParametersLog stod files threads one hundred args).1 ↔ ∃ a ∈ args, Msg.unrecognised s ∈ argMessages files a := by
    intro s
    rw [hl, List.mem_append]
    have h2 : ¬ Msg.unrecognised s ∈ (if p.int .Nq_WP < n then [Msg.threadsCapped] else []) := by split_ifs <;> simp
    simp only [h2, or_false]
    unfold allMessages
    split_ifs with h0
    · subst h0; simp
    · rw [List.mem_flatMap]
  constructor
  · intro kv hkv hno
    obtain ⟨a, ha, hk⟩ := List.mem_flatMap.1 hkv
    unfold argAssignments at hk
    by_cases hh : a = "-h".toList ∨ a = "--help".toList
    · rw [if_pos hh] at hk; cases hk
    · rw [if_neg hh] at hk
      by_cases ht : ".txt".toList <:+ a
      · rw [if_pos ht] at hk
        obtain ⟨l, hl1, hl2⟩ := List.mem_filterMap.1 hk
        exact ⟨l, (hmem l).2 ⟨a, ha, mem_argMessages.2 ⟨hh, Or.inl ⟨ht, hl1, kv, hl2, hno⟩⟩⟩, Or.inr ⟨a, ha, hl1, hl2⟩⟩
      · rw [if_neg ht] at hk
        have hk' : assignment a = some kv ∧ kv.2 ≠ [] := by simpa using hk
        exact ⟨a, (hmem a).2 ⟨a, ha, mem_argMessages.2 ⟨hh, Or.inr ⟨ht, rfl, Or.inr ⟨kv, hk'.1, hk'.2, hno⟩⟩⟩⟩, Or.inl ⟨ha, hk'.1⟩⟩
  · intro s hs
    obtain ⟨a, ha, hk⟩ := (hmem s).1 hs
    obtain ⟨hh, (⟨ht, h1, kv, h2, h3⟩ | ⟨ht, rfl, (h1 | ⟨kv, h1, h2, h3⟩)⟩)⟩ := mem_argMessages.1 hk
    · refine Or.inr ⟨kv, List.mem_flatMap.2 ⟨a, ha, ?_⟩, h3, Or.inr ⟨a, ha, h1, h2⟩⟩
      unfold argAssignments
      rw [if_neg hh, if_pos ht]
      exact List.mem_filterMap.2 ⟨s, h1, h2⟩
    · exact Or.inl ⟨ha, h1⟩
    · refine Or.inr ⟨kv, List.mem_flatMap.2 ⟨s, ha, ?_⟩, h3, Or.inl ⟨ha, h1⟩⟩
      unfold argAssignments
      rw [if_neg hh, if_neg ht]
      simpa using ⟨h1, h2⟩

/-- C131. Lines of an input file without `=` are the exception: they are dropped without a word, and so are options without a value. -/
theorem C131_silent (files : Str → List Str) (a : Str) (ht : ".txt".toList <:+ a) (hq : ∀ l ∈ files a, '=' ∉ l ∨ ∃ kv, assignment l = some kv ∧ kv.2.all (· == ' ') = true) :
    assignments files [a] = [] ∧ argMessages files a = [.usingFile a] := by
  have hl : ∀ l ∈ files a, lineAssignment l = none := by
    intro l hl
    unfold lineAssignment
    rcases hq l hl with h | ⟨kv, h, hb⟩
    · have : assignment l = none := by unfold assignment; rw [if_neg h]
      rw [this]; rfl
    · rw [h]
      dsimp only [Option.bind]
      rw [if_pos hb]
  have hh : ¬ (a = "-h".toList ∨ a = "--help".toList) := by
    rintro (rfl | rfl) <;> revert ht <;> decide
  have h1 : (files a).filterMap lineAssignment = [] := by
    rw [List.filterMap_eq_nil_iff]; exact hl
  constructor
  · unfold assignments argAssignments
    rw [List.flatMap_singleton, if_neg hh, if_pos ht, h1]
  · unfold argMessages unknownLines
    rw [if_neg hh, if_pos ht]
    rw [List.filter_eq_nil_iff.2]
    · rfl
    · intro l hl'
      simp only [decide_eq_true_eq]
      rintro ⟨kv, h, -⟩
      rw [hl l hl'] at h
      cases h

/-- A misspelt option on the command line, a line with a blank before `=` in a file, and a line without `=`. -/
example (stod : Str → Option D) (one hundred : D) : ∃ p, setRunParametersLog stod (fun _ => ["Nq_WP =20".toList, "Np_WP 20".toList]) 8 one hundred ["np_wp=20".toList, "run.txt".toList] =
    ([.unrecognised "np_wp=20".toList, .unrecognised "Nq_WP =20".toList, .usingFile "run.txt".toList], .ok p) ∧ p.int .Np_WP = 50 :=
  ⟨_, rfl, rfl⟩

end TicTac
