import Verif.Lemmas.RunParams
/-!
Property theorems C08–C12, C54: command line and input files.
-/
namespace TicTac
open Spec

variable {D : Type}

theorem setRunParameters_ok {stod : Str → Option D} {files : Str → List Str} {threads : Int} {one hundred : D}
    {args : List Str} {p : RunParams D} (h : setRunParameters stod files threads one hundred args = .ok p) :
    ∃ q, readArgs stod files (defaultParams threads one hundred) args = .ok q ∧ finalChecks q = .ok p := by
  unfold setRunParameters at h
  cases hr : readArgs stod files (defaultParams threads one hundred) args with
  | error e => rw [hr] at h; cases h
  | ok q => rw [hr] at h; exact ⟨q, rfl, h⟩

theorem finalChecks_eq (q : RunParams D) : finalChecks q =
    if q.bool .parallel_run = true ∧ q.int .channel_idx = -1 then .error .raiseError
    else if Int.tmod (q.int .two_J_3N_max) 2 = 0 ∨ q.int .two_J_3N_max ≤ 0 then .error .raiseError
    else .ok (if q.int .P123_omp_num_threads > q.int .Nq_WP then
      q.setInt .P123_omp_num_threads (q.int .Nq_WP) else q) := by
  unfold finalChecks
  dsimp only
  by_cases h1 : q.bool .parallel_run = true ∧ q.int .channel_idx = -1
  · rw [if_pos h1, if_pos h1]
  · rw [if_neg h1, if_neg h1]
    by_cases h2 : q.int .P123_omp_num_threads > q.int .Nq_WP
    · rw [if_pos h2]
      simp only [RunParams.setInt, reduceCtorEq, if_false]
    · rw [if_neg h2]

theorem finalChecks_ok {q p : RunParams D} (h : finalChecks q = .ok p) :
    (q.bool .parallel_run = true → q.int .channel_idx ≠ -1) ∧ q.int .two_J_3N_max % 2 = 1 ∧ 0 < q.int .two_J_3N_max ∧
    p.int .P123_omp_num_threads = min (q.int .P123_omp_num_threads) (q.int .Nq_WP) ∧
    (∀ k, k ≠ .P123_omp_num_threads → p.int k = q.int k) ∧ p.dbl = q.dbl ∧ p.bool = q.bool ∧ p.str = q.str := by
  rw [finalChecks_eq] at h
  by_cases h1 : q.bool .parallel_run = true ∧ q.int .channel_idx = -1
  · rw [if_pos h1] at h; cases h
  · rw [if_neg h1] at h
    by_cases h3 : Int.tmod (q.int .two_J_3N_max) 2 = 0 ∨ q.int .two_J_3N_max ≤ 0
    · rw [if_pos h3] at h; cases h
    · rw [if_neg h3] at h
      have hp := Except.ok.inj h
      simp only [not_or, Int.not_le] at h3
      rw [Int.tmod_eq_emod_of_nonneg (by omega)] at h3
      refine ⟨fun hp hc => h1 ⟨hp, hc⟩, by omega, h3.2, ?_⟩
      by_cases h2 : q.int .P123_omp_num_threads > q.int .Nq_WP
      · rw [if_pos h2] at hp
        subst hp
        refine ⟨?_, ?_, rfl, rfl, rfl⟩
        · simp only [RunParams.setInt, if_true]; omega
        · intro k hk; simp only [RunParams.setInt]; rw [if_neg hk]
      · rw [if_neg h2] at hp
        subst hp
        exact ⟨by omega, fun _ _ => rfl, rfl, rfl, rfl⟩

/-- C08 in terms of the model's default record: whatever the arguments and file contents, if the option parser returns then every parameter equals the
last value assigned to its key in the in-order list of assignments (files expanded in place) and every parameter
never assigned has its default.  Unknown keys have no influence because the result depends only on the last values of
the known keys.  The thread count is finally capped by `Nq_WP`. -/
theorem C08_values (stod : Str → Option D) (files : Str → List Str) (threads : Int) (one hundred : D)
    (args : List Str) (p : RunParams D) (h : setRunParameters stod files threads one hundred args = .ok p) :
    (∀ k : IntKey, k ≠ .P123_omp_num_threads →
      match lastValue (Key.int k).name (assignments files args) with
      | some v => stoi v = some (p.int k)
      | none => p.int k = defaultInt threads k) ∧
    (∃ n, (match lastValue "P123_omp_num_threads".toList (assignments files args) with
      | some v => stoi v = some n
      | none => n = threads) ∧ p.int .P123_omp_num_threads = min n (p.int .Nq_WP)) ∧
    (∀ k : DblKey, match lastValue (Key.dbl k).name (assignments files args) with
      | some v => stod v = some (p.dbl k)
      | none => p.dbl k = defaultDbl one hundred k) ∧
    (∀ k : BoolKey, match lastValue (Key.bool k).name (assignments files args) with
      | some v => (v = "true".toList ∧ p.bool k = true) ∨ (v = "false".toList ∧ p.bool k = false)
      | none => p.bool k = defaultBool k) ∧
    (∀ k : StrKey, match lastValue (Key.str k).name (assignments files args) with
      | some v => v = p.str k
      | none => p.str k = defaultStr k) := by
  obtain ⟨q, hq, hf⟩ := setRunParameters_ok h
  rw [readArgs_eq _ _ _ _ (argsOk_of_readArgs hq)] at hq
  have key := foldAsg_ok stod _ _ _ hq
  obtain ⟨_, _, _, hth, hint, hd, hb, hs⟩ := finalChecks_ok hf
  refine ⟨fun k hk => ?_, ?_, fun k => ?_, fun k => ?_, fun k => ?_⟩
  · have := key (.int k)
    rw [hint k hk]
    cases hv : lastValue (Key.int k).name (assignments files args) <;> (rw [hv] at this; exact this)
  · refine ⟨q.int .P123_omp_num_threads, ?_, ?_⟩
    · have := key (.int .P123_omp_num_threads)
      change match lastValue "P123_omp_num_threads".toList (assignments files args) with
        | some v => _ | none => _ at this
      cases hv : lastValue "P123_omp_num_threads".toList (assignments files args) <;> (rw [hv] at this; exact this)
    · rw [hth, hint .Nq_WP (by decide)]
  · have := key (.dbl k)
    rw [hd]
    cases hv : lastValue (Key.dbl k).name (assignments files args) <;> (rw [hv] at this; exact this)
  · have := key (.bool k)
    rw [hb]
    cases hv : lastValue (Key.bool k).name (assignments files args) <;> (rw [hv] at this; exact this)
  · have := key (.str k)
    rw [hs]
    cases hv : lastValue (Key.str k).name (assignments files args) <;> (rw [hv] at this; exact this)

/-- **C08.** Whatever the arguments and file contents, if the option parser returns then every parameter equals the
last value assigned to its key in the in-order list of assignments (files expanded in place) and every parameter
never assigned has its default, i.e. the value it would get from the text in the table `Key.defaultText`.  Unknown keys
have no influence because the result depends only on the last values of the known keys.  The thread count defaults to
the number of hardware threads and is finally capped by `Nq_WP`.  For the two doubles `one` and `hundred` stand for the
values of the texts "1" and "100". -/
theorem C08_last_assignment_wins (stod : Str → Option D) (files : Str → List Str) (threads : Int) (one hundred : D)
    (hone : stod "1".toList = some one) (hhun : stod "100".toList = some hundred)
    (args : List Str) (p : RunParams D) (h : setRunParameters stod files threads one hundred args = .ok p) :
    (∀ k : IntKey, k ≠ .P123_omp_num_threads →
      stoi ((lastValue (Key.int k).name (assignments files args)).getD (Key.int k).defaultText) = some (p.int k)) ∧
    (∃ n, (match lastValue "P123_omp_num_threads".toList (assignments files args) with
      | some v => stoi v = some n
      | none => n = threads) ∧ p.int .P123_omp_num_threads = min n (p.int .Nq_WP)) ∧
    (∀ k : DblKey,
      stod ((lastValue (Key.dbl k).name (assignments files args)).getD (Key.dbl k).defaultText) = some (p.dbl k)) ∧
    (∀ k : BoolKey,
      ((lastValue (Key.bool k).name (assignments files args)).getD (Key.bool k).defaultText =
        if p.bool k then "true".toList else "false".toList)) ∧
    (∀ k : StrKey,
      (lastValue (Key.str k).name (assignments files args)).getD (Key.str k).defaultText = p.str k) := by
  obtain ⟨h1, h2, h3, h4, h5⟩ := C08_values stod files threads one hundred args p h
  refine ⟨fun k hk => ?_, h2, fun k => ?_, fun k => ?_, fun k => ?_⟩
  · have := h1 k hk
    cases hv : lastValue (Key.int k).name (assignments files args) with
    | some v => rw [hv] at this; exact this
    | none => rw [hv] at this; rw [this]; cases k <;> first | exact absurd rfl hk | rfl
  · have := h3 k
    cases hv : lastValue (Key.dbl k).name (assignments files args) with
    | some v => rw [hv] at this; exact this
    | none => rw [hv] at this; rw [this]; cases k <;> assumption
  · have := h4 k
    cases hv : lastValue (Key.bool k).name (assignments files args) with
    | some v =>
      rw [hv] at this
      rcases this with ⟨h, h'⟩ | ⟨h, h'⟩ <;> (rw [h']; exact h)
    | none => rw [hv] at this; rw [this]; cases k <;> rfl
  · have := h5 k
    cases hv : lastValue (Key.str k).name (assignments files args) with
    | some v => rw [hv] at this; exact this
    | none => rw [hv] at this; rw [this]; cases k <;> rfl

theorem isDigitC_of_isDigit {c : Char} (h : c.isDigit) : isDigitC c = true := by
  simp only [Char.isDigit, Bool.and_eq_true, decide_eq_true_eq] at h
  simp only [isDigitC, Bool.and_eq_true, decide_eq_true_eq]
  exact h

theorem takeWhile_digits (n : Nat) : (Nat.toDigits 10 n).takeWhile isDigitC = Nat.toDigits 10 n := by
  have := List.takeWhile_append_of_pos (p := isDigitC) (l₁ := Nat.toDigits 10 n) (l₂ := [])
    (fun c hc => isDigitC_of_isDigit (Nat.isDigit_of_mem_toDigits (by decide) (by decide) hc))
  simpa using this

theorem digitsVal_toDigits (n : Nat) : digitsVal (Nat.toDigits 10 n) = n :=
  Nat.ofDigitChars_toDigits (b := 10) (n := n) (by decide) (by decide)

/-- The text of an integer that fits in an `int` is read back as that integer. -/
theorem stoi_decimalText (n : Int) (h1 : -2147483648 ≤ n) (h2 : n ≤ 2147483647) : stoi (decimalText n) = some n := by
  have hne : Nat.toDigits 10 n.natAbs ≠ [] := Nat.toDigits_ne_nil
  by_cases hn : n < 0
  · have e : decimalText n = '-' :: Nat.toDigits 10 n.natAbs := if_pos hn
    rw [e]
    have hdrop : ('-' :: Nat.toDigits 10 n.natAbs).dropWhile isSpaceC = '-' :: Nat.toDigits 10 n.natAbs := by
      rw [List.dropWhile_cons]; rfl
    have h1' : (('-' :: Nat.toDigits 10 n.natAbs).head? == some '-') = true := by simp
    simp only [stoi, hdrop, h1', Bool.true_or, if_true, List.tail_cons, takeWhile_digits, digitsVal_toDigits]
    rw [if_neg (by simp)]
    have : -((n.natAbs : Nat) : Int) = n := by omega
    rw [this, if_pos ⟨h1, h2⟩]
  · have e : decimalText n = Nat.toDigits 10 n.natAbs := if_neg hn
    rw [e]
    obtain ⟨c, cs, hc⟩ := List.exists_cons_of_ne_nil hne
    have hd : c.isDigit := Nat.isDigit_of_mem_toDigits (b := 10) (n := n.natAbs) (by decide) (by decide) (by rw [hc]; simp)
    have hs : isSpaceC c = false := by
      by_contra hcon
      rw [Bool.not_eq_false] at hcon
      simp only [isSpaceC, Bool.or_eq_true, beq_iff_eq] at hcon
      rcases hcon with ((((h | h) | h) | h) | h) | h <;> (subst h; revert hd; decide)
    have hm : c ≠ '-' := by rintro rfl; exact absurd hd (by decide)
    have hp : c ≠ '+' := by rintro rfl; exact absurd hd (by decide)
    have hdrop : (Nat.toDigits 10 n.natAbs).dropWhile isSpaceC = Nat.toDigits 10 n.natAbs := by
      rw [hc, List.dropWhile_cons, hs]; rfl
    have h1' : ((Nat.toDigits 10 n.natAbs).head? == some '-') = false := by
      rw [hc]; simpa using hm
    have h2' : ((Nat.toDigits 10 n.natAbs).head? == some '+') = false := by
      rw [hc]; simpa using hp
    simp only [stoi, hdrop, h1', h2', Bool.or_self, Bool.false_eq_true, if_false, takeWhile_digits, digitsVal_toDigits]
    rw [if_neg (by simp)]
    have : ((n.natAbs : Nat) : Int) = n := by omega
    rw [this, if_pos ⟨h1, h2⟩]

/-- **C08, values.** If the last value assigned to an integer key is the decimal text of an integer that fits in an
`int`, the parameter has that value (the thread count: unless it is capped). -/
theorem C08_integer_value (stod : Str → Option D) (files : Str → List Str) (threads : Int) (one hundred : D)
    (args : List Str) (p : RunParams D) (h : setRunParameters stod files threads one hundred args = .ok p)
    (k : IntKey) (n : Int) (h1 : -2147483648 ≤ n) (h2 : n ≤ 2147483647)
    (hv : lastValue (Key.int k).name (assignments files args) = some (decimalText n)) :
    p.int k = if k = .P123_omp_num_threads then min n (p.int .Nq_WP) else n := by
  have hval := C08_values stod files threads one hundred args p h
  by_cases hk : k = .P123_omp_num_threads
  · subst hk
    rw [if_pos rfl]
    obtain ⟨m, hm, hm'⟩ := hval.2.1
    have hv' : lastValue "P123_omp_num_threads".toList (assignments files args) = some (decimalText n) := hv
    rw [hv'] at hm
    simp only [stoi_decimalText n h1 h2, Option.some.injEq] at hm
    rw [hm', hm]
  · rw [if_neg hk]
    have := hval.1 k hk
    rw [hv] at this
    simp only [stoi_decimalText n h1 h2, Option.some.injEq] at this
    exact this.symm

-- non-vacuity: a negative and a positive value
example : ∃ p, setRunParameters (D := Nat) (fun _ => some 0) (fun _ => []) 8 1 100
      ["channel_idx=-17".toList, "Nx=20".toList] = .ok p ∧ p.int .channel_idx = -17 ∧ p.int .Nx = 20 ∧
    decimalText (-17) = "-17".toList := ⟨_, rfl, by decide⟩

/-- C08, acceptance: if every argument has at least four characters (or is a help flag among others) and every
assigned value is well formed, argument processing succeeds. -/
theorem C08_well_formed_accepted (stod : Str → Option D) (files : Str → List Str) (p : RunParams D) (args : List Str)
    (hlen : ∀ a ∈ args, a = "-h".toList ∨ 4 ≤ a.length)
    (hhelp : args.length = 1 → "-h".toList ∉ args ∧ "--help".toList ∉ args)
    (hwf : ∀ kv ∈ assignments files args, WellFormed stod kv.1 kv.2) :
    ∃ q, readArgs stod files p args = .ok q := by
  have hok : ArgsOk args := by
    intro a ha
    refine ⟨hlen a ha, ?_⟩
    rintro (h | h) h1
    · exact (hhelp h1).1 (h ▸ ha)
    · exact (hhelp h1).2 (h ▸ ha)
  rw [readArgs_eq _ _ _ _ hok]
  exact foldAsg_wf stod _ p hwf

/-- Example data: one input file setting three keys. -/
def exFiles : Str → List Str := fun n =>
  if n = "in.txt".toList then ["Np_WP=30".toList, "# comment".toList, "tensor_force=false ".toList] else []

-- non-vacuity of C08: file first, then an override, an unknown key, a blank value, a repeated key
example : ∃ p, setRunParameters (D := Nat) (fun _ => some 0) exFiles 8 1 100
      ["in.txt".toList, "Np_WP=32".toList, "foo=1".toList, "Nq_WP=".toList, "J_2N_max=5".toList, "J_2N_max=2".toList] = .ok p ∧
    p.int .Np_WP = 32 ∧ p.bool .tensor_force = false ∧ p.int .Nq_WP = 50 ∧ p.int .J_2N_max = 2 ∧
    p.int .P123_omp_num_threads = 8 := ⟨_, rfl, by decide⟩

/-- README.md:52 documents `Np_WP=30` as the default; a run that never assigns `Np_WP` uses 50. -/
theorem C08_readme_default_differs (stod : Str → Option D) (files : Str → List Str) (threads : Int) (one hundred : D)
    (args : List Str) (p : RunParams D) (h : setRunParameters stod files threads one hundred args = .ok p)
    (hno : ∀ kv ∈ assignments files args, kv.1 ≠ "Np_WP".toList) : p.int .Np_WP = 50 := by
  have := (C08_values stod files threads one hundred args p h).1 .Np_WP (by decide)
  have hn : lastValue (Key.int .Np_WP).name (assignments files args) = none := by
    unfold lastValue
    have h0 : (assignments files args).filter (fun kv => decide (kv.1 = (Key.int .Np_WP).name)) = [] :=
      List.filter_eq_nil_iff.mpr (fun kv hkv hd => hno kv hkv (of_decide_eq_true hd))
    rw [h0]
    rfl
  rw [hn] at this
  exact this

/-- **C09 (false of the code).** README.md:46: "If the input-arguments is not of the expected type, for example a
float instead of an integer, Tic-tac will stop running."  A float for the integer key `Np_WP` is silently truncated. -/
theorem C09_float_for_int_accepted (stod : Str → Option D) (files : Str → List Str) (one hundred : D) :
    ∃ p, setRunParameters stod files 8 one hundred ["Np_WP=32.5".toList] = .ok p ∧ p.int .Np_WP = 32 :=
  ⟨_, rfl, rfl⟩

theorem asg_not_ok {stod : Str → Option D} {files : Str → List Str} {p q : RunParams D} {args : List Str}
    (hq : readArgs stod files p args = .ok q) {kv : Str × Str} (hkv : kv ∈ assignments files args) :
    ∃ r r', stepAsg stod r kv = .ok r' := by
  rw [readArgs_eq _ _ _ _ (argsOk_of_readArgs hq)] at hq
  exact foldlM_ok_mem _ _ _ _ hq kv hkv

/-- C09 (partial: flags).  A value other than `true`/`false` given to any flag, on the command line or in a file,
anywhere in the argument list, prevents the parser from returning. -/
theorem C09_flag_wrong_type_stops (stod : Str → Option D) (files : Str → List Str) (threads : Int)
    (one hundred : D) (args : List Str) (k : BoolKey) (v : Str)
    (hmem : ((Key.bool k).name, v) ∈ assignments files args) (hv : v ≠ "true".toList ∧ v ≠ "false".toList) :
    ∀ p, setRunParameters stod files threads one hundred args ≠ .ok p := by
  intro p h
  obtain ⟨q, hq, _⟩ := setRunParameters_ok h
  obtain ⟨r, r', hr⟩ := asg_not_ok hq hmem
  unfold stepAsg at hr
  rw [readAndSet_eq] at hr
  simp only [keyOf_name, assignKey, assignBool, hv.1, hv.2, or_self, if_false] at hr
  cases hr

/-- The text of an integer literal with optional sign. -/
def Spec.IsIntText (s : Str) : Prop :=
  ∃ sign ds : Str, s = sign ++ ds ∧ (sign = [] ∨ sign = "-".toList ∨ sign = "+".toList) ∧ ds ≠ [] ∧
    ∀ c ∈ ds, c ∈ "0123456789".toList

theorem isDigitC_mem {c : Char} (h : isDigitC c = true) : c ∈ "0123456789".toList := by
  unfold isDigitC at h
  simp only [Bool.and_eq_true, decide_eq_true_eq] at h
  have h1 : 48 ≤ c.toNat := h.1
  have h2 : c.toNat ≤ 57 := h.2
  have h3 : c.toNat = 48 ∨ c.toNat = 49 ∨ c.toNat = 50 ∨ c.toNat = 51 ∨ c.toNat = 52 ∨ c.toNat = 53 ∨ c.toNat = 54 ∨
    c.toNat = 55 ∨ c.toNat = 56 ∨ c.toNat = 57 := by omega
  have e : c = Char.ofNat c.toNat := (Char.ofNat_toNat c).symm
  rcases h3 with h | h | h | h | h | h | h | h | h | h <;> (rw [h] at e; rw [e]; decide)

theorem takeWhile_all {p : Char → Bool} (s : Str) : ∀ c ∈ s.takeWhile p, p c = true := by
  induction s with
  | nil => simp
  | cons a s ih =>
    intro c hc
    rw [List.takeWhile_cons] at hc
    split_ifs at hc with h
    · rcases List.mem_cons.1 hc with rfl | hc
      · exact h
      · exact ih c hc
    · simp at hc

/-- C09 (partial: integers).  An accepted value of an integer key starts (after white space) with an integer literal;
what follows the literal is silently ignored. -/
theorem C09_int_value_starts_with_literal (stod : Str → Option D) (files : Str → List Str) (threads : Int)
    (one hundred : D) (args : List Str) (k : IntKey) (v : Str)
    (hmem : ((Key.int k).name, v) ∈ assignments files args)
    (p : RunParams D) (h : setRunParameters stod files threads one hundred args = .ok p) :
    ∃ ws lit rest : Str, v = ws ++ lit ++ rest ∧ (∀ c ∈ ws, isSpaceC c = true) ∧ Spec.IsIntText lit := by
  obtain ⟨q, hq, _⟩ := setRunParameters_ok h
  obtain ⟨r, r', hr⟩ := asg_not_ok hq hmem
  unfold stepAsg at hr
  rw [readAndSet_eq] at hr
  simp only [keyOf_name, assignKey, assignInt] at hr
  have hs : stoi v ≠ none := by
    intro hn; rw [hn] at hr; cases hr
  unfold stoi at hs
  set s := v.dropWhile isSpaceC with hsdef
  have hv : v = v.takeWhile isSpaceC ++ s := (List.takeWhile_append_dropWhile).symm
  by_cases hsign : (s.head? == some '-' || s.head? == some '+') = true
  · simp only [hsign, if_true] at hs
    have hne : s.tail.takeWhile isDigitC ≠ [] := by
      intro he; rw [he] at hs; simp at hs
    obtain ⟨c, t, hst⟩ : ∃ c t, s = c :: t := by
      cases hs' : s with
      | nil => rw [hs'] at hsign; simp at hsign
      | cons c t => exact ⟨c, t, rfl⟩
    rw [hst] at hsign hne hv
    simp only [List.head?_cons, List.tail_cons] at hsign hne
    refine ⟨v.takeWhile isSpaceC, [c] ++ t.takeWhile isDigitC, t.dropWhile isDigitC, ?_, takeWhile_all v,
      [c], t.takeWhile isDigitC, rfl, ?_, hne, fun c hc => isDigitC_mem (takeWhile_all t c hc)⟩
    · conv_lhs => rw [hv]
      simp
    · right
      simp only [Bool.or_eq_true, beq_iff_eq, Option.some.injEq] at hsign
      rcases hsign with h | h
      · left; subst h; rfl
      · right; subst h; rfl
  · simp only [hsign] at hs
    have hne : s.takeWhile isDigitC ≠ [] := by
      intro he; simp [he] at hs
    refine ⟨v.takeWhile isSpaceC, s.takeWhile isDigitC, s.dropWhile isDigitC, ?_, takeWhile_all v,
      [], s.takeWhile isDigitC, rfl, Or.inl rfl, hne, fun c hc => isDigitC_mem (takeWhile_all s c hc)⟩
    rw [List.append_assoc, List.takeWhile_append_dropWhile]
    exact hv

example : ((Key.bool .tensor_force).name, "yes".toList) ∈ assignments (fun _ => []) ["tensor_force=yes".toList] := by
  decide
example : ((Key.int .Nx).name, "7".toList) ∈ assignments (fun _ => []) ["Nx=7".toList] := by decide

/-- **C10 (false of the code).** Any argument of fewer than four characters other than `-h` makes the parser throw an
uncaught exception when it is reached (`substr(arg_size-4)` wraps around); here for every such first argument. -/
theorem C10_short_argument_throws (stod : Str → Option D) (files : Str → List Str) (threads : Int) (one hundred : D)
    (a : Str) (rest : List Str) (hlen : a.length < 4) (hh : a ≠ "-h".toList) :
    setRunParameters stod files threads one hundred (a :: rest) = .error .exception := by
  have h1 : ¬ (a = "-h".toList ∨ a = "--help".toList) := by
    rintro (h | h)
    · exact hh h
    · subst h; simp at hlen
  have : handleArg stod files ((a :: rest).length + 1) (defaultParams threads one hundred) a = .error .exception := by
    unfold handleArg
    rw [if_neg h1, if_pos hlen]
  unfold setRunParameters readArgs
  rw [List.foldlM_cons, this]
  rfl

example : ("foo".toList : Str).length < 4 ∧ "foo".toList ≠ "-h".toList := by decide

theorem foldlM_error_cases {σ α ε : Type} (f : σ → α → Except ε σ) (l : List α) (p : σ) (e : ε)
    (h : l.foldlM f p = .error e) : ∃ a ∈ l, ∃ q, f q a = .error e := by
  induction l generalizing p with
  | nil => cases h
  | cons a as ih =>
    rw [List.foldlM_cons] at h
    cases ha : f p a with
    | error e' =>
      rw [ha] at h
      have : e' = e := by cases h; rfl
      exact ⟨a, by simp, p, this ▸ ha⟩
    | ok q =>
      rw [ha] at h
      obtain ⟨b, hb, q', hq'⟩ := ih q h
      exact ⟨b, by simp [hb], q', hq'⟩

/-- C10: with all arguments at least four characters long (or `-h`), an exception can only come from a number
that does not parse: some assignment to an integer or double key has a malformed value. -/
theorem C10_exception_only_from_numbers (stod : Str → Option D) (files : Str → List Str) (threads : Int)
    (one hundred : D) (args : List Str) (hlen : ∀ a ∈ args, a = "-h".toList ∨ 4 ≤ a.length)
    (h : setRunParameters stod files threads one hundred args = .error .exception) :
    ∃ kv ∈ assignments files args, (∃ k : IntKey, kv.1 = (Key.int k).name ∧ stoi kv.2 = none) ∨
      (∃ k : DblKey, kv.1 = (Key.dbl k).name ∧ stod kv.2 = none) := by
  have hfc : ∀ q : RunParams D, finalChecks q ≠ .error .exception := by
    intro q hq
    rw [finalChecks_eq] at hq
    by_cases h1 : q.bool .parallel_run = true ∧ q.int .channel_idx = -1
    · rw [if_pos h1] at hq; cases hq
    · rw [if_neg h1] at hq
      by_cases h3 : Int.tmod (q.int .two_J_3N_max) 2 = 0 ∨ q.int .two_J_3N_max ≤ 0
      · rw [if_pos h3] at hq; cases hq
      · rw [if_neg h3] at hq; cases hq
  have hra : readArgs stod files (defaultParams threads one hundred) args = .error .exception := by
    unfold setRunParameters at h
    cases hr : readArgs stod files (defaultParams threads one hundred) args with
    | error e => rw [hr] at h; cases h; rfl
    | ok q => rw [hr] at h; exact absurd h (hfc q)
  have hok : ArgsOk args := by
    intro a ha
    refine ⟨hlen a ha, fun hh h1 => ?_⟩
    -- a single help flag stops with the help exit, not an exception
    obtain ⟨b, rfl⟩ := List.length_eq_one_iff.1 h1
    simp only [List.mem_singleton] at ha
    subst ha
    have : handleArg stod files 2 (defaultParams threads one hundred) a = .error .helpExit := by
      unfold handleArg; rw [if_pos hh]; rfl
    unfold readArgs at hra
    rw [List.foldlM_cons] at hra
    simp only [List.length_cons, List.length_nil] at hra
    rw [this] at hra; cases hra
  rw [readArgs_eq _ _ _ _ hok] at hra
  obtain ⟨kv, hkv, q, hq⟩ := foldlM_error_cases _ _ _ _ hra
  refine ⟨kv, hkv, ?_⟩
  unfold stepAsg at hq
  rw [readAndSet_eq] at hq
  cases hk : keyOf kv.1 with
  | none => rw [hk] at hq; cases hq
  | some k0 =>
    have hn := name_of_keyOf hk
    rw [hk] at hq
    cases k0 with
    | int k =>
      simp only [assignKey, assignInt] at hq
      cases hs : stoi kv.2 with
      | none => exact Or.inl ⟨k, hn, rfl⟩
      | some n => rw [hs] at hq; cases hq
    | dbl k =>
      simp only [assignKey, assignDbl] at hq
      cases hs : stod kv.2 with
      | none => exact Or.inr ⟨k, hn, rfl⟩
      | some n => rw [hs] at hq; cases hq
    | bool k =>
      simp only [assignKey, assignBool] at hq
      split_ifs at hq <;> cases hq
    | str k => cases hq

example : setRunParameters (D := Nat) (fun _ => some 0) (fun _ => []) 8 1 100 ["Nx=abc".toList] = .error .exception := rfl

/-- **C11 (false of the code).** For every text key and every value ending in `.txt`, `key=value` is taken as the name
of an input file: if there is no such file the assignment is lost and nothing changes. -/
theorem C11_txt_value_lost (stod : Str → Option D) (files : Str → List Str) (argc : Nat) (p : RunParams D) (k : StrKey)
    (w : Str) (hfile : files ((Key.str k).name ++ '=' :: (w ++ ".txt".toList)) = []) :
    handleArg stod files argc p ((Key.str k).name ++ '=' :: (w ++ ".txt".toList)) = .ok p := by
  set a := (Key.str k).name ++ '=' :: (w ++ ".txt".toList) with ha
  have hlen : ¬ a.length < 4 := by rw [ha]; simp; omega
  have hsuf : ".txt".toList <:+ a := ⟨(Key.str k).name ++ '=' :: w, by rw [ha]; simp⟩
  have hh : ¬ (a = "-h".toList ∨ a = "--help".toList) := by
    rintro (h | h)
    · rw [h] at hsuf; revert hsuf; decide
    · rw [h] at hsuf; revert hsuf; decide
  unfold handleArg
  rw [if_neg hh, if_neg hlen, if_pos ((txt_suffix_iff hlen).2 hsuf)]
  unfold useInputList
  rw [hfile]; rfl

/-- The documented example: `energy_input_file=my.txt` leaves the energies file at its default. -/
theorem C11_energy_file_example (stod : Str → Option D) (one hundred : D) :
    ∃ p, setRunParameters stod (fun _ => []) 8 one hundred ["energy_input_file=my.txt".toList] = .ok p ∧
      p.str .energy_input_file = "lab_energies.txt".toList := ⟨_, rfl, rfl⟩

/-- C11: for every known key and every non-empty value not ending in `.txt`, `key=value` is an assignment:
if the value is well formed the argument is accepted, the parameter has that value afterwards and all others are
unchanged. -/
theorem C11_assignment (stod : Str → Option D) (files : Str → List Str) (argc : Nat) (p : RunParams D) (k : Key)
    (v : Str) (hv : v ≠ []) (htxt : ¬ ".txt".toList <:+ v) (hwf : WellFormed stod k.name v) :
    ∃ q, handleArg stod files argc p (k.name ++ '=' :: v) = .ok q ∧ Holds stod q v k ∧
      ∀ k', k' ≠ k → Agree q p k' := by
  set a := k.name ++ '=' :: v with ha
  have hname : 2 ≤ k.name.length ∧ '=' ∉ k.name := by
    rcases k with k | k | k | k <;> cases k <;> decide
  have hvl : 1 ≤ v.length := by
    cases v with
    | nil => exact absurd rfl hv
    | cons c t => simp
  have hlen : ¬ a.length < 4 := by rw [ha]; simp; omega
  have hmem : '=' ∈ a := by rw [ha]; simp
  have hh : ¬ (a = "-h".toList ∨ a = "--help".toList) := by
    rintro (h | h) <;> (rw [h] at hmem; revert hmem; decide)
  have hsuf : ¬ ".txt".toList <:+ a := by
    intro hs
    rw [ha, ← List.singleton_append, ← List.append_assoc] at hs
    rcases Nat.lt_or_ge v.length 4 with hlt | hge
    · -- then '=' would be inside ".txt"
      have h1 : '=' :: v <:+ a := ⟨k.name, ha.symm⟩
      have h2 : ".txt".toList <:+ a := by rw [ha, ← List.singleton_append, ← List.append_assoc]; exact hs
      have h3 : '=' :: v <:+ ".txt".toList := List.suffix_of_suffix_length_le h1 h2 (by simp; omega)
      have : '=' ∈ ".txt".toList := h3.subset (by simp)
      revert this; decide
    · exact htxt (List.suffix_of_suffix_length_le hs (List.suffix_append _ _) (by simpa using hge))
  have hsplit : splitEq a = some (k.name, v) := by
    rw [splitEq_eq]
    unfold assignment
    rw [if_pos hmem, ha]
    have h1 : (k.name ++ '=' :: v).takeWhile (fun c => decide (c ≠ '=')) = k.name := by
      rw [List.takeWhile_append_of_pos]
      · simp
      · intro c hc; simp; rintro rfl; exact hname.2 hc
    have h2 : (k.name ++ '=' :: v).dropWhile (fun c => decide (c ≠ '=')) = '=' :: v := by
      rw [List.dropWhile_append_of_pos]
      · simp
      · intro c hc; simp; rintro rfl; exact hname.2 hc
    rw [h1, h2]; rfl
  obtain ⟨q, hq⟩ := stepAsg_wf (p := p) (kv := (k.name, v)) hwf
  refine ⟨q, ?_, ?_, ?_⟩
  · unfold handleArg
    rw [if_neg hh, if_neg hlen, if_neg (fun h => hsuf ((txt_suffix_iff hlen).1 h)), hsplit]
    simp only [if_neg hv]
    exact hq
  · exact (stepAsg_ok hq k).1 rfl
  · intro k' hk'
    exact (stepAsg_ok hq k').2 (fun e => hk' (name_inj e).symm)

example : WellFormed (D := Nat) (fun _ => none) (Key.str .output_folder).name "Out".toList := by
  refine ⟨fun k h => ?_, fun k h => ?_, fun k h => ?_⟩ <;> exact absurd (name_inj h) (by simp)

/-- **C12.** If the parser returns, `two_J_3N_max` is positive and odd, a parallel run has a channel index, and the
number of threads is at most `Nq_WP`. -/
theorem C12_accepted_constraints (stod : Str → Option D) (files : Str → List Str) (threads : Int) (one hundred : D)
    (args : List Str) (p : RunParams D) (h : setRunParameters stod files threads one hundred args = .ok p) :
    0 < p.int .two_J_3N_max ∧ p.int .two_J_3N_max % 2 = 1 ∧
    (p.bool .parallel_run = true → p.int .channel_idx ≠ -1) ∧ p.int .P123_omp_num_threads ≤ p.int .Nq_WP := by
  obtain ⟨q, _, hf⟩ := setRunParameters_ok h
  obtain ⟨h1, h2, h3, h4, h5, _, h6, _⟩ := finalChecks_ok hf
  rw [h5 .two_J_3N_max (by decide), h6, h5 .channel_idx (by decide), h5 .Nq_WP (by decide), h4]
  exact ⟨h3, h2, h1, by omega⟩

/-- C12, converse: any configuration read from the arguments that meets the constraints is accepted, unchanged except
that the thread count is lowered to `Nq_WP` if larger; any other configuration is rejected by `raise_error`. -/
theorem C12_accepts_iff (stod : Str → Option D) (files : Str → List Str) (threads : Int) (one hundred : D)
    (args : List Str) (q : RunParams D)
    (hq : readArgs stod files (defaultParams threads one hundred) args = .ok q) :
    ((0 < q.int .two_J_3N_max ∧ q.int .two_J_3N_max % 2 = 1 ∧
        (q.bool .parallel_run = true → q.int .channel_idx ≠ -1)) →
      ∃ p, setRunParameters stod files threads one hundred args = .ok p ∧
        p.int .P123_omp_num_threads = min (q.int .P123_omp_num_threads) (q.int .Nq_WP) ∧
        (∀ k, k ≠ .P123_omp_num_threads → p.int k = q.int k) ∧ p.dbl = q.dbl ∧ p.bool = q.bool ∧ p.str = q.str) ∧
    (¬ (0 < q.int .two_J_3N_max ∧ q.int .two_J_3N_max % 2 = 1 ∧
        (q.bool .parallel_run = true → q.int .channel_idx ≠ -1)) →
      setRunParameters stod files threads one hundred args = .error .raiseError) := by
  have hset : setRunParameters stod files threads one hundred args = finalChecks q := by
    unfold setRunParameters; rw [hq]; rfl
  constructor
  · rintro ⟨h1, h2, h3⟩
    have : ∃ p, finalChecks q = .ok p := by
      rw [finalChecks_eq, if_neg (by tauto), if_neg ?_]
      · exact ⟨_, rfl⟩
      · rw [Int.tmod_eq_emod_of_nonneg (by omega)]; omega
    obtain ⟨p, hp⟩ := this
    obtain ⟨_, _, _, a, b, c, d, e⟩ := finalChecks_ok hp
    exact ⟨p, hset.trans hp, a, b, c, d, e⟩
  · intro h
    rw [hset]
    cases hp : finalChecks q with
    | ok p =>
      obtain ⟨a, b, c, _⟩ := finalChecks_ok hp
      exact absurd ⟨c, b, a⟩ h
    | error e =>
      rw [finalChecks_eq] at hp
      by_cases h1 : q.bool .parallel_run = true ∧ q.int .channel_idx = -1
      · rw [if_pos h1] at hp; cases hp; rfl
      · rw [if_neg h1] at hp
        by_cases h3 : Int.tmod (q.int .two_J_3N_max) 2 = 0 ∨ q.int .two_J_3N_max ≤ 0
        · rw [if_pos h3] at hp; cases hp; rfl
        · rw [if_neg h3] at hp; cases hp

example : ∃ p, setRunParameters (D := Nat) (fun _ => some 0) (fun _ => []) 64 1 100
    ["parallel_run=true".toList, "channel_idx=1".toList, "two_J_3N_max=3".toList] = .ok p ∧
    p.int .P123_omp_num_threads = 50 := ⟨_, rfl, rfl⟩

/-- Exit status a calling script sees if the option parser stops the program; a completed run ends with `return 0`
(main.cpp). -/
def scriptStatus {α : Type} : Except Stop α → Nat
  | .ok _ => 0
  | .error s => s.exitStatus

/-- **C54 (false of the code).** Every configuration rejected by the compatibility checks and every flag with a wrong
value stops the program with the same exit status 0 as a successful run. -/
theorem C54_error_reports_success (stod : Str → Option D) (files : Str → List Str) (threads : Int) (one hundred : D)
    (args : List Str) (q : RunParams D)
    (hq : readArgs stod files (defaultParams threads one hundred) args = .ok q)
    (hbad : q.int .two_J_3N_max % 2 = 0) :
    (∀ p, setRunParameters stod files threads one hundred args ≠ .ok p) ∧
      scriptStatus (setRunParameters stod files threads one hundred args) = 0 := by
  have := (C12_accepts_iff stod files threads one hundred args q hq).2 (by omega)
  rw [this]
  refine ⟨fun p h => ?_, rfl⟩
  cases h

example : ∃ q, readArgs (D := Nat) (fun _ => some 0) (fun _ => []) (defaultParams 8 1 100) ["two_J_3N_max=2".toList] = .ok q ∧
    q.int .two_J_3N_max % 2 = 0 := ⟨_, rfl, by decide⟩

/-- C54: the exit status is non-zero exactly for uncaught exceptions and the help exit. -/
theorem C54_status_nonzero_iff {α : Type} (r : Except Stop α) :
    scriptStatus r ≠ 0 ↔ r = .error .exception ∨ r = .error .helpExit := by
  cases r with
  | ok a => simp [scriptStatus]
  | error s => cases s <;> simp [scriptStatus, Stop.exitStatus]

end TicTac
