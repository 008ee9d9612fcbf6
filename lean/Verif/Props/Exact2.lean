import Verif.Props.RunParams
import Verif.Props.H5
import Verif.Props.Main
import Verif.Props.Format
/-! Sharp forms, continued: options (C09, C10), P123 files (C66, C67), Neumann files (C68), parameter files (C63), boundary files (C92). -/
noncomputable section
namespace TicTac
open Spec
variable {D : Type}

/-- `v` begins, after white space, with the decimal text of the integer `n` (optional sign, longest run of digits), which fits in 32 bits; anything may follow. -/
def Spec.BeginsWithInteger (v : Str) (n : Int) : Prop :=
  ∃ ws sign ds rest : Str, v = ws ++ sign ++ ds ++ rest ∧ (∀ c ∈ ws, isSpaceC c = true) ∧ (sign = [] ∨ sign = ['-'] ∨ sign = ['+']) ∧ ds ≠ [] ∧
    (∀ c ∈ ds, isDigitC c = true) ∧ (∀ c, rest.head? = some c → isDigitC c = false) ∧
    n = (if sign = ['-'] then -(digitsVal ds : Int) else digitsVal ds) ∧ -2147483648 ≤ n ∧ n ≤ 2147483647

theorem takeWhile_append_stop {p : Char → Bool} {a b : Str} (ha : ∀ c ∈ a, p c = true) (hb : ∀ c, b.head? = some c → p c = false) :
    (a ++ b).takeWhile p = a ∧ (a ++ b).dropWhile p = b := by
  induction a with
  | nil =>
    cases b with
    | nil => simp
    | cons c b => have := hb c rfl; simp [this]
  | cons x a ih =>
    have hx := ha x (by simp)
    have := ih (fun c hc => ha c (by simp [hc]))
    simp [hx, this.1, this.2]

theorem digit_not_space {c : Char} (h : isDigitC c = true) : isSpaceC c = false ∧ c ≠ '-' ∧ c ≠ '+' := by
  have this : c ∈ ['0', '1', '2', '3', '4', '5', '6', '7', '8', '9'] := isDigitC_mem h
  have h10 : c = '0' ∨ c = '1' ∨ c = '2' ∨ c = '3' ∨ c = '4' ∨ c = '5' ∨ c = '6' ∨ c = '7' ∨ c = '8' ∨ c = '9' := by simpa using this
  rcases h10 with h | h | h | h | h | h | h | h | h | h <;> subst h <;> decide

/-- **C09 (exact).** `std::stoi` accepts exactly the texts that begin with a 32-bit integer, and gives that integer. -/
theorem C09_integer_exactly (v : Str) (n : Int) : stoi v = some n ↔ BeginsWithInteger v n := by
  constructor
  · intro h
    unfold stoi at h
    set s := v.dropWhile isSpaceC with hs
    have hv : v = v.takeWhile isSpaceC ++ s := (List.takeWhile_append_dropWhile).symm
    have hrest : ∀ t : Str, ∀ c, (t.dropWhile isDigitC).head? = some c → isDigitC c = false := by
      intro t c hc
      have := List.head?_dropWhile_not isDigitC t
      rw [hc] at this
      simpa using this
    by_cases hsign : (s.head? == some '-' || s.head? == some '+') = true
    · obtain ⟨c, t, hst⟩ : ∃ c t, s = c :: t := by
        cases hs' : s with
        | nil => rw [hs'] at hsign; simp at hsign
        | cons c t => exact ⟨c, t, rfl⟩
      rw [hst] at h hsign hv
      simp only [List.head?_cons, List.tail_cons] at h hsign
      simp only [hsign, if_true] at h
      split_ifs at h with h1 h2 h3 h4
      all_goals
        cases h
        have hc : c = '-' ∨ c = '+' := by simpa using hsign
        refine ⟨v.takeWhile isSpaceC, [c], t.takeWhile isDigitC, t.dropWhile isDigitC, ?_, takeWhile_all v, by rcases hc with rfl | rfl <;> simp,
          by simpa using h1, takeWhile_all t, hrest t, ?_, ?_, ?_⟩
      · conv_lhs => rw [hv]
        simp
      · have : c = '-' := by simpa using h2
        subst this; simp
      · exact h3.1
      · exact h3.2
      · conv_lhs => rw [hv]
        simp
      · have : c ≠ '-' := by simpa using h2
        simp [this]
      · exact h4.1
      · exact h4.2
    · have hf : (s.head? == some '-' || s.head? == some '+') = false := by simpa using hsign
      have hm : (s.head? == some '-') = false := by
        rw [Bool.or_eq_false_iff] at hf; exact hf.1
      have hp : (s.head? == some '+') = false := by
        rw [Bool.or_eq_false_iff] at hf; exact hf.2
      simp only [hm, hp, Bool.or_false, Bool.false_eq_true, if_false] at h
      split_ifs at h with h1 h2
      cases h
      refine ⟨v.takeWhile isSpaceC, [], s.takeWhile isDigitC, s.dropWhile isDigitC, ?_, takeWhile_all v, Or.inl rfl, by simpa using h1, takeWhile_all s, hrest s, by simp, h2.1, h2.2⟩
      rw [List.append_nil, List.append_assoc, List.takeWhile_append_dropWhile]
      exact hv
  · rintro ⟨ws, sign, ds, rest, rfl, hws, hsg, hne, hds, hr, hn, hlo, hhi⟩
    obtain ⟨d, ds', rfl⟩ : ∃ d ds', ds = d :: ds' := by cases ds with | nil => exact absurd rfl hne | cons d ds' => exact ⟨d, ds', rfl⟩
    obtain ⟨d1, d2, d3⟩ := digit_not_space (hds d (by simp))
    have hdrop : (ws ++ sign ++ (d :: ds') ++ rest).dropWhile isSpaceC = sign ++ (d :: ds') ++ rest := by
      rw [List.append_assoc, List.append_assoc]
      have := (takeWhile_append_stop (p := isSpaceC) (a := ws) (b := sign ++ ((d :: ds') ++ rest)) hws (by
        intro c hc
        rcases hsg with rfl | rfl | rfl
        · simp at hc; subst hc; exact d1
        · simp at hc; subst hc; decide
        · simp at hc; subst hc; decide)).2
      rw [this, List.append_assoc]
    have htk : ((d :: ds') ++ rest).takeWhile isDigitC = d :: ds' := (takeWhile_append_stop hds hr).1
    unfold stoi
    rw [hdrop]
    rcases hsg with rfl | rfl | rfl
    · simp only [List.nil_append, List.cons_append, List.head?_cons] at htk ⊢
      have e1 : (some d == some '-') = false := by simpa using d2
      have e2 : (some d == some '+') = false := by simpa using d3
      simp only [e1, e2, Bool.or_false, Bool.false_eq_true, if_false, htk, List.isEmpty_cons]
      simp only [List.nil_eq, List.cons_ne_nil, if_false] at hn
      rw [if_pos ⟨by rw [hn] at hlo; exact hlo, by rw [hn] at hhi; exact hhi⟩, hn]
    · simp only [List.cons_append, List.nil_append, List.head?_cons, List.tail_cons] at htk ⊢
      simp only [BEq.rfl, Bool.true_or, if_true, htk, List.isEmpty_cons, Bool.false_eq_true, if_false]
      rw [if_pos rfl] at hn
      rw [if_pos ⟨by rw [hn] at hlo; exact hlo, by rw [hn] at hhi; exact hhi⟩, hn]
    · simp only [List.cons_append, List.nil_append, List.head?_cons, List.tail_cons] at htk ⊢
      have e1 : (some '+' == some '-') = false := by decide
      simp only [e1, BEq.rfl, Bool.false_or, if_true, htk, List.isEmpty_cons, Bool.false_eq_true, if_false]
      rw [if_neg (by decide)] at hn
      rw [if_pos ⟨by rw [hn] at hlo; exact hlo, by rw [hn] at hhi; exact hhi⟩, hn]

example : BeginsWithInteger "32.5".toList 32 ∧ ¬ BeginsWithInteger "abc".toList 0 := by
  rw [← C09_integer_exactly, ← C09_integer_exactly]
  decide

theorem wf_of_step {stod : Str → Option D} {r r' : RunParams D} {kv : Str × Str} (h : stepAsg stod r kv = .ok r') : WellFormed stod kv.1 kv.2 := by
  unfold stepAsg at h
  rw [readAndSet_eq] at h
  refine ⟨fun k hk => ?_, fun k hk => ?_, fun k hk => ?_⟩
  · rw [hk, keyOf_name] at h
    simp only [assignKey, assignInt] at h
    cases hs : stoi kv.2 with
    | none => rw [hs] at h; cases h
    | some n => rfl
  · rw [hk, keyOf_name] at h
    simp only [assignKey, assignDbl] at h
    cases hs : stod kv.2 with
    | none => rw [hs] at h; cases h
    | some n => rfl
  · rw [hk, keyOf_name] at h
    simp only [assignKey, assignBool] at h
    split_ifs at h with hc
    · exact hc
    · cases h

/-- **C09 (exact).** The argument list is read to the end exactly when every argument has four characters (or is `-h`), it is not a lone help flag, and every assigned
value is of its key's type: flags `true` or `false`, doubles a number for `std::stod`, integers a text that begins with an integer. -/
theorem C09_accepted_exactly (stod : Str → Option D) (files : Str → List Str) (p : RunParams D) (args : List Str) :
    (∃ q, readArgs stod files p args = .ok q) ↔
      (∀ a ∈ args, a = "-h".toList ∨ 4 ≤ a.length) ∧ (args.length = 1 → "-h".toList ∉ args ∧ "--help".toList ∉ args) ∧
      ∀ kv ∈ assignments files args, (∀ k : IntKey, kv.1 = (Key.int k).name → ∃ n, BeginsWithInteger kv.2 n) ∧
        (∀ k : DblKey, kv.1 = (Key.dbl k).name → (stod kv.2).isSome) ∧ (∀ k : BoolKey, kv.1 = (Key.bool k).name → kv.2 = "true".toList ∨ kv.2 = "false".toList) := by
  constructor
  · rintro ⟨q, hq⟩
    have hok := argsOk_of_readArgs hq
    refine ⟨fun a ha => (hok a ha).1, fun h1 => ⟨fun hm => (hok _ hm).2 (Or.inl rfl) h1, fun hm => (hok _ hm).2 (Or.inr rfl) h1⟩, fun kv hkv => ?_⟩
    obtain ⟨r, r', hr⟩ := asg_not_ok hq hkv
    obtain ⟨w1, w2, w3⟩ := wf_of_step hr
    refine ⟨fun k hk => ?_, w2, w3⟩
    obtain ⟨n, hn⟩ := Option.isSome_iff_exists.1 (w1 k hk)
    exact ⟨n, (C09_integer_exactly _ _).1 hn⟩
  · rintro ⟨h1, h2, h3⟩
    refine C08_well_formed_accepted stod files p args h1 h2 fun kv hkv => ?_
    obtain ⟨w1, w2, w3⟩ := h3 kv hkv
    refine ⟨fun k hk => ?_, w2, w3⟩
    obtain ⟨n, hn⟩ := w1 k hk
    rw [(C09_integer_exactly _ _).2 hn]
    rfl

/-- **C10 (exact).** If all flags have valid values and the arguments are not a lone help flag, the parser ends in an uncaught exception exactly when some argument other
than `-h` has fewer than four characters or some integer or floating-point key is assigned a text that does not begin with a number. -/
theorem C10_exception_exactly (stod : Str → Option D) (files : Str → List Str) (threads : Int) (one hundred : D) (args : List Str)
    (hhelp : args.length = 1 → "-h".toList ∉ args ∧ "--help".toList ∉ args)
    (hflag : ∀ kv ∈ assignments files args, ∀ k : BoolKey, kv.1 = (Key.bool k).name → kv.2 = "true".toList ∨ kv.2 = "false".toList) :
    setRunParameters stod files threads one hundred args = .error .exception ↔
      (∃ a ∈ args, a ≠ "-h".toList ∧ a.length < 4) ∨
      ∃ kv ∈ assignments files args, (∃ k : IntKey, kv.1 = (Key.int k).name ∧ stoi kv.2 = none) ∨ (∃ k : DblKey, kv.1 = (Key.dbl k).name ∧ stod kv.2 = none) := by
  constructor
  · intro h
    by_cases hs : ∃ a ∈ args, a ≠ "-h".toList ∧ a.length < 4
    · exact Or.inl hs
    · right
      refine C10_exception_only_from_numbers stod files threads one hundred args (fun a ha => ?_) h
      by_contra hc
      push Not at hc
      exact hs ⟨a, ha, hc.1, by omega⟩
  · intro h
    have hno : ∀ q, readArgs stod files (defaultParams threads one hundred) args ≠ .ok q := by
      intro q hq
      obtain ⟨a1, a2, a3⟩ := (C09_accepted_exactly stod files _ args).1 ⟨q, hq⟩
      rcases h with ⟨a, ha, h1, h2⟩ | ⟨kv, hkv, ⟨k, h1, h2⟩ | ⟨k, h1, h2⟩⟩
      · rcases a1 a ha with h3 | h3
        · exact h1 h3
        · omega
      · obtain ⟨n, hn⟩ := (a3 kv hkv).1 k h1
        rw [(C09_integer_exactly _ _).2 hn] at h2
        cases h2
      · have := (a3 kv hkv).2.1 k h1
        rw [h2] at this
        cases this
    cases hr : readArgs stod files (defaultParams threads one hundred) args with
    | ok q => exact absurd hr (hno q)
    | error e =>
      have he : e = .exception := by
        unfold readArgs at hr
        obtain ⟨a, ha, q, hq⟩ := foldlM_error_cases _ _ _ _ hr
        by_cases hh : a = "-h".toList ∨ a = "--help".toList
        · unfold handleArg at hq
          rw [if_pos hh] at hq
          split_ifs at hq with hc
          have h1 : args.length = 1 := by omega
          rcases hh with hh | hh
          · exact absurd (hh ▸ ha) (hhelp h1).1
          · exact absurd (hh ▸ ha) (hhelp h1).2
        · by_cases hl : a.length < 4
          · unfold handleArg at hq
            rw [if_neg hh, if_pos hl] at hq
            cases hq; rfl
          · rw [handleArg_eq stod files _ q a (Or.inr (by omega)) (fun h' => absurd h' hh)] at hq
            obtain ⟨kv, hkv, q', hq'⟩ := foldlM_error_cases _ _ _ _ hq
            have hmem : kv ∈ assignments files args := List.mem_flatMap.2 ⟨a, ha, hkv⟩
            have hfl := hflag kv hmem
            unfold stepAsg at hq'
            rw [readAndSet_eq] at hq'
            cases hk : keyOf kv.1 with
            | none => rw [hk] at hq'; cases hq'
            | some k0 =>
              have hn := name_of_keyOf hk
              rw [hk] at hq'
              cases k0 with
              | int k =>
                simp only [assignKey, assignInt] at hq'
                cases hs : stoi kv.2 with
                | none => rw [hs] at hq'; cases hq'; rfl
                | some n => rw [hs] at hq'; cases hq'
              | dbl k =>
                simp only [assignKey, assignDbl] at hq'
                cases hs : stod kv.2 with
                | none => rw [hs] at hq'; cases hq'; rfl
                | some n => rw [hs] at hq'; cases hq'
              | bool k =>
                simp only [assignKey, assignBool, if_pos (hfl k hn)] at hq'
                cases hq'
              | str k => cases hq'
      rw [he] at hr
      unfold setRunParameters
      rw [hr]
      rfl

/-- **C63 (exact).** The division by zero happens exactly for a missing or empty file. -/
theorem C63_division_exactly (stod : Str → Option D) (lines : List Str) : readSamples stod lines = .error .divByZero ↔ lines = [] := by
  cases lines with
  | nil => exact ⟨fun _ => rfl, fun _ => rfl⟩
  | cons l ls => exact ⟨fun h => absurd h (C63_nonempty_file stod l ls), fun h => by cases h⟩

/-- **C66 (exact).** A file is accepted exactly when it was written for the same basis and grid, whatever the settings of both runs. -/
theorem C66_accepted_exactly [DecidableEq D] [Zero D] (a b : P123Key D) (ha : a.WF) (hb : b.WF) (m junk : SparseArrays D) (dim : Nat) (set set' : P123Settings)
    (f : H5File D) (hf : storeRun set a m dim = .ok f) : (∃ r, readRun set' b f junk = .ok r) ↔ Spec.SameBasisAndGrid a b := by
  obtain ⟨h1, h2⟩ := C18_mismatch_rejected a b ha hb m dim junk f hf
  constructor
  · rintro ⟨r, hr⟩
    by_contra hc
    have : readP123 b f junk = .ok r := hr
    rw [h2 hc] at this
    cases this
  · exact h1

/-- **C67 (exact).** For every set of failing writes: the writing run stops exactly when one of the four counts is among them; otherwise reading stops exactly when one of
the three tables is among them; otherwise the matrix is accepted, with zeros in place of every array whose write failed. -/
theorem C67_exactly [DecidableEq D] [Zero D] (ok : String → Bool) (k : P123Key D) (hk : k.WF) (m : SparseArrays D) (junk : SparseArrays D)
    (hr : m.row.length = m.val.length) (hc : m.col.length = m.val.length) :
    (storeP123 ok k m m.val.length = .error .raiseError ↔ ∃ n ∈ ["Nalpha", "Np_WP", "Nq_WP", "P123_sparse_dim"], ok n = false) ∧
    ((∀ n ∈ ["Nalpha", "Np_WP", "Nq_WP", "P123_sparse_dim"], ok n = true) → ∃ f, storeP123 ok k m m.val.length = .ok f ∧
      (readP123 k f junk = .error .raiseError ↔ ∃ n ∈ ["p boundaries", "q boundaries", "pw channels"], ok n = false) ∧
      ((∀ n ∈ ["p boundaries", "q boundaries", "pw channels"], ok n = true) →
        readP123 k f junk = .ok (⟨if ok "values" then m.val else List.replicate m.val.length 0, if ok "row indices" then m.row else List.replicate m.val.length 0,
          if ok "column indices" then m.col else List.replicate m.val.length 0⟩, m.val.length))) := by
  have hcnt : (∀ n ∈ ["Nalpha", "Np_WP", "Nq_WP", "P123_sparse_dim"], ok n = true) → ∃ f, storeP123 ok k m m.val.length = .ok f ∧
      (∀ n ∈ ["p boundaries", "q boundaries", "pw channels"], ok n = false → H5File.find f n = none) ∧
      ((∀ n ∈ ["p boundaries", "q boundaries", "pw channels"], ok n = true) →
        readP123 k f junk = .ok (⟨if ok "values" then m.val else List.replicate m.val.length 0, if ok "row indices" then m.row else List.replicate m.val.length 0,
          if ok "column indices" then m.col else List.replicate m.val.length 0⟩, m.val.length)) := by
    intro h
    have h1 := h "Nalpha" (by simp)
    have h2 := h "Np_WP" (by simp)
    have h3 := h "Nq_WP" (by simp)
    have h4 := h "P123_sparse_dim" (by simp)
    set m' : SparseArrays D := ⟨if ok "values" then m.val else List.replicate m.val.length 0, if ok "row indices" then m.row else List.replicate m.val.length 0,
      if ok "column indices" then m.col else List.replicate m.val.length 0⟩ with hm'
    have hlen : m'.val.length = m.val.length := by rw [hm']; dsimp only; split_ifs <;> simp
    refine ⟨[("Nalpha", .int k.states.length), ("Np_WP", .int k.Np), ("Nq_WP", .int k.Nq), ("P123_sparse_dim", .ull m.val.length)] ++
      (if ok "p boundaries" then [("p boundaries", boundsTable k.pBounds)] else []) ++ (if ok "q boundaries" then [("q boundaries", boundsTable k.qBounds)] else []) ++
      (if ok "pw channels" then [("pw channels", pwTable k)] else []) ++
      [("row indices", .ints m'.row), ("column indices", .ints m'.col), ("values", .doubles m'.val)], ?_, ?_, ?_⟩
    · unfold storeP123 storeOps
      have hrow : m.row.take m.val.length = m.row := List.take_of_length_le (by omega)
      have hcol : m.col.take m.val.length = m.col := List.take_of_length_le (by omega)
      have hval : m.val.take m.val.length = m.val := List.take_of_length_le (by omega)
      rw [hrow, hcol, hval]
      simp only [runOps, h1, h2, h3, h4, if_true, hm', Bool.false_eq_true, if_false]
      cases ok "p boundaries" <;> cases ok "q boundaries" <;> cases ok "pw channels" <;> cases ok "row indices" <;> cases ok "column indices" <;> cases ok "values" <;> rfl
    · intro n hn hbad
      simp only [List.mem_cons, List.not_mem_nil, or_false] at hn
      unfold H5File.find
      rcases hn with rfl | rfl | rfl <;> rw [hbad]
      · cases ok "q boundaries" <;> cases ok "pw channels" <;> rfl
      · cases ok "p boundaries" <;> cases ok "pw channels" <;> rfl
      · cases ok "p boundaries" <;> cases ok "q boundaries" <;> rfl
    · intro ht
      have t1 := ht "p boundaries" (by simp)
      have t2 := ht "q boundaries" (by simp)
      have t3 := ht "pw channels" (by simp)
      rw [t1, t2, t3]
      have hr' : m'.row.length = m'.val.length := by rw [hlen, hm']; dsimp only; split_ifs <;> simp [hr]
      have hc' : m'.col.length = m'.val.length := by rw [hlen, hm']; dsimp only; split_ifs <;> simp [hc]
      obtain ⟨f, hf, hread⟩ := C17_roundtrip k hk m' junk hr' hc'
      rw [storeP123_ok] at hf
      cases hf
      unfold storeOps at hread
      rw [List.take_of_length_le (by omega), List.take_of_length_le (by omega), List.take_of_length_le (by omega), hlen] at hread
      exact hread
  have hbadc : (∃ n ∈ ["Nalpha", "Np_WP", "Nq_WP", "P123_sparse_dim"], ok n = false) → storeP123 ok k m m.val.length = .error .raiseError := by
    rintro ⟨n, hn, hbad⟩
    unfold storeP123 storeOps
    simp only [runOps, if_true]
    simp only [List.mem_cons, List.not_mem_nil, or_false] at hn
    cases e1 : ok "Nalpha"
    · rfl
    cases e2 : ok "Np_WP"
    · rfl
    cases e3 : ok "Nq_WP"
    · rfl
    cases e4 : ok "P123_sparse_dim"
    · rfl
    rcases hn with rfl | rfl | rfl | rfl <;> simp_all
  refine ⟨⟨fun h => ?_, hbadc⟩, fun h => ?_⟩
  · by_contra hc'
    push Not at hc'
    obtain ⟨f, hf, _⟩ := hcnt (fun n hn => by simpa using hc' n hn)
    rw [hf] at h
    cases h
  · obtain ⟨f, h1, h2, h3⟩ := hcnt h
    refine ⟨f, h1, ⟨fun he => ?_, ?_⟩, h3⟩
    · by_contra hc'
      push Not at hc'
      rw [h3 (fun n hn => by simpa using hc' n hn)] at he
      cases he
    · rintro ⟨n, hn, hbad⟩
      have := h2 n hn hbad
      simp only [List.mem_cons, List.not_mem_nil, or_false] at hn
      apply readP123_missing
      rcases hn with rfl | rfl | rfl
      · exact Or.inl this
      · exact Or.inr (Or.inl this)
      · exact Or.inr (Or.inr this)

/-- **C68 (exact).** In a folder that held none of them before, the terms of all sets of a walk are kept exactly when all sets have the terms of the last one. -/
theorem C68_kept_exactly (content : Int → Str) (folder : Str) (np nq J P jm : Int) (files : Str → Option Str) (psis : List Int) (last : Int)
    (hnew : ∀ psi ∈ psis, ∀ name, files name ≠ some (content psi)) :
    (∀ psi ∈ psis ++ [last], ∃ name, neumannWalk content folder np nq J P jm files (psis ++ [last]) name = some (content psi)) ↔
      ∀ psi ∈ psis, content psi = content last := by
  obtain ⟨h1, _, h3⟩ := C68_only_last_set_kept content folder np nq J P jm files psis last
  constructor
  · intro h psi hp
    by_contra hc
    obtain ⟨name, hn⟩ := h psi (by simp [hp])
    exact h3 psi hp hc (hnew psi hp) name hn
  · intro h psi hp
    refine ⟨_, h1.trans ?_⟩
    rcases List.mem_append.1 hp with hp | hp
    · rw [h psi hp]
    · simp only [List.mem_singleton] at hp
      rw [hp]

/-- **C92 (what the file determines).** Grids with the same file have boundaries that agree within 1e-8 MeV. -/
theorem C92_determined {g g' : List (Bool × Nat × Int)} {ls : List Str} (h : List.Forall₂ (fun b s => BoundaryLine b.1 b.2.1 b.2.2 s) g ls)
    (h' : List.Forall₂ (fun b s => BoundaryLine b.1 b.2.1 b.2.2 s) g' ls) :
    List.Forall₂ (fun b b' => |dblValue b.1 b.2.1 b.2.2 - dblValue b'.1 b'.2.1 b'.2.2| ≤ 1e-8) g g' := by
  have a1 := C92_boundary h
  have a2 := C92_boundary h'
  clear h h'
  induction a1 generalizing g' with
  | nil => cases a2; exact .nil
  | cons hb _ ih =>
    cases a2 with
    | cons hb' t =>
      refine .cons ?_ (ih t)
      obtain ⟨d, e1, e2⟩ := hb
      obtain ⟨d', e3, e4⟩ := hb'
      rw [e1] at e3
      cases e3
      rw [abs_le] at *
      constructor <;> norm_num at * <;> linarith

end TicTac
end
