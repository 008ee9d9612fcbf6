import Verif.Model.Record
import Verif.Spec.Record
import Verif.Props.RunParams
import Verif.Props.Format
import Mathlib.Algebra.Order.Round
import Mathlib.Data.Real.Archimedean
/-! **C119.** The record `run_parameters.txt`. -/
noncomputable section
namespace TicTac
open Spec

/-! ### lines -/

theorem splitOn_linesText (ls : List Str) (h : ∀ l ∈ ls, '\n' ∉ l) : (linesText ls).splitOn '\n' = ls ++ [[]] := by
  induction ls with
  | nil => rfl
  | cons l ls ih =>
    have e : linesText (l :: ls) = l ++ '\n' :: linesText ls := by simp [linesText]
    rw [e, List.splitOn_append_cons_self_of_not_mem (h l (by simp)), ih (fun l' hl => h l' (by simp [hl]))]
    rfl

theorem textLines_linesText (ls : List Str) (h : ∀ l ∈ ls, '\n' ∉ l) : textLines (linesText ls) = ls := by
  unfold textLines
  rw [splitOn_linesText ls h]
  simp

/-- Text in front of the value: label, colon, blanks up to column 33. -/
def padLabel (l : Str) : Str := l ++ ':' :: List.replicate (32 - l.length) ' '

theorem items_labels : ∀ b, ∀ it ∈ recordItems b, ∃ l, it.2.label = some l ∧ it.1 = padLabel l ∧ ':' ∉ l ∧ '\n' ∉ l ∧ l.length ≤ 32 := by
  intro b it hit
  have key : (recordItems b).all (fun it => match it.2.label with
      | some l => decide (it.1 = padLabel l) && decide (':' ∉ l) && decide ('\n' ∉ l) && decide (l.length ≤ 32)
      | none => false) = true := by
    cases b <;> decide +kernel
  have := List.all_eq_true.1 key it hit
  cases hl : it.2.label with
  | none => rw [hl] at this; simp at this
  | some l =>
    rw [hl] at this
    simp only [Bool.and_eq_true, decide_eq_true_eq] at this
    exact ⟨l, rfl, this.1.1.1, this.1.1.2, this.1.2, this.2⟩

theorem prefix_label {a b rest : Str} (ha : ':' ∉ a) (hb : ':' ∉ b) : (a ++ [':']).isPrefixOf (b ++ ':' :: rest) = true ↔ a = b := by
  induction a generalizing b with
  | nil =>
    cases b with
    | nil => simp
    | cons c b => 
      simp only [List.mem_cons, not_or] at hb
      simp [hb.1]
  | cons c a ih =>
    simp only [List.mem_cons, not_or] at ha
    cases b with
    | nil => simp [Ne.symm ha.1]
    | cons d b =>
      simp only [List.mem_cons, not_or] at hb
      have := ih ha.2 hb.2 
      simp only [List.cons_append, List.isPrefixOf_cons₂, Bool.and_eq_true, beq_iff_eq, List.cons.injEq, this]

theorem Key_all_complete (k : Key) : k ∈ Key.all := by
  rcases k with k | k | k | k <;> cases k <;> decide +kernel

theorem label_facts (k : Key) (l : Str) (h : k.label = some l) : ':' ∉ l ∧ '\n' ∉ l ∧ l.length ≤ 32 ∧ l ≠ "Running program for".toList := by
  have key : Key.all.all (fun k => match k.label with
      | some l => decide (':' ∉ l) && decide ('\n' ∉ l) && decide (l.length ≤ 32) && decide (l ≠ "Running program for".toList)
      | none => true) = true := by decide +kernel
  have := List.all_eq_true.1 key k (Key_all_complete k)
  rw [h] at this
  simp only [Bool.and_eq_true, decide_eq_true_eq] at this
  exact ⟨this.1.1.1, this.1.1.2, this.1.2, this.2⟩

theorem label_inj {k k' : Key} {l : Str} (h : k.label = some l) (h' : k'.label = some l) : k = k' := by
  have key : Key.all.all (fun k => Key.all.all fun k' => decide (k.label = none) || decide (k.label ≠ k'.label) || decide (k = k')) = true := by decide +kernel
  have := List.all_eq_true.1 (List.all_eq_true.1 key k (Key_all_complete k)) k' (Key_all_complete k')
  rw [h, h'] at this
  simpa using this

/-- Which members have a line. -/
theorem items_iff (b : Bool) (k : Key) : k ∈ (recordItems b).map (·.2) ↔
    (k ≠ .str .subfolder ∧ k ≠ .str .output_folder ∧ (k = .int .channel_idx → b = true)) := by
  have key : [true, false].all (fun b => Key.all.all fun k => decide (k ∈ (recordItems b).map (·.2)) ==
      decide (k ≠ .str .subfolder ∧ k ≠ .str .output_folder ∧ (k = .int .channel_idx → b = true))) = true := by decide +kernel
  have := List.all_eq_true.1 (List.all_eq_true.1 key b (by cases b <;> simp)) k (Key_all_complete k)
  exact decide_eq_decide.1 (eq_of_beq this)

/-- The line found under a label. -/
theorem find_line {R : Key → Str → Prop} (its : List (Str × Key)) (vs : List Str) (h : List.Forall₂ (fun it v => R it.2 v) its vs)
    (hit : ∀ it ∈ its, ∃ l, it.2.label = some l ∧ it.1 = padLabel l) (k : Key) (L : Str) (hk : k.label = some L) :
    if k ∈ its.map (·.2) then ∃ v, R k v ∧
        ((List.zipWith (fun it v => it.1 ++ v) its vs).find? fun l => (L ++ [':']).isPrefixOf l) = some (padLabel L ++ v)
      else ((List.zipWith (fun it v => it.1 ++ v) its vs).find? fun l => (L ++ [':']).isPrefixOf l) = none := by
  induction h with
  | nil => simp
  | @cons it v its vs hv hr ih =>
    obtain ⟨l, hl, hp⟩ := hit it (by simp)
    have ih := ih (fun it' h' => hit it' (by simp [h']))
    have hL := label_facts k L hk
    have hl' := label_facts it.2 l hl
    rw [List.zipWith_cons_cons, List.find?_cons, hp]
    have e : padLabel l ++ v = l ++ ':' :: (List.replicate (32 - l.length) ' ' ++ v) := by simp [padLabel]
    by_cases hkl : L = l
    · subst hkl
      have hkk : k = it.2 := label_inj hk hl
      rw [if_pos (by simp [hkk])]
      refine ⟨v, hkk ▸ hv, ?_⟩
      rw [e, (prefix_label hL.1 hl'.1).2 rfl]
    · have hb : (L ++ [':']).isPrefixOf (padLabel l ++ v) = false := by
        rw [e, Bool.eq_false_iff]
        exact fun hc => hkl ((prefix_label hL.1 hl'.1).1 hc)
      have hne : k ≠ it.2 := by
        rintro rfl
        rw [hk] at hl
        exact hkl (Option.some.inj hl)
      have hm : (k ∈ (it :: its).map (·.2)) = (k ∈ its.map (·.2)) := by simp [hne]
      rw [hb]
      simp only [hm]
      exact ih

/-! ### values -/

theorem plainFixed_reads {prec : Nat} {neg : Bool} {N : Nat} : readFixed (plainFixed prec neg N) = some (sg neg * N / 10 ^ prec) := by
  have hdig : ∀ c ∈ padDigits (prec + 1) N, isDig c = true := padDigits_isDig
  have hnum := digitsNum_pad (prec + 1) N
  have hlen : prec + 1 ≤ (padDigits (prec + 1) N).length := by unfold padDigits; simp only [List.length_append, List.length_replicate]; omega
  set d := padDigits (prec + 1) N with hd
  have htxt : plainFixed prec neg N = (if neg then ['-'] else []) ++ (d.take (d.length - prec) ++ '.' :: d.drop (d.length - prec)) := by
    unfold plainFixed
    show (if neg then ['-'] else []) ++ d.take (d.length - prec) ++ ['.'] ++ d.drop (d.length - prec) = _
    simp
  have hne : ∃ c t, d.take (d.length - prec) = c :: t ∧ isDig c = true := by
    cases ht : d.take (d.length - prec) with
    | nil =>
      have := congrArg List.length ht
      rw [List.length_take] at this
      simp at this
      omega
    | cons c t => exact ⟨c, t, rfl, hdig c (List.mem_of_mem_take (ht ▸ List.mem_cons_self))⟩
  have hs : optSign (plainFixed prec neg N) = (neg, d.take (d.length - prec) ++ '.' :: d.drop (d.length - prec)) := by
    rw [htxt]
    cases neg with
    | true => rfl
    | false =>
      obtain ⟨c, t, hc, hdc⟩ := hne
      rw [hc]
      have h1 : c ≠ '+' := by rintro rfl; exact absurd hdc (by decide)
      have h2 : c ≠ '-' := by rintro rfl; exact absurd hdc (by decide)
      show optSign (c :: (t ++ _)) = _
      unfold optSign
      split
      · simp_all
      · simp_all
      · rfl
  obtain ⟨t1, t2⟩ := takeWhile_dig (a := d.take (d.length - prec)) (rest := '.' :: d.drop (d.length - prec))
    (fun c hc => hdig c (List.mem_of_mem_take hc)) (by intro c s h; cases h; rfl)
  have hall : (d.drop (d.length - prec)).all isDig = true := by
    rw [List.all_eq_true]; exact fun c hc => hdig c (List.mem_of_mem_drop hc)
  unfold readFixed
  rw [hs]
  dsimp only
  rw [t1, t2, show expect '.' ('.' :: d.drop (d.length - prec)) = some (d.drop (d.length - prec)) from rfl]
  dsimp only
  rw [if_pos, List.take_append_drop, hnum, List.length_drop, show d.length - (d.length - prec) = prec by omega]
  refine ⟨?_, hall⟩
  obtain ⟨c, t, hc, -⟩ := hne
  rw [hc]; simp

theorem plainFixed_chars {prec : Nat} {neg : Bool} {N : Nat} : ∀ c ∈ plainFixed prec neg N, isDig c = true ∨ c = '-' ∨ c = '.' := by
  intro c hc
  have hdig : ∀ c ∈ padDigits (prec + 1) N, isDig c = true := padDigits_isDig
  unfold plainFixed at hc
  simp only [List.mem_append, List.mem_singleton] at hc
  rcases hc with ((hc | hc) | hc) | hc
  · cases neg <;> simp_all
  · exact .inl (hdig c (List.mem_of_mem_take hc))
  · exact .inr (.inr hc)
  · exact .inl (hdig c (List.mem_of_mem_drop hc))

theorem intText_eq (n : Int) : intText n = decimalText n := by
  unfold intText decimalText; split <;> simp

theorem memberText_tells {p : RunParams Dbl} (hint : ∀ k, IsInt32 (p.int k)) {k : Key} {v : Str} (h : MemberText p k v) : Tells p k v := by
  cases k with
  | int k => 
    show stoi v = _
    rw [show v = intText (p.int k) from h, intText_eq]
    exact stoi_decimalText _ (hint k).1 (hint k).2
  | bool k =>
    have h : v = if p.bool k = true then "true".toList else "false".toList := h
    cases hb : p.bool k <;> simp [Tells, h, hb]
  | str k => exact h
  | dbl k =>
    have h : FixedPrints 3 (p.dbl k) v := h
    show match p.dbl k with
      | .fin neg m e => ∃ d, readFixed v = some d ∧ |d - dblValue neg m e| ≤ 0.0005
      | .inf neg => v = if neg then "-inf".toList else "inf".toList
      | .nan neg => v = if neg then "-nan".toList else "nan".toList
    cases hd : p.dbl k with
    | fin neg m e =>
      rw [hd] at h
      obtain ⟨N, hN, rfl⟩ := h
      refine ⟨_, plainFixed_reads, ?_⟩
      unfold FixedRound at hN
      have hN' : |(m : ℝ) * 2 ^ e - N / 10 ^ 3| ≤ 1 / 10 ^ 3 / 2 := by simpa using hN
      have hsplit : sg neg * N / 10 ^ 3 - dblValue neg m e = sg neg * (N / 10 ^ 3 - m * 2 ^ e) := by
        unfold sg dblValue; ring
      have hs : |sg neg| = 1 := by cases neg <;> simp [sg]
      rw [hsplit, abs_mul, hs, one_mul, abs_sub_comm]
      exact hN'.trans (by norm_num)
    | inf neg => rw [hd] at h; cases neg <;> exact h
    | nan neg => rw [hd] at h; cases neg <;> exact h

theorem digit_ne_nl {c : Char} (h : isDig c = true) : c ≠ '\n' := by rintro rfl; exact absurd h (by decide)

theorem memberText_noNewline {p : RunParams Dbl} (hstr : ∀ k, '\n' ∉ p.str k) {k : Key} {v : Str} (h : MemberText p k v) : '\n' ∉ v := by
  cases k with
  | int k =>
    rw [show v = intText (p.int k) from h]
    unfold intText
    intro hc
    rcases List.mem_append.1 hc with hc | hc
    · split at hc
      · exact absurd hc (by decide)
      · exact absurd hc (by simp)
    · have := Nat.isDigit_of_mem_toDigits (by norm_num) (by norm_num) hc
      exact absurd this (by decide)
  | bool k =>
    have h : v = if p.bool k = true then "true".toList else "false".toList := h
    cases hb : p.bool k <;> rw [hb] at h <;> subst h <;> decide +kernel
  | str k => rw [show v = p.str k from h]; exact hstr k
  | dbl k =>
    have h : FixedPrints 3 (p.dbl k) v := h
    cases hd : p.dbl k with
    | fin neg m e =>
      rw [hd] at h
      obtain ⟨N, hN, rfl⟩ := h
      intro hc
      rcases plainFixed_chars _ hc with h | h | h
      · exact digit_ne_nl h rfl
      · exact absurd h (by decide)
      · exact absurd h (by decide)
    | inf neg => rw [hd] at h; cases neg <;> rw [show v = _ from h] <;> decide +kernel
    | nan neg => rw [hd] at h; cases neg <;> rw [show v = _ from h] <;> decide +kernel

/-- The lines of the record. -/
theorem record_lines {p : RunParams Dbl} {s : Str} (h : RecordText p s) (hstr : ∀ k, '\n' ∉ p.str k) :
    ∃ vs : List Str, List.Forall₂ (fun it v => MemberText p it.2 v) (recordItems (p.bool .parallel_run)) vs ∧
      textLines s = "Running program for:".toList :: List.zipWith (fun it v => it.1 ++ v) (recordItems (p.bool .parallel_run)) vs := by
  obtain ⟨vs, hv, rfl⟩ := h
  refine ⟨vs, hv, textLines_linesText _ ?_⟩
  have hits := items_labels (p.bool .parallel_run)
  generalize recordItems (p.bool .parallel_run) = its at *
  intro l hl
  rcases List.mem_cons.1 hl with rfl | hl
  · decide +kernel
  · clear * - hv hits hl hstr
    induction hv with
    | nil => simp at hl
    | @cons it v its vs h1 h2 ih =>
      rw [List.zipWith_cons_cons] at hl
      rcases List.mem_cons.1 hl with rfl | hl
      · obtain ⟨l, -, e, -, hn, -⟩ := hits it (by simp)
        rw [e]
        unfold padLabel
        intro hc
        simp only [List.mem_append, List.mem_cons, List.mem_replicate] at hc
        rcases hc with (hc | hc | hc) | hc
        · exact hn hc
        · exact absurd hc (by decide)
        · exact absurd hc.2 (by decide)
        · exact memberText_noNewline hstr h1 hc
      · exact ih (fun it h => hits it (by simp [h])) hl

/-- What the record says about each parameter. -/
theorem record_value {p : RunParams Dbl} {s : Str} (h : RecordText p s) (hstr : ∀ k, '\n' ∉ p.str k) (k : Key) :
    (IsRecorded p k → ∃ v, recorded k s = some v ∧ MemberText p k v) ∧ (¬ IsRecorded p k → recorded k s = none) := by
  obtain ⟨vs, hv, hl⟩ := record_lines h hstr
  have hits := items_labels (p.bool .parallel_run)
  have hiff := items_iff (p.bool .parallel_run) k
  cases hk : k.label with
  | none =>
    have hsub : k = .str .subfolder ∨ k = .str .output_folder := by
      rcases k with k | k | k | k <;> cases k <;> first | exact .inl rfl | exact .inr rfl | exact absurd hk (by simp [Key.label])
    refine ⟨fun hr => ?_, fun _ => by simp [recorded, hk]⟩
    rcases hsub with e | e
    · exact absurd e hr.1
    · exact absurd e hr.2.1
  | some L =>
    have hL := label_facts k L hk
    have hf := find_line _ vs hv (fun it hit => by obtain ⟨l, h1, h2, -⟩ := hits it hit; exact ⟨l, h1, h2⟩) k L hk
    have hhead : (L ++ [':']).isPrefixOf "Running program for:".toList = false := by
      rw [Bool.eq_false_iff]
      intro hc
      rw [show "Running program for:".toList = "Running program for".toList ++ ':' :: [] by decide +kernel] at hc
      exact hL.2.2.2 ((prefix_label hL.1 (by decide +kernel)).1 hc)
    have hrec : recorded k s = ((List.zipWith (fun it v => it.1 ++ v) (recordItems (p.bool .parallel_run)) vs).find?
        fun l => (L ++ [':']).isPrefixOf l).map (·.drop 33) := by
      unfold recorded recordedUnder
      rw [hk, Option.bind_some, hl, List.find?_cons, hhead]
    rw [hrec]
    refine ⟨fun hr => ?_, fun hr => ?_⟩
    · rw [if_pos (hiff.2 hr)] at hf
      obtain ⟨v, hv, he⟩ := hf
      refine ⟨v, ?_, hv⟩
      rw [he, Option.map_some]
      have : (padLabel L).length = 33 := by
        unfold padLabel; simp only [List.length_append, List.length_cons, List.length_replicate]; omega
      rw [← this, List.drop_left]
    · rw [if_neg (fun hc => hr (hiff.1 hc))] at hf
      rw [hf]; rfl


/-! ### the parameters of an accepted start -/

theorem stoi_range {v : Str} {n : Int} (h : stoi v = some n) : IsInt32 n := by
  unfold stoi at h
  dsimp only at h
  generalize (if ((v.dropWhile isSpaceC).head? == some '-' || (v.dropWhile isSpaceC).head? == some '+') = true then (v.dropWhile isSpaceC).tail
    else v.dropWhile isSpaceC).takeWhile isDigitC = ds at h
  generalize (if ((v.dropWhile isSpaceC).head? == some '-') = true then -(digitsVal ds : Int) else (digitsVal ds : Int)) = w at h
  by_cases h1 : ds.isEmpty = true
  · rw [if_pos h1] at h; cases h
  · rw [if_neg h1] at h
    by_cases h2 : -2147483648 ≤ w ∧ w ≤ 2147483647
    · rw [if_pos h2] at h; cases h; exact h2
    · rw [if_neg h2] at h; cases h

theorem ints_in_range {D : Type} {stod : Str → Option D} {files : Str → List Str} {threads : Int} {one hundred : D} {args : List Str} {p : RunParams D}
    (h : setRunParameters stod files threads one hundred args = .ok p) (ht : IsInt32 threads) : ∀ k, IsInt32 (p.int k) := by
  obtain ⟨h1, ⟨n, h2, h3⟩, -⟩ := C08_values stod files threads one hundred args p h
  have main : ∀ k, k ≠ .P123_omp_num_threads → IsInt32 (p.int k) := by
    intro k hk
    have := h1 k hk
    cases hv : lastValue (Key.int k).name (assignments files args) with
    | some v => rw [hv] at this; exact stoi_range this
    | none =>
      rw [hv] at this
      rw [this]
      cases k <;> first | exact absurd rfl hk | (simp only [defaultInt, IsInt32]; omega)
  intro k
  by_cases hk : k = .P123_omp_num_threads
  · subst hk
    have hq := main .Nq_WP (by decide)
    have hn : IsInt32 n := by
      cases hv : lastValue "P123_omp_num_threads".toList (assignments files args) with
      | some v => rw [hv] at h2; exact stoi_range h2
      | none => rw [hv] at h2; rw [h2]; exact ht
    rw [h3]
    unfold IsInt32 at *
    omega
  · exact main k hk

/-- **C119.** After every accepted start the file `run_parameters.txt` of the output folder tells, under its label, every run parameter the calculation
uses except the two folder names (and the channel index if all channels are treated): integers, flags and strings exactly, the two grid constants to three
decimals.  No other file has changed.  A start that is refused, or that cannot write the file, changes no file. -/
theorem C119_record (stod : Str → Option Dbl) (files : Str → List Str) (threads : Int) (ht : IsInt32 threads) (one hundred : Dbl) (args : List Str)
    (canWrite : Str → Bool) (fs fs' : Str → Option Str) (r : Except Stop (RunParams Dbl))
    (h : Starts stod files threads one hundred args canWrite fs r fs') :
    match r with
    | .ok p => (∀ k, '\n' ∉ p.str k) → ∃ s, fs' (p.str .output_folder ++ "/run_parameters.txt".toList) = some s ∧
        (∀ k, IsRecorded p k → ∃ v, recorded k s = some v ∧ Tells p k v) ∧ (∀ k, ¬ IsRecorded p k → recorded k s = none) ∧
        ∀ f, f ≠ p.str .output_folder ++ "/run_parameters.txt".toList → fs' f = fs f
    | .error _ => fs' = fs := by
  unfold Starts at h
  cases hp : setRunParameters stod files threads one hundred args with
  | error e => rw [hp] at h; obtain ⟨rfl, rfl⟩ := h; rfl
  | ok p =>
    rw [hp] at h
    dsimp only at h
    split at h
    · obtain ⟨rfl, s, hs, rfl⟩ := h
      intro hstr
      have hpath : recordPath p = p.str .output_folder ++ "/run_parameters.txt".toList := by
        unfold recordPath
        rw [List.append_assoc]
        rfl
      rw [← hpath]
      refine ⟨s, if_pos rfl, fun k hk => ?_, fun k hk => (record_value hs hstr k).2 hk, fun f hf => if_neg hf⟩
      obtain ⟨v, h1, h2⟩ := (record_value hs hstr k).1 hk
      exact ⟨v, h1, memberText_tells (ints_in_range hp ht) h2⟩
    · obtain ⟨rfl, rfl⟩ := h; rfl

/-- The values of a parameter in two parameter sets are the same as far as a record can tell. -/
def SameValue (p q : RunParams Dbl) : Key → Prop
  | .int k => p.int k = q.int k
  | .bool k => p.bool k = q.bool k
  | .str k => p.str k = q.str k
  | .dbl k => match p.dbl k, q.dbl k with
    | .fin n m e, .fin n' m' e' => |dblValue n m e - dblValue n' m' e'| ≤ 0.001
    | x, y => x = y

theorem word_not_number {v : Str} {d : ℝ} (h : readFixed v = some d) :
    v ≠ "inf".toList ∧ v ≠ "-inf".toList ∧ v ≠ "nan".toList ∧ v ≠ "-nan".toList := by
  refine ⟨?_, ?_, ?_, ?_⟩ <;> rintro rfl <;> exact absurd h (by simp [readFixed, optSign, expect, isDig])

theorem tells_same {p q : RunParams Dbl} {k : Key} {v : Str} (hp : Tells p k v) (hq : Tells q k v) : SameValue p q k := by
  cases k with
  | int k => exact Option.some.inj ((show stoi v = some (p.int k) from hp).symm.trans hq)
  | bool k =>
    have h1 : (v = "true".toList ∧ p.bool k = true) ∨ (v = "false".toList ∧ p.bool k = false) := hp
    have h2 : (v = "true".toList ∧ q.bool k = true) ∨ (v = "false".toList ∧ q.bool k = false) := hq
    show p.bool k = q.bool k
    rcases h1 with ⟨a, b⟩ | ⟨a, b⟩ <;> rcases h2 with ⟨c, d⟩ | ⟨c, d⟩ <;> first | exact b.trans d.symm | exact absurd (a.symm.trans c) (by decide +kernel)
  | str k => exact (show v = p.str k from hp).symm.trans hq
  | dbl k =>
    have h1 : match p.dbl k with
      | .fin neg m e => ∃ d, readFixed v = some d ∧ |d - dblValue neg m e| ≤ 0.0005
      | .inf neg => v = if neg then "-inf".toList else "inf".toList
      | .nan neg => v = if neg then "-nan".toList else "nan".toList := hp
    have h2 : match q.dbl k with
      | .fin neg m e => ∃ d, readFixed v = some d ∧ |d - dblValue neg m e| ≤ 0.0005
      | .inf neg => v = if neg then "-inf".toList else "inf".toList
      | .nan neg => v = if neg then "-nan".toList else "nan".toList := hq
    show match p.dbl k, q.dbl k with
    | .fin n m e, .fin n' m' e' => |dblValue n m e - dblValue n' m' e'| ≤ 0.001
    | x, y => x = y
    cases hpk : p.dbl k with
    | fin n m e =>
      rw [hpk] at h1
      obtain ⟨d, hd, hd'⟩ := h1
      have hw := word_not_number hd
      cases hqk : q.dbl k with
      | fin n' m' e' =>
        rw [hqk] at h2
        obtain ⟨d2, he, he'⟩ := h2
        rw [hd] at he
        cases he
        have h3 : |dblValue n m e - dblValue n' m' e'| ≤ |d - dblValue n m e| + |d - dblValue n' m' e'| := by
          rw [abs_sub_comm d (dblValue n m e)]
          exact abs_sub_le _ _ _
        exact h3.trans (by linarith only [hd', he'])
      | inf b => rw [hqk] at h2; cases b <;> first | exact absurd h2 hw.1 | exact absurd h2 hw.2.1
      | nan b => rw [hqk] at h2; cases b <;> first | exact absurd h2 hw.2.2.1 | exact absurd h2 hw.2.2.2
    | inf a =>
      rw [hpk] at h1
      cases hqk : q.dbl k with
      | fin n' m' e' =>
        rw [hqk] at h2
        obtain ⟨d2, he, -⟩ := h2
        have hw := word_not_number he
        cases a <;> first | exact absurd h1 hw.1 | exact absurd h1 hw.2.1
      | inf b => rw [hqk] at h2; rw [h1] at h2; cases a <;> cases b <;> first | rfl | exact absurd h2 (by decide +kernel)
      | nan b => rw [hqk] at h2; rw [h1] at h2; cases a <;> cases b <;> exact absurd h2 (by decide +kernel)
    | nan a =>
      rw [hpk] at h1
      cases hqk : q.dbl k with
      | fin n' m' e' =>
        rw [hqk] at h2
        obtain ⟨d2, he, -⟩ := h2
        have hw := word_not_number he
        cases a <;> first | exact absurd h1 hw.2.2.1 | exact absurd h1 hw.2.2.2
      | inf b => rw [hqk] at h2; rw [h1] at h2; cases a <;> cases b <;> exact absurd h2 (by decide +kernel)
      | nan b => rw [hqk] at h2; rw [h1] at h2; cases a <;> cases b <;> first | rfl | exact absurd h2 (by decide +kernel)

/-- C119: two calculations with the same record have the same recorded parameters (the two grid constants to 0.001). -/
theorem C119_lossless {p q : RunParams Dbl} {s : Str} (hp : RecordText p s) (hq : RecordText q s) (hpi : ∀ k, IsInt32 (p.int k)) (hqi : ∀ k, IsInt32 (q.int k))
    (hps : ∀ k, '\n' ∉ p.str k) (hqs : ∀ k, '\n' ∉ q.str k) (k : Key) (hk : IsRecorded p k) : IsRecorded q k ∧ SameValue p q k := by
  obtain ⟨v, h1, h2⟩ := (record_value hp hps k).1 hk
  have hkq : IsRecorded q k := by
    by_contra hc
    rw [(record_value hq hqs k).2 hc] at h1
    cases h1
  obtain ⟨w, h3, h4⟩ := (record_value hq hqs k).1 hkq
  rw [h1] at h3
  cases h3
  exact ⟨hkq, tells_same (memberText_tells hpi h2) (memberText_tells hqi h4)⟩

/-- C119, what is lost: the default grid scale 100 and the different scale 100 + 2^-14 have the same records, whatever the other parameters. -/
theorem C119_scale_collides (p : RunParams Dbl) (s : Str) (h100 : p.dbl .chebyshev_s = .fin false (25 * 2 ^ 48) (-46)) (h : RecordText p s) :
    RecordText (p.setDbl .chebyshev_s (.fin false (25 * 2 ^ 48 + 2 ^ 32) (-46))) s ∧
    (Dbl.fin false (25 * 2 ^ 48) (-46)).OK ∧ (Dbl.fin false (25 * 2 ^ 48 + 2 ^ 32) (-46)).OK ∧
    dblValue false (25 * 2 ^ 48) (-46) = 100 ∧ dblValue false (25 * 2 ^ 48 + 2 ^ 32) (-46) = 100 + 1 / 2 ^ 14 := by
  refine ⟨?_, by norm_num [Dbl.OK], by norm_num [Dbl.OK], by norm_num [dblValue], by norm_num [dblValue]⟩
  obtain ⟨vs, hv, rfl⟩ := h
  refine ⟨vs, hv.imp ?_, rfl⟩
  rintro ⟨l, k⟩ v hm
  cases k with
  | int k => exact hm
  | bool k => exact hm
  | str k => exact hm
  | dbl k =>
    cases k with
    | chebyshev_t => exact hm
    | chebyshev_s =>
      have hm : FixedPrints 3 (p.dbl .chebyshev_s) v := hm
      rw [h100] at hm
      obtain ⟨N, hN, rfl⟩ := hm
      have hN' : |(100 : ℝ) - N / 1000| ≤ 1 / 2000 := by
        unfold FixedRound at hN
        norm_num at hN ⊢
        exact hN
      have hN2 : N = 100000 := by
        rw [abs_le] at hN'
        have h1 : (N : ℝ) < 100001 := by linarith only [hN'.1]
        have h2 : (99999 : ℝ) < N := by linarith only [hN'.2]
        have h1' : N < 100001 := by exact_mod_cast h1
        have h2' : 99999 < N := by exact_mod_cast h2
        omega
      subst hN2
      refine ⟨100000, ?_, rfl⟩
      unfold FixedRound
      norm_num [abs_le]


/-! ### the record as an input file -/

theorem name_no_colon (k : Key) : ':' ∉ k.name := by
  have key : Key.all.all (fun k => decide (':' ∉ k.name)) = true := by decide +kernel
  simpa using List.all_eq_true.1 key k (Key_all_complete k)

theorem takeWhile_colon {a rest : Str} (ha : '=' ∉ a) : ':' ∈ (a ++ ':' :: rest).takeWhile (· ≠ '=') := by
  rw [List.takeWhile_append_of_pos]
  · refine List.mem_append_right _ ?_
    rw [List.takeWhile_cons_of_pos (by decide)]
    exact List.mem_cons_self
  · intro x hx
    simp only [ne_eq, decide_not, Bool.not_eq_eq_eq_not, Bool.not_true, decide_eq_false_iff_not]
    rintro rfl
    exact ha hx

theorem label_no_eq (k : Key) (l : Str) (h : k.label = some l) : '=' ∉ l := by
  have key : Key.all.all (fun k => match k.label with
      | some l => decide ('=' ∉ l)
      | none => true) = true := by decide +kernel
  have := List.all_eq_true.1 key k (Key_all_complete k)
  rw [h] at this
  simpa using this

/-- No line of a record is an assignment to a run parameter. -/
theorem record_line_ignored {D : Type} (stod : Str → Option D) (q : RunParams D) {p : RunParams Dbl} {s : Str} (h : RecordText p s) (hstr : ∀ k, '\n' ∉ p.str k) :
    ∀ l ∈ textLines s, fileLine stod q l = .ok q := by
  obtain ⟨vs, -, hl⟩ := record_lines h hstr
  have hits := items_labels (p.bool .parallel_run)
  have main : ∀ a rest, '=' ∉ a → fileLine stod q (a ++ ':' :: rest) = .ok q := by
    intro a rest ha
    unfold fileLine
    rw [splitEq_eq]
    unfold assignment
    by_cases he : '=' ∈ a ++ ':' :: rest
    · rw [if_pos he]
      dsimp only
      split
      · rfl
      · rw [readAndSet_eq]
        have hk : keyOf ((a ++ ':' :: rest).takeWhile (· ≠ '=')) = none := by
          cases hk : keyOf ((a ++ ':' :: rest).takeWhile (· ≠ '=')) with
          | none => rfl
          | some k =>
            have := name_of_keyOf hk
            exact absurd (this ▸ takeWhile_colon ha) (name_no_colon k)
        rw [hk]
        rfl
    · rw [if_neg he]
  intro l hll
  rw [hl] at hll
  rcases List.mem_cons.1 hll with rfl | hll
  · rw [show "Running program for:".toList = "Running program for".toList ++ ':' :: [] by decide +kernel]
    exact main _ _ (by decide +kernel)
  · generalize recordItems (p.bool .parallel_run) = its at *
    clear hl
    induction its generalizing vs with
    | nil => simp at hll
    | cons it its ih =>
      cases vs with
      | nil => simp at hll
      | cons v vs =>
        rw [List.zipWith_cons_cons] at hll
        rcases List.mem_cons.1 hll with rfl | hll
        · obtain ⟨l, h1, e, -⟩ := hits it (by simp)
          rw [e]
          unfold padLabel
          rw [List.append_assoc]
          exact main _ _ (label_no_eq _ _ h1)
        · exact ih vs (fun it h => hits it (by simp [h])) (List.mem_cons_of_mem _ hll) hll

/-- C119, a trap: the record given as input file (its name ends in `.txt`, as that of every input file) is accepted without any effect: the
calculation that starts is the one with all defaults, whatever the recorded parameters. -/
theorem C119_not_an_input_file {D : Type} (stod : Str → Option D) (files : Str → List Str) (threads : Int) (one hundred : D) {p : RunParams Dbl} {s : Str}
    (h : RecordText p s) (hstr : ∀ k, '\n' ∉ p.str k) (hfile : files (p.str .output_folder ++ "/run_parameters.txt".toList) = textLines s) :
    setRunParameters stod files threads one hundred [p.str .output_folder ++ "/run_parameters.txt".toList] =
      setRunParameters stod files threads one hundred [] := by
  generalize hpath : p.str .output_folder ++ "/run_parameters.txt".toList = path at *
  have hsuf : ".txt".toList <:+ path := ⟨p.str .output_folder ++ "/run_parameters".toList, by rw [← hpath, List.append_assoc]; rfl⟩
  have hlen : 4 ≤ path.length := by rw [← hpath, List.length_append]; have : "/run_parameters.txt".toList.length = 19 := by decide +kernel
                                    omega
  have hnh : ¬ (path = "-h".toList ∨ path = "--help".toList) := by
    rintro (e | e)
    · rw [e] at hlen; exact absurd hlen (by decide +kernel)
    · rw [e] at hsuf; exact absurd hsuf (by decide +kernel)
  unfold setRunParameters readArgs
  rw [List.foldlM_cons, List.foldlM_nil]
  have : handleArg stod files ([path].length + 1) (defaultParams threads one hundred) path = .ok (defaultParams threads one hundred) := by
    unfold handleArg
    rw [if_neg hnh, if_neg (by omega), if_pos ((txt_suffix_iff (by omega)).2 hsuf)]
    unfold useInputList
    rw [hfile]
    have hall := record_line_ignored stod (defaultParams threads one hundred) h hstr
    generalize textLines s = ls at hall
    clear hfile
    induction ls with
    | nil => rfl
    | cons l ls ih =>
      rw [List.foldlM_cons, hall l (by simp)]
      exact ih (fun l' h' => hall l' (by simp [h']))
  rw [this]
  rfl

/-! ### repeating a calculation from its record -/

theorem lastValue_keys (g : Key → Option Str) (ks : List Key) (hn : ks.Nodup) (k : Key) :
    lastValue k.name (ks.filterMap fun k => (g k).map fun v => (k.name, v)) = if k ∈ ks then g k else none := by
  induction ks with
  | nil => rfl
  | cons a ks ih =>
    have ih := ih (List.nodup_cons.1 hn).2
    have ha := (List.nodup_cons.1 hn).1
    rw [List.filterMap_cons]
    by_cases hk : k = a
    · subst hk
      rw [if_neg ha] at ih
      rw [if_pos (by simp)]
      cases hg : g k with
      | none => exact ih
      | some v =>
        dsimp only [Option.map_some]
        unfold lastValue at ih ⊢
        rw [Option.map_eq_none_iff, List.getLast?_eq_none_iff] at ih
        rw [List.filter_cons_of_pos (by simp), ih]
        rfl
    · have hm : (k ∈ a :: ks) = (k ∈ ks) := by simp [hk]
      simp only [hm]
      cases hg : g a with
      | none => exact ih
      | some v =>
        dsimp only [Option.map_some]
        unfold lastValue at ih ⊢
        rw [List.filter_cons_of_neg (by simpa using fun e => hk (name_inj e).symm)]
        exact ih

theorem name_no_eq (k : Key) : '=' ∉ k.name := by
  have key : Key.all.all (fun k => decide ('=' ∉ k.name)) = true := by decide +kernel
  simpa using List.all_eq_true.1 key k (Key_all_complete k)

theorem assignment_line {a v : Str} (ha : '=' ∉ a) : assignment (a ++ '=' :: v) = some (a, v) := by
  have h1 : (a ++ '=' :: v).takeWhile (· ≠ '=') = a := by
    rw [List.takeWhile_append_of_pos]
    · rw [List.takeWhile_cons_of_neg (by decide), List.append_nil]
    · intro x hx
      simp only [ne_eq, decide_not, Bool.not_eq_eq_eq_not, Bool.not_true, decide_eq_false_iff_not]
      rintro rfl; exact ha hx
  have h2 : (a ++ '=' :: v).dropWhile (· ≠ '=') = '=' :: v := by
    rw [List.dropWhile_append_of_pos]
    · rw [List.dropWhile_cons_of_neg (by decide)]
    · intro x hx
      simp only [ne_eq, decide_not, Bool.not_eq_eq_eq_not, Bool.not_true, decide_eq_false_iff_not]
      rintro rfl; exact ha hx
  unfold assignment
  rw [if_pos (by simp), h1, h2]
  rfl

/-- Texts without blanks are read as they are; the empty text is no assignment. -/
theorem lineAssignment_line {a v : Str} (ha : '=' ∉ a) (hv : ∀ c ∈ v, isSpaceC c = false) :
    lineAssignment (a ++ '=' :: v) = if v = [] then none else some (a, v) := by
  unfold lineAssignment
  rw [assignment_line ha, Option.bind_some]
  cases v with
  | nil => rfl
  | cons c v =>
    have hc : c ≠ ' ' := by rintro rfl; exact absurd (hv ' ' (by simp)) (by decide)
    rw [if_neg (by simp [hc]), if_neg (by simp)]
    have : (c :: v).filter (fun c => !isSpaceC c) = c :: v := List.filter_eq_self.2 (by intro x hx; simp [hv x hx])
    dsimp only
    rw [this]


theorem digC_not_space {c : Char} (h : isDig c = true) : isSpaceC c = false := by
  cases hs : isSpaceC c with
  | false => rfl
  | true =>
    unfold isSpaceC at hs
    simp only [Bool.or_eq_true, beq_iff_eq] at hs
    rcases hs with ((((rfl | rfl) | rfl) | rfl) | rfl) | rfl <;> exact absurd h (by decide)

theorem memberText_noSpace {p : RunParams Dbl} {k : Key} {v : Str} (h : MemberText p k v) (hk : ∀ j, k = .str j → ∀ c ∈ p.str j, isSpaceC c = false) :
    ∀ c ∈ v, isSpaceC c = false := by
  cases k with
  | int k =>
    rw [show v = intText (p.int k) from h]
    intro c hc
    unfold intText at hc
    rcases List.mem_append.1 hc with hc | hc
    · split at hc
      · rw [List.mem_singleton.1 hc]; rfl
      · simp at hc
    · exact digC_not_space (toDigits_isDig _ hc)
  | bool k =>
    have h : v = if p.bool k = true then "true".toList else "false".toList := h
    cases hb : p.bool k <;> rw [hb] at h <;> subst h <;> decide +kernel
  | str k => rw [show v = p.str k from h]; exact hk k rfl
  | dbl k =>
    have h : FixedPrints 3 (p.dbl k) v := h
    cases hd : p.dbl k with
    | fin neg m e =>
      rw [hd] at h
      obtain ⟨N, hN, rfl⟩ := h
      intro c hc
      rcases plainFixed_chars _ hc with h | h | h
      · exact digC_not_space h
      · rw [h]; rfl
      · rw [h]; rfl
    | inf neg => rw [hd] at h; cases neg <;> rw [show v = _ from h] <;> decide +kernel
    | nan neg => rw [hd] at h; cases neg <;> rw [show v = _ from h] <;> decide +kernel

theorem memberText_ne_nil {p : RunParams Dbl} {k : Key} {v : Str} (h : MemberText p k v) (hk : ∀ j, k = .str j → p.str j ≠ []) : v ≠ [] := by
  cases k with
  | int k =>
    rw [show v = intText (p.int k) from h]
    unfold intText
    intro hc
    rw [List.append_eq_nil_iff] at hc
    exact Nat.toDigits_ne_nil hc.2
  | bool k =>
    have h : v = if p.bool k = true then "true".toList else "false".toList := h
    cases hb : p.bool k <;> rw [hb] at h <;> subst h <;> decide +kernel
  | str k => rw [show v = p.str k from h]; exact hk k rfl
  | dbl k =>
    have h : FixedPrints 3 (p.dbl k) v := h
    cases hd : p.dbl k with
    | fin neg m e =>
      rw [hd] at h
      obtain ⟨N, hN, rfl⟩ := h
      unfold plainFixed
      simp
    | inf neg => rw [hd] at h; cases neg <;> rw [show v = _ from h] <;> decide +kernel
    | nan neg => rw [hd] at h; cases neg <;> rw [show v = _ from h] <;> decide +kernel

/-- A number with at most three decimals, read by `stod`, is written so that it is read as the same double again. -/
theorem three_decimals {rd : ℝ → Dbl} {stod : Str → Option Dbl} (hstod : ∀ v x, readFixed v = some x → stod v = some (rd x))
    {x : Dbl} {n : Int} (hx : x = rd (n / 1000)) {neg : Bool} {m : Nat} {e : Int} (hf : x = .fin neg m e) (hc : |dblValue neg m e - n / 1000| < 0.0005)
    {v : Str} (h : FixedPrints 3 x v) : stod v = some x := by
  rw [hf] at h
  obtain ⟨N, hN, rfl⟩ := h
  have h1 := hstod _ _ (plainFixed_reads (prec := 3) (neg := neg) (N := N))
  have hs : |sg neg| = 1 := by cases neg <;> simp [sg]
  have h2 : |sg neg * N / 10 ^ 3 - dblValue neg m e| ≤ 0.0005 := by
    have hsplit : sg neg * N / 10 ^ 3 - dblValue neg m e = sg neg * (N / 10 ^ 3 - m * 2 ^ e) := by
      unfold sg dblValue; ring
    rw [hsplit, abs_mul, hs, one_mul, abs_sub_comm]
    unfold FixedRound at hN
    have hN' : |(m : ℝ) * 2 ^ e - N / 10 ^ 3| ≤ 1 / 10 ^ 3 / 2 := by simpa using hN
    exact hN'.trans (by norm_num)
  have h3 : |sg neg * N / 10 ^ 3 - n / 1000| < 0.001 := by
    have := abs_sub_le (sg neg * N / 10 ^ 3) (dblValue neg m e) (n / 1000)
    linarith only [this, h2, hc]
  have h4 : sg neg * N = n := by
    have h5 : |sg neg * N - n| < 1 := by
      rw [abs_lt] at h3 ⊢
      constructor <;> linarith only [h3.1, h3.2]
    have hsi : sg neg = ((sgi neg : Int) : ℝ) := by cases neg <;> simp [sg, sgi]
    rw [hsi] at h5 ⊢
    have h6 : |(((sgi neg * N - n : Int)) : ℝ)| < 1 := by push_cast; exact h5
    rw [← Int.cast_abs] at h6
    have h7 : |sgi neg * N - n| < 1 := by exact_mod_cast h6
    rw [Int.abs_lt_one_iff] at h7
    have h8 : sgi neg * N = n := by omega
    exact_mod_cast h8
  rw [h1, h4, hx]
  norm_num

/-- C119: a calculation can be repeated from its record.  The input file with one line `key=value` per recorded parameter is accepted (on any machine, with
any number of threads) and gives the parameters of the recorded calculation, except the two folders and the channel index of a run over all channels,
which keep their defaults.  This needs string values without white space and not empty (except the names of grid files, empty by default), and grid
constants with at most three decimals: `rd` is the rounding of a decimal number to a double, done by `stod`. -/
theorem C119_rerun (rd : ℝ → Dbl) (stod : Str → Option Dbl) (hstod : ∀ v x, readFixed v = some x → stod v = some (rd x))
    (files files' : Str → List Str) (threads threads' : Int) (ht : IsInt32 threads) (one hundred : Dbl) (args : List Str) (p : RunParams Dbl)
    (hp : setRunParameters stod files threads one hundred args = .ok p) (s : Str) (hs : RecordText p s)
    (hspace : ∀ k, ∀ c ∈ p.str k, isSpaceC c = false) (hempty : ∀ k, p.str k = [] → k = .p_grid_filename ∨ k = .q_grid_filename)
    (hdec : ∀ k, ∃ (n : Int) (neg : Bool) (m : Nat) (e : Int), p.dbl k = rd (n / 1000) ∧ p.dbl k = .fin neg m e ∧ |dblValue neg m e - n / 1000| < 0.0005)
    (hfile : files' "again.txt".toList = asInputFile s) :
    ∃ q, setRunParameters stod files' threads' one hundred ["again.txt".toList] = .ok q ∧
      q.bool = p.bool ∧ q.dbl = p.dbl ∧
      (∀ k, q.int k = if k = .channel_idx ∧ p.bool .parallel_run = false then -1 else p.int k) ∧
      (∀ k, q.str k = if k = .subfolder ∨ k = .output_folder then "Output".toList else p.str k) := by
  have hnl : ∀ k, '\n' ∉ p.str k := fun k hc => absurd (hspace k _ hc) (by decide)
  have hint := ints_in_range hp ht
  have hval := fun k => record_value hs hnl k
  have hcon := C12_accepted_constraints stod files threads one hundred args p hp
  have hnodup : Key.all.Nodup := by decide +kernel
  -- the assignments of the new command line
  set g : Key → Option Str := fun k => (recorded k s).filter (· ≠ []) with hg
  have hasg : assignments files' ["again.txt".toList] = Key.all.filterMap fun k => (g k).map fun v => (k.name, v) := by
    have e1 : assignments files' ["again.txt".toList] = (files' "again.txt".toList).filterMap lineAssignment := by
      unfold assignments
      rw [List.flatMap_cons, List.flatMap_nil, List.append_nil]
      unfold argAssignments
      rw [if_neg (by decide +kernel), if_pos (by decide +kernel)]
    rw [e1, hfile]
    unfold asInputFile
    rw [List.filterMap_filterMap]
    apply List.filterMap_congr
    intro k _
    show ((recorded k s).map fun v => k.name ++ '=' :: v).bind lineAssignment = _
    rw [hg]
    dsimp only
    by_cases hk : IsRecorded p k
    · obtain ⟨v, h1, h2⟩ := (hval k).1 hk
      rw [h1, Option.map_some, Option.bind_some, lineAssignment_line (name_no_eq k) (memberText_noSpace h2 (fun j _ => hspace j))]
      by_cases hv : v = []
      · subst hv; rfl
      · rw [if_neg hv]
        simp [Option.filter, hv]
    · rw [(hval k).2 hk]; rfl
  have hlast : ∀ k : Key, lastValue k.name (assignments files' ["again.txt".toList]) = g k := by
    intro k
    rw [hasg, lastValue_keys g _ hnodup k, if_pos (Key_all_complete k)]
  have hgsome : ∀ k v, g k = some v → MemberText p k v := by
    intro k v hv
    rw [hg] at hv
    obtain ⟨h1, -⟩ := Option.filter_eq_some_iff.1 hv
    by_cases hk : IsRecorded p k
    · obtain ⟨w, h3, h4⟩ := (hval k).1 hk
      rw [h3] at h1
      cases h1
      exact h4
    · rw [(hval k).2 hk] at h1; cases h1
  have hgrec : ∀ k, IsRecorded p k → (∀ j, k = .str j → p.str j ≠ []) → ∃ v, g k = some v := by
    intro k hk hne
    obtain ⟨w, h3, h4⟩ := (hval k).1 hk
    exact ⟨w, by rw [hg]; dsimp only; rw [h3]; exact Option.filter_eq_some_iff.2 ⟨rfl, by simpa using memberText_ne_nil h4 hne⟩⟩
  have hdbl : ∀ (k : DblKey) (v : Str), MemberText p (.dbl k) v → stod v = some (p.dbl k) := by
    intro k v hv
    obtain ⟨n, neg, m, e, h1, h2, h3⟩ := hdec k
    exact three_decimals hstod h1 h2 h3 hv
  -- all values are well formed
  have hwf : ∀ kv ∈ assignments files' ["again.txt".toList], WellFormed stod kv.1 kv.2 := by
    intro kv hkv
    rw [hasg, List.mem_filterMap] at hkv
    obtain ⟨k, -, hk⟩ := hkv
    rw [Option.map_eq_some_iff] at hk
    obtain ⟨v, hv, rfl⟩ := hk
    have hm := hgsome k v hv
    refine ⟨fun j hj => ?_, fun j hj => ?_, fun j hj => ?_⟩
    · rw [name_inj hj] at hm
      rw [show stoi v = some (p.int j) from memberText_tells hint hm]; rfl
    · rw [name_inj hj] at hm
      rw [hdbl j v hm]; rfl
    · rw [name_inj hj] at hm
      rcases (show _ ∨ _ from memberText_tells hint hm) with h | h
      · exact .inl h.1
      · exact .inr h.1
  obtain ⟨q0, hq0⟩ := C08_well_formed_accepted stod files' (defaultParams threads' one hundred) ["again.txt".toList]
    (by intro a ha; rw [List.mem_singleton.1 ha]; exact .inr (by decide +kernel)) (fun _ => ⟨by decide +kernel, by decide +kernel⟩) hwf
  have hfold := hq0
  rw [readArgs_eq _ _ _ _ (argsOk_of_readArgs hq0)] at hfold
  have key := foldAsg_ok stod _ _ _ hfold
  -- values read
  have hq0int : ∀ k, q0.int k = if k = .channel_idx ∧ p.bool .parallel_run = false then -1 else p.int k := by
    intro k
    have hk := key (.int k)
    rw [hlast] at hk
    by_cases hc : k = .channel_idx ∧ p.bool .parallel_run = false
    · rw [if_pos hc]
      have : g (.int k) = none := by
        rw [hg]; dsimp only
        rw [(hval (.int k)).2 (fun hr => by have := hr.2.2 (by rw [hc.1]); rw [hc.2] at this; cases this)]; rfl
      rw [this] at hk
      rw [show q0.int k = (defaultParams threads' one hundred).int k from hk, hc.1]
      rfl
    · rw [if_neg hc]
      obtain ⟨v, hv⟩ := hgrec (.int k) ⟨by simp, by simp, fun e => by
        cases e
        cases hb : p.bool .parallel_run with
        | true => rfl
        | false => exact absurd ⟨rfl, hb⟩ hc⟩ (by simp)
      rw [hv] at hk
      have h1 : stoi v = some (q0.int k) := hk
      rw [show stoi v = some (p.int k) from memberText_tells hint (hgsome _ v hv)] at h1
      exact (Option.some.inj h1).symm
  have hq0bool : q0.bool = p.bool := by
    funext k
    have hk := key (.bool k)
    rw [hlast] at hk
    obtain ⟨v, hv⟩ := hgrec (.bool k) ⟨by simp, by simp, by simp⟩ (by simp)
    rw [hv] at hk
    have h1 : (v = "true".toList ∧ q0.bool k = true) ∨ (v = "false".toList ∧ q0.bool k = false) := hk
    have h2 : (v = "true".toList ∧ p.bool k = true) ∨ (v = "false".toList ∧ p.bool k = false) := memberText_tells hint (hgsome _ v hv)
    rcases h1 with ⟨a, b⟩ | ⟨a, b⟩ <;> rcases h2 with ⟨c, d⟩ | ⟨c, d⟩ <;> first | exact b.trans d.symm | exact absurd (a.symm.trans c) (by decide +kernel)
  have hq0dbl : q0.dbl = p.dbl := by
    funext k
    have hk := key (.dbl k)
    rw [hlast] at hk
    obtain ⟨v, hv⟩ := hgrec (.dbl k) ⟨by simp, by simp, by simp⟩ (by simp)
    rw [hv] at hk
    have h1 : stod v = some (q0.dbl k) := hk
    rw [hdbl k v (hgsome _ v hv)] at h1
    exact (Option.some.inj h1).symm
  have hq0str : ∀ k, q0.str k = if k = .subfolder ∨ k = .output_folder then "Output".toList else p.str k := by
    intro k
    have hk := key (.str k)
    rw [hlast] at hk
    by_cases hc : k = .subfolder ∨ k = .output_folder
    · rw [if_pos hc]
      have : g (.str k) = none := by
        rw [hg]; dsimp only
        rw [(hval (.str k)).2 (fun hr => by
          rcases hc with e | e
          · exact hr.1 (by rw [e])
          · exact hr.2.1 (by rw [e]))]
        rfl
      rw [this] at hk
      rw [show q0.str k = (defaultParams threads' one hundred).str k from hk]
      rcases hc with e | e <;> rw [e] <;> rfl
    · rw [if_neg hc]
      have hrec : IsRecorded p (.str k) := ⟨fun e => hc (.inl (Key.str.inj e)), fun e => hc (.inr (Key.str.inj e)), by simp⟩
      by_cases he : p.str k = []
      · have : g (.str k) = none := by
          rw [hg]; dsimp only
          obtain ⟨w, h3, h4⟩ := (hval (.str k)).1 hrec
          rw [h3, show w = p.str k from h4, he]; rfl
        rw [this] at hk
        rw [show q0.str k = (defaultParams threads' one hundred).str k from hk, he]
        rcases hempty k he with e | e <;> rw [e] <;> rfl
      · obtain ⟨v, hv⟩ := hgrec (.str k) hrec (fun j hj => by cases hj; exact he)
        rw [hv] at hk
        rw [← show v = q0.str k from hk]
        exact hgsome _ v hv
  obtain ⟨q, hq, h1, h2, h3, h4, h5⟩ := (C12_accepts_iff stod files' threads' one hundred ["again.txt".toList] q0 hq0).1 (by
    refine ⟨?_, ?_, ?_⟩
    · rw [hq0int, if_neg (by simp)]; exact hcon.1
    · rw [hq0int, if_neg (by simp)]; exact hcon.2.1
    · rw [hq0bool, hq0int]
      intro hb
      rw [if_neg (by simp [hb])]
      exact hcon.2.2.1 hb)
  refine ⟨q, hq, by rw [h4, hq0bool], by rw [h3, hq0dbl], fun k => ?_, fun k => by rw [h5]; exact hq0str k⟩
  by_cases hk : k = .P123_omp_num_threads
  · subst hk
    rw [h1, hq0int, hq0int, if_neg (by simp), if_neg (by simp)]
    have := hcon.2.2.2
    omega
  · rw [h2 k hk, hq0int]


/-! ### the hypotheses are met -/

/-- Every parameter set has a record. -/
theorem record_exists (p : RunParams Dbl) : ∃ s, RecordText p s := by
  have hm : ∀ k, ∃ v, MemberText p k v := by
    intro k
    cases k with
    | int k => exact ⟨_, rfl⟩
    | bool k => exact ⟨_, rfl⟩
    | str k => exact ⟨_, rfl⟩
    | dbl k =>
      show ∃ v, FixedPrints 3 (p.dbl k) v
      cases p.dbl k with
      | inf b => exact ⟨_, rfl⟩
      | nan b => exact ⟨_, rfl⟩
      | fin neg m e =>
        have hpos : (0 : ℝ) ≤ (m * 2 ^ e) * 1000 := by positivity
        obtain ⟨N, hN⟩ := Int.eq_ofNat_of_zero_le (show 0 ≤ round ((m * (2 : ℝ) ^ e) * 1000) by
          rw [round_eq]
          exact Int.floor_nonneg.2 (by linarith only [hpos]))
        refine ⟨_, N, ?_, rfl⟩
        have := abs_sub_round ((m * (2 : ℝ) ^ e) * 1000)
        rw [hN] at this
        unfold FixedRound
        rw [abs_le] at this ⊢
        push_cast at this ⊢
        constructor <;> linarith only [this.1, this.2]
  have : ∀ its : List (Str × Key), ∃ vs : List Str, List.Forall₂ (fun it v => MemberText p it.2 v) its vs := by
    intro its
    induction its with
    | nil => exact ⟨[], .nil⟩
    | cons it its ih =>
      obtain ⟨vs, hvs⟩ := ih
      obtain ⟨v, hv⟩ := hm it.2
      exact ⟨v :: vs, .cons hv hvs⟩
  obtain ⟨vs, hvs⟩ := this (recordItems (p.bool .parallel_run))
  exact ⟨_, vs, hvs, rfl⟩

/-- 1 and 100 as doubles. -/
def exOne : Dbl := .fin false (2 ^ 52) (-52)
def exHundred : Dbl := .fin false (25 * 2 ^ 48) (-46)

/-- The default calculation meets the hypotheses of `C119_rerun`, with a rounding that is right for 1 and 100. -/
example : ∃ (rd : ℝ → Dbl) (stod : Str → Option Dbl) (p : RunParams Dbl) (s : Str), (∀ v x, readFixed v = some x → stod v = some (rd x)) ∧
    setRunParameters stod (fun _ => []) 8 exOne exHundred [] = .ok p ∧ RecordText p s ∧ (∀ k, ∀ c ∈ p.str k, isSpaceC c = false) ∧
    (∀ k, p.str k = [] → k = .p_grid_filename ∨ k = .q_grid_filename) ∧
    ∀ k, ∃ (n : Int) (neg : Bool) (m : Nat) (e : Int), p.dbl k = rd (n / 1000) ∧ p.dbl k = .fin neg m e ∧ |dblValue neg m e - n / 1000| < 0.0005 := by
  classical
  obtain ⟨s, hs⟩ := record_exists (defaultParams 8 exOne exHundred)
  refine ⟨fun x => if x = 1 then exOne else exHundred, fun v => (readFixed v).map fun x => if x = 1 then exOne else exHundred,
    defaultParams 8 exOne exHundred, s, fun v x h => by beta_reduce; rw [h]; rfl, rfl, hs, ?_, ?_, ?_⟩
  · intro k; cases k <;> decide +kernel
  · intro k; cases k <;> decide +kernel
  · intro k
    cases k with
    | chebyshev_t =>
      refine ⟨1000, false, 2 ^ 52, -52, ?_, rfl, by norm_num [dblValue]⟩
      show exOne = if ((1000 : Int) : ℝ) / 1000 = 1 then exOne else exHundred
      rw [if_pos (by norm_num)]
    | chebyshev_s =>
      refine ⟨100000, false, 25 * 2 ^ 48, -46, ?_, rfl, by norm_num [dblValue]⟩
      show exHundred = if ((100000 : Int) : ℝ) / 1000 = 1 then exOne else exHundred
      rw [if_neg (by norm_num)]

/-- A start with arguments: the record in the folder `Out` tells `two_J_3N_max = 7`. -/
example (fs : Str → Option Str) : ∃ p fs', Starts (fun _ => none) (fun _ => []) 8 exOne exHundred ["two_J_3N_max=7".toList, "output_folder=Out".toList]
    (fun _ => true) fs (.ok p) fs' ∧ p.int .two_J_3N_max = 7 ∧ (∀ k, '\n' ∉ p.str k) := by
  obtain ⟨p, hp, h1, h2⟩ : ∃ p, setRunParameters (fun _ => none) (fun _ => []) 8 exOne exHundred ["two_J_3N_max=7".toList, "output_folder=Out".toList] = .ok p ∧
      p.int .two_J_3N_max = 7 ∧ (∀ k, '\n' ∉ p.str k) := ⟨_, rfl, rfl, by intro k; cases k <;> decide +kernel⟩
  obtain ⟨s, hs⟩ := record_exists p
  refine ⟨p, fun f => if f = recordPath p then some s else fs f, ?_, h1, h2⟩
  unfold Starts
  rw [hp]
  exact ⟨rfl, s, hs, rfl⟩

end TicTac
end
