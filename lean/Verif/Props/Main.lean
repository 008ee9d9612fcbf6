import Verif.Lemmas.Main
import Verif.Spec.Main
import Verif.Lemmas.RunParams
/-!
Property theorems about the driver: C13, C14, C24, C25, C49–C52, C61–C64.
-/
namespace TicTac
open Spec

/-! ### C13, C64: channel splitting -/

/-- The command-line settings of the `c`-th of the split runs. -/
def DriverCfg.forChannel (cfg : DriverCfg) (c : Int) : DriverCfg := { cfg with parallelRun := true, channelIdx := c }

theorem psiRange_forChannel (cfg : DriverCfg) (c : Int) : psiRange (cfg.forChannel c) = psiRange cfg := rfl

theorem flatMap_single {l : List Int} (hnd : l.Nodup) (c : Int) (f : Int → List Work) :
    (l.flatMap fun x => if x ≠ c then [] else f x) = if c ∈ l then f c else [] := by
  induction l with
  | nil => simp
  | cons a l ih =>
    rw [List.nodup_cons] at hnd
    rw [List.flatMap_cons, ih hnd.2]
    by_cases hac : a = c
    · subst hac
      simp [hnd.1]
    · have : ¬ c = a := fun e => hac e.symm
      simp [hac, this]

theorem mainWork_forChannel (cfg : DriverCfg) (c : Int) (nChn : Nat) (h : cfg.solveFaddeev = true ∨ cfg.calcP123 = true) :
    mainWork (cfg.forChannel c) nChn =
      some (if 0 ≤ c ∧ c < nChn then channelWork { cfg with parallelRun := false } c else []) := by
  unfold mainWork
  rw [if_neg (by show ¬(cfg.solveFaddeev = false ∧ cfg.calcP123 = false); rcases h with h | h <;> simp [h])]
  congr 1
  have : channelWork (cfg.forChannel c) = fun x => if x ≠ c then [] else channelWork { cfg with parallelRun := false } x := by
    funext x
    unfold channelWork
    by_cases hx : x ≠ c
    · simp [DriverCfg.forChannel, hx]
    · simp only [ne_eq, not_not] at hx
      subst hx
      simp only [DriverCfg.forChannel, psiRange, ne_eq, not_true_eq_false, and_false, if_false, Bool.false_eq_true, false_and]
      rfl
  rw [this, flatMap_single (nodup_forRange (by omega))]
  simp only [mem_forRange_one]
  by_cases hc : 0 ≤ c ∧ c < nChn
  · rw [if_pos (by omega), if_pos hc]
  · rw [if_neg (by omega), if_neg hc]

/-- **C13.** The separate runs with `parallel_run=true`, `channel_idx = 0, …, N_chn-1` do, one after the other,
exactly the work of the single run with `parallel_run=false`: same units, each once. -/
theorem C13_split_equals_single (cfg : DriverCfg) (nChn : Nat) (hp : cfg.parallelRun = false)
    (h : cfg.solveFaddeev = true ∨ cfg.calcP123 = true) :
    ∃ w : List Work, mainWork cfg nChn = some w ∧ w.Nodup ∧
      ((forRange 0 ((nChn : Int) - 1) 1).map fun c => (mainWork (cfg.forChannel c) nChn).getD []).flatten = w ∧
      (∀ chn psi, Work.solve chn psi ∈ w ↔ cfg.solveFaddeev = true ∧ 0 ≤ chn ∧ chn < nChn ∧
        (if cfg.parameterWalk then cfg.psiStart ≤ psi ∧ psi < cfg.psiEnd else psi = 0)) ∧
      (∀ chn, Work.p123 chn ∈ w ↔ 0 ≤ chn ∧ chn < nChn) := by
  have hcfg : ({ cfg with parallelRun := false } : DriverCfg) = cfg := by
    cases cfg; simp only at hp; subst hp; rfl
  have hcw : ∀ c, channelWork cfg c = .p123 c :: (if cfg.solveFaddeev then (psiRange cfg).map (Work.solve c) else []) := by
    intro c
    unfold channelWork
    rw [if_neg (by simp [hp])]
  refine ⟨(forRange 0 ((nChn : Int) - 1) 1).flatMap (channelWork cfg), ?_, ?_, ?_, ?_, ?_⟩
  · unfold mainWork
    rw [if_neg (by rcases h with h | h <;> simp [h])]
  · rw [List.nodup_flatMap]
    constructor
    · intro c _
      rw [hcw, List.nodup_cons]
      constructor
      · split_ifs <;> simp
      · split_ifs
        · refine List.Nodup.map (fun a b hab => by cases hab; rfl) ?_
          exact nodup_forRange (by omega)
        · exact List.nodup_nil
    · refine (nodup_forRange (lo := 0) (hi := (nChn : Int) - 1) (by omega : (0 : Int) < 1)).imp ?_
      intro a b hab w hwa hwb
      rw [hcw] at hwa hwb
      have ha : w = .p123 a ∨ ∃ s, w = .solve a s := by
        rcases List.mem_cons.1 hwa with h | h
        · exact Or.inl h
        · split_ifs at h
          · obtain ⟨s, _, hs⟩ := List.mem_map.1 h
            exact Or.inr ⟨s, hs.symm⟩
          · simp at h
      have hb : w = .p123 b ∨ ∃ s, w = .solve b s := by
        rcases List.mem_cons.1 hwb with h | h
        · exact Or.inl h
        · split_ifs at h
          · obtain ⟨s, _, hs⟩ := List.mem_map.1 h
            exact Or.inr ⟨s, hs.symm⟩
          · simp at h
      rcases ha with rfl | ⟨s, rfl⟩ <;> rcases hb with h | ⟨t, h⟩ <;> cases h <;> exact hab rfl
  · rw [List.flatMap_def]
    congr 1
    apply List.map_congr_left
    intro c hc
    rw [mem_forRange_one] at hc
    rw [mainWork_forChannel cfg c nChn h, if_pos (by omega), hcfg]
    rfl
  · intro chn psi
    simp only [List.mem_flatMap, mem_forRange_one, hcw, List.mem_cons, reduceCtorEq, false_or]
    constructor
    · rintro ⟨c, hc, hm⟩
      split_ifs at hm with hs
      · obtain ⟨s, hs', he⟩ := List.mem_map.1 hm
        cases he
        refine ⟨hs, by omega, by omega, ?_⟩
        unfold psiRange at hs'
        rw [mem_forRange_one] at hs'
        split_ifs at hs' ⊢ <;> omega
      · simp at hm
    · rintro ⟨hs, h0, h1, h2⟩
      refine ⟨chn, by omega, ?_⟩
      rw [if_pos hs, List.mem_map]
      refine ⟨psi, ?_, rfl⟩
      unfold psiRange
      rw [mem_forRange_one]
      split_ifs at h2 ⊢ <;> omega
  · intro chn
    simp only [List.mem_flatMap, mem_forRange_one, hcw, List.mem_cons]
    constructor
    · rintro ⟨c, hc, hm⟩
      rcases hm with hm | hm
      · cases hm; omega
      · split_ifs at hm
        · obtain ⟨s, _, he⟩ := List.mem_map.1 hm
          cases he
        · simp at hm
    · intro hc
      exact ⟨chn, by omega, Or.inl rfl⟩

example : mainWork ⟨false, -1, true, true, true, 3, 5⟩ 2 =
    some [.p123 0, .solve 0 3, .solve 0 4, .p123 1, .solve 1 3, .solve 1 4] := by decide

/-- **C64 (false of the code).** A `channel_idx` that is not the number of an existing channel is not reported: the
run does nothing at all and ends normally. -/
theorem C64_bad_channel_index_unreported (cfg : DriverCfg) (c : Int) (nChn : Nat) (hc : c < 0 ∨ nChn ≤ c)
    (h : cfg.solveFaddeev = true ∨ cfg.calcP123 = true) : mainWork (cfg.forChannel c) nChn = some [] := by
  rw [mainWork_forChannel cfg c nChn h, if_neg (by omega)]

/-- C64: a valid index does the channel's work, so an empty run can only come from a bad index. -/
theorem C64_valid_channel_index (cfg : DriverCfg) (c : Int) (nChn : Nat) (hc : 0 ≤ c ∧ c < nChn)
    (h : cfg.solveFaddeev = true ∨ cfg.calcP123 = true) :
    ∃ w, mainWork (cfg.forChannel c) nChn = some w ∧ Work.p123 c ∈ w := by
  refine ⟨_, mainWork_forChannel cfg c nChn h, ?_⟩
  rw [if_pos hc]
  unfold channelWork
  simp

/-! ### C14: names of files -/

theorem lits : "_Np_".toList = '_' :: "Np_".toList ∧ "_Nq_".toList = '_' :: "Nq_".toList ∧
    "_JP_".toList = '_' :: "JP_".toList ∧ "_".toList = ['_'] ∧ "_Jmax_".toList = '_' :: "Jmax_".toList ∧
    "_PSI_".toList = '_' :: "PSI_".toList ∧ ".txt".toList = '.' :: "txt".toList ∧ "_J2max_".toList = '_' :: "J2max_".toList ∧
    ".h5".toList = '.' :: "h5".toList ∧ "_TFC_".toList = '_' :: "TFC_".toList := by decide

theorem fileId_inj {np nq J P jm np' nq' J' P' jm' : Int} {psi psi' : Int} {r r' : Str}
    (h : fileId np nq J P jm ++ ("_PSI_".toList ++ (dec psi ++ ".txt".toList)) =
      fileId np' nq' J' P' jm' ++ ("_PSI_".toList ++ (dec psi' ++ ".txt".toList))) :
    np = np' ∧ nq = nq' ∧ J = J' ∧ P = P' ∧ jm = jm' ∧ psi = psi' := by
  obtain ⟨l1, l2, l3, l4, l5, l6, l7, _⟩ := lits
  unfold fileId at h
  simp only [l1, l2, l3, l4, l5, l6, l7, List.append_assoc, List.cons_append, List.nil_append, List.cons.injEq,
    true_and, List.append_cancel_left_eq] at h
  obtain ⟨e1, h⟩ := dec_sep_inj h
  rw [List.append_cancel_left_eq] at h
  obtain ⟨e2, h⟩ := dec_sep_inj h
  rw [List.append_cancel_left_eq] at h
  obtain ⟨e3, h⟩ := dec_sep_inj h
  obtain ⟨e4, h⟩ := dec_sep_inj h
  rw [List.append_cancel_left_eq] at h
  obtain ⟨e5, h⟩ := dec_sep_inj h
  rw [List.append_cancel_left_eq] at h
  obtain ⟨e6, _⟩ := dec_dot_inj h
  exact ⟨e1, e2, e3, e4, e5, e6⟩

/-- **C14 (elastic output).** In one folder, equal file names mean equal `Np`, `Nq`, `2J`, parity, `J_2N_max` and
parameter-set index. -/
theorem C14_U_file_injective (f : Str) (np nq J P jm psi np' nq' J' P' jm' psi' : Int)
    (h : uFile f np nq J P jm psi = uFile f np' nq' J' P' jm' psi') :
    np = np' ∧ nq = nq' ∧ J = J' ∧ P = P' ∧ jm = jm' ∧ psi = psi' := by
  unfold uFile at h
  simp only [List.append_assoc] at h
  rw [List.append_cancel_left_eq, List.append_cancel_left_eq, List.append_cancel_left_eq] at h
  exact fileId_inj (r := []) (r' := []) h

/-- **C14 (breakup output).** -/
theorem C14_U_breakup_file_injective (f : Str) (np nq J P jm psi np' nq' J' P' jm' psi' : Int)
    (h : uBuFile f np nq J P jm psi = uBuFile f np' nq' J' P' jm' psi') :
    np = np' ∧ nq = nq' ∧ J = J' ∧ P = P' ∧ jm = jm' ∧ psi = psi' := by
  unfold uBuFile at h
  simp only [List.append_assoc] at h
  rw [List.append_cancel_left_eq, List.append_cancel_left_eq, List.append_cancel_left_eq] at h
  exact fileId_inj (r := []) (r' := []) h

/-- **C14 (final P123 files).** -/
theorem C14_P123_file_injective (f : Str) (J P np nq jm J' P' np' nq' jm' : Int)
    (h : p123File f J P np nq jm = p123File f J' P' np' nq' jm') :
    J = J' ∧ P = P' ∧ np = np' ∧ nq = nq' ∧ jm = jm' := by
  obtain ⟨l1, l2, _, l4, _, _, _, l8, l9, _⟩ := lits
  unfold p123File at h
  simp only [List.append_assoc] at h
  rw [List.append_cancel_left_eq, List.append_cancel_left_eq, List.append_cancel_left_eq] at h
  simp only [l1, l2, l4, l8, l9, List.cons_append, List.nil_append] at h
  obtain ⟨e1, h⟩ := dec_sep_inj h
  obtain ⟨e2, h⟩ := dec_sep_inj h
  rw [List.append_cancel_left_eq] at h
  obtain ⟨e3, h⟩ := dec_sep_inj h
  rw [List.append_cancel_left_eq] at h
  obtain ⟨e4, h⟩ := dec_sep_inj h
  rw [List.append_cancel_left_eq] at h
  obtain ⟨e5, _⟩ := dec_dot_inj h
  exact ⟨e1, e2, e3, e4, e5⟩

/-- **C14 (partial P123 files).** Also thread number and sequence number are determined. -/
theorem C14_P123_subfile_injective (f : Str) (J P np nq jm t k J' P' np' nq' jm' t' k' : Int)
    (h : p123SubFile f J P np nq jm t k = p123SubFile f J' P' np' nq' jm' t' k') :
    J = J' ∧ P = P' ∧ np = np' ∧ nq = nq' ∧ jm = jm' ∧ t = t' ∧ k = k' := by
  obtain ⟨l1, l2, _, l4, _, _, _, l8, l9, l10⟩ := lits
  unfold p123SubFile at h
  simp only [List.append_assoc] at h
  rw [List.append_cancel_left_eq, List.append_cancel_left_eq] at h
  simp only [l1, l2, l4, l8, l9, l10, List.cons_append, List.nil_append] at h
  obtain ⟨e1, h⟩ := dec_sep_inj h
  obtain ⟨e2, h⟩ := dec_sep_inj h
  rw [List.append_cancel_left_eq] at h
  obtain ⟨e3, h⟩ := dec_sep_inj h
  rw [List.append_cancel_left_eq] at h
  obtain ⟨e4, h⟩ := dec_sep_inj h
  rw [List.append_cancel_left_eq] at h
  obtain ⟨e5, h⟩ := dec_sep_inj h
  rw [List.append_cancel_left_eq] at h
  obtain ⟨e6, h⟩ := dec_sep_inj h
  obtain ⟨e7, _⟩ := dec_dot_inj h
  exact ⟨e1, e2, e3, e4, e5, e6, e7⟩

/-- **C14 (different kinds of files).** Elastic, breakup, final and partial P123 files in one folder never share a
name, whatever the numbers in them. -/
theorem C14_kinds_distinct (f : Str) (a b c d e g a' b' c' d' e' g' h' : Int) :
    uFile f a b c d e g ≠ uBuFile f a' b' c' d' e' g' ∧
    uFile f a b c d e g ≠ p123File f a' b' c' d' e' ∧
    uFile f a b c d e g ≠ p123SubFile f a' b' c' d' e' g' h' ∧
    uBuFile f a b c d e g ≠ p123File f a' b' c' d' e' ∧
    uBuFile f a b c d e g ≠ p123SubFile f a' b' c' d' e' g' h' ∧
    p123File f a b c d e ≠ p123SubFile f a' b' c' d' e' g' h' := by
  have l1 : "U_PW_elements".toList = 'U' :: '_' :: 'P' :: 'W' :: '_' :: 'e' :: "lements".toList := by decide
  have l2 : "U_PW_breakup_elements".toList = 'U' :: '_' :: 'P' :: 'W' :: '_' :: 'b' :: "reakup_elements".toList := by decide
  have l3 : "P123_sparse_JP_".toList = 'P' :: '1' :: '2' :: '3' :: '_' :: 's' :: 'p' :: "arse_JP_".toList := by decide
  have l4 : "/P123_subsparse_JP_".toList = '/' :: 'P' :: '1' :: '2' :: '3' :: '_' :: 's' :: 'u' :: "bsparse_JP_".toList := by
    decide
  have l5 : "/".toList = ['/'] := by decide
  have h1 : ('e' = 'b') = False := by decide
  have h2 : ('U' = 'P') = False := by decide
  have h3 : ('p' = 'u') = False := by decide
  refine ⟨?_, ?_, ?_, ?_, ?_, ?_⟩ <;>
  · intro h
    simp only [uFile, uBuFile, p123File, p123SubFile, List.append_assoc, List.append_cancel_left_eq, l1, l2, l3, l4, l5,
      List.cons_append, List.nil_append, List.cons.injEq, h1, h2, h3, false_and, and_false] at h

/-- **C14 (within one run).** Two different (channel, parameter set) jobs of a run write to different files: the
channel number is recovered from spin and parity. -/
theorem C14_jobs_distinct_files (f : Str) (np nq jm c psi c' psi' : Int) (hne : (c, psi) ≠ (c', psi')) :
    uFile f np nq (channelJP c).1 (channelJP c).2 jm psi ≠ uFile f np nq (channelJP c').1 (channelJP c').2 jm psi' := by
  intro h
  obtain ⟨_, _, e1, e2, _, e3⟩ := C14_U_file_injective _ _ _ _ _ _ _ _ _ _ _ _ _ h
  apply hne
  unfold channelJP at e1 e2
  simp only at e1 e2
  have : c = c' := by
    split_ifs at e2 <;> omega
  rw [this, e3]

example : uFile "Out".toList 50 48 1 (-1) 3 0 = "Out/U_PW_elements_Np_50_Nq_48_JP_1_-1_Jmax_3_PSI_0.txt".toList := by decide

/-! ### C61: path length -/

/-- **C61 (false of the code).** A P123 folder whose name is long enough makes the program copy the file name past the
end of a 300-character buffer: for every folder of 272 or more characters and every file number. -/
theorem C61_long_folder_overflows (f : Str) (hf : 272 ≤ f.length) (J P np nq jm : Int) :
    strcpy300 (p123File f J P np nq jm) = none := by
  unfold strcpy300
  rw [if_neg]
  have h1 : "/".toList.length = 1 ∧ "P123_sparse_JP_".toList.length = 15 ∧ "_".toList.length = 1 ∧
    "_Np_".toList.length = 4 ∧ "_Nq_".toList.length = 4 ∧ "_J2max_".toList.length = 7 ∧ ".h5".toList.length = 3 := by decide
  obtain ⟨a, b, c, d, e, g, h⟩ := h1
  unfold p123File
  simp only [List.length_append, a, b, c, d, e, g, h]
  omega

/-- C61: exactly the names of at most 299 characters (300 with the terminating NUL) are copied, and those intact. -/
theorem C61_name_copied_exactly (s : Str) : (strcpy300 s = some s ↔ s.length ≤ 299) ∧ (strcpy300 s = none ↔ 300 ≤ s.length) := by
  unfold strcpy300
  by_cases h : s.length + 1 ≤ 300
  · rw [if_pos h]; exact ⟨by simp; omega, by simp; omega⟩
  · rw [if_neg h]; exact ⟨by simp; omega, by simp; omega⟩

example : (p123File "Output".toList 1 1 50 50 3).length ≤ 299 := by decide

/-! ### C68: Neumann terms of a parameter walk -/

/-- **C68 (false of the code).** After a walk over any list of parameter sets only the last set's Neumann terms are on
disk, and nothing else has changed: those of all earlier sets are lost. -/
theorem C68_only_last_set_kept (content : Int → Str) (folder : Str) (np nq J P jm : Int) (files : Str → Option Str)
    (psis : List Int) (last : Int) :
    let after := neumannWalk content folder np nq J P jm files (psis ++ [last])
    after (neumannFile folder np nq J P jm) = some (content last) ∧
    (∀ name, name ≠ neumannFile folder np nq J P jm → after name = files name) ∧
    (∀ psi ∈ psis, content psi ≠ content last → (∀ name, files name ≠ some (content psi)) →
      ∀ name, after name ≠ some (content psi)) := by
  have h1 : ∀ (psis : List Int) (files : Str → Option Str) name, name ≠ neumannFile folder np nq J P jm →
      neumannWalk content folder np nq J P jm files psis name = files name := by
    intro psis
    induction psis with
    | nil => intro files name _; rfl
    | cons p ps ih =>
      intro files name hn
      unfold neumannWalk
      rw [List.foldl_cons]
      have := ih (fun name => if name = neumannFile folder np nq J P jm then some (content p) else files name) name hn
      unfold neumannWalk at this
      rw [this, if_neg hn]
  have h2 : neumannWalk content folder np nq J P jm files (psis ++ [last]) (neumannFile folder np nq J P jm) =
      some (content last) := by
    unfold neumannWalk
    rw [List.foldl_append]
    simp
  refine ⟨h2, h1 _ _, ?_⟩
  intro psi _ hne hf name hc
  by_cases hn : name = neumannFile folder np nq J P jm
  · rw [hn] at hc
    rw [h2] at hc
    exact hne (Option.some.inj hc).symm
  · rw [h1 _ _ name hn] at hc
    exact hf name hc

/-- C68: a run with a single parameter set keeps its Neumann terms. -/
theorem C68_single_set (content : Int → Str) (folder : Str) (np nq J P jm : Int) (files : Str → Option Str)
    (psi : Int) : neumannWalk content folder np nq J P jm files [psi] (neumannFile folder np nq J P jm) = some (content psi) :=
  (C68_only_last_set_kept content folder np nq J P jm files [] psi).1

/-- C68: runs with other grids, truncations or channels do not touch each other's Neumann terms: equal names mean equal settings. -/
theorem C68_other_settings_apart (f : Str) (np nq J P jm np' nq' J' P' jm' : Int)
    (h : neumannFile f np nq J P jm = neumannFile f np' nq' J' P' jm') : np = np' ∧ nq = nq' ∧ J = J' ∧ P = P' ∧ jm = jm' := by
  obtain ⟨l1, l2, l3, l4, l5, l6, l7, _⟩ := lits
  unfold neumannFile fileId at h
  simp only [l1, l2, l3, l4, l5, l7, List.append_assoc, List.cons_append, List.nil_append, List.cons.injEq,
    true_and, List.append_cancel_left_eq] at h
  obtain ⟨e1, h⟩ := dec_sep_inj h
  rw [List.append_cancel_left_eq] at h
  obtain ⟨e2, h⟩ := dec_sep_inj h
  rw [List.append_cancel_left_eq] at h
  obtain ⟨e3, h⟩ := dec_sep_inj h
  obtain ⟨e4, h⟩ := dec_sep_inj h
  rw [List.append_cancel_left_eq] at h
  obtain ⟨e5, _⟩ := dec_dot_inj h
  exact ⟨e1, e2, e3, e4, e5⟩

/-! ### C24, C25: custom grids -/

/-- **C24 (false of the code).** With the p grid left at Chebyshev, `q_grid_type=custom` stops the program, whatever the
file; and with a custom p grid any unknown `q_grid_type` is accepted as custom. -/
theorem C24_custom_q_rejected (qFile qType : Str) :
    qGridSource "chebyshev".toList "custom".toList qFile = .error .raiseError ∧
    (qType ≠ "chebyshev".toList → qGridSource "custom".toList qType qFile = .ok (.file qFile)) := by
  refine ⟨?_, fun h => ?_⟩
  · unfold qGridSource
    rw [if_neg (by decide), if_neg (by decide)]
  · unfold qGridSource
    rw [if_neg h, if_pos rfl]

/-- C24: the requested grid is used when the p grid is custom too, and for Chebyshev; the p grid is always
as requested. -/
theorem C24_grid_sources (pType pFile qFile : Str) :
    qGridSource "custom".toList "custom".toList qFile = .ok (.file qFile) ∧
    qGridSource pType "chebyshev".toList qFile = .ok .chebyshev ∧
    pGridSource "custom".toList pFile = .ok (.file pFile) ∧ pGridSource "chebyshev".toList pFile = .ok .chebyshev ∧
    (pType ≠ "chebyshev".toList → pType ≠ "custom".toList → pGridSource pType pFile = .error .raiseError) := by
  refine ⟨?_, ?_, ?_, ?_, ?_⟩
  · unfold qGridSource; rw [if_neg (by decide), if_pos rfl]
  · unfold qGridSource; rw [if_pos rfl]
  · unfold pGridSource; rw [if_neg (by decide), if_pos rfl]
  · unfold pGridSource; rw [if_pos rfl]
  · intro h1 h2; unfold pGridSource; rw [if_neg h1, if_neg h2]

theorem readBoundariesLoop_spec {D : Type} (parse : Str → Option D) (n : Nat) (acc : List D) (lines : List Str)
    (hacc : acc.length ≤ n + 1) :
    readBoundariesLoop parse n acc lines =
      if (∀ l ∈ lines.take (n + 2 - acc.length), (parse l).isSome) then
        (if acc.length + lines.length = n + 1 then BoundaryEnd.ok (acc ++ lines.filterMap parse)
         else if n + 1 < acc.length + lines.length then BoundaryEnd.outOfBounds else BoundaryEnd.raiseError)
      else BoundaryEnd.raiseError := by
  induction lines generalizing acc with
  | nil =>
    unfold readBoundariesLoop
    simp only [List.take_nil, List.not_mem_nil, false_imp_iff, implies_true, if_true, List.length_nil, Nat.add_zero,
      List.filterMap_nil, List.append_nil]
    by_cases h : acc.length = n + 1
    · simp [h]
    · rw [if_pos h, if_neg h, if_neg (by omega)]
  | cons l ls ih =>
    unfold readBoundariesLoop
    have ht : (l :: ls).take (n + 2 - acc.length) = l :: ls.take (n + 1 - acc.length) := by
      have : n + 2 - acc.length = (n + 1 - acc.length) + 1 := by omega
      rw [this, List.take_succ_cons]
    rw [ht]
    cases hp : parse l with
    | none =>
      have : ¬ ∀ x ∈ l :: ls.take (n + 1 - acc.length), (parse x).isSome := by
        intro h
        have := h l (by simp)
        rw [hp] at this; simp at this
      simp only [if_neg this]
    | some v =>
      simp only
      by_cases h : acc.length < n + 1
      · rw [if_pos h, ih (acc ++ [v]) (by simp; omega)]
        have e1 : n + 2 - (acc ++ [v]).length = n + 1 - acc.length := by simp
        rw [e1]
        have e2 : (∀ x ∈ l :: ls.take (n + 1 - acc.length), (parse x).isSome) ↔
            ∀ x ∈ ls.take (n + 1 - acc.length), (parse x).isSome := by
          simp [hp]
        simp only [e2]
        have e3 : (acc ++ [v]).length + ls.length = acc.length + (l :: ls).length := by simp; omega
        rw [e3]
        simp only [List.filterMap_cons, hp, List.append_assoc, List.singleton_append]
      · rw [if_neg h]
        have hl : acc.length = n + 1 := by omega
        rw [hl, Nat.sub_self, List.take_zero]
        have : ∀ x ∈ [l], (parse x).isSome := by simp [hp]
        rw [if_pos this, if_neg (by simp), if_pos (by simp)]

/-- **C25 (false of the code).** Every boundary file whose first `N+2` lines are numbers makes the program write
outside the boundary array before the line count is checked. -/
theorem C25_long_file_overflows {D : Type} (parse : Str → Option D) (n : Nat) (lines : List Str)
    (hlen : n + 2 ≤ lines.length) (hok : ∀ l ∈ lines.take (n + 2), (parse l).isSome) :
    readBoundaries parse n lines = .outOfBounds := by
  unfold readBoundaries
  rw [readBoundariesLoop_spec parse n [] lines (by simp)]
  simp only [List.length_nil, Nat.sub_zero, Nat.zero_add]
  rw [if_pos hok, if_neg (by omega), if_pos (by omega)]

example : (∀ l ∈ ["0".toList, "1".toList, "2".toList].take 3, (stoi l).isSome) ∧
    readBoundaries stoi 1 ["0".toList, "1".toList, "2".toList] = .outOfBounds := by decide

/-- C25: a file with at most `N+1` lines never causes an out-of-bounds write; it is accepted exactly when it
has `N+1` lines, all numbers, and then the boundaries are those numbers in order. -/
theorem C25_short_file_safe {D : Type} (parse : Str → Option D) (n : Nat) (lines : List Str)
    (hlen : lines.length ≤ n + 1) :
    readBoundaries parse n lines =
      if lines.length = n + 1 ∧ ∀ l ∈ lines, (parse l).isSome then .ok (lines.filterMap parse) else .raiseError := by
  unfold readBoundaries
  rw [readBoundariesLoop_spec parse n [] lines (by simp)]
  simp only [List.length_nil, Nat.sub_zero, Nat.zero_add, List.nil_append]
  rw [List.take_of_length_le (by omega)]
  by_cases h1 : ∀ l ∈ lines, (parse l).isSome
  · rw [if_pos h1]
    by_cases h2 : lines.length = n + 1
    · rw [if_pos h2, if_pos ⟨h2, h1⟩]
    · rw [if_neg h2, if_neg (by omega), if_neg (by tauto)]
  · rw [if_neg h1, if_neg (by tauto)]

/-! ### C49: output table -/

theorem uRow_getElem {C : Type} (U : Nat → C) (nd nq q r c : Nat) (hr : r < nd) (hc : c < nd) :
    (uRow U nd nq q)[r * nd + c]? = some (U (r * nd * nq + c * nq + q)) := by
  unfold uRow
  have key : ∀ (m : Nat) (k : Nat), r < m →
      ((List.range' k m).flatMap fun r => (List.range nd).map fun c => U (r * nd * nq + c * nq + q))[r * nd + c]? =
        some (U ((k + r) * nd * nq + c * nq + q)) := by
    intro m
    induction m generalizing r with
    | zero => intro k h; omega
    | succ m ih =>
      intro k h
      rw [List.range'_succ, List.flatMap_cons]
      cases r with
      | zero =>
        rw [List.getElem?_append_left (by simp; omega)]
        simp [hc]
      | succ r =>
        rw [List.getElem?_append_right (by simp; rw [Nat.add_mul]; omega)]
        have e1 : (r + 1) * nd + c - ((List.range nd).map fun c => U (k * nd * nq + c * nq + q)).length = r * nd + c := by
          simp; rw [Nat.add_mul]; omega
        rw [e1, ih r (by omega) (k + 1) (by omega)]
        congr 3
        rw [show k + 1 + r = k + (r + 1) by omega]
  have := key nd 0 hr
  rw [Nat.zero_add] at this
  have e : List.range nd = List.range' 0 nd := List.range_eq_range'
  rw [← e] at this
  exact this

/-- **C49 (false of the code).** In every channel with two deuteron states (all J=1/2 channels, property C04) the third
element column of every row is headed `U02` but holds the element with row 1 and column 0; four of nine headed columns
exist. -/
theorem C49_two_channel_header_wrong {C : Type} (U : Nat → C) (nq q : Nat) :
    uHeaders[2]? = some (0, 2) ∧ (uRow U 2 nq q)[2]? = some (U (1 * 2 * nq + 0 * nq + q)) ∧
    uHeaders[3]? = some (1, 0) ∧ (uRow U 2 nq q)[3]? = some (U (1 * 2 * nq + 1 * nq + q)) ∧ (uRow U 2 nq q).length = 4 :=
  ⟨rfl, uRow_getElem U 2 nq q 1 0 (by omega) (by omega), rfl, uRow_getElem U 2 nq q 1 1 (by omega) (by omega), by
    simp [uRow, List.range_succ]⟩

/-- C49: with three deuteron states every column holds the element its header names; for any number of
states the row lists every element once, in row-major order of (row deuteron, column deuteron). -/
theorem C49_columns {C : Type} (U : Nat → C) (nd nq q : Nat) :
    (∀ h r c : Nat, uHeaders[h]? = some (r, c) → (uRow U 3 nq q)[h]? = some (U (r * 3 * nq + c * nq + q))) ∧
    (∀ r c, r < nd → c < nd → (uRow U nd nq q)[r * nd + c]? = some (U (r * nd * nq + c * nq + q))) ∧
    (uRow U nd nq q).length = nd * nd := by
  refine ⟨?_, fun r c hr hc => uRow_getElem U nd nq q r c hr hc, ?_⟩
  · intro h r c hh
    have hb : ∀ h, h < 9 → uHeaders[h]? = some (h / 3, h % 3) := by decide
    have h9 : h < 9 := by
      by_contra hge
      rw [List.getElem?_eq_none (by simp [uHeaders]; omega)] at hh
      cases hh
    rw [hb h h9] at hh
    cases hh
    have := uRow_getElem U 3 nq q (h / 3) (h % 3) (by omega) (by omega)
    rw [show h / 3 * 3 + h % 3 = h by omega] at this
    exact this
  · unfold uRow
    rw [List.length_flatMap]
    simp

/-! ### C50, C51, C63: parameter samples -/

theorem splitSpace_join (ts : List Str) (hne : ts ≠ []) (h : ∀ t ∈ ts, ' ' ∉ t) : splitSpace (joinSpace ts) = ts := by
  induction ts with
  | nil => exact absurd rfl hne
  | cons t ts ih =>
    cases ts with
    | nil => exact splitSpace_token t (h t (by simp))
    | cons t' ts =>
      show splitSpace (t ++ ' ' :: joinSpace (t' :: ts)) = _
      rw [splitSpace_cons _ _ (h t (by simp)), ih (by simp) (fun x hx => h x (by simp [hx]))]

/-- **C50.** For every non-empty rectangular file (rows of `m ≥ 1` numbers, each separated by one space) the parser
returns all numbers in order, `m` numbers per set and the number of rows as number of sets. -/
theorem C50_rectangular_file_read {D : Type} (stod : Str → Option D) (val : Str → D) (rows : List (List Str)) (m : Nat)
    (hm : 1 ≤ m) (hrows : rows ≠ []) (hlen : ∀ r ∈ rows, r.length = m) (hsp : ∀ r ∈ rows, ∀ t ∈ r, ' ' ∉ t)
    (hval : ∀ r ∈ rows, ∀ t ∈ r, stod t = some (val t)) :
    readSamples stod (rows.map joinSpace) = .ok ((rows.map (List.map val)).flatten, m, rows.length) := by
  have h1 : (rows.map joinSpace).mapM (fun l => (splitSpace l).mapM stod) = some (rows.map (List.map val)) := by
    clear hrows
    induction rows with
    | nil => rfl
    | cons r rows ih =>
      rw [List.map_cons, List.mapM_cons, splitSpace_join r (by
        intro e; have := hlen r (by simp); rw [e] at this; simp at this; omega) (hsp r (by simp)),
        mapM_some_of_forall stod val r (hval r (by simp)),
        ih (fun r hr => hlen r (by simp [hr])) (fun r hr => hsp r (by simp [hr])) (fun r hr => hval r (by simp [hr]))]
      rfl
  unfold readSamples
  rw [h1]
  cases rows with
  | nil => exact absurd rfl hrows
  | cons r rows =>
    simp only [List.map_cons]
    have hl : ((r.map val :: rows.map (List.map val)).flatten).length = (rows.length + 1) * m := by
      have : ∀ rs : List (List Str), (∀ r ∈ rs, r.length = m) →
          ((rs.map (List.map val)).flatten).length = rs.length * m := by
        intro rs
        induction rs with
        | nil => simp
        | cons a rs ih =>
          intro h
          rw [List.map_cons, List.flatten_cons, List.length_append, ih (fun r hr => h r (by simp [hr])), List.length_map,
            h a (by simp), List.length_cons, Nat.add_mul]
          omega
      exact this (r :: rows) hlen
    rw [hl, List.length_map, hlen r (by simp), Nat.mul_div_cancel _ (by omega)]
    rfl

example : readSamples stoi ["1 2".toList, "3 4".toList, "5 6".toList] = .ok ([1, 2, 3, 4, 5, 6], 2, 3) := by decide

/-- **C63 (false of the code).** A missing, unreadable or empty parameter file (in particular the default name "none")
is not reported: the program divides by zero. -/
theorem C63_missing_parameter_file_crashes {D : Type} (stod : Str → Option D) :
    readSamples stod [] = .error .divByZero := rfl

/-- C63: any file with at least one line either is read or throws on a malformed number. -/
theorem C63_nonempty_file {D : Type} (stod : Str → Option D) (l : Str) (ls : List Str) :
    readSamples stod (l :: ls) ≠ .error .divByZero := by
  intro h
  unfold readSamples at h
  rw [List.mapM_cons] at h
  cases h1 : (splitSpace l).mapM stod with
  | none => rw [h1] at h; cases h
  | some a =>
    cases h2 : ls.mapM (fun l => (splitSpace l).mapM stod) with
    | none => rw [h1, h2] at h; cases h
    | some b => rw [h1, h2] at h; cases h

/-- **C51 (false of the code).** For every file there are ranges accepted by the check whose parameter sets lie outside
the file: here the range right behind the file. -/
theorem C51_range_outside_file (numInFile numModelParams : Nat) (hf : 1 ≤ numInFile) (hm : 1 ≤ numModelParams) :
    psiCheck true numInFile (2 * numInFile) numInFile = true ∧
    (numInFile : Int) ∈ psiRange ⟨false, -1, true, true, true, numInFile, 2 * numInFile⟩ ∧
    ∃ i ∈ psiReads numInFile numModelParams, ¬ i < (numInFile * numModelParams : Nat) := by
  refine ⟨?_, ?_, ?_⟩
  · unfold psiCheck; simp; omega
  · unfold psiRange; rw [mem_forRange_one]; simp; omega
  · refine ⟨(numInFile : Int) * numModelParams, ?_, ?_⟩
    · unfold psiReads
      rw [List.mem_map]
      exact ⟨0, by simp; omega, by simp⟩
    · simp

/-- C51: if the range starts at a non-negative index and ends within the file, every read is inside the
vector; with `PSI_start = 0` the check guarantees this. -/
theorem C51_range (cfg : DriverCfg) (hw : cfg.parameterWalk = true) (numInFile numModelParams : Nat)
    (hrange : (cfg.psiStart = 0 ∧ psiCheck true cfg.psiStart cfg.psiEnd numInFile = true) ∨
      (0 ≤ cfg.psiStart ∧ cfg.psiEnd ≤ numInFile)) :
    ∀ psi ∈ psiRange cfg, ∀ i ∈ psiReads psi numModelParams, 0 ≤ i ∧ i < (numInFile * numModelParams : Nat) := by
  intro psi hpsi i hi
  unfold psiRange at hpsi
  rw [mem_forRange_one] at hpsi
  simp only [hw, if_true] at hpsi
  have hb : 0 ≤ psi ∧ psi < numInFile := by
    rcases hrange with ⟨h0, hc⟩ | h
    · unfold psiCheck at hc
      simp at hc
      omega
    · omega
  unfold psiReads at hi
  obtain ⟨k, hk, rfl⟩ := List.mem_map.1 hi
  rw [List.mem_range] at hk
  obtain ⟨n, rfl⟩ : ∃ n : Nat, psi = n := ⟨psi.toNat, by omega⟩
  have : n < numInFile := by omega
  have h2 := radix_lt this hk
  constructor
  · positivity
  · exact_mod_cast h2

example : (0 : Int) ≤ 3 ∧ (5 : Int) ≤ ((7 : Nat) : Int) := by decide

/-! ### C52: breakup output array -/

/-- **C52 (false of the code).** With more deuteron states than energies (e.g. one or two on-shell energies in a channel
with J ≥ 3/2) and at least one breakup channel, breakup amplitudes are written outside the array. -/
theorem C52_breakup_write_out_of_range (nd numT numBU : Nat) (offs : List Nat) (hnd : numT < nd)
    (hoffs : ∃ s e, (s, e) ∈ offs.zip offs.tail ∧ s < e ∧ e ≤ numBU) :
    ∃ i ∈ buWrites offs nd numBU, ¬ i < buAlloc numT numBU := by
  obtain ⟨s, e, hse, hlt, hle⟩ := hoffs
  refine ⟨(nd - 1) * numBU + s, ?_, ?_⟩
  · unfold buWrites
    simp only [List.mem_flatMap, List.mem_map, List.mem_range, List.mem_range'_1]
    exact ⟨(s, e), hse, nd - 1, by omega, s, by omega, rfl⟩
  · unfold buAlloc
    have : numT * numBU ≤ (nd - 1) * numBU := Nat.mul_le_mul_right _ (by omega)
    omega

example : ∃ s e, (s, e) ∈ [0, 4, 9].zip [0, 4, 9].tail ∧ s < e ∧ e ≤ 9 := ⟨0, 4, by decide⟩

/-- C52: with at most as many deuteron states as energies every write is inside. -/
theorem C52_breakup_write (nd numT numBU : Nat) (offs : List Nat) (hnd : nd ≤ numT)
    (hoffs : ∀ s e, (s, e) ∈ offs.zip offs.tail → e ≤ numBU) :
    ∀ i ∈ buWrites offs nd numBU, i < buAlloc numT numBU := by
  intro i hi
  unfold buWrites at hi
  simp only [List.mem_flatMap, List.mem_map, List.mem_range, List.mem_range'_1] at hi
  obtain ⟨⟨s, e⟩, hse, d, hd, b, hb, rfl⟩ := hi
  have := hoffs s e hse
  exact radix_lt (by omega) (by simp only at hb; omega)

/-! ### C62: energy file -/

/-- **C62 (false of the code).** `energy_input_file` can never be set usefully on the command line: a value ending in
`.txt` is not assigned (it is taken for an input list), and with any other value the energies are not read — the
program stops instead, although the help text documents `energy_input_file=Tlabs` to read `Tlabs.txt`. -/
theorem C62_energy_file_not_settable {D : Type} (stod : Str → Option D) (files : Str → List Str) (argc : Nat)
    (p q : RunParams D) (v : Str) (hv : v ≠ []) (ex : Bool) (tokens : List Str)
    (hfile : files ("energy_input_file=".toList ++ v) = [])
    (h : handleArg stod files argc p ("energy_input_file=".toList ++ v) = .ok q) :
    (".txt".toList <:+ v → q.str .energy_input_file = p.str .energy_input_file) ∧
    (¬ ".txt".toList <:+ v → q.str .energy_input_file = v ∧
      ∀ es, readEnergies stod ex tokens (q.str .energy_input_file) ≠ .ok es) := by
  have hname : "energy_input_file=".toList = (Key.str .energy_input_file).name ++ ['='] := by decide
  constructor
  · rintro ⟨w, rfl⟩
    rw [hname, List.append_assoc, List.singleton_append] at h hfile
    set a := (Key.str .energy_input_file).name ++ '=' :: (w ++ ".txt".toList) with ha
    have hlen : ¬ a.length < 4 := by rw [ha]; simp; omega
    have hsuf : ".txt".toList <:+ a := ⟨(Key.str .energy_input_file).name ++ '=' :: w, by rw [ha]; simp⟩
    have hh : ¬ (a = "-h".toList ∨ a = "--help".toList) := by
      rintro (h | h)
      · rw [h] at hsuf; revert hsuf; decide
      · rw [h] at hsuf; revert hsuf; decide
    unfold handleArg at h
    rw [if_neg hh, if_neg hlen, if_pos ((txt_suffix_iff hlen).2 hsuf)] at h
    unfold useInputList at h
    rw [hfile] at h
    cases h; rfl
  · intro hn
    rw [hname, List.append_assoc, List.singleton_append] at h
    set a := (Key.str .energy_input_file).name ++ '=' :: v with ha
    have hmem : '=' ∈ a := by rw [ha]; simp
    have hlen : ¬ a.length < 4 := by
      rw [ha]
      have : (Key.str .energy_input_file).name.length = 17 := by decide
      rw [List.length_append, this]; omega
    have hh : ¬ (a = "-h".toList ∨ a = "--help".toList) := by
      rintro (h | h) <;> (rw [h] at hmem; revert hmem; decide)
    have hnosuf : ¬ ".txt".toList <:+ a := by
      intro hs
      rcases Nat.lt_or_ge v.length 4 with hlt | hge
      · have h1 : '=' :: v <:+ a := ⟨(Key.str .energy_input_file).name, ha.symm⟩
        have h3 : '=' :: v <:+ ".txt".toList := List.suffix_of_suffix_length_le h1 hs (by simp; omega)
        have : '=' ∈ ".txt".toList := h3.subset (by simp)
        revert this; decide
      · refine hn (List.suffix_of_suffix_length_le hs ⟨(Key.str .energy_input_file).name ++ ['='], ?_⟩ (by simpa using hge))
        rw [ha]; simp
    have hsplit : splitEq a = some ((Key.str .energy_input_file).name, v) := by
      rw [ha]; rfl
    unfold handleArg at h
    rw [if_neg hh, if_neg hlen, if_neg (fun h => hnosuf ((txt_suffix_iff hlen).1 h)), hsplit] at h
    simp only [if_neg hv] at h
    rw [readAndSet_eq, keyOf_name] at h
    simp only [assignKey, assignStr] at h
    cases h
    have hq : (p.setStr .energy_input_file v).str .energy_input_file = v := by simp [RunParams.setStr]
    refine ⟨hq, ?_⟩
    rw [hq]
    intro es he
    unfold readEnergies at he
    by_cases h4 : v.length < 4
    · rw [if_pos h4] at he; cases he
    · rw [if_neg h4, if_pos (fun e => hn ((txt_suffix_iff h4).1 e))] at he
      cases he

/-- C62: set in a line of an input file, every value ending in `.txt` (without white space) is taken, and the energies are then
the numbers of that file if it exists. -/
theorem C62_energy_file_in_list {D : Type} (stod : Str → Option D) (p : RunParams D) (v : Str) (hv : ".txt".toList <:+ v)
    (hs : ∀ c ∈ v, isSpaceC c = false) (tokens : List Str) :
    ∃ q, fileLine stod p ("energy_input_file=".toList ++ v) = .ok q ∧ q.str .energy_input_file = v ∧
      readEnergies stod true tokens (q.str .energy_input_file) = .ok (readDoubles stod tokens) ∧
      readEnergies stod false tokens (q.str .energy_input_file) = .error .raiseError := by
  have hname : "energy_input_file=".toList = (Key.str .energy_input_file).name ++ ['='] := by decide
  have hsplit : splitEq ("energy_input_file=".toList ++ v) = some ((Key.str .energy_input_file).name, v) := by
    rw [hname, List.append_assoc, List.singleton_append]; rfl
  have hfil : v.filter (fun c => !isSpaceC c) = v := by
    rw [List.filter_eq_self]; intro c hc; simp [hs c hc]
  have h4 : ¬ v.length < 4 := by
    have h := hv.length_le
    have h1 : ".txt".toList.length = 4 := by decide
    omega
  have hall : ¬ (v.all (· == ' ')) = true := by
    rw [List.all_eq_true]
    intro h
    have hm : '.' ∈ v := hv.subset (by decide)
    exact absurd (h _ hm) (by decide)
  refine ⟨p.setStr .energy_input_file v, ?_, by simp [RunParams.setStr], ?_, ?_⟩
  · unfold fileLine
    rw [hsplit]
    simp only
    rw [if_neg hall, hfil, readAndSet_eq, keyOf_name]
    rfl
  all_goals
    rw [show (p.setStr .energy_input_file v).str .energy_input_file = v by simp [RunParams.setStr]]
    unfold readEnergies
    rw [if_neg h4, if_neg (fun e => e ((txt_suffix_iff h4).2 hv))]
    rfl

example {D : Type} (stod : Str → Option D) (p : RunParams D) : ∃ q, fileLine stod p "energy_input_file=Input/lab_energies.txt".toList = .ok q ∧
    q.str .energy_input_file = "Input/lab_energies.txt".toList := by
  obtain ⟨q, h1, h2, -⟩ := C62_energy_file_in_list stod p "Input/lab_energies.txt".toList ⟨"Input/lab_energies".toList, by decide⟩ (by decide) []
  exact ⟨q, h1, h2⟩

end TicTac
