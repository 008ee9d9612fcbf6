import Verif.Model.Walk
import Verif.Props.Main
import Verif.Props.ChpColumns
import Verif.Props.LOPot
/-! C96-C98: parameter walks and the constants a run uses. -/
noncomputable section
namespace TicTac
open Spec

/-- A solve, as opposed to a permutation matrix. -/
def isSolve : Work → Bool
  | .solve _ _ => true
  | _ => false

theorem update_kind {o o' : PotObj} {data : List ℝ} {s : Int} (h : updatePot o data s = some o') : o'.kind = o.kind := by
  unfold updatePot at h
  split at h
  · obtain ⟨l, _, rfl⟩ := Option.map_eq_some_iff.1 h; rfl
  · cases h; rfl

/-- What the update gives does not depend on what was set before. -/
theorem update_forget (env : PotEnv) (k : PotKind) (p q : Nat → ℝ) (data : List ℝ) (s : Int) :
    (updatePot ⟨k, p⟩ data s).map (potOf env) = (updatePot ⟨k, q⟩ data s).map (potOf env) := by
  unfold updatePot
  cases k <;> rfl

theorem trace_spec (env : PotEnv) (data : List ℝ) (n : Nat) (k : PotKind) (ws : List Work) (p : Nat → ℝ)
    (h : ∀ chn psi, Work.solve chn psi ∈ ws → ∃ o', updatePot ⟨k, fun _ => 0⟩ data (psi * n) = some o') :
    ∃ tr, potTrace env true data n ⟨k, p⟩ ws = some tr ∧ tr.map (·.1) = ws.filter isSolve ∧
      ∀ chn psi V, (Work.solve chn psi, V) ∈ tr → ∃ o', updatePot ⟨k, fun _ => 0⟩ data (psi * n) = some o' ∧ V = potOf env o' := by
  induction ws generalizing p with
  | nil => exact ⟨[], rfl, rfl, by simp⟩
  | cons w ws ih =>
    cases w with
    | p123 c =>
      obtain ⟨tr, h1, h2, h3⟩ := ih p fun chn psi hm => h chn psi (List.mem_cons_of_mem _ hm)
      exact ⟨tr, h1, by rw [h2]; rfl, h3⟩
    | solve c s =>
      obtain ⟨o0, ho0⟩ := h c s (List.mem_cons_self ..)
      have hf := update_forget env k p (fun _ => 0) data (s * n)
      rw [ho0] at hf
      obtain ⟨o1, ho1, hV⟩ := Option.map_eq_some_iff.1 hf
      have hk : o1 = ⟨k, o1.par⟩ := by have := update_kind ho1; cases o1; simp at this; simp [this]
      obtain ⟨tr, h1, h2, h3⟩ := ih o1.par fun chn psi hm => h chn psi (List.mem_cons_of_mem _ hm)
      rw [← hk] at h1
      refine ⟨(.solve c s, potOf env o1) :: tr, ?_, ?_, ?_⟩
      · simp [potTrace, ho1, h1]
      · rw [List.map_cons, h2]; rfl
      · intro chn psi V hm
        rcases List.mem_cons.1 hm with e | hm
        · cases e
          exact ⟨o0, ho0, hV⟩
        · exact h3 chn psi V hm

theorem trace_plain (env : PotEnv) (data : List ℝ) (n : Nat) (o : PotObj) (ws : List Work) :
    ∃ tr, potTrace env false data n o ws = some tr ∧ tr.map (·.1) = ws.filter isSolve ∧ ∀ w V, (w, V) ∈ tr → V = potOf env o := by
  induction ws with
  | nil => exact ⟨[], rfl, rfl, by simp⟩
  | cons w ws ih =>
    obtain ⟨tr, h1, h2, h3⟩ := ih
    cases w with
    | p123 c => exact ⟨tr, h1, by rw [h2]; rfl, h3⟩
    | solve c s =>
      refine ⟨(.solve c s, potOf env o) :: tr, by simp [potTrace, h1], by rw [List.map_cons, h2]; rfl, ?_⟩
      intro w V hm
      rcases List.mem_cons.1 hm with e | hm
      · cases e; rfl
      · exact h3 w V hm

theorem work_psi {cfg : DriverCfg} {nChn : Nat} {ws : List Work} (hw : cfg.parameterWalk = true) (h : mainWork cfg nChn = some ws) {chn psi : Int}
    (hm : Work.solve chn psi ∈ ws) : cfg.psiStart ≤ psi ∧ psi < cfg.psiEnd := by
  unfold mainWork at h
  split_ifs at h
  cases h
  obtain ⟨c, _, hc⟩ := List.mem_flatMap.1 hm
  unfold channelWork at hc
  split_ifs at hc <;> simp only [List.mem_cons, List.mem_map, reduceCtorEq, false_or, List.not_mem_nil] at hc
  obtain ⟨s, hs, e⟩ := hc
  cases e
  unfold psiRange at hs
  rw [mem_forRange_one] at hs
  simp only [hw, if_true] at hs
  omega

theorem mapM_range_some {α : Type} (f : Nat → Option α) (g : Nat → α) (n : Nat) (h : ∀ i < n, f i = some (g i)) : (List.range n).mapM f = some ((List.range n).map g) := by
  apply mapM_some_of_forall
  intro i hi
  exact h i (List.mem_range.1 hi)

theorem flatten_get {α : Type} (rows : List (List α)) (n : Nat) (hlen : ∀ r ∈ rows, r.length = n) (k i : Nat) (hi : i < n) :
    rows.flatten[k * n + i]? = rows[k]?.bind (·[i]?) := by
  induction rows generalizing k with
  | nil => simp
  | cons r rows ih =>
    have hr : r.length = n := hlen r (by simp)
    rw [List.flatten_cons]
    cases k with
    | zero => simp only [Nat.zero_mul, Nat.zero_add, List.getElem?_cons_zero, Option.bind_some]; rw [List.getElem?_append_left (by omega)]
    | succ k =>
      rw [List.getElem?_append_right (by rw [hr]; nlinarith), hr, show (k + 1) * n + i - n = k * n + i by rw [Nat.add_mul]; omega, List.getElem?_cons_succ]
      exact ih (fun r h => hlen r (by simp [h])) k

/-- The update with a block of the data. -/
theorem update_block (m : ChiralModel) (p : Nat → ℝ) (rows : List (List ℝ)) (n : Nat) (hlen : ∀ r ∈ rows, r.length = n) (hn : m.columns ≤ n) (psi : Int) (h0 : 0 ≤ psi)
    (row : List ℝ) (hrow : rows[psi.toNat]? = some row) :
    updatePot ⟨.chiral m, p⟩ rows.flatten (psi * n) = some ⟨.chiral m, fun i => (row.take m.columns).getD i 0⟩ := by
  obtain ⟨s, rfl⟩ : ∃ s : Nat, psi = s := ⟨psi.toNat, by omega⟩
  rw [Int.toNat_natCast] at hrow
  have hr : row.length = n := hlen row (List.mem_of_getElem? hrow)
  unfold updatePot
  simp only
  rw [mapM_range_some _ (fun i => row.getD i 0)]
  · rw [Option.map_some]
    congr 2
    funext i
    rw [List.getD_eq_getElem?_getD, List.getD_eq_getElem?_getD, List.getElem?_map, List.getElem?_take]
    by_cases hi : i < m.columns
    · rw [List.getElem?_range hi, if_pos hi]; simp [List.getD_eq_getElem?_getD]
    · rw [List.getElem?_eq_none (by simpa using hi), if_neg hi]; rfl
  · intro i hi
    have e : (s : Int) * n + i = ((s * n + i : Nat) : Int) := by push_cast; ring
    rw [if_neg (by rw [e]; omega), e, Int.toNat_natCast, flatten_get rows n hlen s i (by omega), hrow, Option.bind_some,
      List.getElem?_eq_getElem (by omega), List.getD_eq_getElem?_getD, List.getElem?_eq_getElem (by omega)]
    rfl

theorem preset_take (m : ChiralModel) (a b : Nat → ℝ) (h : ∀ i < m.columns, a i = b i) : preset m a = preset m b := by
  have key : ∀ k0, k0 + 7 ≤ m.columns → nloTable a k0 = nloTable b k0 := by
    intro k0 hk
    funext i
    unfold nloTable
    split_ifs with hi
    · rw [h _ (by omega)]
    · rfl
  have hd : m = .idaho → (fun i => if 1 ≤ i ∧ i ≤ 15 then a (10 + i) * 1e-14 else (0 : ℝ)) = fun i => if 1 ≤ i ∧ i ≤ 15 then b (10 + i) * 1e-14 else 0 := by
    rintro rfl
    funext i
    split_ifs with hi
    · rw [h (10 + i) (show 10 + i < 35 by omega)]
    · rfl
  cases m
  all_goals simp only [ChiralModel.columns] at h key
  · simp only [preset, presetLO, h 0 (by norm_num), h 1 (by norm_num)]
  · simp only [preset, presetNLO, h 0 (by norm_num), h 1 (by norm_num), h 2 (by norm_num), h 3 (by norm_num), key 4 (by norm_num)]
  · simp only [preset, presetN2LO, h 0 (by norm_num), h 1 (by norm_num), h 2 (by norm_num), h 3 (by norm_num), h 4 (by norm_num), h 5 (by norm_num), h 6 (by norm_num), key 7 (by norm_num)]
  · simp only [preset, presetN3LO, h 0 (by norm_num), h 1 (by norm_num), h 2 (by norm_num), h 3 (by norm_num), h 4 (by norm_num), h 5 (by norm_num), h 6 (by norm_num),
      h 7 (by norm_num), h 8 (by norm_num), h 9 (by norm_num), h 10 (by norm_num), h 11 (by norm_num), h 12 (by norm_num), h 13 (by norm_num), h 14 (by norm_num),
      h 15 (by norm_num), h 16 (by norm_num), h 17 (by norm_num), h 18 (by norm_num), h 19 (by norm_num), h 20 (by norm_num), h 21 (by norm_num), h 22 (by norm_num),
      h 23 (by norm_num), h 24 (by norm_num), h 25 (by norm_num), h 26 (by norm_num), h 27 (by norm_num), h 28 (by norm_num), h 29 (by norm_num), h 30 (by norm_num)]
  · simp only [preset, presetN2LOopt, h 0 (by norm_num), h 1 (by norm_num), h 2 (by norm_num), h 3 (by norm_num), h 11 (by norm_num), h 12 (by norm_num), h 13 (by norm_num),
      h 14 (by norm_num), key 4 (by norm_num)]
  · simp only [preset, presetIdaho, h 0 (by norm_num), h 1 (by norm_num), h 2 (by norm_num), h 3 (by norm_num), h 26 (by norm_num), h 27 (by norm_num), h 28 (by norm_num),
      h 29 (by norm_num), h 30 (by norm_num), h 31 (by norm_num), h 32 (by norm_num), h 33 (by norm_num), h 34 (by norm_num), key 4 (by norm_num), hd rfl]

/-- The name of each chiral model in the input. -/
def chiralName : ChiralModel → Str
  | .isLO => "IS_LO".toList
  | .isNLO => "IS_NLO".toList
  | .isN2LO => "IS_N2LO".toList
  | .isN3LO => "IS_N3LO".toList
  | .n2loopt => "N2LOopt".toList
  | .idaho => "Idaho_N3LO".toList

theorem potKind_chiral (m : ChiralModel) : potKind (chiralName m) = some (.chiral m) := by cases m <;> decide

theorem fetch_kind (fresh : Nat → ℝ) (k : PotKind) : ∃ p, fetchPot fresh k = ⟨k, p⟩ := by
  unfold fetchPot
  split <;> exact ⟨_, rfl⟩

/-- A walk whose updates all succeed. -/
theorem walk_runs (env : PotEnv) (fresh : Nat → ℝ) (name : Str) (k : PotKind) (hk : potKind name = some k) (stod : Str → Option ℝ) (lines : List Str) (cfg : DriverCfg)
    (nChn : Nat) (ws : List Work) (hws : mainWork cfg nChn = some ws) (hwalk : cfg.parameterWalk = true) (data : List ℝ) (n sets : Nat)
    (hread : readSamples stod lines = .ok (data, n, sets)) (hsets : cfg.psiEnd - cfg.psiStart ≤ sets)
    (hup : ∀ chn psi, Work.solve chn psi ∈ ws → ∃ o', updatePot ⟨k, fun _ => 0⟩ data (psi * n) = some o') :
    ∃ tr, runPotentials env fresh name stod lines cfg nChn = some tr ∧ tr.map (·.1) = ws.filter isSolve ∧
      ∀ chn psi V, (Work.solve chn psi, V) ∈ tr → ∃ o', updatePot ⟨k, fun _ => 0⟩ data (psi * n) = some o' ∧ V = potOf env o' := by
  obtain ⟨p, hp⟩ := fetch_kind fresh k
  obtain ⟨tr, h1, h2, h3⟩ := trace_spec env data n k ws p hup
  refine ⟨tr, ?_, h2, h3⟩
  unfold runPotentials
  have hc : psiCheck true cfg.psiStart cfg.psiEnd sets = true := by unfold psiCheck; simp; omega
  rw [hk, Option.bind_some, hwalk, if_pos rfl, hread]
  simp only [hc, if_true, Option.bind_some, hws, hp, h1]

/-- **C96.** A parameter walk with a chiral model over a file whose lines have exactly the model's number of columns: every solve of the run, in every channel and in
the order of the run, uses the force whose constants are the numbers of the line of that parameter set - whatever the channel, the range of the walk, the sets done
before and the memory the program started with. -/
theorem C96_walk_uses_line (env : PotEnv) (hr : ∀ xw ∈ env.rule, |xw.1| ≤ 1) (fresh : Nat → ℝ) (m : ChiralModel) (stod : Str → Option ℝ) (val : Str → ℝ)
    (rows : List (List Str)) (hrows : rows ≠ []) (hlen : ∀ r ∈ rows, r.length = m.columns) (hsp : ∀ r ∈ rows, ∀ t ∈ r, ' ' ∉ t)
    (hval : ∀ r ∈ rows, ∀ t ∈ r, stod t = some (val t)) (cfg : DriverCfg) (hwalk : cfg.parameterWalk = true) (h0 : 0 ≤ cfg.psiStart) (hend : cfg.psiEnd ≤ rows.length)
    (nChn : Nat) (ws : List Work) (hws : mainWork cfg nChn = some ws) :
    ∃ tr, runPotentials env fresh (chiralName m) stod (rows.map joinSpace) cfg nChn = some tr ∧ tr.map (·.1) = ws.filter isSolve ∧
      ∀ chn psi V, (Work.solve chn psi, V) ∈ tr → ∃ row, rows[psi.toNat]? = some row ∧
        (∀ qi qo S J Lo Li T Tz, Waves S J Lo Li T → |Tz| ≤ T → J ≤ 38 →
          phase Lo Li * V qi qo (decide (Lo ≠ J)) S J T Tz (component S Lo Li J) =
            cutElement env.rule env.prof m (fun i => (row.map val).getD i 0) S J Lo Li T Tz qo qi) := by
  have hm : 1 ≤ m.columns := by cases m <;> decide
  have hread := C50_rectangular_file_read stod val rows m.columns hm hrows hlen hsp hval
  have hlen' : ∀ r ∈ rows.map (List.map val), r.length = m.columns := by
    intro r h
    obtain ⟨r', h', rfl⟩ := List.mem_map.1 h
    rw [List.length_map]; exact hlen r' h'
  have hrow : ∀ chn psi, Work.solve chn psi ∈ ws → ∃ row, rows[psi.toNat]? = some row ∧
      updatePot ⟨.chiral m, fun _ => 0⟩ (rows.map (List.map val)).flatten (psi * m.columns) = some ⟨.chiral m, fun i => ((row.map val).take m.columns).getD i 0⟩ := by
    intro chn psi hmem
    obtain ⟨a, b⟩ := work_psi hwalk hws hmem
    have hp : psi.toNat < rows.length := by omega
    refine ⟨rows[psi.toNat], List.getElem?_eq_getElem hp, ?_⟩
    exact update_block m _ _ _ hlen' le_rfl psi (by omega) _ (by rw [List.getElem?_map, List.getElem?_eq_getElem hp]; rfl)
  obtain ⟨tr, h1, h2, h3⟩ := walk_runs env fresh (chiralName m) (.chiral m) (potKind_chiral m) stod _ cfg nChn ws hws hwalk _ _ _ hread (by omega)
    fun chn psi hmem => by obtain ⟨row, _, h⟩ := hrow chn psi hmem; exact ⟨_, h⟩
  refine ⟨tr, h1, h2, ?_⟩
  intro chn psi V hV
  have hmem : Work.solve chn psi ∈ ws := by
    have : Work.solve chn psi ∈ tr.map (·.1) := List.mem_map_of_mem hV
    rw [h2] at this
    exact (List.mem_filter.1 this).1
  obtain ⟨row, e1, e2⟩ := hrow chn psi hmem
  obtain ⟨o', e3, e4⟩ := h3 chn psi V hV
  rw [e2] at e3
  cases e3
  refine ⟨row, e1, ?_⟩
  intro qi qo S J Lo Li T Tz hw hz hJ
  rw [e4]
  have ht : (row.map val).take m.columns = row.map val := List.take_of_length_le (by
    rw [List.length_map, hlen row (List.mem_of_getElem? e1)])
  rw [ht]
  exact chiral_value m _ env.rule hr env.prof qi qo S J Lo Li T Tz hw hz hJ

/-- **C96 (extra columns).** More columns than the model has are accepted, and the extra ones ignored. -/
theorem C96_extra_columns (env : PotEnv) (fresh : Nat → ℝ) (m : ChiralModel) (stod : Str → Option ℝ) (val : Str → ℝ) (n : Nat) (hn : m.columns ≤ n)
    (rows : List (List Str)) (hrows : rows ≠ []) (hlen : ∀ r ∈ rows, r.length = n) (hsp : ∀ r ∈ rows, ∀ t ∈ r, ' ' ∉ t)
    (hval : ∀ r ∈ rows, ∀ t ∈ r, stod t = some (val t)) (cfg : DriverCfg) (hwalk : cfg.parameterWalk = true) (h0 : 0 ≤ cfg.psiStart) (hend : cfg.psiEnd ≤ rows.length)
    (nChn : Nat) (ws : List Work) (hws : mainWork cfg nChn = some ws) :
    ∃ tr, runPotentials env fresh (chiralName m) stod (rows.map joinSpace) cfg nChn = some tr ∧ tr.map (·.1) = ws.filter isSolve ∧
      ∀ chn psi V, (Work.solve chn psi, V) ∈ tr → ∃ row, rows[psi.toNat]? = some row ∧ V = chiralModel env.rule env.prof (preset m fun i => (row.map val).getD i 0) := by
  have hm : 1 ≤ m.columns := by cases m <;> decide
  have hread := C50_rectangular_file_read stod val rows n (by omega) hrows hlen hsp hval
  have hlen' : ∀ r ∈ rows.map (List.map val), r.length = n := by
    intro r h
    obtain ⟨r', h', rfl⟩ := List.mem_map.1 h
    rw [List.length_map]; exact hlen r' h'
  have hrow : ∀ chn psi, Work.solve chn psi ∈ ws → ∃ row, rows[psi.toNat]? = some row ∧
      updatePot ⟨.chiral m, fun _ => 0⟩ (rows.map (List.map val)).flatten (psi * n) = some ⟨.chiral m, fun i => ((row.map val).take m.columns).getD i 0⟩ := by
    intro chn psi hmem
    obtain ⟨a, b⟩ := work_psi hwalk hws hmem
    have hp : psi.toNat < rows.length := by omega
    refine ⟨rows[psi.toNat], List.getElem?_eq_getElem hp, ?_⟩
    exact update_block m _ _ _ hlen' hn psi (by omega) _ (by rw [List.getElem?_map, List.getElem?_eq_getElem hp]; rfl)
  obtain ⟨tr, h1, h2, h3⟩ := walk_runs env fresh (chiralName m) (.chiral m) (potKind_chiral m) stod _ cfg nChn ws hws hwalk _ _ _ hread (by omega)
    fun chn psi hmem => by obtain ⟨row, _, h⟩ := hrow chn psi hmem; exact ⟨_, h⟩
  refine ⟨tr, h1, h2, ?_⟩
  intro chn psi V hV
  have hmem : Work.solve chn psi ∈ ws := by
    have : Work.solve chn psi ∈ tr.map (·.1) := List.mem_map_of_mem hV
    rw [h2] at this
    exact (List.mem_filter.1 this).1
  obtain ⟨row, e1, e2⟩ := hrow chn psi hmem
  obtain ⟨o', e3, e4⟩ := h3 chn psi V hV
  rw [e2] at e3
  cases e3
  refine ⟨row, e1, ?_⟩
  rw [e4]
  unfold potOf chiralModel
  simp only
  rw [preset_take m (fun i => ((row.map val).take m.columns).getD i 0) (fun i => (row.map val).getD i 0)]
  intro i hi
  simp only [List.getD_eq_getElem?_getD, List.getElem?_take, if_pos hi]

/-- One number of the flattened file. -/
theorem flatten_get' {α : Type} (rows : List (List α)) (n : Nat) (hn : 1 ≤ n) (hlen : ∀ r ∈ rows, r.length = n) (j : Nat) : rows.flatten[j]? = rows[j / n]?.bind (·[j % n]?) := by
  rw [← flatten_get rows n hlen (j / n) (j % n) (Nat.mod_lt _ hn), Nat.div_add_mod']

theorem flatten_length {α : Type} (rows : List (List α)) (n : Nat) (hlen : ∀ r ∈ rows, r.length = n) : rows.flatten.length = rows.length * n := by
  induction rows with
  | nil => simp
  | cons r rows ih =>
    rw [List.flatten_cons, List.length_append, ih fun r h => hlen r (by simp [h]), hlen r (by simp), List.length_cons]; ring

/-- **C96 (missing columns).** Fewer columns are accepted too: constant `i` of set `psi` is then taken from later lines of the file. -/
theorem C96_missing_columns (env : PotEnv) (fresh : Nat → ℝ) (m : ChiralModel) (stod : Str → Option ℝ) (val : Str → ℝ) (n : Nat) (h1 : 1 ≤ n) (hn : n < m.columns)
    (rows : List (List Str)) (hrows : rows ≠ []) (hlen : ∀ r ∈ rows, r.length = n) (hsp : ∀ r ∈ rows, ∀ t ∈ r, ' ' ∉ t)
    (hval : ∀ r ∈ rows, ∀ t ∈ r, stod t = some (val t)) (cfg : DriverCfg) (hwalk : cfg.parameterWalk = true) (h0 : 0 ≤ cfg.psiStart)
    (hend : (cfg.psiEnd - 1) * n + m.columns ≤ rows.length * n) (nChn : Nat) (ws : List Work) (hws : mainWork cfg nChn = some ws) :
    ∃ tr, runPotentials env fresh (chiralName m) stod (rows.map joinSpace) cfg nChn = some tr ∧ tr.map (·.1) = ws.filter isSolve ∧
      ∀ chn psi V, (Work.solve chn psi, V) ∈ tr →
        V = chiralModel env.rule env.prof (preset m fun i => ((((rows.map (List.map val))[psi.toNat + i / n]?).getD []).getD (i % n) 0)) := by
  have hread := C50_rectangular_file_read stod val rows n h1 hrows hlen hsp hval
  have hlen' : ∀ r ∈ rows.map (List.map val), r.length = n := by
    intro r h
    obtain ⟨r', h', rfl⟩ := List.mem_map.1 h
    rw [List.length_map]; exact hlen r' h'
  have hfl := flatten_length _ n hlen'
  rw [List.length_map] at hfl
  have hrow : ∀ chn psi, Work.solve chn psi ∈ ws →
      updatePot ⟨.chiral m, fun _ => 0⟩ (rows.map (List.map val)).flatten (psi * n) =
        some ⟨.chiral m, fun i => ((List.range m.columns).map fun i => (rows.map (List.map val)).flatten.getD (psi.toNat * n + i) 0).getD i 0⟩ := by
    intro chn psi hmem
    obtain ⟨a, b⟩ := work_psi hwalk hws hmem
    obtain ⟨s, rfl⟩ : ∃ s : Nat, psi = s := ⟨psi.toNat, by omega⟩
    have hs : s * n + m.columns ≤ rows.length * n := by
      have h2 : (s : Int) * n ≤ (cfg.psiEnd - 1) * n := mul_le_mul_of_nonneg_right (by omega) (by omega)
      have : ((s * n + m.columns : Nat) : Int) ≤ ((rows.length * n : Nat) : Int) := by push_cast; linarith
      exact_mod_cast this
    unfold updatePot
    simp only
    rw [mapM_range_some _ fun i => (rows.map (List.map val)).flatten.getD (s * n + i) 0, Option.map_some, Int.toNat_natCast]
    intro i hi
    have e : (s : Int) * n + i = ((s * n + i : Nat) : Int) := by push_cast; ring
    rw [if_neg (by rw [e]; omega), e, Int.toNat_natCast, List.getElem?_eq_getElem (by omega), List.getD_eq_getElem?_getD, List.getElem?_eq_getElem (by omega)]
    rfl
  have hsets : cfg.psiEnd - cfg.psiStart ≤ rows.length := by
    by_contra hc
    have h2 : ((rows.length : Int)) * n ≤ (cfg.psiEnd - 1) * n := mul_le_mul_of_nonneg_right (by omega) (by omega)
    omega
  obtain ⟨tr, e1, e2, e3⟩ := walk_runs env fresh (chiralName m) (.chiral m) (potKind_chiral m) stod _ cfg nChn ws hws hwalk _ _ _ hread hsets
    fun chn psi hmem => ⟨_, hrow chn psi hmem⟩
  refine ⟨tr, e1, e2, ?_⟩
  intro chn psi V hV
  have hmem : Work.solve chn psi ∈ ws := by
    have : Work.solve chn psi ∈ tr.map (·.1) := List.mem_map_of_mem hV
    rw [e2] at this
    exact (List.mem_filter.1 this).1
  obtain ⟨o', e4, e5⟩ := e3 chn psi V hV
  rw [hrow chn psi hmem] at e4
  cases e4
  rw [e5]
  unfold potOf chiralModel
  simp only
  refine congrArg (fun s => fun qi qo c S J T Tz => (chiralV env.rule env.prof s qi qo c S J T Tz).getD 0) (preset_take m _ _ ?_)
  intro i hi
  rw [List.getD_eq_getElem?_getD, List.getElem?_map, List.getElem?_range hi, Option.map_some, Option.getD_some, List.getD_eq_getElem?_getD,
    flatten_get' _ n h1 hlen', Nat.mul_comm psi.toNat n, Nat.mul_add_div h1, Nat.mul_add_mod]
  cases (rows.map (List.map val))[psi.toNat + i / n]? <;> simp [List.getD_eq_getElem?_getD]

theorem optMapM_defined {α β : Type} {f : α → Option β} {l : List α} {r : List β} (h : l.mapM f = some r) : ∀ a ∈ l, ∃ b, f a = some b := by
  induction l generalizing r with
  | nil => simp
  | cons x l ih =>
    rw [List.mapM_cons] at h
    cases hx : f x with
    | none => rw [hx] at h; cases h
    | some b =>
      rw [hx] at h
      cases hl : l.mapM f with
      | none => rw [hl] at h; cases h
      | some r' =>
        intro a ha
        rcases List.mem_cons.1 ha with rfl | ha
        · exact ⟨b, hx⟩
        · exact ih hl a ha

/-- **C96 (missing columns, the last line).** A walk over a whole file with too few columns passes the range check and then reads beyond the numbers of the file. -/
theorem C96_missing_columns_overrun (env : PotEnv) (fresh : Nat → ℝ) (m : ChiralModel) (stod : Str → Option ℝ) (val : Str → ℝ) (n : Nat) (h1 : 1 ≤ n) (hn : n < m.columns)
    (rows : List (List Str)) (hrows : rows ≠ []) (hlen : ∀ r ∈ rows, r.length = n) (hsp : ∀ r ∈ rows, ∀ t ∈ r, ' ' ∉ t)
    (hval : ∀ r ∈ rows, ∀ t ∈ r, stod t = some (val t)) (cfg : DriverCfg) (hwalk : cfg.parameterWalk = true)
    (hend : cfg.psiEnd = rows.length) (nChn : Nat) (ws : List Work) (hws : mainWork cfg nChn = some ws) (chn : Int) (hlast : Work.solve chn (rows.length - 1) ∈ ws) :
    runPotentials env fresh (chiralName m) stod (rows.map joinSpace) cfg nChn = none ∧
      ∃ data sets, readSamples stod (rows.map joinSpace) = .ok (data, n, sets) ∧ (0 ≤ cfg.psiStart → psiCheck true cfg.psiStart cfg.psiEnd sets = true) := by
  have hread := C50_rectangular_file_read stod val rows n h1 hrows hlen hsp hval
  refine ⟨?_, _, _, hread, fun h => by unfold psiCheck; simp; omega⟩
  have hlen' : ∀ r ∈ rows.map (List.map val), r.length = n := by
    intro r h
    obtain ⟨r', h', rfl⟩ := List.mem_map.1 h
    rw [List.length_map]; exact hlen r' h'
  have hfl := flatten_length _ n hlen'
  rw [List.length_map] at hfl
  have hpos : 1 ≤ rows.length := List.length_pos_iff.2 hrows
  have hbad : ∀ p, updatePot ⟨.chiral m, p⟩ (rows.map (List.map val)).flatten (((rows.length : Int) - 1) * n) = none := by
    intro p
    unfold updatePot
    simp only
    rw [Option.map_eq_none_iff]
    by_contra hc
    obtain ⟨l, hl⟩ := Option.ne_none_iff_exists'.1 hc
    obtain ⟨x, hx⟩ := optMapM_defined hl n (List.mem_range.2 hn)
    have e : ((rows.length : Int) - 1) * n + n = ((rows.length * n : Nat) : Int) := by push_cast; ring
    rw [e, if_neg (by omega), Int.toNat_natCast, List.getElem?_eq_none (by omega)] at hx
    cases hx
  have key : ∀ (ws : List Work) p, Work.solve chn (rows.length - 1) ∈ ws → potTrace env true (rows.map (List.map val)).flatten n ⟨.chiral m, p⟩ ws = none := by
    intro ws
    induction ws with
    | nil => intro p h; simp at h
    | cons w ws ih =>
      intro p h
      cases w with
      | p123 c => exact ih p (by simpa using h)
      | solve c s =>
        rw [potTrace, if_pos rfl]
        by_cases hs : s = rows.length - 1
        · subst hs; rw [hbad]; rfl
        · have h' : Work.solve chn (rows.length - 1) ∈ ws := by
            rcases List.mem_cons.1 h with e | h
            · cases e; exact absurd rfl hs
            · exact h
          cases hu : updatePot ⟨.chiral m, p⟩ (rows.map (List.map val)).flatten (s * n) with
          | none => rfl
          | some o' =>
            have : o' = ⟨.chiral m, o'.par⟩ := by have := update_kind hu; cases o'; simp at this; simp [this]
            rw [Option.bind_some, this, ih _ h']; rfl
  obtain ⟨p, hp⟩ := fetch_kind fresh (.chiral m)
  unfold runPotentials
  rw [potKind_chiral, Option.bind_some, hwalk, if_pos rfl, hread]
  simp only
  split_ifs
  · rw [Option.bind_some, hws, Option.bind_some, hp]; exact key ws p hlast
  · rfl

/-- **C97.** With LO_internal, malfliet_tjon or nijmegen a parameter walk is accepted with any file of numbers, and every set of it is solved with the one potential
of a run without a walk: the numbers of the file have no effect. -/
theorem C97_walk_ignored (env : PotEnv) (fresh fresh' : Nat → ℝ) (name : Str) (k : PotKind) (hk : potKind name = some k) (hno : ∀ m, k ≠ .chiral m)
    (stod : Str → Option ℝ) (lines lines' : List Str) (data : List ℝ) (n sets : Nat) (hread : readSamples stod lines = .ok (data, n, sets)) (cfg : DriverCfg)
    (hwalk : cfg.parameterWalk = true) (hsets : cfg.psiEnd - cfg.psiStart ≤ sets) (nChn : Nat) (ws : List Work) (hws : mainWork cfg nChn = some ws) :
    ∃ V : PotModel,
      (∃ tr, runPotentials env fresh name stod lines cfg nChn = some tr ∧ tr.map (·.1) = ws.filter isSolve ∧ ∀ w W, (w, W) ∈ tr → W = V) ∧
      ∃ tr', runPotentials env fresh' name stod lines' { cfg with parameterWalk := false } nChn = some tr' ∧ ∀ w W, (w, W) ∈ tr' → W = V := by
  have hV : ∀ p q, potOf env ⟨k, p⟩ = potOf env ⟨k, q⟩ := by
    intro p q
    unfold potOf
    cases k with
    | chiral m => exact absurd rfl (hno m)
    | _ => rfl
  have hup : ∀ p (s : Int), updatePot ⟨k, p⟩ data s = some ⟨k, p⟩ := by
    intro p s
    unfold updatePot
    cases k with
    | chiral m => exact absurd rfl (hno m)
    | _ => rfl
  refine ⟨potOf env ⟨k, fun _ => 0⟩, ?_, ?_⟩
  · obtain ⟨tr, h1, h2, h3⟩ := walk_runs env fresh name k hk stod lines cfg nChn ws hws hwalk data n sets hread hsets fun chn psi _ => ⟨_, hup _ _⟩
    refine ⟨tr, h1, h2, ?_⟩
    intro w W hW
    have hw : w ∈ ws.filter isSolve := by rw [← h2]; exact List.mem_map_of_mem hW
    cases w with
    | p123 c => simp [isSolve] at hw
    | solve c s =>
      obtain ⟨o', e1, e2⟩ := h3 c s W hW
      rw [hup] at e1
      cases e1
      exact e2
  · obtain ⟨p, hp⟩ := fetch_kind fresh' k
    have hws' : ∃ ws', mainWork { cfg with parameterWalk := false } nChn = some ws' := by
      unfold mainWork at hws ⊢
      simp only
      split_ifs at hws ⊢
      exact ⟨_, rfl⟩
    obtain ⟨ws', hws'⟩ := hws'
    obtain ⟨tr, h1, _, h3⟩ := trace_plain env [] 0 ⟨k, p⟩ ws'
    refine ⟨tr, ?_, fun w W hW => by rw [h3 w W hW, hV p]⟩
    unfold runPotentials
    rw [hk, Option.bind_some, hws', hp]
    exact h1

/-- **C98.** Without a parameter walk N2LOopt and Idaho_N3LO use their built-in constants in every channel, whatever the memory holds. -/
theorem C98_builtin (env : PotEnv) (hr : ∀ xw ∈ env.rule, |xw.1| ≤ 1) (fresh : Nat → ℝ) (m : ChiralModel) (line : List ℝ)
    (hm : m = .n2loopt ∧ line = n2looptDefault ∨ m = .idaho ∧ line = idahoDefault) (stod : Str → Option ℝ) (lines : List Str)
    (cfg : DriverCfg) (hwalk : cfg.parameterWalk = false) (nChn : Nat) (ws : List Work) (hws : mainWork cfg nChn = some ws) :
    ∃ tr, runPotentials env fresh (chiralName m) stod lines cfg nChn = some tr ∧ tr.map (·.1) = ws.filter isSolve ∧
      ∀ w V, (w, V) ∈ tr → ∀ qi qo S J Lo Li T Tz, Waves S J Lo Li T → |Tz| ≤ T → J ≤ 38 →
        phase Lo Li * V qi qo (decide (Lo ≠ J)) S J T Tz (component S Lo Li J) = cutElement env.rule env.prof m (fun i => line.getD i 0) S J Lo Li T Tz qo qi := by
  obtain ⟨tr, h1, h2, h3⟩ := trace_plain env [] 0 (fetchPot fresh (.chiral m)) ws
  refine ⟨tr, ?_, h2, ?_⟩
  · unfold runPotentials
    rw [potKind_chiral, Option.bind_some, hwalk, hws]
    exact h1
  · intro w V hV qi qo S J Lo Li T Tz hw hz hJ
    rw [h3 w V hV]
    rcases hm with ⟨rfl, rfl⟩ | ⟨rfl, rfl⟩ <;> exact chiral_value _ _ env.rule hr env.prof qi qo S J Lo Li T Tz hw hz hJ

/-- The column of the neutron-proton 1S0 constant. -/
def npColumn : ChiralModel → Nat
  | .isLO => 0
  | .isNLO => 1
  | .isN2LO => 4
  | .isN3LO => 9
  | _ => 1

/-- **C98 (uninitialised).** Without a parameter walk IS_LO, IS_NLO, IS_N2LO and IS_N3LO take their constants from memory nobody wrote: whatever that memory holds, another
content gives a different neutron-proton force in 1S0 at every pair of momenta up to twice the cutoff - in every solve of the run. -/
theorem C98_uninitialised (env : PotEnv) (hr : ∀ xw ∈ env.rule, |xw.1| ≤ 1) (m : ChiralModel) (hm : m = .isLO ∨ m = .isNLO ∨ m = .isN2LO ∨ m = .isN3LO)
    (fresh : Nat → ℝ) (stod : Str → Option ℝ) (lines : List Str) (cfg : DriverCfg) (hwalk : cfg.parameterWalk = false) (nChn : Nat) (ws : List Work)
    (hws : mainWork cfg nChn = some ws) :
    ∃ fresh' tr tr', runPotentials env fresh (chiralName m) stod lines cfg nChn = some tr ∧ runPotentials env fresh' (chiralName m) stod lines cfg nChn = some tr' ∧
      tr.map (·.1) = ws.filter isSolve ∧ tr'.map (·.1) = ws.filter isSolve ∧
      ∀ w V w' V', (w, V) ∈ tr → (w', V') ∈ tr' → ∀ qi qo, 0 < qi → qi ≤ 2 * cutoff m → 0 < qo → qo ≤ 2 * cutoff m →
        V qi qo false 0 0 1 0 0 ≠ V' qi qo false 0 0 1 0 0 := by
  set fresh' := Function.update fresh (npColumn m) (fresh (npColumn m) + 1) with hf
  have hrun : ∀ f, ∃ tr, runPotentials env f (chiralName m) stod lines cfg nChn = some tr ∧ tr.map (·.1) = ws.filter isSolve ∧
      ∀ w V, (w, V) ∈ tr → V = chiralModel env.rule env.prof (preset m f) := by
    intro f
    obtain ⟨tr, h1, h2, h3⟩ := trace_plain env [] 0 (fetchPot f (.chiral m)) ws
    refine ⟨tr, ?_, h2, ?_⟩
    · unfold runPotentials
      rw [potKind_chiral, Option.bind_some, hwalk, hws]
      exact h1
    · intro w V hV
      rw [h3 w V hV]
      rcases hm with rfl | rfl | rfl | rfl <;> rfl
  obtain ⟨tr, a1, a2, a3⟩ := hrun fresh
  obtain ⟨tr', b1, b2, b3⟩ := hrun fresh'
  refine ⟨fresh', tr, tr', a1, b1, a2, b2, ?_⟩
  intro w V w' V' hV hV' qi qo hi hi' ho ho'
  rw [a3 w V hV, b3 w' V' hV']
  have hw : Waves 0 0 0 0 1 := ⟨by decide, by decide, by decide, by decide, by decide, by decide⟩
  have key := fun n hn hp hin => C95_effect m fresh (npColumn m) (fresh (npColumn m)) (fresh (npColumn m) + 1) (by simp) n hn hp env.rule hr env.prof qi qo hi hi' ho ho' 0 0 0 0 1 0
    hw (by decide) (by decide) hin
  rw [Function.update_eq_self, ← hf] at key
  rcases hm with rfl | rfl | rfl | rfl
  · exact key .Ct1S0 rfl rfl (by simp [Const.actsIn])
  · exact key .Ct1S0np rfl rfl (by simp [Const.actsIn])
  · exact key .Ct1S0np rfl rfl (by simp [Const.actsIn])
  · exact key .Ct1S0np rfl rfl (by simp [Const.actsIn])

-- the hypotheses are met: a walk over two lines of IS_LO in two channels
example : ∃ (rows : List (List Str)) (cfg : DriverCfg) (ws : List Work), rows ≠ [] ∧ (∀ r ∈ rows, r.length = ChiralModel.isLO.columns) ∧ (∀ r ∈ rows, ∀ t ∈ r, ' ' ∉ t) ∧
    cfg.parameterWalk = true ∧ 0 ≤ cfg.psiStart ∧ cfg.psiEnd ≤ rows.length ∧ mainWork cfg 2 = some ws ∧ ws.filter isSolve = [.solve 0 0, .solve 0 1, .solve 1 0, .solve 1 1] :=
  ⟨[["1".toList, "2".toList], ["3".toList, "4".toList]], ⟨false, 0, true, false, true, 0, 2⟩, [.p123 0, .solve 0 0, .solve 0 1, .p123 1, .solve 1 0, .solve 1 1], by decide⟩

-- and of C96 (missing columns): three lines of one number, one set
example : ∃ (rows : List (List Str)) (cfg : DriverCfg) (ws : List Work), (∀ r ∈ rows, r.length = 1) ∧ 1 < ChiralModel.isLO.columns ∧
    (cfg.psiEnd - 1) * (1 : Nat) + ChiralModel.isLO.columns ≤ rows.length * (1 : Nat) ∧ mainWork cfg 1 = some ws ∧ ws.filter isSolve = [.solve 0 0] :=
  ⟨[["1".toList], ["3".toList], ["4".toList]], ⟨false, 0, true, false, true, 0, 1⟩, [.p123 0, .solve 0 0], by decide⟩

end TicTac
end
