import Verif.Spec.BreakupTable
import Verif.Lemmas.Tables
/-! The first pass of `restructure_breakup_data`. -/
noncomputable section
namespace TicTac

theorem StdMap.get_set (m : StdMap) (k v j : Nat) : (m.set k v).get j = if j = k then some v else m.get j := by
  unfold StdMap.get StdMap.set
  by_cases h : j = k
  · subst h
    rw [if_pos rfl, List.find?_cons_of_pos (by simp)]; rfl
  · rw [if_neg h, List.find?_cons_of_neg (by simp; omega), List.find?_filter]
    congr 2
    funext a
    by_cases ha : a.1 = j
    · simp [ha, h]
    · simp [ha]

/-- Every pair of the map is what a look-up finds. -/
def StdMap.Proper (m : StdMap) : Prop := ∀ kv ∈ m, m.get kv.1 = some kv.2

theorem StdMap.proper_nil : StdMap.Proper [] := by intro kv h; cases h

theorem StdMap.proper_set {m : StdMap} (h : m.Proper) (k v : Nat) : (m.set k v).Proper := by
  intro kv hkv
  rw [StdMap.get_set]
  unfold StdMap.set at hkv
  rcases List.mem_cons.1 hkv with rfl | hm
  · rw [if_pos rfl]
  · obtain ⟨h1, h2⟩ := List.mem_filter.1 hm
    rw [if_neg (by simpa using h2)]
    exact h kv h1

theorem StdMap.get_mem {m : StdMap} {k v : Nat} (h : m.get k = some v) : (k, v) ∈ m := by
  unfold StdMap.get at h
  rw [Option.map_eq_some_iff] at h
  obtain ⟨kv, h1, h2⟩ := h
  have := List.mem_of_find?_eq_some h1
  have hk := List.find?_some h1
  rw [show (k, v) = kv from Prod.ext (by have := beq_iff_eq.1 hk; exact this.symm) h2.symm]
  exact this

theorem maxFold (m : List (Nat × Nat)) (a : Nat) :
    let r := m.foldl (fun a kv => if a < kv.2 then kv.2 else a) a
    a ≤ r ∧ (∀ kv ∈ m, kv.2 ≤ r) ∧ (r = a ∨ ∃ kv ∈ m, kv.2 = r) := by
  induction m generalizing a with
  | nil => simp
  | cons kv m ih =>
    intro r
    obtain ⟨h1, h2, h3⟩ := ih (if a < kv.2 then kv.2 else a)
    have hr : r = m.foldl (fun a kv => if a < kv.2 then kv.2 else a) (if a < kv.2 then kv.2 else a) := rfl
    rw [← hr] at h1 h2 h3
    refine ⟨?_, ?_, ?_⟩
    · split_ifs at h1 <;> omega
    · intro kv' hm
      rcases List.mem_cons.1 hm with rfl | hm
      · split_ifs at h1 <;> omega
      · exact h2 _ hm
    · rcases h3 with h3 | ⟨kv', hm, he⟩
      · split_ifs at h3 with hlt
        · exact Or.inr ⟨kv, List.mem_cons_self, h3.symm⟩
        · exact Or.inl h3
      · exact Or.inr ⟨kv', List.mem_cons_of_mem _ hm, he⟩

theorem StdMap.maxVal_spec {m : StdMap} (h : m.Proper) :
    (∀ k v, m.get k = some v → v ≤ m.maxVal) ∧ (m.maxVal = 0 ∨ ∃ k, m.get k = some m.maxVal) := by
  obtain ⟨-, h2, h3⟩ := maxFold m 0
  refine ⟨fun k v hk => h2 _ (StdMap.get_mem hk), ?_⟩
  rcases h3 with h3 | ⟨kv, hm, he⟩
  · exact Or.inl h3
  · refine Or.inr ⟨kv.1, ?_⟩
    rw [h kv hm, he]; rfl

/-- Key of the column and key of the row of an event. -/
def evCol (x : BuInput) (ev : Nat × Nat) : Nat := keyAlpha x (x.alpha ev.2) ev.1
def evRow (x : BuInput) (ev : Nat × Nat) : Nat := keyRow x ev.2 ev.1

theorem evRow_inj {x : BuInput} {e e' : Nat × Nat} (h : e.1 < x.states.length) (h' : e'.1 < x.states.length) (he : evRow x e = evRow x e') : e = e' := by
  unfold evRow keyRow at he
  obtain ⟨h1, h2⟩ := radix_inj h h' he
  exact Prod.ext h2 h1

theorem evCol_inj {x : BuInput} {e e' : Nat × Nat} (h : e.1 < x.states.length) (h' : e'.1 < x.states.length) :
    evCol x e = evCol x e' ↔ x.alpha e.2 = x.alpha e'.2 ∧ e.1 = e'.1 := by
  unfold evCol keyAlpha
  constructor
  · intro he; exact radix_inj h h' he
  · rintro ⟨h1, h2⟩; rw [h1, h2]

/-- `pairs` lists the pairs of partial waves that have columns. -/
structure Cols (x : BuInput) (s : BuScan) (pairs : List (Nat × Nat)) : Prop where
  bound : ∀ p ∈ pairs, p.2 < x.states.length
  nodup : pairs.Nodup
  headers : s.headers = buHead0 ++ pairs.flatMap fun p => buHeads x p.1 p.2
  counter : s.counter = pairs.length
  some_ : ∀ i (h : i < pairs.length), s.alphaMap.get (keyAlpha x pairs[i].1 pairs[i].2) = some i
  none_ : ∀ ac, ∀ ar < x.states.length, (ac, ar) ∉ pairs → s.alphaMap.get (keyAlpha x ac ar) = none

theorem keyAlpha_inj {x : BuInput} {ac ar ac' ar' : Nat} (h : ar < x.states.length) (h' : ar' < x.states.length)
    (he : keyAlpha x ac ar = keyAlpha x ac' ar') : ac = ac' ∧ ar = ar' := radix_inj h h' he

/-- Columns after one event. -/
theorem buStep_cols {x : BuInput} {base : Nat} {st : BuScan × StdMap} {ev : Nat × Nat} {pairs : List (Nat × Nat)} (h : Cols x st.1 pairs)
    (hev : ev.1 < x.states.length) :
    ∃ more, Cols x (buStep x base st ev).1 (pairs ++ more) ∧ (x.alpha ev.2, ev.1) ∈ pairs ++ more ∧ ∀ p ∈ more, p = (x.alpha ev.2, ev.1) := by
  obtain ⟨ar, b⟩ := ev
  replace hev : ar < x.states.length := hev
  have key : ∀ s1 : BuScan, (∃ more, Cols x s1 (pairs ++ more) ∧ (x.alpha b, ar) ∈ pairs ++ more ∧ ∀ p ∈ more, p = (x.alpha b, ar)) →
      ∀ r, ∃ more, Cols x { s1 with rowIdx := r } (pairs ++ more) ∧ (x.alpha b, ar) ∈ pairs ++ more ∧ ∀ p ∈ more, p = (x.alpha b, ar) := by
    rintro s1 ⟨more, hc, hm⟩ r
    exact ⟨more, ⟨hc.bound, hc.nodup, hc.headers, hc.counter, hc.some_, hc.none_⟩, hm⟩
  have hs1 : ∃ more, Cols x (if (st.1.alphaMap.get (keyAlpha x (x.alpha b) ar)).isNone then
      { st.1 with headers := st.1.headers ++ buHeads x (x.alpha b) ar, alphaMap := st.1.alphaMap.set (keyAlpha x (x.alpha b) ar) st.1.counter, counter := st.1.counter + 1 }
      else st.1) (pairs ++ more) ∧ (x.alpha b, ar) ∈ pairs ++ more ∧ ∀ p ∈ more, p = (x.alpha b, ar) := by
    by_cases hin : (x.alpha b, ar) ∈ pairs
    · obtain ⟨i, hi, he⟩ := List.mem_iff_getElem.1 hin
      have := h.some_ i hi
      rw [he] at this
      refine ⟨[], ?_⟩
      rw [if_neg (by simp only at this; rw [this]; simp), List.append_nil]
      exact ⟨h, hin, by simp⟩
    · have hn := h.none_ (x.alpha b) ar hev hin
      refine ⟨[(x.alpha b, ar)], ?_, by simp, by simp⟩
      rw [if_pos (by rw [hn]; rfl)]
      refine ⟨?_, ?_, ?_, ?_, ?_, ?_⟩
      · intro p hp
        rcases List.mem_append.1 hp with hp | hp
        · exact h.bound p hp
        · rw [List.mem_singleton.1 hp]; exact hev
      · rw [List.nodup_append]
        exact ⟨h.nodup, by simp, fun a ha c hc => by rw [List.mem_singleton.1 hc]; rintro rfl; exact hin ha⟩
      · simp only [h.headers, List.flatMap_append, List.flatMap_cons, List.flatMap_nil, List.append_nil, List.append_assoc]
      · simp [h.counter]
      · intro i hi
        simp only [StdMap.get_set]
        rw [List.length_append, List.length_singleton] at hi
        rcases Nat.lt_or_ge i pairs.length with hlt | hge
        · rw [List.getElem_append_left hlt, if_neg, h.some_ i hlt]
          intro he
          obtain ⟨e1, e2⟩ := keyAlpha_inj (h.bound _ (List.getElem_mem hlt)) hev he
          exact hin (by rw [← e1, ← e2]; exact List.getElem_mem hlt)
        · have : i = pairs.length := by omega
          subst this
          rw [List.getElem_append_right (by omega)]
          simp [h.counter]
      · intro ac ar' har hnot
        simp only [StdMap.get_set]
        rw [List.mem_append, List.mem_singleton, not_or] at hnot
        rw [if_neg, h.none_ ac ar' har hnot.1]
        intro he
        obtain ⟨e1, e2⟩ := keyAlpha_inj har hev he
        exact hnot.2 (by rw [e1, e2])
  unfold buStep
  simp only
  split
  · exact key _ hs1 _
  · exact key _ hs1 _

/-- Rows after one event. -/
theorem buStep_rows (x : BuInput) (base : Nat) (st : BuScan × StdMap) (ev : Nat × Nat) :
    (∀ k, (buStep x base st ev).1.rowIdx.get k = if k = evRow x ev then some ((st.2.get (evCol x ev)).getD base) else st.1.rowIdx.get k) ∧
    (buStep x base st ev).2 = st.2.set (evCol x ev) ((st.2.get (evCol x ev)).getD base + 1) := by
  have hr : ∀ (b : Bool) (s1 : BuScan), (if b then s1 else st.1).rowIdx = if b then s1.rowIdx else st.1.rowIdx := by intro b s1; cases b <;> rfl
  unfold buStep evRow evCol
  simp only
  cases hg : st.2.get (keyAlpha x (x.alpha ev.2) ev.1) with
  | none =>
    simp only [Option.getD_none, and_true]
    intro k
    rw [StdMap.get_set]
    split_ifs <;> rfl
  | some n =>
    simp only [Option.getD_some, and_true]
    intro k
    rw [StdMap.get_set]
    split_ifs <;> rfl

/-- All events of one energy. -/
theorem buFold (x : BuInput) (base : Nat) (s0 : BuScan) (pairs : List (Nat × Nat)) (hc : Cols x s0 pairs) (evs : List (Nat × Nat)) (hb : ∀ e ∈ evs, e.1 < x.states.length)
    (hnd : evs.Nodup) :
    let r := evs.foldl (buStep x base) (s0, [])
    (∀ k, r.2.get k = if evs.countP (fun e => evCol x e == k) = 0 then none else some (base + evs.countP fun e => evCol x e == k)) ∧
    r.2.Proper ∧
    (∀ k, (∀ e ∈ evs, evRow x e ≠ k) → r.1.rowIdx.get k = s0.rowIdx.get k) ∧
    (∀ pre e post, evs = pre ++ e :: post → r.1.rowIdx.get (evRow x e) = some (base + pre.countP fun e' => evCol x e' == evCol x e)) ∧
    ∃ more, Cols x r.1 (pairs ++ more) ∧ (∀ e ∈ evs, (x.alpha e.2, e.1) ∈ pairs ++ more) ∧ ∀ p ∈ more, ∃ e ∈ evs, p = (x.alpha e.2, e.1) := by
  induction evs using List.reverseRecOn with
  | nil =>
    refine ⟨fun k => by simp [StdMap.get], StdMap.proper_nil, fun _ _ => rfl, ?_, [], by simpa using hc, by simp, by simp⟩
    intro pre e post h
    simp at h
  | append_singleton evs ev ih =>
    have hb' : ∀ e ∈ evs, e.1 < x.states.length := fun e he => hb e (by simp [he])
    have hev := hb ev (by simp)
    rw [List.nodup_append] at hnd
    obtain ⟨hnd1, -, hnd2⟩ := hnd
    have hnot : ev ∉ evs := fun h => hnd2 ev h ev (by simp) rfl
    obtain ⟨i1, i2, i3, i4, more, i5, i6, i7⟩ := ih hb' hnd1
    rw [List.foldl_append, List.foldl_cons, List.foldl_nil]
    set r := evs.foldl (buStep x base) (s0, []) with hr
    obtain ⟨s1, s2⟩ := buStep_rows x base r ev
    have hget : (r.2.get (evCol x ev)).getD base = base + evs.countP fun e => evCol x e == evCol x ev := by
      rw [i1]
      split_ifs with h0
      · rw [h0]; rfl
      · rfl
    rw [hget] at s1 s2
    refine ⟨?_, ?_, ?_, ?_, ?_⟩
    · intro k
      rw [s2, StdMap.get_set, List.countP_append, List.countP_singleton]
      by_cases hk : k = evCol x ev
      · subst hk
        rw [if_pos rfl]
        simp
        omega
      · rw [if_neg hk, i1]
        have : (evCol x ev == k) = false := by simp; exact fun h => hk h.symm
        rw [this]; simp
    · rw [s2]; exact StdMap.proper_set i2 _ _
    · intro k hk
      rw [s1, if_neg (fun h => hk ev (by simp) h.symm)]
      exact i3 k (fun e he => hk e (by simp [he]))
    · intro pre e post he
      rw [s1]
      rcases List.eq_nil_or_concat post with rfl | ⟨post', e', rfl⟩
      · have h1 := List.append_inj' (s₁ := evs) (t₁ := [ev]) (s₂ := pre) (t₂ := [e]) he rfl
        obtain ⟨rfl, h2⟩ := h1
        cases h2
        rw [if_pos rfl]
      · have h1 := List.append_inj' (s₁ := evs) (t₁ := [ev]) (s₂ := pre ++ e :: post') (t₂ := [e']) (by rw [he]; simp) rfl
        obtain ⟨h2, h3⟩ := h1
        have hem : e ∈ evs := by rw [h2]; simp
        rw [if_neg, i4 pre e post' h2]
        intro hh
        have := evRow_inj (hb' e hem) hev hh
        rw [this] at hem
        exact hnot hem
    · obtain ⟨more', c1, c2, c3⟩ := buStep_cols (base := base) (st := r) i5 hev
      refine ⟨more ++ more', by rw [← List.append_assoc]; exact c1, ?_, ?_⟩
      swap
      · intro p hp
        rcases List.mem_append.1 hp with hp | hp
        · obtain ⟨e, he, hpe⟩ := i7 p hp
          exact ⟨e, by simp [he], hpe⟩
        · exact ⟨ev, by simp, c3 p hp⟩
      intro e he
      rw [← List.append_assoc]
      rcases List.mem_append.1 he with he | he
      · exact List.mem_append_left _ (i6 e he)
      · rw [List.mem_singleton.1 he]; exact c2

/-- Hypotheses under which the table is made: distinct deuteron states of the channel, offsets of the energies in order, energies without
recorded cells (below the breakup threshold) first. -/
structure BuOk (x : BuInput) : Prop where
  nodup : x.deut.Nodup
  bound : ∀ ar ∈ x.deut, ar < x.states.length
  mono : ∀ q < x.nq, x.off q ≤ x.off (q + 1)
  emptyFirst : ∀ q q', q ≤ q' → q' < x.nq → x.off q' = x.off (q' + 1) → x.off q = x.off (q + 1)

theorem mem_buEvents {x : BuInput} {q : Nat} {e : Nat × Nat} : e ∈ buEvents x q ↔ e.1 ∈ x.deut ∧ x.off q ≤ e.2 ∧ e.2 < x.off (q + 1) := by
  unfold buEvents
  rw [List.mem_flatMap]
  constructor
  · rintro ⟨ar, h1, h2⟩
    rw [List.mem_map] at h2
    obtain ⟨b, h3, rfl⟩ := h2
    rw [List.mem_range'_1] at h3
    exact ⟨h1, by simp only; omega, by simp only; omega⟩
  · rintro ⟨h1, h2, h3⟩
    exact ⟨e.1, h1, List.mem_map.2 ⟨e.2, List.mem_range'_1.2 (by omega), rfl⟩⟩

theorem buEvents_nodup {x : BuInput} (h : x.deut.Nodup) (q : Nat) : (buEvents x q).Nodup := by
  unfold buEvents
  rw [List.nodup_flatMap]
  refine ⟨fun ar _ => (List.nodup_range' (s := x.off q)).map (fun a b hh => by cases hh; rfl), ?_⟩
  refine h.imp ?_
  intro a b hab e he he'
  rw [List.mem_map] at he he'
  obtain ⟨_, _, rfl⟩ := he
  obtain ⟨_, _, hh⟩ := he'
  cases hh
  exact hab rfl

theorem off_le {x : BuInput} (h : BuOk x) {q q' : Nat} (hq : q ≤ q') (hq' : q' ≤ x.nq) : x.off q ≤ x.off q' := by
  induction q', hq using Nat.le_induction with
  | base => exact le_rfl
  | succ n hn ih => exact (ih (by omega)).trans (h.mono n (by omega))

/-- An event belongs to one energy only. -/
theorem event_energy {x : BuInput} (h : BuOk x) {q q' b : Nat} (hq : q < x.nq) (hq' : q' < x.nq) (h1 : x.off q ≤ b) (h2 : b < x.off (q + 1))
    (h3 : x.off q' ≤ b) (h4 : b < x.off (q' + 1)) : q = q' := by
  rcases Nat.lt_trichotomy q q' with hlt | he | hlt
  · have := off_le h (q := q + 1) (q' := q') (by omega) (by omega); omega
  · exact he
  · have := off_le h (q := q' + 1) (q' := q) (by omega) (by omega); omega

theorem exists_nth {α : Type} (p : α → Bool) (l : List α) : ∀ j, j < l.countP p → ∃ pre e post, l = pre ++ e :: post ∧ p e = true ∧ pre.countP p = j := by
  induction l with
  | nil => intro j h; simp at h
  | cons a l ih =>
    intro j h
    by_cases ha : p a = true
    · cases j with
      | zero => exact ⟨[], a, l, rfl, ha, rfl⟩
      | succ j =>
        rw [List.countP_cons_of_pos ha] at h
        obtain ⟨pre, e, post, h1, h2, h3⟩ := ih j (by omega)
        exact ⟨a :: pre, e, post, by rw [h1]; rfl, h2, by rw [List.countP_cons_of_pos ha, h3]⟩
    · rw [List.countP_cons_of_neg ha] at h
      obtain ⟨pre, e, post, h1, h2, h3⟩ := ih j h
      exact ⟨a :: pre, e, post, by rw [h1]; rfl, h2, by rw [List.countP_cons_of_neg ha, h3]⟩

/-- Position of an event in its column. -/
def place (x : BuInput) (pre : List (Nat × Nat)) (e : Nat × Nat) : Nat := pre.countP fun e' => evCol x e' == evCol x e

theorem place_inj {x : BuInput} {l pre pre' post post' : List (Nat × Nat)} {e e' : Nat × Nat} (h : l = pre ++ e :: post) (h' : l = pre' ++ e' :: post')
    (hc : evCol x e = evCol x e') (hp : place x pre e = place x pre' e') : e = e' := by
  rcases Nat.lt_trichotomy pre.length pre'.length with hl | hl | hl
  · exfalso
    have h1 : pre ++ [e] <+: pre' := by
      have a1 : pre ++ [e] <+: l := ⟨post, by rw [h]; simp⟩
      have a2 : pre' <+: l := ⟨e' :: post', h'.symm⟩
      exact List.prefix_of_prefix_length_le a1 a2 (by simp; omega)
    obtain ⟨t, ht⟩ := h1
    unfold place at hp
    rw [← ht, List.countP_append, List.countP_append, List.countP_singleton, hc] at hp
    simp at hp
    omega
  · have := List.append_inj (h.symm.trans h') hl
    have h2 := this.2
    simp at h2
    exact h2.1
  · exfalso
    have h1 : pre' ++ [e'] <+: pre := by
      have a1 : pre' ++ [e'] <+: l := ⟨post', by rw [h']; simp⟩
      have a2 : pre <+: l := ⟨e :: post, h.symm⟩
      exact List.prefix_of_prefix_length_le a1 a2 (by simp; omega)
    obtain ⟨t, ht⟩ := h1
    unfold place at hp
    rw [← ht, List.countP_append, List.countP_append, List.countP_singleton, hc] at hp
    simp at hp
    omega

/-- What the first pass has found after `n` energies. -/
structure Scanned (x : BuInput) (n : Nat) (s : BuScan) (rows : List Nat) (pairs : List (Nat × Nat)) : Prop where
  cols : Cols x s pairs
  len : rows.length = n + 1
  zero : rows.getD 0 0 = 0
  mono : ∀ q < n, rows.getD q 0 ≤ rows.getD (q + 1) 0
  empty : ∀ q < n, buEvents x q = [] → rows.getD (q + 1) 0 = 0
  seen : ∀ q < n, ∀ e ∈ buEvents x q, (x.alpha e.2, e.1) ∈ pairs
  used : ∀ p ∈ pairs, ∃ q < n, ∃ e ∈ buEvents x q, p = (x.alpha e.2, e.1)
  rowOf : ∀ q < n, ∀ pre e post, buEvents x q = pre ++ e :: post → s.rowIdx.get (evRow x e) = some (rows.getD q 0 + place x pre e) ∧
    rows.getD q 0 + place x pre e < rows.getD (q + 1) 0
  full : ∀ q < n, ∀ r, rows.getD q 0 ≤ r → r < rows.getD (q + 1) 0 → ∃ pre e post, buEvents x q = pre ++ e :: post ∧ r = rows.getD q 0 + place x pre e

theorem scan_ok {x : BuInput} (h : BuOk x) : ∀ n ≤ x.nq, ∃ pairs, Scanned x n
    ((List.range n).foldl (buEnergy x) ({ headers := buHead0, alphaMap := [], counter := 0, rowIdx := [] }, [0])).1
    ((List.range n).foldl (buEnergy x) ({ headers := buHead0, alphaMap := [], counter := 0, rowIdx := [] }, [0])).2 pairs := by
  intro n
  induction n with
  | zero =>
    intro _
    refine ⟨[], ⟨⟨by simp, by simp, by simp, rfl, by simp, fun _ _ _ _ => rfl⟩, rfl, rfl, by simp, by simp, by simp, by simp, by simp, by simp⟩⟩
  | succ n ih =>
    intro hn
    obtain ⟨pairs, I⟩ := ih (by omega)
    rw [List.range_succ, List.foldl_append, List.foldl_cons, List.foldl_nil]
    set st := (List.range n).foldl (buEnergy x) ({ headers := buHead0, alphaMap := [], counter := 0, rowIdx := [] }, [0]) with hst
    have hevb : ∀ q, ∀ e ∈ buEvents x q, e.1 < x.states.length := fun q e he => h.bound _ (mem_buEvents.1 he).1
    set base := st.2.getD n 0 with hbase
    obtain ⟨f1, f2, f3, f4, more, f5, f6, f7⟩ := buFold x base st.1 pairs I.cols (buEvents x n) (hevb n) (buEvents_nodup h.nodup n)
    have hE : buEnergy x st n = (((buEvents x n).foldl (buStep x base) (st.1, [])).1, st.2 ++ [((buEvents x n).foldl (buStep x base) (st.1, [])).2.maxVal]) := rfl
    rw [hE]
    set r := (buEvents x n).foldl (buStep x base) (st.1, []) with hr
    obtain ⟨m1, m2⟩ := StdMap.maxVal_spec f2
    have hold : ∀ q ≤ n, (st.2 ++ [r.2.maxVal]).getD q 0 = st.2.getD q 0 := by
      intro q hq
      rw [List.getD_eq_getElem?_getD, List.getD_eq_getElem?_getD, List.getElem?_append_left (by rw [I.len]; omega)]
    have hnew : (st.2 ++ [r.2.maxVal]).getD (n + 1) 0 = r.2.maxVal := by
      rw [List.getD_eq_getElem?_getD, List.getElem?_append_right (by rw [I.len]), I.len]
      simp
    have hlast : ∀ pre e post, buEvents x n = pre ++ e :: post → r.1.rowIdx.get (evRow x e) = some (base + place x pre e) ∧ base + place x pre e < r.2.maxVal := by
      intro pre e post he
      refine ⟨f4 pre e post he, ?_⟩
      have hg := f1 (evCol x e)
      have hcnt : place x pre e + 1 ≤ (buEvents x n).countP fun e' => evCol x e' == evCol x e := by
        rw [he, List.countP_append, List.countP_cons_of_pos (by simp)]
        unfold place
        omega
      rw [if_neg (by omega)] at hg
      have := m1 _ _ hg
      omega
    have hemp : buEvents x n = [] → r.2.maxVal = 0 := by
      intro he
      have : r = (st.1, []) := by rw [hr, he]; rfl
      rw [this]; rfl
    refine ⟨pairs ++ more, ⟨f5, by simp [I.len], ?_, ?_, ?_, ?_, ?_, ?_, ?_⟩⟩
    · rw [hold 0 (by omega)]; exact I.zero
    · intro q hq
      rcases Nat.lt_or_ge q n with hqn | hqn
      · rw [hold q (by omega), hold (q + 1) (by omega)]; exact I.mono q hqn
      · have : q = n := by omega
        subst this
        rw [hold q le_rfl, hnew, ← hbase]
        by_cases he : buEvents x q = []
        · have : base = 0 := by
            rw [hbase]
            cases q with
            | zero => exact I.zero
            | succ m =>
              refine I.empty m (by omega) ?_
              rw [List.eq_nil_iff_forall_not_mem] at he ⊢
              intro e hem
              rw [mem_buEvents] at hem
              have h1 : x.off (m + 1) = x.off (m + 1 + 1) := by
                by_contra hne
                have := h.mono (m + 1) (by omega)
                exact he (e.1, x.off (m + 1)) (mem_buEvents.2 ⟨hem.1, le_rfl, by simp only; omega⟩)
              have := h.emptyFirst m (m + 1) (by omega) (by omega) h1
              omega
          omega
        · obtain ⟨e, l, hl⟩ := List.exists_cons_of_ne_nil he
          have := (hlast [] e l hl).2
          omega
    · intro q hq he
      rcases Nat.lt_or_ge q n with hqn | hqn
      · rw [hold (q + 1) (by omega)]; exact I.empty q hqn he
      · have : q = n := by omega
        subst this
        rw [hnew]; exact hemp he
    · intro q hq e he
      rcases Nat.lt_or_ge q n with hqn | hqn
      · exact List.mem_append_left _ (I.seen q hqn e he)
      · have : q = n := by omega
        subst this
        exact f6 e he
    · intro p hp
      rcases List.mem_append.1 hp with hp | hp
      · obtain ⟨q, hq, e, he, hpe⟩ := I.used p hp
        exact ⟨q, by omega, e, he, hpe⟩
      · obtain ⟨e, he, hpe⟩ := f7 p hp
        exact ⟨n, by omega, e, he, hpe⟩
    · intro q hq pre e post he
      rcases Nat.lt_or_ge q n with hqn | hqn
      · rw [hold q (by omega), hold (q + 1) (by omega)]
        obtain ⟨g1, g2⟩ := I.rowOf q hqn pre e post he
        refine ⟨?_, g2⟩
        rw [f3, g1]
        intro e' he' hh
        have hem : e ∈ buEvents x q := by rw [he]; simp
        have := evRow_inj (hevb n e' he') (hevb q e hem) hh
        subst this
        obtain ⟨-, a1, a2⟩ := mem_buEvents.1 he'
        obtain ⟨-, b1, b2⟩ := mem_buEvents.1 hem
        have := event_energy h (q := q) (q' := n) (by omega) (by omega) b1 b2 a1 a2
        omega
      · have : q = n := by omega
        subst this
        rw [hold q le_rfl, hnew, ← hbase]
        exact hlast pre e post he
    · intro q hq rr h1 h2
      rcases Nat.lt_or_ge q n with hqn | hqn
      · rw [hold q (by omega)] at h1 ⊢
        rw [hold (q + 1) (by omega)] at h2
        exact I.full q hqn rr h1 h2
      · have : q = n := by omega
        subst this
        rw [hold q le_rfl, ← hbase] at h1 ⊢
        rw [hnew] at h2
        rcases m2 with m2 | ⟨k, hk⟩
        · omega
        · rw [f1] at hk
          split_ifs at hk with h0
          have hk' := Option.some.inj hk
          obtain ⟨pre, e, post, p1, p2, p3⟩ := exists_nth (fun e => evCol x e == k) (buEvents x q) (rr - base) (by omega)
          refine ⟨pre, e, post, p1, ?_⟩
          have hke : evCol x e = k := by simpa using p2
          unfold place
          rw [hke, p3]
          omega

end TicTac
end
