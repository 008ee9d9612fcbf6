import Verif.Lemmas.HeapCheck

/-! The checker is sound. -/
namespace TicTac

def addrs (m : Mem) (x : Ptr) : List Nat := match m.ptr x with
  | .addr as => as
  | _ => []

def hBlock (m : Mem) (e : Ptr × Ptr × Cnt) : List (Nat × Ptr) := (addrs m e.1).map fun a => (a, e.2.1)

def leakVal (ν : HeapEnv) (l : HLeak) (x : Ptr) : Nat := if l.1 = x then (l.2.map ν.cnt).prod else 0
def lostVal (ν : HeapEnv) (k : List HLeak) (x : Ptr) : Nat := (k.map fun l => leakVal ν l x).sum

/-- What the state of the checker says about the heap. -/
structure HRel (ν : HeapEnv) (s : HSt) (K : Ptr → Nat) (m : Mem) : Prop where
  holders : (s.own.map (·.1)).Nodup
  distinct : (m.live.map (·.1)).Nodup
  fresh : ∀ b ∈ m.live, b.1 < m.next
  held : ∀ e ∈ s.own, m.ptr e.1 = .addr (addrs m e.1) ∧ (addrs m e.1).length = ν.cnt e.2.2
  split : ∃ lk, m.live.Perm (s.own.flatMap (hBlock m) ++ lk) ∧ ∀ x, (lk.map (·.2)).count x = K x
  null : ∀ x ∈ s.nulls, m.ptr x = .null

theorem addrs_set (m : Mem) (x y : Ptr) (v : PVal) (h : y ≠ x) : addrs (setPtr m x v) y = addrs m y := by simp [addrs, setPtr, h]

theorem hBlock_set (m : Mem) (x : Ptr) (v : PVal) (e : Ptr × Ptr × Cnt) (h : e.1 ≠ x) : hBlock (setPtr m x v) e = hBlock m e := by
  simp [hBlock, addrs_set m x _ v h]

theorem lostVal_nil (ν : HeapEnv) (x : Ptr) : lostVal ν [] x = 0 := rfl
theorem lostVal_append (ν : HeapEnv) (k l : List HLeak) (x : Ptr) : lostVal ν (k ++ l) x = lostVal ν k x + lostVal ν l x := by simp [lostVal]

theorem count_block (m : Mem) (e : Ptr × Ptr × Cnt) (x : Ptr) : ((hBlock m e).map (·.2)).count x = if e.2.1 = x then (addrs m e.1).length else 0 := by
  simp only [hBlock, List.map_map, Function.comp_def, List.map_const']
  split_ifs with h
  · rw [h, List.count_replicate_self]
  · rw [List.count_eq_zero]; intro hm; exact h (List.mem_replicate.1 hm).2.symm

theorem count_blocks (ν : HeapEnv) (m : Mem) (x : Ptr) : ∀ l : List (Ptr × Ptr × Cnt), (∀ e ∈ l, (addrs m e.1).length = ν.cnt e.2.2) →
    ((l.flatMap (hBlock m)).map (·.2)).count x = lostVal ν (l.map fun e => (e.2.1, [e.2.2])) x
  | [], _ => rfl
  | e :: l, h => by
    rw [List.flatMap_cons, List.map_append, List.count_append, count_block, count_blocks ν m x l fun e he => h e (List.mem_cons_of_mem _ he)]
    simp [lostVal, leakVal, h e (List.mem_cons_self ..)]

/-- The variable `x` is assigned anything. -/
theorem HRel.forget {ν : HeapEnv} {s : HSt} {K : Ptr → Nat} {m : Mem} (h : HRel ν s K m) (x : Ptr) (v : PVal) :
    HRel ν (hForget s x) (fun y => K y + lostVal ν (hLost s x) y) (setPtr m x v) := by
  have hne : ∀ e ∈ (hForget s x).own, e ∈ s.own ∧ e.1 ≠ x := fun e he => by simpa [hForget] using he
  refine ⟨(List.filter_sublist.map _).nodup h.holders, h.distinct, h.fresh, fun e he => ?_, ?_, fun y hy => ?_⟩
  · obtain ⟨h1, h2⟩ := hne e he
    rw [addrs_set m x _ v h2]
    exact ⟨by rw [← (h.held e h1).1]; simp [setPtr, h2], (h.held e h1).2⟩
  · obtain ⟨lk, h1, h2⟩ := h.split
    refine ⟨(s.own.filter fun e => e.1 = x).flatMap (hBlock m) ++ lk, ?_, fun y => ?_⟩
    · have e1 : (hForget s x).own.flatMap (hBlock (setPtr m x v)) = (hForget s x).own.flatMap (hBlock m) :=
        List.flatMap_congr fun e he => hBlock_set m x v e (hne e he).2
      rw [e1, ← List.append_assoc]
      refine h1.trans (List.Perm.append_right _ ?_)
      rw [← List.flatMap_append]
      refine List.Perm.flatMap_right _ ((List.filter_append_perm (fun e => decide (e.1 = x)) s.own).symm.trans ?_)
      refine List.perm_append_comm.trans (List.Perm.append_right _ ?_)
      simp only [hForget]
      refine List.Perm.of_eq (List.filter_congr fun e _ => by simp)
    · rw [List.map_append, List.count_append, h2, count_blocks ν m y _ fun e he => (h.held e (List.mem_of_mem_filter he)).2, hLost]; ring
  · have : y ∈ s.nulls ∧ y ≠ x := by simpa [hForget] using hy
    simp [setPtr, this.2, h.null y this.1]

theorem freeAll_ok : ∀ (as : List Nat) (live : List (Nat × Ptr)), as.Nodup → (∀ a ∈ as, a ∈ live.map (·.1)) →
    freeAll live as = .ok (live.filter fun b => b.1 ∉ as)
  | [], live, _, _ => by simp [freeAll]
  | a :: as, live, h1, h2 => by
    have ha := (List.nodup_cons.1 h1).1
    rw [freeAll, freeOne, if_pos (h2 a (List.mem_cons_self ..))]
    simp only
    rw [freeAll_ok as _ (List.nodup_cons.1 h1).2 fun b hb => ?_]
    · rw [List.filter_filter]; congr 1; refine List.filter_congr fun b _ => ?_
      simp only [List.mem_cons, decide_not]; by_cases h1 : b.1 = a <;> by_cases h2 : b.1 ∈ as <;> simp [h1, h2]
    · obtain ⟨c, hc, rfl⟩ := List.mem_map.1 (h2 b (List.mem_cons_of_mem _ hb))
      exact List.mem_map.2 ⟨c, List.mem_filter.2 ⟨hc, by simp; rintro rfl; exact ha hb⟩, rfl⟩

theorem own_perm (s : HSt) (e : Ptr × Ptr × Cnt) (h : (s.own.map (·.1)).Nodup) (he : e ∈ s.own) :
    s.own.Perm (e :: s.own.filter fun e' => e'.1 ≠ e.1) := by
  generalize s.own = l at h he
  induction l with
  | nil => cases he
  | cons f l ih =>
    rw [List.map_cons, List.nodup_cons] at h
    rcases List.mem_cons.1 he with rfl | h'
    · rw [List.filter_cons_of_neg (by simp), List.filter_eq_self.2]
      intro g hg; simp only [decide_eq_true_eq]; intro h2; exact h.1 (List.mem_map.2 ⟨g, hg, h2⟩)
    · have : f.1 ≠ e.1 := fun h2 => h.1 (List.mem_map.2 ⟨e, h', h2.symm⟩)
      rw [List.filter_cons_of_pos (by simpa using this)]
      exact ((ih h.2 h').cons f).trans (List.Perm.swap ..)

theorem HRel.mono {ν : HeapEnv} {s : HSt} {K L : Ptr → Nat} {m : Mem} (h : HRel ν s K m) (e : ∀ x, K x = L x) : HRel ν s L m := by
  have : K = L := funext e
  exact this ▸ h

/-- A held array is alive. -/
theorem HRel.alive {ν : HeapEnv} {s : HSt} {K : Ptr → Nat} {m : Mem} (h : HRel ν s K m) {e : Ptr × Ptr × Cnt} (he : e ∈ s.own) :
    ∀ a ∈ addrs m e.1, a ∈ m.live.map (·.1) := by
  intro a ha
  obtain ⟨lk, h1, _⟩ := h.split
  refine List.mem_map.2 ⟨(a, e.2.1), h1.symm.subset (List.mem_append_left _ (List.mem_flatMap.2 ⟨e, he, List.mem_map.2 ⟨a, ha, rfl⟩⟩)), rfl⟩

theorem HRel.new {ν : HeapEnv} {s : HSt} {K : Ptr → Nat} {m : Mem} (h : HRel ν s K m) (x : Ptr) (n : Cnt) :
    ∃ m', hstep ν (.new x n) m = .ok m' ∧
      HRel ν { own := (x, x, n) :: (hForget s x).own, nulls := (hForget s x).nulls } (fun y => K y + lostVal ν (hLost s x) y) m' := by
  refine ⟨_, rfl, ?_⟩
  set as := (List.range (ν.cnt n)).map (m.next + ·) with has
  have hf := h.forget x (.addr as)
  set m' : Mem := { ptr := fun y => if y = x then .addr as else m.ptr y, live := m.live ++ as.map fun a => (a, x), next := m.next + ν.cnt n } with hm'
  have ax : addrs m' x = as := by simp [addrs, hm']
  have ay : ∀ y, y ≠ x → addrs m' y = addrs (setPtr m x (.addr as)) y := fun y hy => by simp [addrs, hm', setPtr]
  have hne : ∀ e ∈ (hForget s x).own, e.1 ≠ x := fun e he => by
    have : e ∈ s.own ∧ e.1 ≠ x := by simpa [hForget] using he
    exact this.2
  have lo : ∀ a ∈ as, m.next ≤ a ∧ a < m.next + ν.cnt n := fun a ha => by
    obtain ⟨i, hi, rfl⟩ := List.mem_map.1 ha
    have := List.mem_range.1 hi; omega
  have nd : as.Nodup := (List.nodup_range).map fun i j e => by simpa using e
  refine ⟨List.nodup_cons.2 ⟨fun hm => ?_, hf.holders⟩, ?_, ?_, ?_, ?_, ?_⟩
  · obtain ⟨e, he, h2⟩ := List.mem_map.1 hm
    exact hne e he h2
  · show ((m.live ++ as.map fun a => (a, x)).map (·.1)).Nodup
    rw [List.map_append, List.map_map]
    refine List.Nodup.append h.distinct (by simpa [Function.comp_def] using nd) fun a h1 h2 => ?_
    obtain ⟨b, hb, rfl⟩ := List.mem_map.1 h1
    have := h.fresh b hb
    have h3 : b.1 ∈ as := by simpa [Function.comp_def] using h2
    have := lo _ h3; omega
  · intro b hb
    rcases List.mem_append.1 hb with hb | hb
    · have := h.fresh b hb; show b.1 < m.next + ν.cnt n; omega
    · obtain ⟨a, ha, rfl⟩ := List.mem_map.1 hb
      exact (lo a ha).2
  · intro e he
    rcases List.mem_cons.1 he with rfl | he
    · refine ⟨?_, ?_⟩
      · show m'.ptr x = .addr (addrs m' x)
        rw [ax]; simp [hm']
      · show (addrs m' x).length = _
        rw [ax]; simp [has]
    · have := hf.held e he
      rw [ay e.1 (hne e he)]
      refine ⟨?_, this.2⟩
      rw [← this.1]; simp [hm', setPtr]
  · obtain ⟨lk, h1, h2⟩ := hf.split
    refine ⟨lk, ?_, h2⟩
    have e1 : (hForget s x).own.flatMap (hBlock m') = (hForget s x).own.flatMap (hBlock (setPtr m x (.addr as))) :=
      List.flatMap_congr fun e he => by simp [hBlock, ay e.1 (hne e he)]
    rw [List.flatMap_cons, e1, List.append_assoc]
    have e2 : hBlock m' (x, x, n) = as.map fun a => (a, x) := by simp [hBlock, ax]
    rw [e2]
    exact List.perm_append_comm.trans (List.Perm.append_left _ h1)
  · intro y hy
    have := hf.null y hy
    rw [← this]; simp [hm', setPtr]

theorem HRel.del {ν : HeapEnv} {s : HSt} {K : Ptr → Nat} {m : Mem} (h : HRel ν s K m) (e : Ptr × Ptr × Cnt) (he : e ∈ s.own) :
    ∃ m', hstep ν (.del e.1 e.2.2) m = .ok m' ∧ HRel ν { own := s.own.filter fun e' => e'.1 ≠ e.1, nulls := s.nulls } K m' := by
  obtain ⟨hp, hl⟩ := h.held e he
  obtain ⟨lk, h1, h2⟩ := h.split
  have hperm := own_perm s e h.holders he
  set own' := s.own.filter fun e' => e'.1 ≠ e.1 with hown
  have h1' : m.live.Perm (hBlock m e ++ (own'.flatMap (hBlock m) ++ lk)) := by
    refine h1.trans ?_
    rw [← List.append_assoc, ← List.flatMap_cons]
    exact List.Perm.append_right _ (hperm.flatMap_right _)
  have nd : ((hBlock m e ++ (own'.flatMap (hBlock m) ++ lk)).map (·.1)).Nodup := (h1'.map _).nodup_iff.1 h.distinct
  rw [List.map_append, List.nodup_append'] at nd
  obtain ⟨n1, n2, n3⟩ := nd
  have eb : (hBlock m e).map (·.1) = addrs m e.1 := by simp [hBlock, Function.comp_def]
  rw [eb] at n1 n3
  have hfree := freeAll_ok (addrs m e.1) m.live n1 (h.alive he)
  refine ⟨{ m with live := m.live.filter fun b => b.1 ∉ addrs m e.1 }, ?_, ?_⟩
  · simp only [hstep, hp]
    rw [if_pos (by omega), ← hl, List.take_length, hfree]
  · have hlive : (m.live.filter fun b => b.1 ∉ addrs m e.1).Perm (own'.flatMap (hBlock m) ++ lk) := by
      refine (h1'.filter _).trans ?_
      rw [List.filter_append, List.filter_eq_nil_iff.2, List.nil_append, List.filter_eq_self.2]
      · intro b hb
        simp only [decide_eq_true_eq]
        intro hb2
        exact n3 hb2 (List.mem_map_of_mem hb)
      · intro b hb
        have : b.1 ∈ addrs m e.1 := by rw [← eb]; exact List.mem_map_of_mem hb
        simpa using this
    refine ⟨(List.filter_sublist.map _).nodup h.holders, (List.filter_sublist.map _).nodup h.distinct, fun b hb => h.fresh b (List.mem_of_mem_filter hb),
      fun f hf => h.held f (List.mem_of_mem_filter hf), ⟨lk, hlive, h2⟩, h.null⟩

theorem HRel.move {ν : HeapEnv} {s : HSt} {K : Ptr → Nat} {m : Mem} (h : HRel ν s K m) (x y : Ptr) (hx : ∀ e ∈ s.own, e.1 ≠ x) :
    HRel ν { own := s.own.map (hRename x y), nulls := s.nulls.filter fun z => z ≠ x } K (setPtr m x (m.ptr y)) := by
  have ae : ∀ e ∈ s.own, addrs (setPtr m x (m.ptr y)) (hRename x y e).1 = addrs m e.1 := fun e he => by
    unfold hRename
    split_ifs with h1
    · simp [addrs, setPtr, h1]
    · exact addrs_set _ _ _ _ (hx e he)
  have pe : ∀ e ∈ s.own, (setPtr m x (m.ptr y)).ptr (hRename x y e).1 = m.ptr e.1 := fun e he => by
    unfold hRename
    split_ifs with h1
    · simp [setPtr, h1]
    · simp [setPtr, hx e he]
  have re : ∀ e, (hRename x y e).2 = e.2 := fun e => by unfold hRename; split_ifs <;> rfl
  refine ⟨?_, h.distinct, h.fresh, fun e he => ?_, ?_, fun z hz => ?_⟩
  · have : ∀ l : List (Ptr × Ptr × Cnt), (∀ e ∈ l, e.1 ≠ x) → (l.map (·.1)).Nodup → ((l.map (hRename x y)).map (·.1)).Nodup := by
      intro l hl hn
      rw [List.map_map]
      refine List.Nodup.map_on ?_ (List.Nodup.of_map _ hn)
      intro a ha b hb hab
      have key : a.1 = b.1 := by
        simp only [Function.comp_apply, hRename] at hab
        split_ifs at hab with h1 h2 h2
        · rw [h1, h2]
        · exact absurd hab.symm (hl b hb)
        · exact absurd hab (hl a ha)
        · exact hab
      exact List.inj_on_of_nodup_map hn ha hb key
    exact this _ hx h.holders
  · obtain ⟨f, hf, rfl⟩ := List.mem_map.1 he
    rw [ae f hf, pe f hf, re]
    exact h.held f hf
  · obtain ⟨lk, h1, h2⟩ := h.split
    refine ⟨lk, ?_, h2⟩
    have : (s.own.map (hRename x y)).flatMap (hBlock (setPtr m x (m.ptr y))) = s.own.flatMap (hBlock m) := by
      rw [List.flatMap_map]
      refine List.flatMap_congr fun e he => ?_
      simp [hBlock, ae e he, re]
    rw [this]; exact h1
  · have : z ∈ s.nulls ∧ z ≠ x := by simpa using hz
    simp [setPtr, this.2, h.null z this.1]

theorem checkOp_sound (ν : HeapEnv) (o : HOp) (s s' : HSt) (k : List HLeak) (hc : hCheckOp o s = some (s', k)) (K : Ptr → Nat) (m : Mem)
    (h : HRel ν s K m) : ∃ m', hstep ν o m = .ok m' ∧ HRel ν s' (fun x => K x + lostVal ν k x) m' := by
  cases o with
  | new x n =>
    simp only [hCheckOp, Option.some.injEq, Prod.mk.injEq] at hc
    obtain ⟨rfl, rfl⟩ := hc
    exact h.new x n
  | del x n =>
    simp only [hCheckOp] at hc
    split_ifs at hc with h1 h2
    · obtain ⟨e, he, rfl, rfl⟩ := h1
      simp only [Option.some.injEq, Prod.mk.injEq] at hc
      obtain ⟨rfl, rfl⟩ := hc
      obtain ⟨m', h3, h4⟩ := h.del e he
      exact ⟨m', h3, h4.mono fun x => by simp [lostVal_nil]⟩
    · simp only [Option.some.injEq, Prod.mk.injEq] at hc
      obtain ⟨rfl, rfl⟩ := hc
      refine ⟨m, ?_, h.mono fun x => by simp [lostVal_nil]⟩
      simp [hstep, h.null x h2.1, h2.2, ν.one]
  | null x =>
    simp only [hCheckOp, Option.some.injEq, Prod.mk.injEq] at hc
    obtain ⟨rfl, rfl⟩ := hc
    have hf := h.forget x .null
    refine ⟨_, rfl, hf.holders, hf.distinct, hf.fresh, hf.held, hf.split, fun y hy => ?_⟩
    rcases List.mem_cons.1 hy with rfl | hy
    · simp [setPtr]
    · exact hf.null y hy
  | use x =>
    simp only [hCheckOp] at hc
    split_ifs at hc with h1
    obtain ⟨e, he, rfl⟩ := h1
    simp only [Option.some.injEq, Prod.mk.injEq] at hc
    obtain ⟨rfl, rfl⟩ := hc
    refine ⟨m, ?_, h.mono fun x => by simp [lostVal_nil]⟩
    simp only [hstep, (h.held e he).1]
    rw [if_pos (h.alive he)]
  | move x y =>
    simp only [hCheckOp] at hc
    split_ifs at hc with h1
    simp only [Option.some.injEq, Prod.mk.injEq] at hc
    obtain ⟨rfl, rfl⟩ := hc
    exact ⟨_, rfl, (h.move x y h1.1).mono fun x => by simp [lostVal_nil]⟩
  | drop x =>
    simp only [hCheckOp, Option.some.injEq, Prod.mk.injEq] at hc
    obtain ⟨rfl, rfl⟩ := hc
    exact ⟨_, rfl, h.forget x .junk⟩

theorem lostVal_cons (ν : HeapEnv) (n : Cnt) (k : List HLeak) (x : Ptr) : lostVal ν (k.map fun l => (l.1, n :: l.2)) x = ν.cnt n * lostVal ν k x := by
  induction k with
  | nil => simp [lostVal]
  | cons l k ih =>
    have e : ∀ l k, lostVal ν (l :: k) x = leakVal ν l x + lostVal ν k x := fun l k => by simp [lostVal]
    rw [List.map_cons, e, e, ih, Nat.mul_add]
    congr 1
    simp only [leakVal]
    split_ifs <;> simp

theorem iter_sound (ν : HeapEnv) (R : Mem → Except Fault Mem → Prop) (s : HSt) (L : Ptr → Nat)
    (hR : ∀ K m r, HRel ν s K m → R m r → ∃ m', r = .ok m' ∧ HRel ν s (fun x => K x + L x) m') :
    ∀ n K m r, HRel ν s K m → HIter R n m r → ∃ m', r = .ok m' ∧ HRel ν s (fun x => K x + n * L x) m'
  | 0, K, m, r, h, h2 => ⟨m, h2, h.mono fun x => by simp⟩
  | n + 1, K, m, r, h, ⟨r1, h1, h2⟩ => by
    obtain ⟨m1, rfl, h3⟩ := hR K m r1 h h1
    obtain ⟨m2, h4, h5⟩ := iter_sound ν R s L hR n _ m1 r h3 h2
    exact ⟨m2, h4, h5.mono fun x => by ring⟩

theorem check_sound (ν : HeapEnv) : ∀ (p : HProg) (s s' : HSt) (k : List HLeak), hCheck ν.flag p s = some (s', k) → ∀ K m r, HRel ν s K m →
    Outcome ν p m r → ∃ m', r = .ok m' ∧ HRel ν s' (fun x => K x + lostVal ν k x) m'
  | .op o, s, s', k, hc, K, m, r, h, ho => by
    obtain ⟨m', h1, h2⟩ := checkOp_sound ν o s s' k hc K m h
    exact ⟨m', by rw [← h1]; exact ho, h2⟩
  | .skip, s, s', k, hc, K, m, r, h, ho => by
    simp only [hCheck, Option.some.injEq, Prod.mk.injEq] at hc
    obtain ⟨rfl, rfl⟩ := hc
    exact ⟨m, ho, h.mono fun x => by simp [lostVal_nil]⟩
  | .seq p q, s, s', k, hc, K, m, r, h, ho => by
    simp only [hCheck] at hc
    split at hc
    · cases hc
    rename_i r1 hp
    split at hc
    · cases hc
    rename_i r2 hq
    simp only [Option.some.injEq, Prod.mk.injEq] at hc
    obtain ⟨rfl, rfl⟩ := hc
    obtain ⟨o1, h1, h2⟩ := ho
    obtain ⟨m1, rfl, h3⟩ := check_sound ν p s r1.1 r1.2 hp K m o1 h h1
    obtain ⟨m2, h4, h5⟩ := check_sound ν q r1.1 r2.1 r2.2 hq _ m1 r h3 h2
    exact ⟨m2, h4, h5.mono fun x => by rw [lostVal_append]; ring⟩
  | .rep n p, s, s', k, hc, K, m, r, h, ho => by
    simp only [hCheck] at hc
    split at hc
    · cases hc
    rename_i r1 hp
    split_ifs at hc with h1
    simp only [Option.some.injEq, Prod.mk.injEq] at hc
    obtain ⟨rfl, rfl⟩ := hc
    obtain ⟨m', h2, h3⟩ := iter_sound ν (Outcome ν p) s (fun x => lostVal ν r1.2 x)
      (fun K m r hK hr => check_sound ν p s s r1.2 (by rw [hp, ← h1]) K m r hK hr) _ K m r h ho
    exact ⟨m', h2, h3.mono fun x => by rw [lostVal_cons]⟩
  | .star p, s, s', k, hc, K, m, r, h, ho => by
    simp only [hCheck] at hc
    split at hc
    · cases hc
    rename_i r1 hp
    split_ifs at hc with h1
    simp only [Option.some.injEq, Prod.mk.injEq] at hc
    obtain ⟨rfl, rfl⟩ := hc
    obtain ⟨n, ho⟩ := ho
    obtain ⟨m', h2, h3⟩ := iter_sound ν (Outcome ν p) s (fun x => lostVal ν [] x)
      (fun K m r hK hr => check_sound ν p s s [] (by rw [hp, ← h1.2, ← h1.1]) K m r hK hr) n K m r h ho
    exact ⟨m', h2, h3.mono fun x => by simp [lostVal_nil]⟩
  | .ite f p q, s, s', k, hc, K, m, r, h, ho => by
    simp only [hCheck] at hc
    simp only [Outcome] at ho
    split_ifs at hc ho with h1
    · exact check_sound ν p s s' k hc K m r h ho
    · exact check_sound ν q s s' k hc K m r h ho

/-- Nothing goes wrong before the end either. -/
theorem stopped_sound (ν : HeapEnv) : ∀ (p : HProg) (s s' : HSt) (k : List HLeak), hCheck ν.flag p s = some (s', k) → ∀ K m r, HRel ν s K m →
    Stopped ν p m r → ∃ m', r = .ok m'
  | .op o, s, s', k, hc, K, m, r, h, ho => by
    rcases ho with rfl | rfl
    · exact ⟨m, rfl⟩
    · obtain ⟨m', h1, _⟩ := checkOp_sound ν o s s' k hc K m h
      exact ⟨m', h1⟩
  | .skip, s, s', k, hc, K, m, r, h, ho => ⟨m, ho⟩
  | .seq p q, s, s', k, hc, K, m, r, h, ho => by
    simp only [hCheck] at hc
    split at hc
    · cases hc
    rename_i r1 hp
    split at hc
    · cases hc
    rename_i r2 hq
    rcases ho with ho | ⟨m1, h1, h2⟩
    · exact stopped_sound ν p s r1.1 r1.2 hp K m r h ho
    · obtain ⟨m2, e, h3⟩ := check_sound ν p s r1.1 r1.2 hp K m _ h h1
      cases e
      exact stopped_sound ν q r1.1 r2.1 r2.2 hq _ m1 r h3 h2
  | .rep n p, s, s', k, hc, K, m, r, h, ho => by
    simp only [hCheck] at hc
    split at hc
    · cases hc
    rename_i r1 hp
    split_ifs at hc with h1
    rcases ho with rfl | ⟨j, _, m1, h2, h3⟩
    · exact ⟨m, rfl⟩
    · have hp' : hCheck ν.flag p s = some (s, r1.2) := by rw [hp, ← h1]
      obtain ⟨m2, e, h4⟩ := iter_sound ν (Outcome ν p) s (fun x => lostVal ν r1.2 x)
        (fun K m r hK hr => check_sound ν p s s r1.2 hp' K m r hK hr) j K m _ h h2
      cases e
      exact stopped_sound ν p s s r1.2 hp' _ m1 r h4 h3
  | .star p, s, s', k, hc, K, m, r, h, ho => by
    simp only [hCheck] at hc
    split at hc
    · cases hc
    rename_i r1 hp
    split_ifs at hc with h1
    rcases ho with rfl | ⟨j, m1, h2, h3⟩
    · exact ⟨m, rfl⟩
    · have hp' : hCheck ν.flag p s = some (s, r1.2) := by rw [hp, ← h1.1]
      obtain ⟨m2, e, h4⟩ := iter_sound ν (Outcome ν p) s (fun x => lostVal ν r1.2 x)
        (fun K m r hK hr => check_sound ν p s s r1.2 hp' K m r hK hr) j K m _ h h2
      cases e
      exact stopped_sound ν p s s r1.2 hp' _ m1 r h4 h3
  | .ite f p q, s, s', k, hc, K, m, r, h, ho => by
    simp only [hCheck] at hc
    simp only [Stopped] at ho
    split_ifs at hc ho with h1
    · exact stopped_sound ν p s s' k hc K m r h ho
    · exact stopped_sound ν q s s' k hc K m r h ho

end TicTac
