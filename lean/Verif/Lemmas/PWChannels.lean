import Verif.Lemmas.PWStates
import Mathlib.Data.List.Perm.Lattice
import Mathlib.Data.List.Induction
namespace TicTac
open Spec

/-- Start offset of the `i`-th channel block. -/
def chanOffset (p : PWParams) (i : Nat) : Nat :=
  (((channelLoop p).take i).flatMap (fun c => channelStates p c.1 c.2)).length

theorem pwLoop_chn_aux (p : PWParams) (cs : List (Int × Int)) (a : PWAcc) (ha : a.prev = a.states.length)
    (hne : ∀ c ∈ cs, channelStates p c.1 c.2 ≠ []) :
    (cs.foldl (pwStep p) a).chn = a.chn ++ (List.range cs.length).map (fun i =>
      a.states.length + ((cs.take i).flatMap (fun c => channelStates p c.1 c.2)).length) := by
  induction cs generalizing a with
  | nil => simp
  | cons c cs ih =>
    rw [List.foldl_cons, ih _ (by simp [pwStep]) (fun d hd => hne d (by simp [hd]))]
    have h1 : (channelStates p c.1 c.2).length ≠ 0 := by
      simpa using hne c (by simp)
    simp only [pwStep, h1, ne_eq, not_false_eq_true, if_true, List.length_append, List.length_cons,
      List.range_succ_eq_map, List.map_cons, List.take_zero, List.flatMap_nil, List.length_nil,
      Nat.add_zero, List.map_map, List.append_assoc, List.cons_append, List.nil_append, ha]
    congr 2
    apply List.map_congr_left
    intro i _
    simp [Nat.add_assoc]

theorem pwLoop_chn (p : PWParams) (hp : 0 ≤ p.J2max) :
    (pwLoop p).chn = (List.range (channelLoop p).length).map (chanOffset p) := by
  unfold pwLoop
  rw [pwLoop_chn_aux p _ _ rfl (fun c hc => channelStates_ne_nil hp hc)]
  simp [chanOffset]

theorem forRange_odd (m : Nat) : forRange 1 (2 * (m : Int) + 1) 2 = (List.range (m + 1)).map
    (fun k : Nat => 1 + 2 * (k : Int)) := by
  unfold forRange
  have : ((2 * (m : Int) + 1 - 1) / 2 + 1).toNat = m + 1 := by omega
  rw [this]

theorem channelLoop_eq_aux (m : Nat) :
    ((List.range (m + 1)).map (fun k : Nat => 1 + 2 * (k : Int))).flatMap
      (fun twoJ3 => (forRange 0 1 1).map fun rem => (twoJ3, rem)) =
    (List.range (2 * m + 2)).map (fun c : Nat => (2 * ((c / 2 : Nat) : Int) + 1, ((c % 2 : Nat) : Int))) := by
  have h01 : forRange 0 1 1 = [0, 1] := by decide
  induction m with
  | zero => rw [h01]; decide
  | succ m ih =>
    rw [List.range_succ, List.map_append, List.flatMap_append, ih]
    have : 2 * (m + 1) + 2 = (2 * m + 2 + 1) + 1 := by omega
    rw [this, List.range_succ (n := 2 * m + 2 + 1), List.range_succ (n := 2 * m + 2)]
    simp only [h01, List.map_cons, List.map_nil, List.flatMap_cons, List.flatMap_nil, List.map_append,
      List.append_nil, List.append_assoc, List.cons_append, List.nil_append]
    have e1 : (1 + 2 * ((m + 1 : Nat) : Int), (0 : Int)) =
        (2 * (((2 * m + 2) / 2 : Nat) : Int) + 1, (((2 * m + 2) % 2 : Nat) : Int)) := by
      apply Prod.ext <;> simp only <;> omega
    have e2 : (1 + 2 * ((m + 1 : Nat) : Int), (1 : Int)) =
        (2 * (((2 * m + 2 + 1) / 2 : Nat) : Int) + 1, (((2 * m + 2 + 1) % 2 : Nat) : Int)) := by
      apply Prod.ext <;> simp only <;> omega
    rw [e1, e2]

theorem channelLoop_eq {p : PWParams} (hv : ValidTruncation p) :
    channelLoop p = (List.range (p.twoJ3max + 1).toNat).map
      (fun c : Nat => (2 * ((c / 2 : Nat) : Int) + 1, ((c % 2 : Nat) : Int))) := by
  obtain ⟨_, h1, h2⟩ := hv
  obtain ⟨m, hm⟩ : ∃ m : Nat, p.twoJ3max = 2 * (m : Int) + 1 := ⟨(p.twoJ3max / 2).toNat, by omega⟩
  have : (p.twoJ3max + 1).toNat = 2 * m + 2 := by omega
  unfold channelLoop
  rw [this, hm, forRange_odd, channelLoop_eq_aux]

theorem channelLoop_length {p : PWParams} (hv : ValidTruncation p) :
    (channelLoop p).length = (p.twoJ3max + 1).toNat := by
  rw [channelLoop_eq hv]; simp

theorem chanOffset_zero (p : PWParams) : chanOffset p 0 = 0 := by simp [chanOffset]

theorem chanOffset_succ (p : PWParams) {i : Nat} (hi : i < (channelLoop p).length) :
    chanOffset p (i + 1) = chanOffset p i +
      (channelStates p ((channelLoop p)[i]).1 ((channelLoop p)[i]).2).length := by
  unfold chanOffset
  rw [List.take_succ_eq_append_getElem hi, List.flatMap_append]
  simp

theorem chanOffset_length (p : PWParams) :
    chanOffset p (channelLoop p).length = ((channelLoop p).flatMap (fun c => channelStates p c.1 c.2)).length := by
  simp [chanOffset]

/-- The whole result of the construction, in closed form. -/
theorem constructPW_closed {p : PWParams} (hp : 0 ≤ p.J2max) :
    constructPW p = some
      { states := (channelLoop p).flatMap (fun c => channelStates p c.1 c.2)
        chnIdx := (List.range ((channelLoop p).length + 1)).map (chanOffset p)
        nChn := (channelLoop p).length } := by
  unfold constructPW
  rw [if_neg (by omega)]
  simp only [pwLoop_states, pwLoop_chn p hp]
  rw [List.range_succ]
  simp [chanOffset_length]

theorem drop_take_flatMap {α β : Type*} (f : α → List β) (xs : List α) (i : Nat) (hi : i < xs.length) :
    ((xs.flatMap f).drop ((xs.take i).flatMap f).length).take (f xs[i]).length = f xs[i] := by
  have h : xs.flatMap f = (xs.take i).flatMap f ++ (f xs[i] ++ (xs.drop (i + 1)).flatMap f) := by
    conv_lhs => rw [← List.take_append_drop i xs, List.flatMap_append, List.drop_eq_getElem_cons hi]
    rw [List.flatMap_cons]
  rw [h, List.drop_left, List.take_left]

theorem block_eq {p : PWParams} {w : PWSpace} (hp : 0 ≤ p.J2max) (h : constructPW p = some w)
    {c : Nat} (hc : c < (channelLoop p).length) :
    w.block c = channelStates p ((channelLoop p)[c]).1 ((channelLoop p)[c]).2 := by
  rw [constructPW_closed hp] at h
  simp only [Option.some.injEq] at h
  subst h
  unfold PWSpace.block
  have e1 : ((List.range ((channelLoop p).length + 1)).map (chanOffset p)).getD c 0 = chanOffset p c := by
    simp [List.getD_eq_getElem?_getD, List.getElem?_map, List.getElem?_range (show c < (channelLoop p).length + 1 by omega)]
  have e2 : ((List.range ((channelLoop p).length + 1)).map (chanOffset p)).getD (c + 1) 0 = chanOffset p (c + 1) := by
    simp [List.getD_eq_getElem?_getD, List.getElem?_map, List.getElem?_range (show c + 1 < (channelLoop p).length + 1 by omega)]
  simp only [e1, e2]
  rw [chanOffset_succ p hc, Nat.add_sub_cancel_left]
  exact drop_take_flatMap (fun c : Int × Int => channelStates p c.1 c.2) _ _ hc

/-- the state record with 3S1 pair (T=0), given spectator quantum numbers. -/
def dstate (l twoj twoJ3 P : Int) : PWState :=
  { L := 0, S := 1, J := 1, T := 0, l := l, twoj := twoj, twoJ3 := twoJ3, twoT3 := 1, P := P }

/-- spectator orbital angular momentum with parity `rem` for given `twoj`. -/
def lOf (twoj rem : Int) : Int := if ((twoj - 1) / 2) % 2 = rem then (twoj - 1) / 2 else (twoj + 1) / 2

theorem mem_filter_deuteron {p : PWParams} (hp : 1 ≤ p.J2max) {twoJ3 rem : Int} (hJ : 1 ≤ twoJ3)
    (hodd : twoJ3 % 2 = 1) (hr : 0 ≤ rem ∧ rem ≤ 1) {s : PWState} :
    s ∈ (channelStates p twoJ3 rem).filter isDeuteron ↔
      ∃ tj : Int, s = dstate (lOf tj rem) tj twoJ3 (1 - 2 * rem) ∧ 1 ≤ tj ∧
        (tj = twoJ3 - 2 ∨ tj = twoJ3 ∨ tj = twoJ3 + 2) := by
  rw [List.mem_filter, mem_channelStates]
  constructor
  · rintro ⟨⟨ht, hJ', hS, hL, hT, hp1, htj, hl, hpar, h3, hJ3, hP⟩, hd⟩
    simp only [isDeuteron, Bool.and_eq_true, beq_iff_eq] at hd
    obtain ⟨⟨⟨d1, d2⟩, d3⟩, d4⟩ := hd
    have ht1 : s.twoT3 = 1 := by omega
    refine ⟨s.twoj, ?_, by omega, by omega⟩
    have hl' : s.l = lOf s.twoj rem := by
      unfold lOf; split <;> omega
    cases s
    simp only [dstate, PWState.mk.injEq] at *
    exact ⟨d1.symm, d2.symm, d3.symm, d4.symm, hl', trivial, hJ3, ht1, hP⟩
  · rintro ⟨tj, rfl, h1, h2⟩
    have : (lOf tj rem = (tj - 1) / 2 ∨ lOf tj rem = (tj + 1) / 2) ∧ lOf tj rem % 2 = rem := by
      unfold lOf; split <;> omega
    refine ⟨?_, by simp [isDeuteron, dstate]⟩
    dsimp only [dstate, twoT3max]
    refine ⟨?_, ?_, ?_, ?_, ?_, ?_, ?_, ?_, ?_, ?_, rfl, rfl⟩
    · split <;> omega
    all_goals omega

theorem filter_deuteron_length {p : PWParams} (hp : 1 ≤ p.J2max) {twoJ3 rem : Int} (hJ : 1 ≤ twoJ3)
    (hodd : twoJ3 % 2 = 1) (hr : 0 ≤ rem ∧ rem ≤ 1) :
    ((channelStates p twoJ3 rem).filter isDeuteron).length = if twoJ3 = 1 then 2 else 3 := by
  have nd : ((channelStates p twoJ3 rem).filter isDeuteron).Nodup := (nodup_channelStates p twoJ3 rem).filter _
  by_cases h1 : twoJ3 = 1
  · have : ((channelStates p twoJ3 rem).filter isDeuteron).Perm
        [dstate (lOf 1 rem) 1 twoJ3 (1 - 2 * rem), dstate (lOf 3 rem) 3 twoJ3 (1 - 2 * rem)] := by
      rw [List.perm_ext_iff_of_nodup nd (by simp [dstate])]
      intro s
      rw [mem_filter_deuteron hp hJ hodd hr]
      constructor
      · rintro ⟨tj, rfl, a, b⟩
        have : tj = 1 ∨ tj = 3 := by omega
        rcases this with rfl | rfl <;> simp
      · intro hs
        simp only [List.mem_cons, List.not_mem_nil, or_false] at hs
        rcases hs with rfl | rfl
        · exact ⟨1, rfl, by omega, by omega⟩
        · exact ⟨3, rfl, by omega, by omega⟩
    rw [this.length_eq, if_pos h1]; rfl
  · have : ((channelStates p twoJ3 rem).filter isDeuteron).Perm
        [dstate (lOf (twoJ3 - 2) rem) (twoJ3 - 2) twoJ3 (1 - 2 * rem), dstate (lOf twoJ3 rem) twoJ3 twoJ3 (1 - 2 * rem),
         dstate (lOf (twoJ3 + 2) rem) (twoJ3 + 2) twoJ3 (1 - 2 * rem)] := by
      rw [List.perm_ext_iff_of_nodup nd (by simp [dstate]; omega)]
      intro s
      rw [mem_filter_deuteron hp hJ hodd hr]
      constructor
      · rintro ⟨tj, rfl, a, b⟩
        rcases b with rfl | rfl | rfl <;> simp
      · intro hs
        simp only [List.mem_cons, List.not_mem_nil, or_false] at hs
        rcases hs with rfl | rfl | rfl
        · exact ⟨_, rfl, by omega, by omega⟩
        · exact ⟨_, rfl, by omega, by omega⟩
        · exact ⟨_, rfl, by omega, by omega⟩
    rw [this.length_eq, if_neg h1]; rfl

theorem mem_indicesWhere {α : Type*} {f : α → Bool} {xs : List α} {i : Nat} :
    i ∈ indicesWhere f xs ↔ ∃ h : i < xs.length, f xs[i] = true := by
  unfold indicesWhere
  rw [List.mem_filter, List.mem_range]
  constructor
  · rintro ⟨h, hf⟩
    rw [List.getElem?_eq_getElem h] at hf
    exact ⟨h, hf⟩
  · rintro ⟨h, hf⟩
    refine ⟨h, ?_⟩
    rw [List.getElem?_eq_getElem h]
    exact hf

theorem sorted_indicesWhere {α : Type*} (f : α → Bool) (xs : List α) :
    (indicesWhere f xs).Pairwise (· < ·) := by
  unfold indicesWhere
  exact List.Pairwise.filter _ List.pairwise_lt_range

theorem length_indicesWhere {α : Type*} (f : α → Bool) (xs : List α) :
    (indicesWhere f xs).length = (xs.filter f).length := by
  induction xs using List.reverseRecOn with
  | nil => rfl
  | append_singleton xs x ih =>
    rw [List.filter_append, List.length_append, ← ih]
    unfold indicesWhere
    rw [List.length_append, List.length_singleton, List.range_succ, List.filter_append, List.length_append]
    congr 1
    · congr 1
      apply List.filter_congr
      intro i hi
      rw [List.mem_range] at hi
      rw [List.getElem?_append_left hi]
    · by_cases h : f x <;> simp [h]

end TicTac
