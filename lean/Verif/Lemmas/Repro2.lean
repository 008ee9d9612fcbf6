import Verif.Props.PadeSolve
/-! The iterative solver is a function of the coefficients of the elastic elements and of the one memory cell before the array of
approximants. -/
noncomputable section
namespace TicTac
open Spec
open Classical

/-- Two tables that agree in all cells that can influence the result. -/
structure SameTab (L : Nat) (t t' : OsTab) : Prop where
  conv : t.conv = t'.conv
  pa : ∀ z : Int, -1 ≤ z → z < (L : Int) * 15 → t.pa z = t'.pa z
  best : ∀ i, t.conv i = true → t.best i = t'.best i

theorem paElem_same {L NM : Nat} (hNM : NM < 15) {t t' : OsTab} (h : SameTab L t t') {idx : Nat} (hi : idx < L)
    (ha : t.conv idx = false → ∀ k ≤ 2 * NM, t.a (idx * 29 + k) = t'.a (idx * 29 + k)) :
    SameTab L (paElem NM t idx).1 (paElem NM t' idx).1 ∧ (paElem NM t idx).2 = (paElem NM t' idx).2 := by
  unfold paElem
  rw [← h.conv]
  by_cases hc : t.conv idx = true
  · rw [if_pos hc, if_pos hc]; exact ⟨h, rfl⟩
  · rw [if_neg hc, if_neg hc]
    have hcf : t.conv idx = false := by simpa using hc
    dsimp only
    have hP : padeApproximant (fun k => t.a (idx * 29 + k)) NM NM 1 = padeApproximant (fun k => t'.a (idx * 29 + k)) NM NM 1 :=
      padeApproximant_congr 1 fun k hk => ha hcf k (by omega)
    rw [← hP]
    generalize padeApproximant (fun k => t.a (idx * 29 + k)) NM NM 1 = u
    have hpa : ∀ z : Int, -1 ≤ z → z < (L : Int) * 15 →
        Function.update t.pa ((idx : Int) * 15 + NM) u z = Function.update t'.pa ((idx : Int) * 15 + NM) u z := by
      intro z h1 h2
      by_cases hz : z = (idx : Int) * 15 + NM
      · rw [hz, Function.update_self, Function.update_self]
      · rw [Function.update_of_ne hz, Function.update_of_ne hz]; exact h.pa z h1 h2
    have hk : ∀ k : Nat, k ≤ NM → Function.update t.pa ((idx : Int) * 15 + NM) u ((idx : Int) * 15 + k) =
        Function.update t'.pa ((idx : Int) * 15 + NM) u ((idx : Int) * 15 + k) := fun k hk => hpa _ (by omega) (by omega)
    have h1 : Function.update t.pa ((idx : Int) * 15 + NM) u ((idx : Int) * 15 - 1) =
        Function.update t'.pa ((idx : Int) * 15 + NM) u ((idx : Int) * 15 - 1) := hpa _ (by omega) (by omega)
    rw [← paConverged_congr hk h1, ← bestPA_congr hk h1]
    by_cases hcv : paConverged (Function.update t.pa ((idx : Int) * 15 + NM) u) idx NM = true
    · rw [if_pos hcv, if_pos hcv]
      refine ⟨⟨?_, hpa, fun i hci => ?_⟩, rfl⟩
      · rfl
      · dsimp only at hci ⊢
        by_cases he : i = idx
        · rw [he, Function.update_self, Function.update_self]
        · rw [Function.update_of_ne he] at hci
          rw [Function.update_of_ne he, Function.update_of_ne he]; exact h.best i hci
    · rw [if_neg hcv, if_neg hcv]
      exact ⟨⟨rfl, hpa, h.best⟩, rfl⟩

theorem paPass_same {L NM : Nat} (hNM : NM < 15) (es : List OsElem) (hes : ∀ e ∈ es, e.idx < L) {t t' : OsTab} (h : SameTab L t t')
    (ha : ∀ e ∈ es, t.conv e.idx = false → ∀ k ≤ 2 * NM, t.a (e.idx * 29 + k) = t'.a (e.idx * 29 + k)) :
    SameTab L (paPass NM es t).1 (paPass NM es t').1 ∧ (paPass NM es t).2 = (paPass NM es t').2 := by
  unfold paPass
  suffices hgen : ∀ (es : List OsElem) (r r' : OsTab × Nat), (∀ e ∈ es, e.idx < L) → SameTab L r.1 r'.1 → r.2 = r'.2 →
      (∀ e ∈ es, r.1.conv e.idx = false → ∀ k ≤ 2 * NM, r.1.a (e.idx * 29 + k) = r'.1.a (e.idx * 29 + k)) →
      SameTab L (es.foldl (fun r e => let r' := paElem NM r.1 e.idx; (r'.1, r.2 + r'.2)) r).1
        (es.foldl (fun r e => let r' := paElem NM r.1 e.idx; (r'.1, r.2 + r'.2)) r').1 ∧
      (es.foldl (fun r e => let r' := paElem NM r.1 e.idx; (r'.1, r.2 + r'.2)) r).2 =
        (es.foldl (fun r e => let r' := paElem NM r.1 e.idx; (r'.1, r.2 + r'.2)) r').2 from hgen es _ _ hes h rfl ha
  intro es
  induction es with
  | nil => intro r r' _ h1 h2 _; exact ⟨h1, h2⟩
  | cons e es ih =>
    intro r r' hL h1 h2 h3
    rw [List.foldl_cons, List.foldl_cons]
    obtain ⟨g1, g2⟩ := paElem_same hNM h1 (hL e List.mem_cons_self) (h3 e List.mem_cons_self)
    refine ih _ _ (fun x hx => hL x (List.mem_cons_of_mem _ hx)) g1 (by dsimp only; rw [h2, g2]) ?_
    intro x hx hc k hk
    dsimp only at hc ⊢
    rw [paElem_a, paElem_a]
    refine h3 x (List.mem_cons_of_mem _ hx) ?_ k hk
    by_contra hcx
    have hcx : r.1.conv x.idx = true := by simpa using hcx
    have : (paElem NM r.1 e.idx).1.conv x.idx = true := by
      by_cases hxe : x.idx = e.idx
      · rw [hxe] at hcx ⊢
        exact ((paElem_self NM r.1 e.idx).done hcx).1
      · rw [(paElem_other NM hNM r.1 e.idx x.idx hxe).1]; exact hcx
    rw [this] at hc; cases hc

section
variable {states : List PWState} {Nq Np : Nat} {c c' : PadeCfg} {A A' : Matrix (Idx states.length Nq Np) (Idx states.length Nq Np) ℝ}
  {deut : List (Fin states.length)} {qidx : List (Fin Nq)} {sched sched' : List Nat} {hNp : 0 < Np}

theorem el_of_mem (S : PadeSetup c A deut qidx sched hNp) {e : OsElem} (he : e ∈ elElems c) : e.idx < c.numEL ∧
    ∃ (i j : Fin deut.length) (q : Fin qidx.length), ElemIs c e i q ((deut.get j, qidx.get q, ⟨0, hNp⟩) : Idx states.length Nq Np) := by
  obtain ⟨i, hi, j, hj, q, hq, rfl⟩ := (mem_elElems c e).1 he
  have hnd := S.nd_eq
  have hnq := S.nq_eq
  refine ⟨?_, ⟨i, by omega⟩, ⟨j, by omega⟩, ⟨q, by omega⟩, rfl, ?_⟩
  · show i * c.nd * c.nq + j * c.nq + q < c.nd * c.nd * c.nq
    have h1 : i * c.nd + j < c.nd * c.nd := radix_lt hi hj
    have : (i * c.nd + j) * c.nq + q < c.nd * c.nd * c.nq := radix_lt h1 hq
    calc _ = (i * c.nd + j) * c.nq + q := by ring
      _ < _ := this
  · unfold flat
    dsimp only
    rw [S.deut_eq, S.qidx_eq, S.hq, S.hp]
    simp [List.getD, show j < deut.length by omega, show q < qidx.length by omega]

/-- Without breakup all elastic elements are converged at the end. -/
theorem elastic_all_converged (S : PadeSetup c A deut qidx sched hNp) (hb : c.breakup = false) {junk : PadeJunk} {s : PadeState}
    (hs : padeSolve c sched junk = some s) : ∀ e ∈ elElems c, s.el.conv e.idx = true := by
  intro e he
  rw [padeSolve_eq S junk] at hs
  replace hs := Option.some.inj hs
  obtain ⟨m0, hm0, hL, hor⟩ := padeLoopN_inv S junk 15 le_rfl
  rw [hs] at hL hor
  obtain ⟨-, i, j, q, hy⟩ := el_of_mem S he
  rcases hor with hor | hor
  · by_contra hx
    have := ((hL.el e he i q _ hy).1 (by simpa using hx)).1
    omega
  · have hb0 : buElems c = [] := by unfold buElems; rw [if_neg (by simp [hb])]
    rw [hL.count, hb0, ← numEL_length] at hor
    exact convCount_all (by simpa [convCount] using hor) e he

/-- Two runs of the iterative solver without breakup, with the same coefficients of the elastic elements and the same content of the cell
before the array of approximants, return the same numbers. -/
theorem padeSolve_same (S : PadeSetup c A deut qidx sched hNp) (S' : PadeSetup c' A' deut qidx sched' hNp) (hb : c.breakup = false) (hb' : c'.breakup = false)
    (hterm : ∀ (i j : Fin deut.length) (q : Fin qidx.length) (m : Nat), exactTerm c A deut qidx hNp i q (deut.get j, qidx.get q, ⟨0, hNp⟩) m =
      exactTerm c' A' deut qidx hNp i q (deut.get j, qidx.get q, ⟨0, hNp⟩) m)
    {junk junk' : PadeJunk} (hj : junk.pa (-1) = junk'.pa (-1)) {s s' : PadeState} (hs : padeSolve c sched junk = some s) (hs' : padeSolve c' sched' junk' = some s')
    (hconv : ∀ e ∈ elElems c, s.el.conv e.idx = true) (i j : Fin deut.length) (q : Fin qidx.length) :
    padeU s (elNum c i j q) = padeU s' (elNum c' i j q) := by
  have hnd := S.nd_eq
  have hnq := S.nq_eq
  have hnd' := S'.nd_eq
  have hnq' := S'.nq_eq
  have hel : elElems c = elElems c' := by
    unfold elElems
    rw [hnd, hnq, hnd', hnq', S.deut_eq, S'.deut_eq, S.qidx_eq, S'.qidx_eq, S.hq, S.hp, S'.hq, S'.hp]
  have hnum : c.numEL = c'.numEL := by unfold PadeCfg.numEL; rw [hnd, hnq, hnd', hnq']
  have hbu : buElems c = [] := by unfold buElems; rw [if_neg (by simp [hb])]
  have hbu' : buElems c' = [] := by unfold buElems; rw [if_neg (by simp [hb'])]
  have hloop : ∀ m ≤ 15, SameTab c.numEL (padeLoopN c (padeInit c sched junk) m).el (padeLoopN c' (padeInit c' sched' junk') m).el ∧
      (padeLoopN c (padeInit c sched junk) m).numConv = (padeLoopN c' (padeInit c' sched' junk') m).numConv := by
    intro m
    induction m with
    | zero =>
      intro _
      refine ⟨⟨rfl, fun z h1 h2 => ?_, fun i hi => ?_⟩, rfl⟩
      · show freshPA (c.numEL * 15) junk.pa z = freshPA (c'.numEL * 15) junk'.pa z
        unfold freshPA
        rw [← hnum]
        by_cases h0 : 0 ≤ z
        · rw [if_pos ⟨h0, by push_cast; exact h2⟩, if_pos ⟨h0, by push_cast; exact h2⟩]
        · obtain rfl : z = -1 := by omega
          rw [if_neg (by omega), if_neg (by omega), hj]
      · change false = true at hi
        cases hi
    | succ m ih =>
      intro hm
      obtain ⟨h1, h2⟩ := ih (by omega)
      rw [padeLoopN_succ, padeLoopN_succ]
      obtain ⟨m0, _, hL, hor⟩ := padeLoopN_inv S junk m (by omega)
      obtain ⟨m0', _, hL', hor'⟩ := padeLoopN_inv S' junk' m (by omega)
      by_cases hn : (padeLoopN c (padeInit c sched junk) m).numConv = c.numEL
      · rw [if_pos hn, if_pos (by rw [← h2, hn, hnum])]; exact ⟨h1, h2⟩
      · have hn' : (padeLoopN c' (padeInit c' sched' junk') m).numConv ≠ c'.numEL := by rw [← h2, ← hnum]; exact hn
        rw [if_neg hn, if_neg hn']
        obtain rfl := hor.resolve_right hn
        obtain rfl := hor'.resolve_right hn'
        generalize padeLoopN c (padeInit c sched junk) m0' = a at h1 h2 hL ⊢
        generalize padeLoopN c' (padeInit c' sched' junk') m0' = a' at h1 h2 hL' ⊢
        obtain ⟨f1, f2, f3, -, -, -, f7⟩ := termsFor_frame c m0' a
        obtain ⟨f1', f2', f3', -, -, -, f7'⟩ := termsFor_frame c' m0' a'
        have i1 := termsFor_inv S hL.neumann (by omega)
        have i1' := termsFor_inv S' hL'.neumann (by omega)
        have hsame : SameTab c.numEL (termsFor c m0' a).el (termsFor c' m0' a').el :=
          ⟨by rw [f1, f1', h1.conv], by rw [f2, f2']; exact h1.pa, by rw [f1, f3, f3']; exact h1.best⟩
        rw [padeBody_eq, padeBody_eq, hbu, hbu', ← hel]
        have := paPass_same (NM := m0') (by omega) (elElems c) (fun e he => (el_of_mem S he).1) hsame (by
          intro e he hc k hk
          obtain ⟨-, i, j, q, hy⟩ := el_of_mem S he
          have hy' : ElemIs c' e i q ((deut.get j, qidx.get q, ⟨0, hNp⟩) : Idx states.length Nq Np) := by
            unfold ElemIs at hy ⊢; rw [show c'.nq = c.nq by rw [hnq, hnq']]; exact hy
          rw [i1.el e he hc i q _ hy k hk, i1'.el e (hel ▸ he) (by rw [← hsame.conv]; exact hc) i q _ hy' k hk, hterm])
        refine ⟨this.1, ?_⟩
        dsimp only
        rw [f7, f7', h2, this.2]
        simp only [paPass, List.foldl_nil]
  rw [padeSolve_eq S junk] at hs
  rw [padeSolve_eq S' junk'] at hs'
  replace hs := Option.some.inj hs
  replace hs' := Option.some.inj hs'
  obtain ⟨h1, -⟩ := hloop 15 le_rfl
  obtain ⟨m0, hm0, hL, -⟩ := padeLoopN_inv S junk 15 le_rfl
  rw [hs, hs'] at h1
  rw [hs] at hL
  obtain ⟨e, he, e1, e2⟩ := el_mem S i j q
  have hc := hconv e he
  have e3 : elNum c' i j q = e.idx := by rw [e1]; unfold elNum; rw [hnd, hnq, hnd', hnq']
  rw [e3, ← e1]
  unfold padeU
  rw [← h1.best _ hc]
  have hlt := (el_of_mem S he).1
  have hbest : s.el.best e.idx ≤ 14 := by
    obtain ⟨NM, b1, -, -, -, b4, -, -⟩ := hL.el.value he hc e2
    omega
  exact h1.pa _ (by omega) (by omega)

end
end TicTac
end
