import Verif.Lemmas.Permutation2
import Verif.Props.Sparse
import Verif.Spec.OnShell
/-! C85: the stored permutation matrix is the matrix of the permutation operator between wave packets. -/
noncomputable section
namespace TicTac
open Spec Classical

/-- Hypotheses: GSL's contract; the states are those of one 3N channel; quadrature points in the open intervals; proper grids; every write of
the parallel loops is done once, in some order. -/
structure P123Hyps (g : Gsl) (i : P123Input) (env : P123Env) (states : List PWState) (twoJ : Int) : Prop where
  gsl : GslContract g
  good : ∀ s ∈ states, GoodState s ∧ s.twoJ3 = twoJ
  xIn : ∀ k < i.Nx, -1 < i.x k ∧ i.x k < 1
  zIn : ∀ f < i.Nphi, -1 < i.z f ∧ i.z f < 1
  qgrid : IsGrid i.Nq i.q
  pgrid : IsGrid i.Np i.p
  phiOrder : env.phiOrder.Perm (phiWrites i)
  ovOrder : env.ovOrder.Perm (overlapWrites i)
  sixOrder : env.sixOrder.Perm (sixjTuples (2 * lmaxOf states).toNat)
  cgOrder : env.cgOrder.Perm (cgTuples (2 * lmaxOf states))

/-- The states of a channel are good. -/
theorem good_of_channel {p : PWParams} {J P : Int} {states : List PWState} (h : IsChannel p J P states) : ∀ s ∈ states, GoodState s ∧ s.twoJ3 = J := by
  intro s hs
  obtain ⟨⟨a1, a2, a3, a4, a5, a6, a7, a8, a9, a10, a11, a12⟩, hJ, -⟩ := (h.2 s).1 hs
  unfold Couples at a1 a2 a3 a4 a6
  refine ⟨⟨by omega, by omega, by omega, by omega, by omega, by omega, ?_⟩, hJ⟩
  rcases a12 with a12 | a12
  · exact Or.inl a12
  · exact Or.inr a12.2.1

theorem isgrid_nonneg {N : Nat} {q : Nat → ℝ} (h : IsGrid N q) : ∀ k ≤ N, 0 ≤ q k := by
  intro k
  induction k with
  | zero => intro _; exact h.1
  | succ k ih => intro hk; have := h.2 k (by omega); have := ih (by omega); linarith

theorem cell_proper {g : Gsl} {i : P123Input} {env : P123Env} {states : List PWState} {twoJ : Int} (H : P123Hyps g i env states twoJ)
    {q p : Nat} (hq : q < i.Nq) (hp : p < i.Np) : (i.cell q p).Proper :=
  ⟨isgrid_nonneg H.pgrid _ (by omega), H.pgrid.2 _ hp, isgrid_nonneg H.qgrid _ (by omega), H.qgrid.2 _ hq⟩

theorem gaussPoint_mem {P : Int → ℝ → ℝ} {N : Nat} {z : Nat → ℝ} {a b : ℝ} (hab : a < b) {f : Nat} (hz : -1 < z f ∧ z f < 1) :
    a < (gaussPoint P N z a b f).1 ∧ (gaussPoint P N z a b f).1 < b := by
  unfold gaussPoint
  dsimp only
  constructor <;> nlinarith

/-- The phi mesh of a bra cell, as (angle, weight). -/
def phiMesh (i : P123Input) (qp pp : Nat) : List (ℝ × ℝ) :=
  (List.range i.Nphi).map fun (f : Nat) => gaussPoint i.P i.Nphi i.z (phiLower (i.cell qp pp)) (phiUpper (i.cell qp pp)) f

theorem phisOf_eq {g : Gsl} {i : P123Input} {env : P123Env} {states : List PWState} {twoJ : Int} (H : P123Hyps g i env states twoJ) {qp pp : Nat}
    (h1 : qp < i.Nq) (h2 : pp < i.Np) : phisOf i (p123Arrays g i env states twoJ).phi qp pp =
      (phiMesh i qp pp).map fun e => (Real.sin e.1, Real.cos e.1, e.2) := by
  unfold phisOf phiMesh
  rw [List.map_map]
  apply List.map_congr_left
  intro f hf
  rw [List.mem_range] at hf
  have := phi_read i env.phiInit env.phiOrder H.phiOrder h1 h2 hf
  show (Real.sin ((p123Arrays g i env states twoJ).phi _).1, Real.cos ((p123Arrays g i env states twoJ).phi _).1, ((p123Arrays g i env states twoJ).phi _).2) = _
  unfold p123Arrays
  dsimp only
  rw [this]
  rfl

theorem phiMesh_ok {g : Gsl} {i : P123Input} {env : P123Env} {states : List PWState} {twoJ : Int} (H : P123Hyps g i env states twoJ) {qp pp : Nat}
    (h1 : qp < i.Nq) (h2 : pp < i.Np) : PhiMesh (i.cell qp pp) ((phiMesh i qp pp).map fun e => (Real.sin e.1, Real.cos e.1, e.2)) := by
  intro f hf
  rw [List.mem_map] at hf
  obtain ⟨e, he, rfl⟩ := hf
  unfold phiMesh at he
  rw [List.mem_map] at he
  obtain ⟨k, hk, rfl⟩ := he
  rw [List.mem_range] at hk
  obtain ⟨a, b⟩ := gaussPoint_mem (P := i.P) (N := i.Nphi) (phi_range (i.cell qp pp) (cell_proper H h1 h2)) (H.zIn k hk)
  exact ⟨_, a, b, rfl, rfl⟩

theorem xmesh_ok {g : Gsl} {i : P123Input} {env : P123Env} {states : List PWState} {twoJ : Int} (H : P123Hyps g i env states twoJ) : XMesh i.xs := by
  intro x hx
  unfold P123Input.xs at hx
  obtain ⟨k, hk, rfl⟩ := List.mem_map.1 hx
  exact H.xIn k (List.mem_range.1 hk)

/-- The geometric function in the work array of the P123 loops. -/
theorem getD_lt {α : Type} (l : List α) (d : α) {k : Nat} (h : k < l.length) : l.getD k d = l[k] := by
  rw [List.getD_eq_getElem?_getD, List.getElem?_eq_getElem h, Option.getD_some]

theorem gtildeArray_read {g : Gsl} {i : P123Input} {env : P123Env} {states : List PWState} {twoJ : Int} (H : P123Hyps g i env states twoJ)
    {qp pp ap a f k : Nat} (h1 : qp < i.Nq) (h2 : pp < i.Np) (h3 : ap < states.length) (h4 : a < states.length) (h5 : f < i.Nphi) (h6 : k < i.Nx) :
    gtildeArray g i env (p123Arrays g i env states twoJ) states twoJ qp pp ap a (f * i.Nx + k) =
      geometric g states[ap] states[a]
        (Real.sin (gaussPoint i.P i.Nphi i.z (phiLower (i.cell qp pp)) (phiUpper (i.cell qp pp)) f).1)
        (Real.cos (gaussPoint i.P i.Nphi i.z (phiLower (i.cell qp pp)) (phiUpper (i.cell qp pp)) f).1) (i.x k) := by
  obtain ⟨gap, jap⟩ := H.good _ (List.getElem_mem h3)
  obtain ⟨ga, ja⟩ := H.good _ (List.getElem_mem h4)
  obtain ⟨mL0, mL⟩ := maxQ_ge (·.L) states
  obtain ⟨ml0, ml⟩ := maxQ_ge (·.l) states
  have mLa := mL _ (List.getElem_mem h4)
  have mLp := mL _ (List.getElem_mem h3)
  have mla := ml _ (List.getElem_mem h4)
  have mlp := ml _ (List.getElem_mem h3)
  have p1 := gap.L0; have p2 := gap.l0; have p3 := ga.L0; have p4 := ga.l0
  have hphi := phi_read i env.phiInit env.phiOrder H.phiOrder h1 h2 h5
  set φ := (gaussPoint i.P i.Nphi i.z (phiLower (i.cell qp pp)) (phiUpper (i.cell qp pp)) f).1 with hφ
  have hval : gtildeSub (p123Arrays g i env states twoJ).cg (2 * lmaxOf states)
      (fun o => (p123Arrays g i env states twoJ).plm1 (k * g.plmLen (maxQ (·.l) states).toNat + o))
      (fun o => (p123Arrays g i env states twoJ).plm2 ((qp * i.Np * i.Nphi * i.Nx + pp * i.Nphi * i.Nx) * g.plmLen (maxQ (·.L) states).toNat + (f * i.Nx + k) * g.plmLen (maxQ (·.L) states).toNat + o))
      (fun o => (p123Arrays g i env states twoJ).plm3 ((qp * i.Np * i.Nphi * i.Nx + pp * i.Nphi * i.Nx) * g.plmLen (maxQ (·.l) states).toNat + (f * i.Nx + k) * g.plmLen (maxQ (·.l) states).toNat + o))
      (fun L => (p123Arrays g i env states twoJ).A (ap * states.length * (LmaxOf states + 1) + a * (LmaxOf states + 1) + L.toNat)) twoJ
      states[ap].L states[ap].l states[a].L states[a].l = geometric g states[ap] states[a] (Real.sin φ) (Real.cos φ) (i.x k) := by
    have hc := C60_prestored_G_eq_direct (clebschGordan g) g.sph
      (fun L => (p123Arrays g i env states twoJ).A (ap * states.length * (LmaxOf states + 1) + a * (LmaxOf states + 1) + L.toNat))
      env.cgInit (lmaxOf states) (maxQ (·.L) states) (maxQ (·.l) states) env.cgOrder H.cgOrder
      (fun o => (p123Arrays g i env states twoJ).plm1 (k * g.plmLen (maxQ (·.l) states).toNat + o))
      (fun o => (p123Arrays g i env states twoJ).plm2 ((qp * i.Np * i.Nphi * i.Nx + pp * i.Nphi * i.Nx) * g.plmLen (maxQ (·.L) states).toNat + (f * i.Nx + k) * g.plmLen (maxQ (·.L) states).toNat + o))
      (fun o => (p123Arrays g i env states twoJ).plm3 ((qp * i.Np * i.Nphi * i.Nx + pp * i.Nphi * i.Nx) * g.plmLen (maxQ (·.l) states).toNat + (f * i.Nx + k) * g.plmLen (maxQ (·.l) states).toNat + o))
      (Real.sin φ) (Real.cos φ) (i.x k) ?_ ?_ ?_ twoJ states[ap].L states[ap].l states[a].L states[a].l
      ⟨p1, mLp⟩ ⟨p2, mlp⟩ ⟨p3, mLa⟩ ⟨p4, mla⟩ rfl
    · refine hc.trans ?_
      rw [← jap]
      obtain ⟨x1, x2⟩ := H.xIn k h6
      have hb := cell_proper H h1 h2
      obtain ⟨z1, z2⟩ := H.zIn f h5
      obtain ⟨f1, f2⟩ := gaussPoint_mem (P := i.P) (N := i.Nphi) (phi_range (i.cell qp pp) hb) (H.zIn f h5)
      have l0 := phiLower_nonneg _ hb
      have u0 := phiUpper_le (i.cell qp pp)
      have hs : 0 < Real.sin φ := Real.sin_pos_of_pos_of_lt_pi (by linarith) (by linarith [Real.pi_pos])
      have hcs : 0 < Real.cos φ := Real.cos_pos_of_mem_Ioo ⟨by linarith [Real.pi_pos], by linarith⟩
      obtain ⟨q1, q2⟩ := pi_pos _ _ _ hs hcs x1 x2
      refine gtildeNew_geometric H.gsl gap ?_ (by nlinarith) q1.ne' q2.ne'
      intro L hL _
      rw [Int.toNat_natCast]
      refine atildeStore_read H.gsl states (fun s hs => (H.good s hs).1) _ (fun s hs => ?_) _ _ _ ?_ H.sixOrder _ h3 h4 ?_
      · rw [(H.good s hs).2, jap]
      · unfold lmaxOf; omega
      · unfold LmaxOf; omega
    · intro l m hl hm
      exact plm1_read H.gsl i env.plm1Init _ h6 hm (by omega)
    · intro l m hl hm
      refine (plm23_read H.gsl i _ cosTheta1 env.plm2Init _ h1 h2 h5 h6 hm (by omega)).trans ?_
      rw [hphi]
    · intro l m hl hm
      refine (plm23_read H.gsl i _ cosTheta2 env.plm3Init _ h1 h2 h5 h6 hm (by omega)).trans ?_
      rw [hphi]
  rw [← hval]
  unfold gtildeArray
  apply writeAll_eq
  · simp only [List.mem_flatMap, List.mem_map, List.mem_range]
    refine ⟨f, h5, k, h6, ?_⟩
    rw [getD_lt states _ h3, getD_lt states _ h4]
  · intro w hw he
    simp only [List.mem_flatMap, List.mem_map, List.mem_range] at hw
    obtain ⟨f', hf', k', hk', rfl⟩ := hw
    obtain ⟨rfl, rfl⟩ := radix_inj hk' h6 he
    dsimp only
    rw [getD_lt states _ h3, getD_lt states _ h4]

theorem zipIdx_map_sum {α : Type} (l : List α) (F : α × Nat → ℝ) (G : α → ℝ) (h : ∀ k (hk : k < l.length), F (l[k], k) = G l[k]) :
    (l.zipIdx.map F).sum = (l.map G).sum := by
  congr 1
  apply List.ext_getElem
  · simp
  · intro k h1 h2
    rw [List.getElem_map, List.getElem_map, List.getElem_zipIdx]
    have := h k (by simpa using h2)
    simpa using this

/-- One element of the matrix computed by the loops. -/
theorem p123_elem {g : Gsl} {i : P123Input} {env : P123Env} {states : List PWState} {twoJ : Int} (H : P123Hyps g i env states twoJ)
    {qp pp ap a q p : Nat} (h1 : qp < i.Nq) (h2 : pp < i.Np) (h3 : ap < states.length) (h4 : a < states.length) (h5 : q < i.Nq) (h6 : p < i.Np) :
    (if (p123Cfg g i env states twoJ).overlap (((qp * i.Np + pp) * i.Nq + q) * i.Np + p) then (p123Cfg g i env states twoJ).elem ap qp pp a q p else 0) =
      p123Formula g states[ap] states[a] (i.cell qp pp) (i.cell q p) i.xs (phiMesh i qp pp) := by
  have hb := cell_proper H h1 h2
  have hk := cell_proper H h5 h6
  set phis := (phiMesh i qp pp).map fun e => (Real.sin e.1, Real.cos e.1, e.2) with hphis
  set G : Nat → Nat → ℝ := fun f k => gtildeArray g i env (p123Arrays g i env states twoJ) states twoJ qp pp ap a (f * i.Nx + k) with hG
  have hst : (if (p123Cfg g i env states twoJ).overlap (((qp * i.Np + pp) * i.Nq + q) * i.Np + p) then (p123Cfg g i env states twoJ).elem ap qp pp a q p else 0) =
      p123Stored (i.cell q p) (i.cell qp pp) G i.xs phis := by
    have ho : (p123Cfg g i env states twoJ).overlap (((qp * i.Np + pp) * i.Nq + q) * i.Np + p) = decide (wpOverlap (i.cell q p) (i.cell qp pp) i.xs phis) := by
      have := overlap_read i env.ovInit env.ovOrder H.ovOrder h1 h2 h5 h6
      rw [show idxOverlap i.Np i.Nq qp pp q p = ((qp * i.Np + pp) * i.Nq + q) * i.Np + p by unfold idxOverlap; ring] at this
      unfold p123Cfg p123Arrays
      dsimp only
      rw [this, hphis]
      unfold phiMesh
      rw [List.map_map]
      rfl
    have he : (p123Cfg g i env states twoJ).elem ap qp pp a q p = p123Element (i.cell q p) (i.cell qp pp) G i.xs phis := by
      unfold p123Cfg
      dsimp only
      rw [phisOf_eq H h1 h2]
    rw [ho, he]
    unfold p123Stored
    by_cases hw : wpOverlap (i.cell q p) (i.cell qp pp) i.xs phis
    · rw [if_pos (by simpa using hw), if_pos hw]
    · rw [if_neg (by simpa using hw), if_neg hw]
  rw [hst, C58_overlap_safe _ _ hb]
  unfold p123Element p123Formula
  congr 1
  · apply zipIdx_map_sum
    intro k hk
    have hk' : k < i.Nx := by unfold P123Input.xs at hk; simpa using hk
    rw [hphis]
    have : (phiMesh i qp pp).map (fun f => i.xs[k].2 * f.2 * (Real.sin f.1 * Real.cos f.1) * geometric g states[ap] states[a] (Real.sin f.1) (Real.cos f.1) i.xs[k].1
      / (permP (Real.sin f.1) (Real.cos f.1) i.xs[k].1 * permQ (Real.sin f.1) (Real.cos f.1) i.xs[k].1)
      * ∫ κ in hyperRange (i.cell q p) (i.cell qp pp) (Real.sin f.1) (Real.cos f.1) i.xs[k].1, κ) = phis.map (fun f => i.xs[k].2 * f.2.2 * (f.1 * f.2.1) * geometric g states[ap] states[a] f.1 f.2.1 i.xs[k].1
      / (permP f.1 f.2.1 i.xs[k].1 * permQ f.1 f.2.1 i.xs[k].1) * ∫ κ in hyperRange (i.cell q p) (i.cell qp pp) f.1 f.2.1 i.xs[k].1, κ) := by
      rw [hphis, List.map_map]; rfl
    rw [this, ← hphis]
    apply zipIdx_map_sum
    intro f hf
    have hmem : phis[f] ∈ phis := List.getElem_mem hf
    have hx : XMesh i.xs := xmesh_ok H
    obtain ⟨x1, x2⟩ := hx _ (List.getElem_mem hk)
    have hrad := C71_radial_integral (i.cell q p) (i.cell qp pp) hb phis (phiMesh_ok H h1 h2) phis[f] hmem i.xs[k].1 i.xs[k].2 (G f k) x1 x2
    dsimp only at hrad ⊢
    rw [hrad, permP_eq, permQ_eq]
    have hf' : f < i.Nphi := by rw [hphis] at hf; unfold phiMesh at hf; simpa using hf
    have hGv : G f k = geometric g states[ap] states[a] phis[f].1 phis[f].2.1 i.xs[k].1 := by
      rw [hG]
      dsimp only
      rw [gtildeArray_read H h1 h2 h3 h4 hf' hk']
      simp only [hphis, phiMesh, P123Input.xs, List.getElem_map, List.getElem_range]
    rw [hGv]
    unfold hyperRange
    ring
  · unfold wpNorm
    obtain ⟨k1, k2, k3, k4⟩ := hk
    obtain ⟨b1, b2, b3, b4⟩ := hb
    rw [Real.sqrt_mul (by nlinarith), Real.sqrt_mul (by linarith), Real.sqrt_mul (by linarith)]
    ring

/-- The matrix read off a row-major sparse form. -/
theorem sparseMatrix_of_form {n Nq Np : Nat} {M : Nat → Nat → ℝ} {out : List (Entry ℝ)} (h : IsSparseForm (Np * Nq * n) M out) :
    sparseMatrix n Nq Np out = fun x y => M (flat x) (flat y) := by
  have hd : Np * Nq * n = n * Nq * Np := by ring
  rw [hd] at h
  funext x y
  unfold sparseMatrix
  obtain ⟨hs, hm⟩ := h
  have hnd : out.Nodup := hs.imp (fun {a b} hab he => by subst he; omega)
  have key : ∀ l : List (Entry ℝ), l.Nodup → (∀ e ∈ l, e = ⟨flat x, flat y, M (flat x) (flat y)⟩) → (l.map (·.val)).sum = if l = [] then 0 else M (flat x) (flat y) := by
    intro l hn hl
    match l, hn, hl with
    | [], _, _ => simp
    | [e], _, hl => rw [hl e (by simp)]; simp
    | e :: e' :: l, hn, hl =>
      have := hl e (by simp)
      have := hl e' (by simp)
      subst_vars
      simp at hn
  rw [key _ (hnd.filter _)]
  · split
    · rename_i h0
      by_contra hne
      have : (⟨flat x, flat y, M (flat x) (flat y)⟩ : Entry ℝ) ∈ out := (hm _ _ _).2 ⟨flat_lt x, flat_lt y, rfl, fun h => hne h.symm⟩
      have hh : (⟨flat x, flat y, M (flat x) (flat y)⟩ : Entry ℝ) ∈ out.filter fun e => e.row = flat x ∧ e.col = flat y := by
        rw [List.mem_filter]; exact ⟨this, by simp⟩
      rw [h0] at hh
      simp at hh
    · rfl
  · rintro ⟨r, k, v⟩ he
    rw [List.mem_filter] at he
    obtain ⟨he, h2⟩ := he
    simp only [decide_eq_true_eq] at h2
    obtain ⟨rfl, rfl⟩ := h2
    rw [((hm _ _ _).1 he).2.2.1]

theorem p123Matrix_flat {g : Gsl} {i : P123Input} {env : P123Env} {states : List PWState} {twoJ : Int} (H : P123Hyps g i env states twoJ)
    (x y : Idx states.length i.Nq i.Np) :
    p123Matrix (p123Cfg g i env states twoJ) (flat x) (flat y) = p123Operator g states i.Nq i.Np i.q i.p i.xs (phiMesh i) x y := by
  obtain ⟨ap, qp, pp⟩ := x
  obtain ⟨a, q, p⟩ := y
  have hd : ∀ (a : Fin states.length) (q : Fin i.Nq) (p : Fin i.Np),
      flat (a, q, p) / (i.Np * i.Nq) = a ∧ flat (a, q, p) / i.Np % i.Nq = q ∧ flat (a, q, p) % i.Np = p := by
    intro a q p
    have e : flat (a, q, p) = (a * i.Nq + q) * i.Np + p := by unfold flat; ring
    rw [e, ← Nat.div_div_eq_div_mul, radix_div p.2, radix_mod p.2, radix_div q.2, radix_mod q.2]
    exact ⟨rfl, rfl, rfl⟩
  obtain ⟨e1, e2, e3⟩ := hd ap qp pp
  obtain ⟨e4, e5, e6⟩ := hd a q p
  have := p123_elem H qp.2 pp.2 ap.2 a.2 q.2 p.2
  unfold p123Operator
  rw [show p123Formula g (states.get ap) (states.get a) ⟨i.p pp, i.p (pp + 1), i.q qp, i.q (qp + 1)⟩ ⟨i.p p, i.p (p + 1), i.q q, i.q (q + 1)⟩ i.xs
    (phiMesh i qp pp) = p123Formula g states[(ap : Nat)] states[(a : Nat)] (i.cell qp pp) (i.cell q p) i.xs (phiMesh i qp pp) from rfl]
  rw [← this]
  unfold p123Matrix
  show (if (p123Cfg g i env states twoJ).overlap ((((flat (ap, qp, pp) / i.Np % i.Nq) * i.Np + flat (ap, qp, pp) % i.Np) * i.Nq + flat (a, q, p) / i.Np % i.Nq) * i.Np + flat (a, q, p) % i.Np)
    then (p123Cfg g i env states twoJ).elem (flat (ap, qp, pp) / (i.Np * i.Nq)) (flat (ap, qp, pp) / i.Np % i.Nq) (flat (ap, qp, pp) % i.Np)
      (flat (a, q, p) / (i.Np * i.Nq)) (flat (a, q, p) / i.Np % i.Nq) (flat (a, q, p) % i.Np) else 0) = _
  rw [e1, e2, e3, e4, e5, e6]

/-- The phi mesh is the Gauss–Legendre rule of the cell's angles. -/
theorem phiMesh_rule (i : P123Input) : phiMesh i = fun qp pp => cellRule i.P i.Nphi i.z ⟨i.p pp, i.p (pp + 1), i.q qp, i.q (qp + 1)⟩ := by
  funext qp pp
  unfold phiMesh cellRule
  dsimp only
  apply List.map_congr_left
  intro j _
  unfold gaussPoint dLegendre legendreSlope
  have e1 : phiLower (i.cell qp pp) = hyperAngle (i.p pp) (i.q (qp + 1)) := rfl
  have e2 : phiUpper (i.cell qp pp) = hyperAngle (i.p (pp + 1)) (i.q qp) := rfl
  rw [e1, e2]
  generalize hyperAngle (i.p pp) (i.q (qp + 1)) = a
  generalize hyperAngle (i.p (pp + 1)) (i.q qp) = b
  generalize i.P (i.Nphi : Int) (i.z j) = u
  generalize i.P ((i.Nphi : Int) - 1) (i.z j) = v
  generalize i.z j = z
  have hd : (i.Nphi * z * u - i.Nphi * v) / (z * z - 1) = i.Nphi * (z * u - v) / (z ^ 2 - 1) := by
    rw [show (i.Nphi : ℝ) * z * u - i.Nphi * v = i.Nphi * (z * u - v) by ring, show z * z - 1 = z ^ 2 - 1 by ring]
  rw [hd]
  generalize (i.Nphi : ℝ) * (z * u - v) / (z ^ 2 - 1) = d
  refine Prod.ext (by ring) ?_
  show 2 / (1 - z * z) * 1 / (d * d) * (b - a) / 2 = (b - a) / 2 * (2 / ((1 - z ^ 2) * d ^ 2))
  rw [show 1 - z ^ 2 = 1 - z * z by ring, show d ^ 2 = d * d by ring]
  generalize 1 - z * z = u
  generalize d * d = w
  rw [← div_div, mul_one]
  ring

/-- **C85.** The permutation matrix computed for a channel – by any number of threads, in any schedule, whatever was in memory or on disk
before – is the matrix of the permutation operator P123 between the wave packets: stored in strictly increasing row-major order, exactly
the non-zero elements, each with the value of the formula. -/
theorem C85_permutation_matrix {g : Gsl} {i : P123Input} {env : P123Env} {states : List PWState} {twoJ : Int} (H : P123Hyps g i env states twoJ)
    {out : List (Entry ℝ)} (run : P123Run (p123Cfg g i env states twoJ) out) :
    let op := p123Operator g states i.Nq i.Np i.q i.p i.xs fun qp pp => cellRule i.P i.Nphi i.z ⟨i.p pp, i.p (pp + 1), i.q qp, i.q (qp + 1)⟩
    out.Pairwise (fun e f => e.row < f.row ∨ (e.row = f.row ∧ e.col < f.col)) ∧
    (∀ e ∈ out, ∃ r k, e = ⟨flat r, flat k, op r k⟩ ∧ op r k ≠ 0) ∧
    (∀ r k, op r k ≠ 0 → ⟨flat r, flat k, op r k⟩ ∈ out) ∧
    sparseMatrix states.length i.Nq i.Np out = op := by
  rw [← phiMesh_rule]
  have hf := C15_result_is_matrix _ out run
  rw [show (p123Cfg g i env states twoJ).dim = i.Np * i.Nq * states.length from rfl] at hf
  have hm := sparseMatrix_of_form hf
  have hop : (fun x y => p123Matrix (p123Cfg g i env states twoJ) (flat x) (flat y)) =
      p123Operator g states i.Nq i.Np i.q i.p i.xs (phiMesh i) := by
    funext x y; exact p123Matrix_flat H x y
  refine ⟨hf.1, ?_, ?_, by rw [hm, hop]⟩
  · rintro ⟨r, k, v⟩ he
    obtain ⟨h1, h2, h3, h4⟩ := (hf.2 _ _ _).1 he
    have hsurj : ∀ r < i.Np * i.Nq * states.length, ∃ x : Idx states.length i.Nq i.Np, flat x = r := by
      intro r hr
      rw [show i.Np * i.Nq * states.length = states.length * i.Nq * i.Np by ring] at hr
      obtain ⟨b, p, hb, hp, rfl⟩ := radix_surj hr
      obtain ⟨a, q, ha, hq, rfl⟩ := radix_surj hb
      exact ⟨(⟨a, ha⟩, ⟨q, hq⟩, ⟨p, hp⟩), by unfold flat; dsimp only; ring⟩
    obtain ⟨x, rfl⟩ := hsurj r h1
    obtain ⟨y, rfl⟩ := hsurj k h2
    refine ⟨x, y, ?_, ?_⟩
    · rw [h3, p123Matrix_flat H]
    · rw [← p123Matrix_flat H, ← h3]; exact h4
  · intro r k hne
    refine (hf.2 _ _ _).2 ⟨?_, ?_, (p123Matrix_flat H r k).symm, hne⟩
    · rw [show i.Np * i.Nq * states.length = states.length * i.Nq * i.Np by ring]; exact flat_lt r
    · rw [show i.Np * i.Nq * states.length = states.length * i.Nq * i.Np by ring]; exact flat_lt k

/-- **C85.** The calculation always ends with a result, for every schedule. -/
theorem C85_completes (g : Gsl) (i : P123Input) (env : P123Env) (states : List PWState) (twoJ : Int) (T B : Nat)
    (disk : Nat → Nat → Option (List (Entry ℝ))) (assign : Nat → List Nat) (trace : List (Nat × Entry ℝ)) (hs : IsWorkSharing i.Nq T assign)
    (hi : IsInterleaving T (fun t => (assign t).flatMap (rowElems (p123Cfg g i env states twoJ))) trace) :
    ∃ out, Nonempty (P123Run (p123Cfg g i env states twoJ) out) := by
  obtain ⟨out, ho⟩ := C15_no_error (p123Cfg g i env states twoJ) T B disk assign trace hs hi
  exact ⟨out, ⟨⟨T, B, disk, assign, trace, hs, hi, ho⟩⟩⟩

/-- **C86.** No element between states of different total isospin is stored: P123 conserves isospin (the interaction may break it). -/
theorem C86_isospin {g : Gsl} {i : P123Input} {env : P123Env} {states : List PWState} {twoJ : Int} (H : P123Hyps g i env states twoJ)
    {out : List (Entry ℝ)} (run : P123Run (p123Cfg g i env states twoJ) out) (r k : Idx states.length i.Nq i.Np)
    (hT : (states.get r.1).twoT3 ≠ (states.get k.1).twoT3) : ∀ e ∈ out, ¬ (e.row = flat r ∧ e.col = flat k) := by
  rintro e he ⟨h1, h2⟩
  obtain ⟨-, hm, -⟩ := C85_permutation_matrix H run
  obtain ⟨r', k', rfl, hne⟩ := hm e he
  rw [flat_inj h1, flat_inj h2] at hne
  apply hne
  unfold p123Operator p123Formula
  have : ∀ s c x, geometric g (states.get r.1) (states.get k.1) s c x = 0 := by
    intro s c x
    unfold geometric recoupling
    simp only [if_neg hT, mul_zero, zero_mul, finsum_zero]
  simp only [this, mul_zero, zero_div, zero_mul, List.map_const', List.sum_replicate, smul_zero]

end TicTac
end
