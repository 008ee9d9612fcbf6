import Verif.Lemmas.Layout
/-!
C20: every flat layout is a bijection between its tuple box and the allocated index range.

`Spec.IsLayout dims idx` (below) is the specification: in-range tuples get in-range indices, different tuples
different indices, and every index of the allocation is used.
-/
namespace TicTac
namespace Spec

/-- `idx` numbers the tuples satisfying `dom` bijectively by `0 … size-1`. -/
def IsLayout {α : Type} (dom : α → Prop) (size : Nat) (idx : α → Nat) : Prop :=
  (∀ t, dom t → idx t < size) ∧
  (∀ t t', dom t → dom t' → idx t = idx t' → t = t') ∧
  (∀ i, i < size → ∃ t, dom t ∧ idx t = i)

end Spec
open Spec

/-- **C20** `(alpha,q,p)`: vectors, rows and columns of length `Nalpha*Nq*Np`. -/
theorem C20_state_index (Na Nq Np : Nat) :
    IsLayout (fun t : Nat × Nat × Nat => t.1 < Na ∧ t.2.1 < Nq ∧ t.2.2 < Np) (Na * Nq * Np)
      (fun t => idxAQP Nq Np t.1 t.2.1 t.2.2) := by
  refine ⟨?_, ?_, ?_⟩
  · rintro ⟨a, q, p⟩ ⟨ha, hq, hp⟩
    simp only [idxAQP_eq]
    rw [Nat.mul_assoc]
    exact radix_lt ha (radix_lt hq hp)
  · rintro ⟨a, q, p⟩ ⟨a', q', p'⟩ ⟨_, hq, hp⟩ ⟨_, hq', hp'⟩ h
    simp only [idxAQP_eq] at h
    obtain ⟨h1, h2⟩ := radix_inj (radix_lt hq hp) (radix_lt hq' hp') h
    obtain ⟨h3, h4⟩ := radix_inj hp hp' h2
    simp_all
  · intro i hi
    rw [Nat.mul_assoc] at hi
    obtain ⟨a, r, ha, hr, h1⟩ := radix_surj hi
    obtain ⟨q, p, hq, hp, h2⟩ := radix_surj hr
    exact ⟨(a, q, p), ⟨ha, hq, hp⟩, by simp only [idxAQP_eq]; rw [h2, h1]⟩

/-- **C20** the solver's decoding of a column number gives back the tuple. -/
theorem C20_state_index_decode (Nq Np a q p : Nat) (hq : q < Nq) (hp : p < Np) :
    decAQP Nq Np (idxAQP Nq Np a q p) = (a, q, p) := by
  unfold decAQP
  rw [idxAQP_eq, Nat.mul_comm Np Nq, radix_div (radix_lt hq hp), radix_mod (radix_lt hq hp), radix_div hp]
  have : a * (Nq * Np) + (q * Np + p) = (a * Nq + q) * Np + p := by ring
  rw [this, radix_mod hp]

/-- **C20** overlap table of `Nq*Nq*Np*Np` cell pairs. -/
theorem C20_overlap_index (Nq Np : Nat) :
    IsLayout (fun t : Nat × Nat × Nat × Nat => t.1 < Nq ∧ t.2.1 < Np ∧ t.2.2.1 < Nq ∧ t.2.2.2 < Np)
      (Nq * Nq * Np * Np) (fun t => idxOverlap Np Nq t.1 t.2.1 t.2.2.1 t.2.2.2) := by
  have hsz : Nq * Nq * Np * Np = Nq * (Np * (Nq * Np)) := by ring
  refine ⟨?_, ?_, ?_⟩
  · rintro ⟨a, b, c, d⟩ ⟨ha, hb, hc, hd⟩
    simp only [idxOverlap_eq, hsz]
    exact radix_lt ha (radix_lt hb (radix_lt hc hd))
  · rintro ⟨a, b, c, d⟩ ⟨a', b', c', d'⟩ ⟨_, hb, hc, hd⟩ ⟨_, hb', hc', hd'⟩ h
    simp only [idxOverlap_eq] at h
    obtain ⟨h1, h2⟩ := radix_inj (radix_lt hb (radix_lt hc hd)) (radix_lt hb' (radix_lt hc' hd')) h
    obtain ⟨h3, h4⟩ := radix_inj (radix_lt hc hd) (radix_lt hc' hd') h2
    obtain ⟨h5, h6⟩ := radix_inj hd hd' h4
    simp_all
  · intro i hi
    rw [hsz] at hi
    obtain ⟨a, r, ha, hr, h1⟩ := radix_surj hi
    obtain ⟨b, s, hb, hs, h2⟩ := radix_surj hr
    obtain ⟨c, d, hc, hd, h3⟩ := radix_surj hs
    exact ⟨(a, b, c, d), ⟨ha, hb, hc, hd⟩, by simp only [idxOverlap_eq]; rw [h3, h2, h1]⟩

/-- **C20** phi meshes (`Nq*Np*Nphi` points). -/
theorem C20_phi_index (Nq Np Nphi : Nat) :
    IsLayout (fun t : Nat × Nat × Nat => t.1 < Nq ∧ t.2.1 < Np ∧ t.2.2 < Nphi) (Nq * Np * Nphi)
      (fun t => idxPhi Np Nphi t.1 t.2.1 t.2.2) := by
  refine ⟨?_, ?_, ?_⟩
  · rintro ⟨a, b, c⟩ ⟨ha, hb, hc⟩
    exact radix_lt (radix_lt ha hb) hc
  · rintro ⟨a, b, c⟩ ⟨a', b', c'⟩ ⟨_, hb, hc⟩ ⟨_, hb', hc'⟩ h
    obtain ⟨h1, h2⟩ := radix_inj hc hc' h
    obtain ⟨h3, h4⟩ := radix_inj hb hb' h1
    simp_all
  · intro i hi
    obtain ⟨r, c, hr, hc, h1⟩ := radix_surj hi
    obtain ⟨a, b, ha, hb, h2⟩ := radix_surj hr
    exact ⟨(a, b, c), ⟨ha, hb, hc⟩, by simp only [idxPhi]; rw [h2, h1]⟩

/-- **C20** prestored Legendre sub-arrays. -/
theorem C20_plm_index (Nq Np Nphi Nx : Nat) :
    IsLayout (fun t : Nat × Nat × Nat × Nat => t.1 < Nq ∧ t.2.1 < Np ∧ t.2.2.1 < Nphi ∧ t.2.2.2 < Nx)
      (Np * Nq * Nphi * Nx) (fun t => idxPlm Np Nphi Nx t.1 t.2.1 t.2.2.1 t.2.2.2) := by
  have hsz : Np * Nq * Nphi * Nx = Nq * (Np * (Nphi * Nx)) := by ring
  refine ⟨?_, ?_, ?_⟩
  · rintro ⟨a, b, c, d⟩ ⟨ha, hb, hc, hd⟩
    simp only [idxPlm_eq, hsz]
    exact radix_lt ha (radix_lt hb (radix_lt hc hd))
  · rintro ⟨a, b, c, d⟩ ⟨a', b', c', d'⟩ ⟨_, hb, hc, hd⟩ ⟨_, hb', hc', hd'⟩ h
    simp only [idxPlm_eq] at h
    obtain ⟨h1, h2⟩ := radix_inj (radix_lt hb (radix_lt hc hd)) (radix_lt hb' (radix_lt hc' hd')) h
    obtain ⟨h3, h4⟩ := radix_inj (radix_lt hc hd) (radix_lt hc' hd') h2
    obtain ⟨h5, h6⟩ := radix_inj hd hd' h4
    simp_all
  · intro i hi
    rw [hsz] at hi
    obtain ⟨a, r, ha, hr, h1⟩ := radix_surj hi
    obtain ⟨b, s, hb, hs, h2⟩ := radix_surj hr
    obtain ⟨c, d, hc, hd, h3⟩ := radix_surj hs
    exact ⟨(a, b, c, d), ⟨ha, hb, hc, hd⟩, by simp only [idxPlm_eq]; rw [h3, h2, h1]⟩

/-- **C20** elastic U elements (`num_T_lab * nd * nd` of them, main.cpp:412). -/
theorem C20_U_index (nd nq : Nat) :
    IsLayout (fun t : Nat × Nat × Nat => t.1 < nd ∧ t.2.1 < nd ∧ t.2.2 < nq) (nq * nd * nd)
      (fun t => idxU nd nq t.1 t.2.1 t.2.2) := by
  have hsz : nq * nd * nd = nd * (nd * nq) := by ring
  refine ⟨?_, ?_, ?_⟩
  · rintro ⟨a, q, p⟩ ⟨ha, hq, hp⟩
    simp only [idxU_eq, hsz]
    exact radix_lt ha (radix_lt hq hp)
  · rintro ⟨a, q, p⟩ ⟨a', q', p'⟩ ⟨_, hq, hp⟩ ⟨_, hq', hp'⟩ h
    simp only [idxU_eq] at h
    obtain ⟨h1, h2⟩ := radix_inj (radix_lt hq hp) (radix_lt hq' hp') h
    obtain ⟨h3, h4⟩ := radix_inj hp hp' h2
    simp_all
  · intro i hi
    rw [hsz] at hi
    obtain ⟨a, r, ha, hr, h1⟩ := radix_surj hi
    obtain ⟨q, p, hq, hp, h2⟩ := radix_surj hr
    exact ⟨(a, q, p), ⟨ha, hq, hp⟩, by simp only [idxU_eq]; rw [h2, h1]⟩

/-- **C20** uncoupled potential matrices. -/
theorem C20_V_uncoupled_index (N Np : Nat) :
    IsLayout (fun t : Nat × Nat × Nat => t.1 < N ∧ t.2.1 < Np ∧ t.2.2 < Np) (Np * Np * N)
      (fun t => idxVunco Np t.1 t.2.1 t.2.2) := by
  have hsz : Np * Np * N = N * (Np * Np) := by ring
  refine ⟨?_, ?_, ?_⟩
  · rintro ⟨a, q, p⟩ ⟨ha, hq, hp⟩
    simp only [idxVunco_eq, hsz]
    exact radix_lt ha (radix_lt hq hp)
  · rintro ⟨a, q, p⟩ ⟨a', q', p'⟩ ⟨_, hq, hp⟩ ⟨_, hq', hp'⟩ h
    simp only [idxVunco_eq] at h
    obtain ⟨h1, h2⟩ := radix_inj (radix_lt hq hp) (radix_lt hq' hp') h
    obtain ⟨h3, h4⟩ := radix_inj hp hp' h2
    simp_all
  · intro i hi
    rw [hsz] at hi
    obtain ⟨a, r, ha, hr, h1⟩ := radix_surj hi
    obtain ⟨q, p, hq, hp, h2⟩ := radix_surj hr
    exact ⟨(a, q, p), ⟨ha, hq, hp⟩, by simp only [idxVunco_eq]; rw [h2, h1]⟩

/-- **C20** coupled potential matrices: channel, block row, block column, row, column. -/
theorem C20_V_coupled_index (N Np : Nat) :
    IsLayout (fun t : Nat × (Nat × Nat) × Nat × Nat =>
        t.1 < N ∧ (t.2.1.1 < 2 ∧ t.2.1.2 < 2) ∧ t.2.2.1 < Np ∧ t.2.2.2 < Np) (Np * Np * 4 * N)
      (fun t => idxVcoup Np t.1 t.2.1.1 t.2.1.2 t.2.2.1 t.2.2.2) := by
  have hsz : Np * Np * 4 * N = N * (2 * Np * (2 * Np)) := by ring
  refine ⟨?_, ?_, ?_⟩
  · rintro ⟨a, ⟨b, b'⟩, r, c⟩ ⟨ha, ⟨hb, hb'⟩, hr, hc⟩
    simp only [idxVcoup_eq, hsz]
    exact radix_lt ha (radix_lt (radix_lt hb hr) (radix_lt hb' hc))
  · rintro ⟨a, ⟨b, b'⟩, r, c⟩ ⟨a1, ⟨b1, b1'⟩, r1, c1⟩ ⟨ha, ⟨hb, hb'⟩, hr, hc⟩ ⟨ha1, ⟨hb1, hb1'⟩, hr1, hc1⟩ h
    simp only [idxVcoup_eq] at h ha hb hb' hr hc ha1 hb1 hb1' hr1 hc1
    have k : ∀ {x y}, x < 2 → y < Np → x * Np + y < 2 * Np := fun hx hy => radix_lt hx hy
    obtain ⟨h1, h2⟩ := radix_inj (radix_lt (k hb hr) (k hb' hc)) (radix_lt (k hb1 hr1) (k hb1' hc1)) h
    obtain ⟨h3, h4⟩ := radix_inj (k hb' hc) (k hb1' hc1) h2
    obtain ⟨h5, h6⟩ := radix_inj hr hr1 h3
    obtain ⟨h7, h8⟩ := radix_inj hc hc1 h4
    simp_all
  · intro i hi
    rw [hsz] at hi
    obtain ⟨a, s, ha, hs, h1⟩ := radix_surj hi
    obtain ⟨u, v, hu, hv, h2⟩ := radix_surj hs
    obtain ⟨b, r, hb, hr, h3⟩ := radix_surj hu
    obtain ⟨b', c, hb', hc, h4⟩ := radix_surj hv
    exact ⟨(a, (b, b'), r, c), ⟨ha, ⟨hb, hb'⟩, hr, hc⟩, by simp only [idxVcoup_eq]; rw [h3, h4, h2, h1]⟩

/-- **C20** prestored Atilde coefficients. -/
theorem C20_Atilde_index (dim Lmax : Nat) :
    IsLayout (fun t : Nat × Nat × Nat => t.1 < dim ∧ t.2.1 < dim ∧ t.2.2 ≤ Lmax) (dim * dim * (Lmax + 1))
      (fun t => idxAtilde dim Lmax t.1 t.2.1 t.2.2) := by
  refine ⟨?_, ?_, ?_⟩
  · rintro ⟨a, q, p⟩ ⟨ha, hq, hp⟩
    simp only [idxAtilde_eq]
    rw [Nat.mul_assoc]
    exact radix_lt ha (radix_lt hq (by simp only at hp; omega))
  · rintro ⟨a, q, p⟩ ⟨a', q', p'⟩ ⟨_, hq, hp⟩ ⟨_, hq', hp'⟩ h
    simp only [idxAtilde_eq] at h hp hp'
    obtain ⟨h1, h2⟩ := radix_inj (radix_lt hq (by omega)) (radix_lt hq' (by omega)) h
    obtain ⟨h3, h4⟩ := radix_inj (by omega) (by omega) h2
    simp_all
  · intro i hi
    rw [Nat.mul_assoc] at hi
    obtain ⟨a, r, ha, hr, h1⟩ := radix_surj hi
    obtain ⟨q, p, hq, hp, h2⟩ := radix_surj hr
    exact ⟨(a, q, p), ⟨ha, hq, by simp only; omega⟩, by simp only [idxAtilde_eq]; rw [h2, h1]⟩

/-- Number of packed entries before row `r`. -/
theorem packed_row_step (n r : Nat) (hr : r < n) : idxPacked n (r + 1) (r + 1) = idxPacked n r (n - 1) + 1 := by
  have h1 := two_mul_idxPacked n (r + 1) (r + 1)
  have h2 := two_mul_idxPacked n r (n - 1)
  have h3 : ((n - 1 : Nat) : Int) = (n : Int) - 1 := by omega
  rw [h3] at h2
  push_cast at h1
  nlinarith

/-- **C20** packed upper triangle of the Hamiltonian: `(r,c)` with `r ≤ c < n` onto `0 … n(n+1)/2 - 1`. -/
theorem C20_packed_index (n : Nat) :
    IsLayout (fun t : Nat × Nat => t.1 ≤ t.2 ∧ t.2 < n) (n * (n + 1) / 2)
      (fun t => (idxPacked n t.1 t.2).toNat) ∧
    ∀ r c : Nat, r ≤ c → c < n → 0 ≤ idxPacked n r c := by
  have hnn : ∀ r c : Nat, r ≤ c → c < n → 0 ≤ idxPacked n r c := by
    intro r c hrc hc
    have h := two_mul_idxPacked n r c
    have h1 : (r : Int) ≤ c := by exact_mod_cast hrc
    have h2 : (c : Int) + 1 ≤ n := by exact_mod_cast hc
    have h3 : (0 : Int) ≤ r := by positivity
    nlinarith
  have hlast : ∀ r c : Nat, r ≤ c → c < n → 2 * (idxPacked n r c + 1) ≤ n * (n + 1) := by
    intro r c hrc hc
    have h := two_mul_idxPacked n r c
    have h1 : (r : Int) ≤ c := by exact_mod_cast hrc
    have h2 : (c : Int) + 1 ≤ n := by exact_mod_cast hc
    have h3 : (0 : Int) ≤ r := by positivity
    nlinarith
  have hmono : ∀ r c r' c' : Nat, r ≤ c → c < n → r' ≤ c' → c' < n → r < r' →
      idxPacked n r c < idxPacked n r' c' := by
    intro r c r' c' h1 h2 h3 h4 h5
    have e1 := two_mul_idxPacked n r c
    have e2 := two_mul_idxPacked n r' c'
    have g1 : (c : Int) + 1 ≤ n := by exact_mod_cast h2
    have g2 : (r' : Int) ≤ c' := by exact_mod_cast h3
    have g3 : (r : Int) + 1 ≤ r' := by exact_mod_cast h5
    have g4 : (c' : Int) + 1 ≤ n := by exact_mod_cast h4
    have g5 : (0 : Int) ≤ r := by positivity
    obtain ⟨d, hd⟩ : ∃ d : Int, (r' : Int) = r + 1 + d := ⟨r' - r - 1, by ring⟩
    have hd0 : 0 ≤ d := by omega
    rw [hd] at e2 g2
    have : 0 ≤ d * ((n : Int) - (r + 1 + d)) := mul_nonneg hd0 (by omega)
    nlinarith
  refine ⟨⟨?_, ?_, ?_⟩, hnn⟩
  · rintro ⟨r, c⟩ ⟨h1, h2⟩
    have a := hnn r c h1 h2
    have b := hlast r c h1 h2
    have : 2 * (n * (n + 1) / 2) = n * (n + 1) := Nat.two_mul_div_two_of_even (Nat.even_mul_succ_self n)
    have : (2 : Int) * ((n * (n + 1) / 2 : Nat) : Int) = n * (n + 1) := by exact_mod_cast this
    simp only
    omega
  · rintro ⟨r, c⟩ ⟨r', c'⟩ ⟨h1, h2⟩ ⟨h3, h4⟩ h
    simp only at h h1 h2 h3 h4
    have a := hnn r c h1 h2
    have b := hnn r' c' h3 h4
    have h' : idxPacked n r c = idxPacked n r' c' := by omega
    rcases Nat.lt_trichotomy r r' with hlt | heq | hgt
    · have := hmono r c r' c' h1 h2 h3 h4 hlt; omega
    · subst heq
      have e1 := two_mul_idxPacked n r c
      have e2 := two_mul_idxPacked n r c'
      have : (c : Int) = c' := by linarith
      have : c = c' := by exact_mod_cast this
      rw [this]
    · have := hmono r' c' r c h3 h4 h1 h2 hgt; omega
  · -- surjectivity: by induction on the number of rows
    have key : ∀ m, m ≤ n → ∀ i : Nat, 2 * (i : Int) < 2 * n * m - m * m + m →
        ∃ r c, r < m ∧ r ≤ c ∧ c < n ∧ (idxPacked n r c).toNat = i := by
      intro m
      induction m with
      | zero => intro _ i hi; simp at hi; omega
      | succ m ih =>
        intro hm i hi
        by_cases hlt : 2 * (i : Int) < 2 * n * m - m * m + m
        · obtain ⟨r, c, h1, h2, h3, h4⟩ := ih (by omega) i hlt
          exact ⟨r, c, by omega, h2, h3, h4⟩
        · -- i is in row m
          have e := two_mul_idxPacked n m m
          have hi' : 2 * (i : Int) < 2 * n * (m + 1) - (m + 1) * (m + 1) + (m + 1) := by
            push_cast at hi; exact hi
          have hge : idxPacked n m m ≤ i := by
            have : 2 * idxPacked n m m ≤ 2 * i := by rw [e]; linarith
            linarith
          obtain ⟨d, hd⟩ : ∃ d : Nat, (i : Int) = idxPacked n m m + d := ⟨((i : Int) - idxPacked n m m).toNat, by omega⟩
          have hdn : (d : Int) < n - m := by
            nlinarith
          refine ⟨m, m + d, by omega, by omega, by omega, ?_⟩
          have e2 := two_mul_idxPacked n m (m + d)
          have : idxPacked n m (m + d) = i := by
            push_cast at e2
            linarith
          rw [this]; omega
    intro i hi
    have hev : 2 * (n * (n + 1) / 2) = n * (n + 1) := Nat.two_mul_div_two_of_even (Nat.even_mul_succ_self n)
    obtain ⟨r, c, _, h2, h3, h4⟩ := key n (le_refl n) i (by
      have : 2 * i < n * (n + 1) := by omega
      have : 2 * (i : Int) < n * (n + 1) := by exact_mod_cast this
      linarith)
    exact ⟨(r, c), ⟨h2, h3⟩, h4⟩

-- the domains are inhabited; one concrete packing
example : idxAQP 4 5 2 3 4 = 59 ∧ decAQP 4 5 59 = (2, 3, 4) := by decide
example : ((List.range 3).flatMap fun r => (List.range 3).filterMap fun c =>
    if r ≤ c then some (idxPacked 3 r c) else none) = [0, 1, 2, 3, 4, 5] := by decide

end TicTac
