import Verif.Model.PadeSolve
import Verif.Spec.PadeSolve
import Verif.Lemmas.Kernel3
/-! Lemmas for the iterative solver: one Neumann step. -/
noncomputable section
namespace TicTac
open Spec

theorem chunkEnd_le (D i : Nat) : chunkEnd D i ≤ D := by unfold chunkEnd; split <;> omega

theorem chunkEnd_eq (D i : Nat) : chunkEnd D i = min (chunkStart D (i + 1)) D := by unfold chunkEnd chunkStart; split <;> omega

theorem gemmChunk_hit {D M N start : Nat} (A B prod : Nat → ℝ) {r c : Nat} (hr : r < M) (hc : start ≤ c) (hc' : c < start + N) (hD : c < D) :
    gemmChunk D M N start A B prod (r * D + c) = ∑ j ∈ Finset.range D, A (r * D + j) * B ((c - start) * D + j) := by
  unfold gemmChunk
  have e : r * D + c - start = r * D + (c - start) := by omega
  rw [e, radix_div (show c - start < D by omega), radix_mod (show c - start < D by omega), if_pos ⟨by omega, hr, by omega⟩]

theorem gemmChunk_miss {D M N start : Nat} (A B prod : Nat → ℝ) {r c : Nat} (hc : c < start ∨ start + N ≤ c) (hD : c < D) (hN : start + N ≤ D) :
    gemmChunk D M N start A B prod (r * D + c) = prod (r * D + c) := by
  unfold gemmChunk
  rw [if_neg]
  rintro ⟨h1, h2, h3⟩
  rcases hc with hc | hc
  · obtain ⟨r', rfl⟩ : ∃ r', r = r' + 1 := by
      cases r with
      | zero => omega
      | succ r => exact ⟨r, rfl⟩
    have e : (r' + 1) * D + c - start = r' * D + (D + c - start) := by
      have : (r' + 1) * D = r' * D + D := by ring
      omega
    rw [e, radix_mod (show D + c - start < D by omega)] at h3
    omega
  · have e : r * D + c - start = r * D + (c - start) := by omega
    rw [e, radix_mod (show c - start < D by omega)] at h3
    omega

theorem chunk_cover (D : Nat) (hc : 0 < colsPerChunk D) : D ≤ chunkStart D (numChunks D) := by
  unfold chunkStart numChunks
  have := Nat.div_add_mod D (colsPerChunk D)
  have := Nat.mod_lt D hc
  have : (D / colsPerChunk D + 1) * colsPerChunk D = colsPerChunk D * (D / colsPerChunk D) + colsPerChunk D := by ring
  omega

theorem chunkStart_mono (D : Nat) {i j : Nat} (h : i ≤ j) : chunkStart D i ≤ chunkStart D j := Nat.mul_le_mul_right _ h

theorem chunkStart_le (D : Nat) {i : Nat} (h : i < numChunks D) : chunkStart D i ≤ D := by
  unfold chunkStart numChunks at *
  calc i * colsPerChunk D ≤ D / colsPerChunk D * colsPerChunk D := Nat.mul_le_mul_right _ (by omega)
    _ ≤ D := Nat.div_mul_le_self _ _

section
variable {n Nq Np : Nat} (c : PadeCfg) (hn : c.Nalpha = n) (hq : c.Nq = Nq) (hp : c.Np = Np) (A : Matrix (Idx n Nq Np) (Idx n Nq Np) ℝ)

theorem sum_flat (f : Nat → ℝ) : ∑ j ∈ Finset.range (n * Nq * Np), f j = ∑ x : Idx n Nq Np, f (flat x) := by
  symm
  refine Finset.sum_bij (fun x _ => flat x) ?_ ?_ ?_ ?_
  · intro x _; exact Finset.mem_range.2 (flat_lt x)
  · intro x _ y _ h; exact flat_inj h
  · intro j hj
    rw [Finset.mem_range] at hj
    obtain ⟨a, i, ha, hi, rfl⟩ := radix_surj hj
    obtain ⟨b, q, hb, hq, rfl⟩ := radix_surj ha
    exact ⟨(⟨b, hb⟩, ⟨q, hq⟩, ⟨i, hi⟩), Finset.mem_univ _, by unfold flat; dsimp only; ring⟩
  · intro x _; rfl

/-- Decoding of a column number as in the solver. -/
theorem col_decode (y : Idx n Nq Np) : flat y / (Np * Nq) = y.1 ∧ flat y % Np = y.2.2 ∧ flat y % (Np * Nq) / Np = y.2.1 := by
  have e : flat y = y.1 * (Nq * Np) + (y.2.1 * Np + y.2.2) := by unfold flat; ring
  have hlt : (y.2.1 : Nat) * Np + y.2.2 < Nq * Np := radix_lt y.2.1.2 y.2.2.2
  refine ⟨?_, ?_, ?_⟩
  · rw [e, Nat.mul_comm Np Nq, radix_div hlt]
  · have e' : flat y = (y.1 * Nq + y.2.1) * Np + y.2.2 := by unfold flat; ring
    rw [e', radix_mod y.2.2.2]
  · rw [e, Nat.mul_comm Np Nq, radix_mod hlt, radix_div y.2.2.2]

/-- The columns the solver asks for are those of `A`. -/
def HasKernel : Prop := ∀ x y : Idx n Nq Np, cpvcCol n Nq Np c.CT c.VC c.ents c.ptr (fun _ => 0) y.1 y.2.2 y.2.1 (flat x) = A x y

include hn hq hp in
theorem gemmAll_eq (hK : HasKernel c A) (hc : 0 < colsPerChunk c.D) (M : Nat) (comp prod : Nat → ℝ) (k : Nat) (hk : k < M) (y : Idx n Nq Np) :
    gemmAll c M comp prod (k * c.D + flat y) = ∑ x : Idx n Nq Np, comp (k * c.D + flat x) * A x y := by
  have hD : c.D = n * Nq * Np := by unfold PadeCfg.D; rw [hn, hq, hp]
  have hy : flat y < c.D := by rw [hD]; exact flat_lt y
  have key : ∀ m, m ≤ numChunks c.D → flat y < chunkStart c.D m →
      (List.range m).foldl (fun prod i => gemmChunk c.D M (chunkEnd c.D i - chunkStart c.D i) (chunkStart c.D i) comp (chunkCols c i) prod) prod (k * c.D + flat y) =
        ∑ x : Idx n Nq Np, comp (k * c.D + flat x) * A x y := by
    intro m
    induction m with
    | zero => intro _ h; unfold chunkStart at h; simp at h
    | succ m ih =>
      intro hm hlt
      rw [List.range_succ, List.foldl_append, List.foldl_cons, List.foldl_nil]
      have h1 := chunkStart_le c.D (show m < numChunks c.D by omega)
      have h2 := chunkEnd_eq c.D m
      have h3 := chunkStart_mono c.D (show m ≤ m + 1 by omega)
      by_cases h : flat y < chunkStart c.D m
      · rw [gemmChunk_miss _ _ _ (Or.inl h) hy (by omega)]
        exact ih (by omega) h
      · rw [gemmChunk_hit _ _ _ hk (by omega) (by omega) hy, hD, sum_flat]
        refine Finset.sum_congr rfl fun x _ => ?_
        congr 1
        have hx : flat x < c.D := by rw [hD]; exact flat_lt x
        unfold chunkCols
        rw [← hD, radix_div hx, radix_mod hx, if_pos (by omega)]
        dsimp only
        have e : chunkStart c.D m + (flat y - chunkStart c.D m) = flat y := by omega
        rw [e, hn, hq, hp]
        obtain ⟨d1, d2, d3⟩ := col_decode y
        rw [d1, d2, d3, hK]
  unfold gemmAll
  have := chunk_cover c.D hc
  exact key _ le_rfl (by omega)

theorem compact_eq (D : Nat) (rows : List Nat) (comp prev : Nat → ℝ) (k r i : Nat) (hk : rows[k]? = some r) (hi : i < D) :
    compact D rows comp prev (k * D + i) = prev (r * D + i) := by
  unfold compact
  apply writeAll_eq
  · exact List.mem_flatMap.2 ⟨(r, k), List.mk_mem_zipIdx_iff_getElem?.2 hk, List.mem_map.2 ⟨i, List.mem_range.2 hi, rfl⟩⟩
  · intro w hw h
    obtain ⟨⟨r', k'⟩, hr, hw⟩ := List.mem_flatMap.1 hw
    obtain ⟨i', hi', rfl⟩ := List.mem_map.1 hw
    obtain ⟨rfl, rfl⟩ := radix_inj (List.mem_range.1 hi') hi h
    rw [List.mk_mem_zipIdx_iff_getElem?, hk] at hr
    cases hr; rfl

theorem writeBack_eq (D : Nat) (rows : List Nat) (cur prod : Nat → ℝ) (r i : Nat) (v : ℝ) (hr : r ∈ rows) (hi : i < D)
    (hv : ∀ k, rows[k]? = some r → prod (k * D + i) = v) : writeBack D rows cur prod (r * D + i) = v := by
  unfold writeBack
  obtain ⟨k, hk, rfl⟩ := List.mem_iff_getElem.1 hr
  have hk' : rows[k]? = some rows[k] := List.getElem?_eq_getElem hk
  rw [← hv k hk']
  apply writeAll_eq
  · exact List.mem_flatMap.2 ⟨(rows[k], k), List.mk_mem_zipIdx_iff_getElem?.2 hk', List.mem_map.2 ⟨i, List.mem_range.2 hi, rfl⟩⟩
  · intro w hw h
    obtain ⟨⟨r', k'⟩, hr', hw⟩ := List.mem_flatMap.1 hw
    obtain ⟨i', hi', rfl⟩ := List.mem_map.1 hw
    dsimp only at h ⊢
    obtain ⟨e1, rfl⟩ := radix_inj (List.mem_range.1 hi') hi h
    rw [List.mk_mem_zipIdx_iff_getElem?, e1] at hr'
    rw [hv k' hr', hv k hk']

theorem mem_activeRows (s : PadeState) (r : Nat) : r ∈ activeRows c s ↔ ∃ dr < c.nd, ∃ q < c.nq, rowActive c s dr q = true ∧ r = dr * c.nq + q := by
  unfold activeRows
  simp only [List.mem_flatMap, List.mem_range]
  constructor
  · rintro ⟨dr, h1, q, h2, h3⟩
    by_cases h : rowActive c s dr q = true
    · rw [if_pos h] at h3; exact ⟨dr, h1, q, h2, h, by simpa using h3⟩
    · rw [if_neg h] at h3; simp at h3
  · rintro ⟨dr, h1, q, h2, h3, rfl⟩
    exact ⟨dr, h1, q, h2, by rw [if_pos h3]; simp⟩

/-- A row of a pair of real arrays as a complex vector. -/
def rowVec (D : Nat) (re im : Nat → ℝ) (r : Nat) : Idx n Nq Np → ℂ := fun x => ⟨re (r * D + flat x), im (r * D + flat x)⟩

include hn hq hp in
theorem mulG_row (s : PadeState) (dr q : Nat) (hdr : dr < c.nd) (hqq : q < c.nq) (x : Idx n Nq Np) :
    rowVec c.D (mulG c s).rePrev (mulG c s).imPrev (dr * c.nq + q) x =
      rowVec c.D s.rePrev s.imPrev (dr * c.nq + q) x * c.G (q * c.D + flat x) := by
  have hD : c.D = n * Nq * Np := by unfold PadeCfg.D; rw [hn, hq, hp]
  have hx : flat x < c.D := by rw [hD]; exact flat_lt x
  have hmem : ((dr * c.nq + q) * c.D + flat x, q * c.D + flat x) ∈ (List.range c.nq).flatMap fun q => (List.range c.nd).flatMap fun dr =>
      (List.range c.D).map fun i => ((dr * c.nq + q) * c.D + i, q * c.D + i) :=
    List.mem_flatMap.2 ⟨q, List.mem_range.2 hqq, List.mem_flatMap.2 ⟨dr, List.mem_range.2 hdr, List.mem_map.2 ⟨flat x, List.mem_range.2 hx, rfl⟩⟩⟩
  have huniq : ∀ k ∈ (List.range c.nq).flatMap fun q => (List.range c.nd).flatMap fun dr =>
      (List.range c.D).map fun i => ((dr * c.nq + q) * c.D + i, q * c.D + i), k.1 = (dr * c.nq + q) * c.D + flat x →
      k = ((dr * c.nq + q) * c.D + flat x, q * c.D + flat x) := by
    intro k hk he
    obtain ⟨q', hq', hk⟩ := List.mem_flatMap.1 hk
    obtain ⟨dr', hdr', hk⟩ := List.mem_flatMap.1 hk
    obtain ⟨i', hi', rfl⟩ := List.mem_map.1 hk
    dsimp only at he ⊢
    obtain ⟨e1, rfl⟩ := radix_inj (List.mem_range.1 hi') hx he
    obtain ⟨rfl, rfl⟩ := radix_inj (List.mem_range.1 hq') hqq e1
    rfl
  unfold rowVec mulG
  dsimp only
  apply Complex.ext
  · rw [Complex.mul_re]
    apply writeAll_eq
    · exact List.mem_map.2 ⟨_, hmem, rfl⟩
    · intro w hw h
      obtain ⟨k, hk, rfl⟩ := List.mem_map.1 hw
      rw [huniq k hk h]
  · rw [Complex.mul_im]
    apply writeAll_eq
    · exact List.mem_map.2 ⟨_, hmem, rfl⟩
    · intro w hw h
      obtain ⟨k, hk, rfl⟩ := List.mem_map.1 hw
      rw [huniq k hk h]

include hn hq hp in
/-- One Neumann step on a row that still takes part. -/
theorem neumannStep_row (hK : HasKernel c A) (hc : 0 < colsPerChunk c.D) (m : Nat) (s : PadeState) (dr q : Nat) (hdr : dr < c.nd) (hqq : q < c.nq)
    (hact : rowActive c s dr q = true) (y : Idx n Nq Np) :
    rowVec c.D (neumannStep c m s).re (neumannStep c m s).im (dr * c.nq + q) y =
        ∑ x : Idx n Nq Np, rowVec c.D s.rePrev s.imPrev (dr * c.nq + q) x * c.G (q * c.D + flat x) * A x y ∧
    rowVec c.D (neumannStep c m s).rePrev (neumannStep c m s).imPrev (dr * c.nq + q) y =
        rowVec c.D (neumannStep c m s).re (neumannStep c m s).im (dr * c.nq + q) y := by
  have hD : c.D = n * Nq * Np := by unfold PadeCfg.D; rw [hn, hq, hp]
  have hy : flat y < c.D := by rw [hD]; exact flat_lt y
  have hact' : rowActive c (mulG c s) dr q = true := hact
  have hmem : dr * c.nq + q ∈ activeRows c (mulG c s) := (mem_activeRows c _ _).2 ⟨dr, hdr, q, hqq, hact', rfl⟩
  have hlen : ∀ k, (activeRows c (mulG c s))[k]? = some (dr * c.nq + q) → k < (activeRows c (mulG c s)).length := fun k hk =>
    (List.getElem?_eq_some_iff.1 hk).1
  constructor
  · have hre : (neumannStep c m s).re ((dr * c.nq + q) * c.D + flat y) =
        ∑ x : Idx n Nq Np, (mulG c s).rePrev ((dr * c.nq + q) * c.D + flat x) * A x y := by
      apply writeBack_eq _ _ _ _ _ _ _ hmem hy
      intro k hk
      refine (gemmAll_eq c hn hq hp A hK hc _ _ _ k (hlen k hk) y).trans ?_
      refine Finset.sum_congr rfl fun x _ => ?_
      exact congrArg (· * A x y) (compact_eq c.D _ _ _ k _ _ hk (by rw [hD]; exact flat_lt x))
    have him : (neumannStep c m s).im ((dr * c.nq + q) * c.D + flat y) =
        ∑ x : Idx n Nq Np, (mulG c s).imPrev ((dr * c.nq + q) * c.D + flat x) * A x y := by
      apply writeBack_eq _ _ _ _ _ _ _ hmem hy
      intro k hk
      refine (gemmAll_eq c hn hq hp A hK hc _ _ _ k (hlen k hk) y).trans ?_
      refine Finset.sum_congr rfl fun x _ => ?_
      exact congrArg (· * A x y) (compact_eq c.D _ _ _ k _ _ hk (by rw [hD]; exact flat_lt x))
    have hsum : ∑ x : Idx n Nq Np, rowVec c.D s.rePrev s.imPrev (dr * c.nq + q) x * c.G (q * c.D + flat x) * A x y =
        ∑ x : Idx n Nq Np, rowVec c.D (mulG c s).rePrev (mulG c s).imPrev (dr * c.nq + q) x * A x y := by
      refine Finset.sum_congr rfl fun x _ => ?_
      rw [mulG_row c hn hq hp s dr q hdr hqq x]
    rw [hsum]
    unfold rowVec
    rw [hre, him]
    apply Complex.ext
    · rw [Complex.re_sum]
      simp
    · rw [Complex.im_sum]
      simp
  · unfold rowVec
    have hlt : (dr * c.nq + q) * c.D + flat y < c.rows * c.D := radix_lt (radix_lt hdr hqq) hy
    have e1 : (neumannStep c m s).rePrev ((dr * c.nq + q) * c.D + flat y) = (neumannStep c m s).re ((dr * c.nq + q) * c.D + flat y) := if_pos hlt
    have e2 : (neumannStep c m s).imPrev ((dr * c.nq + q) * c.D + flat y) = (neumannStep c m s).im ((dr * c.nq + q) * c.D + flat y) := if_pos hlt
    rw [e1, e2]

end

/-- What `neumannStep` leaves alone. -/
theorem neumannStep_frame (c : PadeCfg) (m : Nat) (s : PadeState) :
    (neumannStep c m s).el.conv = s.el.conv ∧ (neumannStep c m s).el.pa = s.el.pa ∧ (neumannStep c m s).el.best = s.el.best ∧
    (neumannStep c m s).bu.conv = s.bu.conv ∧ (neumannStep c m s).bu.pa = s.bu.pa ∧ (neumannStep c m s).bu.best = s.bu.best ∧
    (neumannStep c m s).numConv = s.numConv := ⟨rfl, rfl, rfl, rfl, rfl, rfl, rfl⟩

theorem neumannStep_el (c : PadeCfg) (m : Nat) (s : PadeState) :
    (neumannStep c m s).el = extract c.D m (neumannStep c m s).re (neumannStep c m s).im (elElems c) s.el := rfl
theorem neumannStep_bu (c : PadeCfg) (m : Nat) (s : PadeState) :
    (neumannStep c m s).bu = extract c.D m (neumannStep c m s).re (neumannStep c m s).im (buElems c) s.bu := rfl

/-- Coefficients after an extraction. -/
theorem extract_a (D m : Nat) (hm : m < 29) (re im : Nat → ℝ) (es : List OsElem) (t : OsTab)
    (huniq : ∀ e ∈ es, ∀ e' ∈ es, e.idx = e'.idx → e.row = e'.row ∧ e.col = e'.col) :
    (∀ e ∈ es, t.conv e.idx = false → (extract D m re im es t).a (e.idx * 29 + m) = ⟨re (e.row * D + e.col), im (e.row * D + e.col)⟩) ∧
    (∀ idx k, k < 29 → k ≠ m → (extract D m re im es t).a (idx * 29 + k) = t.a (idx * 29 + k)) := by
  unfold extract
  dsimp only
  constructor
  · intro e he hcv
    have : ∀ (l : List OsElem) (a : Nat → ℂ), (∀ e' ∈ l, e' ∈ es) → (e ∈ l ∨ a (e.idx * 29 + m) = ⟨re (e.row * D + e.col), im (e.row * D + e.col)⟩) →
        l.foldl (fun a e => if t.conv e.idx then a else Function.update a (e.idx * 29 + m) ⟨re (e.row * D + e.col), im (e.row * D + e.col)⟩) a (e.idx * 29 + m) =
          ⟨re (e.row * D + e.col), im (e.row * D + e.col)⟩ := by
      intro l
      induction l with
      | nil => intro a _ h; exact h.resolve_left (by simp)
      | cons e' l ih =>
        intro a hl h
        rw [List.foldl_cons]
        apply ih _ (fun x hx => hl x (List.mem_cons_of_mem _ hx))
        by_cases hmem : e ∈ l
        · exact Or.inl hmem
        right
        by_cases hi : e'.idx = e.idx
        · obtain ⟨h1, h2⟩ := huniq e' (hl e' List.mem_cons_self) e he hi
          rw [hi, hcv, if_neg (by simp), Function.update_self, h1, h2]
        · have hne : e.idx * 29 + m ≠ e'.idx * 29 + m := fun hh => hi (by omega)
          have h' : a (e.idx * 29 + m) = ⟨re (e.row * D + e.col), im (e.row * D + e.col)⟩ := by
            rcases h with h | h
            · rcases List.mem_cons.1 h with h | h
              · exact absurd (by rw [h]) hi
              · exact absurd h hmem
            · exact h
          split
          · exact h'
          · rw [Function.update_of_ne hne, h']
    exact this es t.a (fun _ h => h) (Or.inl he)
  · intro idx k hk hkm
    have : ∀ (l : List OsElem) (a : Nat → ℂ),
        l.foldl (fun a e => if t.conv e.idx then a else Function.update a (e.idx * 29 + m) ⟨re (e.row * D + e.col), im (e.row * D + e.col)⟩) a (idx * 29 + k) =
          a (idx * 29 + k) := by
      intro l
      induction l with
      | nil => intro a; rfl
      | cons e' l ih =>
        intro a
        rw [List.foldl_cons, ih]
        split
        · rfl
        · rw [Function.update_of_ne]; omega
    exact this es t.a

end TicTac
end
