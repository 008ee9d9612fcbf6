import Verif.Model.Sizes
import Verif.Props.Layout
/-!
**C118** In a calculation whose sizes satisfy fifteen inequalities (`Spec.Fits`) none of the size and index computations in 32-bit `int`
overflows; for any other sizes one of them does.  For the overlap table: it is allocated with the right length exactly if the number of pairs
of momentum cells is below 2^31; otherwise the allocation fails, or the table is too short and written beyond its end.
-/
namespace TicTac
open Spec IExp

/-- An expression with a natural number as value, evaluated without overflow. -/
def Ok (e : IExp) (x : Nat) : Prop := e.NoOverflow ∧ e.exact = (x : Int)

theorem tdiv2_range {z : Int} (h : -2 ^ 31 ≤ z ∧ z < 2 ^ 31) : -2 ^ 31 ≤ z.tdiv 2 ∧ z.tdiv 2 < 2 ^ 31 := by
  rcases le_total 0 z with h0 | h0
  · rw [Int.tdiv_eq_ediv_of_nonneg h0]; omega
  · obtain ⟨w, rfl⟩ : ∃ w : Int, z = -w := ⟨-z, by ring⟩
    rw [Int.neg_tdiv, Int.tdiv_eq_ediv_of_nonneg (by omega)]; omega

theorem exact_range (e : IExp) (h : e.NoOverflow) : -2 ^ 31 ≤ e.exact ∧ e.exact < 2 ^ 31 := by
  induction e with
  | v n => simp only [NoOverflow, exact] at *; omega
  | add a b _ _ => exact h.2.2
  | sub a b _ _ => exact h.2.2
  | mul a b _ _ => exact h.2.2
  | half a ih => exact tdiv2_range (ih h)

theorem Ok.lt {e : IExp} {x : Nat} (h : Ok e x) : x < 2 ^ 31 := by
  have := (exact_range e h.1).2
  rw [h.2] at this
  omega

theorem bmod_of_range {z : Int} (h : -2 ^ 31 ≤ z ∧ z < 2 ^ 31) : Int.bmod z (2 ^ 32) = z := by
  have h2 : ((2 ^ 32 : Nat) : Int) = 4294967296 := by norm_num
  apply Int.bmod_eq_of_le
  · rw [h2]; omega
  · rw [h2]; omega

theorem wrapped_of_noOverflow (e : IExp) (h : e.NoOverflow) : e.wrapped = e.exact := by
  induction e with
  | v n => exact bmod_of_range (exact_range _ h)
  | add a b iha ihb =>
    show Int.bmod (a.wrapped + b.wrapped) (2 ^ 32) = a.exact + b.exact
    rw [iha h.1, ihb h.2.1]; exact bmod_of_range h.2.2
  | sub a b iha ihb =>
    show Int.bmod (a.wrapped - b.wrapped) (2 ^ 32) = a.exact - b.exact
    rw [iha h.1, ihb h.2.1]; exact bmod_of_range h.2.2
  | mul a b iha ihb =>
    show Int.bmod (a.wrapped * b.wrapped) (2 ^ 32) = a.exact * b.exact
    rw [iha h.1, ihb h.2.1]; exact bmod_of_range h.2.2
  | half a iha =>
    show Int.bmod (a.wrapped.tdiv 2) (2 ^ 32) = a.exact.tdiv 2
    rw [iha h]; exact bmod_of_range (tdiv2_range (exact_range a h))

theorem ok_v {n : Nat} (h : n < 2 ^ 31) : Ok (v n) n := ⟨by simp only [NoOverflow]; omega, rfl⟩

theorem ok_mul {a b : IExp} {x y : Nat} (ha : Ok a x) (hb : Ok b y) (h : x * y < 2 ^ 31) : Ok (a * b) (x * y) := by
  have he : (a * b).exact = ((x * y : Nat) : Int) := by
    show a.exact * b.exact = _
    rw [ha.2, hb.2]; push_cast; rfl
  refine ⟨⟨ha.1, hb.1, ?_⟩, he⟩
  have he' : a.exact * b.exact = ((x * y : Nat) : Int) := he
  rw [he']
  constructor
  · have : (0 : Int) ≤ ((x * y : Nat) : Int) := Int.natCast_nonneg _
    linarith
  · exact_mod_cast h

theorem ok_add {a b : IExp} {x y : Nat} (ha : Ok a x) (hb : Ok b y) (h : x + y < 2 ^ 31) : Ok (a + b) (x + y) := by
  have he : (a + b).exact = ((x + y : Nat) : Int) := by
    show a.exact + b.exact = _
    rw [ha.2, hb.2]; push_cast; rfl
  refine ⟨⟨ha.1, hb.1, ?_⟩, he⟩
  have he' : a.exact + b.exact = ((x + y : Nat) : Int) := he
  rw [he']
  constructor
  · have : (0 : Int) ≤ ((x + y : Nat) : Int) := Int.natCast_nonneg _
    linarith
  · exact_mod_cast h

theorem ok_sub {a b : IExp} {x y : Nat} (ha : Ok a x) (hb : Ok b y) (h : y ≤ x) : Ok (a - b) (x - y) := by
  have he : (a - b).exact = ((x - y : Nat) : Int) := by
    show a.exact - b.exact = _
    rw [ha.2, hb.2]; omega
  refine ⟨⟨ha.1, hb.1, ?_⟩, he⟩
  have he' : a.exact - b.exact = ((x - y : Nat) : Int) := he
  have hx := ha.lt
  rw [he']
  omega

theorem ok_half {a : IExp} {x : Nat} (ha : Ok a x) : Ok (half a) (x / 2) := by
  refine ⟨ha.1, ?_⟩
  show a.exact.tdiv 2 = _
  rw [ha.2, Int.tdiv_eq_ediv_of_nonneg (Int.natCast_nonneg _)]
  omega

/-- Three digits. -/
theorem ok_digits {a q p A Q P : Nat} (ha : a < A) (hq : q < Q) (hp : p < P) (h : A * Q * P < 2 ^ 31) :
    Ok (v a * v Q * v P + v q * v P + v p) (a * Q * P + q * P + p) ∧ a * Q * P + q * P + p < A * Q * P := by
  have hA : 1 ≤ A := by omega
  have hQ : 1 ≤ Q := by omega
  have hP : 1 ≤ P := by omega
  have e1 : (a + 1) * (Q * P) ≤ A * (Q * P) := Nat.mul_le_mul_right _ ha
  have e2 : (q + 1) * P ≤ Q * P := Nat.mul_le_mul_right _ hq
  have e3 : a * Q ≤ a * Q * P := Nat.le_mul_of_pos_right _ hP
  have e4 : Q * P ≤ A * (Q * P) := Nat.le_mul_of_pos_left _ hA
  have e5 : Q ≤ Q * P := Nat.le_mul_of_pos_right _ hP
  have e6 : P ≤ Q * P := Nat.le_mul_of_pos_left _ hQ
  have e7 : A ≤ A * (Q * P) := Nat.le_mul_of_pos_right _ (Nat.mul_pos hQ hP)
  have e8 : A * (Q * P) = A * Q * P := by ring
  have e9 : (a + 1) * (Q * P) = a * Q * P + Q * P := by ring
  have e10 : (q + 1) * P = q * P + P := by ring
  refine ⟨?_, by omega⟩
  refine ok_add (ok_add (ok_mul (ok_mul (ok_v ?_) (ok_v ?_) ?_) (ok_v ?_) ?_) (ok_mul (ok_v ?_) (ok_v ?_) ?_) ?_) (ok_v ?_) ?_ <;> omega

/-- Two digits. -/
theorem ok_two {b i B I : Nat} (hb : b < B) (hi : i < I) (hI : I < 2 ^ 31) (h : B * I ≤ 2 ^ 31) : Ok (v b * v I + v i) (b * I + i) := by
  have e1 : (b + 1) * I ≤ B * I := Nat.mul_le_mul_right _ hb
  have e2 : (b + 1) * I = b * I + I := by ring
  have e3 : b ≤ b * I := Nat.le_mul_of_pos_right _ (by omega)
  refine ok_add (ok_mul (ok_v ?_) (ok_v ?_) ?_) (ok_v ?_) ?_ <;> omega

/-- Product of three positive sizes. -/
theorem ok_mul3 {a b c : Nat} (hb : 1 ≤ b) (hc : 1 ≤ c) (ha : 1 ≤ a) (h : a * b * c < 2 ^ 31) : Ok (v a * v b * v c) (a * b * c) := by
  have e1 : a * b ≤ a * b * c := Nat.le_mul_of_pos_right _ hc
  have e2 : a ≤ a * b := Nat.le_mul_of_pos_right _ hb
  have e3 : b ≤ a * b := Nat.le_mul_of_pos_left _ ha
  have e4 : c ≤ a * b * c := Nat.le_mul_of_pos_left _ (Nat.mul_pos ha hb)
  refine ok_mul (ok_mul (ok_v ?_) (ok_v ?_) ?_) (ok_v ?_) ?_ <;> omega

theorem ok_mul2 {a b : Nat} (ha : 1 ≤ a) (hb : 1 ≤ b) (h : a * b < 2 ^ 31) : Ok (v a * v b) (a * b) := by
  have e2 : a ≤ a * b := Nat.le_mul_of_pos_right _ hb
  have e3 : b ≤ a * b := Nat.le_mul_of_pos_left _ ha
  refine ok_mul (ok_v ?_) (ok_v ?_) ?_ <;> omega

/-- Packed triangle index. -/
theorem ok_packed {e : IExp} {m r c : Nat} (he : Ok e m) (hm : m * m < 2 ^ 31) (hr : r ≤ c) (hc : c < m) :
    ∃ x, Ok (packedExp e (v r) (v c)) x := by
  obtain ⟨k, rfl⟩ : ∃ k, m = r + k := ⟨m - r, by omega⟩
  have hk : 1 ≤ k := by omega
  have hlt := he.lt
  have e0 : (r + k) * (r + k - 1) ≤ (r + k) * (r + k) := Nat.mul_le_mul_left _ (by omega)
  have e1 : k * (k - 1) ≤ (r + k) * (r + k - 1) := Nat.mul_le_mul (by omega) (by omega)
  have o1 : Ok (e * (e - v 1)) ((r + k) * (r + k - 1)) := ok_mul he (ok_sub he (ok_v (by norm_num)) (by omega)) (by omega)
  have o2 : Ok ((e - v r) * (e - v r - v 1)) ((r + k - r) * (r + k - r - 1)) := by
    have o3 : Ok (e - v r) (r + k - r) := ok_sub he (ok_v (by omega)) (by omega)
    have e2 : r + k - r = k := by omega
    refine ok_mul o3 (ok_sub o3 (ok_v (by norm_num)) (by omega)) ?_
    rw [e2]; omega
  have e2 : r + k - r = k := by omega
  have e3 : (r + k) * (r + k - 1) / 2 + (r + k) ≤ (r + k) * (r + k) := by
    obtain ⟨t, ht⟩ : ∃ t, r + k = t + 1 := ⟨r + k - 1, by omega⟩
    rw [ht]
    have : (t + 1) * (t + 1 - 1) = t * t + t := by simp; ring
    have h2 : (t + 1) * (t + 1) = t * t + 2 * t + 1 := by ring
    rw [this, h2]
    have h3 : t ≤ t * t := by nlinarith
    omega
  refine ⟨_, ok_add (ok_sub (ok_half o1) (ok_half o2) ?_) (ok_v (by omega)) ?_⟩
  · rw [e2]; omega
  · rw [e2]; omega

/-- Coupled matrix index: channel, row of `2 Np`, column. -/
theorem coup_bound {c i j Np coup : Nat} (hc : c < coup) (hi : i < 2 * Np) (hj : j < 2 * Np) (h : 4 * Np ^ 2 * max 1 coup < 2 ^ 31) :
    c * 4 * Np * Np + i * 2 * Np + j < 2 ^ 31 := by
  have h1 : max 1 coup = coup := by omega
  rw [h1] at h
  have e1 : (c + 1) * (4 * Np * Np) ≤ coup * (4 * Np * Np) := Nat.mul_le_mul_right _ hc
  have e2 : (i + 1) * (2 * Np) ≤ 2 * Np * (2 * Np) := Nat.mul_le_mul_right _ hi
  have e3 : 4 * Np ^ 2 * coup = coup * (4 * Np * Np) := by ring
  have e4 : (c + 1) * (4 * Np * Np) = c * 4 * Np * Np + 4 * Np * Np := by ring
  have e5 : (i + 1) * (2 * Np) = i * 2 * Np + 2 * Np := by ring
  have e6 : 2 * Np * (2 * Np) = 4 * Np * Np := by ring
  omega

theorem computed_ok {s : Sizes} (hs : s.Proper) (h : Fits s) {e : IExp} (he : Computed s e) : ∃ x, Ok e x := by
  obtain ⟨hNa, hNq, hNp, hNphi, hNx, hpP, hqP, hun⟩ := hs
  have hcells := h.cells
  have hbound := h.boundaries
  have hcoup := h.coupled
  have sq : s.Np ^ 2 = s.Np * s.Np := by ring
  have hNpNp : s.Np ≤ s.Np * s.Np := Nat.le_mul_of_pos_right _ hNp
  have hm1 : s.Np * s.Np ≤ 4 * s.Np ^ 2 * max 1 s.coup := by
    have : s.Np * s.Np * 1 ≤ 4 * s.Np ^ 2 * max 1 s.coup := Nat.mul_le_mul (by rw [sq]; omega) (by omega)
    omega
  have hm2 : 4 * (s.Np * s.Np) ≤ 4 * s.Np ^ 2 * max 1 s.coup := by
    have : 4 * (s.Np * s.Np) * 1 ≤ 4 * s.Np ^ 2 * max 1 s.coup := Nat.mul_le_mul (by rw [sq]) (by omega)
    omega
  have okNp : Ok (v s.Np) s.Np := ok_v (by omega)
  have ok1 : Ok (v 1) 1 := ok_v (by norm_num)
  have ok2 : Ok (v 2) 2 := ok_v (by norm_num)
  have ok4 : Ok (v 4) 4 := ok_v (by norm_num)
  have okNp1 : Ok (v s.Np + v 1) (s.Np + 1) := ok_add okNp ok1 (by omega)
  have ok2Np : Ok (v 2 * v s.Np) (2 * s.Np) := ok_mul ok2 okNp (by omega)
  have ok2Np1 : Ok (v 2 * v s.Np + v 1) (2 * s.Np + 1) := ok_add ok2Np ok1 (by omega)
  have okNp2 : Ok (v s.Np * v s.Np) (s.Np * s.Np) := ok_mul okNp okNp (by omega)
  have hdense : s.Na * s.Np * s.Nq < 2 ^ 31 := by omega
  have comm1 : s.Na * s.Nq * s.Np = s.Na * s.Np * s.Nq := by ring
  have comm2 : s.Np * s.Nq * s.Na = s.Na * s.Np * s.Nq := by ring
  cases he with
  | overlap =>
    have e1 : s.Nq ^ 2 * s.Np ^ 2 = s.Nq * s.Nq * s.Np * s.Np := by ring
    have e2 : s.Nq * s.Nq * s.Np ≤ s.Nq * s.Nq * s.Np * s.Np := Nat.le_mul_of_pos_right _ hNp
    exact ⟨_, ok_mul (ok_mul3 hNq hNp hNq (by omega)) okNp (by omega)⟩
  | sinPhi => exact ⟨_, ok_mul3 hNp hNphi hNq h.angles⟩
  | denseP => exact ⟨_, ok_mul3 hNq hNa hNp (by omega)⟩
  | denseMain => exact ⟨_, ok_mul3 hNq hNp hNa (by omega)⟩
  | denseG => exact ⟨_, ok_mul3 hNp hNq hNa (by omega)⟩
  | gIdx a q p ha hq hp => exact ⟨_, (ok_digits ha hq hp (by omega)).1⟩
  | gtilde => exact ⟨_, ok_mul2 hNphi hNx h.mesh⟩
  | atilde =>
    have h1 := h.recoupling
    have e1 : s.Na ^ 2 * (s.Lmax + 1) = s.Na * s.Na * (s.Lmax + 1) := by ring
    have e2 : s.Na * s.Na ≤ s.Na * s.Na * (s.Lmax + 1) := Nat.le_mul_of_pos_right _ (by omega)
    have e3 : s.Lmax + 1 ≤ s.Na * s.Na * (s.Lmax + 1) := Nat.le_mul_of_pos_left _ (Nat.mul_pos hNa hNa)
    exact ⟨_, ok_mul (ok_mul2 hNa hNa (by omega)) (ok_add (ok_v (by omega)) ok1 (by omega)) (by omega)⟩
  | atildeIdx a a' L ha ha' hL =>
    have h1 := h.recoupling
    have e1 : s.Na ^ 2 * (s.Lmax + 1) = s.Na * s.Na * (s.Lmax + 1) := by ring
    have e3 : s.Lmax + 1 ≤ s.Na * s.Na * (s.Lmax + 1) := Nat.le_mul_of_pos_left _ (Nat.mul_pos hNa hNa)
    have okL : Ok (v s.Lmax + v 1) (s.Lmax + 1) := ok_add (ok_v (by omega)) ok1 (by omega)
    have e4 := (ok_digits (a := a) (q := a') (p := L) (P := s.Lmax + 1) ha ha' (by omega) (by omega)).2
    have e5 : a * s.Na ≤ a * s.Na * (s.Lmax + 1) := Nat.le_mul_of_pos_right _ (by omega)
    have e6 : s.Na ≤ s.Na * s.Na := Nat.le_mul_of_pos_right _ hNa
    have e7 : s.Na * s.Na ≤ s.Na * s.Na * (s.Lmax + 1) := Nat.le_mul_of_pos_right _ (by omega)
    refine ⟨_, ok_add (ok_add (ok_mul (ok_mul (ok_v ?_) (ok_v ?_) ?_) okL ?_) (ok_mul (ok_v ?_) okL ?_) ?_) (ok_v ?_) ?_⟩ <;> omega
  | sixj =>
    have h1 := h.sixj
    have key : ∀ j k : Nat, j ≤ k → (2 * s.lmax + 1) ^ j ≤ (2 * s.lmax + 1) ^ k := fun j k => Nat.pow_le_pow_right (by omega)
    have k1 := key 1 6 (by omega)
    rw [pow_one] at k1
    have o1 : Ok (v (2 * s.lmax) + v 1) (2 * s.lmax + 1) := ok_add (ok_v (by omega)) ok1 (by omega)
    generalize 2 * s.lmax + 1 = m at *
    have k2 := key 2 6 (by omega)
    have k3 := key 3 6 (by omega)
    have k4 := key 4 6 (by omega)
    have k5 := key 5 6 (by omega)
    have p2 : m * m = m ^ 2 := by ring
    have p3 : m * m * m = m ^ 3 := by ring
    have p4 : m * m * m * m = m ^ 4 := by ring
    have p5 : m * m * m * m * m = m ^ 5 := by ring
    have p6 : m * m * m * m * m * m = m ^ 6 := by ring
    exact ⟨_, ok_mul (ok_mul (ok_mul (ok_mul (ok_mul o1 o1 (by omega)) o1 (by omega)) o1 (by omega)) o1 (by omega)) o1 (by omega)⟩
  | cg =>
    have h1 := h.sixj
    have key : ∀ j k : Nat, j ≤ k → (2 * s.lmax + 1) ^ j ≤ (2 * s.lmax + 1) ^ k := fun j k => Nat.pow_le_pow_right (by omega)
    have k1 := key 1 6 (by omega)
    rw [pow_one] at k1
    have k2 := key 2 6 (by omega)
    have k3 := key 3 6 (by omega)
    have k4 := key 4 6 (by omega)
    have e2 : 2 * (2 * s.lmax) + 1 ≤ (2 * s.lmax + 1) ^ 2 := by nlinarith
    have o1 : Ok (v (2 * s.lmax) + v 1) (2 * s.lmax + 1) := ok_add (ok_v (by omega)) ok1 (by omega)
    have o2 : Ok (v 2 * v (2 * s.lmax) + v 1) (2 * (2 * s.lmax) + 1) := ok_add (ok_mul ok2 (ok_v (by omega)) (by omega)) ok1 (by omega)
    generalize 2 * (2 * s.lmax) + 1 = w at *
    generalize 2 * s.lmax + 1 = m at *
    have p2 : m * m = m ^ 2 := by ring
    have p3 : m * m * m = m ^ 3 := by ring
    have p4 : m * m * m * m = m ^ 4 := by ring
    have p6 : m ^ 4 * w ≤ m ^ 4 * m ^ 2 := Nat.mul_le_mul_left _ e2
    have p7 : m ^ 4 * m ^ 2 = m ^ 6 := by ring
    have p5 : m * m * m * m * w = m ^ 4 * w := by rw [p4]
    exact ⟨_, ok_mul (ok_mul (ok_mul (ok_mul o1 o1 (by omega)) o1 (by omega)) o1 (by omega)) o2 (by omega)⟩
  | vUnco =>
    have h1 := h.uncoupled
    rw [sq] at h1
    exact ⟨_, ok_mul3 hNp hun hNp h1⟩
  | vCoup =>
    have e1 : s.Np * s.Np * 4 * s.coup ≤ 4 * s.Np ^ 2 * max 1 s.coup := Nat.mul_le_mul (by rw [sq]; omega) (by omega)
    have e2 : s.coup ≤ 4 * s.Np ^ 2 * max 1 s.coup := by
      have : 1 * s.coup ≤ 4 * s.Np ^ 2 * max 1 s.coup := Nat.mul_le_mul (by rw [sq]; omega) (by omega)
      omega
    exact ⟨_, ok_mul (ok_mul okNp2 ok4 (by omega)) (ok_v (by omega)) (by omega)⟩
  | vUncoIdx c i j hc hi hj =>
    have h1 := h.uncoupled
    have e1 : s.unco * s.Np * s.Np = s.Np ^ 2 * s.unco := by ring
    exact ⟨_, (ok_digits hc hi hj (by omega)).1⟩
  | vUL c i j hc hi hj =>
    have e1 := coup_bound hc (i := i) (j := j) (by omega) (by omega) hcoup
    have e2 : c * 4 * s.Np ≤ c * 4 * s.Np * s.Np := Nat.le_mul_of_pos_right _ hNp
    have e3 : c * 4 ≤ c * 4 * s.Np := Nat.le_mul_of_pos_right _ hNp
    have e4 : i * 2 ≤ i * 2 * s.Np := Nat.le_mul_of_pos_right _ hNp
    refine ⟨_, ok_add (ok_add (ok_mul (ok_mul (ok_mul (ok_v ?_) ok4 ?_) okNp ?_) okNp ?_) (ok_mul (ok_mul (ok_v ?_) ok2 ?_) okNp ?_) ?_) (ok_v ?_) ?_⟩ <;> omega
  | vUR c i j hc hi hj =>
    have e1 := coup_bound hc (i := i) (j := j + s.Np) (by omega) (by omega) hcoup
    have e2 : c * 4 * s.Np ≤ c * 4 * s.Np * s.Np := Nat.le_mul_of_pos_right _ hNp
    have e3 : c * 4 ≤ c * 4 * s.Np := Nat.le_mul_of_pos_right _ hNp
    have e4 : i * 2 ≤ i * 2 * s.Np := Nat.le_mul_of_pos_right _ hNp
    refine ⟨_, ok_add (ok_add (ok_add (ok_mul (ok_mul (ok_mul (ok_v ?_) ok4 ?_) okNp ?_) okNp ?_) (ok_mul (ok_mul (ok_v ?_) ok2 ?_) okNp ?_) ?_) (ok_v ?_) ?_) okNp ?_⟩ <;> omega
  | vLL c i j hc hi hj =>
    have e1 := coup_bound hc (i := i + s.Np) (j := j) (by omega) (by omega) hcoup
    have e2 : c * 4 * s.Np ≤ c * 4 * s.Np * s.Np := Nat.le_mul_of_pos_right _ hNp
    have e3 : c * 4 ≤ c * 4 * s.Np := Nat.le_mul_of_pos_right _ hNp
    have e4 : (i + s.Np) * 2 ≤ (i + s.Np) * 2 * s.Np := Nat.le_mul_of_pos_right _ hNp
    refine ⟨_, ok_add (ok_add (ok_mul (ok_mul (ok_mul (ok_v ?_) ok4 ?_) okNp ?_) okNp ?_) (ok_mul (ok_mul (ok_add (ok_v ?_) okNp ?_) ok2 ?_) okNp ?_) ?_) (ok_v ?_) ?_⟩ <;> omega
  | vLR c i j hc hi hj =>
    have e1 := coup_bound hc (i := i + s.Np) (j := j + s.Np) (by omega) (by omega) hcoup
    have e2 : c * 4 * s.Np ≤ c * 4 * s.Np * s.Np := Nat.le_mul_of_pos_right _ hNp
    have e3 : c * 4 ≤ c * 4 * s.Np := Nat.le_mul_of_pos_right _ hNp
    have e4 : (i + s.Np) * 2 ≤ (i + s.Np) * 2 * s.Np := Nat.le_mul_of_pos_right _ hNp
    refine ⟨_, ok_add (ok_add (ok_add (ok_mul (ok_mul (ok_mul (ok_v ?_) ok4 ?_) okNp ?_) okNp ?_) (ok_mul (ok_mul (ok_add (ok_v ?_) okNp ?_) ok2 ?_) okNp ?_) ?_) (ok_v ?_) ?_) okNp ?_⟩ <;> omega
  | eUnco =>
    have h1 := h.energiesUnco
    have e1 : s.unco ≤ (s.Np + 1) * s.unco := Nat.le_mul_of_pos_left _ (by omega)
    exact ⟨_, ok_mul okNp1 (ok_v (by omega)) h1⟩
  | eCoup =>
    have h1 := h.energiesCoup
    have e1 : 2 * (s.Np + 1) * s.coup ≤ 2 * (s.Np + 1) * max 1 s.coup := Nat.mul_le_mul_left _ (by omega)
    have e2 : 2 * (s.Np + 1) ≤ 2 * (s.Np + 1) * max 1 s.coup := Nat.le_mul_of_pos_right _ (by omega)
    have e3 : s.coup ≤ 2 * (s.Np + 1) * s.coup := Nat.le_mul_of_pos_left _ (by omega)
    exact ⟨_, ok_mul (ok_mul ok2 okNp1 (by omega)) (ok_v (by omega)) (by omega)⟩
  | eUncoIdx c hc =>
    have h1 := h.energiesUnco
    have e1 : c * (s.Np + 1) ≤ s.unco * (s.Np + 1) := Nat.mul_le_mul_right _ (by omega)
    have e2 : s.unco * (s.Np + 1) = (s.Np + 1) * s.unco := by ring
    have e3 : c ≤ c * (s.Np + 1) := Nat.le_mul_of_pos_right _ (by omega)
    exact ⟨_, ok_mul (ok_v (by omega)) okNp1 (by omega)⟩
  | eCoupIdx c hc =>
    have h1 := h.energiesCoup
    have e0 : max 1 s.coup = s.coup := by omega
    rw [e0] at h1
    have e1 : (c + 1) * (2 * (s.Np + 1)) ≤ s.coup * (2 * (s.Np + 1)) := Nat.mul_le_mul_right _ (by omega)
    have e2 : s.coup * (2 * (s.Np + 1)) = 2 * (s.Np + 1) * s.coup := by ring
    have e3 : (c + 1) * (2 * (s.Np + 1)) = c * 2 * (s.Np + 1) + 2 * (s.Np + 1) := by ring
    have e4 : c * 2 ≤ c * 2 * (s.Np + 1) := Nat.le_mul_of_pos_right _ (by omega)
    exact ⟨_, ok_add (ok_add (ok_mul (ok_mul (ok_v (by omega)) ok2 (by omega)) okNp1 (by omega)) okNp (by omega)) ok1 (by omega)⟩
  | hUnco =>
    have h1 := h.trianglesUnco
    have h2 := h.energiesUnco
    have e1 : s.Np * (s.Np + 1) ≤ s.Np * (s.Np + 1) * max 1 (s.unco - 1) := Nat.le_mul_of_pos_right _ (by omega)
    have e2 : s.unco ≤ (s.Np + 1) * s.unco := Nat.le_mul_of_pos_left _ (by omega)
    have e3 : s.Np * (s.Np + 1) / 2 * s.unco ≤ s.Np * (s.Np + 1) / 2 * (2 * max 1 (s.unco - 1)) := Nat.mul_le_mul_left _ (by omega)
    have e4 : s.Np * (s.Np + 1) / 2 * (2 * max 1 (s.unco - 1)) = (s.Np * (s.Np + 1) / 2 * 2) * max 1 (s.unco - 1) := by ring
    have e5 : (s.Np * (s.Np + 1) / 2 * 2) * max 1 (s.unco - 1) ≤ s.Np * (s.Np + 1) * max 1 (s.unco - 1) :=
      Nat.mul_le_mul_right _ (Nat.div_mul_le_self _ _)
    exact ⟨_, ok_mul (ok_half (ok_mul okNp okNp1 (by omega))) (ok_v (by omega)) (by omega)⟩
  | hCoup =>
    have h1 := h.trianglesCoup
    have h2 := h.energiesCoup
    have e1 : 2 * s.Np * (2 * s.Np + 1) ≤ 2 * s.Np * (2 * s.Np + 1) * max 1 (s.coup - 1) := Nat.le_mul_of_pos_right _ (by omega)
    have e2 : 2 * (s.Np + 1) * s.coup ≤ 2 * (s.Np + 1) * max 1 s.coup := Nat.mul_le_mul_left _ (by omega)
    have e2' : s.coup ≤ 2 * (s.Np + 1) * s.coup := Nat.le_mul_of_pos_left _ (by omega)
    have e3 : 2 * s.Np * (2 * s.Np + 1) / 2 * s.coup ≤ 2 * s.Np * (2 * s.Np + 1) / 2 * (2 * max 1 (s.coup - 1)) := Nat.mul_le_mul_left _ (by omega)
    have e4 : 2 * s.Np * (2 * s.Np + 1) / 2 * (2 * max 1 (s.coup - 1)) = (2 * s.Np * (2 * s.Np + 1) / 2 * 2) * max 1 (s.coup - 1) := by ring
    have e5 : (2 * s.Np * (2 * s.Np + 1) / 2 * 2) * max 1 (s.coup - 1) ≤ 2 * s.Np * (2 * s.Np + 1) * max 1 (s.coup - 1) :=
      Nat.mul_le_mul_right _ (Nat.div_mul_le_self _ _)
    exact ⟨_, ok_mul (ok_half (ok_mul ok2Np ok2Np1 (by omega))) (ok_v (by omega)) (by omega)⟩
  | hUncoIdx c hc =>
    have h1 := h.trianglesUnco
    have e1 : c * s.Np * (s.Np + 1) ≤ s.Np * (s.Np + 1) * max 1 (s.unco - 1) := by
      have e : c * (s.Np * (s.Np + 1)) ≤ max 1 (s.unco - 1) * (s.Np * (s.Np + 1)) := Nat.mul_le_mul_right _ (by omega)
      calc _ = c * (s.Np * (s.Np + 1)) := by ring
        _ ≤ _ := e
        _ = _ := by ring
    have e2 : c * s.Np ≤ c * s.Np * (s.Np + 1) := Nat.le_mul_of_pos_right _ (by omega)
    have e3 : c ≤ c * s.Np := Nat.le_mul_of_pos_right _ hNp
    exact ⟨_, ok_half (ok_mul (ok_mul (ok_v (by omega)) okNp (by omega)) okNp1 (by omega))⟩
  | hCoupIdx c hc =>
    have h1 := h.trianglesCoup
    have e1 : c * (2 * s.Np) * (2 * s.Np + 1) ≤ 2 * s.Np * (2 * s.Np + 1) * max 1 (s.coup - 1) := by
      have e : c * (2 * s.Np * (2 * s.Np + 1)) ≤ max 1 (s.coup - 1) * (2 * s.Np * (2 * s.Np + 1)) := Nat.mul_le_mul_right _ (by omega)
      calc _ = c * (2 * s.Np * (2 * s.Np + 1)) := by ring
        _ ≤ _ := e
        _ = _ := by ring
    have e2 : c * (2 * s.Np) ≤ c * (2 * s.Np) * (2 * s.Np + 1) := Nat.le_mul_of_pos_right _ (by omega)
    have e3 : c ≤ c * (2 * s.Np) := Nat.le_mul_of_pos_right _ (by omega)
    exact ⟨_, ok_half (ok_mul (ok_mul (ok_v (by omega)) ok2Np (by omega)) ok2Np1 (by omega))⟩
  | matUnco c hc =>
    have h1 := h.uncoupled
    have e0 : s.unco * s.Np * s.Np = s.Np ^ 2 * s.unco := by ring
    have e1 := (ok_digits (a := c) (q := 0) (p := 0) hc hNp hNp (by omega)).2
    have e2 : c * s.Np ≤ c * s.Np * s.Np := Nat.le_mul_of_pos_right _ hNp
    have e3 : c ≤ c * s.Np := Nat.le_mul_of_pos_right _ hNp
    exact ⟨_, ok_mul (ok_mul (ok_v (by omega)) okNp (by omega)) okNp (by omega)⟩
  | matCoup c hc =>
    have e1 := coup_bound hc (i := 0) (j := 0) (by omega) (by omega) hcoup
    have e4 : c * (2 * s.Np) * (2 * s.Np) = c * 4 * s.Np * s.Np := by ring
    have e2 : c * (2 * s.Np) ≤ c * (2 * s.Np) * (2 * s.Np) := Nat.le_mul_of_pos_right _ (by omega)
    have e3 : c ≤ c * (2 * s.Np) := Nat.le_mul_of_pos_right _ (by omega)
    exact ⟨_, ok_mul (ok_mul (ok_v (by omega)) ok2Np (by omega)) ok2Np (by omega)⟩
  | packUnco r c hc hr => exact ok_packed okNp (by omega) hr hc
  | packCoup r c hc hr =>
    have e1 : 2 * s.Np * (2 * s.Np) = 4 * (s.Np * s.Np) := by ring
    exact ok_packed ok2Np (by omega) hr hc
  | buffer =>
    have e1 : 4 * s.Np * s.Np = 4 * (s.Np * s.Np) := by ring
    exact ⟨_, ok_mul (ok_mul ok4 okNp (by omega)) okNp (by omega)⟩
  | reorder j i hj hi =>
    have e1 : (j + 1) * (2 * s.Np) ≤ 2 * s.Np * (2 * s.Np) := Nat.mul_le_mul_right _ hj
    have e2 : (j + 1) * (2 * s.Np) = j * 2 * s.Np + 2 * s.Np := by ring
    have e3 : 2 * s.Np * (2 * s.Np) = 4 * (s.Np * s.Np) := by ring
    have e4 : j * 2 ≤ j * 2 * s.Np := Nat.le_mul_of_pos_right _ hNp
    exact ⟨_, ok_add (ok_add (ok_mul (ok_mul (ok_v (by omega)) ok2 (by omega)) okNp (by omega)) (ok_v (by omega)) (by omega)) okNp (by omega)⟩
  | reorder' j i hj hi =>
    have e1 : (j + 1) * (2 * s.Np) ≤ 2 * s.Np * (2 * s.Np) := Nat.mul_le_mul_right _ hj
    have e2 : (j + 1) * (2 * s.Np) = j * 2 * s.Np + 2 * s.Np := by ring
    have e3 : 2 * s.Np * (2 * s.Np) = 4 * (s.Np * s.Np) := by ring
    have e4 : j * 2 ≤ j * 2 * s.Np := Nat.le_mul_of_pos_right _ hNp
    exact ⟨_, ok_add (ok_add (ok_mul (ok_mul (ok_v (by omega)) ok2 (by omega)) okNp (by omega)) (ok_mul ok2 (ok_v (by omega)) (by omega)) (by omega)) ok1 (by omega)⟩
  | alphapq =>
    have e0 : 4 * s.Na * s.Np * s.Nq = 4 * (s.Na * s.Np * s.Nq) := by ring
    have e1 : 4 * s.Na * s.Np ≤ 4 * s.Na * s.Np * s.Nq := Nat.le_mul_of_pos_right _ hNq
    have e2 : s.Nq ≤ 4 * s.Na * s.Np * s.Nq := Nat.le_mul_of_pos_left _ (Nat.mul_pos (by omega) hNp)
    exact ⟨_, ok_mul (ok_mul3 hNa hNp (by norm_num) (by omega)) (ok_v (by omega)) (by omega)⟩
  | alphapqIdx a q p k ha hq hp hk =>
    have e0 := (ok_digits (a := a) (q := q) (p := p) ha hq hp (by omega)).2
    have e1 : a * s.Nq * s.Np = a * s.Np * s.Nq := by ring
    have e2 : a * s.Np ≤ a * s.Np * s.Nq := Nat.le_mul_of_pos_right _ hNq
    have e3 : a ≤ a * s.Np := Nat.le_mul_of_pos_right _ hNp
    have e4 : q ≤ q * s.Np := Nat.le_mul_of_pos_right _ hNp
    have e5 : s.Nq ≤ s.Na * s.Np * s.Nq := Nat.le_mul_of_pos_left _ (Nat.mul_pos hNa hNp)
    refine ⟨_, ok_add (ok_mul ok4 (ok_add (ok_add (ok_mul (ok_mul (ok_v ?_) okNp ?_) (ok_v ?_) ?_) (ok_mul (ok_v ?_) okNp ?_) ?_) (ok_v ?_) ?_) ?_) (ok_v ?_) ?_⟩ <;> omega
  | pMesh =>
    have h1 := h.pPoints
    have e1 : s.pPer * s.Np = s.Np * s.pPer := by ring
    exact ⟨_, ok_mul2 hpP hNp (by omega)⟩
  | qMesh =>
    have h1 := h.qPoints
    have e1 : s.qPer * s.Nq = s.Nq * s.qPer := by ring
    exact ⟨_, ok_mul2 hqP hNq (by omega)⟩
  | pMeshIdx b i hb hi =>
    have h1 := h.pPoints
    have e1 : s.pPer ≤ s.Np * s.pPer := Nat.le_mul_of_pos_left _ hNp
    exact ⟨_, ok_two hb hi (by omega) (by omega)⟩
  | qMeshIdx b i hb hi =>
    have h1 := h.qPoints
    have e1 : s.qPer ≤ s.Nq * s.qPer := Nat.le_mul_of_pos_left _ hNq
    exact ⟨_, ok_two hb hi (by omega) (by omega)⟩
  | keyAlpha a a' ha ha' =>
    have h1 := h.recoupling
    have e1 : s.Na * s.Na * 1 ≤ s.Na ^ 2 * (s.Lmax + 1) := Nat.mul_le_mul (by rw [pow_two]) (by omega)
    have e2 : s.Na ≤ s.Na * s.Na := Nat.le_mul_of_pos_right _ hNa
    exact ⟨_, ok_two ha ha' (by omega) (by omega)⟩
  | keyRow b a' hb ha' =>
    have e1 : s.Na * 1 ≤ s.Na * s.Np * s.Nq := by
      rw [Nat.mul_assoc]; exact Nat.mul_le_mul_left _ (Nat.mul_pos hNp hNq)
    exact ⟨_, ok_two hb ha' (by omega) h.breakup⟩

/-- What `NoOverflow` says about a product of naturals. -/
theorem noOverflow_mul {a b : IExp} {x y : Nat} (h : (a * b).NoOverflow) (ha : a.exact = (x : Int)) (hb : b.exact = (y : Int)) :
    x * y < 2 ^ 31 := by
  have h1 : a.exact * b.exact < 2 ^ 31 := h.2.2.2
  rw [ha, hb] at h1
  exact_mod_cast h1

theorem exact_v (n : Nat) : (v n).exact = (n : Int) := rfl

theorem exact_mul {a b : IExp} {x y : Nat} (ha : a.exact = (x : Int)) (hb : b.exact = (y : Int)) : (a * b).exact = ((x * y : Nat) : Int) := by
  show a.exact * b.exact = _
  rw [ha, hb]; push_cast; rfl

theorem exact_add {a b : IExp} {x y : Nat} (ha : a.exact = (x : Int)) (hb : b.exact = (y : Int)) : (a + b).exact = ((x + y : Nat) : Int) := by
  show a.exact + b.exact = _
  rw [ha, hb]; push_cast; rfl

theorem max_one_lt {m n : Nat} (h1 : m < 2 ^ 31) (h2 : m * n < 2 ^ 31) : m * max 1 n < 2 ^ 31 := by
  rcases le_total 1 n with h | h
  · rwa [max_eq_right h]
  · rw [max_eq_left h]; omega

theorem fits_of_noOverflow {s : Sizes} (hs : s.Proper) (h : ∀ e, Computed s e → e.NoOverflow) : Fits s := by
  obtain ⟨hNa, hNq, hNp, hNphi, hNx, hpP, hqP, hun⟩ := hs
  have xNp1 : (v s.Np + v 1).exact = ((s.Np + 1 : Nat) : Int) := exact_add (exact_v _) (exact_v 1)
  have x2Np : (v 2 * v s.Np).exact = ((2 * s.Np : Nat) : Int) := exact_mul (exact_v 2) (exact_v _)
  have x2Np1 : (v 2 * v s.Np + v 1).exact = ((2 * s.Np + 1 : Nat) : Int) := exact_add x2Np (exact_v 1)
  have xNpNp : (v s.Np * v s.Np).exact = ((s.Np * s.Np : Nat) : Int) := exact_mul (exact_v _) (exact_v _)
  have xl : (v (2 * s.lmax) + v 1).exact = ((2 * s.lmax + 1 : Nat) : Int) := exact_add (exact_v _) (exact_v 1)
  refine ⟨?_, ?_, ?_, ?_, ?_, ?_, ?_, ?_, ?_, ?_, ?_, ?_, ?_, ?_, ?_⟩
  · have := noOverflow_mul (h _ Computed.overlap) (exact_mul (exact_mul (exact_v _) (exact_v _)) (exact_v _)) (exact_v _)
    have e : s.Nq ^ 2 * s.Np ^ 2 = s.Nq * s.Nq * s.Np * s.Np := by ring
    omega
  · have := noOverflow_mul (h _ Computed.alphapq) (exact_mul (exact_mul (exact_v _) (exact_v _)) (exact_v _)) (exact_v _)
    have e : 4 * (s.Na * s.Np * s.Nq) = 4 * s.Na * s.Np * s.Nq := by ring
    omega
  · exact noOverflow_mul (h _ Computed.sinPhi) (exact_mul (exact_v _) (exact_v _)) (exact_v _)
  · exact noOverflow_mul (h _ Computed.gtilde) (exact_v _) (exact_v _)
  · have := noOverflow_mul (h _ Computed.atilde) (exact_mul (exact_v _) (exact_v _)) (exact_add (exact_v _) (exact_v 1))
    have e : s.Na ^ 2 * (s.Lmax + 1) = s.Na * s.Na * (s.Lmax + 1) := by ring
    omega
  · have := noOverflow_mul (h _ Computed.vUnco) xNpNp (exact_v _)
    have e : s.Np ^ 2 * s.unco = s.Np * s.Np * s.unco := by ring
    omega
  · have h1 := h _ Computed.vCoup
    have h2 := noOverflow_mul h1 (exact_mul xNpNp (exact_v 4)) (exact_v _)
    have h3 := noOverflow_mul h1.1 xNpNp (exact_v 4)
    have e : 4 * s.Np ^ 2 = s.Np * s.Np * 4 := by ring
    rw [e]
    exact max_one_lt h3 h2
  · have h1 : (v s.Np * (v s.Np + v 1)).NoOverflow := (h _ Computed.hUnco).1
    have h3 := noOverflow_mul h1 (exact_v _) xNp1
    have h0 : (v (s.unco - 1) * v s.Np * (v s.Np + v 1)).NoOverflow := h (half _) (Computed.hUncoIdx (s := s) (s.unco - 1) (by omega))
    have h2 := noOverflow_mul h0
      (exact_mul (exact_v _) (exact_v _)) xNp1
    have e : (s.unco - 1) * s.Np * (s.Np + 1) = s.Np * (s.Np + 1) * (s.unco - 1) := by ring
    exact max_one_lt h3 (by omega)
  · have h1 : (v 2 * v s.Np * (v 2 * v s.Np + v 1)).NoOverflow := (h _ Computed.hCoup).1
    have h3 := noOverflow_mul h1 x2Np x2Np1
    rcases Nat.lt_or_ge 0 s.coup with hc | hc
    · have h0 : (v (s.coup - 1) * (v 2 * v s.Np) * (v 2 * v s.Np + v 1)).NoOverflow := h (half _) (Computed.hCoupIdx (s := s) (s.coup - 1) (by omega))
      have h2 := noOverflow_mul h0
        (exact_mul (exact_v _) x2Np) x2Np1
      have e : (s.coup - 1) * (2 * s.Np) * (2 * s.Np + 1) = 2 * s.Np * (2 * s.Np + 1) * (s.coup - 1) := by ring
      exact max_one_lt h3 (by omega)
    · have e : max 1 (s.coup - 1) = 1 := by omega
      rw [e]; omega
  · exact noOverflow_mul (h _ Computed.eUnco) xNp1 (exact_v _)
  · have h1 := h _ Computed.eCoup
    have h2 := noOverflow_mul h1 (exact_mul (exact_v 2) xNp1) (exact_v _)
    have h3 := noOverflow_mul h1.1 (exact_v 2) xNp1
    exact max_one_lt h3 h2
  · have := noOverflow_mul (h _ Computed.pMesh) (exact_v _) (exact_v _)
    have e : s.Np * s.pPer = s.pPer * s.Np := by ring
    omega
  · have := noOverflow_mul (h _ Computed.qMesh) (exact_v _) (exact_v _)
    have e : s.Nq * s.qPer = s.qPer * s.Nq := by ring
    omega
  · have := noOverflow_mul (h _ Computed.sixj) (exact_mul (exact_mul (exact_mul (exact_mul xl xl) xl) xl) xl) xl
    generalize 2 * s.lmax + 1 = m at *
    have e : m ^ 6 = m * m * m * m * m * m := by ring
    omega
  · rcases Nat.lt_or_ge 0 s.bu with hb | hb
    · have h1 : (v (s.bu - 1) * v s.Na + v (s.Na - 1)).NoOverflow := h _ (Computed.keyRow (s.bu - 1) (s.Na - 1) (by omega) (by omega))
      have h2 : (v (s.bu - 1) * v s.Na).exact + (v (s.Na - 1)).exact < 2 ^ 31 := h1.2.2.2
      rw [exact_mul (exact_v _) (exact_v _), exact_v] at h2
      have h3 : (s.bu - 1) * s.Na + (s.Na - 1) < 2 ^ 31 := by exact_mod_cast h2
      obtain ⟨b, hb'⟩ : ∃ b, s.bu = b + 1 := ⟨s.bu - 1, by omega⟩
      rw [hb'] at h3 ⊢
      have e : (b + 1) * s.Na = b * s.Na + s.Na := by ring
      simp only [Nat.add_sub_cancel] at h3
      omega
    · have e : s.bu = 0 := by omega
      rw [e]; omega

/-- **C118** For sizes that satisfy the fifteen inequalities no size or index computation of the program overflows a 32-bit `int`: each has
its exact, nonnegative value. -/
theorem C118_exact {s : Sizes} (hs : s.Proper) (h : Fits s) {e : IExp} (he : Computed s e) :
    e.NoOverflow ∧ e.wrapped = e.exact ∧ 0 ≤ e.exact := by
  obtain ⟨x, hx⟩ := computed_ok hs h he
  exact ⟨hx.1, wrapped_of_noOverflow e hx.1, by rw [hx.2]; exact Int.natCast_nonneg _⟩

/-- **C118** The inequalities are sharp: for any other sizes some computation overflows. -/
theorem C118_exactly {s : Sizes} (hs : s.Proper) : (∀ e, Computed s e → e.NoOverflow) ↔ Fits s :=
  ⟨fits_of_noOverflow hs, fun h _ he => (C118_exact hs h he).1⟩

/-- **C118** Grids of up to 215 by 215 bins, 10000 states per channel, angular meshes with up to 40000 points each, two-nucleon channels up to
1000, angular momenta up to 17, and up to 200000 recorded breakup cells are safe. -/
theorem C118_usual_sizes {s : Sizes} (hq : s.Nq ≤ 215) (hp : s.Np ≤ 215) (ha : s.Na ≤ 10000) (hf : s.Nphi ≤ 40000) (hx : s.Nx ≤ 40000)
    (hpp : s.pPer ≤ 1000) (hqq : s.qPer ≤ 1000) (hu : s.unco ≤ 1000) (hc : s.coup ≤ 1000) (hL : s.Lmax ≤ 17) (hl : s.lmax ≤ 17)
    (hb : s.bu ≤ 200000) : Fits s := by
  have p2 : s.Np ^ 2 ≤ 215 ^ 2 := Nat.pow_le_pow_left hp 2
  have q2 : s.Nq ^ 2 ≤ 215 ^ 2 := Nat.pow_le_pow_left hq 2
  have a2 : s.Na ^ 2 ≤ 10000 ^ 2 := Nat.pow_le_pow_left ha 2
  have m1 : max 1 s.coup ≤ 1000 := by omega
  have m2 : max 1 (s.unco - 1) ≤ 1000 := by omega
  have m3 : max 1 (s.coup - 1) ≤ 1000 := by omega
  refine ⟨?_, ?_, ?_, ?_, ?_, ?_, ?_, ?_, ?_, ?_, ?_, ?_, ?_, ?_, ?_⟩
  · exact lt_of_le_of_lt (Nat.mul_le_mul q2 p2) (by norm_num)
  · exact lt_of_le_of_lt (Nat.mul_le_mul le_rfl (Nat.mul_le_mul (Nat.mul_le_mul ha hp) hq)) (by norm_num)
  · exact lt_of_le_of_lt (Nat.mul_le_mul (Nat.mul_le_mul hq hp) hf) (by norm_num)
  · exact lt_of_le_of_lt (Nat.mul_le_mul hf hx) (by norm_num)
  · exact lt_of_le_of_lt (Nat.mul_le_mul a2 (Nat.add_le_add_right hL 1)) (by norm_num)
  · exact lt_of_le_of_lt (Nat.mul_le_mul p2 hu) (by norm_num)
  · exact lt_of_le_of_lt (Nat.mul_le_mul (Nat.mul_le_mul le_rfl p2) m1) (by norm_num)
  · exact lt_of_le_of_lt (Nat.mul_le_mul (Nat.mul_le_mul hp (Nat.add_le_add_right hp 1)) m2) (by norm_num)
  · exact lt_of_le_of_lt (Nat.mul_le_mul (Nat.mul_le_mul (Nat.mul_le_mul le_rfl hp) (Nat.add_le_add_right (Nat.mul_le_mul le_rfl hp) 1)) m3)
      (by norm_num)
  · exact lt_of_le_of_lt (Nat.mul_le_mul (Nat.add_le_add_right hp 1) hu) (by norm_num)
  · exact lt_of_le_of_lt (Nat.mul_le_mul (Nat.mul_le_mul le_rfl (Nat.add_le_add_right hp 1)) m1) (by norm_num)
  · exact lt_of_le_of_lt (Nat.mul_le_mul hp hpp) (by norm_num)
  · exact lt_of_le_of_lt (Nat.mul_le_mul hq hqq) (by norm_num)
  · exact lt_of_le_of_lt (Nat.pow_le_pow_left (Nat.add_le_add_right (Nat.mul_le_mul le_rfl hl) 1) 6) (by norm_num)
  · exact le_trans (Nat.mul_le_mul hb ha) (by norm_num)

/-! ## The overlap table -/

theorem overlap_wrapped (Nq Np : Nat) :
    (v Nq * v Nq * v Np * v Np).wrapped = Int.bmod ((Nq ^ 2 * Np ^ 2 : Nat) : Int) (2 ^ 32) := by
  have e : ((Nq ^ 2 * Np ^ 2 : Nat) : Int) = (Nq : Int) * Nq * Np * Np := by push_cast; ring
  rw [e]
  show Int.bmod (Int.bmod (Int.bmod (Int.bmod Nq (2 ^ 32) * Int.bmod Nq (2 ^ 32)) (2 ^ 32) * Int.bmod Np (2 ^ 32)) (2 ^ 32) * Int.bmod Np (2 ^ 32)) (2 ^ 32) = _
  generalize (2 ^ 32 : Nat) = M
  simp only [Int.bmod_mul_bmod, Int.mul_bmod_bmod]

theorem bmod_nat (n : Nat) : Int.bmod (n : Int) (2 ^ 32) = if n % 2 ^ 32 < 2 ^ 31 then ((n % 2 ^ 32 : Nat) : Int) else ((n % 2 ^ 32 : Nat) : Int) - 2 ^ 32 := by
  have h2 : ((2 ^ 32 : Nat) : Int) = 4294967296 := by norm_num
  rw [Int.bmod_def, h2]
  split_ifs <;> omega

/-- The writes to the overlap table cover exactly the indices below the number of pairs of cells. -/
theorem overlapWrites_indices (i : P123Input) (k : Nat) : (∃ w ∈ overlapWrites i, w.1 = k) ↔ k < i.Nq ^ 2 * i.Np ^ 2 := by
  have hL := C20_overlap_index i.Nq i.Np
  have e : i.Nq ^ 2 * i.Np ^ 2 = i.Nq * i.Nq * i.Np * i.Np := by ring
  rw [e]
  constructor
  · rintro ⟨w, hw, rfl⟩
    simp only [overlapWrites, List.mem_flatMap, List.mem_map, List.mem_range] at hw
    obtain ⟨qp, hqp, pp, hpp, q, hq, p, hp, rfl⟩ := hw
    exact hL.1 (qp, pp, q, p) ⟨hqp, hpp, hq, hp⟩
  · intro hk
    obtain ⟨⟨qp, pp, q, p⟩, ⟨hqp, hpp, hq, hp⟩, hi⟩ := hL.2.2 k hk
    have hm : ∃ b : Bool, (idxOverlap i.Np i.Nq qp pp q p, b) ∈ overlapWrites i := by
      simp only [overlapWrites, List.mem_flatMap, List.mem_map, List.mem_range]
      exact ⟨_, qp, hqp, pp, hpp, q, hq, p, hp, rfl⟩
    obtain ⟨b, hb⟩ := hm
    exact ⟨_, hb, hi⟩

/-- **C118** The overlap table: the allocation throws exactly if the number of pairs of momentum cells, reduced modulo 2^32, is at least 2^31;
all entries that are computed lie inside the table exactly if that number is below 2^31, and then the table has just that many entries;
otherwise, when the allocation does not throw, the table is too short and written beyond its end. -/
theorem C118_overlap_table (i : P123Input) :
    (overlapCapacity i.Nq i.Np = none ↔ 2 ^ 31 ≤ (i.Nq ^ 2 * i.Np ^ 2) % 2 ^ 32) ∧
    ((∃ cap, overlapCapacity i.Nq i.Np = some cap ∧ ∀ w ∈ overlapWrites i, w.1 < cap) ↔ i.Nq ^ 2 * i.Np ^ 2 < 2 ^ 31) ∧
    (i.Nq ^ 2 * i.Np ^ 2 < 2 ^ 31 → overlapCapacity i.Nq i.Np = some (i.Nq ^ 2 * i.Np ^ 2)) ∧
    (2 ^ 31 ≤ i.Nq ^ 2 * i.Np ^ 2 → ∀ cap, overlapCapacity i.Nq i.Np = some cap → ∃ w ∈ overlapWrites i, cap ≤ w.1) := by
  have key := overlapWrites_indices i
  have hcap : overlapCapacity i.Nq i.Np =
      if (i.Nq ^ 2 * i.Np ^ 2) % 2 ^ 32 < 2 ^ 31 then some ((i.Nq ^ 2 * i.Np ^ 2) % 2 ^ 32) else none := by
    unfold overlapCapacity allocate
    rw [overlap_wrapped, bmod_nat]
    generalize i.Nq ^ 2 * i.Np ^ 2 = N
    by_cases h : N % 2 ^ 32 < 2 ^ 31
    · rw [if_pos h, if_pos h, if_neg (by omega), Int.toNat_natCast]
    · rw [if_neg h, if_neg h, if_pos (by omega)]
  generalize i.Nq ^ 2 * i.Np ^ 2 = N at *
  have short : 2 ^ 31 ≤ N → ∀ cap, overlapCapacity i.Nq i.Np = some cap → ∃ w ∈ overlapWrites i, cap ≤ w.1 := by
    intro hN cap hc
    rw [hcap] at hc
    split_ifs at hc with h
    injection hc with hc
    obtain ⟨w, hw, hw'⟩ := (key (N - 1)).2 (by omega)
    exact ⟨w, hw, by omega⟩
  have full : N < 2 ^ 31 → overlapCapacity i.Nq i.Np = some N := by
    intro hN
    rw [hcap, Nat.mod_eq_of_lt (by omega), if_pos hN]
  refine ⟨?_, ⟨?_, ?_⟩, full, short⟩
  · rw [hcap]
    split_ifs with h
    · exact ⟨fun h' => (by cases h'), fun h' => (by omega)⟩
    · exact ⟨fun _ => by omega, fun _ => rfl⟩
  · rintro ⟨cap, hc, hw⟩
    by_contra hN
    obtain ⟨w, hw1, hw2⟩ := short (by omega) cap hc
    have := hw w hw1
    omega
  · intro hN
    exact ⟨N, full hN, fun w hw => (key w.1).1 ⟨w, hw, rfl⟩⟩

/-- **C118** On a square grid: right up to 215 by 215 bins; with 216 to 255 bins the allocation throws; with 256 bins a table without any
entry is allocated and written to. -/
theorem C118_square_grid (n : Nat) :
    (n ≤ 215 → overlapCapacity n n = some (n ^ 4)) ∧ (216 ≤ n → n ≤ 255 → overlapCapacity n n = none) ∧ overlapCapacity 256 256 = some 0 := by
  have h : ∀ n : Nat, overlapCapacity n n = if n ^ 4 % 2 ^ 32 < 2 ^ 31 then some (n ^ 4 % 2 ^ 32) else none := by
    intro n
    unfold overlapCapacity allocate
    rw [overlap_wrapped, bmod_nat]
    have e : n ^ 2 * n ^ 2 = n ^ 4 := by ring
    rw [e]
    generalize n ^ 4 = N
    by_cases h : N % 2 ^ 32 < 2 ^ 31
    · rw [if_pos h, if_pos h, if_neg (by omega), Int.toNat_natCast]
    · rw [if_neg h, if_neg h, if_pos (by omega)]
  refine ⟨?_, ?_, ?_⟩
  · intro hn
    have h1 : n ^ 4 ≤ 215 ^ 4 := Nat.pow_le_pow_left hn 4
    rw [h, Nat.mod_eq_of_lt (by omega), if_pos (by omega)]
  · intro h1 h2
    have h3 : 216 ^ 4 ≤ n ^ 4 := Nat.pow_le_pow_left h1 4
    have h4 : n ^ 4 ≤ 255 ^ 4 := Nat.pow_le_pow_left h2 4
    rw [h, Nat.mod_eq_of_lt (by omega), if_neg (by omega)]
  · rw [h]; norm_num

/-! A calculation of ordinary size meets the hypotheses; one with a single excess does not. -/

/-- 100 by 100 bins, 50 states, 48 by 20 angular mesh. -/
def usualSizes : Sizes := ⟨50, 100, 100, 48, 20, 30, 30, 12, 4, 10, 5, 3000⟩

example : usualSizes.Proper ∧ Fits usualSizes :=
  ⟨by unfold Sizes.Proper usualSizes; norm_num, by apply C118_usual_sizes <;> norm_num [usualSizes]⟩

example : ∀ e, Computed usualSizes e → e.wrapped = e.exact := fun _ he =>
  (C118_exact (by unfold Sizes.Proper usualSizes; norm_num) (by apply C118_usual_sizes <;> norm_num [usualSizes]) he).2.1

example : ¬ Fits { usualSizes with Nq := 216, Np := 216 } := fun h => by have := h.cells; revert this; norm_num

end TicTac
