import Verif.Spec.ResultFile
import Verif.Props.Kinematics
import Verif.Props.Main
/-! **C126.** The result files as whole texts. -/
noncomputable section
namespace TicTac
open Spec

/-- Values the files are meant for: one word as name of the potential, no line end in the text of the deuteron energy. -/
structure Spec.PlainHead (h : ResultHead) : Prop where
  parity : h.parity = 1 ∨ h.parity = -1
  word : h.potential ≠ [] ∧ ' ' ∉ h.potential ∧ '\n' ∉ h.potential
  bound : '\n' ∉ h.bound

structure Spec.PlainElastic (d : ElasticData) : Prop where
  few : d.nd < 1000
  small : ∀ i < d.nd, d.l i < 10 ^ 9 ∧ d.twoj i < 10 ^ 9
  T : ∀ q < d.nq, Plain (d.T q) ∧ (d.T q).geZero
  E : ∀ q < d.nq, Plain (d.E q) ∧ (d.E q).geZero
  bin : ∀ q < d.nq, d.bin q < 10 ^ 9
  U : ∀ i, Plain (d.U i).1 ∧ Plain (d.U i).2

theorem sci_nonl {neg : Bool} {N : Nat} {E : Int} : '\n' ∉ sciText 16 neg N E := fun h => by
  rcases sciText_chars _ h with h | h | h | h | h <;> exact absurd h (by decide)

theorem blanks_nonl (k : Nat) : '\n' ∉ List.replicate k ' ' := fun h => absurd (List.mem_replicate.1 h).2 (by decide)

theorem setw_nonl {w : Nat} {t : Str} (h : '\n' ∉ t) : '\n' ∉ setw w t := by
  unfold setw
  simp only [List.mem_append, not_or]
  exact ⟨blanks_nonl _, h⟩

theorem plain_prints_nonl {x : Dbl} (h : Plain x) {s : Str} (hs : Prints 16 x s) : '\n' ∉ s := by
  cases x with
  | inf => exact absurd h id
  | nan => exact absurd h id
  | fin neg m e =>
    obtain ⟨N, E, rfl, -⟩ := prints_fin h.1 hs
    exact sci_nonl

theorem field_nonl {f : Field} (hf : PlainField f) {s : Str} (h : FieldText f s) : '\n' ∉ s := by
  cases f with
  | real x =>
    obtain ⟨t, ht, rfl⟩ := h
    exact setw_nonl (plain_prints_nonl hf.1 ht)
  | index n =>
    rw [show s = _ from h]
    exact setw_nonl toDigits_nonl.2.1
  | cplx re im =>
    obtain ⟨t, ⟨a, b, ⟨a', ha, rfl⟩, ⟨b', hb, rfl⟩, rfl⟩, rfl⟩ := h
    refine setw_nonl ?_
    have h1 := plain_prints_nonl hf.1 ha
    have h2 := plain_prints_nonl hf.2 hb
    have h3 : ∀ b : Bool, '\n' ∉ (if b then ['+'] else [] : Str) := by decide
    simp only [List.mem_append, not_or]
    exact ⟨⟨⟨h3 _, h1⟩, h3 _, h2⟩, by decide⟩

theorem fields_nonl {fs : List Field} (hf : ∀ f ∈ fs, PlainField f) {s : Str} (h : FieldsText fs s) : '\n' ∉ s := by
  induction fs generalizing s with
  | nil => rw [show s = [] from h]; simp
  | cons f fs ih =>
    obtain ⟨a, b, ha, hb, rfl⟩ := h
    simp only [List.mem_append, not_or]
    exact ⟨field_nonl (hf f (by simp)) ha, ih (fun f hf' => hf f (by simp [hf'])) hb⟩

theorem row_line {fs : List Field} (hf : ∀ f ∈ fs, PlainField f) {s : Str} (h : RowText fs s) : '\n' ∉ s ∧ s.head? = some ' ' := by
  obtain ⟨t, ht, rfl⟩ := h
  refine ⟨?_, rfl⟩
  simp only [List.mem_cons, not_or]
  exact ⟨by decide, fields_nonl hf ht⟩

theorem elastic_plain {d : ElasticData} (hd : PlainElastic d) {q : Nat} (hq : q < d.nq) :
    ∀ f ∈ elasticFields (d.T q) (d.E q) (d.bin q) d.U d.nd d.nq q, PlainField f := by
  intro f hf
  unfold elasticFields at hf
  simp only [List.cons_append, List.nil_append, List.mem_cons, List.mem_map] at hf
  rcases hf with rfl | rfl | rfl | ⟨u, hu, rfl⟩
  · exact hd.T q hq
  · exact hd.E q hq
  · exact hd.bin q hq
  · unfold uRow at hu
    simp only [List.mem_flatMap, List.mem_map] at hu
    obtain ⟨r, -, c, -, rfl⟩ := hu
    exact hd.U _

/-! ### the first table -/

theorem digits_len {n k : Nat} (hk : 0 < k) (h : n < 10 ^ k) : (Nat.toDigits 10 n).length ≤ k := (Nat.length_toDigits_le_iff (by decide) hk).2 h

theorem number_digits (n : Nat) : IsNumber (Nat.toDigits 10 n) n :=
  ⟨Nat.toDigits_ne_nil, List.all_eq_true.2 toDigits_isDig, digitsNum_toDigits n⟩

theorem setw_blank {w : Nat} {t : Str} (h : t.length < w) : ∃ k, setw w t = List.replicate (k + 1) ' ' ++ t := by
  refine ⟨w - t.length - 1, ?_⟩
  unfold setw
  congr 2
  omega

/-- Words of right-aligned entries that leave at least one blank. -/
theorem words_cells (w : Nat) (ts : List Str) (h : ∀ t ∈ ts, t ≠ [] ∧ ' ' ∉ t ∧ t.length < w) :
    words (ts.flatMap fun t => setw w t) = ts ∧ ((ts.flatMap fun t => setw w t) = [] ∨ ∃ s, (ts.flatMap fun t => setw w t) = ' ' :: s) := by
  induction ts with
  | nil => exact ⟨by simp [words], Or.inl rfl⟩
  | cons t ts ih =>
    obtain ⟨i1, i2⟩ := ih fun t ht => h t (by simp [ht])
    obtain ⟨h1, h2, h3⟩ := h t (by simp)
    obtain ⟨k, hk⟩ := setw_blank h3
    rw [List.flatMap_cons, hk]
    refine ⟨?_, Or.inr ⟨List.replicate k ' ' ++ t ++ ts.flatMap (fun t => setw w t), by rw [List.replicate_succ]; simp⟩⟩
    rw [List.append_assoc, words_blanks, words_tok h1 h2 i2, i1]

theorem indexRow_reads {d : ElasticData} (hd : PlainElastic d) {r c : Nat} (hr : r < d.nd) (hc : c < d.nd) :
    Explains d r c (words (indexRow d r c)) ∧ '\n' ∉ indexRow d r c ∧ (indexRow d r c).head? = some ' ' := by
  have hr' : (Nat.toDigits 10 r).length ≤ 3 := digits_len (by decide) (lt_of_lt_of_le hr (by have := hd.few; omega))
  have hc' : (Nat.toDigits 10 c).length ≤ 3 := digits_len (by decide) (lt_of_lt_of_le hc (by have := hd.few; omega))
  have e : indexRow d r c = ' ' :: (("U".toList ++ Nat.toDigits 10 r ++ Nat.toDigits 10 c) :: ([r, c, d.l r, d.twoj r, d.l c, d.twoj c].map fun n => Nat.toDigits 10 n)).flatMap fun t => setw 10 t := by
    unfold indexRow
    rfl
  have hU : "U".toList = ['U'] := by decide
  have small : ∀ n ∈ [r, c, d.l r, d.twoj r, d.l c, d.twoj c], n < 10 ^ 9 := by
    have h1 := hd.small r hr
    have h2 := hd.small c hc
    have := hd.few
    intro n hn
    simp only [List.mem_cons, List.not_mem_nil, or_false] at hn
    rcases hn with rfl | rfl | rfl | rfl | rfl | rfl
    · omega
    · omega
    · exact h1.1
    · exact h1.2
    · exact h2.1
    · exact h2.2
  refine ⟨?_, ?_, ?_⟩
  · rw [e, words_blank, (words_cells 10 _ ?_).1]
    · refine ⟨Nat.toDigits 10 r, Nat.toDigits 10 c, _, _, _, _, ?_, number_digits r, number_digits c, number_digits _, number_digits _, number_digits _, number_digits _⟩
      rw [hU]; rfl
    · intro t ht
      rcases List.mem_cons.1 ht with rfl | ht
      · refine ⟨by rw [hU]; simp, ?_, ?_⟩
        · rw [hU]
          simp only [List.mem_append, not_or]
          exact ⟨⟨by decide, toDigits_nonl.1⟩, toDigits_nonl.1⟩
        · rw [hU]
          simp only [List.length_append, List.length_cons, List.length_nil]
          omega
      · obtain ⟨n, hn, rfl⟩ := List.mem_map.1 ht
        have := digits_len (n := n) (k := 9) (by decide) (small n hn)
        exact ⟨Nat.toDigits_ne_nil, toDigits_nonl.1, by omega⟩
  · rw [e]
    intro h
    simp only [List.mem_cons, List.mem_flatMap] at h
    rcases h with h | ⟨t, ht, h⟩
    · exact absurd h (by decide)
    · refine setw_nonl ?_ h
      rcases ht with rfl | ht
      · rw [hU]
        simp only [List.mem_append, not_or]
        exact ⟨⟨by decide, toDigits_nonl.2.1⟩, toDigits_nonl.2.1⟩
      · obtain ⟨n, hn, rfl⟩ := List.mem_map.1 ht
        exact toDigits_nonl.2.1
  · rfl

/-! ### the head -/

theorem headLine_nonl {label v : Str} (h1 : '\n' ∉ label) (h2 : '\n' ∉ v) : '\n' ∉ headLine label v := by
  unfold headLine
  simp only [List.mem_append, List.mem_cons, not_or]
  exact ⟨h1, by decide, blanks_nonl _, h2⟩

theorem headLine_drop {label v : Str} (h : label.length ≤ 14) : (headLine label v).drop 15 = v := by
  unfold headLine
  have e : label ++ ':' :: (List.replicate (14 - label.length) ' ' ++ v) = (label ++ ':' :: List.replicate (14 - label.length) ' ') ++ v := by simp
  rw [e, List.drop_append_of_le_length (by simp; omega), List.drop_eq_nil_of_le (by simp; omega), List.nil_append]

theorem headLine_prefix {a b v : Str} (ha : ':' ∉ a) (hb : ':' ∉ b) : (a ++ [':']).isPrefixOf (headLine b v) = true ↔ a = b := prefix_label ha hb

/-- The titles of the two files. -/
def titles : List Str :=
  ["# Elastic Nd-scattering U-matrix elements in a wave-packet, Jj-scheme representation. ".toList,
   "# Breakup Nd-scattering U-matrix elements in a wave-packet, Jj-scheme representation. ".toList]

/-- The first three lines hold no entry. -/
theorem no_entry : ∀ t ∈ titles, ∀ lab ∈ ["JP".toList, "Potential".toList, "Np".toList, "Nq".toList],
    ∀ l ∈ [t, "# ".toList, "# The calculations below were done for: ".toList], ("# ".toList ++ lab ++ [':']).isPrefixOf l = false := by decide +kernel

theorem paritySign_ok {h : ResultHead} (hh : PlainHead h) {sgn : Str} (e : paritySign h.parity = some sgn) : sgn = [if h.parity = 1 then '+' else '-'] := by
  unfold paritySign at e
  rcases hh.parity with h1 | h1 <;> rw [h1] at e ⊢ <;> simp at e ⊢ <;> exact e.symm

theorem head_nonl {h : ResultHead} (hh : PlainHead h) {sgn : Str} (hs : paritySign h.parity = some sgn) {t : Str} (ht : t ∈ titles) {legend : List Str}
    (hl : ∀ l ∈ legend, '\n' ∉ l) : ∀ l ∈ headLines t h sgn legend, '\n' ∉ l := by
  have hsg : '\n' ∉ sgn := by
    rw [paritySign_ok hh hs]
    split_ifs <;> decide
  have htn : '\n' ∉ t := by revert t; decide +kernel
  have c1 : ∀ l ∈ ["# ".toList, "# The calculations below were done for: ".toList, "# Symbol definitions: ".toList, sepLine, "# JP".toList, "# Potential".toList, "# Np".toList,
    "# Nq".toList, "# Particles".toList, "# Deuteron BE".toList, "nd-scattering".toList, " MeV ".toList, "/2".toList, [' ']], '\n' ∉ l := by decide +kernel
  have app : ∀ {a b : Str}, '\n' ∉ a → '\n' ∉ b → '\n' ∉ a ++ b := fun h1 h2 => by simp only [List.mem_append, not_or]; exact ⟨h1, h2⟩
  intro l hl'
  unfold headLines at hl'
  simp only [List.mem_append, List.mem_cons, List.not_mem_nil, or_false] at hl'
  rcases hl' with ((rfl | rfl | rfl | rfl | rfl | rfl | rfl | rfl | rfl | rfl | rfl) | hl') | (rfl | rfl)
  · exact htn
  · exact c1 _ (by simp)
  · exact c1 _ (by simp)
  · exact headLine_nonl (c1 _ (by simp)) (app (app toDigits_nonl.2.1 (c1 _ (by simp))) hsg)
  · exact headLine_nonl (c1 _ (by simp)) hh.word.2.2
  · exact headLine_nonl (c1 _ (by simp)) (app toDigits_nonl.2.1 (c1 _ (by simp)))
  · exact headLine_nonl (c1 _ (by simp)) (app toDigits_nonl.2.1 (c1 _ (by simp)))
  · exact headLine_nonl (c1 _ (by simp)) (c1 _ (by simp))
  · exact headLine_nonl (c1 _ (by simp)) (app hh.bound (c1 _ (by simp)))
  · exact c1 _ (by simp)
  · exact c1 _ (by simp)
  · exact hl l hl'
  · exact c1 _ (by simp)
  · exact c1 _ (by simp)

theorem words_single {w : Str} (h1 : w ≠ []) (h2 : ' ' ∉ w) : words w = [w] := by
  have := words_tok h1 h2 (rest := []) (Or.inl rfl)
  rw [List.append_nil] at this
  rw [this]; rfl

theorem words_single_blank {w : Str} (h1 : w ≠ []) (h2 : ' ' ∉ w) : words (w ++ [' ']) = [w] := by
  rw [words_tok h1 h2 (Or.inr ⟨[], rfl⟩)]
  rfl

/-- The entries of the head. -/
theorem head_entries {h : ResultHead} (hh : PlainHead h) {sgn : Str} (hs : paritySign h.parity = some sgn) {t : Str} (ht : t ∈ titles) {legend rest : List Str} {s : Str}
    (hlines : textLines s = headLines t h sgn legend ++ rest) :
    headEntry "JP".toList s = some [channelText h.twoJ h.parity] ∧ headEntry "Potential".toList s = some [h.potential] ∧
      headEntry "Np".toList s = some [Nat.toDigits 10 h.Np] ∧ headEntry "Nq".toList s = some [Nat.toDigits 10 h.Nq] := by
  have no := no_entry t ht
  have lens : ("# JP".toList : Str).length ≤ 14 ∧ ("# Potential".toList : Str).length ≤ 14 ∧ ("# Np".toList : Str).length ≤ 14 ∧ ("# Nq".toList : Str).length ≤ 14 := by decide
  have labs : ∀ lab ∈ ["JP".toList, "Potential".toList, "Np".toList, "Nq".toList], ∀ b ∈ ["# JP".toList, "# Potential".toList, "# Np".toList, "# Nq".toList],
      (':' ∉ ("# ".toList ++ lab : Str)) ∧ ':' ∉ (b : Str) := by decide
  have pos : ∀ lab ∈ ["JP".toList, "Potential".toList, "Np".toList, "Nq".toList], ∀ b ∈ ["# JP".toList, "# Potential".toList, "# Np".toList, "# Nq".toList], ∀ v,
      ("# ".toList ++ lab ++ [':']).isPrefixOf (headLine b v) = decide ("# ".toList ++ lab = b) := by
    intro lab hlab b hb v
    obtain ⟨h1, h2⟩ := labs lab hlab b hb
    rw [Bool.eq_iff_iff, headLine_prefix h1 h2, decide_eq_true_iff]
  have dJ : ' ' ∉ (channelText h.twoJ h.parity) := by
    unfold channelText
    simp only [List.mem_append, not_or]
    refine ⟨⟨toDigits_nonl.1, by decide⟩, ?_⟩
    split_ifs <;> decide
  have run : ∀ lab ∈ ["JP".toList, "Potential".toList, "Np".toList, "Nq".toList], headEntry lab s =
      (([headLine "# JP".toList (Nat.toDigits 10 h.twoJ ++ "/2".toList ++ sgn), headLine "# Potential".toList h.potential, headLine "# Np".toList (Nat.toDigits 10 h.Np ++ [' ']),
        headLine "# Nq".toList (Nat.toDigits 10 h.Nq ++ [' ']), headLine "# Particles".toList "nd-scattering".toList, headLine "# Deuteron BE".toList (h.bound ++ " MeV ".toList), "# ".toList,
        "# Symbol definitions: ".toList] ++ legend ++ ["# ".toList, sepLine] ++ rest).find? fun l => ("# ".toList ++ lab ++ [':']).isPrefixOf l).map fun l => words (l.drop 15) := by
    intro lab hlab
    have n := no lab hlab
    unfold headEntry
    rw [hlines]
    unfold headLines
    simp only [List.cons_append, List.nil_append]
    rw [List.find?_cons_of_neg (by rw [n _ (by simp)]; decide), List.find?_cons_of_neg (by rw [n _ (by simp)]; decide), List.find?_cons_of_neg (by rw [n _ (by simp)]; decide)]
  have ne : ∀ {a b : Str} {v : Str} (lab : Str), ("# ".toList ++ lab ++ [':']).isPrefixOf (headLine b v) = decide ("# ".toList ++ lab = b) → "# ".toList ++ lab ≠ b →
      ¬ ("# ".toList ++ lab ++ [':']).isPrefixOf (headLine b v) = true := by
    intro a b v lab h1 h2
    rw [h1, decide_eq_true_iff]; exact h2
  refine ⟨?_, ?_, ?_, ?_⟩
  · rw [run _ (by simp)]
    simp only [List.cons_append, List.nil_append]
    rw [List.find?_cons_of_pos (by rw [pos _ (by simp) _ (by simp)]; decide), Option.map_some, headLine_drop lens.1]
    have e : Nat.toDigits 10 h.twoJ ++ "/2".toList ++ sgn = channelText h.twoJ h.parity := by rw [paritySign_ok hh hs]; rfl
    rw [e, words_single (by unfold channelText; simp) dJ]
  · rw [run _ (by simp)]
    simp only [List.cons_append, List.nil_append]
    rw [List.find?_cons_of_neg (by rw [pos _ (by simp) _ (by simp)]; decide), List.find?_cons_of_pos (by rw [pos _ (by simp) _ (by simp)]; decide), Option.map_some, headLine_drop lens.2.1,
      words_single hh.word.1 hh.word.2.1]
  · rw [run _ (by simp)]
    simp only [List.cons_append, List.nil_append]
    rw [List.find?_cons_of_neg (by rw [pos _ (by simp) _ (by simp)]; decide), List.find?_cons_of_neg (by rw [pos _ (by simp) _ (by simp)]; decide),
      List.find?_cons_of_pos (by rw [pos _ (by simp) _ (by simp)]; decide), Option.map_some, headLine_drop lens.2.2.1, words_single_blank Nat.toDigits_ne_nil toDigits_nonl.1]
  · rw [run _ (by simp)]
    simp only [List.cons_append, List.nil_append]
    rw [List.find?_cons_of_neg (by rw [pos _ (by simp) _ (by simp)]; decide), List.find?_cons_of_neg (by rw [pos _ (by simp) _ (by simp)]; decide),
      List.find?_cons_of_neg (by rw [pos _ (by simp) _ (by simp)]; decide),
      List.find?_cons_of_pos (by rw [pos _ (by simp) _ (by simp)]; decide), Option.map_some, headLine_drop lens.2.2.2, words_single_blank Nat.toDigits_ne_nil toDigits_nonl.1]

/-- Every line of the head is a comment. -/
theorem head_comment {h : ResultHead} {sgn : Str} {t : Str} (ht : t ∈ titles) {legend : List Str}
    (hl : ∀ l ∈ legend, l.head? = some '#') : ∀ l ∈ headLines t h sgn legend, l.head? = some '#' := by
  have htn : t.head? = some '#' := by revert t; decide +kernel
  have c1 : ∀ l ∈ ["# ".toList, "# The calculations below were done for: ".toList, "# Symbol definitions: ".toList, sepLine], l.head? = some '#' := by decide +kernel
  have c2 : ∀ l ∈ ["# JP".toList, "# Potential".toList, "# Np".toList, "# Nq".toList, "# Particles".toList, "# Deuteron BE".toList], l.head? = some '#' := by decide
  have hL : ∀ {label v : Str}, label.head? = some '#' → (headLine label v).head? = some '#' := by
    intro label v h
    unfold headLine
    rw [List.head?_append, h]; rfl
  intro l hl'
  unfold headLines at hl'
  simp only [List.mem_append, List.mem_cons, List.not_mem_nil, or_false] at hl'
  rcases hl' with ((rfl | rfl | rfl | rfl | rfl | rfl | rfl | rfl | rfl | rfl | rfl) | hl') | (rfl | rfl)
  · exact htn
  · exact c1 _ (by simp)
  · exact c1 _ (by simp)
  · exact hL (c2 _ (by simp))
  · exact hL (c2 _ (by simp))
  · exact hL (c2 _ (by simp))
  · exact hL (c2 _ (by simp))
  · exact hL (c2 _ (by simp))
  · exact hL (c2 _ (by simp))
  · exact c1 _ (by simp)
  · exact c1 _ (by simp)
  · exact hl l hl'
  · exact c1 _ (by simp)
  · exact c1 _ (by simp)

/-! ### the elastic file -/

theorem heads_lines : (∀ l ∈ elasticLegend ++ breakupLegend ++ [elasticHeads1, elasticHeads2, sepLine, []], '\n' ∉ l) ∧
    (∀ l ∈ elasticLegend ++ breakupLegend ++ [elasticHeads1, elasticHeads2, sepLine], l.head? = some '#') := by decide +kernel

/-- A line of data: no line end in it, begins with a blank. -/
def DataLine (l : Str) : Prop := '\n' ∉ l ∧ l.head? = some ' '

theorem indexRows_data {d : ElasticData} (hd : PlainElastic d) : ∀ l ∈ indexRows d, DataLine l := by
  intro l hl
  unfold indexRows at hl
  simp only [List.mem_flatMap, List.mem_map, List.mem_range] at hl
  obtain ⟨r, hr, c, hc, rfl⟩ := hl
  exact (indexRow_reads hd hr hc).2

theorem forall2_mem {α β : Type} {R : α → β → Prop} {l : List α} {r : List β} (h : List.Forall₂ R l r) : List.Forall₂ (fun a b => a ∈ l ∧ R a b) l r := by
  induction h with
  | nil => exact .nil
  | @cons a b l r hab _ ih => exact .cons ⟨by simp, hab⟩ (ih.imp fun _ _ h => ⟨List.mem_cons_of_mem _ h.1, h.2⟩)

theorem elastic_rows {d : ElasticData} (hd : PlainElastic d) {rows : List Str}
    (h : List.Forall₂ (fun q l => RowText (elasticFields (d.T q) (d.E q) (d.bin q) d.U d.nd d.nq q) l) (List.range d.nq) rows) : ∀ l ∈ rows, DataLine l :=
  forall2_right (forall2_mem h) fun _ _ hb => row_line (elastic_plain hd (List.mem_range.1 hb.1)) hb.2

/-- The lines of the elastic file. -/
theorem elastic_lines {h : ResultHead} {d : ElasticData} {s : Str} (hh : PlainHead h) (hd : PlainElastic d) (hs : ElasticText h d s) :
    ∃ sgn, paritySign h.parity = some sgn ∧ ∃ t ∈ titles, ∃ rows : List Str,
      List.Forall₂ (fun q l => RowText (elasticFields (d.T q) (d.E q) (d.bin q) d.U d.nd d.nq q) l) (List.range d.nq) rows ∧
      textLines s = headLines t h sgn elasticLegend ++ ([elasticHeads1] ++ indexRows d ++ [sepLine, elasticHeads2] ++ rows ++ [sepLine, []]) := by
  obtain ⟨sgn, h1, rows, h2, rfl⟩ := hs
  refine ⟨sgn, h1, _, List.mem_cons_self .., rows, h2, ?_⟩
  rw [textLines_linesText]
  · simp only [List.append_assoc]
  · intro l hl
    simp only [List.append_assoc] at hl
    rw [List.mem_append] at hl
    have c := heads_lines.1
    rcases hl with hl | hl
    · exact head_nonl hh h1 (List.mem_cons_self ..) (fun l hl => c l (by simp [hl])) l hl
    · simp only [List.mem_append, List.mem_cons, List.not_mem_nil, or_false] at hl
      rcases hl with rfl | hl | (rfl | rfl) | hl | (rfl | rfl)
      · exact c _ (by simp)
      · exact (indexRows_data hd l hl).1
      · exact c _ (by simp)
      · exact c _ (by simp)
      · exact (elastic_rows hd h2 l hl).1
      · exact c _ (by simp)
      · exact c _ (by simp)

theorem keep_data (ls : List Str) (h : ∀ l ∈ ls, DataLine l) : ls.filter (fun l => decide (l ≠ []) && decide (l.head? ≠ some '#')) = ls := by
  rw [List.filter_eq_self]
  intro a ha
  have h2 := (h a ha).2
  have h1 : a ≠ [] := by rintro rfl; simp at h2
  rw [h2]; simp [h1]

theorem drop_comment (ls : List Str) (h : ∀ l ∈ ls, l.head? = some '#') : ls.filter (fun l => decide (l ≠ []) && decide (l.head? ≠ some '#')) = [] := by
  rw [List.filter_eq_nil_iff]
  intro a ha
  rw [h a ha]; simp

theorem results_of {d : ElasticData} {q : Nat} {ws : List Str} (h : List.Forall₂ ReadsBack ws (elasticFields (d.T q) (d.E q) (d.bin q) d.U d.nd d.nq q)) : Results d q ws := by
  have at' : ∀ {i : Nat} {f : Field}, (elasticFields (d.T q) (d.E q) (d.bin q) d.U d.nd d.nq q)[i]? = some f → ∃ w, ws[i]? = some w ∧ ReadsBack w f := by
    intro i f hf
    have hi := (List.getElem?_eq_some_iff.1 hf).1
    have hi' : i < ws.length := by rw [h.length_eq]; exact hi
    refine ⟨ws[i], List.getElem?_eq_getElem hi', ?_⟩
    have := (List.forall₂_iff_get.1 h).2 i hi' hi
    rw [List.getElem?_eq_getElem hi] at hf
    simp only [List.get_eq_getElem] at this
    rw [Option.some.inj hf] at this
    exact this
  refine ⟨?_, at' (i := 0) rfl, at' (i := 1) rfl, at' (i := 2) rfl, ?_⟩
  · rw [h.length_eq]
    unfold elasticFields uRow
    simp [List.length_flatMap]
    omega
  · intro r hr c hc
    refine at' (i := 3 + (r * d.nd + c)) ?_
    unfold elasticFields
    rw [List.getElem?_append_right (by simp), show 3 + (r * d.nd + c) - [Field.real (d.T q), .real (d.E q), .index (d.bin q)].length = r * d.nd + c by simp,
      List.getElem?_map, uRow_getElem d.U d.nd d.nq q r c hr hc]
    rfl

/-- **C126, the elastic file.** The head of the file names the channel, the potential and the sizes of the mesh.  Its rows of data are, in this order,
one row per pair of deuteron states, which explains the name of the amplitude, and one row per energy with its results; row `nd r + c` of the first
kind explains word `3 + nd r + c` of every row of the second kind. -/
theorem C126_elastic_reads {h : ResultHead} {d : ElasticData} {s : Str} (hh : PlainHead h) (hd : PlainElastic d) (hs : ElasticText h d s) :
    (headEntry "JP".toList s = some [channelText h.twoJ h.parity] ∧ headEntry "Potential".toList s = some [h.potential] ∧
      headEntry "Np".toList s = some [Nat.toDigits 10 h.Np] ∧ headEntry "Nq".toList s = some [Nat.toDigits 10 h.Nq]) ∧
    ∃ t1 t2, dataRows s = t1 ++ t2 ∧ t1.length = d.nd * d.nd ∧ (∀ r < d.nd, ∀ c < d.nd, ∃ ws, t1[r * d.nd + c]? = some ws ∧ Explains d r c ws) ∧
      List.Forall₂ (Results d) (List.range d.nq) t2 := by
  obtain ⟨sgn, h1, t, ht, rows, h2, e⟩ := elastic_lines hh hd hs
  have e2 := e
  refine ⟨head_entries hh h1 ht e, (indexRows d).map words, rows.map words, ?_, ?_, ?_, ?_⟩
  · unfold dataRows
    rw [e]
    have c := heads_lines.2
    have f1 := drop_comment (headLines t h sgn elasticLegend) (head_comment ht fun l hl => c l (by simp [hl]))
    have f2 := drop_comment [elasticHeads1] (fun l hl => c l (by simp at hl; simp [hl]))
    have f3 := drop_comment [sepLine, elasticHeads2] (fun l hl => c l (by simp at hl; rcases hl with rfl | rfl <;> simp))
    have f4 : [sepLine, []].filter (fun l : Str => decide (l ≠ []) && decide (l.head? ≠ some '#')) = [] := by decide +kernel
    simp only [List.filter_append, f1, f2, f3, f4, keep_data _ (indexRows_data hd), keep_data _ (elastic_rows hd h2), List.map_append]
    simp
  · unfold indexRows
    simp [List.length_flatMap]
  · intro r hr c hc
    refine ⟨_, ?_, (indexRow_reads hd hr hc).1⟩
    rw [List.getElem?_map]
    have : (indexRows d)[r * d.nd + c]? = some (indexRow d r c) := by
      have hr' : r < (List.range d.nd).length := by simpa using hr
      have key := uRow_getElem (fun i => indexRow d (i / d.nd) (i % d.nd)) d.nd 1 0 r c hr hc
      have idx : ∀ a b, b < d.nd → (a * d.nd * 1 + b * 1 + 0) / d.nd = a ∧ (a * d.nd * 1 + b * 1 + 0) % d.nd = b := by
        intro a b hb
        have hp : 0 < d.nd := by omega
        rw [show a * d.nd * 1 + b * 1 + 0 = b + a * d.nd by ring, Nat.add_mul_div_right _ _ hp, Nat.add_mul_mod_self_right, Nat.div_eq_of_lt hb, Nat.mod_eq_of_lt hb]
        omega
      simp only [(idx r c hc).1, (idx r c hc).2] at key
      rw [← key]
      congr 1
      unfold indexRows uRow
      refine List.flatMap_congr fun a ha => List.map_congr_left fun b hb => ?_
      simp only [(idx a b (List.mem_range.1 hb)).1, (idx a b (List.mem_range.1 hb)).2]
    rw [this]; rfl
  · exact forall2_map_of words (forall2_mem h2) fun q l hl => results_of (C90_row_reads_back (elastic_plain hd (List.mem_range.1 hl.1)) hl.2)

theorem channelText_inj {a b : Nat} {P Q : Int} (hP : P = 1 ∨ P = -1) (hQ : Q = 1 ∨ Q = -1) (h : channelText a P = channelText b Q) : a = b ∧ P = Q := by
  unfold channelText at h
  obtain ⟨h1, h2⟩ := List.append_inj' h rfl
  have h1 := List.append_cancel_right h1
  refine ⟨by rw [← digitsNum_toDigits a, h1, digitsNum_toDigits], ?_⟩
  rcases hP with rfl | rfl <;> rcases hQ with rfl | rfl <;> simp at h2 ⊢

theorem isNumber_unique {w : Str} {m n : Nat} (h1 : IsNumber w m) (h2 : IsNumber w n) : m = n := by rw [← h1.2.2, h2.2.2]

theorem explains_unique {d d' : ElasticData} {r c : Nat} {ws : List Str} (h : Explains d r c ws) (h' : Explains d' r c ws) : d.l r = d'.l r ∧ d.twoj r = d'.twoj r := by
  obtain ⟨a, b, l1, j1, l2, j2, e, -, -, h1, h2, -, -⟩ := h
  obtain ⟨a', b', l1', j1', l2', j2', e', -, -, h1', h2', -, -⟩ := h'
  rw [e] at e'
  simp only [List.cons.injEq] at e'
  obtain ⟨-, -, -, rfl, rfl, -⟩ := e'
  exact ⟨isNumber_unique h1 h1', isNumber_unique h2 h2'⟩

/-- Split of the data lines at the comment that follows them. -/
theorem split_data {a b ra rb : List Str} {x y : Str} (ha : ∀ l ∈ a, DataLine l) (hb : ∀ l ∈ b, DataLine l) (hx : x.head? ≠ some ' ') (hy : y.head? ≠ some ' ')
    (h : a ++ x :: ra = b ++ y :: rb) : a = b ∧ x :: ra = y :: rb := by
  have t : ∀ (l : List Str) (z : Str) (r : List Str), (∀ m ∈ l, DataLine m) → z.head? ≠ some ' ' → (l ++ z :: r).takeWhile (fun m => decide (m.head? = some ' ')) = l := by
    intro l z r hl hz
    rw [List.takeWhile_append_of_pos (fun m hm => by simp [(hl m hm).2]), List.takeWhile_cons_of_neg (by simpa using hz), List.append_nil]
  have e : a = b := by rw [← t a x ra ha hx, h, t b y rb hb hy]
  subst e
  exact ⟨rfl, List.append_cancel_left h⟩

/-- **C126, nothing is lost.** The text of the elastic file determines the channel, the potential, the mesh sizes, the quantum numbers of the
deuteron states, and every energy, bin and amplitude to the last bit. -/
theorem C126_elastic_lossless {h h' : ResultHead} {d d' : ElasticData} {s : Str} (hh : PlainHead h) (hd : PlainElastic d) (hs : ElasticText h d s)
    (hh' : PlainHead h') (hd' : PlainElastic d') (hs' : ElasticText h' d' s) :
    (h.twoJ = h'.twoJ ∧ h.parity = h'.parity ∧ h.potential = h'.potential ∧ h.Np = h'.Np ∧ h.Nq = h'.Nq) ∧
    d.nd = d'.nd ∧ d.nq = d'.nq ∧ (∀ i < d.nd, d.l i = d'.l i ∧ d.twoj i = d'.twoj i) ∧
    (∀ q < d.nq, d.T q = d'.T q ∧ d.E q = d'.E q ∧ d.bin q = d'.bin q ∧
      ∀ r < d.nd, ∀ c < d.nd, d.U (r * d.nd * d.nq + c * d.nq + q) = d'.U (r * d.nd * d.nq + c * d.nq + q)) := by
  obtain ⟨sgn, h1, t, ht, rows, h2, e⟩ := elastic_lines hh hd hs
  obtain ⟨sgn', h1', t', ht', rows', h2', e'⟩ := elastic_lines hh' hd' hs'
  obtain ⟨a1, a2, a3, a4⟩ := head_entries hh h1 ht e
  obtain ⟨b1, b2, b3, b4⟩ := head_entries hh' h1' ht' e'
  have num : ∀ {m n : Nat}, some [Nat.toDigits 10 m] = some [Nat.toDigits 10 n] → m = n := by
    intro m n h
    have h := (List.cons.inj (Option.some.inj h)).1
    rw [← digitsNum_toDigits m, h, digitsNum_toDigits]
  obtain ⟨j1, j2⟩ := channelText_inj hh.parity hh'.parity (List.cons.inj (Option.some.inj (a1.symm.trans b1))).1
  refine ⟨⟨j1, j2, (List.cons.inj (Option.some.inj (a2.symm.trans b2))).1, num (a3.symm.trans b3), num (a4.symm.trans b4)⟩, ?_⟩
  rw [e] at e'
  have e1 := (List.append_inj e' (by unfold headLines; simp)).2
  have hS : ∀ l ∈ [sepLine], l.head? ≠ some ' ' := by decide +kernel
  have hS := hS sepLine (by simp)
  simp only [List.cons_append, List.nil_append, List.append_assoc] at e1
  obtain ⟨i1, i2⟩ := split_data (indexRows_data hd) (indexRows_data hd') hS hS (List.cons.inj e1).2
  have i3 := (List.cons.inj (List.cons.inj i2).2).2
  obtain ⟨k1, -⟩ := split_data (elastic_rows hd h2) (elastic_rows hd' h2') hS hS i3
  subst k1
  have nd : d.nd = d'.nd := by
    have := congrArg List.length i1
    unfold indexRows at this
    simp [List.length_flatMap] at this
    exact Nat.mul_self_inj.1 this
  have nq : d.nq = d'.nq := by
    have x := h2.length_eq
    have y := h2'.length_eq
    simp at x y
    omega
  refine ⟨nd, nq, ?_, ?_⟩
  · intro i hi
    unfold indexRows at i1
    rw [← nd] at i1
    have := rows_inj i1 i hi 0 (by omega)
    have x := (indexRow_reads hd hi (show 0 < d.nd by omega)).1
    have y := (indexRow_reads hd' (show i < d'.nd by omega) (show 0 < d'.nd by omega)).1
    rw [this] at x
    exact explains_unique x y
  · intro q hq
    have hq' : q < d'.nq := by omega
    have x := (List.forall₂_iff_get.1 h2).2 q (by simpa using hq) (by rw [← h2.length_eq]; simpa using hq)
    have y := (List.forall₂_iff_get.1 h2').2 q (by simpa using hq') (by rw [← h2.length_eq]; simpa using hq)
    simp only [List.get_eq_getElem, List.getElem_range] at x y
    rw [← nd, ← nq] at y
    exact C90_elastic_row (hd.T q hq) (hd.E q hq) (hd.bin q hq) hd.U (hd'.T q hq') (hd'.E q hq') (hd'.bin q hq') hd'.U x y

/-! ### the breakup file -/

/-- The breakup file, in terms of the entries of a row. -/
theorem breakup_reads_fields {h : ResultHead} {heads : List (Bool × Str)} {rows : List (List (Dbl × Dbl))} {s : Str} (hh : PlainHead h)
    (hheads : ∀ x ∈ heads, '\n' ∉ x.2) (hrows : ∀ r ∈ rows, ∀ f ∈ tableFields heads r, PlainField f) (hs : BreakupText h heads rows s) :
    (headEntry "JP".toList s = some [channelText h.twoJ h.parity] ∧ headEntry "Potential".toList s = some [h.potential] ∧
      headEntry "Np".toList s = some [Nat.toDigits 10 h.Np] ∧ headEntry "Nq".toList s = some [Nat.toDigits 10 h.Nq]) ∧
    List.Forall₂ (fun r ws => List.Forall₂ ReadsBack ws (tableFields heads r)) rows (dataRows s) := by
  obtain ⟨sgn, h1, ls, h2, rfl⟩ := hs
  have hd : ∀ l ∈ ls, DataLine l := forall2_right (forall2_mem h2) fun _ _ hb => row_line (hrows _ hb.1) hb.2
  have c1 := heads_lines.1
  have c2 := heads_lines.2
  have hn : '\n' ∉ breakupHeadLine heads := by
    unfold breakupHeadLine
    simp only [List.mem_cons, List.mem_flatMap, not_or, not_exists, not_and]
    exact ⟨by decide, fun x hx => setw_nonl (hheads x hx)⟩
  have ht : ("# Breakup Nd-scattering U-matrix elements in a wave-packet, Jj-scheme representation. ".toList : Str) ∈ titles := List.mem_cons_of_mem _ (List.mem_cons_self ..)
  have e : textLines (linesText (headLines "# Breakup Nd-scattering U-matrix elements in a wave-packet, Jj-scheme representation. ".toList h sgn breakupLegend ++
      [breakupHeadLine heads] ++ ls ++ [sepLine, []])) = headLines "# Breakup Nd-scattering U-matrix elements in a wave-packet, Jj-scheme representation. ".toList h sgn breakupLegend ++
      ([breakupHeadLine heads] ++ ls ++ [sepLine, []]) := by
    rw [textLines_linesText]
    · simp only [List.append_assoc]
    · intro l hl
      simp only [List.append_assoc] at hl
      rw [List.mem_append] at hl
      rcases hl with hl | hl
      · exact head_nonl hh h1 ht (fun l hl => c1 l (by simp [hl])) l hl
      · simp only [List.mem_append, List.mem_cons, List.not_mem_nil, or_false] at hl
        rcases hl with rfl | hl | (rfl | rfl)
        · exact hn
        · exact (hd l hl).1
        · exact c1 _ (by simp)
        · exact c1 _ (by simp)
  refine ⟨head_entries hh h1 ht e, ?_⟩
  have f : dataRows (linesText (headLines "# Breakup Nd-scattering U-matrix elements in a wave-packet, Jj-scheme representation. ".toList h sgn breakupLegend ++
      [breakupHeadLine heads] ++ ls ++ [sepLine, []])) = ls.map words := by
    unfold dataRows
    rw [e]
    have f1 := drop_comment (headLines "# Breakup Nd-scattering U-matrix elements in a wave-packet, Jj-scheme representation. ".toList h sgn breakupLegend)
      (head_comment ht fun l hl => c2 l (by simp [hl]))
    have f2 := drop_comment [breakupHeadLine heads] (fun l hl => by rw [List.mem_singleton.1 hl]; rfl)
    have f4 : [sepLine, []].filter (fun l : Str => decide (l ≠ []) && decide (l.head? ≠ some '#')) = [] := by decide +kernel
    simp only [List.filter_append, f1, f2, f4, keep_data _ hd]
    simp
  rw [f]
  exact forall2_map_of words (forall2_mem h2) fun r l hl => C90_row_reads_back (hrows r hl.1) hl.2

theorem tableFields_get (heads : List (Bool × Str)) (r : List (Dbl × Dbl)) (j : Nat) (f : Field) :
    (tableFields heads r)[j]? = some f ↔ ∃ c v, heads[j]? = some c ∧ r[j]? = some v ∧ f = shownCell c.1 v := by
  unfold tableFields breakupFields
  rw [List.getElem?_map, List.getElem?_zipWith]
  rcases hc : heads[j]? with _ | c <;> rcases hv : r[j]? with _ | v <;> simp
  rcases hb : c.1 with _ | _ <;> simp [shownCell, eq_comm]

/-- **C126, the breakup file.** The head of the file names the channel, the potential and the sizes of the mesh; its rows of data are the rows of the
table, in order, each number to the last bit. -/
theorem C126_breakup_reads {h : ResultHead} {heads : List (Bool × Str)} {rows : List (List (Dbl × Dbl))} {s : Str} (hh : PlainHead h)
    (hheads : ∀ x ∈ heads, '\n' ∉ x.2) (hlen : ∀ r ∈ rows, r.length = heads.length)
    (hrows : ∀ r ∈ rows, ∀ (j : Nat) c v, heads[j]? = some c → r[j]? = some v → PlainField (shownCell c.1 v)) (hs : BreakupText h heads rows s) :
    (headEntry "JP".toList s = some [channelText h.twoJ h.parity] ∧ headEntry "Potential".toList s = some [h.potential] ∧
      headEntry "Np".toList s = some [Nat.toDigits 10 h.Np] ∧ headEntry "Nq".toList s = some [Nat.toDigits 10 h.Nq]) ∧
    List.Forall₂ (ExplainsBreakup heads) rows (dataRows s) := by
  obtain ⟨h1, h2⟩ := breakup_reads_fields hh hheads (fun r hr f hf => by
    obtain ⟨j, hj⟩ := List.mem_iff_getElem?.1 hf
    obtain ⟨c, v, a, b, rfl⟩ := (tableFields_get heads r j f).1 hj
    exact hrows r hr j c v a b) hs
  refine ⟨h1, (forall2_mem h2).imp ?_⟩
  rintro r ws ⟨hr, hf⟩
  have hl : (tableFields heads r).length = heads.length := by
    unfold tableFields breakupFields
    rw [List.length_map, List.length_zipWith, hlen r hr, Nat.min_self]
  refine ⟨by rw [hf.length_eq, hl], fun j c v a b => ?_⟩
  have g := (tableFields_get heads r j _).2 ⟨c, v, a, b, rfl⟩
  obtain ⟨hj, e⟩ := List.getElem?_eq_some_iff.1 g
  have hj' : j < ws.length := by rw [hf.length_eq]; exact hj
  have := (List.forall₂_iff_get.1 hf).2 j hj' hj
  simp only [List.get_eq_getElem] at this
  rw [e] at this
  exact ⟨ws[j], List.getElem?_eq_getElem hj', this⟩

/-- **C126, the breakup file says what the table says.** A file that could have been written for two tables with the same columns shows the same numbers: whoever reads the file
knows every entry of the table that the columns show, to the last bit. -/
theorem C126_breakup_unique {h h' : ResultHead} {heads : List (Bool × Str)} {rows rows' : List (List (Dbl × Dbl))} {s : Str} (hh : PlainHead h) (hh' : PlainHead h')
    (hheads : ∀ x ∈ heads, '\n' ∉ x.2) (hlen : ∀ r ∈ rows, r.length = heads.length) (hlen' : ∀ r ∈ rows', r.length = heads.length)
    (hrows : ∀ r ∈ rows, ∀ (j : Nat) c v, heads[j]? = some c → r[j]? = some v → PlainField (shownCell c.1 v))
    (hrows' : ∀ r ∈ rows', ∀ (j : Nat) c v, heads[j]? = some c → r[j]? = some v → PlainField (shownCell c.1 v))
    (hs : BreakupText h heads rows s) (hs' : BreakupText h' heads rows' s) :
    rows.length = rows'.length ∧ ∀ (i j : Nat) r r' c v v', rows[i]? = some r → rows'[i]? = some r' → heads[j]? = some c → r[j]? = some v → r'[j]? = some v' →
      v.1 = v'.1 ∧ (c.1 = true → v.2 = v'.2) := by
  have a := (C126_breakup_reads hh hheads hlen hrows hs).2
  have b := (C126_breakup_reads hh' hheads hlen' hrows' hs').2
  refine ⟨a.length_eq.trans b.length_eq.symm, ?_⟩
  intro i j r r' c v v' hi hi' hc hv hv'
  obtain ⟨hil, rfl⟩ := List.getElem?_eq_some_iff.1 hi
  obtain ⟨hil', rfl⟩ := List.getElem?_eq_some_iff.1 hi'
  have x := (List.forall₂_iff_get.1 a).2 i hil (by rw [← a.length_eq]; exact hil)
  have y := (List.forall₂_iff_get.1 b).2 i hil' (by rw [← b.length_eq]; exact hil')
  simp only [List.get_eq_getElem] at x y
  obtain ⟨w, hw, e⟩ := x.2 j c v hc hv
  obtain ⟨w', hw', e'⟩ := y.2 j c v' hc hv'
  rw [hw] at hw'
  cases hw'
  have k : (shownCell c.1 v).kind = (shownCell c.1 v').kind := by
    unfold shownCell
    rcases c.1 with _ | _ <;> rfl
  have u := reads_unique (hrows _ (List.getElem_mem hil) j c v hc hv) (hrows' _ (List.getElem_mem hil') j c v' hc hv') k e e'
  unfold shownCell at u
  rcases hb : c.1 with _ | _
  · rw [hb] at u
    simp only [Bool.false_eq_true, if_false, Field.real.injEq] at u
    exact ⟨u, by simp⟩
  · rw [hb] at u
    simp only [if_true, Field.cplx.injEq] at u
    exact ⟨u.1, fun _ => u.2⟩

/-! ### the hypotheses are met -/

theorem row_exists : ∃ s, RowText (elasticFields (.fin false (3 * 2 ^ 51) (-52)) (.fin false 0 (-1074)) 7 (fun _ => (.fin true (3 * 2 ^ 51) (-52), .fin false 0 (-1074))) 1 1 0) s := by
  have hp : ∀ neg, ∃ t, Prints 16 (.fin neg (3 * 2 ^ 51) (-52)) t := by
    intro neg
    refine ⟨sciText 16 neg (15 * 10 ^ 15) 0, ?_⟩
    simp only [Prints]; rw [if_neg (by norm_num)]
    exact ⟨15 * 10 ^ 15, 0, ⟨by norm_num, by norm_num, by norm_num⟩, rfl⟩
  have h0 : ∃ t, Prints 16 (.fin false 0 (-1074)) t := ⟨sciText 16 false 0 0, by simp [Prints]⟩
  obtain ⟨a, ha⟩ := hp false
  obtain ⟨b, hb⟩ := hp true
  obtain ⟨c, hc⟩ := h0
  exact ⟨_, _, ⟨_, _, ⟨a, ha, rfl⟩, ⟨_, _, ⟨c, hc, rfl⟩, ⟨_, _, rfl, ⟨_, _, ⟨_, ⟨_, _, ⟨b, hb, rfl⟩, ⟨c, hc, rfl⟩, rfl⟩, rfl⟩, rfl, rfl⟩, rfl⟩, rfl⟩, rfl⟩, rfl⟩

/-- A file with one deuteron state and one energy. -/
example : ∃ (h : ResultHead) (d : ElasticData) (s : Str), PlainHead h ∧ PlainElastic d ∧ ElasticText h d s ∧ d.nd = 1 ∧ d.nq = 1 := by
  obtain ⟨s, hs⟩ := row_exists
  refine ⟨⟨1, 1, "Nijmegen".toList, 30, 30, "-2.2245".toList⟩,
    ⟨1, 1, fun _ => 0, fun _ => 1, fun _ => .fin false (3 * 2 ^ 51) (-52), fun _ => .fin false 0 (-1074), fun _ => 7,
      fun _ => (.fin true (3 * 2 ^ 51) (-52), .fin false 0 (-1074))⟩, _, ⟨Or.inl rfl, by decide, by decide⟩, ⟨by decide, ?_, ?_, ?_, ?_, ?_⟩,
      ⟨['+'], rfl, [s], .cons hs .nil, rfl⟩, rfl, rfl⟩
  · intro i _; exact ⟨by norm_num, by norm_num⟩
  · intro q _; exact ⟨⟨by norm_num [Dbl.OK], by simp⟩, by simp [Dbl.geZero]⟩
  · intro q _; exact ⟨⟨by norm_num [Dbl.OK], by simp⟩, by simp [Dbl.geZero]⟩
  · intro q _; norm_num
  · intro i; exact ⟨⟨by norm_num [Dbl.OK], by simp⟩, ⟨by norm_num [Dbl.OK], by simp⟩⟩

/-- A breakup file with one real and one complex column and one row. -/
example : ∃ (h : ResultHead) (heads : List (Bool × Str)) (rows : List (List (Dbl × Dbl))) (s : Str), PlainHead h ∧ (∀ x ∈ heads, '\n' ∉ x.2) ∧ (∀ r ∈ rows, r.length = heads.length) ∧
    (∀ r ∈ rows, ∀ (j : Nat) c v, heads[j]? = some c → r[j]? = some v → PlainField (shownCell c.1 v)) ∧ BreakupText h heads rows s ∧ heads.length = 2 ∧ rows.length = 1 := by
  have hp : ∀ neg, ∃ t, Prints 16 (.fin neg (3 * 2 ^ 51) (-52)) t := by
    intro neg
    refine ⟨sciText 16 neg (15 * 10 ^ 15) 0, ?_⟩
    simp only [Prints]; rw [if_neg (by norm_num)]
    exact ⟨15 * 10 ^ 15, 0, ⟨by norm_num, by norm_num, by norm_num⟩, rfl⟩
  obtain ⟨a, ha⟩ := hp false
  obtain ⟨b, hb⟩ := hp true
  have row : ∃ s, RowText (tableFields [(false, "Tlab".toList), (true, "U".toList)] [(.fin false (3 * 2 ^ 51) (-52), .fin false 0 (-1074)), (.fin true (3 * 2 ^ 51) (-52), .fin false (3 * 2 ^ 51) (-52))]) s :=
    ⟨_, _, ⟨_, _, ⟨a, ha, rfl⟩, ⟨_, _, ⟨_, ⟨_, _, ⟨b, hb, rfl⟩, ⟨a, ha, rfl⟩, rfl⟩, rfl⟩, rfl, rfl⟩, rfl⟩, rfl⟩
  obtain ⟨s, hs⟩ := row
  refine ⟨⟨1, 1, "Nijmegen".toList, 30, 30, "-2.2245".toList⟩, _, _, _, ⟨Or.inl rfl, by decide, by decide⟩, by decide, ?_, ?_, ⟨['+'], rfl, [s], .cons hs .nil, rfl⟩, rfl, rfl⟩
  · intro r hr; rw [List.mem_singleton.1 hr]; rfl
  · intro r hr j c v hc hv
    rw [List.mem_singleton.1 hr] at hv
    rcases j with _ | _ | j
    · simp only [List.getElem?_cons_zero, Option.some.injEq] at hc hv
      subst hc hv
      exact ⟨⟨by norm_num [Dbl.OK], by simp⟩, by simp [Dbl.geZero]⟩
    · simp only [List.getElem?_cons_succ, List.getElem?_cons_zero, Option.some.injEq] at hc hv
      subst hc hv
      exact ⟨⟨by norm_num [Dbl.OK], by simp⟩, ⟨by norm_num [Dbl.OK], by simp⟩⟩
    · simp at hc

end TicTac
end

