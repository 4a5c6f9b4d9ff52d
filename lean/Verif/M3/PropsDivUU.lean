import Verif.M3.LemmasDivUU
import Verif.M3.PropsSigned

/-! # C48: the divider of unsigned numbers -/

set_option linter.dupNamespace false
set_option linter.unusedSectionVars false

namespace Verif.M3

open Finset Verif.Arith

variable {F : Type} [Field F] [DecidableEq F] [CharP F 2]

/-- **C48, in part.** `DivUU32::new`: the constructor does not panic.  In every row that satisfies the table it makes, the
divisor is not zero and the dividend is the divisor times the quotient plus the remainder, or one more than that; the packed
columns hold the four numbers.  `populate_with_inputs` panics if the divisor is zero; with any other divisor, on a row with
its constants filled in, it and the prover that fills the powers satisfy the table, with the quotient and the remainder of the
division.
What is missing, that the quotient and the remainder are those of the division in every satisfying row, is false:
`C48_div_uu_unsound`. -/
theorem C48_div_uu_partial (Tw : Tower F) (hT : 6 ≤ Tw.height) {t : Table F} (ht : WellFormed t) :
    ∃ g t', DivUU32.new Tw.basis (Tw.gen 6) t = some (g, t') ∧ WellFormed t' ∧
      t'.Has g.pIn 5 0 ∧ t'.Has g.qIn 5 0 ∧ t'.Has g.outDiv 5 0 ∧ t'.Has g.outRem 5 0 ∧
      g.pInBits.length = 32 ∧ g.qInBits.length = 32 ∧ g.outDivBits.length = 32 ∧ g.outRemBits.length = 32 ∧
      (∀ w, RowHolds Tw t' w → RowHolds Tw t w ∧ ∃ p < 2 ^ 32, ∃ q < 2 ^ 32, ∃ d < 2 ^ 32, ∃ r < 2 ^ 32,
        wide w g.pInBits = p ∧ wide w g.qInBits = q ∧ wide w g.outDivBits = d ∧ wide w g.outRemBits = r ∧
        w g.pIn.idx 0 = element Tw.basis 32 p ∧ w g.qIn.idx 0 = element Tw.basis 32 q ∧
        w g.outDiv.idx 0 = element Tw.basis 32 d ∧ w g.outRem.idx 0 = element Tw.basis 32 r ∧
        q ≠ 0 ∧ (p = q * d + r ∨ p = q * d + r + 1)) ∧
      (∀ p w, g.populateWithInputs Tw.basis p 0 w = none) ∧
      ∀ p < 2 ^ 32, ∀ q < 2 ^ 32, q ≠ 0 → ∀ w, RowHolds Tw t (t'.fillConstants w) →
        ∃ w', g.populateWithInputs Tw.basis p q (t'.fillConstants w) = some w' ∧
          RowHolds Tw t' (g.mulInner.fillExponents (Tw.gen 6) 5 w') ∧
          wide (g.mulInner.fillExponents (Tw.gen 6) 5 w') g.pInBits = p ∧
          wide (g.mulInner.fillExponents (Tw.gen 6) 5 w') g.qInBits = q ∧
          wide (g.mulInner.fillExponents (Tw.gen 6) 5 w') g.outDivBits = p / q ∧
          wide (g.mulInner.fillExponents (Tw.gen 6) 5 w') g.outRemBits = p % q ∧
          ∀ i < t.columns.length, ∀ pos, g.mulInner.fillExponents (Tw.gen 6) 5 w' i pos = t'.fillConstants w i pos := by
  obtain ⟨g, t', z, h1, h2, ⟨h3, h4, h5, h6⟩, h7, ⟨ta, k1, k2, k3⟩, ⟨tb, m1, m2, m3⟩, h8⟩ := DivUU32_ok Tw ht
  refine ⟨g, t', h1, h8.wf ht, h3, h4, h5, h6, h2.plen, h2.qlen, h2.dlen, h2.rlen, fun w hw => ?_, fun p w => ?_, fun p hp q hq hq0 w hw => ?_⟩
  · obtain ⟨hw0, hr⟩ := (h8.holds ht w).1 hw
    obtain ⟨o1, o2, o3, o4, o5, o6⟩ := divUU_sound hT h2 hr
    exact ⟨hw0, _, wide_lt w h2.plen, _, wide_lt w h2.qlen, _, wide_lt w h2.dlen, _, wide_lt w h2.rlen, rfl, rfl, rfl, rfl, o3, o4, o5, o6,
      o1, o2⟩
  · rw [DivUU32.populateWithInputs, if_pos rfl]
  · have hpos : 0 < q := Nat.pos_of_ne_zero hq0
    have hd : p / q < 2 ^ 32 := (Nat.div_le_self p q).trans_lt hp
    have hrq : p % q < q := Nat.mod_lt p hpos
    have hr : p % q < 2 ^ 32 := hrq.trans hq
    have hdm : q * (p / q) + p % q = p := Nat.div_add_mod p q
    have hm : q * (p / q) < 2 ^ 64 := by omega
    obtain ⟨w2, p1, p2, p3, p4⟩ := divUU_build hT h2 hp hq hd hr hq0 (h7 w)
    rw [DivUU32.populateWithInputs, if_neg hq0]
    dsimp only
    rw [p1, Option.bind_some]
    have ha := addFill_populate (by norm_num) k1 h2.sum h2.sf k2 k3 hm (hr.trans (by norm_num)) p2 p3
    rw [hdm, Nat.mod_eq_of_lt (hp.trans (by norm_num))] at ha
    obtain ⟨q1, q2, q3⟩ := p4 _ ha
    have hs := subFill_populate (by norm_num) m1 h2.diff h2.df m2 m3 (hr.trans (by norm_num)) (hq.trans (by norm_num)) q1 q2
    have hf := q3 _ _ (by omega) (Nat.mod_lt _ (Nat.two_pow_pos _)) hs
    exact ⟨_, rfl, (h8.holds ht _).2 ⟨(frame ht hf.lt).2 hw, hf.row⟩, hf.bp, hf.bq, hf.bd, hf.br, hf.lt⟩

/-- The hypotheses are met by the empty table. -/
example : WellFormed (Table.new (Field.T 7)) ∧ 6 ≤ tower128.height ∧
    ∀ (t' : Table (Field.T 7)) w, RowHolds tower128 (Table.new _) (t'.fillConstants w) :=
  ⟨wellFormed_new, by decide, fun _ _ => rowHolds_new _ _⟩

/-- **C48 is false of `DivUU32`.** The constraints accept every quotient and remainder such that the dividend is the
divisor times the quotient plus the remainder, or one more: that the remainder is less than the divisor is not enforced. -/
theorem C48_div_uu_unsound (Tw : Tower F) (hT : 6 ≤ Tw.height) {t : Table F} (ht : WellFormed t) {w : Row F} (hw : RowHolds Tw t w) :
    ∃ g t', DivUU32.new Tw.basis (Tw.gen 6) t = some (g, t') ∧
      ∀ p < 2 ^ 32, ∀ q < 2 ^ 32, ∀ d < 2 ^ 32, ∀ r < 2 ^ 32, q ≠ 0 → (p = q * d + r ∨ p = q * d + r + 1) →
        ∃ u, RowHolds Tw t' u ∧ wide u g.pInBits = p ∧ wide u g.qInBits = q ∧ wide u g.outDivBits = d ∧ wide u g.outRemBits = r ∧
          ∀ i < t.columns.length, ∀ pos, u i pos = w i pos := by
  obtain ⟨g, t', z, h1, h2, -, -, ⟨ta, k1, k2, k3⟩, ⟨tb, m1, m2, m3⟩, h8⟩ := DivUU32_ok Tw ht
  refine ⟨g, t', h1, fun p hp q hq d hd r hr hq0 hpq => ?_⟩
  obtain ⟨k, hk⟩ : ∃ k : Bool, q * d + r + k.toNat = p := by
    rcases hpq with h | h
    · exact ⟨false, h.symm⟩
    · exact ⟨true, h.symm⟩
  have hz0 := h2.zero
  obtain ⟨w2, -, p2, p3, p4⟩ := divUU_build hT h2 hp hq hd hr hq0 (w := setBit w z 0) setBit_eq
  have ha := addFill_any (by norm_num) k1 h2.sum k2 k3 (show q * d < 2 ^ 64 by omega) (hr.trans (by norm_num)) p2 p3 k rfl
  rw [hk, Nat.mod_eq_of_lt (hp.trans (by norm_num))] at ha
  obtain ⟨q1, q2, q3⟩ := p4 _ ha
  obtain ⟨w4, hs⟩ := subFill_any (by norm_num) m1 h2.diff m2 m3 q1 q2 (Z := 2 ^ 63 + (r + q) % 2) (by omega)
  have hf := q3 _ _ (by omega) (by omega) hs
  have hlt : ∀ i < t.columns.length, ∀ pos, g.mulInner.fillExponents (Tw.gen 6) 5 w4 i pos = w i pos := fun i hi pos => by
    rw [hf.lt i hi pos, setBit_ne (by omega)]
  exact ⟨_, (h8.holds ht _).2 ⟨(frame ht hlt).2 hw, hf.row⟩, hf.bp, hf.bq, hf.bd, hf.br, hlt⟩

/-- For instance seven divided by two can be zero with the remainder seven, or three with the remainder zero. -/
example : (7 = 2 * 0 + 7 ∨ 7 = 2 * 0 + 7 + 1) ∧ (7 = 2 * 3 + 0 ∨ 7 = 2 * 3 + 0 + 1) ∧ 7 / 2 ≠ 0 ∧ 7 % 2 ≠ 0 := by decide

end Verif.M3
