import Verif.M3.LemmasSign
import Verif.M3.PropsWide

/-! # C47: negation -/

set_option linter.dupNamespace false
set_option linter.unusedSectionVars false

namespace Verif.M3

open Finset Verif.Arith

variable {F : Type} [Field F] [DecidableEq F] [CharP F 2]

/-- **C47.** `TwosComplement`: `new` does not panic, in every row that satisfies the table `result_bits` is the negation of
the input modulo `2^n`, and `populate` satisfies the table and changes none of the columns there were. -/
theorem C47_twos_complement (Tw : Tower F) {t : Table F} (ht : WellFormed t) {n : Nat} (hn : 0 < n) {x : List Col}
    (hxl : x.length = n) (hx : ∀ c ∈ x, t.Has c 0 0) :
    ∃ g t', TwosComplement.new t n x = some (g, t') ∧ WellFormed t' ∧ g.resultBits.length = n ∧
      (∀ c ∈ g.resultBits, t'.Has c 0 0) ∧
      (∀ w, RowHolds Tw t' w → RowHolds Tw t w ∧ wide w g.resultBits = (2 ^ n - wide w x) % 2 ^ n) ∧
      ∀ w, RowHolds Tw t w → RowHolds Tw t' (g.populate w) ∧
        ∀ i < t.columns.length, ∀ pos, g.populate w i pos = w i pos := by
  have hX := hasAll_of hxl hx
  obtain ⟨g, t', a1, rfl, a3, a4, a5, a6, ⟨t1, a7, a7'⟩, a8, a9⟩ := TwosComplement_new_ok Tw ht hX
  refine ⟨g, t', a1, a9.wf ht, a6.length, fun c hc => a6.mem hc, fun w hw => ?_, fun w hw => ?_⟩
  · obtain ⟨hw0, hr⟩ := (a9.holds ht w).1 hw
    refine ⟨hw0, ?_⟩
    rw [a4]
    exact twos_sound hr hn hxl a5.ilen a5.incr.zlen fun j hj => hX.isBit hw0 hj
  · obtain ⟨c1, -, c3⟩ := twos_complete rfl a5 hX a3 a7 a7' (w := w) fun j hj => hX.isBit hw hj
    exact ⟨(a9.holds ht _).2 ⟨(frame ht fun i hi pos => c1 i hi pos).2 hw, c3⟩, c1⟩

/-- **C47.** `SignConverter`: `new` does not panic, and in every row that satisfies the table `converted_bits` is the
input if the condition is zero and its negation modulo `2^n` if the condition is one.  `populate`, after which the
caller puts that number in `converted_bits`, satisfies the table and changes none of the columns there were. -/
theorem C47_sign_converter (Tw : Tower F) {t : Table F} (ht : WellFormed t) {n : Nat} (hn : 0 < n) {x : List Col}
    (hxl : x.length = n) (hx : ∀ c ∈ x, t.Has c 0 0) {cond : Circuit F} (hb : Built cond)
    (hv : nVars cond ≤ (t.partitions 0).columns.length) {b : Row F → F} (he : ∀ w, evaluate cond (t.query 0 w 0) = some (b w))
    (hbit : ∀ w, RowHolds Tw t w → b w = 0 ∨ b w = 1) :
    ∃ g t', SignConverter.new t n x cond = some (g, t') ∧ WellFormed t' ∧ g.convertedBits.length = n ∧
      (∀ c ∈ g.convertedBits, t'.Has c 0 0) ∧
      (∀ w, RowHolds Tw t' w → RowHolds Tw t w ∧
        wide w g.convertedBits = if b w = 0 then wide w x else (2 ^ n - wide w x) % 2 ^ n) ∧
      ∀ w, RowHolds Tw t w →
        let w' := setBits g.convertedBits
          (fun j => ofBit ((if b w = 0 then wide w x else (2 ^ n - wide w x) % 2 ^ n).testBit j)) (g.populate w)
        RowHolds Tw t' w' ∧ ∀ i < t.columns.length, ∀ pos, w' i pos = w i pos := by
  have hX := hasAll_of hxl hx
  obtain ⟨f, hf⟩ : ∃ f : Row F → Nat → F, ∀ w pos, evaluate cond (t.query 0 w pos) = some (f w pos) := by
    have := fun (w : Row F) (pos : Nat) => (C21_evaluate_total cond hb).1 (t.query 0 w pos)
      (by rw [Table.query, List.length_map]; exact hv)
    choose f hf using this
    exact ⟨f, hf⟩
  have hfb : ∀ w, f w 0 = b w := fun w => Option.some.inj ((hf w 0).symm.trans (he w))
  obtain ⟨g, t', a1, a2, a3, a4, a5, ⟨t1, a7, a7'⟩, a8, a9, a10, a11⟩ := SignConverter_new_ok Tw ht hX ⟨hb, hv, hf⟩
  have hif : ∀ w, RowHolds Tw t w → ∀ p q : Nat, (if b w = 1 then q else p) = if b w = 0 then p else q := by
    intro w hw p q
    rcases hbit w hw with h | h <;> rw [h]
    · rw [if_neg zero_ne_one, if_pos rfl]
    · rw [if_pos rfl, if_neg one_ne_zero]
  refine ⟨g, t', a1, a11.wf ht, a8.length, fun c hc => a8.mem hc, fun w hw => ?_, fun w hw => ?_⟩
  · obtain ⟨hw0, hr1, hr2⟩ := (a11.holds ht w).1 hw
    refine ⟨hw0, ?_⟩
    have h1 := twos_sound hr1 hn hxl a5.ilen a5.incr.zlen fun j hj => hX.isBit hw0 hj
    rw [hfb] at hr2
    rw [sign_sound hr2 hxl (by rw [a4]; exact a5.incr.zlen) a8.length (hbit w hw0), a4, h1, hif w hw0]
  · intro w'
    have hX' : HasAll t g.twosComplement.xin n := by rw [a2]; exact hX
    obtain ⟨c1, -, c3⟩ := twos_complete rfl a5 hX' a3 a7 a7' (w := w) fun j hj => hX'.isBit hw hj
    rw [a2] at c3
    set w1 := g.twosComplement.populate w with hw1
    have hcv : ∀ c ∈ g.convertedBits, t.columns.length + n + n + n + 1 ≤ c.idx := fun c hc => (idx_range a8.length a9 hc).1
    have hne : ∀ i, i < t.columns.length + n + n + n + 1 → ∀ pos, w' i pos = w1 i pos := fun i hi pos =>
      setBits_ne (fun c hc => by have := hcv c hc; omega) pos
    have hfr : ∀ i < t.columns.length, ∀ pos, w' i pos = w i pos := fun i hi pos => by
      rw [hne i (by omega), c1 i hi]
    have hval : ∀ j < n, val w' g.convertedBits j =
        ofBit ((if b w = 0 then wide w x else (2 ^ n - wide w x) % 2 ^ n).testBit j) := fun j hj =>
      setBits_val (nodup_range a8.length a9) j (by rw [a8.length]; exact hj)
    have hbw : b w' = b w := by
      have h1 := he w'
      have h2 : t.query 0 w' 0 = t.query 0 w 0 := List.map_congr_left fun i hi => hfr i (ht.parts 0 i hi) 0
      rw [h2, he w] at h1
      exact (Option.some.inj h1).symm
    have hw1t : RowHolds Tw t w1 := (frame ht fun i hi pos => c1 i hi pos).2 hw
    have hL := a5
    have cvals : ∀ cs : List Col, (∀ c ∈ cs, c.idx < t.columns.length + n + n + n + 1) → ∀ j, val w' cs j = val w1 cs j :=
      fun cs h j => val_congr' fun c hc => hne _ (h c hc) 0
    have vi := cvals g.twosComplement.inverted fun c hc => by
      have := idx_range a5.ilen a5.inv hc; omega
    have vc := cvals g.twosComplement.innerIncr.cin fun c hc => by
      have := idx_range a5.incr.clen a5.incr.cidx hc; omega
    have vz := cvals g.twosComplement.innerIncr.zout fun c hc => by
      have := idx_range a5.incr.zlen a5.incr.zidx hc; omega
    have vx := cvals x fun c hc => by have := (hx c hc).lt; omega
    have vf : w' g.twosComplement.innerIncr.finalCarryOut.idx 0 = w1 g.twosComplement.innerIncr.finalCarryOut.idx 0 :=
      hne _ (by rw [a5.incr.fidx]; omega) 0
    have hrow : TwosRow w' n x g.twosComplement.inverted g.twosComplement.innerIncr.cin g.twosComplement.innerIncr.zout
        g.twosComplement.innerIncr.finalCarryOut := by
      refine ⟨fun j hj => ?_, ⟨fun j hj => ?_, fun j hj => ?_, ?_, fun h => ?_, fun j hj => ?_, fun j hj => ?_⟩⟩
      · rw [vi, vx]; exact c3.inv j hj
      · rw [vc]; exact c3.incr.bits j hj
      · rw [vz]; exact c3.incr.zbits j hj
      · rw [vf]; exact c3.incr.fin
      · rw [vc]; exact c3.incr.first h
      · rw [vz, vi, vc]; exact c3.incr.sum j hj
      · rw [vi, vc, ← c3.incr.carry j hj]
        unfold chainOf
        rw [vc, vf]
    refine ⟨(a11.holds ht _).2 ⟨(frame ht hfr).2 hw, hrow, ?_⟩, hfr⟩
    rw [hfb, hbw]
    have hw1x : wide w1 x = wide w x := wide_congr' fun c hc => c1 _ (hx c hc).lt 0
    have hneg := twos_sound c3 hn hxl a5.ilen a5.incr.zlen fun j hj => hX.isBit hw1t hj
    rw [hw1x] at hneg
    refine ⟨fun j hj => ?_, fun j hj => by rw [hval j hj]; exact ofBit_isBit _⟩
    rw [hval j hj, a4, vz, vx]
    rcases hbit w hw with h | h <;> rw [h]
    · rw [if_pos rfl, ← hw1x, wide_eq, hxl, ofBit_testBit (fun j hj => hX.isBit hw1t hj) hj]; ring
    · rw [if_neg one_ne_zero, ← hneg, wide_eq, a5.incr.zlen, ofBit_testBit c3.incr.zbits hj,
        show (1 : F) + 1 = 0 from by rw [← two_zero (F := F)]; norm_num]
      ring

/-- The hypotheses are met by the bits of a 64-bit number, with its sign bit for the condition. -/
example : ∃ (t : Table (Field.T 7)) (x : List Col) (s : Col) (w : Row (Field.T 7)), WellFormed t ∧ x.length = 64 ∧
    (∀ c ∈ x, t.Has c 0 0) ∧ x[63]? = some s ∧ Built (s.expr : Circuit (Field.T 7)) ∧
    nVars (s.expr : Circuit (Field.T 7)) ≤ (t.partitions 0).columns.length ∧
    (∀ w, evaluate s.expr (t.query 0 w 0) = some (w s.idx 0)) ∧
    (∀ w, RowHolds tower128 t w → w s.idx 0 = 0 ∨ w s.idx 0 = 1) ∧ RowHolds tower128 t w ∧ w s.idx 0 = 1 := by
  obtain ⟨cs, t, h1, h2, h3, h4, h5⟩ := demo_table tower128 0 64 fun _ _ => true
  have hh : ∀ c ∈ cs, t.Has c 0 0 := fun c hc => by
    obtain ⟨k, hk, rfl⟩ := List.getElem_of_mem hc
    exact (h4 k _ (List.getElem?_eq_getElem hk)).2
  have h63 : cs[63]? = some cs[63] := List.getElem?_eq_getElem (by omega)
  have hs := hh _ (List.mem_of_getElem? h63)
  have hev := Ev.col hs
  exact ⟨t, cs, _, _, h3, h2, hh, h63, hev.built, hev.vars, fun w => hev.eval w 0,
    fun w hw => hs.isBit hw (by norm_num), h5, rfl⟩

end Verif.M3
