import Verif.M3.LemmasBarrel
import Verif.M3.PropsAdd

/-! # C45: the barrel shifter -/

set_option linter.dupNamespace false
set_option linter.unusedSectionVars false

namespace Verif.M3

open Finset Verif.Arith
open Verif.Transparent (ShiftVariant)

variable {F : Type} [Field F] [DecidableEq F] [CharP F 2]

/-- **C45.** `BarrelShifter::new` does not panic.  In every row that satisfies the table it makes, the output is the
input shifted, in the way of the variant, by the number in the five low bits of the shift amount, whatever the other
eleven bits are.  In every row that satisfies the table before, `populate` changes none of the columns there were and
satisfies the table after. -/
theorem C45_barrel_shifter (Tw : Tower F) (hT : 5 ≤ Tw.height) {t : Table F} (ht : WellFormed t) {x a : Col}
    (hx : t.Has x 0 5) (ha : t.Has a 0 4) (v : ShiftVariant) :
    ∃ g t', BarrelShifter.new t x a v = some (g, t') ∧ WellFormed t' ∧ t'.Has g.output 0 5 ∧
      (∀ w, RowHolds Tw t' w →
        RowHolds Tw t w ∧ word w g.output 32 = shiftWord v (word w a 16 % 2 ^ 5) (word w x 32)) ∧
      ∀ w, RowHolds Tw t w →
        RowHolds Tw t' (g.populate Tw.basis w) ∧
          ∀ i < t.columns.length, ∀ pos, g.populate Tw.basis w i pos = w i pos := by
  obtain ⟨g, t', h1, hgx, hga, hgv, hgo, hlen, hlay, -, hho, h9⟩ := BarrelShifter_new_ok Tw ht hx ha v
  refine ⟨g, t', h1, h9.wf ht, hho, fun w hw => ?_, fun w hw => ?_⟩
  · obtain ⟨hw0, ⟨r1, r2⟩, r3⟩ := (h9.holds ht w).1 hw
    have hxb : ∀ pos < 32, IsBit (w x.idx pos) := fun pos hp => hx.isBit hw0 hp
    have hs := loopRow_sound hT g.steps 0 x r3 (by omega) hxb fun s hs => by
      obtain ⟨k, hk, rfl⟩ := List.getElem_of_mem hs
      exact ⟨fun pos hp => isBit_of_sub (r1 _ hs pos hp), isBit_of_sub (r2 k _ (List.getElem?_eq_getElem hk)).1⟩
    have hnum : num (g.steps.map fun s => w s.bit.idx 0) = word w a 16 % 2 ^ 5 := by
      have e1 : (g.steps.map fun s => w s.bit.idx 0) = (List.range 5).map (w a.idx) := by
        refine List.ext_getElem? fun k => ?_
        rw [List.getElem?_map, List.getElem?_map]
        by_cases hk : k < 5
        · rw [List.getElem?_eq_getElem (hlen ▸ hk), List.getElem?_range hk, Option.map_some, Option.map_some,
            (r2 k _ (List.getElem?_eq_getElem (hlen ▸ hk))).2]
        · rw [List.getElem?_eq_none (by omega), List.getElem?_eq_none (by simpa using hk)]; rfl
      have e2 : (List.range 16).map (w a.idx) = (List.range 5).map (w a.idx) ++ (List.range 11).map fun j => w a.idx (5 + j) := by
        rw [show (16 : Nat) = 5 + 11 from rfl, List.range_add, List.map_append, List.map_map]; rfl
      have e3 := num_range_lt (w a.idx) 5
      rw [e1, word, e2, num_append, List.length_map, List.length_range, Nat.add_mul_mod_self_left, Nat.mod_eq_of_lt e3]
    rw [pow_zero, one_mul, hnum] at hs
    refine ⟨hw0, ?_⟩
    rw [hgo]
    exact num_shifted v (Nat.mod_lt _ (by norm_num)) hxb hs
  · have hxb : ∀ pos < 32, IsBit (w x.idx pos) := fun pos hp => hx.isBit hw hp
    have hab : ∀ pos < 16, IsBit (w a.idx pos) := fun pos hp => ha.isBit hw hp
    have hgw : getWord w x 0 = num ((List.range 32).map (w x.idx)) := (word_eq w x).symm
    obtain ⟨c1, c2, c3⟩ := fill_ok hT v (num ((List.range 16).map (w a.idx))) t.columns.length g.steps 0 (getWord w x 0) x w
      (by omega) hlay hx.lt (by rw [hgw]; exact num_range_lt _ 32)
      (fun pos hp => by rw [hgw]; exact ofBit_testBit hxb hp)
    have hpop : g.populate Tw.basis w = BarrelShifter.fill Tw.basis v (num ((List.range 16).map (w a.idx))) g.steps 0 (getWord w x 0) w := by
      subst hgx hga hgv; rfl
    rw [hpop]
    have hfr := fun i hi pos => c1 i (Or.inl hi) pos
    refine ⟨(h9.holds ht _).2 ⟨(frame ht fun i hi pos => hfr i hi pos).2 hw, ⟨fun s hs pos hp => ?_, fun k s hk => ?_⟩, c3⟩, hfr⟩
    · obtain ⟨k, hk, rfl⟩ := List.getElem_of_mem hs
      exact sub_of_isBit ((c2 k _ (List.getElem?_eq_getElem hk)).2 pos hp)
    · have hk5 : k < 5 := by rw [← hlen]; exact lt_of_get hk
      obtain ⟨d1, -⟩ := c2 k s hk
      rw [Nat.zero_add, ofBit_testBit hab (by omega)] at d1
      rw [d1]
      exact ⟨sub_of_isBit (hab k (by omega)), (hfr _ ha.lt _).symm⟩

/-- The hypotheses are met: by a table with an input and a shift amount, and a row that shifts the largest word by 7
with bits set beyond the fifth of the shift amount. -/
example : 5 ≤ tower128.height ∧ ∃ (t : Table (Field.T 7)) (x a : Col), WellFormed t ∧ t.Has x 0 5 ∧ t.Has a 0 4 ∧
    ∃ w : Row (Field.T 7), RowHolds tower128 t w ∧ word w x 32 = 2 ^ 32 - 1 ∧ word w a 16 = 39 := by
  refine ⟨by decide, ?_⟩
  obtain ⟨x, t1, a1, a2, a3⟩ := addCommitted_ok tower128 (Table.new (Field.T 7)) 0 5
  obtain ⟨a, t2, b1, b2, b3⟩ := addCommitted_ok tower128 t1 0 4
  have hx : x.idx = 0 := a2.idx
  have ha : a.idx = 1 := by rw [b2.idx, a2.len]; rfl
  refine ⟨t2, x, a, (a3.trans b3).wf wellFormed_new, a2.has.ext b3.ext, b2.has,
    fun i pos => ofBit (decide (i = 0 ∨ pos = 0 ∨ pos = 1 ∨ pos = 2 ∨ pos = 5)),
    ((a3.trans b3).holds wellFormed_new _).2 ⟨rowHolds_new _ _, fun _ _ => sub_of_isBit (ofBit_isBit _),
      fun _ _ => sub_of_isBit (ofBit_isBit _)⟩, ?_, ?_⟩
  · rw [word, hx]; simp [List.range, List.range.loop, num]
  · rw [word, ha]; simp [List.range, List.range.loop, num]

/-- What the specification says of some shifts. -/
example : shiftWord .logicalLeft 7 (2 ^ 32 - 1) = 0xffffff80 ∧ shiftWord .logicalRight 7 (2 ^ 32 - 1) = 0x01ffffff ∧
    shiftWord .circularLeft 8 0x12345678 = 0x34567812 := by decide

end Verif.M3
