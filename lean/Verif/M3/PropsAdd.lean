import Verif.M3.LemmasAdd
import Verif.M3.LemmasTower

/-! # C41 and C42: the adder and subtractor on words of 32 bits -/

set_option linter.dupNamespace false
set_option linter.unusedSectionVars false

namespace Verif.M3

open Finset Verif.Arith

variable {F : Type} [Field F] [DecidableEq F]

/-! ### Tables to show that the hypotheses of the theorems can be met -/

theorem wellFormed_new : WellFormed (Table.new F) :=
  ⟨fun i c h => by simp [Table.new] at h, fun lv i h => by simp [Table.new] at h, fun lv e h => by simp [Table.new] at h⟩

theorem rowHolds_new (Tw : Tower F) (w : Row F) : RowHolds Tw (Table.new F) w :=
  ⟨fun i c h => by simp [Table.new] at h, fun lv e h => by simp [Table.new] at h⟩

/-- A table with `n` committed columns of bits, and any values in them. -/
theorem demo_table (Tw : Tower F) (lv n : Nat) (v : Nat → Nat → Bool) : ∃ cs t, (Table.new F).addCommittedMultiple 0 lv n = some (cs, t) ∧
    cs.length = n ∧ WellFormed t ∧ (∀ (k : Nat) (c : Col), cs[k]? = some c → c.idx = k ∧ t.Has c 0 lv) ∧
    RowHolds Tw t fun i pos => ofBit (v i pos) := by
  obtain ⟨cs, t, h1, h2, h3⟩ := addCommittedMultiple_ok Tw (wellFormed_new (F := F)) 0 lv n
  refine ⟨cs, t, h1, h2.length, h3.wf wellFormed_new, fun k c hk => ?_, (h3.holds wellFormed_new _).2 ⟨rowHolds_new Tw _, ?_⟩⟩
  · obtain ⟨h4, h5⟩ := h2.col k c hk
    exact ⟨by rw [h4]; simp [Table.new], h5⟩
  · intro c _ pos _
    exact sub_of_isBit (ofBit_isBit _)

/-! ### Words -/

theorem word_eq (w : Row F) (c : Col) : word w c 32 = getWord w c 0 := by
  rw [word, getWord]
  simp

/-- A number that is at most one has no bits but the first. -/
theorem bits_of_le_one {f : Nat → F} {n : Nat} (hf : ∀ j < n, IsBit (f j)) (h : num ((List.range n).map f) ≤ 1) {j : Nat}
    (h0 : 0 < j) (hj : j < n) : f j = 0 := by
  have h1 := ofBit_testBit hf hj
  rw [Nat.testBit_lt_two_pow (h.trans_lt (Nat.one_lt_two_pow (by omega)))] at h1
  exact h1.symm

variable [CharP F 2]

theorem optWord_le_one {Tw : Tower F} {t : Table F} {w : Row F} (hw : RowHolds Tw t w) {c : Option Col} {lv k : Nat}
    (hk : 32 * k + 32 ≤ 2 ^ lv) (hc : ∀ c', c = some c' → t.Has c' 0 lv) (h : ∀ c', c = some c' → wordAt w c' k ≤ 1) :
    (∀ j, 0 < j → j < 32 → optVal w c (32 * k + j) = 0) ∧
      bit (optVal w c (32 * k)) = c.elim 0 fun c' => wordAt w c' k := by
  cases c with
  | none => exact ⟨fun _ _ _ => rfl, by simp [optVal]⟩
  | some c =>
    have hb : ∀ j < 32, IsBit (w c.idx (32 * k + j)) := fun j hj => (hc c rfl).isBit hw (by omega)
    have hz : ∀ j, 0 < j → j < 32 → w c.idx (32 * k + j) = 0 := fun j h0 hj =>
      bits_of_le_one (f := fun j => w c.idx (32 * k + j)) hb (h c rfl) h0 hj
    refine ⟨hz, ?_⟩
    show bit (w c.idx (32 * k)) = wordAt w c k
    rw [wordAt, num_first (by norm_num) hz, Nat.add_zero]

/-- **C41.** `U32Add::new` does not panic.  In every row that satisfies the table it makes, `zout` and the final carry
are the sum of the operands and of the carry in, which must be at most one.  In every row that satisfies the table
before, `populate` changes none of the columns there were and satisfies the table after. -/
theorem C41_u32_add (Tw : Tower F) {t : Table F} (ht : WellFormed t) {x y : Col} (hx : t.Has x 0 5) (hy : t.Has y 0 5)
    {flags : U32AddFlags} (hf : ∀ c, flags.carryInBit = some c → t.Has c 0 5) :
    ∃ g t', U32Add.new t x y flags = some (g, t') ∧ WellFormed t' ∧ t'.Has g.zout 0 5 ∧
      g.finalCarry.isSome = flags.exposeFinalCarry ∧ (∀ f, g.finalCarry = some f → t'.Has f 0 0) ∧
      (∀ w, RowHolds Tw t' w → (∀ c, flags.carryInBit = some c → word w c 32 ≤ 1) →
        RowHolds Tw t w ∧ ∃ carry ≤ 1,
          word w g.zout 32 + 2 ^ 32 * carry = word w x 32 + word w y 32 + flags.carryInBit.elim 0 (word w · 32) ∧
          ∀ f, g.finalCarry = some f → bit (w f.idx 0) = carry) ∧
      ∀ w, RowHolds Tw t w → (∀ c, flags.carryInBit = some c → word w c 32 ≤ 1) →
        RowHolds Tw t' (g.populate w) ∧ ∀ i < t.columns.length, ∀ pos, g.populate w i pos = w i pos := by
  obtain ⟨g, t', h1, hgx, hgy, hgf, h5, h6, h7, h8, h9⟩ := U32Add_new_ok Tw ht hx hy hf
  refine ⟨g, t', h1, h9.wf ht, h6, h5, h7, fun w hw hc => ?_, fun w hw hc => ?_⟩
  · obtain ⟨hw0, hr, hfin⟩ := (h9.holds ht w).1 hw
    obtain ⟨hz, hval⟩ := optWord_le_one hw0 (k := 0) (lv := 5) (by norm_num) hf fun c hcc => by
      have := hc c hcc; rwa [word_eq] at this
    have hs := addRow_sound hr (k := 0) (by norm_num) (fun pos hp => hx.isBit hw0 hp) (fun pos hp => hy.isBit hw0 hp)
      (optVal_isBit hf hw0 (by norm_num)) hz
    refine ⟨hw0, _, bit_le (w g.cout.idx 31), ?_, fun f hf' => by rw [hfin f hf']⟩
    rw [hval] at hs
    rw [word_eq, word_eq, word_eq]
    refine hs.trans ?_
    cases flags.carryInBit with
    | none => rfl
    | some c => exact congrArg _ (word_eq w c).symm
  · have hz : ∀ pos < 2 ^ 5, pos % 32 ≠ 0 → optVal w flags.carryInBit pos = 0 := by
      intro pos hp h0
      have := (optWord_le_one hw (k := 0) (lv := 5) (by norm_num) hf fun c hcc => by
        have := hc c hcc; rwa [word_eq] at this).1 pos (by omega) (by omega)
      rwa [Nat.mul_zero, Nat.zero_add] at this
    obtain ⟨c1, c2, c3⟩ := addRow_complete (lv := 5) le_rfl h8 w hx.lt hy.lt (fun c hcc => (hf c hcc).lt)
      (fun pos hp => hx.isBit hw hp) (fun pos hp => hy.isBit hw hp) (fun pos hp => optVal_isBit hf hw hp) hz rfl rfl
    subst hgx hgy hgf
    exact ⟨(h9.holds ht _).2 ⟨(frame ht fun i hi pos => (c1 i hi pos)).2 hw, c2, c3⟩, c1⟩

/-- The hypotheses are met by a table with two operands and a carry in, and by a row with the largest operands. -/
example : ∃ (t : Table (Field.T 7)) (x y c : Col), WellFormed t ∧ t.Has x 0 5 ∧ t.Has y 0 5 ∧ t.Has c 0 5 ∧
    ∃ w : Row (Field.T 7), RowHolds tower128 t w ∧ word w x 32 = 2 ^ 32 - 1 ∧ word w y 32 = 2 ^ 32 - 1 ∧ word w c 32 = 1 := by
  obtain ⟨cs, t, h1, h2, h3, h4, h5⟩ := demo_table tower128 5 3 fun i pos => decide (i ≠ 2 ∨ pos = 0)
  obtain ⟨x, hx⟩ : ∃ x, cs[0]? = some x := ⟨_, List.getElem?_eq_getElem (by omega)⟩
  obtain ⟨y, hy⟩ : ∃ x, cs[1]? = some x := ⟨_, List.getElem?_eq_getElem (by omega)⟩
  obtain ⟨c, hc⟩ : ∃ x, cs[2]? = some x := ⟨_, List.getElem?_eq_getElem (by omega)⟩
  refine ⟨t, x, y, c, h3, (h4 0 x hx).2, (h4 1 y hy).2, (h4 2 c hc).2, _, h5, ?_, ?_, ?_⟩
  · rw [word, (h4 0 x hx).1]; simp [List.range, List.range.loop, num]
  · rw [word, (h4 1 y hy).1]; simp [List.range, List.range.loop, num]
  · rw [word, (h4 2 c hc).1]; simp [List.range, List.range.loop, num]

/-- **C41.** `U32AddStacked` adds every pair of words of its cells: soundness and completeness as for `U32Add`, and
`new` panics for cells of fewer than 32 bits. -/
theorem C41_u32_add_stacked (Tw : Tower F) {t : Table F} (ht : WellFormed t) {lv : Nat} {x y : Col} (hx : t.Has x 0 lv)
    (hy : t.Has y 0 lv) (commit : Bool) {carryIn : Option Col} (hf : ∀ c, carryIn = some c → t.Has c 0 lv) :
    (lv < 5 → U32AddStacked.new t lv x y commit carryIn = none) ∧
    (5 ≤ lv → ∃ g t', U32AddStacked.new t lv x y commit carryIn = some (g, t') ∧ WellFormed t' ∧ t'.Has g.zout 0 lv ∧
      (∀ w, RowHolds Tw t' w → ∀ k < 2 ^ lv / 32, (∀ c, carryIn = some c → wordAt w c k ≤ 1) →
        RowHolds Tw t w ∧
          wordAt w g.zout k = (wordAt w x k + wordAt w y k + carryIn.elim 0 (wordAt w · k)) % 2 ^ 32) ∧
      ∀ w, RowHolds Tw t w → (∀ c, carryIn = some c → ∀ k < 2 ^ lv / 32, wordAt w c k ≤ 1) →
        RowHolds Tw t' (g.populate lv w) ∧ ∀ i < t.columns.length, ∀ pos, g.populate lv w i pos = w i pos) := by
  refine ⟨fun hlv => ?_, fun hlv => ?_⟩
  · rw [U32AddStacked.new, if_neg]
    have := Nat.pow_lt_pow_right (a := 2) (by omega) hlv
    omega
  · obtain ⟨m, hm⟩ : 32 ∣ 2 ^ lv := by
      rw [show (32 : Nat) = 2 ^ 5 from rfl]; exact pow_dvd_pow 2 hlv
    have hdiv : 2 ^ lv / 32 = m := by rw [hm]; omega
    obtain ⟨g, t', h1, hgx, hgy, hgf, h6, h8, h9⟩ := U32AddStacked_new_ok Tw ht hlv hx hy commit hf
    refine ⟨g, t', h1, h9.wf ht, h6, fun w hw k hk hc => ?_, fun w hw hc => ?_⟩
    · obtain ⟨hw0, hr⟩ := (h9.holds ht w).1 hw
      obtain ⟨hz, hval⟩ := optWord_le_one hw0 (k := k) (lv := lv) (by omega) hf hc
      have hs := addRow_sound hr (k := k) (by omega) (fun pos hp => hx.isBit hw0 hp) (fun pos hp => hy.isBit hw0 hp)
        (optVal_isBit hf hw0 (by omega)) hz
      refine ⟨hw0, ?_⟩
      rw [hval] at hs
      have hlt : wordAt w g.zout k < 2 ^ 32 := num_range_lt (fun j => w g.zout.idx (32 * k + j)) 32
      have hs' : wordAt w g.zout k + 2 ^ 32 * bit (w g.cout.idx (32 * k + 31)) =
        wordAt w x k + wordAt w y k + carryIn.elim 0 (wordAt w · k) := hs
      rw [← hs', Nat.add_mul_mod_self_left, Nat.mod_eq_of_lt hlt]
    · have hz : ∀ pos < 2 ^ lv, pos % 32 ≠ 0 → optVal w carryIn pos = 0 := by
        intro pos hp h0
        have := (optWord_le_one hw (k := pos / 32) (lv := lv) (by omega) hf fun c hcc => hc c hcc _ (by omega)).1
          (pos % 32) (by omega) (by omega)
        rwa [Nat.div_add_mod] at this
      obtain ⟨c1, c2, -⟩ := addRow_complete (lv := lv) hlv h8 w hx.lt hy.lt (fun c hcc => (hf c hcc).lt)
        (fun pos hp => hx.isBit hw hp) (fun pos hp => hy.isBit hw hp) (fun pos hp => optVal_isBit hf hw hp) hz rfl rfl
      subst hgx hgy hgf
      exact ⟨(h9.holds ht _).2 ⟨(frame ht fun i hi pos => (c1 i hi pos)).2 hw, c2⟩, c1⟩

/-- The hypotheses are met by cells of two words. -/
example : ∃ (t : Table (Field.T 7)) (x y : Col), WellFormed t ∧ t.Has x 0 6 ∧ t.Has y 0 6 ∧
    ∃ w : Row (Field.T 7), RowHolds tower128 t w ∧ wordAt w x 0 = 2 ^ 32 - 1 ∧ wordAt w y 0 = 2 ^ 32 - 1 ∧
      wordAt w x 1 = 1 ∧ wordAt w y 1 = 0 := by
  obtain ⟨cs, t, h1, h2, h3, h4, h5⟩ := demo_table tower128 6 2 fun i pos => decide (pos < 32 ∨ (i = 0 ∧ pos = 32))
  obtain ⟨x, hx⟩ : ∃ x, cs[0]? = some x := ⟨_, List.getElem?_eq_getElem (by omega)⟩
  obtain ⟨y, hy⟩ : ∃ x, cs[1]? = some x := ⟨_, List.getElem?_eq_getElem (by omega)⟩
  refine ⟨t, x, y, h3, (h4 0 x hx).2, (h4 1 y hy).2, _, h5, ?_, ?_, ?_, ?_⟩
  · rw [wordAt, (h4 0 x hx).1]; simp [List.range, List.range.loop, num]
  · rw [wordAt, (h4 1 y hy).1]; simp [List.range, List.range.loop, num]
  · rw [wordAt, (h4 0 x hx).1]; simp [List.range, List.range.loop, num]
  · rw [wordAt, (h4 1 y hy).1]; simp [List.range, List.range.loop, num]

/-- **C42.** `U32Sub::new` does not panic.  In every row that satisfies the table it makes, `zout` and the final borrow
are the difference of the operands and of the borrow in, which must be at most one.  In every row that satisfies the
table before, `populate` changes none of the columns there were and satisfies the table after. -/
theorem C42_u32_sub (Tw : Tower F) {t : Table F} (ht : WellFormed t) {x y : Col} (hx : t.Has x 0 5) (hy : t.Has y 0 5)
    {flags : U32SubFlags} (hf : ∀ c, flags.borrowInBit = some c → t.Has c 0 5) :
    ∃ g t', U32Sub.new t x y flags = some (g, t') ∧ WellFormed t' ∧ t'.Has g.zout 0 5 ∧
      g.finalBorrow.isSome = flags.exposeFinalBorrow ∧ (∀ f, g.finalBorrow = some f → t'.Has f 0 0) ∧
      (∀ w, RowHolds Tw t' w → (∀ c, flags.borrowInBit = some c → word w c 32 ≤ 1) →
        RowHolds Tw t w ∧ ∃ borrow ≤ 1,
          word w x 32 + 2 ^ 32 * borrow = word w y 32 + word w g.zout 32 + flags.borrowInBit.elim 0 (word w · 32) ∧
          ∀ f, g.finalBorrow = some f → bit (w f.idx 0) = borrow) ∧
      ∀ w, RowHolds Tw t w → (∀ c, flags.borrowInBit = some c → word w c 32 ≤ 1) →
        RowHolds Tw t' (g.populate w) ∧ ∀ i < t.columns.length, ∀ pos, g.populate w i pos = w i pos := by
  obtain ⟨g, t', h1, hgx, hgy, hgf, h5, h6, h7, h8, h9⟩ := U32Sub_new_ok Tw ht hx hy hf
  refine ⟨g, t', h1, h9.wf ht, h6, h5, h7, fun w hw hc => ?_, fun w hw hc => ?_⟩
  · obtain ⟨hw0, hr, hfin⟩ := (h9.holds ht w).1 hw
    obtain ⟨hz, hval⟩ := optWord_le_one hw0 (k := 0) (lv := 5) (by norm_num) hf fun c hcc => by
      have := hc c hcc; rwa [word_eq] at this
    have hs := subRow_sound hr (k := 0) (by norm_num) (fun pos hp => hx.isBit hw0 hp) (fun pos hp => hy.isBit hw0 hp)
      (optVal_isBit hf hw0 (by norm_num)) hz
    refine ⟨hw0, _, bit_le (w g.bout.idx 31), ?_, fun f hf' => by rw [hfin f hf']⟩
    rw [hval] at hs
    rw [word_eq, word_eq, word_eq]
    refine hs.trans ?_
    cases flags.borrowInBit with
    | none => rfl
    | some c => exact congrArg _ (word_eq w c).symm
  · have hz : ∀ pos < 2 ^ 5, pos % 32 ≠ 0 → optVal w flags.borrowInBit pos = 0 := by
      intro pos hp h0
      have := (optWord_le_one hw (k := 0) (lv := 5) (by norm_num) hf fun c hcc => by
        have := hc c hcc; rwa [word_eq] at this).1 pos (by omega) (by omega)
      rwa [Nat.mul_zero, Nat.zero_add] at this
    obtain ⟨c1, c2, c3⟩ := subRow_complete (lv := 5) le_rfl h8 w hx.lt hy.lt (fun c hcc => (hf c hcc).lt)
      (fun pos hp => hx.isBit hw hp) (fun pos hp => hy.isBit hw hp) (fun pos hp => optVal_isBit hf hw hp) hz rfl rfl
    subst hgx hgy hgf
    exact ⟨(h9.holds ht _).2 ⟨(frame ht fun i hi pos => (c1 i hi pos)).2 hw, c2, c3⟩, c1⟩

/-- The hypotheses are met by a table with two operands and a borrow in, and by a row where the difference wraps. -/
example : ∃ (t : Table (Field.T 7)) (x y c : Col), WellFormed t ∧ t.Has x 0 5 ∧ t.Has y 0 5 ∧ t.Has c 0 5 ∧
    ∃ w : Row (Field.T 7), RowHolds tower128 t w ∧ word w x 32 = 0 ∧ word w y 32 = 2 ^ 32 - 1 ∧ word w c 32 = 1 := by
  obtain ⟨cs, t, h1, h2, h3, h4, h5⟩ := demo_table tower128 5 3 fun i pos => decide (i = 1 ∨ (i = 2 ∧ pos = 0))
  obtain ⟨x, hx⟩ : ∃ x, cs[0]? = some x := ⟨_, List.getElem?_eq_getElem (by omega)⟩
  obtain ⟨y, hy⟩ : ∃ x, cs[1]? = some x := ⟨_, List.getElem?_eq_getElem (by omega)⟩
  obtain ⟨c, hc⟩ : ∃ x, cs[2]? = some x := ⟨_, List.getElem?_eq_getElem (by omega)⟩
  refine ⟨t, x, y, c, h3, (h4 0 x hx).2, (h4 1 y hy).2, (h4 2 c hc).2, _, h5, ?_, ?_, ?_⟩
  · rw [word, (h4 0 x hx).1]; simp [List.range, List.range.loop, num]
  · rw [word, (h4 1 y hy).1]; simp [List.range, List.range.loop, num]
  · rw [word, (h4 2 c hc).1]; simp [List.range, List.range.loop, num]

end Verif.M3
