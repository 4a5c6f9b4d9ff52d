import Verif.M3.LemmasWide
import Verif.M3.PropsAdd

/-! # C43 and C44: adders and subtractors on columns of single bits -/

set_option linter.dupNamespace false
set_option linter.unusedSectionVars false

namespace Verif.M3

open Finset Verif.Arith

variable {F : Type} [Field F] [DecidableEq F] [CharP F 2]

theorem hasAll_of {t : Table F} {cs : List Col} {n : Nat} (hl : cs.length = n) (h : ∀ c ∈ cs, t.Has c 0 0) : HasAll t cs n :=
  ⟨hl, fun _ c hk => h c (List.mem_of_getElem? hk)⟩

/-- **C43.** `WideAdd` with a carry in: `new` does not panic, and in every row that satisfies the table `z_out` and the
final carry are the sum of the operands and of the first bit of the carry in. -/
theorem C43_wide_add_carry_in (Tw : Tower F) {t : Table F} (ht : WellFormed t) {n : Nat} (hn : 0 < n) {x y : List Col}
    (hxl : x.length = n) (hx : ∀ c ∈ x, t.Has c 0 0) (hyl : y.length = n) (hy : ∀ c ∈ y, t.Has c 0 0)
    {flags : U32AddFlags} {k : Col} (hk : flags.carryInBit = some k) (hkt : t.Has k 0 5) :
    ∃ g t', WideAdd.new t n x y flags = some (g, t') ∧ WellFormed t' ∧ g.zOut.length = n ∧ (∀ c ∈ g.zOut, t'.Has c 0 0) ∧
      t'.Has g.finalCarryOut 0 0 ∧
      ∀ w, RowHolds Tw t' w → RowHolds Tw t w ∧
        wide w g.zOut + 2 ^ n * bit (w g.finalCarryOut.idx 0) = wide w x + wide w y + bit (w k.idx 0) := by
  have hX := hasAll_of hxl hx
  have hY := hasAll_of hyl hy
  obtain ⟨g, t', h1, -, -, -, -, -, h2, -, h3, -, -, h4⟩ := WideAdd_new_ok Tw ht hX hY (flags := flags)
    fun c hc => by rw [hk] at hc; injection hc with hc; rwa [← hc]
  refine ⟨g, t', h1, h4.wf ht, h2.length, fun c hc => h2.mem hc, h3, fun w hw => ?_⟩
  obtain ⟨hw0, hr⟩ := (h4.holds ht w).1 hw
  refine ⟨hw0, ?_⟩
  rw [wideAdd_sound hr hn hxl hyl h2.length (fun j hj => hX.isBit hw0 hj) (fun j hj => hY.isBit hw0 hj),
    hr.first hn k hk]

/-- **C43.** `WideAdd` without a carry in.  The property asks that `z_out` and the final carry be the sum of the
operands.  What is missing: the first carry is a committed column that nothing constrains, so the sum may be one more
(`C43_wide_add_unsound`).  `populate` does give the sum of the operands. -/
theorem C43_wide_add_partial (Tw : Tower F) {t : Table F} (ht : WellFormed t) {n : Nat} (hn : 0 < n) {x y : List Col}
    (hxl : x.length = n) (hx : ∀ c ∈ x, t.Has c 0 0) (hyl : y.length = n) (hy : ∀ c ∈ y, t.Has c 0 0)
    {flags : U32AddFlags} (hk : flags.carryInBit = none) :
    ∃ g t', WideAdd.new t n x y flags = some (g, t') ∧ WellFormed t' ∧ g.zOut.length = n ∧ (∀ c ∈ g.zOut, t'.Has c 0 0) ∧
      t'.Has g.finalCarryOut 0 0 ∧
      (∀ w, RowHolds Tw t' w → RowHolds Tw t w ∧ ∃ e ≤ 1,
        wide w g.zOut + 2 ^ n * bit (w g.finalCarryOut.idx 0) = wide w x + wide w y + e) ∧
      ∀ (rows : Nat → Row F) (r : Nat), RowHolds Tw t (rows r) →
        RowHolds Tw t' (g.populate rows r) ∧ (∀ i < t.columns.length, ∀ pos, g.populate rows r i pos = rows r i pos) ∧
        wide (g.populate rows r) g.zOut + 2 ^ n * bit (g.populate rows r g.finalCarryOut.idx 0) =
          wide (rows r) x + wide (rows r) y := by
  have hX := hasAll_of hxl hx
  have hY := hasAll_of hyl hy
  obtain ⟨g, t', h1, g1, g2, g3, g4, g5, h2, g6, h3, g7, -, h4⟩ := WideAdd_new_ok Tw ht hX hY (flags := flags)
    fun c hc => by rw [hk] at hc; cases hc
  refine ⟨g, t', h1, h4.wf ht, h2.length, fun c hc => h2.mem hc, h3, fun w hw => ?_, fun rows r hw => ?_⟩
  · obtain ⟨hw0, hr⟩ := (h4.holds ht w).1 hw
    exact ⟨hw0, _, bit_le _, wideAdd_sound hr hn hxl hyl h2.length (fun j hj => hX.isBit hw0 hj) (fun j hj => hY.isBit hw0 hj)⟩
  · obtain ⟨c1, c2, c3⟩ := wideAdd_complete (F := F) rfl ⟨g4, h2.length, g5, g6, g7⟩ hX hY (w := rows r)
      (fun j hj => hX.isBit hw hj) (fun j hj => hY.isBit hw hj) (k := 0) isBit_zero rfl
    have hpop : g.populate rows r = setBit (WideAdd.loop (rows r) x y g.cin g.zOut 0 (rows r)).1 g.finalCarryOut
        (WideAdd.loop (rows r) x y g.cin g.zOut 0 (rows r)).2 := by
      rw [WideAdd.populate, g1, g2, g3, hk]
    rw [← hpop] at c1 c2 c3
    have hr := (c3 none fun q hq => (by cases hq)).2 fun _ q hq => (by cases hq)
    have hw0 := (frame (Tw := Tw) ht fun i hi pos => c1 i hi pos).2 hw
    refine ⟨(h4.holds ht _).2 ⟨hw0, hk ▸ hr⟩, c1, ?_⟩
    rw [wideAdd_sound hr hn hxl hyl h2.length (fun j hj => hX.isBit hw0 hj) (fun j hj => hY.isBit hw0 hj), c2 hn,
      bit_zero, hX.wide_congr c1, hY.wide_congr c1, Nat.add_zero]

/-- **C43** fails: without a carry in, every row of the table before extends to one that satisfies the table after and
whose output is one more than the sum. -/
theorem C43_wide_add_unsound (Tw : Tower F) {t : Table F} (ht : WellFormed t) {n : Nat} (hn : 0 < n) {x y : List Col}
    (hxl : x.length = n) (hx : ∀ c ∈ x, t.Has c 0 0) (hyl : y.length = n) (hy : ∀ c ∈ y, t.Has c 0 0)
    {flags : U32AddFlags} (hk : flags.carryInBit = none) :
    ∃ g t', WideAdd.new t n x y flags = some (g, t') ∧
      ∀ w, RowHolds Tw t w → ∃ w', RowHolds Tw t' w' ∧ (∀ i < t.columns.length, ∀ pos, w' i pos = w i pos) ∧
        wide w' g.zOut + 2 ^ n * bit (w' g.finalCarryOut.idx 0) = wide w' x + wide w' y + 1 := by
  have hX := hasAll_of hxl hx
  have hY := hasAll_of hyl hy
  obtain ⟨g, t', h1, g1, g2, g3, g4, g5, h2, g6, h3, g7, -, h4⟩ := WideAdd_new_ok Tw ht hX hY (flags := flags)
    fun c hc => by rw [hk] at hc; cases hc
  refine ⟨g, t', h1, fun w hw => ?_⟩
  obtain ⟨c1, c2, c3⟩ := wideAdd_complete (F := F) rfl ⟨g4, h2.length, g5, g6, g7⟩ hX hY (w := w)
    (fun j hj => hX.isBit hw hj) (fun j hj => hY.isBit hw hj) (k := 1) isBit_one rfl
  have hr := (c3 none fun q hq => (by cases hq)).2 fun _ q hq => (by cases hq)
  have hw0 := (frame (Tw := Tw) ht fun i hi pos => c1 i hi pos).2 hw
  refine ⟨_, (h4.holds ht _).2 ⟨hw0, hk ▸ hr⟩, c1, ?_⟩
  rw [wideAdd_sound hr hn hxl hyl h2.length (fun j hj => hX.isBit hw0 hj) (fun j hj => hY.isBit hw0 hj), c2 hn, bit_one]

/-- **C43** fails: with a carry in, the row that `populate` makes satisfies the table exactly when bit `r` of the cells
of the carry column, taken as one array over all rows, is the first bit of the cell of row `r`. -/
theorem C43_wide_add_populate_carry (Tw : Tower F) {t : Table F} (ht : WellFormed t) {n : Nat} (hn : 0 < n) {x y : List Col}
    (hxl : x.length = n) (hx : ∀ c ∈ x, t.Has c 0 0) (hyl : y.length = n) (hy : ∀ c ∈ y, t.Has c 0 0)
    {flags : U32AddFlags} {k : Col} (hk : flags.carryInBit = some k) (hkt : t.Has k 0 5) :
    ∃ g t', WideAdd.new t n x y flags = some (g, t') ∧ ∀ (rows : Nat → Row F), (∀ r, RowHolds Tw t (rows r)) → ∀ r,
      RowHolds Tw t' (g.populate rows r) ↔ rows (r / 32) k.idx (r % 32) = rows r k.idx 0 := by
  have hX := hasAll_of hxl hx
  have hY := hasAll_of hyl hy
  obtain ⟨g, t', h1, g1, g2, g3, g4, g5, h2, g6, h3, g7, -, h4⟩ := WideAdd_new_ok Tw ht hX hY (flags := flags)
    fun c hc => by rw [hk] at hc; injection hc with hc; rwa [← hc]
  refine ⟨g, t', h1, fun rows hrows r => ?_⟩
  have hw := hrows r
  obtain ⟨c1, c2, c3⟩ := wideAdd_complete (F := F) rfl ⟨g4, h2.length, g5, g6, g7⟩ hX hY (w := rows r)
      (fun j hj => hX.isBit hw hj) (fun j hj => hY.isBit hw hj) (k := rows (r / 32) k.idx (r % 32))
      (hkt.isBit (hrows _) (Nat.mod_lt _ (by norm_num))) rfl
  have hpop : g.populate rows r = setBit (WideAdd.loop (rows r) x y g.cin g.zOut (rows (r / 32) k.idx (r % 32)) (rows r)).1
      g.finalCarryOut (WideAdd.loop (rows r) x y g.cin g.zOut (rows (r / 32) k.idx (r % 32)) (rows r)).2 := by
    rw [WideAdd.populate, g1, g2, g3, hk]
  rw [← hpop] at c1 c2 c3
  have hw0 := (frame (Tw := Tw) ht fun i hi pos => c1 i hi pos).2 hw
  have hr := c3 (some k) fun q hq => by injection hq with hq; rw [← hq]; exact hkt.lt
  rw [h4.holds ht, hk, hr]
  constructor
  · rintro ⟨-, h⟩; exact h hn k rfl
  · intro h
    refine ⟨hw0, fun _ q hq => ?_⟩
    injection hq with hq; rw [← hq]; exact h

/-- **C43.** `Incr`: `new` does not panic; in every row that satisfies the table `zout` and the final carry are the
input plus one; `populate` satisfies the table. -/
theorem C43_incr (Tw : Tower F) {t : Table F} (ht : WellFormed t) {n : Nat} (hn : 0 < n) {x : List Col}
    (hxl : x.length = n) (hx : ∀ c ∈ x, t.Has c 0 0) :
    ∃ g t', Incr.new t n x = some (g, t') ∧ WellFormed t' ∧ g.zout.length = n ∧ (∀ c ∈ g.zout, t'.Has c 0 0) ∧
      t'.Has g.finalCarryOut 0 0 ∧
      (∀ w, RowHolds Tw t' w → RowHolds Tw t w ∧
        wide w g.zout + 2 ^ n * bit (w g.finalCarryOut.idx 0) = wide w x + 1) ∧
      ∀ w, RowHolds Tw t w → RowHolds Tw t' (g.populate w) ∧
        ∀ i < t.columns.length, ∀ pos, g.populate w i pos = w i pos := by
  have hX := hasAll_of hxl hx
  obtain ⟨g, t', h1, g1, g4, g5, h2, g6, h3, g7, -, h4⟩ := Incr_new_ok Tw ht hX
  refine ⟨g, t', h1, h4.wf ht, h2.length, fun c hc => h2.mem hc, h3, fun w hw => ?_, fun w hw => ?_⟩
  · obtain ⟨hw0, hr⟩ := (h4.holds ht w).1 hw
    exact ⟨hw0, incr_sound hr hn hxl h2.length fun j hj => hX.isBit hw0 hj⟩
  · obtain ⟨c1, c2⟩ := incr_complete (F := F) rfl ⟨g4, h2.length, g5, g6, g7⟩ hX (w := w) (fun j hj => hX.isBit hw hj) rfl
    have hpop : g.populate w = setBit (Incr.loop w x g.cin g.zout 1 w).1 g.finalCarryOut (Incr.loop w x g.cin g.zout 1 w).2 := by
      rw [Incr.populate, g1]
    rw [← hpop] at c1 c2
    exact ⟨(h4.holds ht _).2 ⟨(frame (Tw := Tw) ht fun i hi pos => c1 i hi pos).2 hw, c2⟩, c1⟩

/-- The hypotheses of the theorems above are met by 64-bit operands with a carry in; and the rows of a table may
have different carries in, so that `populate` fails (`C43_wide_add_populate_carry`): here row 1 has a carry in, and
bit 1 of the cell of row 0 is not set. -/
example : ∃ (t : Table (Field.T 7)) (x y : List Col) (k : Col) (rows : Nat → Row (Field.T 7)), WellFormed t ∧ x.length = 64 ∧
    (∀ c ∈ x, t.Has c 0 0) ∧ y.length = 64 ∧ (∀ c ∈ y, t.Has c 0 0) ∧ t.Has k 0 5 ∧ (∀ r, RowHolds tower128 t (rows r)) ∧
    rows (1 / 32) k.idx (1 % 32) ≠ rows 1 k.idx 0 := by
  have hw := wellFormed_new (F := Field.T 7)
  obtain ⟨x, t1, a1, a2, a3⟩ := addCommittedMultiple_ok tower128 hw 0 0 64
  obtain ⟨y, t2, b1, b2, b3⟩ := addCommittedMultiple_ok tower128 (a3.wf hw) 0 0 64
  obtain ⟨k, t3, c1, c2, c3⟩ := addCommitted_ok tower128 t2 0 5
  have h := (a3.trans b3).trans c3
  refine ⟨t3, x, y, k, fun r i pos => if r = 1 ∧ pos = 0 then 1 else 0, h.wf hw, a2.length,
    fun c hc => (a2.has hc).ext (b3.ext.trans c3.ext), b2.length, fun c hc => (b2.has hc).ext c3.ext, c2.has, fun r => ?_, ?_⟩
  · have hb : ∀ i pos, tower128.sub 0 ((fun i pos => if r = 1 ∧ pos = 0 then 1 else 0 : Row (Field.T 7)) i pos) := by
      intro i pos
      dsimp only
      split
      · exact sub_of_isBit isBit_one
      · exact sub_of_isBit isBit_zero
    exact (h.holds hw _).2 ⟨rowHolds_new _ _, ⟨⟨fun c _ pos _ => hb c.idx pos, fun c _ pos _ => hb c.idx pos⟩, fun pos _ => hb k.idx pos⟩⟩
  · norm_num

/-- **C44.** `WideSub`.  The property asks that in every row that satisfies the table `zout` and the final borrow be the
difference of the operands and the borrow in.  What is missing: nothing constrains the borrows
(`C44_wide_sub_unsound`), so that only the first bit of the output is right.  What `populate` makes is right: without a
borrow in it satisfies the table, and the output is the difference. -/
theorem C44_wide_sub_partial (Tw : Tower F) {t : Table F} (ht : WellFormed t) {n : Nat} (hn : 0 < n) {x y : List Col}
    (hxl : x.length = n) (hx : ∀ c ∈ x, t.Has c 0 0) (hyl : y.length = n) (hy : ∀ c ∈ y, t.Has c 0 0)
    {flags : U32SubFlags} (hk : flags.borrowInBit = none) :
    ∃ g t', WideSub.new t n x y flags = some (g, t') ∧ WellFormed t' ∧ g.zout.length = n ∧ (∀ c ∈ g.zout, t'.Has c 0 0) ∧
      g.finalBorrow.isSome = flags.exposeFinalBorrow ∧ (∀ f, g.finalBorrow = some f → t'.Has f 0 0) ∧
      (∀ w, RowHolds Tw t' w → RowHolds Tw t w ∧
        ∀ x0 y0 z0, x[0]? = some x0 → y[0]? = some y0 → g.zout[0]? = some z0 → w z0.idx 0 = w x0.idx 0 + w y0.idx 0) ∧
      ∀ w, RowHolds Tw t w → RowHolds Tw t' (g.populate w) ∧
        (∀ i < t.columns.length, ∀ pos, g.populate w i pos = w i pos) ∧
        ∃ borrow ≤ 1, wide w x + 2 ^ n * borrow = wide w y + wide (g.populate w) g.zout ∧
          ∀ f, g.finalBorrow = some f → bit (g.populate w f.idx 0) = borrow := by
  have hX := hasAll_of hxl hx
  have hY := hasAll_of hyl hy
  obtain ⟨g, t', h1, g1, g2, g3, g4, g5, g6, h2, g7, g8, -, h4⟩ := WideSub_new_ok Tw ht hn hX hY (flags := flags)
    fun c hc => by rw [hk] at hc; cases hc
  obtain ⟨bl, hbl, hblh⟩ := g4.get (j := n - 1) (by omega)
  refine ⟨g, t', h1, h4.wf ht, h2.length, fun c hc => h2.mem hc, ?_, fun f hf => ?_, fun w hw => ?_, fun w hw => ?_⟩
  · rw [g8, hbl]; cases flags.exposeFinalBorrow <;> rfl
  · rw [g8] at hf
    split at hf
    · exact g4.has _ f hf
    · cases hf
  · obtain ⟨hw0, hr⟩ := (h4.holds ht w).1 hw
    refine ⟨hw0, fun x0 y0 z0 ex ey ez => ?_⟩
    have := hr.sum 0 hn
    rw [val_get ex, val_get ey, val_get ez, val_cons_zero, hr.first, hk] at this
    simpa [optVal] using this
  · have hxb : ∀ j < n, IsBit (val w x j) := fun j hj => hX.isBit hw hj
    have hyb : ∀ j < n, IsBit (val w y j) := fun j hj => hY.isBit hw hj
    have hpop : g.populate w = writes g.zout g.bout
        (fun j => val w x j + val w y j + subChain (val w x) (val w y) 0 j)
        (fun j => subChain (val w x) (val w y) 0 (j + 1)) (setBit w g.bin 0) := by
      rw [WideSub.populate, g1, g2, g3, hk]
      exact wideSub_loop hxl hyl g4.length h2.length hxb hyb isBit_zero
    obtain ⟨c1, c2, c3, c4⟩ := wideSub_complete hn rfl ⟨g4.length, h2.length, g5, g6, g7⟩ hX hY
      (b := subChain (val w x) (val w y) 0) (fun j hj => subChain_isBit hxb hyb isBit_zero (by omega))
      (fun i hi pos => by rw [setBit, if_neg (by omega)]) hpop (by rw [setBit, if_pos ⟨rfl, rfl⟩]; rfl)
    have hr := (c4 none fun q hq => (by cases hq)).2 rfl
    have hs := (sub_chain (n := n) (b := subChain (val w x) (val w y) 0) hxb hyb isBit_zero fun _ _ => rfl).2
    refine ⟨(h4.holds ht _).2 ⟨(frame (Tw := Tw) ht fun i hi pos => c1 i hi pos).2 hw, hk ▸ hr⟩, c1,
      bit (subChain (val w x) (val w y) 0 n), bit_le _, ?_, fun f hf => ?_⟩
    · rw [wide_eq, wide_eq, wide_eq, hxl, hyl, h2.length, hs]
      rw [show subChain (val w x) (val w y) 0 0 = 0 from rfl, bit_zero, Nat.add_zero]
      congr 2
      exact List.map_congr_left fun j hj => (c3 j (List.mem_range.1 hj)).symm
    · rw [g8] at hf
      split at hf
      · have := c2 (n - 1) (by omega)
        rw [val_get hf, show n - 1 + 1 = n by omega] at this
        rw [this]
      · cases hf

/-- **C44** fails: whatever bits are asked for after the first, every row of the table before extends to one that
satisfies the table after and has them in its output, with either final borrow. -/
theorem C44_wide_sub_unsound (Tw : Tower F) {t : Table F} (ht : WellFormed t) {n : Nat} (hn : 0 < n) {x y : List Col}
    (hxl : x.length = n) (hx : ∀ c ∈ x, t.Has c 0 0) (hyl : y.length = n) (hy : ∀ c ∈ y, t.Has c 0 0)
    {flags : U32SubFlags} (hf : ∀ c, flags.borrowInBit = some c → t.Has c 0 5) :
    ∃ g t', WideSub.new t n x y flags = some (g, t') ∧
      ∀ w, RowHolds Tw t w → ∀ (v : Nat → Bool) (borrow : Bool), ∃ w', RowHolds Tw t' w' ∧
        (∀ i < t.columns.length, ∀ pos, w' i pos = w i pos) ∧
        (∀ (j : Nat) (z : Col), 0 < j → g.zout[j]? = some z → w' z.idx 0 = ofBit (v j)) ∧
        ∀ f, g.finalBorrow = some f → w' f.idx 0 = ofBit borrow := by
  have hX := hasAll_of hxl hx
  have hY := hasAll_of hyl hy
  obtain ⟨g, t', h1, g1, g2, g3, g4, g5, g6, h2, g7, g8, -, h4⟩ := WideSub_new_ok Tw ht hn hX hY (flags := flags) hf
  refine ⟨g, t', h1, fun w hw v borrow => ?_⟩
  have hxb : ∀ j < n, IsBit (val w x j) := fun j hj => hX.isBit hw hj
  have hyb : ∀ j < n, IsBit (val w y j) := fun j hj => hY.isBit hw hj
  set b : Nat → F := fun j => if j = 0 then optVal w flags.borrowInBit 0 else
    if j < n then val w x j + val w y j + ofBit (v j) else ofBit borrow with hbdef
  obtain ⟨c1, c2, c3, c4⟩ := wideSub_complete hn rfl ⟨g4.length, h2.length, g5, g6, g7⟩ hX hY (w := w) (b := b)
    (fun j hj => by
      rw [hbdef]; dsimp only
      rw [if_neg (by omega)]
      split
      · rename_i h; exact isBit_add (isBit_add (hxb _ h) (hyb _ h)) (ofBit_isBit _)
      · exact ofBit_isBit _)
    (acc := setBit w g.bin (b 0)) (fun i hi pos => by rw [setBit, if_neg (by omega)]) rfl (by rw [setBit, if_pos ⟨rfl, rfl⟩])
  have hr := (c4 flags.borrowInBit fun q hq => (hf q hq).lt).2 rfl
  refine ⟨_, (h4.holds ht _).2 ⟨(frame (Tw := Tw) ht fun i hi pos => c1 i hi pos).2 hw, hr⟩, c1, fun j z hj hz => ?_,
    fun f hf' => ?_⟩
  · have hjn : j < n := by rw [← h2.length]; exact lt_of_get hz
    have := c3 j hjn
    rw [val_get hz] at this
    rw [this, hbdef]
    dsimp only
    rw [if_neg (by omega), if_pos hjn]
    linear_combination (val w x j + val w y j) * (two_zero (F := F))
  · rw [g8] at hf'
    split at hf'
    · have := c2 (n - 1) (by omega)
      rw [val_get hf'] at this
      rw [this, hbdef]
      dsimp only
      rw [if_neg (by omega), if_neg (by omega)]
    · cases hf'

/-- **C44** fails: with a borrow in, `populate` reads the column selected from it, which it does not fill, so that it
satisfies the table exactly when that column already holds the borrow. -/
theorem C44_wide_sub_populate_borrow (Tw : Tower F) {t : Table F} (ht : WellFormed t) {n : Nat} (hn : 0 < n)
    {x y : List Col} (hxl : x.length = n) (hx : ∀ c ∈ x, t.Has c 0 0) (hyl : y.length = n) (hy : ∀ c ∈ y, t.Has c 0 0)
    {flags : U32SubFlags} {k : Col} (hk : flags.borrowInBit = some k) (hkt : t.Has k 0 5) :
    ∃ g t', WideSub.new t n x y flags = some (g, t') ∧ ∀ w, RowHolds Tw t w → IsBit (w g.bin.idx 0) →
      (RowHolds Tw t' (g.populate w) ↔ w g.bin.idx 0 = w k.idx 0) := by
  have hX := hasAll_of hxl hx
  have hY := hasAll_of hyl hy
  obtain ⟨g, t', h1, g1, g2, g3, g4, g5, g6, h2, g7, g8, -, h4⟩ := WideSub_new_ok Tw ht hn hX hY (flags := flags)
    fun c hc => by rw [hk] at hc; injection hc with hc; rwa [← hc]
  refine ⟨g, t', h1, fun w hw hbin => ?_⟩
  have hxb : ∀ j < n, IsBit (val w x j) := fun j hj => hX.isBit hw hj
  have hyb : ∀ j < n, IsBit (val w y j) := fun j hj => hY.isBit hw hj
  have hpop : g.populate w = writes g.zout g.bout
      (fun j => val w x j + val w y j + subChain (val w x) (val w y) (w g.bin.idx 0) j)
      (fun j => subChain (val w x) (val w y) (w g.bin.idx 0) (j + 1)) w := by
    rw [WideSub.populate, g1, g2, g3, hk]
    exact wideSub_loop hxl hyl g4.length h2.length hxb hyb hbin
  obtain ⟨c1, c2, c3, c4⟩ := wideSub_complete hn rfl ⟨g4.length, h2.length, g5, g6, g7⟩ hX hY
    (b := subChain (val w x) (val w y) (w g.bin.idx 0)) (fun j hj => subChain_isBit hxb hyb hbin (by omega))
    (fun i hi pos => rfl) hpop rfl
  have hr := c4 (some k) fun q hq => by injection hq with hq; rw [← hq]; exact hkt.lt
  have hw0 := (frame (Tw := Tw) ht fun i hi pos => c1 i hi pos).2 hw
  rw [h4.holds ht, hk, hr]
  exact ⟨fun h => h.2, fun h => ⟨hw0, h⟩⟩

/-- The hypotheses are met: a row of 32-bit operands with a borrow in, before the column selected from it is filled. -/
example : ∃ (t : Table (Field.T 7)) (x y : List Col) (k : Col) (w : Row (Field.T 7)), WellFormed t ∧ x.length = 32 ∧
    (∀ c ∈ x, t.Has c 0 0) ∧ y.length = 32 ∧ (∀ c ∈ y, t.Has c 0 0) ∧ t.Has k 0 5 ∧ RowHolds tower128 t w ∧
    wide w x = 0 ∧ word w k 32 = 1 ∧ ∀ i, t.columns.length ≤ i → w i 0 = 0 := by
  have hw := wellFormed_new (F := Field.T 7)
  obtain ⟨x, t1, a1, a2, a3⟩ := addCommittedMultiple_ok tower128 hw 0 0 32
  obtain ⟨y, t2, b1, b2, b3⟩ := addCommittedMultiple_ok tower128 (a3.wf hw) 0 0 32
  obtain ⟨k, t3, c1, c2, c3⟩ := addCommitted_ok tower128 t2 0 5
  have h := (a3.trans b3).trans c3
  have hk : k.idx = 64 := by rw [c2.idx, b2.len, a2.len]; rfl
  refine ⟨t3, x, y, k, fun i pos => if i = 64 ∧ pos = 0 then 1 else 0, h.wf hw, a2.length,
    fun c hc => (a2.has hc).ext (b3.ext.trans c3.ext), b2.length, fun c hc => (b2.has hc).ext c3.ext, c2.has, ?_, ?_, ?_, ?_⟩
  · have hb : ∀ i pos, tower128.sub 0 ((fun i pos => if i = 64 ∧ pos = 0 then 1 else 0 : Row (Field.T 7)) i pos) := by
      intro i pos
      dsimp only
      split
      · exact sub_of_isBit isBit_one
      · exact sub_of_isBit isBit_zero
    exact (h.holds hw _).2 ⟨rowHolds_new _ _, ⟨⟨fun c _ pos _ => hb c.idx pos, fun c _ pos _ => hb c.idx pos⟩, fun pos _ => hb k.idx pos⟩⟩
  · have : x.map (fun c => (fun i pos => if i = 64 ∧ pos = 0 then 1 else 0 : Row (Field.T 7)) c.idx 0) =
        List.replicate 32 0 := by
      rw [List.eq_replicate_iff]
      refine ⟨by rw [List.length_map, a2.length], fun b hb => ?_⟩
      obtain ⟨c, hc, rfl⟩ := List.mem_map.1 hb
      obtain ⟨i, hi, rfl⟩ := List.getElem_of_mem hc
      have h1 := (a2.col i _ (List.getElem?_eq_getElem hi)).1
      have h2 : (Table.new (Field.T 7)).columns.length = 0 := rfl
      have h3 : i < 32 := by rw [← a2.length]; exact hi
      dsimp only
      rw [if_neg (by omega)]
    rw [wide, this]
    simp [List.replicate, num]
  · rw [word, hk]; simp [List.range, List.range.loop, num]
  · intro i hi
    have : t3.columns.length = 65 := by rw [c2.len, b2.len, a2.len]; rfl
    dsimp only
    rw [if_neg (by omega)]

end Verif.M3
