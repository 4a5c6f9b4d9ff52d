import Verif.M3.LemmasMul
import Verif.M3.PropsWide

/-! # C46: the multiplier of unsigned numbers -/

set_option linter.dupNamespace false
set_option linter.unusedSectionVars false

namespace Verif.M3

open Finset Verif.Arith

variable {F : Type} [Field F] [DecidableEq F] [CharP F 2]

/-- What a satisfying row says of the multiplier. -/
theorem mulRow_out {Tw : Tower F} {w : Row F} {level : Nat} {g : Mul} (hT : level + 1 ≤ Tw.height)
    (h : MulRow Tw w level g) (hxl : g.xInBits.length = 2 ^ level) (hyl : g.yInBits.length = 2 ^ level)
    (hll : g.outLowBits.length = 2 ^ level) (hhl : g.outHighBits.length = 2 ^ level)
    (hx : ∀ j < 2 ^ level, IsBit (val w g.xInBits j)) (hy : ∀ j < 2 ^ level, IsBit (val w g.yInBits j)) :
    wide w g.outLowBits = wide w g.xInBits * wide w g.yInBits % 2 ^ 2 ^ level ∧
    wide w g.outHighBits = wide w g.xInBits * wide w g.yInBits / 2 ^ 2 ^ level ∧
    w g.xin.idx 0 = element Tw.basis (2 ^ level) (wide w g.xInBits) ∧
    w g.yin.idx 0 = element Tw.basis (2 ^ level) (wide w g.yInBits) ∧
    w g.outLow.idx 0 = element Tw.basis (2 ^ level) (wide w g.outLowBits) ∧
    w g.outHigh.idx 0 = element Tw.basis (2 ^ level) (wide w g.outHighBits) := by
  have hs := mulRow_sound hT h hxl hyl hll hhl hx hy
  have hlt := wide_lt w hll
  refine ⟨?_, ?_, ?_, ?_, ?_, ?_⟩
  · rw [← hs, Nat.add_mul_mod_self_left, Nat.mod_eq_of_lt hlt]
  · rw [← hs, Nat.add_mul_div_left _ _ (Nat.two_pow_pos _), Nat.div_eq_of_lt hlt, Nat.zero_add]
  · rw [h.x, pack_element hxl hx]
  · rw [h.y, pack_element hyl hy]
  · rw [h.l, pack_element hll h.lo]
  · rw [h.h, pack_element hhl h.hi]

/-- **C46.** `Mul::with_inputs`, and so `MulUU32::with_inputs` and `MulUU64::with_inputs` (levels 5 and 6), on the columns
of the bits of two numbers: the constructor does not panic.  In every row that satisfies the table it makes, the output
bits are the low and the high half of the product of the two numbers, and the packed columns hold the inputs and the
halves.  In every row that satisfies the table before, `populate` with the two numbers, and the prover that fills the
powers, change none of the columns there were and satisfy the table after, as long as no column is used twice for the
inputs. -/
theorem C46_mul_with_inputs (Tw : Tower F) {t : Table F} (ht : WellFormed t) {level : Nat} (hlv : level = 5 ∨ level = 6)
    (hT : level + 1 ≤ Tw.height) {xs ys : List Col} (hxl : xs.length = 2 ^ level) (hyl : ys.length = 2 ^ level)
    (hx : ∀ c ∈ xs, t.Has c 0 0) (hy : ∀ c ∈ ys, t.Has c 0 0) :
    ∃ g t', Mul.withInputs Tw.basis (Tw.gen (level + 1)) t level xs ys = some (g, t') ∧ WellFormed t' ∧
      t'.Has g.xin level 0 ∧ t'.Has g.yin level 0 ∧ t'.Has g.outHigh level 0 ∧ t'.Has g.outLow level 0 ∧
      g.outLowBits.length = 2 ^ level ∧ g.outHighBits.length = 2 ^ level ∧
      (∀ w, RowHolds Tw t' w → RowHolds Tw t w ∧
        wide w g.outLowBits = wide w xs * wide w ys % 2 ^ 2 ^ level ∧
        wide w g.outHighBits = wide w xs * wide w ys / 2 ^ 2 ^ level ∧
        w g.xin.idx 0 = element Tw.basis (2 ^ level) (wide w xs) ∧
        w g.yin.idx 0 = element Tw.basis (2 ^ level) (wide w ys) ∧
        w g.outLow.idx 0 = element Tw.basis (2 ^ level) (wide w xs * wide w ys % 2 ^ 2 ^ level) ∧
        w g.outHigh.idx 0 = element Tw.basis (2 ^ level) (wide w xs * wide w ys / 2 ^ 2 ^ level)) ∧
      (((xs ++ ys).map Col.idx).Nodup → ∀ w, RowHolds Tw t w →
        ∃ w', g.populate Tw.basis level (wide w xs) (wide w ys) w = some w' ∧
          RowHolds Tw t' (g.fillExponents (Tw.gen (level + 1)) level w') ∧
          ∀ i < t.columns.length, ∀ pos, g.fillExponents (Tw.gen (level + 1)) level w' i pos = w i pos) ∧
      (¬ ((xs ++ ys).map Col.idx).Nodup → ∀ w x y, g.populate Tw.basis level x y w = none ∧
        g.populateWithInputs Tw.basis level x y w = none) := by
  have hxa := hasAll_of hxl hx
  have hya := hasAll_of hyl hy
  obtain ⟨g, t', h1, rfl, rfl, h4, -, h6, h7, h8, h9, h10, h11, h12⟩ := Mul_withInputs_ok Tw ht hlv hxa hya
  have hxL : ∀ c ∈ g.xInBits, c.idx < t.columns.length := fun c hc => (hx c hc).lt
  have hyL : ∀ c ∈ g.yInBits, c.idx < t.columns.length := fun c hc => (hy c hc).lt
  refine ⟨g, t', h1, h12.wf ht, h6, h7, h8, h9, h11.length, h10.length, fun w hw => ?_, fun hd w hw => ?_, fun hd w x y => ?_⟩
  · obtain ⟨hw0, hr⟩ := (h12.holds ht w).1 hw
    obtain ⟨o1, o2, o3, o4, o5, o6⟩ := mulRow_out hT hr hxl hyl h11.length h10.length (fun j hj => hxa.isBit hw0 hj)
      fun j hj => hya.isBit hw0 hj
    exact ⟨hw0, o1, o2, o3, o4, by rw [o5, o1], by rw [o6, o2]⟩
  · obtain ⟨w', p1, p2, -, p4, p5, p6, p7, p8, p9⟩ := mul_populate_vals h4 hxL hyL Tw.basis false (wide w g.xInBits)
      (wide w g.yInBits) w hd
    have hfr : ∀ i < t.columns.length, ∀ pos, w' i pos = w i pos := fun i hi pos =>
      p2 i (Or.inl hi) (fun h => absurd h (by simp)) pos
    have hfe : ∀ i < t.columns.length, ∀ pos, g.fillExponents (Tw.gen (level + 1)) level w' i pos = w i pos := fun i hi pos => by
      rw [fillExponents_ne h4 _ _ (by omega), hfr i hi]
    have hbit : ∀ {cs : List Col}, HasAll t cs (2 ^ level) → ∀ j < 2 ^ level, val w' cs j = ofBit ((wide w cs).testBit j) := by
      intro cs hcs j hj
      rw [hcs.val_congr hfr hj, wide_eq, hcs.length, ofBit_testBit (fun j hj => hcs.isBit hw hj) hj]
    refine ⟨w', p1, (h12.holds ht _).2 ⟨(frame ht hfe).2 hw, ?_⟩, hfe⟩
    exact mulRow_of_vals hT h4 hxL hyL hxl hyl (wide_lt w hxl) (wide_lt w hyl) (hbit hxa) (hbit hya) p4 p5 p6 p7 p8 p9
  · have := (mul_nodup h4 hxL hyL).not.2 hd
    rw [Mul.populate, Mul.populateWithInputs, Mul.populateInternal, Mul.populateInternal, if_neg this, if_neg this]
    exact ⟨rfl, rfl⟩

/-- The hypotheses are met by a table with the bits of two numbers, and a row where both are the largest. -/
example : 5 + 1 ≤ tower128.height ∧ 6 + 1 ≤ tower128.height ∧ ∃ (t : Table (Field.T 7)) (xs ys : List Col), WellFormed t ∧
    xs.length = 2 ^ 5 ∧ ys.length = 2 ^ 5 ∧ (∀ c ∈ xs, t.Has c 0 0) ∧ (∀ c ∈ ys, t.Has c 0 0) ∧ ((xs ++ ys).map Col.idx).Nodup ∧
    ∃ w : Row (Field.T 7), RowHolds tower128 t w ∧ wide w xs = 2 ^ 32 - 1 ∧ wide w ys = 2 ^ 32 - 1 := by
  refine ⟨by decide, by decide, ?_⟩
  obtain ⟨cs, t, h1, h2, h3, h4, h5⟩ := demo_table tower128 0 64 fun _ _ => true
  have hh : ∀ c ∈ cs, t.Has c 0 0 := fun c hc => by
    obtain ⟨k, hk, rfl⟩ := List.getElem_of_mem hc
    exact (h4 k _ (List.getElem?_eq_getElem hk)).2
  have hnd : (cs.map Col.idx).Nodup := nodup_range (a := 0) h2 fun k c hk => by rw [(h4 k c hk).1]; omega
  have hones : ∀ l : List Col, l.length = 32 → wide (fun _ _ => (ofBit true : Field.T 7)) l = 2 ^ 32 - 1 := by
    intro l hl
    have : (l.map fun _ => (ofBit true : Field.T 7)) = List.replicate 32 1 := by
      rw [List.map_const', hl]; rfl
    rw [wide, this]
    simp [List.replicate, num]
  exact ⟨t, cs.take 32, cs.drop 32, h3, by simp [h2], by simp [h2], fun c hc => hh c (List.mem_of_mem_take hc),
    fun c hc => hh c (List.mem_of_mem_drop hc), by rw [List.take_append_drop]; exact hnd, _, h5,
    hones _ (by simp [h2]), hones _ (by simp [h2])⟩

/-- **C46.** `Mul::new`, and so `MulUU32::new` and `MulUU64::new`: the constructor does not panic, and the gadget is sound.
`populate_with_inputs` with any two numbers, and the prover that fills the powers, satisfy the table and put the two
numbers in the columns of the inputs. -/
theorem C46_mul_new (Tw : Tower F) {t : Table F} (ht : WellFormed t) {level : Nat} (hlv : level = 5 ∨ level = 6)
    (hT : level + 1 ≤ Tw.height) :
    ∃ g t', Mul.new Tw.basis (Tw.gen (level + 1)) t level = some (g, t') ∧ WellFormed t' ∧
      t'.Has g.xin level 0 ∧ t'.Has g.yin level 0 ∧ t'.Has g.outHigh level 0 ∧ t'.Has g.outLow level 0 ∧
      (∀ w, RowHolds Tw t' w → RowHolds Tw t w ∧ ∃ x < 2 ^ 2 ^ level, ∃ y < 2 ^ 2 ^ level,
        wide w g.xInBits = x ∧ wide w g.yInBits = y ∧
        wide w g.outLowBits = x * y % 2 ^ 2 ^ level ∧ wide w g.outHighBits = x * y / 2 ^ 2 ^ level ∧
        w g.xin.idx 0 = element Tw.basis (2 ^ level) x ∧ w g.yin.idx 0 = element Tw.basis (2 ^ level) y ∧
        w g.outLow.idx 0 = element Tw.basis (2 ^ level) (x * y % 2 ^ 2 ^ level) ∧
        w g.outHigh.idx 0 = element Tw.basis (2 ^ level) (x * y / 2 ^ 2 ^ level)) ∧
      (∀ x < 2 ^ 2 ^ level, ∀ y < 2 ^ 2 ^ level, ∀ w, RowHolds Tw t w →
        ∃ w', g.populateWithInputs Tw.basis level x y w = some w' ∧
          RowHolds Tw t' (g.fillExponents (Tw.gen (level + 1)) level w') ∧
          wide (g.fillExponents (Tw.gen (level + 1)) level w') g.xInBits = x ∧
          wide (g.fillExponents (Tw.gen (level + 1)) level w') g.yInBits = y ∧
          ∀ i < t.columns.length, ∀ pos, g.fillExponents (Tw.gen (level + 1)) level w' i pos = w i pos) ∧
      ∀ x < 2 ^ 2 ^ level, ∀ y < 2 ^ 2 ^ level, ∀ w, ∃ w', g.populate Tw.basis level x y w = some w' ∧
        (RowHolds Tw t' (g.fillExponents (Tw.gen (level + 1)) level w') → wide w g.xInBits = x ∧ wide w g.yInBits = y) := by
  have hpos := Nat.two_pow_pos level
  obtain ⟨xs, t1, a1, a2, a3⟩ := addCommittedMultiple_ok Tw ht 0 0 (2 ^ level)
  obtain ⟨ys, t2, b1, b2, b3⟩ := addCommittedMultiple_ok Tw (a3.wf ht) 0 0 (2 ^ level)
  have ht2 := b3.wf (a3.wf ht)
  have hxa := a2.hasAll.ext b3.ext
  have hya := b2.hasAll
  obtain ⟨g, t', h1, rfl, rfl, h4, -, h6, h7, h8, h9, h10, h11, h12⟩ := Mul_withInputs_ok Tw ht2 hlv hxa hya
  have hxL : ∀ c ∈ g.xInBits, c.idx < t2.columns.length := fun c hc => (hxa.mem hc).lt
  have hyL : ∀ c ∈ g.yInBits, c.idx < t2.columns.length := fun c hc => (hya.mem hc).lt
  have hxi : ∀ c ∈ g.xInBits, t.columns.length ≤ c.idx ∧ c.idx < t.columns.length + 2 ^ level := fun c hc =>
    idx_range a2.length (fun k c hk => (a2.col k c hk).1) hc
  have hyi : ∀ c ∈ g.yInBits, t.columns.length + 2 ^ level ≤ c.idx := fun c hc => by
    have := idx_range b2.length (fun k c hk => (b2.col k c hk).1) hc
    rw [a2.len] at this
    exact this.1
  have hd : ((g.xInBits ++ g.yInBits).map Col.idx).Nodup := by
    rw [List.map_append, List.nodup_append]
    refine ⟨nodup_range a2.length fun k c hk => (a2.col k c hk).1, nodup_range b2.length fun k c hk => (b2.col k c hk).1,
      fun a ha b hb => ?_⟩
    obtain ⟨c, hc, rfl⟩ := List.mem_map.1 ha
    obtain ⟨d, hd, rfl⟩ := List.mem_map.1 hb
    have := hxi c hc
    have := hyi d hd
    omega
  have hlen2 : t.columns.length ≤ t2.columns.length := by rw [b2.len, a2.len]; omega
  have hold : ∀ c ∈ g.xInBits ++ g.yInBits, t.columns.length ≤ c.idx := by
    intro c hc
    rcases List.mem_append.1 hc with hc | hc
    · exact (hxi c hc).1
    · have := hyi c hc; omega
  refine ⟨g, t', ?_, h12.wf ht2, h6, h7, h8, h9, fun w hw => ?_, fun x hx y hy w hw => ?_, fun x hx y hy w => ?_⟩
  · rw [Mul.new, a1, Option.bind_some]
    dsimp only
    rw [b1, Option.bind_some]
    exact h1
  · obtain ⟨hw2, hr⟩ := (h12.holds ht2 w).1 hw
    obtain ⟨o1, o2, o3, o4, o5, o6⟩ := mulRow_out hT hr a2.length b2.length h11.length h10.length
      (fun j hj => hxa.isBit hw2 hj) fun j hj => hya.isBit hw2 hj
    exact ⟨((a3.trans b3).holds ht w).1 hw2 |>.1, _, wide_lt w a2.length, _, wide_lt w b2.length, rfl, rfl, o1, o2, o3, o4,
      by rw [o5, o1], by rw [o6, o2]⟩
  · obtain ⟨w', p1, p2, p3, p4, p5, p6, p7, p8, p9⟩ := mul_populate_vals h4 hxL hyL Tw.basis true x y w hd
    obtain ⟨px, py⟩ := p3 rfl
    rw [a2.length] at px
    rw [b2.length] at py
    have hfe : ∀ i < t.columns.length, ∀ pos, g.fillExponents (Tw.gen (level + 1)) level w' i pos = w i pos := fun i hi pos => by
      rw [fillExponents_ne h4 _ _ (by omega), p2 i (by omega) fun _ c hc => by have := hold c hc; omega]
    have nx : ∀ c ∈ g.xInBits, g.fillExponents (Tw.gen (level + 1)) level w' c.idx 0 = w' c.idx 0 := fun c hc =>
      fillExponents_ne h4 _ _ (by have := hxL c hc; omega) _
    have ny : ∀ c ∈ g.yInBits, g.fillExponents (Tw.gen (level + 1)) level w' c.idx 0 = w' c.idx 0 := fun c hc =>
      fillExponents_ne h4 _ _ (by have := hyL c hc; omega) _
    have vx : ∀ j < 2 ^ level, val (g.fillExponents (Tw.gen (level + 1)) level w') g.xInBits j = ofBit (x.testBit j) :=
      fun j hj => by rw [val_congr' nx, px j hj]
    have vy : ∀ j < 2 ^ level, val (g.fillExponents (Tw.gen (level + 1)) level w') g.yInBits j = ofBit (y.testBit j) :=
      fun j hj => by rw [val_congr' ny, py j hj]
    refine ⟨w', p1, (h12.holds ht2 _).2 ⟨((a3.trans b3).holds ht _).2 ⟨(frame ht hfe).2 hw, ?_, ?_⟩, ?_⟩,
      wide_of_bits a2.length hx vx, wide_of_bits b2.length hy vy, hfe⟩
    · rw [inField_all a2.length]
      intro j hj
      rw [vx j hj]; exact ofBit_isBit _
    · rw [inField_all b2.length]
      intro j hj
      rw [vy j hj]; exact ofBit_isBit _
    · exact mulRow_of_vals hT h4 hxL hyL a2.length b2.length hx hy px py p4 p5 p6 p7 p8 p9
  · obtain ⟨w', p1, p2, -, p4, p5, p6, p7, p8, p9⟩ := mul_populate_vals h4 hxL hyL Tw.basis false x y w hd
    refine ⟨w', p1, fun hw => ?_⟩
    obtain ⟨hw2, hr⟩ := (h12.holds ht2 _).1 hw
    obtain ⟨-, -, o3, o4, -, -⟩ := mulRow_out hT hr a2.length b2.length h11.length h10.length
      (fun j hj => hxa.isBit hw2 hj) fun j hj => hya.isBit hw2 hj
    have hfe : ∀ i < t2.columns.length, g.fillExponents (Tw.gen (level + 1)) level w' i 0 = w i 0 := fun i hi => by
      rw [fillExponents_ne h4 _ _ (by omega), p2 i (by omega) fun h => absurd h (by simp)]
    have l1 := h4.xin
    have l2 := h4.yin
    rw [fillExponents_ne h4 _ _ (by omega), p6, wide_congr' fun c hc => hfe _ (hxL c hc)] at o3
    rw [fillExponents_ne h4 _ _ (by omega), p7, wide_congr' fun c hc => hfe _ (hyL c hc)] at o4
    exact ⟨(element_inj (by omega) hx (wide_lt w a2.length) o3).symm, (element_inj (by omega) hy (wide_lt w b2.length) o4).symm⟩

/-- The hypotheses are met by the empty table. -/
example : WellFormed (Table.new (Field.T 7)) ∧ 6 + 1 ≤ tower128.height ∧ ∃ w : Row (Field.T 7), RowHolds tower128 (Table.new _) w :=
  ⟨wellFormed_new, by decide, fun _ _ => 0, rowHolds_new _ _⟩

/-- **C46.** A gadget whose two inputs are the same columns, to square a number, cannot be populated: `populate` and
`populate_with_inputs` return an error. -/
theorem C46_square_not_populated (Tw : Tower F) {t : Table F} (ht : WellFormed t) {level : Nat} (hlv : level = 5 ∨ level = 6)
    (hT : level + 1 ≤ Tw.height) {xs : List Col} (hxl : xs.length = 2 ^ level) (hx : ∀ c ∈ xs, t.Has c 0 0) :
    ∃ g t', Mul.withInputs Tw.basis (Tw.gen (level + 1)) t level xs xs = some (g, t') ∧
      ∀ w x y, g.populate Tw.basis level x y w = none ∧ g.populateWithInputs Tw.basis level x y w = none := by
  obtain ⟨g, t', h1, -, -, -, -, -, -, -, -, -, h⟩ := C46_mul_with_inputs Tw ht hlv hT hxl hxl hx hx
  refine ⟨g, t', h1, h ?_⟩
  rw [List.map_append, List.nodup_append]
  rintro ⟨-, -, h⟩
  obtain ⟨c, hc⟩ : ∃ c, c ∈ xs := List.exists_mem_of_length_pos (by rw [hxl]; exact Nat.two_pow_pos _)
  exact h _ (List.mem_map_of_mem hc) _ (List.mem_map_of_mem hc) rfl

/-- **C46.** What the documentation of `MulUU32::new` asks for, a call of `populate`, does not fill the columns of the
inputs: in a row where they are zero, the table is not satisfied for any two numbers but zero. -/
theorem C46_new_then_populate_fails (Tw : Tower F) {t : Table F} (ht : WellFormed t) {level : Nat} (hlv : level = 5 ∨ level = 6)
    (hT : level + 1 ≤ Tw.height) :
    ∃ g t', Mul.new Tw.basis (Tw.gen (level + 1)) t level = some (g, t') ∧
      ∀ x < 2 ^ 2 ^ level, ∀ y < 2 ^ 2 ^ level, x ≠ 0 ∨ y ≠ 0 → ∃ w', g.populate Tw.basis level x y (fun _ _ => 0) = some w' ∧
        ¬ RowHolds Tw t' (g.fillExponents (Tw.gen (level + 1)) level w') := by
  obtain ⟨g, t', h1, -, -, -, -, -, -, -, h⟩ := C46_mul_new Tw ht hlv hT
  refine ⟨g, t', h1, fun x hx y hy hxy => ?_⟩
  obtain ⟨w', p1, p2⟩ := h x hx y hy fun _ _ => 0
  refine ⟨w', p1, fun hw => ?_⟩
  have hz : ∀ cs : List Col, wide (fun _ _ => (0 : F)) cs = 0 := by
    intro cs
    rw [wide]
    induction cs with
    | nil => rfl
    | cons c cs ih => rw [List.map_cons, num, ih, bit_zero]
  obtain ⟨q1, q2⟩ := p2 hw
  rw [hz] at q1 q2
  omega

end Verif.M3
