import Verif.M3.LemmasMulSU
import Verif.M3.PropsWide

/-! # C48: the multipliers of signed numbers -/

set_option linter.dupNamespace false
set_option linter.unusedSectionVars false

namespace Verif.M3

open Finset Verif.Arith

variable {F : Type} [Field F] [DecidableEq F] [CharP F 2]

theorem twos_mul {a b : Nat} (h : a * b < 2 ^ 64) : twos 64 ((a : Int) * b) = a * b := by
  rw [twos]
  generalize hc : a * b = c at h
  rw [← Nat.cast_mul, hc]
  omega

/-- Rows that agree on the bits of the numbers of some columns, which the old row has as bits. -/
theorem agree_of_bits {Tw : Tower F} {t : Table F} {w u : Row F} (hw : RowHolds Tw t w) {cs : List Col} (hc : HasAll t cs 32)
    (h : Bits u cs 32 (wide w cs)) {c : Col} (hm : c ∈ cs) : u c.idx 0 = w c.idx 0 := by
  obtain ⟨j, hj, rfl⟩ := List.getElem_of_mem hm
  have hg := List.getElem?_eq_getElem hj
  have hj' : j < 32 := by rw [← hc.length]; exact hj
  rw [← val_get (w := u) hg, ← val_get (w := w) hg, h j hj',
    Bits.of_wide hc.length (fun j hj => hc.isBit hw hj) j hj']

/-- **C48, in part.** `MulSS32::with_input` on the columns of the bits of two numbers: the constructor does not panic.
In every row that satisfies the table it makes, the 33 low bits of the output are those of the signed product; if neither
number is negative, the output is the product; the packed columns hold the inputs and the two halves of the output.  In every
row that satisfies the table before, `populate_with_inputs` with the two numbers, and the prover that fills the powers,
change none of the columns there were, satisfy the table after, and the output is the signed product, in 64 bits.  If a
column is used twice for the inputs, `populate_with_inputs` returns an error.
What is missing, that all 64 bits of the output are those of the signed product, is false: `C48_mul_ss_unsound`. -/
theorem C48_mul_ss_with_input_partial (Tw : Tower F) (hT : 6 ≤ Tw.height) {t : Table F} (ht : WellFormed t) {xs ys : List Col}
    (hxl : xs.length = 32) (hyl : ys.length = 32) (hx : ∀ c ∈ xs, t.Has c 0 0) (hy : ∀ c ∈ ys, t.Has c 0 0) :
    ∃ g t', MulSS32.withInput Tw.basis (Tw.gen 6) t xs ys = some (g, t') ∧ WellFormed t' ∧
      t'.Has g.xin 5 0 ∧ t'.Has g.yin 5 0 ∧ t'.Has g.outHigh 5 0 ∧ t'.Has g.outLow 5 0 ∧ g.outBits.length = 64 ∧
      (∀ w, RowHolds Tw t' w → RowHolds Tw t w ∧
        wide w g.outBits % 2 ^ 33 = twos 64 (signed32 (wide w xs) * signed32 (wide w ys)) % 2 ^ 33 ∧
        (0 ≤ signed32 (wide w xs) → 0 ≤ signed32 (wide w ys) →
          wide w g.outBits = twos 64 (signed32 (wide w xs) * signed32 (wide w ys))) ∧
        w g.xin.idx 0 = element Tw.basis 32 (wide w xs) ∧ w g.yin.idx 0 = element Tw.basis 32 (wide w ys) ∧
        w g.outLow.idx 0 = element Tw.basis 32 (wide w g.outBits % 2 ^ 32) ∧
        w g.outHigh.idx 0 = element Tw.basis 32 (wide w g.outBits / 2 ^ 32)) ∧
      (((xs ++ ys).map Col.idx).Nodup → ∀ w, RowHolds Tw t w →
        ∃ w', g.populateWithInputs Tw.basis (wide w xs) (wide w ys) w = some w' ∧
          RowHolds Tw t' (g.mulInner.fillExponents (Tw.gen 6) 5 w') ∧
          wide (g.mulInner.fillExponents (Tw.gen 6) 5 w') g.outBits = twos 64 (signed32 (wide w xs) * signed32 (wide w ys)) ∧
          ∀ i < t.columns.length, ∀ pos, g.mulInner.fillExponents (Tw.gen 6) 5 w' i pos = w i pos) ∧
      (¬ ((xs ++ ys).map Col.idx).Nodup → ∀ w x y, g.populateWithInputs Tw.basis x y w = none) := by
  have hxa := hasAll_of hxl hx
  have hya := hasAll_of hyl hy
  obtain ⟨g, t', ohb, h1, rfl, rfl, h2, h3, -, h5⟩ := MulSS32_ok Tw ht hxa hya
  have hxL : ∀ c ∈ g.xInBits, c.idx < t.columns.length := fun c hc => (hx c hc).lt
  have hyL : ∀ c ∈ g.yInBits, c.idx < t.columns.length := fun c hc => (hy c hc).lt
  refine ⟨g, t', h1, h5.wf ht, h3.xin, h3.yin, h3.oh, h3.ol, ?_, fun w hw => ?_, fun hd w hw => ?_, fun hd w x y => ?_⟩
  · rw [h2.out, List.length_append, h3.lo.length, h3.hob.length]
  · obtain ⟨hw0, hr⟩ := (h5.holds ht w).1 hw
    obtain ⟨o1, -, o3, o4, o5, o6, o7⟩ := mulSS_sound hT h2 hr hxl hyl (fun j hj => hxa.isBit hw0 hj)
      fun j hj => hya.isBit hw0 hj
    refine ⟨hw0, o1, fun n1 n2 => ?_, o4, o5, o6, o7⟩
    have l1 := wide_lt w hxl
    have l2 := wide_lt w hyl
    have m1 : wide w g.xInBits < 2 ^ 31 := by
      by_contra h; rw [signed_of_ge h] at n1; omega
    have m2 : wide w g.yInBits < 2 ^ 31 := by
      by_contra h; rw [signed_of_ge h] at n2; omega
    have : wide w g.xInBits * wide w g.yInBits < 2 ^ 31 * 2 ^ 31 := Nat.mul_lt_mul'' m1 m2
    rw [o3 m1 m2, signed_of_lt m1, signed_of_lt m2, twos_mul (this.trans (by norm_num))]
  · obtain ⟨w', O, p1, p2, p3⟩ := mulSS_populate hT h2 h3 hxa hya hd (wide_lt w hxl) (wide_lt w hyl) w
    have hfr : ∀ i < t.columns.length, ∀ pos, g.mulInner.fillExponents (Tw.gen 6) 5 w' i pos = w i pos := by
      intro i hi pos
      by_cases h : pos = 0 → ∀ c ∈ g.xInBits ++ g.yInBits, i ≠ c.idx
      · exact p3.lt i hi pos h
      · push Not at h
        obtain ⟨rfl, c, hc, rfl⟩ := h
        rcases List.mem_append.1 hc with hc | hc
        · exact agree_of_bits hw hxa p3.bx hc
        · exact agree_of_bits hw hya p3.by' hc
    exact ⟨w', p1, (h5.holds ht _).2 ⟨(frame ht hfr).2 hw, p3.row⟩, by rw [p3.out, p2], hfr⟩
  · have := (mulSS_nodup h2 hxL hyL).not.2 hd
    rw [MulSS32.populateWithInputs, if_neg this]

/-- The hypotheses are met by a table with the bits of two numbers, and a row where both are negative. -/
example : 6 ≤ tower128.height ∧ ∃ (t : Table (Field.T 7)) (xs ys : List Col), WellFormed t ∧
    xs.length = 32 ∧ ys.length = 32 ∧ (∀ c ∈ xs, t.Has c 0 0) ∧ (∀ c ∈ ys, t.Has c 0 0) ∧ ((xs ++ ys).map Col.idx).Nodup ∧
    ∃ w : Row (Field.T 7), RowHolds tower128 t w ∧ signed32 (wide w xs) = -1 ∧ signed32 (wide w ys) = -1 := by
  refine ⟨by decide, ?_⟩
  obtain ⟨cs, t, h1, h2, h3, h4, h5⟩ := demo_table tower128 0 64 fun _ _ => true
  have hh : ∀ c ∈ cs, t.Has c 0 0 := fun c hc => by
    obtain ⟨k, hk, rfl⟩ := List.getElem_of_mem hc
    exact (h4 k _ (List.getElem?_eq_getElem hk)).2
  have hnd : (cs.map Col.idx).Nodup := nodup_range (a := 0) h2 fun k c hk => by rw [(h4 k c hk).1]; omega
  have hones : ∀ l : List Col, l.length = 32 → signed32 (wide (fun _ _ => (ofBit true : Field.T 7)) l) = -1 := by
    intro l hl
    have : (l.map fun _ => (ofBit true : Field.T 7)) = List.replicate 32 1 := by
      rw [List.map_const', hl]; rfl
    rw [wide, this]
    simp [List.replicate, num, signed32]
  exact ⟨t, cs.take 32, cs.drop 32, h3, by simp [h2], by simp [h2], fun c hc => hh c (List.mem_of_mem_take hc),
    fun c hc => hh c (List.mem_of_mem_drop hc), by rw [List.take_append_drop]; exact hnd, _, h5,
    hones _ (by simp [h2]), hones _ (by simp [h2])⟩

/-- Two lists of new columns. -/
theorem two_new (Tw : Tower F) {t : Table F} (ht : WellFormed t) : ∃ xs t1 ys t2, t.addCommittedMultiple 0 0 32 = some (xs, t1) ∧
    t1.addCommittedMultiple 0 0 32 = some (ys, t2) ∧ WellFormed t2 ∧ HasAll t2 xs 32 ∧ HasAll t2 ys 32 ∧
    ((xs ++ ys).map Col.idx).Nodup ∧ t.columns.length ≤ t2.columns.length ∧ (∀ c ∈ xs ++ ys, t.columns.length ≤ c.idx) ∧
    (∀ i < t2.columns.length, t.columns.length ≤ i → ∃ c ∈ xs ++ ys, i = c.idx) ∧
    Adds Tw t t2 fun w => (∀ j < 32, IsBit (val w xs j)) ∧ ∀ j < 32, IsBit (val w ys j) := by
  obtain ⟨xs, t1, a1, a2, a3⟩ := addCommittedMultiple_ok Tw ht 0 0 32
  obtain ⟨ys, t2, b1, b2, b3⟩ := addCommittedMultiple_ok Tw (a3.wf ht) 0 0 32
  have hxi : ∀ c ∈ xs, t.columns.length ≤ c.idx ∧ c.idx < t.columns.length + 32 := fun c hc =>
    idx_range a2.length (fun k c hk => (a2.col k c hk).1) hc
  have hyi : ∀ c ∈ ys, t.columns.length + 32 ≤ c.idx := fun c hc => by
    have := idx_range b2.length (fun k c hk => (b2.col k c hk).1) hc
    rw [a2.len] at this
    exact this.1
  refine ⟨xs, t1, ys, t2, a1, b1, b3.wf (a3.wf ht), a2.hasAll.ext b3.ext, b2.hasAll, ?_, ?_, ?_, ?_, ?_⟩
  · rw [List.map_append, List.nodup_append]
    refine ⟨nodup_range a2.length fun k c hk => (a2.col k c hk).1, nodup_range b2.length fun k c hk => (b2.col k c hk).1,
      fun a ha b hb => ?_⟩
    obtain ⟨c, hc, rfl⟩ := List.mem_map.1 ha
    obtain ⟨d, hd, rfl⟩ := List.mem_map.1 hb
    have := hxi c hc
    have := hyi d hd
    omega
  · rw [b2.len, a2.len]; omega
  · intro c hc
    rcases List.mem_append.1 hc with hc | hc
    · exact (hxi c hc).1
    · have := hyi c hc; omega
  · intro i hi hi0
    rw [b2.len, a2.len] at hi
    by_cases h : i < t.columns.length + 32
    · obtain ⟨c, hc, -⟩ := a2.hasAll.get (j := i - t.columns.length) (by omega)
      exact ⟨c, List.mem_append_left _ (List.mem_of_getElem? hc), by rw [(a2.col _ c hc).1]; omega⟩
    · obtain ⟨c, hc, -⟩ := b2.hasAll.get (j := i - (t.columns.length + 32)) (by omega)
      exact ⟨c, List.mem_append_right _ (List.mem_of_getElem? hc), by rw [(b2.col _ c hc).1, a2.len]; omega⟩
  · refine (a3.trans b3).congr fun w _ => ?_
    rw [inField_all (Tw := Tw) a2.length, inField_all (Tw := Tw) b2.length]

/-- **C48, in part.** `MulSS32::new`: the constructor does not panic, and every satisfying row has the 33 low bits of the
signed product, or all of it if neither number is negative.  `populate_with_inputs` with any two numbers, and the prover
that fills the powers, satisfy the table, with the numbers in the input columns and their signed product in the output.
What is missing, that all 64 bits are right in every satisfying row, is false: `C48_mul_ss_unsound`. -/
theorem C48_mul_ss_new_partial (Tw : Tower F) (hT : 6 ≤ Tw.height) {t : Table F} (ht : WellFormed t) :
    ∃ g t', MulSS32.new Tw.basis (Tw.gen 6) t = some (g, t') ∧ WellFormed t' ∧
      t'.Has g.xin 5 0 ∧ t'.Has g.yin 5 0 ∧ t'.Has g.outHigh 5 0 ∧ t'.Has g.outLow 5 0 ∧
      g.xInBits.length = 32 ∧ g.yInBits.length = 32 ∧ g.outBits.length = 64 ∧
      (∀ w, RowHolds Tw t' w → RowHolds Tw t w ∧
        wide w g.outBits % 2 ^ 33 = twos 64 (signed32 (wide w g.xInBits) * signed32 (wide w g.yInBits)) % 2 ^ 33 ∧
        (0 ≤ signed32 (wide w g.xInBits) → 0 ≤ signed32 (wide w g.yInBits) →
          wide w g.outBits = twos 64 (signed32 (wide w g.xInBits) * signed32 (wide w g.yInBits))) ∧
        w g.xin.idx 0 = element Tw.basis 32 (wide w g.xInBits) ∧ w g.yin.idx 0 = element Tw.basis 32 (wide w g.yInBits) ∧
        w g.outLow.idx 0 = element Tw.basis 32 (wide w g.outBits % 2 ^ 32) ∧
        w g.outHigh.idx 0 = element Tw.basis 32 (wide w g.outBits / 2 ^ 32)) ∧
      ∀ x < 2 ^ 32, ∀ y < 2 ^ 32, ∀ w, RowHolds Tw t w →
        ∃ w', g.populateWithInputs Tw.basis x y w = some w' ∧
          RowHolds Tw t' (g.mulInner.fillExponents (Tw.gen 6) 5 w') ∧
          wide (g.mulInner.fillExponents (Tw.gen 6) 5 w') g.xInBits = x ∧
          wide (g.mulInner.fillExponents (Tw.gen 6) 5 w') g.yInBits = y ∧
          wide (g.mulInner.fillExponents (Tw.gen 6) 5 w') g.outBits = twos 64 (signed32 x * signed32 y) ∧
          ∀ i < t.columns.length, ∀ pos, g.mulInner.fillExponents (Tw.gen 6) 5 w' i pos = w i pos := by
  obtain ⟨xs, t1, ys, t2, a1, a2, a3, a4, a5, a6, a7, a8, -, a9⟩ := two_new Tw ht
  obtain ⟨g, t', h1, h2, h3, h4, h5, h6, h7, h8, -, -⟩ := C48_mul_ss_with_input_partial Tw hT a3 a4.length a5.length
    (fun c hc => a4.mem hc) fun c hc => a5.mem hc
  obtain ⟨g', t'', ohb, k1, rfl, rfl, k2, k3, -, k5⟩ := MulSS32_ok Tw a3 a4 a5
  rw [h1] at k1
  obtain ⟨rfl, rfl⟩ := Prod.mk.inj (Option.some.inj k1)
  refine ⟨g, t', ?_, h2, h3, h4, h5, h6, a4.length, a5.length, h7, fun w hw => ?_, fun x hx y hy w hw => ?_⟩
  · rw [MulSS32.new, a1, Option.bind_some]
    dsimp only
    rw [a2, Option.bind_some]
    exact h1
  · obtain ⟨o1, o2⟩ := h8 w hw
    exact ⟨((a9.holds ht w).1 o1).1, o2⟩
  · obtain ⟨w', O, p1, p2, p3⟩ := mulSS_populate hT k2 k3 a4 a5 a6 hx hy w
    have hfr : ∀ i < t.columns.length, ∀ pos, g.mulInner.fillExponents (Tw.gen 6) 5 w' i pos = w i pos := fun i hi pos =>
      p3.lt i (by omega) pos fun _ c hc => by have := a8 c hc; omega
    exact ⟨w', p1, (k5.holds a3 _).2 ⟨(a9.holds ht _).2 ⟨(frame ht hfr).2 hw, p3.bx.isBit, p3.by'.isBit⟩, p3.row⟩,
      p3.bx.wide a4.length hx, p3.by'.wide a5.length hy, by rw [p3.out, p2], hfr⟩

/-- The hypotheses are met by the empty table. -/
example : WellFormed (Table.new (Field.T 7)) ∧ 6 ≤ tower128.height ∧ ∃ w : Row (Field.T 7), RowHolds tower128 (Table.new _) w :=
  ⟨wellFormed_new, by decide, fun _ _ => 0, rowHolds_new _ _⟩

/-- **C48 is false of `MulSS32`.** If one of the two numbers is negative, the constraints leave the high 31 bits of the
output free: for every output with the 33 right low bits there is a row that satisfies them. -/
theorem C48_mul_ss_unsound (Tw : Tower F) (hT : 6 ≤ Tw.height) {t : Table F} (ht : WellFormed t) {w : Row F} (hw : RowHolds Tw t w) :
    ∃ g t', MulSS32.new Tw.basis (Tw.gen 6) t = some (g, t') ∧
      ∀ x < 2 ^ 32, ∀ y < 2 ^ 32, signed32 x < 0 ∨ signed32 y < 0 → ∀ out < 2 ^ 64,
        out % 2 ^ 33 = twos 64 (signed32 x * signed32 y) % 2 ^ 33 →
        ∃ u, RowHolds Tw t' u ∧ wide u g.xInBits = x ∧ wide u g.yInBits = y ∧ wide u g.outBits = out ∧
          ∀ i < t.columns.length, ∀ pos, u i pos = w i pos := by
  obtain ⟨xs, t1, ys, t2, a1, a2, a3, a4, a5, a6, a7, a8, -, a9⟩ := two_new Tw ht
  obtain ⟨g, t', ohb, h1, rfl, rfl, h2, h3, -, h5⟩ := MulSS32_ok Tw a3 a4 a5
  refine ⟨g, t', ?_, fun x hx y hy hneg out hout hpar => ?_⟩
  · rw [MulSS32.new, a1, Option.bind_some]
    dsimp only
    rw [a2, Option.bind_some]
    exact h1
  · have hneg' : 2 ^ 31 ≤ x ∨ 2 ^ 31 ≤ y := by
      refine hneg.imp (fun h => ?_) fun h => ?_
      · by_contra h'; rw [signed_of_lt (by omega)] at h; omega
      · by_contra h'; rw [signed_of_lt (by omega)] at h; omega
    have e1 := (signed_mul hx hy rfl rfl).1
    have hlo : x * y % 2 ^ 32 = out % 2 ^ 32 := by
      rw [e1] at hpar
      have := Nat.mod_lt (x * y) (show 0 < 2 ^ 32 by norm_num)
      omega
    have hout' : x * y % 2 ^ 32 + 2 ^ 32 * (out / 2 ^ 32) = out := by omega
    obtain ⟨u, hu⟩ := mulSS_any hT h2 h3 a4 a5 a6 hx hy hneg' (O := out / 2 ^ 32) (by omega) (by rw [hout', hpar]) w
    have hfr : ∀ i < t.columns.length, ∀ pos, u i pos = w i pos := fun i hi pos =>
      hu.lt i (by omega) pos fun _ c hc => by have := a8 c hc; omega
    exact ⟨u, (h5.holds a3 _).2 ⟨(a9.holds ht _).2 ⟨(frame ht hfr).2 hw, hu.bx.isBit, hu.by'.isBit⟩, hu.row⟩,
      hu.bx.wide a4.length hx, hu.by'.wide a5.length hy, by rw [hu.out, hout'], hfr⟩

/-- For instance -1 times 1 can be 2^33 - 1 rather than -1. -/
example : signed32 (2 ^ 32 - 1) = -1 ∧ (2 ^ 33 - 1) % 2 ^ 33 = twos 64 (signed32 (2 ^ 32 - 1) * signed32 1) % 2 ^ 33 ∧
    (2 ^ 33 - 1 : Nat) ≠ twos 64 (signed32 (2 ^ 32 - 1) * signed32 1) := by
  decide +kernel

/-- **C48, in part.** `MulSU32::new`: the constructor does not panic, and in every satisfying row the 33 low bits of the
output are those of the product of the first number, signed, and the second, unsigned; all of them if the first is not
negative.  `populate_with_inputs` with any two numbers, and the prover that fills the powers, satisfy the table, with the
numbers in the input columns and the product in the output.
What is missing, that all 64 bits are right in every satisfying row, is false: `C48_mul_su_unsound`. -/
theorem C48_mul_su_partial (Tw : Tower F) (hT : 6 ≤ Tw.height) {t : Table F} (ht : WellFormed t) :
    ∃ g t', MulSU32.new Tw.basis (Tw.gen 6) t = some (g, t') ∧ WellFormed t' ∧
      t'.Has g.xin 5 0 ∧ t'.Has g.yin 5 0 ∧ t'.Has g.outHigh 5 0 ∧ t'.Has g.outLow 5 0 ∧
      g.xInBits.length = 32 ∧ g.yInBits.length = 32 ∧ g.outHighBits.length = 32 ∧
      (∀ w, RowHolds Tw t' w → RowHolds Tw t w ∧ ∃ lo < 2 ^ 32, ∃ hi < 2 ^ 32,
        (lo + 2 ^ 32 * hi) % 2 ^ 33 = twos 64 (signed32 (wide w g.xInBits) * wide w g.yInBits) % 2 ^ 33 ∧
        (0 ≤ signed32 (wide w g.xInBits) → lo + 2 ^ 32 * hi = twos 64 (signed32 (wide w g.xInBits) * wide w g.yInBits)) ∧
        w g.xin.idx 0 = element Tw.basis 32 (wide w g.xInBits) ∧ w g.yin.idx 0 = element Tw.basis 32 (wide w g.yInBits) ∧
        w g.outLow.idx 0 = element Tw.basis 32 lo ∧ w g.outHigh.idx 0 = element Tw.basis 32 hi ∧ wide w g.outHighBits = hi) ∧
      ∀ x y : Nat, x < 2 ^ 32 → y < 2 ^ 32 → ∀ w, RowHolds Tw t w →
        ∃ w', g.populateWithInputs Tw.basis x y w = some w' ∧
          RowHolds Tw t' (g.mulInner.fillExponents (Tw.gen 6) 5 w') ∧
          wide (g.mulInner.fillExponents (Tw.gen 6) 5 w') g.xInBits = x ∧
          wide (g.mulInner.fillExponents (Tw.gen 6) 5 w') g.yInBits = y ∧
          g.mulInner.fillExponents (Tw.gen 6) 5 w' g.outLow.idx 0 = element Tw.basis 32 (twos 64 (signed32 x * y) % 2 ^ 32) ∧
          g.mulInner.fillExponents (Tw.gen 6) 5 w' g.outHigh.idx 0 = element Tw.basis 32 (twos 64 (signed32 x * y) / 2 ^ 32) ∧
          ∀ i < t.columns.length, ∀ pos, g.mulInner.fillExponents (Tw.gen 6) 5 w' i pos = w i pos := by
  obtain ⟨g, t', L, h1, h2, ⟨h3, h4, h5, h6⟩, ⟨tm, k1, k2, k3⟩, h8⟩ := MulSU32_ok Tw ht
  refine ⟨g, t', h1, h8.wf ht, h3, h4, h5, h6, h2.xlen, h2.ylen, h2.olen, fun w hw => ?_, fun x y hx hy w hw => ?_⟩
  · obtain ⟨hw0, hr⟩ := (h8.holds ht w).1 hw
    obtain ⟨o1, o2, o3, o4, o5, o6, o7, o8⟩ := mulSU_sound hT h2 hr
    refine ⟨hw0, _, o2, _, o3, o1, fun n1 => ?_, o5, o6, o7, o8, rfl⟩
    have l1 := wide_lt w h2.xlen
    have l2 := wide_lt w h2.ylen
    have m1 : wide w g.xInBits < 2 ^ 31 := by
      by_contra h; rw [signed_of_ge h] at n1; omega
    have : wide w g.xInBits * wide w g.yInBits < 2 ^ 31 * 2 ^ 32 := Nat.mul_lt_mul'' m1 l2
    rw [o4 m1, signed_of_lt m1, twos_mul (this.trans (by norm_num))]
  · obtain ⟨e1, e2⟩ := su_mul (x := x) (y := y) hx hy (O := if 2 ^ 31 ≤ x then wrappingSub32 (x * y / 2 ^ 32) y else x * y / 2 ^ 32) rfl
    rw [MulSU32.populateWithInputs]
    set O := if 2 ^ 31 ≤ x then wrappingSub32 (x * y / 2 ^ 32) y else x * y / 2 ^ 32 with hO
    have hp : x * y / 2 ^ 32 < 2 ^ 32 := by
      rw [Nat.div_lt_iff_lt_mul (by norm_num)]; exact Nat.mul_lt_mul'' hx hy
    obtain ⟨w1, p1, p2, p3, p4⟩ := mulSU_build hT h2 hx hy e2 w
    rw [p1, Option.bind_some]
    have hs := subFill_populate (by norm_num) k1 h2.ys h2.yf (by rw [h2.yx]; exact k2) (by rw [h2.yy]; exact k3) hp hy
      (by rw [h2.yx]; exact p2) (by rw [h2.yy]; exact p3)
    have hf := p4 _ _ hs rfl
    have hr := (h8.holds ht _).2 ⟨(frame ht hf.lt).2 hw, hf.row⟩
    obtain ⟨-, -, -, -, -, -, q7, q8⟩ := mulSU_sound hT h2 hf.row
    have hlo := Nat.mod_lt (x * y) (show 0 < 2 ^ 32 by norm_num)
    refine ⟨_, rfl, hr, hf.bx, hf.by', ?_, ?_, hf.lt⟩
    · rw [q7, hf.lo, e1, Nat.add_mul_mod_self_left, Nat.mod_mod]
    · rw [q8, hf.hi, e1, Nat.add_mul_div_left _ _ (Nat.two_pow_pos _), Nat.div_eq_of_lt hlo, Nat.zero_add]

/-- The hypotheses are met by the empty table. -/
example : WellFormed (Table.new (Field.T 7)) ∧ 6 ≤ tower128.height ∧ ∃ w : Row (Field.T 7), RowHolds tower128 (Table.new _) w :=
  ⟨wellFormed_new, by decide, fun _ _ => 0, rowHolds_new _ _⟩

/-- **C48 is false of `MulSU32`.** If the first number is negative, the constraints leave the high 31 bits of the
output free: for every output with the 33 right low bits there is a row that satisfies them. -/
theorem C48_mul_su_unsound (Tw : Tower F) (hT : 6 ≤ Tw.height) {t : Table F} (ht : WellFormed t) {w : Row F} (hw : RowHolds Tw t w) :
    ∃ g t', MulSU32.new Tw.basis (Tw.gen 6) t = some (g, t') ∧
      ∀ x y : Nat, x < 2 ^ 32 → y < 2 ^ 32 → signed32 x < 0 → ∀ out < 2 ^ 64,
        out % 2 ^ 33 = twos 64 (signed32 x * y) % 2 ^ 33 →
        ∃ u, RowHolds Tw t' u ∧ wide u g.xInBits = x ∧ wide u g.yInBits = y ∧
          u g.outLow.idx 0 = element Tw.basis 32 (out % 2 ^ 32) ∧ u g.outHigh.idx 0 = element Tw.basis 32 (out / 2 ^ 32) ∧
          ∀ i < t.columns.length, ∀ pos, u i pos = w i pos := by
  obtain ⟨g, t', L, h1, h2, -, ⟨tm, k1, k2, k3⟩, h8⟩ := MulSU32_ok Tw ht
  refine ⟨g, t', h1, fun x y hx hy hneg out hout hpar => ?_⟩
  have hneg' : 2 ^ 31 ≤ x := by
    by_contra h'; rw [signed_of_lt (by omega)] at hneg; omega
  obtain ⟨e1, e2⟩ := su_mul (x := x) (y := y) hx hy (O := if 2 ^ 31 ≤ x then wrappingSub32 (x * y / 2 ^ 32) y else x * y / 2 ^ 32) rfl
  rw [if_pos hneg'] at e1 e2
  have hlo := Nat.mod_lt (x * y) (show 0 < 2 ^ 32 by norm_num)
  rw [e1] at hpar
  have hpx := wsub_parity (x * y / 2 ^ 32) y hy
  obtain ⟨w1, p1, p2, p3, p4⟩ := mulSU_build hT h2 hx hy (O := out / 2 ^ 32) (by omega) w
  obtain ⟨w2, hs⟩ := subFill_any (by norm_num) k1 h2.ys (by rw [h2.yx]; exact k2) (by rw [h2.yy]; exact k3)
    (by rw [h2.yx]; exact p2) (by rw [h2.yy]; exact p3) (Z := out / 2 ^ 32) (by omega)
  have hf := p4 _ _ hs (by rw [if_pos hneg'])
  obtain ⟨-, -, -, -, -, -, q7, q8⟩ := mulSU_sound hT h2 hf.row
  refine ⟨_, (h8.holds ht _).2 ⟨(frame ht hf.lt).2 hw, hf.row⟩, hf.bx, hf.by', ?_, ?_, hf.lt⟩
  · rw [q7, hf.lo, show x * y % 2 ^ 32 = out % 2 ^ 32 by omega]
  · rw [q8, hf.hi]

/-- For instance -1 times 1 can be 2^33 - 1 rather than -1. -/
example : signed32 (2 ^ 32 - 1) = -1 ∧ (2 ^ 33 - 1) % 2 ^ 33 = twos 64 (signed32 (2 ^ 32 - 1) * 1) % 2 ^ 33 ∧
    (2 ^ 33 - 1 : Nat) ≠ twos 64 (signed32 (2 ^ 32 - 1) * 1) := by
  decide +kernel

end Verif.M3
