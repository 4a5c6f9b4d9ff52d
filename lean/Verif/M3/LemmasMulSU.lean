import Verif.M3.LemmasSigned4

/-! Lemmas on the gadget that multiplies a signed and an unsigned number. -/

set_option linter.dupNamespace false
set_option linter.unusedSectionVars false

namespace Verif.M3

open Finset Verif.Arith

variable {F : Type} [Field F] [DecidableEq F] [CharP F 2]

structure MulSURow (Tw : Tower F) (w : Row F) (g : MulSU32) : Prop where
  bx : ∀ j < 32, IsBit (val w g.xInBits j)
  by' : ∀ j < 32, IsBit (val w g.yInBits j)
  fx : Tw.sub 5 (w g.xin.idx 0)
  x : w g.xin.idx 0 = ∑ j ∈ range 32, val w g.xInBits j * Tw.basis j
  fy : Tw.sub 5 (w g.yin.idx 0)
  y : w g.yin.idx 0 = ∑ j ∈ range 32, val w g.yInBits j * Tw.basis j
  mul : MulRow Tw w 5 g.mulInner
  ysub : WideSubRow w 32 g.mulInner.outHighBits g.yInBits g.ySub.bin g.ySub.bout g.ySub.zout none
  ob : ∀ j < 32, IsBit (val w g.outHighBits j)
  oh : ∀ j < 32, val w g.outHighBits j = val w g.mulInner.outHighBits j +
    val w g.xInBits 31 * (val w g.mulInner.outHighBits j + val w g.ySub.zout j)
  fh : Tw.sub 5 (w g.outHigh.idx 0)
  h : w g.outHigh.idx 0 = ∑ j ∈ range 32, val w g.outHighBits j * Tw.basis j
  fl : Tw.sub 5 (w g.outLow.idx 0)
  l : w g.outLow.idx 0 = ∑ j ∈ range 32, val w g.mulInner.outLowBits j * Tw.basis j

structure MulSULayout (L0 L : Nat) (g : MulSU32) : Prop where
  start : L = L0 + 64
  xlen : g.xInBits.length = 32
  xidx : ∀ (k : Nat) (c : Col), g.xInBits[k]? = some c → c.idx = L0 + k
  ylen : g.yInBits.length = 32
  yidx : ∀ (k : Nat) (c : Col), g.yInBits[k]? = some c → c.idx = L0 + 32 + k
  xin : g.xin.idx = L
  yin : g.yin.idx = L + 1
  mx : g.mulInner.xInBits = g.xInBits
  my : g.mulInner.yInBits = g.yInBits
  mul : MulLayout (L + 2) (2 ^ 5) g.mulInner
  yx : g.ySub.xin = g.mulInner.outHighBits
  yy : g.ySub.yin = g.yInBits
  yf : g.ySub.flags.borrowInBit = none
  ys : LayoutSub (L + 74) 32 g.ySub.bin g.ySub.bout g.ySub.zout
  olen : g.outHighBits.length = 32
  oidx : ∀ (k : Nat) (c : Col), g.outHighBits[k]? = some c → c.idx = L + 139 + k
  oh : g.outHigh.idx = L + 171
  ol : g.outLow.idx = L + 172

theorem MulSU32_ok (Tw : Tower F) {t : Table F} (ht : WellFormed t) :
    ∃ (g : MulSU32) (t' : Table F) (L : Nat), MulSU32.new Tw.basis (Tw.gen 6) t = some (g, t') ∧
      MulSULayout t.columns.length L g ∧
      (t'.Has g.xin 5 0 ∧ t'.Has g.yin 5 0 ∧ t'.Has g.outHigh 5 0 ∧ t'.Has g.outLow 5 0) ∧
      (∃ t1 : Table F, t1.columns.length = L + 74 ∧ HasAll t1 g.mulInner.outHighBits 32 ∧ HasAll t1 g.yInBits 32) ∧
      Adds Tw t t' fun w => MulSURow Tw w g := by
  obtain ⟨xs, s1, x1, x2, x3⟩ := addCommittedMultiple_ok Tw ht 0 0 32
  obtain ⟨ys, s2, y1, y2, y3⟩ := addCommittedMultiple_ok Tw (x3.wf ht) 0 0 32
  have ht2 := y3.wf (x3.wf ht)
  have hx := x2.hasAll.ext y3.ext
  have hy := y2.hasAll
  have l0 : s2.columns.length = t.columns.length + 64 := by rw [y2.len, x2.len]
  obtain ⟨xin, t1, a1, a2, a3⟩ := packColumn_ok Tw ht2 5 (by norm_num) hx
  obtain ⟨yin, t2, b1, b2, b3⟩ := packColumn_ok Tw (a3.wf ht2) 5 (by norm_num) (hy.ext a3.ext)
  have e2 := a3.ext.trans b3.ext
  have w2 := b3.wf (a3.wf ht2)
  have l2 : t2.columns.length = s2.columns.length + 2 := by rw [b2.len, a2.len]
  obtain ⟨x31, hx31, hxh⟩ := hx.get (j := 31) (by norm_num)
  obtain ⟨m, t3, c1, rfl, rfl, c4, c5, c6, c7, c8, c9, c10, c11, c12⟩ := Mul_withInputs_ok Tw w2 (level := 5) (Or.inl rfl)
    (xs := xs) (ys := ys) (hx.ext e2) (hy.ext e2)
  replace c10 : HasAll t3 m.outHighBits 32 := c10
  replace c11 : HasAll t3 m.outLowBits 32 := c11
  have e3 := e2.trans c12.ext
  have w3 := c12.wf w2
  have l3 : t3.columns.length = s2.columns.length + 74 := by rw [c5, l2]; omega
  obtain ⟨yb, t4, d1, d2, d3, d4, d5, d6, d7, d8, d9, d10, d11, d12⟩ := WideSub_new_ok Tw w3 (n := 32) (by norm_num)
    (flags := subFlags) c10 (hy.ext e3) (fun c hc => by cases hc)
  have e4 := e3.trans d12.ext
  have w4 := d12.wf w3
  have l4 : t4.columns.length = s2.columns.length + 139 := by rw [d11, l3]
  obtain ⟨ohb, t5, f1, f2, f3⟩ := select_ok Tw w4 (c10.ext d12.ext) d8 (hxh.ext e4)
  have w5 := f3.wf w4
  have l5 : t5.columns.length = s2.columns.length + 171 := by rw [f2.len, l4]
  obtain ⟨oh, t6, i1, i2, i3⟩ := packColumn_ok Tw w5 5 (by norm_num) f2.hasAll
  have hlo := c11.ext (d12.ext.trans (f3.ext.trans i3.ext))
  obtain ⟨ol, t7, j1, j2, j3⟩ := packColumn_ok Tw (i3.wf w5) 5 (by norm_num) hlo
  have l6 : t6.columns.length = s2.columns.length + 172 := by rw [i2.len, l5]
  have e29 := c12.ext.trans (d12.ext.trans (f3.ext.trans (i3.ext.trans j3.ext)))
  refine ⟨⟨m, m.xInBits, m.yInBits, ohb, yb, xin, yin, oh, ol⟩, t7, s2.columns.length, ?_, ?_, ?_, ⟨t3, l3, c10, hy.ext e3⟩, ?_⟩
  · rw [MulSU32.new, x1, Option.bind_some]
    dsimp only
    rw [y1, Option.bind_some]
    dsimp only
    rw [a1, Option.bind_some]
    dsimp only
    rw [b1, Option.bind_some]
    dsimp only
    rw [hx31, Option.bind_some, c1, Option.bind_some]
    dsimp only
    rw [d1, Option.bind_some]
    dsimp only
    rw [f1, Option.bind_some]
    dsimp only
    rw [i1, Option.bind_some]
    dsimp only
    rw [j1, Option.bind_some]
  · rw [l2] at c4
    refine ⟨l0, x2.length, fun k c hk => (x2.col k c hk).1, y2.length, fun k c hk => ?_, a2.idx, by rw [← a2.len]; exact b2.idx,
      rfl, rfl, c4, d2, d3, by show yb.flags.borrowInBit = none; rw [d4]; rfl,
      ⟨d5.length, d8.length, ?_, ?_, ?_⟩, f2.length, ?_, ?_, ?_⟩
    · rw [(y2.col k c hk).1, x2.len]
    · intro k d hk; rw [d6 k d hk, l3]
    · show yb.bin.idx = _; rw [d7, l3]
    · intro k d hk; rw [d9 k d hk, l3]
    · intro k c hk; rw [(f2.col k c hk).1, l4]
    · rw [i2.idx, l5]
    · rw [j2.idx, l6]
  · exact ⟨(a2.has.ext b3.ext).ext e29, b2.has.ext e29, i2.has.ext j3.ext, j2.has⟩
  · refine ((((((((x3.trans y3).trans a3).trans b3).trans c12).trans d12).trans f3).trans i3).trans j3).congr fun w hw => ?_
    rw [← val_get (w := w) hx31, inField_all (Tw := Tw) x2.length, inField_all (Tw := Tw) y2.length]
    constructor
    · rintro ⟨⟨⟨⟨⟨⟨⟨⟨q1, q2⟩, p1, p2⟩, p3, p4⟩, p5⟩, p6⟩, p10, p11⟩, p12, p13⟩, p14, p15⟩
      exact ⟨q1, q2, p1, p2, p3, p4, p5, p6, p10, p11, p12, p13, p14, p15⟩
    · intro h
      exact ⟨⟨⟨⟨⟨⟨⟨⟨h.bx, h.by'⟩, h.fx, h.x⟩, h.fy, h.y⟩, h.mul⟩, h.ysub⟩, h.ob, h.oh⟩, h.fh, h.h⟩, h.fl, h.l⟩

theorem su_mul {x y : Nat} (hx : x < 2 ^ 32) (hy : y < 2 ^ 32) {O : Nat}
    (hO : O = if 2 ^ 31 ≤ x then wrappingSub32 (x * y / 2 ^ 32) y else x * y / 2 ^ 32) :
    twos 64 (signed32 x * y) = x * y % 2 ^ 32 + 2 ^ 32 * O ∧ O < 2 ^ 32 := by
  have hp : x * y / 2 ^ 32 < 2 ^ 32 := by
    rw [Nat.div_lt_iff_lt_mul (by norm_num)]; exact Nat.mul_lt_mul'' hx hy
  have hxy : ((x * y : Nat) : Int) = (x * y % 2 ^ 32 : Nat) + 2 ^ 32 * (x * y / 2 ^ 32 : Nat) := by
    have := Nat.mod_add_div (x * y) (2 ^ 32)
    omega
  have hlo : x * y % 2 ^ 32 < 2 ^ 32 := Nat.mod_lt _ (by norm_num)
  generalize x * y / 2 ^ 32 = H at *
  generalize x * y % 2 ^ 32 = l at *
  push_cast at hxy
  have hOlt : O < 2 ^ 32 := by
    rw [hO]; split
    · exact wsub_lt _ _
    · exact hp
  refine ⟨?_, hOlt⟩
  by_cases h1 : x < 2 ^ 31
  · rw [if_neg (by omega)] at hO
    rw [signed_of_lt h1, hxy]
    exact twos_split hlo (by omega)
  · rw [if_pos (by omega)] at hO
    rw [signed_of_ge h1]
    rw [show ((x : Int) - 2 ^ 32) * y = l + 2 ^ 32 * (H - y) by linear_combination hxy]
    refine twos_split hlo ?_
    rw [hO, wsub_eq hp hy]

theorem mulSU_sound {Tw : Tower F} (hT : 6 ≤ Tw.height) {w : Row F} {L0 L : Nat} {g : MulSU32}
    (hl : MulSULayout L0 L g) (h : MulSURow Tw w g) :
    let out := wide w g.mulInner.outLowBits + 2 ^ 32 * wide w g.outHighBits
    out % 2 ^ 33 = twos 64 (signed32 (wide w g.xInBits) * wide w g.yInBits) % 2 ^ 33 ∧
    wide w g.mulInner.outLowBits < 2 ^ 32 ∧ wide w g.outHighBits < 2 ^ 32 ∧
    (wide w g.xInBits < 2 ^ 31 → out = wide w g.xInBits * wide w g.yInBits) ∧
    w g.xin.idx 0 = element Tw.basis 32 (wide w g.xInBits) ∧ w g.yin.idx 0 = element Tw.basis 32 (wide w g.yInBits) ∧
    w g.outLow.idx 0 = element Tw.basis 32 (wide w g.mulInner.outLowBits) ∧
    w g.outHigh.idx 0 = element Tw.basis 32 (wide w g.outHighBits) := by
  intro out
  have hml := hl.mul.llen
  have hmh := hl.mul.hlen
  have hs := mulRow_sound (level := 5) hT h.mul (by rw [hl.mx]; exact hl.xlen) (by rw [hl.my]; exact hl.ylen) hml hmh
    (fun j hj => by rw [hl.mx]; exact h.bx j hj) fun j hj => by rw [hl.my]; exact h.by' j hj
  rw [hl.mx, hl.my] at hs
  have lx := wide_lt w hl.xlen
  have ly := wide_lt w hl.ylen
  have ll := wide_lt w hml
  have lh := wide_lt w hmh
  have lo := wide_lt w hl.olen
  norm_num only at hs ll lh
  norm_num only at lo lx ly
  have hlo : wide w g.mulInner.outLowBits = wide w g.xInBits * wide w g.yInBits % 2 ^ 32 := by omega
  have hhi : wide w g.mulInner.outHighBits = wide w g.xInBits * wide w g.yInBits / 2 ^ 32 := by omega
  have bx := h.bx 31 (by norm_num)
  have tx := top_bit (w := w) (n := 31) hl.xlen
  refine ⟨?_, ll, lo, fun hx0 => ?_, ?_, ?_, ?_, ?_⟩
  · obtain ⟨e1, e2⟩ := su_mul (x := wide w g.xInBits) (y := wide w g.yInBits) lx ly rfl
    set O := if 2 ^ 31 ≤ wide w g.xInBits then wrappingSub32 (wide w g.xInBits * wide w g.yInBits / 2 ^ 32) (wide w g.yInBits) else
      wide w g.xInBits * wide w g.yInBits / 2 ^ 32 with hN
    have hOp : O % 2 = wide w g.outHighBits % 2 := by
      rw [wide_parity hl.olen (by norm_num), h.oh 0 (by norm_num), sub_first (by norm_num) h.ysub]
      have hb := h.mul.hi 0 (by norm_num)
      have p1 := wide_parity (w := w) hmh (by norm_num)
      have p2 := wide_parity (w := w) hl.ylen (by norm_num)
      rcases bx with hz | hz <;> rw [hz]
      · rw [hN, if_neg (by rw [← tx, hz]; exact zero_ne_one), ← hhi, p1, zero_mul, add_zero]
      · rw [hN, if_pos (by rw [← tx]; exact hz), wsub_parity _ _ ly, ← hhi, one_mul]
        rw [show val w g.mulInner.outHighBits 0 + (val w g.mulInner.outHighBits 0 + (val w g.mulInner.outHighBits 0 +
          val w g.yInBits 0)) = val w g.mulInner.outHighBits 0 + val w g.yInBits 0 by
            linear_combination (val w g.mulInner.outHighBits 0) * (two_zero (F := F)), bit_add hb (h.by' 0 (by norm_num)), ← p1, ← p2]
        omega
    show (wide w g.mulInner.outLowBits + 2 ^ 32 * wide w g.outHighBits) % 2 ^ 33 = _
    rw [e1, hlo]
    omega
  · have hsx := select_wide hmh hl.ys.zlen hl.olen bx h.oh
    rw [if_neg (by rw [tx]; omega)] at hsx
    show wide w g.mulInner.outLowBits + 2 ^ 32 * wide w g.outHighBits = _
    rw [hsx]
    omega
  · rw [h.x, pack_element hl.xlen h.bx]
  · rw [h.y, pack_element hl.ylen h.by']
  · rw [h.l, pack_element (n := 32) hml h.mul.lo]
  · rw [h.h, pack_element hl.olen h.ob]

structure MulSUFilled (Tw : Tower F) (L0 : Nat) (g : MulSU32) (x y O : Nat) (w u : Row F) : Prop where
  row : MulSURow Tw u g
  lt : ∀ i, i < L0 → ∀ pos, u i pos = w i pos
  bx : wide u g.xInBits = x
  by' : wide u g.yInBits = y
  lo : wide u g.mulInner.outLowBits = x * y % 2 ^ 32
  hi : wide u g.outHighBits = O

set_option maxHeartbeats 2000000 in
theorem mulSU_build {Tw : Tower F} (hT : 6 ≤ Tw.height) {L0 L : Nat} {g : MulSU32} (hl : MulSULayout L0 L g)
    {x y O : Nat} (hxn : x < 2 ^ 32) (hyn : y < 2 ^ 32) (hO : O < 2 ^ 32) (w : Row F) :
    ∃ w1, g.mulInner.populate Tw.basis 5 x y (g.fill Tw.basis x y (x * y % 2 ^ 32) O w) = some w1 ∧
      Bits w1 g.mulInner.outHighBits 32 (x * y / 2 ^ 32) ∧ Bits w1 g.yInBits 32 y ∧
      ∀ Zy w2, SubFill (L + 74) 32 g.ySub w1 w2 Zy → (O = if 2 ^ 31 ≤ x then Zy else x * y / 2 ^ 32) →
        MulSUFilled Tw L0 g x y O w (g.mulInner.fillExponents (Tw.gen 6) 5 w2) := by
  have h0 := hl.start
  have h1 := hl.xin
  have h2 := hl.yin
  have h3 := hl.ol
  have h4 := hl.oh
  have m1 := hl.mul.xin
  have m2 := hl.mul.yin
  have m3 := hl.mul.ol
  have m4 := hl.mul.oh
  norm_num only at m3 m4
  have rx : ∀ c ∈ g.xInBits, L0 ≤ c.idx ∧ c.idx < L0 + 32 := fun c hc => by
    have := idx_range hl.xlen hl.xidx hc; omega
  have ry : ∀ c ∈ g.yInBits, L0 + 32 ≤ c.idx ∧ c.idx < L0 + 64 := fun c hc => by
    have := idx_range hl.ylen hl.yidx hc; omega
  have rlo : ∀ c ∈ g.mulInner.outLowBits, L + 38 ≤ c.idx ∧ c.idx < L + 70 := fun c hc => by
    have := idx_range hl.mul.llen hl.mul.lo hc; norm_num only at this; omega
  have rhi : ∀ c ∈ g.mulInner.outHighBits, L + 6 ≤ c.idx ∧ c.idx < L + 38 := fun c hc => by
    have := idx_range hl.mul.hlen hl.mul.hi hc; norm_num only at this; omega
  have ro : ∀ c ∈ g.outHighBits, L + 139 ≤ c.idx ∧ c.idx < L + 171 := fun c hc => by
    have := idx_range hl.olen hl.oidx hc; omega
  have rby : ∀ c ∈ g.ySub.bout, L + 74 ≤ c.idx ∧ c.idx < L + 106 := fun c hc => by
    have := idx_range hl.ys.blen hl.ys.bidx hc; omega
  have rzy : ∀ c ∈ g.ySub.zout, L + 107 ≤ c.idx ∧ c.idx < L + 139 := fun c hc => by
    have := idx_range hl.ys.zlen hl.ys.zidx hc; omega
  have riy := hl.ys.iidx
  have hdx := nodup_range hl.xlen hl.xidx
  have hdy := nodup_range hl.ylen hl.yidx
  have hd : ((g.xInBits ++ g.yInBits).map Col.idx).Nodup := by
    rw [List.map_append, List.nodup_append]
    refine ⟨hdx, hdy, fun a ha b hb => ?_⟩
    obtain ⟨c, hc, rfl⟩ := List.mem_map.1 ha
    obtain ⟨d, hd, rfl⟩ := List.mem_map.1 hb
    have := rx c hc
    have := ry d hd
    omega
  set w0 := g.fill Tw.basis x y (x * y % 2 ^ 32) O w with hw0
  rw [MulSU32.fill] at hw0
  set a := setBit (setBit (setBit (setBit w g.xin (element Tw.basis 32 x)) g.yin (element Tw.basis 32 y)) g.outLow
    (element Tw.basis 32 (x * y % 2 ^ 32))) g.outHigh (element Tw.basis 32 O) with ha
  set b1 := setBits g.xInBits (fun j => ofBit (x.testBit j)) a with hb1
  set b := setBits g.yInBits (fun j => ofBit (y.testBit j)) b1 with hb
  have e1 : ∀ i, (i < L + 139 ∨ L + 171 ≤ i) → ∀ pos, w0 i pos = b i pos := fun i hi pos => by
    rw [hw0, setBits_ne fun c hc => (by have := ro c hc; omega)]
  have e2 : ∀ i, (i < L0 ∨ L0 + 64 ≤ i) → ∀ pos, b i pos = a i pos := fun i hi pos => by
    rw [hb, setBits_ne fun c hc => (by have := ry c hc; omega), hb1, setBits_ne fun c hc => (by have := rx c hc; omega)]
  have f3 : Bits w0 g.xInBits 32 x := (Bits.set hl.xlen hdx x a).congr fun c hc => by
    rw [e1 _ (by have := rx c hc; omega), hb, setBits_ne fun d hd => (by have := rx c hc; have := ry d hd; omega)]
  have f4 : Bits w0 g.yInBits 32 y := (Bits.set hl.ylen hdy y b1).congr fun c hc => by
    rw [e1 _ (by have := ry c hc; omega)]
  have f5 : Bits w0 g.outHighBits 32 O := by
    rw [hw0]; exact Bits.set hl.olen (nodup_range hl.olen hl.oidx) O b
  obtain ⟨w1, p1, p2, -, p4, p5, p6, p7, p8, p9⟩ := mul_populate_vals hl.mul
    (fun c hc => by rw [hl.mx] at hc; have := rx c hc; omega) (fun c hc => by rw [hl.my] at hc; have := ry c hc; omega) Tw.basis false x y w0
    (by rw [hl.mx, hl.my]; exact hd)
  have ne : ∀ i, (i < L + 2 ∨ L + 74 ≤ i) → ∀ pos, w1 i pos = w0 i pos := fun i hi pos =>
    p2 i (by norm_num only; omega) (fun h => (by cases h)) pos
  have f3' : Bits w1 g.xInBits 32 x := f3.congr fun c hc => ne _ (by have := rx c hc; omega) 0
  have f4' : Bits w1 g.yInBits 32 y := f4.congr fun c hc => ne _ (by have := ry c hc; omega) 0
  have f5' : Bits w1 g.outHighBits 32 O := f5.congr fun c hc => ne _ (by have := ro c hc; omega) 0
  refine ⟨w1, p1, p5, f4', fun Zy w2 s1 hOe => ?_⟩
  have n21 : ∀ i, (i < L + 74 ∨ L + 139 ≤ i) → ∀ pos, w2 i pos = w1 i pos := fun i hi pos => s1.ne i (by omega) pos
  set u := g.mulInner.fillExponents (Tw.gen 6) 5 w2 with hu
  have nu : ∀ i, (i < L + 4 ∨ (L + 6 ≤ i ∧ i < L + 72) ∨ L + 74 ≤ i) → ∀ pos, u i pos = w2 i pos := fun i hi pos =>
    fillExponents_ne (level := 5) hl.mul (Tw.gen 6) w2 (by norm_num only; omega) pos
  have nu1 : ∀ i, (i < L + 4 ∨ (L + 6 ≤ i ∧ i < L + 72) ∨ L + 139 ≤ i) → ∀ pos, u i pos = w1 i pos :=
    fun i hi pos => by rw [nu i (by omega), n21 i (by omega)]
  have bx : Bits u g.xInBits 32 x := f3'.congr fun c hc => nu1 _ (by have := rx c hc; omega) 0
  have by' : Bits u g.yInBits 32 y := f4'.congr fun c hc => nu1 _ (by have := ry c hc; omega) 0
  have bl : Bits u g.mulInner.outLowBits 32 (x * y % 2 ^ 32) := Bits.congr p4 fun c hc => nu1 _ (by have := rlo c hc; omega) 0
  have bh : Bits u g.mulInner.outHighBits 32 (x * y / 2 ^ 32) := Bits.congr p5 fun c hc => nu1 _ (by have := rhi c hc; omega) 0
  have bo : Bits u g.outHighBits 32 O := f5'.congr fun c hc => nu1 _ (by have := ro c hc; omega) 0
  have bzy : Bits u g.ySub.zout 32 Zy := s1.z.congr fun c hc => nu _ (by have := rzy c hc; omega) 0
  have hmul : MulRow Tw u 5 g.mulInner := by
    refine mulRow_of_vals' (level := 5) (n := 32) (x := x) (y := y) (by norm_num) hT hl.mul (fun c hc => ?_) (fun c hc => ?_)
      (by rw [hl.mx]; exact hl.xlen) (by rw [hl.my]; exact hl.ylen)
      hxn hyn (by rw [hl.mx]; exact f3'.congr fun c hc => n21 _ (by have := rx c hc; omega) 0)
      (by rw [hl.my]; exact f4'.congr fun c hc => n21 _ (by have := ry c hc; omega) 0)
      (Bits.congr p4 fun c hc => n21 _ (by have := rlo c hc; omega) 0) (Bits.congr p5 fun c hc => n21 _ (by have := rhi c hc; omega) 0)
      ?_ ?_ ?_ ?_
    · rw [hl.mx] at hc; have := rx c hc; omega
    · rw [hl.my] at hc; have := ry c hc; omega
    · rw [n21 _ (by omega)]; exact p6
    · rw [n21 _ (by omega)]; exact p7
    · rw [n21 _ (by omega)]; exact p8
    · rw [n21 _ (by omega)]; exact p9
  have hlo : x * y % 2 ^ 32 < 2 ^ 32 := Nat.mod_lt _ (Nat.two_pow_pos _)
  have v1 : u g.xin.idx 0 = element Tw.basis 32 x := by
    rw [nu1 _ (by omega), ne _ (by omega), e1 _ (by omega), e2 _ (by omega), ha, setBit_ne (by omega), setBit_ne (by omega),
      setBit_ne (by omega), setBit_eq]
  have v2 : u g.yin.idx 0 = element Tw.basis 32 y := by
    rw [nu1 _ (by omega), ne _ (by omega), e1 _ (by omega), e2 _ (by omega), ha, setBit_ne (by omega), setBit_ne (by omega), setBit_eq]
  have v3 : u g.outLow.idx 0 = element Tw.basis 32 (x * y % 2 ^ 32) := by
    rw [nu1 _ (by omega), ne _ (by omega), e1 _ (by omega), e2 _ (by omega), ha, setBit_ne (by omega), setBit_eq]
  have v4 : u g.outHigh.idx 0 = element Tw.basis 32 O := by
    rw [nu1 _ (by omega), ne _ (by omega), e1 _ (by omega), e2 _ (by omega), ha, setBit_eq]
  refine ⟨⟨bx.isBit, by'.isBit, ?_, ?_, ?_, ?_, hmul, ?_, bo.isBit, ?_, ?_, ?_, ?_, ?_⟩, fun i hi pos => ?_, bx.wide hl.xlen hxn,
    by'.wide hl.ylen hyn, bl.wide (n := 32) hl.mul.llen hlo, bo.wide hl.olen hO⟩
  · rw [v1]; exact element_sub (level := 5) (by omega) _
  · rw [v1]; exact bx.pack hl.xlen hxn _
  · rw [v2]; exact element_sub (level := 5) (by omega) _
  · rw [v2]; exact by'.pack hl.ylen hyn _
  · have hr := s1.row
    rw [hl.yx, hl.yy] at hr
    refine hr.congr (fun c hc => ?_) ?_
    · have hcr : c.idx < L ∨ (L + 6 ≤ c.idx ∧ c.idx < L + 38) ∨ (L + 74 ≤ c.idx ∧ c.idx < L + 139) := by
        simp only [List.mem_append] at hc
        rcases hc with ((hc | hc) | hc) | hc
        · have := rhi c hc; omega
        · have := ry c hc; omega
        · have := rby c hc; omega
        · have := rzy c hc; omega
      rw [nu _ (by omega)]
    · rw [nu _ (by omega)]
  · exact select_of_bits bh bzy bo (bx.isBit 31 (by norm_num)) (by
      rw [hOe]; simp only [bx.top (n := 31) hl.xlen hxn])
  · rw [v4]; exact element_sub (level := 5) (by omega) _
  · rw [v4]; exact bo.pack hl.olen hO _
  · rw [v3]; exact element_sub (level := 5) (by omega) _
  · rw [v3]; exact bl.pack (n := 32) hl.mul.llen hlo _
  · rw [nu1 _ (by omega), ne _ (by omega), e1 _ (by omega), e2 _ (by omega), ha, setBit_ne (by omega), setBit_ne (by omega),
      setBit_ne (by omega), setBit_ne (by omega)]

end Verif.M3
