import Verif.M3.LemmasSigned2

/-! Rows that satisfy the gadget that multiplies signed numbers. -/

set_option linter.dupNamespace false
set_option linter.unusedSectionVars false

namespace Verif.M3

open Finset Verif.Arith

variable {F : Type} [Field F] [DecidableEq F] [CharP F 2]

/-- The columns hold the bits of a number. -/
def Bits (w : Row F) (cs : List Col) (n v : Nat) : Prop := ∀ j < n, val w cs j = ofBit (v.testBit j)

theorem Bits.isBit {w : Row F} {cs : List Col} {n v : Nat} (h : Bits w cs n v) : ∀ j < n, IsBit (val w cs j) := fun j hj => by
  rw [h j hj]; exact ofBit_isBit _

theorem Bits.wide {w : Row F} {cs : List Col} {n v : Nat} (h : Bits w cs n v) (hl : cs.length = n) (hv : v < 2 ^ n) : wide w cs = v :=
  wide_of_bits hl hv h

theorem Bits.congr {u w : Row F} {cs : List Col} {n v : Nat} (h : Bits w cs n v) (e : ∀ c ∈ cs, u c.idx 0 = w c.idx 0) : Bits u cs n v :=
  fun j hj => by rw [val_congr' e]; exact h j hj

theorem Bits.of_wide {w : Row F} {cs : List Col} {n : Nat} (hl : cs.length = n) (h : ∀ j < n, IsBit (val w cs j)) :
    Bits w cs n (Verif.M3.wide w cs) := fun j hj => by
  rw [wide_eq, hl, ofBit_testBit h hj]

theorem Bits.pack {w : Row F} {cs : List Col} {n v : Nat} (h : Bits w cs n v) (hl : cs.length = n) (hv : v < 2 ^ n) (basis : Nat → F) :
    element basis n v = ∑ j ∈ range n, val w cs j * basis j := by
  rw [pack_element hl h.isBit, h.wide hl hv]

theorem Bits.set {cs : List Col} {n : Nat} (hl : cs.length = n) (hd : (cs.map Col.idx).Nodup) (v : Nat) (acc : Row F) :
    Bits (setBits cs (fun j => ofBit (v.testBit j)) acc) cs n v := fun j hj => setBits_val hd j (by omega)

/-- The top bit. -/
theorem Bits.top {w : Row F} {cs : List Col} {n v : Nat} (h : Bits w cs (n + 1) v) (hl : cs.length = n + 1) (hv : v < 2 ^ (n + 1)) :
    val w cs n = 1 ↔ 2 ^ n ≤ v := by rw [top_bit hl, h.wide hl hv]

/-- Choice by a bit, the other way round. -/
theorem select_of_bits {w : Row F} {n : Nat} {a b z : List Col} {A B Z : Nat} (ha : Bits w a n A) (hb : Bits w b n B) (hz : Bits w z n Z)
    {s : F} (hs : IsBit s) (h : Z = if s = 1 then B else A) :
    ∀ j < n, val w z j = val w a j + s * (val w a j + val w b j) := by
  intro j hj
  rw [ha j hj, hb j hj, hz j hj]
  rcases hs with hs | hs <;> rw [hs] at h ⊢
  · rw [if_neg zero_ne_one] at h; rw [h]; ring
  · rw [if_pos rfl] at h; rw [h]
    linear_combination (-(ofBit (A.testBit j) : F)) * (two_zero (F := F))

/-- What a subtractor of `n` bits does to a row: it fills its own columns. -/
structure SubFill (L n : Nat) (g : WideSub) (w w' : Row F) (Z : Nat) : Prop where
  ne : ∀ i, (i < L ∨ L + n + 1 + n ≤ i) → ∀ pos, w' i pos = w i pos
  row : WideSubRow w' n g.xin g.yin g.bin g.bout g.zout none
  z : Bits w' g.zout n Z

theorem subFill_populate {L n : Nat} (hn : 0 < n) {t : Table F} (hL : t.columns.length = L) {g : WideSub}
    (hl : LayoutSub L n g.bin g.bout g.zout) (hfl : g.flags.borrowInBit = none) (hx : HasAll t g.xin n) (hy : HasAll t g.yin n)
    {w : Row F} {X Y : Nat} (hX : X < 2 ^ n) (hY : Y < 2 ^ n) (hxb : Bits w g.xin n X) (hyb : Bits w g.yin n Y) :
    SubFill L n g w (g.populate w) ((X + 2 ^ n - Y) % 2 ^ n) := by
  obtain ⟨h1, h2, h3, h4⟩ := wideSub_populate hn hL hl hfl hx hy hxb.isBit hyb.isBit
  refine ⟨h1, h2, ?_⟩
  rw [hxb.wide hx.length hX, hyb.wide hy.length hY] at h4
  rw [← h4]
  exact Bits.of_wide hl.zlen h3

/-- The borrows can be chosen so that the output is any number with the right parity. -/
theorem subFill_any {L n : Nat} (hn : 0 < n) {t : Table F} (hL : t.columns.length = L) {g : WideSub}
    (hl : LayoutSub L n g.bin g.bout g.zout) (hx : HasAll t g.xin n) (hy : HasAll t g.yin n)
    {w : Row F} {X Y : Nat} (hxb : Bits w g.xin n X) (hyb : Bits w g.yin n Y) {Z : Nat} (hZ : Z % 2 = (X + Y) % 2) :
    ∃ w', SubFill L n g w w' Z := by
  set b : Nat → F := fun j => if j = 0 then 0 else ofBit (X.testBit j) + ofBit (Y.testBit j) + ofBit (Z.testBit j) with hb
  have hbb : ∀ j, IsBit (b j) := fun j => by
    rw [hb]; dsimp only; split
    · exact isBit_zero
    · exact isBit_add (isBit_add (ofBit_isBit _) (ofBit_isBit _)) (ofBit_isBit _)
  have hi := hl.iidx
  obtain ⟨c1, c2, c3, c4⟩ := wideSub_complete hn hL hl hx hy (w := w) (b := b) (fun j _ => hbb _)
    (acc := setBit w g.bin 0) (fun i hi' pos => by rw [setBit_ne (by omega)]) rfl (by rw [setBit_eq, hb]; rfl)
  refine ⟨_, fun i hi' pos => ?_, (c4 none fun q hq => (by cases hq)).2 rfl, fun j hj => ?_⟩
  · rw [(writes_val hl.zlen hl.blen hl.zidx hl.bidx (Or.inr (by omega))).2.2 i (by omega) (by omega) pos, setBit_ne (by omega)]
  · rw [c3 j hj, hxb j hj, hyb j hj, hb]
    dsimp only
    split
    · rename_i h0
      rw [h0, add_zero, Nat.testBit_zero, Nat.testBit_zero, Nat.testBit_zero]
      rcases Nat.mod_two_eq_zero_or_one X with h1 | h1 <;> rcases Nat.mod_two_eq_zero_or_one Y with h2 | h2 <;>
        rw [show Z % 2 = (X % 2 + Y % 2) % 2 by omega, h1, h2] <;> simp [CharTwo.add_self_eq_zero]
    · linear_combination (ofBit (X.testBit j) + ofBit (Y.testBit j) : F) * (two_zero (F := F))

/-! ### The values that are written first -/

theorem setBits_pos : ∀ {cs : List Col} {u : Nat → F} {acc : Row F} {i pos : Nat}, pos ≠ 0 → setBits cs u acc i pos = acc i pos
  | [], _, _, _, _, _ => rfl
  | c :: cs, u, acc, i, pos, h => by
    rw [setBits, setBits_pos h, setBit, if_neg fun h' => h h'.2]

theorem mulSS_drop {L : Nat} {g : MulSS32} {ohb : List Col} (hl : MulSSLayout L g ohb) : g.outBits.drop 32 = ohb := by
  rw [hl.out, List.drop_append_of_le_length (by rw [hl.mul.llen]; norm_num), List.drop_of_length_le (by rw [hl.mul.llen]; norm_num),
    List.nil_append]

theorem mulSS_fill {L : Nat} {g : MulSS32} {ohb : List Col} (hl : MulSSLayout L g ohb) (hx : ∀ c ∈ g.xInBits, c.idx < L)
    (hy : ∀ c ∈ g.yInBits, c.idx < L) (hxl : g.xInBits.length = 32) (hyl : g.yInBits.length = 32)
    (hd : ((g.xInBits ++ g.yInBits).map Col.idx).Nodup) (basis : Nat → F) (x y P N O : Nat) (w : Row F) {w' : Row F}
    (hw' : w' = g.fill basis x y P N O w) :
    (∀ i, i < L → ∀ pos, (pos = 0 → ∀ c ∈ g.xInBits ++ g.yInBits, i ≠ c.idx) → w' i pos = w i pos) ∧
    (∀ i, L + 270 ≤ i → ∀ pos, w' i pos = w i pos) ∧
    Bits w' g.xInBits 32 x ∧ Bits w' g.yInBits 32 y ∧ Bits w' ohb 32 O ∧ Bits w' g.newProdHighBits 32 N ∧
    w' g.xin.idx 0 = element basis 32 x ∧ w' g.yin.idx 0 = element basis 32 y ∧ w' g.outLow.idx 0 = element basis 32 P ∧
    w' g.outHigh.idx 0 = element basis 32 O := by
  have h1 := hl.xin
  have h2 := hl.yin
  have h3 := hl.ol
  have h4 := hl.oh
  have hn : ∀ c ∈ g.newProdHighBits, L + 139 ≤ c.idx ∧ c.idx < L + 171 := fun c hc => by
    have := idx_range hl.nlen hl.nph hc; omega
  have ho : ∀ c ∈ ohb, L + 236 ≤ c.idx ∧ c.idx < L + 268 := fun c hc => by
    have := idx_range hl.olen hl.oidx hc; omega
  rw [MulSS32.fill, mulSS_drop hl] at hw'
  rw [List.map_append, List.nodup_append] at hd
  obtain ⟨dx, dy, dxy⟩ := hd
  set a := setBit (setBit (setBit (setBit w g.xin (element basis 32 x)) g.yin (element basis 32 y)) g.outLow (element basis 32 P))
    g.outHigh (element basis 32 O) with ha
  set b := setBits g.yInBits (fun j => ofBit (y.testBit j)) (setBits g.xInBits (fun j => ofBit (x.testBit j)) a) with hb
  have e1 : ∀ i, (i < L + 139 ∨ L + 268 ≤ i) → ∀ pos, w' i pos = b i pos := fun i hi pos => by
    rw [hw', setBits_ne fun c hc => (by have := hn c hc; omega), setBits_ne fun c hc => (by have := ho c hc; omega)]
  have e2 : ∀ i, (∀ c ∈ g.xInBits ++ g.yInBits, i ≠ c.idx) → ∀ pos, b i pos = a i pos := fun i hi pos => by
    rw [hb, setBits_ne fun c hc => hi c (List.mem_append_right _ hc), setBits_ne fun c hc => hi c (List.mem_append_left _ hc)]
  have hL : ∀ i, L ≤ i → ∀ c ∈ g.xInBits ++ g.yInBits, i ≠ c.idx := fun i hi c hc => by
    have : c.idx < L := by
      rcases List.mem_append.1 hc with hc | hc
      · exact hx c hc
      · exact hy c hc
    omega
  refine ⟨fun i hi pos hi' => ?_, fun i hi pos => ?_, ?_, ?_, ?_, ?_, ?_, ?_, ?_, ?_⟩
  · rw [e1 i (by omega)]
    have : b i pos = a i pos := by
      by_cases h0 : pos = 0
      · exact e2 i (hi' h0) pos
      · rw [hb, setBits_pos h0, setBits_pos h0]
    rw [this, ha, setBit_ne (by omega), setBit_ne (by omega), setBit_ne (by omega), setBit_ne (by omega)]
  · rw [e1 i (by omega), e2 i (hL i (by omega)), ha, setBit_ne (by omega), setBit_ne (by omega), setBit_ne (by omega), setBit_ne (by omega)]
  · refine (Bits.set hxl dx x a).congr fun c hc => ?_
    rw [e1 _ (by have := hx c hc; omega), hb, setBits_ne fun d hd he => ?_]
    exact dxy _ (List.mem_map_of_mem hc) _ (List.mem_map_of_mem hd) he
  · refine (Bits.set hyl dy y (setBits g.xInBits (fun j => ofBit (x.testBit j)) a)).congr fun c hc => ?_
    rw [e1 _ (by have := hy c hc; omega)]
  · rw [hw']
    refine (Bits.set hl.olen (nodup_range hl.olen hl.oidx) O b).congr fun c hc => ?_
    rw [setBits_ne fun d hd => ?_]
    have := ho c hc
    have := hn d hd
    omega
  · rw [hw']
    exact Bits.set hl.nlen (nodup_range hl.nlen hl.nph) N _
  · rw [e1 _ (by omega), e2 _ (hL _ (by omega)), ha, setBit_ne (by omega), setBit_ne (by omega), setBit_ne (by omega), setBit_eq]
  · rw [e1 _ (by omega), e2 _ (hL _ (by omega)), ha, setBit_ne (by omega), setBit_ne (by omega), setBit_eq]
  · rw [e1 _ (by omega), e2 _ (hL _ (by omega)), ha, setBit_ne (by omega), setBit_eq]
  · rw [e1 _ (by omega), e2 _ (hL _ (by omega)), ha, setBit_eq]

/-- The values before the subtractors. -/
structure MulSSVals (L : Nat) (basis : Nat → F) (g : MulSS32) (ohb : List Col) (x y N O : Nat) (w w' : Row F) : Prop where
  lt : ∀ i, i < L → ∀ pos, (pos = 0 → ∀ c ∈ g.xInBits ++ g.yInBits, i ≠ c.idx) → w' i pos = w i pos
  ge : ∀ i, L + 270 ≤ i → ∀ pos, w' i pos = w i pos
  bx : Bits w' g.xInBits 32 x
  by' : Bits w' g.yInBits 32 y
  o : Bits w' ohb 32 O
  n : Bits w' g.newProdHighBits 32 N
  lo : Bits w' g.mulInner.outLowBits 32 (x * y % 2 ^ 32)
  hi : Bits w' g.mulInner.outHighBits 32 (x * y / 2 ^ 32)
  xin : w' g.xin.idx 0 = element basis 32 x
  yin : w' g.yin.idx 0 = element basis 32 y
  ol : w' g.outLow.idx 0 = element basis 32 (x * y % 2 ^ 32)
  oh : w' g.outHigh.idx 0 = element basis 32 O
  mx : w' g.mulInner.xin.idx 0 = element basis 32 x
  my : w' g.mulInner.yin.idx 0 = element basis 32 y
  ml : w' g.mulInner.outLow.idx 0 = element basis 32 (x * y % 2 ^ 32)
  mh : w' g.mulInner.outHigh.idx 0 = element basis 32 (x * y / 2 ^ 32)

theorem mulSS_vals {L : Nat} {g : MulSS32} {ohb : List Col} (hl : MulSSLayout L g ohb) (hx : ∀ c ∈ g.xInBits, c.idx < L)
    (hy : ∀ c ∈ g.yInBits, c.idx < L) (hxl : g.xInBits.length = 32) (hyl : g.yInBits.length = 32)
    (hd : ((g.xInBits ++ g.yInBits).map Col.idx).Nodup) (basis : Nat → F) (x y N O : Nat) (w : Row F) :
    ∃ w1, g.mulInner.populate basis 5 x y (g.fill basis x y (x * y % 2 ^ 32) N O w) = some w1 ∧
      MulSSVals L basis g ohb x y N O w w1 := by
  obtain ⟨f1, f2, f3, f4, f5, f6, f7, f8, f9, f10⟩ := mulSS_fill hl hx hy hxl hyl hd basis x y (x * y % 2 ^ 32) N O w rfl
  set w0 := g.fill basis x y (x * y % 2 ^ 32) N O w
  obtain ⟨w1, p1, p2, -, p4, p5, p6, p7, p8, p9⟩ := mul_populate_vals hl.mul
    (fun c hc => by rw [hl.mx] at hc; have := hx c hc; omega) (fun c hc => by rw [hl.my] at hc; have := hy c hc; omega) basis false x y w0
    (by rw [hl.mx, hl.my]; exact hd)
  have h1 := hl.xin
  have h2 := hl.yin
  have h3 := hl.ol
  have h4 := hl.oh
  have ne : ∀ i, (i < L + 2 ∨ L + 74 ≤ i) → ∀ pos, w1 i pos = w0 i pos := fun i hi pos =>
    p2 i (by norm_num; omega) (fun h => (by cases h)) pos
  refine ⟨w1, p1, fun i hi pos hi' => ?_, fun i hi pos => ?_, ?_, ?_, ?_, ?_, p4, p5, ?_, ?_, ?_, ?_, p6, p7, p8, p9⟩
  · rw [ne i (by omega), f1 i hi pos hi']
  · rw [ne i (by omega), f2 i hi]
  · exact f3.congr fun c hc => ne _ (by have := hx c hc; omega) 0
  · exact f4.congr fun c hc => ne _ (by have := hy c hc; omega) 0
  · exact f5.congr fun c hc => ne _ (by have := idx_range hl.olen hl.oidx hc; omega) 0
  · exact f6.congr fun c hc => ne _ (by have := idx_range hl.nlen hl.nph hc; omega) 0
  · rw [ne _ (by omega), f7]
  · rw [ne _ (by omega), f8]
  · rw [ne _ (by omega), f9]
  · rw [ne _ (by omega), f10]

theorem mulRow_of_vals' {Tw : Tower F} {L level n : Nat} (hn : 2 ^ level = n) (hT : level + 1 ≤ Tw.height) {g : Mul} (h : MulLayout L n g)
    (hx : ∀ c ∈ g.xInBits, c.idx < L) (hy : ∀ c ∈ g.yInBits, c.idx < L) (hxl : g.xInBits.length = n)
    (hyl : g.yInBits.length = n) {x y : Nat} (hxn : x < 2 ^ n) (hyn : y < 2 ^ n) {w : Row F}
    (vx : Bits w g.xInBits n x) (vy : Bits w g.yInBits n y) (vl : Bits w g.outLowBits n (x * y % 2 ^ n))
    (vh : Bits w g.outHighBits n (x * y / 2 ^ n))
    (ex : w g.xin.idx 0 = element Tw.basis n x) (ey : w g.yin.idx 0 = element Tw.basis n y)
    (el : w g.outLow.idx 0 = element Tw.basis n (x * y % 2 ^ n))
    (eh : w g.outHigh.idx 0 = element Tw.basis n (x * y / 2 ^ n)) :
    MulRow Tw (g.fillExponents (Tw.gen (level + 1)) level w) level g := by
  subst hn
  exact mulRow_of_vals hT h hx hy hxl hyl hxn hyn vx vy vl vh ex ey el eh

set_option maxHeartbeats 2000000 in
/-- The row satisfies the gadget once the subtractors and the powers are filled. -/
theorem mulSS_build {Tw : Tower F} (hT : 6 ≤ Tw.height) {L : Nat} {g : MulSS32} {ohb : List Col} (hl : MulSSLayout L g ohb)
    (hx : ∀ c ∈ g.xInBits, c.idx < L) (hy : ∀ c ∈ g.yInBits, c.idx < L) (hxl : g.xInBits.length = 32) (hyl : g.yInBits.length = 32)
    {x y N O : Nat} (hxn : x < 2 ^ 32) (hyn : y < 2 ^ 32) (hO : O < 2 ^ 32) {w w1 w2 w3 : Row F}
    (hv : MulSSVals L Tw.basis g ohb x y N O w w1) {Zy Zx : Nat} (s1 : SubFill (L + 74) 32 g.ySub w1 w2 Zy)
    (s2 : SubFill (L + 171) 32 g.xSub w2 w3 Zx) (hNe : N = if 2 ^ 31 ≤ x then Zy else x * y / 2 ^ 32)
    (hOe : O = if 2 ^ 31 ≤ y then Zx else N) :
    MulSSRow Tw (g.mulInner.fillExponents (Tw.gen 6) 5 w3) g ohb ∧
    (∀ i, i < L → ∀ pos, (pos = 0 → ∀ c ∈ g.xInBits ++ g.yInBits, i ≠ c.idx) →
      g.mulInner.fillExponents (Tw.gen 6) 5 w3 i pos = w i pos) ∧
    (∀ i, L + 270 ≤ i → ∀ pos, g.mulInner.fillExponents (Tw.gen 6) 5 w3 i pos = w i pos) ∧
    Bits (g.mulInner.fillExponents (Tw.gen 6) 5 w3) g.xInBits 32 x ∧ Bits (g.mulInner.fillExponents (Tw.gen 6) 5 w3) g.yInBits 32 y ∧
    Bits (g.mulInner.fillExponents (Tw.gen 6) 5 w3) g.mulInner.outLowBits 32 (x * y % 2 ^ 32) ∧
    Bits (g.mulInner.fillExponents (Tw.gen 6) 5 w3) ohb 32 O := by
  have h1 := hl.xin
  have h2 := hl.yin
  have h3 := hl.ol
  have h4 := hl.oh
  have m1 := hl.mul.xin
  have m2 := hl.mul.yin
  have m3 := hl.mul.ol
  have m4 := hl.mul.oh
  norm_num only at m3 m4
  have rlo : ∀ c ∈ g.mulInner.outLowBits, L + 38 ≤ c.idx ∧ c.idx < L + 70 := fun c hc => by
    have := idx_range hl.mul.llen hl.mul.lo hc; norm_num only at this; omega
  have rhi : ∀ c ∈ g.mulInner.outHighBits, L + 6 ≤ c.idx ∧ c.idx < L + 38 := fun c hc => by
    have := idx_range hl.mul.hlen hl.mul.hi hc; norm_num only at this; omega
  have rn : ∀ c ∈ g.newProdHighBits, L + 139 ≤ c.idx ∧ c.idx < L + 171 := fun c hc => by
    have := idx_range hl.nlen hl.nph hc; omega
  have ro : ∀ c ∈ ohb, L + 236 ≤ c.idx ∧ c.idx < L + 268 := fun c hc => by
    have := idx_range hl.olen hl.oidx hc; omega
  have rby : ∀ c ∈ g.ySub.bout, L + 74 ≤ c.idx ∧ c.idx < L + 106 := fun c hc => by
    have := idx_range hl.ys.blen hl.ys.bidx hc; omega
  have rzy : ∀ c ∈ g.ySub.zout, L + 107 ≤ c.idx ∧ c.idx < L + 139 := fun c hc => by
    have := idx_range hl.ys.zlen hl.ys.zidx hc; omega
  have riy := hl.ys.iidx
  have rbx : ∀ c ∈ g.xSub.bout, L + 171 ≤ c.idx ∧ c.idx < L + 203 := fun c hc => by
    have := idx_range hl.xs.blen hl.xs.bidx hc; omega
  have rzx : ∀ c ∈ g.xSub.zout, L + 204 ≤ c.idx ∧ c.idx < L + 236 := fun c hc => by
    have := idx_range hl.xs.zlen hl.xs.zidx hc; omega
  have rix := hl.xs.iidx
  -- the rows agree
  have n32 : ∀ i, (i < L + 171 ∨ L + 236 ≤ i) → ∀ pos, w3 i pos = w2 i pos := fun i hi pos => s2.ne i (by omega) pos
  have n31 : ∀ i, (i < L + 74 ∨ (L + 139 ≤ i ∧ i < L + 171) ∨ L + 236 ≤ i) → ∀ pos, w3 i pos = w1 i pos := fun i hi pos => by
    rw [n32 i (by omega), s1.ne i (by omega)]
  set u := g.mulInner.fillExponents (Tw.gen 6) 5 w3 with hu
  have nu : ∀ i, (i < L + 4 ∨ (L + 6 ≤ i ∧ i < L + 72) ∨ L + 74 ≤ i) → ∀ pos, u i pos = w3 i pos := fun i hi pos =>
    fillExponents_ne (level := 5) hl.mul (Tw.gen 6) w3 (by norm_num only; omega) pos
  have nu1 : ∀ i, (i < L + 4 ∨ (L + 6 ≤ i ∧ i < L + 72) ∨ (L + 139 ≤ i ∧ i < L + 171) ∨ L + 236 ≤ i) → ∀ pos, u i pos = w1 i pos :=
    fun i hi pos => by rw [nu i (by omega), n31 i (by omega)]
  have bx3 : Bits w3 g.xInBits 32 x := hv.bx.congr fun c hc => n31 _ (by have := hx c hc; omega) 0
  have by3 : Bits w3 g.yInBits 32 y := hv.by'.congr fun c hc => n31 _ (by have := hy c hc; omega) 0
  have bl3 : Bits w3 g.mulInner.outLowBits 32 (x * y % 2 ^ 32) := hv.lo.congr fun c hc => n31 _ (by have := rlo c hc; omega) 0
  have bh3 : Bits w3 g.mulInner.outHighBits 32 (x * y / 2 ^ 32) := hv.hi.congr fun c hc => n31 _ (by have := rhi c hc; omega) 0
  have bx : Bits u g.xInBits 32 x := hv.bx.congr fun c hc => nu1 _ (by have := hx c hc; omega) 0
  have by' : Bits u g.yInBits 32 y := hv.by'.congr fun c hc => nu1 _ (by have := hy c hc; omega) 0
  have bl : Bits u g.mulInner.outLowBits 32 (x * y % 2 ^ 32) := hv.lo.congr fun c hc => nu1 _ (by have := rlo c hc; omega) 0
  have bh : Bits u g.mulInner.outHighBits 32 (x * y / 2 ^ 32) := hv.hi.congr fun c hc => nu1 _ (by have := rhi c hc; omega) 0
  have bn : Bits u g.newProdHighBits 32 N := hv.n.congr fun c hc => nu1 _ (by have := rn c hc; omega) 0
  have bo : Bits u ohb 32 O := hv.o.congr fun c hc => nu1 _ (by have := ro c hc; omega) 0
  have bzy : Bits u g.ySub.zout 32 Zy := s1.z.congr fun c hc => by
    rw [nu _ (by have := rzy c hc; omega), n32 _ (by have := rzy c hc; omega)]
  have bzx : Bits u g.xSub.zout 32 Zx := s2.z.congr fun c hc => nu _ (by have := rzx c hc; omega) 0
  have hmul : MulRow Tw u 5 g.mulInner := by
    refine mulRow_of_vals' (level := 5) (n := 32) (x := x) (y := y) (by norm_num) hT hl.mul (fun c hc => ?_) (fun c hc => ?_) (by rw [hl.mx]; exact hxl) (by rw [hl.my]; exact hyl)
      hxn hyn (by rw [hl.mx]; exact bx3) (by rw [hl.my]; exact by3) bl3 bh3 ?_ ?_ ?_ ?_
    · rw [hl.mx] at hc; have := hx c hc; omega
    · rw [hl.my] at hc; have := hy c hc; omega
    · rw [n31 _ (by omega)]; exact hv.mx
    · rw [n31 _ (by omega)]; exact hv.my
    · rw [n31 _ (by omega)]; exact hv.ml
    · rw [n31 _ (by omega)]; exact hv.mh
  have hlo : x * y % 2 ^ 32 < 2 ^ 32 := Nat.mod_lt _ (Nat.two_pow_pos _)
  refine ⟨⟨?_, ?_, ?_, ?_, hmul, ?_, bn.isBit, ?_, ?_, bo.isBit, ?_, ?_, ?_, ?_, ?_⟩, fun i hi pos hi' => ?_, fun i hi pos => ?_, bx, by', bl, bo⟩
  · rw [nu1 _ (by omega), hv.xin]; exact element_sub (level := 5) (by omega) _
  · rw [nu1 _ (by omega), hv.xin]; exact bx.pack hxl hxn _
  · rw [nu1 _ (by omega), hv.yin]; exact element_sub (level := 5) (by omega) _
  · rw [nu1 _ (by omega), hv.yin]; exact by'.pack hyl hyn _
  · have hr := s1.row
    rw [hl.yx, hl.yy] at hr
    refine hr.congr (fun c hc => ?_) ?_
    · have hcr : c.idx < L ∨ (L + 6 ≤ c.idx ∧ c.idx < L + 38) ∨ (L + 74 ≤ c.idx ∧ c.idx < L + 139) := by
        simp only [List.mem_append] at hc
        rcases hc with ((hc | hc) | hc) | hc
        · have := rhi c hc; omega
        · have := hy c hc; omega
        · have := rby c hc; omega
        · have := rzy c hc; omega
      rw [nu _ (by omega), n32 _ (by omega)]
    · rw [nu _ (by omega), n32 _ (by omega)]
  · exact select_of_bits bh bzy bn (bx.isBit 31 (by norm_num)) (by
      rw [hNe]; simp only [bx.top (n := 31) hxl hxn])
  · have hr := s2.row
    rw [hl.xx, hl.xy] at hr
    refine hr.congr (fun c hc => ?_) ?_
    · have hcr : c.idx < L ∨ (L + 139 ≤ c.idx ∧ c.idx < L + 236) := by
        simp only [List.mem_append] at hc
        rcases hc with ((hc | hc) | hc) | hc
        · have := rn c hc; omega
        · have := hx c hc; omega
        · have := rbx c hc; omega
        · have := rzx c hc; omega
      rw [nu _ (by omega)]
    · rw [nu _ (by omega)]
  · exact select_of_bits bn bzx bo (by'.isBit 31 (by norm_num)) (by
      rw [hOe]; simp only [by'.top (n := 31) hyl hyn])
  · rw [nu1 _ (by omega), hv.oh]; exact element_sub (level := 5) (by omega) _
  · rw [nu1 _ (by omega), hv.oh]; exact bo.pack hl.olen hO _
  · rw [nu1 _ (by omega), hv.ol]; exact element_sub (level := 5) (by omega) _
  · rw [nu1 _ (by omega), hv.ol]; exact bl.pack (n := 32) hl.mul.llen hlo _
  · rw [nu1 _ (by omega), hv.lt i hi pos hi']
  · rw [nu1 _ (by omega), hv.ge i hi]

end Verif.M3
