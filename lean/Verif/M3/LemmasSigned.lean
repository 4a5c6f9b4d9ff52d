import Verif.M3.ModelSigned
import Verif.M3.LemmasSign

/-! Lemmas on the gadgets that multiply signed numbers. -/

set_option linter.dupNamespace false
set_option linter.unusedSectionVars false

namespace Verif.M3

open Finset Verif.Arith

variable {F : Type} [Field F] [DecidableEq F] [CharP F 2]

/-! ### Rows that differ elsewhere -/

theorem WideSubRow.congr {u w : Row F} {n : Nat} {x y : List Col} {bin : Col} {bout z : List Col}
    (h : WideSubRow w n x y bin bout z none) (e : ∀ c ∈ x ++ y ++ bout ++ z, u c.idx 0 = w c.idx 0) (eb : u bin.idx 0 = w bin.idx 0) :
    WideSubRow u n x y bin bout z none := by
  have vx : ∀ j, val u x j = val w x j := fun j => val_congr' fun c hc => e c (by simp [hc])
  have vy : ∀ j, val u y j = val w y j := fun j => val_congr' fun c hc => e c (by simp [hc])
  have vb : ∀ j, val u bout j = val w bout j := fun j => val_congr' fun c hc => e c (by simp [hc])
  have vz : ∀ j, val u z j = val w z j := fun j => val_congr' fun c hc => e c (by simp [hc])
  refine ⟨fun j hj => by rw [vb]; exact h.bits j hj, by rw [eb]; exact h.first, fun j hj => ?_⟩
  rw [vz, vx, vy, h.sum j hj, val_bins _ _ hj, val_bins _ _ hj, eb, vb]

theorem WideAddRow.congr {u w : Row F} {n : Nat} {x y c z : List Col} {final : Col} (h : WideAddRow w n x y c z final none)
    (e : ∀ d ∈ x ++ y ++ c ++ z, u d.idx 0 = w d.idx 0) (ef : u final.idx 0 = w final.idx 0) :
    WideAddRow u n x y c z final none := by
  have vx : ∀ j, val u x j = val w x j := fun j => val_congr' fun c hc => e c (by simp [hc])
  have vy : ∀ j, val u y j = val w y j := fun j => val_congr' fun c hc => e c (by simp [hc])
  have vc : ∀ j, val u c j = val w c j := fun j => val_congr' fun c hc => e c (by simp [hc])
  have vz : ∀ j, val u z j = val w z j := fun j => val_congr' fun c hc => e c (by simp [hc])
  refine ⟨fun j hj => by rw [vc]; exact h.bits j hj, by rw [ef]; exact h.fin, fun hn k hk => (by cases hk), fun j hj => ?_,
    fun j hj => ?_⟩
  · rw [vz, vx, vy, vc]; exact h.sum j hj
  · rw [vx, vy, vc, ← h.carry j hj]
    unfold chainOf
    rw [vc, ef]

theorem TwosRow.congr {u w : Row F} {n : Nat} {x iv c z : List Col} {final : Col} (h : TwosRow w n x iv c z final)
    (e : ∀ d ∈ x ++ iv ++ c ++ z, u d.idx 0 = w d.idx 0) (ef : u final.idx 0 = w final.idx 0) : TwosRow u n x iv c z final := by
  have vx : ∀ j, val u x j = val w x j := fun j => val_congr' fun c hc => e c (by simp [hc])
  have vi : ∀ j, val u iv j = val w iv j := fun j => val_congr' fun c hc => e c (by simp [hc])
  have vc : ∀ j, val u c j = val w c j := fun j => val_congr' fun c hc => e c (by simp [hc])
  have vz : ∀ j, val u z j = val w z j := fun j => val_congr' fun c hc => e c (by simp [hc])
  refine ⟨fun j hj => ?_, ⟨fun j hj => ?_, fun j hj => ?_, ?_, fun h' => ?_, fun j hj => ?_, fun j hj => ?_⟩⟩
  · rw [vi, vx]; exact h.inv j hj
  · rw [vc]; exact h.incr.bits j hj
  · rw [vz]; exact h.incr.zbits j hj
  · rw [ef]; exact h.incr.fin
  · rw [vc]; exact h.incr.first h'
  · rw [vz, vi, vc]; exact h.incr.sum j hj
  · rw [vi, vc, ← h.incr.carry j hj]
    unfold chainOf
    rw [vc, ef]

/-! ### What `populate` does -/

theorem wideSub_populate {L n : Nat} (hn : 0 < n) {t : Table F} (hL : t.columns.length = L) {g : WideSub}
    (hl : LayoutSub L n g.bin g.bout g.zout) (hfl : g.flags.borrowInBit = none) (hx : HasAll t g.xin n) (hy : HasAll t g.yin n)
    {w : Row F} (hxb : ∀ j < n, IsBit (val w g.xin j)) (hyb : ∀ j < n, IsBit (val w g.yin j)) :
    (∀ i, (i < L ∨ L + n + 1 + n ≤ i) → ∀ pos, g.populate w i pos = w i pos) ∧
    WideSubRow (g.populate w) n g.xin g.yin g.bin g.bout g.zout none ∧
    (∀ j < n, IsBit (val (g.populate w) g.zout j)) ∧
    wide (g.populate w) g.zout = (wide w g.xin + 2 ^ n - wide w g.yin) % 2 ^ n := by
  have hpop : g.populate w = writes g.zout g.bout
      (fun j => val w g.xin j + val w g.yin j + subChain (val w g.xin) (val w g.yin) 0 j)
      (fun j => subChain (val w g.xin) (val w g.yin) 0 (j + 1)) (setBit w g.bin 0) := by
    rw [WideSub.populate, hfl]
    exact wideSub_loop hx.length hy.length hl.blen hl.zlen hxb hyb isBit_zero
  obtain ⟨c1, c2, c3, c4⟩ := wideSub_complete hn hL hl hx hy
    (b := subChain (val w g.xin) (val w g.yin) 0) (fun j hj => subChain_isBit hxb hyb isBit_zero (by omega))
    (fun i hi pos => by rw [setBit, if_neg (by have := hl.iidx; omega)]) hpop (by rw [setBit, if_pos ⟨rfl, rfl⟩]; rfl)
  have hs := (sub_chain (n := n) (b := subChain (val w g.xin) (val w g.yin) 0) hxb hyb isBit_zero fun _ _ => rfl).2
  refine ⟨fun i hi pos => ?_, (c4 none fun q hq => (by cases hq)).2 rfl, fun j hj => ?_, ?_⟩
  · have := hl.iidx
    rw [hpop, (writes_val hl.zlen hl.blen hl.zidx hl.bidx (Or.inr (by omega))).2.2 i (by omega) (by omega) pos, setBit,
      if_neg (by omega)]
  · rw [c3 j hj]
    exact isBit_add (isBit_add (hxb j hj) (hyb j hj)) (subChain_isBit hxb hyb isBit_zero hj.le)
  · have hz : wide (g.populate w) g.zout =
        num ((List.range n).map fun j => val w g.xin j + val w g.yin j + subChain (val w g.xin) (val w g.yin) 0 j) := by
      rw [wide_eq, hl.zlen]
      congr 1
      exact List.map_congr_left fun j hj => c3 j (List.mem_range.1 hj)
    rw [show subChain (val w g.xin) (val w g.yin) 0 0 = 0 from rfl, bit_zero, Nat.add_zero, ← hz] at hs
    have e1 : wide w g.xin = num ((List.range n).map (val w g.xin)) := by rw [wide_eq, hx.length]
    have e2 : wide w g.yin = num ((List.range n).map (val w g.yin)) := by rw [wide_eq, hy.length]
    rw [← e1, ← e2] at hs
    have l1 := wide_lt (g.populate w) hl.zlen
    have l2 := wide_lt w hy.length
    have l3 := bit_le (subChain (val w g.xin) (val w g.yin) 0 n)
    rcases Nat.le_one_iff_eq_zero_or_eq_one.1 l3 with hb | hb <;> rw [hb] at hs
    · rw [show wide w g.xin + 2 ^ n - wide w g.yin = wide (g.populate w) g.zout + 2 ^ n by omega, Nat.add_mod_right,
        Nat.mod_eq_of_lt l1]
    · rw [show wide w g.xin + 2 ^ n - wide w g.yin = wide (g.populate w) g.zout by omega, Nat.mod_eq_of_lt l1]

theorem wideAdd_populate {L n : Nat} {t : Table F} (hL : t.columns.length = L) {g : WideAdd}
    (hl : Layout3 L n g.cin g.zOut g.finalCarryOut) (hfl : g.flags.carryInBit = none) (hx : HasAll t g.xIn n)
    (hy : HasAll t g.yIn n) (hn : 0 < n)
    {w : Row F} (hxb : ∀ j < n, IsBit (val w g.xIn j)) (hyb : ∀ j < n, IsBit (val w g.yIn j)) :
    (∀ i, (i < L ∨ L + n + n + 1 ≤ i) → ∀ pos, g.populate (fun _ => w) 0 i pos = w i pos) ∧
    WideAddRow (g.populate (fun _ => w) 0) n g.xIn g.yIn g.cin g.zOut g.finalCarryOut none ∧
    (∀ j < n, IsBit (val (g.populate (fun _ => w) 0) g.zOut j)) ∧
    wide (g.populate (fun _ => w) 0) g.zOut = (wide w g.xIn + wide w g.yIn) % 2 ^ n := by
  have hpop : g.populate (fun _ => w) 0 = setBit (WideAdd.loop w g.xIn g.yIn g.cin g.zOut 0 w).1 g.finalCarryOut
      (WideAdd.loop w g.xIn g.yIn g.cin g.zOut 0 w).2 := by
    rw [WideAdd.populate, hfl]
  obtain ⟨c1, c2, c3⟩ := wideAdd_complete hL hl hx hy hxb hyb (k := 0) isBit_zero hpop
  have hr := (c3 none fun q hq => (by cases hq)).2 fun _ q hq => (by cases hq)
  set w' := g.populate (fun _ => w) 0 with hw'
  have vx : ∀ j < n, val w' g.xIn j = val w g.xIn j := fun j hj => hx.val_congr (fun i hi => c1 i (hL ▸ hi)) hj
  have vy : ∀ j < n, val w' g.yIn j = val w g.yIn j := fun j hj => hy.val_congr (fun i hi => c1 i (hL ▸ hi)) hj
  refine ⟨fun i hi pos => ?_, hr, fun j hj => ?_, ?_⟩
  · have := hl.fidx
    rw [hpop, setBit, if_neg (by omega), wideAdd_loop hx.length hy.length hl.clen hl.zlen]
    dsimp only
    rw [(writes_val hl.clen hl.zlen hl.cidx hl.zidx (Or.inl le_rfl)).2.2 i (by omega) (by omega) pos]
  · rw [hr.sum j hj, vx j hj, vy j hj]
    exact isBit_add (isBit_add (hxb j hj) (hyb j hj)) (hr.bits j hj)
  · have := wideAdd_sound hr hn hx.length hy.length hl.zlen (fun j hj => by rw [vx j hj]; exact hxb j hj)
      fun j hj => by rw [vy j hj]; exact hyb j hj
    rw [c2 hn, bit_zero, Nat.add_zero, hx.wide_congr (fun i hi => c1 i (hL ▸ hi)), hy.wide_congr (fun i hi => c1 i (hL ▸ hi))] at this
    rw [← this, Nat.add_mul_mod_self_left, Nat.mod_eq_of_lt (wide_lt w' hl.zlen)]

/-! ### Choice by a bit -/

theorem select_ok (Tw : Tower F) {t : Table F} (ht : WellFormed t) {n : Nat} {a b : List Col} (ha : HasAll t a n)
    (hb : HasAll t b n) {s : Col} (hs : t.Has s 0 0) :
    ∃ z t', fromFn (selectColumn s a b) 0 n t = some (z, t') ∧ NewCols t t' z n 0 0 ∧ Adds Tw t t' fun w =>
      (∀ j < n, IsBit (val w z j)) ∧ ∀ j < n, val w z j = val w a j + w s.idx 0 * (val w a j + val w b j) := by
  obtain ⟨z, t', h1, h2, h3⟩ := fromFn_ok Tw (f := (selectColumn s a b : Nat → Table F → _)) (level := 0) (lv := 0)
    (fun j z w => IsBit (w z.idx 0) ∧ w z.idx 0 = val w a j + w s.idx 0 * (val w a j + val w b j)) n 0 t ht (by
      intro j _ hj t1 he hw
      obtain ⟨ai, hai, haj⟩ := ha.get (j := j) (by omega)
      obtain ⟨bi, hbi, hbj⟩ := hb.get (j := j) (by omega)
      obtain ⟨c, t2, h1, h2, h3⟩ := addComputed_ok Tw hw 0 (Ev.add (Ev.col (haj.ext he))
        (Ev.mul (Ev.col (hs.ext he)) (Ev.add (Ev.col (haj.ext he)) (Ev.col (hbj.ext he)))))
      refine ⟨c, t2, by rw [selectColumn, hai, Option.bind_some, hbi, Option.bind_some, h1], h2, h3.congr fun w _ => ?_⟩
      rw [forall_lt_one, val_get hai, val_get hbi]
      exact and_congr ⟨isBit_of_inField, inField_of_isBit⟩ Iff.rfl)
  refine ⟨z, t', h1, h2, h3.congr fun w _ => ⟨fun h => ⟨fun j hj => ?_, fun j hj => ?_⟩, fun h k c hk => ?_⟩⟩
  · obtain ⟨c, hc, -⟩ := h2.hasAll.get hj
    rw [val_get hc]; exact (h j c hc).1
  · obtain ⟨c, hc, -⟩ := h2.hasAll.get hj
    rw [val_get hc, (h j c hc).2, Nat.zero_add]
  · have hkn : k < n := by rw [← h2.length]; exact lt_of_get hk
    have h' := h.1 k hkn
    have := h.2 k hkn
    rw [val_get hk] at this h'
    rw [Nat.zero_add]
    exact ⟨h', this⟩

theorem select_wide {w : Row F} {n : Nat} {a b z : List Col} (ha : a.length = n) (hb : b.length = n) (hz : z.length = n) {s : F}
    (hs : IsBit s) (h : ∀ j < n, val w z j = val w a j + s * (val w a j + val w b j)) :
    wide w z = if s = 1 then wide w b else wide w a := by
  rw [wide_eq, wide_eq, wide_eq, ha, hb, hz]
  rcases hs with hs | hs
  · rw [if_neg (by rw [hs]; exact zero_ne_one)]
    congr 1
    exact List.map_congr_left fun j hj => by
      rw [h j (List.mem_range.1 hj), hs]; ring
  · rw [if_pos hs]
    congr 1
    exact List.map_congr_left fun j hj => by
      rw [h j (List.mem_range.1 hj), hs]
      linear_combination (val w a j) * (two_zero (F := F))

/-! ### Signed multiplication -/

structure MulSSRow (Tw : Tower F) (w : Row F) (g : MulSS32) (ohb : List Col) : Prop where
  fx : Tw.sub 5 (w g.xin.idx 0)
  x : w g.xin.idx 0 = ∑ j ∈ range 32, val w g.xInBits j * Tw.basis j
  fy : Tw.sub 5 (w g.yin.idx 0)
  y : w g.yin.idx 0 = ∑ j ∈ range 32, val w g.yInBits j * Tw.basis j
  mul : MulRow Tw w 5 g.mulInner
  ysub : WideSubRow w 32 g.mulInner.outHighBits g.yInBits g.ySub.bin g.ySub.bout g.ySub.zout none
  nb : ∀ j < 32, IsBit (val w g.newProdHighBits j)
  nph : ∀ j < 32, val w g.newProdHighBits j = val w g.mulInner.outHighBits j +
    val w g.xInBits 31 * (val w g.mulInner.outHighBits j + val w g.ySub.zout j)
  xsub : WideSubRow w 32 g.newProdHighBits g.xInBits g.xSub.bin g.xSub.bout g.xSub.zout none
  ob : ∀ j < 32, IsBit (val w ohb j)
  oh : ∀ j < 32, val w ohb j = val w g.newProdHighBits j +
    val w g.yInBits 31 * (val w g.newProdHighBits j + val w g.xSub.zout j)
  fh : Tw.sub 5 (w g.outHigh.idx 0)
  h : w g.outHigh.idx 0 = ∑ j ∈ range 32, val w ohb j * Tw.basis j
  fl : Tw.sub 5 (w g.outLow.idx 0)
  l : w g.outLow.idx 0 = ∑ j ∈ range 32, val w g.mulInner.outLowBits j * Tw.basis j

structure MulSSLayout (L : Nat) (g : MulSS32) (ohb : List Col) : Prop where
  xin : g.xin.idx = L
  yin : g.yin.idx = L + 1
  mx : g.mulInner.xInBits = g.xInBits
  my : g.mulInner.yInBits = g.yInBits
  mul : MulLayout (L + 2) (2 ^ 5) g.mulInner
  yx : g.ySub.xin = g.mulInner.outHighBits
  yy : g.ySub.yin = g.yInBits
  yf : g.ySub.flags.borrowInBit = none
  ys : LayoutSub (L + 74) 32 g.ySub.bin g.ySub.bout g.ySub.zout
  nlen : g.newProdHighBits.length = 32
  nph : ∀ (k : Nat) (c : Col), g.newProdHighBits[k]? = some c → c.idx = L + 139 + k
  xx : g.xSub.xin = g.newProdHighBits
  xy : g.xSub.yin = g.xInBits
  xf : g.xSub.flags.borrowInBit = none
  xs : LayoutSub (L + 171) 32 g.xSub.bin g.xSub.bout g.xSub.zout
  olen : ohb.length = 32
  oidx : ∀ (k : Nat) (c : Col), ohb[k]? = some c → c.idx = L + 236 + k
  out : g.outBits = g.mulInner.outLowBits ++ ohb
  oh : g.outHigh.idx = L + 268
  ol : g.outLow.idx = L + 269

/-- The tables along the way. -/
structure MulSSTables (t t' : Table F) (g : MulSS32) (ohb : List Col) : Prop where
  lo : HasAll t' g.mulInner.outLowBits 32
  hob : HasAll t' ohb 32
  xin : t'.Has g.xin 5 0
  yin : t'.Has g.yin 5 0
  oh : t'.Has g.outHigh 5 0
  ol : t'.Has g.outLow 5 0
  hi : ∃ t1 : Table F, t1.columns.length = t.columns.length + 74 ∧ HasAll t1 g.mulInner.outHighBits 32 ∧ Ext t t1
  nph : ∃ t1 : Table F, t1.columns.length = t.columns.length + 171 ∧ HasAll t1 g.newProdHighBits 32 ∧ Ext t t1

theorem MulSS32_ok (Tw : Tower F) {t : Table F} (ht : WellFormed t) {xs ys : List Col} (hx : HasAll t xs 32)
    (hy : HasAll t ys 32) :
    ∃ g t' ohb, MulSS32.withInput Tw.basis (Tw.gen 6) t xs ys = some (g, t') ∧ g.xInBits = xs ∧ g.yInBits = ys ∧
      MulSSLayout t.columns.length g ohb ∧ MulSSTables t t' g ohb ∧ t'.columns.length = t.columns.length + 270 ∧
      Adds Tw t t' fun w => MulSSRow Tw w g ohb := by
  obtain ⟨xin, t1, a1, a2, a3⟩ := packColumn_ok Tw ht 5 (by norm_num) hx
  obtain ⟨yin, t2, b1, b2, b3⟩ := packColumn_ok Tw (a3.wf ht) 5 (by norm_num) (hy.ext a3.ext)
  have e2 := a3.ext.trans b3.ext
  have w2 := b3.wf (a3.wf ht)
  have l2 : t2.columns.length = t.columns.length + 2 := by rw [b2.len, a2.len]
  obtain ⟨x31, hx31, hxh⟩ := hx.get (j := 31) (by norm_num)
  obtain ⟨y31, hy31, hyh⟩ := hy.get (j := 31) (by norm_num)
  obtain ⟨m, t3, c1, rfl, rfl, c4, c5, c6, c7, c8, c9, c10, c11, c12⟩ := Mul_withInputs_ok Tw w2 (level := 5) (Or.inl rfl)
    (xs := xs) (ys := ys) (hx.ext e2) (hy.ext e2)
  replace c10 : HasAll t3 m.outHighBits 32 := c10
  replace c11 : HasAll t3 m.outLowBits 32 := c11
  have e3 := e2.trans c12.ext
  have w3 := c12.wf w2
  have l3 : t3.columns.length = t.columns.length + 74 := by rw [c5, l2]; omega
  obtain ⟨yb, t4, d1, d2, d3, d4, d5, d6, d7, d8, d9, d10, d11, d12⟩ := WideSub_new_ok Tw w3 (n := 32) (by norm_num)
    (flags := subFlags) c10 (hy.ext e3) (fun c hc => by cases hc)
  have e4 := e3.trans d12.ext
  have w4 := d12.wf w3
  have l4 : t4.columns.length = t.columns.length + 139 := by rw [d11, l3]
  obtain ⟨nph, t5, f1, f2, f3⟩ := select_ok Tw w4 (c10.ext d12.ext) d8 (hxh.ext e4)
  have e5 := e4.trans f3.ext
  have w5 := f3.wf w4
  have l5 : t5.columns.length = t.columns.length + 171 := by rw [f2.len, l4]
  obtain ⟨xb, t6, g1, g2, g3, g4, g5, g6, g7, g8, g9, g10, g11, g12⟩ := WideSub_new_ok Tw w5 (n := 32) (by norm_num)
    (flags := subFlags) f2.hasAll (hx.ext e5) (fun c hc => by cases hc)
  have e6 := e5.trans g12.ext
  have w6 := g12.wf w5
  have l6 : t6.columns.length = t.columns.length + 236 := by rw [g11, l5]
  obtain ⟨ohb, t7, h1, h2, h3⟩ := select_ok Tw w6 (f2.hasAll.ext g12.ext) g8 (hyh.ext e6)
  have w7 := h3.wf w6
  have l7 : t7.columns.length = t.columns.length + 268 := by rw [h2.len, l6]
  obtain ⟨oh, t8, i1, i2, i3⟩ := packColumn_ok Tw w7 5 (by norm_num) h2.hasAll
  have e37 := d12.ext.trans (f3.ext.trans (g12.ext.trans h3.ext))
  have hlo8 := c11.ext (e37.trans i3.ext)
  obtain ⟨ol, t9, j1, j2, j3⟩ := packColumn_ok Tw (i3.wf w7) 5 (by norm_num) hlo8
  have l8 : t8.columns.length = t.columns.length + 269 := by rw [i2.len, l7]
  have e39 := e37.trans (i3.ext.trans j3.ext)
  have e29 := c12.ext.trans e39
  refine ⟨⟨m, m.xInBits, m.yInBits, yb, nph, xb, m.outLowBits ++ ohb, xin, yin, oh, ol⟩, t9, ohb, ?_, rfl, rfl, ?_, ?_, ?_, ?_⟩
  · rw [MulSS32.withInput, a1, Option.bind_some]
    dsimp only
    rw [b1, Option.bind_some]
    dsimp only
    rw [hx31, Option.bind_some, hy31, Option.bind_some, c1, Option.bind_some]
    dsimp only
    rw [d1, Option.bind_some]
    dsimp only
    rw [f1, Option.bind_some]
    dsimp only
    rw [g1, Option.bind_some]
    dsimp only
    rw [h1, Option.bind_some]
    dsimp only
    rw [i1, Option.bind_some]
    dsimp only
    rw [j1, Option.bind_some]
  · rw [l2] at c4
    refine ⟨a2.idx, by rw [← a2.len]; exact b2.idx, rfl, rfl, c4, d2, d3, by show yb.flags.borrowInBit = none; rw [d4]; rfl,
      ⟨d5.length, d8.length, ?_, ?_, ?_⟩, f2.length, ?_, g2, g3, by show xb.flags.borrowInBit = none; rw [g4]; rfl,
      ⟨g5.length, g8.length, ?_, ?_, ?_⟩, h2.length, ?_, rfl, ?_, ?_⟩
    · intro k d hk; rw [d6 k d hk, l3]
    · show yb.bin.idx = _; rw [d7, l3]
    · intro k d hk; rw [d9 k d hk, l3]
    · intro k c hk; rw [(f2.col k c hk).1, l4]
    · intro k d hk; rw [g6 k d hk, l5]
    · show xb.bin.idx = _; rw [g7, l5]
    · intro k d hk; rw [g9 k d hk, l5]
    · intro k c hk; rw [(h2.col k c hk).1, l6]
    · rw [i2.idx, l7]
    · rw [j2.idx, l8]
  · exact ⟨hlo8.ext j3.ext, h2.hasAll.ext (i3.ext.trans j3.ext), (a2.has.ext b3.ext).ext e29, b2.has.ext e29,
      i2.has.ext j3.ext, j2.has, ⟨t3, l3, c10, e3⟩, ⟨t5, l5, f2.hasAll, e5⟩⟩
  · rw [j2.len, l8]
  · refine ((((((((a3.trans b3).trans c12).trans d12).trans f3).trans g12).trans h3).trans i3).trans j3).congr fun w hw => ?_
    rw [← val_get (w := w) hx31, ← val_get (w := w) hy31]
    constructor
    · rintro ⟨⟨⟨⟨⟨⟨⟨⟨⟨p1, p2⟩, p3, p4⟩, p5⟩, p6⟩, p7, p8⟩, p9⟩, p10, p11⟩, p12, p13⟩, p14, p15⟩
      exact ⟨p1, p2, p3, p4, p5, p6, p7, p8, p9, p10, p11, p12, p13, p14, p15⟩
    · intro h
      exact ⟨⟨⟨⟨⟨⟨⟨⟨⟨h.fx, h.x⟩, h.fy, h.y⟩, h.mul⟩, h.ysub⟩, h.nb, h.nph⟩, h.xsub⟩, h.ob, h.oh⟩, h.fh, h.h⟩, h.fl, h.l⟩

end Verif.M3
