import Verif.M3.LemmasMulSU
import Verif.M3.LemmasDiv

/-! Lemmas on the gadget that divides unsigned numbers. -/

set_option linter.dupNamespace false
set_option linter.unusedSectionVars false

namespace Verif.M3

open Finset Verif.Arith

variable {F : Type} [Field F] [DecidableEq F] [CharP F 2]

structure DivUURow (Tw : Tower F) (w : Row F) (z : Col) (g : DivUU32) : Prop where
  zero : w z.idx 0 = 0
  bp : ∀ j < 32, IsBit (val w g.pInBits j)
  bq : ∀ j < 32, IsBit (val w g.qInBits j)
  fp : Tw.sub 5 (w g.pIn.idx 0)
  p : w g.pIn.idx 0 = ∑ j ∈ range 32, val w g.pInBits j * Tw.basis j
  fq : Tw.sub 5 (w g.qIn.idx 0)
  q : w g.qIn.idx 0 = ∑ j ∈ range 32, val w g.qInBits j * Tw.basis j
  bd : ∀ j < 32, IsBit (val w g.outDivBits j)
  br : ∀ j < 32, IsBit (val w g.outRemBits j)
  fd : Tw.sub 5 (w g.outDiv.idx 0)
  d : w g.outDiv.idx 0 = ∑ j ∈ range 32, val w g.outDivBits j * Tw.basis j
  fr : Tw.sub 5 (w g.outRem.idx 0)
  r : w g.outRem.idx 0 = ∑ j ∈ range 32, val w g.outRemBits j * Tw.basis j
  mul : MulRow Tw w 5 g.mulInner
  nz : w g.qIn.idx 0 ≠ 0
  sum : WideAddRow w 64 (g.mulInner.outLowBits ++ g.mulInner.outHighBits) (g.outRemBits ++ List.replicate 32 z) g.sum.cin g.sum.zOut
    g.sum.finalCarryOut none
  eq : ∀ j < 64, val w (g.pInBits ++ List.replicate 32 z) j = val w g.sum.zOut j
  diff : WideSubRow w 64 (g.outRemBits ++ List.replicate 32 z) (g.qInBits ++ List.replicate 32 z) g.diff.bin g.diff.bout g.diff.zout none
  lt : val w g.diff.zout 63 = 1

structure DivUULayout (L0 : Nat) (z : Col) (g : DivUU32) : Prop where
  zero : z.idx = L0
  plen : g.pInBits.length = 32
  pidx : ∀ (k : Nat) (c : Col), g.pInBits[k]? = some c → c.idx = L0 + 1 + k
  qlen : g.qInBits.length = 32
  qidx : ∀ (k : Nat) (c : Col), g.qInBits[k]? = some c → c.idx = L0 + 33 + k
  pin : g.pIn.idx = L0 + 65
  qin : g.qIn.idx = L0 + 66
  dlen : g.outDivBits.length = 32
  didx : ∀ (k : Nat) (c : Col), g.outDivBits[k]? = some c → c.idx = L0 + 67 + k
  rlen : g.outRemBits.length = 32
  ridx : ∀ (k : Nat) (c : Col), g.outRemBits[k]? = some c → c.idx = L0 + 99 + k
  dout : g.outDiv.idx = L0 + 131
  rout : g.outRem.idx = L0 + 132
  mx : g.mulInner.xInBits = g.qInBits
  my : g.mulInner.yInBits = g.outDivBits
  mul : MulLayout (L0 + 133) (2 ^ 5) g.mulInner
  sx : g.sum.xIn = g.mulInner.outLowBits ++ g.mulInner.outHighBits
  sy : g.sum.yIn = g.outRemBits ++ List.replicate 32 z
  sf : g.sum.flags.carryInBit = none
  sum : Layout3 (L0 + 205) 64 g.sum.cin g.sum.zOut g.sum.finalCarryOut
  dx : g.diff.xin = g.outRemBits ++ List.replicate 32 z
  dy : g.diff.yin = g.qInBits ++ List.replicate 32 z
  df : g.diff.flags.borrowInBit = none
  diff : LayoutSub (L0 + 334) 64 g.diff.bin g.diff.bout g.diff.zout

set_option maxHeartbeats 2000000 in
theorem DivUU32_ok (Tw : Tower F) {t : Table F} (ht : WellFormed t) :
    ∃ (g : DivUU32) (t' : Table F) (z : Col), DivUU32.new Tw.basis (Tw.gen 6) t = some (g, t') ∧ DivUULayout t.columns.length z g ∧
      (t'.Has g.pIn 5 0 ∧ t'.Has g.qIn 5 0 ∧ t'.Has g.outDiv 5 0 ∧ t'.Has g.outRem 5 0) ∧
      (∀ w, t'.fillConstants w z.idx 0 = 0) ∧
      (∃ t1 : Table F, t1.columns.length = t.columns.length + 205 ∧ HasAll t1 g.sum.xIn 64 ∧ HasAll t1 g.sum.yIn 64) ∧
      (∃ t1 : Table F, t1.columns.length = t.columns.length + 334 ∧ HasAll t1 g.diff.xin 64 ∧ HasAll t1 g.diff.yin 64) ∧
      Adds Tw t t' fun w => DivUURow Tw w z g := by
  obtain ⟨z, s0, z1, z2, z3⟩ : ∃ z s0, t.addConstant 0 0 [0] = some (z, s0) ∧ s0.columns[t.columns.length]? = some ⟨.constant [0], 0, 0, false⟩ ∧
      New t s0 z 0 0 ∧ Adds Tw t s0 fun w => w z.idx 0 = 0 := by
    obtain ⟨h1, h2⟩ := newColumn_ok Tw t 0 0 (.constant [0]) (by simp [ColumnDef.refs])
    refine ⟨_, _, by rw [Table.addConstant, if_pos (by simp)], ?_, h1, h2.congr fun w _ => ?_⟩
    · show (t.columns ++ [_])[t.columns.length]? = _
      rw [List.getElem?_append_right le_rfl, Nat.sub_self]; rfl
    · rw [h1.idx]
      constructor
      · rintro ⟨-, h⟩
        exact (Option.some.inj (h 0 (by norm_num))).symm
      · intro h
        refine ⟨fun pos hp => ?_, fun pos hp => ?_⟩
        · rw [show pos = 0 by omega, h]; exact sub_of_isBit isBit_zero
        · rw [show pos = 0 by omega, h]; rfl
  obtain ⟨zn, z3⟩ := z3
  have w0 := z3.wf ht
  obtain ⟨ps, s1, p1, p2, p3⟩ := addCommittedMultiple_ok Tw w0 0 0 32
  have w1 := p3.wf w0
  obtain ⟨qs, s2, q1, q2, q3⟩ := addCommittedMultiple_ok Tw w1 0 0 32
  have w2 := q3.wf w1
  have l2 : s2.columns.length = t.columns.length + 65 := by rw [q2.len, p2.len, zn.len]
  obtain ⟨pin, s3, a1, a2, a3⟩ := packColumn_ok Tw w2 5 (by norm_num) (p2.hasAll.ext q3.ext)
  have w3 := a3.wf w2
  obtain ⟨qin, s4, b1, b2, b3⟩ := packColumn_ok Tw w3 5 (by norm_num) (q2.hasAll.ext a3.ext)
  have w4 := b3.wf w3
  have l4 : s4.columns.length = t.columns.length + 67 := by rw [b2.len, a2.len, l2]
  obtain ⟨ds, s5, d1, d2, d3⟩ := addCommittedMultiple_ok Tw w4 0 0 32
  have w5 := d3.wf w4
  have l5 : s5.columns.length = t.columns.length + 99 := by rw [d2.len, l4]
  obtain ⟨rs, s6, r1, r2, r3⟩ := addCommittedMultiple_ok Tw w5 0 0 32
  have w6 := r3.wf w5
  have l6 : s6.columns.length = t.columns.length + 131 := by rw [r2.len, l5]
  obtain ⟨dout, s7, e1, e2, e3⟩ := packColumn_ok Tw w6 5 (by norm_num) (d2.hasAll.ext r3.ext)
  have w7 := e3.wf w6
  have l7 : s7.columns.length = t.columns.length + 132 := by rw [e2.len, l6]
  obtain ⟨rout, s8, f1, f2, f3⟩ := packColumn_ok Tw w7 5 (by norm_num) (r2.hasAll.ext e3.ext)
  have w8 := f3.wf w7
  have l8 : s8.columns.length = t.columns.length + 133 := by rw [f2.len, l7]
  have ex28 := a3.ext.trans (b3.ext.trans (d3.ext.trans (r3.ext.trans (e3.ext.trans f3.ext))))
  have hq8 := q2.hasAll.ext ex28
  have hd8 := d2.hasAll.ext (r3.ext.trans (e3.ext.trans f3.ext))
  have hr8 := r2.hasAll.ext (e3.ext.trans f3.ext)
  have hp8 := (p2.hasAll.ext q3.ext).ext ex28
  have hz8 := zn.has.ext (p3.ext.trans (q3.ext.trans ex28))
  obtain ⟨m, s9, m1, rfl, rfl, m4, m5, m6, m7, m8, m9, m10, m11, m12⟩ := Mul_withInputs_ok Tw w8 (level := 5) (Or.inl rfl)
    (xs := qs) (ys := ds) hq8 hd8
  have w9 := m12.wf w8
  have l9 : s9.columns.length = t.columns.length + 205 := by rw [m5, l8]; omega
  have hqin : s9.Has qin 5 0 := b2.has.ext (d3.ext.trans (r3.ext.trans (e3.ext.trans (f3.ext.trans m12.ext))))
  obtain ⟨s10, n1, n2, n3⟩ := assertNonzero_ok Tw hqin
  have w10 := n3.wf w9
  have l10 : s10.columns.length = t.columns.length + 205 := by rw [n2, l9]
  have ex810 := m12.ext.trans n3.ext
  have hpad10 := HasAll.replicate (hz8.ext ex810) 32
  have hr10 := (hr8.ext ex810).append hpad10
  have hm10 : HasAll s10 (m.outLowBits ++ m.outHighBits) 64 := (m11.append m10).ext n3.ext
  obtain ⟨g, s11, g1, g2, g3, g4, g5, g6, g7, g8, g9, g10, g11, g12⟩ := WideAdd_new_ok Tw w10 (n := 64) (flags := ⟨none, true, true⟩) hm10 hr10
    (fun c hc => by cases hc)
  have w11 := g12.wf w10
  have l11 : s11.columns.length = t.columns.length + 334 := by rw [g11, l10]
  have ex811 := ex810.trans g12.ext
  have hpad11 := hpad10.ext g12.ext
  obtain ⟨s12, h1, h2, h3⟩ := equalZero_ok Tw w11 ((hp8.ext ex811).append hpad11) g7
  have w12 := h3.wf w11
  have l12 : s12.columns.length = t.columns.length + 334 := by rw [h2, l11]
  have hr12 := (hr10.ext g12.ext).ext h3.ext
  have hq12 := (((hq8.ext ex811).append hpad11)).ext h3.ext
  obtain ⟨u, s13, u1, u2, u3, u4, u5, u6, u7, u8, u9, u10, u11, u12⟩ := WideSub_new_ok Tw w12 (n := 64) (by norm_num)
    (flags := subFlags) hr12 hq12 (fun c hc => by cases hc)
  have w13 := u12.wf w12
  obtain ⟨s14, v1, v2, v3⟩ := lessThan_ok Tw u8
  have ex414 := d3.ext.trans (r3.ext.trans (e3.ext.trans (f3.ext.trans (ex811.trans (h3.ext.trans (u12.ext.trans v3.ext))))))
  have ex814 := ex811.trans (h3.ext.trans (u12.ext.trans v3.ext))
  refine ⟨⟨m, g, u, ps, m.xInBits, m.yInBits, rs, pin, qin, dout, rout⟩, s14, z, ?_, ?_, ?_, ?_, ⟨s10, l10, ?_, ?_⟩, ⟨s12, l12, ?_, ?_⟩, ?_⟩
  · rw [DivUU32.new, z1, Option.bind_some]
    dsimp only
    rw [p1, Option.bind_some]
    dsimp only
    rw [q1, Option.bind_some]
    dsimp only
    rw [a1, Option.bind_some]
    dsimp only
    rw [b1, Option.bind_some]
    dsimp only
    rw [d1, Option.bind_some]
    dsimp only
    rw [r1, Option.bind_some]
    dsimp only
    rw [e1, Option.bind_some]
    dsimp only
    rw [f1, Option.bind_some]
    dsimp only
    rw [m1, Option.bind_some]
    dsimp only
    rw [n1, Option.bind_some]
    rw [g1, Option.bind_some]
    dsimp only
    rw [h1, Option.bind_some]
    rw [u1, Option.bind_some]
    dsimp only
    rw [v1, Option.bind_some]
  · rw [l8] at m4
    refine ⟨zn.idx, p2.length, fun k c hk => ?_, q2.length, fun k c hk => ?_, ?_, ?_, d2.length, fun k c hk => ?_, r2.length,
      fun k c hk => ?_, ?_, ?_, rfl, rfl, m4, g2, g3, by show g.flags.carryInBit = none; rw [g4],
      ⟨g5, g7.length, fun k d hk => ?_, fun k d hk => ?_, ?_⟩, u2, u3, by show u.flags.borrowInBit = none; rw [u4]; rfl,
      ⟨u5.length, u8.length, fun k d hk => ?_, ?_, fun k d hk => ?_⟩⟩
    · rw [(p2.col k c hk).1, zn.len]
    · rw [(q2.col k c hk).1, p2.len, zn.len]
    · show pin.idx = _; rw [a2.idx, l2]
    · show qin.idx = _; rw [b2.idx, a2.len, l2]
    · rw [(d2.col k c hk).1, l4]
    · rw [(r2.col k c hk).1, l5]
    · show dout.idx = _; rw [e2.idx, l6]
    · show rout.idx = _; rw [f2.idx, l7]
    · rw [g6 k d hk, l10]
    · rw [g8 k d hk, l10]
    · show g.finalCarryOut.idx = _; rw [g10, l10]
    · rw [u6 k d hk, l12]
    · show u.bin.idx = _; rw [u7, l12]
    · rw [u9 k d hk, l12]
  · exact ⟨(a2.has.ext b3.ext).ext ex414, b2.has.ext ex414, (e2.has.ext f3.ext).ext ex814, f2.has.ext ex814⟩
  · intro w
    rw [zn.idx]
    exact fillConstants_zero (p3.ext.trans (q3.ext.trans (a3.ext.trans (b3.ext.trans ex414)))) z2 rfl w
  · show HasAll s10 g.xIn 64; rw [g2]; exact hm10
  · show HasAll s10 g.yIn 64; rw [g3]; exact hr10
  · show HasAll s12 u.xin 64; rw [u2]; exact hr12
  · show HasAll s12 u.yin 64; rw [u3]; exact hq12
  · refine (((((((((((((((z3.trans p3).trans q3).trans a3).trans b3).trans d3).trans r3).trans e3).trans f3).trans m12).trans n3).trans
      g12).trans h3).trans u12).trans v3)).congr fun w hw => ?_
    rw [inField_all (Tw := Tw) p2.length, inField_all (Tw := Tw) q2.length, inField_all (Tw := Tw) d2.length,
      inField_all (Tw := Tw) r2.length, forall_lt_one]
    constructor
    · rintro ⟨⟨⟨⟨⟨⟨⟨⟨⟨⟨⟨⟨⟨⟨k0, k1⟩, k2⟩, k3, k4⟩, k5, k6⟩, k7⟩, k8⟩, k9, k10⟩, k11, k12⟩, k13⟩, k14⟩, k15⟩, k16⟩, k17⟩, k18⟩
      exact ⟨k0, k1, k2, k3, k4, k5, k6, k7, k8, k9, k10, k11, k12, k13, k14, k15, k16, k17, k18⟩
    · intro h
      exact ⟨⟨⟨⟨⟨⟨⟨⟨⟨⟨⟨⟨⟨⟨h.zero, h.bp⟩, h.bq⟩, h.fp, h.p⟩, h.fq, h.q⟩, h.bd⟩, h.br⟩, h.fd, h.d⟩, h.fr, h.r⟩, h.mul⟩, h.nz⟩, h.sum⟩,
        h.eq⟩, h.diff⟩, h.lt⟩

theorem bit_le_one (x : F) : bit x ≤ 1 := by
  unfold bit; split <;> omega

theorem divUU_sound {Tw : Tower F} (hT : 6 ≤ Tw.height) {w : Row F} {L0 : Nat} {z : Col} {g : DivUU32}
    (hl : DivUULayout L0 z g) (h : DivUURow Tw w z g) :
    wide w g.qInBits ≠ 0 ∧
    (wide w g.pInBits = wide w g.qInBits * wide w g.outDivBits + wide w g.outRemBits ∨
      wide w g.pInBits = wide w g.qInBits * wide w g.outDivBits + wide w g.outRemBits + 1) ∧
    w g.pIn.idx 0 = element Tw.basis 32 (wide w g.pInBits) ∧ w g.qIn.idx 0 = element Tw.basis 32 (wide w g.qInBits) ∧
    w g.outDiv.idx 0 = element Tw.basis 32 (wide w g.outDivBits) ∧
    w g.outRem.idx 0 = element Tw.basis 32 (wide w g.outRemBits) := by
  have hml := hl.mul.llen
  have hmh := hl.mul.hlen
  have hs := mulRow_sound (level := 5) hT h.mul (by rw [hl.mx]; exact hl.qlen) (by rw [hl.my]; exact hl.dlen) hml hmh
    (fun j hj => by rw [hl.mx]; exact h.bq j hj) fun j hj => by rw [hl.my]; exact h.bd j hj
  rw [hl.mx, hl.my] at hs
  have eq_ : w g.qIn.idx 0 = element Tw.basis 32 (wide w g.qInBits) := by rw [h.q, pack_element hl.qlen h.bq]
  refine ⟨fun h0 => h.nz (by rw [eq_, h0, element_zero]), ?_, by rw [h.p, pack_element hl.plen h.bp], eq_,
    by rw [h.d, pack_element hl.dlen h.bd], by rw [h.r, pack_element hl.rlen h.br]⟩
  have lp := wide_lt w hl.plen
  have lq := wide_lt w hl.qlen
  have ld := wide_lt w hl.dlen
  have lr := wide_lt w hl.rlen
  have ll := wide_lt w hml
  have lh := wide_lt w hmh
  norm_num only at ll lh hs
  have hz : w z.idx 0 = ofBit false := h.zero
  have hpad := Bits.replicate hz 32
  rw [if_neg Bool.false_ne_true] at hpad
  have bp := (Bits.of_wide hl.plen h.bp).append hl.plen hpad lp
  have br := (Bits.of_wide hl.rlen h.br).append hl.rlen hpad lr
  have bm := (Bits.of_wide (n := 32) hml h.mul.lo).append hml (Bits.of_wide (n := 32) hmh h.mul.hi) ll
  simp only [Nat.mul_zero, Nat.add_zero] at bp br
  have hmul_lt : wide w g.qInBits * wide w g.outDivBits < 2 ^ 64 := by
    calc _ < 2 ^ 32 * 2 ^ 32 := Nat.mul_lt_mul'' lq ld
      _ = 2 ^ 64 := by norm_num
  have hlenr : (g.outRemBits ++ List.replicate 32 z).length = 64 := by rw [List.length_append, hl.rlen, List.length_replicate]
  have hlenp : (g.pInBits ++ List.replicate 32 z).length = 64 := by rw [List.length_append, hl.plen, List.length_replicate]
  have hlenm : (g.mulInner.outLowBits ++ g.mulInner.outHighBits).length = 64 := by
    rw [List.length_append, hml, hmh]; norm_num
  have hsum := wideAdd_sound h.sum (by norm_num) hlenm hlenr hl.sum.zlen bm.isBit br.isBit
  have e1 : wide w (g.mulInner.outLowBits ++ g.mulInner.outHighBits) = wide w g.qInBits * wide w g.outDivBits := by
    rw [bm.wide hlenm (by norm_num only; omega)]; norm_num only; exact hs
  have e2 : wide w (g.outRemBits ++ List.replicate 32 z) = wide w g.outRemBits := br.wide hlenr (lr.trans (by norm_num))
  have e3 : wide w g.sum.zOut = wide w g.pInBits := by
    have : Bits w g.sum.zOut 64 (wide w g.pInBits) := fun j hj => by rw [← h.eq j hj]; exact bp j hj
    exact this.wide hl.sum.zlen (lp.trans (by norm_num))
  rw [e1, e2, e3] at hsum
  have b1 := bit_le_one (val w g.sum.cin 0)
  generalize bit (val w g.sum.cin 0) = k at *
  have hfin : bit (w g.sum.finalCarryOut.idx 0) = 0 := by
    by_contra hne
    have hone : 1 ≤ bit (w g.sum.finalCarryOut.idx 0) := by omega
    have hm : wide w g.qInBits * wide w g.outDivBits ≤ (2 ^ 32 - 1) * (2 ^ 32 - 1) := Nat.mul_le_mul (by omega) (by omega)
    generalize wide w g.qInBits * wide w g.outDivBits = M at *
    generalize bit (w g.sum.finalCarryOut.idx 0) = f at *
    omega
  rw [hfin] at hsum
  omega

structure DivUUFilled (Tw : Tower F) (L0 : Nat) (z : Col) (g : DivUU32) (p q d r : Nat) (w u : Row F) : Prop where
  row : DivUURow Tw u z g
  lt : ∀ i, i < L0 → ∀ pos, u i pos = w i pos
  bp : wide u g.pInBits = p
  bq : wide u g.qInBits = q
  bd : wide u g.outDivBits = d
  br : wide u g.outRemBits = r

set_option maxHeartbeats 4000000 in
theorem divUU_build {Tw : Tower F} (hT : 6 ≤ Tw.height) {L0 : Nat} {z : Col} {g : DivUU32} (hl : DivUULayout L0 z g)
    {p q d r : Nat} (hp : p < 2 ^ 32) (hq : q < 2 ^ 32) (hd : d < 2 ^ 32) (hr : r < 2 ^ 32) (hq0 : q ≠ 0) {w : Row F}
    (hz : w z.idx 0 = 0) :
    ∃ w2, g.mulInner.populate Tw.basis 5 q d (populateDiv Tw.basis g.pIn g.qIn g.outDiv g.outRem g.pInBits g.qInBits g.outDivBits
        g.outRemBits p q d r w) = some w2 ∧
      Bits w2 g.sum.xIn 64 (q * d) ∧ Bits w2 g.sum.yIn 64 r ∧
      ∀ w3, AddFill (L0 + 205) 64 g.sum w2 w3 p → Bits w3 g.diff.xin 64 r ∧ Bits w3 g.diff.yin 64 q ∧
        ∀ w4 Z, 2 ^ 63 ≤ Z → Z < 2 ^ 64 → SubFill (L0 + 334) 64 g.diff w3 w4 Z →
          DivUUFilled Tw L0 z g p q d r w (g.mulInner.fillExponents (Tw.gen 6) 5 w4) := by
  have h0 := hl.zero
  have h1 := hl.pin
  have h2 := hl.qin
  have h3 := hl.dout
  have h4 := hl.rout
  have m1 := hl.mul.xin
  have m2 := hl.mul.yin
  have m3 := hl.mul.ol
  have m4 := hl.mul.oh
  norm_num only at m3 m4
  have rp : ∀ c ∈ g.pInBits, L0 + 1 ≤ c.idx ∧ c.idx < L0 + 33 := fun c hc => by
    have := idx_range hl.plen hl.pidx hc; omega
  have rq : ∀ c ∈ g.qInBits, L0 + 33 ≤ c.idx ∧ c.idx < L0 + 65 := fun c hc => by
    have := idx_range hl.qlen hl.qidx hc; omega
  have rd : ∀ c ∈ g.outDivBits, L0 + 67 ≤ c.idx ∧ c.idx < L0 + 99 := fun c hc => by
    have := idx_range hl.dlen hl.didx hc; omega
  have rr : ∀ c ∈ g.outRemBits, L0 + 99 ≤ c.idx ∧ c.idx < L0 + 131 := fun c hc => by
    have := idx_range hl.rlen hl.ridx hc; omega
  have rlo : ∀ c ∈ g.mulInner.outLowBits, L0 + 169 ≤ c.idx ∧ c.idx < L0 + 201 := fun c hc => by
    have := idx_range hl.mul.llen hl.mul.lo hc; norm_num only at this; omega
  have rhi : ∀ c ∈ g.mulInner.outHighBits, L0 + 137 ≤ c.idx ∧ c.idx < L0 + 169 := fun c hc => by
    have := idx_range hl.mul.hlen hl.mul.hi hc; norm_num only at this; omega
  have rsc : ∀ c ∈ g.sum.cin, L0 + 205 ≤ c.idx ∧ c.idx < L0 + 269 := fun c hc => by
    have := idx_range hl.sum.clen hl.sum.cidx hc; omega
  have rsz : ∀ c ∈ g.sum.zOut, L0 + 269 ≤ c.idx ∧ c.idx < L0 + 333 := fun c hc => by
    have := idx_range hl.sum.zlen hl.sum.zidx hc; omega
  have rsf := hl.sum.fidx
  have rdb : ∀ c ∈ g.diff.bout, L0 + 334 ≤ c.idx ∧ c.idx < L0 + 398 := fun c hc => by
    have := idx_range hl.diff.blen hl.diff.bidx hc; omega
  have rdz : ∀ c ∈ g.diff.zout, L0 + 399 ≤ c.idx ∧ c.idx < L0 + 463 := fun c hc => by
    have := idx_range hl.diff.zlen hl.diff.zidx hc; omega
  have rdi := hl.diff.iidx
  have rz : ∀ c ∈ List.replicate 32 z, c.idx = L0 := fun c hc => by rw [List.eq_of_mem_replicate hc]; exact h0
  obtain ⟨c1, c2, c3, c4, c5, c6, c7, c8, c9⟩ := populateDiv_vals (id := L0 + 67) hl.plen hl.qlen hl.dlen hl.rlen hl.pidx hl.qidx hl.didx hl.ridx
    (by omega) (by omega) (by omega) (by omega) (by omega) (by omega) (by omega) Tw.basis p q d r w rfl
  set w1 := populateDiv Tw.basis g.pIn g.qIn g.outDiv g.outRem g.pInBits g.qInBits g.outDivBits g.outRemBits p q d r w with hw1
  have hnd : ((g.qInBits ++ g.outDivBits).map Col.idx).Nodup := by
    rw [List.map_append, List.nodup_append]
    refine ⟨nodup_range hl.qlen hl.qidx, nodup_range hl.dlen hl.didx, fun a ha b hb => ?_⟩
    obtain ⟨c, hc, rfl⟩ := List.mem_map.1 ha
    obtain ⟨d, hd, rfl⟩ := List.mem_map.1 hb
    have := rq c hc
    have := rd d hd
    omega
  obtain ⟨w2, p1, p2, -, p4, p5, p6, p7, p8, p9⟩ := mul_populate_vals hl.mul
    (fun c hc => by rw [hl.mx] at hc; have := rq c hc; omega) (fun c hc => by rw [hl.my] at hc; have := rd c hc; omega) Tw.basis false q d w1
    (by rw [hl.mx, hl.my]; exact hnd)
  have ne2 : ∀ i, (i < L0 + 133 ∨ L0 + 205 ≤ i) → ∀ pos, w2 i pos = w1 i pos := fun i hi pos =>
    p2 i (by norm_num only; omega) (fun h => (by cases h)) pos
  have lmul : q * d < 2 ^ 64 := by
    calc _ < 2 ^ 32 * 2 ^ 32 := Nat.mul_lt_mul'' hq hd
      _ = 2 ^ 64 := by norm_num
  have llo : q * d % 2 ^ 32 < 2 ^ 32 := Nat.mod_lt _ (Nat.two_pow_pos _)
  replace p4 : Bits w2 g.mulInner.outLowBits 32 (q * d % 2 ^ 32) := p4
  replace p5 : Bits w2 g.mulInner.outHighBits 32 (q * d / 2 ^ 32) := p5
  have bm2 : Bits w2 g.sum.xIn 64 (q * d) := by
    rw [hl.sx]
    have := p4.append hl.mul.llen p5 llo
    rwa [Nat.mod_add_div] at this
  have bz2 : w2 z.idx 0 = ofBit false := by rw [ne2 _ (by omega), c1 _ (by omega), hz]; rfl
  have bp2 : Bits w2 g.pInBits 32 p := c2.congr fun c hc => ne2 _ (by have := rp c hc; omega) 0
  have bq2 : Bits w2 g.qInBits 32 q := c3.congr fun c hc => ne2 _ (by have := rq c hc; omega) 0
  have bd2 : Bits w2 g.outDivBits 32 d := c4.congr fun c hc => ne2 _ (by have := rd c hc; omega) 0
  have br2 : Bits w2 g.outRemBits 32 r := c5.congr fun c hc => ne2 _ (by have := rr c hc; omega) 0
  have pad : ∀ {v : Row F} {cs : List Col} {x : Nat}, v z.idx 0 = ofBit false → cs.length = 32 → Bits v cs 32 x → x < 2 ^ 32 →
      Bits v (cs ++ List.replicate 32 z) 64 x := fun hv hlen hb hx => by
    have := hb.append hlen (Bits.replicate hv 32) hx
    rwa [if_neg Bool.false_ne_true, Nat.mul_zero, Nat.add_zero] at this
  refine ⟨w2, p1, bm2, by rw [hl.sy]; exact pad bz2 hl.rlen br2 hr, fun w3 s3 => ?_⟩
  have ne3 : ∀ i, (i < L0 + 205 ∨ L0 + 334 ≤ i) → ∀ pos, w3 i pos = w2 i pos := fun i hi pos => s3.ne i (by omega) pos
  have bz3 : w3 z.idx 0 = ofBit false := by rw [ne3 _ (by omega), bz2]
  have bq3 : Bits w3 g.qInBits 32 q := bq2.congr fun c hc => ne3 _ (by have := rq c hc; omega) 0
  have br3 : Bits w3 g.outRemBits 32 r := br2.congr fun c hc => ne3 _ (by have := rr c hc; omega) 0
  refine ⟨by rw [hl.dx]; exact pad bz3 hl.rlen br3 hr, by rw [hl.dy]; exact pad bz3 hl.qlen bq3 hq, fun w4 Z hZ1 hZ2 s4 => ?_⟩
  have ne4 : ∀ i, (i < L0 + 334) → ∀ pos, w4 i pos = w3 i pos := fun i hi pos => s4.ne i (by omega) pos
  have ne42 : ∀ i, (i < L0 + 205) → ∀ pos, w4 i pos = w2 i pos := fun i hi pos => by rw [ne4 i (by omega), ne3 i (by omega)]
  set u := g.mulInner.fillExponents (Tw.gen 6) 5 w4 with hu
  have nu : ∀ i, (i < L0 + 135 ∨ (L0 + 137 ≤ i ∧ i < L0 + 203) ∨ L0 + 205 ≤ i) → ∀ pos, u i pos = w4 i pos := fun i hi pos =>
    fillExponents_ne (level := 5) hl.mul (Tw.gen 6) w4 (by norm_num only; omega) pos
  have nu2 : ∀ i, (i < L0 + 135 ∨ (L0 + 137 ≤ i ∧ i < L0 + 203)) → ∀ pos, u i pos = w2 i pos := fun i hi pos => by
    rw [nu i (by omega), ne42 i (by omega)]
  have nu1 : ∀ i, (i < L0 + 133) → ∀ pos, u i pos = w1 i pos := fun i hi pos => by rw [nu2 i (by omega), ne2 i (by omega)]
  have bp : Bits u g.pInBits 32 p := bp2.congr fun c hc => nu2 _ (by have := rp c hc; omega) 0
  have bq : Bits u g.qInBits 32 q := bq2.congr fun c hc => nu2 _ (by have := rq c hc; omega) 0
  have bd : Bits u g.outDivBits 32 d := bd2.congr fun c hc => nu2 _ (by have := rd c hc; omega) 0
  have br : Bits u g.outRemBits 32 r := br2.congr fun c hc => nu2 _ (by have := rr c hc; omega) 0
  have bz : u z.idx 0 = ofBit false := by rw [nu2 _ (by omega), bz2]
  have hmul : MulRow Tw u 5 g.mulInner := by
    refine mulRow_of_vals' (level := 5) (n := 32) (x := q) (y := d) (by norm_num) hT hl.mul (fun c hc => ?_) (fun c hc => ?_)
      (by rw [hl.mx]; exact hl.qlen) (by rw [hl.my]; exact hl.dlen)
      hq hd (by rw [hl.mx]; exact bq2.congr fun c hc => ne42 _ (by have := rq c hc; omega) 0)
      (by rw [hl.my]; exact bd2.congr fun c hc => ne42 _ (by have := rd c hc; omega) 0)
      (p4.congr fun c hc => ne42 _ (by have := rlo c hc; omega) 0) (p5.congr fun c hc => ne42 _ (by have := rhi c hc; omega) 0)
      ?_ ?_ ?_ ?_
    · rw [hl.mx] at hc; have := rq c hc; omega
    · rw [hl.my] at hc; have := rd c hc; omega
    · rw [ne42 _ (by omega)]; exact p6
    · rw [ne42 _ (by omega)]; exact p7
    · rw [ne42 _ (by omega)]; exact p8
    · rw [ne42 _ (by omega)]; exact p9
  have v1 : u g.pIn.idx 0 = element Tw.basis 32 p := by rw [nu1 _ (by omega), c6]
  have v2 : u g.qIn.idx 0 = element Tw.basis 32 q := by rw [nu1 _ (by omega), c7]
  have v3 : u g.outDiv.idx 0 = element Tw.basis 32 d := by rw [nu1 _ (by omega), c8]
  have v4 : u g.outRem.idx 0 = element Tw.basis 32 r := by rw [nu1 _ (by omega), c9]
  have hcl : ∀ c ∈ g.outRemBits ++ List.replicate 32 z, c.idx < L0 + 131 := fun c hc => by
    rcases List.mem_append.1 hc with hc | hc
    · exact (rr c hc).2
    · have := rz c hc; omega
  have hcq : ∀ c ∈ g.qInBits ++ List.replicate 32 z, c.idx < L0 + 131 := fun c hc => by
    rcases List.mem_append.1 hc with hc | hc
    · have := rq c hc; omega
    · have := rz c hc; omega
  refine ⟨⟨bz, bp.isBit, bq.isBit, ?_, ?_, ?_, ?_, bd.isBit, br.isBit, ?_, ?_, ?_, ?_, hmul, ?_, ?_, ?_, ?_, ?_⟩, fun i hi pos => ?_,
    bp.wide hl.plen hp, bq.wide hl.qlen hq, bd.wide hl.dlen hd, br.wide hl.rlen hr⟩
  · rw [v1]; exact element_sub (level := 5) (by omega) _
  · rw [v1]; exact bp.pack hl.plen hp _
  · rw [v2]; exact element_sub (level := 5) (by omega) _
  · rw [v2]; exact bq.pack hl.qlen hq _
  · rw [v3]; exact element_sub (level := 5) (by omega) _
  · rw [v3]; exact bd.pack hl.dlen hd _
  · rw [v4]; exact element_sub (level := 5) (by omega) _
  · rw [v4]; exact br.pack hl.rlen hr _
  · rw [v2]; exact element_ne_zero (level := 5) (by omega) (by norm_num only; omega) hq0
  · have hs := s3.row
    rw [hl.sx, hl.sy] at hs
    refine hs.congr (fun c hc => ?_) ?_
    · simp only [List.mem_append] at hc
      have hcr : c.idx < L0 + 131 ∨ (L0 + 137 ≤ c.idx ∧ c.idx < L0 + 201) ∨ (L0 + 205 ≤ c.idx ∧ c.idx < L0 + 334) := by
        rcases hc with (((hc | hc) | (hc | hc)) | hc) | hc
        · have := rlo c hc; omega
        · have := rhi c hc; omega
        · have := rr c hc; omega
        · have := rz c hc; omega
        · have := rsc c hc; omega
        · have := rsz c hc; omega
      rw [nu _ (by omega), ne4 _ (by omega)]
    · rw [nu _ (by omega), ne4 _ (by omega)]
  · intro j hj
    rw [pad bz hl.plen bp hp j hj]
    exact ((s3.z.congr fun c hc => by have := rsz c hc; rw [nu _ (by omega), ne4 _ (by omega)]) j hj).symm
  · have hs := s4.row
    rw [hl.dx, hl.dy] at hs
    refine hs.congr (fun c hc => ?_) ?_
    · rw [List.mem_append, List.mem_append, List.mem_append] at hc
      have hcr : c.idx < L0 + 131 ∨ (L0 + 334 ≤ c.idx) := by
        rcases hc with ((hc | hc) | hc) | hc
        · exact Or.inl (hcl c hc)
        · exact Or.inl (hcq c hc)
        · have := rdb c hc; omega
        · have := rdz c hc; omega
      rw [nu _ (by omega)]
    · rw [nu _ (by omega)]
  · have hb := (s4.z.congr (u := u) fun c hc => by have := rdz c hc; rw [nu _ (by omega)])
    exact (hb.top (n := 63) hl.diff.zlen hZ2).2 hZ1
  · rw [nu1 _ (by omega), c1 _ (by omega)]

end Verif.M3
