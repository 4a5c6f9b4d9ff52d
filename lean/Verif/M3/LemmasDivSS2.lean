import Verif.M3.LemmasDivSS

/-! The rows that the gadget that divides signed numbers accepts. -/

set_option linter.dupNamespace false
set_option linter.unusedSectionVars false

namespace Verif.M3

open Finset Verif.Arith

variable {F : Type} [Field F] [DecidableEq F] [CharP F 2]

/-- The columns of a number followed by 32 copies of its sign. -/
def extended (cs : List Col) (s : Col) : List Col := cs ++ List.replicate 32 s

structure DivSSRow (Tw : Tower F) (w : Row F) (ohb : List Col) (g : DivSS32) (p31 q31 r31 : Col) : Prop where
  bp : ∀ j < 32, IsBit (val w g.pInBits j)
  bq : ∀ j < 32, IsBit (val w g.qInBits j)
  fp : Tw.sub 5 (w g.pIn.idx 0)
  p : w g.pIn.idx 0 = ∑ j ∈ range 32, val w g.pInBits j * Tw.basis j
  fq : Tw.sub 5 (w g.qIn.idx 0)
  q : w g.qIn.idx 0 = ∑ j ∈ range 32, val w g.qInBits j * Tw.basis j
  bd : ∀ j < 32, IsBit (val w g.outDivBits j)
  br : ∀ j < 32, IsBit (val w g.outRemBits j)
  sign : w p31.idx 0 = w r31.idx 0
  fd : Tw.sub 5 (w g.outDiv.idx 0)
  d : w g.outDiv.idx 0 = ∑ j ∈ range 32, val w g.outDivBits j * Tw.basis j
  fr : Tw.sub 5 (w g.outRem.idx 0)
  r : w g.outRem.idx 0 = ∑ j ∈ range 32, val w g.outRemBits j * Tw.basis j
  mul : MulSSRow Tw w g.mulInner ohb
  nz : w g.qIn.idx 0 ≠ 0
  sum : WideAddRow w 64 g.mulInner.outBits (extended g.outRemBits r31) g.sum.cin g.sum.zOut g.sum.finalCarryOut none
  eq : ∀ j < 64, val w (extended g.pInBits p31) j = val w g.sum.zOut j
  absR : SignOk w 64 g.absRValue (w r31.idx 0)
  negQ : SignOk w 64 g.negAbsQValue (w q31.idx 0 + 1)
  diff : WideAddRow w 64 g.absRValue.convertedBits g.negAbsQValue.convertedBits g.diff.cin g.diff.zOut g.diff.finalCarryOut none
  lt : val w g.diff.zOut 63 = 1

structure DivSSLayout (L0 : Nat) (ohb : List Col) (g : DivSS32) (p31 q31 r31 : Col) : Prop where
  plen : g.pInBits.length = 32
  pidx : ∀ (k : Nat) (c : Col), g.pInBits[k]? = some c → c.idx = L0 + k
  qlen : g.qInBits.length = 32
  qidx : ∀ (k : Nat) (c : Col), g.qInBits[k]? = some c → c.idx = L0 + 32 + k
  pin : g.pIn.idx = L0 + 64
  qin : g.qIn.idx = L0 + 65
  dlen : g.outDivBits.length = 32
  didx : ∀ (k : Nat) (c : Col), g.outDivBits[k]? = some c → c.idx = L0 + 66 + k
  rlen : g.outRemBits.length = 32
  ridx : ∀ (k : Nat) (c : Col), g.outRemBits[k]? = some c → c.idx = L0 + 98 + k
  ptop : g.pInBits[31]? = some p31
  qtop : g.qInBits[31]? = some q31
  rtop : g.outRemBits[31]? = some r31
  dout : g.outDiv.idx = L0 + 130
  rout : g.outRem.idx = L0 + 131
  mx : g.mulInner.xInBits = g.qInBits
  my : g.mulInner.yInBits = g.outDivBits
  mul : MulSSLayout (L0 + 132) g.mulInner ohb
  sx : g.sum.xIn = g.mulInner.outBits
  sy : g.sum.yIn = extended g.outRemBits r31
  sf : g.sum.flags.carryInBit = none
  sum : Layout3 (L0 + 402) 64 g.sum.cin g.sum.zOut g.sum.finalCarryOut
  ax : g.absRValue.twosComplement.xin = extended g.outRemBits r31
  absR : SignLayout (L0 + 531) 64 g.absRValue
  nx : g.negAbsQValue.twosComplement.xin = extended g.qInBits q31
  negQ : SignLayout (L0 + 788) 64 g.negAbsQValue
  dx : g.diff.xIn = g.absRValue.convertedBits
  dy : g.diff.yIn = g.negAbsQValue.convertedBits
  df : g.diff.flags.carryInBit = none
  diff : Layout3 (L0 + 1045) 64 g.diff.cin g.diff.zOut g.diff.finalCarryOut

structure DivSSTables (F : Type) (L0 : Nat) (ohb : List Col) (g : DivSS32) : Prop where
  mul : ∃ t t' : Table F, t.columns.length = L0 + 132 ∧ MulSSTables t t' g.mulInner ohb ∧ HasAll t g.qInBits 32 ∧ HasAll t g.outDivBits 32
  sum : ∃ t : Table F, t.columns.length = L0 + 402 ∧ HasAll t g.sum.xIn 64 ∧ HasAll t g.sum.yIn 64
  absR : SignTables F (L0 + 531) 64 g.absRValue
  negQ : SignTables F (L0 + 788) 64 g.negAbsQValue
  diff : ∃ t : Table F, t.columns.length = L0 + 1045 ∧ HasAll t g.diff.xIn 64 ∧ HasAll t g.diff.yIn 64

set_option maxHeartbeats 4000000 in
theorem DivSS32_ok (Tw : Tower F) {t : Table F} (ht : WellFormed t) :
    ∃ (g : DivSS32) (t' : Table F) (ohb : List Col) (p31 q31 r31 : Col), DivSS32.new Tw.basis (Tw.gen 6) t = some (g, t') ∧
      DivSSLayout t.columns.length ohb g p31 q31 r31 ∧ DivSSTables F t.columns.length ohb g ∧
      (t'.Has g.pIn 5 0 ∧ t'.Has g.qIn 5 0 ∧ t'.Has g.outDiv 5 0 ∧ t'.Has g.outRem 5 0) ∧
      Adds Tw t t' fun w => DivSSRow Tw w ohb g p31 q31 r31 := by
  obtain ⟨ps, s1, p1, p2, p3⟩ := addCommittedMultiple_ok Tw ht 0 0 32
  have w1 := p3.wf ht
  obtain ⟨qs, s2, q1, q2, q3⟩ := addCommittedMultiple_ok Tw w1 0 0 32
  have w2 := q3.wf w1
  have l2 : s2.columns.length = t.columns.length + 64 := by rw [q2.len, p2.len]
  have hp2 := p2.hasAll.ext q3.ext
  obtain ⟨p31, hp31, hph⟩ := hp2.get (j := 31) (by norm_num)
  obtain ⟨q31, hq31, hqh⟩ := q2.hasAll.get (j := 31) (by norm_num)
  obtain ⟨pin, s3, a1, a2, a3⟩ := packColumn_ok Tw w2 5 (by norm_num) hp2
  have w3 := a3.wf w2
  obtain ⟨qin, s4, b1, b2, b3⟩ := packColumn_ok Tw w3 5 (by norm_num) (q2.hasAll.ext a3.ext)
  have w4 := b3.wf w3
  have l4 : s4.columns.length = t.columns.length + 66 := by rw [b2.len, a2.len, l2]
  obtain ⟨ds, s5, d1, d2, d3⟩ := addCommittedMultiple_ok Tw w4 0 0 32
  have w5 := d3.wf w4
  have l5 : s5.columns.length = t.columns.length + 98 := by rw [d2.len, l4]
  obtain ⟨rs, s6, r1, r2, r3⟩ := addCommittedMultiple_ok Tw w5 0 0 32
  have w6 := r3.wf w5
  have l6 : s6.columns.length = t.columns.length + 130 := by rw [r2.len, l5]
  obtain ⟨r31, hr31, hrh⟩ := r2.hasAll.get (j := 31) (by norm_num)
  have ex26 := a3.ext.trans (b3.ext.trans (d3.ext.trans r3.ext))
  obtain ⟨s6', o1, o2, o3⟩ := assertZero_ok Tw (Ev.sub (Ev.col (hph.ext ex26)) (Ev.col hrh))
  have w6' := o3.wf w6
  have l6' : s6'.columns.length = t.columns.length + 130 := by rw [o2, l6]
  obtain ⟨dout, s7, e1, e2, e3⟩ := packColumn_ok Tw w6' 5 (by norm_num) ((d2.hasAll.ext r3.ext).ext o3.ext)
  have w7 := e3.wf w6'
  have l7 : s7.columns.length = t.columns.length + 131 := by rw [e2.len, l6']
  obtain ⟨rout, s8, f1, f2, f3⟩ := packColumn_ok Tw w7 5 (by norm_num) ((r2.hasAll.ext o3.ext).ext e3.ext)
  have w8 := f3.wf w7
  have l8 : s8.columns.length = t.columns.length + 132 := by rw [f2.len, l7]
  have ex68 := o3.ext.trans (e3.ext.trans f3.ext)
  have ex28 := ex26.trans ex68
  have hq8 := q2.hasAll.ext ex28
  have hd8 := (d2.hasAll.ext r3.ext).ext ex68
  have hr8 := r2.hasAll.ext ex68
  have hp8 := hp2.ext ex28
  have hp31' := hph.ext ex28
  have hq31' := hqh.ext ex28
  have hr31' := hrh.ext ex68
  obtain ⟨m, s9, ohb, m1, rfl, rfl, m4, m5, m6, m7⟩ := MulSS32_ok Tw w8 hq8 hd8
  have w9 := m7.wf w8
  have l9 : s9.columns.length = t.columns.length + 402 := by rw [m6, l8]
  have hqin : s9.Has qin 5 0 := b2.has.ext (d3.ext.trans (r3.ext.trans (ex68.trans m7.ext)))
  obtain ⟨s10, n1, n2, n3⟩ := assertNonzero_ok Tw hqin
  have w10 := n3.wf w9
  have l10 : s10.columns.length = t.columns.length + 402 := by rw [n2, l9]
  have ex810 := m7.ext.trans n3.ext
  have hr10 : HasAll s10 (extended rs r31) 64 := (hr8.append (HasAll.replicate hr31' 32)).ext ex810
  have hm10 : HasAll s10 m.outBits 64 := by rw [m4.out]; exact (m5.lo.append m5.hob).ext n3.ext
  obtain ⟨g, s11, g1, g2, g3, g4, g5, g6, g7, g8, g9, g10, g11, g12⟩ := WideAdd_new_ok Tw w10 (n := 64) (flags := ⟨none, true, true⟩) hm10 hr10
    (fun c hc => by cases hc)
  have w11 := g12.wf w10
  have l11 : s11.columns.length = t.columns.length + 531 := by rw [g11, l10]
  have ex811 := ex810.trans g12.ext
  have hp11 : HasAll s11 (extended ps p31) 64 := (hp8.append (HasAll.replicate hp31' 32)).ext ex811
  obtain ⟨s12, h1, h2, h3⟩ := equalZero_ok Tw w11 hp11 g7
  have w12 := h3.wf w11
  have l12 : s12.columns.length = t.columns.length + 531 := by rw [h2, l11]
  have hr12 := (hr10.ext g12.ext).ext h3.ext
  have ex812 := ex811.trans h3.ext
  obtain ⟨ar, s13, i1, i2, i3, i4, i5, ⟨ti, i6, i6'⟩, i7, i8, i9, i10⟩ := SignConverter_new_ok Tw w12 hr12 (Ev.col (hr31'.ext ex812))
  have w13 := i10.wf w12
  have l13 : s13.columns.length = t.columns.length + 788 := by rw [i9, l12]
  have ex813 := ex812.trans i10.ext
  have hq13 : HasAll s13 (extended m.xInBits q31) 64 := (hq8.append (HasAll.replicate hq31' 32)).ext ex813
  obtain ⟨nq, s14, j1, j2, j3, j4, j5, ⟨tj, j6, j6'⟩, j7, j8, j9, j10⟩ := SignConverter_new_ok Tw w13 hq13
    (Ev.add (Ev.col (hq31'.ext ex813)) (Ev.const s13 0 1))
  have w14 := j10.wf w13
  have l14 : s14.columns.length = t.columns.length + 1045 := by rw [j9, l13]
  obtain ⟨u, s15, u1, u2, u3, u4, u5, u6, u7, u8, u9, u10, u11, u12⟩ := WideAdd_new_ok Tw w14 (n := 64) (flags := ⟨none, true, false⟩)
    (i7.ext j10.ext) j7 (fun c hc => by cases hc)
  have w15 := u12.wf w14
  obtain ⟨s16, v1, v2, v3⟩ := lessThan_ok Tw u7
  have ex816 := ex813.trans (j10.ext.trans (u12.ext.trans v3.ext))
  have ex416 := d3.ext.trans (r3.ext.trans (ex68.trans ex816))
  refine ⟨⟨m, g, u, ar, nq, ps, m.xInBits, m.yInBits, rs, pin, qin, dout, rout⟩, s16, ohb, p31, q31, r31, ?_, ?_, ⟨?_, ?_, ?_, ?_, ?_⟩, ?_, ?_⟩
  · rw [DivSS32.new, p1, Option.bind_some]
    dsimp only
    rw [q1, Option.bind_some]
    dsimp only
    rw [a1, Option.bind_some]
    dsimp only
    rw [b1, Option.bind_some]
    dsimp only
    rw [hp31, Option.bind_some, hq31, Option.bind_some, d1, Option.bind_some]
    dsimp only
    rw [r1, Option.bind_some]
    dsimp only
    rw [hr31, Option.bind_some, o1, Option.bind_some, e1, Option.bind_some]
    dsimp only
    rw [f1, Option.bind_some]
    dsimp only
    rw [m1, Option.bind_some]
    dsimp only
    rw [n1, Option.bind_some]
    unfold extended at g1 h1 i1 j1
    rw [g1, Option.bind_some]
    dsimp only
    rw [h1, Option.bind_some, i1, Option.bind_some]
    dsimp only
    rw [j1, Option.bind_some]
    dsimp only
    rw [u1, Option.bind_some]
    dsimp only
    rw [v1, Option.bind_some]
  · rw [l8] at m4
    refine ⟨p2.length, fun k c hk => (p2.col k c hk).1, q2.length, fun k c hk => ?_, ?_, ?_, d2.length, fun k c hk => ?_, r2.length,
      fun k c hk => ?_, hp31, hq31, hr31, ?_, ?_, rfl, rfl, m4, g2, g3, by show g.flags.carryInBit = none; rw [g4],
      ⟨g5, g7.length, fun k d hk => ?_, fun k d hk => ?_, ?_⟩, i2, ⟨i3, i4, by rw [← l12]; exact i5, i7.length, fun k c hk => ?_⟩,
      j2, ⟨j3, j4, by rw [← l13]; exact j5, j7.length, fun k c hk => ?_⟩, u2, u3, by show u.flags.carryInBit = none; rw [u4],
      ⟨u5, u7.length, fun k d hk => ?_, fun k d hk => ?_, ?_⟩⟩
    · rw [(q2.col k c hk).1, p2.len]
    · show pin.idx = _; rw [a2.idx, l2]
    · show qin.idx = _; rw [b2.idx, a2.len, l2]
    · rw [(d2.col k c hk).1, l4]
    · rw [(r2.col k c hk).1, l5]
    · show dout.idx = _; rw [e2.idx, l6']
    · show rout.idx = _; rw [f2.idx, l7]
    · rw [g6 k d hk, l10]
    · rw [g8 k d hk, l10]
    · show g.finalCarryOut.idx = _; rw [g10, l10]
    · rw [i8 k c hk, l12]
    · rw [j8 k c hk, l13]
    · rw [u6 k d hk, l14]
    · rw [u8 k d hk, l14]
    · show u.finalCarryOut.idx = _; rw [u10, l14]
  · exact ⟨s8, s9, l8, m5, hq8, hd8⟩
  · exact ⟨s10, l10, by show HasAll s10 g.xIn 64; rw [g2]; exact hm10, by show HasAll s10 g.yIn 64; rw [g3]; exact hr10⟩
  · exact ⟨s12, ti, l12, by show HasAll s12 ar.twosComplement.xin 64; rw [i2]; exact hr12, i6, by rw [i6', l12]⟩
  · exact ⟨s13, tj, l13, by show HasAll s13 nq.twosComplement.xin 64; rw [j2]; exact hq13, j6, by rw [j6', l13]⟩
  · exact ⟨s14, l14, by show HasAll s14 u.xIn 64; rw [u2]; exact i7.ext j10.ext, by show HasAll s14 u.yIn 64; rw [u3]; exact j7⟩
  · exact ⟨(a2.has.ext b3.ext).ext ex416, b2.has.ext ex416, (e2.has.ext f3.ext).ext ex816, f2.has.ext ex816⟩
  · refine (((((((((((((((p3.trans q3).trans a3).trans b3).trans d3).trans r3).trans o3).trans e3).trans f3).trans m7).trans n3).trans
      g12).trans h3).trans i10).trans j10).trans u12).trans v3 |>.congr fun w hw => ?_
    rw [inField_all (Tw := Tw) p2.length, inField_all (Tw := Tw) q2.length, inField_all (Tw := Tw) d2.length,
      inField_all (Tw := Tw) r2.length, forall_lt_one, forall_lt_one, ← i2, ← j2]
    constructor
    · rintro ⟨⟨⟨⟨⟨⟨⟨⟨⟨⟨⟨⟨⟨⟨⟨⟨k1, k2⟩, k3, k4⟩, k5, k6⟩, k7⟩, k8⟩, k0⟩, k9, k10⟩, k11, k12⟩, k13⟩, k14⟩, k15⟩, k16⟩, k17, k17'⟩, k18, k18'⟩, k19⟩, k20⟩
      exact ⟨k1, k2, k3, k4, k5, k6, k7, k8, CharTwo.add_eq_zero.1 k0, k9, k10, k11, k12, k13, k14, (by rw [i2] at k15; exact k15), k16, ⟨k17, k17'⟩,
        ⟨k18, k18'⟩, k19, k20⟩
    · intro h
      exact ⟨⟨⟨⟨⟨⟨⟨⟨⟨⟨⟨⟨⟨⟨⟨⟨h.bp, h.bq⟩, h.fp, h.p⟩, h.fq, h.q⟩, h.bd⟩, h.br⟩, CharTwo.add_eq_zero.2 h.sign⟩, h.fd, h.d⟩, h.fr, h.r⟩, h.mul⟩,
        h.nz⟩, by rw [i2]; exact h.sum⟩, h.eq⟩, h.absR.twos, h.absR.sign⟩, h.negQ.twos, h.negQ.sign⟩, h.diff⟩, h.lt⟩

end Verif.M3
