import Verif.M3.LemmasSha256

/-! Lemmas on the SHA-256 gadget: the rounds and the final sums. -/

set_option linter.dupNamespace false
set_option linter.unusedSectionVars false

namespace Verif.M3

open Finset Verif.Arith

variable {F : Type} [Field F] [DecidableEq F]

/-- The table `t'` is `t` and the columns of a gadget that `pop` populates. -/
structure Stage (Tw : Tower F) (t t' : Table F) (pop : Row F → Row F) : Prop where
  ext : Ext t t'
  wf : WellFormed t'
  sound : ∀ w, RowHolds Tw t' w → RowHolds Tw t w
  complete : ∀ w, RowHolds Tw t w → RowHolds Tw t' (pop w)
  keeps : ∀ w, ∀ i < t.columns.length, ∀ pos, pop w i pos = w i pos

theorem Stage.refl (Tw : Tower F) {t : Table F} (ht : WellFormed t) : Stage Tw t t id :=
  ⟨Ext.refl t, ht, fun _ h => h, fun _ h => h, fun _ _ _ _ => rfl⟩

theorem Stage.trans {Tw : Tower F} {t t' t'' : Table F} {p q : Row F → Row F} (h : Stage Tw t t' p)
    (h' : Stage Tw t' t'' q) : Stage Tw t t'' fun w => q (p w) :=
  ⟨h.ext.trans h'.ext, h'.wf, fun w hw => h.sound w (h'.sound w hw), fun w hw => h'.complete _ (h.complete w hw),
    fun w i hi pos => (h'.keeps _ i (hi.trans_le h.ext.len) pos).trans (h.keeps w i hi pos)⟩

variable [CharP F 2]

theorem ofNat_add_mul (a b c : Nat) (h : a + 2 ^ 32 * c = b) : BitVec.ofNat 32 a = BitVec.ofNat 32 b := by
  apply BitVec.eq_of_toNat_eq
  rw [BitVec.toNat_ofNat, BitVec.toNat_ofNat, ← h, Nat.add_mul_mod_self_left]

/-- An adder is a stage. -/
theorem add_stage (Tw : Tower F) {t : Table F} (ht : WellFormed t) {x y : Col} (hx : t.Has x 0 5) (hy : t.Has y 0 5) :
    ∃ g t', U32Add.new t x y shaAddFlags = some (g, t') ∧ Stage Tw t t' g.populate ∧ t'.Has g.zout 0 5 ∧
      ∀ w, RowHolds Tw t' w → wordBV w g.zout 0 = wordBV w x 0 + wordBV w y 0 := by
  have hf : ∀ c, shaAddFlags.carryInBit = some c → t.Has c 0 5 := fun c hc => by cases hc
  obtain ⟨g, t', h1, -, -, h4, h5, -, -, h8, h9⟩ := U32Add_new_ok Tw ht hx hy hf
  obtain ⟨g', t'', k1, k2, k3, -, -, k6, k7⟩ := C41_u32_add Tw ht hx hy hf
  rw [h1] at k1
  obtain ⟨rfl, rfl⟩ : g = g' ∧ t' = t'' := by injection k1 with k1; injection k1 with k1 k1'; exact ⟨k1, k1'⟩
  refine ⟨g, t', h1, ⟨h9.ext, k2, fun w hw => (k6 w hw fun c hc => by cases hc).1, fun w hw => (k7 w hw fun c hc => by cases hc).1,
    fun w i hi pos => ?_⟩, k3, fun w hw => ?_⟩
  · obtain ⟨l1, l2, l3, -, l5, -⟩ := h8
    have l3' : g.cin.idx = g.coutShl.idx := by rw [l3 rfl]
    have hfc : g.finalCarry = none := by
      cases h : g.finalCarry with
      | none => rfl
      | some c => rw [h] at h5; cases h5
    rw [U32Add.populate, hfc, h4]
    dsimp only [setBitOpt, writeWords, shaAddFlags, Option.isSome_none]
    rw [if_neg (by simp), setWords_ne (by omega), setWords_ne (by omega), setWords_ne (by omega)]
  obtain ⟨-, carry, -, hs, -⟩ := k6 w hw fun c hc => by cases hc
  rw [word_eq, word_eq, word_eq] at hs
  rw [wordBV, wordBV, wordBV, ← BitVec.ofNat_add]
  exact ofNat_add_mul _ _ carry (hs.trans (by simp [shaAddFlags]; rfl))

/-! ### One round -/

/-- The values of the working variables in a row. -/
def varsVal (w : Row F) (v : Vars) : Sha.State :=
  ⟨wordBV w v.a 0, wordBV w v.b 0, wordBV w v.c 0, wordBV w v.d 0, wordBV w v.e 0, wordBV w v.f 0, wordBV w v.g 0,
    wordBV w v.h 0⟩

/-- The working variables are columns of words. -/
def VarsIn (t : Table F) (v : Vars) : Prop := ∀ c ∈ v.toList, t.Has c 0 5

theorem VarsIn.ext {t t' : Table F} {v : Vars} (h : VarsIn t v) (he : Ext t t') : VarsIn t' v :=
  fun c hc => (h c hc).ext he

theorem chExpr_ev {t : Table F} {ch e f g : Col} (hc : t.Has ch 0 5) (he : t.Has e 0 5) (hf : t.Has f 0 5)
    (hg : t.Has g 0 5) : Ev t 5 (chExpr ch e f g) fun w pos =>
      w ch.idx pos + w g.idx pos + w e.idx pos * (w f.idx pos + w g.idx pos) :=
  Ev.add (Ev.sub (Ev.col hc) (Ev.col hg)) (Ev.mul (Ev.col he) (Ev.add (Ev.col hf) (Ev.col hg)))

theorem majExpr_ev {t : Table F} {m a b c : Col} (hm : t.Has m 0 5) (ha : t.Has a 0 5) (hb : t.Has b 0 5)
    (hc : t.Has c 0 5) : Ev t 5 (majExpr m a b c) fun w pos =>
      w m.idx pos + (w a.idx pos * (w b.idx pos + w c.idx pos) + w b.idx pos * w c.idx pos) :=
  Ev.sub (Ev.col hm) (Ev.add (Ev.mul (Ev.col ha) (Ev.add (Ev.col hb) (Ev.col hc))) (Ev.mul (Ev.col hb) (Ev.col hc)))

/-- The constraint on `ch`. -/
theorem ch_iff {w : Row F} {ch e f g : Col} (he : Words w e 5 (wordBV w e)) (hf : Words w f 5 (wordBV w f))
    (hg : Words w g 5 (wordBV w g)) :
    (∀ pos < 2 ^ 5, w ch.idx pos + w g.idx pos + w e.idx pos * (w f.idx pos + w g.idx pos) = 0) ↔
      Words w ch 5 fun _ => Sha.ch (wordBV w e 0) (wordBV w f 0) (wordBV w g 0) := by
  refine forall_congr' fun pos => imp_congr_right fun hp => ?_
  have hj : pos % 32 < 32 := Nat.mod_lt _ (by norm_num)
  rw [he pos hp, hf pos hp, hg pos hp, show pos / 32 = 0 by omega, Sha.ch, BitVec.getLsbD_xor, BitVec.getLsbD_and,
    BitVec.getLsbD_and, BitVec.getLsbD_not, decide_eq_true hj, Bool.true_and, add_assoc, CharTwo.add_eq_zero]
  have : ∀ a b c : Bool, (ofBit c + ofBit a * (ofBit b + ofBit c) : F) = ofBit ((a && b) ^^ (!a && c)) := by
    intro a b c
    cases a <;> cases b <;> cases c <;> simp [CharTwo.add_self_eq_zero]
  rw [this]

/-- The constraint on `maj`. -/
theorem maj_iff {w : Row F} {m a b c : Col} (ha : Words w a 5 (wordBV w a)) (hb : Words w b 5 (wordBV w b))
    (hc : Words w c 5 (wordBV w c)) :
    (∀ pos < 2 ^ 5, w m.idx pos + (w a.idx pos * (w b.idx pos + w c.idx pos) + w b.idx pos * w c.idx pos) = 0) ↔
      Words w m 5 fun _ => Sha.maj (wordBV w a 0) (wordBV w b 0) (wordBV w c 0) := by
  refine forall_congr' fun pos => imp_congr_right fun hp => ?_
  rw [ha pos hp, hb pos hp, hc pos hp, show pos / 32 = 0 by omega, Sha.maj, BitVec.getLsbD_xor, BitVec.getLsbD_xor,
    BitVec.getLsbD_and, BitVec.getLsbD_and, BitVec.getLsbD_and, CharTwo.add_eq_zero]
  have : ∀ a b c : Bool, (ofBit a * (ofBit b + ofBit c) + ofBit b * ofBit c : F) =
      ofBit (((a && b) ^^ (a && c)) ^^ (b && c)) := by
    intro a b c
    cases a <;> cases b <;> cases c <;> simp [CharTwo.add_self_eq_zero]
  rw [this]

/-- The seven sums of a round. -/
theorem sums_stage (Tw : Tower F) {t : Table F} (ht : WellFormed t) {v : Vars} (hv : VarsIn t v)
    {bs0 bs1 ch maj k x : Col} (h0 : t.Has bs0 0 5) (h1 : t.Has bs1 0 5) (hc : t.Has ch 0 5) (hm : t.Has maj 0 5)
    (hk : t.Has k 0 5) (hx : t.Has x 0 5) :
    ∃ gs a e t', Round.sums t v bs0 bs1 ch maj k x = some ((gs, a, e), t') ∧
      Stage Tw t t' (fun w => gs.foldl (fun w s => s.populate w) w) ∧ t'.Has a 0 5 ∧ t'.Has e 0 5 ∧
      ∀ w, RowHolds Tw t' w →
        wordBV w a 0 = (wordBV w v.h 0 + wordBV w bs1 0 + wordBV w ch 0 + wordBV w k 0 + wordBV w x 0) +
          (wordBV w bs0 0 + wordBV w maj 0) ∧
        wordBV w e 0 = wordBV w v.d 0 + (wordBV w v.h 0 + wordBV w bs1 0 + wordBV w ch 0 + wordBV w k 0 + wordBV w x 0) := by
  have vh : t.Has v.h 0 5 := hv _ (by simp [Vars.toList])
  have vd : t.Has v.d 0 5 := hv _ (by simp [Vars.toList])
  obtain ⟨s0, t0, a1, a2, a3, a4⟩ := add_stage Tw ht h1 hc
  have e0 := a2.ext
  obtain ⟨s1, t1, b1, b2, b3, b4⟩ := add_stage Tw a2.wf (hk.ext e0) (hx.ext e0)
  have e1 := e0.trans b2.ext
  obtain ⟨s2, t2, c1, c2, c3, c4⟩ := add_stage Tw b2.wf (a3.ext b2.ext) b3
  have e2 := e1.trans c2.ext
  obtain ⟨s3, t3, d1, d2, d3, d4⟩ := add_stage Tw c2.wf (vh.ext e2) c3
  have e3 := e2.trans d2.ext
  obtain ⟨s4, t4, f1, f2, f3, f4⟩ := add_stage Tw d2.wf (h0.ext e3) (hm.ext e3)
  have e4 := e3.trans f2.ext
  obtain ⟨s5, t5, g1, g2, g3, g4⟩ := add_stage Tw f2.wf (d3.ext f2.ext) f3
  have e5 := e4.trans g2.ext
  obtain ⟨s6, t6, i1, i2, i3, i4⟩ := add_stage Tw g2.wf (vd.ext e5) ((d3.ext f2.ext).ext g2.ext)
  refine ⟨[s0, s1, s2, s3, s4, s5, s6], s5.zout, s6.zout, t6, ?_,
    ((((((a2.trans b2).trans c2).trans d2).trans f2).trans g2).trans i2), g3.ext i2.ext, i3, fun w hw => ?_⟩
  · rw [Round.sums, a1, Option.bind_some]
    dsimp only
    rw [b1, Option.bind_some]
    dsimp only
    rw [c1, Option.bind_some]
    dsimp only
    rw [d1, Option.bind_some]
    dsimp only
    rw [f1, Option.bind_some]
    dsimp only
    rw [g1, Option.bind_some]
    dsimp only
    rw [i1, Option.bind_some]
  · have w5 := i2.sound w hw
    have w4 := g2.sound w w5
    have w3 := f2.sound w w4
    have w2 := d2.sound w w3
    have w1 := c2.sound w w2
    have w0 := b2.sound w w1
    have ht1 : wordBV w s3.zout 0 = wordBV w v.h 0 + wordBV w bs1 0 + wordBV w ch 0 + wordBV w k 0 + wordBV w x 0 := by
      rw [d4 w w3, c4 w w2, a4 w w0, b4 w w1]
      simp only [BitVec.add_assoc]
    exact ⟨by rw [g4 w w5, ht1, f4 w w4], by rw [i4 w hw, ht1]⟩

theorem round_stage (Tw : Tower F) {t : Table F} (ht : WellFormed t) (n : Nat) {v : Vars} (hv : VarsIn t v)
    {k x : Col} (hk : t.Has k 0 5) (hx : t.Has x 0 5) :
    ∃ r t', Round.build t n v k x = some (r, t') ∧ Stage Tw t t' r.populate ∧ r.round = n ∧ VarsIn t' r.nextVars ∧
      ∀ w, RowHolds Tw t' w → varsVal w r.nextVars = Sha.round (wordBV w k 0) (wordBV w x 0) (varsVal w v) := by
  have va : t.Has v.a 0 5 := hv _ (by simp [Vars.toList])
  have vb : t.Has v.b 0 5 := hv _ (by simp [Vars.toList])
  have vc : t.Has v.c 0 5 := hv _ (by simp [Vars.toList])
  have ve : t.Has v.e 0 5 := hv _ (by simp [Vars.toList])
  have vf : t.Has v.f 0 5 := hv _ (by simp [Vars.toList])
  have vg : t.Has v.g 0 5 := hv _ (by simp [Vars.toList])
  obtain ⟨bs0, t0, a1, a2, al, a3, a4⟩ := BigSigma0_new_ok Tw ht va
  have w0 := a4.wf ht
  have e0 := a4.ext
  obtain ⟨bs1, t1, b1, b2, bl, b3, b4⟩ := BigSigma1_new_ok Tw w0 (ve.ext e0)
  have w1 := b4.wf w0
  have e1 := e0.trans b4.ext
  obtain ⟨ch, t2, c1, c2, c3⟩ := addCommitted_ok Tw t1 0 5
  have w2 := c3.wf w1
  have e2 := e1.trans c3.ext
  obtain ⟨maj, t3, d1, d2, d3⟩ := addCommitted_ok Tw t2 0 5
  have w3 := d3.wf w2
  have e3 := e2.trans d3.ext
  obtain ⟨t4, f1, f2, f3⟩ := assertZero_ok Tw (chExpr_ev (c2.has.ext d3.ext) (ve.ext e3) (vf.ext e3) (vg.ext e3))
  have w4 := f3.wf w3
  have e4 := e3.trans f3.ext
  obtain ⟨t5, g1, g2, g3⟩ := assertZero_ok Tw (majExpr_ev (d2.has.ext f3.ext) (va.ext e4) (vb.ext e4) (vc.ext e4))
  have w5 := g3.wf w4
  have e5 := e4.trans g3.ext
  obtain ⟨gs, na, ne, t6, i1, i2, i3, i4, i5⟩ := sums_stage Tw w5 (hv.ext e5)
    ((((((a3.ext b4.ext).ext c3.ext).ext d3.ext).ext f3.ext).ext g3.ext))
    ((((b3.ext c3.ext).ext d3.ext).ext f3.ext).ext g3.ext) (((c2.has.ext d3.ext).ext f3.ext).ext g3.ext)
    ((d2.has.ext f3.ext).ext g3.ext) (hk.ext e5) (hx.ext e5)
  have hadd : Adds Tw t t5 fun w =>
      SigmaRow w bs0 5 (fun x => x.rotateRight 2) (fun x => x.rotateRight 13) (fun x => x.rotateRight 22) ∧
      SigmaRow w bs1 5 (fun x => x.rotateRight 6) (fun x => x.rotateRight 11) (fun x => x.rotateRight 25) ∧
      (Words w ch 5 fun _ => Sha.ch (wordBV w v.e 0) (wordBV w v.f 0) (wordBV w v.g 0)) ∧
      Words w maj 5 fun _ => Sha.maj (wordBV w v.a 0) (wordBV w v.b 0) (wordBV w v.c 0) := by
    refine (((((a4.trans b4).trans c3).trans d3).trans f3).trans g3).congr fun w hw => ?_
    rw [ch_iff (ve.words hw) (vf.words hw) (vg.words hw), maj_iff (va.words hw) (vb.words hw) (vc.words hw)]
    constructor
    · rintro ⟨⟨⟨⟨⟨q1, q2⟩, -⟩, -⟩, q5⟩, q6⟩
      exact ⟨q1, q2, q5, q6⟩
    · rintro ⟨q1, q2, q5, q6⟩
      exact ⟨⟨⟨⟨⟨q1, q2⟩, q5.inField⟩, q6.inField⟩, q5⟩, q6⟩
  have l2 := c2.len
  have l3 := d2.len
  have k2 := c2.idx
  have k3 := d2.idx
  -- the columns before the sums
  have hhead : Stage Tw t t5 fun w =>
      sigmaPopulate bs1 1 (fun x => x.rotateRight 6) (fun x => x.rotateRight 11) (fun x => x.rotateRight 25)
        (sigmaPopulate bs0 1 (fun x => x.rotateRight 2) (fun x => x.rotateRight 13) (fun x => x.rotateRight 22)
          (setU32s (setU32s w ch 1 fun _ => Sha.ch (wordBV w v.e 0) (wordBV w v.f 0) (wordBV w v.g 0)) maj 1
            fun _ => Sha.maj (wordBV w v.a 0) (wordBV w v.b 0) (wordBV w v.c 0))) := by
    have hkp : ∀ (w : Row F), ∀ i < t.columns.length, ∀ pos,
        sigmaPopulate bs1 1 (fun x => x.rotateRight 6) (fun x => x.rotateRight 11) (fun x => x.rotateRight 25)
          (sigmaPopulate bs0 1 (fun x => x.rotateRight 2) (fun x => x.rotateRight 13) (fun x => x.rotateRight 22)
            (setU32s (setU32s w ch 1 fun _ => Sha.ch (wordBV w v.e 0) (wordBV w v.f 0) (wordBV w v.g 0)) maj 1
              fun _ => Sha.maj (wordBV w v.a 0) (wordBV w v.b 0) (wordBV w v.c 0))) i pos = w i pos := by
      intro w i hi pos
      rw [(sigmaPopulate_ok b2 (lv := 5) (n := 1) (by norm_num) (ve.ext e0).lt _ _ _ _).1 i (by omega),
        (sigmaPopulate_ok a2 (lv := 5) (n := 1) (by norm_num) va.lt _ _ _ _).1 i (by omega),
        setU32s_ne (by omega), setU32s_ne (by omega)]
    refine ⟨e5, w5, fun w hw => ((hadd.holds ht w).1 hw).1, fun w hw => ?_, hkp⟩
    have hkw := hkp w
    refine (hadd.holds ht _).2 ⟨(frame ht hkw).2 hw, ?_⟩
    have hin : ∀ c : Col, t.Has c 0 5 → ∀ k, wordBV _ c k = wordBV w c k := fun c hc k =>
      wordBV_congr (fun pos => hkw _ hc.lt pos) k
    simp only [hin _ va, hin _ vb, hin _ vc, hin _ ve, hin _ vf, hin _ vg]
    generalize hwc : setU32s w ch 1 (fun _ => Sha.ch (wordBV w v.e 0) (wordBV w v.f 0) (wordBV w v.g 0)) = wc
    generalize hwm : setU32s wc maj 1 (fun _ => Sha.maj (wordBV w v.a 0) (wordBV w v.b 0) (wordBV w v.c 0)) = wm
    obtain ⟨p1, p2⟩ := sigmaPopulate_ok a2 (lv := 5) (n := 1) (by norm_num) va.lt (fun x => x.rotateRight 2)
      (fun x => x.rotateRight 13) (fun x => x.rotateRight 22) wm
    generalize sigmaPopulate bs0 1 (fun x => x.rotateRight 2) (fun x => x.rotateRight 13) (fun x => x.rotateRight 22) wm
      = wa at p1 p2 ⊢
    obtain ⟨q1, q2⟩ := sigmaPopulate_ok b2 (lv := 5) (n := 1) (by norm_num) (ve.ext e0).lt (fun x => x.rotateRight 6)
      (fun x => x.rotateRight 11) (fun x => x.rotateRight 25) wa
    generalize sigmaPopulate bs1 1 (fun x => x.rotateRight 6) (fun x => x.rotateRight 11) (fun x => x.rotateRight 25) wa
      = we at q1 q2 ⊢
    have hbs0 : ∀ c : Col, c.idx < t0.columns.length → ∀ pos, we c.idx pos = wa c.idx pos := fun c hc pos => q1 _ (by omega) pos
    obtain ⟨m0, m1, m2, m3, m4⟩ := a2
    refine ⟨⟨?_, ?_, ?_, ?_⟩, q2, ?_, ?_⟩
    · rw [Words.congr_row (hbs0 _ (by omega))]
      simp only [wordBV_congr (hbs0 bs0.input (by rw [m0]; have := va.lt; omega))]
      exact p2.first
    · rw [Words.congr_row (hbs0 _ (by omega))]
      simp only [wordBV_congr (hbs0 bs0.input (by rw [m0]; have := va.lt; omega))]
      exact p2.second
    · rw [Words.congr_row (hbs0 _ (by omega))]
      simp only [wordBV_congr (hbs0 bs0.input (by rw [m0]; have := va.lt; omega))]
      exact p2.third
    · rw [Words.congr_row (hbs0 _ (by omega))]
      simp only [wordBV_congr (hbs0 bs0.input (by rw [m0]; have := va.lt; omega))]
      exact p2.out
    · rw [Words.congr_row (w' := wc) fun pos => by
        rw [q1 _ (by omega), p1 _ (by omega), ← hwm, setU32s_ne (by omega)], ← hwc]
      exact words_set (by norm_num)
    · rw [Words.congr_row (w' := wm) fun pos => by rw [q1 _ (by omega), p1 _ (by omega)], ← hwm]
      exact words_set (by norm_num)
  refine ⟨⟨n, v, ⟨na, v.a, v.b, v.c, ne, v.e, v.f, v.g⟩, ch, maj, gs, bs0, bs1⟩, t6, ?_, hhead.trans i2, rfl, ?_, fun w hw => ?_⟩
  · rw [Round.build, a1, Option.bind_some]
    dsimp only
    rw [b1, Option.bind_some]
    dsimp only
    rw [c1, Option.bind_some]
    dsimp only
    rw [d1, Option.bind_some]
    dsimp only
    rw [f1, Option.bind_some, g1, Option.bind_some, i1, Option.bind_some]
  · have e6 := e5.trans i2.ext
    intro c hc
    simp only [Vars.toList, List.mem_cons, List.not_mem_nil, or_false] at hc
    rcases hc with rfl | rfl | rfl | rfl | rfl | rfl | rfl | rfl
    exacts [i3, va.ext e6, vb.ext e6, vc.ext e6, i4, ve.ext e6, vf.ext e6, vg.ext e6]
  · obtain ⟨j1, j2⟩ := i5 w hw
    obtain ⟨-, q1, q2, q3, q4⟩ := (hadd.holds ht w).1 (i2.sound w hw)
    have o0 : wordBV w bs0.out 0 = Sha.bigSigma0 (wordBV w v.a 0) := by
      rw [q1.out.word (by norm_num), a2.input]; rfl
    have o1 : wordBV w bs1.out 0 = Sha.bigSigma1 (wordBV w v.e 0) := by
      rw [q2.out.word (by norm_num), b2.input]; rfl
    rw [o0, o1, q3.word (by norm_num)] at j1
    rw [q4.word (by norm_num)] at j1
    rw [o1, q3.word (by norm_num)] at j2
    show Sha.State.mk (wordBV w na 0) _ _ _ (wordBV w ne 0) _ _ _ = _
    rw [j1, j2]
    rfl

/-! ### All rounds -/

/-- The working variables after the rounds `rs`. -/
def curVars (v : Vars) (rs : List Round) : Vars := match rs.getLast? with
  | none => v
  | some r => r.nextVars

theorem roundLoop_stage (Tw : Tower F) {v : Vars} {ks ws : List Col} {N : Nat} (hN : N ≤ 64) (hks : ks.length = N)
    (hws : ws.length = N) :
    ∀ (n i : Nat) (rs : List Round) (t : Table F), i + n = N → rs.length = i →
    (∀ r, rs.getLast? = some r → r.round + 1 = i) → WellFormed t → VarsIn t (curVars v rs) → (∀ c ∈ ks, t.Has c 0 5) →
    (∀ c ∈ ws, t.Has c 0 5) →
    ∃ rs' t', Sha256.roundLoop v ks ws i n rs t = some (rs ++ rs', t') ∧ rs'.length = n ∧
      Stage Tw t t' (fun w => rs'.foldl (fun w r => r.populate w) w) ∧ VarsIn t' (curVars v (rs ++ rs')) ∧
      ∀ w, RowHolds Tw t' w → ∀ (K W : Nat → BitVec 32) (s : Sha.State),
        (∀ j c, ks[j]? = some c → wordBV w c 0 = K j) → (∀ j c, ws[j]? = some c → wordBV w c 0 = W j) →
        varsVal w (curVars v rs) = Sha.rounds K W i s →
        varsVal w (curVars v (rs ++ rs')) = Sha.rounds K W N s
  | 0, i, rs, t, hi, _, _, ht, hv, _, _ => by
    refine ⟨[], t, by rw [List.append_nil]; rfl, rfl, Stage.refl Tw ht, by rwa [List.append_nil], fun w hw K W s _ _ h => ?_⟩
    rw [List.append_nil, h, show i = N by omega]
  | n + 1, i, rs, t, hi, hl, hr, ht, hv, hk, hw => by
    obtain ⟨k, hk'⟩ : ∃ k, ks[i]? = some k := ⟨_, List.getElem?_eq_getElem (by omega)⟩
    obtain ⟨x, hx'⟩ : ∃ x, ws[i]? = some x := ⟨_, List.getElem?_eq_getElem (by omega)⟩
    have kh := hk k (List.mem_of_getElem? hk')
    have xh := hw x (List.mem_of_getElem? hx')
    obtain ⟨r, t1, a1, a2, a3, a4, a5⟩ := round_stage Tw ht i hv kh xh
    have hcur : curVars v (rs ++ [r]) = r.nextVars := by simp [curVars]
    obtain ⟨rs', t', b1, b2, b3, b4, b5⟩ := roundLoop_stage Tw hN hks hws n (i + 1) (rs ++ [r]) t1 (by omega) (by simp [hl])
      (fun r' hr' => by
        rw [List.getLast?_append_cons, List.getLast?_singleton] at hr'
        rw [← Option.some_inj.1 hr', a3]) a2.wf (by rw [hcur]; exact a4) (fun c hc => (hk c hc).ext a2.ext) (fun c hc => (hw c hc).ext a2.ext)
    have hstep : (if i = 0 then Round.first t v k x else rs[i - 1]?.bind fun p => Round.next t p k x) = some (r, t1) := by
      by_cases h0 : i = 0
      · rw [if_pos h0, Round.first]
        have : rs = [] := List.eq_nil_of_length_eq_zero (hl.trans h0)
        subst this
        rw [← a1, h0]
        rfl
      · have hlast := List.getLast?_eq_getElem? (l := rs)
        rw [hl] at hlast
        rw [if_neg h0]
        cases hg : rs.getLast? with
        | none =>
          rw [List.getLast?_eq_none_iff] at hg
          subst hg
          exact absurd hl.symm h0
        | some p =>
          have hpr := hr p hg
          rw [← hlast, hg, Option.bind_some, Round.next, if_pos (by omega), ← a1, hpr]
          simp only [curVars, hg]
    refine ⟨r :: rs', t', ?_, by simp [b2], a2.trans b3, by rwa [List.append_assoc] at b4, fun w hw' K W s hK hW hs => ?_⟩
    · rw [Sha256.roundLoop, hk', Option.bind_some, hx', Option.bind_some, hstep, Option.bind_some, b1, List.append_assoc]
      rfl
    · have := b5 w hw' K W s hK hW (by
        rw [hcur, a5 w (b3.sound w hw'), hK _ _ hk', hW _ _ hx', hs]; rfl)
      rwa [List.append_assoc] at this

/-! ### The final sums -/

/-- A column that is committed. -/
def IsCommitted (t : Table F) (c : Col) : Prop := ∃ ci, t.columns[c.idx]? = some ci ∧ ci.defn = .committed 0

theorem IsCommitted.ext {t t' : Table F} {c : Col} (h : IsCommitted t c) (he : Ext t t') : IsCommitted t' c := by
  obtain ⟨ci, h1, h2⟩ := h
  obtain ⟨ci', h3, -, -, h4⟩ := he.cols _ _ h1
  exact ⟨ci', h3, h4.trans h2⟩

theorem committed_of_add {t t' : Table F} {c : Col} {lv : Nat} (h : t.addCommitted 0 lv = some (c, t')) : IsCommitted t' c := by
  injection h with h
  have h1 := congrArg Prod.fst h
  have h2 := congrArg Prod.snd h
  dsimp only at h1 h2
  rw [← h1, ← h2]
  exact ⟨_, List.getElem?_concat_length, rfl⟩

theorem zout_committed {t t' : Table F} {x y : Col} {g : U32Add} (h : U32Add.new t x y shaAddFlags = some (g, t')) :
    IsCommitted t' g.zout := by
  simp only [U32Add.new, Option.bind_eq_some_iff, sumColumn, shaAddFlags, if_true, Option.some_inj, Prod.mk.injEq] at h
  obtain ⟨p0, -, p1, -, p2, -, p3, -, t4, -, p5, ⟨q, hq, tz, hz, rfl⟩, rfl, rfl⟩ := h
  have hc : tz.columns = q.2.columns := by
    injection hz with hz
    rw [← hz]
  dsimp only
  unfold IsCommitted
  rw [hc]
  injection hq with hq
  subst hq
  exact ⟨_, List.getElem?_concat_length, rfl⟩

theorem finalSums_stage (Tw : Tower F) {xs ys : List Col} :
    ∀ (n i : Nat) (t : Table F), i + n ≤ xs.length → i + n ≤ ys.length → WellFormed t → (∀ c ∈ xs, t.Has c 0 5) →
    (∀ c ∈ ys, t.Has c 0 5) →
    ∃ gs t', fromFn (Sha256.finalSum xs ys) i n t = some (gs, t') ∧ gs.length = n ∧
      Stage Tw t t' (fun w => gs.foldl (fun w s => s.populate w) w) ∧ (∀ g ∈ gs, t'.Has g.zout 0 5 ∧ IsCommitted t' g.zout) ∧
      ∀ w, RowHolds Tw t' w → ∀ (k : Nat) (g : U32Add), gs[k]? = some g → ∃ x y, xs[i + k]? = some x ∧
        ys[i + k]? = some y ∧ wordBV w g.zout 0 = wordBV w x 0 + wordBV w y 0
  | 0, i, t, _, _, ht, _, _ => ⟨[], t, rfl, rfl, Stage.refl Tw ht, by simp, by simp⟩
  | n + 1, i, t, h1, h2, ht, hx, hy => by
    obtain ⟨x, hx'⟩ : ∃ x, xs[i]? = some x := ⟨_, List.getElem?_eq_getElem (by omega)⟩
    obtain ⟨y, hy'⟩ : ∃ y, ys[i]? = some y := ⟨_, List.getElem?_eq_getElem (by omega)⟩
    obtain ⟨g, t1, a1, a2, a3, a4⟩ := add_stage Tw ht (hx x (List.mem_of_getElem? hx')) (hy y (List.mem_of_getElem? hy'))
    obtain ⟨gs, t', b1, b2, b3, b4, b5⟩ := finalSums_stage Tw n (i + 1) t1 (by omega) (by omega) a2.wf
      (fun c hc => (hx c hc).ext a2.ext) (fun c hc => (hy c hc).ext a2.ext)
    refine ⟨g :: gs, t', ?_, by simp [b2], a2.trans b3, ?_, fun w hw k g' hk => ?_⟩
    · rw [fromFn, Sha256.finalSum, hx', Option.bind_some, hy', Option.bind_some, a1, Option.bind_some]
      dsimp only
      rw [b1, Option.bind_some]
    · intro g' hg'
      rcases List.mem_cons.1 hg' with rfl | hg'
      · exact ⟨a3.ext b3.ext, (zout_committed a1).ext b3.ext⟩
      · exact b4 g' hg'
    · cases k with
      | zero =>
        have : g = g' := by simpa using hk
        subst this
        exact ⟨x, y, hx', hy', a4 w (b3.sound w hw)⟩
      | succ k =>
        obtain ⟨x', y', q1, q2, q3⟩ := b5 w hw k g' (by simpa using hk)
        rw [show i + 1 + k = i + (k + 1) by omega] at q1 q2
        exact ⟨x', y', q1, q2, q3⟩

end Verif.M3
