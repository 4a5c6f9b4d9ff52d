import Verif.M3.LemmasKeccakBatch
import Verif.M3.LemmasBarrel

/-! The whole Keccak gadget: its rows are those whose columns hold the traces of the rounds of one permutation. -/

set_option linter.dupNamespace false
set_option linter.unusedSectionVars false

namespace Verif.M3.Keccak

open Finset Verif.Arith

variable {F : Type} [Field F] [DecidableEq F] [CharP F 2]

/-! ### Packed lanes -/

theorem packLane_sub {Tw : Tower F} (hT : 6 ≤ Tw.height) (v : BitVec 64) : Tw.sub 6 (packLane Tw.basis v) :=
  sub_sum Tw fun e he => Tw.sub_mul 6 _ _ (sub_mono_le Tw (Nat.zero_le 6) (sub_of_isBit (ofBit_isBit _)))
    (Tw.basis_sub 6 hT e (by omega))

theorem packLane_inj {Tw : Tower F} (hT : 6 ≤ Tw.height) {u v : BitVec 64}
    (h : packLane Tw.basis u = packLane Tw.basis v) : u = v := by
  have h64 : 64 ≤ 2 ^ Tw.height := (by norm_num : 64 ≤ 2 ^ 6).trans (Nat.pow_le_pow_right (by omega) hT)
  have := Tw.indep (fun e => if e < 64 then ofBit (u.getLsbD e) + ofBit (v.getLsbD e) else 0) (fun e => by
    split
    · exact isBit_add (ofBit_isBit _) (ofBit_isBit _)
    · exact Or.inl rfl) (by
    rw [← Finset.sum_subset (s₁ := range 64) (Finset.range_mono h64)]
    · rw [Finset.sum_congr rfl fun e he => by rw [if_pos (mem_range.1 he), add_mul], sum_add_distrib]
      show packLane Tw.basis u + packLane Tw.basis v = 0
      rw [h]
      exact CharTwo.add_self_eq_zero _
    · intro e _ he
      rw [if_neg (by rwa [mem_range] at he), zero_mul])
  refine BitVec.eq_of_getLsbD_eq fun e he => ?_
  have h1 := this e (by omega)
  rw [if_pos he] at h1
  have h2 := CharTwo.add_eq_zero.1 h1
  revert h2
  cases u.getLsbD e <;> cases v.getLsbD e <;> simp

theorem laneElement_eq (Tw : Tower F) (v : BitVec 64) {l : Fin 64 → Bool} (h : ∀ z, l z = v.getLsbD z) :
    Verif.Keccak.laneElement Tw l = packLane Tw.basis v := by
  rw [Verif.Keccak.laneElement, packLane, ← Fin.sum_univ_eq_sum_range (fun e => ofBit (v.getLsbD e) * Tw.basis e) 64]
  refine Finset.sum_congr rfl fun z _ => ?_
  rw [h z]
  rfl

theorem pack_lane {Tw : Tower F} {w : Row F} {c : Col} (h : Lanes w c (lanes w c)) (k : Fin 8) :
    ∑ e ∈ range (2 ^ (6 - 0)), w c.idx (e + 2 ^ (6 - 0) * k.val) * Tw.basis (e * 2 ^ 0) = packLane Tw.basis (lanes w c k) := by
  refine Finset.sum_congr rfl fun e he => ?_
  have he' : e < 64 := mem_range.1 he
  rw [show e + 2 ^ (6 - 0) * k.val = 64 * k.val + e by norm_num; omega, h k e he', pow_zero, mul_one]

/-! ### The columns and the rows -/

/-- Where the columns of the gadget are. -/
structure TopCols (L : Nat) (g : Keccakf) : Prop where
  stateIn : ∀ i, ((g.batches 0).stateIn i).idx = L + i.val
  stateInPacked : ∀ i, (g.stateInPacked i).idx = L + 25 + i.val
  batch : ∀ n, BatchCols (L + 50 + 90 * n.val) (g.batches n)
  next1 : (g.batches 1).stateIn = (g.batches 0).stateOut
  next2 : (g.batches 2).stateIn = (g.batches 1).stateOut
  no : ∀ n, (g.batches n).batchNo = n
  b0 : ∀ n, (g.batches n).b 0 = (g.batches n).aTheta 0
  stateOutPacked : ∀ i, (g.stateOutPacked i).idx = L + 320 + i.val
  input : ∀ i, (g.input i).idx = L + 345 + i.val
  output : ∀ i, (g.output i).idx = L + 370 + i.val
  linkSel : g.linkSel.idx = L + 395
  nextStateIn : ∀ i, (g.nextStateIn i).idx = L + 396 + i.val

/-- What the gadget says about the values of a row. -/
structure TopRow (Tw : Tower F) (w : Row F) (g : Keccakf) : Prop where
  bits : ∀ i, Lanes w ((g.batches 0).stateIn i) (lanes w ((g.batches 0).stateIn i))
  batch : ∀ n, BatchRow w (g.batches n)
  stateInPacked : ∀ i, ∀ k : Fin 8, w (g.stateInPacked i).idx k.val = packLane Tw.basis (lanes w ((g.batches 0).stateIn i) k)
  stateOutPacked : ∀ i, ∀ k : Fin 8, w (g.stateOutPacked i).idx k.val = packLane Tw.basis (lanes w ((g.batches 2).stateOut i) k)
  input : ∀ i, w (g.input i).idx 0 = packLane Tw.basis (lanes w ((g.batches 0).stateIn i) 0)
  output : ∀ i, w (g.output i).idx 0 = packLane Tw.basis (lanes w ((g.batches 2).stateOut i) 7)
  linkSel : ∀ k : Fin 8, w g.linkSel.idx k.val = if k.val < 7 then 1 else 0
  nextStateIn : ∀ i, ∀ k : Fin 7, w (g.nextStateIn i).idx k.val =
    packLane Tw.basis (lanes w ((g.batches 0).stateIn i) ⟨k.val + 1, by omega⟩)
  nextLast : ∀ i, w (g.nextStateIn i).idx 7 = 0
  link : ∀ i, ∀ k : Fin 7, lanes w ((g.batches 2).stateOut i) ⟨k.val, by omega⟩ =
    lanes w ((g.batches 0).stateIn i) ⟨k.val + 1, by omega⟩

theorem forall_8 {P : Nat → Prop} : (∀ p < 2 ^ 3, P p) ↔ ∀ k : Fin 8, P k.val :=
  ⟨fun h k => h k.val k.isLt, fun h p hp => h ⟨p, hp⟩⟩

theorem linkSel_get (k : Fin 8) : (linkSelConst : List F)[k.val]? = some (if k.val < 7 then 1 else 0) := by
  rw [linkSelConst, List.getElem?_map, List.getElem?_range k.isLt, Option.map_some]

theorem Keccakf_new_ok (Tw : Tower F) (hT : 6 ≤ Tw.height) {t : Table F} (ht : WellFormed t) :
    ∃ g t', Keccakf.new t = some (g, t') ∧ TopCols t.columns.length g ∧
      t'.columns.length = t.columns.length + 421 ∧ (∀ i, t'.Has (g.input i) 6 0) ∧ (∀ i, t'.Has (g.output i) 6 0) ∧
      Adds Tw t t' fun w => TopRow Tw w g := by
  obtain ⟨s, t1, a1, a2, a3⟩ := matFromFn_ok Tw (f := fun _ _ t => t.addCommitted 0 9) (level := 0) (lv := 9)
    (fun _ _ c => InField Tw 0 9 c) ht fun x _ y _ t1 _ _ => addCommitted_ok Tw t1 0 9
  have w1 := a3.wf ht
  obtain ⟨sp, t2, b1, b2, b3⟩ := matFromFn_ok Tw (f := fun x y t => t.addPacked 0 9 6 3 (s.at x y)) (level := 6) (lv := 3)
    (fun x y c w => InField Tw 6 3 c w ∧ ∀ p < 2 ^ 3, w c.idx p = ∑ e ∈ range (2 ^ (6 - 0)),
      w (s.at x y).idx (e + 2 ^ (6 - 0) * p) * Tw.basis (e * 2 ^ 0)) w1
    fun x _ y _ t' e' _ => addPacked_ok Tw t' ((a2.has _).ext e') (by norm_num) (by norm_num) (by norm_num)
  have w2 := b3.wf w1
  obtain ⟨g0, t3, c1, c2, c3, c4, c5, c6, c7, c8⟩ := RoundBatch_new_ok Tw w2 (fun i => (a2.has i).ext b3.ext) 0
  have w3 := c8.wf w2
  obtain ⟨g1, t4, d1, d2, d3, d4, d5, d6, d7, d8⟩ := RoundBatch_new_ok Tw w3 c7 1
  have w4 := d8.wf w3
  obtain ⟨g2, t5, e1, e2, e3, e4, e5, e6, e7, e8⟩ := RoundBatch_new_ok Tw w4 d7 2
  have w5 := e8.wf w4
  obtain ⟨op, t6, f1, f2, f3⟩ := matFromFn_ok Tw (f := fun x y t => t.addPacked 0 9 6 3 (g2.stateOut.at x y)) (level := 6)
    (lv := 3) (fun x y c w => InField Tw 6 3 c w ∧ ∀ p < 2 ^ 3, w c.idx p = ∑ e ∈ range (2 ^ (6 - 0)),
      w (g2.stateOut.at x y).idx (e + 2 ^ (6 - 0) * p) * Tw.basis (e * 2 ^ 0)) w5
    fun x _ y _ t' e' _ => addPacked_ok Tw t' ((e7 _).ext e') (by norm_num) (by norm_num) (by norm_num)
  have w6 := f3.wf w5
  have sp6 := fun i => ((((b2.has i).ext c8.ext).ext d8.ext).ext e8.ext).ext f3.ext
  obtain ⟨inp, t7, h1, h2, h3⟩ := matFromFn_ok Tw (f := fun x y t => t.addSelected 6 3 (sp.at x y) 0) (level := 6) (lv := 0)
    (fun x y c w => InField Tw 6 0 c w ∧ w c.idx 0 = w (sp.at x y).idx 0) w6
    fun x _ y _ t' e' _ => addSelected_ok Tw t' ((sp6 _).ext e') (by norm_num)
  have w7 := h3.wf w6
  obtain ⟨outp, t8, i1, i2, i3⟩ := matFromFn_ok Tw (f := fun x y t => t.addSelected 6 3 (op.at x y) 7) (level := 6) (lv := 0)
    (fun x y c w => InField Tw 6 0 c w ∧ w c.idx 0 = w (op.at x y).idx 7) w7
    fun x _ y _ t' e' _ => addSelected_ok Tw t' (((f2.has _).ext h3.ext).ext e') (by norm_num)
  have w8 := i3.wf w7
  obtain ⟨ls, t9, j1, j2, j3⟩ := addConstant_ok Tw t8 0 3 (ks := linkSelConst) (by simp [linkSelConst])
  have w9 := j3.wf w8
  have sp9 := fun i => (((sp6 i).ext h3.ext).ext i3.ext).ext j3.ext
  obtain ⟨ns, t10, k1, k2, k3⟩ := matFromFn_ok Tw (f := fun x y t => t.addShifted 6 3 (sp.at x y) 3 1 .logicalRight)
    (level := 6) (lv := 3) (fun x y c w => InField Tw 6 3 c w ∧ ∀ p < 2 ^ 3, w c.idx p =
      Transparent.shifted .logicalRight 3 1 (fun q => w (sp.at x y).idx (q + 2 ^ 3 * (p / 2 ^ 3))) (p % 2 ^ 3)) w9
    fun x _ y _ t' e' _ => addShifted_ok Tw t' ((sp9 _).ext e') (by norm_num) (by norm_num) .logicalRight
  have w10 := k3.wf w9
  have op10 := fun i => ((((f2.has i).ext h3.ext).ext i3.ext).ext j3.ext).ext k3.ext
  have ls10 := j2.has.ext k3.ext
  obtain ⟨t11, l1, l2, l3⟩ := forEach_ok Tw
    (f := fun x t => forEach (fun y t => t.assertZero 3 (mul (sub (op.at x y).expr (ns.at x y).expr) ls.expr)) 0 5 t)
    (fun x w => ∀ y < 5, ∀ p < 2 ^ 3, (w (op.at x y).idx p + w (ns.at x y).idx p) * w ls.idx p = 0) 5 0 t10 w10
    fun x _ _ t' e' w' => by
      obtain ⟨t'', m1, m2, m3⟩ := forEach_ok Tw
        (f := fun y t => t.assertZero 3 (mul (sub (op.at x y).expr (ns.at x y).expr) ls.expr))
        (fun y w => ∀ p < 2 ^ 3, (w (op.at x y).idx p + w (ns.at x y).idx p) * w ls.idx p = 0) 5 0 t' w'
        fun y _ _ t2 e2 w2 => by
          obtain ⟨t3, n1, n2, n3⟩ := assertZero_ok Tw ((Ev.sub (Ev.col (((op10 (pos x y)).ext e').ext e2))
            (Ev.col (((k2.has (pos x y)).ext e').ext e2))).mul (Ev.col ((ls10.ext e').ext e2)))
          exact ⟨t3, n1, by rw [n2], n3⟩
      exact ⟨t'', m1, m2, m3.congr fun w _ => forall_congr' fun y => imp_congr_right fun _ => by rw [Nat.zero_add]⟩
  have q1 := a2.len
  have q2 := b2.len
  have q6 := f2.len
  have q7 := h2.len
  have q8 := i2.len
  have q9 := j2.len
  have q10 := k2.len
  refine ⟨⟨![g0, g1, g2], inp, outp, ns, ls, sp, op⟩, t11, ?_, ?_, by omega,
    fun i => ((((h2.has i).ext i3.ext).ext j3.ext).ext k3.ext).ext l3.ext,
    fun i => (((i2.has i).ext j3.ext).ext k3.ext).ext l3.ext, ?_⟩
  · rw [Keccakf.new, a1, Option.bind_some]
    dsimp only
    rw [b1, Option.bind_some]
    dsimp only
    rw [c1, Option.bind_some]
    dsimp only
    rw [d1, Option.bind_some]
    dsimp only
    rw [e1, Option.bind_some]
    dsimp only
    rw [f1, Option.bind_some]
    dsimp only
    rw [h1, Option.bind_some]
    dsimp only
    rw [i1, Option.bind_some]
    dsimp only
    rw [j1, Option.bind_some]
    dsimp only
    rw [k1, Option.bind_some]
    dsimp only
    rw [l1, Option.bind_some]
  · refine ⟨fun i => ?_, fun i => ?_, fun n => ?_, ?_, ?_, fun n => ?_, fun n => ?_, fun i => ?_, fun i => ?_, fun i => ?_, ?_,
      fun i => ?_⟩
    · show (g0.stateIn i).idx = _; rw [c3]; exact a2.idx i
    · show (sp i).idx = _; rw [b2.idx]; omega
    · fin_cases n
      · show BatchCols (t.columns.length + 50 + 90 * 0) g0
        rwa [show t.columns.length + 50 + 90 * 0 = t2.columns.length by omega]
      · show BatchCols (t.columns.length + 50 + 90 * 1) g1
        rwa [show t.columns.length + 50 + 90 * 1 = t3.columns.length by omega]
      · show BatchCols (t.columns.length + 50 + 90 * 2) g2
        rwa [show t.columns.length + 50 + 90 * 2 = t4.columns.length by omega]
    · exact d3
    · exact e3
    · fin_cases n
      · exact c2
      · exact d2
      · exact e2
    · fin_cases n
      · exact c4
      · exact d4
      · exact e4
    · show (op i).idx = _; rw [f2.idx]; omega
    · show (inp i).idx = _; rw [h2.idx]; omega
    · show (outp i).idx = _; rw [i2.idx]; omega
    · show ls.idx = _; rw [j2.idx]; omega
    · show (ns i).idx = _; rw [k2.idx]; omega
  · refine ((((((((((a3.trans b3).trans c8).trans d8).trans e8).trans f3).trans h3).trans i3).trans j3).trans k3).trans
      l3).congr fun w _ => ?_
    set g : Keccakf := ⟨![g0, g1, g2], inp, outp, ns, ls, sp, op⟩ with hg
    have shift : ∀ (c : Col) (k : Fin 8), Transparent.shifted .logicalRight 3 1
        (fun q => w c.idx (q + 2 ^ 3 * (k.val / 2 ^ 3))) (k.val % 2 ^ 3) = if k.val + 1 < 8 then w c.idx (k.val + 1) else 0 := by
      intro c k
      have := k.isLt
      show (if k.val % 2 ^ 3 + 1 < 2 ^ 3 then w c.idx (k.val % 2 ^ 3 + 1 + 2 ^ 3 * (k.val / 2 ^ 3)) else 0) = _
      rw [show k.val % 2 ^ 3 = k.val by omega, show k.val / 2 ^ 3 = 0 by omega]
      rfl
    constructor
    · rintro ⟨⟨⟨⟨⟨⟨⟨⟨⟨⟨p1, p2⟩, p3⟩, p4⟩, p5⟩, p6⟩, p7⟩, p8⟩, p9⟩, p10⟩, p11⟩
      have hbits : ∀ i, Lanes w (s i) (lanes w (s i)) := fun i => lanes_of_isBit fun p hp => isBit_of_sub (p1 i p hp)
      have hout : ∀ i, Lanes w (g2.stateOut i) (lanes w (g2.stateOut i)) := fun i => lanes_of_isBit (p5.out i).isBit
      have hsp : ∀ i, ∀ k : Fin 8, w (sp i).idx k.val = packLane Tw.basis (lanes w (s i) k) := fun i k => by
        rw [(p2 i).2 k.val k.isLt, Mat.at_surj, pack_lane (hbits i) k]
      have hop : ∀ i, ∀ k : Fin 8, w (op i).idx k.val = packLane Tw.basis (lanes w (g2.stateOut i) k) := fun i k => by
        rw [(p6 i).2 k.val k.isLt, Mat.at_surj, pack_lane (hout i) k]
      have hns : ∀ i, ∀ k : Fin 8, w (ns i).idx k.val = if k.val + 1 < 8 then w (sp i).idx (k.val + 1) else 0 :=
        fun i k => by rw [(p10 i).2 k.val k.isLt, Mat.at_surj, shift]
      have hls : ∀ k : Fin 8, w ls.idx k.val = if k.val < 7 then 1 else 0 := fun k => by
        have := p9.2 k.val k.isLt
        rw [linkSel_get] at this
        exact (Option.some_inj.1 this).symm
      have hns' : ∀ i, ∀ k : Fin 7, w (ns i).idx k.val = packLane Tw.basis (lanes w (s i) ⟨k.val + 1, by omega⟩) :=
        fun i k => by
          have := hns i ⟨k.val, by omega⟩
          rw [if_pos (by have := k.isLt; show k.val + 1 < 8; omega)] at this
          rw [← hsp i ⟨k.val + 1, by omega⟩]
          exact this
      have hc3 : g0.stateIn = s := c3
      refine ⟨fun i => ?_, fun n => ?_, fun i k => ?_, hop, fun i => ?_, fun i => ?_, hls, fun i k => ?_, fun i => ?_, fun i k => ?_⟩
      · show Lanes w (g0.stateIn i) (lanes w (g0.stateIn i)); rw [hc3]; exact hbits i
      · fin_cases n
        · exact p3
        · exact p4
        · exact p5
      · show _ = packLane Tw.basis (lanes w (g0.stateIn i) k); rw [hc3]; exact hsp i k
      · show _ = packLane Tw.basis (lanes w (g0.stateIn i) 0)
        rw [hc3, ← hsp i 0]
        have := (p7 i).2
        rwa [Mat.at_surj] at this
      · show _ = packLane Tw.basis (lanes w (g2.stateOut i) 7)
        rw [← hop i 7]
        have := (p8 i).2
        rwa [Mat.at_surj] at this
      · show _ = packLane Tw.basis (lanes w (g0.stateIn i) _)
        rw [hc3]; exact hns' i k
      · have := hns i 7
        rw [if_neg (by decide)] at this
        exact this
      · show lanes w (g2.stateOut i) _ = lanes w (g0.stateIn i) _
        rw [hc3]
        refine packLane_inj hT ?_
        rw [← hop, ← hns' i k]
        have := p11 (i.val % 5) (Nat.mod_lt _ (by norm_num)) (i.val / 5) (by omega) k.val (by have := k.isLt; omega)
        rw [Nat.zero_add, Mat.at_surj, Mat.at_surj, hls ⟨k.val, by omega⟩, if_pos k.isLt, mul_one] at this
        exact CharTwo.add_eq_zero.1 this
    · rintro ⟨r1, r2, r3, r4, r5, r6, r7, r8, r9, r10⟩
      have hc3 : (g.batches 0).stateIn = s := c3
      have hg2 : (g.batches 2).stateOut = g2.stateOut := rfl
      rw [hc3] at r1 r3 r5 r8 r10
      rw [hg2] at r4 r6 r10
      have hout : ∀ i, Lanes w (g2.stateOut i) (lanes w (g2.stateOut i)) := fun i => lanes_of_isBit ((r2 2).out i).isBit
      have rns : ∀ i, ∀ k : Fin 8, w (ns i).idx k.val = if k.val + 1 < 8 then w (sp i).idx (k.val + 1) else 0 :=
        fun i k => by
          by_cases hk : k.val + 1 < 8
          · rw [if_pos hk]
            exact (r8 i ⟨k.val, by omega⟩).trans (r3 i ⟨k.val + 1, hk⟩).symm
          · rw [if_neg hk]
            have : k.val = 7 := by have := k.isLt; omega
            rw [this]
            exact r9 i
      refine ⟨⟨⟨⟨⟨⟨⟨⟨⟨⟨fun i => (r1 i).inField, fun i => ⟨forall_8.2 fun k => ?_, forall_8.2 fun k => ?_⟩⟩, r2 0⟩, r2 1⟩, r2 2⟩,
        fun i => ⟨forall_8.2 fun k => ?_, forall_8.2 fun k => ?_⟩⟩, fun i => ⟨fun p hp => ?_, ?_⟩⟩, fun i => ⟨fun p hp => ?_, ?_⟩⟩,
        forall_8.2 fun k => ?_, forall_8.2 fun k => ?_⟩, fun i => ⟨forall_8.2 fun k => ?_, forall_8.2 fun k => ?_⟩⟩,
        fun x hx y hy => forall_8.2 fun k => ?_⟩
      · rw [r3 i k]; exact packLane_sub hT _
      · rw [r3 i k, Mat.at_surj, pack_lane (r1 i) k]
      · rw [r4 i k]; exact packLane_sub hT _
      · rw [r4 i k, Mat.at_surj, pack_lane (hout i) k]
      · rw [show p = 0 by simpa using hp, r5 i]; exact packLane_sub hT _
      · rw [r5 i, Mat.at_surj]; exact (r3 i 0).symm
      · rw [show p = 0 by simpa using hp, r6 i]; exact packLane_sub hT _
      · rw [r6 i, Mat.at_surj]; exact (r4 i 7).symm
      · rw [r7 k]
        split
        · exact sub_of_isBit isBit_one
        · exact sub_of_isBit isBit_zero
      · rw [linkSel_get, r7 k]
      · rw [rns i k]
        split
        · next h => exact (r3 i ⟨k.val + 1, h⟩).symm ▸ packLane_sub hT _
        · exact sub_mono_le Tw (Nat.zero_le 6) (sub_of_isBit isBit_zero)
      · rw [rns i k, Mat.at_surj, shift]
      · rw [Nat.zero_add, r7 k]
        by_cases hk : k.val < 7
        · rw [if_pos hk, mul_one]
          show w (op (pos x y)).idx k.val + w (ns (pos x y)).idx k.val = 0
          rw [r4 _ k, r8 _ ⟨k.val, hk⟩, ← r10 _ ⟨k.val, hk⟩]
          exact CharTwo.add_self_eq_zero _
        · rw [if_neg hk, mul_zero]

/-! ### Soundness -/

theorem TopRow.states {Tw : Tower F} {w : Row F} {g : Keccakf} {L : Nat} (hc : TopCols L g) (h : TopRow Tw w g) :
    ∀ k (hk : k < 8), inState w (g.batches 0) ⟨k, hk⟩ = before (inState w (g.batches 0) 0) (3 * k) ∧
      (fun i => lanes w ((g.batches 2).stateOut i) ⟨k, hk⟩) = before (inState w (g.batches 0) 0) (3 * k + 3) := by
  have step : ∀ n (k : Fin 8), (fun i => lanes w ((g.batches n).stateOut i) k) =
      (gather (inState w (g.batches n) k) (nthRound n k)).stateOut := fun n k => funext fun i => by
    rw [((h.batch n).out i).lane k]
    show (gather _ (nthRound (g.batches n).batchNo k)).stateOut i = _
    rw [hc.no]
  have out : ∀ k (hk : k < 8), inState w (g.batches 0) ⟨k, hk⟩ = before (inState w (g.batches 0) 0) (3 * k) →
      (fun i => lanes w ((g.batches 2).stateOut i) ⟨k, hk⟩) = before (inState w (g.batches 0) 0) (3 * k + 3) := by
    intro k hk h0
    have h1 : inState w (g.batches 1) ⟨k, hk⟩ = before (inState w (g.batches 0) 0) (3 * k + 1) := by
      unfold inState
      rw [hc.next1, step 0, h0]
      have := before_succ (inState w (g.batches 0) 0) (nthRound 0 ⟨k, hk⟩)
      rw [show (nthRound 0 ⟨k, hk⟩).val = 3 * k by show k * 3 + 0 = _; omega] at this
      exact this.symm
    have h2 : inState w (g.batches 2) ⟨k, hk⟩ = before (inState w (g.batches 0) 0) (3 * k + 2) := by
      unfold inState
      rw [hc.next2, step 1, h1]
      have := before_succ (inState w (g.batches 0) 0) (nthRound 1 ⟨k, hk⟩)
      rw [show (nthRound 1 ⟨k, hk⟩).val = 3 * k + 1 by show k * 3 + 1 = _; omega] at this
      exact this.symm
    rw [step 2, h2]
    have := before_succ (inState w (g.batches 0) 0) (nthRound 2 ⟨k, hk⟩)
    rw [show (nthRound 2 ⟨k, hk⟩).val = 3 * k + 2 by show k * 3 + 2 = _; omega] at this
    exact this.symm
  intro k
  induction k with
  | zero => intro hk; exact ⟨rfl, out 0 hk rfl⟩
  | succ k ih =>
    intro hk
    have e : inState w (g.batches 0) ⟨k + 1, hk⟩ = before (inState w (g.batches 0) 0) (3 * (k + 1)) := by
      rw [show 3 * (k + 1) = 3 * k + 3 by omega, ← (ih (by omega)).2]
      funext i
      exact (h.link i ⟨k, by omega⟩).symm
    exact ⟨e, out _ hk e⟩

theorem TopRow.sound {Tw : Tower F} {w : Row F} {g : Keccakf} {L : Nat} (hc : TopCols L g) (h : TopRow Tw w g) (i : Fin 25) :
    w (g.input i).idx 0 = packLane Tw.basis (inState w (g.batches 0) 0 i) ∧
      w (g.output i).idx 0 = packLane Tw.basis (before (inState w (g.batches 0) 0) 24 i) := by
  refine ⟨h.input i, ?_⟩
  rw [h.output i, ← (h.states hc 7 (by norm_num)).2]
  rfl

end Verif.M3.Keccak
