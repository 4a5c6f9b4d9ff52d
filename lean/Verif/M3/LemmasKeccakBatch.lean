import Verif.M3.LemmasKeccak

/-! A batch of rounds of the Keccak gadget: its rows are those whose columns hold the traces of the rounds. -/

set_option linter.dupNamespace false
set_option linter.unusedSectionVars false

namespace Verif.M3.Keccak

open Finset Verif.Arith

variable {F : Type} [Field F] [DecidableEq F]

theorem Line.at_val {α : Type} (m : Line α) (x : Fin 5) : m.at x.val = m x := by
  unfold Line.at
  congr 1
  exact Fin.ext (Nat.mod_eq_of_lt x.isLt)

theorem Line.at_mod {α : Type} (m : Line α) (x : Nat) : m.at (x % 5) = m.at x := by
  unfold Line.at
  congr 2
  omega

theorem Mat.at_surj {α : Type} (m : Mat α) (i : Fin 25) : m.at (i.val % 5) (i.val / 5) = m i :=
  congrArg m (pos_surj i)

/-- The states at the start of the rounds of a batch. -/
def inState (w : Row F) (g : RoundBatch) (k : Fin 8) : Mat (BitVec 64) := fun i => lanes w (g.stateIn i) k

/-- The traces of the rounds of a batch. -/
def batchTrace (w : Row F) (g : RoundBatch) (k : Fin 8) : RoundTrace := gather (inState w g k) (nthRound g.batchNo k)

/-- The columns of the batch hold the traces of its rounds. -/
structure BatchRow (w : Row F) (g : RoundBatch) : Prop where
  c : ∀ x, Lanes w (g.c x) fun k => (batchTrace w g k).c x
  cShift : ∀ x, Lanes w (g.cShift x) fun k => ((batchTrace w g k).c x).rotateLeft 1
  d : ∀ x, Lanes w (g.d x) fun k => (batchTrace w g k).d x
  aTheta : ∀ i, Lanes w (g.aTheta i) fun k => (batchTrace w g k).aTheta i
  b : ∀ i, i ≠ 0 → Lanes w (g.b i) fun k => (batchTrace w g k).b i
  rc : Lanes w g.roundConst fun k => rc (nthRound g.batchNo k)
  out : ∀ i, Lanes w (g.stateOut i) fun k => (batchTrace w g k).stateOut i

/-- Where the columns of a batch are. -/
structure BatchCols (L : Nat) (g : RoundBatch) : Prop where
  out : ∀ i, (g.stateOut i).idx = L + i.val
  c : ∀ x, (g.c x).idx = L + 25 + x.val
  cShift : ∀ x, (g.cShift x).idx = L + 30 + x.val
  d : ∀ x, (g.d x).idx = L + 35 + x.val
  aTheta : ∀ i, (g.aTheta i).idx = L + 40 + i.val
  b : ∀ i : Fin 25, i ≠ 0 → (g.b i).idx = L + 65 + (i.val - 1)
  rc : g.roundConst.idx = L + 89

variable [CharP F 2]

/-- The value of the constraint on an entry of the state after a round. -/
def chiVal (out b : Mat Col) (r : Col) (x y : Nat) (w : Row F) (p : Nat) : F :=
  if x = 0 ∧ y = 0 then
    w (out.at x y).idx p + (w r.idx p + w (b.at x y).idx p + (w (b.at (x + 1) y).idx p + 1) * w (b.at (x + 2) y).idx p)
  else w (out.at x y).idx p + (w (b.at x y).idx p + (w (b.at (x + 1) y).idx p + 1) * w (b.at (x + 2) y).idx p)

theorem chiExpr_ev {t : Table F} {out b : Mat Col} {r : Col} (ho : ∀ i, t.Has (out i) 0 9) (hb : ∀ i, t.Has (b i) 0 9)
    (hr : t.Has r 0 9) (x y : Nat) : Ev t 9 (chiExpr out b r x y) (chiVal out b r x y) := by
  unfold chiExpr chiVal
  by_cases h : x = 0 ∧ y = 0
  · simp only [if_pos h]
    exact Ev.sub (Ev.col (ho _)) (((Ev.col hr).add (Ev.col (hb _))).add
      (((Ev.col (hb _)).sub (Ev.const t 9 1)).mul (Ev.col (hb _))))
  · simp only [if_neg h]
    exact Ev.sub (Ev.col (ho _)) ((Ev.col (hb _)).add (((Ev.col (hb _)).sub (Ev.const t 9 1)).mul (Ev.col (hb _))))

theorem chi_iff {w : Row F} {out b : Mat Col} {r : Col} {vb : Fin 8 → Mat (BitVec 64)} {vr : Fin 8 → BitVec 64}
    (hb : ∀ i, Lanes w (b i) fun k => vb k i) (hr : Lanes w r vr) {x y : Nat} (hx : x < 5) (hy : y < 5) :
    (∀ p < 2 ^ 9, chiVal out b r x y w p = 0) ↔ Lanes w (out.at x y) fun k => (gatherOut (vb k) (vr k)).at x y := by
  rw [forall_512]
  refine forall_congr' fun k => forall_congr' fun z => imp_congr_right fun hz => ?_
  unfold gatherOut chiVal
  beta_reduce
  rw [Mat.at_fromFn _ hx hy]
  have h0 : w (b.at x y).idx (64 * k.val + z) = ofBit (((vb k).at x y).getLsbD z) := hb _ k z hz
  have h1 : w (b.at (x + 1) y).idx (64 * k.val + z) = ofBit (((vb k).at (x + 1) y).getLsbD z) := hb _ k z hz
  have h2 : w (b.at (x + 2) y).idx (64 * k.val + z) = ofBit (((vb k).at (x + 2) y).getLsbD z) := hb _ k z hz
  have hn : ∀ a : Bool, (ofBit a : F) + 1 = ofBit (!a) := fun a => by
    cases a
    · simp
    · simpa using CharTwo.add_self_eq_zero (1 : F)
  rw [h0, h1, h2, hr k z hz]
  dsimp only
  by_cases h : x = 0 ∧ y = 0
  · simp only [if_pos h, BitVec.getLsbD_xor, BitVec.getLsbD_and, BitVec.getLsbD_not, decide_eq_true hz, Bool.true_and,
      ofBit_xor, ofBit_and, hn]
    rw [CharTwo.add_eq_zero]
    constructor <;> intro e <;> rw [e] <;> ring
  · simp only [if_neg h, BitVec.getLsbD_xor, BitVec.getLsbD_and, BitVec.getLsbD_not, decide_eq_true hz, Bool.true_and,
      ofBit_xor, ofBit_and, hn]
    rw [CharTwo.add_eq_zero]

theorem RoundBatch_new_ok (Tw : Tower F) {t : Table F} (ht : WellFormed t) {s : Mat Col} (hs : ∀ i, t.Has (s i) 0 9)
    (n : Fin 3) :
    ∃ g t', RoundBatch.new t s n = some (g, t') ∧ g.batchNo = n ∧ g.stateIn = s ∧ g.b 0 = g.aTheta 0 ∧
      BatchCols t.columns.length g ∧ t'.columns.length = t.columns.length + 90 ∧ (∀ i, t'.Has (g.stateOut i) 0 9) ∧
      Adds Tw t t' fun w => BatchRow w g := by
  obtain ⟨out, t1, a1, a2, a3⟩ := matFromFn_ok Tw (f := fun _ _ t => t.addCommitted 0 9) (level := 0) (lv := 9)
    (fun _ _ c => InField Tw 0 9 c) ht fun x _ y _ t1 _ _ => addCommitted_ok Tw t1 0 9
  have w1 := a3.wf ht
  have s1 := fun i => (hs i).ext a3.ext
  obtain ⟨c, t2, b1, b2, b3⟩ := lineFromFn_ok Tw
    (f := fun x t => (sumExpr ((List.range 5).map fun y => s.at x y)).bind fun e => t.addComputed 0 9 e)
    (level := 0) (lv := 9) (fun x c w => Lanes w c fun k => lanes w (s.at x 0) k ^^^ lanes w (s.at x 1) k ^^^
      lanes w (s.at x 2) k ^^^ lanes w (s.at x 3) k ^^^ lanes w (s.at x 4) k) w1
    fun x _ t' e' w' => sum5_ok Tw w' fun y => (s1 _).ext e'
  have w2 := b3.wf w1
  obtain ⟨cs, t3, c1, c2, c3⟩ := lineFromFn_ok Tw (f := fun x t => t.addShifted 0 9 (c.at x) 6 1 .circularLeft)
    (level := 0) (lv := 9) (fun x c' w => Lanes w c' fun k => (lanes w (c.at x) k).rotateLeft 1) w2
    fun x _ t' e' _ => rotl_ok Tw ((b2.has _).ext e') (by norm_num)
  have w3 := c3.wf w2
  obtain ⟨d, t4, d1, d2, d3⟩ := lineFromFn_ok Tw
    (f := fun x t => t.addComputed 0 9 (add (c.at (x + 4)).expr (cs.at (x + 1)).expr))
    (level := 0) (lv := 9) (fun x c' w => Lanes w c' fun k => lanes w (c.at (x + 4)) k ^^^ lanes w (cs.at (x + 1)) k) w3
    fun x _ t' e' w' => sum2_ok Tw w' (((b2.has _).ext c3.ext).ext e') ((c2.has _).ext e')
  have w4 := d3.wf w3
  have s4 := fun i => (((s1 i).ext b3.ext).ext c3.ext).ext d3.ext
  obtain ⟨a, t5, f1, f2, f3⟩ := matFromFn_ok Tw
    (f := fun x y t => t.addComputed 0 9 (add (s.at x y).expr (d.at x).expr))
    (level := 0) (lv := 9) (fun x y c' w => Lanes w c' fun k => lanes w (s.at x y) k ^^^ lanes w (d.at x) k) w4
    fun x _ y _ t' e' w' => sum2_ok Tw w' ((s4 _).ext e') ((d2.has _).ext e')
  have w5 := f3.wf w4
  obtain ⟨b, t6, g1, g2, g3, g4, g5, g6⟩ := newB_ok Tw w5 f2.has
  have w6 := g6.wf w5
  obtain ⟨r, t7, h1, h2, h3⟩ := roundConst_ok Tw t6 n
  have w7 := h3.wf w6
  have o7 := fun i => ((((((a2.has i).ext b3.ext).ext c3.ext).ext d3.ext).ext f3.ext).ext g6.ext).ext h3.ext
  have b7 := fun i => (g5 i).ext h3.ext
  obtain ⟨t8, i1, i2, i3⟩ := forEach_ok Tw
    (f := fun x t => forEach (fun y t => t.assertZero 9 (chiExpr out b r x y)) 0 5 t)
    (fun x w => ∀ y < 5, ∀ p < 2 ^ 9, chiVal out b r x y w p = 0) 5 0 t7 w7 fun x _ _ t' e' w' => by
      obtain ⟨t'', j1, j2, j3⟩ := forEach_ok Tw (f := fun y t => t.assertZero 9 (chiExpr out b r x y))
        (fun y w => ∀ p < 2 ^ 9, chiVal out b r x y w p = 0) 5 0 t' w' fun y _ _ t2 e2 w2 => by
          obtain ⟨t3, k1, k2, k3⟩ := assertZero_ok Tw (chiExpr_ev (fun i => ((o7 i).ext e').ext e2)
            (fun i => ((b7 i).ext e').ext e2) ((h2.has.ext e').ext e2) x y)
          exact ⟨t3, k1, by rw [k2], k3⟩
      exact ⟨t'', j1, j2, j3.congr fun w _ => forall_congr' fun y => imp_congr_right fun _ => by rw [Nat.zero_add]⟩
  have l1 := a2.len
  have l2 := b2.len
  have l3 := c2.len
  have l4 := d2.len
  have l5 := f2.len
  have l7 := h2.len
  refine ⟨⟨n, s, out, c, cs, d, a, b, r⟩, t8, ?_, rfl, rfl, g3, ⟨a2.idx, fun x => ?_, fun x => ?_, fun x => ?_, fun i => ?_,
    fun i hi => ?_, ?_⟩, by omega, fun i => (o7 i).ext i3.ext, ?_⟩
  · rw [RoundBatch.new, a1, Option.bind_some]
    dsimp only
    rw [b1, Option.bind_some]
    dsimp only
    rw [c1, Option.bind_some]
    dsimp only
    rw [d1, Option.bind_some]
    dsimp only
    rw [f1, Option.bind_some]
    dsimp only
    rw [g1, Option.bind_some]
    dsimp only
    rw [h1, Option.bind_some]
    dsimp only
    rw [i1, Option.bind_some]
  · show (c x).idx = _; rw [b2.idx]; omega
  · show (cs x).idx = _; rw [c2.idx]; omega
  · show (d x).idx = _; rw [d2.idx]; omega
  · show (a i).idx = _; rw [f2.idx]; omega
  · show (b i).idx = _; rw [g4 i hi]; omega
  · show r.idx = _; rw [h2.idx]; omega
  · refine (((((((a3.trans b3).trans c3).trans d3).trans f3).trans g6).trans h3).trans i3).congr fun w _ => ?_
    set g : RoundBatch := ⟨n, s, out, c, cs, d, a, b, r⟩ with hg
    set T := batchTrace w g with hT
    have stepS : (∀ x, Lanes w (c x) fun k => (T k).c x) →
        ∀ x : Fin 5, (fun k => (lanes w (c.at x.val) k).rotateLeft 1) = fun k => ((T k).c x).rotateLeft 1 :=
      fun h x => funext fun k => by rw [Line.at_val, (h x).lane]
    have stepD : (∀ x, Lanes w (c x) fun k => (T k).c x) → (∀ x, Lanes w (cs x) fun k => ((T k).c x).rotateLeft 1) →
        ∀ x : Fin 5, (fun k => lanes w (c.at (x.val + 4)) k ^^^ lanes w (cs.at (x.val + 1)) k) = fun k => (T k).d x :=
      fun h h' x => funext fun k => by
        unfold Line.at
        rw [(h _).lane, (h' _).lane]
        rfl
    have stepA : (∀ x, Lanes w (d x) fun k => (T k).d x) →
        ∀ i : Fin 25, (fun k => lanes w (s.at (i.val % 5) (i.val / 5)) k ^^^ lanes w (d.at (i.val % 5)) k) =
          fun k => (T k).aTheta i :=
      fun h i => funext fun k => by
        rw [Mat.at_surj, Line.at_mod]
        show _ = gatherTheta _ _ i
        rw [gatherTheta_apply]
        unfold Line.at
        rw [(h _).lane]
        rfl
    have stepB : (∀ i, Lanes w (a i) fun k => (T k).aTheta i) →
        ∀ i : Fin 25, (fun k => (lanes w (a.at (3 * ((i.val / 5 + 2 * (i.val % 5)) % 5) % 5) (i.val % 5)) k).rotateLeft
          ((rho.at (3 * ((i.val / 5 + 2 * (i.val % 5)) % 5) % 5)).at (i.val % 5))) = fun k => (T k).b i :=
      fun h i => funext fun k => by
        show _ = gatherB _ i
        rw [gatherB_apply]
        unfold Mat.at
        rw [(h _).lane]
        rfl
    have allB : (∀ i, Lanes w (a i) fun k => (T k).aTheta i) → (∀ i, i ≠ 0 → Lanes w (b i) fun k => (T k).b i) →
        ∀ i, Lanes w (b i) fun k => (T k).b i := fun h h' i => by
      by_cases hi : i = 0
      · subst hi
        have : (fun k => (T k).b 0) = fun k => (T k).aTheta 0 := funext fun k => by
          show gatherB _ 0 = _
          rw [gatherB_apply]
          exact BitVec.eq_of_getLsbD_eq fun z hz => (rot_bit _ (by norm_num : 0 < 64) ⟨z, hz⟩).trans (by
            show BitVec.getLsbD _ (⟨z, hz⟩ - 0 : Fin 64).val = _
            rw [sub_zero]
            rfl)
        rw [this, g3]
        exact h 0
      · exact h' i hi
    have stepO : (∀ i, Lanes w (a i) fun k => (T k).aTheta i) → (∀ i, i ≠ 0 → Lanes w (b i) fun k => (T k).b i) →
        Lanes w r (fun k => rc (nthRound n k)) →
        ((∀ x < 5, ∀ y < 5, ∀ p < 2 ^ 9, chiVal out b r (0 + x) y w p = 0) ↔
          ∀ i, Lanes w (out i) fun k => (T k).stateOut i) := fun h h' h'' => by
      constructor
      · intro hx i
        have := (chi_iff (out := out) (allB h h') h'' (Nat.mod_lt i.val (by norm_num : 0 < 5)) (by omega : i.val / 5 < 5)).1
          (by
            have := hx (i.val % 5) (Nat.mod_lt _ (by norm_num)) (i.val / 5) (by omega)
            rwa [Nat.zero_add] at this)
        rw [Mat.at_surj] at this
        simp only [Mat.at_surj] at this
        exact this
      · intro hx x hx5 y hy5
        rw [Nat.zero_add]
        exact (chi_iff (out := out) (allB h h') h'' hx5 hy5).2 (hx _)
    constructor
    · rintro ⟨⟨⟨⟨⟨⟨⟨-, q2⟩, q3⟩, q4⟩, q5⟩, q6⟩, q7⟩, q8⟩
      have p2 : ∀ x, Lanes w (c x) fun k => (T k).c x := q2
      have p3 : ∀ x, Lanes w (cs x) fun k => ((T k).c x).rotateLeft 1 := fun x => stepS p2 x ▸ q3 x
      have p4 : ∀ x, Lanes w (d x) fun k => (T k).d x := fun x => stepD p2 p3 x ▸ q4 x
      have p5 : ∀ i, Lanes w (a i) fun k => (T k).aTheta i := fun i => stepA p4 i ▸ q5 i
      have p6 : ∀ i, i ≠ 0 → Lanes w (b i) fun k => (T k).b i := fun i hi => stepB p5 i ▸ q6 i hi
      exact ⟨p2, p3, p4, p5, p6, q7, (stepO p5 p6 q7).1 q8⟩
    · rintro ⟨p2, p3, p4, p5, p6, p7, p8⟩
      refine ⟨⟨⟨⟨⟨⟨⟨fun i => (p8 i).inField, p2⟩, fun x => ?_⟩, fun x => ?_⟩, fun i => ?_⟩, fun i hi => ?_⟩, p7⟩,
        (stepO p5 p6 p7).2 p8⟩
      · rw [stepS p2 x]; exact p3 x
      · rw [stepD p2 p3 x]; exact p4 x
      · rw [stepA p4 i]; exact p5 i
      · rw [stepB p5 i]; exact p6 i hi

end Verif.M3.Keccak
