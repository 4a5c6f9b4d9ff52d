import Verif.M3.LemmasSha256Round

/-! Lemmas on the SHA-256 gadget: the message schedule and the constant columns. -/

set_option linter.dupNamespace false
set_option linter.unusedSectionVars false

namespace Verif.M3

open Finset Verif.Arith

variable {F : Type} [Field F] [DecidableEq F]

variable [CharP F 2]

/-! ### Writing to several columns -/

theorem setEach_ok (v : Nat → BitVec 32) : ∀ (cs : List Col) (i base : Nat) (w : Row F),
    (∀ (k : Nat) (c : Col), cs[k]? = some c → c.idx = base + k) →
    (∀ j, j < base ∨ base + cs.length ≤ j → ∀ pos, setEach v i cs w j pos = w j pos) ∧
      ∀ (k : Nat) (c : Col), cs[k]? = some c → Words (setEach v i cs w) c 5 fun _ => v (i + k)
  | [], i, base, w, _ => ⟨fun _ _ _ => rfl, fun k c h => by simp at h⟩
  | c :: cs, i, base, w, h => by
    have h0 : c.idx = base := h 0 c rfl
    obtain ⟨h1, h2⟩ := setEach_ok v cs (i + 1) (base + 1) (setU32s w c 1 fun _ => v i) fun k c' hk => by
      rw [h (k + 1) c' (by simpa using hk)]; omega
    refine ⟨fun j hj pos => ?_, fun k c' hk => ?_⟩
    · rw [List.length_cons] at hj
      rw [setEach, h1 j (by omega), setU32s_ne (by omega)]
    · cases k with
      | zero =>
        have : c = c' := by simpa using hk
        subst this
        rw [setEach, Words.congr_row (w' := setU32s w c 1 fun _ => v i) fun pos => h1 _ (by omega) pos]
        exact words_set (by norm_num)
      | succ k =>
        have := h2 k c' (by simpa using hk)
        rwa [show i + 1 + k = i + (k + 1) by omega] at this

/-! ### The adders of the schedule -/

theorem stacked_stage (Tw : Tower F) {t : Table F} (ht : WellFormed t) {x y : Col} (hx : t.Has x 0 11) (hy : t.Has y 0 11) :
    ∃ g t', U32AddStacked.new t 11 x y false none = some (g, t') ∧ Stage Tw t t' (g.populate 11) ∧ t'.Has g.zout 0 11 ∧
      (∀ (w : Row F) i, t'.columns.length ≤ i → ∀ pos, g.populate 11 w i pos = w i pos) ∧
      ∀ w, RowHolds Tw t' w → ∀ k < 64, wordBV w g.zout k = wordBV w x k + wordBV w y k := by
  have hf : ∀ c, (none : Option Col) = some c → t.Has c 0 11 := fun c hc => by cases hc
  obtain ⟨g, t', h1, hgx, hgy, hgc, h6, h8, h9⟩ := U32AddStacked_new_ok Tw ht (by norm_num) hx hy false hf
  obtain ⟨g', t'', k1, k2, k3, k6, k7⟩ := (C41_u32_add_stacked Tw ht hx hy false hf).2 (by norm_num)
  rw [h1] at k1
  obtain ⟨rfl, rfl⟩ : g = g' ∧ t' = t'' := by injection k1 with k1; injection k1 with k1 k1'; exact ⟨k1, k1'⟩
  refine ⟨g, t', h1, ⟨h9.ext, k2, fun w hw => ((h9.holds ht w).1 hw).1, fun w hw => (k7 w hw fun c hc => by cases hc).1,
    fun w i hi pos => ?_⟩, k3, fun w i hi pos => ?_, fun w hw k hk => ?_⟩
  · obtain ⟨l1, l2, l3, -, l5, -⟩ := h8
    have l3' : g.cin.idx = g.coutShl.idx := by rw [l3 rfl]
    rw [U32AddStacked.populate, hgc]
    dsimp only [writeWords, Option.isSome_none]
    rw [if_neg (by simp), setWords_ne (by omega), setWords_ne (by omega), setWords_ne (by omega)]
  · obtain ⟨l1, l2, l3, -, l5, -⟩ := h8
    have hz := h6.lt
    have l3' : g.cin.idx = g.coutShl.idx := by rw [l3 rfl]
    rw [U32AddStacked.populate, hgc]
    dsimp only [writeWords, Option.isSome_none]
    rw [if_neg (by simp)]
    rw [setWords_ne (by omega), setWords_ne (by omega), setWords_ne (by omega)]
  · obtain ⟨-, hs⟩ := k6 w hw k (by norm_num; exact hk) fun c hc => by cases hc
    rw [wordBV, wordBV, wordBV, ← BitVec.ofNat_add, hs]
    apply BitVec.eq_of_toNat_eq
    simp

/-- The constraint of the schedule. -/
theorem select_iff {w : Row F} {sel z x : Col} (hsel : Words w sel 11 fun k => if k < 48 then 0xFFFFFFFF else 0)
    (hz : Words w z 11 (wordBV w z)) (hx : Words w x 11 (wordBV w x)) :
    (∀ pos < 2 ^ 11, w sel.idx pos * (w z.idx pos + w x.idx pos) = 0) ↔ ∀ k < 48, wordBV w z k = wordBV w x k := by
  have hone : ∀ j < 32, (0xFFFFFFFF : BitVec 32).getLsbD j = true := by decide
  constructor
  · intro h k hk
    refine BitVec.eq_of_getLsbD_eq fun j hj => ?_
    have hp := h (32 * k + j) (by omega)
    have hs := hsel (32 * k + j) (by omega)
    dsimp only at hs
    rw [hs, show (32 * k + j) / 32 = k by omega, show (32 * k + j) % 32 = j by omega, if_pos hk, hone j hj,
      ofBit_true, one_mul, CharTwo.add_eq_zero] at hp
    rw [wordBV_bit _ _ _ hj, wordBV_bit _ _ _ hj, hp]
  · intro h pos hp
    have hs := hsel pos hp
    dsimp only at hs
    rw [hs]
    by_cases hk : pos / 32 < 48
    · rw [hz pos hp, hx pos hp, h _ hk, CharTwo.add_self_eq_zero, mul_zero]
    · rw [if_neg hk]
      simp

/-! ### The columns before the rounds -/

theorem SigmaRow.congr_row {w w' : Row F} {g : Sigma} {lv : Nat} {f1 f2 f3 : BitVec 32 → BitVec 32}
    (h : ∀ c : Col, c = g.input ∨ c = g.first ∨ c = g.second ∨ c = g.third ∨ c = g.out → ∀ pos, w c.idx pos = w' c.idx pos)
    (hw : SigmaRow w' g lv f1 f2 f3) : SigmaRow w g lv f1 f2 f3 := by
  have hin : ∀ k, wordBV w g.input k = wordBV w' g.input k := wordBV_congr (h g.input (by simp))
  obtain ⟨h1, h2, h3, h4⟩ := hw
  refine ⟨?_, ?_, ?_, ?_⟩ <;> simp only [hin]
  · exact (Words.congr_row (h g.first (by simp))).2 h1
  · exact (Words.congr_row (h g.second (by simp))).2 h2
  · exact (Words.congr_row (h g.third (by simp))).2 h3
  · exact (Words.congr_row (h g.out (by simp))).2 h4

theorem constants_ok (Tw : Tower F) {t : Table F} (ht : WellFormed t) (ks : List (BitVec 32)) :
    ∃ cs t', fromFn (constantColumn ks) 0 ks.length t = some (cs, t') ∧ NewCols t t' cs ks.length 0 5 ∧
      Adds Tw t t' fun w => ∀ (k : Nat) (c : Col), cs[k]? = some c → ∀ x, ks[k]? = some x → Words w c 5 fun _ => x := by
  obtain ⟨cs, t', h1, h2, h3⟩ := fromFn_ok Tw (f := constantColumn ks) (level := 0) (lv := 5)
    (fun i c w => ∀ x, ks[i]? = some x → Words w c 5 fun _ => x) ks.length 0 t ht fun j _ hj t1 _ _ => by
      have hj : j < ks.length := by omega
      obtain ⟨c, t2, a1, a2, a3⟩ := constantWord_ok Tw t1 ks[j]
      refine ⟨c, t2, by rw [constantColumn, List.getElem?_eq_getElem hj, Option.bind_some, a1], a2, a3.congr fun w _ => ?_⟩
      rw [List.getElem?_eq_getElem hj]
      simp
  refine ⟨cs, t', h1, h2, h3.congr fun w _ => ?_⟩
  simp only [Nat.zero_add]

theorem blocks_ok (Tw : Tower F) {t : Table F} (ht : WellFormed t) {c : Col} (hc : t.Has c 0 11) {n : Nat} (hn : n ≤ 64) :
    ∃ cs t', fromFn (fun i t => t.addSelectedBlock 0 11 5 c i) 0 n t = some (cs, t') ∧ NewCols t t' cs n 0 5 ∧
      Adds Tw t t' fun w => ∀ (k : Nat) (c' : Col), cs[k]? = some c' → Words w c' 5 fun _ => wordBV w c k := by
  obtain ⟨cs, t', h1, h2, h3⟩ := fromFn_ok Tw (f := fun i t => t.addSelectedBlock 0 11 5 c i) (level := 0) (lv := 5)
    (fun i c' w => Words w c' 5 fun _ => wordBV w c i) n 0 t ht fun j _ hj t1 he _ =>
      selectBlock_ok Tw (hc.ext he) (by omega)
  refine ⟨cs, t', h1, h2, h3.congr fun w _ => ?_⟩
  simp only [Nat.zero_add]

/-- The columns that are made before the rounds. -/
structure Front where
  w : Col
  sigma0 : Sigma
  sigma1 : Sigma
  stateIn : List Col
  selector : Col
  wMinus16 : Col
  wMinus7 : Col
  sigma0Minus15 : Col
  sigma1Minus2 : Col
  s0 : U32AddStacked
  s1 : U32AddStacked
  s3 : U32AddStacked
  wBlocks : List Col
  initialState : List Col
  roundConstants : List Col

/-- The table of the columns that are made before the rounds. -/
def Front.new (t : Table F) : Option (Front × Table F) :=
  (t.addCommitted 0 11).bind fun pw =>
  (Sigma0.new pw.2 pw.1).bind fun p0 =>
  (Sigma1.new p0.2 pw.1).bind fun p1 =>
  (fromFn (fun i t => t.addSelectedBlock 0 11 5 pw.1 i) 0 16 p1.2).bind fun pin =>
  (pin.2.addConstant 0 11 scheduleExpandSelector).bind fun psel =>
  (psel.2.addShifted 0 11 pw.1 11 (32 * 16) .logicalRight).bind fun p16 =>
  (p16.2.addShifted 0 11 pw.1 11 (32 * (16 - 7)) .logicalRight).bind fun p7 =>
  (p7.2.addShifted 0 11 p0.1.out 11 32 .logicalRight).bind fun p15 =>
  (p15.2.addShifted 0 11 p1.1.out 11 (32 * (16 - 2)) .logicalRight).bind fun p2 =>
  (U32AddStacked.new p2.2 11 pw.1 p7.1 false none).bind fun ps0 =>
  (U32AddStacked.new ps0.2 11 p15.1 p2.1 false none).bind fun ps1 =>
  (U32AddStacked.new ps1.2 11 ps0.1.zout ps1.1.zout false none).bind fun ps3 =>
  (ps3.2.assertZero 11 (mul psel.1.expr (sub ps3.1.zout.expr p16.1.expr))).bind fun tz =>
  (fromFn (fun i t => t.addSelectedBlock 0 11 5 pw.1 i) 0 64 tz).bind fun pwb =>
  (fromFn (constantColumn init) 0 8 pwb.2).bind fun pi =>
  (fromFn (constantColumn roundConstsK) 0 64 pi.2).bind fun pk =>
    some (⟨pw.1, p0.1, p1.1, pin.1, psel.1, p16.1, p7.1, p15.1, p2.1, ps0.1, ps1.1, ps3.1, pwb.1, pi.1, pk.1⟩, pk.2)

/-- The cells that are written for a block with the words `m` and the schedule `v`. -/
def Front.write (g : Front) (m v : Nat → BitVec 32) (w : Row F) : Row F :=
  let w := setU32s w g.w 64 v
  let w := setEach v 0 g.wBlocks w
  let w := setEach m 0 g.stateIn w
  let w := setU32s w g.wMinus16 48 fun k => v (k + 16)
  let w := setU32s w g.selector 48 fun _ => 0xFFFFFFFF
  let w := setU32s w g.wMinus7 55 fun k => v (k + 9)
  let w := setEach (fun i => roundConstsK[i]?.getD 0) 0 g.roundConstants w
  setEach (fun i => init[i]?.getD 0) 0 g.initialState w

/-- What is populated before the sums of the schedule. -/
def Front.head (g : Front) (w : Row F) : Row F :=
  let w := Sigma0.populate g.sigma0 w
  let w := Sigma1.populate g.sigma1 w
  let sigma0 := getU32 w g.sigma0.out
  let sigma1 := getU32 w g.sigma1.out
  let w := setU32s w g.sigma0Minus15 63 fun k => sigma0 (k + 1)
  setU32s w g.sigma1Minus2 50 fun k => sigma1 (k + 14)

/-- What is populated before the rounds. -/
def Front.rest (g : Front) (w : Row F) : Row F :=
  g.s3.populate 11 (g.s1.populate 11 (g.s0.populate 11 (g.head w)))

/-- Where the columns are, in a table that had `L` columns, when the block columns start at `Z`. -/
structure FrontCols (L Z : Nat) (g : Front) : Prop where
  le : L + 30 ≤ Z
  w : g.w.idx = L
  sigma0 : SigmaCols (L + 1) g.w g.sigma0
  sigma1 : SigmaCols (L + 5) g.w g.sigma1
  stateIn : ∀ (k : Nat) (c : Col), g.stateIn[k]? = some c → c.idx = L + 9 + k
  stateInLen : g.stateIn.length = 16
  selector : g.selector.idx = L + 25
  wMinus16 : g.wMinus16.idx = L + 26
  wMinus7 : g.wMinus7.idx = L + 27
  sigma0Minus15 : g.sigma0Minus15.idx = L + 28
  sigma1Minus2 : g.sigma1Minus2.idx = L + 29
  wBlocks : ∀ (k : Nat) (c : Col), g.wBlocks[k]? = some c → c.idx = Z + k
  wBlocksLen : g.wBlocks.length = 64
  initialState : ∀ (k : Nat) (c : Col), g.initialState[k]? = some c → c.idx = Z + 64 + k
  initialStateLen : g.initialState.length = 8
  roundConstants : ∀ (k : Nat) (c : Col), g.roundConstants[k]? = some c → c.idx = Z + 72 + k
  roundConstantsLen : g.roundConstants.length = 64

/-- The cells after `Front.write` and `Front.head`. -/
structure FrontCells (L : Nat) (g : Front) (m v : Nat → BitVec 32) (w w' : Row F) : Prop where
  old : ∀ i < L, ∀ pos, w' i pos = w i pos
  w : Words w' g.w 11 v
  sigma0 : SigmaRow w' g.sigma0 11 (fun x => x.rotateRight 7) (fun x => x.rotateRight 18) (fun x => x >>> 3)
  sigma1 : SigmaRow w' g.sigma1 11 (fun x => x.rotateRight 17) (fun x => x.rotateRight 19) (fun x => x >>> 10)
  stateIn : ∀ (k : Nat) (c' : Col), g.stateIn[k]? = some c' → Words w' c' 5 fun _ => m k
  selector : Words w' g.selector 11 fun k => if k < 48 then 0xFFFFFFFF else 0
  wMinus16 : Words w' g.wMinus16 11 fun k => if k < 48 then v (k + 16) else 0
  wMinus7 : Words w' g.wMinus7 11 fun k => if k < 55 then v (k + 9) else 0
  sigma0Minus15 : Words w' g.sigma0Minus15 11 fun k => if k < 63 then wordBV w' g.sigma0.out (k + 1) else 0
  sigma1Minus2 : Words w' g.sigma1Minus2 11 fun k => if k < 50 then wordBV w' g.sigma1.out (k + 14) else 0
  wBlocks : ∀ (k : Nat) (c' : Col), g.wBlocks[k]? = some c' → Words w' c' 5 fun _ => v k
  initialState : ∀ (k : Nat) (c' : Col), g.initialState[k]? = some c' → ∀ x, init[k]? = some x → Words w' c' 5 fun _ => x
  roundConstants : ∀ (k : Nat) (c' : Col), g.roundConstants[k]? = some c' → ∀ x, roundConstsK[k]? = some x →
    Words w' c' 5 fun _ => x

theorem front_cells {L Z : Nat} {g : Front} (hg : FrontCols L Z g) (m v : Nat → BitVec 32) (w : Row F)
    (hzero : ∀ i, L ≤ i → ∀ pos, w i pos = 0) : FrontCells L g m v w (g.head (g.write m v w)) := by
  obtain ⟨hLZ, iw, a2, b2, iin, lin, isel, i16, i7, i15, i2, ib, lb, ii, li, ik, lk⟩ := hg
  obtain ⟨W0, hW0⟩ : ∃ W, setU32s w g.w 64 v = W := ⟨_, rfl⟩
  obtain ⟨W1, hW1⟩ : ∃ W, setEach v 0 g.wBlocks W0 = W := ⟨_, rfl⟩
  obtain ⟨W2, hW2⟩ : ∃ W, setEach m 0 g.stateIn W1 = W := ⟨_, rfl⟩
  obtain ⟨W3, hW3⟩ : ∃ W, setU32s W2 g.wMinus16 48 (fun k => v (k + 16)) = W := ⟨_, rfl⟩
  obtain ⟨W4, hW4⟩ : ∃ W, setU32s W3 g.selector 48 (fun _ => 0xFFFFFFFF) = W := ⟨_, rfl⟩
  obtain ⟨W5, hW5⟩ : ∃ W, setU32s W4 g.wMinus7 55 (fun k => v (k + 9)) = W := ⟨_, rfl⟩
  obtain ⟨W6, hW6⟩ : ∃ W, setEach (fun i => roundConstsK[i]?.getD 0) 0 g.roundConstants W5 = W := ⟨_, rfl⟩
  obtain ⟨W7, hW7⟩ : ∃ W, setEach (fun i => init[i]?.getD 0) 0 g.initialState W6 = W := ⟨_, rfl⟩
  obtain ⟨W8, hW8⟩ : ∃ W, sigmaPopulate g.sigma0 64 (fun x => x.rotateRight 7) (fun x => x.rotateRight 18)
    (fun x => x >>> 3) W7 = W := ⟨_, rfl⟩
  obtain ⟨W9, hW9⟩ : ∃ W, sigmaPopulate g.sigma1 64 (fun x => x.rotateRight 17) (fun x => x.rotateRight 19)
    (fun x => x >>> 10) W8 = W := ⟨_, rfl⟩
  obtain ⟨W10, hW10⟩ : ∃ W, setU32s W9 g.sigma0Minus15 63 (fun k => wordBV W9 g.sigma0.out (k + 1)) = W := ⟨_, rfl⟩
  obtain ⟨W11, hW11⟩ : ∃ W, setU32s W10 g.sigma1Minus2 50 (fun k => wordBV W9 g.sigma1.out (k + 14)) = W := ⟨_, rfl⟩
  have hfin : g.head (g.write m v w) = W11 := by
    rw [← hW11, ← hW10, ← hW9, ← hW8, ← hW7, ← hW6, ← hW5, ← hW4, ← hW3, ← hW2, ← hW1, ← hW0]
    rfl
  rw [hfin]
  have u1 := setEach_ok v g.wBlocks 0 Z W0 ib
  have u2 := setEach_ok m g.stateIn 0 (L + 9) W1 iin
  have u6 := setEach_ok (fun i => roundConstsK[i]?.getD 0) g.roundConstants 0 (Z + 72) W5 ik
  have u7 := setEach_ok (fun i => init[i]?.getD 0) g.initialState 0 (Z + 64) W6 ii
  have v1 := sigmaPopulate_ok a2 (lv := 11) (n := 64) (by norm_num) (by omega) (fun x => x.rotateRight 7)
    (fun x => x.rotateRight 18) (fun x => x >>> 3) W7
  have v2 := sigmaPopulate_ok b2 (lv := 11) (n := 64) (by norm_num) (by omega) (fun x => x.rotateRight 17)
    (fun x => x.rotateRight 19) (fun x => x >>> 10) W8
  rw [lb, hW1] at u1
  rw [lin, hW2] at u2
  rw [lk, hW6] at u6
  rw [li, hW7] at u7
  rw [hW8] at v1
  rw [hW9] at v2
  -- cells that are not written in some steps
  have z0 : ∀ i, i ≠ L → ∀ pos, W0 i pos = w i pos := fun i hi pos => by rw [← hW0, setU32s_ne (by omega)]
  have z3 : ∀ i, i ≠ L + 26 → ∀ pos, W3 i pos = W2 i pos := fun i hi pos => by rw [← hW3, setU32s_ne (by omega)]
  have z4 : ∀ i, i ≠ L + 25 → ∀ pos, W4 i pos = W3 i pos := fun i hi pos => by rw [← hW4, setU32s_ne (by omega)]
  have z5 : ∀ i, i ≠ L + 27 → ∀ pos, W5 i pos = W4 i pos := fun i hi pos => by rw [← hW5, setU32s_ne (by omega)]
  have z10 : ∀ i, i ≠ L + 28 → ∀ pos, W10 i pos = W9 i pos := fun i hi pos => by rw [← hW10, setU32s_ne (by omega)]
  have z11 : ∀ i, i ≠ L + 29 → ∀ pos, W11 i pos = W10 i pos := fun i hi pos => by rw [← hW11, setU32s_ne (by omega)]
  have y25 : ∀ i, i < L + 25 ∨ L + 28 ≤ i → ∀ pos, W5 i pos = W2 i pos := fun i hi pos => by
    rw [z5 i (by omega), z4 i (by omega), z3 i (by omega)]
  have y57 : ∀ i, i < Z + 64 → ∀ pos, W7 i pos = W5 i pos := fun i hi pos => by rw [u7.1 i (by omega), u6.1 i (by omega)]
  have y79 : ∀ i, i < L + 1 ∨ L + 9 ≤ i → ∀ pos, W9 i pos = W7 i pos := fun i hi pos => by
    rw [v2.1 i (by omega), v1.1 i (by omega)]
  have y911 : ∀ i, i < L + 28 ∨ L + 30 ≤ i → ∀ pos, W11 i pos = W9 i pos := fun i hi pos => by
    rw [z11 i (by omega), z10 i (by omega)]
  have y02 : ∀ i, i < L + 9 ∨ L + 25 ≤ i → i < Z → ∀ pos, W2 i pos = W0 i pos := fun i hi hi' pos => by
    rw [u2.1 i (by omega), u1.1 i (by omega)]
  have zz2 : ∀ i, L + 25 ≤ i → i < Z → ∀ pos, W2 i pos = 0 := fun i hi hi' pos => by
    rw [y02 i (by omega) hi', z0 i (by omega), hzero i (by omega)]
  have ho0 : ∀ k, wordBV W11 g.sigma0.out k = wordBV W9 g.sigma0.out k :=
    wordBV_congr fun pos => y911 _ (by rw [a2.out]; omega) pos
  have ho1 : ∀ k, wordBV W11 g.sigma1.out k = wordBV W9 g.sigma1.out k :=
    wordBV_congr fun pos => y911 _ (by rw [b2.out]; omega) pos
  refine ⟨fun i hi pos => ?_, ?_, ?_, ?_, fun k c hc => ?_, ?_, ?_, ?_, ?_, ?_, fun k c hc => ?_, fun k c hc x hx => ?_,
    fun k c hc x hx => ?_⟩
  · rw [y911 i (by omega), y79 i (by omega), y57 i (by omega), y25 i (by omega), y02 i (by omega) (by omega), z0 i (by omega)]
  · refine (Words.congr_row (w' := W0) fun pos => ?_).2 (hW0 ▸ words_set (by norm_num))
    rw [iw, y911 L (by omega), y79 L (by omega), y57 L (by omega), y25 L (by omega), y02 L (by omega) (by omega)]
  · obtain ⟨m0, m1, m2, m3, m4⟩ := id a2
    refine SigmaRow.congr_row (fun c hc pos => ?_) v1.2
    have : c.idx < L + 5 := by
      rcases hc with rfl | rfl | rfl | rfl | rfl
      · rw [m0]; omega
      all_goals omega
    rw [y911 _ (by omega), v2.1 _ (by omega)]
  · obtain ⟨m0, m1, m2, m3, m4⟩ := id b2
    refine SigmaRow.congr_row (fun c hc pos => ?_) v2.2
    have : c.idx < L + 9 := by
      rcases hc with rfl | rfl | rfl | rfl | rfl
      · rw [m0]; omega
      all_goals omega
    rw [y911 _ (by omega)]
  · have hidx := iin k c hc
    have hk := lt_of_get hc
    rw [lin] at hk
    have := u2.2 k c hc
    rw [Nat.zero_add] at this
    refine (Words.congr_row fun pos => ?_).2 this
    rw [y911 _ (by omega), y79 _ (by omega), y57 _ (by omega), y25 _ (by omega)]
  · refine (Words.congr_row (w' := W4) fun pos => ?_).2 (hW4 ▸ words_set_part fun pos => ?_)
    · rw [isel, y911 _ (by omega), y79 _ (by omega), y57 _ (by omega), z5 _ (by omega)]
    · rw [isel, z3 _ (by omega), zz2 _ (by omega) (by omega)]
  · refine (Words.congr_row (w' := W3) fun pos => ?_).2 (hW3 ▸ words_set_part fun pos => ?_)
    · rw [i16, y911 _ (by omega), y79 _ (by omega), y57 _ (by omega), z5 _ (by omega), z4 _ (by omega)]
    · rw [i16, zz2 _ (by omega) (by omega)]
  · refine (Words.congr_row (w' := W5) fun pos => ?_).2 (hW5 ▸ words_set_part fun pos => ?_)
    · rw [i7, y911 _ (by omega), y79 _ (by omega), y57 _ (by omega)]
    · rw [i7, z4 _ (by omega), z3 _ (by omega), zz2 _ (by omega) (by omega)]
  · simp only [ho0]
    refine (Words.congr_row (w' := W10) fun pos => ?_).2 (hW10 ▸ words_set_part fun pos => ?_)
    · rw [i15, z11 _ (by omega)]
    · rw [i15, y79 _ (by omega), y57 _ (by omega), y25 _ (by omega), zz2 _ (by omega) (by omega)]
  · simp only [ho1]
    rw [← hW11]
    refine words_set_part fun pos => ?_
    rw [i2, z10 _ (by omega), y79 _ (by omega), y57 _ (by omega), y25 _ (by omega), zz2 _ (by omega) (by omega)]
  · have hidx := ib k c hc
    have hk := lt_of_get hc
    rw [lb] at hk
    have := u1.2 k c hc
    rw [Nat.zero_add] at this
    refine (Words.congr_row fun pos => ?_).2 this
    rw [y911 _ (by omega), y79 _ (by omega), y57 _ (by omega), y25 _ (by omega), u2.1 _ (by omega)]
  · have hidx := ii k c hc
    have := u7.2 k c hc
    rw [Nat.zero_add, hx, Option.getD_some] at this
    refine (Words.congr_row fun pos => ?_).2 this
    rw [y911 _ (by omega), y79 _ (by omega)]
  · have hidx := ik k c hc
    have := u6.2 k c hc
    rw [Nat.zero_add, hx, Option.getD_some] at this
    refine (Words.congr_row fun pos => ?_).2 this
    rw [y911 _ (by omega), y79 _ (by omega), u7.1 _ (by omega)]

/-- The recursion of the schedule, in the order of the gadget. -/
def IsSchedule (v : Nat → BitVec 32) : Prop :=
  ∀ k < 48, v (k + 16) = v k + v (k + 9) + (Sha.sigma0 (v (k + 1)) + Sha.sigma1 (v (k + 14)))

set_option maxHeartbeats 400000 in
theorem front_ok (Tw : Tower F) {t : Table F} (ht : WellFormed t) :
    ∃ g t', Front.new t = some (g, t') ∧ Ext t t' ∧ WellFormed t' ∧
      g.stateIn.length = 16 ∧ g.wBlocks.length = 64 ∧ g.initialState.length = 8 ∧ g.roundConstants.length = 64 ∧
      (∀ c ∈ g.stateIn, t'.Has c 0 5) ∧ (∀ c ∈ g.wBlocks, t'.Has c 0 5) ∧ (∀ c ∈ g.initialState, t'.Has c 0 5) ∧
      (∀ c ∈ g.roundConstants, t'.Has c 0 5) ∧ IsCommitted t' g.w ∧ t'.Has g.wMinus16 0 11 ∧ (∃ Z, FrontCols t.columns.length Z g) ∧
      (∀ (w : Row F), ∀ i < t.columns.length + 30, ∀ pos, g.rest w i pos = g.head w i pos) ∧
      (∀ w, RowHolds Tw t' w → RowHolds Tw t w ∧ IsSchedule (wordBV w g.w) ∧
        (∀ (k : Nat) (c : Col), g.stateIn[k]? = some c → wordBV w c 0 = wordBV w g.w k) ∧
        (∀ (k : Nat) (c : Col), g.wBlocks[k]? = some c → wordBV w c 0 = wordBV w g.w k) ∧
        (∀ (k : Nat) (c : Col), g.initialState[k]? = some c → ∀ x, init[k]? = some x → wordBV w c 0 = x) ∧
        (∀ (k : Nat) (c : Col), g.roundConstants[k]? = some c → ∀ x, roundConstsK[k]? = some x → wordBV w c 0 = x) ∧
        ∀ k < 64, wordBV w g.wMinus16 k = if k + 16 < 64 then wordBV w g.w (k + 16) else 0) ∧
      ∀ w m v, RowHolds Tw t w → (∀ i, t.columns.length ≤ i → ∀ pos, w i pos = 0) → (∀ k < 16, v k = m k) → IsSchedule v →
        RowHolds Tw t' (g.rest (g.write m v w)) ∧
        (∀ i < t.columns.length, ∀ pos, g.rest (g.write m v w) i pos = w i pos) ∧
        ∀ k < 16, wordBV (g.rest (g.write m v w)) g.w k = m k := by
  -- the columns
  obtain ⟨cw, tw, w1, w2, w3⟩ := addCommitted_ok Tw t 0 11
  have wfw := w3.wf ht
  obtain ⟨σ0, t0, a1, a2, al, a3, a4⟩ := Sigma0_new_ok Tw wfw w2.has
  have wf0 := a4.wf wfw
  obtain ⟨σ1, t1, b1, b2, bl, b3, b4⟩ := Sigma1_new_ok Tw wf0 (w2.has.ext a4.ext)
  have wf1 := b4.wf wf0
  have hw1 := (w2.has.ext a4.ext).ext b4.ext
  obtain ⟨cin, tin, c1, c2, c3⟩ := blocks_ok Tw wf1 hw1 (n := 16) (by norm_num)
  have wfin := c3.wf wf1
  have hwin := hw1.ext c3.ext
  obtain ⟨sel, tsel, d1, d2, d3⟩ := selector_ok Tw tin
  have wfsel := d3.wf wfin
  have hwsel := hwin.ext d3.ext
  obtain ⟨c16, t16, e1, e2, e3⟩ := shiftWords_ok Tw hwsel (m := 16) (by norm_num)
  have wf16 := e3.wf wfsel
  have hw16 := hwsel.ext e3.ext
  obtain ⟨c7, t7, f1, f2, f3⟩ := shiftWords_ok Tw hw16 (m := 9) (by norm_num)
  have wf7 := f3.wf wf16
  have hw7 := hw16.ext f3.ext
  have x0 : t7.Has σ0.out 0 11 := ((((a3.ext b4.ext).ext c3.ext).ext d3.ext).ext e3.ext).ext f3.ext
  obtain ⟨c15, t15, g1, g2, g3⟩ := shiftWords_ok Tw x0 (m := 1) (by norm_num)
  have wf15 := g3.wf wf7
  have hw15 := hw7.ext g3.ext
  have x1 : t15.Has σ1.out 0 11 := ((((b3.ext c3.ext).ext d3.ext).ext e3.ext).ext f3.ext).ext g3.ext
  obtain ⟨c2', t2, h1, h2, h3⟩ := shiftWords_ok Tw x1 (m := 14) (by norm_num)
  have wf2 := h3.wf wf15
  have hw2 := hw15.ext h3.ext
  obtain ⟨s0, ts0, i1, i2, i3, i4, i5⟩ := stacked_stage Tw wf2 hw2 ((f2.has.ext g3.ext).ext h3.ext)
  obtain ⟨s1, ts1, j1, j2, j3, j4, j5⟩ := stacked_stage Tw i2.wf ((g2.has.ext h3.ext).ext i2.ext) (h2.has.ext i2.ext)
  obtain ⟨s3, ts3, k1, k2, k3, k4, k5⟩ := stacked_stage Tw j2.wf (i3.ext j2.ext) j3
  have e23 := (i2.ext.trans j2.ext).trans k2.ext
  have y16 : t2.Has c16 0 11 := ((e2.has.ext f3.ext).ext g3.ext).ext h3.ext
  have ysel : t2.Has sel 0 11 := (((d2.has.ext e3.ext).ext f3.ext).ext g3.ext).ext h3.ext
  obtain ⟨tz, l1, l2, l3⟩ := assertZero_ok Tw
    (Ev.mul (Ev.col (ysel.ext e23)) (Ev.sub (Ev.col k3) (Ev.col (y16.ext e23))))
  have wfz := l3.wf k2.wf
  have hwz := (hw2.ext e23).ext l3.ext
  obtain ⟨cb, tb, m1, m2, m3⟩ := blocks_ok Tw wfz hwz (n := 64) le_rfl
  have wfb := m3.wf wfz
  obtain ⟨ci, ti, n1, n2, n3⟩ := constants_ok Tw wfb init
  have wfi := n3.wf wfb
  obtain ⟨ck, tk, o1, o2, o3⟩ := constants_ok Tw wfi roundConstsK
  have wfk := o3.wf wfi
  have hi8 : init.length = 8 := rfl
  have hk64 : roundConstsK.length = 64 := rfl
  rw [hi8] at n1 n2
  rw [hk64] at o1 o2
  have ezk := (m3.ext.trans n3.ext).trans o3.ext
  -- what the columns up to `c2'` satisfy
  have hA : Adds Tw t t2 fun w => InField Tw 0 11 cw w ∧
      SigmaRow w σ0 11 (fun x => x.rotateRight 7) (fun x => x.rotateRight 18) (fun x => x >>> 3) ∧
      SigmaRow w σ1 11 (fun x => x.rotateRight 17) (fun x => x.rotateRight 19) (fun x => x >>> 10) ∧
      (∀ (k : Nat) (c' : Col), cin[k]? = some c' → Words w c' 5 fun _ => wordBV w cw k) ∧
      (Words w sel 11 fun k => if k < 48 then 0xFFFFFFFF else 0) ∧
      (Words w c16 11 fun k => if k + 16 < 64 then wordBV w cw (k + 16) else 0) ∧
      (Words w c7 11 fun k => if k + 9 < 64 then wordBV w cw (k + 9) else 0) ∧
      (Words w c15 11 fun k => if k + 1 < 64 then wordBV w σ0.out (k + 1) else 0) ∧
      Words w c2' 11 fun k => if k + 14 < 64 then wordBV w σ1.out (k + 14) else 0 :=
    ((((((((w3.trans a4).trans b4).trans c3).trans d3).trans e3).trans f3).trans g3).trans h3).congr fun w _ => by simp only [and_assoc]
  have hsound : ∀ w, RowHolds Tw tk w → RowHolds Tw tz w ∧
      (∀ (k : Nat) (c' : Col), cb[k]? = some c' → Words w c' 5 fun _ => wordBV w cw k) ∧
      (∀ (k : Nat) (c : Col), ci[k]? = some c → ∀ x, init[k]? = some x → Words w c 5 fun _ => x) ∧
      ∀ (k : Nat) (c : Col), ck[k]? = some c → ∀ x, roundConstsK[k]? = some x → Words w c 5 fun _ => x := by
    intro w hw
    obtain ⟨hw, q3⟩ := (o3.holds wfi w).1 hw
    obtain ⟨hw, q2⟩ := (n3.holds wfb w).1 hw
    obtain ⟨hw, q1⟩ := (m3.holds wfz w).1 hw
    exact ⟨hw, q1, q2, q3⟩
  -- the indices
  have iw := w2.idx
  have lw := w2.len
  have lin := c2.len
  have isel := d2.idx
  have lsel := d2.len
  have i16 := e2.idx
  have l16 := e2.len
  have i7 := f2.idx
  have l7 := f2.len
  have i15 := g2.idx
  have l15 := g2.len
  have i2' := h2.idx
  have l2' := h2.len
  have lz : tz.columns.length = ts3.columns.length := by rw [l2]
  have lb := m2.len
  have li := n2.len
  have lk := o2.len
  have l23 := i2.ext.len
  have l23' := j2.ext.len
  have l23'' := k2.ext.len
  have hcols : FrontCols t.columns.length tz.columns.length
      ⟨cw, σ0, σ1, cin, sel, c16, c7, c15, c2', s0, s1, s3, cb, ci, ck⟩ := by
    refine ⟨by omega, iw, lw ▸ a2, (show t0.columns.length = t.columns.length + 5 by omega) ▸ b2, fun k c hc => ?_, c2.length, ?_, ?_,
      ?_, ?_, ?_, fun k c hc => (m2.col k c hc).1, m2.length, fun k c hc => ?_, n2.length, fun k c hc => ?_, o2.length⟩
    · rw [(c2.col k c hc).1]; omega
    · show sel.idx = _; omega
    · show c16.idx = _; omega
    · show c7.idx = _; omega
    · show c15.idx = _; omega
    · show c2'.idx = _; omega
    · rw [(n2.col k c hc).1]; omega
    · rw [(o2.col k c hc).1]; omega
  have hst := (i2.trans j2).trans k2
  refine ⟨⟨cw, σ0, σ1, cin, sel, c16, c7, c15, c2', s0, s1, s3, cb, ci, ck⟩, tk, ?_,
    (((hA.ext.trans e23).trans l3.ext).trans ezk), wfk, c2.length, m2.length, n2.length, o2.length, ?_, ?_, ?_, ?_, ?_, ?_, ⟨_, hcols⟩,
    fun w i hi pos => hst.keeps _ i (by omega) pos, ?_, ?_⟩
  · rw [Front.new, w1, Option.bind_some]
    dsimp only
    rw [a1, Option.bind_some]
    dsimp only
    rw [b1, Option.bind_some]
    dsimp only
    rw [c1, Option.bind_some]
    dsimp only
    rw [d1, Option.bind_some]
    dsimp only
    rw [e1, Option.bind_some]
    dsimp only
    rw [f1, Option.bind_some]
    dsimp only
    have g1' : t7.addShifted 0 11 σ0.out 11 32 .logicalRight = some (c15, t15) := g1
    rw [g1', Option.bind_some]
    dsimp only
    rw [h1, Option.bind_some]
    dsimp only
    rw [i1, Option.bind_some]
    dsimp only
    rw [j1, Option.bind_some]
    dsimp only
    rw [k1, Option.bind_some]
    dsimp only
    rw [l1, Option.bind_some, m1, Option.bind_some]
    dsimp only
    rw [n1, Option.bind_some]
    dsimp only
    rw [o1, Option.bind_some]
  · intro c hc
    have ezz := (((((d3.ext.trans e3.ext).trans f3.ext).trans g3.ext).trans h3.ext).trans e23).trans l3.ext
    exact ((c2.has hc).ext ezz).ext ezk
  · intro c hc; exact ((m2.has hc).ext n3.ext).ext o3.ext
  · intro c hc; exact (n2.has hc).ext o3.ext
  · intro c hc; exact o2.has hc
  · exact (committed_of_add w1).ext (((((((((((a4.ext.trans b4.ext).trans c3.ext).trans d3.ext).trans e3.ext).trans f3.ext).trans
      g3.ext).trans h3.ext).trans e23).trans l3.ext).trans ezk))
  · exact ((y16.ext e23).ext l3.ext).ext ezk
  -- soundness
  · intro w hw
    obtain ⟨hz, q1, q2, q3⟩ := hsound w hw
    obtain ⟨hs3, q4⟩ := (l3.holds k2.wf w).1 hz
    have hs1 := k2.sound w hs3
    have hs0 := j2.sound w hs1
    have ht2 := i2.sound w hs0
    obtain ⟨ht', -, r1, r2, r3, r4, r5, r6, r7, r8⟩ := (hA.holds ht w).1 ht2
    have q4' := (select_iff r4 (k3.words hs3) (y16.words ht2)).1 q4
    refine ⟨ht', fun k hk => ?_, fun k c hc => (r3 k c hc).word (by norm_num), fun k c hc => (q1 k c hc).word (by norm_num),
      fun k c hc x hx => (q2 k c hc x hx).word (by norm_num), fun k c hc x hx => (q3 k c hc x hx).word (by norm_num),
      fun k hk => r5.word (by omega)⟩
    have := q4' k hk
    rw [r5.word (by omega), if_pos (by omega), k5 w hs3 k (by omega), i5 w hs0 k (by omega), j5 w hs1 k (by omega),
      r6.word (by omega), if_pos (by omega), r7.word (by omega), if_pos (by omega), r8.word (by omega), if_pos (by omega),
      r1.out.word (by omega), r2.out.word (by omega), a2.input, b2.input] at this
    exact this.symm
  -- completeness
  · intro w m v hw hzero hvm hv
    have hcells := front_cells hcols m v w hzero
    dsimp only [Front.rest]
    generalize Front.head (F := F) _ _ = W11 at hcells ⊢
    obtain ⟨keepOld, hcw, hs0, hs1, hin, hsel, h16, h7, h15, h2w, hb, hi, hk⟩ := hcells
    dsimp only at hcw hs0 hs1 hin hsel h16 h7 h15 h2w hb hi hk
    have hval : ∀ k < 64, wordBV W11 cw k = v k := fun k hk => hcw.word (by omega)
    have hrow2 : RowHolds Tw t2 W11 := by
      refine (hA.holds ht W11).2 ⟨(frame ht keepOld).2 hw, hcw.inField, hs0, hs1, ?_, hsel, ?_, ?_, ?_, ?_⟩
      · intro k c' hc
        have hk := lt_of_get hc
        rw [c2.length] at hk
        rw [hval k (by omega), hvm k hk]
        exact hin k c' hc
      · refine (Words.congr (by norm_num) fun k hk => ?_).1 h16
        by_cases hlt : k < 48
        · rw [if_pos hlt, if_pos (by omega), hval _ (by omega)]
        · rw [if_neg hlt, if_neg (by omega)]
      · refine (Words.congr (by norm_num) fun k hk => ?_).1 h7
        by_cases hlt : k < 55
        · rw [if_pos hlt, if_pos (by omega), hval _ (by omega)]
        · rw [if_neg hlt, if_neg (by omega)]
      · refine (Words.congr (by norm_num) fun k hk => ?_).1 h15
        by_cases hlt : k < 63
        · rw [if_pos hlt, if_pos (by omega)]
        · rw [if_neg hlt, if_neg (by omega)]
      · refine (Words.congr (by norm_num) fun k hk => ?_).1 h2w
        by_cases hlt : k < 50
        · rw [if_pos hlt, if_pos (by omega)]
        · rw [if_neg hlt, if_neg (by omega)]
    have hrow3 := hst.complete W11 hrow2
    have hkeep := hst.keeps W11
    have htop : ∀ i, ts3.columns.length ≤ i → ∀ pos, s3.populate 11 (s1.populate 11 (s0.populate 11 W11)) i pos = W11 i pos :=
      fun i hi pos => by rw [k4 _ i (by omega), j4 _ i (by omega), i4 _ i (by omega)]
    generalize s3.populate 11 (s1.populate 11 (s0.populate 11 W11)) = W14 at hrow3 hkeep htop ⊢
    have hcw14 : ∀ k, wordBV W14 cw k = wordBV W11 cw k := wordBV_congr fun pos => hkeep _ (by omega) pos
    have hrowz : RowHolds Tw tz W14 := by
      refine (l3.holds k2.wf W14).2 ⟨hrow3, ?_⟩
      have g1' := k2.sound W14 hrow3
      have g0' := j2.sound W14 g1'
      have gt2 := i2.sound W14 g0'
      obtain ⟨-, -, r1, r2, r3, r4, r5, r6, r7, r8⟩ := (hA.holds ht W14).1 gt2
      refine (select_iff r4 (k3.words hrow3) (y16.words gt2)).2 fun k hk => ?_
      rw [r5.word (by omega), if_pos (by omega), k5 W14 hrow3 k (by omega), i5 W14 g0' k (by omega), j5 W14 g1' k (by omega),
        r6.word (by omega), if_pos (by omega), r7.word (by omega), if_pos (by omega), r8.word (by omega), if_pos (by omega),
        r1.out.word (by omega), r2.out.word (by omega), a2.input, b2.input, hcw14, hcw14, hcw14, hcw14, hcw14,
        hval _ (by omega), hval _ (by omega), hval _ (by omega), hval _ (by omega), hval _ (by omega)]
      exact (hv k hk).symm
    refine ⟨(o3.holds wfi W14).2 ⟨(n3.holds wfb W14).2 ⟨(m3.holds wfz W14).2 ⟨hrowz, ?_⟩, ?_⟩, ?_⟩, fun i hi pos => ?_, fun k hk => ?_⟩
    · intro k c' hc
      have hidx := (m2.col k c' hc).1
      have hk := lt_of_get hc
      rw [m2.length] at hk
      rw [hcw14, hval k hk]
      exact (Words.congr_row fun pos => htop _ (by omega) pos).2 (hb k c' hc)
    · intro k c' hc x hx
      have hidx := (n2.col k c' hc).1
      exact (Words.congr_row fun pos => htop _ (by omega) pos).2 (hi k c' hc x hx)
    · intro k c' hc x hx
      have hidx := (o2.col k c' hc).1
      exact (Words.congr_row fun pos => htop _ (by omega) pos).2 (hk k c' hc x hx)
    · have := hA.ext.len
      rw [hkeep i (by omega), keepOld i hi]
    · show wordBV W14 cw k = m k
      rw [hcw14, hval k (by omega), hvm k hk]

end Verif.M3
