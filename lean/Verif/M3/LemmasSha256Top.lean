import Verif.M3.LemmasSha256Front

/-! Lemmas on the SHA-256 gadget: the whole gadget. -/

set_option linter.dupNamespace false
set_option linter.unusedSectionVars false

namespace Verif.M3

open Finset Verif.Arith

/-! ### The schedule -/

theorem computeMessageSchedule_ok {m : Nat → BitVec 32} {l : List (BitVec 32)} (hl : l.length = 64)
    (hm : ∀ k < 16, l[k]? = some (m k)) : ∃ l', computeMessageSchedule l = some l' ∧ l'.length = 64 ∧
    ∀ k < 64, l'[k]? = some (Sha.schedule m k) := by
  obtain ⟨l', h1, h2, h3⟩ := forRange_inv (n := 48) (s := l) (body := scheduleStep)
    (fun j w => w.length = 64 ∧ ∀ k < 16 + j, w[k]? = some (Sha.schedule m k))
    ⟨hl, fun k hk => by rw [hm k (by omega), Sha.schedule, if_pos (by omega)]⟩ fun j hj w hw => by
      obtain ⟨hw1, hw2⟩ := hw
      refine ⟨w.set (16 + j) (Sha.schedule m (16 + j)), ?_, by rw [List.length_set, hw1], fun k hk => ?_⟩
      · unfold scheduleStep
        dsimp only
        rw [hw2 (16 + j - 16) (by omega), hw2 (16 + j - 7) (by omega), hw2 (16 + j - 2) (by omega), hw2 (16 + j - 15) (by omega)]
        simp only [Option.bind_some]
        rw [if_pos (by omega)]
        congr 2
        conv_rhs => rw [Sha.schedule, if_neg (by omega)]
        show Sha.schedule m (16 + j - 16) + Sha.sigma0 _ + _ + Sha.sigma1 _ = _
        rw [BitVec.add_comm (Sha.sigma1 _ + _ + _), BitVec.add_assoc, BitVec.add_assoc,
          BitVec.add_comm (Sha.sigma1 _ + _), BitVec.add_comm (Sha.sigma1 _)]
      · rw [List.getElem?_set]
        by_cases h : 16 + j = k
        · rw [if_pos h, if_pos (by omega), h]
        · rw [if_neg h, hw2 k (by omega)]
  exact ⟨l', h1, h2, fun k hk => h3 k (by omega)⟩

theorem isSchedule_schedule {m v : Nat → BitVec 32} (h : ∀ k < 64, v k = Sha.schedule m k) : IsSchedule v := by
  intro k hk
  rw [h _ (by omega), h _ (by omega), h _ (by omega), h _ (by omega), h _ (by omega), Sha.schedule, if_neg (by omega),
    show k + 16 - 2 = k + 14 by omega, show k + 16 - 7 = k + 9 by omega, show k + 16 - 15 = k + 1 by omega,
    show k + 16 - 16 = k by omega]
  generalize Sha.schedule m k = a
  generalize Sha.schedule m (k + 9) = b
  generalize Sha.sigma0 _ = c
  generalize Sha.sigma1 _ = d
  rw [BitVec.add_comm _ a, BitVec.add_comm d b, BitVec.add_assoc, BitVec.add_assoc, BitVec.add_comm d c]

theorem schedule_of_isSchedule {m v : Nat → BitVec 32} (hm : ∀ k < 16, v k = m k) (h : IsSchedule v) :
    ∀ k < 64, v k = Sha.schedule m k := by
  intro k
  induction k using Nat.strong_induction_on with
  | _ k ih =>
    intro hk
    by_cases hlt : k < 16
    · rw [hm k hlt, Sha.schedule, if_pos hlt]
    · have := h (k - 16) (by omega)
      rw [show k - 16 + 16 = k by omega, show k - 16 + 9 = k - 7 by omega, show k - 16 + 1 = k - 15 by omega,
        show k - 16 + 14 = k - 2 by omega, ih (k - 16) (by omega) (by omega), ih (k - 7) (by omega) (by omega),
        ih (k - 15) (by omega) (by omega), ih (k - 2) (by omega) (by omega)] at this
      rw [this]
      conv_rhs => rw [Sha.schedule, if_neg hlt]
      generalize Sha.schedule m (k - 16) = a
      generalize Sha.schedule m (k - 7) = b
      generalize Sha.sigma0 _ = c
      generalize Sha.sigma1 _ = d
      rw [BitVec.add_comm _ a, BitVec.add_comm d b, BitVec.add_assoc, BitVec.add_assoc, BitVec.add_comm d c]

/-- The rounds look at as many words of the schedule and constants as there are. -/
theorem rounds_congr {k k' v v' : Nat → BitVec 32} (s : Sha.State) : ∀ {n : Nat}, (∀ i < n, k i = k' i) →
    (∀ i < n, v i = v' i) → Sha.rounds k v n s = Sha.rounds k' v' n s
  | 0, _, _ => rfl
  | n + 1, h, h' => by
    rw [Sha.rounds, Sha.rounds, h n (by omega), h' n (by omega),
      rounds_congr s (fun i hi => h i (by omega)) (fun i hi => h' i (by omega))]

/-! ### The constants -/

theorem FracRoot.unique {r p : Nat} {x y : BitVec 32} (hr : r ≠ 0) (hx : Sha.FracRoot r p x) (hy : Sha.FracRoot r p y) :
    x = y := by
  obtain ⟨i, h1, h2⟩ := hx
  obtain ⟨j, h3, h4⟩ := hy
  have a := (Nat.pow_lt_pow_iff_left hr).1 (h1.trans_lt h4)
  have b := (Nat.pow_lt_pow_iff_left hr).1 (h3.trans_lt h2)
  have hx' := x.isLt
  have hy' := y.isLt
  apply BitVec.eq_of_toNat_eq
  omega

/-- A search for the whole part of a root. -/
def checkRoot (r p : Nat) (x : BitVec 32) : Bool := (List.range 18).any fun i =>
  decide ((i * 2 ^ 32 + x.toNat) ^ r ≤ p * 2 ^ (32 * r)) && decide (p * 2 ^ (32 * r) < (i * 2 ^ 32 + x.toNat + 1) ^ r)

theorem fracRoot_of_check {r p : Nat} {x : BitVec 32} (h : checkRoot r p x = true) : Sha.FracRoot r p x := by
  obtain ⟨i, -, h⟩ := List.any_eq_true.1 h
  rw [Bool.and_eq_true, decide_eq_true_eq, decide_eq_true_eq] at h
  exact ⟨i, h⟩

theorem primes_length : Sha.primes.length = 64 := by decide +kernel

theorem roundConsts_check : (List.zipWith (checkRoot 3) Sha.primes roundConstsK).all id = true := by decide +kernel

theorem roundConsts_ok : Sha.RoundConstants fun t => roundConstsK[t]?.getD 0 := by
  intro t ht p hp
  have hk : roundConstsK[t]? = some (roundConstsK[t]'(ht.trans_eq rfl)) := List.getElem?_eq_getElem _
  have h := List.all_eq_true.1 roundConsts_check (checkRoot 3 p (roundConstsK[t]'(ht.trans_eq rfl)))
    (List.mem_of_getElem? (i := t) (by rw [List.getElem?_zipWith, hp, hk]))
  show Sha.FracRoot 3 p (roundConstsK[t]?.getD 0)
  rw [hk]
  exact fracRoot_of_check h

/-- The state of the standard, from the table of the code. -/
def initState : Sha.State :=
  ⟨0x6a09e667, 0xbb67ae85, 0x3c6ef372, 0xa54ff53a, 0x510e527f, 0x9b05688c, 0x1f83d9ab, 0x5be0cd19⟩

theorem initState_ok : Sha.InitialValue initState :=
  ⟨fracRoot_of_check (by decide +kernel), fracRoot_of_check (by decide +kernel), fracRoot_of_check (by decide +kernel),
    fracRoot_of_check (by decide +kernel), fracRoot_of_check (by decide +kernel), fracRoot_of_check (by decide +kernel),
    fracRoot_of_check (by decide +kernel), fracRoot_of_check (by decide +kernel)⟩

theorem RoundConstants.eq {k : Nat → BitVec 32} (h : Sha.RoundConstants k) {t : Nat} (ht : t < 64) :
    k t = roundConstsK[t]?.getD 0 := by
  have hp : Sha.primes[t]? = some (Sha.primes[t]'(ht.trans_eq primes_length.symm)) := List.getElem?_eq_getElem _
  exact FracRoot.unique (by norm_num) (h t ht _ hp) (roundConsts_ok t ht _ hp)

theorem InitialValue.eq {s : Sha.State} (h : Sha.InitialValue s) : s = initState := by
  obtain ⟨a, b, c, d, e, f, g, i⟩ := s
  obtain ⟨h1, h2, h3, h4, h5, h6, h7, h8⟩ := h
  obtain ⟨k1, k2, k3, k4, k5, k6, k7, k8⟩ := initState_ok
  dsimp only at h1 h2 h3 h4 h5 h6 h7 h8
  rw [FracRoot.unique (by norm_num) h1 k1, FracRoot.unique (by norm_num) h2 k2, FracRoot.unique (by norm_num) h3 k3,
    FracRoot.unique (by norm_num) h4 k4, FracRoot.unique (by norm_num) h5 k5, FracRoot.unique (by norm_num) h6 k6,
    FracRoot.unique (by norm_num) h7 k7, FracRoot.unique (by norm_num) h8 k8]

/-! ### The gadget -/

variable {F : Type} [Field F] [DecidableEq F]

/-- The columns before the rounds. -/
def Sha256.front (g : Sha256) : Front :=
  ⟨g.w, g.sigma0, g.sigma1, g.stateIn, g.selector, g.wMinus16, g.wMinus7, g.sigma0Minus15, g.sigma1Minus2, g.s0, g.s1, g.s3,
    g.wBlocks, g.initialState, g.roundConstants⟩

/-- What is populated from the rounds on. -/
def Sha256.tail (g : Sha256) (w : Row F) : Row F :=
  g.finalSums.foldl (fun w s => s.populate w) (g.rounds.foldl (fun w r => r.populate w) w)

theorem populateRest_eq (g : Sha256) (w : Row F) : g.populateRest w = g.tail (g.front.rest w) := rfl

theorem writeBlock_ok (g : Sha256) (m : Nat → BitVec 32) (w : Row F) : ∃ v : Nat → BitVec 32,
    g.writeBlock m w = some (g.front.write m v w) ∧ ∀ k < 64, v k = Sha.schedule m k := by
  obtain ⟨l, h1, h2, h3⟩ := computeMessageSchedule_ok (m := m)
    (l := (List.range 64).map fun j => if j < 16 then m j else getU32 w g.w j) (by simp) fun k hk => by
      rw [List.getElem?_map, List.getElem?_range (by omega), Option.map_some, if_pos hk]
  refine ⟨fun k => l[k]?.getD 0, by rw [Sha256.writeBlock, h1, Option.bind_some]; rfl, fun k hk => ?_⟩
  show l[k]?.getD 0 = _
  rw [h3 k hk]
  rfl

theorem bind_ext {α β γ : Type} {x : Option α} {f : α → Option γ} {g : α → Option β} {h : β → Option γ}
    (he : ∀ a, f a = (g a).bind h) : x.bind f = (x.bind g).bind h := by
  cases x with
  | none => rfl
  | some a => exact he a

theorem Sha256.new_eq (t : Table F) : Sha256.new t = (Front.new t).bind fun p =>
    (varsOf p.1.initialState).bind fun v =>
    (Sha256.roundLoop v p.1.roundConstants p.1.wBlocks 0 64 [] p.2).bind fun pr =>
    pr.1[63]?.bind fun last =>
    (fromFn (Sha256.finalSum last.nextVars.toList p.1.initialState) 0 8 pr.2).bind fun pf =>
      some (⟨p.1.stateIn, pf.1.map U32Add.zout, p.1.w, p.1.sigma0, p.1.sigma1, p.1.wBlocks, p.1.wMinus16, p.1.wMinus7,
        p.1.sigma0Minus15, p.1.sigma1Minus2, p.1.s0, p.1.s1, p.1.s3, p.1.initialState, pr.1, pf.1, p.1.roundConstants,
        p.1.selector⟩, pf.2) := by
  unfold Sha256.new Front.new
  iterate 16 refine bind_ext fun _ => ?_
  rfl

/-- The values of the initial state. -/
theorem varsVal_init {w : Row F} {v : Vars}
    (hq : ∀ (k : Nat) (c : Col), v.toList[k]? = some c → ∀ x, init[k]? = some x → wordBV w c 0 = x) :
    varsVal w v = initState := by
  rw [varsVal, hq 0 v.a rfl _ rfl, hq 1 v.b rfl _ rfl, hq 2 v.c rfl _ rfl, hq 3 v.d rfl _ rfl, hq 4 v.e rfl _ rfl,
    hq 5 v.f rfl _ rfl, hq 6 v.g rfl _ rfl, hq 7 v.h rfl _ rfl]
  rfl

theorem sums_words {w : Row F} {gs : List U32Add} {xs ys : List Col} (hx : xs.length = gs.length) (hy : ys.length = gs.length)
    (h : ∀ (k : Nat) (g : U32Add), gs[k]? = some g → ∃ x y, xs[0 + k]? = some x ∧ ys[0 + k]? = some y ∧
      wordBV w g.zout 0 = wordBV w x 0 + wordBV w y 0) :
    (gs.map U32Add.zout).map (fun c => wordBV w c 0) =
      List.zipWith (· + ·) (xs.map fun c => wordBV w c 0) (ys.map fun c => wordBV w c 0) := by
  refine List.ext_getElem? fun k => ?_
  rw [List.map_map, List.getElem?_map, List.getElem?_zipWith, List.getElem?_map, List.getElem?_map]
  cases hg : gs[k]? with
  | none =>
    rw [List.getElem?_eq_none_iff] at hg
    rw [List.getElem?_eq_none_iff.2 (by omega)]
    rfl
  | some g =>
    obtain ⟨x, y, h1, h2, h3⟩ := h k g hg
    rw [Nat.zero_add] at h1 h2
    rw [h1, h2]
    exact congrArg some h3

variable [CharP F 2]

/-- All facts on the gadget. -/
theorem sha256_ok (Tw : Tower F) {t : Table F} (ht : WellFormed t) :
    ∃ g t1 t', Sha256.new t = some (g, t') ∧ Ext t t1 ∧ Stage Tw t1 t' g.tail ∧
      g.stateIn.length = 16 ∧ g.stateOut.length = 8 ∧ (∀ c ∈ g.stateIn, t1.Has c 0 5) ∧ (∀ c ∈ g.stateOut, t'.Has c 0 5 ∧ IsCommitted t' c) ∧
      (IsCommitted t1 g.w ∧ t1.Has g.wMinus16 0 11 ∧ (∃ Z, FrontCols t.columns.length Z g.front) ∧
        ∀ (w : Row F), ∀ i < t.columns.length + 30, ∀ pos, g.front.rest w i pos = g.front.head w i pos) ∧
      (∀ w, RowHolds Tw t' w → RowHolds Tw t w ∧
        (∀ k < 64, wordBV w g.wMinus16 k = if k + 16 < 64 then wordBV w g.w (k + 16) else 0) ∧
        (∀ (k : Nat) (c : Col), g.stateIn[k]? = some c → wordBV w c 0 = wordBV w g.w k) ∧
        ∀ m, (∀ (k : Nat) (c : Col), g.stateIn[k]? = some c → wordBV w c 0 = m k) →
          g.stateOut.map (fun c => wordBV w c 0) = Sha.compress (fun t => roundConstsK[t]?.getD 0) initState m) ∧
      ∀ w m v, RowHolds Tw t w → (∀ i, t.columns.length ≤ i → ∀ pos, w i pos = 0) → (∀ k < 16, v k = m k) → IsSchedule v →
        RowHolds Tw t1 (g.front.rest (g.front.write m v w)) ∧
        (∀ i < t.columns.length, ∀ pos, g.front.rest (g.front.write m v w) i pos = w i pos) ∧
        ∀ k < 16, wordBV (g.front.rest (g.front.write m v w)) g.w k = m k := by
  obtain ⟨f, t1, a1, a2, a3, l1, l2, l3, l4, p1, p2, p3, p4, pw, p5, p6, p7, s1, c1⟩ := front_ok Tw ht
  obtain ⟨v, hv⟩ : ∃ v, varsOf f.initialState = some v ∧ f.initialState = v.toList := by
    match hf : f.initialState, l3 with
    | [a, b, c, d, e, f, g, h], _ => exact ⟨⟨a, b, c, d, e, f, g, h⟩, rfl, rfl⟩
  obtain ⟨hv, hvl⟩ := hv
  have hvin : VarsIn t1 v := fun c hc => p3 c (by rw [hvl]; exact hc)
  obtain ⟨rs, t2, b1, b2, b3, b4, b5⟩ := roundLoop_stage Tw (v := v) (N := 64) le_rfl l4 l2 64 0 [] t1 rfl rfl
    (fun r hr => by cases hr) a3 hvin p4 p2
  rw [List.nil_append] at b1 b4 b5
  obtain ⟨last, hlast⟩ : ∃ last, rs[63]? = some last := ⟨_, List.getElem?_eq_getElem (by omega)⟩
  have hcur : curVars v rs = last.nextVars := by
    rw [curVars, List.getLast?_eq_getElem?, b2, hlast]
  rw [hcur] at b4 b5
  obtain ⟨gs, t', d1, d2, d3, d4, d5⟩ := finalSums_stage Tw (xs := last.nextVars.toList) (ys := f.initialState) 8 0 t2 le_rfl
    (by rw [l3]) b3.wf b4 (fun c hc => (p3 c hc).ext b3.ext)
  have hst := b3.trans d3
  refine ⟨⟨f.stateIn, gs.map U32Add.zout, f.w, f.sigma0, f.sigma1, f.wBlocks, f.wMinus16, f.wMinus7,
        f.sigma0Minus15, f.sigma1Minus2, f.s0, f.s1, f.s3, f.initialState, rs, gs, f.roundConstants,
        f.selector⟩, t1, t', ?_, a2, hst, l1, by rw [List.length_map, d2], p1, ?_, ⟨pw, p5, p6, p7⟩, ?_, c1⟩
  · rw [Sha256.new_eq, a1, Option.bind_some]
    dsimp only
    rw [hv, Option.bind_some, b1, Option.bind_some]
    dsimp only
    rw [hlast, Option.bind_some, d1, Option.bind_some]
  · intro c hc
    obtain ⟨g, hg, rfl⟩ := List.mem_map.1 hc
    exact d4 g hg
  · intro w hw
    obtain ⟨q1, q2, q3, q4, q5, q6, q7⟩ := s1 w (hst.sound w hw)
    refine ⟨q1, q7, q3, fun m hm => ?_⟩
    have hsch := schedule_of_isSchedule (m := m) (fun k hk => by
      have hg : f.stateIn[k]? = some (f.stateIn[k]'(hk.trans_eq l1.symm)) := List.getElem?_eq_getElem _
      rw [← q3 k _ hg, hm k _ hg]) q2
    have hinit : varsVal w v = initState := varsVal_init (by rw [← hvl]; exact q5)
    have hr := b5 w (d3.sound w hw) (fun t => roundConstsK[t]?.getD 0) (wordBV w f.w) initState
      (fun j c hc => by
        have hj := lt_of_get hc
        have hk : roundConstsK[j]? = some (roundConstsK[j]'(hj.trans_eq l4)) := List.getElem?_eq_getElem _
        rw [q6 j c hc _ hk, hk]; rfl) q4 hinit
    rw [rounds_congr initState (fun _ _ => rfl) hsch] at hr
    show (gs.map U32Add.zout).map (fun c => wordBV w c 0) = _
    rw [sums_words (by rw [d2]; rfl) (by rw [d2, l3]) (d5 w hw), hvl]
    unfold Sha.compress
    rw [← hr, ← hinit]
    rfl

/-! ### Rows that are not populated -/

theorem schedule_zero (t : Nat) : Sha.schedule (fun _ => 0) t = 0 := by
  induction t using Nat.strong_induction_on with
  | _ t ih =>
    rw [Sha.schedule]
    split
    · rfl
    · rw [ih _ (by omega), ih _ (by omega), ih _ (by omega), ih _ (by omega)]
      decide

theorem compress_zero : (Sha.compress (fun t => roundConstsK[t]?.getD 0) initState fun _ => 0)[0]? = some 0xda5698be := by
  rw [Sha.compress, rounds_congr initState (fun _ _ => rfl) (v' := fun _ => 0) fun i _ => schedule_zero i]
  decide +kernel

theorem fillConstants_committed {t : Table F} {c : Col} (h : IsCommitted t c) (w : Row F) (pos : Nat) :
    t.fillConstants w c.idx pos = w c.idx pos := by
  obtain ⟨ci, h1, h2⟩ := h
  rw [Table.fillConstants, h1]
  dsimp only
  rw [h2]


/-- A row of zeros. -/
def zeroRow : Row F := fun _ _ => 0

theorem setWords_zero {c : Col} {n : Nat} {v : Nat → Nat} (hv : ∀ k, v k = 0) : setWords (zeroRow : Row F) c n v = zeroRow := by
  funext i pos
  rw [setWords]
  split
  · rw [hv, Nat.zero_testBit]; rfl
  · rfl

theorem setU32s_zero {c : Col} {n : Nat} {v : Nat → BitVec 32} (hv : ∀ k, v k = 0) :
    setU32s (zeroRow : Row F) c n v = zeroRow := setWords_zero fun k => by rw [hv]; rfl

theorem getWord_zero (c : Col) (k : Nat) : getWord (zeroRow : Row F) c k = 0 := by
  refine Nat.eq_of_testBit_eq fun j => ?_
  rw [Nat.zero_testBit, getWord, testBit_num, decide_eq_false_iff_not, List.getElem?_map]
  cases (List.range 32)[j]? with
  | none => simp
  | some x => simp [zeroRow]

theorem addWord_zero {o : Option Nat} (ho : ∀ x, o = some x → x = 0) : addWord 0 0 o = (0, 0, 0, false) := by
  cases o with
  | none => rfl
  | some x => rw [ho x rfl]; rfl

theorem writeWords_zero {n : Nat} {a b c d : Col} {h : Bool} {v : Nat → Nat × Nat × Nat × Bool}
    (hv : ∀ k, v k = (0, 0, 0, false)) : writeWords (zeroRow : Row F) n a b c d h v = zeroRow := by
  unfold writeWords
  dsimp only
  rw [setWords_zero fun k => by rw [hv], setWords_zero fun k => by rw [hv], setWords_zero fun k => by rw [hv]]
  cases h with
  | false => rfl
  | true => rw [if_pos rfl, setWords_zero fun k => by rw [hv]; rfl]

theorem addWords_zero (x y : Col) (c : Option Col) (k : Nat) :
    addWord (getWord (zeroRow : Row F) x k) (getWord (zeroRow : Row F) y k) (c.map fun c => getWord (zeroRow : Row F) c k) =
      (0, 0, 0, false) := by
  rw [getWord_zero, getWord_zero]
  refine addWord_zero fun x hx => ?_
  obtain ⟨c', -, rfl⟩ := Option.map_eq_some_iff.1 hx
  exact getWord_zero _ _

theorem U32Add.populate_zero (g : U32Add) : g.populate (zeroRow : Row F) = zeroRow := by
  rw [U32Add.populate]
  dsimp only
  rw [writeWords_zero (addWords_zero _ _ _), addWords_zero]
  unfold setBitOpt
  cases g.finalCarry with
  | none => rfl
  | some c =>
    funext i pos
    show (if _ then _ else _) = _
    split
    · rfl
    · rfl

theorem U32AddStacked.populate_zero (g : U32AddStacked) (lv : Nat) : g.populate lv (zeroRow : Row F) = zeroRow := by
  rw [U32AddStacked.populate]
  exact writeWords_zero (addWords_zero _ _ _)

theorem getU32_zero (c : Col) (k : Nat) : getU32 (zeroRow : Row F) c k = 0 := by
  rw [getU32, getWord_zero]; rfl

theorem sigmaPopulate_zero (g : Sigma) (n : Nat) {f1 f2 f3 : BitVec 32 → BitVec 32} (h1 : f1 0 = 0) (h2 : f2 0 = 0)
    (h3 : f3 0 = 0) : sigmaPopulate g n f1 f2 f3 (zeroRow : Row F) = zeroRow := by
  have hz : ∀ k, getU32 (zeroRow : Row F) g.input k = 0 := getU32_zero _
  unfold sigmaPopulate
  rw [setU32s_zero fun k => by rw [hz, h1], setU32s_zero fun k => by rw [hz, h2], setU32s_zero fun k => by rw [hz, h3],
    setU32s_zero fun k => by rw [hz, h1, h2, h3]; rfl]

theorem foldl_fixed {α β : Type} {f : β → α → β} {b : β} (h : ∀ a, f b a = b) : ∀ l : List α, l.foldl f b = b
  | [] => rfl
  | a :: l => by rw [List.foldl_cons, h, foldl_fixed h l]

theorem Round.populate_zero (r : Round) : r.populate (zeroRow : Row F) = zeroRow := by
  unfold Round.populate
  simp only [getU32_zero]
  rw [setU32s_zero fun _ => by decide, setU32s_zero fun _ => by decide]
  have h0 : BigSigma0.populate r.bigsigma0 (zeroRow : Row F) = zeroRow :=
    sigmaPopulate_zero r.bigsigma0 1 (f1 := fun x => x.rotateRight 2) (f2 := fun x => x.rotateRight 13)
      (f3 := fun x => x.rotateRight 22) (by decide) (by decide) (by decide)
  have h1 : BigSigma1.populate r.bigsigma1 (zeroRow : Row F) = zeroRow :=
    sigmaPopulate_zero r.bigsigma1 1 (f1 := fun x => x.rotateRight 6) (f2 := fun x => x.rotateRight 11)
      (f3 := fun x => x.rotateRight 25) (by decide) (by decide) (by decide)
  rw [h0, h1]
  exact foldl_fixed (f := fun (w : Row F) (s : U32Add) => s.populate w) (fun s => s.populate_zero) _

/-- A row of zeros to which no block is written stays one. -/
theorem populateRest_zero (g : Sha256) : g.populateRest (zeroRow : Row F) = zeroRow := by
  have h0 : Sigma0.populate g.sigma0 (zeroRow : Row F) = zeroRow :=
    sigmaPopulate_zero g.sigma0 64 (f1 := fun x => x.rotateRight 7) (f2 := fun x => x.rotateRight 18)
      (f3 := fun x => x >>> 3) (by decide) (by decide) (by decide)
  have h1 : Sigma1.populate g.sigma1 (zeroRow : Row F) = zeroRow :=
    sigmaPopulate_zero g.sigma1 64 (f1 := fun x => x.rotateRight 17) (f2 := fun x => x.rotateRight 19)
      (f3 := fun x => x >>> 10) (by decide) (by decide) (by decide)
  unfold Sha256.populateRest
  dsimp only
  rw [h0, h1, setU32s_zero fun _ => getU32_zero _ _, setU32s_zero fun _ => getU32_zero _ _, U32AddStacked.populate_zero,
    U32AddStacked.populate_zero, U32AddStacked.populate_zero, foldl_fixed (f := fun (w : Row F) (r : Round) => r.populate w) fun r => r.populate_zero]
  exact foldl_fixed (f := fun (w : Row F) (s : U32Add) => s.populate w) (fun s => s.populate_zero) _

/-- Cells that a block does not write keep their values. -/
theorem front_stale {L Z : Nat} {g : Front} (hg : FrontCols L Z g) (m v : Nat → BitVec 32) (w : Row F) {pos : Nat}
    (hp : 48 ≤ pos / 32) : g.head (g.write m v w) g.wMinus16.idx pos = w g.wMinus16.idx pos := by
  obtain ⟨hLZ, iw, a2, b2, iin, lin, isel, i16, i7, i15, i2, ib, lb, ii, li, ik, lk⟩ := hg
  have u1 := setEach_ok (F := F) v g.wBlocks 0 Z
  have u2 := setEach_ok (F := F) m g.stateIn 0 (L + 9)
  have u6 := setEach_ok (F := F) (fun i => roundConstsK[i]?.getD 0) g.roundConstants 0 (Z + 72)
  have u7 := setEach_ok (F := F) (fun i => init[i]?.getD 0) g.initialState 0 (Z + 64)
  have v1 := sigmaPopulate_ok (F := F) a2 (lv := 11) (n := 64) (by norm_num) (by omega) (fun x => x.rotateRight 7)
    (fun x => x.rotateRight 18) (fun x => x >>> 3)
  have v2 := sigmaPopulate_ok (F := F) b2 (lv := 11) (n := 64) (by norm_num) (by omega) (fun x => x.rotateRight 17)
    (fun x => x.rotateRight 19) (fun x => x >>> 10)
  have hkeep : ∀ w : Row F, setU32s w g.wMinus16 48 (fun k => v (k + 16)) g.wMinus16.idx pos = w g.wMinus16.idx pos :=
    fun w => if_neg fun h => by omega
  unfold Front.head
  rw [setU32s_ne (by omega), setU32s_ne (by omega)]
  show sigmaPopulate g.sigma1 64 (fun x => x.rotateRight 17) (fun x => x.rotateRight 19) (fun x => x >>> 10)
    (sigmaPopulate g.sigma0 64 (fun x => x.rotateRight 7) (fun x => x.rotateRight 18) (fun x => x >>> 3) _) _ _ = _
  rw [(v2 _).1 _ (by omega), (v1 _).1 _ (by omega)]
  unfold Front.write
  rw [(u7 _ ii).1 _ (by omega), (u6 _ ik).1 _ (by omega), setU32s_ne (by omega), setU32s_ne (by omega), hkeep,
    (u2 _ iin).1 _ (by omega), (u1 _ ib).1 _ (by omega), setU32s_ne (by omega)]

end Verif.M3
