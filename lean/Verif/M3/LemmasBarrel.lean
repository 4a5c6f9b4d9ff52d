import Verif.M3.ModelBarrel
import Verif.M3.LemmasAdd

/-! Lemmas on the barrel shifter. -/

set_option linter.dupNamespace false
set_option linter.unusedSectionVars false

namespace Verif.M3

open Finset Verif.Arith
open Verif.Transparent (ShiftVariant)

variable {F : Type} [Field F] [DecidableEq F]

/-! ### Shifts of bits and of words -/

theorem shifted_zero (v : ShiftVariant) (f : Nat → F) {pos : Nat} (hp : pos < 32) :
    Transparent.shifted v 5 0 f pos = f pos := by
  cases v with
  | circularLeft => show f _ = _; congr 1; omega
  | logicalLeft => show (if 0 ≤ pos then f (pos - 0) else 0) = _; rw [if_pos (by omega)]; rfl
  | logicalRight => show (if pos + 0 < 2 ^ 5 then f (pos + 0) else 0) = _; rw [if_pos (by omega)]; rfl

theorem shifted_add (v : ShiftVariant) {a b : Nat} (hab : a + b < 32) (f g : Nat → F)
    (hg : ∀ pos < 32, g pos = Transparent.shifted v 5 b f pos) {pos : Nat} (hp : pos < 32) :
    Transparent.shifted v 5 a g pos = Transparent.shifted v 5 (a + b) f pos := by
  cases v with
  | circularLeft =>
    show g _ = f _
    rw [hg _ (by omega)]
    show f _ = f _
    congr 1
    omega
  | logicalLeft =>
    show (if a ≤ pos then g (pos - a) else 0) = (if a + b ≤ pos then f (pos - (a + b)) else 0)
    by_cases h : a ≤ pos
    · rw [if_pos h, hg _ (by omega)]
      show (if b ≤ pos - a then f (pos - a - b) else 0) = _
      by_cases h' : a + b ≤ pos
      · rw [if_pos (by omega), if_pos h']; congr 1; omega
      · rw [if_neg (by omega), if_neg h']
    · rw [if_neg h, if_neg (by omega)]
  | logicalRight =>
    show (if pos + a < 2 ^ 5 then g (pos + a) else 0) = (if pos + (a + b) < 2 ^ 5 then f (pos + (a + b)) else 0)
    by_cases h : pos + a < 2 ^ 5
    · rw [if_pos h, hg _ (by omega)]
      show (if pos + a + b < 2 ^ 5 then f (pos + a + b) else 0) = _
      by_cases h' : pos + (a + b) < 2 ^ 5
      · rw [if_pos (by omega), if_pos h']; congr 1; omega
      · rw [if_neg (by omega), if_neg h']
    · rw [if_neg h, if_neg (by omega)]

theorem shifted_isBit (v : ShiftVariant) {b : Nat} {f : Nat → F} (hf : ∀ pos < 32, IsBit (f pos)) {pos : Nat} (hp : pos < 32) :
    IsBit (Transparent.shifted v 5 b f pos) := by
  cases v with
  | circularLeft => exact hf _ (by omega)
  | logicalLeft =>
    show IsBit (if b ≤ pos then f (pos - b) else 0)
    split
    · exact hf _ (by omega)
    · exact Or.inl rfl
  | logicalRight =>
    show IsBit (if pos + b < 2 ^ 5 then f (pos + b) else 0)
    split
    · exact hf _ (by omega)
    · exact Or.inl rfl

/-- The shift of the code is the shift of the specification. -/
theorem barrelShift_eq (v : ShiftVariant) {k x : Nat} (hk : k < 32) (hx : x < 2 ^ 32) :
    barrelShift v k x = shiftWord v k x := by
  cases v with
  | logicalLeft => rw [barrelShift, shiftWord, Nat.shiftLeft_eq]
  | logicalRight => rw [barrelShift, shiftWord, Nat.shiftRight_eq_div_pow]
  | circularLeft =>
    rw [barrelShift, shiftWord, Nat.shiftLeft_eq, Nat.shiftRight_eq_div_pow]
    have h1 : x * 2 ^ k % 2 ^ 32 = 2 ^ k * (x % 2 ^ (32 - k)) := by
      rw [mul_comm x, ← Nat.mul_mod_mul_left, ← pow_add, Nat.add_sub_cancel' hk.le]
    have h2 : x / 2 ^ (32 - k) < 2 ^ k := by
      rw [Nat.div_lt_iff_lt_mul (by positivity), ← pow_add, Nat.add_sub_cancel' hk.le]; exact hx
    rw [h1, Nat.two_pow_add_eq_or_of_lt h2]

theorem barrelShift_lt (v : ShiftVariant) {k x : Nat} (hx : x < 2 ^ 32) : barrelShift v k x < 2 ^ 32 := by
  cases v with
  | logicalLeft => exact Nat.mod_lt _ (by positivity)
  | logicalRight =>
    rw [barrelShift, Nat.shiftRight_eq_div_pow]
    exact (Nat.div_le_self _ _).trans_lt hx
  | circularLeft =>
    refine Nat.or_lt_two_pow (Nat.mod_lt _ (by positivity)) ?_
    rw [Nat.shiftRight_eq_div_pow]
    exact (Nat.div_le_self _ _).trans_lt hx

/-- The bits of a shifted word are the shifted bits. -/
theorem barrelShift_bits (v : ShiftVariant) {k x : Nat} (hk : k < 32) (hx : x < 2 ^ 32) {f : Nat → F}
    (hf : ∀ pos < 32, (ofBit (x.testBit pos) : F) = f pos) {pos : Nat} (hp : pos < 32) :
    (ofBit ((barrelShift v k x).testBit pos) : F) = Transparent.shifted v 5 k f pos := by
  have hbig : ∀ j, 32 ≤ j → x.testBit j = false := fun j hj =>
    Nat.testBit_lt_two_pow (hx.trans_le (Nat.pow_le_pow_right (by omega) hj))
  cases v with
  | logicalLeft =>
    show ofBit (((x <<< k) % 2 ^ 32).testBit pos) = (if k ≤ pos then f (pos - k) else 0)
    rw [Nat.testBit_mod_two_pow, Nat.testBit_shiftLeft]
    by_cases h : k ≤ pos
    · rw [if_pos h, ← hf _ (by omega)]; simp [h, hp]
    · rw [if_neg h]; simp [h]
  | logicalRight =>
    show ofBit ((x >>> k).testBit pos) = (if pos + k < 2 ^ 5 then f (pos + k) else 0)
    rw [Nat.testBit_shiftRight]
    by_cases h : pos + k < 2 ^ 5
    · rw [if_pos h, ← hf _ h, Nat.add_comm]
    · rw [if_neg h, hbig _ (by omega)]; rfl
  | circularLeft =>
    show ofBit ((((x <<< k) % 2 ^ 32) ||| (x >>> (32 - k))).testBit pos) = f ((pos + 2 ^ 5 - k) % 2 ^ 5)
    rw [Nat.testBit_or, Nat.testBit_mod_two_pow, Nat.testBit_shiftLeft, Nat.testBit_shiftRight]
    by_cases h : k ≤ pos
    · rw [hbig (32 - k + pos) (by omega), ← hf _ (by omega), show (pos + 2 ^ 5 - k) % 2 ^ 5 = pos - k by omega]
      simp [h, hp]
    · rw [← hf _ (by omega), show (pos + 2 ^ 5 - k) % 2 ^ 5 = 32 - k + pos by omega]
      simp [h]

/-- The number with the shifted bits is the shifted number. -/
theorem num_shifted (v : ShiftVariant) {k : Nat} (hk : k < 32) {f g : Nat → F} (hf : ∀ pos < 32, IsBit (f pos))
    (hg : ∀ pos < 32, g pos = Transparent.shifted v 5 k f pos) :
    num ((List.range 32).map g) = shiftWord v k (num ((List.range 32).map f)) := by
  have hx := num_range_lt f 32
  rw [← barrelShift_eq v hk hx]
  refine (eq_num (barrelShift_lt v hx) (fun i hi => ?_) fun j hj => ?_).symm
  · rw [hg i hi]; exact shifted_isBit v hf hi
  · rw [hg j hj]; exact barrelShift_bits v hk hx (fun pos hp => ofBit_testBit hf hp) hj

/-! ### The rows of the gadget -/

/-- What one step adds to the rows. -/
structure StepRow (Tw : Tower F) (w : Row F) (v : ShiftVariant) (i : Nat) (current : Col) (s : BarrelStep) : Prop where
  fs : ∀ pos < 32, Tw.sub 0 (w s.shifted.idx pos)
  fpp : Tw.sub 5 (w s.partialPacked.idx 0)
  fsp : Tw.sub 5 (w s.shiftedPacked.idx 0)
  fcp : Tw.sub 5 (w s.currentPacked.idx 0)
  shifted : ∀ pos < 32, w s.shifted.idx pos = Transparent.shifted v 5 (2 ^ i) (w current.idx) pos
  pp : w s.partialPacked.idx 0 = ∑ e ∈ range 32, w s.partialShift.idx e * Tw.basis e
  sp : w s.shiftedPacked.idx 0 = ∑ e ∈ range 32, w s.shifted.idx e * Tw.basis e
  cp : w s.currentPacked.idx 0 = ∑ e ∈ range 32, w current.idx e * Tw.basis e
  eq : w s.partialPacked.idx 0 + (w s.shiftedPacked.idx 0 * w s.bit.idx 0 +
    w s.currentPacked.idx 0 * (w s.bit.idx 0 + 1)) = 0

def LoopRow (Tw : Tower F) (w : Row F) (v : ShiftVariant) : Nat → Col → List BarrelStep → Prop
  | _, _, [] => True
  | i, current, s :: ss => StepRow Tw w v i current s ∧ LoopRow Tw w v (i + 1) s.partialShift ss

def lastShift : Col → List BarrelStep → Col
  | current, [] => current
  | _, s :: ss => lastShift s.partialShift ss

/-- Where the columns of the steps are. -/
def LoopLayout (L : Nat) : Nat → List BarrelStep → Prop
  | _, [] => True
  | i, s :: ss => (s.partialShift.idx = L + i ∧ s.bit.idx = L + 5 + i ∧ s.shifted.idx = L + 10 + 4 * i ∧
      s.partialPacked.idx = L + 11 + 4 * i ∧ s.shiftedPacked.idx = L + 12 + 4 * i ∧
      s.currentPacked.idx = L + 13 + 4 * i) ∧ LoopLayout L (i + 1) ss

variable [CharP F 2]

theorem barrelStep_ok (Tw : Tower F) (t : Table F) (v : ShiftVariant) {i : Nat} (hi : i < 5) {current p b : Col}
    (hc : t.Has current 0 5) (hp : t.Has p 0 5) (hb : t.Has b 0 0) :
    ∃ s t', BarrelShifter.step t v i current p b = some (s, t') ∧ s.partialShift = p ∧ s.bit = b ∧
      s.shifted.idx = t.columns.length ∧ s.partialPacked.idx = t.columns.length + 1 ∧
      s.shiftedPacked.idx = t.columns.length + 2 ∧ s.currentPacked.idx = t.columns.length + 3 ∧
      t'.columns.length = t.columns.length + 4 ∧ Adds Tw t t' fun w => StepRow Tw w v i current s := by
  have h32 : 2 ^ i ≤ 2 ^ 5 := Nat.pow_le_pow_right (by omega) hi.le
  obtain ⟨s, t1, a1, a2, a3⟩ := addShifted_ok Tw t hc (b := 5) (o := 2 ^ i) le_rfl h32 v
  obtain ⟨pp, t2, b1, b2, b3⟩ := addPacked_ok Tw t1 (levelSub := 0) (lvSub := 5) (level := 5) (lv := 0)
    (hp.ext a3.ext) (by omega) (by omega) (by omega)
  obtain ⟨sp, t3, c1, c2, c3⟩ := addPacked_ok Tw t2 (levelSub := 0) (lvSub := 5) (level := 5) (lv := 0)
    (a2.has.ext b3.ext) (by omega) (by omega) (by omega)
  obtain ⟨cp, t4, d1, d2, d3⟩ := addPacked_ok Tw t3 (levelSub := 0) (lvSub := 5) (level := 5) (lv := 0)
    (hc.ext (a3.ext.trans (b3.ext.trans c3.ext))) (by omega) (by omega) (by omega)
  have e4 : Ext t t4 := a3.ext.trans (b3.ext.trans (c3.ext.trans d3.ext))
  obtain ⟨t5, e1, e2, e3⟩ := assertZero_ok Tw (t := t4) (lv := 0)
    (Ev.sub (Ev.col (b2.has.ext (c3.ext.trans d3.ext))) (Ev.add (Ev.mul (Ev.col (c2.has.ext d3.ext)) (Ev.col (hb.ext e4)))
      (Ev.mul (Ev.col d2.has) (Ev.add (Ev.col (hb.ext e4)) (Ev.const t4 0 1)))))
  refine ⟨⟨b, s, p, pp, sp, cp⟩, t5, ?_, rfl, rfl, a2.idx, ?_, ?_, ?_, ?_,
    (a3.trans (b3.trans (c3.trans (d3.trans e3)))).congr fun w hw => ?_⟩
  · rw [BarrelShifter.step, a1, Option.bind_some]
    dsimp only
    rw [b1, Option.bind_some]
    dsimp only
    rw [c1, Option.bind_some]
    dsimp only
    rw [d1, Option.bind_some]
    dsimp only
    rw [e1, Option.bind_some]
  · show pp.idx = _
    rw [b2.idx, a2.len]
  · show sp.idx = _
    rw [c2.idx, b2.len, a2.len]
  · show cp.idx = _
    rw [d2.idx, c2.len, b2.len, a2.len]
  · rw [e2, d2.len, c2.len, b2.len, a2.len]
  · constructor
    · rintro ⟨⟨g1, g2⟩, ⟨g3, g4⟩, ⟨g5, g6⟩, ⟨g7, g8⟩, g9⟩
      refine ⟨g1, g3 0 (by simp), g5 0 (by simp), g7 0 (by simp), fun pos hp => ?_, ?_, ?_, ?_, g9 0 (by simp)⟩
      · rw [g2 pos hp, show pos % 2 ^ 5 = pos by omega, show pos / 2 ^ 5 = 0 by omega]; simp
      · simpa using g4 0 (by simp)
      · simpa using g6 0 (by simp)
      · simpa using g8 0 (by simp)
    · rintro ⟨g1, g2, g3, g4, g5, g6, g7, g8, g9⟩
      have one : ∀ pos, pos < 2 ^ 0 → pos = 0 := fun pos h => by simpa using h
      refine ⟨⟨g1, fun pos hp => ?_⟩, ⟨fun pos hp => by rw [one pos hp]; exact g2, fun pos hp => ?_⟩,
        ⟨fun pos hp => by rw [one pos hp]; exact g3, fun pos hp => ?_⟩,
        ⟨fun pos hp => by rw [one pos hp]; exact g4, fun pos hp => ?_⟩, fun pos hp => by rw [one pos hp]; exact g9⟩
      · rw [show pos % 2 ^ 5 = pos by omega, show pos / 2 ^ 5 = 0 by omega]
        simpa using g5 pos hp
      · rw [one pos hp]; simpa using g6
      · rw [one pos hp]; simpa using g7
      · rw [one pos hp]; simpa using g8

theorem barrelLoop_ok (Tw : Tower F) (v : ShiftVariant) (L : Nat) : ∀ (ps bs : List Col) (i : Nat) (current : Col)
    (t : Table F), ps.length = bs.length → i + ps.length = 5 → t.Has current 0 5 → (∀ c ∈ ps, t.Has c 0 5) →
    (∀ c ∈ bs, t.Has c 0 0) → (∀ (k : Nat) (c : Col), ps[k]? = some c → c.idx = L + i + k) →
    (∀ (k : Nat) (c : Col), bs[k]? = some c → c.idx = L + 5 + i + k) → t.columns.length = L + 10 + 4 * i →
    ∃ ss t', BarrelShifter.loop v ps bs i current t = some (ss, lastShift current ss, t') ∧ LoopLayout L i ss ∧
      ss.map BarrelStep.bit = bs ∧ ss.map BarrelStep.partialShift = ps ∧
      t'.columns.length = L + 30 ∧ Adds Tw t t' fun w => LoopRow Tw w v i current ss
  | [], [], i, current, t, _, hi, _, _, _, _, _, hL =>
    ⟨[], t, rfl, trivial, rfl, rfl, by simp at hi; omega, (Adds.refl Tw t).congr fun w _ => by simp [LoopRow]⟩
  | p :: ps, b :: bs, i, current, t, hl, hi, hc, hp, hb, hpi, hbi, hL => by
    simp only [List.length_cons] at hl hi
    obtain ⟨s, t1, a1, a2, a3, a4, a5, a6, a7, a8, a9⟩ := barrelStep_ok Tw t v (i := i) (by omega) hc
      (hp p List.mem_cons_self) (hb b List.mem_cons_self)
    obtain ⟨ss, t', b1, b2, b3, b4, b5, b6⟩ := barrelLoop_ok Tw v L ps bs (i + 1) p t1 (by omega) (by omega)
      ((hp p List.mem_cons_self).ext a9.ext) (fun c h => (hp c (List.mem_cons_of_mem _ h)).ext a9.ext)
      (fun c h => (hb c (List.mem_cons_of_mem _ h)).ext a9.ext)
      (fun k c h => by rw [hpi (k + 1) c (by simpa using h)]; omega)
      (fun k c h => by rw [hbi (k + 1) c (by simpa using h)]; omega) (by omega)
    refine ⟨s :: ss, t', ?_, ⟨⟨?_, ?_, by omega, by omega, by omega, by omega⟩, b2⟩, ?_, ?_, b5,
      (a9.trans b6).congr fun w _ => ?_⟩
    · rw [BarrelShifter.loop, a1, Option.bind_some]
      dsimp only
      rw [b1, Option.bind_some, lastShift, a2]
    · rw [a2]; exact hpi 0 p rfl
    · rw [a3]; exact hbi 0 b rfl
    · rw [List.map_cons, b3, a3]
    · rw [List.map_cons, b4, a2]
    · rw [LoopRow, a2]

theorem BarrelShifter_new_ok (Tw : Tower F) {t : Table F} (ht : WellFormed t) {x a : Col} (hx : t.Has x 0 5)
    (ha : t.Has a 0 4) (v : ShiftVariant) :
    ∃ g t', BarrelShifter.new t x a v = some (g, t') ∧ g.input = x ∧ g.shiftAmount = a ∧ g.variant = v ∧
      g.output = lastShift x g.steps ∧ g.steps.length = 5 ∧ LoopLayout t.columns.length 0 g.steps ∧
      t'.columns.length = t.columns.length + 30 ∧ t'.Has g.output 0 5 ∧ Adds Tw t t' fun w =>
        ((∀ s ∈ g.steps, ∀ pos < 32, Tw.sub 0 (w s.partialShift.idx pos)) ∧
          ∀ (k : Nat) (s : BarrelStep), g.steps[k]? = some s → Tw.sub 0 (w s.bit.idx 0) ∧ w s.bit.idx 0 = w a.idx k) ∧
        LoopRow Tw w v 0 x g.steps := by
  obtain ⟨ps, t1, a1, a2, a3⟩ := addCommittedMultiple_ok Tw ht 0 5 5
  obtain ⟨bs, t2, b1, b2, b3⟩ := fromFn_ok Tw (f := fun i t => t.addSelected 0 4 a i)
    (fun i c w => InField Tw 0 0 c w ∧ w c.idx 0 = w a.idx i) 5 0 t1 (a3.wf ht) fun j _ hj t2 h2 _ =>
      addSelected_ok Tw t2 (ha.ext (a3.ext.trans h2)) (by omega)
  obtain ⟨ss, t3, c1, c2, c3, c4, c5, c6⟩ := barrelLoop_ok Tw v t.columns.length ps bs 0 x t2
    (by rw [a2.length, b2.length]) (by rw [a2.length]) (hx.ext (a3.ext.trans b3.ext)) (fun c h => (a2.has h).ext b3.ext)
    (fun c h => b2.has h) (fun k c h => (a2.col k c h).1)
    (fun k c h => by rw [(b2.col k c h).1, a2.len]) (by rw [b2.len, a2.len])
  have hlen : ss.length = 5 := by rw [← a2.length, ← c4, List.length_map]
  refine ⟨⟨x, a, ss, lastShift x ss, v⟩, t3, ?_, rfl, rfl, rfl, rfl, hlen, c2, c5, ?_,
    (a3.trans (b3.trans c6)).congr fun w _ => ?_⟩
  · rw [BarrelShifter.new, a1, Option.bind_some]
    dsimp only
    rw [b1, Option.bind_some]
    dsimp only
    rw [c1, Option.bind_some]
  · have key : ∀ (ss : List BarrelStep) (x : Col), ss ≠ [] → lastShift x ss ∈ ss.map BarrelStep.partialShift := by
      intro ss
      induction ss with
      | nil => intro x h; exact absurd rfl h
      | cons s ss ih =>
        intro x _
        rw [lastShift, List.map_cons]
        by_cases hs : ss = []
        · subst hs; exact List.mem_cons_self
        · exact List.mem_cons_of_mem _ (ih _ hs)
    have := key ss x (by intro h; rw [h] at hlen; simp at hlen)
    rw [c4] at this
    exact (a2.has this).ext (b3.ext.trans c6.ext)
  · dsimp only
    rw [and_assoc]
    refine and_congr ?_ (and_congr ?_ Iff.rfl)
    · rw [← c4]
      simp [InField]
    · rw [← c3]
      constructor
      · intro h k s hk
        obtain ⟨h1, h2⟩ := h k s.bit (by rw [List.getElem?_map, hk]; rfl)
        exact ⟨h1 0 (by simp), by rw [h2, Nat.zero_add]⟩
      · intro h k c hk
        rw [List.getElem?_map] at hk
        obtain ⟨s, hs, rfl⟩ := Option.map_eq_some_iff.1 hk
        obtain ⟨h1, h2⟩ := h k s hs
        exact ⟨fun pos hp => by rw [show pos = 0 by simpa using hp]; exact h1, by rw [h2, Nat.zero_add]⟩

/-! ### Soundness -/

theorem pack_inj {Tw : Tower F} (hT : 5 ≤ Tw.height) {f g : Nat → F} (hf : ∀ e < 32, IsBit (f e)) (hg : ∀ e < 32, IsBit (g e))
    (h : ∑ e ∈ range 32, f e * Tw.basis e = ∑ e ∈ range 32, g e * Tw.basis e) : ∀ e < 32, f e = g e := by
  have h32 : 32 ≤ 2 ^ Tw.height := (by norm_num : 32 ≤ 2 ^ 5).trans (Nat.pow_le_pow_right (by omega) hT)
  have := Tw.indep (fun e => if e < 32 then f e + g e else 0) (fun e => by
    split
    · next he => exact isBit_add (hf e he) (hg e he)
    · exact Or.inl rfl) (by
    rw [← Finset.sum_subset (s₁ := range 32) (Finset.range_mono h32)]
    · rw [Finset.sum_congr rfl fun e he => by rw [if_pos (mem_range.1 he), add_mul], sum_add_distrib, h]
      exact CharTwo.add_self_eq_zero _
    · intro e _ he
      rw [if_neg (by rwa [mem_range] at he), zero_mul])
  intro e he
  have h1 := this e (by omega)
  rw [if_pos he] at h1
  exact CharTwo.add_eq_zero.1 h1

theorem stepRow_sound {Tw : Tower F} (hT : 5 ≤ Tw.height) {w : Row F} {v : ShiftVariant} {i : Nat} {current : Col}
    {s : BarrelStep} (h : StepRow Tw w v i current s) (hc : ∀ pos < 32, IsBit (w current.idx pos))
    (hp : ∀ pos < 32, IsBit (w s.partialShift.idx pos)) (hb : IsBit (w s.bit.idx 0)) {pos : Nat} (hpos : pos < 32) :
    w s.partialShift.idx pos = Transparent.shifted v 5 (2 ^ i * bit (w s.bit.idx 0)) (w current.idx) pos := by
  have heq := CharTwo.add_eq_zero.1 h.eq
  rcases hb with hb | hb
  · rw [hb, bit_zero, Nat.mul_zero, shifted_zero v _ hpos]
    rw [hb, mul_zero, zero_add, zero_add, mul_one, h.pp, h.cp] at heq
    exact pack_inj hT hp hc heq pos hpos
  · rw [hb, bit_one, Nat.mul_one, ← h.shifted pos hpos]
    rw [hb, mul_one, CharTwo.add_self_eq_zero, mul_zero, add_zero, h.pp, h.sp] at heq
    exact pack_inj hT hp (fun e he => by rw [h.shifted e he]; exact shifted_isBit v hc he) heq pos hpos

theorem loopRow_sound {Tw : Tower F} (hT : 5 ≤ Tw.height) {w : Row F} {v : ShiftVariant} : ∀ (ss : List BarrelStep)
    (i : Nat) (current : Col), LoopRow Tw w v i current ss → i + ss.length ≤ 5 →
    (∀ pos < 32, IsBit (w current.idx pos)) → (∀ s ∈ ss, (∀ pos < 32, IsBit (w s.partialShift.idx pos)) ∧ IsBit (w s.bit.idx 0)) →
    ∀ pos < 32, w (lastShift current ss).idx pos =
      Transparent.shifted v 5 (2 ^ i * num (ss.map fun s => w s.bit.idx 0)) (w current.idx) pos
  | [], i, current, _, _, _, _, pos, hpos => by
    rw [List.map_nil, num, Nat.mul_zero, shifted_zero v _ hpos]; rfl
  | s :: ss, i, current, h, hi, hc, hs, pos, hpos => by
    simp only [List.length_cons] at hi
    obtain ⟨hp, hb⟩ := hs s List.mem_cons_self
    have h1 := fun pos hpos => stepRow_sound hT h.1 hc hp hb (pos := pos) hpos
    have h2 := loopRow_sound hT ss (i + 1) s.partialShift h.2 (by omega) hp
      (fun s' hs' => hs s' (List.mem_cons_of_mem _ hs')) pos hpos
    rw [lastShift, h2]
    have hlt : 2 ^ (i + 1) * num (ss.map fun s => w s.bit.idx 0) + 2 ^ i * bit (w s.bit.idx 0) < 32 := by
      have hn := num_lt (ss.map fun s => w s.bit.idx 0)
      rw [List.length_map] at hn
      have hb' := bit_le (w s.bit.idx 0)
      have e1 : 2 ^ (i + 1) * 2 ^ ss.length ≤ 32 := by
        rw [← pow_add]
        exact (Nat.pow_le_pow_right (by omega) (by omega : i + 1 + ss.length ≤ 5)).trans (by norm_num)
      have e2 : 2 ^ (i + 1) * num (ss.map fun s => w s.bit.idx 0) + 2 ^ (i + 1) ≤ 2 ^ (i + 1) * 2 ^ ss.length := by
        rw [← Nat.mul_succ]; exact Nat.mul_le_mul_left _ hn
      have e3 : 2 ^ i * bit (w s.bit.idx 0) ≤ 2 ^ i := by
        calc 2 ^ i * bit (w s.bit.idx 0) ≤ 2 ^ i * 1 := Nat.mul_le_mul_left _ hb'
          _ = 2 ^ i := Nat.mul_one _
      have e4 : 2 ^ (i + 1) = 2 * 2 ^ i := by rw [pow_succ, mul_comm]
      have := Nat.two_pow_pos i
      omega
    rw [shifted_add v hlt (w current.idx) _ h1 hpos]
    congr 1
    rw [List.map_cons, num, pow_succ]
    ring

/-! ### Completeness -/

omit [CharP F 2] in
theorem setBit_ne {w : Row F} {c : Col} {v : F} {i : Nat} (h : i ≠ c.idx) (pos : Nat) : setBit w c v i pos = w i pos :=
  if_neg fun h' => h h'.1

omit [CharP F 2] in
theorem setBit_eq {w : Row F} {c : Col} {v : F} : setBit w c v c.idx 0 = v := if_pos ⟨rfl, rfl⟩

omit [CharP F 2] in
theorem sub_mono_le (Tw : Tower F) {l m : Nat} (h : l ≤ m) {x : F} (hx : Tw.sub l x) : Tw.sub m x := by
  induction h with
  | refl => exact hx
  | step _ ih => exact Tw.sub_mono _ _ ih

omit [CharP F 2] in
theorem sub_sum (Tw : Tower F) {l : Nat} {n : Nat} {f : Nat → F} (h : ∀ e < n, Tw.sub l (f e)) :
    Tw.sub l (∑ e ∈ range n, f e) := by
  induction n with
  | zero => rw [sum_range_zero]; exact sub_mono_le Tw (Nat.zero_le l) ((Tw.sub_zero 0).2 (Or.inl rfl))
  | succ n ih =>
    rw [sum_range_succ]
    exact Tw.sub_add _ _ _ (ih fun e he => h e (by omega)) (h n (by omega))

omit [CharP F 2] in
theorem packWord_sub {Tw : Tower F} (hT : 5 ≤ Tw.height) (x : Nat) : Tw.sub 5 (packWord Tw.basis x) :=
  sub_sum Tw fun e he => Tw.sub_mul _ _ _ (sub_mono_le Tw (Nat.zero_le 5) (sub_of_isBit (ofBit_isBit _)))
    (Tw.basis_sub 5 hT e he)

omit [CharP F 2] in
theorem packWord_eq (basis : Nat → F) {x : Nat} {f : Nat → F} (hf : ∀ pos < 32, (ofBit (x.testBit pos) : F) = f pos) :
    packWord basis x = ∑ e ∈ range 32, f e * basis e :=
  sum_congr rfl fun e he => by rw [hf e (mem_range.1 he)]

theorem fill_ok {Tw : Tower F} (hT : 5 ≤ Tw.height) (v : ShiftVariant) (amount L : Nat) : ∀ (ss : List BarrelStep) (i x : Nat)
    (current : Col) (w : Row F), i + ss.length ≤ 5 → LoopLayout L i ss → current.idx < L + i → x < 2 ^ 32 →
    (∀ pos < 32, (ofBit (x.testBit pos) : F) = w current.idx pos) →
    (∀ k, (k < L + i ∨ (L + 5 ≤ k ∧ k < L + 5 + i) ∨ (L + 10 ≤ k ∧ k < L + 10 + 4 * i)) → ∀ pos,
      BarrelShifter.fill Tw.basis v amount ss i x w k pos = w k pos) ∧
    (∀ (k : Nat) (s : BarrelStep), ss[k]? = some s →
      BarrelShifter.fill Tw.basis v amount ss i x w s.bit.idx 0 = ofBit (amount.testBit (i + k)) ∧
      ∀ pos < 32, IsBit (BarrelShifter.fill Tw.basis v amount ss i x w s.partialShift.idx pos)) ∧
    LoopRow Tw (BarrelShifter.fill Tw.basis v amount ss i x w) v i current ss
  | [], i, x, current, w, _, _, _, _, _ => ⟨fun _ _ _ => rfl, by simp, trivial⟩
  | s :: ss, i, x, current, w, hi, hl, hcur, hx, hw => by
    simp only [List.length_cons] at hi
    obtain ⟨⟨l1, l2, l3, l4, l5, l6⟩, hl'⟩ := hl
    have h2i : 2 ^ i < 32 := (Nat.pow_lt_pow_right (by omega) (by omega : i < 5)).trans_le (by norm_num)
    set sh := barrelShift v (2 ^ i) x with hsh
    have hshlt : sh < 2 ^ 32 := barrelShift_lt v hx
    set b := decide ((amount >>> i) % 2 = 1) with hb
    have hb' : b = amount.testBit i := by
      rw [hb, Nat.testBit_eq_decide_div_mod_eq, Nat.shiftRight_eq_div_pow]
    set next := if b then sh else x with hnext
    have hnlt : next < 2 ^ 32 := by rw [hnext]; split <;> assumption
    set w1 := setBit (setBit (setBit (setWords (setWords (setBit w s.bit (ofBit b)) s.shifted 1 fun _ => sh) s.partialShift 1
      fun _ => next) s.partialPacked (packWord Tw.basis next)) s.shiftedPacked (packWord Tw.basis sh))
      s.currentPacked (packWord Tw.basis x) with hw1
    have hfill : BarrelShifter.fill Tw.basis v amount (s :: ss) i x w = BarrelShifter.fill Tw.basis v amount ss (i + 1) next w1 := rfl
    have hother : ∀ k, k ≠ L + i → k ≠ L + 5 + i → (k < L + 10 + 4 * i ∨ L + 14 + 4 * i ≤ k) → ∀ pos, w1 k pos = w k pos := by
      intro k k1 k2 k3 pos
      rw [hw1, setBit_ne (by omega), setBit_ne (by omega), setBit_ne (by omega), setWords_ne (by omega),
        setWords_ne (by omega), setBit_ne (by omega)]
    have vp : ∀ pos < 32, w1 s.partialShift.idx pos = ofBit (next.testBit pos) := by
      intro pos hp
      rw [hw1, setBit_ne (by omega), setBit_ne (by omega), setBit_ne (by omega), setWords_eq (by omega),
        show pos % 32 = pos by omega]
    have vs : ∀ pos < 32, w1 s.shifted.idx pos = ofBit (sh.testBit pos) := by
      intro pos hp
      rw [hw1, setBit_ne (by omega), setBit_ne (by omega), setBit_ne (by omega), setWords_ne (by omega),
        setWords_eq (by omega), show pos % 32 = pos by omega]
    have vb : w1 s.bit.idx 0 = ofBit b := by
      rw [hw1, setBit_ne (by omega), setBit_ne (by omega), setBit_ne (by omega), setWords_ne (by omega),
        setWords_ne (by omega), setBit_eq]
    have vpp : w1 s.partialPacked.idx 0 = packWord Tw.basis next := by
      rw [hw1, setBit_ne (by omega), setBit_ne (by omega), setBit_eq]
    have vsp : w1 s.shiftedPacked.idx 0 = packWord Tw.basis sh := by
      rw [hw1, setBit_ne (by omega), setBit_eq]
    have vcp : w1 s.currentPacked.idx 0 = packWord Tw.basis x := by
      rw [hw1, setBit_eq]
    have vc : ∀ pos, w1 current.idx pos = w current.idx pos := fun pos =>
      hother _ (by omega) (by omega) (by omega) pos
    obtain ⟨r1, r2, r3⟩ := fill_ok hT v amount L ss (i + 1) next s.partialShift w1 (by omega) hl' (by omega) hnlt
      (fun pos hp => (vp pos hp).symm)
    rw [hfill]
    have k1 := fun pos => r1 s.partialShift.idx (by omega) pos
    have k2 := fun pos => r1 s.bit.idx (by omega) pos
    have k3 := fun pos => r1 s.shifted.idx (by omega) pos
    have k4 := fun pos => r1 s.partialPacked.idx (by omega) pos
    have k5 := fun pos => r1 s.shiftedPacked.idx (by omega) pos
    have k6 := fun pos => r1 s.currentPacked.idx (by omega) pos
    have k7 := fun pos => r1 current.idx (by omega) pos
    refine ⟨fun k hk pos => ?_, fun k s' hk => ?_, ⟨fun pos hp => ?_, ?_, ?_, ?_, fun pos hp => ?_, ?_, ?_, ?_, ?_⟩, r3⟩
    · rw [r1 k (by omega) pos]
      exact hother k (by omega) (by omega) (by omega) pos
    · cases k with
      | zero =>
        have : s = s' := by simpa using hk
        subst this
        refine ⟨by rw [k2, vb, hb', Nat.add_zero], fun pos hp => ?_⟩
        rw [k1, vp pos hp]
        exact ofBit_isBit _
      | succ k =>
        obtain ⟨g1, g2⟩ := r2 k s' (by simpa using hk)
        exact ⟨by rw [g1]; congr 2; omega, g2⟩
    · rw [k3, vs pos hp]; exact sub_of_isBit (ofBit_isBit _)
    · rw [k4, vpp]; exact packWord_sub hT _
    · rw [k5, vsp]; exact packWord_sub hT _
    · rw [k6, vcp]; exact packWord_sub hT _
    · rw [k3, vs pos hp, hsh, barrelShift_bits v h2i hx hw hp]
      congr 1
      funext pos
      rw [k7, vc]
    · rw [k4, vpp]
      exact packWord_eq _ fun pos hp => by rw [k1, vp pos hp]
    · rw [k5, vsp]
      exact packWord_eq _ fun pos hp => by rw [k3, vs pos hp]
    · rw [k6, vcp]
      exact packWord_eq _ fun pos hp => by rw [k7, vc, hw pos hp]
    · rw [k4, k5, k6, k2, vpp, vsp, vcp, vb, hnext]
      cases b
      · simp [CharTwo.add_self_eq_zero]
      · simp [CharTwo.add_self_eq_zero]

end Verif.M3
