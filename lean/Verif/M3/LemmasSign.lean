import Verif.M3.ModelSign
import Verif.M3.LemmasMul

/-! Lemmas on the gadgets that negate numbers. -/

set_option linter.dupNamespace false
set_option linter.unusedSectionVars false

namespace Verif.M3

open Finset Verif.Arith

variable {F : Type} [Field F] [DecidableEq F] [CharP F 2]

structure TwosRow (w : Row F) (n : Nat) (x iv c z : List Col) (final : Col) : Prop where
  inv : ∀ j < n, val w iv j = val w x j + 1
  incr : IncrRow w n iv c z final

structure TwosLayout (L n : Nat) (g : TwosComplement) : Prop where
  ilen : g.inverted.length = n
  inv : ∀ (k : Nat) (c : Col), g.inverted[k]? = some c → c.idx = L + k
  incr : Layout3 (L + n) n g.innerIncr.cin g.innerIncr.zout g.innerIncr.finalCarryOut

theorem TwosComplement_new_ok (Tw : Tower F) {t : Table F} (ht : WellFormed t) {n : Nat} {x : List Col} (hx : HasAll t x n) :
    ∃ g t', TwosComplement.new t n x = some (g, t') ∧ g.xin = x ∧ g.innerIncr.input = g.inverted ∧
      g.resultBits = g.innerIncr.zout ∧ TwosLayout t.columns.length n g ∧ HasAll t' g.resultBits n ∧
      (∃ t1 : Table F, HasAll t1 g.inverted n ∧ t1.columns.length = t.columns.length + n) ∧
      t'.columns.length = t.columns.length + n + n + n + 1 ∧
      Adds Tw t t' fun w => TwosRow w n x g.inverted g.innerIncr.cin g.innerIncr.zout g.innerIncr.finalCarryOut := by
  obtain ⟨inv, t1, a1, a2, a3⟩ := fromFn_ok Tw (f := (invertedColumn x : Nat → Table F → _)) (level := 0) (lv := 0)
    (fun j z w => IsBit (w z.idx 0) ∧ w z.idx 0 = val w x j + 1) n 0 t ht (by
      intro j _ hj t1 he hw
      obtain ⟨xi, hxi, hxh⟩ := hx.get (j := j) (by omega)
      obtain ⟨c, t2, h1, h2, h3⟩ := addComputed_ok Tw hw 0 (Ev.add (Ev.col (hxh.ext he)) (Ev.const t1 0 1))
      refine ⟨c, t2, by rw [invertedColumn, hxi, Option.bind_some, h1], h2, h3.congr fun w _ => ?_⟩
      rw [forall_lt_one, val_get hxi]
      exact and_congr ⟨isBit_of_inField, inField_of_isBit⟩ Iff.rfl)
  obtain ⟨g, t', b1, b2, b3, b4, b5, b6, b7, b8, b9, b10⟩ := Incr_new_ok Tw (a3.wf ht) a2.hasAll
  refine ⟨⟨inv, g, x, g.zout⟩, t', by rw [TwosComplement.new, a1, Option.bind_some, b1, Option.bind_some], rfl, b2, rfl,
    ⟨a2.length, fun k c hk => (a2.col k c hk).1, ⟨b3, b5.length, ?_, ?_, ?_⟩⟩, b5, ⟨t1, a2.hasAll, a2.len⟩, ?_, ?_⟩
  · intro k d hk; rw [b4 k d hk, a2.len]
  · intro k d hk; rw [b6 k d hk, a2.len]
  · show g.finalCarryOut.idx = _
    rw [b8, a2.len]
  · rw [b9, a2.len]
  · refine (a3.trans b10).congr fun w hw => ⟨fun h => ⟨fun j hj => ?_, h.2⟩, fun h => ⟨fun k c hk => ?_, h.incr⟩⟩
    · obtain ⟨c, hc, -⟩ := a2.hasAll.get hj
      rw [val_get hc, (h.1 j c hc).2, Nat.zero_add]
    · have hkn : k < n := by rw [← a2.length]; exact lt_of_get hk
      have := h.inv k hkn
      rw [val_get hk] at this
      rw [Nat.zero_add, this]
      exact ⟨isBit_add (hx.isBit hw hkn) isBit_one, rfl⟩

/-! ### Negation -/

theorem num_complement : ∀ (n : Nat) (x : Nat → F), (∀ j < n, IsBit (x j)) →
    num ((List.range n).map fun j => x j + 1) + num ((List.range n).map x) + 1 = 2 ^ n
  | 0, x, _ => rfl
  | n + 1, x, hx => by
    have ih := num_complement n (fun j => x (j + 1)) fun j hj => hx (j + 1) (by omega)
    rw [List.range_succ_eq_map, List.map_cons, List.map_cons, num, num, List.map_map, List.map_map]
    have hb : bit (x 0 + 1) + bit (x 0) = 1 := by
      rcases hx 0 (by omega) with h | h <;> rw [h]
      · rw [zero_add, bit_zero, bit_one]
      · rw [show (1 : F) + 1 = 0 from by rw [← two_zero (F := F)]; norm_num, bit_zero, bit_one]
    simp only [Function.comp_def, Nat.succ_eq_add_one]
    rw [pow_succ]
    omega

theorem twos_sound {w : Row F} {n : Nat} {x inv c z : List Col} {final : Col} (h : TwosRow w n x inv c z final) (hn : 0 < n)
    (hx : x.length = n) (hi : inv.length = n) (hz : z.length = n) (hxb : ∀ j < n, IsBit (val w x j)) :
    wide w z = (2 ^ n - wide w x) % 2 ^ n := by
  have hib : ∀ j < n, IsBit (val w inv j) := fun j hj => by
    rw [h.inv j hj]; exact isBit_add (hxb j hj) isBit_one
  have h1 := incr_sound h.incr hn hi hz hib
  have h2 := num_complement n (val w x) hxb
  have h3 : wide w inv = num ((List.range n).map fun j => val w x j + 1) := by
    rw [wide_eq, hi]
    congr 1
    exact List.map_congr_left fun j hj => h.inv j (List.mem_range.1 hj)
  have h4 : wide w x = num ((List.range n).map (val w x)) := by rw [wide_eq, hx]
  have hlt := wide_lt w hz
  rw [← h4, ← h3] at h2
  rw [show 2 ^ n - wide w x = wide w z + 2 ^ n * bit (w final.idx 0) by omega, Nat.add_mul_mod_self_left, Nat.mod_eq_of_lt hlt]

theorem invertBits_val : ∀ {n a : Nat} {is xs : List Col} {w : Row F}, is.length = n → xs.length = n →
    (∀ (k : Nat) (c : Col), is[k]? = some c → c.idx = a + k) → (∀ c ∈ xs, c.idx < a) →
    (∀ j < n, val (invertBits is xs w) is j = val w xs j + 1) ∧
    ∀ i, (i < a ∨ a + n ≤ i) → ∀ pos, invertBits is xs w i pos = w i pos
  | 0, a, is, xs, w, h1, h2, _, _ => by
    obtain rfl := List.length_eq_zero_iff.1 h1
    obtain rfl := List.length_eq_zero_iff.1 h2
    exact ⟨fun j hj => by omega, fun _ _ _ => rfl⟩
  | n + 1, a, i :: is, x :: xs, w, h1, h2, h3, h4 => by
    have hi : i.idx = a := h3 0 i rfl
    obtain ⟨ih1, ih2⟩ := invertBits_val (n := n) (a := a + 1) (is := is) (xs := xs) (w := setBit w i (w x.idx 0 + 1))
      (by simpa using h1) (by simpa using h2) (fun k c hk => by rw [h3 (k + 1) c (by simpa using hk)]; omega)
      (fun c hc => by have := h4 c (List.mem_cons_of_mem _ hc); omega)
    refine ⟨fun j hj => ?_, fun q hq pos => ?_⟩
    · cases j with
      | zero =>
        rw [val_cons_zero, val_cons_zero, invertBits, ih2 _ (by omega), setBit, if_pos ⟨rfl, rfl⟩]
      | succ j =>
        rw [val_cons_succ, val_cons_succ, invertBits, ih1 j (by omega)]
        congr 1
        exact val_setBit_ne fun d hd => by
          have := h4 d (List.mem_cons_of_mem _ (List.mem_of_getElem? hd)); omega
    · rw [invertBits, ih2 q (by omega), setBit, if_neg (by omega)]

theorem twos_complete {L n : Nat} {t : Table F} (hL : t.columns.length = L) {g : TwosComplement} (h : TwosLayout L n g)
    (hx : HasAll t g.xin n) (hin : g.innerIncr.input = g.inverted) {t1 : Table F} (hi1 : HasAll t1 g.inverted n)
    (hl1 : t1.columns.length = L + n) {w : Row F} (hxb : ∀ j < n, IsBit (val w g.xin j)) :
    (∀ i < L, ∀ pos, g.populate w i pos = w i pos) ∧ (∀ i, L + n + n + n + 1 ≤ i → ∀ pos, g.populate w i pos = w i pos) ∧
      TwosRow (g.populate w) n g.xin g.inverted g.innerIncr.cin g.innerIncr.zout g.innerIncr.finalCarryOut := by
  obtain ⟨a1, a2⟩ := invertBits_val (w := w) h.ilen hx.length h.inv fun c hc => by rw [← hL]; exact (hx.mem hc).lt
  set w1 := invertBits g.inverted g.xin w with hw1
  have hxc : ∀ c ∈ g.xin, c.idx < L := fun c hc => by rw [← hL]; exact (hx.mem hc).lt
  have hx1 : ∀ j < n, val w1 g.xin j = val w g.xin j := fun j hj =>
    val_congr' fun c hc => a2 _ (Or.inl (hxc c hc)) 0
  have hp : g.populate w = setBit (Incr.loop w1 g.inverted g.innerIncr.cin g.innerIncr.zout 1 w1).1 g.innerIncr.finalCarryOut
      (Incr.loop w1 g.inverted g.innerIncr.cin g.innerIncr.zout 1 w1).2 := by
    rw [TwosComplement.populate, ← hw1, Incr.populate, hin]
  have hib : ∀ j < n, IsBit (val w1 g.inverted j) := fun j hj => by
    rw [a1 j hj]; exact isBit_add (hxb j hj) isBit_one
  obtain ⟨b1, b2⟩ := incr_complete hl1 h.incr hi1 hib hp
  have hfr : ∀ i < L, ∀ pos, g.populate w i pos = w i pos := fun i hi pos => by
    rw [b1 i (by omega), a2 i (Or.inl hi)]
  refine ⟨hfr, fun i hi pos => ?_, ⟨fun j hj => ?_, b2⟩⟩
  · have hf := h.incr.fidx
    rw [hp, setBit, if_neg (by omega), incr_loop h.ilen h.incr.clen h.incr.zlen]
    have := (writes_val (acc := w1) (u := incrChain (val w1 g.inverted) 1)
      (v := fun j => val w1 g.inverted j + incrChain (val w1 g.inverted) 1 j) h.incr.clen h.incr.zlen h.incr.cidx h.incr.zidx
      (Or.inl le_rfl)).2.2 i (by omega) (by omega) pos
    dsimp only
    rw [this, a2 i (by omega)]
  · rw [hi1.val_congr (w := w1) (fun i hi pos => b1 i (by omega) pos) hj, a1 j hj]
    rw [val_congr' fun c hc => hfr _ (hxc c hc) 0]

/-! ### Choice of the sign -/

structure SignRow (w : Row F) (n : Nat) (x r v : List Col) (b : F) : Prop where
  conv : ∀ j < n, val w v j = val w r j * b + (b + 1) * val w x j
  bits : ∀ j < n, IsBit (val w v j)

theorem SignConverter_new_ok (Tw : Tower F) {t : Table F} (ht : WellFormed t) {n : Nat} {x : List Col} (hx : HasAll t x n)
    {cond : Circuit F} {f : Row F → Nat → F} (hc : Ev t 0 cond f) :
    ∃ g t', SignConverter.new t n x cond = some (g, t') ∧ g.twosComplement.xin = x ∧
      g.twosComplement.innerIncr.input = g.twosComplement.inverted ∧
      g.twosComplement.resultBits = g.twosComplement.innerIncr.zout ∧ TwosLayout t.columns.length n g.twosComplement ∧
      (∃ t1 : Table F, HasAll t1 g.twosComplement.inverted n ∧ t1.columns.length = t.columns.length + n) ∧
      HasAll t' g.convertedBits n ∧
      (∀ (k : Nat) (c : Col), g.convertedBits[k]? = some c → c.idx = t.columns.length + n + n + n + 1 + k) ∧
      t'.columns.length = t.columns.length + n + n + n + 1 + n ∧
      Adds Tw t t' fun w => TwosRow w n x g.twosComplement.inverted g.twosComplement.innerIncr.cin
        g.twosComplement.innerIncr.zout g.twosComplement.innerIncr.finalCarryOut ∧
        SignRow w n x g.twosComplement.resultBits g.convertedBits (f w 0) := by
  obtain ⟨g, t1, a1, a2, a3, a4, a5, a6, a7, a8, a9⟩ := TwosComplement_new_ok Tw ht hx
  obtain ⟨v, t', b1, b2, b3⟩ := fromFn_ok Tw (f := (convertedColumn g.resultBits x cond : Nat → Table F → _)) (level := 0)
    (lv := 0) (fun j z w => IsBit (w z.idx 0) ∧ w z.idx 0 = val w g.resultBits j * f w 0 + (f w 0 + 1) * val w x j) n 0 t1
    (a9.wf ht) (by
      intro j _ hj t2 he hw
      obtain ⟨xi, hxi, hxh⟩ := hx.get (j := j) (by omega)
      obtain ⟨ri, hri, hrh⟩ := a6.get (j := j) (by omega)
      have hc2 := hc.ext (a9.ext.trans he)
      obtain ⟨c, t3, h1, h2, h3⟩ := addComputed_ok Tw hw 0 (Ev.add (Ev.mul (Ev.col (hrh.ext he)) hc2)
        (Ev.mul (Ev.add hc2 (Ev.const t2 0 1)) (Ev.col (hxh.ext (a9.ext.trans he)))))
      refine ⟨c, t3, by rw [convertedColumn, hri, Option.bind_some, hxi, Option.bind_some, h1], h2, h3.congr fun w _ => ?_⟩
      rw [forall_lt_one, val_get hxi, val_get hri]
      exact and_congr ⟨isBit_of_inField, inField_of_isBit⟩ Iff.rfl)
  refine ⟨⟨g, v⟩, t', by rw [SignConverter.new, a1, Option.bind_some, b1, Option.bind_some], a2, a3, a4, a5, a7, b2.hasAll,
    fun k c hk => ?_, ?_, (a9.trans b3).congr fun w hw => and_congr_right fun _ => ⟨fun h => ⟨fun j hj => ?_, fun j hj => ?_⟩,
      fun h k c hk => ?_⟩⟩
  · rw [(b2.col k c hk).1, a8]
  · rw [b2.len, a8]
  · obtain ⟨c, hc, -⟩ := b2.hasAll.get hj
    rw [val_get hc, (h j c hc).2, Nat.zero_add]
  · obtain ⟨c, hc, -⟩ := b2.hasAll.get hj
    rw [val_get hc]; exact (h j c hc).1
  · have hkn : k < n := by rw [← b2.length]; exact lt_of_get hk
    have := h.conv k hkn
    have h' := h.bits k hkn
    rw [val_get hk] at this h'
    rw [Nat.zero_add]
    exact ⟨h', this⟩

theorem sign_sound {w : Row F} {n : Nat} {x r v : List Col} {b : F} (h : SignRow w n x r v b)
    (hx : x.length = n) (hr : r.length = n) (hv : v.length = n) (hb : IsBit b) :
    wide w v = if b = 1 then wide w r else wide w x := by
  rw [wide_eq, wide_eq, wide_eq, hx, hr, hv]
  rcases hb with hb | hb
  · rw [if_neg (by rw [hb]; exact zero_ne_one)]
    congr 1
    exact List.map_congr_left fun j hj => by
      rw [h.conv j (List.mem_range.1 hj), hb]; ring
  · rw [if_pos hb]
    congr 1
    exact List.map_congr_left fun j hj => by
      rw [h.conv j (List.mem_range.1 hj), hb, show (1 : F) + 1 = 0 from by rw [← two_zero (F := F)]; norm_num]; ring

end Verif.M3
