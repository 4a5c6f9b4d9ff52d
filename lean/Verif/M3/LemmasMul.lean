import Verif.M3.ModelMul
import Verif.M3.LemmasWide
import Verif.M3.LemmasBarrel

/-! Lemmas on the multiplier of unsigned numbers. -/

set_option linter.dupNamespace false
set_option linter.unusedSectionVars false

namespace Verif.M3

open Finset Verif.Arith

variable {F : Type} [Field F] [DecidableEq F]

/-! ### Packed bits -/

theorem packFpFrom_ev (basis : Nat → F) {t : Table F} : ∀ (cs : List Col) (i : Nat) (acc : Circuit F) (f : Row F → Nat → F),
    Ev t 0 acc f → (∀ c ∈ cs, t.Has c 0 0) →
    Ev t 0 (packFpFrom basis i acc cs) fun w pos =>
      f w pos + ∑ e ∈ range cs.length, ((cs[e]?.map fun c => w c.idx pos).getD 0) * basis (i + e)
  | [], i, acc, f, h, _ => by
    simpa [packFpFrom] using h
  | c :: cs, i, acc, f, h, hc => by
    have := packFpFrom_ev basis cs (i + 1) _ _ (Ev.add h (Ev.mul (Ev.col (hc c List.mem_cons_self)) (Ev.const t 0 (basis i))))
      fun c' h' => hc c' (List.mem_cons_of_mem _ h')
    rw [packFpFrom]
    convert this using 3 with w pos
    rw [List.length_cons, Finset.sum_range_succ']
    simp only [List.getElem?_cons_succ, List.getElem?_cons_zero, Option.map_some, Option.getD_some, Nat.add_zero]
    have : ∀ e, i + (e + 1) = i + 1 + e := fun e => by omega
    rw [Finset.sum_congr rfl fun e _ => by rw [this e]]
    ring

theorem packFp_ev (basis : Nat → F) {t : Table F} {n : Nat} (hn : 0 < n) {cs : List Col} (hc : HasAll t cs n) :
    ∃ e f, packFp basis cs = some e ∧ Ev t 0 e f ∧ ∀ w, f w 0 = ∑ j ∈ range n, val w cs j * basis j := by
  cases cs with
  | nil => have := hc.length; simp at this; omega
  | cons c cs =>
    have h := packFpFrom_ev basis cs 1 _ _ (Ev.mul (Ev.col (hc.mem List.mem_cons_self)) (Ev.const t 0 (basis 0)))
      fun c' h' => hc.mem (List.mem_cons_of_mem _ h')
    refine ⟨_, _, rfl, h, fun w => ?_⟩
    have hl := hc.length
    rw [← hl, List.length_cons, Finset.sum_range_succ', add_comm]
    congr 1
    refine Finset.sum_congr rfl fun e _ => ?_
    rw [Nat.add_comm 1 e]
    rfl

theorem packColumn_ok [CharP F 2] (Tw : Tower F) {t : Table F} (ht : WellFormed t) (level : Nat) {n : Nat} (hn : 0 < n)
    {cs : List Col} (hc : HasAll t cs n) :
    ∃ c t', packColumn Tw.basis t level cs = some (c, t') ∧ New t t' c level 0 ∧ Adds Tw t t' fun w =>
      Tw.sub level (w c.idx 0) ∧ w c.idx 0 = ∑ j ∈ range n, val w cs j * Tw.basis j := by
  obtain ⟨e, f, h1, h2, h3⟩ := packFp_ev Tw.basis hn hc
  obtain ⟨c, t', a1, a2, a3⟩ := addComputed_ok Tw ht level h2
  refine ⟨c, t', by rw [packColumn, h1, Option.bind_some, a1], a2, a3.congr fun w _ => ?_⟩
  rw [← h3, forall_lt_one, InField, forall_lt_one]

theorem shiftedGenerator_eq (gen : F) (n : Nat) : shiftedGenerator gen n = gen ^ 2 ^ n := by
  induction n with
  | zero => simp [shiftedGenerator]
  | succ n ih => rw [shiftedGenerator, ih, ← pow_add, pow_succ, mul_two]

/-! ### The rows of the gadget -/

structure MulRow (Tw : Tower F) (w : Row F) (level : Nat) (g : Mul) : Prop where
  fx : Tw.sub level (w g.xin.idx 0)
  x : w g.xin.idx 0 = ∑ j ∈ range (2 ^ level), val w g.xInBits j * Tw.basis j
  fy : Tw.sub level (w g.yin.idx 0)
  y : w g.yin.idx 0 = ∑ j ∈ range (2 ^ level), val w g.yInBits j * Tw.basis j
  fgx : Tw.sub (level + 1) (w g.gX.idx 0)
  gx : w g.gX.idx 0 = Tw.gen (level + 1) ^ wide w g.xInBits
  fgxy : Tw.sub (level + 1) (w g.gXY.idx 0)
  gxy : w g.gXY.idx 0 = w g.gX.idx 0 ^ wide w g.yInBits
  hi : ∀ j < 2 ^ level, IsBit (val w g.outHighBits j)
  lo : ∀ j < 2 ^ level, IsBit (val w g.outLowBits j)
  fh : Tw.sub level (w g.outHigh.idx 0)
  h : w g.outHigh.idx 0 = ∑ j ∈ range (2 ^ level), val w g.outHighBits j * Tw.basis j
  fl : Tw.sub level (w g.outLow.idx 0)
  l : w g.outLow.idx 0 = ∑ j ∈ range (2 ^ level), val w g.outLowBits j * Tw.basis j
  fgl : Tw.sub (level + 1) (w g.gLow.idx 0)
  gl : w g.gLow.idx 0 = Tw.gen (level + 1) ^ wide w g.outLowBits
  fgh : Tw.sub (level + 1) (w g.gHigh.idx 0)
  gh : w g.gHigh.idx 0 = (Tw.gen (level + 1) ^ 2 ^ 2 ^ level) ^ wide w g.outHighBits
  parity : val w g.xInBits 0 * val w g.yInBits 0 + val w g.outLowBits 0 = 0
  eq : w g.gXY.idx 0 + w g.gLow.idx 0 * w g.gHigh.idx 0 = 0

/-- Where the columns of the gadget are. -/
structure MulLayout (L n : Nat) (g : Mul) : Prop where
  xin : g.xin.idx = L
  yin : g.yin.idx = L + 1
  gX : g.gX.idx = L + 2
  gXY : g.gXY.idx = L + 3
  hlen : g.outHighBits.length = n
  hi : ∀ (k : Nat) (c : Col), g.outHighBits[k]? = some c → c.idx = L + 4 + k
  llen : g.outLowBits.length = n
  lo : ∀ (k : Nat) (c : Col), g.outLowBits[k]? = some c → c.idx = L + 4 + n + k
  oh : g.outHigh.idx = L + 4 + n + n
  ol : g.outLow.idx = L + 4 + n + n + 1
  gLow : g.gLow.idx = L + 4 + n + n + 2
  gHigh : g.gHigh.idx = L + 4 + n + n + 3

theorem inField_all {Tw : Tower F} {w : Row F} {cs : List Col} {n : Nat} (hl : cs.length = n) :
    (∀ c ∈ cs, InField Tw 0 0 c w) ↔ ∀ j < n, IsBit (val w cs j) := by
  constructor
  · intro h j hj
    have hj' : j < cs.length := by omega
    rw [val_get (List.getElem?_eq_getElem hj')]
    exact isBit_of_inField (h _ (List.getElem_mem hj'))
  · intro h c hc
    obtain ⟨j, hj, rfl⟩ := List.getElem_of_mem hc
    refine inField_of_isBit ?_
    rw [← val_get (w := w) (List.getElem?_eq_getElem hj)]
    exact h j (by omega)

theorem Mul_withInputs_ok [CharP F 2] (Tw : Tower F) {t : Table F} (ht : WellFormed t) {level : Nat} (hlv : level = 5 ∨ level = 6)
    {xs ys : List Col} (hx : HasAll t xs (2 ^ level)) (hy : HasAll t ys (2 ^ level)) :
    ∃ g t', Mul.withInputs Tw.basis (Tw.gen (level + 1)) t level xs ys = some (g, t') ∧ g.xInBits = xs ∧ g.yInBits = ys ∧
      MulLayout t.columns.length (2 ^ level) g ∧ t'.columns.length = t.columns.length + 8 + 2 ^ level + 2 ^ level ∧
      t'.Has g.xin level 0 ∧ t'.Has g.yin level 0 ∧ t'.Has g.outHigh level 0 ∧ t'.Has g.outLow level 0 ∧
      HasAll t' g.outHighBits (2 ^ level) ∧ HasAll t' g.outLowBits (2 ^ level) ∧
      Adds Tw t t' fun w => MulRow Tw w level g := by
  have hn : 0 < 2 ^ level := Nat.two_pow_pos _
  have hn' : 2 ^ level ≤ 2 ^ (level + 1) := Nat.pow_le_pow_right (by omega) (by omega)
  obtain ⟨xin, t1, a1, a2, a3⟩ := packColumn_ok Tw ht level hn hx
  obtain ⟨yin, t2, b1, b2, b3⟩ := packColumn_ok Tw (a3.wf ht) level hn (hy.ext a3.ext)
  have e2 := a3.ext.trans b3.ext
  obtain ⟨gx, t3, c1, c2, c3⟩ := addStaticExp_ok Tw t2 (level := level + 1) (bits := xs) (fun c hc => (hx.mem hc).ext e2)
    (by rw [hx.length]; exact hn') (Tw.gen (level + 1))
  have e3 := e2.trans c3.ext
  obtain ⟨gxy, t4, d1, d2, d3⟩ := addDynamicExp_ok Tw t3 (level := level + 1) (bits := ys) (fun c hc => (hy.mem hc).ext e3)
    (by rw [hy.length]; exact hn') c2.has
  have w4 := d3.wf (c3.wf (b3.wf (a3.wf ht)))
  obtain ⟨hi, t5, f1, f2, f3⟩ := addCommittedMultiple_ok Tw w4 0 0 (2 ^ level)
  obtain ⟨lo, t6, g1, g2, g3⟩ := addCommittedMultiple_ok Tw (f3.wf w4) 0 0 (2 ^ level)
  have w6 := g3.wf (f3.wf w4)
  obtain ⟨oh, t7, h1, h2, h3⟩ := packColumn_ok Tw w6 level hn (f2.hasAll.ext g3.ext)
  obtain ⟨ol, t8, i1, i2, i3⟩ := packColumn_ok Tw (h3.wf w6) level hn (g2.hasAll.ext h3.ext)
  obtain ⟨gl, t9, j1, j2, j3⟩ := addStaticExp_ok Tw t8 (level := level + 1) (bits := lo)
    (fun c hc => (g2.has hc).ext (h3.ext.trans i3.ext)) (by rw [g2.length]; exact hn') (Tw.gen (level + 1))
  obtain ⟨gh, t10, k1, k2, k3⟩ := addStaticExp_ok Tw t9 (level := level + 1) (bits := hi)
    (fun c hc => (f2.has hc).ext (g3.ext.trans (h3.ext.trans (i3.ext.trans j3.ext)))) (by rw [f2.length]; exact hn')
    (shiftedGenerator (Tw.gen (level + 1)) (2 ^ level))
  have e6_10 := h3.ext.trans (i3.ext.trans (j3.ext.trans k3.ext))
  have e4_10 := f3.ext.trans (g3.ext.trans e6_10)
  have e10 := e3.trans (d3.ext.trans e4_10)
  obtain ⟨x0, hx0, hx0'⟩ := hx.get hn
  obtain ⟨y0, hy0, hy0'⟩ := hy.get hn
  obtain ⟨l0, hl0, hl0'⟩ := g2.hasAll.get hn
  obtain ⟨t11, l1, l2, l3⟩ := assertZero_ok Tw (t := t10) (lv := 0)
    (Ev.sub (Ev.mul (Ev.col (hx0'.ext e10)) (Ev.col (hy0'.ext e10))) (Ev.col (hl0'.ext e6_10)))
  obtain ⟨t12, m1, m2, m3⟩ := assertZero_ok Tw (t := t11) (lv := 0)
    (Ev.sub (Ev.col (d2.has.ext (e4_10.trans l3.ext)))
      (Ev.mul (Ev.col (j2.has.ext (k3.ext.trans l3.ext))) (Ev.col (k2.has.ext l3.ext))))
  have e12 := l3.ext.trans m3.ext
  refine ⟨⟨xs, ys, hi, lo, xin, yin, oh, ol, gx, gxy, gl, gh⟩, t12, ?_, rfl, rfl, ?_, ?_, ?_, ?_, ?_, ?_, ?_, ?_,
    (a3.trans (b3.trans (c3.trans (d3.trans (f3.trans (g3.trans (h3.trans (i3.trans (j3.trans (k3.trans
      (l3.trans m3))))))))))).congr fun w _ => ?_⟩
  · simp only [Mul.withInputs, if_pos hlv, a1, b1, c1, d1, f1, g1, h1, i1, j1, k1, hx0, hy0, hl0, l1, m1, Option.bind_some]
  · refine ⟨a2.idx, by rw [b2.idx, a2.len], by rw [c2.idx, b2.len, a2.len], by rw [d2.idx, c2.len, b2.len, a2.len],
      f2.length, fun k c hk => ?_, g2.length, fun k c hk => ?_, ?_, ?_, ?_, ?_⟩
    · rw [(f2.col k c hk).1, d2.len, c2.len, b2.len, a2.len]
    · rw [(g2.col k c hk).1, f2.len, d2.len, c2.len, b2.len, a2.len]
    · show oh.idx = _
      rw [h2.idx, g2.len, f2.len, d2.len, c2.len, b2.len, a2.len]
    · show ol.idx = _
      rw [i2.idx, h2.len, g2.len, f2.len, d2.len, c2.len, b2.len, a2.len]
    · show gl.idx = _
      rw [j2.idx, i2.len, h2.len, g2.len, f2.len, d2.len, c2.len, b2.len, a2.len]
    · show gh.idx = _
      rw [k2.idx, j2.len, i2.len, h2.len, g2.len, f2.len, d2.len, c2.len, b2.len, a2.len]
  · rw [m2, l2, k2.len, j2.len, i2.len, h2.len, g2.len, f2.len, d2.len, c2.len, b2.len, a2.len]; omega
  · exact a2.has.ext (b3.ext.trans (c3.ext.trans (d3.ext.trans (e4_10.trans e12))))
  · exact b2.has.ext (c3.ext.trans (d3.ext.trans (e4_10.trans e12)))
  · exact h2.has.ext (i3.ext.trans (j3.ext.trans (k3.ext.trans e12)))
  · exact i2.has.ext (j3.ext.trans (k3.ext.trans e12))
  · exact f2.hasAll.ext (g3.ext.trans (e6_10.trans e12))
  · exact g2.hasAll.ext (e6_10.trans e12)
  · simp only [InField, forall_lt_one]
    have hfi := inField_all (Tw := Tw) (w := w) f2.length
    have hgi := inField_all (Tw := Tw) (w := w) g2.length
    simp only [InField, forall_lt_one] at hfi hgi
    rw [hfi, hgi, shiftedGenerator_eq]
    constructor
    · rintro ⟨⟨q1, q2⟩, ⟨q3, q4⟩, ⟨q5, q6⟩, ⟨q7, q8⟩, q9, q10, ⟨q11, q12⟩, ⟨q13, q14⟩, ⟨q15, q16⟩, ⟨q17, q18⟩, q19, q20⟩
      exact ⟨q1, q2, q3, q4, q5, q6, q7, q8, q9, q10, q11, q12, q13, q14, q15, q16, q17, q18,
        by dsimp only; rw [val_get hx0, val_get hy0, val_get hl0]; exact q19, q20⟩
    · rintro ⟨q1, q2, q3, q4, q5, q6, q7, q8, q9, q10, q11, q12, q13, q14, q15, q16, q17, q18, q19, q20⟩
      dsimp only at q19
      rw [val_get hx0, val_get hy0, val_get hl0] at q19
      exact ⟨⟨q1, q2⟩, ⟨q3, q4⟩, ⟨q5, q6⟩, ⟨q7, q8⟩, q9, q10, ⟨q11, q12⟩, ⟨q13, q14⟩, ⟨q15, q16⟩, ⟨q17, q18⟩, q19, q20⟩

/-! ### Soundness -/

theorem mul_nowrap {n x y z : Nat} (hn : 0 < n) (hx : x < 2 ^ n) (hy : y < 2 ^ n) (hz : z < 2 ^ (2 * n))
    (h : x * y ≡ z [MOD 2 ^ (2 * n) - 1]) (hpar : x % 2 * (y % 2) = z % 2) : z = x * y := by
  have h2 : 2 ^ (2 * n) = 2 ^ n * 2 ^ n := by rw [two_mul, pow_add]
  have hpos := Nat.two_pow_pos n
  have hle : x * y ≤ (2 ^ n - 1) * (2 ^ n - 1) := Nat.mul_le_mul (by omega) (by omega)
  have hlt : x * y < 2 ^ (2 * n) - 1 := by
    refine hle.trans_lt ?_
    rw [h2]
    obtain ⟨m, hm⟩ : ∃ m, 2 ^ n = m + 2 := ⟨2 ^ n - 2, by
      have : 2 ^ 1 ≤ 2 ^ n := Nat.pow_le_pow_right (by omega) hn
      omega⟩
    rw [hm]
    have e1 : (m + 2 - 1) * (m + 2 - 1) = m * m + 2 * m + 1 := by
      rw [show m + 2 - 1 = m + 1 from rfl]; ring
    have e2 : (m + 2) * (m + 2) = m * m + 4 * m + 4 := by ring
    omega
  rcases Nat.lt_or_ge z (2 ^ (2 * n) - 1) with hz' | hz'
  · exact (Nat.ModEq.eq_of_lt_of_lt h hlt hz').symm
  · have hzN : z = 2 ^ (2 * n) - 1 := by omega
    have hzero : x * y = 0 := by
      have : x * y % (2 ^ (2 * n) - 1) = z % (2 ^ (2 * n) - 1) := h
      rw [hzN, Nat.mod_self, Nat.mod_eq_of_lt hlt] at this
      exact this
    exfalso
    have hodd : z % 2 = 1 := by
      rw [hzN, show 2 * n = (2 * n - 1) + 1 by omega, pow_succ]
      have := Nat.two_pow_pos (2 * n - 1)
      omega
    rw [hodd] at hpar
    rcases Nat.mul_eq_zero.1 hzero with h0 | h0 <;> rw [h0] at hpar <;> simp at hpar

theorem num_mod_two {f : Nat → F} {n : Nat} (hn : 0 < n) : num ((List.range n).map f) % 2 = bit (f 0) := by
  obtain ⟨m, rfl⟩ : ∃ m, n = m + 1 := ⟨n - 1, by omega⟩
  rw [List.range_succ_eq_map, List.map_cons, num]
  have := bit_le (f 0)
  omega

theorem wide_mod_two {w : Row F} {cs : List Col} (hn : 0 < cs.length) : wide w cs % 2 = bit (val w cs 0) := by
  rw [wide_eq, num_mod_two hn]

theorem wide_lt (w : Row F) {cs : List Col} {n : Nat} (hl : cs.length = n) : wide w cs < 2 ^ n := by
  rw [wide_eq, hl]; exact num_range_lt _ _

theorem modEq_of_pow_eq {g : F} {N : Nat} (hN : orderOf g = N) (hpos : 0 < N) {a b : Nat} (h : g ^ a = g ^ b) :
    a ≡ b [MOD N] := by
  have hg : g ≠ 0 := by
    rintro rfl
    have := pow_orderOf_eq_one (0 : F)
    rw [hN, zero_pow (by omega)] at this
    exact zero_ne_one this
  have := (pow_eq_pow_iff_modEq (x := Units.mk0 g hg)).1 (Units.ext (by simpa using h))
  rwa [← orderOf_units, Units.val_mk0, hN] at this

theorem mulRow_sound [CharP F 2] {Tw : Tower F} {w : Row F} {level : Nat} {g : Mul} (hT : level + 1 ≤ Tw.height)
    (h : MulRow Tw w level g) (hxl : g.xInBits.length = 2 ^ level) (hyl : g.yInBits.length = 2 ^ level)
    (hll : g.outLowBits.length = 2 ^ level) (hhl : g.outHighBits.length = 2 ^ level)
    (hx : ∀ j < 2 ^ level, IsBit (val w g.xInBits j)) (hy : ∀ j < 2 ^ level, IsBit (val w g.yInBits j)) :
    wide w g.outLowBits + 2 ^ 2 ^ level * wide w g.outHighBits = wide w g.xInBits * wide w g.yInBits := by
  have hn : 0 < 2 ^ level := Nat.two_pow_pos _
  have hlo := wide_lt w hll
  have hhi := wide_lt w hhl
  have heq := CharTwo.add_eq_zero.1 h.eq
  rw [h.gxy, h.gx, h.gl, h.gh, ← pow_mul, ← pow_mul, ← pow_add] at heq
  have hmod := modEq_of_pow_eq (Tw.gen_order _ hT) (by
    have : 2 ^ 1 ≤ 2 ^ 2 ^ (level + 1) := Nat.pow_le_pow_right (by omega) (Nat.two_pow_pos _)
    omega) heq
  have hbits : ∀ a b c : F, IsBit a → IsBit b → a * b + c = 0 → bit a * bit b = bit c := by
    intro a b c ha hb hc
    have := CharTwo.add_eq_zero.1 hc
    subst this
    rcases ha with rfl | rfl <;> rcases hb with rfl | rfl <;> simp
  refine mul_nowrap hn (wide_lt w hxl) (wide_lt w hyl) ?_ ?_ ?_
  · have : 2 ^ (2 * 2 ^ level) = 2 ^ 2 ^ level * 2 ^ 2 ^ level := by rw [two_mul, pow_add]
    rw [this]
    calc wide w g.outLowBits + 2 ^ 2 ^ level * wide w g.outHighBits
        < 2 ^ 2 ^ level + 2 ^ 2 ^ level * wide w g.outHighBits := by omega
      _ = 2 ^ 2 ^ level * (wide w g.outHighBits + 1) := by ring
      _ ≤ 2 ^ 2 ^ level * 2 ^ 2 ^ level := Nat.mul_le_mul_left _ hhi
  · rw [show 2 * 2 ^ level = 2 ^ (level + 1) by rw [pow_succ, mul_comm]]; exact hmod
  · have hev : 2 ^ 2 ^ level * wide w g.outHighBits % 2 = 0 := by
      obtain ⟨m, hm⟩ : ∃ m, 2 ^ level = m + 1 := ⟨2 ^ level - 1, by omega⟩
      rw [hm, pow_succ, mul_comm (2 ^ m) 2, mul_assoc]
      exact Nat.mul_mod_right _ _
    rw [wide_mod_two (by omega), wide_mod_two (by omega), Nat.add_mod, hev, Nat.add_zero, Nat.mod_mod,
      wide_mod_two (by omega)]
    exact hbits _ _ _ (hx 0 hn) (hy 0 hn) h.parity

/-- Packed bits are the element of their number. -/
theorem pack_element {w : Row F} {cs : List Col} {n : Nat} (hl : cs.length = n) (hb : ∀ j < n, IsBit (val w cs j))
    (basis : Nat → F) : ∑ j ∈ range n, val w cs j * basis j = element basis n (wide w cs) := by
  refine Finset.sum_congr rfl fun j hj => ?_
  have := ofBit_testBit hb (mem_range.1 hj)
  rw [wide_eq, hl]
  congr 1
  exact this.symm

/-! ### Completeness -/

theorem setBits_ne : ∀ {cs : List Col} {u : Nat → F} {acc : Row F} {i : Nat}, (∀ c ∈ cs, i ≠ c.idx) → ∀ pos,
    setBits cs u acc i pos = acc i pos
  | [], _, _, _, _, _ => rfl
  | c :: cs, u, acc, i, h, pos => by
    rw [setBits, setBits_ne fun c' hc => h c' (List.mem_cons_of_mem _ hc), setBit_ne (h c List.mem_cons_self)]

theorem setBits_val : ∀ {cs : List Col} {u : Nat → F} {acc : Row F}, (cs.map Col.idx).Nodup → ∀ j < cs.length,
    val (setBits cs u acc) cs j = u j
  | [], _, _, _, j, hj => by simp at hj
  | c :: cs, u, acc, h, j, hj => by
    rw [List.map_cons, List.nodup_cons] at h
    rw [setBits]
    cases j with
    | zero =>
      rw [val_cons_zero, setBits_ne, setBit_eq]
      intro c' hc' he
      exact h.1 (he ▸ List.mem_map_of_mem hc')
    | succ j => rw [val_cons_succ, setBits_val h.2 j (by simpa using hj)]

theorem element_sub {Tw : Tower F} {level : Nat} (hT : level ≤ Tw.height) (v : Nat) : Tw.sub level (element Tw.basis (2 ^ level) v) :=
  sub_sum Tw fun e he => Tw.sub_mul _ _ _ (sub_mono_le Tw (Nat.zero_le level) ((Tw.sub_zero _).2 (by split <;> simp)))
    (Tw.basis_sub level hT e he)

theorem sub_pow (Tw : Tower F) {l : Nat} {x : F} (h : Tw.sub l x) (n : Nat) : Tw.sub l (x ^ n) := by
  induction n with
  | zero => rw [pow_zero]; exact sub_mono_le Tw (Nat.zero_le l) ((Tw.sub_zero 1).2 (Or.inr rfl))
  | succ n ih => rw [pow_succ]; exact Tw.sub_mul _ _ _ ih h

/-- The number in columns that hold its bits. -/
theorem wide_of_bits {w : Row F} {cs : List Col} {n v : Nat} (hl : cs.length = n) (hv : v < 2 ^ n)
    (h : ∀ j < n, val w cs j = ofBit (v.testBit j)) : wide w cs = v := by
  rw [wide_eq, hl]
  exact (eq_num hv (fun j hj => by rw [h j hj]; exact ofBit_isBit _) fun j hj => (h j hj).symm).symm

theorem map_idx_range {cs : List Col} {n a : Nat} (hl : cs.length = n) (h : ∀ (k : Nat) (c : Col), cs[k]? = some c → c.idx = a + k) :
    cs.map Col.idx = List.range' a n := by
  refine List.ext_getElem? fun k => ?_
  rw [List.getElem?_map]
  by_cases hk : k < n
  · have hk' : k < cs.length := by omega
    rw [List.getElem?_eq_getElem hk', List.getElem?_range' (by omega)]
    show some _ = some _
    rw [h k _ (List.getElem?_eq_getElem hk')]
    congr 1; omega
  · rw [List.getElem?_eq_none (by omega), List.getElem?_eq_none (by simpa using hk)]; rfl

theorem idx_range {cs : List Col} {n a : Nat} (hl : cs.length = n) (h : ∀ (k : Nat) (c : Col), cs[k]? = some c → c.idx = a + k)
    {c : Col} (hc : c ∈ cs) : a ≤ c.idx ∧ c.idx < a + n := by
  obtain ⟨k, hk, rfl⟩ := List.getElem_of_mem hc
  have := h k _ (List.getElem?_eq_getElem hk)
  omega

theorem nodup_range {cs : List Col} {n a : Nat} (hl : cs.length = n) (h : ∀ (k : Nat) (c : Col), cs[k]? = some c → c.idx = a + k) :
    (cs.map Col.idx).Nodup := by
  rw [map_idx_range hl h]
  exact List.nodup_range'

/-- The columns are distinct if those of the inputs are. -/
theorem mul_nodup {L n : Nat} {g : Mul} (h : MulLayout L n g) (hx : ∀ c ∈ g.xInBits, c.idx < L) (hy : ∀ c ∈ g.yInBits, c.idx < L) :
    ((g.xInBits ++ g.yInBits ++ g.outLowBits ++ g.outHighBits ++ [g.xin, g.yin, g.outLow, g.outHigh]).map Col.idx).Nodup ↔
      ((g.xInBits ++ g.yInBits).map Col.idx).Nodup := by
  rw [List.append_assoc, List.append_assoc, List.map_append, List.nodup_append]
  constructor
  · exact fun h => h.1
  · intro hxy
    refine ⟨hxy, ?_, ?_⟩
    · rw [List.map_append, List.map_append, map_idx_range h.llen h.lo, map_idx_range h.hlen h.hi]
      simp only [List.map_cons, List.map_nil, h.xin, h.yin, h.ol, h.oh]
      rw [List.nodup_append]
      refine ⟨List.nodup_range', ?_, ?_⟩
      · rw [List.nodup_append]
        refine ⟨List.nodup_range', ?_, ?_⟩
        · simp only [List.nodup_cons, List.mem_cons, List.not_mem_nil, or_false, not_or]
          refine ⟨⟨?_, ?_, ?_⟩, ⟨?_, ?_⟩, ?_, ?_, List.nodup_nil⟩ <;> first | omega | exact fun h => h
        · intro a ha b hb
          simp only [List.mem_range'_1, List.mem_cons, List.not_mem_nil, or_false] at ha hb
          omega
      · intro a ha b hb
        simp only [List.mem_range'_1, List.mem_append, List.mem_cons, List.not_mem_nil, or_false] at ha hb
        omega
    · intro a ha b hb
      obtain ⟨c, hc, rfl⟩ := List.mem_map.1 ha
      obtain ⟨d, hd, rfl⟩ := List.mem_map.1 hb
      have hcL : c.idx < L := by
        rcases List.mem_append.1 hc with hc | hc
        · exact hx c hc
        · exact hy c hc
      have hdL : L ≤ d.idx := by
        rcases List.mem_append.1 hd with hd | hd
        · have := idx_range h.llen h.lo hd; omega
        · rcases List.mem_append.1 hd with hd | hd
          · have := idx_range h.hlen h.hi hd; omega
          · have h1 := h.xin
            have h2 := h.yin
            have h3 := h.ol
            have h4 := h.oh
            simp only [List.mem_cons, List.not_mem_nil, or_false] at hd
            rcases hd with rfl | rfl | rfl | rfl <;> omega
      omega

/-- What `populate_internal` writes. -/
theorem mul_populate_vals {L level : Nat} {g : Mul} (h : MulLayout L (2 ^ level) g) (hx : ∀ c ∈ g.xInBits, c.idx < L)
    (hy : ∀ c ∈ g.yInBits, c.idx < L) (basis : Nat → F) (fill : Bool) (x y : Nat) (w : Row F)
    (hd : ((g.xInBits ++ g.yInBits).map Col.idx).Nodup) :
    ∃ w', g.populateInternal basis level fill x y w = some w' ∧
      (∀ i, (i < L ∨ L + 8 + 2 ^ level + 2 ^ level ≤ i) → (fill = true → ∀ c ∈ g.xInBits ++ g.yInBits, i ≠ c.idx) →
        ∀ pos, w' i pos = w i pos) ∧
      (fill = true → (∀ j < g.xInBits.length, val w' g.xInBits j = ofBit (x.testBit j)) ∧
        ∀ j < g.yInBits.length, val w' g.yInBits j = ofBit (y.testBit j)) ∧
      (∀ j < 2 ^ level, val w' g.outLowBits j = ofBit ((x * y % 2 ^ 2 ^ level).testBit j)) ∧
      (∀ j < 2 ^ level, val w' g.outHighBits j = ofBit ((x * y / 2 ^ 2 ^ level).testBit j)) ∧
      w' g.xin.idx 0 = element basis (2 ^ level) x ∧ w' g.yin.idx 0 = element basis (2 ^ level) y ∧
      w' g.outLow.idx 0 = element basis (2 ^ level) (x * y % 2 ^ 2 ^ level) ∧
      w' g.outHigh.idx 0 = element basis (2 ^ level) (x * y / 2 ^ 2 ^ level) := by
  have hn := Nat.two_pow_pos level
  have h1 := h.xin
  have h2 := h.yin
  have h3 := h.ol
  have h4 := h.oh
  have hlo : ∀ c ∈ g.outLowBits, L + 4 + 2 ^ level ≤ c.idx ∧ c.idx < L + 4 + 2 ^ level + 2 ^ level := fun c hc => idx_range h.llen h.lo hc
  have hhi : ∀ c ∈ g.outHighBits, L + 4 ≤ c.idx ∧ c.idx < L + 4 + 2 ^ level := fun c hc => idx_range h.hlen h.hi hc
  rw [Mul.populateInternal, if_pos ((mul_nodup h hx hy).2 hd)]
  dsimp only
  set w1 := setBit (setBit (setBit (setBit w g.xin (element basis (2 ^ level) x)) g.yin (element basis (2 ^ level) y)) g.outLow
    (element basis (2 ^ level) (x * y % 2 ^ 2 ^ level))) g.outHigh (element basis (2 ^ level) (x * y / 2 ^ 2 ^ level)) with hw1
  set w2 := (if fill = true then
    setBits g.yInBits (fun j => ofBit (y.testBit j)) (setBits g.xInBits (fun j => ofBit (x.testBit j)) w1) else w1) with hw2
  have hw2_ne : ∀ i, (fill = true → ∀ c ∈ g.xInBits ++ g.yInBits, i ≠ c.idx) → ∀ pos, w2 i pos = w1 i pos := by
    intro i hi pos
    rw [hw2]
    split
    · next hf =>
      rw [setBits_ne fun c hc => hi hf c (List.mem_append_right _ hc), setBits_ne fun c hc => hi hf c (List.mem_append_left _ hc)]
    · rfl
  have hLge : ∀ i, L ≤ i → fill = true → ∀ c ∈ g.xInBits ++ g.yInBits, i ≠ c.idx := by
    intro i hi _ c hc
    have : c.idx < L := by
      rcases List.mem_append.1 hc with hc | hc
      · exact hx c hc
      · exact hy c hc
    omega
  have hd' := hd
  rw [List.map_append, List.nodup_append] at hd'
  obtain ⟨hdx, hdy, hdxy⟩ := hd'
  have hw3 : ∀ i, (i < L + 4 ∨ L + 4 + 2 ^ level + 2 ^ level ≤ i) → ∀ pos,
      setBits g.outHighBits (fun j => ofBit ((x * y / 2 ^ 2 ^ level).testBit j))
        (setBits g.outLowBits (fun j => ofBit ((x * y % 2 ^ 2 ^ level).testBit j)) w2) i pos = w2 i pos := by
    intro i hi pos
    rw [setBits_ne fun c hc => ?_, setBits_ne fun c hc => ?_]
    · have := hlo c hc; omega
    · have := hhi c hc; omega
  have val_congr : ∀ {u u' : Row F} {cs : List Col} {j : Nat}, (∀ c ∈ cs, ∀ pos, u c.idx pos = u' c.idx pos) → val u cs j = val u' cs j := by
    intro u u' cs j hc
    rw [val, val]
    cases hj : cs[j]? with
    | none => rfl
    | some c => simp only [Option.map_some, Option.getD_some]; exact hc c (List.mem_of_getElem? hj) 0
  refine ⟨_, rfl, fun i hi hi' pos => ?_, fun hf => ⟨fun j hj => ?_, fun j hj => ?_⟩, fun j hj => ?_, fun j hj => ?_, ?_, ?_, ?_, ?_⟩
  · rw [hw3 i (by omega), hw2_ne i hi', hw1, setBit_ne (by omega), setBit_ne (by omega), setBit_ne (by omega), setBit_ne (by omega)]
  · rw [val_congr fun c hc pos => hw3 c.idx (by have := hx c hc; omega) pos, hw2, if_pos hf,
      val_congr fun c hc pos => setBits_ne (fun d hd he => ?_) pos, setBits_val hdx j hj]
    exact hdxy _ (List.mem_map_of_mem hc) _ (List.mem_map_of_mem hd) he
  · rw [val_congr fun c hc pos => hw3 c.idx (by have := hy c hc; omega) pos, hw2, if_pos hf, setBits_val hdy j hj]
  · rw [val_congr fun c hc pos => setBits_ne (fun d hd => ?_) pos, setBits_val (nodup_range h.llen h.lo) j (by rw [h.llen]; exact hj)]
    have := hlo c hc
    have := hhi d hd
    omega
  · rw [setBits_val (nodup_range h.hlen h.hi) j (by rw [h.hlen]; exact hj)]
  · rw [hw3 _ (by omega), hw2_ne _ (hLge _ (by omega)), hw1, setBit_ne (by omega), setBit_ne (by omega), setBit_ne (by omega), setBit_eq]
  · rw [hw3 _ (by omega), hw2_ne _ (hLge _ (by omega)), hw1, setBit_ne (by omega), setBit_ne (by omega), setBit_eq]
  · rw [hw3 _ (by omega), hw2_ne _ (hLge _ (by omega)), hw1, setBit_ne (by omega), setBit_eq]
  · rw [hw3 _ (by omega), hw2_ne _ (hLge _ (by omega)), hw1, setBit_eq]

/-- The prover changes only the columns of the powers. -/
theorem fillExponents_ne {L n level : Nat} {g : Mul} (h : MulLayout L n g) (gen : F) (w : Row F) {i : Nat}
    (hi : i ≠ L + 2 ∧ i ≠ L + 3 ∧ i ≠ L + 4 + n + n + 2 ∧ i ≠ L + 4 + n + n + 3) (pos : Nat) :
    g.fillExponents gen level w i pos = w i pos := by
  have h1 := h.gX
  have h2 := h.gXY
  have h3 := h.gLow
  have h4 := h.gHigh
  rw [Mul.fillExponents]
  rw [setBit_ne (by omega), setBit_ne (by omega), setBit_ne (by omega), setBit_ne (by omega)]

theorem val_congr' {u u' : Row F} {cs : List Col} {j : Nat} (h : ∀ c ∈ cs, u c.idx 0 = u' c.idx 0) : val u cs j = val u' cs j := by
  rw [val, val]
  cases hj : cs[j]? with
  | none => rfl
  | some c => simp only [Option.map_some, Option.getD_some]; exact h c (List.mem_of_getElem? hj)

theorem wide_congr' {u u' : Row F} {cs : List Col} (h : ∀ c ∈ cs, u c.idx 0 = u' c.idx 0) : wide u cs = wide u' cs := by
  rw [wide, wide, List.map_congr_left h]

/-- The rows with the values that are written satisfy the constraints. -/
theorem mulRow_of_vals [CharP F 2] {Tw : Tower F} {L level : Nat} (hT : level + 1 ≤ Tw.height) {g : Mul} (h : MulLayout L (2 ^ level) g)
    (hx : ∀ c ∈ g.xInBits, c.idx < L) (hy : ∀ c ∈ g.yInBits, c.idx < L) (hxl : g.xInBits.length = 2 ^ level)
    (hyl : g.yInBits.length = 2 ^ level) {x y : Nat} (hxn : x < 2 ^ 2 ^ level) (hyn : y < 2 ^ 2 ^ level) {w : Row F}
    (vx : ∀ j < 2 ^ level, val w g.xInBits j = ofBit (x.testBit j))
    (vy : ∀ j < 2 ^ level, val w g.yInBits j = ofBit (y.testBit j))
    (vl : ∀ j < 2 ^ level, val w g.outLowBits j = ofBit ((x * y % 2 ^ 2 ^ level).testBit j))
    (vh : ∀ j < 2 ^ level, val w g.outHighBits j = ofBit ((x * y / 2 ^ 2 ^ level).testBit j))
    (ex : w g.xin.idx 0 = element Tw.basis (2 ^ level) x) (ey : w g.yin.idx 0 = element Tw.basis (2 ^ level) y)
    (el : w g.outLow.idx 0 = element Tw.basis (2 ^ level) (x * y % 2 ^ 2 ^ level))
    (eh : w g.outHigh.idx 0 = element Tw.basis (2 ^ level) (x * y / 2 ^ 2 ^ level)) :
    MulRow Tw (g.fillExponents (Tw.gen (level + 1)) level w) level g := by
  have hn := Nat.two_pow_pos level
  have h1 := h.xin
  have h2 := h.yin
  have h3 := h.ol
  have h4 := h.oh
  have h5 := h.gX
  have h6 := h.gXY
  have h7 := h.gLow
  have h8 := h.gHigh
  have hlo : ∀ c ∈ g.outLowBits, L + 4 + 2 ^ level ≤ c.idx ∧ c.idx < L + 4 + 2 ^ level + 2 ^ level := fun c hc => idx_range h.llen h.lo hc
  have hhi : ∀ c ∈ g.outHighBits, L + 4 ≤ c.idx ∧ c.idx < L + 4 + 2 ^ level := fun c hc => idx_range h.hlen h.hi hc
  have hhv : x * y / 2 ^ 2 ^ level < 2 ^ 2 ^ level := by
    rw [Nat.div_lt_iff_lt_mul (Nat.two_pow_pos _)]
    exact Nat.mul_lt_mul'' hxn hyn
  have hlv : x * y % 2 ^ 2 ^ level < 2 ^ 2 ^ level := Nat.mod_lt _ (Nat.two_pow_pos _)
  set gen := Tw.gen (level + 1) with hgen
  set w' := g.fillExponents gen level w with hw'
  have ne : ∀ {i : Nat}, (i ≠ L + 2 ∧ i ≠ L + 3 ∧ i ≠ L + 4 + 2 ^ level + 2 ^ level + 2 ∧ i ≠ L + 4 + 2 ^ level + 2 ^ level + 3) →
    ∀ pos, w' i pos = w i pos := fun hi pos => fillExponents_ne (level := level) h gen w hi pos
  have nx : ∀ c ∈ g.xInBits, w' c.idx 0 = w c.idx 0 := fun c hc => ne (by have := hx c hc; omega) 0
  have ny : ∀ c ∈ g.yInBits, w' c.idx 0 = w c.idx 0 := fun c hc => ne (by have := hy c hc; omega) 0
  have nl : ∀ c ∈ g.outLowBits, w' c.idx 0 = w c.idx 0 := fun c hc => ne (by have := hlo c hc; omega) 0
  have nh : ∀ c ∈ g.outHighBits, w' c.idx 0 = w c.idx 0 := fun c hc => ne (by have := hhi c hc; omega) 0
  have vx' : ∀ j < 2 ^ level, val w' g.xInBits j = ofBit (x.testBit j) := fun j hj => by rw [val_congr' nx, vx j hj]
  have vy' : ∀ j < 2 ^ level, val w' g.yInBits j = ofBit (y.testBit j) := fun j hj => by rw [val_congr' ny, vy j hj]
  have vl' : ∀ j < 2 ^ level, val w' g.outLowBits j = ofBit ((x * y % 2 ^ 2 ^ level).testBit j) := fun j hj => by
    rw [val_congr' nl, vl j hj]
  have vh' : ∀ j < 2 ^ level, val w' g.outHighBits j = ofBit ((x * y / 2 ^ 2 ^ level).testBit j) := fun j hj => by
    rw [val_congr' nh, vh j hj]
  have wx := wide_of_bits hxl hxn vx'
  have wy := wide_of_bits hyl hyn vy'
  have wl := wide_of_bits h.llen hlv vl'
  have wh := wide_of_bits h.hlen hhv vh'
  have bits : ∀ {cs : List Col} {v : Nat}, (∀ j < 2 ^ level, val w' cs j = ofBit (v.testBit j)) → ∀ j < 2 ^ level, IsBit (val w' cs j) :=
    fun hv j hj => by rw [hv j hj]; exact ofBit_isBit _
  have gx : w' g.gX.idx 0 = gen ^ x := by
    rw [hw', Mul.fillExponents]
    rw [setBit_ne (by omega), setBit_ne (by omega), setBit_ne (by omega), setBit_eq]
    congr 1
    rw [← wx]
    exact wide_congr' fun c hc => (nx c hc).symm
  have gxy : w' g.gXY.idx 0 = (gen ^ x) ^ y := by
    rw [hw', Mul.fillExponents]
    rw [setBit_ne (by omega), setBit_ne (by omega), setBit_eq, setBit_eq]
    refine congrArg₂ (· ^ ·) (congrArg _ ?_) ?_
    · rw [← wx]
      exact wide_congr' fun c hc => (nx c hc).symm
    · rw [← wy]
      exact wide_congr' fun c hc => by rw [setBit_ne (by have := hy c hc; omega), ny c hc]
  have gl : w' g.gLow.idx 0 = gen ^ (x * y % 2 ^ 2 ^ level) := by
    rw [hw', Mul.fillExponents]
    rw [setBit_ne (by omega), setBit_eq]
    congr 1
    rw [← wl]
    exact wide_congr' fun c hc => by
      rw [setBit_ne (by have := hlo c hc; omega), setBit_ne (by have := hlo c hc; omega), nl c hc]
  have gh : w' g.gHigh.idx 0 = (gen ^ 2 ^ 2 ^ level) ^ (x * y / 2 ^ 2 ^ level) := by
    rw [hw', Mul.fillExponents]
    rw [setBit_eq, shiftedGenerator_eq]
    congr 1
    rw [← wh]
    exact wide_congr' fun c hc => by
      rw [setBit_ne (by have := hhi c hc; omega), setBit_ne (by have := hhi c hc; omega),
        setBit_ne (by have := hhi c hc; omega), nh c hc]
  have fgen : Tw.sub (level + 1) gen := Tw.gen_sub _ hT
  refine ⟨?_, ?_, ?_, ?_, ?_, ?_, ?_, ?_, bits vh', bits vl', ?_, ?_, ?_, ?_, ?_, ?_, ?_, ?_, ?_, ?_⟩
  · rw [ne (by omega), ex]; exact element_sub (by omega) _
  · rw [ne (by omega), ex, pack_element hxl (bits vx'), wx]
  · rw [ne (by omega), ey]; exact element_sub (by omega) _
  · rw [ne (by omega), ey, pack_element hyl (bits vy'), wy]
  · rw [gx]; exact sub_pow Tw fgen _
  · rw [gx, wx]
  · rw [gxy]; exact sub_pow Tw (sub_pow Tw fgen _) _
  · rw [gxy, gx, wy]
  · rw [ne (by omega), eh]; exact element_sub (by omega) _
  · rw [ne (by omega), eh, pack_element h.hlen (bits vh'), wh]
  · rw [ne (by omega), el]; exact element_sub (by omega) _
  · rw [ne (by omega), el, pack_element h.llen (bits vl'), wl]
  · rw [gl]; exact sub_pow Tw fgen _
  · rw [gl, wl]
  · rw [gh]; exact sub_pow Tw (sub_pow Tw fgen _) _
  · rw [gh, wh]
  · rw [vx' 0 hn, vy' 0 hn, vl' 0 hn, Nat.testBit_zero, Nat.testBit_zero, Nat.testBit_zero]
    have hpar : x * y % 2 ^ 2 ^ level % 2 = x % 2 * (y % 2) % 2 := by
      rw [Nat.mod_mod_of_dvd _ (dvd_pow_self 2 (by omega)), Nat.mul_mod]
    rw [hpar]
    rcases Nat.mod_two_eq_zero_or_one x with hx2 | hx2 <;> rcases Nat.mod_two_eq_zero_or_one y with hy2 | hy2 <;>
      rw [hx2, hy2] <;> simp [CharTwo.add_self_eq_zero]
  · rw [gxy, gl, gh, ← pow_mul, ← pow_mul, ← pow_add, Nat.mod_add_div, CharTwo.add_self_eq_zero]

theorem element_inj {Tw : Tower F} [CharP F 2] {level : Nat} (hT : level ≤ Tw.height) {x y : Nat} (hx : x < 2 ^ 2 ^ level)
    (hy : y < 2 ^ 2 ^ level) (h : element Tw.basis (2 ^ level) x = element Tw.basis (2 ^ level) y) : x = y := by
  have hle : 2 ^ level ≤ 2 ^ Tw.height := Nat.pow_le_pow_right (by omega) hT
  have hb : ∀ v e, IsBit (if (Nat.testBit v e) = true then (1 : F) else 0) := by
    intro v e; split
    · exact Or.inr rfl
    · exact Or.inl rfl
  have := Tw.indep (fun e => if e < 2 ^ level then (if x.testBit e then (1 : F) else 0) + (if y.testBit e then 1 else 0) else 0)
    (fun e => by
      split
      · exact isBit_add (hb _ _) (hb _ _)
      · exact Or.inl rfl) (by
    rw [← Finset.sum_subset (s₁ := range (2 ^ level)) (Finset.range_mono hle)]
    · rw [Finset.sum_congr rfl fun e he => by rw [if_pos (mem_range.1 he), add_mul], sum_add_distrib]
      rw [element, element] at h
      rw [h]
      exact CharTwo.add_self_eq_zero _
    · intro e _ he
      rw [if_neg (by rwa [mem_range] at he), zero_mul])
  refine Nat.eq_of_testBit_eq fun j => ?_
  by_cases hj : j < 2 ^ level
  · have h1 := this j (by omega)
    rw [if_pos hj] at h1
    cases hxj : x.testBit j <;> cases hyj : y.testBit j <;> rw [hxj, hyj] at h1 <;> simp at h1 <;> rfl
  · rw [Nat.testBit_lt_two_pow (hx.trans_le (Nat.pow_le_pow_right (by omega) (by omega))),
      Nat.testBit_lt_two_pow (hy.trans_le (Nat.pow_le_pow_right (by omega) (by omega)))]

end Verif.M3
