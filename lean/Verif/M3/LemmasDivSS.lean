import Verif.M3.LemmasDivUU

/-! Lemmas on the gadget that divides signed numbers. -/

set_option linter.dupNamespace false
set_option linter.unusedSectionVars false

namespace Verif.M3

open Finset Verif.Arith

variable {F : Type} [Field F] [DecidableEq F] [CharP F 2]

/-! ### Rows that agree -/

theorem setBit_agree {B : Nat} {u w : Row F} (h : ∀ i < B, ∀ pos, u i pos = w i pos) (c : Col) {a b : F} (hab : a = b) :
    ∀ i < B, ∀ pos, setBit u c a i pos = setBit w c b i pos := by
  intro i hi pos
  unfold setBit
  rw [hab, h i hi pos]

theorem num_agree {B : Nat} {u w : Row F} (h : ∀ i < B, ∀ pos, u i pos = w i pos) {cs : List Col} (hc : ∀ c ∈ cs, c.idx < B) :
    num (cs.map fun c => u c.idx 0) = num (cs.map fun c => w c.idx 0) := by
  congr 1
  exact List.map_congr_left fun c hm => h _ (hc c hm) 0

theorem fillExponents_agree {B : Nat} {g : Mul} {u w : Row F} (h : ∀ i < B, ∀ pos, u i pos = w i pos) (gen : F) (level : Nat)
    (hx : ∀ c ∈ g.xInBits, c.idx < B) (hy : ∀ c ∈ g.yInBits, c.idx < B) (hl : ∀ c ∈ g.outLowBits, c.idx < B)
    (hh : ∀ c ∈ g.outHighBits, c.idx < B) (hg : g.gX.idx < B) :
    ∀ i < B, ∀ pos, g.fillExponents gen level u i pos = g.fillExponents gen level w i pos := by
  have a1 := setBit_agree h g.gX (show gen ^ num (g.xInBits.map fun c => u c.idx 0) = gen ^ num (g.xInBits.map fun c => w c.idx 0) by
    rw [num_agree h hx])
  rw [Mul.fillExponents, Mul.fillExponents]
  set u1 := setBit u g.gX (gen ^ num (g.xInBits.map fun c => u c.idx 0))
  set w1 := setBit w g.gX (gen ^ num (g.xInBits.map fun c => w c.idx 0))
  have a2 := setBit_agree a1 g.gXY (show u1 g.gX.idx 0 ^ num (g.yInBits.map fun c => u1 c.idx 0) =
    w1 g.gX.idx 0 ^ num (g.yInBits.map fun c => w1 c.idx 0) by rw [num_agree a1 hy, a1 _ hg])
  set u2 := setBit u1 g.gXY (u1 g.gX.idx 0 ^ num (g.yInBits.map fun c => u1 c.idx 0))
  set w2 := setBit w1 g.gXY (w1 g.gX.idx 0 ^ num (g.yInBits.map fun c => w1 c.idx 0))
  have a3 := setBit_agree a2 g.gLow (show gen ^ num (g.outLowBits.map fun c => u2 c.idx 0) =
    gen ^ num (g.outLowBits.map fun c => w2 c.idx 0) by rw [num_agree a2 hl])
  set u3 := setBit u2 g.gLow (gen ^ num (g.outLowBits.map fun c => u2 c.idx 0))
  set w3 := setBit w2 g.gLow (gen ^ num (g.outLowBits.map fun c => w2 c.idx 0))
  exact setBit_agree a3 g.gHigh (by rw [num_agree a3 hh])

theorem MulRow.congr {Tw : Tower F} {u w : Row F} {g : Mul} {level L : Nat} (hl : MulLayout L (2 ^ level) g) {B : Nat}
    (hB : L + 4 + 2 ^ level + 2 ^ level + 4 ≤ B) (hx : ∀ c ∈ g.xInBits, c.idx < B) (hy : ∀ c ∈ g.yInBits, c.idx < B)
    (h : MulRow Tw w level g) (e : ∀ i < B, u i 0 = w i 0) : MulRow Tw u level g := by
  have hlo : ∀ c ∈ g.outLowBits, c.idx < B := fun c hc => by have := idx_range hl.llen hl.lo hc; omega
  have hhi : ∀ c ∈ g.outHighBits, c.idx < B := fun c hc => by have := idx_range hl.hlen hl.hi hc; omega
  have vx : ∀ j, val u g.xInBits j = val w g.xInBits j := fun j => val_congr' fun c hc => e _ (hx c hc)
  have vy : ∀ j, val u g.yInBits j = val w g.yInBits j := fun j => val_congr' fun c hc => e _ (hy c hc)
  have vl : ∀ j, val u g.outLowBits j = val w g.outLowBits j := fun j => val_congr' fun c hc => e _ (hlo c hc)
  have vh : ∀ j, val u g.outHighBits j = val w g.outHighBits j := fun j => val_congr' fun c hc => e _ (hhi c hc)
  have wx : wide u g.xInBits = wide w g.xInBits := wide_congr' fun c hc => e _ (hx c hc)
  have wy : wide u g.yInBits = wide w g.yInBits := wide_congr' fun c hc => e _ (hy c hc)
  have wl : wide u g.outLowBits = wide w g.outLowBits := wide_congr' fun c hc => e _ (hlo c hc)
  have wh : wide u g.outHighBits = wide w g.outHighBits := wide_congr' fun c hc => e _ (hhi c hc)
  have hp := Nat.two_pow_pos level
  have e1 := e _ (show g.xin.idx < B by rw [hl.xin]; omega)
  have e2 := e _ (show g.yin.idx < B by rw [hl.yin]; omega)
  have e3 := e _ (show g.gX.idx < B by rw [hl.gX]; omega)
  have e4 := e _ (show g.gXY.idx < B by rw [hl.gXY]; omega)
  have e5 := e _ (show g.outHigh.idx < B by rw [hl.oh]; omega)
  have e6 := e _ (show g.outLow.idx < B by rw [hl.ol]; omega)
  have e7 := e _ (show g.gLow.idx < B by rw [hl.gLow]; omega)
  have e8 := e _ (show g.gHigh.idx < B by rw [hl.gHigh]; omega)
  constructor <;> simp only [vx, vy, vl, vh, wx, wy, wl, wh, e1, e2, e3, e4, e5, e6, e7, e8]
  exacts [h.fx, h.x, h.fy, h.y, h.fgx, h.gx, h.fgxy, h.gxy, h.hi, h.lo, h.fh, h.h, h.fl, h.l, h.fgl, h.gl, h.fgh, h.gh, h.parity, h.eq]

theorem MulSSRow.congr {Tw : Tower F} {u w : Row F} {g : MulSS32} {ohb : List Col} {L : Nat} (hl : MulSSLayout L g ohb)
    (hx : ∀ c ∈ g.xInBits, c.idx < L) (hy : ∀ c ∈ g.yInBits, c.idx < L)
    (h : MulSSRow Tw w g ohb) (e : ∀ i < L + 270, u i 0 = w i 0) : MulSSRow Tw u g ohb := by
  have hlo : ∀ c ∈ g.mulInner.outLowBits, c.idx < L + 270 := fun c hc => by
    have := idx_range hl.mul.llen hl.mul.lo hc; norm_num only at this; omega
  have hhi : ∀ c ∈ g.mulInner.outHighBits, c.idx < L + 270 := fun c hc => by
    have := idx_range hl.mul.hlen hl.mul.hi hc; norm_num only at this; omega
  have hn : ∀ c ∈ g.newProdHighBits, c.idx < L + 270 := fun c hc => by have := idx_range hl.nlen hl.nph hc; omega
  have ho : ∀ c ∈ ohb, c.idx < L + 270 := fun c hc => by have := idx_range hl.olen hl.oidx hc; omega
  have hyb : ∀ c ∈ g.ySub.bout, c.idx < L + 270 := fun c hc => by have := idx_range hl.ys.blen hl.ys.bidx hc; omega
  have hyz : ∀ c ∈ g.ySub.zout, c.idx < L + 270 := fun c hc => by have := idx_range hl.ys.zlen hl.ys.zidx hc; omega
  have hxb : ∀ c ∈ g.xSub.bout, c.idx < L + 270 := fun c hc => by have := idx_range hl.xs.blen hl.xs.bidx hc; omega
  have hxz : ∀ c ∈ g.xSub.zout, c.idx < L + 270 := fun c hc => by have := idx_range hl.xs.zlen hl.xs.zidx hc; omega
  have hx' : ∀ c ∈ g.xInBits, c.idx < L + 270 := fun c hc => by have := hx c hc; omega
  have hy' : ∀ c ∈ g.yInBits, c.idx < L + 270 := fun c hc => by have := hy c hc; omega
  have vv : ∀ {cs : List Col}, (∀ c ∈ cs, c.idx < L + 270) → ∀ j, val u cs j = val w cs j := fun hc j =>
    val_congr' fun c hm => e _ (hc c hm)
  have e1 := e _ (show g.xin.idx < L + 270 by rw [hl.xin]; omega)
  have e2 := e _ (show g.yin.idx < L + 270 by rw [hl.yin]; omega)
  have e3 := e _ (show g.outHigh.idx < L + 270 by rw [hl.oh]; omega)
  have e4 := e _ (show g.outLow.idx < L + 270 by rw [hl.ol]; omega)
  have vx := vv hx'
  have vy := vv hy'
  have vlo := vv hlo
  have vhi := vv hhi
  have vn := vv hn
  have vo := vv ho
  have vyz := vv hyz
  have vxz := vv hxz
  have hm : MulRow Tw u 5 g.mulInner := MulRow.congr hl.mul (B := L + 270) (by norm_num only; omega) (by rw [hl.mx]; exact hx')
    (by rw [hl.my]; exact hy') h.mul e
  have h1 := h.ysub.congr (u := u) (fun c hc => e _ (by
    simp only [List.mem_append] at hc
    rcases hc with ((hc | hc) | hc) | hc
    exacts [hhi c hc, hy' c hc, hyb c hc, hyz c hc])) (e _ (by rw [hl.ys.iidx]; omega))
  have h2 := h.xsub.congr (u := u) (fun c hc => e _ (by
    simp only [List.mem_append] at hc
    rcases hc with ((hc | hc) | hc) | hc
    exacts [hn c hc, hx' c hc, hxb c hc, hxz c hc])) (e _ (by rw [hl.xs.iidx]; omega))
  refine ⟨?_, ?_, ?_, ?_, hm, h1, ?_, ?_, h2, ?_, ?_, ?_, ?_, ?_, ?_⟩ <;> simp only [vx, vy, vlo, vhi, vn, vo, vyz, vxz, e1, e2, e3, e4]
  exacts [h.fx, h.x, h.fy, h.y, h.nb, h.nph, h.ob, h.oh, h.fh, h.h, h.fl, h.l]

/-! ### The converters -/

structure SignLayout (L n : Nat) (g : SignConverter) : Prop where
  inp : g.twosComplement.innerIncr.input = g.twosComplement.inverted
  res : g.twosComplement.resultBits = g.twosComplement.innerIncr.zout
  twos : TwosLayout L n g.twosComplement
  clen : g.convertedBits.length = n
  cidx : ∀ (k : Nat) (c : Col), g.convertedBits[k]? = some c → c.idx = L + n + n + n + 1 + k

def SignTables (F : Type) (L n : Nat) (g : SignConverter) : Prop :=
  ∃ t0 t1 : Table F, t0.columns.length = L ∧ HasAll t0 g.twosComplement.xin n ∧ HasAll t1 g.twosComplement.inverted n ∧
    t1.columns.length = L + n

/-- What a row says of a converter. -/
structure SignOk (w : Row F) (n : Nat) (g : SignConverter) (b : F) : Prop where
  twos : TwosRow w n g.twosComplement.xin g.twosComplement.inverted g.twosComplement.innerIncr.cin
    g.twosComplement.innerIncr.zout g.twosComplement.innerIncr.finalCarryOut
  sign : SignRow w n g.twosComplement.xin g.twosComplement.resultBits g.convertedBits b

theorem signOk_sound {w : Row F} {L n : Nat} (hn : 0 < n) {g : SignConverter} {b : F} (hl : SignLayout L n g) (h : SignOk w n g b)
    (hx : g.twosComplement.xin.length = n) (hxb : ∀ j < n, IsBit (val w g.twosComplement.xin j)) (hb : IsBit b) :
    wide w g.convertedBits = if b = 1 then (2 ^ n - wide w g.twosComplement.xin) % 2 ^ n else wide w g.twosComplement.xin := by
  rw [sign_sound h.sign hx (by rw [hl.res]; exact hl.twos.incr.zlen) hl.clen hb, hl.res,
    twos_sound h.twos hn hx hl.twos.ilen hl.twos.incr.zlen hxb]

theorem sign_populate {L n : Nat} {g : SignConverter} (hl : SignLayout L n g) (ht : SignTables F L n g) {w : Row F} {X : Nat}
    (hX : Bits w g.twosComplement.xin n X) :
    (∀ i, (i < L ∨ L + n + n + n + 1 ≤ i) → ∀ pos, g.populate w i pos = w i pos) ∧
    TwosRow (g.populate w) n g.twosComplement.xin g.twosComplement.inverted g.twosComplement.innerIncr.cin
      g.twosComplement.innerIncr.zout g.twosComplement.innerIncr.finalCarryOut := by
  obtain ⟨t0, t1, h0, h1, h2, h3⟩ := ht
  obtain ⟨c1, c2, c3⟩ := twos_complete h0 hl.twos h1 hl.inp h2 h3 hX.isBit
  exact ⟨fun i hi pos => hi.elim (fun h => c1 i h pos) fun h => c2 i h pos, c3⟩

theorem signOk_of {w : Row F} {L n : Nat} (hn : 0 < n) {g : SignConverter} {b : F} (hl : SignLayout L n g)
    (ht : TwosRow w n g.twosComplement.xin g.twosComplement.inverted g.twosComplement.innerIncr.cin
      g.twosComplement.innerIncr.zout g.twosComplement.innerIncr.finalCarryOut)
    (hxl : g.twosComplement.xin.length = n) {X C : Nat} (hXn : X < 2 ^ n) (hX : Bits w g.twosComplement.xin n X)
    (hC : Bits w g.convertedBits n C) (hb : IsBit b) (h : C = if b = 1 then (2 ^ n - X) % 2 ^ n else X) : SignOk w n g b := by
  refine ⟨ht, ⟨fun j hj => ?_, hC.isBit⟩⟩
  have hs := twos_sound ht hn hxl hl.twos.ilen hl.twos.incr.zlen hX.isBit
  rw [hX.wide hxl hXn] at hs
  have hz : Bits w g.twosComplement.innerIncr.zout n ((2 ^ n - X) % 2 ^ n) := by
    rw [← hs]
    refine Bits.of_wide hl.twos.incr.zlen fun j hj => ?_
    rw [ht.incr.sum j hj]
    exact isBit_add (by rw [ht.inv j hj]; exact isBit_add (hX.isBit j hj) isBit_one) (ht.incr.bits j hj)
  rw [hl.res, hC j hj, hX j hj, hz j hj]
  rcases hb with hb | hb <;> rw [hb] at h ⊢
  · rw [if_neg zero_ne_one] at h; rw [h]; ring
  · rw [if_pos rfl] at h; rw [h]
    linear_combination (-(ofBit (X.testBit j) : F)) * (two_zero (F := F))

theorem SignOk.congr {u w : Row F} {L n : Nat} {g : SignConverter} {b : F} (hl : SignLayout L n g) (h : SignOk w n g b)
    (e : ∀ c ∈ g.twosComplement.xin, u c.idx 0 = w c.idx 0) (e' : ∀ i, L ≤ i → i < L + n + n + n + 1 + n → u i 0 = w i 0) :
    SignOk u n g b := by
  have ri : ∀ c ∈ g.twosComplement.inverted, u c.idx 0 = w c.idx 0 := fun c hc => by
    have := idx_range hl.twos.ilen hl.twos.inv hc; exact e' _ (by omega) (by omega)
  have rc : ∀ c ∈ g.twosComplement.innerIncr.cin, u c.idx 0 = w c.idx 0 := fun c hc => by
    have := idx_range hl.twos.incr.clen hl.twos.incr.cidx hc; exact e' _ (by omega) (by omega)
  have rz : ∀ c ∈ g.twosComplement.innerIncr.zout, u c.idx 0 = w c.idx 0 := fun c hc => by
    have := idx_range hl.twos.incr.zlen hl.twos.incr.zidx hc; exact e' _ (by omega) (by omega)
  have rv : ∀ c ∈ g.convertedBits, u c.idx 0 = w c.idx 0 := fun c hc => by
    have := idx_range hl.clen hl.cidx hc; exact e' _ (by omega) (by omega)
  have hf := hl.twos.incr.fidx
  refine ⟨h.twos.congr (fun c hc => ?_) (e' _ (by omega) (by omega)), ⟨fun j hj => ?_, fun j hj => ?_⟩⟩
  · simp only [List.mem_append] at hc
    rcases hc with ((hc | hc) | hc) | hc
    exacts [e c hc, ri c hc, rc c hc, rz c hc]
  · rw [val_congr' rv, val_congr' e, val_congr' (cs := g.twosComplement.resultBits) (by rw [hl.res]; exact rz)]
    exact h.sign.conv j hj
  · rw [val_congr' rv]; exact h.sign.bits j hj

end Verif.M3
