import Verif.M3.LemmasDivSS2

/-! What the rows that the gadget that divides signed numbers accepts say of the numbers. -/

set_option linter.dupNamespace false
set_option linter.unusedSectionVars false

namespace Verif.M3

open Finset Verif.Arith

variable {F : Type} [Field F] [DecidableEq F] [CharP F 2]

/-- The sign extension of 32 bits to 64. -/
def ext64 (x : Nat) : Nat := x + 2 ^ 32 * (if 2 ^ 31 ≤ x then 2 ^ 32 - 1 else 0)

theorem ext64_lt {x : Nat} (hx : x < 2 ^ 32) : ext64 x < 2 ^ 64 := by
  unfold ext64; split <;> omega

theorem ext64_cases {x : Nat} (hx : x < 2 ^ 32) :
    (x < 2 ^ 31 ∧ ext64 x = x ∧ signed32 x = x) ∨ (2 ^ 31 ≤ x ∧ ext64 x + 2 ^ 32 = x + 2 ^ 64 ∧ signed32 x = x - 2 ^ 32) := by
  unfold ext64 signed32
  by_cases h : x < 2 ^ 31
  · left; rw [if_neg (by omega), if_pos h]; exact ⟨h, by omega, rfl⟩
  · right; rw [if_pos (by omega), if_neg h]; exact ⟨by omega, by omega, rfl⟩

theorem absR_eq {r : Nat} (hr : r < 2 ^ 32) : (if 2 ^ 31 ≤ r then (2 ^ 64 - ext64 r) % 2 ^ 64 else ext64 r) = (signed32 r).natAbs := by
  have := ext64_cases hr
  split <;> omega

theorem negQ_eq {q : Nat} (hq : q < 2 ^ 32) (h0 : q ≠ 0) :
    (if ¬ 2 ^ 31 ≤ q then (2 ^ 64 - ext64 q) % 2 ^ 64 else ext64 q) + (signed32 q).natAbs = 2 ^ 64 := by
  have := ext64_cases hq
  split <;> omega

theorem extended_length {cs : List Col} (h : cs.length = 32) (c : Col) : (extended cs c).length = 64 := by
  rw [extended, List.length_append, h, List.length_replicate]

theorem isBit_ofBit_decide {x : F} {P : Prop} [Decidable P] (hb : IsBit x) (h : x = 1 ↔ P) : x = ofBit (decide P) := by
  rcases hb with hb | hb
  · rw [hb, decide_eq_false fun hp => zero_ne_one (hb.symm.trans (h.2 hp))]; rfl
  · rw [hb, decide_eq_true (h.1 hb)]; rfl

theorem Bits.extended {w : Row F} {cs : List Col} {c : Col} {x : Nat} (h : Bits w cs 32 x) (hl : cs.length = 32) (hc : cs[31]? = some c)
    (hx : x < 2 ^ 32) : Bits w (extended cs c) 64 (ext64 x) := by
  have h1 := h.top (n := 31) hl hx
  have h2 := h.isBit 31 (by norm_num)
  rw [val_get hc] at h1 h2
  have := h.append hl (Bits.replicate (isBit_ofBit_decide h2 h1) 32) hx
  simp only [decide_eq_true_eq] at this
  exact this

set_option maxHeartbeats 2000000 in
theorem divSS_sound {Tw : Tower F} (hT : 6 ≤ Tw.height) {w : Row F} {L0 : Nat} {ohb : List Col} {g : DivSS32} {p31 q31 r31 : Col}
    (hl : DivSSLayout L0 ohb g p31 q31 r31) (h : DivSSRow Tw w ohb g p31 q31 r31) {p q d r : Nat} (ep : wide w g.pInBits = p)
    (eq' : wide w g.qInBits = q) (ed : wide w g.outDivBits = d) (er : wide w g.outRemBits = r) :
    signed32 q ≠ 0 ∧ (signed32 r).natAbs < (signed32 q).natAbs ∧ (signed32 p < 0 ↔ signed32 r < 0) ∧
    (∃ e : Int, (e = 0 ∨ e = 1) ∧ (2 ^ 33 : Int) ∣ signed32 p - (signed32 q * signed32 d + signed32 r + e) ∧
      (0 ≤ signed32 q → 0 ≤ signed32 d → signed32 p = signed32 q * signed32 d + signed32 r + e)) ∧
    w g.pIn.idx 0 = element Tw.basis 32 p ∧ w g.qIn.idx 0 = element Tw.basis 32 q ∧
    w g.outDiv.idx 0 = element Tw.basis 32 d ∧ w g.outRem.idx 0 = element Tw.basis 32 r := by
  have lp := wide_lt w hl.plen
  have lq := wide_lt w hl.qlen
  have ld := wide_lt w hl.dlen
  have lr := wide_lt w hl.rlen
  have bp := Bits.of_wide hl.plen h.bp
  have bq := Bits.of_wide hl.qlen h.bq
  have br := Bits.of_wide hl.rlen h.br
  obtain ⟨m1, m2, m3, -⟩ := mulSS_sound hT hl.mul h.mul (by rw [hl.mx]; exact hl.qlen) (by rw [hl.my]; exact hl.dlen)
    (by rw [hl.mx]; exact h.bq) (by rw [hl.my]; exact h.bd)
  rw [hl.mx, hl.my] at m1 m3
  have xp := bp.extended hl.plen hl.ptop lp
  have xq := bq.extended hl.qlen hl.qtop lq
  have xr := br.extended hl.rlen hl.rtop lr
  have tp := bp.top (n := 31) hl.plen lp
  have tq := bq.top (n := 31) hl.qlen lq
  have tr := br.top (n := 31) hl.rlen lr
  have ib := h.br 31 (by norm_num)
  have iq := h.bq 31 (by norm_num)
  rw [val_get hl.ptop] at tp
  rw [val_get hl.qtop] at tq iq
  rw [val_get hl.rtop] at tr ib
  rw [h.sign, tr] at tp
  have eqq : w g.qIn.idx 0 = element Tw.basis 32 (wide w g.qInBits) := by rw [h.q, pack_element hl.qlen h.bq]
  have hq0 : wide w g.qInBits ≠ 0 := fun h0 => h.nz (by rw [eqq, h0, element_zero])
  have hol : g.mulInner.outBits.length = 64 := by rw [hl.mul.out, List.length_append, hl.mul.mul.llen, hl.mul.olen]; norm_num
  have bo : ∀ j < 64, IsBit (val w g.mulInner.outBits j) := by
    rw [hl.mul.out]
    exact ((Bits.of_wide (n := 32) hl.mul.mul.llen h.mul.mul.lo).append hl.mul.mul.llen (Bits.of_wide (n := 32) hl.mul.olen h.mul.ob)
      (wide_lt w hl.mul.mul.llen)).isBit
  have hsum := wideAdd_sound h.sum (by norm_num) hol (extended_length hl.rlen _) hl.sum.zlen bo xr.isBit
  have e3 : wide w g.sum.zOut = ext64 (wide w g.pInBits) := by
    have : Bits w g.sum.zOut 64 (ext64 (wide w g.pInBits)) := fun j hj => by rw [← h.eq j hj]; exact xp j hj
    exact this.wide hl.sum.zlen (ext64_lt lp)
  rw [xr.wide (extended_length hl.rlen _) (ext64_lt lr), e3] at hsum
  have har := signOk_sound (by norm_num) hl.absR h.absR (by rw [hl.ax]; exact extended_length hl.rlen _) (by rw [hl.ax]; exact xr.isBit) ib
  have iq1 : IsBit (w q31.idx 0 + 1) := isBit_add iq isBit_one
  have hnq := signOk_sound (by norm_num) hl.negQ h.negQ (by rw [hl.nx]; exact extended_length hl.qlen _) (by rw [hl.nx]; exact xq.isBit) iq1
  rw [hl.ax, xr.wide (extended_length hl.rlen _) (ext64_lt lr)] at har
  rw [hl.nx, xq.wide (extended_length hl.qlen _) (ext64_lt lq)] at hnq
  simp only [tr] at har
  have tq' : w q31.idx 0 + 1 = 1 ↔ ¬ 2 ^ 31 ≤ wide w g.qInBits := by
    rw [← tq]
    rcases iq with iq | iq <;> rw [iq]
    · simp
    · rw [CharTwo.add_self_eq_zero]; simp
  simp only [tq'] at hnq
  have hd := wideAdd_sound h.diff (by norm_num) hl.absR.clen hl.negQ.clen hl.diff.zlen h.absR.sign.bits h.negQ.sign.bits
  have bz : ∀ j < 64, IsBit (val w g.diff.zOut j) := fun j hj => by
    rw [h.diff.sum j hj]
    exact isBit_add (isBit_add (h.absR.sign.bits j hj) (h.negQ.sign.bits j hj)) (h.diff.bits j hj)
  have hz := ((Bits.of_wide hl.diff.zlen bz).top (n := 63) hl.diff.zlen (wide_lt w hl.diff.zlen)).1 h.lt
  have hz2 := wide_lt w hl.diff.zlen
  rw [har, hnq] at hd
  have k1 := bit_le_one (val w g.sum.cin 0)
  have k2 := bit_le_one (val w g.diff.cin 0)
  have k3 := bit_le_one (w g.sum.finalCarryOut.idx 0)
  have k4 := bit_le_one (w g.diff.finalCarryOut.idx 0)
  have v1 : w g.pIn.idx 0 = element Tw.basis 32 (wide w g.pInBits) := by rw [h.p, pack_element hl.plen h.bp]
  have v3 : w g.outDiv.idx 0 = element Tw.basis 32 (wide w g.outDivBits) := by rw [h.d, pack_element hl.dlen h.bd]
  have v4 : w g.outRem.idx 0 = element Tw.basis 32 (wide w g.outRemBits) := by rw [h.r, pack_element hl.rlen h.br]
  rw [ep] at *
  rw [eq'] at *
  rw [ed] at *
  rw [er] at *
  have cp := ext64_cases lp
  have cq := ext64_cases lq
  have cr := ext64_cases lr
  have cd := ext64_cases ld
  refine ⟨?_, ?_, ?_, ⟨bit (val w g.sum.cin 0), ?_, ?_, ?_⟩, v1, eqq, v3, v4⟩
  · omega
  · generalize bit (val w g.diff.cin 0) = k at *
    generalize bit (w g.diff.finalCarryOut.idx 0) = f at *
    generalize wide w g.diff.zOut = Z at *
    clear hsum m1 m3 cp cd e3
    rw [absR_eq lr] at hd
    have := negQ_eq lq hq0
    omega
  · omega
  · omega
  · generalize bit (val w g.sum.cin 0) = k at *
    generalize bit (w g.sum.finalCarryOut.idx 0) = f at *
    generalize wide w g.mulInner.outBits = O at *
    generalize signed32 q * signed32 d = M at *
    unfold twos at m1
    clear har hnq hd
    omega
  · intro hq hd'
    have hq' : q < 2 ^ 31 := by omega
    have hd' : d < 2 ^ 31 := by omega
    have hm := m3 hq' hd'
    have hml : q * d < 2 ^ 31 * 2 ^ 31 := Nat.mul_lt_mul'' hq' hd'
    rw [show signed32 q = q by omega, show signed32 d = d by omega]
    rw [hm] at hsum
    have : ((q : Int) * d) = ((q * d : Nat) : Int) := by push_cast; rfl
    rw [this]
    generalize q * d = M at *
    generalize bit (val w g.sum.cin 0) = k at *
    generalize bit (w g.sum.finalCarryOut.idx 0) = f at *
    clear har hnq hd m1
    omega

end Verif.M3
