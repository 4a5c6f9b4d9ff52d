import Verif.M3.LemmasSigned

/-! Rows of the gadget that multiplies signed numbers. -/

set_option linter.dupNamespace false
set_option linter.unusedSectionVars false

namespace Verif.M3

open Finset Verif.Arith

variable {F : Type} [Field F] [DecidableEq F] [CharP F 2]

/-! ### Numbers -/

theorem top_bit {w : Row F} {cs : List Col} {n : Nat} (hl : cs.length = n + 1) :
    val w cs n = 1 ↔ 2 ^ n ≤ wide w cs := by
  rw [wide_eq, hl, num_succ]
  have := num_range_lt (val w cs) n
  unfold bit
  by_cases h : val w cs n = 1
  · simp only [h, if_pos, true_iff]; omega
  · simp only [h, if_false, false_iff, Nat.mul_zero, Nat.add_zero, Nat.not_le]; exact this

theorem wide_append (w : Row F) (a b : List Col) : wide w (a ++ b) = wide w a + 2 ^ a.length * wide w b := by
  rw [wide, List.map_append, num_append, List.length_map]
  rfl

theorem wsub_eq {a b : Nat} (ha : a < 2 ^ 32) (hb : b < 2 ^ 32) : (wrappingSub32 a b : Int) = ((a : Int) - b) % 2 ^ 32 := by
  unfold wrappingSub32
  omega

theorem wsub_lt (a b : Nat) : wrappingSub32 a b < 2 ^ 32 := Nat.mod_lt _ (Nat.two_pow_pos _)

theorem signed_of_lt {x : Nat} (h : x < 2 ^ 31) : signed32 x = x := if_pos h
theorem signed_of_ge {x : Nat} (h : ¬ x < 2 ^ 31) : signed32 x = x - 2 ^ 32 := if_neg h

theorem twos_split {lo : Nat} (hlo : lo < 2 ^ 32) {z : Int} {hi : Nat} (hhi : (hi : Int) = z % 2 ^ 32) :
    twos 64 (lo + 2 ^ 32 * z) = lo + 2 ^ 32 * hi := by
  unfold twos
  omega

/-- The high half of the product as `populate` computes it. -/
theorem signed_mul {x y : Nat} (hx : x < 2 ^ 32) (hy : y < 2 ^ 32) {N O : Nat}
    (hN : N = if 2 ^ 31 ≤ x then wrappingSub32 (x * y / 2 ^ 32) y else x * y / 2 ^ 32)
    (hO : O = if 2 ^ 31 ≤ y then wrappingSub32 N x else N) :
    twos 64 (signed32 x * signed32 y) = x * y % 2 ^ 32 + 2 ^ 32 * O ∧ N < 2 ^ 32 ∧ O < 2 ^ 32 := by
  have hp : x * y / 2 ^ 32 < 2 ^ 32 := by
    rw [Nat.div_lt_iff_lt_mul (by norm_num)]; exact Nat.mul_lt_mul'' hx hy
  have hxy : ((x * y : Nat) : Int) = (x * y % 2 ^ 32 : Nat) + 2 ^ 32 * (x * y / 2 ^ 32 : Nat) := by
    have := Nat.mod_add_div (x * y) (2 ^ 32)
    omega
  have hlo : x * y % 2 ^ 32 < 2 ^ 32 := Nat.mod_lt _ (by norm_num)
  generalize x * y / 2 ^ 32 = H at *
  generalize x * y % 2 ^ 32 = l at *
  push_cast at hxy
  have hNlt : N < 2 ^ 32 := by
    rw [hN]; split
    · exact wsub_lt _ _
    · exact hp
  have hOlt : O < 2 ^ 32 := by
    rw [hO]; split
    · exact wsub_lt _ _
    · exact hNlt
  refine ⟨?_, hNlt, hOlt⟩
  by_cases h1 : x < 2 ^ 31 <;> by_cases h2 : y < 2 ^ 31
  · rw [if_neg (by omega)] at hN hO
    rw [signed_of_lt h1, signed_of_lt h2, hxy]
    exact twos_split hlo (by omega)
  · rw [if_neg (by omega)] at hN
    rw [if_pos (by omega)] at hO
    rw [signed_of_lt h1, signed_of_ge h2]
    rw [show (x : Int) * (y - 2 ^ 32) = l + 2 ^ 32 * (H - x) by linear_combination hxy]
    refine twos_split hlo ?_
    rw [hO, wsub_eq hNlt hx, hN]
  · rw [if_pos (by omega)] at hN
    rw [if_neg (by omega)] at hO
    rw [signed_of_ge h1, signed_of_lt h2]
    rw [show ((x : Int) - 2 ^ 32) * y = l + 2 ^ 32 * (H - y) by linear_combination hxy]
    refine twos_split hlo ?_
    rw [hO, hN, wsub_eq hp hy]
  · rw [if_pos (by omega)] at hN hO
    rw [signed_of_ge h1, signed_of_ge h2]
    rw [show ((x : Int) - 2 ^ 32) * (y - 2 ^ 32) = l + 2 ^ 32 * (H - y - x + 2 ^ 32) by linear_combination hxy]
    refine twos_split hlo ?_
    rw [hO, wsub_eq hNlt hx, hN, wsub_eq hp hy]
    omega

/-! ### Soundness -/

theorem sub_first {w : Row F} {n : Nat} (hn : 0 < n) {x y : List Col} {bin : Col} {bout z : List Col}
    (h : WideSubRow w n x y bin bout z none) : val w z 0 = val w x 0 + val w y 0 := by
  rw [h.sum 0 hn, val_cons_zero, h.first]
  exact add_zero _

theorem wide_parity {w : Row F} {cs : List Col} {n : Nat} (hl : cs.length = n) (hn : 0 < n) : wide w cs % 2 = bit (val w cs 0) := by
  cases cs with
  | nil => simp at hl; omega
  | cons c cs =>
    rw [wide, List.map_cons, num, val_cons_zero]
    have := bit_le (w c.idx 0)
    omega

theorem bit_add {x y : F} (hx : IsBit x) (hy : IsBit y) : bit (x + y) = (bit x + bit y) % 2 := by
  rcases hx with rfl | rfl <;> rcases hy with rfl | rfl <;> simp [CharTwo.add_self_eq_zero]

theorem bit_mul {x y : F} (hx : IsBit x) (hy : IsBit y) : bit (x * y) = bit x * bit y := by
  rcases hx with rfl | rfl <;> rcases hy with rfl | rfl <;> simp

theorem wsub_parity (a b : Nat) (hb : b < 2 ^ 32) : wrappingSub32 a b % 2 = (a + b) % 2 := by
  unfold wrappingSub32; omega

/-- What a satisfying row says of the product: all but the bits after the first of the high half. -/
theorem mulSS_sound {Tw : Tower F} (hT : 6 ≤ Tw.height) {w : Row F} {L : Nat} {g : MulSS32} {ohb : List Col}
    (hl : MulSSLayout L g ohb) (h : MulSSRow Tw w g ohb) (hxl : g.xInBits.length = 32) (hyl : g.yInBits.length = 32)
    (hxb : ∀ j < 32, IsBit (val w g.xInBits j)) (hyb : ∀ j < 32, IsBit (val w g.yInBits j)) :
    wide w g.outBits % 2 ^ 33 = twos 64 (signed32 (wide w g.xInBits) * signed32 (wide w g.yInBits)) % 2 ^ 33 ∧
    wide w g.outBits < 2 ^ 64 ∧
    (wide w g.xInBits < 2 ^ 31 → wide w g.yInBits < 2 ^ 31 → wide w g.outBits = wide w g.xInBits * wide w g.yInBits) ∧
    w g.xin.idx 0 = element Tw.basis 32 (wide w g.xInBits) ∧ w g.yin.idx 0 = element Tw.basis 32 (wide w g.yInBits) ∧
    w g.outLow.idx 0 = element Tw.basis 32 (wide w g.outBits % 2 ^ 32) ∧
    w g.outHigh.idx 0 = element Tw.basis 32 (wide w g.outBits / 2 ^ 32) := by
  have hml := hl.mul.llen
  have hmh := hl.mul.hlen
  have hs := mulRow_sound (level := 5) hT h.mul (by rw [hl.mx]; exact hxl) (by rw [hl.my]; exact hyl) hml hmh
    (fun j hj => by rw [hl.mx]; exact hxb j hj) fun j hj => by rw [hl.my]; exact hyb j hj
  rw [hl.mx, hl.my] at hs
  have lx := wide_lt w hxl
  have ly := wide_lt w hyl
  have ll := wide_lt w hml
  have lh := wide_lt w hmh
  have lo := wide_lt w hl.olen
  have hout : wide w g.outBits = wide w g.mulInner.outLowBits + 2 ^ 32 * wide w ohb := by
    rw [hl.out, wide_append, hml]; norm_num
  norm_num only at hs ll lh
  norm_num only at lo lx ly
  have hlo : wide w g.mulInner.outLowBits = wide w g.xInBits * wide w g.yInBits % 2 ^ 32 := by omega
  have hhi : wide w g.mulInner.outHighBits = wide w g.xInBits * wide w g.yInBits / 2 ^ 32 := by omega
  have bx := hxb 31 (by norm_num)
  have by' := hyb 31 (by norm_num)
  have tx := top_bit (w := w) (n := 31) hxl
  have ty := top_bit (w := w) (n := 31) hyl
  refine ⟨?_, by rw [hout]; omega, fun hx0 hy0 => ?_, ?_, ?_, ?_, ?_⟩
  · obtain ⟨e1, e2, e3⟩ := signed_mul (x := wide w g.xInBits) (y := wide w g.yInBits) lx ly rfl rfl
    set N := if 2 ^ 31 ≤ wide w g.xInBits then wrappingSub32 (wide w g.xInBits * wide w g.yInBits / 2 ^ 32) (wide w g.yInBits) else
      wide w g.xInBits * wide w g.yInBits / 2 ^ 32 with hN
    set O := if 2 ^ 31 ≤ wide w g.yInBits then wrappingSub32 N (wide w g.xInBits) else N with hO
    have hNp : N % 2 = wide w g.newProdHighBits % 2 := by
      rw [wide_parity hl.nlen (by norm_num), h.nph 0 (by norm_num), sub_first (by norm_num) h.ysub]
      have hb := h.mul.hi 0 (by norm_num)
      have p1 := wide_parity (w := w) hmh (by norm_num)
      have p2 := wide_parity (w := w) hyl (by norm_num)
      rcases bx with hz | hz <;> rw [hz]
      · rw [hN, if_neg (by rw [← tx, hz]; exact zero_ne_one), ← hhi, p1, zero_mul, add_zero]
      · rw [hN, if_pos (by rw [← tx]; exact hz), wsub_parity _ _ ly, ← hhi, one_mul]
        rw [show val w g.mulInner.outHighBits 0 + (val w g.mulInner.outHighBits 0 + (val w g.mulInner.outHighBits 0 +
          val w g.yInBits 0)) = val w g.mulInner.outHighBits 0 + val w g.yInBits 0 by
            linear_combination (val w g.mulInner.outHighBits 0) * (two_zero (F := F)), bit_add hb (hyb 0 (by norm_num)), ← p1, ← p2]
        omega
    have hOp : O % 2 = wide w ohb % 2 := by
      rw [wide_parity hl.olen (by norm_num), h.oh 0 (by norm_num), sub_first (by norm_num) h.xsub]
      have hb := h.nb 0 (by norm_num)
      have p1 := wide_parity (w := w) hl.nlen (by norm_num)
      have p2 := wide_parity (w := w) hxl (by norm_num)
      rcases by' with hz | hz <;> rw [hz]
      · rw [hO, if_neg (by rw [← ty, hz]; exact zero_ne_one), hNp, p1, zero_mul, add_zero]
      · rw [hO, if_pos (by rw [← ty]; exact hz), wsub_parity _ _ lx, one_mul]
        rw [show val w g.newProdHighBits 0 + (val w g.newProdHighBits 0 + (val w g.newProdHighBits 0 +
          val w g.xInBits 0)) = val w g.newProdHighBits 0 + val w g.xInBits 0 by
            linear_combination (val w g.newProdHighBits 0) * (two_zero (F := F)), bit_add hb (hxb 0 (by norm_num)), ← p1, ← p2]
        omega
    rw [e1, hout, hlo]
    omega
  · have hsx := select_wide hmh hl.ys.zlen hl.nlen bx h.nph
    have hsy := select_wide hl.nlen hl.xs.zlen hl.olen by' h.oh
    rw [if_neg (by rw [tx]; omega)] at hsx
    rw [if_neg (by rw [ty]; omega)] at hsy
    rw [hout, hsy, hsx]
    omega
  · rw [h.x, pack_element hxl hxb]
  · rw [h.y, pack_element hyl hyb]
  · rw [h.l, pack_element (n := 32) hml h.mul.lo, hout]
    congr 1
    omega
  · rw [h.h, pack_element hl.olen h.ob, hout]
    congr 1
    omega

end Verif.M3
