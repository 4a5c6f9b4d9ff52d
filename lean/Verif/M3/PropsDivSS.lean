import Verif.M3.LemmasDivSS4
import Verif.M3.PropsSigned

/-! # C48: the divider of signed numbers -/

set_option linter.dupNamespace false
set_option linter.unusedSectionVars false

namespace Verif.M3

open Finset Verif.Arith

variable {F : Type} [Field F] [DecidableEq F] [CharP F 2]

theorem twos32_cases {z : Int} (h1 : -2 ^ 31 ≤ z) (h2 : z < 2 ^ 31) :
    twos 32 z < 2 ^ 32 ∧ signed32 (twos 32 z) = z ∧ (2 ^ 31 ≤ twos 32 z ↔ z < 0) := by
  unfold twos signed32
  split <;> omega

theorem signed32_range {x : Nat} (hx : x < 2 ^ 32) : -2 ^ 31 ≤ signed32 x ∧ signed32 x < 2 ^ 31 ∧ (signed32 x = 0 ↔ x = 0) ∧
    (2 ^ 31 ≤ x ↔ signed32 x < 0) := by
  unfold signed32
  split <;> omega

theorem tdiv_range {P Q : Int} (h1 : -2 ^ 31 ≤ P) (h2 : P < 2 ^ 31) (h : ¬ (P = -2 ^ 31 ∧ Q = -1)) :
    -2 ^ 31 ≤ P.tdiv Q ∧ P.tdiv Q < 2 ^ 31 := by
  have ha : (P.tdiv Q).natAbs = P.natAbs / Q.natAbs := Int.natAbs_tdiv P Q
  have hle := Nat.div_le_self P.natAbs Q.natAbs
  refine ⟨by omega, ?_⟩
  by_contra hc
  have hP : P = -2 ^ 31 := by omega
  have h3 : P.natAbs / Q.natAbs = 2 ^ 31 := by omega
  have h4 : P.natAbs = 2 ^ 31 := by omega
  rw [h4] at h3
  have h5 : Q.natAbs = 1 := by
    by_contra hne
    rcases Nat.eq_zero_or_pos Q.natAbs with h0 | h0
    · rw [h0] at h3; omega
    · have := Nat.div_lt_self (show 0 < 2 ^ 31 by norm_num) (show 1 < Q.natAbs by omega)
      omega
  have h6 : Q = 1 := by omega
  rw [h6, Int.tdiv_one] at hc
  omega

theorem tmod_facts {P Q : Int} (hQ : Q ≠ 0) : (P.tmod Q).natAbs < Q.natAbs ∧ (0 ≤ P → 0 ≤ P.tmod Q) ∧ (P < 0 → P.tmod Q ≤ 0) := by
  refine ⟨?_, fun h => Int.tmod_nonneg Q h, fun h => ?_⟩
  · rw [Int.natAbs_tmod]; exact Nat.mod_lt _ (by omega)
  · have := Int.tmod_nonneg (a := -P) Q (by omega)
    rw [Int.neg_tmod] at this
    omega

/-- The two numbers that are compared, in the code and in the constraints. -/
theorem absRem_eq {R : Int} (h1 : -2 ^ 31 ≤ R) (h2 : R < 2 ^ 31) : (if R < 0 then twos 64 (-R) else twos 64 R) =
    if 2 ^ 31 ≤ twos 32 R then (2 ^ 64 - ext64 (twos 32 R)) % 2 ^ 64 else ext64 (twos 32 R) := by
  obtain ⟨a1, a2, a3⟩ := twos32_cases h1 h2
  rw [absR_eq a1, a2]
  unfold twos
  split <;> omega

theorem negAbsQ_eq {q : Nat} (hq : q < 2 ^ 32) : (if signed32 q < 0 then twos 64 (signed32 q) else twos 64 (-signed32 q)) =
    if ¬ 2 ^ 31 ≤ q then (2 ^ 64 - ext64 q) % 2 ^ 64 else ext64 q := by
  have := ext64_cases hq
  unfold twos
  split <;> split <;> omega

/-- **C48, in part.** `DivSS32::new`: the constructor does not panic.  In every row that satisfies the table it makes, the
packed columns hold the four numbers, the divisor is not zero, the remainder is smaller than the divisor in absolute value
and is negative exactly if the dividend is, and up to a multiple of `2^33` the dividend is the divisor times the quotient plus
the remainder, or one more than that; exactly, if the divisor and the quotient are not negative.  `populate_with_inputs`
panics if the divisor is zero or if the quotient does not fit, `i32::MIN / -1`; otherwise it fills in the quotient and the
remainder of the division, and the row satisfies the table unless the dividend is negative and the remainder is zero.
What is missing is false: that the quotient and the remainder are those of the division in every satisfying row
(`C48_div_ss_unsound`) and that a negative dividend can be divided with the remainder zero (`C48_div_ss_incomplete`). -/
theorem C48_div_ss_partial (Tw : Tower F) (hT : 6 ≤ Tw.height) {t : Table F} (ht : WellFormed t) :
    ∃ g t', DivSS32.new Tw.basis (Tw.gen 6) t = some (g, t') ∧ WellFormed t' ∧
      t'.Has g.pIn 5 0 ∧ t'.Has g.qIn 5 0 ∧ t'.Has g.outDiv 5 0 ∧ t'.Has g.outRem 5 0 ∧
      g.pInBits.length = 32 ∧ g.qInBits.length = 32 ∧ g.outDivBits.length = 32 ∧ g.outRemBits.length = 32 ∧
      (∀ w, RowHolds Tw t' w → RowHolds Tw t w ∧ ∃ p < 2 ^ 32, ∃ q < 2 ^ 32, ∃ d < 2 ^ 32, ∃ r < 2 ^ 32,
        wide w g.pInBits = p ∧ wide w g.qInBits = q ∧ wide w g.outDivBits = d ∧ wide w g.outRemBits = r ∧
        w g.pIn.idx 0 = element Tw.basis 32 p ∧ w g.qIn.idx 0 = element Tw.basis 32 q ∧
        w g.outDiv.idx 0 = element Tw.basis 32 d ∧ w g.outRem.idx 0 = element Tw.basis 32 r ∧
        signed32 q ≠ 0 ∧ (signed32 r).natAbs < (signed32 q).natAbs ∧ (signed32 p < 0 ↔ signed32 r < 0) ∧
        ∃ e : Int, (e = 0 ∨ e = 1) ∧ (2 ^ 33 : Int) ∣ signed32 p - (signed32 q * signed32 d + signed32 r + e) ∧
          (0 ≤ signed32 q → 0 ≤ signed32 d → signed32 p = signed32 q * signed32 d + signed32 r + e)) ∧
      (∀ p q w, signed32 q = 0 ∨ (signed32 p = -2 ^ 31 ∧ signed32 q = -1) → g.populateWithInputs Tw.basis p q w = none) ∧
      ∀ p < 2 ^ 32, ∀ q < 2 ^ 32, signed32 q ≠ 0 → ¬ (signed32 p = -2 ^ 31 ∧ signed32 q = -1) → ∀ w, RowHolds Tw t w →
        ∃ w' u, g.populateWithInputs Tw.basis p q w = some w' ∧ g.mulInner.mulInner.fillExponents (Tw.gen 6) 5 w' = u ∧
          wide u g.pInBits = p ∧ wide u g.qInBits = q ∧
          signed32 (wide u g.outDivBits) = (signed32 p).tdiv (signed32 q) ∧
          signed32 (wide u g.outRemBits) = (signed32 p).tmod (signed32 q) ∧
          (∀ i < t.columns.length, ∀ pos, u i pos = w i pos) ∧
          (RowHolds Tw t' u ↔ ¬ (signed32 p < 0 ∧ (signed32 p).tmod (signed32 q) = 0)) := by
  obtain ⟨g, t', ohb, p31, q31, r31, h1, h2, h7, ⟨h3, h4, h5, h6⟩, h8⟩ := DivSS32_ok Tw ht
  refine ⟨g, t', h1, h8.wf ht, h3, h4, h5, h6, h2.plen, h2.qlen, h2.dlen, h2.rlen, fun w hw => ?_, fun p q w h => ?_,
    fun p hp q hq hq0 hov w hw => ?_⟩
  · obtain ⟨hw0, hr⟩ := (h8.holds ht w).1 hw
    obtain ⟨o1, o2, o3, o4, o5, o6, o7, o8⟩ := divSS_sound hT h2 hr rfl rfl rfl rfl
    exact ⟨hw0, _, wide_lt w h2.plen, _, wide_lt w h2.qlen, _, wide_lt w h2.dlen, _, wide_lt w h2.rlen, rfl, rfl, rfl, rfl, o5, o6, o7, o8,
      o1, o2, o3, o4⟩
  · rw [DivSS32.populateWithInputs]
    exact if_pos h
  · obtain ⟨p1, p2, -, p4⟩ := signed32_range hp
    obtain ⟨q1, q2, q3, -⟩ := signed32_range hq
    obtain ⟨m1, m2, m3⟩ := tmod_facts (P := signed32 p) hq0
    obtain ⟨d1, d2⟩ := tdiv_range p1 p2 hov
    have hsum := Int.mul_tdiv_add_tmod (signed32 p) (signed32 q)
    set D := (signed32 p).tdiv (signed32 q) with hD
    set R := (signed32 p).tmod (signed32 q) with hR
    have r1 : -2 ^ 31 ≤ R := by omega
    have r2 : R < 2 ^ 31 := by omega
    obtain ⟨d3, d4, -⟩ := twos32_cases d1 d2
    obtain ⟨r3, r4, r5⟩ := twos32_cases r1 r2
    obtain ⟨ta, tb, l1, l2, l3, l4⟩ := h7.mul
    have hlm := h2.mul
    rw [← l1] at hlm
    have hnd : ((g.mulInner.xInBits ++ g.mulInner.yInBits).map Col.idx).Nodup := by
      rw [h2.mx, h2.my, List.map_append, List.nodup_append]
      refine ⟨nodup_range h2.qlen h2.qidx, nodup_range h2.dlen h2.didx, fun a ha b hb => ?_⟩
      obtain ⟨c, hc, rfl⟩ := List.mem_map.1 ha
      obtain ⟨d, hd, rfl⟩ := List.mem_map.1 hb
      have := idx_range h2.qlen h2.qidx hc
      have := idx_range h2.dlen h2.didx hd
      omega
    obtain ⟨w2, O, k1, k2, k3⟩ := mulSS_populate hT hlm l2 (by rw [h2.mx]; exact l3) (by rw [h2.my]; exact l4) hnd hq d3
      (divSSStart g Tw.basis p q (twos 32 D) (twos 32 R) (if R < 0 then twos 64 (-R) else twos 64 R)
        (if signed32 q < 0 then twos 64 (signed32 q) else twos 64 (-signed32 q)) w)
    rw [l1] at k3
    have hne : ∀ (v : Row F) i, i ≠ t.columns.length + 136 → i ≠ t.columns.length + 137 → i ≠ t.columns.length + 204 →
        i ≠ t.columns.length + 205 → ∀ pos, g.mulInner.mulInner.fillExponents (Tw.gen 6) 5 v i pos = v i pos := fun v i h1 h2' h3 h4 pos =>
      fillExponents_ne (level := 5) h2.mul.mul (Tw.gen 6) v (by norm_num only; omega) pos
    obtain ⟨b1, b2, b3⟩ := divSS_build hT h2 h7 hp hq d3 r3 (fun h0 => hq0 (q3.2 h0)) (absRem_eq r1 r2) (negAbsQ_eq hq) k3
      (w2 := w2) (fun i h1 h2 h3 h4 pos => (hne w2 i h1 h2 h3 h4 pos).symm)
    obtain ⟨tc, s1, s2, s3⟩ := h7.sum
    have hO : q * twos 32 D % 2 ^ 32 + 2 ^ 32 * O < 2 ^ 64 := by rw [k2]; unfold twos; omega
    have ha := addFill_populate (by norm_num) s1 h2.sum h2.sf s2 s3 hO (ext64_lt r3) b1 b2
    have hP : (q * twos 32 D % 2 ^ 32 + 2 ^ 32 * O + ext64 (twos 32 R)) % 2 ^ 64 = ext64 p := by
      rw [k2, d4]
      have cr := ext64_cases r3
      have cp := ext64_cases hp
      rw [r4] at cr
      generalize signed32 q * D = M at *
      unfold twos at *
      omega
    rw [hP] at ha
    obtain ⟨c1, c2, c3⟩ := b3 _ ha
    obtain ⟨td, s4, s5, s6⟩ := h7.diff
    have hpop : g.populateWithInputs Tw.basis p q w = some (g.diff.populate (fun _ => g.negAbsQValue.populate
        (g.absRValue.populate (g.sum.populate (fun _ => w2) 0))) 0) := by
      rw [DivSS32.populateWithInputs, if_neg (by rintro (h | h); exacts [hq0 h, hov h])]
      exact (congrArg (fun o => Option.bind o _) k1).trans rfl
    have eA := absR_eq r3
    rw [← absRem_eq r1 r2, r4] at eA
    have eN := negQ_eq hq (fun h0 => hq0 (q3.2 h0))
    rw [← negAbsQ_eq hq] at eN
    generalize (if R < 0 then twos 64 (-R) else twos 64 R) = A at *
    generalize (if signed32 q < 0 then twos 64 (signed32 q) else twos 64 (-signed32 q)) = N at *
    have hdf := addFill_populate (by norm_num) s4 h2.diff h2.df s5 s6 (show A < 2 ^ 64 by omega) (show N < 2 ^ 64 by omega) c1 c2
    set w5 := g.negAbsQValue.populate (g.absRValue.populate (g.sum.populate (fun _ => w2) 0)) with hw5
    set w6 := g.diff.populate (fun _ => w5) 0 with hw6
    have low : ∀ i, i < t.columns.length + 402 → ∀ pos, w6 i pos = w2 i pos := fun i hi pos => by
      rw [hdf.ne i (by omega), hw5]
      have xr : Bits (g.sum.populate (fun _ => w2) 0) g.absRValue.twosComplement.xin 64 (ext64 (twos 32 R)) := by
        rw [h2.ax, ← h2.sy]
        refine b2.congr fun c hc => ha.ne _ (Or.inl ?_) 0
        rw [← s1]; exact (s3.mem hc).lt
      obtain ⟨a1, -⟩ := sign_populate h2.absR h7.absR xr
      have xq : Bits (g.absRValue.populate (g.sum.populate (fun _ => w2) 0)) g.negAbsQValue.twosComplement.xin 64 (ext64 q) := by
        rw [h2.nx]
        have hb : Bits (g.mulInner.mulInner.fillExponents (Tw.gen 6) 5 w2) g.qInBits 32 q := by rw [← h2.mx]; exact k3.bx
        refine (hb.congr fun c hc => ?_).extended h2.qlen h2.qtop hq
        have := idx_range h2.qlen h2.qidx hc
        rw [a1 _ (by omega), ha.ne _ (by omega), hne w2 _ (by omega) (by omega) (by omega) (by omega)]
      obtain ⟨a2, -⟩ := sign_populate h2.negQ h7.negQ xq
      rw [a2 i (by omega), a1 i (by omega), ha.ne i (by omega)]
    have hrange : ∀ cs : List Col, ∀ L, (∀ c ∈ cs, c.idx < L) → L ≤ t.columns.length + 402 → ∀ c ∈ cs, c.idx < t.columns.length + 402 :=
      fun cs L h h' c hc => (h c hc).trans_le h'
    have hagree := fillExponents_agree low (Tw.gen 6) 5 (g := g.mulInner.mulInner)
      (fun c hc => by rw [h2.mul.mx, h2.mx] at hc; have := idx_range h2.qlen h2.qidx hc; omega)
      (fun c hc => by rw [h2.mul.my, h2.my] at hc; have := idx_range h2.dlen h2.didx hc; omega)
      (fun c hc => by have := idx_range h2.mul.mul.llen h2.mul.mul.lo hc; norm_num only at this; omega)
      (fun c hc => by have := idx_range h2.mul.mul.hlen h2.mul.mul.hi hc; norm_num only at this; omega)
      (by rw [h2.mul.mul.gX]; omega)
    have hf := c3 w6 _ hdf (by omega) (Nat.mod_lt _ (Nat.two_pow_pos _)) (g.mulInner.mulInner.fillExponents (Tw.gen 6) 5 w6) hagree
      fun i hi pos => hne w6 i (by omega) (by omega) (by omega) (by omega) pos
    refine ⟨w6, _, ?_, rfl, hf.bp, hf.bq, by rw [hf.bd, d4], by rw [hf.br, r4], hf.lt, ?_⟩
    · exact hpop
    · rw [h8.holds ht, hf.row, r5, p4]
      have := (frame ht hf.lt).2 hw
      constructor
      · rintro ⟨-, h⟩; omega
      · intro h; exact ⟨this, by omega⟩

/-- The hypotheses are met by the empty table and, for the numbers, by seven divided by minus two. -/
example : WellFormed (Table.new (Field.T 7)) ∧ 6 ≤ tower128.height ∧ (∀ w, RowHolds tower128 (Table.new (Field.T 7)) w) ∧
    (7 : Nat) < 2 ^ 32 ∧ 2 ^ 32 - 2 < 2 ^ 32 ∧ signed32 (2 ^ 32 - 2) = -2 ∧ ¬ (signed32 7 = -2 ^ 31 ∧ signed32 (2 ^ 32 - 2) = -1) ∧
    ¬ (signed32 7 < 0 ∧ (signed32 7).tmod (signed32 (2 ^ 32 - 2)) = 0) :=
  ⟨wellFormed_new, by decide, fun _ => rowHolds_new _ _, by decide, by decide, by decide, by decide, by decide⟩

theorem div_low {p r m O k : Nat} {M e : Int} (hp : p < 2 ^ 32) (hr : r < 2 ^ 32) (h : m % 2 ^ 32 + 2 ^ 32 * O = twos 64 M)
    (hk : (k : Int) = e) (hk1 : k ≤ 1) (hd : (2 ^ 33 : Int) ∣ signed32 p - (M + signed32 r + e)) :
    m % 2 ^ 32 = ((ext64 p + 2 ^ 65 - ext64 r - k) % 2 ^ 64) % 2 ^ 32 ∧
      (ext64 p + 2 ^ 65 - ext64 r - k) % 2 ^ 64 % 2 ^ 33 = twos 64 M % 2 ^ 33 := by
  obtain ⟨a, ha⟩ : ∃ a : Int, (ext64 p : Int) = signed32 p + 2 ^ 64 * a := by
    rcases ext64_cases hp with c | c
    · exact ⟨0, by omega⟩
    · exact ⟨1, by omega⟩
  obtain ⟨b, hb⟩ : ∃ b : Int, (ext64 r : Int) = signed32 r + 2 ^ 64 * b := by
    rcases ext64_cases hr with c | c
    · exact ⟨0, by omega⟩
    · exact ⟨1, by omega⟩
  have h1 := ext64_lt hr
  generalize ext64 p = X at *
  generalize ext64 r = Y at *
  generalize signed32 p = P at *
  generalize signed32 r = R at *
  have ht : (twos 64 M : Int) = M % 2 ^ 64 := by unfold twos; omega
  generalize twos 64 M = T at *
  obtain ⟨c, hc⟩ := hd
  have h2 : (X + 2 ^ 65 - Y - k) % 2 ^ 33 = T % 2 ^ 33 := by omega
  omega

theorem div_exact {p r m O k : Nat} {M e : Int} (hp : p < 2 ^ 32) (hr : r < 2 ^ 32) (h : m % 2 ^ 32 + 2 ^ 32 * O = twos 64 M)
    (hk : (k : Int) = e) (hd : signed32 p = M + signed32 r + e) :
    m % 2 ^ 32 + 2 ^ 32 * O < 2 ^ 64 ∧ (m % 2 ^ 32 + 2 ^ 32 * O + ext64 r + k) % 2 ^ 64 = ext64 p := by
  obtain ⟨a, ha⟩ : ∃ a : Int, (ext64 p : Int) = signed32 p + 2 ^ 64 * a := by
    rcases ext64_cases hp with c | c
    · exact ⟨0, by omega⟩
    · exact ⟨1, by omega⟩
  obtain ⟨b, hb⟩ : ∃ b : Int, (ext64 r : Int) = signed32 r + 2 ^ 64 * b := by
    rcases ext64_cases hr with c | c
    · exact ⟨0, by omega⟩
    · exact ⟨1, by omega⟩
  have h1 := ext64_lt hp
  have ht : (twos 64 M : Int) = M % 2 ^ 64 := by unfold twos; omega
  rw [h]
  generalize twos 64 M = T at *
  omega

set_option maxHeartbeats 1000000 in
/-- **C48 is false of `DivSS32`: soundness.** The constraints accept every quotient and remainder that meet the conditions
of `C48_div_ss_partial`: the dividend may be one more than the divisor times the quotient plus the remainder. -/
theorem C48_div_ss_unsound (Tw : Tower F) (hT : 6 ≤ Tw.height) {t : Table F} (ht : WellFormed t) {w : Row F} (hw : RowHolds Tw t w) :
    ∃ g t', DivSS32.new Tw.basis (Tw.gen 6) t = some (g, t') ∧
      ∀ p < 2 ^ 32, ∀ q < 2 ^ 32, ∀ d < 2 ^ 32, ∀ r < 2 ^ 32,
        signed32 q ≠ 0 → (signed32 r).natAbs < (signed32 q).natAbs → (signed32 p < 0 ↔ signed32 r < 0) →
        (∃ e : Int, (e = 0 ∨ e = 1) ∧ (2 ^ 33 : Int) ∣ signed32 p - (signed32 q * signed32 d + signed32 r + e) ∧
          (0 ≤ signed32 q → 0 ≤ signed32 d → signed32 p = signed32 q * signed32 d + signed32 r + e)) →
        ∃ u, RowHolds Tw t' u ∧ wide u g.pInBits = p ∧ wide u g.qInBits = q ∧ wide u g.outDivBits = d ∧ wide u g.outRemBits = r ∧
          ∀ i < t.columns.length, ∀ pos, u i pos = w i pos := by
  obtain ⟨g, t', ohb, p31, q31, r31, h1, h2, h7, -, h8⟩ := DivSS32_ok Tw ht
  refine ⟨g, t', h1, fun p hp q hq d hd r hr hq0 hrq hs ⟨e, he, hdvd, hex⟩ => ?_⟩
  obtain ⟨k, hk⟩ : ∃ k : Bool, (k.toNat : Int) = e := by
    rcases he with h | h
    · exact ⟨false, h.symm⟩
    · exact ⟨true, h.symm⟩
  have hk1 := Bool.toNat_le k
  obtain ⟨p1, p2, -, p4⟩ := signed32_range hp
  obtain ⟨q1, q2, q3, q4⟩ := signed32_range hq
  obtain ⟨d1, d2, -, d4⟩ := signed32_range hd
  obtain ⟨r1, r2, -, r4⟩ := signed32_range hr
  obtain ⟨ta, tb, l1, l2, l3, l4⟩ := h7.mul
  have hlm := h2.mul
  rw [← l1] at hlm
  have hnd : ((g.mulInner.xInBits ++ g.mulInner.yInBits).map Col.idx).Nodup := by
    rw [h2.mx, h2.my, List.map_append, List.nodup_append]
    refine ⟨nodup_range h2.qlen h2.qidx, nodup_range h2.dlen h2.didx, fun a ha b hb => ?_⟩
    obtain ⟨c, hc, rfl⟩ := List.mem_map.1 ha
    obtain ⟨d, hd, rfl⟩ := List.mem_map.1 hb
    have := idx_range h2.qlen h2.qidx hc
    have := idx_range h2.dlen h2.didx hd
    omega
  have cr := ext64_cases hr
  have cp := ext64_cases hp
  have hcr := ext64_lt hr
  have hcp := ext64_lt hp
  obtain ⟨O, v, hO, hv⟩ : ∃ O v, (q * d % 2 ^ 32 + 2 ^ 32 * O < 2 ^ 64 ∧
      (q * d % 2 ^ 32 + 2 ^ 32 * O + ext64 r + k.toNat) % 2 ^ 64 = ext64 p) ∧ MulSSFilled Tw (t.columns.length + 132) g.mulInner ohb q d O
      (divSSStart g Tw.basis p q d r (if 2 ^ 31 ≤ r then (2 ^ 64 - ext64 r) % 2 ^ 64 else ext64 r)
        (if ¬ 2 ^ 31 ≤ q then (2 ^ 64 - ext64 q) % 2 ^ 64 else ext64 q) w) v := by
    obtain ⟨w2, O, -, k2, k3⟩ := mulSS_populate hT hlm l2 (by rw [h2.mx]; exact l3) (by rw [h2.my]; exact l4) hnd hq hd
      (divSSStart g Tw.basis p q d r (if 2 ^ 31 ≤ r then (2 ^ 64 - ext64 r) % 2 ^ 64 else ext64 r)
        (if ¬ 2 ^ 31 ≤ q then (2 ^ 64 - ext64 q) % 2 ^ 64 else ext64 q) w)
    rw [← l1]
    by_cases hneg : 2 ^ 31 ≤ q ∨ 2 ^ 31 ≤ d
    · have hm : q * d % 2 ^ 32 < 2 ^ 32 := Nat.mod_lt _ (by norm_num)
      have hlow := div_low hp hr k2 hk hk1 hdvd
      obtain ⟨v, hv⟩ := mulSS_any hT hlm l2 (by rw [h2.mx]; exact l3) (by rw [h2.my]; exact l4) hnd hq hd hneg
        (O := (ext64 p + 2 ^ 65 - ext64 r - k.toNat) % 2 ^ 64 / 2 ^ 32) (by omega) (by rw [hlow.1, Nat.mod_add_div]; exact hlow.2)
        (divSSStart g Tw.basis p q d r (if 2 ^ 31 ≤ r then (2 ^ 64 - ext64 r) % 2 ^ 64 else ext64 r)
          (if ¬ 2 ^ 31 ≤ q then (2 ^ 64 - ext64 q) % 2 ^ 64 else ext64 q) w)
      refine ⟨_, v, ?_, hv⟩
      rw [hlow.1, Nat.mod_add_div]
      omega
    · refine ⟨O, _, ?_, k3⟩
      exact div_exact hp hr k2 hk (hex (by omega) (by omega))
  obtain ⟨b1, b2, b3⟩ := divSS_build hT h2 h7 hp hq hd hr (fun h0 => hq0 (q3.2 h0)) rfl rfl hv (w2 := v) (fun _ _ _ _ _ _ => rfl)
  obtain ⟨tc, s1, s2, s3⟩ := h7.sum
  obtain ⟨w3, ha⟩ : ∃ w3, AddFill (t.columns.length + 402) 64 g.sum v w3 _ := ⟨_, addFill_any (by norm_num) s1 h2.sum s2 s3 hO.1 hcr b1 b2 k rfl⟩
  rw [hO.2] at ha
  obtain ⟨c1, c2, c3⟩ := b3 _ ha
  obtain ⟨td, s4, s5, s6⟩ := h7.diff
  have eA := absR_eq hr
  have eN := negQ_eq hq (fun h0 => hq0 (q3.2 h0))
  generalize (if 2 ^ 31 ≤ r then (2 ^ 64 - ext64 r) % 2 ^ 64 else ext64 r) = A at *
  generalize (if ¬ 2 ^ 31 ≤ q then (2 ^ 64 - ext64 q) % 2 ^ 64 else ext64 q) = N at *
  have hdf := addFill_any (by norm_num) s4 h2.diff s5 s6 (show A < 2 ^ 64 by omega) (show N < 2 ^ 64 by omega) c1 c2 false rfl
  have xr := b2
  rw [h2.sy, ← h2.ax] at xr
  have xr' := xr.congr fun c hc => ha.ne c.idx (Or.inl (by
    rw [h2.ax, ← h2.sy] at hc; rw [← s1]; exact (s3.mem hc).lt)) 0
  obtain ⟨a1, -⟩ := sign_populate h2.absR h7.absR xr'
  have hb : Bits v g.qInBits 32 q := by rw [← h2.mx]; exact hv.bx
  obtain ⟨a2, -⟩ := sign_populate h2.negQ h7.negQ (w := g.absRValue.populate w3) (X := ext64 q) (by
    rw [h2.nx]
    refine (hb.congr fun c hc => ?_).extended h2.qlen h2.qtop hq
    have := idx_range h2.qlen h2.qidx hc
    rw [a1 _ (by omega), ha.ne _ (by omega)])
  have hf := c3 _ _ hdf (by rw [Bool.toNat_false]; omega) (Nat.mod_lt _ (Nat.two_pow_pos _)) _ (fun i hi pos => by
    rw [hdf.ne i (by omega), a2 i (by omega), a1 i (by omega), ha.ne i (by omega)]) fun i hi pos => rfl
  exact ⟨_, (h8.holds ht _).2 ⟨(frame ht hf.lt).2 hw, hf.row.2 (by rw [p4, r4]; exact hs)⟩, hf.bp, hf.bq, hf.bd, hf.br, hf.lt⟩

/-- For instance seven divided by two can be three with the remainder zero. -/
example : signed32 2 ≠ 0 ∧ (signed32 0).natAbs < (signed32 2).natAbs ∧ (signed32 7 < 0 ↔ signed32 0 < 0) ∧
    (2 ^ 33 : Int) ∣ signed32 7 - (signed32 2 * signed32 3 + signed32 0 + 1) ∧
    (0 ≤ signed32 2 → 0 ≤ signed32 3 → signed32 7 = signed32 2 * signed32 3 + signed32 0 + 1) ∧
    (signed32 7).tmod (signed32 2) ≠ signed32 0 := by decide

/-- **C48 is false of `DivSS32`: completeness.** No row satisfies the table if the dividend is negative and the divisor is one
or minus one. -/
theorem C48_div_ss_incomplete (Tw : Tower F) (hT : 6 ≤ Tw.height) {t : Table F} (ht : WellFormed t) :
    ∃ g t', DivSS32.new Tw.basis (Tw.gen 6) t = some (g, t') ∧
      ∀ w, signed32 (wide w g.pInBits) < 0 → signed32 (wide w g.qInBits) = 1 ∨ signed32 (wide w g.qInBits) = -1 →
        ¬ RowHolds Tw t' w := by
  obtain ⟨g, t', ohb, p31, q31, r31, h1, h2, h7, -, h8⟩ := DivSS32_ok Tw ht
  refine ⟨g, t', h1, fun w hp hq hw => ?_⟩
  obtain ⟨hw0, hr⟩ := (h8.holds ht w).1 hw
  obtain ⟨o1, o2, o3, -⟩ := divSS_sound hT h2 hr rfl rfl rfl rfl
  have := o3.1 hp
  omega

/-- For instance minus four divided by one. -/
example : signed32 (2 ^ 32 - 4) < 0 ∧ signed32 1 = 1 := by decide

end Verif.M3
