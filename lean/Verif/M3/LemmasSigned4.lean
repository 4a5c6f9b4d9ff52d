import Verif.M3.LemmasSigned3

/-! Filling the gadget that multiplies signed numbers. -/

set_option linter.dupNamespace false
set_option linter.unusedSectionVars false

namespace Verif.M3

open Finset Verif.Arith

variable {F : Type} [Field F] [DecidableEq F] [CharP F 2]

theorem mulSS_nodup {L : Nat} {g : MulSS32} {ohb : List Col} (h : MulSSLayout L g ohb) (hx : ∀ c ∈ g.xInBits, c.idx < L)
    (hy : ∀ c ∈ g.yInBits, c.idx < L) :
    ((g.xInBits ++ g.yInBits ++ g.outBits ++ g.newProdHighBits ++ [g.xin, g.yin, g.outLow, g.outHigh]).map Col.idx).Nodup ↔
      ((g.xInBits ++ g.yInBits).map Col.idx).Nodup := by
  have rlo : ∀ c ∈ g.mulInner.outLowBits, L + 38 ≤ c.idx ∧ c.idx < L + 70 := fun c hc => by
    have := idx_range h.mul.llen h.mul.lo hc; norm_num only at this; omega
  have rn : ∀ c ∈ g.newProdHighBits, L + 139 ≤ c.idx ∧ c.idx < L + 171 := fun c hc => by
    have := idx_range h.nlen h.nph hc; omega
  have ro : ∀ c ∈ ohb, L + 236 ≤ c.idx ∧ c.idx < L + 268 := fun c hc => by
    have := idx_range h.olen h.oidx hc; omega
  have h1 := h.xin
  have h2 := h.yin
  have h3 := h.ol
  have h4 := h.oh
  rw [h.out, List.append_assoc, List.append_assoc, List.append_assoc (g.mulInner.outLowBits), List.map_append, List.nodup_append]
  constructor
  · exact fun h => h.1
  · intro hxy
    refine ⟨hxy, ?_, ?_⟩
    · rw [List.map_append, List.map_append, List.map_append, List.nodup_append, List.nodup_append, List.nodup_append]
      refine ⟨nodup_range h.mul.llen h.mul.lo, ⟨nodup_range h.olen h.oidx, ⟨nodup_range h.nlen h.nph, ?_, ?_⟩, ?_⟩, ?_⟩
      · simp only [List.map_cons, List.map_nil, List.nodup_cons, List.mem_cons, List.not_mem_nil, or_false, not_or]
        refine ⟨⟨?_, ?_, ?_⟩, ⟨?_, ?_⟩, ?_, ?_, List.nodup_nil⟩ <;> first | omega | exact fun h => h
      · intro a ha b hb
        obtain ⟨c, hc, rfl⟩ := List.mem_map.1 ha
        have := rn c hc
        simp only [List.map_cons, List.map_nil, List.mem_cons, List.not_mem_nil, or_false] at hb
        omega
      · intro a ha b hb
        obtain ⟨c, hc, rfl⟩ := List.mem_map.1 ha
        have := ro c hc
        rcases List.mem_append.1 hb with hb | hb
        · obtain ⟨d, hd, rfl⟩ := List.mem_map.1 hb
          have := rn d hd
          omega
        · simp only [List.map_cons, List.map_nil, List.mem_cons, List.not_mem_nil, or_false] at hb
          omega
      · intro a ha b hb
        obtain ⟨c, hc, rfl⟩ := List.mem_map.1 ha
        have := rlo c hc
        rcases List.mem_append.1 hb with hb | hb
        · obtain ⟨d, hd, rfl⟩ := List.mem_map.1 hb
          have := ro d hd
          omega
        · rcases List.mem_append.1 hb with hb | hb
          · obtain ⟨d, hd, rfl⟩ := List.mem_map.1 hb
            have := rn d hd
            omega
          · simp only [List.map_cons, List.map_nil, List.mem_cons, List.not_mem_nil, or_false] at hb
            omega
    · intro a ha b hb
      obtain ⟨c, hc, rfl⟩ := List.mem_map.1 ha
      obtain ⟨d, hd, rfl⟩ := List.mem_map.1 hb
      have hcL : c.idx < L := by
        rcases List.mem_append.1 hc with hc | hc
        · exact hx c hc
        · exact hy c hc
      have hdL : L ≤ d.idx := by
        simp only [List.mem_append, List.mem_cons, List.not_mem_nil, or_false] at hd
        rcases hd with hd | hd | hd | rfl | rfl | rfl | rfl
        · have := rlo d hd; omega
        · have := ro d hd; omega
        · have := rn d hd; omega
        all_goals omega
      omega

/-- What there is to know of a row that was filled. -/
structure MulSSFilled (Tw : Tower F) (L : Nat) (g : MulSS32) (ohb : List Col) (x y O : Nat) (w u : Row F) : Prop where
  row : MulSSRow Tw u g ohb
  lt : ∀ i, i < L → ∀ pos, (pos = 0 → ∀ c ∈ g.xInBits ++ g.yInBits, i ≠ c.idx) → u i pos = w i pos
  ge : ∀ i, L + 270 ≤ i → ∀ pos, u i pos = w i pos
  bx : Bits u g.xInBits 32 x
  by' : Bits u g.yInBits 32 y
  out : wide u g.outBits = x * y % 2 ^ 32 + 2 ^ 32 * O

theorem mulSS_populate {Tw : Tower F} (hT : 6 ≤ Tw.height) {t t' : Table F} {g : MulSS32} {ohb : List Col}
    (hl : MulSSLayout t.columns.length g ohb) (ht : MulSSTables t t' g ohb) (hX : HasAll t g.xInBits 32) (hY : HasAll t g.yInBits 32)
    (hd : ((g.xInBits ++ g.yInBits).map Col.idx).Nodup) {x y : Nat} (hx : x < 2 ^ 32) (hy : y < 2 ^ 32) (w : Row F) :
    ∃ w' O, g.populateWithInputs Tw.basis x y w = some w' ∧
      x * y % 2 ^ 32 + 2 ^ 32 * O = twos 64 (signed32 x * signed32 y) ∧
      MulSSFilled Tw t.columns.length g ohb x y O w (g.mulInner.fillExponents (Tw.gen 6) 5 w') := by
  have hxL : ∀ c ∈ g.xInBits, c.idx < t.columns.length := fun c hc => (hX.mem hc).lt
  have hyL : ∀ c ∈ g.yInBits, c.idx < t.columns.length := fun c hc => (hY.mem hc).lt
  obtain ⟨e1, e2, e3⟩ := signed_mul hx hy rfl rfl
  rw [MulSS32.populateWithInputs, if_pos ((mulSS_nodup hl hxL hyL).2 hd)]
  dsimp only
  set N := if 2 ^ 31 ≤ x then wrappingSub32 (x * y / 2 ^ 32) y else x * y / 2 ^ 32 with hN
  set O := if 2 ^ 31 ≤ y then wrappingSub32 N x else N with hO
  obtain ⟨w1, p1, p2⟩ := mulSS_vals hl hxL hyL hX.length hY.length hd Tw.basis x y N O w
  rw [p1, Option.bind_some]
  obtain ⟨ta, a1, a2, a3⟩ := ht.hi
  obtain ⟨tb, b1, b2, b3⟩ := ht.nph
  have hp : x * y / 2 ^ 32 < 2 ^ 32 := by
    rw [Nat.div_lt_iff_lt_mul (by norm_num)]; exact Nat.mul_lt_mul'' hx hy
  have s1 : SubFill (t.columns.length + 74) 32 g.ySub w1 (g.ySub.populate w1) (wrappingSub32 (x * y / 2 ^ 32) y) :=
    subFill_populate (by norm_num) a1 hl.ys hl.yf (by rw [hl.yx]; exact a2) (by rw [hl.yy]; exact hY.ext a3) hp hy
      (by rw [hl.yx]; exact p2.hi) (by rw [hl.yy]; exact p2.by')
  have s2 : SubFill (t.columns.length + 171) 32 g.xSub (g.ySub.populate w1) (g.xSub.populate (g.ySub.populate w1)) (wrappingSub32 N x) :=
    subFill_populate (by norm_num) b1 hl.xs hl.xf (by rw [hl.xx]; exact b2) (by rw [hl.xy]; exact hX.ext b3) e2 hx
      (by
        rw [hl.xx]
        exact p2.n.congr fun c hc => s1.ne _ (by have := idx_range hl.nlen hl.nph hc; omega) 0)
      (by
        rw [hl.xy]
        exact p2.bx.congr fun c hc => s1.ne _ (by have := hxL c hc; omega) 0)
  obtain ⟨f1, f2, f3, f4, f5, f6, f7⟩ := mulSS_build hT hl hxL hyL hX.length hY.length hx hy e3 p2 s1 s2 hN hO
  refine ⟨_, O, rfl, e1.symm, f1, f2, f3, f4, f5, ?_⟩
  rw [hl.out, wide_append, f6.wide (n := 32) hl.mul.llen (Nat.mod_lt _ (by norm_num)), f7.wide hl.olen e3, hl.mul.llen]
  norm_num

/-- If a number is negative, any number with the right parity does for the high half. -/
theorem mulSS_any {Tw : Tower F} (hT : 6 ≤ Tw.height) {t t' : Table F} {g : MulSS32} {ohb : List Col}
    (hl : MulSSLayout t.columns.length g ohb) (ht : MulSSTables t t' g ohb) (hX : HasAll t g.xInBits 32) (hY : HasAll t g.yInBits 32)
    (hd : ((g.xInBits ++ g.yInBits).map Col.idx).Nodup) {x y : Nat} (hx : x < 2 ^ 32) (hy : y < 2 ^ 32)
    (hneg : 2 ^ 31 ≤ x ∨ 2 ^ 31 ≤ y) {O : Nat} (hO : O < 2 ^ 32)
    (hpar : (x * y % 2 ^ 32 + 2 ^ 32 * O) % 2 ^ 33 = twos 64 (signed32 x * signed32 y) % 2 ^ 33) (w : Row F) :
    ∃ u, MulSSFilled Tw t.columns.length g ohb x y O w u := by
  have hxL : ∀ c ∈ g.xInBits, c.idx < t.columns.length := fun c hc => (hX.mem hc).lt
  have hyL : ∀ c ∈ g.yInBits, c.idx < t.columns.length := fun c hc => (hY.mem hc).lt
  obtain ⟨e1, e2, e3⟩ := signed_mul hx hy rfl rfl
  set N0 := if 2 ^ 31 ≤ x then wrappingSub32 (x * y / 2 ^ 32) y else x * y / 2 ^ 32 with hN0
  set O0 := if 2 ^ 31 ≤ y then wrappingSub32 N0 x else N0 with hO0
  have hpar' : O % 2 = O0 % 2 := by
    rw [e1] at hpar
    have := Nat.mod_lt (x * y) (show 0 < 2 ^ 32 by norm_num)
    omega
  obtain ⟨ta, a1, a2, a3⟩ := ht.hi
  obtain ⟨tb, b1, b2, b3⟩ := ht.nph
  have hp : x * y / 2 ^ 32 < 2 ^ 32 := by
    rw [Nat.div_lt_iff_lt_mul (by norm_num)]; exact Nat.mul_lt_mul'' hx hy
  -- a choice of the number in between and of the outputs of the subtractors
  obtain ⟨N, Zy, Zx, hN, hOe, hZy, hZx, -⟩ : ∃ N Zy Zx, (N = if 2 ^ 31 ≤ x then Zy else x * y / 2 ^ 32) ∧
      (O = if 2 ^ 31 ≤ y then Zx else N) ∧ Zy % 2 = (x * y / 2 ^ 32 + y) % 2 ∧ Zx % 2 = (N + x) % 2 ∧ True := by
    by_cases h2 : 2 ^ 31 ≤ y
    · rw [if_pos h2] at hO0
      refine ⟨N0, wrappingSub32 (x * y / 2 ^ 32) y, O, hN0, by rw [if_pos h2], wsub_parity _ _ hy, ?_, trivial⟩
      rw [hpar', hO0, wsub_parity _ _ hx]
    · have h1 : 2 ^ 31 ≤ x := by omega
      rw [if_neg h2] at hO0
      rw [if_pos h1] at hN0
      refine ⟨O, O, wrappingSub32 O x, by rw [if_pos h1], by rw [if_neg h2], ?_, wsub_parity _ _ hx, trivial⟩
      rw [hpar', hO0, hN0, wsub_parity _ _ hy]
  obtain ⟨w1, -, p2⟩ := mulSS_vals hl hxL hyL hX.length hY.length hd Tw.basis x y N O w
  obtain ⟨w2, s1⟩ := subFill_any (by norm_num) a1 hl.ys (by rw [hl.yx]; exact a2) (by rw [hl.yy]; exact hY.ext a3)
      (w := w1) (by rw [hl.yx]; exact p2.hi) (by rw [hl.yy]; exact p2.by') hZy
  obtain ⟨w3, s2⟩ := subFill_any (by norm_num) b1 hl.xs (by rw [hl.xx]; exact b2) (by rw [hl.xy]; exact hX.ext b3) (w := w2)
      (by
        rw [hl.xx]
        exact p2.n.congr fun c hc => s1.ne _ (by have := idx_range hl.nlen hl.nph hc; omega) 0)
      (by
        rw [hl.xy]
        exact p2.bx.congr fun c hc => s1.ne _ (by have := hxL c hc; omega) 0) hZx
  obtain ⟨f1, f2, f3, f4, f5, f6, f7⟩ := mulSS_build hT hl hxL hyL hX.length hY.length hx hy hO p2 s1 s2 hN hOe
  refine ⟨_, f1, f2, f3, f4, f5, ?_⟩
  rw [hl.out, wide_append, f6.wide (n := 32) hl.mul.llen (Nat.mod_lt _ (by norm_num)), f7.wide hl.olen hO, hl.mul.llen]
  norm_num

end Verif.M3
