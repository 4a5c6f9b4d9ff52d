import Verif.Math.LemmasFold

set_option linter.unusedSectionVars false

namespace Verif.Fold

open Verif.Tensor Verif.Mle Finset

variable {F : Type*} [CommRing F] {F' : Type*} [CommRing F']

theorem byteAt_lt (bit : F' → Bool) (evals : Slice F') (b : Nat) : byteAt bit evals b < 256 :=
  Nat.ofBits_lt_two_pow (n := 8) _

theorem byteAt_testBit (bit : F' → Bool) (evals : Slice F') (b i : Nat) (hi : i < 8) :
    (byteAt bit evals b).testBit i = bit (evals.val (8 * b + i)) :=
  Nat.testBit_ofBits_lt _ i hi

theorem smallTable_eq (query : Slice F) (l i : Nat) (hq : 2 ^ l ≤ query.size) :
    smallTable query l i =
      some (∑ j ∈ range (2 ^ l), if i.testBit j then query.val j else 0) := by
  unfold smallTable
  refine sumRange_eq fun j hj => ?_
  have : ((i >>> j) &&& 1 = 1) ↔ i.testBit j = true := by
    simp [Nat.testBit, Nat.and_comm]
  by_cases h : i.testBit j = true
  · rw [if_pos (this.2 h), if_pos h, Slice.get?_of_lt (by omega)]
  · rw [if_neg (fun h' => h (this.1 h')), if_neg h]

/-- A right fold of a one-bit table. -/
theorem rightAt_bits (emb : F' → F) (bit : F' → Bool) (hbit : ∀ x, emb x = if bit x then 1 else 0)
    (evals : Nat → F') (query : Nat → F) (k x : Nat) :
    rightAt emb evals query k x =
      ∑ t ∈ range (2 ^ k), if bit (evals (x * 2 ^ k + t)) then query t else 0 := by
  unfold rightAt
  refine sum_congr rfl fun t _ => ?_
  rw [hbit]
  split <;> simp

theorem foldRight1bitSmall_eq (emb : F' → F) (bit : F' → Bool)
    (hbit : ∀ x, emb x = if bit x then 1 else 0) (w w' l : Nat) (evals : Slice F') (n : Nat)
    (query out : Slice F) (hl : l < 3) (hln : l ≤ n) (hn : 3 ≤ n)
    (hw : w + l ≤ w') (he : evals.size = 2 ^ n) (hq : 2 ^ l ≤ query.size)
    (ho : 2 ^ (n - l) ≤ out.size) :
    ∃ o', foldRight1bitSmall bit w w' l evals query out = some (some o') ∧ o'.size = out.size ∧
      ∀ x < 2 ^ (n - l), o'.val x = rightAt emb evals.val query.val l x := by
  unfold foldRight1bitSmall
  rw [if_neg (by omega)]
  have hbytes : evals.size / 8 = 2 ^ (n - 3) := by
    rw [he]; exact Nat.pow_div hn (by omega)
  have hcount : 2 ^ (n - 3) * 2 ^ (3 - l) = 2 ^ (n - l) := by
    rw [← Nat.pow_add]; congr 1; omega
  have h8 : 2 ^ (3 - l) * 2 ^ l = 8 := by
    rw [← Nat.pow_add, Nat.sub_add_cancel (by omega)]
  obtain ⟨o', e, s, v⟩ := forRange_grid (out := out) (P := 2 ^ (n - 3)) (m := 2 ^ (3 - l))
    (W := 2 ^ (3 - l)) (v := rightAt emb evals.val query.val l)
    (body := fun b k out =>
        (smallTable query l ((byteAt bit evals b >>> (k * 2 ^ l)) &&& (2 ^ 2 ^ l - 1))).bind
          (out.set? (b * 2 ^ (3 - l) + k))) (Nat.two_pow_pos _) le_rfl (by
    intro b hb k hk o _
    rw [smallTable_eq _ _ _ hq, Option.bind_some]
    congr 1
    rw [rightAt_bits emb bit hbit]
    refine sum_congr rfl fun j hj => ?_
    rw [mem_range] at hj
    have hk8 : k * 2 ^ l + j < 8 := by
      have : k * 2 ^ l + 2 ^ l ≤ 2 ^ (3 - l) * 2 ^ l := by
        rw [← Nat.succ_mul]; exact Nat.mul_le_mul_right _ hk
      omega
    have : ((byteAt bit evals b >>> (k * 2 ^ l)) &&& (2 ^ 2 ^ l - 1)).testBit j =
        bit (evals.val ((b * 2 ^ (3 - l) + k) * 2 ^ l + j)) := by
      rw [Nat.and_two_pow_sub_one_eq_mod, Nat.testBit_mod_two_pow, Nat.testBit_shiftRight,
        byteAt_testBit _ _ _ _ hk8]
      rw [Nat.add_mul, Nat.mul_assoc, h8, Nat.mul_comm b 8, Nat.add_assoc]
      simp [hj]
    rw [this]) (by rw [hcount]; exact ho)
  refine ⟨o', by rw [hbytes]; exact congrArg some e, s, fun x hx => ?_⟩
  rw [v, if_pos ⟨by omega, Nat.mod_lt _ (Nat.two_pow_pos _)⟩]

/-! ### The tables of partial sums -/

theorem testBit_range {j m k : Nat} (hk : k < 2 ^ j) : (2 ^ j + m * (2 * 2 ^ j) + k).testBit j = true ∧
    (2 ^ j + m * (2 * 2 ^ j) + k) / (2 * 2 ^ j) = m ∧ (2 ^ j + m * (2 * 2 ^ j) + k) % 2 ^ j = k := by
  have hp := Nat.two_pow_pos j
  refine ⟨?_, ?_, ?_⟩
  · rw [Nat.testBit_eq_decide_div_mod_eq]
    have : (2 ^ j + m * (2 * 2 ^ j) + k) / 2 ^ j = 1 + m * 2 := by
      rw [show 2 ^ j + m * (2 * 2 ^ j) + k = k + 2 ^ j * (1 + m * 2) by ring,
        Nat.add_mul_div_left _ _ hp, Nat.div_eq_of_lt hk, Nat.zero_add]
    rw [this]
    simp
  · rw [show 2 ^ j + m * (2 * 2 ^ j) + k = (2 ^ j + k) + (2 * 2 ^ j) * m by ring,
      Nat.add_mul_div_left _ _ (by omega), Nat.div_eq_of_lt (by omega), Nat.zero_add]
  · rw [show 2 ^ j + m * (2 * 2 ^ j) + k = k + 2 ^ j * (1 + m * 2) by ring, Nat.add_mul_mod_self_left,
      Nat.mod_eq_of_lt hk]

theorem eq_of_testBit {j x : Nat} (hx : x.testBit j = true) :
    x = 2 ^ j + x / (2 * 2 ^ j) * (2 * 2 ^ j) + x % 2 ^ j := by
  have hp := Nat.two_pow_pos j
  rw [Nat.testBit_eq_decide_div_mod_eq, decide_eq_true_eq] at hx
  have h1 := Nat.div_add_mod x (2 ^ j)
  have h2 : x / (2 * 2 ^ j) = x / 2 ^ j / 2 := by rw [Nat.div_div_eq_div_mul, Nat.mul_comm]
  have h3 := Nat.div_add_mod (x / 2 ^ j) 2
  rw [h2]
  rw [hx] at h3
  calc x = 2 ^ j * (x / 2 ^ j) + x % 2 ^ j := h1.symm
    _ = 2 ^ j * (2 * (x / 2 ^ j / 2) + 1) + x % 2 ^ j := by rw [h3]
    _ = _ := by ring

theorem addToSums_eq (j : Nat) (value : F) (base : Nat) (t : Slice F) (hj : j < 8)
    (hsz : base + 256 ≤ t.size) :
    ∃ t', addToSums j value base t = some t' ∧ t'.size = t.size ∧
      ∀ x, t'.val x =
        if base ≤ x ∧ x < base + 256 ∧ (x - base).testBit j = true then t.val x + value else t.val x := by
  have hp := Nat.two_pow_pos j
  have h128 : 128 / 2 ^ j * (2 * 2 ^ j) = 256 := by
    have : j = 0 ∨ j = 1 ∨ j = 2 ∨ j = 3 ∨ j = 4 ∨ j = 5 ∨ j = 6 ∨ j = 7 := by omega
    rcases this with h | h | h | h | h | h | h | h <;> subst h <;> decide
  have key : ∀ x, x < 256 → x.testBit j = true → x / (2 * 2 ^ j) < 128 / 2 ^ j := by
    intro x hx _
    rw [Nat.div_lt_iff_lt_mul (by omega), h128]; exact hx
  -- `added m k y`: entry `y` has already received the value
  have main := forRange_inv (n := 128 / 2 ^ j) (s := t)
    (body := fun m t =>
      forRange (2 ^ j) (fun k t =>
        (t.get? (base + (2 ^ j + m * (2 * 2 ^ j)) + k)).bind fun s =>
          t.set? (base + (2 ^ j + m * (2 * 2 ^ j)) + k) (s + value)) t)
    (fun m (t' : Slice F) => t'.size = t.size ∧ ∀ x, t'.val x =
      if base ≤ x ∧ x < base + 256 ∧ (x - base).testBit j = true ∧ (x - base) / (2 * 2 ^ j) < m
      then t.val x + value else t.val x)
    ⟨rfl, fun x => by rw [if_neg (fun h => Nat.not_lt_zero _ h.2.2.2)]⟩ (by
    rintro m hm t1 ⟨hs1, hv1⟩
    have hmb : m * (2 * 2 ^ j) + 2 * 2 ^ j ≤ 256 := by
      rw [← h128, ← Nat.succ_mul]; exact Nat.mul_le_mul_right _ hm
    obtain ⟨t2, e2, hs2, hv2⟩ := forRange_inv (n := 2 ^ j) (s := t1)
      (body := fun k t =>
        (t.get? (base + (2 ^ j + m * (2 * 2 ^ j)) + k)).bind fun s =>
          t.set? (base + (2 ^ j + m * (2 * 2 ^ j)) + k) (s + value))
      (fun k (t' : Slice F) => t'.size = t.size ∧ ∀ x, t'.val x =
        if base + (2 ^ j + m * (2 * 2 ^ j)) ≤ x ∧ x < base + (2 ^ j + m * (2 * 2 ^ j)) + k
        then t.val x + value else t1.val x) ⟨hs1, fun x => by rw [if_neg (by omega)]⟩ (by
      rintro k hk t' ⟨hs', hv'⟩
      set X := base + (2 ^ j + m * (2 * 2 ^ j)) + k with hX
      have hXlt : X < t'.size := by omega
      refine ⟨⟨t'.size, fun i => if i = X then t'.val X + value else t'.val i⟩, ?_, hs', fun x => ?_⟩
      · rw [Slice.get?_of_lt hXlt, Option.bind_some, Slice.set?_of_lt hXlt]
      · show (if x = X then _ else _) = _
        by_cases hx : x = X
        · rw [if_pos hx, if_pos (by omega), hv' X, if_neg (by omega), hv1 X, if_neg, hx]
          have := testBit_range (m := m) hk
          rw [show X - base = 2 ^ j + m * (2 * 2 ^ j) + k by omega, this.2.1]
          omega
        · rw [if_neg hx, hv' x]
          by_cases h : base + (2 ^ j + m * (2 * 2 ^ j)) ≤ x ∧ x < base + (2 ^ j + m * (2 * 2 ^ j)) + k
          · rw [if_pos h, if_pos (by omega)]
          · rw [if_neg h, if_neg (by omega)])
    refine ⟨t2, e2, hs2, fun x => ?_⟩
    rw [hv2, hv1]
    by_cases h : base + (2 ^ j + m * (2 * 2 ^ j)) ≤ x ∧
        x < base + (2 ^ j + m * (2 * 2 ^ j)) + 2 ^ j
    · obtain ⟨k, hk, hxk⟩ : ∃ k, k < 2 ^ j ∧ x - base = 2 ^ j + m * (2 * 2 ^ j) + k :=
        ⟨x - base - (2 ^ j + m * (2 * 2 ^ j)), by omega, by omega⟩
      have := testBit_range (m := m) hk
      rw [if_pos h, if_pos]
      rw [hxk]
      exact ⟨by omega, by omega, this.1, by omega⟩
    · rw [if_neg h]
      by_cases h2 : base ≤ x ∧ x < base + 256 ∧ (x - base).testBit j = true ∧
          (x - base) / (2 * 2 ^ j) < m
      · rw [if_pos h2, if_pos ⟨h2.1, h2.2.1, h2.2.2.1, by omega⟩]
      · rw [if_neg h2, if_neg]
        rintro ⟨h3, h4, h5, h6⟩
        have h7 : (x - base) / (2 * 2 ^ j) = m := by
          by_contra hne
          exact h2 ⟨h3, h4, h5, by omega⟩
        have h8 := eq_of_testBit h5
        rw [h7] at h8
        have h9 := Nat.mod_lt (x - base) hp
        apply h
        constructor <;> omega)
  obtain ⟨t', e, hs, hv⟩ := main
  refine ⟨t', e, hs, fun x => ?_⟩
  rw [hv]
  by_cases h : base ≤ x ∧ x < base + 256 ∧ (x - base).testBit j = true
  · rw [if_pos h, if_pos ⟨h.1, h.2.1, h.2.2, key _ (by omega) h.2.2⟩]
  · rw [if_neg h, if_neg]
    rintro ⟨a, b, c, _⟩
    exact h ⟨a, b, c⟩

/-- Entry `b` of table `c` is the sum of the values of chunk `c` selected by the bits of `b`. -/
theorem partialSumsTables_eq (values : Slice F) (h8 : values.size % 8 = 0) :
    ∃ t, partialSumsTables values = some t ∧ t.size = values.size * 32 ∧
      ∀ c < values.size / 8, ∀ b < 256, t.val (256 * c + b) =
        ∑ j ∈ range 8, if b.testBit j then values.val (8 * c + j) else 0 := by
  unfold partialSumsTables
  rw [if_neg (by omega)]
  have main := forRange_inv (n := values.size / 8) (s := (⟨values.size * 32, fun _ => 0⟩ : Slice F))
    (body := fun c t =>
      forRange 8 (fun j t => (values.get? (8 * c + j)).bind fun v => addToSums j v (256 * c) t) t)
    (fun c (t : Slice F) => t.size = values.size * 32 ∧
      (∀ c' < c, ∀ b < 256, t.val (256 * c' + b) =
        ∑ j ∈ range 8, if b.testBit j then values.val (8 * c' + j) else 0) ∧
      ∀ x, 256 * c ≤ x → t.val x = 0) ⟨rfl, fun c' hc' => absurd hc' (by omega), fun _ _ => rfl⟩ (by
    rintro c hc t ⟨hs, hv, hz⟩
    obtain ⟨t', e, hs', hv', hu⟩ := forRange_inv (n := 8) (s := t)
      (body := fun j t => (values.get? (8 * c + j)).bind fun v => addToSums j v (256 * c) t)
      (fun k (t' : Slice F) => t'.size = values.size * 32 ∧
        (∀ b < 256, t'.val (256 * c + b) =
          ∑ j ∈ range k, if b.testBit j then values.val (8 * c + j) else 0) ∧
        ∀ x, x < 256 * c ∨ 256 * c + 256 ≤ x → t'.val x = t.val x)
      ⟨hs, fun b _ => by rw [hz _ (by omega), range_zero, sum_empty], fun _ _ => rfl⟩ (by
      rintro j hj t1 ⟨hs1, hv1, hu1⟩
      obtain ⟨t2, e2, hs2, hv2⟩ := addToSums_eq j (values.val (8 * c + j)) (256 * c) t1 hj (by omega)
      refine ⟨t2, ?_, by rw [hs2, hs1], fun b hb => ?_, fun x hx => ?_⟩
      · rw [Slice.get?_of_lt (by omega)]; exact e2
      · rw [hv2, hv1 b hb, sum_range_succ, Nat.add_sub_cancel_left]
        by_cases hbj : b.testBit j = true
        · rw [if_pos ⟨by omega, by omega, hbj⟩, if_pos hbj]
        · rw [if_neg (fun h => hbj h.2.2), if_neg hbj, add_zero]
      · rw [hv2, if_neg (by omega), hu1 x hx])
    refine ⟨t', e, hs', fun c' hc' b hb => ?_, fun x hx => ?_⟩
    · by_cases h : c' = c
      · subst h; exact hv' b hb
      · rw [hu _ (by omega)]; exact hv c' (by omega) b hb
    · rw [hu x (by omega)]; exact hz x (by omega))
  obtain ⟨t, e, hs, hv, _⟩ := main
  exact ⟨t, e, hs, hv⟩

theorem foldRight1bitMedium_eq (emb : F' → F) (bit : F' → Bool)
    (hbit : ∀ x, emb x = if bit x then 1 else 0) (l : Nat) (evals : Slice F') (n : Nat)
    (query out : Slice F) (hl : 3 ≤ l) (hn : l ≤ n) (he : evals.size = 2 ^ n)
    (ho : 2 ^ (n - l) ≤ out.size) :
    ∃ o', foldRight1bitMedium bit l evals query out = some o' ∧ o'.size = out.size ∧
      ∀ x < 2 ^ (n - l), o'.val x = rightAt emb evals.val query.val l x := by
  have hl8 : 2 ^ l = 8 * 2 ^ (l - 3) := by
    rw [show 8 = 2 ^ 3 by rfl, ← Nat.pow_add]; congr 1; omega
  set C := 2 ^ (l - 3) with hC
  have hCpos : 0 < C := Nat.two_pow_pos _
  obtain ⟨t, et, hts, htv⟩ := partialSumsTables_eq (⟨2 ^ l, query.val⟩ : Slice F) (by
    show 2 ^ l % 8 = 0; omega)
  have hts' : t.size = 256 * C := by rw [hts]; show 2 ^ l * 32 = _; omega
  have htv' : ∀ c < C, ∀ b < 256, t.val (256 * c + b) =
      ∑ j ∈ range 8, if b.testBit j then query.val (8 * c + j) else 0 := fun c hc b hb =>
    htv c (by show c < 2 ^ l / 8; omega) b hb
  have hbytes : evals.size / 8 = 2 ^ (n - l) * C := by
    rw [he, show 8 = 2 ^ 3 by rfl, Nat.pow_div (by omega) (by omega), hC, ← Nat.pow_add]
    congr 1; omega
  unfold foldRight1bitMedium
  rw [et, Option.bind_some, hbytes]
  -- partial sums
  set term := fun x c => ∑ j ∈ range 8,
    if bit (evals.val (8 * (x * C + c) + j)) then query.val (8 * c + j) else 0 with hterm
  have hfull : ∀ x, ∑ c ∈ range C, term x c = rightAt emb evals.val query.val l x := by
    intro x
    rw [rightAt_bits emb bit hbit, hl8, sum_range_mul]
    refine sum_congr rfl fun c _ => sum_congr rfl fun j _ => ?_
    rw [show 8 * (x * C + c) + j = x * (8 * C) + (j + 8 * c) by ring, Nat.add_comm j (8 * c)]
  have main := forRange_inv (n := 2 ^ (n - l) * C) (s := (⟨0, 0, 0, out⟩ : MedState F))
    (body := fun b s => medStep t C (byteAt bit evals b) s)
    (fun b (s : MedState F) => s.index = b / C ∧ s.table = b % C ∧ s.out.size = out.size ∧
      s.value = ∑ c ∈ range (b % C), term (b / C) c ∧
      ∀ x < b / C, s.out.val x = ∑ c ∈ range C, term x c)
    ⟨by simp, by simp, rfl, by simp, fun x hx => absurd hx (by simp)⟩ (by
    rintro b hb s ⟨h1, h2, h3, h4, h5⟩
    have hmod := Nat.mod_lt b hCpos
    have hbC : b / C * C + b % C = b := by rw [Nat.mul_comm]; exact Nat.div_add_mod b C
    have hdiv : b / C < 2 ^ (n - l) := by rw [Nat.div_lt_iff_lt_mul hCpos]; exact hb
    have hbyte := byteAt_lt bit evals b
    have hget : t.get? (s.table <<< 8 + byteAt bit evals b) = some (term (b / C) (b % C)) := by
      rw [Nat.shiftLeft_eq, h2, Slice.get?_of_lt (by rw [hts']; omega), Nat.mul_comm,
        show 2 ^ 8 = 256 by rfl, htv' _ hmod _ hbyte, hterm]
      congr 1
      refine sum_congr rfl fun j hj => ?_
      rw [byteAt_testBit _ _ _ _ (mem_range.1 hj), hbC]
    unfold medStep
    rw [hget, Option.bind_some]
    by_cases hlast : s.table + 1 = C
    · rw [if_pos hlast, Slice.set?_of_lt (by omega), Option.bind_some]
      have hmod1 : (b + 1) % C = 0 ∧ (b + 1) / C = b / C + 1 := by
        have : b + 1 = 0 + C * (b / C + 1) := by
          rw [Nat.mul_add, Nat.mul_one, Nat.mul_comm]; omega
        rw [this, Nat.add_mul_mod_self_left, Nat.add_mul_div_left _ _ hCpos]
        simp
      refine ⟨_, rfl, ?_, ?_, h3, ?_, fun x hx => ?_⟩
      · show s.index + 1 = _; omega
      · show 0 = _; omega
      · show (0 : F) = _; rw [hmod1.1, range_zero, sum_empty]
      · show (if x = s.index then _ else _) = _
        rw [hmod1.2] at hx
        by_cases hxi : x = s.index
        · rw [if_pos hxi, h4, ← sum_range_succ, hxi, h1, ← h2, hlast]
        · rw [if_neg hxi]; exact h5 x (by omega)
    · rw [if_neg hlast]
      have hmod1 : (b + 1) % C = b % C + 1 ∧ (b + 1) / C = b / C := by
        have : b + 1 = (b % C + 1) + C * (b / C) := by rw [Nat.mul_comm]; omega
        have h : b % C + 1 < C := by omega
        constructor
        · conv_lhs => rw [this]
          rw [Nat.add_mul_mod_self_left, Nat.mod_eq_of_lt h]
        · conv_lhs => rw [this]
          rw [Nat.add_mul_div_left _ _ hCpos, Nat.div_eq_of_lt h, Nat.zero_add]
      refine ⟨_, rfl, ?_, ?_, h3, ?_, fun x hx => ?_⟩
      · show s.index = _; omega
      · show s.table + 1 = _; omega
      · show s.value + _ = _; rw [hmod1.1, hmod1.2, sum_range_succ, h4]
      · exact h5 x (by omega))
  obtain ⟨s, e, -, -, h3, -, h5⟩ := main
  rw [e]
  refine ⟨s.out, rfl, h3, fun x hx => ?_⟩
  rw [h5 x (by rw [Nat.mul_div_cancel _ hCpos]; exact hx), hfull]

end Verif.Fold
