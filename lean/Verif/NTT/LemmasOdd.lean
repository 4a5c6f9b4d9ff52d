import Verif.NTT.ModelOdd
import Verif.NTT.LemmasFri
import Verif.NTT.PropsNtt
import Verif.Math.PropsMatrix
import Mathlib.LinearAlgebra.Lagrange

/-! Lemmas for odd interpolation: the novel basis is a basis, the Vandermonde matrix and the split of the interpolation. -/

set_option linter.unusedSectionVars false

namespace Verif.NTT

open Finset Spec Polynomial
open Verif.Subspace (BinarySubspace)
open Verif.Matrix (Mat toMatrix C20_inverse)

variable {F : Type*} [Field F] [DecidableEq F]

/-! ### Independence of the novel basis on any number of first points -/

theorem point_inj (h2 : (1 : F) + 1 = 0) {γ : List F} (hind : Independent γ) {p q : Nat} (hp : p < 2 ^ γ.length)
    (hq : q < 2 ^ γ.length) (h : point γ p = point γ q) : p = q := by
  by_contra hne
  refine hind (p ^^^ q) (Nat.pos_of_ne_zero fun h0 => hne (Nat.xor_eq_zero_iff.1 h0)) (Nat.xor_lt_two_pow hp hq) ?_
  rw [point_xor h2, h, ← mul_two, show (2 : F) = 1 + 1 by norm_num, h2, mul_zero]

/-- The polynomial of a normalized subspace polynomial. -/
noncomputable def normP (γ : List F) (i : Nat) : F[X] :=
  C (subspacePoly γ i (γ.getD i 0))⁻¹ * ∏ u ∈ range (2 ^ i), (X - C (point (γ.take i) u))

theorem normP_eval (γ : List F) (i : Nat) (x : F) : (normP γ i).eval x = normPoly γ i x := by
  rw [normP, eval_mul, eval_C, eval_prod, normPoly, div_eq_inv_mul]
  simp only [eval_sub, eval_X, eval_C]
  rfl

theorem normP_degree (h2 : (1 : F) + 1 = 0) {γ : List F} (hind : Independent γ) {i : Nat} (hi : i < γ.length) :
    normP γ i ≠ 0 ∧ (normP γ i).natDegree = 2 ^ i := by
  have h0 : (subspacePoly γ i (γ.getD i 0))⁻¹ ≠ 0 := inv_ne_zero (norm_ne_zero h2 hind hi)
  have hm : (∏ u ∈ range (2 ^ i), (X - C (point (γ.take i) u))).Monic := monic_prod_of_monic _ _ fun u _ => monic_X_sub_C _
  refine ⟨mul_ne_zero (C_ne_zero.2 h0) hm.ne_zero, ?_⟩
  rw [normP, natDegree_C_mul h0, natDegree_prod_of_monic _ _ fun u _ => monic_X_sub_C _]
  simp

/-- The polynomial of an element of the novel basis. -/
noncomputable def novelP (γ : List F) (k n : Nat) : F[X] := ∏ i ∈ range n, if k.testBit i then normP γ i else 1

theorem novelP_eval (γ : List F) (k : Nat) (x : F) : (novelP γ k γ.length).eval x = novel γ k x := by
  rw [novelP, eval_prod, novel]
  refine prod_congr rfl fun i _ => ?_
  split
  · exact normP_eval γ i x
  · exact eval_one

theorem novelP_degree (h2 : (1 : F) + 1 = 0) {γ : List F} (hind : Independent γ) (k : Nat) : ∀ n, n ≤ γ.length →
    novelP γ k n ≠ 0 ∧ (novelP γ k n).natDegree = k % 2 ^ n
  | 0, _ => by simp [novelP, Nat.mod_one]
  | n + 1, hn => by
    obtain ⟨h0, hd⟩ := novelP_degree h2 hind k n (by omega)
    obtain ⟨g0, gd⟩ := normP_degree h2 hind (i := n) (by omega)
    have e : novelP γ k (n + 1) = novelP γ k n * if k.testBit n then normP γ n else 1 := prod_range_succ _ _
    rw [e, Nat.pow_succ, Nat.mod_mul]
    have ht := Nat.testBit_eq_decide_div_mod_eq (x := k) (i := n)
    by_cases hb : k.testBit n = true
    · rw [hb] at ht
      rw [if_pos hb, natDegree_mul h0 g0, hd, gd, of_decide_eq_true ht.symm, mul_one]
      exact ⟨mul_ne_zero h0 g0, rfl⟩
    · rw [Bool.not_eq_true] at hb
      have := of_decide_eq_false (ht.symm.trans hb)
      rw [hb, if_neg (by simp), mul_one, hd, show k / 2 ^ n % 2 = 0 by omega, mul_zero, add_zero]
      exact ⟨h0, rfl⟩

theorem coeffs_zero (P : Nat → F[X]) (N : Nat) (hP : ∀ k < N, P k ≠ 0 ∧ (P k).natDegree = k) (c : Nat → F) : ∀ n, n ≤ N →
    ∑ k ∈ range n, C (c k) * P k = 0 → ∀ k < n, c k = 0
  | 0, _, _, k, hk => by omega
  | n + 1, hn, h, k, hk => by
    have hc : c n = 0 := by
      have e := congrArg (fun p : F[X] => p.coeff n) h
      simp only [finsetSum_coeff, coeff_C_mul, coeff_zero] at e
      rw [sum_range_succ, sum_eq_zero, zero_add] at e
      · rcases mul_eq_zero.1 e with e | e
        · exact e
        · obtain ⟨h0, hd⟩ := hP n (by omega)
          rw [← hd] at e
          exact absurd (leadingCoeff_eq_zero.1 (by rw [hd] at e; rw [leadingCoeff, hd]; exact e)) h0
      · intro i hi
        rw [mem_range] at hi
        rw [coeff_eq_zero_of_natDegree_lt (by rw [(hP i (by omega)).2]; exact hi), mul_zero]
    rw [sum_range_succ, hc, C_0, zero_mul, add_zero] at h
    by_cases hkn : k = n
    · rw [hkn, hc]
    · exact coeffs_zero P N hP c n (by omega) h k (by omega)

/-- Coefficients of a polynomial of degree less than `n` that vanishes at the first `n` points are zero. -/
theorem novelEval_zero (h2 : (1 : F) + 1 = 0) {γ : List F} (hind : Independent γ) {n : Nat} (hn : n ≤ 2 ^ γ.length)
    (c : Nat → F) (h : ∀ p < n, novelEval γ n c (point γ p) = 0) : ∀ j < n, c j = 0 := by
  have hP : ∀ k < n, novelP γ k γ.length ≠ 0 ∧ (novelP γ k γ.length).natDegree = k := fun k hk => by
    obtain ⟨h1, h3⟩ := novelP_degree h2 hind k γ.length le_rfl
    exact ⟨h1, by rw [h3, Nat.mod_eq_of_lt (by omega)]⟩
  refine coeffs_zero (fun k => novelP γ k γ.length) n hP c n le_rfl ?_
  refine eq_zero_of_degree_lt_of_eval_finset_eq_zero ((range n).image (point γ)) ?_ ?_
  · rw [card_image_of_injOn fun p hp q hq e => point_inj h2 hind (by
      have := mem_range.1 (mem_coe.1 hp); omega) (by have := mem_range.1 (mem_coe.1 hq); omega) e, card_range]
    refine lt_of_le_of_lt (degree_sum_le _ _) ?_
    refine (Finset.sup_lt_iff (WithBot.bot_lt_coe n)).2 fun k hk => ?_
    rw [mem_range] at hk
    refine lt_of_le_of_lt ((degree_mul_le _ _).trans (add_le_add degree_C_le le_rfl)) ?_
    rw [zero_add, degree_eq_natDegree (hP k hk).1, (hP k hk).2]
    exact WithBot.coe_lt_coe.2 hk
  · intro x hx
    obtain ⟨p, hp, rfl⟩ := mem_image.1 hx
    rw [eval_finsetSum, ← h p (mem_range.1 hp), novelEval]
    refine sum_congr rfl fun k _ => ?_
    rw [eval_mul, eval_C, novelP_eval]

theorem novelEval_sub (γ : List F) (n : Nat) (c c' : Nat → F) (x : F) :
    novelEval γ n (fun j => c j - c' j) x = novelEval γ n c x - novelEval γ n c' x := by
  simp only [novelEval, sub_mul, sum_sub_distrib]

theorem novelEval_unique (h2 : (1 : F) + 1 = 0) {γ : List F} (hind : Independent γ) {n : Nat} (hn : n ≤ 2 ^ γ.length)
    (c c' : Nat → F) (h : ∀ p < n, novelEval γ n c (point γ p) = novelEval γ n c' (point γ p)) : ∀ j < n, c j = c' j :=
  fun j hj => sub_eq_zero.1 (novelEval_zero h2 hind hn (fun j => c j - c' j)
    (fun p hp => by rw [novelEval_sub, h p hp, sub_self]) j hj)

/-! ### The domain of dimension `l + e` seen from that of dimension `l` -/

theorem normPoly_iter (h2 : (1 : F) + 1 = 0) {β : List F} (hind : Independent β) {l i : Nat} (hi : i < l) (p : Nat) :
    ∀ e, l + e ≤ β.length → normPoly (domainBasis β (l + e)) (i + e) (point (domainBasis β (l + e)) p) =
      normPoly (domainBasis β l) i (point (domainBasis β l) (p / 2 ^ e))
  | 0, _ => by simp
  | e + 1, h => by
    have ih := normPoly_iter h2 hind hi (p / 2) e (by omega)
    rw [← Nat.add_assoc, ← Nat.add_assoc, normPoly_step h2 hind (l := l + e) (by omega) p (i + e) (by omega), ih,
      Nat.div_div_eq_div_mul, Nat.pow_succ']

theorem novel_split (h2 : (1 : F) + 1 = 0) {β : List F} (hind : Independent β) {l e : Nat} (h : l + e ≤ β.length)
    (p k s : Nat) (hs : s < 2 ^ e) :
    novel (domainBasis β (l + e)) (k * 2 ^ e + s) (point (domainBasis β (l + e)) p) =
      novel (domainBasis β l) k (point (domainBasis β l) (p / 2 ^ e)) *
        novel (domainBasis β (l + e)) s (point (domainBasis β (l + e)) p) := by
  unfold novel
  rw [domainBasis_length h, domainBasis_length (show l ≤ β.length by omega), Nat.add_comm l e, prod_range_add,
    prod_range_add]
  have h1 : ∀ i < e, (k * 2 ^ e + s).testBit i = s.testBit i := fun i hi => by
    rw [Nat.mul_comm, Nat.testBit_two_pow_mul_add _ hs, if_pos hi]
  have h3 : ∀ i, (k * 2 ^ e + s).testBit (e + i) = k.testBit i := fun i => by
    rw [Nat.mul_comm, Nat.testBit_two_pow_mul_add _ hs, if_neg (by omega), Nat.add_sub_cancel_left]
  have h4 : ∀ i, s.testBit (e + i) = false := fun i =>
    Nat.testBit_lt_two_pow (lt_of_lt_of_le hs (Nat.pow_le_pow_right (by omega) (by omega)))
  rw [prod_congr rfl fun i hi => by rw [h1 i (mem_range.1 hi)], mul_comm]
  congr 1
  · refine prod_congr rfl fun i hi => ?_
    rw [h3, Nat.add_comm e l, Nat.add_comm e i, normPoly_iter h2 hind (mem_range.1 hi) p e (by omega)]
  · rw [prod_eq_one (s := range l) fun i _ => by rw [h4, if_neg (by simp)], mul_one]

/-! ### The Vandermonde matrix -/

theorem novel_top {γ : List F} {j k : Nat} (hj : j < γ.length) (hk : k < 2 ^ j) (x : F) :
    novel γ (k + 2 ^ j) x = novel γ k x * normPoly γ j x := by
  have e : normPoly γ j x = ∏ i ∈ range γ.length, if i = j then normPoly γ i x else 1 := by
    rw [prod_ite_eq' (range γ.length) j, if_pos (mem_range.2 hj)]
  rw [e, novel, novel, ← prod_mul_distrib]
  refine prod_congr rfl fun i _ => ?_
  have ht : (k + 2 ^ j).testBit i = if i < j then k.testBit i else (1 : Nat).testBit (i - j) := by
    rw [Nat.add_comm, ← Nat.testBit_two_pow_mul_add 1 hk i, Nat.mul_one]
  rw [ht]
  rcases Nat.lt_trichotomy i j with h | rfl | h
  · rw [if_pos h, if_neg (show ¬ i = j by omega), mul_one]
  · rw [if_neg (lt_irrefl _), Nat.sub_self, if_pos rfl, Nat.testBit_lt_two_pow hk]
    simp
  · rw [if_neg (show ¬ i < j by omega), if_neg (show ¬ i = j by omega), mul_one,
      Nat.testBit_lt_two_pow (x := k) (lt_of_lt_of_le hk (Nat.pow_le_pow_right (by omega) (by omega))),
      Nat.testBit_lt_two_pow (x := 1) (i := i - j) (Nat.one_lt_two_pow (by omega))]

theorem novel_zero (γ : List F) (x : F) : novel γ 0 x = 1 := by simp [novel]

theorem lt_of_lt_log2Ceil {d j : Nat} (h : j < log2Ceil d) : 2 ^ j < d := by
  unfold log2Ceil at h
  split at h
  · omega
  · have h1 : 2 ^ Nat.log2 (d - 1) ≤ d - 1 := Nat.log2_self_le (by omega)
    have h3 : 2 ^ j ≤ 2 ^ Nat.log2 (d - 1) := Nat.pow_le_pow_right (by omega) (by omega)
    omega

theorem le_pow_log2Ceil (d : Nat) : d ≤ 2 ^ log2Ceil d := by
  unfold log2Ceil
  split
  · simp; omega
  · have := Nat.lt_log2_self (n := d - 1)
    omega

theorem matSet_of_lt {x : Mat F} {i j : Nat} {v : F} (h : i < x.m ∧ j < x.n) :
    matSet x i j v = some { x with at' := fun a b => if a = i ∧ b = j then v else x.at' a b } := if_pos h

theorem matGet_of_lt {x : Mat F} {i j : Nat} (h : i < x.m ∧ j < x.n) : matGet x i j = some (x.at' i j) := if_pos h

/-- Entry by entry writes of a column. -/
theorem setColumn (d c : Nat) (hc : c < d) (body : Nat → Mat F → Option (Mat F)) (f : Nat → F) (x : Mat F)
    (hx : x.m = d ∧ x.n = d)
    (hb : ∀ i < d, ∀ y : Mat F, y.m = d ∧ y.n = d → (∀ a b, b ≠ c → y.at' a b = x.at' a b) → body i y = matSet y i c (f i)) :
    ∃ y, forRange d body x = some y ∧ (y.m = d ∧ y.n = d) ∧ (∀ a b, b ≠ c → y.at' a b = x.at' a b) ∧
      ∀ a < d, y.at' a c = f a := by
  obtain ⟨y, h1, h3, h4, h5⟩ := forRange_inv (n := d) (body := body) (s := x)
    (fun i y => (y.m = d ∧ y.n = d) ∧ (∀ a b, b ≠ c → y.at' a b = x.at' a b) ∧ ∀ a < i, y.at' a c = f a)
    ⟨hx, fun _ _ _ => rfl, fun a ha => by omega⟩ (by
      rintro i hi y ⟨hy, h1, h3⟩
      refine ⟨_, (hb i hi y hy h1).trans (matSet_of_lt (by rw [hy.1, hy.2]; exact ⟨hi, hc⟩)), hy, fun a b hne => ?_,
        fun a ha => ?_⟩
      · show (if a = i ∧ b = c then _ else _) = _
        rw [if_neg (fun h => hne h.2), h1 a b hne]
      · show (if a = i ∧ c = c then _ else _) = _
        by_cases hai : a = i
        · rw [if_pos ⟨hai, rfl⟩, hai]
        · rw [if_neg (fun h => hai h.1), h3 a (by omega)])
  exact ⟨y, h1, h3, h4, h5⟩

/-- The entries that `get_subspace_eval` and the bit give. -/
theorem subspaceEval_bit (h2 : (1 : F) + 1 = 0) {β : List F} {tas tbl : List (TA F)}
    (h : withSubspace (⟨β⟩ : BinarySubspace F) = some (.ok tas)) (ht : tbl = tas ∨ tbl = precomputeTwiddles tas)
    {cb j i : Nat} (hcb : cb ≤ β.length) (hj : j < cb) (hi : i < 2 ^ cb) :
    ∃ e, getSubspaceEval tbl (cb - j) (i >>> (j + 1)) = some e ∧
      (e + if (i >>> j) &&& 1 = 1 then 1 else 0) = normPoly (domainBasis β cb) j (point (domainBasis β cb) i) := by
  obtain ⟨-, -, hind, -⟩ := ready_of h2 h ht
  refine ⟨_, C13_get_subspace_eval h2 h ht (cb - j) (i >>> (j + 1)) (by omega) (by omega) ?_, ?_⟩
  · rw [Nat.shiftRight_eq_div_pow, Nat.div_lt_iff_lt_mul (Nat.two_pow_pos _), ← Nat.pow_add]
    rwa [show cb - j - 1 + (j + 1) = cb by omega]
  · have hn := normPoly_iter h2 hind (l := cb - j) (i := 0) (by omega) i j (by omega)
    rw [show cb - j + j = cb by omega, Nat.zero_add, normPoly_zero_of (domainBasis_one h2 hind (by omega) (by omega))] at hn
    rw [hn]
    obtain ⟨τ, h1, h3⟩ := domain_cons h2 hind (l := cb - j - 1) (by omega)
    rw [show cb - j - 1 + 1 = cb - j by omega] at h1 h3
    rw [h3, h1, point_cons, Nat.and_one_is_mod, Nat.shiftRight_eq_div_pow, Nat.shiftRight_eq_div_pow, Nat.div_div_eq_div_mul,
      ← Nat.pow_succ, add_comm]
    congr 1
    rw [Nat.testBit_zero]
    by_cases hb : i / 2 ^ j % 2 = 1 <;> simp [hb]

theorem vandermondeRound_ok (h2 : (1 : F) + 1 = 0) {β : List F} {tas tbl : List (TA F)}
    (h : withSubspace (⟨β⟩ : BinarySubspace F) = some (.ok tas)) (ht : tbl = tas ∨ tbl = precomputeTwiddles tas)
    {d cb j : Nat} (hcb : cb ≤ β.length) (hd : d ≤ 2 ^ cb) (hj : 2 ^ j < d) (x : Mat F) (hx : x.m = d ∧ x.n = d)
    (hv : ∀ i < d, ∀ k < d, k < 2 ^ j → x.at' i k = novel (domainBasis β cb) k (point (domainBasis β cb) i)) :
    ∃ y, vandermondeRound tbl d cb j x = some y ∧ (y.m = d ∧ y.n = d) ∧
      ∀ i < d, ∀ k < d, k < 2 ^ (j + 1) → y.at' i k = novel (domainBasis β cb) k (point (domainBasis β cb) i) := by
  have hjcb : j < cb := (Nat.pow_lt_pow_iff_right (by omega)).1 (lt_of_lt_of_le hj hd)
  have hlen : j < (domainBasis β cb).length := by rw [domainBasis_length hcb]; exact hjcb
  have hs : 1 <<< j = 2 ^ j := Nat.one_shiftLeft j
  unfold vandermondeRound
  rw [if_neg (by omega), hs]
  obtain ⟨y, y1, y2, y3, y4⟩ := setColumn d (2 ^ j) hj
    (fun i x => (getSubspaceEval tbl (cb - j) (i >>> (j + 1))).bind fun e =>
      matSet x i (2 ^ j) (e + if (i >>> j) &&& 1 = 1 then 1 else 0))
    (fun i => normPoly (domainBasis β cb) j (point (domainBasis β cb) i)) x hx (fun i hi y _ _ => by
      obtain ⟨e, e1, e2⟩ := subspaceEval_bit h2 h ht hcb hjcb (i := i) (by omega)
      rw [e1, Option.bind_some, e2])
  rw [y1, Option.bind_some, if_neg (by omega)]
  have hcol : ∀ i < d, y.at' i (2 ^ j) = novel (domainBasis β cb) (2 ^ j) (point (domainBasis β cb) i) := fun i hi => by
    have := novel_top hlen (Nat.two_pow_pos j) (point (domainBasis β cb) i)
    rw [Nat.zero_add, novel_zero, one_mul] at this
    rw [y4 i hi, this]
  obtain ⟨z, z1, z2, z3⟩ := forRange_inv (n := min (2 ^ j) (d - 2 ^ j) - 1) (s := y)
    (body := fun k x => forRange d (fun t x => (matGet x t (k + 1)).bind fun a => (matGet x t (2 ^ j)).bind fun b =>
      matSet x t (k + 1 + 2 ^ j) (a * b)) x)
    (fun n z => (z.m = d ∧ z.n = d) ∧ ∀ i < d, ∀ k < d, k < 2 ^ j + 1 + n →
      z.at' i k = novel (domainBasis β cb) k (point (domainBasis β cb) i))
    ⟨y2, fun i hi k hk hk' => by
      by_cases hkj : k = 2 ^ j
      · rw [hkj, hcol i hi]
      · rw [y3 i k hkj, hv i hi k hk (by omega)]⟩
    (by
      rintro n hn z ⟨hz, hz'⟩
      have hn1 : n + 1 < 2 ^ j := by omega
      have hn2 : n + 1 + 2 ^ j < d := by omega
      obtain ⟨u, u1, u2, u3, u4⟩ := setColumn d (n + 1 + 2 ^ j) hn2
        (fun t x => (matGet x t (n + 1)).bind fun a => (matGet x t (2 ^ j)).bind fun b =>
          matSet x t (n + 1 + 2 ^ j) (a * b))
        (fun i => novel (domainBasis β cb) (n + 1 + 2 ^ j) (point (domainBasis β cb) i)) z hz (fun i hi y hy hyz => by
          rw [matGet_of_lt (by rw [hy.1, hy.2]; omega), Option.bind_some, matGet_of_lt (by rw [hy.1, hy.2]; omega),
            Option.bind_some, hyz _ _ (by omega), hyz _ _ (by omega), hz' i hi (n + 1) (by omega) (by omega),
            hz' i hi (2 ^ j) hj (by omega), novel_top hlen hn1]
          have := novel_top hlen (Nat.two_pow_pos j) (point (domainBasis β cb) i)
          rw [Nat.zero_add, novel_zero, one_mul] at this
          rw [this])
      refine ⟨u, u1, u2, fun i hi k hk hk' => ?_⟩
      by_cases hke : k = n + 1 + 2 ^ j
      · rw [hke, u4 i hi]
      · rw [u3 i k hke, hz' i hi k hk (by omega)])
  refine ⟨z, z1, z2, fun i hi k hk hk' => z3 i hi k hk ?_⟩
  rw [Nat.pow_succ] at hk'
  omega

theorem novelVandermonde_ok (h2 : (1 : F) + 1 = 0) {β : List F} {tas tbl : List (TA F)}
    (h : withSubspace (⟨β⟩ : BinarySubspace F) = some (.ok tas)) (ht : tbl = tas ∨ tbl = precomputeTwiddles tas)
    {d cb : Nat} (hcb : cb ≤ β.length) (hd : d ≤ 2 ^ cb) :
    ∃ v, novelVandermonde tbl d cb = some v ∧ (v.m = d ∧ v.n = d) ∧
      ∀ i < d, ∀ k < d, v.at' i k = novel (domainBasis β cb) k (point (domainBasis β cb) i) := by
  unfold novelVandermonde
  by_cases h0 : d = 0
  · subst h0
    refine ⟨_, rfl, ⟨rfl, rfl⟩, fun i hi => by omega⟩
  · obtain ⟨x, x1, x2, x3, x4⟩ := setColumn d 0 (by omega) (fun j x => matSet x j 0 (1 : F)) (fun _ => 1)
      (Mat.zeros d d) ⟨rfl, rfl⟩ fun _ _ _ _ _ => rfl
    rw [x1, Option.bind_some, if_neg h0]
    obtain ⟨v, v1, v2, v3⟩ := forRange_inv (n := log2Ceil d) (s := x) (body := vandermondeRound tbl d cb)
      (fun j y => (y.m = d ∧ y.n = d) ∧ ∀ i < d, ∀ k < d, k < 2 ^ j →
        y.at' i k = novel (domainBasis β cb) k (point (domainBasis β cb) i))
      ⟨x2, fun i hi k hk hk' => by
        obtain rfl : k = 0 := by simpa using hk'
        rw [x4 i hi, novel_zero]⟩
      (by
        rintro j hj y ⟨hy, hy'⟩
        exact vandermondeRound_ok h2 h ht hcb hd (lt_of_lt_log2Ceil hj) y hy hy')
    exact ⟨v, v1, v2, fun i hi k hk => v3 i hi k hk (lt_of_lt_of_le hk (le_pow_log2Ceil d))⟩

/-! ### The interpolation -/

theorem clearRows_dims (i : Nat) : ∀ (l : List Nat) (s : Mat F × Mat F),
    (l.foldl (Matrix.clearRow i) s).2.m = s.2.m ∧ (l.foldl (Matrix.clearRow i) s).2.n = s.2.n
  | [], _ => ⟨rfl, rfl⟩
  | _ :: l, s => clearRows_dims i l _

theorem elimStep_dims {n i : Nat} {s t : Mat F × Mat F} (h : Matrix.elimStep n i s = .ok t) :
    t.2.m = s.2.m ∧ t.2.n = s.2.n := by
  unfold Matrix.elimStep at h
  split at h
  · simp at h
  · simp only [Except.ok.injEq] at h
    rw [← h]
    refine (fun hh => ⟨hh.1.trans ?_, hh.2.trans ?_⟩) (clearRows_dims i _ _)
    all_goals
      dsimp only [Mat.scaleRow]
      split <;> rfl

theorem elimLoop_dims (n : Nat) : ∀ (k : Nat) (s t : Mat F × Mat F), Matrix.elimLoop n k s = .ok t →
    t.2.m = s.2.m ∧ t.2.n = s.2.n
  | 0, s, t, h => by
    obtain rfl : s = t := by simpa [Matrix.elimLoop] using h
    exact ⟨rfl, rfl⟩
  | k + 1, s, t, h => by
    rw [Matrix.elimLoop] at h
    split at h
    · simp at h
    · next u hu =>
      obtain ⟨h1, h3⟩ := elimLoop_dims n k s u hu
      obtain ⟨h4, h5⟩ := elimStep_dims h
      exact ⟨h4.trans h1, h5.trans h3⟩

theorem inverseInto_dims {a out b : Mat F} (h : a.inverseInto out = some (.ok b)) : b.m = a.n ∧ b.n = a.n := by
  unfold Mat.inverseInto at h
  split at h
  · simp at h
  · split at h
    · simp at h
    · split at h
      · simp at h
      · next s hs =>
        obtain rfl : s.2 = b := by simpa using h
        exact elimLoop_dims _ _ _ _ hs

theorem new_ok (h2 : (1 : F) + 1 = 0) {β : List F} {tas tbl : List (TA F)}
    (h : withSubspace (⟨β⟩ : BinarySubspace F) = some (.ok tas)) (ht : tbl = tas ∨ tbl = precomputeTwiddles tas)
    {d ell cb : Nat} (hdom : cb + ell ≤ β.length) (hd : d ≤ 2 ^ cb) :
    ∃ inv : Mat F, Odd.new β.length tbl d ell cb = some (.ok ⟨inv, ell, cb, β.length, tbl⟩) ∧ (inv.m = d ∧ inv.n = d) ∧
      ∀ m : Nat → F, ∀ i < d,
        ∑ k ∈ range d, novel (domainBasis β cb) k (point (domainBasis β cb) i) * (∑ j ∈ range d, m j * inv.at' k j) = m i := by
  obtain ⟨-, -, hind, -⟩ := ready_of h2 h ht
  obtain ⟨v, v1, v2, v3⟩ := novelVandermonde_ok h2 h ht (d := d) (cb := cb) (by omega) hd
  unfold Odd.new
  rw [if_neg (by rw [Nat.one_shiftLeft]; omega), if_neg (by omega), v1, Option.bind_some]
  rcases Matrix.inverseInto_cases v (Mat.zeros d d) (v2.1.trans v2.2.symm) v2.1 v2.2 with ⟨b, b1, b2⟩ | ⟨-, c, ⟨i, hi, hi0⟩, hc⟩
  · obtain ⟨d1, d2⟩ := inverseInto_dims b1
    rw [v2.2] at d1 d2 b2
    refine ⟨b, by rw [b1]; rfl, ⟨d1, d2⟩, fun m i hi => ?_⟩
    have b3 := mul_eq_one_comm.1 b2
    have e := congrFun (congrArg (fun M => Matrix.mulVec M (fun j : Fin d => m j)) b3) ⟨i, hi⟩
    rw [Matrix.one_mulVec, ← Matrix.mulVec_mulVec, Matrix.mulVec, dotProduct] at e
    refine Eq.trans ?_ e
    rw [← Fin.sum_univ_eq_sum_range (fun k => novel (domainBasis β cb) k (point (domainBasis β cb) i) *
      (∑ j ∈ range d, m j * b.at' k j))]
    refine sum_congr rfl fun k _ => ?_
    rw [Matrix.mulVec, dotProduct, ← Fin.sum_univ_eq_sum_range (fun j => m j * b.at' k j), ← v3 i hi k k.2]
    show _ = v.at' i k * _
    congr 1
    refine sum_congr rfl fun j _ => ?_
    rw [mul_comm]
    rfl
  · exfalso
    rw [v2.2] at hi hc
    refine hi0 (novelEval_zero h2 (domainBasis_independent h2 hind (d := cb) (by omega)) (n := d)
      (by rw [domainBasis_length (by omega)]; exact hd) c (fun p hp => ?_) i hi)
    rw [← hc p hp, novelEval]
    refine sum_congr rfl fun k hk => ?_
    rw [mul_comm, v3 p hp k (mem_range.1 hk)]

/-- The inverse transform of a chunk. -/
theorem inverse_chunk (h2 : (1 : F) + 1 = 0) {β : List F} {tas tbl : List (TA F)}
    (h : withSubspace (⟨β⟩ : BinarySubspace F) = some (.ok tas)) (ht : tbl = tas ∨ tbl = precomputeTwiddles tas)
    {ell cb i : Nat} (hdom : cb + ell ≤ β.length) (hi : i < 2 ^ cb) (f : Nat → F) :
    ∃ c, inverse β.length 0 tbl ⟨2 ^ ell, fun y _ => f y⟩ ⟨0, ell, 0⟩ i cb 0 = some (.ok c) ∧
      ∀ y < 2 ^ ell, novelEval (domainBasis β (cb + ell)) (2 ^ ell) (flat 0 c) (point (domainBasis β (cb + ell)) (i * 2 ^ ell + y)) = f y := by
  have hs : SizeOk 0 0 ell 0 (2 ^ ell) := Or.inl (by simp)
  obtain ⟨c, c', h1, h3, -, h5⟩ := C13_forward_inverse h2 h ht ht 0 0 ell 0 i cb 0 ⟨2 ^ ell, fun y _ => f y⟩ ⟨ell, rfl⟩ hs
    (Nat.zero_le _) hi (by omega)
  have hsize : c.size = 2 ^ ell := by
    obtain ⟨-, -, hind, hr⟩ := ready_of h2 h ht
    obtain ⟨d'', e', hs', -⟩ := inverse_eq (d := ⟨2 ^ ell, fun y _ => f y⟩) (w := 0) (lx := 0) (lz := 0) h2 hr hind
      (check_ok.2 ⟨⟨ell, rfl⟩, Nat.zero_le ell, hs, hi, by omega⟩)
    rw [h1] at e'
    simp only [Option.some.injEq, Except.ok.injEq] at e'
    rw [e']
    exact hs'
  obtain ⟨c'', g1, -, g3⟩ := C13_forward h2 h ht 0 0 ell 0 i cb 0 c ⟨ell, hsize⟩ (by rw [hsize]; exact hs)
    (Nat.zero_le _) hi (by omega)
  rw [h3] at g1
  obtain rfl : c' = c'' := by simpa using g1
  refine ⟨c, h1, fun y hy => ?_⟩
  have e1 := g3 0 (by simp) y hy 0 (by simp)
  have e2 := h5 y (by simpa using hy)
  simp only [position, Nat.zero_mul, Nat.zero_add, Nat.pow_zero, Nat.mul_one, Nat.add_zero, Nat.sub_zero,
    Nat.div_eq_of_lt hy] at e1
  rw [Nat.add_comm cb ell, ← e1, e2]
  simp [flat]

theorem chunks_ok (h2 : (1 : F) + 1 = 0) {β : List F} {tas tbl : List (TA F)}
    (h : withSubspace (⟨β⟩ : BinarySubspace F) = some (.ok tas)) (ht : tbl = tas ∨ tbl = precomputeTwiddles tas)
    {ell cb : Nat} (hdom : cb + ell ≤ β.length) (inv : Mat F) (data : Slice F) : ∀ n, n ≤ 2 ^ cb →
    ∃ out, Odd.chunks ⟨inv, ell, cb, β.length, tbl⟩ n data = some (.ok out) ∧ out.size = data.size ∧
      (∀ i < n, ∀ y < 2 ^ ell, novelEval (domainBasis β (cb + ell)) (2 ^ ell) (fun s => out.val (i * 2 ^ ell + s))
        (point (domainBasis β (cb + ell)) (i * 2 ^ ell + y)) = data.val (i * 2 ^ ell + y)) ∧
      ∀ p, n * 2 ^ ell ≤ p → out.val p = data.val p
  | 0, _ => ⟨data, rfl, rfl, fun i hi => by omega, fun _ _ => rfl⟩
  | n + 1, hn => by
    obtain ⟨out, o1, o2, o3, o4⟩ := chunks_ok h2 h ht hdom inv data n (by omega)
    obtain ⟨c, c1, c2⟩ := inverse_chunk h2 h ht hdom (i := n) (by omega) (fun y => out.val (n * 2 ^ ell + y))
    have hdiv : ∀ i y, y < 2 ^ ell → (i * 2 ^ ell + y) / 2 ^ ell = i ∧ (i * 2 ^ ell + y) % 2 ^ ell = y := fun i y hy => by
      rw [Nat.mul_comm, Nat.mul_add_div (Nat.two_pow_pos _), Nat.div_eq_of_lt hy, Nat.mul_add_mod, Nat.mod_eq_of_lt hy]
      exact ⟨rfl, rfl⟩
    refine ⟨⟨out.size, fun p => if p / 2 ^ ell = n then flat 0 c (p % 2 ^ ell) else out.val p⟩,
      by rw [Odd.chunks, o1, Option.bind_some]; dsimp only; rw [c1]; rfl, o2,
      fun i hi y hy => ?_, fun p hp => ?_⟩
    · by_cases hin : i = n
      · subst hin
        have := c2 y hy
        rw [o4 _ (by omega)] at this
        rw [← this]
        refine sum_congr rfl fun s hs => ?_
        rw [mem_range] at hs
        dsimp only
        rw [(hdiv i s hs).1, (hdiv i s hs).2, if_pos rfl]
      · rw [← o3 i (by omega) y hy]
        refine sum_congr rfl fun s hs => ?_
        rw [mem_range] at hs
        dsimp only
        rw [(hdiv i s hs).1, if_neg hin]
    · have : ¬ p / 2 ^ ell = n := fun e => by
        have := Nat.lt_mul_div_succ p (Nat.two_pow_pos ell)
        rw [e, Nat.mul_comm] at this
        omega
      dsimp only
      rw [if_neg this]
      exact o4 p (le_trans (Nat.mul_le_mul_right _ (Nat.le_succ n)) hp)

theorem mapM_range_get {data : Slice F} {d : Nat} {f : Nat → Nat} (h : ∀ i < d, f i < data.size) :
    ((List.range d).mapM fun i => data.get? (f i)) = some ((List.range d).map fun i => data.val (f i)) :=
  mapM_range_some d _ _ fun i hi => Slice.get?_of_lt (h i hi)

/-- One stride. -/
theorem stride_ok {inv : Mat F} {d ell cb L : Nat} {tbl : List (TA F)} (hinv : inv.m = d ∧ inv.n = d) {s : Nat}
    (hs : s < 2 ^ ell) (data : Slice F) (hsize : data.size = d * 2 ^ ell) :
    ∃ out, Odd.stride ⟨inv, ell, cb, L, tbl⟩ s data = some out ∧ out.size = data.size ∧
      (∀ i < d, out.val (i * 2 ^ ell + s) = ∑ j ∈ range d, data.val (j * 2 ^ ell + s) * inv.at' i j) ∧
      ∀ p, p % 2 ^ ell ≠ s → out.val p = data.val p := by
  have hor : ∀ i, (i <<< ell) ||| s = i * 2 ^ ell + s := fun i => by
    rw [Nat.shiftLeft_eq, Nat.mul_comm, Nat.two_pow_add_eq_or_of_lt hs]
  have hlt : ∀ i < d, i * 2 ^ ell + s < data.size := fun i hi => by
    have := Nat.mul_le_mul_right (2 ^ ell) (show i + 1 ≤ d from hi)
    rw [Nat.succ_mul] at this
    omega
  unfold Odd.stride
  simp only [hor, hinv.1]
  rw [mapM_range_get hlt, Option.bind_some, Mat.mulVecInto, if_pos ⟨by simp [hinv.2], hinv.1⟩, Option.bind_some]
  obtain ⟨out, o1, o2, o3, o4⟩ := forRange_inv (n := d) (s := data)
    (body := fun i data' => (((List.range d).map fun i => ∑ j : Fin ((List.range d).map fun i => data.val (i * 2 ^ ell + s)).length,
      ((List.range d).map fun i => data.val (i * 2 ^ ell + s))[j] * id (inv.at' i j))[i]?).bind fun v =>
        data'.set? (i * 2 ^ ell + s) v)
    (fun n out => out.size = data.size ∧ (∀ i < n, out.val (i * 2 ^ ell + s) = ∑ j ∈ range d, data.val (j * 2 ^ ell + s) * inv.at' i j) ∧
      ∀ p, p % 2 ^ ell ≠ s → out.val p = data.val p) ⟨rfl, fun i hi => by omega, fun _ _ => rfl⟩
    (by
      rintro n hn out ⟨h1, h3, h4⟩
      rw [List.getElem?_map, List.getElem?_range hn, Option.map_some, Option.bind_some,
        Slice.set?_of_lt (by rw [h1]; exact hlt n hn)]
      refine ⟨_, rfl, h1, fun i hi => ?_, fun p hp => ?_⟩
      · dsimp only
        by_cases hin : i = n
        · rw [if_pos (by rw [hin]), hin]
          refine Eq.trans ?_ (Fin.sum_univ_eq_sum_range (fun j => data.val (j * 2 ^ ell + s) * inv.at' n j) d)
          refine Fintype.sum_equiv (finCongr (by simp)) _ _ fun j => ?_
          simp
        · rw [if_neg (fun e => hin (Nat.eq_of_mul_eq_mul_right (Nat.two_pow_pos ell) (Nat.add_right_cancel e))),
            h3 i (by omega)]
      · dsimp only
        rw [if_neg (fun e => hp (by rw [e, Nat.mul_comm, Nat.mul_add_mod, Nat.mod_eq_of_lt hs])), h4 p hp])
  exact ⟨out, o1, o2, o3, o4⟩

theorem strides_ok {inv : Mat F} {d ell cb L : Nat} {tbl : List (TA F)} (hinv : inv.m = d ∧ inv.n = d)
    (data : Slice F) (hsize : data.size = d * 2 ^ ell) :
    ∃ out, forRange (2 ^ ell) (Odd.stride ⟨inv, ell, cb, L, tbl⟩) data = some out ∧ out.size = data.size ∧
      ∀ s < 2 ^ ell, ∀ i < d, out.val (i * 2 ^ ell + s) = ∑ j ∈ range d, data.val (j * 2 ^ ell + s) * inv.at' i j := by
  have hmod : ∀ i s, s < 2 ^ ell → (i * 2 ^ ell + s) % 2 ^ ell = s := fun i s hs => by
    rw [Nat.mul_comm, Nat.mul_add_mod, Nat.mod_eq_of_lt hs]
  obtain ⟨out, o1, o2, o3, -⟩ := forRange_inv (n := 2 ^ ell) (s := data) (body := Odd.stride ⟨inv, ell, cb, L, tbl⟩)
    (fun n out => out.size = data.size ∧
      (∀ s < n, ∀ i < d, out.val (i * 2 ^ ell + s) = ∑ j ∈ range d, data.val (j * 2 ^ ell + s) * inv.at' i j) ∧
      ∀ p, n ≤ p % 2 ^ ell → out.val p = data.val p) ⟨rfl, fun s hs => by omega, fun _ _ => rfl⟩
    (by
      rintro n hn out ⟨h1, h3, h4⟩
      obtain ⟨out', e1, e2, e3, e4⟩ := stride_ok (cb := cb) (L := L) (tbl := tbl) hinv hn out (h1.trans hsize)
      refine ⟨out', e1, e2.trans h1, fun s hs i hi => ?_, fun p hp => ?_⟩
      · by_cases hsn : s = n
        · subst hsn
          rw [e3 i hi]
          exact sum_congr rfl fun j _ => by rw [h4 _ (by rw [hmod j s hn])]
        · rw [e4 _ (by rw [hmod i s (by omega)]; exact hsn), h3 s (by omega) i hi]
      · rw [e4 p (by omega), h4 p (by omega)])
  exact ⟨out, o1, o2, o3⟩

end Verif.NTT
