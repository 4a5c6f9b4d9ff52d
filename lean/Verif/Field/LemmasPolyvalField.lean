import Verif.Field.LemmasPolyvalRed
import Verif.Field.LemmasPolyvalData
import Verif.Field.LemmasAes
import Verif.Field.SpecPolyval
import Verif.Field.PropsGenerators
import Mathlib.Algebra.CharP.Lemmas

/-!
# The POLYVAL field inside the canonical tower
-/

namespace Verif.Field.Polyval
open Finset

/-! ## Linear maps -/

theorem transform_additive {M : Type} [AddCommMonoid M] (ψ : BitVec 128 → M) (h0 : ψ 0#128 = 0)
    (hx : ∀ x y, ψ (x ^^^ y) = ψ x + ψ y) (bases : List Nat) (x : BitVec 128) :
    ψ (transform bases x) =
      ∑ i ∈ range bases.length, if x.getLsbD i then ψ (BitVec.ofNat 128 (bases.getD i 0)) else 0 := by
  rw [transform]
  induction bases using List.reverseRecOn with
  | nil => simpa using h0
  | append_singleton bs b ih =>
    rw [List.zipIdx_append, List.foldl_append, List.length_append, List.length_singleton,
      sum_range_succ]
    simp only [List.zipIdx_cons, List.zipIdx_nil, List.foldl_cons, List.foldl_nil, Nat.zero_add]
    rw [hx, ih]
    congr 1
    · refine sum_congr rfl fun i hi => ?_
      have := mem_range.1 hi
      rw [List.getD_eq_getElem?_getD, List.getD_eq_getElem?_getD, List.getElem?_append_left this]
    · rw [List.getD_eq_getElem?_getD, List.getElem?_append_right (le_refl _), Nat.sub_self]
      split
      · rfl
      · exact h0

theorem transform_xor (bases : List Nat) (x y : BitVec 128) :
    transform bases (x ^^^ y) = transform bases x ^^^ transform bases y := by
  apply BitVec.eq_of_getLsbD_eq
  intro j _
  rw [BitVec.getLsbD_xor]
  have h := fun z => transform_additive (M := ZMod 2) (fun v => if v.getLsbD j then 1 else 0)
    (by simp) (by
      intro a b
      rw [BitVec.getLsbD_xor]
      rcases a.getLsbD j <;> rcases b.getLsbD j <;> decide) bases z
  have hs : (∑ i ∈ range bases.length, if (x ^^^ y).getLsbD i then
      (if (BitVec.ofNat 128 (bases.getD i 0)).getLsbD j then (1 : ZMod 2) else 0) else 0) =
      (∑ i ∈ range bases.length, if x.getLsbD i then
        (if (BitVec.ofNat 128 (bases.getD i 0)).getLsbD j then (1 : ZMod 2) else 0) else 0) +
      ∑ i ∈ range bases.length, if y.getLsbD i then
        (if (BitVec.ofNat 128 (bases.getD i 0)).getLsbD j then (1 : ZMod 2) else 0) else 0 := by
    rw [← sum_add_distrib]
    refine sum_congr rfl fun i _ => ?_
    rw [BitVec.getLsbD_xor]
    rcases x.getLsbD i <;> rcases y.getLsbD i <;>
      rcases (BitVec.ofNat 128 (bases.getD i 0)).getLsbD j <;> decide
  rw [← h, ← h, ← h] at hs
  revert hs
  rcases (transform bases (x ^^^ y)).getLsbD j <;> rcases (transform bases x).getLsbD j <;>
    rcases (transform bases y).getLsbD j <;> decide

theorem lin_ext {f h : BitVec 128 → BitVec 128} (hf : ∀ x y, f (x ^^^ y) = f x ^^^ f y)
    (hh : ∀ x y, h (x ^^^ y) = h x ^^^ h y) (hb : ∀ i : Fin 128, f (1#128 <<< i.val) = h (1#128 <<< i.val))
    (x : BitVec 128) : f x = h x := by
  have zero : ∀ k : BitVec 128 → BitVec 128, (∀ x y, k (x ^^^ y) = k x ^^^ k y) → k 0#128 = 0#128 := by
    intro k hk
    have := hk 0#128 0#128
    rwa [BitVec.xor_self, BitVec.xor_self] at this
  have main : ∀ n ≤ 128, ∀ x : BitVec 128, (∀ i, n ≤ i → x.getLsbD i = false) → f x = h x := by
    intro n
    induction n with
    | zero =>
      intro _ x hx
      have : x = 0#128 := by
        apply BitVec.eq_of_getLsbD_eq
        intro i _
        rw [hx i (Nat.zero_le _)]; simp
      rw [this, zero f hf, zero h hh]
    | succ n ih =>
      intro hn x hx
      rcases hbit : x.getLsbD n with _ | _
      · refine ih (by omega) x fun i hi => ?_
        rcases Nat.eq_or_lt_of_le hi with rfl | hlt
        · exact hbit
        · exact hx i hlt
      · have e : x = (x ^^^ (1#128 <<< n)) ^^^ (1#128 <<< n) := by
          rw [BitVec.xor_assoc, BitVec.xor_self, BitVec.xor_zero]
        rw [e, hf, hh, hb ⟨n, by omega⟩]
        congr 1
        refine ih (by omega) _ fun i hi => ?_
        rw [BitVec.getLsbD_xor, BitVec.getLsbD_shiftLeft, BitVec.getLsbD_one]
        rcases Nat.eq_or_lt_of_le hi with rfl | hlt
        · rw [hbit]; simp; omega
        · rw [hx i hlt]; simp; omega
  exact main 128 (le_refl _) x fun i hi => BitVec.getLsbD_of_ge x i hi

theorem id_xor (x y : BitVec 128) : (fun z : BitVec 128 => z) (x ^^^ y) = x ^^^ y := rfl

theorem ofBinary_toBinary (x : BitVec 128) : ofBinary (toBinary x) = x :=
  lin_ext (f := fun x => ofBinary (toBinary x)) (h := fun x => x)
    (fun x y => by simp only [ofBinary, toBinary, transform_xor]) (fun _ _ => rfl)
    (fun i => (binary_basis i).1) x

theorem toBinary_ofBinary (x : BitVec 128) : toBinary (ofBinary x) = x :=
  lin_ext (f := fun x => toBinary (ofBinary x)) (h := fun x => x)
    (fun x y => by simp only [ofBinary, toBinary, transform_xor]) (fun _ _ => rfl)
    (fun i => (binary_basis i).2) x

theorem ofAes_toAes (x : BitVec 128) : ofAes (toAes x) = x :=
  lin_ext (f := fun x => ofAes (toAes x)) (h := fun x => x)
    (fun x y => by simp only [ofAes, toAes, transform_xor]) (fun _ _ => rfl)
    (fun i => (aes_basis i).1) x

theorem toAes_ofAes (x : BitVec 128) : toAes (ofAes x) = x :=
  lin_ext (f := fun x => toAes (ofAes x)) (h := fun x => x)
    (fun x y => by simp only [ofAes, toAes, transform_xor]) (fun _ _ => rfl)
    (fun i => (aes_basis i).2) x

theorem aes_toBinary (x : BitVec 128) : Aes.toBinary (n := 4) (toAes x) = toBinary x :=
  lin_ext (f := fun x => Aes.toBinary (n := 4) (toAes x)) (h := toBinary)
    (fun x y => by
      show Aes.toBinary (n := 4) (toAes (x ^^^ y)) = _
      rw [toAes, transform_xor]; exact Aes.toBinary_xor (n := 4) _ _)
    (fun x y => transform_xor _ x y) (fun i => aes_triangle i) x

/-! ## In any field of characteristic two with a root of the polynomial -/

section root
variable {F : Type} [Field F] [CharP F 2]

theorem poly_of_cols {g c0 c1 c2 c3 : F} (h : g * c3 = c3 + c2 + c1 + c0)
    (e0 : c0 * g ^ 128 = g ^ 0) (e1 : c1 * g ^ 128 = g ^ 121) (e2 : c2 * g ^ 128 = g ^ 126)
    (e3 : c3 * g ^ 128 = g ^ 127) : g ^ 128 + g ^ 127 + g ^ 126 + g ^ 121 + 1 = 0 := by
  have t : (2 : F) = 0 := CharTwo.two_eq_zero
  linear_combination g ^ 128 * h - g * e3 + e3 + e2 + e1 + e0 +
    (g ^ 127 + g ^ 126 + g ^ 121 + 1) * t

omit [CharP F 2] in
theorem cancel_twice {r x y z : F} (hn : r * r ≠ 0) (h : z * r * r = x * r * (y * r)) :
    z = x * y := by
  refine mul_right_cancel₀ hn ?_
  linear_combination h

theorem ev_xtime {g : F} (g_poly : g ^ 128 + g ^ 127 + g ^ 126 + g ^ 121 + 1 = 0) (a : BitVec 128) : ev g (Spec.polyvalXtime a) = g * ev g a := by
  have h1 : ev g (a <<< 1) + (if a.getLsbD 127 then g ^ 128 else 0) = g * ev g a := by
    rw [ev, ev]
    conv_lhs => rw [show range 128 = range (127 + 1) from rfl]
    conv_rhs => rw [show range 128 = range (127 + 1) from rfl]
    rw [sum_range_succ', sum_range_succ _ 127, mul_add, mul_sum]
    have z : (a <<< 1).getLsbD 0 = false := by rw [BitVec.getLsbD_shiftLeft]; simp
    rw [z]
    simp only [Bool.false_eq_true, if_false, add_zero]
    congr 1
    · refine sum_congr rfl fun i hi => ?_
      have := mem_range.1 hi
      rw [BitVec.getLsbD_shiftLeft]
      simp only [show i + 1 < 128 by omega, decide_true, Bool.true_and, Nat.add_sub_cancel,
        show ¬ i + 1 < 1 by omega, decide_false, Bool.not_false]
      split
      · rw [pow_succ']
      · rw [mul_zero]
    · split
      · rw [← pow_succ']
      · rw [mul_zero]
  have h2 : ev g (0xc2000000000000000000000000000001#128 : BitVec 128) = g ^ 128 := by
    have e : ∀ i : Fin 128, (0xc2000000000000000000000000000001#128).getLsbD i.val =
        decide (i.val = 0 ∨ i.val = 121 ∨ i.val = 126 ∨ i.val = 127) := by decide +kernel
    have s : ev g (0xc2000000000000000000000000000001#128 : BitVec 128) =
        ∑ i ∈ ({0, 121, 126, 127} : Finset Nat), g ^ i := by
      rw [ev, ← sum_filter]
      refine sum_congr ?_ fun _ _ => rfl
      ext i
      rw [mem_filter, mem_range]
      simp only [mem_insert, mem_singleton]
      constructor
      · rintro ⟨h, hb⟩
        rw [e ⟨i, h⟩] at hb
        simpa using hb
      · intro h
        have hi : i < 128 := by omega
        refine ⟨hi, ?_⟩
        rw [e ⟨i, hi⟩]
        simpa using h
    rw [s, sum_insert (by decide), sum_insert (by decide), sum_insert (by decide), sum_singleton]
    have t : (2 : F) = 0 := CharTwo.two_eq_zero
    linear_combination g_poly - t * g ^ 128
  rw [Spec.polyvalXtime, ev_xor, ← h1]
  congr 1
  split
  · exact h2
  · exact ev_zero g

theorem ev_mulBits {g : F} (g_poly : g ^ 128 + g ^ 127 + g ^ 126 + g ^ 121 + 1 = 0) (k : Nat) (a b : BitVec 128) :
    ev g (Spec.polyvalMulBits k a b) =
      ev g a * ∑ i ∈ range k, if b.getLsbD i then g ^ i else 0 := by
  induction k generalizing a b with
  | zero => rw [Spec.polyvalMulBits, ev_zero]; simp
  | succ k ih =>
    rw [Spec.polyvalMulBits, ev_xor, ih, ev_xtime g_poly, sum_range_succ', mul_add, add_comm]
    congr 1
    · rw [mul_comm g, mul_assoc, mul_sum (a := g)]
      congr 1
      refine sum_congr rfl fun i _ => ?_
      rw [BitVec.getLsbD_ushiftRight, Nat.add_comm 1 i]
      split
      · rw [pow_succ']
      · rw [mul_zero]
    · split
      · rw [pow_zero, mul_one]
      · rw [ev_zero, mul_zero]

end root

/-! ## The isomorphism -/

/-- The image of `x` in the canonical tower. -/
def g : T 7 := toT gB

/-- The tower element denoted by a POLYVAL scalar. -/
def phi (x : BitVec 128) : T 7 := toT (k := 7) (toBinary x)

theorem phi_xor (x y : BitVec 128) : phi (x ^^^ y) = phi x + phi y := by
  rw [phi, toBinary, transform_xor]; exact Scalar.toT_add (k := 7) _ _

theorem phi_zero : phi 0#128 = 0 := by
  have := phi_xor 0#128 0#128
  rwa [BitVec.xor_self, left_eq_add] at this

theorem phi_injective : Function.Injective phi := by
  intro x y h
  rw [← ofBinary_toBinary x, ← ofBinary_toBinary y, toT_injective (k := 7) h]

theorem phi_one : phi one = 1 := by rw [phi, toBinary_one]; exact Scalar.toT_one (k := 7)

theorem col_pow (i : Nat) (hi : i < 128) : toT (col i) * g ^ 128 = g ^ i := by
  induction i with
  | zero =>
    have := congrArg toT col_zero
    rw [Scalar.toT_mul, toT_sqIter, Scalar.toT_one] at this
    rw [pow_zero]; exact this
  | succ i ih =>
    rw [col_succ ⟨i, by omega⟩, Scalar.toT_mul, mul_assoc, ih (by omega), pow_succ, mul_comm]
    rfl

theorem g_ne_zero : g ≠ 0 := by
  intro h
  have := col_pow 0 (by omega)
  rw [h, zero_pow (by omega), mul_zero, pow_zero] at this
  exact zero_ne_one this

theorem g_poly : g ^ 128 + g ^ 127 + g ^ 126 + g ^ 121 + 1 = 0 := by
  have h := congrArg toT col_wrap
  rw [Scalar.toT_mul] at h
  have e : toT (col 127 ^^^ col 126 ^^^ col 121 ^^^ col 0) =
      toT (col 127) + toT (col 126) + toT (col 121) + toT (col 0) := by
    rw [← Scalar.toT_add, ← Scalar.toT_add, ← Scalar.toT_add]; rfl
  rw [e] at h
  have c0 := col_pow 0 (by omega)
  have c1 := col_pow 121 (by omega)
  have c2 := col_pow 126 (by omega)
  have c3 := col_pow 127 (by omega)
  exact poly_of_cols h c0 c1 c2 c3

theorem phi_ev (x : BitVec 128) : phi x * g ^ 128 = ev g x := by
  have := transform_additive (fun v => toT (k := 7) v) (Scalar.toT_zero (k := 7))
    (fun a b => Scalar.toT_add (k := 7) a b) polyvalToBinaryBases x
  rw [show phi x = _ from this, lengths.1, sum_mul, ev]
  refine sum_congr rfl fun i hi => ?_
  split
  · exact col_pow i (mem_range.1 hi)
  · exact zero_mul _

theorem phi_mul (a b : BitVec 128) : phi (mul a b) = phi a * phi b := by
  have h := ev_mul g g_poly a b
  rw [← phi_ev, ← phi_ev, ← phi_ev] at h
  have hn : g ^ 128 * g ^ 128 ≠ 0 := mul_ne_zero (pow_ne_zero _ g_ne_zero) (pow_ne_zero _ g_ne_zero)
  exact cancel_twice hn h

theorem phi_new (v : BitVec 128) : phi (new v) = ev g v := by
  have h : phi 0x1e563df92ea7081b4563df92ea7081b5#128 = g ^ 128 := by
    rw [phi, toBinary_r2, toT_sqIter, show (2 : Nat) ^ 7 = 128 from rfl, g]
  rw [new, phi_mul, ← phi_ev, h]

theorem ev_fromMontgomery (a : BitVec 128) : ev g (fromMontgomery a) = phi a := by
  rw [← phi_ev, fromMontgomery, phi_mul, mul_assoc, phi_ev 1#128]
  have : ev g 1#128 = 1 := by
    rw [ev, sum_eq_single 0]
    · simp
    · intro i _ hi
      rw [BitVec.getLsbD_one]; simp; omega
    · intro h; exact absurd (mem_range.2 (by omega)) h
  rw [this, mul_one]

theorem ev_injective : Function.Injective (ev g (w := 128)) := by
  intro x y h
  rw [← phi_ev, ← phi_ev] at h
  exact phi_injective (mul_right_cancel₀ (pow_ne_zero _ g_ne_zero) h)

/-! ## The specification's product -/

theorem ev_polyvalMul (a b : BitVec 128) : ev g (Spec.polyvalMul a b) = ev g a * ev g b :=
  ev_mulBits g_poly 128 a b

/-! ## Powers and inversion -/

theorem phi_square (a : BitVec 128) : phi (square a) = phi a ^ 2 := by
  rw [square, phi_mul, pow_two]

theorem phi_sqTimes (n : Nat) (x : BitVec 128) : phi (sqTimes n x) = phi x ^ 2 ^ n := by
  induction n with
  | zero => rw [sqTimes, pow_zero, pow_one]
  | succ n ih => rw [sqTimes, phi_square, ih, ← pow_mul, ← pow_succ]

theorem phi_mono_one (n : Nat) (hn : n < 6) : phi (mono n 1) = g ^ 2 ^ 2 ^ (n + 1) := by
  induction n with
  | zero =>
    rw [mono_first, phi_sqTimes, phi_new]
    have : ev g 2#128 = g := by
      rw [ev, sum_eq_single 1]
      · simp
      · intro i hi h1
        have e : ∀ i : Fin 128, (2#128).getLsbD i.val = decide (i.val = 1) := by decide +kernel
        rw [e ⟨i, mem_range.1 hi⟩]; simp [h1]
      · intro h; exact absurd (mem_range.2 (by omega)) h
    rw [this]; rfl
  | succ n ih =>
    rw [mono_next ⟨n, by omega⟩, phi_sqTimes, ih (by omega), ← pow_mul, ← pow_add]
    congr 2
    rw [pow_succ 2 (n + 1)]; ring

theorem phi_mono (n : Nat) (hn : n < 6) (i : Nat) (hi : i < 128) :
    phi (mono n i) = (g ^ i) ^ 2 ^ 2 ^ (n + 1) := by
  induction i with
  | zero => rw [mono_zero ⟨n, hn⟩, phi_one, pow_zero, one_pow]
  | succ i ih =>
    rw [mono_succ ⟨n, hn⟩ ⟨i, by omega⟩, phi_mul, ih (by omega), phi_mono_one n hn, ← mul_pow,
      ← pow_succ]

theorem nibble_lt (v : BitVec 128) : (v &&& 0x0F#128).toNat < 16 := by
  rw [BitVec.toNat_and]
  exact lt_of_le_of_lt Nat.and_le_right (by decide)

theorem nibble_bit (v : BitVec 128) (k b : Nat) (hb : b < 4) :
    ((v >>> (k * 4)) &&& 0x0F#128).toNat.testBit b = v.getLsbD (4 * k + b) := by
  have : ((v >>> (k * 4)) &&& 0x0F#128).getLsbD b = v.getLsbD (4 * k + b) := by
    rw [BitVec.getLsbD_and, BitVec.getLsbD_ushiftRight, Nat.mul_comm k 4]
    have e : ∀ b : Fin 4, (0x0F#128).getLsbD b.val = true := by decide +kernel
    rw [e ⟨b, hb⟩, Bool.and_true]
  exact this

theorem phi_ite (c : Bool) (x : BitVec 128) : phi (if c then x else 0#128) = if c then phi x else 0 := by
  cases c
  · exact phi_zero
  · rfl

theorem pow22n_ok (value : BitVec 128) (n : Nat) (hn : n ≤ 6) :
    ∃ r, pow22n value n = some r ∧ phi r = phi value ^ 2 ^ 2 ^ n := by
  unfold pow22n
  by_cases h0 : n = 0
  · rw [if_pos h0]
    exact ⟨_, rfl, by rw [phi_square, h0]; rfl⟩
  rw [if_neg h0, if_pos hn]
  obtain ⟨m, rfl⟩ : ∃ m, n = m + 1 := ⟨n - 1, by omega⟩
  rw [Nat.add_sub_cancel]
  obtain ⟨table, ht⟩ : ∃ t, nibblePowTable[m]? = some t := by
    have : m < nibblePowTable.length := by
      rw [show nibblePowTable.length = 6 from rfl]; omega
    exact ⟨_, List.getElem?_eq_getElem this⟩
  rw [ht, Option.bind_some]
  obtain ⟨bf, hbf⟩ : ∃ bf, fromMontgomery value = bf := ⟨_, rfl⟩
  have hev : ev g bf = phi value := by rw [← hbf]; exact ev_fromMontgomery value
  rw [hbf]
  obtain ⟨r, hr, hinv⟩ := forRange_inv (n := 32)
    (body := fun k acc =>
        let nibble := ((bf >>> (k * 4)) &&& 0x0F#128).toNat
        table[k]?.bind fun row => row[nibble]?.bind fun v => some (acc ^^^ BitVec.ofNat 128 v))
    (fun k acc => phi acc = ∑ i ∈ range (4 * k), if bf.getLsbD i then (g ^ i) ^ 2 ^ 2 ^ (m + 1) else 0)
    (s := 0#128) (by rw [phi_zero]; rfl) (by
      intro k hk acc hacc
      have he := entry_ok ⟨m, by omega⟩ ⟨k, hk⟩ ⟨_, nibble_lt (bf >>> (k * 4))⟩
      simp only [ht, Option.bind_some] at he
      rw [nibble_bit _ _ _ (by omega), nibble_bit _ _ _ (by omega), nibble_bit _ _ _ (by omega),
        nibble_bit _ _ _ (by omega), show 4 * k + 0 = 4 * k from rfl] at he
      dsimp only
      rcases hrow : table[k]? with _ | row
      · rw [hrow] at he; simp at he
      rw [hrow, Option.bind_some] at he
      rcases hv : row[((bf >>> (k * 4)) &&& 0x0F#128).toNat]? with _ | v
      · rw [hv] at he; simp at he
      rw [hv, Option.bind_some, Option.some_inj] at he
      refine ⟨acc ^^^ BitVec.ofNat 128 v, by rw [Option.bind_some, hv, Option.bind_some], ?_⟩
      rw [phi_xor, he, phi_xor, phi_xor, phi_xor, phi_ite, phi_ite, phi_ite, phi_ite,
        phi_mono m (by omega) _ (by omega), phi_mono m (by omega) _ (by omega),
        phi_mono m (by omega) _ (by omega), phi_mono m (by omega) _ (by omega), hacc,
        show 4 * (k + 1) = 4 * k + 1 + 1 + 1 + 1 by ring, sum_range_succ, sum_range_succ,
        sum_range_succ, sum_range_succ]
      simp only [add_assoc])
  refine ⟨r, hr, ?_⟩
  rw [hinv, ← hev, ev, sum_pow_char_pow]
  refine sum_congr rfl fun i _ => ?_
  split
  · rfl
  · rw [zero_pow (Nat.two_pow_pos _).ne']

theorem pow_sub_mul (q : Nat) (hq : 1 ≤ q) : q - 1 + (q - 1) * q = q * q - 1 := by
  obtain ⟨p, rfl⟩ : ∃ p, q = p + 1 := ⟨q - 1, by omega⟩
  rw [Nat.add_sub_cancel]
  have : (p + 1) * (p + 1) = p + p * (p + 1) + 1 := by ring
  omega

theorem invert_ok (a : BitVec 128) : ∃ r, invertOrZero a = some r ∧ phi r = phi a ^ (2 ^ 128 - 2) := by
  obtain ⟨res, hres, vres⟩ := pow22n_ok a 0 (by omega)
  rw [invertOrZero, hres, Option.bind_some]
  obtain ⟨s, hs, hinv⟩ := forRange_inv (n := 6) (body := invertStep)
    (fun k s => phi s.1 = phi a ^ (2 ^ 2 ^ k - 1) ∧
      phi s.2.1 = phi a ^ ((2 ^ 2 ^ k - 1) * 2 ^ 2 ^ k) ∧
      phi s.2.2 = phi a ^ (2 ^ 2 ^ (k + 1) - 2))
    (s := (a, res, res)) (by
      refine ⟨?_, ?_, ?_⟩
      · simp
      · rw [vres]; norm_num
      · rw [vres]; norm_num) (by
      intro k hk s ⟨h1, h2, h3⟩
      have hq : 2 ≤ 2 ^ 2 ^ k := by
        calc 2 = 2 ^ 1 := rfl
          _ ≤ 2 ^ 2 ^ k := Nat.pow_le_pow_right (by omega) (Nat.two_pow_pos k)
      have sq : ∀ j, 2 ^ 2 ^ (j + 1) = 2 ^ 2 ^ j * 2 ^ 2 ^ j := by
        intro j; rw [← pow_add, pow_succ]; congr 1; ring
      have e1 : phi (mul s.1 s.2.1) = phi a ^ (2 ^ 2 ^ (k + 1) - 1) := by
        rw [phi_mul, h1, h2, ← pow_add, pow_sub_mul _ (by omega), ← sq]
      obtain ⟨z, hz, vz⟩ := pow22n_ok (mul s.1 s.2.1) (k + 1) (by omega)
      rw [e1, ← pow_mul] at vz
      refine ⟨(mul s.1 s.2.1, z, mul s.2.2 z), by rw [invertStep, hz, Option.bind_some],
        e1, vz, ?_⟩
      show phi (mul s.2.2 z) = _
      rw [phi_mul, h3, vz, ← pow_add]
      congr 1
      have hq' : 2 ≤ 2 ^ 2 ^ (k + 1) := by
        calc 2 = 2 ^ 1 := rfl
          _ ≤ 2 ^ 2 ^ (k + 1) := Nat.pow_le_pow_right (by omega) (Nat.two_pow_pos _)
      have := pow_sub_mul (2 ^ 2 ^ (k + 1)) (by omega)
      rw [sq (k + 1)]
      have h4 : 2 * 2 ≤ 2 ^ 2 ^ (k + 1) * 2 ^ 2 ^ (k + 1) := Nat.mul_le_mul hq' hq'
      omega)
  refine ⟨s.2.2, by rw [hs, Option.bind_some], ?_⟩
  exact hinv.2.2

theorem tower_fermat (x : T 7) (hx : x ≠ 0) : x ^ (2 ^ 128 - 1) = 1 := by
  obtain ⟨n, _, hn⟩ := C10_generates 7 (ofT x) (by
    intro h
    apply hx
    rw [← toT_ofT x]
    exact (congrArg (toT (k := 7)) h).trans Scalar.toT_zero)
  have h : toT (k := 7) (Verif.Field.multiplicativeGenerator 7) ^ n = x :=
    (toT_power (k := 7) _ n).symm.trans ((congrArg (toT (k := 7)) hn).trans (toT_ofT x))
  rw [← h, ← pow_mul, mul_comm, pow_mul]
  have ho := pow_orderOf_eq_one (toT (Verif.Field.multiplicativeGenerator 7))
  rw [orderOf_generator] at ho
  rw [show toT (Verif.Field.multiplicativeGenerator 7) ^ (2 ^ 128 - 1) = 1 from ho, one_pow]

theorem phi_invert (a : BitVec 128) : ∃ r, invertOrZero a = some r ∧ phi r = (phi a)⁻¹ := by
  obtain ⟨r, hr, hv⟩ := invert_ok a
  refine ⟨r, hr, hv.trans ?_⟩
  by_cases h : phi a = 0
  · rw [h, zero_pow (by norm_num), inv_zero]
  · refine eq_inv_of_mul_eq_one_left ?_
    rw [← pow_succ]
    exact tower_fermat _ h

end Verif.Field.Polyval
