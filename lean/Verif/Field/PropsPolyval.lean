import Verif.Field.LemmasPolyvalField
import Verif.Field.SpecField

/-!
# C69, C70: the POLYVAL field
-/

namespace Verif.Field.Polyval
open Verif.Spec

theorem tower_inv (n : Nat) (x : T n) (h : x ≠ 0) : x * x⁻¹ = 1 := mul_inv_cancel₀ h

theorem phi_cancel (a b : BitVec 128) (hb : phi b = (phi a)⁻¹) (ha : a ≠ 0#128) :
    mul a b = one := by
  have h1 : phi a = 0 → a = 0#128 := fun h => phi_injective (h.trans phi_zero.symm)
  have h2 : phi (mul a b) = phi a * (phi a)⁻¹ := (phi_mul a b).trans (congrArg _ hb)
  exact phi_injective ((h2.trans (tower_inv 7 (phi a) fun h => ha (h1 h))).trans phi_one.symm)

theorem mul_assoc' (a b c : BitVec 128) : mul (mul a b) c = mul a (mul b c) := by
  refine phi_injective ?_
  rw [phi_mul, phi_mul, phi_mul, phi_mul]
  exact mul_assoc _ _ _

theorem mul_add' (a b c : BitVec 128) : mul a (add b c) = add (mul a b) (mul a c) := by
  refine phi_injective ?_
  rw [phi_mul, add, phi_xor, add, phi_xor, phi_mul, phi_mul]
  exact mul_add _ _ _

/-- **C69.** Inversion never fails, and addition, multiplication and inversion make the 128-bit
integers a field of characteristic two with zero `0` and one `ONE`. -/
theorem C69_field : ∃ inv : BitVec 128 → BitVec 128, (∀ a, invertOrZero a = some (inv a)) ∧
    IsChar2Field add mul 0#128 one inv := by
  choose inv hinv vinv using phi_invert
  refine ⟨inv, hinv, ?_⟩
  constructor
  · intro a b c; exact BitVec.xor_assoc a b c
  · intro a b; exact BitVec.xor_comm a b
  · intro a; exact BitVec.xor_zero
  · intro a; exact BitVec.xor_self
  · exact mul_assoc'
  · intro a b; exact phi_injective (by rw [phi_mul, phi_mul, mul_comm])
  · intro a; exact phi_injective (by rw [phi_mul, phi_one, mul_one])
  · exact mul_add'
  · decide
  · intro a ha; exact phi_cancel a _ (vinv a) ha
  · exact phi_injective (by rw [vinv, phi_zero, inv_zero])

/-- **C69.** `new` takes a polynomial, and multiplication of such elements is multiplication of
polynomials modulo the POLYVAL polynomial; printing (`from_montgomery`) shows the polynomial again;
every element is `new` of a polynomial; squaring is multiplication with itself. -/
theorem C69_polynomials (a b : BitVec 128) :
    mul (new a) (new b) = new (polyvalMul a b) ∧ add (new a) (new b) = new (a ^^^ b) ∧
    fromMontgomery (new a) = a ∧ new (fromMontgomery a) = a ∧ new 1#128 = one ∧
    square a = mul a a := by
  refine ⟨phi_injective ?_, phi_injective ?_, ev_injective ?_, phi_injective ?_, phi_injective ?_, rfl⟩
  · rw [phi_mul, phi_new, phi_new, phi_new, ev_polyvalMul]
  · rw [add, phi_xor, phi_new, phi_new, phi_new, ev_xor]
  · rw [ev_fromMontgomery, phi_new]
  · rw [phi_new, ev_fromMontgomery]
  · have h := ev_fromMontgomery one
    rw [phi_one] at h
    have e : fromMontgomery one = 1#128 := by decide +kernel
    rw [e] at h
    rw [phi_new, h, phi_one]

/-- **C69.** On the stored integers, multiplication is the operation `dot` of RFC 8452: the product
times `x^-128`. -/
theorem C69_dot (a b : BitVec 128) : polyvalMul (mul a b) polyvalX128 = polyvalMul a b := by
  refine ev_injective ?_
  rw [ev_polyvalMul, ev_polyvalMul, ← ev_mul g g_poly a b]
  have e : ev g polyvalX128 = g ^ 128 := by
    have h1 := phi_ev one
    rw [phi_one, one_mul] at h1
    exact h1.symm
  rw [e]

/-- **C69.** Conversion to the canonical tower preserves addition, multiplication, zero and one, and
conversion back inverts it on both sides. -/
theorem C69_canonical :
    IsEmbedding add mul 0#128 one (Scalar.add (k := 7)) (Scalar.mul (k := 7)) 0#128 1#128 toBinary ∧
    (∀ x, ofBinary (toBinary x) = x) ∧ (∀ x, toBinary (ofBinary x) = x) ∧
    ∀ a, (invertOrZero a).map toBinary = some (Scalar.invertOrZero (k := 7) (toBinary a)) := by
  refine ⟨⟨?_, ?_, ?_, toBinary_one, ?_⟩, ofBinary_toBinary, toBinary_ofBinary, ?_⟩
  · intro a b; exact transform_xor _ a b
  · intro a b; exact toT_injective (k := 7) ((phi_mul a b).trans (Scalar.toT_mul (k := 7) _ _).symm)
  · exact toT_injective (k := 7) (phi_zero.trans (Scalar.toT_zero (k := 7)).symm)
  · intro a b h; exact phi_injective (congrArg (toT (k := 7)) h)
  · intro a
    obtain ⟨r, hr, hv⟩ := phi_invert a
    rw [hr]
    exact congrArg some (toT_injective (k := 7) (hv.trans (Scalar.toT_inv (k := 7) _).symm))

/-- **C69.** Conversion to the AES tower preserves addition and multiplication, conversion back
inverts it on both sides, and going to the canonical tower through the AES tower is the same as
going there directly. -/
theorem C69_aes (a b : BitVec 128) :
    Aes.mul 4 (toAes a) (toAes b) = some (toAes (mul a b)) ∧
    toAes (a ^^^ b) = toAes a ^^^ toAes b ∧
    ofAes (toAes a) = a ∧ toAes (ofAes a) = a ∧
    Aes.toBinary (n := 4) (toAes a) = toBinary a := by
  refine ⟨?_, transform_xor _ a b, ofAes_toAes a, toAes_ofAes a, aes_toBinary a⟩
  obtain ⟨z, hz, hv⟩ := Aes.Φ_mul 4 (toAes a) (toAes b)
  rw [hz]
  have e : ∀ x, Aes.Φ 4 (toAes x) = phi x := fun x => congrArg (toT (k := 7)) (aes_toBinary x)
  exact congrArg some (Aes.Φ_injective (n := 4) (hv.trans (by rw [e, e, e, phi_mul])))

/-- **C69.** The published generator has full order. -/
theorem C69_generator (n : Nat) :
    power mul one multiplicativeGenerator n = one ↔ (2 ^ 128 - 1) ∣ n := by
  have hG : phi multiplicativeGenerator = toT (k := 7) (Verif.Field.multiplicativeGenerator 7) :=
    congrArg (toT (k := 7)) toBinary_generator
  have hp : ∀ n, phi (power mul one multiplicativeGenerator n) =
      toT (k := 7) (Verif.Field.multiplicativeGenerator 7) ^ n := by
    intro n
    induction n with
    | zero => rw [power, phi_one, pow_zero]
    | succ n ih =>
      rw [power, phi_mul, ih, hG, pow_succ]
  rw [← phi_injective.eq_iff, hp, phi_one, ← orderOf_dvd_iff_pow_eq_one]
  have ho := orderOf_generator 7
  exact (iff_of_eq (congrArg (· ∣ n) ho))

/-- **C69.** One-bit scalars embed as zero and one, come back, and multiply as they should. -/
theorem C69_bits (x : BitVec 128) (b : Bool) :
    toBit (ofBit b) = some b ∧ (toBit x = some b → ofBit b = x) ∧
    mulBit x b = mul x (ofBit b) := by
  refine ⟨by revert b; decide +kernel, ?_, ?_⟩
  · intro h
    unfold toBit at h
    split at h
    · next h0 => obtain rfl := Option.some_inj.1 h; rw [h0]; decide
    · split at h
      · next h1 => obtain rfl := Option.some_inj.1 h; rw [h1]; decide
      · exact (nomatch h)
  · cases b
    · refine phi_injective ?_
      have e : ofBit false = 0#128 := by decide
      rw [phi_mul, e, phi_zero, mul_zero]
      have : mulBit x false = 0#128 := by simp [mulBit]
      rw [this, phi_zero]
    · refine phi_injective ?_
      have e : ofBit true = one := by decide
      rw [phi_mul, e, phi_one, mul_one]
      have : mulBit x true = x := BitVec.and_allOnes
      rw [this]

/-- The example of the code's test: the model computes the product of the standard. -/
example : fromMontgomery (mul (new 0x2a9055e4e69a61f0b5cfd6f4161087ba#128)
    (new 0x3843cf87fb7c84e18276983bed670337#128)) = 0x5b2619c8a035206a12100d7a171aa988#128 := by
  decide +kernel

/-- The specification computes it as well. -/
example : polyvalMul 0x2a9055e4e69a61f0b5cfd6f4161087ba#128
    0x3843cf87fb7c84e18276983bed670337#128 = 0x5b2619c8a035206a12100d7a171aa988#128 := by
  decide +kernel

/-- An inverse. -/
example : (invertOrZero (new 2#128)).map (mul (new 2#128)) = some one := by decide +kernel

/-! ## C70: decomposition over the one-bit field -/

/-- **C70 (partial: bits of the polynomial form only).** Recombining the bits of the polynomial form
(`from_montgomery`, what is printed) with the only stride the function accepts gives the element
back. The full claim, that `iter_bases` lists the coordinates of the element with respect to
`basis(0), ..., basis(127)` and that `from_bases` inverts it, is false:
`C70_iter_bases_not_coordinates`, `C70_from_bases_fails`. -/
theorem C70_from_bases_partial (x : BitVec 128) :
    fromBasesSparse (iterBases (fromMontgomery x)) 7 = some x := by
  have hfold : ∀ (v : BitVec 128) (n : Nat), n ≤ 128 →
      ((((List.range n).map fun i => v.getLsbD i).zipIdx).foldl
        (fun (a : BitVec 128) p => a ||| ((BitVec.ofBool p.1).setWidth 128 <<< p.2)) 0#128) =
        v &&& (BitVec.ofNat 128 (2 ^ n - 1)) := by
    intro v n hn
    induction n with
    | zero => simp
    | succ n ih =>
      rw [List.range_succ, List.map_append, List.zipIdx_append, List.foldl_append, ih (by omega)]
      simp only [List.map_cons, List.map_nil, List.zipIdx_cons, List.zipIdx_nil, List.foldl_cons,
        List.foldl_nil, List.length_map, List.length_range, Nat.zero_add]
      apply BitVec.eq_of_getLsbD_eq
      intro i hi
      rw [BitVec.getLsbD_or, BitVec.getLsbD_and, BitVec.getLsbD_and, BitVec.getLsbD_ofNat,
        BitVec.getLsbD_ofNat, Nat.testBit_two_pow_sub_one, Nat.testBit_two_pow_sub_one,
        BitVec.getLsbD_shiftLeft, BitVec.getLsbD_setWidth, BitVec.getLsbD_ofBool]
      rcases Nat.lt_trichotomy i n with h | h | h
      · simp [hi, h, show i < n + 1 by omega]
      · subst h; simp [hi]
      · simp [hi, show ¬ i < n by omega, show ¬ i < n + 1 by omega, show i - n ≠ 0 by omega]
  rw [fromBasesSparse, if_neg (by decide), iterBases, hfold _ 128 (le_refl _)]
  have : fromMontgomery x &&& BitVec.ofNat 128 (2 ^ 128 - 1) = fromMontgomery x := by
    have e : BitVec.ofNat 128 (2 ^ 128 - 1) = BitVec.allOnes 128 := by decide
    rw [e, BitVec.and_allOnes]
  rw [this, (C69_polynomials x x).2.2.2.1]

/-- **C70 (negation).** `from_bases`, which passes `log_stride = 0`, fails on every input. -/
theorem C70_from_bases_fails (es : List Bool) : fromBases es = none := by
  rw [fromBases, fromBasesSparse, if_pos (by decide)]

/-- **C70 (negation).** `iter_bases` does not list the coordinates: for the element stored as `1`,
the combination of the basis elements is another element. -/
theorem C70_iter_bases_not_coordinates :
    ∃ x : BitVec 128, (∃ bs : List (BitVec 128), (List.range 128).mapM basisChecked = some bs ∧
      (bs.zip (iterBases x)).foldl (fun acc p => add acc (mulBit p.1 p.2)) 0#128 ≠ x) := by
  refine ⟨1#128, (List.range 128).map (fun i => new (1#128 <<< i)), ?_, ?_⟩
  · decide +kernel
  · decide +kernel

/-- The basis itself is the polynomial basis: `basis(i)` is `x^i`, and the index is checked. -/
theorem C70_basis (i : Nat) :
    basisChecked i = if i < 128 then some (new (1#128 <<< i)) else none := by
  unfold basisChecked
  by_cases h : i < 128
  · rw [if_neg (by omega), if_pos h]
  · rw [if_pos (by omega), if_neg h]

end Verif.Field.Polyval
