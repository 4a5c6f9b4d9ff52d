import Verif.Field.LemmasGenerators
import Verif.Field.PropsPacked
import Mathlib.Data.Fintype.EquivFin

/-!
# C10: the published multiplicative generators generate
-/

namespace Verif.Field
open Verif.Spec

theorem orderOf_generator (k : Fin 8) :
    orderOf (toT (multiplicativeGenerator k)) = 2 ^ 2 ^ k.val - 1 :=
  orderCert_sound k.val _ (by omega) (generator_cert k)

/-- **C10.** At each of the eight tower levels, a power of `MULTIPLICATIVE_GENERATOR` is one exactly
when the exponent is a multiple of `2^(2^k) - 1`, the number of non-zero elements. -/
theorem C10_order (k : Fin 8) (n : Nat) :
    power Scalar.mul 1#_ (multiplicativeGenerator k) n = 1#_ ↔ (2 ^ 2 ^ k.val - 1) ∣ n := by
  rw [← orderOf_generator, orderOf_dvd_iff_pow_eq_one, ← toT_power, ← Scalar.toT_one]
  exact toT_injective.eq_iff.symm

theorem card_le_of_inj {w N : Nat} (f : Nat → BitVec w) (hN : N = 2 ^ w - 1)
    (h0 : ∀ n < N, f n ≠ 0#_) (hinj : ∀ a < N, ∀ b < N, f a = f b → a = b) (x : BitVec w)
    (hx : x ≠ 0#_) : ∃ n < N, f n = x := by
  by_contra hc
  have hc' : ∀ n < N, f n ≠ x := fun n hn he => hc ⟨n, hn, he⟩
  -- `N + 2` distinct values among `2^w = N + 1`
  have hw := Nat.two_pow_pos w
  let F : Fin (N + 2) → BitVec w := fun i =>
    if i.val < N then f i.val else if i.val = N then 0#_ else x
  have hF : Function.Injective F := by
    intro a b hab
    have ha := a.isLt; have hb := b.isLt
    simp only [F] at hab
    apply Fin.ext
    by_cases h1 : a.val < N <;> by_cases h2 : b.val < N
    · simp only [h1, h2, if_true] at hab
      exact hinj _ h1 _ h2 hab
    · simp only [h1, h2, if_true, if_false] at hab
      split at hab
      · exact absurd hab (h0 _ h1)
      · exact absurd hab (hc' _ h1)
    · simp only [h1, h2, if_true, if_false] at hab
      split at hab
      · exact absurd hab.symm (h0 _ h2)
      · exact absurd hab.symm (hc' _ h2)
    · simp only [h1, h2, if_false] at hab
      by_cases h3 : a.val = N <;> by_cases h4 : b.val = N
      · omega
      · simp only [h3, h4, if_true, if_false] at hab
        exact absurd hab.symm hx
      · simp only [h3, h4, if_true, if_false] at hab
        exact absurd hab hx
      · omega
  let G : Fin (N + 2) → Fin (2 ^ w) := fun i => (F i).toFin
  have hG : Function.Injective G := fun a b h => hF (BitVec.eq_of_toFin_eq h)
  have := Fintype.card_le_of_injective G hG
  simp only [Fintype.card_fin] at this
  omega

/-- **C10.** Every non-zero element of each tower field is a power of the generator, with an
exponent below the group order. -/
theorem C10_generates (k : Fin 8) (x : BitVec (2 ^ k.val)) (hx : x ≠ 0#_) :
    ∃ n < 2 ^ 2 ^ k.val - 1, power Scalar.mul 1#_ (multiplicativeGenerator k) n = x := by
  have ho := orderOf_generator k
  have hq : 2 ≤ 2 ^ 2 ^ k.val := by
    calc 2 = 2 ^ 1 := rfl
      _ ≤ 2 ^ 2 ^ k.val := Nat.pow_le_pow_right (by omega) (Nat.two_pow_pos _)
  have hpos : 0 < orderOf (toT (multiplicativeGenerator k)) := by rw [ho]; omega
  refine card_le_of_inj _ rfl ?_ ?_ x hx
  · intro n hn h
    have h1 : toT (multiplicativeGenerator k) ^ n = 0 := by rw [← toT_power, h, Scalar.toT_zero]
    have h2 : toT (multiplicativeGenerator k) = 0 := eq_zero_of_pow_eq_zero h1
    have h3 := pow_orderOf_eq_one (toT (multiplicativeGenerator k))
    rw [h2, zero_pow (by rw [h2] at hpos; omega)] at h3
    exact zero_ne_one h3
  · intro a ha b hb h
    have h1 : toT (multiplicativeGenerator k) ^ a = toT (multiplicativeGenerator k) ^ b := by
      rw [← toT_power, ← toT_power, h]
    exact pow_injOn_Iio_orderOf (by rw [Set.mem_Iio, ho]; exact ha)
      (by rw [Set.mem_Iio, ho]; exact hb) h1

/-- The 8-bit generator: `0x2D^255 = 1`, and `255` is the least such exponent. -/
example : power Scalar.mul 1#_ (multiplicativeGenerator 3) 255 = 1#_ ∧
    power Scalar.mul 1#_ (multiplicativeGenerator 3) 85 ≠ 1#_ :=
  ⟨(C10_order 3 255).mpr (by decide), fun h => absurd ((C10_order 3 85).mp h) (by decide)⟩

end Verif.Field
