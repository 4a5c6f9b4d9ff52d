import Verif.Field.LemmasMove
import Verif.Field.ModelGenerators
import Mathlib.NumberTheory.LucasPrimality
import Mathlib.Tactic.NormNum.Prime
import Mathlib.Data.Nat.Prime.Basic
import Mathlib.GroupTheory.OrderOfElement
import Mathlib.Data.ZMod.Basic

/-!
# An order certificate for elements of the tower

`orderCert k g` computes, with the code's own multiplication and squaring, the powers that decide
whether `g` has order `2^(2^k) - 1`. This file proves the certificate sound.
-/

namespace Verif.Field

section cert
variable {k : Nat}

/-- `x^(2^n)` by repeated squaring. -/
def sqIter (n : Nat) (x : U k) : U k := (List.range n).foldl (fun x _ => Scalar.square x) x

/-- `x^(2^(2^i) + 1)`. -/
def powF (i : Nat) (x : U k) : U k := Scalar.mul (sqIter (2 ^ i) x) x

/-- `x^(2^(2^j) - 1)`. -/
def powLow : Nat → U k → U k
  | 0, x => x
  | j + 1, x => powLow j (powF j x)

/-- The primes dividing the Fermat number `2^(2^j) + 1`, for `j ≤ 6`. -/
def fermatPrimes : Nat → List Nat
  | 0 => [3] | 1 => [5] | 2 => [17] | 3 => [257] | 4 => [65537]
  | 5 => [641, 6700417]
  | 6 => [274177, 67280421310721]
  | _ => []

/-- The certificate. -/
def orderCert : Nat → U k → Bool
  | 0, h => h == 1#_
  | j + 1, h =>
    let low := powLow j h
    (fermatPrimes j).all (fun p =>
      let e := (2 ^ 2 ^ j + 1) / p
      if e = 1 then low != 1#_ else Packed.pow k low e != 1#_) && orderCert j (powF j h)

theorem toT_sqIter (n : Nat) (x : U k) : toT (sqIter n x) = toT x ^ 2 ^ n := by
  induction n with
  | zero => simp [sqIter]
  | succ n ih =>
    rw [sqIter, List.range_succ, List.foldl_append, List.foldl_cons, List.foldl_nil,
      Scalar.toT_square, T.square_eq]
    rw [sqIter] at ih
    rw [ih, ← pow_two, ← pow_mul, pow_succ]

theorem toT_powF (i : Nat) (x : U k) : toT (powF i x) = toT x ^ (2 ^ 2 ^ i + 1) := by
  rw [powF, Scalar.toT_mul, toT_sqIter, pow_succ]

theorem fermat_mul (j : Nat) : (2 ^ 2 ^ j + 1) * (2 ^ 2 ^ j - 1) = 2 ^ 2 ^ (j + 1) - 1 := by
  rw [pow_succ 2 j, pow_mul]
  generalize 2 ^ 2 ^ j = q
  rw [← Nat.sq_sub_sq]

theorem toT_powLow (j : Nat) : ∀ x : U k, toT (powLow j x) = toT x ^ (2 ^ 2 ^ j - 1) := by
  induction j with
  | zero => intro x; simp [powLow]
  | succ j ih => intro x; rw [powLow, ih, toT_powF, ← pow_mul, fermat_mul]

theorem toT_pow (x : U k) (e : Nat) (he : e < 2 ^ 64) : toT (Packed.pow k x e) = toT x ^ e :=
  Packed.lane_pow le_rfl (by simp) x e he

theorem prime_2998279 : Nat.Prime 2998279 := by norm_num
/-- Modular exponentiation by squaring, with fuel. -/
def powMod (m a : Nat) : Nat → Nat → Nat
  | 0, _ => 1 % m
  | f + 1, e =>
    let h := powMod m a f (e / 2)
    if e % 2 = 1 then h * h % m * a % m else h * h % m

theorem powMod_eq (m a : Nat) : ∀ f e, e < 2 ^ f → powMod m a f e = a ^ e % m := by
  intro f
  induction f with
  | zero =>
    intro e he
    obtain rfl : e = 0 := by simpa using he
    simp [powMod]
  | succ f ih =>
    intro e he
    have h2 : e / 2 < 2 ^ f := by rw [Nat.pow_succ] at he; omega
    have hd := Nat.div_add_mod e 2
    rw [powMod, ih _ h2]
    split
    · have : a ^ e = a ^ (e / 2) * a ^ (e / 2) * a := by
        rw [← pow_add, ← pow_succ]; congr 1; omega
      rw [this, ← Nat.mul_mod, Nat.mod_mul_mod]
    · have : a ^ e = a ^ (e / 2) * a ^ (e / 2) := by
        rw [← pow_add]; congr 1; omega
      rw [this, ← Nat.mul_mod]

theorem zmod_pow_ne_one {p a e : Nat} (h : a ^ e % p ≠ 1) (h1 : 1 < p) :
    ((a : Nat) : ZMod p) ^ e ≠ 1 := by
  intro hc
  have h2 : ((a ^ e : Nat) : ZMod p) = ((1 : Nat) : ZMod p) := by push_cast; exact hc
  rw [ZMod.natCast_eq_natCast_iff'] at h2
  rw [Nat.mod_eq_of_lt h1] at h2
  exact h h2

theorem zmod_pow_eq_one {p a e : Nat} (h : a ^ e % p = 1) (h1 : 1 < p) :
    ((a : Nat) : ZMod p) ^ e = 1 := by
  have h2 : ((a ^ e : Nat) : ZMod p) = ((1 : Nat) : ZMod p) := by
    rw [ZMod.natCast_eq_natCast_iff', h, Nat.mod_eq_of_lt h1]
  push_cast at h2
  exact h2

theorem prime_67280421310721 : Nat.Prime 67280421310721 := by
  refine lucas_primality _ ((3 : Nat) : ZMod 67280421310721)
    (zmod_pow_eq_one (by rw [← powMod_eq _ _ 47 _ (by norm_num)]; decide +kernel) (by norm_num)) ?_
  intro q hq hd
  have hf : 67280421310721 - 1 = 2 ^ 8 * (5 * (47 * (373 * 2998279))) := by norm_num
  rw [hf] at hd
  have key : q = 2 ∨ q = 5 ∨ q = 47 ∨ q = 373 ∨ q = 2998279 := by
    rcases (Nat.Prime.dvd_mul hq).mp hd with h | hd
    · exact Or.inl ((Nat.prime_dvd_prime_iff_eq hq Nat.prime_two).mp (hq.dvd_of_dvd_pow h))
    rcases (Nat.Prime.dvd_mul hq).mp hd with h | hd
    · exact Or.inr (Or.inl ((Nat.prime_dvd_prime_iff_eq hq (by norm_num)).mp h))
    rcases (Nat.Prime.dvd_mul hq).mp hd with h | hd
    · exact Or.inr (Or.inr (Or.inl ((Nat.prime_dvd_prime_iff_eq hq (by norm_num)).mp h)))
    rcases (Nat.Prime.dvd_mul hq).mp hd with h | hd
    · exact Or.inr (Or.inr (Or.inr (Or.inl ((Nat.prime_dvd_prime_iff_eq hq (by norm_num)).mp h))))
    · exact Or.inr (Or.inr (Or.inr (Or.inr ((Nat.prime_dvd_prime_iff_eq hq prime_2998279).mp hd))))
  rcases key with rfl | rfl | rfl | rfl | rfl
  · exact zmod_pow_ne_one (by rw [← powMod_eq _ _ 47 _ (by norm_num)]; decide +kernel) (by norm_num)
  · exact zmod_pow_ne_one (by rw [← powMod_eq _ _ 47 _ (by norm_num)]; decide +kernel) (by norm_num)
  · exact zmod_pow_ne_one (by rw [← powMod_eq _ _ 47 _ (by norm_num)]; decide +kernel) (by norm_num)
  · exact zmod_pow_ne_one (by rw [← powMod_eq _ _ 47 _ (by norm_num)]; decide +kernel) (by norm_num)
  · exact zmod_pow_ne_one (by rw [← powMod_eq _ _ 47 _ (by norm_num)]; decide +kernel) (by norm_num)

theorem mem_fermatPrimes {j p : Nat} (hj : j ≤ 6) (hp : p.Prime) (hd : p ∣ 2 ^ 2 ^ j + 1) :
    p ∈ fermatPrimes j := by
  have one : ∀ q : Nat, q.Prime → p ∣ q → p = q := fun q hq h =>
    (Nat.prime_dvd_prime_iff_eq hp hq).mp h
  interval_cases j
  · exact List.mem_singleton.mpr (one 3 (by norm_num) hd)
  · exact List.mem_singleton.mpr (one 5 (by norm_num) hd)
  · exact List.mem_singleton.mpr (one 17 (by norm_num) hd)
  · exact List.mem_singleton.mpr (one 257 (by norm_num) hd)
  · exact List.mem_singleton.mpr (one 65537 (by norm_num) hd)
  · have : (2 ^ 2 ^ 5 + 1 : Nat) = 641 * 6700417 := by norm_num
    rw [this] at hd
    rcases (Nat.Prime.dvd_mul hp).mp hd with h | h
    · simp [fermatPrimes, one 641 (by norm_num) h]
    · simp [fermatPrimes, one 6700417 (by norm_num) h]
  · have : (2 ^ 2 ^ 6 + 1 : Nat) = 274177 * 67280421310721 := by norm_num
    rw [this] at hd
    rcases (Nat.Prime.dvd_mul hp).mp hd with h | h
    · simp [fermatPrimes, one 274177 (by norm_num) h]
    · simp [fermatPrimes, one _ prime_67280421310721 h]

theorem orderCert_sound : ∀ (j : Nat) (h : U k), j ≤ 7 → orderCert j h = true →
    orderOf (toT h) = 2 ^ 2 ^ j - 1 := by
  intro j
  induction j with
  | zero =>
    intro h _ hc
    have : h = 1#_ := by simpa [orderCert] using hc
    rw [this, Scalar.toT_one, orderOf_one]; norm_num
  | succ j ih =>
    intro h hj hc
    rw [orderCert, Bool.and_eq_true] at hc
    obtain ⟨hlow, hrec⟩ := hc
    have ho := ih (powF j h) (by omega) hrec
    rw [toT_powF] at ho
    have hq : 2 ≤ 2 ^ 2 ^ j := by
      calc 2 = 2 ^ 1 := rfl
        _ ≤ 2 ^ 2 ^ j := Nat.pow_le_pow_right (by omega) (Nat.two_pow_pos j)
    have hN : 0 < 2 ^ 2 ^ (j + 1) - 1 := by
      rw [← fermat_mul]; exact Nat.mul_pos (by omega) (by omega)
    refine orderOf_eq_of_pow_and_pow_div_prime hN ?_ ?_
    · rw [← fermat_mul, pow_mul, ← ho]; exact pow_orderOf_eq_one _
    · intro p hp hd
      rw [← fermat_mul] at hd ⊢
      by_cases hpl : p ∣ 2 ^ 2 ^ j - 1
      · rw [Nat.mul_div_assoc _ hpl, pow_mul]
        intro h1
        have := orderOf_dvd_of_pow_eq_one h1
        rw [ho] at this
        have hle := Nat.le_of_dvd (Nat.div_pos (Nat.le_of_dvd (by omega) hpl) hp.pos) this
        exact absurd (Nat.div_lt_self (n := 2 ^ 2 ^ j - 1) (by omega) hp.one_lt) (by omega)
      · have hpf : p ∣ 2 ^ 2 ^ j + 1 := ((Nat.Prime.dvd_mul hp).mp hd).resolve_right hpl
        have hmem := mem_fermatPrimes (by omega) hp hpf
        have hall := List.all_eq_true.mp hlow p hmem
        rw [Nat.mul_comm, Nat.mul_div_assoc _ hpf, pow_mul, ← toT_powLow]
        have hlt : (2 ^ 2 ^ j + 1) / p < 2 ^ 64 := by
          have h2 : (2 ^ 2 ^ j + 1) / p ≤ (2 ^ 2 ^ j + 1) / 2 := Nat.div_le_div_left hp.two_le (by omega)
          have h3 : 2 ^ 2 ^ j ≤ 2 ^ 2 ^ 6 :=
            Nat.pow_le_pow_right (by omega) (Nat.pow_le_pow_right (by omega) (by omega))
          norm_num at h3 ⊢
          omega
        rw [← toT_pow _ _ hlt, ← Scalar.toT_one]
        intro he
        have he := toT_injective he
        dsimp only at hall
        by_cases h1 : (2 ^ 2 ^ j + 1) / p = 1
        · rw [if_pos h1] at hall
          have : toT (Packed.pow k (powLow j h) ((2 ^ 2 ^ j + 1) / p)) = toT (powLow j h) := by
            rw [toT_pow _ _ hlt, h1, pow_one]
          rw [he] at this
          rw [toT_injective this] at hall
          simp at hall
        · rw [if_neg h1, he] at hall
          simp at hall

end cert

set_option maxRecDepth 100000 in
theorem generator_cert : ∀ k : Fin 8, orderCert k.val (multiplicativeGenerator k) = true := by
  decide +kernel

end Verif.Field
