import Verif.NTT.ModelNtt
import Verif.NTT.LemmasTwiddle
import Verif.Util.PairLoop
import Mathlib.Tactic.Ring

/-! The transform as a composition of layers on the flat sequence of scalars, and what the layers compute. -/

set_option linter.unusedSectionVars false

namespace Verif.NTT

open Finset Spec

variable {F : Type*} [Field F] [DecidableEq F]

/-! ### Layers on scalars -/

/-- A forward layer at bit `b` with twiddles depending on the higher bits. -/
def fwdLayer (b : Nat) (t : Nat → F) (g : Nat → F) (p : Nat) : F :=
  if p / 2 ^ b % 2 = 0 then g p + g (p + 2 ^ b) * t (p / 2 ^ (b + 1))
  else g p + (g (p - 2 ^ b) + g p * t (p / 2 ^ (b + 1)))

/-- An inverse layer. -/
def invLayer (b : Nat) (t : Nat → F) (g : Nat → F) (p : Nat) : F :=
  if p / 2 ^ b % 2 = 0 then g p + (g (p + 2 ^ b) + g p) * t (p / 2 ^ (b + 1))
  else g p + g (p - 2 ^ b)

theorem div_add_pow {p b : Nat} (h : p / 2 ^ b % 2 = 0) :
    (p + 2 ^ b) / 2 ^ b % 2 = 1 ∧ (p + 2 ^ b) / 2 ^ (b + 1) = p / 2 ^ (b + 1) := by
  have hb := Nat.two_pow_pos b
  constructor
  · rw [Nat.add_div_right _ hb]; omega
  · rw [Nat.pow_succ, ← Nat.div_div_eq_div_mul, ← Nat.div_div_eq_div_mul, Nat.add_div_right _ hb]
    omega

theorem div_sub_pow {p b : Nat} (h : ¬ p / 2 ^ b % 2 = 0) :
    2 ^ b ≤ p ∧ (p - 2 ^ b) / 2 ^ b % 2 = 0 ∧ (p - 2 ^ b) / 2 ^ (b + 1) = p / 2 ^ (b + 1) := by
  have hb := Nat.two_pow_pos b
  have hle : 2 ^ b ≤ p := by
    by_contra hc
    rw [Nat.div_eq_of_lt (by omega)] at h
    simp at h
  obtain ⟨q, rfl⟩ := Nat.exists_eq_add_of_le' hle
  rw [Nat.add_sub_cancel]
  rw [Nat.add_div_right _ hb] at h
  have h0 : q / 2 ^ b % 2 = 0 := by omega
  exact ⟨by omega, h0, (div_add_pow h0).2.symm⟩

theorem inv_fwd (h2 : (1 : F) + 1 = 0) (b : Nat) (t g : Nat → F) : invLayer b t (fwdLayer b t g) = g := by
  funext p
  unfold invLayer
  by_cases h : p / 2 ^ b % 2 = 0
  · obtain ⟨h1, h3⟩ := div_add_pow h
    rw [if_pos h]
    unfold fwdLayer
    rw [if_pos h, if_neg (by omega), h3, Nat.add_sub_cancel]
    linear_combination (t (p / 2 ^ (b + 1)) * (g (p + 2 ^ b) + g p + g (p + 2 ^ b) * t (p / 2 ^ (b + 1)))) * h2
  · obtain ⟨h1, h3, h4⟩ := div_sub_pow h
    rw [if_neg h]
    unfold fwdLayer
    rw [if_neg h, if_pos h3, h4, Nat.sub_add_cancel h1]
    linear_combination (g (p - 2 ^ b) + g p * t (p / 2 ^ (b + 1))) * h2

theorem fwd_inv (h2 : (1 : F) + 1 = 0) (b : Nat) (t g : Nat → F) : fwdLayer b t (invLayer b t g) = g := by
  funext p
  unfold fwdLayer
  by_cases h : p / 2 ^ b % 2 = 0
  · obtain ⟨h1, h3⟩ := div_add_pow h
    rw [if_pos h]
    unfold invLayer
    rw [if_pos h, if_neg (by omega), Nat.add_sub_cancel]
    linear_combination (t (p / 2 ^ (b + 1)) * (g (p + 2 ^ b) + g p)) * h2
  · obtain ⟨h1, h3, h4⟩ := div_sub_pow h
    rw [if_neg h]
    unfold invLayer
    rw [if_neg h, if_pos h3, h4, Nat.sub_add_cancel h1]
    linear_combination (g (p - 2 ^ b) + (g p + g (p - 2 ^ b)) * t (p / 2 ^ (b + 1))) * h2

/-- A layer below a size keeps two sequences equal that are equal below it. -/
theorem fwdLayer_congr {b n : Nat} (t : Nat → F) {g g' : Nat → F} (hb : b < n) (h : ∀ p < 2 ^ n, g p = g' p) :
    ∀ p < 2 ^ n, fwdLayer b t g p = fwdLayer b t g' p := by
  intro p hp
  unfold fwdLayer
  split
  next hc =>
    rw [h p hp, h (p + 2 ^ b) ?_]
    have : p / 2 ^ b < 2 ^ (n - b) := by
      rw [Nat.div_lt_iff_lt_mul (Nat.two_pow_pos b), ← Nat.pow_add]
      rwa [show n - b + b = n by omega]
    have h3 : 2 ^ (n - b) = 2 ^ (n - b - 1) * 2 := by rw [← Nat.pow_succ]; congr 1; omega
    have h4 : (p + 2 ^ b) / 2 ^ b < 2 ^ (n - b) := by
      rw [Nat.add_div_right _ (Nat.two_pow_pos b)]; omega
    rw [Nat.div_lt_iff_lt_mul (Nat.two_pow_pos b), ← Nat.pow_add] at h4
    rwa [show n - b + b = n by omega] at h4
  next hc => rw [h p hp, h (p - 2 ^ b) (lt_of_le_of_lt (Nat.sub_le _ _) hp)]

theorem invLayer_congr {b n : Nat} (t : Nat → F) {g g' : Nat → F} (hb : b < n) (h : ∀ p < 2 ^ n, g p = g' p) :
    ∀ p < 2 ^ n, invLayer b t g p = invLayer b t g' p := by
  intro p hp
  unfold invLayer
  split
  next hc =>
    rw [h p hp, h (p + 2 ^ b) ?_]
    have : p / 2 ^ b < 2 ^ (n - b) := by
      rw [Nat.div_lt_iff_lt_mul (Nat.two_pow_pos b), ← Nat.pow_add]
      rwa [show n - b + b = n by omega]
    have h3 : 2 ^ (n - b) = 2 ^ (n - b - 1) * 2 := by rw [← Nat.pow_succ]; congr 1; omega
    have h4 : (p + 2 ^ b) / 2 ^ b < 2 ^ (n - b) := by
      rw [Nat.add_div_right _ (Nat.two_pow_pos b)]; omega
    rw [Nat.div_lt_iff_lt_mul (Nat.two_pow_pos b), ← Nat.pow_add] at h4
    rwa [show n - b + b = n by omega] at h4
  next hc => rw [h p hp, h (p - 2 ^ b) (lt_of_le_of_lt (Nat.sub_le _ _) hp)]

/-! ### What the forward layers compute -/

/-- The twiddles of layer `i` of a transform of height `2^ly` on a coset. -/
def twid (γ : List F) (ly coset i : Nat) (m : Nat) : F :=
  normPoly γ i (point γ ((coset * 2 ^ (ly - 1 - i) + m % 2 ^ (ly - 1 - i)) * 2 ^ (i + 1)))

/-- The layers `s-1, …, i`. -/
def fwdLayers (γ : List F) (lx ly coset s : Nat) (g : Nat → F) : Nat → Nat → F
  | 0 => g
  | k + 1 => fwdLayer (lx + (s - 1 - k)) (twid γ ly coset (s - 1 - k)) (fwdLayers γ lx ly coset s g k)

/-- The point belonging to a position before layer `i`. -/
def posPoint (γ : List F) (lx ly coset i p : Nat) : F :=
  point γ (coset * 2 ^ ly + (p / 2 ^ (lx + i)) % 2 ^ (ly - i) * 2 ^ i)

/-- The partial result at level `i`. -/
def level (γ : List F) (lx ly coset s : Nat) (g : Nat → F) (i p : Nat) : F :=
  ∑ h ∈ range (2 ^ (s - i)),
    g (p / 2 ^ (lx + s) * 2 ^ (lx + s) + h * 2 ^ (lx + i) + p % 2 ^ (lx + i)) *
      ∏ b ∈ range (s - i), if h.testBit b then normPoly γ (i + b) (posPoint γ lx ly coset i p) else 1

theorem level_top (γ : List F) (lx ly coset s : Nat) (g : Nat → F) (p : Nat) :
    level γ lx ly coset s g s p = g p := by
  unfold level
  simp [Nat.div_add_mod']

/-- Positions with bit `i` clear and set: the points differ by the basis element. -/
theorem posPoint_clear {γ : List F} {lx ly coset i p : Nat} (hi : i < ly)
    (h0 : p / 2 ^ (lx + i) % 2 = 0) :
    posPoint γ lx ly coset i p = posPoint γ lx ly coset (i + 1) p ∧
    posPoint γ lx ly coset i p =
      point γ ((coset * 2 ^ (ly - 1 - i) + p / 2 ^ (lx + i + 1) % 2 ^ (ly - 1 - i)) * 2 ^ (i + 1)) := by
  have e1 : (p / 2 ^ (lx + i)) % 2 ^ (ly - i) = (p / 2 ^ (lx + i + 1)) % 2 ^ (ly - 1 - i) * 2 := by
    rw [show ly - i = (ly - 1 - i) + 1 by omega, Nat.pow_succ, Nat.mul_comm (2 ^ (ly - 1 - i)) 2, Nat.mod_mul,
      h0, zero_add, Nat.div_div_eq_div_mul, ← Nat.pow_succ, Nat.mul_comm]
  have e2 : coset * 2 ^ ly = coset * 2 ^ (ly - 1 - i) * 2 ^ (i + 1) := by
    rw [Nat.mul_assoc, ← Nat.pow_add]; congr 2; omega
  constructor
  · unfold posPoint
    congr 1
    rw [e1, show ly - (i + 1) = ly - 1 - i by omega, Nat.mul_assoc, ← Nat.pow_succ', ← Nat.add_assoc]
  · unfold posPoint
    congr 1
    rw [e1, Nat.add_mul, ← e2, Nat.mul_assoc, ← Nat.pow_succ']

theorem posPoint_set (h2 : (1 : F) + 1 = 0) {γ : List F} {lx ly coset i p : Nat} (hi : i < ly)
    (hγ : ly ≤ γ.length) (h0 : p / 2 ^ (lx + i) % 2 = 0) :
    posPoint γ lx ly coset i (p + 2 ^ (lx + i)) = posPoint γ lx ly coset i p + γ.getD i 0 := by
  unfold posPoint
  rw [Nat.add_div_right _ (Nat.two_pow_pos _)]
  have e0 : (p / 2 ^ (lx + i) + 1) % 2 ^ (ly - i) = (p / 2 ^ (lx + i)) % 2 ^ (ly - i) + 1 := by
    have hp : 2 ^ (ly - i) = 2 * 2 ^ (ly - i - 1) := by rw [← Nat.pow_succ']; congr 1; omega
    rw [hp, Nat.mod_mul, Nat.mod_mul]
    have : (p / 2 ^ (lx + i) + 1) / 2 = p / 2 ^ (lx + i) / 2 := by omega
    rw [this]
    omega
  have e1 : (p / 2 ^ (lx + i)) % 2 ^ (ly - i) % 2 = 0 := by
    rw [Nat.mod_mod_of_dvd _ (dvd_pow_self 2 (by omega)), h0]
  rw [e0]
  generalize (p / 2 ^ (lx + i)) % 2 ^ (ly - i) = q at e1 ⊢
  have e2 : coset * 2 ^ ly + (q + 1) * 2 ^ i = (coset * 2 ^ ly + q * 2 ^ i) ^^^ 2 ^ i := by
    have hz : (coset * 2 ^ ly + q * 2 ^ i).testBit i = false := by
      have : coset * 2 ^ ly + q * 2 ^ i = (coset * 2 ^ (ly - i) + q) * 2 ^ i := by
        rw [Nat.add_mul, Nat.mul_assoc, ← Nat.pow_add]; congr 3; omega
      rw [this, Nat.testBit_mul_two_pow, Nat.sub_self, Nat.testBit_zero]
      have hd : 2 ^ (ly - i) = 2 ^ (ly - i - 1) * 2 := by rw [← Nat.pow_succ]; congr 1; omega
      simp
      rw [hd, ← Nat.mul_assoc]
      omega
    refine Nat.eq_of_testBit_eq fun k => ?_
    rw [Nat.testBit_xor, show coset * 2 ^ ly + (q + 1) * 2 ^ i = 2 ^ i + (coset * 2 ^ ly + q * 2 ^ i) by ring]
    generalize coset * 2 ^ ly + q * 2 ^ i = n at hz ⊢
    rcases Nat.lt_trichotomy k i with h | h | h
    · rw [Nat.testBit_two_pow_add_gt h, Nat.testBit_two_pow_of_ne (by omega)]; simp
    · subst h
      rw [Nat.testBit_two_pow_add_eq, Nat.testBit_two_pow_self, hz]; rfl
    · rw [Nat.testBit_two_pow_of_ne (by omega), Bool.xor_false]
      have hdiv : (2 ^ i + n) / 2 ^ (i + 1) = n / 2 ^ (i + 1) := by
        have := (div_add_pow (p := n) (b := i) (by
          rw [Nat.testBit_eq_decide_div_mod_eq] at hz
          simpa using hz)).2
        rw [Nat.add_comm]; exact this
      have hk : k = (k - (i + 1)) + (i + 1) := by omega
      rw [hk, ← Nat.testBit_div_two_pow, ← Nat.testBit_div_two_pow, hdiv]
  rw [e2, point_xor h2]
  congr 1
  unfold point
  rw [Finset.sum_eq_single i]
  · simp
  · intro k _ hk
    rw [Nat.testBit_two_pow_of_ne (Ne.symm hk)]; simp
  · intro h
    exact absurd (mem_range.2 (by omega)) h

theorem level_step (h2 : (1 : F) + 1 = 0) {γ : List F} (hind : Independent γ) {lx ly coset s i : Nat} (hi : i < s)
    (hs : s ≤ ly) (hγ : ly ≤ γ.length) (g : Nat → F) :
    level γ lx ly coset s g i = fwdLayer (lx + i) (twid γ ly coset i) (level γ lx ly coset s g (i + 1)) := by
  -- the sum at level i in terms of the two sums at level i+1
  have key : ∀ p, p / 2 ^ (lx + i) % 2 = 0 → ∀ (N : F),
      ∑ h ∈ range (2 ^ (s - i)),
        g (p / 2 ^ (lx + s) * 2 ^ (lx + s) + h * 2 ^ (lx + i) + p % 2 ^ (lx + i)) *
          (if h.testBit 0 then N else 1) * (∏ b ∈ range (s - (i + 1)), if (h / 2).testBit b then
            normPoly γ (i + 1 + b) (posPoint γ lx ly coset (i + 1) p) else 1) =
      level γ lx ly coset s g (i + 1) p + level γ lx ly coset s g (i + 1) (p + 2 ^ (lx + i)) * N := by
    intro p h0 N
    have hle : 2 ^ (lx + s) = 2 ^ (lx + i + 1) * 2 ^ (s - (i + 1)) := by rw [← Nat.pow_add]; congr 1; omega
    have hdiv : (p + 2 ^ (lx + i)) / 2 ^ (lx + s) = p / 2 ^ (lx + s) := by
      rw [hle, ← Nat.div_div_eq_div_mul, (div_add_pow h0).2, Nat.div_div_eq_div_mul]
    have hm0 : p % 2 ^ (lx + i + 1) = p % 2 ^ (lx + i) := by
      rw [Nat.pow_succ, Nat.mod_mul, h0]; simp
    have hm1 : (p + 2 ^ (lx + i)) % 2 ^ (lx + i + 1) = p % 2 ^ (lx + i) + 2 ^ (lx + i) := by
      rw [Nat.pow_succ, Nat.mod_mul, (div_add_pow h0).1, Nat.add_mod_right, Nat.mul_one]
    have hpp : posPoint γ lx ly coset (i + 1) (p + 2 ^ (lx + i)) = posPoint γ lx ly coset (i + 1) p := by
      unfold posPoint
      rw [show lx + (i + 1) = lx + i + 1 from rfl, (div_add_pow h0).2]
    rw [show 2 ^ (s - i) = 2 * 2 ^ (s - (i + 1)) by rw [← Nat.pow_succ']; congr 1; omega, sum_range_mul]
    unfold level
    rw [sum_mul, ← sum_add_distrib]
    refine sum_congr rfl fun h _ => ?_
    rw [sum_range_succ, sum_range_succ, sum_range_zero, zero_add, hpp, hdiv]
    have t0 : (0 + 2 * h).testBit 0 = false := by rw [Nat.testBit_zero]; simp
    have t1 : (1 + 2 * h).testBit 0 = true := by rw [Nat.testBit_zero]; simp
    rw [t0, t1, show (0 + 2 * h) / 2 = h by omega, show (1 + 2 * h) / 2 = h by omega,
      show lx + (i + 1) = lx + i + 1 from rfl, hm0, hm1]
    simp only [Bool.false_eq_true, if_false, if_true, mul_one]
    rw [show (0 + 2 * h) * 2 ^ (lx + i) = h * 2 ^ (lx + i + 1) by rw [Nat.pow_succ]; ring,
      show p / 2 ^ (lx + s) * 2 ^ (lx + s) + (1 + 2 * h) * 2 ^ (lx + i) + p % 2 ^ (lx + i) =
        p / 2 ^ (lx + s) * 2 ^ (lx + s) + h * 2 ^ (lx + i + 1) + (p % 2 ^ (lx + i) + 2 ^ (lx + i)) by
        rw [Nat.pow_succ]; ring]
    ring
  -- the product at level i
  have prod : ∀ (h : Nat) (x : F), (∏ b ∈ range (s - i), if h.testBit b then normPoly γ (i + b) x else 1) =
      (if h.testBit 0 then normPoly γ i x else 1) *
        ∏ b ∈ range (s - (i + 1)), if (h / 2).testBit b then normPoly γ (i + 1 + b) x else 1 := by
    intro h x
    rw [show s - i = s - (i + 1) + 1 by omega, prod_range_succ', mul_comm]
    congr 1
    refine prod_congr rfl fun b _ => ?_
    rw [Nat.testBit_succ, show i + (b + 1) = i + 1 + b by omega]
  funext p
  unfold fwdLayer
  by_cases h0 : p / 2 ^ (lx + i) % 2 = 0
  · rw [if_pos h0, ← key p h0]
    conv_lhs => unfold level
    obtain ⟨c1, c2⟩ := posPoint_clear (γ := γ) (coset := coset) (show i < ly by omega) h0
    refine sum_congr rfl fun h _ => ?_
    rw [prod, mul_assoc]
    congr 2
    · rw [c2]; rfl
    · refine prod_congr rfl fun b _ => ?_
      rw [c1]
  · obtain ⟨h1, h3, h4⟩ := div_sub_pow h0
    rw [if_neg h0]
    obtain ⟨q, hq⟩ : ∃ q, q = p - 2 ^ (lx + i) := ⟨_, rfl⟩
    have hp : p = q + 2 ^ (lx + i) := by omega
    rw [← hq] at h3 h4 ⊢
    have hk := key q h3 (twid γ ly coset i (q / 2 ^ (lx + i + 1)) + 1)
    have goal : level γ lx ly coset s g i p = level γ lx ly coset s g (i + 1) q +
        level γ lx ly coset s g (i + 1) (q + 2 ^ (lx + i)) * (twid γ ly coset i (q / 2 ^ (lx + i + 1)) + 1) := by
      rw [← hk]
      obtain ⟨c1, c2⟩ := posPoint_clear (coset := coset) (γ := γ) (show i < ly by omega) h3
      have c3 := posPoint_set (coset := coset) h2 (show i < ly by omega) hγ h3
      rw [← hp] at c3
      have hdiv : p / 2 ^ (lx + s) = q / 2 ^ (lx + s) := by
        have hle : 2 ^ (lx + s) = 2 ^ (lx + i + 1) * 2 ^ (s - (i + 1)) := by rw [← Nat.pow_add]; congr 1; omega
        rw [hp, hle, ← Nat.div_div_eq_div_mul, (div_add_pow h3).2, Nat.div_div_eq_div_mul]
      have hmod : p % 2 ^ (lx + i) = q % 2 ^ (lx + i) := by rw [hp, Nat.add_mod_right]
      conv_lhs => unfold level
      refine sum_congr rfl fun h _ => ?_
      rw [prod, mul_assoc, hdiv, hmod]
      congr 2
      · rw [c3, normPoly_add h2 (by omega), normPoly_self h2 hind (by omega), c2]; rfl
      · refine prod_congr rfl fun b hb => ?_
        have := mem_range.1 hb
        rw [c3, normPoly_add h2 (by omega), normPoly_lower (by omega) (by omega), add_zero, c1]
    rw [goal, ← h4, hp]
    ring

theorem fwdLayers_level (h2 : (1 : F) + 1 = 0) {γ : List F} (hind : Independent γ) {lx ly coset s : Nat}
    (hs : s ≤ ly) (hγ : ly ≤ γ.length) (g : Nat → F) : ∀ k, k ≤ s →
    fwdLayers γ lx ly coset s g k = level γ lx ly coset s g (s - k)
  | 0, _ => by funext p; exact (level_top _ _ _ _ _ _ _).symm
  | k + 1, hk => by
    rw [fwdLayers, fwdLayers_level h2 hind hs hγ g k (by omega), show s - (k + 1) = s - 1 - k by omega,
      level_step h2 hind (show s - 1 - k < s by omega) hs hγ, show s - 1 - k + 1 = s - k by omega]

/-- The forward layers evaluate the polynomial in the novel basis. -/
theorem fwdLayers_eval (h2 : (1 : F) + 1 = 0) {γ : List F} (hind : Independent γ) {lx ly coset s : Nat}
    (hs : s ≤ ly) (hγ : ly ≤ γ.length) (g : Nat → F) (p : Nat) :
    fwdLayers γ lx ly coset s g s p =
      novelEval γ (2 ^ s) (fun j => g (p / 2 ^ (lx + s) * 2 ^ (lx + s) + j * 2 ^ lx + p % 2 ^ lx))
        (point γ (coset * 2 ^ ly + p / 2 ^ lx % 2 ^ ly)) := by
  rw [fwdLayers_level h2 hind hs hγ g s le_rfl, Nat.sub_self]
  unfold level novelEval
  refine sum_congr (by rw [Nat.sub_zero]) fun h hh => ?_
  congr 1
  unfold novel
  have hx : posPoint γ lx ly coset 0 p = point γ (coset * 2 ^ ly + p / 2 ^ lx % 2 ^ ly) := by
    unfold posPoint; simp
  rw [hx]
  refine Eq.trans (prod_congr (by rw [Nat.sub_zero]) fun b _ => by rw [Nat.zero_add]) ?_
  refine prod_subset (fun b hb => mem_range.2 (lt_of_lt_of_le (mem_range.1 hb) (le_trans hs hγ))) fun b _ hb => ?_
  rw [Nat.testBit_lt_two_pow (lt_of_lt_of_le (mem_range.1 hh) (Nat.pow_le_pow_right (by omega) (by
    rw [mem_range] at hb; omega)))]
  simp

end Verif.NTT
