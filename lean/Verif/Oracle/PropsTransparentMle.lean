import Verif.Oracle.ModelTransparentMle
import Mathlib.Data.List.GetD
import Mathlib.Tactic.Ring

/-! C84: serialization of transparent multilinear extensions. -/

namespace Verif.TransparentMle

/-- The same polynomial: the same number of variables and the same values on the hypercube. -/
def Mle.Same (p q : Mle) : Prop := p.nVars = q.nVars ∧ ∀ i < 2 ^ p.nVars, p.value i = q.value i

theorem join_digit (b : Nat) (l : List Nat) (h : ∀ d ∈ l, d < b) (t : Nat) (ht : t < l.length) :
    join b l / b ^ t % b = l[t] := by
  induction l generalizing t with
  | nil => exact absurd ht (by simp)
  | cons d l ih =>
    have hd := h d List.mem_cons_self
    have hb : 0 < b := by omega
    cases t with
    | zero => rw [join, pow_zero, Nat.div_one, Nat.add_mul_mod_self_left, Nat.mod_eq_of_lt hd]; rfl
    | succ t =>
      rw [join, pow_succ', ← Nat.div_div_eq_div_mul, Nat.add_mul_div_left _ _ hb, Nat.div_eq_of_lt hd, Nat.zero_add,
        ih (fun x hx => h x (List.mem_cons_of_mem _ hx)) t (by simpa using ht)]
      rfl

theorem isPowerOfTwo_pow (m : Nat) : isPowerOfTwo (2 ^ m) = true := by
  rw [isPowerOfTwo, Nat.log_pow (by decide)]; simp

theorem perElem_pos (k : Nat) : 0 < perElem k := Nat.two_pow_pos _

/-- Packing to scalars of a level in which all the values are, when there are enough of them, keeps the polynomial. -/
theorem pack_ok (c k m : Nat) (xs : List Nat) (hx : ∀ x ∈ xs, x < 2 ^ 2 ^ k) (hl : xs.length = 2 ^ m)
    (hm : c + (7 - k) ≤ m) :
    ∃ q, fromValues c k (packSlice c k xs) = some q ∧ q.level = k ∧ q.nVars = m ∧ ∀ i < 2 ^ m, q.value i = xs.getD i 0 := by
  have hw : 2 ^ c * perElem k = 2 ^ (c + (7 - k)) := by rw [perElem, pow_add]
  obtain ⟨r, rfl⟩ : ∃ r, m = c + (7 - k) + r := ⟨m - (c + (7 - k)), by omega⟩
  have hlen : (packSlice c k xs).length = 2 ^ r * 2 ^ c := by
    rw [packSlice, List.length_map, List.length_range, hl, hw, pow_add, Nat.add_sub_assoc (Nat.two_pow_pos _),
      Nat.mul_add_div (Nat.two_pow_pos _), Nat.div_eq_of_lt (Nat.sub_lt (Nat.two_pow_pos _) Nat.one_pos), Nat.add_zero]
  have hdiv : (packSlice c k xs).length / 2 ^ c = 2 ^ r := by rw [hlen, Nat.mul_div_cancel _ (Nat.two_pow_pos _)]
  refine ⟨⟨k, r + (c + (7 - k)), packSlice c k xs⟩, ?_, rfl, Nat.add_comm _ _, fun i hi => ?_⟩
  · rw [fromValues]
    simp only [hdiv]
    rw [if_pos (isPowerOfTwo_pow r), Nat.log_pow (by decide)]
  · have hj : i / perElem k < 2 ^ r * 2 ^ c := by
      rw [Nat.div_lt_iff_lt_mul (perElem_pos k), Nat.mul_assoc, hw, ← pow_add, Nat.add_comm r]
      exact hi
    have ht : i % perElem k < perElem k := Nat.mod_lt _ (perElem_pos k)
    have he : (packSlice c k xs).getD (i / perElem k) 0 = join (2 ^ 2 ^ k)
        ((List.range (perElem k)).map fun t => xs.getD (i / perElem k * perElem k + t) 0) := by
      rw [List.getD_eq_getElem _ _ (hlen ▸ hj)]
      simp only [packSlice, List.getElem_map, List.getElem_range]
    show (packSlice c k xs).getD (i / perElem k) 0 / (2 ^ 2 ^ k) ^ (i % perElem k) % 2 ^ 2 ^ k = _
    rw [he, join_digit _ _ ?_ _ (by rw [List.length_map, List.length_range]; exact ht), List.getElem_map, List.getElem_range,
      Nat.div_add_mod']
    intro d hd
    obtain ⟨t, _, rfl⟩ := List.mem_map.1 hd
    by_cases hb : i / perElem k * perElem k + t < xs.length
    · rw [List.getD_eq_getElem _ _ hb]
      exact hx _ (List.getElem_mem hb)
    · rw [List.getD_eq_default _ _ (by omega)]
      exact Nat.two_pow_pos _

/-- The arm that is taken is that of the first level in which all the values are. -/
theorem deserializeFrom_eq (c : Nat) (xs : List Nat) (n k : Nat) (hn : n + k = 7) (hx : ∀ x ∈ xs, x < 2 ^ 2 ^ 7) :
    ∃ l, k ≤ l ∧ l ≤ 7 ∧ (∀ x ∈ xs, x < 2 ^ 2 ^ l) ∧ (∀ j, k ≤ j → j < l → ¬ ∀ x ∈ xs, x < 2 ^ 2 ^ j) ∧
      deserializeFrom c xs n k = fromValues c l (packSlice c l xs) := by
  induction n generalizing k with
  | zero =>
    obtain rfl : k = 7 := by omega
    exact ⟨7, le_rfl, le_rfl, hx, fun j h1 h2 => absurd h2 (by omega), rfl⟩
  | succ n ih =>
    by_cases hf : ∀ x ∈ xs, x < 2 ^ 2 ^ k
    · refine ⟨k, le_rfl, by omega, hf, fun j h1 h2 => absurd h2 (by omega), ?_⟩
      rw [deserializeFrom, tryPackSlice, if_pos (by simpa using hf)]
    · obtain ⟨l, h1, h2, h3, h4, h5⟩ := ih (k + 1) (by omega)
      refine ⟨l, by omega, h2, h3, fun j hj hjl => ?_, ?_⟩
      · rcases Nat.eq_or_lt_of_le hj with rfl | hj
        · exact hf
        · exact h4 j hj hjl
      · rw [deserializeFrom, tryPackSlice, if_neg (by simpa using hf)]
        exact h5

/-- C84: a transparent polynomial with values in the field of 128 bits that is serialized and deserialized is the same
polynomial, if it has at least as many values as an underlier has scalars of the smallest field in which they all are.

Partial: for one with values in a smaller field, and one with fewer values, this is false (`C84_small_field_changed`,
`C84_few_values_changed`). -/
theorem C84_roundtrip_partial (c : Nat) (elems : List Nat) (he : ∀ e ∈ elems, e < 2 ^ 128) (p : Mle)
    (hc : 2 ^ c ∣ elems.length) (hp : fromValues c 7 elems = some p)
    (hn : ∀ k ≤ 7, (∀ e ∈ elems, e < 2 ^ 2 ^ k) → c + (7 - k) ≤ p.nVars) :
    ∃ q, deserialize c (serialize p) = some q ∧ p.Same q := by
  rw [fromValues] at hp
  split at hp
  · rename_i hpow
    cases hp
    have hlen : elems.length = 2 ^ (Nat.log 2 (elems.length / 2 ^ c) + (c + (7 - 7))) := by
      rw [isPowerOfTwo, beq_iff_eq] at hpow
      rw [Nat.sub_self, Nat.add_zero, pow_add, hpow, Nat.div_mul_cancel hc]
    obtain ⟨l, _, h2, h3, _, h5⟩ := deserializeFrom_eq c elems 7 0 rfl he
    obtain ⟨q, q1, q2, q3, q4⟩ := pack_ok c l _ elems h3 hlen (hn l h2 h3)
    refine ⟨q, h5.trans q1, q3.symm, fun i hi => ?_⟩
    rw [q4 i hi]
    show elems.getD (i / perElem 7) 0 / (2 ^ 2 ^ 7) ^ (i % perElem 7) % 2 ^ 2 ^ 7 = _
    have hi' : i < elems.length := hlen ▸ hi
    rw [show perElem 7 = 1 from rfl, Nat.div_one, Nat.mod_one, pow_zero, Nat.div_one, List.getD_eq_getElem _ _ hi']
    exact Nat.mod_eq_of_lt (he _ (List.getElem_mem hi'))
  · cases hp

/-- Finding: the values of a polynomial over a smaller field are written as elements of the extension that hold several of
them. With an underlier of 128 bits, each polynomial in 7 variables with bits as values, except for two, is deserialized as
one with another number of variables. -/
theorem C84_small_field_changed (e : Nat) (h2 : 2 ≤ e) (he : e < 2 ^ 128) :
    ∃ p, fromValuesAndMu 0 0 7 [e] = some p ∧ p.nVars = 7 ∧
      ∃ q, deserialize 0 (serialize p) = some q ∧ ¬ p.Same q := by
  refine ⟨⟨0, 7, [e]⟩, by simp [fromValuesAndMu, isPowerOfTwo], rfl, ?_⟩
  obtain ⟨l, _, hl7, h3, _, h5⟩ := deserializeFrom_eq 0 [e] 7 0 rfl (by simpa using he)
  have hl0 : l ≠ 0 := by
    rintro rfl
    have := h3 e (by simp)
    omega
  have hpk : (packSlice 0 l [e]).length = 1 := by
    rw [packSlice, List.length_map, List.length_range]
    have := perElem_pos l
    rw [pow_zero, Nat.one_mul, Nat.mul_one, List.length_singleton, Nat.add_sub_cancel_left, Nat.div_self this]
  refine ⟨⟨l, 7 - l, packSlice 0 l [e]⟩, ?_, fun hs => ?_⟩
  · show deserializeFrom 0 [e] 7 0 = _
    rw [h5, fromValues]
    simp only [hpk]
    rw [if_pos (by decide)]
    simp
  · have : 7 = 7 - l := hs.1
    omega

/-- Finding: fewer values than an underlier has scalars of a field in which they all are get filled up with zeros, so that the
polynomial has more variables after it. With `C84_roundtrip_partial`, this says exactly which polynomials with values in the
field of 128 bits are kept. -/
theorem C84_few_values_changed (c : Nat) (elems : List Nat) (he : ∀ e ∈ elems, e < 2 ^ 128) (p : Mle)
    (hc : 2 ^ c ∣ elems.length) (hp : fromValues c 7 elems = some p) (k : Nat) (hk : ∀ e ∈ elems, e < 2 ^ 2 ^ k)
    (hn : p.nVars < c + (7 - k)) : ∃ q, deserialize c (serialize p) = some q ∧ p.nVars < q.nVars := by
  rw [fromValues] at hp
  split at hp
  · rename_i hpow
    cases hp
    have hlen : elems.length = 2 ^ (Nat.log 2 (elems.length / 2 ^ c) + (c + (7 - 7))) := by
      rw [isPowerOfTwo, beq_iff_eq] at hpow
      rw [Nat.sub_self, Nat.add_zero, pow_add, hpow, Nat.div_mul_cancel hc]
    obtain ⟨l, _, h2, h3, h4, h5⟩ := deserializeFrom_eq c elems 7 0 rfl he
    have hlk : l ≤ k := by
      by_contra hlt
      exact h4 k (Nat.zero_le _) (by omega) hk
    have hn' : Nat.log 2 (elems.length / 2 ^ c) + (c + (7 - 7)) < c + (7 - l) := Nat.lt_of_lt_of_le hn (by omega)
    have hlt : elems.length < 2 ^ (c + (7 - l)) := by rw [hlen]; exact Nat.pow_lt_pow_right (by decide) hn'
    have hpos : 0 < elems.length := by rw [hlen]; exact Nat.two_pow_pos _
    have hpk : (packSlice c l elems).length / 2 ^ c = 1 := by
      rw [packSlice, List.length_map, List.length_range, Nat.mul_div_cancel _ (Nat.two_pow_pos _), perElem, ← pow_add]
      exact Nat.div_eq_of_lt_le (by omega) (by omega)
    refine ⟨⟨l, c + (7 - l), packSlice c l elems⟩, ?_, hn'⟩
    show deserializeFrom c elems 7 0 = _
    rw [h5, fromValues]
    simp only [hpk]
    rw [if_pos (by decide)]
    simp
  · cases hp

/-- The values 1 and 0, with an underlier of 128 bits: one variable before, 7 after. -/
example : ∃ q, deserialize 0 [1, 0] = some q ∧ 1 < q.nVars :=
  C84_few_values_changed 0 [1, 0] (by decide) ⟨7, 1, [1, 0]⟩ (by decide) (by decide +kernel) 0 (by decide) (by decide)

/-- The hypotheses hold for two values that are in no smaller field, with two elements in an underlier. -/
example : ∃ q, deserialize 1 [2 ^ 127, 5] = some q ∧ Mle.Same ⟨7, 1, [2 ^ 127, 5]⟩ q :=
  C84_roundtrip_partial 1 [2 ^ 127, 5] (by decide) ⟨7, 1, [2 ^ 127, 5]⟩ (by decide) (by decide +kernel) (by decide +kernel)

end Verif.TransparentMle
