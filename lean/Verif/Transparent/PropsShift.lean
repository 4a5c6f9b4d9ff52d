import Verif.Transparent.SpecShift
import Verif.Transparent.SpecTransparent
import Verif.Transparent.LemmasShift
import Mathlib.Data.ZMod.Basic

set_option linter.unusedSectionVars false

/-! C31: the shift indicator. -/

namespace Verif.Transparent

open Verif.Mle Verif.Tensor Finset

variable {F : Type*} [CommRing F]

/-- **C31** (constructor).  It accepts exactly a point with `b` coordinates and an offset from `1` to `2^b - 1`. -/
theorem C31_construct (b o : Nat) (v : ShiftVariant) (r : List F) :
    (r.length = b ∧ 0 < o ∧ o < 2 ^ b → ShiftInd.new b o v r = .ok ⟨b, o, v, r⟩) ∧
    (r.length ≠ b → ShiftInd.new b o v r = .error .incorrectQuerySize) ∧
    (r.length = b → ¬ (0 < o ∧ o < 2 ^ b) → ShiftInd.new b o v r = .error .invalidShiftOffset) := by
  unfold ShiftInd.new assertValidShiftIndArgs
  refine ⟨fun ⟨h1, h2, h3⟩ => ?_, fun h => ?_, fun h1 h2 => ?_⟩
  · rw [if_neg (not_not.2 h1), if_neg (by omega)]
  · rw [if_pos h]
  · rw [if_neg (not_not.2 h1), if_pos (by omega)]

theorem leftOffset_valid {b o : Nat} {v : ShiftVariant} {r : List F} (ho : 0 < o) (ho' : o < 2 ^ b) :
    0 < (⟨b, o, v, r⟩ : ShiftInd F).leftOffset ∧ (⟨b, o, v, r⟩ : ShiftInd F).leftOffset < 2 ^ b := by
  cases v
  · exact ⟨ho, ho'⟩
  · exact ⟨ho, ho'⟩
  · show 0 < 2 ^ b - o ∧ 2 ^ b - o < 2 ^ b
    omega

theorem pick_carry {b o : Nat} {v : ShiftVariant} {r : List F} (hr : r.length = b) (ho : 0 < o) (ho' : o < 2 ^ b)
    (i : Nat) (hi : i < 2 ^ b) :
    pickVariant v (carry r (⟨b, o, v, r⟩ : ShiftInd F).leftOffset 0 i, carry r (⟨b, o, v, r⟩ : ShiftInd F).leftOffset 1 i) =
      mle (fun j => if ShiftRel v b o i j then 1 else 0) r := by
  obtain ⟨l1, l2⟩ := leftOffset_valid (v := v) (r := r) ho ho'
  subst hr
  unfold carry
  rw [Nat.mod_eq_of_lt l2]
  cases v with
  | circularLeft =>
    show mle (fun j => if i + o = j + 0 * _ then 1 else 0) r + mle (fun j => if i + o = j + 1 * _ then 1 else 0) r =
      mle (fun j => if (i + o) % 2 ^ r.length = j then 1 else 0) r
    rw [← mle_add]
    refine mle_congr fun j hj => ?_
    rcases Nat.lt_or_ge (i + o) (2 ^ r.length) with h | h
    · rw [Nat.mod_eq_of_lt h, if_neg (show ¬ i + o = j + 1 * _ by omega), add_zero]
      exact if_congr (by omega) rfl rfl
    · rw [show (i + o) % 2 ^ r.length = i + o - 2 ^ r.length by
        rw [Nat.mod_eq_sub_mod h, Nat.mod_eq_of_lt (by omega)], if_neg (show ¬ i + o = j + 0 * _ by omega), zero_add]
      exact if_congr (by omega) rfl rfl
  | logicalLeft =>
    show mle (fun j => if i + o = j + 0 * _ then 1 else 0) r = mle (fun j => if i + o = j then 1 else 0) r
    exact mle_ind_congr (by intro j _; omega)
  | logicalRight =>
    show mle (fun j => if i + (2 ^ r.length - o) = j + 1 * _ then 1 else 0) r =
      mle (fun j => if i = j + o then 1 else 0) r
    exact mle_ind_congr (by intro j _; omega)

/-- **C31** (evaluation).  In characteristic 2, for every block size, offset and variant the constructor accepts, the
indicator evaluated at a point `x` is the multilinear extension in both variables of the shift relation, at `(x, r)`:
`∑_i ∑_j eq(x, i) eq(r, j) [i is shifted to j]`.  Points of the wrong size are refused. -/
theorem C31_evaluate (h2 : (2 : F) = 0) (b o : Nat) (v : ShiftVariant) (r : List F) (s : ShiftInd F)
    (hs : ShiftInd.new b o v r = .ok s) (x : List F) :
    (x.length = b → s.evaluate x = .ok (∑ i ∈ range (2 ^ b), ∑ j ∈ range (2 ^ b),
      eqWeight x i * eqWeight r j * if ShiftRel v b o i j then 1 else 0)) ∧
    (x.length ≠ b → s.evaluate x = .error .incorrectQuerySize) := by
  obtain ⟨c1, c2, c3⟩ := C31_construct b o v r
  by_cases hr : r.length = b
  swap
  · rw [c2 hr] at hs; cases hs
  by_cases ho : 0 < o ∧ o < 2 ^ b
  swap
  · rw [c3 hr ho] at hs; cases hs
  rw [c1 ⟨hr, ho.1, ho.2⟩] at hs
  cases hs
  refine ⟨fun hx => ?_, fun hx => if_pos hx⟩
  obtain ⟨l1, l2⟩ := leftOffset_valid (v := v) (r := r) ho.1 ho.2
  unfold ShiftInd.evaluate evaluateShiftIndHelp assertValidShiftIndArgs
  simp only
  rw [if_neg (not_not.2 hx), if_neg (not_not.2 hx), if_neg (not_not.2 hr), if_neg (by omega),
    shiftLoop_start h2 _ x r (by rw [hx, hr])]
  show Except.ok _ = _
  congr 1
  have e : pickVariant v (mle (carry r (⟨b, o, v, r⟩ : ShiftInd F).leftOffset 0) x,
      mle (carry r (⟨b, o, v, r⟩ : ShiftInd F).leftOffset 1) x) =
      mle (fun i => mle (fun j => if ShiftRel v b o i j then 1 else 0) r) x := by
    rw [mle_congr (v := fun i => mle (fun j => if ShiftRel v b o i j then 1 else 0) r) fun i hi =>
      (pick_carry hr ho.1 ho.2 i (by rwa [hx] at hi)).symm]
    cases v with
    | circularLeft => exact (mle_add _ _ _).symm
    | logicalLeft => rfl
    | logicalRight => rfl
  rw [e, mle_eq_sum, hx]
  refine sum_congr rfl fun i _ => ?_
  rw [mle_eq_sum, hr, mul_sum]
  exact sum_congr rfl fun j _ => by ring

/-- **C31** (table).  `multilinear_extension` is the table of the values of the indicator on the hypercube, for every
packing width. -/
theorem C31_table (w b o : Nat) (v : ShiftVariant) (r : List F) (s : ShiftInd F)
    (hs : ShiftInd.new b o v r = .ok s) :
    HasTable w b (s.mlx w) fun i => ∑ j ∈ range (2 ^ b), eqWeight r j * if ShiftRel v b o i j then 1 else 0 := by
  obtain ⟨c1, c2, c3⟩ := C31_construct b o v r
  by_cases hr : r.length = b
  swap
  · rw [c2 hr] at hs; cases hs
  by_cases ho : 0 < o ∧ o < 2 ^ b
  swap
  · rw [c3 hr ho] at hs; cases hs
  rw [c1 ⟨hr, ho.1, ho.2⟩] at hs
  cases hs
  obtain ⟨l1, l2⟩ := leftOffset_valid (v := v) (r := r) ho.1 ho.2
  obtain ⟨t, h1, h3, h4, h5⟩ := partialEvaluate_ok w b _ r hr l1 l2
  have hsize : (pickTable v t).size = 2 ^ (b - w) * 2 ^ w := by
    cases v <;> first | exact h3 | exact h4
  refine ⟨⟨b, pickTable v t⟩, ?_, rfl, hsize, fun i hi => ?_⟩
  · unfold ShiftInd.mlx
    simp only
    rw [h1, Option.map_some]
    simp only
    rw [mlxNew_ok w b _ hsize]; rfl
  · have := h5 i hi
    rw [List.take_of_length_le (by omega)] at this
    have hp := pick_carry (v := v) hr ho.1 ho.2 i hi
    rw [← this.1, ← this.2, mle_eq_sum, hr] at hp
    refine Eq.trans ?_ hp
    cases v <;> rfl

/-- **C31** (shifting a column).  Summing the column `t` against the indicator over the hypercube gives the multilinear
extension of the shifted column at `r`. -/
theorem C31_shifted (h2 : (2 : F) = 0) (b o : Nat) (v : ShiftVariant) (r : List F) (s : ShiftInd F)
    (hs : ShiftInd.new b o v r = .ok s) (t : Nat → F) :
    ∃ f : Nat → F, (∀ i < 2 ^ b, s.evaluate (vertex b i) = .ok (f i)) ∧
      ∑ i ∈ range (2 ^ b), t i * f i = mle (shifted v b o t) r := by
  have hr : r.length = b ∧ 0 < o ∧ o < 2 ^ b := by
    obtain ⟨c1, c2, c3⟩ := C31_construct b o v r
    by_contra hne
    by_cases hr : r.length = b
    · rw [c3 hr (fun h => hne ⟨hr, h⟩)] at hs; cases hs
    · rw [c2 hr] at hs; cases hs
  obtain ⟨hr, ho, ho'⟩ := hr
  refine ⟨fun i => ∑ j ∈ range (2 ^ b), eqWeight r j * if ShiftRel v b o i j then 1 else 0, fun i hi => ?_, ?_⟩
  · rw [(C31_evaluate h2 b o v r s hs (vertex b i)).1 (vertex_length b i)]
    congr 1
    rw [sum_eq_single i]
    · refine sum_congr rfl fun j _ => ?_
      rw [eqWeight_vertex b i i hi hi, if_pos rfl, one_mul]
    · intro k hk hne
      refine sum_eq_zero fun j _ => ?_
      rw [eqWeight_vertex b i k hi (mem_range.1 hk), if_neg (Ne.symm hne), zero_mul, zero_mul]
    · intro h; exact absurd (mem_range.2 hi) h
  · simp only [mul_sum]
    rw [sum_comm, mle_eq_sum, hr]
    refine sum_congr rfl fun j hj => ?_
    have hj := mem_range.1 hj
    have key : ∑ i ∈ range (2 ^ b), t i * (if ShiftRel v b o i j then 1 else 0) = shifted v b o t j := by
      have single : ∀ c, c < 2 ^ b → (∀ i < 2 ^ b, (ShiftRel v b o i j ↔ i = c)) →
          ∑ i ∈ range (2 ^ b), t i * (if ShiftRel v b o i j then 1 else 0) = t c := by
        intro c hc h
        rw [sum_eq_single c]
        · rw [if_pos ((h c hc).2 rfl), mul_one]
        · intro k hk hne
          rw [if_neg (fun hh => hne ((h k (mem_range.1 hk)).1 hh)), mul_zero]
        · intro hh; exact absurd (mem_range.2 hc) hh
      have none' : (∀ i < 2 ^ b, ¬ ShiftRel v b o i j) →
          ∑ i ∈ range (2 ^ b), t i * (if ShiftRel v b o i j then 1 else 0) = 0 := fun h =>
        sum_eq_zero fun i hi => by rw [if_neg (h i (mem_range.1 hi)), mul_zero]
      cases v with
      | circularLeft =>
        show _ = t ((j + 2 ^ b - o) % 2 ^ b)
        refine single _ (Nat.mod_lt _ (Nat.two_pow_pos b)) fun i hi => ?_
        show (i + o) % 2 ^ b = j ↔ _
        have m1 : (i + o) % 2 ^ b = if i + o < 2 ^ b then i + o else i + o - 2 ^ b := by
          split
          · exact Nat.mod_eq_of_lt ‹_›
          · rw [Nat.mod_eq_sub_mod (by omega), Nat.mod_eq_of_lt (by omega)]
        have m2 : (j + 2 ^ b - o) % 2 ^ b = if j < o then j + 2 ^ b - o else j - o := by
          split
          · exact Nat.mod_eq_of_lt (by omega)
          · rw [Nat.mod_eq_sub_mod (by omega), Nat.mod_eq_of_lt (by omega)]; omega
        rw [m1, m2]
        split <;> split <;> omega
      | logicalLeft =>
        show _ = if o ≤ j then t (j - o) else 0
        split
        · exact single _ (by omega) fun i hi => by show i + o = j ↔ _; omega
        · exact none' fun i hi => by show ¬ i + o = j; omega
      | logicalRight =>
        show _ = if j + o < 2 ^ b then t (j + o) else 0
        split
        · exact single _ (by omega) fun i hi => by show i = j + o ↔ _; omega
        · exact none' fun i hi => by show ¬ i = j + o; omega
    rw [← key, mul_sum]
    exact sum_congr rfl fun i _ => by ring

/-- The logical left shift by one of the block `[a, b, c, d]` is `[0, a, b, c]`: its value at the vertex 1 is `a`. -/
example : ∃ s : ShiftInd (ZMod 2), ShiftInd.new 2 1 .logicalLeft [1, 0] = .ok s ∧
    ∃ f : Nat → ZMod 2, (∀ i < 4, s.evaluate (vertex 2 i) = .ok (f i)) ∧
      ∑ i ∈ range 4, (if i = 0 then 1 else 0) * f i = 1 := by
  refine ⟨_, (C31_construct 2 1 .logicalLeft [1, 0]).1 ⟨rfl, by decide, by decide⟩, ?_⟩
  obtain ⟨f, h1, h2⟩ := C31_shifted (F := ZMod 2) (by decide) 2 1 .logicalLeft [1, 0] _
    ((C31_construct 2 1 .logicalLeft [1, 0]).1 ⟨rfl, by decide, by decide⟩) fun i => if i = 0 then 1 else 0
  exact ⟨f, h1, h2.trans (by decide)⟩

example : HasTable 1 3 (ShiftInd.mlx 1 (⟨3, 5, .circularLeft, [1, 0, 1]⟩ : ShiftInd (ZMod 2))) fun i =>
    ∑ j ∈ range (2 ^ 3), eqWeight [1, 0, 1] j * if ShiftRel .circularLeft 3 5 i j then 1 else 0 :=
  C31_table 1 3 5 .circularLeft [1, 0, 1] _ ((C31_construct 3 5 .circularLeft _).1 ⟨rfl, by decide, by decide⟩)

end Verif.Transparent
