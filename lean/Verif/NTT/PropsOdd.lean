import Verif.NTT.LemmasOdd

/-! C74: interpolation over unions of cosets. -/

set_option linter.unusedSectionVars false

namespace Verif.NTT

open Finset Spec
open Verif.Subspace (BinarySubspace)
open Verif.Matrix (Mat)

variable {F : Type*} [Field F] [DecidableEq F]

/-- **C74**.  For every NTT built from a subspace, every `d` and `ell` that fit in a domain of dimension
`coset_bits + ell`, the interpolator can be built.  `inverse_transform` takes exactly `d * 2^ell` values, and turns them into
the coefficients in the novel basis of the polynomial that has these values at the first `d * 2^ell` points of the domain;
there are no other such coefficients. -/
theorem C74_interpolate (h2 : (1 : F) + 1 = 0) {β : List F} {tas tbl : List (TA F)}
    (h : withSubspace (⟨β⟩ : BinarySubspace F) = some (.ok tas)) (ht : tbl = tas ∨ tbl = precomputeTwiddles tas)
    (d ell cosetBits : Nat) (hd : d ≤ 2 ^ cosetBits) (hdom : cosetBits + ell ≤ β.length) :
    ∃ o, Odd.new β.length tbl d ell cosetBits = some (.ok o) ∧ ∀ data : Slice F,
      (data.size ≠ d * 2 ^ ell → o.inverseTransform data = some (.error .incorrectLength)) ∧
      (data.size = d * 2 ^ ell → ∃ out, o.inverseTransform data = some (.ok out) ∧ out.size = d * 2 ^ ell ∧
        (∀ p < d * 2 ^ ell, novelEval (domainBasis β (cosetBits + ell)) (d * 2 ^ ell) out.val
          (point (domainBasis β (cosetBits + ell)) p) = data.val p) ∧
        ∀ c : Nat → F, (∀ p < d * 2 ^ ell, novelEval (domainBasis β (cosetBits + ell)) (d * 2 ^ ell) c
          (point (domainBasis β (cosetBits + ell)) p) = data.val p) → ∀ j < d * 2 ^ ell, c j = out.val j) := by
  obtain ⟨-, -, hind, -⟩ := ready_of h2 h ht
  obtain ⟨inv, n1, n2, n3⟩ := new_ok h2 h ht hdom hd
  refine ⟨_, n1, fun data => ⟨fun hs => ?_, fun hs => ?_⟩⟩
  · rw [Odd.inverseTransform, if_pos (by rw [n2.1, Nat.shiftLeft_eq]; exact hs)]
  · obtain ⟨mid, m1, m2, m3, -⟩ := chunks_ok h2 h ht hdom inv data d hd
    obtain ⟨out, o1, o2, o3⟩ := strides_ok (cb := cosetBits) (L := β.length) (tbl := tbl) n2 mid (m2.trans hs)
    have heval : ∀ p < d * 2 ^ ell, novelEval (domainBasis β (cosetBits + ell)) (d * 2 ^ ell) out.val
        (point (domainBasis β (cosetBits + ell)) p) = data.val p := by
      intro p hp
      have hi : p / 2 ^ ell < d := (Nat.div_lt_iff_lt_mul (Nat.two_pow_pos _)).2 hp
      have hp' : p = p / 2 ^ ell * 2 ^ ell + p % 2 ^ ell := by rw [Nat.mul_comm, Nat.div_add_mod]
      have e := m3 (p / 2 ^ ell) hi (p % 2 ^ ell) (Nat.mod_lt _ (Nat.two_pow_pos _))
      rw [← hp'] at e
      rw [← e, novelEval, novelEval, Nat.mul_comm d, sum_range_mul, sum_comm]
      refine sum_congr rfl fun s hs => ?_
      rw [mem_range] at hs
      rw [← n3 (fun j => mid.val (j * 2 ^ ell + s)) _ hi, sum_mul]
      refine sum_congr rfl fun k hk => ?_
      rw [mem_range] at hk
      rw [show s + 2 ^ ell * k = k * 2 ^ ell + s by rw [Nat.add_comm, Nat.mul_comm], novel_split h2 hind hdom p k s hs,
        o3 s hs k hk]
      ring
    refine ⟨out, ?_, by rw [o2, m2, hs], heval, fun c hc => ?_⟩
    · rw [Odd.inverseTransform, if_neg (by rw [n2.1, Nat.shiftLeft_eq]; exact not_not.2 hs), hs]
      dsimp only
      rw [Nat.mul_div_cancel _ (Nat.two_pow_pos _), m1, Option.bind_some]
      dsimp only
      rw [o1, Option.map_some]
    · refine novelEval_unique h2 (domainBasis_independent h2 hind hdom) ?_ c out.val fun p hp => by
        rw [hc p hp, heval p hp]
      rw [domainBasis_length hdom, Nat.pow_add]
      exact Nat.mul_le_mul_right _ hd

/-- When the domain is all of the NTT's, the points and the basis are those of the given subspace. -/
theorem C74_full_domain (h2 : (1 : F) + 1 = 0) {β : List F} {tas tbl : List (TA F)}
    (h : withSubspace (⟨β⟩ : BinarySubspace F) = some (.ok tas)) (ht : tbl = tas ∨ tbl = precomputeTwiddles tas)
    (d ell cosetBits : Nat) (hd : d ≤ 2 ^ cosetBits) (hdom : cosetBits + ell = β.length) (data : Slice F)
    (hs : data.size = d * 2 ^ ell) :
    ∃ o out, Odd.new β.length tbl d ell cosetBits = some (.ok o) ∧ o.inverseTransform data = some (.ok out) ∧
      out.size = d * 2 ^ ell ∧ ∀ p < d * 2 ^ ell, novelEval β (d * 2 ^ ell) out.val (point β p) = data.val p := by
  obtain ⟨o, o1, o2⟩ := C74_interpolate h2 h ht d ell cosetBits hd hdom.le
  obtain ⟨out, e1, e2, e3, -⟩ := (o2 data).2 hs
  obtain ⟨hne, -⟩ := ready_of h2 h ht
  have := (C13_subspace h2 h ht β.length (List.length_pos_iff.2 hne) le_rfl).2.2.2.2
  rw [hdom, this] at e3
  exact ⟨o, out, o1, e1, e2, e3⟩

/-- The parameters that `new` rejects. -/
theorem C74_errors (L : Nat) (tbl : List (TA F)) (d ell cosetBits : Nat) :
    (2 ^ cosetBits < d → Odd.new L tbl d ell cosetBits = some (.error .cosetIndexOutOfBounds)) ∧
    (d ≤ 2 ^ cosetBits → L < cosetBits + ell → Odd.new L tbl d ell cosetBits = some (.error .domainTooSmall)) := by
  constructor
  · intro hd
    rw [Odd.new, if_pos (by rw [Nat.one_shiftLeft]; exact hd)]
  · intro hd hL
    rw [Odd.new, if_neg (by rw [Nat.one_shiftLeft]; omega), if_pos hL]

/-- The basis of the field with 16 elements that binary counting goes along, without its last element. -/
def oddBasis : List (Field.T 2) := [1, ((0, 1), 0), (0, 1)]

theorem oddBasis_independent : Independent oddBasis := by
  intro i h0 hi
  have : i < 8 := hi
  unfold point oddBasis
  rw [show ([1, ((0, 1), 0), (0, 1)] : List (Field.T 2)).length = 3 from rfl, sum_range_succ, sum_range_succ, sum_range_succ,
    sum_range_zero]
  interval_cases i <;> decide

/-- Finding: the documentation says that the values are those at the first `d * 2^ell` elements of the field in binary
counting order.  This is so for the whole domain of the NTT only (`C74_full_domain`); when the NTT has a larger domain than
`coset_bits + ell`, the points are others. -/
theorem C74_other_points : ∃ (β : List (Field.T 2)) (tas : List (TA (Field.T 2))),
    withSubspace (⟨β⟩ : BinarySubspace (Field.T 2)) = some (.ok tas) ∧ 1 + 1 ≤ β.length ∧
      point (domainBasis β (1 + 1)) 2 ≠ point β 2 := by
  obtain ⟨tas, h, -⟩ := (C13_construct (F := Field.T 2) (by decide) oddBasis).2.2.1 (by simp [oddBasis])
    rfl oddBasis_independent
  refine ⟨oddBasis, tas, h, by decide, ?_⟩
  have h1 : point oddBasis 2 = oddBasis.getD 1 0 := by
    unfold point oddBasis
    rw [show ([1, ((0, 1), 0), (0, 1)] : List (Field.T 2)).length = 3 from rfl, sum_range_succ, sum_range_succ,
      sum_range_succ, sum_range_zero]
    decide
  have hs : ∀ x : Field.T 2, subspacePoly oddBasis 1 x = x * (x - 1) := fun x => by
    unfold subspacePoly
    rw [show (2 ^ 1 : Nat) = 2 from rfl, prod_range_succ, prod_range_one, point_zero, sub_zero]
    congr 2
  have h3 : point (domainBasis oddBasis (1 + 1)) 2 = normPoly oddBasis 1 (oddBasis.getD 2 0) := by
    unfold point
    rw [domainBasis_length (show 1 + 1 ≤ oddBasis.length by decide), sum_range_succ, sum_range_one,
      if_neg (by decide), if_pos (by decide), zero_add]
    rfl
  rw [h1, h3, normPoly, hs, hs]
  intro e
  rw [div_eq_iff (by decide)] at e
  exact absurd e (by decide)

/-- Three cosets of two points in a domain of dimension three. -/
example : ∃ tas o out, withSubspace (⟨oddBasis⟩ : BinarySubspace (Field.T 2)) = some (.ok tas) ∧
    Odd.new 3 tas 3 1 2 = some (.ok o) ∧
    o.inverseTransform ⟨6, fun i => if i = 4 then (0, 1) else 1⟩ = some (.ok out) ∧ out.size = 6 := by
  obtain ⟨tas, h, -⟩ := (C13_construct (F := Field.T 2) (by decide) oddBasis).2.2.1 (by simp [oddBasis])
    rfl oddBasis_independent
  obtain ⟨o, out, h1, h3, h4, -⟩ := C74_full_domain (by decide) h (Or.inl rfl) 3 1 2 (by decide) rfl
    ⟨6, fun i => if i = 4 then (0, 1) else 1⟩ rfl
  exact ⟨tas, o, out, h, h1, h3, h4⟩

end Verif.NTT
