import Verif.NTT.LemmasMain
import Verif.Field.Tower
import Mathlib.Tactic.IntervalCases

/-! C13: the additive NTT evaluates polynomials given in the novel basis, and the inverse NTT undoes it. -/

set_option linter.unusedSectionVars false

namespace Verif.NTT

open Finset Spec
open Verif.Subspace (BinarySubspace)

variable {F : Type*} [Field F] [DecidableEq F]

theorem mapM_none {α β : Type*} {f : α → Option β} {a : α} (hf : f a = none) : ∀ {l : List α}, a ∈ l →
    l.mapM f = none
  | b :: l, h => by
    rw [List.mapM_cons]
    rcases List.mem_cons.1 h with rfl | h
    · rw [hf]; rfl
    · rw [mapM_none hf h]
      exact Option.bind_eq_none_iff.2 fun _ _ => rfl

/-- **C13** (construction).  `SingleThreadedNTT::with_subspace` rejects the zero-dimensional subspace and a
basis not starting with one; otherwise it succeeds for every independent basis and panics for a dependent
one. -/
theorem C13_construct (h2 : (1 : F) + 1 = 0) (β : List F) :
    (β = [] → withSubspace (⟨β⟩ : BinarySubspace F) = some (.error .domainTooSmall)) ∧
    (β ≠ [] → β.getD 0 0 ≠ 1 → withSubspace (⟨β⟩ : BinarySubspace F) = some (.error .domainMustIncludeOne)) ∧
    (β ≠ [] → β.getD 0 0 = 1 → Independent β →
      ∃ tas, withSubspace (⟨β⟩ : BinarySubspace F) = some (.ok tas) ∧ tas.length = β.length) ∧
    (β ≠ [] → β.getD 0 0 = 1 → ¬ Independent β → withSubspace (⟨β⟩ : BinarySubspace F) = none) := by
  refine ⟨?_, ?_, ?_, ?_⟩
  · rintro rfl; rfl
  · intro hne h1
    cases β with
    | nil => exact absurd rfl hne
    | cons b rest =>
      have hb : b ≠ 1 := h1
      unfold withSubspace generateOnTheFly precomputeSubspaceEvals
      dsimp only
      rw [if_pos hb]; rfl
  · intro hne h1 hind
    obtain ⟨tas, pre, e, hr, -⟩ := generate_ready h2 β h1 hne hind
    exact ⟨tas, e, hr.length⟩
  · intro hne h1 hind
    obtain ⟨i, hi, h0⟩ := norm_eq_zero_of_dependent h2 hind
    unfold withSubspace generateOnTheFly
    rw [precompute_spec h2 β h1 hne, mapM_none (a := i) (by rw [if_pos h0]) (List.mem_range.2 hi)]
    rfl

/-- What a successful construction tells about the basis and both kinds of tables. -/
theorem ready_of (h2 : (1 : F) + 1 = 0) {β : List F} {tas tbl : List (TA F)}
    (h : withSubspace (⟨β⟩ : BinarySubspace F) = some (.ok tas)) (ht : tbl = tas ∨ tbl = precomputeTwiddles tas) :
    β ≠ [] ∧ β.getD 0 0 = 1 ∧ Independent β ∧ Ready tbl β := by
  obtain ⟨c1, c2, c3, c4⟩ := C13_construct h2 β
  have hne : β ≠ [] := by
    intro e
    rw [c1 e] at h; simp at h
  have h1 : β.getD 0 0 = 1 := by
    by_contra e
    rw [c2 hne e] at h; simp at h
  have hind : Independent β := by
    by_contra e
    rw [c4 hne h1 e] at h; simp at h
  obtain ⟨tas', pre, e, hr, -, hrp, hpe⟩ := generate_ready h2 β h1 hne hind
  have htas : tas' = tas := by
    rw [withSubspace, e] at h
    simpa using h
  subst htas
  refine ⟨hne, h1, hind, ?_⟩
  rcases ht with rfl | rfl
  · exact hr
  · rw [precomputeTwiddles, ← hpe]; exact hrp

theorem position_lt {lx ly lz x y z : Nat} (hx : x < 2 ^ lx) (hy : y < 2 ^ ly) (hz : z < 2 ^ lz) :
    position lx ly x y z < 2 ^ (lx + ly + lz) := by
  unfold position
  have h1 : (y + 1) * 2 ^ lx ≤ 2 ^ ly * 2 ^ lx := Nat.mul_le_mul_right _ hy
  have h3 : (z + 1) * 2 ^ (lx + ly) ≤ 2 ^ lz * 2 ^ (lx + ly) := Nat.mul_le_mul_right _ hz
  rw [Nat.succ_mul, ← Nat.pow_add, Nat.add_comm ly lx] at h1
  rw [Nat.succ_mul, ← Nat.pow_add, Nat.add_comm lz] at h3
  omega

theorem position_div {lx ly x y z : Nat} (hx : x < 2 ^ lx) :
    position lx ly x y z / 2 ^ lx = z * 2 ^ ly + y ∧ position lx ly x y z % 2 ^ lx = x := by
  have e : position lx ly x y z = x + (z * 2 ^ ly + y) * 2 ^ lx := by
    unfold position; rw [Nat.pow_add]; ring
  rw [e, Nat.add_mul_div_right _ _ (Nat.two_pow_pos _), Nat.div_eq_of_lt hx, Nat.add_mul_mod_self_right,
    Nat.mod_eq_of_lt hx]
  exact ⟨by omega, rfl⟩

/-- **C13** (forward).  For every NTT built from a subspace, with twiddles on the fly or precomputed, every
packing width, shape, coset and number of skipped rounds, the forward transform succeeds and entry
`(x, y, z)` of the result is the value at the `y`-th point of the coset of the evaluation domain of the
polynomial whose coefficients in the novel basis of that domain are the entries along the Y axis: all of them
if no round is skipped, else those of the aligned block of `2^(log_y - skip)` entries that `y` is in. -/
theorem C13_forward (h2 : (1 : F) + 1 = 0) {β : List F} {tas tbl : List (TA F)}
    (h : withSubspace (⟨β⟩ : BinarySubspace F) = some (.ok tas)) (ht : tbl = tas ∨ tbl = precomputeTwiddles tas)
    (w lx ly lz coset cosetBits skip : Nat) (d : Slice (Lanes F)) (hpow : ∃ k, d.size = 2 ^ k)
    (hsize : SizeOk w lx ly lz d.size) (hskip : skip ≤ ly) (hcoset : coset < 2 ^ cosetBits)
    (hdom : ly + cosetBits ≤ β.length) :
    ∃ d', forward β.length w tbl d ⟨lx, ly, lz⟩ coset cosetBits skip = some (.ok d') ∧ d'.size = d.size ∧
      ∀ x < 2 ^ lx, ∀ y < 2 ^ ly, ∀ z < 2 ^ lz,
        flat w d' (position lx ly x y z) =
          novelEval (domainBasis β (ly + cosetBits)) (2 ^ (ly - skip))
            (fun j => flat w d (position lx ly x (y / 2 ^ (ly - skip) * 2 ^ (ly - skip) + j) z))
            (point (domainBasis β (ly + cosetBits)) (coset * 2 ^ ly + y)) := by
  obtain ⟨-, -, hind, hr⟩ := ready_of h2 h ht
  obtain ⟨d', e, hs, hp⟩ := forward_eq (d := d) (w := w) (lx := lx) (lz := lz) h2 hr hind
    (check_ok.2 ⟨hpow, hskip, hsize, hcoset, hdom⟩)
  refine ⟨d', e, hs, fun x hx y hy z hz => ?_⟩
  rw [hp _ (position_lt hx hy hz), fwdLayers_eval h2 (domainBasis_independent h2 hind hdom) (by omega)
    (by rw [domainBasis_length hdom]; omega)]
  obtain ⟨q1, q2⟩ := position_div (ly := ly) (y := y) (z := z) hx
  have q3 : position lx ly x y z / 2 ^ (lx + (ly - skip)) = z * 2 ^ skip + y / 2 ^ (ly - skip) := by
    rw [Nat.pow_add, ← Nat.div_div_eq_div_mul, q1]
    have : 2 ^ ly = 2 ^ skip * 2 ^ (ly - skip) := by rw [← Nat.pow_add]; congr 1; omega
    rw [this, ← Nat.mul_assoc, Nat.add_comm, Nat.add_mul_div_right _ _ (Nat.two_pow_pos _), Nat.add_comm]
  rw [q1, q2, q3]
  have q4 : (z * 2 ^ ly + y) % 2 ^ ly = y := by
    rw [Nat.add_comm, Nat.add_mul_mod_self_right, Nat.mod_eq_of_lt hy]
  rw [q4]
  congr 1
  funext j
  congr 1
  unfold position
  have e1 : 2 ^ (lx + ly) = 2 ^ skip * 2 ^ (ly - skip) * 2 ^ lx := by
    rw [← Nat.pow_add, ← Nat.pow_add]; congr 1; omega
  have e2 : 2 ^ (lx + (ly - skip)) = 2 ^ (ly - skip) * 2 ^ lx := by
    rw [← Nat.pow_add]; congr 1; omega
  rw [e1, e2]
  ring

/-- **C13** (inverse after forward).  The inverse transform with the same parameters undoes the forward
transform. -/
theorem C13_inverse_forward (h2 : (1 : F) + 1 = 0) {β : List F} {tas tbl tbl' : List (TA F)}
    (h : withSubspace (⟨β⟩ : BinarySubspace F) = some (.ok tas)) (ht : tbl = tas ∨ tbl = precomputeTwiddles tas)
    (ht' : tbl' = tas ∨ tbl' = precomputeTwiddles tas)
    (w lx ly lz coset cosetBits skip : Nat) (d : Slice (Lanes F)) (hpow : ∃ k, d.size = 2 ^ k)
    (hsize : SizeOk w lx ly lz d.size) (hskip : skip ≤ ly) (hcoset : coset < 2 ^ cosetBits)
    (hdom : ly + cosetBits ≤ β.length) :
    ∃ d' d'', forward β.length w tbl d ⟨lx, ly, lz⟩ coset cosetBits skip = some (.ok d') ∧
      inverse β.length w tbl' d' ⟨lx, ly, lz⟩ coset cosetBits skip = some (.ok d'') ∧ d''.size = d.size ∧
      ∀ p < 2 ^ (lx + ly + lz), flat w d'' p = flat w d p := by
  obtain ⟨-, -, hind, hr⟩ := ready_of h2 h ht
  obtain ⟨-, -, -, hr'⟩ := ready_of h2 h ht'
  have hck := check_ok.2 ⟨hpow, hskip, hsize, hcoset, hdom⟩
  obtain ⟨d', e, hs, hp⟩ := forward_eq (d := d) (w := w) (lx := lx) (lz := lz) h2 hr hind hck
  obtain ⟨d'', e', hs', hp'⟩ := inverse_eq (d := d') (w := w) (lx := lx) (lz := lz) h2 hr' hind
    (by rw [hs]; exact hck)
  refine ⟨d', d'', e, e', by omega, fun p hpp => ?_⟩
  rw [hp' p hpp, invLayers_congr (by omega) hp _ le_rfl p hpp, invLayers_fwdLayers h2 _ _ _ _ _ _ _ le_rfl,
    Nat.sub_self]
  rfl

/-- **C13** (forward after inverse).  The forward transform undoes the inverse transform. -/
theorem C13_forward_inverse (h2 : (1 : F) + 1 = 0) {β : List F} {tas tbl tbl' : List (TA F)}
    (h : withSubspace (⟨β⟩ : BinarySubspace F) = some (.ok tas)) (ht : tbl = tas ∨ tbl = precomputeTwiddles tas)
    (ht' : tbl' = tas ∨ tbl' = precomputeTwiddles tas)
    (w lx ly lz coset cosetBits skip : Nat) (d : Slice (Lanes F)) (hpow : ∃ k, d.size = 2 ^ k)
    (hsize : SizeOk w lx ly lz d.size) (hskip : skip ≤ ly) (hcoset : coset < 2 ^ cosetBits)
    (hdom : ly + cosetBits ≤ β.length) :
    ∃ d' d'', inverse β.length w tbl d ⟨lx, ly, lz⟩ coset cosetBits skip = some (.ok d') ∧
      forward β.length w tbl' d' ⟨lx, ly, lz⟩ coset cosetBits skip = some (.ok d'') ∧ d''.size = d.size ∧
      ∀ p < 2 ^ (lx + ly + lz), flat w d'' p = flat w d p := by
  obtain ⟨-, -, hind, hr⟩ := ready_of h2 h ht
  obtain ⟨-, -, -, hr'⟩ := ready_of h2 h ht'
  have hck := check_ok.2 ⟨hpow, hskip, hsize, hcoset, hdom⟩
  obtain ⟨d', e, hs, hp⟩ := inverse_eq (d := d) (w := w) (lx := lx) (lz := lz) h2 hr hind hck
  obtain ⟨d'', e', hs', hp'⟩ := forward_eq (d := d') (w := w) (lx := lx) (lz := lz) h2 hr' hind
    (by rw [hs]; exact hck)
  refine ⟨d', d'', e, e', by omega, fun p hpp => ?_⟩
  rw [hp' p hpp, fwdLayers_congr (by omega) hp _ le_rfl p hpp, fwdLayers_invLayers h2 _ _ _ _ _ _ _ le_rfl,
    Nat.sub_self]
  rfl

/-- **C13** (parameter checks).  Outside the domain of `C13_forward` both transforms return an error and
nothing else; they never panic. -/
theorem C13_errors (β : List F) (tbl : List (TA F)) (w lx ly lz coset cosetBits skip : Nat) (d : Slice (Lanes F))
    (hbad : ¬ ((∃ k, d.size = 2 ^ k) ∧ skip ≤ ly ∧ SizeOk w lx ly lz d.size ∧ coset < 2 ^ cosetBits ∧
      ly + cosetBits ≤ β.length)) :
    ∃ e, forward β.length w tbl d ⟨lx, ly, lz⟩ coset cosetBits skip = some (.error e) ∧
      inverse β.length w tbl d ⟨lx, ly, lz⟩ coset cosetBits skip = some (.error e) := by
  have hne := mt check_ok.1 hbad
  cases hc : check β.length d.size w ⟨lx, ly, lz⟩ coset cosetBits skip with
  | ok u => exact absurd hc hne
  | error e =>
    refine ⟨e, ?_, ?_⟩
    · unfold forward withBuffer; dsimp only; rw [hc]
    · unfold inverse withBuffer; dsimp only; rw [hc]

/-- **C13** (evaluation domains).  `subspace(i)` has the domain basis of dimension `i`, for every
`1 ≤ i ≤ log_domain_size`; it is an independent basis starting with one, and the full domain is the given
subspace. -/
theorem C13_subspace (h2 : (1 : F) + 1 = 0) {β : List F} {tas tbl : List (TA F)}
    (h : withSubspace (⟨β⟩ : BinarySubspace F) = some (.ok tas)) (ht : tbl = tas ∨ tbl = precomputeTwiddles tas)
    (i : Nat) (hi0 : 0 < i) (hi : i ≤ β.length) :
    subspace tbl i = some ⟨domainBasis β i⟩ ∧ (domainBasis β i).length = i ∧ (domainBasis β i).getD 0 0 = 1 ∧
      Independent (domainBasis β i) ∧ domainBasis β β.length = β := by
  obtain ⟨hne, hb, hind, hr⟩ := ready_of h2 h ht
  refine ⟨?_, domainBasis_length hi, domainBasis_one h2 hind hi hi0, domainBasis_independent h2 hind hi, ?_⟩
  · unfold subspace
    rw [hr.length, if_neg (by omega)]
    obtain ⟨t, ht, his⟩ := hr.get (β.length - i) (by omega)
    rw [ht, Option.bind_some, his.affine]
    simp only [Option.map_some]
    congr 2
    unfold domainBasis
    rw [List.drop_eq_getElem_cons (show β.length - i < β.length by omega), List.map_cons]
    congr 1
    have := normPoly_self h2 hind (i := β.length - i) (by omega)
    rw [List.getD_eq_getElem?_getD, List.getElem?_eq_getElem (by omega)] at this
    exact this.symm
  · unfold domainBasis
    rw [Nat.sub_self, List.drop_zero]
    conv_rhs => rw [← List.map_id β]
    refine List.map_congr_left fun x _ => ?_
    rw [normPoly_zero_of hb]; rfl

/-- Finding: the trait says that a domain of size `2^0` exists and `i` must be less than the maximum, but
`subspace(0)` panics. -/
theorem C13_subspace_zero_panics (h2 : (1 : F) + 1 = 0) {β : List F} {tas tbl : List (TA F)}
    (h : withSubspace (⟨β⟩ : BinarySubspace F) = some (.ok tas)) (ht : tbl = tas ∨ tbl = precomputeTwiddles tas) :
    subspace tbl 0 = none := by
  obtain ⟨hne, hb, hind, hr⟩ := ready_of h2 h ht
  unfold subspace
  rw [if_neg (by omega), Nat.sub_zero, List.getElem?_eq_none le_rfl]
  rfl

/-- Finding: the trait documents `get_subspace_eval(i, j)` as the `j`-th basis element of the `i`-th subspace.
The implementation returns the `j`-th twiddle of a layer instead: the sum of the basis elements after the first
selected by the bits of `j`. -/
theorem C13_get_subspace_eval (h2 : (1 : F) + 1 = 0) {β : List F} {tas tbl : List (TA F)}
    (h : withSubspace (⟨β⟩ : BinarySubspace F) = some (.ok tas)) (ht : tbl = tas ∨ tbl = precomputeTwiddles tas)
    (i j : Nat) (hi0 : 0 < i) (hi : i ≤ β.length) (hj : j < 2 ^ (i - 1)) :
    getSubspaceEval tbl i j = some (point ((domainBasis β i).tail) j) := by
  obtain ⟨hne, hb, hind, hr⟩ := ready_of h2 h ht
  unfold getSubspaceEval
  rw [hr.length, if_neg (by omega)]
  obtain ⟨t, ht, his⟩ := hr.get (β.length - i) (by omega)
  rw [ht, Option.bind_some, his.get j (by rw [List.length_map, List.length_drop]; simpa [show β.length - (β.length - i + 1) = i - 1 by omega] using hj)]
  unfold domainBasis
  rw [← List.map_tail, List.tail_drop]

/-- The finding above as a discrepancy: the zeroth basis element of every subspace is one, while the method
returns zero. -/
theorem C13_get_subspace_eval_not_basis (h2 : (1 : F) + 1 = 0) {β : List F} {tas tbl : List (TA F)}
    (h : withSubspace (⟨β⟩ : BinarySubspace F) = some (.ok tas)) (ht : tbl = tas ∨ tbl = precomputeTwiddles tas)
    (i : Nat) (hi0 : 0 < i) (hi : i ≤ β.length) :
    getSubspaceEval tbl i 0 = some 0 ∧ (domainBasis β i).getD 0 0 = 1 := by
  refine ⟨?_, (C13_subspace h2 h ht i hi0 hi).2.2.1⟩
  rw [C13_get_subspace_eval h2 h ht i 0 hi0 hi (Nat.two_pow_pos _), point_zero]

/-- **C13** (cosets of twiddle tables).  `coset(bits, c)` of the table of a layer gives the twiddles whose
index has `c` in its top bits, one by one (`get`) and in pairs (`get_pair`). -/
theorem C13_coset (h2 : (1 : F) + 1 = 0) {β : List F} {tas tbl : List (TA F)}
    (h : withSubspace (⟨β⟩ : BinarySubspace F) = some (.ok tas)) (ht : tbl = tas ∨ tbl = precomputeTwiddles tas)
    (i : Nat) (hi : i < β.length) (bits c : Nat) (hbits : bits ≤ β.length - 1 - i) (hc : c < 2 ^ bits) :
    ∃ t t', tbl[i]? = some t ∧ t.coset bits c = some t' ∧ t'.logN = t.logN - bits ∧
      (∀ m < 2 ^ (β.length - 1 - i - bits), t'.get m = t.get (c * 2 ^ (β.length - 1 - i - bits) + m) ∧
        (t'.get m).isSome) ∧
      ∀ b m, b < β.length - 1 - i - bits → m < 2 ^ b →
        ∃ x y, t'.getPair b m = some (x, y) ∧ t'.get m = some x ∧ t'.get (2 ^ b + m) = some y := by
  obtain ⟨hne, hb, hind, hr⟩ := ready_of h2 h ht
  obtain ⟨t, ht, his⟩ := hr.get i hi
  have hl : ((β.drop (i + 1)).map (normPoly β i)).length = β.length - 1 - i := by
    rw [List.length_map, List.length_drop]; omega
  obtain ⟨t', e, hn, hg, hp⟩ := his.coset bits c (by omega) hc
  rw [hl] at hg hn hp
  refine ⟨t, t', ht, e, by rw [hn, his.logN, hl], fun m hm => ?_, fun b m hb' hm => ?_⟩
  swap
  · have hle : 2 ^ b * 2 ≤ 2 ^ (β.length - 1 - i - bits) := by
      rw [← Nat.pow_succ]; exact Nat.pow_le_pow_right (by omega) hb'
    exact ⟨_, _, hp b m hb' hm, hg m (by omega), hg _ (by omega)⟩
  have hle := Nat.mul_le_mul_right (2 ^ (β.length - 1 - i - bits)) (show c + 1 ≤ 2 ^ bits from hc)
  rw [← Nat.pow_add, show bits + (β.length - 1 - i - bits) = β.length - 1 - i by omega, Nat.succ_mul] at hle
  rw [hg m hm, his.get _ (by rw [hl]; omega)]
  exact ⟨rfl, rfl⟩

/-! ### The hypotheses are met -/

/-- The basis `1, X` of the field with four elements. -/
def exampleBasis : List (Field.T 1) := [1, (0, 1)]

theorem exampleBasis_independent : Independent exampleBasis := by
  intro i h0 hi
  have : i < 4 := hi
  unfold point exampleBasis
  rw [show ([1, (0, 1)] : List (Field.T 1)).length = 2 from rfl, sum_range_succ, sum_range_succ, sum_range_zero]
  interval_cases i <;> decide

theorem exampleBasis_ok : ∃ tas, withSubspace (⟨exampleBasis⟩ : BinarySubspace (Field.T 1)) = some (.ok tas) := by
  obtain ⟨tas, h, -⟩ := (C13_construct (F := Field.T 1) (by decide) exampleBasis).2.2.1 (by simp [exampleBasis])
    rfl exampleBasis_independent
  exact ⟨tas, h⟩

/-- Two packed elements of two lanes: a transform of size four, and two interleaved ones of size two on the
second coset. -/
example : (∃ k, (2 : Nat) = 2 ^ k) ∧ SizeOk 1 0 2 0 2 ∧ SizeOk 1 1 1 0 2 ∧ 2 + 0 ≤ exampleBasis.length ∧
    1 < 2 ^ 1 ∧ 1 + 1 ≤ exampleBasis.length := by
  refine ⟨⟨1, rfl⟩, Or.inl rfl, Or.inl rfl, ?_, ?_, ?_⟩ <;> decide

/-- A dependent basis. -/
example : ¬ Independent ([1, 1] : List (Field.T 1)) := by
  intro h
  refine h 3 (by decide) (by decide) ?_
  unfold point
  rw [show ([1, 1] : List (Field.T 1)).length = 2 from rfl, sum_range_succ, sum_range_succ, sum_range_zero]
  decide

end Verif.NTT
