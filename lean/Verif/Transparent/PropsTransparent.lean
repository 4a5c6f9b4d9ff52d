import Verif.Transparent.SpecTransparent
import Verif.Transparent.LemmasTransparent
import Verif.Math.PropsTensor

set_option linter.unusedSectionVars false

/-! C30: the transparent polynomials are the multilinear extensions of the tables that define them. -/

namespace Verif.Transparent

open Verif.Mle Verif.Tensor

variable {F : Type*} [CommRing F]

/-- **C30** (constant). -/
theorem C30_constant (n : Nat) (c : F) : IsExtensionOf (constant n c) n fun _ => c :=
  ⟨rfl, fun q h => (if_neg (not_not.2 h)).trans (by rw [mle_const]), fun _ h => if_pos h⟩

example : (constant 2 (7 : Int)).evaluate [3, 4] = .ok 7 ∧ (constant 2 (7 : Int)).evaluate [3] = .error .incorrectQuerySize :=
  ⟨((C30_constant 2 7).2.1 _ rfl).trans (by decide), (C30_constant 2 7).2.2 _ (by decide)⟩

/-- **C30** (disjoint product).  The product of an extension of `t0` on the low variables and one of `t1` on the high
variables extends the table `t0(low) * t1(high)`. -/
theorem C30_disjoint_product (p0 p1 : Poly F) (n0 n1 : Nat) (t0 t1 : Nat → F) (h0 : IsExtensionOf p0 n0 t0)
    (h1 : IsExtensionOf p1 n1 t1) :
    IsExtensionOf (disjointProduct p0 p1) (n0 + n1) fun i => t0 (i % 2 ^ n0) * t1 (i / 2 ^ n0) := by
  obtain ⟨rfl, h02, -⟩ := h0
  obtain ⟨rfl, h12, -⟩ := h1
  refine ⟨rfl, fun q h => (if_neg (not_not.2 h)).trans ?_, fun q h => if_pos h⟩
  rw [h02 _ (by rw [List.length_take]; omega), h12 _ (by rw [List.length_drop]; omega)]
  show Except.ok _ = _
  congr 1
  conv_rhs => rw [← List.take_append_drop p0.nVars q]
  rw [mle_append, List.length_take, show min p0.nVars q.length = p0.nVars by omega, ← mle_smul]
  congr 1; funext j
  rw [mul_comm, ← mle_smul]
  refine mle_congr fun i hi => ?_
  rw [List.length_take, show min p0.nVars q.length = p0.nVars by omega] at hi
  rw [Nat.add_mul_mod_self_left, Nat.mod_eq_of_lt hi, Nat.add_mul_div_left _ _ (Nat.two_pow_pos _),
    Nat.div_eq_of_lt hi, Nat.zero_add, mul_comm]

example : IsExtensionOf (disjointProduct (constant 1 (5 : Int)) (constant 2 3)) 3 fun _ => 5 * 3 :=
  C30_disjoint_product _ _ _ _ _ _ (C30_constant 1 5) (C30_constant 2 3)

/-- **C30** (equality indicator).  `EqIndPartialEval::evaluate` at `q` is `∑_b eq(b, r) eq(b, q)`, and its
`multilinear_extension` is the table of the `eq(b, r)`. -/
theorem C30_eq_ind (w : Nat) (r : List F) :
    IsExtensionOf (eqInd r) r.length (eqWeight r) ∧ HasTable w r.length (eqIndMlx w r) (eqWeight r) := by
  refine ⟨⟨rfl, fun q h => (if_neg (not_not.2 h)).trans ?_, fun q h => if_pos h⟩, ?_⟩
  · rw [eqIndLoop_eq 1 q r h, one_mul]
  · obtain ⟨b, h, hs, hv, _⟩ := eqIndPartialEval_eq w r
    refine ⟨⟨r.length, b⟩, ?_, rfl, hs, hv⟩
    unfold eqIndMlx
    rw [h, Option.map_some, mlxNew_ok w r.length b hs]; rfl

example : (eqInd [(2 : Int), 3]).evaluate [5, 7] = .ok ((10 + 4) * (21 + 12)) :=
  ((C30_eq_ind 0 [(2 : Int), 3]).1.2.1 [5, 7] rfl).trans (by decide)

/-- **C30** (row selection).  The constructor accepts exactly the indices below `2^n`; the polynomial extends the
indicator of the index.  The table is built when it fills a packed element, and refused otherwise. -/
theorem C30_select_row (w n index : Nat) :
    (index < 2 ^ n → selectRowNew n index = .ok index ∧
      IsExtensionOf (selectRow n index : Poly F) n (fun i => if i = index then 1 else 0) ∧
      (w ≤ n → HasTable w n (selectRowMlx w n index) fun i => if i = index then (1 : F) else 0)) ∧
    (2 ^ n ≤ index → selectRowNew n index = .error .argumentRange) ∧
    (n < w → selectRowMlx (F := F) w n index = some (.error .packedFieldNotFilled)) := by
  refine ⟨fun hi => ⟨if_neg (by omega), ⟨rfl, fun q h => (if_neg (not_not.2 h)).trans ?_, fun q h => if_pos h⟩,
    fun hw => ?_⟩, fun h => if_pos h, fun h => if_pos h⟩
  · rw [selectRowLoop_eq _ _ _ (by rwa [h]), one_mul]
  · refine ⟨⟨n, ⟨2 ^ (n - w) * 2 ^ w, fun j => if j = index then 1 else 0⟩⟩, ?_, rfl, rfl, fun _ _ => rfl⟩
    unfold selectRowMlx
    rw [if_neg (by omega), Slice.set?_of_lt (by
      show index < 2 ^ (n - w) * 2 ^ w
      have := le_pow_sub_mul w n
      omega), Option.map_some, fromValues_ok w n _ hw rfl]
    rfl

example : (selectRow 2 2 : Poly Int).evaluate [5, 7] = .ok ((1 - 5) * 7) :=
  ((C30_select_row 0 2 2).1 (by decide)).2.1.2.1 [5, 7] rfl |>.trans (by decide)

/-- **C30** (step down).  The constructor accepts exactly the indices up to `2^n`; the polynomial and its table are
those of the indicator of `i < index`. -/
theorem C30_step_down (w n index : Nat) :
    (index ≤ 2 ^ n → stepNew n index = .ok index ∧
      IsExtensionOf (stepDown n index : Poly F) n (fun i => if i < index then 1 else 0) ∧
      HasTable w n (stepDownMlx w n index) fun i => if i < index then (1 : F) else 0) ∧
    (2 ^ n < index → stepNew n index = .error .argumentRange) := by
  refine ⟨fun hi => ⟨if_neg (by omega), ⟨rfl, fun q h => (if_neg (not_not.2 h)).trans ?_, fun q h => if_pos h⟩, ?_⟩,
    fun h => if_pos h⟩
  · split
    · rename_i he
      congr 1
      exact (mle_one q).symm.trans <| mle_congr fun i hi' => by rw [h] at hi'; exact (if_pos (show i < index by omega)).symm
    · rw [stepDownLoop_eq _ _ _ (by rw [h]; omega)]
      congr 2; funext i; split <;> simp
  · obtain ⟨d, h1, h2, h3⟩ := stepPopulate_ok w n index (1 : F) 0 (fun _ => 0) hi
    refine ⟨⟨n, d⟩, ?_, rfl, h2, fun i _ => h3 i⟩
    unfold stepDownMlx
    rw [h1, Option.map_some, mlxNew_ok w n d h2]; rfl

example : (stepDown 2 3 : Poly Int).evaluate [5, 7] = .ok (1 - 5 * 7) :=
  ((C30_step_down 0 2 3).1 (by decide)).2.1.2.1 [5, 7] rfl |>.trans (by decide)

example : HasTable 1 2 (stepDownMlx 1 2 3) fun i => if i < 3 then (1 : Int) else 0 :=
  ((C30_step_down 1 2 3).1 (by decide)).2.2

/-- **C30** (step up).  The constructor accepts exactly the indices up to `2^n`; the polynomial and its table are those
of the indicator of `index ≤ i`. -/
theorem C30_step_up (w n index : Nat) :
    (index ≤ 2 ^ n → stepNew n index = .ok index ∧
      IsExtensionOf (stepUp n index : Poly F) n (fun i => if index ≤ i then 1 else 0) ∧
      HasTable w n (stepUpMlx w n index) fun i => if index ≤ i then (1 : F) else 0) ∧
    (2 ^ n < index → stepNew n index = .error .argumentRange) := by
  refine ⟨fun hi => ⟨if_neg (by omega), ⟨rfl, fun q h => (if_neg (not_not.2 h)).trans ?_, fun q h => if_pos h⟩, ?_⟩,
    fun h => if_pos h⟩
  · split
    · rename_i he
      congr 1
      exact (mle_zero q).symm.trans <| mle_congr fun i hi' => by rw [h] at hi'; exact (if_neg (show ¬ index ≤ i by omega)).symm
    · rw [stepUpLoop_eq _ _ _ (by rw [h]; omega)]
      congr 2; funext i
      by_cases h' : i < index
      · rw [if_pos h', if_neg (by omega)]
      · rw [if_neg h', ite_self, if_pos (by omega)]
  · obtain ⟨d, h1, h2, h3⟩ := stepPopulate_ok w n index (0 : F) 1 (fun _ => 1) hi
    refine ⟨⟨n, d⟩, ?_, rfl, h2, fun i _ => ?_⟩
    · unfold stepUpMlx
      rw [h1, Option.map_some, mlxNew_ok w n d h2]; rfl
    · show d.val i = if index ≤ i then 1 else 0
      rw [h3 i]
      by_cases h' : i < index
      · rw [if_pos h', if_neg (by omega)]
      · rw [if_neg h', if_pos (by omega)]

example : (stepUp 2 3 : Poly Int).evaluate [5, 7] = .ok (5 * 7) :=
  ((C30_step_up 0 2 3).1 (by decide)).2.1.2.1 [5, 7] rfl |>.trans (by decide)

/-- **C30** (powers).  `Powers::evaluate` is the extension of the table of the powers of the base.  Its
`multilinear_extension` is that table only for unpacked elements or at most `2^10` packed elements: what is missing is
`C30_powers_table_wrong`. -/
theorem C30_powers_partial (w n : Nat) (base : F) :
    IsExtensionOf (powers n base) n (fun i => base ^ i) ∧
    (w = 0 ∨ n ≤ 10 + w → HasTable w n (some (powersMlx w n base)) fun i => base ^ i) := by
  refine ⟨⟨rfl, fun q h => (if_neg (not_not.2 h)).trans ?_, fun q h => if_pos h⟩, fun hw => ?_⟩
  · rw [powersLoop_eq, one_mul]
  · unfold powersMlx
    rw [mlxNew_ok w n _ rfl]
    refine ⟨_, rfl, rfl, rfl, fun i hi => ?_⟩
    show powersChunk _ _ _ _ = _
    have hpw := Nat.two_pow_pos w
    have hdm := Nat.div_add_mod i (2 ^ w)
    have hoff : i / 2 ^ w % 2 ^ 10 * 2 ^ w + i % 2 ^ w ≤ i := by
      have := Nat.mul_le_mul_right (2 ^ w) (Nat.mod_le (i / 2 ^ w) (2 ^ 10))
      rw [Nat.mul_comm (i / 2 ^ w)] at this
      omega
    unfold powersChunk
    rw [if_pos (by omega), nthSuccessor_eq, ← pow_add]
    congr 1
    rcases hw with rfl | hw
    · simp only [Nat.pow_zero, Nat.div_one, Nat.mod_one, Nat.mul_one, Nat.add_zero]
      omega
    · have hlt : i / 2 ^ w < 2 ^ 10 := by
        rw [Nat.div_lt_iff_lt_mul hpw, ← Nat.pow_add]
        exact lt_of_lt_of_le hi (Nat.pow_le_pow_right (by omega) hw)
      have e1 : i / 2 ^ w / 2 ^ 10 = 0 := Nat.div_eq_of_lt hlt
      have e2 : i / 2 ^ w % 2 ^ 10 = i / 2 ^ w := Nat.mod_eq_of_lt hlt
      rw [e1, e2, Nat.zero_mul, Nat.zero_add]
      exact Nat.div_add_mod' i (2 ^ w)

example : (powers 2 (10 : Int)).evaluate [0, 1] = .ok 100 :=
  ((C30_powers_partial 0 2 (10 : Int)).1.2.1 [0, 1] rfl).trans (by decide)

example : HasTable 2 3 (some (powersMlx 2 3 (10 : Int))) fun i => 10 ^ i := (C30_powers_partial 2 3 10).2 (by decide)

/-- **C30** (powers, the table is wrong).  With packed elements of width `2^w > 1` and more than `2^10` of them, the
second chunk of the table starts again at the power `2^10` although its first entry has index `2^(10+w)`; so the table
differs from the powers whenever these two powers of the base do. -/
theorem C30_powers_table_wrong (w n : Nat) (base : F) (hw : 1 ≤ w) (hn : 10 + w < n) :
    (∃ m, powersMlx w n base = .ok m ∧ 2 ^ (10 + w) < 2 ^ n ∧ m.evals.val (2 ^ (10 + w)) = base ^ 2 ^ 10) ∧
    (base ^ 2 ^ 10 ≠ base ^ 2 ^ (10 + w) → ¬ HasTable w n (some (powersMlx w n base)) fun i => base ^ i) := by
  have hlt : 2 ^ (10 + w) < 2 ^ n := Nat.pow_lt_pow_right (by omega) hn
  have key : ∃ m, powersMlx w n base = .ok m ∧ 2 ^ (10 + w) < 2 ^ n ∧
      m.evals.val (2 ^ (10 + w)) = base ^ 2 ^ 10 := by
    unfold powersMlx
    rw [mlxNew_ok w n _ rfl]
    refine ⟨_, rfl, hlt, ?_⟩
    show powersChunk _ _ _ _ = _
    have h1 : 2 ^ (10 + w) / 2 ^ w = 2 ^ 10 := by rw [Nat.pow_add, Nat.mul_div_cancel _ (Nat.two_pow_pos w)]
    have h2 : 2 ^ (10 + w) % 2 ^ w = 0 := by rw [Nat.pow_add, Nat.mul_mod_left]
    rw [h1, h2]
    unfold powersChunk
    rw [if_pos (by simp)]
    simp [nthSuccessor]
  refine ⟨key, fun hne hT => hne ?_⟩
  obtain ⟨m, h1, _, h2⟩ := key
  obtain ⟨m', h3, _, _, h4⟩ := hT
  obtain rfl : m = m' := by rw [h1] at h3; simpa using h3
  rw [← h2, h4 _ hlt]

/-- The table of powers of an element of order three of the 128-bit field is wrong for packed elements of two. -/
example : ∃ base : Field.T 7, ¬ HasTable 1 12 (some (powersMlx 1 12 base)) fun i => base ^ i := by
  obtain ⟨b, h1, h2⟩ : ∃ b : Field.T 7, b * b * b = 1 ∧ b * b ≠ b :=
    ⟨(Field.T.incl (k := 1) 6 (false, true) : Field.T 7), by decide +kernel, by decide +kernel⟩
  refine ⟨b, (C30_powers_table_wrong 1 12 b (by decide) (by decide)).2 ?_⟩
  have h3 : b ^ 3 = 1 := by rw [← h1]; ring
  rw [show 2 ^ 10 = 3 * 341 + 1 by norm_num, show 2 ^ (10 + 1) = 3 * 682 + 2 by norm_num, pow_add, pow_mul, h3,
    one_pow, one_mul, pow_one, pow_add, pow_mul, h3, one_pow, one_mul, pow_two]
  exact fun h => h2 h.symm

/-- **C30** (tower basis).  The constructor accepts exactly the parameters with `iota + k` at most the tower level `n`;
the polynomial extends the table of the basis elements over the subfield of level `iota`, whose element `e` is the
scalar with only bit `e * 2^iota` set, and the table is built when it fills a packed element. -/
theorem C30_tower_basis (n w k iota : Nat) :
    (iota + k ≤ n → towerBasisNew n k iota = .ok (k, iota) ∧
      IsExtensionOf (towerBasisPoly n k iota) k (fun e => Field.T.basis n (e * 2 ^ iota)) ∧
      (∀ e < 2 ^ k, basisT n iota e = .ok (Field.T.basis n (e * 2 ^ iota))) ∧
      (w ≤ k → HasTable w k (some (towerBasisMlx n w k iota)) fun e => Field.T.basis n (e * 2 ^ iota)) ∧
      (k < w → towerBasisMlx n w k iota = .error (.math .powerOfTwoLengthRequired))) ∧
    (n < iota + k → towerBasisNew n k iota = .error .argumentRange) := by
  refine ⟨fun hle => ⟨if_neg (by omega), ⟨rfl, fun q h => (if_neg (not_not.2 h)).trans ?_, fun q h => if_pos h⟩,
    fun e he => ?_, fun hw => ?_, fun hw => ?_⟩, fun h => if_pos h⟩
  · rw [towerBasisLoop_eq n iota q 0 1 (by omega), one_mul]; rfl
  · exact basisT_ok n iota e (by omega) (lt_of_lt_of_le he (Nat.pow_le_pow_right (by omega) (by omega)))
  · have hd : 2 ^ k / 2 ^ w * 2 ^ w = 2 ^ k := Nat.div_mul_cancel (Nat.pow_dvd_pow 2 hw)
    have hs : 2 ^ (k - w) * 2 ^ w = 2 ^ k := by rw [← Nat.pow_add, Nat.sub_add_cancel hw]
    unfold towerBasisMlx
    rw [hd, towerBasisValues_ok n iota (by omega) _ (Nat.pow_le_pow_right (by omega) (by omega))]
    show HasTable w k (some (liftMlx (mlxFromValues w _))) _
    rw [fromValues_ok w k _ hw (by rw [hs]; simp [Slice.ofList])]
    refine ⟨_, rfl, rfl, by rw [hs]; simp [Slice.ofList], fun i hi => ?_⟩
    show (List.map _ _).getD i 0 = _
    rw [List.getD_eq_getElem?_getD, List.getElem?_map, List.getElem?_range hi]; rfl
  · unfold towerBasisMlx
    rw [Nat.div_eq_of_lt (Nat.pow_lt_pow_right (by omega) hw), Nat.zero_mul]
    show liftMlx (mlxFromValues w (Slice.ofList [])) = _
    unfold mlxFromValues packedLen
    rw [if_pos]
    · rfl
    · show ¬ (0 / 2 ^ w).isPowerOfTwo
      rw [Nat.zero_div]
      rintro ⟨c, hc⟩
      exact absurd hc (Nat.two_pow_pos c).ne

example : IsExtensionOf (towerBasisPoly 7 4 3) 4 fun e => Field.T.basis 7 (e * 2 ^ 3) :=
  ((C30_tower_basis 7 0 4 3).1 (by decide)).2.1

/-- **C30** (the two ways of evaluating agree).  Whenever a polynomial and a table constructor are those of the same
table, evaluating the table at a point through an expanded query gives the value of the polynomial. -/
theorem C30_table_agrees (p : Poly F) (w w' n : Nat) (t : Nat → F) (m : Mlx F) (q : Query F) (point : List F)
    (hp : IsExtensionOf p n t) (hm : HasTable w n (some (.ok m)) t) (hq : Represents w' q point) (hw : w' ≤ w + 6)
    (hl : point.length = n) : ∃ v, m.evaluate id w w' q = some (.ok v) ∧ p.evaluate point = .ok v := by
  obtain ⟨m', h1, rfl, h3, h4⟩ := hm
  obtain rfl : m = m' := by simpa using h1
  refine ⟨_, (C17_evaluate id w w' m.mu m.evals m q point ?_ (mlxNew_ok _ _ _ h3) hq hw).1 hl.symm, ?_⟩
  · rw [h3]; exact Nat.dvd_mul_left _ _
  · rw [hp.2.1 _ hl]
    congr 1
    exact mle_congr fun i hi => (h4 i (by rwa [hl] at hi)).symm

example : ∃ m q, stepUpMlx 1 2 3 = some (.ok m) ∧ Query.expand 0 [(5 : Int), 7] = some q ∧
    ∃ v, m.evaluate id 1 0 q = some (.ok v) ∧ (stepUp 2 3).evaluate [(5 : Int), 7] = .ok v := by
  obtain ⟨q, e, h1, h2, h3, -, h4⟩ := C17_expand 0 [(5 : Int), 7]
  have hT := (C30_step_up (F := Int) 1 2 3).1 (by decide)
  obtain ⟨m, hm, hr⟩ := hT.2.2
  exact ⟨m, q, hm, h1, C30_table_agrees _ 1 0 2 _ m q _ hT.2.1 ⟨m, rfl, hr⟩ ⟨h2, e, h3, h4⟩ (by decide) rfl⟩

end Verif.Transparent
