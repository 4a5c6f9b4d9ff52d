import Verif.M3.LemmasKeccakSpec
import Verif.M3.LemmasSha256

/-! Lemmas on the columns of lanes and on a batch of rounds of the Keccak gadget. -/

set_option linter.dupNamespace false
set_option linter.unusedSectionVars false

namespace Verif.M3.Keccak

open Finset Verif.Arith

variable {F : Type} [Field F] [DecidableEq F]

/-! ### Columns of lanes -/

theorem forall_512 {P : Nat → Prop} : (∀ p < 2 ^ 9, P p) ↔ ∀ k : Fin 8, ∀ z < 64, P (64 * k.val + z) := by
  constructor
  · intro h k z hz
    exact h _ (by have := k.isLt; omega)
  · intro h p hp
    have := h ⟨p / 64, by omega⟩ (p % 64) (by omega)
    rwa [show 64 * (p / 64) + p % 64 = p by omega] at this

/-- The cell of the column has the given lanes. -/
def Lanes (w : Row F) (c : Col) (v : Fin 8 → BitVec 64) : Prop :=
  ∀ k : Fin 8, ∀ z < 64, w c.idx (64 * k.val + z) = ofBit ((v k).getLsbD z)

/-- The lanes of the cell of the column. -/
def lanes (w : Row F) (c : Col) : Fin 8 → BitVec 64 := fun k => getLane w c k

theorem getLane_bit (w : Row F) (c : Col) (k : Nat) {z : Nat} (hz : z < 64) :
    (getLane w c k).getLsbD z = decide (w c.idx (64 * k + z) = 1) := by
  rw [getLane, BitVec.getLsbD_ofNat, testBit_num]
  simp [List.getElem?_range hz, hz]

theorem getLane_congr {w w' : Row F} {c : Col} (h : ∀ p, w c.idx p = w' c.idx p) (k : Nat) :
    getLane w c k = getLane w' c k := by
  rw [getLane, getLane]
  congr 2
  exact List.map_congr_left fun j _ => h _

theorem lanes_of_isBit {w : Row F} {c : Col} (h : ∀ p < 2 ^ 9, IsBit (w c.idx p)) : Lanes w c (lanes w c) :=
  fun k z hz => by
    show _ = ofBit ((getLane w c k).getLsbD z)
    rw [getLane_bit _ _ _ hz]
    exact (ofBit_decide (forall_512.1 h k z hz)).symm

theorem has_lanes {Tw : Tower F} {t : Table F} {c : Col} (h : t.Has c 0 9) {w : Row F} (hw : RowHolds Tw t w) :
    Lanes w c (lanes w c) := lanes_of_isBit fun _ hp => h.isBit hw hp

theorem Lanes.isBit {w : Row F} {c : Col} {v : Fin 8 → BitVec 64} (h : Lanes w c v) :
    ∀ p < 2 ^ 9, IsBit (w c.idx p) := forall_512.2 fun k z hz => by
  rw [h k z hz]; exact ofBit_isBit _

theorem Lanes.inField {Tw : Tower F} {w : Row F} {c : Col} {v : Fin 8 → BitVec 64} (h : Lanes w c v) :
    InField Tw 0 9 c w := fun _ hp => sub_of_isBit (h.isBit _ hp)

theorem Lanes.lane {w : Row F} {c : Col} {v : Fin 8 → BitVec 64} (h : Lanes w c v) (k : Fin 8) : lanes w c k = v k := by
  refine BitVec.eq_of_getLsbD_eq fun j hj => ?_
  show (getLane w c k).getLsbD j = _
  rw [getLane_bit _ _ _ hj, h k j hj]
  cases (v k).getLsbD j <;> simp

theorem Lanes.eq {w : Row F} {c : Col} {v : Fin 8 → BitVec 64} (h : Lanes w c v) : lanes w c = v := funext h.lane

theorem Lanes.congr_row {w w' : Row F} {c : Col} {v : Fin 8 → BitVec 64} (h : ∀ p, w c.idx p = w' c.idx p) :
    Lanes w c v ↔ Lanes w' c v :=
  forall_congr' fun k => forall_congr' fun z => imp_congr_right fun _ => by rw [h]

variable [CharP F 2]

/-! ### Operations on columns of lanes -/

theorem rotl_ok (Tw : Tower F) {t : Table F} {c : Col} (hc : t.Has c 0 9) {r : Nat} (hr : r < 64) :
    ∃ c' t', t.addShifted 0 9 c 6 r .circularLeft = some (c', t') ∧ New t t' c' 0 9 ∧
      Adds Tw t t' fun w => Lanes w c' fun k => (lanes w c k).rotateLeft r := by
  obtain ⟨c', t', h1, h2, h3⟩ := addShifted_ok Tw t hc (b := 6) (o := r) (by norm_num) (by omega) .circularLeft
  refine ⟨c', t', h1, h2, h3.congr fun w hw => ?_⟩
  have hv := has_lanes hc hw
  have key : ∀ k : Fin 8, ∀ z < 64,
      Transparent.shifted .circularLeft 6 r (fun x => w c.idx (x + 2 ^ 6 * ((64 * k.val + z) / 2 ^ 6)))
        ((64 * k.val + z) % 2 ^ 6) = ofBit (((lanes w c k).rotateLeft r).getLsbD z) := by
    intro k z hz
    show w c.idx (((64 * k.val + z) % 2 ^ 6 + 2 ^ 6 - r) % 2 ^ 6 + 2 ^ 6 * ((64 * k.val + z) / 2 ^ 6)) = _
    rw [show (64 * k.val + z) % 2 ^ 6 = z by omega, show (64 * k.val + z) / 2 ^ 6 = k.val by omega,
      show (z + 2 ^ 6 - r) % 2 ^ 6 + 2 ^ 6 * k.val = 64 * k.val + (z + 64 - r) % 64 by omega,
      hv k _ (Nat.mod_lt _ (by norm_num)), BitVec.getLsbD_rotateLeft, Nat.mod_eq_of_lt hr]
    by_cases hlt : z < r
    · rw [decide_eq_true hlt, cond_true, show (z + 64 - r) % 64 = 64 - r + z by omega]
    · rw [decide_eq_false hlt, cond_false, decide_eq_true hz, Bool.true_and, show (z + 64 - r) % 64 = z - r by omega]
  constructor
  · rintro ⟨-, h⟩ k z hz
    rw [forall_512.1 h k z hz, key k z hz]
  · intro h
    exact ⟨h.inField, forall_512.2 fun k z hz => by rw [h k z hz, key k z hz]⟩

/-- A computed column whose expression is linear in lanes. -/
theorem computed_ok (Tw : Tower F) {t : Table F} (ht : WellFormed t) {e : Circuit F} {f : Row F → Nat → F}
    (he : Ev t 9 e f) {v : Row F → Fin 8 → BitVec 64}
    (hv : ∀ w, RowHolds Tw t w → ∀ k : Fin 8, ∀ z < 64, f w (64 * k.val + z) = ofBit ((v w k).getLsbD z)) :
    ∃ c t', t.addComputed 0 9 e = some (c, t') ∧ New t t' c 0 9 ∧ Adds Tw t t' fun w => Lanes w c (v w) := by
  obtain ⟨c, t', h1, h2, h3⟩ := addComputed_ok Tw ht 0 he
  refine ⟨c, t', h1, h2, h3.congr fun w hw => ⟨?_, fun h => ⟨h.inField, ?_⟩⟩⟩
  · rintro ⟨-, h⟩ k z hz
    rw [forall_512.1 h k z hz, hv w hw k z hz]
  · exact forall_512.2 fun k z hz => by rw [h k z hz, hv w hw k z hz]

theorem sum2_ok (Tw : Tower F) {t : Table F} (ht : WellFormed t) {a b : Col} (ha : t.Has a 0 9) (hb : t.Has b 0 9) :
    ∃ c t', t.addComputed 0 9 (add a.expr b.expr) = some (c, t') ∧ New t t' c 0 9 ∧
      Adds Tw t t' fun w => Lanes w c fun k => lanes w a k ^^^ lanes w b k :=
  computed_ok Tw ht ((Ev.col ha).add (Ev.col hb)) fun w hw k z hz => by
    rw [has_lanes ha hw k z hz, has_lanes hb hw k z hz, BitVec.getLsbD_xor, ofBit_xor]

theorem sum5_ok (Tw : Tower F) {t : Table F} (ht : WellFormed t) {c : Nat → Col} (hc : ∀ y, t.Has (c y) 0 9) :
    ∃ c' t', (sumExpr ((List.range 5).map c)).bind (fun e => t.addComputed 0 9 e) = some (c', t') ∧ New t t' c' 0 9 ∧
      Adds Tw t t' fun w => Lanes w c' fun k =>
        lanes w (c 0) k ^^^ lanes w (c 1) k ^^^ lanes w (c 2) k ^^^ lanes w (c 3) k ^^^ lanes w (c 4) k := by
  have e : (sumExpr ((List.range 5).map c) : Option (Circuit F)) =
      some (add (add (add (add (c 0).expr (c 1).expr) (c 2).expr) (c 3).expr) (c 4).expr) := rfl
  rw [e, Option.bind_some]
  refine computed_ok Tw ht (((((Ev.col (hc 0)).add (Ev.col (hc 1))).add (Ev.col (hc 2))).add (Ev.col (hc 3))).add
    (Ev.col (hc 4))) fun w hw k z hz => ?_
  simp only [has_lanes (hc _) hw k z hz, BitVec.getLsbD_xor, ofBit_xor]

theorem flatMap_get {α β : Type} {f : α → List β} {n : Nat} (hf : ∀ a, (f a).length = n) : ∀ (l : List α) (k z : Nat), z < n →
    (l.flatMap f)[n * k + z]? = l[k]?.bind fun a => (f a)[z]?
  | [], k, z, _ => by simp
  | a :: l, 0, z, hz => by
    rw [List.flatMap_cons, Nat.mul_zero, Nat.zero_add, List.getElem?_append_left (by rw [hf]; exact hz)]
    rfl
  | a :: l, k + 1, z, hz => by
    rw [List.flatMap_cons, List.getElem?_append_right (by rw [hf, Nat.mul_succ]; omega), hf,
      show n * (k + 1) + z - n = n * k + z by rw [Nat.mul_succ]; omega, flatMap_get hf l k z hz]
    rfl

theorem roundConsts_get (n : Fin 3) (k : Fin 8) {z : Nat} (hz : z < 64) :
    (roundConstsForBatch n : List F)[64 * k.val + z]? = some (ofBit ((rc (nthRound n k)).getLsbD z)) := by
  have hb : ∀ (v : BitVec 64) (z : Nat), (if (v >>> z) &&& 1 = 1 then (1 : F) else 0) = ofBit (v.getLsbD z) := by
    intro v z
    have : ((v >>> z) &&& 1 = 1) ↔ v.getLsbD z = true := by
      constructor
      · intro h
        have := congrArg (fun x => BitVec.getLsbD x 0) h
        simpa using this
      · intro h
        refine BitVec.eq_of_getLsbD_eq fun i hi => ?_
        rcases i with _ | i
        · simpa using h
        · simp
    by_cases h : v.getLsbD z = true
    · rw [if_pos (this.2 h), h]; rfl
    · rw [if_neg (fun h' => h (this.1 h')), Bool.eq_false_iff.2 h]; rfl
  rw [roundConstsForBatch, flatMap_get (n := 64) (fun k => by simp) _ _ _ hz, (by simp : (List.finRange 8)[k.val]? = some k), Option.bind_some,
    List.getElem?_map, List.getElem?_range hz, Option.map_some, hb]

theorem roundConst_ok (Tw : Tower F) (t : Table F) (n : Fin 3) :
    ∃ c t', t.addConstant 0 9 (roundConstsForBatch n) = some (c, t') ∧ New t t' c 0 9 ∧
      Adds Tw t t' fun w => Lanes w c fun k => rc (nthRound n k) := by
  obtain ⟨c, t', h1, h2, h3⟩ := addConstant_ok Tw t 0 9 (ks := roundConstsForBatch n)
    (by simp [roundConstsForBatch, List.length_flatMap])
  refine ⟨c, t', h1, h2, h3.congr fun w _ => ⟨?_, fun h => ⟨h.inField, ?_⟩⟩⟩
  · rintro ⟨-, h⟩ k z hz
    have := forall_512.1 h k z hz
    rw [roundConsts_get n k hz] at this
    exact (Option.some_inj.1 this).symm
  · exact forall_512.2 fun k z hz => by rw [roundConsts_get n k hz, h k z hz]

/-! ### Arrays of columns -/

/-- `m` are the `n` columns that `t'` has and `t` does not. -/
structure NewArr {n : Nat} (t t' : Table F) (m : Fin n → Col) (level lv : Nat) : Prop where
  len : t'.columns.length = t.columns.length + n
  idx : ∀ i, (m i).idx = t.columns.length + i.val
  has : ∀ i, t'.Has (m i) level lv

theorem matFromFn_ok (Tw : Tower F) {f : Nat → Nat → Table F → Option (Col × Table F)} {level lv : Nat}
    (R : Nat → Nat → Col → Row F → Prop) {t : Table F} (ht : WellFormed t)
    (hf : ∀ x < 5, ∀ y < 5, ∀ t1, Ext t t1 → WellFormed t1 → ∃ c t2, f x y t1 = some (c, t2) ∧
      New t1 t2 c level lv ∧ Adds Tw t1 t2 (R x y c)) :
    ∃ m t', matFromFn f t = some (m, t') ∧ NewArr t t' m level lv ∧
      Adds Tw t t' fun w => ∀ i : Fin 25, R (i.val % 5) (i.val / 5) (m i) w := by
  obtain ⟨cs, t', h1, h2, h3⟩ := fromFn_ok Tw (f := fun i t => f (i % 5) (i / 5) t) (level := level) (lv := lv)
    (fun i c => R (i % 5) (i / 5) c) 25 0 t ht fun j _ hj t1 e1 w1 =>
      hf (j % 5) (Nat.mod_lt _ (by norm_num)) (j / 5) (by omega) t1 e1 w1
  refine ⟨fun i => cs[i.val]'(by rw [h2.length]; exact i.isLt), t', ?_, ⟨h2.len, fun i => ?_, fun i => ?_⟩,
    h3.congr fun w _ => ?_⟩
  · rw [matFromFn, h1, Option.bind_some]
    dsimp only
    rw [dif_pos h2.length]
  · exact (h2.col i.val _ (List.getElem?_eq_getElem _)).1
  · exact (h2.col i.val _ (List.getElem?_eq_getElem _)).2
  · constructor
    · intro h i
      have := h i.val _ (List.getElem?_eq_getElem (by rw [h2.length]; exact i.isLt))
      rwa [Nat.zero_add] at this
    · intro h k c hk
      obtain ⟨hk', rfl⟩ := List.getElem?_eq_some_iff.1 hk
      rw [Nat.zero_add]
      exact h ⟨k, by rw [← h2.length]; exact hk'⟩

theorem lineFromFn_ok (Tw : Tower F) {f : Nat → Table F → Option (Col × Table F)} {level lv : Nat}
    (R : Nat → Col → Row F → Prop) {t : Table F} (ht : WellFormed t)
    (hf : ∀ x < 5, ∀ t1, Ext t t1 → WellFormed t1 → ∃ c t2, f x t1 = some (c, t2) ∧
      New t1 t2 c level lv ∧ Adds Tw t1 t2 (R x c)) :
    ∃ m t', lineFromFn f t = some (m, t') ∧ NewArr t t' m level lv ∧
      Adds Tw t t' fun w => ∀ i : Fin 5, R i.val (m i) w := by
  obtain ⟨cs, t', h1, h2, h3⟩ := fromFn_ok Tw (f := f) (level := level) (lv := lv) R 5 0 t ht fun j _ hj t1 e1 w1 =>
    hf j (by omega) t1 e1 w1
  refine ⟨fun i => cs[i.val]'(by rw [h2.length]; exact i.isLt), t', ?_, ⟨h2.len, fun i => ?_, fun i => ?_⟩,
    h3.congr fun w _ => ?_⟩
  · rw [lineFromFn, h1, Option.bind_some]
    dsimp only
    rw [dif_pos h2.length]
  · exact (h2.col i.val _ (List.getElem?_eq_getElem _)).1
  · exact (h2.col i.val _ (List.getElem?_eq_getElem _)).2
  · constructor
    · intro h i
      have := h i.val _ (List.getElem?_eq_getElem (by rw [h2.length]; exact i.isLt))
      rwa [Nat.zero_add] at this
    · intro h k c hk
      obtain ⟨hk', rfl⟩ := List.getElem?_eq_some_iff.1 hk
      rw [Nat.zero_add]
      exact h ⟨k, by rw [← h2.length]; exact hk'⟩

/-- The columns of `b`: the first is the one of `a_theta`, the others are new. -/
theorem newB_ok (Tw : Tower F) {t : Table F} (ht : WellFormed t) {a : Mat Col} (ha : ∀ i, t.Has (a i) 0 9) :
    ∃ m t', matFromFn (newB a) t = some (m, t') ∧ t'.columns.length = t.columns.length + 24 ∧ m 0 = a 0 ∧
      (∀ i : Fin 25, i ≠ 0 → (m i).idx = t.columns.length + (i.val - 1)) ∧ (∀ i, t'.Has (m i) 0 9) ∧
      Adds Tw t t' fun w => ∀ i : Fin 25, i ≠ 0 → Lanes w (m i) fun k =>
        (lanes w (a.at (3 * ((i.val / 5 + 2 * (i.val % 5)) % 5) % 5) (i.val % 5)) k).rotateLeft
          ((rho.at (3 * ((i.val / 5 + 2 * (i.val % 5)) % 5) % 5)).at (i.val % 5)) := by
  obtain ⟨cs, t', h1, h2, h3⟩ := fromFn_ok Tw (f := fun i t => newB a (i % 5) (i / 5) t) (level := 0) (lv := 9)
    (fun i c w => Lanes w c fun k =>
        (lanes w (a.at (3 * ((i / 5 + 2 * (i % 5)) % 5) % 5) (i % 5)) k).rotateLeft
          ((rho.at (3 * ((i / 5 + 2 * (i % 5)) % 5) % 5)).at (i % 5))) 24 1 t ht fun j hj1 hj2 t1 e1 w1 => by
      rw [newB, if_neg (by omega)]
      exact rotl_ok Tw ((ha _).ext e1) (rho_lt ⟨3 * ((j / 5 + 2 * (j % 5)) % 5) % 5 % 5, by omega⟩ ⟨j % 5 % 5, by omega⟩)
  have hlen : (a.at 0 0 :: cs).length = 25 := by rw [List.length_cons, h2.length]
  have hcol : ∀ (i : Fin 25) (h : i ≠ 0), (a.at 0 0 :: cs)[i.val]'(by rw [hlen]; exact i.isLt) =
      cs[i.val - 1]'(by have := h2.length; have := i.isLt; have : i.val ≠ 0 := fun h' => h (Fin.ext h'); omega) := by
    intro i h
    have hi : i.val = (i.val - 1) + 1 := by have : i.val ≠ 0 := fun h' => h (Fin.ext h'); omega
    rw [List.getElem_cons, dif_neg (by omega)]
  refine ⟨fun i => (a.at 0 0 :: cs)[i.val]'(by rw [hlen]; exact i.isLt), t', ?_, h2.len, rfl, fun i hi => ?_, fun i => ?_,
    h3.congr fun w _ => ?_⟩
  · have : M3.fromFn (fun i t => newB a (i % 5) (i / 5) t) 0 25 t = some (a.at 0 0 :: cs, t') := by
      rw [M3.fromFn]
      show (some (a.at 0 0, t)).bind _ = _
      rw [Option.bind_some]
      dsimp only
      rw [show 0 + 1 = 1 from rfl, h1, Option.bind_some]
    rw [matFromFn, this, Option.bind_some]
    dsimp only
    rw [dif_pos hlen]
  · dsimp only
    rw [hcol i hi]
    exact (h2.col _ _ (List.getElem?_eq_getElem _)).1
  · by_cases hi : i = 0
    · subst hi
      exact (ha 0).ext h3.ext
    · dsimp only
      rw [hcol i hi]
      exact (h2.col _ _ (List.getElem?_eq_getElem _)).2
  · constructor
    · intro h i hi
      have hi' : i.val ≠ 0 := fun h' => hi (Fin.ext h')
      have := h (i.val - 1) _ (List.getElem?_eq_getElem (by have := h2.length; have := i.isLt; omega))
      dsimp only
      rw [hcol i hi]
      rwa [show 1 + (i.val - 1) = i.val by omega] at this
    · intro h k c hk
      obtain ⟨hk', rfl⟩ := List.getElem?_eq_some_iff.1 hk
      have hk2 : k + 1 < 25 := by rw [h2.length] at hk'; omega
      have := h ⟨k + 1, hk2⟩ (fun h' => by simp [Fin.ext_iff] at h')
      dsimp only at this
      rw [hcol ⟨k + 1, hk2⟩ (fun h' => by simp [Fin.ext_iff] at h')] at this
      rw [show 1 + k = k + 1 by omega]
      exact this

end Verif.M3.Keccak
