import Verif.M3.ModelSha256
import Verif.M3.SpecSha256
import Verif.M3.PropsAdd

/-! Lemmas on the SHA-256 gadget: columns of words. -/

set_option linter.dupNamespace false
set_option linter.unusedSectionVars false

namespace Verif.M3

open Finset Verif.Arith

variable {F : Type} [Field F] [DecidableEq F]

/-! ### Columns of words -/

/-- The cell of the column has the given words. -/
def Words (w : Row F) (c : Col) (lv : Nat) (v : Nat → BitVec 32) : Prop :=
  ∀ pos < 2 ^ lv, w c.idx pos = ofBit ((v (pos / 32)).getLsbD (pos % 32))

theorem getU32_eq (w : Row F) (c : Col) (k : Nat) : getU32 w c k = wordBV w c k := rfl

theorem wordBV_bit (w : Row F) (c : Col) (k : Nat) {j : Nat} (hj : j < 32) :
    (wordBV w c k).getLsbD j = decide (w c.idx (32 * k + j) = 1) := by
  rw [wordBV, BitVec.getLsbD_ofNat, wordAt, testBit_num]
  simp [List.getElem?_range hj, hj]

theorem wordBV_congr {w w' : Row F} {c : Col} (h : ∀ pos, w c.idx pos = w' c.idx pos) (k : Nat) :
    wordBV w c k = wordBV w' c k := by
  rw [wordBV, wordBV, wordAt, wordAt]
  congr 2
  exact List.map_congr_left fun j _ => h _

theorem words_of_isBit {w : Row F} {c : Col} {lv : Nat} (h : ∀ pos < 2 ^ lv, IsBit (w c.idx pos)) :
    Words w c lv (wordBV w c) := fun pos hp => by
  rw [wordBV_bit _ _ _ (Nat.mod_lt _ (by norm_num)), Nat.div_add_mod]
  exact (ofBit_decide (h pos hp)).symm

theorem Table.Has.words {Tw : Tower F} {t : Table F} {c : Col} {lv : Nat} (h : t.Has c 0 lv) {w : Row F}
    (hw : RowHolds Tw t w) : Words w c lv (wordBV w c) := words_of_isBit fun _ hp => h.isBit hw hp

theorem Words.isBit {w : Row F} {c : Col} {lv : Nat} {v : Nat → BitVec 32} (h : Words w c lv v) {pos : Nat}
    (hp : pos < 2 ^ lv) : IsBit (w c.idx pos) := by
  rw [h pos hp]; exact ofBit_isBit _

theorem Words.inField {Tw : Tower F} {w : Row F} {c : Col} {lv : Nat} {v : Nat → BitVec 32} (h : Words w c lv v) :
    InField Tw 0 lv c w := fun _ hp => sub_of_isBit (h.isBit hp)

theorem Words.word {w : Row F} {c : Col} {lv : Nat} {v : Nat → BitVec 32} (h : Words w c lv v) {k : Nat}
    (hk : 32 * k + 32 ≤ 2 ^ lv) : wordBV w c k = v k := by
  refine BitVec.eq_of_getLsbD_eq fun j hj => ?_
  rw [wordBV_bit _ _ _ hj, h _ (by omega), show (32 * k + j) / 32 = k by omega, show (32 * k + j) % 32 = j by omega]
  cases (v k).getLsbD j <;> simp

theorem Words.congr_row {w w' : Row F} {c : Col} {lv : Nat} {v : Nat → BitVec 32}
    (h : ∀ pos, w c.idx pos = w' c.idx pos) : Words w c lv v ↔ Words w' c lv v :=
  forall_congr' fun pos => imp_congr_right fun _ => by rw [h]

theorem Words.congr {w : Row F} {c : Col} {lv : Nat} {v v' : Nat → BitVec 32} (hlv : 5 ≤ lv)
    (h : ∀ k, 32 * k + 32 ≤ 2 ^ lv → v k = v' k) : Words w c lv v ↔ Words w c lv v' := by
  obtain ⟨m, hm⟩ : 32 ∣ 2 ^ lv := by
    rw [show (32 : Nat) = 2 ^ 5 from rfl]; exact pow_dvd_pow 2 hlv
  refine forall_congr' fun pos => imp_congr_right fun hp => ?_
  rw [h _ (by omega)]

variable [CharP F 2]

theorem setU32s_ne {w : Row F} {c : Col} {n : Nat} {v : Nat → BitVec 32} {i : Nat} (h : i ≠ c.idx) (pos : Nat) :
    setU32s w c n v i pos = w i pos := setWords_ne h pos

theorem words_set {w : Row F} {c : Col} {lv n : Nat} {v : Nat → BitVec 32} (hn : 2 ^ lv ≤ 32 * n) :
    Words (setU32s w c n v) c lv v := fun pos hp => setWords_eq (by omega)

/-- The first words of a column are written, and the others were zero. -/
theorem words_set_part {w : Row F} {c : Col} {lv n : Nat} {v : Nat → BitVec 32}
    (hz : ∀ pos, w c.idx pos = 0) : Words (setU32s w c n v) c lv fun k => if k < n then v k else 0 := fun pos _ => by
  by_cases h : pos / 32 < n
  · rw [setU32s, setWords_eq h]
    simp only [if_pos h]
    rfl
  · have : setU32s w c n v c.idx pos = w c.idx pos := if_neg fun h' => h h'.2
    rw [this, hz]
    simp [if_neg h]

theorem ofBit_and (a b : Bool) : (ofBit (a && b) : F) = ofBit a * ofBit b := by
  cases a <;> cases b <;> simp

/-! ### Operations on columns of words -/

theorem rotr_ok (Tw : Tower F) {t : Table F} {c : Col} {lv : Nat} (hlv : 5 ≤ lv) (hc : t.Has c 0 lv) {r : Nat}
    (h0 : 0 < r) (hr : r < 32) :
    ∃ c' t', t.addShifted 0 lv c 5 (32 - r) .circularLeft = some (c', t') ∧ New t t' c' 0 lv ∧
      Adds Tw t t' fun w => Words w c' lv fun k => (wordBV w c k).rotateRight r := by
  obtain ⟨c', t', h1, h2, h3⟩ := addShifted_ok Tw t hc (b := 5) (o := 32 - r) hlv (by norm_num) .circularLeft
  obtain ⟨m, hm⟩ : 32 ∣ 2 ^ lv := by
    rw [show (32 : Nat) = 2 ^ 5 from rfl]; exact pow_dvd_pow 2 hlv
  refine ⟨c', t', h1, h2, h3.congr fun w hw => ?_⟩
  have hv := hc.words hw
  have key : ∀ pos < 2 ^ lv,
      Transparent.shifted .circularLeft 5 (32 - r) (fun x => w c.idx (x + 2 ^ 5 * (pos / 2 ^ 5))) (pos % 2 ^ 5) =
        ofBit (((wordBV w c (pos / 32)).rotateRight r).getLsbD (pos % 32)) := by
    intro pos hp
    show w c.idx ((pos % 2 ^ 5 + 2 ^ 5 - (32 - r)) % 2 ^ 5 + 2 ^ 5 * (pos / 2 ^ 5)) = _
    have hj : pos % 32 < 32 := Nat.mod_lt _ (by norm_num)
    rw [hv _ (by omega), BitVec.getLsbD_rotateRight, Nat.mod_eq_of_lt hr,
      show ((pos % 2 ^ 5 + 2 ^ 5 - (32 - r)) % 2 ^ 5 + 2 ^ 5 * (pos / 2 ^ 5)) / 32 = pos / 32 by omega]
    by_cases hlt : pos % 32 < 32 - r
    · rw [decide_eq_true hlt, cond_true, show ((pos % 2 ^ 5 + 2 ^ 5 - (32 - r)) % 2 ^ 5 + 2 ^ 5 * (pos / 2 ^ 5)) % 32 = r + pos % 32 by omega]
    · rw [decide_eq_false hlt, cond_false,
        show ((pos % 2 ^ 5 + 2 ^ 5 - (32 - r)) % 2 ^ 5 + 2 ^ 5 * (pos / 2 ^ 5)) % 32 = pos % 32 - (32 - r) by omega]
      simp [hj]
  constructor
  · rintro ⟨-, h⟩ pos hp
    rw [h pos hp, key pos hp]
  · intro h
    exact ⟨h.inField, fun pos hp => by rw [h pos hp, key pos hp]⟩

theorem shr_ok (Tw : Tower F) {t : Table F} {c : Col} {lv : Nat} (hlv : 5 ≤ lv) (hc : t.Has c 0 lv) {r : Nat}
    (hr : r < 32) :
    ∃ c' t', t.addShifted 0 lv c 5 r .logicalRight = some (c', t') ∧ New t t' c' 0 lv ∧
      Adds Tw t t' fun w => Words w c' lv fun k => wordBV w c k >>> r := by
  obtain ⟨c', t', h1, h2, h3⟩ := addShifted_ok Tw t hc (b := 5) (o := r) hlv (by omega) .logicalRight
  obtain ⟨m, hm⟩ : 32 ∣ 2 ^ lv := by
    rw [show (32 : Nat) = 2 ^ 5 from rfl]; exact pow_dvd_pow 2 hlv
  refine ⟨c', t', h1, h2, h3.congr fun w hw => ?_⟩
  have hv := hc.words hw
  have key : ∀ pos < 2 ^ lv,
      Transparent.shifted .logicalRight 5 r (fun x => w c.idx (x + 2 ^ 5 * (pos / 2 ^ 5))) (pos % 2 ^ 5) =
        ofBit ((wordBV w c (pos / 32) >>> r).getLsbD (pos % 32)) := by
    intro pos hp
    show (if pos % 2 ^ 5 + r < 2 ^ 5 then w c.idx (pos % 2 ^ 5 + r + 2 ^ 5 * (pos / 2 ^ 5)) else 0) = _
    rw [BitVec.getLsbD_ushiftRight]
    by_cases hlt : pos % 2 ^ 5 + r < 2 ^ 5
    · rw [if_pos hlt, hv _ (by omega), show (pos % 2 ^ 5 + r + 2 ^ 5 * (pos / 2 ^ 5)) / 32 = pos / 32 by omega,
        show (pos % 2 ^ 5 + r + 2 ^ 5 * (pos / 2 ^ 5)) % 32 = r + pos % 32 by omega]
    · rw [if_neg hlt, BitVec.getLsbD_of_ge _ _ (by omega)]
      rfl
  constructor
  · rintro ⟨-, h⟩ pos hp
    rw [h pos hp, key pos hp]
  · intro h
    exact ⟨h.inField, fun pos hp => by rw [h pos hp, key pos hp]⟩

/-- A column of 64 words shifted by `m` words. -/
theorem shiftWords_ok (Tw : Tower F) {t : Table F} {c : Col} (hc : t.Has c 0 11) {m : Nat} (hm : m ≤ 64) :
    ∃ c' t', t.addShifted 0 11 c 11 (32 * m) .logicalRight = some (c', t') ∧ New t t' c' 0 11 ∧
      Adds Tw t t' fun w => Words w c' 11 fun k => if k + m < 64 then wordBV w c (k + m) else 0 := by
  obtain ⟨c', t', h1, h2, h3⟩ := addShifted_ok Tw t hc (b := 11) (o := 32 * m) le_rfl (by omega) .logicalRight
  refine ⟨c', t', h1, h2, h3.congr fun w hw => ?_⟩
  have hv := hc.words hw
  have key : ∀ pos < 2 ^ 11,
      Transparent.shifted .logicalRight 11 (32 * m) (fun x => w c.idx (x + 2 ^ 11 * (pos / 2 ^ 11))) (pos % 2 ^ 11) =
        ofBit ((if pos / 32 + m < 64 then wordBV w c (pos / 32 + m) else 0).getLsbD (pos % 32)) := by
    intro pos hp
    show (if pos % 2 ^ 11 + 32 * m < 2 ^ 11 then w c.idx (pos % 2 ^ 11 + 32 * m + 2 ^ 11 * (pos / 2 ^ 11)) else 0) = _
    by_cases hlt : pos % 2 ^ 11 + 32 * m < 2 ^ 11
    · rw [if_pos hlt, if_pos (by omega), hv _ (by omega),
        show (pos % 2 ^ 11 + 32 * m + 2 ^ 11 * (pos / 2 ^ 11)) / 32 = pos / 32 + m by omega,
        show (pos % 2 ^ 11 + 32 * m + 2 ^ 11 * (pos / 2 ^ 11)) % 32 = pos % 32 by omega]
    · rw [if_neg hlt, if_neg (by omega)]
      simp
  constructor
  · rintro ⟨-, h⟩ pos hp
    rw [h pos hp, key pos hp]
  · intro h
    exact ⟨h.inField, fun pos hp => by rw [h pos hp, key pos hp]⟩

/-- One of the 64 words of a column. -/
theorem selectBlock_ok (Tw : Tower F) {t : Table F} {c : Col} (hc : t.Has c 0 11) {i : Nat} (hi : i < 64) :
    ∃ c' t', t.addSelectedBlock 0 11 5 c i = some (c', t') ∧ New t t' c' 0 5 ∧
      Adds Tw t t' fun w => Words w c' 5 fun _ => wordBV w c i := by
  obtain ⟨c', t', h1, h2, h3⟩ := newColumn_ok' Tw t 0 5 (.projected c.idx 5 (11 - 5) i)
    (by intro j hj; rw [List.mem_singleton.1 hj]; exact hc.lt)
  refine ⟨c', t', by rw [Table.addSelectedBlock, if_pos (by norm_num), h1], h2, h3.congr fun w hw => ?_⟩
  have hv := hc.words hw
  have key : ∀ pos < 2 ^ 5, w c.idx (pos % 2 ^ 5 + 2 ^ 5 * (i % 2 ^ (11 - 5) + 2 ^ (11 - 5) * (pos / 2 ^ 5))) =
      ofBit ((wordBV w c i).getLsbD (pos % 32)) := by
    intro pos hp
    norm_num at hp ⊢
    rw [hv _ (by omega), show (pos % 32 + 32 * (i % 64 + 64 * (pos / 32))) / 32 = i by omega,
      show (pos % 32 + 32 * (i % 64 + 64 * (pos / 32))) % 32 = pos % 32 by omega]
  constructor
  · rintro ⟨-, h⟩ pos hp
    rw [h pos hp, key pos hp]
  · intro h
    exact ⟨h.inField, fun pos hp => by rw [h pos hp, key pos hp]⟩

theorem u32ToB1BitsLe_get (x : BitVec 32) {j : Nat} (hj : j < 32) :
    (u32ToB1BitsLe x : List F)[j]? = some (ofBit (x.getLsbD j)) := by
  have : ((x >>> j) &&& 1 = 1) ↔ x.getLsbD j = true := by
    rw [← BitVec.toNat_inj, BitVec.toNat_and, BitVec.toNat_ushiftRight]
    show (x.toNat >>> j) &&& 1 = 1 ↔ x.toNat.testBit j = true
    rw [Nat.testBit, Nat.and_comm, bne_iff_ne, Nat.one_and_eq_mod_two]
    omega
  rw [u32ToB1BitsLe, List.getElem?_map, List.getElem?_range hj]
  simp only [Option.map_some, Option.some_inj, ofBit, this]

theorem constantWord_ok (Tw : Tower F) (t : Table F) (x : BitVec 32) :
    ∃ c' t', t.addConstant 0 5 (u32ToB1BitsLe x) = some (c', t') ∧ New t t' c' 0 5 ∧
      Adds Tw t t' fun w => Words w c' 5 fun _ => x := by
  obtain ⟨c', t', h1, h2, h3⟩ := addConstant_ok Tw t 0 5 (ks := u32ToB1BitsLe x) (by simp [u32ToB1BitsLe])
  refine ⟨c', t', h1, h2, h3.congr fun w hw => ?_⟩
  constructor
  · rintro ⟨-, h⟩ pos hp
    have := h pos hp
    rw [u32ToB1BitsLe_get x hp, Option.some_inj] at this
    rw [← this, show pos % 32 = pos from Nat.mod_eq_of_lt hp]
  · intro h
    exact ⟨h.inField, fun pos hp => by rw [u32ToB1BitsLe_get x hp, h pos hp, show pos % 32 = pos from Nat.mod_eq_of_lt hp]⟩

theorem selector_get {pos : Nat} (hp : pos < 2 ^ 11) : (scheduleExpandSelector : List F)[pos]? =
    some (ofBit ((if pos / 32 < 48 then 0xFFFFFFFF else 0 : BitVec 32).getLsbD (pos % 32))) := by
  have hj : pos % 32 < 32 := Nat.mod_lt _ (by norm_num)
  rw [scheduleExpandSelector, List.getElem?_map, List.getElem?_range (by omega)]
  by_cases h : pos < 32 * 48
  · have h1 : ∀ j < 32, (0xFFFFFFFF : BitVec 32).getLsbD j = true := by decide
    rw [if_pos (by omega), h1 _ hj]
    simp [h]
  · rw [if_neg (by omega)]
    simp [h]

theorem selector_ok (Tw : Tower F) (t : Table F) :
    ∃ c' t', t.addConstant 0 11 scheduleExpandSelector = some (c', t') ∧ New t t' c' 0 11 ∧
      Adds Tw t t' fun w => Words w c' 11 fun k => if k < 48 then 0xFFFFFFFF else 0 := by
  obtain ⟨c', t', h1, h2, h3⟩ := addConstant_ok Tw t 0 11 (ks := scheduleExpandSelector)
    (by simp [scheduleExpandSelector])
  refine ⟨c', t', h1, h2, h3.congr fun w hw => ?_⟩
  constructor
  · rintro ⟨-, h⟩ pos hp
    have := h pos hp
    rw [selector_get hp, Option.some_inj] at this
    exact this.symm
  · intro h
    exact ⟨h.inField, fun pos hp => by rw [selector_get hp, h pos hp]⟩

/-! ### The functions on bits -/

/-- What the columns of one of the functions on bits satisfy. -/
structure SigmaRow (w : Row F) (g : Sigma) (lv : Nat) (f1 f2 f3 : BitVec 32 → BitVec 32) : Prop where
  first : Words w g.first lv fun k => f1 (wordBV w g.input k)
  second : Words w g.second lv fun k => f2 (wordBV w g.input k)
  third : Words w g.third lv fun k => f3 (wordBV w g.input k)
  out : Words w g.out lv fun k => f1 (wordBV w g.input k) ^^^ f2 (wordBV w g.input k) ^^^ f3 (wordBV w g.input k)

/-- The columns of one of the functions on bits, in a table that had `L` columns before. -/
structure SigmaCols (L : Nat) (c : Col) (g : Sigma) : Prop where
  input : g.input = c
  first : g.first.idx = L
  second : g.second.idx = L + 1
  third : g.third.idx = L + 2
  out : g.out.idx = L + 3

theorem sigma_ok (Tw : Tower F) {t : Table F} (ht : WellFormed t) {c : Col} {lv : Nat} (hlv : 5 ≤ lv)
    (hc : t.Has c 0 lv) (f1 f2 f3 : BitVec 32 → BitVec 32) (op1 op2 op3 : Table F → Option (Col × Table F))
    (h1 : ∀ t, t.Has c 0 lv → ∃ c' t', op1 t = some (c', t') ∧ New t t' c' 0 lv ∧
      Adds Tw t t' fun w => Words w c' lv fun k => f1 (wordBV w c k))
    (h2 : ∀ t, t.Has c 0 lv → ∃ c' t', op2 t = some (c', t') ∧ New t t' c' 0 lv ∧
      Adds Tw t t' fun w => Words w c' lv fun k => f2 (wordBV w c k))
    (h3 : ∀ t, t.Has c 0 lv → ∃ c' t', op3 t = some (c', t') ∧ New t t' c' 0 lv ∧
      Adds Tw t t' fun w => Words w c' lv fun k => f3 (wordBV w c k)) :
    ∃ g t', ((op1 t).bind fun p1 => (op2 p1.2).bind fun p2 => (op3 p2.2).bind fun p3 =>
        (p3.2.addComputed 0 lv (sumExpr p1.1 p2.1 p3.1)).bind fun p4 =>
          some ((⟨c, p1.1, p2.1, p3.1, p4.1⟩ : Sigma), p4.2)) = some (g, t') ∧
      SigmaCols t.columns.length c g ∧ t'.columns.length = t.columns.length + 4 ∧ t'.Has g.out 0 lv ∧
      Adds Tw t t' fun w => SigmaRow w g lv f1 f2 f3 := by
  obtain ⟨c1, t1, a1, a2, a3⟩ := h1 t hc
  have e1 := a3.ext
  obtain ⟨c2, t2, b1, b2, b3⟩ := h2 t1 (hc.ext e1)
  have e2 := e1.trans b3.ext
  obtain ⟨c3, t3, d1, d2, d3⟩ := h3 t2 (hc.ext e2)
  have e3 := e2.trans d3.ext
  have w3 := d3.wf (b3.wf (a3.wf ht))
  have k1 := (a2.has.ext b3.ext).ext d3.ext
  have k2 := b2.has.ext d3.ext
  obtain ⟨c4, t4, f1', f2', f3'⟩ := addComputed_ok Tw w3 0 (sumExpr_ev k1 k2 d2.has)
  refine ⟨⟨c, c1, c2, c3, c4⟩, t4, ?_, ⟨rfl, a2.idx, ?_, ?_, ?_⟩, ?_, f2'.has, ?_⟩
  · rw [a1, Option.bind_some]
    dsimp only
    rw [b1, Option.bind_some]
    dsimp only
    rw [d1, Option.bind_some]
    dsimp only
    rw [f1', Option.bind_some]
  · show c2.idx = _; rw [b2.idx, a2.len]
  · show c3.idx = _; rw [d2.idx, b2.len, a2.len]
  · show c4.idx = _; rw [f2'.idx, d2.len, b2.len, a2.len]
  · rw [f2'.len, d2.len, b2.len, a2.len]
  · refine (((a3.trans b3).trans d3).trans f3').congr fun w hw => ?_
    constructor
    · rintro ⟨⟨⟨r1, r2⟩, r3⟩, -, r4⟩
      refine ⟨r1, r2, r3, fun pos hp => ?_⟩
      show w c4.idx pos = _
      rw [r4 pos hp, r1 pos hp, r2 pos hp, r3 pos hp, BitVec.getLsbD_xor, BitVec.getLsbD_xor, ofBit_xor, ofBit_xor]
    · rintro ⟨r1, r2, r3, r4⟩
      refine ⟨⟨⟨r1, r2⟩, r3⟩, r4.inField, fun pos hp => ?_⟩
      have r1' := r1 pos hp
      have r2' := r2 pos hp
      have r3' := r3 pos hp
      have r4' := r4 pos hp
      dsimp only at r1' r2' r3' r4'
      rw [r4', r1', r2', r3', BitVec.getLsbD_xor, BitVec.getLsbD_xor, ofBit_xor, ofBit_xor]

theorem Sigma0_new_ok (Tw : Tower F) {t : Table F} (ht : WellFormed t) {c : Col} (hc : t.Has c 0 11) :
    ∃ g t', Sigma0.new t c = some (g, t') ∧
      SigmaCols t.columns.length c g ∧ t'.columns.length = t.columns.length + 4 ∧ t'.Has g.out 0 11 ∧
      Adds Tw t t' fun w => SigmaRow w g 11 (fun x => x.rotateRight 7) (fun x => x.rotateRight 18) (fun x => x >>> 3) :=
  sigma_ok Tw ht (by norm_num) hc (fun x => x.rotateRight 7) (fun x => x.rotateRight 18) (fun x => x >>> 3)
    (fun t => t.addShifted 0 11 c 5 (32 - 7) .circularLeft) (fun t => t.addShifted 0 11 c 5 (32 - 18) .circularLeft)
    (fun t => t.addShifted 0 11 c 5 3 .logicalRight)
    (fun _ h => rotr_ok Tw (by norm_num) h (by norm_num) (by norm_num))
    (fun _ h => rotr_ok Tw (by norm_num) h (by norm_num) (by norm_num)) (fun _ h => shr_ok Tw (by norm_num) h (by norm_num))

theorem Sigma1_new_ok (Tw : Tower F) {t : Table F} (ht : WellFormed t) {c : Col} (hc : t.Has c 0 11) :
    ∃ g t', Sigma1.new t c = some (g, t') ∧
      SigmaCols t.columns.length c g ∧ t'.columns.length = t.columns.length + 4 ∧ t'.Has g.out 0 11 ∧
      Adds Tw t t' fun w => SigmaRow w g 11 (fun x => x.rotateRight 17) (fun x => x.rotateRight 19) (fun x => x >>> 10) :=
  sigma_ok Tw ht (by norm_num) hc (fun x => x.rotateRight 17) (fun x => x.rotateRight 19) (fun x => x >>> 10)
    (fun t => t.addShifted 0 11 c 5 (32 - 17) .circularLeft) (fun t => t.addShifted 0 11 c 5 (32 - 19) .circularLeft)
    (fun t => t.addShifted 0 11 c 5 10 .logicalRight)
    (fun _ h => rotr_ok Tw (by norm_num) h (by norm_num) (by norm_num))
    (fun _ h => rotr_ok Tw (by norm_num) h (by norm_num) (by norm_num)) (fun _ h => shr_ok Tw (by norm_num) h (by norm_num))

theorem BigSigma0_new_ok (Tw : Tower F) {t : Table F} (ht : WellFormed t) {c : Col} (hc : t.Has c 0 5) :
    ∃ g t', BigSigma0.new t c = some (g, t') ∧
      SigmaCols t.columns.length c g ∧ t'.columns.length = t.columns.length + 4 ∧ t'.Has g.out 0 5 ∧
      Adds Tw t t' fun w =>
        SigmaRow w g 5 (fun x => x.rotateRight 2) (fun x => x.rotateRight 13) (fun x => x.rotateRight 22) :=
  sigma_ok Tw ht le_rfl hc (fun x => x.rotateRight 2) (fun x => x.rotateRight 13) (fun x => x.rotateRight 22)
    (fun t => t.addShifted 0 5 c 5 (32 - 2) .circularLeft) (fun t => t.addShifted 0 5 c 5 (32 - 13) .circularLeft)
    (fun t => t.addShifted 0 5 c 5 (32 - 22) .circularLeft)
    (fun _ h => rotr_ok Tw le_rfl h (by norm_num) (by norm_num))
    (fun _ h => rotr_ok Tw le_rfl h (by norm_num) (by norm_num)) (fun _ h => rotr_ok Tw le_rfl h (by norm_num) (by norm_num))

theorem BigSigma1_new_ok (Tw : Tower F) {t : Table F} (ht : WellFormed t) {c : Col} (hc : t.Has c 0 5) :
    ∃ g t', BigSigma1.new t c = some (g, t') ∧
      SigmaCols t.columns.length c g ∧ t'.columns.length = t.columns.length + 4 ∧ t'.Has g.out 0 5 ∧
      Adds Tw t t' fun w =>
        SigmaRow w g 5 (fun x => x.rotateRight 6) (fun x => x.rotateRight 11) (fun x => x.rotateRight 25) :=
  sigma_ok Tw ht le_rfl hc (fun x => x.rotateRight 6) (fun x => x.rotateRight 11) (fun x => x.rotateRight 25)
    (fun t => t.addShifted 0 5 c 5 (32 - 6) .circularLeft) (fun t => t.addShifted 0 5 c 5 (32 - 11) .circularLeft)
    (fun t => t.addShifted 0 5 c 5 (32 - 25) .circularLeft)
    (fun _ h => rotr_ok Tw le_rfl h (by norm_num) (by norm_num))
    (fun _ h => rotr_ok Tw le_rfl h (by norm_num) (by norm_num)) (fun _ h => rotr_ok Tw le_rfl h (by norm_num) (by norm_num))

/-- The common text of the four `populate`s. -/
def sigmaPopulate (g : Sigma) (n : Nat) (f1 f2 f3 : BitVec 32 → BitVec 32) (w : Row F) : Row F :=
  setU32s (setU32s (setU32s (setU32s w g.first n fun k => f1 (getU32 w g.input k)) g.second n fun k => f2 (getU32 w g.input k))
    g.third n fun k => f3 (getU32 w g.input k)) g.out n fun k =>
      f1 (getU32 w g.input k) ^^^ f2 (getU32 w g.input k) ^^^ f3 (getU32 w g.input k)

theorem sigmaPopulate_ok {L : Nat} {c : Col} {g : Sigma} (hg : SigmaCols L c g) {lv n : Nat} (hn : 2 ^ lv ≤ 32 * n)
    (hc : c.idx < L) (f1 f2 f3 : BitVec 32 → BitVec 32) (w : Row F) :
    (∀ i, i < L ∨ L + 4 ≤ i → ∀ pos, sigmaPopulate g n f1 f2 f3 w i pos = w i pos) ∧
      SigmaRow (sigmaPopulate g n f1 f2 f3 w) g lv f1 f2 f3 := by
  obtain ⟨h0, h1, h2, h3, h4⟩ := hg
  have hf : ∀ i, i < L ∨ L + 4 ≤ i → ∀ pos, sigmaPopulate g n f1 f2 f3 w i pos = w i pos := by
    intro i hi pos
    rw [sigmaPopulate, setU32s_ne (by omega), setU32s_ne (by omega), setU32s_ne (by omega), setU32s_ne (by omega)]
  have hin : ∀ k, wordBV (sigmaPopulate g n f1 f2 f3 w) g.input k = wordBV w g.input k :=
    fun k => wordBV_congr (fun pos => hf _ (by rw [h0]; omega) pos) k
  refine ⟨hf, ?_, ?_, ?_, ?_⟩ <;> simp only [hin] <;> unfold sigmaPopulate
  · rw [Words.congr_row (w' := setU32s w g.first n fun k => f1 (getU32 w g.input k)) fun pos => by
      rw [setU32s_ne (by omega), setU32s_ne (by omega), setU32s_ne (by omega)]]
    exact words_set hn
  · rw [Words.congr_row (w' := setU32s (setU32s w g.first n fun k => f1 (getU32 w g.input k)) g.second n
      fun k => f2 (getU32 w g.input k)) fun pos => by
      rw [setU32s_ne (by omega), setU32s_ne (by omega)]]
    exact words_set hn
  · rw [Words.congr_row (w' := setU32s (setU32s (setU32s w g.first n fun k => f1 (getU32 w g.input k)) g.second n
      fun k => f2 (getU32 w g.input k)) g.third n fun k => f3 (getU32 w g.input k)) fun pos => by
      rw [setU32s_ne (by omega)]]
    exact words_set hn
  · exact words_set hn

end Verif.M3
