import Verif.M3.LemmasBuilder
import Verif.M3.LemmasTower
import Verif.M3.PropsAdd

/-! Property C54: what the columns of the table builder hold. -/

set_option linter.dupNamespace false
set_option linter.unusedSectionVars false

namespace Verif.M3

open Finset Verif.Arith

variable {F : Type} [Field F] [DecidableEq F]

/-- The outcome of adding a column: `t'` has the columns of `t` and a new one, `c`, and the rows of `t'` are the rows of
`t` in which the new cell has the property `P`. -/
structure AddsColumn (Tw : Tower F) (t : Table F) (r : Option (Col × Table F)) (level lv : Nat)
    (P : Row F → (Nat → F) → Prop) : Prop where
  ok : ∃ c t', r = some (c, t') ∧ WellFormed t' ∧ t'.Has c level lv ∧ c.idx = t.columns.length ∧
    t'.columns.length = t.columns.length + 1 ∧ (∀ c' l v, t.Has c' l v → t'.Has c' l v) ∧
    ∀ w, RowHolds Tw t' w ↔ RowHolds Tw t w ∧ P w (w c.idx)

theorem AddsColumn.of {Tw : Tower F} {t : Table F} (ht : WellFormed t) {r : Option (Col × Table F)} {level lv : Nat}
    {P : Row F → (Nat → F) → Prop} {Q : Col → Row F → Prop}
    (h : ∃ c t', r = some (c, t') ∧ New t t' c level lv ∧ Adds Tw t t' (Q c))
    (hQ : ∀ c w, RowHolds Tw t w → (Q c w ↔ P w (w c.idx))) : AddsColumn Tw t r level lv P := by
  obtain ⟨c, t', h1, h2, h3⟩ := h
  refine ⟨c, t', h1, h3.wf ht, h2.has, h2.idx, h2.len, fun c' l v hc => hc.ext h3.ext, fun w => ?_⟩
  rw [h3.holds ht w]
  exact and_congr_right fun hw => hQ c w hw

theorem Tower.zero_mem (Tw : Tower F) : ∀ l, Tw.sub l 0
  | 0 => (Tw.sub_zero 0).2 (Or.inl rfl)
  | l + 1 => Tw.sub_mono l 0 (Tw.zero_mem l)

theorem Tower.one_mem (Tw : Tower F) : ∀ l, Tw.sub l 1
  | 0 => (Tw.sub_zero 1).2 (Or.inr rfl)
  | l + 1 => Tw.sub_mono l 1 (Tw.one_mem l)

theorem Tower.mono (Tw : Tower F) {l l' : Nat} (h : l ≤ l') {x : F} (hx : Tw.sub l x) : Tw.sub l' x := by
  induction l', h using Nat.le_induction with
  | base => exact hx
  | succ n _ ih => exact Tw.sub_mono n x ih

theorem Tower.sum_mem (Tw : Tower F) (l n : Nat) {f : Nat → F} (h : ∀ i < n, Tw.sub l (f i)) :
    Tw.sub l (∑ i ∈ range n, f i) := by
  induction n with
  | zero => simpa using Tw.zero_mem l
  | succ n ih =>
    rw [sum_range_succ]
    exact Tw.sub_add l _ _ (ih fun i hi => h i (by omega)) (h n (by omega))

theorem Tower.pow_mem (Tw : Tower F) (l n : Nat) {x : F} (h : Tw.sub l x) : Tw.sub l (x ^ n) := by
  induction n with
  | zero => simpa using Tw.one_mem l
  | succ n ih => rw [pow_succ]; exact Tw.sub_mul l _ _ ih h

/-- The cells of a column of a row are in the field of the column. -/
theorem Table.Has.mem {Tw : Tower F} {t : Table F} {c : Col} {level lv : Nat} (hc : t.Has c level lv) {w : Row F}
    (hw : RowHolds Tw t w) {pos : Nat} (hpos : pos < 2 ^ lv) : Tw.sub level (w c.idx pos) := by
  obtain ⟨⟨i, h1, rfl, rfl⟩, -⟩ := hc
  exact (hw.1 _ i h1).1 pos hpos

/-- **C54.** `add_committed`: the cells are any values of the field. -/
theorem C54_committed (Tw : Tower F) {t : Table F} (ht : WellFormed t) (level lv : Nat) :
    AddsColumn Tw t (t.addCommitted level lv) level lv fun _ f => ∀ pos < 2 ^ lv, Tw.sub level (f pos) :=
  .of ht (addCommitted_ok Tw t level lv) fun _ _ _ => Iff.rfl

/-- **C54.** `add_selected`: the cell is the value number `index` of the cell of the inner column; an index that is not
below the number of values per row is refused. -/
theorem C54_selected (Tw : Tower F) {t : Table F} (ht : WellFormed t) {level lv : Nat} {c : Col}
    (hc : t.Has c level lv) (index : Nat) :
    (index < 2 ^ lv → AddsColumn Tw t (t.addSelected level lv c index) level 0 fun w f => f 0 = w c.idx index) ∧
    (¬ index < 2 ^ lv → t.addSelected level lv c index = none) := by
  refine ⟨fun hi => .of ht (addSelected_ok Tw t hc hi) fun c' w hw => ?_, fun hi => by rw [Table.addSelected, if_neg hi]⟩
  refine ⟨fun h => h.2, fun h => ⟨fun pos hpos => ?_, h⟩⟩
  have : pos = 0 := by simpa using hpos
  rw [this, h]
  exact hc.mem hw hi

/-- **C54.** `add_selected_block`: the cell is the block number `index` of the cell of the inner column, the values
`index * NEW_V .. (index + 1) * NEW_V`, when there is such a block. -/
theorem C54_selected_block (Tw : Tower F) {t : Table F} (ht : WellFormed t) {level lvSub : Nat} (lv : Nat) {c : Col}
    (hc : t.Has c level lvSub) (index : Nat) :
    (lv < lvSub → (index + 1) * 2 ^ lv ≤ 2 ^ lvSub →
      AddsColumn Tw t (t.addSelectedBlock level lvSub lv c index) level lv fun w f =>
        ∀ pos < 2 ^ lv, f pos = w c.idx (index * 2 ^ lv + pos)) ∧
    (¬ lv < lvSub → t.addSelectedBlock level lvSub lv c index = none) := by
  refine ⟨fun hl hi => ?_, fun hl => by rw [Table.addSelectedBlock, if_neg hl]⟩
  obtain ⟨c', t', h1, h2, h3⟩ := newColumn_ok' Tw t level lv (.projected c.idx lv (lvSub - lv) index)
    (by intro j hj; rw [List.mem_singleton.1 hj]; exact hc.lt)
  refine .of ht (Q := fun c' w => InField Tw level lv c' w ∧ Defines Tw w level lv (w c'.idx) (.projected c.idx lv (lvSub - lv) index))
    ⟨c', t', by rw [Table.addSelectedBlock, if_pos hl, h1], h2, h3⟩ fun c'' w hw => ?_
  have hp := Nat.two_pow_pos lv
  have hs : 2 ^ lvSub = 2 ^ lv * 2 ^ (lvSub - lv) := by rw [← pow_add]; congr 1; omega
  have hlt : index < 2 ^ (lvSub - lv) := by
    rw [hs, Nat.mul_comm] at hi
    have := Nat.le_of_mul_le_mul_left hi hp
    omega
  have hval : ∀ pos < 2 ^ lv, pos % 2 ^ lv + 2 ^ lv * (index % 2 ^ (lvSub - lv) + 2 ^ (lvSub - lv) * (pos / 2 ^ lv)) =
      index * 2 ^ lv + pos := by
    intro pos hpos
    rw [Nat.mod_eq_of_lt hpos, Nat.mod_eq_of_lt hlt, Nat.div_eq_of_lt hpos, Nat.mul_zero, Nat.add_zero,
      Nat.mul_comm, Nat.add_comm]
  constructor
  · rintro ⟨-, h⟩ pos hpos
    exact (h pos hpos).trans (by rw [hval pos hpos])
  · intro h
    refine ⟨fun pos hpos => ?_, fun pos hpos => (h pos hpos).trans (by rw [hval pos hpos])⟩
    rw [h pos hpos]
    refine hc.mem hw ?_
    have : index * 2 ^ lv + pos < (index + 1) * 2 ^ lv := by rw [Nat.add_mul]; omega
    omega

/-- **C54, negative.** `add_selected_block` does not check its index: a block that is not there is taken modulo the number
of blocks.  Here the block number 2 of a cell with two blocks of one value is the block number 0. -/
theorem C54_selected_block_unchecked (Tw : Tower F) {t : Table F} (ht : WellFormed t) {level : Nat} {c : Col}
    (hc : t.Has c level 1) :
    AddsColumn Tw t (t.addSelectedBlock level 1 0 c 2) level 0 fun w f => f 0 = w c.idx 0 := by
  obtain ⟨c', t', h1, h2, h3⟩ := newColumn_ok' Tw t level 0 (.projected c.idx 0 1 2)
    (by intro j hj; rw [List.mem_singleton.1 hj]; exact hc.lt)
  refine .of ht (Q := fun c' w => InField Tw level 0 c' w ∧ Defines Tw w level 0 (w c'.idx) (.projected c.idx 0 1 2))
    ⟨c', t', by rw [Table.addSelectedBlock, if_pos (by omega), h1], h2, h3⟩ fun c'' w hw => ?_
  constructor
  · rintro ⟨-, h⟩
    simpa using h 0 (by simp)
  · intro h
    refine ⟨fun pos hpos => ?_, fun pos hpos => ?_⟩
    · have : pos = 0 := by simpa using hpos
      rw [this, h]; exact hc.mem hw (by simp)
    · have : pos = 0 := by simpa using hpos
      subst this
      simpa using h

/-- The zero-padded cells, as both methods define them. -/
theorem zeroPadded_ok (Tw : Tower F) {t : Table F} (ht : WellFormed t) {level lvSub lv : Nat} {c : Col}
    (hc : t.Has c level lvSub) {nz : Nat} (hl : lvSub < lv) (hnz : nz < 2 ^ (lv - lvSub)) :
    AddsColumn Tw t (some (t.newColumn level lv (.zeroPadded c.idx (lv - lvSub) lvSub nz))) level lv fun w f =>
      (∀ pos < 2 ^ lvSub, f (nz * 2 ^ lvSub + pos) = w c.idx pos) ∧
      ∀ pos < 2 ^ lv, pos / 2 ^ lvSub ≠ nz → f pos = 0 := by
  obtain ⟨c', t', h1, h2, h3⟩ := newColumn_ok' Tw t level lv (.zeroPadded c.idx (lv - lvSub) lvSub nz)
    (by intro j hj; rw [List.mem_singleton.1 hj]; exact hc.lt)
  refine .of ht (Q := fun c' w => InField Tw level lv c' w ∧ Defines Tw w level lv (w c'.idx) (.zeroPadded c.idx (lv - lvSub) lvSub nz))
    ⟨c', t', by rw [h1], h2, h3⟩ fun c'' w hw => ?_
  have hp := Nat.two_pow_pos lvSub
  have hs : 2 ^ lv = 2 ^ lvSub * 2 ^ (lv - lvSub) := by rw [← pow_add]; congr 1; omega
  have hq : ∀ pos < 2 ^ lv, pos / 2 ^ lvSub < 2 ^ (lv - lvSub) := by
    intro pos hpos; rw [hs] at hpos; exact Nat.div_lt_of_lt_mul hpos
  have hin : ∀ pos < 2 ^ lvSub, nz * 2 ^ lvSub + pos < 2 ^ lv ∧ (nz * 2 ^ lvSub + pos) / 2 ^ lvSub = nz ∧
      (nz * 2 ^ lvSub + pos) % 2 ^ lvSub = pos := by
    intro pos hpos
    refine ⟨?_, ?_, ?_⟩
    · have h5 : (nz + 1) * 2 ^ lvSub ≤ 2 ^ (lv - lvSub) * 2 ^ lvSub := Nat.mul_le_mul_right _ hnz
      rw [Nat.add_mul] at h5
      rw [hs, Nat.mul_comm (2 ^ lvSub)]
      omega
    · rw [Nat.mul_comm, Nat.mul_add_div hp, Nat.div_eq_of_lt hpos, Nat.add_zero]
    · rw [Nat.mul_comm, Nat.mul_add_mod, Nat.mod_eq_of_lt hpos]
  constructor
  · rintro ⟨-, h⟩
    refine ⟨fun pos hpos => ?_, fun pos hpos hne => ?_⟩
    · obtain ⟨a, b, d⟩ := hin pos hpos
      have := h _ a
      rw [b, d, Nat.mod_eq_of_lt hnz, if_pos rfl, Nat.div_eq_of_lt hnz, Nat.mul_zero, Nat.add_zero] at this
      exact this
    · have := h pos hpos
      rw [Nat.mod_eq_of_lt (hq pos hpos), if_neg hne] at this
      exact this
  · rintro ⟨ha, hb⟩
    have key : ∀ pos < 2 ^ lv, w c''.idx pos = if pos / 2 ^ lvSub = nz then w c.idx (pos % 2 ^ lvSub) else 0 := by
      intro pos hpos
      by_cases he : pos / 2 ^ lvSub = nz
      · rw [if_pos he]
        have := ha (pos % 2 ^ lvSub) (Nat.mod_lt _ hp)
        rw [← he, Nat.mul_comm, Nat.div_add_mod] at this
        exact this
      · rw [if_neg he]; exact hb pos hpos he
    refine ⟨fun pos hpos => ?_, fun pos hpos => ?_⟩
    · rw [key pos hpos]
      split
      · exact hc.mem hw (Nat.mod_lt _ hp)
      · exact Tw.zero_mem level
    · rw [key pos hpos, Nat.mod_eq_of_lt (hq pos hpos), Nat.div_eq_of_lt (hq pos hpos), Nat.mul_zero, Nat.add_zero]

/-- **C54.** `add_zero_pad`: the block number `nonzero_index` of the new cell is the cell of the inner column, the other
blocks are zero; anything but a longer cell and an index below the number of blocks is refused. -/
theorem C54_zero_pad (Tw : Tower F) {t : Table F} (ht : WellFormed t) {level lvSub : Nat} (lv : Nat) {c : Col}
    (hc : t.Has c level lvSub) (nz : Nat) :
    (lvSub < lv ∧ nz < 2 ^ (lv - lvSub) →
      AddsColumn Tw t (t.addZeroPad level lvSub lv c nz) level lv fun w f =>
        (∀ pos < 2 ^ lvSub, f (nz * 2 ^ lvSub + pos) = w c.idx pos) ∧
        ∀ pos < 2 ^ lv, pos / 2 ^ lvSub ≠ nz → f pos = 0) ∧
    (¬ (lvSub < lv ∧ nz < 2 ^ (lv - lvSub)) → t.addZeroPad level lvSub lv c nz = none) := by
  refine ⟨fun h => ?_, fun h => by rw [Table.addZeroPad, if_neg h]⟩
  rw [Table.addZeroPad, if_pos h]
  exact zeroPadded_ok Tw ht hc h.1 h.2

/-- **C54.** `add_zero_pad_upcast`: the last values of the new cell are the cell of the inner column, the values before
them are zero. -/
theorem C54_zero_pad_upcast (Tw : Tower F) {t : Table F} (ht : WellFormed t) {level lvSub : Nat} (lv : Nat) {c : Col}
    (hc : t.Has c level lvSub) :
    (lvSub < lv → AddsColumn Tw t (t.addZeroPadUpcast level lvSub lv c) level lv fun w f =>
        (∀ pos < 2 ^ lvSub, f (2 ^ lv - 2 ^ lvSub + pos) = w c.idx pos) ∧
        ∀ pos < 2 ^ lv - 2 ^ lvSub, f pos = 0) ∧
    (¬ lvSub < lv → t.addZeroPadUpcast level lvSub lv c = none) := by
  refine ⟨fun h => ?_, fun h => by rw [Table.addZeroPadUpcast, if_neg h]⟩
  rw [Table.addZeroPadUpcast, if_pos h]
  have hp := Nat.two_pow_pos lvSub
  have hp' := Nat.two_pow_pos (lv - lvSub)
  have hs : 2 ^ lv = 2 ^ (lv - lvSub) * 2 ^ lvSub := by rw [← pow_add]; congr 1; omega
  have hm : (2 ^ (lv - lvSub) - 1) * 2 ^ lvSub = 2 ^ lv - 2 ^ lvSub := by rw [Nat.sub_mul, ← hs, Nat.one_mul]
  obtain ⟨c', t', g1, g2, g3, g4, g5, g6, g7⟩ := (zeroPadded_ok Tw ht hc h
    (show 2 ^ (lv - lvSub) - 1 < 2 ^ (lv - lvSub) by omega)).ok
  refine ⟨c', t', g1, g2, g3, g4, g5, g6, fun w => (g7 w).trans (and_congr_right fun _ => ?_)⟩
  rw [hm]
  refine and_congr_right fun _ => forall_congr' fun pos => ?_
  have hdiv : pos < 2 ^ lv → (pos / 2 ^ lvSub ≠ 2 ^ (lv - lvSub) - 1 ↔ pos < 2 ^ lv - 2 ^ lvSub) := by
    intro hpos
    rw [← hm, ← Nat.div_lt_iff_lt_mul hp]
    have : pos / 2 ^ lvSub < 2 ^ (lv - lvSub) := by
      rw [Nat.div_lt_iff_lt_mul hp, ← hs]; exact hpos
    omega
  constructor
  · intro hh hpos
    have hlt : pos < 2 ^ lv := by omega
    exact hh hlt ((hdiv hlt).2 hpos)
  · intro hh hpos hne
    exact hh ((hdiv hpos).1 hne)

/-- **C54.** `add_constant`: the cell is the given array, when the values are in the field. -/
theorem C54_constant (Tw : Tower F) {t : Table F} (ht : WellFormed t) {level lv : Nat} {ks : List F}
    (hk : ks.length = 2 ^ lv) (hf : ∀ k ∈ ks, Tw.sub level k) :
    AddsColumn Tw t (t.addConstant level lv ks) level lv fun _ f => ∀ pos (h : pos < ks.length), f pos = ks[pos] := by
  refine .of ht (addConstant_ok Tw t level lv hk) fun c w hw => ?_
  constructor
  · rintro ⟨-, h⟩ pos hpos
    have := h pos (hk ▸ hpos)
    rw [List.getElem?_eq_getElem hpos] at this
    exact (Option.some.inj this).symm
  · intro h
    refine ⟨fun pos hpos => ?_, fun pos hpos => ?_⟩
    · rw [h pos (hk ▸ hpos)]; exact hf _ (List.getElem_mem _)
    · rw [h pos (hk ▸ hpos), List.getElem?_eq_getElem (hk ▸ hpos)]

/-- **C54.** `add_packed`: every `2^(level - levelSub)` values of the inner cell are the coordinates of one value of the
new cell; only conversions to a higher level that keep the number of bits are accepted. -/
theorem C54_packed (Tw : Tower F) {t : Table F} (ht : WellFormed t) {levelSub lvSub : Nat} (level lv : Nat)
    (hh : level ≤ Tw.height) {c : Col} (hc : t.Has c levelSub lvSub) :
    (levelSub < level ∧ lv < lvSub ∧ level + lv = levelSub + lvSub →
      AddsColumn Tw t (t.addPacked levelSub lvSub level lv c) level lv fun w f => ∀ pos < 2 ^ lv, f pos =
        ∑ e ∈ range (2 ^ (level - levelSub)),
          w c.idx (e + 2 ^ (level - levelSub) * pos) * Tw.basis (e * 2 ^ levelSub)) ∧
    (¬ (levelSub < level ∧ lv < lvSub ∧ level + lv = levelSub + lvSub) →
      t.addPacked levelSub lvSub level lv c = none) := by
  refine ⟨fun ⟨h, h', h''⟩ => .of ht (addPacked_ok Tw t hc h h' h'') fun c' w hw => ?_,
    fun h => by rw [Table.addPacked, if_neg h]⟩
  refine ⟨fun g => g.2, fun g => ⟨fun pos hpos => ?_, g⟩⟩
  rw [g pos hpos]
  refine Tw.sum_mem level _ fun e he => Tw.sub_mul _ _ _ (Tw.mono h.le (hc.mem hw ?_)) (Tw.basis_sub level hh _ ?_)
  · have hs : 2 ^ lvSub = 2 ^ (level - levelSub) * 2 ^ lv := by rw [← pow_add]; congr 1; omega
    have h5 : 2 ^ (level - levelSub) * (pos + 1) ≤ 2 ^ (level - levelSub) * 2 ^ lv := Nat.mul_le_mul_left _ hpos
    rw [Nat.mul_add, Nat.mul_one] at h5
    omega
  · have hs : 2 ^ level = 2 ^ (level - levelSub) * 2 ^ levelSub := by rw [← pow_add]; congr 1; omega
    rw [hs]
    exact Nat.mul_lt_mul_of_pos_right he (Nat.two_pow_pos _)

/-- **C54.** `add_shifted`: every block of `2^b` values of the new cell is the block of the inner cell, shifted; block
sizes above the size of the cell and offsets above the size of a block are refused. -/
theorem C54_shifted (Tw : Tower F) {t : Table F} (ht : WellFormed t) {level lv : Nat} {c : Col}
    (hc : t.Has c level lv) (b o : Nat) (v : Transparent.ShiftVariant) :
    (b ≤ lv ∧ o ≤ 2 ^ b → AddsColumn Tw t (t.addShifted level lv c b o v) level lv fun w f =>
      ∀ k < 2 ^ (lv - b), ∀ y < 2 ^ b,
        (∀ x < 2 ^ b, Transparent.ShiftRel v b o x y → f (k * 2 ^ b + y) = w c.idx (k * 2 ^ b + x)) ∧
        ((∀ x < 2 ^ b, ¬ Transparent.ShiftRel v b o x y) → f (k * 2 ^ b + y) = 0)) ∧
    (¬ (b ≤ lv ∧ o ≤ 2 ^ b) → t.addShifted level lv c b o v = none) := by
  refine ⟨fun ⟨hb, ho⟩ => .of ht (addShifted_ok Tw t hc hb ho v) fun c' w hw => ?_,
    fun h => by rw [Table.addShifted, if_neg h]⟩
  have hp := Nat.two_pow_pos b
  have hs : 2 ^ lv = 2 ^ (lv - b) * 2 ^ b := by rw [← pow_add]; congr 1; omega
  -- one value of a shifted block
  have hone : ∀ (g : Nat → F) (y : Nat) (z : F), y < 2 ^ b → (z = Transparent.shifted v b o g y ↔
      (∀ x < 2 ^ b, Transparent.ShiftRel v b o x y → z = g x) ∧
        ((∀ x < 2 ^ b, ¬ Transparent.ShiftRel v b o x y) → z = 0)) := by
    intro g y z hy
    cases v with
    | circularLeft =>
      simp only [Transparent.shifted, Transparent.ShiftRel]
      have hx0 : ((y + 2 ^ b - o) % 2 ^ b + o) % 2 ^ b = y := by
        rw [Nat.mod_add_mod, show y + 2 ^ b - o + o = y + 2 ^ b by omega, Nat.add_mod_right, Nat.mod_eq_of_lt hy]
      have huniq : ∀ x < 2 ^ b, (x + o) % 2 ^ b = y → x = (y + 2 ^ b - o) % 2 ^ b := by
        intro x hx hxy
        rcases Nat.lt_or_ge (x + o) (2 ^ b) with h | h
        · rw [Nat.mod_eq_of_lt h] at hxy
          rw [show y + 2 ^ b - o = x + 2 ^ b by omega, Nat.add_mod_right, Nat.mod_eq_of_lt hx]
        · rw [Nat.mod_eq_sub_mod h] at hxy
          rcases Nat.lt_or_ge (x + o - 2 ^ b) (2 ^ b) with h' | h'
          · rw [Nat.mod_eq_of_lt h'] at hxy
            rw [show y + 2 ^ b - o = x by omega, Nat.mod_eq_of_lt hx]
          · omega
      constructor
      · intro h
        exact ⟨fun x hx hxy => by rw [h, ← huniq x hx hxy], fun hno => absurd hx0 (hno _ (Nat.mod_lt _ hp))⟩
      · intro h
        exact h.1 _ (Nat.mod_lt _ hp) hx0
    | logicalLeft =>
      simp only [Transparent.shifted, Transparent.ShiftRel]
      split
      · rename_i h
        refine ⟨fun e => ⟨fun x hx hxy => by rw [e, show y - o = x by omega], fun hno => absurd (show y - o + o = y by omega) (hno _ (by omega))⟩,
          fun e => e.1 _ (by omega) (by omega)⟩
      · rename_i h
        exact ⟨fun e => ⟨fun x hx hxy => by omega, fun _ => e⟩, fun e => e.2 fun x hx hxy => by omega⟩
    | logicalRight =>
      simp only [Transparent.shifted, Transparent.ShiftRel]
      split
      · rename_i h
        refine ⟨fun e => ⟨fun x hx hxy => by rw [e, hxy], fun hno => absurd rfl (hno _ h)⟩, fun e => e.1 _ h rfl⟩
      · rename_i h
        exact ⟨fun e => ⟨fun x hx hxy => by omega, fun _ => e⟩, fun e => e.2 fun x hx hxy => by omega⟩
  have hpos : ∀ k < 2 ^ (lv - b), ∀ y < 2 ^ b, k * 2 ^ b + y < 2 ^ lv := by
    intro k hk y hy
    have h5 : (k + 1) * 2 ^ b ≤ 2 ^ (lv - b) * 2 ^ b := Nat.mul_le_mul_right _ hk
    rw [Nat.add_mul] at h5
    omega
  have hblock : ∀ pos < 2 ^ lv, pos / 2 ^ b < 2 ^ (lv - b) := by
    intro pos h
    rw [Nat.div_lt_iff_lt_mul hp, ← hs]; exact h
  constructor
  · rintro ⟨-, h⟩ k hk y hy
    have := h _ (hpos k hk y hy)
    rw [show (k * 2 ^ b + y) / 2 ^ b = k by rw [Nat.mul_comm, Nat.mul_add_div hp, Nat.div_eq_of_lt hy, Nat.add_zero],
      show (k * 2 ^ b + y) % 2 ^ b = y by rw [Nat.mul_comm, Nat.mul_add_mod, Nat.mod_eq_of_lt hy]] at this
    have := (hone _ y _ hy).1 this
    refine ⟨fun x hx hxy => ?_, this.2⟩
    rw [this.1 x hx hxy, Nat.mul_comm, Nat.add_comm]
  · intro h
    have key : ∀ pos < 2 ^ lv, w c'.idx pos =
        Transparent.shifted v b o (fun x => w c.idx (x + 2 ^ b * (pos / 2 ^ b))) (pos % 2 ^ b) := by
      intro pos hp'
      have := h (pos / 2 ^ b) (hblock pos hp') (pos % 2 ^ b) (Nat.mod_lt _ hp)
      rw [show pos / 2 ^ b * 2 ^ b + pos % 2 ^ b = pos by rw [Nat.mul_comm]; exact Nat.div_add_mod _ _] at this
      refine (hone _ _ _ (Nat.mod_lt _ hp)).2 ⟨fun x hx hxy => ?_, this.2⟩
      rw [this.1 x hx hxy, Nat.mul_comm, Nat.add_comm]
    refine ⟨fun pos hp' => ?_, key⟩
    have := h (pos / 2 ^ b) (hblock pos hp') (pos % 2 ^ b) (Nat.mod_lt _ hp)
    rw [show pos / 2 ^ b * 2 ^ b + pos % 2 ^ b = pos by rw [Nat.mul_comm]; exact Nat.div_add_mod _ _] at this
    by_cases hex : ∃ x < 2 ^ b, Transparent.ShiftRel v b o x (pos % 2 ^ b)
    · obtain ⟨x, hx, hxy⟩ := hex
      rw [this.1 x hx hxy]
      exact hc.mem hw (hpos _ (hblock pos hp') x hx)
    · rw [this.2 fun x hx hxy => hex ⟨x, hx, hxy⟩]
      exact Tw.zero_mem level

/-- **C54.** `add_static_exp`: the cell is the power of the base with the number in the given columns of bits, least
significant first, as exponent; more bits than the field has are refused. -/
theorem C54_static_exp (Tw : Tower F) {t : Table F} (ht : WellFormed t) {level : Nat} {bits : List Col}
    (hb : ∀ c ∈ bits, t.Has c 0 0) {base : F} (hbase : Tw.sub level base) :
    (bits.length ≤ 2 ^ level → AddsColumn Tw t (t.addStaticExp level bits base) level 0 fun w f =>
      f 0 = base ^ wide w bits) ∧
    (¬ bits.length ≤ 2 ^ level → t.addStaticExp level bits base = none) := by
  refine ⟨fun h => .of ht (addStaticExp_ok Tw t hb h base) fun c w hw => ⟨fun g => g.2, fun g => ⟨fun pos hpos => ?_, g⟩⟩,
    fun h => by rw [Table.addStaticExp, if_neg h]⟩
  have : pos = 0 := by simpa using hpos
  rw [this, g]
  exact Tw.pow_mem level _ hbase

/-- **C54.** `add_dynamic_exp`: as `add_static_exp`, with the base in a column. -/
theorem C54_dynamic_exp (Tw : Tower F) {t : Table F} (ht : WellFormed t) {level : Nat} {bits : List Col}
    (hb : ∀ c ∈ bits, t.Has c 0 0) {base : Col} (hbase : t.Has base level 0) :
    (bits.length ≤ 2 ^ level → AddsColumn Tw t (t.addDynamicExp level bits base) level 0 fun w f =>
      f 0 = w base.idx 0 ^ wide w bits) ∧
    (¬ bits.length ≤ 2 ^ level → t.addDynamicExp level bits base = none) := by
  refine ⟨fun h => .of ht (addDynamicExp_ok Tw t hb h hbase) fun c w hw =>
    ⟨fun g => g.2, fun g => ⟨fun pos hpos => ?_, g⟩⟩, fun h => by rw [Table.addDynamicExp, if_neg h]⟩
  have : pos = 0 := by simpa using hpos
  rw [this, g]
  exact Tw.pow_mem level _ (hbase.mem hw (by simp))

/-- **C54.** `add_computed`: for every expression over the columns of the partition, the values of the new cell are those
of the expression on the values of the other columns at the same position, whether the column is virtual (expressions of
degree at most one) or committed and constrained. -/
theorem C54_computed [CharP F 2] (Tw : Tower F) {t : Table F} (ht : WellFormed t) (level lv : Nat) {e : Circuit F}
    (he : Built e) (hv : nVars e ≤ (t.partitions lv).columns.length) :
    AddsColumn Tw t (t.addComputed level lv e) level lv fun w f =>
      ∀ pos < 2 ^ lv, Tw.sub level (f pos) ∧ evaluate e (t.query lv w pos) = some (f pos) := by
  have htot : ∀ w pos, ∃ a, evaluate e (t.query lv w pos) = some a := fun w pos =>
    (C21_evaluate_total e he).1 _ (by rw [Table.query, List.length_map]; exact hv)
  choose f hf using htot
  refine .of ht (addComputed_ok Tw ht level ⟨he, hv, hf⟩) fun c w hw => ?_
  constructor
  · rintro ⟨h1, h2⟩ pos hpos
    exact ⟨h1 pos hpos, by rw [hf, h2 pos hpos]⟩
  · intro h
    refine ⟨fun pos hpos => (h pos hpos).1, fun pos hpos => ?_⟩
    have := (h pos hpos).2
    rw [hf] at this
    exact (Option.some.inj this).symm

/-- **C54.** `assert_zero` keeps exactly the rows in which the expression is zero at every position of the cells, and
`assert_nonzero` those in which the column has no zero. -/
theorem C54_assertions (Tw : Tower F) {t : Table F} (ht : WellFormed t) :
    (∀ (lv : Nat) (e : Circuit F), Built e → nVars e ≤ (t.partitions lv).columns.length →
      ∃ t', t.assertZero lv e = some t' ∧ WellFormed t' ∧ (∀ c l v, t.Has c l v → t'.Has c l v) ∧
        ∀ w, RowHolds Tw t' w ↔ RowHolds Tw t w ∧ ∀ pos < 2 ^ lv, evaluate e (t.query lv w pos) = some 0) ∧
    ∀ (c : Col) (level lv : Nat), t.Has c level lv →
      ∃ t', t.assertNonzero c = some t' ∧ WellFormed t' ∧ (∀ c l v, t.Has c l v → t'.Has c l v) ∧
        ∀ w, RowHolds Tw t' w ↔ RowHolds Tw t w ∧ ∀ pos < 2 ^ lv, w c.idx pos ≠ 0 := by
  constructor
  · intro lv e he hv
    have htot : ∀ w pos, ∃ a, evaluate e (t.query lv w pos) = some a := fun w pos =>
      (C21_evaluate_total e he).1 _ (by rw [Table.query, List.length_map]; exact hv)
    choose f hf using htot
    obtain ⟨t', h1, h2, h3⟩ := assertZero_ok Tw (⟨he, hv, hf⟩ : Ev t lv e f)
    refine ⟨t', h1, h3.wf ht, fun c l v hc => hc.ext h3.ext, fun w => (h3.holds ht w).trans ?_⟩
    refine and_congr_right fun _ => forall_congr' fun pos => imp_congr_right fun _ => ?_
    rw [hf, Option.some_inj]
  · intro c level lv hc
    obtain ⟨t', h1, h2, h3⟩ := assertNonzero_ok Tw hc
    exact ⟨t', h1, h3.wf ht, fun c l v hc => hc.ext h3.ext, h3.holds ht⟩

/-- The hypotheses are met: a well-formed table with a column of two bits, and a row of it. -/
example : ∃ (t : Table (Field.T 7)) (x : Col), WellFormed t ∧ t.Has x 0 1 ∧
    ∃ w : Row (Field.T 7), RowHolds tower128 t w ∧ w x.idx 0 = 0 ∧ w x.idx 1 = 1 := by
  obtain ⟨cs, t, h1, h2, h3, h4, h5⟩ := demo_table tower128 1 1 fun _ pos => decide (pos = 1)
  obtain ⟨x, hx⟩ : ∃ x, cs[0]? = some x := ⟨_, List.getElem?_eq_getElem (by omega)⟩
  refine ⟨t, x, h3, (h4 0 x hx).2, _, h5, ?_, ?_⟩
  · simp
  · simp

end Verif.M3
