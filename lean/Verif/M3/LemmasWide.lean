import Verif.M3.LemmasAdd

/-! Lemmas on the gadgets on columns of single bits: `WideAdd`, `Incr` and `WideSub`. -/

set_option linter.dupNamespace false
set_option linter.unusedSectionVars false

namespace Verif.M3

open Finset Verif.Arith

variable {F : Type} [Field F] [DecidableEq F]

/-- The bit in the `j`-th of the columns. -/
def val (w : Row F) (cs : List Col) (j : Nat) : F := (cs[j]?.map fun c => w c.idx 0).getD 0

theorem val_get {w : Row F} {cs : List Col} {j : Nat} {c : Col} (h : cs[j]? = some c) : val w cs j = w c.idx 0 := by
  rw [val, h]; rfl

theorem val_cons_zero (w : Row F) (c : Col) (cs : List Col) : val w (c :: cs) 0 = w c.idx 0 := rfl
theorem val_cons_succ (w : Row F) (c : Col) (cs : List Col) (j : Nat) : val w (c :: cs) (j + 1) = val w cs j := rfl

theorem wide_eq (w : Row F) (cs : List Col) : wide w cs = num ((List.range cs.length).map (val w cs)) := by
  rw [wide]
  congr 1
  apply List.ext_getElem?
  intro j
  rw [List.getElem?_map, List.getElem?_map]
  by_cases hj : j < cs.length
  · rw [List.getElem?_range hj, List.getElem?_eq_getElem hj]
    show some _ = some _
    rw [val_get (List.getElem?_eq_getElem hj)]
  · rw [List.getElem?_eq_none (by omega), List.getElem?_eq_none (by simpa using hj)]
    rfl

/-- `n` columns of single bits. -/
structure HasAll (t : Table F) (cs : List Col) (n : Nat) : Prop where
  length : cs.length = n
  has : ∀ (k : Nat) (c : Col), cs[k]? = some c → t.Has c 0 0

theorem HasAll.get {t : Table F} {cs : List Col} {n : Nat} (h : HasAll t cs n) {j : Nat} (hj : j < n) :
    ∃ c, cs[j]? = some c ∧ t.Has c 0 0 := by
  have := List.getElem?_eq_getElem (l := cs) (i := j) (by rw [h.length]; exact hj)
  exact ⟨_, this, h.has _ _ this⟩

theorem HasAll.ext {t t' : Table F} {cs : List Col} {n : Nat} (h : HasAll t cs n) (he : Ext t t') : HasAll t' cs n :=
  ⟨h.length, fun k c hk => (h.has k c hk).ext he⟩

theorem HasAll.isBit {Tw : Tower F} {t : Table F} {cs : List Col} {n : Nat} (h : HasAll t cs n) {w : Row F}
    (hw : RowHolds Tw t w) {j : Nat} (hj : j < n) : IsBit (val w cs j) := by
  obtain ⟨c, hc, hh⟩ := h.get hj
  rw [val_get hc]
  exact hh.isBit hw (by norm_num)

theorem HasAll.val_congr {t : Table F} {cs : List Col} {n : Nat} (h : HasAll t cs n) {w w' : Row F}
    (hw : ∀ i < t.columns.length, ∀ pos, w' i pos = w i pos) {j : Nat} (hj : j < n) : val w' cs j = val w cs j := by
  obtain ⟨c, hc, hh⟩ := h.get hj
  rw [val_get hc, val_get hc, hw _ hh.lt]

theorem HasAll.mem {t : Table F} {cs : List Col} {n : Nat} (h : HasAll t cs n) {c : Col} (hc : c ∈ cs) : t.Has c 0 0 := by
  obtain ⟨k, hk, rfl⟩ := List.getElem_of_mem hc
  exact h.has k _ (List.getElem?_eq_getElem hk)

theorem HasAll.wide_congr {t : Table F} {cs : List Col} {n : Nat} (h : HasAll t cs n) {w w' : Row F}
    (hw : ∀ i < t.columns.length, ∀ pos, w' i pos = w i pos) : wide w' cs = wide w cs := by
  rw [wide, wide]
  congr 1
  exact List.map_congr_left fun c hc => hw _ (h.mem hc).lt _

theorem NewCols.hasAll {t t' : Table F} {cs : List Col} {n : Nat} (h : NewCols t t' cs n 0 0) : HasAll t' cs n :=
  ⟨h.length, fun k c hk => (h.col k c hk).2⟩

theorem isBit_of_inField {Tw : Tower F} {w : Row F} {c : Col} (h : InField Tw 0 0 c w) : IsBit (w c.idx 0) :=
  isBit_of_sub (h 0 (by norm_num))

theorem inField_of_isBit {Tw : Tower F} {w : Row F} {c : Col} (h : IsBit (w c.idx 0)) : InField Tw 0 0 c w := by
  intro pos hp
  have : pos = 0 := by simpa using hp
  rw [this]
  exact sub_of_isBit h

theorem forall_lt_one {P : Nat → Prop} : (∀ pos < 2 ^ 0, P pos) ↔ P 0 :=
  ⟨fun h => h 0 (by norm_num), fun h pos hp => (by simpa using hp : pos = 0) ▸ h⟩

variable [CharP F 2]

/-! ### The constraints -/

theorem wideSum_ok (Tw : Tower F) {t : Table F} (ht : WellFormed t) {n : Nat} {x y c : List Col} (hx : HasAll t x n)
    (hy : HasAll t y n) (hc : HasAll t c n) (commit : Bool) :
    ∃ z t', wideSum t n x y c commit = some (z, t') ∧ NewCols t t' z n 0 0 ∧
      Adds Tw t t' fun w => ∀ j < n, val w z j = val w x j + val w y j + val w c j := by
  have hbit : ∀ w, RowHolds Tw t w → ∀ j < n, IsBit (val w x j + val w y j + val w c j) := fun w hw j hj =>
    isBit_add (isBit_add (hx.isBit hw hj) (hy.isBit hw hj)) (hc.isBit hw hj)
  cases commit with
  | true =>
    obtain ⟨z, t1, a1, a2, a3⟩ := addCommittedMultiple_ok Tw ht 0 0 n
    obtain ⟨t2, b1, b2, b3⟩ := forEach_ok Tw (f := wideSumZero x y c z)
      (fun j w => val w x j + val w y j + val w c j + val w z j = 0) n 0 t1 (a3.wf ht) (by
        intro j _ hj t' he hw'
        have hj : j < n := by omega
        obtain ⟨xj, ex, hxj⟩ := hx.get hj
        obtain ⟨yj, ey, hyj⟩ := hy.get hj
        obtain ⟨cj, ec, hcj⟩ := hc.get hj
        obtain ⟨zj, ez, hzj⟩ := a2.hasAll.get hj
        have he' := a3.ext.trans he
        obtain ⟨t2, h1, h2, h3⟩ := assertZero_ok Tw (Ev.sub (sumExpr_ev (hxj.ext he') (hyj.ext he') (hcj.ext he'))
          (Ev.col (hzj.ext he)))
        refine ⟨t2, ?_, by rw [h2], h3.congr fun w _ => ?_⟩
        · rw [wideSumZero, ex, ey, ec, ez]; exact h1
        · rw [forall_lt_one, val_get ex, val_get ey, val_get ec, val_get ez])
    refine ⟨z, t2, ?_, ⟨a2.length, by rw [b2, a2.len], fun k c hk => ⟨(a2.col k c hk).1, (a2.col k c hk).2.ext b3.ext⟩⟩,
      (a3.trans b3).congr fun w hw => ?_⟩
    · rw [wideSum, if_pos rfl, a1, Option.bind_some]
      dsimp only
      rw [b1, Option.bind_some]
    · simp only [Nat.zero_add, CharTwo.add_eq_zero]
      refine ⟨fun h j hj => (h.2 j hj).symm, fun h => ⟨fun c' hc' => ?_, fun j hj => (h j hj).symm⟩⟩
      obtain ⟨k, hk, rfl⟩ := List.getElem_of_mem hc'
      have hk' : k < n := by rw [← a2.length]; exact hk
      refine inField_of_isBit ?_
      rw [← val_get (w := w) (List.getElem?_eq_getElem hk), h k hk']
      exact hbit w hw k hk'
  | false =>
    obtain ⟨z, t1, a1, a2, a3⟩ := fromFn_ok Tw (f := wideSumColumn x y c) (level := 0) (lv := 0)
      (fun j z w => InField Tw 0 0 z w ∧ w z.idx 0 = val w x j + val w y j + val w c j) n 0 t ht (by
        intro j _ hj t' he hw'
        have hj : j < n := by omega
        obtain ⟨xj, ex, hxj⟩ := hx.get hj
        obtain ⟨yj, ey, hyj⟩ := hy.get hj
        obtain ⟨cj, ec, hcj⟩ := hc.get hj
        obtain ⟨z, t2, h1, h2, h3⟩ := addComputed_ok Tw hw' 0 (sumExpr_ev (hxj.ext he) (hyj.ext he) (hcj.ext he))
        refine ⟨z, t2, ?_, h2, h3.congr fun w _ => ?_⟩
        · rw [wideSumColumn, ex, ey, ec]
          simp only [Option.bind_some]
          rw [h1]
        · rw [val_get ex, val_get ey, val_get ec]
          exact and_congr_right fun _ => forall_lt_one (P := fun pos => w z.idx pos = w xj.idx pos + w yj.idx pos + w cj.idx pos))
    refine ⟨z, t1, a1, a2, a3.congr fun w hw => ?_⟩
    simp only [Nat.zero_add]
    constructor
    · intro h j hj
      obtain ⟨zj, ez, -⟩ := a2.hasAll.get hj
      rw [val_get ez]
      exact (h j zj ez).2
    · intro h k c' hk
      have hkn : k < n := by rw [← a2.length]; exact lt_of_get hk
      have := h k hkn
      rw [val_get hk] at this
      exact ⟨inField_of_isBit (this ▸ hbit w hw k hkn), this⟩

/-- The carries into the bits and out of the last. -/
def chainOf (w : Row F) (n : Nat) (c : List Col) (final : Col) (j : Nat) : F := if j < n then val w c j else w final.idx 0

theorem couts_ok {t : Table F} {n : Nat} {c : List Col} (hc : HasAll t c n) {final : Col} (hf : t.Has final 0 0) {j : Nat}
    (hj : j < n) : ∃ o, couts n c final j = some o ∧ t.Has o 0 0 ∧ ∀ w : Row F, w o.idx 0 = chainOf w n c final (j + 1) := by
  by_cases h : j = n - 1
  · exact ⟨final, by rw [couts, if_neg (by simpa using h)], hf, fun w => by rw [chainOf, if_neg (by omega)]⟩
  · obtain ⟨o, ho, hh⟩ := hc.get (j := j + 1) (by omega)
    exact ⟨o, by rw [couts, if_pos h, ho], hh, fun w => by rw [chainOf, if_pos (by omega), val_get ho]⟩

theorem wideCarry_ok (Tw : Tower F) {t : Table F} (ht : WellFormed t) {n : Nat} {x y c : List Col} (hx : HasAll t x n)
    (hy : HasAll t y n) (hc : HasAll t c n) {final : Col} (hf : t.Has final 0 0) :
    ∃ t', forEach (wideCarryZero n x y c final) 0 n t = some t' ∧ t'.columns.length = t.columns.length ∧
      Adds Tw t t' fun w => ∀ j < n, chainOf w n c final (j + 1) =
        (val w x j + val w c j) * (val w y j + val w c j) + val w c j := by
  obtain ⟨t2, b1, b2, b3⟩ := forEach_ok Tw (f := wideCarryZero n x y c final)
    (fun j w => (val w x j + val w c j) * (val w y j + val w c j) + val w c j + chainOf w n c final (j + 1) = 0) n 0 t ht (by
      intro j _ hj t' he hw'
      have hj : j < n := by omega
      obtain ⟨xj, ex, hxj⟩ := hx.get hj
      obtain ⟨yj, ey, hyj⟩ := hy.get hj
      obtain ⟨cj, ec, hcj⟩ := hc.get hj
      obtain ⟨o, eo, ho, hov⟩ := couts_ok hc hf hj
      obtain ⟨t2, h1, h2, h3⟩ := assertZero_ok Tw (carryExpr_ev (hxj.ext he) (hyj.ext he) (hcj.ext he) (ho.ext he))
      refine ⟨t2, ?_, by rw [h2], h3.congr fun w _ => ?_⟩
      · rw [wideCarryZero, ex, ey, ec]
        simp only [Option.bind_some]
        rw [eo]; exact h1
      · rw [forall_lt_one, val_get ex, val_get ey, val_get ec, hov w])
  refine ⟨t2, b1, b2, b3.congr fun w _ => ?_⟩
  simp only [Nat.zero_add, CharTwo.add_eq_zero]
  exact ⟨fun h j hj => (h j hj).symm, fun h j hj => (h j hj).symm⟩

/-- What the columns of `WideAdd` satisfy. -/
structure WideAddRow (w : Row F) (n : Nat) (x y c z : List Col) (final : Col) (carryIn : Option Col) : Prop where
  bits : ∀ j < n, IsBit (val w c j)
  fin : IsBit (w final.idx 0)
  first : 0 < n → ∀ k, carryIn = some k → val w c 0 = w k.idx 0
  sum : ∀ j < n, val w z j = val w x j + val w y j + val w c j
  carry : ∀ j < n, chainOf w n c final (j + 1) = (val w x j + val w c j) * (val w y j + val w c j) + val w c j

theorem WideAdd_new_ok (Tw : Tower F) {t : Table F} (ht : WellFormed t) {n : Nat} {x y : List Col} (hx : HasAll t x n)
    (hy : HasAll t y n) {flags : U32AddFlags} (hf : ∀ c, flags.carryInBit = some c → t.Has c 0 5) :
    ∃ g t', WideAdd.new t n x y flags = some (g, t') ∧ g.xIn = x ∧ g.yIn = y ∧ g.flags = flags ∧
      g.cin.length = n ∧ (∀ (k : Nat) (c : Col), g.cin[k]? = some c → c.idx = t.columns.length + k) ∧
      HasAll t' g.zOut n ∧ (∀ (k : Nat) (c : Col), g.zOut[k]? = some c → c.idx = t.columns.length + n + k) ∧
      t'.Has g.finalCarryOut 0 0 ∧ g.finalCarryOut.idx = t.columns.length + n + n ∧
      t'.columns.length = t.columns.length + n + n + 1 ∧
      Adds Tw t t' fun w => WideAddRow w n x y g.cin g.zOut g.finalCarryOut flags.carryInBit := by
  obtain ⟨c, t1, a1, a2, a3⟩ := fromFn_ok Tw (f := WideAdd.cinColumn flags) (level := 0) (lv := 0)
    (fun j z w => IsBit (w z.idx 0) ∧ (j = 0 → ∀ k, flags.carryInBit = some k → w z.idx 0 = w k.idx 0)) n 0 t ht (by
      intro j _ hj t1 he hw
      by_cases hj0 : j = 0
      · cases hfl : flags.carryInBit with
        | none =>
          obtain ⟨c, t2, h1, h2, h3⟩ := addCommitted_ok Tw t1 0 0
          refine ⟨c, t2, by rw [WideAdd.cinColumn, if_neg (by simpa using hj0), hfl]; exact h1, h2, h3.congr fun w _ => ?_⟩
          exact ⟨fun h => ⟨isBit_of_inField h, fun _ k hk => (by cases hk)⟩, fun h => inField_of_isBit h.1⟩
        | some k =>
          have hk := (hf k hfl).ext he
          obtain ⟨c, t2, h1, h2, h3⟩ := addSelected_ok Tw t1 hk (i := 0) (by norm_num)
          refine ⟨c, t2, by rw [WideAdd.cinColumn, if_neg (by simpa using hj0), hfl]; exact h1, h2, h3.congr fun w _ => ?_⟩
          constructor
          · rintro ⟨h, h'⟩
            refine ⟨isBit_of_inField h, fun _ k' hk' => ?_⟩
            injection hk' with hk'; rw [← hk', h']
          · rintro ⟨h, h'⟩
            exact ⟨inField_of_isBit h, h' hj0 k rfl⟩
      · obtain ⟨c, t2, h1, h2, h3⟩ := addCommitted_ok Tw t1 0 0
        refine ⟨c, t2, by rw [WideAdd.cinColumn, if_pos hj0]; exact h1, h2, h3.congr fun w _ => ?_⟩
        exact ⟨fun h => ⟨isBit_of_inField h, fun h => absurd h hj0⟩, fun h => inField_of_isBit h.1⟩)
  obtain ⟨z, t2, b1, b2, b3⟩ := wideSum_ok Tw (a3.wf ht) (hx.ext a3.ext) (hy.ext a3.ext) a2.hasAll flags.commitZout
  obtain ⟨f, t3, c1, c2, c3⟩ := addCommitted_ok Tw t2 0 0
  have h3 := (a3.trans b3).trans c3
  obtain ⟨t4, d1, d2, d3⟩ := wideCarry_ok Tw (h3.wf ht) (hx.ext h3.ext) (hy.ext h3.ext)
    (a2.hasAll.ext (b3.ext.trans c3.ext)) c2.has
  refine ⟨⟨x, y, c, z, f, flags⟩, t4, ?_, rfl, rfl, rfl, a2.length, fun k c hk => (a2.col k c hk).1,
    b2.hasAll.ext (c3.ext.trans d3.ext), fun k c hk => ?_, c2.has.ext d3.ext, ?_, ?_, (h3.trans d3).congr fun w hw => ?_⟩
  · rw [WideAdd.new, a1, Option.bind_some]
    dsimp only
    rw [b1, Option.bind_some]
    dsimp only
    rw [c1, Option.bind_some]
    dsimp only
    rw [d1, Option.bind_some]
  · rw [(b2.col k c hk).1, a2.len]
  · show f.idx = _; rw [c2.idx, b2.len, a2.len]
  · rw [d2, c2.len, b2.len, a2.len]
  · constructor
    · rintro ⟨⟨⟨h1, h2⟩, h3⟩, h4⟩
      refine ⟨fun j hj => ?_, isBit_of_inField h3, fun hn k hk => ?_, h2, h4⟩
      · obtain ⟨cj, ec, -⟩ := a2.hasAll.get hj
        rw [val_get ec]; exact (h1 j cj ec).1
      · obtain ⟨cj, ec, -⟩ := a2.hasAll.get hn
        rw [val_get ec]; exact (h1 0 cj ec).2 rfl k hk
    · rintro ⟨h1, h2, h3, h4, h5⟩
      refine ⟨⟨⟨fun k c' hk => ?_, h4⟩, inField_of_isBit h2⟩, h5⟩
      have hkn : k < n := by rw [← a2.length]; exact lt_of_get hk
      rw [← val_get (w := w) hk]
      refine ⟨h1 k hkn, fun hk0 q hq => ?_⟩
      have hk0 : k = 0 := by omega
      subst hk0
      exact h3 hkn q hq

/-- What `Incr` says of its columns. -/
structure IncrRow (w : Row F) (n : Nat) (x c z : List Col) (final : Col) : Prop where
  bits : ∀ j < n, IsBit (val w c j)
  zbits : ∀ j < n, IsBit (val w z j)
  fin : IsBit (w final.idx 0)
  first : 0 < n → val w c 0 = 1
  sum : ∀ j < n, val w z j = val w x j + val w c j
  carry : ∀ j < n, chainOf w n c final (j + 1) = val w x j * val w c j

theorem Incr_new_ok (Tw : Tower F) {t : Table F} (ht : WellFormed t) {n : Nat} {x : List Col} (hx : HasAll t x n) :
    ∃ g t', Incr.new t n x = some (g, t') ∧ g.input = x ∧
      g.cin.length = n ∧ (∀ (k : Nat) (c : Col), g.cin[k]? = some c → c.idx = t.columns.length + k) ∧
      HasAll t' g.zout n ∧ (∀ (k : Nat) (c : Col), g.zout[k]? = some c → c.idx = t.columns.length + n + k) ∧
      t'.Has g.finalCarryOut 0 0 ∧ g.finalCarryOut.idx = t.columns.length + n + n ∧
      t'.columns.length = t.columns.length + n + n + 1 ∧
      Adds Tw t t' fun w => IncrRow w n x g.cin g.zout g.finalCarryOut := by
  obtain ⟨c, t1, a1, a2, a3⟩ := fromFn_ok Tw (f := (Incr.cinColumn : Nat → Table F → _)) (level := 0) (lv := 0)
    (fun j z w => IsBit (w z.idx 0) ∧ (j = 0 → w z.idx 0 = 1)) n 0 t ht (by
      intro j _ hj t1 he hw
      by_cases hj0 : j = 0
      · obtain ⟨c, t2, h1, h2, h3⟩ := addConstant_ok Tw t1 0 0 (ks := [1]) rfl
        refine ⟨c, t2, by rw [Incr.cinColumn, if_neg (by simpa using hj0)]; exact h1, h2, h3.congr fun w _ => ?_⟩
        constructor
        · rintro ⟨h, h'⟩
          refine ⟨isBit_of_inField h, fun _ => ?_⟩
          have := h' 0 (by norm_num)
          simpa using this.symm
        · rintro ⟨h, h'⟩
          refine ⟨inField_of_isBit h, fun pos hp => ?_⟩
          have : pos = 0 := by simpa using hp
          rw [this, h' hj0]; rfl
      · obtain ⟨c, t2, h1, h2, h3⟩ := addCommitted_ok Tw t1 0 0
        refine ⟨c, t2, by rw [Incr.cinColumn, if_pos hj0]; exact h1, h2, h3.congr fun w _ => ?_⟩
        exact ⟨fun h => ⟨isBit_of_inField h, fun h => absurd h hj0⟩, fun h => inField_of_isBit h.1⟩)
  obtain ⟨z, t2, b1, b2, b3⟩ := addCommittedMultiple_ok Tw (a3.wf ht) 0 0 n
  obtain ⟨f, t3, c1, c2, c3⟩ := addCommitted_ok Tw t2 0 0
  have h3 := (a3.trans b3).trans c3
  obtain ⟨t4, d1, d2, d3⟩ := forEach_ok Tw (f := Incr.zeros n x c z f)
    (fun j w => val w x j + val w c j + val w z j = 0 ∧ val w x j * val w c j + chainOf w n c f (j + 1) = 0) n 0 t3
    (h3.wf ht) (by
      intro j _ hj t' he hw'
      have hj : j < n := by omega
      obtain ⟨xj, ex, hxj⟩ := (hx.ext (h3.ext.trans he)).get hj
      obtain ⟨cj, ec, hcj⟩ := (a2.hasAll.ext ((b3.ext.trans c3.ext).trans he)).get hj
      obtain ⟨zj, ez, hzj⟩ := (b2.hasAll.ext (c3.ext.trans he)).get hj
      obtain ⟨o, eo, ho, hov⟩ := couts_ok (a2.hasAll.ext ((b3.ext.trans c3.ext).trans he)) (c2.has.ext he) hj
      obtain ⟨t5, e1, e2, e3⟩ := assertZero_ok Tw (Ev.sub (Ev.add (Ev.col hxj) (Ev.col hcj)) (Ev.col hzj))
      obtain ⟨t6, f1, f2, f3⟩ := assertZero_ok Tw (Ev.sub (Ev.mul (Ev.col (hxj.ext e3.ext)) (Ev.col (hcj.ext e3.ext)))
        (Ev.col (ho.ext e3.ext)))
      refine ⟨t6, ?_, by rw [f2, e2], (e3.trans f3).congr fun w _ => ?_⟩
      · rw [Incr.zeros, ex, ec, ez]
        simp only [Option.bind_some]
        rw [eo, Option.bind_some, e1, Option.bind_some]; exact f1
      · rw [forall_lt_one, forall_lt_one, val_get ex, val_get ec, val_get ez, hov w])
  refine ⟨⟨c, x, z, f⟩, t4, ?_, rfl, a2.length, fun k c hk => (a2.col k c hk).1,
    b2.hasAll.ext (c3.ext.trans d3.ext), fun k c hk => ?_, c2.has.ext d3.ext, ?_, ?_, (h3.trans d3).congr fun w hw => ?_⟩
  · rw [Incr.new, a1, Option.bind_some]
    dsimp only
    rw [b1, Option.bind_some]
    dsimp only
    rw [c1, Option.bind_some]
    dsimp only
    rw [d1, Option.bind_some]
  · rw [(b2.col k c hk).1, a2.len]
  · show f.idx = _; rw [c2.idx, b2.len, a2.len]
  · rw [d2, c2.len, b2.len, a2.len]
  · simp only [Nat.zero_add, CharTwo.add_eq_zero]
    constructor
    · rintro ⟨⟨⟨h1, h2⟩, h3⟩, h4⟩
      refine ⟨fun j hj => ?_, fun j hj => ?_, isBit_of_inField h3, fun hn => ?_, fun j hj => (h4 j hj).1.symm,
        fun j hj => (h4 j hj).2.symm⟩
      · obtain ⟨cj, ec, -⟩ := a2.hasAll.get hj
        rw [val_get ec]; exact (h1 j cj ec).1
      · obtain ⟨zj, ez, -⟩ := b2.hasAll.get hj
        rw [val_get ez]; exact isBit_of_inField (h2 zj (List.mem_of_getElem? ez))
      · obtain ⟨cj, ec, -⟩ := a2.hasAll.get hn
        rw [val_get ec]; exact (h1 0 cj ec).2 rfl
    · rintro ⟨h1, h1', h2, h3, h4, h5⟩
      refine ⟨⟨⟨fun k c' hk => ?_, fun c' hc' => ?_⟩, inField_of_isBit h2⟩, fun j hj => ⟨(h4 j hj).symm, (h5 j hj).symm⟩⟩
      · have hkn : k < n := by rw [← a2.length]; exact lt_of_get hk
        rw [← val_get (w := w) hk]
        refine ⟨h1 k hkn, fun hk0 => ?_⟩
        subst hk0
        exact h3 hkn
      · obtain ⟨k, hk, rfl⟩ := List.getElem_of_mem hc'
        refine inField_of_isBit ?_
        rw [← val_get (w := w) (List.getElem?_eq_getElem hk)]
        exact h1' k (by rw [← b2.length]; exact hk)

/-- What `WideSub` says of its columns: nothing about the borrows. -/
structure WideSubRow (w : Row F) (n : Nat) (x y : List Col) (bin : Col) (bout z : List Col) (borrowIn : Option Col) :
    Prop where
  bits : ∀ j < n, IsBit (val w bout j)
  first : w bin.idx 0 = optVal w borrowIn 0
  sum : ∀ j < n, val w z j = val w x j + val w y j + val w (bin :: bout.take (n - 1)) j

theorem WideSub_new_ok (Tw : Tower F) {t : Table F} (ht : WellFormed t) {n : Nat} (hn : 0 < n) {x y : List Col}
    (hx : HasAll t x n) (hy : HasAll t y n) {flags : U32SubFlags} (hf : ∀ c, flags.borrowInBit = some c → t.Has c 0 5) :
    ∃ g t', WideSub.new t n x y flags = some (g, t') ∧ g.xin = x ∧ g.yin = y ∧ g.flags = flags ∧
      HasAll t' g.bout n ∧ (∀ (k : Nat) (c : Col), g.bout[k]? = some c → c.idx = t.columns.length + k) ∧
      g.bin.idx = t.columns.length + n ∧
      HasAll t' g.zout n ∧ (∀ (k : Nat) (c : Col), g.zout[k]? = some c → c.idx = t.columns.length + n + 1 + k) ∧
      g.finalBorrow = (if flags.exposeFinalBorrow then g.bout[n - 1]? else none) ∧
      t'.columns.length = t.columns.length + n + 1 + n ∧
      Adds Tw t t' fun w => WideSubRow w n x y g.bin g.bout g.zout flags.borrowInBit := by
  obtain ⟨bo, t1, a1, a2, a3⟩ := addCommittedMultiple_ok Tw ht 0 0 n
  obtain ⟨bi, t2, b1, b2, b3⟩ : ∃ bi t2, WideSub.binColumn t1 flags = some (bi, t2) ∧ New t1 t2 bi 0 0 ∧
      Adds Tw t1 t2 fun w => w bi.idx 0 = optVal w flags.borrowInBit 0 := by
    cases hfl : flags.borrowInBit with
    | none =>
      obtain ⟨c, t2, h1, h2, h3⟩ := addConstant_ok Tw t1 0 0 (ks := [0]) rfl
      refine ⟨c, t2, by rw [WideSub.binColumn, hfl]; exact h1, h2, h3.congr fun w _ => ?_⟩
      constructor
      · rintro ⟨h, h'⟩
        have := h' 0 (by norm_num)
        simpa [optVal] using this.symm
      · intro h
        have h : w c.idx 0 = 0 := h
        refine ⟨inField_of_isBit (Or.inl h), fun pos hp => ?_⟩
        have : pos = 0 := by simpa using hp
        rw [this, h]; rfl
    | some k =>
      have hk := (hf k hfl).ext a3.ext
      obtain ⟨c, t2, h1, h2, h3⟩ := addSelected_ok Tw t1 hk (i := 0) (by norm_num)
      refine ⟨c, t2, by rw [WideSub.binColumn, hfl]; exact h1, h2, h3.congr fun w hw => ?_⟩
      refine ⟨fun h => h.2, fun h => ⟨inField_of_isBit ?_, h⟩⟩
      have h : w c.idx 0 = w k.idx 0 := h
      rw [h]
      exact hk.isBit hw (by norm_num)
  have hbins : HasAll t2 (bi :: bo.take (n - 1)) n := by
    refine ⟨by simp [a2.length]; omega, fun k c hk => ?_⟩
    cases k with
    | zero => injection hk with hk; rw [← hk]; exact b2.has
    | succ k =>
      have hk : (bo.take (n - 1))[k]? = some c := hk
      have : bo[k]? = some c := by
        rw [List.getElem?_take] at hk
        split at hk
        · exact hk
        · cases hk
      exact (a2.col k c this).2.ext b3.ext
  have h2 := a3.trans b3
  obtain ⟨z, t3, c1, c2, c3⟩ := wideSum_ok Tw (h2.wf ht) (hx.ext h2.ext) (hy.ext h2.ext) hbins flags.commitZout
  obtain ⟨bl, hbl⟩ : ∃ bl, bo[n - 1]? = some bl := ⟨_, List.getElem?_eq_getElem (by rw [a2.length]; omega)⟩
  refine ⟨⟨x, y, bi, bo, z, if flags.exposeFinalBorrow then some bl else none, flags⟩, t3, ?_, rfl, rfl, rfl,
    a2.hasAll.ext (b3.ext.trans c3.ext), fun k c hk => (a2.col k c hk).1, ?_, c2.hasAll, fun k c hk => ?_, ?_, ?_,
    (h2.trans c3).congr fun w hw => ?_⟩
  · rw [WideSub.new, a1, Option.bind_some]
    dsimp only
    rw [b1, Option.bind_some]
    dsimp only
    rw [c1, Option.bind_some]
    dsimp only
    rw [hbl, Option.bind_some]
    split <;> rfl
  · show bi.idx = _; rw [b2.idx, a2.len]
  · rw [(c2.col k c hk).1, b2.len, a2.len]
  · rw [← hbl]
  · rw [c2.len, b2.len, a2.len]
  · constructor
    · rintro ⟨⟨h1, h2⟩, h3⟩
      refine ⟨fun j hj => ?_, h2, h3⟩
      obtain ⟨bj, eb, -⟩ := a2.hasAll.get hj
      rw [val_get eb]; exact isBit_of_inField (h1 bj (List.mem_of_getElem? eb))
    · rintro ⟨h1, h2, h3⟩
      refine ⟨⟨fun c' hc' => ?_, h2⟩, h3⟩
      obtain ⟨k, hk, rfl⟩ := List.getElem_of_mem hc'
      refine inField_of_isBit ?_
      rw [← val_get (w := w) (List.getElem?_eq_getElem hk)]
      exact h1 k (by rw [← a2.length]; exact hk)

/-! ### Soundness -/

theorem wideAdd_sound {w : Row F} {n : Nat} {x y c z : List Col} {final : Col} {carryIn : Option Col}
    (h : WideAddRow w n x y c z final carryIn) (hn : 0 < n) (hx : x.length = n) (hy : y.length = n) (hz : z.length = n)
    (hxb : ∀ j < n, IsBit (val w x j)) (hyb : ∀ j < n, IsBit (val w y j)) :
    wide w z + 2 ^ n * bit (w final.idx 0) = wide w x + wide w y + bit (val w c 0) := by
  have := (add_chain (x := val w x) (y := val w y) (c := chainOf w n c final) (n := n) hxb hyb
    (by rw [chainOf, if_pos hn]; exact h.bits 0 hn) (fun j hj => by
      rw [h.carry j hj]; simp only [chainOf, if_pos hj])).2
  rw [wide_eq, wide_eq, wide_eq, hx, hy, hz]
  rw [show chainOf w n c final n = w final.idx 0 by rw [chainOf, if_neg (by omega)],
    show chainOf w n c final 0 = val w c 0 by rw [chainOf, if_pos hn]] at this
  rw [← this]
  congr 2
  refine List.map_congr_left fun j hj => ?_
  have hj := List.mem_range.1 hj
  rw [h.sum j hj, chainOf, if_pos hj]

theorem incr_sound {w : Row F} {n : Nat} {x c z : List Col} {final : Col} (h : IncrRow w n x c z final) (hn : 0 < n)
    (hx : x.length = n) (hz : z.length = n) (hxb : ∀ j < n, IsBit (val w x j)) :
    wide w z + 2 ^ n * bit (w final.idx 0) = wide w x + 1 := by
  have := (add_chain (x := val w x) (y := fun _ => 0) (c := chainOf w n c final) (n := n) hxb (fun _ _ => isBit_zero)
    (by rw [chainOf, if_pos hn]; exact h.bits 0 hn) (fun j hj => by
      rw [h.carry j hj]; simp only [chainOf, if_pos hj]
      rcases h.bits j hj with hb | hb <;> rw [hb] <;> simp
      linear_combination (-1 : F) * (two_zero (F := F)))).2
  rw [wide_eq, wide_eq, hx, hz]
  rw [show chainOf w n c final n = w final.idx 0 by rw [chainOf, if_neg (by omega)],
    show chainOf w n c final 0 = 1 by rw [chainOf, if_pos hn, h.first hn]] at this
  have hzero : ∀ m, num ((List.range m).map fun _ : Nat => (0 : F)) = 0 := by
    intro m
    induction m with
    | zero => rfl
    | succ m ih => rw [num_succ, ih]; simp
  rw [hzero, bit_one, Nat.add_zero] at this
  rw [← this]
  congr 2
  refine List.map_congr_left fun j hj => ?_
  have hj := List.mem_range.1 hj
  rw [h.sum j hj, chainOf, if_pos hj, add_zero]

/-! ### The loops of `populate` -/

/-- Writing to two lists of columns, the first of each in turn. -/
def writes : List Col → List Col → (Nat → F) → (Nat → F) → Row F → Row F
  | c :: cs, z :: zs, u, v, acc => writes cs zs (fun j => u (j + 1)) (fun j => v (j + 1)) (setBit (setBit acc c (u 0)) z (v 0))
  | _, _, _, _, acc => acc

theorem writes_congr : ∀ {cs zs : List Col} {u v u' v' : Nat → F} {acc : Row F},
    (∀ j, u j = u' j) → (∀ j, v j = v' j) → writes cs zs u v acc = writes cs zs u' v' acc := by
  intro cs zs u v u' v' acc hu hv
  rw [funext hu, funext hv]

/-- The value of every cell after the writes. -/
theorem writes_val : ∀ {n a b : Nat} {cs zs : List Col} {u v : Nat → F} {acc : Row F}, cs.length = n → zs.length = n →
    (∀ (k : Nat) (c : Col), cs[k]? = some c → c.idx = a + k) → (∀ (k : Nat) (c : Col), zs[k]? = some c → c.idx = b + k) →
    (a + n ≤ b ∨ b + n ≤ a) →
    (∀ j < n, val (writes cs zs u v acc) cs j = u j) ∧ (∀ j < n, val (writes cs zs u v acc) zs j = v j) ∧
    ∀ i, (i < a ∨ a + n ≤ i) → (i < b ∨ b + n ≤ i) → ∀ pos, writes cs zs u v acc i pos = acc i pos
  | 0, a, b, cs, zs, u, v, acc, hc, hz, _, _, _ => by
    rw [List.length_eq_zero_iff.1 hc, List.length_eq_zero_iff.1 hz]
    exact ⟨fun j hj => absurd hj (by omega), fun j hj => absurd hj (by omega), fun i _ _ pos => rfl⟩
  | n + 1, a, b, c :: cs, z :: zs, u, v, acc, hc, hz, hca, hzb, hab => by
    have hc' : c.idx = a := hca 0 c rfl
    have hz' : z.idx = b := hzb 0 z rfl
    obtain ⟨h1, h2, h3⟩ := writes_val (n := n) (a := a + 1) (b := b + 1) (cs := cs) (zs := zs)
      (u := fun j => u (j + 1)) (v := fun j => v (j + 1)) (acc := setBit (setBit acc c (u 0)) z (v 0))
      (by simpa using hc) (by simpa using hz)
      (fun k c' hk => by rw [hca (k + 1) c' hk]; omega) (fun k c' hk => by rw [hzb (k + 1) c' hk]; omega)
      (by omega)
    have hrw : writes (c :: cs) (z :: zs) u v acc =
      writes cs zs (fun j => u (j + 1)) (fun j => v (j + 1)) (setBit (setBit acc c (u 0)) z (v 0)) := rfl
    rw [hrw]
    refine ⟨fun j hj => ?_, fun j hj => ?_, fun i hi hi' pos => ?_⟩
    · cases j with
      | zero =>
        rw [val_cons_zero, h3 c.idx (by omega) (by omega), setBit, if_neg (by omega), setBit, if_pos ⟨rfl, rfl⟩]
      | succ j => rw [val_cons_succ]; exact h1 j (by omega)
    · cases j with
      | zero => rw [val_cons_zero, h3 z.idx (by omega) (by omega), setBit, if_pos ⟨rfl, rfl⟩]
      | succ j => rw [val_cons_succ]; exact h2 j (by omega)
    · rw [h3 i (by omega) (by omega), setBit, if_neg (by omega), setBit, if_neg (by omega)]
  | _ + 1, _, _, [], _, _, _, _, hc, _, _, _, _ => by simp at hc
  | _ + 1, _, _, _ :: _, [], _, _, _, _, hz, _, _, _ => by simp at hz

theorem addChain_shift (x y : Nat → F) (c : F) : ∀ j, addChain x y c (j + 1) =
    addChain (fun j => x (j + 1)) (fun j => y (j + 1)) (addChain x y c 1) j
  | 0 => rfl
  | j + 1 => by
    rw [addChain, addChain_shift x y c j]
    rfl

theorem wideAdd_loop : ∀ {n : Nat} {w : Row F} {xs ys cs zs : List Col} {carry : F} {acc : Row F}, xs.length = n →
    ys.length = n → cs.length = n → zs.length = n →
    WideAdd.loop w xs ys cs zs carry acc =
      (writes cs zs (addChain (val w xs) (val w ys) carry)
        (fun j => val w xs j + val w ys j + addChain (val w xs) (val w ys) carry j) acc,
       addChain (val w xs) (val w ys) carry n)
  | 0, w, xs, ys, cs, zs, carry, acc, hx, hy, hc, hz => by
    rw [List.length_eq_zero_iff.1 hx, List.length_eq_zero_iff.1 hy, List.length_eq_zero_iff.1 hc,
      List.length_eq_zero_iff.1 hz]
    rfl
  | n + 1, w, x :: xs, y :: ys, c :: cs, z :: zs, carry, acc, hx, hy, hc, hz => by
    rw [WideAdd.loop]
    rw [wideAdd_loop (n := n) (by simpa using hx) (by simpa using hy) (by simpa using hc) (by simpa using hz)]
    refine Prod.ext ?_ ?_
    · refine writes_congr (fun j => ?_) (fun j => ?_)
      · exact (addChain_shift (F := F) (val w (x :: xs)) (val w (y :: ys)) carry j).symm
      · exact congrArg _ (addChain_shift (F := F) (val w (x :: xs)) (val w (y :: ys)) carry j).symm
    · exact (addChain_shift (F := F) (val w (x :: xs)) (val w (y :: ys)) carry n).symm
  | _ + 1, _, [], _, _, _, _, _, hx, _, _, _ => by simp at hx
  | _ + 1, _, _ :: _, [], _, _, _, _, _, hy, _, _ => by simp at hy
  | _ + 1, _, _ :: _, _ :: _, [], _, _, _, _, _, hc, _ => by simp at hc
  | _ + 1, _, _ :: _, _ :: _, _ :: _, [], _, _, _, _, _, hz => by simp at hz

/-- The carries of an increment. -/
def incrChain (x : Nat → F) (c : F) : Nat → F
  | 0 => c
  | j + 1 => x j * incrChain x c j

theorem incrChain_shift (x : Nat → F) (c : F) : ∀ j, incrChain x c (j + 1) =
    incrChain (fun j => x (j + 1)) (incrChain x c 1) j
  | 0 => rfl
  | j + 1 => by
    rw [incrChain, incrChain_shift x c j]
    rfl

theorem incr_loop : ∀ {n : Nat} {w : Row F} {xs cs zs : List Col} {carry : F} {acc : Row F}, xs.length = n →
    cs.length = n → zs.length = n →
    Incr.loop w xs cs zs carry acc =
      (writes cs zs (incrChain (val w xs) carry) (fun j => val w xs j + incrChain (val w xs) carry j) acc,
       incrChain (val w xs) carry n)
  | 0, w, xs, cs, zs, carry, acc, hx, hc, hz => by
    rw [List.length_eq_zero_iff.1 hx, List.length_eq_zero_iff.1 hc, List.length_eq_zero_iff.1 hz]
    rfl
  | n + 1, w, x :: xs, c :: cs, z :: zs, carry, acc, hx, hc, hz => by
    rw [Incr.loop]
    rw [incr_loop (n := n) (by simpa using hx) (by simpa using hc) (by simpa using hz)]
    refine Prod.ext ?_ ?_
    · refine writes_congr (fun j => ?_) (fun j => ?_)
      · exact (incrChain_shift (F := F) (val w (x :: xs)) carry j).symm
      · exact congrArg _ (incrChain_shift (F := F) (val w (x :: xs)) carry j).symm
    · exact (incrChain_shift (F := F) (val w (x :: xs)) carry n).symm
  | _ + 1, _, [], _, _, _, _, hx, _, _ => by simp at hx
  | _ + 1, _, _ :: _, [], _, _, _, _, hc, _ => by simp at hc
  | _ + 1, _, _ :: _, _ :: _, [], _, _, _, _, hz => by simp at hz

theorem subChain_shift (x y : Nat → F) (c : F) : ∀ j, subChain x y c (j + 1) =
    subChain (fun j => x (j + 1)) (fun j => y (j + 1)) (subChain x y c 1) j
  | 0 => rfl
  | j + 1 => by
    rw [subChain, subChain_shift x y c j]
    rfl

theorem wideSub_loop : ∀ {n : Nat} {w : Row F} {xs ys os zs : List Col} {b : F} {acc : Row F}, xs.length = n →
    ys.length = n → os.length = n → zs.length = n →
    (∀ j < n, IsBit (val w xs j)) → (∀ j < n, IsBit (val w ys j)) → IsBit b →
    WideSub.loop w xs ys os zs b acc =
      writes zs os (fun j => val w xs j + val w ys j + subChain (val w xs) (val w ys) b j)
        (fun j => subChain (val w xs) (val w ys) b (j + 1)) acc
  | 0, w, xs, ys, cs, zs, carry, acc, hx, hy, hc, hz, _, _, _ => by
    rw [List.length_eq_zero_iff.1 hx, List.length_eq_zero_iff.1 hy, List.length_eq_zero_iff.1 hc,
      List.length_eq_zero_iff.1 hz]
    rfl
  | n + 1, w, x :: xs, y :: ys, o :: os, z :: zs, b, acc, hx, hy, hc, hz, hxb, hyb, hb => by
    have hx0 : IsBit (w x.idx 0) := hxb 0 (by omega)
    have hy0 : IsBit (w y.idx 0) := hyb 0 (by omega)
    have hnew : w y.idx 0 * b + (1 + w x.idx 0) * (b + w y.idx 0) = (b + (w x.idx 0 + 1)) * (b + w y.idx 0) + b := by
      rcases hb with rfl | rfl <;> rcases hx0 with h | h <;> rcases hy0 with h' | h' <;> rw [h, h'] <;>
        simp [CharTwo.add_self_eq_zero]
    rw [WideSub.loop, hnew]
    rw [wideSub_loop (n := n) (by simpa using hx) (by simpa using hy) (by simpa using hc) (by simpa using hz)
      (fun j hj => hxb (j + 1) (by omega)) (fun j hj => hyb (j + 1) (by omega)) (sub_bit hx0 hy0 hb).2]
    refine writes_congr (fun j => ?_) (fun j => ?_)
    · exact congrArg _ (subChain_shift (F := F) (val w (x :: xs)) (val w (y :: ys)) b j).symm
    · exact (subChain_shift (F := F) (val w (x :: xs)) (val w (y :: ys)) b (j + 1)).symm
  | _ + 1, _, [], _, _, _, _, _, hx, _, _, _, _, _, _ => by simp at hx
  | _ + 1, _, _ :: _, [], _, _, _, _, _, hy, _, _, _, _, _ => by simp at hy
  | _ + 1, _, _ :: _, _ :: _, [], _, _, _, _, _, hc, _, _, _, _ => by simp at hc
  | _ + 1, _, _ :: _, _ :: _, _ :: _, [], _, _, _, _, _, hz, _, _, _ => by simp at hz

/-! ### Completeness -/

theorem val_setBit_ne {w : Row F} {c : Col} {v : F} {cs : List Col} {j : Nat} (h : ∀ d, cs[j]? = some d → d.idx ≠ c.idx) :
    val (setBit w c v) cs j = val w cs j := by
  rw [val, val]
  cases hd : cs[j]? with
  | none => rfl
  | some d =>
    show setBit w c v d.idx 0 = w d.idx 0
    rw [setBit, if_neg (fun hh => h d hd hh.1)]

theorem addChain_isBit {x y : Nat → F} {n : Nat} (hx : ∀ j < n, IsBit (x j)) (hy : ∀ j < n, IsBit (y j)) {c : F} (hc : IsBit c)
    {j : Nat} (hj : j ≤ n) : IsBit (addChain x y c j) :=
  (add_chain (n := n) (c := addChain x y c) hx hy hc fun _ _ => rfl).1 j hj

theorem incrChain_isBit {x : Nat → F} {n : Nat} (hx : ∀ j < n, IsBit (x j)) {c : F} (hc : IsBit c) :
    ∀ {j : Nat}, j ≤ n → IsBit (incrChain x c j)
  | 0, _ => hc
  | j + 1, hj => isBit_mul (hx j (by omega)) (incrChain_isBit hx hc (by omega))

theorem subChain_isBit {x y : Nat → F} {n : Nat} (hx : ∀ j < n, IsBit (x j)) (hy : ∀ j < n, IsBit (y j)) {c : F} (hc : IsBit c)
    {j : Nat} (hj : j ≤ n) : IsBit (subChain x y c j) :=
  (sub_chain (n := n) (b := subChain x y c) hx hy hc fun _ _ => rfl).1 j hj

/-- Two lists of columns and one more, after the columns of a table. -/
structure Layout3 (L n : Nat) (c z : List Col) (final : Col) : Prop where
  clen : c.length = n
  zlen : z.length = n
  cidx : ∀ (k : Nat) (d : Col), c[k]? = some d → d.idx = L + k
  zidx : ∀ (k : Nat) (d : Col), z[k]? = some d → d.idx = L + n + k
  fidx : final.idx = L + n + n

theorem writes3_val {L n : Nat} {c z : List Col} {final : Col} (h : Layout3 L n c z final) (u v : Nat → F) (f : F)
    (acc : Row F) :
    (∀ j < n, val (setBit (writes c z u v acc) final f) c j = u j) ∧
    (∀ j < n, val (setBit (writes c z u v acc) final f) z j = v j) ∧
    setBit (writes c z u v acc) final f final.idx 0 = f ∧
    ∀ i < L, ∀ pos, setBit (writes c z u v acc) final f i pos = acc i pos := by
  obtain ⟨h1, h2, h3⟩ := writes_val (a := L) (b := L + n) (u := u) (v := v) (acc := acc) h.clen h.zlen h.cidx h.zidx
    (Or.inl le_rfl)
  have hf := h.fidx
  refine ⟨fun j hj => ?_, fun j hj => ?_, ?_, fun i hi pos => ?_⟩
  · rw [val_setBit_ne fun d hd => ?_, h1 j hj]
    have := h.cidx j d hd
    omega
  · rw [val_setBit_ne fun d hd => ?_, h2 j hj]
    have := h.zidx j d hd
    omega
  · rw [setBit, if_pos ⟨rfl, rfl⟩]
  · rw [setBit, if_neg (by omega)]
    exact h3 i (by omega) (by omega) pos

/-- The row that `WideAdd` computes from a carry in. -/
theorem wideAdd_complete {L n : Nat} {t : Table F} (hL : t.columns.length = L) {x y c z : List Col} {final : Col}
    (h : Layout3 L n c z final) (hx : HasAll t x n) (hy : HasAll t y n) {w : Row F} (hxb : ∀ j < n, IsBit (val w x j))
    (hyb : ∀ j < n, IsBit (val w y j)) {k : F} (hk : IsBit k) {w' : Row F}
    (hw' : w' = setBit (WideAdd.loop w x y c z k w).1 final (WideAdd.loop w x y c z k w).2) :
    (∀ i < L, ∀ pos, w' i pos = w i pos) ∧ (0 < n → val w' c 0 = k) ∧
    ∀ carryIn : Option Col, (∀ q, carryIn = some q → q.idx < L) →
      (WideAddRow w' n x y c z final carryIn ↔ (0 < n → ∀ q, carryIn = some q → k = w q.idx 0)) := by
  rw [wideAdd_loop hx.length hy.length h.clen h.zlen] at hw'
  obtain ⟨h1, h2, h3, h4⟩ := writes3_val h (addChain (val w x) (val w y) k)
    (fun j => val w x j + val w y j + addChain (val w x) (val w y) k j) (addChain (val w x) (val w y) k n) w
  dsimp only at hw'
  rw [← hw'] at h1 h2 h3 h4
  have h0 : 0 < n → val w' c 0 = k := fun hn => h1 0 hn
  refine ⟨h4, h0, fun carryIn hq => ⟨fun hr hn q hqq => ?_, fun hq' => ?_⟩⟩
  · have := hr.first hn q hqq
    rwa [h0 hn, h4 _ (hq q hqq)] at this
  · have hx' : ∀ j < n, val w' x j = val w x j := fun j hj => hx.val_congr (fun i hi => h4 i (hL ▸ hi)) hj
    have hy' : ∀ j < n, val w' y j = val w y j := fun j hj => hy.val_congr (fun i hi => h4 i (hL ▸ hi)) hj
    refine ⟨fun j hj => ?_, ?_, fun hn q hqq => ?_, fun j hj => ?_, fun j hj => ?_⟩
    · rw [h1 j hj]; exact addChain_isBit hxb hyb hk hj.le
    · rw [h3]; exact addChain_isBit hxb hyb hk le_rfl
    · rw [h0 hn, h4 _ (hq q hqq)]; exact hq' hn q hqq
    · rw [h2 j hj, hx' j hj, hy' j hj, h1 j hj]
    · have : chainOf w' n c final (j + 1) = addChain (val w x) (val w y) k (j + 1) := by
        rw [chainOf]
        split
        · rename_i hlt; exact h1 _ hlt
        · rw [h3, show j + 1 = n by omega]
      rw [this, hx' j hj, hy' j hj, h1 j hj]
      rfl

theorem incr_complete {L n : Nat} {t : Table F} (hL : t.columns.length = L) {x c z : List Col} {final : Col}
    (h : Layout3 L n c z final) (hx : HasAll t x n) {w : Row F} (hxb : ∀ j < n, IsBit (val w x j)) {w' : Row F}
    (hw' : w' = setBit (Incr.loop w x c z 1 w).1 final (Incr.loop w x c z 1 w).2) :
    (∀ i < L, ∀ pos, w' i pos = w i pos) ∧ IncrRow w' n x c z final := by
  rw [incr_loop hx.length h.clen h.zlen] at hw'
  obtain ⟨h1, h2, h3, h4⟩ := writes3_val h (incrChain (val w x) 1)
    (fun j => val w x j + incrChain (val w x) 1 j) (incrChain (val w x) 1 n) w
  dsimp only at hw'
  rw [← hw'] at h1 h2 h3 h4
  refine ⟨h4, ?_⟩
  have hx' : ∀ j < n, val w' x j = val w x j := fun j hj => hx.val_congr (fun i hi => h4 i (hL ▸ hi)) hj
  refine ⟨fun j hj => ?_, fun j hj => ?_, ?_, fun hn => h1 0 hn, fun j hj => ?_, fun j hj => ?_⟩
  · rw [h1 j hj]; exact incrChain_isBit hxb isBit_one hj.le
  · rw [h2 j hj]; exact isBit_add (hxb j hj) (incrChain_isBit hxb isBit_one hj.le)
  · rw [h3]; exact incrChain_isBit hxb isBit_one le_rfl
  · rw [h2 j hj, hx' j hj, h1 j hj]
  · have : chainOf w' n c final (j + 1) = incrChain (val w x) 1 (j + 1) := by
      rw [chainOf]
      split
      · rename_i hlt; exact h1 _ hlt
      · rw [h3, show j + 1 = n by omega]
    rw [this, hx' j hj, h1 j hj]
    rfl

/-- The columns of `WideSub` after those of a table. -/
structure LayoutSub (L n : Nat) (bin : Col) (bout z : List Col) : Prop where
  blen : bout.length = n
  zlen : z.length = n
  bidx : ∀ (k : Nat) (d : Col), bout[k]? = some d → d.idx = L + k
  iidx : bin.idx = L + n
  zidx : ∀ (k : Nat) (d : Col), z[k]? = some d → d.idx = L + n + 1 + k

theorem val_bins {w : Row F} {n : Nat} (bin : Col) (bout : List Col) {j : Nat} (hj : j < n) :
    val w (bin :: bout.take (n - 1)) j = if j = 0 then w bin.idx 0 else val w bout (j - 1) := by
  cases j with
  | zero => rfl
  | succ j =>
    rw [val_cons_succ, if_neg (by omega), Nat.add_sub_cancel, val, val, List.getElem?_take, if_pos (by omega)]

/-- Any borrows do for `WideSub`. -/
theorem wideSub_complete {L n : Nat} (hn : 0 < n) {t : Table F} (hL : t.columns.length = L) {x y : List Col} {bin : Col}
    {bout z : List Col} (h : LayoutSub L n bin bout z) (hx : HasAll t x n) (hy : HasAll t y n) {w : Row F}
    {b : Nat → F} (hb : ∀ j < n, IsBit (b (j + 1))) {acc : Row F} (hacc : ∀ i < L, ∀ pos, acc i pos = w i pos)
    {w' : Row F} (hw' : w' = writes z bout (fun j => val w x j + val w y j + b j) (fun j => b (j + 1)) acc)
    (hbin : acc bin.idx 0 = b 0) :
    (∀ i < L, ∀ pos, w' i pos = w i pos) ∧ (∀ j < n, val w' bout j = b (j + 1)) ∧
    (∀ j < n, val w' z j = val w x j + val w y j + b j) ∧
    ∀ borrowIn : Option Col, (∀ q, borrowIn = some q → q.idx < L) →
      (WideSubRow w' n x y bin bout z borrowIn ↔ b 0 = optVal w borrowIn 0) := by
  obtain ⟨h1, h2, h3⟩ := writes_val (a := L + n + 1) (b := L) (u := fun j => val w x j + val w y j + b j)
    (v := fun j => b (j + 1)) (acc := acc) h.zlen h.blen h.zidx h.bidx (Or.inr (by omega))
  rw [← hw'] at h1 h2 h3
  have hi := h.iidx
  have h4 : ∀ i < L, ∀ pos, w' i pos = w i pos := fun i hi pos => by rw [h3 i (by omega) (by omega), hacc i hi]
  have h5 : w' bin.idx 0 = b 0 := by rw [h3 _ (by omega) (by omega), hbin]
  refine ⟨h4, h2, h1, fun borrowIn hq => ?_⟩
  have ho : optVal w' borrowIn 0 = optVal w borrowIn 0 := by
    cases borrowIn with
    | none => rfl
    | some q => exact h4 _ (hq q rfl) _
  constructor
  · intro hr
    rw [← ho, ← h5]; exact hr.first
  · intro h0
    refine ⟨fun j hj => ?_, by rw [h5, ho, h0], fun j hj => ?_⟩
    · rw [h2 j hj]; exact hb j hj
    · rw [h1 j hj, val_bins _ _ hj, hx.val_congr (fun i hi => h4 i (hL ▸ hi)) hj, hy.val_congr (fun i hi => h4 i (hL ▸ hi)) hj, h5]
      congr 1
      split
      · rename_i hj0; rw [hj0]
      · rw [h2 _ (by omega), show j - 1 + 1 = j by omega]

end Verif.M3
