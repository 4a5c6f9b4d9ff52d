import Verif.M3.LemmasBuilder
import Verif.M3.LemmasNum

/-! Lemmas on the addition and subtraction gadgets on words. -/

set_option linter.dupNamespace false
set_option linter.unusedSectionVars false

namespace Verif.M3

open Finset Verif.Arith

variable {F : Type} [Field F] [DecidableEq F]

theorem isBit_of_sub {Tw : Tower F} {x : F} (h : Tw.sub 0 x) : IsBit x := (Tw.sub_zero x).1 h

theorem sub_of_isBit {Tw : Tower F} {x : F} (h : IsBit x) : Tw.sub 0 x := (Tw.sub_zero x).2 h

theorem Table.Has.isBit {Tw : Tower F} {t : Table F} {c : Col} {lv : Nat} (h : t.Has c 0 lv) {w : Row F}
    (hw : RowHolds Tw t w) {pos : Nat} (hp : pos < 2 ^ lv) : IsBit (w c.idx pos) := isBit_of_sub (h.sub hw hp)

variable [CharP F 2]

/-- The value of a carry column, which may be missing. -/
def optVal (w : Row F) (c : Option Col) (pos : Nat) : F := c.elim 0 fun c => w c.idx pos

theorem optVal_isBit {Tw : Tower F} {t : Table F} {c : Option Col} {lv : Nat} (h : ∀ c', c = some c' → t.Has c' 0 lv)
    {w : Row F} (hw : RowHolds Tw t w) {pos : Nat} (hp : pos < 2 ^ lv) : IsBit (optVal w c pos) := by
  cases c with
  | none => exact isBit_zero
  | some c => exact (h c rfl).isBit hw hp

theorem carryColumn_ok (Tw : Tower F) {t : Table F} (ht : WellFormed t) {lv : Nat} {shl : Col} (hs : t.Has shl 0 lv)
    {carryIn : Option Col} (hc : ∀ c, carryIn = some c → t.Has c 0 lv) :
    ∃ cin t', carryColumn t lv shl carryIn = some (cin, t') ∧ t'.Has cin 0 lv ∧
      (carryIn = none → cin = shl ∧ t' = t) ∧ (carryIn.isSome → New t t' cin 0 lv) ∧
      Adds Tw t t' fun w => ∀ pos < 2 ^ lv, w cin.idx pos = w shl.idx pos + optVal w carryIn pos := by
  cases carryIn with
  | none =>
    exact ⟨shl, t, rfl, hs, fun _ => ⟨rfl, rfl⟩, fun h => (by cases h), (Adds.refl Tw t).congr fun w _ => by simp [optVal]⟩
  | some c =>
    have hc' := hc c rfl
    obtain ⟨cin, t', h1, h2, h3⟩ := addComputed_ok Tw ht 0 (Ev.add (Ev.col hs) (Ev.col hc'))
    refine ⟨cin, t', h1, h2.has, fun h => (by cases h), fun _ => h2, h3.congr fun w hw => ⟨fun h => h.2, fun h => ⟨fun pos hp => ?_, h⟩⟩⟩
    rw [h pos hp]
    exact sub_of_isBit (isBit_add (hs.isBit hw hp) (hc'.isBit hw hp))

theorem sumExpr_ev {t : Table F} {lv : Nat} {x y c : Col} (hx : t.Has x 0 lv) (hy : t.Has y 0 lv) (hc : t.Has c 0 lv) :
    Ev t lv (sumExpr x y c) fun w pos => w x.idx pos + w y.idx pos + w c.idx pos :=
  Ev.add (Ev.add (Ev.col hx) (Ev.col hy)) (Ev.col hc)

theorem carryExpr_ev {t : Table F} {lv : Nat} {x y c o : Col} (hx : t.Has x 0 lv) (hy : t.Has y 0 lv)
    (hc : t.Has c 0 lv) (ho : t.Has o 0 lv) : Ev t lv (carryExpr x y c o) fun w pos =>
      (w x.idx pos + w c.idx pos) * (w y.idx pos + w c.idx pos) + w c.idx pos + w o.idx pos :=
  Ev.sub (Ev.add (Ev.mul (Ev.add (Ev.col hx) (Ev.col hc)) (Ev.add (Ev.col hy) (Ev.col hc))) (Ev.col hc)) (Ev.col ho)

theorem borrowExpr_ev {t : Table F} {lv : Nat} {x y b o : Col} (hx : t.Has x 0 lv) (hy : t.Has y 0 lv)
    (hb : t.Has b 0 lv) (ho : t.Has o 0 lv) : Ev t lv (borrowExpr x y b o) fun w pos =>
      (w b.idx pos + (w x.idx pos + 1)) * (w b.idx pos + w y.idx pos) + w b.idx pos + w o.idx pos :=
  Ev.sub (Ev.add (Ev.mul (Ev.add (Ev.col hb) (Ev.sub (Ev.col hx) (Ev.const t lv 1))) (Ev.add (Ev.col hb) (Ev.col hy)))
    (Ev.col hb)) (Ev.col ho)

theorem sumColumn_ok (Tw : Tower F) {t : Table F} (ht : WellFormed t) {lv : Nat} {x y c : Col} (hx : t.Has x 0 lv)
    (hy : t.Has y 0 lv) (hc : t.Has c 0 lv) (commit : Bool) :
    ∃ z t', sumColumn t lv x y c commit = some (z, t') ∧ New t t' z 0 lv ∧
      Adds Tw t t' fun w => ∀ pos < 2 ^ lv, w z.idx pos = w x.idx pos + w y.idx pos + w c.idx pos := by
  have hbit : ∀ w, RowHolds Tw t w → ∀ pos < 2 ^ lv, IsBit (w x.idx pos + w y.idx pos + w c.idx pos) := fun w hw pos hp =>
    isBit_add (isBit_add (hx.isBit hw hp) (hy.isBit hw hp)) (hc.isBit hw hp)
  cases commit with
  | false =>
    obtain ⟨z, t', h1, h2, h3⟩ := addComputed_ok Tw ht 0 (sumExpr_ev hx hy hc)
    refine ⟨z, t', h1, h2, h3.congr fun w hw => ⟨fun h => h.2, fun h => ⟨fun pos hp => ?_, h⟩⟩⟩
    rw [h pos hp]
    exact sub_of_isBit (hbit w hw pos hp)
  | true =>
    obtain ⟨z, t1, a1, a2, a3⟩ := addCommitted_ok Tw t 0 lv
    obtain ⟨t2, b1, b2, b3⟩ := assertZero_ok Tw (Ev.sub (sumExpr_ev (hx.ext a3.ext) (hy.ext a3.ext) (hc.ext a3.ext)) (Ev.col a2.has))
    refine ⟨z, t2, ?_, ⟨a2.idx, by rw [b2, a2.len], a2.has.ext b3.ext⟩, (a3.trans b3).congr fun w hw => ?_⟩
    · rw [sumColumn, if_pos rfl, a1, Option.bind_some]
      dsimp only
      rw [b1, Option.bind_some]
    · simp only [CharTwo.add_eq_zero]
      refine ⟨fun h pos hp => (h.2 pos hp).symm, fun h => ⟨fun pos hp => ?_, fun pos hp => (h pos hp).symm⟩⟩
      rw [h pos hp]
      exact sub_of_isBit (hbit w hw pos hp)

theorem finalColumn_ok (Tw : Tower F) {t : Table F} {c : Col} (hc : t.Has c 0 5) (expose : Bool) :
    ∃ fo t', finalColumn t c expose = some (fo, t') ∧ fo.isSome = expose ∧
      (∀ f, fo = some f → New t t' f 0 0) ∧ (fo = none → t' = t) ∧
      Adds Tw t t' fun w => ∀ f, fo = some f → w f.idx 0 = w c.idx 31 := by
  cases expose with
  | false => exact ⟨none, t, rfl, rfl, fun f h => (by cases h), fun _ => rfl, (Adds.refl Tw t).congr fun w _ => by simp⟩
  | true =>
    obtain ⟨f, t', h1, h2, h3⟩ := addSelected_ok Tw t hc (i := 31) (by norm_num)
    refine ⟨some f, t', ?_, rfl, ?_, fun h => (by cases h), h3.congr fun w hw => ?_⟩
    · rw [finalColumn, if_pos rfl, h1, Option.bind_some]
    · intro f' h; injection h with h; subst h; exact h2
    · constructor
      · rintro ⟨-, h⟩ f' hf; injection hf with hf; subst hf; exact h
      · intro h
        refine ⟨fun pos hp => ?_, h f rfl⟩
        have : pos = 0 := by simpa using hp
        rw [this, h f rfl]
        exact hc.sub hw (by norm_num)

/-- The values of a column shifted to the left by one in its words. -/
theorem shl_ok (Tw : Tower F) {t : Table F} {lv : Nat} (hlv : 5 ≤ lv) {c : Col} (hc : t.Has c 0 lv) :
    ∃ s t', t.addShifted 0 lv c 5 1 .logicalLeft = some (s, t') ∧ New t t' s 0 lv ∧
      Adds Tw t t' fun w => ∀ pos < 2 ^ lv, w s.idx pos = if pos % 32 = 0 then 0 else w c.idx (pos - 1) := by
  obtain ⟨s, t', h1, h2, h3⟩ := addShifted_ok Tw t hc (o := 1) hlv (by norm_num) .logicalLeft
  refine ⟨s, t', h1, h2, h3.congr fun w hw => ?_⟩
  have hval : ∀ pos, Transparent.shifted .logicalLeft 5 1 (fun x => w c.idx (x + 2 ^ 5 * (pos / 2 ^ 5))) (pos % 2 ^ 5) =
      if pos % 32 = 0 then 0 else w c.idx (pos - 1) := by
    intro pos
    show (if 1 ≤ pos % 2 ^ 5 then w c.idx (pos % 2 ^ 5 - 1 + 2 ^ 5 * (pos / 2 ^ 5)) else 0) = _
    by_cases h : pos % 32 = 0
    · rw [if_neg (by omega), if_pos h]
    · rw [if_pos (by omega), if_neg h]
      congr 1
      omega
  simp only [hval]
  refine ⟨fun h => h.2, fun h => ⟨fun pos hp => ?_, h⟩⟩
  rw [h pos hp]
  split
  · exact sub_of_isBit isBit_zero
  · exact hc.sub hw (by omega)

/-- What the columns of an adder on words satisfy. -/
structure AddRow (w : Row F) (lv : Nat) (x y cin cout shl z : Col) (carryIn : Option Col) : Prop where
  bits : ∀ pos < 2 ^ lv, IsBit (w cout.idx pos)
  shift : ∀ pos < 2 ^ lv, w shl.idx pos = if pos % 32 = 0 then 0 else w cout.idx (pos - 1)
  carries : ∀ pos < 2 ^ lv, w cin.idx pos = w shl.idx pos + optVal w carryIn pos
  carry : ∀ pos < 2 ^ lv, w cout.idx pos =
    (w x.idx pos + w cin.idx pos) * (w y.idx pos + w cin.idx pos) + w cin.idx pos
  sum : ∀ pos < 2 ^ lv, w z.idx pos = w x.idx pos + w y.idx pos + w cin.idx pos

/-- What the columns of a subtractor on words satisfy. -/
structure SubRow (w : Row F) (lv : Nat) (x y bin bout shl z : Col) (borrowIn : Option Col) : Prop where
  bits : ∀ pos < 2 ^ lv, IsBit (w bout.idx pos)
  shift : ∀ pos < 2 ^ lv, w shl.idx pos = if pos % 32 = 0 then 0 else w bout.idx (pos - 1)
  borrows : ∀ pos < 2 ^ lv, w bin.idx pos = w shl.idx pos + optVal w borrowIn pos
  borrow : ∀ pos < 2 ^ lv, w bout.idx pos =
    (w bin.idx pos + (w x.idx pos + 1)) * (w bin.idx pos + w y.idx pos) + w bin.idx pos
  sum : ∀ pos < 2 ^ lv, w z.idx pos = w x.idx pos + w y.idx pos + w bin.idx pos

/-- Where the columns of a gadget on words are, for a table that had `L` columns before. -/
structure Layout (L : Nat) (cin cout shl z : Col) (carryIn fo : Option Col) : Prop where
  out_idx : cout.idx = L
  shl_idx : shl.idx = L + 1
  cin_none : carryIn = none → cin = shl
  cin_some : carryIn.isSome → cin.idx = L + 2
  z_idx : L + 2 ≤ z.idx ∧ cin.idx < z.idx
  fo_idx : ∀ f, fo = some f → L + 2 ≤ f.idx ∧ cin.idx < f.idx ∧ f.idx < z.idx

theorem U32Add_new_ok (Tw : Tower F) {t : Table F} (ht : WellFormed t) {x y : Col} (hx : t.Has x 0 5) (hy : t.Has y 0 5)
    {flags : U32AddFlags} (hf : ∀ c, flags.carryInBit = some c → t.Has c 0 5) :
    ∃ g t', U32Add.new t x y flags = some (g, t') ∧ g.xin = x ∧ g.yin = y ∧ g.flags = flags ∧
      g.finalCarry.isSome = flags.exposeFinalCarry ∧ t'.Has g.zout 0 5 ∧ (∀ f, g.finalCarry = some f → t'.Has f 0 0) ∧
      Layout t.columns.length g.cin g.cout g.coutShl g.zout flags.carryInBit g.finalCarry ∧
      Adds Tw t t' fun w => AddRow w 5 x y g.cin g.cout g.coutShl g.zout flags.carryInBit ∧
        ∀ f, g.finalCarry = some f → w f.idx 0 = w g.cout.idx 31 := by
  obtain ⟨cout, t1, a1, a2, a3⟩ := addCommitted_ok Tw t 0 5
  obtain ⟨shl, t2, b1, b2, b3⟩ := shl_ok Tw le_rfl a2.has
  have e2 := a3.ext.trans b3.ext
  have w2 := b3.wf (a3.wf ht)
  obtain ⟨cin, t3, c1, c2, c3, c4, c5⟩ := carryColumn_ok Tw w2 b2.has (carryIn := flags.carryInBit) fun c hc => (hf c hc).ext e2
  have e3 := e2.trans c5.ext
  have w3 := c5.wf w2
  have hcout3 := (a2.has.ext b3.ext).ext c5.ext
  obtain ⟨fo, t4, d1, d2, d3, d4, d5⟩ := finalColumn_ok Tw hcout3 flags.exposeFinalCarry
  have e4 := e3.trans d5.ext
  have w4 := d5.wf w3
  obtain ⟨t5, f1, f2, f3⟩ := assertZero_ok Tw (carryExpr_ev (hx.ext e4) (hy.ext e4) (c2.ext d5.ext) (hcout3.ext d5.ext))
  have e5 := e4.trans f3.ext
  obtain ⟨z, t6, g1, g2, g3⟩ := sumColumn_ok Tw (f3.wf w4) (hx.ext e5) (hy.ext e5) ((c2.ext d5.ext).ext f3.ext) flags.commitZout
  have hl5 : t5.columns.length = t4.columns.length := by rw [f2]
  have hcin : cin.idx < t3.columns.length := c2.lt
  have hl34 := d5.ext.len
  have hl23 := c5.ext.len
  refine ⟨⟨x, y, cin, cout, shl, z, fo, flags⟩, t6, ?_, rfl, rfl, rfl, d2, g2.has, fun f hf => ((d3 f hf).has.ext f3.ext).ext g3.ext,
    ⟨a2.idx, ?_, fun h => (c3 h).1, fun h => ?_, ?_, fun f hf => ?_⟩, ?_⟩
  · rw [U32Add.new, a1, Option.bind_some]
    dsimp only
    rw [b1, Option.bind_some]
    dsimp only
    rw [c1, Option.bind_some]
    dsimp only
    rw [d1, Option.bind_some]
    dsimp only
    rw [f1, Option.bind_some, g1, Option.bind_some]
  · rw [b2.idx, a2.len]
  · rw [(c4 h).idx, b2.len, a2.len]
  · have := g2.idx; have := b2.len; have := a2.len
    show t.columns.length + 2 ≤ z.idx ∧ cin.idx < z.idx
    constructor <;> omega
  · have hn := d3 f hf
    have := hn.idx; have := hn.len; have := g2.idx; have := b2.len; have := a2.len
    show t.columns.length + 2 ≤ f.idx ∧ cin.idx < f.idx ∧ f.idx < z.idx
    refine ⟨by omega, by omega, by omega⟩
  · refine ((((((a3.trans b3).trans c5).trans d5).trans f3).trans g3)).congr fun w hw => ?_
    simp only [CharTwo.add_eq_zero]
    constructor
    · rintro ⟨⟨⟨⟨⟨h1, h2⟩, h3⟩, h4⟩, h5⟩, h6⟩
      exact ⟨⟨fun pos hp => isBit_of_sub (h1 pos hp), h2, h3, fun pos hp => (h5 pos hp).symm, h6⟩, h4⟩
    · rintro ⟨⟨h1, h2, h3, h5, h6⟩, h4⟩
      exact ⟨⟨⟨⟨⟨fun pos hp => sub_of_isBit (h1 pos hp), h2⟩, h3⟩, h4⟩, fun pos hp => (h5 pos hp).symm⟩, h6⟩

theorem U32AddStacked_new_ok (Tw : Tower F) {t : Table F} (ht : WellFormed t) {lv : Nat} (hlv : 5 ≤ lv) {x y : Col}
    (hx : t.Has x 0 lv) (hy : t.Has y 0 lv) (commit : Bool) {carryIn : Option Col} (hf : ∀ c, carryIn = some c → t.Has c 0 lv) :
    ∃ g t', U32AddStacked.new t lv x y commit carryIn = some (g, t') ∧ g.xin = x ∧ g.yin = y ∧ g.carryInBit = carryIn ∧
      t'.Has g.zout 0 lv ∧ Layout t.columns.length g.cin g.cout g.coutShl g.zout carryIn none ∧
      Adds Tw t t' fun w => AddRow w lv x y g.cin g.cout g.coutShl g.zout carryIn := by
  obtain ⟨cout, t1, a1, a2, a3⟩ := addCommitted_ok Tw t 0 lv
  obtain ⟨shl, t2, b1, b2, b3⟩ := shl_ok Tw hlv a2.has
  have e2 := a3.ext.trans b3.ext
  have w2 := b3.wf (a3.wf ht)
  obtain ⟨cin, t3, c1, c2, c3, c4, c5⟩ := carryColumn_ok Tw w2 b2.has (carryIn := carryIn) fun c hc => (hf c hc).ext e2
  have e3 := e2.trans c5.ext
  have w3 := c5.wf w2
  have hcout3 := (a2.has.ext b3.ext).ext c5.ext
  obtain ⟨t5, f1, f2, f3⟩ := assertZero_ok Tw (carryExpr_ev (hx.ext e3) (hy.ext e3) c2 hcout3)
  have e5 := e3.trans f3.ext
  obtain ⟨z, t6, g1, g2, g3⟩ := sumColumn_ok Tw (f3.wf w3) (hx.ext e5) (hy.ext e5) (c2.ext f3.ext) commit
  have hl5 : t5.columns.length = t3.columns.length := by rw [f2]
  have hcin : cin.idx < t3.columns.length := c2.lt
  have hl23 := c5.ext.len
  have hv : 32 ≤ 2 ^ lv := by
    have := Nat.pow_le_pow_right (n := 2) (by omega) hlv
    omega
  refine ⟨⟨x, y, cin, cout, shl, carryIn, z⟩, t6, ?_, rfl, rfl, rfl, g2.has,
    ⟨a2.idx, ?_, fun h => (c3 h).1, fun h => ?_, ?_, fun f hf => by cases hf⟩, ?_⟩
  · rw [U32AddStacked.new, if_pos hv, a1, Option.bind_some]
    dsimp only
    rw [b1, Option.bind_some]
    dsimp only
    rw [c1, Option.bind_some]
    dsimp only
    rw [f1, Option.bind_some, g1, Option.bind_some]
  · rw [b2.idx, a2.len]
  · rw [(c4 h).idx, b2.len, a2.len]
  · have := g2.idx; have := b2.len; have := a2.len
    show t.columns.length + 2 ≤ z.idx ∧ cin.idx < z.idx
    constructor <;> omega
  · refine (((((a3.trans b3).trans c5).trans f3).trans g3)).congr fun w hw => ?_
    simp only [CharTwo.add_eq_zero]
    constructor
    · rintro ⟨⟨⟨⟨h1, h2⟩, h3⟩, h5⟩, h6⟩
      exact ⟨fun pos hp => isBit_of_sub (h1 pos hp), h2, h3, fun pos hp => (h5 pos hp).symm, h6⟩
    · rintro ⟨h1, h2, h3, h5, h6⟩
      exact ⟨⟨⟨⟨fun pos hp => sub_of_isBit (h1 pos hp), h2⟩, h3⟩, fun pos hp => (h5 pos hp).symm⟩, h6⟩

theorem U32Sub_new_ok (Tw : Tower F) {t : Table F} (ht : WellFormed t) {x y : Col} (hx : t.Has x 0 5) (hy : t.Has y 0 5)
    {flags : U32SubFlags} (hf : ∀ c, flags.borrowInBit = some c → t.Has c 0 5) :
    ∃ g t', U32Sub.new t x y flags = some (g, t') ∧ g.xin = x ∧ g.yin = y ∧ g.flags = flags ∧
      g.finalBorrow.isSome = flags.exposeFinalBorrow ∧ t'.Has g.zout 0 5 ∧ (∀ f, g.finalBorrow = some f → t'.Has f 0 0) ∧
      Layout t.columns.length g.bin g.bout g.boutShl g.zout flags.borrowInBit g.finalBorrow ∧
      Adds Tw t t' fun w => SubRow w 5 x y g.bin g.bout g.boutShl g.zout flags.borrowInBit ∧
        ∀ f, g.finalBorrow = some f → w f.idx 0 = w g.bout.idx 31 := by
  obtain ⟨cout, t1, a1, a2, a3⟩ := addCommitted_ok Tw t 0 5
  obtain ⟨shl, t2, b1, b2, b3⟩ := shl_ok Tw le_rfl a2.has
  have e2 := a3.ext.trans b3.ext
  have w2 := b3.wf (a3.wf ht)
  obtain ⟨cin, t3, c1, c2, c3, c4, c5⟩ := carryColumn_ok Tw w2 b2.has (carryIn := flags.borrowInBit) fun c hc => (hf c hc).ext e2
  have e3 := e2.trans c5.ext
  have w3 := c5.wf w2
  have hcout3 := (a2.has.ext b3.ext).ext c5.ext
  obtain ⟨fo, t4, d1, d2, d3, d4, d5⟩ := finalColumn_ok Tw hcout3 flags.exposeFinalBorrow
  have e4 := e3.trans d5.ext
  have w4 := d5.wf w3
  obtain ⟨t5, f1, f2, f3⟩ := assertZero_ok Tw (borrowExpr_ev (hx.ext e4) (hy.ext e4) (c2.ext d5.ext) (hcout3.ext d5.ext))
  have e5 := e4.trans f3.ext
  obtain ⟨z, t6, g1, g2, g3⟩ := sumColumn_ok Tw (f3.wf w4) (hx.ext e5) (hy.ext e5) ((c2.ext d5.ext).ext f3.ext) flags.commitZout
  have hl5 : t5.columns.length = t4.columns.length := by rw [f2]
  have hcin : cin.idx < t3.columns.length := c2.lt
  have hl34 := d5.ext.len
  have hl23 := c5.ext.len
  refine ⟨⟨x, y, cout, shl, cin, z, fo, flags⟩, t6, ?_, rfl, rfl, rfl, d2, g2.has, fun f hf => ((d3 f hf).has.ext f3.ext).ext g3.ext,
    ⟨a2.idx, ?_, fun h => (c3 h).1, fun h => ?_, ?_, fun f hf => ?_⟩, ?_⟩
  · rw [U32Sub.new, a1, Option.bind_some]
    dsimp only
    rw [b1, Option.bind_some]
    dsimp only
    rw [c1, Option.bind_some]
    dsimp only
    rw [d1, Option.bind_some]
    dsimp only
    rw [f1, Option.bind_some, g1, Option.bind_some]
  · rw [b2.idx, a2.len]
  · rw [(c4 h).idx, b2.len, a2.len]
  · have := g2.idx; have := b2.len; have := a2.len
    show t.columns.length + 2 ≤ z.idx ∧ cin.idx < z.idx
    constructor <;> omega
  · have hn := d3 f hf
    have := hn.idx; have := hn.len; have := g2.idx; have := b2.len; have := a2.len
    show t.columns.length + 2 ≤ f.idx ∧ cin.idx < f.idx ∧ f.idx < z.idx
    refine ⟨by omega, by omega, by omega⟩
  · refine ((((((a3.trans b3).trans c5).trans d5).trans f3).trans g3)).congr fun w hw => ?_
    simp only [CharTwo.add_eq_zero]
    constructor
    · rintro ⟨⟨⟨⟨⟨h1, h2⟩, h3⟩, h4⟩, h5⟩, h6⟩
      exact ⟨⟨fun pos hp => isBit_of_sub (h1 pos hp), h2, h3, fun pos hp => (h5 pos hp).symm, h6⟩, h4⟩
    · rintro ⟨⟨h1, h2, h3, h5, h6⟩, h4⟩
      exact ⟨⟨⟨⟨⟨fun pos hp => sub_of_isBit (h1 pos hp), h2⟩, h3⟩, h4⟩, fun pos hp => (h5 pos hp).symm⟩, h6⟩

/-! ### Soundness -/

/-- The chain of carries of word `k`. -/
def chainAt (w : Row F) (cin cout : Col) (k : Nat) : Nat → F := fun j =>
  if j = 32 then w cout.idx (32 * k + 31) else w cin.idx (32 * k + j)

theorem addRow_sound {w : Row F} {lv : Nat} {x y cin cout shl z : Col} {carryIn : Option Col}
    (h : AddRow w lv x y cin cout shl z carryIn) {k : Nat} (hk : 32 * k + 32 ≤ 2 ^ lv)
    (hx : ∀ pos < 2 ^ lv, IsBit (w x.idx pos)) (hy : ∀ pos < 2 ^ lv, IsBit (w y.idx pos))
    (hc : IsBit (optVal w carryIn (32 * k))) (hz : ∀ j, 0 < j → j < 32 → optVal w carryIn (32 * k + j) = 0) :
    getWord w z k + 2 ^ 32 * bit (w cout.idx (32 * k + 31)) =
      getWord w x k + getWord w y k + bit (optVal w carryIn (32 * k)) := by
  have h0 : chainAt w cin cout k 0 = optVal w carryIn (32 * k) := by
    rw [chainAt, if_neg (by omega), Nat.add_zero, h.carries _ (by omega), h.shift _ (by omega), if_pos (by omega), zero_add]
  have hcin : ∀ j < 32, chainAt w cin cout k j = w cin.idx (32 * k + j) := fun j hj => by
    rw [chainAt, if_neg (by omega)]
  have hout : ∀ j < 32, chainAt w cin cout k (j + 1) = w cout.idx (32 * k + j) := fun j hj => by
    rw [chainAt]
    by_cases h31 : j + 1 = 32
    · rw [if_pos h31, show 32 * k + 31 = 32 * k + j by omega]
    · rw [if_neg h31, h.carries _ (by omega), h.shift _ (by omega), if_neg (by omega), hz _ (by omega) (by omega), add_zero,
        show 32 * k + (j + 1) - 1 = 32 * k + j by omega]
  obtain ⟨-, h2⟩ := add_chain (x := fun j => w x.idx (32 * k + j)) (y := fun j => w y.idx (32 * k + j))
    (c := chainAt w cin cout k) (n := 32) (fun j hj => hx _ (by omega)) (fun j hj => hy _ (by omega)) (by rw [h0]; exact hc)
    (fun j hj => by rw [hout j hj, hcin j hj]; exact h.carry _ (by omega))
  rw [h0] at h2
  have hzw : getWord w z k = num ((List.range 32).map fun j =>
      w x.idx (32 * k + j) + w y.idx (32 * k + j) + chainAt w cin cout k j) := by
    refine congrArg num (List.map_congr_left fun j hj => ?_)
    have hj := List.mem_range.1 hj
    rw [hcin j hj]
    exact h.sum _ (by omega)
  rw [hzw]
  exact h2

theorem subRow_sound {w : Row F} {lv : Nat} {x y bin bout shl z : Col} {borrowIn : Option Col}
    (h : SubRow w lv x y bin bout shl z borrowIn) {k : Nat} (hk : 32 * k + 32 ≤ 2 ^ lv)
    (hx : ∀ pos < 2 ^ lv, IsBit (w x.idx pos)) (hy : ∀ pos < 2 ^ lv, IsBit (w y.idx pos))
    (hc : IsBit (optVal w borrowIn (32 * k))) (hz : ∀ j, 0 < j → j < 32 → optVal w borrowIn (32 * k + j) = 0) :
    getWord w x k + 2 ^ 32 * bit (w bout.idx (32 * k + 31)) =
      getWord w y k + getWord w z k + bit (optVal w borrowIn (32 * k)) := by
  have h0 : chainAt w bin bout k 0 = optVal w borrowIn (32 * k) := by
    rw [chainAt, if_neg (by omega), Nat.add_zero, h.borrows _ (by omega), h.shift _ (by omega), if_pos (by omega), zero_add]
  have hcin : ∀ j < 32, chainAt w bin bout k j = w bin.idx (32 * k + j) := fun j hj => by
    rw [chainAt, if_neg (by omega)]
  have hout : ∀ j < 32, chainAt w bin bout k (j + 1) = w bout.idx (32 * k + j) := fun j hj => by
    rw [chainAt]
    by_cases h31 : j + 1 = 32
    · rw [if_pos h31, show 32 * k + 31 = 32 * k + j by omega]
    · rw [if_neg h31, h.borrows _ (by omega), h.shift _ (by omega), if_neg (by omega), hz _ (by omega) (by omega), add_zero,
        show 32 * k + (j + 1) - 1 = 32 * k + j by omega]
  obtain ⟨-, h2⟩ := sub_chain (x := fun j => w x.idx (32 * k + j)) (y := fun j => w y.idx (32 * k + j))
    (b := chainAt w bin bout k) (n := 32) (fun j hj => hx _ (by omega)) (fun j hj => hy _ (by omega)) (by rw [h0]; exact hc)
    (fun j hj => by rw [hout j hj, hcin j hj]; exact h.borrow _ (by omega))
  rw [h0] at h2
  have hzw : getWord w z k = num ((List.range 32).map fun j =>
      w x.idx (32 * k + j) + w y.idx (32 * k + j) + chainAt w bin bout k j) := by
    refine congrArg num (List.map_congr_left fun j hj => ?_)
    have hj := List.mem_range.1 hj
    rw [hcin j hj]
    exact h.sum _ (by omega)
  rw [hzw]
  exact h2

/-! ### Completeness -/

theorem setWords_ne {w : Row F} {c : Col} {n : Nat} {v : Nat → Nat} {i : Nat} (h : i ≠ c.idx) (pos : Nat) :
    setWords w c n v i pos = w i pos := if_neg fun h' => h h'.1

theorem setWords_eq {w : Row F} {c : Col} {n : Nat} {v : Nat → Nat} {pos : Nat} (h : pos / 32 < n) :
    setWords w c n v c.idx pos = ofBit ((v (pos / 32)).testBit (pos % 32)) := if_pos ⟨rfl, h⟩

theorem setBitOpt_ne {w : Row F} {fo : Option Col} {v : F} {i : Nat} (h : ∀ f, fo = some f → i ≠ f.idx) (pos : Nat) :
    setBitOpt w fo v i pos = w i pos := by
  cases fo with
  | none => rfl
  | some f => exact if_neg fun h' => h f rfl h'.1

/-- The values that `populate` writes. -/
theorem writeWords_val {L lv : Nat} (hlv : 5 ≤ lv) {cin cout shl z : Col} {carryIn fo : Option Col}
    (hl : Layout L cin cout shl z carryIn fo) (w : Row F) (v : Nat → Nat × Nat × Nat × Bool) (b : F)
    {w' : Row F} (hw' : w' = setBitOpt (writeWords w (2 ^ lv / 32) cin cout shl z carryIn.isSome v) fo b) :
    (∀ i < L, ∀ pos, w' i pos = w i pos) ∧
    (∀ pos < 2 ^ lv, w' z.idx pos = ofBit ((v (pos / 32)).1.testBit (pos % 32))) ∧
    (∀ pos < 2 ^ lv, w' cin.idx pos = ofBit ((v (pos / 32)).2.1.testBit (pos % 32))) ∧
    (∀ pos < 2 ^ lv, w' cout.idx pos = ofBit ((v (pos / 32)).2.2.1.testBit (pos % 32))) ∧
    (∀ pos < 2 ^ lv, w' shl.idx pos = if carryIn.isSome then
      ofBit ((((v (pos / 32)).2.2.1 <<< 1) % 2 ^ 32).testBit (pos % 32))
      else ofBit ((v (pos / 32)).2.1.testBit (pos % 32))) ∧
    ∀ f, fo = some f → w' f.idx 0 = b := by
  obtain ⟨h1, h2, h3, h4, h5, h6⟩ := hl
  have hdiv : ∀ pos < 2 ^ lv, pos / 32 < 2 ^ lv / 32 := by
    intro pos hp
    obtain ⟨m, hm⟩ : 32 ∣ 2 ^ lv := by
      rw [show (32 : Nat) = 2 ^ 5 from rfl]; exact pow_dvd_pow 2 hlv
    rw [hm] at hp ⊢
    rw [Nat.mul_div_cancel_left _ (by norm_num)]
    omega
  have hfin : ∀ i, (∀ f, fo = some f → i ≠ f.idx) → ∀ pos, w' i pos = writeWords w (2 ^ lv / 32) cin cout shl z carryIn.isSome v i pos :=
    fun i hi pos => by rw [hw']; exact setBitOpt_ne hi pos
  have hfo : ∀ f, fo = some f → w' f.idx 0 = b := by
    intro f hf
    rw [hw', hf]
    exact if_pos ⟨rfl, rfl⟩
  cases carryIn with
  | none =>
    have hcs := h3 rfl
    have hww : writeWords w (2 ^ lv / 32) cin cout shl z (none : Option Col).isSome v =
        setWords (setWords (setWords w z (2 ^ lv / 32) fun k => (v k).1) cin (2 ^ lv / 32) fun k => (v k).2.1) cout (2 ^ lv / 32)
          fun k => (v k).2.2.1 := rfl
    rw [hww] at hfin
    rw [hcs] at hfin h5 h6
    refine ⟨fun i hi pos => ?_, fun pos hp => ?_, fun pos hp => ?_, fun pos hp => ?_, fun pos hp => ?_, hfo⟩
    · rw [hfin i (fun f hf => by have := h6 f hf; omega), setWords_ne (by omega), setWords_ne (by omega), setWords_ne (by omega)]
    · rw [hfin _ (fun f hf => by have := h6 f hf; omega), setWords_ne (by omega), setWords_ne (by omega), setWords_eq (hdiv pos hp)]
    · rw [hcs, hfin _ (fun f hf => by have := h6 f hf; omega), setWords_ne (by omega), setWords_eq (hdiv pos hp)]
    · rw [hfin _ (fun f hf => by have := h6 f hf; omega), setWords_eq (hdiv pos hp)]
    · rw [hfin _ (fun f hf => by have := h6 f hf; omega), setWords_ne (by omega), setWords_eq (hdiv pos hp)]
      rfl
  | some c =>
    have hcs := h4 rfl
    have hww : writeWords w (2 ^ lv / 32) cin cout shl z (some c).isSome v =
        setWords (setWords (setWords (setWords w z (2 ^ lv / 32) fun k => (v k).1) cin (2 ^ lv / 32) fun k => (v k).2.1) cout (2 ^ lv / 32)
          fun k => (v k).2.2.1) shl (2 ^ lv / 32) fun k => ((v k).2.2.1 <<< 1) % 2 ^ 32 := rfl
    rw [hww] at hfin
    refine ⟨fun i hi pos => ?_, fun pos hp => ?_, fun pos hp => ?_, fun pos hp => ?_, fun pos hp => ?_, hfo⟩
    · rw [hfin i (fun f hf => by have := h6 f hf; omega), setWords_ne (by omega), setWords_ne (by omega), setWords_ne (by omega),
        setWords_ne (by omega)]
    · rw [hfin _ (fun f hf => by have := h6 f hf; omega), setWords_ne (by omega), setWords_ne (by omega), setWords_ne (by omega),
        setWords_eq (hdiv pos hp)]
    · rw [hfin _ (fun f hf => by have := h6 f hf; omega), setWords_ne (by omega), setWords_ne (by omega), setWords_eq (hdiv pos hp)]
    · rw [hfin _ (fun f hf => by have := h6 f hf; omega), setWords_ne (by omega), setWords_eq (hdiv pos hp)]
    · rw [hfin _ (fun f hf => by have := h6 f hf; omega), setWords_eq (hdiv pos hp)]
      rfl

/-- The hypotheses on the carry in that word `k` needs. -/
theorem carryIn_word {w : Row F} {carryIn : Option Col} {k : Nat} (hz : ∀ j, 0 < j → j < 32 → optVal w carryIn (32 * k + j) = 0) :
    (carryIn.map fun c => getWord w c k).elim 0 id = bit (optVal w carryIn (32 * k)) := by
  cases carryIn with
  | none => simp [optVal]
  | some c =>
    show getWord w c k = bit (w c.idx (32 * k))
    have hz' : ∀ j, 0 < j → j < 32 → (fun j => w c.idx (32 * k + j)) j = 0 := hz
    rw [getWord, num_first (by norm_num) hz', Nat.add_zero]

theorem addRow_complete {L lv : Nat} (hlv : 5 ≤ lv) {x y cin cout shl z : Col} {carryIn fo : Option Col}
    (hl : Layout L cin cout shl z carryIn fo) (w : Row F) (hxL : x.idx < L) (hyL : y.idx < L)
    (hcL : ∀ c, carryIn = some c → c.idx < L)
    (hx : ∀ pos < 2 ^ lv, IsBit (w x.idx pos)) (hy : ∀ pos < 2 ^ lv, IsBit (w y.idx pos))
    (hc : ∀ pos < 2 ^ lv, IsBit (optVal w carryIn pos))
    (hz : ∀ pos < 2 ^ lv, pos % 32 ≠ 0 → optVal w carryIn pos = 0)
    {v : Nat → Nat × Nat × Nat × Bool}
    (hv : v = fun k => addWord (getWord w x k) (getWord w y k) (carryIn.map fun c => getWord w c k))
    {w' : Row F} (hw' : w' = setBitOpt (writeWords w (2 ^ lv / 32) cin cout shl z carryIn.isSome v) fo (ofBit (v 0).2.2.2)) :
    (∀ i < L, ∀ pos, w' i pos = w i pos) ∧ AddRow w' lv x y cin cout shl z carryIn ∧
      ∀ f, fo = some f → w' f.idx 0 = w' cout.idx 31 := by
  obtain ⟨g1, g2, g3, g4, g5, g6⟩ := writeWords_val hlv hl w v _ hw'
  have hdvd : 32 ∣ 2 ^ lv := by
    rw [show (32 : Nat) = 2 ^ 5 from rfl]; exact pow_dvd_pow 2 hlv
  obtain ⟨m, hm⟩ := hdvd
  have hmpos : 0 < m := by
    rcases Nat.eq_zero_or_pos m with h | h
    · have := Nat.two_pow_pos lv; rw [hm, h] at this; omega
    · exact h
  have hopt : ∀ pos, optVal w' carryIn pos = optVal w carryIn pos := by
    intro pos
    cases carryIn with
    | none => rfl
    | some c => exact g1 _ (hcL c rfl) pos
  have hword : ∀ k < m, _ := fun k hk => addWord_bits (x := fun j => w x.idx (32 * k + j)) (y := fun j => w y.idx (32 * k + j))
    (c := optVal w carryIn (32 * k)) (fun j hj => hx _ (by omega)) (fun j hj => hy _ (by omega)) (hc _ (by omega))
    (carryIn := carryIn.map fun c => getWord w c k)
    (carryIn_word fun j h1 h2 => hz _ (by omega) (by omega))
  have hvk : ∀ k, v k = addWord (num ((List.range 32).map fun j => w x.idx (32 * k + j)))
      (num ((List.range 32).map fun j => w y.idx (32 * k + j))) (carryIn.map fun c => getWord w c k) := fun k => by
    rw [hv]; rfl
  set ch : Nat → Nat → F := fun k => addChain (fun j => w x.idx (32 * k + j)) (fun j => w y.idx (32 * k + j))
    (optVal w carryIn (32 * k)) with hch
  have e : ∀ pos < 2 ^ lv, pos / 32 < m ∧ pos % 32 < 32 ∧ 32 * (pos / 32) + pos % 32 = pos := fun pos hp => by
    refine ⟨by omega, by omega, by omega⟩
  have vcin : ∀ pos < 2 ^ lv, w' cin.idx pos = ch (pos / 32) (pos % 32) := fun pos hp => by
    obtain ⟨e1, e2, e3⟩ := e pos hp
    rw [g3 pos hp, hvk]; exact ((hword _ e1).2.1 _ e2).2.1
  have vcout : ∀ pos < 2 ^ lv, w' cout.idx pos = ch (pos / 32) (pos % 32 + 1) := fun pos hp => by
    obtain ⟨e1, e2, e3⟩ := e pos hp
    rw [g4 pos hp, hvk]; exact ((hword _ e1).2.1 _ e2).2.2.1
  have vz : ∀ pos < 2 ^ lv, w' z.idx pos = w x.idx pos + w y.idx pos + ch (pos / 32) (pos % 32) := fun pos hp => by
    obtain ⟨e1, e2, e3⟩ := e pos hp
    rw [g2 pos hp, hvk]
    have := ((hword _ e1).2.1 _ e2).1
    rw [e3] at this
    exact this
  have vshl : ∀ pos < 2 ^ lv, w' shl.idx pos = if pos % 32 = 0 then 0 else ch (pos / 32) (pos % 32) := fun pos hp => by
    obtain ⟨e1, e2, e3⟩ := e pos hp
    rw [g5 pos hp, hvk]
    cases hci : carryIn with
    | some c =>
      rw [if_pos Option.isSome_some]
      have := ((hword _ e1).2.1 _ e2).2.2.2
      rw [hci] at this
      rw [this, hch, hci]
    | none =>
      rw [if_neg (by simp)]
      have := ((hword _ e1).2.1 _ e2).2.1
      rw [hci] at this
      rw [this, hch, hci]
      by_cases h0 : pos % 32 = 0
      · rw [if_pos h0, h0]; rfl
      · rw [if_neg h0]
  have hchin : ∀ pos < 2 ^ lv, w' cin.idx pos = (if pos % 32 = 0 then 0 else ch (pos / 32) (pos % 32)) + optVal w carryIn pos := by
    intro pos hp
    obtain ⟨e1, e2, e3⟩ := e pos hp
    rw [vcin pos hp]
    by_cases h0 : pos % 32 = 0
    · rw [if_pos h0, zero_add, h0]
      show optVal w carryIn (32 * (pos / 32)) = _
      congr 1; omega
    · rw [if_neg h0, hz pos hp h0, add_zero]
  refine ⟨g1, ⟨fun pos hp => ?_, fun pos hp => ?_, fun pos hp => ?_, fun pos hp => ?_, fun pos hp => ?_⟩, fun f hf => ?_⟩
  · rw [vcout pos hp]
    exact (hword _ (e pos hp).1).1 _ (by have := (e pos hp).2.1; omega)
  · rw [vshl pos hp]
    by_cases h0 : pos % 32 = 0
    · rw [if_pos h0, if_pos h0]
    · rw [if_neg h0, if_neg h0, vcout (pos - 1) (by omega)]
      have h1 : (pos - 1) / 32 = pos / 32 := by omega
      have h2 : (pos - 1) % 32 + 1 = pos % 32 := by omega
      rw [h1, h2]
  · rw [hchin pos hp, vshl pos hp, hopt]
  · rw [vcout pos hp, vcin pos hp, g1 _ hxL, g1 _ hyL]
    have h3 := (e pos hp).2.2
    show addChain _ _ _ (pos % 32 + 1) = _
    rw [addChain, h3]
  · rw [vz pos hp, vcin pos hp, g1 _ hxL, g1 _ hyL]
  · rw [g6 f hf, hvk, (hword 0 hmpos).2.2, vcout 31 (by omega)]

theorem subRow_complete {L lv : Nat} (hlv : 5 ≤ lv) {x y cin cout shl z : Col} {carryIn fo : Option Col}
    (hl : Layout L cin cout shl z carryIn fo) (w : Row F) (hxL : x.idx < L) (hyL : y.idx < L)
    (hcL : ∀ c, carryIn = some c → c.idx < L)
    (hx : ∀ pos < 2 ^ lv, IsBit (w x.idx pos)) (hy : ∀ pos < 2 ^ lv, IsBit (w y.idx pos))
    (hc : ∀ pos < 2 ^ lv, IsBit (optVal w carryIn pos))
    (hz : ∀ pos < 2 ^ lv, pos % 32 ≠ 0 → optVal w carryIn pos = 0)
    {v : Nat → Nat × Nat × Nat × Bool}
    (hv : v = fun k => subWord (getWord w x k) (getWord w y k) (carryIn.map fun c => getWord w c k))
    {w' : Row F} (hw' : w' = setBitOpt (writeWords w (2 ^ lv / 32) cin cout shl z carryIn.isSome v) fo (ofBit (v 0).2.2.2)) :
    (∀ i < L, ∀ pos, w' i pos = w i pos) ∧ SubRow w' lv x y cin cout shl z carryIn ∧
      ∀ f, fo = some f → w' f.idx 0 = w' cout.idx 31 := by
  obtain ⟨g1, g2, g3, g4, g5, g6⟩ := writeWords_val hlv hl w v _ hw'
  have hdvd : 32 ∣ 2 ^ lv := by
    rw [show (32 : Nat) = 2 ^ 5 from rfl]; exact pow_dvd_pow 2 hlv
  obtain ⟨m, hm⟩ := hdvd
  have hmpos : 0 < m := by
    rcases Nat.eq_zero_or_pos m with h | h
    · have := Nat.two_pow_pos lv; rw [hm, h] at this; omega
    · exact h
  have hopt : ∀ pos, optVal w' carryIn pos = optVal w carryIn pos := by
    intro pos
    cases carryIn with
    | none => rfl
    | some c => exact g1 _ (hcL c rfl) pos
  have hword : ∀ k < m, _ := fun k hk => subWord_bits (x := fun j => w x.idx (32 * k + j)) (y := fun j => w y.idx (32 * k + j))
    (b := optVal w carryIn (32 * k)) (fun j hj => hx _ (by omega)) (fun j hj => hy _ (by omega)) (hc _ (by omega))
    (borrowIn := carryIn.map fun c => getWord w c k)
    (carryIn_word fun j h1 h2 => hz _ (by omega) (by omega))
  have hvk : ∀ k, v k = subWord (num ((List.range 32).map fun j => w x.idx (32 * k + j)))
      (num ((List.range 32).map fun j => w y.idx (32 * k + j))) (carryIn.map fun c => getWord w c k) := fun k => by
    rw [hv]; rfl
  set ch : Nat → Nat → F := fun k => subChain (fun j => w x.idx (32 * k + j)) (fun j => w y.idx (32 * k + j))
    (optVal w carryIn (32 * k)) with hch
  have e : ∀ pos < 2 ^ lv, pos / 32 < m ∧ pos % 32 < 32 ∧ 32 * (pos / 32) + pos % 32 = pos := fun pos hp => by
    refine ⟨by omega, by omega, by omega⟩
  have vcin : ∀ pos < 2 ^ lv, w' cin.idx pos = ch (pos / 32) (pos % 32) := fun pos hp => by
    obtain ⟨e1, e2, e3⟩ := e pos hp
    rw [g3 pos hp, hvk]; exact ((hword _ e1).2.1 _ e2).2.1
  have vcout : ∀ pos < 2 ^ lv, w' cout.idx pos = ch (pos / 32) (pos % 32 + 1) := fun pos hp => by
    obtain ⟨e1, e2, e3⟩ := e pos hp
    rw [g4 pos hp, hvk]; exact ((hword _ e1).2.1 _ e2).2.2.1
  have vz : ∀ pos < 2 ^ lv, w' z.idx pos = w x.idx pos + w y.idx pos + ch (pos / 32) (pos % 32) := fun pos hp => by
    obtain ⟨e1, e2, e3⟩ := e pos hp
    rw [g2 pos hp, hvk]
    have := ((hword _ e1).2.1 _ e2).1
    rw [e3] at this
    exact this
  have vshl : ∀ pos < 2 ^ lv, w' shl.idx pos = if pos % 32 = 0 then 0 else ch (pos / 32) (pos % 32) := fun pos hp => by
    obtain ⟨e1, e2, e3⟩ := e pos hp
    rw [g5 pos hp, hvk]
    cases hci : carryIn with
    | some c =>
      rw [if_pos Option.isSome_some]
      have := ((hword _ e1).2.1 _ e2).2.2.2
      rw [hci] at this
      rw [this, hch, hci]
    | none =>
      rw [if_neg (by simp)]
      have := ((hword _ e1).2.1 _ e2).2.1
      rw [hci] at this
      rw [this, hch, hci]
      by_cases h0 : pos % 32 = 0
      · rw [if_pos h0, h0]; rfl
      · rw [if_neg h0]
  have hchin : ∀ pos < 2 ^ lv, w' cin.idx pos = (if pos % 32 = 0 then 0 else ch (pos / 32) (pos % 32)) + optVal w carryIn pos := by
    intro pos hp
    obtain ⟨e1, e2, e3⟩ := e pos hp
    rw [vcin pos hp]
    by_cases h0 : pos % 32 = 0
    · rw [if_pos h0, zero_add, h0]
      show optVal w carryIn (32 * (pos / 32)) = _
      congr 1; omega
    · rw [if_neg h0, hz pos hp h0, add_zero]
  refine ⟨g1, ⟨fun pos hp => ?_, fun pos hp => ?_, fun pos hp => ?_, fun pos hp => ?_, fun pos hp => ?_⟩, fun f hf => ?_⟩
  · rw [vcout pos hp]
    exact (hword _ (e pos hp).1).1 _ (by have := (e pos hp).2.1; omega)
  · rw [vshl pos hp]
    by_cases h0 : pos % 32 = 0
    · rw [if_pos h0, if_pos h0]
    · rw [if_neg h0, if_neg h0, vcout (pos - 1) (by omega)]
      have h1 : (pos - 1) / 32 = pos / 32 := by omega
      have h2 : (pos - 1) % 32 + 1 = pos % 32 := by omega
      rw [h1, h2]
  · rw [hchin pos hp, vshl pos hp, hopt]
  · rw [vcout pos hp, vcin pos hp, g1 _ hxL, g1 _ hyL]
    have h3 := (e pos hp).2.2
    show subChain _ _ _ (pos % 32 + 1) = _
    rw [subChain, h3]
  · rw [vz pos hp, vcin pos hp, g1 _ hxL, g1 _ hyL]
  · rw [g6 f hf, hvk, (hword 0 hmpos).2.2, vcout 31 (by omega)]

end Verif.M3
