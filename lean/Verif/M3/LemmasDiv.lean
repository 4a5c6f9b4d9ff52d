import Verif.M3.LemmasSigned4

/-! Lemmas shared by the gadgets that divide. -/

set_option linter.dupNamespace false
set_option linter.unusedSectionVars false

namespace Verif.M3

open Finset Verif.Arith

variable {F : Type} [Field F] [DecidableEq F] [CharP F 2]

/-! ### Longer numbers -/

theorem val_append (w : Row F) (a b : List Col) (j : Nat) : val w (a ++ b) j = if j < a.length then val w a j else val w b (j - a.length) := by
  unfold val
  split
  · rename_i h; rw [List.getElem?_append_left h]
  · rename_i h; rw [List.getElem?_append_right (by omega)]

theorem Bits.append {w : Row F} {a b : List Col} {n m A B : Nat} (ha : Bits w a n A) (hl : a.length = n) (hb : Bits w b m B)
    (hA : A < 2 ^ n) : Bits w (a ++ b) (n + m) (A + 2 ^ n * B) := by
  intro j hj
  rw [val_append, Nat.add_comm A, Nat.testBit_two_pow_mul_add _ hA, hl]
  split
  · rename_i h; exact ha j h
  · exact hb _ (by omega)

theorem val_replicate (w : Row F) (c : Col) {m j : Nat} (hj : j < m) : val w (List.replicate m c) j = w c.idx 0 := by
  rw [val, List.getElem?_replicate, if_pos hj]; rfl

theorem Bits.replicate {w : Row F} {c : Col} {b : Bool} (h : w c.idx 0 = ofBit b) (m : Nat) :
    Bits w (List.replicate m c) m (if b then 2 ^ m - 1 else 0) := by
  intro j hj
  rw [val_replicate w c hj, h]
  cases b
  · simp
  · rw [if_pos rfl, Nat.testBit_two_pow_sub_one, decide_eq_true hj]

theorem HasAll.append {t : Table F} {a b : List Col} {n m : Nat} (ha : HasAll t a n) (hb : HasAll t b m) : HasAll t (a ++ b) (n + m) := by
  refine ⟨by rw [List.length_append, ha.length, hb.length], fun k c hk => ?_⟩
  rcases List.mem_append.1 (List.mem_of_getElem? hk) with h | h
  · exact ha.mem h
  · exact hb.mem h

theorem HasAll.replicate {t : Table F} {c : Col} (h : t.Has c 0 0) (m : Nat) : HasAll t (List.replicate m c) m := by
  refine ⟨List.length_replicate, fun k d hk => ?_⟩
  rw [List.eq_of_mem_replicate (List.mem_of_getElem? hk)]
  exact h

/-- A number whose bits are known is known. -/
theorem Bits.inj {w : Row F} {a b : List Col} {n A B : Nat} (ha : Bits w a n A) (hb : Bits w b n B) (hA : A < 2 ^ n) (hB : B < 2 ^ n)
    (h : ∀ j < n, val w a j = val w b j) : A = B := by
  refine Nat.eq_of_testBit_eq fun j => ?_
  by_cases hj : j < n
  · have := h j hj
    rw [ha j hj, hb j hj] at this
    cases h1 : A.testBit j <;> cases h2 : B.testBit j <;> simp_all
  · rw [Nat.testBit_lt_two_pow (hA.trans_le (Nat.pow_le_pow_right (by omega) (by omega))),
      Nat.testBit_lt_two_pow (hB.trans_le (Nat.pow_le_pow_right (by omega) (by omega)))]

/-! ### Constraints -/

theorem equalZero_ok (Tw : Tower F) {t : Table F} (ht : WellFormed t) {n : Nat} {p z : List Col} (hp : HasAll t p n) (hz : HasAll t z n) :
    ∃ t', forEach (equalZero p z) 0 n t = some t' ∧ t'.columns.length = t.columns.length ∧
      Adds Tw t t' fun w => ∀ j < n, val w p j = val w z j := by
  obtain ⟨t', h1, h2, h3⟩ := forEach_ok Tw (f := (equalZero p z : Nat → Table F → _)) (fun j w => val w p j = val w z j) n 0 t ht (by
    intro j _ hj t1 he hw
    obtain ⟨a, ha, haj⟩ := hp.get (j := j) (by omega)
    obtain ⟨b, hb, hbj⟩ := hz.get (j := j) (by omega)
    obtain ⟨t2, g1, g2, g3⟩ := assertZero_ok Tw (Ev.sub (Ev.col (haj.ext he)) (Ev.col (hbj.ext he)))
    refine ⟨t2, by rw [equalZero, ha, Option.bind_some, hb, Option.bind_some, g1], by rw [g2], g3.congr fun w _ => ?_⟩
    rw [forall_lt_one, val_get ha, val_get hb]
    exact CharTwo.add_eq_zero)
  exact ⟨t', h1, h2, h3.congr fun w _ => by simp only [Nat.zero_add]⟩

theorem lessThan_ok (Tw : Tower F) {t : Table F} {z : List Col} (hz : HasAll t z 64) :
    ∃ t', lessThan t z = some t' ∧ t'.columns.length = t.columns.length ∧ Adds Tw t t' fun w => val w z 63 = 1 := by
  obtain ⟨a, ha, haj⟩ := hz.get (j := 63) (by norm_num)
  obtain ⟨t2, g1, g2, g3⟩ := assertZero_ok Tw (Ev.add (Ev.col haj) (Ev.const t 0 1))
  refine ⟨t2, by rw [lessThan, ha, Option.bind_some, g1], by rw [g2], g3.congr fun w _ => ?_⟩
  rw [forall_lt_one, val_get ha]
  constructor
  · intro h; linear_combination h - (two_zero (F := F))
  · intro h; rw [h]; exact CharTwo.add_self_eq_zero 1

/-! ### The adder -/

structure AddFill (L n : Nat) (g : WideAdd) (w w' : Row F) (Z : Nat) : Prop where
  ne : ∀ i, (i < L ∨ L + n + n + 1 ≤ i) → ∀ pos, w' i pos = w i pos
  row : WideAddRow w' n g.xIn g.yIn g.cin g.zOut g.finalCarryOut none
  z : Bits w' g.zOut n Z

theorem addFill_any {L n : Nat} (hn : 0 < n) {t : Table F} (hL : t.columns.length = L) {g : WideAdd}
    (hl : Layout3 L n g.cin g.zOut g.finalCarryOut) (hx : HasAll t g.xIn n) (hy : HasAll t g.yIn n)
    {w : Row F} {X Y : Nat} (hX : X < 2 ^ n) (hY : Y < 2 ^ n) (hxb : Bits w g.xIn n X) (hyb : Bits w g.yIn n Y) (k : Bool) {w' : Row F}
    (hw' : w' = setBit (WideAdd.loop w g.xIn g.yIn g.cin g.zOut (ofBit k) w).1 g.finalCarryOut
      (WideAdd.loop w g.xIn g.yIn g.cin g.zOut (ofBit k) w).2) :
    AddFill L n g w w' ((X + Y + k.toNat) % 2 ^ n) := by
  obtain ⟨c1, c2, c3⟩ := wideAdd_complete hL hl hx hy hxb.isBit hyb.isBit (k := ofBit k) (ofBit_isBit k) hw'
  have hr := (c3 none fun q hq => (by cases hq)).2 fun _ q hq => (by cases hq)
  have bx : Bits w' g.xIn n X := hxb.congr fun c hc => c1 _ (hL ▸ (hx.mem hc).lt) 0
  have by' : Bits w' g.yIn n Y := hyb.congr fun c hc => c1 _ (hL ▸ (hy.mem hc).lt) 0
  refine ⟨fun i hi pos => ?_, hr, ?_⟩
  · have := hl.fidx
    rw [hw', setBit_ne (by omega), wideAdd_loop hx.length hy.length hl.clen hl.zlen]
    dsimp only
    rw [(writes_val hl.clen hl.zlen hl.cidx hl.zidx (Or.inl le_rfl)).2.2 i (by omega) (by omega) pos]
  · have hs := wideAdd_sound hr hn hx.length hy.length hl.zlen bx.isBit by'.isBit
    rw [c2 hn, bx.wide hx.length hX, by'.wide hy.length hY, bit_ofBit] at hs
    have := Bits.of_wide hl.zlen (w := w') fun j hj => by
      rw [hr.sum j hj]
      exact isBit_add (isBit_add (bx.isBit j hj) (by'.isBit j hj)) (hr.bits j hj)
    rwa [show wide w' g.zOut = (X + Y + k.toNat) % 2 ^ n by
      rw [← hs, Nat.add_mul_mod_self_left, Nat.mod_eq_of_lt (wide_lt w' hl.zlen)]] at this

theorem addFill_populate {L n : Nat} (hn : 0 < n) {t : Table F} (hL : t.columns.length = L) {g : WideAdd}
    (hl : Layout3 L n g.cin g.zOut g.finalCarryOut) (hfl : g.flags.carryInBit = none) (hx : HasAll t g.xIn n) (hy : HasAll t g.yIn n)
    {w : Row F} {X Y : Nat} (hX : X < 2 ^ n) (hY : Y < 2 ^ n) (hxb : Bits w g.xIn n X) (hyb : Bits w g.yIn n Y) :
    AddFill L n g w (g.populate (fun _ => w) 0) ((X + Y) % 2 ^ n) := by
  refine addFill_any (k := false) hn hL hl hx hy hX hY hxb hyb ?_
  rw [WideAdd.populate, hfl]
  rfl

/-! ### The loop over the bits -/

theorem populateDiv_vals {pin qin dout rout : Col} {ps qs ds rs : List Col} {ip iq id ir : Nat} (hp : ps.length = 32) (hq : qs.length = 32)
    (hd : ds.length = 32) (hr : rs.length = 32) (cp : ∀ (k : Nat) (c : Col), ps[k]? = some c → c.idx = ip + k)
    (cq : ∀ (k : Nat) (c : Col), qs[k]? = some c → c.idx = iq + k) (cd : ∀ (k : Nat) (c : Col), ds[k]? = some c → c.idx = id + k)
    (cr : ∀ (k : Nat) (c : Col), rs[k]? = some c → c.idx = ir + k) (hpq : ip + 32 = iq) (h1 : pin.idx = iq + 32) (h2 : qin.idx = iq + 33)
    (h3 : id = iq + 34) (hdr : id + 32 = ir) (h4 : dout.idx = ir + 32) (h5 : rout.idx = ir + 33) (basis : Nat → F) (p q d r : Nat)
    (w : Row F) {w' : Row F} (hw' : w' = populateDiv basis pin qin dout rout ps qs ds rs p q d r w) :
    (∀ i, (i < ip ∨ ip + 132 ≤ i) → ∀ pos, w' i pos = w i pos) ∧ Bits w' ps 32 p ∧ Bits w' qs 32 q ∧ Bits w' ds 32 d ∧ Bits w' rs 32 r ∧
    w' pin.idx 0 = element basis 32 p ∧ w' qin.idx 0 = element basis 32 q ∧ w' dout.idx 0 = element basis 32 d ∧
    w' rout.idx 0 = element basis 32 r := by
  have rp : ∀ c ∈ ps, ip ≤ c.idx ∧ c.idx < ip + 32 := fun c hc => idx_range hp cp hc
  have rq : ∀ c ∈ qs, iq ≤ c.idx ∧ c.idx < iq + 32 := fun c hc => idx_range hq cq hc
  have rd : ∀ c ∈ ds, id ≤ c.idx ∧ c.idx < id + 32 := fun c hc => idx_range hd cd hc
  have rr : ∀ c ∈ rs, ir ≤ c.idx ∧ c.idx < ir + 32 := fun c hc => idx_range hr cr hc
  rw [populateDiv] at hw'
  set a := setBit (setBit (setBit (setBit w pin (element basis 32 p)) qin (element basis 32 q)) dout (element basis 32 d))
    rout (element basis 32 r) with ha
  set b1 := setBits ps (fun j => ofBit (p.testBit j)) a with hb1
  set b2 := setBits qs (fun j => ofBit (q.testBit j)) b1 with hb2
  set b3 := setBits ds (fun j => ofBit (d.testBit j)) b2 with hb3
  have e4 : ∀ i, (i < ir ∨ ir + 32 ≤ i) → ∀ pos, w' i pos = b3 i pos := fun i hi pos => by
    rw [hw', setBits_ne fun c hc => (by have := rr c hc; omega)]
  have e3 : ∀ i, (i < id ∨ id + 32 ≤ i) → ∀ pos, b3 i pos = b2 i pos := fun i hi pos => by
    rw [hb3, setBits_ne fun c hc => (by have := rd c hc; omega)]
  have e2 : ∀ i, (i < iq ∨ iq + 32 ≤ i) → ∀ pos, b2 i pos = b1 i pos := fun i hi pos => by
    rw [hb2, setBits_ne fun c hc => (by have := rq c hc; omega)]
  have e1 : ∀ i, (i < ip ∨ ip + 32 ≤ i) → ∀ pos, b1 i pos = a i pos := fun i hi pos => by
    rw [hb1, setBits_ne fun c hc => (by have := rp c hc; omega)]
  refine ⟨fun i hi pos => ?_, ?_, ?_, ?_, ?_, ?_, ?_, ?_, ?_⟩
  · rw [e4 i (by omega), e3 i (by omega), e2 i (by omega), e1 i (by omega), ha, setBit_ne (by omega), setBit_ne (by omega),
      setBit_ne (by omega), setBit_ne (by omega)]
  · exact (Bits.set hp (nodup_range hp cp) p a).congr fun c hc => by
      have := rp c hc
      rw [e4 _ (by omega), e3 _ (by omega), e2 _ (by omega)]
  · exact (Bits.set hq (nodup_range hq cq) q b1).congr fun c hc => by
      have := rq c hc
      rw [e4 _ (by omega), e3 _ (by omega)]
  · exact (Bits.set hd (nodup_range hd cd) d b2).congr fun c hc => by
      have := rd c hc
      rw [e4 _ (by omega)]
  · rw [hw']; exact Bits.set hr (nodup_range hr cr) r b3
  · rw [e4 _ (by omega), e3 _ (by omega), e2 _ (by omega), e1 _ (by omega), ha, setBit_ne (by omega), setBit_ne (by omega),
      setBit_ne (by omega), setBit_eq]
  · rw [e4 _ (by omega), e3 _ (by omega), e2 _ (by omega), e1 _ (by omega), ha, setBit_ne (by omega), setBit_ne (by omega), setBit_eq]
  · rw [e4 _ (by omega), e3 _ (by omega), e2 _ (by omega), e1 _ (by omega), ha, setBit_ne (by omega), setBit_eq]
  · rw [e4 _ (by omega), e3 _ (by omega), e2 _ (by omega), e1 _ (by omega), ha, setBit_eq]

theorem element_zero (basis : Nat → F) (n : Nat) : element basis n 0 = 0 := by
  unfold element
  exact Finset.sum_eq_zero fun e _ => by simp

theorem element_ne_zero {Tw : Tower F} {level : Nat} (hT : level ≤ Tw.height) {x : Nat} (hx : x < 2 ^ 2 ^ level) (h : x ≠ 0) :
    element Tw.basis (2 ^ level) x ≠ 0 := fun h0 =>
  h (element_inj hT hx (Nat.two_pow_pos _) (by rw [h0, element_zero]))

/-- A constant column holds its constant once it is filled. -/
theorem fillConstants_zero {t1 t' : Table F} (he : Ext t1 t') {i : Nat} {v : F} {c : ColumnInfo F} (h : t1.columns[i]? = some c)
    (hd : c.defn = .constant [v]) (w : Row F) : t'.fillConstants w i 0 = v := by
  obtain ⟨c', h1, -, -, h4⟩ := he.cols i c h
  rw [Table.fillConstants, h1]
  dsimp only
  rw [h4, hd]
  rfl

/-- Filling the constants changes nothing in a row that satisfies the constraints. -/
theorem fillConstants_eq {Tw : Tower F} {t t' : Table F} (he : Ext t t') {w : Row F} (hw : RowHolds Tw t w)
    {i : Nat} (hi : i < t.columns.length) (pos : Nat) (hp : ∀ c, t.columns[i]? = some c → pos < 2 ^ c.logValuesPerRow) :
    t'.fillConstants w i pos = w i pos := by
  have hget := List.getElem?_eq_getElem hi
  obtain ⟨c', h1, h2, h3, h4⟩ := he.cols i _ hget
  rw [Table.fillConstants, h1]
  dsimp only
  split
  · rename_i data hdata
    have hc := (hw.1 i _ hget).2.1
    rw [← h4, hdata] at hc
    have := hc pos (hp _ hget)
    rw [this]; rfl
  · rfl

end Verif.M3
