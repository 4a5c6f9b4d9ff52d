import Verif.M3.LemmasLookup
import Verif.M3.LemmasTower

set_option linter.dupNamespace false
set_option linter.unusedSectionVars false

namespace Verif.M3

open Verif.Field Verif.Arith

/-! ### The merged columns -/

theorem mul_byte {x : B128} {k : Nat} (hx : toVal 7 x < 256) (hk : k < 16) :
    x * ofVal 7 (1 <<< (8 * k)) = ofVal 7 (toVal 7 x * 2 ^ (8 * k)) := by
  have := ofVal_mul_basis (N := 7) (l := 3) (k := k) (v := toVal 7 x) (by omega) hk hx
  rw [ofVal_toVal] at this
  rw [one_shl, ofVal_two_pow 7 (8 * k) (by omega)]
  exact this

theorem merge_and {a b o : B128} (ha : toVal 7 a < 256) (hb : toVal 7 b < 256) (ho : toVal 7 o < 256) :
    a + b * ofVal 7 (1 <<< 8) + o * ofVal 7 (1 <<< 16) =
      ofVal 7 (mergeBitandVals (toVal 7 a) (toVal 7 b) (toVal 7 o)) := by
  have h1 := mul_byte (k := 1) hb (by omega)
  have h2 := mul_byte (k := 2) ho (by omega)
  rw [show (1 : Nat) <<< 8 = 1 <<< (8 * 1) from rfl, h1, show (1 : Nat) <<< 16 = 1 <<< (8 * 2) from rfl, h2,
    mergeBitand_eq ha hb]
  have e1 := xor_add (a := toVal 7 a) (b := toVal 7 b) (n := 8 * 1) ha
  have e2 := xor_add (a := toVal 7 a + toVal 7 b * 2 ^ (8 * 1)) (b := toVal 7 o) (n := 8 * 2) (by omega)
  rw [show toVal 7 a + toVal 7 b * 256 + toVal 7 o * 65536 =
    toVal 7 a + toVal 7 b * 2 ^ (8 * 1) + toVal 7 o * 2 ^ (8 * 2) from rfl, ← e2, ofVal_xor, ← e1, ofVal_xor, ofVal_toVal]

theorem merge_incr {a ci o co : B128} (ha : toVal 7 a < 256) (hci : toVal 7 ci < 2) (ho : toVal 7 o < 256)
    (hco : toVal 7 co < 2) :
    a + o * ofVal 7 (1 <<< 8) + ci * ofVal 7 (1 <<< 16) + co * (ofVal 7 (1 <<< 16) * ofVal 7 (1 <<< 1)) =
      ofVal 7 (toVal 7 a + toVal 7 o * 256 + toVal 7 ci * 65536 + toVal 7 co * 131072) := by
  have h1 := mul_byte (k := 1) ho (by omega)
  have h2 := mul_byte (k := 2) (x := ci) (by omega) (by omega)
  have h3 := ofVal_mul_basis (N := 7) (l := 0) (k := 17) (v := toVal 7 co) (by omega) (by decide) hco
  have hb : ofVal 7 (1 <<< 16) * ofVal 7 (1 <<< 1) = basisT 7 (2 ^ 0 * 17) := by
    rw [one_shl, one_shl, ofVal_two_pow 7 16 (by decide), ofVal_two_pow 7 1 (by decide)]
    exact (basis_mul 7 4 1 1 (by decide) (by decide) (by decide)).symm
  rw [ofVal_toVal] at h3
  rw [hb, h3, show (1 : Nat) <<< 8 = 1 <<< (8 * 1) from rfl, h1, show (1 : Nat) <<< 16 = 1 <<< (8 * 2) from rfl, h2]
  have e1 := xor_add (a := toVal 7 a) (b := toVal 7 o) (n := 8 * 1) ha
  have e2 := xor_add (a := toVal 7 a + toVal 7 o * 2 ^ (8 * 1)) (b := toVal 7 ci) (n := 8 * 2) (by omega)
  have e3 := xor_add (a := toVal 7 a + toVal 7 o * 2 ^ (8 * 1) + toVal 7 ci * 2 ^ (8 * 2)) (b := toVal 7 co) (n := 2 ^ 0 * 17)
    (by omega)
  rw [show toVal 7 a + toVal 7 o * 256 + toVal 7 ci * 65536 + toVal 7 co * 131072 =
    toVal 7 a + toVal 7 o * 2 ^ (8 * 1) + toVal 7 ci * 2 ^ (8 * 2) + toVal 7 co * 2 ^ (2 ^ 0 * 17) from rfl,
    ← e3, ofVal_xor, ← e2, ofVal_xor, ← e1, ofVal_xor, ofVal_toVal]

/-! ### The gadgets -/

theorem has_val {t : Table B128} {c : Col} {level lv : Nat} (hc : t.Has c level lv) (hl : level ≤ 7) {w : Row B128}
    (hw : RowHolds tower128 t w) {pos : Nat} (hp : pos < 2 ^ lv) : toVal 7 (w c.idx pos) < 2 ^ 2 ^ level := by
  obtain ⟨⟨i, h1, h2, h3⟩, -⟩ := hc
  have := (hw.1 _ i h1).1 pos (h3 ▸ hp)
  rw [h2] at this
  exact (inSub_iff 7 level hl _).1 this

/-- What a row with the gadget of bitwise AND has to satisfy. -/
theorem bitand_new (t : Table B128) (ht : WellFormed t) (lv chan : Nat) {inA inB : Col} (ha : t.Has inA 3 lv) (hb : t.Has inB 3 lv) :
    ∃ g t', BitAnd.new t lv chan inA inB = some (g, t', ⟨lv, [g.merged.idx], chan, .pull, 1, []⟩) ∧ WellFormed t' ∧
      g.inA = inA ∧ g.inB = inB ∧ t'.Has g.output 3 lv ∧ t'.Has g.merged 5 lv ∧
      g.output.idx = t.columns.length ∧ g.merged.idx = t.columns.length + 1 ∧
      ∀ w, RowHolds tower128 t' w ↔ RowHolds tower128 t w ∧ ∀ pos < 2 ^ lv, toVal 7 (w g.output.idx pos) < 256 ∧
        toVal 7 (w g.merged.idx pos) = toVal 7 (w inA.idx pos) + toVal 7 (w inB.idx pos) * 256 +
          toVal 7 (w g.output.idx pos) * 65536 := by
  obtain ⟨o, t1, h1, n1, a1⟩ := addCommitted_ok tower128 t 3 lv
  have ev : Ev t1 lv _ _ := (((Ev.col ha).ext a1.ext).add (((Ev.col hb).ext a1.ext).mul (Ev.const t1 lv (ofVal 7 (1 <<< 8))))).add
    ((Ev.col n1.has).mul (Ev.const t1 lv (ofVal 7 (1 <<< 16))))
  obtain ⟨m, t2, h2, n2, a2⟩ := addComputed_ok tower128 (a1.wf ht) 5 ev
  refine ⟨⟨inA, inB, o, m⟩, t2, ?_, a2.wf (a1.wf ht), rfl, rfl, n1.has.ext a2.ext, n2.has, n1.idx, by rw [n2.idx, n1.len], fun w => ?_⟩
  · rw [BitAnd.new, h1, Option.bind_some, mergeAndColumns, h2]
    rfl
  · rw [(a1.trans a2).holds ht w]
    refine and_congr_right fun hw => ?_
    have va : ∀ pos < 2 ^ lv, toVal 7 (w inA.idx pos) < 256 := fun pos hp => has_val ha (by omega) hw hp
    have vb : ∀ pos < 2 ^ lv, toVal 7 (w inB.idx pos) < 256 := fun pos hp => has_val hb (by omega) hw hp
    constructor
    · rintro ⟨i1, i2, h⟩ pos hp
      have vo : toVal 7 (w o.idx pos) < 256 := (inSub_iff 7 3 (by omega) _).1 (i1 pos hp)
      refine ⟨vo, ?_⟩
      show toVal 7 (w m.idx pos) = _
      rw [h pos hp, merge_and (va pos hp) (vb pos hp) vo, mergeBitand_eq (va pos hp) (vb pos hp), toVal_ofVal]
      have := va pos hp
      have := vb pos hp
      exact Nat.mod_eq_of_lt (lt_trans (b := 2 ^ 24) (by show _ + _ * 256 + _ * 65536 < 2 ^ 24; omega)
        (Nat.pow_lt_pow_right (by omega) (by decide)))
    · intro h
      refine ⟨fun pos hp => (inSub_iff 7 3 (by omega) _).2 (h pos hp).1, fun pos hp => (inSub_iff 7 5 (by omega) _).2 ?_,
        fun pos hp => ?_⟩
      · have h1 := h pos hp
        have := va pos hp
        have := vb pos hp
        have h2 : toVal 7 (w m.idx pos) = _ := h1.2
        have h3 : toVal 7 (w o.idx pos) < 256 := h1.1
        rw [h2]
        refine lt_trans (b := 2 ^ 24) ?_ (Nat.pow_lt_pow_right (by omega) (by decide))
        show _ + _ * 256 + toVal 7 (w o.idx pos) * 65536 < 2 ^ 24
        omega
      · have h1 := h pos hp
        rw [merge_and (va pos hp) (vb pos hp) h1.1, mergeBitand_eq (va pos hp) (vb pos hp), ← h1.2, ofVal_toVal]

/-- What a row with the gadget of increments has to satisfy. -/
theorem incr_new (t : Table B128) (ht : WellFormed t) (chan : Nat) {input carryIn : Col} (ha : t.Has input 3 0)
    (hc : t.Has carryIn 0 0) :
    ∃ g t', ByteIncr.new t chan input carryIn = some (g, t', ⟨0, [g.merged.idx], chan, .pull, 1, []⟩) ∧ WellFormed t' ∧
      g.input = input ∧ g.carryIn = carryIn ∧ t'.Has g.output 3 0 ∧ t'.Has g.carryOut 0 0 ∧ t'.Has g.merged 5 0 ∧
      g.output.idx = t.columns.length ∧ g.carryOut.idx = t.columns.length + 1 ∧ g.merged.idx = t.columns.length + 2 ∧
      ∀ w, RowHolds tower128 t' w ↔ RowHolds tower128 t w ∧ toVal 7 (w g.output.idx 0) < 256 ∧
        toVal 7 (w g.carryOut.idx 0) < 2 ∧
        toVal 7 (w g.merged.idx 0) = toVal 7 (w input.idx 0) + toVal 7 (w g.output.idx 0) * 256 +
          toVal 7 (w carryIn.idx 0) * 65536 + toVal 7 (w g.carryOut.idx 0) * 131072 := by
  obtain ⟨o, t1, h1, n1, a1⟩ := addCommitted_ok tower128 t 3 0
  obtain ⟨d, t2, h2, n2, a2⟩ := addCommitted_ok tower128 t1 0 0
  have a12 := a1.trans a2
  have ev : Ev t2 0 _ _ := ((((Ev.col ha).ext a12.ext).add (((Ev.col n1.has).ext a2.ext).mul (Ev.const t2 0 (ofVal 7 (1 <<< 8))))).add
    (((Ev.col hc).ext a12.ext).mul (Ev.const t2 0 (ofVal 7 (1 <<< 16))))).add
    ((Ev.col n2.has).mul (Ev.const t2 0 (ofVal 7 (1 <<< 16) * ofVal 7 (1 <<< 1))))
  obtain ⟨m, t3, h3, n3, a3⟩ := addComputed_ok tower128 (a12.wf ht) 5 ev
  refine ⟨⟨input, carryIn, o, d, m⟩, t3, ?_, a3.wf (a12.wf ht), rfl, rfl, (n1.has.ext a2.ext).ext a3.ext, n2.has.ext a3.ext, n3.has,
    n1.idx, by rw [n2.idx, n1.len], by rw [n3.idx, n2.len, n1.len], fun w => ?_⟩
  · rw [ByteIncr.new, h1, Option.bind_some, h2, Option.bind_some, mergeIncrCols, h3]
    rfl
  · rw [(a12.trans a3).holds ht w]
    refine and_congr_right fun hw => ?_
    have va : toVal 7 (w input.idx 0) < 256 := has_val ha (by omega) hw (by omega)
    have vc : toVal 7 (w carryIn.idx 0) < 2 := has_val hc (by omega) hw (by omega)
    have h0 : ∀ pos, pos < 2 ^ 0 ↔ pos = 0 := fun pos => by omega
    have hlt : ∀ x y z u : Nat, x < 256 → y < 256 → z < 2 → u < 2 → x + y * 256 + z * 65536 + u * 131072 < 2 ^ 24 := by omega
    constructor
    · rintro ⟨⟨i1, i2⟩, i3, h⟩
      have vo : toVal 7 (w o.idx 0) < 256 := (inSub_iff 7 3 (by omega) _).1 (i1 0 (by omega))
      have vd : toVal 7 (w d.idx 0) < 2 := (inSub_iff 7 0 (by omega) _).1 (i2 0 (by omega))
      refine ⟨vo, vd, ?_⟩
      show toVal 7 (w m.idx 0) = _
      rw [h 0 (by omega), merge_incr va vc vo vd, toVal_ofVal]
      exact Nat.mod_eq_of_lt (lt_trans (hlt _ _ _ _ va vo vc vd) (Nat.pow_lt_pow_right (by omega) (by decide)))
    · rintro ⟨vo, vd, h⟩
      have vo : toVal 7 (w o.idx 0) < 256 := vo
      have vd : toVal 7 (w d.idx 0) < 2 := vd
      have h : toVal 7 (w m.idx 0) = toVal 7 (w input.idx 0) + toVal 7 (w o.idx 0) * 256 +
          toVal 7 (w carryIn.idx 0) * 65536 + toVal 7 (w d.idx 0) * 131072 := h
      refine ⟨⟨fun pos hp => ?_, fun pos hp => ?_⟩, fun pos hp => ?_, fun pos hp => ?_⟩ <;> rw [(h0 pos).1 hp]
      · exact (inSub_iff 7 3 (by omega) _).2 vo
      · exact (inSub_iff 7 0 (by omega) _).2 vd
      · refine (inSub_iff 7 5 (by omega) _).2 ?_
        rw [h]
        exact lt_trans (hlt _ _ _ _ va vo vc vd) (Nat.pow_lt_pow_right (by omega) (by decide))
      · rw [merge_incr va vc vo vd, ← h, ofVal_toVal]

/-! ### Counts of tuples -/

section
variable {α : Type}

theorem sum_filter_map (l : List α) (p : α → Bool) (f : α → Nat) :
    ((l.filter p).map f).sum = (l.map fun a => if p a then f a else 0).sum := by
  induction l with
  | nil => rfl
  | cons a l ih =>
    rw [List.filter_cons]
    by_cases h : p a
    · rw [if_pos h, List.map_cons, List.sum_cons, ih, List.map_cons, List.sum_cons, if_pos h]
    · rw [if_neg h, ih, List.map_cons, List.sum_cons, if_neg h, zero_add]

end

theorem count_append (es es' : List (Channel.Event B128)) (d : Channel.Direction) (c : Nat) (t : List B128) :
    Channel.count (es ++ es') d c t = Channel.count es d c t + Channel.count es' d c t := by
  rw [Channel.count, List.filter_append, List.map_append, List.sum_append]
  rfl

theorem count_pos {es : List (Channel.Event B128)} {d : Channel.Direction} {c : Nat} {t : List B128} :
    0 < Channel.count es d c t ↔ ∃ e ∈ es, e.direction = d ∧ e.channel = c ∧ e.tuple = t ∧ 0 < e.multiplicity := by
  rw [Channel.count, Nat.pos_iff_ne_zero, Ne, List.sum_eq_zero_iff_forall_eq_nat]
  push Not
  constructor
  · rintro ⟨m, hm, h0⟩
    obtain ⟨e, he, rfl⟩ := List.mem_map.1 hm
    obtain ⟨h1, h2⟩ := List.mem_filter.1 he
    obtain ⟨h3, h4, h5⟩ := of_decide_eq_true h2
    exact ⟨e, h1, h3, h4, h5, Nat.pos_of_ne_zero h0⟩
  · rintro ⟨e, h1, h3, h4, h5, h0⟩
    exact ⟨_, List.mem_map_of_mem (List.mem_filter.2 ⟨h1, decide_eq_true ⟨h3, h4, h5⟩⟩), Nat.pos_iff_ne_zero.1 h0⟩

theorem flatGet_zero (W : Nat → Nat → Nat → B128) (c i : Nat) : flatGet W 0 c i = W i c 0 := by
  rw [flatGet, pow_zero, Nat.div_one, Nat.mod_one]

theorem flatGet_row (W : Nat → Nat → Nat → B128) {lv r pos : Nat} (c : Nat) (hp : pos < 2 ^ lv) :
    flatGet W lv c (r * 2 ^ lv + pos) = W r c pos := by
  rw [flatGet, Nat.mul_comm, Nat.mul_add_div (Nat.two_pow_pos lv), Nat.div_eq_of_lt hp, Nat.add_zero, Nat.mul_add_mod,
    Nat.mod_eq_of_lt hp]

/-- The tuples that a lookup table sends. -/
theorem mem_lookup {base chan perm n size : Nat} {W : Nat → Nat → Nat → B128} {e : Channel.Event B128}
    (he : e ∈ tableEvents (LookupTable.new base chan perm n).2 size W) :
    (∃ r < size, e = ⟨perm, .push, 1, [W r base 0]⟩) ∨ (∃ r < size, e = ⟨perm, .pull, 1, [W r (base + 1) 0]⟩) ∨
      ∃ r < size, ∃ m, e = ⟨chan, .push, m, [W r (base + 1) 0]⟩ := by
  rw [tableEvents, List.mem_flatMap] at he
  obtain ⟨f, hf, he⟩ := he
  rw [tableFlushEvents, List.mem_map] at he
  obtain ⟨i, hi, rfl⟩ := he
  have hi := List.mem_range.1 (List.mem_filter.1 hi).1
  rcases List.mem_append.1 hf with hf | hf
  · rcases List.mem_cons.1 hf with rfl | hf
    · exact .inl ⟨i, by simpa using hi, by simp [flatGet_zero]⟩
    · obtain rfl := List.mem_singleton.1 hf
      exact .inr (.inl ⟨i, by simpa using hi, by simp [flatGet_zero]⟩)
  · obtain ⟨p, -, rfl⟩ := List.mem_map.1 hf
    exact .inr (.inr ⟨i, by simpa using hi, 1 <<< p.2, by simp [flatGet_zero]⟩)

theorem lookup_pull_mem {base chan perm n size : Nat} {W : Nat → Nat → Nat → B128} {r : Nat} (hr : r < size) :
    (⟨perm, .pull, 1, [W r (base + 1) 0]⟩ : Channel.Event B128) ∈ tableEvents (LookupTable.new base chan perm n).2 size W := by
  rw [tableEvents, List.mem_flatMap]
  refine ⟨⟨0, [base + 1], perm, .pull, 1, []⟩, by simp [LookupTable.new], ?_⟩
  rw [tableFlushEvents, List.mem_map]
  exact ⟨r, by simpa using hr, by simp [flatGet_zero]⟩

/-- Every tuple that is read is an entry of the table. -/
theorem lookup_sound (k : IndexedLookup)
    (hk : ∀ i < 2 ^ k.logSize, evaluate k.circuit (indexBits k.logSize i) = some (ofVal 7 (k.indexToEntry i)))
    {base chan perm n : Nat} (hne : perm ≠ chan) {W : Nat → Nat → Nat → B128} {others : List (Channel.Event B128)}
    (hW : (LookupTable.new base chan perm n).1.Holds k W)
    (hperm : ∀ e ∈ others, e.channel ≠ perm) (hpush : ∀ e ∈ others, e.channel = chan → e.direction = .pull)
    (hbal : Channel.Balanced (tableEvents (LookupTable.new base chan perm n).2 (2 ^ k.logSize) W ++ others))
    {e : Channel.Event B128} (he : e ∈ others) (hc : e.channel = chan) (hm : 0 < e.multiplicity) :
    ∃ i < 2 ^ k.logSize, e.tuple = [ofVal 7 (k.indexToEntry i)] := by
  have h1 : 0 < Channel.count (tableEvents (LookupTable.new base chan perm n).2 (2 ^ k.logSize) W ++ others) .pull chan e.tuple :=
    count_pos.2 ⟨e, List.mem_append_right _ he, hpush e he hc, hc, rfl, hm⟩
  rw [← hbal] at h1
  obtain ⟨e1, m1, d1, c1, t1, -⟩ := count_pos.1 h1
  have m1 : e1 ∈ tableEvents (LookupTable.new base chan perm n).2 (2 ^ k.logSize) W := by
    rcases List.mem_append.1 m1 with h | h
    · exact h
    · have := hpush e1 h c1
      rw [d1] at this
      cases this
  obtain ⟨r, hr, ht⟩ : ∃ r < 2 ^ k.logSize, e.tuple = [W r (base + 1) 0] := by
    rcases mem_lookup m1 with ⟨r, hr, rfl⟩ | ⟨r, hr, rfl⟩ | ⟨r, hr, m, rfl⟩
    · exact absurd c1 hne
    · exact absurd c1 hne
    · exact ⟨r, hr, t1.symm⟩
  have h2 : 0 < Channel.count (tableEvents (LookupTable.new base chan perm n).2 (2 ^ k.logSize) W ++ others) .pull perm
      [W r (base + 1) 0] :=
    count_pos.2 ⟨_, List.mem_append_left _ (lookup_pull_mem hr), rfl, rfl, rfl, Nat.one_pos⟩
  rw [← hbal] at h2
  obtain ⟨e2, m2, d2, c2, t2, -⟩ := count_pos.1 h2
  rcases List.mem_append.1 m2 with m2 | m2
  · rcases mem_lookup m2 with ⟨r', hr', rfl⟩ | ⟨r', hr', rfl⟩ | ⟨r', hr', m, rfl⟩
    · refine ⟨r', hr', ?_⟩
      have := (hW.fixed r' hr').symm.trans (hk r' hr')
      rw [ht, ← t2]
      exact congrArg (fun x => [x]) (Option.some.inj this)
    · cases d2
    · exact absurd c2.symm hne
  · exact absurd c2 (hperm e2 m2)

end Verif.M3
