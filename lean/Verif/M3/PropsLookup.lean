import Verif.M3.LemmasLookup4
import Verif.M3.PropsAdd

/-! # C50: indexed lookups -/

set_option linter.dupNamespace false
set_option linter.unusedSectionVars false

namespace Verif.M3

open Verif.Field Verif.Arith

/-! ### The tables -/

/-- The table of bitwise AND: entries and indices are inverse to each other, the circuit gives the entries, and the entry of
the index `a + 256 b` is `a`, `b` and `a & b`, eight bits each. -/
theorem C50_bitand_table : bitandLookup.Correct ∧ ∀ a < 256, ∀ b < 256,
    bitandLookup.indexToEntry (a + 256 * b) = a + 256 * b + 65536 * (a &&& b) ∧
    ∀ o < 256, bitandLookup.entryToIndex (a + 256 * b + 65536 * o) = a + 256 * b := by
  refine ⟨⟨fun i _ => (bitandEntry_lt i).trans (by norm_num), bitand_index, fun e => ?_, fun i _ => bitand_circuit i⟩,
    fun a ha b hb => ⟨?_, fun o ho => ?_⟩⟩
  · show (e % 2 ^ 32) &&& 0xFFFF < 2 ^ 16
    exact lt_of_le_of_lt Nat.and_le_right (by norm_num)
  · rw [bitandEntry_eq, show (a + 256 * b) % 256 = a by omega, show (a + 256 * b) / 256 % 256 = b by omega]
    omega
  · show ((a + 256 * b + 65536 * o) % 2 ^ 32) &&& 0xFFFF = _
    rw [show (0xFFFF : Nat) = 2 ^ 16 - 1 from rfl, Nat.and_two_pow_sub_one_eq_mod]
    omega

example : bitandLookup.indexToEntry (0xF0 + 256 * 0x3C) = 0x303CF0 := by decide

/-- The table of increments: entries and indices are inverse to each other, the circuit gives the entries, and the entry of
the index `x + 256 c` is the byte `x`, the byte `x + c`, the carry `c` and the carry out. -/
theorem C50_incr_table : incrLookup.Correct ∧ ∀ x < 256, ∀ c < 2,
    incrLookup.indexToEntry (x + 256 * c) =
      x + 256 * ((x + c) % 256) + 65536 * c + 131072 * ((x + c) / 256) := by
  refine ⟨⟨fun i _ => (incrEntry_lt i).trans (by norm_num), incr_index, fun e => ?_, fun i hi => incr_circuit i hi⟩,
    fun x hx c hc => ?_⟩
  · show ((decide (((e % 2 ^ 32) >>> 16) &&& 1 = 1)).toNat <<< 8) ||| ((e % 2 ^ 32) &&& 0xFF) < 2 ^ 9
    have := Bool.toNat_le (decide (((e % 2 ^ 32) >>> 16) &&& 1 = 1))
    rw [and_ff, Nat.lor_comm, or_add (a := e % 2 ^ 32 % 256) (n := 8) (Nat.mod_lt _ (by omega))]
    omega
  · rw [incrEntry_eq, show (x + 256 * c) % 256 = x by omega, show (x + 256 * c) / 256 % 2 = c by omega]
    by_cases h : 256 ≤ x + c
    · rw [decide_eq_true h, Bool.toNat_true, show (x + c) / 256 = 1 by omega]; omega
    · rw [decide_eq_false h, Bool.toNat_false, show (x + c) / 256 = 0 by omega]; omega

example : incrLookup.indexToEntry (255 + 256 * 1) = 255 + 65536 + 131072 := by decide

/-! ### Soundness -/

/-- If all channels balance, nobody else pushes to the lookup channel and nobody else uses the permutation channel, then
every tuple read from the lookup channel is an entry of the table: whatever the sorted column and the multiplicities are. -/
theorem C50_lookup_sound (k : IndexedLookup) (hk : k.Correct) {base chan perm n : Nat} (hne : perm ≠ chan)
    {W : Nat → Nat → Nat → B128} {others : List (Channel.Event B128)}
    (hW : (LookupTable.new base chan perm n).1.Holds k W)
    (hperm : ∀ e ∈ others, e.channel ≠ perm) (hpush : ∀ e ∈ others, e.channel = chan → e.direction = .pull)
    (hbal : Channel.Balanced (tableEvents (LookupTable.new base chan perm n).2 (2 ^ k.logSize) W ++ others))
    {e : Channel.Event B128} (he : e ∈ others) (hc : e.channel = chan) (hm : 0 < e.multiplicity) :
    ∃ i < 2 ^ k.logSize, e.tuple = [ofVal 7 (k.indexToEntry i)] :=
  lookup_sound k hk.circuit hne hW hperm hpush hbal he hc hm

theorem mem_value {size : Nat} {W : Nat → Nat → Nat → B128} {lv chan c : Nat} {r pos : Nat} (hr : r < size) (hp : pos < 2 ^ lv) :
    (⟨chan, .pull, 1, [W r c pos]⟩ : Channel.Event B128) ∈ tableFlushEvents size W ⟨lv, [c], chan, .pull, 1, []⟩ := by
  rw [tableFlushEvents, List.mem_map]
  refine ⟨r * 2 ^ lv + pos, List.mem_filter.2 ⟨List.mem_range.2 ?_, rfl⟩, ?_⟩
  · calc r * 2 ^ lv + pos < r * 2 ^ lv + 2 ^ lv := by omega
      _ = (r + 1) * 2 ^ lv := by ring
      _ ≤ size * 2 ^ lv := Nat.mul_le_mul_right _ hr
  · show (⟨chan, .pull, 1, [flatGet W lv c (r * 2 ^ lv + pos)]⟩ : Channel.Event B128) = _
    rw [flatGet_row W c hp]

theorem others_ok {chan perm size : Nat} (hne : perm ≠ chan) {W : Nat → Nat → Nat → B128} {fl : TableFlush} (hc : fl.channel = chan) (hd : fl.direction = .pull)
    {others : List (Channel.Event B128)} (hperm : ∀ e ∈ others, e.channel ≠ perm)
    (hpush : ∀ e ∈ others, e.channel = chan → e.direction = .pull) :
    (∀ e ∈ tableFlushEvents size W fl ++ others, e.channel ≠ perm) ∧
      ∀ e ∈ tableFlushEvents size W fl ++ others, e.channel = chan → e.direction = .pull := by
  constructor
  · intro e he
    rcases List.mem_append.1 he with he | he
    · rw [(mem_flushEvents he).1, hc]; exact hne.symm
    · exact hperm e he
  · intro e he
    rcases List.mem_append.1 he with he | he
    · intro _; rw [(mem_flushEvents he).2.1, hd]
    · exact hpush e he

/-- In a table with the gadget of bitwise AND, every row that satisfies the constraints has the bitwise AND of its inputs in
its output, if the channels balance. -/
theorem C50_bitand_sound {t : Table B128} (ht : WellFormed t) {lv chan perm : Nat} {inA inB : Col}
    (ha : t.Has inA 3 lv) (hb : t.Has inB 3 lv) {g : BitAnd} {t' : Table B128} {fl : TableFlush}
    (hg : BitAnd.new t lv chan inA inB = some (g, t', fl)) {size : Nat} {W : Nat → Nat → Nat → B128}
    (hW : ∀ r < size, RowHolds tower128 t' (W r)) {base n : Nat} (hne : perm ≠ chan) {L : Nat → Nat → Nat → B128}
    (hL : (LookupTable.new base chan perm n).1.Holds bitandLookup L) {others : List (Channel.Event B128)}
    (hperm : ∀ e ∈ others, e.channel ≠ perm) (hpush : ∀ e ∈ others, e.channel = chan → e.direction = .pull)
    (hbal : Channel.Balanced (tableEvents (LookupTable.new base chan perm n).2 (2 ^ 16) L ++
      (tableFlushEvents size W fl ++ others))) :
    ∀ r < size, ∀ pos < 2 ^ lv,
      toVal 7 (W r g.output.idx pos) = toVal 7 (W r inA.idx pos) &&& toVal 7 (W r inB.idx pos) := by
  intro r hr pos hp
  obtain ⟨g', t'', h1, -, -, -, -, -, -, -, h2⟩ := bitand_new t ht lv chan ha hb
  rw [hg] at h1
  obtain ⟨rfl, h1⟩ := Prod.mk.inj (Option.some.inj h1)
  obtain ⟨rfl, rfl⟩ := Prod.mk.inj h1
  obtain ⟨hw, h3⟩ := (h2 _).1 (hW r hr)
  obtain ⟨ho, hm⟩ := h3 pos hp
  have va : toVal 7 (W r inA.idx pos) < 256 := has_val ha (by omega) hw hp
  have vb : toVal 7 (W r inB.idx pos) < 256 := has_val hb (by omega) hw hp
  obtain ⟨o1, o2⟩ := others_ok (size := size) (W := W) hne (fl := ⟨lv, [g.merged.idx], chan, .pull, 1, []⟩) rfl rfl hperm hpush
  obtain ⟨i, hi, he⟩ := C50_lookup_sound bitandLookup C50_bitand_table.1 hne hL o1 o2 hbal
    (List.mem_append_left _ (mem_value hr hp)) rfl Nat.one_pos
  have he : toVal 7 (W r g.merged.idx pos) = bitandLookup.indexToEntry i := by
    have : W r g.merged.idx pos = ofVal 7 (bitandLookup.indexToEntry i) := (List.cons.inj he).1
    rw [this, toVal_ofVal]
    exact Nat.mod_eq_of_lt ((bitandEntry_lt i).trans (Nat.pow_lt_pow_right (by omega) (by decide)))
  have hi : i < 65536 := hi
  rw [bitandEntry_eq, hm] at he
  have hand : (i % 256 &&& i / 256 % 256) < 256 := lt_of_le_of_lt Nat.and_le_left (Nat.mod_lt _ (by omega))
  have e1 : toVal 7 (W r inA.idx pos) = i % 256 := by omega
  have e2 : toVal 7 (W r inB.idx pos) = i / 256 % 256 := by omega
  rw [e1, e2]
  omega

/-- In a table with the gadget of increments, every row that satisfies the constraints has the sum of its input and its carry
in, modulo 256, in its output, and the overflow in its carry out, if the channels balance. -/
theorem C50_incr_sound {t : Table B128} (ht : WellFormed t) {chan perm : Nat} {input carryIn : Col}
    (ha : t.Has input 3 0) (hc : t.Has carryIn 0 0) {g : ByteIncr} {t' : Table B128} {fl : TableFlush}
    (hg : ByteIncr.new t chan input carryIn = some (g, t', fl)) {size : Nat} {W : Nat → Nat → Nat → B128}
    (hW : ∀ r < size, RowHolds tower128 t' (W r)) {base n : Nat} (hne : perm ≠ chan) {L : Nat → Nat → Nat → B128}
    (hL : (LookupTable.new base chan perm n).1.Holds incrLookup L) {others : List (Channel.Event B128)}
    (hperm : ∀ e ∈ others, e.channel ≠ perm) (hpush : ∀ e ∈ others, e.channel = chan → e.direction = .pull)
    (hbal : Channel.Balanced (tableEvents (LookupTable.new base chan perm n).2 (2 ^ 9) L ++
      (tableFlushEvents size W fl ++ others))) :
    ∀ r < size, toVal 7 (W r g.output.idx 0) < 256 ∧
      toVal 7 (W r g.output.idx 0) + 256 * toVal 7 (W r g.carryOut.idx 0) =
        toVal 7 (W r input.idx 0) + toVal 7 (W r carryIn.idx 0) := by
  intro r hr
  obtain ⟨g', t'', h1, -, -, -, -, -, -, -, -, -, h2⟩ := incr_new t ht chan ha hc
  rw [hg] at h1
  obtain ⟨rfl, h1⟩ := Prod.mk.inj (Option.some.inj h1)
  obtain ⟨rfl, rfl⟩ := Prod.mk.inj h1
  obtain ⟨hw, ho, hco, hm⟩ := (h2 _).1 (hW r hr)
  have va : toVal 7 (W r input.idx 0) < 256 := has_val ha (by omega) hw (by omega)
  have vc : toVal 7 (W r carryIn.idx 0) < 2 := has_val hc (by omega) hw (by omega)
  obtain ⟨o1, o2⟩ := others_ok (size := size) (W := W) hne (fl := ⟨0, [g.merged.idx], chan, .pull, 1, []⟩) rfl rfl hperm hpush
  obtain ⟨i, hi, he⟩ := C50_lookup_sound incrLookup C50_incr_table.1 hne hL o1 o2 hbal
    (List.mem_append_left _ (mem_value (pos := 0) hr Nat.one_pos)) rfl Nat.one_pos
  have he : toVal 7 (W r g.merged.idx 0) = incrLookup.indexToEntry i := by
    have : W r g.merged.idx 0 = ofVal 7 (incrLookup.indexToEntry i) := (List.cons.inj he).1
    rw [this, toVal_ofVal]
    exact Nat.mod_eq_of_lt ((incrEntry_lt i).trans (Nat.pow_lt_pow_right (by omega) (by decide)))
  have hi : i < 512 := hi
  have hx := C50_incr_table.2 (i % 256) (Nat.mod_lt _ (by omega)) (i / 256) (by omega)
  rw [Nat.mod_add_div] at hx
  rw [hx, hm] at he
  have h5 : i / 256 < 2 := by omega
  have h6 : i % 256 < 256 := Nat.mod_lt _ (by omega)
  generalize i / 256 = c at *
  generalize i % 256 = x at *
  refine ⟨ho, ?_⟩
  have e1 : toVal 7 (W r input.idx 0) = x := by omega
  have e2 : toVal 7 (W r g.output.idx 0) = (x + c) % 256 := by omega
  have e3 : toVal 7 (W r carryIn.idx 0) = c := by omega
  have e4 : toVal 7 (W r g.carryOut.idx 0) = (x + c) / 256 := by omega
  rw [e1, e2, e3, e4]
  exact Nat.mod_add_div _ _

/-! ### Counting the reads -/

/-- `tally` gives, for every index, the number of tuples that are read from the channel and belong to the index. -/
theorem C50_tally {k : IndexedLookup} {chan : Nat} {tables : List TallyTable} {boundaries : List (Channel.Boundary B128)}
    {counts : List Nat} (h : tally k chan tables boundaries = some counts) :
    counts.length = 2 ^ k.logSize ∧
      ∀ i < 2 ^ k.logSize, counts[i]? = some (reads k chan (readEvents tables boundaries) i) := by
  have h1 := (tally_ok h).1
  refine ⟨by rw [h1.length, List.length_replicate], fun i hi => ?_⟩
  rw [h1.get, List.getElem?_replicate, if_pos hi, Option.map_some, Nat.zero_add]

/-- `tally` succeeds just when no flush that reads from the channel has a selector and every tuple that is read has an index
in range. -/
theorem C50_tally_total (k : IndexedLookup) (chan : Nat) (tables : List TallyTable) (boundaries : List (Channel.Boundary B128)) :
    (tally k chan tables boundaries).isSome ↔ Countable k chan tables boundaries :=
  ⟨fun h => by
    obtain ⟨c, hc⟩ := Option.isSome_iff_exists.1 h
    exact (tally_ok hc).2, fun h => Option.isSome_iff_exists.2 (tally_some h)⟩

/-- A boundary and a table read from the channel. -/
example : ∃ counts, tally bitandLookup 3 [⟨[⟨1, [0], 3, .pull, 1, []⟩, ⟨0, [5], 4, .push, 7, [2]⟩], some (2, fun _ _ _ => ofVal 7 0x000001)⟩]
    [⟨[ofVal 7 0x010101], 3, .pull, 1⟩] = some counts ∧ counts[1]? = some 4 ∧ counts[0x101]? = some 1 ∧ counts[2]? = some 0 := by
  have hc : Countable bitandLookup 3 [⟨[⟨1, [0], 3, .pull, 1, []⟩, ⟨0, [5], 4, .push, 7, [2]⟩], some (2, fun _ _ _ => ofVal 7 0x000001)⟩]
      [⟨[ofVal 7 0x010101], 3, .pull, 1⟩] := by
    refine ⟨fun t ht _ f hf hc _ => ?_, fun e he hc hd => ?_⟩
    · rw [List.mem_singleton.1 ht] at hf
      rcases List.mem_cons.1 hf with rfl | hf
      · rfl
      · rw [List.mem_singleton.1 hf] at hc; cases hc
    · cases ht : e.tuple with
      | nil =>
        exfalso
        rw [readEvents_eq] at he
        rcases List.mem_append.1 he with he | he
        · obtain ⟨t, h1, h2⟩ := List.mem_flatMap.1 he
          rw [List.mem_singleton.1 h1] at h2
          obtain ⟨f, h1, h2⟩ := List.mem_flatMap.1 h2
          obtain ⟨i, -, rfl⟩ := List.mem_map.1 h2
          rcases List.mem_cons.1 h1 with rfl | h1
          · cases ht
          · rw [List.mem_singleton.1 h1] at ht; cases ht
        · obtain ⟨b, h1, rfl⟩ := List.mem_map.1 he
          rw [List.mem_singleton.1 h1] at ht; cases ht
      | cons x xs => exact ⟨_, C50_bitand_table.1.range _, rfl⟩
  obtain ⟨counts, h⟩ := tally_some hc
  have := (C50_tally h).2
  refine ⟨counts, h, ?_, ?_, ?_⟩
  · rw [this 1 (by decide)]; decide +kernel
  · rw [this 0x101 (by decide)]; decide +kernel
  · rw [this 2 (by decide)]; decide +kernel

/-! ### Completeness -/

theorem lookup_reads {k : IndexedLookup} (hk : k.Correct) {chan : Nat} {es : List (Channel.Event B128)}
    (htup : ∀ e ∈ es, e.channel = chan → e.direction = .pull ∧ e.multiplicity = 1 ∧
      ∃ i < 2 ^ k.logSize, e.tuple = [ofVal 7 (k.indexToEntry i)]) {i : Nat} (hi : i < 2 ^ k.logSize) :
    Channel.count es .pull chan [ofVal 7 (k.indexToEntry i)] = reads k chan es i := by
  have hidx : ∀ j < 2 ^ k.logSize, k.index [ofVal 7 (k.indexToEntry j)] = some j := by
    intro j hj
    show some (k.entryToIndex (toVal 7 (ofVal 7 (k.indexToEntry j)))) = _
    rw [toVal_ofVal, Nat.mod_eq_of_lt ((hk.entry j hj).trans (Nat.pow_lt_pow_right (by omega) (by decide))), hk.index j hj]
  rw [Channel.count, reads]
  induction es with
  | nil => rfl
  | cons e es ih =>
    have ih := ih fun e he => htup e (List.mem_cons_of_mem _ he)
    have he := htup e List.mem_cons_self
    rw [List.filter_cons, List.filter_cons]
    by_cases h : e.direction = .pull ∧ e.channel = chan ∧ e.tuple = [ofVal 7 (k.indexToEntry i)]
    · obtain ⟨h1, h2, -⟩ := he h.2.1
      rw [if_pos (decide_eq_true h), if_pos (decide_eq_true ⟨h.2.1, h.1, by rw [h.2.2, hidx i hi]⟩), List.map_cons, List.sum_cons, ih,
        h2, List.length_cons, Nat.add_comm]
    · rw [if_neg (by simpa using h), if_neg, ih]
      intro h'
      obtain ⟨h1, h2, h3⟩ := of_decide_eq_true h'
      obtain ⟨-, -, j, hj, ht⟩ := he h1
      rw [ht, hidx j hj] at h3
      obtain rfl := Option.some.inj h3
      exact h ⟨h2, h1, ht⟩

theorem sum_single {N i : Nat} (hi : i < N) {f : Nat → Nat} (hf : ∀ j < N, j ≠ i → f j = 0) : ((List.range N).map f).sum = f i := by
  induction N with
  | zero => omega
  | succ N ih =>
    rw [List.range_succ, List.map_append, List.sum_append, List.map_cons, List.map_nil, List.sum_cons, List.sum_nil, Nat.add_zero]
    by_cases h : i = N
    · subst h
      have : ((List.range i).map f).sum = 0 := by
        rw [List.sum_eq_zero_iff_forall_eq_nat]
        intro x hx
        obtain ⟨j, hj, rfl⟩ := List.mem_map.1 hx
        have := List.mem_range.1 hj
        exact hf j (by omega) (by omega)
      rw [this, Nat.zero_add]
    · rw [ih (by omega) fun j hj => hf j (by omega), hf N (by omega) (by omega), Nat.add_zero]

/-- Filling the lookup table with the counted reads, in any order, satisfies its constraints and balances all channels: if
every tuple read is an entry of the table, the multiplicity of every read is one, and the multiplicity bits have room for
the counts. -/
theorem C50_lookup_complete (k : IndexedLookup) (hk : k.Correct) {base chan perm n : Nat} (hne : perm ≠ chan) (hn : n ≤ 32)
    {tables : List TallyTable} {boundaries : List (Channel.Boundary B128)} {counts : List Nat}
    (ht : tally k chan tables boundaries = some counts) (hlt : ∀ c ∈ counts, c < 2 ^ n)
    {rows : List (Nat × Nat)} (hrows : Lists rows counts)
    (htup : ∀ e ∈ readEvents tables boundaries, e.channel = chan → e.direction = .pull ∧ e.multiplicity = 1 ∧
      ∃ i < 2 ^ k.logSize, e.tuple = [ofVal 7 (k.indexToEntry i)])
    (hperm : ∀ e ∈ readEvents tables boundaries, e.channel ≠ perm)
    (hother : ∀ c tu, c ≠ chan →
      Channel.count (readEvents tables boundaries) .push c tu = Channel.count (readEvents tables boundaries) .pull c tu)
    (W : Nat → Nat → Nat → B128) :
    ∃ W', (LookupTable.new base chan perm n).1.fill k rows W = some W' ∧ (LookupTable.new base chan perm n).1.Holds k W' ∧
      Channel.Balanced (tableEvents (LookupTable.new base chan perm n).2 (2 ^ k.logSize) W' ++ readEvents tables boundaries) := by
  obtain ⟨hl, hcnt⟩ := C50_tally ht
  have hmem : ∀ p ∈ rows, p.1 < 2 ^ k.logSize ∧ p.2 < 2 ^ n := fun p hp => by
    have := lists_mem hrows hp
    exact ⟨hl ▸ (List.getElem?_eq_some_iff.1 this).1, hlt _ (List.mem_of_getElem? this)⟩
  obtain ⟨W', h1, h2, h3⟩ := lookupFill_ok (base := base) (chan := chan) (perm := perm) hn (k := k) (rows := rows)
    (by rw [hrows.length_eq]; simpa using hl) hk.entry (fun p hp => (hmem p hp).1) (fun p hp => (hmem p hp).2) W
  have hrlen : rows.length = 2 ^ k.logSize := by rw [hrows.length_eq]; simpa using hl
  refine ⟨W', h1, ⟨fun r hr => ?_, fun r hr c hc => ?_⟩, fun c tu => ?_⟩
  · show _ = some (W' r base 0)
    rw [h2 r hr, hk.circuit r hr]
  · obtain ⟨j, hj, rfl⟩ := List.mem_map.1 (show c ∈ (List.range n).map (base + 2 + ·) from hc)
    have hr' : r < rows.length := hrlen ▸ hr
    rw [(h3 r _ (List.getElem?_eq_getElem hr')).2 j (List.mem_range.1 hj)]
    split
    · exact .inr rfl
    · exact .inl rfl
  · obtain ⟨f1, f2, f3, f4⟩ := filled_counts (base := base) (chan := chan) (perm := perm) hne hrows hl hlt h2 h3 tu
    rw [count_append, count_append]
    by_cases hcc : c = chan
    · subst hcc
      have hpz : Channel.count (readEvents tables boundaries) .push c tu = 0 := by
        by_contra h0
        obtain ⟨e, he, d1, c1, -⟩ := count_pos.1 (Nat.pos_of_ne_zero h0)
        have := (htup e he c1).1
        rw [d1] at this
        cases this
      rw [hpz, f2, f3, Nat.add_zero, Nat.zero_add]
      by_cases hex : ∃ i < 2 ^ k.logSize, tu = [ofVal 7 (k.indexToEntry i)]
      · obtain ⟨i, hi, rfl⟩ := hex
        rw [lookup_reads hk htup hi]
        have hinj : ∀ j < 2 ^ k.logSize, [ofVal 7 (k.indexToEntry j)] = [ofVal 7 (k.indexToEntry i)] → j = i := by
          intro j hj h
          have h := (List.cons.inj h).1
          have hb : (2 : Nat) ^ 32 < 2 ^ 2 ^ 7 := Nat.pow_lt_pow_right (by omega) (by decide)
          have := ofVal_inj ((hk.entry j hj).trans hb) ((hk.entry i hi).trans hb) h
          rw [← hk.index j hj, this, hk.index i hi]
        rw [sum_single hi fun j hj hji => if_neg fun h => hji (hinj j hj h), if_pos rfl]
        simp [hcnt i hi]
      · have : Channel.count (readEvents tables boundaries) .pull c tu = 0 := by
          by_contra h0
          obtain ⟨e, he, -, c1, t1, -⟩ := count_pos.1 (Nat.pos_of_ne_zero h0)
          obtain ⟨-, -, i, hi, h⟩ := htup e he c1
          exact hex ⟨i, hi, t1 ▸ h⟩
        rw [this, List.sum_eq_zero_iff_forall_eq_nat]
        intro x hx
        obtain ⟨j, hj, rfl⟩ := List.mem_map.1 hx
        exact if_neg fun h => hex ⟨j, List.mem_range.1 hj, h.symm⟩
    · rw [hother c tu hcc]
      by_cases hcp : c = perm
      · rw [hcp, f1]
      · rw [f4 c .push hcp hcc, f4 c .pull hcp hcc]

/-- `tally` does not look at the multiplicity of a read.  A boundary that reads an entry twice is counted as one read, and the
lookup table that is filled from the counts does not balance it. -/
theorem C50_tally_ignores_multiplicity (chan perm base n : Nat) (hne : perm ≠ chan) (h1 : 1 ≤ n) (hn : n ≤ 32) :
    ∃ boundaries counts, tally bitandLookup chan [] boundaries = some counts ∧ (∀ c ∈ counts, c < 2 ^ n) ∧
      Channel.count (readEvents [] boundaries) .pull chan [ofVal 7 (bitandLookup.indexToEntry 0)] = 2 ∧
      ∀ rows, Lists rows counts → ∀ W, ∃ W', (LookupTable.new base chan perm n).1.fill bitandLookup rows W = some W' ∧
        ¬ Channel.Balanced (tableEvents (LookupTable.new base chan perm n).2 (2 ^ 16) W' ++ readEvents [] boundaries) := by
  let b : Channel.Boundary B128 := ⟨[ofVal 7 (bitandLookup.indexToEntry 0)], chan, .pull, 2⟩
  have hidx : bitandLookup.index [ofVal 7 (bitandLookup.indexToEntry 0)] = some 0 := by decide +kernel
  have hev : readEvents [] [b] = [⟨chan, .pull, 2, [ofVal 7 (bitandLookup.indexToEntry 0)]⟩] := rfl
  obtain ⟨counts, h⟩ := tally_some (k := bitandLookup) (chan := chan) (tables := []) (boundaries := [b])
    ⟨(fun t ht => by cases ht), (fun e he _ _ => ⟨0, by decide, (by
      rw [hev] at he
      rw [List.mem_singleton.1 he]
      exact hidx)⟩)⟩
  obtain ⟨hl, hc⟩ := C50_tally h
  have hreads : ∀ i, reads bitandLookup chan (readEvents [] [b]) i = if i = 0 then 1 else 0 := by
    intro i
    rw [reads, hev, List.filter_cons]
    by_cases hi : i = 0
    · rw [if_pos (decide_eq_true ⟨rfl, rfl, by rw [hidx, hi]⟩), if_pos hi]; rfl
    · rw [if_neg, if_neg hi]
      · rfl
      · intro hh
        have := (of_decide_eq_true hh).2.2
        rw [hidx] at this
        exact hi (Option.some.inj this).symm
  have hlt : ∀ c ∈ counts, c < 2 ^ n := by
    intro c hcm
    obtain ⟨i, hi⟩ := List.getElem?_of_mem hcm
    have hi' : i < 2 ^ bitandLookup.logSize := hl ▸ (List.getElem?_eq_some_iff.1 hi).1
    rw [hc i hi', hreads] at hi
    have := Nat.one_lt_two_pow (n := n) (by omega)
    have hi := Option.some.inj hi
    split at hi <;> omega
  have hpull : Channel.count (readEvents [] [b]) .pull chan [ofVal 7 (bitandLookup.indexToEntry 0)] = 2 := by
    rw [hev, Channel.count, List.filter_cons, if_pos (decide_eq_true ⟨rfl, rfl, rfl⟩)]; rfl
  refine ⟨[b], counts, h, hlt, hpull, fun rows hrows W => ?_⟩
  have hk := C50_bitand_table.1
  have hmem : ∀ p ∈ rows, p.1 < 2 ^ bitandLookup.logSize ∧ p.2 < 2 ^ n := fun p hp => by
    have := lists_mem hrows hp
    exact ⟨hl ▸ (List.getElem?_eq_some_iff.1 this).1, hlt _ (List.mem_of_getElem? this)⟩
  obtain ⟨W', w1, w2, w3⟩ := lookupFill_ok (base := base) (chan := chan) (perm := perm) hn (k := bitandLookup) (rows := rows)
    (by rw [hrows.length_eq]; simpa using hl) hk.entry (fun p hp => (hmem p hp).1) (fun p hp => (hmem p hp).2) W
  refine ⟨W', w1, fun hbal => ?_⟩
  change Channel.Balanced (tableEvents (LookupTable.new base chan perm n).2 (2 ^ bitandLookup.logSize) W' ++ _) at hbal
  obtain ⟨-, f2, f3, -⟩ := filled_counts (base := base) (chan := chan) (perm := perm) hne hrows hl hlt w2 w3
    [ofVal 7 (bitandLookup.indexToEntry 0)]
  have := hbal chan [ofVal 7 (bitandLookup.indexToEntry 0)]
  rw [count_append, count_append, hpull] at this
  have hpz : Channel.count (readEvents [] [b]) .push chan [ofVal 7 (bitandLookup.indexToEntry 0)] = 0 := by
    rw [hev, Channel.count, List.filter_cons, if_neg (by simp)]; rfl
  have hs : ((List.range (2 ^ bitandLookup.logSize)).map fun i =>
      if [ofVal 7 (bitandLookup.indexToEntry i)] = [ofVal 7 (bitandLookup.indexToEntry 0)] then counts.getD i 0 else 0).sum = 1 := by
    rw [sum_single (i := 0) (by decide)]
    · rw [if_pos rfl]
      have := hc 0 (by decide)
      rw [hreads, if_pos rfl] at this
      simp [this]
    · intro j hj hj0
      refine if_neg fun he => hj0 ?_
      have he := (List.cons.inj he).1
      have hb : (2 : Nat) ^ 32 < 2 ^ 2 ^ 7 := Nat.pow_lt_pow_right (by omega) (by decide)
      have := ofVal_inj ((hk.entry j hj).trans hb) ((hk.entry 0 (by decide)).trans hb) he
      rw [← hk.index j hj, this, hk.index 0 (by decide)]
  rw [hpz, f3.trans hs, f2] at this
  omega

/-! ### Filling the gadgets -/

/-- Filling a table with the gadget of bitwise AND, one value per row, satisfies the constraints and leaves the columns that
were there before as they are.  With more than one value per row it does not: `C50_bitand_populate_wide`. -/
theorem C50_bitand_populate_partial {t : Table B128} (ht : WellFormed t) {chan : Nat} {inA inB : Col}
    (ha : t.Has inA 3 0) (hb : t.Has inB 3 0) {g : BitAnd} {t' : Table B128} {fl : TableFlush}
    (hg : BitAnd.new t 0 chan inA inB = some (g, t', fl)) (size : Nat) {W : Nat → Nat → Nat → B128}
    (hW : ∀ r < size, RowHolds tower128 t (W r)) :
    ∀ r < size, RowHolds tower128 t' (g.populate 0 size W r) ∧
      (∀ i < t.columns.length, ∀ pos, g.populate 0 size W r i pos = W r i pos) ∧
      ∃ i < 2 ^ 16, g.populate 0 size W r g.merged.idx 0 = ofVal 7 (bitandLookup.indexToEntry i) := by
  intro r hr
  obtain ⟨g', t'', h1, -, rfl, rfl, -, -, g1, g2, h2⟩ := bitand_new t ht 0 chan ha hb
  rw [hg] at h1
  obtain ⟨rfl, h1⟩ := Prod.mk.inj (Option.some.inj h1)
  obtain ⟨rfl, rfl⟩ := Prod.mk.inj h1
  have hw := hW r hr
  have va : toVal 7 (W r g.inA.idx 0) < 256 := has_val ha (by omega) hw (by omega)
  have vb : toVal 7 (W r g.inB.idx 0) < 256 := has_val hb (by omega) hw (by omega)
  have vand : (toVal 7 (W r g.inA.idx 0) &&& toVal 7 (W r g.inB.idx 0)) < 256 := lt_of_le_of_lt Nat.and_le_left va
  have hrow : ∀ c, flatGet W 0 c (r * 2 ^ 0 + 0) = W r c 0 := fun c => flatGet_row W c (by omega)
  have hout : g.populate 0 size W r g.output.idx 0 = ofVal 7 (toVal 7 (W r g.inA.idx 0) &&& toVal 7 (W r g.inB.idx 0)) := by
    refine (if_pos (by omega)).trans ((if_pos rfl).trans ?_)
    rw [hrow, hrow]
  have hmer : g.populate 0 size W r g.merged.idx 0 = ofVal 7 (mergeBitandVals (toVal 7 (W r g.inA.idx 0)) (toVal 7 (W r g.inB.idx 0))
      (toVal 7 (W r g.inA.idx 0) &&& toVal 7 (W r g.inB.idx 0))) := by
    refine (if_pos (by omega)).trans ((if_neg (by omega)).trans ((if_pos rfl).trans ?_))
    rw [hrow, hrow]
  have hold : ∀ i < t.columns.length, ∀ pos, g.populate 0 size W r i pos = W r i pos := by
    intro i hi pos
    rw [BitAnd.populate]
    split
    · exact (if_neg (by omega)).trans (if_neg (by omega))
    · rfl
  have hbig : ∀ v < 2 ^ 24, v % 2 ^ 2 ^ 7 = v := fun v hv =>
    Nat.mod_eq_of_lt (hv.trans (Nat.pow_lt_pow_right (by omega) (by decide)))
  refine ⟨(h2 _).2 ⟨(frame ht fun i hi pos => hold i hi pos).2 hw, fun pos hp => ?_⟩, hold,
    toVal 7 (W r g.inA.idx 0) + 256 * toVal 7 (W r g.inB.idx 0), by omega, ?_⟩
  · obtain rfl : pos = 0 := by omega
    rw [hout, hmer, mergeBitand_eq va vb, toVal_ofVal, toVal_ofVal, hbig _ (by omega), hbig _ (by omega), hold _ ha.lt, hold _ hb.lt]
    exact ⟨vand, rfl⟩
  · rw [hmer, mergeBitand_eq va vb, (C50_bitand_table.2 _ va _ vb).1, Nat.mul_comm 256, Nat.mul_comm 65536]

/-- With more than one value per row the gadget of bitwise AND does not fill all values: the loop goes over the number of
rows.  The last value of the last row is left as it was, and does not satisfy the constraints if it was zero and the input
is not. -/
theorem C50_bitand_populate_wide {t : Table B128} (ht : WellFormed t) {lv chan : Nat} (hlv : 1 ≤ lv) {inA inB : Col}
    (ha : t.Has inA 3 lv) (hb : t.Has inB 3 lv) {g : BitAnd} {t' : Table B128} {fl : TableFlush}
    (hg : BitAnd.new t lv chan inA inB = some (g, t', fl)) {size : Nat} (hs : 1 ≤ size) {W : Nat → Nat → Nat → B128}
    (hin : W (size - 1) inA.idx (2 ^ lv - 1) ≠ 0) (h0 : W (size - 1) g.merged.idx (2 ^ lv - 1) = 0) :
    ¬ RowHolds tower128 t' (g.populate lv size W (size - 1)) := by
  obtain ⟨g', t'', h1, -, rfl, rfl, -, -, g1, g2, h2⟩ := bitand_new t ht lv chan ha hb
  rw [hg] at h1
  obtain ⟨rfl, h1⟩ := Prod.mk.inj (Option.some.inj h1)
  obtain ⟨rfl, rfl⟩ := Prod.mk.inj h1
  have hpow : 2 ≤ 2 ^ lv := by
    calc 2 = 2 ^ 1 := rfl
      _ ≤ 2 ^ lv := Nat.pow_le_pow_right (by omega) hlv
  have hsame : ∀ c, g.populate lv size W (size - 1) c (2 ^ lv - 1) = W (size - 1) c (2 ^ lv - 1) := by
    intro c
    refine if_neg ?_
    rintro ⟨-, h⟩
    have : (size - 1) * 2 ≤ (size - 1) * 2 ^ lv := Nat.mul_le_mul_left _ hpow
    omega
  intro h
  obtain ⟨-, h3⟩ := ((h2 _).1 h).2 (2 ^ lv - 1) (by omega)
  rw [hsame, hsame, h0, toVal_zero] at h3
  apply hin
  rw [← ofVal_toVal 7 (W (size - 1) g.inA.idx (2 ^ lv - 1)), show toVal 7 (W (size - 1) g.inA.idx (2 ^ lv - 1)) = 0 by omega,
    ofVal_zero]

/-- Filling a table with the gadget of increments satisfies the constraints and leaves the columns that were there before as
they are. -/
theorem C50_incr_populate {t : Table B128} (ht : WellFormed t) {chan : Nat} {input carryIn : Col}
    (ha : t.Has input 3 0) (hc : t.Has carryIn 0 0) {g : ByteIncr} {t' : Table B128} {fl : TableFlush}
    (hg : ByteIncr.new t chan input carryIn = some (g, t', fl)) (size : Nat) {W : Nat → Nat → Nat → B128}
    (hW : ∀ r < size, RowHolds tower128 t (W r)) :
    ∀ r < size, RowHolds tower128 t' (g.populate size W r) ∧
      (∀ i < t.columns.length, ∀ pos, g.populate size W r i pos = W r i pos) ∧
      ∃ i < 2 ^ 9, g.populate size W r g.merged.idx 0 = ofVal 7 (incrLookup.indexToEntry i) := by
  intro r hr
  obtain ⟨g', t'', h1, -, rfl, rfl, -, -, -, g1, g2, g3, h2⟩ := incr_new t ht chan ha hc
  rw [hg] at h1
  obtain ⟨rfl, h1⟩ := Prod.mk.inj (Option.some.inj h1)
  obtain ⟨rfl, rfl⟩ := Prod.mk.inj h1
  have hw := hW r hr
  have va : toVal 7 (W r g.input.idx 0) < 256 := has_val ha (by omega) hw (by omega)
  have vc : toVal 7 (W r g.carryIn.idx 0) < 2 := has_val hc (by omega) hw (by omega)
  have hcar : (decide (toVal 7 (W r g.carryIn.idx 0) = 1)).toNat = toVal 7 (W r g.carryIn.idx 0) := by
    by_cases h : toVal 7 (W r g.carryIn.idx 0) = 1
    · rw [decide_eq_true h, h]; rfl
    · rw [decide_eq_false h, show toVal 7 (W r g.carryIn.idx 0) = 0 by omega]; rfl
  have hdc : ∀ n < 512, (decide (256 ≤ n)).toNat = n / 256 := fun n hn => by
    by_cases h : 256 ≤ n
    · rw [decide_eq_true h]; show 1 = _; omega
    · rw [decide_eq_false h]; show 0 = _; omega
  have hout : g.populate size W r g.output.idx 0 = ofVal 7 ((toVal 7 (W r g.input.idx 0) + toVal 7 (W r g.carryIn.idx 0)) % 256) := by
    refine (if_pos (by omega)).trans ((if_pos rfl).trans ?_)
    show ofVal 7 ((toVal 7 (W r g.input.idx 0) + (decide (toVal 7 (W r g.carryIn.idx 0) = 1)).toNat) % 256) = _
    rw [hcar]
  have hcout : g.populate size W r g.carryOut.idx 0 = ofVal 7 ((toVal 7 (W r g.input.idx 0) + toVal 7 (W r g.carryIn.idx 0)) / 256) := by
    refine (if_pos (by omega)).trans ((if_neg (by omega)).trans ((if_pos rfl).trans ?_))
    show ofVal 7 (decide (256 ≤ toVal 7 (W r g.input.idx 0) + (decide (toVal 7 (W r g.carryIn.idx 0) = 1)).toNat)).toNat = _
    rw [hcar, hdc _ (by omega)]
  have hmer : g.populate size W r g.merged.idx 0 = ofVal 7 (toVal 7 (W r g.input.idx 0) +
      (toVal 7 (W r g.input.idx 0) + toVal 7 (W r g.carryIn.idx 0)) % 256 * 256 + toVal 7 (W r g.carryIn.idx 0) * 65536 +
      (toVal 7 (W r g.input.idx 0) + toVal 7 (W r g.carryIn.idx 0)) / 256 * 131072) := by
    refine (if_pos (by omega)).trans ((if_neg (by omega)).trans ((if_neg (by omega)).trans ((if_pos rfl).trans ?_)))
    show ofVal 7 (mergeIncrVals (toVal 7 (W r g.input.idx 0)) (decide (toVal 7 (W r g.carryIn.idx 0) = 1))
      ((toVal 7 (W r g.input.idx 0) + (decide (toVal 7 (W r g.carryIn.idx 0) = 1)).toNat) % 256)
      (decide (256 ≤ toVal 7 (W r g.input.idx 0) + (decide (toVal 7 (W r g.carryIn.idx 0) = 1)).toNat))) = _
    rw [mergeIncr_eq va (Nat.mod_lt _ (by omega)), hcar, hdc _ (by omega)]
  have hold : ∀ i < t.columns.length, ∀ pos, g.populate size W r i pos = W r i pos := by
    intro i hi pos
    rw [ByteIncr.populate]
    split
    · exact (if_neg (by omega)).trans ((if_neg (by omega)).trans (if_neg (by omega)))
    · rfl
  have hbig : ∀ v < 2 ^ 24, v % 2 ^ 2 ^ 7 = v := fun v hv =>
    Nat.mod_eq_of_lt (hv.trans (Nat.pow_lt_pow_right (by omega) (by decide)))
  refine ⟨(h2 _).2 ⟨(frame ht fun i hi pos => hold i hi pos).2 hw, ?_⟩, hold,
    toVal 7 (W r g.input.idx 0) + 256 * toVal 7 (W r g.carryIn.idx 0), by omega, ?_⟩
  · rw [hout, hcout, hmer, toVal_ofVal, toVal_ofVal, toVal_ofVal, hbig _ (by omega), hbig _ (by omega), hbig _ (by omega),
      hold _ ha.lt, hold _ hc.lt]
    exact ⟨by omega, by omega, rfl⟩
  · rw [hmer, C50_incr_table.2 _ va _ vc, Nat.mul_comm 256, Nat.mul_comm 65536, Nat.mul_comm 131072]

/-! ### A table with a gadget and its lookup table -/

theorem gadget_complete {k : IndexedLookup} (hk : k.Correct) {base chan perm n c size : Nat} (hne : perm ≠ chan) (hn : n ≤ 32)
    (hsize : size < 2 ^ n) {W : Nat → Nat → Nat → B128}
    (hW : ∀ r < size, ∃ i < 2 ^ k.logSize, W r c 0 = ofVal 7 (k.indexToEntry i)) :
    ∃ counts, tally k chan [⟨[⟨0, [c], chan, .pull, 1, []⟩], some (size, W)⟩] [] = some counts ∧
      ∀ rows, Lists rows counts → ∀ L, ∃ L', (LookupTable.new base chan perm n).1.fill k rows L = some L' ∧
        (LookupTable.new base chan perm n).1.Holds k L' ∧
        Channel.Balanced (tableEvents (LookupTable.new base chan perm n).2 (2 ^ k.logSize) L' ++
          (tableFlushEvents size W ⟨0, [c], chan, .pull, 1, []⟩ ++ [])) := by
  have hev : readEvents [⟨[⟨0, [c], chan, .pull, 1, []⟩], some (size, W)⟩] [] =
      tableFlushEvents size W ⟨0, [c], chan, .pull, 1, []⟩ ++ [] := by
    rw [readEvents_eq]
    simp [TallyTable.events, tableEvents]
  have htup : ∀ e ∈ readEvents [⟨[⟨0, [c], chan, .pull, 1, []⟩], some (size, W)⟩] [], e.channel = chan ∧ e.direction = .pull ∧
      e.multiplicity = 1 ∧ ∃ i < 2 ^ k.logSize, e.tuple = [ofVal 7 (k.indexToEntry i)] := by
    intro e he
    rw [hev, List.append_nil] at he
    obtain ⟨i, hi, rfl⟩ := List.mem_map.1 he
    have hi := List.mem_range.1 (List.mem_filter.1 hi).1
    obtain ⟨j, hj, h⟩ := hW i (by simpa using hi)
    refine ⟨rfl, rfl, rfl, j, hj, ?_⟩
    show [flatGet W 0 c i] = _
    rw [flatGet_zero, h]
  have hidx : ∀ j < 2 ^ k.logSize, k.index [ofVal 7 (k.indexToEntry j)] = some j := by
    intro j hj
    show some (k.entryToIndex (toVal 7 (ofVal 7 (k.indexToEntry j)))) = _
    rw [toVal_ofVal, Nat.mod_eq_of_lt ((hk.entry j hj).trans (Nat.pow_lt_pow_right (by omega) (by decide))), hk.index j hj]
  obtain ⟨counts, hc⟩ := tally_some (k := k) (chan := chan) (tables := [⟨[⟨0, [c], chan, .pull, 1, []⟩], some (size, W)⟩])
    (boundaries := []) ⟨(fun t ht _ f hf _ _ => by
      rw [List.mem_singleton.1 ht] at hf
      rw [List.mem_singleton.1 hf]), (fun e he _ _ => by
      obtain ⟨-, -, -, i, hi, h⟩ := htup e he
      exact ⟨i, hi, h ▸ hidx i hi⟩)⟩
  refine ⟨counts, hc, fun rows hrows L => ?_⟩
  obtain ⟨hl, hcnt⟩ := C50_tally hc
  obtain ⟨L', h1, h2, h3⟩ := C50_lookup_complete k hk (base := base) hne hn hc (fun x hx => by
    obtain ⟨i, hi⟩ := List.getElem?_of_mem hx
    have hi' : i < 2 ^ k.logSize := hl ▸ (List.getElem?_eq_some_iff.1 hi).1
    rw [hcnt i hi'] at hi
    rw [← Option.some.inj hi]
    refine lt_of_le_of_lt ((List.length_filter_le _ _).trans ?_) hsize
    rw [hev, List.append_nil, tableFlushEvents, List.length_map]
    refine (List.length_filter_le _ _).trans ?_
    simp) hrows (fun e he _ => (htup e he).2) (fun e he => by rw [(htup e he).1]; exact hne.symm) (fun c' tu hc' => by
      have : ∀ d, Channel.count (readEvents [⟨[⟨0, [c], chan, .pull, 1, []⟩], some (size, W)⟩] []) d c' tu = 0 := by
        intro d
        by_contra h0
        obtain ⟨e, he, -, h, -⟩ := count_pos.1 (Nat.pos_of_ne_zero h0)
        exact hc' (h ▸ (htup e he).1)
      rw [this, this]) L
  exact ⟨L', h1, h2, hev ▸ h3⟩

/-- A table with the gadget of bitwise AND, one value per row, can be filled, its reads counted and the lookup table filled
so that all constraints hold and all channels balance. -/
theorem C50_bitand_complete {t : Table B128} (ht : WellFormed t) {chan perm base n : Nat} (hne : perm ≠ chan) (hn : n ≤ 32) {inA inB : Col}
    (ha : t.Has inA 3 0) (hb : t.Has inB 3 0) {size : Nat} (hsize : size < 2 ^ n) {W : Nat → Nat → Nat → B128}
    (hW : ∀ r < size, RowHolds tower128 t (W r)) :
    ∃ g t' fl counts, BitAnd.new t 0 chan inA inB = some (g, t', fl) ∧ (∀ r < size, RowHolds tower128 t' (g.populate 0 size W r)) ∧
      tally bitandLookup chan [⟨[fl], some (size, g.populate 0 size W)⟩] [] = some counts ∧
      ∀ rows, Lists rows counts → ∀ L, ∃ L', (LookupTable.new base chan perm n).1.fill bitandLookup rows L = some L' ∧
        (LookupTable.new base chan perm n).1.Holds bitandLookup L' ∧
        Channel.Balanced (tableEvents (LookupTable.new base chan perm n).2 (2 ^ 16) L' ++
          (tableFlushEvents size (g.populate 0 size W) fl ++ [])) := by
  obtain ⟨g, t', h1, -⟩ := bitand_new t ht 0 chan ha hb
  have h2 := C50_bitand_populate_partial ht ha hb h1 size hW
  obtain ⟨counts, h3, h4⟩ := gadget_complete C50_bitand_table.1 (base := base) hne hn hsize fun r hr => (h2 r hr).2.2
  exact ⟨g, t', _, counts, h1, fun r hr => (h2 r hr).1, h3, h4⟩

/-- A table with the gadget of increments can be filled, its reads counted and the lookup table filled so that all constraints
hold and all channels balance. -/
theorem C50_incr_complete {t : Table B128} (ht : WellFormed t) {chan perm base n : Nat} (hne : perm ≠ chan) (hn : n ≤ 32)
    {input carryIn : Col} (ha : t.Has input 3 0) (hc : t.Has carryIn 0 0) {size : Nat} (hsize : size < 2 ^ n)
    {W : Nat → Nat → Nat → B128} (hW : ∀ r < size, RowHolds tower128 t (W r)) :
    ∃ g t' fl counts, ByteIncr.new t chan input carryIn = some (g, t', fl) ∧ (∀ r < size, RowHolds tower128 t' (g.populate size W r)) ∧
      tally incrLookup chan [⟨[fl], some (size, g.populate size W)⟩] [] = some counts ∧
      ∀ rows, Lists rows counts → ∀ L, ∃ L', (LookupTable.new base chan perm n).1.fill incrLookup rows L = some L' ∧
        (LookupTable.new base chan perm n).1.Holds incrLookup L' ∧
        Channel.Balanced (tableEvents (LookupTable.new base chan perm n).2 (2 ^ 9) L' ++
          (tableFlushEvents size (g.populate size W) fl ++ [])) := by
  obtain ⟨g, t', h1, -⟩ := incr_new t ht chan ha hc
  have h2 := C50_incr_populate ht ha hc h1 size hW
  obtain ⟨counts, h3, h4⟩ := gadget_complete C50_incr_table.1 (base := base) hne hn hsize fun r hr => (h2 r hr).2.2
  exact ⟨g, t', _, counts, h1, fun r hr => (h2 r hr).1, h3, h4⟩

/-- The hypotheses of completeness, and so those of soundness, are met by a table of five rows with inputs `0xF0` and
`0x3C`. -/
example : ∃ (t : Table B128) (inA inB : Col) (W : Nat → Nat → Nat → B128), WellFormed t ∧ t.Has inA 3 0 ∧ t.Has inB 3 0 ∧
    5 < 2 ^ 8 ∧ (∀ r < 5, RowHolds tower128 t (W r)) ∧ ∀ r < 5, W r inA.idx 0 = ofVal 7 0xF0 ∧ W r inB.idx 0 = ofVal 7 0x3C := by
  obtain ⟨a, t1, h1, n1, a1⟩ := addCommitted_ok tower128 (Table.new B128) 3 0
  obtain ⟨b, t2, h2, n2, a2⟩ := addCommitted_ok tower128 t1 3 0
  have hi : a.idx = 0 := n1.idx
  have hi' : b.idx = 1 := by rw [n2.idx, n1.len]; rfl
  have w1 := a1.wf wellFormed_new
  refine ⟨t2, a, b, fun _ c _ => if c = 0 then ofVal 7 0xF0 else ofVal 7 0x3C, a2.wf w1, n1.has.ext a2.ext, n2.has, by norm_num,
    fun r _ => ((a1.trans a2).holds wellFormed_new _).2 ⟨rowHolds_new _ _, fun pos _ => ?_, fun pos _ => ?_⟩,
    fun r _ => ⟨by rw [hi]; rfl, by rw [hi']; rfl⟩⟩
  · refine (inSub_iff 7 3 (by omega) _).2 ?_
    rw [hi]
    show toVal 7 (ofVal 7 0xF0) < _
    decide +kernel
  · refine (inSub_iff 7 3 (by omega) _).2 ?_
    rw [hi']
    show toVal 7 (ofVal 7 0x3C) < _
    decide +kernel

end Verif.M3
