import Verif.M3.LemmasLookup2

set_option linter.dupNamespace false
set_option linter.unusedSectionVars false

namespace Verif.M3

open Verif.Field Verif.Arith

/-! ### Counting the reads -/

theorem reads_append (k : IndexedLookup) (chan : Nat) (es es' : List (Channel.Event B128)) (i : Nat) :
    reads k chan (es ++ es') i = reads k chan es i + reads k chan es' i := by
  rw [reads, List.filter_append, List.length_append]
  rfl

/-- `counts'` is `counts` and the reads among the tuples, each of which has an index in range. -/
structure Counted (k : IndexedLookup) (chan : Nat) (es : List (Channel.Event B128)) (counts counts' : List Nat) : Prop where
  get : ∀ i : Nat, counts'[i]? = counts[i]?.map (· + reads k chan es i)
  range : ∀ e ∈ es, e.channel = chan → e.direction = .pull → ∃ i < counts.length, k.index e.tuple = some i

theorem Counted.length {k : IndexedLookup} {chan : Nat} {es : List (Channel.Event B128)} {counts counts' : List Nat}
    (h : Counted k chan es counts counts') : counts'.length = counts.length := by
  have h1 := h.get counts.length
  have h2 := h.get counts'.length
  rw [List.getElem?_eq_none le_rfl, Option.map_none, List.getElem?_eq_none_iff] at h1
  rw [List.getElem?_eq_none le_rfl, eq_comm, Option.map_eq_none_iff, List.getElem?_eq_none_iff] at h2
  omega

theorem Counted.trans {k : IndexedLookup} {chan : Nat} {es es' : List (Channel.Event B128)} {a b c : List Nat}
    (h : Counted k chan es a b) (h' : Counted k chan es' b c) : Counted k chan (es ++ es') a c := by
  refine ⟨fun i => ?_, fun e he => ?_⟩
  · rw [h'.get, h.get, Option.map_map, reads_append]
    refine congrArg (fun f => Option.map f _) (funext fun x => ?_)
    exact Nat.add_assoc _ _ _
  · rcases List.mem_append.1 he with he | he
    · exact h.range e he
    · have := h'.range e he
      rwa [h.length] at this

theorem Counted.nil (k : IndexedLookup) (chan : Nat) (a : List Nat) : Counted k chan [] a a :=
  ⟨fun i => by
    rw [show (fun x => x + reads k chan [] i) = id from funext fun x => rfl, Option.map_id]
    rfl, fun e he => by cases he⟩

/-- Tuples that are not pulled from the channel do not count. -/
theorem Counted.skip {k : IndexedLookup} {chan : Nat} {es : List (Channel.Event B128)}
    (h : ∀ e ∈ es, ¬ (e.channel = chan ∧ e.direction = .pull)) (a : List Nat) : Counted k chan es a a := by
  refine ⟨fun i => ?_, fun e he hc hd => absurd ⟨hc, hd⟩ (h e he)⟩
  have : reads k chan es i = 0 := by
    rw [reads, List.length_eq_zero_iff, List.filter_eq_nil_iff]
    intro e he hd
    have := of_decide_eq_true hd
    exact h e he ⟨this.1, this.2.1⟩
  rw [this, show (fun x => x + 0) = (id : Nat → Nat) from rfl, Option.map_id]
  rfl

theorem counted_bump {k : IndexedLookup} {chan : Nat} {e : Channel.Event B128} (hc : e.channel = chan) (hd : e.direction = .pull)
    {j : Nat} (hj : k.index e.tuple = some j) {a b : List Nat} (h : bump a j = some b) : Counted k chan [e] a b := by
  obtain ⟨c, h1, h2⟩ := Option.bind_eq_some_iff.1 h
  obtain rfl := Option.some.inj h2
  have hlt : j < a.length := by
    by_contra hn
    rw [List.getElem?_eq_none (by omega)] at h1
    cases h1
  refine ⟨fun i => ?_, fun e' he' _ _ => ?_⟩
  · rw [List.getElem?_set]
    by_cases hij : j = i
    · subst hij
      rw [if_pos rfl, if_pos hlt, h1, Option.map_some]
      have : reads k chan [e] j = 1 := by rw [reads, List.filter_cons, if_pos (decide_eq_true ⟨hc, hd, hj⟩)]; rfl
      rw [this]
    · have : reads k chan [e] i = 0 := by
        rw [reads, List.filter_cons, if_neg]
        · rfl
        · intro hh
          have := (of_decide_eq_true hh).2.2
          rw [hj] at this
          exact hij (Option.some.inj this)
      rw [if_neg hij, this, show (fun x => x + 0) = (id : Nat → Nat) from rfl, Option.map_id]
      rfl
  · obtain rfl := List.mem_singleton.1 he'
    exact ⟨j, hlt, hj⟩

theorem bump_isSome {a : List Nat} {j : Nat} : (bump a j).isSome ↔ j < a.length := by
  rw [bump]
  by_cases h : j < a.length
  · rw [List.getElem?_eq_getElem h]; simp [h]
  · rw [List.getElem?_eq_none (by omega)]; simp [h]

/-- The tuples of the values `i`, …, `i + n - 1` of a flush. -/
def valueEvents (W : Nat → Nat → Nat → B128) (f : TableFlush) (i n : Nat) : List (Channel.Event B128) :=
  (List.range' i n).map fun i => ⟨f.channel, f.direction, f.multiplicity, f.columns.map fun c => flatGet W f.lv c i⟩

theorem tallyValues_ok (k : IndexedLookup) (W : Nat → Nat → Nat → B128) (f : TableFlush) (hd : f.direction = .pull) :
    ∀ (n i : Nat) (a b : List Nat), tallyValues k W f i n a = some b → Counted k f.channel (valueEvents W f i n) a b
  | 0, i, a, b, h => by obtain rfl := Option.some.inj h; exact Counted.nil _ _ _
  | n + 1, i, a, b, h => by
    obtain ⟨j, h1, h⟩ := Option.bind_eq_some_iff.1 h
    obtain ⟨a', h2, h⟩ := Option.bind_eq_some_iff.1 h
    exact (counted_bump (e := ⟨f.channel, f.direction, f.multiplicity, f.columns.map fun c => flatGet W f.lv c i⟩)
      rfl hd h1 h2).trans (tallyValues_ok k W f hd n (i + 1) a' b h)

theorem tallyValues_some (k : IndexedLookup) (W : Nat → Nat → Nat → B128) (f : TableFlush) (hd : f.direction = .pull) :
    ∀ (n i : Nat) (a : List Nat), (∀ e ∈ valueEvents W f i n, ∃ j < a.length, k.index e.tuple = some j) →
      ∃ b, tallyValues k W f i n a = some b
  | 0, i, a, _ => ⟨a, rfl⟩
  | n + 1, i, a, h => by
    have hm : (⟨f.channel, f.direction, f.multiplicity, f.columns.map fun c => flatGet W f.lv c i⟩ : Channel.Event B128) ∈
        valueEvents W f i (n + 1) := List.mem_cons_self
    obtain ⟨j, hj, h1⟩ := h _ hm
    obtain ⟨a', h2⟩ := Option.isSome_iff_exists.1 (bump_isSome.2 hj)
    have hl := (counted_bump (k := k) (chan := f.channel) (e := ⟨f.channel, f.direction, f.multiplicity, f.columns.map fun c => flatGet W f.lv c i⟩)
      rfl hd h1 h2).length
    obtain ⟨b, hb⟩ := tallyValues_some k W f hd n (i + 1) a' fun e he => by
      rw [hl]; exact h e (List.mem_cons_of_mem _ he)
    refine ⟨b, ?_⟩
    rw [tallyValues, h1, Option.bind_some, h2, Option.bind_some, hb]

theorem flushEvents_nosel {size : Nat} {W : Nat → Nat → Nat → B128} {f : TableFlush} (h : f.selectors = []) :
    tableFlushEvents size W f = valueEvents W f 0 (size * 2 ^ f.lv) := by
  rw [tableFlushEvents, valueEvents, h, ← List.range_eq_range', List.filter_eq_self.2]
  intro i _
  rfl

theorem mem_flushEvents {size : Nat} {W : Nat → Nat → Nat → B128} {f : TableFlush} {e : Channel.Event B128}
    (h : e ∈ tableFlushEvents size W f) : e.channel = f.channel ∧ e.direction = f.direction ∧ e.multiplicity = f.multiplicity := by
  obtain ⟨i, -, rfl⟩ := List.mem_map.1 h
  exact ⟨rfl, rfl, rfl⟩

theorem tallyFlushes_ok (k : IndexedLookup) (chan size : Nat) (W : Nat → Nat → Nat → B128) : ∀ (fs : List TableFlush) (a b : List Nat),
    tallyFlushes k chan size W fs a = some b → Counted k chan (tableEvents fs size W) a b ∧
      ∀ f ∈ fs, f.channel = chan → f.direction = .pull → f.selectors = []
  | [], a, b, h => by
    obtain rfl := Option.some.inj h
    exact ⟨Counted.nil _ _ _, fun f hf => by cases hf⟩
  | f :: fs, a, b, h => by
    obtain ⟨a', h1, h⟩ := Option.bind_eq_some_iff.1 h
    obtain ⟨h2, h3⟩ := tallyFlushes_ok k chan size W fs a' b h
    by_cases hc : f.channel = chan ∧ f.direction = .pull
    · rw [if_pos hc] at h1
      by_cases hs : f.selectors = []
      · rw [if_neg (by simp [hs])] at h1
        have := tallyValues_ok k W f hc.2 _ _ _ _ h1
        rw [← flushEvents_nosel hs, hc.1] at this
        refine ⟨this.trans h2, fun f' hf' => ?_⟩
        rcases List.mem_cons.1 hf' with rfl | hf'
        · exact fun _ _ => hs
        · exact h3 f' hf'
      · rw [if_pos hs] at h1; cases h1
    · rw [if_neg hc] at h1
      obtain rfl := Option.some.inj h1
      refine ⟨(Counted.skip (fun e he => ?_) a).trans h2, fun f' hf' => ?_⟩
      · obtain ⟨e1, e2, -⟩ := mem_flushEvents he
        rwa [e1, e2]
      · rcases List.mem_cons.1 hf' with rfl | hf'
        · exact fun c d => absurd ⟨c, d⟩ hc
        · exact h3 f' hf'

theorem tallyFlushes_some (k : IndexedLookup) (chan size : Nat) (W : Nat → Nat → Nat → B128) : ∀ (fs : List TableFlush) (a : List Nat),
    (∀ f ∈ fs, f.channel = chan → f.direction = .pull → f.selectors = []) →
    (∀ e ∈ tableEvents fs size W, e.channel = chan → e.direction = .pull → ∃ i < a.length, k.index e.tuple = some i) →
    ∃ b, tallyFlushes k chan size W fs a = some b
  | [], a, _, _ => ⟨a, rfl⟩
  | f :: fs, a, hs, hr => by
    have hmem : ∀ e ∈ tableFlushEvents size W f, e ∈ tableEvents (f :: fs) size W := fun e he =>
      List.mem_flatMap.2 ⟨f, List.mem_cons_self, he⟩
    have hmem' : ∀ e ∈ tableEvents fs size W, e ∈ tableEvents (f :: fs) size W := fun e he => by
      obtain ⟨f', h1, h2⟩ := List.mem_flatMap.1 he
      exact List.mem_flatMap.2 ⟨f', List.mem_cons_of_mem _ h1, h2⟩
    have hs' := fun f' hf' => hs f' (List.mem_cons_of_mem _ hf')
    by_cases hc : f.channel = chan ∧ f.direction = .pull
    · have hsf := hs f List.mem_cons_self hc.1 hc.2
      obtain ⟨a', h1⟩ := tallyValues_some k W f hc.2 (size * 2 ^ f.lv) 0 a fun e he => by
        rw [← flushEvents_nosel hsf] at he
        obtain ⟨e1, e2, -⟩ := mem_flushEvents he
        exact hr e (hmem e he) (e1.trans hc.1) (e2.trans hc.2)
      have hl := (tallyValues_ok k W f hc.2 _ _ _ _ h1).length
      obtain ⟨b, hb⟩ := tallyFlushes_some k chan size W fs a' hs' fun e he h h' => by
        rw [hl]; exact hr e (hmem' e he) h h'
      refine ⟨b, ?_⟩
      rw [tallyFlushes, if_pos hc, if_neg (by simp [hsf]), h1, Option.bind_some, hb]
    · obtain ⟨b, hb⟩ := tallyFlushes_some k chan size W fs a hs' fun e he => hr e (hmem' e he)
      exact ⟨b, by rw [tallyFlushes, if_neg hc, Option.bind_some, hb]⟩

/-- The tuples that a table sends, if it has a witness. -/
def TallyTable.events (t : TallyTable) : List (Channel.Event B128) :=
  match t.witness with | some (size, W) => tableEvents t.flushes size W | none => []

theorem tallyTables_ok (k : IndexedLookup) (chan : Nat) : ∀ (ts : List TallyTable) (a b : List Nat),
    tallyTables k chan ts a = some b → Counted k chan (ts.flatMap TallyTable.events) a b ∧
      ∀ t ∈ ts, t.witness.isSome → ∀ f ∈ t.flushes, f.channel = chan → f.direction = .pull → f.selectors = []
  | [], a, b, h => by
    obtain rfl := Option.some.inj h
    exact ⟨Counted.nil _ _ _, fun f hf => by cases hf⟩
  | ⟨fl, none⟩ :: ts, a, b, h => by
    obtain ⟨h2, h3⟩ := tallyTables_ok k chan ts a b h
    refine ⟨h2, fun t ht hw => ?_⟩
    rcases List.mem_cons.1 ht with rfl | ht
    · cases hw
    · exact h3 t ht hw
  | ⟨fl, some (size, W)⟩ :: ts, a, b, h => by
    obtain ⟨a', h1, h⟩ := Option.bind_eq_some_iff.1 h
    obtain ⟨h2, h3⟩ := tallyTables_ok k chan ts a' b h
    obtain ⟨h4, h5⟩ := tallyFlushes_ok k chan size W fl a a' h1
    refine ⟨h4.trans h2, fun t ht hw => ?_⟩
    rcases List.mem_cons.1 ht with rfl | ht
    · exact h5
    · exact h3 t ht hw

theorem tallyTables_some (k : IndexedLookup) (chan : Nat) : ∀ (ts : List TallyTable) (a : List Nat),
    (∀ t ∈ ts, t.witness.isSome → ∀ f ∈ t.flushes, f.channel = chan → f.direction = .pull → f.selectors = []) →
    (∀ e ∈ ts.flatMap TallyTable.events, e.channel = chan → e.direction = .pull → ∃ i < a.length, k.index e.tuple = some i) →
    ∃ b, tallyTables k chan ts a = some b
  | [], a, _, _ => ⟨a, rfl⟩
  | ⟨fl, none⟩ :: ts, a, hs, hr =>
    tallyTables_some k chan ts a (fun t ht => hs t (List.mem_cons_of_mem _ ht)) fun e he => hr e he
  | ⟨fl, some (size, W)⟩ :: ts, a, hs, hr => by
    obtain ⟨a', h1⟩ := tallyFlushes_some k chan size W fl a (hs _ List.mem_cons_self rfl) fun e he =>
      hr e (List.mem_append_left _ he)
    have hl := (tallyFlushes_ok k chan size W fl a a' h1).1.length
    obtain ⟨b, hb⟩ := tallyTables_some k chan ts a' (fun t ht => hs t (List.mem_cons_of_mem _ ht)) fun e he h h' => by
      rw [hl]; exact hr e (List.mem_append_right _ he) h h'
    refine ⟨b, ?_⟩
    show (tallyFlushes k chan size W fl a).bind _ = _
    rw [h1, Option.bind_some, hb]

theorem tallyBoundaries_ok (k : IndexedLookup) (chan : Nat) : ∀ (bs : List (Channel.Boundary B128)) (a b : List Nat),
    tallyBoundaries k chan bs a = some b →
      Counted k chan (bs.map fun b => ⟨b.channelId, b.direction, b.multiplicity, b.values⟩) a b
  | [], a, b, h => by
    obtain rfl := Option.some.inj h
    exact Counted.nil _ _ _
  | x :: bs, a, b, h => by
    obtain ⟨a', h1, h⟩ := Option.bind_eq_some_iff.1 h
    have h2 := tallyBoundaries_ok k chan bs a' b h
    by_cases hc : x.channelId = chan ∧ x.direction = .pull
    · rw [if_pos hc] at h1
      obtain ⟨j, h3, h1⟩ := Option.bind_eq_some_iff.1 h1
      exact (counted_bump (e := ⟨x.channelId, x.direction, x.multiplicity, x.values⟩) hc.1 hc.2 h3 h1).trans h2
    · rw [if_neg hc] at h1
      obtain rfl := Option.some.inj h1
      refine (Counted.skip (es := [⟨x.channelId, x.direction, x.multiplicity, x.values⟩]) (fun e he => ?_) a).trans h2
      rw [List.mem_singleton.1 he]
      exact hc

theorem tallyBoundaries_some (k : IndexedLookup) (chan : Nat) : ∀ (bs : List (Channel.Boundary B128)) (a : List Nat),
    (∀ b ∈ bs, b.channelId = chan → b.direction = .pull → ∃ i < a.length, k.index b.values = some i) →
    ∃ b, tallyBoundaries k chan bs a = some b
  | [], a, _ => ⟨a, rfl⟩
  | x :: bs, a, hr => by
    by_cases hc : x.channelId = chan ∧ x.direction = .pull
    · obtain ⟨j, hj, h1⟩ := hr x List.mem_cons_self hc.1 hc.2
      obtain ⟨a', h2⟩ := Option.isSome_iff_exists.1 (bump_isSome.2 hj)
      have hl := (counted_bump (k := k) (e := ⟨x.channelId, x.direction, x.multiplicity, x.values⟩) hc.1 hc.2 h1 h2).length
      obtain ⟨b, hb⟩ := tallyBoundaries_some k chan bs a' fun y hy => by
        rw [hl]; exact hr y (List.mem_cons_of_mem _ hy)
      exact ⟨b, by rw [tallyBoundaries, if_pos hc, h1, Option.bind_some, h2, Option.bind_some, hb]⟩
    · obtain ⟨b, hb⟩ := tallyBoundaries_some k chan bs a fun y hy => hr y (List.mem_cons_of_mem _ hy)
      exact ⟨b, by rw [tallyBoundaries, if_neg hc, Option.bind_some, hb]⟩

theorem readEvents_eq (tables : List TallyTable) (boundaries : List (Channel.Boundary B128)) :
    readEvents tables boundaries = tables.flatMap TallyTable.events ++
      boundaries.map fun b => ⟨b.channelId, b.direction, b.multiplicity, b.values⟩ := rfl

theorem tally_ok {k : IndexedLookup} {chan : Nat} {tables : List TallyTable} {boundaries : List (Channel.Boundary B128)}
    {counts : List Nat} (h : tally k chan tables boundaries = some counts) :
    Counted k chan (readEvents tables boundaries) (List.replicate (2 ^ k.logSize) 0) counts ∧
      Countable k chan tables boundaries := by
  obtain ⟨a, h1, h2⟩ := Option.bind_eq_some_iff.1 h
  obtain ⟨h3, h4⟩ := tallyTables_ok k chan tables _ _ h1
  have h5 := h3.trans (tallyBoundaries_ok k chan boundaries _ _ h2)
  refine ⟨h5, h4, fun e he hc hd => ?_⟩
  have := h5.range e he hc hd
  rwa [List.length_replicate] at this

theorem tally_some {k : IndexedLookup} {chan : Nat} {tables : List TallyTable} {boundaries : List (Channel.Boundary B128)}
    (h : Countable k chan tables boundaries) : ∃ counts, tally k chan tables boundaries = some counts := by
  obtain ⟨a, h1⟩ := tallyTables_some k chan tables (List.replicate (2 ^ k.logSize) 0) h.selectors fun e he hc hd => by
    rw [List.length_replicate]
    exact h.range e (List.mem_append_left _ he) hc hd
  have hl := (tallyTables_ok k chan tables _ _ h1).1.length
  obtain ⟨b, h2⟩ := tallyBoundaries_some k chan boundaries a fun x hx hc hd => by
    rw [hl, List.length_replicate]
    exact h.range ⟨x.channelId, x.direction, x.multiplicity, x.values⟩
      (List.mem_append_right _ (List.mem_map_of_mem (f := fun b => (⟨b.channelId, b.direction, b.multiplicity, b.values⟩ : Channel.Event B128)) hx)) hc hd
  exact ⟨b, by rw [tally, h1, Option.bind_some, h2]⟩

end Verif.M3
