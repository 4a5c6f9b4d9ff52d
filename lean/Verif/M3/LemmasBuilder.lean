import Verif.M3.LemmasTable

/-! Lemmas on the operations of the table builder. -/

set_option linter.dupNamespace false
set_option linter.unusedSectionVars false

namespace Verif.M3

open Finset Verif.Arith

variable {F : Type} [Field F] [DecidableEq F]

/-- The values of the column are in its field. -/
def InField (Tw : Tower F) (level lv : Nat) (c : Col) (w : Row F) : Prop := ∀ pos < 2 ^ lv, Tw.sub level (w c.idx pos)

theorem newColumn_ok' (Tw : Tower F) (t : Table F) (level lv : Nat) (d : ColumnDef F)
    (hd : ∀ j ∈ d.refs, j < t.columns.length) :
    ∃ c t', t.newColumn level lv d = (c, t') ∧ New t t' c level lv ∧
      Adds Tw t t' fun w => InField Tw level lv c w ∧ Defines Tw w level lv (w c.idx) d :=
  ⟨_, _, rfl, newColumn_ok Tw t level lv d hd⟩

theorem addCommitted_ok (Tw : Tower F) (t : Table F) (level lv : Nat) :
    ∃ c t', t.addCommitted level lv = some (c, t') ∧ New t t' c level lv ∧ Adds Tw t t' (InField Tw level lv c) := by
  obtain ⟨c, t', h1, h2, h3⟩ := newColumn_ok' Tw t level lv (.committed level) (by simp [ColumnDef.refs])
  exact ⟨c, t', by rw [Table.addCommitted, h1], h2, h3.congr fun w _ => by simp [Defines]⟩

theorem addShifted_ok (Tw : Tower F) (t : Table F) {level lv : Nat} {c : Col} (hc : t.Has c level lv) {b o : Nat}
    (hb : b ≤ lv) (ho : o ≤ 2 ^ b) (v : Transparent.ShiftVariant) :
    ∃ c' t', t.addShifted level lv c b o v = some (c', t') ∧ New t t' c' level lv ∧ Adds Tw t t' fun w =>
      InField Tw level lv c' w ∧ ∀ pos < 2 ^ lv, w c'.idx pos =
        Transparent.shifted v b o (fun x => w c.idx (x + 2 ^ b * (pos / 2 ^ b))) (pos % 2 ^ b) := by
  obtain ⟨c', t', h1, h2, h3⟩ := newColumn_ok' Tw t level lv (.shifted c.idx o b v)
    (by intro j hj; rw [List.mem_singleton.1 hj]; exact hc.lt)
  exact ⟨c', t', by rw [Table.addShifted, if_pos ⟨hb, ho⟩, h1], h2, h3⟩

theorem addPacked_ok (Tw : Tower F) (t : Table F) {levelSub lvSub level lv : Nat} {c : Col}
    (hc : t.Has c levelSub lvSub) (h : levelSub < level) (h' : lv < lvSub) (h'' : level + lv = levelSub + lvSub) :
    ∃ c' t', t.addPacked levelSub lvSub level lv c = some (c', t') ∧ New t t' c' level lv ∧ Adds Tw t t' fun w =>
      InField Tw level lv c' w ∧ ∀ pos < 2 ^ lv, w c'.idx pos =
        ∑ e ∈ range (2 ^ (level - levelSub)), w c.idx (e + 2 ^ (level - levelSub) * pos) * Tw.basis (e * 2 ^ levelSub) := by
  obtain ⟨c', t', h1, h2, h3⟩ := newColumn_ok' Tw t level lv (.packed c.idx (level - levelSub))
    (by intro j hj; rw [List.mem_singleton.1 hj]; exact hc.lt)
  refine ⟨c', t', by rw [Table.addPacked, if_pos ⟨h, h', h''⟩, h1], h2, h3.congr fun w _ => ?_⟩
  rw [Defines, show level - (level - levelSub) = levelSub by omega]

theorem addSelected_ok (Tw : Tower F) (t : Table F) {level lv : Nat} {c : Col} (hc : t.Has c level lv) {i : Nat}
    (hi : i < 2 ^ lv) :
    ∃ c' t', t.addSelected level lv c i = some (c', t') ∧ New t t' c' level 0 ∧ Adds Tw t t' fun w =>
      InField Tw level 0 c' w ∧ w c'.idx 0 = w c.idx i := by
  obtain ⟨c', t', h1, h2, h3⟩ := newColumn_ok' Tw t level 0 (.selected c.idx i lv)
    (by intro j hj; rw [List.mem_singleton.1 hj]; exact hc.lt)
  refine ⟨c', t', by rw [Table.addSelected, if_pos hi, h1], h2, h3.congr fun w _ => ?_⟩
  refine and_congr_right fun _ => ?_
  rw [Defines, Nat.mod_eq_of_lt hi]
  constructor
  · intro h; simpa using h 0 (by simp)
  · intro h pos hpos
    have : pos = 0 := by simpa using hpos
    subst this
    simpa using h

theorem addConstant_ok (Tw : Tower F) (t : Table F) (level lv : Nat) {ks : List F} (hk : ks.length = 2 ^ lv) :
    ∃ c' t', t.addConstant level lv ks = some (c', t') ∧ New t t' c' level lv ∧ Adds Tw t t' fun w =>
      InField Tw level lv c' w ∧ ∀ pos < 2 ^ lv, ks[pos]? = some (w c'.idx pos) := by
  obtain ⟨c', t', h1, h2, h3⟩ := newColumn_ok' Tw t level lv (.constant ks) (by simp [ColumnDef.refs])
  exact ⟨c', t', by rw [Table.addConstant, if_pos hk, h1], h2, h3⟩

theorem addStaticExp_ok (Tw : Tower F) (t : Table F) {level : Nat} {bits : List Col}
    (hb : ∀ c ∈ bits, t.Has c 0 0) (hl : bits.length ≤ 2 ^ level) (base : F) :
    ∃ c' t', t.addStaticExp level bits base = some (c', t') ∧ New t t' c' level 0 ∧ Adds Tw t t' fun w =>
      InField Tw level 0 c' w ∧ w c'.idx 0 = base ^ wide w bits := by
  obtain ⟨c', t', h1, h2, h3⟩ := newColumn_ok' Tw t level 0 (.staticExp (bits.map Col.idx) base level)
    (by intro j hj; obtain ⟨c, hc, rfl⟩ := List.mem_map.1 hj; exact (hb c hc).lt)
  refine ⟨c', t', by rw [Table.addStaticExp, if_pos hl, h1], h2, h3.congr fun w _ => and_congr_right fun _ => ?_⟩
  rw [Defines]
  constructor
  · intro h; simpa [wide, Function.comp_def] using h 0 (by simp)
  · intro h pos hpos
    have : pos = 0 := by simpa using hpos
    subst this
    simpa [wide, Function.comp_def] using h

theorem addDynamicExp_ok (Tw : Tower F) (t : Table F) {level : Nat} {bits : List Col}
    (hb : ∀ c ∈ bits, t.Has c 0 0) (hl : bits.length ≤ 2 ^ level) {base : Col} (hbase : t.Has base level 0) :
    ∃ c' t', t.addDynamicExp level bits base = some (c', t') ∧ New t t' c' level 0 ∧ Adds Tw t t' fun w =>
      InField Tw level 0 c' w ∧ w c'.idx 0 = w base.idx 0 ^ wide w bits := by
  obtain ⟨c', t', h1, h2, h3⟩ := newColumn_ok' Tw t level 0 (.dynamicExp (bits.map Col.idx) base.idx level)
    (by
      intro j hj
      rcases List.mem_cons.1 hj with rfl | hj
      · exact hbase.lt
      · obtain ⟨c, hc, rfl⟩ := List.mem_map.1 hj; exact (hb c hc).lt)
  refine ⟨c', t', by rw [Table.addDynamicExp, if_pos hl, h1], h2, h3.congr fun w _ => and_congr_right fun _ => ?_⟩
  rw [Defines]
  constructor
  · intro h; simpa [wide, Function.comp_def] using h 0 (by simp)
  · intro h pos hpos
    have : pos = 0 := by simpa using hpos
    subst this
    simpa [wide, Function.comp_def] using h

/-! ### Computed columns -/

theorem lookupAll_ok (cols : List Nat) : ∀ is : List Nat, (∀ i ∈ is, i < cols.length) →
    ∃ cs, lookupAll cols is = some cs ∧ cs.length = is.length ∧ (∀ c ∈ cs, c ∈ cols) ∧
      ∀ (k i : Nat), is[k]? = some i → cs[k]? = cols[i]?
  | [], _ => ⟨[], rfl, rfl, by simp, by simp⟩
  | i :: is, h => by
    obtain ⟨cs, h1, h2, h3, h4⟩ := lookupAll_ok cols is fun j hj => h j (List.mem_cons_of_mem _ hj)
    have hi := h i List.mem_cons_self
    refine ⟨cols[i] :: cs, ?_, by simp [h2], ?_, ?_⟩
    · rw [lookupAll, List.getElem?_eq_getElem hi, Option.bind_some, h1, Option.bind_some]
    · intro c hc
      rcases List.mem_cons.1 hc with rfl | hc
      · exact List.getElem_mem hi
      · exact h3 c hc
    · intro k j hk
      cases k with
      | zero =>
        have : i = j := by simpa using hk
        subst this
        simp [List.getElem?_eq_getElem hi]
      | succ k => simpa using h4 k j (by simpa using hk)

theorem fillRemapping_ok : ∀ (is : List Nat) (n : Nat) (v : List Nat), is.Nodup → (∀ i ∈ is, i < v.length) →
    (fillRemapping is n v).length = v.length ∧
    (∀ (k i : Nat), is[k]? = some i → (fillRemapping is n v)[i]? = some (n + k)) ∧
    ∀ (i : Nat), i ∉ is → (fillRemapping is n v)[i]? = v[i]?
  | [], n, v, _, _ => ⟨rfl, by simp, fun i _ => rfl⟩
  | old :: is, n, v, hn, hv => by
    obtain ⟨hno, hn'⟩ := List.nodup_cons.1 hn
    obtain ⟨h1, h2, h3⟩ := fillRemapping_ok is (n + 1) (v.set old n) hn' fun i hi => by
      rw [List.length_set]; exact hv i (List.mem_cons_of_mem _ hi)
    rw [List.length_set] at h1
    refine ⟨h1, fun k i hk => ?_, fun i hi => ?_⟩
    · cases k with
      | zero =>
        have : old = i := by simpa using hk
        subst this
        refine (h3 old hno).trans ?_
        simp [hv old List.mem_cons_self]
      | succ k =>
        refine (h2 k i (by simpa using hk)).trans ?_
        congr 1; omega
    · refine (h3 i fun h => hi (List.mem_cons_of_mem _ h)).trans ?_
      rw [List.getElem?_set_ne]
      rintro rfl
      exact hi List.mem_cons_self

theorem mem_usedIndices {l : List Bool} {i : Nat} : i ∈ usedIndices l ↔ l[i]? = some true := by
  rw [usedIndices, List.mem_filter, List.mem_range]
  constructor
  · rintro ⟨-, h⟩; simpa using h
  · intro h; exact ⟨lt_of_get h, by simpa using h⟩

/-- The remapped expression over the columns used has the value of the original over the partition. -/
theorem remap_ok {e : Circuit F} (he : Built e) {q : List F} (hq : nVars e ≤ q.length) {cols : List Nat}
    (g : Nat → F) (hcols : cols.length = (usedIndices (varsUsage e)).length)
    (hget : ∀ (k i : Nat), (usedIndices (varsUsage e))[k]? = some i → (cols[k]?.map g) = q[i]?) :
    ∃ e', remapVars e (fillRemapping (usedIndices (varsUsage e)) 0 (List.replicate (nVars e) 0)) = some e' ∧
      evaluate e' (cols.map g) = evaluate e q := by
  obtain ⟨ht1, ht2, ht3, ht4⟩ := C21_evaluate_total e he
  obtain ⟨r1, r2⟩ := C21_remap_vars e he (fillRemapping (usedIndices (varsUsage e)) 0 (List.replicate (nVars e) 0))
  have hnodup : (usedIndices (varsUsage e)).Nodup := List.nodup_range.filter _
  obtain ⟨f1, f2, f3⟩ := fillRemapping_ok (usedIndices (varsUsage e)) 0 (List.replicate (nVars e) 0) hnodup
    (fun i hi => by rw [List.length_replicate, ← ht3]; exact lt_of_get (mem_usedIndices.1 hi))
  rw [List.length_replicate] at f1
  have hsome : (remapVars e (fillRemapping (usedIndices (varsUsage e)) 0 (List.replicate (nVars e) 0))).isSome := by
    rw [r1]
    intro i hi
    rw [f1]
    exact (nVars_spec e).1 i hi
  obtain ⟨e', he'⟩ := Option.isSome_iff_exists.1 hsome
  refine ⟨e', he', ?_⟩
  set used := usedIndices (varsUsage e) with hused
  set m := fillRemapping used 0 (List.replicate (nVars e) 0) with hm
  have hmlt : ∀ (i j : Nat), m[i]? = some j → j < cols.length := by
    intro i j hij
    have hi : i < nVars e := by rw [← f1]; exact lt_of_get hij
    by_cases hu : i ∈ used
    · obtain ⟨k, hk, hki⟩ := List.getElem_of_mem hu
      have := f2 k i (by rw [List.getElem?_eq_getElem hk, hki])
      rw [hij] at this
      injection this with this
      omega
    · rw [f3 i hu, List.getElem?_replicate, if_pos hi] at hij
      injection hij with hij
      have hlast : nVars e - 1 ∈ used := mem_usedIndices.2 (ht4 (by omega))
      have := List.length_pos_of_mem hlast
      omega
  set q' : List F := m.map (fun j => g (cols.getD j 0)) with hq'
  have hqm : ∀ (i j : Nat), m[i]? = some j → q'[i]? = (cols.map g)[j]? := by
    intro i j hij
    rw [hq', List.getElem?_map, hij, List.getElem?_map]
    have := hmlt i j hij
    rw [List.getElem?_eq_getElem this]
    simp [List.getD_eq_getElem?_getD, List.getElem?_eq_getElem this]
  have hagree : ∀ i : Nat, (varsUsage e)[i]? = some true → q'[i]? = q[i]? := by
    intro i hi
    obtain ⟨k, hk, hki⟩ := List.getElem_of_mem (mem_usedIndices.2 hi)
    have hk' : used[k]? = some i := by rw [List.getElem?_eq_getElem hk, hki]
    rw [hqm i _ (f2 k i hk'), zero_add, List.getElem?_map]
    exact hget k i hk'
  obtain ⟨a, ha⟩ := ht1 q' (by rw [hq', List.length_map, f1])
  rw [r2 e' he' (cols.map g) q' a hqm ha, ← ha]
  exact ht2 q' q hagree

theorem addComputed_ok [CharP F 2] (Tw : Tower F) {t : Table F} (ht : WellFormed t) (level : Nat) {lv : Nat} {e : Circuit F}
    {f : Row F → Nat → F} (he : Ev t lv e f) :
    ∃ c t', t.addComputed level lv e = some (c, t') ∧ New t t' c level lv ∧ Adds Tw t t' fun w =>
      InField Tw level lv c w ∧ ∀ pos < 2 ^ lv, w c.idx pos = f w pos := by
  obtain ⟨d, hd, -⟩ := C21_degree e he.built
  rw [Table.addComputed, hd, Option.bind_some]
  by_cases hd1 : d ≤ 1
  · rw [if_pos hd1]
    dsimp only
    obtain ⟨ht1, ht2, ht3, ht4⟩ := C21_evaluate_total e he.built
    obtain ⟨cols, l1, l2, l3, l4⟩ := lookupAll_ok (t.partitions lv).columns (usedIndices (varsUsage e)) fun i hi => by
      have := lt_of_get (mem_usedIndices.1 hi)
      rw [ht3] at this
      exact this.trans_le he.vars
    rw [l1, Option.bind_some]
    have hrem : ∀ w pos, ∃ e', remapVars e (fillRemapping (usedIndices (varsUsage e)) 0 (List.replicate (nVars e) 0)) =
        some e' ∧ evaluate e' (cols.map fun i => w i pos) = some (f w pos) := by
      intro w pos
      obtain ⟨e', h1, h2⟩ := remap_ok he.built (q := t.query lv w pos) (by rw [Table.query, List.length_map]; exact he.vars)
        (fun i => w i pos) l2 (fun k i hk => by rw [l4 k i hk, Table.query, List.getElem?_map])
      exact ⟨e', h1, by rw [h2, he.eval]⟩
    obtain ⟨e', h1, -⟩ := hrem (fun _ _ => 0) 0
    rw [h1, Option.bind_some]
    obtain ⟨c, t', n1, n2, n3⟩ := newColumn_ok' Tw t level lv (.computed cols e')
      (fun j hj => ht.parts lv j (l3 j hj))
    refine ⟨c, t', by rw [n1], n2, n3.congr fun w _ => and_congr_right fun _ => ?_⟩
    refine forall_congr' fun pos => imp_congr_right fun _ => ?_
    obtain ⟨e'', g1, g2⟩ := hrem w pos
    rw [h1] at g1
    injection g1 with g1
    subst g1
    rw [g2, Option.some_inj, eq_comm]
  · rw [if_neg hd1]
    obtain ⟨c, t1, a1, a2, a3⟩ := addCommitted_ok Tw t level lv
    rw [a1, Option.bind_some]
    dsimp only
    obtain ⟨t2, b1, b2, b3⟩ := assertZero_ok Tw (Ev.sub (he.ext a3.ext) (Ev.col a2.has))
    rw [b1, Option.bind_some]
    refine ⟨c, t2, rfl, ⟨a2.idx, by rw [b2, a2.len], a2.has.ext b3.ext⟩, (a3.trans b3).congr fun w _ =>
      and_congr_right fun _ => forall_congr' fun pos => imp_congr_right fun _ => ?_⟩
    rw [CharTwo.add_eq_zero, eq_comm]

/-! ### Loops -/

/-- `cs` are the `n` columns that `t'` has and `t` does not. -/
structure NewCols (t t' : Table F) (cs : List Col) (n level lv : Nat) : Prop where
  length : cs.length = n
  len : t'.columns.length = t.columns.length + n
  col : ∀ (k : Nat) (c : Col), cs[k]? = some c → c.idx = t.columns.length + k ∧ t'.Has c level lv

theorem NewCols.has {t t' : Table F} {cs : List Col} {n level lv : Nat} (h : NewCols t t' cs n level lv) {c : Col}
    (hc : c ∈ cs) : t'.Has c level lv := by
  obtain ⟨k, hk, rfl⟩ := List.getElem_of_mem hc
  exact (h.col k _ (List.getElem?_eq_getElem hk)).2

theorem fromFn_ok (Tw : Tower F) {f : Nat → Table F → Option (Col × Table F)} {level lv : Nat}
    (R : Nat → Col → Row F → Prop) : ∀ (n i : Nat) (t : Table F), WellFormed t →
    (∀ j, i ≤ j → j < i + n → ∀ t1, Ext t t1 → WellFormed t1 → ∃ c t2, f j t1 = some (c, t2) ∧
      New t1 t2 c level lv ∧ Adds Tw t1 t2 (R j c)) →
    ∃ cs t', fromFn f i n t = some (cs, t') ∧ NewCols t t' cs n level lv ∧
      Adds Tw t t' fun w => ∀ (k : Nat) (c : Col), cs[k]? = some c → R (i + k) c w
  | 0, i, t, _, _ => ⟨[], t, rfl, ⟨rfl, rfl, by simp⟩, (Adds.refl Tw t).congr fun w _ => by simp⟩
  | n + 1, i, t, ht, hf => by
    obtain ⟨c, t1, a1, a2, a3⟩ := hf i le_rfl (by omega) t (Ext.refl t) ht
    obtain ⟨cs, t', b1, b2, b3⟩ := fromFn_ok Tw R n (i + 1) t1 (a3.wf ht) fun j h1 h2 t2 h3 h4 =>
      hf j (by omega) (by omega) t2 (a3.ext.trans h3) h4
    refine ⟨c :: cs, t', ?_, ⟨by simp [b2.length], by rw [b2.len, a2.len]; omega, fun k c' hk => ?_⟩,
      (a3.trans b3).congr fun w _ => ?_⟩
    · rw [fromFn, a1, Option.bind_some]
      dsimp only
      rw [b1, Option.bind_some]
    · cases k with
      | zero =>
        have : c = c' := by simpa using hk
        subst this
        exact ⟨a2.idx, a2.has.ext b3.ext⟩
      | succ k =>
        obtain ⟨g1, g2⟩ := b2.col k c' (by simpa using hk)
        exact ⟨by rw [g1, a2.len]; omega, g2⟩
    · constructor
      · rintro ⟨h1, h2⟩ k c' hk
        cases k with
        | zero =>
          have : c = c' := by simpa using hk
          subst this
          exact h1
        | succ k =>
          have := h2 k c' (by simpa using hk)
          rwa [show i + 1 + k = i + (k + 1) by omega] at this
      · intro h
        refine ⟨h 0 c (by simp), fun k c' hk => ?_⟩
        have := h (k + 1) c' (by simpa using hk)
        rwa [show i + (k + 1) = i + 1 + k by omega] at this

theorem addCommittedMultiple_ok (Tw : Tower F) {t : Table F} (ht : WellFormed t) (level lv n : Nat) :
    ∃ cs t', t.addCommittedMultiple level lv n = some (cs, t') ∧ NewCols t t' cs n level lv ∧
      Adds Tw t t' fun w => ∀ c ∈ cs, InField Tw level lv c w := by
  obtain ⟨cs, t', h1, h2, h3⟩ := fromFn_ok Tw (f := fun _ t => t.addCommitted level lv)
    (fun _ c => InField Tw level lv c) n 0 t ht (fun j _ _ t1 _ _ => addCommitted_ok Tw t1 level lv)
  refine ⟨cs, t', h1, h2, h3.congr fun w _ => ⟨fun h c hc => ?_, fun h k c hk => h c (List.mem_of_getElem? hk)⟩⟩
  obtain ⟨k, hk, rfl⟩ := List.getElem_of_mem hc
  exact h k _ (List.getElem?_eq_getElem hk)

theorem forEach_ok (Tw : Tower F) {f : Nat → Table F → Option (Table F)} (R : Nat → Row F → Prop) :
    ∀ (n i : Nat) (t : Table F), WellFormed t →
    (∀ j, i ≤ j → j < i + n → ∀ t1, Ext t t1 → WellFormed t1 → ∃ t2, f j t1 = some t2 ∧
      t2.columns.length = t1.columns.length ∧ Adds Tw t1 t2 (R j)) →
    ∃ t', forEach f i n t = some t' ∧ t'.columns.length = t.columns.length ∧
      Adds Tw t t' fun w => ∀ k < n, R (i + k) w
  | 0, i, t, _, _ => ⟨t, rfl, rfl, (Adds.refl Tw t).congr fun w _ => by simp⟩
  | n + 1, i, t, ht, hf => by
    obtain ⟨t1, a1, a2, a3⟩ := hf i le_rfl (by omega) t (Ext.refl t) ht
    obtain ⟨t', b1, b2, b3⟩ := forEach_ok Tw R n (i + 1) t1 (a3.wf ht) fun j h1 h2 t2 h3 h4 =>
      hf j (by omega) (by omega) t2 (a3.ext.trans h3) h4
    refine ⟨t', by rw [forEach, a1, Option.bind_some]; exact b1, b2.trans a2, (a3.trans b3).congr fun w _ => ?_⟩
    constructor
    · rintro ⟨h1, h2⟩ k hk
      cases k with
      | zero => exact h1
      | succ k =>
        have := h2 k (by omega)
        rwa [show i + 1 + k = i + (k + 1) by omega] at this
    · intro h
      refine ⟨h 0 (by omega), fun k hk => ?_⟩
      have := h (k + 1) (by omega)
      rwa [show i + (k + 1) = i + 1 + k by omega] at this

end Verif.M3
