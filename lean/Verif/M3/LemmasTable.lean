import Verif.M3.SpecTable
import Verif.Math.PropsArith

/-! Lemmas on the table builder: what each operation adds to the meaning of a table. -/

set_option linter.dupNamespace false
set_option linter.unusedSectionVars false

namespace Verif.M3

open Finset Verif.Arith

variable {F : Type} [Field F] [DecidableEq F]

/-! ### Circuits -/

theorem stepEval_mono {q r vals : List F} {s : Step F} {a : F} (h : stepEval q vals s = some a) :
    stepEval (q ++ r) vals s = some a := by
  cases s with
  | var i =>
    have h : q[i]? = some a := h
    show (q ++ r)[i]? = some a
    rw [List.getElem?_append_left (lt_of_get h)]
    exact h
  | _ => exact h

theorem evalAll_mono {q : List F} (r : List F) : ∀ (c : Circuit F) {vals a : List F},
    evalAll q c vals = some a → evalAll (q ++ r) c vals = some a
  | [], _, _, h => h
  | s :: c, vals, a, h => by
    obtain ⟨v, hv, h⟩ := Option.bind_eq_some_iff.1 h
    exact Option.bind_eq_some_iff.2 ⟨v, stepEval_mono hv, evalAll_mono r c h⟩

theorem evaluate_mono {q : List F} (r : List F) {c : Circuit F} {a : F} (h : evaluate c q = some a) :
    evaluate c (q ++ r) = some a := by
  unfold evaluate at h ⊢
  cases hq : evalAll q c [] with
  | none => rw [hq] at h; cases h
  | some v => rw [hq] at h; rw [evalAll_mono r c hq]; exact h

theorem mem_addOffset {b : Circuit F} {o x : Nat} (h : Step.var x ∈ addOffset b o) : Step.var x ∈ b := by
  obtain ⟨s, hs, he⟩ := List.mem_map.1 h
  cases s with
  | var i => injection he with he; subst he; exact hs
  | _ => cases he

theorem var_mem_add {a b : Circuit F} {x : Nat} (h : Step.var x ∈ add a b) : Step.var x ∈ a ∨ Step.var x ∈ b := by
  rw [add] at h
  rcases List.mem_append.1 h with h | h
  · exact (List.mem_append.1 h).imp_right mem_addOffset
  · simp at h

theorem var_mem_mul {a b : Circuit F} {x : Nat} (h : Step.var x ∈ mul a b) : Step.var x ∈ a ∨ Step.var x ∈ b := by
  rw [mul] at h
  rcases List.mem_append.1 h with h | h
  · exact (List.mem_append.1 h).imp_right mem_addOffset
  · simp at h

/-! ### Extension of tables -/

/-- `t'` has the columns of `t` and more. -/
structure Ext (t t' : Table F) : Prop where
  cols : ∀ (i : Nat) (c : ColumnInfo F), t.columns[i]? = some c → ∃ c', t'.columns[i]? = some c' ∧
    c'.towerHeight = c.towerHeight ∧ c'.logValuesPerRow = c.logValuesPerRow ∧ c'.defn = c.defn
  len : t.columns.length ≤ t'.columns.length
  parts : ∀ lv, (t.partitions lv).columns <+: (t'.partitions lv).columns

theorem Ext.refl (t : Table F) : Ext t t := ⟨fun _ c h => ⟨c, h, rfl, rfl, rfl⟩, le_rfl, fun _ => List.prefix_rfl⟩

theorem Ext.trans {t t' t'' : Table F} (h : Ext t t') (h' : Ext t' t'') : Ext t t'' := by
  refine ⟨fun i c hc => ?_, h.len.trans h'.len, fun lv => (h.parts lv).trans (h'.parts lv)⟩
  obtain ⟨c', h1, h2, h3, hd⟩ := h.cols i c hc
  obtain ⟨c'', h4, h5, h6, hd'⟩ := h'.cols i c' h1
  exact ⟨c'', h4, h5.trans h2, h6.trans h3, hd'.trans hd⟩

theorem prefix_get {α : Type} {l l' : List α} (h : l <+: l') {i : Nat} {a : α} (hi : l[i]? = some a) :
    l'[i]? = some a := by
  obtain ⟨r, rfl⟩ := h
  rw [List.getElem?_append_left (lt_of_get hi)]
  exact hi

theorem Table.Has.ext {t t' : Table F} {c : Col} {level lv : Nat} (h : t.Has c level lv) (he : Ext t t') :
    t'.Has c level lv := by
  obtain ⟨⟨i, h1, h2, h3⟩, h4⟩ := h
  obtain ⟨i', g1, g2, g3, -⟩ := he.cols _ _ h1
  exact ⟨⟨i', g1, g2.trans h2, g3.trans h3⟩, prefix_get (he.parts lv) h4⟩

theorem Table.Has.lt {t : Table F} {c : Col} {level lv : Nat} (h : t.Has c level lv) : c.idx < t.columns.length := by
  obtain ⟨⟨i, h1, _⟩, _⟩ := h
  exact lt_of_get h1

/-- In a row that satisfies the table, the values of a column are in its field. -/
theorem Table.Has.sub {Tw : Tower F} {t : Table F} {c : Col} {level lv : Nat} (h : t.Has c level lv) {w : Row F}
    (hw : RowHolds Tw t w) {pos : Nat} (hp : pos < 2 ^ lv) : Tw.sub level (w c.idx pos) := by
  obtain ⟨⟨i, h1, h2, h3⟩, _⟩ := h
  subst h2; subst h3
  exact (hw.1 _ _ h1).1 pos hp

/-! ### The meaning of expressions over the columns -/

/-- The expression has the value `f` at every row and position. -/
structure Ev (t : Table F) (lv : Nat) (e : Circuit F) (f : Row F → Nat → F) : Prop where
  built : Built e
  vars : nVars e ≤ (t.partitions lv).columns.length
  eval : ∀ w pos, evaluate e (t.query lv w pos) = some (f w pos)

theorem nVars_le {c : Circuit F} {n : Nat} (h : ∀ x, Step.var x ∈ c → x < n) : nVars c ≤ n := by
  by_contra hlt
  have := (nVars_spec c).2 (by omega)
  have := h _ this
  omega

theorem Ev.col {t : Table F} {lv level : Nat} {c : Col} (h : t.Has c level lv) :
    Ev t lv (c.expr : Circuit F) (fun w pos => w c.idx pos) := by
  refine ⟨.var _, nVars_le fun x hx => ?_, fun w pos => ?_⟩
  · have : x = c.part := by simpa [Col.expr, var] using hx
    rw [this]
    exact lt_of_get h.2
  · rw [Col.expr, (C21_leaves _ (0 : F) _).2, Table.query, List.getElem?_map, h.2]
    rfl

theorem Ev.const (t : Table F) (lv : Nat) (k : F) : Ev t lv (constant k) (fun _ _ => k) :=
  ⟨.constant _, nVars_le fun x hx => by simp [constant] at hx, fun _ _ => rfl⟩

theorem Ev.add {t : Table F} {lv : Nat} {a b : Circuit F} {f g : Row F → Nat → F} (ha : Ev t lv a f) (hb : Ev t lv b g) :
    Ev t lv (add a b) (fun w pos => f w pos + g w pos) := by
  refine ⟨.add ha.built hb.built, nVars_le fun x hx => ?_, fun w pos =>
    evaluate_add ha.built.wf.1 hb.built.wf.1 (ha.eval w pos) (hb.eval w pos)⟩
  rcases var_mem_add hx with h | h
  · exact ((nVars_spec a).1 x h).trans_le ha.vars
  · exact ((nVars_spec b).1 x h).trans_le hb.vars

theorem Ev.sub {t : Table F} {lv : Nat} {a b : Circuit F} {f g : Row F → Nat → F} (ha : Ev t lv a f) (hb : Ev t lv b g) :
    Ev t lv (Arith.sub a b) (fun w pos => f w pos + g w pos) := by
  have := Ev.add ha hb
  exact ⟨.sub ha.built hb.built, this.vars, this.eval⟩

theorem Ev.mul {t : Table F} {lv : Nat} {a b : Circuit F} {f g : Row F → Nat → F} (ha : Ev t lv a f) (hb : Ev t lv b g) :
    Ev t lv (mul a b) (fun w pos => f w pos * g w pos) := by
  refine ⟨.mul ha.built hb.built, nVars_le fun x hx => ?_, fun w pos =>
    evaluate_mul ha.built.wf.1 hb.built.wf.1 (ha.eval w pos) (hb.eval w pos)⟩
  rcases var_mem_mul hx with h | h
  · exact ((nVars_spec a).1 x h).trans_le ha.vars
  · exact ((nVars_spec b).1 x h).trans_le hb.vars

theorem Ev.ext {t t' : Table F} {lv : Nat} {e : Circuit F} {f : Row F → Nat → F} (h : Ev t lv e f) (he : Ext t t') :
    Ev t' lv e f := by
  obtain ⟨r, hr⟩ := he.parts lv
  refine ⟨h.built, ?_, fun w pos => ?_⟩
  · rw [← hr, List.length_append]; exact Nat.le_add_right_of_le h.vars
  · rw [Table.query, ← hr, List.map_append]
    exact evaluate_mono _ (h.eval w pos)

theorem Ev.total {t : Table F} {lv : Nat} {e : Circuit F} {f : Row F → Nat → F} (h : Ev t lv e f) {q : List F}
    (hq : q.length = (t.partitions lv).columns.length) : ∃ a, evaluate e q = some a :=
  (C21_evaluate_total e h.built).1 q (hq ▸ h.vars)

/-! ### What an operation adds -/

/-- `t'` extends `t`, and its rows are those of `t` that have the property `P` too. -/
structure Adds (Tw : Tower F) (t t' : Table F) (P : Row F → Prop) : Prop where
  ext : Ext t t'
  wf : WellFormed t → WellFormed t'
  holds : WellFormed t → ∀ w, RowHolds Tw t' w ↔ RowHolds Tw t w ∧ P w

theorem Adds.refl (Tw : Tower F) (t : Table F) : Adds Tw t t fun _ => True :=
  ⟨Ext.refl t, id, fun _ w => by simp⟩

theorem Adds.trans {Tw : Tower F} {t t' t'' : Table F} {P Q : Row F → Prop} (h : Adds Tw t t' P)
    (h' : Adds Tw t' t'' Q) : Adds Tw t t'' fun w => P w ∧ Q w :=
  ⟨h.ext.trans h'.ext, fun hw => h'.wf (h.wf hw), fun hw w => by
    rw [h'.holds (h.wf hw) w, h.holds hw w, and_assoc]⟩

theorem Adds.congr {Tw : Tower F} {t t' : Table F} {P Q : Row F → Prop} (h : Adds Tw t t' P)
    (hPQ : ∀ w, RowHolds Tw t w → (P w ↔ Q w)) : Adds Tw t t' Q :=
  ⟨h.ext, h.wf, fun hw w => by
    rw [h.holds hw w]
    exact and_congr_right fun hr => hPQ w hr⟩

/-- The definition of a column depends on its values and on those of the columns it refers to. -/
theorem defines_congr {Tw : Tower F} {w w' : Row F} {level lv : Nat} {f f' : Nat → F} {d : ColumnDef F}
    (hf : ∀ pos, f pos = f' pos) (hw : ∀ j ∈ d.refs, ∀ pos, w j pos = w' j pos) :
    Defines Tw w level lv f d ↔ Defines Tw w' level lv f' d := by
  have hf' : f = f' := funext hf
  subst hf'
  have hs : ∀ c, c ∈ d.refs → w c = w' c := fun c hc => funext fun pos => hw c hc pos
  cases d with
  | committed _ => exact Iff.rfl
  | selected c i b => simp only [Defines]; rw [hs c (by simp [ColumnDef.refs])]
  | projected c s k q => simp only [Defines]; rw [hs c (by simp [ColumnDef.refs])]
  | zeroPadded c k s nz => simp only [Defines]; rw [hs c (by simp [ColumnDef.refs])]
  | shifted c o b v => simp only [Defines]; rw [hs c (by simp [ColumnDef.refs])]
  | packed c k => simp only [Defines]; rw [hs c (by simp [ColumnDef.refs])]
  | computed cols e =>
    have : ∀ pos, (cols.map fun i => w i pos) = cols.map fun i => w' i pos := fun pos =>
      List.map_congr_left fun i hi => hw i hi pos
    simp only [Defines, this]
  | constant _ => exact Iff.rfl
  | staticExp bits b l =>
    have : ∀ pos, (bits.map fun i => w i pos) = bits.map fun i => w' i pos := fun pos =>
      List.map_congr_left fun i hi => hw i hi pos
    simp only [Defines, this]
  | dynamicExp bits b l =>
    have : ∀ pos, (bits.map fun i => w i pos) = bits.map fun i => w' i pos := fun pos =>
      List.map_congr_left fun i hi => hw i (by simp [ColumnDef.refs, hi]) pos
    simp only [Defines, this]
    rw [hs b (by simp [ColumnDef.refs])]

/-- Only the values of the columns of the table matter. -/
theorem frame {Tw : Tower F} {t : Table F} (ht : WellFormed t) {w w' : Row F}
    (h : ∀ i < t.columns.length, ∀ pos, w i pos = w' i pos) : RowHolds Tw t w ↔ RowHolds Tw t w' := by
  refine and_congr (forall_congr' fun i => forall_congr' fun c => imp_congr_right fun hc => ?_)
    (forall_congr' fun lv => forall_congr' fun e => imp_congr_right fun _ => forall_congr' fun pos =>
      imp_congr_right fun _ => ?_)
  · have hi := h i (lt_of_get hc)
    have hfun : w i = w' i := funext hi
    unfold ColumnHolds
    rw [defines_congr (Tw := Tw) (d := c.defn) hi fun j hj => h j (ht.refs i c hc j hj), hfun]
  · have : t.query lv w pos = t.query lv w' pos :=
      List.map_congr_left fun i hi => h i (ht.parts lv i hi) pos
    rw [this]

/-- `c` is the one column that `t'` has and `t` does not. -/
structure New (t t' : Table F) (c : Col) (level lv : Nat) : Prop where
  idx : c.idx = t.columns.length
  len : t'.columns.length = t.columns.length + 1
  has : t'.Has c level lv

theorem newColumn_ok (Tw : Tower F) (t : Table F) (level lv : Nat) (d : ColumnDef F)
    (hd : ∀ j ∈ d.refs, j < t.columns.length) :
    New t (t.newColumn level lv d).2 (t.newColumn level lv d).1 level lv ∧
    Adds Tw t (t.newColumn level lv d).2 fun w =>
      (∀ pos < 2 ^ lv, Tw.sub level (w t.columns.length pos)) ∧ Defines Tw w level lv (w t.columns.length) d := by
  have hcols : (t.newColumn level lv d).2.columns = t.columns ++ [⟨d, level, lv, false⟩] := rfl
  have hpart : ∀ k, ((t.newColumn level lv d).2.partitions k).columns =
      (t.partitions k).columns ++ (if k = lv then [t.columns.length] else []) := by
    intro k
    show (if k = lv then _ else _ : Partition F).columns = _
    by_cases hk : k = lv <;> simp [hk]
  have hzero : ∀ k, ((t.newColumn level lv d).2.partitions k).zeros = (t.partitions k).zeros := by
    intro k
    show (if k = lv then _ else _ : Partition F).zeros = _
    by_cases hk : k = lv <;> simp [hk]
  generalize (t.newColumn level lv d).2 = t' at hcols hpart hzero
  have hidx : (t.newColumn level lv d).1 = ⟨t.columns.length, (t.partitions lv).columns.length⟩ := rfl
  rw [hidx]
  have hext : Ext t t' := by
    refine ⟨fun i c hc => ⟨c, ?_, rfl, rfl, rfl⟩, by rw [hcols]; simp, fun k => by rw [hpart k]; exact List.prefix_append _ _⟩
    rw [hcols, List.getElem?_append_left (lt_of_get hc)]
    exact hc
  refine ⟨⟨rfl, by rw [hcols]; simp, ⟨⟨⟨d, level, lv, false⟩, ?_, rfl, rfl⟩, ?_⟩⟩, hext, fun ht => ⟨?_, ?_, ?_⟩, fun ht w => ?_⟩
  · simp [hcols]
  · simp [hpart lv]
  · intro i c hc j hj
    rw [hcols, List.length_append, List.length_singleton]
    rw [hcols] at hc
    by_cases hi : i < t.columns.length
    · rw [List.getElem?_append_left hi] at hc
      have := ht.refs i c hc j hj
      omega
    · rw [List.getElem?_append_right (by omega)] at hc
      have hi' : i - t.columns.length = 0 := by
        have := lt_of_get hc; simpa using this
      rw [hi'] at hc
      have : c = ⟨d, level, lv, false⟩ := by simpa using hc.symm
      subst this
      have := hd j hj
      omega
  · intro k i hi
    rw [hcols, List.length_append, List.length_singleton]
    rw [hpart k] at hi
    rcases List.mem_append.1 hi with h | h
    · have := ht.parts k i h; omega
    · by_cases hk : k = lv <;> simp [hk] at h
      omega
  · intro k e he q hq
    rw [hzero k] at he
    rw [hpart k, List.length_append] at hq
    obtain ⟨a, ha⟩ := ht.zeros k e he (q.take (t.partitions k).columns.length) (by simp; omega)
    refine ⟨a, ?_⟩
    rw [← List.take_append_drop (t.partitions k).columns.length q]
    exact evaluate_mono _ ha
  · have hz : (∀ lv, ∀ e ∈ (t'.partitions lv).zeros, ∀ pos < 2 ^ lv, evaluate e (t'.query lv w pos) = some 0) ↔
        ∀ lv, ∀ e ∈ (t.partitions lv).zeros, ∀ pos < 2 ^ lv, evaluate e (t.query lv w pos) = some 0 := by
      refine forall_congr' fun k => ?_
      rw [hzero k]
      refine forall_congr' fun e => imp_congr_right fun he => forall_congr' fun pos => imp_congr_right fun _ => ?_
      obtain ⟨a, ha⟩ := ht.zeros k e he (t.query k w pos) (by simp [Table.query])
      have hq : t'.query k w pos = t.query k w pos ++ (if k = lv then [t.columns.length] else []).map fun i => w i pos := by
        rw [Table.query, hpart k, List.map_append]; rfl
      rw [hq, evaluate_mono _ ha, ha]
    have hc : (∀ i c, t'.columns[i]? = some c → ColumnHolds Tw w i c) ↔
        (∀ i c, t.columns[i]? = some c → ColumnHolds Tw w i c) ∧
          ((∀ pos < 2 ^ lv, Tw.sub level (w t.columns.length pos)) ∧
            Defines Tw w level lv (w t.columns.length) d) := by
      rw [hcols]
      constructor
      · intro h
        refine ⟨fun i c hc => h i c (by rw [List.getElem?_append_left (lt_of_get hc)]; exact hc), ?_⟩
        obtain ⟨h1, h2, -⟩ := h t.columns.length ⟨d, level, lv, false⟩ (by simp)
        exact ⟨h1, h2⟩
      · rintro ⟨h1, h2, h3⟩ i c hc
        by_cases hi : i < t.columns.length
        · rw [List.getElem?_append_left hi] at hc
          exact h1 i c hc
        · rw [List.getElem?_append_right (by omega)] at hc
          have hi' : i - t.columns.length = 0 := by
            have := lt_of_get hc; simpa using this
          rw [hi'] at hc
          have : c = ⟨d, level, lv, false⟩ := by simpa using hc.symm
          subst this
          have : i = t.columns.length := by omega
          subst this
          exact ⟨h2, h3, fun h => by cases h⟩
    unfold RowHolds
    rw [hz, hc]
    tauto

theorem assertZero_ok (Tw : Tower F) {t : Table F} {lv : Nat} {e : Circuit F} {f : Row F → Nat → F} (he : Ev t lv e f) :
    ∃ t', t.assertZero lv e = some t' ∧ t'.columns = t.columns ∧ Adds Tw t t' fun w => ∀ pos < 2 ^ lv, f w pos = 0 := by
  refine ⟨_, rfl, rfl, ?_⟩
  set t' : Table F := { t with partitions := fun k =>
    if k = lv then { t.partitions k with zeros := (t.partitions k).zeros ++ [e] } else t.partitions k } with ht'
  have hpart : ∀ k, (t'.partitions k).columns = (t.partitions k).columns := by
    intro k
    show (if k = lv then _ else _ : Partition F).columns = _
    by_cases hk : k = lv <;> simp [hk]
  have hzero : ∀ k, (t'.partitions k).zeros = (t.partitions k).zeros ++ (if k = lv then [e] else []) := by
    intro k
    show (if k = lv then _ else _ : Partition F).zeros = _
    by_cases hk : k = lv <;> simp [hk]
  have hcols : t'.columns = t.columns := rfl
  clear_value t'
  refine ⟨⟨fun i c hc => ⟨c, by rw [hcols]; exact hc, rfl, rfl, rfl⟩, by rw [hcols], fun k => by rw [hpart k]⟩,
    fun ht => ⟨by rw [hcols]; exact ht.refs, fun k => by rw [hpart k, hcols]; exact ht.parts k, ?_⟩, fun ht w => ?_⟩
  · intro k e' he' q hq
    rw [hzero k] at he'
    rw [hpart k] at hq
    rcases List.mem_append.1 he' with h | h
    · exact ht.zeros k e' h q hq
    · by_cases hk : k = lv
      · subst hk
        have : e' = e := by simpa using h
        subst this
        exact he.total hq
      · simp [hk] at h
  · have hq : ∀ k pos, t'.query k w pos = t.query k w pos := fun k pos => by rw [Table.query, hpart k]; rfl
    unfold RowHolds
    rw [hcols, and_assoc]
    refine and_congr_right fun _ => ?_
    constructor
    · intro h
      refine ⟨fun k e' he' pos hpos => ?_, fun pos hpos => ?_⟩
      · rw [← hq k]; exact h k e' (by rw [hzero k]; exact List.mem_append_left _ he') pos hpos
      · have := h lv e (by rw [hzero lv]; simp) pos hpos
        rw [hq, he.eval] at this
        injection this
    · rintro ⟨h1, h2⟩ k e' he' pos hpos
      rw [hq]
      rw [hzero k] at he'
      rcases List.mem_append.1 he' with h | h
      · exact h1 k e' h pos hpos
      · by_cases hk : k = lv
        · subst hk
          have : e' = e := by simpa using h
          subst this
          rw [he.eval, h2 pos hpos]
        · simp [hk] at h

theorem assertNonzero_ok (Tw : Tower F) {t : Table F} {c : Col} {level lv : Nat} (hc : t.Has c level lv) :
    ∃ t', t.assertNonzero c = some t' ∧ t'.columns.length = t.columns.length ∧
      Adds Tw t t' fun w => ∀ pos < 2 ^ lv, w c.idx pos ≠ 0 := by
  obtain ⟨⟨ci, hci, hl, hlv⟩, hpart⟩ := hc
  refine ⟨{ t with columns := t.columns.set c.idx { ci with isNonzero := true } }, by rw [Table.assertNonzero, hci], by simp, ?_⟩
  have hget : ∀ (j : Nat) (d : ColumnInfo F), (t.columns.set c.idx { ci with isNonzero := true })[j]? = some d ↔
      (j = c.idx ∧ d = { ci with isNonzero := true }) ∨ (j ≠ c.idx ∧ t.columns[j]? = some d) := by
    intro j d
    rw [List.getElem?_set]
    by_cases hj : c.idx = j
    · subst hj
      simp [lt_of_get hci, eq_comm]
    · simp [hj, Ne.symm hj]
  refine ⟨⟨fun i d hd => ?_, by simp, fun _ => List.prefix_rfl⟩, fun ht => ⟨fun i d hd j hj => ?_, fun lv i hi => ?_, ht.zeros⟩,
    fun ht w => ?_⟩
  · by_cases hi : i = c.idx
    · subst hi
      rw [hci] at hd
      injection hd with hd
      subst hd
      exact ⟨_, (hget _ _).2 (Or.inl ⟨rfl, rfl⟩), rfl, rfl, rfl⟩
    · exact ⟨d, (hget _ _).2 (Or.inr ⟨hi, hd⟩), rfl, rfl, rfl⟩
  · rcases (hget _ _).1 hd with ⟨rfl, rfl⟩ | ⟨_, h⟩
    · rw [List.length_set]; exact ht.refs _ _ hci j hj
    · rw [List.length_set]; exact ht.refs _ _ h j hj
  · rw [List.length_set]; exact ht.parts lv i hi
  · unfold RowHolds
    rw [and_right_comm]
    refine and_congr ?_ Iff.rfl
    subst hlv
    constructor
    · intro h
      refine ⟨fun i d hd => ?_, ?_⟩
      · by_cases hi : i = c.idx
        · subst hi
          rw [hci] at hd
          injection hd with hd
          subst hd
          obtain ⟨h1, h2, h3⟩ := h c.idx _ ((hget _ _).2 (Or.inl ⟨rfl, rfl⟩))
          exact ⟨h1, h2, fun _ => h3 rfl⟩
        · exact h i d ((hget _ _).2 (Or.inr ⟨hi, hd⟩))
      · exact (h c.idx _ ((hget _ _).2 (Or.inl ⟨rfl, rfl⟩))).2.2 rfl
    · rintro ⟨h1, h2⟩ i d hd
      rcases (hget _ _).1 hd with ⟨rfl, rfl⟩ | ⟨_, h⟩
      · obtain ⟨g1, g2, -⟩ := h1 _ _ hci
        exact ⟨g1, g2, fun _ => h2⟩
      · exact h1 i d h

end Verif.M3
