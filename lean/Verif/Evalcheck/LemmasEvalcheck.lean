import Verif.Evalcheck.SpecEvalcheck
import Verif.Oracle.PropsOracle

/-! Lemmas on the evalcheck verifier. -/

set_option linter.dupNamespace false
set_option linter.unusedSectionVars false

namespace Verif.Evalcheck

open Verif.Mle Finset
open Verif.Oracle (OracleSet Oracle WellFormed WellFormedOracle Lawful IsTable IsTables)

variable {σ F : Type} [Field F] [DecidableEq F]

theorem Extends.refl (os : OracleSet F) : Extends os os := ⟨le_refl _, fun _ _ => rfl⟩

theorem Extends.trans {a b c : OracleSet F} (h : Extends a b) (h' : Extends b c) : Extends a c :=
  ⟨h.1.trans h'.1, fun j hj => (h'.2 j (lt_of_lt_of_le hj h.1)).trans (h.2 j hj)⟩

theorem Extends.get {a b : OracleSet F} (h : Extends a b) {id : Nat} {o : Oracle F} (hg : a.get id = some o) :
    b.get id = some o := by
  rw [h.2 id (Oracle.OracleSet.get_lt hg)]; exact hg

theorem extends_adds {os : OracleSet F} {o : Oracle F} {r : OracleSet F × Nat} (h : Oracle.Adds os o r) :
    Extends os r.1 := by
  obtain ⟨_, _, h3, h4, _⟩ := h
  exact ⟨by omega, h4⟩

theorem sound_adds {os : OracleSet F} {o : Oracle F} {r : OracleSet F × Nat} (h : Oracle.Adds os o r)
    (hw : WellFormed os → WellFormed r.1) (hl : Lawful o) (hs : Sound os) : Sound r.1 := by
  refine ⟨hw hs.1, fun id o' hg => ?_⟩
  obtain ⟨h1, h2, h3, h4, _⟩ := h
  have hlt := Oracle.OracleSet.get_lt hg
  by_cases e : id < os.oracles.length
  · rw [h4 id e] at hg; exact hs.2 id o' hg
  · have e : id = r.2 := by omega
    rw [e, h2] at hg
    cases hg
    exact hl

/-! Emitted constraints. -/

/-- The constraint is in one of the sumcheck builders. -/
def InSum (l : List (List (Constraint F))) (c : Constraint F) : Prop := ∃ b ∈ l, c ∈ b

/-- The constraint is in one of the builders for the point. -/
def InMle (l : List (List F × List (Constraint F))) (point : List F) (c : Constraint F) : Prop :=
  ∃ b ∈ l, b.1 = point ∧ c ∈ b.2

/-- The state has only grown. -/
structure Le (st st' : State σ F) : Prop where
  os : Extends st.oracles st'.oracles
  com : ∀ c ∈ st.committed, c ∈ st'.committed
  sum : ∀ c, InSum st.sumchecks c → InSum st'.sumchecks c
  mle : ∀ p c, InMle st.mlechecks p c → InMle st'.mlechecks p c

theorem Le.refl (st : State σ F) : Le st st := ⟨Extends.refl _, fun _ h => h, fun _ h => h, fun _ _ h => h⟩

theorem Le.trans {a b c : State σ F} (h : Le a b) (h' : Le b c) : Le a c :=
  ⟨h.os.trans h'.os, fun x hx => h'.com x (h.com x hx), fun x hx => h'.sum x (h.sum x hx),
    fun p x hx => h'.mle p x (h.mle p x hx)⟩

/-- What is known at the end: `tab` are tables of a final set and every emitted claim is true. -/
structure Final (β : Nat → Nat → F) (osf : OracleSet F) (tab : Nat → Nat → F) (st : State σ F) : Prop where
  ext : Extends st.oracles osf
  tables : IsTables β osf tab
  com : ∀ c ∈ st.committed, c.True tab
  sum : ∀ c, InSum st.sumchecks c → ∀ n, c.oracleIds ≠ [] → (∀ id ∈ c.oracleIds, ∃ o, osf.get id = some o ∧ o.nVars = n) →
    Arith.Built c.composition → Arith.nVars c.composition ≤ c.oracleIds.length →
    ∀ f : Nat → F, (∀ i < 2 ^ n, Arith.evaluate c.composition (c.oracleIds.map fun id => tab id i) = some (f i)) →
    ∑ i ∈ range (2 ^ n), f i = c.sum
  mle : ∀ p c, InMle st.mlechecks p c → Arith.Built c.composition →
    Arith.nVars c.composition ≤ c.oracleIds.length →
    ∀ f : Nat → F, (∀ i < 2 ^ p.length,
      Arith.evaluate c.composition (c.oracleIds.map fun id => tab id i) = some (f i)) → mle f p = c.sum

theorem Final.mono {β : Nat → Nat → F} {osf : OracleSet F} {tab : Nat → Nat → F} {st st' : State σ F}
    (h : Final β osf tab st') (hle : Le st st') : Final β osf tab st :=
  ⟨hle.os.trans h.ext, h.tables, fun c hc => h.com c (hle.com c hc), fun c hc => h.sum c (hle.sum c hc),
    fun p c hc => h.mle p c (hle.mle p c hc)⟩

/-- What a verification step gives. -/
def StepOk (β : Nat → Nat → F) (id : Nat) (P : (Nat → Nat → F) → Prop) (st st' : State σ F) : Prop :=
  Le st st' ∧ Sound st'.oracles ∧ ∀ osf tab, Final β osf tab st' →
    (∀ c ∈ st.roundClaims, c.id ≤ id → c.True tab) →
    P tab ∧ ∀ c ∈ st'.roundClaims, c ∈ st.roundClaims ∨ c.True tab

/-- The recursive call is sound. -/
def RecOk (β : Nat → Nat → F) (rec : Rec σ F) : Prop :=
  ∀ claim st st', rec claim st = .ok st' → Sound st.oracles → claim.Fits st.oracles →
    StepOk β claim.id (fun tab => claim.True tab) st st'

theorem verifyMultilinear_ok {β : Nat → Nat → F} (rd : Reader σ F) {rec : Rec σ F} (hrec : RecOk β rec) :
    RecOk β (verifyMultilinear rd rec) := by
  intro claim st st' h hs hf
  unfold verifyMultilinear at h
  split at h
  · cases h
  · split at h
    · rename_i expected he
      split at h
      · rename_i heq
        cases h
        refine ⟨⟨Extends.refl _, fun _ h => h, fun _ h => h, fun _ _ h => h⟩, hs, fun osf tab hfin hrc => ⟨?_, fun c hc => .inl hc⟩⟩
        refine hrc claim ?_ (le_refl _)
        rw [← heq]
        exact List.mem_of_getElem? he
      · cases h
    · cases h
  · rename_i tr _
    obtain ⟨h1, h2, h3⟩ := hrec claim _ st' h hs hf
    exact ⟨⟨h1.os, h1.com, h1.sum, h1.mle⟩, h2, h3⟩

theorem verifySubclaim_ok {β : Nat → Nat → F} (rd : Reader σ F) {rec : Rec σ F} (hrec : RecOk β rec) {id : Nat}
    {point : List F} {st st' : State σ F} {eval : F} (h : verifySubclaim rd rec id point st = .ok (eval, st'))
    (hs : Sound st.oracles) (hf : (⟨id, point, eval⟩ : Claim F).Fits st.oracles) :
    StepOk β id (fun tab => mle (tab id) point = eval) st st' := by
  unfold verifySubclaim at h
  split at h
  · cases h
  · split at h
    · cases h
    · rename_i c he
      split at h
      · cases h
      · rename_i hne
        cases h
        push Not at hne
        refine ⟨⟨Extends.refl _, fun _ h => h, fun _ h => h, fun _ _ h => h⟩, hs, fun osf tab hfin hrc => ⟨?_, fun c hc => .inl hc⟩⟩
        have := hrc c (List.mem_of_getElem? he) (le_of_eq hne.1)
        unfold Claim.True at this
        rw [hne.1, hne.2] at this
        exact this
  · split at h
    · cases h
    · split at h
      · cases h
      · rename_i st2 hr
        cases h
        obtain ⟨h1, h2, h3⟩ := hrec _ _ _ hr hs hf
        exact ⟨⟨h1.os, h1.com, h1.sum, h1.mle⟩, h2, h3⟩

theorem verifySubclaims_ok {β : Nat → Nat → F} (rd : Reader σ F) {rec : Rec σ F} (hrec : RecOk β rec) {point : List F}
    (n : Nat) (ids : List Nat) {st st' : State σ F} {evals : List F}
    (h : verifySubclaims rd rec point ids st = .ok (evals, st')) (hs : Sound st.oracles)
    (hf : ∀ id ∈ ids, id < n ∧ ∃ o, st.oracles.get id = some o ∧ o.nVars = point.length) :
    Le st st' ∧ Sound st'.oracles ∧ ∀ osf tab, Final β osf tab st' →
      (∀ c ∈ st.roundClaims, c.id < n → c.True tab) →
      evals = ids.map (fun id => mle (tab id) point) ∧ ∀ c ∈ st'.roundClaims, c ∈ st.roundClaims ∨ c.True tab := by
  induction ids generalizing st evals with
  | nil =>
    unfold verifySubclaims at h
    cases h
    exact ⟨Le.refl _, hs, fun _ _ _ _ => ⟨rfl, fun c hc => .inl hc⟩⟩
  | cons id ids ih =>
    unfold verifySubclaims at h
    split at h
    · cases h
    · rename_i eval st1 h1
      split at h
      · cases h
      · rename_i evals' st2 h2
        cases h
        obtain ⟨hidn, hfit⟩ := hf id List.mem_cons_self
        obtain ⟨a1, a2, a3⟩ := verifySubclaim_ok rd hrec h1 hs hfit
        obtain ⟨b1, b2, b3⟩ := ih h2 a2 fun j hj => by
          obtain ⟨hjn, o, ho, hn⟩ := hf j (List.mem_cons_of_mem _ hj)
          exact ⟨hjn, o, a1.os.get ho, hn⟩
        refine ⟨a1.trans b1, b2, fun osf tab hfin hrc => ?_⟩
        obtain ⟨p1, p2⟩ := a3 osf tab (hfin.mono b1) fun c hc hle => hrc c hc (lt_of_le_of_lt hle hidn)
        obtain ⟨q1, q2⟩ := b3 osf tab hfin fun c hc hlt => (p2 c hc).elim (fun h => hrc c h hlt) fun h => h
        refine ⟨?_, fun c hc => ?_⟩
        · rw [List.map_cons, p1, ← q1]
        · rcases q2 c hc with h | h
          · exact p2 c h
          · exact .inr h

/-! The bivariate products. -/

theorem liftAdd_ok {r : Oracle.Res (OracleSet F × Nat)} {a : OracleSet F × Nat} (h : liftAdd r = .ok a) :
    r = some (.ok a) := by
  unfold liftAdd at h
  split at h <;> cases h
  rfl

theorem liftPoly_ok {r : Except Transparent.Error (Transparent.Poly F)} {p : Transparent.Poly F}
    (h : liftPoly r = .ok p) : r = .ok p := by
  unfold liftPoly at h
  split at h <;> cases h
  rfl

theorem addTransparent_ok {ops : Ops F} {os : OracleSet F} {p : Transparent.Poly F} {level : Nat}
    {a : OracleSet F × Nat} (h : Oracle.addTransparent ops.toTowerOps os p level = some (.ok a)) :
    Oracle.Adds os ⟨p.nVars, level, .transparent p level⟩ a ∧ (WellFormed os → WellFormed a.1) := by
  have key := Oracle.C35_leaves ops.toTowerOps os 0 level p []
  by_cases hl : level ≤ ops.level
  · obtain ⟨b, hb, h1, h2⟩ := key.2.2.1 hl
    rw [h] at hb
    cases hb
    exact ⟨h1, h2⟩
  · rw [key.2.2.2.1 (by omega)] at h
    cases h

/-- The two factors of the product: the projection of the inner oracle (or itself) and the multiplier. -/
theorem projectedBivariateMeta_ok {ops : Ops F} {os os' : OracleSet F} {innerId m a b : Nat} {point : List F}
    {ctr : List F → Except Transparent.Error (Transparent.Poly F) × Nat} {inner : Oracle F}
    (h : projectedBivariateMeta ops os innerId m point ctr = .ok (os', a, b)) (hs : Sound os)
    (hi : os.get innerId = some inner) (hm : m ≤ point.length) (hlen : point.length ≤ inner.nVars)
    (hctr : ∀ r p, (ctr r).1 = .ok p → ∃ t, Transparent.IsExtensionOf p p.nVars t) :
    Extends os os' ∧ Sound os' ∧
      (∃ oa, os'.get a = some oa ∧
        ((m = inner.nVars ∧ a = innerId ∧ oa = inner) ∨
         (m < inner.nVars ∧ oa.nVars + (point.length - m) = inner.nVars ∧
          oa.variant = .projected innerId (point.drop m) (inner.nVars - (point.length - m))))) ∧
      ∃ p, (ctr (if m < inner.nVars then point.take m else point)).1 = .ok p ∧ ∃ level,
        os'.get b = some ⟨p.nVars, level, .transparent p level⟩ := by
  unfold projectedBivariateMeta at h
  rw [hi] at h
  simp only at h
  split at h
  · rename_i hlt
    rw [if_neg (by omega)] at h
    split at h
    · cases h
    · rename_i os1 pid h1
      split at h
      · cases h
      · rename_i p hp
        split at h
        · cases h
        · rename_i os2 mid h2
          cases h
          have h1 := liftAdd_ok h1
          have h2 := liftAdd_ok h2
          have hp := liftPoly_ok hp
          obtain ⟨r, hr, ha, hw⟩ := ((Oracle.C35_projected_last_vars os innerId (point.drop m)).1 inner hi).1 (by
            rw [List.length_drop]; omega)
          rw [h1] at hr
          cases hr
          obtain ⟨ha2, hw2⟩ := addTransparent_ok h2
          have hs1 : Sound os1 := sound_adds ha hw trivial hs
          have hs2 := sound_adds ha2 hw2 (by
            show ∃ t, Transparent.IsExtensionOf p p.nVars t
            exact hctr _ p hp) hs1
          have e1 := extends_adds ha
          have e2 := extends_adds ha2
          refine ⟨e1.trans e2, hs2, ⟨_, e2.get ha.2.1, .inr ⟨hlt, ?_, ?_⟩⟩, p, ?_, _, ha2.2.1⟩
          · show inner.nVars - (point.drop m).length + _ = _
            rw [List.length_drop]; omega
          · show Oracle.Variant.projected _ _ _ = _
            rw [List.length_drop]
          · rw [if_pos hlt]; exact hp
  · rename_i hlt
    split at h
    · cases h
    · rename_i p hp
      split at h
      · cases h
      · rename_i os2 mid h2
        cases h
        have h2 := liftAdd_ok h2
        have hp := liftPoly_ok hp
        obtain ⟨ha2, hw2⟩ := addTransparent_ok h2
        have hs2 := sound_adds ha2 hw2 (by
          show ∃ t, Transparent.IsExtensionOf p p.nVars t
          exact hctr _ p hp) hs
        have e2 := extends_adds ha2
        refine ⟨e2, hs2, ⟨inner, e2.get hi, .inl ⟨by omega, rfl, rfl⟩⟩, p, ?_, _, ha2.2.1⟩
        rw [if_neg hlt]; exact hp

theorem modify_same {A : Type} {l : List A} {n : Nat} {f : A → A} {a : A} (h : l[n]? = some a) :
    (l.modify n f)[n]? = some (f a) := by
  rw [List.getElem?_modify, h]; simp

theorem modify_other {A : Type} {l : List A} {n k : Nat} {f : A → A} {a : A} (h : l[k]? = some a) (hn : n ≠ k) :
    (l.modify n f)[k]? = some a := by
  rw [List.getElem?_modify, h]; simp [hn]

theorem inSum_addBivariate {ids : Nat × Nat} {l : List (List (Constraint F))} {n : Nat} {e : F} :
    InSum (addBivariate ids l n e) ⟨[ids.1, ids.2], Arith.mul (Arith.var 0) (Arith.var 1), e⟩ ∧
    ∀ c, InSum l c → InSum (addBivariate ids l n e) c := by
  unfold addBivariate
  have hlen : n < (l ++ List.replicate (n + 1 - l.length) ([] : List (Constraint F))).length := by
    rw [List.length_append, List.length_replicate]; omega
  constructor
  · exact ⟨_, List.mem_iff_getElem?.2 ⟨n, modify_same (List.getElem?_eq_getElem hlen)⟩,
      List.mem_append_right _ (List.mem_singleton.2 rfl)⟩
  · rintro c ⟨b, hb, hc⟩
    obtain ⟨k, hk⟩ := List.mem_iff_getElem?.1 (List.mem_append_left (List.replicate (n + 1 - l.length) []) hb)
    by_cases e : n = k
    · subst e
      exact ⟨_, List.mem_iff_getElem?.2 ⟨n, modify_same hk⟩, List.mem_append_left _ hc⟩
    · exact ⟨b, List.mem_iff_getElem?.2 ⟨k, modify_other hk e⟩, hc⟩

theorem inMle_addComposite {position : Nat} {point : List F} {l : List (List F × List (Constraint F))}
    {inner : List Nat} {c : Arith.Circuit F} {e : F}
    (hp : ¬ (l[position]?.any fun b => b.1 ≠ point) = true) :
    InMle (addCompositeSumcheck position point l inner c e) point ⟨inner, c, e⟩ ∧
    ∀ p d, InMle l p d → InMle (addCompositeSumcheck position point l inner c e) p d := by
  unfold addCompositeSumcheck
  by_cases h : position < l.length
  · rw [if_pos h]
    have hb : l[position].1 = point := by
      rw [List.getElem?_eq_getElem h] at hp
      simpa using hp
    constructor
    · exact ⟨_, List.mem_iff_getElem?.2 ⟨position, modify_same (List.getElem?_eq_getElem h)⟩, hb,
        List.mem_append_right _ (List.mem_singleton.2 rfl)⟩
    · rintro p d ⟨b, hb, hc⟩
      obtain ⟨k, hk⟩ := List.mem_iff_getElem?.1 hb
      by_cases e : position = k
      · subst e
        exact ⟨_, List.mem_iff_getElem?.2 ⟨_, modify_same hk⟩, hc.1, List.mem_append_left _ hc.2⟩
      · exact ⟨b, List.mem_iff_getElem?.2 ⟨k, modify_other hk e⟩, hc⟩
  · rw [if_neg h]
    constructor
    · exact ⟨_, List.mem_append_right _ (List.mem_singleton.2 rfl), rfl, List.mem_singleton.2 rfl⟩
    · rintro p d ⟨b, hb, hc⟩
      exact ⟨b, List.mem_append_left _ hb, hc⟩

theorem built_bivariate : Arith.Built (Arith.mul (Arith.var 0) (Arith.var 1) : Arith.Circuit F) :=
  .mul (.var 0) (.var 1)

theorem nVars_bivariate : Arith.nVars (Arith.mul (Arith.var 0) (Arith.var 1) : Arith.Circuit F) = 2 := rfl

theorem eval_bivariate (x y : F) :
    Arith.evaluate (Arith.mul (Arith.var 0) (Arith.var 1) : Arith.Circuit F) [x, y] = some (x * y) := rfl

/-- A bivariate sumcheck constraint says what the sum of products is. -/
theorem Final.bivariate {β : Nat → Nat → F} {osf : OracleSet F} {tab : Nat → Nat → F} {st : State σ F}
    (h : Final β osf tab st) {a b n : Nat} {e : F} {oa ob : Oracle F}
    (hc : InSum st.sumchecks ⟨[a, b], Arith.mul (Arith.var 0) (Arith.var 1), e⟩) (ha : osf.get a = some oa)
    (hb : osf.get b = some ob) (hna : oa.nVars = n) (hnb : ob.nVars = n) :
    ∑ i ∈ range (2 ^ n), tab a i * tab b i = e := by
  refine h.sum _ hc n (by simp) (fun id hid => ?_) built_bivariate (by rw [nVars_bivariate]; exact le_refl _) _ fun i _ => ?_
  · rcases List.mem_cons.1 hid with rfl | hid
    · exact ⟨oa, ha, hna⟩
    · rw [List.mem_singleton.1 hid]; exact ⟨ob, hb, hnb⟩
  · exact eval_bivariate _ _

theorem shiftCtr_ok (h2 : (2 : F) = 0) {ops : Ops F} {offset b : Nat} {v : Transparent.ShiftVariant} {r : List F}
    {p : Transparent.Poly F} (h : (shiftCtr ops offset b v r).1 = .ok p) :
    ∃ s, Transparent.ShiftInd.new b offset v r = .ok s ∧ p = ⟨b, s.evaluate⟩ ∧
      ∃ t, Transparent.IsExtensionOf p p.nVars t := by
  unfold shiftCtr at h
  split at h
  · cases h
  · rename_i s hs
    cases h
    refine ⟨s, hs, rfl, fun i => ∑ j ∈ range (2 ^ b), eqWeight r j * if Transparent.ShiftRel v b offset i j then 1 else 0, rfl,
      fun q hq => ?_, fun q hq => (Transparent.C31_evaluate h2 b offset v r s hs q).2 hq⟩
    have hq : q.length = b := hq
    show s.evaluate q = _
    rw [(Transparent.C31_evaluate h2 b offset v r s hs q).1 hq]
    unfold mle
    rw [hq]
    congr 1
    refine Finset.sum_congr rfl fun i _ => ?_
    rw [Finset.mul_sum]
    exact Finset.sum_congr rfl fun j _ => by ring

theorem transparent_table {β : Nat → Nat → F} {osf : OracleSet F} {tab : Nat → Nat → F} (ht : IsTables β osf tab)
    {b n level : Nat} {p : Transparent.Poly F} (hg : osf.get b = some ⟨n, level, .transparent p level⟩) :
    ∀ i < 2 ^ n, p.evaluate (vertex n i) = .ok (tab b i) := ht b _ hg

theorem projected_table {β : Nat → Nat → F} {osf : OracleSet F} {tab : Nat → Nat → F} (ht : IsTables β osf tab)
    {a j s n : Nat} {values : List F} {oa : Oracle F} (hg : osf.get a = some oa)
    (hv : oa.variant = .projected j values s) (hn : oa.nVars = n) (hs : s = n) (i : Nat) (hi : i < 2 ^ n) :
    tab a i = mle (tab j) (vertex n i ++ values) := by
  have := (Oracle.C35_evaluate β osf tab ht a oa hg).2.1 j values s (vertex n i) [] hv
    (by rw [vertex_length, hs]) (by rw [vertex_length, hn]; rfl)
  rw [List.append_nil, List.append_nil, mle_vertex _ _ _ hi] at this
  exact this

theorem mle_vertex_append (t : Nat → F) (n i : Nat) (hi : i < 2 ^ n) (r : List F) :
    mle t (vertex n i ++ r) = mle (fun k => t (i + 2 ^ n * k)) r := by
  rw [mle_append]
  refine mle_congr fun k _ => ?_
  rw [mle_vertex _ _ _ hi, vertex_length]

theorem innerProduct_eq (g : Nat → F) (inner : List (Nat × F)) :
    innerProduct ((inner.map (·.1)).map g) (inner.map (·.2)) = (inner.map fun p => p.2 * g p.1).sum := by
  unfold innerProduct
  induction inner with
  | nil => rfl
  | cons p l ih =>
    simp only [List.map_cons, List.zip_cons_cons, List.sum_cons]
    rw [ih, mul_comm]

/-- What a step does, for a claim whose references come earlier. -/
def VariantOk (β : Nat → Nat → F) (claim : Claim F) (st st' : State σ F) : Prop :=
  Le st st' ∧ Sound st'.oracles ∧ ∀ osf tab, Final β osf tab st' →
    (∀ c ∈ st.roundClaims, c.id < claim.id → c.True tab) →
    claim.True tab ∧ ∀ c ∈ st'.roundClaims, c ∈ st.roundClaims ∨ c.True tab

theorem variantOk_of_step {β : Nat → Nat → F} {claim : Claim F} {j : Nat} (hj : j < claim.id)
    {P : (Nat → Nat → F) → Prop} {st st' : State σ F} (h : StepOk β j P st st')
    (himp : ∀ osf tab, Final β osf tab st' → Extends st.oracles osf → P tab → claim.True tab) : VariantOk β claim st st' := by
  obtain ⟨h1, h2, h3⟩ := h
  refine ⟨h1, h2, fun osf tab hfin hrc => ?_⟩
  obtain ⟨p1, p2⟩ := h3 osf tab hfin fun c hc hle => hrc c hc (lt_of_le_of_lt hle hj)
  exact ⟨himp osf tab hfin (h1.os.trans hfin.ext) p1, p2⟩

theorem verifyVariant_ok {β : Nat → Nat → F} (rd : Reader σ F) (ops : Ops F) (hβ : BasisLawful ops β)
    (h2 : (2 : F) = 0) {rec : Rec σ F} (hrec : RecOk β rec) {claim : Claim F} {o : Oracle F} {st st' : State σ F}
    (h : verifyVariant rd ops rec claim o st = .ok st') (hs : Sound st.oracles)
    (hg : st.oracles.get claim.id = some o) (hn : o.nVars = claim.point.length) : VariantOk β claim st st' := by
  obtain ⟨id, point, eval⟩ := claim
  obtain ⟨nv, tl, var⟩ := o
  change nv = point.length at hn
  change st.oracles.get id = some ⟨nv, tl, var⟩ at hg
  have hwf := hs.1 id _ hg
  have hlaw := hs.2 id _ hg
  have hvm := verifyMultilinear_ok (β := β) rd hrec
  cases var with
  | committed =>
    cases h
    refine ⟨⟨Extends.refl _, fun c hc => List.mem_append_left _ hc, fun _ h => h, fun _ _ h => h⟩, hs,
      fun osf tab hfin _ => ⟨?_, fun c hc => .inl hc⟩⟩
    exact hfin.com _ (List.mem_append_right _ (List.mem_singleton.2 rfl))
  | transparent p l =>
    unfold verifyVariant at h
    simp only at h
    split at h
    · cases h
    · rename_i actual ha
      split at h
      · cases h
      · rename_i hne
        cases h
        refine ⟨Le.refl _, hs, fun osf tab hfin _ => ⟨?_, fun c hc => .inl hc⟩⟩
        have := (Oracle.C35_evaluate_leaves β osf tab hfin.tables id _ (hfin.ext.get hg) hlaw point hn.symm).1 p l rfl
        have e := Except.ok.inj (ha.symm.trans this)
        exact e.symm.trans (not_not.1 hne)
  | structured c =>
    unfold verifyVariant at h
    simp only at h
    split at h
    · cases h
    · split at h
      · cases h
      · rename_i actual ha
        split at h
        · cases h
        · rename_i hne
          cases h
          refine ⟨Le.refl _, hs, fun osf tab hfin _ => ⟨?_, fun c hc => .inl hc⟩⟩
          have := (Oracle.C35_evaluate_leaves β osf tab hfin.tables id _ (hfin.ext.get hg) hlaw point hn.symm).2 c rfl
          have this : Arith.evaluate c (point ++ List.replicate (Arith.nVars c - nv) 0) = some (mle (tab id) point) := this
          rw [hn] at this
          have e := Option.some.inj (ha.symm.trans this)
          exact e.symm.trans (not_not.1 hne)
  | repeating j k =>
    obtain ⟨hj, inner, hi, hin⟩ := hwf
    have hin : nv = inner.nVars + k := hin
    unfold verifyVariant at h
    simp only at h
    split at h
    · cases h
    · refine variantOk_of_step hj (hvm _ _ _ h hs ⟨inner, hi, ?_⟩) fun osf tab hfin hext hp => ?_
      · show inner.nVars = (point.take (point.length - k)).length
        rw [List.length_take]; omega
      · have := (Oracle.C35_evaluate β osf tab hfin.tables id _ (hext.get hg)).1 j k
          (point.take (point.length - k)) (point.drop (point.length - k)) rfl
          (by show _ = nv; rw [← List.length_append, List.take_append_drop]; exact hn.symm)
          (by rw [List.length_drop]; omega)
        rw [List.take_append_drop] at this
        exact this.trans hp
  | projected j values s =>
    obtain ⟨hj, inner, hi, hin, hsl⟩ := hwf
    have hin : nv + values.length = inner.nVars := hin
    have hsl : s ≤ nv := hsl
    unfold verifyVariant at h
    simp only at h
    split at h
    · cases h
    · refine variantOk_of_step hj (hvm _ _ _ h hs ⟨inner, hi, ?_⟩) fun osf tab hfin hext hp => ?_
      · show inner.nVars = (point.take s ++ values ++ point.drop s).length
        rw [List.length_append, List.length_append, List.length_take, List.length_drop]; omega
      · have := (Oracle.C35_evaluate β osf tab hfin.tables id _ (hext.get hg)).2.1 j values s
          (point.take s) (point.drop s) rfl (by rw [List.length_take]; omega)
          (by show _ = nv; rw [← List.length_append, List.take_append_drop]; exact hn.symm)
        rw [List.take_append_drop] at this
        exact this.trans hp
  | shifted j off b v =>
    obtain ⟨hj, inner, hi, hin, hb, ho1, ho2⟩ := hwf
    have hin : nv = inner.nVars := hin
    have hb : b ≤ nv := hb
    unfold verifyVariant at h
    simp only at h
    split at h
    · cases h
    · rename_i os' ids hm
      obtain ⟨a, bid⟩ := ids
      cases h
      unfold shiftedSumcheckMeta at hm
      obtain ⟨m1, m2, ⟨oa, hoa, hcase⟩, p, hp, level, hob⟩ := projectedBivariateMeta_ok hm hs hi (by omega) (by omega)
        (fun r p hr => (shiftCtr_ok h2 hr).elim fun s hs => hs.2.2)
      refine ⟨⟨m1, fun _ h => h, inSum_addBivariate.2, fun _ _ h => h⟩, m2,
        fun osf tab hfin _ => ⟨?_, fun c hc => .inl hc⟩⟩
      have htake : (if b < inner.nVars then point.take b else point) = point.take b := by
        split
        · rfl
        · rw [List.take_of_length_le (by omega)]
      rw [htake] at hp
      obtain ⟨s, hs', hpe, _⟩ := shiftCtr_ok h2 hp
      have hpn : p.nVars = b := by rw [hpe]
      rw [hpn] at hob
      have hsum := hfin.bivariate (n := b) inSum_addBivariate.1 (hfin.ext.get hoa) (hfin.ext.get hob) (by
        rcases hcase with ⟨e1, _, e2⟩ | ⟨e1, e2, _⟩
        · rw [e2]; exact e1.symm
        · omega) rfl
      obtain ⟨f, hf1, hf2⟩ := Transparent.C31_shifted h2 b off v (point.take b) s hs'
        (fun x => mle (fun k => tab j (x + 2 ^ b * k)) (point.drop b))
      have hev := (Oracle.C35_evaluate β osf tab hfin.tables id _ (hfin.ext.get (m1.get hg))).2.2.1 j off b v
        (point.take b) (point.drop b) rfl (by rw [List.length_take]; omega)
        (by show _ = nv; rw [← List.length_append, List.take_append_drop]; exact hn.symm)
      rw [List.take_append_drop] at hev
      show mle (tab id) point = eval
      rw [hev, ← hf2, ← hsum]
      refine Finset.sum_congr rfl fun i hi' => ?_
      have hi' := Finset.mem_range.1 hi'
      have e1 : tab bid i = f i := by
        have := transparent_table hfin.tables (hfin.ext.get hob) i hi'
        rw [hpe] at this
        exact Except.ok.inj (this.symm.trans (hf1 i hi'))
      have e2 : tab a i = mle (fun k => tab j (i + 2 ^ b * k)) (point.drop b) := by
        rcases hcase with ⟨c1, c2, c3⟩ | ⟨c1, c2, c3⟩
        · rw [List.drop_of_length_le (by omega), c2]
          simp [mle, eqWeight]
        · rw [projected_table hfin.tables (hfin.ext.get hoa) c3 (n := b) (by omega) (by omega) i hi',
            mle_vertex_append _ _ _ hi']
      rw [e1, e2]
  | packed j k =>
    obtain ⟨hj, inner, hi, hin, _⟩ := hwf
    have hin : nv + k = inner.nVars := hin
    unfold verifyVariant at h
    simp only at h
    split at h
    · cases h
    · rename_i os' ids hm
      obtain ⟨a, bid⟩ := ids
      cases h
      unfold packedSumcheckMeta at hm
      rw [hi] at hm
      simp only at hm
      rw [if_neg (by omega)] at hm
      have hext : ∀ p, ops.towerBasis k inner.towerLevel = .ok p → Transparent.IsExtensionOf p k (β inner.towerLevel) := by
        intro p hp
        obtain ⟨b1, b2⟩ := hβ k inner.towerLevel
        by_cases hl : inner.towerLevel + k ≤ ops.level
        · obtain ⟨q, hq, hx⟩ := b1 hl
          rw [hp] at hq
          cases hq
          exact hx
        · rw [b2 (by omega)] at hp; cases hp
      obtain ⟨m1, m2, ⟨oa, hoa, hcase⟩, p, hp, level, hob⟩ := projectedBivariateMeta_ok hm hs hi (by omega) (by omega)
        (fun r p hr => ⟨β inner.towerLevel, by have := hext p hr; rw [this.1]; exact this⟩)
      have hx := hext p hp
      rw [hx.1] at hob
      refine ⟨⟨m1, fun _ h => h, inSum_addBivariate.2, fun _ _ h => h⟩, m2,
        fun osf tab hfin _ => ⟨?_, fun c hc => .inl hc⟩⟩
      have hsum := hfin.bivariate (n := k) inSum_addBivariate.1 (hfin.ext.get hoa) (hfin.ext.get hob) (by
        rcases hcase with ⟨e1, _, e2⟩ | ⟨e1, e2, _⟩
        · rw [e2]; omega
        · omega) rfl
      have hev := (Oracle.C35_evaluate β osf tab hfin.tables id _ (hfin.ext.get (m1.get hg))).2.2.2.1 j k point inner rfl
        (hfin.ext.get (m1.get hi)) hn.symm
      show mle (tab id) point = eval
      rw [hev, ← hsum]
      refine Finset.sum_congr rfl fun i hi' => ?_
      have hi' := Finset.mem_range.1 hi'
      have e1 : tab bid i = β inner.towerLevel i := by
        have := transparent_table hfin.tables (hfin.ext.get hob) i hi'
        rw [hx.2.1 _ (vertex_length _ _), mle_vertex _ _ _ hi'] at this
        exact (Except.ok.inj this).symm
      have e2 : tab a i = mle (tab j) (vertex k i ++ point) := by
        rcases hcase with ⟨c1, c2, c3⟩ | ⟨c1, c2, c3⟩
        · have hk0 : k = 0 := by omega
          subst hk0
          have hpt : point = [] := List.length_eq_zero_iff.1 (by omega)
          rw [hpt, List.append_nil, c2, mle_vertex _ _ _ hi']
        · rw [List.drop_zero] at c3
          rw [projected_table hfin.tables (hfin.ext.get hoa) c3 (n := k) (by omega) (by omega) i hi']
      rw [e1, e2]
  | linearCombination offset l =>
    unfold verifyVariant at h
    simp only at h
    split at h
    · cases h
    · rename_i evals st1 h1
      split at h
      · cases h
      · rename_i hne
        cases h
        obtain ⟨a1, a2, a3⟩ := verifySubclaims_ok (β := β) rd hrec id (l.map (·.1)) h1 hs fun i hi => by
          obtain ⟨p, hp, rfl⟩ := List.mem_map.1 hi
          obtain ⟨hj, o, ho, hno⟩ := hwf p hp
          exact ⟨hj, o, ho, hno.trans hn⟩
        refine ⟨a1, a2, fun osf tab hfin hrc => ?_⟩
        obtain ⟨p1, p2⟩ := a3 osf tab hfin hrc
        refine ⟨?_, p2⟩
        have hev := (Oracle.C35_evaluate β osf tab hfin.tables id _ (hfin.ext.get (a1.os.get hg))).2.2.2.2.1 offset l point rfl
          hn.symm
        show mle (tab id) point = eval
        rw [hev, ← innerProduct_eq (fun i => mle (tab i) point) l, ← p1]
        exact not_not.1 hne
  | zeroPadded j k nz s =>
    obtain ⟨hj, inner, hi, hin, hsl, _⟩ := hwf
    have hin : nv = inner.nVars + k := hin
    unfold verifyVariant at h
    simp only at h
    split at h
    · cases h
    · rename_i hlen
      split at h
      · cases h
      · rename_i index hsel
        have hnz : nz < 2 ^ k := by
          by_contra hc
          rw [(Transparent.C30_select_row (F := F) 0 k nz).2.1 (by omega)] at hsel
          cases hsel
        obtain ⟨hnew, hx, _⟩ := (Transparent.C30_select_row (F := F) 0 k nz).1 hnz
        rw [hnew] at hsel
        cases hsel
        have hzl : ((point.drop s).take k).length = k := by
          rw [List.length_take, List.length_drop]; omega
        rw [hx.2.1 _ hzl] at h
        simp only at h
        have hz : mle (fun i => if i = nz then (1 : F) else 0) ((point.drop s).take k) =
            eqWeight ((point.drop s).take k) nz := by
          unfold mle
          rw [hzl, Finset.sum_eq_single nz]
          · simp
          · intro b _ hb; simp [hb]
          · intro hb; exact absurd (Finset.mem_range.2 hnz) hb
        rw [hz] at h
        have hsplit : point = point.take s ++ (point.drop s).take k ++ point.drop (s + k) := by
          rw [List.append_assoc, ← List.drop_drop, List.take_append_drop, List.take_append_drop]
        have hev : ∀ osf tab, Extends st.oracles osf → IsTables β osf tab → mle (tab id) point =
            eqWeight ((point.drop s).take k) nz * mle (tab j) (point.take s ++ point.drop (s + k)) := by
          intro osf tab hext htab
          have := (Oracle.C35_evaluate β osf tab htab id _ (hext.get hg)).2.2.2.2.2.1 j k nz s (point.take s)
            ((point.drop s).take k) (point.drop (s + k)) rfl (by rw [List.length_take]; omega) hzl
            (by show _ = nv; rw [hzl, List.length_take, List.length_drop]; omega)
          rw [← hsplit, if_pos hnz] at this
          exact this
        unfold invert at h
        by_cases ht : eqWeight ((point.drop s).take k) nz = 0
        · rw [if_pos ht] at h
          simp only at h
          split at h
          · rename_i he
            cases h
            refine ⟨Le.refl _, hs, fun osf tab hfin _ => ⟨?_, fun c hc => .inl hc⟩⟩
            show mle (tab id) point = eval
            rw [hev osf tab hfin.ext hfin.tables, ht, he, zero_mul]
          · cases h
        · rw [if_neg ht] at h
          simp only at h
          have hstep := hvm _ _ _ h hs ⟨inner, hi, by
            show inner.nVars = (point.take s ++ point.drop (s + k)).length
            rw [List.length_append, List.length_take, List.length_drop]; omega⟩
          refine variantOk_of_step hj hstep fun osf tab hfin hext hp => ?_
          show mle (tab id) point = eval
          rw [hev osf tab (hstep.1.os.trans hfin.ext) hfin.tables]
          have hp : mle (tab j) (point.take s ++ point.drop (s + k)) = eval * (eqWeight ((point.drop s).take k) nz)⁻¹ := hp
          rw [hp, mul_comm eval, ← mul_assoc, mul_inv_cancel₀ ht, one_mul]
  | composite l c =>
    unfold verifyVariant at h
    simp only at h
    split at h
    · cases h
    · rename_i position tr hr
      split at h
      · cases h
      · rename_i hpos
        cases h
        obtain ⟨i1, i2⟩ := inMle_addComposite (inner := l) (c := c) (e := eval) hpos
        refine ⟨⟨Extends.refl _, fun _ h => h, fun _ h => h, i2⟩, hs,
          fun osf tab hfin _ => ⟨?_, fun c hc => .inl hc⟩⟩
        refine hfin.mle point _ i1 hlaw hwf.2 (tab id) fun i hi => ?_
        exact hfin.tables id _ (hfin.ext.get hg) i (by rw [hn]; exact hi)

theorem verifySkipDuplicate_ok {β : Nat → Nat → F} (rd : Reader σ F) (ops : Ops F) (hβ : BasisLawful ops β)
    (h2 : (2 : F) = 0) (fuel : Nat) : RecOk β (verifySkipDuplicate rd ops fuel) := by
  induction fuel with
  | zero => intro claim st st' h; cases h
  | succ fuel ih =>
    intro claim st st' h hs hf
    obtain ⟨o, ho, hn⟩ := hf
    unfold verifySkipDuplicate at h
    rw [ho] at h
    obtain ⟨h1, h3, h4⟩ := verifyVariant_ok rd ops hβ h2 ih h hs ho hn
    refine ⟨⟨h1.os, h1.com, h1.sum, h1.mle⟩, h3, fun osf tab hfin hrc => ?_⟩
    obtain ⟨p1, p2⟩ := h4 osf tab hfin fun c hc hlt => by
      rcases List.mem_append.1 hc with hc | hc
      · exact hrc c hc (le_of_lt hlt)
      · rw [List.mem_singleton.1 hc] at hlt; omega
    refine ⟨p1, fun c hc => ?_⟩
    rcases p2 c hc with hc | hc
    · rcases List.mem_append.1 hc with hc | hc
      · exact .inl hc
      · rw [List.mem_singleton.1 hc]; exact .inr p1
    · exact .inr hc

theorem verifyAll_ok {β : Nat → Nat → F} (rd : Reader σ F) (ops : Ops F) (hβ : BasisLawful ops β)
    (h2 : (2 : F) = 0) (fuel : Nat) (claims : List (Claim F)) {st st' : State σ F}
    (h : verifyAll rd ops fuel claims st = .ok st') (hs : Sound st.oracles)
    (hf : ∀ c ∈ claims, c.Fits st.oracles) :
    Le st st' ∧ Sound st'.oracles ∧ ∀ osf tab, Final β osf tab st' →
      (∀ c ∈ st.roundClaims, c.True tab) → ∀ c ∈ claims, c.True tab := by
  induction claims generalizing st with
  | nil =>
    unfold verifyAll at h
    cases h
    exact ⟨Le.refl _, hs, fun _ _ _ _ c hc => absurd hc (by simp)⟩
  | cons c cs ih =>
    unfold verifyAll at h
    split at h
    · cases h
    · rename_i st1 h1
      obtain ⟨a1, a2, a3⟩ := verifyMultilinear_ok rd (verifySkipDuplicate_ok rd ops hβ h2 fuel) c st st1 h1 hs
        (hf c List.mem_cons_self)
      obtain ⟨b1, b2, b3⟩ := ih h a2 fun d hd => by
        obtain ⟨o, ho, hn⟩ := hf d (List.mem_cons_of_mem _ hd)
        exact ⟨o, a1.os.get ho, hn⟩
      refine ⟨a1.trans b1, b2, fun osf tab hfin hrc => ?_⟩
      obtain ⟨p1, p2⟩ := a3 osf tab (hfin.mono b1) fun d hd _ => hrc d hd
      intro d hd
      rcases List.mem_cons.1 hd with rfl | hd
      · exact p1
      · exact b3 osf tab hfin (fun e he => (p2 e he).elim (hrc e) fun h => h) d hd

end Verif.Evalcheck
