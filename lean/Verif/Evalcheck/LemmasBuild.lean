import Verif.Evalcheck.LemmasEvalcheck

/-! Lemmas on the construction of the constraint sets and on the termination of the verifier. -/

set_option linter.dupNamespace false
set_option linter.unusedSectionVars false

namespace Verif.Evalcheck

open Verif.Mle Finset
open Verif.Oracle (OracleSet Oracle WellFormed WellFormedOracle Lawful IsTable IsTables)

variable {σ F : Type} [Field F] [DecidableEq F]

theorem mem_dedupConsecutive (l : List Nat) (x : Nat) : x ∈ dedupConsecutive l ↔ x ∈ l := by
  induction l with
  | nil => rfl
  | cons a l ih =>
    cases l with
    | nil => rfl
    | cons b l =>
      unfold dedupConsecutive
      split
      · rename_i h
        rw [ih, List.mem_cons (a := x) (b := a), h]
        constructor
        · exact .inr
        · rintro (h | h)
          · rw [h]; exact List.mem_cons_self
          · exact h
      · rw [List.mem_cons, List.mem_cons, ih]

theorem getAll_mem {os : OracleSet F} {ids : List Nat} {polys : List (Oracle F)} (h : os.getAll ids = some polys) :
    ∀ id ∈ ids, ∃ o ∈ polys, os.get id = some o := by
  induction ids generalizing polys with
  | nil => intro id hid; cases hid
  | cons a ids ih =>
    unfold OracleSet.getAll at h
    cases ha : os.get a with
    | none => rw [ha] at h; cases h
    | some o =>
      rw [ha] at h
      cases hr : os.getAll ids with
      | none => rw [hr] at h; cases h
      | some l =>
        rw [hr] at h
        cases h
        intro id hid
        rcases List.mem_cons.1 hid with rfl | hid
        · exact ⟨o, List.mem_cons_self, ha⟩
        · obtain ⟨o', ho', hg⟩ := ih hr id hid
          exact ⟨o', List.mem_cons_of_mem _ ho', hg⟩

theorem positions_spec {subset superset pos : List Nat} (h : positions subset superset = some pos) :
    pos.length = subset.length ∧ ∀ (i j : Nat), pos[i]? = some j → ∃ x, subset[i]? = some x ∧ superset[j]? = some x := by
  unfold positions at h
  induction subset generalizing pos with
  | nil =>
    simp at h
    subst h
    exact ⟨rfl, fun i j h => by simp at h⟩
  | cons a l ih =>
    rw [List.mapM_cons] at h
    cases ha : superset.findIdx? (· = a) with
    | none => rw [ha] at h; cases h
    | some k =>
      rw [ha] at h
      cases hr : l.mapM (fun x => superset.findIdx? (· = x)) with
      | none => rw [hr] at h; cases h
      | some p =>
        rw [hr] at h
        cases h
        obtain ⟨h1, h2⟩ := ih hr
        refine ⟨by simp [h1], fun i j hij => ?_⟩
        cases i with
        | zero =>
          cases hij
          refine ⟨a, rfl, ?_⟩
          obtain ⟨hk, he, _⟩ := List.findIdx?_eq_some_iff_getElem.1 ha
          rw [List.getElem?_eq_getElem hk]
          congr 1
          simpa using he
        | succ i => exact h2 i j hij

theorem remapAll_spec {ids : List Nat} {cs : List (Constraint F)} {l : List (Arith.Circuit F × F)}
    (h : remapAll ids cs = .ok l) :
    List.Forall₂ (fun c d => d.2 = c.sum ∧ ∃ pos, positions c.oracleIds ids = some pos ∧
      Arith.remapVars c.composition pos = some d.1) cs l := by
  induction cs generalizing l with
  | nil => cases h; exact .nil
  | cons c cs ih =>
    unfold remapAll at h
    split at h
    · cases h
    · rename_i pos hp
      split at h
      · cases h
      · rename_i c' hc
        split at h
        · cases h
        · rename_i l' hl
          cases h
          exact .cons ⟨rfl, pos, hp, hc⟩ (ih hl)

theorem remapAll_not_empty {ids : List Nat} {cs : List (Constraint F)} :
    remapAll ids cs ≠ .error .emptyConstraintSet := by
  induction cs with
  | nil => intro h; cases h
  | cons c cs ih =>
    intro h
    unfold remapAll at h
    split at h
    · cases h
    · split at h
      · cases h
      · split at h
        · rename_i e he; cases h; exact ih he
        · cases h

/-- The constraint and its image over the common list of oracles have the same values. -/
theorem remap_evaluate {ids : List Nat} {c : Constraint F} {c' : Arith.Circuit F} {pos : List Nat}
    (hp : positions c.oracleIds ids = some pos) (hr : Arith.remapVars c.composition pos = some c')
    (hb : Arith.Built c.composition) (tab : Nat → Nat → F) (i : Nat) (a : F)
    (he : Arith.evaluate c.composition (c.oracleIds.map fun id => tab id i) = some a) :
    Arith.evaluate c' (ids.map fun id => tab id i) = some a := by
  obtain ⟨_, h⟩ := positions_spec hp
  refine (Arith.C21_remap_vars c.composition hb pos).2 c' hr _ _ a (fun k j hkj => ?_) he
  obtain ⟨x, h1, h2⟩ := h k j hkj
  rw [List.getElem?_map, List.getElem?_map, h1, h2]

theorem buildOne_spec {os : OracleSet F} {cs : List (Constraint F)} {s : ConstraintSet F}
    (h : buildOne os cs = .ok s) :
    remapAll s.oracleIds cs = .ok s.constraints ∧
    (∀ id, id ∈ s.oracleIds ↔ ∃ c ∈ cs, id ∈ c.oracleIds) ∧
    (∀ id ∈ s.oracleIds, ∃ o, os.get id = some o ∧ o.nVars = s.nVars) := by
  unfold buildOne at h
  simp only at h
  split at h
  · cases h
  · split at h
    · cases h
    · split at h
      · cases h
      · rename_i polys hpolys
        split at h
        · cases h
        · rename_i p ps _
          split at h
          · cases h
          · rename_i hall
            split at h
            · cases h
            · rename_i l hl
              cases h
              refine ⟨hl, fun id => ?_, fun id hid => ?_⟩
              · rw [mem_dedupConsecutive, List.mem_insertionSort, List.mem_flatMap]
              · obtain ⟨o, ho, hg⟩ := getAll_mem hpolys id hid
                refine ⟨o, hg, ?_⟩
                by_contra hne
                apply hall
                rw [List.any_eq_true]
                exact ⟨o, ho, by simpa using hne⟩

theorem buildOne_not_empty {os : OracleSet F} {cs : List (Constraint F)} {c : Constraint F} (hc : c ∈ cs)
    (hi : c.oracleIds ≠ []) : buildOne os cs ≠ .error .emptyConstraintSet := by
  intro h
  unfold buildOne at h
  simp only at h
  split at h
  · rename_i hall
    obtain ⟨x, hx⟩ := List.exists_mem_of_ne_nil _ hi
    have : x ∈ cs.flatMap (·.oracleIds) := List.mem_flatMap.2 ⟨c, hc, hx⟩
    rw [hall] at this
    cases this
  · split at h
    · cases h
    · split at h
      · cases h
      · split at h
        · cases h
        · split at h
          · cases h
          · split at h
            · rename_i e he; cases h; exact remapAll_not_empty he
            · cases h

theorem takeSumchecks_mem {os : OracleSet F} {l : List (List (Constraint F))} {sets : List (ConstraintSet F)}
    (h : takeSumchecks os l = .ok sets) :
    ∀ b ∈ l, buildOne os b = .error .emptyConstraintSet ∨ ∃ s ∈ sets, buildOne os b = .ok s := by
  induction l generalizing sets with
  | nil => intro b hb; cases hb
  | cons a l ih =>
    unfold takeSumchecks at h
    intro b hb
    split at h
    · rename_i ha
      rcases List.mem_cons.1 hb with rfl | hb
      · exact .inl ha
      · exact ih h b hb
    · cases h
    · rename_i s hs
      split at h
      · cases h
      · rename_i l' hl
        cases h
        rcases List.mem_cons.1 hb with rfl | hb
        · exact .inr ⟨s, List.mem_cons_self, hs⟩
        · rcases ih hl b hb with h | ⟨s', h1, h2⟩
          · exact .inl h
          · exact .inr ⟨s', List.mem_cons_of_mem _ h1, h2⟩

theorem takeMlechecks_mem {os : OracleSet F} {l : List (List F × List (Constraint F))}
    {sets : List (List F × ConstraintSet F)} (h : takeMlechecks os l = .ok sets) :
    ∀ b ∈ l, ∃ s, (b.1, s) ∈ sets ∧ buildOne os b.2 = .ok s := by
  induction l generalizing sets with
  | nil => intro b hb; cases hb
  | cons a l ih =>
    obtain ⟨point, a⟩ := a
    unfold takeMlechecks at h
    intro b hb
    split at h
    · cases h
    · rename_i s hs
      split at h
      · cases h
      · rename_i l' hl
        cases h
        rcases List.mem_cons.1 hb with rfl | hb
        · exact ⟨s, List.mem_cons_self, hs⟩
        · obtain ⟨s', h1, h2⟩ := ih hl b hb
          exact ⟨s', List.mem_cons_of_mem _ h1, h2⟩

/-- True sets of constraints make every emitted constraint true. -/
theorem final_of_sets {β : Nat → Nat → F} {st : State σ F} {sums : List (ConstraintSet F)}
    {mles : List (List F × ConstraintSet F)} (hs : takeSumchecks st.oracles st.sumchecks = .ok sums)
    (hm : takeMlechecks st.oracles st.mlechecks = .ok mles) {tab : Nat → Nat → F}
    (ht : IsTables β st.oracles tab) (hcom : ∀ c ∈ st.committed, c.True tab) (hsum : ∀ s ∈ sums, s.SumTrue tab)
    (hmle : ∀ m ∈ mles, m.2.MleTrue tab m.1) : Final β st.oracles tab st := by
  refine ⟨Extends.refl _, ht, hcom, ?_, ?_⟩
  · rintro c ⟨b, hb, hc⟩ n hne hn hbuilt hnv f hf
    rcases takeSumchecks_mem hs b hb with h | ⟨s, hmem, h⟩
    · exact absurd h (buildOne_not_empty hc hne)
    · obtain ⟨h1, h2, h3⟩ := buildOne_spec h
      have hnn : n = s.nVars := by
        obtain ⟨x, hx⟩ := List.exists_mem_of_ne_nil _ hne
        obtain ⟨o, ho, hon⟩ := hn x hx
        obtain ⟨o', ho', hon'⟩ := h3 x ((h2 x).2 ⟨c, hc, hx⟩)
        rw [ho] at ho'
        cases ho'
        exact hon.symm.trans hon'
      subst hnn
      obtain ⟨k, hk, rfl⟩ := List.getElem_of_mem hc
      have hfa := remapAll_spec h1
      have hk' : k < s.constraints.length := by rw [← hfa.length_eq]; exact hk
      obtain ⟨e1, pos, e2, e3⟩ := hfa.get hk hk'
      simp only [List.get_eq_getElem] at e1 e2 e3
      obtain ⟨g, g1, g2⟩ := hsum s hmem _ (List.getElem_mem hk')
      rw [e1] at g2
      rw [← g2]
      refine Finset.sum_congr rfl fun i hi => ?_
      have hi := Finset.mem_range.1 hi
      have := remap_evaluate e2 e3 hbuilt tab i _ (hf i hi)
      exact Option.some.inj (this.symm.trans (g1 i hi))
  · rintro p c ⟨b, hb, rfl, hc⟩ hbuilt hnv f hf
    obtain ⟨s, hmem, h⟩ := takeMlechecks_mem hm b hb
    obtain ⟨h1, h2, h3⟩ := buildOne_spec h
    obtain ⟨k, hk, rfl⟩ := List.getElem_of_mem hc
    have hfa := remapAll_spec h1
    have hk' : k < s.constraints.length := by rw [← hfa.length_eq]; exact hk
    obtain ⟨e1, pos, e2, e3⟩ := hfa.get hk hk'
    simp only [List.get_eq_getElem] at e1 e2 e3
    obtain ⟨hl, hall⟩ := hmle _ hmem
    obtain ⟨g, g1, g2⟩ := hall _ (List.getElem_mem hk')
    rw [e1] at g2
    rw [← g2]
    refine mle_congr fun i hi => ?_
    have := remap_evaluate e2 e3 hbuilt tab i _ (hf i hi)
    have hl : b.1.length = s.nVars := hl
    exact Option.some.inj (this.symm.trans (g1 i (by rw [← hl]; exact hi)))

/-! Termination. -/

/-- The recursive call returns on claims below `n`. -/
def Returns (n : Nat) (rec : Rec σ F) : Prop :=
  ∀ claim st, claim.id < n → Sound st.oracles → claim.Fits st.oracles → rec claim st ≠ .error .diverge

theorem readHint_ne (rd : Reader σ F) (tr : σ) : readHint rd tr ≠ .error .diverge := by
  unfold readHint
  intro h
  split at h
  · cases h
  · cases h
  · split at h <;> cases h
  · cases h

theorem verifyMultilinear_returns (rd : Reader σ F) {rec : Rec σ F} {n : Nat} (h : Returns n rec) :
    Returns n (verifyMultilinear rd rec) := by
  intro claim st hn hs hf he
  unfold verifyMultilinear at he
  split at he
  · rename_i e h'; cases he; exact readHint_ne _ _ h'
  · split at he
    · split at he <;> cases he
    · cases he
  · rename_i tr _
    exact h claim { st with tr := tr } hn hs hf he

theorem verifySubclaim_returns (rd : Reader σ F) {rec : Rec σ F} {n : Nat} (h : Returns n rec) {id : Nat}
    {point : List F} {st : State σ F} (hid : id < n) (hs : Sound st.oracles)
    (hf : ∃ o, st.oracles.get id = some o ∧ o.nVars = point.length) :
    verifySubclaim rd rec id point st ≠ .error .diverge := by
  intro he
  unfold verifySubclaim at he
  split at he
  · rename_i e h'; cases he; exact readHint_ne _ _ h'
  · split at he
    · cases he
    · split at he <;> cases he
  · split at he
    · cases he
    · rename_i eval tr _
      split at he
      · rename_i e h'
        cases he
        exact h ⟨id, point, eval⟩ { st with tr := tr } hid hs hf h'
      · cases he

theorem verifySubclaims_returns {β : Nat → Nat → F} (rd : Reader σ F) {rec : Rec σ F} (hrec : RecOk β rec) {n : Nat}
    (h : Returns n rec) {point : List F} (ids : List Nat) {st : State σ F} (hs : Sound st.oracles)
    (hf : ∀ id ∈ ids, id < n ∧ ∃ o, st.oracles.get id = some o ∧ o.nVars = point.length) :
    verifySubclaims rd rec point ids st ≠ .error .diverge := by
  induction ids generalizing st with
  | nil => intro he; cases he
  | cons id ids ih =>
    intro he
    obtain ⟨hid, hfit⟩ := hf id List.mem_cons_self
    unfold verifySubclaims at he
    split at he
    · rename_i e h'; cases he; exact verifySubclaim_returns rd h hid hs hfit h'
    · rename_i eval st1 h1
      obtain ⟨a1, a2, _⟩ := verifySubclaim_ok (β := β) rd hrec h1 hs hfit
      split at he
      · rename_i e h'
        cases he
        refine ih a2 (fun j hj => ?_) h'
        obtain ⟨hjn, o, ho, hn⟩ := hf j (List.mem_cons_of_mem _ hj)
        exact ⟨hjn, o, a1.os.get ho, hn⟩
      · cases he

theorem liftAdd_ne {r : Oracle.Res (OracleSet F × Nat)} : liftAdd r ≠ .error .diverge := by
  unfold liftAdd; intro h; split at h <;> cases h

theorem liftPoly_ne {r : Except Transparent.Error (Transparent.Poly F)} : liftPoly r ≠ .error .diverge := by
  unfold liftPoly; intro h; split at h <;> cases h

theorem projectedBivariateMeta_ne {ops : Ops F} {os : OracleSet F} {id m : Nat} {point : List F}
    {ctr : List F → Except Transparent.Error (Transparent.Poly F) × Nat} :
    projectedBivariateMeta ops os id m point ctr ≠ .error .diverge := by
  unfold projectedBivariateMeta
  intro h
  split at h
  · cases h
  · split at h
    · split at h
      · cases h
      · split at h
        · rename_i h'; cases h; exact liftAdd_ne h'
        · split at h
          · rename_i h'; cases h; exact liftPoly_ne h'
          · split at h
            · rename_i h'; cases h; exact liftAdd_ne h'
            · cases h
    · split at h
      · rename_i h'; cases h; exact liftPoly_ne h'
      · split at h
        · rename_i h'; cases h; exact liftAdd_ne h'
        · cases h

theorem verifyVariant_returns {β : Nat → Nat → F} (rd : Reader σ F) (ops : Ops F) {rec : Rec σ F}
    (hrec : RecOk β rec) {claim : Claim F} (hret : Returns claim.id rec) {o : Oracle F} {st : State σ F}
    (hs : Sound st.oracles) (hg : st.oracles.get claim.id = some o) (hn : o.nVars = claim.point.length) :
    verifyVariant rd ops rec claim o st ≠ .error .diverge := by
  obtain ⟨id, point, eval⟩ := claim
  obtain ⟨nv, tl, var⟩ := o
  change nv = point.length at hn
  change st.oracles.get id = some ⟨nv, tl, var⟩ at hg
  have hwf := hs.1 id _ hg
  have hvm := verifyMultilinear_returns rd hret
  intro h
  cases var with
  | committed => cases h
  | transparent p l =>
    unfold verifyVariant at h
    simp only at h
    split at h
    · cases h
    · split at h <;> cases h
  | structured c =>
    unfold verifyVariant at h
    simp only at h
    split at h
    · cases h
    · split at h
      · cases h
      · split at h <;> cases h
  | repeating j k =>
    obtain ⟨hj, inner, hi, hin⟩ := hwf
    change nv = inner.nVars + k at hin
    unfold verifyVariant at h
    simp only at h
    split at h
    · cases h
    · refine hvm _ _ hj hs ⟨inner, hi, ?_⟩ h
      show inner.nVars = (point.take (point.length - k)).length
      rw [List.length_take]; omega
  | projected j values s =>
    obtain ⟨hj, inner, hi, hin, hsl⟩ := hwf
    change nv + values.length = inner.nVars at hin
    change s ≤ nv at hsl
    unfold verifyVariant at h
    simp only at h
    split at h
    · cases h
    · refine hvm _ _ hj hs ⟨inner, hi, ?_⟩ h
      show inner.nVars = (point.take s ++ values ++ point.drop s).length
      rw [List.length_append, List.length_append, List.length_take, List.length_drop]; omega
  | shifted j off b v =>
    unfold verifyVariant at h
    simp only at h
    split at h
    · rename_i e h'; cases h; exact projectedBivariateMeta_ne h'
    · cases h
  | packed j k =>
    unfold verifyVariant at h
    simp only at h
    split at h
    · rename_i e h'
      cases h
      unfold packedSumcheckMeta at h'
      split at h'
      · cases h'
      · split at h'
        · cases h'
        · exact projectedBivariateMeta_ne h'
    · cases h
  | linearCombination offset l =>
    unfold verifyVariant at h
    simp only at h
    split at h
    · rename_i e h'
      cases h
      refine verifySubclaims_returns rd hrec hret (l.map (·.1)) hs (fun i hi => ?_) h'
      obtain ⟨p, hp, rfl⟩ := List.mem_map.1 hi
      obtain ⟨hj, o, ho, hno⟩ := hwf p hp
      exact ⟨hj, o, ho, hno.trans hn⟩
    · split at h <;> cases h
  | zeroPadded j k nz s =>
    obtain ⟨hj, inner, hi, hin, hsl, _⟩ := hwf
    change nv = inner.nVars + k at hin
    unfold verifyVariant at h
    simp only at h
    split at h
    · cases h
    · split at h
      · cases h
      · split at h
        · cases h
        · split at h
          · split at h <;> cases h
          · refine hvm _ _ hj hs ⟨inner, hi, ?_⟩ h
            show inner.nVars = (point.take s ++ point.drop (s + k)).length
            rw [List.length_append, List.length_take, List.length_drop]; omega
  | composite l c =>
    unfold verifyVariant at h
    simp only at h
    split at h
    · cases h
    · split at h <;> cases h

theorem verifySkipDuplicate_returns {β : Nat → Nat → F} (rd : Reader σ F) (ops : Ops F) (hβ : BasisLawful ops β)
    (h2 : (2 : F) = 0) (fuel : Nat) : Returns fuel (verifySkipDuplicate rd ops fuel) := by
  induction fuel with
  | zero => intro claim st h; omega
  | succ fuel ih =>
    intro claim st hlt hs hf h
    obtain ⟨o, ho, hn⟩ := hf
    unfold verifySkipDuplicate at h
    rw [ho] at h
    refine verifyVariant_returns rd ops (verifySkipDuplicate_ok rd ops hβ h2 fuel) (fun c st' hc => ih c st' (by omega))
      (st := { st with roundClaims := st.roundClaims ++ [claim] }) hs ho hn h

theorem verifyAll_returns {β : Nat → Nat → F} (rd : Reader σ F) (ops : Ops F) (hβ : BasisLawful ops β)
    (h2 : (2 : F) = 0) (fuel : Nat) (claims : List (Claim F)) {st : State σ F} (hs : Sound st.oracles)
    (hf : ∀ c ∈ claims, c.id < fuel ∧ c.Fits st.oracles) :
    verifyAll rd ops fuel claims st ≠ .error .diverge := by
  induction claims generalizing st with
  | nil => intro h; cases h
  | cons c cs ih =>
    intro h
    unfold verifyAll at h
    obtain ⟨hc, hfit⟩ := hf c List.mem_cons_self
    split at h
    · rename_i e h'
      cases h
      exact verifyMultilinear_returns rd (verifySkipDuplicate_returns rd ops hβ h2 fuel) c st hc hs hfit h'
    · rename_i st1 h1
      obtain ⟨a1, a2, _⟩ := verifyMultilinear_ok rd (verifySkipDuplicate_ok rd ops hβ h2 fuel) c st st1 h1 hs hfit
      refine ih a2 (fun d hd => ?_) h
      obtain ⟨hd1, o, ho, hn⟩ := hf d (List.mem_cons_of_mem _ hd)
      exact ⟨hd1, o, a1.os.get ho, hn⟩

end Verif.Evalcheck
