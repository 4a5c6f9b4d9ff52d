import Verif.Evalcheck.LemmasBuild
import Mathlib.Data.ZMod.Basic
import Mathlib.Algebra.Field.ZMod

/-! C34: soundness of the evalcheck verifier. -/

set_option linter.dupNamespace false
set_option linter.unusedSectionVars false

namespace Verif.Evalcheck

open Verif.Mle Finset
open Verif.Oracle (OracleSet Oracle IsTables)

variable {σ F : Type} [Field F] [DecidableEq F]

/-- C34.  Whatever messages the prover sends, when the verifier accepts and the claims it emits are true of the tables of
the oracles (the evaluations of committed oracles, the sumcheck sets and the multilinear extension sets), every input
claim is true.  The claims are about oracles of the set, with points of the right size; the set may have been extended by
earlier calls, and the verifier may hold claims and constraints from them. -/
theorem C34_sound (β : Nat → Nat → F) (rd : Reader σ F) (ops : Ops F) (hβ : BasisLawful ops β) (h2 : (2 : F) = 0)
    (fuel : Nat) (claims : List (Claim F)) (st st' : State σ F) (hs : Sound st.oracles)
    (hf : ∀ c ∈ claims, c.Fits st.oracles) (h : verify rd ops fuel claims st = .ok st')
    (sums : List (ConstraintSet F)) (mles : List (List F × ConstraintSet F))
    (hsums : takeSumchecks st'.oracles st'.sumchecks = .ok sums)
    (hmles : takeMlechecks st'.oracles st'.mlechecks = .ok mles)
    (tab : Nat → Nat → F) (ht : IsTables β st'.oracles tab)
    (hc : ∀ c ∈ st'.committed, c.True tab) (hsum : ∀ s ∈ sums, s.SumTrue tab)
    (hmle : ∀ m ∈ mles, m.2.MleTrue tab m.1) :
    ∀ c ∈ claims, c.True tab := by
  have := (verifyAll_ok (β := β) rd ops hβ h2 fuel claims h hs hf).2.2 st'.oracles tab
    (final_of_sets hsums hmles ht hc hsum hmle)
  exact this fun c hc => absurd hc (by simp)

/-- C34.  The verifier only adds oracles, and the set stays well formed and lawful, so that its next call and the
existence of tables (`Oracle.C35_tables`) apply to it.  The claims and constraints it held are kept. -/
theorem C34_extends (β : Nat → Nat → F) (rd : Reader σ F) (ops : Ops F) (hβ : BasisLawful ops β) (h2 : (2 : F) = 0)
    (fuel : Nat) (claims : List (Claim F)) (st st' : State σ F) (hs : Sound st.oracles)
    (hf : ∀ c ∈ claims, c.Fits st.oracles) (h : verify rd ops fuel claims st = .ok st') :
    Extends st.oracles st'.oracles ∧ Sound st'.oracles ∧ (∀ c ∈ st.committed, c ∈ st'.committed) ∧
      (∀ b ∈ st.sumchecks, ∀ c ∈ b, ∃ b' ∈ st'.sumchecks, c ∈ b') ∧
      (∀ b ∈ st.mlechecks, ∀ c ∈ b.2, ∃ b' ∈ st'.mlechecks, b'.1 = b.1 ∧ c ∈ b'.2) := by
  obtain ⟨h1, h3, _⟩ := verifyAll_ok (β := β) rd ops hβ h2 fuel claims h hs hf
  exact ⟨h1.os, h3, h1.com, fun b hb c hc => h1.sum c ⟨b, hb, hc⟩, fun b hb c hc => h1.mle b.1 c ⟨b, hb, rfl, hc⟩⟩

/-- C34.  The recursion ends: its depth is at most the largest claimed identifier plus one. -/
theorem C34_terminates (β : Nat → Nat → F) (rd : Reader σ F) (ops : Ops F) (hβ : BasisLawful ops β)
    (h2 : (2 : F) = 0) (fuel : Nat) (claims : List (Claim F)) (st : State σ F) (hs : Sound st.oracles)
    (hf : ∀ c ∈ claims, c.id < fuel ∧ c.Fits st.oracles) : verify rd ops fuel claims st ≠ .error .diverge :=
  verifyAll_returns (β := β) rd ops hβ h2 fuel claims hs hf

/-- C34.  A set built from constraints stands for exactly these: it has their oracles, all of its size, and it is true
iff each of them is true of its own oracles. -/
theorem C34_build_one (os : OracleSet F) (cs : List (Constraint F)) (s : ConstraintSet F) (h : buildOne os cs = .ok s)
    (hcs : ∀ c ∈ cs, Arith.Built c.composition ∧ Arith.nVars c.composition ≤ c.oracleIds.length)
    (tab : Nat → Nat → F) :
    (∀ id, id ∈ s.oracleIds ↔ ∃ c ∈ cs, id ∈ c.oracleIds) ∧
    (∀ id ∈ s.oracleIds, ∃ o, os.get id = some o ∧ o.nVars = s.nVars) ∧
    (s.SumTrue tab ↔ ∀ c ∈ cs, ∃ f : Nat → F,
      (∀ i < 2 ^ s.nVars, Arith.evaluate c.composition (c.oracleIds.map fun id => tab id i) = some (f i)) ∧
      ∑ i ∈ range (2 ^ s.nVars), f i = c.sum) := by
  obtain ⟨h1, h2, h3⟩ := buildOne_spec h
  have hfa := remapAll_spec h1
  refine ⟨h2, h3, fun hs c hc => ?_, fun hs d hd => ?_⟩
  · obtain ⟨k, hk, rfl⟩ := List.getElem_of_mem hc
    have hk' : k < s.constraints.length := by rw [← hfa.length_eq]; exact hk
    obtain ⟨e1, pos, e2, e3⟩ := hfa.get hk hk'
    simp only [List.get_eq_getElem] at e1 e2 e3
    obtain ⟨hb, hn⟩ := hcs _ hc
    obtain ⟨g, g1, g2⟩ := hs _ (List.getElem_mem hk')
    refine ⟨g, fun i hi => ?_, by rw [g2, e1]⟩
    obtain ⟨a, ha⟩ := (Arith.C21_evaluate_total _ hb).1 (cs[k].oracleIds.map fun id => tab id i)
      (by rw [List.length_map]; exact hn)
    rw [ha, ← remap_evaluate e2 e3 hb tab i a ha]
    exact g1 i hi
  · obtain ⟨k, hk, rfl⟩ := List.getElem_of_mem hd
    have hk' : k < cs.length := by rw [hfa.length_eq]; exact hk
    obtain ⟨e1, pos, e2, e3⟩ := hfa.get hk' hk
    simp only [List.get_eq_getElem] at e1 e2 e3
    obtain ⟨g, g1, g2⟩ := hs _ (List.getElem_mem hk')
    exact ⟨g, fun i hi => remap_evaluate e2 e3 (hcs _ (List.getElem_mem hk')).1 tab i _ (g1 i hi), by rw [g2, e1]⟩

/-- The field of tower level `n` with its own bases. -/
def towerOps (n : Nat) : Ops (Field.T (0 + n)) where
  level := n
  minLevel _ := 0
  towerBasis k iota :=
    match Transparent.towerBasisNew n k iota with
    | .error e => .error e
    | .ok (k, iota) => .ok (Transparent.towerBasisPoly n k iota)

/-- C34.  The hypothesis on the bases holds of the tower fields of the code, which also have characteristic two. -/
theorem C34_tower (n : Nat) :
    BasisLawful (towerOps n) (fun iota e => Field.T.basis n (e * 2 ^ iota)) ∧ (2 : Field.T (0 + n)) = 0 := by
  refine ⟨fun k iota => ⟨fun h => ?_, fun h => ?_⟩, ?_⟩
  · obtain ⟨h1, h2, _⟩ := (Transparent.C30_tower_basis n 0 k iota).1 h
    refine ⟨Transparent.towerBasisPoly n k iota, ?_, h2⟩
    unfold towerOps
    simp only
    rw [h1]
  · unfold towerOps
    simp only
    rw [(Transparent.C30_tower_basis n 0 k iota).2 h]
  · rw [← one_add_one_eq_two]; exact Field.T.add_self 1

/-! Negative results. -/

/-- A dishonest prover makes the verifier panic: the index of a duplicate subclaim of a linear combination is used
unchecked. -/
theorem C34_subclaim_index_panics (rd : Reader σ F) (ops : Ops F) (fuel : Nat) (st : State σ F) (claim : Claim F)
    (n level : Nat) (offset coeff : F) (j : Nat) (rest : List (Nat × F))
    (hg : st.oracles.get claim.id = some ⟨n, level, .linearCombination offset ((j, coeff) :: rest)⟩)
    (t1 t2 t3 : σ) (k : Nat) (r1 : rd.readU32 st.tr = some (1, t1)) (r2 : rd.readU32 t1 = some (2, t2))
    (r3 : rd.readU32 t2 = some (k, t3)) (hk : 1 ≤ k) :
    verify rd ops (fuel + 1) [claim] st = .error .panic := by
  have e1 : readHint rd st.tr = .ok (.newClaim, t1) := by unfold readHint; rw [r1]; rfl
  have e2 : readHint rd t1 = .ok (.duplicateClaim k, t3) := by
    unfold readHint; rw [r2]; simp only [r3]
  have e3 : ([claim] : List (Claim F))[k]? = none := List.getElem?_eq_none (by simpa using hk)
  simp only [verify, verifyAll, verifyMultilinear, e1, verifySkipDuplicate, hg, verifyVariant, List.map_cons,
    verifySubclaims, verifySubclaim, e2, List.nil_append, e3]

/-- A structured oracle whose circuit uses fewer variables than the oracle has, which the set accepts
(`Oracle.C35_leaves`), makes the verifier panic on every claim. -/
theorem C34_structured_panics (rd : Reader σ F) (ops : Ops F) (fuel : Nat) (st : State σ F) (claim : Claim F)
    (n level : Nat) (c : Arith.Circuit F) (hg : st.oracles.get claim.id = some ⟨n, level, .structured c⟩)
    (hn : claim.point.length = n) (hc : Arith.nVars c < n) (t1 : σ) (r1 : rd.readU32 st.tr = some (1, t1)) :
    verify rd ops (fuel + 1) [claim] st = .error .panic := by
  have e1 : readHint rd st.tr = .ok (.newClaim, t1) := by unfold readHint; rw [r1]; rfl
  simp only [verify, verifyAll, verifyMultilinear, e1, verifySkipDuplicate, hg, verifyVariant]
  rw [if_pos (by omega)]

/-- A padded oracle with block index `2^n_pad_vars`, which the set accepts (`Oracle.C35_zero_padded_out_of_range`), has
no claim that the verifier accepts as new, even a true one. -/
theorem C34_zero_padded_refused (rd : Reader σ F) (ops : Ops F) (fuel : Nat) (st : State σ F) (claim : Claim F)
    (n level j k s : Nat) (hg : st.oracles.get claim.id = some ⟨n, level, .zeroPadded j k (2 ^ k) s⟩) (t1 : σ)
    (r1 : rd.readU32 st.tr = some (1, t1)) :
    ∃ e, verify rd ops (fuel + 1) [claim] st = .error e := by
  have e1 : readHint rd st.tr = .ok (.newClaim, t1) := by unfold readHint; rw [r1]; rfl
  simp only [verify, verifyAll, verifyMultilinear, e1, verifySkipDuplicate, hg, verifyVariant]
  rw [(Transparent.C30_select_row (F := F) 0 k _).2.1 (le_refl _)]
  split
  · rename_i e _; exact ⟨e, rfl⟩
  · rename_i st' h
    split at h <;> cases h

/-! A concrete accepted run: a committed oracle, its shift, and a linear combination of both. -/

section Example

instance : Fact (Nat.Prime 2) := ⟨Nat.prime_two⟩

private abbrev K := ZMod 2

private def os : OracleSet K :=
  ⟨[some ⟨2, 0, .committed⟩, some ⟨2, 0, .shifted 0 1 1 .logicalLeft⟩,
    some ⟨2, 0, .linearCombination 1 [(0, 1), (1, 1)]⟩], 3⟩

private def rd : Reader (List Nat) K where
  readU32 | [] => none | x :: l => some (x, l)
  readScalar | [] => none | x :: l => some ((x : K), l)

private def ops : Ops K := ⟨⟨0, fun _ => 0⟩, fun k iota => if iota + k ≤ 0 then .ok ⟨k, fun q => if q.length = k then .ok 1 else .error .incorrectQuerySize⟩ else .error .argumentRange⟩

private theorem ops_lawful : BasisLawful ops fun _ _ => 1 := by
  intro k iota
  refine ⟨fun h => ?_, fun h => ?_⟩
  · have hk : k = 0 := by have : iota + k ≤ 0 := h; omega
    subst hk
    refine ⟨_, if_pos h, rfl, fun q hq => (if_pos hq).trans ?_, fun q hq => if_neg hq⟩
    rw [mle_one]
  · exact if_neg (by have : 0 < iota + k := h; omega)

private theorem os_sound : Sound os := by
  refine ⟨fun id o h => ?_, fun id o h => ?_⟩
  · have := Oracle.OracleSet.get_lt h
    match id, this with
    | 0, _ => cases h; trivial
    | 1, _ => cases h; exact ⟨by omega, _, rfl, rfl, by decide, by decide, by decide⟩
    | 2, _ =>
      cases h
      intro p hp
      simp only [List.mem_cons, List.not_mem_nil, or_false] at hp
      rcases hp with rfl | rfl
      · exact ⟨by decide, _, rfl, rfl⟩
      · exact ⟨by decide, _, rfl, rfl⟩
    | n + 3, hn => exact absurd hn (by simp [os])
  · have := Oracle.OracleSet.get_lt h
    match id, this with
    | 0, _ => cases h; trivial
    | 1, _ => cases h; trivial
    | 2, _ => cases h; trivial
    | n + 3, hn => exact absurd hn (by simp [os])

/-- The prover claims the value 1 for the combination at (0, 1), then 1 for the committed oracle and 1 for its shift. -/
private def claim : Claim K := ⟨2, [0, 1], 1⟩

example : claim.Fits os := ⟨_, rfl, rfl⟩

/-- The run is accepted: it leaves one committed claim, one sumcheck set of one variable with one constraint, and two
new oracles. -/
example : ∃ st', verify rd ops 3 [claim] (State.new os [1, 1, 1, 1, 1]) = .ok st' ∧ st'.committed = [⟨0, [0, 1], 1⟩] ∧
    st'.oracles.oracles.length = 5 ∧ takeMlechecks st'.oracles st'.mlechecks = .ok [] ∧
    (takeSumchecks st'.oracles st'.sumchecks).toOption.map (List.map fun s => (s.nVars, s.oracleIds)) =
      some [(1, [3, 4])] := by
  refine ⟨_, rfl, rfl, rfl, rfl, ?_⟩
  decide +kernel

/-- A wrong evaluation of the combination is rejected. -/
example : verify rd ops 3 [⟨2, [0, 1], 0⟩] (State.new os [1, 1, 1, 1, 1]) = .error .err := rfl

example : Sound os ∧ BasisLawful ops (fun _ _ => 1) ∧ (2 : K) = 0 := ⟨os_sound, ops_lawful, rfl⟩

end Example

end Verif.Evalcheck
