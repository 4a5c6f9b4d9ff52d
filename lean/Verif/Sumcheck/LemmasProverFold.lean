import Verif.Sumcheck.LemmasRound
import Verif.Sumcheck.SpecSumcheck

/-! Lemmas for C66: what the prover state holds between the rounds. -/

set_option linter.unusedSectionVars false

namespace Verif.Sumcheck

open Verif.Mle Verif.Univariate Verif.Tensor Verif.Fold Finset

variable {F D : Type} [Field F] [DecidableEq F] [Field D] [DecidableEq D]

/-- After the rounds with the challenges `rs`, the state stands for the tables in `n` remaining variables. -/
structure Holding (w : Nat) (order : EvaluationOrder) (N n : Nat) (tables : List (Nat → F)) (M : Nat) (rs : List F)
    (st : ProverState D F) : Prop where
  vars : st.nVars = n
  ordered : st.order = order
  total : N = n + rs.length
  multilins : List.Forall₂ (fun t m => Stands w order N n t rs m) tables st.multilins
  challenges : st.challenges = arrange order rs
  query : ∀ q, st.query = some q → QueryOk w order q rs ∧
    (order = .lowToHigh → ∃ cap, q.expanded.size = cap * 2 ^ w ∧ 2 ^ (min M N + 1 - w) ≤ cap) ∧
    ∃ m ∈ st.multilins, m.switchover? ≠ none
  present : ∀ m ∈ st.multilins, m.switchover? ≠ none → st.query ≠ none
  bound : ∀ m ∈ st.multilins, ∀ so, m.switchover? = some so → so + rs.length ≤ M

theorem queryOk_iff (w : Nat) (order : EvaluationOrder) (q : Query F) (rs : List F) :
    QueryOk w order q rs ↔ Tensor.Represents w q (arrange order rs) := by
  cases order <;> rfl

theorem max?_le {l : List Nat} {m : Nat} (h : l.max? = some m) : ∀ x ∈ l, x ≤ m :=
  (List.max?_eq_some_iff.1 h).2

theorem new_holding (w : Nat) (order : EvaluationOrder) (n : Nat) (ms : List (SumMultilin F)) (sums : List F) (points : List D)
    (tables : List (Nat → F)) (hms : List.Forall₂ (fun t m => Stands w order n n t [] m) tables ms) :
    ∃ st M, ProverState.new w order n ms sums points = .ok st ∧ Holding w order n n tables M [] st ∧
      st.last = .sums sums ∧ st.points = points := by
  have hcheck : ∀ m ∈ ms, checkMultilin w n m = .ok () := by
    intro m hm
    obtain ⟨i, hi, rfl⟩ := List.getElem_of_mem hm
    have hst := (List.forall₂_iff_get.1 hms).2 i (by rw [hms.length_eq]; exact hi) hi
    simp only [List.get_eq_getElem] at hst
    generalize ms[i] = m at hst
    cases m with
    | transparent N t so suf =>
      obtain ⟨sv, sl⟩ := suf
      obtain ⟨rfl, -, h3, -⟩ := hst
      unfold checkMultilin
      dsimp only
      rw [if_neg (by simp), if_neg (by omega)]
    | folded evals sv =>
      obtain ⟨⟨p, hp, hp'⟩, -⟩ := hst
      unfold checkMultilin packedLen
      dsimp only
      rw [hp, Nat.mul_div_cancel _ (Nat.two_pow_pos w), if_neg (by omega)]
  unfold ProverState.new
  rw [collect_eq ms (checkMultilin w n) (fun _ => ()) hcheck, ebind_ok]
  cases hmax : (ms.filterMap SumMultilin.switchover?).max? with
  | none =>
    have hnil : ms.filterMap SumMultilin.switchover? = [] := List.max?_eq_none_iff.1 hmax
    have hnone : ∀ m ∈ ms, m.switchover? = none := List.filterMap_eq_nil_iff.1 hnil
    refine ⟨_, 0, rfl, ⟨rfl, rfl, rfl, hms, ?_, ?_, ?_, ?_⟩, rfl, rfl⟩
    · cases order <;> rfl
    · intro q hq; cases hq
    · intro m hm h; exact absurd (hnone m hm) h
    · intro m hm so h; rw [hnone m hm] at h; cases h
  | some M =>
    obtain ⟨q, hq1, hq2, hq3⟩ := C17_with_capacity (F := F) w (min M n + 1)
    dsimp only
    rw [hq1]
    refine ⟨_, M, rfl, ⟨rfl, rfl, rfl, hms, ?_, ?_, ?_, ?_⟩, rfl, rfl⟩
    · cases order <;> rfl
    · intro q' hq'
      cases hq'
      refine ⟨?_, fun _ => ⟨_, hq2, le_refl _⟩, ?_⟩
      · cases order <;> exact hq3
      · have := (List.max?_eq_some_iff.1 hmax).1
        obtain ⟨m, hm, hmM⟩ := List.mem_filterMap.1 this
        exact ⟨m, hm, by rw [hmM]; simp⟩
    · intro m hm h h'; cases h'
    · intro m hm so h
      have := max?_le hmax so (List.mem_filterMap.2 ⟨m, hm, h⟩)
      simpa using this

theorem fold_multilin (w bits N n : Nat) (order : EvaluationOrder) (t : Nat → F) (rs : List F) (r : F) (q : Option (Query F))
    (m : SumMultilin F) (hn : N = n + 1 + rs.length) (h : Stands w order N (n + 1) t rs m)
    (hq : m.switchover? ≠ none → ∃ q', q = some q' ∧ QueryOk w order q' (rs ++ [r])) :
    ∃ m' b, foldMultilin w bits order (n + 1) r q m = .ok (m', b) ∧ Stands w order N n t (rs ++ [r]) m' ∧
      b = m'.switchover?.isSome ∧ ∀ so, m'.switchover? = some so → m.switchover? = some (so + 1) := by
  cases m with
  | transparent N' t' so suf =>
    obtain ⟨sv, sl⟩ := suf
    have hN : N' = N := h.1
    subst hN
    obtain ⟨q', rfl, hq'⟩ := hq (by simp [SumMultilin.switchover?])
    cases order with
    | lowToHigh =>
      obtain ⟨m', h1, h2, h3⟩ := foldLow_transparent w bits N' n t t' rs r q' so sv sl hn h hq'
      refine ⟨m', _, h1, h2, ?_, ?_⟩
      · rw [h3]; by_cases hso : so = 0 <;> simp [hso]
      · intro so' h'
        rw [h3] at h'
        by_cases hso : so = 0
        · simp [hso] at h'
        · rw [if_neg hso] at h'
          cases h'
          show some so = some (so - 1 + 1)
          congr 1
          omega
    | highToLow =>
      obtain ⟨m', h1, h2, h3⟩ := foldHigh_transparent w bits N' n t t' rs r q' so sv sl hn h hq'
      refine ⟨m', _, h1, h2, ?_, ?_⟩
      · rw [h3]; by_cases hso : so = 0 <;> simp [hso]
      · intro so' h'
        rw [h3] at h'
        by_cases hso : so = 0
        · simp [hso] at h'
        · rw [if_neg hso] at h'
          cases h'
          show some so = some (so - 1 + 1)
          congr 1
          omega
  | folded evals sv =>
    cases order with
    | lowToHigh =>
      obtain ⟨m', h1, h2, h3⟩ := foldLow_folded w bits N n t rs r q evals sv hn h
      exact ⟨m', _, h1, h2, by rw [h3]; rfl, fun so h' => by rw [h3] at h'; cases h'⟩
    | highToLow =>
      obtain ⟨m', h1, h2, h3⟩ := foldHigh_folded w bits N n t rs r q evals sv hn h
      exact ⟨m', _, h1, h2, by rw [h3]; rfl, fun so h' => by rw [h3] at h'; cases h'⟩

theorem arrange_snoc (order : EvaluationOrder) (rs : List F) (r : F) : arrange order (rs ++ [r]) =
    match order with
    | .lowToHigh => arrange order rs ++ [r]
    | .highToLow => r :: arrange order rs := by
  cases order <;> simp [arrange]

/-- The query after an update. -/
theorem update_query {w N n M : Nat} {order : EvaluationOrder} {tables : List (Nat → F)} {rs : List F} {st : ProverState D F}
    (h : Holding w order N (n + 1) tables M rs st) (r : F) :
    ∃ query', updateQuery w order st.query (arrange order (rs ++ [r])) r = .ok query' ∧
      (st.query = none → query' = none) ∧ ∀ q, st.query = some q → ∃ q', query' = some q' ∧ QueryOk w order q' (rs ++ [r]) ∧
        (order = .lowToHigh → ∃ cap, q'.expanded.size = cap * 2 ^ w ∧ 2 ^ (min M N + 1 - w) ≤ cap) := by
  cases hst : st.query with
  | none => exact ⟨none, rfl, fun _ => rfl, fun q hq => by cases hq⟩
  | some q =>
    obtain ⟨h1, h2, m, hm, hm'⟩ := h.query q hst
    unfold updateQuery
    cases order with
    | lowToHigh =>
      obtain ⟨cap, hc1, hc2⟩ := h2 rfl
      have hk : rs.length ≤ min M N := by
        obtain ⟨so, hso⟩ := Option.ne_none_iff_exists'.1 hm'
        have := h.bound m hm so hso
        have := h.total
        omega
      obtain ⟨q', g1, g2, g3⟩ := (C17_update w cap q rs [r] hc1 h1).1
        (le_trans (Nat.pow_le_pow_right (by omega) (by simp only [List.length_singleton]; omega)) hc2)
      dsimp only
      rw [g1]
      refine ⟨some q', rfl, by simp, fun q'' hq => ⟨q', rfl, g3, fun _ => ⟨cap, g2, hc2⟩⟩⟩
    | highToLow =>
      obtain ⟨q', e, g1, g2, g3, -, g5⟩ := C17_expand w (arrange .highToLow (rs ++ [r]))
      dsimp only
      rw [g1]
      refine ⟨some q', rfl, by simp, fun q'' hq => ⟨q', rfl, (queryOk_iff ..).2 ⟨g2, e, g3, g5⟩, fun h => by cases h⟩⟩

theorem fold_holding {w N n M : Nat} (bits : Nat) {order : EvaluationOrder} {tables : List (Nat → F)} {rs : List F}
    {st : ProverState D F} (h : Holding w order N (n + 1) tables M rs st) (cs : List (List F)) (hl : st.last = .coeffs cs) (r : F) :
    ∃ st', st.fold w bits r = .ok st' ∧ Holding w order N n tables M (rs ++ [r]) st' ∧
      st'.last = .sums (cs.map fun c => evaluateUnivariate c r) ∧ st'.points = st.points := by
  obtain ⟨query', hq1, hq2, hq3⟩ := update_query h r
  have hch : pushChallenge st.order st.challenges r = arrange order (rs ++ [r]) := by
    rw [arrange_snoc, h.ordered, h.challenges]
    cases order <;> rfl
  have hfold : ∀ m ∈ st.multilins, ∀ t, Stands w order N (n + 1) t rs m → ∃ m' b, foldMultilin w bits order (n + 1) r query' m = .ok (m', b) ∧ Stands w order N n t (rs ++ [r]) m' ∧
      b = m'.switchover?.isSome ∧ ∀ so, m'.switchover? = some so → m.switchover? = some (so + 1) := by
    intro m hm t ht
    refine fold_multilin w bits N n order t rs r query' m h.total ht fun hne => ?_
    obtain ⟨q, hq⟩ := Option.ne_none_iff_exists'.1 (h.present m hm hne)
    obtain ⟨q', e, g, -⟩ := hq3 q hq
    exact ⟨q', e, g⟩
  -- the multilinears folded one by one
  have key : ∀ (ts : List (Nat → F)) (ms : List (SumMultilin F)), (∀ m ∈ ms, m ∈ st.multilins) →
      List.Forall₂ (fun t m => Stands w order N (n + 1) t rs m) ts ms →
      ∃ res : List (SumMultilin F × Bool), collect (ms.map (foldMultilin w bits order (n + 1) r query')) = .ok res ∧
        List.Forall₂ (fun t m => Stands w order N n t (rs ++ [r]) m) ts (res.map Prod.fst) ∧
        (∀ p ∈ res, p.2 = p.1.switchover?.isSome) ∧
        ∀ p ∈ res, ∀ so, p.1.switchover? = some so → so + (rs ++ [r]).length ≤ M := by
    intro ts ms hmem hs
    induction hs with
    | nil => exact ⟨[], rfl, .nil, by simp, by simp⟩
    | cons hh _ ih =>
      rename_i t m ts ms _
      obtain ⟨res, g1, g2, g3, g4⟩ := ih fun m hm => hmem m (List.mem_cons_of_mem _ hm)
      have hmm := hmem m (List.mem_cons_self ..)
      obtain ⟨m', b, e1, e2, e3, e4⟩ := hfold m hmm t hh
      refine ⟨(m', b) :: res, ?_, .cons e2 g2, ?_, ?_⟩
      · rw [List.map_cons, e1, collect, g1]
      · intro p hp
        rcases List.mem_cons.1 hp with rfl | hp
        · exact e3
        · exact g3 p hp
      · intro p hp so hso
        rcases List.mem_cons.1 hp with rfl | hp
        · have := h.bound m hmm _ (e4 so hso)
          simp only [List.length_append, List.length_singleton]
          omega
        · exact g4 p hp so hso
  obtain ⟨res, g1, g2, g3, g4⟩ := key tables st.multilins (fun _ hm => hm) h.multilins
  unfold ProverState.fold
  rw [if_neg (by rw [h.vars]; omega), hl]
  dsimp only
  rw [hch, h.ordered, hq1, ebind_ok]
  unfold foldMultilins
  rw [h.vars, g1, ebind_ok, ebind_ok]
  refine ⟨_, rfl, ⟨rfl, rfl, ?_, g2, rfl, ?_, ?_, ?_⟩, rfl, rfl⟩
  · rw [h.total, List.length_append, List.length_singleton]; omega
  · intro q hq
    dsimp only at hq
    split at hq
    next hany =>
      obtain ⟨p, hp, hp'⟩ := List.any_eq_true.1 hany
      cases hst : st.query with
      | none => rw [hq2 hst] at hq; cases hq
      | some q0 =>
        obtain ⟨q', e, h1, h2⟩ := hq3 q0 hst
        rw [e] at hq
        cases hq
        refine ⟨h1, h2, p.1, List.mem_map_of_mem hp, ?_⟩
        rw [g3 p hp] at hp'
        intro hn
        rw [hn] at hp'
        cases hp'
    next => cases hq
  · intro m hm hne
    obtain ⟨p, hp, rfl⟩ := List.mem_map.1 hm
    obtain ⟨so, hso⟩ := Option.ne_none_iff_exists'.1 hne
    have hany : res.any Prod.snd = true := List.any_eq_true.2 ⟨p, hp, by rw [g3 p hp, hso]; rfl⟩
    dsimp only
    rw [if_pos hany]
    cases hst : st.query with
    | none =>
      -- an old transparent multilinear
      exfalso
      obtain ⟨i, hi, hpi⟩ := List.getElem_of_mem hp
      have hex : ∃ m0 ∈ st.multilins, m0.switchover? ≠ none := by
        by_contra hc
        push Not at hc
        have : ∀ (ts : List (Nat → F)) (ms : List (SumMultilin F)) (res : List (SumMultilin F × Bool)),
            (∀ m ∈ ms, m ∈ st.multilins) →
            List.Forall₂ (fun t m => Stands w order N (n + 1) t rs m) ts ms →
            collect (ms.map (foldMultilin w bits order (n + 1) r query')) = .ok res →
            ∀ p ∈ res, p.1.switchover? = none := by
          intro ts ms res hmem hs
          induction hs generalizing res with
          | nil => intro hr; cases hr; simp
          | cons hh _ ih =>
            rename_i t m ts ms _
            have hmm := hmem m (List.mem_cons_self ..)
            obtain ⟨m', b, e1, -, -, e4⟩ := hfold m hmm t hh
            intro hr
            rw [List.map_cons, e1, collect] at hr
            split at hr
            next as has =>
              cases hr
              intro p hp
              rcases List.mem_cons.1 hp with rfl | hp
              · by_contra hne
                obtain ⟨so, hso⟩ := Option.ne_none_iff_exists'.1 hne
                have := e4 so hso
                rw [hc m hmm] at this
                cases this
              · exact ih as (fun m hm => hmem m (List.mem_cons_of_mem _ hm)) has p hp
            next => cases hr
        rw [this tables st.multilins res (fun _ hm => hm) h.multilins g1 p hp] at hso
        cases hso
      obtain ⟨m0, hm0, hne0⟩ := hex
      exact h.present m0 hm0 hne0 hst
    | some q0 =>
      obtain ⟨q', e, -, -⟩ := hq3 q0 hst
      rw [e]
      simp
  · intro m hm so hso
    obtain ⟨p, hp, rfl⟩ := List.mem_map.1 hm
    exact g4 p hp so hso

theorem cur_full (order : EvaluationOrder) (N : Nat) (t : Nat → F) (rs : List F) (hn : N = rs.length) :
    cur order N t rs 0 = mle t (arrange order rs) := by
  cases order with
  | lowToHigh => simp [cur, arrange]
  | highToLow => simp [cur, arrange, hn]

theorem finish_holding {w N M : Nat} {order : EvaluationOrder} {tables : List (Nat → F)} {rs : List F}
    {st : ProverState D F} (h : Holding w order N 0 tables M rs st) (sums : List F) (hl : st.last = .sums sums) :
    st.finish w = .ok (tables.map fun t => mle t (arrange order rs)) := by
  have hN : N = rs.length := by have := h.total; omega
  unfold ProverState.finish
  rw [hl]
  dsimp only
  rw [if_neg (by rw [h.vars]; simp)]
  have one : ∀ m ∈ st.multilins, ∀ t, Stands w order N 0 t rs m →
      finishMultilin w st.query m = .ok (mle t (arrange order rs)) := by
    intro m hm t ht
    cases m with
    | transparent N' t' so suf =>
      obtain ⟨sv, sl⟩ := suf
      obtain ⟨rfl, ht', -, -⟩ := ht
      obtain ⟨q, hq⟩ := Option.ne_none_iff_exists'.1 (h.present _ hm (by simp [SumMultilin.switchover?]))
      obtain ⟨h1, e, h2, h3⟩ := queryOk_spec (h.query q hq).1
      unfold finishMultilin
      rw [hq]
      dsimp only
      unfold evaluateQuery
      rw [if_neg (by rw [h1]; simpa using hN), h2]
      dsimp only
      rw [listRange_sum, h1]
      congr 1
      unfold mle
      have hlen : (arrange order rs).length = rs.length := by cases order <;> simp [arrange]
      rw [hlen]
      refine Finset.sum_congr rfl fun i hi => ?_
      have hi := Finset.mem_range.1 hi
      rw [h3 i hi, ht' i (by rw [hN]; exact hi)]
      cases order <;> rfl
    | folded evals sv =>
      obtain ⟨⟨p, hp, -⟩, hv⟩ := ht
      unfold finishMultilin
      have := hv 0 (by simp)
      rw [cur_full order N t rs hN] at this
      rw [← this]
      unfold foldedVal packedLen
      have hW := Nat.two_pow_pos w
      dsimp only
      rw [hp, Nat.mul_div_cancel _ hW]
      by_cases h0 : p = 0
      · rw [if_pos h0, h0, if_neg (by omega)]
      · rw [if_neg h0, if_pos (Nat.mul_pos (by omega) hW)]
  have key : ∀ (ts : List (Nat → F)) (ms : List (SumMultilin F)), (∀ m ∈ ms, m ∈ st.multilins) →
      List.Forall₂ (fun t m => Stands w order N 0 t rs m) ts ms →
      collect (ms.map (finishMultilin w st.query)) = .ok (ts.map fun t => mle t (arrange order rs)) := by
    intro ts ms hmem hs
    induction hs with
    | nil => rfl
    | cons hh _ ih =>
      rw [List.map_cons, one _ (hmem _ (List.mem_cons_self ..)) _ hh, collect,
        ih fun m hm => hmem m (List.mem_cons_of_mem _ hm), List.map_cons]
  exact key _ _ (fun _ hm => hm) h.multilins

end Verif.Sumcheck
