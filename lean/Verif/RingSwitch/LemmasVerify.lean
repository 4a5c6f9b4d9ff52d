import Verif.RingSwitch.LemmasSystem
import Verif.RingSwitch.LemmasEqInd
import Verif.Sumcheck.LemmasSound
import Verif.Protocol.LemmasSeq
import Verif.Fri.LemmasVerify

/-! Lemmas about the ring-switching verifier. -/

set_option linter.dupNamespace false
set_option linter.unusedSectionVars false

namespace Verif.RingSwitch

open Finset Verif.Mle Verif.Protocol Polynomial
open Verif.Oracle (OracleSet)
open Verif.Piop (SparseIndex CommitMeta PiopClaim isCommitted)
open Verif.Evalcheck (Claim)

variable {F : Type} [Field F] [DecidableEq F]

/-! ## Sampling -/

theorem sampleVec_post (n : Nat) : Post (fun cs => cs.length = n) (sampleVec (F := F) n) := by
  induction n with
  | zero => exact rfl
  | succ n ih =>
    intro x
    refine Post.bind ih fun cs hcs => ?_
    show (x :: cs).length = _
    rw [List.length_cons, hcs]

theorem samplesLe_sampleVec (n : Nat) : (sampleVec (F := F) n).SamplesLe n := by
  induction n with
  | zero => trivial
  | succ n ih =>
    intro x
    have := samplesLe_bind (M := 0) ih (k := fun xs => (.ret (x :: xs) : Prog F RsError (List F))) (fun _ => True.intro)
    exact this

/-- A nonzero table has a nonzero multilinear extension at a random point. -/
theorem sampleVec_err (m : Nat) (f : Nat → F) (hf : ∃ v < 2 ^ m, f v ≠ 0) :
    SoundErr (fun r => mle f r = 0) (sampleVec (F := F) m) m := by
  induction m generalizing f with
  | zero =>
    obtain ⟨v, hv, hne⟩ := hf
    have : v = 0 := by simpa using hv
    subst this
    exact .ret (by simpa using hne)
  | succ m ih =>
    obtain ⟨v, hv, hne⟩ := hf
    rw [sampleVec]
    have hQ : (C (f (2 * (v / 2))) + C (f (2 * (v / 2) + 1) - f (2 * (v / 2))) * X : F[X]) ≠ 0 := by
      intro h
      have h0 := congrArg (eval 0) h
      have h1 := congrArg (eval 1) h
      simp only [eval_add, eval_C, eval_mul, eval_X, mul_zero, add_zero, mul_one, eval_zero,
        add_sub_cancel] at h0 h1
      rcases Nat.mod_two_eq_zero_or_one v with hm | hm
      · exact hne (by rw [← h0]; congr 1; omega)
      · exact hne (by rw [← h1]; congr 1; omega)
    obtain ⟨bad, hc, hb⟩ := Verif.Sumcheck.exists_bad _ hQ
    have hdeg : (C (f (2 * (v / 2))) + C (f (2 * (v / 2) + 1) - f (2 * (v / 2))) * X : F[X]).natDegree ≤ 1 := by
      rw [add_comm]
      exact natDegree_linear_le
    refine .sample bad (hc.trans hdeg) (ε := m) (by omega) fun x hx => ?_
    refine soundErr_bind (ε' := 0) (ih (fun j => (1 - x) * f (2 * j) + x * f (2 * j + 1)) ⟨v / 2, ?_, ?_⟩)
      (Post.trivial _) fun xs _ h => .ret fun hg => h ?_
    · rw [Nat.pow_succ] at hv; omega
    · have := hb x hx
      simp only [eval_add, eval_C, eval_mul, eval_X] at this
      intro h
      apply this
      rw [← h]
      ring
    · rw [mle_cons] at hg
      exact hg

theorem pSampleVec_agree (n : Nat) :
    Agree (fun a b => a = b ∧ a.length = n) (pSampleVec (F := F) n) (sampleVec n) := by
  induction n with
  | zero => exact .ret ⟨rfl, rfl⟩
  | succ n ih =>
    refine .sample fun x => agree_bind ih fun a b h => .ret ⟨by rw [h.1], by rw [List.length_cons, h.2]⟩

/-! ## Queries -/

theorem expandQuery_eq (r : List F) : expandQuery r = .ok ((List.range (2 ^ r.length)).map (eqWeight r)) := by
  obtain ⟨t, h, hs, hv⟩ := Verif.Fri.tensor_eq r
  unfold expandQuery
  rw [h]
  show Except.ok _ = _
  rw [hs]
  congr 1
  exact List.map_congr_left fun b hb => hv b (List.mem_range.1 hb)

theorem le_log2Ceil (n : Nat) : n ≤ 2 ^ log2Ceil n := by
  unfold log2Ceil
  have := Nat.lt_size_self (n - 1)
  omega

theorem evalElem_eq (t : TElem F) (pre : List F) (h : t.level.kappa = pre.length) :
    evalElem t pre = .ok (mle t.elem pre) := by
  unfold evalElem
  obtain ⟨q, e, hq, hn, he, -, hv⟩ := Tensor.C17_expand 0 pre
  have hnew : Tensor.Mlx.new 0 pre.length (⟨2 ^ t.level.kappa, t.elem⟩ : Slice F) =
      .ok ⟨pre.length, ⟨2 ^ t.level.kappa, t.elem⟩⟩ := by
    unfold Tensor.Mlx.new
    rw [show Tensor.packedLen 0 (⟨2 ^ t.level.kappa, t.elem⟩ : Slice F) = 2 ^ t.level.kappa from by
      unfold Tensor.packedLen; simp]
    rw [if_neg (fun hh => hh ⟨_, rfl⟩), if_neg (by omega), Nat.log2_two_pow, if_neg (by omega)]
  rw [hnew, hq]
  dsimp only
  rw [(Tensor.C17_evaluate id 0 0 pre.length ⟨2 ^ t.level.kappa, t.elem⟩ _ q pre (by simp) hnew
    ⟨hn, e, he, hv⟩ (by omega)).1 rfl]
  rfl

/-! ## Accumulation by prefix -/

theorem list_eq_map_range {A : Type} (l : List A) (d : A) : l = (List.range l.length).map fun i => l[i]?.getD d := by
  refine List.ext_getElem (by simp) fun i h1 h2 => ?_
  simp [List.getElem?_eq_getElem h1]

theorem accumulate_eq : ∀ (n : Nat) (e : Nat → F) (p : Nat → Nat) (acc : List F), (∀ i < n, p i < acc.length) →
    accumulate ((List.range n).map e) ((List.range n).map p) acc =
      .ok ((List.range acc.length).map fun j => acc[j]?.getD 0 + ∑ i ∈ range n, if p i = j then e i else 0)
  | 0, e, p, acc, _ => by
    simp only [List.range_zero, List.map_nil, accumulate, sum_range_zero, add_zero]
    rw [← list_eq_map_range]
  | n + 1, e, p, acc, h => by
    rw [List.range_succ_eq_map, List.map_cons, List.map_cons, List.map_map, List.map_map, accumulate,
      if_pos (h 0 (by omega)), accumulate_eq n (e ∘ Nat.succ) (p ∘ Nat.succ) _ (fun i hi => by
        rw [List.length_modify]; exact h (i + 1) (by omega)), List.length_modify]
    congr 1
    refine List.map_congr_left fun j hj => ?_
    have hj' : j < acc.length := List.mem_range.1 hj
    rw [sum_range_succ', List.getElem?_modify, List.getElem?_eq_getElem hj']
    by_cases hp : p 0 = j
    · simp [hp]; ring
    · simp [hp]

/-! ## The items by index -/

/-- The item at an index. -/
def itemAt (items : List (Item F)) (i : Nat) : Item F := items[i]?.getD ⟨⟨0, [], 0⟩, 0, 0, 0, 0⟩

theorem itemAt_mem (items : List (Item F)) {i : Nat} (hi : i < items.length) : itemAt items i ∈ items := by
  unfold itemAt
  rw [List.getElem?_eq_getElem hi]
  exact List.getElem_mem hi

/-- A system and its items. -/
structure SysOk (os : OracleSet F) (index : SparseIndex Nat) (sys : System F) (items : List (Item F)) : Prop where
  claims : sys.claims = items.map Item.desc
  toPrefix : sys.toPrefix = items.map Item.prefixIdx
  item : ∀ x ∈ items, OracleOk os x ∧ DescOk sys.prefixes sys.suffixes x ∧ index x.claim.id = some x.committed
  pre : ∀ p ∈ sys.prefixes, ∃ x ∈ items, p = x.pre

section
variable {os : OracleSet F} {index : SparseIndex Nat} {sys : System F} {items : List (Item F)}
  (hs : SysOk os index sys items)
include hs

theorem SysOk.claims_eq : sys.claims = (List.range items.length).map fun i => (itemAt items i).desc := by
  rw [hs.claims]
  conv_lhs => rw [list_eq_map_range items ⟨⟨0, [], 0⟩, 0, 0, 0, 0⟩]
  rw [List.map_map]
  rfl

theorem SysOk.toPrefix_eq : sys.toPrefix = (List.range items.length).map fun i => (itemAt items i).prefixIdx := by
  rw [hs.toPrefix]
  conv_lhs => rw [list_eq_map_range items ⟨⟨0, [], 0⟩, 0, 0, 0, 0⟩]
  rw [List.map_map]
  rfl

theorem SysOk.length : sys.claims.length = items.length := by rw [hs.claims, List.length_map]

theorem SysOk.prefixIdx_lt {i : Nat} (hi : i < items.length) :
    (itemAt items i).prefixIdx < sys.prefixes.length :=
  (List.getElem?_eq_some_iff.1 (hs.item _ (itemAt_mem items hi)).2.1.2).1

/-- The sums by prefix. -/
theorem SysOk.accumulate_eq (e : Nat → F) :
    accumulate ((List.range items.length).map e) sys.toPrefix (List.replicate sys.prefixes.length 0) =
      .ok ((List.range sys.prefixes.length).map fun j =>
        ∑ i ∈ range items.length, if (itemAt items i).prefixIdx = j then e i else 0) := by
  rw [hs.toPrefix_eq, RingSwitch.accumulate_eq _ _ _ _ (fun i hi => by
    rw [List.length_replicate]; exact hs.prefixIdx_lt hi), List.length_replicate]
  congr 1
  refine List.map_congr_left fun j hj => ?_
  rw [List.getElem?_replicate, if_pos (List.mem_range.1 hj)]
  simp

theorem SysOk.zip_eq (N : Nat) (hN : items.length ≤ N) (w : Nat → F) :
    sys.claims.zip ((List.range N).map w) = (List.range items.length).map fun i => ((itemAt items i).desc, w i) := by
  rw [hs.claims_eq]
  refine List.ext_getElem (by simp; omega) fun i h1 h2 => by simp

theorem SysOk.mixedEvaluations_eq (N : Nat) (hN : items.length ≤ N) (w : Nat → F) :
    mixedEvaluations sys ((List.range N).map w) = .ok ((List.range sys.prefixes.length).map fun j =>
      ∑ i ∈ range items.length, if (itemAt items i).prefixIdx = j then (itemAt items i).claim.eval * w i else 0) := by
  unfold mixedEvaluations
  rw [← hs.accumulate_eq]
  congr 1
  rw [hs.claims_eq]
  refine List.ext_getElem (by simp; omega) fun i h1 h2 => ?_
  simp only [List.getElem_zipWith, List.getElem_map, List.getElem_range]
  rfl

end

/-! ## Receiving -/

/-- What has been checked of the tensor elements. -/
def Received (sys : System F) (items : List (Item F)) (w : Nat → F) (ts : List (TElem F)) : Prop :=
  ts.length = sys.prefixes.length ∧ ∀ j pre t, sys.prefixes[j]? = some pre → ts[j]? = some t →
    t.level.kappa = pre.length ∧ mle t.elem pre =
      ∑ i ∈ range items.length, if (itemAt items i).prefixIdx = j then (itemAt items i).claim.eval * w i else 0

theorem receiveLoop_post : ∀ l : List (List F × F), Post (fun ts => List.Forall₂ (fun (pe : List F × F) (t : TElem F) =>
    t.level.kappa = pe.1.length ∧ mle t.elem pe.1 = pe.2) l ts) (receiveLoop l)
  | [] => List.Forall₂.nil
  | (pre, expected) :: l => by
    rw [receiveLoop]
    intro m
    refine Post.bind (Q := fun t => t.level.kappa = pre.length) (Post.ofExcept fun t ht => ?_) fun t ht => ?_
    · unfold TElem.new at ht
      cases hl : levelOf pre.length with
      | error e => rw [hl] at ht; cases ht
      | ok l =>
        rw [hl] at ht
        injection ht with ht
        rw [← ht]
        exact kappa_of_levelOf hl
    · rw [evalElem_eq t pre ht]
      show Post _ (if mle t.elem pre ≠ expected then _ else _)
      by_cases he : mle t.elem pre ≠ expected
      · rw [if_pos he]; trivial
      · rw [if_neg he]
        refine Post.bind (receiveLoop_post l) fun ts hts => ?_
        exact List.Forall₂.cons ⟨ht, not_not.1 he⟩ hts

theorem SysOk.receive_post {os : OracleSet F} {index : SparseIndex Nat} {sys : System F} {items : List (Item F)}
    (hs : SysOk os index sys items) (N : Nat) (hN : items.length ≤ N) (w : Nat → F) :
    Post (Received sys items w) (receiveTensorElems sys ((List.range N).map w)) := by
  unfold receiveTensorElems
  rw [hs.mixedEvaluations_eq N hN w]
  show Post _ (receiveLoop _)
  refine Post.mono (receiveLoop_post _) fun ts hts => ?_
  have hlen := hts.length_eq
  have hl : ts.length = sys.prefixes.length := by
    rw [← hlen]; simp
  refine ⟨hl, fun j pre t hp ht => ?_⟩
  obtain ⟨hj, hp⟩ := List.getElem?_eq_some_iff.1 hp
  obtain ⟨hj', ht⟩ := List.getElem?_eq_some_iff.1 ht
  have := List.forall₂_iff_get.1 hts
  have h := this.2 j (by simpa using hj) hj'
  simp only [List.get_eq_getElem, List.getElem_zip, List.getElem_map, List.getElem_range, hp, ht] at h
  exact h

/-! ## The true values -/

/-- The partial evaluation of the unpacked polynomial. -/
def partialTable (c : Coords F) (suf : List F) (t : Nat → F) : Nat → F := fun w =>
  ∑ u ∈ range (2 ^ suf.length), eqWeight suf u * c.coord (t u) w

theorem mle_replicate_zero (v : Nat → F) (m : Nat) : mle v (List.replicate m 0) = v 0 := by
  induction m generalizing v with
  | zero => simp
  | succ m ih => rw [List.replicate_succ, mle_cons, ih]; simp

theorem mle_partialTable (c : Coords F) (kappa : Nat) (point : List F) (t : Nat → F) :
    mle (partialTable c (splitPoint kappa point).2 t) (splitPoint kappa point).1 =
      mle (unpacked c kappa t) point := by
  unfold splitPoint
  by_cases h : point.length < kappa
  · rw [if_pos h]
    show mle _ (point ++ _) = _
    rw [mle_append, mle_replicate_zero]
    refine mle_congr fun i hi => ?_
    have hlt : i < 2 ^ kappa := hi.trans (Nat.pow_lt_pow_right (by decide) h)
    unfold partialTable unpacked
    simp [Nat.div_eq_of_lt hlt, Nat.mod_eq_of_lt hlt]
  · rw [if_neg h]
    have hl : (point.take kappa).length = kappa := by simp; omega
    conv_rhs => rw [← List.take_append_drop kappa point, mle_append, hl]
    show mle (partialTable c (point.drop kappa) t) (point.take kappa) = mle _ (point.drop kappa)
    unfold partialTable
    rw [mle_sum, mle_eq_sum]
    refine sum_congr rfl fun u _ => ?_
    rw [mle_smul]
    congr 1
    refine mle_congr fun i hi => ?_
    rw [hl] at hi
    unfold unpacked
    rw [Nat.add_mul_div_left _ _ (Nat.two_pow_pos _), Nat.div_eq_of_lt hi, Nat.zero_add, Nat.add_mul_mod_self_left,
      Nat.mod_eq_of_lt hi]

/-- The fold of a scaled partial evaluation is a sum over the hypercube. -/
theorem foldFun_partialTable {c : Coords F} {kappa : Nat} (hc : c.Lawful kappa) (suf : List F) (t : Nat → F) (m : F)
    (k : Nat → F) : foldFun c kappa (fun w => m * partialTable c suf t w) k =
      ∑ u ∈ range (2 ^ suf.length),
        t u * ∑ v ∈ range (2 ^ kappa), c.coord (m * eqWeight suf u) v * k v := by
  have e : ∀ w < 2 ^ kappa, m * partialTable c suf t w =
      ∑ u ∈ range (2 ^ suf.length), pureTensor c (m * eqWeight suf u) (t u) w := by
    intro w _
    unfold partialTable pureTensor
    rw [mul_sum]
    exact sum_congr rfl fun u _ => by ring
  rw [foldFun_congr c kappa e, hc.foldFun_sum]
  exact sum_congr rfl fun u _ => by rw [hc.foldFun_pure, mul_comm]

end Verif.RingSwitch
