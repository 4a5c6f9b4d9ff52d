import Verif.Piop.LemmasPiop
import Verif.Piop.PropsClaims
import Verif.Piop.LemmasCommit
import Verif.Sumcheck.LemmasEqInd

set_option linter.unusedSectionVars false
set_option linter.dupNamespace false

/-! The descriptions of the sumcheck claims, and the instances they stand for. -/

namespace Verif.Piop

open Verif.Mle Verif.Sumcheck Verif.Protocol Finset
open Verif.Piecewise (Piece concat)

variable {F : Type} [Field F] [DecidableEq F]

/-! ## Slices that are filters -/

theorem slice_filter {B : Type} (key : B → Nat) (v : Nat) : ∀ (l : List B) (a b : Nat),
    (∀ k, a ≤ k ∧ k < b ↔ (l.map key)[k]? = some v) → (l.drop a).take (b - a) = l.filter fun x => key x = v
  | [], a, b, _ => by simp
  | x :: l, 0, 0, h => by
    symm
    rw [Nat.sub_self, List.take_zero, List.filter_eq_nil_iff]
    intro y hy he
    obtain ⟨i, hi, rfl⟩ := List.getElem_of_mem hy
    have := (h i).mpr (by rw [List.getElem?_map, List.getElem?_eq_getElem hi]; simpa using he)
    omega
  | x :: l, 0, b + 1, h => by
    have hx : key x = v := by simpa using (h 0).mp ⟨by omega, by omega⟩
    rw [List.filter_cons_of_pos (by simpa using hx), ← slice_filter key v l 0 b (fun k => by
      have := h (k + 1)
      rw [List.map_cons, List.getElem?_cons_succ] at this
      rw [← this]; omega)]
    simp
  | x :: l, a + 1, b, h => by
    have hx : ¬ key x = v := by
      intro hx
      have := (h 0).mpr (by simp [hx])
      omega
    rw [List.filter_cons_of_neg (by simpa using hx), ← slice_filter key v l a (b - 1) (fun k => by
      have := h (k + 1)
      rw [List.map_cons, List.getElem?_cons_succ] at this
      rw [← this]; omega), List.drop_succ_cons]
    congr 1
    omega

theorem sizes_sorted : ∀ (l : List Nat) (v : Nat), (sizes v l).Pairwise (· ≤ ·)
  | [], v => by simp [sizes]
  | n :: l, v => by
    rw [sizes, List.pairwise_append]
    refine ⟨List.pairwise_replicate.mpr (Or.inr le_rfl), sizes_sorted l (v + 1), fun a ha b hb => ?_⟩
    rw [List.mem_replicate] at ha
    have := sizes_ge l (v + 1) b hb
    omega

theorem sizes_lt : ∀ (l : List Nat) (v : Nat), ∀ x ∈ sizes v l, x < v + l.length
  | [], v, x, h => by simp [sizes] at h
  | n :: l, v, x, h => by
    rw [sizes, List.mem_append, List.mem_replicate] at h
    rw [List.length_cons]
    rcases h with h | h
    · omega
    · have := sizes_lt l (v + 1) x h; omega

theorem sizes_elems : ∀ (l : List Nat) (v : Nat), ((sizes v l).map fun n => 2 ^ n).sum = elems v l
  | [], v => rfl
  | n :: l, v => by
    rw [sizes, List.map_append, List.sum_append, elems, sizes_elems l (v + 1), List.map_replicate, List.sum_replicate,
      smul_eq_mul]

theorem flatMap_filter {B : Type} (key : B → Nat) (l : List B) (hs : (l.map key).Pairwise (· ≤ ·)) : ∀ (n v : Nat),
    (∀ x ∈ l, key x < v + n) →
    (List.range' v n).flatMap (fun i => l.filter fun x => key x = i) = l.filter fun x => v ≤ key x
  | 0, v, h => by
    symm
    rw [List.range'_zero, List.flatMap_nil, List.filter_eq_nil_iff]
    intro x hx he
    have := h x hx
    simp at he
    omega
  | n + 1, v, h => by
    rw [List.range'_succ, List.flatMap_cons, flatMap_filter key l hs n (v + 1) fun x hx => by have := h x hx; omega]
    clear h
    induction l with
    | nil => rfl
    | cons x l ih =>
      rw [List.map_cons, List.pairwise_cons] at hs
      have ih := ih hs.2
      rcases Nat.lt_trichotomy (key x) v with hx | hx | hx
      · rw [List.filter_cons_of_neg (by simp; omega), List.filter_cons_of_neg (by simp; omega),
          List.filter_cons_of_neg (by simp; omega), ih]
      · rw [List.filter_cons_of_pos (by simpa using hx), List.filter_cons_of_neg (by simp; omega),
          List.filter_cons_of_pos (by simp; omega), ← ih]
        rfl
      · have hnone : (x :: l).filter (fun y => key y = v) = [] := by
          rw [List.filter_eq_nil_iff]
          intro y hy he
          simp at he
          rcases List.mem_cons.mp hy with e | hy
          · subst e; omega
          · have := hs.1 (key y) (List.mem_map.mpr ⟨y, hy, rfl⟩); omega
        rw [hnone, List.nil_append]
        refine List.filter_congr fun y hy => ?_
        have : v + 1 ≤ key y := by
          rcases List.mem_cons.mp hy with e | hy
          · subst e; omega
          · have := hs.1 (key y) (List.mem_map.mpr ⟨y, hy, rfl⟩); omega
        simp; omega

/-! ## The instance of a description -/

/-- The product of two multilinears. -/
def bivComposition (nVars a b : Nat) : Composition F where
  nVars := nVars
  degree := 2
  evaluate := fun q =>
    if q.length ≠ nVars then .error (.incorrectQuerySize nVars q.length)
    else match [a, b].mapM fun i => q[i]? with
      | some sub => (Gkr.productOf 2).evaluate sub
      | none => .error .panic

theorem bivariateSum_ok {n : Nat} {s : (Nat × Nat) × F} (h1 : s.1.1 < n) (h2 : s.1.2 < n) :
    bivariateSum n s = .ok ⟨bivComposition n s.1.1 s.1.2, s.2⟩ := by
  unfold bivariateSum Gkr.indexComposition
  rw [if_neg]
  · rfl
  · simp
    omega

theorem biv_represents {n a b : Nat} (h1 : a < n) (h2 : b < n) :
    Represents (bivComposition (F := F) n a b) (MvPolynomial.X a * MvPolynomial.X b) where
  evaluate := by
    intro q hq
    have hq' : q.length = n := hq
    have h1 : q[a]? = some q[a] := List.getElem?_eq_getElem (by omega)
    have h2 : q[b]? = some q[b] := List.getElem?_eq_getElem (by omega)
    unfold bivComposition
    simp only [hq', ne_eq, not_true_eq_false, if_false, List.mapM_cons, List.mapM_nil, h1, h2]
    simp [Gkr.productOf, evalAt, h1, h2]
  degree := by
    refine (MvPolynomial.totalDegree_mul _ _).trans ?_
    simp [bivComposition, MvPolynomial.totalDegree_X]

/-- The sumcheck claim of a description. -/
def claimOf (p : Nat × ClaimDesc F) : Claim F :=
  ⟨p.1, p.2.nCommitted + p.2.nTransparent,
    p.2.sums.map fun s => ⟨bivComposition (p.2.nCommitted + p.2.nTransparent) s.1.1 s.1.2, s.2⟩⟩

/-- The multilinears of a description. -/
def pieces (C T : List (Piece F)) (p : Nat × ClaimDesc F) : List (Piece F) :=
  (C.drop p.2.committed.1).take p.2.nCommitted ++ (T.drop p.2.transparent.1).take p.2.nTransparent

noncomputable def groupOf (C T : List (Piece F)) (p : Nat × ClaimDesc F) : Group F :=
  (⟨claimOf p, p.2.sums.map fun s => MvPolynomial.X s.1.1 * MvPolynomial.X s.1.2, (pieces C T p).map Prod.snd⟩,
    p.2.nCommitted)

/-- What the descriptions are. -/
structure DescOK (C T : List (Piece F)) (claims : List (PiopClaim F)) (v : Nat) (d : ClaimDesc F) : Prop where
  committed : (C.drop d.committed.1).take d.nCommitted = C.filter fun p => p.1 = v
  nCommitted : d.nCommitted = (C.filter fun p => p.1 = v).length
  transparent : (T.drop d.transparent.1).take d.nTransparent = T.filter fun p => p.1 = v
  nTransparent : d.nTransparent = (T.filter fun p => p.1 = v).length
  transEnd : d.nTransparent ≠ 0 → d.transparent.2 ≤ T.length
  commEnd : d.nCommitted ≠ 0 → d.committed.2 ≤ C.length
  sums : d.sums.map (entryMeaning d) = (claims.filter fun c => c.nVars = v).map claimMeaning

theorem slice_length {B : Type} (l : List B) (a b : Nat) (key : B → Nat) (v : Nat)
    (h : ∀ k, a ≤ k ∧ k < b ↔ (l.map key)[k]? = some v) : b - a ≠ 0 → b ≤ l.length := by
  intro hab
  have := (h (b - 1)).mp (by omega)
  have := (List.getElem?_eq_some_iff.mp this).1
  rw [List.length_map] at this
  omega

theorem slice_len {B : Type} (l : List B) (a b : Nat) (hb : b - a ≠ 0 → b ≤ l.length) :
    ((l.drop a).take (b - a)).length = b - a := by
  rw [List.length_take, List.length_drop]
  by_cases h : b - a = 0
  · omega
  · have := hb h; omega

theorem descOK_of (C T : List (Piece F)) (claims : List (PiopClaim F)) (m : CommitMeta)
    (hC : C.map Prod.fst = sizes 0 m.nMultilinsByVars) (v : Nat) (d : ClaimDesc F)
    (h : DescInv m.nMultilinsByVars (T.map Prod.fst) v d)
    (hs : d.sums.map (entryMeaning d) = (claims.filter fun c => c.nVars = v).map claimMeaning) :
    DescOK C T claims v d := by
  have h1 : ∀ k, d.committed.1 ≤ k ∧ k < d.committed.2 ↔ (C.map Prod.fst)[k]? = some v := fun k => by
    rw [hC]; exact h.committed k
  have e1 : (C.drop d.committed.1).take d.nCommitted = C.filter fun p => p.1 = v :=
    slice_filter Prod.fst v C _ _ h1
  have e2 : (T.drop d.transparent.1).take d.nTransparent = T.filter fun p => p.1 = v :=
    slice_filter Prod.fst v T _ _ h.transparent
  have l1 := slice_length C _ _ Prod.fst v h1
  have l2 := slice_length T _ _ Prod.fst v h.transparent
  exact ⟨e1, by rw [← e1]; exact (slice_len C _ _ l1).symm, e2, by rw [← e2]; exact (slice_len T _ _ l2).symm, l2, l1, hs⟩

/-- The descriptions are made. -/
theorem descs_ok {m : CommitMeta} {C T : List (Piece F)} {claims : List (PiopClaim F)} (h : WellFormed m C T claims) :
    ∃ descs, makeSumcheckClaimDescs m (T.map Prod.fst) claims = some (.ok descs) ∧ descs.length = m.maxNVars + 1 ∧
      ∀ v d, descs[v]? = some d → DescOK C T claims v d := by
  obtain ⟨descs, h1, h2, h3⟩ := transparents_ok (F := F) m (T.map Prod.fst) h.sorted (fun t ht => by
    obtain ⟨q, hq, rfl⟩ := List.mem_map.mp ht
    exact h.bound q hq)
  obtain ⟨descs', h4, h5, h6⟩ := claimLoop_ok m.nMultilinsByVars (T.map Prod.fst) claims [] 0 descs
    (fun v d hd => ⟨(h3 v d hd).1, by rw [(h3 v d hd).2]; rfl⟩) (fun c hc => by have := (h.claims c hc).1; omega)
    (fun c hc => (h.claims c hc).2)
  refine ⟨descs', ?_, by rw [h5, h2], fun v d hd => ?_⟩
  · unfold makeSumcheckClaimDescs
    rw [h1]
    exact h4
  · obtain ⟨i, j⟩ := h6 v d hd
    exact descOK_of C T claims m h.committed v d i (by simpa using j)

theorem mem_nonEmpty {descs : List (ClaimDesc F)} {p : Nat × ClaimDesc F} :
    p ∈ nonEmptyDescs descs ↔ descs[p.1]? = some p.2 ∧ p.2.committed.1 < p.2.committed.2 := by
  unfold nonEmptyDescs
  rw [List.mem_filter, List.mem_map]
  constructor
  · rintro ⟨⟨q, hq, rfl⟩, h⟩
    have := List.mk_mem_zipIdx_iff_getElem?.mp (show (q.1, q.2) ∈ descs.zipIdx from hq)
    exact ⟨this, by simpa using h⟩
  · rintro ⟨h1, h2⟩
    exact ⟨⟨(p.2, p.1), List.mk_mem_zipIdx_iff_getElem?.mpr h1, rfl⟩, by simpa using h2⟩

section

variable {C T : List (Piece F)} {claims : List (PiopClaim F)} {v : Nat} {d : ClaimDesc F}

/-- What an entry of a description is about. -/
theorem DescOK.entry (h : DescOK C T claims v d) (s : (Nat × Nat) × F) (hs : s ∈ d.sums) :
    ∃ c ∈ claims, c.nVars = v ∧ entryMeaning d s = claimMeaning c := by
  have : entryMeaning d s ∈ d.sums.map (entryMeaning d) := List.mem_map.mpr ⟨s, hs, rfl⟩
  rw [h.sums] at this
  obtain ⟨c, hc, he⟩ := List.mem_map.mp this
  rw [List.mem_filter] at hc
  exact ⟨c, hc.1, by simpa using hc.2, he.symm⟩

theorem descPolys_length (d : ClaimDesc F) : (descPolys d).length = d.nCommitted + d.nTransparent := by
  simp [descPolys, ClaimDesc.nCommitted, ClaimDesc.nTransparent]

theorem pieces_left (d : ClaimDesc F) (v a k : Nat) (h : (descPolys d)[a]? = some (.inl k))
    (hc : d.nCommitted ≠ 0 → d.committed.2 ≤ C.length) : (pieces C T (v, d))[a]? = C[k]? ∧ k < C.length := by
  unfold descPolys at h
  by_cases ha : a < d.committed.2 - d.committed.1
  · have hl := hc (by unfold ClaimDesc.nCommitted; omega)
    rw [List.getElem?_append_left (by simp; omega), List.getElem?_map, List.getElem?_range' (by omega)] at h
    simp only [Option.map_some, Option.some.injEq, Sum.inl.injEq] at h
    subst h
    unfold pieces ClaimDesc.nCommitted
    rw [List.getElem?_append_left (by rw [List.length_take, List.length_drop]; show a < min (d.committed.2 - d.committed.1) _; simp only; omega), List.getElem?_take,
      if_pos (by simpa using ha), List.getElem?_drop]
    constructor
    · congr 1; show d.committed.1 + a = _; omega
    · omega
  · rw [List.getElem?_append_right (by simp; omega), List.getElem?_map] at h
    rcases hq : (List.range' d.transparent.1 (d.transparent.2 - d.transparent.1))[a - ((List.range' d.committed.1
      (d.committed.2 - d.committed.1)).map (Sum.inl (β := Nat))).length]? with _ | q
    · rw [hq] at h; simp at h
    · rw [hq] at h; simp at h

theorem pieces_right (d : ClaimDesc F) (v a t : Nat) (h : (descPolys d)[a]? = some (.inr t))
    (hc : d.nCommitted ≠ 0 → d.committed.2 ≤ C.length) (ht : d.nTransparent ≠ 0 → d.transparent.2 ≤ T.length) :
    (pieces C T (v, d))[a]? = T[t]? ∧ t < T.length := by
  unfold descPolys at h
  by_cases ha : a < d.committed.2 - d.committed.1
  · rw [List.getElem?_append_left (by simp; omega), List.getElem?_map, List.getElem?_range' (by omega)] at h
    simp at h
  · have hlen := (List.getElem?_eq_some_iff.mp h).1
    simp only [List.length_append, List.length_map, List.length_range'] at hlen
    have hl := ht (by unfold ClaimDesc.nTransparent; omega)
    rw [List.getElem?_append_right (by simp; omega), List.getElem?_map, List.length_map, List.length_range',
      List.getElem?_range' (by omega)] at h
    simp only [Option.map_some, Option.some.injEq, Sum.inr.injEq] at h
    subst h
    have hcl : ((C.drop d.committed.1).take d.nCommitted).length = d.committed.2 - d.committed.1 := slice_len C _ _ hc
    unfold pieces
    rw [List.getElem?_append_right (by simp only [hcl]; omega), List.getElem?_take, if_pos (by
      simp only [hcl, ClaimDesc.nTransparent]; omega), List.getElem?_drop]
    simp only [hcl]
    constructor
    · congr 1; omega
    · omega

theorem DescOK.bounds (h : DescOK C T claims v d) (s : (Nat × Nat) × F) (hs : s ∈ d.sums) :
    s.1.1 < d.nCommitted + d.nTransparent ∧ s.1.2 < d.nCommitted + d.nTransparent := by
  obtain ⟨c, _, _, he⟩ := h.entry s hs
  unfold entryMeaning claimMeaning at he
  simp only [Prod.mk.injEq] at he
  rw [← descPolys_length]
  exact ⟨(List.getElem?_eq_some_iff.mp he.1).1, (List.getElem?_eq_some_iff.mp he.2.1).1⟩

theorem DescOK.claim (h : DescOK C T claims v d) : descClaim (v, d) = .ok (claimOf (v, d)) := by
  unfold descClaim
  simp only
  rw [collect_map_ok _ _ (fun s => ⟨bivComposition (d.nCommitted + d.nTransparent) s.1.1 s.1.2, s.2⟩) fun s hs =>
    bivariateSum_ok (h.bounds s hs).1 (h.bounds s hs).2]
  simp only [Claim.new]
  have : (d.sums.map fun s => (⟨bivComposition (d.nCommitted + d.nTransparent) s.1.1 s.1.2, s.2⟩ : CompositeSum F)).find?
      (fun s => s.composition.nVars != d.nCommitted + d.nTransparent) = none := by
    rw [List.find?_eq_none]
    intro s hs
    obtain ⟨x, _, rfl⟩ := List.mem_map.mp hs
    simp [bivComposition]
  rw [this]
  rfl

theorem DescOK.pieces (h : DescOK C T claims v d) :
    Piop.pieces C T (v, d) = (C.filter fun p => p.1 = v) ++ T.filter fun p => p.1 = v := by
  unfold Piop.pieces
  rw [h.committed, h.transparent]

theorem DescOK.wf (h : DescOK C T claims v d) : (groupOf C T (v, d)).1.WellFormed where
  nMultilinears := by
    show ((Piop.pieces C T (v, d)).map Prod.snd).length = d.nCommitted + d.nTransparent
    rw [List.length_map, h.pieces, List.length_append, ← h.nCommitted, ← h.nTransparent]
  compositions := by
    show List.Forall₂ _ (d.sums.map _) (d.sums.map _)
    rw [List.forall₂_map_left_iff, List.forall₂_map_right_iff, List.forall₂_same]
    exact fun s hs => ⟨biv_represents (h.bounds s hs).1 (h.bounds s hs).2, rfl⟩

theorem claimOf_degree (p : Nat × ClaimDesc F) :
    (claimOf p).maxIndividualDegree ≤ 2 ∧ ((claimOf p).maxIndividualDegree = 0 → p.2.sums = []) := by
  unfold Claim.maxIndividualDegree claimOf
  simp only [List.map_map]
  cases h : p.2.sums with
  | nil => simp
  | cons s l =>
    have : ((s :: l).map ((fun s : CompositeSum F => s.composition.degree) ∘ fun s =>
        (⟨bivComposition (p.2.nCommitted + p.2.nTransparent) s.1.1 s.1.2, s.2⟩ : CompositeSum F))) =
        List.replicate (s :: l).length 2 := by
      rw [List.eq_replicate_iff]
      refine ⟨by simp, fun b hb => ?_⟩
      obtain ⟨x, _, rfl⟩ := List.mem_map.mp hb
      rfl
    rw [this]
    simp

/-- The sums of a description hold exactly when its claims do. -/
theorem DescOK.holds (h : DescOK C T claims v d) :
    (groupOf C T (v, d)).1.Holds ↔ ∀ c ∈ claims, c.nVars = v → ClaimHolds C T c := by
  have key : ∀ s ∈ d.sums, ∀ c, c.nVars = v → entryMeaning d s = claimMeaning c →
      (s.2 = cubeSum v ((Piop.pieces C T (v, d)).map Prod.snd) (MvPolynomial.X s.1.1 * MvPolynomial.X s.1.2) ↔
        ClaimHolds C T c) := by
    intro s hs c hcv he
    unfold entryMeaning claimMeaning at he
    simp only [Prod.mk.injEq] at he
    obtain ⟨a1, a2⟩ := pieces_left (C := C) (T := T) d v _ _ he.1 h.commEnd
    obtain ⟨b1, b2⟩ := pieces_right (C := C) (T := T) d v _ _ he.2.1 h.commEnd h.transEnd
    unfold ClaimHolds
    have hsum : cubeSum v ((Piop.pieces C T (v, d)).map Prod.snd) (MvPolynomial.X s.1.1 * MvPolynomial.X s.1.2) =
        ∑ x ∈ range (2 ^ v), C[c.committed].2 x * T[c.transparent].2 x := by
      unfold cubeSum
      refine sum_congr rfl fun x _ => ?_
      unfold evalAt
      rw [map_mul, MvPolynomial.eval_X, MvPolynomial.eval_X, List.getD_eq_getElem?_getD, List.getD_eq_getElem?_getD,
        List.getElem?_map, List.getElem?_map, List.getElem?_map, List.getElem?_map, a1, b1,
        List.getElem?_eq_getElem a2, List.getElem?_eq_getElem b2]
      rfl
    rw [hsum, he.2.2, ← hcv]
    constructor
    · exact fun hh => ⟨_, _, List.getElem?_eq_getElem a2, List.getElem?_eq_getElem b2, hh⟩
    · rintro ⟨p, q, h1, h2, h3⟩
      rw [List.getElem?_eq_getElem a2] at h1
      rw [List.getElem?_eq_getElem b2] at h2
      injection h1 with h1
      injection h2 with h2
      rw [h3, ← h1, ← h2]
  have hh : (groupOf C T (v, d)).1.Holds ↔ ∀ s ∈ d.sums,
      s.2 = cubeSum v ((Piop.pieces C T (v, d)).map Prod.snd) (MvPolynomial.X s.1.1 * MvPolynomial.X s.1.2) := by
    show List.Forall₂ _ (d.sums.map _) (d.sums.map _) ↔ _
    rw [List.forall₂_map_left_iff, List.forall₂_map_right_iff, List.forall₂_same]
    rfl
  rw [hh]
  constructor
  · intro hs c hc hcv
    have : claimMeaning c ∈ d.sums.map (entryMeaning d) := by
      rw [h.sums]
      exact List.mem_map.mpr ⟨c, List.mem_filter.mpr ⟨hc, by simpa using hcv⟩, rfl⟩
    obtain ⟨s, hs1, he⟩ := List.mem_map.mp this
    exact (key s hs1 c hcv he).mp (hs s hs1)
  · intro hc s hs
    obtain ⟨c, hc1, hcv, he⟩ := h.entry s hs
    exact (key s hs c hcv he).mpr (hc c hc1 hcv)

end

/-! ## All of them -/

section

variable {m : CommitMeta} {C T : List (Piece F)} {claims : List (PiopClaim F)} {descs : List (ClaimDesc F)}

theorem WellFormed.key_lt (h : WellFormed m C T claims) : ∀ p ∈ C, p.1 < m.maxNVars + 1 := by
  intro p hp
  have h1 : p.1 ∈ sizes 0 m.nMultilinsByVars := by rw [← h.committed]; exact List.mem_map.mpr ⟨p, hp, rfl⟩
  have := sizes_lt _ _ _ h1
  unfold CommitMeta.maxNVars
  omega

theorem WellFormed.total (h : WellFormed m C T claims) : (C.map fun p => 2 ^ p.1).sum ≤ 2 ^ m.totalVars := by
  have h1 : (C.map fun p => 2 ^ p.1) = (C.map Prod.fst).map fun n => 2 ^ n := by rw [List.map_map]; rfl
  rw [h1, h.committed, sizes_elems, ← size_spec]
  rw [h.new]
  unfold CommitMeta.new
  simp only
  rw [(metaFold_ok _ 0 [] 0 0).2.2, Nat.zero_add]

theorem WellFormed.vars_le (h : WellFormed m C T claims) : ∀ p ∈ C, p.1 ≤ m.totalVars := by
  intro p hp
  have h1 := h.total
  have h2 : 2 ^ p.1 ≤ (C.map fun p => 2 ^ p.1).sum := List.le_sum_of_mem (List.mem_map.mpr ⟨p, hp, rfl⟩)
  exact (Nat.pow_le_pow_iff_right (by omega)).mp (h2.trans h1)

theorem DescOK.nonempty {v : Nat} {d : ClaimDesc F} (h : DescOK C T claims v d) (hne : d.committed.1 < d.committed.2) :
    ∃ p ∈ C, p.1 = v := by
  have h1 := h.nCommitted
  unfold ClaimDesc.nCommitted at h1
  obtain ⟨p, hp⟩ := List.exists_mem_of_length_pos (l := C.filter fun p => p.1 = v) (by omega)
  rw [List.mem_filter] at hp
  exact ⟨p, hp.1, by simpa using hp.2⟩

theorem nonEmpty_flatMap_aux {B : Type} (f : Nat → ClaimDesc F → List B) : ∀ (l : List (ClaimDesc F)) (k : Nat),
    (∀ v d, l[v]? = some d → ¬ d.committed.1 < d.committed.2 → f (k + v) d = []) →
    (((l.zipIdx k).map fun p => (p.2, p.1)).filter fun p => p.2.committed.1 < p.2.committed.2).flatMap (fun p => f p.1 p.2) =
      (l.zipIdx k).flatMap fun p => f p.2 p.1
  | [], k, _ => rfl
  | d :: l, k, h => by
    rw [List.zipIdx_cons, List.map_cons, List.flatMap_cons, ← nonEmpty_flatMap_aux f l (k + 1) (fun v e he hn => by
      have := h (v + 1) e (by simpa using he) hn
      rw [← this]; congr 1; omega)]
    by_cases hc : d.committed.1 < d.committed.2
    · rw [List.filter_cons_of_pos (by simpa using hc), List.flatMap_cons]
    · rw [List.filter_cons_of_neg (by simpa using hc), show f k d = [] from h 0 d (by simp) hc, List.nil_append]

/-- The committed polynomials of the descriptions, one after the other, are all of them. -/
theorem committed_flatMap (h : WellFormed m C T claims) (hl : descs.length = m.maxNVars + 1)
    (hd : ∀ v d, descs[v]? = some d → DescOK C T claims v d) :
    (nonEmptyDescs descs).flatMap (fun p => (C.drop p.2.committed.1).take p.2.nCommitted) = C := by
  unfold nonEmptyDescs
  rw [nonEmpty_flatMap_aux (fun _ d => (C.drop d.committed.1).take d.nCommitted) descs 0 (fun v d _ hn => by
    unfold ClaimDesc.nCommitted
    rw [show d.committed.2 - d.committed.1 = 0 by omega, List.take_zero])]
  have hs : (C.map Prod.fst).Pairwise (· ≤ ·) := by rw [h.committed]; exact sizes_sorted _ _
  have key := flatMap_filter Prod.fst C hs descs.length 0 (fun p hp => by
    rw [Nat.zero_add, hl]; exact h.key_lt p hp)
  have hall : C.filter (fun p => decide (0 ≤ p.1)) = C := List.filter_eq_self.mpr (by simp)
  rw [hall] at key
  refine Eq.trans ?_ key
  rw [List.zipIdx_eq_zip_range', List.flatMap_def, List.flatMap_def]
  congr 1
  refine List.ext_getElem (by simp) fun i h1 h2 => ?_
  rw [List.getElem_map, List.getElem_map, List.getElem_zip, List.getElem_range']
  have hi : i < descs.length := by simpa using h2
  rw [(hd i descs[i] (List.getElem?_eq_getElem hi)).committed]
  simp

end

end Verif.Piop
