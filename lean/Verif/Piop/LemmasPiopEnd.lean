import Verif.Piop.LemmasPiopDesc

set_option linter.unusedSectionVars false
set_option linter.dupNamespace false

/-! The checks at the end of the verification. -/

namespace Verif.Piop

open Verif.Mle Verif.Sumcheck Verif.Protocol Finset
open Verif.Piecewise (Piece concat)

variable {F : Type} [Field F] [DecidableEq F]

theorem checkTransparents_iff (chs : List F) (v : Nat) (hv : v ≤ chs.length) :
    ∀ (ts : List (Transparent F)) (tabs : List (Piece F)) (es : List F) (i : Nat), Transparent.Are ts tabs →
      (∀ q ∈ tabs, q.1 = v) → es.length = ts.length →
      (checkTransparents chs v i es ts = .ok () ↔ es = tabs.map fun q => mle q.2 (chs.take v).reverse)
  | [], [], es, i, _, _, hl => by
    rw [List.length_nil, List.length_eq_zero_iff] at hl
    subst hl
    simp [checkTransparents]
  | [], _ :: _, es, i, h, _, _ => by cases h
  | _ :: _, [], es, i, h, _, _ => by cases h
  | t :: ts, q :: tabs, [], i, _, _, hl => by simp at hl
  | t :: ts, q :: tabs, e :: es, i, h, hq, hl => by
    obtain ⟨⟨h1, h2⟩, h3⟩ := List.forall₂_cons.mp h
    have hqv := hq q (List.mem_cons_self ..)
    have hp : chs.reverse.drop (chs.length - v) = (chs.take v).reverse := by
      rw [List.drop_reverse]; congr 2; omega
    have ih := checkTransparents_iff chs v hv ts tabs es (i + 1) h3 (fun x hx => hq x (List.mem_cons_of_mem _ hx))
      (by simpa using hl)
    unfold checkTransparents
    rw [if_neg (by omega), hp, h2 _ (by rw [List.length_reverse, List.length_take, hqv]; omega)]
    simp only [List.map_cons, List.cons.injEq]
    by_cases he : e = mle q.2 (chs.take v).reverse
    · rw [if_neg (by simpa using he), ih]
      exact ⟨fun h => ⟨he, h⟩, fun h => h.2⟩
    · rw [if_pos he]
      constructor
      · intro h; cases h
      · intro h; exact absurd h.1 he

/-- The difference of an evaluation and the true one. -/
def devPiece (chs : List F) (x : Piece F × F) : Piece F :=
  (x.1.1, fun _ => x.2 - mle x.1.2 (chs.take x.1.1).reverse)

theorem devOf_zip (chs : List F) (v : Nat) : ∀ (cs : List (Piece F)) (es : List F), (∀ p ∈ cs, p.1 = v) →
    List.zipWith (fun t y => ((v, fun _ => y - mle t (chs.take v).reverse) : Piece F)) (cs.map Prod.snd) es =
      (cs.zip es).map (devPiece chs)
  | [], es, _ => by simp
  | c :: cs, [], _ => by simp
  | c :: cs, e :: es, h => by
    rw [List.map_cons, List.zipWith_cons_cons, List.zip_cons_cons, List.map_cons,
      devOf_zip chs v cs es fun p hp => h p (List.mem_cons_of_mem _ hp)]
    congr 1
    unfold devPiece
    rw [h c (List.mem_cons_self ..)]

section

variable {C T : List (Piece F)} {claims : List (PiopClaim F)} {v : Nat} {d : ClaimDesc F}

theorem DescOK.take (h : DescOK C T claims v d) :
    (groupOf C T (v, d)).1.tables.take d.nCommitted = (C.filter fun p => p.1 = v).map Prod.snd ∧
    (groupOf C T (v, d)).1.tables.drop d.nCommitted = (T.filter fun p => p.1 = v).map Prod.snd := by
  show ((Piop.pieces C T (v, d)).map Prod.snd).take d.nCommitted = _ ∧ ((Piop.pieces C T (v, d)).map Prod.snd).drop d.nCommitted = _
  rw [h.pieces, List.map_append]
  exact ⟨List.take_left' (by rw [List.length_map, h.nCommitted]), List.drop_left' (by rw [List.length_map, h.nCommitted])⟩

theorem DescOK.devOf (h : DescOK C T claims v d) (chs e : List F) :
    devOf chs (groupOf C T (v, d)) e = ((C.filter fun p => p.1 = v).zip (e.take d.nCommitted)).map (devPiece chs) := by
  unfold Piop.devOf
  show List.zipWith _ ((groupOf C T (v, d)).1.tables.take d.nCommitted) _ = _
  rw [h.take.1]
  refine devOf_zip chs v _ _ fun p hp => ?_
  rw [List.mem_filter] at hp
  simpa using hp.2

theorem DescOK.transOK (h : DescOK C T claims v d) (chs e : List F) :
    TransOK chs (groupOf C T (v, d)) e ↔
      e.drop d.nCommitted = (T.filter fun p => p.1 = v).map fun q => mle q.2 (chs.take v).reverse := by
  unfold TransOK
  show e.drop d.nCommitted = ((groupOf C T (v, d)).1.tables.drop d.nCommitted).map _ ↔ _
  rw [h.take.2, List.map_map]
  rfl

end

/-- What passing the check of the transparent evaluations means. -/
theorem verifyTransparent_ok {C T : List (Piece F)} {claims : List (PiopClaim F)} {ts : List (Transparent F)}
    (ht : Transparent.Are ts T) (chs : List F) : ∀ (ps : List (Nat × ClaimDesc F)) (evs : List (List F)) (es : List F),
    (∀ p ∈ ps, DescOK C T claims p.1 p.2 ∧ p.1 ≤ chs.length) → evs.length = ps.length →
    verifyTransparentEvals ts chs ps evs = .ok es →
    (∀ (k : Nat) (g : Group F) (e : List F), (ps.map (groupOf C T))[k]? = some g → evs[k]? = some e → TransOK chs g e) ∧
      es.length = (ps.flatMap fun p => (C.drop p.2.committed.1).take p.2.nCommitted).length ∧
      devs chs (ps.map (groupOf C T)) evs =
        (((ps.flatMap fun p => (C.drop p.2.committed.1).take p.2.nCommitted).zip es).map (devPiece chs)).reverse
  | [], [], es, _, _, h => by
    rw [verifyTransparentEvals] at h
    injection h with h
    subst h
    exact ⟨fun k g e hk => by simp at hk, rfl, rfl⟩
  | [], _ :: _, _, _, hl, _ => by simp at hl
  | _ :: _, [], _, _, hl, _ => by simp at hl
  | p :: ps, ev :: evs, es, hp, hl, h => by
    obtain ⟨hd, hv⟩ := hp p (List.mem_cons_self ..)
    unfold verifyTransparentEvals at h
    split at h
    · cases h
    next c1 =>
    split at h
    · cases h
    next c2 =>
    split at h
    · cases h
    next c3 =>
    split at h
    · cases h
    next hck =>
    split at h
    · cases h
    next l hrest =>
    injection h with h
    subst h
    obtain ⟨i1, i2, i3⟩ := verifyTransparent_ok ht chs ps evs l (fun q hq => hp q (List.mem_cons_of_mem _ hq))
      (by simpa using hl) hrest
    have hsl : Transparent.Are ((ts.drop p.2.transparent.1).take p.2.nTransparent)
        ((T.drop p.2.transparent.1).take p.2.nTransparent) := List.forall₂_take _ (List.forall₂_drop _ ht)
    have hfl := hd.nTransparent
    rw [← hd.transparent] at hfl
    have hck' := (checkTransparents_iff chs p.1 hv _ _ _ _ hsl (fun q hq => by
      rw [hd.transparent, List.mem_filter] at hq
      simpa using hq.2) (by rw [hsl.length_eq, List.length_drop, ← hfl]; omega)).mp hck
    rw [hd.transparent] at hck'
    have hcl : ((C.drop p.2.committed.1).take p.2.nCommitted).length = p.2.nCommitted := by
      rw [hd.committed]; exact hd.nCommitted.symm
    have htl : (ev.take p.2.nCommitted).length = p.2.nCommitted := by rw [List.length_take]; omega
    refine ⟨?_, ?_, ?_⟩
    · intro k g e hk he
      cases k with
      | zero =>
        simp only [List.map_cons, List.getElem?_cons_zero, Option.some.injEq] at hk he
        subst hk he
        exact (hd.transOK chs ev).mpr hck'
      | succ k => exact i1 k g e (by simpa using hk) (by simpa using he)
    · rw [List.flatMap_cons, List.length_append, List.length_append, i2, hcl, htl]
    · rw [List.map_cons, devs, i3, List.flatMap_cons, List.zip_append (by rw [hcl, htl]), List.map_append, List.reverse_append]
      congr 2
      rw [hd.devOf, hd.committed]

theorem concat_add {B : Type} (n : B → Nat) (f g : B → Nat → F) (L : List B) (x : Nat) :
    concat (L.map fun b => (n b, fun i => f b i + g b i)) x =
      concat (L.map fun b => (n b, f b)) x + concat (L.map fun b => (n b, g b)) x := by
  induction L generalizing x with
  | nil => simp [concat]
  | cons b L ih =>
    simp only [List.map_cons, concat]
    split
    · rfl
    · exact ih _

/-- The evaluation of the concatenation depends on the evaluations of the pieces only. -/
theorem mle_concat_congr (P Q : List (Piece F)) (hP : P.Pairwise fun a b => b.1 ≤ a.1) (point : List F)
    (hn : P.map Prod.fst = Q.map Prod.fst) (hl : (P.map fun p => 2 ^ p.1).sum ≤ 2 ^ point.length)
    (he : (P.map fun p => mle p.2 (point.take p.1)) = Q.map fun p => mle p.2 (point.take p.1)) :
    mle (concat P) point = mle (concat Q) point := by
  by_cases hne : P = []
  · subst hne
    rw [List.map_nil, eq_comm, List.map_eq_nil_iff] at hn
    rw [hn]
  have hpw : ∀ R : List (Piece F), R.Pairwise (fun a b => b.1 ≤ a.1) ↔ (R.map Prod.fst).Pairwise fun a b => b ≤ a := by
    intro R; rw [List.pairwise_map]
  have hmax : ∃ N, ∀ p ∈ P, p.1 < N := ⟨(P.map Prod.fst).sum + 1, fun p hp =>
    Nat.lt_succ_of_le (List.le_sum_of_mem (List.mem_map.mpr ⟨p, hp, rfl⟩))⟩
  obtain ⟨N, hN⟩ := hmax
  have hfilt : ∀ (R : List (Piece F)) i, (R.filter fun p => p.1 = i).length = ((R.map Prod.fst).filter fun n => n = i).length := by
    intro R i
    rw [List.filter_map, List.length_map]
    rfl
  let counts := (List.range N).map fun i => (P.filter fun p => p.1 = i).length
  have hc : ∀ i, counts.getD i 0 = (P.filter fun p => p.1 = i).length := by
    intro i
    by_cases hi : i < N
    · simp [counts, List.getD_eq_getElem?_getD, hi]
    · rw [List.getD_eq_getElem?_getD, List.getElem?_eq_none (by simp [counts]; omega)]
      symm
      rw [Option.getD_none, List.length_eq_zero_iff, List.filter_eq_nil_iff]
      intro p hp he
      have := hN p hp
      simp at he
      omega
  have h1 := (Piecewise.C22_piecewise P hP hne counts hc point).1 hl
  have h2 := (Piecewise.C22_piecewise Q (by rw [hpw, ← hn, ← hpw]; exact hP) (by
      intro hq
      rw [hq, List.map_nil, List.map_eq_nil_iff] at hn
      exact hne hn) counts (fun i => by rw [hc, hfilt, hfilt, hn]) point).1 (by
      have : ∀ R : List (Piece F), (R.map fun p => 2 ^ p.1) = (R.map Prod.fst).map fun n => 2 ^ n := fun R => by
        rw [List.map_map]; rfl
      rw [this, ← hn, ← this]
      exact hl)
  rw [he, h2] at h1
  injection h1 with h1
  injection h1 with h1
  exact h1.symm

section

variable {m : CommitMeta} {C T : List (Piece F)} {claims : List (PiopClaim F)} {descs : List (ClaimDesc F)}

theorem WellFormed.sortedC (h : WellFormed m C T claims) : C.reverse.Pairwise fun a b => b.1 ≤ a.1 := by
  have hs : (C.map Prod.fst).Pairwise (· ≤ ·) := by rw [h.committed]; exact sizes_sorted _ _
  rw [List.pairwise_reverse]
  rw [List.pairwise_map] at hs
  exact hs

/-- The evaluation of the message through the evaluations of the committed polynomials. -/
theorem message_eval (h : WellFormed m C T claims) (chs : List F) (hl : chs.length = m.totalVars) :
    mle (message C) chs = mle (concat (C.reverse.map fun p => (p.1, fun _ => mle p.2 (chs.take p.1).reverse))) chs := by
  unfold message
  refine mle_concat_congr _ _ ?_ chs (by simp) ?_ ?_
  · rw [List.pairwise_map]; exact h.sortedC
  · rw [List.map_map]
    have := h.total
    rw [hl]
    refine le_trans (le_of_eq ?_) this
    show (C.reverse.map fun p => 2 ^ p.1).sum = _
    rw [List.map_reverse, List.sum_reverse]
  · rw [List.map_map, List.map_map]
    refine List.map_congr_left fun p hp => ?_
    have hv := h.vars_le p (List.mem_reverse.mp hp)
    have hlen : (chs.take p.1).length = p.1 := by rw [List.length_take]; omega
    show mle (fun x => p.2 (bitRev p.1 x)) (chs.take p.1) = mle (fun _ => _) (chs.take p.1)
    rw [mle_const]
    have := mle_bitRev p.2 (chs.take p.1)
    rw [hlen] at this
    exact this

/-- What the last check computes. -/
theorem piecewise_eval (h : WellFormed m C T claims) (hdl : descs.length = m.maxNVars + 1)
    (hd : ∀ v d, descs[v]? = some d → DescOK C T claims v d) (chs es : List F) (hl : chs.length = m.totalVars)
    (hes : es.length = C.length) :
    Piecewise.evaluate chs (descs.map ClaimDesc.nCommitted) (Slice.ofList es.reverse) =
      some (.ok (mle (message C) chs + mle (concat ((C.zip es).map (devPiece chs)).reverse) chs)) := by
  have hz : (C.zip es).map Prod.fst = C := List.map_fst_zip (by omega)
  have hz2 : (C.zip es).map Prod.snd = es := List.map_snd_zip (by omega)
  have hfst : ((C.zip es).reverse.map fun x => ((x.1.1, fun _ => x.2) : Piece F)).map Prod.fst = (C.reverse).map Prod.fst := by
    rw [List.map_map]
    conv_rhs => rw [← hz, ← List.map_reverse, List.map_map]
    rfl
  have hfilt : ∀ (R : List (Piece F)) i, (R.filter fun p => p.1 = i).length = ((R.map Prod.fst).filter fun n => n = i).length := by
    intro R i
    rw [List.filter_map, List.length_map]
    rfl
  have h22 := (Piecewise.C22_piecewise ((C.zip es).reverse.map fun x => ((x.1.1, fun _ => x.2) : Piece F)) (by
      have := h.sortedC
      have hpw : ∀ R : List (Piece F), R.Pairwise (fun a b => b.1 ≤ a.1) ↔ (R.map Prod.fst).Pairwise fun a b => b ≤ a := by
        intro R; rw [List.pairwise_map]
      rw [hpw, hfst, ← hpw]
      exact this) (by
      intro hh
      rw [List.map_eq_nil_iff, List.reverse_eq_nil_iff] at hh
      rw [hh, List.map_nil] at hz
      exact h.nonempty hz.symm) (descs.map ClaimDesc.nCommitted) (fun i => by
      rw [hfilt, hfst, ← hfilt, List.filter_reverse, List.length_reverse]
      by_cases hi : i < descs.length
      · rw [List.getD_eq_getElem?_getD, List.getElem?_map, List.getElem?_eq_getElem hi]
        exact (hd i _ (List.getElem?_eq_getElem hi)).nCommitted
      · rw [List.getD_eq_getElem?_getD, List.getElem?_eq_none (by rw [List.length_map]; omega), Option.getD_none]
        symm
        rw [List.length_eq_zero_iff, List.filter_eq_nil_iff]
        intro p hp he
        have := h.key_lt p hp
        simp at he
        omega) chs).1 (by
      have : ∀ R : List (Piece F), (R.map fun p => 2 ^ p.1) = (R.map Prod.fst).map fun n => 2 ^ n := fun R => by
        rw [List.map_map]; rfl
      rw [this, hfst, ← this, List.map_reverse, List.sum_reverse, hl]
      exact h.total)
  have hev : ((C.zip es).reverse.map fun x => ((x.1.1, fun _ => x.2) : Piece F)).map (fun p => mle p.2 (chs.take p.1)) =
      es.reverse := by
    rw [List.map_map]
    conv_rhs => rw [← hz2, ← List.map_reverse]
    refine List.map_congr_left fun x _ => ?_
    exact mle_const _ _
  rw [hev] at h22
  rw [h22, message_eval h chs hl]
  congr 2
  rw [← mle_add]
  refine mle_congr fun i _ => ?_
  have hrev : C.reverse = (C.zip es).reverse.map Prod.fst := by rw [List.map_reverse, hz]
  conv_rhs => rw [hrev, List.map_map, ← List.map_reverse]
  have := concat_add (fun x : Piece F × F => x.1.1) (fun x _ => mle x.1.2 (chs.take x.1.1).reverse)
    (fun x _ => x.2 - mle x.1.2 (chs.take x.1.1).reverse) (C.zip es).reverse i
  refine Eq.trans ?_ this
  congr 1
  refine List.map_congr_left fun x _ => ?_
  simp

end

end Verif.Piop
