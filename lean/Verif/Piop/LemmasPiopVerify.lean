import Verif.Piop.LemmasPiopEnd
import Verif.Piop.LemmasPiopSound

set_option linter.unusedSectionVars false
set_option linter.dupNamespace false

/-! The whole verification. -/

namespace Verif.Piop

open Verif.Mle Verif.Sumcheck Verif.Protocol Finset
open Verif.Piecewise (Piece concat)

variable {F : Type} [Field F] [DecidableEq F]

theorem transparent_vars {ts : List (Transparent F)} {T : List (Piece F)} (h : Transparent.Are ts T) :
    ts.map (fun t => t.nVars) = T.map Prod.fst := by
  induction h with
  | nil => rfl
  | cons h _ ih => rw [List.map_cons, List.map_cons, ih, h.1]

theorem nonEmpty_lt (descs : List (ClaimDesc F)) : (nonEmptyDescs descs).Pairwise fun p q => p.1 < q.1 := by
  unfold nonEmptyDescs
  refine List.Pairwise.filter _ ?_
  rw [List.pairwise_map, List.zipIdx_eq_zip_range', List.pairwise_iff_getElem]
  intro i j hi hj hij
  simp only [List.getElem_zip, List.getElem_range']
  omega

theorem filter_sum_le (claims : List (PiopClaim F)) (ks : List Nat) (hk : ks.Nodup) :
    (ks.map fun v => (claims.filter fun c => c.nVars = v).length).sum ≤ claims.length := by
  induction claims with
  | nil => simp
  | cons c cs ih =>
    have h1 : (ks.map fun v => ((c :: cs).filter fun c => c.nVars = v).length) =
        ks.map fun v => (if v = c.nVars then 1 else 0) + (cs.filter fun c => c.nVars = v).length := by
      refine List.map_congr_left fun v _ => ?_
      by_cases hv : v = c.nVars
      · rw [if_pos hv, List.filter_cons_of_pos (by simp [hv]), List.length_cons, Nat.add_comm]
      · rw [if_neg hv, List.filter_cons_of_neg (by simp; omega), Nat.zero_add]
    have h2 : (ks.map fun v => if v = c.nVars then 1 else 0).sum = ks.count c.nVars := by
      clear h1 ih hk
      induction ks with
      | nil => rfl
      | cons k ks ih =>
        rw [List.map_cons, List.sum_cons, ih, List.count_cons, Nat.add_comm]
        simp
    rw [h1, List.sum_map_add, h2, List.length_cons]
    have := List.nodup_iff_count_le_one.mp hk c.nVars
    omega

section

variable {m : CommitMeta} {C T : List (Piece F)} {claims : List (PiopClaim F)} {descs : List (ClaimDesc F)}

theorem sums_le (hd : ∀ v d, descs[v]? = some d → DescOK C T claims v d) :
    (((nonEmptyDescs descs).map (groupOf C T)).map fun g => g.1.claim.sums.length).sum ≤ claims.length := by
  rw [List.map_map]
  have : ((nonEmptyDescs descs).map ((fun g : Group F => g.1.claim.sums.length) ∘ groupOf C T)) =
      ((nonEmptyDescs descs).map Prod.fst).map fun v => (claims.filter fun c => c.nVars = v).length := by
    rw [List.map_map]
    refine List.map_congr_left fun p hp => ?_
    have h := congrArg List.length (hd p.1 p.2 (mem_nonEmpty.mp hp).1).sums
    rw [List.length_map, List.length_map] at h
    show (p.2.sums.map _).length = _
    rw [List.length_map, h]
    rfl
  rw [this]
  refine filter_sum_le claims _ ?_
  rw [List.Nodup, List.pairwise_map]
  exact (nonEmpty_lt descs).imp fun h => Nat.ne_of_lt h

theorem collect_claims (hd : ∀ v d, descs[v]? = some d → DescOK C T claims v d) :
    collect ((nonEmptyDescs descs).map descClaim) =
      .ok (((nonEmptyDescs descs).map (groupOf C T)).map fun g => g.1.claim) := by
  rw [collect_map_ok _ _ claimOf fun p hp => (hd p.1 p.2 (mem_nonEmpty.mp hp).1).claim, List.map_map]
  rfl

/-- A false claim is hard to defend. -/
theorem verify_err (digest : Nat) (arities : List Nat) (fri : List (List F) → List F → P F F) (ts : List (Transparent F))
    (h : WellFormed m C T claims) (ht : Transparent.Are ts T) (hfalse : ∃ c ∈ claims, ¬ ClaimHolds C T c) :
    SoundErr (FriTrue C) (verify m digest arities fri ts claims) (m.totalVars * 2 + claims.length) := by
  obtain ⟨descs, h1, h2, hd⟩ := descs_ok h
  unfold verify
  rw [transparent_vars ht, h1]
  simp only
  rw [ofExcept_bind, collect_claims (T := T) hd]
  simp only
  have hv : ∀ p ∈ nonEmptyDescs descs, p.1 ≤ m.totalVars := fun p hp => by
    obtain ⟨q, hq, e⟩ := (hd p.1 p.2 (mem_nonEmpty.mp hp).1).nonempty (mem_nonEmpty.mp hp).2
    rw [← e]
    exact h.vars_le q hq
  have hg : ∀ g ∈ (nonEmptyDescs descs).map (groupOf C T), ∃ p ∈ nonEmptyDescs descs, g = groupOf C T p ∧
      DescOK C T claims p.1 p.2 := fun g hg => by
    obtain ⟨p, hp, rfl⟩ := List.mem_map.mp hg
    exact ⟨p, hp, rfl, hd p.1 p.2 (mem_nonEmpty.mp hp).1⟩
  refine SoundErr.mono (interleaved_err fri ((nonEmptyDescs descs).map (groupOf C T)) ?_ ?_ ?_ ?_ ?_ _ ?_) ?_
  · intro g hgm
    obtain ⟨p, _, rfl, hp⟩ := hg g hgm
    exact hp.wf
  · intro g hgm h0
    obtain ⟨p, _, rfl, hp⟩ := hg g hgm
    have := (claimOf_degree p).2 h0
    show p.2.sums.map _ = []
    rw [this, List.map_nil]
  · intro g hgm
    obtain ⟨p, _, rfl, hp⟩ := hg g hgm
    exact (claimOf_degree p).1
  · intro g hgm
    obtain ⟨p, hp, rfl, _⟩ := hg g hgm
    exact hv p hp
  · obtain ⟨c, hc, hcf⟩ := hfalse
    have hlt : c.nVars < descs.length := by have := (h.claims c hc).1; omega
    have hdc := hd c.nVars descs[c.nVars] (List.getElem?_eq_getElem hlt)
    have hp : (c.nVars, descs[c.nVars]) ∈ nonEmptyDescs descs := by
      refine mem_nonEmpty.mpr ⟨List.getElem?_eq_getElem hlt, ?_⟩
      have hn := hdc.nCommitted
      have hfit := (h.claims c hc).2.1
      rw [← h.committed, List.getElem?_map] at hfit
      obtain ⟨q, hq, he⟩ := Option.map_eq_some_iff.mp hfit
      have hm : q ∈ C.filter fun p => p.1 = c.nVars :=
        List.mem_filter.mpr ⟨List.mem_of_getElem? hq, by simpa using he⟩
      have hpos := List.length_pos_of_mem hm
      unfold ClaimDesc.nCommitted at hn
      show descs[c.nVars].committed.1 < descs[c.nVars].committed.2
      omega
    refine ⟨groupOf C T _, List.mem_map.mpr ⟨_, hp, rfl⟩, fun hh => hcf ?_⟩
    exact hdc.holds.mp hh c hc rfl
  · intro out hlen hel hw
    rw [ofExcept_bind]
    cases hvt : verifyTransparentEvals ts out.challenges (nonEmptyDescs descs) out.multilinearEvals with
    | error e => exact .fail
    | ok es =>
      simp only
      obtain ⟨g1, g2, g3⟩ := verifyTransparent_ok (C := C) (claims := claims) ht out.challenges _ _ es
        (fun p hp => ⟨hd p.1 p.2 (mem_nonEmpty.mp hp).1, by rw [hlen]; exact hv p hp⟩) (by simpa using hel) hvt
      rw [committed_flatMap h h2 hd] at g2 g3
      rw [ofExcept_bind]
      unfold checkPiecewise
      rw [piecewise_eval h h2 hd out.challenges es hlen g2]
      simp only
      rcases hw with ⟨k, g, e, a1, a2, a3⟩ | hw
      · exact absurd (g1 k g e a1 a2) a3
      · rw [g3] at hw
        have hne := residue_final _ _ (by
          rw [hlen]
          refine le_trans (le_of_eq ?_) h.total
          rw [List.map_reverse, List.sum_reverse, List.map_map]
          have : (C.zip es).map Prod.fst = C := List.map_fst_zip (by omega)
          conv_rhs => rw [← this, List.map_map]
          rfl) hw
        by_cases he : mle (message C) out.challenges + mle (concat ((C.zip es).map (devPiece out.challenges)).reverse)
            out.challenges ≠ out.friFinal
        · rw [if_pos he]
          exact .fail
        · rw [if_neg he]
          refine .ret fun hgood => hne ?_
          rw [not_not] at he
          unfold FriTrue at hgood
          simp only at hgood
          rw [hgood] at he
          exact add_eq_left.mp he
  · have := sums_le (C := C) (T := T) hd
    omega

end

/-! ## How many challenges are sampled -/

theorem samplesLe_piopRounds {A : Type} (digest n N : Nat) (round : Nat) (next : Option Nat × List Nat) (v : BatchVerifier F)
    (evs : List (List F)) (chs : List F) (comms : List (List F))
    (k : BatchVerifier F × List (List F) × List F × List (List F) → P F A)
    (hk : ∀ q, (k q).SamplesLe N) : ((piopRounds digest n round next v evs chs comms).bind k).SamplesLe (n + N) := by
  induction n generalizing round next v evs chs comms with
  | zero => rw [Nat.zero_add]; exact hk _
  | succ n ih =>
    rw [piopRounds, Verif.Protocol.bind_assoc]
    refine samplesLe_finishReady _ _ v _ fun q => ?_
    rw [Verif.Protocol.bind_assoc, show n + 1 + N = (n + N) + 1 by omega]
    have hr : ∀ v : BatchVerifier F, ((Prog.sample fun challenge =>
          (Prog.ofExcept (v.finishRound challenge)).bind fun v =>
            if next.1 = some (round + 1) then
              .read digest fun comm =>
                piopRounds digest n (round + 1) (nextCommit (round + 1) next.2) v (evs ++ q.1) (chs ++ [challenge])
                  (comms ++ [comm])
            else piopRounds digest n (round + 1) next v (evs ++ q.1) (chs ++ [challenge]) comms).bind k).SamplesLe
              (n + N + 1) := by
      intro v x
      show (((Prog.ofExcept (v.finishRound x)).bind _).bind k).SamplesLe (n + N)
      rw [Verif.Protocol.bind_assoc, ofExcept_bind]
      cases v.finishRound x with
      | error e => trivial
      | ok v =>
        simp only
        split
        · exact fun comm => ih _ _ _ _ _ _
        · exact ih _ _ _ _ _ _
    unfold BatchVerifier.receiveRoundProof
    cases q.2.last with
    | coeffs _ => trivial
    | sum s =>
      simp only
      cases q.2.claims with
      | nil => exact fun m => hr _
      | cons c cs =>
        simp only
        split
        · trivial
        · exact fun m => hr _

theorem samplesLe_ofExcept {A B : Type} (x : Except Error A) (N : Nat) (k : A → P F B) (hk : ∀ a, (k a).SamplesLe N) :
    ((Prog.ofExcept x).bind k).SamplesLe N := by
  rw [ofExcept_bind]
  cases x with
  | error e => trivial
  | ok a => exact hk a

theorem collect_length {A : Type} : ∀ (l : List (Except Error A)) (as : List A), collect l = .ok as → as.length = l.length
  | [], as, h => by
    injection h with h
    rw [← h]
    rfl
  | .error e :: l, as, h => by cases h
  | .ok a :: l, as, h => by
    unfold collect at h
    split at h
    · next bs hb =>
      injection h with h
      rw [← h, List.length_cons, List.length_cons, collect_length l bs hb]
    · cases h

theorem samplesLe_verify (m : CommitMeta) (digest : Nat) (arities : List Nat) (fri : List (List F) → List F → P F F)
    (ts : List (Transparent F)) {C T : List (Piece F)} (claims : List (PiopClaim F)) (h : WellFormed m C T claims)
    (ht : Transparent.Are ts T) (N : Nat) (hN : ∀ comms chs, (fri comms chs).SamplesLe N) :
    (verify m digest arities fri ts claims).SamplesLe (m.maxNVars + 1 + (m.totalVars + N)) := by
  obtain ⟨descs, h1, hlen, hd⟩ := descs_ok h
  unfold verify
  rw [transparent_vars ht, h1]
  simp only
  rw [ofExcept_bind]
  cases hc : collect ((nonEmptyDescs descs).map descClaim) with
  | error e => trivial
  | ok cl =>
    simp only
    have hcl : cl.length ≤ m.maxNVars + 1 := by
      rw [collect_length _ _ hc, List.length_map]
      unfold nonEmptyDescs
      refine (List.length_filter_le _ _).trans ?_
      rw [List.length_map, List.length_zipIdx, hlen]
    unfold verifyInterleaved newBatchVerifier
    simp only [Verif.Protocol.bind_assoc]
    refine samplesLe_mono (N := cl.length + (m.totalVars + N)) ?_ (by omega)
    refine samplesLe_sampleVec _ _ _ fun cs hcs => ?_
    refine samplesLe_ofExcept _ _ _ fun v => ?_
    refine samplesLe_piopRounds _ _ _ _ _ _ _ _ _ _ fun q => ?_
    refine samplesLe_finishReady _ _ _ _ fun r => ?_
    refine samplesLe_ofExcept _ _ _ fun _ => ?_
    rw [← Nat.add_zero N]
    refine samplesLe_bind (hN _ _) fun y => ?_
    simp only [Prog.bind]
    refine samplesLe_ofExcept _ _ _ fun es => ?_
    exact samplesLe_ofExcept _ _ _ fun _ => trivial

end Verif.Piop
