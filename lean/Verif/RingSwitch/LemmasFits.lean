import Verif.RingSwitch.LemmasComplete
import Verif.Protocol.LemmasPostL
import Verif.Piop.PropsCommit
import Verif.Piop.PropsClaims
import Mathlib.Data.Fintype.Prod
import Mathlib.Data.Fintype.BigOperators

/-! The form of the reduced claims, and the existence of the system. -/

set_option linter.dupNamespace false
set_option linter.unusedSectionVars false

namespace Verif.RingSwitch

open Finset Verif.Mle Verif.Protocol
open Verif.Oracle (OracleSet)
open Verif.Piop (SparseIndex CommitMeta PiopClaim isCommitted)
open Verif.Evalcheck (Claim)
open Verif.Field (T)

instance fintypeT : (n : Nat) → Fintype (T n)
  | 0 => inferInstanceAs (Fintype Bool)
  | n + 1 => letI := fintypeT n; inferInstanceAs (Fintype (T n × T n))

theorem card_T : ∀ n : Nat, Fintype.card (T n) = 2 ^ 2 ^ n
  | 0 => rfl
  | n + 1 => by
    have h : Fintype.card (T (n + 1)) = Fintype.card (T n) * Fintype.card (T n) := Fintype.card_prod (T n) (T n)
    rw [h, card_T n, ← Nat.pow_add, ← Nat.two_mul, ← Nat.pow_succ']

variable {F : Type} [Field F] [DecidableEq F]
variable {os : OracleSet F} {index : SparseIndex Nat} {sys : System F} {items : List (Item F)}

/-- What the claims and the transparent polynomials are about. -/
def Positions (items : List (Item F)) (red : Reduced F) : Prop :=
  red.transparents.length = items.length ∧ red.claims.length = items.length ∧
    ∀ i < items.length, ∃ lv m rows e, red.transparents[i]? = some ⟨lv, (itemAt items i).suf, rows, m⟩ ∧
      lv.kappa = (itemAt items i).kappa ∧ 2 ^ lv.kappa ≤ rows.length ∧
      red.claims[i]? = some ⟨(itemAt items i).suf.length, (itemAt items i).committed, i, e⟩

theorem verify_positions (tw : Tower F) (hs : SysOk os index sys items) :
    PostL (Positions items) (verify tw sys) := by
  have hN : items.length ≤ 2 ^ log2Ceil sys.claims.length := by rw [hs.length]; exact le_log2Ceil _
  unfold verify
  refine PostL.bind (PostL.of (sampleVec_post _)) fun r hr => ?_
  rw [expandQuery_eq, hr]
  show PostL _ ((receiveTensorElems sys _).bind _)
  refine PostL.bind (PostL.of (Post.trivial _)) fun ts _ => ?_
  refine PostL.bind (PostL.of (sampleVec_post _)) fun rho hrho => ?_
  rw [expandQuery_eq, hrho]
  show PostL _ (.read _ _)
  intro evals hev
  refine PostL.of (Post.ofExcept fun red hred => ?_)
  rw [hs.length] at hev
  obtain ⟨y, rfl⟩ : ∃ y : Nat → F, evals = (List.range items.length).map y :=
    ⟨fun i => evals[i]?.getD 0, by rw [← hev]; exact list_eq_map_range evals 0⟩
  unfold finishVerify at hred
  rw [hs.accumulate_eq] at hred
  dsimp only at hred
  split at hred
  · cases hred
  rw [hs.zip_eq _ hN, hs.zip_eq items.length le_rfl] at hred
  cases hps : makeEqInds sys.suffixes ((List.range (2 ^ sys.maxKappa)).map (eqWeight rho))
      ((List.range items.length).map fun i => ((itemAt items i).desc, eqWeight r i)) with
  | error e => rw [hps] at hred; cases hred
  | ok ps =>
    rw [hps] at hred
    dsimp only at hred
    cases hcs : makeClaims sys.suffixes 0 ((List.range items.length).map fun i => ((itemAt items i).desc, y i)) with
    | error e => rw [hcs] at hred; cases hred
    | ok cs =>
      rw [hcs] at hred
      injection hred with hred
      obtain ⟨p1, p2⟩ := makeEqInds_ok _ _ _ _ hps
      obtain ⟨c1, c2⟩ := makeClaims_ok _ _ _ _ hcs
      subst hred
      refine ⟨by simpa using p1, by simpa using c1, fun i hi => ?_⟩
      obtain ⟨lv, h1, h2, h3⟩ := p2 i (itemAt items i).desc (eqWeight r i) ⟨(itemAt items i).suf, (itemAt items i).kappa⟩
        (by rw [List.getElem?_map, List.getElem?_range hi]; rfl) (hs.suffix hi)
      have h4 := c2 i (itemAt items i).desc (y i) ⟨(itemAt items i).suf, (itemAt items i).kappa⟩
        (by rw [List.getElem?_map, List.getElem?_range hi]; rfl) (hs.suffix hi)
      rw [Nat.zero_add] at h4
      exact ⟨lv, _, _, y i, h3, h1, h2, h4⟩

/-! ## Sizes -/

theorem sizes_get : ∀ (l : List Nat) (v n k : Nat) (h : n < l.length), (l.take n).sum ≤ k → k < (l.take n).sum + l[n] →
    (Piop.sizes v l)[k]? = some (v + n)
  | [], _, _, _, h, _, _ => absurd h (by simp)
  | c :: l, v, 0, k, _, _, h2 => by
    simp only [List.take_zero, List.sum_nil, List.getElem_cons_zero, Nat.zero_add] at h2
    rw [Piop.sizes, List.getElem?_append_left (by rw [List.length_replicate]; omega), List.getElem?_replicate, if_pos h2]
    rfl
  | c :: l, v, n + 1, k, h, h1, h2 => by
    simp only [List.take_succ_cons, List.sum_cons, List.getElem_cons_succ] at h1 h2
    rw [Piop.sizes, List.getElem?_append_right (by rw [List.length_replicate]; omega), List.length_replicate,
      sizes_get l (v + 1) n (k - c) (by simpa using h) (by omega) (by omega)]
    congr 1
    omega

theorem committed_size (os : OracleSet F) (m : CommitMeta) (index : SparseIndex Nat)
    (hm : Piop.makeOracleCommitMeta 7 os = some (m, index)) (id n k : Nat) (hc : Piop.Committed 7 os id n)
    (hk : index id = some k) : (Piop.sizes 0 m.nMultilinsByVars)[k]? = some n ∧ n ≤ m.maxNVars := by
  obtain ⟨hr1, hr2⟩ := Piop.C38_ranges 7 os m index hm n
  obtain ⟨r, hr⟩ := Option.isSome_iff_exists.1 (hr1.2 ⟨id, n, le_rfl, hc⟩)
  obtain ⟨k', hk', h1, h2⟩ := ((hr2 r hr).1 id).1 hc
  rw [hk] at hk'
  injection hk' with hk'
  subst hk'
  obtain ⟨counts, index', g1, -, -, -⟩ := Piop.make_ok 7 os
  rw [g1] at hm
  injection hm with hm
  injection hm with hm _
  subst hm
  rw [Piop.rangeByVars_new] at hr
  split at hr
  · rename_i hn
    injection hr with hr
    subst hr
    refine ⟨?_, ?_⟩
    · have := sizes_get counts 0 n k hn h1 h2
      rw [Nat.zero_add] at this
      exact this
    · show n ≤ counts.length - 1
      omega
  · cases hr

/-! ## When the system exists -/

theorem groupLoop_exists (os : OracleSet F) : ∀ (cs : List (Claim F)) (g : Groups F),
    (∀ c ∈ cs, ∃ o, os.get c.id = some o ∧ isCommitted o = true ∧ o.towerLevel ≤ 7) → ∃ g', groupLoop os cs g = .ok g'
  | [], g, _ => ⟨g, rfl⟩
  | c :: cs, g, h => by
    obtain ⟨o, h1, h2, h3⟩ := h c List.mem_cons_self
    rw [groupLoop]
    unfold groupStep
    rw [h1]
    dsimp only
    rw [if_neg (by rw [h2]; decide), if_neg (by omega)]
    exact groupLoop_exists os cs _ fun c hc => h c (List.mem_cons_of_mem _ hc)

theorem makeDescs_exists (os : OracleSet F) (index : SparseIndex Nat) : ∀ (cs : List (Claim F)) (ns : List Nat),
    cs.length ≤ ns.length →
    (∀ c ∈ cs, (∃ o, os.get c.id = some o ∧ isCommitted o = true) ∧ ∃ k, index c.id = some k) →
      ∃ ds, makeDescs os index cs ns = .ok ds
  | [], _, _, _ => ⟨[], rfl⟩
  | c :: cs, [], hl, _ => absurd hl (by simp)
  | c :: cs, s :: ns, hl, h => by
    obtain ⟨⟨o, h1, h2⟩, k, h3⟩ := h c List.mem_cons_self
    obtain ⟨ds, hd⟩ := makeDescs_exists os index cs ns (by simpa using hl) fun c hc => h c (List.mem_cons_of_mem _ hc)
    refine ⟨⟨k, s, c⟩ :: ds, ?_⟩
    rw [makeDescs, h1]
    dsimp only
    rw [if_neg (by rw [h2]; decide), h3]
    dsimp only
    rw [hd]

theorem sortKeys_exists (os : OracleSet F) : ∀ cs : List (Claim F), (∀ c ∈ cs, ∃ o, os.get c.id = some o) →
    ∃ l, sortKeys os cs = some l
  | [], _ => ⟨[], rfl⟩
  | c :: cs, h => by
    obtain ⟨o, h1⟩ := h c List.mem_cons_self
    obtain ⟨l, hl⟩ := sortKeys_exists os cs fun c hc => h c (List.mem_cons_of_mem _ hc)
    rw [sortKeys, hl]
    unfold sortKey
    rw [h1]
    exact ⟨_, rfl⟩

theorem newSystem_exists (os : OracleSet F) (m : CommitMeta) (index : SparseIndex Nat) (claims : List (Claim F))
    (h : ∀ c ∈ claims, ∃ o k, os.get c.id = some o ∧ isCommitted o = true ∧ o.towerLevel ≤ 7 ∧ index c.id = some k) :
    ∃ sys, newSystem os m index claims = .ok sys := by
  obtain ⟨l, hl⟩ := sortKeys_exists os claims fun c hc => by
    obtain ⟨o, k, h1, _⟩ := h c hc
    exact ⟨o, h1⟩
  have hsort : sortClaims os claims = some ((l.mergeSort fun a b => decide (a.1 ≤ b.1)).map Prod.snd) := by
    unfold sortClaims; rw [hl]; rfl
  generalize hS : (l.mergeSort fun a b => decide (a.1 ≤ b.1)).map Prod.snd = sorted at hsort
  obtain ⟨hperm, -⟩ := sortClaims_ok os claims sorted hsort
  have h' : ∀ c ∈ sorted, ∃ o k, os.get c.id = some o ∧ isCommitted o = true ∧ o.towerLevel ≤ 7 ∧ index c.id = some k :=
    fun c hc => h c (hperm.mem_iff.1 hc)
  obtain ⟨g, hg⟩ := groupLoop_exists os sorted ⟨[], [], [], []⟩ fun c hc => by
    obtain ⟨o, k, h1, h2, h3, _⟩ := h' c hc
    exact ⟨o, h1, h2, h3⟩
  obtain ⟨xs, e1, -, e3, -⟩ := groupLoop_ok os index sorted _ g hg
  obtain ⟨ds, hd⟩ := makeDescs_exists os index sorted g.toSuffix (by rw [e3, ← e1]; simp) fun c hc => by
    obtain ⟨o, k, h1, h2, h3, h4⟩ := h' c hc
    exact ⟨⟨o, h1, h2⟩, k, h4⟩
  unfold newSystem
  rw [hsort]
  dsimp only
  rw [hg]
  dsimp only
  rw [hd]
  exact ⟨_, rfl⟩

/-- The packing degrees without a variant. -/
theorem receiveLoop_unsupported : ∀ l : List (List F × F), (∃ p ∈ l, ∀ lv, levelOf p.1.length ≠ .ok lv) →
    Post (fun _ => False) (receiveLoop l)
  | [], h => by simp at h
  | (pre, e) :: l, h => by
    rw [receiveLoop]
    intro m
    refine Post.bind (Q := fun t : TElem F => levelOf pre.length = .ok t.level) (Post.ofExcept fun t ht => ?_) fun t ht => ?_
    · unfold TElem.new at ht
      cases hl : levelOf pre.length with
      | error e => rw [hl] at ht; cases ht
      | ok lv => rw [hl] at ht; injection ht with ht; rw [← ht]
    · refine Post.bind (Post.trivial _) fun e' _ => ?_
      split
      · trivial
      · have hrest : ∃ p ∈ l, ∀ lv, levelOf p.1.length ≠ .ok lv := by
          obtain ⟨p, hp, hn⟩ := h
          rcases List.mem_cons.1 hp with rfl | hp
          · exact absurd ht (hn _)
          · exact ⟨p, hp, hn⟩
        exact Post.bind (receiveLoop_unsupported l hrest) fun _ h => h.elim

end Verif.RingSwitch
