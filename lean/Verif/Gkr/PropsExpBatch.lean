import Verif.Gkr.LemmasExpBatch4

/-! Properties of the batched exponentiation (C61). -/

set_option linter.dupNamespace false
set_option linter.unusedSectionVars false

namespace Verif.Gkr

open Verif.Mle Verif.Protocol Verif.Sumcheck Finset

variable {F : Type} [Field F] [DecidableEq F]

theorem atLayer_zero {items : List (ExpItem F)} (hwf : ∀ it ∈ items, it.WellFormed) : AtLayer 0 items :=
  fun it hit => ⟨hwf it hit, List.length_pos_iff.mpr (hwf it hit).nonempty⟩

theorem width_le {items : List (ExpItem F)} (hwf : ∀ it ∈ items, it.WellFormed) {it : ExpItem F} (hit : it ∈ items) :
    it.cols.length ≤ maxWidth (items.map fun it => it.claim) := by
  unfold maxWidth
  refine le_max?_getD (List.mem_map.mpr ⟨it.claim, List.mem_map.mpr ⟨it, hit, rfl⟩, ?_⟩)
  exact (hwf it hit).width

theorem verify_eq (checks : Bool) (order : EvaluationOrder) (claims : List (ExpClaim F)) (h : claims ≠ []) :
    expBatchVerify checks order claims =
      if Verif.Sorting.isSortedAscending (claims.map fun c => c.nVars).reverse = false then .fail .claimsOutOfOrder
      else expLayers checks order (maxWidth claims) 0 claims [] := by
  cases claims with
  | nil => exact absurd rfl h
  | cons c cs => rfl

theorem sorted_of {claims : List (ExpClaim F)} (h : claims.Pairwise fun a b => b.nVars ≤ a.nVars) :
    Verif.Sorting.isSortedAscending (claims.map fun c => c.nVars).reverse = true := by
  rw [Verif.Sorting.C03_is_sorted_ascending]
  have : ((claims.map fun c => c.nVars).reverse).Pairwise (· ≤ ·) := by
    rw [List.pairwise_reverse, List.pairwise_map]
    exact h
  exact fun i j hij hj => List.pairwise_iff_getElem.mp this i j _ hj hij

/-- **C61.** For any claims of which one is false, in whatever order they come, and for any prover, however it chooses its
messages, at most the share `W (5 n + m) / |F|` of the challenges makes the verifier accept with claims on exponent bits and
bases that are all true; `W` is the largest number of exponent bits, `n` bounds the numbers of variables and `m` is the number of
claims. -/
theorem C61_soundness [Fintype F] (checks : Bool) (order : EvaluationOrder) (items : List (ExpItem F))
    (hwf : ∀ it ∈ items, it.WellFormed) (hfalse : ∃ it ∈ items, ¬ it.Holds) (n : Nat)
    (hn : ∀ it ∈ items, it.claim.nVars ≤ n) (msg : List F → Nat → List F) :
    let claims := items.map fun it => it.claim
    let N := maxWidth claims * (n + items.length)
    accepting (ExpOutputHolds items) msg (expBatchVerify checks order claims) [] 0 N * Fintype.card F ≤
      maxWidth claims * (5 * n + items.length) * Fintype.card F ^ N := by
  intro claims N
  obtain ⟨it, hit, hf⟩ := hfalse
  have hl := atLayer_zero hwf
  have hne : claims ≠ [] := by
    intro hc
    have : items = [] := by simpa [claims] using hc
    rw [this] at hit
    simp at hit
  have hv := verify_eq checks order claims hne
  have herr : SoundErr (ExpOutputHolds items) (expBatchVerify checks order claims)
      (maxWidth claims * (5 * n + items.length)) := by
    have h := exp_err checks order items n items.length (maxWidth claims) 0 items [] hl (Nat.le_refl _)
      (fun it hi => ⟨hn it hi, by have := width_le hwf hi; simpa [claims] using this⟩) rfl (fun _ _ => rfl)
      ⟨it, hit, fun h => hf ((trueAt_zero it).mp h)⟩
    rw [hv]
    split
    · exact .fail
    · exact h
  have hsam : SamplesLeL (expBatchVerify checks order claims) N := by
    rw [hv]
    split
    · exact True.intro
    · exact exp_samples checks order n items.length _ 0 items [] hl (Nat.le_refl _) hn
  exact soundErr_countL herr msg N hsam [] 0

/-- **C61.** Whatever the prover sends, an accepted batch gives one list of claims for every layer up to the largest number of
bits; the list of layer `k` has, in the order of the exponentiations that have more than `k` bits, one claim for a static base
and two for a dynamic one, each at a point with as many coordinates as the exponentiation has variables. -/
theorem C61_shape (checks : Bool) (order : EvaluationOrder) (items : List (ExpItem F))
    (hwf : ∀ it ∈ items, it.WellFormed) (msg : List F → Nat → List F) (chal : Nat → F) (out : List (List (ExpLayerClaim F)))
    (h : (expBatchVerify checks order (items.map fun it => it.claim)).run msg [] 0 chal = .ok out) :
    out.length = maxWidth (items.map fun it => it.claim) ∧
    ∀ k layer, out[k]? = some layer → (layer.map fun c => c.evalPoint.length) =
      items.flatMap fun it => (it.outTables k).map fun _ => it.claim.nVars := by
  have hp : PostL (fun out : List (List (ExpLayerClaim F)) => out.length = maxWidth (items.map fun it => it.claim) ∧
      ∀ k layer, out[k]? = some layer → (layer.map fun c => c.evalPoint.length) = items.flatMap (outShape k))
      (expBatchVerify checks order (items.map fun it => it.claim)) := by
    unfold expBatchVerify
    split
    · rename_i hc
      have : items = [] := by simpa using hc
      subst this
      exact ⟨rfl, fun k layer h => by simp at h⟩
    · split
      · exact True.intro
      · exact (exp_shape checks order items _ 0 items [] (atLayer_zero hwf) rfl (fun _ _ => rfl)
          (fun j layer h => by simp at h)).mono fun out h => ⟨by omega, h.2⟩
  exact hp.run msg [] 0 chal out h

/-- **C61.** For true claims in the order of their numbers of variables, witnesses that fit them and honest sumcheck provers,
`batch_prove` succeeds whatever the challenges, the verifier accepts its proof, and both end with the same claims on the exponent
bits and the bases, which are true. -/
theorem C61_completeness (checks : Bool) (order : EvaluationOrder) (build : ExpProverBuilder F)
    (hbuild : ExpBuildsHonest order build) (witnesses : List (ExpWitness F)) (items : List (ExpItem F))
    (hfit : List.Forall₂ (fun w it => w.Fits it) witnesses items) (hwf : ∀ it ∈ items, it.WellFormed)
    (hsort : items.Pairwise fun a b => b.claim.nVars ≤ a.claim.nVars) (hholds : ∀ it ∈ items, it.Holds) (chal : Nat → F) :
    let claims := items.map fun it => it.claim
    let proof := ((expBatchProve checks order build witnesses claims).run chal).1
    ∃ out, ((expBatchProve checks order build witnesses claims).run chal).2 = .ok out ∧
      (expBatchVerify checks order claims).run (fun _ i => proof.getD i []) [] 0 chal = .ok out ∧
      out.length = maxWidth claims ∧ ExpOutputHolds items out := by
  intro claims proof
  have hlen : witnesses.length = claims.length := by rw [List.length_map]; exact hfit.length_eq
  have hag : Agree (fun o o' => o = o' ∧ o.length = maxWidth claims ∧ ExpOutputHolds items o)
      (expBatchProve checks order build witnesses claims) (expBatchVerify checks order claims) := by
    unfold expBatchProve
    rw [if_neg (by omega)]
    cases hfit with
    | nil => exact .ret ⟨rfl, rfl, fun k layer h => by simp at h⟩
    | @cons w it ws its' hw hws =>
      have hsorted : Verif.Sorting.isSortedAscending (claims.map fun c => c.nVars).reverse = true :=
        sorted_of (List.pairwise_map.mpr hsort)
      have hfit' : List.Forall₂ (fun w it => w.Fits it) (w :: ws) (it :: its') := .cons hw hws
      let prs : List (ExpProver F × ExpItem F) :=
        List.zipWith (fun w it => ((⟨w, it.claim.evalPoint, it.claim.eval, it.claim.nVars⟩ : ExpProver F), it)) (w :: ws)
          (it :: its')
      have hprs : its prs = it :: its' ∧ prs.map Prod.fst = makeProvers (w :: ws) claims ∧ ∀ q ∈ prs, Backs q := by
        have : ∀ (ws : List (ExpWitness F)) (l : List (ExpItem F)), List.Forall₂ (fun w it => w.Fits it) ws l →
            (∀ it ∈ l, it.WellFormed) →
            its (List.zipWith (fun w it => ((⟨w, it.claim.evalPoint, it.claim.eval, it.claim.nVars⟩ : ExpProver F), it)) ws l) = l ∧
            (List.zipWith (fun w it => ((⟨w, it.claim.evalPoint, it.claim.eval, it.claim.nVars⟩ : ExpProver F), it)) ws l).map
              Prod.fst = makeProvers ws (l.map fun it => it.claim) ∧
            ∀ q ∈ List.zipWith (fun w it => ((⟨w, it.claim.evalPoint, it.claim.eval, it.claim.nVars⟩ : ExpProver F), it)) ws l,
              Backs q := by
          intro ws l h hw
          induction h with
          | nil => exact ⟨rfl, rfl, by simp⟩
          | @cons a b l l' hab _ ih =>
            obtain ⟨i1, i2, i3⟩ := ih fun x hx => hw x (by simp [hx])
            refine ⟨?_, ?_, ?_⟩
            · rw [List.zipWith_cons_cons, its_cons, i1]
            · rw [List.zipWith_cons_cons, List.map_cons, i2]
              rfl
            · intro q hq
              rw [List.zipWith_cons_cons] at hq
              rcases List.mem_cons.mp hq with rfl | hq
              · refine ⟨?_, hab⟩
                have h1 : a.exponent.length = b.claim.exponentBitWidth := by rw [hab.exponent, (hw b (by simp)).width]
                have h2 : (match a.base with | none => some a.staticBase | some _ => none) = b.claim.staticBase := by
                  cases hs : b.claim.staticBase with
                  | some g =>
                    obtain ⟨e1, e2⟩ := hab.static g hs
                    rw [e1, e2]
                  | none =>
                    obtain ⟨c, e1, -, -⟩ := hab.dynamic hs
                    rw [e1]
                show (⟨b.claim.evalPoint, b.claim.eval, a.exponent.length, b.claim.nVars,
                  match a.base with | none => some a.staticBase | some _ => none⟩ : ExpClaim F) = b.claim
                rw [h1, h2]
              · exact i3 q hq
        exact this _ _ hfit' hwf
      obtain ⟨p1, p2, p3⟩ := hprs
      have hclaims : (makeProvers (w :: ws) claims).map ExpProver.claim = claims := by
        rw [← p2, map_claims p3, p1]
      simp only
      rw [if_neg (by rw [hsorted]; simp), hclaims]
      have hv : expBatchVerify checks order claims = expLayers checks order (maxWidth claims) 0 claims [] := by
        show (if _ then _ else _) = _
        rw [if_neg]
        intro hc
        exact absurd (hc.symm.trans hsorted) (by simp)
      rw [hv, ← p2]
      have hc' : claims = (its prs).map fun it => it.claim := by rw [p1]
      have key := exp_agree checks order hbuild (it :: its') (maxWidth claims) 0 prs [] p3
        (by rw [p1]; exact atLayer_zero hwf)
        (fun _ => by
          have hmem : maxWidth claims ∈ claims.map fun c => c.exponentBitWidth := by
            unfold maxWidth
            cases hm : (claims.map fun c => c.exponentBitWidth).max? with
            | none =>
              rw [List.max?_eq_none_iff] at hm
              simp [claims] at hm
            | some m => exact (List.max?_eq_some_iff.mp hm).1
          obtain ⟨c, hc, hcw⟩ := List.mem_map.mp hmem
          obtain ⟨x, hx, rfl⟩ := List.mem_map.mp hc
          have hx' := hx
          rw [← p1] at hx'
          obtain ⟨q, hq, rfl⟩ := List.mem_map.mp hx'
          exact ⟨q, hq, by rw [← (hwf q.2 hx).width, hcw, Nat.zero_add]⟩)
        rfl (fun _ _ => by rw [p1])
        (by
          have := hsort
          rw [← p1, List.pairwise_map] at this
          exact this)
        (fun q hq => (trueAt_zero q.2).mpr (hholds q.2 (by rw [← p1]; exact List.mem_map.mpr ⟨q, hq, rfl⟩)))
        (fun k layer h => by simp at h)
      rw [← hc'] at key
      exact agree_mono key fun o o' h => ⟨h.1, by omega, h.2.2⟩
  obtain ⟨a, b, h1, h2, h3, h4, h5⟩ := agree_run hag [] [] chal
  subst h3
  exact ⟨a, h1, h2, h4, h5⟩

/-- **C61.** There are builders of honest sumcheck provers. -/
theorem C61_builder_exists (order : EvaluationOrder) : ∃ build : ExpProverBuilder F, ExpBuildsHonest order build :=
  exp_builder_exists order

/-- **C61.** The witness that `new_with_static_base` computes (C37) fits. -/
theorem C61_static_witness (h2 : (2 : F) = 0) (w nBits : Nat) (it : ExpItem F) (hwf : it.WellFormed) (g : F)
    (hg : it.claim.staticBase = some g) (layers : List (List (Packed F)))
    (h : newStatic w nBits it.cols g = some (.ok layers)) :
    ExpWitness.Fits ⟨it.cols, layers.map fun l => ⟨it.claim.nVars, value w l⟩, none, g⟩ it := by
  obtain ⟨c1, c2, -⟩ := C37_static h2 w nBits it.claim.nVars it.cols (fun c hc => (hwf.bits c hc).1) g layers h
  refine ⟨rfl, fun g' hg' => ⟨rfl, ?_⟩, fun hn => ?_, by simpa using c1, fun k layer hk => ?_⟩
  · rw [hg] at hg'
    injection hg'
  · rw [hg] at hn
    cases hn
  · simp only [List.getElem?_map, Option.map_eq_some_iff] at hk
    obtain ⟨l, hl, rfl⟩ := hk
    refine ⟨rfl, fun v hv => ?_⟩
    rw [hg, (hwf.static g hg).1 v]
    exact (c2 k l hl).2 v hv

/-- **C61.** The witness that `new_with_dynamic_base` computes (C37) fits. -/
theorem C61_dynamic_witness (h2 : (2 : F) = 0) (w nBits : Nat) (it : ExpItem F) (hg : it.claim.staticBase = none)
    (evals : List (Packed F)) (hbase : ∀ v < 2 ^ it.claim.nVars, value w evals v = it.base v) (layers : List (List (Packed F)))
    (any : F) (h : newDynamic w nBits it.cols it.claim.nVars evals = some (.ok layers)) :
    ExpWitness.Fits ⟨it.cols, layers.map fun l => ⟨it.claim.nVars, value w l⟩,
      some ⟨it.claim.nVars, value w evals⟩, any⟩ it := by
  obtain ⟨c1, c2, -⟩ := C37_dynamic h2 w nBits it.claim.nVars it.cols evals layers h
  refine ⟨rfl, fun g' hg' => ?_, fun _ => ⟨_, rfl, rfl, hbase⟩, by simpa using c1, fun k layer hk => ?_⟩
  · rw [hg] at hg'
    cases hg'
  · simp only [List.getElem?_map, Option.map_eq_some_iff] at hk
    obtain ⟨l, hl, rfl⟩ := hk
    refine ⟨rfl, fun v hv => ?_⟩
    rw [hg, ← hbase v hv]
    exact (c2 k l hl).2 v hv

/-! ### Claims about oracles -/

/-- The claims about oracles are true. -/
def OracleClaimsHold (table : Nat → Nat → F) (cs : List (OracleClaim F)) : Prop :=
  ∀ c ∈ cs, c.eval = mle (table c.id) c.evalPoint

theorem over_bit {table : Nat → Nat → F} {it : ExpItem F} {ids : List Nat} {base : Option Nat} (ho : it.Over table ids base)
    {k : Nat} (hk : k < it.cols.length) :
    ∃ id, ids[bitIndex it.claim.staticBase.isNone it.cols.length k]? = some id ∧ it.bit k = table id := by
  obtain ⟨c, hc⟩ := exists_bit it k hk
  have h1 : (it.cols.map fun c => c.val)[bitIndex it.claim.staticBase.isNone it.cols.length k]? = some c.val := by
    rw [List.getElem?_map, hc]
    rfl
  rw [ho.cols, List.getElem?_map, Option.map_eq_some_iff] at h1
  obtain ⟨id, h2, h3⟩ := h1
  exact ⟨id, h2, by rw [bit_of hc, h3]⟩

theorem evalClaimStep_ok {table : Nat → Nat → F} {it : ExpItem F} {ids : List Nat} {base : Option Nat}
    (ho : it.Over table ids base) (hne : ids ≠ []) (k : Nat) (pre chunk : List (ExpLayerClaim F))
    (hc : chunk.length = (it.outTables k).length) :
    ∃ cs, evalClaimStep k ids base (pre ++ chunk) = some (.ok (cs, pre)) ∧
      (OracleClaimsHold table cs ↔ List.Forall₂ TableTrue (it.outTables k) chunk) := by
  have hlen : it.cols.length = ids.length := by
    have := congrArg List.length ho.cols
    simpa using this
  have hpos := List.length_pos_iff.mpr hne
  unfold evalClaimStep
  rw [if_neg (by omega)]
  by_cases hk : k < it.cols.length
  · rw [if_neg (by omega)]
    obtain ⟨id, h1, h2⟩ := over_bit ho hk
    unfold ExpItem.outTables at hc ⊢
    rw [if_pos hk] at hc ⊢
    cases base with
    | none =>
      obtain ⟨g, hg⟩ := Option.ne_none_iff_exists'.mp (ho.static rfl)
      rw [hg] at hc h1 ⊢
      simp only at hc ⊢
      match chunk, hc with
      | [x], _ =>
        rw [List.getLast?_concat]
        simp only
        rw [show ids[ids.length - 1 - k]? = some id by rw [← hlen]; exact h1, List.dropLast_concat]
        refine ⟨_, rfl, ?_⟩
        unfold OracleClaimsHold
        simp only [List.mem_singleton, forall_eq, List.forall₂_cons, List.forall₂_nil_right_iff, and_true]
        unfold TableTrue
        rw [h2]
    | some b =>
      obtain ⟨hg, hb⟩ := ho.dynamic b rfl
      rw [hg] at hc h1 ⊢
      simp only at hc ⊢
      match chunk, hc with
      | [x, y], _ =>
        have hsplit : pre ++ [x, y] = (pre ++ [x]) ++ [y] := by simp
        rw [hsplit, List.getLast?_concat, List.dropLast_concat]
        simp only
        rw [List.getLast?_concat, List.dropLast_concat]
        simp only
        rw [show ids[k]? = some id from h1]
        refine ⟨_, rfl, ?_⟩
        unfold OracleClaimsHold
        simp only [List.mem_cons, List.not_mem_nil, or_false, forall_eq_or_imp, forall_eq, List.forall₂_cons,
          List.forall₂_nil_right_iff, and_true]
        unfold TableTrue
        rw [h2, hb]
  · rw [if_pos (by omega)]
    unfold ExpItem.outTables at hc ⊢
    rw [if_neg hk] at hc ⊢
    have : chunk = [] := List.eq_nil_of_length_eq_zero hc
    rw [this, List.append_nil]
    exact ⟨[], rfl, by simp [OracleClaimsHold]⟩

theorem evalClaimLayer_ok {table : Nat → Nat → F} (k : Nat) : ∀ (ritems : List (ExpItem F)) (rpairs : List (List Nat × Option Nat))
    (layer : List (ExpLayerClaim F)), List.Forall₂ (fun it p => it.Over table p.1 p.2 ∧ p.1 ≠ []) ritems rpairs →
    layer.length = (ritems.reverse.flatMap (ExpItem.outTables k)).length →
    ∃ cs, evalClaimLayer k rpairs layer = some (.ok cs) ∧
      (OracleClaimsHold table cs ↔ List.Forall₂ TableTrue (ritems.reverse.flatMap (ExpItem.outTables k)) layer)
  | [], [], layer, _, hl => by
    have : layer = [] := List.eq_nil_of_length_eq_zero (by simpa using hl)
    rw [this]
    exact ⟨[], rfl, by simp [OracleClaimsHold]⟩
  | it :: ritems, p :: rpairs, layer, h, hl => by
    rw [List.forall₂_cons] at h
    rw [List.reverse_cons, List.flatMap_append, List.length_append] at hl
    have hsing : [it].flatMap (ExpItem.outTables k) = it.outTables k := by simp
    rw [hsing] at hl
    obtain ⟨pre, chunk, rfl, hpre⟩ : ∃ pre chunk, layer = pre ++ chunk ∧
        pre.length = (ritems.reverse.flatMap (ExpItem.outTables k)).length :=
      ⟨layer.take _, layer.drop _, (List.take_append_drop _ _).symm, by rw [List.length_take]; exact Nat.min_eq_left (by omega)⟩
    rw [List.length_append] at hl
    have hchunk : chunk.length = (it.outTables k).length := by omega
    obtain ⟨cs, e1, e2⟩ := evalClaimStep_ok h.1.1 h.1.2 k pre chunk hchunk
    obtain ⟨ds, f1, f2⟩ := evalClaimLayer_ok k ritems rpairs pre h.2 hpre
    refine ⟨cs ++ ds, ?_, ?_⟩
    · rw [evalClaimLayer, e1]
      dsimp only
      rw [f1]
    · rw [List.reverse_cons, List.flatMap_append, hsing]
      have h1 : List.Forall₂ TableTrue (ritems.reverse.flatMap (ExpItem.outTables k) ++ it.outTables k) (pre ++ chunk) ↔
          List.Forall₂ TableTrue (ritems.reverse.flatMap (ExpItem.outTables k)) pre ∧
            List.Forall₂ TableTrue (it.outTables k) chunk := by
        constructor
        · intro h
          have a := List.forall₂_take pre.length h
          have b := List.forall₂_drop pre.length h
          rw [List.take_left] at a
          rw [List.drop_left] at b
          rw [hpre, List.take_left] at a
          rw [hpre, List.drop_left] at b
          exact ⟨a, b⟩
        · exact fun h => List.rel_append h.1 h.2
      rw [h1, ← e2, ← f2]
      unfold OracleClaimsHold
      simp only [List.mem_append]
      exact ⟨fun h => ⟨fun c hc => h c (Or.inr hc), fun c hc => h c (Or.inl hc)⟩,
        fun h c hc => hc.elim (h.2 c) (h.1 c)⟩

theorem evalClaimLayers_ok {table : Nat → Nat → F} (items : List (ExpItem F)) (rpairs : List (List Nat × Option Nat))
    (layers : List (List (ExpLayerClaim F)))
    (h : List.Forall₂ (fun it p => it.Over table p.1 p.2 ∧ p.1 ≠ []) items.reverse rpairs)
    (hsh : ∀ k layer, layers[k]? = some layer → layer.length = (items.flatMap (ExpItem.outTables k)).length) :
    ∀ (left k : Nat), k + left = layers.length →
    ∃ cs, evalClaimLayers rpairs layers left k = some (.ok cs) ∧
      (OracleClaimsHold table cs ↔ ∀ j, k ≤ j → ∀ layer, layers[j]? = some layer →
        List.Forall₂ TableTrue (items.flatMap (ExpItem.outTables j)) layer)
  | 0, k, hk => by
    refine ⟨[], rfl, ?_⟩
    simp only [OracleClaimsHold, List.not_mem_nil, false_imp_iff, implies_true, true_iff]
    intro j hj layer hl
    rw [List.getElem?_eq_none (by omega)] at hl
    cases hl
  | left + 1, k, hk => by
    have hkl : k < layers.length := by omega
    obtain ⟨ds, f1, f2⟩ := evalClaimLayers_ok items rpairs layers h hsh left (k + 1) (by omega)
    have hg : layers[k]? = some layers[k] := List.getElem?_eq_getElem hkl
    obtain ⟨cs, e1, e2⟩ := evalClaimLayer_ok k items.reverse rpairs layers[k] h (by
      rw [List.reverse_reverse]; exact hsh k _ hg)
    rw [List.reverse_reverse] at e2
    refine ⟨cs ++ ds, ?_, ?_⟩
    · rw [evalClaimLayers, hg]
      dsimp only
      rw [e1]
      dsimp only
      rw [f1]
    · have : OracleClaimsHold table (cs ++ ds) ↔ OracleClaimsHold table cs ∧ OracleClaimsHold table ds := by
        unfold OracleClaimsHold
        simp only [List.mem_append]
        exact ⟨fun h => ⟨fun c hc => h c (Or.inl hc), fun c hc => h c (Or.inr hc)⟩,
          fun h c hc => hc.elim (h.1 c) (h.2 c)⟩
      rw [this, e2, f2]
      constructor
      · rintro ⟨a, b⟩ j hj layer hl
        by_cases hjk : j = k
        · subst hjk
          rw [hg] at hl
          injection hl with hl
          rw [← hl]
          exact a
        · exact b j (by omega) layer hl
      · exact fun a => ⟨a k (Nat.le_refl _) _ hg, fun j hj => a j (by omega)⟩

/-- **C61.** `make_eval_claims` turns the output of an accepted batch into claims about the oracles of the exponent bits and of
the bases: it succeeds on anything of the shape of C61_shape, and all its claims are true exactly when the claims of the output are,
each about the bit or the base that it belongs to. -/
theorem C61_eval_claims (table : Nat → Nat → F) (items : List (ExpItem F)) (ids : List (List Nat)) (bases : List (Option Nat))
    (hover : List.Forall₂ (fun it p => ExpItem.Over table it p.2 p.1) items (bases.zip ids)) (hne : ∀ l ∈ ids, l ≠ [])
    (layers : List (List (ExpLayerClaim F))) (hw : layers.length = ((ids.map List.length).max?).getD 0)
    (hsh : ∀ k layer, layers[k]? = some layer → layer.length = (items.flatMap (ExpItem.outTables k)).length) :
    ∃ cs, makeEvalClaims ids layers bases = some (.ok cs) ∧ (OracleClaimsHold table cs ↔ ExpOutputHolds items layers) := by
  have hrev : List.Forall₂ (fun it (p : List Nat × Option Nat) => it.Over table p.1 p.2 ∧ p.1 ≠ []) items.reverse
      ((bases.zip ids).map fun p => (p.2, p.1)).reverse := by
    rw [List.forall₂_reverse_iff, List.forall₂_map_right_iff]
    refine List.forall₂_iff_get.mpr ⟨hover.length_eq, fun i h1 h2 => ?_⟩
    refine ⟨(List.forall₂_iff_get.mp hover).2 i h1 h2, hne _ ?_⟩
    have : (bases.zip ids).get ⟨i, h2⟩ ∈ bases.zip ids := List.get_mem _ _
    exact (List.of_mem_zip this).2
  unfold makeEvalClaims
  obtain ⟨cs, e1, e2⟩ := evalClaimLayers_ok items _ layers hrev hsh _ 0 (by rw [hw, Nat.zero_add])
  refine ⟨cs, e1, e2.trans ?_⟩
  unfold ExpOutputHolds
  exact ⟨fun h k layer hk => h k (Nat.zero_le _) layer hk, fun h k _ layer hk => h k layer hk⟩

/-- **C61.** `construct_gkr_exp_claims` refuses an exponentiation without bits, and every claim it makes has as many bits as
there are oracles and the prefix of the point that the last of them can be evaluated at. -/
theorem C61_construct (nVars : List Nat) (exponents : List (List Nat)) (evals : List F) (bases : List (Option F))
    (point : List F) :
    ([] ∈ exponents → constructExpClaims nVars exponents evals bases point = .error .emptyExp) ∧
    ∀ claims, constructExpClaims nVars exponents evals bases point = .ok (some claims) →
      (∀ l ∈ exponents, l ≠ []) ∧
      List.Forall₂ (fun (p : (List Nat × F) × Option F) (c : ExpClaim F) => c.exponentBitWidth = p.1.1.length ∧
        c.eval = p.1.2 ∧ c.staticBase = p.2 ∧ c.evalPoint.length = c.nVars ∧ c.evalPoint <+: point ∧
        ∃ id, p.1.1.getLast? = some id ∧ nVars[id]? = some c.nVars) ((exponents.zip evals).zip bases) claims := by
  unfold constructExpClaims
  refine ⟨fun h => by rw [if_pos (by simpa using h)], fun claims h => ?_⟩
  split at h
  · cases h
  · rename_i hany
    refine ⟨fun l hl e => hany (by rw [e] at hl; simpa using hl), ?_⟩
    injection h with h
    generalize (exponents.zip evals).zip bases = ps at h
    induction ps generalizing claims with
    | nil =>
      rw [List.mapM_nil] at h
      injection h with h
      rw [← h]
      exact .nil
    | cons p ps ih =>
      rw [List.mapM_cons] at h
      simp only [Option.bind_eq_bind, Option.bind_eq_some_iff] at h
      obtain ⟨c, ⟨id, h1, n, h2, h3⟩, cs, h4, h5⟩ := h
      injection h5 with h5
      rw [← h5]
      refine .cons ?_ (ih cs h4)
      split at h3
      · injection h3 with h3
        rw [← h3]
        exact ⟨rfl, rfl, rfl, by simp; omega, List.take_prefix _ _, id, h1, h2⟩
      · cases h3

/-! ### What goes wrong -/

/-- **C61.** A static base of one makes the verifier unsound: whatever the value claimed of the powers of one, a claim with a
single exponent bit is accepted without a message, with the claim that the bit is zero.  (A true claim with a bit that is not
zero leads to a false claim.) -/
theorem C61_base_one (checks : Bool) (order : EvaluationOrder) (point : List F) (e : F) (msg : List F → Nat → List F)
    (chal : Nat → F) :
    (expBatchVerify checks order [⟨point, e, 1, point.length, some 1⟩]).run msg [] 0 chal = .ok [[⟨point, 0⟩]] ∧
    ∀ col : Column F, let it : ExpItem F := ⟨⟨point, e, 1, point.length, some 1⟩, [col], fun _ => 1⟩
      (it.Holds ↔ e = 1) ∧ (ExpOutputHolds [it] [[⟨point, 0⟩]] ↔ mle col.val point = 0) := by
  constructor
  · have hb : batchVerify order ([] : List (Claim F)) = .ret ⟨orderChallenges order [], []⟩ := by
      unfold batchVerify
      rw [if_neg (by rw [show ([] : List (Claim F)).map (fun c => c.nVars) = [] from rfl, List.reverse_nil,
        show Verif.Sorting.isSortedAscending [] = true from by
          rw [Verif.Sorting.C03_is_sorted_ascending]; intro i j _ hj; simp at hj]; simp)]
      show (if (0 : F) ≠ 0 then _ else _) = _
      rw [if_neg (by simp)]
    have hl : buildLayerClaims checks 0 [(⟨point, e, 1, point.length, some 1⟩ : ExpClaim F)] = .ok ([], [point]) := by
      unfold buildLayerClaims
      dsimp only
      rw [groupLoop, if_neg (by simp)]
      rfl
    rw [verify_eq _ _ _ (by simp), if_neg (by rw [sorted_of (by simp)]; simp)]
    show Prog.run msg (expLayers checks order 1 0 _ _) _ _ _ = _
    rw [expLayers, hl]
    show Prog.run msg (Prog.bind (batchVerify order []) _) _ _ _ = _
    rw [hb]
    show Except.ok [[(⟨point, firstLayerInverse e 1⟩ : ExpLayerClaim F)]] = _
    rw [show firstLayerInverse e (1 : F) = 0 by simp [firstLayerInverse]]
  · intro col it
    refine ⟨?_, ?_⟩
    · unfold ExpItem.Holds
      show e = mle (fun v => (1 : F) ^ expNat [col] v) point ↔ _
      simp only [one_pow]
      rw [show mle (fun _ => (1 : F)) point = 1 from by
        have := mle_const (1 : F) point
        exact this]
    · unfold ExpOutputHolds
      constructor
      · intro h
        have := h 0 _ rfl
        have h1 : List.Forall₂ TableTrue [col.val] [(⟨point, 0⟩ : ExpLayerClaim F)] := this
        rw [List.forall₂_cons] at h1
        exact h1.1.symm
      · intro h k layer hk
        match k with
        | 0 =>
          injection hk with hk
          rw [← hk]
          exact .cons h.symm .nil
        | k + 1 => simp at hk

/-- **C61.** Claims without exponent bits are accepted unread: nothing is checked and no claim comes out. -/
theorem C61_no_bits (checks : Bool) (order : EvaluationOrder) (claims : List (ExpClaim F))
    (h : ∀ c ∈ claims, c.exponentBitWidth = 0) (hs : claims.Pairwise fun a b => b.nVars ≤ a.nVars)
    (msg : List F → Nat → List F) (chal : Nat → F) :
    (expBatchVerify checks order claims).run msg [] 0 chal = .ok [] := by
  have hmax : maxWidth claims = 0 := by
    unfold maxWidth
    cases hm : (claims.map fun c => c.exponentBitWidth).max? with
    | none => rfl
    | some m =>
      obtain ⟨c, hc, hw⟩ := List.mem_map.mp (List.max?_eq_some_iff.mp hm).1
      rw [← hw, h c hc]
      rfl
  have hsorted : Verif.Sorting.isSortedAscending (claims.map fun c => c.nVars).reverse = true := sorted_of hs
  unfold expBatchVerify
  split
  · rfl
  · rw [if_neg (by rw [hsorted]; simp), hmax]
    rfl

/-- **C61.** A claim without exponent bits next to one that has some makes the verifier panic. -/
theorem C61_mixed_no_bits (checks : Bool) (order : EvaluationOrder) (c d : ExpClaim F) (hc : c.exponentBitWidth = 0)
    (hd : 0 < d.exponentBitWidth) (hs : d.nVars ≤ c.nVars) (msg : List F → Nat → List F) (chal : Nat → F) :
    (expBatchVerify checks order [c, d]).run msg [] 0 chal = .error (.rejected .panic) := by
  have hsorted : Verif.Sorting.isSortedAscending ([c, d].map fun c => c.nVars).reverse = true :=
    sorted_of (by simpa using hs)
  have hmax : maxWidth [c, d] = d.exponentBitWidth := by
    unfold maxWidth
    rw [List.map_cons, List.map_singleton, hc, List.max?_cons]
    simp
  obtain ⟨w, hw⟩ := Nat.exists_eq_succ_of_ne_zero (Nat.pos_iff_ne_zero.mp hd)
  have hn : ∀ g, groupNMultilinears 0 (c :: g) = none := fun g => by
    rw [groupNMultilinears, layerNMultilinears, isLastLayer, hc]
    rfl
  have hb : ∀ g, buildEvalPointClaims checks 0 (c :: g) = .error .panic := fun g => by
    unfold buildEvalPointClaims
    rw [hn]
  have hbuild : buildLayerClaims checks 0 [c, d] = .error .panic := by
    unfold buildLayerClaims
    dsimp only
    rw [groupLoop, if_neg (by simp)]
    dsimp only
    rw [groupLoop]
    by_cases hp : d.evalPoint = c.evalPoint
    · rw [if_neg (by rw [hp]; simp)]
      dsimp only
      have := hb [d]
      simp only [List.nil_append, List.singleton_append]
      rw [this]
    · rw [if_pos (by simpa using hp)]
      simp only [List.nil_append]
      rw [hb []]
  unfold expBatchVerify
  dsimp only
  rw [if_neg (by rw [hsorted]; simp), hmax, hw, Nat.succ_eq_add_one, expLayers, ofExcept_bind, hbuild]
  rfl

/-! ### The hypotheses can be met -/

/-- An element that is not one. -/
def exElt : Field.T 3 := Field.T.ofBits 3 fun j => decide (j = 1)

/-- Two exponentiations with the columns of `exCols`, one with a static base, one with a dynamic base. -/
def exItems (e e' : Field.T 3) : List (ExpItem (Field.T 3)) :=
  [⟨⟨[exElt, 1], e, 2, 2, some exElt⟩, exCols _, fun _ => exElt⟩,
    ⟨⟨[exElt + 1, 0], e', 2, 2, none⟩, exCols _, value 1 [fun _ => exElt, fun _ => exElt + 1]⟩]

theorem exBits : AreBits 2 (exCols (Field.T 3)) := by
  intro c hc
  simp only [exCols, List.mem_cons, List.not_mem_nil, or_false] at hc
  rcases hc with rfl | rfl
  · refine ⟨rfl, fun v _ => ?_⟩
    by_cases h : v % 2 = 1 <;> simp [h]
  · refine ⟨rfl, fun v _ => ?_⟩
    by_cases h : v / 2 % 2 = 1 <;> simp [h]

theorem exItems_wf (e e' : Field.T 3) : ∀ it ∈ exItems e e', it.WellFormed := by
  intro it hit
  simp only [exItems, List.mem_cons, List.not_mem_nil, or_false] at hit
  rcases hit with rfl | rfl
  · exact ⟨rfl, by simp [exCols], exBits, rfl, fun g hg => by
      injection hg with hg
      subst hg
      exact ⟨fun _ => rfl, by decide +kernel, by simp [exCols]⟩⟩
  · exact ⟨rfl, by simp [exCols], exBits, rfl, fun g hg => by simp at hg⟩

example : ∃ e e' : Field.T 3, (∀ it ∈ exItems e e', it.WellFormed) ∧ (∃ it ∈ exItems e e', ¬ it.Holds) ∧
    ∀ it ∈ exItems e e', it.claim.nVars ≤ 2 := by
  refine ⟨mle (fun v => exElt ^ expNat (exCols (Field.T 3)) v) [exElt, 1] + 1, 0, exItems_wf _ _,
    ⟨_, List.mem_cons_self .., ?_⟩, ?_⟩
  · unfold ExpItem.Holds
    simp
  · intro it hit
    simp only [exItems, List.mem_cons, List.not_mem_nil, or_false] at hit
    rcases hit with rfl | rfl <;> simp

example : ∃ (e e' : Field.T 3) (ws : List (ExpWitness (Field.T 3))) (build : ExpProverBuilder (Field.T 3)),
    ExpBuildsHonest .highToLow build ∧ List.Forall₂ (fun w it => w.Fits it) ws (exItems e e') ∧
    (∀ it ∈ exItems e e', it.WellFormed) ∧ (∀ it ∈ exItems e e', it.Holds) ∧
    (exItems e e').Pairwise fun a b => b.claim.nVars ≤ a.claim.nVars := by
  obtain ⟨build, hb⟩ := C61_builder_exists (F := Field.T 3) .highToLow
  obtain ⟨l1, h1⟩ := (C37_static_refused (F := Field.T 3) Field.T.two_eq_zero 1 8 (exCols _) exElt).2.1.mpr
    ⟨by simp [exCols], by simp [exCols], 2, by simp [exCols]⟩
  obtain ⟨l2, h2⟩ := (C37_dynamic_refused (F := Field.T 3) Field.T.two_eq_zero 1 8 (exCols _) 2
    [fun _ => exElt, fun _ => exElt + 1]).2.mpr ⟨by simp [exCols], by simp [exCols], rfl, by simp [exCols]⟩
  refine ⟨mle (fun v => exElt ^ expNat (exCols (Field.T 3)) v) [exElt, 1],
    mle (fun v => value 1 [fun _ => exElt, fun _ => exElt + 1] v ^ expNat (exCols (Field.T 3)) v) [exElt + 1, 0],
    [⟨exCols _, l1.map fun l => ⟨2, value 1 l⟩, none, exElt⟩, ⟨exCols _, l2.map fun l => ⟨2, value 1 l⟩,
      some ⟨2, value 1 [fun _ => exElt, fun _ => exElt + 1]⟩, 0⟩], build, hb, .cons ?_ (.cons ?_ .nil), exItems_wf _ _, ?_,
      by simp [exItems]⟩
  · exact C61_static_witness Field.T.two_eq_zero 1 8 _ (exItems_wf _ 0 _ (List.mem_cons_self ..)) exElt rfl l1 h1
  · exact C61_dynamic_witness Field.T.two_eq_zero 1 8 ⟨⟨[exElt + 1, 0], _, 2, 2, none⟩, exCols _,
      value 1 [fun _ => exElt, fun _ => exElt + 1]⟩ rfl [fun _ => exElt, fun _ => exElt + 1] (fun _ _ => rfl) l2 0 h2
  · intro it hit
    simp only [exItems, List.mem_cons, List.not_mem_nil, or_false] at hit
    rcases hit with rfl | rfl <;> rfl

/-- The oracles of the bits and the base of `exItems`. -/
def exTable : Nat → Nat → Field.T 3
  | 0 => fun v => if v % 2 = 1 then 1 else 0
  | 1 => fun v => if v / 2 % 2 = 1 then 1 else 0
  | _ => value 1 [fun _ => exElt, fun _ => exElt + 1]

example (e e' : Field.T 3) : List.Forall₂ (fun it p => ExpItem.Over exTable it p.2 p.1) (exItems e e')
    ([none, some 2].zip [[0, 1], [0, 1]]) :=
  .cons ⟨rfl, fun _ => by simp, fun b h => by cases h⟩
    (.cons ⟨rfl, (fun h => by cases h), fun b h => by injection h with h; subst h; exact ⟨rfl, rfl⟩⟩ .nil)

example (x : ExpLayerClaim (Field.T 3)) : ∃ cs, makeEvalClaims [[0, 1], [0, 1]] [[x, x, x], [x, x, x]] [none, some 2]
    = some (.ok cs) := ⟨_, rfl⟩

example : ∃ claims, constructExpClaims [2, 2] [[0, 1], [1]] [exElt, 1] [none, some exElt] [exElt, 1, 0]
    = .ok (some claims) := ⟨_, rfl⟩

end Verif.Gkr
