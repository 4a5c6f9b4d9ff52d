import Verif.RingSwitch.LemmasFits

/-! Property C60: ring switching.  Evaluation claims about committed polynomials over subfields become sumcheck claims about
the packed polynomials. -/

set_option linter.dupNamespace false
set_option linter.unusedSectionVars false

namespace Verif.RingSwitch

open Finset Verif.Mle Verif.Protocol
open Verif.Oracle (OracleSet Oracle)
open Verif.Piop (SparseIndex CommitMeta PiopClaim isCommitted makeOracleCommitMeta makeSumcheckClaimDescs)
open Verif.Evalcheck (Claim)
open Verif.Field (T)

variable {F : Type} [Field F] [DecidableEq F]

theorem sysOk_of_new {os : OracleSet F} {m : CommitMeta} {index : SparseIndex Nat} {claims : List (Claim F)}
    {sys : System F} (h : newSystem os m index claims = .ok sys) : ∃ items, SysOk os index sys items ∧
      (items.map Item.claim).Perm claims ∧ sys.commitMeta = m ∧
      items.Pairwise fun a b => ∀ i j, sortKey os a.claim = some i → sortKey os b.claim = some j → i ≤ j := by
  obtain ⟨items, h1, h2, h3, h4, h5, h6, h7⟩ := newSystem_ok os m index claims sys h
  exact ⟨items, ⟨h1, h2, h5, h6⟩, h4, h3, h7⟩

theorem log2Ceil_eq (n : Nat) : log2Ceil n = Nat.clog 2 n := by
  refine le_antisymm ((Piop.size_spec n _).2 (Nat.le_pow_clog (by decide) n)) ?_
  exact Nat.clog_le_of_le_pow ((Piop.size_spec n _).1 le_rfl)

theorem maxKappa_le {os : OracleSet F} {index : SparseIndex Nat} {sys : System F} {items : List (Item F)}
    (hs : SysOk os index sys items) : sys.maxKappa ≤ 7 := by
  have hall : ∀ x ∈ sys.prefixes.map List.length, x ≤ 7 := by
    intro x hx
    obtain ⟨p, hp, rfl⟩ := List.mem_map.1 hx
    obtain ⟨it, hit, rfl⟩ := hs.pre p hp
    obtain ⟨o, -, -, -, hk⟩ := (hs.item it hit).1
    rw [Item.pre_length, hk]
    omega
  have : ∀ (l : List Nat) (a : Nat), a ≤ 7 → (∀ x ∈ l, x ≤ 7) → l.foldl max a ≤ 7 := by
    intro l
    induction l with
    | nil => intro a ha _; exact ha
    | cons b l ih =>
      intro a ha h
      exact ih (max a b) (max_le ha (h b List.mem_cons_self)) fun x hx => h x (List.mem_cons_of_mem _ hx)
  exact this _ 0 (by decide) hall

theorem claims_length {os : OracleSet F} {index : SparseIndex Nat} {claims : List (Claim F)} {sys : System F}
    {items : List (Item F)} (hs : SysOk os index sys items) (hp : (items.map Item.claim).Perm claims) :
    sys.claims.length = claims.length := by
  rw [hs.length, ← hp.length_eq, List.length_map]

/-- **C60.** The system of claims is built exactly when every claim is about a committed oracle, of tower level at most 7,
that has an index among the committed polynomials; the system holds each of the claims once. -/
theorem C60_system (os : OracleSet F) (m : CommitMeta) (index : SparseIndex Nat) (claims : List (Claim F)) :
    ((∃ sys, newSystem os m index claims = .ok sys) ↔
      ∀ c ∈ claims, ∃ o k, os.get c.id = some o ∧ o.variant = .committed ∧ o.towerLevel ≤ 7 ∧ index c.id = some k) ∧
    ∀ sys, newSystem os m index claims = .ok sys → (sys.claims.map ClaimDesc.claim).Perm claims ∧
      ∀ d ∈ sys.claims, index d.claim.id = some d.committedIdx := by
  refine ⟨⟨fun ⟨sys, h⟩ c hc => ?_, fun h => newSystem_exists os m index claims fun c hc => ?_⟩, fun sys h => ?_⟩
  · obtain ⟨items, hs, hp, -, -⟩ := sysOk_of_new h
    obtain ⟨it, hit, rfl⟩ := List.mem_map.1 (hp.mem_iff.2 hc)
    obtain ⟨⟨o, h1, h2, h3, -⟩, -, h4⟩ := hs.item it hit
    exact ⟨o, it.committed, h1, (Piop.isCommitted_iff _).1 h2, h3, h4⟩
  · obtain ⟨o, k, h1, h2, h3, h4⟩ := h c hc
    exact ⟨o, k, h1, (Piop.isCommitted_iff _).2 h2, h3, h4⟩
  · obtain ⟨items, hs, hp, -, -⟩ := sysOk_of_new h
    refine ⟨?_, fun d hd => ?_⟩
    · rw [hs.claims, List.map_map]
      exact hp
    · rw [hs.claims] at hd
      obtain ⟨it, hit, rfl⟩ := List.mem_map.1 hd
      exact (hs.item it hit).2.2

/-- **C60.** Soundness.  If one of the evaluation claims is false, then for all but a fraction `(⌈log₂ n⌉ + 7) / 2^128` of the
challenges, for `n` claims, the verifier rejects or one of the sumcheck claims that it returns is false.  This holds for
every prover. -/
theorem C60_soundness (os : OracleSet (T 7)) (m : CommitMeta) (index : SparseIndex Nat) (claims : List (Claim (T 7)))
    (sys : System (T 7)) (hsys : newSystem os m index claims = .ok sys) (polys : Nat → Nat → T 7) (c : Claim (T 7))
    (hc : c ∈ claims) (hfalse : ¬ ClaimTrue tower128 os index polys c) (msg : List (T 7) → Nat → List (T 7)) :
    accepting (fun red => ∀ s ∈ red.claims, SumTrue tower128 polys red.transparents s) msg (verify tower128 sys) [] 0
        (Nat.clog 2 claims.length + 7) * 2 ^ 128 ≤
      (Nat.clog 2 claims.length + 7) * (2 ^ 128) ^ (Nat.clog 2 claims.length + 7) := by
  obtain ⟨items, hs, hp, -, -⟩ := sysOk_of_new hsys
  obtain ⟨it, hit, rfl⟩ := List.mem_map.1 (hp.mem_iff.2 hc)
  have hle : log2Ceil sys.claims.length + sys.maxKappa ≤ Nat.clog 2 claims.length + 7 := by
    rw [log2Ceil_eq, claims_length hs hp]
    exact Nat.add_le_add_left (maxKappa_le hs) _
  have h := soundErr_count ((verify_sound (fun x => T.add_self x) tower128_lawful hs polys it hit hfalse).mono hle) msg
    (Nat.clog 2 claims.length + 7) (samplesLe_mono (verify_samples tower128 sys) hle) [] 0
  rw [card_T] at h
  exact h

/-- **C60.** Completeness.  If the witnesses have the claimed values, then, for all challenges, the prover succeeds, the
verifier accepts what it wrote, both return the same sumcheck claims, the prover's tables are those of the verifier's
transparent polynomials, and the sumcheck claims are true of the packed witnesses. -/
theorem C60_completeness (os : OracleSet (T 7)) (m : CommitMeta) (index : SparseIndex Nat) (claims : List (Claim (T 7)))
    (sys : System (T 7)) (hsys : newSystem os m index claims = .ok sys) (polys : Nat → Nat → T 7)
    (witnesses : List (Witness (T 7))) (hw : witnesses.length = m.totalMultilins)
    (memo : Nat → List (T 7) → Option (Witness (T 7)))
    (hh : ∀ c ∈ claims, HonestClaim tower128 os index polys witnesses memo c) (mems : List (List (T 7)))
    (hmem : ZeroedMemory sys mems) (chal : Nat → T 7) :
    ∃ a b, ((prove tower128 sys witnesses memo mems).run chal).2 = .ok a ∧
      (verify tower128 sys).run (fun _ i => ((prove tower128 sys witnesses memo mems).run chal).1.getD i []) [] 0 chal =
        .ok b ∧
      a.claims = b.claims ∧ List.Forall₂ (IsTable tower128) a.transparents b.transparents ∧
      ∀ s ∈ b.claims, SumTrue tower128 polys b.transparents s := by
  obtain ⟨items, hs, hp, hm, -⟩ := sysOk_of_new hsys
  have hh' : ∀ x ∈ items, Honest tower128 polys witnesses memo x := by
    intro x hx
    obtain ⟨o, idx, l, W, h1, h2, h3, h4, h5, h6, h7, h8, h9⟩ := hh x.claim (hp.mem_iff.1 (List.mem_map_of_mem hx))
    obtain ⟨⟨o', g1, -, -, g4⟩, -, g5⟩ := hs.item x hx
    rw [h1] at g1
    injection g1 with g1
    subst g1
    rw [h2] at g5
    injection g5 with g5
    subst g5
    exact ⟨l, W, by rw [g4, ← h3]; rfl, h4, h5, h6, h7, h8, fun W' hW' => h9 _ W' hW'⟩
  obtain ⟨a, b, h1, h2, h3⟩ := agree_run (prove_agree (fun x => T.add_self x) tower128_lawful hs polys witnesses memo
    (by rw [hm]; exact hw) hh' mems hmem) [] [] chal
  exact ⟨a, b, h1, h2, h3.claims, h3.tables, h3.sums⟩

theorem suf_length (it : Item F) : it.suf.length = it.claim.point.length - it.kappa := by
  unfold Item.suf splitPoint
  split
  · simp; omega
  · simp

/-- **C60.** Whatever the prover sent, the sumcheck claims that the verifier returns are one for each evaluation claim, about
its committed polynomial, and they fit the commitment: the transparent polynomials are sorted by number of variables and
the reduction of the polynomial commitment (C53) accepts them.  The points are assumed to have the length of the oracle's
number of variables. -/
theorem C60_fits (os : OracleSet F) (m : CommitMeta) (index : SparseIndex Nat)
    (hm : makeOracleCommitMeta 7 os = some (m, index)) (claims : List (Claim F))
    (hlen : ∀ c ∈ claims, ∀ o, os.get c.id = some o → c.point.length = o.nVars) (sys : System F)
    (hsys : newSystem os m index claims = .ok sys) (tw : Tower F) (msg : List F → Nat → List F) (chal : Nat → F)
    (red : Reduced F) (hr : (verify tw sys).run msg [] 0 chal = .ok red) :
    red.claims.map (fun s => some s.committed) = sys.claims.map (fun d => index d.claim.id) ∧
    (red.transparents.map fun p => p.z.length).Pairwise (· ≤ ·) ∧
    (∀ s ∈ red.claims, Piop.Fits m.nMultilinsByVars (red.transparents.map fun p => p.z.length) s) ∧
    ∃ descs, makeSumcheckClaimDescs m (red.transparents.map fun p => p.z.length) red.claims = some (.ok descs) := by
  obtain ⟨items, hs, hp, -, hsort⟩ := sysOk_of_new hsys
  obtain ⟨hl1, hl2, hpos⟩ := (verify_positions tw hs).run msg [] 0 chal red hr
  have hvars : ∀ it ∈ items, Piop.Committed 7 os it.claim.id it.suf.length := by
    intro it hit
    obtain ⟨⟨o, h1, h2, h3, h4⟩, -, -⟩ := hs.item it hit
    refine ⟨o, h1, (Piop.isCommitted_iff _).1 h2, ?_⟩
    rw [suf_length, hlen it.claim (hp.mem_iff.1 (List.mem_map_of_mem hit)) o h1, h4]
    omega
  have hts : (red.transparents.map fun p => p.z.length) = items.map fun it => it.suf.length := by
    refine List.ext_getElem (by simp [hl1]) fun i h1 h2 => ?_
    have hi : i < items.length := by simpa using h2
    obtain ⟨lv, mx, rows, e, g1, -, -, -⟩ := hpos i hi
    obtain ⟨hi', g1⟩ := List.getElem?_eq_some_iff.1 g1
    rw [List.getElem_map, List.getElem_map, g1]
    unfold itemAt
    rw [List.getElem?_eq_getElem hi]
    rfl
  have hpw : (red.transparents.map fun p => p.z.length).Pairwise (· ≤ ·) := by
    rw [hts, List.pairwise_map]
    refine List.Pairwise.imp_of_mem (fun {a b} ha hb hab => ?_) hsort
    obtain ⟨o, h1, h2, h3⟩ := hvars a ha
    obtain ⟨o', h1', h2', h3'⟩ := hvars b hb
    have := hab (o.nVars + o.towerLevel) (o'.nVars + o'.towerLevel)
      (by unfold sortKey; rw [h1, Option.map_some, if_pos ((Piop.isCommitted_iff _).2 h2)])
      (by unfold sortKey; rw [h1', Option.map_some, if_pos ((Piop.isCommitted_iff _).2 h2')])
    rw [h3, h3']
    omega
  have hcl : ∀ s ∈ red.claims, ∃ i < items.length, ∃ e, s = ⟨(itemAt items i).suf.length, (itemAt items i).committed, i, e⟩ := by
    intro s hsm
    obtain ⟨i, hi, rfl⟩ := List.mem_iff_getElem.1 hsm
    obtain ⟨lv, mx, rows, e, -, -, -, g⟩ := hpos i (by omega)
    exact ⟨i, by omega, e, Option.some.inj (by rw [← g, List.getElem?_eq_getElem hi])⟩
  have hfit : ∀ s ∈ red.claims, Piop.Fits m.nMultilinsByVars (red.transparents.map fun p => p.z.length) s ∧
      s.nVars ≤ m.maxNVars := by
    intro s hsm
    obtain ⟨i, hi, e, rfl⟩ := hcl s hsm
    have hit := itemAt_mem items hi
    obtain ⟨h1, h2⟩ := committed_size os m index hm _ _ _ (hvars _ hit) (hs.item _ hit).2.2
    refine ⟨⟨h1, ?_⟩, h2⟩
    show (red.transparents.map fun p => p.z.length)[i]? = _
    rw [hts, List.getElem?_map, List.getElem?_eq_getElem hi]
    unfold itemAt
    rw [List.getElem?_eq_getElem hi]
    rfl
  refine ⟨?_, hpw, fun s hsm => (hfit s hsm).1, ?_⟩
  · rw [hs.claims, List.map_map]
    refine List.ext_getElem (by simp [hl2]) fun i h1 h2 => ?_
    have hi : i < items.length := by simpa using h2
    obtain ⟨lv, mx, rows, e, -, -, -, g⟩ := hpos i hi
    obtain ⟨hi', g⟩ := List.getElem?_eq_some_iff.1 g
    rw [List.getElem_map, List.getElem_map, g]
    have hit := (hs.item _ (itemAt_mem items hi)).2.2
    unfold itemAt at hit ⊢
    rw [List.getElem?_eq_getElem hi] at hit ⊢
    exact hit.symm
  · obtain ⟨descs, hd, -⟩ := Piop.C53_grouped m (red.transparents.map fun p => p.z.length) red.claims hpw (fun t ht => by
      rw [hts] at ht
      obtain ⟨it, hit, rfl⟩ := List.mem_map.1 ht
      exact (committed_size os m index hm _ _ _ (hvars _ hit) (hs.item _ hit).2.2).2)
      (fun c hc => (hfit c hc).2) fun c hc => (hfit c hc).1
    exact ⟨descs, hd⟩

/-- **C60.** The transparent polynomial.  `evaluate` computes, at every point, the multilinear extension of the table whose
value at vertex `u` is the sum of the coordinates of `mix * eq(z, u)` over the subfield, weighted by the row coefficients;
the table that the prover computes in zeroed memory has the same multilinear extension. -/
theorem C60_transparent (level : Level) (z coeffs : List (T 7)) (mix : T 7) (p : EqInd (T 7))
    (hp : EqInd.new level z coeffs mix = .ok p) (mem : List (T 7)) (hlen : mem.length = 2 ^ z.length)
    (hmem : ∀ i ≠ 0, ∀ x, mem[i]? = some x → x = 0) :
    (∀ q, q.length = z.length → p.evaluate tower128 q = .ok (mle (fun u => ∑ v ∈ range (2 ^ level.kappa),
      (tower128 level).coord (mix * eqWeight z u) v * coeffs[v]?.getD 0) q)) ∧
    (∀ q, q.length ≠ z.length → p.evaluate tower128 q = .error .polynomial) ∧
    ∃ vals, p.multilinearExtension tower128 mem = .ok vals ∧ vals.length = 2 ^ z.length ∧
      ∀ q, q.length = z.length → p.evaluate tower128 q = .ok (mle (fun u => vals[u]?.getD 0) q) := by
  unfold EqInd.new at hp
  split at hp
  · cases hp
  rename_i hco
  injection hp with hp
  subst hp
  have hco : 2 ^ level.kappa ≤ coeffs.length := by omega
  have hev := fun q hq => evaluate_eq (fun x : T 7 => T.add_self x) tower128_lawful ⟨level, z, coeffs, mix⟩ hco q hq
  refine ⟨hev, fun q hq => ?_, ?_⟩
  · unfold EqInd.evaluate
    rw [if_pos hq]
  · refine ⟨_, multilinearExtension_eq tower128 ⟨level, z, coeffs, mix⟩ hco mem ?_ hlen, by simp, fun q hq => ?_⟩
    · refine List.ext_getElem (by simp [hlen]) fun i h1 h2 => ?_
      rw [List.getElem_tail, List.getElem_replicate]
      exact hmem (i + 1) (by omega) _ (List.getElem?_eq_getElem _)
    · rw [hev q hq]
      congr 1
      refine mle_congr fun u hu => ?_
      rw [hq] at hu
      rw [List.getElem?_map, List.getElem?_range hu]
      rfl

theorem levelOf_unsupported (k : Nat) (hk : k = 5 ∨ k = 6) (lv : Level) : levelOf k ≠ .ok lv := by
  rcases hk with rfl | rfl <;> intro h <;> cases h

/-- **C60** (finding).  There is no variant of the tensor algebra for the tower levels 1 and 2: with a claim about a committed
polynomial of one of these levels, which `C60_system` accepts, no prover makes the verifier accept. -/
theorem C60_levels (os : OracleSet F) (m : CommitMeta) (index : SparseIndex Nat) (claims : List (Claim F)) (sys : System F)
    (hsys : newSystem os m index claims = .ok sys) (c : Claim F) (hc : c ∈ claims) (o : Oracle F)
    (ho : os.get c.id = some o) (hl : o.towerLevel = 1 ∨ o.towerLevel = 2) (tw : Tower F)
    (msg : List F → Nat → List F) (chal : Nat → F) (red : Reduced F) : (verify tw sys).run msg [] 0 chal ≠ .ok red := by
  intro hr
  obtain ⟨items, hs, hp, -, -⟩ := sysOk_of_new hsys
  obtain ⟨it, hit, rfl⟩ := List.mem_map.1 (hp.mem_iff.2 hc)
  obtain ⟨⟨o', h1, -, -, h4⟩, ⟨-, h5⟩, -⟩ := hs.item it hit
  rw [ho] at h1
  injection h1 with h1
  subst h1
  refine PostL.run (Q := fun _ => False) (PostL.of ?_) msg [] 0 chal red hr
  have hN : items.length ≤ 2 ^ log2Ceil sys.claims.length := by rw [hs.length]; exact le_log2Ceil _
  unfold verify
  refine Post.bind (sampleVec_post _) fun r hr => ?_
  rw [expandQuery_eq, hr]
  show Post _ ((receiveTensorElems sys _).bind _)
  refine Post.bind (Q := fun _ => False) ?_ fun _ h => h.elim
  unfold receiveTensorElems
  rw [hs.mixedEvaluations_eq _ hN]
  show Post _ (receiveLoop _)
  obtain ⟨hj, h5⟩ := List.getElem?_eq_some_iff.1 h5
  refine receiveLoop_unsupported _ ⟨(it.pre, _), List.mem_iff_getElem.2 ⟨it.prefixIdx, by simpa using hj, by
    rw [List.getElem_zip, h5]⟩, fun lv => levelOf_unsupported _ ?_ lv⟩
  rw [Item.pre_length, h4]
  omega

/-- **C60** (finding).  The prover's table is not right in memory that does not hold zeros, on the CPU layer: the allocated
memory is not cleared, and `tensor_expand` adds to it. -/
theorem C60_stale_memory : ∃ (p : EqInd (T 7)) (mem : List (T 7)), EqInd.new .b128 [0] [1] 1 = .ok p ∧ mem.length = 2 ∧
    ∃ vals v, p.multilinearExtension tower128 mem = .ok vals ∧ vals[1]? = some v ∧ p.evaluate tower128 [1] ≠ .ok v := by
  refine ⟨⟨.b128, [0], [1], 1⟩, [0, 1], rfl, rfl, [1, 1], 1, ?_, rfl, ?_⟩ <;> decide +kernel

/-- **C60** (finding).  `TowerTensorAlgebra::kappa` is wrong for every variant. -/
theorem C60_reported_kappa (l : Level) : l.reportedKappa ≠ l.kappa := by cases l <;> decide

/-! ## The hypotheses are met -/

/-- Two committed oracles: one of two variables over the 64-bit field and one of one variable over the 128-bit field. -/
def exOs : OracleSet (T 7) := ⟨[some ⟨2, 6, .committed⟩, some ⟨1, 7, .committed⟩], 2⟩

/-- A claim about each. -/
def exClaims (x y : T 7) : List (Claim (T 7)) := [⟨0, [x, y], x⟩, ⟨1, [y], y⟩]

theorem ex_system (m : CommitMeta) (x y : T 7) : ∃ sys, newSystem exOs m some (exClaims x y) = .ok sys := by
  refine (C60_system exOs m some (exClaims x y)).1.2 fun c hc => ?_
  rcases List.mem_cons.1 hc with rfl | hc
  · exact ⟨_, _, rfl, rfl, by decide, rfl⟩
  · rcases List.mem_cons.1 hc with rfl | hc
    · exact ⟨_, _, rfl, rfl, by decide, rfl⟩
    · cases hc

/-- `C60_system`, the negative side: a claim about an oracle that does not exist. -/
example (m : CommitMeta) (x : T 7) : ¬ ∃ sys, newSystem exOs m some [⟨2, [x], x⟩] = .ok sys := by
  rw [(C60_system exOs m some _).1]
  intro h
  obtain ⟨o, k, h1, -⟩ := h _ List.mem_cons_self
  cases h1

/-- `C60_fits`: the commitment of the two oracles exists and numbers both of them. -/
example : ∃ m index, makeOracleCommitMeta 7 exOs = some (m, index) ∧ m.totalMultilins = 2 ∧
    index 0 = some 0 ∧ index 1 = some 1 := ⟨_, _, rfl, rfl, rfl, rfl⟩

/-- `C60_soundness`: for the zero polynomials the claim with value 1 is false. -/
example (m : CommitMeta) : ∃ sys, newSystem exOs m some (exClaims 1 0) = .ok sys ∧
    ¬ ClaimTrue tower128 exOs some (fun _ _ => 0) ⟨0, [1, 0], 1⟩ := by
  obtain ⟨sys, h⟩ := ex_system m 1 0
  refine ⟨sys, h, ?_⟩
  rintro ⟨o, idx, l, -, -, -, he⟩
  have hz : unpacked (tower128 l) l.kappa (fun _ => 0) = fun _ => 0 := by
    funext i
    have := (tower128_lawful l).coord_add 0 0 (i % 2 ^ l.kappa)
    rw [add_zero] at this
    exact left_eq_add.1 this
  have he : mle (unpacked (tower128 l) l.kappa (fun _ => 0)) [1, 0] = (1 : T 7) := he
  rw [hz, mle_zero] at he
  exact zero_ne_one he

theorem exists_zeroed (sys : System F) : ∃ mems, ZeroedMemory sys mems := by
  refine ⟨sys.claims.map fun d => match sys.suffixes[d.suffixIdx]? with
    | none => []
    | some s => List.replicate (2 ^ s.suffix.length) 0, ?_⟩
  unfold ZeroedMemory
  rw [List.forall₂_map_right_iff, List.forall₂_same]
  intro d _ s hs
  rw [hs]
  exact ⟨by simp, by simp⟩

/-- The witness of the first variable. -/
def exWitness (n : Nat) : Witness (T 7) := ⟨n, fun i => if i % 2 = 1 then 1 else 0⟩

theorem inSubfield_bit (l : Level) (b : Prop) [Decidable b] : InSubfield (tower128 l) (if b then 1 else 0) := by
  have hb := (tower128_lawful l).coord_basis 0 (Nat.two_pow_pos _) 0 (Nat.two_pow_pos _)
  rw [if_pos rfl] at hb
  by_cases h : b
  · rw [if_pos h]; exact ⟨_, _, hb.symm⟩
  · rw [if_neg h]
    have := (tower128_lawful l).coord_add 0 0 0
    rw [add_zero] at this
    exact ⟨0, 0, (left_eq_add.1 this).symm⟩

theorem exWitness_mle (n : Nat) (x : T 7) (r : List (T 7)) : mle (exWitness n).value (x :: r) = x := by
  rw [mle_cons]
  have : (fun j => (1 - x) * (exWitness n).value (2 * j) + x * (exWitness n).value (2 * j + 1)) = fun _ => x := by
    funext j
    unfold exWitness
    dsimp only
    rw [if_neg (by omega), if_pos (by omega), mul_zero, mul_one, zero_add]
  rw [this, mle_const]

/-- `C60_completeness`: the two claims, at every point, with the witnesses of the first variable. -/
example (x y : T 7) : ∃ m sys polys mems, newSystem exOs m some (exClaims x y) = .ok sys ∧
    [exWitness 2, exWitness 1].length = m.totalMultilins ∧
    (∀ c ∈ exClaims x y, HonestClaim tower128 exOs some polys [exWitness 2, exWitness 1] (fun _ _ => none) c) ∧
    ZeroedMemory sys mems := by
  obtain ⟨sys, h⟩ := ex_system ⟨[], [], 0, 2⟩ x y
  obtain ⟨mems, hm⟩ := exists_zeroed sys
  refine ⟨⟨[], [], 0, 2⟩, sys, fun i => if i = 0 then packedCommitted (tower128 .b64) 1 (exWitness 2)
    else packedCommitted (tower128 .b128) 0 (exWitness 1), mems, h, rfl, fun c hc => ?_, hm⟩
  rcases List.mem_cons.1 hc with rfl | hc
  · exact ⟨_, _, .b64, exWitness 2, rfl, rfl, rfl, rfl, rfl, fun i _ => inSubfield_bit _ _, exWitness_mle _ _ _, rfl,
      fun _ _ h => by cases h⟩
  · rcases List.mem_cons.1 hc with rfl | hc
    · exact ⟨_, _, .b128, exWitness 1, rfl, rfl, rfl, rfl, rfl, fun i _ => inSubfield_bit _ _, exWitness_mle _ _ _, rfl,
        fun _ _ h => by cases h⟩
    · cases hc

/-- `C60_transparent`: row coefficients for the 64-bit field and zeroed memory. -/
example (x : T 7) : ∃ p : EqInd (T 7), EqInd.new .b64 [x] [1, x] 1 = .ok p ∧ ([0, 0] : List (T 7)).length = 2 ^ [x].length :=
  ⟨_, rfl, rfl⟩

/-- `C60_levels`: an oracle of tower level 1. -/
example (m : CommitMeta) (x : T 7) :
    ∃ sys, newSystem (⟨[some ⟨6, 1, .committed⟩], 1⟩ : OracleSet (T 7)) m some [⟨0, [x, x, x, x, x, x], 0⟩] = .ok sys := by
  refine (C60_system _ m some _).1.2 fun c hc => ?_
  rcases List.mem_cons.1 hc with rfl | hc
  · exact ⟨_, _, rfl, rfl, by decide, rfl⟩
  · cases hc

end Verif.RingSwitch
