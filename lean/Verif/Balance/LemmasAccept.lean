import Verif.Balance.LemmasBalance
import Verif.Balance.LemmasCount
import Verif.Oracle.PropsOracle

/-! The channel check accepts exactly when the products of the fingerprints agree. -/

set_option linter.dupNamespace false
set_option linter.unusedSectionVars false

namespace Verif.Balance

open Verif.Channel (Flush Boundary Direction OracleOrConst Event)
open Verif.Oracle (OracleSet TowerOps IsTables)
open Verif.Evalcheck (Extends Sound)
open Finset

/-! Table sizes. -/


theorem checkTableSize_iff (t size : Nat) (spec : SizeSpec) :
    checkTableSize t size spec = .ok () ↔ Meets size spec := by
  cases spec with
  | arbitrary => simp [checkTableSize, Meets]
  | powerOfTwo =>
    simp only [checkTableSize, Meets]
    by_cases h : ∃ k < 64, size = 2 ^ k
    · simp only [if_pos h, true_iff]; exact h
    · simp only [if_neg h, reduceCtorEq, false_iff]; exact h
  | fixed k =>
    simp only [checkTableSize, Meets]
    by_cases h : size = 2 ^ k
    · simp [h]
    · simp [h]

theorem checkTableSizesFrom_iff : ∀ (t : Nat) (sizes : List Nat) (specs : List SizeSpec), sizes.length = specs.length →
    (checkTableSizesFrom t sizes specs = .ok () ↔ List.Forall₂ Meets sizes specs)
  | t, [], [], _ => by simp [checkTableSizesFrom]
  | t, size :: sizes, spec :: specs, h => by
    rw [List.forall₂_cons, ← checkTableSize_iff t, ← checkTableSizesFrom_iff (t + 1) sizes specs (by simpa using h)]
    conv_lhs => rw [checkTableSizesFrom]
    cases hc : checkTableSize t size spec with
    | error e => simp
    | ok u => cases u; simp
  | t, [], _ :: _, h => by simp at h
  | t, _ :: _, [], h => by simp at h

theorem checkTableSizes_iff (sizes : List Nat) (specs : List SizeSpec) :
    checkTableSizes sizes specs = .ok () ↔ List.Forall₂ Meets sizes specs := by
  unfold checkTableSizes
  by_cases h : sizes.length = specs.length
  · rw [if_neg (not_not.2 h), checkTableSizesFrom_iff 0 sizes specs h]
  · rw [if_pos h]
    exact ⟨fun hc => (by simp at hc), fun hc => absurd hc.length_eq h⟩

theorem checkTableSizesFrom_error : ∀ (t : Nat) (sizes : List Nat) (specs : List SizeSpec) (e : Error),
    checkTableSizesFrom t sizes specs = .error e →
    ∃ (k size : Nat) (spec : SizeSpec), sizes[k]? = some size ∧ specs[k]? = some spec ∧
      checkTableSize (t + k) size spec = .error e ∧
      ∀ (j size : Nat) (spec : SizeSpec), j < k → sizes[j]? = some size → specs[j]? = some spec → Meets size spec
  | t, size :: sizes, spec :: specs, e, h => by
    rw [checkTableSizesFrom] at h
    cases hc : checkTableSize t size spec with
    | error e' =>
      rw [hc] at h
      injection h with h
      exact ⟨0, size, spec, rfl, rfl, h ▸ hc, fun j _ _ hj => absurd hj (by omega)⟩
    | ok u =>
      cases u
      rw [hc] at h
      obtain ⟨k, size', spec', h1, h2, h3, h4⟩ := checkTableSizesFrom_error (t + 1) sizes specs e h
      refine ⟨k + 1, size', spec', h1, h2, ?_, fun j sz sp hj a b => ?_⟩
      · rwa [show t + (k + 1) = t + 1 + k by omega]
      · cases j with
        | zero =>
          cases a; cases b
          exact (checkTableSize_iff t _ _).1 hc
        | succ j => exact h4 j sz sp (by omega) a b
  | _, [], _, _, h => by simp [checkTableSizesFrom] at h
  | _, _ :: _, [], _, h => by simp [checkTableSizesFrom] at h

variable {F : Type} [Field F] [DecidableEq F]

theorem card_tuples (es : List (Event F)) (d : Direction) (c : Nat) :
    Multiset.card (tuples es d c) = volume es d c := by
  unfold tuples volume
  induction (es.filter fun e => decide (e.direction = d ∧ e.channel = c)) with
  | nil => rfl
  | cons e l ih => rw [List.map_cons, List.map_cons, List.sum_cons, List.sum_cons, Multiset.card_add, ih,
      Multiset.card_replicate]

theorem rows_pow {sizes : List Nat} {specs : List SizeSpec} (h : checkTableSizes sizes specs = .ok ()) (f : Flush F)
    (hf : f.tableId < sizes.length) (hs : specs[f.tableId]? ≠ some .arbitrary) :
    2 ^ Nat.clog 2 (rows sizes f) = rows sizes f := by
  rw [checkTableSizes_iff] at h
  have hl := h.length_eq
  have hm := h.get hf (hl ▸ hf)
  rw [List.getElem?_eq_getElem (hl ▸ hf)] at hs
  have e : rows sizes f = sizes[f.tableId] := by
    unfold rows; rw [List.getD_eq_getElem?_getD, List.getElem?_eq_getElem hf]; rfl
  rw [e]
  simp only [List.get_eq_getElem] at hm
  revert hm hs
  generalize specs[f.tableId]'(hl ▸ hf) = spec
  intro hs hm
  cases spec with
  | arbitrary => exact absurd rfl hs
  | powerOfTwo => obtain ⟨k, _, hk⟩ := hm; rw [hk, Nat.clog_pow 2 k (by norm_num)]
  | fixed k => rw [show sizes[f.tableId] = 2 ^ k from hm, Nat.clog_pow 2 k (by norm_num)]

/-! Tables of a larger set. -/

theorem tables_restrict {β : Nat → Nat → F} {os os' : OracleSet F} {tab : Nat → Nat → F} (h : IsTables β os' tab)
    (he : Extends os os') : IsTables β os tab := by
  intro id o ho
  have := h id o (he.get ho)
  revert this
  unfold Oracle.IsTable
  cases o.variant with
  | packed j k => exact fun h inner hi => h inner (he.get hi)
  | committed => exact fun h => h
  | transparent => exact fun h => h
  | structured => exact fun h => h
  | repeating => exact fun h => h
  | projected => exact fun h => h
  | shifted => exact fun h => h
  | linearCombination => exact fun h => h
  | zeroPadded => exact fun h => h
  | composite => exact fun h => h

theorem tables_extend {β : Nat → Nat → F} {os os' : OracleSet F} {tab : Nat → Nat → F} (h : IsTables β os tab)
    (hs : Sound os) (hs' : Sound os') (he : Extends os os') :
    ∃ tab', IsTables β os' tab' ∧ ∀ id o, os.get id = some o → ∀ i < 2 ^ o.nVars, tab' id i = tab id i := by
  obtain ⟨tab', h1, h2⟩ := (Oracle.C35_tables β os' hs'.1 hs'.2 tab).1
  refine ⟨tab', h1, (Oracle.C35_tables β os hs.1 hs.2 tab).2 tab' tab (tables_restrict h1 he) h fun id o ho hc i _ => ?_⟩
  rw [h2 id o (he.get ho) hc]

/-! The product of all fingerprints is that of the boundaries and that of the flushes. -/

theorem fingerprintProduct_append (es es' : List (Event F)) (d : Direction) (c : Nat) (s r : F) :
    fingerprintProduct (es ++ es') d c s r = fingerprintProduct es d c s r * fingerprintProduct es' d c s r := by
  unfold fingerprintProduct
  rw [List.filter_append, List.map_append, List.prod_append]

theorem fingerprintProduct_boundaries (d : Direction) (c : Nat) (s r : F) (bs : List (Boundary F)) :
    fingerprintProduct (bs.map fun b => ⟨b.channelId, b.direction, b.multiplicity, b.values⟩) d c s r =
      bdProd s r d c bs := by
  induction bs with
  | nil => rfl
  | cons b bs ih => rw [List.map_cons, fingerprintProduct_cons, bdProd_cons, ih]

theorem fingerprintProduct_flush (os : OracleSet F) (tab : Nat → Nat → F) (n : Nat) (d : Direction) (c : Nat) (s r : F)
    (f : Flush F) : fingerprintProduct (Channel.flushEvents (witnessOf os tab) n f) d c s r =
      if f.direction = d ∧ f.channelId = c then tupleProd os tab n s r f ^ f.multiplicity else 1 := by
  unfold tupleProd Channel.flushEvents
  generalize ((List.range (n * 2 ^ f.logValuesPerRow)).filter (Channel.Selected (witnessOf os tab) f)) = l
  induction l with
  | nil => simp [fingerprintProduct]
  | cons i l ih =>
    rw [List.map_cons, fingerprintProduct_cons, ih]
    by_cases h : f.direction = d ∧ f.channelId = c
    · simp only [if_pos h, List.map_cons, List.prod_cons, mul_pow]
    · simp only [if_neg h, one_mul]

/-- The factor of a flush. -/
def factor (os : OracleSet F) (tab : Nat → Nat → F) (tableSizes : List Nat) (d : Direction) (c : Nat) (s r : F)
    (f : Flush F) : F :=
  if f.direction = d ∧ f.channelId = c then tupleProd os tab (rows tableSizes f) s r f ^ f.multiplicity else 1

theorem fingerprintProduct_events (os : OracleSet F) (tab : Nat → Nat → F) (tableSizes : List Nat) (d : Direction)
    (c : Nat) (s r : F) (flushes : List (Flush F)) (bs : List (Boundary F)) :
    fingerprintProduct (Channel.events (witnessOf os tab) flushes bs tableSizes) d c s r =
      bdProd s r d c bs * (flushes.map (factor os tab tableSizes d c s r)).prod := by
  unfold Channel.events
  rw [fingerprintProduct_append, fingerprintProduct_boundaries]
  congr 1
  induction flushes with
  | nil => rfl
  | cons f fs ih =>
    rw [List.flatMap_cons, fingerprintProduct_append, ih, List.map_cons, List.prod_cons, fingerprintProduct_flush]
    rfl

theorem prod_filter (g : Flush F → F) (p : Flush F → Bool) : ∀ l : List (Flush F), (∀ f ∈ l, p f = false → g f = 1) →
    ((l.filter p).map g).prod = (l.map g).prod
  | [], _ => rfl
  | f :: l, h => by
    have ih := prod_filter g p l fun f hf => h f (List.mem_cons_of_mem _ hf)
    by_cases hp : p f = true
    · rw [List.filter_cons_of_pos hp, List.map_cons, List.map_cons, List.prod_cons, List.prod_cons, ih]
    · rw [List.filter_cons_of_neg hp, List.map_cons, List.prod_cons, ih,
        h f (List.mem_cons_self ..) (by simpa using hp), one_mul]

/-- The flushes on empty tables contribute nothing. -/
theorem prod_prepared (os : OracleSet F) (tab : Nat → Nat → F) (tableSizes : List Nat) (d : Direction) (c : Nat)
    (s r : F) {flushes fl : List (Flush F)} (h : fl.Perm (flushes.filter fun f => decide (rows tableSizes f ≠ 0))) :
    (fl.map (factor os tab tableSizes d c s r)).prod = (flushes.map (factor os tab tableSizes d c s r)).prod := by
  rw [(h.map _).prod_eq]
  refine prod_filter _ _ _ fun f _ hf => ?_
  have h0 : rows tableSizes f = 0 := by simpa using hf
  unfold factor
  split
  · unfold tupleProd Channel.flushEvents
    rw [h0]
    simp
  · rfl

theorem flProd_eq (os : OracleSet F) (tab : Nat → Nat → F) (tableSizes : List Nat) (d : Direction) (c : Nat) (s r : F)
    (gp : Nat → F) : ∀ {fl fl₁ : List (Flush F)} {ids : List Nat},
    List.Forall₂ (fun f f' : Flush F => f'.direction = f.direction ∧ f'.channelId = f.channelId ∧
      f'.multiplicity = f.multiplicity) fl fl₁ →
    List.Forall₂ (fun f id => f.channelId = c → gp id = tupleProd os tab (rows tableSizes f) s r f) fl ids →
    flProd d c (fl₁.zip (ids.map gp)) = (fl.map (factor os tab tableSizes d c s r)).prod
  | [], [], [], _, _ => rfl
  | f :: fl, f₁ :: fl₁, id :: ids, h, h' => by
    rw [List.forall₂_cons] at h h'
    rw [List.map_cons, List.zip_cons_cons, flProd_cons, List.map_cons, List.prod_cons,
      flProd_eq os tab tableSizes d c s r gp h.2 h'.2]
    congr 1
    unfold factor
    rw [h.1.1, h.1.2.1, h.1.2.2]
    split
    · rename_i hc; rw [h'.1 hc.2]
    · rfl
  | [], _ :: _, _, h, _ => by simp at h
  | _ :: _, [], _, h, _ => by simp at h
  | [], [], _ :: _, _, h => by simp at h
  | _ :: _, _ :: _, [], _, h => by simp at h

theorem accepts_iff (β : Nat → Nat → F) (h2 : (2 : F) = 0) (ops : TowerOps F) {os : OracleSet F}
    {tab : Nat → Nat → F} {flushes : List (Flush F)} {boundaries : List (Boundary F)} {specs : List SizeSpec}
    {tableSizes : List Nat} (hs : Sound os) (ht : IsTables β os tab) (hsh : Shaped os tab flushes specs tableSizes)
    (s : F) (rs : List F) :
    Accepts β ops os tab flushes boundaries specs tableSizes s rs ↔
      ∀ f ∈ flushes, rows tableSizes f ≠ 0 → ∃ r, rs[f.channelId]? = some r ∧
        fingerprintProduct (Channel.events (witnessOf os tab) flushes boundaries tableSizes) .push f.channelId s r =
        fingerprintProduct (Channel.events (witnessOf os tab) flushes boundaries tableSizes) .pull f.channelId s r := by
  obtain ⟨fl, a1, a2, a3⟩ := prepare_ok (tableSizes := tableSizes) (fs := flushes) hsh.table
  have hmem : ∀ f, f ∈ fl ↔ f ∈ flushes ∧ rows tableSizes f ≠ 0 := fun f => by
    rw [a2.mem_iff, List.mem_filter]; simp
  have hlen : tableSizes.length = specs.length := ((checkTableSizes_iff _ _).1 hsh.sizes).length_eq
  obtain ⟨os₁, fl₁, b1, b2, b3, b4⟩ := augment_ok ops (specs := specs) (tableSizes := tableSizes) (fs := fl) hs
    fun f hf => ⟨hsh.table f ((hmem f).1 hf).1, hlen ▸ hsh.table f ((hmem f).1 hf).1⟩
  have haug : ∀ {f f'}, Augmented specs tableSizes os₁ f f' → f'.direction = f.direction ∧ f'.channelId = f.channelId ∧
      f'.multiplicity = f.multiplicity := fun {f f'} h => by
    rcases h with ⟨_, rfl⟩ | ⟨_, rfl, _⟩ <;> exact ⟨rfl, rfl, rfl⟩
  set nf : Flush F → Nat := fun f => Nat.clog 2 (rows tableSizes f) + f.logValuesPerRow with hnf
  have hnf' : ∀ {f f'}, Augmented specs tableSizes os₁ f f' → nf f' = nf f := fun {f f'} h => by
    rcases h with ⟨_, rfl⟩ | ⟨_, rfl, _⟩ <;> rfl
  have hmem₁ : ∀ f' ∈ fl₁, ∃ f ∈ fl, Augmented specs tableSizes os₁ f f' := fun f' hf' => by
    obtain ⟨n, hn, rfl⟩ := List.mem_iff_getElem.1 hf'
    exact ⟨_, List.getElem_mem (b4.length_eq ▸ hn), b4.get (b4.length_eq ▸ hn) hn⟩
  have hgood : ∀ f' ∈ fl₁, Good os₁ f' (nf f') := fun f' hf' => by
    obtain ⟨f, hf, ha⟩ := hmem₁ f' hf'
    obtain ⟨hf1, hf2⟩ := (hmem f).1 hf
    rw [hnf' ha]
    have hg : Good os₁ f (nf f) := Good.mono ⟨hsh.oracles f hf1 hf2, hsh.some_oracle f hf1 hf2,
      fun id hid o ho => (hsh.selectors f hf1 hf2 id hid o ho).1⟩ b3
    rcases ha with ⟨_, rfl⟩ | ⟨id, rfl, hid⟩
    · exact hg
    · refine ⟨fun j hj => ?_, hg.some_oracle, fun j hj o ho => ?_⟩
      · rcases hj with hj | hj
        · exact hg.get j (Or.inl hj)
        · rcases List.mem_append.1 hj with hj | hj
          · exact hg.get j (Or.inr hj)
          · rw [List.mem_singleton.1 hj]
            exact ⟨_, hid, rfl⟩
      · rcases List.mem_append.1 hj with hj | hj
        · exact hg.level j hj o ho
        · rw [List.mem_singleton.1 hj, hid] at ho
          injection ho with ho
          rw [← ho]; rfl
  have hsort₁ : fl₁.Pairwise (fun a b => a.channelId ≤ b.channelId) := by
    have e : fl₁.map (·.channelId) = fl.map (·.channelId) := by
      refine List.ext_getElem (by simp [b4.length_eq]) fun n h1 h2 => ?_
      rw [List.getElem_map, List.getElem_map]
      exact (haug (b4.get (by simpa using h2) (by simpa using h1))).2.1
    have := (List.pairwise_map (f := fun f : Flush F => f.channelId) (R := (· ≤ ·)) (l := fl)).2 a3
    rw [← e, List.pairwise_map] at this
    exact this
  obtain ⟨ids, os₂, c1, c2, c3, c4⟩ := makeFrom_ok β h2 ops s rs nf rs 0 fl₁ os₁ [1]
    ⟨by simp, fun j hj => by
      rw [List.length_singleton] at hj
      obtain rfl : j = 0 := by omega
      simp⟩ b2 rfl hgood (fun _ _ => Nat.zero_le _) hsort₁
  rw [Nat.zero_add] at c4
  have e02 := b3.trans c3
  -- when all channels have a challenge, the products agree
  have key : (∀ f' ∈ fl₁, f'.channelId < rs.length) → ∀ tab', IsTables β os₂ tab' →
      (∀ id o, os.get id = some o → ∀ i < 2 ^ o.nVars, tab' id i = tab id i) →
      (verifyChannelsBalance fl₁ (ids.map (grandProduct os₂ tab')) boundaries s rs = some (.ok ()) ↔
        ∀ f ∈ fl, ∃ r, rs[f.channelId]? = some r ∧
        fingerprintProduct (Channel.events (witnessOf os tab) flushes boundaries tableSizes) .push f.channelId s r =
        fingerprintProduct (Channel.events (witnessOf os tab) flushes boundaries tableSizes) .pull f.channelId s r) := by
    intro hr tab' ht' hag
    have htk : fl₁.takeWhile (fun f => decide (f.channelId < rs.length)) = fl₁ :=
      List.takeWhile_eq_self_iff.2 fun f hf => by simpa using hr f hf
    rw [htk] at c4
    have hgp : List.Forall₂ (fun f id => ∃ r, rs[f.channelId]? = some r ∧
        grandProduct os₂ tab' id = tupleProd os tab (rows tableSizes f) s r f) fl ids := by
      rw [List.forall₂_iff_get]
      refine ⟨b4.length_eq.trans c4.length_eq, fun n h1 h2' => ?_⟩
      have hn : n < fl₁.length := b4.length_eq ▸ h1
      obtain ⟨hf1, hf2⟩ := (hmem (fl.get ⟨n, h1⟩)).1 (List.get_mem ..)
      have ha := b4.get h1 hn
      exact grandProduct_eq β h2 hsh.sizes (fun f hf => rows_pow hsh.sizes f hf) c3 ht' hag (hnf' ha)
        (hsh.table _ hf1) (hsh.oracles _ hf1 hf2) (fun id hid o ho => (hsh.selectors _ hf1 hf2 id hid o ho).2) ha
        (c4.get hn h2')
    rw [verifyChannelsBalance_iff boundaries s rs fl₁ _ hsort₁ hr]
    have hch : ∀ P : Nat → Prop, (∀ f ∈ fl₁, P f.channelId) ↔ ∀ f ∈ fl, P f.channelId := fun P => by
      constructor
      · intro h f hf
        obtain ⟨n, hn, rfl⟩ := List.mem_iff_getElem.1 hf
        have := (haug (b4.get hn (b4.length_eq ▸ hn))).2.1
        simp only [List.get_eq_getElem] at this
        rw [← this]
        exact h _ (List.getElem_mem _)
      · intro h f' hf'
        obtain ⟨f, hf, ha⟩ := hmem₁ f' hf'
        rw [(haug ha).2.1]
        exact h f hf
    rw [hch]
    have hlen' : (ids.map (grandProduct os₂ tab')).length = fl₁.length := by rw [List.length_map, c4.length_eq]
    rw [and_iff_right hlen']
    refine forall₂_congr fun f hf => ?_
    have hrf : f.channelId < rs.length := (hch (· < rs.length)).1 hr f hf
    rw [Equal, List.getElem?_eq_getElem hrf]
    have hfl : ∀ d, flProd d f.channelId (fl₁.zip (ids.map (grandProduct os₂ tab'))) =
        (fl.map (factor os tab tableSizes d f.channelId s rs[f.channelId])).prod := fun d => by
      refine flProd_eq os tab tableSizes d f.channelId s _ _ (b4.imp fun _ _ h => haug h)
        (hgp.imp fun g id h hc => ?_)
      obtain ⟨r, h1, h2⟩ := h
      rw [hc, List.getElem?_eq_getElem hrf] at h1
      injection h1 with h1
      rw [h1]; exact h2
    constructor
    · intro h
      refine ⟨_, rfl, ?_⟩
      rw [fingerprintProduct_events, fingerprintProduct_events, ← prod_prepared os tab tableSizes _ _ s _ a2,
        ← prod_prepared os tab tableSizes _ _ s _ a2, ← hfl, ← hfl]
      exact (h _ rfl).symm
    · rintro ⟨r, h1, h⟩ r' h1'
      injection h1 with h1
      injection h1' with h1'
      subst h1
      rw [fingerprintProduct_events, fingerprintProduct_events, ← prod_prepared os tab tableSizes _ _ s _ a2,
        ← prod_prepared os tab tableSizes _ _ s _ a2, ← hfl, ← hfl] at h
      rw [← h1']
      exact h.symm
  have hall : (∀ f ∈ flushes, rows tableSizes f ≠ 0 → ∃ r, rs[f.channelId]? = some r ∧
      fingerprintProduct (Channel.events (witnessOf os tab) flushes boundaries tableSizes) .push f.channelId s r =
      fingerprintProduct (Channel.events (witnessOf os tab) flushes boundaries tableSizes) .pull f.channelId s r) ↔
      ∀ f ∈ fl, ∃ r, rs[f.channelId]? = some r ∧
      fingerprintProduct (Channel.events (witnessOf os tab) flushes boundaries tableSizes) .push f.channelId s r =
      fingerprintProduct (Channel.events (witnessOf os tab) flushes boundaries tableSizes) .pull f.channelId s r := by
    refine forall_congr' fun f => ?_
    rw [hmem]
    exact ⟨fun h hf => h hf.1 hf.2, fun h h1 h2 => h ⟨h1, h2⟩⟩
  rw [hall]
  constructor
  · rintro ⟨fl', os₁', fl₁', os₂', ids', tab', d1, d2, d3, d4, d5, d6⟩
    rw [a1] at d1
    injection d1 with d1
    subst d1
    rw [b1] at d2
    injection d2 with d2
    injection d2 with d2
    injection d2 with d2 d2'
    subst d2 d2'
    rw [makeFlushOracles, c1] at d3
    injection d3 with d3
    injection d3 with d3
    injection d3 with d3 d3'
    subst d3 d3'
    have hlt : ∀ f' ∈ fl₁, f'.channelId < rs.length := by
      have hl : (ids.map (grandProduct os₂ tab')).length = fl₁.length := by
        by_contra hc
        unfold verifyChannelsBalance at d6
        rw [if_pos hc] at d6
        simp at d6
      rw [List.length_map, ← c4.length_eq] at hl
      have htk : fl₁.takeWhile (fun f => decide (f.channelId < rs.length)) = fl₁ :=
        (List.takeWhile_prefix _).eq_of_length hl
      intro f' hf'
      simpa using List.takeWhile_eq_self_iff.1 htk f' hf'
    exact (key hlt tab' d4 d5).1 d6
  · intro h
    have hlt : ∀ f' ∈ fl₁, f'.channelId < rs.length := fun f' hf' => by
      obtain ⟨f, hf, ha⟩ := hmem₁ f' hf'
      obtain ⟨r, hr, _⟩ := h f hf
      rw [(haug ha).2.1]
      exact (List.getElem?_eq_some_iff.1 hr).1
    obtain ⟨tab', t1, t2⟩ := tables_extend ht hs c2 e02
    exact ⟨fl, os₁, fl₁, os₂, ids, tab', a1, b1, c1, t1, t2, (key hlt tab' t1 t2).2 h⟩

end Verif.Balance
