import Verif.Balance.LemmasMake

/-! Lemmas on the comparison of the products, and on the grand products as products over the tuples sent. -/

set_option linter.dupNamespace false
set_option linter.unusedSectionVars false

namespace Verif.Balance

open Verif.Channel (Flush Boundary Direction OracleOrConst Event oracleIds)
open Verif.Oracle (OracleSet TowerOps IsTables IsTable Adds WellFormed Lawful)
open Verif.Evalcheck (Sound Extends)
open Verif.Mle
open Finset

variable {F : Type} [Field F] [DecidableEq F]

theorem mixValues_eq (s : F) : ∀ (v : List F) (a : F) (k : Nat),
    mixValues s (a, s ^ k) v = a + ((v.zipIdx k).map fun p => p.1 * s ^ p.2).sum
  | [], a, k => by simp [mixValues]
  | x :: v, a, k => by
    rw [mixValues, ← pow_succ, mixValues_eq s v, List.zipIdx_cons, List.map_cons, List.sum_cons]
    ring

/-- The product of the boundaries of a channel in a direction. -/
def bdProd (s r : F) (d : Direction) (c : Nat) (bs : List (Boundary F)) : F :=
  ((bs.filter fun b => b.direction = d ∧ b.channelId = c).map fun b => fingerprint s r b.values ^ b.multiplicity).prod

/-- The product of the claimed flush products of a channel in a direction. -/
def flProd (d : Direction) (c : Nat) (l : List (Flush F × F)) : F :=
  ((l.filter fun p => p.1.direction = d ∧ p.1.channelId = c).map fun p => p.2 ^ p.1.multiplicity).prod

theorem bdProd_cons (s r : F) (d : Direction) (c : Nat) (b : Boundary F) (bs : List (Boundary F)) :
    bdProd s r d c (b :: bs) =
      (if b.direction = d ∧ b.channelId = c then fingerprint s r b.values ^ b.multiplicity else 1) * bdProd s r d c bs := by
  unfold bdProd
  by_cases h : b.direction = d ∧ b.channelId = c
  · rw [List.filter_cons_of_pos (by simpa using h), if_pos h, List.map_cons, List.prod_cons]
  · rw [List.filter_cons_of_neg (by simpa using h), if_neg h, one_mul]

theorem flProd_cons (d : Direction) (c : Nat) (f : Flush F) (x : F) (l : List (Flush F × F)) :
    flProd d c ((f, x) :: l) =
      (if f.direction = d ∧ f.channelId = c then x ^ f.multiplicity else 1) * flProd d c l := by
  unfold flProd
  by_cases h : f.direction = d ∧ f.channelId = c
  · rw [List.filter_cons_of_pos (by simpa using h), if_pos h, List.map_cons, List.prod_cons]
  · rw [List.filter_cons_of_neg (by simpa using h), if_neg h, one_mul]

theorem flProd_one (d : Direction) (c : Nat) : ∀ l : List (Flush F × F), (∀ p ∈ l, p.1.channelId ≠ c) → flProd d c l = 1
  | [], _ => rfl
  | (f, x) :: l, h => by
    rw [flProd_cons, if_neg fun hc => h _ (List.mem_cons_self ..) hc.2, one_mul,
      flProd_one d c l fun p hp => h p (List.mem_cons_of_mem _ hp)]

theorem boundaryProducts_eq (s : F) (rs : List F) (c : Nat) (r : F) (hr : rs[c]? = some r) :
    ∀ (bs : List (Boundary F)) (p : F × F),
    boundaryProducts s rs c bs p = some (p.1 * bdProd s r .pull c bs, p.2 * bdProd s r .push c bs)
  | [], p => by simp [boundaryProducts, bdProd]
  | b :: bs, p => by
    unfold boundaryProducts
    rw [bdProd_cons, bdProd_cons]
    by_cases h : b.channelId = c
    · rw [if_pos h, hr, Option.bind_some, boundaryProducts_eq s rs c r hr bs]
      have e : mixValues s (r, 1) b.values = fingerprint s r b.values := by
        have := mixValues_eq s b.values r 0
        rwa [pow_zero] at this
      rw [e]
      cases hd : b.direction <;> simp [multiply, h, mul_assoc]
    · rw [if_neg h, boundaryProducts_eq s rs c r hr bs, if_neg fun hc => h hc.2, if_neg fun hc => h hc.2, one_mul,
        one_mul]

/-- The two products of the channel are equal. -/
def Equal (boundaries : List (Boundary F)) (s : F) (rs : List F) (l : List (Flush F × F)) (c : Nat) : Prop :=
  ∀ r, rs[c]? = some r →
    bdProd s r .pull c boundaries * flProd .pull c l = bdProd s r .push c boundaries * flProd .push c l

theorem multiply_fl (p : F × F) (f : Flush F) (x : F) (l : List (Flush F × F)) (c : Nat) (h : f.channelId = c) :
    (multiply p (x ^ f.multiplicity) f.direction).1 * flProd .pull c l = p.1 * flProd .pull c ((f, x) :: l) ∧
    (multiply p (x ^ f.multiplicity) f.direction).2 * flProd .push c l = p.2 * flProd .push c ((f, x) :: l) := by
  rw [flProd_cons, flProd_cons]
  cases hd : f.direction <;> simp [multiply, h, mul_assoc]

theorem balanceLoop_iff (boundaries : List (Boundary F)) (s : F) (rs : List F) :
    ∀ (l : List (Flush F × F)) (c : Nat) (p : F × F), (∀ q ∈ l, c ≤ q.1.channelId) →
    l.Pairwise (fun a b => a.1.channelId ≤ b.1.channelId) → (∀ q ∈ l, q.1.channelId < rs.length) →
    (balanceLoop boundaries s rs c p l = some (.ok ()) ↔
      p.1 * flProd .pull c l = p.2 * flProd .push c l ∧
      ∀ q ∈ l, q.1.channelId ≠ c → Equal boundaries s rs l q.1.channelId)
  | [], c, p, _, _, _ => by
    unfold balanceLoop
    rw [show flProd .pull c ([] : List (Flush F × F)) = 1 from rfl,
      show flProd .push c ([] : List (Flush F × F)) = 1 from rfl, mul_one, mul_one]
    by_cases h : p.1 = p.2
    · simp [h]
    · simp [h]
  | (f, x) :: l, c, p, hc, hs, hr => by
    rw [List.pairwise_cons] at hs
    have hl : ∀ q ∈ l, f.channelId ≤ q.1.channelId := fun q hq => hs.1 q hq
    have hrl : ∀ q ∈ l, q.1.channelId < rs.length := fun q hq => hr q (List.mem_cons_of_mem _ hq)
    have hother : ∀ c' d, f.channelId ≠ c' → flProd d c' ((f, x) :: l) = flProd d c' l := fun c' d h => by
      rw [flProd_cons, if_neg fun hc => h hc.2, one_mul]
    unfold balanceLoop
    by_cases h : f.channelId = c
    · rw [if_pos h, balanceLoop_iff boundaries s rs l c _ (fun q hq => h ▸ hl q hq) hs.2 hrl]
      obtain ⟨m1, m2⟩ := multiply_fl p f x l c h
      rw [m1, m2]
      refine and_congr_right fun _ => ⟨fun hh q hq hne => ?_, fun hh q hq hne => ?_⟩
      · rcases List.mem_cons.1 hq with rfl | hq
        · exact absurd h hne
        · intro r hr'
          rw [hother _ _ (h ▸ Ne.symm hne), hother _ _ (h ▸ Ne.symm hne)]
          exact hh q hq hne r hr'
      · intro r hr'
        have := hh q (List.mem_cons_of_mem _ hq) hne r hr'
        rwa [hother _ _ (h ▸ Ne.symm hne), hother _ _ (h ▸ Ne.symm hne)] at this
    · have hgt : c < f.channelId := by
        have := hc _ (List.mem_cons_self ..)
        simp only at this
        omega
      have hno : ∀ d, flProd d c ((f, x) :: l) = 1 := fun d => flProd_one d c _ fun q hq => by
        rcases List.mem_cons.1 hq with rfl | hq
        · exact h
        · have := hl q hq; omega
      rw [if_neg h, hno, hno, mul_one, mul_one]
      by_cases hp : p.1 = p.2
      · rw [if_neg (not_not.2 hp)]
        have hf := hr _ (List.mem_cons_self ..)
        simp only at hf
        have hr0 : rs[f.channelId]? = some rs[f.channelId] := List.getElem?_eq_getElem hf
        rw [boundaryProducts_eq s rs _ _ hr0, Option.bind_some,
          balanceLoop_iff boundaries s rs l f.channelId _ hl hs.2 hrl]
        obtain ⟨m1, m2⟩ := multiply_fl (1 * bdProd s rs[f.channelId] .pull f.channelId boundaries,
          1 * bdProd s rs[f.channelId] .push f.channelId boundaries) f x l f.channelId rfl
        rw [m1, m2]
        simp only [one_mul]
        refine ⟨fun ⟨g1, g2⟩ => ⟨hp, fun q hq hne r hr' => ?_⟩, fun ⟨_, g⟩ => ⟨?_, fun q hq hne r hr' => ?_⟩⟩
        · by_cases e : q.1.channelId = f.channelId
          · rw [e] at hr' ⊢
            rw [hr0] at hr'
            cases hr'
            exact g1
          · rcases List.mem_cons.1 hq with rfl | hq
            · exact absurd rfl e
            · rw [hother _ _ (Ne.symm e), hother _ _ (Ne.symm e)]
              exact g2 q hq e r hr'
        · exact g _ (List.mem_cons_self ..) h _ hr0
        · have := g q (List.mem_cons_of_mem _ hq) (by have := hl q hq; omega) r hr'
          rwa [hother _ _ (Ne.symm hne), hother _ _ (Ne.symm hne)] at this
      · rw [if_pos hp]
        simp [hp]

theorem verifyChannelsBalance_iff (boundaries : List (Boundary F)) (s : F) (rs : List F) (fl : List (Flush F))
    (products : List F) (hs : fl.Pairwise fun a b => a.channelId ≤ b.channelId)
    (hr : ∀ f ∈ fl, f.channelId < rs.length) :
    verifyChannelsBalance fl products boundaries s rs = some (.ok ()) ↔
      products.length = fl.length ∧ ∀ f ∈ fl, Equal boundaries s rs (fl.zip products) f.channelId := by
  unfold verifyChannelsBalance
  by_cases hl : products.length = fl.length
  · rw [if_neg (not_not.2 hl)]
    have hz : (fl.zip products).map (·.1) = fl := List.map_fst_zip (by omega)
    have hmem : ∀ q ∈ fl.zip products, q.1 ∈ fl := fun q hq => (List.of_mem_zip (a := q.1) (b := q.2) hq).1
    have hs' : (fl.zip products).Pairwise fun a b => a.1.channelId ≤ b.1.channelId := by
      rw [← hz, List.pairwise_map] at hs; exact hs
    have hch : ∀ P : Nat → Prop, (∀ f ∈ fl, P f.channelId) ↔ ∀ q ∈ fl.zip products, P q.1.channelId := fun P => by
      conv_lhs => rw [← hz]
      simp only [List.mem_map]
      exact ⟨fun h q hq => h _ ⟨q, hq, rfl⟩, fun h f ⟨q, hq, e⟩ => e ▸ h q hq⟩
    rw [hch]
    generalize fl.zip products = l at *
    cases l with
    | nil => simp [hl]
    | cons p l =>
      obtain ⟨f, x⟩ := p
      have hf : f.channelId < rs.length := hr _ (hmem _ (List.mem_cons_self ..))
      have hr0 : rs[f.channelId]? = some rs[f.channelId] := List.getElem?_eq_getElem hf
      simp only
      rw [List.pairwise_cons] at hs'
      rw [boundaryProducts_eq s rs _ _ hr0, Option.bind_some, balanceLoop_iff boundaries s rs l f.channelId _
        (fun q hq => hs'.1 q hq) hs'.2 (fun q hq => hr _ (hmem _ (List.mem_cons_of_mem _ hq)))]
      obtain ⟨m1, m2⟩ := multiply_fl (1 * bdProd s rs[f.channelId] .pull f.channelId boundaries,
        1 * bdProd s rs[f.channelId] .push f.channelId boundaries) f x l f.channelId rfl
      rw [m1, m2]
      simp only [one_mul]
      have hother : ∀ c' d, f.channelId ≠ c' → flProd d c' ((f, x) :: l) = flProd d c' l := fun c' d h => by
        rw [flProd_cons, if_neg fun hc => h hc.2, one_mul]
      refine ⟨fun ⟨g1, g2⟩ => ⟨hl, fun q hq r hr' => ?_⟩, fun ⟨_, g⟩ => ⟨?_, fun q hq hne r hr' => ?_⟩⟩
      · by_cases e : q.1.channelId = f.channelId
        · rw [e] at hr' ⊢
          rw [hr0] at hr'
          cases hr'
          exact g1
        · rcases List.mem_cons.1 hq with rfl | hq
          · exact absurd rfl e
          · rw [hother _ _ (Ne.symm e), hother _ _ (Ne.symm e)]
            exact g2 q hq e r hr'
      · exact g _ (List.mem_cons_self ..) _ hr0
      · have := g q (List.mem_cons_of_mem _ hq) r hr'
        rwa [hother _ _ (Ne.symm hne), hother _ _ (Ne.symm hne)] at this
  · rw [if_pos hl]
    simp [hl]

/-! The grand product of a flush oracle. -/

theorem prod_bits : ∀ l : List F, (∀ x ∈ l, x = 0 ∨ x = 1) → l.prod = if l.all (fun x => decide (x ≠ 0)) then 1 else 0
  | [], _ => by simp
  | x :: l, h => by
    rw [List.prod_cons, prod_bits l fun y hy => h y (List.mem_cons_of_mem _ hy), List.all_cons]
    rcases h x (List.mem_cons_self ..) with rfl | rfl <;> simp

/-- The tuples of a flush and their fingerprints. -/
def tupleProd (os : OracleSet F) (tab : Nat → Nat → F) (n : Nat) (s r : F) (f : Flush F) : F :=
  ((Channel.flushEvents (witnessOf os tab) n f).map fun e => fingerprint s r e.tuple).prod

theorem prod_range_list (g : Nat → F) (sel : Nat → Bool) (m : Nat) :
    (((List.range m).filter sel).map g).prod = ∏ i ∈ range m, if sel i then g i else 1 := by
  induction m with
  | zero => rfl
  | succ m ih =>
    rw [List.range_succ, List.filter_append, List.map_append, List.prod_append, ih, Finset.prod_range_succ]
    congr 1
    by_cases h : sel m = true
    · simp [h]
    · simp [h]

theorem prod_pad (g : Nat → F) (m k : Nat) (h : m ≤ k) (hg : ∀ i, m ≤ i → i < k → g i = 1) :
    ∏ i ∈ range k, g i = ∏ i ∈ range m, g i := by
  symm
  refine Finset.prod_subset (fun i hi => ?_) fun i hi hn => ?_
  · rw [Finset.mem_range] at hi ⊢; omega
  · rw [Finset.mem_range] at hi hn
    exact hg i (by omega) hi

theorem grandProduct_eq (β : Nat → Nat → F) (h2 : (2 : F) = 0) {os os₁ os₂ : OracleSet F} {tab tab' : Nat → Nat → F}
    {specs : List SizeSpec} {tableSizes : List Nat} (hsz : checkTableSizes tableSizes specs = .ok ())
    (hpow : ∀ f : Flush F, f.tableId < tableSizes.length → specs[f.tableId]? ≠ some .arbitrary →
      2 ^ Nat.clog 2 (rows tableSizes f) = rows tableSizes f)
    (e1 : Extends os₁ os₂) (ht : IsTables β os₂ tab')
    (hag : ∀ id o, os.get id = some o → ∀ i < 2 ^ o.nVars, tab' id i = tab id i) {f f' : Flush F} {id : Nat} {s : F}
    {rs : List F} {nf : Flush F → Nat} (hnf : nf f' = Nat.clog 2 (rows tableSizes f) + f.logValuesPerRow)
    (hid : f.tableId < tableSizes.length)
    (hget : ∀ id, .oracle id ∈ f.oracles ∨ id ∈ f.selectors →
      ∃ o, os.get id = some o ∧ o.nVars = Nat.clog 2 (rows tableSizes f) + f.logValuesPerRow)
    (hbit : ∀ id ∈ f.selectors, ∀ o, os.get id = some o → ∀ i < 2 ^ o.nVars, tab id i = 0 ∨ tab id i = 1)
    (ha : Augmented specs tableSizes os₁ f f') (hm : Made β s rs nf os₂ f' id) :
    ∃ r, rs[f.channelId]? = some r ∧ grandProduct os₂ tab' id = tupleProd os tab (rows tableSizes f) s r f := by
  obtain ⟨r, o, hr, hg, hn, hv⟩ := hm
  have hch : f'.channelId = f.channelId := by
    rcases ha with ⟨_, rfl⟩ | ⟨_, rfl, _⟩ <;> rfl
  have hor : f'.oracles = f.oracles := by
    rcases ha with ⟨_, rfl⟩ | ⟨_, rfl, _⟩ <;> rfl
  refine ⟨r, by rw [← hch]; exact hr, ?_⟩
  have hval := hv os₂ tab' _ (ht id o hg)
  unfold grandProduct
  rw [hg]
  simp only [Option.map_some, Option.getD_some]
  rw [hn, Finset.prod_congr rfl fun i hi => hval i (Finset.mem_range.1 hi)]
  rw [hnf]
  set n := Nat.clog 2 (rows tableSizes f) + f.logValuesPerRow with hnd
  set m := rows tableSizes f * 2 ^ f.logValuesPerRow with hmd
  have hle : m ≤ 2 ^ n := by
    rw [hnd, hmd, pow_add]
    exact Nat.mul_le_mul_right _ (Nat.le_pow_clog (by omega) _)
  -- the values of the selectors and of the oracles
  have hsel : ∀ i < 2 ^ n, (f.selectors.map fun id => tab' id i).prod =
      if Channel.Selected (witnessOf os tab) f i then 1 else 0 := by
    intro i hi
    rw [prod_bits]
    · congr 1
      unfold Channel.Selected
      rw [List.all_map]
      rw [eq_iff_iff]
      simp only [List.all_eq_true]
      refine forall₂_congr fun j hj => ?_
      obtain ⟨o', g1, g2⟩ := hget j (Or.inr hj)
      simp only [Function.comp_apply, witnessOf]
      rw [g1, Option.map_some, hag j o' g1 i (by rw [g2]; exact hi)]
    · intro x hx
      obtain ⟨j, hj, rfl⟩ := List.mem_map.1 hx
      obtain ⟨o', g1, g2⟩ := hget j (Or.inr hj)
      rw [hag j o' g1 i (by rw [g2]; exact hi)]
      exact hbit j hj o' g1 i (by rw [g2]; exact hi)
  have hfp : ∀ i < 2 ^ n, f.oracles.map (entryVal tab' i) = f.oracles.map (Channel.entryAt (witnessOf os tab) i) := by
    intro i hi
    refine List.map_congr_left fun x hx => ?_
    cases x with
    | const b => rfl
    | oracle j =>
      obtain ⟨o', g1, g2⟩ := hget j (Or.inl hx)
      simp only [Channel.entryAt, witnessOf, entryVal]
      rw [g1, Option.map_some, hag j o' g1 i (by rw [g2]; exact hi)]
  have htp : tupleProd os tab (rows tableSizes f) s r f = ∏ i ∈ range m,
      if Channel.Selected (witnessOf os tab) f i then
        fingerprint s r (f.oracles.map (Channel.entryAt (witnessOf os tab) i)) else 1 := by
    unfold tupleProd Channel.flushEvents
    rw [List.map_map, ← prod_range_list]
    rfl
  rw [htp]
  have one_two : ∀ x : F, 1 + 1 * (x + 1) = x := fun x => by linear_combination h2
  rcases ha with ⟨hna, rfl⟩ | ⟨id', rfl, hst⟩
  · have hm2 : 2 ^ n = m := by rw [hnd, hmd, pow_add, hpow f' hid hna]
    rw [hm2] at hsel hfp ⊢
    refine Finset.prod_congr rfl fun i hi => ?_
    rw [Finset.mem_range] at hi
    unfold flushValue
    rw [hsel i hi, hfp i hi]
    split
    · exact one_two _
    · rw [zero_mul, add_zero]
  · have hstep : ∀ i < 2 ^ n, tab' id' i = if i < m then 1 else 0 := by
      intro i hi
      have h1 := Evalcheck.transparent_table ht (e1.get hst) i hi
      obtain ⟨_, s2, _⟩ := (Transparent.C30_step_down (F := F) 0 n m).1 hle
      rw [s2.2.1 _ (vertex_length _ _), mle_vertex _ _ _ hi] at h1
      injection h1 with h1
      exact h1.symm
    rw [prod_pad _ m (2 ^ n) hle]
    · refine Finset.prod_congr rfl fun i hi => ?_
      rw [Finset.mem_range] at hi
      have hi' : i < 2 ^ n := lt_of_lt_of_le hi hle
      unfold flushValue
      simp only [List.map_append, List.map_cons, List.map_nil, List.prod_append, List.prod_cons, List.prod_nil, mul_one]
      rw [hsel i hi', hfp i hi', hstep i hi', if_pos hi]
      split
      · rw [mul_one]; exact one_two _
      · rw [zero_mul, zero_mul, add_zero]
    · intro i hi hi'
      unfold flushValue
      simp only [List.map_append, List.map_cons, List.map_nil, List.prod_append, List.prod_cons, List.prod_nil, mul_one]
      rw [hstep i hi', if_neg (by omega), mul_zero, zero_mul, add_zero]

end Verif.Balance
