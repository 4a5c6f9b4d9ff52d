import Verif.Piop.LemmasCommit

/-! Property C38: the commitment index. -/

set_option linter.dupNamespace false
set_option linter.unusedSectionVars false

namespace Verif.Piop

open Verif.Oracle (OracleSet Oracle Variant)

variable {F : Type}

theorem mem_order {level : Nat} {os : OracleSet F} {len id : Nat} :
    id ∈ order level os len ↔ ∃ n < len, Committed level os id n := by
  unfold order
  simp only [List.mem_flatMap, List.mem_range, mem_bucket, Committed, oracleIter_mem, isCommitted_iff, nPackedVars]
  constructor
  · rintro ⟨n, hn, o, h1, h2, h3⟩
    exact ⟨n, hn, o, h1, h2, h3.symm⟩
  · rintro ⟨n, hn, o, h1, h2, h3⟩
    exact ⟨n, hn, o, h1, h2, h3.symm⟩

theorem committed_unique {level : Nat} {os : OracleSet F} {id n m : Nat} (h : Committed level os id n)
    (h' : Committed level os id m) : n = m := by
  obtain ⟨o, h1, _, h3⟩ := h
  obtain ⟨o', h1', _, h3'⟩ := h'
  rw [h1] at h1'
  injection h1' with e
  rw [h3, h3', e]

theorem order_sorted (level : Nat) (os : OracleSet F) (len : Nat) :
    (order level os len).Pairwise fun a b => ∀ n m, Committed level os a n → Committed level os b m →
      n < m ∨ n = m ∧ a < b := by
  unfold order
  rw [List.pairwise_flatMap]
  have hmem : ∀ n id, id ∈ bucket level (oracleIter os) n → Committed level os id n := fun n id h => by
    rw [mem_bucket] at h
    obtain ⟨o, h1, h2, h3⟩ := h
    exact ⟨o, oracleIter_mem.mp h1, (isCommitted_iff o).mp h2, h3.symm⟩
  constructor
  · intro k _
    refine (bucket_sorted level os k).imp_of_mem ?_
    intro a b ha hb hab n m hn hm
    rw [committed_unique hn (hmem k a ha), committed_unique hm (hmem k b hb)]
    exact Or.inr ⟨rfl, hab⟩
  · refine List.Pairwise.imp_of_mem ?_ (List.pairwise_lt_range)
    intro k l _ _ hkl a ha b hb n m hn hm
    rw [committed_unique hn (hmem k a ha), committed_unique hm (hmem l b hb)]
    exact Or.inl hkl

theorem order_nodup (level : Nat) (os : OracleSet F) (len : Nat) : (order level os len).Nodup := by
  refine List.Pairwise.imp_of_mem ?_ (order_sorted level os len)
  intro a b ha hb h e
  obtain ⟨n, _, hn⟩ := mem_order.mp ha
  obtain ⟨m, _, hm⟩ := mem_order.mp hb
  have := committed_unique hn (e ▸ hm)
  rcases h n m hn hm with h | h
  · omega
  · omega

theorem make_ok (level : Nat) (os : OracleSet F) :
    ∃ counts index, makeOracleCommitMeta level os = some (CommitMeta.new counts, index) ∧
      counts = (List.range counts.length).map (fun k => (bucket level (oracleIter os) k).length) ∧
      (∀ n, n < counts.length ↔ ∃ m ≥ n, bucket level (oracleIter os) m ≠ []) ∧
      ∀ id k, index id = some k ↔ (order level os counts.length)[k]? = some id := by
  have inv := firstPass level (oracleIter os) ((oracleIter_sorted os).imp fun h => Nat.ne_of_lt h)
  set st := (oracleIter os).foldl (firstStep level) (fun _ => none, []) with hst
  have hr : ∀ id n i, st.1 id = some (n, i) → ∃ r, (CommitMeta.new st.2).rangeByVars n = some r := fun id n i h => by
    have h1 := inv.index id n i h
    have h2 := inv.cover n fun e => by rw [e] at h1; simp at h1
    rw [rangeByVars_new, dif_pos h2]
    exact ⟨_, rfl⟩
  obtain ⟨index, h1, h2⟩ := secondPass_ok (CommitMeta.new st.2) st.1 hr (oracleIter os) fun _ => none
  have hcounts := counts_eq inv
  have hget : ∀ id n i, st.1 id = some (n, i) →
      index id = some ((st.2.take n).sum + i) ∧ (order level os st.2.length)[(st.2.take n).sum + i]? = some id := by
    intro id n i h
    have h3 := inv.index id n i h
    have h4 := inv.cover n fun e => by rw [e] at h3; simp at h3
    have hmem : id ∈ (oracleIter os).map Prod.fst := by
      have := List.mem_of_getElem? h3
      obtain ⟨o, ho, _⟩ := mem_bucket.mp this
      exact List.mem_map.mpr ⟨_, ho, rfl⟩
    refine ⟨?_, ?_⟩
    · rw [h2 id, if_pos hmem, h]
      simp only
      rw [rangeByVars_new, dif_pos h4]
      rfl
    · have h5 := flatMap_get st.2.length n i id h4 h3
      rw [← hcounts] at h5
      exact h5
  refine ⟨st.2, index, ?_, hcounts, fun n => ⟨fun h => ?_, fun ⟨m, hm, h⟩ => ?_⟩, fun id k => ⟨fun h => ?_, fun h => ?_⟩⟩
  · unfold makeOracleCommitMeta
    simp only
    rw [← hst, h1]
    rfl
  · obtain ⟨m, h3, _, h4⟩ := inv.len n h
    exact ⟨m, h3, h4⟩
  · have := inv.cover m h
    omega
  · rw [h2 id] at h
    split at h
    · cases hf : st.1 id with
      | none => rw [hf] at h; simp at h
      | some x =>
        obtain ⟨n, i⟩ := x
        obtain ⟨h3, h4⟩ := hget id n i hf
        have h3' := h3
        rw [h2 id, if_pos (by assumption)] at h3'
        rw [h] at h3'
        injection h3' with e
        rw [e]
        exact h4
    · simp at h
  · have hm := List.mem_of_getElem? h
    unfold order at hm
    obtain ⟨n, _, hb⟩ := List.mem_flatMap.mp hm
    obtain ⟨i, hi⟩ := inv.total n id hb
    obtain ⟨h3, h4⟩ := hget id n i hi
    rw [h3]
    congr 1
    have hk := List.getElem?_eq_some_iff.mp h
    have hk' := List.getElem?_eq_some_iff.mp h4
    exact (List.Nodup.getElem_inj_iff (order_nodup level os _)).mp (hk'.2.trans hk.2.symm)

/-- **C38.** The committed oracles are indexed one-to-one by `0..total_multilins`: there is a list of them, each once,
sorted by the number of packed variables and then by identifier, such that the index of an oracle is its position in the
list.  Nothing panics. -/
theorem C38_bijection (level : Nat) (os : OracleSet F) :
    ∃ cm index, makeOracleCommitMeta level os = some (cm, index) ∧
    ∃ order : List Nat, order.Nodup ∧ (∀ id, id ∈ order ↔ ∃ n, Committed level os id n) ∧
      order.Pairwise (fun a b => ∀ n m, Committed level os a n → Committed level os b m → n < m ∨ n = m ∧ a < b) ∧
      (∀ id k, index id = some k ↔ order[k]? = some id) ∧
      cm.totalMultilins = order.length := by
  obtain ⟨counts, index, h1, h2, h3, h4⟩ := make_ok level os
  refine ⟨_, _, h1, order level os counts.length, order_nodup _ _ _, fun id => ?_, order_sorted _ _ _, h4, ?_⟩
  · rw [mem_order]
    constructor
    · rintro ⟨n, _, h⟩
      exact ⟨n, h⟩
    · rintro ⟨n, h⟩
      refine ⟨n, (h3 n).mpr ⟨n, le_rfl, ?_⟩, h⟩
      obtain ⟨o, a, b, c⟩ := h
      have : id ∈ bucket level (oracleIter os) n :=
        mem_bucket.mpr ⟨o, oracleIter_mem.mpr a, (isCommitted_iff o).mpr b, c.symm⟩
      exact List.ne_nil_of_mem this
  · unfold CommitMeta.new
    simp only
    rw [(metaFold_ok counts 0 [] 0 0).2.1, Nat.zero_add]
    unfold order
    rw [List.length_flatMap, ← h2]

/-- **C38.** The ranges by number of variables: the oracles with `n` packed variables are those whose index lies in the range
of `n`; there is a range for every `n` up to the largest number of packed variables. -/
theorem C38_ranges (level : Nat) (os : OracleSet F) (cm : CommitMeta) (index : SparseIndex Nat)
    (h : makeOracleCommitMeta level os = some (cm, index)) (n : Nat) :
    ((cm.rangeByVars n).isSome ↔ ∃ id m, n ≤ m ∧ Committed level os id m) ∧
    ∀ r, cm.rangeByVars n = some r →
      (∀ id, Committed level os id n ↔ ∃ k, index id = some k ∧ r.1 ≤ k ∧ k < r.2) ∧ cm.nMultilinsByVars[n]? = some (r.2 - r.1) := by
  obtain ⟨counts, index', h1, h2, h3, h4⟩ := make_ok level os
  rw [h1] at h
  injection h with h
  injection h with hm hi
  subst hm hi
  have hmem : ∀ n id, id ∈ bucket level (oracleIter os) n ↔ Committed level os id n := fun n id => by
    rw [mem_bucket]
    unfold Committed
    simp only [oracleIter_mem, isCommitted_iff, nPackedVars]
    exact ⟨fun ⟨o, a, b, c⟩ => ⟨o, a, b, c.symm⟩, fun ⟨o, a, b, c⟩ => ⟨o, a, b, c.symm⟩⟩
  rw [rangeByVars_new]
  constructor
  · by_cases hn : n < counts.length
    · rw [dif_pos hn]
      simp only [Option.isSome_some, true_iff]
      obtain ⟨m, hge, hne⟩ := (h3 n).mp hn
      obtain ⟨id, hid⟩ := List.exists_mem_of_ne_nil _ hne
      exact ⟨id, m, hge, (hmem m id).mp hid⟩
    · rw [dif_neg hn]
      simp only [Option.isSome_none, Bool.false_eq_true, false_iff]
      rintro ⟨id, m, hge, hc⟩
      exact hn ((h3 n).mpr ⟨m, hge, List.ne_nil_of_mem ((hmem m id).mpr hc)⟩)
  · intro r hr
    by_cases hn : n < counts.length
    · rw [dif_pos hn] at hr
      injection hr with hr
      have hb : counts[n] = (bucket level (oracleIter os) n).length := by
        have h5 : counts[n]? = some (bucket level (oracleIter os) n).length := by
          rw [h2]
          simp [hn]
        rw [List.getElem?_eq_getElem hn] at h5
        injection h5
      rw [← hr]
      refine ⟨fun id => ⟨fun hc => ?_, fun ⟨k, hk, hl, hu⟩ => ?_⟩, ?_⟩
      · obtain ⟨i, hi, e⟩ := List.getElem_of_mem ((hmem n id).mpr hc)
        have h6 := flatMap_get counts.length n i id hn (by rw [List.getElem?_eq_getElem hi, e])
        rw [← h2] at h6
        refine ⟨_, (h4 id _).mpr h6, Nat.le_add_right _ _, ?_⟩
        simp only
        omega
      · simp only at hl hu
        have h6 := (h4 id k).mp hk
        have hi : k - (counts.take n).sum < (bucket level (oracleIter os) n).length := by omega
        have h7 := flatMap_get counts.length n (k - (counts.take n).sum) _ hn (List.getElem?_eq_getElem hi)
        rw [← h2, Nat.add_sub_cancel' hl] at h7
        have h8 : some id = some _ := h6.symm.trans h7
        injection h8 with h8
        rw [← hmem, h8]
        exact List.getElem_mem hi
      · simp only [Nat.add_sub_cancel_left]
        exact List.getElem?_eq_getElem hn
    · rw [dif_neg hn] at hr
      simp at hr

/-- **C38.** `total_vars` is the least number of variables of a multilinear that holds the concatenation of the committed
polynomials, `2^n` elements for each of `n` packed variables. -/
theorem C38_total_vars (level : Nat) (os : OracleSet F) (cm : CommitMeta) (index : SparseIndex Nat)
    (h : makeOracleCommitMeta level os = some (cm, index)) (t : Nat) :
    cm.totalVars ≤ t ↔
      (((oracleIter os).filter fun p => isCommitted p.2).map fun p => 2 ^ (p.2.nVars + p.2.towerLevel - level)).sum ≤
        2 ^ t := by
  obtain ⟨counts, index', h1, h2, h3, h4⟩ := make_ok level os
  rw [h1] at h
  injection h with h
  injection h with hm hi
  subst hm hi
  unfold CommitMeta.new
  simp only
  rw [(metaFold_ok counts 0 [] 0 0).2.2, Nat.zero_add, size_spec]
  have key : ∀ (ps : List (Nat × Oracle F)) (len : Nat), (∀ p ∈ ps, isCommitted p.2 → nPackedVars level p.2 < len) →
      ∀ v ≤ len, elems v ((List.range' v (len - v)).map fun k => (bucket level ps k).length) =
        ((ps.filter fun p => isCommitted p.2 ∧ v ≤ nPackedVars level p.2).map
          fun p => 2 ^ (p.2.nVars + p.2.towerLevel - level)).sum := by
    intro ps len hl v hv
    induction hd : len - v generalizing v with
    | zero =>
      have : ps.filter (fun p => isCommitted p.2 ∧ v ≤ nPackedVars level p.2) = [] := by
        rw [List.filter_eq_nil_iff]
        intro p hp hc
        simp only [decide_eq_true_eq] at hc
        have := hl p hp hc.1
        omega
      rw [this]
      rfl
    | succ d ih =>
      have ih' := ih (v + 1) (by omega) (by omega)
      rw [List.range'_succ, List.map_cons, elems, ih']
      clear ih ih' hl
      induction ps with
      | nil => simp [bucket]
      | cons p ps ihp =>
        unfold bucket at ihp ⊢
        simp only [List.filter_cons]
        by_cases hc : isCommitted p.2
        · by_cases he : nPackedVars level p.2 = v
          · have e1 : ¬ (v + 1 ≤ nPackedVars level p.2) := by omega
            have e2 : v ≤ nPackedVars level p.2 := by omega
            simp only [hc, he, e1, e2, and_self, and_false, decide_true, decide_false, if_true, List.map_cons,
              List.length_cons, List.sum_cons, Bool.false_eq_true, if_false, true_and, le_refl,
              Nat.not_succ_le_self] at ihp ⊢
            rw [← ihp]
            have : 2 ^ v = 2 ^ (p.2.nVars + p.2.towerLevel - level) := by rw [← he, nPackedVars]
            rw [← this]
            ring
          · by_cases hlt : v + 1 ≤ nPackedVars level p.2
            · have e2 : v ≤ nPackedVars level p.2 := by omega
              simp only [hc, he, hlt, e2, and_self, and_false, decide_true, decide_false, if_true, List.map_cons,
                List.sum_cons, Bool.false_eq_true, if_false, true_and] at ihp ⊢
              rw [← ihp]
              ring
            · have e2 : ¬ v ≤ nPackedVars level p.2 := by omega
              simp only [hc, he, hlt, e2, and_false, decide_false, Bool.false_eq_true, if_false, true_and] at ihp ⊢
              exact ihp
        · simp only [hc, false_and, decide_false, Bool.false_eq_true, if_false] at ihp ⊢
          exact ihp
  have hk := key (oracleIter os) counts.length (fun p hp hc => (h3 _).mpr ⟨_, le_rfl,
    List.ne_nil_of_mem (mem_bucket.mpr ⟨p.2, hp, hc, rfl⟩)⟩) 0 (Nat.zero_le _)
  rw [Nat.sub_zero, ← List.range_eq_range', ← h2] at hk
  rw [hk]
  simp only [Nat.zero_le, and_true, Bool.decide_eq_true]

theorem collectLoop_ok {W : Type} (index : SparseIndex Nat) (witness : Nat → Option W) :
    ∀ (l : List (Nat × Oracle F)) (ws : List (Option W)), (∀ p ∈ l, ∀ k, index p.1 = some k → k < ws.length) →
      (∀ p ∈ l, (index p.1).isSome → (witness p.1).isSome) → (l.map Prod.fst).Nodup →
      (∀ a b k, index a = some k → index b = some k → a = b) →
    ∃ ws', collectLoop index witness l ws = some (some ws') ∧ ws'.length = ws.length ∧
      (∀ p ∈ l, ∀ k, index p.1 = some k → ws'[k]? = some (witness p.1)) ∧
      ∀ k, (∀ p ∈ l, index p.1 ≠ some k) → ws'[k]? = ws[k]?
  | [], ws, _, _, _, _ => ⟨ws, rfl, rfl, fun p h => by simp at h, fun _ _ => rfl⟩
  | p :: l, ws, hl, hw, hn, hinj => by
    rw [List.map_cons, List.nodup_cons] at hn
    unfold collectLoop
    cases hi : index p.1 with
    | none =>
      obtain ⟨ws', h1, h2, h3, h4⟩ := collectLoop_ok index witness l ws (fun q hq => hl q (by simp [hq]))
        (fun q hq => hw q (by simp [hq])) hn.2 hinj
      refine ⟨ws', h1, h2, fun q hq k hk => ?_, fun k hk => h4 k fun q hq => hk q (by simp [hq])⟩
      rcases List.mem_cons.mp hq with rfl | hq
      · rw [hi] at hk; simp at hk
      · exact h3 q hq k hk
    | some i =>
      have hlt := hl p (by simp) i hi
      obtain ⟨w, hwit⟩ := Option.isSome_iff_exists.mp (hw p (by simp) (by rw [hi]; rfl))
      simp only
      rw [hwit]
      simp only
      rw [if_pos hlt]
      obtain ⟨ws', h1, h2, h3, h4⟩ := collectLoop_ok index witness l (ws.set i (some w))
        (fun q hq k hk => by rw [List.length_set]; exact hl q (by simp [hq]) k hk) (fun q hq => hw q (by simp [hq])) hn.2 hinj
      have hfree : ∀ q ∈ l, index q.1 ≠ some i := fun q hq e =>
        hn.1 (by rw [← hinj _ _ _ e hi]; exact List.mem_map.mpr ⟨q, hq, rfl⟩)
      refine ⟨ws', h1, by rw [h2, List.length_set], fun q hq k hk => ?_, fun k hk => ?_⟩
      · rcases List.mem_cons.mp hq with rfl | hq
        · rw [hi] at hk
          injection hk with hk
          subst hk
          rw [h4 _ hfree, List.getElem?_set_self hlt, hwit]
        · exact h3 q hq k hk
      · rw [h4 k fun q hq => hk q (by simp [hq]), List.getElem?_set_ne]
        intro e
        exact hk p (by simp) (by rw [hi, e])

theorem mapM_id_ok {W : Type} : ∀ (ws : List (Option W)), (∀ w ∈ ws, w.isSome) → ∃ l, ws.mapM (fun w => w) = some l ∧
    ws = l.map some
  | [], _ => ⟨[], rfl, rfl⟩
  | w :: ws, h => by
    obtain ⟨a, ha⟩ := Option.isSome_iff_exists.mp (h w (by simp))
    obtain ⟨l, h1, h2⟩ := mapM_id_ok ws fun w hw => h w (by simp [hw])
    exact ⟨a :: l, by rw [List.mapM_cons, ha, h1]; rfl, by rw [ha, h2]; rfl⟩

/-- **C38.** Collecting the witnesses with this index gives, if every committed oracle has a witness, the list with the
witness of each oracle at its index and nothing else; the precondition on the index holds, so that nothing panics. -/
theorem C38_collect {W : Type} (level : Nat) (os : OracleSet F) (cm : CommitMeta) (index : SparseIndex Nat)
    (h : makeOracleCommitMeta level os = some (cm, index)) (witness : Nat → Option W)
    (hw : ∀ id n, Committed level os id n → (witness id).isSome) :
    ∃ ws, collectCommittedWitnesses cm index os witness = some (some ws) ∧ ws.length = cm.totalMultilins ∧
      ∀ id k, index id = some k → ws[k]? = witness id := by
  obtain ⟨cm', index', h1, order, hnd, hmem, _, hidx, htot⟩ := C38_bijection level os
  rw [h1] at h
  injection h with h
  injection h with hm hi
  subst hm hi
  have hlt : ∀ id k, index' id = some k → k < cm'.totalMultilins := fun id k hk => by
    rw [htot]
    exact (List.getElem?_eq_some_iff.mp ((hidx id k).mp hk)).1
  obtain ⟨ws, e1, e2, e3, e4⟩ := collectLoop_ok index' witness (oracleIter os)
    (List.replicate cm'.totalMultilins none) (fun p _ k hk => by rw [List.length_replicate]; exact hlt _ _ hk)
    (fun p _ hs => by
      obtain ⟨k, hk⟩ := Option.isSome_iff_exists.mp hs
      obtain ⟨n, hn⟩ := (hmem p.1).mp (List.mem_of_getElem? ((hidx _ _).mp hk))
      exact hw _ n hn)
    ((oracleIter_sorted os).imp fun h => Nat.ne_of_lt h)
    (fun a b k ha hb => by
      have := (hidx a k).mp ha
      rw [(hidx b k).mp hb] at this
      injection this with e
      exact e.symm)
  have hin : ∀ id k, index' id = some k → ∃ o, (id, o) ∈ oracleIter os := fun id k hk => by
    obtain ⟨n, o, ho, _⟩ := (hmem id).mp (List.mem_of_getElem? ((hidx _ _).mp hk))
    exact ⟨o, oracleIter_mem.mpr ho⟩
  have hsome : ∀ w ∈ ws, w.isSome := fun w hwm => by
    obtain ⟨k, hk, e⟩ := List.getElem_of_mem hwm
    rw [e2, List.length_replicate] at hk
    have hk' : k < order.length := by rw [← htot]; exact hk
    have hidk := (hidx order[k] k).mpr (List.getElem?_eq_getElem hk')
    obtain ⟨o, ho⟩ := hin _ _ hidk
    have h5 := e3 _ ho k hidk
    rw [List.getElem?_eq_getElem (by rw [e2, List.length_replicate]; exact hk)] at h5
    injection h5 with h5
    rw [← e, h5]
    obtain ⟨n, hn⟩ := (hmem order[k]).mp (List.getElem_mem hk')
    exact hw _ n hn
  obtain ⟨l, h6, h7⟩ := mapM_id_ok ws hsome
  refine ⟨l, ?_, ?_, fun id k hk => ?_⟩
  · unfold collectCommittedWitnesses
    rw [e1]
    simp only
    rw [h6]
    rfl
  · have := congrArg List.length h7
    rw [List.length_map, e2, List.length_replicate] at this
    exact this.symm
  · obtain ⟨o, ho⟩ := hin id k hk
    have h8 := e3 (id, o) ho k hk
    rw [h7, List.getElem?_map] at h8
    cases hl : l[k]? with
    | none => rw [hl] at h8; simp at h8
    | some a =>
      rw [hl] at h8
      injection h8

theorem collectLoop_missing {W : Type} (index : SparseIndex Nat) (witness : Nat → Option W) :
    ∀ (l : List (Nat × Oracle F)) (ws : List (Option W)), (∀ p ∈ l, ∀ k, index p.1 = some k → k < ws.length) →
      (∃ p ∈ l, (index p.1).isSome ∧ witness p.1 = none) → collectLoop index witness l ws = some none
  | [], ws, _, h => by simp at h
  | p :: l, ws, hl, h => by
    have hrec : ∀ ws' : List (Option W), ws'.length = ws.length → (∃ q ∈ l, (index q.1).isSome ∧ witness q.1 = none) →
        collectLoop index witness l ws' = some none := fun ws' e h' =>
      collectLoop_missing index witness l ws' (fun q hq k hk => by rw [e]; exact hl q (by simp [hq]) k hk) h'
    obtain ⟨q, hq, h1, h2⟩ := h
    unfold collectLoop
    cases hi : index p.1 with
    | none =>
      refine hrec ws rfl ⟨q, ?_, h1, h2⟩
      rcases List.mem_cons.mp hq with rfl | hq
      · rw [hi] at h1; simp at h1
      · exact hq
    | some i =>
      have hlt := hl p (by simp) i hi
      simp only
      cases hwit : witness p.1 with
      | none => rfl
      | some w =>
        simp only
        rw [if_pos hlt]
        refine hrec _ List.length_set ⟨q, ?_, h1, h2⟩
        rcases List.mem_cons.mp hq with rfl | hq
        · rw [hwit] at h2; simp at h2
        · exact hq

/-- **C38.** If a committed oracle has no witness, collecting fails with the error of the witness index. -/
theorem C38_collect_missing {W : Type} (level : Nat) (os : OracleSet F) (cm : CommitMeta) (index : SparseIndex Nat)
    (h : makeOracleCommitMeta level os = some (cm, index)) (witness : Nat → Option W)
    (hw : ∃ id n, Committed level os id n ∧ witness id = none) :
    collectCommittedWitnesses cm index os witness = some none := by
  obtain ⟨cm', index', h1, order, hnd, hmem, _, hidx, htot⟩ := C38_bijection level os
  rw [h1] at h
  injection h with h
  injection h with hm hi
  subst hm hi
  obtain ⟨id, n, hc, hn⟩ := hw
  obtain ⟨k, hk, e⟩ := List.getElem_of_mem ((hmem id).mpr ⟨n, hc⟩)
  obtain ⟨o, ho, _⟩ := hc
  unfold collectCommittedWitnesses
  have hi : index' id = some k := (hidx id k).mpr (by rw [List.getElem?_eq_getElem hk, e])
  rw [collectLoop_missing index' witness (oracleIter os) _ (fun p _ k hk => by
      rw [List.length_replicate, htot]
      exact (List.getElem?_eq_some_iff.mp ((hidx _ k).mp hk)).1)
    ⟨(id, o), oracleIter_mem.mpr ho, by simp [hi], hn⟩]

theorem sum_modify : ∀ (l : List Nat) (i : Nat), i < l.length → (l.modify i (· + 1)).sum = l.sum + 1
  | [], i, h => by simp at h
  | a :: l, 0, _ => by simp; omega
  | a :: l, i + 1, h => by
    rw [List.modify_succ_cons, List.sum_cons, sum_modify l i (by simpa using h), List.sum_cons]
    omega

theorem sum_incrementAt (l : List Nat) (i : Nat) : (incrementAt l i).sum = l.sum + 1 := by
  unfold incrementAt
  by_cases h : i ≥ l.length
  · rw [if_pos h]
    simp only
    rw [sum_modify _ _ (by simp; omega)]
    simp
  · rw [if_neg h]
    simp only
    rw [sum_modify _ _ (by omega)]

theorem foldl_increment (l : List Nat) : ∀ acc : List Nat,
    (∀ v, readAt (l.foldl incrementAt acc) v = readAt acc v + l.count v) ∧
    ∀ v, v < (l.foldl incrementAt acc).length ↔ v < acc.length ∨ ∃ x ∈ l, v ≤ x := by
  induction l with
  | nil => intro acc; simp
  | cons a l ih =>
    intro acc
    obtain ⟨h1, h2⟩ := ih (incrementAt acc a)
    rw [List.foldl_cons]
    refine ⟨fun v => ?_, fun v => ?_⟩
    · rw [h1, readAt_incrementAt, List.count_cons]
      by_cases h : v = a
      · subst h; simp; omega
      · have : ¬ a = v := fun e => h e.symm
        simp [h, this]
    · rw [h2, length_incrementAt]
      simp only [List.mem_cons, exists_eq_or_imp]
      rw [← or_assoc]
      exact or_congr_left (by omega)

/-- **C38.** A batch given by the numbers of variables of its polynomials has, for each number, as many polynomials as are
given, and the largest number as its maximum. -/
theorem C38_with_vars (l : List Nat) :
    (∀ v, v ≤ (CommitMeta.withVars l).maxNVars → (CommitMeta.withVars l).nMultilinsByVars ≠ [] →
      (CommitMeta.withVars l).nMultilinsByVars[v]? = some (l.count v)) ∧
    (∀ x ∈ l, x ≤ (CommitMeta.withVars l).maxNVars) ∧ (l ≠ [] → (CommitMeta.withVars l).maxNVars ∈ l) ∧
    (CommitMeta.withVars l).totalMultilins = l.length := by
  obtain ⟨h1, h2⟩ := foldl_increment l []
  have hc : (CommitMeta.withVars l).nMultilinsByVars = l.foldl incrementAt [] := rfl
  have hm : (CommitMeta.withVars l).maxNVars = (l.foldl incrementAt []).length - 1 := rfl
  have hget : ∀ v (h : v < (l.foldl incrementAt []).length), (l.foldl incrementAt [])[v] = l.count v := fun v h => by
    have := h1 v
    unfold readAt at this
    rw [List.getElem?_eq_getElem h] at this
    simpa using this
  refine ⟨fun v hv hne => ?_, fun x hx => ?_, fun hne => ?_, ?_⟩
  · rw [hc] at hne ⊢
    have := List.length_pos_iff.mpr hne
    rw [List.getElem?_eq_getElem (by omega), hget]
  · have := (h2 x).mpr (Or.inr ⟨x, hx, le_rfl⟩)
    omega
  · obtain ⟨a, ha⟩ := List.exists_mem_of_ne_nil l hne
    have hpos := (h2 a).mpr (Or.inr ⟨a, ha, le_rfl⟩)
    rw [hm]
    rcases (h2 _).mp (show (l.foldl incrementAt []).length - 1 < (l.foldl incrementAt []).length by omega) with h | ⟨x, hx, h⟩
    · simp at h
    · have := (h2 x).mpr (Or.inr ⟨x, hx, le_rfl⟩)
      have e : (l.foldl incrementAt []).length - 1 = x := by omega
      rw [e]; exact hx
  · show (CommitMeta.new (l.foldl incrementAt [])).totalMultilins = _
    unfold CommitMeta.new
    simp only
    rw [(metaFold_ok _ 0 [] 0 0).2.1, Nat.zero_add]
    have hl : ∀ (l : List Nat) (acc : List Nat), (l.foldl incrementAt acc).sum = acc.sum + l.length := by
      intro l
      induction l with
      | nil => intro acc; simp
      | cons a l ih =>
        intro acc
        rw [List.foldl_cons, ih, List.length_cons, sum_incrementAt]
        omega
    rw [hl l []]
    simp

/-- A skipped, a repeating and four committed oracles, in a field of tower level 2. -/
def exSet : OracleSet (Fin 2) :=
  ⟨[some ⟨4, 0, .committed⟩, none, some ⟨1, 2, .committed⟩, some ⟨6, 0, .repeating 0 2⟩, some ⟨3, 1, .committed⟩,
    some ⟨1, 0, .committed⟩], 5⟩

example : ∃ cm index, makeOracleCommitMeta 2 exSet = some (cm, index) ∧
    (List.range 6).map index = [some 2, none, some 1, none, some 3, some 0] ∧ cm.totalMultilins = 4 ∧
    cm.nMultilinsByVars = [1, 1, 2] ∧ cm.totalVars = 4 := by
  exact ⟨_, _, rfl, by decide, by decide, by decide, by decide +kernel⟩

end Verif.Piop
