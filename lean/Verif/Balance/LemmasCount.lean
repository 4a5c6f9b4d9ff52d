import Verif.Balance.SpecBalance
import Mathlib.Algebra.Polynomial.Roots
import Mathlib.Data.Fintype.Card
import Mathlib.Data.Fintype.Prod
import Mathlib.Algebra.Order.BigOperators.Group.Finset

/-! Fingerprint products and balance: completeness, and the count of the challenges that hide an imbalance. -/

set_option linter.dupNamespace false
set_option linter.unusedSectionVars false

namespace Verif.Balance

open Verif.Channel (Direction Event)
open Finset

variable {F : Type} [Field F] [DecidableEq F]

/-- The tuples of a channel in a direction, with multiplicity. -/
def tuples (es : List (Event F)) (d : Direction) (c : Nat) : Multiset (List F) :=
  ((es.filter fun e => e.direction = d ∧ e.channel = c).map fun e => Multiset.replicate e.multiplicity e.tuple).sum

theorem tuples_cons (e : Event F) (es : List (Event F)) (d : Direction) (c : Nat) :
    tuples (e :: es) d c =
      (if e.direction = d ∧ e.channel = c then Multiset.replicate e.multiplicity e.tuple else 0) + tuples es d c := by
  unfold tuples
  by_cases h : e.direction = d ∧ e.channel = c
  · rw [List.filter_cons_of_pos (by simpa using h), if_pos h, List.map_cons, List.sum_cons]
  · rw [List.filter_cons_of_neg (by simpa using h), if_neg h, zero_add]

theorem fingerprintProduct_cons (e : Event F) (es : List (Event F)) (d : Direction) (c : Nat) (s r : F) :
    fingerprintProduct (e :: es) d c s r =
      (if e.direction = d ∧ e.channel = c then fingerprint s r e.tuple ^ e.multiplicity else 1) *
        fingerprintProduct es d c s r := by
  unfold fingerprintProduct
  by_cases h : e.direction = d ∧ e.channel = c
  · rw [List.filter_cons_of_pos (by simpa using h), if_pos h, List.map_cons, List.prod_cons]
  · rw [List.filter_cons_of_neg (by simpa using h), if_neg h, one_mul]

theorem count_cons (e : Event F) (es : List (Event F)) (d : Direction) (c : Nat) (t : List F) :
    Channel.count (e :: es) d c t =
      (if e.direction = d ∧ e.channel = c ∧ e.tuple = t then e.multiplicity else 0) + Channel.count es d c t := by
  unfold Channel.count
  by_cases h : e.direction = d ∧ e.channel = c ∧ e.tuple = t
  · rw [List.filter_cons_of_pos (by simpa using h), if_pos h, List.map_cons, List.sum_cons]
  · rw [List.filter_cons_of_neg (by simpa using h), if_neg h, zero_add]

theorem count_tuples (es : List (Event F)) (d : Direction) (c : Nat) (t : List F) :
    (tuples es d c).count t = Channel.count es d c t := by
  induction es with
  | nil => rfl
  | cons e es ih =>
    rw [tuples_cons, count_cons, Multiset.count_add, ih]
    congr 1
    by_cases h : e.direction = d ∧ e.channel = c
    · rw [if_pos h, Multiset.count_replicate]
      by_cases ht : e.tuple = t
      · rw [if_pos ht, if_pos ⟨h.1, h.2, ht⟩]
      · rw [if_neg ht, if_neg fun hc => ht hc.2.2]
    · rw [if_neg h, if_neg fun hc => h ⟨hc.1, hc.2.1⟩, Multiset.count_zero]

theorem prod_tuples (es : List (Event F)) (d : Direction) (c : Nat) (s r : F) :
    fingerprintProduct es d c s r = ((tuples es d c).map fun t => fingerprint s r t).prod := by
  induction es with
  | nil => rfl
  | cons e es ih =>
    rw [tuples_cons, fingerprintProduct_cons, Multiset.map_add, Multiset.prod_add, ih]
    congr 1
    by_cases h : e.direction = d ∧ e.channel = c
    · rw [if_pos h, if_pos h, Multiset.map_replicate, Multiset.prod_replicate]
    · rw [if_neg h, if_neg h]; rfl

theorem mem_tuples {es : List (Event F)} {d : Direction} {c : Nat} {t : List F} (h : t ∈ tuples es d c) :
    ∃ e ∈ es, e.channel = c ∧ e.tuple = t := by
  induction es with
  | nil => simp [tuples] at h
  | cons e es ih =>
    rw [tuples_cons, Multiset.mem_add] at h
    rcases h with h | h
    · split at h
      · rename_i hc
        exact ⟨e, List.mem_cons_self .., hc.2, (Multiset.eq_of_mem_replicate h).symm⟩
      · simp at h
    · obtain ⟨e', h1, h2⟩ := ih h
      exact ⟨e', List.mem_cons_of_mem _ h1, h2⟩

theorem tuples_balanced {es : List (Event F)} {c : Nat}
    (h : ∀ t, Channel.count es .push c t = Channel.count es .pull c t) : tuples es .push c = tuples es .pull c := by
  rw [Multiset.ext]
  intro t
  rw [count_tuples, count_tuples, h]

/-- The polynomial `t_0 + t_1 X + …`. -/
noncomputable def poly (t : List F) : Polynomial F := (t.zipIdx.map fun p => Polynomial.C p.1 * Polynomial.X ^ p.2).sum

theorem poly_eval (s : F) (t : List F) : (poly t).eval s = (t.zipIdx.map fun p => p.1 * s ^ p.2).sum := by
  unfold poly
  generalize t.zipIdx = l
  induction l with
  | nil => simp
  | cons p l ih =>
    rw [List.map_cons, List.sum_cons, List.map_cons, List.sum_cons, Polynomial.eval_add, ih]
    simp

theorem poly_coeff_aux (j : Nat) : ∀ (t : List F) (k : Nat),
    ((t.zipIdx k).map fun p : F × Nat => Polynomial.C p.1 * Polynomial.X ^ p.2).sum.coeff j =
      if k ≤ j then t.getD (j - k) 0 else 0
  | [], k => by simp
  | x :: t, k => by
    rw [List.zipIdx_cons, List.map_cons, List.sum_cons, Polynomial.coeff_add, poly_coeff_aux j t (k + 1),
      Polynomial.coeff_C_mul, Polynomial.coeff_X_pow]
    by_cases h : j = k
    · subst h
      simp
    · rw [if_neg h, mul_zero, zero_add]
      by_cases hk : k ≤ j
      · rw [if_pos hk, if_pos (by omega), show j - k = (j - (k + 1)) + 1 by omega, List.getD_cons_succ]
      · rw [if_neg hk, if_neg (by omega)]

theorem poly_coeff (t : List F) (j : Nat) : (poly t).coeff j = t.getD j 0 := by
  have := poly_coeff_aux j t 0
  simpa [poly] using this

theorem poly_inj {t t' : List F} (hl : t.length = t'.length) (h : poly t = poly t') : t = t' := by
  refine List.ext_getElem hl fun j h1 h2 => ?_
  have := congrArg (Polynomial.coeff · j) h
  simp only [poly_coeff] at this
  rw [List.getD_eq_getElem?_getD, List.getD_eq_getElem?_getD, List.getElem?_eq_getElem h1,
    List.getElem?_eq_getElem h2] at this
  exact this

theorem poly_natDegree (t : List F) : (poly t).natDegree ≤ t.length - 1 := by
  rw [Polynomial.natDegree_le_iff_coeff_eq_zero]
  intro j hj
  rw [poly_coeff, List.getD_eq_getElem?_getD, List.getElem?_eq_none (by omega)]
  rfl

variable [Fintype F]

/-- Two different tuples of the same width collide for few mixing challenges. -/
theorem card_collide {t t' : List F} (hl : t.length = t'.length) (hne : t ≠ t') :
    (univ.filter fun s : F => fingerprint s 0 t = fingerprint s 0 t').card ≤ t.length - 1 := by
  have hp : poly t - poly t' ≠ 0 := fun h => hne (poly_inj hl (sub_eq_zero.1 h))
  refine le_trans (le_trans (Finset.card_le_card (t := (poly t - poly t').roots.toFinset) fun s hs => ?_)
    (Multiset.toFinset_card_le _)) (le_trans (Polynomial.card_roots' _) ?_)
  · rw [Finset.mem_filter] at hs
    rw [Multiset.mem_toFinset, Polynomial.mem_roots hp, Polynomial.IsRoot, Polynomial.eval_sub, poly_eval, poly_eval]
    have := hs.2
    unfold fingerprint at this
    rw [zero_add, zero_add] at this
    rw [this, sub_self]
  · refine le_trans (Polynomial.natDegree_sub_le _ _) (max_le (poly_natDegree t) ?_)
    rw [hl]
    exact poly_natDegree t'

/-- Different multisets of values are told apart by all but few channel challenges. -/
theorem card_products {A B : Multiset F} (h : A ≠ B) :
    (univ.filter fun r : F => (A.map fun a => r + a).prod = (B.map fun a => r + a).prod).card ≤
      max (Multiset.card A) (Multiset.card B) := by
  set P : Multiset F → Polynomial F := fun A => ((A.map fun a => -a).map fun a => Polynomial.X - Polynomial.C a).prod
    with hP
  have hev : ∀ A r, (P A).eval r = (A.map fun a => r + a).prod := fun A r => by
    rw [hP]
    simp only
    rw [Polynomial.eval_multiset_prod, Multiset.map_map, Multiset.map_map]
    congr 1
    refine Multiset.map_congr rfl fun a _ => ?_
    simp
  have hdeg : ∀ A, (P A).natDegree ≤ Multiset.card A := fun A => by
    rw [hP]
    simp only
    rw [Polynomial.natDegree_multiset_prod_X_sub_C_eq_card, Multiset.card_map]
  have hne : P A - P B ≠ 0 := fun hc => h <| by
    have := congrArg Polynomial.roots (sub_eq_zero.1 hc)
    rw [hP] at this
    simp only [Polynomial.roots_multiset_prod_X_sub_C] at this
    exact Multiset.map_injective neg_injective this
  refine le_trans (le_trans (Finset.card_le_card (t := (P A - P B).roots.toFinset) fun r hr => ?_)
    (Multiset.toFinset_card_le _)) (le_trans (Polynomial.card_roots' _) ?_)
  · rw [Finset.mem_filter] at hr
    rw [Multiset.mem_toFinset, Polynomial.mem_roots hne, Polynomial.IsRoot, Polynomial.eval_sub, hev, hev, hr.2,
      sub_self]
  · exact le_trans (Polynomial.natDegree_sub_le _ _) (max_le_max (hdeg A) (hdeg B))

theorem fingerprint_split (s r : F) (t : List F) : fingerprint s r t = r + fingerprint s 0 t := by
  unfold fingerprint; rw [zero_add]

/-- The pairs of challenges for which the products agree although the channel is not balanced. -/
theorem card_accept {es : List (Event F)} {c w : Nat} (hw : ∀ e ∈ es, e.channel = c → e.tuple.length = w) {t₀ : List F}
    (hne : Channel.count es .push c t₀ ≠ Channel.count es .pull c t₀) :
    (univ.filter fun p : F × F =>
      fingerprintProduct es .push c p.1 p.2 = fingerprintProduct es .pull c p.1 p.2).card ≤
      Fintype.card F * ((es.filter fun e => e.channel = c).length * (w - 1) +
        max (Multiset.card (tuples es .push c)) (Multiset.card (tuples es .pull c))) := by
  classical
  set T := (((es.filter fun e => e.channel = c).map (·.tuple)).toFinset).erase t₀ with hT
  set N := max (Multiset.card (tuples es .push c)) (Multiset.card (tuples es .pull c)) with hN
  have hmemT : ∀ {d t}, t ∈ tuples es d c → t ≠ t₀ → t ∈ T := fun {d t} h hn => by
    obtain ⟨e, h1, h2, h3⟩ := mem_tuples h
    rw [hT, Finset.mem_erase, List.mem_toFinset, List.mem_map]
    exact ⟨hn, e, by simpa using ⟨h1, h2⟩, h3⟩
  have hTw : ∀ t ∈ T, t.length = w ∧ t ≠ t₀ := fun t h => by
    rw [hT, Finset.mem_erase, List.mem_toFinset, List.mem_map] at h
    obtain ⟨hn, e, h1, rfl⟩ := h
    rw [List.mem_filter] at h1
    exact ⟨hw e h1.1 (by simpa using h1.2), hn⟩
  have ht₀ : t₀.length = w := by
    have : t₀ ∈ tuples es .push c ∨ t₀ ∈ tuples es .pull c := by
      by_contra hc
      rw [not_or, ← Multiset.count_eq_zero, ← Multiset.count_eq_zero, count_tuples, count_tuples] at hc
      exact hne (hc.1.trans hc.2.symm)
    rcases this with h | h <;> obtain ⟨e, h1, h2, h3⟩ := mem_tuples h <;> exact h3 ▸ hw e h1 h2
  -- the mixing challenges for which another tuple collides with `t₀`
  set bad := T.biUnion fun t => univ.filter fun s : F => fingerprint s 0 t = fingerprint s 0 t₀ with hbad
  have hbadc : bad.card ≤ (es.filter fun e => e.channel = c).length * (w - 1) := by
    refine le_trans (Finset.card_biUnion_le_card_mul _ _ (w - 1) fun t ht => ?_) (Nat.mul_le_mul_right _ ?_)
    · have := card_collide (F := F) (t := t) (t' := t₀) ((hTw t ht).1.trans ht₀.symm) (hTw t ht).2
      rwa [(hTw t ht).1] at this
    · refine le_trans (Finset.card_erase_le) (le_trans (List.toFinset_card_le _) ?_)
      rw [List.length_map]
  have hgood : ∀ s, s ∉ bad → (univ.filter fun r : F =>
      fingerprintProduct es .push c s r = fingerprintProduct es .pull c s r).card ≤ N := by
    intro s hs
    have hcol : ∀ t ∈ T, fingerprint s 0 t ≠ fingerprint s 0 t₀ := fun t ht hc => hs <| by
      rw [hbad, Finset.mem_biUnion]
      exact ⟨t, ht, by simpa using hc⟩
    have hcnt : ∀ d, ((tuples es d c).map fun t => fingerprint s 0 t).count (fingerprint s 0 t₀) =
        Channel.count es d c t₀ := fun d => by
      rw [← count_tuples, Multiset.count_map]
      rw [Multiset.count_eq_card_filter_eq]
      congr 1
      refine Multiset.filter_congr fun t ht => ⟨fun h => ?_, fun h => by rw [h]⟩
      by_contra hn
      exact hcol t (hmemT ht (Ne.symm hn)) h.symm
    have hAB : ((tuples es .push c).map fun t => fingerprint s 0 t) ≠ (tuples es .pull c).map fun t => fingerprint s 0 t :=
      fun h => hne (by rw [← hcnt, ← hcnt, h])
    have := card_products hAB
    rw [Multiset.card_map, Multiset.card_map] at this
    refine le_trans (le_of_eq ?_) this
    congr 1
    refine Finset.filter_congr fun r _ => ?_
    rw [prod_tuples, prod_tuples, Multiset.map_map, Multiset.map_map]
    simp only [Function.comp_def, ← fingerprint_split]
  have hcard : (univ.filter fun p : F × F =>
      fingerprintProduct es .push c p.1 p.2 = fingerprintProduct es .pull c p.1 p.2).card =
      ∑ s : F, (univ.filter fun r : F =>
        fingerprintProduct es .push c s r = fingerprintProduct es .pull c s r).card := by
    simp only [Finset.card_filter]
    rw [← Finset.univ_product_univ, Finset.sum_product]
  rw [hcard]
  calc _ ≤ ∑ s : F, ((if s ∈ bad then Fintype.card F else 0) + N) := by
        refine Finset.sum_le_sum fun s _ => ?_
        by_cases hs : s ∈ bad
        · rw [if_pos hs]
          exact le_trans (Finset.card_filter_le _ _) (Nat.le_add_right _ _)
        · rw [if_neg hs, zero_add]
          exact hgood s hs
    _ = bad.card * Fintype.card F + Fintype.card F * N := by
        rw [Finset.sum_add_distrib, Finset.sum_const, Finset.card_univ, smul_eq_mul, ← Finset.sum_filter,
          Finset.sum_const, smul_eq_mul]
        congr 3
        ext s
        simp
    _ ≤ _ := by
        rw [mul_add, mul_comm bad.card]
        exact Nat.add_le_add_right (Nat.mul_le_mul_left _ hbadc) _

end Verif.Balance
