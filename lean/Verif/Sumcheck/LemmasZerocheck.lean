import Verif.Sumcheck.SpecZerocheck
import Verif.Sumcheck.LemmasEqInd2
import Verif.Math.PropsSubspace
import Verif.Math.PropsTensor
import Verif.Math.PropsUnivariate
import Mathlib.Data.Nat.Size

/-! Lemmas for C57: random points, Lagrange weights and evaluation domains. -/

set_option linter.unusedSectionVars false

namespace Verif.Sumcheck

open Verif.Mle Verif.Protocol Finset Polynomial

variable {F : Type} [Field F] [DecidableEq F]

theorem soundErr_map {A B : Type} {good : A → Prop} {good' : B → Prop} {p : P F A} {ε : Nat}
    (h : SoundErr good p ε) {Q : A → Prop} (hp : Post Q p) (f : A → B)
    (hf : ∀ a, Q a → good' (f a) → good a) :
    SoundErr good' (p.bind fun a => .ret (f a)) ε :=
  soundErr_bind (ε' := 0) h hp fun a hq ha => .ret fun hg => ha (hf a hq hg)

theorem sampleVec_full_err (m : Nat) (f : Nat → F) (hf : ∃ v < 2 ^ m, f v ≠ 0) :
    SoundErr (fun r => mle f r = 0) (sampleVec (F := F) m) m := by
  induction m generalizing f with
  | zero =>
    obtain ⟨v, hv, hne⟩ := hf
    have : v = 0 := by simpa using hv
    subst this
    exact .ret (by simpa using hne)
  | succ m ih =>
    obtain ⟨v, hv, hne⟩ := hf
    rw [sampleVec]
    have hQ : (C (f (2 * (v / 2))) + C (f (2 * (v / 2) + 1) - f (2 * (v / 2))) * X : F[X]) ≠ 0 := by
      intro h
      have h0 := congrArg (eval 0) h
      have h1 := congrArg (eval 1) h
      simp only [eval_add, eval_C, eval_mul, eval_X, mul_zero, add_zero, mul_one, eval_zero,
        add_sub_cancel] at h0 h1
      rcases Nat.mod_two_eq_zero_or_one v with hm | hm
      · exact hne (by rw [← h0]; congr 1; omega)
      · exact hne (by rw [← h1]; congr 1; omega)
    obtain ⟨bad, hc, hb⟩ := exists_bad _ hQ
    have hdeg : (C (f (2 * (v / 2))) + C (f (2 * (v / 2) + 1) - f (2 * (v / 2))) * X : F[X]).natDegree ≤ 1 := by
      rw [add_comm]
      exact natDegree_linear_le
    refine .sample bad (hc.trans hdeg) (ε := m) (by omega) fun x hx => ?_
    refine soundErr_map (ih (fun j => (1 - x) * f (2 * j) + x * f (2 * j + 1)) ⟨v / 2, ?_, ?_⟩)
      (Post.trivial _) (fun xs => x :: xs) fun xs _ h => ?_
    · rw [Nat.pow_succ] at hv; omega
    · have := hb x hx
      simp only [eval_add, eval_C, eval_mul, eval_X] at this
      intro h
      apply this
      rw [← h]
      ring
    · rw [mle_cons] at h
      exact h

/-- A nonzero table has a nonzero multilinear extension at a random point. -/
theorem sampleVec_mle_err (m n : Nat) (hn : m ≤ n) (f : Nat → F) (hf : ∃ v < 2 ^ m, f v ≠ 0) :
    SoundErr (fun r => mle f (suffix m r) = 0) (sampleVec (F := F) n) m := by
  induction n with
  | zero =>
    obtain rfl : m = 0 := by omega
    exact .ret (by
      obtain ⟨v, hv, hne⟩ := hf
      have : v = 0 := by simpa using hv
      subst this
      simpa [suffix_zero] using hne)
  | succ n ih =>
    by_cases h : m = n + 1
    · subst h
      have h1 := sampleVec_full_err (n + 1) f hf
      have h2 := soundErr_map (good' := fun r => mle f (suffix (n + 1) r) = 0) h1
        (sampleVec_post (n + 1)) id fun a ha hg => by
          rw [id, suffix_full _ _ (by omega)] at hg
          exact hg
      have e : ((sampleVec (F := F) (n + 1)).bind fun a => Prog.ret (id a)) = sampleVec (n + 1) := by
        generalize sampleVec (F := F) (n + 1) = p
        induction p with
        | ret a => rfl
        | fail e => rfl
        | read k c ih => simp only [Prog.bind]; congr 1; funext m; exact ih m
        | sample c ih => simp only [Prog.bind]; congr 1; funext m; exact ih m
      rw [e] at h2
      exact h2
    · rw [sampleVec]
      refine .sample0 fun x => ?_
      refine soundErr_map (ih (by omega)) (sampleVec_post n) (fun xs => x :: xs) fun xs hxs h => ?_
      have : suffix m (x :: xs) = suffix m xs := by
        unfold suffix
        rw [List.length_cons, show xs.length + 1 - m = (xs.length - m) + 1 by omega, List.drop_succ_cons]
      rw [this] at h
      exact h

/-! ## Polynomial functions -/

theorem PolyFun.mono {d e : Nat} {f : F → F} (hf : PolyFun d f) (h : d ≤ e) : PolyFun e f :=
  let ⟨Q, hq, he⟩ := hf
  ⟨Q, hq.trans h, he⟩

theorem PolyFun.const (d : Nat) (c : F) : PolyFun d (fun _ => c) := ⟨C c, by simp, by simp⟩

theorem PolyFun.finsum {ι : Type} {d : Nat} (s : Finset ι) (f : ι → F → F)
    (hf : ∀ i ∈ s, PolyFun d (f i)) : PolyFun d fun x => ∑ i ∈ s, f i x := by
  classical
  induction s using Finset.induction_on with
  | empty => simpa using PolyFun.zero d
  | insert a s ha ih =>
    simp only [Finset.sum_insert ha]
    exact (hf a (Finset.mem_insert_self ..)).add (ih fun i hi => hf i (Finset.mem_insert_of_mem hi))

theorem PolyFun.evalAt {d e : Nat} (p : MvPolynomial ℕ F) (hp : p.totalDegree ≤ d) {A : Type}
    (l : List A) (f : A → F → F) (hf : ∀ a ∈ l, PolyFun e (f a)) :
    PolyFun (d * e) fun x => Verif.Sumcheck.evalAt p (l.map fun a => f a x) := by
  have hex : ∀ i : ℕ, ∃ Q : F[X], Q.natDegree ≤ e ∧ ∀ x, (l.map fun a => f a x).getD i 0 = Q.eval x := by
    intro i
    by_cases hi : i < l.length
    · obtain ⟨Q, hq, he⟩ := hf l[i] (List.getElem_mem hi)
      refine ⟨Q, hq, fun x => ?_⟩
      rw [← he, List.getD_eq_getElem?_getD, List.getElem?_map, List.getElem?_eq_getElem hi]
      rfl
    · refine ⟨0, by simp, fun x => ?_⟩
      rw [List.getD_eq_getElem?_getD, List.getElem?_map, List.getElem?_eq_none (by omega)]
      simp
  choose Q hq he using hex
  refine ⟨MvPolynomial.aeval Q p, ?_, fun x => ?_⟩
  · exact MvPolynomial.aeval_natDegree_le p hp Q hq
  · unfold Verif.Sumcheck.evalAt
    simp only [he]
    exact eval_aeval Q p x

/-- Few challenges make two different polynomial functions agree. -/
theorem PolyFun.bad {d : Nat} {f g : F → F} (hf : PolyFun d f) (hg : PolyFun d g) (x₀ : F)
    (hne : f x₀ ≠ g x₀) : ∃ bad : Finset F, bad.card ≤ d ∧ ∀ x, x ∉ bad → f x ≠ g x := by
  obtain ⟨P, hP, eP⟩ := hf
  obtain ⟨Q, hQ, eQ⟩ := hg
  have h0 : P - Q ≠ 0 := by
    intro h
    apply hne
    rw [eP, eQ, sub_eq_zero.mp h]
  obtain ⟨bad, hc, hb⟩ := exists_bad _ h0
  refine ⟨bad, hc.trans ((natDegree_sub_le _ _).trans (Nat.max_le.mpr ⟨hP, hQ⟩)), fun x hx h => ?_⟩
  apply hb x hx
  rw [eval_sub, ← eP, ← eQ, h, sub_self]

/-! ## Lagrange weights -/

theorem nodup_injOn {ps : List F} (h : ps.Nodup) :
    Set.InjOn (fun j : Fin ps.length => ps[j]) (univ : Finset (Fin ps.length)) := by
  intro a _ b _ hab
  exact Fin.ext ((h.getElem_inj_iff).1 hab)

theorem lagW_poly {ps : List F} (h : ps.Nodup) (u : Nat) :
    PolyFun (ps.length - 1) fun z => lagW ps z u := by
  by_cases hu : u < ps.length
  · refine ⟨Lagrange.basis univ (fun j : Fin ps.length => ps[j]) ⟨u, hu⟩, ?_, fun x => ?_⟩
    · refine natDegree_le_of_degree_le ?_
      rw [Lagrange.degree_basis (nodup_injOn h) (mem_univ _)]
      simp
    · simp only [lagW, dif_pos hu]
  · refine ⟨0, by simp, fun x => ?_⟩
    simp only [lagW, dif_neg hu, eval_zero]

theorem lagW_point {ps : List F} (h : ps.Nodup) (i : Nat) (hi : i < ps.length) (u : Nat) :
    lagW ps ps[i] u = if u = i then 1 else 0 := by
  unfold lagW
  by_cases hu : u < ps.length
  · rw [dif_pos hu]
    by_cases hui : u = i
    · subst hui
      rw [if_pos rfl]
      exact Lagrange.eval_basis_self (v := fun j : Fin ps.length => ps[j]) (nodup_injOn h)
        (mem_univ (⟨u, hu⟩ : Fin ps.length))
    · rw [if_neg hui]
      exact Lagrange.eval_basis_of_ne (v := fun j : Fin ps.length => ps[j])
        (i := ⟨u, hu⟩) (j := ⟨i, hi⟩) (fun e => hui (congrArg Fin.val e)) (mem_univ _)
  · rw [dif_neg hu, if_neg (by omega)]

/-- A domain of distinct points; its Lagrange evaluations. -/
theorem zeroDomain_ok {ps : List F} {d : Verif.Univariate.Domain F} (h : zeroDomain ps = .ok d) :
    ps.Nodup ∧ ∀ z, d.lagrangeEvals id z = (List.range ps.length).map (lagW ps z) := by
  unfold zeroDomain at h
  cases hd : Verif.Univariate.Domain.fromPoints ps false with
  | error e => rw [hd] at h; cases h
  | ok d' =>
    rw [hd] at h
    obtain rfl : d' = d := by injection h
    have hn : ps.Nodup := by
      by_contra hn
      rw [(Verif.Univariate.C19_from_points ps false).2 hn] at hd
      cases hd
    refine ⟨hn, fun z => ?_⟩
    have := Verif.Univariate.lagrangeEvals_eq (RingHom.id F) ps false z hn d' hd
    refine this.trans ?_
    apply List.ext_getElem
    · simp
    · intro i h1 h2
      simp only [List.length_ofFn] at h1
      rw [List.getElem_ofFn, List.getElem_map, List.getElem_range, lagW, dif_pos h1]
      rfl

theorem zeroDomain_nodup {ps : List F} (h : ps.Nodup) : ∃ d, zeroDomain ps = .ok d := by
  obtain ⟨d, hd, -⟩ := (Verif.Univariate.C19_from_points ps false).1 h
  exact ⟨d, by unfold zeroDomain; rw [hd]⟩

/-! ## The points of the domains -/

section

variable {K : Type} [AddCommGroup K]

open Verif.Subspace

theorem mapM_range_iff {A : Type} (f : Nat → Option A) (n : Nat) (l : List A) :
    (List.range n).mapM f = some l ↔ l.length = n ∧ ∀ (i : Nat) (h : i < l.length), f i = some l[i] := by
  induction n generalizing l with
  | zero =>
    simp only [List.range_zero, List.mapM_nil]
    constructor
    · intro h
      obtain rfl : [] = l := by injection h
      simp
    · rintro ⟨h, -⟩
      rw [List.length_eq_zero_iff.mp h]
      rfl
  | succ n ih =>
    rw [List.range_succ, List.mapM_append]
    cases hm : (List.range n).mapM f with
    | none =>
      simp only [Option.bind_eq_bind, Option.bind_none]
      constructor
      · intro h; cases h
      · rintro ⟨h1, h2⟩
        have : (List.range n).mapM f = some (l.take n) := (ih _).mpr ⟨by
          rw [List.length_take]; omega, fun i hi => by
            rw [List.length_take] at hi
            rw [List.getElem_take]
            exact h2 i (by omega)⟩
        rw [hm] at this
        cases this
    | some l' =>
      obtain ⟨hl, hg⟩ := (ih l').mp hm
      cases hf : f n with
      | none =>
        simp only [List.mapM_cons, hf, Option.bind_eq_bind, Option.bind_none, Option.bind_some]
        constructor
        · intro h; cases h
        · rintro ⟨h1, h2⟩
          have := h2 n (by omega)
          rw [hf] at this
          cases this
      | some a =>
        have e : (do
            let ys₁ ← some l'
            let ys₂ ← List.mapM f [n]
            pure (ys₁ ++ ys₂)) = some (l' ++ [a]) := by
          simp [hf]
        rw [e]
        constructor
        · intro h
          obtain rfl : l' ++ [a] = l := by injection h
          refine ⟨by simp [hl], fun i hi => ?_⟩
          rw [List.length_append, List.length_singleton] at hi
          by_cases h : i < l'.length
          · rw [List.getElem_append_left h]; exact hg i h
          · obtain rfl : i = n := by omega
            rw [List.getElem_append_right (by omega)]
            simpa using hf
        · rintro ⟨h1, h2⟩
          refine congrArg some (List.ext_getElem (by simp [hl, h1]) fun i hi hi' => ?_)
          rw [List.length_append, List.length_singleton] at hi
          by_cases h : i < l'.length
          · rw [List.getElem_append_left h]
            have h3 := hg i h
            rw [h2 i hi'] at h3
            injection h3 with h3
            exact h3.symm
          · obtain rfl : i = n := by omega
            rw [List.getElem_append_right (by omega)]
            have h3 := h2 i hi'
            rw [hf] at h3
            injection h3 with h3
            simpa using h3

theorem subspacePoints_inv {basisChecked : Nat → Option K} {emb : K → F} {dim : Nat} {ps : List F}
    (h : subspacePoints basisChecked emb dim = .ok ps) :
    ∃ s : BinarySubspace K, withDim basisChecked dim = .ok s ∧ s.basis.length = dim ∧
      (∀ (i : Nat) (hi : i < s.basis.length), basisChecked i = some s.basis[i]) ∧
      ps = (s.isomorphic emb).iter := by
  unfold subspacePoints at h
  cases hs : withDim basisChecked dim with
  | error e => rw [hs] at h; cases h
  | ok s =>
    rw [hs] at h
    have hps : (s.isomorphic emb).iter = ps := by injection h
    have hs' := hs
    unfold withDim at hs'
    cases hm : (List.range dim).mapM basisChecked with
    | none => rw [hm] at hs'; cases hs'
    | some b =>
      rw [hm] at hs'
      obtain rfl : (⟨b⟩ : BinarySubspace K) = s := by injection hs'
      obtain ⟨h1, h2⟩ := (mapM_range_iff _ _ _).mp hm
      exact ⟨⟨b⟩, rfl, h1, h2, hps.symm⟩

theorem iter_length (s : BinarySubspace F) (h : s.basis.length ≤ 64) : s.iter.length = 2 ^ s.basis.length := by
  unfold BinarySubspace.iter BinarySubspace.last
  rw [List.length_map, List.length_range]
  split
  · have := Nat.two_pow_pos s.basis.length; omega
  · have : s.basis.length = 64 := by omega
    rw [this]; norm_num

theorem subspacePoints_length {basisChecked : Nat → Option K} {emb : K → F} {dim : Nat} {ps : List F}
    (hd : dim ≤ 64) (h : subspacePoints basisChecked emb dim = .ok ps) : ps.length = 2 ^ dim := by
  obtain ⟨s, -, h1, -, rfl⟩ := subspacePoints_inv h
  have e : (s.isomorphic emb).basis.length = dim := by
    show (s.basis.map emb).length = dim
    rw [List.length_map, h1]
  rw [iter_length _ (by omega), e]

/-- A larger subspace begins with the points of a smaller one. -/
theorem subspacePoints_prefix {basisChecked : Nat → Option K} {emb : K → F} {a b : Nat} {pa pb : List F}
    (hab : a ≤ b) (hb : b ≤ 64) (ha' : subspacePoints basisChecked emb a = .ok pa)
    (hb' : subspacePoints basisChecked emb b = .ok pb) (i : Nat) (hi : i < 2 ^ a) : pb[i]? = pa[i]? := by
  have hla := subspacePoints_length (by omega) ha'
  have hlb := subspacePoints_length hb hb'
  obtain ⟨s, -, h1, h2, rfl⟩ := subspacePoints_inv ha'
  obtain ⟨t, -, g1, g2, rfl⟩ := subspacePoints_inv hb'
  have hpow : 2 ^ a ≤ 2 ^ b := Nat.pow_le_pow_right (by omega) hab
  have hst : s.basis = t.basis.take a := by
    refine List.ext_getElem (by rw [List.length_take]; omega) fun j hj hj' => ?_
    rw [List.getElem_take]
    have e1 := h2 j hj
    rw [g2 j (by omega)] at e1
    injection e1 with e1
    exact e1.symm
  obtain ⟨r, hr, -, -, hget⟩ := (C23_reduce_dim (t.isomorphic emb) a).2 (by
    show a ≤ (t.basis.map emb).length
    rw [List.length_map]; omega)
  have hr' : r = s.isomorphic emb := by
    unfold BinarySubspace.reduceDim at hr
    rw [if_neg (by
      show ¬ a > (t.basis.map emb).length
      rw [List.length_map]; omega)] at hr
    injection hr with hr
    rw [← hr]
    show (⟨(t.basis.map emb).take a⟩ : BinarySubspace F) = ⟨s.basis.map emb⟩
    rw [hst, List.map_take]
  rw [hr'] at hget
  have key : ∀ (q : BinarySubspace F), i < q.iter.length → q.iter[i]? = some (q.get i) := by
    intro q hq
    unfold BinarySubspace.iter at hq ⊢
    rw [List.length_map, List.length_range] at hq
    rw [List.getElem?_map, List.getElem?_range hq]
    rfl
  rw [key _ (by omega), key _ (by omega), hget i hi]

theorem le_log2Ceil (n : Nat) : n ≤ 2 ^ log2CeilUsize n := by
  unfold log2CeilUsize
  have := Nat.lt_size_self (n - 1)
  omega

theorem log2Ceil_le (n m : Nat) (h : n ≤ 2 ^ m) : log2CeilUsize n ≤ m := by
  unfold log2CeilUsize
  rw [Nat.size_le]
  have := Nat.two_pow_pos m
  omega

theorem le_log2Ceil_of (n m : Nat) (h : 2 ^ m ≤ n) : m ≤ log2CeilUsize n := by
  have := le_log2Ceil n
  exact (Nat.pow_le_pow_iff_right (by omega : 1 < 2)).mp (h.trans this)

theorem innerProduct_map_drop (evals : List F) (n k : Nat) (w : Nat → F) (hl : evals.length = n - k) :
    innerProduct evals (((List.range n).map w).drop k) = ∑ i ∈ range (n - k), evals.getD i 0 * w (k + i) := by
  unfold innerProduct
  have e : List.zipWith (· * ·) evals (((List.range n).map w).drop k)
      = (List.range (n - k)).map fun i => evals.getD i 0 * w (k + i) := by
    refine List.ext_getElem (by simp [hl]) fun i hi hi' => ?_
    simp only [List.length_map, List.length_range] at hi'
    rw [List.getElem_zipWith, List.getElem_drop, List.getElem_map, List.getElem_range, List.getElem_map,
      List.getElem_range, List.getD_eq_getElem?_getD, List.getElem?_eq_getElem (by omega)]
    rfl
  rw [e, Finset.sum_range, ← List.sum_ofFn]
  congr 1
  refine List.ext_getElem (by simp) fun i hi hi' => ?_
  simp

/-- The value of the round polynomial: a polynomial of degree below the size of the domain that
vanishes on the points of the skipped variables. -/
theorem univariateSum_poly (basisChecked : Nat → Option K) (emb : K → F) (n skip : Nat)
    (hn : n ≤ 2 ^ 64) (evals : List F)
    (hl : evals.length = n - min (2 ^ skip) n) :
    (∃ e, ∀ z, univariateSum basisChecked emb n (min (2 ^ skip) n) evals z = .error e) ∨
    ∃ f : F → F, PolyFun (n - 1) f ∧
      (∀ z, univariateSum basisChecked emb n (min (2 ^ skip) n) evals z = .ok (f z)) ∧
      ∀ ps, subspacePoints basisChecked emb skip = .ok ps → ∀ u < 2 ^ skip, ∀ hu : u < ps.length,
        f ps[u] = 0 := by
  unfold univariateSum
  cases hp : subspacePoints basisChecked emb (log2CeilUsize n) with
  | error e => exact Or.inl ⟨e, fun z => rfl⟩
  | ok points =>
    simp only
    have hdim := log2Ceil_le n 64 hn
    have hlen := subspacePoints_length hdim hp
    have hle := le_log2Ceil n
    cases hd : zeroDomain (points.take n) with
    | error e => exact Or.inl ⟨e, fun z => rfl⟩
    | ok d =>
      simp only
      obtain ⟨hnd, hev⟩ := zeroDomain_ok hd
      have htl : (points.take n).length = n := by rw [List.length_take]; omega
      right
      refine ⟨fun z => ∑ i ∈ range (n - min (2 ^ skip) n),
        evals.getD i 0 * lagW (points.take n) z (min (2 ^ skip) n + i), ?_, fun z => ?_, ?_⟩
      · refine PolyFun.finsum _ _ fun i _ => ?_
        have := lagW_poly hnd (min (2 ^ skip) n + i)
        rw [htl] at this
        exact this.smul _
      · rw [hev z, htl, if_neg (by
          rw [List.length_map, List.length_range]
          omega), innerProduct_map_drop _ _ _ _ hl]
      · intro ps hps u hu hu'
        show ∑ i ∈ range (n - min (2 ^ skip) n),
          evals.getD i 0 * lagW (points.take n) ps[u] (min (2 ^ skip) n + i) = 0
        refine Finset.sum_eq_zero fun i hi => ?_
        rw [Finset.mem_range] at hi
        have hpos : 2 ^ skip ≤ n := by omega
        have hsd := le_log2Ceil_of n skip hpos
        have hpre := subspacePoints_prefix hsd hdim hps hp u hu
        have hup : u < (points.take n).length := by omega
        have he : (points.take n)[u] = ps[u] := by
          rw [List.getElem_take]
          rw [List.getElem?_eq_getElem (by omega), List.getElem?_eq_getElem hu'] at hpre
          injection hpre
        rw [← he, lagW_point hnd u hup, if_neg (by omega), mul_zero]

/-- What the check of the reduction's output compares with. -/
theorem lagrangeMle_eval {ps : List F} {d : Verif.Univariate.Domain F} (h : zeroDomain ps = .ok d)
    (skip : Nat) (hlen : ps.length = 2 ^ skip) (z : F) (s : List F) (hs : s.length = skip) :
    ∃ m, lagrangeMle d z = .ok m ∧ evaluateMle m s = .ok (mle (lagW ps z) s) := by
  obtain ⟨-, hev⟩ := zeroDomain_ok h
  have hl : (d.lagrangeEvals id z).length = 2 ^ skip := by rw [hev]; simp [hlen]
  have hlog : (2 ^ skip).log2 = skip := Nat.log2_two_pow
  have hnew : Verif.Tensor.Mlx.new 0 skip (⟨2 ^ skip, fun i => (d.lagrangeEvals id z).getD i 0⟩ : Slice F)
      = .ok ⟨skip, ⟨2 ^ skip, fun i => (d.lagrangeEvals id z).getD i 0⟩⟩ := by
    have hp : Verif.Tensor.packedLen 0 (⟨2 ^ skip, fun i => (d.lagrangeEvals id z).getD i 0⟩ : Slice F)
        = 2 ^ skip := by simp [Verif.Tensor.packedLen]
    unfold Verif.Tensor.Mlx.new
    rw [hp, if_neg (by simpa using ⟨skip, rfl⟩), if_neg (by omega), hlog, if_neg (by omega)]
  refine ⟨⟨skip, ⟨2 ^ skip, fun i => (d.lagrangeEvals id z).getD i 0⟩⟩, ?_, ?_⟩
  · unfold lagrangeMle
    simp only [hl, hlog]
    rw [if_neg (by simp), hnew]
  · obtain ⟨q, e, hq, hqn, hqe, -, hqv⟩ := Verif.Tensor.C17_expand 0 s
    unfold evaluateMle
    rw [hq]
    simp only
    rw [(Verif.Tensor.C17_evaluate id 0 0 skip _ _ q s (by simp) hnew ⟨hqn, e, hqe, hqv⟩ (by omega)).1 hs.symm]
    simp only
    refine congrArg _ (mle_congr fun i hi => ?_)
    rw [hs] at hi
    simp only [id]
    rw [hev, List.getD_eq_getElem?_getD, List.getElem?_map, List.getElem?_range (by omega)]
    rfl

end

end Verif.Sumcheck
