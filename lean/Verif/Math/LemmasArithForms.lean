import Verif.Math.LemmasArithCompress
import Mathlib.Algebra.BigOperators.Group.Finset.Basic
import Mathlib.Algebra.BigOperators.Ring.Finset

/-! Lemmas for C21: degrees, normal forms, expressions. -/

set_option linter.unusedSectionVars false

namespace Verif.Arith

open Finset

variable {F : Type*} [CommRing F] [DecidableEq F]

/-! ### Variables -/

theorem nVars_spec (c : Circuit F) : (∀ x, Step.var x ∈ c → x < nVars c) ∧
    (0 < nVars c → Step.var (nVars c - 1) ∈ c) := by
  unfold nVars
  set l := c.map (fun | .var i => i + 1 | _ => 0 : Step F → Nat) with hl
  cases hm : l.max? with
  | none =>
    rw [List.max?_eq_none_iff] at hm
    have hc : c = [] := List.map_eq_nil_iff.1 hm
    subst hc
    exact ⟨fun x hx => by simp at hx, fun h => by simp at h⟩
  | some m =>
    have := List.max?_eq_some_iff.1 hm
    constructor
    · intro x hx
      have h1 : x + 1 ∈ l := List.mem_map.2 ⟨.var x, hx, rfl⟩
      have := this.2 _ h1
      show x < m
      omega
    · intro hpos
      obtain ⟨s, hs, hsm⟩ := List.mem_map.1 this.1
      have hpos' : 0 < m := hpos
      cases s with
      | var i =>
        have : i + 1 = m := hsm
        show Step.var (m - 1) ∈ c
        rw [show m - 1 = i by omega]
        exact hs
      | _ => exact absurd (show 0 = m from hsm) (by omega)

theorem varsUsage_fold (c : Circuit F) (u : List Bool) :
    (c.foldl (fun u s => match s with | .var i => u.set i true | _ => u) u).length = u.length ∧
    ∀ i : Nat, (c.foldl (fun u s => match s with | .var i => u.set i true | _ => u) u)[i]? = some true ↔
      u[i]? = some true ∨ (i < u.length ∧ Step.var i ∈ c) := by
  induction c generalizing u with
  | nil => exact ⟨rfl, fun i => by simp⟩
  | cons s c ih =>
    rw [List.foldl_cons]
    cases s with
    | var x =>
      obtain ⟨h1, h2⟩ := ih (u.set x true)
      refine ⟨by rw [h1]; simp, fun i => ?_⟩
      dsimp only at h2 ⊢
      rw [h2 i, List.length_set, List.getElem?_set]
      by_cases hx : x = i
      · subst hx
        by_cases hl : x < u.length <;> simp [hl]
      · simp [hx, Ne.symm hx]
    | add _ _ => obtain ⟨h1, h2⟩ := ih u; exact ⟨h1, fun i => by dsimp only at h2 ⊢; rw [h2 i]; simp⟩
    | mul _ _ => obtain ⟨h1, h2⟩ := ih u; exact ⟨h1, fun i => by dsimp only at h2 ⊢; rw [h2 i]; simp⟩
    | pow _ _ => obtain ⟨h1, h2⟩ := ih u; exact ⟨h1, fun i => by dsimp only at h2 ⊢; rw [h2 i]; simp⟩
    | const _ => obtain ⟨h1, h2⟩ := ih u; exact ⟨h1, fun i => by dsimp only at h2 ⊢; rw [h2 i]; simp⟩

/-! ### Conversion -/

/-- One step converted. -/
def Step.conv {G : Type*} (emb : F → G) : Step F → Step G
  | .const v => .const (emb v)
  | .var i => .var i
  | .add l r => .add l r
  | .mul l r => .mul l r
  | .pow b e => .pow b e

theorem convertField_get {G : Type*} (emb : F → G) (c : Circuit F) (i : Nat) :
    (convertField emb c)[i]? = c[i]?.map (Step.conv emb) := by
  rw [convertField, List.getElem?_map]
  cases c[i]? with
  | none => rfl
  | some s => cases s <;> rfl

theorem convertField_wf {G : Type*} {emb : F → G} {c : Circuit F} (h : WF c) : WF (convertField emb c) := by
  intro i s hs r hr
  rw [convertField_get] at hs
  obtain ⟨t, ht, rfl⟩ := Option.map_eq_some_iff.1 hs
  refine h i t ht r ?_
  cases t <;> exact hr

/-! ### Degrees -/

/-- An abstract notion of degree bound. -/
structure DegBound {R : Type*} [CommRing R] (emb : F → R) (q : List R) (P : Nat → R → Prop) : Prop where
  const : ∀ c, P 0 (emb c)
  var : ∀ (i : Nat) x, q[i]? = some x → P 1 x
  add : ∀ a b x y, P a x → P b y → P (max a b) (x + y)
  mul : ∀ a b x y, P a x → P b y → P (a + b) (x * y)
  pow : ∀ a e x, P a x → P (a * e) (x ^ e)

theorem stepDegree_spec {c : Circuit F} (hc : WF c) : ∀ f i, i < f → i < c.length →
    ∃ d, stepDegree c f i = some d ∧
      ∀ {R : Type*} [CommRing R] (emb : F → R) (q : List R) (P : Nat → R → Prop), DegBound emb q P →
        ∀ v, Val q (convertField emb c) v → P d (v i)
  | 0, i, h, _ => by omega
  | f + 1, i, h, hi => by
    rw [stepDegree, List.getElem?_eq_getElem hi, Option.bind_some]
    have hci : c[i]? = some c[i] := List.getElem?_eq_getElem hi
    have hw := hc i _ hci
    generalize c[i] = s at hci hw
    have hval : ∀ {R : Type _} [CommRing R] (emb : F → R) (q : List R) (v : Nat → R),
        Val q (convertField emb c) v → StepVal q v i (s.conv emb) := fun emb q v hv =>
      hv i _ (by rw [convertField_get, hci]; rfl)
    cases s with
    | const a =>
      exact ⟨0, rfl, fun emb q P hP v hv => by
        have : v i = emb a := hval emb q v hv
        rw [this]; exact hP.const a⟩
    | var x => exact ⟨1, rfl, fun emb q P hP v hv => hP.var x _ (hval emb q v hv)⟩
    | add l r =>
      have h1 := hw l (by simp [Step.refs]); have h2 := hw r (by simp [Step.refs])
      obtain ⟨a, ea, pa⟩ := stepDegree_spec hc f l (by omega) (by omega)
      obtain ⟨b, eb, pb⟩ := stepDegree_spec hc f r (by omega) (by omega)
      refine ⟨max a b, by dsimp only; rw [ea, eb]; rfl, fun emb q P hP v hv => ?_⟩
      rw [(hval emb q v hv).2.2]
      exact hP.add _ _ _ _ (pa emb q P hP v hv) (pb emb q P hP v hv)
    | mul l r =>
      have h1 := hw l (by simp [Step.refs]); have h2 := hw r (by simp [Step.refs])
      obtain ⟨a, ea, pa⟩ := stepDegree_spec hc f l (by omega) (by omega)
      obtain ⟨b, eb, pb⟩ := stepDegree_spec hc f r (by omega) (by omega)
      refine ⟨a + b, by dsimp only; rw [ea, eb]; rfl, fun emb q P hP v hv => ?_⟩
      rw [(hval emb q v hv).2.2]
      exact hP.mul _ _ _ _ (pa emb q P hP v hv) (pb emb q P hP v hv)
    | pow b e =>
      have h1 := hw b (by simp [Step.refs])
      obtain ⟨a, ea, pa⟩ := stepDegree_spec hc f b (by omega) (by omega)
      refine ⟨a * e, by dsimp only; rw [ea]; rfl, fun emb q P hP v hv => ?_⟩
      rw [(hval emb q v hv).2]
      exact hP.pow _ _ _ (pa emb q P hP v hv)

theorem stepDegree_some {c : Circuit F} (hc : WF c) (f i : Nat) (h : i < f) (hi : i < c.length) :
    ∃ d, stepDegree c f i = some d := by
  obtain ⟨d, hd, -⟩ := stepDegree_spec.{_, 0} hc f i h hi
  exact ⟨d, hd⟩

/-! ### Linear normal form -/

/-- The sum of the entries of an association list at an assignment. -/
def asum (m : List (Nat × F)) (x : Nat → F) : F := (m.map fun p => p.2 * x p.1).sum

theorem asum_nil (x : Nat → F) : asum [] x = 0 := rfl

theorem asum_cons (p : Nat × F) (m : List (Nat × F)) (x : Nat → F) :
    asum (p :: m) x = p.2 * x p.1 + asum m x := by simp [asum]

theorem asum_upsert (m : List (Nat × F)) (i : Nat) (v : F) (x : Nat → F) :
    asum (upsert m i v) x = asum m x + v * x i := by
  induction m with
  | nil => simp [upsert, asum]
  | cons p m ih =>
    obtain ⟨j, w⟩ := p
    rw [upsert]
    by_cases h : j = i
    · rw [if_pos h, asum_cons, asum_cons, h]; ring
    · rw [if_neg h, asum_cons, asum_cons, ih]; ring

theorem upsert_keys (m : List (Nat × F)) (i : Nat) (v : F) :
    (∀ k, k ∈ (upsert m i v).map Prod.fst ↔ k = i ∨ k ∈ m.map Prod.fst) ∧
    ((m.map Prod.fst).Nodup → ((upsert m i v).map Prod.fst).Nodup) := by
  induction m with
  | nil => simp [upsert]
  | cons p m ih =>
    obtain ⟨j, w⟩ := p
    rw [upsert]
    by_cases h : j = i
    · rw [if_pos h]
      subst h
      exact ⟨fun k => by simp, fun hn => by simpa using hn⟩
    · rw [if_neg h]
      refine ⟨fun k => ?_, fun hn => ?_⟩
      · simp only [List.map_cons, List.mem_cons, ih.1]; tauto
      · rw [List.map_cons, List.nodup_cons] at hn ⊢
        refine ⟨fun hj => ?_, ih.2 hn.2⟩
        rcases (ih.1 _).1 hj with hj | hj
        exacts [h hj, hn.1 hj]

theorem fold_upsert (l m : List (Nat × F)) :
    (∀ x, asum (l.foldl (fun m p => upsert m p.1 p.2) m) x = asum m x + asum l x) ∧
    (∀ k, k ∈ (l.foldl (fun m p => upsert m p.1 p.2) m).map Prod.fst ↔
      k ∈ l.map Prod.fst ∨ k ∈ m.map Prod.fst) ∧
    ((m.map Prod.fst).Nodup → ((l.foldl (fun m p => upsert m p.1 p.2) m).map Prod.fst).Nodup) := by
  induction l generalizing m with
  | nil => simp [asum]
  | cons p l ih =>
    obtain ⟨h1, h2, h3⟩ := ih (upsert m p.1 p.2)
    obtain ⟨k1, k2⟩ := upsert_keys m p.1 p.2
    refine ⟨fun x => ?_, fun k => ?_, fun hn => ?_⟩
    · rw [List.foldl_cons, h1, asum_upsert, asum_cons]; ring
    · rw [List.foldl_cons, h2, k1, List.map_cons, List.mem_cons]; tauto
    · rw [List.foldl_cons]; exact h3 (k2 hn)

/-- Invariant of sparse forms. -/
structure SInv (s : Sparse F) : Prop where
  nodup : (s.coeffs.map Prod.fst).Nodup
  lt : ∀ k ∈ s.coeffs.map Prod.fst, k < s.denseLen
  empty : s.coeffs = [] ↔ s.denseLen = 0

/-- The value of a sparse form. -/
def Sparse.val (s : Sparse F) (x : Nat → F) : F := s.constant + asum s.coeffs x

theorem Sparse.add_spec {a b : Sparse F} (ha : SInv a) (hb : SInv b) :
    SInv (a.add b) ∧ (∀ x, (a.add b).val x = a.val x + b.val x) ∧
      (a.coeffs = [] → b.coeffs = [] → (a.add b).coeffs = []) := by
  have main : ∀ r c : Sparse F, SInv r → SInv c →
      SInv ⟨r.constant + c.constant, c.coeffs.foldl (fun m p => upsert m p.1 p.2) r.coeffs,
        if c.denseLen > r.denseLen then c.denseLen else r.denseLen⟩ ∧
      ∀ x, Sparse.val ⟨r.constant + c.constant, c.coeffs.foldl (fun m p => upsert m p.1 p.2) r.coeffs,
        if c.denseLen > r.denseLen then c.denseLen else r.denseLen⟩ x = r.val x + c.val x := by
    intro r c hr hc
    obtain ⟨h1, h2, h3⟩ := fold_upsert c.coeffs r.coeffs
    refine ⟨⟨h3 hr.nodup, fun k hk => ?_, ?_⟩, fun x => ?_⟩
    · show k < if c.denseLen > r.denseLen then c.denseLen else r.denseLen
      rcases (h2 k).1 hk with h | h
      · have := hc.lt k h; split <;> omega
      · have := hr.lt k h; split <;> omega
    · show c.coeffs.foldl _ _ = [] ↔ (if c.denseLen > r.denseLen then c.denseLen else r.denseLen) = 0
      constructor
      · intro h0
        have he : ∀ k, ¬ (k ∈ c.coeffs.map Prod.fst ∨ k ∈ r.coeffs.map Prod.fst) := fun k hk => by
          have := (h2 k).2 hk
          rw [h0] at this
          simp at this
        have e1 : c.coeffs = [] := by
          rcases hcc : c.coeffs with _ | ⟨p, l⟩
          · rfl
          · exact absurd (Or.inl (by rw [hcc]; simp)) (he p.1)
        have e2 : r.coeffs = [] := by
          rcases hcc : r.coeffs with _ | ⟨p, l⟩
          · rfl
          · exact absurd (Or.inr (by rw [hcc]; simp)) (he p.1)
        rw [hc.empty.1 e1, hr.empty.1 e2]; rfl
      · intro h0
        have e1 : c.denseLen = 0 := by split at h0 <;> omega
        have e2 : r.denseLen = 0 := by split at h0 <;> omega
        rw [hc.empty.2 e1, hr.empty.2 e2]; rfl
    · show (_ + _) + asum _ x = _
      rw [h1 x]
      unfold Sparse.val
      ring
  unfold Sparse.add
  by_cases h : a.coeffs.length < b.coeffs.length
  · rw [if_pos h]
    obtain ⟨h1, h2⟩ := main b a hb ha
    exact ⟨h1, fun x => by rw [h2 x]; ring, fun e1 e2 => by show List.foldl _ _ _ = _; rw [e1, e2]; rfl⟩
  · rw [if_neg h]
    obtain ⟨h1, h2⟩ := main a b ha hb
    exact ⟨h1, h2, fun e1 e2 => by show List.foldl _ _ _ = _; rw [e1, e2]; rfl⟩

theorem asum_scale (m : List (Nat × F)) (k : F) (x : Nat → F) :
    asum (m.map fun p => (p.1, p.2 * k)) x = asum m x * k := by
  induction m with
  | nil => simp [asum]
  | cons p m ih => rw [List.map_cons, asum_cons, asum_cons, ih]; ring

theorem Sparse.mul_spec {a b s : Sparse F} (ha : SInv a) (hb : SInv b) (h : a.mul b = some s) :
    SInv s ∧ (∀ x, s.val x = a.val x * b.val x) ∧ (a.coeffs = [] → b.coeffs = [] → s.coeffs = []) := by
  have main : ∀ r c : Sparse F, SInv r → c.coeffs = [] →
      SInv ⟨r.constant * c.constant, r.coeffs.map (fun p => (p.1, p.2 * c.constant)), r.denseLen⟩ ∧
      ∀ x, Sparse.val ⟨r.constant * c.constant, r.coeffs.map (fun p => (p.1, p.2 * c.constant)), r.denseLen⟩ x =
        r.val x * c.val x := by
    intro r c hr hc
    have hk : (r.coeffs.map (fun p => (p.1, p.2 * c.constant))).map Prod.fst = r.coeffs.map Prod.fst := by
      rw [List.map_map]; rfl
    refine ⟨⟨by show (List.map _ _).Nodup; rw [hk]; exact hr.nodup,
      by show ∀ k ∈ List.map _ _, _; rw [hk]; exact hr.lt, ?_⟩, fun x => ?_⟩
    · show List.map _ _ = [] ↔ r.denseLen = 0
      rw [List.map_eq_nil_iff, hr.empty]
    · show _ * _ + asum _ x = _
      rw [asum_scale]
      unfold Sparse.val
      rw [hc, asum_nil]
      ring
  unfold Sparse.mul at h
  by_cases h0 : a.coeffs ≠ [] ∧ b.coeffs ≠ []
  · rw [if_pos h0] at h; cases h
  · rw [if_neg h0] at h
    by_cases ha0 : a.coeffs = []
    · rw [if_pos ha0] at h
      cases h
      obtain ⟨h1, h2⟩ := main b a hb ha0
      exact ⟨h1, fun x => by rw [h2 x]; ring, fun _ e2 => by show List.map _ _ = _; rw [e2]; rfl⟩
    · rw [if_neg ha0] at h
      have hb0 : b.coeffs = [] := by
        by_contra hb0
        exact h0 ⟨ha0, hb0⟩
      cases h
      obtain ⟨h1, h2⟩ := main a b ha hb0
      exact ⟨h1, h2, fun e1 => absurd e1 ha0⟩

theorem Sparse.ofConst_inv (k : F) : SInv (Sparse.ofConst k) :=
  ⟨by simp [Sparse.ofConst], by simp [Sparse.ofConst], by simp [Sparse.ofConst]⟩

theorem Sparse.ofConst_val (k : F) (x : Nat → F) : (Sparse.ofConst k).val x = k := by
  simp [Sparse.ofConst, Sparse.val, asum]

/-- The recursion for sparse forms: it always ends; a form it returns has the value of the step; and it
returns a form for every step of degree at most one, without variables if the degree is zero. -/
theorem sparseStep_spec {c : Circuit F} (hc : WF c) : ∀ f i, i < f → i < c.length →
    ∃ o, sparseStep c f i = some o ∧
      (∀ s, o = some s → SInv s ∧ ∀ q v, Val q c v → v i = s.val (fun k => q.getD k 0)) ∧
      (∀ d, stepDegree c f i = some d → (d ≤ 1 → ∃ s, o = some s) ∧
        (d = 0 → ∃ s, o = some s ∧ s.coeffs = []))
  | 0, i, h, _ => by omega
  | f + 1, i, h, hi => by
    rw [sparseStep, stepDegree, List.getElem?_eq_getElem hi, Option.bind_some, Option.bind_some]
    have hci : c[i]? = some c[i] := List.getElem?_eq_getElem hi
    have hw := hc i _ hci
    generalize c[i] = s at hci hw
    cases s with
    | const a =>
      refine ⟨_, rfl, fun s hs => ?_, fun d _ => ⟨fun _ => ⟨_, rfl⟩, fun _ => ⟨_, rfl, rfl⟩⟩⟩
      cases hs
      exact ⟨Sparse.ofConst_inv a, fun q v hv => by rw [Sparse.ofConst_val]; exact hv i _ hci⟩
    | var x =>
      refine ⟨_, rfl, fun s hs => ?_, fun d hd => ⟨fun _ => ⟨_, rfl⟩, fun h0 => ?_⟩⟩
      · cases hs
        refine ⟨⟨by simp, by simp, by simp⟩, fun q v hv => ?_⟩
        have h1 : q[x]? = some (v i) := hv i _ hci
        simp [Sparse.val, asum, h1]
      · cases hd; omega
    | add l r =>
      have h1 := hw l (by simp [Step.refs]); have h2 := hw r (by simp [Step.refs])
      obtain ⟨o1, e1, p1, d1⟩ := sparseStep_spec hc f l (by omega) (by omega)
      obtain ⟨o2, e2, p2, d2⟩ := sparseStep_spec hc f r (by omega) (by omega)
      obtain ⟨a, ea⟩ := stepDegree_some hc f l (by omega) (by omega)
      obtain ⟨b, eb⟩ := stepDegree_some hc f r (by omega) (by omega)
      dsimp only
      rw [e1, ea, eb, Option.bind_some, Option.bind_some, Option.bind_some]
      cases o1 with
      | none =>
        refine ⟨none, rfl, fun s hs => by (cases hs), fun d hd => ?_⟩
        cases hd
        have hcon : ¬ a ≤ 1 := fun h => by obtain ⟨s, hs⟩ := (d1 a ea).1 h; cases hs
        exact ⟨fun h => absurd (show a ≤ 1 by omega) hcon, fun h => absurd (show a ≤ 1 by omega) hcon⟩
      | some s1 =>
        dsimp only
        rw [e2, Option.bind_some]
        cases o2 with
        | none =>
          refine ⟨none, rfl, fun s hs => by (cases hs), fun d hd => ?_⟩
          cases hd
          have hcon : ¬ b ≤ 1 := fun h => by obtain ⟨s, hs⟩ := (d2 b eb).1 h; cases hs
          exact ⟨fun h => absurd (show b ≤ 1 by omega) hcon, fun h => absurd (show b ≤ 1 by omega) hcon⟩
        | some s2 =>
          obtain ⟨i1, v1⟩ := p1 s1 rfl
          obtain ⟨i2, v2⟩ := p2 s2 rfl
          obtain ⟨k1, k2, k3⟩ := Sparse.add_spec i1 i2
          refine ⟨_, rfl, fun s hs => ?_, fun d hd => ⟨fun _ => ⟨_, rfl⟩, fun h0 => ⟨_, rfl, ?_⟩⟩⟩
          · cases hs
            refine ⟨k1, fun q v hv => ?_⟩
            rw [k2, ← v1 q v hv, ← v2 q v hv]
            exact (hv i _ hci).2.2
          · cases hd
            obtain ⟨t1, ht1, z1⟩ := (d1 a ea).2 (by omega)
            obtain ⟨t2, ht2, z2⟩ := (d2 b eb).2 (by omega)
            cases ht1; cases ht2
            exact k3 z1 z2
    | mul l r =>
      have h1 := hw l (by simp [Step.refs]); have h2 := hw r (by simp [Step.refs])
      obtain ⟨o1, e1, p1, d1⟩ := sparseStep_spec hc f l (by omega) (by omega)
      obtain ⟨o2, e2, p2, d2⟩ := sparseStep_spec hc f r (by omega) (by omega)
      obtain ⟨a, ea⟩ := stepDegree_some hc f l (by omega) (by omega)
      obtain ⟨b, eb⟩ := stepDegree_some hc f r (by omega) (by omega)
      dsimp only
      rw [e1, ea, eb, Option.bind_some, Option.bind_some, Option.bind_some]
      cases o1 with
      | none =>
        refine ⟨none, rfl, fun s hs => by (cases hs), fun d hd => ?_⟩
        cases hd
        have hcon : ¬ a ≤ 1 := fun h => by obtain ⟨s, hs⟩ := (d1 a ea).1 h; cases hs
        exact ⟨fun h => absurd (show a ≤ 1 by omega) hcon, fun h => absurd (show a ≤ 1 by omega) hcon⟩
      | some s1 =>
        dsimp only
        rw [e2, Option.bind_some]
        cases o2 with
        | none =>
          refine ⟨none, rfl, fun s hs => by (cases hs), fun d hd => ?_⟩
          cases hd
          have hcon : ¬ b ≤ 1 := fun h => by obtain ⟨s, hs⟩ := (d2 b eb).1 h; cases hs
          exact ⟨fun h => absurd (show b ≤ 1 by omega) hcon, fun h => absurd (show b ≤ 1 by omega) hcon⟩
        | some s2 =>
          obtain ⟨i1, v1⟩ := p1 s1 rfl
          obtain ⟨i2, v2⟩ := p2 s2 rfl
          refine ⟨_, rfl, fun s hs => ?_, fun d hd => ?_⟩
          · obtain ⟨k1, k2, -⟩ := Sparse.mul_spec i1 i2 hs
            refine ⟨k1, fun q v hv => ?_⟩
            rw [k2, ← v1 q v hv, ← v2 q v hv]
            exact (hv i _ hci).2.2
          · cases hd
            have hex : a + b ≤ 1 → ∃ s, s1.mul s2 = some s := by
              intro hab
              have hz : s1.coeffs = [] ∨ s2.coeffs = [] := by
                rcases Nat.eq_zero_or_pos a with h0 | h0
                · obtain ⟨t1, ht1, z1⟩ := (d1 a ea).2 h0
                  cases ht1; exact Or.inl z1
                · obtain ⟨t1, ht1, z1⟩ := (d2 b eb).2 (by omega)
                  cases ht1; exact Or.inr z1
              unfold Sparse.mul
              rw [if_neg (by tauto)]
              exact ⟨_, rfl⟩
            refine ⟨hex, fun h0 => ?_⟩
            obtain ⟨s, hs⟩ := hex (by omega)
            obtain ⟨t1, ht1, z1⟩ := (d1 a ea).2 (by omega)
            obtain ⟨t2, ht2, z2⟩ := (d2 b eb).2 (by omega)
            cases ht1; cases ht2
            exact ⟨s, hs, (Sparse.mul_spec i1 i2 hs).2.2 z1 z2⟩
    | pow b e =>
      have h1 := hw b (by simp [Step.refs])
      obtain ⟨o1, e1, p1, d1⟩ := sparseStep_spec hc f b (by omega) (by omega)
      obtain ⟨a, ea⟩ := stepDegree_some hc f b (by omega) (by omega)
      dsimp only
      rw [ea, Option.bind_some]
      by_cases he0 : e = 0
      · rw [if_pos he0]
        refine ⟨_, rfl, fun s hs => ?_, fun d hd => ⟨fun _ => ⟨_, rfl⟩, fun _ => ⟨_, rfl, rfl⟩⟩⟩
        cases hs
        refine ⟨Sparse.ofConst_inv 1, fun q v hv => ?_⟩
        rw [Sparse.ofConst_val, (hv i _ hci).2, he0, pow_zero]
      · rw [if_neg he0]
        by_cases he1 : e = 1
        · rw [if_pos he1, e1]
          refine ⟨o1, rfl, fun s hs => ?_, fun d hd => ?_⟩
          · obtain ⟨i1, v1⟩ := p1 s hs
            refine ⟨i1, fun q v hv => ?_⟩
            rw [← v1 q v hv, (hv i _ hci).2, he1, pow_one]
          · cases hd
            rw [he1, Nat.mul_one]
            exact d1 a ea
        · rw [if_neg he1, e1, Option.bind_some]
          cases o1 with
          | none =>
            refine ⟨none, rfl, fun s hs => by (cases hs), fun d hd => ?_⟩
            cases hd
            have hcon : ¬ a ≤ 1 := fun h => by obtain ⟨s, hs⟩ := (d1 a ea).1 h; cases hs
            have h2 : ¬ a * e ≤ 1 := by
              have : 2 * 1 ≤ a * e := Nat.mul_le_mul (by omega) (by omega)
              omega
            exact ⟨fun h => absurd h h2, fun h => absurd (show a * e ≤ 1 by omega) h2⟩
          | some s1 =>
            obtain ⟨i1, v1⟩ := p1 s1 rfl
            dsimp only
            by_cases hz : s1.denseLen ≠ 0
            · rw [if_pos hz]
              refine ⟨none, rfl, fun s hs => by (cases hs), fun d hd => ?_⟩
              cases hd
              have h0 : a ≠ 0 := fun h => by
                obtain ⟨t, ht, z⟩ := (d1 a ea).2 h
                cases ht
                exact hz (i1.empty.1 z)
              have h2 : ¬ a * e ≤ 1 := by
                have : 1 * 2 ≤ a * e := Nat.mul_le_mul (by omega) (by omega)
                omega
              exact ⟨fun h => absurd h h2, fun h => absurd (show a * e ≤ 1 by omega) h2⟩
            · rw [if_neg hz]
              refine ⟨_, rfl, fun s hs => ?_, fun d hd => ⟨fun _ => ⟨_, rfl⟩, fun _ => ⟨_, rfl, rfl⟩⟩⟩
              cases hs
              refine ⟨Sparse.ofConst_inv _, fun q v hv => ?_⟩
              have hz' : s1.coeffs = [] := i1.empty.2 (not_not.1 hz)
              have h3 := v1 q v hv
              rw [Sparse.val, hz', asum_nil, add_zero] at h3
              rw [Sparse.ofConst_val, (hv i _ hci).2, h3]

theorem dsum_set (v : List F) (i : Nat) (k : F) (x : Nat → F) (hi : i < v.length) (h0 : v[i]? = some 0) :
    ∑ j ∈ range (v.set i k).length, (v.set i k).getD j 0 * x j = (∑ j ∈ range v.length, v.getD j 0 * x j) + k * x i := by
  rw [List.length_set]
  have h1 : ∀ j, (v.set i k).getD j 0 * x j = v.getD j 0 * x j + if j = i then k * x i else 0 := by
    intro j
    rw [List.getD_eq_getElem?_getD, List.getElem?_set, List.getD_eq_getElem?_getD]
    by_cases h : i = j
    · subst h
      rw [if_pos rfl, if_pos hi, h0, if_pos rfl]
      simp
    · rw [if_neg h, if_neg (Ne.symm h), add_zero]
  rw [sum_congr rfl fun j _ => h1 j, sum_add_distrib, sum_ite_eq' (range v.length), if_pos (mem_range.2 hi)]

theorem dense_fold (m : List (Nat × F)) (v : List F) (hn : (m.map Prod.fst).Nodup)
    (hm : ∀ k ∈ m.map Prod.fst, v[k]? = some 0) :
    ∃ v', m.foldlM (fun v p => setAt v p.1 p.2) v = some v' ∧ v'.length = v.length ∧
      ∀ x : Nat → F, ∑ j ∈ range v'.length, v'.getD j 0 * x j =
        (∑ j ∈ range v.length, v.getD j 0 * x j) + asum m x := by
  induction m generalizing v with
  | nil => exact ⟨v, rfl, rfl, fun x => by rw [asum_nil, add_zero]⟩
  | cons p m ih =>
    rw [List.map_cons, List.nodup_cons] at hn
    have hp := hm p.1 (by simp)
    have hpl := lt_of_get hp
    obtain ⟨v', h1, h2, h3⟩ := ih (v.set p.1 p.2) hn.2 (fun k hk => by
      rw [List.getElem?_set, if_neg (show ¬ p.1 = k from fun h => hn.1 (by rw [h]; exact hk))]
      exact hm k (by simp at hk ⊢; exact Or.inr hk))
    refine ⟨v', ?_, by rw [h2]; simp, fun x => ?_⟩
    · rw [List.foldlM_cons, setAt, if_pos hpl]
      exact h1
    · rw [h3 x, dsum_set v p.1 p.2 x hpl hp, asum_cons]; ring

theorem Sparse.dense_spec {s : Sparse F} (h : SInv s) :
    ∃ v, s.dense = some (s.constant, v) ∧ v.length = s.denseLen ∧
      ∀ x, s.val x = s.constant + ∑ j ∈ range v.length, v.getD j 0 * x j := by
  obtain ⟨v, h1, h2, h3⟩ := dense_fold s.coeffs (List.replicate s.denseLen 0) h.nodup (fun k hk => by
    rw [List.getElem?_replicate, if_pos (h.lt k hk)])
  refine ⟨v, by rw [Sparse.dense, h1]; rfl, by rw [h2]; simp, fun x => ?_⟩
  rw [h3 x, Sparse.val]
  congr 1
  rw [sum_eq_zero fun j _ => ?_, zero_add]
  rw [List.getD_eq_getElem?_getD, List.getElem?_replicate]
  split <;> simp

end Verif.Arith
