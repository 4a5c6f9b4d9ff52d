import Verif.Math.LemmasArithExpr
import Mathlib.Algebra.Polynomial.Degree.Lemmas
import Mathlib.Algebra.MvPolynomial.Degrees
import Mathlib.Data.ZMod.Basic

/-! C21: transformations of arithmetic circuits preserve their meaning. -/

set_option linter.unusedSectionVars false

namespace Verif.Arith

open Finset

variable {F : Type*} [CommRing F] [DecidableEq F]

/-! ### Building circuits -/

theorem wf_add {a b : Circuit F} (ha0 : a ≠ []) (hb0 : b ≠ []) (ha : WF a) (hb : WF b) : WF (add a b) := by
  have hz : ∀ c : Circuit F, ∃ N, ∀ q : List F, N ≤ q.length → WF c → ∃ v, Val q c v := fun c =>
    ⟨nVars c, fun q hq hw => hw.val fun i x hx => lt_of_lt_of_le ((nVars_spec c).1 x (List.mem_of_getElem? hx)) hq⟩
  obtain ⟨n, hn⟩ := hz a
  obtain ⟨m, hm⟩ := hz b
  obtain ⟨v, hv⟩ := hn (List.replicate (max n m) 0) (by simp) ha
  obtain ⟨w, hw⟩ := hm (List.replicate (max n m) 0) (by simp) hb
  obtain ⟨u, hu, -⟩ := val_of_evaluate (by simp [add])
    (evaluate_add ha0 hb0 (evaluate_of_val ha0 hv) (evaluate_of_val hb0 hw))
  exact hu.wf

theorem wf_mul {a b : Circuit F} (ha0 : a ≠ []) (hb0 : b ≠ []) (ha : WF a) (hb : WF b) : WF (mul a b) := by
  have hz : ∀ c : Circuit F, ∃ N, ∀ q : List F, N ≤ q.length → WF c → ∃ v, Val q c v := fun c =>
    ⟨nVars c, fun q hq hw => hw.val fun i x hx => lt_of_lt_of_le ((nVars_spec c).1 x (List.mem_of_getElem? hx)) hq⟩
  obtain ⟨n, hn⟩ := hz a
  obtain ⟨m, hm⟩ := hz b
  obtain ⟨v, hv⟩ := hn (List.replicate (max n m) 0) (by simp) ha
  obtain ⟨w, hw⟩ := hm (List.replicate (max n m) 0) (by simp) hb
  obtain ⟨u, hu, -⟩ := val_of_evaluate (by simp [mul])
    (evaluate_mul ha0 hb0 (evaluate_of_val ha0 hv) (evaluate_of_val hb0 hw))
  exact hu.wf

theorem wf_pow {a : Circuit F} (e : Nat) (ha0 : a ≠ []) (ha : WF a) : WF (pow a e) := by
  obtain ⟨v, hv⟩ := ha.val (q := List.replicate (nVars a) 0) (fun i x hx => by
    simpa using (nVars_spec a).1 x (List.mem_of_getElem? hx))
  obtain ⟨u, hu, -⟩ := val_of_evaluate (by simp [pow]) (evaluate_pow e ha0 (evaluate_of_val ha0 hv))
  exact hu.wf

/-- The circuits the API builds (from leaves by addition, subtraction, multiplication and powers, or from
an expression). -/
inductive Built : Circuit F → Prop
  | var (i : Nat) : Built (var i)
  | constant (c : F) : Built (constant c)
  | add {a b} : Built a → Built b → Built (add a b)
  | sub {a b} : Built a → Built b → Built (sub a b)
  | mul {a b} : Built a → Built b → Built (mul a b)
  | pow {a} (e : Nat) : Built a → Built (pow a e)
  | ofExpr {H : Nat → Option (Expr F)} {e : Expr F} : e.InMemory H → Built (ofExpr e)

theorem Built.wf {c : Circuit F} (h : Built c) : c ≠ [] ∧ WF c := by
  induction h with
  | var i =>
    refine ⟨by simp [Arith.var], fun j s hs r hr => ?_⟩
    cases j with
    | zero => cases hs; simp [Step.refs] at hr
    | succ j => simp [Arith.var] at hs
  | constant c =>
    refine ⟨by simp [Arith.constant], fun j s hs r hr => ?_⟩
    cases j with
    | zero => cases hs; simp [Step.refs] at hr
    | succ j => simp [Arith.constant] at hs
  | add _ _ h1 h2 => exact ⟨by simp [Arith.add], wf_add h1.1 h2.1 h1.2 h2.2⟩
  | sub _ _ h1 h2 => exact ⟨by simp [Arith.sub, Arith.add], wf_add h1.1 h2.1 h1.2 h2.2⟩
  | mul _ _ h1 h2 => exact ⟨by simp [Arith.mul], wf_mul h1.1 h2.1 h1.2 h2.2⟩
  | pow e _ h1 => exact ⟨by simp [Arith.pow], wf_pow e h1.1 h1.2⟩
  | ofExpr hin => exact ofExpr_wf hin

/-- C21.  Circuits built by the operators compute the sums, differences, products and powers of what
their parts compute (differences in characteristic two). -/
theorem C21_operators (q : List F) {a b : Circuit F} (ha : a ≠ []) (hb : b ≠ []) (x y : F) (e : Nat)
    (hx : evaluate a q = some x) (hy : evaluate b q = some y) :
    evaluate (add a b) q = some (x + y) ∧ ((1 : F) + 1 = 0 → evaluate (sub a b) q = some (x - y)) ∧
      evaluate (mul a b) q = some (x * y) ∧ evaluate (pow a e) q = some (x ^ e) := by
  refine ⟨evaluate_add ha hb hx hy, fun h2 => ?_, evaluate_mul ha hb hx hy, evaluate_pow e ha hx⟩
  rw [sub, evaluate_add ha hb hx hy]
  congr 1
  linear_combination y * h2

theorem C21_leaves (q : List F) (c : F) (i : Nat) :
    evaluate (constant c) q = some c ∧ evaluate (var i) q = q[i]? := by
  refine ⟨rfl, ?_⟩
  show Option.map _ (q[i]?.bind _) = _
  cases q[i]? <;> rfl

/-- C21.  Sums and products of lists of circuits. -/
theorem C21_sum_product (q : List F) (cs : List (Circuit F)) (f : Circuit F → F) (hne : ∀ c ∈ cs, c ≠ [])
    (hv : ∀ c ∈ cs, evaluate c q = some (f c)) :
    evaluate (sum cs) q = some (cs.map f).sum ∧ evaluate (product cs) q = some (cs.map f).prod := by
  have hs : ∀ (cs : List (Circuit F)) (a : Circuit F) (x : F), (∀ c ∈ cs, c ≠ []) →
      (∀ c ∈ cs, evaluate c q = some (f c)) → a ≠ [] → evaluate a q = some x →
      evaluate (cs.foldl add a) q = some (x + (cs.map f).sum) ∧
      evaluate (cs.foldl mul a) q = some (x * (cs.map f).prod) := by
    intro cs
    induction cs with
    | nil => intro a x _ _ _ ha; simp [ha]
    | cons c cs ih =>
      intro a x hne hv ha0 ha
      have hc0 := hne c List.mem_cons_self
      have hc := hv c List.mem_cons_self
      constructor
      · rw [List.foldl_cons, (ih (add a c) (x + f c) (fun d hd => hne d (List.mem_cons_of_mem _ hd))
          (fun d hd => hv d (List.mem_cons_of_mem _ hd)) (by simp [add]) (evaluate_add ha0 hc0 ha hc)).1]
        simp [add_assoc]
      · rw [List.foldl_cons, (ih (mul a c) (x * f c) (fun d hd => hne d (List.mem_cons_of_mem _ hd))
          (fun d hd => hv d (List.mem_cons_of_mem _ hd)) (by simp [mul]) (evaluate_mul ha0 hc0 ha hc)).2]
        simp [mul_assoc]
  refine ⟨?_, ?_⟩
  · rw [sum, (hs cs (constant 0) 0 hne hv (by simp [constant]) rfl).1, zero_add]
  · rw [product, (hs cs (constant 1) 1 hne hv (by simp [constant]) rfl).2, one_mul]

/-- C21.  A built circuit can be evaluated at every assignment of at least `n_vars` values, and the value
depends on the variables used only; `n_vars` is the least such number. -/
theorem C21_evaluate_total (c : Circuit F) (hc : Built c) :
    (∀ q : List F, nVars c ≤ q.length → ∃ a, evaluate c q = some a) ∧
    (∀ q q' : List F, (∀ i : Nat, (varsUsage c)[i]? = some true → q[i]? = q'[i]?) →
      evaluate c q = evaluate c q') ∧
    (varsUsage c).length = nVars c ∧ (0 < nVars c → (varsUsage c)[nVars c - 1]? = some true) := by
  obtain ⟨hne, hw⟩ := hc.wf
  obtain ⟨u1, u2⟩ := varsUsage_fold c (List.replicate (nVars c) false)
  have hmem : ∀ i, (varsUsage c)[i]? = some true ↔ Step.var i ∈ c := by
    intro i
    refine Iff.trans (u2 i) ?_
    constructor
    · rintro (h | h)
      · rw [List.getElem?_replicate] at h
        split at h <;> simp at h
      · exact h.2
    · exact fun h => Or.inr ⟨by simpa using (nVars_spec c).1 i h, h⟩
  refine ⟨fun q hq => ?_, fun q q' hqq => ?_, by refine Eq.trans u1 ?_; simp, fun h =>
    (hmem _).2 ((nVars_spec c).2 h)⟩
  · obtain ⟨v, hv⟩ := hw.val (q := q) fun i x hx =>
      lt_of_lt_of_le ((nVars_spec c).1 x (List.mem_of_getElem? hx)) hq
    exact ⟨_, evaluate_of_val hne hv⟩
  · have key : ∀ q q' : List F, (∀ i : Nat, (varsUsage c)[i]? = some true → q[i]? = q'[i]?) → ∀ a,
        evaluate c q = some a → evaluate c q' = some a := by
      intro q q' hqq a ha
      obtain ⟨v, hv, hl⟩ := val_of_evaluate hne ha
      rw [← hl]
      refine evaluate_of_val hne fun i s hs => ?_
      have := hv i s hs
      cases s with
      | var x =>
        show q'[x]? = _
        rw [← hqq x ((hmem x).2 (List.mem_of_getElem? hs))]
        exact this
      | add _ _ => exact this
      | mul _ _ => exact this
      | pow _ _ => exact this
      | const _ => exact this
    cases h : evaluate c q with
    | some a => rw [key q q' hqq a h]
    | none =>
      cases h' : evaluate c q' with
      | none => rfl
      | some a => rw [key q' q (fun i hi => (hqq i hi).symm) a h'] at h; cases h

/-! ### Optimization -/

theorem optLoop_true_false {char2 : Bool} : ∀ (rest done c' : Circuit F),
    optLoop true char2 done rest = some c' → optLoop false char2 done rest = some c'
  | [], _, _, h => h
  | s :: ss, done, c', h => by
    rw [optLoop] at h ⊢
    obtain ⟨s', hs', h⟩ := Option.bind_eq_some_iff.1 h
    have : optStep false char2 done s = some s' := by
      cases s with
      | pow b e =>
        rw [optStep] at hs' ⊢
        obtain ⟨a, ha, hs'⟩ := Option.bind_eq_some_iff.1 hs'
        rw [ha, Option.bind_some]
        cases a with
        | pow b' e' =>
          dsimp only at hs' ⊢
          obtain ⟨m, hm, rfl⟩ := Option.map_eq_some_iff.1 hs'
          unfold mulExp at hm ⊢
          by_cases hlt : e * e' < 2 ^ 64
          · rw [if_pos hlt] at hm ⊢; cases hm; rfl
          · rw [if_neg hlt] at hm; cases hm
        | _ => exact hs'
      | _ => exact hs'
    rw [this, Option.bind_some]
    exact optLoop_true_false ss _ c' h

theorem optimizeConstants_wf (chk char2 : Bool) (h2 : char2 = true → (1 : F) + 1 = 0) (c : Circuit F)
    (hne : c ≠ []) (hw : WF c) (hov : (optimizeConstants true char2 c).isSome) :
    ∃ c', optimizeConstants chk char2 c = some c' ∧ c'.length = c.length ∧
      ∀ q a, evaluate c q = some a → evaluate c' q = some a := by
  obtain ⟨c', hc'⟩ := Option.isSome_iff_exists.1 hov
  have hspec : ∀ q v, Val q c v → Val q c' v ∧ c'.length = c.length := by
    intro q v hv
    have := optLoop_val h2 rfl (q := q) (v := v) c [] c' (fun i s hs => by simp at hs)
      (fun i s hs => by simpa using hv i s hs) hc'
    simpa using this
  have hlen : c'.length = c.length := by
    obtain ⟨v, hv⟩ := hw.val (q := List.replicate (nVars c) 0) (fun i x hx => by
      simpa using (nVars_spec c).1 x (List.mem_of_getElem? hx))
    exact (hspec _ v hv).2
  have hne' : c' ≠ [] := by
    rw [← List.length_pos_iff, hlen]; exact List.length_pos_iff.2 hne
  refine ⟨c', ?_, hlen, fun q a ha => ?_⟩
  · cases chk with
    | true => exact hc'
    | false => exact optLoop_true_false _ _ _ hc'
  · obtain ⟨v, hv, hl⟩ := val_of_evaluate hne ha
    rw [evaluate_of_val hne' (hspec q v hv).1, hlen, hl]

/-- C21.  Constant folding, with or without overflow checks: unless a product of nested exponents exceeds
64 bits, it returns a circuit with the same value, step by step. -/
theorem C21_optimize_constants (chk char2 : Bool) (h2 : char2 = true → (1 : F) + 1 = 0) (c : Circuit F)
    (hc : Built c) (hov : (optimizeConstants true char2 c).isSome) :
    ∃ c', optimizeConstants chk char2 c = some c' ∧ c'.length = c.length ∧
      ∀ q a, evaluate c q = some a → evaluate c' q = some a :=
  optimizeConstants_wf chk char2 h2 c hc.wf.1 hc.wf.2 hov

theorem optimize_wf (chk char2 : Bool) (h2 : char2 = true → (1 : F) + 1 = 0) (c : Circuit F)
    (hne : c ≠ []) (hw : WF c) (hov : (optimizeConstants true char2 c).isSome) :
    ∃ c', optimize chk char2 c = some c' ∧ c' ≠ [] ∧ c'.length ≤ c.length ∧ WF c' ∧
      ∀ q a, evaluate c q = some a → evaluate c' q = some a := by
  obtain ⟨c1, h1, l1, e1⟩ := optimizeConstants_wf chk char2 h2 c hne hw hov
  have hne1 : c1 ≠ [] := by
    rw [← List.length_pos_iff, l1]; exact List.length_pos_iff.2 hne
  have hw1 : WF c1 := by
    obtain ⟨v, hv⟩ := hw.val (q := List.replicate (nVars c) 0) (fun i x hx => by
      simpa using (nVars_spec c).1 x (List.mem_of_getElem? hx))
    obtain ⟨u, hu, -⟩ := val_of_evaluate hne1 (e1 _ _ (evaluate_of_val hne hv))
    exact hu.wf
  obtain ⟨c2, h2, l2, w2, v2⟩ := deduplicate_spec hw1
  have hne2 : c2 ≠ [] := by
    rw [← List.length_pos_iff, l2]; exact List.length_pos_iff.2 hne1
  obtain ⟨c3, h3, n3, w3, l3, v3⟩ := compress_spec hne2 w2
  refine ⟨c3, by rw [optimize, h1, Option.bind_some, h2, Option.bind_some, h3], n3, by omega, w3, fun q a ha => ?_⟩
  obtain ⟨v, hv, hl⟩ := val_of_evaluate hne1 (e1 q a ha)
  obtain ⟨w, hw, hl'⟩ := v3 q v (v2 q v hv)
  rw [evaluate_of_val n3 hw, hl', l2, hl]

/-- C21.  The full optimization (constant folding, common subexpressions, removal of unused steps)
returns a circuit that is not longer and has the same value, unless a product of nested exponents exceeds
64 bits. -/
theorem C21_optimize (chk char2 : Bool) (h2 : char2 = true → (1 : F) + 1 = 0) (c : Circuit F)
    (hc : Built c) (hov : (optimizeConstants true char2 c).isSome) :
    ∃ c', optimize chk char2 c = some c' ∧ c' ≠ [] ∧ c'.length ≤ c.length ∧
      ∀ q a, evaluate c q = some a → evaluate c' q = some a := by
  obtain ⟨c', h1, h3, h4, -, h5⟩ := optimize_wf chk char2 h2 c hc.wf.1 hc.wf.2 hov
  exact ⟨c', h1, h3, h4, h5⟩

/-- The weight of a step in the bound below. -/
def expWeight : Step F → Nat
  | .pow _ e => max 1 e
  | _ => 1

theorem optLoop_small (char2 : Bool) : ∀ (rest done : Circuit F) (B : Nat),
    (∀ i s, rest[i]? = some s → ∀ r ∈ s.refs, r < done.length + i) →
    (∀ b e, Step.pow b e ∈ done → e ≤ B) → 0 < B → B * (rest.map expWeight).prod < 2 ^ 64 →
    (optLoop true char2 done rest).isSome
  | [], done, B, _, _, _, _ => rfl
  | s :: ss, done, B, hr, hB, hB0, hlt => by
    rw [optLoop]
    have h0 := hr 0 s rfl
    rw [List.map_cons, List.prod_cons, ← Nat.mul_assoc] at hlt
    have hrest : 0 < (ss.map expWeight).prod := by
      clear hr hlt h0
      induction ss with
      | nil => simp
      | cons t ss ih =>
        rw [List.map_cons, List.prod_cons]
        refine Nat.mul_pos ?_ ih
        cases t <;> simp [expWeight]
    have hw1 : 1 ≤ expWeight s := by cases s <;> simp [expWeight]
    have hBw : B ≤ B * expWeight s := Nat.le_mul_of_pos_right _ hw1
    have hBlt : B * expWeight s < 2 ^ 64 := lt_of_le_of_lt (Nat.le_mul_of_pos_right _ hrest) hlt
    obtain ⟨s', hs', hexp⟩ : ∃ s', optStep true char2 done s = some s' ∧
        ∀ b e, s' = Step.pow b e → e ≤ B * expWeight s := by
      have hmem : ∀ (l : Nat) b e, done[l]? = some (Step.pow b e) → e ≤ B * expWeight s := fun l b e h =>
        le_trans (hB b e (List.mem_of_getElem? h)) hBw
      cases s with
      | const c => exact ⟨_, rfl, fun b e h => by cases h⟩
      | var x => exact ⟨_, rfl, fun b e h => by cases h⟩
      | add l r =>
        obtain ⟨a, ha⟩ : ∃ a, done[l]? = some a := ⟨_, List.getElem?_eq_getElem (h0 l (by simp [Step.refs]))⟩
        obtain ⟨b, hb⟩ : ∃ a, done[r]? = some a := ⟨_, List.getElem?_eq_getElem (h0 r (by simp [Step.refs]))⟩
        rw [optStep, ha, hb, Option.bind_some, Option.bind_some]
        split
        · exact ⟨_, rfl, fun b e h => by cases h⟩
        · refine ⟨_, rfl, fun x e h => ?_⟩
          split at h
          · exact hmem r x e (h ▸ hb)
          · split at h
            · exact hmem l x e (h ▸ ha)
            · split at h <;> cases h
      | mul l r =>
        obtain ⟨a, ha⟩ : ∃ a, done[l]? = some a := ⟨_, List.getElem?_eq_getElem (h0 l (by simp [Step.refs]))⟩
        obtain ⟨b, hb⟩ : ∃ a, done[r]? = some a := ⟨_, List.getElem?_eq_getElem (h0 r (by simp [Step.refs]))⟩
        rw [optStep, ha, hb, Option.bind_some, Option.bind_some]
        split
        · exact ⟨_, rfl, fun b e h => by cases h⟩
        · refine ⟨_, rfl, fun x e h => ?_⟩
          split at h
          · cases h
          · split at h
            · cases h
            · split at h
              · exact hmem r x e (h ▸ hb)
              · split at h
                · exact hmem l x e (h ▸ ha)
                · cases h
      | pow b e =>
        obtain ⟨a, ha⟩ : ∃ a, done[b]? = some a := ⟨_, List.getElem?_eq_getElem (h0 b (by simp [Step.refs]))⟩
        have hew : e ≤ expWeight (F := F) (.pow b e) := by simp [expWeight]
        have he : e ≤ B * expWeight (F := F) (.pow b e) := le_trans hew (Nat.le_mul_of_pos_left _ hB0)
        rw [optStep, ha, Option.bind_some]
        cases a with
        | pow b' e' =>
          have h1 : e * e' ≤ B * expWeight (F := F) (.pow b e) := by
            rw [Nat.mul_comm]
            exact Nat.mul_le_mul (hB b' e' (List.mem_of_getElem? ha)) hew
          refine ⟨.pow b' (e * e'), ?_, fun x y h => by cases h; exact h1⟩
          dsimp only
          rw [mulExp, if_pos (by omega)]
          rfl
        | const v => exact ⟨_, rfl, fun x y h => by cases h⟩
        | add _ _ => exact ⟨_, rfl, fun x y h => by cases h; exact he⟩
        | mul _ _ => exact ⟨_, rfl, fun x y h => by cases h; exact he⟩
        | var _ => exact ⟨_, rfl, fun x y h => by cases h; exact he⟩
    rw [hs', Option.bind_some]
    refine optLoop_small char2 ss (done ++ [s']) (B * expWeight s) (fun i t ht r hrr => ?_) ?_ ?_ hlt
    · have := hr (i + 1) t ht r hrr
      rw [List.length_append, List.length_singleton]
      omega
    · intro b e hbe
      rcases List.mem_append.1 hbe with h | h
      · exact le_trans (hB b e h) hBw
      · simp at h
        exact hexp b e h.symm
    · exact Nat.mul_pos hB0 hw1

/-- C21.  No exponent overflows if the product of the exponents of all powers in the circuit is below
2^64, so `C21_optimize` applies. -/
theorem C21_no_overflow (char2 : Bool) (c : Circuit F) (hc : Built c) (h : (c.map expWeight).prod < 2 ^ 64) :
    (optimizeConstants true char2 c).isSome :=
  optLoop_small char2 c [] 1 (fun i s hs r hr => by
    have := hc.wf.2 i s hs r hr
    simpa using this) (by simp) (by omega) (by omega)

/-- Finding: nested powers whose exponents multiply to 2^64.  With overflow checks the optimization
panics; without them it turns `(x^(2^32))^(2^32)` into `x^0`, which is one where the circuit is zero. -/
theorem C21_optimize_overflow :
    optimize true true ([.var 0, .pow 0 (2 ^ 32), .pow 1 (2 ^ 32)] : Circuit (ZMod 2)) = none ∧
    optimize false true ([.var 0, .pow 0 (2 ^ 32), .pow 1 (2 ^ 32)] : Circuit (ZMod 2)) =
      some [.var 0, .pow 0 0] ∧
    (∀ q : List (ZMod 2), q[0]? = some 0 →
      evaluate ([.var 0, .pow 0 (2 ^ 32), .pow 1 (2 ^ 32)] : Circuit (ZMod 2)) q = some 0 ∧
      evaluate ([.var 0, .pow 0 0] : Circuit (ZMod 2)) q = some 1) := by
  refine ⟨by decide +kernel, by decide +kernel, fun q hq => ?_⟩
  constructor
  · simp [evaluate, evalAll, stepEval, hq]
  · simp [evaluate, evalAll, stepEval, hq]

/-! ### Renaming, substitution, conversion -/

/-- C21.  Remapping variables: refused exactly when a variable has no image; otherwise the new circuit at
`q` computes the old one at the assignment `i ↦ q[indices[i]]`. -/
theorem C21_remap_vars (c : Circuit F) (hc : Built c) (indices : List Nat) :
    ((remapVars c indices).isSome ↔ ∀ i, Step.var i ∈ c → i < indices.length) ∧
    ∀ c', remapVars c indices = some c' → ∀ (q q' : List F) (a : F),
      (∀ (i j : Nat), indices[i]? = some j → q'[i]? = q[j]?) → evaluate c q' = some a →
      evaluate c' q = some a := by
  have hmap : (∀ i, Step.var i ∈ c → i < indices.length) → remapVars c indices =
      some (c.map fun | .var i => .var (indices.getD i 0) | s => s) := by
    intro h
    refine mapM_eq (l := c) fun s hs => ?_
    cases s with
    | var i => simp [h i hs]
    | _ => rfl
  have hnone : ∀ i, Step.var i ∈ c → ¬ i < indices.length → remapVars c indices = none := by
    intro i hi hlt
    unfold remapVars
    obtain ⟨l1, l2, rfl⟩ := List.append_of_mem hi
    rw [List.mapM_append, List.mapM_cons]
    dsimp only
    rw [List.getElem?_eq_none (by omega)]
    exact Option.bind_eq_none_iff.2 fun _ _ => rfl
  have hiff : (remapVars c indices).isSome ↔ ∀ i, Step.var i ∈ c → i < indices.length := by
    constructor
    · intro h i hi
      by_contra hlt
      rw [hnone i hi hlt] at h
      cases h
    · intro h
      rw [hmap h]; rfl
  refine ⟨hiff, fun c' hc' q q' a hq ha => ?_⟩
  have hall := hiff.1 (by rw [hc']; rfl)
  rw [hmap hall] at hc'
  cases hc'
  have hne := hc.wf.1
  obtain ⟨v, hv, hl⟩ := val_of_evaluate hne ha
  rw [← hl]
  have : v (c.length - 1) = v ((c.map fun | Step.var i => Step.var (indices.getD i 0) | s => s).length - 1) := by
    rw [List.length_map]
  rw [this]
  refine evaluate_of_val (by simpa using hne) fun i s hs => ?_
  rw [List.getElem?_map] at hs
  obtain ⟨t, ht, rfl⟩ := Option.map_eq_some_iff.1 hs
  have hvt := hv i t ht
  cases t with
  | var x =>
    have hx := hall x (List.mem_of_getElem? ht)
    show q[indices.getD x 0]? = some (v i)
    rw [← hq x _ (by rw [List.getD_eq_getElem?_getD, List.getElem?_eq_getElem hx]; rfl)]
    exact hvt
  | add _ _ => exact hvt
  | mul _ _ => exact hvt
  | pow _ _ => exact hvt
  | const _ => exact hvt

/-- C21.  Substituting a constant for a variable. -/
theorem C21_const_subst (c : Circuit F) (hc : Built c) (x : Nat) (value : F) (q q' : List F) (a : F)
    (hx : q'[x]? = some value) (hq : ∀ i : Nat, i ≠ x → q'[i]? = q[i]?) (ha : evaluate c q' = some a) :
    evaluate (constSubst c x value) q = some a := by
  have hne := hc.wf.1
  obtain ⟨v, hv, hl⟩ := val_of_evaluate hne ha
  have hlen : (constSubst c x value).length = c.length := by simp [constSubst]
  rw [← hl, ← hlen]
  refine evaluate_of_val (by rw [← List.length_pos_iff, hlen]; exact List.length_pos_iff.2 hne) fun i s hs => ?_
  rw [constSubst, List.getElem?_map] at hs
  obtain ⟨t, ht, rfl⟩ := Option.map_eq_some_iff.1 hs
  have hvt := hv i t ht
  cases t with
  | var y =>
    dsimp only
    by_cases hy : y = x
    · rw [if_pos hy]
      subst hy
      exact Option.some.inj (hvt.symm.trans hx)
    · rw [if_neg hy]
      show q[y]? = _
      rw [← hq y hy]
      exact hvt
  | add _ _ => exact hvt
  | mul _ _ => exact hvt
  | pow _ _ => exact hvt
  | const _ => exact hvt

theorem conv_val {G : Type*} [CommRing G] [DecidableEq G] (emb : F →+* G) {q : List F} {v : Nat → F} {i : Nat}
    {s : Step F} (h : StepVal q v i s) : StepVal (q.map emb) (fun j => emb (v j)) i (s.conv emb) := by
  cases s with
  | add l r => exact ⟨h.1, h.2.1, by show emb (v i) = emb (v l) + emb (v r); rw [h.2.2, map_add]⟩
  | mul l r => exact ⟨h.1, h.2.1, by show emb (v i) = emb (v l) * emb (v r); rw [h.2.2, map_mul]⟩
  | pow b e => exact ⟨h.1, by show emb (v i) = emb (v b) ^ e; rw [h.2, map_pow]⟩
  | const c => exact congrArg emb h
  | var x =>
    have h' : q[x]? = some (v i) := h
    show (q.map emb)[x]? = _
    rw [List.getElem?_map, h']
    rfl

/-- C21.  Conversion to a larger field commutes with evaluation. -/
theorem C21_convert_field {G : Type*} [CommRing G] [DecidableEq G] (emb : F →+* G) (c : Circuit F)
    (hc : Built c) (q : List F) (a : F) (ha : evaluate c q = some a) :
    evaluate (convertField emb c) (q.map emb) = some (emb a) := by
  have hne := hc.wf.1
  obtain ⟨v, hv, hl⟩ := val_of_evaluate hne ha
  have hlen : (convertField (fun x => emb x) c).length = c.length := by simp [convertField]
  rw [← hl, ← hlen]
  refine evaluate_of_val (v := fun j => emb (v j))
    (by rw [← List.length_pos_iff, hlen]; exact List.length_pos_iff.2 hne) fun i s hs => ?_
  rw [convertField_get] at hs
  obtain ⟨t, ht, rfl⟩ := Option.map_eq_some_iff.1 hs
  exact conv_val emb (hv i t ht)

/-- C21.  Conversion to a smaller field: if it succeeds, converting back gives the original circuit; it
succeeds exactly when every constant converts. -/
theorem C21_try_convert_field {G : Type*} (emb : F → G) (tr : G → Option F)
    (htr : ∀ x y, tr x = some y ↔ emb y = x) (c : Circuit G) :
    (∀ c' : Circuit F, tryConvertField tr c = some c' ↔ convertField emb c' = c) ∧
    ((tryConvertField tr c).isSome ↔ ∀ x, Step.const x ∈ c → (tr x).isSome) := by
  induction c with
  | nil =>
    refine ⟨fun c' => ?_, by simp [tryConvertField]⟩
    constructor
    · intro h; cases h; rfl
    · intro h
      have : c' = [] := by simpa [convertField] using h
      rw [this]; rfl
  | cons s c ih =>
    obtain ⟨ih1, ih2⟩ := ih
    have hstep : ∀ s : Step G, ∀ f : Step G → Option (Step F), f = (fun
        | .const v => (tr v).map .const
        | .var i => some (.var i)
        | .add l r => some (.add l r)
        | .mul l r => some (.mul l r)
        | .pow b e => some (.pow b e)) → (∀ t : Step F, f s = some t ↔ t.conv emb = s) ∧
          ((f s).isSome ↔ ∀ x, s = .const x → (tr x).isSome) := by
      rintro s f rfl
      cases s with
      | const x =>
        refine ⟨fun t => ?_, by simp⟩
        cases t <;> simp [Step.conv, htr]
      | var x => exact ⟨fun t => by cases t <;> simp [Step.conv, eq_comm], by simp⟩
      | add _ _ => exact ⟨fun t => by cases t <;> simp [Step.conv, eq_comm], by simp⟩
      | mul _ _ => exact ⟨fun t => by cases t <;> simp [Step.conv, eq_comm], by simp⟩
      | pow _ _ => exact ⟨fun t => by cases t <;> simp [Step.conv, eq_comm], by simp⟩
    obtain ⟨s1, s2⟩ := hstep s _ rfl
    have hcons : ∀ (t : Step F) (c' : Circuit F), convertField emb (t :: c') = t.conv emb :: convertField emb c' := by
      intro t c'
      cases t <;> rfl
    constructor
    · intro c'
      unfold tryConvertField at ih1 ⊢
      rw [List.mapM_cons]
      cases c' with
      | nil =>
        constructor
        · intro h
          simp only [Option.bind_eq_bind, Option.bind_eq_some_iff, Option.pure_def, Option.some.injEq] at h
          obtain ⟨_, _, _, _, h⟩ := h
          cases h
        · intro h; cases h
      | cons t c' =>
        rw [hcons, List.cons.injEq, ← s1 t, ← ih1 c']
        simp only [Option.bind_eq_bind, Option.bind_eq_some_iff, Option.pure_def, Option.some.injEq,
          List.cons.injEq]
        constructor
        · rintro ⟨t', ht', c'', hc'', rfl, rfl⟩
          exact ⟨ht', hc''⟩
        · rintro ⟨h1, h2⟩
          exact ⟨t, h1, c', h2, rfl, rfl⟩
    · have : (tryConvertField tr (s :: c)).isSome ↔ (∀ x, s = .const x → (tr x).isSome) ∧
          (tryConvertField tr c).isSome := by
        rw [← s2]
        unfold tryConvertField
        rw [List.mapM_cons]
        simp only [Option.bind_eq_bind, Option.pure_def, Option.isSome_iff_exists, Option.bind_eq_some_iff]
        constructor
        · rintro ⟨r, t, ht, c', hc', hr⟩
          exact ⟨⟨t, ht⟩, ⟨c', hc'⟩⟩
        · rintro ⟨⟨t, ht⟩, ⟨c', hc'⟩⟩
          exact ⟨_, t, ht, c', hc', rfl⟩
      rw [this, ih2]
      constructor
      · rintro ⟨h1, h2⟩ x hx
        rcases List.mem_cons.1 hx with h | h
        exacts [h1 x h.symm, h2 x h]
      · intro h
        exact ⟨fun x hx => h x (by rw [hx]; exact List.mem_cons_self),
          fun x hx => h x (List.mem_cons_of_mem _ hx)⟩

/-- C21.  A circuit reported constant is that constant everywhere. -/
theorem C21_get_constant (c : Circuit F) (hc : Built c) (k : F) (h : getConstant c = some (some k))
    (q : List F) (a : F) (ha : evaluate c q = some a) : a = k := by
  have hne := hc.wf.1
  obtain ⟨v, hv, hl⟩ := val_of_evaluate hne ha
  unfold getConstant at h
  obtain ⟨s, hs, h⟩ := Option.map_eq_some_iff.1 h
  rw [List.getLast?_eq_getElem?] at hs
  cases s with
  | const x =>
    cases h
    rw [← hl]
    exact hv _ _ hs
  | _ => cases h

/-- C21.  Circuits that compare equal have the same value at every assignment; the comparison always
ends. -/
theorem C21_eq (c d : Circuit F) (hc : Built c) (hd : Built d) :
    (∃ t, circuitEq c d = some t) ∧
    (circuitEq c d = some true → ∀ q a b, evaluate c q = some a → evaluate d q = some b → a = b) := by
  obtain ⟨c0, cw⟩ := hc.wf
  obtain ⟨d0, dw⟩ := hd.wf
  have hc1 := List.length_pos_iff.2 c0
  have hd1 := List.length_pos_iff.2 d0
  refine ⟨nodeEq_some cw dw _ _ _ (by omega) (by omega) (by omega), fun h q a b ha hb => ?_⟩
  obtain ⟨v, hv, rfl⟩ := val_of_evaluate c0 ha
  obtain ⟨w, hw, rfl⟩ := val_of_evaluate d0 hb
  exact nodeEq_val hv hw _ _ _ h

/-! ### Expressions -/

/-- C21.  The circuit of an expression has the value of the expression, whatever subexpressions are
shared. -/
theorem C21_of_expr (H : Nat → Option (Expr F)) (e : Expr F) (he : e.InMemory H) (q : List F) (a : F)
    (ha : e.value q = some a) : evaluate (ofExpr e) q = some a := by
  obtain ⟨hne, v, hv, rfl⟩ := ofExpr_val he ha
  exact evaluate_of_val hne hv

/-- C21.  The expression of a circuit exists and has the value of the circuit; its addresses are those of
a memory. -/
theorem C21_to_expr (c : Circuit F) (hc : Built c) :
    ∃ e H, toExpr c = some e ∧ e.InMemory H ∧ ∀ q a, evaluate c q = some a → e.value q = some a := by
  obtain ⟨hne, hw⟩ := hc.wf
  obtain ⟨nodes, h1, h2, h3, h4⟩ := nodesOf_spec hw
  have hpos := List.length_pos_iff.2 hne
  have hl : nodes[nodes.length - 1]? = some nodes[nodes.length - 1] := List.getElem?_eq_getElem (by omega)
  refine ⟨nodes[nodes.length - 1], fun p => nodes[p]?, ?_, h3 _ _ hl, fun q a ha => ?_⟩
  · rw [toExpr, h1, Option.bind_some, List.getLast?_eq_getElem?, hl]
  · obtain ⟨v, hv, rfl⟩ := val_of_evaluate hne ha
    rw [h4 q v hv _ _ hl, h2]

/-! ### Degree, leading term, linear form -/

open Polynomial in
theorem degBound_poly (q : List F[X]) (hq : ∀ p ∈ q, p.natDegree ≤ 1) :
    DegBound (F := F) (fun x => C x) q (fun d p => p.natDegree ≤ d) where
  const c := by simp
  var i x h := hq x (List.mem_of_getElem? h)
  add a b x y hx hy := natDegree_add_le_of_le hx hy
  mul a b x y hx hy := natDegree_mul_le_of_le hx hy
  pow a e x hx := by rw [Nat.mul_comm]; exact natDegree_pow_le_of_le e hx

theorem degBound_mv (q : List (MvPolynomial Nat F)) (hq : ∀ p ∈ q, p.totalDegree ≤ 1) :
    DegBound (F := F) (fun x => MvPolynomial.C x) q (fun d p => p.totalDegree ≤ d) where
  const c := by simp
  var i x h := hq x (List.mem_of_getElem? h)
  add a b x y hx hy := le_trans (MvPolynomial.totalDegree_add _ _) (max_le_max hx hy)
  mul a b x y hx hy := le_trans (MvPolynomial.totalDegree_mul _ _) (Nat.add_le_add hx hy)
  pow a e x hx := by
    rw [Nat.mul_comm]
    exact le_trans (MvPolynomial.totalDegree_pow _ _) (Nat.mul_le_mul_left _ hx)

/-- C21.  The degree is computed, and it bounds the total degree of the polynomial that the circuit
represents. -/
theorem C21_degree (c : Circuit F) (hc : Built c) :
    ∃ d, degree c = some d ∧ ∃ p : MvPolynomial Nat F,
      evaluate (convertField (fun x => MvPolynomial.C x) c) ((List.range (nVars c)).map MvPolynomial.X) = some p ∧
      p.totalDegree ≤ d := by
  classical
  obtain ⟨hne, hw⟩ := hc.wf
  have hpos := List.length_pos_iff.2 hne
  obtain ⟨d, hd, hdeg⟩ := stepDegree_spec hw c.length (c.length - 1) (by omega) (by omega)
  have hlen : (convertField (fun x => (MvPolynomial.C x : MvPolynomial Nat F)) c).length = c.length := by
    simp [convertField]
  have hne' : convertField (fun x => (MvPolynomial.C x : MvPolynomial Nat F)) c ≠ [] := by
    rw [← List.length_pos_iff, hlen]; exact hpos
  obtain ⟨v, hv⟩ := (convertField_wf (emb := fun x => (MvPolynomial.C x : MvPolynomial Nat F)) hw).val
    (q := (List.range (nVars c)).map MvPolynomial.X) (fun i x hx => by
      rw [convertField_get] at hx
      obtain ⟨t, ht, hx⟩ := Option.map_eq_some_iff.1 hx
      have : t = .var x := by cases t <;> simp [Step.conv] at hx; rw [hx]
      subst this
      simpa using (nVars_spec c).1 x (List.mem_of_getElem? ht))
  refine ⟨d, hd, v (c.length - 1), by rw [evaluate_of_val hne' hv, hlen], ?_⟩
  refine hdeg _ _ _ (degBound_mv _ fun p hp => ?_) v hv
  obtain ⟨i, -, rfl⟩ := List.mem_map.1 hp
  rcases subsingleton_or_nontrivial F with hs | hs
  · rw [Subsingleton.elim (MvPolynomial.X i) (0 : MvPolynomial Nat F)]
    simp
  · exact (MvPolynomial.totalDegree_X i).le

open Polynomial in
theorem leadingStep_spec {c : Circuit F} (hc : WF c) : ∀ f i, i < f → i < c.length →
    ∃ d e, leadingStep c f i = some (d, e) ∧ stepDegree c f i = some d ∧ e ≠ [] ∧
      ∀ (x y : List F) v, x.length = y.length →
        Val (List.zipWith (fun b a => C b + X * C a) y x) (convertField (fun x => (C x : F[X])) c) v →
        evaluate e x = some ((v i).coeff d)
  | 0, i, h, _ => by omega
  | f + 1, i, h, hi => by
    have hdeg : ∀ j, j < f → j < c.length → ∀ d, stepDegree c f j = some d → ∀ (x y : List F) v,
        Val (List.zipWith (fun b a => C b + X * C a) y x) (convertField (fun x => (C x : F[X])) c) v →
        (v j).natDegree ≤ d := by
      intro j hj hjl d hd x y v hv
      obtain ⟨d', hd', hb⟩ := stepDegree_spec hc f j hj hjl
      rw [hd] at hd'
      cases hd'
      refine hb _ _ _ (degBound_poly _ fun p hp => ?_) v hv
      rw [List.mem_iff_getElem?] at hp
      obtain ⟨k, hk⟩ := hp
      rw [List.getElem?_zipWith] at hk
      cases hy : y[k]? with
      | none => rw [hy] at hk; simp at hk
      | some b =>
        cases hx : x[k]? with
        | none => rw [hy, hx] at hk; simp at hk
        | some a =>
          rw [hy, hx] at hk
          simp only [Option.some.injEq] at hk
          rw [← hk]
          refine natDegree_add_le_of_degree_le (by simp) ?_
          exact le_trans natDegree_mul_le (by
            have := natDegree_X_le (R := F)
            simp; omega)
    rw [leadingStep, stepDegree, List.getElem?_eq_getElem hi, Option.bind_some, Option.bind_some]
    have hci : c[i]? = some c[i] := List.getElem?_eq_getElem hi
    have hw := hc i _ hci
    generalize c[i] = s at hci hw
    have hval : ∀ (q : List F[X]) (v : Nat → F[X]), Val q (convertField (fun x => (C x : F[X])) c) v →
        StepVal q v i (s.conv fun x => (C x : F[X])) := fun q v hv =>
      hv i _ (by rw [convertField_get, hci]; rfl)
    cases s with
    | const a =>
      refine ⟨0, constant a, rfl, rfl, by simp [constant], fun x y v _ hv => ?_⟩
      have : v i = C a := hval _ v hv
      rw [this, coeff_C_zero]
      rfl
    | var k =>
      refine ⟨1, var k, rfl, rfl, by simp [var], fun x y v hxy hv => ?_⟩
      have h1 : (List.zipWith (fun b a => C b + X * C a) y x)[k]? = some (v i) := hval _ v hv
      rw [(C21_leaves x 0 k).2]
      rw [List.getElem?_zipWith] at h1
      cases hy : y[k]? with
      | none => rw [hy] at h1; simp at h1
      | some b =>
        cases hx : x[k]? with
        | none => rw [hy, hx] at h1; simp at h1
        | some a =>
          rw [hy, hx] at h1
          simp only [Option.some.injEq] at h1
          rw [← h1]
          simp [coeff_C]
    | add l r =>
      have h1 := hw l (by simp [Step.refs]); have h2 := hw r (by simp [Step.refs])
      obtain ⟨dl, el, e1, s1, n1, v1⟩ := leadingStep_spec hc f l (by omega) (by omega)
      obtain ⟨dr, er, e2, s2, n2, v2⟩ := leadingStep_spec hc f r (by omega) (by omega)
      have b1 := hdeg l (by omega) (by omega) dl s1
      have b2 := hdeg r (by omega) (by omega) dr s2
      dsimp only
      rw [e1, e2, s1, s2]
      simp only [Option.bind_some]
      rcases Nat.lt_trichotomy dl dr with hlt | heq | hgt
      · rw [if_pos hlt]
        refine ⟨dr, er, rfl, by rw [max_eq_right hlt.le], n2, fun x y v hxy hv => ?_⟩
        rw [v2 x y v hxy hv, (hval _ v hv).2.2, coeff_add,
          coeff_eq_zero_of_natDegree_lt (lt_of_le_of_lt (b1 x y v hv) hlt), zero_add]
      · rw [if_neg (by omega), if_pos heq]
        subst heq
        refine ⟨dl, add el er, rfl, by rw [max_self], by simp [add], fun x y v hxy hv => ?_⟩
        rw [evaluate_add n1 n2 (v1 x y v hxy hv) (v2 x y v hxy hv), (hval _ v hv).2.2, coeff_add]
      · rw [if_neg (by omega), if_neg (by omega)]
        refine ⟨dl, el, rfl, by rw [max_eq_left hgt.le], n1, fun x y v hxy hv => ?_⟩
        rw [v1 x y v hxy hv, (hval _ v hv).2.2, coeff_add,
          coeff_eq_zero_of_natDegree_lt (p := v r) (lt_of_le_of_lt (b2 x y v hv) hgt), add_zero]
    | mul l r =>
      have h1 := hw l (by simp [Step.refs]); have h2 := hw r (by simp [Step.refs])
      obtain ⟨dl, el, e1, s1, n1, v1⟩ := leadingStep_spec hc f l (by omega) (by omega)
      obtain ⟨dr, er, e2, s2, n2, v2⟩ := leadingStep_spec hc f r (by omega) (by omega)
      have b1 := hdeg l (by omega) (by omega) dl s1
      have b2 := hdeg r (by omega) (by omega) dr s2
      dsimp only
      rw [e1, e2, s1, s2]
      simp only [Option.bind_some]
      refine ⟨_, _, rfl, rfl, by simp [mul], fun x y v hxy hv => ?_⟩
      rw [evaluate_mul n1 n2 (v1 x y v hxy hv) (v2 x y v hxy hv), (hval _ v hv).2.2,
        coeff_mul_add_eq_of_natDegree_le (b1 x y v hv) (b2 x y v hv)]
    | pow b k =>
      have h1 := hw b (by simp [Step.refs])
      obtain ⟨d, e, e1, s1, n1, v1⟩ := leadingStep_spec hc f b (by omega) (by omega)
      have b1 := hdeg b (by omega) (by omega) d s1
      dsimp only
      rw [e1, s1]
      simp only [Option.bind_some]
      refine ⟨_, _, rfl, rfl, by simp [pow], fun x y v hxy hv => ?_⟩
      rw [evaluate_pow k n1 (v1 x y v hxy hv), (hval _ v hv).2, Nat.mul_comm,
        coeff_pow_of_natDegree_le (b1 x y v hv)]

open Polynomial in
/-- C21.  The leading term: on the line `y + t x` the circuit is a polynomial in `t` of degree at most
`degree`, and the leading term evaluated at `x` is its coefficient at that degree (the value "at
infinity"). -/
theorem C21_leading_term (c : Circuit F) (hc : Built c) :
    ∃ d lt, degree c = some d ∧ leadingTerm c = some lt ∧
      ∀ x y : List F, x.length = y.length → nVars c ≤ x.length → ∃ p : F[X],
        evaluate (convertField (fun a => (C a : F[X])) c) (List.zipWith (fun b a => C b + X * C a) y x) = some p ∧
        p.natDegree ≤ d ∧ evaluate lt x = some (p.coeff d) := by
  classical
  obtain ⟨hne, hw⟩ := hc.wf
  have hpos := List.length_pos_iff.2 hne
  obtain ⟨d, e, h1, h2, -, h4⟩ := leadingStep_spec hw c.length (c.length - 1) (by omega) (by omega)
  obtain ⟨d', hd', hdeg⟩ := stepDegree_spec hw c.length (c.length - 1) (by omega) (by omega)
  rw [h2] at hd'
  cases hd'
  have hlen : (convertField (fun x => (C x : F[X])) c).length = c.length := by simp [convertField]
  have hne' : convertField (fun x => (C x : F[X])) c ≠ [] := by
    rw [← List.length_pos_iff, hlen]; exact hpos
  refine ⟨d, e, h2, by rw [leadingTerm, h1]; rfl, fun x y hxy hx => ?_⟩
  obtain ⟨v, hv⟩ := (convertField_wf (emb := fun x => (C x : F[X])) hw).val
    (q := List.zipWith (fun b a => C b + X * C a) y x) (fun i k hk => by
      rw [convertField_get] at hk
      obtain ⟨t, ht, hk⟩ := Option.map_eq_some_iff.1 hk
      have : t = .var k := by cases t <;> simp [Step.conv] at hk; rw [hk]
      subst this
      have := (nVars_spec c).1 k (List.mem_of_getElem? ht)
      rw [List.length_zipWith]
      omega)
  refine ⟨v (c.length - 1), by rw [evaluate_of_val hne' hv, hlen], ?_, h4 x y v hxy hv⟩
  refine hdeg _ _ _ (degBound_poly _ fun p hp => ?_) v hv
  rw [List.mem_iff_getElem?] at hp
  obtain ⟨k, hk⟩ := hp
  rw [List.getElem?_zipWith] at hk
  cases hy : y[k]? with
  | none => rw [hy] at hk; simp at hk
  | some b =>
    cases hx : x[k]? with
    | none => rw [hy, hx] at hk; simp at hk
    | some a =>
      rw [hy, hx] at hk
      simp only [Option.some.injEq] at hk
      rw [← hk]
      refine natDegree_add_le_of_degree_le (by simp) ?_
      exact le_trans natDegree_mul_le (by
        have := natDegree_X_le (R := F)
        simp; omega)

/-- C21.  The linear normal form: the call never panics; a form it returns computes the circuit; and it
returns one for every circuit of degree at most one. -/
theorem C21_linear_normal_form (c : Circuit F) (hc : Built c) :
    (linearNormalForm c).isSome ∧
    (∀ k co, linearNormalForm c = some (some (k, co)) → ∀ q a, evaluate c q = some a →
      a = k + ∑ i ∈ range co.length, co.getD i 0 * q.getD i 0) ∧
    (∀ d, degree c = some d → d ≤ 1 → ∃ k co, linearNormalForm c = some (some (k, co))) := by
  obtain ⟨hne, hw⟩ := hc.wf
  have hpos := List.length_pos_iff.2 hne
  obtain ⟨o, h1, h2, h3⟩ := sparseStep_spec hw c.length (c.length - 1) (by omega) (by omega)
  unfold linearNormalForm
  rw [h1, Option.bind_some]
  cases o with
  | none =>
    refine ⟨rfl, fun k co h => by simp at h, fun d hd hd1 => ?_⟩
    obtain ⟨s, hs⟩ := (h3 d hd).1 hd1
    cases hs
  | some s =>
    obtain ⟨hinv, hv⟩ := h2 s rfl
    obtain ⟨v, e1, -, e3⟩ := Sparse.dense_spec hinv
    dsimp only
    rw [e1]
    refine ⟨rfl, fun k co h q a ha => ?_, fun d _ _ => ⟨_, _, rfl⟩⟩
    cases h
    obtain ⟨u, hu, rfl⟩ := val_of_evaluate hne ha
    rw [hv q u hu, e3]

/-- Finding: the cost estimate panics on a circuit with a zeroth power. -/
theorem C21_eval_cost_panics (x : Nat) : evalCost (pow (var x) 0 : Circuit F) = none := rfl

/-! ### Examples -/

/-- `(x0 + x1) * (x0 + x1) + 0 * x2`, over the field of two elements. -/
def exCircuit : Circuit (ZMod 2) :=
  add (mul (add (var 0) (var 1)) (add (var 0) (var 1))) (mul (constant 0) (var 2))

theorem exCircuit_built : Built exCircuit :=
  .add (.mul (.add (.var 0) (.var 1)) (.add (.var 0) (.var 1))) (.mul (.constant 0) (.var 2))

/-- The optimization applies to the example and shrinks it from eleven steps to four. -/
example : (optimizeConstants true true exCircuit).isSome ∧
    optimize true true exCircuit = some [.var 0, .var 1, .add 0 1, .mul 2 2] ∧ exCircuit.length = 11 := by
  decide +kernel

example : evaluate exCircuit [1, 0, 1] = some 1 := by decide +kernel

example : degree exCircuit = some 2 := by decide +kernel

example : (remapVars exCircuit [5, 3, 1]).isSome ∧ ¬ (remapVars exCircuit [5, 3]).isSome := by decide +kernel

/-- A shared subexpression: the node at address 7 is used twice. -/
example : ofExpr (.mul 7 (.add 1 (.var 0) 2 (.var 1)) 7 (.add 1 (.var 0) 2 (.var 1)) : Expr (ZMod 2)) =
    [.var 0, .var 1, .add 0 1, .mul 2 2] := by decide +kernel

example : ((.mul 7 (.add 1 (.var 0) 2 (.var 1)) 7 (.add 1 (.var 0) 2 (.var 1)) : Expr (ZMod 2)).InMemory
    fun p => if p = 7 then some (.add 1 (.var 0) 2 (.var 1)) else if p = 1 then some (.var 0)
      else if p = 2 then some (.var 1) else none) := by
  simp [Expr.InMemory]

/-- A linear circuit with its normal form. -/
example : linearNormalForm (add (mul (constant 2) (var 1)) (constant 5) : Circuit Int) =
    some (some (5, [0, 2])) := by decide +kernel

end Verif.Arith
