import Verif.Sumcheck.SpecEqIndProver
import Verif.Sumcheck.LemmasRound

/-! Lemmas for C67: where the compositions are constant. -/

set_option linter.unusedSectionVars false

namespace Verif.Sumcheck

open Verif.Mle Verif.Univariate Verif.Tensor Verif.Fold Finset
open Verif.Arith (Circuit Step StepVal WF constSubst optimizeConstants optLoop optStep getConstant mulExp)

variable {F D : Type} [Field F] [DecidableEq F] [Field D] [DecidableEq D]

/-! ## Substituting constants -/

theorem constSubst_value {c : Circuit F} (hne : c ≠ []) (x : Nat) (value : F) (q : List F) (a : F)
    (hx : q[x]? = some value) (ha : Arith.evaluate c q = some a) : Arith.evaluate (constSubst c x value) q = some a := by
  obtain ⟨v, hv, hl⟩ := Arith.val_of_evaluate hne ha
  have hlen : (constSubst c x value).length = c.length := by simp [constSubst]
  rw [← hl, ← hlen]
  refine Arith.evaluate_of_val (by rw [← List.length_pos_iff, hlen]; exact List.length_pos_iff.2 hne) fun i s hs => ?_
  rw [constSubst, List.getElem?_map] at hs
  obtain ⟨t, ht, rfl⟩ := Option.map_eq_some_iff.1 hs
  have hvt := hv i t ht
  cases t with
  | var y =>
    dsimp only
    by_cases hy : y = x
    · rw [if_pos hy]
      subst hy
      exact Option.some.inj (hvt.symm.trans hx)
    · rw [if_neg hy]
      exact hvt
  | add _ _ => exact hvt
  | mul _ _ => exact hvt
  | pow _ _ => exact hvt
  | const _ => exact hvt

theorem constSubst_ne {c : Circuit F} (hne : c ≠ []) (x : Nat) (value : F) : constSubst c x value ≠ [] := by
  unfold constSubst
  simpa using hne

theorem constSubst_wf {c : Circuit F} (hw : WF c) (x : Nat) (value : F) : WF (constSubst c x value) := by
  intro i s hs r hr
  rw [constSubst, List.getElem?_map] at hs
  obtain ⟨t, ht, rfl⟩ := Option.map_eq_some_iff.1 hs
  have := hw i t ht
  cases t with
  | var y =>
    dsimp only at hr
    split at hr <;> simp [Step.refs] at hr
  | add _ _ => exact this r hr
  | mul _ _ => exact this r hr
  | pow _ _ => exact this r hr
  | const _ => exact this r hr

theorem constSubst_small {c : Circuit F} (hs : SmallExponents c) (x : Nat) (value : F) : SmallExponents (constSubst c x value) := by
  obtain ⟨wt, h1, h2⟩ := hs
  refine ⟨wt, h1, fun i s hs => ?_⟩
  rw [constSubst, List.getElem?_map] at hs
  obtain ⟨t, ht, rfl⟩ := Option.map_eq_some_iff.1 hs
  have := h2 i t ht
  cases t with
  | var y => dsimp only; split <;> trivial
  | add _ _ => exact this
  | mul _ _ => exact this
  | pow _ _ => exact this
  | const _ => exact this

theorem weight_mono {wt : Nat → Nat} {i j : Nat} {s : Step F} (h : WeightOk wt i s) (hij : wt i ≤ wt j) : WeightOk wt j s := by
  cases s with
  | pow _ _ => exact le_trans h hij
  | add _ _ => exact ⟨le_trans h.1 hij, le_trans h.2 hij⟩
  | mul _ _ => exact ⟨le_trans h.1 hij, le_trans h.2 hij⟩
  | var _ => trivial
  | const _ => trivial

theorem optLoop_weights (chk char2 : Bool) (wt : Nat → Nat) (hwt : ∀ i, 1 ≤ wt i ∧ wt i < 2 ^ 64) :
    ∀ rest done : Circuit F, (∀ i s, done[i]? = some s → WeightOk wt i s) →
      (∀ i s, rest[i]? = some s → WeightOk wt (done.length + i) s) →
      (∀ i s, rest[i]? = some s → ∀ r ∈ s.refs, r < done.length + i) →
      ∃ c', optLoop chk char2 done rest = some c' ∧ ∀ i s, c'[i]? = some s → WeightOk wt i s
  | [], done, hd, _, _ => ⟨done, rfl, hd⟩
  | s :: ss, done, hd, hr, hrefs => by
    rw [optLoop]
    have h0 := hrefs 0 s rfl
    have hw := hr 0 s rfl
    rw [Nat.add_zero] at h0 hw
    obtain ⟨s', hs', hok⟩ : ∃ s', optStep chk char2 done s = some s' ∧ WeightOk wt done.length s' := by
      cases s with
      | const c => exact ⟨_, rfl, trivial⟩
      | var x => exact ⟨_, rfl, trivial⟩
      | add l r =>
        obtain ⟨a, ha⟩ : ∃ a, done[l]? = some a := ⟨_, List.getElem?_eq_getElem (h0 l (by simp [Step.refs]))⟩
        obtain ⟨b, hb⟩ : ∃ a, done[r]? = some a := ⟨_, List.getElem?_eq_getElem (h0 r (by simp [Step.refs]))⟩
        rw [optStep, ha, hb, Option.bind_some, Option.bind_some]
        split
        · exact ⟨_, rfl, trivial⟩
        · refine ⟨_, rfl, ?_⟩
          split
          · exact weight_mono (hd r b hb) hw.2
          · split
            · exact weight_mono (hd l a ha) hw.1
            · split
              · trivial
              · exact hw
      | mul l r =>
        obtain ⟨a, ha⟩ : ∃ a, done[l]? = some a := ⟨_, List.getElem?_eq_getElem (h0 l (by simp [Step.refs]))⟩
        obtain ⟨b, hb⟩ : ∃ a, done[r]? = some a := ⟨_, List.getElem?_eq_getElem (h0 r (by simp [Step.refs]))⟩
        rw [optStep, ha, hb, Option.bind_some, Option.bind_some]
        split
        · exact ⟨_, rfl, trivial⟩
        · refine ⟨_, rfl, ?_⟩
          split
          · trivial
          · split
            · trivial
            · split
              · exact weight_mono (hd r b hb) hw.2
              · split
                · exact weight_mono (hd l a ha) hw.1
                · exact hw
      | pow b e =>
        obtain ⟨a, ha⟩ : ∃ a, done[b]? = some a := ⟨_, List.getElem?_eq_getElem (h0 b (by simp [Step.refs]))⟩
        rw [optStep, ha, Option.bind_some]
        cases a with
        | pow b' e' =>
          have h1 : max 1 e' * wt b' ≤ wt b := hd b _ ha
          have h2 : max 1 e * wt b ≤ wt done.length := hw
          have h3 : max 1 (e * e') * wt b' ≤ wt done.length := by
            refine le_trans ?_ (le_trans (Nat.mul_le_mul_left _ h1) h2)
            rw [← Nat.mul_assoc]
            refine Nat.mul_le_mul_right _ (max_le ?_ ?_)
            · exact Nat.mul_pos (by omega) (by omega)
            · exact Nat.mul_le_mul (le_max_right _ _) (le_max_right _ _)
          have h4 : e * e' < 2 ^ 64 := by
            refine lt_of_le_of_lt ?_ (hwt done.length).2
            refine le_trans ?_ h3
            exact le_trans (le_max_right 1 _) (Nat.le_mul_of_pos_right _ (hwt b').1)
          refine ⟨.pow b' (e * e'), ?_, h3⟩
          dsimp only
          rw [mulExp, if_pos h4]
          rfl
        | const v => exact ⟨_, rfl, trivial⟩
        | add _ _ => exact ⟨_, rfl, hw⟩
        | mul _ _ => exact ⟨_, rfl, hw⟩
        | var _ => exact ⟨_, rfl, hw⟩
    rw [hs', Option.bind_some]
    refine optLoop_weights chk char2 wt hwt ss (done ++ [s']) ?_ ?_ ?_
    · intro i t ht
      rcases Nat.lt_or_ge i done.length with h | h
      · rw [List.getElem?_append_left h] at ht
        exact hd i t ht
      · rw [List.getElem?_append_right h] at ht
        have hi : i = done.length := by
          have := (List.getElem?_eq_some_iff.1 ht).1
          simp at this
          omega
        subst hi
        rw [Nat.sub_self] at ht
        cases ht
        exact hok
    · intro i t ht
      have := hr (i + 1) t ht
      rwa [List.length_append, List.length_singleton, show done.length + 1 + i = done.length + (i + 1) by omega]
    · intro i t ht r hrr
      have := hrefs (i + 1) t ht r hrr
      rw [List.length_append, List.length_singleton]
      omega

theorem optimize_small (chk : Bool) {char2 : Bool} (h2 : char2 = true → (1 : F) + 1 = 0) {c : Circuit F} (hne : c ≠ []) (hw : WF c)
    (hs : SmallExponents c) : ∃ c', optimizeConstants chk char2 c = some c' ∧ c' ≠ [] ∧ WF c' ∧ SmallExponents c' ∧
      ∀ q a, Arith.evaluate c q = some a → Arith.evaluate c' q = some a := by
  obtain ⟨wt, hwt, hc⟩ := hs
  have key := fun chk => optLoop_weights chk char2 wt hwt c [] (by simp) (by simpa using hc)
    (fun i s hs r hr => by simpa using hw i s hs r hr)
  obtain ⟨c0, h0, -⟩ := key true
  obtain ⟨c', h1, l1, e1⟩ := Arith.optimizeConstants_wf chk char2 h2 c hne hw (by unfold optimizeConstants; rw [h0]; rfl)
  obtain ⟨c1, h3, h4⟩ := key chk
  have : c1 = c' := by
    have h1' : optLoop chk char2 [] c = some c' := h1
    rw [h3] at h1'
    exact Option.some.inj h1'
  subst this
  have hne1 : c1 ≠ [] := by
    rw [← List.length_pos_iff, l1]; exact List.length_pos_iff.2 hne
  refine ⟨c1, h1, hne1, ?_, ⟨wt, hwt, h4⟩, e1⟩
  obtain ⟨v, hv⟩ := hw.val (q := List.replicate (Arith.nVars c) 0) (fun i x hx => by
    simpa using (Arith.nVars_spec c).1 x (List.mem_of_getElem? hx))
  obtain ⟨u, hu, -⟩ := Arith.val_of_evaluate hne1 (e1 _ _ (Arith.evaluate_of_val hne hv))
  exact hu.wf

theorem getConstant_value {c : Circuit F} (hne : c ≠ []) {k : F} (h : getConstant c = some (some k)) {q : List F} {a : F}
    (ha : Arith.evaluate c q = some a) : a = k := by
  obtain ⟨v, hv, hl⟩ := Arith.val_of_evaluate hne ha
  unfold getConstant at h
  obtain ⟨s, hs, h⟩ := Option.map_eq_some_iff.1 h
  rw [List.getLast?_eq_getElem?] at hs
  cases s with
  | const x =>
    cases h
    have : v (c.length - 1) = k := hv _ _ hs
    rw [← hl, this]
  | var _ => cases h
  | add _ _ => cases h
  | mul _ _ => cases h
  | pow _ _ => cases h

theorem getConstant_some {c : Circuit F} (hne : c ≠ []) : ∃ a, getConstant c = some a := by
  unfold getConstant
  obtain ⟨s, hs⟩ : ∃ s, c.getLast? = some s := ⟨_, List.getLast?_eq_getLast_of_ne_nil hne⟩
  exact ⟨_, by rw [hs]; rfl⟩

/-! ## The loop over the suffixes -/

theorem suffixLoop_spec (chk : Bool) (h2 : (1 : F) + 1 = 0) (ev iv : List Bool) (E L : Circuit F) :
    ∀ (rest : List ((F × Nat) × Nat)) (expr inf : Circuit F) (σ : List ((F × Nat) × Nat)),
      expr ≠ [] → WF expr → SmallExponents expr → inf ≠ [] → WF inf → SmallExponents inf →
      rest.Pairwise (fun a b => b.1.2 ≤ a.1.2) → (∀ a ∈ σ, ∀ b ∈ rest, b.1.2 ≤ a.1.2) →
      (∀ q a, (∀ e ∈ σ, q[e.2]? = some e.1.1) → Arith.evaluate E q = some a → Arith.evaluate expr q = some a) →
      (∀ q a, (∀ e ∈ σ, q[e.2]? = some 0) → Arith.evaluate L q = some a → Arith.evaluate inf q = some a) →
      ∃ k, suffixLoop chk ev iv rest expr inf = some k ∧ (k.len = 0 ∨ ∃ σ' : List ((F × Nat) × Nat), σ' ≠ [] ∧
        (∀ e ∈ σ', e ∈ σ ∨ e ∈ rest) ∧ (∀ e ∈ σ', k.len ≤ e.1.2) ∧
        (∀ q a, (∀ e ∈ σ', q[e.2]? = some e.1.1) → Arith.evaluate E q = some a → a = k.value) ∧
        (∀ q a, (∀ e ∈ σ', q[e.2]? = some 0) → Arith.evaluate L q = some a → a = k.atInf))
  | [], _, _, _, _, _, _, _, _, _, _, _, _, _ => ⟨_, rfl, .inl rfl⟩
  | ((sv, len), v) :: rest, expr, inf, σ, n1, w1, s1, n2, w2, s2, hp, hσ, hE, hL => by
    rw [List.pairwise_cons] at hp
    unfold suffixLoop
    by_cases hu : iv[v]? ≠ some true ∨ ev[v]? ≠ some true
    · rw [if_pos hu]
      obtain ⟨k, h3, h4⟩ := suffixLoop_spec chk h2 ev iv E L rest expr inf σ n1 w1 s1 n2 w2 s2 hp.2
        (fun a ha b hb => hσ a ha b (List.mem_cons_of_mem _ hb)) hE hL
      refine ⟨k, h3, h4.imp id ?_⟩
      rintro ⟨σ', a1, a2, a3⟩
      exact ⟨σ', a1, fun e he => (a2 e he).imp id (List.mem_cons_of_mem _), a3⟩
    · rw [if_neg hu]
      have hc2 : decide ((1 + 1 : F) = 0) = true → (1 : F) + 1 = 0 := fun _ => h2
      obtain ⟨e', o1, o2, o3, o4, o5⟩ := optimize_small chk hc2 (constSubst_ne n1 v sv) (constSubst_wf w1 v sv)
        (constSubst_small s1 v sv)
      obtain ⟨i', p1, p2, p3, p4, p5⟩ := optimize_small chk hc2 (constSubst_ne n2 v (sv + sv)) (constSubst_wf w2 v (sv + sv))
        (constSubst_small s2 v (sv + sv))
      have hss : sv + sv = 0 := by linear_combination sv * h2
      rw [o1, Option.bind_some, p1, Option.bind_some]
      obtain ⟨a, ha⟩ := getConstant_some o2
      obtain ⟨b, hb⟩ := getConstant_some p2
      rw [ha, Option.bind_some, hb, Option.bind_some]
      have hE' : ∀ q a, (∀ e ∈ ((sv, len), v) :: σ, q[e.2]? = some e.1.1) → Arith.evaluate E q = some a →
          Arith.evaluate e' q = some a := fun q a hq hev =>
        o5 q a (constSubst_value n1 v sv q a (hq _ (List.mem_cons_self ..))
          (hE q a (fun e he => hq e (List.mem_cons_of_mem _ he)) hev))
      have hL' : ∀ q a, (∀ e ∈ ((sv, len), v) :: σ, q[e.2]? = some 0) → Arith.evaluate L q = some a →
          Arith.evaluate i' q = some a := fun q a hq hev =>
        p5 q a (constSubst_value n2 v (sv + sv) q a (by rw [hss]; exact hq _ (List.mem_cons_self ..))
          (hL q a (fun e he => hq e (List.mem_cons_of_mem _ he)) hev))
      have hrec : ∃ k, suffixLoop chk ev iv rest e' i' = some k ∧ (k.len = 0 ∨ ∃ σ' : List ((F × Nat) × Nat), σ' ≠ [] ∧
          (∀ e ∈ σ', e ∈ σ ∨ e ∈ ((sv, len), v) :: rest) ∧ (∀ e ∈ σ', k.len ≤ e.1.2) ∧
          (∀ q a, (∀ e ∈ σ', q[e.2]? = some e.1.1) → Arith.evaluate E q = some a → a = k.value) ∧
          (∀ q a, (∀ e ∈ σ', q[e.2]? = some 0) → Arith.evaluate L q = some a → a = k.atInf)) := by
        obtain ⟨k, h3, h4⟩ := suffixLoop_spec chk h2 ev iv E L rest e' i' (((sv, len), v) :: σ) o2 o3 o4 p2 p3 p4 hp.2
          (fun a ha b hb => by
            rcases List.mem_cons.1 ha with rfl | ha
            · exact hp.1 b hb
            · exact hσ a ha b (List.mem_cons_of_mem _ hb)) hE' hL'
        refine ⟨k, h3, h4.imp id ?_⟩
        rintro ⟨σ', a1, a2, a3⟩
        refine ⟨σ', a1, fun e he => ?_, a3⟩
        rcases a2 e he with h | h
        · rcases List.mem_cons.1 h with rfl | h
          · exact .inr (List.mem_cons_self ..)
          · exact .inl h
        · exact .inr (List.mem_cons_of_mem _ h)
      cases a with
      | none => exact hrec
      | some x =>
        cases b with
        | none => exact hrec
        | some y =>
          refine ⟨⟨len, x, y⟩, rfl, .inr ⟨((sv, len), v) :: σ, by simp, fun e he => ?_, fun e he => ?_, fun q a hq hev => ?_,
            fun q a hq hev => ?_⟩⟩
          · rcases List.mem_cons.1 he with rfl | h
            · exact .inr (List.mem_cons_self ..)
            · exact .inl h
          · rcases List.mem_cons.1 he with rfl | h
            · exact le_refl _
            · exact hσ e h _ (List.mem_cons_self ..)
          · exact getConstant_value o2 ha (hE' q a hq hev)
          · exact getConstant_value p2 hb (hL' q a hq hev)

/-! ## The suffix during the rounds -/

/-- The composition is constant on the last `k.len` entries of the current tables. -/
structure SuffixOk (order : EvaluationOrder) (N n : Nat) (rs : List F) (tables : List (Nat → F)) (c : Comp F) (k : ConstSuffix F) :
    Prop where
  le : k.len ≤ 2 ^ n
  const : k.len = 0 ∨ ∃ σ : List (Nat × F),
    (∀ e ∈ σ, ∃ t, tables[e.1]? = some t ∧ ∀ x, 2 ^ n - k.len ≤ x → x < 2 ^ n → cur order N t rs x = e.2) ∧
    (∀ q a, (∀ e ∈ σ, q[e.1]? = some e.2) → Arith.evaluate c.expr q = some a → a = k.value) ∧
    (∀ lt, Arith.leadingTerm c.expr = some lt → ∀ q a, (∀ e ∈ σ, q[e.1]? = some 0) → Arith.evaluate lt q = some a → a = k.atInf)

theorem determineSuffix_spec (chk : Bool) (h2 : (1 : F) + 1 = 0) (w : Nat) (order : EvaluationOrder) (n : Nat) (tables : List (Nat → F))
    (ms : List (SumMultilin F)) (hms : List.Forall₂ (IsTable w n) tables ms) (c : Comp F) (hb : Arith.Built c.expr)
    (hn : c.nVars = ms.length) (hs : SmallPowers c.expr) :
    ∃ k, determineSuffix chk (sortSuffixes (ms.map (SumMultilin.constSuffix w n))) c = some k ∧
      SuffixOk order n n [] tables c k := by
  obtain ⟨hne, hwf⟩ := hb.wf
  obtain ⟨d, lt, -, hlt, hlt'⟩ := Arith.C21_leading_term c.expr hb
  set suf := ms.map (SumMultilin.constSuffix w n) with hsuf
  have hperm : (sortSuffixes suf).Perm suf.zipIdx := List.mergeSort_perm ..
  have hlen : (sortSuffixes suf).length = ms.length := by rw [hperm.length_eq]; simp [hsuf]
  have hsorted : (sortSuffixes suf).Pairwise (fun a b => b.1.2 ≤ a.1.2) := by
    have := List.pairwise_mergeSort (le := fun a b : (F × Nat) × Nat => decide (b.1.2 ≤ a.1.2))
      (fun a b c h1 h2 => by simp only [decide_eq_true_eq] at h1 h2 ⊢; omega)
      (fun a b => by simp only [Bool.or_eq_true, decide_eq_true_eq]; omega) suf.zipIdx
    exact this.imp fun h => by simpa using h
  have hltne : lt ≠ [] ∧ WF lt := by
    obtain ⟨p, -, -, hev⟩ := hlt' (List.replicate (Arith.nVars c.expr) 0) (List.replicate (Arith.nVars c.expr) 0) rfl (by simp)
    have hne' : lt ≠ [] := by
      have hpos := List.length_pos_iff.2 hne
      obtain ⟨d', e, g1, -, g2, -⟩ := Arith.leadingStep_spec hwf c.expr.length (c.expr.length - 1) (by omega) (by omega)
      unfold Arith.leadingTerm at hlt
      rw [g1] at hlt
      cases hlt
      exact g2
    obtain ⟨v, hv, -⟩ := Arith.val_of_evaluate hne' hev
    exact ⟨hne', hv.wf⟩
  obtain ⟨k, h1, h3⟩ := suffixLoop_spec chk h2 (Arith.varsUsage c.expr) (Arith.varsUsage lt) c.expr lt (sortSuffixes suf) c.expr lt []
    hne hwf hs.1 hltne.1 hltne.2 (hs.2 lt hlt) hsorted (by simp) (fun _ _ _ h => h) (fun _ _ _ h => h)
  refine ⟨k, ?_, ?_⟩
  · unfold determineSuffix
    rw [if_neg (by rw [hlen, hn]; simp), hlt, Option.bind_some]
    exact h1
  · -- the entries are suffixes of the tables
    have hentry : ∀ e ∈ sortSuffixes suf, e.1.2 ≤ 2 ^ n ∧ ∃ t, tables[e.2]? = some t ∧ ∀ x, 2 ^ n - e.1.2 ≤ x → x < 2 ^ n → t x = e.1.1 := by
      intro e he
      have he' := hperm.mem_iff.1 he
      rw [List.mem_zipIdx_iff_getElem?] at he'
      rw [hsuf, List.getElem?_map] at he'
      obtain ⟨m, hm, hme⟩ := Option.map_eq_some_iff.1 he'
      obtain ⟨hi, hm'⟩ := List.getElem?_eq_some_iff.1 hm
      have hti : e.2 < tables.length := by rw [hms.length_eq]; exact hi
      have hst := (List.forall₂_iff_get.1 hms).2 e.2 hti hi
      simp only [List.get_eq_getElem] at hst
      rw [hm'] at hst
      rw [← hme]
      cases m with
      | transparent N t' so sfx =>
        obtain ⟨sv, sl⟩ := sfx
        obtain ⟨-, -, h5, h6⟩ := hst
        exact ⟨h5, _, List.getElem?_eq_getElem hti, h6⟩
      | folded evals sv =>
        obtain ⟨⟨p, hp, -⟩, h5⟩ := hst
        refine ⟨Nat.sub_le _ _, _, List.getElem?_eq_getElem hti, fun x hx1 hx2 => ?_⟩
        have hpl : packedLen w evals * 2 ^ w = evals.size := by
          unfold packedLen
          rw [hp, Nat.mul_div_cancel _ (Nat.two_pow_pos w)]
        have hx1' : 2 ^ n - (2 ^ n - packedLen w evals * 2 ^ w) ≤ x := hx1
        rw [hpl] at hx1'
        rw [h5 x hx2, if_neg (by omega)]
        rfl
    rcases h3 with h3 | ⟨σ', a1, a2, a3, a4, a5⟩
    · exact ⟨by rw [h3]; exact Nat.zero_le _, .inl h3⟩
    · have hin : ∀ e ∈ σ', e ∈ sortSuffixes suf := fun e he => (a2 e he).resolve_left (by simp)
      refine ⟨?_, .inr ⟨σ'.map fun e => (e.2, e.1.1), ?_, ?_, ?_⟩⟩
      · obtain ⟨e, l, rfl⟩ := List.exists_cons_of_ne_nil a1
        exact (a3 e (List.mem_cons_self ..)).trans (hentry e (hin e (List.mem_cons_self ..))).1
      · intro e' he'
        obtain ⟨e, he, rfl⟩ := List.mem_map.1 he'
        obtain ⟨b1, t, b2, b3⟩ := hentry e (hin e he)
        refine ⟨t, b2, fun x hx1 hx2 => ?_⟩
        rw [cur_nil]
        refine b3 x ?_ hx2
        have := a3 e he
        omega
      · intro q a hq
        exact a4 q a fun e he => hq (e.2, e.1.1) (List.mem_map.2 ⟨e, he, rfl⟩)
      · intro lt' hlt'' q a hq
        rw [hlt] at hlt''
        cases hlt''
        exact a5 q a fun e he => hq (e.2, e.1.1) (List.mem_map.2 ⟨e, he, rfl⟩)

/-- The update of a suffix: its positions come from positions in the suffix. -/
theorem update_ok (order : EvaluationOrder) (n : Nat) (k : ConstSuffix F) (hk : k.len ≤ 2 ^ (n + 1)) :
    ∃ k', k.update order (n + 1) = .ok k' ∧ k'.value = k.value ∧ k'.atInf = k.atInf ∧ k'.len ≤ 2 ^ n ∧ (k.len = 0 → k'.len = 0) ∧
      ∀ x, 2 ^ n - k'.len ≤ x → x < 2 ^ n → ∀ b < 2, 2 ^ (n + 1) - k.len ≤ half order n b x ∧ half order n b x < 2 ^ (n + 1) := by
  have hp := pow_succ 2 n
  unfold ConstSuffix.update
  rw [if_neg (by omega)]
  dsimp only
  rw [Nat.add_sub_cancel]
  refine ⟨_, rfl, rfl, rfl, Nat.sub_le _ _, ?_, fun x hx1 hx2 b hb => ⟨?_, half_lt order n b x hb hx2⟩⟩
  · intro h0
    show 2 ^ n - _ = 0
    rw [h0]
    cases order with
    | lowToHigh =>
      show 2 ^ n - divCeil (2 ^ (n + 1) - 0) 2 = 0
      have := (divCeil_bounds (2 ^ (n + 1) - 0) 2 (by omega)).1
      omega
    | highToLow =>
      show 2 ^ n - min (2 ^ (n + 1) - 0) (2 ^ n) = 0
      omega
  · cases order with
    | lowToHigh =>
      have hx1' : 2 ^ n - (2 ^ n - divCeil (2 ^ (n + 1) - k.len) 2) ≤ x := hx1
      show 2 ^ (n + 1) - k.len ≤ 2 * x + b
      have := divCeil_bounds (2 ^ (n + 1) - k.len) 2 (by omega)
      omega
    | highToLow =>
      have hx1' : 2 ^ n - (2 ^ n - min (2 ^ (n + 1) - k.len) (2 ^ n)) ≤ x := hx1
      show 2 ^ (n + 1) - k.len ≤ x + 2 ^ n * b
      have : 0 ≤ 2 ^ n * b := Nat.zero_le _
      omega

theorem SuffixOk.fold {order : EvaluationOrder} {N n : Nat} {rs : List F} {tables : List (Nat → F)} {c : Comp F} {k k' : ConstSuffix F}
    (h : SuffixOk order N (n + 1) rs tables c k) (hn : N = n + 1 + rs.length) (hu : k.update order (n + 1) = .ok k') (r : F) :
    SuffixOk order N n (rs ++ [r]) tables c k' := by
  obtain ⟨k1, g1, g2, g3, g4, g5, g6⟩ := update_ok order n k h.le
  rw [hu] at g1
  cases g1
  refine ⟨g4, ?_⟩
  rcases h.const with h0 | ⟨σ, b1, b2, b3⟩
  · exact .inl (g5 h0)
  · refine .inr ⟨σ, fun e he => ?_, ?_, ?_⟩
    · obtain ⟨t, c1, c2⟩ := b1 e he
      refine ⟨t, c1, fun x hx1 hx2 => ?_⟩
      have d0 := g6 x hx1 hx2 0 (by omega)
      have d1 := g6 x hx1 hx2 1 (by omega)
      rw [cur_snoc order N n t rs hn, c2 _ d0.1 d0.2, c2 _ d1.1 d1.2]
      ring
    · rw [g2]; exact b2
    · rw [g3]; exact b3

/-- On the suffix of a round the composition is constant on the lines, and so is its leading term. -/
theorem SuffixOk.line {order : EvaluationOrder} {N n : Nat} {rs : List F} {tables : List (Nat → F)} {c : Comp F} {k k' : ConstSuffix F}
    (h : SuffixOk order N (n + 1) rs tables c k) (hu : k.update order (n + 1) = .ok k') (x : Nat) (hx1 : 2 ^ n - k'.len ≤ x)
    (hx2 : x < 2 ^ n) :
    (∀ z a, Arith.evaluate c.expr (tables.map fun t => ends order N n rs t 0 x + (ends order N n rs t 1 x - ends order N n rs t 0 x) * z) =
      some a → a = k'.value) ∧
    ∀ lt, Arith.leadingTerm c.expr = some lt → ∀ a, Arith.evaluate lt (tables.map fun t => ends order N n rs t 1 x -
      ends order N n rs t 0 x) = some a → a = k'.atInf := by
  obtain ⟨k1, g1, g2, g3, g4, g5, g6⟩ := update_ok order n k h.le
  rw [hu] at g1
  cases g1
  have d0 := g6 x hx1 hx2 0 (by omega)
  have d1 := g6 x hx1 hx2 1 (by omega)
  rcases h.const with h0 | ⟨σ, b1, b2, b3⟩
  · have := g5 h0
    omega
  · refine ⟨fun z a ha => ?_, fun lt hlt a ha => ?_⟩
    · rw [g2]
      refine b2 _ a (fun e he => ?_) ha
      obtain ⟨t, c1, c2⟩ := b1 e he
      rw [List.getElem?_map, c1, Option.map_some]
      unfold ends
      rw [c2 _ d0.1 d0.2, c2 _ d1.1 d1.2]
      congr 1
      ring
    · rw [g3]
      refine b3 lt hlt _ a (fun e he => ?_) ha
      obtain ⟨t, c1, c2⟩ := b1 e he
      rw [List.getElem?_map, c1, Option.map_some]
      unfold ends
      rw [c2 _ d0.1 d0.2, c2 _ d1.1 d1.2]
      congr 1
      ring

end Verif.Sumcheck
