import Verif.Balance.SpecBalance
import Verif.Evalcheck.LemmasEvalcheck
import Verif.Math.LemmasArithForms

/-! Lemmas on the values of the flush oracles. -/

set_option linter.dupNamespace false
set_option linter.unusedSectionVars false

namespace Verif.Balance

open Verif.Channel (Flush Boundary Direction OracleOrConst Event oracleIds)
open Verif.Oracle (OracleSet TowerOps IsTables IsTable Adds WellFormed Lawful)
open Verif.Evalcheck (Sound Extends)
open Finset

variable {F : Type} [Field F] [DecidableEq F]

theorem log2Ceil_eq (n : Nat) : log2Ceil n = Nat.clog 2 n := by
  unfold log2Ceil
  apply le_antisymm
  · rw [Nat.size_le]
    have := Nat.le_pow_clog (b := 2) (by omega) n
    have := Nat.two_pow_pos (Nat.clog 2 n)
    omega
  · apply Nat.clog_le_of_le_pow
    have := Nat.lt_size_self (n - 1)
    omega

/-! The powers of the mixing challenge. -/

/-- The list starts with the powers of `s`. -/
def Powers (s : F) (l : List F) : Prop := 0 < l.length ∧ ∀ (j : Nat) (h : j < l.length), l[j] = s ^ j

theorem growPowers_spec (s : F) : ∀ (k : Nat) (l : List F), Powers s l →
    ∃ l', growPowers s k l = some l' ∧ Powers s l' ∧ l'.length = l.length + k
  | 0, l, h => ⟨l, rfl, h, rfl⟩
  | k + 1, l, h => by
    obtain ⟨h0, h1⟩ := h
    have hl : l.getLast? = some (s ^ (l.length - 1)) := by
      rw [List.getLast?_eq_getElem?, List.getElem?_eq_getElem (by omega), h1]
    have hp : Powers s (l ++ [s ^ (l.length - 1) * s]) := by
      refine ⟨by simp, fun j hj => ?_⟩
      rw [List.length_append, List.length_singleton] at hj
      by_cases e : j < l.length
      · rw [List.getElem_append_left e, h1]
      · have e : j = l.length := by omega
        subst e
        rw [List.getElem_append_right (by omega)]
        simp only [Nat.sub_self, List.getElem_cons_zero]
        rw [← pow_succ]; congr 1; omega
    obtain ⟨l', e1, e2, e3⟩ := growPowers_spec s k _ hp
    refine ⟨l', ?_, e2, ?_⟩
    · unfold growPowers; rw [hl]; exact e1
    · rw [e3]; simp; omega

theorem zip_powers {s : F} {P : List F} (hP : Powers s P) : ∀ (l : List F) (k : Nat), l.length + k ≤ P.length →
    ((l.zip (P.drop k)).map fun p => p.1 * p.2).sum = ((l.zipIdx k).map fun p => p.1 * s ^ p.2).sum
  | [], _, _ => rfl
  | v :: l, k, h => by
    rw [List.length_cons] at h
    rw [List.drop_eq_getElem_cons (by omega), List.zip_cons_cons, List.map_cons, List.sum_cons, List.zipIdx_cons,
      List.map_cons, List.sum_cons, zip_powers hP l (k + 1) (by omega), hP.2 k (by omega)]

theorem terms_sum (val : OracleOrConst F → F) (tab : Nat → F) (hc : ∀ b, val (.const b) = b) :
    ∀ (l : List (OracleOrConst F)) (P : List F), (∀ id, .oracle id ∈ l → val (.oracle id) = tab id) →
      constSum l P + ((oracleTerms l P).map fun p => p.2 * tab p.1).sum =
        (((l.map val).zip P).map fun p => p.1 * p.2).sum
  | [], _, _ => by simp [constSum, oracleTerms]
  | _ :: _, [], _ => by simp [constSum, oracleTerms]
  | .const b :: l, p :: P, ho => by
    have ih := terms_sum val tab hc l P fun id h => ho id (List.mem_cons_of_mem _ h)
    have e1 : constSum (.const b :: l) (p :: P) = b * p + constSum l P := rfl
    have e2 : oracleTerms (.const b :: l) (p :: P) = oracleTerms l P := rfl
    rw [e1, e2, List.map_cons, List.zip_cons_cons, List.map_cons, List.sum_cons, ← ih, hc, add_assoc]
  | .oracle id :: l, p :: P, ho => by
    have ih := terms_sum val tab hc l P fun id h => ho id (List.mem_cons_of_mem _ h)
    have e1 : constSum (.oracle id :: l) (p :: P) = constSum l P := rfl
    have e2 : oracleTerms (.oracle id :: l) (p :: P) = (id, p) :: oracleTerms l P := rfl
    rw [e1, e2, List.map_cons, List.map_cons, List.sum_cons, List.zip_cons_cons, List.map_cons, List.sum_cons, ← ih,
      ho id (List.mem_cons_self ..)]
    ring

theorem fingerprint_terms {s r : F} {P : List F} (hP : Powers s P) {l : List (OracleOrConst F)}
    (hl : l.length ≤ P.length) (val : OracleOrConst F → F) (tab : Nat → F) (hc : ∀ b, val (.const b) = b)
    (ho : ∀ id, .oracle id ∈ l → val (.oracle id) = tab id) :
    r + constSum l P + ((oracleTerms l P).map fun p => p.2 * tab p.1).sum = fingerprint s r (l.map val) := by
  rw [add_assoc, terms_sum val tab hc l P ho]
  unfold fingerprint
  have := zip_powers hP (l.map val) 0 (by simpa using hl)
  rw [List.drop_zero] at this
  rw [this]

theorem mem_oracleTerms {l : List (OracleOrConst F)} {P : List F} {p : Nat × F} (h : p ∈ oracleTerms l P) :
    .oracle p.1 ∈ l := by
  unfold oracleTerms at h
  rw [List.mem_filterMap] at h
  obtain ⟨⟨a, b⟩, h1, h2⟩ := h
  have := List.of_mem_zip h1
  cases a with
  | const b => cases h2
  | oracle id => cases h2; exact this.1

/-! The circuits. -/

theorem vars_add {a b : Arith.Circuit F} {i : Nat} (h : Arith.Step.var i ∈ Arith.add a b) :
    Arith.Step.var i ∈ a ∨ Arith.Step.var i ∈ b := by
  simp only [Arith.add, Arith.addOffset, List.mem_append, List.mem_map, List.mem_singleton, reduceCtorEq, or_false] at h
  rcases h with h | ⟨s, h, e⟩
  · exact Or.inl h
  · cases s <;> simp [Arith.Step.relabel] at e
    subst e; exact Or.inr h

theorem vars_mul {a b : Arith.Circuit F} {i : Nat} (h : Arith.Step.var i ∈ Arith.mul a b) :
    Arith.Step.var i ∈ a ∨ Arith.Step.var i ∈ b := by
  simp only [Arith.mul, Arith.addOffset, List.mem_append, List.mem_map, List.mem_singleton, reduceCtorEq, or_false] at h
  rcases h with h | ⟨s, h, e⟩
  · exact Or.inl h
  · cases s <;> simp [Arith.Step.relabel] at e
    subst e; exact Or.inr h

theorem nVars_le {c : Arith.Circuit F} {n : Nat} (h : ∀ i, Arith.Step.var i ∈ c → i < n) : Arith.nVars c ≤ n := by
  by_contra hn
  have := h _ ((Arith.nVars_spec c).2 (by omega))
  omega

theorem selectorExpr_built : ∀ n, Arith.Built (selectorExpr n : Arith.Circuit F)
  | 0 => .constant 1
  | 1 => .var 0
  | n + 2 => .mul (selectorExpr_built (n + 1)) (.var _)

theorem selectorExpr_vars : ∀ n i, Arith.Step.var i ∈ (selectorExpr n : Arith.Circuit F) → i < n
  | 0, i, h => by simp [selectorExpr, Arith.constant] at h
  | 1, i, h => by simp [selectorExpr, Arith.var] at h; omega
  | n + 2, i, h => by
    rcases vars_mul h with h | h
    · have := selectorExpr_vars (n + 1) i h; omega
    · simp [Arith.var] at h; omega

theorem eval_var {q : List F} {i : Nat} {x : F} (h : q[i]? = some x) : Arith.evaluate (Arith.var i) q = some x :=
  (Arith.C21_leaves q 0 i).2.trans h

theorem selectorExpr_eval : ∀ (l q : List F), Arith.evaluate (selectorExpr l.length) (l ++ q) = some l.prod := by
  have key : ∀ (n : Nat) (q : List F), n ≤ q.length → Arith.evaluate (selectorExpr n) q = some (q.take n).prod := by
    intro n
    induction n using Nat.strongRecOn with
    | ind n ih =>
      intro q hq
      match n, ih with
      | 0, _ => rfl
      | 1, _ =>
        obtain ⟨x, q, rfl⟩ := List.exists_cons_of_length_pos (show 0 < q.length by omega)
        rw [show ((x :: q).take 1).prod = x by simp]
        exact eval_var rfl
      | n + 2, ih =>
        have h1 := ih (n + 1) (by omega) q (by omega)
        have h2 : Arith.evaluate (Arith.var (n + 1)) q = some q[n + 1] := eval_var (List.getElem?_eq_getElem (by omega))
        have := Arith.evaluate_mul (selectorExpr_built (n + 1)).wf.1 (by simp [Arith.var]) h1 h2
        refine this.trans ?_
        have e : q.take (n + 2) = q.take (n + 1) ++ [q[n + 1]] := by
          rw [List.take_add_one (i := n + 1), List.getElem?_eq_getElem (by omega)]; rfl
        rw [e, List.prod_append, List.prod_singleton]
  intro l q
  rw [key _ _ (by simp), List.take_left']
  rfl

theorem linearExpr_built : ∀ (cs : List F) (v : Nat) (acc : Arith.Circuit F), Arith.Built acc →
    Arith.Built (linearExpr v acc cs)
  | [], _, _, h => h
  | _ :: cs, _, _, h => linearExpr_built cs _ _ (.add h (.mul (.var _) (.constant _)))

theorem linearExpr_vars : ∀ (cs : List F) (v n : Nat) (acc : Arith.Circuit F), v + cs.length ≤ n →
    (∀ i, Arith.Step.var i ∈ acc → i < n) → ∀ i, Arith.Step.var i ∈ linearExpr v acc cs → i < n
  | [], _, _, _, _, ha, i, h => ha i h
  | c :: cs, v, n, acc, hn, ha, i, h => by
    rw [List.length_cons] at hn
    refine linearExpr_vars cs (v + 1) n _ (by omega) (fun j hj => ?_) i h
    rcases vars_add hj with hj | hj
    · exact ha j hj
    · rcases vars_mul hj with hj | hj
      · simp [Arith.var] at hj; omega
      · simp [Arith.constant] at hj

theorem linearExpr_eval : ∀ (ts : List (F × F)) (v : Nat) (acc : Arith.Circuit F) (a : F) (q : List F),
    Arith.Built acc → Arith.evaluate acc q = some a → (∀ j (h : j < ts.length), q[v + j]? = some (ts[j].1)) →
    Arith.evaluate (linearExpr v acc (ts.map (·.2))) q = some (a + (ts.map fun p => p.2 * p.1).sum)
  | [], _, _, a, _, _, h, _ => by simpa [linearExpr] using h
  | (x, c) :: ts, v, acc, a, q, hb, h, hq => by
    have h1 : Arith.evaluate (Arith.var v) q = some x := eval_var (hq 0 (by simp))
    have h2 : Arith.evaluate (Arith.constant c) q = some c := (Arith.C21_leaves q c 0).1
    have h3 := Arith.evaluate_mul (by simp [Arith.var]) (by simp [Arith.constant]) h1 h2
    have hb' : Arith.Built (Arith.mul (Arith.var v) (Arith.constant c)) := .mul (.var _) (.constant _)
    have h4 := Arith.evaluate_add hb.wf.1 hb'.wf.1 h h3
    have := linearExpr_eval ts (v + 1) _ _ q (.add hb hb') h4 (fun j hj => by
      have := hq (j + 1) (by simpa using hj)
      rw [show v + 1 + j = v + (j + 1) by omega]
      simpa using this)
    refine this.trans ?_
    rw [List.map_cons, List.sum_cons]
    congr 1; ring

/-! One flush. -/

/-- The value of an entry of a flush in row `i`. -/
def entryVal (tab : Nat → Nat → F) (i : Nat) : OracleOrConst F → F
  | .const b => b
  | .oracle id => tab id i

/-- The value of the flush oracle in row `i`: `1 + S (r + Σ F_j s^j + 1)`, where `S` is the product of the selectors. -/
def flushValue (tab : Nat → Nat → F) (s r : F) (f : Flush F) (i : Nat) : F :=
  1 + (f.selectors.map fun id => tab id i).prod * (fingerprint s r (f.oracles.map (entryVal tab i)) + 1)

/-- The oracle `o` has `n` variables, and its table is that of the flush. -/
def IsFlushOracle (β : Nat → Nat → F) (s r : F) (f : Flush F) (n : Nat) (o : Oracle.Oracle F) : Prop :=
  o.nVars = n ∧ ∀ os tab t, IsTable β os tab o t → ∀ i < 2 ^ n, t i = flushValue tab s r f i

theorem mem_oracleIds {l : List (OracleOrConst F)} {id : Nat} : id ∈ oracleIds l ↔ .oracle id ∈ l := by
  unfold oracleIds
  rw [List.mem_filterMap]
  constructor
  · rintro ⟨a, h1, h2⟩
    cases a <;> cases h2
    exact h1
  · exact fun h => ⟨_, h, rfl⟩

theorem checkSelectors_ok {os : OracleSet F} : ∀ {ids : List Nat},
    (∀ id ∈ ids, ∃ o, os.get id = some o ∧ o.towerLevel = 0) → checkSelectors os ids = some (.ok ())
  | [], _ => rfl
  | id :: ids, h => by
    obtain ⟨o, h1, h2⟩ := h id (List.mem_cons_self ..)
    unfold checkSelectors
    rw [h1, Option.bind_some, if_neg (by omega)]
    exact checkSelectors_ok fun j hj => h j (List.mem_cons_of_mem _ hj)

theorem checkNVars_ok {os : OracleSet F} {n : Nat} : ∀ {ids : List Nat},
    (∀ id ∈ ids, ∃ o, os.get id = some o ∧ o.nVars = n) → checkNVars os n ids = some (.ok ())
  | [], _ => rfl
  | id :: ids, h => by
    obtain ⟨o, h1, h2⟩ := h id (List.mem_cons_self ..)
    unfold checkNVars
    rw [h1, Option.bind_some, if_neg (by omega)]
    exact checkNVars_ok fun j hj => h j (List.mem_cons_of_mem _ hj)

theorem forall₂_get {os : OracleSet F} {n : Nat} : ∀ {ids : List Nat},
    (∀ id ∈ ids, ∃ o, os.get id = some o ∧ o.nVars = n) →
    ∃ polys, List.Forall₂ (fun id o => os.get id = some o) ids polys ∧ ∀ o ∈ polys, o.nVars = n
  | [], _ => ⟨[], .nil, by simp⟩
  | id :: ids, h => by
    obtain ⟨o, h1, h2⟩ := h id (List.mem_cons_self ..)
    obtain ⟨polys, h3, h4⟩ := forall₂_get fun j hj => h j (List.mem_cons_of_mem _ hj)
    refine ⟨o :: polys, .cons h1 h3, fun x hx => ?_⟩
    rcases List.mem_cons.1 hx with rfl | hx
    · exact h2
    · exact h4 x hx

theorem makeFlushOracle_ok (β : Nat → Nat → F) (h2 : (2 : F) = 0) (ops : TowerOps F) (s r : F) (f : Flush F)
    (os : OracleSet F) (P : List F) (hP : Powers s P) (hs : Sound os) (n : Nat)
    (ho : ∀ id, .oracle id ∈ f.oracles ∨ id ∈ f.selectors → ∃ o, os.get id = some o ∧ o.nVars = n)
    (hne : ∃ id, .oracle id ∈ f.oracles)
    (hsel : ∀ id ∈ f.selectors, ∀ o, os.get id = some o → o.towerLevel = 0) :
    ∃ id os' P' o, makeFlushOracle ops s r f (os, P) = some (.ok id, os', P') ∧ Powers s P' ∧ Sound os' ∧
      Adds os o (os', id) ∧ IsFlushOracle β s r f n o := by
  obtain ⟨i₀, hi₀⟩ := hne
  unfold makeFlushOracle
  cases hids : oracleIds f.oracles with
  | nil => rw [← mem_oracleIds, hids] at hi₀; simp at hi₀
  | cons first rest =>
    have hmem : ∀ id ∈ first :: rest, ∃ o, os.get id = some o ∧ o.nVars = n := fun id h => by
      rw [← hids, mem_oracleIds] at h
      exact ho id (Or.inl h)
    obtain ⟨o, e1, e2⟩ := hmem first (List.mem_cons_self ..)
    simp only
    rw [e1, Option.bind_some, checkSelectors_ok (fun id h => by
      obtain ⟨o, h1, _⟩ := ho id (Or.inr h)
      exact ⟨o, h1, hsel id h o h1⟩)]
    simp only [Res.andThen]
    rw [e2, checkNVars_ok fun id h => hmem id (List.mem_cons_of_mem _ h)]
    obtain ⟨P', p1, p2, p3⟩ := growPowers_spec s (f.oracles.length - P.length) P hP
    simp only
    rw [p1, Option.bind_some]
    have hlen : f.oracles.length ≤ P'.length := by omega
    have hterm : ∀ p ∈ oracleTerms f.oracles P', ∃ o, os.get p.1 = some o ∧ o.nVars = n :=
      fun p hp => ho p.1 (Or.inl (mem_oracleTerms hp))
    by_cases hse : f.selectors = []
    · rw [if_pos (by rw [hse]; rfl)]
      obtain ⟨polys, q1, q2⟩ := forall₂_get (os := os) (n := n) (ids := (oracleTerms f.oracles P').map (·.1))
        (fun id h => by
          obtain ⟨p, hp, rfl⟩ := List.mem_map.1 h
          exact hterm p hp)
      rw [List.forall₂_map_left_iff] at q1
      obtain ⟨level, ⟨a, a1, a2, a3⟩, _⟩ :=
        (Oracle.C35_linear_combination ops os n (r + constSum f.oracles P') _ polys q1).1 q2
      refine ⟨a.2, a.1, P', _, by rw [a1], p2, Evalcheck.sound_adds a2 a3 trivial hs, a2, rfl, fun os' tab t ht i hi => ?_⟩
      have := ht i hi
      rw [this, fingerprint_terms p2 hlen (entryVal tab i) (fun id => tab id i) (fun _ => rfl) (fun _ _ => rfl)]
      unfold flushValue
      rw [hse, List.map_nil, List.prod_nil]
      linear_combination (-1) * h2
    · rw [if_neg (by simpa using hse)]
      obtain ⟨polys, q1, q2⟩ := forall₂_get (os := os) (n := n)
        (ids := f.selectors ++ (oracleTerms f.oracles P').map (·.1)) (fun id h => by
          rcases List.mem_append.1 h with h | h
          · exact ho id (Or.inr h)
          · obtain ⟨p, hp, rfl⟩ := List.mem_map.1 h
            exact hterm p hp)
      set c := Arith.add (Arith.constant 1) (Arith.mul (selectorExpr f.selectors.length)
        (linearExpr f.selectors.length (Arith.constant (r + constSum f.oracles P' + 1))
          ((oracleTerms f.oracles P').map (·.2)))) with hc
      have hb1 := linearExpr_built ((oracleTerms f.oracles P').map (·.2)) f.selectors.length _
        (.constant (r + constSum f.oracles P' + 1))
      have hb2 := Arith.Built.mul (selectorExpr_built f.selectors.length) hb1
      have hb : Arith.Built c := .add (.constant 1) hb2
      obtain ⟨level, ⟨a, a1, a2, a3⟩, _⟩ := (Oracle.C35_composite os n _ c polys q1).1 q2 (nVars_le fun i hi => by
        rw [List.length_append, List.length_map]
        rcases vars_add hi with hi | hi
        · simp [Arith.constant] at hi
        · rcases vars_mul hi with hi | hi
          · have := selectorExpr_vars _ _ hi; omega
          · exact linearExpr_vars _ _ _ _ (by rw [List.length_map])
              (fun i hi => by simp [Arith.constant] at hi) i hi)
      refine ⟨a.2, a.1, P', _, by rw [a1], p2, Evalcheck.sound_adds a2 a3 hb hs, a2, rfl, fun os' tab t ht i hi => ?_⟩
      have := ht i hi
      rw [List.map_append, List.map_map] at this
      set q := (f.selectors.map fun id => tab id i) ++
        (oracleTerms f.oracles P').map ((fun id => tab id i) ∘ fun x => x.1) with hq
      have v1 : Arith.evaluate (selectorExpr f.selectors.length) q = some (f.selectors.map fun id => tab id i).prod := by
        have := selectorExpr_eval (f.selectors.map fun id => tab id i)
          ((oracleTerms f.oracles P').map ((fun id => tab id i) ∘ fun x => x.1))
        rwa [List.length_map] at this
      have v2 := linearExpr_eval ((oracleTerms f.oracles P').map fun p => (tab p.1 i, p.2)) f.selectors.length
        (Arith.constant (r + constSum f.oracles P' + 1)) _ q (.constant _) (Arith.C21_leaves q _ 0).1 (fun j hj => by
          rw [hq, List.getElem?_append_right (by simp), List.length_map, Nat.add_sub_cancel_left,
            List.getElem?_eq_getElem (by simpa using hj)]
          simp)
      rw [List.map_map, List.map_map] at v2
      have v3 := Arith.evaluate_mul (selectorExpr_built f.selectors.length).wf.1 hb1.wf.1 v1 v2
      have v4 := Arith.evaluate_add (Arith.Built.constant (1 : F)).wf.1 hb2.wf.1 (Arith.C21_leaves q 1 0).1 v3
      have v5 := this.symm.trans v4
      injection v5 with v5
      rw [v5]
      unfold flushValue
      rw [← fingerprint_terms p2 hlen (entryVal tab i) (fun id => tab id i) (fun _ => rfl) (fun _ _ => rfl)]
      simp only [Function.comp_def]
      ring

end Verif.Balance
