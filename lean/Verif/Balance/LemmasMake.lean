import Verif.Balance.LemmasFlush
import Mathlib.Data.List.TakeWhile

/-! Lemmas on the loops over the flushes. -/

set_option linter.dupNamespace false
set_option linter.unusedSectionVars false

namespace Verif.Balance

open Verif.Channel (Flush Boundary Direction OracleOrConst Event oracleIds)
open Verif.Oracle (OracleSet TowerOps IsTables IsTable Adds WellFormed Lawful)
open Verif.Evalcheck (Sound Extends)
open Finset

variable {F : Type} [Field F] [DecidableEq F]

/-- The oracles and selectors of a flush have `n` variables, there is an oracle, and the selectors have level 0. -/
structure Good (os : OracleSet F) (f : Flush F) (n : Nat) : Prop where
  get : ∀ id, .oracle id ∈ f.oracles ∨ id ∈ f.selectors → ∃ o, os.get id = some o ∧ o.nVars = n
  some_oracle : ∃ id, .oracle id ∈ f.oracles
  level : ∀ id ∈ f.selectors, ∀ o, os.get id = some o → o.towerLevel = 0

theorem Good.mono {os os' : OracleSet F} {f : Flush F} {n : Nat} (h : Good os f n) (he : Extends os os') :
    Good os' f n := by
  refine ⟨fun id hid => ?_, h.some_oracle, fun id hid o ho => ?_⟩
  · obtain ⟨o, h1, h2⟩ := h.get id hid
    exact ⟨o, he.get h1, h2⟩
  · obtain ⟨o', h1, _⟩ := h.get id (Or.inr hid)
    rw [he.get h1] at ho
    injection ho with ho
    rw [← ho]
    exact h.level id hid o' h1

/-- The oracle `id` of the set is that of the flush. -/
def Made (β : Nat → Nat → F) (s : F) (rs : List F) (nf : Flush F → Nat) (os : OracleSet F) (f : Flush F) (id : Nat) :
    Prop := ∃ r o, rs[f.channelId]? = some r ∧ os.get id = some o ∧ IsFlushOracle β s r f (nf f) o

theorem Made.mono {β : Nat → Nat → F} {s : F} {rs : List F} {nf : Flush F → Nat} {os os' : OracleSet F} {f : Flush F}
    {id : Nat} (h : Made β s rs nf os f id) (he : Extends os os') : Made β s rs nf os' f id := by
  obtain ⟨r, o, h1, h2, h3⟩ := h
  exact ⟨r, o, h1, he.get h2, h3⟩

theorem collect_ok : ∀ ids : List Nat, collect (ids.map .ok) = .ok ids
  | [] => rfl
  | id :: ids => by
    rw [List.map_cons, collect, collect_ok ids]

theorem makeGroup_ok (β : Nat → Nat → F) (h2 : (2 : F) = 0) (ops : TowerOps F) (s r : F) (rs : List F)
    (nf : Flush F → Nat) : ∀ (fs : List (Flush F)) (os : OracleSet F) (P : List F), Powers s P → Sound os →
    (∀ f ∈ fs, Good os f (nf f) ∧ rs[f.channelId]? = some r) →
    ∃ ids os' P', makeGroup ops s r fs (os, P) = some (ids.map .ok, os', P') ∧ Powers s P' ∧ Sound os' ∧
      Extends os os' ∧ List.Forall₂ (Made β s rs nf os') fs ids
  | [], os, P, hP, hs, _ => ⟨[], os, P, rfl, hP, hs, .refl os, .nil⟩
  | f :: fs, os, P, hP, hs, hg => by
    obtain ⟨g, hr⟩ := hg f (List.mem_cons_self ..)
    obtain ⟨id, os₁, P₁, o, e1, e2, e3, e4, e5⟩ :=
      makeFlushOracle_ok β h2 ops s r f os P hP hs (nf f) g.get g.some_oracle g.level
    have he := Evalcheck.extends_adds e4
    obtain ⟨ids, os₂, P₂, d1, d2, d3, d4, d5⟩ := makeGroup_ok β h2 ops s r rs nf fs os₁ P₁ e2 e3
      fun f' hf => ⟨(hg f' (List.mem_cons_of_mem _ hf)).1.mono he, (hg f' (List.mem_cons_of_mem _ hf)).2⟩
    refine ⟨id :: ids, os₂, P₂, ?_, d2, d3, he.trans d4, .cons ⟨r, o, hr, d4.get e4.2.1, e5⟩ d5⟩
    unfold makeGroup
    rw [e1, Option.bind_some, d1]
    rfl

theorem takeWhile_split (c k : Nat) : ∀ fs : List (Flush F), (∀ f ∈ fs, c ≤ f.channelId) →
    fs.takeWhile (fun f => decide (f.channelId < c + (k + 1))) =
      fs.takeWhile (fun f => decide (f.channelId = c)) ++
        (fs.dropWhile fun f => decide (f.channelId = c)).takeWhile fun f => decide (f.channelId < c + 1 + k)
  | [], _ => rfl
  | f :: fs, h => by
    have hf := h f (List.mem_cons_self ..)
    by_cases e : f.channelId = c
    · rw [List.takeWhile_cons_of_pos (by simp [e]), List.takeWhile_cons_of_pos (by simp [e]),
        List.dropWhile_cons_of_pos (by simp [e]), takeWhile_split c k fs fun g hg => h g (List.mem_cons_of_mem _ hg)]
      rfl
    · rw [List.takeWhile_cons_of_neg (p := fun f : Flush F => decide (f.channelId = c)) (by simp [e]),
        List.dropWhile_cons_of_neg (by simp [e]), List.nil_append, show c + 1 + k = c + (k + 1) by omega]

theorem dropWhile_ge (c : Nat) : ∀ fs : List (Flush F), (∀ f ∈ fs, c ≤ f.channelId) →
    fs.Pairwise (fun a b => a.channelId ≤ b.channelId) →
    ∀ f ∈ fs.dropWhile (fun f => decide (f.channelId = c)), c + 1 ≤ f.channelId
  | [], _, _, f, hf => by simp at hf
  | g :: fs, h, hs, f, hf => by
    have hg := h g (List.mem_cons_self ..)
    rw [List.pairwise_cons] at hs
    by_cases e : g.channelId = c
    · rw [List.dropWhile_cons_of_pos (by simp [e])] at hf
      exact dropWhile_ge c fs (fun g hg => h g (List.mem_cons_of_mem _ hg)) hs.2 f hf
    · rw [List.dropWhile_cons_of_neg (by simp [e])] at hf
      rcases List.mem_cons.1 hf with rfl | hf
      · omega
      · have := hs.1 f hf; omega

theorem makeFrom_ok (β : Nat → Nat → F) (h2 : (2 : F) = 0) (ops : TowerOps F) (s : F) (all : List F)
    (nf : Flush F → Nat) : ∀ (rs : List F) (c : Nat) (fs : List (Flush F)) (os : OracleSet F) (P : List F),
    Powers s P → Sound os → all.drop c = rs → (∀ f ∈ fs, Good os f (nf f)) → (∀ f ∈ fs, c ≤ f.channelId) →
    fs.Pairwise (fun a b => a.channelId ≤ b.channelId) →
    ∃ ids os', makeFrom ops s c rs fs (os, P) = some (.ok (os', ids)) ∧ Sound os' ∧ Extends os os' ∧
      List.Forall₂ (Made β s all nf os') (fs.takeWhile fun f => f.channelId < c + rs.length) ids
  | [], c, fs, os, P, _, hs, _, _, hc, _ => by
    refine ⟨[], os, rfl, hs, .refl os, ?_⟩
    cases fs with
    | nil => exact .nil
    | cons f fs =>
      rw [List.takeWhile_cons_of_neg (by have := hc f (List.mem_cons_self ..); simpa using this)]
      exact .nil
  | r :: rs, c, fs, os, P, hP, hs, hall, hg, hc, hsort => by
    have hcr : all[c]? = some r := by
      have := congrArg (·[0]?) hall
      simpa using this
    have ht : ∀ f ∈ fs.takeWhile (fun f => decide (f.channelId = c)), f.channelId = c := fun f hf => by
      simpa using List.mem_takeWhile_imp hf
    obtain ⟨ids, os₁, P₁, e1, e2, e3, e4, e5⟩ := makeGroup_ok β h2 ops s r all nf
      (fs.takeWhile fun f => decide (f.channelId = c)) os P hP hs fun f hf =>
        ⟨hg f ((List.takeWhile_prefix _).subset hf), by rw [ht f hf]; exact hcr⟩
    have hsub : ∀ f ∈ fs.dropWhile (fun f => decide (f.channelId = c)), f ∈ fs := fun f hf =>
      (List.dropWhile_suffix _).subset hf
    obtain ⟨ids', os₂, d1, d2, d3, d4⟩ := makeFrom_ok β h2 ops s all nf rs (c + 1)
      (fs.dropWhile fun f => decide (f.channelId = c)) os₁ P₁ e2 e3
      (by rw [← List.drop_drop, hall]; rfl) (fun f hf => (hg f (hsub f hf)).mono e4)
      (dropWhile_ge c fs hc hsort) (hsort.sublist (List.dropWhile_suffix _).sublist)
    refine ⟨ids ++ ids', os₂, ?_, d2, e4.trans d3, ?_⟩
    · unfold makeFrom
      rw [e1, Option.bind_some]
      simp only
      rw [collect_ok]
      simp only
      rw [d1]
      rfl
    · rw [List.length_cons, takeWhile_split c rs.length fs hc]
      exact List.rel_append (e5.imp fun _ _ h => h.mono d3) d4

/-! Preparation. -/

theorem retain_ok {tableSizes : List Nat} : ∀ {fs : List (Flush F)}, (∀ f ∈ fs, f.tableId < tableSizes.length) →
    retain tableSizes fs = some (fs.filter fun f => decide (rows tableSizes f ≠ 0))
  | [], _ => rfl
  | f :: fs, h => by
    have hf := h f (List.mem_cons_self ..)
    unfold retain
    rw [List.getElem?_eq_getElem hf, Option.bind_some, retain_ok fun g hg => h g (List.mem_cons_of_mem _ hg),
      Option.map_some]
    have e : rows tableSizes f = tableSizes[f.tableId] := by
      unfold rows; rw [List.getD_eq_getElem?_getD, List.getElem?_eq_getElem hf]; rfl
    rw [← e]
    by_cases h0 : rows tableSizes f = 0
    · rw [List.filter_cons_of_neg (by simp [h0]), if_neg (by omega)]
    · rw [List.filter_cons_of_pos (by simp [h0]), if_pos (by omega)]

instance : Std.Total (fun a b : Flush F => a.channelId ≤ b.channelId) := ⟨fun _ _ => Nat.le_total _ _⟩
instance : IsTrans (Flush F) (fun a b => a.channelId ≤ b.channelId) := ⟨fun _ _ _ h h' => Nat.le_trans h h'⟩

theorem prepare_ok {tableSizes : List Nat} {fs : List (Flush F)} (h : ∀ f ∈ fs, f.tableId < tableSizes.length) :
    ∃ fl, prepare tableSizes fs = some fl ∧ fl.Perm (fs.filter fun f => decide (rows tableSizes f ≠ 0)) ∧
      fl.Pairwise (fun a b => a.channelId ≤ b.channelId) := by
  refine ⟨_, by unfold prepare; rw [retain_ok h]; rfl, List.perm_insertionSort _ _, ?_⟩
  exact List.pairwise_insertionSort (fun a b : Flush F => a.channelId ≤ b.channelId) _

/-! Step-down selectors. -/

/-- The step-down oracle of a table. -/
def stepOracle (n size : Nat) : Oracle.Oracle F := ⟨n, 0, .transparent (Transparent.stepDown n size) 0⟩

/-- Every entry of the map is the step-down oracle of its key. -/
def MapOk (tableSizes : List Nat) (os : OracleSet F) (m : StepMap) : Prop :=
  ∀ k id, m.lookup k = some id →
    os.get id = some (stepOracle (Nat.clog 2 (tableSizes.getD k.1 0) + k.2) (tableSizes.getD k.1 0 * 2 ^ k.2))

theorem lookup_append {k k' : Nat × Nat} {v : Nat} : ∀ {m : StepMap}, m.lookup k' = none →
    (m ++ [(k', v)]).lookup k = if k = k' then some v else m.lookup k
  | [], _ => by
    simp only [List.nil_append, List.lookup_cons, List.lookup_nil]
    by_cases h : k = k'
    · simp [h]
    · rw [if_neg h, show (k == k') = false by simpa using h]
  | (a, b) :: m, h => by
    rw [List.cons_append, List.lookup_cons, List.lookup_cons]
    rw [List.lookup_cons] at h
    by_cases e : (k == a) = true
    · rw [e]
      have e := LawfulBEq.eq_of_beq e
      subst e
      by_cases e' : k = k'
      · subst e'; simp at h
      · rw [if_neg e']
    · have e0 : (k == a) = false := by simpa using e
      rw [e0]
      by_cases e' : (k' == a) = true
      · rw [e'] at h; simp at h
      · have e1 : (k' == a) = false := by simpa using e'
        rw [e1] at h
        exact lookup_append h

theorem stepDownPass_ok (ops : TowerOps F) (specs : List SizeSpec) (tableSizes : List Nat) :
    ∀ (fs : List (Flush F)) (os : OracleSet F) (m : StepMap), Sound os → MapOk tableSizes os m →
    (∀ f ∈ fs, f.tableId < tableSizes.length ∧ f.tableId < specs.length) →
    ∃ os' m', stepDownPass ops specs tableSizes fs (os, m) = some (.ok (os', m')) ∧ Sound os' ∧ Extends os os' ∧
      MapOk tableSizes os' m' ∧ (∀ k, (m.lookup k).isSome → (m'.lookup k).isSome) ∧
      ∀ f ∈ fs, specs[f.tableId]? = some .arbitrary → (m'.lookup (f.tableId, f.logValuesPerRow)).isSome
  | [], os, m, hs, hm, _ => ⟨os, m, rfl, hs, .refl os, hm, fun _ h => h, by simp⟩
  | f :: fs, os, m, hs, hm, h => by
    obtain ⟨h1, h2⟩ := h f (List.mem_cons_self ..)
    have hrec := fun os m hs hm => stepDownPass_ok ops specs tableSizes fs os m hs hm
      fun g hg => h g (List.mem_cons_of_mem _ hg)
    unfold stepDownPass
    rw [List.getElem?_eq_getElem h1, Option.bind_some, List.getElem?_eq_getElem h2, Option.bind_some]
    have hskip : ∀ os m, Sound os → MapOk tableSizes os m →
        (specs[f.tableId] = .arbitrary → (m.lookup (f.tableId, f.logValuesPerRow)).isSome) →
        ∃ os' m', stepDownPass ops specs tableSizes fs (os, m) = some (.ok (os', m')) ∧ Sound os' ∧ Extends os os' ∧
          MapOk tableSizes os' m' ∧ (∀ k, (m.lookup k).isSome → (m'.lookup k).isSome) ∧
          ∀ g ∈ f :: fs, specs[g.tableId]? = some .arbitrary →
            (m'.lookup (g.tableId, g.logValuesPerRow)).isSome := by
      intro os m hs hm hl
      obtain ⟨os', m', e1, e2, e3, e4, e5, e6⟩ := hrec os m hs hm
      refine ⟨os', m', e1, e2, e3, e4, e5, fun g hg ha => ?_⟩
      rcases List.mem_cons.1 hg with rfl | hg
      · rw [List.getElem?_eq_getElem h2] at ha
        injection ha with ha
        exact e5 _ (hl ha)
      · exact e6 g hg ha
    split
    · rename_i hspec
      split
      · rename_i hl
        exact hskip os m hs hm fun _ => hl
      · rename_i hl
        have hl' : m.lookup (f.tableId, f.logValuesPerRow) = none := by
          rw [Option.isSome_iff_ne_none] at hl; exact not_not.1 hl
        have hsz : tableSizes.getD f.tableId 0 = tableSizes[f.tableId] := by
          rw [List.getD_eq_getElem?_getD, List.getElem?_eq_getElem h1]; rfl
        have hle : tableSizes[f.tableId] * 2 ^ f.logValuesPerRow ≤ 2 ^ (log2Ceil tableSizes[f.tableId] + f.logValuesPerRow) := by
          rw [pow_add, log2Ceil_eq]
          exact Nat.mul_le_mul_right _ (Nat.le_pow_clog (by omega) _)
        obtain ⟨s1, s2, _⟩ := (Transparent.C30_step_down (F := F) 0 _ _).1 hle
        simp only
        rw [s1]
        simp only
        obtain ⟨a, a1, a2, a3⟩ := (Oracle.C35_leaves ops os 0 0 (Transparent.stepDown
          (log2Ceil tableSizes[f.tableId] + f.logValuesPerRow) (tableSizes[f.tableId] * 2 ^ f.logValuesPerRow)) []).2.2.1
          (Nat.zero_le _)
        rw [a1]
        simp only [liftOracle, Res.andThen]
        have hext := Evalcheck.extends_adds a2
        have hs' : Sound a.1 := Evalcheck.sound_adds a2 a3 ⟨_, s2⟩ hs
        obtain ⟨os', m', e1, e2, e3, e4, e5, e6⟩ := hskip a.1 (m ++ [((f.tableId, f.logValuesPerRow), a.2)]) hs'
          (fun k id hk => by
            rw [lookup_append hl'] at hk
            split at hk
            · rename_i hke
              cases hk
              subst hke
              rw [a2.2.1]
              simp only [hsz, stepOracle, ← log2Ceil_eq]
              rfl
            · exact hext.get (hm k id hk))
          (fun _ => by rw [lookup_append hl', if_pos rfl]; rfl)
        refine ⟨os', m', e1, e2, hext.trans e3, e4, fun k hk => e5 k ?_, e6⟩
        rw [lookup_append hl']
        split
        · rfl
        · exact hk
    · rename_i hspec
      exact hskip os m hs hm fun ha => absurd ha hspec

/-- A flush after `augment`: with the step-down selector of its table, if the table may have any size. -/
def Augmented (specs : List SizeSpec) (tableSizes : List Nat) (os : OracleSet F) (f f' : Flush F) : Prop :=
  (specs[f.tableId]? ≠ some .arbitrary ∧ f' = f) ∨
  ∃ id, f' = { f with selectors := f.selectors ++ [id] } ∧ os.get id = some (stepOracle
    (Nat.clog 2 (rows tableSizes f) + f.logValuesPerRow) (rows tableSizes f * 2 ^ f.logValuesPerRow))

theorem addSelectors_ok {specs : List SizeSpec} {tableSizes : List Nat} {os : OracleSet F} {m : StepMap}
    (hm : MapOk tableSizes os m) : ∀ {fs : List (Flush F)}, (∀ f ∈ fs, f.tableId < specs.length) →
    (∀ f ∈ fs, specs[f.tableId]? = some .arbitrary → (m.lookup (f.tableId, f.logValuesPerRow)).isSome) →
    ∃ fl, addSelectors specs m fs = some fl ∧ List.Forall₂ (Augmented specs tableSizes os) fs fl
  | [], _, _ => ⟨[], rfl, .nil⟩
  | f :: fs, h, hl => by
    have hf := h f (List.mem_cons_self ..)
    obtain ⟨fl, e1, e2⟩ := addSelectors_ok hm (fs := fs) (fun g hg => h g (List.mem_cons_of_mem _ hg))
      fun g hg => hl g (List.mem_cons_of_mem _ hg)
    unfold addSelectors
    rw [List.getElem?_eq_getElem hf, Option.bind_some, e1, Option.map_some]
    have hl := hl f (List.mem_cons_self ..)
    rw [List.getElem?_eq_getElem hf] at hl
    split
    · rename_i hspec
      rw [hspec] at hl
      obtain ⟨id, hid⟩ := Option.isSome_iff_exists.1 (hl rfl)
      rw [hid]
      exact ⟨_, rfl, .cons (Or.inr ⟨id, rfl, hm _ id hid⟩) e2⟩
    · rename_i hspec
      refine ⟨_, rfl, .cons (Or.inl ⟨?_, rfl⟩) e2⟩
      rw [List.getElem?_eq_getElem hf]
      intro hc
      injection hc with hc
      exact hspec hc

theorem augment_ok (ops : TowerOps F) {specs : List SizeSpec} {tableSizes : List Nat} {fs : List (Flush F)}
    {os : OracleSet F} (hs : Sound os) (h : ∀ f ∈ fs, f.tableId < tableSizes.length ∧ f.tableId < specs.length) :
    ∃ os' fl, augment ops os fs specs tableSizes = some (.ok (os', fl)) ∧ Sound os' ∧ Extends os os' ∧
      List.Forall₂ (Augmented specs tableSizes os') fs fl := by
  obtain ⟨os', m, e1, e2, e3, e4, _, e6⟩ := stepDownPass_ok ops specs tableSizes fs os [] hs
    (fun k id hk => by simp at hk) h
  obtain ⟨fl, d1, d2⟩ := addSelectors_ok e4 (fun f hf => (h f hf).2) e6
  refine ⟨os', fl, ?_, e2, e3, d2⟩
  unfold augment
  rw [e1]
  simp only [Res.andThen]
  rw [d1]
  rfl

end Verif.Balance
