import Verif.RingSwitch.SpecRingSwitch
import Mathlib.Data.List.Perm.Basic
import Mathlib.Data.List.Infix

/-! Lemmas about the system of evaluation claims. -/

set_option linter.dupNamespace false
set_option linter.unusedSectionVars false

namespace Verif.RingSwitch

open Verif.Oracle (OracleSet)
open Verif.Piop (SparseIndex CommitMeta PiopClaim isCommitted)
open Verif.Evalcheck (Claim)

variable {F : Type} [Field F] [DecidableEq F]

/-- What the system knows about one claim. -/
structure Item (F : Type) where
  claim : Claim F
  kappa : Nat
  committed : Nat
  suffixIdx : Nat
  prefixIdx : Nat

def Item.pre (it : Item F) : List F := (splitPoint it.kappa it.claim.point).1

def Item.suf (it : Item F) : List F := (splitPoint it.kappa it.claim.point).2

def Item.desc (it : Item F) : ClaimDesc F := ⟨it.committed, it.suffixIdx, it.claim⟩

theorem splitPoint_length (kappa : Nat) (p : List F) : (splitPoint kappa p).1.length = kappa := by
  unfold splitPoint
  split
  · simp; omega
  · simp; omega

theorem Item.pre_length (it : Item F) : it.pre.length = it.kappa := splitPoint_length _ _

/-- The oracle of a claim. -/
def OracleOk (os : OracleSet F) (it : Item F) : Prop :=
  ∃ o, os.get it.claim.id = some o ∧ isCommitted o = true ∧ o.towerLevel ≤ 7 ∧ it.kappa = 7 - o.towerLevel

/-- The descriptions that a claim refers to. -/
def DescOk (prefixes : List (List F)) (suffixes : List (SuffixDesc F)) (it : Item F) : Prop :=
  suffixes[it.suffixIdx]? = some ⟨it.suf, it.kappa⟩ ∧ prefixes[it.prefixIdx]? = some it.pre

theorem findOrPush_ok {A : Type} (l : List A) (p : A → Bool) (a : A) (hp : ∀ b, p b = true → b = a) :
    l <+: (findOrPush l p a).2 ∧ (findOrPush l p a).2[(findOrPush l p a).1]? = some a ∧
      ∀ b ∈ (findOrPush l p a).2, b ∈ l ∨ b = a := by
  unfold findOrPush
  cases h : l.findIdx? p with
  | none => exact ⟨List.prefix_append _ _, by simp, fun b hb => by simpa using hb⟩
  | some i =>
    obtain ⟨hi, hpi, -⟩ := List.findIdx?_eq_some_iff_getElem.1 h
    refine ⟨List.prefix_refl _, ?_, fun b hb => .inl hb⟩
    show l[i]? = some a
    rw [List.getElem?_eq_getElem hi, hp _ hpi]

theorem prefix_getElem? {A : Type} {l l' : List A} (h : l <+: l') {i : Nat} {a : A} (hi : l[i]? = some a) :
    l'[i]? = some a := by
  obtain ⟨t, rfl⟩ := h
  rw [List.getElem?_append_left (List.getElem?_eq_some_iff.1 hi).1, hi]

theorem groupLoop_ok (os : OracleSet F) (index : SparseIndex Nat) : ∀ (cs : List (Claim F)) (g g' : Groups F),
    groupLoop os cs g = .ok g' → ∃ xs : List (Item F), xs.map Item.claim = cs ∧
      g'.toPrefix = g.toPrefix ++ xs.map Item.prefixIdx ∧ g'.toSuffix = g.toSuffix ++ xs.map Item.suffixIdx ∧
      g.prefixes <+: g'.prefixes ∧ g.suffixes <+: g'.suffixes ∧
      (∀ x ∈ xs, OracleOk os x ∧ DescOk g'.prefixes g'.suffixes x ∧ x.committed = (index x.claim.id).getD 0) ∧
      ∀ p ∈ g'.prefixes, p ∈ g.prefixes ∨ ∃ x ∈ xs, p = x.pre
  | [], g, g', h => by
    injection h with h
    subst h
    exact ⟨[], rfl, by simp, by simp, List.prefix_refl _, List.prefix_refl _, by simp, fun p hp => .inl hp⟩
  | c :: cs, g, g', h => by
    rw [groupLoop] at h
    cases hs : groupStep os g c with
    | error e => rw [hs] at h; cases h
    | ok g1 =>
      rw [hs] at h
      obtain ⟨xs, h1, h2, h3, h4, h5, h6, h7⟩ := groupLoop_ok os index cs g1 g' h
      unfold groupStep at hs
      cases ho : os.get c.id with
      | none => rw [ho] at hs; cases hs
      | some o =>
        rw [ho] at hs
        dsimp only at hs
        by_cases hcm : isCommitted o = false
        · rw [if_pos hcm] at hs; cases hs
        rw [if_neg hcm] at hs
        by_cases htl : 7 < o.towerLevel
        · rw [if_pos htl] at hs; cases hs
        rw [if_neg htl] at hs
        injection hs with hs
        obtain ⟨p1, p2, p3⟩ := findOrPush_ok g.prefixes
          (fun q => decide (q = (splitPoint (7 - o.towerLevel) c.point).1))
          (splitPoint (7 - o.towerLevel) c.point).1 (fun b hb => of_decide_eq_true hb)
        obtain ⟨s1, s2, -⟩ := findOrPush_ok g.suffixes
          (fun d => decide (d.suffix = (splitPoint (7 - o.towerLevel) c.point).2 ∧ d.kappa = 7 - o.towerLevel))
          ⟨(splitPoint (7 - o.towerLevel) c.point).2, 7 - o.towerLevel⟩ (fun b hb => by
            have := of_decide_eq_true hb
            cases b
            simp only at this
            rw [this.1, this.2])
        subst hs
        refine ⟨⟨c, 7 - o.towerLevel, (index c.id).getD 0, (findOrPush g.suffixes
            (fun d => decide (d.suffix = (splitPoint (7 - o.towerLevel) c.point).2 ∧ d.kappa = 7 - o.towerLevel))
            ⟨(splitPoint (7 - o.towerLevel) c.point).2, 7 - o.towerLevel⟩).1,
          (findOrPush g.prefixes (fun q => decide (q = (splitPoint (7 - o.towerLevel) c.point).1))
            (splitPoint (7 - o.towerLevel) c.point).1).1⟩ :: xs, ?_, ?_, ?_, ?_, ?_, ?_, ?_⟩
        · rw [List.map_cons, h1]
        · rw [h2, List.append_assoc]; rfl
        · rw [h3, List.append_assoc]; rfl
        · exact p1.trans h4
        · exact s1.trans h5
        · intro x hx
          rcases List.mem_cons.1 hx with rfl | hx
          · exact ⟨⟨o, ho, by simpa using hcm, by omega, rfl⟩, ⟨prefix_getElem? h5 s2, prefix_getElem? h4 p2⟩, rfl⟩
          · exact h6 x hx
        · intro p hp
          rcases h7 p hp with h | ⟨x, hx, e⟩
          · rcases p3 p h with h | h
            · exact .inl h
            · exact .inr ⟨_, List.mem_cons_self, h⟩
          · exact .inr ⟨x, List.mem_cons_of_mem _ hx, e⟩

theorem makeDescs_ok (os : OracleSet F) (index : SparseIndex Nat) : ∀ (xs : List (Item F)) (ds : List (ClaimDesc F)),
    (∀ x ∈ xs, x.committed = (index x.claim.id).getD 0) →
    makeDescs os index (xs.map Item.claim) (xs.map Item.suffixIdx) = .ok ds →
      (∀ x ∈ xs, index x.claim.id = some x.committed) ∧ ds = xs.map Item.desc
  | [], ds, _, h => by
    injection h with h
    subst h
    simp
  | x :: xs, ds, hx, h => by
    rw [List.map_cons, List.map_cons, makeDescs] at h
    cases ho : os.get x.claim.id with
    | none => rw [ho] at h; cases h
    | some o =>
      rw [ho] at h
      dsimp only at h
      split at h
      · cases h
      · cases hi : index x.claim.id with
        | none => rw [hi] at h; cases h
        | some ci =>
          rw [hi] at h
          dsimp only at h
          cases hr : makeDescs os index (xs.map Item.claim) (xs.map Item.suffixIdx) with
          | error e => rw [hr] at h; cases h
          | ok ds' =>
            rw [hr] at h
            injection h with h
            obtain ⟨h1, h2⟩ := makeDescs_ok os index xs ds' (fun y hy => hx y (List.mem_cons_of_mem _ hy)) hr
            have hc : x.committed = ci := by rw [hx x List.mem_cons_self, hi]; rfl
            refine ⟨fun y hy => ?_, ?_⟩
            · rcases List.mem_cons.1 hy with rfl | hy
              · rw [hi, hc]
              · exact h1 y hy
            · rw [← h, h2, List.map_cons]
              unfold Item.desc
              rw [hc]

theorem sortKeys_ok (os : OracleSet F) : ∀ (cs : List (Claim F)) (l : List (Nat × Claim F)),
    sortKeys os cs = some l → l.map Prod.snd = cs ∧ ∀ p ∈ l, sortKey os p.2 = some p.1
  | [], l, h => by
    injection h with h
    subst h
    simp
  | c :: cs, l, h => by
    rw [sortKeys] at h
    cases hk : sortKey os c with
    | none => rw [hk] at h; cases h
    | some k =>
      rw [hk, Option.bind_some] at h
      cases hr : sortKeys os cs with
      | none => rw [hr] at h; cases h
      | some l' =>
        rw [hr, Option.map_some] at h
        injection h with h
        obtain ⟨h1, h2⟩ := sortKeys_ok os cs l' hr
        subst h
        refine ⟨by rw [List.map_cons, h1], fun p hp => ?_⟩
        rcases List.mem_cons.1 hp with rfl | hp
        · exact hk
        · exact h2 p hp

theorem sortClaims_ok (os : OracleSet F) (cs sorted : List (Claim F)) (h : sortClaims os cs = some sorted) :
    sorted.Perm cs ∧ sorted.Pairwise fun a b => ∀ i j, sortKey os a = some i → sortKey os b = some j → i ≤ j := by
  unfold sortClaims at h
  cases hk : sortKeys os cs with
  | none => rw [hk] at h; cases h
  | some l =>
    rw [hk, Option.map_some] at h
    injection h with h
    obtain ⟨h1, h2⟩ := sortKeys_ok os cs l hk
    subst h
    refine ⟨?_, ?_⟩
    · conv_rhs => rw [← h1]
      exact (List.mergeSort_perm l _).map _
    · rw [List.pairwise_map]
      have hp := List.pairwise_mergeSort (le := fun a b : Nat × Claim F => decide (a.1 ≤ b.1))
        (fun a b c h h' => by
          have h := of_decide_eq_true h
          have h' := of_decide_eq_true h'
          exact decide_eq_true (h.trans h'))
        (fun a b => by
          rcases Nat.le_total a.1 b.1 with h | h
          · simp [h]
          · simp [h]) l
      refine List.Pairwise.imp_of_mem (fun {a b} ha hb hab i j hi hj => ?_) hp
      rw [h2 a ((List.mergeSort_perm l _).mem_iff.1 ha)] at hi
      rw [h2 b ((List.mergeSort_perm l _).mem_iff.1 hb)] at hj
      injection hi with hi
      injection hj with hj
      rw [← hi, ← hj]
      exact of_decide_eq_true hab

/-- What `EvalClaimSystem::new` returns. -/
theorem newSystem_ok (os : OracleSet F) (m : CommitMeta) (index : SparseIndex Nat) (claims : List (Claim F))
    (sys : System F) (h : newSystem os m index claims = .ok sys) : ∃ items : List (Item F),
    sys.claims = items.map Item.desc ∧ sys.toPrefix = items.map Item.prefixIdx ∧ sys.commitMeta = m ∧
    (items.map Item.claim).Perm claims ∧
    (∀ x ∈ items, OracleOk os x ∧ DescOk sys.prefixes sys.suffixes x ∧ index x.claim.id = some x.committed) ∧
    (∀ p ∈ sys.prefixes, ∃ x ∈ items, p = x.pre) ∧
    items.Pairwise fun a b => ∀ i j, sortKey os a.claim = some i → sortKey os b.claim = some j → i ≤ j := by
  unfold newSystem at h
  cases hs : sortClaims os claims with
  | none => rw [hs] at h; cases h
  | some sorted =>
    rw [hs] at h
    dsimp only at h
    cases hg : groupLoop os sorted ⟨[], [], [], []⟩ with
    | error e => rw [hg] at h; cases h
    | ok g =>
      rw [hg] at h
      dsimp only at h
      obtain ⟨xs, h1, h2, h3, -, -, h6, h7⟩ := groupLoop_ok os index sorted _ g hg
      rw [List.nil_append] at h2 h3
      rw [h3, ← h1] at h
      cases hd : makeDescs os index (xs.map Item.claim) (xs.map Item.suffixIdx) with
      | error e => rw [hd] at h; cases h
      | ok ds =>
        rw [hd] at h
        injection h with h
        obtain ⟨h8, h9⟩ := makeDescs_ok os index xs ds (fun x hx => (h6 x hx).2.2) hd
        obtain ⟨h10, h11⟩ := sortClaims_ok os claims sorted hs
        subst h
        refine ⟨xs, h9, h2, rfl, ?_, fun x hx => ⟨(h6 x hx).1, (h6 x hx).2.1, h8 x hx⟩, fun p hp => ?_, ?_⟩
        · rw [h1]; exact h10
        · rcases h7 p hp with h | h
          · simp at h
          · exact h
        · rw [← h1, List.pairwise_map] at h11
          exact h11

theorem foldl_max_ge : ∀ (l : List Nat) (a : Nat), a ≤ l.foldl max a ∧ ∀ x ∈ l, x ≤ l.foldl max a
  | [], a => ⟨Nat.le_refl a, by simp⟩
  | y :: l, a => by
    obtain ⟨h1, h2⟩ := foldl_max_ge l (max a y)
    rw [List.foldl_cons]
    refine ⟨by omega, fun x hx => ?_⟩
    rcases List.mem_cons.1 hx with rfl | hx
    · omega
    · exact h2 x hx

theorem le_maxKappa (sys : System F) (p : List F) (hp : p ∈ sys.prefixes) : p.length ≤ sys.maxKappa :=
  (foldl_max_ge _ 0).2 _ (List.mem_map_of_mem hp)

/-! ## Levels -/

theorem levelOf_kappa (l : Level) : levelOf l.kappa = .ok l := by cases l <;> rfl

theorem kappa_injective {l l' : Level} (h : l.kappa = l'.kappa) : l = l' := by
  cases l <;> cases l' <;> first | rfl | (exact absurd h (by decide))

theorem kappa_of_levelOf {kappa : Nat} {l : Level} (h : levelOf kappa = .ok l) : l.kappa = kappa := by
  unfold levelOf at h
  by_cases h7 : 7 < kappa
  · rw [if_pos h7] at h; cases h
  · rw [if_neg h7] at h
    split at h
    all_goals first | (cases h; done) | (injection h with h; subst h; simp only [Level.kappa, Level.towerLevel]; omega)

theorem kappa_towerLevel (l : Level) (t : Nat) (h : l.towerLevel = t) : l.kappa = 7 - t := by
  rw [← h]; rfl

theorem towerLevel_of_kappa (l : Level) (t : Nat) (ht : t ≤ 7) (h : l.kappa = 7 - t) : l.towerLevel = t := by
  cases l <;> simp only [Level.kappa, Level.towerLevel] at h ⊢ <;> omega

end Verif.RingSwitch
