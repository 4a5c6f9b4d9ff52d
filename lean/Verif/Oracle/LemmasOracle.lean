import Verif.Oracle.SpecOracle
import Verif.Transparent.PropsShift
import Verif.Transparent.PropsTransparent

set_option linter.dupNamespace false
set_option linter.unusedSectionVars false

/-! Lemmas on the oracles: evaluation of the derived tables. -/

namespace Verif.Oracle

open Verif.Mle Finset

variable {F : Type} [CommRing F] [DecidableEq F]

theorem mle_comm (a : Nat → Nat → F) (r s : List F) :
    mle (fun j => mle (fun i => a i j) r) s = mle (fun i => mle (fun j => a i j) s) r := by
  unfold mle
  simp only [Finset.mul_sum]
  rw [Finset.sum_comm]
  refine Finset.sum_congr rfl fun i _ => Finset.sum_congr rfl fun j _ => ?_
  ring

theorem mle_repeat (t u : Nat → F) (a b : List F)
    (h : ∀ i < 2 ^ (a.length + b.length), t i = u (i % 2 ^ a.length)) : mle t (a ++ b) = mle u a := by
  rw [mle_append]
  rw [show mle (fun j => mle (fun i => t (i + 2 ^ a.length * j)) a) b = mle (fun _ => mle u a) b from ?_, mle_const]
  refine mle_congr fun j hj => mle_congr fun i hi => ?_
  rw [h, Nat.add_mul_mod_self_left, Nat.mod_eq_of_lt hi]
  rw [Nat.pow_add]
  calc i + 2 ^ a.length * j < 2 ^ a.length * (j + 1) := by rw [Nat.mul_succ]; omega
    _ ≤ _ := Nat.mul_le_mul_left _ hj

theorem lt_add_mul {a b i j : Nat} (hi : i < 2 ^ a) (hj : j < 2 ^ b) : i + 2 ^ a * j < 2 ^ (a + b) := by
  rw [Nat.pow_add]
  calc i + 2 ^ a * j < 2 ^ a * (j + 1) := by rw [Nat.mul_succ]; omega
    _ ≤ _ := Nat.mul_le_mul_left _ hj

theorem add_mul_mod_div {a i j : Nat} (hi : i < 2 ^ a) : (i + 2 ^ a * j) % 2 ^ a = i ∧ (i + 2 ^ a * j) / 2 ^ a = j := by
  rw [Nat.add_mul_mod_self_left, Nat.mod_eq_of_lt hi, Nat.add_mul_div_left _ _ (Nat.two_pow_pos a),
    Nat.div_eq_of_lt hi, Nat.zero_add]
  exact ⟨rfl, rfl⟩

theorem mle_projected (t u : Nat → F) (lo values hi : List F)
    (h : ∀ i < 2 ^ (lo.length + hi.length), t i =
      mle (fun j => u (i % 2 ^ lo.length + 2 ^ lo.length * (j + 2 ^ values.length * (i / 2 ^ lo.length)))) values) :
    mle t (lo ++ hi) = mle u (lo ++ (values ++ hi)) := by
  rw [mle_append, mle_append u, mle_append]
  refine mle_congr fun k hk => ?_
  rw [mle_comm]
  refine mle_congr fun i hi' => ?_
  rw [h _ (lt_add_mul hi' hk)]
  obtain ⟨e1, e2⟩ := add_mul_mod_div (j := k) hi'
  rw [e1, e2]

theorem shifted_mle (v : Transparent.ShiftVariant) (b o : Nat) (u : Nat → Nat → F) (hi : List F) (y : Nat) :
    mle (fun h => Transparent.shifted v b o (u h) y) hi = Transparent.shifted v b o (fun x => mle (fun h => u h x) hi) y := by
  cases v
  · rfl
  · unfold Transparent.shifted
    by_cases h : o ≤ y
    · simp only [if_pos h]
    · simp only [if_neg h, mle_zero]
  · unfold Transparent.shifted
    by_cases h : y + o < 2 ^ b
    · simp only [if_pos h]
    · simp only [if_neg h, mle_zero]

theorem mle_shifted (t u : Nat → F) (v : Transparent.ShiftVariant) (b o : Nat) (lo hi : List F) (hb : lo.length = b)
    (h : ∀ i < 2 ^ (lo.length + hi.length),
      t i = Transparent.shifted v b o (fun x => u (x + 2 ^ b * (i / 2 ^ b))) (i % 2 ^ b)) :
    mle t (lo ++ hi) = mle (Transparent.shifted v b o fun x => mle (fun k => u (x + 2 ^ b * k)) hi) lo := by
  subst hb
  rw [mle_append, mle_comm (fun i j => t (i + 2 ^ lo.length * j))]
  refine mle_congr fun y hy => ?_
  rw [← shifted_mle]
  refine mle_congr fun k hk => ?_
  rw [h _ (lt_add_mul hy hk)]
  obtain ⟨e1, e2⟩ := add_mul_mod_div (j := k) hy
  rw [e1, e2]

theorem mle_packed (t u β : Nat → F) (k : Nat) (r : List F)
    (h : ∀ i < 2 ^ r.length, t i = ∑ e ∈ range (2 ^ k), u (e + 2 ^ k * i) * β e) :
    mle t r = ∑ e ∈ range (2 ^ k), mle (fun i => u (e + 2 ^ k * i)) r * β e := by
  rw [mle_congr h, mle_sum]
  refine Finset.sum_congr rfl fun e _ => ?_
  rw [mul_comm, ← mle_smul]
  exact mle_congr fun i _ => mul_comm _ _

theorem mle_linear (t : Nat → F) (offset : F) (l : List ((Nat → F) × F)) (r : List F)
    (h : ∀ i < 2 ^ r.length, t i = offset + (l.map fun p => p.2 * p.1 i).sum) :
    mle t r = offset + (l.map fun p => p.2 * mle p.1 r).sum := by
  rw [mle_congr h, mle_add, mle_const]
  congr 1
  clear h
  induction l with
  | nil => simp [mle_zero]
  | cons p l ih => simp only [List.map_cons, List.sum_cons]; rw [mle_add, mle_smul, ih]

theorem mle_zeroPadded (t u : Nat → F) (nz : Nat) (lo z hi : List F)
    (h : ∀ i < 2 ^ (lo.length + (z.length + hi.length)), t i = if i / 2 ^ lo.length % 2 ^ z.length = nz then
      u (i % 2 ^ lo.length + 2 ^ lo.length * (i / 2 ^ lo.length / 2 ^ z.length)) else 0) :
    mle t (lo ++ (z ++ hi)) = mle (fun i => if i = nz then 1 else 0) z * mle u (lo ++ hi) := by
  rw [mle_append, mle_append _ z, mle_append u, ← mle_smul]
  refine mle_congr fun k hk => ?_
  refine Eq.trans ?_ (mul_comm _ _)
  rw [← mle_smul]
  refine mle_congr fun j hj => ?_
  refine Eq.trans ?_ (mul_comm _ _)
  rw [← mle_smul]
  refine mle_congr fun i hi' => ?_
  rw [h _ (by
    have := lt_add_mul hj hk
    exact lt_add_mul hi' this)]
  obtain ⟨e1, e2⟩ := add_mul_mod_div (j := j + 2 ^ z.length * k) hi'
  obtain ⟨e3, e4⟩ := add_mul_mod_div (j := k) hj
  rw [e1, e2, e3, e4]
  split <;> simp

theorem shifted_congr {v : Transparent.ShiftVariant} {b o : Nat} {f g : Nat → F} (h : ∀ x < 2 ^ b, f x = g x) {y : Nat}
    (hy : y < 2 ^ b) : Transparent.shifted v b o f y = Transparent.shifted v b o g y := by
  cases v
  · exact h _ (Nat.mod_lt _ (Nat.two_pow_pos b))
  · unfold Transparent.shifted
    by_cases ho : o ≤ y
    · simp only [if_pos ho]; exact h _ (by omega)
    · simp only [if_neg ho]
  · unfold Transparent.shifted
    by_cases ho : y + o < 2 ^ b
    · simp only [if_pos ho]; exact h _ ho
    · simp only [if_neg ho]

theorem div_lt_pow {i a b : Nat} (h : i < 2 ^ (a + b)) : i / 2 ^ a < 2 ^ b := by
  rw [Nat.pow_add] at h
  exact Nat.div_lt_of_lt_mul h

theorem OracleSet.get_lt {os : OracleSet F} {id : Nat} {o : Oracle F} (h : os.get id = some o) :
    id < os.oracles.length := by
  by_contra hn
  rw [OracleSet.get, List.getElem?_eq_none (by omega)] at h
  cases h

/-- The tables of the oracles a well formed oracle refers to determine its table. -/
theorem isTable_unique {β : Nat → Nat → F} {os : OracleSet F} {tab tab' : Nat → Nat → F} {id : Nat} {o : Oracle F}
    {t t' : Nat → F} (hw : WellFormedOracle os id o) (hc : o.variant ≠ .committed)
    (hag : ∀ j < id, ∀ inner, os.get j = some inner → ∀ i < 2 ^ inner.nVars, tab j i = tab' j i)
    (h : IsTable β os tab o t) (h' : IsTable β os tab' o t') : ∀ i < 2 ^ o.nVars, t i = t' i := by
  intro i hi
  unfold IsTable at h h'
  unfold WellFormedOracle at hw
  obtain ⟨nv, tl, var⟩ := o
  cases var with
  | committed => exact absurd rfl hc
  | transparent p l =>
    have e := (h i hi).symm.trans (h' i hi)
    exact Except.ok.inj e
  | structured c => exact Option.some.inj ((h i hi).symm.trans (h' i hi))
  | repeating j k =>
    obtain ⟨hj, inner, hg, hn⟩ := hw
    have hn : nv = inner.nVars + k := hn
    rw [h i hi, h' i hi]
    refine hag j hj inner hg _ (lt_of_lt_of_eq (Nat.mod_lt _ (Nat.two_pow_pos _)) ?_)
    show 2 ^ (nv - k) = _
    rw [hn, Nat.add_sub_cancel]
  | projected j values s =>
    obtain ⟨hj, inner, hg, hn, hs⟩ := hw
    have hn : nv + values.length = inner.nVars := hn
    have hs : s ≤ nv := hs
    rw [h i hi, h' i hi]
    refine mle_congr fun k hk => hag j hj inner hg _ ?_
    have h1 : i / 2 ^ s < 2 ^ (nv - s) := div_lt_pow (by rw [Nat.add_sub_cancel' hs]; exact hi)
    have := lt_add_mul (Nat.mod_lt i (Nat.two_pow_pos s)) (lt_add_mul hk h1)
    rwa [show s + (values.length + (nv - s)) = inner.nVars by omega] at this
  | shifted j offset b v =>
    obtain ⟨hj, inner, hg, hn, hb, _, _⟩ := hw
    have hn : nv = inner.nVars := hn
    have hb : b ≤ nv := hb
    rw [h i hi, h' i hi]
    refine shifted_congr (fun x hx => hag j hj inner hg _ ?_) (Nat.mod_lt _ (Nat.two_pow_pos b))
    have h1 : i / 2 ^ b < 2 ^ (nv - b) := div_lt_pow (by rw [Nat.add_sub_cancel' hb]; exact hi)
    have := lt_add_mul hx h1
    rwa [show b + (nv - b) = inner.nVars by omega] at this
  | packed j k =>
    obtain ⟨hj, inner, hg, hn, _⟩ := hw
    have hn : nv + k = inner.nVars := hn
    rw [h inner hg i hi, h' inner hg i hi]
    refine Finset.sum_congr rfl fun e he => ?_
    rw [hag j hj inner hg _]
    have := lt_add_mul (Finset.mem_range.1 he) hi
    rwa [show k + nv = inner.nVars by omega] at this
  | linearCombination offset l =>
    rw [h i hi, h' i hi]
    congr 2
    refine List.map_congr_left fun p hp => ?_
    obtain ⟨hj, inner, hg, hn⟩ := hw p hp
    have hn : inner.nVars = nv := hn
    rw [hag _ hj inner hg i (by rw [hn]; exact hi)]
  | zeroPadded j k nz s =>
    obtain ⟨hj, inner, hg, hn, hs, _⟩ := hw
    have hn : nv = inner.nVars + k := hn
    rw [h i hi, h' i hi]
    split
    · refine hag j hj inner hg _ ?_
      have h1 : i / 2 ^ s / 2 ^ k < 2 ^ (inner.nVars - s) := by
        refine div_lt_pow (div_lt_pow ?_)
        rw [show s + (k + (inner.nVars - s)) = nv by omega]
        exact hi
      have := lt_add_mul (Nat.mod_lt i (Nat.two_pow_pos s)) h1
      rwa [Nat.add_sub_cancel' hs] at this
    · rfl
  | composite l c =>
    have e : (l.map fun id => tab id i) = l.map fun id => tab' id i := by
      refine List.map_congr_left fun j hj => ?_
      obtain ⟨hj, inner, hg, hn⟩ := hw.1 j hj
      have hn : inner.nVars = nv := hn
      exact hag _ hj inner hg i (by rw [hn]; exact hi)
    have h1 := h i hi
    have h2 := h' i hi
    rw [e] at h1
    exact Option.some.inj (h1.symm.trans h2)

/-- Only the tables of the oracles it refers to matter. -/
theorem isTable_congr {β : Nat → Nat → F} {os os' : OracleSet F} {tab tab' : Nat → Nat → F} {id : Nat} {o : Oracle F}
    {t : Nat → F} (hw : WellFormedOracle os id o) (hag : ∀ j < id, tab j = tab' j)
    (hos : ∀ j < id, os'.get j = os.get j) (h : IsTable β os tab o t) : IsTable β os' tab' o t := by
  unfold IsTable at h ⊢
  unfold WellFormedOracle at hw
  obtain ⟨nv, tl, var⟩ := o
  cases var with
  | committed => trivial
  | transparent p l => exact h
  | structured c => exact h
  | repeating j k => simp only [hag j hw.1] at h; exact h
  | projected j values s => simp only [hag j hw.1] at h; exact h
  | shifted j offset b v => simp only [hag j hw.1] at h; exact h
  | packed j k =>
    simp only [hag j hw.1] at h
    intro inner hg
    exact h inner (by rw [← hos j hw.1]; exact hg)
  | linearCombination offset l =>
    intro i hi
    refine (h i hi).trans ?_
    congr 2
    exact List.map_congr_left fun p hp => by rw [hag _ (hw p hp).1]
  | zeroPadded j k nz s => simp only [hag j hw.1] at h; exact h
  | composite l c =>
    intro i hi
    refine Eq.trans ?_ (h i hi)
    congr 1
    exact List.map_congr_left fun j hj => by rw [hag _ (hw.1 j hj).1]

theorem isTable_exists (β : Nat → Nat → F) (os : OracleSet F) (tab : Nat → Nat → F) {id : Nat} {o : Oracle F}
    (hw : WellFormedOracle os id o) (hl : Lawful o) : ∃ t, IsTable β os tab o t := by
  unfold IsTable
  unfold WellFormedOracle at hw
  unfold Lawful at hl
  obtain ⟨nv, tl, var⟩ := o
  cases var with
  | committed => exact ⟨fun _ => 0, trivial⟩
  | transparent p l =>
    obtain ⟨t, _, ht, _⟩ := hl
    exact ⟨t, fun i hi => (ht _ (vertex_length _ _)).trans (by rw [mle_vertex _ _ _ hi])⟩
  | structured c =>
    obtain ⟨g, _, ht⟩ := hl
    exact ⟨fun i => g (vertex nv i), fun i hi => ht _ (vertex_length _ _)⟩
  | repeating j k => exact ⟨_, fun i _ => rfl⟩
  | projected j values s => exact ⟨_, fun i _ => rfl⟩
  | shifted j offset b v => exact ⟨_, fun i _ => rfl⟩
  | packed j k =>
    obtain ⟨_, inner, hg, _⟩ := hw
    refine ⟨fun i => ∑ e ∈ range (2 ^ k), tab j (e + 2 ^ k * i) * β inner.towerLevel e, fun inner' hg' i _ => ?_⟩
    cases hg.symm.trans hg'
    rfl
  | linearCombination offset l => exact ⟨_, fun i _ => rfl⟩
  | zeroPadded j k nz s => exact ⟨_, fun i _ => rfl⟩
  | composite l c =>
    have : ∀ i, ∃ a, Arith.evaluate c (l.map fun id => tab id i) = some a := fun i =>
      (Arith.C21_evaluate_total c hl).1 _ (by rw [List.length_map]; exact hw.2)
    exact ⟨fun i => (this i).choose, fun i _ => (this i).choose_spec⟩

theorem isTables_exists (β : Nat → Nat → F) (os : OracleSet F) (hw : WellFormed os)
    (hl : ∀ id o, os.get id = some o → Lawful o) (com : Nat → Nat → F) (n : Nat) :
    ∃ tab : Nat → Nat → F, ∀ id < n, ∀ o, os.get id = some o → IsTable β os tab o (tab id) ∧
      (o.variant = .committed → tab id = com id) := by
  induction n with
  | zero => exact ⟨fun _ _ => 0, fun id h => absurd h (by omega)⟩
  | succ n ih =>
    obtain ⟨tab, h⟩ := ih
    cases hg : os.get n with
    | none =>
      refine ⟨tab, fun id hid o ho => ?_⟩
      by_cases e : id = n
      · rw [e, hg] at ho; cases ho
      · exact h id (by omega) o ho
    | some on =>
      have : ∃ t, IsTable β os tab on t ∧ (on.variant = .committed → t = com n) := by
        by_cases hc : on.variant = .committed
        · exact ⟨com n, by unfold IsTable; rw [hc]; trivial, fun _ => rfl⟩
        · obtain ⟨t, ht⟩ := isTable_exists β os tab (hw n on hg) (hl n on hg)
          exact ⟨t, ht, fun h => absurd h hc⟩
      obtain ⟨t, ht, htc⟩ := this
      refine ⟨fun id => if id = n then t else tab id, fun id hid o ho => ?_⟩
      by_cases e : id = n
      · subst e
        cases hg.symm.trans ho
        refine ⟨?_, fun hc => (if_pos rfl).trans (htc hc)⟩
        rw [show (fun id' => if id' = id then t else tab id') id = t from if_pos rfl]
        exact isTable_congr (hw _ _ hg) (fun j hj => (if_neg (by omega)).symm) (fun _ _ => rfl) ht
      · obtain ⟨h1, h2⟩ := h id (by omega) o ho
        refine ⟨?_, fun hc => (if_neg e).trans (h2 hc)⟩
        rw [show (fun id' => if id' = n then t else tab id') id = tab id from if_neg e]
        exact isTable_congr (hw _ _ ho) (fun j hj => (if_neg (by omega)).symm) (fun _ _ => rfl) h1

end Verif.Oracle
