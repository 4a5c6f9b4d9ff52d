import Verif.Balance.LemmasAccept
import Mathlib.Data.ZMod.Basic
import Mathlib.Algebra.Field.ZMod

/-! Properties C33 (the verifier's channel check) and C40 (table sizes). -/

set_option linter.dupNamespace false
set_option linter.unusedSectionVars false

namespace Verif.Balance

open Verif.Channel (Flush Boundary Direction OracleOrConst Event)
open Verif.Oracle (OracleSet TowerOps IsTables)
open Verif.Evalcheck (Extends Sound)
open Finset

/-! C40. -/

/-- **C40.** The sizes are accepted exactly when there is one for every table and each meets its specification. -/
theorem C40_accepts_iff (sizes : List Nat) (specs : List SizeSpec) :
    checkTableSizes sizes specs = .ok () ↔
      sizes.length = specs.length ∧ ∀ (t size : Nat) (spec : SizeSpec), sizes[t]? = some size → specs[t]? = some spec →
        Meets size spec := by
  rw [checkTableSizes_iff, List.forall₂_iff_get]
  refine and_congr_right fun hl => ⟨fun h t size spec h1 h2 => ?_, fun h t h1 h2 => ?_⟩
  · obtain ⟨g1, rfl⟩ := List.getElem?_eq_some_iff.1 h1
    obtain ⟨g2, rfl⟩ := List.getElem?_eq_some_iff.1 h2
    exact h t g1 g2
  · exact h t _ _ (List.getElem?_eq_getElem h1) (List.getElem?_eq_getElem h2)

/-- **C40.** An error names the first table whose size does not meet its specification, and the specification it does not
meet; otherwise it says that the numbers of sizes and tables differ. -/
theorem C40_error (sizes : List Nat) (specs : List SizeSpec) (e : Error) (h : checkTableSizes sizes specs = .error e) :
    (sizes.length ≠ specs.length ∧ e = .tableSizesLenMismatch) ∨
    ∃ (t size : Nat) (spec : SizeSpec), sizes[t]? = some size ∧ specs[t]? = some spec ∧ ¬ Meets size spec ∧
      (∀ (j size : Nat) (spec : SizeSpec), j < t → sizes[j]? = some size → specs[j]? = some spec → Meets size spec) ∧
      ((spec = .powerOfTwo ∧ e = .tableSizePowerOfTwoRequired t) ∨
        ∃ k, spec = .fixed k ∧ e = .tableSizeFixedRequired t) := by
  unfold checkTableSizes at h
  split at h
  · rename_i hl
    injection h with h
    exact Or.inl ⟨hl, h.symm⟩
  · obtain ⟨t, size, spec, h1, h2, h3, h4⟩ := checkTableSizesFrom_error 0 sizes specs e h
    rw [Nat.zero_add] at h3
    refine Or.inr ⟨t, size, spec, h1, h2, fun hc => ?_, h4, ?_⟩
    · rw [(checkTableSize_iff t size spec).2 hc] at h3
      cases h3
    · cases spec with
      | arbitrary => cases h3
      | powerOfTwo =>
        simp only [checkTableSize] at h3
        split at h3
        · cases h3
        · injection h3 with h3; exact Or.inl ⟨rfl, h3.symm⟩
      | fixed k =>
        simp only [checkTableSize] at h3
        split at h3
        · injection h3 with h3; exact Or.inr ⟨k, rfl, h3.symm⟩
        · cases h3

example : checkTableSizes [3, 8, 16] [.arbitrary, .powerOfTwo, .fixed 4] = .ok () :=
  (C40_accepts_iff _ _).2 ⟨rfl, fun t size spec h1 h2 => by
    match t, h1, h2 with
    | 0, h1, h2 => cases h1; cases h2; trivial
    | 1, h1, h2 => cases h1; cases h2; exact ⟨3, by omega, rfl⟩
    | 2, h1, h2 => cases h1; cases h2; exact rfl⟩

example : checkTableSizes [0, 8] [.powerOfTwo, .fixed 2] = .error (.tableSizePowerOfTwoRequired 0) := by
  rw [checkTableSizes, if_neg (by simp), checkTableSizesFrom, checkTableSize, if_neg (by
    rintro ⟨k, _, h⟩; have := Nat.two_pow_pos k; omega)]

/-! C33. -/

variable {F : Type} [Field F] [DecidableEq F]

/-- **C33.** The check passes, with the true grand products, exactly when every channel of a flush on a non-empty table has
a challenge for which the products of the fingerprints of all pushed and of all pulled tuples are equal. -/
theorem C33_accepts_iff (β : Nat → Nat → F) (h2 : (2 : F) = 0) (ops : TowerOps F) {os : OracleSet F}
    {tab : Nat → Nat → F} {flushes : List (Flush F)} {boundaries : List (Boundary F)} {specs : List SizeSpec}
    {tableSizes : List Nat} (hs : Sound os) (ht : IsTables β os tab) (hsh : Shaped os tab flushes specs tableSizes)
    (s : F) (rs : List F) :
    Accepts β ops os tab flushes boundaries specs tableSizes s rs ↔
      ∀ f ∈ flushes, rows tableSizes f ≠ 0 → ∃ r, rs[f.channelId]? = some r ∧
        fingerprintProduct (Channel.events (witnessOf os tab) flushes boundaries tableSizes) .push f.channelId s r =
        fingerprintProduct (Channel.events (witnessOf os tab) flushes boundaries tableSizes) .pull f.channelId s r :=
  accepts_iff β h2 ops hs ht hsh s rs

/-- **C33**, completeness: when the pushes and pulls of every channel balance, the check passes for all challenges. -/
theorem C33_complete (β : Nat → Nat → F) (h2 : (2 : F) = 0) (ops : TowerOps F) {os : OracleSet F}
    {tab : Nat → Nat → F} {flushes : List (Flush F)} {boundaries : List (Boundary F)} {specs : List SizeSpec}
    {tableSizes : List Nat} (hs : Sound os) (ht : IsTables β os tab) (hsh : Shaped os tab flushes specs tableSizes)
    (hb : Channel.Balanced (Channel.events (witnessOf os tab) flushes boundaries tableSizes)) (s : F) (rs : List F)
    (hr : ∀ f ∈ flushes, f.channelId < rs.length) :
    Accepts β ops os tab flushes boundaries specs tableSizes s rs := by
  rw [accepts_iff β h2 ops hs ht hsh]
  intro f hf _
  refine ⟨_, List.getElem?_eq_getElem (hr f hf), ?_⟩
  rw [prod_tuples, prod_tuples, tuples_balanced fun t => hb f.channelId t]

/-- **C33**, soundness: when a channel with a flush on a non-empty table, whose tuples all have `w` values, does not
balance, then whatever the other challenges are, the check passes for at most `|F| (E (w - 1) + N)` of the `|F|²` pairs of
a mixing challenge and a challenge of the channel, where `E` is the number of events of the channel and `N` the larger
number of values pushed or pulled. -/
theorem C33_sound [Fintype F] (β : Nat → Nat → F) (h2 : (2 : F) = 0) (ops : TowerOps F) {os : OracleSet F}
    {tab : Nat → Nat → F} {flushes : List (Flush F)} {boundaries : List (Boundary F)} {specs : List SizeSpec}
    {tableSizes : List Nat} (hs : Sound os) (ht : IsTables β os tab) (hsh : Shaped os tab flushes specs tableSizes)
    (es : List (Event F)) (hes : es = Channel.events (witnessOf os tab) flushes boundaries tableSizes) (c w : Nat)
    (hf : ∃ f ∈ flushes, f.channelId = c ∧ rows tableSizes f ≠ 0)
    (hw : ∀ e ∈ es, e.channel = c → e.tuple.length = w) (t : List F)
    (hne : Channel.count es .push c t ≠ Channel.count es .pull c t) (rs : List F) (A : Finset (F × F))
    (hA : ∀ p ∈ A, Accepts β ops os tab flushes boundaries specs tableSizes p.1 (rs.set c p.2)) :
    A.card ≤ Fintype.card F * ((es.filter fun e => e.channel = c).length * (w - 1) +
      max (volume es .push c) (volume es .pull c)) := by
  have := card_accept hw hne
  rw [card_tuples, card_tuples] at this
  refine le_trans (Finset.card_le_card fun p hp => ?_) this
  rw [Finset.mem_filter]
  refine ⟨Finset.mem_univ _, ?_⟩
  obtain ⟨f, hf1, hf2, hf3⟩ := hf
  obtain ⟨r, hr, he⟩ := (accepts_iff β h2 ops hs ht hsh p.1 _).1 (hA p hp) f hf1 hf3
  rw [hf2] at hr he
  have hlt : c < rs.length := by
    have := (List.getElem?_eq_some_iff.1 hr).1
    rwa [List.length_set] at this
  rw [List.getElem?_set_self hlt] at hr
  injection hr with hr
  rw [hes, hr]
  exact he

/-- **C33**, soundness: if the field is large enough for the statement and the check passes for all challenges, then every
channel with a flush on a non-empty table balances. -/
theorem C33_balanced_of_accepts [Fintype F] (β : Nat → Nat → F) (h2 : (2 : F) = 0) (ops : TowerOps F)
    {os : OracleSet F} {tab : Nat → Nat → F} {flushes : List (Flush F)} {boundaries : List (Boundary F)}
    {specs : List SizeSpec} {tableSizes : List Nat} (hs : Sound os) (ht : IsTables β os tab)
    (hsh : Shaped os tab flushes specs tableSizes) (es : List (Event F))
    (hes : es = Channel.events (witnessOf os tab) flushes boundaries tableSizes) (c w n : Nat)
    (hf : ∃ f ∈ flushes, f.channelId = c ∧ rows tableSizes f ≠ 0)
    (hw : ∀ e ∈ es, e.channel = c → e.tuple.length = w)
    (hsize : (es.filter fun e => e.channel = c).length * (w - 1) + max (volume es .push c) (volume es .pull c) <
      Fintype.card F)
    (hacc : ∀ (s : F) (rs : List F), rs.length = n → Accepts β ops os tab flushes boundaries specs tableSizes s rs)
    (t : List F) : Channel.count es .push c t = Channel.count es .pull c t := by
  by_contra hne
  have := C33_sound β h2 ops hs ht hsh es hes c w hf hw t hne (List.replicate n 0) Finset.univ
    fun p _ => hacc p.1 _ (by rw [List.length_set, List.length_replicate])
  rw [Finset.card_univ, Fintype.card_prod] at this
  have h0 : 0 < Fintype.card F := Fintype.card_pos
  exact absurd (Nat.le_of_mul_le_mul_left this h0) (by omega)

/-! Negative results. -/

/-- A channel without a flush on a non-empty table is not checked: with no flush at all, every choice of boundaries is
accepted, balanced or not. -/
theorem C33_boundaries_unchecked (β : Nat → Nat → F) (h2 : (2 : F) = 0) (ops : TowerOps F) {os : OracleSet F}
    {tab : Nat → Nat → F} {flushes : List (Flush F)} (boundaries : List (Boundary F)) {specs : List SizeSpec}
    {tableSizes : List Nat} (hs : Sound os) (ht : IsTables β os tab) (hsh : Shaped os tab flushes specs tableSizes)
    (hempty : ∀ f ∈ flushes, rows tableSizes f = 0) (s : F) (rs : List F) :
    Accepts β ops os tab flushes boundaries specs tableSizes s rs := by
  rw [accepts_iff β h2 ops hs ht hsh]
  exact fun f hf h => absurd (hempty f hf) h

/-- One pushed boundary and nothing else: accepted for all challenges, not balanced. -/
theorem C33_boundaries_unchecked_witness (β : Nat → Nat → F) (h2 : (2 : F) = 0) (ops : TowerOps F) :
    (∀ s rs, Accepts β ops ⟨[], 0⟩ (fun _ _ => 0) [] [⟨[1], 0, .push, 1⟩] [] [] s rs) ∧
    ¬ Channel.Balanced (Channel.events (witnessOf (F := F) ⟨[], 0⟩ fun _ _ => 0) [] [⟨[1], 0, .push, 1⟩] []) := by
  have hget : ∀ id, (⟨[], 0⟩ : OracleSet F).get id = none := fun id => by simp [OracleSet.get]
  refine ⟨fun s rs => C33_boundaries_unchecked β h2 ops _ ⟨fun id o h => ?_, fun id o h => ?_⟩ (fun id o h => ?_)
    ⟨rfl, by simp, by simp, by simp, by simp⟩ (by simp) s rs, fun h => ?_⟩
  · rw [hget] at h; cases h
  · rw [hget] at h; cases h
  · rw [hget] at h; cases h
  · have := h 0 [1]
    simp [Channel.count, Channel.events] at this

/-- Trailing zeros do not change a fingerprint: a tuple and the tuple with a zero appended are not told apart by any
challenges, so the widths of a channel's tuples must agree for soundness. -/
theorem C33_width_confusion (s r : F) (t : List F) : fingerprint s r (t ++ [0]) = fingerprint s r t := by
  unfold fingerprint
  rw [List.zipIdx_append, List.map_append, List.sum_append]
  simp

/-! A concrete system: an arbitrary table of three rows, whose column `0, 1, 1` is pushed, against boundaries. -/

section Example

private instance : Fact (Nat.Prime 2) := ⟨Nat.prime_two⟩

private abbrev K := ZMod 2
private def os : OracleSet K := ⟨[some ⟨2, 0, .committed⟩], 1⟩
private def tab : Nat → Nat → K := fun _ i => if i = 1 ∨ i = 2 then 1 else 0
private def flushes : List (Flush K) := [⟨0, 0, [.oracle 0], 0, .push, [], 1⟩]
private def boundaries : List (Boundary K) := [⟨[1], 0, .pull, 2⟩, ⟨[0], 0, .pull, 1⟩]

private theorem os_sound : Sound os := by
  refine ⟨fun id o h => ?_, fun id o h => ?_⟩ <;>
  · have := Oracle.OracleSet.get_lt h
    match id, this with
    | 0, _ => cases h; trivial
    | n + 1, hn => exact absurd hn (by simp [os])

private theorem os_tables : IsTables (fun _ _ => 1) os tab := fun id o h => by
  have := Oracle.OracleSet.get_lt h
  match id, this with
  | 0, _ => cases h; trivial
  | n + 1, hn => exact absurd hn (by simp [os])

private theorem shaped : Shaped os tab flushes [.arbitrary] [3] where
  sizes := rfl
  table := fun f hf => by rw [List.mem_singleton.1 hf]; decide
  oracles := fun f hf _ id hid => by
    rw [List.mem_singleton.1 hf] at hid ⊢
    rcases hid with hid | hid
    · rw [List.mem_singleton] at hid
      injection hid with hid
      subst hid
      exact ⟨_, rfl, by simp [rows, show Nat.clog 2 3 = 2 by decide +kernel]⟩
    · simp at hid
  some_oracle := fun f hf _ => ⟨0, by rw [List.mem_singleton.1 hf]; exact List.mem_singleton.2 rfl⟩
  selectors := fun f hf _ id hid => by rw [List.mem_singleton.1 hf] at hid; simp at hid

/-- The events are the two boundaries and the tuples `[0]`, `[1]`, `[1]`. -/
example : (Channel.events (witnessOf os tab) flushes boundaries [3]).map (fun e => (e.multiplicity, e.tuple)) =
    [(2, [1]), (1, [0]), (1, [0]), (1, [1]), (1, [1])] := by decide +kernel

private theorem balanced : Channel.Balanced (Channel.events (witnessOf os tab) flushes boundaries [3]) := by
  intro c t
  rw [show Channel.events (witnessOf os tab) flushes boundaries [3] =
    [⟨0, .pull, 2, [1]⟩, ⟨0, .pull, 1, [0]⟩, ⟨0, .push, 1, [0]⟩, ⟨0, .push, 1, [1]⟩, ⟨0, .push, 1, [1]⟩] from rfl]
  simp only [count_cons, reduceCtorEq, false_and, true_and, if_false]
  by_cases hc : (0 : Nat) = c
  · subst hc
    by_cases h1 : ([1] : List K) = t <;> by_cases h0 : ([0] : List K) = t <;> simp [h1, h0, Channel.count]
  · simp [hc, Channel.count]

example (ops : TowerOps K) (s r : K) : Accepts (fun _ _ => 1) ops os tab flushes boundaries [.arbitrary] [3] s [r] :=
  C33_complete _ rfl ops os_sound os_tables shaped balanced s [r] fun f hf => by
    rw [List.mem_singleton.1 hf]; simp

/-- Without the second boundary the check fails for some challenges. -/
example (ops : TowerOps K) :
    ¬ Accepts (fun _ _ => 1) ops os tab flushes [⟨[1], 0, .pull, 2⟩] [.arbitrary] [3] 0 [0] := by
  rw [C33_accepts_iff _ rfl ops os_sound os_tables shaped]
  intro h
  obtain ⟨r, hr, he⟩ := h _ (List.mem_singleton.2 rfl) (by decide)
  injection hr with hr
  subst hr
  revert he
  decide +kernel

/-- The bound of the soundness theorem is not vacuous: one row pushed, nothing pulled, over the field with two elements. -/
private def os1 : OracleSet K := ⟨[some ⟨0, 0, .committed⟩], 1⟩

private theorem shaped1 : Shaped os1 tab flushes [.fixed 0] [1] where
  sizes := rfl
  table := fun f hf => by rw [List.mem_singleton.1 hf]; decide
  oracles := fun f hf _ id hid => by
    rw [List.mem_singleton.1 hf] at hid ⊢
    rcases hid with hid | hid
    · rw [List.mem_singleton] at hid
      injection hid with hid
      subst hid
      exact ⟨_, rfl, by simp [rows]⟩
    · simp at hid
  some_oracle := fun f hf _ => ⟨0, by rw [List.mem_singleton.1 hf]; exact List.mem_singleton.2 rfl⟩
  selectors := fun f hf _ id hid => by rw [List.mem_singleton.1 hf] at hid; simp at hid

example : let es := Channel.events (witnessOf os1 tab) flushes [] [1]
    Channel.count es .push 0 [0] ≠ Channel.count es .pull 0 [0] ∧ (∀ e ∈ es, e.channel = 0 → e.tuple.length = 1) ∧
    (es.filter fun e => e.channel = 0).length * (1 - 1) + max (volume es .push 0) (volume es .pull 0) <
      Fintype.card K := by
  intro es
  have he : es = [⟨0, .push, 1, [0]⟩] := rfl
  rw [he]
  refine ⟨by decide +kernel, ?_, by decide +kernel⟩
  intro e h _
  rw [List.mem_singleton.1 h]
  rfl

end Example

end Verif.Balance
