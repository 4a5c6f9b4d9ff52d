import Verif.Piop.LemmasMerge
import Verif.Piop.SpecMerge
import Verif.Utils.PropsSorting
import Mathlib.Algebra.Field.ZMod
import Mathlib.Tactic.NormNum.Prime

/-! C64: the message that is committed to. -/

set_option linter.dupNamespace false

namespace Verif.Piop

open Verif Verif.Compute Verif.Sorting

variable {F : Type}

/-- **C64.** Reordering a range of `2 ^ n` scalars puts at every position of it what was at the position with the `n` bits
reversed, leaves the rest of the buffer alone, and makes no access outside of the range. -/
theorem C64_reverse_index_bits {n off : Nat} {b : Slice F} (hn : n < 64) (hb : off + 2 ^ n ≤ b.size) :
    ∃ b', reverseIndexBits off (2 ^ n) b = some b' ∧ b'.size = b.size ∧
      (∀ k < 2 ^ n, b'.val (off + k) = b.val (off + bitRev n k)) ∧
      ∀ x, (x < off ∨ off + 2 ^ n ≤ x) → b'.val x = b.val x :=
  reverseIndexBits_eq hn hb

/-- **C64.** Doing it twice gives the buffer back. -/
theorem C64_reverse_index_bits_twice {n off : Nat} {b : Slice F} (hn : n < 64) (hb : off + 2 ^ n ≤ b.size) :
    ∃ b' b'', reverseIndexBits off (2 ^ n) b = some b' ∧ reverseIndexBits off (2 ^ n) b' = some b'' ∧ b''.size = b.size ∧
      ∀ x < b.size, b''.val x = b.val x := by
  obtain ⟨c, e1, e2, e3, e4⟩ := reverseIndexBits_eq hn hb
  obtain ⟨d, f1, f2, f3, f4⟩ := reverseIndexBits_eq (b := c) (off := off) hn (by omega)
  refine ⟨c, d, e1, f1, by omega, fun x hx => ?_⟩
  by_cases h : x < off ∨ off + 2 ^ n ≤ x
  · rw [f4 x h, e4 x h]
  · obtain ⟨k, rfl⟩ : ∃ k, x = off + k := ⟨x - off, by omega⟩
    rw [f3 k (by omega), e3 _ (bitRev_lt _ _), bitRev_bitRev n k (by omega)]

/-- **C64.** A range whose length is not a power of two is refused. -/
theorem C64_reverse_index_bits_panics {len off : Nat} {b : Slice F} (h : ∀ k, len ≠ 2 ^ k) : reverseIndexBits off len b = none := by
  rw [reverseIndexBits, strictLog2_none.2 h]; rfl

variable [Field F]

/-- The packed polynomial has the values of the one it stands for. -/
def Packs (w : Nat) (p : PackedMle F) (m : Multilin F) : Prop :=
  p.Valid w ∧ p.nVars = m.poly.1 ∧ ∀ x < 2 ^ p.nVars, p.evals.val x = m.poly.2 x

theorem PackedMle.new_ok {w n : Nat} {e : Slice F} (he : e.size = max (2 ^ n) (2 ^ w)) :
    PackedMle.new w n e = .ok ⟨n, e⟩ := by
  unfold PackedMle.new
  by_cases hn : n < w
  · have : e.size / 2 ^ w = 2 ^ 0 := by
      rw [he, Nat.max_eq_right (Nat.pow_le_pow_right (by omega) hn.le), Nat.div_self (Nat.two_pow_pos w), Nat.pow_zero]
    rw [this, strictLog2_eq.2 rfl]
    simp only [if_pos hn, if_true]
  · have : e.size / 2 ^ w = 2 ^ (n - w) := by
      rw [he, Nat.max_eq_left (Nat.pow_le_pow_right (by omega) (by omega)), Nat.pow_div (by omega) (by omega)]
    rw [this, strictLog2_eq.2 rfl]
    simp only [if_neg hn, if_pos (show w + (n - w) = n by omega)]

theorem packedCommitted_ok {w id : Nat} {m : Multilin F} (h : m.Valid w) :
    ∃ p, packedCommitted w id m = .ok p ∧ Packs w p m := by
  unfold packedCommitted
  by_cases hk : m.nVars < m.kappa
  · have hs : (⟨2 ^ w, fun i => if i = 0 then m.padded else 0⟩ : Slice F).size = max (2 ^ 0) (2 ^ w) := by
      rw [Nat.max_eq_right]
      exact Nat.two_pow_pos w
    rw [if_pos hk, PackedMle.new_ok hs]
    refine ⟨_, rfl, hs, ?_, fun x hx => ?_⟩
    · rw [Multilin.poly, if_pos hk]
    · have hx0 : x = 0 := by
        have : x < 1 := hx
        omega
      rw [Multilin.poly, if_pos hk, hx0]
      rfl
  · obtain h | ⟨e, h1, h2⟩ := h
    · exact absurd h hk
    · rw [if_neg hk, h1]
      simp only
      rw [PackedMle.new_ok h2]
      refine ⟨_, rfl, h2, ?_, fun x hx => ?_⟩
      · rw [Multilin.poly, if_neg hk]
      · rw [Multilin.poly, if_neg hk, h1]
        rfl

theorem packedCommitteds_ok {w : Nat} : ∀ (ms : List (Multilin F)) (id : Nat), (∀ m ∈ ms, m.Valid w) →
    ∃ ps, packedCommitteds w id ms = .ok ps ∧ List.Forall₂ (Packs w) ps ms
  | [], _, _ => ⟨[], rfl, .nil⟩
  | m :: ms, id, h => by
    obtain ⟨p, hp, hm⟩ := packedCommitted_ok (w := w) (id := id) (h m (by simp))
    obtain ⟨ps, hps, hms⟩ := packedCommitteds_ok ms (id + 1) (fun m hm => h m (by simp [hm]))
    exact ⟨p :: ps, by rw [packedCommitteds, hp, hps], .cons hm hms⟩

theorem packs_map_fst {w : Nat} {ps : List (PackedMle F)} {ms : List (Multilin F)} (h : List.Forall₂ (Packs w) ps ms) :
    ps.map PackedMle.nVars = (ms.map Multilin.poly).map Prod.fst := by
  induction h with
  | nil => rfl
  | cons a _ ih => rw [List.map_cons, List.map_cons, List.map_cons, ih, a.2.1]

theorem packs_valid {w : Nat} {ps : List (PackedMle F)} {ms : List (Multilin F)} (h : List.Forall₂ (Packs w) ps ms) :
    ∀ p ∈ ps, p.Valid w := by
  induction h with
  | nil => simp
  | cons a _ ih =>
    intro p hp
    rcases List.mem_cons.1 hp with rfl | hp
    · exact a.1
    · exact ih p hp

theorem packs_sum {w : Nat} {ps : List (PackedMle F)} {ms : List (Multilin F)} (h : List.Forall₂ (Packs w) ps ms) :
    (ps.reverse.map fun m => 2 ^ m.nVars).sum = totalSize (ms.map Multilin.poly) := by
  rw [List.map_reverse, List.sum_reverse, totalSize]
  induction h with
  | nil => rfl
  | cons a _ ih => rw [List.map_cons, List.map_cons, List.map_cons, List.sum_cons, List.sum_cons, ih, a.2.1]

theorem concat_congr {w : Nat} {ps : List (PackedMle F)} {ms : List (Multilin F)} (h : List.Forall₂ (Packs w) ps ms) (x : Nat) :
    Piecewise.concat (ps.map fun m => (m.nVars, fun x => m.evals.val (bitRev m.nVars x))) x =
      Piecewise.concat ((ms.map Multilin.poly).map fun p => (p.1, fun x => p.2 (bitRev p.1 x))) x := by
  induction h generalizing x with
  | nil => rfl
  | @cons p m ps ms a _ ih =>
    show (if x < 2 ^ p.nVars then p.evals.val (bitRev p.nVars x) else _) = if x < 2 ^ m.poly.1 then _ else _
    rw [← a.2.1]
    by_cases hx : x < 2 ^ p.nVars
    · rw [if_pos hx, if_pos hx, a.2.2 _ (bitRev_lt _ _)]
      show _ = m.poly.2 (bitRev m.poly.1 x)
      rw [← a.2.1]
    · rw [if_neg hx, if_neg hx]
      exact ih _

theorem sorted_iff (l : List Nat) : isSortedAscending l = true ↔ l.Pairwise (· ≤ ·) := by
  rw [C03_is_sorted_ascending]
  exact ⟨fun h => List.pairwise_iff_getElem.mpr fun i j _ hj hij => h i j hij hj,
    fun h i j hij hj => List.pairwise_iff_getElem.mp h i j _ hj hij⟩

/-- **C64.** For polynomials sorted by size that fit, the message that is committed to is the one that the opening protocol
(C62) speaks of: their packed tables, the largest first, each in bit-reversed order, one after the other with no gaps whatever
the packing width, and zeros after them. -/
theorem C64_commit_message {w logElems : Nat} {ms : List (Multilin F)} (hw : w ≤ logElems) (h64 : logElems < 64)
    (hv : ∀ m ∈ ms, m.Valid w) (hs : SortedBySize (ms.map Multilin.poly))
    (hfit : totalSize (ms.map Multilin.poly) ≤ 2 ^ logElems) :
    ∃ b, commitMessage w logElems ms = some (.ok b) ∧ b.size = 2 ^ logElems ∧
      ∀ x < 2 ^ logElems, b.val x = message (ms.map Multilin.poly) x := by
  obtain ⟨ps, hps, hp⟩ := packedCommitteds_ok ms 0 hv
  have hsort : (ps.map PackedMle.nVars).Pairwise (· ≤ ·) := by rw [packs_map_fst hp]; exact hs
  obtain ⟨off, b, e1, e2, -, e4⟩ := forEach_merge (w := w) ps.reverse (fun m hm => packs_valid hp m (by simpa using hm)) 0
    ⟨2 ^ logElems, fun _ => 0⟩ (by rw [packs_sum hp, Nat.zero_add]; exact hfit) (Nat.pow_lt_pow_right (by omega) h64)
    (fun _ _ _ => rfl)
  refine ⟨b, ?_, e2, fun x hx => ?_⟩
  · rw [commitMessage, hps]
    simp only
    rw [if_pos ((sorted_iff _).2 hsort), if_neg (by omega), mergeMultilins_eq hsort, e1]
    rfl
  · have := e4 x (by rw [Nat.zero_add]; exact hx)
    rw [Nat.zero_add] at this
    rw [this, concat_congr (List.rel_reverse hp), message, ← List.map_reverse]

/-- **C64.** Polynomials that are not sorted by size are refused. -/
theorem C64_commit_unsorted {w logElems : Nat} {ms : List (Multilin F)}
    (hv : ∀ m ∈ ms, m.Valid w) (hs : ¬ SortedBySize (ms.map Multilin.poly)) :
    commitMessage w logElems ms = some (.error .notSorted) := by
  obtain ⟨ps, hps, hp⟩ := packedCommitteds_ok ms 0 hv
  rw [commitMessage, hps]
  simp only
  rw [if_neg]
  rw [sorted_iff, packs_map_fst hp]
  exact hs

/-- **C64.** Polynomials that do not fit into the message make it panic; nothing is cut off. -/
theorem C64_commit_too_long {w logElems : Nat} {ms : List (Multilin F)} (h64 : logElems < 64)
    (hv : ∀ m ∈ ms, m.Valid w) (hs : SortedBySize (ms.map Multilin.poly))
    (hfit : 2 ^ logElems < totalSize (ms.map Multilin.poly)) : commitMessage w logElems ms = none := by
  obtain ⟨ps, hps, hp⟩ := packedCommitteds_ok ms 0 hv
  have hsort : (ps.map PackedMle.nVars).Pairwise (· ≤ ·) := by rw [packs_map_fst hp]; exact hs
  rw [commitMessage, hps]
  simp only
  rw [if_pos ((sorted_iff _).2 hsort)]
  by_cases hw : logElems < w
  · rw [if_pos hw]
  · rw [if_neg hw, mergeMultilins_eq hsort, forEach_merge_none ps.reverse (fun m hm => packs_valid hp m (by simpa using hm)) 0
      ⟨2 ^ logElems, fun _ => 0⟩ (by rw [packs_sum hp, Nat.zero_add]; exact hfit) (Nat.zero_le _)
      (Nat.pow_lt_pow_right (by omega) h64)]
    rfl

/-- **C64.** The first polynomial without packed evaluations is named in the error. -/
theorem C64_commit_missing {w logElems : Nat} {pre post : List (Multilin F)} {m : Multilin F} (hv : ∀ m ∈ pre, m.Valid w)
    (hk : m.kappa ≤ m.nVars) (hm : m.packedEvals = none) :
    commitMessage w logElems (pre ++ m :: post) = some (.error (.packedEvaluationsMissing pre.length)) := by
  have key : ∀ (pre : List (Multilin F)) (id : Nat), (∀ m ∈ pre, m.Valid w) →
      packedCommitteds w id (pre ++ m :: post) = .error (.packedEvaluationsMissing (id + pre.length)) := by
    intro pre
    induction pre with
    | nil =>
      intro id _
      rw [List.nil_append, packedCommitteds, packedCommitted, if_neg (by omega), hm]
      rfl
    | cons p pre ih =>
      intro id h
      obtain ⟨q, hq, -⟩ := packedCommitted_ok (w := w) (id := id) (h p (by simp))
      rw [List.cons_append, packedCommitteds, hq]
      simp only
      rw [ih (id + 1) (fun m hm => h m (by simp [hm])), List.length_cons]
      simp only
      rw [show id + 1 + pre.length = id + (pre.length + 1) by omega]
  rw [commitMessage, key pre 0 hv, Nat.zero_add]

/-- **C64.** A commitment is only made if every polynomial that is not too small for its packing comes with packed evaluations,
as many packed elements as its size needs. -/
theorem C64_commit_lengths {w logElems : Nat} {ms : List (Multilin F)} {b : Slice F}
    (h : commitMessage w logElems ms = some (.ok b)) :
    ∀ m ∈ ms, m.kappa ≤ m.nVars → ∃ e, m.packedEvals = some e ∧ e.size / 2 ^ w = 2 ^ (m.nVars - m.kappa - w) := by
  have one : ∀ (m : Multilin F) (id : Nat) (p : PackedMle F), packedCommitted w id m = .ok p → m.kappa ≤ m.nVars →
      ∃ e, m.packedEvals = some e ∧ e.size / 2 ^ w = 2 ^ (m.nVars - m.kappa - w) := by
    intro m id p hp hk
    rw [packedCommitted, if_neg (by omega)] at hp
    cases he : m.packedEvals with
    | none => rw [he] at hp; cases hp
    | some e =>
      rw [he] at hp
      refine ⟨e, rfl, ?_⟩
      change PackedMle.new w (m.nVars - m.kappa) e = _ at hp
      unfold PackedMle.new at hp
      split at hp
      · cases hp
      next l hl =>
        rw [strictLog2_eq.1 hl]
        congr 1
        split at hp
        · split at hp
          · omega
          · cases hp
        · split at hp
          · omega
          · cases hp
  have all : ∀ (ms : List (Multilin F)) (id : Nat) (ps : List (PackedMle F)), packedCommitteds w id ms = .ok ps →
      ∀ m ∈ ms, m.kappa ≤ m.nVars → ∃ e, m.packedEvals = some e ∧ e.size / 2 ^ w = 2 ^ (m.nVars - m.kappa - w) := by
    intro ms
    induction ms with
    | nil => intro id ps _ m hm; cases hm
    | cons m ms ih =>
      intro id ps h m' hm'
      rw [packedCommitteds] at h
      cases hp : packedCommitted w id m with
      | error e => rw [hp] at h; cases h
      | ok p =>
        rw [hp] at h
        cases hps : packedCommitteds w (id + 1) ms with
        | error e => simp only [hps] at h; cases h
        | ok ps' =>
          rcases List.mem_cons.1 hm' with rfl | hm'
          · exact one _ _ _ hp
          · exact ih _ _ hps m' hm'
  rw [commitMessage] at h
  cases hp : packedCommitteds w 0 ms with
  | error e => rw [hp] at h; cases h
  | ok ps => exact all ms 0 ps hp

section examples

local instance : Fact (Nat.Prime 7) := ⟨by norm_num⟩

/-- Three polynomials, the smallest too small for its own packing, in a message of 16 elements packed by four: the table of
8 values comes first, in the order 0, 4, 2, 6, 1, 5, 3, 7, then the one of two values and the single padded one. -/
def exMultilins : List (Multilin (ZMod 7)) :=
  [⟨0, 1, none, 6⟩, ⟨2, 1, some ⟨4, fun i => (i + 4 : Nat)⟩, 0⟩, ⟨3, 0, some ⟨8, fun i => (i : Nat)⟩, 0⟩]

example : (2 : Nat) ≤ 4 ∧ (∀ m ∈ exMultilins, m.Valid 2) ∧ SortedBySize (exMultilins.map Multilin.poly) ∧
    totalSize (exMultilins.map Multilin.poly) = 11 := by
  refine ⟨by omega, ?_, ?_, ?_⟩
  · intro m hm
    simp only [exMultilins, List.mem_cons, List.not_mem_nil, or_false] at hm
    rcases hm with rfl | rfl | rfl
    · exact Or.inl (by decide)
    · exact Or.inr ⟨_, rfl, by decide⟩
    · exact Or.inr ⟨_, rfl, by decide⟩
  · simp [SortedBySize, exMultilins, Multilin.poly]
  · simp [totalSize, exMultilins, Multilin.poly]

example : (List.range 16).map (message (exMultilins.map Multilin.poly)) =
    [0, 4, 2, 6, 1, 5, 3, 0, 4, 5, 6, 0, 0, 0, 0, 0] := by
  decide +kernel

example : ((commitMessage 2 4 exMultilins).bind fun r => match r with
    | .ok b => some ((List.range 16).map b.val)
    | .error _ => none) = some [0, 4, 2, 6, 1, 5, 3, 0, 4, 5, 6, 0, 0, 0, 0, 0] := by
  decide +kernel

/-- The hypotheses of the refusals are met by the same polynomials in the wrong order, and in a message of 8. -/
example : ¬ SortedBySize (exMultilins.reverse.map Multilin.poly) := by
  simp [SortedBySize, exMultilins, Multilin.poly]

example : 2 ^ 3 < totalSize (exMultilins.map Multilin.poly) := by
  simp [totalSize, exMultilins, Multilin.poly]

end examples

end Verif.Piop
