import Verif.Merkle.SpecMerkle
import Mathlib.Tactic.Ring
import Mathlib.Data.Nat.Bitwise

/-! Lemmas about the Merkle tree model. -/

set_option linter.unusedSectionVars false

namespace Verif.Merkle

open Verif.Merkle.Spec

variable {F D : Type*}

theorem mapM_some {α β : Type*} {f : α → Option β} {g : α → β} (l : List α) (h : ∀ x ∈ l, f x = some (g x)) :
    l.mapM f = some (l.map g) := by
  induction l with
  | nil => rfl
  | cons a l ih =>
    rw [List.mapM_cons, h a (List.mem_cons_self ..), ih fun x hx => h x (List.mem_cons_of_mem _ hx)]
    rfl

/-- Where layer `j` above the leaves starts. -/
def off (L j : Nat) : Nat := 2 ^ (L + 1) - 2 ^ (L + 1 - j)

theorem off_zero (L : Nat) : off L 0 = 0 := by simp [off]

theorem off_succ {L j : Nat} (hj : j ≤ L) : off L (j + 1) = off L j + 2 ^ (L - j) := by
  unfold off
  have h1 : 2 ^ (L + 1 - j) ≤ 2 ^ (L + 1) := Nat.pow_le_pow_right (by omega) (by omega)
  have h2 : 2 ^ (L + 1 - j) = 2 ^ (L - j) * 2 := by rw [← Nat.pow_succ]; congr 1; omega
  rw [show L + 1 - (j + 1) = L - j by omega]
  omega

theorem off_le {L i j : Nat} (hij : i ≤ j) (hj : j ≤ L + 1) : off L i ≤ off L j := by
  unfold off
  have h1 : 2 ^ (L + 1 - j) ≤ 2 ^ (L + 1 - i) := Nat.pow_le_pow_right (by omega) (by omega)
  omega

theorem off_end (L : Nat) : off L (L + 1) = 2 ^ (L + 1) - 1 := by simp [off]

theorem compressLayer_eq (S : Scheme F D) (prev next n : Nat) (nodes : Slice D) (hp : prev + 2 * n ≤ next)
    (hn : next + n ≤ nodes.size) : ∃ nodes', compressLayer S prev next n nodes = some nodes' ∧
      nodes'.size = nodes.size ∧ (∀ p < n, nodes'.val (next + p) =
        S.compress (nodes.val (prev + 2 * p)) (nodes.val (prev + 2 * p + 1))) ∧
      ∀ q < next, nodes'.val q = nodes.val q := by
  have main := forRange_inv (n := n) (s := nodes) (body := fun p (nodes : Slice D) =>
    (nodes.get? (prev + 2 * p)).bind fun a => (nodes.get? (prev + 2 * p + 1)).bind fun b =>
      nodes.set? (next + p) (S.compress a b))
    (fun i u => u.size = nodes.size ∧ (∀ p < i, u.val (next + p) =
        S.compress (nodes.val (prev + 2 * p)) (nodes.val (prev + 2 * p + 1))) ∧
      ∀ q < next, u.val q = nodes.val q)
    ⟨rfl, fun p hp => absurd hp (by omega), fun _ _ => rfl⟩ (by
      rintro i hi u ⟨hs, h1, h2⟩
      rw [Slice.get?_of_lt (by omega), Option.bind_some, Slice.get?_of_lt (by omega), Option.bind_some,
        Slice.set?_of_lt (by omega), h2 _ (by omega), h2 _ (by omega)]
      refine ⟨_, rfl, hs, fun p hp => ?_, fun q hq => ?_⟩
      · dsimp only
        split
        · next h => rw [show p = i by omega]
        · exact h1 p (by omega)
      · dsimp only
        rw [if_neg (by omega)]
        exact h2 q hq)
  exact main

theorem internalBuild_eq (S : Scheme F D) (leaf junk : Nat → D) (L : Nat) :
    ∃ t, internalBuild S leaf junk L = some t ∧ t.logLen = L ∧ t.innerNodes.size = 2 ^ (L + 1) - 1 ∧
      ∀ j ≤ L, ∀ p < 2 ^ (L - j), t.innerNodes.val (off L j + p) = node S leaf j p := by
  have main := forRange_inv (n := L)
    (s := ((⟨2 ^ (L + 1) - 1, fun p => if p < 2 ^ L then leaf p else junk p⟩, 0, 2 ^ L) : Slice D × Nat × Nat))
    (body := fun i (s : Slice D × Nat × Nat) =>
      (compressLayer S s.2.1 s.2.2 (2 ^ (L - (i + 1))) s.1).map fun nodes =>
        (nodes, s.2.2, s.2.2 + 2 ^ (L - (i + 1))))
    (fun i s => s.1.size = 2 ^ (L + 1) - 1 ∧ s.2.1 = off L i ∧ s.2.2 = off L (i + 1) ∧
      ∀ j ≤ i, ∀ p < 2 ^ (L - j), s.1.val (off L j + p) = node S leaf j p)
    ⟨rfl, (off_zero L).symm, by rw [off_succ (by omega), off_zero]; simp, by
      intro j hj p hp
      obtain rfl : j = 0 := by omega
      rw [off_zero, Nat.zero_add]
      exact if_pos hp⟩ (by
      rintro i hi ⟨nodes, prev, next⟩ ⟨hs, h1, h2, h3⟩
      dsimp only at hs h1 h2 h3
      have e1 := off_succ (L := L) (j := i) (by omega)
      have e2 := off_succ (L := L) (j := i + 1) (by omega)
      have hpow : 2 ^ (L - i) = 2 ^ (L - (i + 1)) * 2 := by rw [← Nat.pow_succ]; congr 1; omega
      have hend := off_le (L := L) (i := i + 1 + 1) (j := L + 1) (by omega) le_rfl
      rw [off_end] at hend
      obtain ⟨nodes', hc, hs', hv, hold⟩ := compressLayer_eq S prev next (2 ^ (L - (i + 1))) nodes (by omega) (by omega)
      refine ⟨(nodes', next, next + 2 ^ (L - (i + 1))), by dsimp only; rw [hc]; rfl, ?_, ?_, ?_, ?_⟩
      · dsimp only; omega
      · exact h2
      · dsimp only; omega
      · intro j hj p hp
        dsimp only
        rcases Nat.lt_or_ge i j with hij | hij
        · obtain rfl : j = i + 1 := by omega
          rw [← h2, hv p hp, h1, h3 i le_rfl _ (by omega), Nat.add_assoc, h3 i le_rfl _ (by omega)]
          rfl
        · have := off_le (L := L) (i := j + 1) (j := i + 1) (by omega) (by omega)
          have := off_succ (L := L) (j := j) (by omega)
          rw [hold _ (by omega), h3 j hij p hp])
  obtain ⟨⟨nodes, a, b⟩, h, hs, -, -, hv⟩ := main
  exact ⟨⟨L, nodes⟩, by unfold internalBuild; dsimp only; rw [h]; rfl, rfl, hs, hv⟩

/-! ### Nodes -/

theorem node_shift (S : Scheme F D) (leaf : Nat → D) : ∀ j i, node S leaf (j + 1) i =
    node S (fun i => S.compress (leaf (2 * i)) (leaf (2 * i + 1))) j i
  | 0, _ => rfl
  | j + 1, i => by rw [node, node_shift S leaf j, node_shift S leaf j]; rfl

theorem node_congr (S : Scheme F D) {leaf leaf' : Nat → D} {d : Nat} (h : ∀ p < 2 ^ d, leaf p = leaf' p) :
    node S leaf d 0 = node S leaf' d 0 := by
  have : ∀ j ≤ d, ∀ p < 2 ^ (d - j), node S leaf j p = node S leaf' j p := by
    intro j
    induction j with
    | zero => exact fun _ p hp => h p (by simpa using hp)
    | succ j ih =>
      intro hj p hp
      have hpow : 2 ^ (d - j) = 2 ^ (d - (j + 1)) * 2 := by rw [← Nat.pow_succ]; congr 1; omega
      rw [node, node, ih (by omega) _ (by omega), ih (by omega) _ (by omega)]
  exact this d le_rfl 0 (by simp)

theorem node_add (S : Scheme F D) (leaf : Nat → D) (a : Nat) : ∀ b i,
    node S (node S leaf a) b i = node S leaf (a + b) i
  | 0, _ => rfl
  | b + 1, i => by rw [node, node_add S leaf a b, node_add S leaf a b]; rfl

theorem foldLoop_eq (S : Scheme F D) : ∀ (d : Nat) (v : Slice D), 2 ^ d ≤ v.size →
    ∃ v', foldLoop S (2 ^ d / 2) v = some v' ∧ v'.size = v.size ∧ v'.val 0 = node S v.val d 0
  | 0, v, _ => ⟨v, by unfold foldLoop; simp, rfl, rfl⟩
  | d + 1, v, hv => by
    have hp := Nat.two_pow_pos d
    have hps := Nat.pow_succ 2 d
    rw [hps, Nat.mul_div_cancel _ (by decide)]
    unfold foldLoop
    rw [dif_neg (by omega)]
    have main := forRange_inv (n := 2 ^ d) (s := v) (body := fun i (v : Slice D) =>
      (v.get? (2 * i)).bind fun a => (v.get? (2 * i + 1)).bind fun b => v.set? i (S.compress a b))
      (fun i u => u.size = v.size ∧ (∀ k < i, u.val k = S.compress (v.val (2 * k)) (v.val (2 * k + 1))) ∧
        ∀ k, i ≤ k → u.val k = v.val k)
      ⟨rfl, fun k hk => absurd hk (by omega), fun _ _ => rfl⟩ (by
        rintro i hi u ⟨hs, h1, h2⟩
        rw [Slice.get?_of_lt (by omega), Option.bind_some, Slice.get?_of_lt (by omega), Option.bind_some,
          Slice.set?_of_lt (by omega), h2 _ (by omega), h2 _ (by omega)]
        refine ⟨_, rfl, hs, fun k hk => ?_, fun k hk => ?_⟩
        · dsimp only
          split
          · next h => rw [h]
          · exact h1 k (by omega)
        · dsimp only
          rw [if_neg (by omega)]
          exact h2 k (by omega))
    obtain ⟨u, hu, hus, hu1, -⟩ := main
    obtain ⟨v', hv', hs', h0⟩ := foldLoop_eq S d u (by omega)
    refine ⟨v', by rw [hu, Option.bind_some, hv'], by omega, ?_⟩
    rw [h0, node_shift]
    exact node_congr S hu1

theorem foldDigests_eq (S : Scheme F D) (d : Nat) (v : Slice D) (hv : v.size = 2 ^ d) :
    foldDigests S v = some (.ok (node S v.val d 0)) := by
  unfold foldDigests
  rw [hv, Nat.log2_two_pow, if_neg (by simp)]
  obtain ⟨v', h, hs, h0⟩ := foldLoop_eq S d v hv.ge
  rw [h, Option.bind_some, Slice.get?_of_lt (by have := Nat.two_pow_pos d; omega), h0]
  rfl

theorem two_mul_half_xor {i : Nat} : (i % 2 = 0 → i ^^^ 1 = i + 1) ∧ (i % 2 = 1 → i ^^^ 1 = i - 1) := by
  constructor
  · intro h
    exact Nat.xor_one_of_even (Nat.even_iff.2 h)
  · intro h
    exact Nat.xor_one_of_odd (Nat.odd_iff.2 h)

/-- Climbing along the branch of a tree gives its node. -/
theorem climb_honest [DecidableEq D] (S : Scheme F D) (leaf : Nat → D) (n : Nat) : ∀ (j index : Nat),
    climb S index (node S leaf j index)
      ((List.range n).map fun k => node S leaf (j + k) ((index >>> k) ^^^ 1)) =
      (node S leaf (j + n) (index >>> n), index >>> n) := by
  induction n with
  | zero => intro j index; rfl
  | succ n ih =>
    intro j index
    rw [List.range_succ_eq_map, List.map_cons, List.map_map, climb]
    have hstep : S.compress (order index (node S leaf j index) (node S leaf (j + 0) (index >>> 0 ^^^ 1))).1
        (order index (node S leaf j index) (node S leaf (j + 0) (index >>> 0 ^^^ 1))).2 =
        node S leaf (j + 1) (index >>> 1) := by
      rw [node, Nat.shiftRight_zero, Nat.add_zero, Nat.shiftRight_one]
      unfold order
      rcases Nat.mod_two_eq_zero_or_one index with h | h
      · rw [if_pos h, two_mul_half_xor.1 h, show 2 * (index / 2) = index by omega]
      · rw [if_neg (by omega), two_mul_half_xor.2 h, show 2 * (index / 2) = index - 1 by omega,
          show index - 1 + 1 = index by omega]
    rw [hstep]
    have := ih (j + 1) (index >>> 1)
    rw [← Nat.shiftRight_add, Nat.add_comm 1 n, show j + 1 + n = j + (n + 1) by omega] at this
    rw [← this]
    congr 1
    refine List.map_congr_left fun k _ => ?_
    rw [Function.comp_apply, ← Nat.shiftRight_add, Nat.succ_eq_add_one, Nat.add_comm 1 k,
      show j + 1 + k = j + (k + 1) by omega]

theorem climb_snd [DecidableEq D] (S : Scheme F D) : ∀ (b : List D) (index : Nat) (leaf : D),
    (climb S index leaf b).2 = index >>> b.length
  | [], _, _ => rfl
  | n :: b, index, leaf => by
    rw [climb, climb_snd S b, ← Nat.shiftRight_add, List.length_cons, Nat.add_comm]

end Verif.Merkle
