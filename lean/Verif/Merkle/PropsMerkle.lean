import Verif.Merkle.LemmasMerkle

/-! C24: honest Merkle openings verify.  C25: openings are binding up to an explicit collision. -/

set_option linter.unusedSectionVars false

namespace Verif.Merkle

open Verif.Merkle.Spec

variable {F D : Type*} [DecidableEq F] [DecidableEq D] [Inhabited D]

theorem build_eq (S : Scheme F D) (junk : Nat → D) (data : List F) (B k : Nat) (hB : 0 < B)
    (hlen : data.length = B * 2 ^ k) : build S junk data B =
      (internalBuild S (fun i => S.hash (chunk data B i)) junk k).map .ok := by
  have hp := Nat.two_pow_pos k
  unfold build
  rw [if_neg (by omega), if_neg (by rw [hlen]; simp)]
  dsimp only
  rw [hlen, Nat.mul_div_cancel_left _ hB, Nat.log2_two_pow, if_neg (by simp), Nat.mul_div_cancel _ hp]

/-- The place of a sibling in the flattened tree. -/
theorem node_index {L j q : Nat} (hj : j < L) (hq : q < 2 ^ (L - j)) :
    ((2 ^ j - 1) <<< (L + 1 - j)) ||| (q ^^^ 1) = off L j + (q ^^^ 1) ∧ q ^^^ 1 < 2 ^ (L - j) := by
  have hx : q ^^^ 1 < 2 ^ (L - j) :=
    Nat.xor_lt_two_pow hq (Nat.one_lt_two_pow (by omega))
  have hx' : q ^^^ 1 < 2 ^ (L + 1 - j) := lt_trans hx (Nat.pow_lt_pow_right (by omega) (by omega))
  refine ⟨?_, hx⟩
  rw [Nat.shiftLeft_eq, Nat.mul_comm, ← Nat.two_pow_add_eq_or_of_lt hx']
  unfold off
  rw [Nat.mul_sub, Nat.mul_one, ← Nat.pow_add, show L + 1 - j + j = L + 1 by omega]

/-- **C24** (completeness).  For every number of leaves `2^k`, batch size, layer and index: committing succeeds, the
commitment is the Merkle root of the hashes of the batches, the layer verifies against the commitment, and the
branch written by the prover verifies against the layer, consuming exactly the digests written; the whole vector
verifies too.  Nothing depends on the uninitialised memory. -/
theorem C24_complete (S : Scheme F D) (junk : Nat → D) (data : List F) (B k : Nat) (hB : 0 < B)
    (hlen : data.length = B * 2 ^ k) :
    ∃ root t, commit S junk data B = some (.ok (⟨root, k⟩, t)) ∧
      root = node S (fun i => S.hash (chunk data B i)) k 0 ∧
      verifyVector S root data B = some (.ok ()) ∧
      ∀ depth ≤ k, ∃ layer, t.layer depth = some (.ok layer) ∧ layer.length = 2 ^ depth ∧
        verifyLayer S root depth layer = some (.ok ()) ∧
        ∀ index < 2 ^ k, ∀ proof rest, ∃ branch, proveOpening t depth index proof = some (.ok (proof ++ branch)) ∧
          branch.length = k - depth ∧
          verifyOpening S index (chunk data B index) depth k layer (branch ++ rest) = some (.ok rest) := by
  obtain ⟨t, ht, htl, hts, htv⟩ := internalBuild_eq S (fun i => S.hash (chunk data B i)) junk k
  generalize hleaf : (fun i => S.hash (chunk data B i)) = leaf at *
  have hp := Nat.two_pow_pos k
  have hps := Nat.pow_succ 2 k
  have hroot : t.root = some (node S leaf k 0) := by
    unfold Tree.root
    rw [if_neg (by omega), Slice.get?_of_lt (by omega), ← htv k le_rfl 0 (by simp), hts]
    congr 2
    unfold off
    rw [show k + 1 - k = 1 by omega]
    omega
  refine ⟨node S leaf k 0, t, ?_, rfl, ?_, ?_⟩
  · unfold commit
    rw [build_eq S junk data B k hB hlen, hleaf, ht]
    show (t.root).map _ = _
    rw [hroot, htl]
    rfl
  · unfold verifyVector
    rw [if_neg (by omega), if_neg (by rw [hlen]; simp), hleaf, hlen, Nat.mul_div_cancel_left _ hB,
      foldDigests_eq S k _ rfl]
    show some (if _ then _ else _) = _
    rw [if_pos rfl]
  intro depth hd
  have hdp := Nat.two_pow_pos depth
  have hdk : 2 ^ (depth + 1) ≤ 2 ^ (k + 1) := Nat.pow_le_pow_right (by omega) (by omega)
  have hlayer : t.layer depth = some (.ok ((List.range (2 ^ depth)).map fun i => node S leaf (k - depth) i)) := by
    unfold Tree.layer
    rw [htl, if_neg (by omega), hts, if_neg (by omega)]
    dsimp only
    rw [mapM_some (g := fun i => node S leaf (k - depth) i) _ fun i hi => ?_]
    · rfl
    · rw [List.mem_range] at hi
      have e : 2 ^ (k + 1) - 1 + 1 - 2 ^ (depth + 1) = off k (k - depth) := by
        unfold off
        rw [show k + 1 - (k - depth) = depth + 1 by omega]
        omega
      have hle := off_le (L := k) (i := k - depth + 1) (j := k + 1) (by omega) le_rfl
      rw [off_end, off_succ (by omega), show k - (k - depth) = depth by omega] at hle
      rw [e, Slice.get?_of_lt (by omega), htv _ (by omega) _ (by rw [show k - (k - depth) = depth by omega]; exact hi)]
  refine ⟨_, hlayer, by simp, ?_, ?_⟩
  · unfold verifyLayer
    rw [if_neg (by simp), foldDigests_eq S depth _ (by simp)]
    have : node S (fun i => ((List.range (2 ^ depth)).map fun i => node S leaf (k - depth) i)[i]?.getD default) depth 0 =
        node S leaf k 0 := by
      rw [node_congr S (leaf' := node S leaf (k - depth)) fun p hp => by simp [hp], node_add,
        show k - depth + depth = k by omega]
    dsimp only
    rw [this]
    show some (if _ then _ else _) = _
    rw [if_pos rfl]
  · intro index hi proof rest
    have hbr : t.branch index depth =
        some (.ok ((List.range (k - depth)).map fun j => node S leaf (0 + j) ((index >>> j) ^^^ 1))) := by
      unfold Tree.branch
      rw [htl, if_neg (by omega)]
      rw [mapM_some (g := fun j => node S leaf (0 + j) ((index >>> j) ^^^ 1)) _ fun j hj => ?_]
      · rfl
      · rw [List.mem_range] at hj
        have hq : index >>> j < 2 ^ (k - j) := by
          rw [Nat.shiftRight_eq_div_pow, Nat.div_lt_iff_lt_mul (Nat.two_pow_pos _), ← Nat.pow_add,
            show k - j + j = k by omega]
          exact hi
        obtain ⟨e1, e2⟩ := node_index (L := k) (j := j) (by omega) hq
        have hle := off_le (L := k) (i := j + 1) (j := k + 1) (by omega) le_rfl
        rw [off_end, off_succ (by omega)] at hle
        rw [e1, Slice.get?_of_lt (by omega), htv j (by omega) _ e2, Nat.zero_add]
    refine ⟨_, by unfold proveOpening; rw [hbr]; rfl, by simp, ?_⟩
    unfold verifyOpening
    rw [if_neg (by simp), if_neg (by omega), if_neg (by omega)]
    dsimp only
    rw [if_neg (by simp), List.take_left' (by simp), List.drop_left' (by simp)]
    have hl0 : S.hash (chunk data B index) = node S leaf 0 index := by rw [← hleaf]; rfl
    rw [hl0, climb_honest, Nat.zero_add]
    have hidx : index >>> (k - depth) < 2 ^ depth := by
      rw [Nat.shiftRight_eq_div_pow, Nat.div_lt_iff_lt_mul (Nat.two_pow_pos _), ← Nat.pow_add,
        show depth + (k - depth) = k by omega]
      exact hi
    simp [hidx]

/-- **C24** (refusals).  A length that is not a multiple of the batch size, or not a power of two times it, is
refused by the prover, and by the verifier of whole vectors; depths and indices out of range are refused. -/
theorem C24_errors (S : Scheme F D) (junk : Nat → D) (data : List F) (B : Nat) (hB : 0 < B) :
    (data.length % B ≠ 0 → commit S junk data B = some (.error .incorrectBatchSize) ∧
      ∀ root, verifyVector S root data B = some (.error .incorrectBatchSize)) ∧
    (data.length % B = 0 → (∀ k, data.length ≠ B * 2 ^ k) →
      commit S junk data B = some (.error .powerOfTwoLengthRequired) ∧
      ∀ root, verifyVector S root data B = some (.error .powerOfTwoLengthRequired)) ∧
    ∀ t : Tree D, (∀ depth, t.logLen < depth → t.layer depth = some (.error .incorrectLayerDepth)) ∧
      ∀ index depth, 2 ^ t.logLen ≤ index ∨ t.logLen < depth →
        ∀ proof, proveOpening t depth index proof = some (.error (.indexOutOfRange (2 ^ t.logLen - 1))) := by
  refine ⟨fun h => ⟨?_, fun root => ?_⟩, fun h hk => ?_, fun t => ⟨fun depth hd => ?_, fun index depth hd proof => ?_⟩⟩
  · unfold commit build
    rw [if_neg (by omega), if_pos h]
    rfl
  · unfold verifyVector
    rw [if_neg (by omega), if_pos h]
  · have hne : data.length / B ≠ 2 ^ Nat.log2 (data.length / B) := by
      intro he
      refine hk (Nat.log2 (data.length / B)) ?_
      rw [← he, Nat.mul_div_cancel' (Nat.dvd_of_mod_eq_zero h)]
    refine ⟨?_, fun root => ?_⟩
    · unfold commit build
      rw [if_neg (by omega), if_neg (by omega)]
      dsimp only
      rw [if_pos hne]
      rfl
    · unfold verifyVector foldDigests
      rw [if_neg (by omega), if_neg (by omega)]
      dsimp only
      rw [if_pos hne]
      rfl
  · unfold Tree.layer
    rw [if_pos hd]
  · unfold proveOpening Tree.branch
    rw [if_pos hd]
    rfl

/-- **C24** (the optimal layer).  Sending the layer that `optimal_verify_layer` picks minimises the number of
digests in the proof: the layer and one branch per query. -/
theorem C24_optimal_layer (n k d : Nat) (hd : d ≤ k) :
    optimalVerifyLayer n k ≤ k ∧
    (k - optimalVerifyLayer n k) * n + 2 ^ optimalVerifyLayer n k ≤ (k - d) * n + 2 ^ d := by
  refine ⟨Nat.min_le_right _ _, ?_⟩
  have hmb : ∀ m e, minBits m ≤ e ↔ m < 2 ^ e := by
    intro m e
    unfold minBits
    split
    · next h => subst h; simp
    · next h => rw [Nat.succ_le_iff, Nat.log2_lt h]
  have hup : ∀ e, optimalVerifyLayer n k ≤ e → e < k → n ≤ 2 ^ e := by
    intro e h1 h2
    unfold optimalVerifyLayer at h1
    have := (hmb (n - 1) e).1 (by omega)
    omega
  have hdown : ∀ e, e < optimalVerifyLayer n k → 2 ^ e ≤ n := by
    intro e h1
    unfold optimalVerifyLayer at h1
    have := mt (hmb (n - 1) e).2 (by omega)
    have := Nat.two_pow_pos e
    omega
  have hok : optimalVerifyLayer n k ≤ k := Nat.min_le_right _ _
  generalize optimalVerifyLayer n k = o at *
  have above : ∀ x, o + x ≤ k → (k - o) * n + 2 ^ o ≤ (k - (o + x)) * n + 2 ^ (o + x) := by
    intro x
    induction x with
    | zero => intro _; exact le_rfl
    | succ x ih =>
      intro hx
      have h1 := ih (by omega)
      have h2 := hup (o + x) (by omega) (by omega)
      have h3 : (k - (o + x)) * n = (k - (o + (x + 1))) * n + n := by
        rw [← Nat.succ_mul]; congr 1; omega
      have h4 := Nat.pow_succ 2 (o + x)
      rw [← Nat.add_assoc o x 1] at *
      omega
  have below : ∀ x, x ≤ o → o ≤ k → (k - o) * n + 2 ^ o ≤ (k - (o - x)) * n + 2 ^ (o - x) := by
    intro x
    induction x with
    | zero => intro _ _; exact le_rfl
    | succ x ih =>
      intro hx hk
      have h1 := ih (by omega) hk
      have h2 := hdown (o - (x + 1)) (by omega)
      have h3 : (k - (o - (x + 1))) * n = (k - (o - x)) * n + n := by
        rw [← Nat.succ_mul]; congr 1; omega
      have h4 : 2 ^ (o - x) = 2 ^ (o - (x + 1)) * 2 := by rw [← Nat.pow_succ]; congr 1; omega
      omega
  rcases Nat.lt_or_ge d o with h | h
  · have := below (o - d) (by omega) hok
    rwa [show o - (o - d) = d by omega] at this
  · have := above (d - o) (by omega)
    rwa [show o + (d - o) = d by omega] at this

/-- **C24** (finding).  The size reported by `proof_size` omits one digest per query: the proof has `n` branches of
`k - d` digests and one layer of `2^d`.  For the lowest layer, where the branches are empty, the computation
underflows. -/
theorem C24_proof_size (size k n d : Nat) :
    (d < k → ∃ s, proofSize size (2 ^ k) n d = some (.ok s) ∧ s + n * size = ((k - d) * n + 2 ^ d) * size) ∧
    proofSize size (2 ^ k) n k = none := by
  constructor
  · intro hd
    unfold proofSize
    rw [Nat.log2_two_pow, if_neg (by simp)]
    dsimp only
    rw [if_neg (by omega), if_neg (by omega)]
    refine ⟨_, rfl, ?_⟩
    obtain ⟨x, rfl⟩ : ∃ x, k = d + 1 + x := ⟨k - (d + 1), by omega⟩
    rw [show d + 1 + x - d - 1 = x by omega, show d + 1 + x - d = x + 1 by omega]
    ring
  · unfold proofSize
    rw [Nat.log2_two_pow, if_neg (by simp)]
    dsimp only
    rw [if_neg (by omega), if_pos (by omega)]

/-- **C24** (the verifier of openings).  On every input, honest or not, the verifier returns a result, unless the
layer is below the leaves: then (finding) it panics as soon as the other checks pass. -/
theorem C24_verify_total (S : Scheme F D) (i d k : Nat) (v : List F) (layer proof : List D) :
    (d ≤ k → verifyOpening S i v d k layer proof ≠ none) ∧
    (k < d → layer.length = 2 ^ d → i < 2 ^ k → verifyOpening S i v d k layer proof = none) := by
  constructor
  · intro hd
    unfold verifyOpening
    split
    · simp
    · split
      · simp
      · rw [if_neg (by omega)]
        dsimp only
        split
        · simp
        · next h1 h2 h3 =>
          have hidx : i >>> (k - d) < layer.length := by
            rw [Nat.shiftRight_eq_div_pow, Nat.div_lt_iff_lt_mul (Nat.two_pow_pos _), not_not.1 h1 |>.symm,
              ← Nat.pow_add, show d + (k - d) = k by omega]
            omega
          rw [climb_snd, List.length_take, Nat.min_eq_left (by omega), List.getElem?_eq_getElem hidx]
          simp
  · intro hd hl hi
    unfold verifyOpening
    rw [if_neg (by omega), if_neg (by omega), if_pos hd]

/-! ### Binding -/

theorem findDigests_of_mem (S : Scheme F D) {a b : List (D × D)} {x y : D × D} (h : (x, y) ∈ a.zip b) (hne : x ≠ y)
    (hc : S.compress x.1 x.2 = S.compress y.1 y.2) : ∃ c, findDigests S a b = some c ∧ c.Valid S := by
  unfold findDigests
  cases hf : (a.zip b).find? fun p => decide (p.1 ≠ p.2 ∧ S.compress p.1.1 p.1.2 = S.compress p.2.1 p.2.2) with
  | none =>
    have := List.find?_eq_none.1 hf _ h
    simp [hne, hc] at this
  | some p =>
    have := List.find?_some hf
    exact ⟨_, rfl, by simpa [Collision.Valid] using this⟩

theorem order_inj {i : Nat} {a b c d : D} (h : order i a b = order i c d) : a = c ∧ b = d := by
  unfold order at h
  split at h <;> simp_all

theorem branch_collision (S : Scheme F D) : ∀ (b b' : List D) (i : Nat) (l l' : D), b.length = b'.length →
    (climb S i l b).1 = (climb S i l' b').1 → (l ≠ l' ∨ b ≠ b') →
    ∃ x y, (x, y) ∈ (branchInputs S i l b).zip (branchInputs S i l' b') ∧ x ≠ y ∧
      S.compress x.1 x.2 = S.compress y.1 y.2
  | [], [], _, l, l', _, h, hne => by
    rcases hne with hne | hne
    · exact absurd h hne
    · exact absurd rfl hne
  | [], _ :: _, _, _, _, hl, _, _ => by simp at hl
  | _ :: _, [], _, _, _, hl, _, _ => by simp at hl
  | n :: t, n' :: t', i, l, l', hl, h, hne => by
    rw [climb, climb] at h
    rw [branchInputs, branchInputs]
    rw [show (if i % 2 = 0 then (l, n) else (n, l)) = order i l n from rfl,
      show (if i % 2 = 0 then (l', n') else (n', l')) = order i l' n' from rfl]
    rw [Nat.shiftRight_one] at h
    by_cases hp : order i l n = order i l' n'
    · obtain ⟨rfl, rfl⟩ := order_inj hp
      have ht : t ≠ t' := by
        rintro rfl
        simp at hne
      obtain ⟨x, y, hm, r⟩ := branch_collision S t t' (i / 2) _ _ (by simpa using hl) h (Or.inr ht)
      exact ⟨x, y, List.mem_cons_of_mem _ hm, r⟩
    · by_cases hc : S.compress (order i l n).1 (order i l n).2 = S.compress (order i l' n').1 (order i l' n').2
      · exact ⟨_, _, List.mem_cons_self .., hp, hc⟩
      · obtain ⟨x, y, hm, r⟩ := branch_collision S t t' (i / 2) _ _ (by simpa using hl) h (Or.inl hc)
        exact ⟨x, y, List.mem_cons_of_mem _ hm, r⟩

theorem verifyOpening_ok {S : Scheme F D} {i d k : Nat} {v : List F} {layer proof rest : List D}
    (h : verifyOpening S i v d k layer proof = some (.ok rest)) :
    layer.length = 2 ^ d ∧ i < 2 ^ k ∧ d ≤ k ∧ k - d ≤ proof.length ∧ rest = proof.drop (k - d) ∧
      layer[i >>> (k - d)]? = some (climb S i (S.hash v) (proof.take (k - d))).1 := by
  unfold verifyOpening at h
  split at h
  · simp at h
  · split at h
    · simp at h
    · split at h
      · simp at h
      · dsimp only at h
        split at h
        · simp at h
        · next h1 h2 h3 h4 =>
          rw [climb_snd, List.length_take, Nat.min_eq_left (by omega)] at h
          cases hl : layer[i >>> (k - d)]? with
          | none => rw [hl] at h; simp at h
          | some x =>
            rw [hl, Option.map_some] at h
            split at h
            · next he =>
              injection h with h
              injection h with h
              exact ⟨by omega, by omega, by omega, by omega, h.symm, by rw [he]⟩
            · simp at h

/-- **C25** (openings are binding).  If the verifier accepts two openings of the same index against the same layer,
then the opened values are equal and the branches read are equal, or the two openings contain a collision, which
the extractor finds. -/
theorem C25_opening (S : Scheme F D) (i d k : Nat) (layer : List D) (v v' : List F) (proof proof' rest rest' : List D)
    (h : verifyOpening S i v d k layer proof = some (.ok rest))
    (h' : verifyOpening S i v' d k layer proof' = some (.ok rest')) :
    (v = v' ∧ proof.take (k - d) = proof'.take (k - d)) ∨
    ∃ c, extractOpening S i v v' (proof.take (k - d)) (proof'.take (k - d)) = some c ∧ c.Valid S := by
  obtain ⟨-, -, -, hp, -, e⟩ := verifyOpening_ok h
  obtain ⟨-, -, -, hp', -, e'⟩ := verifyOpening_ok h'
  rw [e] at e'
  injection e' with e'
  by_cases hv : v ≠ v' ∧ S.hash v = S.hash v'
  · refine Or.inr ⟨.values v v', ?_, hv⟩
    unfold extractOpening
    rw [if_pos hv]
  · by_cases hbr : S.hash v ≠ S.hash v' ∨ proof.take (k - d) ≠ proof'.take (k - d)
    · right
      obtain ⟨x, y, hm, hne, hc⟩ := branch_collision S (proof.take (k - d)) (proof'.take (k - d)) i _ _
        (by rw [List.length_take, List.length_take]; omega) e' hbr
      unfold extractOpening
      rw [if_neg hv]
      exact findDigests_of_mem S hm hne hc
    · push Not at hbr
      refine Or.inl ⟨?_, hbr.2⟩
      by_contra hne
      exact hv ⟨hne, hbr.1⟩

theorem layerInputs_length (S : Scheme F D) : ∀ (d : Nat) (l l' : Nat → D),
    (layerInputs S l d).length = (layerInputs S l' d).length
  | 0, _, _ => rfl
  | d + 1, l, l' => by
    rw [layerInputs, layerInputs, List.length_append, List.length_append, layerInputs_length S d,
      List.length_map, List.length_map]

theorem layer_collision (S : Scheme F D) : ∀ (d : Nat) (l l' : Nat → D), node S l d 0 = node S l' d 0 →
    (∃ p < 2 ^ d, l p ≠ l' p) →
    ∃ x y, (x, y) ∈ (layerInputs S l d).zip (layerInputs S l' d) ∧ x ≠ y ∧
      S.compress x.1 x.2 = S.compress y.1 y.2
  | 0, l, l', h, ⟨p, hp, hne⟩ => by
    obtain rfl : p = 0 := by simpa using hp
    exact absurd h hne
  | d + 1, l, l', h, ⟨p, hp, hne⟩ => by
    rw [node_shift, node_shift] at h
    rw [layerInputs, layerInputs, List.zip_append (layerInputs_length S d _ _)]
    by_cases hc : ∃ q < 2 ^ d, S.compress (l (2 * q)) (l (2 * q + 1)) ≠ S.compress (l' (2 * q)) (l' (2 * q + 1))
    · obtain ⟨x, y, hm, r⟩ := layer_collision S d _ _ h hc
      exact ⟨x, y, List.mem_append_left _ hm, r⟩
    · push Not at hc
      have hps := Nat.pow_succ 2 d
      refine ⟨(l (2 * (p / 2)), l (2 * (p / 2) + 1)), (l' (2 * (p / 2)), l' (2 * (p / 2) + 1)),
        List.mem_append_right _ ?_, ?_, hc _ (by omega)⟩
      · rw [List.zip_map', List.mem_map]
        exact ⟨p / 2, List.mem_range.2 (by omega), rfl⟩
      · intro he
        injection he with h1 h2
        rcases Nat.mod_two_eq_zero_or_one p with h0 | h0
        · rw [show 2 * (p / 2) = p by omega] at h1
          exact hne h1
        · rw [show 2 * (p / 2) + 1 = p by omega] at h2
          exact hne h2

/-- The digests of a list as a function (for positions inside the list). -/
def digestAt (l : List D) (i : Nat) : D := l[i]?.getD default

theorem verifyLayer_ok {S : Scheme F D} {root : D} {d : Nat} {l : List D}
    (h : verifyLayer S root d l = some (.ok ())) : l.length = 2 ^ d ∧ node S (digestAt l) d 0 = root := by
  unfold verifyLayer at h
  split at h
  · simp at h
  · next hl =>
    rw [foldDigests_eq S d _ (by dsimp only; omega)] at h
    refine ⟨by omega, ?_⟩
    have h' : (if node S (digestAt l) d 0 = root then (.ok () : Except Error Unit) else .error .invalidProof) = .ok () :=
      Option.some.inj h
    by_contra hne
    rw [if_neg hne] at h'
    simp at h'

/-- **C25** (layers are binding).  If the verifier accepts two lists as the same layer of a tree with the same root,
they are equal or contain a collision, which the extractor finds. -/
theorem C25_layer (S : Scheme F D) (root : D) (d : Nat) (l l' : List D) (h : verifyLayer S root d l = some (.ok ()))
    (h' : verifyLayer S root d l' = some (.ok ())) :
    l = l' ∨ ∃ c, findDigests S (layerInputs S (digestAt l) d) (layerInputs S (digestAt l') d) = some c ∧ c.Valid S := by
  obtain ⟨hl, e⟩ := verifyLayer_ok h
  obtain ⟨hl', e'⟩ := verifyLayer_ok h'
  by_cases hex : ∃ p < 2 ^ d, digestAt l p ≠ digestAt l' p
  · obtain ⟨x, y, hm, hne, hc⟩ := layer_collision S d _ _ (e.trans e'.symm) hex
    exact Or.inr (findDigests_of_mem S hm hne hc)
  · push Not at hex
    left
    refine List.ext_getElem (by omega) fun p h1 h2 => ?_
    have := hex p (by omega)
    unfold digestAt at this
    rwa [List.getElem?_eq_getElem h1, List.getElem?_eq_getElem h2, Option.getD_some, Option.getD_some] at this

theorem verifyVector_ok {S : Scheme F D} {root : D} {data : List F} {B k : Nat} (hB : 0 < B)
    (hlen : data.length = B * 2 ^ k) (h : verifyVector S root data B = some (.ok ())) :
    node S (fun i => S.hash (chunk data B i)) k 0 = root := by
  unfold verifyVector at h
  rw [if_neg (by omega), if_neg (by rw [hlen]; simp), foldDigests_eq S k _ (by
    dsimp only; rw [hlen, Nat.mul_div_cancel_left _ hB])] at h
  have h' : (if node S (fun i => S.hash (chunk data B i)) k 0 = root then (.ok () : Except Error Unit)
      else .error .invalidProof) = .ok () := Option.some.inj h
  by_contra hne
  rw [if_neg hne] at h'
  simp at h'

theorem chunks_ext {l l' : List F} {B n : Nat} (hB : 0 < B) (h : l.length = B * n) (h' : l'.length = B * n)
    (hc : ∀ i < n, chunk l B i = chunk l' B i) : l = l' := by
  refine List.ext_getElem? fun p => ?_
  rcases Nat.lt_or_ge p (B * n) with hp | hp
  · have hi : p / B < n := by rw [Nat.div_lt_iff_lt_mul hB, Nat.mul_comm]; exact hp
    have := congrArg (fun l => l[p % B]?) (hc _ hi)
    unfold chunk at this
    rw [List.getElem?_take_of_lt (Nat.mod_lt _ hB), List.getElem?_take_of_lt (Nat.mod_lt _ hB), List.getElem?_drop,
      List.getElem?_drop, Nat.div_add_mod'] at this
    exact this
  · rw [List.getElem?_eq_none (by omega), List.getElem?_eq_none (by omega)]

/-- What an accepted vector looks like: whole batches, a power of two of them. -/
theorem verifyVector_length {S : Scheme F D} {root : D} {data : List F} {B : Nat}
    (h : verifyVector S root data B = some (.ok ())) :
    0 < B ∧ data.length = B * 2 ^ Nat.log2 (data.length / B) := by
  unfold verifyVector at h
  split at h
  · cases h
  · rename_i hB
    split at h
    · simp at h
    · rename_i hm
      have hm : data.length % B = 0 := by omega
      refine ⟨by omega, ?_⟩
      by_cases hp : data.length / B = 2 ^ Nat.log2 (data.length / B)
      · rw [← hp]; have := Nat.div_add_mod data.length B; omega
      · exfalso
        unfold foldDigests at h
        dsimp only at h
        rw [if_pos hp] at h
        simp at h

/-- **C25** (vectors are binding).  If the verifier accepts two vectors of the same length for the same root, they
are equal, or two of their batches at the same index collide, or the trees over their batches contain a collision
that the extractor finds. -/
theorem C25_vector (S : Scheme F D) (root : D) (data data' : List F) (B : Nat) (hlen : data.length = data'.length)
    (h : verifyVector S root data B = some (.ok ())) (h' : verifyVector S root data' B = some (.ok ())) :
    data = data' ∨
    (∃ i < data.length / B, (Collision.values (chunk data B i) (chunk data' B i) : Collision F D).Valid S) ∨
    ∃ c, findDigests S (layerInputs S (fun i => S.hash (chunk data B i)) (Nat.log2 (data.length / B)))
      (layerInputs S (fun i => S.hash (chunk data' B i)) (Nat.log2 (data.length / B))) = some c ∧ c.Valid S := by
  obtain ⟨hB, hl⟩ := verifyVector_length h
  obtain ⟨_, hl'⟩ := verifyVector_length h'
  rw [← hlen] at hl'
  have hdiv : data.length / B = 2 ^ Nat.log2 (data.length / B) := by
    conv_lhs => rw [hl]
    rw [Nat.mul_div_cancel_left _ hB]
  generalize hk : Nat.log2 (data.length / B) = k at *
  rw [hdiv]
  have hlen' : data'.length = B * 2 ^ k := by rw [← hlen, hl]
  have e := verifyVector_ok hB hl h
  have e' := verifyVector_ok hB hlen' h'
  by_cases hex : ∃ p < 2 ^ k, S.hash (chunk data B p) ≠ S.hash (chunk data' B p)
  · obtain ⟨x, y, hm, hne, hc⟩ := layer_collision S k _ _ (e.trans e'.symm) hex
    exact Or.inr (Or.inr (findDigests_of_mem S hm hne hc))
  · push Not at hex
    by_cases hch : ∃ p < 2 ^ k, chunk data B p ≠ chunk data' B p
    · obtain ⟨p, hp, hne⟩ := hch
      exact Or.inr (Or.inl ⟨p, hp, hne, hex p hp⟩)
    · push Not at hch
      exact Or.inl (chunks_ext hB hl hlen' hch)

/-- **C25** (openings of a committed vector).  Let a vector be committed.  If the verifier accepts a layer against
the commitment and an opening of index `i` against this layer, then the opened values are the committed batch `i`,
or a collision is found by comparing the accepted layer and branch with those of the prover. -/
theorem C25_committed (S : Scheme F D) (junk : Nat → D) (data : List F) (B : Nat) (com : Commitment D) (t : Tree D)
    (hcom : commit S junk data B = some (.ok (com, t))) (d i : Nat) (layer proof rest : List D) (v : List F)
    (hlayer : verifyLayer S com.root d layer = some (.ok ()))
    (hopen : verifyOpening S i v d com.depth layer proof = some (.ok rest)) :
    v = chunk data B i ∨
    ∃ hl hb, t.layer d = some (.ok hl) ∧ proveOpening t d i [] = some (.ok hb) ∧ ∃ c : Collision F D, c.Valid S ∧
      (findDigests S (layerInputs S (digestAt layer) d) (layerInputs S (digestAt hl) d) = some c ∨
       extractOpening S i v (chunk data B i) (proof.take (com.depth - d)) hb = some c) := by
  have hBne : B ≠ 0 := by
    rintro rfl
    unfold commit build at hcom
    rw [if_pos rfl] at hcom
    simp at hcom
  have hB : 0 < B := by omega
  have hmod : data.length % B = 0 := by
    by_contra hne
    rw [((C24_errors S junk data B hB).1 hne).1] at hcom
    simp at hcom
  obtain ⟨k, hk⟩ : ∃ k, data.length = B * 2 ^ k := by
    by_contra hne
    push Not at hne
    rw [((C24_errors S junk data B hB).2.1 hmod hne).1] at hcom
    simp at hcom
  obtain ⟨root, t', hc, -, -, hall⟩ := C24_complete S junk data B k hB hk
  rw [hc] at hcom
  simp only [Option.some.injEq, Except.ok.injEq, Prod.mk.injEq] at hcom
  obtain ⟨rfl, rfl⟩ := hcom
  dsimp only at *
  obtain ⟨-, hi, hd, hpl, -, -⟩ := verifyOpening_ok hopen
  obtain ⟨hl, e1, e2, e3, e4⟩ := hall d hd
  obtain ⟨hb, f1, f2, f3⟩ := e4 i hi [] []
  rw [List.nil_append] at f1
  rw [List.append_nil] at f3
  rcases C25_layer S root d layer hl hlayer e3 with rfl | ⟨c, hc1, hc2⟩
  · rcases C25_opening S i d k layer v _ proof hb rest [] hopen f3 with ⟨rfl, -⟩ | ⟨c, hc1, hc2⟩
    · exact Or.inl rfl
    · refine Or.inr ⟨layer, hb, e1, f1, c, hc2, Or.inr ?_⟩
      rwa [List.take_of_length_le (l := hb) (by omega)] at hc1
  · exact Or.inr ⟨hl, hb, e1, f1, c, hc2, Or.inl hc1⟩

/-! ### The hypotheses are met -/

/-- A scheme without collisions: digests are free binary trees over the batches. -/
inductive Free where
  | leaf (v : List Nat)
  | pair (a b : Free)
  deriving DecidableEq, Inhabited

/-- Four batches of two elements; a layer of two digests and an opening of the last batch are accepted. -/
example : ∃ com t layer branch,
    commit (F := Nat) (⟨Free.leaf, Free.pair⟩ : Scheme Nat Free) (fun _ => .leaf []) [1, 2, 3, 4, 5, 6, 7, 8] 2 =
      some (.ok (com, t)) ∧ t.layer 1 = some (.ok layer) ∧
    verifyLayer (F := Nat) ⟨Free.leaf, Free.pair⟩ com.root 1 layer = some (.ok ()) ∧
    verifyOpening (F := Nat) ⟨Free.leaf, Free.pair⟩ 3 [7, 8] 1 com.depth layer branch = some (.ok []) := by
  obtain ⟨root, t, h, -, -, hall⟩ := C24_complete (⟨Free.leaf, Free.pair⟩ : Scheme Nat Free) (fun _ => .leaf [])
    [1, 2, 3, 4, 5, 6, 7, 8] 2 2 (by decide) (by decide)
  obtain ⟨layer, h1, -, h3, h4⟩ := hall 1 (by decide)
  obtain ⟨b, -, -, h5⟩ := h4 3 (by decide) [] []
  exact ⟨_, t, layer, b, h, h1, h3, by rw [List.append_nil] at h5; exact h5⟩

end Verif.Merkle
