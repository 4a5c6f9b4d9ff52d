import Verif.Gkr.LemmasExp
import Verif.Math.PropsArith
import Mathlib.Algebra.Field.ZMod

/-! Property C37: the GKR exponentiation. -/

set_option linter.dupNamespace false
set_option linter.unusedSectionVars false

namespace Verif.Gkr

open Mle

variable {F : Type} [Field F] [DecidableEq F]

/-! The witness. -/

/-- **C37.** Static base: the witness is refused exactly when there are no bits, when there are more bits than the field of
the base has, or when the columns differ in size; it never panics. -/
theorem C37_static_refused (h2 : (2 : F) = 0) (w nBits : Nat) (cols : List (Column F)) (g : F) :
    newStatic w nBits cols g ≠ none ∧
    ((∃ layers, newStatic w nBits cols g = some (.ok layers)) ↔
      cols ≠ [] ∧ cols.length ≤ nBits ∧ ∃ n, ∀ c ∈ cols, c.nVars = n) ∧
    (cols = [] → newStatic w nBits cols g = some (.error .emptyExp)) ∧
    (cols.length > nBits → cols ≠ [] → newStatic w nBits cols g = some (.error .smallBaseField)) := by
  match cols with
  | [] => simp [newStatic]
  | c :: cs =>
    unfold newStatic
    dsimp only
    by_cases h : (c :: cs).length > nBits
    · rw [if_pos h]
      simp only [ne_eq, reduceCtorEq, not_false_eq_true, Option.some.injEq, exists_false, true_and, false_iff]
      exact ⟨fun hc => by omega, fun hc => by simp at hc, fun _ _ => trivial⟩
    · rw [if_neg h]
      by_cases he : equalNVars c.nVars cs
      · rw [if_neg (by simpa using he)]
        have hcs := (equalNVars_iff cs).mp he
        obtain ⟨l, e1, h1⟩ := firstLayer_ok h2 (w := w) (c := c) rfl (base := .static fun _ => g) (b := fun _ => g)
          fun _ => rfl
        obtain ⟨ls, e2, _⟩ := staticLayers_ok h2 cs g l _ hcs h1
        rw [e1, Option.bind_some, e2]
        refine ⟨by simp, ⟨fun _ => ⟨by simp, by omega, c.nVars, fun x hx => ?_⟩, fun _ => ⟨_, rfl⟩⟩, by simp,
          fun hc => absurd hc h⟩
        rcases List.mem_cons.mp hx with rfl | hx
        · rfl
        · exact hcs x hx
      · rw [if_pos (by simpa using he)]
        refine ⟨by simp, ⟨fun ⟨_, hc⟩ => by simp at hc, fun ⟨_, _, n, hn⟩ => ?_⟩, by simp, fun hc => absurd hc h⟩
        exact absurd ((equalNVars_iff cs).mpr fun x hx => (hn x (by simp [hx])).trans (hn c (by simp)).symm) (by simpa using he)

/-- **C37.** Static base: there is one layer for each bit; at every row, layer `k` is the power of the base with the number
that the columns `0..k` write in binary, so that the last layer is the whole power. -/
theorem C37_static (h2 : (2 : F) = 0) (w nBits n : Nat) (cols : List (Column F)) (hn : ∀ c ∈ cols, c.nVars = n) (g : F)
    (layers : List (List (Packed F))) (h : newStatic w nBits cols g = some (.ok layers)) :
    layers.length = cols.length ∧
    (∀ k layer, layers[k]? = some layer → layer.length = 2 ^ (n - w) ∧
      ∀ v < 2 ^ n, value w layer v = g ^ expNat (cols.take (k + 1)) v) ∧
    ∃ last, layers.getLast? = some last ∧ ∀ v < 2 ^ n, value w last v = g ^ expNat cols v := by
  have key : layers.length = cols.length ∧ cols ≠ [] ∧
      (∀ k layer, layers[k]? = some layer → layer.length = 2 ^ (n - w) ∧
        ∀ v < 2 ^ n, value w layer v = g ^ expNat (cols.take (k + 1)) v) := by
    match cols, hn with
    | [], _ => simp [newStatic] at h
    | c :: cs, hn =>
      unfold newStatic at h
      dsimp only at h
      split at h
      · simp at h
      · split at h
        · simp at h
        · obtain ⟨l, e1, h1⟩ := firstLayer_ok h2 (w := w) (hn c (by simp)) (base := .static fun _ => g) (b := fun _ => g)
            fun _ => rfl
          obtain ⟨ls, e2, h3, h4⟩ := staticLayers_ok h2 cs g l _ (fun c h => hn c (by simp [h])) h1
          rw [e1, Option.bind_some, e2] at h
          injection h with h
          injection h with h
          rw [← h]
          refine ⟨by simp [h3], by simp, fun k layer hk => ?_⟩
          cases k with
          | zero =>
            simp only [List.getElem?_cons_zero, Option.some.injEq] at hk
            rw [← hk]
            refine ⟨h1.len, fun v hv => ?_⟩
            rw [h1.val v hv, bitPow_pow]
            simp [expNat]
          | succ k =>
            have h5 := h4 k layer (by simpa using hk)
            refine ⟨h5.len, fun v hv => ?_⟩
            rw [h5.val v hv, bitPow_pow, List.take_succ_cons]
            show _ = g ^ (_ + 2 * _)
            rw [pow_add, pow_mul]
  obtain ⟨h1, hne, h3⟩ := key
  refine ⟨h1, h3, ?_⟩
  have hpos : 0 < cols.length := List.length_pos_iff.mpr hne
  have hlt : layers.length - 1 < layers.length := by omega
  refine ⟨layers[layers.length - 1], ?_, fun v hv => ?_⟩
  · rw [List.getLast?_eq_getElem?, List.getElem?_eq_getElem hlt]
  · rw [(h3 _ _ (List.getElem?_eq_getElem hlt)).2 v hv, List.take_of_length_le (by omega)]

/-- **C37.** Dynamic base: the witness is refused exactly when there are no bits, when there are more bits than the field of
the base has, or when the columns and the base differ in size; it never panics. -/
theorem C37_dynamic_refused (h2 : (2 : F) = 0) (w nBits : Nat) (cols : List (Column F)) (m : Nat)
    (evals : List (Packed F)) :
    newDynamic w nBits cols m evals ≠ none ∧
    ((∃ layers, newDynamic w nBits cols m evals = some (.ok layers)) ↔
      cols ≠ [] ∧ cols.length ≤ nBits ∧ evals.length = 2 ^ (m - w) ∧ ∀ c ∈ cols, c.nVars = m) := by
  match cols with
  | [] => simp [newDynamic]
  | c :: cs =>
    unfold newDynamic
    obtain ⟨last, rest, hr⟩ : ∃ last rest, (c :: cs).reverse = last :: rest :=
      List.exists_cons_of_ne_nil (by simp)
    rw [hr]
    simp only
    by_cases h : (c :: cs).length > nBits
    · rw [if_pos h]
      exact ⟨by simp, ⟨fun ⟨_, hc⟩ => by simp at hc, fun hc => by omega⟩⟩
    · rw [if_neg h]
      by_cases he : equalNVars c.nVars cs
      · rw [if_neg (by simpa using he)]
        have hcs := (equalNVars_iff cs).mp he
        by_cases hm : c.nVars = m
        · rw [if_neg (by simpa using hm)]
          by_cases hev : evals.length = 2 ^ (m - w)
          · rw [if_neg (by simpa using hev)]
            have hall : ∀ x ∈ c :: cs, x.nVars = m := fun x hx => by
              rcases List.mem_cons.mp hx with rfl | hx
              · exact hm
              · rw [hcs x hx, hm]
            have hall' : ∀ x ∈ last :: rest, x.nVars = m := fun x hx => by
              rw [← hr] at hx
              exact hall x (List.mem_reverse.mp hx)
            have hb : IsLayer w m evals (value w evals) := ⟨hev, fun _ _ => rfl⟩
            obtain ⟨l, e1, h1⟩ := firstLayer_ok h2 (w := w) (hall' last (by simp)) (base := .dynamic evals) hb
            obtain ⟨ls, e2, _⟩ := dynamicLayers_ok h2 hb rest l [last] (fun x hx => hall' x (by simp [hx]))
              ⟨h1.len, fun v hv => by rw [h1.val v hv, bitPow_pow]; simp [expNat]⟩
            rw [e1, Option.bind_some, e2]
            exact ⟨by simp, ⟨fun _ => ⟨by simp, by omega, hev, hall⟩, fun _ => ⟨_, rfl⟩⟩⟩
          · rw [if_pos hev]
            exact ⟨by simp, ⟨fun ⟨_, hc⟩ => by simp at hc, fun hc => absurd hc.2.2.1 hev⟩⟩
        · rw [if_pos hm]
          exact ⟨by simp, ⟨fun ⟨_, hc⟩ => by simp at hc, fun hc => absurd (hc.2.2.2 c (by simp)) hm⟩⟩
      · rw [if_pos (by simpa using he)]
        refine ⟨by simp, ⟨fun ⟨_, hc⟩ => by simp at hc, fun hc => ?_⟩⟩
        exact absurd ((equalNVars_iff cs).mpr fun x hx =>
          (hc.2.2.2 x (by simp [hx])).trans (hc.2.2.2 c (by simp)).symm) (by simpa using he)

/-- **C37.** Dynamic base: there is one layer for each bit; at every row, layer `k` is the power of the base at that row with
the number that the `k + 1` highest columns write in binary, so that the last layer is the whole power. -/
theorem C37_dynamic (h2 : (2 : F) = 0) (w nBits m : Nat) (cols : List (Column F)) (evals : List (Packed F))
    (layers : List (List (Packed F))) (h : newDynamic w nBits cols m evals = some (.ok layers)) :
    layers.length = cols.length ∧
    (∀ k layer, layers[k]? = some layer → layer.length = 2 ^ (m - w) ∧
      ∀ v < 2 ^ m, value w layer v = value w evals v ^ expNat (cols.drop (cols.length - 1 - k)) v) ∧
    ∃ last, layers.getLast? = some last ∧ ∀ v < 2 ^ m, value w last v = value w evals v ^ expNat cols v := by
  obtain ⟨hne, _, hev, hall⟩ := (C37_dynamic_refused h2 w nBits cols m evals).2.mp ⟨layers, h⟩
  have key : layers.length = cols.length ∧
      (∀ k layer, layers[k]? = some layer → layer.length = 2 ^ (m - w) ∧
        ∀ v < 2 ^ m, value w layer v = value w evals v ^ expNat (cols.drop (cols.length - 1 - k)) v) := by
    obtain ⟨last, rest, hr⟩ : ∃ last rest, cols.reverse = last :: rest :=
      List.exists_cons_of_ne_nil (by simpa using hne)
    have hlen : cols.length = rest.length + 1 := by rw [← List.length_reverse, hr]; rfl
    have hdrop : ∀ k ≤ rest.length, cols.drop (cols.length - 1 - k) = (rest.take k).reverse ++ [last] := fun k hk => by
      rw [← List.reverse_reverse cols, hr, List.reverse_cons, List.length_append, List.length_reverse,
        List.length_singleton, Nat.add_sub_cancel, List.drop_append_of_le_length (by simp),
        List.drop_reverse, show rest.length - (rest.length - k) = k by omega]
    have hall' : ∀ x ∈ last :: rest, x.nVars = m := fun x hx => by
      rw [← hr] at hx
      exact hall x (List.mem_reverse.mp hx)
    have hb : IsLayer w m evals (value w evals) := ⟨hev, fun _ _ => rfl⟩
    obtain ⟨l, e1, h1⟩ := firstLayer_ok h2 (w := w) (hall' last (by simp)) (base := .dynamic evals) hb
    have h1' : IsLayer w m l fun v => value w evals v ^ expNat [last] v :=
      ⟨h1.len, fun v hv => by rw [h1.val v hv, bitPow_pow]; simp [expNat]⟩
    obtain ⟨ls, e2, h3, h4⟩ := dynamicLayers_ok h2 hb rest l [last] (fun x hx => hall' x (by simp [hx])) h1'
    have hls : layers = l :: ls := by
      match cols, hr with
      | [], hr => simp at hr
      | c :: cs, hr =>
        unfold newDynamic at h
        rw [hr] at h
        simp only at h
        split at h
        · simp at h
        · split at h
          · simp at h
          · split at h
            · simp at h
            · split at h
              · simp at h
              · rw [e1, Option.bind_some, e2] at h
                injection h with h
                injection h with h
                exact h.symm
    rw [hls]
    refine ⟨by simp [h3, hlen], fun k layer hk => ?_⟩
    have hk' : k ≤ rest.length := by
      have := Arith.lt_of_get hk
      simp only [List.length_cons, h3] at this
      omega
    rw [hdrop k hk']
    cases k with
    | zero =>
      simp only [List.getElem?_cons_zero, Option.some.injEq] at hk
      rw [← hk]
      exact ⟨h1'.len, h1'.val⟩
    | succ k =>
      have h5 := h4 k layer (by simpa using hk)
      exact ⟨h5.len, h5.val⟩
  obtain ⟨h1, h3⟩ := key
  refine ⟨h1, h3, ?_⟩
  have hpos : 0 < cols.length := List.length_pos_iff.mpr hne
  have hlt : layers.length - 1 < layers.length := by omega
  refine ⟨layers[layers.length - 1], ?_, fun v hv => ?_⟩
  · rw [List.getLast?_eq_getElem?, List.getElem?_eq_getElem hlt]
  · rw [(h3 _ _ (List.getElem?_eq_getElem hlt)).2 v hv, h1, Nat.sub_self, List.drop_zero]

/-! The compositions. -/

/-- **C37.** A composition evaluates exactly the queries of its own size, and to the value of its circuit. -/
theorem C37_composition (h2 : (2 : F) = 0) (c : ExpComposition F) (q : List F) :
    (q.length = c.nVars → ∃ a, c.evaluate q = .ok a ∧ Arith.evaluate c.expression q = some a) ∧
    (q.length ≠ c.nVars → c.evaluate q = .error .incorrectQuerySize) := by
  have h2' : (1 : F) + 1 = 0 := by rw [one_add_one_eq_two, h2]
  have lf := Arith.C21_leaves q
  have sb : ∀ b, Arith.evaluate (Arith.sub (Arith.constant 1) (Arith.var 1)) q = some b ↔
      Arith.evaluate (Arith.sub (Arith.constant 1) (Arith.var 1)) q = some b := fun _ => Iff.rfl
  constructor
  · intro hq
    cases c with
    | staticBase g =>
      match q, hq with
      | [a, b], _ =>
        refine ⟨_, rfl, ?_⟩
        have v0 : Arith.evaluate (Arith.var 0) [a, b] = some a := rfl
        have v1 : Arith.evaluate (Arith.var 1) [a, b] = some b := rfl
        have k1 : Arith.evaluate (Arith.constant (1 : F)) [a, b] = some 1 := rfl
        have kg : Arith.evaluate (Arith.constant g) [a, b] = some g := rfl
        have s := (Arith.C21_operators [a, b] (by simp [Arith.constant]) (by simp [Arith.var]) 1 b 0 k1 v1).2.1 h2'
        have m := (Arith.C21_operators [a, b] (by simp [Arith.var]) (by simp [Arith.constant]) b g 0 v1 kg).2.2.1
        have t := (Arith.C21_operators [a, b] (by simp [Arith.sub, Arith.add]) (by simp [Arith.mul]) _ _ 0 s m).1
        exact (Arith.C21_operators [a, b] (by simp [Arith.var]) (by simp [Arith.add]) _ _ 0 v0 t).2.2.1
    | dynamicBase =>
      match q, hq with
      | [a, b, g], _ =>
        refine ⟨_, rfl, ?_⟩
        have v0 : Arith.evaluate (Arith.var 0) [a, b, g] = some a := rfl
        have v1 : Arith.evaluate (Arith.var 1) [a, b, g] = some b := rfl
        have k1 : Arith.evaluate (Arith.constant (1 : F)) [a, b, g] = some 1 := rfl
        have kg : Arith.evaluate (Arith.var 2) [a, b, g] = some g := rfl
        have s := (Arith.C21_operators [a, b, g] (by simp [Arith.constant]) (by simp [Arith.var]) 1 b 0 k1 v1).2.1 h2'
        have m := (Arith.C21_operators [a, b, g] (by simp [Arith.var]) (by simp [Arith.var]) b g 0 v1 kg).2.2.1
        have t := (Arith.C21_operators [a, b, g] (by simp [Arith.sub, Arith.add]) (by simp [Arith.mul]) _ _ 0 s m).1
        have p := (Arith.C21_operators [a, b, g] (by simp [Arith.var]) (by simp [Arith.var]) a b 2 v0 v1).2.2.2
        exact (Arith.C21_operators [a, b, g] (by simp [Arith.pow, Arith.var]) (by simp [Arith.add]) _ _ 0 p t).2.2.1
    | dynamicBaseLastLayer =>
      match q, hq with
      | [a, b], _ =>
        refine ⟨_, rfl, ?_⟩
        have v0 : Arith.evaluate (Arith.var 0) [a, b] = some a := rfl
        have v1 : Arith.evaluate (Arith.var 1) [a, b] = some b := rfl
        have k1 : Arith.evaluate (Arith.constant (1 : F)) [a, b] = some 1 := rfl
        have s := (Arith.C21_operators [a, b] (by simp [Arith.constant]) (by simp [Arith.var]) 1 b 0 k1 v1).2.1 h2'
        have m := (Arith.C21_operators [a, b] (by simp [Arith.var]) (by simp [Arith.var]) b a 0 v1 v0).2.2.1
        exact (Arith.C21_operators [a, b] (by simp [Arith.sub, Arith.add]) (by simp [Arith.mul]) _ _ 0 s m).1
  · intro hq
    unfold ExpComposition.evaluate
    split
    · exact absurd rfl hq
    · exact absurd rfl hq
    · exact absurd rfl hq
    · rfl

/-- **C37.** The degrees the compositions announce are those of their circuits. -/
theorem C37_degree (c : ExpComposition F) :
    Arith.degree c.expression = some c.degree ∧ Arith.nVars c.expression = c.nVars := by
  cases c <;> exact ⟨rfl, rfl⟩

/-! The layers of the verifier. -/

theorem take_row (cols : List (Column F)) (j : Nat) (h : j < cols.length) (v : Nat) :
    expNat (cols.take (j + 1)) v = expNat (cols.take j) v + 2 ^ j * (if cols[j].val v = 1 then 1 else 0) := by
  rw [List.take_succ_eq_append_getElem h, expNat_append, List.length_take, min_eq_left (by omega)]
  simp [expNat]

theorem bit_select {b g : F} (h : b = 0 ∨ b = 1) : (1 - b) + b * g = g ^ (if b = 1 then 1 else 0) := by
  rcases h with rfl | rfl <;> simp

/-- **C37.** Static base, exponents of at most 64 bits: in every layer but the last, the composition of the verifier takes
the power without the highest remaining bit, and that bit, to the power with it, at every row; the last layer has no sum
to check.  The bit is the one that the claim on the layer is later made about. -/
theorem C37_static_relation (checks : Bool) (n : Nat) (cols : List (Column F)) (hb : AreBits n cols) (g : F)
    (hw : cols.length ≤ 64) (layerNo : Nat) :
    (layerNo + 1 = cols.length → staticComposition checks g cols.length layerNo = some none) ∧
    (layerNo + 1 < cols.length → ∃ comp bit, staticComposition checks g cols.length layerNo = some (some comp) ∧
      cols[bitIndex false cols.length layerNo]? = some bit ∧
      ∀ v < 2 ^ n, comp.evaluate [g ^ expNat (cols.take (cols.length - (layerNo + 1))) v, bit.val v] =
        .ok (g ^ expNat (cols.take (cols.length - layerNo)) v)) := by
  constructor
  · intro h
    unfold staticComposition isLastLayer
    rw [if_pos (by omega), show cols.length - 1 - layerNo = 0 by omega]
    rfl
  · intro h
    have hj : cols.length - 1 - layerNo < cols.length := by omega
    refine ⟨.staticBase (g ^ 2 ^ (cols.length - 1 - layerNo)), cols[cols.length - 1 - layerNo], ?_, ?_, fun v hv => ?_⟩
    · unfold staticComposition isLastLayer shl64
      rw [if_pos (by omega), Option.bind_some, if_neg (by simp only [decide_eq_true_eq]; omega), if_pos (by omega)]
      rfl
    · exact List.getElem?_eq_getElem hj
    · have hbit := (hb _ (List.getElem_mem hj)).2 v hv
      show Except.ok _ = _
      congr 1
      rw [bit_select hbit, show cols.length - layerNo = (cols.length - 1 - layerNo) + 1 by omega, take_row _ _ hj, pow_add,
        pow_mul, show cols.length - (layerNo + 1) = cols.length - 1 - layerNo by omega]

/-- **C37.** Dynamic base, any width: in every layer but the last, the composition of the verifier takes the power without
the lowest remaining bit, that bit and the base to the power with it; in the last layer it takes the base and the highest
bit to the power with that bit. -/
theorem C37_dynamic_relation (n : Nat) (cols : List (Column F)) (hb : AreBits n cols) (b : Nat → F) (layerNo : Nat)
    (h : layerNo < cols.length) :
    ∃ comp bit, dynamicComposition cols.length layerNo = some comp ∧
      cols[bitIndex true cols.length layerNo]? = some bit ∧
      ∀ v < 2 ^ n,
        comp.evaluate (if layerNo + 1 = cols.length then [b v, bit.val v]
          else [b v ^ expNat (cols.drop (layerNo + 1)) v, bit.val v, b v]) =
        .ok (b v ^ expNat (cols.drop layerNo) v) := by
  have hd : cols.drop layerNo = cols[layerNo] :: cols.drop (layerNo + 1) := List.drop_eq_getElem_cons h
  by_cases hl : layerNo + 1 = cols.length
  · refine ⟨.dynamicBaseLastLayer, cols[layerNo], ?_, List.getElem?_eq_getElem h, fun v hv => ?_⟩
    · unfold dynamicComposition isLastLayer
      rw [if_pos (by omega), show cols.length - 1 - layerNo = 0 by omega]
      rfl
    · have hbit := (hb _ (List.getElem_mem h)).2 v hv
      rw [if_pos hl]
      show Except.ok _ = _
      congr 1
      rw [bit_select hbit, hd, List.drop_of_length_le (by omega)]
      simp [expNat]
  · refine ⟨.dynamicBase, cols[layerNo], ?_, List.getElem?_eq_getElem h, fun v hv => ?_⟩
    · unfold dynamicComposition isLastLayer
      rw [if_pos (by omega), Option.map_some, if_neg (by simp only [decide_eq_true_eq]; omega)]
    · have hbit := (hb _ (List.getElem_mem h)).2 v hv
      rw [if_neg hl]
      show Except.ok _ = _
      congr 1
      rw [bit_select hbit, hd]
      show _ = _ ^ (_ + 2 * _)
      rw [pow_add, ← pow_mul, Nat.mul_comm 2, mul_comm]

theorem sliceChallenges_length {lh : Bool} {n : Nat} {r p : List F} (h : sliceChallenges lh n r = some p) :
    p.length = n := by
  unfold sliceChallenges at h
  split at h
  · simp at h
  · injection h with h
    rw [← h]
    split
    · rw [List.length_drop]; omega
    · rw [List.length_take]; omega

/-- **C37.** Static base: after a layer that is not the last, the claims the verifier goes on with are true exactly when the
two values sent by the prover are the evaluations of the tables of the layer at the slice of challenges for the claim. -/
theorem C37_static_finish (lh : Bool) (cols : List (Column F)) (g : F) (claim : ExpClaim F)
    (hw : claim.exponentBitWidth = cols.length) (layerNo : Nat) (hl : layerNo + 1 < cols.length) (a b : F) (r : List F)
    (hr : claim.evalPoint.length ≤ r.length) (bit : Column F)
    (_hbit : cols[bitIndex false cols.length layerNo]? = some bit) :
    ∃ point claim' bitClaim, sliceChallenges lh claim.evalPoint.length r = some point ∧
      finishStatic lh claim layerNo [a, b] r = some (claim', bitClaim) ∧
      claim'.exponentBitWidth = claim.exponentBitWidth ∧ claim'.staticBase = claim.staticBase ∧
      ((StaticTrue g cols (layerNo + 1) ⟨claim'.evalPoint, claim'.eval⟩ ∧ TableTrue bit.val bitClaim) ↔
        a = mle (fun v => g ^ expNat (cols.take (cols.length - (layerNo + 1))) v) point ∧ b = mle bit.val point) := by
  obtain ⟨point, hs⟩ : ∃ point, sliceChallenges lh claim.evalPoint.length r = some point :=
    ⟨_, by unfold sliceChallenges; rw [if_neg (by omega)]⟩
  refine ⟨point, { claim with eval := a, evalPoint := point }, ⟨point, b⟩, hs, ?_, rfl, rfl, Iff.rfl⟩
  unfold finishStatic isLastLayer
  rw [hs, if_pos (by omega), Option.bind_some, if_neg (by simp only [decide_eq_true_eq]; omega)]
  rfl

/-- **C37.** Static base, last layer: if the base is not one, the claim the verifier makes on the lowest bit is true exactly
when the claim it holds is true. -/
theorem C37_static_last (lh : Bool) (n : Nat) (cols : List (Column F)) (hb : AreBits n cols) (g : F) (hg : g ≠ 1)
    (claim : ExpClaim F) (hbase : claim.staticBase = some g) (hw : claim.exponentBitWidth = cols.length)
    (hx : claim.evalPoint.length = n) (layerNo : Nat) (hl : layerNo + 1 = cols.length) (evals r : List F) :
    ∃ bit bitClaim, cols[bitIndex false cols.length layerNo]? = some bit ∧
      finishStatic lh claim layerNo evals r = some (claim, bitClaim) ∧
      (TableTrue bit.val bitClaim ↔ StaticTrue g cols layerNo ⟨claim.evalPoint, claim.eval⟩) := by
  have h0 : 0 < cols.length := by omega
  refine ⟨cols[0], ⟨claim.evalPoint, firstLayerInverse claim.eval g⟩, ?_, ?_, ?_⟩
  · unfold bitIndex
    rw [if_neg (by simp), show cols.length - 1 - layerNo = 0 by omega]
    exact List.getElem?_eq_getElem h0
  · unfold finishStatic isLastLayer
    rw [if_pos (by omega), Option.bind_some, if_pos (by simp only [decide_eq_true_eq]; omega), hbase]
    rfl
  · unfold TableTrue StaticTrue firstLayerInverse
    have hne : g - 1 ≠ 0 := sub_ne_zero.mpr hg
    have hm : mle (fun v => g ^ expNat (cols.take (cols.length - layerNo)) v) claim.evalPoint =
        (1 : F) + (g - (1 : F)) * mle cols[0].val claim.evalPoint := by
      rw [← mle_smul]
      refine Eq.trans ?_ (congrArg (· + _) (mle_one claim.evalPoint))
      beta_reduce
      rw [← mle_add]
      apply mle_congr
      intro v hv
      rw [hx] at hv
      have hbit := (hb _ (List.getElem_mem h0)).2 v hv
      rw [show cols.length - layerNo = 0 + 1 by omega, take_row _ _ h0]
      simp only [List.take_zero, expNat, Nat.zero_add, pow_zero, one_mul]
      rw [← bit_select hbit]
      ring
    rw [hm]
    show (claim.eval - 1) * (g - 1)⁻¹ = _ ↔ claim.eval = _
    rw [← div_eq_mul_inv, div_eq_iff hne]
    constructor
    · intro h
      linear_combination h
    · intro h
      linear_combination h

/-- **C37.** Dynamic base: after a layer, the claims the verifier goes on with are true exactly when the values sent by the
prover are the evaluations of the tables of the layer at the slice of challenges for the claim. -/
theorem C37_dynamic_finish (lh : Bool) (cols : List (Column F)) (b : Nat → F) (claim : ExpClaim F)
    (hw : claim.exponentBitWidth = cols.length) (layerNo : Nat) (bit : Column F)
    (_hbit : cols[bitIndex true cols.length layerNo]? = some bit) (r : List F)
    (hr : claim.evalPoint.length ≤ r.length) :
    ∃ point, sliceChallenges lh claim.evalPoint.length r = some point ∧
    (layerNo + 1 = cols.length → ∀ eBase eBit, ∃ bitClaim baseClaim,
      finishDynamic lh claim layerNo [eBase, eBit] r = some (claim, bitClaim, baseClaim) ∧
      ((TableTrue bit.val bitClaim ∧ TableTrue b baseClaim) ↔ eBit = mle bit.val point ∧ eBase = mle b point)) ∧
    (layerNo + 1 < cols.length → ∀ eLayer eBit eBase, ∃ claim' bitClaim baseClaim,
      finishDynamic lh claim layerNo [eLayer, eBit, eBase] r = some (claim', bitClaim, baseClaim) ∧
      claim'.exponentBitWidth = claim.exponentBitWidth ∧
      ((DynamicTrue b cols (layerNo + 1) ⟨claim'.evalPoint, claim'.eval⟩ ∧ TableTrue bit.val bitClaim ∧
          TableTrue b baseClaim) ↔
        eLayer = mle (fun v => b v ^ expNat (cols.drop (layerNo + 1)) v) point ∧ eBit = mle bit.val point ∧
          eBase = mle b point)) := by
  obtain ⟨point, hs⟩ : ∃ point, sliceChallenges lh claim.evalPoint.length r = some point :=
    ⟨_, by unfold sliceChallenges; rw [if_neg (by omega)]⟩
  refine ⟨_, hs, fun h eBase eBit => ⟨⟨point, eBit⟩, ⟨point, eBase⟩, ?_, Iff.rfl⟩, fun h eLayer eBit eBase =>
    ⟨{ claim with eval := eLayer, evalPoint := point }, ⟨point, eBit⟩, ⟨point, eBase⟩, ?_, rfl, Iff.rfl⟩⟩
  · unfold finishDynamic isLastLayer
    rw [hs, if_pos (by omega), show claim.exponentBitWidth - 1 - layerNo = 0 by omega]
    rfl
  · unfold finishDynamic isLastLayer
    rw [hs, if_pos (by omega), Option.bind_some]
    show Option.bind (some _) _ = _
    rw [Option.bind_some, Option.bind_some, if_neg (by simp only [decide_eq_true_eq]; omega)]
    rfl

/-! Where the code departs from the property. -/

/-- **C37.** Static base one: the claim on the lowest bit is that its evaluation is zero, whatever the claim on the result
was.  With bits that are all zero every claim passes, although only one is true; with a bit that is not zero at the
point the true claim leads to a false one. -/
theorem C37_base_one (lh : Bool) (cols : List (Column F)) (claim : ExpClaim F) (hbase : claim.staticBase = some 1)
    (hw : claim.exponentBitWidth = cols.length) (hl : cols.length = 1) (evals r : List F) (bit : Column F)
    (_hbit : cols[0]? = some bit) :
    ∃ bitClaim, finishStatic lh claim 0 evals r = some (claim, bitClaim) ∧
      (TableTrue bit.val bitClaim ↔ mle bit.val claim.evalPoint = 0) ∧
      (StaticTrue 1 cols 0 ⟨claim.evalPoint, claim.eval⟩ ↔ claim.eval = 1) := by
  refine ⟨⟨claim.evalPoint, firstLayerInverse claim.eval 1⟩, ?_, ?_, ?_⟩
  · unfold finishStatic isLastLayer
    rw [if_pos (by omega), Option.bind_some, if_pos (by simp only [decide_eq_true_eq]; omega), hbase]
    rfl
  · unfold TableTrue firstLayerInverse
    simp only [sub_self, inv_zero, mul_zero]
    exact eq_comm
  · unfold StaticTrue
    simp only [one_pow]
    rw [mle_one]

/-- **C37.** Exponents of more than 64 bits: with overflow checks the static verifier panics in the first layers. -/
theorem C37_wide_panics (g : F) (width layerNo : Nat) (h : layerNo + 1 < width) :
    staticComposition true g width layerNo = none ↔ 65 ≤ width - layerNo := by
  unfold staticComposition isLastLayer shl64
  rw [if_pos (by omega), Option.bind_some, if_neg (by simp only [decide_eq_true_eq]; omega)]
  by_cases hs : width - 1 - layerNo < 64
  · rw [if_pos hs]
    simp
    omega
  · rw [if_neg hs]
    simp
    omega

/-- **C37.** Without them it uses a wrong power: in the 128-bit tower field there is a base for which the relation fails in
the first layer of a 65-bit exponent. -/
theorem C37_wide_wrong : ∃ g : Field.T 7, ∃ comp, staticComposition false g 65 0 = some (some comp) ∧
    comp.evaluate [1, 1] = .ok g ∧ g ^ 2 ^ 64 ≠ g := by
  have hq : 1 < 2 ^ 64 := by norm_num
  obtain ⟨g, hg⟩ := exists_pow_ne (K := Field.T 7) hq (by rw [card_tower]; exact Nat.pow_lt_pow_right (by omega) (by omega))
  refine ⟨g, .staticBase (g ^ 1), ?_, ?_, hg⟩
  · unfold staticComposition isLastLayer shl64
    rw [if_pos (by omega), Option.bind_some, if_neg (by simp), if_neg (by omega), if_neg (by simp),
      show (65 - 1 - 0) % 64 = 0 from rfl, pow_zero, Option.map_some]
  · simp only [ExpComposition.evaluate, sub_self, zero_add, one_mul, pow_one]

/-- **C37.** A claim with no exponent bits makes the verifiers panic. -/
theorem C37_no_bits_panics (checks : Bool) (g : F) (layerNo : Nat) :
    staticComposition checks g 0 layerNo = none ∧ dynamicComposition (F := F) 0 layerNo = none := ⟨rfl, rfl⟩

/-! Concrete cases. -/

/-- Two columns of two variables. -/
def exCols (F : Type) [Field F] : List (Column F) :=
  [⟨2, fun v => if v % 2 = 1 then 1 else 0⟩, ⟨2, fun v => if v / 2 % 2 = 1 then 1 else 0⟩]

example : ∃ layers, newStatic 1 8 (exCols (Field.T 3)) 7 = some (.ok layers) :=
  (C37_static_refused Field.T.two_eq_zero 1 8 _ 7).2.1.mpr
    ⟨by simp [exCols], by simp [exCols], 2, by simp [exCols]⟩

example : AreBits 2 (exCols (Field.T 3)) := by
  intro c hc
  simp only [exCols, List.mem_cons, List.not_mem_nil, or_false] at hc
  rcases hc with rfl | rfl
  · refine ⟨rfl, fun v _ => ?_⟩
    by_cases h : v % 2 = 1 <;> simp [h]
  · refine ⟨rfl, fun v _ => ?_⟩
    by_cases h : v / 2 % 2 = 1 <;> simp [h]

example : ∃ layers, newDynamic 1 8 (exCols (Field.T 3)) 2 [fun _ => 5, fun _ => 7] = some (.ok layers) :=
  (C37_dynamic_refused Field.T.two_eq_zero 1 8 _ 2 _).2.mpr
    ⟨by simp [exCols], by simp [exCols], rfl, by simp [exCols]⟩

end Verif.Gkr
