import Verif.Math.LemmasCompileConv
import Verif.Math.PropsArith
import Verif.Field.Tower
import Mathlib.Tactic.IntervalCases

/-! C65: compiled circuits compute what the circuit says. -/

set_option linter.unusedSectionVars false

namespace Verif.Arith

variable {F : Type*} [CommRing F] [DecidableEq F] {R : Type*} [CommRing R]

theorem evaluate_take {c : Circuit R} (hne : c ≠ []) {q : List R} {a : R} (h : evaluate c q = some a) (n : Nat)
    (hn : ∀ x, Step.var x ∈ c → x < n) : evaluate c (q.take n) = some a := by
  classical
  obtain ⟨v, hv, hl⟩ := val_of_evaluate hne h
  rw [← hl]
  refine evaluate_of_val hne fun i s hs => ?_
  have := hv i s hs
  cases s with
  | var x =>
    show (q.take n)[x]? = _
    rw [List.getElem?_take, if_pos (hn x (List.mem_of_getElem? hs))]
    exact this
  | _ => exact this

theorem var_conv {emb : F → R} {c : Circuit F} {x : Nat} (h : Step.var x ∈ convertField emb c) :
    Step.var x ∈ c := by
  obtain ⟨i, hi⟩ := List.mem_iff_getElem?.1 h
  rw [convertField_get] at hi
  obtain ⟨s, hs, he⟩ := Option.map_eq_some_iff.1 hi
  cases s <;> simp only [Step.conv, reduceCtorEq, Step.var.injEq] at he
  subst he
  exact List.mem_of_getElem? hs

theorem compile_core {emb : F →+* R} (hemb : Function.Injective emb) {chk : Bool} (h2 : (1 : F) + 1 = 0)
    {c c' : Circuit F} (hc : Built c) (hov : (optimizeConstants true true c).isSome)
    (hopt : optimize chk true c = some c') (hs : Safe c') :
    c' ≠ [] ∧ (∃ p, convertCircuit c' = some p) ∧ ∀ p, convertCircuit c' = some p →
      ∀ q a, evaluate (convertField emb c) q = some a → nVars c' ≤ q.length ∧
        ∀ n, nVars c' ≤ n → runCode false emb (q.take n) p.1 p.2 = some a := by
  classical
  obtain ⟨hne, hw⟩ := hc.wf
  have hneR : convertField emb c ≠ [] := by
    rw [← List.length_pos_iff, convertField, List.length_map]
    exact List.length_pos_iff.2 hne
  obtain ⟨d, d1, d2, -, d4, d5⟩ := optimize_wf chk true (fun _ => by
    rw [← map_one emb, ← map_add, h2, map_zero]) (convertField emb c) hneR (convertField_wf hw)
    (by rw [optimizeConstants_conv hemb, Option.isSome_map]; exact hov)
  rw [optimize_conv hemb, hopt, Option.map_some] at d1
  obtain rfl := Option.some.inj d1
  have hne' : c' ≠ [] := fun e => d2 (by rw [e]; rfl)
  have hval : ∀ q v, Val q (convertField emb c') v →
      ∃ p, convertCircuit c' = some p ∧ runCode false emb q p.1 p.2 = some (v (c'.length - 1)) :=
    fun q v hv => convertCircuit_spec hne' (valE_of_val hv) hs (fun h => (nomatch h))
  refine ⟨hne', ?_, ?_⟩
  · obtain ⟨v, hv⟩ := d4.val (q := List.replicate (nVars c') 0) (fun i x hx => by
      simpa using (nVars_spec c').1 x (var_conv (List.mem_of_getElem? hx)))
    obtain ⟨p, hp, -⟩ := hval _ v hv
    exact ⟨p, hp⟩
  · intro p hp q a ha
    have hd := d5 q a ha
    refine ⟨?_, fun n hn => ?_⟩
    · obtain ⟨v, hv, -⟩ := val_of_evaluate d2 hd
      by_contra hlt
      have hmem := (nVars_spec c').2 (by omega)
      obtain ⟨i, hi⟩ := List.mem_iff_getElem?.1 hmem
      have : q[nVars c' - 1]? = some (v i) := hv i (.var (nVars c' - 1)) (by
        rw [convertField_get, hi]; rfl)
      rw [List.getElem?_eq_none (by omega)] at this
      cases this
    · have := evaluate_take d2 hd n fun x hx => lt_of_lt_of_le ((nVars_spec c').1 x (var_conv hx)) hn
      obtain ⟨v, hv, hl⟩ := val_of_evaluate d2 this
      obtain ⟨p', hp', hr⟩ := hval _ v hv
      rw [hp] at hp'
      obtain rfl := Option.some.inj hp'
      rw [hr, ← hl, convertField, List.length_map]

/-- C65.  A circuit whose optimized form is safe compiles, and the compiled circuit evaluates, over every
extension of the field of its constants (and so on every packed element), to the value of the circuit at
the variables it uses; any other number of values is refused. -/
theorem C65_evaluate_partial {emb : F →+* R} (hemb : Function.Injective emb) {chk : Bool}
    (h2 : (1 : F) + 1 = 0) {c c' : Circuit F} (hc : Built c) (hov : (optimizeConstants true true c).isSome)
    (hopt : optimize chk true c = some c') (hs : Safe c') :
    ∃ p, CompiledPoly.new chk c = some p ∧ p.expr = c' ∧
      (∀ q : List R, q.length ≠ p.nVars → p.evaluate emb q = some none) ∧
      ∀ q a, evaluate (convertField emb c) q = some a →
        p.nVars ≤ q.length ∧ p.evaluate emb (q.take p.nVars) = some (some a) := by
  obtain ⟨-, ⟨p, hp⟩, h⟩ := compile_core hemb h2 hc hov hopt hs
  refine ⟨⟨c', p.1, p.2, nVars c'⟩, by rw [CompiledPoly.new, hopt, Option.bind_some, hp, Option.map_some],
    rfl, fun q hq => if_pos hq, fun q a ha => ?_⟩
  obtain ⟨h1, h3⟩ := h p hp q a ha
  refine ⟨h1, ?_⟩
  rw [CompiledPoly.evaluate, if_neg, h3 _ le_rfl, Option.map_some]
  rw [List.length_take]
  show ¬(min (nVars c') q.length ≠ nVars c')
  omega

/-- C65.  The same with a given number of variables, which is refused if the optimized circuit has more. -/
theorem C65_with_n_vars_partial {emb : F →+* R} (hemb : Function.Injective emb) {chk : Bool}
    (h2 : (1 : F) + 1 = 0) {c c' : Circuit F} (hc : Built c) (hov : (optimizeConstants true true c).isSome)
    (hopt : optimize chk true c = some c') (hs : Safe c') (n : Nat) :
    (n < nVars c' → CompiledPoly.withNVars chk n c = some none) ∧
    (nVars c' ≤ n → ∃ p, CompiledPoly.withNVars chk n c = some (some p) ∧
      ∀ (q : List R) a, q.length = n → evaluate (convertField emb c) q = some a →
        p.evaluate emb q = some (some a)) := by
  obtain ⟨-, ⟨p, hp⟩, h⟩ := compile_core hemb h2 hc hov hopt hs
  refine ⟨fun hn => by rw [CompiledPoly.withNVars, hopt, Option.bind_some, if_pos hn], fun hn => ?_⟩
  refine ⟨⟨c', p.1, p.2, n⟩, ?_, fun q a hq ha => ?_⟩
  · rw [CompiledPoly.withNVars, hopt, Option.bind_some, if_neg (by omega), hp, Option.map_some]
  · obtain ⟨h1, h3⟩ := h p hp q a ha
    have := h3 n hn
    rw [List.take_of_length_le (by omega)] at this
    rw [CompiledPoly.evaluate, if_neg (by show ¬(q.length ≠ n); omega), this, Option.map_some]

/-- C65.  Evaluation of a batch of rows gives the value of the circuit at every position of the rows. -/
theorem C65_batch_evaluate_partial {emb : F →+* R} (hemb : Function.Injective emb) {chk : Bool}
    (h2 : (1 : F) + 1 = 0) {c c' : Circuit F} (hc : Built c) (hov : (optimizeConstants true true c).isSome)
    (hopt : optimize chk true c = some c') (hs : Safe c') (hn : NoConstProduct c') :
    ∃ p, CompiledPoly.new chk c = some p ∧ ∀ {n : Nat} (rows : List (Fin n → R)) (a : Fin n → R), 0 < n →
      (∀ j, evaluate (convertField emb c) (rows.map (· j)) = some (a j)) →
      p.batchEvaluate emb rows = some a := by
  classical
  obtain ⟨hne', ⟨p, hp⟩, h⟩ := compile_core hemb h2 hc hov hopt hs
  refine ⟨⟨c', p.1, p.2, nVars c'⟩, by rw [CompiledPoly.new, hopt, Option.bind_some, hp, Option.map_some],
    fun {n} rows a hpos ha => ?_⟩
  obtain ⟨hne, hw⟩ := hc.wf
  have hneR : convertField emb c ≠ [] := by
    rw [← List.length_pos_iff, convertField, List.length_map]
    exact List.length_pos_iff.2 hne
  obtain ⟨d, d1, d2, -, d4, d5⟩ := optimize_wf chk true (fun _ => by
    rw [← map_one emb, ← map_add, h2, map_zero]) (convertField emb c) hneR (convertField_wf hw)
    (by rw [optimizeConstants_conv hemb, Option.isSome_map]; exact hov)
  rw [optimize_conv hemb, hopt, Option.map_some] at d1
  obtain rfl := Option.some.inj d1
  choose v hv hl using fun j => val_of_evaluate d2 (d5 _ _ (ha j))
  have hV : ValE (fun (x : F) (_ : Fin n) => emb x) rows c' (fun i j => v j i) := by
    intro i s hsi
    have hj := fun j => valE_of_val (hv j) i s hsi
    have j0 : Fin n := ⟨0, hpos⟩
    cases s with
    | add l r => exact ⟨(hj j0).1, (hj j0).2.1, funext fun j => (hj j).2.2⟩
    | mul l r => exact ⟨(hj j0).1, (hj j0).2.1, funext fun j => (hj j).2.2⟩
    | pow x e => exact ⟨(hj j0).1, funext fun j => (hj j).2⟩
    | const x => exact funext fun j => hj j
    | var x =>
      have hlt : x < rows.length := by
        by_contra hc
        have := hj j0
        simp only [List.getElem?_map] at this
        rw [List.getElem?_eq_none (by omega)] at this
        cases this
      show rows[x]? = _
      rw [List.getElem?_eq_getElem hlt]
      congr 1
      funext j
      have := hj j
      simp only [List.getElem?_map, List.getElem?_eq_getElem hlt, Option.map_some] at this
      exact Option.some.inj this
  obtain ⟨p', hp', hr⟩ := convertCircuit_spec (b := true) hne' hV hs (fun _ => hn)
  rw [hp] at hp'
  obtain rfl := Option.some.inj hp'
  rw [CompiledPoly.batchEvaluate, hr]
  congr 1
  funext j
  rw [← hl j, convertField, List.length_map]

theorem operands_cases {c : Circuit F} {s : Step F} {p : Nat} (h : p ∈ operands c s) :
    p ∈ s.refs ∨ ∃ l r x y, s = .add l r ∧ c[r]? = some (.mul x y) ∧ operands c s = [l, x, y] ∧ (p = x ∨ p = y) := by
  cases s with
  | add l r =>
    by_cases hf : ∃ x y, c[r]? = some (.mul x y) ∧ isOp c l = true
    · obtain ⟨x, y, h1, h2⟩ := hf
      have hop : operands c (.add l r) = [l, x, y] := by
        rw [operands, h1]
        simp [h2]
      rw [hop] at h
      simp only [List.mem_cons, List.not_mem_nil, or_false] at h
      rcases h with rfl | h
      · exact Or.inl (by simp [Step.refs])
      · exact Or.inr ⟨l, r, x, y, rfl, h1, hop, h⟩
    · left
      rw [operands] at h
      split at h
      · rename_i x y hxy
        by_cases hl : isOp c l = true
        · exact absurd ⟨x, y, hxy, hl⟩ hf
        · simp only [hl] at h
          exact h
      · exact h
  | mul l r => exact Or.inl h
  | pow b e => exact Or.inl h
  | const x => exact Or.inl h
  | var x => exact Or.inl h

/-- C65.  In particular every optimized circuit in which no computed value is used twice and whose
exponents are at least two is safe. -/
theorem C65_no_sharing {c : Circuit F} (hw : WF c) (he : ∀ i b e : Nat, c[i]? = some (.pow b e) → 2 ≤ e)
    (hn : NoSharing c) : Safe c := by
  refine ⟨he, fun p hp i j s t hAi hAj hi hj hps hpt => ?_⟩
  have hop : isOp c p = true := by
    rcases hp with ⟨b, e, h, -⟩ | h
    · simp [isOp, h, Step.isOp]
    · exact h.1
  -- an expanded product is not asked for
  have notAsked : ∀ (k l r x y : Nat), c[k]? = some (.add l r) → c[r]? = some (.mul x y) →
      operands c (.add l r) = [l, x, y] → ¬Asked c r := by
    intro k l r x y hk hr hops hA
    have hrop : isOp c r = true := by simp [isOp, hr, Step.isOp]
    have hrk : r < k := hw k _ hk r (by simp [Step.refs])
    have hkl : k < c.length := (List.getElem?_eq_some_iff.1 hk).1
    have main : ∀ r', Asked c r' → r' ≠ r := by
      intro r' hA'
      cases hA' with
      | root => omega
      | @operand k' s' _ hA2 hk' hm =>
        rintro rfl
        rcases operands_cases hm with hm' | ⟨l', r2, x', y', rfl, hr2, -, hxy⟩
        · obtain ⟨rfl, hcount⟩ := hn r' hrop k k' _ _ hk hk' (by simp [Step.refs]) hm'
          rw [hk] at hk'
          obtain rfl := Option.some.inj hk'
          rw [hops] at hm
          simp only [List.mem_cons, List.not_mem_nil, or_false] at hm
          have hx := hw r' _ hr x (by simp [Step.refs])
          have hy := hw r' _ hr y (by simp [Step.refs])
          rcases hm with rfl | rfl | rfl
          · simp [Step.refs] at hcount
          · omega
          · omega
        · have := (hn r' hrop k r2 _ _ hk hr2 (by simp [Step.refs]) (by
            simp only [Step.refs, List.mem_cons, List.not_mem_nil, or_false]
            exact hxy)).1
          rw [this, hr2] at hk
          cases hk
    exact main r hA rfl
  have hcountL : ∀ (k l r x y : Nat), c[k]? = some (.add l r) → c[r]? = some (.mul x y) →
      p ∈ ([l, x, y] : List Nat) → ([l, x, y] : List Nat).count p = 1 := by
    intro k l r x y hk hr hm
    have hrk : r < k := hw k _ hk r (by simp [Step.refs])
    have hlxy : ∀ z, (z = x ∨ z = y) → l = p → z ≠ p := by
      rintro z hz hl rfl
      have := (hn z hop k r _ _ hk hr (by simp [Step.refs, hl]) (by
        simp only [Step.refs, List.mem_cons, List.not_mem_nil, or_false]
        exact hz)).1
      omega
    have hxy : x = p → y ≠ p := by
      rintro h1 h3
      have h4 := (hn p hop r r _ _ hr hr (by simp [Step.refs, h1]) (by simp [Step.refs, h1])).2
      rw [Step.refs, h1, h3] at h4
      simp at h4
    by_cases hl : l = p
    · rw [List.count_cons, List.count_cons, List.count_cons, List.count_nil]
      simp [hl, hlxy x (Or.inl rfl) hl, hlxy y (Or.inr rfl) hl]
    · by_cases hx : x = p
      · simp [List.count_cons, hl, hx, hxy hx]
      · by_cases hy : y = p
        · simp [List.count_cons, hl, hx, hy]
        · simp only [List.mem_cons, List.not_mem_nil, or_false] at hm
          rcases hm with h | h | h
          · exact absurd h.symm hl
          · exact absurd h.symm hx
          · exact absurd h.symm hy
  have hcount : i = j → i = j ∧ (operands c s).count p = 1 := by
    intro hij
    refine ⟨hij, ?_⟩
    by_cases hf : ∃ l r x y, s = .add l r ∧ c[r]? = some (.mul x y) ∧ operands c s = [l, x, y]
    · obtain ⟨l, r, x, y, rfl, hr, hops⟩ := hf
      rw [hops]
      exact hcountL i l r x y hi hr (by rw [← hops]; exact hps)
    · have hrefs : operands c s = s.refs := by
        cases s with
        | add l r =>
          rw [operands]
          split
          · rename_i x y hxy
            by_cases hl : isOp c l = true
            · exact absurd ⟨l, r, x, y, rfl, hxy, by rw [operands, hxy]; simp [hl]⟩ hf
            · simp only [hl]
              rfl
          · rfl
        | _ => rfl
      rw [hrefs] at hps ⊢
      exact (hn p hop i i s s hi hi hps hps).2
  rcases operands_cases hps with h1 | ⟨l, r, x, y, rfl, hr, hops, hxy⟩
  · rcases operands_cases hpt with h2 | ⟨l', r', x', y', rfl, hr', hops', hxy'⟩
    · exact hcount (hn p hop i j s t hi hj h1 h2).1
    · have := (hn p hop i r' s _ hi hr' h1 (by
        simp only [Step.refs, List.mem_cons, List.not_mem_nil, or_false]
        exact hxy')).1
      exact absurd (this ▸ hAi) (notAsked j l' r' x' y' hj hr' hops')
  · have hpr : p ∈ (Step.mul x y : Step F).refs := by
      simp only [Step.refs, List.mem_cons, List.not_mem_nil, or_false]
      exact hxy
    rcases operands_cases hpt with h2 | ⟨l', r', x', y', rfl, hr', hops', hxy'⟩
    · have := (hn p hop r j _ t hr hj hpr h2).1
      exact absurd (this ▸ hAj) (notAsked i l r x y hi hr hops)
    · have e1 := (hn p hop r r' _ _ hr hr' hpr (by
        simp only [Step.refs, List.mem_cons, List.not_mem_nil, or_false]
        exact hxy')).1
      have hrop : isOp c r = true := by simp [isOp, hr, Step.isOp]
      exact hcount (hn r hrop i j _ _ hi hj (by simp [Step.refs]) (by simp [Step.refs, e1])).1

/-! ### Wrong code -/

/-- `m * (m + x2 * x3)` with `m = x0 * x1`. -/
def exShared : Circuit (ZMod 2) :=
  mul (mul (var 0) (var 1)) (add (mul (var 0) (var 1)) (mul (var 2) (var 3)))

/-- C65 fails for shared values: in `m * (m + x2 * x3)` the sum is accumulated in the slot of `m`, which
is then squared. -/
theorem C65_shared_accumulator_wrong :
    Built exShared ∧ (∃ p, CompiledPoly.new true exShared = some p ∧
      p.evaluate (RingHom.id (ZMod 2)) [0, 1, 1, 1] = some (some 1)) ∧
    evaluate exShared [0, 1, 1, 1] = some 0 := by
  refine ⟨.mul (.mul (.var 0) (.var 1)) (.add (.mul (.var 0) (.var 1)) (.mul (.var 2) (.var 3))), ?_, by decide +kernel⟩
  rw [← Option.bind_eq_some_iff]
  decide +kernel

/-- `x0 ^ 3 * (x0 ^ 3 + x1)`. -/
def exOdd : Circuit (Field.T 1) := mul (pow (var 0) 3) (add (pow (var 0) 3) (var 1))

/-- The generator of the field with four elements. -/
def exGen : Field.T 1 := (false, true)

/-- C65 fails for shared odd powers: the second use of `x0 ^ 3` reads `x0 ^ 2`. -/
theorem C65_shared_odd_power_wrong :
    Built exOdd ∧ (∃ p, CompiledPoly.new true exOdd = some p ∧
      p.evaluate (RingHom.id (Field.T 1)) [exGen, 0] = some (some (exGen ^ 2))) ∧
    evaluate exOdd [exGen, 0] = some 1 ∧ exGen ^ 2 ≠ 1 := by
  refine ⟨.mul (.pow 3 (.var 0)) (.add (.pow 3 (.var 0)) (.var 1)), ?_, by decide +kernel, by decide +kernel⟩
  rw [← Option.bind_eq_some_iff]
  decide +kernel

/-- A power with exponent zero, which is one, makes the compilation panic. -/
theorem C65_power_zero_panics : CompiledPoly.new true (pow (var 0) 0 : Circuit (ZMod 2)) = none ∧
    evaluate (pow (var 0) 0 : Circuit (ZMod 2)) [0] = some 1 := by
  decide +kernel

/-! ### The hypotheses are met -/

/-- A check of `Safe` that looks at every step, asked for or not. -/
def safeCheck (c : Circuit F) : Bool :=
  let n := c.length
  let frag := fun p : Nat => (match c[p]? with | some (.pow _ e) => decide (e % 2 = 1) | _ => false) ||
    (isOp c p && (List.range n).any fun i => match c[i]? with
      | some (.add l r) => decide (l = p) && (match c[r]? with | some (.mul _ _) => true | _ => false)
      | _ => false)
  let ops := fun i : Nat => ((c[i]?).map (operands c)).getD []
  ((List.range n).all fun i => match c[i]? with | some (.pow _ e) => decide (2 ≤ e) | _ => true) &&
    (List.range n).all fun p => !frag p || (List.range n).all fun i => !decide (p ∈ ops i) ||
      (List.range n).all fun j => !decide (p ∈ ops j) || (decide (i = j) && decide ((ops i).count p = 1))

theorem safe_of_check {c : Circuit F} (h : safeCheck c = true) : Safe c := by
  have hlt : ∀ {i : Nat} {s : Step F}, c[i]? = some s → i < c.length := fun hi =>
    (List.getElem?_eq_some_iff.1 hi).1
  simp only [safeCheck, Bool.and_eq_true, List.all_eq_true, List.mem_range] at h
  obtain ⟨h1, h2⟩ := h
  refine ⟨fun i b e hi => ?_, fun p hp i j s t _ _ hi hj hps hpt => ?_⟩
  · have := h1 i (hlt hi)
    simp only [hi, decide_eq_true_eq] at this
    exact this
  · have hpl : p < c.length := by
      rcases hp with ⟨b, e, hpp, -⟩ | hacc
      · exact hlt hpp
      · by_contra hge
        have := hacc.1
        rw [isOp, List.getElem?_eq_none (by omega)] at this
        cases this
    have := h2 p hpl
    rw [Bool.or_eq_true] at this
    rcases this with hf | hf
    · exfalso
      rw [Bool.not_eq_true', Bool.or_eq_false_iff] at hf
      obtain ⟨f1, f2⟩ := hf
      rcases hp with ⟨b, e, hpp, ho⟩ | ⟨hop, k, r, x, y, hk, hr⟩
      · simp only [hpp, ho] at f1
        cases f1
      · rw [hop, Bool.true_and, List.any_eq_false] at f2
        have := f2 k (List.mem_range.2 (hlt hk))
        simp [hk, hr] at this
    · rw [List.all_eq_true] at hf
      have := hf i (List.mem_range.2 (hlt hi))
      rw [Bool.or_eq_true, List.all_eq_true] at this
      rcases this with h3 | h3
      · simp [hi, hps] at h3
      · have := h3 j (List.mem_range.2 (hlt hj))
        simp only [hi, hj, Option.map_some, Option.getD_some, hpt, decide_true, Bool.not_true, Bool.false_or,
          Bool.and_eq_true, decide_eq_true_eq] at this
        exact this

/-- `s * s + x2 * (x0 ^ 3 + 1)` with `s = x0 * x1 + x2 * x0`: an accumulated sum that is used twice, and an
odd power. -/
def exSafe : Circuit (Field.T 1) :=
  let s := add (mul (var 0) (var 1)) (mul (var 2) (var 0))
  add (mul s s) (mul (var 2) (add (pow (var 0) 3) (constant 1)))

theorem exSafe_built : Built exSafe :=
  .add (.mul (.add (.mul (.var 0) (.var 1)) (.mul (.var 2) (.var 0)))
    (.add (.mul (.var 0) (.var 1)) (.mul (.var 2) (.var 0))))
    (.mul (.var 2) (.add (.pow 3 (.var 0)) (.constant 1)))

example : ((optimize true true exSafe).map safeCheck) = some true := by decide +kernel

example : (optimizeConstants true true exSafe).isSome ∧ (1 : Field.T 1) + 1 = 0 := by decide +kernel

example : ((CompiledPoly.new true exSafe).map fun p => (p.code.length, p.nVars,
    p.evaluate (RingHom.id (Field.T 1)) [exGen, 1, exGen])) =
    some (7, 3, (evaluate exSafe [exGen, 1, exGen]).map some) := by decide +kernel

/-- A sum of products of variables has no sharing. -/
example : NoSharing ([.var 0, .var 1, .mul 0 1, .var 2, .mul 3 0, .add 2 4] : Circuit (ZMod 2)) := by
  intro p hp i j s t hi hj hps hpt
  have hil := (List.getElem?_eq_some_iff.1 hi).1
  have hjl := (List.getElem?_eq_some_iff.1 hj).1
  simp only [List.length_cons, List.length_nil] at hil hjl
  interval_cases i <;> simp at hi <;> subst hi <;> simp [Step.refs] at hps <;>
    interval_cases j <;> simp at hj <;> subst hj <;> simp [Step.refs] at hpt <;> (try omega) <;>
    (rcases hps with rfl | rfl <;> first | (exact ⟨rfl, by decide⟩) | (simp [isOp, Step.isOp] at hp) | omega)

end Verif.Arith
