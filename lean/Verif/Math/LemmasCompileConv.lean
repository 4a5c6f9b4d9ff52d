import Verif.Math.LemmasCompile
import Verif.Math.LemmasArithForms

/-! Optimization commutes with the embedding of the constants in a larger ring, and circuits that are
compiled correctly. -/

set_option linter.unusedSectionVars false

namespace Verif.Arith

variable {F : Type*} [CommRing F] [DecidableEq F] {R : Type*} [CommRing R] [DecidableEq R]

theorem conv_inj {emb : F → R} (h : Function.Injective emb) {s t : Step F} :
    s.conv emb = t.conv emb ↔ s = t := by
  constructor
  · intro e
    cases s <;> cases t <;> simp only [Step.conv, Step.add.injEq, Step.mul.injEq, Step.pow.injEq,
      Step.const.injEq, Step.var.injEq, reduceCtorEq] at e ⊢
    all_goals first | exact e | exact h e
  · rintro rfl
    rfl

theorem convertField_eq_map (emb : F → R) (c : Circuit F) : convertField emb c = c.map (Step.conv emb) := by
  rw [convertField]
  refine List.map_congr_left fun s _ => ?_
  cases s <;> rfl

theorem optStep_conv {emb : F →+* R} (h : Function.Injective emb) (chk char2 : Bool) (prev : Circuit F)
    (s : Step F) : optStep chk char2 (prev.map (Step.conv emb)) (s.conv emb) =
      (optStep chk char2 prev s).map (Step.conv emb) := by
  have h0 : ∀ t : Step F, t.conv emb = .const 0 ↔ t = .const 0 := fun t => by
    rw [← conv_inj h (s := t) (t := .const 0), Step.conv, map_zero]
  have h1 : ∀ t : Step F, t.conv emb = .const 1 ↔ t = .const 1 := fun t => by
    rw [← conv_inj h (s := t) (t := .const 1), Step.conv, map_one]
  have hite : ∀ (p : Prop) [Decidable p] (x y : Step F),
      (if p then x.conv emb else y.conv emb) = (if p then x else y).conv emb := by
    intro p _ x y
    split <;> rfl
  cases s with
  | const v => rfl
  | var i => rfl
  | add l r =>
    show (prev.map (Step.conv emb))[l]?.bind _ = _
    rw [List.getElem?_map, optStep]
    cases prev[l]? with
    | none => rfl
    | some a =>
      rw [Option.map_some, Option.bind_some, Option.bind_some, List.getElem?_map]
      cases prev[r]? with
      | none => rfl
      | some b =>
        rw [Option.map_some, Option.bind_some, Option.bind_some]
        have hgen : ∀ a b : Step F, (if a.conv emb = .const 0 then b.conv emb
            else if b.conv emb = .const 0 then a.conv emb
            else if a.conv emb = b.conv emb ∧ char2 = true then .const 0 else .add l r) =
            (if a = .const 0 then b else if b = .const 0 then a
              else if a = b ∧ char2 = true then .const 0 else .add l r).conv emb := by
          intro a b
          simp only [h0, conv_inj h]
          split
          · rfl
          · split
            · rfl
            · split
              · simp [Step.conv]
              · rfl
        cases a with
        | const x =>
          cases b with
          | const y => simp [Step.conv]
          | _ => exact congrArg some (hgen (.const x) _)
        | _ => exact congrArg some (hgen _ _)
  | mul l r =>
    show (prev.map (Step.conv emb))[l]?.bind _ = _
    rw [List.getElem?_map, optStep]
    cases prev[l]? with
    | none => rfl
    | some a =>
      rw [Option.map_some, Option.bind_some, Option.bind_some, List.getElem?_map]
      cases prev[r]? with
      | none => rfl
      | some b =>
        rw [Option.map_some, Option.bind_some, Option.bind_some]
        have hgen : ∀ a b : Step F, (if a.conv emb = .const 0 then .const 0
            else if b.conv emb = .const 0 then .const 0
            else if a.conv emb = .const 1 then b.conv emb
            else if b.conv emb = .const 1 then a.conv emb else .mul l r) =
            (if a = .const 0 then .const 0 else if b = .const 0 then .const 0
              else if a = .const 1 then b else if b = .const 1 then a else .mul l r).conv emb := by
          intro a b
          simp only [h0, h1]
          split
          · simp [Step.conv]
          · split
            · simp [Step.conv]
            · split
              · rfl
              · split <;> rfl
        cases a with
        | const x =>
          cases b with
          | const y => simp [Step.conv]
          | _ => exact congrArg some (hgen (.const x) _)
        | _ => exact congrArg some (hgen _ _)
  | pow x e =>
    show (prev.map (Step.conv emb))[x]?.bind _ = _
    rw [List.getElem?_map, optStep]
    cases prev[x]? with
    | none => rfl
    | some a =>
      rw [Option.map_some, Option.bind_some, Option.bind_some]
      cases a with
      | const y => simp [Step.conv]
      | pow x' e' =>
        show (mulExp chk e e').map _ = ((mulExp chk e e').map _).map _
        cases mulExp chk e e' <;> rfl
      | _ => rfl

theorem optLoop_conv {emb : F →+* R} (h : Function.Injective emb) (chk char2 : Bool) :
    ∀ (rest done : Circuit F), optLoop chk char2 (done.map (Step.conv emb)) (rest.map (Step.conv emb)) =
      (optLoop chk char2 done rest).map fun c => c.map (Step.conv emb)
  | [], done => rfl
  | s :: ss, done => by
    rw [List.map_cons, optLoop, optLoop, optStep_conv h]
    cases optStep chk char2 done s with
    | none => rfl
    | some s' =>
      rw [Option.map_some, Option.bind_some, Option.bind_some, ← optLoop_conv h chk char2 ss (done ++ [s']),
        List.map_append, List.map_singleton]

theorem nodeEq_conv {emb : F → R} (h : Function.Injective emb) (c d : Circuit F) : ∀ f i j,
    nodeEq (c.map (Step.conv emb)) (d.map (Step.conv emb)) f i j = nodeEq c d f i j
  | 0, _, _ => rfl
  | f + 1, i, j => by
    rw [nodeEq, nodeEq, List.getElem?_map, List.getElem?_map]
    cases c[i]? with
    | none => rfl
    | some a =>
      rw [Option.map_some, Option.bind_some, Option.bind_some]
      cases d[j]? with
      | none => rfl
      | some b =>
        rw [Option.map_some, Option.bind_some, Option.bind_some]
        cases a <;> cases b <;> simp only [Step.conv, nodeEq_conv h c d f]
        simp only [h.eq_iff]

theorem findRep_conv {emb : F → R} (h : Function.Injective emb) (c : Circuit F) (k : Nat) : ∀ rs,
    findRep (c.map (Step.conv emb)) k rs = findRep c k rs
  | [] => rfl
  | r :: rs => by
    simp only [findRep, List.length_map, nodeEq_conv h, findRep_conv h c k rs]

theorem dedupIndices_conv {emb : F → R} (h : Function.Injective emb) (c : Circuit F) : ∀ n,
    dedupIndices (c.map (Step.conv emb)) n = dedupIndices c n
  | 0 => rfl
  | n + 1 => by
    simp only [dedupIndices, dedupIndices_conv h c n, findRep_conv h]

theorem remapStep_conv (emb : F → R) (idx : List Nat) (s : Step F) :
    remapStep idx (s.conv emb) = (remapStep idx s).map (Step.conv emb) := by
  cases s with
  | add l r =>
    simp only [Step.conv, remapStep]
    cases idx[l]? with
    | none => rfl
    | some l' => cases idx[r]? <;> rfl
  | mul l r =>
    simp only [Step.conv, remapStep]
    cases idx[l]? with
    | none => rfl
    | some l' => cases idx[r]? <;> rfl
  | pow x e =>
    simp only [Step.conv, remapStep]
    cases idx[x]? <;> rfl
  | const _ => rfl
  | var _ => rfl

theorem mapM_remap_conv (emb : F → R) (idx : List Nat) : ∀ c : Circuit F,
    (c.map (Step.conv emb)).mapM (remapStep idx) =
      (c.mapM (remapStep idx)).map fun c => c.map (Step.conv emb)
  | [] => rfl
  | s :: ss => by
    rw [List.map_cons, List.mapM_cons, List.mapM_cons, remapStep_conv, mapM_remap_conv emb idx ss]
    cases remapStep idx s with
    | none => rfl
    | some s' => cases ss.mapM (remapStep idx) <;> rfl

theorem deduplicate_conv {emb : F → R} (h : Function.Injective emb) (c : Circuit F) :
    deduplicate (c.map (Step.conv emb)) = (deduplicate c).map fun c => c.map (Step.conv emb) := by
  rw [deduplicate, deduplicate, List.length_map, dedupIndices_conv h]
  cases dedupIndices c c.length with
  | none => rfl
  | some p => exact mapM_remap_conv emb p.2 c

theorem markUsed_conv (emb : F → R) (c : Circuit F) : ∀ f i used,
    markUsed (c.map (Step.conv emb)) f i used = markUsed c f i used
  | 0, _, _ => rfl
  | f + 1, i, used => by
    rw [markUsed, markUsed]
    cases used[i]? with
    | none => rfl
    | some u =>
      rw [Option.bind_some, Option.bind_some]
      cases u with
      | true => rfl
      | false =>
        simp only [Bool.false_eq_true, if_false]
        rw [List.getElem?_map]
        cases c[i]? with
        | none => rfl
        | some s =>
          cases s <;> simp only [Option.map_some, Option.bind_some, Step.conv, markUsed_conv emb c f]
          all_goals
            congr 1
            try (funext u; exact markUsed_conv emb c f _ u)

theorem compressStep_conv (emb : F → R) (used : List Bool) (src : Nat) (st : Circuit F × List Nat × Nat) :
    compressStep used src (st.1.map (Step.conv emb), st.2) =
      (compressStep used src st).map fun st => (st.1.map (Step.conv emb), st.2) := by
  rw [compressStep, compressStep]
  cases used[src]? with
  | none => rfl
  | some u =>
    rw [Option.bind_some, Option.bind_some]
    cases u with
    | false => rfl
    | true =>
      simp only [if_true]
      by_cases hs : st.2.2 ≠ src
      · rw [if_pos hs, if_pos hs, List.getElem?_map]
        cases st.1[src]? with
        | none => rfl
        | some s =>
          rw [Option.map_some, Option.bind_some, Option.bind_some, remapStep_conv]
          cases remapStep st.2.1 s with
          | none => rfl
          | some s' =>
            simp only [Option.map_some, Option.bind_some, List.map_set]
      · rw [if_neg hs, if_neg hs]
        rfl

theorem compressLoop_conv (emb : F → R) (used : List Bool) (st : Circuit F × List Nat × Nat) : ∀ n,
    compressLoop used (st.1.map (Step.conv emb), st.2) n =
      (compressLoop used st n).map fun st => (st.1.map (Step.conv emb), st.2)
  | 0 => rfl
  | n + 1 => by
    rw [compressLoop, compressLoop, compressLoop_conv emb used st n]
    cases compressLoop used st n with
    | none => rfl
    | some st' => exact compressStep_conv emb used n st'

theorem compress_conv (emb : F → R) (c : Circuit F) :
    compress (c.map (Step.conv emb)) = (compress c).map fun c => c.map (Step.conv emb) := by
  rw [compress, compress, List.length_map, markUsed_conv]
  cases markUsed c c.length (c.length - 1) (List.replicate c.length false) with
  | none => rfl
  | some used =>
    have := compressLoop_conv emb used (c, List.range c.length, 0) c.length
    dsimp only at this
    rw [Option.bind_some, Option.bind_some, this]
    cases compressLoop used (c, List.range c.length, 0) c.length with
    | none => rfl
    | some st => simp only [Option.map_some, List.map_take]

theorem optimize_conv {emb : F →+* R} (h : Function.Injective emb) (chk char2 : Bool) (c : Circuit F) :
    optimize chk char2 (convertField emb c) = (optimize chk char2 c).map (convertField emb) := by
  have hf : (fun c => c.map (Step.conv emb) : Circuit F → Circuit R) = convertField emb :=
    funext fun c => (convertField_eq_map emb c).symm
  rw [← hf]
  show optimize chk char2 (c.map (Step.conv emb)) = _
  rw [optimize, optimize, optimizeConstants, optimizeConstants]
  have := optLoop_conv h chk char2 c []
  rw [List.map_nil] at this
  rw [this]
  cases optLoop chk char2 [] c with
  | none => rfl
  | some c1 =>
    rw [Option.map_some, Option.bind_some, Option.bind_some, deduplicate_conv h]
    cases deduplicate c1 with
    | none => rfl
    | some c2 => exact compress_conv emb c2

theorem optimizeConstants_conv {emb : F →+* R} (h : Function.Injective emb) (chk char2 : Bool) (c : Circuit F) :
    optimizeConstants chk char2 (convertField emb c) =
      (optimizeConstants chk char2 c).map (convertField emb) := by
  have hf : (fun c => c.map (Step.conv emb) : Circuit F → Circuit R) = convertField emb :=
    funext fun c => (convertField_eq_map emb c).symm
  rw [← hf]
  exact optLoop_conv h chk char2 c []

/-- The steps of the larger ring. -/
theorem valE_of_val {emb : F → R} {q : List R} {c : Circuit F} {v : Nat → R}
    (h : Val q (convertField emb c) v) : ValE emb q c v := by
  intro i s hs
  have := h i (s.conv emb) (by rw [convertField_get, hs]; rfl)
  cases s <;> exact this

end Verif.Arith
