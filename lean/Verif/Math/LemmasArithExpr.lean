import Verif.Math.LemmasArithForms
import Verif.Math.SpecArith

/-! Lemmas for C21: expressions. -/

set_option linter.unusedSectionVars false

namespace Verif.Arith

variable {F : Type*} [CommRing F] [DecidableEq F]

/-- Invariant of the conversion. -/
structure MapOk (H : Nat → Option (Expr F)) (q : List F) (m : PtrMap) (s : Circuit F) (v : Nat → F) : Prop where
  val : Val q s v
  map : ∀ p i, m.lookup p = some i → i < s.length ∧ ∃ e, H p = some e ∧ e.value q = some (v i)

/-- The conversion of one more node. -/
structure Ext (H : Nat → Option (Expr F)) (q : List F) (s : Circuit F) (v : Nat → F) (a : F)
    (res : Nat × PtrMap × Circuit F) (v' : Nat → F) : Prop where
  ok : MapOk H q res.2.1 res.2.2 v'
  lt : res.1 < res.2.2.length
  val : v' res.1 = a
  len : s.length ≤ res.2.2.length
  agree : ∀ j < s.length, v' j = v j

theorem push_ok {H : Nat → Option (Expr F)} {q : List F} {m : PtrMap} {s : Circuit F} {v : Nat → F} {p : Nat}
    {e : Expr F} {a : F} {st : Step F} (h : MapOk H q m s v) (hp : H p = some e) (hv : e.value q = some a)
    (hs : StepVal q (Function.update v s.length a) s.length st) :
    Ext H q s v a (s.length, (p, s.length) :: m, s ++ [st]) (Function.update v s.length a) := by
  have hag : ∀ j < s.length, Function.update v s.length a j = v j := fun j hj =>
    Function.update_of_ne (by omega) _ _
  refine ⟨⟨Val.snoc.2 ⟨h.val.congr fun j hj => (hag j hj).symm, hs⟩, fun p' i hi => ?_⟩,
    by simp, Function.update_self _ _ _, by simp, hag⟩
  dsimp only at hi ⊢
  rw [List.lookup_cons] at hi
  by_cases hpp : p' = p
  · subst hpp
    simp only [beq_self_eq_true] at hi
    cases hi
    exact ⟨by simp, e, hp, by rw [Function.update_self]; exact hv⟩
  · have : (p' == p) = false := by simpa using hpp
    rw [this] at hi
    obtain ⟨h1, e', h2, h3⟩ := h.map p' i hi
    exact ⟨by simp; omega, e', h2, by rw [hag i h1]; exact h3⟩

theorem visit_ok {H : Nat → Option (Expr F)} {q : List F} (e : Expr F) :
    ∀ (p : Nat) (m : PtrMap) (s : Circuit F) (v : Nat → F) (a : F), MapOk H q m s v → H p = some e →
      e.InMemory H → e.value q = some a → ∃ v', Ext H q s v a (visit p e m s) v' := by
  have seen : ∀ (e : Expr F) (p : Nat) (m : PtrMap) (s : Circuit F) (v : Nat → F) (a : F) (i : Nat),
      MapOk H q m s v → H p = some e → e.value q = some a → m.lookup p = some i →
      Ext H q s v a (i, m, s) v := by
    intro e p m s v a i hm hp hv hi
    obtain ⟨h1, e', h2, h3⟩ := hm.map p i hi
    rw [hp] at h2
    cases h2
    rw [hv] at h3
    exact ⟨hm, h1, (Option.some.inj h3).symm, le_rfl, fun _ _ => rfl⟩
  induction e with
  | const c =>
    intro p m s v a hm hp _ hv
    rw [visit]
    cases hl : m.lookup p with
    | some i => exact ⟨v, seen _ p m s v a i hm hp hv hl⟩
    | none =>
      refine ⟨_, push_ok hm hp hv ?_⟩
      cases hv
      exact Function.update_self _ _ _
  | var x =>
    intro p m s v a hm hp _ hv
    rw [visit]
    cases hl : m.lookup p with
    | some i => exact ⟨v, seen _ p m s v a i hm hp hv hl⟩
    | none =>
      refine ⟨_, push_ok hm hp hv ?_⟩
      show _ = some _
      rw [Function.update_self]
      exact hv
  | add pl l pr r ihl ihr =>
    intro p m s v a hm hp hin hv
    rw [visit]
    cases hl : m.lookup p with
    | some i => exact ⟨v, seen _ p m s v a i hm hp hv hl⟩
    | none =>
      obtain ⟨i1, i2, i3, i4⟩ := hin
      have hv0 := hv
      rw [Expr.value] at hv
      obtain ⟨x, hx, hv⟩ := Option.bind_eq_some_iff.1 hv
      obtain ⟨y, hy, hv⟩ := Option.bind_eq_some_iff.1 hv
      cases hv
      obtain ⟨v1, e1⟩ := ihl pl m s v x hm i1 i3 hx
      obtain ⟨v2, e2⟩ := ihr pr _ _ v1 y e1.ok i2 i4 hy
      have e3 := push_ok (st := .add (visit pl l m s).1 (visit pr r (visit pl l m s).2.1 (visit pl l m s).2.2).1)
        e2.ok hp hv0 (by
        have h1 := e1.lt
        have h2 := e2.lt
        have h3 := e2.len
        refine ⟨by omega, h2, ?_⟩
        rw [Function.update_self, Function.update_of_ne (by omega), Function.update_of_ne (by omega), e2.val,
          e2.agree _ h1, e1.val])
      exact ⟨_, e3.ok, e3.lt, e3.val, le_trans (le_trans e1.len e2.len) e3.len, fun j hj => by
        have h1 := e1.len; have h2 := e2.len
        rw [e3.agree j (by omega), e2.agree j (by omega), e1.agree j hj]⟩
  | mul pl l pr r ihl ihr =>
    intro p m s v a hm hp hin hv
    rw [visit]
    cases hl : m.lookup p with
    | some i => exact ⟨v, seen _ p m s v a i hm hp hv hl⟩
    | none =>
      obtain ⟨i1, i2, i3, i4⟩ := hin
      have hv0 := hv
      rw [Expr.value] at hv
      obtain ⟨x, hx, hv⟩ := Option.bind_eq_some_iff.1 hv
      obtain ⟨y, hy, hv⟩ := Option.bind_eq_some_iff.1 hv
      cases hv
      obtain ⟨v1, e1⟩ := ihl pl m s v x hm i1 i3 hx
      obtain ⟨v2, e2⟩ := ihr pr _ _ v1 y e1.ok i2 i4 hy
      have e3 := push_ok (st := .mul (visit pl l m s).1 (visit pr r (visit pl l m s).2.1 (visit pl l m s).2.2).1)
        e2.ok hp hv0 (by
        have h1 := e1.lt
        have h2 := e2.lt
        have h3 := e2.len
        refine ⟨by omega, h2, ?_⟩
        rw [Function.update_self, Function.update_of_ne (by omega), Function.update_of_ne (by omega), e2.val,
          e2.agree _ h1, e1.val])
      exact ⟨_, e3.ok, e3.lt, e3.val, le_trans (le_trans e1.len e2.len) e3.len, fun j hj => by
        have h1 := e1.len; have h2 := e2.len
        rw [e3.agree j (by omega), e2.agree j (by omega), e1.agree j hj]⟩
  | pow pb b k ihb =>
    intro p m s v a hm hp hin hv
    rw [visit]
    cases hl : m.lookup p with
    | some i => exact ⟨v, seen _ p m s v a i hm hp hv hl⟩
    | none =>
      obtain ⟨i1, i2⟩ := hin
      have hv0 := hv
      rw [Expr.value] at hv
      obtain ⟨x, hx, hv⟩ := Option.bind_eq_some_iff.1 hv
      cases hv
      obtain ⟨v1, e1⟩ := ihb pb m s v x hm i1 i2 hx
      have e3 := push_ok (st := .pow (visit pb b m s).1 k) e1.ok hp hv0 (by
        have h1 := e1.lt
        refine ⟨h1, ?_⟩
        rw [Function.update_self, Function.update_of_ne (by omega), e1.val])
      exact ⟨_, e3.ok, e3.lt, e3.val, le_trans e1.len e3.len, fun j hj => by
        have h1 := e1.len
        rw [e3.agree j (by omega), e1.agree j hj]⟩

theorem ofExpr_val {H : Nat → Option (Expr F)} {q : List F} {e : Expr F} {a : F} (hin : e.InMemory H)
    (hv : e.value q = some a) : ofExpr e ≠ [] ∧ ∃ v, Val q (ofExpr e) v ∧ v ((ofExpr e).length - 1) = a := by
  have h0 : MapOk H q [] [] (fun _ => (0 : F)) := ⟨fun i s hs => by simp at hs, fun p i hi => by simp at hi⟩
  have fin : ∀ (s : Circuit F) (v : Nat → F) (st : Step F) (b : F), Val q s v →
      StepVal q (Function.update v s.length b) s.length st →
      s ++ [st] ≠ [] ∧ ∃ v, Val q (s ++ [st]) v ∧ v ((s ++ [st]).length - 1) = b := by
    intro s v st b hs hst
    refine ⟨by simp, _, Val.snoc.2 ⟨hs.congr fun j hj => (Function.update_of_ne (by omega) _ _).symm, hst⟩, ?_⟩
    simp
  cases e with
  | const c => cases hv; exact ⟨by simp [ofExpr], fun _ => a, fun i s hs => by
      have := lt_of_get hs
      simp only [ofExpr, List.length_singleton] at this
      obtain rfl : i = 0 := by omega
      cases hs
      rfl, rfl⟩
  | var x => exact ⟨by simp [ofExpr], fun _ => a, fun i s hs => by
      have := lt_of_get hs
      simp only [ofExpr, List.length_singleton] at this
      obtain rfl : i = 0 := by omega
      cases hs
      exact hv, rfl⟩
  | add pl l pr r =>
    obtain ⟨i1, i2, i3, i4⟩ := hin
    rw [Expr.value] at hv
    obtain ⟨x, hx, hv⟩ := Option.bind_eq_some_iff.1 hv
    obtain ⟨y, hy, hv⟩ := Option.bind_eq_some_iff.1 hv
    cases hv
    obtain ⟨v1, e1⟩ := visit_ok l pl [] [] _ x h0 i1 i3 hx
    obtain ⟨v2, e2⟩ := visit_ok r pr _ _ v1 y e1.ok i2 i4 hy
    refine fin _ v2 _ _ e2.ok.val ?_
    have h1 := e1.lt
    have h2 := e2.lt
    have h3 := e2.len
    refine ⟨by omega, h2, ?_⟩
    rw [Function.update_self, Function.update_of_ne (by omega), Function.update_of_ne (by omega), e2.val,
      e2.agree _ h1, e1.val]
  | mul pl l pr r =>
    obtain ⟨i1, i2, i3, i4⟩ := hin
    rw [Expr.value] at hv
    obtain ⟨x, hx, hv⟩ := Option.bind_eq_some_iff.1 hv
    obtain ⟨y, hy, hv⟩ := Option.bind_eq_some_iff.1 hv
    cases hv
    obtain ⟨v1, e1⟩ := visit_ok l pl [] [] _ x h0 i1 i3 hx
    obtain ⟨v2, e2⟩ := visit_ok r pr _ _ v1 y e1.ok i2 i4 hy
    refine fin _ v2 _ _ e2.ok.val ?_
    have h1 := e1.lt
    have h2 := e2.lt
    have h3 := e2.len
    refine ⟨by omega, h2, ?_⟩
    rw [Function.update_self, Function.update_of_ne (by omega), Function.update_of_ne (by omega), e2.val,
      e2.agree _ h1, e1.val]
  | pow pb b k =>
    obtain ⟨i1, i2⟩ := hin
    rw [Expr.value] at hv
    obtain ⟨x, hx, hv⟩ := Option.bind_eq_some_iff.1 hv
    cases hv
    obtain ⟨v1, e1⟩ := visit_ok b pb [] [] _ x h0 i1 i2 hx
    refine fin _ v1 _ _ e1.ok.val ?_
    have h1 := e1.lt
    refine ⟨h1, ?_⟩
    rw [Function.update_self, Function.update_of_ne (by omega), e1.val]

theorem value_total (e : Expr F) : ∃ N, ∀ q : List F, N ≤ q.length → ∃ a, e.value q = some a := by
  induction e with
  | const c => exact ⟨0, fun q _ => ⟨c, rfl⟩⟩
  | var x => exact ⟨x + 1, fun q h => ⟨q[x], List.getElem?_eq_getElem (by omega)⟩⟩
  | add _ l _ r ihl ihr =>
    obtain ⟨n, hn⟩ := ihl
    obtain ⟨m, hm⟩ := ihr
    refine ⟨max n m, fun q h => ?_⟩
    obtain ⟨a, ha⟩ := hn q (by omega)
    obtain ⟨b, hb⟩ := hm q (by omega)
    exact ⟨a + b, by rw [Expr.value, ha, hb]; rfl⟩
  | mul _ l _ r ihl ihr =>
    obtain ⟨n, hn⟩ := ihl
    obtain ⟨m, hm⟩ := ihr
    refine ⟨max n m, fun q h => ?_⟩
    obtain ⟨a, ha⟩ := hn q (by omega)
    obtain ⟨b, hb⟩ := hm q (by omega)
    exact ⟨a * b, by rw [Expr.value, ha, hb]; rfl⟩
  | pow _ b e ih =>
    obtain ⟨n, hn⟩ := ih
    refine ⟨n, fun q h => ?_⟩
    obtain ⟨a, ha⟩ := hn q h
    exact ⟨a ^ e, by rw [Expr.value, ha]; rfl⟩

theorem ofExpr_wf {H : Nat → Option (Expr F)} {e : Expr F} (hin : e.InMemory H) :
    ofExpr e ≠ [] ∧ WF (ofExpr e) := by
  obtain ⟨N, hN⟩ := value_total e
  obtain ⟨a, ha⟩ := hN (List.replicate N 0) (by simp)
  obtain ⟨h1, v, h2, -⟩ := ofExpr_val hin ha
  exact ⟨h1, h2.wf⟩

theorem InMemory.mono {H H' : Nat → Option (Expr F)} (h : ∀ p e, H p = some e → H' p = some e) {e : Expr F}
    (he : e.InMemory H) : e.InMemory H' := by
  induction e with
  | const c => trivial
  | var x => trivial
  | add pl l pr r ihl ihr => exact ⟨h _ _ he.1, h _ _ he.2.1, ihl he.2.2.1, ihr he.2.2.2⟩
  | mul pl l pr r ihl ihr => exact ⟨h _ _ he.1, h _ _ he.2.1, ihl he.2.2.1, ihr he.2.2.2⟩
  | pow pb b e ih => exact ⟨h _ _ he.1, ih he.2⟩

theorem nodesOf_append (c d : Circuit F) (nodes : List (Expr F)) :
    nodesOf (c ++ d) nodes = (nodesOf c nodes).bind (nodesOf d) := by
  induction c generalizing nodes with
  | nil => rfl
  | cons s c ih =>
    rw [List.cons_append, nodesOf, nodesOf]
    cases stepNode nodes s with
    | none => rfl
    | some v => exact ih _

theorem nodesOf_spec {c : Circuit F} (hc : WF c) : ∃ nodes, nodesOf c [] = some nodes ∧
    nodes.length = c.length ∧
    (∀ (i : Nat) e, nodes[i]? = some e → e.InMemory fun p => nodes[p]?) ∧
    ∀ q v, Val q c v → ∀ (i : Nat) e, nodes[i]? = some e → e.value q = some (v i) := by
  induction c using List.reverseRec with
  | nil => exact ⟨[], rfl, rfl, by simp, by simp⟩
  | append_singleton c s ih =>
    have hsub : ∀ (i : Nat) (t : Step F), c[i]? = some t → (c ++ [s])[i]? = some t := fun i t ht => by
      rw [List.getElem?_append_left (lt_of_get ht), ht]
    obtain ⟨nodes, h1, h2, h3, h4⟩ := ih fun i t ht => hc i t (hsub i t ht)
    have hs := hc c.length s (by simp)
    have get : ∀ r, r < c.length → ∃ e, nodes[r]? = some e := fun r hr =>
      ⟨_, List.getElem?_eq_getElem (by omega)⟩
    obtain ⟨e, he, hin, hval⟩ : ∃ e, stepNode nodes s = some e ∧ e.InMemory (fun p => nodes[p]?) ∧
        ∀ q v, Val q (c ++ [s]) v → e.value q = some (v c.length) := by
      have hv4 : ∀ q v, Val q (c ++ [s]) v → ∀ (i : Nat) e, nodes[i]? = some e → e.value q = some (v i) :=
        fun q v hv => h4 q v (Val.snoc.1 hv).1
      have hv5 : ∀ q v, Val q (c ++ [s]) v → StepVal q v c.length s := fun q v hv => (Val.snoc.1 hv).2
      cases s with
      | const a => exact ⟨_, rfl, trivial, fun q v hv => by
          have : v c.length = a := hv5 q v hv
          rw [this]; rfl⟩
      | var x => exact ⟨_, rfl, trivial, fun q v hv => hv5 q v hv⟩
      | add l r =>
        obtain ⟨e1, g1⟩ := get l (hs l (by simp [Step.refs]))
        obtain ⟨e2, g2⟩ := get r (hs r (by simp [Step.refs]))
        refine ⟨.add l e1 r e2, by rw [stepNode, g1, g2]; rfl, ⟨g1, g2, h3 l e1 g1, h3 r e2 g2⟩, fun q v hv => ?_⟩
        rw [Expr.value, hv4 q v hv l e1 g1, hv4 q v hv r e2 g2, (hv5 q v hv).2.2]
        rfl
      | mul l r =>
        obtain ⟨e1, g1⟩ := get l (hs l (by simp [Step.refs]))
        obtain ⟨e2, g2⟩ := get r (hs r (by simp [Step.refs]))
        refine ⟨.mul l e1 r e2, by rw [stepNode, g1, g2]; rfl, ⟨g1, g2, h3 l e1 g1, h3 r e2 g2⟩, fun q v hv => ?_⟩
        rw [Expr.value, hv4 q v hv l e1 g1, hv4 q v hv r e2 g2, (hv5 q v hv).2.2]
        rfl
      | pow b k =>
        obtain ⟨e1, g1⟩ := get b (hs b (by simp [Step.refs]))
        refine ⟨.pow b e1 k, by rw [stepNode, g1]; rfl, ⟨g1, h3 b e1 g1⟩, fun q v hv => ?_⟩
        rw [Expr.value, hv4 q v hv b e1 g1, (hv5 q v hv).2]
        rfl
    have hmono : ∀ p e', nodes[p]? = some e' → (nodes ++ [e])[p]? = some e' := fun p e' hp => by
      rw [List.getElem?_append_left (lt_of_get hp), hp]
    have hcase : ∀ (i : Nat) e', (nodes ++ [e])[i]? = some e' → nodes[i]? = some e' ∨ (i = c.length ∧ e' = e) := by
      intro i e' hi
      by_cases hlt : i < nodes.length
      · rw [List.getElem?_append_left hlt] at hi; exact Or.inl hi
      · have := lt_of_get hi
        simp at this
        have : i = nodes.length := by omega
        subst this
        simp at hi
        exact Or.inr ⟨h2, hi.symm⟩
    refine ⟨nodes ++ [e], ?_, by simp [h2], ?_, ?_⟩
    · rw [nodesOf_append, h1, Option.bind_some, nodesOf, he]; rfl
    · intro i e' hi
      refine InMemory.mono (H := fun p => nodes[p]?) (fun p e' hp => hmono p e' hp) ?_
      rcases hcase i e' hi with h | ⟨-, rfl⟩
      exacts [h3 i e' h, hin]
    · intro q v hv i e' hi
      rcases hcase i e' hi with h | ⟨rfl, rfl⟩
      exacts [h4 q v (Val.snoc.1 hv).1 i e' h, hval q v hv]

end Verif.Arith
