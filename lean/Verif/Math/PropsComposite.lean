import Verif.Math.ModelComposite
import Verif.Math.LemmasMle

/-! C86: composites of multilinear polynomials. -/

namespace Verif.Composite

open Verif.Mle

variable {F : Type} [CommRing F]

/-- A composition computes the function `g` in each lane of its arguments; with another number of them it is an error. -/
def Computes (c : Composition F) (g : List F → F) : Prop :=
  (∀ query, query.length = c.nVars → ∃ r, c.evaluate query = .ok r ∧ ∀ i, r i = g (query.map fun q => q i)) ∧
  ∀ query, query.length ≠ c.nVars → ∃ e, c.evaluate query = .error e

theorem mapM_ok {A B : Type} (l : List A) (f : A → Except Error B) (g : A → B) (h : ∀ a ∈ l, f a = .ok (g a)) :
    l.mapM f = .ok (l.map g) := by
  induction l with
  | nil => rfl
  | cons a l ih =>
    rw [List.mapM_cons, h a List.mem_cons_self, ih fun b hb => h b (List.mem_cons_of_mem _ hb)]
    rfl

theorem mapM_error {A B : Type} (l : List A) (f : A → Except Error B) (e : Error) (hl : l ≠ []) (h : ∀ a ∈ l, f a = .error e) :
    l.mapM f = .error e := by
  cases l with
  | nil => exact absurd rfl hl
  | cons a l => rw [List.mapM_cons, h a List.mem_cons_self]; rfl

theorem map_setSingle (l : List F) : ((l.map setSingle).map fun q => q 0) = l := by
  rw [List.map_map]
  exact (List.map_congr_left fun x _ => by simp [setSingle]).trans (List.map_id l)

theorem adapter_eq (c : Composition F) (g : List F → F) (hg : Computes c g) (query : List F) (h : query.length = c.nVars) :
    adapterEvaluate c query = .ok (g query) := by
  obtain ⟨r, h1, h2⟩ := hg.1 (query.map setSingle) (by rw [List.length_map, h])
  rw [adapterEvaluate, h1]
  show Except.ok (r 0) = _
  rw [h2 0, map_setSingle]

/-- C86: the adapter of a composition to single field elements computes the same function, and is an error with another number
of them. -/
theorem C86_adapter (c : Composition F) (g : List F → F) (hg : Computes c g) (query : List F) :
    (query.length = c.nVars → adapterEvaluate c query = .ok (g query)) ∧
    (query.length ≠ c.nVars → ∃ e, adapterEvaluate c query = .error e) := by
  refine ⟨adapter_eq c g hg query, fun h => ?_⟩
  obtain ⟨e, he⟩ := hg.2 (query.map setSingle) (by rw [List.length_map]; exact h)
  exact ⟨e, by rw [adapterEvaluate, he]; rfl⟩

/-- C86: a composite is made exactly if there are as many multilinears as variables of the composition, each in the given
number of variables. -/
theorem C86_new (n : Nat) (c : Composition F) (ms : List (Multilinear F)) :
    ((∃ p, MultilinearComposite.new n c ms = .ok p) ↔ ms.length = c.nVars ∧ ∀ m ∈ ms, m.nVars = n) ∧
    ∀ p, MultilinearComposite.new n c ms = .ok p → p = ⟨c, n, ms⟩ := by
  rw [MultilinearComposite.new]
  split
  · rename_i h
    exact ⟨⟨fun ⟨p, hp⟩ => (nomatch hp), fun hc => absurd hc.1.symm h⟩, fun p hp => nomatch hp⟩
  · rename_i h
    split
    · rename_i ha
      refine ⟨⟨fun ⟨p, hp⟩ => (nomatch hp), fun hc => ?_⟩, fun p hp => nomatch hp⟩
      obtain ⟨m, hm, hne⟩ := List.any_eq_true.1 ha
      exact absurd (hc.2 m hm) (by simpa using hne)
    · rename_i ha
      refine ⟨⟨fun _ => ⟨(not_not.1 h).symm, fun m hm => ?_⟩, fun _ => ⟨_, rfl⟩⟩, fun p hp => by cases hp; rfl⟩
      by_contra hne
      exact ha (List.any_eq_true.2 ⟨m, hm, by simpa using hne⟩)

/-- C86: the value of a composite at a point is that of the composition at the values of the multilinear extensions there; at a
vertex of the hypercube, of which the index is given, it is the composition of the values in the tables, and the same as at the
point with these coordinates. For a point with another number of coordinates, or an index out of range, it is an error unless
there are no multilinears. -/
theorem C86_evaluate (n : Nat) (c : Composition F) (g : List F → F) (hg : Computes c g) (ms : List (Multilinear F))
    (p : MultilinearComposite F) (hp : MultilinearComposite.new n c ms = .ok p) :
    (∀ point : List F, point.length = n → p.evaluate point = .ok (g (ms.map fun m => mle m.value point))) ∧
    (∀ index < 2 ^ n, p.evaluateOnHypercube index = .ok (g (ms.map fun m => m.value index)) ∧
      p.evaluateOnHypercube index = p.evaluate (vertex n index)) ∧
    (ms ≠ [] → (∀ point : List F, point.length ≠ n → p.evaluate point = .error .query) ∧
      ∀ index, 2 ^ n ≤ index → p.evaluateOnHypercube index = .error .query) := by
  obtain ⟨hlen, hn⟩ := (C86_new n c ms).1.1 ⟨p, hp⟩
  obtain rfl := (C86_new n c ms).2 p hp
  have heval : ∀ point : List F, point.length = n →
      MultilinearComposite.evaluate ⟨c, n, ms⟩ point = .ok (g (ms.map fun m => mle m.value point)) := by
    intro point hl
    rw [MultilinearComposite.evaluate, mapM_ok ms _ (fun m => setSingle (mle m.value point)) fun m hm => by
      rw [Multilinear.evaluate, if_neg (by rw [hn m hm, hl]; simp)]; rfl]
    have := adapter_eq c g hg (ms.map fun m => mle m.value point) (by rw [List.length_map, hlen])
    rw [adapterEvaluate, List.map_map] at this
    exact this
  have hcube : ∀ index < 2 ^ n,
      MultilinearComposite.evaluateOnHypercube ⟨c, n, ms⟩ index = .ok (g (ms.map fun m => m.value index)) := by
    intro index hi
    rw [MultilinearComposite.evaluateOnHypercube, mapM_ok ms _ (fun m => setSingle (m.value index)) fun m hm => by
      rw [Multilinear.evaluateOnHypercube, if_neg (by rw [hn m hm]; omega)]; rfl]
    have := adapter_eq c g hg (ms.map fun m => m.value index) (by rw [List.length_map, hlen])
    rw [adapterEvaluate, List.map_map] at this
    exact this
  refine ⟨heval, fun index hi => ⟨hcube index hi, ?_⟩, fun hne => ⟨fun point hl => ?_, fun index hi => ?_⟩⟩
  · rw [hcube index hi, heval _ (by simp [vertex])]
    congr 2
    exact List.map_congr_left fun m _ => (mle_vertex m.value n index hi).symm
  · rw [MultilinearComposite.evaluate, mapM_error ms _ .query hne fun m hm => by
      rw [Multilinear.evaluate, if_pos (by rw [hn m hm]; exact hl)]; rfl]
    rfl
  · rw [MultilinearComposite.evaluateOnHypercube, mapM_error ms _ .query hne fun m hm => by
      rw [Multilinear.evaluateOnHypercube, if_pos (by rw [hn m hm]; exact hi)]; rfl]
    rfl

/-- C86: fixing the low coordinates gives a valid composite in the others, whose value is that of the first at both together;
too many coordinates are an error, and a panic if there are no multilinears. -/
theorem C86_partial_low (n : Nat) (c : Composition F) (g : List F → F) (hg : Computes c g) (ms : List (Multilinear F))
    (p : MultilinearComposite F) (hp : MultilinearComposite.new n c ms = .ok p) (point : List F) :
    (point.length ≤ n → ∃ q, p.evaluatePartialLow point = .ok q ∧
      MultilinearComposite.new (n - point.length) c q.multilinears = .ok q ∧
      ∀ rest : List F, point.length + rest.length = n → q.evaluate rest = p.evaluate (point ++ rest)) ∧
    (n < point.length → p.evaluatePartialLow point = .error (if ms = [] then .panic else .query)) := by
  obtain ⟨hlen, hn⟩ := (C86_new n c ms).1.1 ⟨p, hp⟩
  have hpe := (C86_evaluate n c g hg ms p hp).1
  obtain rfl := (C86_new n c ms).2 p hp
  refine ⟨fun hl => ?_, fun hl => ?_⟩
  · let f : Multilinear F → Multilinear F := fun m =>
      ⟨m.nVars - point.length, fun j => mle (fun i => m.value (i + 2 ^ point.length * j)) point⟩
    have hnew : MultilinearComposite.new (n - point.length) c (ms.map f) = .ok ⟨c, n - point.length, ms.map f⟩ := by
      obtain ⟨q, hq⟩ := (C86_new (n - point.length) c (ms.map f)).1.2 ⟨by rw [List.length_map, hlen], fun m hm => by
        obtain ⟨m', hm', rfl⟩ := List.mem_map.1 hm
        show m'.nVars - point.length = _
        rw [hn m' hm']⟩
      rw [hq, (C86_new _ _ _).2 q hq]
    refine ⟨⟨c, n - point.length, ms.map f⟩, ?_, hnew, fun rest hr => ?_⟩
    · rw [MultilinearComposite.evaluatePartialLow, mapM_ok ms _ f fun m hm => by
        rw [Multilinear.evaluatePartialLow, if_neg (by rw [hn m hm]; omega)]]
      show (if n < point.length then _ else _) = _
      rw [if_neg (by omega)]
    · rw [(C86_evaluate _ c g hg _ _ hnew).1 rest (by omega), hpe _ (by rw [List.length_append, hr]), List.map_map]
      congr 2
      refine List.map_congr_left fun m _ => ?_
      rw [mle_append]
      rfl
  · rw [MultilinearComposite.evaluatePartialLow]
    by_cases hne : ms = []
    · subst hne
      show (if n < point.length then _ else _) = _
      rw [if_pos hl, if_pos rfl]
    · rw [mapM_error ms _ .query hne fun m hm => by
        rw [Multilinear.evaluatePartialLow, if_pos (by rw [hn m hm]; exact hl)], if_neg hne]
      rfl

/-- The product of two multilinears in one variable meets the hypotheses. -/
example : ∃ (c : Composition Int) (p : MultilinearComposite Int), Computes c List.prod ∧
    MultilinearComposite.new 1 c [⟨1, fun i => i + 1⟩, ⟨1, fun i => 3 * i⟩] = .ok p ∧ p.evaluateOnHypercube 1 = .ok 6 := by
  refine ⟨⟨2, 2, fun q => if q.length = 2 then .ok fun i => (q.map fun q => q i).prod else .error .query⟩, _,
    ⟨fun q h => ⟨_, if_pos h, fun _ => rfl⟩, fun q h => ⟨_, if_neg h⟩⟩, rfl, rfl⟩

end Verif.Composite
