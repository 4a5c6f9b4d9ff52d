import Verif.Compute.LemmasMemory

/-! Lemmas on the contents of packed memory. -/

namespace Verif.Compute

variable {F : Type} [Zero F]

/-- The region of a handle. -/
def View.region (v : View F) : Nat × Nat := (v.handle.start, v.handle.len)

/-- The handle is for whole packed elements or for part of one. -/
def View.Wf (w : Nat) : View F → Prop
  | .slice _ l => 2 ^ w ∣ l
  | .single _ len _ offset => offset + len ≤ 2 ^ w

/-- The handle has a copy. -/
def View.IsSingle : View F → Prop
  | .slice _ _ => False
  | .single _ _ _ _ => True

omit [Zero F] in
theorem copyBack_eq (w : Nat) (owned : Nat → F) (e o : Nat) : ∀ (n i : Nat) (m : Nat → F), i + n + o ≤ 2 ^ w →
    copyBack w owned e o i n m = some fun a => if e + o + i ≤ a ∧ a < e + o + i + n then owned (a - (e + o)) else m a
  | 0, i, m, _ => by
    rw [copyBack, Option.some_inj]
    funext a
    rw [if_neg (by omega)]
  | n + 1, i, m, h => by
    rw [copyBack, if_pos (by omega), copyBack_eq w owned e o n (i + 1) _ (by omega), Option.some_inj]
    funext a
    by_cases h1 : e + o + (i + 1) ≤ a ∧ a < e + o + (i + 1) + n
    · rw [if_pos h1, if_pos (by omega)]
    · rw [if_neg h1]
      by_cases h2 : a = e + (i + o)
      · rw [h2, Function.update_self, if_pos (by omega)]
        congr 1; omega
      · rw [Function.update_of_ne h2, if_neg (by omega)]

omit [Zero F] in
/-- Writing a copy back sets the region of the handle to what is seen through it. -/
theorem applyChanges_eq {w : Nat} {v : View F} (hv : v.Wf w) (m : Nat → F) : ∃ m', applyChanges w m v = some m' ∧
    (∀ i < v.handle.len, m' (v.handle.start + i) = readView m v i) ∧ (∀ a, ¬ v.handle.Covers a → m' a = m a) ∧
    (¬ v.IsSingle → m' = m) := by
  cases v with
  | slice s l => exact ⟨m, rfl, fun i _ => rfl, fun a _ => rfl, fun _ => rfl⟩
  | single owned len e o =>
    refine ⟨_, copyBack_eq w owned e o len 0 m (by have : o + len ≤ 2 ^ w := hv; omega), fun i hi => ?_, fun a ha => ?_,
      fun h => absurd trivial h⟩
    · show (if _ then _ else _) = owned i
      have hi : i < len := hi
      have e1 : e + o + 0 ≤ e + o + i ∧ e + o + i < e + o + 0 + len := by omega
      rw [show (View.single owned len e o).handle.start = e + o from rfl, if_pos e1]
      congr 1; omega
    · have : ¬ (e + o + 0 ≤ a ∧ a < e + o + 0 + len) := by
        intro hc; exact ha ⟨by show e + o ≤ a; omega, by show a < e + o + len; omega⟩
      show (if _ then _ else _) = _
      rw [if_neg this]

/-- The memory and the handles stand for the memory `A`. -/
structure Rel (w : Nat) (m : Nat → F) (vs : List (View F)) (A : Nat → F) : Prop where
  wf : ∀ v ∈ vs, v.Wf w
  apart : vs.Pairwise fun v v' => Apart v.handle v'.handle
  seen : ∀ v ∈ vs, ∀ i < v.handle.len, readView m v i = A (v.handle.start + i)
  rest : ∀ a, (∀ v ∈ vs, v.IsSingle → ¬ v.handle.Covers a) → m a = A a

theorem Apart.symm {h h' : Handle} (a : Apart h h') : Apart h' h := fun x hx => a x ⟨hx.2, hx.1⟩

omit [Zero F] in
theorem split_list {α : Type} {l : List α} {k : Nat} {v : α} (h : l[k]? = some v) : l = l.take k ++ v :: l.drop (k + 1) := by
  obtain ⟨hk, rfl⟩ := List.getElem?_eq_some_iff.1 h
  rw [← List.drop_eq_getElem_cons hk, List.take_append_drop]

omit [Zero F] in
/-- What is seen through a handle does not depend on memory elsewhere. -/
theorem readView_congr {m m' : Nat → F} {v : View F} (h : ∀ a, v.handle.Covers a → m' a = m a) {i : Nat}
    (hi : i < v.handle.len) : readView m' v i = readView m v i := by
  cases v with
  | slice s l => exact h _ ⟨by show s ≤ s + i; omega, by show s + i < s + l; have : i < l := hi; omega⟩
  | single => rfl

omit [Zero F] in
theorem rel_drop {w : Nat} {m A : Nat → F} {pre post : List (View F)} {v : View F} (h : Rel w m (pre ++ v :: post) A) :
    ∃ m', applyChanges w m v = some m' ∧ Rel w m' (pre ++ post) A ∧
      (∀ i < v.handle.len, m' (v.handle.start + i) = A (v.handle.start + i)) := by
  obtain ⟨m', h1, h2, h3, h4⟩ := applyChanges_eq (h.wf v (by simp)) m
  have hap := List.pairwise_append.1 h.apart
  have hap2 := List.pairwise_cons.1 hap.2.1
  have hmem : ∀ v' ∈ pre ++ post, v' ∈ pre ++ v :: post := by
    intro v' hv'
    rcases List.mem_append.1 hv' with h | h
    · exact List.mem_append_left _ h
    · exact List.mem_append_right _ (List.mem_cons_of_mem _ h)
  have hne : ∀ v' ∈ pre ++ post, Apart v'.handle v.handle := by
    intro v' hv'
    rcases List.mem_append.1 hv' with h | h
    · exact hap.2.2 v' h v (by simp)
    · exact (hap2.1 v' h).symm
  have hs : ∀ i < v.handle.len, m' (v.handle.start + i) = A (v.handle.start + i) := fun i hi =>
    (h2 i hi).trans (h.seen v (by simp) i hi)
  refine ⟨m', h1, ⟨fun v' hv' => h.wf v' (hmem v' hv'), ?_, fun v' hv' i hi => ?_, fun a ha => ?_⟩, hs⟩
  · exact List.pairwise_append.2 ⟨hap.1, hap2.2, fun x hx y hy => hap.2.2 x hx y (List.mem_cons_of_mem _ hy)⟩
  · rw [readView_congr (m := m) (fun a ha => h3 a fun hc => hne v' hv' a ⟨ha, hc⟩) hi]
    exact h.seen v' (hmem v' hv') i hi
  · by_cases hc : v.handle.Covers a
    · obtain ⟨c1, c2⟩ := hc
      have := hs (a - v.handle.start) (by omega)
      rwa [show v.handle.start + (a - v.handle.start) = a by omega] at this
    · rw [h3 a hc]
      refine h.rest a fun v' hv' hsg => ?_
      rcases List.mem_append.1 hv' with h' | h'
      · exact ha v' (List.mem_append_left _ h') hsg
      · rcases List.mem_cons.1 h' with rfl | h'
        · exact hc
        · exact ha v' (List.mem_append_right _ h') hsg

omit [Zero F] in
/-- Two handles for the halves of a region take the place of one that was dropped. -/
theorem rel_add {w : Nat} {m A : Nat → F} {pre post : List (View F)} {v x y : View F}
    (h0 : Rel w m (pre ++ v :: post) A) {m' : Nat → F} (h : Rel w m' (pre ++ post) A)
    (hx : x.Wf w) (hy : y.Wf w) (hcov : ∀ a, v.handle.Covers a ↔ x.handle.Covers a ∨ y.handle.Covers a)
    (hxy : Apart x.handle y.handle)
    (hsx : ∀ i < x.handle.len, readView m' x i = A (x.handle.start + i))
    (hsy : ∀ i < y.handle.len, readView m' y i = A (y.handle.start + i)) : Rel w m' (pre ++ x :: y :: post) A := by
  have hap := List.pairwise_append.1 h0.apart
  have hap2 := List.pairwise_cons.1 hap.2.1
  have hmem : ∀ v' ∈ pre ++ x :: y :: post, v' = x ∨ v' = y ∨ v' ∈ pre ++ post := by
    intro v' hv'
    rcases List.mem_append.1 hv' with h' | h'
    · exact Or.inr (Or.inr (List.mem_append_left _ h'))
    · rcases List.mem_cons.1 h' with h' | h'
      · exact Or.inl h'
      · rcases List.mem_cons.1 h' with h' | h'
        · exact Or.inr (Or.inl h')
        · exact Or.inr (Or.inr (List.mem_append_right _ h'))
  have hX : ∀ u : View F, Apart u.handle v.handle → Apart u.handle x.handle := fun u hu a ha =>
    hu a ⟨ha.1, (hcov a).2 (Or.inl ha.2)⟩
  have hY : ∀ u : View F, Apart u.handle v.handle → Apart u.handle y.handle := fun u hu a ha =>
    hu a ⟨ha.1, (hcov a).2 (Or.inr ha.2)⟩
  refine ⟨fun v' hv' => ?_, ?_, fun v' hv' => ?_, fun a ha => ?_⟩
  · rcases hmem v' hv' with rfl | rfl | h'
    · exact hx
    · exact hy
    · exact h.wf v' h'
  · refine List.pairwise_append.2 ⟨hap.1, List.pairwise_cons.2 ⟨fun u hu => ?_, List.pairwise_cons.2 ⟨fun u hu => ?_, hap2.2⟩⟩,
      fun u hu u' hu' => ?_⟩
    · rcases List.mem_cons.1 hu with rfl | hu
      · exact hxy
      · exact (hX u (hap2.1 u hu).symm).symm
    · exact (hY u (hap2.1 u hu).symm).symm
    · rcases List.mem_cons.1 hu' with rfl | hu'
      · exact hX u (hap.2.2 u hu v (by simp))
      · rcases List.mem_cons.1 hu' with rfl | hu'
        · exact hY u (hap.2.2 u hu v (by simp))
        · exact hap.2.2 u hu u' (List.mem_cons_of_mem _ hu')
  · rcases hmem v' hv' with rfl | rfl | h'
    · exact hsx
    · exact hsy
    · exact h.seen v' h'
  · refine h.rest a fun v' hv' => ha v' ?_
    rcases List.mem_append.1 hv' with h' | h'
    · exact List.mem_append_left _ h'
    · exact List.mem_append_right _ (List.mem_cons_of_mem _ (List.mem_cons_of_mem _ h'))

omit [Zero F] in
theorem rel_write {w : Nat} {m A : Nat → F} {pre post : List (View F)} {v : View F} (h : Rel w m (pre ++ v :: post) A)
    {i : Nat} (hi : i < v.handle.len) (x : F) :
    (writeView m v i x).2.handle = v.handle ∧
      Rel w (writeView m v i x).1 (pre ++ (writeView m v i x).2 :: post) (Function.update A (v.handle.start + i) x) := by
  have hap := List.pairwise_append.1 h.apart
  have hap2 := List.pairwise_cons.1 hap.2.1
  have hne : ∀ u ∈ pre ++ post, ∀ j < u.handle.len, u.handle.start + j ≠ v.handle.start + i := by
    intro u hu j hj he
    have hA : Apart u.handle v.handle := by
      rcases List.mem_append.1 hu with h | h
      · exact hap.2.2 u h v (by simp)
      · exact (hap2.1 u h).symm
    exact hA (v.handle.start + i) ⟨⟨by omega, by omega⟩, by omega, by omega⟩
  have hsingle : (writeView m v i x).2.IsSingle ↔ v.IsSingle := by cases v <;> exact Iff.rfl
  have hhandle : (writeView m v i x).2.handle = v.handle := by cases v <;> rfl
  have hwf : (writeView m v i x).2.Wf w := by
    have := h.wf v (by simp)
    cases v <;> exact this
  have hself : ∀ j < v.handle.len, readView (writeView m v i x).1 (writeView m v i x).2 j =
      Function.update A (v.handle.start + i) x (v.handle.start + j) := by
    intro j hj
    have hseen := h.seen v (by simp) j hj
    by_cases hji : j = i
    · subst hji
      rw [Function.update_self]
      cases v <;> exact Function.update_self _ _ _
    · rw [Function.update_of_ne (by omega), ← hseen]
      cases v with
      | slice s l => exact Function.update_of_ne (by omega) _ _
      | single => exact Function.update_of_ne hji _ _
  have hother : ∀ u ∈ pre ++ post, ∀ j < u.handle.len, readView (writeView m v i x).1 u j = readView m u j := by
    intro u hu j hj
    refine readView_congr (fun a ha => ?_) hj
    cases v with
    | slice s l =>
      have hj' : a - u.handle.start < u.handle.len := by have := ha.1; have := ha.2; omega
      have := hne u hu _ hj'
      have h1 := ha.1
      exact Function.update_of_ne (by show a ≠ s + i; intro e; exact this (by show _ = s + i; omega)) _ _
    | single => rfl
  have hcase : ∀ u ∈ pre ++ (writeView m v i x).2 :: post, u = (writeView m v i x).2 ∨ u ∈ pre ++ post := by
    intro u hu
    rcases List.mem_append.1 hu with h' | h'
    · exact Or.inr (List.mem_append_left _ h')
    · rcases List.mem_cons.1 h' with h' | h'
      · exact Or.inl h'
      · exact Or.inr (List.mem_append_right _ h')
  have hold : ∀ u ∈ pre ++ post, u ∈ pre ++ v :: post := by
    intro u hu
    rcases List.mem_append.1 hu with h | h
    · exact List.mem_append_left _ h
    · exact List.mem_append_right _ (List.mem_cons_of_mem _ h)
  refine ⟨hhandle, fun u hu => ?_, ?_, fun u hu j hj => ?_, fun a ha => ?_⟩
  · rcases hcase u hu with rfl | hu
    · exact hwf
    · exact h.wf u (hold u hu)
  · refine List.pairwise_append.2 ⟨hap.1, List.pairwise_cons.2 ⟨fun u hu => ?_, hap2.2⟩, fun u hu u' hu' => ?_⟩
    · rw [hhandle]; exact hap2.1 u hu
    · rcases List.mem_cons.1 hu' with rfl | hu'
      · rw [hhandle]; exact hap.2.2 u hu v (by simp)
      · exact hap.2.2 u hu u' (List.mem_cons_of_mem _ hu')
  · rcases hcase u hu with rfl | hu
    · rw [hhandle] at hj ⊢; exact hself j hj
    · rw [hother u hu j hj, h.seen u (hold u hu) j hj, Function.update_of_ne (hne u hu j hj)]
  · have hrest : ∀ b, (∀ u ∈ pre ++ (writeView m v i x).2 :: post, u.IsSingle → ¬ u.handle.Covers b) → m b = A b := by
      intro b hb
      refine h.rest b fun u hu hsg => ?_
      rcases List.mem_append.1 hu with h' | h'
      · exact hb u (List.mem_append_left _ h') hsg
      · rcases List.mem_cons.1 h' with rfl | h'
        · rw [← hhandle]; exact hb _ (List.mem_append_right _ (List.mem_cons_self ..)) (hsingle.2 hsg)
        · exact hb u (List.mem_append_right _ (List.mem_cons_of_mem _ h')) hsg
    have hA := hrest a ha
    cases v with
    | slice s l =>
      show Function.update m (s + i) x a = Function.update A (s + i) x a
      by_cases he : a = s + i
      · rw [he, Function.update_self, Function.update_self]
      · rw [Function.update_of_ne he, Function.update_of_ne he, hA]
    | single owned len e o =>
      show m a = Function.update A (e + o + i) x a
      rw [Function.update_of_ne, hA]
      intro he
      refine ha _ (List.mem_append_right _ (List.mem_cons_self ..)) trivial ⟨?_, ?_⟩
      · show e + o ≤ a; omega
      · show a < e + o + len
        have : i < len := hi
        omega

/-- Splitting does not change what the memory and the handles stand for. -/
theorem rel_split {w : Nat} {m A : Nat → F} {pre post : List (View F)} {v : View F} (h : Rel w m (pre ++ v :: post) A)
    {e : Nat} (he : v.handle.len = 2 ^ e) (h1 : 1 < v.handle.len) :
    ∃ m' x y, splitHalfView w m v = some (m', x, y) ∧ x.region = (v.handle.start, v.handle.len / 2) ∧
      y.region = (v.handle.start + v.handle.len / 2, v.handle.len / 2) ∧ Rel w m' (pre ++ x :: y :: post) A := by
  obtain ⟨m', g1, g2, g3⟩ := rel_drop h
  have hwf := h.wf v (by simp)
  obtain ⟨e, rfl⟩ : ∃ e', e = e' + 1 := by
    cases e with
    | zero => rw [he] at h1; simp at h1
    | succ e => exact ⟨e, rfl⟩
  have hhalf : v.handle.len / 2 = 2 ^ e := by rw [he, pow_succ]; exact Nat.mul_div_cancel _ (by omega)
  have hdouble : v.handle.len = 2 ^ e + 2 ^ e := by rw [he, pow_succ]; omega
  have hpos := Nat.two_pow_pos e
  -- the handles and what is seen through them
  suffices H : ∃ x y, splitHalfView w m v = some (m', x, y) ∧ x.region = (v.handle.start, 2 ^ e) ∧
      y.region = (v.handle.start + 2 ^ e, 2 ^ e) ∧ x.Wf w ∧ y.Wf w ∧
      (∀ i < 2 ^ e, readView m' x i = A (v.handle.start + i)) ∧
      (∀ i < 2 ^ e, readView m' y i = A (v.handle.start + 2 ^ e + i)) by
    obtain ⟨x, y, k1, k2, k3, k4, k5, k6, k7⟩ := H
    have x1 : x.handle.start = v.handle.start := congrArg Prod.fst k2
    have x2 : x.handle.len = 2 ^ e := congrArg Prod.snd k2
    have y1 : y.handle.start = v.handle.start + 2 ^ e := congrArg Prod.fst k3
    have y2 : y.handle.len = 2 ^ e := congrArg Prod.snd k3
    refine ⟨m', x, y, k1, by rw [hhalf, k2], by rw [hhalf, k3], rel_add h g2 k4 k5 (fun a => ?_) (fun a ha => ?_) ?_ ?_⟩
    · unfold Handle.Covers; rw [x1, x2, y1, y2, hdouble]; omega
    · unfold Handle.Covers at ha; rw [x1, x2, y1, y2] at ha; omega
    · rw [x1, x2]; exact k6
    · rw [y1, y2]; exact k7
  have hcond : (strictLog2 v.handle.len).isSome ∧ 1 < v.handle.len := ⟨by rw [strictLog2_eq.2 he]; rfl, h1⟩
  rw [splitHalfView, if_pos hcond, g1, Option.bind_some]
  cases v with
  | slice s l =>
    dsimp only
    have hl : l = 2 ^ (e + 1) := he
    have hd : 2 ^ w ∣ l := hwf
    have hw : w ≤ e + 1 := by
      rw [hl] at hd
      exact (Nat.pow_dvd_pow_iff_le_right (by omega)).1 hd
    have hdiv : l / 2 ^ w = 2 ^ (e + 1 - w) := by rw [hl, Nat.pow_div hw (by omega)]
    have hg3 : ∀ i < l, m' (s + i) = A (s + i) := g3
    have hl2 : l = 2 ^ e + 2 ^ e := hdouble
    by_cases hw' : w = e + 1
    · have hd1 : l / 2 ^ w = 1 := by rw [hdiv, hw', Nat.sub_self, pow_zero]
      have hW : 2 ^ w / 2 = 2 ^ e := by rw [hw', pow_succ]; exact Nat.mul_div_cancel _ (by omega)
      have hWW : 2 ^ w = 2 ^ e + 2 ^ e := by rw [hw', pow_succ]; omega
      rw [if_neg (by omega), if_pos hd1]
      refine ⟨_, _, rfl, ?_, ?_, ?_, ?_, fun i hi => ?_, fun i hi => ?_⟩
      · show (s + 0, 2 ^ w / 2) = _; rw [hW]; rfl
      · show (s + 2 ^ w / 2, 2 ^ w / 2) = _; rw [hW]; rfl
      · show 0 + 2 ^ w / 2 ≤ 2 ^ w; omega
      · show 2 ^ w / 2 + 2 ^ w / 2 ≤ 2 ^ w; omega
      · show newFromSlice m' s 0 (2 ^ w / 2) i = _
        rw [newFromSlice, if_pos (by omega), Nat.add_zero]
        exact hg3 i (by omega)
      · show newFromSlice m' s (2 ^ w / 2) (2 ^ w / 2) i = _
        rw [newFromSlice, if_pos (by omega), hW, Nat.add_assoc]
        show _ = A (s + 2 ^ e + i)
        rw [Nat.add_assoc]
        exact hg3 _ (by omega)
    · have hgt : 1 < l / 2 ^ w := by rw [hdiv]; exact Nat.one_lt_two_pow (by omega)
      have hmid : l / 2 ^ w / 2 * 2 ^ w = 2 ^ e := by
        rw [hdiv, show e + 1 - w = (e - w) + 1 by omega, pow_succ, Nat.mul_div_cancel _ (by omega), ← pow_add]
        congr 1; omega
      rw [if_pos hgt, hmid]
      have hsub : l - 2 ^ e = 2 ^ e := by omega
      refine ⟨_, _, rfl, rfl, ?_, ?_, ?_, fun i hi => ?_, fun i hi => ?_⟩
      · show (s + 2 ^ e, l - 2 ^ e) = _; rw [hsub]; rfl
      · exact pow_dvd_pow 2 (by omega)
      · show 2 ^ w ∣ l - 2 ^ e; rw [hsub]; exact pow_dvd_pow 2 (by omega)
      · exact hg3 i (by omega)
      · show m' (s + 2 ^ e + i) = A (s + 2 ^ e + i)
        rw [Nat.add_assoc]; exact hg3 _ (by omega)
  | single owned len el o =>
    dsimp only
    have hlen : len = 2 ^ e + 2 ^ e := hdouble
    have hle : o + len ≤ 2 ^ w := hwf
    have hh : len / 2 = 2 ^ e := hhalf
    have hsub : len - 2 ^ e = 2 ^ e := by omega
    have hseen : ∀ i < len, owned i = A (el + o + i) := h.seen (.single owned len el o) (by simp)
    rw [hh]
    refine ⟨_, _, rfl, rfl, ?_, ?_, ?_, fun i hi => ?_, fun i hi => ?_⟩
    · show (el + (o + 2 ^ e), len - 2 ^ e) = (el + o + 2 ^ e, 2 ^ e)
      rw [hsub, Nat.add_assoc]
    · show o + 2 ^ e ≤ 2 ^ w; omega
    · show o + 2 ^ e + (len - 2 ^ e) ≤ 2 ^ w; omega
    · exact hseen i (by omega)
    · show subrange owned (2 ^ e) len i = A (el + o + 2 ^ e + i)
      rw [subrange, if_neg (by omega), if_pos (by omega), hseen _ (by omega), Nat.add_assoc]
      congr 1; omega

theorem isPowerOfTwo_iff {n : Nat} : n.isPowerOfTwo ↔ ∃ e, n = 2 ^ e := Iff.rfl

/-- One operation refines its meaning. -/
theorem step_refines {w : Nat} {m A : Nat → F} {vs : List (View F)} (h : Rel w m vs A) (op : ViewOp F) :
    (∃ m' vs' A', stepView w m vs op = some (m', vs') ∧ specStep A (vs.map View.region) op = some (A', vs'.map View.region) ∧
      Rel w m' vs' A') ∨ (stepView w m vs op = none ∧ specStep A (vs.map View.region) op = none) := by
  cases op with
  | splitHalf k =>
    rw [stepView, specStep, List.getElem?_map]
    cases hk : vs[k]? with
    | none => exact Or.inr ⟨rfl, rfl⟩
    | some v =>
      have hsplit := split_list hk
      simp only [Option.bind_some, Option.map_some]
      by_cases hc : (∃ e, v.handle.len = 2 ^ e) ∧ 1 < v.handle.len
      · obtain ⟨⟨e, he⟩, h1⟩ := hc
        rw [hsplit] at h
        obtain ⟨m', x, y, g1, g2, g3, g4⟩ := rel_split h he h1
        refine Or.inl ⟨m', _, A, by rw [g1, Option.bind_some], ?_, g4⟩
        have hr : v.region = (v.handle.start, v.handle.len) := rfl
        rw [hr]
        dsimp only
        rw [if_pos ⟨isPowerOfTwo_iff.2 ⟨e, he⟩, h1⟩, List.map_append, List.map_cons, List.map_cons, g2, g3, List.map_take, List.map_drop]
      · refine Or.inr ⟨?_, ?_⟩
        · rw [splitHalfView, if_neg, Option.bind_none]
          rintro ⟨h1, h2⟩
          obtain ⟨e, he⟩ := Option.isSome_iff_exists.1 h1
          exact hc ⟨⟨e, strictLog2_eq.1 he⟩, h2⟩
        · have hr : v.region = (v.handle.start, v.handle.len) := rfl
          rw [hr]
          dsimp only
          rw [if_neg]
          rintro ⟨h1, h2⟩
          exact hc ⟨h1, h2⟩
  | write k i x =>
    rw [stepView, specStep, List.getElem?_map]
    cases hk : vs[k]? with
    | none => exact Or.inr ⟨rfl, rfl⟩
    | some v =>
      have hsplit := split_list hk
      have hr : v.region = (v.handle.start, v.handle.len) := rfl
      simp only [Option.bind_some, Option.map_some]
      rw [hr]
      dsimp only
      by_cases hi : i < v.handle.len
      · rw [if_pos hi, if_pos hi]
        rw [hsplit] at h
        obtain ⟨g1, g2⟩ := rel_write h hi x
        refine Or.inl ⟨_, _, _, rfl, ?_, g2⟩
        congr 2
        conv_lhs => rw [hsplit]
        rw [List.map_append, List.map_append, List.map_cons, List.map_cons]
        congr 2
        unfold View.region
        rw [g1]
      · rw [if_neg hi, if_neg hi]
        exact Or.inr ⟨rfl, rfl⟩
  | drop k =>
    rw [stepView, specStep, List.getElem?_map]
    cases hk : vs[k]? with
    | none => exact Or.inr ⟨rfl, rfl⟩
    | some v =>
      have hsplit := split_list hk
      simp only [Option.bind_some, Option.map_some]
      rw [hsplit] at h
      obtain ⟨m', g1, g2, -⟩ := rel_drop h
      refine Or.inl ⟨m', _, A, by rw [g1, Option.bind_some], ?_, g2⟩
      rw [List.map_append, List.map_take, List.map_drop]

theorem run_refines {w : Nat} : ∀ (ops : List (ViewOp F)) {m A : Nat → F} {vs : List (View F)}, Rel w m vs A →
    (∃ m' vs' A', runView w m vs ops = some (m', vs') ∧ specRun A (vs.map View.region) ops = some (A', vs'.map View.region) ∧
      Rel w m' vs' A') ∨ (runView w m vs ops = none ∧ specRun A (vs.map View.region) ops = none)
  | [], m, A, vs, h => Or.inl ⟨m, vs, A, rfl, rfl, h⟩
  | op :: ops, m, A, vs, h => by
    rw [runView, specRun]
    rcases step_refines h op with ⟨m', vs', A', h1, h2, h3⟩ | ⟨h1, h2⟩
    · rw [h1, h2]
      exact run_refines ops h3
    · rw [h1, h2]
      exact Or.inr ⟨rfl, rfl⟩

end Verif.Compute
