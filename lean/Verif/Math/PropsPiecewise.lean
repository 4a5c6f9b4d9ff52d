import Verif.Math.ModelPiecewise
import Verif.Math.LemmasMle

/-! C22: piecewise multilinear evaluation. -/

set_option linter.unusedSectionVars false

namespace Verif.Piecewise

open Verif.Mle Finset

variable {F : Type*} [CommRing F]

/-- A piece: its number of variables and its table. -/
abbrev Piece (F : Type*) := Nat × (Nat → F)

/-- The concatenation of the tables of the pieces, followed by zeros. -/
def concat : List (Piece F) → Nat → F
  | [], _ => 0
  | p :: ps, x => if x < 2 ^ p.1 then p.2 x else concat ps (x - 2 ^ p.1)

theorem foldSegment_eq (base len : Nat) (z : F) (ev : Slice F) (h : base + len ≤ ev.size) :
    ∃ ev', foldSegment base len z ev = some ev' ∧ ev'.size = ev.size ∧
      (∀ x < base, ev'.val x = ev.val x) ∧
      ∀ i < (len + 1) / 2, ev'.val (base + i) = (1 - z) * ev.val (base + 2 * i) +
        z * if 2 * i + 1 < len then ev.val (base + (2 * i + 1)) else 0 := by
  have main := forRange_inv (n := len / 2) (s := ev)
    (body := fun i ev =>
      (ev.get? (base + 2 * i)).bind fun a => (ev.get? (base + (2 * i + 1))).bind fun b =>
        ev.set? (base + i) (line a b z))
    (fun k (o : Slice F) => o.size = ev.size ∧ (∀ x, x < base ∨ base + k ≤ x → o.val x = ev.val x) ∧
      ∀ i < k, o.val (base + i) = line (ev.val (base + 2 * i)) (ev.val (base + (2 * i + 1))) z)
    ⟨rfl, fun _ _ => rfl, fun i hi => by omega⟩ (by
    rintro k hk o ⟨hs, h1, h2⟩
    refine ⟨⟨o.size, fun x => if x = base + k then
      line (ev.val (base + 2 * k)) (ev.val (base + (2 * k + 1))) z else o.val x⟩, ?_, hs,
      fun x hx => ?_, fun i hi => ?_⟩
    · rw [Slice.get?_of_lt (by omega), Option.bind_some, Slice.get?_of_lt (by omega), Option.bind_some,
        Slice.set?_of_lt (by omega), h1 _ (by omega), h1 _ (by omega)]
    · show (if x = base + k then _ else _) = _
      rw [if_neg (by omega), h1 x (by omega)]
    · show (if base + i = base + k then _ else _) = _
      by_cases hik : i = k
      · rw [if_pos (by omega), hik]
      · rw [if_neg (by omega), h2 i (by omega)])
  obtain ⟨o, e, hs, h1, h2⟩ := main
  unfold foldSegment
  rw [e, Option.bind_some]
  have hline : ∀ a b : F, line a b z = (1 - z) * a + z * b := fun a b => by unfold line; ring
  by_cases hodd : len % 2 = 1
  · rw [if_pos hodd, Slice.get?_of_lt (by omega), Option.bind_some, Slice.set?_of_lt (by omega)]
    refine ⟨⟨o.size, fun x => if x = base + len / 2 then line (o.val (base + 2 * (len / 2))) 0 z
      else o.val x⟩, rfl, hs, fun x hx => ?_, fun i hi => ?_⟩
    · show (if x = base + len / 2 then _ else _) = _
      rw [if_neg (by omega), h1 x (by omega)]
    · show (if base + i = base + len / 2 then _ else _) = _
      by_cases hil : i = len / 2
      · rw [if_pos (by omega), hline, hil, if_neg (by omega), h1 _ (by omega)]
      · rw [if_neg (by omega), h2 i (by omega), hline, if_pos (by omega)]
  · rw [if_neg hodd]
    refine ⟨o, rfl, hs, fun x hx => h1 x (by omega), fun i hi => ?_⟩
    rw [h2 i (by omega), hline, if_pos (by omega)]

/-- Pairs of `i`-variable tables joined into `i+1`-variable tables. -/
def pairUp (i : Nat) : List (Nat → F) → List (Nat → F)
  | [] => []
  | [t] => [fun x => if x < 2 ^ i then t x else 0]
  | t :: u :: ts => (fun x => if x < 2 ^ i then t x else u (x - 2 ^ i)) :: pairUp i ts

theorem pairUp_length (i : Nat) (l : List (Nat → F)) : (pairUp i l).length = (l.length + 1) / 2 := by
  induction l using pairUp.induct with
  | case1 => simp [pairUp]
  | case2 t => simp [pairUp]
  | case3 t u ts ih => simp only [pairUp, List.length_cons, ih]; omega

theorem concat_append (a b c : List (Piece F)) (h : ∀ x, concat b x = concat c x) (x : Nat) :
    concat (a ++ b) x = concat (a ++ c) x := by
  induction a generalizing x with
  | nil => exact h x
  | cons p a ih => rw [List.cons_append, List.cons_append, concat, concat, ih]

theorem concat_pairUp (i : Nat) (l : List (Nat → F)) (x : Nat) :
    concat ((pairUp i l).map fun t => (i + 1, t)) x = concat (l.map fun t => (i, t)) x := by
  have h2 : 2 ^ (i + 1) = 2 ^ i + 2 ^ i := by rw [Nat.pow_succ]; omega
  induction l using pairUp.induct generalizing x with
  | case1 => rfl
  | case2 t =>
    simp only [pairUp, List.map_cons, List.map_nil, concat]
    by_cases h : x < 2 ^ i
    · rw [if_pos (by omega), if_pos h]
    · rw [if_neg h, ite_self]
  | case3 t u ts ih =>
    simp only [pairUp, List.map_cons, concat, ih]
    by_cases h : x < 2 ^ i
    · rw [if_pos (show x < 2 ^ (i + 1) by omega), if_pos h, if_pos h]
    · rw [if_neg h, if_neg h]
      by_cases h' : x < 2 ^ (i + 1)
      · rw [if_pos h', if_pos (by omega)]
      · rw [if_neg h', if_neg (by omega), h2, Nat.sub_sub]

/-- The evaluation of joined tables. -/
theorem pairUp_eval (i : Nat) (l : List (Nat → F)) (ps : List F) (r : F) (hps : ps.length = i) (k : Nat)
    (hk : k < (pairUp i l).length) :
    mle ((pairUp i l)[k]) (ps ++ [r]) = (1 - r) * mle (l.getD (2 * k) 0) ps +
      r * if 2 * k + 1 < l.length then mle (l.getD (2 * k + 1) 0) ps else 0 := by
  induction l using pairUp.induct generalizing k with
  | case1 => simp [pairUp] at hk
  | case2 t =>
    have : k = 0 := by simpa [pairUp] using hk
    subst this
    simp only [pairUp, List.getElem_cons_zero]
    rw [mle_snoc, hps, mle_congr (w := t) (fun x hx => by rw [if_pos (by rw [hps] at hx; exact hx)])]
    rw [mle_congr (v := fun j => if j + 2 ^ i < 2 ^ i then t (j + 2 ^ i) else 0) (w := fun _ => 0)
      (fun x _ => by rw [if_neg (by omega)]), mle_zero]
    simp
  | case3 t u ts ih =>
    cases k with
    | zero =>
      simp only [pairUp, List.getElem_cons_zero]
      rw [mle_snoc, hps, mle_congr (w := t) (fun x hx => by rw [if_pos (by rw [hps] at hx; exact hx)]),
        mle_congr (v := fun i_1 => if i_1 + 2 ^ i < 2 ^ i then t (i_1 + 2 ^ i) else u (i_1 + 2 ^ i - 2 ^ i))
          (w := u) (fun x _ => by rw [if_neg (by omega), Nat.add_sub_cancel])]
      simp
    | succ k =>
      simp only [pairUp, List.getElem_cons_succ]
      rw [ih k (by simpa [pairUp] using hk)]
      have e1 : 2 * (k + 1) = 2 * k + 1 + 1 := by omega
      rw [e1]
      simp only [List.getD_cons_succ, List.length_cons]
      by_cases hc : 2 * k + 1 < ts.length
      · rw [if_pos hc, if_pos (by omega)]
      · rw [if_neg hc, if_neg (by omega)]

theorem filter_split (P : List (Piece F)) (hP : P.Pairwise fun a b => b.1 ≤ a.1) (i : Nat) :
    P.filter (fun p => i ≤ p.1) = P.filter (fun p => i + 1 ≤ p.1) ++ P.filter (fun p => p.1 = i) := by
  induction P with
  | nil => rfl
  | cons p P ih =>
    rw [List.pairwise_cons] at hP
    have ih := ih hP.2
    by_cases h1 : i + 1 ≤ p.1
    · rw [List.filter_cons_of_pos (by simpa using (by omega : i ≤ p.1)),
        List.filter_cons_of_pos (by simpa using h1), List.filter_cons_of_neg (by simp; omega), ih]
      rfl
    · have hnil : P.filter (fun q => i + 1 ≤ q.1) = [] := by
        rw [List.filter_eq_nil_iff]
        intro q hq
        have := hP.1 q hq
        simp; omega
      rw [List.filter_cons_of_neg (a := p) (p := fun q => decide (i + 1 ≤ q.1)) (by simpa using h1), hnil]
      rw [hnil] at ih
      by_cases h2 : p.1 = i
      · rw [List.filter_cons_of_pos (by simp; omega), List.filter_cons_of_pos (by simpa using h2), ih]
        rfl
      · rw [List.filter_cons_of_neg (by simp; omega), List.filter_cons_of_neg (by simpa using h2), ih]

/-- The number of entries of a list of pieces. -/
def len (l : List (Piece F)) : Nat := (l.map fun p => 2 ^ p.1).sum

theorem len_append (a b : List (Piece F)) : len (a ++ b) = len a + len b := by simp [len]

theorem len_const (i : Nat) (l : List (Nat → F)) : len (l.map fun t => (i, t)) = l.length * 2 ^ i := by
  unfold len
  rw [List.map_map]
  induction l with
  | nil => simp
  | cons t l ih =>
    rw [List.map_cons, List.sum_cons, ih, List.length_cons, Nat.succ_mul, Nat.add_comm]
    rfl

theorem len_dvd (i : Nat) (l : List (Piece F)) (h : ∀ p ∈ l, i ≤ p.1) : 2 ^ i ∣ len l := by
  induction l with
  | nil => exact Nat.dvd_zero _ |>.trans (by simp [len])
  | cons p l ih =>
    have : len (p :: l) = 2 ^ p.1 + len l := by simp [len]
    rw [this]
    exact Nat.dvd_add (Nat.pow_dvd_pow 2 (h p List.mem_cons_self))
      (ih fun q hq => h q (List.mem_cons_of_mem _ hq))

/-- The loop: `P` are the pieces, `Q` the tables folded so far. -/
theorem pwLoop_eq (counts : List Nat) (P : List (Piece F)) (hP : P.Pairwise fun a b => b.1 ≤ a.1)
    (hc : ∀ i, counts.getD i 0 = (P.filter fun p => p.1 = i).length) (point : List F) :
    ∀ (rs done : List F) (Q : List (Nat → F)) (ev : Slice F),
      done ++ rs = point →
      (∀ x, concat (P.filter (fun p => done.length ≤ p.1) ++ Q.map fun t => (done.length, t)) x = concat P x) →
      len (P.filter (fun p => done.length ≤ p.1)) + Q.length * 2 ^ done.length ≤ 2 ^ point.length →
      0 < (P.filter (fun p => done.length ≤ p.1)).length + Q.length →
      (P.filter (fun p => done.length ≤ p.1)).length + Q.length ≤ ev.size →
      (∀ k (hk : k < (P.filter (fun p => done.length ≤ p.1)).length), ev.val k =
        mle ((P.filter (fun p => done.length ≤ p.1))[k]).2
          (point.take ((P.filter (fun p => done.length ≤ p.1))[k]).1)) →
      (∀ k (hk : k < Q.length), ev.val ((P.filter (fun p => done.length ≤ p.1)).length + k) = mle Q[k] done) →
      ∃ ev', pwLoop counts done.length rs ((P.filter (fun p => done.length ≤ p.1)).length + Q.length)
          Q.length ev = some ev' ∧ ev'.size = ev.size ∧ ev'.val 0 = mle (concat P) point := by
  intro rs
  induction rs with
  | nil =>
    intro done Q ev hd hcon hlen hpos hsz hA hQ
    rw [List.append_nil] at hd
    subst hd
    refine ⟨ev, rfl, rfl, ?_⟩
    have hpow := Nat.two_pow_pos done.length
    cases hL : P.filter (fun p => done.length ≤ p.1) with
    | nil =>
      rw [hL] at hcon hlen hpos hQ
      cases Q with
      | nil => simp at hpos
      | cons t Q =>
        have h0 := hQ 0 (by simp)
        rw [List.getElem_cons_zero] at h0
        have : ev.val 0 = mle t done := h0
        rw [this]
        refine mle_congr fun x hx => ?_
        rw [← hcon x]
        simp only [List.nil_append, List.map_cons, concat]
        rw [if_pos hx]
    | cons p A =>
      rw [hL] at hcon hlen
      have hpmem : p ∈ P.filter (fun p => done.length ≤ p.1) := by rw [hL]; exact List.mem_cons_self
      have hp1 : done.length ≤ p.1 := by simpa using (List.mem_filter.1 hpmem).2
      have hp2 : p.1 = done.length := by
        by_contra hne
        have : 2 ^ (done.length + 1) ≤ 2 ^ p.1 := Nat.pow_le_pow_right (by omega) (by omega)
        have h3 : len (p :: A) = 2 ^ p.1 + len A := by simp [len]
        rw [h3] at hlen
        rw [Nat.pow_succ] at this
        omega
      have h0 := hA 0 (by rw [hL]; simp)
      simp only [hL, List.getElem_cons_zero] at h0
      rw [h0, hp2, List.take_length]
      refine mle_congr fun x hx => ?_
      rw [← hcon x]
      simp only [List.cons_append, concat]
      rw [if_pos (by rw [hp2]; exact hx)]
  | cons r rs ih =>
    intro done Q ev hd hcon hlen hpos hsz hA hQ
    set i := done.length with hi
    set A := P.filter (fun p => i + 1 ≤ p.1) with hAdef
    set B := P.filter (fun p => p.1 = i) with hB
    have hsplit : P.filter (fun p => i ≤ p.1) = A ++ B := filter_split P hP i
    set S : List (Nat → F) := B.map Prod.snd ++ Q with hS
    have hSlen : S.length = B.length + Q.length := by simp [hS]
    have hBmap : B = (B.map Prod.snd).map fun t => (i, t) := by
      rw [List.map_map]
      refine Eq.trans (List.map_id B).symm (List.map_congr_left fun p hp => ?_)
      have : p.1 = i := by simpa using (List.mem_filter.1 hp).2
      rw [← this]; rfl
    have hcat : A ++ B ++ Q.map (fun t => (i, t)) = A ++ S.map fun t => (i, t) := by
      rw [hS, List.map_append, ← hBmap, List.append_assoc]
    rw [hsplit] at hcon hlen hpos hsz hA hQ ⊢
    rw [hcat] at hcon
    rw [List.length_append] at hpos hsz hQ ⊢
    have hdone1 : (done ++ [r]).length = i + 1 := by simp [hi]
    have hpoint : point = done ++ [r] ++ rs := by rw [← hd]; simp
    -- the segment
    have hSev : ∀ k (hk : k < S.length), ev.val (A.length + k) = mle (S.getD k 0) done := by
      intro k hk
      by_cases hkB : k < B.length
      · have h1 := hA (A.length + k) (by rw [List.length_append]; omega)
        rw [List.getElem_append_right (by omega)] at h1
        simp only [Nat.add_sub_cancel_left] at h1
        have hBk : (B[k]).1 = i := by
          simpa using (List.mem_filter.1 (List.getElem_mem hkB)).2
        rw [h1, hBk, ← hd, hi, List.take_left]
        congr 1
        simp [hS, hkB, List.getElem?_append_left]
      · have h1 := hQ (k - B.length) (by omega)
        rw [show A.length + B.length + (k - B.length) = A.length + k by omega] at h1
        rw [h1]
        congr 1
        have : k - B.length < Q.length := by omega
        rw [hS, List.getD_eq_getElem?_getD, List.getElem?_append_right (by simpa using hkB)]
        simp [this]
    obtain ⟨ev1, e1, s1, lo1, hi1⟩ := foldSegment_eq A.length S.length r ev (by omega)
    rw [pwLoop, hc i, ← hB]
    have hnf : Q.length + B.length = S.length := by omega
    rw [hnf, if_neg (by omega), show A.length + B.length + Q.length - S.length = A.length by omega, e1,
      Option.bind_some]
    have hdvdA : 2 ^ (i + 1) ∣ len A := len_dvd (i + 1) A fun p hp => by
      simpa using (List.mem_filter.1 hp).2
    have hn : i + 1 ≤ point.length := by rw [hpoint]; simp [hi]
    have hlenS : len A + (S.length + 1) / 2 * 2 ^ (i + 1) ≤ 2 ^ point.length := by
      have hle : len A + S.length * 2 ^ i ≤ 2 ^ point.length := by
        have : len (A ++ B) = len A + B.length * 2 ^ i := by
          rw [len_append]
          congr 1
          conv_lhs => rw [hBmap]
          rw [len_const, List.length_map]
        rw [this] at hlen
        rw [hSlen, Nat.add_mul]
        omega
      obtain ⟨a, ha⟩ := hdvdA
      have hp2 : 2 ^ point.length = 2 ^ (i + 1) * 2 ^ (point.length - (i + 1)) := by
        rw [← Nat.pow_add]; congr 1; omega
      rw [ha, hp2] at hle ⊢
      set b := 2 ^ (point.length - (i + 1))
      have hpi := Nat.two_pow_pos i
      rw [Nat.pow_succ] at hle ⊢
      have hle2 : 2 ^ i * (2 * a + S.length) ≤ 2 ^ i * (2 * b) := by
        calc 2 ^ i * (2 * a + S.length) = 2 ^ i * 2 * a + S.length * 2 ^ i := by ring
          _ ≤ 2 ^ i * 2 * b := hle
          _ = _ := by ring
      have h3 := Nat.le_of_mul_le_mul_left hle2 hpi
      have h4 : a + (S.length + 1) / 2 ≤ b := by omega
      calc 2 ^ i * 2 * a + (S.length + 1) / 2 * (2 ^ i * 2) = 2 ^ i * 2 * (a + (S.length + 1) / 2) := by ring
        _ ≤ _ := Nat.mul_le_mul_left _ h4
    have key := ih (done ++ [r]) (pairUp i S) ev1 hpoint.symm
    rw [hdone1] at key
    have hceil : S.length - S.length / 2 = (S.length + 1) / 2 := by omega
    have hplen := pairUp_length i S
    rw [show A.length + B.length + Q.length - S.length / 2 = A.length + (pairUp i S).length by omega,
      show S.length - S.length / 2 = (pairUp i S).length by omega]
    obtain ⟨ev', k1, k2, k3⟩ := key
      (fun x => by
        rw [← hcon x]
        exact concat_append _ _ _ (fun y => concat_pairUp i S y) x)
      (by rw [hplen]; exact hlenS) (by rw [hplen]; show 0 < A.length + _; omega)
      (by rw [hplen, s1]; show A.length + _ ≤ _; omega)
      (fun k hk => by
        have hk' : k < A.length := hk
        rw [lo1 k hk']
        have h1 := hA k (by rw [List.length_append]; omega)
        rw [List.getElem_append_left hk'] at h1
        exact h1)
      (fun k hk => by
        show ev1.val (A.length + k) = _
        rw [hi1 k (by omega), pairUp_eval i S done r hi.symm k hk, hSev (2 * k) (by omega)]
        by_cases hk2 : 2 * k + 1 < S.length
        · rw [if_pos hk2, if_pos hk2, hSev (2 * k + 1) hk2]
        · rw [if_neg hk2, if_neg hk2])
    exact ⟨ev', k1, by rw [k2, s1], k3⟩

theorem counts_sum (counts : List Nat) (P : List (Piece F)) (f : Nat → Nat)
    (hc : ∀ i, counts.getD i 0 = (P.filter fun p => p.1 = i).length) :
    ∑ i ∈ range counts.length, counts.getD i 0 * f i = (P.map fun p => f p.1).sum := by
  have hlt : ∀ p ∈ P, p.1 < counts.length := by
    intro p hp
    by_contra h
    have h1 := hc p.1
    rw [List.getD_eq_getElem?_getD, List.getElem?_eq_none (by omega)] at h1
    have h2 : p ∈ P.filter fun q => q.1 = p.1 := List.mem_filter.2 ⟨hp, by simp⟩
    have h3 : P.filter (fun q => q.1 = p.1) = [] := List.length_eq_zero_iff.1 h1.symm
    rw [h3] at h2
    cases h2
  simp only [hc]
  generalize counts.length = m at hlt
  clear hc
  induction P with
  | nil => simp
  | cons p P ih =>
    rw [List.map_cons, List.sum_cons, ← ih fun q hq => hlt q (List.mem_cons_of_mem _ hq)]
    have h1 : ∀ i, ((p :: P).filter fun q => q.1 = i).length * f i =
        (if i = p.1 then f i else 0) + (P.filter fun q => q.1 = i).length * f i := by
      intro i
      by_cases h : p.1 = i
      · rw [List.filter_cons_of_pos (by simpa using h), List.length_cons, if_pos h.symm, Nat.succ_mul,
          Nat.add_comm]
      · rw [List.filter_cons_of_neg (by simpa using h), if_neg (Ne.symm h), Nat.zero_add]
    rw [sum_congr rfl fun i _ => h1 i, sum_add_distrib, sum_ite_eq' (range m),
      if_pos (mem_range.2 (hlt p List.mem_cons_self))]

theorem totalLength_eq (i : Nat) (counts : List Nat) :
    totalLength i counts = ∑ k ∈ range counts.length, counts.getD k 0 * 2 ^ (i + k) := by
  induction counts generalizing i with
  | nil => rfl
  | cons n ns ih =>
    rw [totalLength, ih, List.length_cons, sum_range_succ', Nat.add_comm]
    simp only [List.getD_cons_succ, List.getD_cons_zero, Nat.add_zero, Nat.shiftLeft_eq]
    congr 1
    refine sum_congr rfl fun k _ => ?_
    congr 2; omega

theorem list_sum_eq (counts : List Nat) : counts.sum = ∑ k ∈ range counts.length, counts.getD k 0 * 1 := by
  induction counts with
  | nil => rfl
  | cons n ns ih =>
    rw [List.sum_cons, ih, List.length_cons, sum_range_succ', Nat.add_comm]
    simp

/-- C22.  For pieces given from the largest to the smallest, with `counts[i]` pieces of `i` variables, and
the evaluations of the pieces at the low coordinates of `point`, the result is the evaluation at `point` of
the multilinear polynomial whose table is the concatenation of the tables of the pieces, padded with
zeros; when the tables do not fit the call is refused. -/
theorem C22_piecewise (P : List (Piece F)) (hP : P.Pairwise fun a b => b.1 ≤ a.1) (hne : P ≠ [])
    (counts : List Nat) (hc : ∀ i, counts.getD i 0 = (P.filter fun p => p.1 = i).length)
    (point : List F) :
    ((P.map fun p => 2 ^ p.1).sum ≤ 2 ^ point.length →
      evaluate point counts (Slice.ofList (P.map fun p => mle p.2 (point.take p.1))) =
        some (.ok (mle (concat P) point))) ∧
    (2 ^ point.length < (P.map fun p => 2 ^ p.1).sum →
      evaluate point counts (Slice.ofList (P.map fun p => mle p.2 (point.take p.1))) =
        some (.error .tooLong)) := by
  have htot : totalLength 0 counts = (P.map fun p => 2 ^ p.1).sum := by
    rw [totalLength_eq, ← counts_sum counts P (fun i => 2 ^ i) hc]
    simp
  have hsum : counts.sum = P.length := by
    rw [list_sum_eq, counts_sum counts P (fun _ => 1) hc]
    simp
  unfold evaluate
  rw [htot]
  constructor
  · intro hle
    have hsz : (Slice.ofList (P.map fun p => mle p.2 (point.take p.1))).size = P.length := by
      simp [Slice.ofList]
    have hfil : P.filter (fun p => ([] : List F).length ≤ p.1) = P := by
      rw [List.filter_eq_self]; intro p _; simp
    rw [if_neg (by omega), if_neg (by rw [hsum, hsz]; simp), hsz]
    obtain ⟨ev', h1, h2, h3⟩ := pwLoop_eq counts P hP hc point point [] []
      (Slice.ofList (P.map fun p => mle p.2 (point.take p.1))) rfl
      (fun x => by rw [hfil]; simp)
      (by rw [hfil]; simpa [len] using hle)
      (by rw [hfil]; have := List.length_pos_iff.2 hne; omega)
      (by rw [hfil, hsz]; simp)
      (fun k hk => by
        simp only [hfil] at hk ⊢
        simp [Slice.ofList, hk])
      (fun k hk => by simp at hk)
    rw [hfil] at h1
    have h1' : pwLoop counts 0 point P.length 0
      (Slice.ofList (P.map fun p => mle p.2 (point.take p.1))) = some ev' := by simpa using h1
    rw [h1', Option.bind_some, Slice.get?_of_lt (by
      rw [h2, hsz]; exact List.length_pos_iff.2 hne), h3]
    rfl
  · intro hlt
    rw [if_pos hlt]

/-- Finding: with no pieces at all the function panics (it reads the first evaluation). -/
theorem C22_empty_panics (point : List F) : evaluate point [] (Slice.ofList []) = none := by
  unfold evaluate
  rw [if_neg (by simp [totalLength]), if_neg (by simp [Slice.ofList])]
  have h : ∀ (rs : List F) (i : Nat), pwLoop [] i rs 0 0 (Slice.ofList ([] : List F)) =
      some (Slice.ofList []) := by
    intro rs
    induction rs with
    | nil => intro i; rfl
    | cons r rs ih =>
      intro i
      simp only [pwLoop, List.getD_nil, Nat.add_zero, Nat.lt_irrefl, if_false]
      exact ih (i + 1)
  show (pwLoop [] 0 point 0 0 (Slice.ofList [])).bind _ = none
  rw [h]
  rfl

/-- The example of the documentation: two pieces of two variables and one of one variable, in four
variables. -/
example (v0 v1 v2 : Nat → Int) (r0 r1 r2 r3 : Int) :
    evaluate [r0, r1, r2, r3] [0, 1, 2] (Slice.ofList [mle v0 [r0, r1], mle v1 [r0, r1], mle v2 [r0]]) =
      some (.ok (mle (concat [(2, v0), (2, v1), (1, v2)]) [r0, r1, r2, r3])) := by
  refine (C22_piecewise [(2, v0), (2, v1), (1, v2)] (by simp) (by simp) [0, 1, 2] (fun i => ?_)
    [r0, r1, r2, r3]).1 (by simp)
  match i with
  | 0 => rfl
  | 1 => rfl
  | 2 => rfl
  | i + 3 => simp

end Verif.Piecewise
