import Verif.Piop.SpecPiop
import Verif.Sumcheck.LemmasFrontComplete
import Verif.Protocol.LemmasPostL

set_option linter.unusedSectionVars false
set_option linter.dupNamespace false

/-! How a wrong evaluation of a committed polynomial stays wrong. -/

namespace Verif.Piop

open Verif.Mle Verif.Sumcheck Verif.Protocol Verif.Univariate Finset Polynomial
open Verif.Piecewise (Piece concat)

variable {F : Type} [Field F] [DecidableEq F]

theorem mle_bitRev (t : Nat → F) (r : List F) : mle (fun x => t (bitRev r.length x)) r = mle t r.reverse := by
  induction r generalizing t with
  | nil => simp [bitRev]
  | cons x r ih =>
    rw [mle_cons, List.reverse_cons, mle_snoc, List.length_reverse, mle_add, mle_smul, mle_smul, ← ih, ← ih, List.length_cons]
    congr 2
    · refine mle_congr fun i _ => ?_
      rw [bitRev]
      congr 1
      rw [show 2 * i % 2 = 0 by omega, show 2 * i / 2 = i by omega]
      omega
    · refine mle_congr fun i _ => ?_
      rw [bitRev]
      congr 1
      rw [show (2 * i + 1) % 2 = 1 by omega, show (2 * i + 1) / 2 = i by omega]
      omega

/-- What is left of a concatenation when the first coordinates are bound. -/
def residue (D : List (Piece F)) (chs : List F) (j : Nat) : F := mle (fun i => concat D (i + 2 ^ chs.length * j)) chs

theorem residue_snoc (D : List (Piece F)) (chs : List F) (r : F) (j : Nat) :
    residue D (chs ++ [r]) j = (1 - r) * residue D chs (2 * j) + r * residue D chs (2 * j + 1) := by
  unfold residue
  rw [mle_snoc]
  congr 2
  · refine mle_congr fun i _ => ?_
    congr 1
    rw [List.length_append, List.length_singleton, pow_succ]
    ring
  · refine mle_congr fun i _ => ?_
    congr 1
    rw [List.length_append, List.length_singleton, pow_succ]
    ring

theorem residue_bad (D : List (Piece F)) (chs : List F) (h : ∃ j, residue D chs j ≠ 0) :
    ∃ bad : Finset F, bad.card ≤ 1 ∧ ∀ r, r ∉ bad → ∃ j, residue D (chs ++ [r]) j ≠ 0 := by
  obtain ⟨j, hj⟩ := h
  by_cases he : residue D chs (2 * (j / 2)) = residue D chs (2 * (j / 2) + 1)
  · refine ⟨∅, by simp, fun r _ => ⟨j / 2, ?_⟩⟩
    rw [residue_snoc, ← he]
    have : residue D chs (2 * (j / 2)) ≠ 0 := by
      rcases Nat.mod_two_eq_zero_or_one j with h | h
      · rw [show 2 * (j / 2) = j by omega]; exact hj
      · rw [he, show 2 * (j / 2) + 1 = j by omega]; exact hj
    intro h
    apply this
    rw [← h]
    ring
  · have hd : residue D chs (2 * (j / 2)) - residue D chs (2 * (j / 2) + 1) ≠ 0 := sub_ne_zero.mpr he
    refine ⟨{residue D chs (2 * (j / 2)) / (residue D chs (2 * (j / 2)) - residue D chs (2 * (j / 2) + 1))}, by simp,
      fun r hr => ⟨j / 2, fun h => hr ?_⟩⟩
    rw [Finset.mem_singleton, eq_div_iff hd]
    rw [residue_snoc] at h
    linear_combination -h

theorem residue_cons (D : List (Piece F)) (chs : List F) (d : F) (j : Nat) :
    residue ((chs.length, fun _ => d) :: D) chs j = if j = 0 then d else residue D chs (j - 1) := by
  unfold residue
  by_cases hj : j = 0
  · rw [if_pos hj]
    refine Eq.trans (mle_congr (w := fun _ => d) fun i hi => ?_) (mle_const d chs)
    rw [hj, Nat.mul_zero, Nat.add_zero, concat, if_pos hi]
  · rw [if_neg hj]
    refine mle_congr fun i hi => ?_
    obtain ⟨k, rfl⟩ := Nat.exists_eq_succ_of_ne_zero hj
    have e : i + 2 ^ chs.length * k.succ - 2 ^ chs.length = i + 2 ^ chs.length * (k.succ - 1) := by
      rw [Nat.mul_succ, Nat.succ_sub_one]
      omega
    rw [concat, if_neg (by show ¬ i + 2 ^ chs.length * k.succ < 2 ^ chs.length; rw [Nat.mul_succ]; omega)]
    exact congrArg (concat D) e

theorem residue_append (A D : List (Piece F)) (chs : List F) (hA : ∀ p ∈ A, p.1 = chs.length ∧ ∃ d, p.2 = fun _ => d)
    (h : (∃ p ∈ A, p.2 0 ≠ 0) ∨ ∃ j, residue D chs j ≠ 0) : ∃ j, residue (A ++ D) chs j ≠ 0 := by
  induction A with
  | nil =>
    rcases h with ⟨p, hp, _⟩ | h
    · simp at hp
    · exact h
  | cons p A ih =>
    have ih := ih fun q hq => hA q (List.mem_cons_of_mem _ hq)
    obtain ⟨h1, d, h2⟩ := hA p (List.mem_cons_self ..)
    have hp : p = (chs.length, fun _ => d) := Prod.ext h1 h2
    by_cases hd : d ≠ 0
    · refine ⟨0, ?_⟩
      rw [List.cons_append, hp, residue_cons, if_pos rfl]
      exact hd
    · obtain ⟨j, hj⟩ := ih (by
        rcases h with ⟨q, hq, hq0⟩ | h
        · rcases List.mem_cons.mp hq with e | hq
          · rw [e, h2] at hq0; exact absurd hq0 hd
          · exact Or.inl ⟨q, hq, hq0⟩
        · exact Or.inr h)
      refine ⟨j + 1, ?_⟩
      rw [List.cons_append, hp, residue_cons, if_neg (by omega)]
      exact hj

theorem concat_zero (D : List (Piece F)) (x : Nat) (hx : (D.map fun p => 2 ^ p.1).sum ≤ x) : concat D x = 0 := by
  induction D generalizing x with
  | nil => rfl
  | cons p D ih =>
    rw [List.map_cons, List.sum_cons] at hx
    rw [concat, if_neg (by omega)]
    exact ih _ (by omega)

/-- At the end the residue is the value. -/
theorem residue_final (D : List (Piece F)) (chs : List F) (hl : (D.map fun p => 2 ^ p.1).sum ≤ 2 ^ chs.length)
    (h : ∃ j, residue D chs j ≠ 0) : mle (concat D) chs ≠ 0 := by
  obtain ⟨j, hj⟩ := h
  by_cases h0 : j = 0
  · subst h0
    unfold residue at hj
    simpa using hj
  · refine absurd ?_ hj
    unfold residue
    refine Eq.trans (mle_congr (w := fun _ => 0) fun i _ => concat_zero _ _ ?_) (mle_zero chs)
    have := Nat.le_mul_of_pos_right (2 ^ chs.length) (Nat.pos_of_ne_zero h0)
    omega

/-! ## Groups of polynomials of the same size -/

/-- A sumcheck instance with its number of committed polynomials. -/
abbrev Group (F : Type) [Field F] := Instance F × Nat

/-- How far the evaluations of the committed polynomials of a group are off. -/
def devOf (chs : List F) (g : Group F) (e : List F) : List (Piece F) :=
  List.zipWith (fun t y => (g.1.claim.nVars, fun _ => y - mle t (chs.take g.1.claim.nVars).reverse)) (g.1.tables.take g.2)
    (e.take g.2)

/-- The same for all groups, the largest first. -/
def devs (chs : List F) : List (Group F) → List (List F) → List (Piece F)
  | g :: gs, e :: es => devs chs gs es ++ (devOf chs g e).reverse
  | _, _ => []

theorem devs_snoc (chs : List F) (gs : List (Group F)) (es : List (List F)) (g : Group F) (e : List F)
    (h : es.length = gs.length) : devs chs (gs ++ [g]) (es ++ [e]) = (devOf chs g e).reverse ++ devs chs gs es := by
  induction gs generalizing es with
  | nil =>
    cases es with
    | nil => simp [devs]
    | cons _ _ => simp at h
  | cons g' gs ih =>
    cases es with
    | nil => simp at h
    | cons e' es =>
      rw [List.cons_append, List.cons_append, devs, devs, ih es (by simpa using h), List.append_assoc]

theorem devOf_take (chs : List F) (r : F) (g : Group F) (e : List F) (h : g.1.claim.nVars ≤ chs.length) :
    devOf (chs ++ [r]) g e = devOf chs g e := by
  unfold devOf
  rw [List.take_append_of_le_length h]

theorem devs_take (chs : List F) (r : F) (gs : List (Group F)) (es : List (List F))
    (h : ∀ g ∈ gs, g.1.claim.nVars ≤ chs.length) : devs (chs ++ [r]) gs es = devs chs gs es := by
  induction gs generalizing es with
  | nil => cases es <;> rfl
  | cons g gs ih =>
    cases es with
    | nil => rfl
    | cons e es =>
      rw [devs, devs, devOf_take chs r g e (h g (List.mem_cons_self ..)), ih es fun g' hg => h g' (List.mem_cons_of_mem _ hg)]

/-- The evaluations of the transparent polynomials of a group are right. -/
def TransOK (chs : List F) (g : Group F) (e : List F) : Prop :=
  e.drop g.2 = (g.1.tables.drop g.2).map fun t => mle t (chs.take g.1.claim.nVars).reverse

/-- An evaluation accepted already is wrong, and in a way that will show. -/
def EWrong (done : List (Group F)) (evs : List (List F)) (chs : List F) : Prop :=
  (∃ (k : Nat) (g : Group F) (e : List F), done[k]? = some g ∧ evs[k]? = some e ∧ ¬ TransOK chs g e) ∨
    ∃ j, residue (devs chs done evs) chs j ≠ 0

theorem EWrong.sample {done : List (Group F)} {evs : List (List F)} {chs : List F} (h : EWrong done evs chs)
    (hle : ∀ g ∈ done, g.1.claim.nVars ≤ chs.length) :
    ∃ bad : Finset F, bad.card ≤ 1 ∧ ∀ r, r ∉ bad → EWrong done evs (chs ++ [r]) := by
  rcases h with ⟨k, g, e, h1, h2, h3⟩ | h
  · refine ⟨∅, by simp, fun r _ => Or.inl ⟨k, g, e, h1, h2, ?_⟩⟩
    unfold TransOK at h3 ⊢
    rw [List.take_append_of_le_length (hle g (List.mem_of_getElem? h1))]
    exact h3
  · obtain ⟨bad, hb, hr⟩ := residue_bad _ _ h
    exact ⟨bad, hb, fun r hr' => Or.inr (by rw [devs_take chs r done evs hle]; exact hr r hr')⟩

theorem devOf_shape (chs : List F) (g : Group F) (e : List F) (hn : g.1.claim.nVars = chs.length) :
    ∀ p ∈ (devOf chs g e).reverse, p.1 = chs.length ∧ ∃ d, p.2 = fun _ => d := by
  intro p hp
  rw [List.mem_reverse] at hp
  unfold devOf at hp
  obtain ⟨i, hi, rfl⟩ := List.getElem_of_mem hp
  rw [List.getElem_zipWith]
  exact ⟨hn, _, rfl⟩

theorem EWrong.snoc {done : List (Group F)} {evs : List (List F)} {chs : List F} (h : EWrong done evs chs)
    (hl : evs.length = done.length) (g : Group F) (e : List F) (hn : g.1.claim.nVars = chs.length) :
    EWrong (done ++ [g]) (evs ++ [e]) chs := by
  rcases h with ⟨k, g', e', h1, h2, h3⟩ | h
  · have hk1 := (List.getElem?_eq_some_iff.mp h1).1
    exact Or.inl ⟨k, g', e', by rw [List.getElem?_append_left hk1]; exact h1,
      by rw [List.getElem?_append_left (by omega)]; exact h2, h3⟩
  · right
    rw [devs_snoc chs done evs g e hl]
    exact residue_append _ _ _ (devOf_shape chs g e hn) (Or.inr h)

theorem EWrong.new {done : List (Group F)} {evs : List (List F)} {chs : List F}
    (hl : evs.length = done.length) (g : Group F) (e : List F) (hn : g.1.claim.nVars = chs.length)
    (hel : e.length = g.1.tables.length) (he : e ≠ g.1.tables.map fun t => mle t chs.reverse) :
    EWrong (done ++ [g]) (evs ++ [e]) chs := by
  by_cases ht : TransOK chs g e
  · right
    rw [devs_snoc chs done evs g e hl]
    refine residue_append _ _ _ (devOf_shape chs g e hn) (Or.inl ?_)
    by_contra hall
    apply he
    unfold TransOK at ht
    rw [hn, List.take_length] at ht
    rw [← List.take_append_drop g.2 e, ht]
    conv_rhs => rw [← List.take_append_drop g.2 g.1.tables, List.map_append]
    congr 1
    refine List.ext_getElem (by simp [hel]) fun i h1 h2 => ?_
    by_contra hne
    refine hall ⟨(devOf chs g e)[i]'(by simp [devOf] at h1 h2 ⊢; omega), by
      rw [List.mem_reverse]; exact List.getElem_mem _, ?_⟩
    have e2 : (devOf chs g e)[i]'(by simp [devOf] at h1 h2 ⊢; omega) = (g.1.claim.nVars, fun _ =>
        (e.take g.2)[i]'h1 - mle ((g.1.tables.take g.2)[i]'(by simpa using h2)) (chs.take g.1.claim.nVars).reverse) := by
      simp only [devOf, List.getElem_zipWith]
    rw [e2]
    simp only [hn, List.take_length]
    rw [List.getElem_map] at hne
    exact sub_ne_zero.mpr hne
  · exact Or.inl ⟨done.length, g, e, by simp, by simp [← hl], ht⟩

end Verif.Piop
