import Verif.NTT.LemmasMultiMain
import Verif.NTT.PropsNtt

/-! C14: the multithreaded NTT computes what the single-threaded NTT computes, under every schedule. -/

set_option linter.unusedSectionVars false

namespace Verif.NTT

open Finset Spec
open Verif.Subspace (BinarySubspace)
open Verif.Strided (View)

variable {F : Type*} [Field F] [DecidableEq F]

/-- A plan exists unless two packed elements hold at most one packed element of data. -/
theorem plan_none {w lx ly lz t : Nat} : plan w ⟨lx, ly, lz⟩ t = none ↔ lx + ly + lz ≤ w := by
  unfold plan
  dsimp only
  rcases le_total (w + 1) lx with h | h
  · rw [max_eq_right h, if_neg (by omega)]
    simp; omega
  · rw [max_eq_left h]
    by_cases hc : lx + ly + lz < w + 1
    · rw [if_pos hc]; simp; omega
    · rw [if_neg hc]; simp; omega

/-- Equal scalars everywhere are equal data. -/
theorem val_of_flat {w n size : Nat} (hn : size * 2 ^ w = 2 ^ n) {d d' : Slice (Lanes F)}
    (h : ∀ P < 2 ^ n, flat w d P = flat w d' P) : ∀ e < size, ∀ l < 2 ^ w, d.val e l = d'.val e l := by
  intro e he l hl
  have := h (e * 2 ^ w + l) (by
    have := Nat.mul_le_mul_right (2 ^ w) he
    rw [Nat.succ_mul, hn] at this
    omega)
  unfold flat at this
  rwa [Nat.add_comm, Nat.add_mul_div_right _ _ (Nat.two_pow_pos w), Nat.div_eq_of_lt hl, Nat.zero_add,
    Nat.add_mul_mod_self_right, Nat.mod_eq_of_lt hl] at this

theorem size_total {L w lx ly lz coset cb skip size : Nat} (hok : check L size w ⟨lx, ly, lz⟩ coset cb skip = .ok ())
    (h1 : size ≠ 1) (hT : w < lx + ly + lz) : size * 2 ^ w = 2 ^ (lx + ly + lz) := by
  obtain ⟨hpow, -, hso, -, -⟩ := check_ok.1 hok
  rw [sizeOk_two hpow h1 hso, ← Nat.pow_succ', ← Nat.pow_add]
  congr 1
  omega

/-- **C14** (forward).  For every NTT built from a subspace, every number of threads, every shape, coset and
number of skipped rounds that the single-threaded NTT accepts, and every schedule of the tasks (any interleaving
of the butterflies of the column tasks followed by any order of the row tasks), the multithreaded forward
transform succeeds with exactly the data the single-threaded transform returns.  The excluded case, two packed
elements for at most one packed element of data, is `C14_narrow_panics`. -/
theorem C14_forward (h2 : (1 : F) + 1 = 0) {β : List F} {tas tbl : List (TA F)}
    (h : withSubspace (⟨β⟩ : BinarySubspace F) = some (.ok tas)) (ht : tbl = tas ∨ tbl = precomputeTwiddles tas)
    (w lx ly lz coset cosetBits skip logThreads : Nat) (d : Slice (Lanes F)) (hpow : ∃ k, d.size = 2 ^ k)
    (hsize : SizeOk w lx ly lz d.size) (hskip : skip ≤ ly) (hcoset : coset < 2 ^ cosetBits)
    (hdom : ly + cosetBits ≤ β.length) (hT : d.size = 1 ∨ w < lx + ly + lz)
    (cols : ColSchedule F) (rows : List Nat)
    (hs : d.size = 1 ∨
      Possible strideFwd β.length w tbl logThreads d.size ⟨lx, ly, lz⟩ coset cosetBits skip cols rows) :
    ∃ d1 d2, forward β.length w tbl d ⟨lx, ly, lz⟩ coset cosetBits skip = some (.ok d1) ∧
      mtForward β.length w tbl logThreads d ⟨lx, ly, lz⟩ coset cosetBits skip cols rows = some (.ok d2) ∧
      d2.size = d1.size ∧ d1.size = d.size ∧ ∀ e < d.size, ∀ l < 2 ^ w, d2.val e l = d1.val e l := by
  obtain ⟨-, -, hind, hr⟩ := ready_of h2 h ht
  have hok := check_ok.2 ⟨hpow, hskip, hsize, hcoset, hdom⟩
  obtain ⟨d1, e, hs1, hp⟩ := forward_eq (d := d) (w := w) (lx := lx) (lz := lz) h2 hr hind hok
  by_cases h1 : d.size = 1
  · refine ⟨d1, d1, e, ?_, rfl, hs1, fun _ _ _ _ => rfl⟩
    unfold mtForward
    rw [hok]
    dsimp only
    rw [if_neg (by omega), if_pos h1]
    split
    · next hw =>
      have hw : w = 0 := by
        rcases Nat.eq_zero_or_pos w with h | h
        · exact h
        · have := Nat.pow_lt_pow_right (show 1 < 2 by omega) h; omega
      unfold forward withBuffer at e
      dsimp only at e
      rw [hok] at e
      dsimp only at e
      rw [if_neg (by omega), if_pos h1, if_pos hw] at e
      exact e
    · exact e
  · have hT := hT.resolve_left h1
    obtain ⟨p, hplan⟩ : ∃ p, plan w ⟨lx, ly, lz⟩ logThreads = some p := by
      rw [← Option.ne_none_iff_exists', Ne, plan_none]; omega
    obtain ⟨d2, e2, hs2, hp2⟩ := mtForward_eq h2 hr hind hok h1 hplan (hs.resolve_left h1)
    refine ⟨d1, d2, e, e2, by omega, hs1, val_of_flat (size_total hok h1 hT) fun P hP => ?_⟩
    rw [hp P hP, hp2 P hP]

/-- **C14** (inverse).  As `C14_forward`, for the inverse transform (any order of the row tasks followed by any
interleaving of the column tasks). -/
theorem C14_inverse (h2 : (1 : F) + 1 = 0) {β : List F} {tas tbl : List (TA F)}
    (h : withSubspace (⟨β⟩ : BinarySubspace F) = some (.ok tas)) (ht : tbl = tas ∨ tbl = precomputeTwiddles tas)
    (w lx ly lz coset cosetBits skip logThreads : Nat) (d : Slice (Lanes F)) (hpow : ∃ k, d.size = 2 ^ k)
    (hsize : SizeOk w lx ly lz d.size) (hskip : skip ≤ ly) (hcoset : coset < 2 ^ cosetBits)
    (hdom : ly + cosetBits ≤ β.length) (hT : d.size = 1 ∨ w < lx + ly + lz)
    (cols : ColSchedule F) (rows : List Nat)
    (hs : d.size = 1 ∨
      Possible strideInv β.length w tbl logThreads d.size ⟨lx, ly, lz⟩ coset cosetBits skip cols rows) :
    ∃ d1 d2, inverse β.length w tbl d ⟨lx, ly, lz⟩ coset cosetBits skip = some (.ok d1) ∧
      mtInverse β.length w tbl logThreads d ⟨lx, ly, lz⟩ coset cosetBits skip cols rows = some (.ok d2) ∧
      d2.size = d1.size ∧ d1.size = d.size ∧ ∀ e < d.size, ∀ l < 2 ^ w, d2.val e l = d1.val e l := by
  obtain ⟨-, -, hind, hr⟩ := ready_of h2 h ht
  have hok := check_ok.2 ⟨hpow, hskip, hsize, hcoset, hdom⟩
  obtain ⟨d1, e, hs1, hp⟩ := inverse_eq (d := d) (w := w) (lx := lx) (lz := lz) h2 hr hind hok
  by_cases h1 : d.size = 1
  · refine ⟨d1, d1, e, ?_, rfl, hs1, fun _ _ _ _ => rfl⟩
    unfold mtInverse
    rw [hok]
    dsimp only
    rw [if_neg (by omega), if_pos h1]
    split
    · next hw =>
      have hw : w = 0 := by
        rcases Nat.eq_zero_or_pos w with h | h
        · exact h
        · have := Nat.pow_lt_pow_right (show 1 < 2 by omega) h; omega
      unfold inverse withBuffer at e
      dsimp only at e
      rw [hok] at e
      dsimp only at e
      rw [if_neg (by omega), if_pos h1, if_pos hw] at e
      exact e
    · exact e
  · have hT := hT.resolve_left h1
    obtain ⟨p, hplan⟩ : ∃ p, plan w ⟨lx, ly, lz⟩ logThreads = some p := by
      rw [← Option.ne_none_iff_exists', Ne, plan_none]; omega
    obtain ⟨d2, e2, hs2, hp2⟩ := mtInverse_eq h2 hr hind hok h1 hplan (hs.resolve_left h1)
    refine ⟨d1, d2, e, e2, by omega, hs1, val_of_flat (size_total hok h1 hT) fun P hP => ?_⟩
    rw [hp P hP, hp2 P hP]

/-- **C14** (schedules exist).  For every accepted call the programs of the strides exist, that is none of their
index checks panics, and running the tasks one after the other is one of the schedules. -/
theorem C14_schedulable (h2 : (1 : F) + 1 = 0) {β : List F} {tas tbl : List (TA F)}
    (h : withSubspace (⟨β⟩ : BinarySubspace F) = some (.ok tas)) (ht : tbl = tas ∨ tbl = precomputeTwiddles tas)
    (w lx ly lz coset cosetBits skip logThreads : Nat) (size : Nat) (hpow : ∃ k, size = 2 ^ k) (h1 : size ≠ 1)
    (hsize : SizeOk w lx ly lz size) (hskip : skip ≤ ly) (hcoset : coset < 2 ^ cosetBits)
    (hdom : ly + cosetBits ≤ β.length) :
    (∃ cols rows, Possible strideFwd β.length w tbl logThreads size ⟨lx, ly, lz⟩ coset cosetBits skip cols rows) ∧
    ∃ cols rows, Possible strideInv β.length w tbl logThreads size ⟨lx, ly, lz⟩ coset cosetBits skip cols rows := by
  obtain ⟨-, -, hind, hr⟩ := ready_of h2 h ht
  have hok := check_ok.2 ⟨hpow, hskip, hsize, hcoset, hdom⟩
  rcases hpl : plan w ⟨lx, ly, lz⟩ logThreads with _ | p
  · refine ⟨⟨[], [], ?_⟩, [], [], ?_⟩ <;>
    · intro p hp
      rw [hpl] at hp
      exact absurd hp (by simp)
  · have hp := plan_ok hpl
    have hsz := size_of_plan hok h1 hpl
    obtain ⟨pa, a⟩ : ∃ pa, columnPrograms strideFwd β.length tbl size ⟨lx, ly, lz⟩ coset cosetBits skip logThreads p =
        some pa := ⟨_, columnPrograms_eq (t := logThreads) h2 hr hind hcoset hdom hp
      (fun _ _ _ g hg => strideFwd_eq (skip := skip) g hg) hsz⟩
    obtain ⟨pb, b⟩ : ∃ pb, columnPrograms strideInv β.length tbl size ⟨lx, ly, lz⟩ coset cosetBits skip logThreads p =
        some pb := ⟨_, columnPrograms_eq (t := logThreads) h2 hr hind hcoset hdom hp
      (fun _ _ _ g hg => strideInv_eq (skip := skip) g hg) hsz⟩
    refine ⟨⟨sequential pa, List.range (2 ^ p.logHeight), fun p' hp' => ?_⟩, sequential pb,
      List.range (2 ^ p.logHeight), fun p' hp' => ?_⟩
    · obtain rfl : p = p' := by rw [hpl] at hp'; exact Option.some.inj hp'
      exact ⟨⟨_, a, sequential_interleaves _⟩, List.Perm.refl _⟩
    · obtain rfl : p = p' := by rw [hpl] at hp'; exact Option.some.inj hp'
      exact ⟨⟨_, b, sequential_interleaves _⟩, List.Perm.refl _⟩

/-- **C14** (parameter checks).  The multithreaded transforms return an error exactly when the single-threaded
ones do, and the same error. -/
theorem C14_errors (L : Nat) (tbl : List (TA F)) (w logThreads : Nat) (shape : Shape) (coset cosetBits skip : Nat)
    (d : Slice (Lanes F)) (cols : ColSchedule F) (rows : List Nat) (e : Error)
    (hbad : check L d.size w shape coset cosetBits skip = .error e) :
    forward L w tbl d shape coset cosetBits skip = some (.error e) ∧
    mtForward L w tbl logThreads d shape coset cosetBits skip cols rows = some (.error e) ∧
    inverse L w tbl d shape coset cosetBits skip = some (.error e) ∧
    mtInverse L w tbl logThreads d shape coset cosetBits skip cols rows = some (.error e) := by
  unfold forward mtForward inverse mtInverse withBuffer
  dsimp only
  rw [hbad]
  exact ⟨rfl, rfl, rfl, rfl⟩

/-- **C14** (the exception).  A slice of two packed elements holding at most one packed element of data is
accepted by the parameter checks, and by the single-threaded transforms, but the multithreaded ones panic: the
subtraction computing the height of the matrix underflows. -/
theorem C14_narrow_panics (h2 : (1 : F) + 1 = 0) {β : List F} {tas tbl : List (TA F)}
    (h : withSubspace (⟨β⟩ : BinarySubspace F) = some (.ok tas)) (ht : tbl = tas ∨ tbl = precomputeTwiddles tas)
    (w lx ly lz coset cosetBits skip logThreads : Nat) (d : Slice (Lanes F)) (hsize : d.size = 2)
    (hT : lx + ly + lz ≤ w) (hskip : skip ≤ ly) (hcoset : coset < 2 ^ cosetBits) (hdom : ly + cosetBits ≤ β.length)
    (cols : ColSchedule F) (rows : List Nat) :
    (∃ d1, forward β.length w tbl d ⟨lx, ly, lz⟩ coset cosetBits skip = some (.ok d1)) ∧
    (∃ d1, inverse β.length w tbl d ⟨lx, ly, lz⟩ coset cosetBits skip = some (.ok d1)) ∧
    mtForward β.length w tbl logThreads d ⟨lx, ly, lz⟩ coset cosetBits skip cols rows = none ∧
    mtInverse β.length w tbl logThreads d ⟨lx, ly, lz⟩ coset cosetBits skip cols rows = none := by
  obtain ⟨-, -, hind, hr⟩ := ready_of h2 h ht
  have hso : SizeOk w lx ly lz d.size := by
    refine Or.inr ⟨Or.inr hsize, ?_⟩
    rw [hsize]
    have := Nat.pow_le_pow_right (show 0 < 2 by omega) hT
    omega
  have hok := check_ok.2 ⟨⟨1, hsize⟩, hskip, hso, hcoset, hdom⟩
  obtain ⟨d1, e1, -⟩ := forward_eq (d := d) (w := w) (lx := lx) (lz := lz) h2 hr hind hok
  obtain ⟨d2, e2, -⟩ := inverse_eq (d := d) (w := w) (lx := lx) (lz := lz) h2 hr hind hok
  refine ⟨⟨d1, e1⟩, ⟨d2, e2⟩, ?_, ?_⟩
  · unfold mtForward
    rw [hok]
    dsimp only
    rw [if_neg (by omega), if_neg (by omega), plan_none.2 hT]
    rfl
  · unfold mtInverse
    rw [hok]
    dsimp only
    rw [if_neg (by omega), if_neg (by omega), plan_none.2 hT]
    rfl

/-! ### The hypotheses are met -/

/-- Four packed elements of one lane with two threads: one round in the column phase with two strides, and two
rows; there is a schedule (also a non-sequential one), and a narrow shape. -/
example : (∃ k, (4 : Nat) = 2 ^ k) ∧ SizeOk 0 0 2 0 4 ∧ 0 < 0 + 2 + 0 ∧ 2 + 0 ≤ exampleBasis.length ∧
    plan 0 ⟨0, 2, 0⟩ 1 = some ⟨1, 1, 1, 0, 1⟩ ∧ SizeOk 1 0 1 0 2 ∧ 0 + 1 + 0 ≤ 1 :=
  ⟨⟨2, rfl⟩, Or.inl rfl, by decide, by decide, rfl, Or.inr ⟨Or.inr rfl, by decide⟩, by decide⟩

/-- The programs of that plan are not empty and do not touch the same elements. -/
example : ∃ tas, withSubspace (⟨exampleBasis⟩ : BinarySubspace (Field.T 1)) = some (.ok tas) ∧
    ∃ tw0 tw1 : Field.T 1, columnPrograms strideFwd 2 tas 4 ⟨0, 2, 0⟩ 0 0 0 1 ⟨1, 1, 1, 0, 1⟩ =
      some [[⟨tw0, 0, 2⟩], [⟨tw1, 1, 3⟩]] := by
  obtain ⟨tas, h⟩ := exampleBasis_ok
  obtain ⟨-, -, hind, hr⟩ := ready_of (by decide) h (Or.inl rfl)
  have hp : PlanOk 0 0 2 0 ⟨1, 1, 1, 0, 1⟩ := by constructor <;> simp
  have := columnPrograms_eq (t := 1) (cb := 0) (coset := 0) (by decide) hr hind (by decide) (by decide) hp
      (fun _ _ _ g hg => strideFwd_eq (skip := 0) g hg) (size := 4) (by rfl)
  exact ⟨tas, h, _, _, this⟩

end Verif.NTT
