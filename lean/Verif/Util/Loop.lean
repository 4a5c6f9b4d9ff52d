import Mathlib.Algebra.BigOperators.Group.Finset.Basic
import Mathlib.Algebra.BigOperators.Intervals

/-! Loops with a panic value, and flat memories of scalars.  These are the control structures shared by
several models; they model no particular function of the repository. -/

namespace Verif

/-- `for i in 0..n { body(i) }` over a state, where `none` is a panic. -/
def forRange {S : Type*} (n : Nat) (body : Nat → S → Option S) (s : S) : Option S :=
  match n with
  | 0 => some s
  | n + 1 => (forRange n body s).bind (body n)

theorem forRange_inv {S : Type*} {n : Nat} {body : Nat → S → Option S} (Inv : Nat → S → Prop)
    {s : S} (h0 : Inv 0 s)
    (hs : ∀ i < n, ∀ s, Inv i s → ∃ s', body i s = some s' ∧ Inv (i + 1) s') :
    ∃ s', forRange n body s = some s' ∧ Inv n s' := by
  induction n with
  | zero => exact ⟨s, rfl, h0⟩
  | succ n ih =>
    obtain ⟨s', h1, h2⟩ := ih (fun i hi => hs i (by omega))
    obtain ⟨s'', h3, h4⟩ := hs n (by omega) s' h2
    exact ⟨s'', by simp [forRange, h1, h3], h4⟩

theorem forRange_none {S : Type*} {n : Nat} {body : Nat → S → Option S} {s : S} {i : Nat}
    (hi : i < n) (h : ∀ t, body i t = none) : forRange n body s = none := by
  induction n with
  | zero => omega
  | succ n ih =>
    rcases Nat.lt_or_ge i n with h' | h'
    · simp [forRange, ih h']
    · have : i = n := by omega
      subst this
      simp only [forRange]
      cases forRange i body s with
      | none => rfl
      | some t => exact h t

/-- `(0..n).map(f).sum()` where each term may panic. -/
def sumRange {F : Type*} [AddCommMonoid F] (n : Nat) (f : Nat → Option F) : Option F :=
  match n with
  | 0 => some 0
  | n + 1 => (sumRange n f).bind fun a => (f n).bind fun b => some (a + b)

theorem sumRange_eq {F : Type*} [AddCommMonoid F] {n : Nat} {f : Nat → Option F} {g : Nat → F}
    (h : ∀ i < n, f i = some (g i)) : sumRange n f = some (∑ i ∈ Finset.range n, g i) := by
  induction n with
  | zero => rfl
  | succ n ih =>
    rw [sumRange, ih (fun i hi => h i (by omega)), h n (by omega), Finset.sum_range_succ]; rfl

theorem sum_range_mul {F : Type*} [AddCommMonoid F] (m n : Nat) (f : Nat → F) :
    ∑ b ∈ Finset.range (m * n), f b = ∑ j ∈ Finset.range n, ∑ i ∈ Finset.range m, f (i + m * j) := by
  induction n with
  | zero => simp
  | succ n ih =>
    rw [Nat.mul_succ, Finset.sum_range_add, ih, Finset.sum_range_succ]
    congr 1
    exact Finset.sum_congr rfl fun i _ => by rw [Nat.add_comm]

/-- A slice of packed field elements seen as the flat sequence of its scalars: `size` is
`len * WIDTH`.  Simplification: packed elements are flattened, lane `l` of element `k` being scalar
`k * WIDTH + l` (`get_packed_slice`, crates/field/src/packed.rs:310-338). -/
structure Slice (F : Type*) where
  size : Nat
  val : Nat → F

namespace Slice
variable {F : Type*}

/-- `get_packed_slice` / indexing: panics out of bounds (crates/field/src/packed.rs:310-338). -/
def get? (s : Slice F) (i : Nat) : Option F := if i < s.size then some (s.val i) else none

/-- `set_packed_slice`: panics out of bounds (crates/field/src/packed.rs:384-390). -/
def set? (s : Slice F) (i : Nat) (x : F) : Option (Slice F) :=
  if i < s.size then some ⟨s.size, fun j => if j = i then x else s.val j⟩ else none

/-- The slice of a list of scalars (for examples). -/
def ofList [Zero F] (l : List F) : Slice F := ⟨l.length, fun i => l.getD i 0⟩

theorem get?_of_lt {s : Slice F} {i : Nat} (h : i < s.size) : s.get? i = some (s.val i) := if_pos h

theorem set?_of_lt {s : Slice F} {i : Nat} {x : F} (h : i < s.size) :
    s.set? i x = some ⟨s.size, fun j => if j = i then x else s.val j⟩ := if_pos h

end Slice
end Verif
