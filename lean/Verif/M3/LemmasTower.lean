import Verif.M3.SpecTable
import Verif.Field.PropsGenerators
import Mathlib.Algebra.BigOperators.Group.Finset.Basic

/-! The field of 128 bits, with the tower of subfields that the specification of tables asks for. -/

set_option linter.dupNamespace false
set_option linter.unusedSectionVars false

namespace Verif.M3

open Finset Verif.Field

/-- The element `x` of the field of level `N` is in the subfield of level `l`. -/
def InSub : (N l : Nat) → T N → Prop
  | 0, _, _ => True
  | N + 1, l, x => N + 1 ≤ l ∨ (x.2 = 0 ∧ InSub N l x.1)

/-- The `k`-th element of the basis of the field of level `N` over the field with two elements. -/
def basisT : (N : Nat) → Nat → T N
  | 0, _ => 1
  | N + 1, k => if k < 2 ^ N then (basisT N k, 0) else (0, basisT N (k - 2 ^ N))

/-- The embedding of the field of level `n` in that of level `n + d`. -/
def up {n : Nat} : (d : Nat) → T n → T (n + d)
  | 0, x => x
  | d + 1, x => (up d x, 0)

/-- The element of the next level with the given halves. -/
def mkT {n : Nat} (a b : T n) : T (n + 1) := (a, b)

theorem pair_mul {n : Nat} (a b : T n) : mkT a 0 * mkT b 0 = mkT (a * b) 0 := by
  refine (T.mk_mul_mk a 0 b 0).trans ?_
  refine Prod.ext ?_ ?_
  · show a * b + 0 * 0 = a * b; ring
  · show a * 0 + 0 * b + T.alpha n * (0 * 0) = 0; ring

theorem inSub_zero : ∀ (N : Nat) (x : T N), InSub N 0 x ↔ x = 0 ∨ x = 1
  | 0, x => by
    refine ⟨fun _ => ?_, fun _ => trivial⟩
    cases x
    · exact Or.inl rfl
    · exact Or.inr rfl
  | N + 1, x => by
    obtain ⟨a, b⟩ := x
    have ih := inSub_zero N a
    constructor
    · rintro (h | ⟨h1, h2⟩)
      · omega
      · have h1 : b = 0 := h1
        subst h1
        rcases ih.1 h2 with h | h
        · subst h; exact Or.inl rfl
        · subst h; exact Or.inr rfl
    · intro h
      refine Or.inr ?_
      rcases h with h | h
      · have h1 : a = 0 := congrArg Prod.fst h
        have h2 : b = 0 := congrArg Prod.snd h
        exact ⟨h2, ih.2 (Or.inl h1)⟩
      · have h1 : a = 1 := congrArg Prod.fst h
        have h2 : b = 0 := congrArg Prod.snd h
        exact ⟨h2, ih.2 (Or.inr h1)⟩

theorem inSub_mono : ∀ (N l : Nat) (x : T N), InSub N l x → InSub N (l + 1) x
  | 0, _, _, _ => trivial
  | N + 1, l, x, h => by
    rcases h with h | ⟨h1, h2⟩
    · exact Or.inl (by omega)
    · exact Or.inr ⟨h1, inSub_mono N l x.1 h2⟩

theorem inSub_add : ∀ (N l : Nat) (x y : T N), InSub N l x → InSub N l y → InSub N l (x + y)
  | 0, _, _, _, _, _ => trivial
  | N + 1, l, x, y, hx, hy => by
    rcases hx with h | ⟨h1, h2⟩
    · exact Or.inl h
    · rcases hy with h | ⟨h3, h4⟩
      · exact Or.inl h
      · refine Or.inr ⟨?_, inSub_add N l x.1 y.1 h2 h4⟩
        show x.2 + y.2 = 0
        rw [h1, h3, add_zero]

theorem inSub_mul : ∀ (N l : Nat) (x y : T N), InSub N l x → InSub N l y → InSub N l (x * y)
  | 0, _, _, _, _, _ => trivial
  | N + 1, l, x, y, hx, hy => by
    rcases hx with h | ⟨h1, h2⟩
    · exact Or.inl h
    · rcases hy with h | ⟨h3, h4⟩
      · exact Or.inl h
      · obtain ⟨a, a'⟩ := x
        obtain ⟨b, b'⟩ := y
        have h1 : a' = 0 := h1
        have h3 : b' = 0 := h3
        subst h1; subst h3
        have hm := pair_mul a b
        have h5 : InSub (N + 1) l (mkT (a * b) 0) := Or.inr ⟨rfl, inSub_mul N l a b h2 h4⟩
        rw [← hm] at h5
        exact h5

theorem inSub_basis : ∀ (N l : Nat), l ≤ N → ∀ k < 2 ^ l, InSub N l (basisT N k)
  | 0, _, _, _, _ => trivial
  | N + 1, l, hl, k, hk => by
    rcases Nat.lt_or_ge l (N + 1) with h | h
    · have hk' : k < 2 ^ N := hk.trans_le (Nat.pow_le_pow_right (by omega) (by omega))
      have : basisT (N + 1) k = (basisT N k, 0) := if_pos hk'
      rw [this]
      exact Or.inr ⟨rfl, inSub_basis N l (by omega) k hk⟩
    · exact Or.inl h

theorem inSub_up {n : Nat} (x : T n) : ∀ d, InSub (n + d) n (up d x)
  | 0 => by
    cases n with
    | zero => trivial
    | succ n => exact Or.inl le_rfl
  | d + 1 => Or.inr ⟨rfl, inSub_up x d⟩

theorem up_injective {n : Nat} : ∀ d, Function.Injective (up (n := n) d)
  | 0 => fun _ _ h => h
  | d + 1 => fun x y h => up_injective d (congrArg Prod.fst h)

/-- The embedding as a homomorphism. -/
def upHom {n : Nat} (d : Nat) : T n →* T (n + d) where
  toFun := up d
  map_one' := by
    induction d with
    | zero => rfl
    | succ d ih => exact congrArg (fun z : T (n + d) => mkT z 0) ih
  map_mul' x y := by
    induction d with
    | zero => rfl
    | succ d ih =>
      refine Eq.trans ?_ (pair_mul (up d x) (up d y)).symm
      exact congrArg (fun z : T (n + d) => mkT z 0) ih

theorem orderOf_up {n : Nat} (d : Nat) (x : T n) : orderOf (up d x) = orderOf x :=
  orderOf_injective (upHom d) (up_injective d) x

/-- The generator of the subfield of level `l` of the field of 128 bits. -/
def gen7 : Nat → T 7
  | 0 => up (n := 0) 7 (toT (multiplicativeGenerator 0))
  | 1 => up (n := 1) 6 (toT (multiplicativeGenerator 1))
  | 2 => up (n := 2) 5 (toT (multiplicativeGenerator 2))
  | 3 => up (n := 3) 4 (toT (multiplicativeGenerator 3))
  | 4 => up (n := 4) 3 (toT (multiplicativeGenerator 4))
  | 5 => up (n := 5) 2 (toT (multiplicativeGenerator 5))
  | 6 => up (n := 6) 1 (toT (multiplicativeGenerator 6))
  | _ => toT (multiplicativeGenerator 7)

theorem gen7_spec {l : Nat} (hl : l ≤ 7) : InSub 7 l (gen7 l) ∧ orderOf (gen7 l) = 2 ^ 2 ^ l - 1 := by
  have h : l = 0 ∨ l = 1 ∨ l = 2 ∨ l = 3 ∨ l = 4 ∨ l = 5 ∨ l = 6 ∨ l = 7 := by omega
  rcases h with rfl | rfl | rfl | rfl | rfl | rfl | rfl | rfl
  · exact ⟨inSub_up (n := 0) _ 7, (orderOf_up (n := 0) 7 _).trans (orderOf_generator 0)⟩
  · exact ⟨inSub_up (n := 1) _ 6, (orderOf_up (n := 1) 6 _).trans (orderOf_generator 1)⟩
  · exact ⟨inSub_up (n := 2) _ 5, (orderOf_up (n := 2) 5 _).trans (orderOf_generator 2)⟩
  · exact ⟨inSub_up (n := 3) _ 4, (orderOf_up (n := 3) 4 _).trans (orderOf_generator 3)⟩
  · exact ⟨inSub_up (n := 4) _ 3, (orderOf_up (n := 4) 3 _).trans (orderOf_generator 4)⟩
  · exact ⟨inSub_up (n := 5) _ 2, (orderOf_up (n := 5) 2 _).trans (orderOf_generator 5)⟩
  · exact ⟨inSub_up (n := 6) _ 1, (orderOf_up (n := 6) 1 _).trans (orderOf_generator 6)⟩
  · exact ⟨Or.inl le_rfl, orderOf_generator 7⟩

/-- The two halves of an element, as homomorphisms. -/
def fstHom (n : Nat) : T (n + 1) →+ T n where
  toFun x := x.1
  map_zero' := rfl
  map_add' _ _ := rfl

def sndHom (n : Nat) : T (n + 1) →+ T n where
  toFun x := x.2
  map_zero' := rfl
  map_add' _ _ := rfl

theorem basis_indep : ∀ (N : Nat) (a : Nat → Bool), ∑ k ∈ range (2 ^ N), (if a k then basisT N k else 0) = 0 →
    ∀ k < 2 ^ N, a k = false
  | 0, a, h, k, hk => by
    have hk : k = 0 := by simpa using hk
    subst hk
    have h : (if a 0 then basisT 0 0 else 0) = 0 := by simpa using h
    cases h0 : a 0 with
    | false => rfl
    | true => rw [h0] at h; exact absurd h (by show ¬(1 : T 0) = 0; exact one_ne_zero)
  | N + 1, a, h, k, hk => by
    have hpow : 2 ^ (N + 1) = 2 ^ N + 2 ^ N := by rw [pow_succ]; omega
    rw [hpow, sum_range_add] at h
    have hlow : ∀ i ∈ range (2 ^ N), basisT (N + 1) i = mkT (basisT N i) 0 := fun i hi => if_pos (mem_range.1 hi)
    have hhigh : ∀ i, basisT (N + 1) (2 ^ N + i) = mkT 0 (basisT N i) := fun i => by
      refine (if_neg (by omega)).trans ?_
      rw [Nat.add_sub_cancel_left]; rfl
    have h1 := congrArg (fstHom N) h
    have h2 := congrArg (sndHom N) h
    rw [map_add, map_sum, map_sum, map_zero] at h1 h2
    have e1 : ∑ i ∈ range (2 ^ N), (if a i then basisT N i else 0) = 0 := by
      refine Eq.trans ?_ h1
      refine (add_zero _).symm.trans (congrArg₂ (· + ·) (sum_congr rfl fun i hi => ?_) (sum_eq_zero fun i _ => ?_).symm)
      · rw [hlow i hi]; cases a i <;> rfl
      · rw [hhigh i]; cases a (2 ^ N + i) <;> rfl
    have e2 : ∑ i ∈ range (2 ^ N), (if a (2 ^ N + i) then basisT N i else 0) = 0 := by
      refine Eq.trans ?_ h2
      refine (zero_add _).symm.trans (congrArg₂ (· + ·) (sum_eq_zero fun i hi => ?_).symm (sum_congr rfl fun i _ => ?_))
      · rw [hlow i hi]; cases a i <;> rfl
      · rw [hhigh i]; cases a (2 ^ N + i) <;> rfl
    rcases Nat.lt_or_ge k (2 ^ N) with hk' | hk'
    · exact basis_indep N a e1 k hk'
    · have := basis_indep N (fun i => a (2 ^ N + i)) e2 (k - 2 ^ N) (by omega)
      simpa [Nat.add_sub_cancel' hk'] using this

/-- The field of 128 bits satisfies what the specification of tables asks of a field. -/
def tower128 : Tower (T 7) where
  sub := InSub 7
  basis := basisT 7
  gen := gen7
  height := 7
  sub_zero := inSub_zero 7
  sub_mono := inSub_mono 7
  sub_add := inSub_add 7
  sub_mul := inSub_mul 7
  basis_sub := fun l hl => inSub_basis 7 l hl
  indep := by
    intro a ha h k hk
    have := basis_indep 7 (fun k => decide (a k = 1)) (by
      refine Eq.trans (sum_congr rfl fun i _ => ?_) h
      rcases ha i with h0 | h1
      · simp [h0]
      · simp [h1]) k hk
    rcases ha k with h0 | h1
    · exact h0
    · simp [h1] at this
  gen_sub := fun l hl => (gen7_spec hl).1
  gen_order := fun l hl => (gen7_spec hl).2

end Verif.M3
