import Verif.Sumcheck.SpecSumcheck
import Verif.Protocol.LemmasProg
import Verif.Math.LemmasMle
import Verif.Util.Loop
import Verif.Utils.PropsSorting
import Mathlib.Algebra.Polynomial.Roots
import Mathlib.RingTheory.Polynomial.Basic
import Mathlib.Tactic.LinearCombination

set_option linter.unusedSectionVars false

namespace Verif.Sumcheck

open Verif.Mle Verif.Protocol Verif.Univariate Finset Polynomial

variable {F : Type} [Field F]

/-! ## Batching -/

theorem innerPowers_scale (a p : F) (vs : List F) : innerPowers a p vs = p * innerPowers a 1 vs := by
  induction vs generalizing p with
  | nil => simp [innerPowers]
  | cons v vs ih =>
    rw [innerPowers, innerPowers, ih (p * a), ih (1 * a)]
    ring

theorem bwv_nil (a : F) : batchWeightedValue a [] = 0 := by simp [batchWeightedValue, innerPowers]

theorem bwv_cons (a v : F) (vs : List F) :
    batchWeightedValue a (v :: vs) = a * (v + batchWeightedValue a vs) := by
  rw [batchWeightedValue, innerPowers, innerPowers_scale, batchWeightedValue]
  ring

/-- The weighted value as a polynomial in the batching coefficient. -/
noncomputable def bwPoly : List F → F[X]
  | [] => 0
  | v :: vs => X * (C v + bwPoly vs)

theorem bwPoly_eval (a : F) (vs : List F) : (bwPoly vs).eval a = batchWeightedValue a vs := by
  induction vs with
  | nil => simp [bwPoly, bwv_nil]
  | cons v vs ih => simp [bwPoly, bwv_cons, ih]

theorem bwPoly_natDegree (vs : List F) : (bwPoly vs).natDegree ≤ vs.length := by
  induction vs with
  | nil => simp [bwPoly]
  | cons v vs ih =>
    rw [bwPoly, List.length_cons]
    refine (natDegree_mul_le).trans ?_
    have h1 := natDegree_add_le (C v) (bwPoly vs)
    have h2 : (X : F[X]).natDegree ≤ 1 := natDegree_X_le
    rw [natDegree_C] at h1
    have := Nat.max_le.mpr ⟨Nat.zero_le vs.length, ih⟩
    omega

theorem bwPoly_sub (as bs : List F) (h : as.length = bs.length) :
    bwPoly as - bwPoly bs = bwPoly (List.zipWith (· - ·) as bs) := by
  induction as generalizing bs with
  | nil => cases bs <;> simp_all [bwPoly]
  | cons a as ih =>
    cases bs with
    | nil => simp at h
    | cons b bs =>
      rw [List.zipWith_cons_cons, bwPoly, bwPoly, bwPoly, ← ih bs (by simpa using h), C_sub]
      ring

theorem bwPoly_zero {e : F} {vs : List F} (h : C e + bwPoly vs = 0) : e = 0 ∧ ∀ v ∈ vs, v = 0 := by
  induction vs generalizing e with
  | nil => simpa [bwPoly] using h
  | cons v vs ih =>
    have he : e = 0 := by
      have := congrArg (fun p : F[X] => p.coeff 0) h
      simpa [bwPoly] using this
    subst he
    have h' : C v + bwPoly vs = 0 := by
      rw [bwPoly, C_0, zero_add] at h
      rcases mul_eq_zero.mp h with h | h
      · exact absurd h X_ne_zero
      · exact h
    have := ih h'
    exact ⟨rfl, fun w hw => (List.mem_cons.mp hw).elim (fun e => e ▸ this.1) (this.2 w)⟩

theorem bwv_add (a : F) (as bs : List F) (h : as.length = bs.length) :
    batchWeightedValue a as + batchWeightedValue a bs
      = batchWeightedValue a (List.zipWith (· + ·) as bs) := by
  induction as generalizing bs with
  | nil => cases bs <;> simp_all [bwv_nil]
  | cons x as ih =>
    cases bs with
    | nil => simp at h
    | cons y bs =>
      rw [List.zipWith_cons_cons, bwv_cons, bwv_cons, bwv_cons, ← ih bs (by simpa using h)]
      ring

theorem bwv_sum {ι A : Type} (s : Finset ι) (a : F) (l : List A) (f : A → ι → F) :
    ∑ i ∈ s, batchWeightedValue a (l.map fun x => f x i)
      = batchWeightedValue a (l.map fun x => ∑ i ∈ s, f x i) := by
  induction l with
  | nil => simp [bwv_nil]
  | cons x l ih =>
    simp only [List.map_cons, bwv_cons]
    rw [← ih, ← Finset.mul_sum, Finset.sum_add_distrib]

/-! ## Round polynomials -/

/-- The polynomial with the given coefficients, lowest first. -/
noncomputable def coeffPoly : List F → F[X]
  | [] => 0
  | c :: cs => C c + X * coeffPoly cs

theorem evaluateUnivariate_cons (c : F) (cs : List F) (x : F) :
    evaluateUnivariate (c :: cs) x = evaluateUnivariate cs x * x + c := rfl

theorem coeffPoly_eval (cs : List F) (x : F) : (coeffPoly cs).eval x = evaluateUnivariate cs x := by
  induction cs with
  | nil => simp [coeffPoly, evaluateUnivariate]
  | cons c cs ih => rw [evaluateUnivariate_cons, coeffPoly, ← ih]; simp; ring

theorem coeffPoly_natDegree (cs : List F) : (coeffPoly cs).natDegree ≤ cs.length - 1 := by
  induction cs with
  | nil => simp [coeffPoly]
  | cons c cs ih =>
    cases cs with
    | nil => simp [coeffPoly]
    | cons d cs =>
      rw [coeffPoly]
      refine (natDegree_add_le _ _).trans ?_
      rw [natDegree_C]
      refine Nat.max_le.mpr ⟨Nat.zero_le _, (natDegree_mul_le).trans ?_⟩
      have h2 : (X : F[X]).natDegree ≤ 1 := natDegree_X_le
      simp only [List.length_cons] at ih ⊢
      omega

theorem evaluateUnivariate_zero (c : F) (cs : List F) : evaluateUnivariate (c :: cs) 0 = c := by
  rw [evaluateUnivariate_cons]; ring

theorem evaluateUnivariate_one (cs : List F) : evaluateUnivariate cs 1 = cs.sum := by
  induction cs with
  | nil => rfl
  | cons c cs ih => rw [evaluateUnivariate_cons, ih, List.sum_cons]; ring

theorem recover_sum (c : F) (cs : List F) (sum : F) :
    evaluateUnivariate (recover (c :: cs) sum) 0 + evaluateUnivariate (recover (c :: cs) sum) 1
      = sum := by
  rw [evaluateUnivariate_one]
  simp only [recover, List.cons_append]
  rw [evaluateUnivariate_zero]
  simp only [List.sum_cons, List.sum_append, List.sum_nil]
  ring

theorem recover_length (cs : List F) (sum : F) : (recover cs sum).length = cs.length + 1 := by
  simp [recover]

/-! ## Sums over the hypercube -/

/-- The sum of `h` over the vertices of the `n`-cube. -/
def cube (n : Nat) (h : List F → F) : F := ∑ b ∈ range (2 ^ n), h (vertex n b)

theorem cube_zero (h : List F → F) : cube 0 h = h [] := by simp [cube, vertex]

theorem cube_succ (n : Nat) (h : List F → F) :
    cube (n + 1) h = cube n (fun v => h (0 :: v)) + cube n (fun v => h (1 :: v)) := by
  unfold cube
  rw [pow_succ, Nat.mul_comm, sum_range_mul, ← Finset.sum_add_distrib]
  refine Finset.sum_congr rfl fun j _ => ?_
  rw [Finset.sum_range_succ, Finset.sum_range_one, vertex_succ, vertex_succ]
  rw [if_neg (by omega), if_pos (by omega), show (0 + 2 * j) / 2 = j by omega,
    show (1 + 2 * j) / 2 = j by omega]

theorem cube_add (n : Nat) (g h : List F → F) :
    cube n (fun v => g v + h v) = cube n g + cube n h := Finset.sum_add_distrib

theorem cube_snoc (n : Nat) (h : List F → F) :
    cube (n + 1) h = cube n (fun v => h (v ++ [0])) + cube n (fun v => h (v ++ [1])) := by
  induction n generalizing h with
  | zero => rw [cube_succ]; simp [cube_zero]
  | succ n ih =>
    rw [cube_succ, ih, ih, cube_succ n (fun v => h (v ++ [0])), cube_succ n (fun v => h (v ++ [1]))]
    simp only [List.cons_append]
    ring

theorem cube_reverse (n : Nat) (h : List F → F) : cube n (fun v => h v.reverse) = cube n h := by
  induction n generalizing h with
  | zero => simp [cube_zero]
  | succ n ih =>
    rw [cube_succ, cube_snoc]
    simp only [List.reverse_cons]
    rw [ih (fun v => h (v ++ [0])), ih (fun v => h (v ++ [1]))]

/-! ## Functions that are polynomials of bounded degree in each coordinate -/

def PolyIn (d : Nat) (h : List F → F) : Prop :=
  ∀ l s : List F, ∃ Q : F[X], Q.natDegree ≤ d ∧ ∀ x, h (l ++ x :: s) = Q.eval x

theorem PolyIn.mono {d d' : Nat} {h : List F → F} (hh : PolyIn d h) (hd : d ≤ d') : PolyIn d' h :=
  fun l s => let ⟨Q, hq, e⟩ := hh l s; ⟨Q, hq.trans hd, e⟩

theorem PolyIn.zero (d : Nat) : PolyIn d (fun _ => (0 : F)) := fun _ _ => ⟨0, by simp, by simp⟩

theorem PolyIn.add {d : Nat} {g h : List F → F} (hg : PolyIn d g) (hh : PolyIn d h) :
    PolyIn d fun v => g v + h v := fun l s =>
  let ⟨Q, hq, e⟩ := hg l s
  let ⟨R, hr, e'⟩ := hh l s
  ⟨Q + R, (natDegree_add_le _ _).trans (Nat.max_le.mpr ⟨hq, hr⟩), fun x => by
    rw [eval_add, ← e, ← e']⟩

theorem PolyIn.smul {d : Nat} {h : List F → F} (c : F) (hh : PolyIn d h) :
    PolyIn d fun v => c * h v := fun l s =>
  let ⟨Q, hq, e⟩ := hh l s
  ⟨C c * Q, (natDegree_C_mul_le _ _).trans hq, fun x => by
    rw [eval_mul, eval_C, ← e]⟩

theorem PolyIn.bwv {A : Type} {d : Nat} (a : F) (l : List A) (f : A → List F → F)
    (hf : ∀ x ∈ l, PolyIn d (f x)) : PolyIn d fun v => batchWeightedValue a (l.map fun x => f x v) := by
  induction l with
  | nil => simpa [bwv_nil] using PolyIn.zero d
  | cons x l ih =>
    simp only [List.map_cons, bwv_cons]
    exact ((hf x (List.mem_cons_self ..)).add (ih fun y hy => hf y (List.mem_cons_of_mem _ hy))).smul a

theorem PolyIn.listSum {A : Type} {d : Nat} (l : List A) (f : A → List F → F)
    (hf : ∀ x ∈ l, PolyIn d (f x)) : PolyIn d fun v => (l.map fun x => f x v).sum := by
  induction l with
  | nil => simpa using PolyIn.zero d
  | cons x l ih =>
    simp only [List.map_cons, List.sum_cons]
    exact (hf x (List.mem_cons_self ..)).add (ih fun y hy => hf y (List.mem_cons_of_mem _ hy))

theorem PolyIn.prefix {d : Nat} {h : List F → F} (hh : PolyIn d h) (c : List F) :
    PolyIn d fun v => h (c ++ v) := fun l s =>
  let ⟨Q, hq, e⟩ := hh (c ++ l) s
  ⟨Q, hq, fun x => by rw [← e, List.append_assoc]⟩

theorem PolyIn.reverse {d : Nat} {h : List F → F} (hh : PolyIn d h) :
    PolyIn d fun v => h v.reverse := fun l s =>
  let ⟨Q, hq, e⟩ := hh s.reverse l.reverse
  ⟨Q, hq, fun x => by rw [← e]; simp⟩

/-- The true round polynomial exists and has bounded degree. -/
theorem PolyIn.round {d n : Nat} {h : List F → F} (hh : PolyIn d h) :
    ∃ P : F[X], P.natDegree ≤ d ∧ ∀ x, cube n (fun v => h (x :: v)) = P.eval x := by
  choose Q hq e using fun b => hh [] (vertex n b)
  refine ⟨∑ b ∈ range (2 ^ n), Q b, natDegree_sum_le_of_forall_le _ _ fun b _ => hq b, fun x => ?_⟩
  rw [eval_finsetSum]
  exact Finset.sum_congr rfl fun b _ => e b x

theorem eval_aeval (f : ℕ → F[X]) (p : MvPolynomial ℕ F) (x : F) :
    MvPolynomial.eval (fun i => (f i).eval x) p = (MvPolynomial.aeval f p).eval x := by
  induction p using MvPolynomial.induction_on with
  | C a => simp
  | add p q hp hq => simp only [map_add, eval_add, hp, hq]
  | mul_X p n hp => simp only [map_mul, eval_mul, hp, MvPolynomial.eval_X, MvPolynomial.aeval_X]

theorem polyIn_evalAt (p : MvPolynomial ℕ F) (tables : List (Nat → F)) {d : Nat}
    (hd : p.totalDegree ≤ d) : PolyIn d fun v => evalAt p (tables.map fun t => mle t v) := by
  intro l s
  let f : ℕ → F[X] := fun i =>
    match tables[i]? with
    | some t => C (mle t (l ++ 0 :: s)) + X * C (mle t (l ++ 1 :: s) - mle t (l ++ 0 :: s))
    | none => 0
  refine ⟨MvPolynomial.aeval f p, ?_, fun x => ?_⟩
  · have := MvPolynomial.aeval_natDegree_le p hd f (n := 1) (fun i => by
      show (match tables[i]? with
        | some t => C (mle t (l ++ 0 :: s)) + X * C (mle t (l ++ 1 :: s) - mle t (l ++ 0 :: s))
        | none => (0 : F[X])).natDegree ≤ 1
      split
      · refine (natDegree_add_le _ _).trans ?_
        rw [natDegree_C]
        refine Nat.max_le.mpr ⟨Nat.zero_le _, ?_⟩
        refine (natDegree_mul_le).trans ?_
        rw [natDegree_C]
        exact natDegree_X_le
      · simp)
    simpa using this
  · have key : ∀ i, (tables.map fun t => mle t (l ++ x :: s)).getD i 0 = (f i).eval x := by
      intro i
      show _ = (match tables[i]? with
        | some t => C (mle t (l ++ 0 :: s)) + X * C (mle t (l ++ 1 :: s) - mle t (l ++ 0 :: s))
        | none => (0 : F[X])).eval x
      rw [List.getD_eq_getElem?_getD, List.getElem?_map]
      cases tables[i]? with
      | none => simp
      | some t =>
        simp only [Option.map_some, Option.getD_some, eval_add, eval_mul, eval_C, eval_X]
        rw [mle_isMultilinear t (l.length + 1 + s.length) l s x rfl]
        ring
    show MvPolynomial.eval _ p = _
    rw [funext key]
    exact eval_aeval f p x

/-! ## The truth behind the running sum -/

/-- A composite polynomial of an instance at a point in the order of binding. -/
noncomputable def gval (order : EvaluationOrder) (I : Instance F) (p : MvPolynomial ℕ F)
    (v : List F) : F := evalAt p (I.tables.map fun t => mle t (arrange order v))

theorem gval_polyIn (order : EvaluationOrder) (I : Instance F) (p : MvPolynomial ℕ F) {d : Nat}
    (hd : p.totalDegree ≤ d) : PolyIn d (gval order I p) := by
  cases order with
  | lowToHigh => exact polyIn_evalAt p I.tables hd
  | highToLow => exact (polyIn_evalAt p I.tables hd).reverse

theorem cube_gval (order : EvaluationOrder) (I : Instance F) (p : MvPolynomial ℕ F) (n : Nat) :
    cube n (gval order I p) = cubeSum n I.tables p := by
  have h : cube n (fun v => evalAt p (I.tables.map fun t => mle t v)) = cubeSum n I.tables p := by
    refine Finset.sum_congr rfl fun b hb => ?_
    have hb := Finset.mem_range.mp hb
    refine congrArg (evalAt p) (List.map_congr_left fun t _ => mle_vertex t n b hb)
  cases order with
  | lowToHigh => exact h
  | highToLow =>
    rw [← h]
    exact cube_reverse n fun v => evalAt p (I.tables.map fun t => mle t v)

/-- The value the running sum should have at the point `v`, given the claims batched in. -/
noncomputable def truth (order : EvaluationOrder) (nR : Nat) (act : List (F × Instance F))
    (chs v : List F) : F :=
  (act.map fun a => batchWeightedValue a.1
    (a.2.polys.map fun p => gval order a.2 p (chs.drop (nR - a.2.claim.nVars) ++ v))).sum

end Verif.Sumcheck
