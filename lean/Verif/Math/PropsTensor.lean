import Verif.Math.LemmasTensor
import Mathlib.Data.Int.Basic
import Mathlib.Data.ZMod.Basic

/-! C17: tensor expansion and multilinear evaluation. -/

namespace Verif.Tensor

open Verif.Mle

variable {F : Type*} [CommRing F]

/-- C17 (tensor product).  `tensor_prod_eq_ind` on a buffer of the accepted length never panics and
replaces the first `2^logN` values `v` by `v ⊗ (1-r_0, r_0) ⊗ … ⊗ (1-r_{k-1}, r_{k-1})`; other lengths are
refused. -/
theorem C17_tensor_prod (w logN len : Nat) (rs : List F) (v : Nat → F) :
    (len = max 1 (2 ^ (logN + rs.length) / 2 ^ w) →
      ∃ q', tensorProdEqInd w logN ⟨len * 2 ^ w, v⟩ rs = some (.ok q') ∧ q'.size = len * 2 ^ w ∧
        (∀ i < 2 ^ logN, ∀ j < 2 ^ rs.length, q'.val (i + 2 ^ logN * j) = v i * eqWeight rs j) ∧
        ∀ i, 2 ^ (logN + rs.length) ≤ i → q'.val i = v i) ∧
    (len ≠ max 1 (2 ^ (logN + rs.length) / 2 ^ w) →
      tensorProdEqInd w logN ⟨len * 2 ^ w, v⟩ rs = some (.error .invalidPackedValuesLength)) := by
  constructor
  · intro h
    rw [max_pow_div] at h
    subst h
    exact tensorProdEqInd_eq w logN rs v
  · intro h
    unfold tensorProdEqInd
    rw [packedLen_mul, if_pos h]

example : ∃ q', tensorProdEqInd 1 1 ⟨4 * 2 ^ 1, fun i => ((i : Int) + 5)⟩ [2, 3] = some (.ok q') ∧
    q'.val 7 = 6 * (2 * 3) := by
  obtain ⟨q', h, _, hv, _⟩ := (C17_tensor_prod 1 1 4 [2, 3] fun i => ((i : Int) + 5)).1 rfl
  exact ⟨q', h, (hv 1 (by decide) 3 (by decide)).trans (by decide)⟩

/-- C17 (expansion).  `MultilinearQuery::expand(r).expansion()` has the Lagrange basis polynomial of
vertex `b` at `r` as entry `b`, for every packing width and every point. -/
theorem C17_expand (w : Nat) (point : List F) :
    ∃ q e, Query.expand w point = some q ∧ q.nVars = point.length ∧ q.expansion w = some e ∧
      e.size = 2 ^ (point.length - w) * 2 ^ w ∧
      ∀ b < 2 ^ point.length, e.val b = eqWeight point b := by
  obtain ⟨b, h, hs, hv, _⟩ := eqIndPartialEval_eq w point
  refine ⟨⟨point.length, b⟩, ⟨2 ^ (point.length - w) * 2 ^ w, b.val⟩, ?_, rfl, ?_, rfl, hv⟩
  · simp [Query.expand, h]
  · simp only [Query.expansion]
    rw [if_pos]
    show _ ≤ packedLen w b
    unfold packedLen
    rw [hs, Nat.mul_div_cancel _ (Nat.two_pow_pos w)]

example : ∃ q e, Query.expand 2 [(2 : Int), 3, 5] = some q ∧ q.expansion 2 = some e ∧
    e.val 6 = -1 * 3 * 5 := by
  obtain ⟨q, e, h1, _, h2, _, h3⟩ := C17_expand 2 [(2 : Int), 3, 5]
  exact ⟨q, e, h1, h2, by rw [h3 6 (by decide)]; decide⟩

/-- `q` holds the expansion of `point`. -/
def Represents (w : Nat) (q : Query F) (point : List F) : Prop :=
  q.nVars = point.length ∧ ∃ e, q.expansion w = some e ∧ ∀ b < 2 ^ point.length, e.val b = eqWeight point b

/-- C17 (incremental expansion).  A query with a buffer of `cap` packed elements holding the expansion of
`p` is updated with further coordinates to the expansion of the longer point if it fits, and reports
`MultilinearQueryFull` if not. -/
theorem C17_update (w cap : Nat) (q : Query F) (p extra : List F) (hcap : q.expanded.size = cap * 2 ^ w)
    (hq : Represents w q p) :
    (2 ^ (p.length + extra.length - w) ≤ cap →
      ∃ q', q.update w extra = some (.ok q') ∧ q'.expanded.size = cap * 2 ^ w ∧
        Represents w q' (p ++ extra)) ∧
    (cap < 2 ^ (p.length + extra.length - w) → q.update w extra = some (.error .multilinearQueryFull)) := by
  obtain ⟨hn, e, he, hv⟩ := hq
  have hpl : packedLen w q.expanded = cap := by
    unfold packedLen; rw [hcap, Nat.mul_div_cancel _ (Nat.two_pow_pos w)]
  have hval : e.val = q.expanded.val := by
    unfold Query.expansion at he
    split at he
    · cases he; rfl
    · cases he
  rw [hval] at hv
  have hmax : max (2 ^ (q.nVars + extra.length) / 2 ^ w) 1 = 2 ^ (p.length + extra.length - w) := by
    rw [max_comm, max_pow_div, hn]
  constructor
  · intro hfit
    obtain ⟨b, hb, hs, hbv, _⟩ := tensorProdEqInd_eq w q.nVars extra q.expanded.val
    rw [hn] at hb hs hbv
    refine ⟨⟨q.nVars + extra.length, ⟨q.expanded.size, fun i => if i < 2 ^ (p.length + extra.length - w) * 2 ^ w
      then b.val i else q.expanded.val i⟩⟩, ?_, hcap, ?_, ?_⟩
    · unfold Query.update
      simp only [hmax]
      rw [if_neg (by rw [hpl]; omega), hn, hb]
      rfl
    · show q.nVars + _ = _
      rw [hn, List.length_append]
    · refine ⟨⟨2 ^ (q.nVars + extra.length - w) * 2 ^ w, fun i =>
        if i < 2 ^ (p.length + extra.length - w) * 2 ^ w then b.val i else q.expanded.val i⟩, ?_, ?_⟩
      · unfold Query.expansion
        rw [if_pos]
        show 2 ^ (q.nVars + extra.length - w) ≤ packedLen w q.expanded
        rw [hpl, hn]; exact hfit
      · intro c hc
        rw [List.length_append] at hc
        have hle := le_pow_sub_mul w (p.length + extra.length)
        show (if c < _ then _ else _) = _
        rw [if_pos (by omega)]
        have hpos := Nat.two_pow_pos p.length
        have hj : c / 2 ^ p.length < 2 ^ extra.length := by
          rw [Nat.div_lt_iff_lt_mul hpos, ← Nat.pow_add, Nat.add_comm]; exact hc
        have := hbv (c % 2 ^ p.length) (Nat.mod_lt _ hpos) (c / 2 ^ p.length) hj
        rw [Nat.mod_add_div] at this
        rw [this, hv _ (Nat.mod_lt _ hpos), eqWeight_mod, eqWeight_append]
  · intro h
    unfold Query.update
    simp only [hmax]
    rw [if_pos (by rw [hpl]; exact h)]

/-- C17 (initial query): `with_capacity` is the expansion of the empty point with room for
`max_query_vars` coordinates. -/
theorem C17_with_capacity (w maxVars : Nat) :
    ∃ q : Query F, Query.withCapacity w maxVars = some q ∧
      q.expanded.size = 2 ^ (maxVars - w) * 2 ^ w ∧ Represents w q [] := by
  have hpos : 0 < 2 ^ (maxVars - w) * 2 ^ w := Nat.mul_pos (Nat.two_pow_pos _) (Nat.two_pow_pos _)
  refine ⟨⟨0, ⟨2 ^ (maxVars - w) * 2 ^ w, fun j => if j = 0 then 1 else 0⟩⟩, ?_, rfl, rfl, ?_⟩
  · simp [Query.withCapacity, unitBuffer, Slice.set?]
  · refine ⟨⟨2 ^ (0 - w) * 2 ^ w, fun j => if j = 0 then 1 else 0⟩, ?_, ?_⟩
    · unfold Query.expansion
      rw [if_pos]
      rw [packedLen_mul, Nat.zero_sub]
      exact Nat.two_pow_pos _
    · intro b hb
      have : b = 0 := by simpa using hb
      subst this; simp

example : ∃ q0 q1 : Query Int, Query.withCapacity 1 3 = some q0 ∧ q0.update 1 [7, 8] = some (.ok q1) ∧
    Represents 1 q1 [7, 8] := by
  obtain ⟨q0, h0, hs, hr⟩ := C17_with_capacity (F := Int) 1 3
  obtain ⟨q1, h1, _, hr1⟩ := (C17_update 1 (2 ^ (3 - 1)) q0 [] [7, 8] hs hr).1 (by decide)
  exact ⟨q0, q1, h0, h1, hr1⟩

variable {F' : Type*}

/-- C17 (given expansion): `with_expansion` accepts a buffer exactly when it has room for the expansion, and keeps it, so
that with the Lagrange basis polynomials at a point as its entries it is the expansion of the point. -/
theorem C17_with_expansion (w cap : Nat) (point : List F) (v : Nat → F) :
    (cap < 2 ^ (point.length - w) →
      Query.withExpansion w point.length ⟨cap * 2 ^ w, v⟩ = .error .incorrectArgumentLength) ∧
    (2 ^ (point.length - w) ≤ cap → (∀ b < 2 ^ point.length, v b = eqWeight point b) →
      ∃ q, Query.withExpansion w point.length ⟨cap * 2 ^ w, v⟩ = .ok q ∧ q.expanded.size = cap * 2 ^ w ∧
        Represents w q point) := by
  have hpl : packedLen w ⟨cap * 2 ^ w, v⟩ = cap := by
    unfold packedLen
    exact Nat.mul_div_cancel _ (Nat.two_pow_pos w)
  unfold Query.withExpansion
  rw [hpl]
  refine ⟨fun h => if_pos h, fun h hv => ?_⟩
  rw [if_neg (by omega)]
  refine ⟨_, rfl, rfl, rfl, ⟨2 ^ (point.length - w) * 2 ^ w, v⟩, ?_, hv⟩
  unfold Query.expansion
  dsimp only
  rw [hpl, if_pos h]

example : ∃ q, Query.withExpansion 1 2 (⟨4, fun b => eqWeight [3, 5] b⟩ : Slice ℚ) = .ok q ∧ Represents 1 q [3, 5] := by
  obtain ⟨q, h1, -, h2⟩ := (C17_with_expansion 1 2 [3, 5] (fun b => eqWeight ([3, 5] : List ℚ) b)).2 (by decide)
    (fun _ _ => rfl)
  exact ⟨q, h1, h2⟩

/-- C17 (evaluation).  Evaluating a table of `2^n` values at the expansion of a point of `n` coordinates
is the multilinear extension of the (embedded) table at the point; a point with another number of
coordinates is refused.  The side condition excludes the panic of `C17_evaluate_panics`. -/
theorem C17_evaluate (emb : F' → F) (w w' n : Nat) (v : Slice F') (m : Mlx F') (q : Query F)
    (point : List F) (hsz : 2 ^ w ∣ v.size) (hm : Mlx.new w n v = .ok m)
    (hq : Represents w' q point) (hw : w' ≤ w + 6) :
    (n = point.length → m.evaluate emb w w' q = some (.ok (mle (fun b => emb (v.val b)) point))) ∧
    (n ≠ point.length → m.evaluate emb w w' q = some (.error .incorrectQuerySize)) := by
  obtain ⟨hn, e, he, hv⟩ := hq
  have hmm : m = ⟨n, v⟩ := by
    unfold Mlx.new at hm
    split at hm
    · cases hm
    · split at hm
      · split at hm
        · cases hm
        · cases hm; rfl
      · split at hm
        · cases hm
        · cases hm; rfl
  have hsize : v.size = 2 ^ (n - w) * 2 ^ w := by
    have h1 : packedLen w v = 2 ^ (n - w) := by
      unfold Mlx.new at hm
      split at hm
      · cases hm
      · rename_i hp
        rw [not_not] at hp
        split at hm
        · rename_i hlt
          split at hm
          · cases hm
          · rename_i h
            rw [not_not] at h
            rw [h, Nat.sub_eq_zero_of_le hlt.le]; rfl
        · split at hm
          · cases hm
          · rename_i h
            rw [not_not] at h
            obtain ⟨k, hk⟩ := hp
            rw [hk, Nat.log2_two_pow] at h
            rw [hk]; congr 1; omega
    rw [← h1]; exact (Nat.div_mul_cancel hsz).symm
  subst hmm
  constructor
  · intro hlen
    unfold Mlx.evaluate
    rw [if_neg (by simp [hn, hlen]), he]
    have hes : e.size = 2 ^ (n - w') * 2 ^ w' := by
      unfold Query.expansion at he
      split at he
      · cases he; show 2 ^ (q.nVars - w') * _ = _; rw [hn, hlen]
      · cases he
    have h1 := le_pow_sub_mul w n
    have h2 := le_pow_sub_mul w' n
    have hsum : ∑ i ∈ Finset.range (2 ^ n), e.val i * emb (v.val i) =
        mle (fun b => emb (v.val b)) point := by
      unfold mle
      rw [← hlen]
      exact Finset.sum_congr rfl fun i hi => by
        rw [hv i (by rw [← hlen]; exact Finset.mem_range.1 hi)]
    show (if n < w ∨ q.nVars < w' then _ else _) = _
    by_cases hsmall : n < w ∨ q.nVars < w'
    · rw [if_pos hsmall]
      have hA : Slice.takeScalars e (2 ^ q.nVars) = ⟨2 ^ n, e.val⟩ := by
        unfold Slice.takeScalars
        congr 1
        rw [hn, ← hlen, hes]; exact min_eq_left h2
      have hB : Slice.takeScalars v (2 ^ n) = ⟨2 ^ n, v.val⟩ := by
        unfold Slice.takeScalars
        congr 1
        rw [hsize]; exact min_eq_left h1
      rw [hA]
      show Option.map _ (innerProductPar emb 0 0 _ (Slice.takeScalars v (2 ^ n))) = _
      rw [hB, innerProductPar_eq _ _ _ _ _ _ (by simp) (.inr (by omega)), hsum]
      rfl
    · rw [if_neg hsmall]
      have hA : e.size = 2 ^ n := by
        rw [hes, ← Nat.pow_add]; congr 1; omega
      have hB : v.size = 2 ^ n := by
        rw [hsize, ← Nat.pow_add]; congr 1; omega
      have hA' : e = ⟨2 ^ n, e.val⟩ := by rw [← hA]
      have hB' : v = ⟨2 ^ n, v.val⟩ := by rw [← hB]
      show Option.map _ (innerProductPar emb w' w e v) = _
      rw [hA', hB', innerProductPar_eq _ _ _ _ _ _ (Nat.pow_dvd_pow 2 (by omega)) (.inr hw)]
      rw [← hB', hsum]
      rfl
  · intro hlen
    unfold Mlx.evaluate
    rw [if_pos (by simp [hn, hlen])]

example : ∃ q m, Query.expand 0 [(2 : Int), 3] = some q ∧
    Mlx.new 1 2 ⟨4, fun i => (i : Int)⟩ = .ok m ∧
    m.evaluate id 1 0 q = some (.ok 8) := by
  obtain ⟨q, e, h1, hn, h2, _, h3⟩ := C17_expand 0 [(2 : Int), 3]
  refine ⟨q, _, h1, rfl, ?_⟩
  rw [(C17_evaluate id 1 0 2 ⟨4, fun i => (i : Int)⟩ _ q [2, 3] (by decide) rfl ⟨hn, e, h2, h3⟩
    (by decide)).1 rfl]
  decide

/-- The side condition of `C17_evaluate` cannot be dropped: with a query packing more than 64 times
wider than that of a table of at least `2^(10+w)` values, evaluation panics in `inner_product_par`
(`checked_int_div`). -/
theorem C17_evaluate_panics (w w' n : Nat) (m : Mlx F) (q : Query F) (point : List F)
    (hw : w + 6 < w') (hn : w + 10 ≤ n) (hn' : w' ≤ n) (hm : m = ⟨n, ⟨2 ^ n, m.evals.val⟩⟩)
    (hq : Represents w' q point) (hlen : point.length = n) : m.evaluate id w w' q = none := by
  obtain ⟨hqn, e, he, -⟩ := hq
  rw [hm]
  unfold Mlx.evaluate
  rw [if_neg (by simp [hqn, hlen]), he]
  have hes : e.size = 2 ^ n := by
    unfold Query.expansion at he
    split at he
    · cases he
      show 2 ^ (q.nVars - w') * _ = _
      rw [hqn, hlen, ← Nat.pow_add]; congr 1; omega
    · cases he
  show (if n < w ∨ q.nVars < w' then _ else _) = none
  rw [if_neg (by omega)]
  have hpl : packedLen w (⟨2 ^ n, m.evals.val⟩ : Slice F) = 2 ^ (n - w) := Nat.pow_div (by omega) (by omega)
  have hbig : 2 ^ 10 ≤ 2 ^ (n - w) := Nat.pow_le_pow_right (by omega) (by omega)
  unfold innerProductPar
  rw [if_neg (show ¬ e.size > 2 ^ n by omega), if_neg (show ¬ e.size < 2 ^ n by omega),
    hpl, if_neg (by omega), if_pos]
  · rfl
  · have : 64 * 2 ^ w < 2 ^ w' := by
      calc 64 * 2 ^ w = 2 ^ (w + 6) := by rw [Nat.pow_add]; ring
        _ < _ := Nat.pow_lt_pow_right (by omega) hw
    rw [Nat.mod_eq_of_lt this]
    have := Nat.two_pow_pos w
    omega

/-- C17 (hypercube).  `evaluate_on_hypercube(b)` is entry `b` of the table, which is also the value of the
multilinear extension at the vertex with the bits of `b`; indices past the end are refused. -/
theorem C17_hypercube (w n : Nat) (v : Slice F) (b : Nat) (hsize : v.size = 2 ^ (n - w) * 2 ^ w) :
    (b < 2 ^ n → Mlx.evaluateOnHypercube w ⟨n, v⟩ b = .ok (mle v.val (vertex n b)) ∧
      mle v.val (vertex n b) = v.val b) ∧
    (2 ^ n ≤ b → Mlx.evaluateOnHypercube w ⟨n, v⟩ b = .error .hypercubeIndexOutOfRange) := by
  constructor
  · intro hb
    have hle := le_pow_sub_mul w n
    refine ⟨?_, mle_vertex _ _ _ hb⟩
    rw [mle_vertex _ _ _ hb]
    unfold Mlx.evaluateOnHypercube
    rw [if_neg (show ¬ 2 ^ n ≤ b by omega), if_pos, Nat.mul_comm, Nat.div_add_mod]
    show _ < packedLen w v
    unfold packedLen
    rw [hsize, Nat.mul_div_cancel _ (Nat.two_pow_pos w), Nat.div_lt_iff_lt_mul (Nat.two_pow_pos w)]
    omega
  · intro hb
    unfold Mlx.evaluateOnHypercube
    rw [if_pos hb]

example : Mlx.evaluateOnHypercube 1 ⟨2, ⟨4, fun i => (i : Int) + 3⟩⟩ 2 = .ok 5 := by
  rw [((C17_hypercube 1 2 ⟨4, fun i => (i : Int) + 3⟩ 2 rfl).1 (by decide)).1]; decide

/-- C17 (multilinearity).  The evaluation is affine in every coordinate, and it is the only such function
with the values of the table on the hypercube. -/
theorem C17_multilinear (n : Nat) (v : Nat → F) :
    IsMultilinear n (mle v) ∧
    ∀ g : List F → F, IsMultilinear n g → (∀ b < 2 ^ n, g (vertex n b) = v b) →
      ∀ r : List F, r.length = n → g r = mle v r :=
  ⟨mle_isMultilinear v n, fun g hg hv r hr => isMultilinear_unique n g hg v hv r hr⟩

example : mle (fun i => (i : Int)) [5, 7] = (1 - 5) * mle (fun i => (i : Int)) [0, 7]
    + 5 * mle (fun i => (i : Int)) [1, 7] :=
  (C17_multilinear 2 fun i => (i : Int)).1 [] [7] 5 rfl

end Verif.Tensor
