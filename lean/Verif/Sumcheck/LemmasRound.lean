import Verif.Sumcheck.LemmasProverState

/-! Lemmas for C66: the evaluations of the round polynomials. -/

set_option linter.unusedSectionVars false

namespace Verif.Sumcheck

open Verif.Mle Verif.Univariate Verif.Tensor Verif.Fold Finset
open Verif.Arith (Circuit Step StepVal convertField Built)

variable {F D : Type} [Field F] [DecidableEq F] [Field D] [DecidableEq D]

/-! ## The composition on a line -/

theorem usage_mem (c : Circuit F) (i : Nat) : (Arith.varsUsage c)[i]? = some true ↔ Step.var i ∈ c := by
  obtain ⟨-, u2⟩ := Arith.varsUsage_fold c (List.replicate (Arith.nVars c) false)
  refine Iff.trans (u2 i) ?_
  constructor
  · rintro (h | h)
    · rw [List.getElem?_replicate] at h
      split at h <;> simp at h
    · exact h.2
  · exact fun h => Or.inr ⟨by simpa using (Arith.nVars_spec c).1 i h, h⟩

theorem evaluate_used {R : Type} [CommRing R] [DecidableEq R] {c : Circuit R} (hne : c ≠ []) {q q' : List R} {a : R}
    (hqq : ∀ i, Step.var i ∈ c → q[i]? = q'[i]?) (ha : Arith.evaluate c q = some a) : Arith.evaluate c q' = some a := by
  obtain ⟨v, hv, hl⟩ := Arith.val_of_evaluate hne ha
  rw [← hl]
  refine Arith.evaluate_of_val hne fun i s hs => ?_
  have := hv i s hs
  cases s with
  | var x =>
    show q'[x]? = _
    rw [← hqq x (List.mem_of_getElem? hs)]
    exact this
  | add _ _ => exact this
  | mul _ _ => exact this
  | pow _ _ => exact this
  | const _ => exact this

open Polynomial in
theorem evaluate_poly {c : Circuit F} (hne : c ≠ []) {Q : List F[X]} {p : F[X]} [DecidableEq F[X]]
    (h : Arith.evaluate (convertField (fun a => (C a : F[X])) c) Q = some p) (x : F) :
    Arith.evaluate c (Q.map fun r => r.eval x) = some (p.eval x) := by
  have hlen : (convertField (fun a => (C a : F[X])) c).length = c.length := by simp [convertField]
  have hne' : convertField (fun a => (C a : F[X])) c ≠ [] := by
    rw [← List.length_pos_iff, hlen]; exact List.length_pos_iff.2 hne
  obtain ⟨v, hv, hl⟩ := Arith.val_of_evaluate hne' h
  rw [← hl, hlen]
  refine Arith.evaluate_of_val (v := fun j => (v j).eval x) hne fun i s hs => ?_
  have := hv i (s.conv fun a => (C a : F[X])) (by rw [Arith.convertField_get, hs]; rfl)
  cases s with
  | add l r => exact ⟨this.1, this.2.1, by show (v i).eval x = _; rw [this.2.2, eval_add]⟩
  | mul l r => exact ⟨this.1, this.2.1, by show (v i).eval x = _; rw [this.2.2, eval_mul]⟩
  | pow b e => exact ⟨this.1, by show (v i).eval x = _; rw [this.2, eval_pow]⟩
  | const c =>
    have h' : v i = C c := this
    show (v i).eval x = c
    rw [h', eval_C]
  | var k =>
    have h' : Q[k]? = some (v i) := this
    show (Q.map fun r => r.eval x)[k]? = _
    rw [List.getElem?_map, h']
    rfl

open Polynomial in
/-- The composition on the line through `a` and `b`, and its leading term. -/
theorem comp_line {c : Circuit F} (hc : Built c) {d : Nat} (hd : Arith.degree c = some d) {A : Type} (l : List A) (a b : A → F)
    (hl : Arith.nVars c ≤ l.length) :
    ∃ p : F[X], p.natDegree ≤ d ∧
      (∀ x, Arith.evaluate c (l.map fun t => a t + (b t - a t) * x) = some (p.eval x)) ∧
      ∃ lt, Arith.leadingTerm c = some lt ∧ ∀ vals : List F, vals.length = l.length →
        (∀ (i : Nat) t, (Arith.varsUsage c)[i]? = some true → l[i]? = some t → vals[i]? = some (b t - a t)) →
        Arith.evaluate lt vals = some (p.coeff d) := by
  classical
  obtain ⟨hne, -⟩ := hc.wf
  obtain ⟨d', lt, hd', hlt, h⟩ := Arith.C21_leading_term c hc
  rw [hd] at hd'
  cases hd'
  have hz : ∀ f : A → F, List.zipWith (fun b a => (C b + X * C a : F[X])) (l.map a) (l.map f) =
      l.map fun t => C (a t) + X * C (f t) := by
    intro f
    rw [List.zipWith_map, List.zipWith_self]
  obtain ⟨p, h1, h2, -⟩ := h (l.map fun t => b t - a t) (l.map a) (by simp) (by simpa using hl)
  rw [hz] at h1
  refine ⟨p, h2, fun x => ?_, lt, hlt, fun vals hv hu => ?_⟩
  · have := evaluate_poly hne h1 x
    rw [List.map_map] at this
    rw [← this]
    congr 1
    refine List.map_congr_left fun t _ => ?_
    simp only [Function.comp, eval_add, eval_mul, eval_C, eval_X]
    ring
  · obtain ⟨p', g1, -, g3⟩ := h vals (l.map a) (by simpa using hv) (by rw [hv]; exact hl)
    have hlen : (convertField (fun a => (C a : F[X])) c).length = c.length := by simp [convertField]
    have hne' : convertField (fun a => (C a : F[X])) c ≠ [] := by
      rw [← List.length_pos_iff, hlen]; exact List.length_pos_iff.2 hne
    have : p' = p := by
      have g1' := evaluate_used (q' := l.map fun t => C (a t) + X * C (b t - a t)) hne' (fun i hi => ?_) g1
      · rw [h1] at g1'
        exact (Option.some.inj g1').symm
      · have hi' : Step.var i ∈ c := by
          obtain ⟨k, hk⟩ := List.mem_iff_getElem?.1 hi
          rw [Arith.convertField_get] at hk
          obtain ⟨t, ht, hk⟩ := Option.map_eq_some_iff.1 hk
          have : t = .var i := by cases t <;> simp [Step.conv] at hk; rw [hk]
          subst this
          exact List.mem_of_getElem? ht
        have hlt : i < l.length := lt_of_lt_of_le ((Arith.nVars_spec c).1 i hi') hl
        have hli : l[i]? = some l[i] := List.getElem?_eq_getElem hlt
        rw [List.getElem?_zipWith, List.getElem?_map, List.getElem?_map, hli,
          hu i l[i] ((usage_mem c i).2 hi') hli]
        rfl
    rw [g3, this]

/-! ## Reading the multilinears -/

theorem foldedRow_eq {w p s idx v : Nat} {evals : Slice F} {sv : F} (hp : evals.size = p * 2 ^ w) (hv : v < 2 ^ s) :
    foldedRow w evals sv s idx v = foldedVal evals sv (idx * 2 ^ s + v) := by
  have hW := Nat.two_pow_pos w
  have hpl : packedLen w evals = p := by unfold packedLen; rw [hp, Nat.mul_div_cancel _ hW]
  unfold foldedRow foldedVal
  by_cases hs : s ≥ w
  · rw [if_pos hs]
    dsimp only
    have hps : 2 ^ (s - w) * 2 ^ w = 2 ^ s := by rw [← pow_add]; congr 1; omega
    rw [hpl, hp, Nat.shiftLeft_eq, Nat.mul_assoc, hps]
    have hvw : v / 2 ^ w < 2 ^ (s - w) := Nat.div_lt_of_lt_mul (by rw [Nat.mul_comm, hps]; exact hv)
    have hiff : v / 2 ^ w < min (2 ^ (s - w)) (p - idx * 2 ^ (s - w)) ↔ idx * 2 ^ s + v < p * 2 ^ w := by
      rw [Nat.lt_min, and_iff_right hvw]
      have h1 : v / 2 ^ w < p - idx * 2 ^ (s - w) ↔ v / 2 ^ w + idx * 2 ^ (s - w) < p := by
        generalize v / 2 ^ w = a
        generalize idx * 2 ^ (s - w) = b
        omega
      rw [h1, ← hps, ← Nat.mul_assoc, ← Nat.add_mul_div_left _ _ hW, Nat.div_lt_iff_lt_mul hW,
        Nat.mul_comm (2 ^ w), Nat.add_comm]
    by_cases h : idx * 2 ^ s + v < p * 2 ^ w
    · rw [if_pos (hiff.2 h), if_pos h]
    · rw [if_neg (fun h' => h (hiff.1 h')), if_neg h]
  · rw [if_neg hs]
    dsimp only
    rw [hpl, ← hp, or_add hv]

/-- The values of a multilinear between which a round interpolates. -/
def ends (order : EvaluationOrder) (N n : Nat) (rs : List F) (t : Nat → F) (b x : Nat) : F :=
  cur order N t rs (half order n b x)

theorem index_lt {idx n s v : Nat} (hs : s ≤ n) (hidx : idx < 2 ^ (n - s)) (hv : v < 2 ^ s) : idx * 2 ^ s + v < 2 ^ n := by
  calc idx * 2 ^ s + v < idx * 2 ^ s + 2 ^ s := by omega
    _ = (idx + 1) * 2 ^ s := by ring
    _ ≤ 2 ^ (n - s) * 2 ^ s := Nat.mul_le_mul_right _ hidx
    _ = 2 ^ n := by rw [← pow_add]; congr 1; omega

theorem accessLow_ok {w N n : Nat} {rs : List F} {t : Nat → F} {m : SumMultilin F} {q : Query F} {s idx : Nat}
    (hn : N = n + 1 + rs.length) (hm : Stands w .lowToHigh N (n + 1) t rs m)
    (hq : m.switchover? ≠ none → QueryOk w .lowToHigh q rs) (hs : s ≤ n) (hidx : idx < 2 ^ (n - s)) :
    ∃ a, accessLow w m s idx q = .ok a ∧ ∀ v < 2 ^ s, a.1 v = ends .lowToHigh N n rs t 0 (idx * 2 ^ s + v) ∧
      a.2 v = ends .lowToHigh N n rs t 1 (idx * 2 ^ s + v) := by
  have key : ∀ row : Nat → F, (∀ v < 2 ^ (s + 1), row v = cur .lowToHigh N t rs (idx * 2 ^ (s + 1) + v)) →
      ∀ v < 2 ^ s, row (2 * v) = ends .lowToHigh N n rs t 0 (idx * 2 ^ s + v) ∧
        row (2 * v + 1) = ends .lowToHigh N n rs t 1 (idx * 2 ^ s + v) := by
    intro row hrow v hv
    have h2 := pow_succ 2 s
    rw [hrow (2 * v) (by omega), hrow (2 * v + 1) (by omega)]
    unfold ends half
    dsimp only
    constructor
    · congr 1
      rw [h2]; ring
    · congr 1
      rw [h2]; ring
  have hidx' : idx < 2 ^ (n + 1 - (s + 1)) := by rw [Nat.add_sub_add_right]; exact hidx
  unfold accessLow
  cases m with
  | transparent N' t' so suf =>
    obtain ⟨sv, sl⟩ := suf
    obtain ⟨rfl, ht, -, -⟩ := hm
    have hqo := hq (by simp [SumMultilin.switchover?])
    dsimp only
    by_cases h0 : q.nVars = 0
    · rw [if_pos h0]
      have hrs : rs = [] := List.length_eq_zero_iff.1 (by rw [← (queryOk_spec hqo).1]; exact h0)
      subst hrs
      unfold subcubeEvals
      have hn' : N' = n + 1 := by simpa using hn
      rw [if_neg (by omega), if_neg (by rw [hn']; omega), ebind_ok]
      refine ⟨_, rfl, key (fun v => t' (idx <<< (s + 1) + v)) fun v hv => ?_⟩
      rw [cur_nil, Nat.shiftLeft_eq, ht]
      rw [hn']
      exact index_lt (by omega) hidx' hv
    · rw [if_neg h0]
      obtain ⟨f, h1, h2⟩ := subcubePartialLow_ok (s := s + 1) hn hqo ht (by omega) hidx'
      rw [h1, ebind_ok]
      exact ⟨_, rfl, key _ h2⟩
  | folded evals sv =>
    obtain ⟨⟨p, hp, -⟩, hval⟩ := hm
    rw [ebind_ok]
    refine ⟨_, rfl, key (foldedRow w evals sv (s + 1) idx) fun v hv => ?_⟩
    rw [foldedRow_eq hp hv, hval]
    exact index_lt (by omega) hidx' hv

theorem accessHigh_ok {w N n : Nat} {rs : List F} {t : Nat → F} {m : SumMultilin F} {q : Query F} {s idx : Nat}
    (hn : N = n + 1 + rs.length) (hm : Stands w .highToLow N (n + 1) t rs m)
    (hq : m.switchover? ≠ none → QueryOk w .highToLow q rs) (hs : s ≤ n) (hidx : idx < 2 ^ (n - s)) :
    ∃ a, accessHigh w m s idx (n - s) q = .ok a ∧ ∀ v < 2 ^ s, a.1 v = ends .highToLow N n rs t 0 (idx * 2 ^ s + v) ∧
      a.2 v = ends .highToLow N n rs t 1 (idx * 2 ^ s + v) := by
  have hor : idx ||| 1 <<< (n - s) = idx + 2 ^ (n - s) := by
    rw [Nat.or_comm, or_add hidx, Nat.one_mul, Nat.add_comm]
  have hns : 2 ^ (n - s) * 2 ^ s = 2 ^ n := by rw [← pow_add]; congr 1; omega
  have hp1 : 2 ^ (n + 1 - s) = 2 ^ (n - s) * 2 := by rw [← pow_succ]; congr 1; omega
  have hi0 : idx < 2 ^ (n + 1 - s) := by omega
  have hi1 : idx + 2 ^ (n - s) < 2 ^ (n + 1 - s) := by omega
  have e0 : ∀ v, half .highToLow n 0 (idx * 2 ^ s + v) = idx * 2 ^ s + v := by intro v; unfold half; simp
  have e1 : ∀ v, half .highToLow n 1 (idx * 2 ^ s + v) = (idx + 2 ^ (n - s)) * 2 ^ s + v := by
    intro v
    unfold half
    dsimp only
    rw [Nat.add_mul, hns]
    ring
  unfold accessHigh ends
  simp only [e0, e1]
  cases m with
  | transparent N' t' so suf =>
    obtain ⟨sv, sl⟩ := suf
    obtain ⟨rfl, ht, -, -⟩ := hm
    have hqo := hq (by simp [SumMultilin.switchover?])
    dsimp only
    rw [hor]
    by_cases h0 : q.nVars = 0
    · rw [if_pos h0]
      have hrs : rs = [] := List.length_eq_zero_iff.1 (by rw [← (queryOk_spec hqo).1]; exact h0)
      subst hrs
      unfold subcubeEvals
      have hn' : N' = n + 1 := by simpa using hn
      rw [if_neg (by omega), if_neg (by rw [hn']; omega), ebind_ok, if_neg (by omega), if_neg (by rw [hn']; omega), ebind_ok]
      refine ⟨_, rfl, fun v hv => ⟨?_, ?_⟩⟩
      · rw [cur_nil, ← ht _ (by rw [hn']; exact index_lt (by omega) hi0 hv)]
        dsimp only
        rw [Nat.shiftLeft_eq]
      · rw [cur_nil, ← ht _ (by rw [hn']; exact index_lt (by omega) hi1 hv)]
        dsimp only
        rw [Nat.shiftLeft_eq]
    · rw [if_neg h0]
      obtain ⟨f, h1, h2⟩ := subcubePartialHigh_ok (s := s) hn hqo ht (by omega) hi0
      obtain ⟨g, h3, h4⟩ := subcubePartialHigh_ok (s := s) hn hqo ht (by omega) hi1
      rw [h1, ebind_ok, h3, ebind_ok]
      exact ⟨_, rfl, fun v hv => ⟨h2 v hv, h4 v hv⟩⟩
  | folded evals sv =>
    obtain ⟨⟨p, hp, -⟩, hval⟩ := hm
    dsimp only
    rw [hor]
    refine ⟨_, rfl, fun v hv => ⟨?_, ?_⟩⟩
    · show foldedRow w evals sv s idx v = _
      rw [foldedRow_eq hp hv, hval _ (index_lt (by omega) hi0 hv)]
    · show foldedRow w evals sv s (idx + 2 ^ (n - s)) v = _
      rw [foldedRow_eq hp hv, hval _ (index_lt (by omega) hi1 hv)]

/-! ## The sums -/

/-- The value at an evaluation point. -/
def zPure (emb : D → F) (points : List D) (j : Nat) (e0 e1 : F) : F :=
  match j with
  | 0 => e0
  | 1 => e1
  | 2 => e1 - e0
  | j + 3 => e0 + (e1 - e0) * emb (points.getD j 0)

theorem zValue_ok (emb : D → F) (points : List D) (j : Nat) (hj : j < points.length + 3) (e0 e1 : F) :
    zValue emb points j e0 e1 = .ok (zPure emb points j e0 e1) := by
  unfold zValue zPure
  match j, hj with
  | 0, _ => rfl
  | 1, _ => rfl
  | 2, _ => rfl
  | j + 3, hj =>
    have : j < points.length := by omega
    dsimp only
    rw [List.getElem?_eq_getElem this]
    dsimp only
    rw [List.getD_eq_getElem?_getD, List.getElem?_eq_getElem this]
    rfl

theorem subcubeSum_ok {emb : D → F} {w N n : Nat} {order : EvaluationOrder} {rs : List F} {tables : List (Nat → F)}
    {ms : List (SumMultilin F)} {q : Query F} {points : List D} {s : Nat} {counts : Nat → Nat} {stale : Nat → Nat → Nat → F}
    {e : Evaluator F} {j idx : Nat} {g : Nat → F} (hn : N = n + 1 + rs.length)
    (hms : List.Forall₂ (fun t m => Stands w order N (n + 1) t rs m) tables ms)
    (hq : ∀ m ∈ ms, m.switchover? ≠ none → QueryOk w order q rs) (hs : s ≤ n) (hsw : s < w → s = n)
    (hidx : idx < 2 ^ (n - s)) (hj : j < points.length + 3) (hcounts : ∀ i, e.uses[i]? = some true → idx < counts i)
    (hcomp : ∀ x, idx * 2 ^ s ≤ x → x < (idx + 1) * 2 ^ s → ∀ vals : List F, vals.length = tables.length →
      (∀ (i : Nat) t, e.uses[i]? = some true → tables[i]? = some t →
        vals[i]? = some (zPure emb points j (ends order N n rs t 0 x) (ends order N n rs t 1 x))) →
      ∃ a b, e.compose (j == 2) vals = some a ∧ e.weight x = some b ∧ a * b = g x) :
    subcubeSum emb w order ms q points s (n - s) counts stale e j idx = .ok (∑ v ∈ range (2 ^ s), g (idx * 2 ^ s + v)) := by
  have hlen := hms.length_eq
  have hget := (List.forall₂_iff_get.1 hms).2
  have hrows : ∀ m ∈ ms.zipIdx, ∃ a, (if idx < counts m.2 then accessSubcube w order m.1 s idx (n - s) q else .ok (stale idx m.2, stale idx m.2)) = Except.ok a ∧
      (idx < counts m.2 → ∀ t, tables[m.2]? = some t → ∀ v < 2 ^ s,
        a.1 v = ends order N n rs t 0 (idx * 2 ^ s + v) ∧ a.2 v = ends order N n rs t 1 (idx * 2 ^ s + v)) := by
    intro m hm
    by_cases h : idx < counts m.2
    · rw [if_pos h]
      obtain ⟨i, hi, hmi⟩ := List.getElem_of_mem hm
      rw [List.getElem_zipIdx] at hmi
      rw [List.length_zipIdx] at hi
      have hst := hget i (by omega) hi
      simp only [List.get_eq_getElem] at hst
      have hmm : m.1 ∈ ms := by rw [← hmi]; exact List.getElem_mem hi
      have ht : ∀ t, tables[m.2]? = some t → t = tables[i]'(by omega) := by
        intro t ht
        rw [← hmi] at ht
        simp only [Nat.zero_add] at ht
        rw [List.getElem?_eq_getElem (by omega)] at ht
        exact (Option.some.inj ht).symm
      have hst' : Stands w order N (n + 1) (tables[i]'(by omega)) rs m.1 := by rw [← hmi]; exact hst
      cases order with
      | lowToHigh =>
        obtain ⟨a, h1, h2⟩ := accessLow_ok hn hst' (hq m.1 hmm) hs hidx
        exact ⟨a, h1, fun _ t h3 => by rw [ht t h3]; exact h2⟩
      | highToLow =>
        obtain ⟨a, h1, h2⟩ := accessHigh_ok hn hst' (hq m.1 hmm) hs hidx
        exact ⟨a, h1, fun _ t h3 => by rw [ht t h3]; exact h2⟩
    · rw [if_neg h]
      exact ⟨_, rfl, fun h' => absurd h' h⟩
  obtain ⟨rows, hr1, hr2⟩ := collect_exists ms.zipIdx _ _ hrows
  have hrl := hr2.length_eq
  rw [List.length_zipIdx] at hrl
  have hrget := (List.forall₂_iff_get.1 hr2).2
  unfold subcubeSum
  rw [hr1, ebind_ok]
  refine sumE_ok _ _ _ fun v hv => ?_
  rw [collect_eq rows _ (fun r => zPure emb points j (r.1 v) (r.2 v)) fun r _ => zValue_ok emb points j hj _ _, ebind_ok]
  have hx : (idx <<< (s - w)) * 2 ^ w + v = idx * 2 ^ s + v := by
    by_cases h : s < w
    · have := hsw h
      subst this
      rw [Nat.sub_self, pow_zero] at hidx
      have : idx = 0 := by omega
      subst this
      simp
    · rw [Nat.shiftLeft_eq, Nat.mul_assoc, ← pow_add]
      congr 3
      omega
  obtain ⟨a, b, h1, h2, h3⟩ := hcomp (idx * 2 ^ s + v) (by omega) (by rw [Nat.add_mul]; omega)
    (rows.map fun r => zPure emb points j (r.1 v) (r.2 v)) (by simp [hlen, hrl]) (fun i t hu ht => by
      have hi : i < tables.length := (List.getElem?_eq_some_iff.1 ht).1
      have := hrget i (by rw [List.length_zipIdx]; omega) (by omega)
      simp only [List.get_eq_getElem, List.getElem_zipIdx, Nat.zero_add] at this
      obtain ⟨g1, g2⟩ := this (hcounts i hu) t ht v hv
      rw [List.getElem?_map, List.getElem?_eq_getElem (by omega)]
      simp only [Option.map_some]
      rw [g1, g2])
  rw [h1, hx, h2]
  simp only
  rw [h3]

theorem multilinCount_ge (n s : Nat) (es : List (Evaluator F)) (m : Nat) (e : Evaluator F) (he : e ∈ es)
    (hu : e.uses[m]? = some true) : evaluatorCount n s e ≤ multilinCount n s es m := by
  unfold multilinCount
  have gen : ∀ (es : List (Evaluator F)) (acc : Nat), acc ≤ es.foldl (fun acc e => if e.uses[m]? = some true then
      max acc (evaluatorCount n s e) else acc) acc := by
    intro es
    induction es with
    | nil => intro acc; exact le_refl _
    | cons e es ih =>
      intro acc
      rw [List.foldl_cons]
      refine le_trans ?_ (ih _)
      split
      · exact le_max_left _ _
      · exact le_refl _
  have : ∀ (es : List (Evaluator F)) (acc : Nat), e ∈ es → evaluatorCount n s e ≤
      es.foldl (fun acc e => if e.uses[m]? = some true then max acc (evaluatorCount n s e) else acc) acc := by
    intro es
    induction es with
    | nil => intro acc h; simp at h
    | cons e' es ih =>
      intro acc h
      rw [List.foldl_cons]
      rcases List.mem_cons.1 h with h | h
      · subst h
        rw [if_pos hu]
        exact le_trans (le_max_right _ _) (gen _ _)
      · exact ih _ h
  exact this es 0 he

theorem evaluatorEvals_ok {emb : D → F} {w N n : Nat} {order : EvaluationOrder} {rs : List F} {tables : List (Nat → F)}
    {ms : List (SumMultilin F)} {q : Query F} {points : List D} {s : Nat} {es : List (Evaluator F)} {stale : Nat → Nat → Nat → F}
    {first : Nat} {e : Evaluator F} {g : Nat → Nat → F} {k : Nat → F} (hn : N = n + 1 + rs.length)
    (hms : List.Forall₂ (fun t m => Stands w order N (n + 1) t rs m) tables ms)
    (hq : ∀ m ∈ ms, m.switchover? ≠ none → QueryOk w order q rs) (hs : s ≤ n) (hsw : s < w → s = n)
    (he : e ∈ es) (hsuf : e.suffix ≤ 2 ^ n) (hj : e.stop ≤ points.length + 3)
    (hconst : ∀ j, e.start ≤ j → j < e.stop →
      e.constant (2 ^ (n + 1) - evaluatorCount (n + 1) s e <<< s) (first + (j - e.start) == 2) = .ok (k j))
    (hcomp : ∀ j, e.start ≤ j → j < e.stop → ∀ x < evaluatorCount (n + 1) s e * 2 ^ s,
      ∀ vals : List F, vals.length = tables.length →
      (∀ (i : Nat) t, e.uses[i]? = some true → tables[i]? = some t →
        vals[i]? = some (zPure emb points j (ends order N n rs t 0 x) (ends order N n rs t 1 x))) →
      ∃ a b, e.compose (j == 2) vals = some a ∧ e.weight x = some b ∧ a * b = g j x) :
    evaluatorEvals emb w order (n + 1) ms q points s (multilinCount (n + 1) s es) stale first e =
      .ok ((List.range' e.start (e.stop - e.start)).map fun j =>
        ∑ x ∈ range (evaluatorCount (n + 1) s e * 2 ^ s), g j x + k j) := by
  unfold evaluatorEvals
  rw [Nat.add_sub_cancel, if_neg (by omega)]
  dsimp only
  have hns : 2 ^ (n - s) * 2 ^ s = 2 ^ n := by rw [← pow_add]; congr 1; omega
  have hcount : evaluatorCount (n + 1) s e ≤ 2 ^ (n - s) := by
    unfold evaluatorCount
    refine divCeil_le (Nat.two_pow_pos s) ?_
    rw [hns, Nat.add_sub_cancel]
    omega
  refine collect_eq _ _ _ fun j hj' => ?_
  have hj1 : e.start ≤ j ∧ j < e.stop := by
    rw [List.mem_range'_1] at hj'
    omega
  rw [sumE_ok _ _ (fun idx => if idx < evaluatorCount (n + 1) s e then ∑ v ∈ range (2 ^ s), g j (idx * 2 ^ s + v) else 0)
    fun idx hidx => ?_, ebind_ok, hconst j hj1.1 hj1.2, ebind_ok]
  · congr 2
    rw [Nat.mul_comm, sum_range_mul, ← Finset.sum_filter]
    have : (range (2 ^ (n - s))).filter (fun idx => idx < evaluatorCount (n + 1) s e) = range (evaluatorCount (n + 1) s e) := by
      ext i
      simp only [Finset.mem_filter, Finset.mem_range]
      omega
    rw [this]
    refine Finset.sum_congr rfl fun idx _ => Finset.sum_congr rfl fun v _ => ?_
    congr 1
    ring
  · by_cases h : idx < evaluatorCount (n + 1) s e
    · rw [if_pos h, if_pos h]
      refine subcubeSum_ok hn hms hq hs hsw hidx (by omega) (fun i hu => lt_of_lt_of_le h (multilinCount_ge _ _ _ _ _ he hu))
        fun x hx1 hx2 => hcomp j hj1.1 hj1.2 x (lt_of_lt_of_le hx2 (Nat.mul_le_mul_right _ h))
    · rw [if_neg h, if_neg h]

end Verif.Sumcheck
