import Verif.Fri.LemmasWords
import Verif.Merkle.PropsMerkle

/-! Lemmas about the honest decommitment: openings, layers and queries. -/

set_option linter.unusedSectionVars false

namespace Verif.Fri

open Finset Verif.NTT.Spec Verif.Mle Verif.Fri.Spec
open Verif.NTT (TA Lanes flat precomputeTwiddles)
open Verif.Subspace (BinarySubspace)
open Verif.Merkle (Scheme Tree chunk commit verifyVector verifyLayer verifyOpening proveOpening)

variable {F E D : Type*} [Field F] [DecidableEq F] [Field E] [DecidableEq E] [Algebra F E] [DecidableEq D]
  [Inhabited D]

@[simp] theorem andThen_ok {α β : Type*} (a : α) (f : α → Res β) : Res.andThen (some (.ok a)) f = f a := rfl

@[simp] theorem mapErr_ok {ε α : Type*} (f : ε → Error) (a : α) : mapErr f (some (.ok a)) = some (.ok a) := rfl

@[simp] theorem vcs_ok {α : Type*} (a : α) : vcs (some (.ok a)) = some (.ok a) := rfl

@[simp] theorem orPanic_some {α : Type*} (a : α) : orPanic (some a) = some (.ok a) := rfl

theorem andThen_eq_ok {α β : Type*} {r : Res α} {f : α → Res β} {b : β} (h : r.andThen f = some (.ok b)) :
    ∃ a, r = some (.ok a) ∧ f a = some (.ok b) := by
  rcases r with _ | (e | a)
  · cases h
  · cases h
  · exact ⟨a, rfl, h⟩

theorem optimal_le (nq k : Nat) : Merkle.optimalVerifyLayer nq k ≤ k := Nat.min_le_right _ _

/-! ### Reading -/

theorem readScalars_map (xs : List E) (rest : List (Item E D)) :
    readScalars xs.length (xs.map .scalar ++ rest) = some (.ok (xs, rest)) := by
  induction xs with
  | nil => rfl
  | cons x xs ih =>
    rw [List.length_cons, List.map_cons, List.cons_append, readScalars, ih]
    rfl

theorem readDigests_map (ds : List D) (rest : List (Item E D)) :
    readDigests ds.length (ds.map .digest ++ rest) = some (.ok (ds, rest)) := by
  induction ds with
  | nil => rfl
  | cons d ds ih =>
    rw [List.length_cons, List.map_cons, List.cons_append, readDigests, ih]
    rfl

theorem leadingDigests_map (ds : List D) (rest : List (Item E D)) :
    leadingDigests (ds.map .digest ++ rest) = ds ++ leadingDigests rest := by
  induction ds with
  | nil => rfl
  | cons d ds ih => rw [List.map_cons, List.cons_append, leadingDigests, ih, List.cons_append]

/-! ### Openings -/

/-- What `C24_complete` says about a committed word. -/
structure Honest (S : Scheme E D) (a k : Nat) (data : List E) (root : D) (t : Tree D) : Prop where
  len : data.length = 2 ^ a * 2 ^ k
  com : ∃ junk, commit S junk data (2 ^ a) = some (.ok (⟨root, k⟩, t))
  vector : verifyVector S root data (2 ^ a) = some (.ok ())
  open_ : ∀ depth ≤ k, ∃ layer, t.layer depth = some (.ok layer) ∧ layer.length = 2 ^ depth ∧
    verifyLayer S root depth layer = some (.ok ()) ∧
    ∀ index < 2 ^ k, ∀ proof rest, ∃ branch, proveOpening t depth index proof = some (.ok (proof ++ branch)) ∧
      branch.length = k - depth ∧
      verifyOpening S index (chunk data (2 ^ a) index) depth k layer (branch ++ rest) = some (.ok rest)

theorem honest_commit (S : Scheme E D) (junk : Nat → D) (data : List E) (a k : Nat)
    (h : data.length = 2 ^ (a + k)) :
    ∃ root t, vcs (commit S junk data (2 ^ a)) = some (.ok (⟨root, k⟩, t)) ∧ Honest S a k data root t := by
  rw [Nat.pow_add] at h
  obtain ⟨root, t, e, -, hv, ho⟩ := Merkle.C24_complete S junk data (2 ^ a) k (Nat.two_pow_pos a) h
  exact ⟨root, t, by rw [e]; rfl, h, ⟨junk, e⟩, hv, ho⟩

theorem coset_opening {S : Scheme E D} {a k : Nat} {data : List E} {root : D} {t : Tree D}
    (H : Honest S a k data root t) {depth : Nat} (hd : depth ≤ k) {layer : List D}
    (hl : t.layer depth = some (.ok layer)) {index : Nat} (hi : index < 2 ^ k) :
    ∃ items, proveCosetOpening data t index a depth = some (.ok items) ∧ ∀ rest,
      verifyCosetOpening S index a depth k layer (items ++ rest) = some (.ok (chunk data (2 ^ a) index, rest)) := by
  obtain ⟨layer', hl', -, -, ho⟩ := H.open_ depth hd
  obtain rfl : layer = layer' := by rw [hl] at hl'; injection hl' with e; injection e
  have hcl : (chunk data (2 ^ a) index).length = 2 ^ a := by
    refine chunk_length ?_
    rw [H.len, Nat.mul_comm]
    exact Nat.mul_le_mul_left _ hi
  obtain ⟨branch, hb, hbl, -⟩ := ho index hi [] []
  refine ⟨(chunk data (2 ^ a) index).map .scalar ++ branch.map .digest, ?_, fun rest => ?_⟩
  · unfold proveCosetOpening
    rw [hb, List.nil_append, Nat.shiftLeft_eq]
    rfl
  · unfold verifyCosetOpening
    have := readScalars_map (D := D) (chunk data (2 ^ a) index) (branch.map .digest ++ rest)
    rw [hcl] at this
    rw [List.append_assoc, this, andThen_ok]
    dsimp only
    rw [leadingDigests_map]
    obtain ⟨branch', hb', -, hv⟩ := ho index hi [] (leadingDigests rest)
    obtain rfl : branch = branch' := by
      rw [hb] at hb'
      simpa using hb'
    rw [hv]
    show some (Except.ok (_, List.drop _ _)) = _
    rw [List.length_append, Nat.add_sub_cancel, List.drop_left' (by rw [List.length_map])]

/-! ### The oracles after the first -/

/-- The oracles that the honest prover commits to after the first fold: `rounds` are the words with their trees,
`roots` the commitments, each word the fold of the one before. -/
inductive Rounds (S : Scheme E D) (β : List F) (nFinal : Nat) :
    Nat → List E → List Nat → List E → List (List E × Tree D) → List D → Prop
  | last {L ch w t r} : nFinal ≤ L → w.length = 2 ^ L → Honest S nFinal (L - nFinal) w r t →
      Rounds S β nFinal L ch [] w [(w, t)] [r]
  | step {L ch a as w t r w' rounds roots} : a ≤ L → a ≤ ch.length → w.length = 2 ^ L → Honest S a (L - a) w r t →
      (∀ i < 2 ^ (L - a), word w' i = foldMany β L (ch.take a) (word w) i) →
      Rounds S β nFinal (L - a) (ch.drop a) as w' rounds roots →
      Rounds S β nFinal L ch (a :: as) w ((w, t) :: rounds) (r :: roots)

theorem Rounds.length {S : Scheme E D} {β : List F} {nFinal L : Nat} {ch : List E} {as : List Nat} {w : List E}
    {rounds : List (List E × Tree D)} {roots : List D} (H : Rounds S β nFinal L ch as w rounds roots) :
    w.length = 2 ^ L := by
  cases H with
  | last _ h _ => exact h
  | step _ _ h _ _ _ => exact h

theorem Rounds.roots_length {S : Scheme E D} {β : List F} {nFinal L : Nat} {ch : List E} {as : List Nat} {w : List E}
    {rounds : List (List E × Tree D)} {roots : List D} (H : Rounds S β nFinal L ch as w rounds roots) :
    roots.length = as.length + 1 := by
  induction H with
  | last => rfl
  | step _ _ _ _ _ _ ih => rw [List.length_cons, ih, List.length_cons]

theorem Honest.commitment {S : Scheme E D} {a L : Nat} {w : List E} {r : D} {t : Tree D} (ha : a ≤ L)
    (hw : w.length = 2 ^ L) (H : Honest S a (L - a) w r t) : IsCommitment S L a w t r := ⟨ha, hw, H.com⟩

theorem Rounds.commitments {S : Scheme E D} {β : List F} {nFinal L : Nat} {ch : List E} {as : List Nat} {w : List E}
    {rounds : List (List E × Tree D)} {roots : List D} (H : Rounds S β nFinal L ch as w rounds roots) :
    AreCommitments S nFinal L as rounds roots := by
  induction H with
  | last h1 h2 h3 => exact h3.commitment h1 h2
  | step h1 _ h2 h3 _ _ ih => exact ⟨h3.commitment h1 h2, ih⟩

/-- The last oracle. -/
theorem Rounds.last_word (h2 : (1 : F) + 1 = 0) {β : List F} {tas tbl : List (TA F)}
    (h : NTT.withSubspace (⟨β⟩ : BinarySubspace F) = some (.ok tas)) (ht : tbl = tas ∨ tbl = precomputeTwiddles tas)
    {S : Scheme E D} {nFinal L : Nat} {ch : List E} {as : List Nat} {w : List E}
    {rounds : List (List E × Tree D)} {roots : List D} (H : Rounds S β nFinal L ch as w rounds roots) :
    ∀ (lr : Nat) (m : Nat → E), L ≤ β.length → as.sum + nFinal + lr = L → ch.length = as.sum + nFinal →
    (∀ i < 2 ^ L, word w i = codeword (domainBasis β L) (2 ^ (L - lr)) m i) →
    ∃ wl tl r, rounds.getLast? = some (wl, tl) ∧ roots.getLast? = some r ∧ Honest S nFinal lr wl r tl ∧
      wl.length = 2 ^ (nFinal + lr) ∧
      ∀ i < 2 ^ (nFinal + lr), word wl i = codeword (domainBasis β (nFinal + lr)) (2 ^ nFinal)
        (foldedMessage (ch.take as.sum) m) i := by
  induction H with
  | @last L ch w t r hn hl hH =>
    intro lr m hL hsum hch hw
    rw [List.sum_nil, Nat.zero_add] at hsum
    subst hsum
    rw [Nat.add_sub_cancel_left] at hH
    rw [Nat.add_sub_cancel] at hw
    refine ⟨w, t, r, rfl, rfl, hH, hl, fun i hi => ?_⟩
    rw [hw i hi]
    refine NTT.codeword_congr fun j _ => ?_
    simp [foldedMessage]
  | @step L ch a as w t r w' rounds roots haL hac hl hH hw' hR ih =>
    intro lr m hL hsum hch hw
    rw [List.sum_cons] at hsum hch
    have hta : (ch.take a).length = a := by rw [List.length_take]; omega
    obtain ⟨wl, tl, rl, e1, e2, hHl, hll, hwl⟩ := ih lr (foldedMessage (ch.take a) m) (by omega) (by omega)
      (by rw [List.length_drop]; omega) (by
        intro i hi
        rw [hw' i hi, foldMany_codeword h2 h ht L (2 ^ (L - a - lr)) i (ch.take a) (by omega) hL
          (by rw [hta]; exact hi) m _ ?_, hta]
        intro i hi
        rw [hw i hi, hta, ← Nat.pow_add]
        congr 2
        omega)
    refine ⟨wl, tl, rl, ?_, ?_, hHl, hll, fun i hi => ?_⟩
    · rw [List.getLast?_cons, e1]; rfl
    · rw [List.getLast?_cons, e2]; rfl
    · rw [hwl i hi]
      refine NTT.codeword_congr fun j _ => ?_
      rw [NTT.foldedMessage_append, List.sum_cons, List.take_add]

/-! ### Layers and queries -/

variable (h2 : (1 : F) + 1 = 0)

theorem Rounds.layers {S : Scheme E D} {β : List F} {nFinal L : Nat} {ch : List E} {as : List Nat} {w : List E}
    {rounds : List (List E × Tree D)} {roots : List D} (H : Rounds S β nFinal L ch as w rounds roots) (nq : Nat) :
    ∃ items layers, proveLayers (E := E) (rounds.map (·.2)) (layerDepths nq L as) = some (.ok items) ∧
      (∀ rest, readLayers (layerDepths nq L as) (items ++ rest) = some (.ok (layers, rest))) ∧
      verifyLayers S roots (layerDepths nq L as) layers = some (.ok ()) ∧
      List.Forall₂ (fun (q : (List E × Tree D) × Nat) l => q.1.2.layer q.2 = some (.ok l))
        (rounds.zip (layerDepths nq L as)) layers := by
  induction H with
  | last => exact ⟨[], [], rfl, fun _ => rfl, rfl, List.Forall₂.nil⟩
  | @step L ch a as w t r w' rounds roots haL hac hl hH hw' hR ih =>
    obtain ⟨items, layers, e1, e2, e3, e4⟩ := ih
    obtain ⟨layer, hly, hll, hlv, -⟩ := hH.open_ (Merkle.optimalVerifyLayer nq (L - a)) (Nat.min_le_right _ _)
    refine ⟨layer.map .digest ++ items, layer :: layers, ?_, fun rest => ?_, ?_, ?_⟩
    · rw [List.map_cons, layerDepths, proveLayers]
      dsimp only
      rw [hly]
      show Res.andThen (proveLayers _ _) _ = _
      rw [e1]
      rfl
    · rw [layerDepths, readLayers, ← hll, List.append_assoc, readDigests_map, andThen_ok]
      dsimp only
      rw [e2]
      rfl
    · rw [layerDepths, verifyLayers, hlv]
      exact e3
    · rw [layerDepths, List.zip_cons_cons]
      exact List.Forall₂.cons hly e4

theorem Rounds.query (h2 : (1 : F) + 1 = 0) {β γ : List F} {tas tbl : List (TA F)}
    (h : NTT.withSubspace (⟨γ⟩ : BinarySubspace F) = some (.ok tas)) (ht : tbl = tas ∨ tbl = precomputeTwiddles tas)
    (hfold : ∀ (rs : List E) (l : Nat) (u : Nat → E), l ≤ γ.length → foldMany γ l rs u = foldMany β l rs u)
    (v : Verifier F E D) (nq : Nat) {nFinal L : Nat} {ch : List E} {as : List Nat} {w : List E}
    {rounds : List (List E × Tree D)} {roots : List D} (H : Rounds v.S β nFinal L ch as w rounds roots) :
    ∀ (layers : List (List D)) (foldRound : Nat), L ≤ γ.length → v.params.code.logLen = foldRound + L →
    foldRound ≤ v.foldChallenges.length → v.foldChallenges.drop foldRound = ch →
    List.Forall₂ (fun (q : (List E × Tree D) × Nat) l => q.1.2.layer q.2 = some (.ok l))
        (rounds.zip (layerDepths nq L as)) layers →
    ∀ index < 2 ^ L, ∃ items index', proveQueryLoop rounds as (layerDepths nq L as) index = some (.ok items) ∧
      ∀ rest i, ∃ wl, rounds.getLast?.map (·.1) = some wl ∧ index' < wl.length ∧
      v.queryLoop tbl as layers (layerDepths nq L as) i index L foldRound (word w index) (items ++ rest) =
        some (.ok (index', word wl index', rest)) := by
  induction H with
  | @last L ch w t r hn hl hH =>
    intro layers foldRound _ _ _ _ _ index hi
    exact ⟨[], index, rfl, fun rest i => ⟨w, rfl, by omega, by rw [Verifier.queryLoop]; rfl; all_goals simp⟩⟩
  | @step L ch a as w t r w' rounds roots haL hac hl hH hw' hR ih =>
    intro layers foldRound hL hlog hfr hch hlay index hi
    rw [layerDepths, List.zip_cons_cons] at hlay
    obtain ⟨layer, layers, hly, hlys, rfl⟩ := List.forall₂_cons_left_iff.1 hlay
    have hi' : index >>> a < 2 ^ (L - a) := by
      rw [Nat.shiftRight_eq_div_pow, Nat.div_lt_iff_lt_mul (Nat.two_pow_pos _), ← Nat.pow_add, Nat.sub_add_cancel haL]
      exact hi
    obtain ⟨a1, ha1, hva⟩ := coset_opening hH (optimal_le _ _) hly hi'
    have hdrop : v.foldChallenges.drop (foldRound + a) = ch.drop a := by rw [← hch, List.drop_drop]
    have hlen := congrArg List.length hch
    rw [List.length_drop] at hlen
    obtain ⟨a2, index', ha2, hv2⟩ := ih layers (foldRound + a) (by omega) (by omega) (by omega) hdrop hlys (index >>> a) hi'
    refine ⟨a1 ++ a2, index', ?_, fun rest i => ?_⟩
    · rw [layerDepths, proveQueryLoop]
      rw [show proveCosetOpening w t (index >>> a) a (Merkle.optimalVerifyLayer nq (L - a)) = some (.ok a1) from ha1,
        andThen_ok, ha2]
      rfl
    · obtain ⟨wl, hwl, hlt, hloop⟩ := hv2 rest (i + 1)
      refine ⟨wl, ?_, hlt, ?_⟩
      · rw [List.getLast?_cons]
        cases hg : rounds.getLast? with
        | none => rw [hg] at hwl; cases hwl
        | some q => rw [hg] at hwl; exact hwl
      · have hmod : index % 2 ^ a < 2 ^ a := Nat.mod_lt _ (Nat.two_pow_pos a)
        have hta : (ch.take a).length = a := by rw [List.length_take]; omega
        have hcl : (chunk w (2 ^ a) (index >>> a)).length = 2 ^ a := by
          refine chunk_length ?_
          rw [hH.len, Nat.mul_comm]
          exact Nat.mul_le_mul_left _ hi'
        have hval : (chunk w (2 ^ a) (index >>> a))[index % 2 ^ a]? = some (word w index) := by
          rw [chunk_get hmod, Nat.shiftRight_eq_div_pow, Nat.div_add_mod', List.getElem?_eq_getElem (by omega),
            word_of_lt (by omega)]
        rw [layerDepths, Verifier.queryLoop]
        unfold sub?
        rw [if_neg (by omega), andThen_ok, List.append_assoc, hva, andThen_ok, hval]
        unfold orPanic
        rw [Option.map_some, andThen_ok, if_neg (by simp), if_neg (by omega), andThen_ok]
        unfold range?
        rw [if_neg (by omega), hch, andThen_ok,
          foldChunk_word h2 h ht (v.params.code.logLen - foldRound) (index >>> a) (ch.take a) (by omega) (by omega)
            (by rw [hta, show v.params.code.logLen - foldRound = L by omega]; exact hi') (word w) _
            (by unfold asSlice; dsimp only; rw [hcl, hta]) (fun k hk => by
              rw [hta] at hk ⊢
              exact chunk_word hk), Option.map_some, andThen_ok, hfold _ _ _ (by omega),
          show v.params.code.logLen - foldRound = L by omega, ← hw' _ hi']
        exact hloop

end Verif.Fri
