import Verif.Fri.LemmasVerify

/-! Lemmas about an arbitrary decommitment that the verifier accepts. -/

set_option linter.unusedSectionVars false

namespace Verif.Fri

open Finset Verif.NTT.Spec Verif.Mle Verif.Fri.Spec
open Verif.NTT (TA Lanes flat precomputeTwiddles)
open Verif.Subspace (BinarySubspace)
open Verif.Merkle (Scheme Tree chunk commit verifyVector verifyLayer verifyOpening proveOpening)

variable {F E D : Type*} [Field F] [DecidableEq F] [Field E] [DecidableEq E] [Algebra F E] [DecidableEq D]
  [Inhabited D]

theorem mapErr_eq_ok {ε α : Type*} {f : ε → Error} {r : Option (Except ε α)} {a : α}
    (h : mapErr f r = some (.ok a)) : r = some (.ok a) := by
  rcases r with _ | (e | x)
  · cases h
  · cases h
  · injection h with h; injection h with h; rw [h]

theorem orPanic_eq_ok {α : Type*} {r : Option α} {a : α} (h : orPanic r = some (.ok a)) : r = some a := by
  cases r with
  | none => cases h
  | some x => injection h with h; injection h with h; rw [h]

theorem readScalars_ok : ∀ {n : Nat} {advice : List (Item E D)} {xs : List E} {rest : List (Item E D)},
    readScalars n advice = some (.ok (xs, rest)) → xs.length = n ∧ advice = xs.map .scalar ++ rest
  | 0, _, _, _, h => by
    unfold readScalars at h
    injection h with h; injection h with h; injection h with h1 h2
    subst h1 h2; exact ⟨rfl, rfl⟩
  | n + 1, [], _, _, h => by cases h
  | n + 1, .digest d :: items, _, _, h => by cases h
  | n + 1, .scalar x :: items, _, _, h => by
    unfold readScalars at h
    obtain ⟨⟨ys, r⟩, h1, h2⟩ := andThen_eq_ok h
    obtain ⟨hl, rfl⟩ := readScalars_ok h1
    injection h2 with h2; injection h2 with h2; injection h2 with h3 h4
    subst h3 h4
    exact ⟨by simp [hl], rfl⟩

theorem readDigests_ok : ∀ {n : Nat} {advice : List (Item E D)} {xs : List D} {rest : List (Item E D)},
    readDigests n advice = some (.ok (xs, rest)) → xs.length = n ∧ advice = xs.map .digest ++ rest
  | 0, _, _, _, h => by
    unfold readDigests at h
    injection h with h; injection h with h; injection h with h1 h2
    subst h1 h2; exact ⟨rfl, rfl⟩
  | n + 1, [], _, _, h => by cases h
  | n + 1, .scalar d :: items, _, _, h => by cases h
  | n + 1, .digest x :: items, _, _, h => by
    unfold readDigests at h
    obtain ⟨⟨ys, r⟩, h1, h2⟩ := andThen_eq_ok h
    obtain ⟨hl, rfl⟩ := readDigests_ok h1
    injection h2 with h2; injection h2 with h2; injection h2 with h3 h4
    subst h3 h4
    exact ⟨by simp [hl], rfl⟩

theorem leadingDigests_prefix : ∀ l : List (Item E D), ∃ r, l = (leadingDigests l).map .digest ++ r
  | [] => ⟨[], rfl⟩
  | .scalar x :: l => ⟨_, rfl⟩
  | .digest d :: l => by
    obtain ⟨r, hr⟩ := leadingDigests_prefix l
    refine ⟨r, ?_⟩
    rw [leadingDigests, List.map_cons, List.cons_append, ← hr]

theorem verifyCosetOpening_ok {S : Scheme E D} {index a depth k : Nat} {layer : List D} {advice rest : List (Item E D)}
    {vals : List E} (h : verifyCosetOpening S index a depth k layer advice = some (.ok (vals, rest))) :
    ∃ proof ds ds', advice = vals.map .scalar ++ proof.map .digest ++ rest ∧ vals.length = 2 ^ a ∧
      verifyOpening S index vals depth k layer ds = some (.ok ds') ∧ ds.take (k - depth) = proof := by
  unfold verifyCosetOpening at h
  obtain ⟨⟨xs, r⟩, h1, h'⟩ := andThen_eq_ok h
  obtain ⟨hl, rfl⟩ := readScalars_ok h1
  dsimp only at h'
  obtain ⟨ds', h2, h'⟩ := andThen_eq_ok h'
  have h2 := mapErr_eq_ok h2
  injection h' with h'; injection h' with h'; injection h' with h3 h4
  subst h3
  obtain ⟨-, -, -, hp, hds, -⟩ := Merkle.verifyOpening_ok h2
  obtain ⟨r', hr'⟩ := leadingDigests_prefix r
  refine ⟨(leadingDigests r).take (k - depth), leadingDigests r, ds', ?_, hl, h2, rfl⟩
  have hn : (leadingDigests r).length - ds'.length = k - depth := by
    rw [hds, List.length_drop]; omega
  rw [hn] at h4
  have ht : ((leadingDigests r).take (k - depth)).map (Item.digest (E := E)) = r.take (k - depth) := by
    conv_rhs => rw [hr']
    rw [List.take_append_of_le_length (by rw [List.length_map]; exact hp), List.map_take]
  rw [ht, ← h4, List.append_assoc, List.take_append_drop]

theorem readLayers_ok : ∀ {ds : List Nat} {advice : List (Item E D)} {ls : List (List D)} {rest : List (Item E D)},
    readLayers ds advice = some (.ok (ls, rest)) →
    (∀ l ∈ ls, l.map (Item.digest (E := E)) <:+: advice) ∧ rest <:+ advice
  | [], _, _, _, h => by
    unfold readLayers at h
    injection h with h; injection h with h; injection h with h1 h2
    subst h1 h2; exact ⟨by simp, List.suffix_rfl⟩
  | d :: ds, advice, ls, rest, h => by
    unfold readLayers at h
    obtain ⟨⟨ys, r⟩, h1, h'⟩ := andThen_eq_ok h
    obtain ⟨⟨zs, r'⟩, h2, h'⟩ := andThen_eq_ok h'
    obtain ⟨-, rfl⟩ := readDigests_ok h1
    obtain ⟨h3, h4⟩ := readLayers_ok h2
    dsimp only at h3 h4
    injection h' with h'; injection h' with h'; injection h' with h5 h6
    subst h5 h6
    refine ⟨fun l hl => ?_, h4.trans (List.suffix_append _ _)⟩
    rcases List.mem_cons.1 hl with rfl | hl
    · exact (List.prefix_append _ _).isInfix
    · exact (h3 l hl).trans (List.suffix_append _ _).isInfix

/-- What a layer that is accepted gives. -/
def Layered (S : Scheme E D) (adv : List (Item E D)) : List D → List Nat → List (List D) → Prop
  | r :: rs, d :: ds, l :: ls => (verifyLayer S r d l = some (.ok ()) ∧ l.map .digest <:+: adv) ∧ Layered S adv rs ds ls
  | _, _, _ => True

theorem verifyLayers_ok {S : Scheme E D} {adv : List (Item E D)} : ∀ {rs : List D} {ds : List Nat} {ls : List (List D)},
    verifyLayers S rs ds ls = some (.ok ()) → (∀ l ∈ ls, l.map (Item.digest (E := E)) <:+: adv) → Layered S adv rs ds ls
  | [], _, _, _, _ => by unfold Layered; trivial
  | _ :: _, [], _, _, _ => by unfold Layered; trivial
  | _ :: _, _ :: _, [], _, _ => by unfold Layered; trivial
  | r :: rs, d :: ds, l :: ls, h, hi => by
    unfold verifyLayers at h
    obtain ⟨_, h1, h⟩ := andThen_eq_ok h
    unfold Layered
    exact ⟨⟨mapErr_eq_ok h1, hi l (List.mem_cons_self ..)⟩,
      verifyLayers_ok h fun l hl => hi l (List.mem_cons_of_mem _ hl)⟩

/-- An accepted opening is the coset of the committed word, or a collision is found. -/
theorem opening_sound {S : Scheme E D} {L a : Nat} {w : List E} {t : Tree D} {r : D} (hc : IsCommitment S L a w t r)
    {adv advice rest : List (Item E D)} {index depth : Nat} {layer : List D} {vals : List E}
    (hl : verifyLayer S r depth layer = some (.ok ())) (hli : layer.map .digest <:+: adv) (hsuf : advice <:+ adv)
    (h : verifyCosetOpening S index a depth (L - a) layer advice = some (.ok (vals, rest))) :
    rest <:+ adv ∧ index < 2 ^ (L - a) ∧ vals.length = 2 ^ a ∧
    (vals = chunk w (2 ^ a) index ∨ ∃ c, Found S adv w t (2 ^ a) c ∧ c.Valid S) := by
  obtain ⟨-, -, junk, hcom⟩ := hc
  obtain ⟨proof, ds, ds', rfl, hvl, hvo, hds⟩ := verifyCosetOpening_ok h
  refine ⟨(List.suffix_append _ _).trans hsuf, (Merkle.verifyOpening_ok hvo).2.1, hvl, ?_⟩
  rcases Merkle.C25_committed S junk w (2 ^ a) _ t hcom depth index layer ds ds' vals hl hvo with hv | hv
  · exact Or.inl hv
  · obtain ⟨hl', hb, h1, h2, c, hcv, h3⟩ := hv
    refine Or.inr ⟨c, ?_, hcv⟩
    rcases h3 with h3 | h3
    · exact Found.layer layer hl' depth c hli h1 h3
    · refine Found.opening index depth vals proof hb c ?_ h2 ?_
      · exact (List.prefix_append _ _).isInfix.trans hsuf.isInfix
      · dsimp only at h3
        rw [hds] at h3
        exact h3

/-- The word and tree of every oracle. -/
theorem queryLoop_sound (h2 : (1 : F) + 1 = 0) {β γ : List F} {tas : List (TA F)}
    (h : NTT.withSubspace (⟨γ⟩ : BinarySubspace F) = some (.ok tas))
    (hfold : ∀ (rs : List E) (l : Nat) (u : Nat → E), l ≤ γ.length → foldMany γ l rs u = foldMany β l rs u)
    (v : Verifier F E D) (nq nFinal : Nat) (adv : List (Item E D)) :
    ∀ (as : List Nat) (rounds : List (List E × Tree D)) (roots : List D) (layers : List (List D))
    (L foldRound i index index' : Nat) (x y : E) (advice rest : List (Item E D)) (w : List E) (t : Tree D),
    AreCommitments v.S nFinal L as rounds roots → Layered v.S adv roots (layerDepths nq L as) layers →
    layers.length = as.length → rounds.head? = some (w, t) →
    L ≤ γ.length → v.params.code.logLen = foldRound + L → advice <:+ adv → index < 2 ^ L →
    v.queryLoop tas as layers (layerDepths nq L as) i index L foldRound x advice = some (.ok (index', y, rest)) →
    (∃ wl, rounds.getLast?.map (·.1) = some wl ∧ wl[index']? = some y) →
    rest <:+ adv ∧ (FoundAny v.S adv rounds ∨
      (x = word w index ∧ Consistent β L as (v.foldChallenges.drop foldRound) (word w)
        (rounds.tail.map fun q => word q.1) index))
  | [], rounds, roots, layers, L, foldRound, i, index, index', x, y, advice, rest, w, t => by
    intro hA _ hll hh _ _ hsuf hi hq hlast
    obtain rfl : layers = [] := List.length_eq_zero_iff.1 hll
    unfold Verifier.queryLoop at hq
    simp only [Option.some.injEq, Except.ok.injEq, Prod.mk.injEq] at hq
    obtain ⟨rfl, rfl, rfl⟩ := hq
    refine ⟨hsuf, Or.inr ⟨?_, ?_⟩⟩
    · rcases rounds with _ | ⟨⟨w0, t0⟩, _ | ⟨q, rounds⟩⟩
      · cases hh
      · obtain ⟨wl, e1, e2⟩ := hlast
        injection hh with hh; injection hh with hh1 hh2
        subst hh1
        obtain rfl : w0 = wl := by simpa using e1
        unfold word
        rw [e2]; rfl
      · rcases roots with _ | ⟨r, _ | ⟨r', roots⟩⟩ <;> exact absurd hA (by simp [AreCommitments])
    · unfold Consistent; trivial
  | a :: as, rounds, roots, layers, L, foldRound, i, index, index', x, y, advice, rest, w, t => by
    intro hA hLay hll hh hL hlog hsuf hi hq hlast
    rcases rounds with _ | ⟨⟨w0, t0⟩, rounds⟩
    · cases hh
    injection hh with hh; injection hh with hh1 hh2
    subst hh1 hh2
    rcases roots with _ | ⟨r, roots⟩
    · exact absurd hA (by simp [AreCommitments])
    rcases layers with _ | ⟨layer, layers⟩
    · cases hll
    obtain ⟨hcw, hA'⟩ := hA
    obtain ⟨haL, hwl, -⟩ := id hcw
    rw [layerDepths] at hLay hq
    obtain ⟨⟨hvl, hli⟩, hLay'⟩ := hLay
    unfold Verifier.queryLoop at hq
    dsimp only at hq
    unfold sub? at hq
    rw [if_neg (by omega), andThen_ok] at hq
    obtain ⟨⟨vals, rest1⟩, hopen, hq⟩ := andThen_eq_ok hq
    obtain ⟨value, hval, hq⟩ := andThen_eq_ok hq
    have hval := orPanic_eq_ok hval
    dsimp only at hval hq
    split at hq
    · cases hq
    next hxv =>
    have hxv : x = value := not_not.1 hxv
    rw [if_neg (by omega), andThen_ok] at hq
    obtain ⟨chs, hchs, hq⟩ := andThen_eq_ok hq
    obtain ⟨nv, hnv, hq⟩ := andThen_eq_ok hq
    have hnv := orPanic_eq_ok hnv
    obtain ⟨hs1, hidx, hvlen, hsound⟩ := opening_sound hcw hvl hli hsuf hopen
    have hroundsne : ∃ w1 t1, rounds.head? = some (w1, t1) := by
      rcases rounds with _ | ⟨⟨w1, t1⟩, rounds⟩
      · cases as <;> cases roots <;> simp [AreCommitments] at hA'
      · exact ⟨w1, t1, rfl⟩
    obtain ⟨w1, t1, hh1⟩ := hroundsne
    obtain ⟨hs2, hrec⟩ := queryLoop_sound h2 h hfold v nq nFinal adv as rounds roots layers (L - a) (foldRound + a) (i + 1)
      (index >>> a) index' nv y rest1 rest w1 t1 hA' hLay' (by simpa using hll) hh1 (by omega) (by omega) hs1 hidx hq (by
        obtain ⟨wl, e1, e2⟩ := hlast
        refine ⟨wl, ?_, e2⟩
        rw [List.getLast?_cons] at e1
        cases hg : rounds.getLast? with
        | none => rw [List.getLast?_eq_none_iff.1 hg] at hh1; cases hh1
        | some q => rw [hg] at e1; exact e1)
    refine ⟨hs2, ?_⟩
    rcases hsound with hvals | ⟨c, hc1, hc2⟩
    swap
    · exact Or.inl ⟨(w0, t0), List.mem_cons_self .., _, c, hc1, hc2⟩
    rcases hrec with ⟨q, hq1, hq2⟩ | ⟨hnx, hcons⟩
    · exact Or.inl ⟨q, List.mem_cons_of_mem _ hq1, hq2⟩
    right
    subst hvals
    have hmod : index % 2 ^ a < 2 ^ a := Nat.mod_lt _ (Nat.two_pow_pos a)
    unfold range? at hchs
    split at hchs
    · cases hchs
    next hlen =>
    injection hchs with hchs; injection hchs with hchs
    have hcl : chs.length = a := by
      rw [← hchs, List.length_take, List.length_drop]; omega
    have hfc := foldChunk_word h2 h (Or.inl rfl) (v.params.code.logLen - foldRound) (index >>> a) chs (by omega) (by omega)
      (by rw [hcl, show v.params.code.logLen - foldRound = L by omega]; exact hidx) (word w0)
      (asSlice (chunk w0 (2 ^ a) (index >>> a)))
      (by unfold asSlice; dsimp only; rw [hvlen, hcl]) (fun k hk => by
        rw [hcl] at hk ⊢
        exact chunk_word hk)
    rw [hfc] at hnv
    have hnv := Option.some.inj hnv
    constructor
    · rw [hxv]
      rw [chunk_get hmod, Nat.shiftRight_eq_div_pow, Nat.div_add_mod', List.getElem?_eq_getElem (by omega)] at hval
      rw [word_of_lt (by omega)]
      exact (Option.some.inj hval).symm
    · rcases rounds with _ | ⟨⟨w2, t2⟩, rounds⟩
      · cases hh1
      injection hh1 with hh1; injection hh1 with e1 e2
      subst e1 e2
      rw [List.tail_cons, List.map_cons]
      unfold Consistent
      rw [Nat.shiftRight_eq_div_pow] at hnx hnv hcons
      refine ⟨?_, ?_⟩
      · rw [← hnx, ← hnv, hfold _ _ _ (by omega), show v.params.code.logLen - foldRound = L by omega, ← hchs]
      · rw [List.drop_drop]
        exact hcons

end Verif.Fri
