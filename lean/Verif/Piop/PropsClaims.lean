import Verif.Piop.LemmasCommit

/-! Property C53: the sumcheck claims of the polynomial commitment are grouped correctly. -/

set_option linter.dupNamespace false
set_option linter.unusedSectionVars false

namespace Verif.Piop

variable {F : Type}

theorem sizes_ge : ∀ (l : List Nat) (v : Nat), ∀ x ∈ sizes v l, v ≤ x
  | [], _, x, h => by simp [sizes] at h
  | n :: l, v, x, h => by
    rw [sizes, List.mem_append] at h
    rcases h with h | h
    · rw [List.mem_replicate] at h; omega
    · have := sizes_ge l (v + 1) x h; omega

theorem committedDescs_ok : ∀ (l : List Nat) (v off j : Nat) (d : ClaimDesc F), (committedDescs off l)[j]? = some d →
    (∀ k, d.committed.1 ≤ k ∧ k < d.committed.2 ↔ off ≤ k ∧ (sizes v l)[k - off]? = some (v + j)) ∧
      d.transparent = (0, 0) ∧ d.sums = []
  | [], _, _, _, d, h => by simp [committedDescs] at h
  | n :: l, v, off, 0, d, h => by
    rw [committedDescs, List.getElem?_cons_zero] at h
    injection h with h
    subst h
    refine ⟨fun k => ?_, rfl, rfl⟩
    rw [sizes]
    show off ≤ k ∧ k < off + n ↔ _
    constructor
    · rintro ⟨h1, h2⟩
      exact ⟨h1, by rw [List.getElem?_append_left (by rw [List.length_replicate]; omega), List.getElem?_replicate,
        if_pos (by omega)]; rfl⟩
    · rintro ⟨h1, h2⟩
      refine ⟨h1, ?_⟩
      by_contra hk
      rw [List.getElem?_append_right (by rw [List.length_replicate]; omega)] at h2
      have := sizes_ge l (v + 1) _ (List.mem_of_getElem? h2)
      omega
  | n :: l, v, off, j + 1, d, h => by
    rw [committedDescs, List.getElem?_cons_succ] at h
    obtain ⟨h1, h2⟩ := committedDescs_ok l (v + 1) (off + n) j d h
    refine ⟨fun k => ?_, h2⟩
    rw [h1 k, sizes]
    constructor
    · rintro ⟨h3, h4⟩
      refine ⟨by omega, ?_⟩
      rw [List.getElem?_append_right (by rw [List.length_replicate]; omega), List.length_replicate, Nat.sub_sub, h4]
      congr 1; omega
    · rintro ⟨h3, h4⟩
      by_cases hk : k - off < n
      · rw [List.getElem?_append_left (by rw [List.length_replicate]; omega), List.getElem?_replicate, if_pos hk] at h4
        injection h4 with h4
        omega
      · rw [List.getElem?_append_right (by rw [List.length_replicate]; omega), List.length_replicate, Nat.sub_sub] at h4
        refine ⟨by omega, h4.trans ?_⟩
        congr 1; omega

theorem committedDescs_length : ∀ (l : List Nat) (off : Nat), (committedDescs (F := F) off l).length = l.length
  | [], _ => rfl
  | n :: l, off => by rw [committedDescs, List.length_cons, committedDescs_length l, List.length_cons]

/-- What holds of the descriptions when the transparents `ts` have been counted and no claim added. -/
structure DescInv (counts ts : List Nat) (v : Nat) (d : ClaimDesc F) : Prop where
  committed : ∀ k, d.committed.1 ≤ k ∧ k < d.committed.2 ↔ (sizes 0 counts)[k]? = some v
  transparent : ∀ t, d.transparent.1 ≤ t ∧ t < d.transparent.2 ↔ ts[t]? = some v
  le : d.transparent.1 ≤ d.transparent.2

theorem initialDescs_ok (m : CommitMeta) : (initialDescs (F := F) m).length = m.maxNVars + 1 ∧
    ∀ v d, (initialDescs (F := F) m)[v]? = some d → DescInv m.nMultilinsByVars [] v d ∧ d.transparent = (0, 0) ∧
      d.sums = [] := by
  unfold initialDescs CommitMeta.maxNVars
  cases hc : m.nMultilinsByVars with
  | nil =>
    refine ⟨rfl, fun v d h => ?_⟩
    cases v with
    | zero =>
      injection h with h
      subst h
      exact ⟨⟨fun k => by simp [sizes], fun t => by simp, le_rfl⟩, rfl, rfl⟩
    | succ v => simp at h
  | cons n l =>
    simp only
    refine ⟨by rw [committedDescs_length]; simp, fun v d h => ?_⟩
    obtain ⟨h1, h2, h3⟩ := committedDescs_ok (n :: l) 0 0 v d h
    exact ⟨⟨fun k => by rw [h1 k]; simp, fun t => by rw [h2]; simp, by rw [h2]⟩, h2, h3⟩

theorem snoc_get {ts : List Nat} {t a v : Nat} : (ts ++ [a])[t]? = some v ↔ ts[t]? = some v ∨ t = ts.length ∧ a = v := by
  by_cases h : t < ts.length
  · rw [List.getElem?_append_left h]
    constructor
    · exact Or.inl
    · rintro (h1 | h1)
      · exact h1
      · omega
  · rw [List.getElem?_append_right (by omega), List.getElem?_eq_none (l := ts) (by omega)]
    by_cases e : t = ts.length
    · subst e; simp
    · rw [List.getElem?_eq_none (by simp; omega)]
      simp [e]

theorem transparentLoop_ok (counts : List Nat) : ∀ (ts done : List Nat) (cur : Nat) (descs : List (ClaimDesc F)),
    (∀ v d, descs[v]? = some d → DescInv counts done v d ∧ d.sums = []) → cur < descs.length →
    (∀ x ∈ done, x ≤ cur) → (∀ d, descs[cur]? = some d → d.transparent.2 = done.length) → (∀ t ∈ ts, cur ≤ t) →
    ts.Pairwise (· ≤ ·) → (∀ t ∈ ts, t < descs.length) →
    ∃ descs', transparentLoop ts cur descs = some (.ok descs') ∧ descs'.length = descs.length ∧
      ∀ v d, descs'[v]? = some d → DescInv counts (done ++ ts) v d ∧ d.sums = []
  | [], done, cur, descs, h, _, _, _, _, _, _ => ⟨descs, rfl, rfl, by simpa using h⟩
  | t :: ts, done, cur, descs, h, hcur, hdone, hend, hge, hs, hlt => by
    rw [List.pairwise_cons] at hs
    have hgt := hge t (by simp)
    have htl := hlt t (by simp)
    obtain ⟨d, hd⟩ : ∃ d, descs[cur]? = some d := ⟨_, List.getElem?_eq_getElem hcur⟩
    obtain ⟨e, he⟩ : ∃ e, descs[t]? = some e := ⟨_, List.getElem?_eq_getElem htl⟩
    have hdl := hend d hd
    unfold transparentLoop
    rw [if_neg (by omega)]
    by_cases hne : t > cur
    · rw [if_pos hne, hd, Option.bind_some, he, Option.bind_some]
      have hinv : ∀ v x, (descs.set t { e with transparent := (d.transparent.2, d.transparent.2 + 1) })[v]? = some x → DescInv counts (done ++ [t]) v x ∧ x.sums = [] := by
        intro v x hx
        by_cases hv : v = t
        · rw [hv, List.getElem?_set_self htl] at hx
          injection hx with hx
          obtain ⟨⟨i1, i2, i3⟩, i4⟩ := h t e he
          subst hx hv
          refine ⟨⟨i1, fun k => ?_, Nat.le_succ _⟩, i4⟩
          rw [snoc_get]
          show d.transparent.2 ≤ k ∧ k < d.transparent.2 + 1 ↔ _
          rw [hdl]
          constructor
          · intro hk
            exact Or.inr ⟨by omega, rfl⟩
          · rintro (hk | hk)
            · have := hdone v (List.mem_of_getElem? hk); omega
            · omega
        · rw [List.getElem?_set_ne (fun e => hv e.symm)] at hx
          obtain ⟨⟨i1, i2, i3⟩, i4⟩ := h v x hx
          refine ⟨⟨i1, fun k => ?_, i3⟩, i4⟩
          rw [i2 k, snoc_get]
          exact ⟨Or.inl, fun hk => hk.elim id fun hk => absurd hk.2.symm hv⟩
      obtain ⟨descs', h1, h2, h3⟩ := transparentLoop_ok counts ts (done ++ [t]) t
        (descs.set t { e with transparent := (d.transparent.2, d.transparent.2 + 1) }) hinv
        (by rw [List.length_set]; exact htl)
        (fun x hx => by
          rcases List.mem_append.mp hx with hx | hx
          · have := hdone x hx; omega
          · simp at hx; omega)
        (fun x hx => by
          rw [List.getElem?_set_self htl] at hx
          injection hx with hx
          rw [← hx, List.length_append]
          show d.transparent.2 + 1 = _
          rw [hdl]; rfl) hs.1 hs.2
        (fun x hx => by rw [List.length_set]; exact hlt x (by simp [hx]))
      exact ⟨descs', h1, by rw [h2, List.length_set], by simpa using h3⟩
    · have hte : t = cur := by omega
      subst hte
      rw [if_neg hne, hd, Option.bind_some]
      have hinv : ∀ v x, (descs.set t { d with transparent := (d.transparent.1, d.transparent.2 + 1) })[v]? = some x → DescInv counts (done ++ [t]) v x ∧ x.sums = [] := by
        intro v x hx
        by_cases hv : v = t
        · rw [hv, List.getElem?_set_self htl] at hx
          injection hx with hx
          obtain ⟨⟨i1, i2, i3⟩, i4⟩ := h t d hd
          subst hx hv
          refine ⟨⟨i1, fun k => ?_, Nat.le_succ_of_le i3⟩, i4⟩
          rw [snoc_get, ← i2 k]
          show d.transparent.1 ≤ k ∧ k < d.transparent.2 + 1 ↔ _
          constructor
          · intro hk
            by_cases hk2 : k < d.transparent.2
            · exact Or.inl ⟨hk.1, hk2⟩
            · exact Or.inr ⟨by omega, rfl⟩
          · rintro (hk | hk)
            · omega
            · omega
        · rw [List.getElem?_set_ne (fun e => hv e.symm)] at hx
          obtain ⟨⟨i1, i2, i3⟩, i4⟩ := h v x hx
          refine ⟨⟨i1, fun k => ?_, i3⟩, i4⟩
          rw [i2 k, snoc_get]
          exact ⟨Or.inl, fun hk => hk.elim id fun hk => absurd hk.2.symm hv⟩
      obtain ⟨descs', h1, h2, h3⟩ := transparentLoop_ok counts ts (done ++ [t]) t
        (descs.set t { d with transparent := (d.transparent.1, d.transparent.2 + 1) }) hinv
        (by rw [List.length_set]; exact htl)
        (fun x hx => by
          rcases List.mem_append.mp hx with hx | hx
          · exact hdone x hx
          · simp at hx; omega)
        (fun x hx => by
          rw [List.getElem?_set_self htl] at hx
          injection hx with hx
          rw [← hx, List.length_append]
          show d.transparent.2 + 1 = _
          rw [hdl]; rfl) hs.1 hs.2
        (fun x hx => by rw [List.length_set]; exact hlt x (by simp [hx]))
      exact ⟨descs', h1, by rw [h2, List.length_set], by simpa using h3⟩

theorem transparentLoop_unsorted : ∀ (ts : List Nat) (cur : Nat) (descs : List (ClaimDesc F)),
    cur < descs.length → (∀ t ∈ ts, t < descs.length) → ¬ (cur :: ts).Pairwise (· ≤ ·) →
    transparentLoop ts cur descs = some (.error .transparentsNotSorted)
  | [], _, _, _, _, h => absurd (List.pairwise_singleton _ _) h
  | t :: ts, cur, descs, hcur, hlt, h => by
    have htl := hlt t (by simp)
    obtain ⟨d, hd⟩ : ∃ d, descs[cur]? = some d := ⟨_, List.getElem?_eq_getElem hcur⟩
    obtain ⟨e, he⟩ : ∃ e, descs[t]? = some e := ⟨_, List.getElem?_eq_getElem htl⟩
    unfold transparentLoop
    by_cases h1 : t < cur
    · rw [if_pos h1]
    rw [if_neg h1]
    have hns : ¬ (t :: ts).Pairwise (· ≤ ·) := fun hp => h (by
      rw [List.pairwise_cons]
      refine ⟨fun x hx => ?_, hp⟩
      rcases List.mem_cons.mp hx with rfl | hx
      · omega
      · have := (List.pairwise_cons.mp hp).1 x hx; omega)
    by_cases h2 : t > cur
    · rw [if_pos h2, hd, Option.bind_some, he, Option.bind_some]
      exact transparentLoop_unsorted ts t _ (by rw [List.length_set]; exact htl)
        (fun x hx => by rw [List.length_set]; exact hlt x (by simp [hx])) hns
    · have hte : t = cur := by omega
      rw [if_neg h2, hd, Option.bind_some]
      subst hte
      exact transparentLoop_unsorted ts t _ (by rw [List.length_set]; exact htl)
        (fun x hx => by rw [List.length_set]; exact hlt x (by simp [hx])) hns

/-- The polynomials and the sum that an entry of a description is about. -/
def entryMeaning (d : ClaimDesc F) (s : (Nat × Nat) × F) : Option (Nat ⊕ Nat) × Option (Nat ⊕ Nat) × F :=
  ((descPolys d)[s.1.1]?, (descPolys d)[s.1.2]?, s.2)

/-- The meaning of a claim. -/
def claimMeaning (c : PiopClaim F) : Option (Nat ⊕ Nat) × Option (Nat ⊕ Nat) × F :=
  (some (.inl c.committed), some (.inr c.transparent), c.sum)

theorem descPolys_left {d : ClaimDesc F} {k : Nat} (h : d.committed.1 ≤ k ∧ k < d.committed.2) :
    (descPolys d)[k - d.committed.1]? = some (.inl k) := by
  unfold descPolys
  rw [List.getElem?_append_left (by simp; omega), List.getElem?_map, List.getElem?_range' (by omega)]
  show some (Sum.inl _) = _
  congr 2; omega

theorem descPolys_right {d : ClaimDesc F} {t : Nat} (h : d.transparent.1 ≤ t ∧ t < d.transparent.2) :
    (descPolys d)[d.committed.2 - d.committed.1 + t - d.transparent.1]? = some (.inr t) := by
  unfold descPolys
  rw [List.getElem?_append_right (by simp; omega), List.getElem?_map, List.length_map, List.length_range',
    List.getElem?_range' (by omega)]
  show some (Sum.inr _) = _
  congr 2; omega

theorem claimLoop_ok (counts ts : List Nat) : ∀ (cs done : List (PiopClaim F)) (i : Nat) (descs : List (ClaimDesc F)),
    (∀ v d, descs[v]? = some d → DescInv counts ts v d ∧
      d.sums.map (entryMeaning d) = (done.filter fun c => c.nVars = v).map claimMeaning) →
    (∀ c ∈ cs, c.nVars < descs.length) → (∀ c ∈ cs, Fits counts ts c) →
    ∃ descs', claimLoop i cs descs = some (.ok descs') ∧ descs'.length = descs.length ∧
      ∀ v d, descs'[v]? = some d → DescInv counts ts v d ∧
        d.sums.map (entryMeaning d) = ((done ++ cs).filter fun c => c.nVars = v).map claimMeaning
  | [], done, i, descs, h, _, _ => ⟨descs, rfl, rfl, by simpa using h⟩
  | c :: cs, done, i, descs, h, hl, hf => by
    have hcl := hl c (by simp)
    obtain ⟨hf1, hf2⟩ := hf c (by simp)
    obtain ⟨d, hd⟩ : ∃ d, descs[c.nVars]? = some d := ⟨_, List.getElem?_eq_getElem hcl⟩
    obtain ⟨⟨i1, i2, i3⟩, i4⟩ := h _ d hd
    have k1 := (i1 _).mpr hf1
    have k2 := (i2 _).mpr hf2
    unfold claimLoop
    rw [hd, Option.bind_some, if_neg (not_not_intro k1), if_neg (not_not_intro k2)]
    simp only
    rw [if_pos ⟨by omega, by omega⟩]
    have hinv : ∀ v x, (descs.set c.nVars
      { d with sums := d.sums ++ [((c.committed - d.committed.1,
        d.committed.2 - d.committed.1 + c.transparent - d.transparent.1), c.sum)] })[v]? = some x → DescInv counts ts v x ∧
        x.sums.map (entryMeaning x) = ((done ++ [c]).filter fun c => c.nVars = v).map claimMeaning := by
      intro v x hx
      by_cases hv : v = c.nVars
      · rw [hv, List.getElem?_set_self hcl] at hx
        injection hx with hx
        subst hx hv
        refine ⟨⟨i1, i2, i3⟩, ?_⟩
        rw [List.filter_append, List.map_append, List.map_append, ← i4]
        congr 1
        simp only [List.map_cons, List.map_nil, decide_true, List.filter_cons_of_pos, List.filter_nil]
        congr 1
        unfold entryMeaning claimMeaning
        exact Prod.ext (descPolys_left (d := d) k1) (Prod.ext (descPolys_right (d := d) k2) rfl)
      · rw [List.getElem?_set_ne (fun e => hv e.symm)] at hx
        obtain ⟨j1, j2⟩ := h v x hx
        refine ⟨j1, ?_⟩
        rw [List.filter_append, List.map_append, ← j2]
        have : ¬ c.nVars = v := fun e => hv e.symm
        simp [this]
    obtain ⟨descs', h1, h2, h3⟩ := claimLoop_ok counts ts cs (done ++ [c]) (i + 1) (descs.set c.nVars
      { d with sums := d.sums ++ [((c.committed - d.committed.1,
        d.committed.2 - d.committed.1 + c.transparent - d.transparent.1), c.sum)] }) hinv
      (fun x hx => by rw [List.length_set]; exact hl x (by simp [hx])) (fun x hx => hf x (by simp [hx]))
    exact ⟨descs', h1, by rw [h2, List.length_set], by simpa using h3⟩

theorem claimLoop_mismatch (counts ts : List Nat) : ∀ (good bad : List (PiopClaim F)) (c : PiopClaim F) (i : Nat)
    (descs : List (ClaimDesc F)), (∀ v d, descs[v]? = some d → DescInv counts ts v d) →
    (∀ c ∈ good, c.nVars < descs.length) → (∀ c ∈ good, Fits counts ts c) → c.nVars < descs.length →
    ¬ Fits counts ts c →
    claimLoop i (good ++ c :: bad) descs = some (.error (.sumcheckClaimVariablesMismatch (i + good.length)))
  | [], bad, c, i, descs, h, _, _, hcl, hnf => by
    obtain ⟨d, hd⟩ : ∃ d, descs[c.nVars]? = some d := ⟨_, List.getElem?_eq_getElem hcl⟩
    obtain ⟨i1, i2, i3⟩ := h _ d hd
    rw [List.nil_append]
    unfold claimLoop
    rw [hd, Option.bind_some]
    by_cases k1 : d.committed.1 ≤ c.committed ∧ c.committed < d.committed.2
    · rw [if_neg (not_not_intro k1), if_pos fun k2 => hnf ⟨(i1 _).mp k1, (i2 _).mp k2⟩]
      rfl
    · rw [if_pos k1]; rfl
  | g :: good, bad, c, i, descs, h, hl, hf, hcl, hnf => by
    have hgl := hl g (by simp)
    obtain ⟨hf1, hf2⟩ := hf g (by simp)
    obtain ⟨d, hd⟩ : ∃ d, descs[g.nVars]? = some d := ⟨_, List.getElem?_eq_getElem hgl⟩
    obtain ⟨i1, i2, i3⟩ := h _ d hd
    have k1 := (i1 _).mpr hf1
    have k2 := (i2 _).mpr hf2
    rw [List.cons_append]
    unfold claimLoop
    rw [hd, Option.bind_some, if_neg (not_not_intro k1), if_neg (not_not_intro k2)]
    simp only
    rw [if_pos ⟨by omega, by omega⟩, claimLoop_mismatch counts ts good bad c (i + 1) _ (fun v x hx => ?_)
      (fun x hx => by rw [List.length_set]; exact hl x (by simp [hx])) (fun x hx => hf x (by simp [hx]))
      (by rw [List.length_set]; exact hcl) hnf, List.length_cons]
    · congr 3; omega
    · by_cases hv : v = g.nVars
      · rw [hv, List.getElem?_set_self hgl] at hx
        injection hx with hx
        subst hx hv
        exact ⟨i1, i2, i3⟩
      · rw [List.getElem?_set_ne (fun e => hv e.symm)] at hx
        exact h v x hx

theorem transparents_ok (m : CommitMeta) (ts : List Nat) (hs : ts.Pairwise (· ≤ ·)) (hlt : ∀ t ∈ ts, t ≤ m.maxNVars) :
    ∃ descs, transparentLoop (F := F) ts 0 (initialDescs m) = some (.ok descs) ∧ descs.length = m.maxNVars + 1 ∧
      ∀ v d, descs[v]? = some d → DescInv m.nMultilinsByVars ts v d ∧ d.sums = [] := by
  obtain ⟨h1, h2⟩ := initialDescs_ok (F := F) m
  obtain ⟨descs, h3, h4, h5⟩ := transparentLoop_ok m.nMultilinsByVars ts [] 0 (initialDescs (F := F) m)
    (fun v d hd => ⟨(h2 v d hd).1, (h2 v d hd).2.2⟩) (by omega) (fun x hx => by simp at hx)
    (fun d hd => by rw [(h2 0 d hd).2.1]; rfl) (fun t _ => Nat.zero_le t) hs (fun t ht => by
      have := hlt t ht; omega)
  exact ⟨descs, h3, by rw [h4, h1], by simpa using h5⟩

/-- **C53.** Sorted transparents and claims that fit are accepted, with one description for each number of variables: its
polynomials are the committed and the transparent polynomials with that number of variables, and its sums are the claims
with that number of variables, in order, each about the right two polynomials. -/
theorem C53_grouped (m : CommitMeta) (ts : List Nat) (claims : List (PiopClaim F)) (hs : ts.Pairwise (· ≤ ·))
    (hlt : ∀ t ∈ ts, t ≤ m.maxNVars) (hcl : ∀ c ∈ claims, c.nVars ≤ m.maxNVars)
    (hf : ∀ c ∈ claims, Fits m.nMultilinsByVars ts c) :
    ∃ descs, makeSumcheckClaimDescs m ts claims = some (.ok descs) ∧ descs.length = m.maxNVars + 1 ∧
      ∀ v d, descs[v]? = some d →
        (∀ k, .inl k ∈ descPolys d ↔ (sizes 0 m.nMultilinsByVars)[k]? = some v) ∧
        (∀ t, .inr t ∈ descPolys d ↔ ts[t]? = some v) ∧
        d.sums.map (fun s => ((descPolys d)[s.1.1]?, (descPolys d)[s.1.2]?, s.2)) =
          (claims.filter fun c => c.nVars = v).map
            fun c => (some (.inl c.committed), some (.inr c.transparent), c.sum) := by
  obtain ⟨descs, h1, h2, h3⟩ := transparents_ok (F := F) m ts hs hlt
  obtain ⟨descs', h4, h5, h6⟩ := claimLoop_ok m.nMultilinsByVars ts claims [] 0 descs
    (fun v d hd => ⟨(h3 v d hd).1, by rw [(h3 v d hd).2]; rfl⟩) (fun c hc => by have := hcl c hc; omega) hf
  refine ⟨descs', ?_, by rw [h5, h2], fun v d hd => ?_⟩
  · unfold makeSumcheckClaimDescs
    rw [h1]
    exact h4
  · obtain ⟨⟨i1, i2, i3⟩, i4⟩ := h6 v d hd
    refine ⟨fun k => ?_, fun t => ?_, i4⟩
    · rw [← i1 k]
      unfold descPolys
      simp only [List.mem_append, List.mem_map, List.mem_range'_1, Sum.inl.injEq, exists_eq_right, reduceCtorEq, and_false,
        exists_false, or_false]
      omega
    · rw [← i2 t]
      unfold descPolys
      simp only [List.mem_append, List.mem_map, List.mem_range'_1, Sum.inr.injEq, exists_eq_right, reduceCtorEq, and_false,
        exists_false, false_or]
      omega

/-- **C53.** Transparents that are not sorted by their number of variables are refused. -/
theorem C53_unsorted (m : CommitMeta) (ts : List Nat) (claims : List (PiopClaim F)) (hs : ¬ ts.Pairwise (· ≤ ·))
    (hlt : ∀ t ∈ ts, t ≤ m.maxNVars) :
    makeSumcheckClaimDescs m ts claims = some (.error .transparentsNotSorted) := by
  obtain ⟨h1, _⟩ := initialDescs_ok (F := F) m
  unfold makeSumcheckClaimDescs
  rw [transparentLoop_unsorted ts 0 (initialDescs m) (by omega) (fun t ht => by have := hlt t ht; omega)
    fun h => hs (List.pairwise_cons.mp h).2]

/-- **C53.** The first claim that does not fit is reported. -/
theorem C53_mismatch (m : CommitMeta) (ts : List Nat) (good bad : List (PiopClaim F)) (c : PiopClaim F)
    (hs : ts.Pairwise (· ≤ ·)) (hlt : ∀ t ∈ ts, t ≤ m.maxNVars) (hg : ∀ c ∈ good, c.nVars ≤ m.maxNVars)
    (hf : ∀ c ∈ good, Fits m.nMultilinsByVars ts c) (hc : c.nVars ≤ m.maxNVars) (hnf : ¬ Fits m.nMultilinsByVars ts c) :
    makeSumcheckClaimDescs m ts (good ++ c :: bad) =
      some (.error (.sumcheckClaimVariablesMismatch good.length)) := by
  obtain ⟨descs, h1, h2, h3⟩ := transparents_ok (F := F) m ts hs hlt
  unfold makeSumcheckClaimDescs
  rw [h1]
  simp only
  rw [claimLoop_mismatch m.nMultilinsByVars ts good bad c 0 descs (fun v d hd => (h3 v d hd).1)
    (fun x hx => by have := hg x hx; omega) hf (by omega) hnf, Nat.zero_add]

/-- **C53, violated.** A claim (or a transparent) with more variables than every committed polynomial is not refused:
the function panics. -/
theorem C53_too_many_vars_panics (m : CommitMeta) (ts : List Nat) (bad : List (PiopClaim F)) (c : PiopClaim F)
    (hs : ts.Pairwise (· ≤ ·)) (hlt : ∀ t ∈ ts, t ≤ m.maxNVars) (hc : m.maxNVars < c.nVars) :
    makeSumcheckClaimDescs m ts (c :: bad) = none := by
  obtain ⟨descs, h1, h2, h3⟩ := transparents_ok (F := F) m ts hs hlt
  unfold makeSumcheckClaimDescs
  rw [h1]
  simp only
  unfold claimLoop
  rw [List.getElem?_eq_none (by omega)]
  rfl

/-- **C53, violated.** The same for a transparent. -/
theorem C53_large_transparent_panics (m : CommitMeta) (t : Nat) (ts : List Nat) (claims : List (PiopClaim F))
    (ht : m.maxNVars < t) : makeSumcheckClaimDescs m (t :: ts) claims = none := by
  obtain ⟨h1, _⟩ := initialDescs_ok (F := F) m
  unfold makeSumcheckClaimDescs transparentLoop
  rw [if_neg (by omega), if_pos (by omega)]
  obtain ⟨d, hd⟩ : ∃ d, (initialDescs (F := F) m)[0]? = some d := ⟨_, List.getElem?_eq_getElem (by omega)⟩
  rw [hd, Option.bind_some, List.getElem?_eq_none (l := initialDescs m) (i := t) (by omega), Option.bind_none]

/-- Two constants and three polynomials of two variables; transparents of 0, 2 and 2 variables. -/
def exMeta : CommitMeta := CommitMeta.new [2, 0, 3]

def exClaims : List (PiopClaim Nat) := [⟨2, 4, 1, 7⟩, ⟨0, 1, 0, 8⟩, ⟨2, 2, 2, 9⟩]

example : ∃ descs, makeSumcheckClaimDescs exMeta [0, 2, 2] exClaims = some (.ok descs) ∧
    descs.map (·.sums) = [[((1, 2), 8)], [], [((2, 3), 7), ((0, 4), 9)]] := ⟨_, rfl, by decide⟩

example : [0, 2, 2].Pairwise (· ≤ ·) ∧ (∀ t ∈ [0, 2, 2], t ≤ exMeta.maxNVars) ∧
    (∀ c ∈ exClaims, c.nVars ≤ exMeta.maxNVars) ∧ ∀ c ∈ exClaims, Fits exMeta.nMultilinsByVars [0, 2, 2] c := by
  decide

example : ¬ Fits exMeta.nMultilinsByVars [0, 2, 2] (⟨2, 1, 1, 5⟩ : PiopClaim Nat) := by decide

end Verif.Piop
