import Verif.Math.LemmasArith

/-! Lemmas for C21: removal of unused steps. -/

set_option linter.unusedSectionVars false

namespace Verif.Arith

variable {F : Type*} [CommRing F] [DecidableEq F]

/-- Result of marking: nothing is unmarked, and what is newly marked has its references marked. -/
structure Marked (c : Circuit F) (used out : List Bool) : Prop where
  len : out.length = used.length
  mono : ∀ j : Nat, used[j]? = some true → out[j]? = some true
  closed : ∀ (j : Nat) (s : Step F), out[j]? = some true → used[j]? ≠ some true → c[j]? = some s →
    ∀ r ∈ s.refs, out[r]? = some true

theorem Marked.refl (c : Circuit F) (u : List Bool) : Marked c u u :=
  ⟨rfl, fun _ h => h, fun _ _ h h' => absurd h h'⟩

theorem Marked.trans {c : Circuit F} {a b d : List Bool} (h : Marked c a b) (h' : Marked c b d) :
    Marked c a d :=
  ⟨h'.len.trans h.len, fun j hj => h'.mono j (h.mono j hj), fun j s hj hn hs r hr => by
    by_cases hb : b[j]? = some true
    · exact h'.mono r (h.closed j s hb hn hs r hr)
    · exact h'.closed j s hj hb hs r hr⟩

theorem set_true {u : List Bool} {i j : Nat} (hi : i < u.length) :
    (u.set i true)[j]? = some true ↔ j = i ∨ u[j]? = some true := by
  rw [List.getElem?_set]
  by_cases h : i = j
  · simp [h, h ▸ hi]
  · simp [h, Ne.symm h]

theorem markUsed_spec {c : Circuit F} (hc : WF c) : ∀ (f i : Nat) (used : List Bool), i < f → i < c.length →
    used.length = c.length →
    ∃ out, markUsed c f i used = some out ∧ Marked c used out ∧ out[i]? = some true
  | 0, _, _, h, _, _ => by omega
  | f + 1, i, used, hf, hi, hl => by
    rw [markUsed, List.getElem?_eq_getElem (by omega), Option.bind_some]
    by_cases hu : used[i] = true
    · rw [if_pos hu]
      exact ⟨used, rfl, Marked.refl c used, by rw [List.getElem?_eq_getElem (by omega), hu]⟩
    · rw [if_neg hu, List.getElem?_eq_getElem hi, Option.bind_some]
      have hci : c[i]? = some c[i] := List.getElem?_eq_getElem hi
      have hw := hc i _ hci
      generalize c[i] = s at hci hw
      have hl1 : (used.set i true).length = c.length := by simp [hl]
      have base : ∀ out, Marked c (used.set i true) out → (∀ r ∈ s.refs, out[r]? = some true) →
          Marked c used out ∧ out[i]? = some true := by
        intro out hm hr
        have hii : out[i]? = some true := hm.mono i ((set_true (by omega)).2 (Or.inl rfl))
        refine ⟨⟨hm.len.trans (by simp), fun j hj => hm.mono j ((set_true (by omega)).2 (Or.inr hj)),
          fun j t hj hn ht r hrr => ?_⟩, hii⟩
        by_cases hji : j = i
        · subst hji
          rw [hci] at ht
          cases ht
          exact hr r hrr
        · refine hm.closed j t hj (fun h => ?_) ht r hrr
          rcases (set_true (by omega)).1 h with h | h
          exacts [hji h, hn h]
      cases s with
      | add l r =>
        have h1 := hw l (by simp [Step.refs]); have h2 := hw r (by simp [Step.refs])
        obtain ⟨o1, e1, m1, i1⟩ := markUsed_spec hc f l (used.set i true) (by omega) (by omega) hl1
        obtain ⟨o2, e2, m2, i2⟩ := markUsed_spec hc f r o1 (by omega) (by omega) (m1.len.trans hl1)
        obtain ⟨b1, b2⟩ := base o2 (m1.trans m2) (fun x hx => by
          simp only [Step.refs, List.mem_cons, List.not_mem_nil, or_false] at hx
          rcases hx with rfl | rfl
          exacts [m2.mono _ i1, i2])
        exact ⟨o2, by dsimp only; rw [e1, Option.bind_some, e2], b1, b2⟩
      | mul l r =>
        have h1 := hw l (by simp [Step.refs]); have h2 := hw r (by simp [Step.refs])
        obtain ⟨o1, e1, m1, i1⟩ := markUsed_spec hc f l (used.set i true) (by omega) (by omega) hl1
        obtain ⟨o2, e2, m2, i2⟩ := markUsed_spec hc f r o1 (by omega) (by omega) (m1.len.trans hl1)
        obtain ⟨b1, b2⟩ := base o2 (m1.trans m2) (fun x hx => by
          simp only [Step.refs, List.mem_cons, List.not_mem_nil, or_false] at hx
          rcases hx with rfl | rfl
          exacts [m2.mono _ i1, i2])
        exact ⟨o2, by dsimp only; rw [e1, Option.bind_some, e2], b1, b2⟩
      | pow b e =>
        have h1 := hw b (by simp [Step.refs])
        obtain ⟨o1, e1, m1, i1⟩ := markUsed_spec hc f b (used.set i true) (by omega) (by omega) hl1
        obtain ⟨b1, b2⟩ := base o1 m1 (fun x hx => by
          simp only [Step.refs, List.mem_cons, List.not_mem_nil, or_false] at hx
          exact hx ▸ i1)
        exact ⟨o1, e1, b1, b2⟩
      | const v =>
        obtain ⟨b1, b2⟩ := base _ (Marked.refl c _) (fun x hx => by simp [Step.refs] at hx)
        exact ⟨_, rfl, b1, b2⟩
      | var v =>
        obtain ⟨b1, b2⟩ := base _ (Marked.refl c _) (fun x hx => by simp [Step.refs] at hx)
        exact ⟨_, rfl, b1, b2⟩

/-- The number of used steps before `j`. -/
def cnt (used : List Bool) (j : Nat) : Nat := (used.take j).count true

theorem cnt_succ (used : List Bool) (j : Nat) :
    cnt used (j + 1) = cnt used j + if used[j]? = some true then 1 else 0 := by
  unfold cnt
  rw [List.take_add_one, List.count_append]
  congr 1
  cases h : used[j]? with
  | none => simp
  | some b => cases b <;> simp

theorem cnt_le (used : List Bool) (j : Nat) : cnt used j ≤ j := by
  induction j with
  | zero => simp [cnt]
  | succ j ih => rw [cnt_succ]; split <;> omega

theorem cnt_mono (used : List Bool) (i d : Nat) :
    cnt used i ≤ cnt used (i + d) ∧ cnt used (i + d) ≤ cnt used i + d := by
  induction d with
  | zero => exact ⟨le_rfl, le_rfl⟩
  | succ d ih =>
    rw [show i + (d + 1) = i + d + 1 by omega, cnt_succ]
    split <;> omega

theorem cnt_lt {used : List Bool} {i j : Nat} (hi : used[i]? = some true) (hij : i < j) :
    cnt used i < cnt used j := by
  have h1 := cnt_succ used i
  rw [if_pos hi] at h1
  have h2 := (cnt_mono used (i + 1) (j - (i + 1))).1
  rw [show i + 1 + (j - (i + 1)) = j by omega] at h2
  omega

theorem Step.relabel_congr {f g : Nat → Nat} {s : Step F} (h : ∀ r ∈ s.refs, f r = g r) :
    s.relabel f = s.relabel g := by
  cases s with
  | add l r => simp only [Step.relabel, h l (by simp [Step.refs]), h r (by simp [Step.refs])]
  | mul l r => simp only [Step.relabel, h l (by simp [Step.refs]), h r (by simp [Step.refs])]
  | pow b e => simp only [Step.relabel, h b (by simp [Step.refs])]
  | const c => rfl
  | var x => rfl

theorem Step.relabel_id {f : Nat → Nat} {s : Step F} (h : ∀ r ∈ s.refs, f r = r) : s.relabel f = s := by
  refine (Step.relabel_congr (g := id) h).trans ?_
  cases s <;> rfl

/-- The loop invariant of the compaction. -/
structure CInv (c : Circuit F) (used : List Bool) (k : Nat) (st : Circuit F × List Nat × Nat) : Prop where
  len : st.1.length = c.length
  maplen : st.2.1.length = c.length
  target : st.2.2 = cnt used k
  map : ∀ j < k, used[j]? = some true → st.2.1[j]? = some (cnt used j)
  map' : ∀ j, k ≤ j → j < c.length → st.2.1[j]? = some j
  new : ∀ (j : Nat) (s : Step F), j < k → used[j]? = some true → c[j]? = some s →
    st.1[cnt used j]? = some (s.relabel (cnt used))
  old : ∀ j : Nat, k ≤ j → st.1[j]? = c[j]?

theorem compressLoop_spec {c : Circuit F} (hc : WF c) {used : List Bool} (hl : used.length = c.length)
    (hcl : ∀ (j : Nat) (s : Step F), used[j]? = some true → c[j]? = some s → ∀ r ∈ s.refs, used[r]? = some true) :
    ∀ k ≤ c.length, ∃ st, compressLoop used (c, List.range c.length, 0) k = some st ∧ CInv c used k st
  | 0, _ => ⟨_, rfl, rfl, by simp, by simp [cnt], by omega, fun j _ hj => by simp [hj], by omega,
      fun j _ => rfl⟩
  | k + 1, hk => by
    obtain ⟨st, e, inv⟩ := compressLoop_spec hc hl hcl k (by omega)
    rw [compressLoop, e, Option.bind_some, compressStep, List.getElem?_eq_getElem (by omega),
      Option.bind_some]
    have hcs := cnt_succ used k
    have hck : c[k]? = some c[k] := List.getElem?_eq_getElem (by omega)
    have huk : used[k]? = some used[k] := List.getElem?_eq_getElem (by omega)
    by_cases hu : used[k] = true
    · have hu' : used[k]? = some true := by rw [huk, hu]
      rw [if_pos hu' ] at hcs
      rw [if_pos hu]
      have href : ∀ r ∈ (c[k]).refs, r < k ∧ used[r]? = some true := fun r hr =>
        ⟨hc k _ hck r hr, hcl k _ hu' hck r hr⟩
      by_cases ht : st.2.2 = k
      · -- nothing has moved yet
        rw [if_neg (by simpa using ht)]
        have hck0 : cnt used k = k := by rw [← inv.target, ht]
        have hid : ∀ j ≤ k, cnt used j = j := by
          intro j hj
          have h1 := (cnt_mono used j (k - j)).2
          rw [show j + (k - j) = k by omega] at h1
          have := cnt_le used j
          omega
        refine ⟨_, rfl, inv.len, inv.maplen, by show st.2.2 + 1 = _; rw [ht]; omega, fun j hj hju => ?_,
          fun j hj hjl => inv.map' j (by omega) hjl, fun j s hj hju hs => ?_, fun j hj => inv.old j (by omega)⟩
        · by_cases hjk : j = k
          · subst hjk; rw [inv.map' j le_rfl (by omega), hck0]
          · exact inv.map j (by omega) hju
        · by_cases hjk : j = k
          · subst hjk
            rw [hck0]
            show st.1[j]? = _
            rw [inv.old j le_rfl, hs, Step.relabel_id fun r hr => ?_]
            exact hid r (hc j s hs r hr).le
          · exact inv.new j s (by omega) hju hs
      · rw [if_pos (by simpa using ht), inv.old k le_rfl, hck, Option.bind_some]
        have htk : st.2.2 < k := by
          have := cnt_le used k
          rw [inv.target] at ht ⊢
          omega
        have hremap : remapStep st.2.1 c[k] = some ((c[k]).relabel (cnt used)) := by
          rw [remapStep_eq fun r hr => by rw [inv.maplen]; have := (href r hr).1; omega]
          congr 1
          refine Step.relabel_congr fun r hr => ?_
          rw [List.getD_eq_getElem?_getD, inv.map r (href r hr).1 (href r hr).2]
          rfl
        rw [hremap, Option.bind_some]
        have htl : st.2.2 < st.1.length := by rw [inv.len]; omega
        refine ⟨_, rfl, by simp [inv.len], by simp [inv.maplen], by show st.2.2 + 1 = _; rw [inv.target]; omega,
          fun j hj hju => ?_, fun j hj hjl => ?_, fun j s hj hju hs => ?_, fun j hj => ?_⟩
        · show (st.2.1.set k st.2.2)[j]? = _
          rw [List.getElem?_set]
          by_cases hjk : k = j
          · subst hjk; rw [if_pos rfl, if_pos (by rw [inv.maplen]; omega), inv.target]
          · rw [if_neg hjk, inv.map j (by omega) hju]
        · show (st.2.1.set k st.2.2)[j]? = _
          rw [List.getElem?_set, if_neg (by omega), inv.map' j (by omega) hjl]
        · show ((st.1.set k _).set st.2.2 _)[cnt used j]? = _
          rw [List.getElem?_set]
          by_cases hjk : j = k
          · subst hjk
            rw [if_pos inv.target, if_pos (by rw [List.length_set]; exact htl)]
            rw [hck] at hs
            cases hs
            rfl
          · have := cnt_lt hju (show j < k by omega)
            have h3 := cnt_le used k
            rw [if_neg (by rw [inv.target]; omega), List.getElem?_set, if_neg (by omega)]
            exact inv.new j s (by omega) hju hs
        · show ((st.1.set k _).set st.2.2 _)[j]? = _
          rw [List.getElem?_set, if_neg (by omega), List.getElem?_set, if_neg (by omega), inv.old j (by omega)]
    · rw [if_neg hu]
      have hu' : used[k]? ≠ some true := by rw [huk]; simpa using hu
      rw [if_neg hu'] at hcs
      refine ⟨st, rfl, inv.len, inv.maplen, by rw [inv.target]; omega, fun j hj hju => ?_,
        fun j hj hjl => inv.map' j (by omega) hjl, fun j s hj hju hs => ?_, fun j hj => inv.old j (by omega)⟩
      · exact inv.map j (by
          have : j ≠ k := fun h => hu' (h ▸ hju)
          omega) hju
      · exact inv.new j s (by
          have : j ≠ k := fun h => hu' (h ▸ hju)
          omega) hju hs

theorem cnt_surj (used : List Bool) (k x : Nat) (hx : x < cnt used k) :
    ∃ j < k, used[j]? = some true ∧ cnt used j = x := by
  induction k with
  | zero => simp [cnt] at hx
  | succ k ih =>
    rw [cnt_succ] at hx
    by_cases h : x < cnt used k
    · obtain ⟨j, h1, h2⟩ := ih h
      exact ⟨j, by omega, h2⟩
    · by_cases hu : used[k]? = some true
      · rw [if_pos hu] at hx
        exact ⟨k, by omega, hu, by omega⟩
      · rw [if_neg hu] at hx; omega

theorem cnt_inj {used : List Bool} {i j : Nat} (hi : used[i]? = some true) (hj : used[j]? = some true)
    (h : cnt used i = cnt used j) : i = j := by
  rcases Nat.lt_trichotomy i j with hlt | he | hlt
  · have := cnt_lt hi hlt; omega
  · exact he
  · have := cnt_lt hj hlt; omega

/-- Compaction succeeds on nonempty well-formed circuits, gives a nonempty well-formed circuit that is not
longer, and keeps the value of the last step. -/
theorem compress_spec {c : Circuit F} (hne : c ≠ []) (hc : WF c) : ∃ c', compress c = some c' ∧ c' ≠ [] ∧ WF c' ∧
    c'.length ≤ c.length ∧ ∀ q v, Val q c v → ∃ w, Val q c' w ∧ w (c'.length - 1) = v (c.length - 1) := by
  have hpos := List.length_pos_iff.2 hne
  obtain ⟨used, e1, hm, hlast⟩ := markUsed_spec hc c.length (c.length - 1) (List.replicate c.length false)
    (by omega) (by omega) (by simp)
  have hl : used.length = c.length := by rw [hm.len]; simp
  have hcl : ∀ (j : Nat) (s : Step F), used[j]? = some true → c[j]? = some s →
      ∀ r ∈ s.refs, used[r]? = some true := fun j s hj hs r hr => hm.closed j s hj (by
    intro h
    rw [List.getElem?_replicate] at h
    split at h <;> simp at h) hs r hr
  obtain ⟨st, e2, inv⟩ := compressLoop_spec hc hl hcl c.length le_rfl
  have ht : st.2.2 = cnt used (c.length - 1) + 1 := by
    rw [inv.target]
    have := cnt_succ used (c.length - 1)
    rw [if_pos hlast, show c.length - 1 + 1 = c.length by omega] at this
    exact this
  have htle : st.2.2 ≤ c.length := by rw [inv.target]; exact cnt_le _ _
  have hlen : (st.1.take st.2.2).length = st.2.2 := by
    rw [List.length_take, inv.len]; omega
  have hget : ∀ (x : Nat) (s : Step F), (st.1.take st.2.2)[x]? = some s →
      ∃ j t, j < c.length ∧ used[j]? = some true ∧ cnt used j = x ∧ c[j]? = some t ∧
        s = t.relabel (cnt used) := by
    intro x s hs
    have hx := lt_of_get hs
    rw [hlen] at hx
    obtain ⟨j, h1, h2, h3⟩ := cnt_surj used c.length x (by rw [← inv.target]; exact hx)
    have hj := List.getElem?_eq_getElem h1
    have := inv.new j _ h1 h2 hj
    rw [h3] at this
    rw [List.getElem?_take, if_pos hx, this] at hs
    exact ⟨j, _, h1, h2, h3, hj, (Option.some.inj hs).symm⟩
  refine ⟨st.1.take st.2.2, by rw [compress, e1, Option.bind_some, e2]; rfl, ?_, ?_, by omega, ?_⟩
  · rw [← List.length_pos_iff, hlen]; omega
  · intro x s hs r hr
    obtain ⟨j, t, h1, h2, h3, h4, rfl⟩ := hget x s hs
    have : ∃ r0 ∈ t.refs, r = cnt used r0 := by
      cases t with
      | add l r' =>
        simp only [Step.relabel, Step.refs, List.mem_cons, List.not_mem_nil, or_false] at hr
        rcases hr with h | h
        exacts [⟨l, by simp [Step.refs], h⟩, ⟨r', by simp [Step.refs], h⟩]
      | mul l r' =>
        simp only [Step.relabel, Step.refs, List.mem_cons, List.not_mem_nil, or_false] at hr
        rcases hr with h | h
        exacts [⟨l, by simp [Step.refs], h⟩, ⟨r', by simp [Step.refs], h⟩]
      | pow b e =>
        simp only [Step.relabel, Step.refs, List.mem_cons, List.not_mem_nil, or_false] at hr
        exact ⟨b, by simp [Step.refs], hr⟩
      | const c => simp [Step.relabel, Step.refs] at hr
      | var x => simp [Step.relabel, Step.refs] at hr
    obtain ⟨r0, hr0, rfl⟩ := this
    rw [← h3]
    exact cnt_lt (hcl j t h2 h4 r0 hr0) (hc j t h4 r0 hr0)
  · intro q v hv
    classical
    let w : Nat → F := fun x => if h : ∃ j, used[j]? = some true ∧ cnt used j = x then v h.choose else 0
    have hw : ∀ j, used[j]? = some true → w (cnt used j) = v j := by
      intro j hj
      have hex : ∃ j', used[j']? = some true ∧ cnt used j' = cnt used j := ⟨j, hj, rfl⟩
      show (if h : ∃ j', used[j']? = some true ∧ cnt used j' = cnt used j then v h.choose else 0) = v j
      rw [dif_pos hex, cnt_inj hex.choose_spec.1 hj hex.choose_spec.2]
    refine ⟨w, fun x s hs => ?_, ?_⟩
    · obtain ⟨j, t, h1, h2, h3, h4, rfl⟩ := hget x s hs
      refine (hv j t h4).relabel (by rw [← h3, hw j h2]) fun r hr => ?_
      have h5 := hcl j t h2 h4 r hr
      exact ⟨by rw [← h3]; exact cnt_lt h5 (hc j t h4 r hr), hw r h5⟩
    · rw [hlen, ht, Nat.add_sub_cancel, hw _ hlast]

end Verif.Arith
