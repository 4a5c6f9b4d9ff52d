import Verif.M3.ModelEmulate

/-! Property C49: the channels of trace emulation. -/

namespace Verif.M3.Emulate

variable {α : Type} [DecidableEq α]

/-- The number of pushes less the number of pulls of a value. -/
def net (ops : List (Op α)) (v : α) : Int := (ops.count (.push v) : Int) - ops.count (.pull v)

/-- A channel is the map from the values with a net multiplicity other than zero to it. -/
structure Holds (c : Channel α) (f : α → Int) : Prop where
  nodup : (c.map (·.1)).Nodup
  nonzero : ∀ p ∈ c, p.2 ≠ 0
  value : ∀ p ∈ c, p.2 = f p.1
  all : ∀ v, f v ≠ 0 → ∃ p ∈ c, p.1 = v

theorem Holds.get {c : Channel α} {f : α → Int} (h : Holds c f) (v : α) :
    c.get v = if f v = 0 then none else some (f v) := by
  rw [Channel.get]
  cases hf : c.find? fun p => p.1 = v with
  | none =>
    rw [List.find?_eq_none] at hf
    rw [if_pos]
    · rfl
    · by_contra hne
      obtain ⟨p, hp, hv⟩ := h.all v hne
      exact hf p hp (by simpa using hv)
  | some p =>
    have hp := List.mem_of_find?_eq_some hf
    have hv : p.1 = v := by simpa using List.find?_some hf
    have := h.value p hp
    rw [hv] at this
    rw [if_neg (by rw [← this]; exact h.nonzero p hp), ← this]
    rfl

theorem Holds.remove {c : Channel α} {f g : α → Int} (h : Holds c f) {v : α} (hv : g v = 0) (hg : ∀ u, u ≠ v → g u = f u) :
    Holds (c.remove v) g := by
  refine ⟨?_, fun p hp => h.nonzero p (List.mem_filter.1 hp).1, fun p hp => ?_, fun u hu => ?_⟩
  · exact h.nodup.sublist (List.filter_sublist.map _)
  · obtain ⟨h1, h2⟩ := List.mem_filter.1 hp
    rw [hg _ (by simpa using h2)]
    exact h.value p h1
  · have hne : u ≠ v := by rintro rfl; exact hu hv
    obtain ⟨p, hp, hpu⟩ := h.all u (by rw [← hg u hne]; exact hu)
    exact ⟨p, List.mem_filter.2 ⟨hp, by simpa [hpu] using hne⟩, hpu⟩

theorem Holds.insert {c : Channel α} {f g : α → Int} (h : Holds c f) {v : α} {n : Int} (hv : g v = n) (hn : n ≠ 0)
    (hg : ∀ u, u ≠ v → g u = f u) : Holds (c.insert v n) g := by
  have hr : Holds (c.remove v) (fun u => if u = v then 0 else f u) := h.remove (if_pos rfl) fun u hu => if_neg hu
  have hne : ∀ p ∈ c.remove v, p.1 ≠ v := fun p hp => by simpa using (List.mem_filter.1 hp).2
  refine ⟨?_, fun p hp => ?_, fun p hp => ?_, fun u hu => ?_⟩
  · rw [Channel.insert, List.map_cons, List.nodup_cons]
    refine ⟨fun hm => ?_, hr.nodup⟩
    obtain ⟨p, hp, hpv⟩ := List.mem_map.1 hm
    exact hne p hp hpv
  · rcases List.mem_cons.1 hp with rfl | hp
    · exact hn
    · exact hr.nonzero p hp
  · rcases List.mem_cons.1 hp with rfl | hp
    · exact hv.symm
    · rw [hr.value p hp, if_neg (hne p hp), hg _ (hne p hp)]
  · by_cases huv : u = v
    · exact ⟨_, List.mem_cons_self .., huv.symm⟩
    · obtain ⟨p, hp, hpu⟩ := hr.all u (by rw [if_neg huv, ← hg u huv]; exact hu)
      exact ⟨p, List.mem_cons_of_mem _ hp, hpu⟩

theorem Holds.push {c : Channel α} {f : α → Int} (h : Holds c f) (v : α) :
    Holds (c.push v) fun u => if u = v then f u + 1 else f u := by
  rw [Channel.push, h.get]
  by_cases hz : f v = 0
  · rw [if_pos hz]
    exact h.insert (by rw [if_pos rfl, hz]; rfl) (by decide) fun u hu => if_neg hu
  · rw [if_neg hz]
    dsimp only
    by_cases h1 : f v + 1 = 0
    · rw [if_pos h1]
      exact h.remove (by rw [if_pos rfl, h1]) fun u hu => if_neg hu
    · rw [if_neg h1]
      exact h.insert (if_pos rfl) h1 fun u hu => if_neg hu

theorem Holds.pull {c : Channel α} {f : α → Int} (h : Holds c f) (v : α) :
    Holds (c.pull v) fun u => if u = v then f u - 1 else f u := by
  rw [Channel.pull, h.get]
  by_cases hz : f v = 0
  · rw [if_pos hz]
    exact h.insert (by rw [if_pos rfl, hz]; rfl) (by decide) fun u hu => if_neg hu
  · rw [if_neg hz]
    dsimp only
    by_cases h1 : f v - 1 = 0
    · rw [if_pos h1]
      exact h.remove (by rw [if_pos rfl, h1]) fun u hu => if_neg hu
    · rw [if_neg h1]
      exact h.insert (if_pos rfl) h1 fun u hu => if_neg hu

theorem run_holds : ∀ (ops : List (Op α)) {c : Channel α} {f : α → Int}, Holds c f →
    Holds (run c ops) fun v => f v + net ops v
  | [], c, f, h => by
    have : (fun v => f v + net [] v) = f := by funext v; simp [net]
    rw [this]; exact h
  | op :: ops, c, f, h => by
    cases op with
    | push v =>
      have ih := run_holds ops (h.push v)
      refine Eq.mp (congrArg _ (funext fun u => ?_)) ih
      by_cases huv : u = v
      · subst huv
        simp only [net, List.count_cons, if_pos, beq_self_eq_true, reduceCtorEq, beq_iff_eq, if_false]
        push_cast; omega
      · simp only [net, List.count_cons, if_neg huv, beq_iff_eq, Op.push.injEq, reduceCtorEq, if_false,
          if_neg (Ne.symm huv)]
        push_cast; omega
    | pull v =>
      have ih := run_holds ops (h.pull v)
      refine Eq.mp (congrArg _ (funext fun u => ?_)) ih
      by_cases huv : u = v
      · subst huv
        simp only [net, List.count_cons, if_pos, beq_self_eq_true, reduceCtorEq, beq_iff_eq, if_false]
        push_cast; omega
      · simp only [net, List.count_cons, if_neg huv, beq_iff_eq, Op.pull.injEq, reduceCtorEq, if_false,
          if_neg (Ne.symm huv)]
        push_cast; omega

theorem run_new (ops : List (Op α)) : Holds (run (Channel.new α) ops) (net ops) := by
  have h := run_holds ops (c := Channel.new α) (f := fun _ => 0) ⟨List.nodup_nil, by simp [Channel.new], by simp [Channel.new],
    fun v h => absurd rfl h⟩
  refine Eq.mp (congrArg _ (funext fun v => ?_)) h
  omega

/-- **C49.** After every history of pushes and pulls, the channel is balanced if and only if every value was pushed as
often as it was pulled. -/
theorem C49_balanced (ops : List (Op α)) :
    (run (Channel.new α) ops).isBalanced = true ↔ ∀ v, ops.count (.push v) = ops.count (.pull v) := by
  have h := run_new ops
  rw [Channel.isBalanced, List.isEmpty_iff]
  constructor
  · intro he v
    by_contra hne
    obtain ⟨p, hp, -⟩ := h.all v (by rw [net]; omega)
    rw [he] at hp
    exact absurd hp List.not_mem_nil
  · intro hv
    refine List.eq_nil_iff_forall_not_mem.2 fun p hp => h.nonzero p hp ?_
    rw [h.value p hp, net, hv, sub_self]

/-- **C49.** Otherwise the panic of `assert_balanced` lists the values that were pushed more often than pulled, and those
that were pulled more often than pushed, each once and with the difference. -/
theorem C49_report (ops : List (Op α)) :
    ((run (Channel.new α) ops).assertBalanced = .ok () ↔ ∀ v, ops.count (.push v) = ops.count (.pull v)) ∧
    ∀ pushes pulls, (run (Channel.new α) ops).assertBalanced = .error (pushes, pulls) →
      (pushes.map (·.1)).Nodup ∧ (pulls.map (·.1)).Nodup ∧
      (∀ v n, (v, n) ∈ pushes ↔ ops.count (.pull v) < ops.count (.push v) ∧ n = ops.count (.push v) - ops.count (.pull v)) ∧
      ∀ v n, (v, n) ∈ pulls ↔ ops.count (.push v) < ops.count (.pull v) ∧ n = ops.count (.pull v) - ops.count (.push v) := by
  have h := run_new ops
  have hmem : ∀ v n, (v, n) ∈ run (Channel.new α) ops ↔ n ≠ 0 ∧ n = net ops v := by
    refine fun v n => ⟨fun hp => ⟨h.nonzero _ hp, h.value _ hp⟩, fun ⟨h1, h2⟩ => ?_⟩
    obtain ⟨p, hp, hv⟩ := h.all v (by rw [← h2]; exact h1)
    have hp2 := h.value p hp
    obtain ⟨u, m⟩ := p
    dsimp only at hv hp2
    subst hv
    rw [h2, ← hp2]
    exact hp
  refine ⟨?_, fun pushes pulls he => ?_⟩
  · rw [← C49_balanced, Channel.assertBalanced]
    split <;> simp_all
  · rw [Channel.assertBalanced] at he
    split at he
    · cases he
    · injection he with he
      injection he with h1 h2
      subst h1 h2
      refine ⟨h.nodup.sublist (List.filter_sublist.map _), ?_, fun v n => ?_, fun v n => ?_⟩
      · rw [List.map_map]
        exact h.nodup.sublist (List.filter_sublist.map _)
      · rw [List.mem_filter, hmem, net]
        simp only [decide_eq_true_eq]
        omega
      · rw [List.mem_map]
        constructor
        · rintro ⟨⟨u, m⟩, hm, he⟩
          rw [List.mem_filter, hmem, net] at hm
          simp only [decide_eq_true_eq] at hm
          injection he with e1 e2
          dsimp only at e1 e2
          subst e1
          rw [abs_of_nonpos (by omega)] at e2
          omega
        · rintro ⟨h1, h2⟩
          refine ⟨(v, -n), ?_, ?_⟩
          · rw [List.mem_filter, hmem, net]
            simp only [decide_eq_true_eq]
            omega
          · dsimp only
            rw [abs_of_nonpos (by omega), neg_neg]

/-- A history with an unbalanced push and an unbalanced pull, and one that is balanced although a pull comes first. -/
example : (run (Channel.new Nat) [.pull 1, .push 2, .push 2, .pull 3, .push 3]).assertBalanced = .error ([(2, 2)], [(1, 1)]) ∧
    (run (Channel.new Nat) [.pull 1, .push 2, .push 1, .pull 2]).isBalanced = true := by decide

end Verif.M3.Emulate
