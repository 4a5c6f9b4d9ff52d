import Verif.Channel.LemmasChannel

set_option linter.dupNamespace false
set_option linter.unusedSectionVars false

/-! C32: `validate_witness` accepts exactly the balanced flushes. -/

namespace Verif.Channel

variable {F : Type} [DecidableEq F] [Zero F]

theorem boundaries_eq (checks : Bool) (boundaries : List (Boundary F)) (channelCount : Nat)
    (hw : ∀ b ∈ boundaries, b.channelId < channelCount) (cs : Channels F) :
    forEach (boundaryStep checks channelCount) boundaries cs = forEach (sendEvent checks channelCount)
      (boundaries.map fun b => (⟨b.channelId, b.direction, b.multiplicity, b.values⟩ : Event F)) cs := by
  have := forEach_filterMap (boundaryStep checks channelCount) (sendEvent (F := F) checks channelCount)
    (fun _ => true) (fun b => (⟨b.channelId, b.direction, b.multiplicity, b.values⟩ : Event F)) boundaries
    (fun b hb s => by
      unfold boundaryStep
      rw [if_neg (by have := hw b hb; omega)]; rfl) cs
  rw [this, List.filter_true]

theorem flushes_eq (checks : Bool) (witness : Witness F) (flushes : List (Flush F)) (boundaries : List (Boundary F))
    (tableSizes : List Nat) (channelCount : Nat)
    (hw : WellFormed witness flushes boundaries tableSizes channelCount) (cs : Channels F) :
    forEach (flushStep checks witness tableSizes channelCount) flushes cs =
      forEach (sendEvent checks channelCount)
        (flushes.flatMap fun f => flushEvents witness (tableSizes.getD f.tableId 0) f) cs := by
  rw [← forEach_flatMap]
  exact forEach_congr _ _ _ (fun f hf s =>
    flushStep_ok checks witness tableSizes channelCount f (hw.channel f hf) (hw.table f hf) (hw.fits f hf) s) cs

/-- What the two loops of the validation do for a well-formed system. -/
theorem loops_eq (checks : Bool) (witness : Witness F) (flushes : List (Flush F)) (boundaries : List (Boundary F))
    (tableSizes : List Nat) (channelCount : Nat)
    (hw : WellFormed witness flushes boundaries tableSizes channelCount) :
    validateWitness checks witness flushes boundaries tableSizes channelCount =
      Step.andThen (forEach (sendEvent checks channelCount) (events witness flushes boundaries tableSizes)
        fun _ => Channel.new) fun cs => some (checkBalanced cs (List.range channelCount)) := by
  unfold validateWitness events
  rw [forEach_append, boundaries_eq checks boundaries channelCount hw.boundary]
  simp only [flushes_eq checks witness flushes boundaries tableSizes channelCount hw]
  cases forEach (sendEvent checks channelCount)
      (boundaries.map fun b => (⟨b.channelId, b.direction, b.multiplicity, b.values⟩ : Event F)) fun _ => Channel.new with
  | none => rfl
  | some r => cases r <;> rfl

theorem events_lt (witness : Witness F) (flushes : List (Flush F)) (boundaries : List (Boundary F))
    (tableSizes : List Nat) (channelCount : Nat)
    (hw : WellFormed witness flushes boundaries tableSizes channelCount) :
    ∀ e ∈ events witness flushes boundaries tableSizes, e.channel < channelCount := by
  intro e he
  rcases List.mem_append.1 he with h | h
  · obtain ⟨b, hb, rfl⟩ := List.mem_map.1 h
    exact hw.boundary b hb
  · obtain ⟨f, hf, h⟩ := List.mem_flatMap.1 h
    rcases hw.channel f hf with h' | ⟨-, -, h'⟩
    · rw [mem_flushEvents _ _ _ _ h]; exact h'
    · rw [h'] at h; cases h

/-- C32. While the multiplicities of all the tuples add up to less than `2^63`, the validation accepts exactly when the
parameters are well formed, the tuples of a channel have one width and every tuple is pushed as often as it is pulled.
Without the bound it fails: `C32_overflow_accepts_unbalanced`, `C32_overflow_panics`. -/
theorem C32_accepts_iff_partial (checks : Bool) (witness : Witness F) (flushes : List (Flush F))
    (boundaries : List (Boundary F)) (tableSizes : List Nat) (channelCount : Nat)
    (hsum : ((events witness flushes boundaries tableSizes).map (·.multiplicity)).sum < 2 ^ 63) :
    validateWitness checks witness flushes boundaries tableSizes channelCount = some (.ok ()) ↔
      WellFormed witness flushes boundaries tableSizes channelCount ∧
      SameWidth (events witness flushes boundaries tableSizes) ∧
      Balanced (events witness flushes boundaries tableSizes) := by
  constructor
  · intro h
    have hw : WellFormed witness flushes boundaries tableSizes channelCount := by
      have h' := h
      unfold validateWitness at h'
      cases hb : forEach (boundaryStep checks channelCount) boundaries fun _ => (Channel.new : Channel F) with
      | none => rw [hb] at h'; cases h'
      | some r => cases r with
        | error e => rw [hb] at h'; cases h'
        | ok cs =>
          rw [hb] at h'
          change Step.andThen (forEach (flushStep checks witness tableSizes channelCount) flushes cs) _ = _ at h'
          cases hf : forEach (flushStep checks witness tableSizes channelCount) flushes cs with
          | none => rw [hf] at h'; cases h'
          | some r => cases r with
            | error e => rw [hf] at h'; cases h'
            | ok cs' =>
              have b1 := forEach_ok_mem _ _ _ _ hb
              have f1 := forEach_ok_mem _ _ _ _ hf
              have f2 := fun f hf => Exists.elim (f1 f hf) fun s h => Exists.elim h fun s' h =>
                flushStep_wf checks witness tableSizes channelCount f s s' h
              refine ⟨fun b hb => ?_, fun f hf => (f2 f hf).1, fun f hf => (f2 f hf).2.1, fun f hf => (f2 f hf).2.2⟩
              obtain ⟨s, s', h⟩ := b1 b hb
              unfold boundaryStep at h
              split at h
              · cases h
              · unfold flushChannel at h
                split at h
                · assumption
                · cases h
    refine ⟨hw, ?_⟩
    rw [loops_eq checks witness flushes boundaries tableSizes channelCount hw] at h
    obtain ⟨s1, s2⟩ := send_all checks channelCount (events witness flushes boundaries tableSizes) [] (fun _ => Channel.new)
      (events_lt _ _ _ _ _ hw) inv_nil (by simpa [total] using hsum) (fun e he => by cases he)
    rw [List.nil_append] at s1 s2
    by_cases hsw : SameWidth (events witness flushes boundaries tableSizes)
    · obtain ⟨cs, e1, hI⟩ := s1 hsw
      rw [e1] at h
      change some (checkBalanced cs _) = _ at h
      rw [Option.some.injEq, checkBalanced_ok] at h
      refine ⟨hsw, fun c t => ?_⟩
      by_cases hc : c < channelCount
      · exact (inv_balanced _ cs hI c).1 (h c (List.mem_range.2 hc)) t
      · have : ∀ d, count (events witness flushes boundaries tableSizes) d c t = 0 := by
          intro d
          unfold count
          rw [List.filter_eq_nil_iff.2]
          · rfl
          · intro e he
            have := events_lt _ _ _ _ _ hw e he
            simp only [decide_eq_true_eq, not_and]
            intro _ hh; omega
        rw [this, this]
    · rw [s2 hsw] at h; cases h
  · rintro ⟨hw, hsw, hb⟩
    rw [loops_eq checks witness flushes boundaries tableSizes channelCount hw]
    obtain ⟨s1, -⟩ := send_all checks channelCount (events witness flushes boundaries tableSizes) [] (fun _ => Channel.new)
      (events_lt _ _ _ _ _ hw) inv_nil (by simpa [total] using hsum) (fun e he => by cases he)
    rw [List.nil_append] at s1
    obtain ⟨cs, e1, hI⟩ := s1 hsw
    rw [e1]
    show some (checkBalanced cs _) = _
    rw [Option.some.injEq, checkBalanced_ok]
    exact fun c _ => (inv_balanced _ cs hI c).2 (hb c)

/-- C32: a channel with tuples of two widths is reported. -/
theorem C32_rejects_widths (checks : Bool) (witness : Witness F) (flushes : List (Flush F))
    (boundaries : List (Boundary F)) (tableSizes : List Nat) (channelCount : Nat)
    (hsum : ((events witness flushes boundaries tableSizes).map (·.multiplicity)).sum < 2 ^ 63)
    (hw : WellFormed witness flushes boundaries tableSizes channelCount)
    (hs : ¬ SameWidth (events witness flushes boundaries tableSizes)) :
    validateWitness checks witness flushes boundaries tableSizes channelCount =
      some (.error .channelFlushWidthMismatch) := by
  rw [loops_eq checks witness flushes boundaries tableSizes channelCount hw]
  obtain ⟨-, s2⟩ := send_all checks channelCount (events witness flushes boundaries tableSizes) [] (fun _ => Channel.new)
    (events_lt _ _ _ _ _ hw) inv_nil (by simpa [total] using hsum) (fun e he => by cases he)
  rw [List.nil_append] at s2
  rw [s2 hs]; rfl

/-- C32: the first unbalanced channel is reported. -/
theorem C32_rejects_unbalanced (checks : Bool) (witness : Witness F) (flushes : List (Flush F))
    (boundaries : List (Boundary F)) (tableSizes : List Nat) (channelCount : Nat)
    (hsum : ((events witness flushes boundaries tableSizes).map (·.multiplicity)).sum < 2 ^ 63)
    (hw : WellFormed witness flushes boundaries tableSizes channelCount)
    (hs : SameWidth (events witness flushes boundaries tableSizes)) (c : Nat) (hc : c < channelCount) (t : List F)
    (hu : count (events witness flushes boundaries tableSizes) .push c t ≠
      count (events witness flushes boundaries tableSizes) .pull c t)
    (hfirst : ∀ c' < c, ∀ t, count (events witness flushes boundaries tableSizes) .push c' t =
      count (events witness flushes boundaries tableSizes) .pull c' t) :
    validateWitness checks witness flushes boundaries tableSizes channelCount =
      some (.error (.channelUnbalanced c)) := by
  rw [loops_eq checks witness flushes boundaries tableSizes channelCount hw]
  obtain ⟨s1, -⟩ := send_all checks channelCount (events witness flushes boundaries tableSizes) [] (fun _ => Channel.new)
    (events_lt _ _ _ _ _ hw) inv_nil (by simpa [total] using hsum) (fun e he => by cases he)
  rw [List.nil_append] at s1
  obtain ⟨cs, e1, hI⟩ := s1 hs
  rw [e1]
  show some (checkBalanced cs _) = _
  rw [checkBalanced_range cs channelCount c hc]
  · rw [← Bool.not_eq_true, inv_balanced _ cs hI c]
    exact fun h => hu (h t)
  · exact fun c' hc' => (inv_balanced _ cs hI c').2 (hfirst c' hc')

/-- C32: a boundary with a channel identifier out of range is reported, whatever follows it. -/
theorem C32_rejects_boundary_id (checks : Bool) (witness : Witness F) (flushes : List (Flush F))
    (pre post : List (Boundary F)) (b : Boundary F) (tableSizes : List Nat) (channelCount : Nat)
    (hsum : ((events witness [] pre tableSizes).map (·.multiplicity)).sum < 2 ^ 63)
    (hw : WellFormed witness [] pre tableSizes channelCount) (hs : SameWidth (events witness [] pre tableSizes))
    (hc : channelCount ≤ b.channelId) (h0 : 0 < channelCount) :
    validateWitness checks witness flushes (pre ++ b :: post) tableSizes channelCount =
      some (.error .channelIdOutOfRange) := by
  obtain ⟨s1, -⟩ := send_all checks channelCount (events witness [] pre tableSizes) [] (fun _ => Channel.new)
    (events_lt _ _ _ _ _ hw) inv_nil (by simpa [total] using hsum) (fun e he => by cases he)
  rw [List.nil_append] at s1
  obtain ⟨cs, e1, -⟩ := s1 hs
  have h1 : forEach (boundaryStep checks channelCount) pre (fun _ => Channel.new) = some (.ok cs) := by
    rw [boundaries_eq checks pre channelCount hw.boundary]
    simpa [events] using e1
  have h2 : boundaryStep checks channelCount b cs = some (.error .channelIdOutOfRange) := if_pos (by omega)
  unfold validateWitness
  rw [forEach_append, h1]
  show Step.andThen (Step.andThen (boundaryStep checks channelCount b cs) _) _ = _
  rw [h2]; rfl

/-- C32: a flush with a channel identifier out of range is reported, whatever follows it. -/
theorem C32_rejects_flush_id (checks : Bool) (witness : Witness F) (pre post : List (Flush F)) (f : Flush F)
    (boundaries : List (Boundary F)) (tableSizes : List Nat) (channelCount : Nat)
    (hsum : ((events witness pre boundaries tableSizes).map (·.multiplicity)).sum < 2 ^ 63)
    (hw : WellFormed witness pre boundaries tableSizes channelCount)
    (hs : SameWidth (events witness pre boundaries tableSizes))
    (hc : channelCount ≤ f.channelId) (h0 : 0 < channelCount) :
    validateWitness checks witness (pre ++ f :: post) boundaries tableSizes channelCount =
      some (.error .channelIdOutOfRange) := by
  obtain ⟨s1, -⟩ := send_all checks channelCount (events witness pre boundaries tableSizes) [] (fun _ => Channel.new)
    (events_lt _ _ _ _ _ hw) inv_nil (by simpa [total] using hsum) (fun e he => by cases he)
  rw [List.nil_append] at s1
  obtain ⟨cs, e1, -⟩ := s1 hs
  unfold events at e1
  rw [forEach_append, ← boundaries_eq checks boundaries channelCount hw.boundary] at e1
  unfold validateWitness
  cases hb : forEach (boundaryStep checks channelCount) boundaries (fun _ => (Channel.new : Channel F)) with
  | none => rw [hb] at e1; cases e1
  | some r => cases r with
    | error e => rw [hb] at e1; cases e1
    | ok cs0 =>
      rw [hb] at e1
      change forEach _ _ cs0 = _ at e1
      rw [← flushes_eq checks witness pre boundaries tableSizes channelCount hw] at e1
      have h2 : flushStep checks witness tableSizes channelCount f cs = some (.error .channelIdOutOfRange) :=
        if_pos (by omega)
      show Step.andThen (forEach _ (pre ++ f :: post) cs0) _ = _
      rw [forEach_append, e1]
      show Step.andThen (Step.andThen (flushStep checks witness tableSizes channelCount f cs) _) _ = _
      rw [h2]; rfl

/-- A witness with one column of two rows, 5 and 7, and a selector that is zero in the second row. -/
def exampleWitness : Witness Nat := fun id =>
  if id = 0 then some ⟨1, fun i => if i = 0 then 5 else 7⟩
  else if id = 1 then some ⟨1, fun i => if i = 0 then 1 else 0⟩ else none

/-- Two rows pushed without selector, 7 pulled by a boundary, 5 pulled by a selected flush: accepted. -/
example : validateWitness true exampleWitness
    [⟨0, 0, [.oracle 0, .const 3], 0, .push, [], 2⟩, ⟨0, 0, [.oracle 0, .const 3], 0, .pull, [1], 2⟩]
    [⟨[7, 3], 0, .pull, 2⟩] [2] 1 = some (.ok ()) := by decide +kernel

/-- The hypothesis on the multiplicities is met. -/
example : ((events exampleWitness
    [⟨0, 0, [.oracle 0, .const 3], 0, .push, [], 2⟩, ⟨0, 0, [.oracle 0, .const 3], 0, .pull, [1], 2⟩]
    [⟨[7, 3], 0, .pull, 2⟩] [2]).map (·.multiplicity)).sum = 8 := by decide +kernel

/-- Without the boundary the same system is rejected. -/
example : validateWitness true exampleWitness
    [⟨0, 0, [.oracle 0, .const 3], 0, .push, [], 2⟩, ⟨0, 0, [.oracle 0, .const 3], 0, .pull, [1], 2⟩]
    [] [2] 1 = some (.error (.channelUnbalanced 0)) := by decide +kernel

/-- An out-of-range boundary after a good one. -/
example : validateWitness true exampleWitness [] [⟨[7, 3], 0, .pull, 2⟩, ⟨[7, 3], 1, .pull, 2⟩] [2] 1 =
    some (.error .channelIdOutOfRange) := by decide +kernel

/-- Finding: in a release build the `i64` counters wrap, so two pushes of multiplicity `2^63` (with no pull at all) are
accepted as balanced. -/
theorem C32_overflow_accepts_unbalanced (witness : Witness Nat) :
    validateWitness false witness [] [⟨[1], 0, .push, 2 ^ 63⟩, ⟨[1], 0, .push, 2 ^ 63⟩] [] 1 = some (.ok ()) ∧
    ¬ Balanced (events witness [] [⟨[1], 0, .push, 2 ^ 63⟩, ⟨[1], 0, .push, 2 ^ 63⟩] []) := by
  refine ⟨by rfl, fun h => ?_⟩
  have := h 0 [1]
  revert this
  simp [events, count]

/-- Finding: with overflow checks the same balanced system (a push and a pull of multiplicity `2^63`) panics. -/
theorem C32_overflow_panics (witness : Witness Nat) :
    validateWitness true witness [] [⟨[1], 0, .push, 2 ^ 63⟩, ⟨[1], 0, .pull, 2 ^ 63⟩] [] 1 = none ∧
    Balanced (events witness [] [⟨[1], 0, .push, 2 ^ 63⟩, ⟨[1], 0, .pull, 2 ^ 63⟩] []) := by
  refine ⟨by rfl, fun c t => ?_⟩
  by_cases hc : 0 = c <;> by_cases ht : [1] = t <;> simp [events, count, hc, ht]

/-- Finding: a flush of constants only is refused with a panic as soon as its table has two rows, although what it sends
is well defined, because the number of variables of "all its oracles" is taken to be 0. -/
theorem C32_constant_flush_panics (checks : Bool) (witness : Witness F) (channelCount rows : Nat) (b : F)
    (hr : 2 ≤ rows) :
    validateWitness checks witness [⟨0, 0, [.const b], 0, .push, [], 1⟩, ⟨0, 0, [.const b], 0, .pull, [], 1⟩] [] [rows]
      channelCount = none := by
  have : flushStep checks witness [rows] channelCount ⟨0, 0, [.const b], 0, .push, [], 1⟩ (fun _ => Channel.new) =
      none := by
    unfold flushStep
    rw [if_neg (by simp)]
    show (some rows).bind _ = _
    rw [Option.bind_some, if_neg (by omega)]
    have hlt : 1 < rows := by omega
    simp [flushRows, collectPolys, oracleIds, firstNVars, hlt]
  show Step.andThen (Step.andThen (flushStep _ _ _ _ _ _) _) _ = none
  rw [this]; rfl

/-- Finding: with no channel at all, a boundary of channel 0 passes the range check and the indexing panics. -/
theorem C32_no_channel_panics (checks : Bool) (witness : Witness F) (values : List F) (m : Nat) :
    validateWitness checks witness [] [⟨values, 0, .push, m⟩] [] 0 = none := rfl

end Verif.Channel
