import Verif.Transcript.SpecTranscript
import Verif.Transcript.LemmasChallenger
import Verif.Utils.PropsSerialization

/-! # Transcripts: lemmas -/

namespace Verif.Transcript
open Verif.Ser (Ty Mode leBytes ofLeBytes)

variable (H : HashFn)

/-- The effect of `observe` on a state between calls. -/
def Challenger.observed (c : Challenger) (bs : Bytes) : Challenger :=
  .observer (bs.foldl (Observer.putByte H) (c.toObserver H))

theorem toObserver_wf (c : Challenger) (h : c.WF H) : (c.toObserver H).WF H := by
  cases c with
  | observer o => exact h
  | sampler s => exact ⟨H.block_pos, by simp [Challenger.toObserver, Sampler.intoObserver]⟩

theorem toSampler_wf (c : Challenger) (h : c.WF H) : (c.toSampler H).WF H := by
  cases c with
  | sampler s => exact h
  | observer o => exact ⟨Nat.le_refl _, by simp [Challenger.toSampler, Observer.intoSampler]⟩

theorem observe_eq (c : Challenger) (h : c.WF H) (bs : Bytes) :
    c.observe H bs = some (c.observed H bs) := by
  simp only [Challenger.observe, putSlice_eq H _ (toObserver_wf H c h), Option.map_some,
    Challenger.observed]

theorem observed_wf (c : Challenger) (h : c.WF H) (bs : Bytes) : (c.observed H bs).WF H :=
  foldl_putByte_wf H bs _ (toObserver_wf H c h)

theorem observed_append (c : Challenger) (a b : Bytes) :
    (c.observed H a).observed H b = c.observed H (a ++ b) := by
  simp only [Challenger.observed, Challenger.toObserver, List.foldl_append]

theorem sample_eq (c : Challenger) (h : c.WF H) (n : Nat) :
    c.sample H n = some (((c.toSampler H).nextBytes H n).1,
      .sampler ((c.toSampler H).nextBytes H n).2) := by
  simp only [Challenger.sample, copyToSlice_eq H _ (toSampler_wf H c h), Option.map_some]

theorem sample_wf (c : Challenger) (h : c.WF H) (n : Nat) (r : Bytes × Challenger)
    (hr : c.sample H n = some r) : r.2.WF H := by
  rw [sample_eq H c h n] at hr
  rw [← Option.some.inj hr]
  exact nextBytes_wf H n _ (toSampler_wf H c h)

theorem default_wf : (Challenger.default H).WF H := ⟨Nat.zero_le _, H.hash_length _⟩

theorem getUint_eq (s : Sampler) (h : s.WF H) (n : Nat) (hn : 0 < n) :
    s.getUint H n = some (s.nextBytes H n) := by
  unfold Sampler.getUint
  split
  · rename_i hle
    have hcl : s.chunk.length = H.out - s.index := by
      obtain ⟨h1, h2⟩ := h
      simp only [Sampler.chunk, List.length_drop]; omega
    rw [advance_eq H s h n hn, Option.map_some, nextBytes_chunk H n s h (by omega)]
    rfl
  · exact copyToSlice_eq H s h n

theorem getU8_wf (s : Sampler) (h : s.WF H) (r : UInt8 × Sampler) (hr : s.getU8 H = some r) :
    r.2.WF H ∧ s.nextBytes H 1 = ([r.1], r.2) := by
  unfold Sampler.getU8 at hr
  rw [advance_eq H s h 1 (by omega)] at hr
  cases hc : s.chunk[0]? with
  | none => rw [hc] at hr; simp at hr
  | some b =>
    rw [hc] at hr
    simp only [Option.map_some, Option.bind_some, Option.some.injEq] at hr
    subst hr
    refine ⟨nextBytes_wf H 1 s h, ?_⟩
    have hlt : s.index < s.buffer.length := by
      by_contra hge
      rw [Sampler.chunk, List.drop_of_length_le (by omega)] at hc
      simp at hc
    have h2 := h.2
    have hk := nextBytes_chunk H 1 s h (by omega)
    rw [hk]
    rw [Sampler.chunk, List.drop_eq_getElem_cons hlt] at hc
    simp only [List.getElem?_cons_zero, Option.some.injEq] at hc
    rw [List.drop_eq_getElem_cons hlt, hc]
    rfl

/-! ## Channels -/

/-- What writing or reading `bs` on a channel does to the challenger. -/
def Chan.effect (ch : Chan) (c : Challenger) (bs : Bytes) : Challenger :=
  match ch with
  | .message => if bs = [] then c else c.observed H bs
  | .decommitment => c

theorem effect_wf (ch : Chan) (c : Challenger) (h : c.WF H) (bs : Bytes) :
    (ch.effect H c bs).WF H := by
  cases ch with
  | message =>
    unfold Chan.effect
    dsimp only
    split
    · exact h
    · exact observed_wf H c h bs
  | decommitment => exact h

theorem effect_append (ch : Chan) (c : Challenger) (a b : Bytes) :
    ch.effect H (ch.effect H c a) b = ch.effect H c (a ++ b) := by
  cases ch with
  | message =>
    unfold Chan.effect
    dsimp only
    by_cases ha : a = []
    · subst ha; simp
    · by_cases hb : b = []
      · subst hb; simp
      · rw [if_neg ha, if_neg hb, if_neg (by simp [ha]), observed_append]
  | decommitment => rfl

theorem effect_nil (ch : Chan) (c : Challenger) : ch.effect H c [] = c := by
  cases ch <;> simp [Chan.effect]

section
variable (E : Env)

theorem putLoop_prover (fuel : Nat) (p : Prover) (h : p.chal.WF H) (src : Bytes)
    (hf : src.length < fuel) :
    Prover.putLoop H E fuel p src =
      .ok { p with tape := p.tape ++ src, chal := Chan.effect H .message p.chal src } := by
  induction fuel generalizing p src with
  | zero => omega
  | succ fuel ih =>
    unfold Prover.putLoop
    split
    · subst src; simp [Chan.effect]
    · rename_i hne
      have hpos : 0 < src.length := List.length_pos_iff.mpr hne
      have hroom := E.room_pos p.tape.length
      have hc0 : 0 < min src.length (E.room p.tape.length) := by omega
      have hcs : min src.length (E.room p.tape.length) ≤ src.length := by omega
      generalize min src.length (E.room p.tape.length) = cnt at hc0 hcs
      dsimp only
      rw [observe_eq H _ h]
      simp only [orPanic, bind, Except.bind]
      rw [ih _ (observed_wf H _ h _) _ (by rw [List.length_drop]; omega)]
      have hne2 : src.take cnt ≠ [] := by
        intro e
        have := congrArg List.length e
        rw [List.length_take] at this
        simp only [List.length_nil] at this
        omega
      have e1 : p.chal.observed H (src.take cnt) = Chan.effect H .message p.chal (src.take cnt) := by
        simp only [Chan.effect, if_neg hne2]
      rw [e1]
      simp only [effect_append, List.append_assoc, List.take_append_drop]

theorem put_eq (p : Prover) (h : p.chal.WF H) (ch : Chan) (bs : Bytes) :
    p.put H E ch bs = .ok { p with tape := p.tape ++ bs, chal := ch.effect H p.chal bs } := by
  cases ch with
  | message => exact putLoop_prover H E _ p h bs (by omega)
  | decommitment => rfl

theorem putAll_eq (ch : Chan) (bs : List Bytes) (p : Prover) (h : p.chal.WF H) :
    Prover.putAll H E ch p bs =
      .ok { p with tape := p.tape ++ bs.flatten, chal := ch.effect H p.chal bs.flatten } := by
  induction bs generalizing p with
  | nil => simp [Prover.putAll, effect_nil]
  | cons b bs ih =>
    unfold Prover.putAll
    rw [put_eq H E p h]
    simp only [bind, Except.bind]
    rw [ih _ (effect_wf H ch _ h b)]
    simp only [effect_append, List.append_assoc, List.flatten_cons]

theorem observeAll_eq (bs : List Bytes) (c : Challenger) (h : c.WF H) :
    ∃ c', observeAll H c bs = .ok c' ∧ c'.WF H := by
  induction bs generalizing c with
  | nil => exact ⟨c, rfl, h⟩
  | cons b bs ih =>
    obtain ⟨c', h1, h2⟩ := ih _ (observed_wf H c h b)
    refine ⟨c', ?_, h2⟩
    unfold observeAll
    rw [observe_eq H c h]
    exact h1

end

theorem advanceAll_eq (ch : Chan) (bs : List Bytes) (v : Verifier) (h : v.chal.WF H) (rest : Bytes)
    (ht : v.tape = bs.flatten ++ rest) :
    Verifier.advanceAll H ch v bs =
      .ok { v with tape := rest, chal := ch.effect H v.chal bs.flatten } := by
  induction bs generalizing v with
  | nil =>
    obtain ⟨t, c, d⟩ := v
    simp only [List.flatten_nil, List.nil_append] at ht
    subst ht
    simp [Verifier.advanceAll, effect_nil]
  | cons b bs ih =>
    rw [List.flatten_cons, List.append_assoc] at ht
    unfold Verifier.advanceAll
    split
    · rename_i hb
      subst hb
      rw [List.nil_append] at ht
      rw [ih v h ht]
      simp
    · rename_i hb
      rw [if_neg (by rw [ht]; simp)]
      have htake : v.tape.take b.length = b := by rw [ht]; exact List.take_left
      have hdrop : v.tape.drop b.length = bs.flatten ++ rest := by rw [ht]; exact List.drop_left
      cases ch with
      | message =>
        dsimp only
        rw [htake, observe_eq H _ h]
        simp only [orPanic, bind, Except.bind]
        rw [ih { v with tape := v.tape.drop b.length, chal := v.chal.observed H b }
          (observed_wf H _ h b) hdrop]
        have e1 : v.chal.observed H b = Chan.effect H .message v.chal b := by
          simp only [Chan.effect, if_neg hb]
        dsimp only
        rw [e1]
        simp only [effect_append, List.flatten_cons]
      | decommitment =>
        dsimp only
        rw [ih { v with tape := v.tape.drop b.length } h hdrop]
        rfl

theorem prefix_split {pre a b : Bytes} (h : pre <+: a ++ b) :
    (pre <+: a ∧ pre ≠ a) ∨ ∃ q, pre = a ++ q ∧ q <+: b := by
  by_cases hl : pre.length < a.length
  · left
    refine ⟨List.prefix_of_prefix_length_le h (List.prefix_append a b) (by omega), ?_⟩
    intro e; rw [e] at hl; omega
  · right
    obtain ⟨q, rfl⟩ := List.prefix_of_prefix_length_le (List.prefix_append a b) h (by omega)
    exact ⟨q, rfl, (List.prefix_append_right_inj a).mp h⟩

/-! ## One step -/

variable (E E' : Env)

theorem read_ok (t : Ty) (ht : t.Supported) (x : t.Val) (cap : Nat) (w rest : Bytes)
    (hw : t.ser .canonicalTower x cap = .ok w) (ch : Chan) (c : Challenger) (hc : c.WF H) (d : Bool) :
    Verifier.read H E' ⟨w ++ rest, c, d⟩ ch t = .ok (x, ⟨rest, ch.effect H c w, d⟩) := by
  unfold Verifier.read
  dsimp only
  rw [Verif.Ser.C01_roundtrip .canonicalTower t ht x cap w rest hw]
  dsimp only
  have e : (w ++ rest).take ((w ++ rest).length - rest.length) = w := by
    rw [List.length_append, Nat.add_sub_cancel]; exact List.take_left
  rw [e, advanceAll_eq H ch _ _ hc rest (by rw [E'.cutR_flatten])]
  simp only [bind, Except.bind, E'.cutR_flatten]

theorem write_ok (p p' : Prover) (hc : p.chal.WF H) (ch : Chan) (t : Ty) (x : t.Val)
    (h : p.write H E ch t x = .ok p') :
    ∃ w cap, t.ser .canonicalTower x cap = .ok w ∧
      p' = { p with tape := p.tape ++ w, chal := ch.effect H p.chal w } := by
  unfold Prover.write at h
  cases hs : t.ser .canonicalTower x (usizeMax - p.tape.length) with
  | error e => rw [hs] at h; cases h
  | ok w =>
    rw [hs] at h
    dsimp only at h
    rw [putAll_eq H E ch _ p hc, E.cutW_flatten] at h
    exact ⟨w, _, hs, (Except.ok.inj h).symm⟩

theorem writeSlice_ok (ch : Chan) (t : Ty) (ht : t.Supported) (xs : List t.Val) (p p' : Prover)
    (hc : p.chal.WF H) (h : Prover.writeSlice H E ch t p xs = .ok p') :
    ∃ w, p' = { p with tape := p.tape ++ w, chal := ch.effect H p.chal w } ∧
      (∀ (rest : Bytes) (d : Bool),
        Verifier.readVec H E' ch t ⟨w ++ rest, p.chal, d⟩ xs.length =
          .ok (xs, ⟨rest, p'.chal, d⟩)) ∧
      ∀ (pre : Bytes) (d : Bool), pre <+: w → pre ≠ w →
        Verifier.readVec H E' ch t ⟨pre, p.chal, d⟩ xs.length =
          .error (.err (.serialization .notEnoughBytes)) := by
  induction xs generalizing p with
  | nil =>
    refine ⟨[], ?_, fun rest d => ?_, fun pre d hp hne => ?_⟩
    · rw [← Except.ok.inj h]; simp [effect_nil]
    · rw [← Except.ok.inj h]; rfl
    · exact absurd (List.prefix_nil.mp hp) hne
  | cons x xs ih =>
    unfold Prover.writeSlice at h
    cases hw : p.write H E ch t x with
    | error e => rw [hw] at h; cases h
    | ok p1 =>
      rw [hw] at h
      simp only [bind, Except.bind] at h
      obtain ⟨w1, cap, hs, hp1⟩ := write_ok H E p p1 hc ch t x hw
      have hc1 : p1.chal.WF H := by rw [hp1]; exact effect_wf H ch _ hc w1
      obtain ⟨w2, hp2, hr, hpre⟩ := ih p1 hc1 h
      have hch : p1.chal = ch.effect H p.chal w1 := by rw [hp1]
      refine ⟨w1 ++ w2, ?_, fun rest d => ?_, fun pre d hp hne => ?_⟩
      · rw [hp2, hp1]
        simp only [List.append_assoc, effect_append]
      · rw [List.length_cons]
        unfold Verifier.readVec
        rw [List.append_assoc, read_ok H E' t ht x cap w1 (w2 ++ rest) hs ch p.chal hc d]
        simp only [bind, Except.bind]
        rw [← hch, hr rest d]
      · rw [List.length_cons]
        unfold Verifier.readVec
        rcases prefix_split hp with hlt | ⟨q, rfl, hq⟩
        · have hread : Verifier.read H E' ⟨pre, p.chal, d⟩ ch t =
              .error (.err (.serialization .notEnoughBytes)) := by
            unfold Verifier.read
            dsimp only
            rw [Verif.Ser.C02_truncated .canonicalTower t ht x cap w1 pre hs hlt.1 hlt.2]
          rw [hread]; rfl
        · rw [read_ok H E' t ht x cap w1 q hs ch p.chal hc d]
          simp only [bind, Except.bind]
          rw [← hch, hpre q d hq (by intro e; exact hne (by rw [e]))]

theorem readBytes_ok (ch : Chan) (c : Challenger) (hc : c.WF H) (d : Bool) (w rest : Bytes) :
    Verifier.readBytes H ⟨w ++ rest, c, d⟩ ch w.length = .ok (w, ⟨rest, ch.effect H c w, d⟩) := by
  unfold Verifier.readBytes
  dsimp only
  rw [if_neg (by simp), List.take_left,
    advanceAll_eq H ch _ _ hc rest (by simp)]
  simp [bind, Except.bind]

theorem observeValue_wf (c c' : Challenger) (hc : c.WF H) (t : Ty) (x : t.Val)
    (h : observeValue H E c t x = .ok c') : c'.WF H ∧ observeValue H E' c t x = .ok c' := by
  have hw := observed_wf H c hc []
  have key : ∀ (F : Env) (c₀ : Challenger), c₀.WF H → ∀ bs : List Bytes,
      observeAll H c₀ bs = .ok (bs.foldl (fun c b => c.observed H b) c₀) := by
    intro F c₀ h₀ bs
    induction bs generalizing c₀ with
    | nil => rfl
    | cons b bs ih =>
      unfold observeAll
      rw [observe_eq H c₀ h₀]
      exact ih _ (observed_wf H c₀ h₀ b)
  have fold : ∀ (bs : List Bytes) (a : Bytes),
      bs.foldl (fun c b => c.observed H b) (c.observed H a) = c.observed H (a ++ bs.flatten) := by
    intro bs
    induction bs with
    | nil => intro a; simp
    | cons b bs ih => intro a; rw [List.foldl_cons, observed_append, ih]; simp
  unfold observeValue at h ⊢
  rw [observe_eq H c hc] at h ⊢
  simp only [orPanic, bind, Except.bind] at h ⊢
  cases hs : t.ser .canonicalTower x usizeMax with
  | error e => rw [hs] at h; cases h
  | ok bs =>
    rw [hs] at h
    dsimp only at h ⊢
    rw [key E _ hw, fold, E.cutW_flatten] at h
    rw [key E' _ hw, fold, E'.cutW_flatten]
    refine ⟨?_, h⟩
    rw [← Except.ok.inj h]
    exact observed_wf H c hc _

theorem observeBytes_wf (c c' : Challenger) (hc : c.WF H) (bs : Bytes)
    (h : observeBytes H c bs = .ok c') : c'.WF H := by
  unfold observeBytes at h
  rw [observe_eq H c hc] at h
  simp only [orPanic, bind, Except.bind] at h
  rw [observe_eq H _ (observed_wf H c hc [])] at h
  rw [← Except.ok.inj h]
  exact observed_wf H _ (observed_wf H c hc []) bs

theorem sampleScalar_wf (c : Challenger) (hc : c.WF H) (f : Scalar) (r : f.ty.Val × Challenger)
    (h : sampleScalar H c f = .ok r) : r.2.WF H := by
  have hs := toSampler_wf H c hc
  unfold sampleScalar at h
  have key : ∀ (o : Option (Bytes × Sampler)), (∀ q, o = some q → q.2.WF H) →
      (orPanic o).bind (fun q => match f.ty.de .canonicalTower q.1 with
        | .error _ => .error .panic
        | .ok (x, _) => .ok (x, Challenger.sampler q.2)) = .ok r → r.2.WF H := by
    intro o ho hr
    cases o with
    | none => cases hr
    | some q =>
      have hq := ho q rfl
      simp only [orPanic, Except.bind] at hr
      cases hd : f.ty.de .canonicalTower q.1 with
      | error e => rw [hd] at hr; cases hr
      | ok y =>
        rw [hd] at hr
        rw [← Except.ok.inj hr]
        exact hq
  refine key _ ?_ h
  intro q hq
  split at hq
  · cases hg : (c.toSampler H).getU8 H with
    | none => rw [hg] at hq; cases hq
    | some r =>
      rw [hg] at hq
      rw [← Option.some.inj hq]
      exact (getU8_wf H _ hs r hg).1
  · unfold Sampler.getUint at hq
    split at hq
    · rename_i hb hle
      by_cases h0 : f.bytes = 0
      · rw [h0, advance_zero H _ hs] at hq
        rw [← Option.some.inj hq]
        exact (ready_wf H _ hs).1
      · rw [advance_eq H _ hs _ (by omega)] at hq
        rw [← Option.some.inj hq]
        exact nextBytes_wf H _ _ hs
    · rw [copyToSlice_eq H _ hs] at hq
      rw [← Option.some.inj hq]
      exact nextBytes_wf H _ _ hs

theorem sampleBits_wf (c : Challenger) (hc : c.WF H) (bits : Nat) (r : Nat × Challenger)
    (h : sampleBits H c bits = .ok r) : r.2.WF H := by
  unfold sampleBits at h
  cases hs : c.sample H 4 with
  | none => rw [hs] at h; cases h
  | some q =>
    rw [hs] at h
    rw [← Except.ok.inj h]
    exact sample_wf H c hc 4 q hs

/-- What one step leaves behind. -/
theorem step_sync (p p' : Prover) (hc : p.chal.WF H) (s : Step) (hs : s.Supported)
    (ev : List Event) (h : p.step H E s = .ok (ev, p')) :
    ∃ w, p'.tape = p.tape ++ w ∧ p'.debug = p.debug ∧ p'.chal.WF H ∧
      (∀ rest, Verifier.step H E' ⟨w ++ rest, p.chal, p.debug⟩ s.matching =
        .ok (ev, ⟨rest, p'.chal, p.debug⟩)) ∧
      (s.NotDebug → ∀ pre, pre <+: w → pre ≠ w →
        ∃ e, Verifier.step H E' ⟨pre, p.chal, p.debug⟩ s.matching = .error (.err e) ∧
          (e = .notEnoughBytes ∨ e = .serialization .notEnoughBytes)) := by
  have silent : ∀ (c' : Challenger) (ev : List Event), c'.WF H →
      (∀ tape, Verifier.step H E' ⟨tape, p.chal, p.debug⟩ s.matching =
        .ok (ev, ⟨tape, c', p.debug⟩)) →
      ∃ w, p.tape = p.tape ++ w ∧ p.debug = p.debug ∧ c'.WF H ∧
      (∀ rest, Verifier.step H E' ⟨w ++ rest, p.chal, p.debug⟩ s.matching =
        .ok (ev, ⟨rest, c', p.debug⟩)) ∧
      (s.NotDebug → ∀ pre, pre <+: w → pre ≠ w →
        ∃ e, Verifier.step H E' ⟨pre, p.chal, p.debug⟩ s.matching = .error (.err e) ∧
          (e = .notEnoughBytes ∨ e = .serialization .notEnoughBytes)) := by
    intro c' ev hw hv
    exact ⟨[], by simp, rfl, hw, fun rest => hv rest,
      fun _ pre hp hne => absurd (List.prefix_nil.mp hp) hne⟩
  cases s with
  | write ch t x =>
    simp only [Prover.step, bind, Except.bind] at h
    cases hw : p.write H E ch t x with
    | error e => rw [hw] at h; cases h
    | ok p1 =>
      rw [hw] at h
      cases Except.ok.inj h
      obtain ⟨w, cap, hs1, hp⟩ := write_ok H E p _ hc ch t x hw
      refine ⟨w, by rw [hp], by rw [hp], by rw [hp]; exact effect_wf H ch _ hc w,
        fun rest => ?_, fun _ pre hpre hne => ⟨_, ?_, .inr rfl⟩⟩
      · simp only [Step.matching, Verifier.step, bind, Except.bind]
        rw [read_ok H E' t hs x cap w rest hs1 ch p.chal hc p.debug, hp]
      · simp only [Step.matching, Verifier.step, bind, Except.bind]
        have hread : Verifier.read H E' ⟨pre, p.chal, p.debug⟩ ch t =
            .error (.err (.serialization .notEnoughBytes)) := by
          unfold Verifier.read
          dsimp only
          rw [Verif.Ser.C02_truncated .canonicalTower t hs x cap w pre hs1 hpre hne]
        rw [hread]
  | writeSlice ch t xs =>
    simp only [Prover.step, bind, Except.bind] at h
    cases hw : Prover.writeSlice H E ch t p xs with
    | error e => rw [hw] at h; cases h
    | ok p1 =>
      rw [hw] at h
      cases Except.ok.inj h
      obtain ⟨w, hp, hr, hpre⟩ := writeSlice_ok H E E' ch t hs xs p _ hc hw
      refine ⟨w, by rw [hp], by rw [hp], by rw [hp]; exact effect_wf H ch _ hc w,
        fun rest => ?_, fun _ pre hp1 hne => ⟨_, ?_, .inr rfl⟩⟩
      · simp only [Step.matching, Verifier.step, bind, Except.bind]
        rw [hr rest p.debug]
      · simp only [Step.matching, Verifier.step, bind, Except.bind]
        rw [hpre pre p.debug hp1 hne]
  | writeBytes ch bs =>
    simp only [Prover.step, bind, Except.bind, Prover.writeBytes] at h
    rw [put_eq H E p hc] at h
    cases Except.ok.inj h
    refine ⟨bs, rfl, rfl, effect_wf H ch _ hc bs, fun rest => ?_,
      fun _ pre hp hne => ⟨_, ?_, .inl rfl⟩⟩
    · simp only [Step.matching, Verifier.step, bind, Except.bind]
      rw [readBytes_ok H ch p.chal hc p.debug bs rest]
    · simp only [Step.matching, Verifier.step, bind, Except.bind, Verifier.readBytes]
      have hlt : pre.length < bs.length := by
        rcases Nat.lt_or_ge pre.length bs.length with h1 | h1
        · exact h1
        · exact absurd (hp.eq_of_length_le h1) hne
      rw [if_pos hlt]
  | writeDebug ch msg =>
    simp only [Prover.step, bind, Except.bind, Prover.writeDebug] at h
    by_cases hd : p.debug = true
    · rw [if_pos hd, Prover.writeBytes, put_eq H E p hc] at h
      cases Except.ok.inj h
      refine ⟨msg, rfl, rfl, effect_wf H ch _ hc msg, fun rest => ?_, fun hnd => absurd hnd id⟩
      simp only [Step.matching, Verifier.step, bind, Except.bind, Verifier.readDebug]
      rw [if_pos hd, readBytes_ok H ch p.chal hc p.debug msg rest]
      simp
    · rw [if_neg hd] at h
      cases Except.ok.inj h
      refine silent p.chal _ hc fun tape => ?_
      simp only [Step.matching, Verifier.step, bind, Except.bind, Verifier.readDebug]
      rw [if_neg hd]
  | observe t x =>
    simp only [Prover.step, bind, Except.bind] at h
    cases ho : observeValue H E p.chal t x with
    | error e => rw [ho] at h; cases h
    | ok c =>
      rw [ho] at h
      cases Except.ok.inj h
      obtain ⟨h1, h2⟩ := observeValue_wf H E E' p.chal c hc t x ho
      refine silent c _ h1 fun tape => ?_
      simp only [Step.matching, Verifier.step, bind, Except.bind]
      rw [h2]
  | observeBytes bs =>
    simp only [Prover.step, bind, Except.bind] at h
    cases ho : observeBytes H p.chal bs with
    | error e => rw [ho] at h; cases h
    | ok c =>
      rw [ho] at h
      cases Except.ok.inj h
      refine silent c _ (observeBytes_wf H _ _ hc bs ho) fun tape => ?_
      simp only [Step.matching, Verifier.step, bind, Except.bind]
      rw [ho]
  | sample f =>
    simp only [Prover.step, bind, Except.bind] at h
    cases ho : sampleScalar H p.chal f with
    | error e => rw [ho] at h; cases h
    | ok r =>
      rw [ho] at h
      cases Except.ok.inj h
      refine silent r.2 _ (sampleScalar_wf H _ hc f r ho) fun tape => ?_
      simp only [Step.matching, Verifier.step, bind, Except.bind]
      rw [ho]
  | sampleBits bits =>
    simp only [Prover.step, bind, Except.bind] at h
    cases ho : sampleBits H p.chal bits with
    | error e => rw [ho] at h; cases h
    | ok r =>
      rw [ho] at h
      cases Except.ok.inj h
      refine silent r.2 _ (sampleBits_wf H _ hc bits r ho) fun tape => ?_
      simp only [Step.matching, Verifier.step, bind, Except.bind]
      rw [ho]

theorem run_sync (ss : List Step) (hs : ∀ s ∈ ss, s.Supported) (p p' : Prover) (hc : p.chal.WF H)
    (ev : List Event) (h : Prover.run H E p ss = .ok (ev, p')) :
    ∃ w, p'.tape = p.tape ++ w ∧ p'.debug = p.debug ∧ p'.chal.WF H ∧
      (∀ rest, Verifier.run H E' ⟨w ++ rest, p.chal, p.debug⟩ (ss.map Step.matching) =
        .ok (ev, ⟨rest, p'.chal, p.debug⟩)) ∧
      ((∀ s ∈ ss, s.NotDebug) → ∀ pre, pre <+: w → pre ≠ w →
        ∃ e, Verifier.run H E' ⟨pre, p.chal, p.debug⟩ (ss.map Step.matching) = .error (.err e) ∧
          (e = .notEnoughBytes ∨ e = .serialization .notEnoughBytes)) := by
  induction ss generalizing p ev with
  | nil =>
    cases Except.ok.inj h
    exact ⟨[], by simp, rfl, hc, fun rest => rfl,
      fun _ pre hp hne => absurd (List.prefix_nil.mp hp) hne⟩
  | cons s ss ih =>
    unfold Prover.run at h
    cases h1 : p.step H E s with
    | error e => rw [h1] at h; cases h
    | ok r =>
      rw [h1] at h
      simp only [bind, Except.bind] at h
      cases h2 : Prover.run H E r.2 ss with
      | error e => rw [h2] at h; cases h
      | ok q =>
        rw [h2] at h
        cases Except.ok.inj h
        obtain ⟨ev1, p1⟩ := r
        obtain ⟨ev2, p2⟩ := q
        obtain ⟨w1, a1, a2, a3, a4, a5⟩ :=
          step_sync H E E' p p1 hc s (hs s (List.mem_cons_self ..)) ev1 h1
        obtain ⟨w2, b1, b2, b3, b4, b5⟩ :=
          ih (fun s' hs' => hs s' (List.mem_cons_of_mem _ hs')) p1 a3 ev2 h2
        dsimp only at b1 b2 b4 b5 ⊢
        rw [a2] at b4 b5
        refine ⟨w1 ++ w2, by rw [b1, a1, List.append_assoc], by rw [b2, a2], b3, fun rest => ?_,
          fun hnd pre hp hne => ?_⟩
        · rw [List.map_cons]
          unfold Verifier.run
          rw [List.append_assoc, a4 (w2 ++ rest)]
          simp only [bind, Except.bind]
          rw [b4 rest]
        · rw [List.map_cons]
          unfold Verifier.run
          rcases prefix_split hp with hlt | ⟨q, rfl, hq⟩
          · obtain ⟨e, he, hk⟩ := a5 (hnd s (List.mem_cons_self ..)) pre hlt.1 hlt.2
            exact ⟨e, by rw [he]; rfl, hk⟩
          · obtain ⟨e, he, hk⟩ := b5 (fun s' hs' => hnd s' (List.mem_cons_of_mem _ hs')) q hq
              (by intro e; exact hne (by rw [e]))
            refine ⟨e, ?_, hk⟩
            rw [a4 q]
            simp only [bind, Except.bind]
            rw [he]

end Verif.Transcript
