import Verif.Transcript.LemmasTranscript
import Verif.Transcript.LemmasBinding

/-!
# C26, C27, C51: transcripts and the Fiat–Shamir challenger

`c.run H us` performs the uses `us` (observe some bytes, sample some bytes) on the challenger `c`;
`Prover.run` and `Verifier.run` perform the steps of a protocol. All hash functions with a positive
digest length and block size are covered.
-/

namespace Verif.Transcript
open Verif.Ser (Ty Mode leBytes ofLeBytes)

variable (H : HashFn)

/-! ## C27: chunking -/

theorem run_append (us vs : List Use) (c : Challenger) :
    c.run H (us ++ vs) = (c.run H us).bind fun r =>
      (r.2.run H vs).map fun q => (r.1 ++ q.1, q.2) := by
  induction us generalizing c with
  | nil =>
    simp only [List.nil_append, Challenger.run, Option.bind_some, List.nil_append]
    cases c.run H vs <;> rfl
  | cons u us ih =>
    cases u with
    | observe bs =>
      simp only [List.cons_append, Challenger.run, ih]
      cases c.observe H bs <;> rfl
    | sample n =>
      simp only [List.cons_append, Challenger.run, ih]
      cases c.sample H n with
      | none => rfl
      | some r =>
        simp only [Option.bind_some]
        cases r.2.run H us with
        | none => rfl
        | some q =>
          simp only [Option.bind_some, Option.map_some]
          cases q.2.run H vs <;> rfl

theorem run_wf (us : List Use) (c : Challenger) (h : c.WF H) :
    ∃ r, c.run H us = some r ∧ r.2.WF H := by
  induction us generalizing c with
  | nil => exact ⟨_, rfl, h⟩
  | cons u us ih =>
    cases u with
    | observe bs =>
      obtain ⟨r, h1, h2⟩ := ih _ (observed_wf H c h bs)
      exact ⟨r, by rw [Challenger.run, observe_eq H c h, Option.bind_some, h1], h2⟩
    | sample n =>
      obtain ⟨r, h1, h2⟩ := ih (.sampler ((c.toSampler H).nextBytes H n).2) (nextBytes_wf H n _ (toSampler_wf H c h))
      refine ⟨(((c.toSampler H).nextBytes H n).1 :: r.1, r.2), ?_, h2⟩
      rw [Challenger.run, sample_eq H c h, Option.bind_some]
      have h1' : Challenger.run H (.sampler ((c.toSampler H).nextBytes H n).2) us = some r := h1
      rw [h1', Option.map_some]

theorem same_stream_run {us vs : List Use} (hs : SameStream us vs) (c : Challenger) (h : c.WF H) :
    (c.run H us).map (fun r => (r.1.flatten, r.2)) = (c.run H vs).map (fun r => (r.1.flatten, r.2)) := by
  have lift : ∀ (us m m' vs : List Use) (c : Challenger), c.WF H →
      (∀ c : Challenger, c.WF H →
        (c.run H (m ++ vs)).map (fun r => (r.1.flatten, r.2)) =
        (c.run H (m' ++ vs)).map (fun r => (r.1.flatten, r.2))) →
      (c.run H (us ++ (m ++ vs))).map (fun r => (r.1.flatten, r.2)) =
      (c.run H (us ++ (m' ++ vs))).map (fun r => (r.1.flatten, r.2)) := by
    intro us m m' vs c hc hm
    obtain ⟨r, h1, h2⟩ := run_wf H us c hc
    rw [run_append H us, run_append H us, h1, Option.bind_some, Option.bind_some]
    have := hm r.2 h2
    obtain ⟨q, hq, _⟩ := run_wf H (m ++ vs) r.2 h2
    obtain ⟨q', hq', _⟩ := run_wf H (m' ++ vs) r.2 h2
    rw [hq, hq'] at this ⊢
    simp only [Option.map_some, Option.some.injEq, Prod.mk.injEq] at this ⊢
    simp [this.1, this.2]
  induction hs generalizing c with
  | refl us => rfl
  | symm _ ih => exact (ih c h).symm
  | trans _ _ ih1 ih2 => exact (ih1 c h).trans (ih2 c h)
  | observe us vs a b =>
    refine lift us [.observe a, .observe b] [.observe (a ++ b)] vs c h fun c hc => ?_
    simp only [List.cons_append, List.nil_append, Challenger.run]
    rw [observe_eq H c hc, observe_eq H c hc, Option.bind_some, Option.bind_some,
      observe_eq H _ (observed_wf H c hc a), Option.bind_some, observed_append]
  | sample us vs m n =>
    refine lift us [.sample m, .sample n] [.sample (m + n)] vs c h fun c hc => ?_
    simp only [List.cons_append, List.nil_append, Challenger.run]
    rw [sample_eq H c hc, sample_eq H c hc, Option.bind_some, Option.bind_some]
    have hw : (Challenger.sampler ((c.toSampler H).nextBytes H m).2).WF H :=
      nextBytes_wf H m _ (toSampler_wf H c hc)
    rw [sample_eq H _ hw, Option.bind_some, nextBytes_add]
    simp only [Challenger.toSampler]
    generalize Challenger.run H _ vs = o
    cases o with
    | none => rfl
    | some q => simp

/-- **C27.** If two histories differ only in how observed data and samples are cut into pieces, then
neither fails, all bytes sampled are the same, and so is the final state (hence everything sampled
later). -/
theorem C27_chunking (us vs : List Use) (h : SameStream us vs) :
    ∃ outs outs' c, (Challenger.default H).run H us = some (outs, c) ∧
      (Challenger.default H).run H vs = some (outs', c) ∧ outs.flatten = outs'.flatten := by
  obtain ⟨r, h1, _⟩ := run_wf H us _ (default_wf H)
  obtain ⟨r', h1', _⟩ := run_wf H vs _ (default_wf H)
  have := same_stream_run H h _ (default_wf H)
  rw [h1, h1'] at this
  simp only [Option.map_some, Option.some.injEq, Prod.mk.injEq] at this
  exact ⟨r.1, r'.1, r.2, h1, by rw [h1', this.2], this.1⟩

/-- **C27.** What the sampled bytes are: for every history, those of the hash chain of the
specification. -/
theorem C27_stream (us : List Use) :
    ∃ c, (Challenger.default H).run H us = some ((SpecState.init.run H us).1, c) := by
  obtain ⟨c, h, _⟩ := run_is H us _ _ (default_is H)
  exact ⟨c, h⟩

/-- **C27.** In every reachable state, reading an integer of `n > 0` bytes (`get_u16_le`, …,
`get_u128_le`) and skipping `n > 0` bytes (`advance`) consume exactly the bytes that `copy_to_slice`
returns. -/
theorem C27_readers (us : List Use) (outs : List Bytes) (c : Challenger)
    (h : (Challenger.default H).run H us = some (outs, c)) (n : Nat) (hn : 0 < n) :
    ∃ r, (c.toSampler H).copyToSlice H n = some r ∧ (c.toSampler H).getUint H n = some r ∧
      (c.toSampler H).advance H n = some r.2 ∧ r.1.length = n := by
  obtain ⟨r, h1, h2⟩ := run_wf H us _ (default_wf H)
  rw [h] at h1
  cases Option.some.inj h1
  have hs := toSampler_wf H c h2
  exact ⟨_, copyToSlice_eq H _ hs n, getUint_eq H _ hs n hn, advance_eq H _ hs n hn,
    nextBytes_length H n _⟩

/-- **C27**, finding: `chunk` is empty right after switching from observing to sampling although
`remaining` is `usize::MAX`, against the contract of `Buf`. So reading one byte with `get_u8` panics,
whatever was observed. -/
theorem C27_get_u8_panics (us : List Use) (bs : Bytes) (outs : List Bytes) (c : Challenger)
    (h : (Challenger.default H).run H (us ++ [.observe bs]) = some (outs, c)) :
    (c.toSampler H).chunk = [] ∧ (c.toSampler H).getU8 H = none := by
  rw [run_append] at h
  obtain ⟨r, h1, h2⟩ := run_wf H us _ (default_wf H)
  rw [h1, Option.bind_some] at h
  simp only [Challenger.run, observe_eq H _ h2, Option.bind_some, Option.map_some] at h
  have hc : c = r.2.observed H bs := by
    have := Option.some.inj h
    exact (congrArg Prod.snd this).symm
  have hch : (c.toSampler H).chunk = [] := by
    rw [hc]
    show (List.replicate H.out (0 : UInt8)).drop H.out = []
    simp
  refine ⟨hch, ?_⟩
  unfold Sampler.getU8
  rw [hch]
  rfl

/-! ## C26: synchronisation -/

/-- **C26.** If the prover performs the steps and the verifier, given the finished proof followed by
any bytes, performs the matching ones, then the verifier sees exactly what the prover saw: each value
read is the value written, each challenge is the same. It does not fail, and `finalize` succeeds
exactly if nothing follows the proof. -/
theorem C26_sync (E E' : Env) (debug : Bool) (ss : List Step) (hs : ∀ s ∈ ss, s.Supported)
    (ev : List Event) (p : Prover) (h : Prover.run H E (.new H debug) ss = .ok (ev, p))
    (extra : Bytes) :
    ∃ v, Verifier.run H E' (.new H (p.finalize ++ extra) debug) (ss.map Step.matching) = .ok (ev, v) ∧
      v.tape = extra ∧ (v.finalize = .ok () ↔ extra = []) ∧
      (extra ≠ [] → v.finalize = .error (.err (.transcriptNotEmpty extra.length))) := by
  obtain ⟨w, h1, h2, h3, h4, _⟩ := run_sync H E E' ss hs (.new H debug) p (default_wf H) ev h
  have hw : p.finalize = w := h1
  refine ⟨⟨extra, p.chal, debug⟩, ?_, rfl, ?_, ?_⟩
  · rw [hw]; exact h4 extra
  · unfold Verifier.finalize
    dsimp only
    split
    · rename_i hne
      simp [hne]
    · rename_i hne
      simpa using hne
  · intro hne
    unfold Verifier.finalize
    dsimp only
    rw [if_pos hne]

/-- **C26.** A proof cut short is rejected with an error, not accepted and not a panic (debug marks,
which assert, aside). -/
theorem C26_truncated (E E' : Env) (debug : Bool) (ss : List Step) (hs : ∀ s ∈ ss, s.Supported)
    (hd : ∀ s ∈ ss, s.NotDebug) (ev : List Event) (p : Prover)
    (h : Prover.run H E (.new H debug) ss = .ok (ev, p)) (short : Bytes)
    (hp : short <+: p.finalize) (hne : short ≠ p.finalize) :
    ∃ e, Verifier.run H E' (.new H short debug) (ss.map Step.matching) = .error (.err e) ∧
      (e = .notEnoughBytes ∨ e = .serialization .notEnoughBytes) := by
  obtain ⟨w, h1, _, _, _, h5⟩ := run_sync H E E' ss hs (.new H debug) p (default_wf H) ev h
  have hw : p.finalize = w := h1
  rw [hw] at hp hne
  exact h5 hd short hp hne

/-- **C26.** `sample_bits` returns the low `bits` bits of the next four bytes of the stream, at most
32 of them whatever was asked for. -/
theorem C26_sample_bits (us : List Use) (outs : List Bytes) (c : Challenger)
    (h : (Challenger.default H).run H us = some (outs, c)) (bits : Nat) :
    ∃ bs c', c.sample H 4 = some (bs, c') ∧
      sampleBits H c bits = .ok (ofLeBytes bs % 2 ^ min bits 32, c') := by
  obtain ⟨r, h1, h2⟩ := run_wf H us _ (default_wf H)
  rw [h] at h1
  cases Option.some.inj h1
  refine ⟨_, _, sample_eq H c h2 4, ?_⟩
  unfold sampleBits
  rw [sample_eq H c h2 4]
  simp only [orPanic, bind, Except.bind]
  congr 2
  split
  · rw [Nat.one_shiftLeft, Nat.and_comm, Nat.and_two_pow_sub_one_eq_mod]
  · have e : min bits 32 = 32 := by omega
    rw [e, Nat.and_comm, Nat.and_two_pow_sub_one_eq_mod]

/-- **C26.** Sampling a field element of more than one byte never fails, in any reachable state. -/
theorem C26_sample_total (us : List Use) (outs : List Bytes) (c : Challenger)
    (h : (Challenger.default H).run H us = some (outs, c)) (f : Scalar) (hf : 1 < f.bytes) :
    ∃ r, sampleScalar H c f = .ok r := by
  obtain ⟨r, h1, h2⟩ := run_wf H us _ (default_wf H)
  rw [h] at h1
  cases Option.some.inj h1
  have hs := toSampler_wf H c h2
  unfold sampleScalar
  rw [if_neg (by omega), getUint_eq H _ hs _ (by omega)]
  simp only [orPanic, bind, Except.bind]
  have hl := nextBytes_length H f.bytes (c.toSampler H)
  generalize (c.toSampler H).nextBytes H f.bytes = q at hl
  have htake : Verif.Ser.take f.bytes q.1 = .ok (q.1.take f.bytes, q.1.drop f.bytes) := by
    unfold Verif.Ser.take; rw [if_neg (by omega)]
  have key : ∃ y, f.ty.de .canonicalTower q.1 = .ok y := by
    cases f with
    | small w => exact absurd hf (by simp [Scalar.bytes])
    | tower n =>
      have e : Verif.Ser.take n q.1 = _ := htake
      simp only [Scalar.ty, Ty.de, Verif.Ser.deUint, Verif.Ser.R.map, Verif.Ser.R.bind,
        Verif.Ser.R.pure, bind, Except.bind, e]
      exact ⟨_, rfl⟩
    | aes n =>
      have e : Verif.Ser.take (2 ^ n) q.1 = _ := htake
      simp only [Scalar.ty, Ty.de, Verif.Ser.deAes, Verif.Ser.deUint, Verif.Ser.R.map,
        Verif.Ser.R.bind, Verif.Ser.R.pure, bind, Except.bind, e]
      exact ⟨_, rfl⟩
  obtain ⟨y, hy⟩ := key
  rw [hy]
  exact ⟨_, rfl⟩

/-- **C26**, finding: sampling an element of a field of at most 8 bits right after a message panics,
for the prover and for the verifier. -/
theorem C26_sample_byte_panics (E : Env) (debug : Bool) (b : UInt8) (f : Scalar) (hf : f.bytes = 1) :
    Prover.run H E (.new H debug) [.writeBytes .message [b], .sample f] = .error .panic := by
  have he : Chan.effect H .message (Challenger.default H) [b] = (Challenger.default H).observed H [b] := by
    simp [Chan.effect]
  have hput : (Prover.new H debug).put H E .message [b] =
      .ok ⟨[b], (Challenger.default H).observed H [b], debug⟩ := by
    rw [put_eq H E (.new H debug) (default_wf H) .message [b]]
    simp only [Prover.new, he, List.nil_append]
  have hrun : (Challenger.default H).run H ([] ++ [.observe [b]]) =
      some ([], (Challenger.default H).observed H [b]) := by
    simp only [List.nil_append, Challenger.run, observe_eq H _ (default_wf H), Option.bind_some]
  have hu := (C27_get_u8_panics H [] [b] _ _ hrun).2
  simp only [Prover.run, Prover.step, Prover.writeBytes, hput, bind, Except.bind, sampleScalar,
    hf, if_true, hu]
  rfl

/-- **C26**, finding: the debug marks are part of the proof tape, and each side decides by its own
flag (by default, whether it was built with debug assertions) whether they are there. A verifier
without the flag does not accept the proof of a prover with it. -/
theorem C26_debug_flags_differ (E E' : Env) (msg : Bytes) (hm : msg ≠ []) :
    ∃ ev p v, Prover.run H E (.new H true) [.writeDebug .message msg] = .ok (ev, p) ∧
      Verifier.run H E' (.new H p.finalize false) [.readDebug .message msg] = .ok (ev, v) ∧
      v.finalize = .error (.err (.transcriptNotEmpty msg.length)) := by
  have hput := put_eq H E (.new H true) (default_wf H) .message msg
  refine ⟨[], { (Prover.new H true) with
        tape := [] ++ msg, chal := Chan.effect H .message (Challenger.default H) msg },
    .new H msg false, ?_, rfl, ?_⟩
  · simp only [Prover.run, Prover.step, Prover.writeDebug, Prover.writeBytes, hput, bind, Except.bind]
    rfl
  · unfold Verifier.finalize
    exact if_pos (c := (Verifier.new H msg false).tape ≠ []) hm

/-! ## C51: binding -/

/-- **C51.** The challenges bind the history: if the next digest-length challenge is the same after
two histories (in which every sample takes at least one byte), then the two histories are the same
(the same observed data, cut by samples at the same places, with the same number of sampled bytes), or
the two runs hash two different messages with the same digest. -/
theorem C51_binding (n m : Nat) (rs ts : List (Bytes × Nat)) (a b : Bytes)
    (hrs : ∀ r ∈ rs, 0 < r.2) (hts : ∀ r ∈ ts, 0 < r.2)
    (outs outs' : List Bytes) (c c' : Challenger)
    (h : (Challenger.default H).run H (history n rs ++ [.observe a, .sample H.out]) = some (outs, c))
    (h' : (Challenger.default H).run H (history m ts ++ [.observe b, .sample H.out]) =
      some (outs', c'))
    (heq : outs.getLast? = outs'.getLast?) :
    (n = m ∧ rs = ts ∧ a = b) ∨
    ∃ x ∈ SpecState.init.hashed H (history n rs ++ [.observe a, .sample H.out]),
      ∃ y ∈ SpecState.init.hashed H (history m ts ++ [.observe b, .sample H.out]),
        x ≠ y ∧ H.hash x = H.hash y := by
  have hp := H.out_pos
  have e1 : history n rs ++ [.observe a, .sample H.out] = history n (rs ++ [(a, H.out)]) := by
    simp [history]
  have e2 : history m ts ++ [.observe b, .sample H.out] = history m (ts ++ [(b, H.out)]) := by
    simp [history]
  have hb : blocksFor H H.out = 1 := by
    unfold blocksFor
    rw [show H.out + H.out - 1 = H.out - 1 + H.out by omega, Nat.add_div_right _ hp,
      Nat.div_eq_of_lt (by omega)]
  have last : ∀ (n : Nat) (rs : List (Bytes × Nat)) (a : Bytes) (outs : List Bytes) (c : Challenger),
      (Challenger.default H).run H (history n rs ++ [.observe a, .sample H.out]) = some (outs, c) →
      outs.getLast? = some (H.hash (fin H n ((a, H.out) :: rs.reverse)).1) := by
    intro n rs a outs c h
    obtain ⟨c1, h1⟩ := C27_stream H (history n rs ++ [.observe a, .sample H.out])
    rw [h] at h1
    have ho := congrArg Prod.fst (Option.some.inj h1)
    dsimp only at ho
    rw [ho, specRun_append, history_state]
    simp only [SpecState.run, SpecState.observe, SpecState.sample]
    rw [List.getLast?_append]
    simp only [List.getLast?_singleton, Option.some_or, fin]
    congr 1
    apply List.ext_getElem?
    intro k
    by_cases hk : k < H.out
    · rw [streamBytes_get H _ 0 H.out k hk, Nat.zero_add, Nat.div_eq_of_lt hk, Nat.mod_eq_of_lt hk]
      rfl
    · rw [List.getElem?_eq_none (by rw [streamBytes_length]; omega),
        List.getElem?_eq_none (by rw [H.hash_length]; omega)]
  have hl1 := last n rs a outs c h
  have hl2 := last m ts b outs' c' h'
  rw [hl1, hl2] at heq
  have hhash := Option.some.inj heq
  have hrs1 : ∀ r ∈ (a, H.out) :: rs.reverse, 0 < r.2 := by
    intro r hr
    rcases List.mem_cons.mp hr with rfl | hr
    · exact hp
    · exact hrs r (List.mem_reverse.mp hr)
  have hts1 : ∀ r ∈ (b, H.out) :: ts.reverse, 0 < r.2 := by
    intro r hr
    rcases List.mem_cons.mp hr with rfl | hr
    · exact hp
    · exact hts r (List.mem_reverse.mp hr)
  have hchain : resume H (fin H n ((a, H.out) :: rs.reverse)).1
        (fin H n ((a, H.out) :: rs.reverse)).2.1 (fin H n ((a, H.out) :: rs.reverse)).2.2 =
      resume H (fin H m ((b, H.out) :: ts.reverse)).1
        (fin H m ((b, H.out) :: ts.reverse)).2.1 (fin H m ((b, H.out) :: ts.reverse)).2.2 := by
    have q1 : (fin H n ((a, H.out) :: rs.reverse)).2 = (1, H.out) := by simp only [fin, hb]
    have q2 : (fin H m ((b, H.out) :: ts.reverse)).2 = (1, H.out) := by simp only [fin, hb]
    unfold resume
    rw [q1, q2]
    simp only [chain, hhash]
  rcases resume_inj H n m _ _ hrs1 hts1 hchain with ⟨h1, h2⟩ | ⟨x, hx, y, hy, hne, hh⟩
  · left
    simp only [List.cons.injEq, Prod.mk.injEq, and_true] at h2
    exact ⟨h1, List.reverse_injective h2.2, h2.1⟩
  · right
    rw [e1, e2]
    refine ⟨x, finHashed_sub H n _ x ?_, y, finHashed_sub H m _ y ?_, hne, hh⟩
    · rw [List.reverse_append]; exact hx
    · rw [List.reverse_append]; exact hy

/-- **C51**, limitation: samples of no bytes are an exception. Calling the sampler without taking a
byte absorbs the position of the exhausted buffer as eight bytes, which cannot be told from observed
data. -/
theorem C51_empty_sample_ambiguous (a b : Bytes) :
    ∃ outs outs' c c',
      (Challenger.default H).run H [.observe a, .sample 0, .observe b, .sample H.out] =
        some (outs, c) ∧
      (Challenger.default H).run H [.observe (a ++ leBytes 8 H.out ++ b), .sample H.out] =
        some (outs', c') ∧ outs.getLast? = outs'.getLast? := by
  have hp := H.out_pos
  have h0 : blocksFor H 0 = 0 := by unfold blocksFor; rw [Nat.div_eq_of_lt (by omega)]
  obtain ⟨c, h1⟩ := C27_stream H [.observe a, .sample 0, .observe b, .sample H.out]
  obtain ⟨c', h2⟩ := C27_stream H [.observe (a ++ leBytes 8 H.out ++ b), .sample H.out]
  refine ⟨_, _, c, c', h1, h2, ?_⟩
  simp only [SpecState.run, SpecState.init, SpecState.observe, SpecState.sample, h0, resume, chain,
    List.append_assoc, List.getLast?_singleton, List.getLast?_cons_cons]
  simp

/-! ## Concrete cases -/

/-- A toy hash function: two bytes of digest, blocks of three bytes. -/
def toyHash : HashFn where
  hash x := [x.foldl (fun a b => 3 * a + b + 1) 7, UInt8.ofNat x.length]
  out := 2
  block := 3
  hash_length := fun _ => rfl
  out_pos := by decide
  block_pos := by decide
  out_lt := by decide

/-- Values in one piece, five bytes of room at a time. -/
def toyEnv : Env where
  room := fun _ => 5
  room_pos := fun _ => by decide
  cutW := fun bs => [bs]
  cutW_flatten := by simp
  cutR := fun bs => bs.map fun b => [b]
  cutR_flatten := by intro bs; induction bs <;> simp_all

/-- Observing seven bytes across two blocks and sampling five across three digests. -/
example : (Challenger.default toyHash).run toyHash [.observe [1, 2, 3, 4, 5, 6, 7], .sample 5] =
    (Challenger.default toyHash).run toyHash
      [.observe [1, 2], .observe [3, 4, 5, 6, 7], .sample 5] ∧
    ((Challenger.default toyHash).run toyHash
      [.observe [1, 2, 3, 4, 5, 6, 7], .sample 5]).isSome := by decide +kernel

example : SameStream [.sample 1, .observe [1], .observe [2], .sample 3]
    [.sample 1, .observe [1, 2], .sample 1, .sample 2] :=
  (SameStream.observe [.sample 1] [.sample 3] [1] [2]).trans
    (SameStream.sample [.sample 1, .observe [1, 2]] [] 1 2).symm

/-- A two-message protocol that runs. -/
def toySteps : List Step :=
  [.observeBytes [9, 9], .write .message (.vec (.uint 2)) ([1#16, 2#16] : List (BitVec 16)),
   .sample (.tower 16), .writeDebug .message [100], .writeBytes .decommitment [5, 6, 7, 8, 9, 10],
   .sampleBits 5, .writeSlice .message (.uint 4) ([7#32, 8#32] : List (BitVec 32)), .sample (.tower 2)]

example : (Prover.run toyHash toyEnv (.new toyHash true) toySteps).toOption.isSome = true := by
  decide +kernel

example : ∀ s ∈ toySteps, s.Supported := by
  intro s hs
  simp only [toySteps, List.mem_cons, List.not_mem_nil, or_false] at hs
  rcases hs with rfl | rfl | rfl | rfl | rfl | rfl | rfl | rfl <;> trivial

/-- A hash function with nothing but collisions. -/
def zeroHash : HashFn where
  hash _ := [0, 0]
  out := 2
  block := 3
  hash_length := fun _ => rfl
  out_pos := by decide
  block_pos := by decide
  out_lt := by decide

/-- Two different histories with the same next challenge, as in `C51_binding`. -/
example : ((Challenger.default zeroHash).run zeroHash
      (history 0 [([1], 1)] ++ [.observe [255, 3], .sample zeroHash.out])).map
        (fun r => r.1.getLast?) = some (some [0, 0]) ∧
    ((Challenger.default zeroHash).run zeroHash
      (history 3 [] ++ [.observe [7], .sample zeroHash.out])).map
        (fun r => r.1.getLast?) = some (some [0, 0]) := by decide +kernel

end Verif.Transcript
