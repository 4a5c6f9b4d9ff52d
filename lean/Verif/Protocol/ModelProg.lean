/-!
# Interactive verifiers (model)

A verifier of the crate talks to a `VerifierTranscript`: it reads scalars the prover wrote and
samples challenges (`crates/core/src/transcript/mod.rs:168-262`; the bytes and the Fiat–Shamir
challenger underneath are modelled in `Verif.Transcript`). Here such a verifier is a program over
these two operations. The model keeps their order and the amount of data, and abstracts from the
byte encoding of the scalars.

A run of a program needs a prover and the challenges. A prover is a function
`msg : List F → Nat → List F` that gives the message found at the `i`-th read once the challenges in
the list have been sampled. This covers every interactive prover and, as the function may ignore its
first argument, every fixed proof tape.
-/

namespace Verif.Protocol



/-- A verifier: the calls it makes on a `VerifierTranscript`, `transcript/mod.rs:168-262`. -/
inductive Prog (F : Type) (E : Type) (A : Type) where
  /-- `Ok(a)` -/
  | ret (a : A)
  /-- `Err(e)`, or a panic when `e` stands for one -/
  | fail (e : E)
  /-- `message().read_scalar_slice(k)`, `transcript/mod.rs:316-345` -/
  | read (k : Nat) (cont : List F → Prog F E A)
  /-- `sample()`, `fiat_shamir/mod.rs:11-21` -/
  | sample (cont : F → Prog F E A)

/-- How a run that does not return normally ends. -/
inductive RunError (E : Type) where
  /-- `Error::NotEnoughBytes`, `transcript/error.rs`: the tape is too short -/
  | truncated
  /-- the verifier returned an error -/
  | rejected (e : E)
  deriving DecidableEq, Repr

namespace Prog

variable {F : Type} {E : Type} {A : Type} {B : Type}

/-- Sequencing (`?` on a `Result`). -/
def bind : Prog F E A → (A → Prog F E B) → Prog F E B
  | ret a, k => k a
  | fail e, _ => fail e
  | read n c, k => read n fun m => bind (c m) k
  | sample c, k => sample fun x => bind (c x) k

/-- A computation that does not touch the transcript. -/
def ofExcept : Except E A → Prog F E A
  | .ok a => ret a
  | .error e => fail e

/-- Running a verifier against a prover `msg`, with `chal 0, chal 1, …` the challenges still to be
sampled, `hist` the ones sampled so far, and `reads` the number of reads made so far. -/
def run (msg : List F → Nat → List F) :
    Prog F E A → (hist : List F) → (reads : Nat) → (chal : Nat → F) → Except (RunError E) A
  | ret a, _, _, _ => .ok a
  | fail e, _, _, _ => .error (.rejected e)
  | read k c, hist, reads, chal =>
      if (msg hist reads).length < k then .error .truncated
      else run msg (c ((msg hist reads).take k)) hist (reads + 1) chal
  | sample c, hist, reads, chal =>
      run msg (c (chal 0)) (hist ++ [chal 0]) reads fun i => chal (i + 1)

/-- The verifier samples at most `N` challenges, whatever it reads. -/
def SamplesLe : Prog F E A → Nat → Prop
  | ret _, _ => True
  | fail _, _ => True
  | read _ c, N => ∀ m, (c m).SamplesLe N
  | sample _, 0 => False
  | sample c, N + 1 => ∀ x, (c x).SamplesLe N

end Prog

/-- A prover: the calls it makes on a `ProverTranscript`, `transcript/mod.rs:59-140`. -/
inductive PProg (F : Type) (E : Type) (A : Type) where
  | ret (a : A)
  | fail (e : E)
  /-- `message().write_scalar_slice(m)`, `transcript/mod.rs:466-480` -/
  | write (m : List F) (next : PProg F E A)
  | sample (cont : F → PProg F E A)

namespace PProg

variable {F : Type} {E : Type} {A : Type} {B : Type}

/-- Sequencing. -/
def bind : PProg F E A → (A → PProg F E B) → PProg F E B
  | ret a, k => k a
  | fail e, _ => fail e
  | write m p, k => write m (bind p k)
  | sample c, k => sample fun x => bind (c x) k

/-- A computation that does not touch the transcript. -/
def ofExcept : Except E A → PProg F E A
  | .ok a => ret a
  | .error e => fail e

/-- Running a prover: the messages it writes, in order, and its result. -/
def run : PProg F E A → (chal : Nat → F) → List (List F) × Except E A
  | ret a, _ => ([], .ok a)
  | fail e, _ => ([], .error e)
  | write m p, chal => let r := run p chal; (m :: r.1, r.2)
  | sample c, chal => run (c (chal 0)) fun i => chal (i + 1)

end PProg

end Verif.Protocol
