import Verif.Transcript.ModelChallenger

/-!
# What the challenger computes (specification)

The challenger is a hash chain. In an absorbing phase it collects a message `h`. Sampling then reads
the infinite stream `D₁ ‖ D₂ ‖ …` with `D₀ = h` and `Dᵢ₊₁ = H(Dᵢ)`. When absorbing resumes, the new
message starts with the last `D` computed and the position reached in it, as 8 bytes.
-/

namespace Verif.Transcript
open Verif.Ser (leBytes)

/-- `Dᵢ`: the digest chain started by the message `h`. -/
def chain (H : HashFn) (h : Bytes) : Nat → Bytes
  | 0 => h
  | i + 1 => H.hash (chain H h i)

/-- The bytes `a, …, a + m - 1` of the stream `D₁ ‖ D₂ ‖ …`. -/
def streamBytes (H : HashFn) (h : Bytes) (a m : Nat) : Bytes :=
  (((List.range (a + m)).flatMap fun i => chain H h (i + 1)).drop a).take m

/-- The state: collecting a message, or `used` bytes into the stream of `msg`, of which `blocks`
blocks have been computed. -/
inductive SpecState
  | absorbing (msg : Bytes)
  | squeezing (msg : Bytes) (blocks used : Nat)

/-- A new challenger: the empty message, whose first block is already computed. -/
def SpecState.init : SpecState := .squeezing [] 1 0

/-- The number of blocks that hold `n` bytes: `n / out`, rounded up. -/
def blocksFor (H : HashFn) (n : Nat) : Nat := (n + H.out - 1) / H.out

/-- What a message starts with when absorbing resumes. -/
def resume (H : HashFn) (msg : Bytes) (blocks used : Nat) : Bytes :=
  chain H msg blocks ++ leBytes 8 (used + H.out - blocks * H.out)

/-- Observing bytes. -/
def SpecState.observe (H : HashFn) : SpecState → Bytes → SpecState
  | .absorbing h, bs => .absorbing (h ++ bs)
  | .squeezing h q n, bs => .absorbing (resume H h q n ++ bs)

/-- Sampling `m` bytes. -/
def SpecState.sample (H : HashFn) : SpecState → Nat → Bytes × SpecState
  | .absorbing h, m => (streamBytes H h 0 m, .squeezing h (blocksFor H m) m)
  | .squeezing h q n, m =>
    (streamBytes H h n m, .squeezing h (max q (blocksFor H (n + m))) (n + m))

/-- A sequence of uses: the bytes of each sample, and the final state. -/
def SpecState.run (H : HashFn) (s : SpecState) : List Use → List Bytes × SpecState
  | [] => ([], s)
  | .observe bs :: us => (s.observe H bs).run H us
  | .sample n :: us =>
    let r := s.sample H n
    let q := r.2.run H us
    (r.1 :: q.1, q.2)

/-- Two sequences of uses that differ only in how observed data and samples are cut into pieces. -/
inductive SameStream : List Use → List Use → Prop
  | refl (us) : SameStream us us
  | symm {us vs} : SameStream us vs → SameStream vs us
  | trans {us vs ws} : SameStream us vs → SameStream vs ws → SameStream us ws
  | observe (us vs) (a b : Bytes) :
      SameStream (us ++ .observe a :: .observe b :: vs) (us ++ .observe (a ++ b) :: vs)
  | sample (us vs) (m n : Nat) :
      SameStream (us ++ .sample m :: .sample n :: vs) (us ++ .sample (m + n) :: vs)

/-- The messages hashed to compute the blocks of a state. -/
def SpecState.hashedHere (H : HashFn) : SpecState → List Bytes
  | .absorbing _ => []
  | .squeezing h q _ => (List.range q).map (chain H h)

/-- All the messages hashed during a sequence of uses. -/
def SpecState.hashed (H : HashFn) (s : SpecState) : List Use → List Bytes
  | [] => s.hashedHere H
  | .observe bs :: us => s.hashedHere H ++ (s.observe H bs).hashed H us
  | .sample n :: us => s.hashedHere H ++ (s.sample H n).2.hashed H us

/-- A history in which `n` bytes are sampled first and then, repeatedly, some data is observed and
some bytes are sampled. -/
def history (n : Nat) (rounds : List (Bytes × Nat)) : List Use :=
  .sample n :: rounds.flatMap fun r => [.observe r.1, .sample r.2]

end Verif.Transcript
