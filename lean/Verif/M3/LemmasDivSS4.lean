import Verif.M3.LemmasDivSS3

/-! Rows for the gadget that divides signed numbers. -/

set_option linter.dupNamespace false
set_option linter.unusedSectionVars false

namespace Verif.M3

open Finset Verif.Arith

variable {F : Type} [Field F] [DecidableEq F] [CharP F 2]

/-- The row once the loop over the bits is done. -/
def divSSStart (g : DivSS32) (basis : Nat → F) (p q d r A N : Nat) (w : Row F) : Row F :=
  setBits g.negAbsQValue.convertedBits (fun j => ofBit (N.testBit j))
    (setBits g.absRValue.convertedBits (fun j => ofBit (A.testBit j))
      (populateDiv basis g.pIn g.qIn g.outDiv g.outRem g.pInBits g.qInBits g.outDivBits g.outRemBits p q d r w))

structure DivSSFilled (Tw : Tower F) (L0 : Nat) (ohb : List Col) (g : DivSS32) (p31 q31 r31 : Col) (p q d r : Nat) (w u : Row F) : Prop where
  row : DivSSRow Tw u ohb g p31 q31 r31 ↔ (2 ^ 31 ≤ p ↔ 2 ^ 31 ≤ r)
  lt : ∀ i, i < L0 → ∀ pos, u i pos = w i pos
  bp : wide u g.pInBits = p
  bq : wide u g.qInBits = q
  bd : wide u g.outDivBits = d
  br : wide u g.outRemBits = r

set_option maxHeartbeats 4000000 in
theorem divSS_build {Tw : Tower F} (hT : 6 ≤ Tw.height) {L0 : Nat} {ohb : List Col} {g : DivSS32} {p31 q31 r31 : Col}
    (hl : DivSSLayout L0 ohb g p31 q31 r31) (ht : DivSSTables F L0 ohb g)
    {p q d r A N O : Nat} (hp : p < 2 ^ 32) (hq : q < 2 ^ 32) (hd : d < 2 ^ 32) (hr : r < 2 ^ 32) (hq0 : q ≠ 0)
    (hA : A = if 2 ^ 31 ≤ r then (2 ^ 64 - ext64 r) % 2 ^ 64 else ext64 r)
    (hN : N = if ¬ 2 ^ 31 ≤ q then (2 ^ 64 - ext64 q) % 2 ^ 64 else ext64 q) {w v w2 : Row F}
    (hv : MulSSFilled Tw (L0 + 132) g.mulInner ohb q d O (divSSStart g Tw.basis p q d r A N w) v)
    (h2 : ∀ i, i ≠ L0 + 136 → i ≠ L0 + 137 → i ≠ L0 + 204 → i ≠ L0 + 205 → ∀ pos, w2 i pos = v i pos) :
    Bits w2 g.sum.xIn 64 (q * d % 2 ^ 32 + 2 ^ 32 * O) ∧ Bits w2 g.sum.yIn 64 (ext64 r) ∧
    ∀ w3, AddFill (L0 + 402) 64 g.sum w2 w3 (ext64 p) →
      Bits (g.negAbsQValue.populate (g.absRValue.populate w3)) g.diff.xIn 64 A ∧
      Bits (g.negAbsQValue.populate (g.absRValue.populate w3)) g.diff.yIn 64 N ∧
      ∀ w6 D, AddFill (L0 + 1045) 64 g.diff (g.negAbsQValue.populate (g.absRValue.populate w3)) w6 D → 2 ^ 63 ≤ D → D < 2 ^ 64 →
        ∀ u, (∀ i, i < L0 + 402 → ∀ pos, u i pos = v i pos) → (∀ i, L0 + 402 ≤ i → ∀ pos, u i pos = w6 i pos) →
          DivSSFilled Tw L0 ohb g p31 q31 r31 p q d r w u := by
  have h1 := hl.pin
  have h2' := hl.qin
  have h3 := hl.dout
  have h4 := hl.rout
  have rp : ∀ c ∈ g.pInBits, L0 ≤ c.idx ∧ c.idx < L0 + 32 := fun c hc => by
    have := idx_range hl.plen hl.pidx hc; omega
  have rq : ∀ c ∈ g.qInBits, L0 + 32 ≤ c.idx ∧ c.idx < L0 + 64 := fun c hc => by
    have := idx_range hl.qlen hl.qidx hc; omega
  have rd : ∀ c ∈ g.outDivBits, L0 + 66 ≤ c.idx ∧ c.idx < L0 + 98 := fun c hc => by
    have := idx_range hl.dlen hl.didx hc; omega
  have rr : ∀ c ∈ g.outRemBits, L0 + 98 ≤ c.idx ∧ c.idx < L0 + 130 := fun c hc => by
    have := idx_range hl.rlen hl.ridx hc; omega
  have rxr : ∀ c ∈ extended g.outRemBits r31, L0 + 98 ≤ c.idx ∧ c.idx < L0 + 130 := fun c hc => by
    rcases List.mem_append.1 hc with hc | hc
    · exact rr c hc
    · rw [List.eq_of_mem_replicate hc]; exact rr _ (List.mem_of_getElem? hl.rtop)
  have rxq : ∀ c ∈ extended g.qInBits q31, L0 + 32 ≤ c.idx ∧ c.idx < L0 + 64 := fun c hc => by
    rcases List.mem_append.1 hc with hc | hc
    · exact rq c hc
    · rw [List.eq_of_mem_replicate hc]; exact rq _ (List.mem_of_getElem? hl.qtop)
  have rlo : ∀ c ∈ g.mulInner.mulInner.outLowBits, L0 + 170 ≤ c.idx ∧ c.idx < L0 + 202 := fun c hc => by
    have := idx_range hl.mul.mul.llen hl.mul.mul.lo hc; norm_num only at this; omega
  have roh : ∀ c ∈ ohb, L0 + 368 ≤ c.idx ∧ c.idx < L0 + 400 := fun c hc => by
    have := idx_range hl.mul.olen hl.mul.oidx hc; omega
  have rob : ∀ c ∈ g.mulInner.outBits, (L0 + 170 ≤ c.idx ∧ c.idx < L0 + 202) ∨ (L0 + 368 ≤ c.idx ∧ c.idx < L0 + 400) := fun c hc => by
    rw [hl.mul.out] at hc
    rcases List.mem_append.1 hc with hc | hc
    · exact Or.inl (rlo c hc)
    · exact Or.inr (roh c hc)
  have rsc : ∀ c ∈ g.sum.cin, L0 + 402 ≤ c.idx ∧ c.idx < L0 + 466 := fun c hc => by
    have := idx_range hl.sum.clen hl.sum.cidx hc; omega
  have rsz : ∀ c ∈ g.sum.zOut, L0 + 466 ≤ c.idx ∧ c.idx < L0 + 530 := fun c hc => by
    have := idx_range hl.sum.zlen hl.sum.zidx hc; omega
  have rsf := hl.sum.fidx
  have rac : ∀ c ∈ g.absRValue.convertedBits, L0 + 724 ≤ c.idx ∧ c.idx < L0 + 788 := fun c hc => by
    have := idx_range hl.absR.clen hl.absR.cidx hc; omega
  have rnc : ∀ c ∈ g.negAbsQValue.convertedBits, L0 + 981 ≤ c.idx ∧ c.idx < L0 + 1045 := fun c hc => by
    have := idx_range hl.negQ.clen hl.negQ.cidx hc; omega
  have rdc : ∀ c ∈ g.diff.cin, L0 + 1045 ≤ c.idx ∧ c.idx < L0 + 1109 := fun c hc => by
    have := idx_range hl.diff.clen hl.diff.cidx hc; omega
  have rdz : ∀ c ∈ g.diff.zOut, L0 + 1109 ≤ c.idx ∧ c.idx < L0 + 1173 := fun c hc => by
    have := idx_range hl.diff.zlen hl.diff.zidx hc; omega
  have rdf := hl.diff.fidx
  obtain ⟨c1, c2, c3, c4, c5, c6, c7, c8, c9⟩ := populateDiv_vals (id := L0 + 66) hl.plen hl.qlen hl.dlen hl.rlen hl.pidx hl.qidx hl.didx hl.ridx
    (by omega) (by omega) (by omega) (by omega) (by omega) (by omega) (by omega) Tw.basis p q d r w rfl
  set w0 := populateDiv Tw.basis g.pIn g.qIn g.outDiv g.outRem g.pInBits g.qInBits g.outDivBits g.outRemBits p q d r w with hw0
  set w1 := divSSStart g Tw.basis p q d r A N w with hw1
  have ne1 : ∀ i, i < L0 + 724 → ∀ pos, w1 i pos = w0 i pos := fun i hi pos => by
    rw [hw1, divSSStart, setBits_ne fun c hc => by have := rnc c hc; omega, setBits_ne fun c hc => by have := rac c hc; omega]
  have bA1 : Bits w1 g.absRValue.convertedBits 64 A := by
    refine (Bits.set hl.absR.clen (nodup_range hl.absR.clen hl.absR.cidx) A w0).congr fun c hc => ?_
    rw [hw1, divSSStart, setBits_ne fun c' hc' => by have := rnc c' hc'; have := rac c hc; omega]
  have bN1 : Bits w1 g.negAbsQValue.convertedBits 64 N := by
    rw [hw1]
    exact Bits.set hl.negQ.clen (nodup_range hl.negQ.clen hl.negQ.cidx) N _
  -- the row of the multiplier
  have nev : ∀ i, (i < L0 + 32 ∨ (L0 + 64 ≤ i ∧ i < L0 + 66) ∨ (L0 + 98 ≤ i ∧ i < L0 + 132)) → ∀ pos, v i pos = w0 i pos := fun i hi pos => by
    rw [hv.lt i (by omega) pos (fun _ c hc => ?_), ne1 i (by omega)]
    rw [hl.mx, hl.my] at hc
    rcases List.mem_append.1 hc with hc | hc
    · have := rq c hc; omega
    · have := rd c hc; omega
  have bqv : Bits v g.qInBits 32 q := by rw [← hl.mx]; exact hv.bx
  have bdv : Bits v g.outDivBits 32 d := by rw [← hl.my]; exact hv.by'
  have bpv : Bits v g.pInBits 32 p := c2.congr fun c hc => nev _ (by have := rp c hc; omega) 0
  have brv : Bits v g.outRemBits 32 r := c5.congr fun c hc => nev _ (by have := rr c hc; omega) 0
  have bov : Bits v g.mulInner.outBits 64 (q * d % 2 ^ 32 + 2 ^ 32 * O) := by
    rw [← hv.out]
    refine Bits.of_wide (by rw [hl.mul.out, List.length_append, hl.mul.mul.llen, hl.mul.olen]; norm_num) ?_
    rw [hl.mul.out]
    exact ((Bits.of_wide (n := 32) hl.mul.mul.llen hv.row.mul.lo).append hl.mul.mul.llen (Bits.of_wide (n := 32) hl.mul.olen hv.row.ob)
      (wide_lt v hl.mul.mul.llen)).isBit
  have xrv := brv.extended hl.rlen hl.rtop hr
  have xqv := bqv.extended hl.qlen hl.qtop hq
  have xpv := bpv.extended hl.plen hl.ptop hp
  refine ⟨?_, ?_, fun w3 s3 => ?_⟩
  · rw [hl.sx]; exact bov.congr fun c hc => by have := rob c hc; exact h2 _ (by omega) (by omega) (by omega) (by omega) 0
  · rw [hl.sy]; exact xrv.congr fun c hc => by have := rxr c hc; exact h2 _ (by omega) (by omega) (by omega) (by omega) 0
  have ne3 : ∀ i, (i < L0 + 136 ∨ L0 + 531 ≤ i) → ∀ pos, w3 i pos = v i pos := fun i hi pos => by
    rw [s3.ne i (by omega) pos]; exact h2 _ (by omega) (by omega) (by omega) (by omega) pos
  have ne31 : ∀ i, L0 + 531 ≤ i → ∀ pos, w3 i pos = w1 i pos := fun i hi pos => by
    rw [ne3 i (by omega), hv.ge i (by omega)]
  have xr3 : Bits w3 g.absRValue.twosComplement.xin 64 (ext64 r) := by
    rw [hl.ax]; exact xrv.congr fun c hc => ne3 _ (by have := rxr c hc; omega) 0
  obtain ⟨a1, a2⟩ := sign_populate hl.absR ht.absR xr3
  set w4 := g.absRValue.populate w3 with hw4
  have xq4 : Bits w4 g.negAbsQValue.twosComplement.xin 64 (ext64 q) := by
    rw [hl.nx]
    refine xqv.congr fun c hc => ?_
    have := rxq c hc
    rw [a1 _ (by omega), ne3 _ (by omega)]
  obtain ⟨b1, b2⟩ := sign_populate hl.negQ ht.negQ xq4
  set w5 := g.negAbsQValue.populate w4 with hw5
  have bA4 : Bits w4 g.absRValue.convertedBits 64 A := bA1.congr fun c hc => by
    have := rac c hc
    rw [a1 _ (by omega), ne31 _ (by omega)]
  have bN5 : Bits w5 g.negAbsQValue.convertedBits 64 N := bN1.congr fun c hc => by
    have := rnc c hc
    rw [b1 _ (by omega), a1 _ (by omega), ne31 _ (by omega)]
  have bA5 : Bits w5 g.absRValue.convertedBits 64 A := bA4.congr fun c hc => by
    have := rac c hc
    rw [b1 _ (by omega)]
  refine ⟨by rw [hl.dx]; exact bA5, by rw [hl.dy]; exact bN5, fun w6 D s6 hD1 hD2 u uv u6 => ?_⟩
  have ne6 : ∀ i, i < L0 + 1045 → ∀ pos, w6 i pos = w5 i pos := fun i hi pos => s6.ne i (by omega) pos
  have u5 : ∀ i, L0 + 402 ≤ i → i < L0 + 1045 → ∀ pos, u i pos = w5 i pos := fun i hi hi' pos => by rw [u6 i hi, ne6 i hi']
  have u4 : ∀ i, L0 + 402 ≤ i → i < L0 + 788 → ∀ pos, u i pos = w4 i pos := fun i hi hi' pos => by
    rw [u5 i hi (by omega), b1 i (by omega)]
  have u3 : ∀ i, L0 + 402 ≤ i → i < L0 + 531 → ∀ pos, u i pos = w3 i pos := fun i hi hi' pos => by
    rw [u4 i hi (by omega), a1 i (by omega)]
  have u43 : ∀ i, i < L0 + 136 → ∀ pos, u i pos = w4 i pos := fun i hi pos => by
    rw [uv i (by omega), a1 i (by omega), ne3 i (by omega)]
  have u53 : ∀ i, i < L0 + 136 → ∀ pos, u i pos = w5 i pos := fun i hi pos => by
    rw [u43 i hi, b1 i (by omega)]
  have bp : Bits u g.pInBits 32 p := bpv.congr fun c hc => uv _ (by have := rp c hc; omega) 0
  have bq : Bits u g.qInBits 32 q := bqv.congr fun c hc => uv _ (by have := rq c hc; omega) 0
  have bd : Bits u g.outDivBits 32 d := bdv.congr fun c hc => uv _ (by have := rd c hc; omega) 0
  have br : Bits u g.outRemBits 32 r := brv.congr fun c hc => uv _ (by have := rr c hc; omega) 0
  have tp := bp.top (n := 31) hl.plen hp
  have tq := bq.top (n := 31) hl.qlen hq
  have tr := br.top (n := 31) hl.rlen hr
  have ib := br.isBit 31 (by norm_num)
  have ip := bp.isBit 31 (by norm_num)
  have iq := bq.isBit 31 (by norm_num)
  rw [val_get hl.ptop] at tp ip
  rw [val_get hl.qtop] at tq iq
  rw [val_get hl.rtop] at tr ib
  have tq' : u q31.idx 0 + 1 = 1 ↔ ¬ 2 ^ 31 ≤ q := by
    rw [← tq]
    rcases iq with iq | iq <;> rw [iq]
    · simp
    · rw [CharTwo.add_self_eq_zero]; simp
  have hsign : u p31.idx 0 = u r31.idx 0 ↔ (2 ^ 31 ≤ p ↔ 2 ^ 31 ≤ r) := by
    rw [← tp, ← tr]
    rcases ip with ip | ip <;> rcases ib with ib | ib <;> rw [ip, ib] <;> simp
  have e1 : u g.pIn.idx 0 = element Tw.basis 32 p := by rw [uv _ (by omega), nev _ (by omega), c6]
  have e2 : u g.qIn.idx 0 = element Tw.basis 32 q := by rw [uv _ (by omega), nev _ (by omega), c7]
  have e3 : u g.outDiv.idx 0 = element Tw.basis 32 d := by rw [uv _ (by omega), nev _ (by omega), c8]
  have e4 : u g.outRem.idx 0 = element Tw.basis 32 r := by rw [uv _ (by omega), nev _ (by omega), c9]
  refine ⟨⟨fun h => hsign.1 h.sign, fun h => ⟨bp.isBit, bq.isBit, ?_, ?_, ?_, ?_, bd.isBit, br.isBit, hsign.2 h, ?_, ?_, ?_, ?_, ?_, ?_, ?_, ?_,
    ?_, ?_, ?_, ?_⟩⟩, fun i hi pos => ?_, bp.wide hl.plen hp, bq.wide hl.qlen hq, bd.wide hl.dlen hd, br.wide hl.rlen hr⟩
  · rw [e1]; exact element_sub (level := 5) (by omega) _
  · rw [e1]; exact bp.pack hl.plen hp _
  · rw [e2]; exact element_sub (level := 5) (by omega) _
  · rw [e2]; exact bq.pack hl.qlen hq _
  · rw [e3]; exact element_sub (level := 5) (by omega) _
  · rw [e3]; exact bd.pack hl.dlen hd _
  · rw [e4]; exact element_sub (level := 5) (by omega) _
  · rw [e4]; exact br.pack hl.rlen hr _
  · exact MulSSRow.congr hl.mul (fun c hc => by rw [hl.mx] at hc; have := rq c hc; omega)
      (fun c hc => by rw [hl.my] at hc; have := rd c hc; omega) hv.row fun i hi => uv i (by omega) 0
  · rw [e2]; exact element_ne_zero (level := 5) (by omega) (by norm_num only; omega) hq0
  · have hs := s3.row
    rw [hl.sx, hl.sy] at hs
    refine hs.congr (fun c hc => ?_) ?_
    · rw [List.mem_append, List.mem_append, List.mem_append] at hc
      have key : ∀ i, (i < L0 + 402 ∧ i ≠ L0 + 136 ∧ i ≠ L0 + 137 ∧ i ≠ L0 + 204 ∧ i ≠ L0 + 205) → u i 0 = w3 i 0 := fun i hi => by
        rw [uv i (by omega), s3.ne i (by omega), h2 i (by omega) (by omega) (by omega) (by omega)]
      rcases hc with ((hc | hc) | hc) | hc
      · have := rob c hc; exact key _ (by omega)
      · have := rxr c hc; exact key _ (by omega)
      · have := rsc c hc; exact u3 _ (by omega) (by omega) 0
      · have := rsz c hc; exact u3 _ (by omega) (by omega) 0
    · exact u3 _ (by omega) (by omega) 0
  · intro j hj
    rw [(xpv.congr (u := u) fun c hc => uv _ (by
      rcases List.mem_append.1 hc with hc | hc
      · have := rp c hc; omega
      · rw [List.eq_of_mem_replicate hc]; have := rp _ (List.mem_of_getElem? hl.ptop); omega) 0) j hj]
    exact ((s3.z.congr fun c hc => by have := rsz c hc; exact u3 _ (by omega) (by omega) 0) j hj).symm
  · have : SignOk w4 64 g.absRValue (u r31.idx 0) := by
      refine signOk_of (by norm_num) hl.absR a2 (by rw [hl.ax]; exact extended_length hl.rlen _) (ext64_lt hr)
        (xr3.congr fun c hc => ?_) bA4 ib ?_
      · rw [hl.ax] at hc; have := rxr c hc; exact a1 _ (by omega) 0
      · simp only [tr]; exact hA
    refine this.congr hl.absR (fun c hc => ?_) fun i hi hi' => u4 i (by omega) (by omega) 0
    rw [hl.ax] at hc; have := rxr c hc; exact u43 _ (by omega) 0
  · have : SignOk w5 64 g.negAbsQValue (u q31.idx 0 + 1) := by
      refine signOk_of (by norm_num) hl.negQ b2 (by rw [hl.nx]; exact extended_length hl.qlen _) (ext64_lt hq)
        (xq4.congr fun c hc => ?_) bN5 (isBit_add iq isBit_one) ?_
      · rw [hl.nx] at hc; have := rxq c hc; exact b1 _ (by omega) 0
      · simp only [tq']; exact hN
    refine this.congr hl.negQ (fun c hc => ?_) fun i hi hi' => u5 i (by omega) (by omega) 0
    rw [hl.nx] at hc; have := rxq c hc; exact u53 _ (by omega) 0
  · have hs := s6.row
    rw [hl.dx, hl.dy] at hs
    refine hs.congr (fun c hc => ?_) (u6 _ (by omega) 0)
    rw [List.mem_append, List.mem_append, List.mem_append] at hc
    refine u6 _ ?_ 0
    rcases hc with ((hc | hc) | hc) | hc
    · have := rac c hc; omega
    · have := rnc c hc; omega
    · have := rdc c hc; omega
    · have := rdz c hc; omega
  · have hb := (s6.z.congr (u := u) fun c hc => by have := rdz c hc; exact u6 _ (by omega) 0)
    exact (hb.top (n := 63) hl.diff.zlen hD2).2 hD1
  · rw [uv i (by omega), nev i (by omega), c1 i (by omega)]

end Verif.M3
