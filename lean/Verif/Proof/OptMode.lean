import Verif.Model.OptMode
import Verif.Proof.Contract
import Verif.Proof.AsconWord
import Verif.Proof.Words
import Verif.Proof.EncLoop
/-!
# The optimized ISAP-A-128a mode computes the specification
-/

namespace Model.Opt
open C Spec Spec.Ascon

/-- A state in the word representation `φ`. -/
def rep (φ : BitVec 64 → BitVec 64) (S : State) : State := ⟨φ S.x0, φ S.x1, φ S.x2, φ S.x3, φ S.x4⟩

/-- The macros of `asconp.h` implement the permutations `q` (of the Ascon permutation: `q = p`) on words stored as `φ w`. -/
structure RepOK (D : Prims) (φ : BitVec 64 → BitVec 64) (q : Nat → State → State) : Prop where
  toWord : ∀ B, B.length = 8 → D.toWord (le64 B) = φ (ofBe64 B)
  fromWord : ∀ w, toLe64 (D.fromWord (φ w)) = be64 w
  toBI : ∀ w, D.toBI w = φ w
  xor : ∀ a b, φ (a ^^^ b) = φ a ^^^ φ b
  top : φ 0x8000000000000000 = 0x8000000000000000
  one : φ 1 = 1
  pH : ∀ (e : Env) (s : St) S, Runs (D.pH (rep φ S)) e s (rep φ (q 12 S)) s
  pB : ∀ (e : Env) (s : St) S, Runs (D.pB (rep φ S)) e s (rep φ (q 1 S)) s
  pE : ∀ (e : Env) (s : St) S, Runs (D.pE (rep φ S)) e s (rep φ (q 6 S)) s
  pK : ∀ (e : Env) (s : St) S, Runs (D.pK (rep φ S)) e s (rep φ (q 12 S)) s

variable {D : Prims} {φ : BitVec 64 → BitVec 64} {q : Nat → State → State} {e : Env} {s : St}

/-- ISAP-A-128a with the permutations `q` in place of the Ascon permutation. -/
abbrev PQ (q : Nat → State → State) : Params := { isapA128a with perm := fun n b => toBytes (q n (ofBytes b)) }

theorem PQ_p : PQ p = isapA128a := rfl

theorem isAscon : IsAscon q (PQ q) := ⟨rfl, rfl, rfl⟩

theorem iv_eq (i : Nat) : iv i = (PQ q).iv i := rfl

theorem RepOK.zero (O : RepOK D φ q) : φ 0 = 0 := by
  have := O.xor 0 0
  simpa using this

theorem RepOK.bit (O : RepOK D φ q) (b : Bool) :
    φ ((Params.bitByte b).setWidth 64 <<< 56) = (Params.bitByte b).setWidth 64 <<< 56 := by
  cases b
  · exact O.zero
  · exact O.top

theorem rep_xorBit (O : RepOK D φ q) (S : State) (b : Bool) : xorTop (rep φ S) (Params.bitByte b) = rep φ (xorBit S b) := by
  simp only [xorTop, xorByte, rep, xorBit, O.xor, O.bit]

theorem rep_x0 (O : RepOK D φ q) (S : State) (w : BitVec 64) :
    { rep φ S with x0 := (rep φ S).x0 ^^^ φ w } = rep φ { S with x0 := S.x0 ^^^ w } := by
  simp only [rep, O.xor]

theorem runs_absorbTail (O : RepOK D φ q) (S : State) {src : Ptr} {len : Nat} (hl : len < 8) (h : Readable e src len) :
    Runs (absorbTail D (rep φ S) src len) e s
      (rep φ (q 12 { S with x0 := S.x0 ^^^ ofBe64 (bytesAt s src len ++ [0x80]) })) s := by
  unfold absorbTail
  by_cases h0 : len > 0
  · refine runs_if_true h0 ?_
    refine runs_bind (a := ofBe64 (bytesAt s src len)) (s' := s) ?_ ?_
    · rw [← ofBe64_nil]
      refine runs_forN_pure len 0 (fun j => ofBe64 (bytesAt s src j)) ?_
      intro j hj
      rw [Nat.zero_add]
      refine runs_bind (runs_load8_at h hj) (runs_eq (runs_pure _ _ _) ?_)
      rw [getD_bytesAt _ _ hj, bytesAt_succ, ofBe64_snoc _ (by simp; omega), length_bytesAt]
      rfl
    · have : xorByte (ofBe64 (bytesAt s src len)) (7 - len) 0x80 = ofBe64 (bytesAt s src len ++ [0x80]) := by
        rw [ofBe64_snoc _ (by simpa using hl), length_bytesAt]; rfl
      show Runs (D.pH { rep φ S with x0 := (rep φ S).x0 ^^^ D.toBI (xorByte (ofBe64 (bytesAt s src len)) (7 - len) 0x80) }) _ _ _ _
      rw [this, O.toBI, rep_x0 O]
      exact O.pH e s _
  · refine runs_if_false h0 ?_
    have : len = 0 := by omega
    subst this
    have := rep_xorBit O S true
    rw [show Params.bitByte true = (0x80 : Byte) from rfl] at this
    rw [this, bytesAt_zero, List.nil_append, ofBe64_single]
    exact O.pH e s _

theorem runs_absorbLanes (O : RepOK D φ q) (S : State) {src : Ptr} {len : Nat} (hal : Aligned e 8 src len)
    (h : Readable e src len) :
    Runs (absorbLanes D (rep φ S) src len) e s (rep φ (absorbW q 12 S (bytesAt s src len))) s := by
  unfold absorbLanes
  rw [whileGe_eq]
  refine runs_bind (a := rep φ (absW q 12 S (bytesAt s src len) (len / 8))) (s' := s) ?_ ?_
  · refine runs_forN_pure (len / 8) 0 (fun j => rep φ (absW q 12 S (bytesAt s src len) j)) ?_
    intro j hj
    rw [Nat.zero_add]
    refine runs_bind (runs_load64 (hal.add (by omega) (by omega)) (h.add (by omega))) ?_
    rw [O.toWord _ (by simp), rep_x0 O]
    have : bytesAt s (src + 8 * j) 8 = blk 8 (bytesAt s src len) j := by
      rw [blk, bytesAt_drop, bytesAt_take _ _ _ _ (by omega), Nat.mul_comm]
    rw [this]
    exact O.pH e s _
  · refine runs_eq (runs_absorbTail O _ (by omega) (h.add (by omega))) ?_
    rw [absorbW, length_bytesAt, bytesAt_drop, show len - len / 8 * 8 = len % 8 by omega, Nat.mul_comm]

theorem bit_mask (y : Byte) :
    (y &&& 0x80) <<< 0 = Params.bitByte (y.getLsbD 7) ∧ (y &&& 0x40) <<< 1 = Params.bitByte (y.getLsbD 6) ∧
    (y &&& 0x20) <<< 2 = Params.bitByte (y.getLsbD 5) ∧ (y &&& 0x10) <<< 3 = Params.bitByte (y.getLsbD 4) ∧
    (y &&& 0x08) <<< 4 = Params.bitByte (y.getLsbD 3) ∧ (y &&& 0x04) <<< 5 = Params.bitByte (y.getLsbD 2) ∧
    (y &&& 0x02) <<< 6 = Params.bitByte (y.getLsbD 1) ∧ (y &&& 0x01) <<< 7 = Params.bitByte (y.getLsbD 0) := by
  revert y; decide +kernel

/-- State before byte `i` of `isap_rk`; after the last byte the last permutation call is missing. -/
def rkSeq (q : Nat → State → State) (S : State) (Y : List Byte) (i : Nat) : State :=
  if i ≤ 15 then rkSt q 1 S Y (8 * i) else xorBit (rkSt q 1 S Y 127) (ybit Y 127)

theorem runs_rkStep (O : RepOK D φ q) (S : State) {y : Src} (hy : y.Ok e 16) {i : Nat} (hi : i < 16) :
    Runs (rkStep D y i (rep φ (rkSeq q S (y.bytes s 16) i))) e s (rep φ (rkSeq q S (y.bytes s 16) (i + 1))) s := by
  unfold rkStep
  refine runs_bind (runs_get hy hi) ?_
  generalize hY : y.bytes s 16 = Y
  have hb : ∀ j, j < 8 → (Y.getD i 0).getLsbD (7 - j) = ybit Y (8 * i + j) := by
    intro j hj
    rw [ybit, show (8 * i + j) / 8 = i by omega, show (8 * i + j) % 8 = j by omega]
  have hb0 := hb 0; have hb1 := hb 1; have hb2 := hb 2; have hb3 := hb 3
  have hb4 := hb 4; have hb5 := hb 5; have hb6 := hb 6; have hb7 := hb 7
  simp only [Nat.reduceLT, forall_const, Nat.reduceSub] at hb0 hb1 hb2 hb3 hb4 hb5 hb6 hb7
  obtain ⟨m0, m1, m2, m3, m4, m5, m6, m7⟩ := bit_mask (Y.getD i 0)
  rw [m0, m1, m2, m3, m4, m5, m6, m7, hb0, hb1, hb2, hb3, hb4, hb5, hb6, hb7]
  have h0 : rkSeq q S Y i = rkSt q 1 S Y (8 * i + 0) := by rw [rkSeq, if_pos (by omega)]; rfl
  rw [h0]
  have step : ∀ j {f : State → CM State} {R : State}, Runs (f (rep φ (rkSt q 1 S Y (8 * i + (j + 1))))) e s R s →
      Runs (D.pB (xorTop (rep φ (rkSt q 1 S Y (8 * i + j))) (Params.bitByte (ybit Y (8 * i + j)))) >>= f) e s R s := by
    intro j f R h
    rw [rep_xorBit O]
    exact runs_bind (O.pB e s _) h
  refine step 0 (step 1 (step 2 (step 3 (step 4 (step 5 (step 6 ?_))))))
  by_cases h15 : i ≠ 15
  · refine runs_if_true h15 ?_
    rw [rep_xorBit O]
    refine runs_eq (O.pB e s _) ?_
    rw [rkSeq, if_pos (by omega)]
    rfl
  · refine runs_if_false h15 ?_
    rw [rep_xorBit O]
    refine runs_eq (runs_pure _ _ _) ?_
    have : i = 15 := by omega
    subst this
    rfl

/-- Result of `isap_rk` in the output state. -/
def rkRes (out R : State) (outlen : Nat) : State :=
  if outlen > 16 then { out with x0 := R.x0, x1 := R.x1, x2 := R.x2 } else { out with x0 := R.x0, x1 := R.x1 }

theorem runs_isapRk (O : RepOK D φ q) {k : Ptr} {y : Src} (i : Nat) (out : State) (outlen : Nat)
    (hal : Aligned e 8 k 16) (hk : Readable e k 16) (hy : y.Ok e 16) :
    Runs (isapRk D k (iv i) y out outlen) e s
      (rkRes out (rep φ (rkW q (PQ q) (bytesAt s k 16) ((PQ q).iv i) (y.bytes s 16))) outlen) s := by
  unfold isapRk
  refine runs_bind (runs_load64 (hal.add (by decide) (by omega)) (hk.add (by omega))) ?_
  refine runs_bind (runs_load64 (hal.add (by decide) (by omega)) (hk.add (by omega))) ?_
  rw [O.toWord _ (by simp), O.toWord _ (by simp), O.toWord _ rfl]
  have hinit : (⟨φ (ofBe64 (bytesAt s (k + 0) 8)), φ (ofBe64 (bytesAt s (k + 8) 8)), φ (ofBe64 (iv i)), 0, 0⟩ : State) =
      rep φ (initW (bytesAt s k 16) ((PQ q).iv i)) := by
    simp only [rep, initW, O.zero]
    rw [bytesAt_drop, ← ofBe64_take (bytesAt s k 16), bytesAt_take _ _ _ _ (by omega)]
    rfl
  rw [hinit]
  refine runs_bind (O.pK e s _) ?_
  refine runs_bind (a := rep φ (rkSeq q (q 12 (initW (bytesAt s k 16) ((PQ q).iv i))) (y.bytes s 16) 16)) (s' := s) ?_ ?_
  · refine runs_forN_pure 16 0 (fun j => rep φ (rkSeq q (q 12 (initW (bytesAt s k 16) ((PQ q).iv i))) (y.bytes s 16) j)) ?_
    intro j hj
    rw [Nat.zero_add]
    exact runs_rkStep O _ hy hj
  · refine runs_bind (O.pK e s _) ?_
    unfold rkOut rkRes
    by_cases h : outlen > 16
    · refine runs_if_true h ?_
      rw [if_pos h]
      exact runs_pure _ _ _
    · refine runs_if_false h ?_
      rw [if_neg h]
      exact runs_pure _ _ _

theorem runs_macAbsorb (O : RepOK D φ q) {npub ad c : Ptr} {adlen clen : Nat}
    (hln : Aligned e 8 npub 16) (hla : Aligned e 8 ad adlen) (hlc : Aligned e 8 c clen)
    (hn : Readable e npub 16) (had : Readable e ad adlen) (hc : Readable e c clen) :
    Runs (macAbsorb D npub ad adlen c clen) e s
      (rep φ (macSt q (PQ q) (bytesAt s npub 16) (bytesAt s ad adlen) (bytesAt s c clen))) s := by
  unfold macAbsorb
  refine runs_bind (runs_load64 (hln.add (by decide) (by omega)) (hn.add (by omega))) ?_
  refine runs_bind (runs_load64 (hln.add (by decide) (by omega)) (hn.add (by omega))) ?_
  rw [O.toWord _ (by simp), O.toWord _ (by simp), O.toWord _ rfl]
  have hinit : (⟨φ (ofBe64 (bytesAt s (npub + 0) 8)), φ (ofBe64 (bytesAt s (npub + 8) 8)), φ (ofBe64 (iv 1)), 0, 0⟩ : State) =
      rep φ (initW (bytesAt s npub 16) ((PQ q).iv 1)) := by
    simp only [rep, initW, O.zero]
    rw [bytesAt_drop, ← ofBe64_take (bytesAt s npub 16), bytesAt_take _ _ _ _ (by omega)]
    rfl
  rw [hinit]
  refine runs_bind (O.pH e s _) ?_
  refine runs_bind (runs_absorbLanes O _ hla had) ?_
  have hx4 : ∀ S1 : State, { rep φ S1 with x4 := (rep φ S1).x4 ^^^ 1 } = rep φ { S1 with x4 := S1.x4 ^^^ 1 } := by
    intro S1
    simp only [rep, O.xor, O.one]
  show Runs (absorbLanes D _ c clen) _ _ _ _
  rw [hx4]
  exact runs_absorbLanes O _ hlc hc

theorem macOK (O : RepOK D φ q) : MacOK (PQ q) .byWords (isapMac D) := by
  intro e s k npub ad adlen c clen hlk hln hla hlc _ _ hk hnp had hc _ _
  rw [(isAscon (q := q)).mac_words _ _ (by simp) (by simp)]
  unfold isapMac
  refine runs_bind (runs_macAbsorb O hln hla hlc hnp had hc) ?_
  generalize hS : macSt q (PQ q) (bytesAt s npub 16) (bytesAt s ad adlen) (bytesAt s c clen) = S
  refine runs_bind (runs_isapRk O 2 _ 16 hlk hk (y := .loc _) ?_) ?_
  · simp [Src.Ok]
  have hY : (Src.loc (toLe64 (D.fromWord (rep φ S).x0) ++ toLe64 (D.fromWord (rep φ S).x1))).bytes s 16 =
      be64 S.x0 ++ be64 S.x1 := by
    simp only [rep, O.fromWord, Src.bytes]
    rw [List.take_of_length_le (by simp)]
  show Runs (D.pH (rkRes _ (rep φ (rkW q (PQ q) (bytesAt s k 16) ((PQ q).iv 2) ((Src.loc (toLe64 (D.fromWord (rep φ S).x0) ++
    toLe64 (D.fromWord (rep φ S).x1))).bytes s 16))) 16) >>= _) _ _ _ _
  rw [hY]
  refine runs_bind (a := rep φ (macW q (PQ q) (bytesAt s k 16) (bytesAt s npub 16) (bytesAt s ad adlen) (bytesAt s c clen)))
    (s' := s) ?_ ?_
  · simp only [macW, hS]
    exact O.pH e s { S with x0 := _, x1 := _ }
  · refine runs_eq (runs_pure _ _ _) ?_
    simp only [rep, O.fromWord]

theorem encOK (O : RepOK D φ q) : EncOK (PQ q) .byWords (isapEnc D) := by
  intro e s k npub m mlen c hlk hln hlm hlc _ hk hnp hm hc hov
  unfold isapEnc
  refine runs_bind (runs_isapRk O 3 _ 24 hlk hk (y := .ext npub) hnp) ?_
  refine runs_bind (runs_load64 (hln.add (by decide) (by omega)) (hnp.add (by omega))) ?_
  refine runs_bind (runs_load64 (hln.add (by decide) (by omega)) (hnp.add (by omega))) ?_
  rw [O.toWord _ (by simp), O.toWord _ (by simp)]
  have hinit : ({ rkRes ⟨0, 0, 0, 0, 0⟩ (rep φ (rkW q (PQ q) (bytesAt s k 16) ((PQ q).iv 3) ((Src.ext npub).bytes s 16))) 24 with
        x3 := φ (ofBe64 (bytesAt s (npub + 0) 8)), x4 := φ (ofBe64 (bytesAt s (npub + 8) 8)) } : State) =
      rep φ (encW q (PQ q) (bytesAt s k 16) (bytesAt s npub 16)) := by
    simp only [rep, encW, rkRes, Src.bytes]
    rw [bytesAt_drop, ← ofBe64_take (bytesAt s npub 16), bytesAt_take _ _ _ _ (by omega)]
    rfl
  show Runs (whileGe _ _ _ _ _ { rkRes ⟨0, 0, 0, 0, 0⟩ (rep φ (rkW q (PQ q) (bytesAt s k 16) ((PQ q).iv 3) ((Src.ext npub).bytes s 16))) 24 with
        x3 := φ (ofBe64 (bytesAt s (npub + 0) 8)), x4 := φ (ofBe64 (bytesAt s (npub + 8) 8)) } >>= _) _ _ _ _
  rw [hinit, whileGe_eq]
  have hks : ∀ i, ksBlock (PQ q) (bytesAt s k 16) (bytesAt s npub 16) i =
      be64 (Nat.repeat (q 6) (i + 1) (encW q (PQ q) (bytesAt s k 16) (bytesAt s npub 16))).x0 := by
    intro i
    rw [ksBlock, (isAscon (q := q)).encInit_words (by simp) (by simp), (isAscon (q := q)).repeat_words]
    exact take8 _
  generalize encW q (PQ q) (bytesAt s k 16) (bytesAt s npub 16) = I at *
  refine runs_bind (runs_encLoop (P := (PQ q)) (isAscon (q := q)).wf (K := bytesAt s k 16) (N := bytesAt s npub 16) (by simp) (by simp)
    (fun j => rep φ (Nat.repeat (q 6) j I)) hov ?_) ?_
  · intro j hj st
    have hj' : 8 * j + 8 ≤ mlen := by have : (j + 1) * 8 ≤ mlen := hj; omega
    refine runs_bind (O.pE e _ _) ?_
    refine runs_bind (runs_load64 (hlm.add (Nat.mul_mod_right 8 j) hj') (hm.add hj')) ?_
    refine runs_bind (a := ()) (runs_store64 (hlc.add (Nat.mul_mod_right 8 j) hj') (hc.add hj')) (runs_eq2 (runs_pure _ _ _) rfl ?_)
    rw [toLe64_xor, toLe64_le64 (by simp), hks]
    show putBytes _ _ (xorBytes _ (toLe64 (D.fromWord (φ _)))) = _
    rw [O.fromWord]
    rfl
  · have hl := enc_last (P := (PQ q)) (isAscon (q := q)).wf (K := bytesAt s k 16) (N := bytesAt s npub 16) (by simp) (by simp) s hov _ rfl
    unfold encTail
    by_cases h0 : mlen % 8 > 0
    · refine runs_ifThen_true h0 ?_
      rw [← hl]
      refine runs_bind (O.pE e _ _) ?_
      refine runs_xorLoop _ (OverlapOK.add hov (by show 8 * (mlen / 8) + mlen % 8 ≤ mlen; omega)) (hm.add (by omega)) (hc.add (by omega)) ?_ ?_
      · rw [hks]; show (List.take (mlen % 8) _).length = mlen % 8
        simp; omega
      · intro i hi
        rw [hks]
        show byteOf (D.fromWord (φ _)) i = (List.take (mlen % 8) _).getD i 0
        have := congrArg (fun l => l.getD i 0) (O.fromWord (Nat.repeat (q 6) (mlen / 8 + 1) I).x0)
        rw [getD_toLe64 _ (by omega)] at this
        rw [byteOf]
        refine this.trans ?_
        rw [List.getD, List.getD, List.getElem?_take, if_pos hi]
        rfl
    · refine runs_eq2 (runs_ifThen_false h0) rfl ?_
      exact enc_none s (by show mlen % 8 = 0; omega)

end Model.Opt
