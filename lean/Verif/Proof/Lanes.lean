import Verif.Proof.CipherApi
import Verif.Proof.BigEndian
import Verif.Proof.A128
import Verif.Model.BigEndian
/-!
# What code that works on 64-bit lanes computes, whatever it takes as lanes

ISAP with the Ascon permutation, but with arbitrary ways to read and write lanes, paddings and constants.
-/

namespace Model
open C Spec Spec.Ascon

/-- Reading and writing of lanes, paddings, constants and permutations. -/
structure Lanes where
  /-- eight bytes to a lane -/
  ld : List Byte → BitVec 64
  /-- a lane to eight bytes -/
  st : BitVec 64 → List Byte
  /-- one to seven bytes with padding -/
  part : List Byte → BitVec 64
  /-- the padding after full lanes -/
  full : BitVec 64
  /-- the padding of the empty string -/
  empty : BitVec 64
  /-- a bit absorbed in re-keying -/
  bit : Bool → BitVec 64
  /-- the constant that separates associated data from ciphertext -/
  one : BitVec 64
  /-- the initial values -/
  iv : Nat → BitVec 64
  pH : State → State
  pB : State → State
  pE : State → State
  pK : State → State

namespace Lanes
variable (F : Lanes)

/-- The state after `n` lanes of `X`. -/
def absN (S : State) (X : List Byte) : Nat → State
  | 0 => S
  | n + 1 => F.pH { absN S X n with x0 := (absN S X n).x0 ^^^ F.ld ((X.drop (8 * n)).take 8) }

/-- What is added for the last, incomplete lane. -/
def padding (X : List Byte) : BitVec 64 :=
  if X.length % 8 ≠ 0 then F.part (X.drop (8 * (X.length / 8))) else if X.length = 0 then F.empty else F.full

/-- Absorb a string. -/
def absorb (S : State) (X : List Byte) : State :=
  F.pH { F.absN S X (X.length / 8) with x0 := (F.absN S X (X.length / 8)).x0 ^^^ F.padding X }

/-- Add a bit. -/
def addBit (S : State) (b : Bool) : State := { S with x0 := S.x0 ^^^ F.bit b }

/-- The state of re-keying after `n` bits. -/
def rkN (S : State) (Y : List Byte) : Nat → State
  | 0 => S
  | n + 1 => F.pB (F.addBit (rkN S Y n) (ybit Y n))

/-- Re-keying. -/
def rk (K : List Byte) (i : Nat) (Y : List Byte) : State :=
  F.pK (F.addBit (F.rkN (F.pK ⟨F.ld (K.take 8), F.ld (K.drop 8), F.iv i, 0, 0⟩) Y 127) (ybit Y 127))

/-- The state after nonce, associated data and ciphertext. -/
def macSt (N A C : List Byte) : State :=
  F.absorb { F.absorb (F.pH ⟨F.ld (N.take 8), F.ld (N.drop 8), F.iv 1, 0, 0⟩) A with
    x4 := (F.absorb (F.pH ⟨F.ld (N.take 8), F.ld (N.drop 8), F.iv 1, 0, 0⟩) A).x4 ^^^ F.one } C

/-- The state from which the tag is taken. -/
def macFin (K : List Byte) (S : State) : State :=
  F.pH { S with x0 := (F.rk K 2 (F.st S.x0 ++ F.st S.x1)).x0, x1 := (F.rk K 2 (F.st S.x0 ++ F.st S.x1)).x1 }

/-- The tag. -/
def mac (K N A C : List Byte) : List Byte :=
  F.st (F.macFin K (F.macSt N A C)).x0 ++ F.st (F.macFin K (F.macSt N A C)).x1

/-- The state before the first block of the keystream. -/
def encSt (K N : List Byte) : State := { F.rk K 3 N with x3 := F.ld (N.take 8), x4 := F.ld (N.drop 8) }

/-- Block `i` of the keystream. -/
def ks (K N : List Byte) (i : Nat) : List Byte := F.st (Nat.repeat F.pE (i + 1) (F.encSt K N)).x0

/-- The functions. -/
def cipher : Cipher where
  mac := F.mac
  enc K N M := xorStream 8 (F.ks K N) M

/-- The digest of `crypto_hash`. -/
def hash (X : List Byte) : List Byte :=
  (List.range 4).flatMap fun i => F.st (Nat.repeat F.pH i (F.absorb (F.pH ⟨F.ld AsconHash.iv, 0, 0, 0, 0⟩) X)).x0

theorem cipher_ok (h : ∀ w, (F.st w).length = 8) : F.cipher.Ok where
  mac_len K N A C := by show (F.mac K N A C).length = 16; simp [mac, h]
  enc_len K N M := length_xorStream ..
  enc_enc K N M := xorStream_xorStream ..

/-! ## Collisions -/

theorem absN_append (S : State) (X Z : List Byte) {n : Nat} (h : 8 * n ≤ X.length) : F.absN S (X ++ Z) n = F.absN S X n := by
  induction n with
  | zero => rfl
  | succ n ih =>
    rw [absN, absN, ih (by omega), List.drop_append_of_le_length (by omega), List.take_append_of_le_length (by simp; omega)]

/-- If the padding after full lanes is that of some zero bytes, these zero bytes can be appended. -/
theorem absorb_zeros {j : Nat} (h0 : 0 < j) (h8 : j < 8) (h : F.full = F.part (zeros j)) (S : State) {X : List Byte}
    (hX : X.length % 8 = 0) (he : F.empty = F.full ∨ X ≠ []) : F.absorb S (X ++ zeros j) = F.absorb S X := by
  have hl : (X ++ zeros j).length = X.length + j := by simp [zeros]
  have hd : (X ++ zeros j).length / 8 = X.length / 8 := by rw [hl]; omega
  have h1 : F.padding (X ++ zeros j) = F.full := by
    rw [padding, if_pos (by rw [hl]; omega), hd, List.drop_append_of_le_length (by omega), List.drop_of_length_le (by omega),
      List.nil_append, h]
  have h2 : F.padding X = F.full := by
    rw [padding, if_neg (by omega)]
    split
    · rename_i h0
      rcases he with he | he
      · exact he
      · exact absurd (List.length_eq_zero_iff.1 h0) he
    · rfl
  rw [absorb, absorb, h1, h2, hd, F.absN_append S X (zeros j) (n := X.length / 8) (by omega)]

end Lanes

/-! ## Accesses -/

theorem runs_load64In {o : ByteOrder} {e : Env} {s : St} {p : Ptr} (hal : Aligned e 8 p 8) (h : Readable e p 8) :
    Runs (load64In o p) e s (word o (bytesAt s p 8)) s :=
  runs_bind (runs_load hal h (by decide)) (runs_pure _ _ _)

theorem runs_store64In {o : ByteOrder} {e : Env} {s : St} {p : Ptr} {x : BitVec 64} (hal : Aligned e 8 p 8)
    (h : Writable e p 8) : Runs (store64In o p x) e s () (putBytes s p (bytes o x)) :=
  runs_store (by simpa using hal) (by simpa using h) (by simp)

theorem bytes_xor_word (o : ByteOrder) (B : List Byte) (hB : B.length = 8) (x : BitVec 64) :
    bytes o (word o B ^^^ x) = xorBytes B (bytes o x) := by
  cases o with
  | little => show toLe64 _ = _; rw [toLe64_xor, show word .little B = le64 B from rfl, toLe64_le64 hB]; rfl
  | big =>
    rw [Opt.Ord.bytes_big, Opt.Ord.u64big_xor, Opt.Ord.word_big, Opt.Ord.u64big_u64big, toLe64_xor, toLe64_le64 hB,
      Opt.Ord.bytes_big]

theorem getD_bytes (o : ByteOrder) (x : BitVec 64) {i : Nat} (h : i < 8) : (bytes o x).getD i 0 = Opt.Ord.byteOf o x i := by
  cases o with
  | little => exact getD_toLe64 x h
  | big => simp [bytes, Opt.Ord.byteOf, shiftOf, List.getD, h]

variable {e : Env} {s : St}

/-! ## The optimized ISAP-A-128a mode -/

namespace Opt.Ord

/-- The last bytes of a string with padding, as a lane: `opt_64/isap.c` lines 22-32. -/
def tailWord (o : ByteOrder) (X : List Byte) : BitVec 64 :=
  xorByte o ((List.range X.length).foldl (fun t i => xorByte o t (7 - i) (X.getD i 0)) 0) (7 - X.length) 0x80

/-- What the code with these macros computes. -/
def lanes (o : ByteOrder) (D : Prims) (pH pB pE pK : State → State) : Lanes where
  ld B := D.toWord (word o B)
  st w := bytes o (D.fromWord w)
  part X := D.toBI (tailWord o X)
  full := (0x80 : Byte).setWidth 64 <<< shiftOf o 7
  empty := (0x80 : Byte).setWidth 64 <<< shiftOf o 7
  bit b := (Params.bitByte b).setWidth 64 <<< shiftOf o 7
  one := match o with | .little => 1 | .big => 1 <<< 32
  iv i := D.toWord (word o (iv i))
  pH := pH
  pB := pB
  pE := pE
  pK := pK

/-- The macros for the permutations are functions. -/
structure PureOK (D : Prims) (pH pB pE pK : State → State) : Prop where
  pH : ∀ (e : Env) (s : St) S, Runs (D.pH S) e s (pH S) s
  pB : ∀ (e : Env) (s : St) S, Runs (D.pB S) e s (pB S) s
  pE : ∀ (e : Env) (s : St) S, Runs (D.pE S) e s (pE S) s
  pK : ∀ (e : Env) (s : St) S, Runs (D.pK S) e s (pK S) s

variable {o : ByteOrder} {D : Prims} {pH pB pE pK : State → State}


theorem lanes_addBit (S : State) (b : Bool) : xorTop o S (Params.bitByte b) = (lanes o D pH pB pE pK).addBit S b := rfl

variable (O : PureOK D pH pB pE pK)
include O

theorem runs_absorbTail (S : State) {src : Ptr} {len : Nat} (h : Readable e src len) :
    Runs (absorbTail o D S src len) e s
      (pH { S with x0 := S.x0 ^^^ if len > 0 then D.toBI (tailWord o (bytesAt s src len)) else (lanes o D pH pB pE pK).full }) s := by
  unfold absorbTail
  by_cases h0 : len > 0
  · refine runs_if_true h0 ?_
    rw [if_pos h0]
    refine runs_bind (runs_forN_fold len 0 0 (g := fun i t => xorByte o t (7 - i) ((bytesAt s src len).getD i 0)) ?_) ?_
    · intro j hj x
      rw [Nat.zero_add]
      exact runs_bind (runs_load8_at h hj) (runs_pure _ _ _)
    · refine runs_eq (O.pH e s _) ?_
      rw [tailWord, length_bytesAt]
  · refine runs_if_false h0 ?_
    rw [if_neg h0]
    exact O.pH e s _

theorem runs_absorbLanes (S : State) {src : Ptr} {len : Nat} (hal : Aligned e 8 src len) (h : Readable e src len) :
    Runs (absorbLanes o D S src len) e s ((lanes o D pH pB pE pK).absorb S (bytesAt s src len)) s := by
  unfold absorbLanes
  rw [whileGe_eq]
  refine runs_bind (a := (lanes o D pH pB pE pK).absN S (bytesAt s src len) (len / 8)) (s' := s) ?_ ?_
  · refine runs_forN_pure (len / 8) 0 (fun j => (lanes o D pH pB pE pK).absN S (bytesAt s src len) j) ?_
    intro j hj
    rw [Nat.zero_add]
    refine runs_bind (runs_load64In (hal.add (by omega) (by omega)) (h.add (by omega))) ?_
    have : bytesAt s (src + 8 * j) 8 = ((bytesAt s src len).drop (8 * j)).take 8 := by
      rw [bytesAt_drop, bytesAt_take _ _ _ _ (by omega)]
    rw [this]
    exact O.pH e s _
  · refine runs_eq (runs_absorbTail O _ (h.add (by omega))) ?_
    rw [Lanes.absorb, Lanes.padding, length_bytesAt, bytesAt_drop, show len - 8 * (len / 8) = len % 8 by omega]
    by_cases h0 : len % 8 > 0
    · rw [if_pos h0, if_pos (by omega)]; rfl
    · rw [if_neg h0, if_neg (by omega)]
      split <;> rfl

/-- State before byte `i` of `isap_rk`; after the last byte the last permutation call is missing. -/
def rkSeq (L : Lanes) (S : State) (Y : List Byte) (i : Nat) : State :=
  if i ≤ 15 then L.rkN S Y (8 * i) else L.addBit (L.rkN S Y 127) (ybit Y 127)

theorem runs_rkStep (S : State) {y : Src} (hy : y.Ok e 16) {i : Nat} (hi : i < 16) :
    Runs (rkStep o D y i (rkSeq (lanes o D pH pB pE pK) S (y.bytes s 16) i)) e s (rkSeq (lanes o D pH pB pE pK) S (y.bytes s 16) (i + 1)) s := by
  unfold rkStep
  refine runs_bind (runs_get hy hi) ?_
  generalize hY : y.bytes s 16 = Y
  have hb : ∀ j, j < 8 → (Y.getD i 0).getLsbD (7 - j) = ybit Y (8 * i + j) := by
    intro j hj
    rw [ybit, show (8 * i + j) / 8 = i by omega, show (8 * i + j) % 8 = j by omega]
  have hb0 := hb 0; have hb1 := hb 1; have hb2 := hb 2; have hb3 := hb 3
  have hb4 := hb 4; have hb5 := hb 5; have hb6 := hb 6; have hb7 := hb 7
  simp only [Nat.reduceLT, forall_const, Nat.reduceSub] at hb0 hb1 hb2 hb3 hb4 hb5 hb6 hb7
  obtain ⟨m0, m1, m2, m3, m4, m5, m6, m7⟩ := bit_mask (Y.getD i 0)
  rw [m0, m1, m2, m3, m4, m5, m6, m7, hb0, hb1, hb2, hb3, hb4, hb5, hb6, hb7]
  have h0 : rkSeq (lanes o D pH pB pE pK) S Y i = (lanes o D pH pB pE pK).rkN S Y (8 * i + 0) := by rw [rkSeq, if_pos (by omega)]; rfl
  rw [h0]
  have step : ∀ j {f : State → CM State} {R : State}, Runs (f ((lanes o D pH pB pE pK).rkN S Y (8 * i + (j + 1)))) e s R s →
      Runs (D.pB (xorTop o ((lanes o D pH pB pE pK).rkN S Y (8 * i + j)) (Params.bitByte (ybit Y (8 * i + j)))) >>= f) e s R s := by
    intro j f R h
    exact runs_bind (O.pB e s _) h
  refine step 0 (step 1 (step 2 (step 3 (step 4 (step 5 (step 6 ?_))))))
  by_cases h15 : i ≠ 15
  · refine runs_if_true h15 ?_
    refine runs_eq (O.pB e s _) ?_
    rw [rkSeq, if_pos (by omega)]
    rfl
  · refine runs_if_false h15 ?_
    refine runs_eq (runs_pure _ _ _) ?_
    have : i = 15 := by omega
    subst this
    rfl

theorem runs_isapRk {k : Ptr} {y : Src} (i : Nat) (out : State) (outlen : Nat) (hal : Aligned e 8 k 16) (hk : Readable e k 16)
    (hy : y.Ok e 16) :
    Runs (isapRk o D k (iv i) y out outlen) e s (rkRes out ((lanes o D pH pB pE pK).rk (bytesAt s k 16) i (y.bytes s 16)) outlen) s := by
  unfold isapRk
  refine runs_bind (runs_load64In (hal.add (by decide) (by omega)) (hk.add (by omega))) ?_
  refine runs_bind (runs_load64In (hal.add (by decide) (by omega)) (hk.add (by omega))) ?_
  have hinit : (⟨D.toWord (word o (bytesAt s (k + 0) 8)), D.toWord (word o (bytesAt s (k + 8) 8)), D.toWord (word o (iv i)),
      0, 0⟩ : State) = ⟨(lanes o D pH pB pE pK).ld ((bytesAt s k 16).take 8), (lanes o D pH pB pE pK).ld ((bytesAt s k 16).drop 8), (lanes o D pH pB pE pK).iv i, 0, 0⟩ := by
    rw [bytesAt_drop, bytesAt_take _ _ _ _ (by omega)]
    rfl
  rw [hinit]
  refine runs_bind (O.pK e s _) ?_
  refine runs_bind (a := rkSeq (lanes o D pH pB pE pK) (pK ⟨(lanes o D pH pB pE pK).ld ((bytesAt s k 16).take 8), (lanes o D pH pB pE pK).ld ((bytesAt s k 16).drop 8), (lanes o D pH pB pE pK).iv i, 0, 0⟩)
    (y.bytes s 16) 16) (s' := s) ?_ ?_
  · refine runs_forN_pure 16 0 (fun j => rkSeq (lanes o D pH pB pE pK) (pK ⟨(lanes o D pH pB pE pK).ld ((bytesAt s k 16).take 8), (lanes o D pH pB pE pK).ld ((bytesAt s k 16).drop 8), (lanes o D pH pB pE pK).iv i,
      0, 0⟩) (y.bytes s 16) j) ?_
    intro j hj
    rw [Nat.zero_add]
    exact runs_rkStep O _ hy hj
  · refine runs_bind (O.pK e s _) ?_
    unfold rkOut rkRes
    by_cases h : outlen > 16
    · refine runs_if_true h ?_
      rw [if_pos h]
      exact runs_pure _ _ _
    · refine runs_if_false h ?_
      rw [if_neg h]
      exact runs_pure _ _ _

theorem runs_macAbsorb {npub ad c : Ptr} {adlen clen : Nat}
    (hln : Aligned e 8 npub 16) (hla : Aligned e 8 ad adlen) (hlc : Aligned e 8 c clen)
    (hn : Readable e npub 16) (had : Readable e ad adlen) (hc : Readable e c clen) :
    Runs (macAbsorb o D npub ad adlen c clen) e s
      ((lanes o D pH pB pE pK).macSt (bytesAt s npub 16) (bytesAt s ad adlen) (bytesAt s c clen)) s := by
  unfold macAbsorb
  refine runs_bind (runs_load64In (hln.add (by decide) (by omega)) (hn.add (by omega))) ?_
  refine runs_bind (runs_load64In (hln.add (by decide) (by omega)) (hn.add (by omega))) ?_
  have hinit : (⟨D.toWord (word o (bytesAt s (npub + 0) 8)), D.toWord (word o (bytesAt s (npub + 8) 8)),
      D.toWord (word o (iv 1)), 0, 0⟩ : State) =
      ⟨(lanes o D pH pB pE pK).ld ((bytesAt s npub 16).take 8), (lanes o D pH pB pE pK).ld ((bytesAt s npub 16).drop 8), (lanes o D pH pB pE pK).iv 1, 0, 0⟩ := by
    rw [bytesAt_drop, bytesAt_take _ _ _ _ (by omega)]
    rfl
  rw [hinit]
  refine runs_bind (O.pH e s _) ?_
  refine runs_bind (runs_absorbLanes O _ hla had) ?_
  have hx : ∀ S1 : State, xorOne o S1 = { S1 with x4 := S1.x4 ^^^ (lanes o D pH pB pE pK).one } := by
    intro S1
    cases o <;> rfl
  show Runs (absorbLanes o D _ c clen) _ _ _ _
  rw [hx]
  exact runs_absorbLanes O _ hlc hc

theorem lanesMac : (lanes o D pH pB pE pK).cipher.MacOK .byWords (isapMac o D) := by
  intro e s k npub ad adlen c clen hlk hln hla hlc _ _ hk hnp had hc
  unfold isapMac
  refine runs_bind (runs_macAbsorb O hln hla hlc hnp had hc) ?_
  show Runs _ e s ((lanes o D pH pB pE pK).st ((lanes o D pH pB pE pK).macFin (bytesAt s k 16) ((lanes o D pH pB pE pK).macSt (bytesAt s npub 16) (bytesAt s ad adlen) (bytesAt s c clen))).x0 ++
    (lanes o D pH pB pE pK).st ((lanes o D pH pB pE pK).macFin (bytesAt s k 16) ((lanes o D pH pB pE pK).macSt (bytesAt s npub 16) (bytesAt s ad adlen) (bytesAt s c clen))).x1) s
  generalize (lanes o D pH pB pE pK).macSt (bytesAt s npub 16) (bytesAt s ad adlen) (bytesAt s c clen) = S
  refine runs_bind (runs_isapRk O 2 _ 16 hlk hk (y := .loc _) ?_) ?_
  · simp [Src.Ok]
  have hY : (Src.loc (bytes o (D.fromWord S.x0) ++ bytes o (D.fromWord S.x1))).bytes s 16 = (lanes o D pH pB pE pK).st S.x0 ++ (lanes o D pH pB pE pK).st S.x1 := by
    simp only [Src.bytes]
    rw [List.take_of_length_le (by simp)]
    rfl
  show Runs (D.pH (rkRes _ ((lanes o D pH pB pE pK).rk (bytesAt s k 16) 2 ((Src.loc (bytes o (D.fromWord S.x0) ++
    bytes o (D.fromWord S.x1))).bytes s 16)) 16) >>= _) _ _ _ _
  rw [hY]
  exact runs_bind (a := (lanes o D pH pB pE pK).macFin (bytesAt s k 16) S) (s' := s) (O.pH e s _) (runs_pure _ _ _)

theorem lanesEnc : (lanes o D pH pB pE pK).cipher.EncOK .byWords (isapEnc o D) := by
  intro e s k npub m mlen c hlk hln hlm hlc _ hk hnp hm hc hov
  have hlk : Aligned e 8 k 16 := hlk
  unfold isapEnc
  refine runs_bind (runs_isapRk O 3 _ 24 hlk hk (y := .ext npub) hnp) ?_
  refine runs_bind (runs_load64In (hln.add (by decide) (by omega)) (hnp.add (by omega))) ?_
  refine runs_bind (runs_load64In (hln.add (by decide) (by omega)) (hnp.add (by omega))) ?_
  have hinit : ({ rkRes ⟨0, 0, 0, 0, 0⟩ ((lanes o D pH pB pE pK).rk (bytesAt s k 16) 3 ((Src.ext npub).bytes s 16)) 24 with
        x3 := D.toWord (word o (bytesAt s (npub + 0) 8)), x4 := D.toWord (word o (bytesAt s (npub + 8) 8)) } : State) =
      (lanes o D pH pB pE pK).encSt (bytesAt s k 16) (bytesAt s npub 16) := by
    simp only [Lanes.encSt, rkRes, Src.bytes]
    rw [bytesAt_drop, bytesAt_take _ _ _ _ (by omega)]
    rfl
  show Runs (whileGe _ _ _ _ _ { rkRes ⟨0, 0, 0, 0, 0⟩ ((lanes o D pH pB pE pK).rk (bytesAt s k 16) 3 ((Src.ext npub).bytes s 16)) 24 with
        x3 := D.toWord (word o (bytesAt s (npub + 0) 8)), x4 := D.toWord (word o (bytesAt s (npub + 8) 8)) } >>= _) _ _ _ _
  rw [hinit, whileGe_eq]
  show Runs _ e s () (putBytes s c (xorStream 8 ((lanes o D pH pB pE pK).ks (bytesAt s k 16) (bytesAt s npub 16)) (bytesAt s m mlen)))
  have hks : ∀ i, (lanes o D pH pB pE pK).ks (bytesAt s k 16) (bytesAt s npub 16) i =
      bytes o (D.fromWord (Nat.repeat pE (i + 1) ((lanes o D pH pB pE pK).encSt (bytesAt s k 16) (bytesAt s npub 16))).x0) := fun _ => rfl
  generalize (lanes o D pH pB pE pK).ks (bytesAt s k 16) (bytesAt s npub 16) = KS at *
  generalize (lanes o D pH pB pE pK).encSt (bytesAt s k 16) (bytesAt s npub 16) = I at *
  have hkl : ∀ i, (KS i).length = 8 := fun i => by rw [hks]; simp
  refine runs_bind (runs_streamBlocks (by decide) hkl (mlen / 8) (by omega) (fun j => Nat.repeat pE j I) hov ?_) ?_
  · intro j hj st
    have hj' : 8 * j + 8 ≤ mlen := by omega
    refine runs_bind (O.pE e _ _) ?_
    refine runs_bind (runs_load64In (hlm.add (Nat.mul_mod_right 8 j) hj') (hm.add hj')) ?_
    refine runs_bind (a := ()) (runs_store64In (hlc.add (Nat.mul_mod_right 8 j) hj') (hc.add hj')) (runs_eq2 (runs_pure _ _ _) rfl ?_)
    rw [bytes_xor_word _ _ (by simp), hks]
    rfl
  · unfold encTail
    by_cases h0 : mlen % 8 > 0
    · have hl := stream_rest (by decide) hkl s hov (n := mlen / 8) (w := mlen % 8) (by omega) (by omega) _ rfl
      refine runs_ifThen_true h0 ?_
      rw [← hl]
      refine runs_bind (O.pE e _ _) ?_
      refine runs_xorLoop _ (OverlapOK.add hov (by omega)) (hm.add (by omega)) (hc.add (by omega)) ?_ ?_
      · simp [hkl]; omega
      · intro i hi
        rw [hks, List.getD, List.getElem?_take, if_pos hi]
        exact (getD_bytes o _ (by omega)).symm
    · refine runs_eq2 (runs_ifThen_false h0) rfl ?_
      exact stream_none s (by omega)

/-- The mode computes these functions. -/
theorem lanesImpl : (lanes o D pH pB pE pK).cipher.Impl .byWords (impl o D) where
  ok := Lanes.cipher_ok _ fun w => length_bytes ..
  mac := lanesMac O
  enc := lanesEnc O
  tag := rfl
  dvd := ⟨16, rfl⟩

theorem lanesHash {a : HashArgs} (hal : AlignedHash e a) (V : ValidHash e a) :
    Runs (cryptoHash o D a.out a.inp a.inlen) e s 0 (putBytes s a.out ((lanes o D pH pB pE pK).hash (bytesAt s a.inp a.inlen))) := by
  unfold cryptoHash
  refine runs_bind (O.pH e s _) ?_
  refine runs_bind (runs_absorbLanes O _ hal.inp V.inp) ?_
  show Runs _ e s 0 (putBytes s a.out ((List.range 4).flatMap fun i =>
    (lanes o D pH pB pE pK).st (Nat.repeat pH i ((lanes o D pH pB pE pK).absorb (pH ⟨(lanes o D pH pB pE pK).ld AsconHash.iv, 0, 0, 0, 0⟩) (bytesAt s a.inp a.inlen))).x0))
  have hiv : D.toWord (word o hashIV) = (lanes o D pH pB pE pK).ld AsconHash.iv := rfl
  rw [hiv]
  generalize (lanes o D pH pB pE pK).absorb (pH ⟨(lanes o D pH pB pE pK).ld AsconHash.iv, 0, 0, 0, 0⟩) (bytesAt s a.inp a.inlen) = W
  have hQ : ∀ j, ((List.range j).flatMap fun i => (lanes o D pH pB pE pK).st (Nat.repeat pH i W).x0).length = 8 * j := by
    intro j
    induction j with
    | zero => rfl
    | succ j ih =>
      rw [List.range_succ, List.flatMap_append, List.length_append, ih]
      have : ((lanes o D pH pB pE pK).st (Nat.repeat pH j W).x0).length = 8 := length_bytes ..
      simp [this]; omega
  refine runs_bind (a := Nat.repeat pH 3 W)
    (s' := putBytes s a.out ((List.range 4).flatMap fun i => (lanes o D pH pB pE pK).st (Nat.repeat pH i W).x0)) ?_ (runs_pure _ _ _)
  have := runs_forN (f := squeezeStep o D a.out) (e := e) 4 0 (fun j => Nat.repeat pH (min j 3) W)
    (fun j => putBytes s a.out ((List.range j).flatMap fun i => (lanes o D pH pB pE pK).st (Nat.repeat pH i W).x0)) ?_
  · rw [show (List.range 0).flatMap (fun i => (lanes o D pH pB pE pK).st (Nat.repeat pH i W).x0) = [] from rfl, putBytes_nil] at this
    exact this
  · intro j hj
    rw [Nat.zero_add]
    unfold squeezeStep
    refine runs_bind (a := ()) (runs_store64In (hal.out.add (by omega) (by omega)) (V.out.add (by omega))) ?_
    have hst : putBytes (putBytes s a.out ((List.range j).flatMap fun i => (lanes o D pH pB pE pK).st (Nat.repeat pH i W).x0)) (a.out + 8 * j)
        (bytes o (D.fromWord (Nat.repeat pH (min j 3) W).x0)) =
        putBytes s a.out ((List.range (j + 1)).flatMap fun i => (lanes o D pH pB pE pK).st (Nat.repeat pH i W).x0) := by
      rw [List.range_succ, List.flatMap_append, ← putBytes_append, hQ, show min j 3 = j by omega]
      simp only [List.flatMap_cons, List.flatMap_nil, List.append_nil]
      rfl
    rw [hst]
    by_cases h3 : j < 3
    · refine runs_if_true h3 ?_
      rw [show min (j + 1) 3 = min j 3 + 1 by omega]
      exact O.pH e _ _
    · refine runs_if_false h3 ?_
      rw [show min (j + 1) 3 = min j 3 by omega]
      exact runs_pure _ _ _

end Opt.Ord
end Model
