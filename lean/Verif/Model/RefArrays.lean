import Verif.Model.KeccakRef
import Verif.Model.StateArrays
/-!
# The Keccak reference with its arrays `state` in memory

`isap_rk`, `isap_mac` and `isap_enc` of `isapk128av20/ref/isap.c` (same text in `isapk128v20/ref`) each have a local array
`unsigned char state[50]` (lines 24, 58, 131).  `KeccakP400_Permute_Nrounds` accesses it as an array of 25 objects of type `uint16_t`
(`KeccakP-400-reference.c` line 122).  `Model/RefMode.lean` keeps these arrays as values; here they are objects in memory, at addresses
chosen by the compiler.  The other local variables (`y`, `ka_star`, `cur_bit`, ...), which are accessed by bytes, remain values.
-/

namespace Model.KeccakRef.In
open C

/-- `KeccakP400_Initialize`: `ref/KeccakP-400-reference.c` lines 63-66 (`memset` as a loop by bytes). -/
def initState (r : Ptr) : CM Unit := forN 50 0 (fun i (_ : Unit) => store8 (r + i) 0) ()

/-- `KeccakP400_AddBytes`: `ref/KeccakP-400-reference.c` lines 78-86. -/
def addBytes (r : Ptr) (data : Src) (offset length : Nat) : CM Unit := do
  assert (offset < 50)
  assert (offset + length ≤ 50)
  forN length 0 (fun i (_ : Unit) => do
    let d ← data.get i
    let b ← load8 (r + (offset + i))
    store8 (r + (offset + i)) (b ^^^ d)) ()

/-- `KeccakP400_OverwriteBytes`: `ref/KeccakP-400-reference.c` lines 90-95 (`memcpy` as a loop by bytes). -/
def overwriteBytes (r : Ptr) (data : Src) (offset length : Nat) : CM Unit := do
  assert (offset < 50)
  assert (offset + length ≤ 50)
  forN length 0 (fun i (_ : Unit) => do
    let d ← data.get i
    store8 (r + (offset + i)) d) ()

/-- `KeccakP400_ExtractBytes`: `ref/KeccakP-400-reference.c` lines 219-224; returns the bytes copied to `data`. -/
def extractBytes (r : Ptr) (offset length : Nat) : CM (List Byte) := do
  assert (offset < 50)
  assert (offset + length ≤ 50)
  forN length 0 (fun i (acc : List Byte) => do
    let b ← load8 (r + (offset + i))
    pure (acc ++ [b])) []

/-- `KeccakP400_Permute_Nrounds`: `ref/KeccakP-400-reference.c` lines 115-128, little-endian.  The lanes are objects of type `uint16_t`,
so every access to one needs a multiple of 2.  Simplified: each lane is read once before the rounds and written once after them
(the code reads and writes it in every round; the number of rounds is never 0). -/
def permute (r : Ptr) (nrounds : Nat) : CM Unit := do
  let S ← forN 25 0 (fun i (acc : List Byte) => do
    let w ← load 2 2 (r + 2 * i)
    pure (acc ++ w)) []
  let S ← KeccakRef.permute S nrounds
  forN 25 0 (fun i (_ : Unit) => store 2 (r + 2 * i) ((S.drop (2 * i)).take 2)) ()

/-- `isap_rk` with `state` at `q`: `isapk128av20/ref/isap.c` lines 15-44.  Returns the bytes stored in `out`. -/
def isapRk (G : Ref.Cfg) (q k : Ptr) (iv : List Byte) (inp : Src) (inlen outlen : Nat) : CM (List Byte) := do
  initState q
  addBytes q (.ext k) 0 16
  addBytes q (.loc iv) 16 8
  permute q G.sK
  forN (inlen * 8 - 1) 0 (fun i (_ : Unit) => do
    let b ← inp.get (i / 8)
    addBytes q (.loc [Ref.curBit b (7 - i % 8)]) 0 1
    permute q G.sB) ()
  let b ← inp.get (inlen - 1)
  addBytes q (.loc [Ref.curBit b 0]) 0 1
  permute q G.sK
  extractBytes q 0 outlen

/-- `if(avail == 0){ permute(state, rounds); avail = ISAP_rH_SZ; }`: `isapk128av20/ref/isap.c` lines 68-71, 78-81, 97-100, 137-140. -/
def refill (G : Ref.Cfg) (r : Ptr) (rounds avail : Nat) : CM Nat := do
  let b ← branch (avail = 0)
  if b then do
    permute r rounds
    pure G.rHsz
  else pure avail

/-- Absorption of the associated data: `isapk128av20/ref/isap.c` lines 64-75; `x` is `rate_bytes_avail`. -/
def absorbAd (G : Ref.Cfg) (r ad : Ptr) (adlen : Nat) : CM Nat :=
  forN adlen 0 (fun i x => do
    let x ← refill G r G.sH x
    let d ← load8 (ad + i)
    addBytes r (.loc [d]) (G.rHsz - x) 1
    pure (x - 1)) G.rHsz

/-- Absorption of the ciphertext: `isapk128av20/ref/isap.c` lines 90-101. -/
def absorbC (G : Ref.Cfg) (r c : Ptr) (clen : Nat) : CM Nat :=
  forN clen 0 (fun i x => do
    let d ← load8 (c + i)
    addBytes r (.loc [d]) (G.rHsz - x) 1
    refill G r G.sH (x - 1)) G.rHsz

/-- `isap_mac` with its array `state` at `p` and that of `isap_rk` at `q`: `isapk128av20/ref/isap.c` lines 50-118. -/
def isapMac (G : Ref.Cfg) (p q k npub ad : Ptr) (adlen : Nat) (c : Ptr) (clen : Nat) : CM (List Byte) := do
  initState p
  addBytes p (.ext npub) 0 16
  addBytes p (.loc (G.iv 1)) 16 8
  permute p G.sH
  -- absorb AD, lines 64-84
  let x ← absorbAd G p ad adlen
  let x ← refill G p G.sH x
  addBytes p (.loc [0x80]) (G.rHsz - x) 1
  permute p G.sH
  -- domain separation, lines 86-88
  addBytes p (.loc [0x01]) (50 - 1) 1
  -- absorb C, lines 90-106
  let x ← absorbC G p c clen
  addBytes p (.loc [0x80]) (G.rHsz - x) 1
  permute p G.sH
  -- derive Ka*, lines 108-112
  let y ← extractBytes p 0 16
  let kaStar ← isapRk G q k (G.iv 2) (.loc y) 16 16
  -- squeeze the tag, lines 114-117
  overwriteBytes p (.loc kaStar) 0 16
  permute p G.sH
  extractBytes p 0 16

/-- `isap_enc` with its array `state` at `p` and that of `isap_rk` at `q`: `isapk128av20/ref/isap.c` lines 124-147.  The `memcpy` at
the end of `isap_rk`, which copies 34 bytes from one array to the other, reads them all before it writes them. -/
def isapEnc (G : Ref.Cfg) (p q k npub m : Ptr) (mlen : Nat) (c : Ptr) : CM Unit := do
  let key ← isapRk G q k (G.iv 3) (.ext npub) 16 (50 - 16)
  forN (50 - 16) 0 (fun i (_ : Unit) => store8 (p + i) (key.getD i 0)) ()
  overwriteBytes p (.ext npub) (50 - 16) 16
  let _ ← forN mlen 0 (fun i x => do
    let x ← refill G p G.sE x
    let ks ← extractBytes p (i % G.rHsz) 1
    let d ← load8 (m + i)
    store8 (c + i) (d ^^^ ks.getD 0 0)
    pure (x - 1)) 0
  pure ()

/-- Where the compiler puts the arrays: `isap_enc` and `isap_rk` called by it, `isap_mac` and `isap_rk` called by it.
`isapk128av20/ref/isap.c` lines 24, 58, 131. -/
structure Frame where
  /-- `state` of `isap_enc` -/
  enc : Ptr
  /-- `state` of `isap_rk`, called by `isap_enc` -/
  encRk : Ptr
  /-- `state` of `isap_mac` -/
  mac : Ptr
  /-- `state` of `isap_rk`, called by `isap_mac` -/
  macRk : Ptr

/-- The four arrays.  `isapk128av20/ref/isap.c` lines 24, 58, 131. -/
def Frame.arrays (F : Frame) : List Ptr := [F.enc, F.encRk, F.mac, F.macRk]

/-- The Keccak reference with its arrays at `F`.  `isapk128av20/ref/isap.c` lines 50-147. -/
def impl (G : Ref.Cfg) (F : Frame) : Impl :=
  { enc := isapEnc G F.enc F.encRk, mac := isapMac G F.mac F.macRk, tagAlign := 1 }

end Model.KeccakRef.In

namespace Model
open C

/-- The memories are the same except for the arrays of `n` bytes at the addresses in `L`.  No counterpart in `/repo`: used to state
that the caller sees no difference. -/
def SameOutside (n : Nat) (L : List Ptr) (s s' : St) : Prop :=
  ∀ b o, (∀ u ∈ L, ¬ InBuf u n b o) → s.mem b o = s'.mem b o

end Model
