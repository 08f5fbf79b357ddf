import Verif.Model.Api
/-!
# Model of the reference mode, `crypto_aead/*/ref/isap.c`

The four `ref/isap.c` files and the generic `isapxv20/ref/isap.c` are the same text up to the prefix of the permutation
functions; one model, parameterised by the constants of `isap.h` and by the permutation.
-/

namespace Model.Ref
open C

/-- Constants of `ref/isap.h` and the permutation the file is linked with. -/
structure Cfg where
  /-- `ISAP_STATE_SZ` -/
  stateSz : Nat
  /-- `ISAP_rH` (bits) -/
  rH : Nat
  sH : Nat
  sB : Nat
  sE : Nat
  sK : Nat
  /-- `X_Permute_Nrounds(state, rounds)`; may fail an assertion -/
  permute : List Byte → Nat → CM (List Byte)

/-- `ISAP_rH_SZ`, `ref/isap.h` line 18: `((ISAP_rH+7)/8)` -/
def Cfg.rHsz (G : Cfg) : Nat := (G.rH + 7) / 8

/-- `ISAP_IV_A`, `ISAP_IV_KA`, `ISAP_IV_KE`: `ref/isap.c` lines 7-9 (`tag` = 1, 2, 3; `ISAP_K` = 128, `ISAP_rB` = 1). -/
def Cfg.iv (G : Cfg) (tag : Nat) : List Byte :=
  [tag, 128, G.rH, 1, G.sH, G.sB, G.sE, G.sK].map (BitVec.ofNat 8)

/-- `X_AddBytes`: `ref/Ascon-reference.c` lines 38-45, `ref/KeccakP-400-reference.c` lines 78-86. -/
def addBytes (G : Cfg) (state : List Byte) (data : Src) (offset length : Nat) : CM (List Byte) := do
  assert (offset < G.stateSz)
  assert (offset + length ≤ G.stateSz)
  forN length 0 (fun i st => do
    let d ← data.get i
    pure (st.modify (offset + i) (· ^^^ d))) state

/-- `X_OverwriteBytes`: `ref/Ascon-reference.c` lines 49-56, `ref/KeccakP-400-reference.c` lines 90-95
(the latter's `memcpy` is modelled by the byte loop). -/
def overwriteBytes (G : Cfg) (state : List Byte) (data : Src) (offset length : Nat) : CM (List Byte) := do
  assert (offset < G.stateSz)
  assert (offset + length ≤ G.stateSz)
  forN length 0 (fun i st => do
    let d ← data.get i
    pure (st.set (offset + i) d)) state

/-- `X_ExtractBytes`: `ref/Ascon-reference.c` lines 97-101, `ref/KeccakP-400-reference.c` lines 219-224; returns the bytes
copied to `data` (always a local variable in `isap.c` or the final tag). -/
def extractBytes (G : Cfg) (state : List Byte) (offset length : Nat) : CM (List Byte) := do
  assert (offset < G.stateSz)
  assert (offset + length ≤ G.stateSz)
  pure ((state.drop offset).take length)

/-- `((in >> pos) & 0x01) << 7` as an `unsigned char`: `ref/isap.c` lines 34, 38. -/
def curBit (b : Byte) (pos : Nat) : Byte := ((b >>> pos) &&& 0x01) <<< 7

/-- `isap_rk`: `ref/isap.c` lines 15-44.  Returns the `outlen` bytes stored in `out`. -/
def isapRk (G : Cfg) (k : Ptr) (iv : List Byte) (inp : Src) (inlen outlen : Nat) : CM (List Byte) := do
  let state := List.replicate G.stateSz (0 : Byte)
  let state ← addBytes G state (.ext k) 0 16
  let state ← addBytes G state (.loc iv) 16 8
  let state ← G.permute state G.sK
  let state ← forN (inlen * 8 - 1) 0 (fun i state => do
    let b ← inp.get (i / 8)
    let state ← addBytes G state (.loc [curBit b (7 - i % 8)]) 0 1
    G.permute state G.sB) state
  let b ← inp.get (inlen - 1)
  let state ← addBytes G state (.loc [curBit b 0]) 0 1
  let state ← G.permute state G.sK
  extractBytes G state 0 outlen

/-- `if(avail == 0){ permute(state, rounds); avail = ISAP_rH_SZ; }`: `ref/isap.c` lines 68-71, 78-81, 97-100, 137-140. -/
def refill (G : Cfg) (rounds : Nat) (state : List Byte) (avail : Nat) : CM (List Byte × Nat) := do
  let b ← branch (avail = 0)
  if b then do
    let st ← G.permute state rounds
    pure (st, G.rHsz)
  else pure (state, avail)

/-- Absorption of the associated data: `ref/isap.c` lines 64-75; the local variables `x` are `state` and
`rate_bytes_avail`. -/
def absorbAd (G : Cfg) (state : List Byte) (ad : Ptr) (adlen : Nat) : CM (List Byte × Nat) :=
  forN adlen 0 (fun i x => do
    let x ← refill G G.sH x.1 x.2
    let d ← load8 (ad + i)
    let state ← addBytes G x.1 (.loc [d]) (G.rHsz - x.2) 1
    pure (state, x.2 - 1)) (state, G.rHsz)

/-- Absorption of the ciphertext: `ref/isap.c` lines 90-101. -/
def absorbC (G : Cfg) (state : List Byte) (c : Ptr) (clen : Nat) : CM (List Byte × Nat) :=
  forN clen 0 (fun i x => do
    let d ← load8 (c + i)
    let state ← addBytes G x.1 (.loc [d]) (G.rHsz - x.2) 1
    refill G G.sH state (x.2 - 1)) (state, G.rHsz)

/-- `isap_mac`: `ref/isap.c` lines 50-118. -/
def isapMac (G : Cfg) (k npub ad : Ptr) (adlen : Nat) (c : Ptr) (clen : Nat) : CM (List Byte) := do
  let state := List.replicate G.stateSz (0 : Byte)
  let state ← addBytes G state (.ext npub) 0 16
  let state ← addBytes G state (.loc (G.iv 1)) 16 8
  let state ← G.permute state G.sH
  -- absorb AD, lines 64-84
  let x ← absorbAd G state ad adlen
  let x ← refill G G.sH x.1 x.2
  let state ← addBytes G x.1 (.loc [0x80]) (G.rHsz - x.2) 1
  let state ← G.permute state G.sH
  -- domain separation, lines 86-88
  let state ← addBytes G state (.loc [0x01]) (G.stateSz - 1) 1
  -- absorb C, lines 90-106
  let x ← absorbC G state c clen
  let state ← addBytes G x.1 (.loc [0x80]) (G.rHsz - x.2) 1
  let state ← G.permute state G.sH
  -- derive Ka*, lines 108-112
  let y ← extractBytes G state 0 16
  let kaStar ← isapRk G k (G.iv 2) (.loc y) 16 16
  -- squeeze the tag, lines 114-117
  let state ← overwriteBytes G state (.loc kaStar) 0 16
  let state ← G.permute state G.sH
  extractBytes G state 0 16

/-- `isap_enc`: `ref/isap.c` lines 124-147.  The first `STATE_SZ - 16` bytes of `state` come from `isap_rk`; the remaining
16 (indeterminate at that point in C, zero here) are overwritten before they are used. -/
def isapEnc (G : Cfg) (k npub m : Ptr) (mlen : Nat) (c : Ptr) : CM Unit := do
  let key ← isapRk G k (G.iv 3) (.ext npub) 16 (G.stateSz - 16)
  let state := key ++ List.replicate 16 (0 : Byte)
  let state ← overwriteBytes G state (.ext npub) (G.stateSz - 16) 16
  let _ ← forN mlen 0 (fun i x => do
    let x ← refill G G.sE x.1 x.2
    let ks ← extractBytes G x.1 (i % G.rHsz) 1
    let d ← load8 (m + i)
    store8 (c + i) (d ^^^ ks.getD 0 0)
    pure (x.1, x.2 - 1)) (state, 0)
  pure ()

/-- The reference implementation for a configuration.  `ref/isap.c` lines 50-147. -/
def impl (G : Cfg) : Impl := { enc := isapEnc G, mac := isapMac G, tagAlign := 1 }

end Model.Ref
