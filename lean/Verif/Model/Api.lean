import Verif.C.Mem
/-!
# Model of `crypto_aead.c`

The file is the same text for every implementation except `isapa128av20/avx_512` (fused encryption) and the stp variants
(own decryption); those are modelled separately.  The functions `isap_enc` and `isap_mac` are parameters.
-/

namespace Model
open C

/-- The two functions `crypto_aead.c` gets from `isap.c`. -/
structure Impl where
  /-- `isap_enc(k, npub, m, mlen, c)` -/
  enc : (k npub m : Ptr) → (mlen : Nat) → (c : Ptr) → CM Unit
  /-- `isap_mac(k, npub, ad, adlen, c, clen, tag)`: returns the 16 bytes it stores in `*tag` as its last action -/
  mac : (k npub ad : Ptr) → (adlen : Nat) → (c : Ptr) → (clen : Nat) → CM (List Byte)
  /-- width of the stores through `tag` (16 bytes by `memcpy` = 1, `uint64_t` stores = 8, ...) -/
  tagAlign : Nat

/-- Stores to `tag`: as single stores of `al` bytes.  For example `memcpy(tag + 0, t0.b, 8)` in
`isapa128av20/opt_64/isap.c` lines 139-142. -/
def storeTag (al : Nat) (p : Ptr) (tag : List Byte) : CM Unit :=
  forN (16 / al) 0 (fun i (_ : Unit) => store al (p + al * i) ((tag.drop (al * i)).take al)) ()

/-- `crypto_aead_encrypt`, `crypto_aead/isapa128av20/opt_64/crypto_aead.c` lines 5-27 (same text in the other
directories).  `nsec` is unused.  The addition in `*clen = mlen + 16` is modulo `2^64` (`storeLen`). -/
def encrypt (I : Impl) (c clen m : Ptr) (mlen : Nat) (ad : Ptr) (adlen : Nat) (_nsec npub k : Ptr) : CM Int := do
  storeLen clen (mlen + 16)
  ifThen (mlen > 0) (I.enc k npub m mlen c)
  let tag ← I.mac k npub ad adlen c mlen
  storeTag I.tagAlign (c + mlen) tag
  pure 0

/-- `crypto_aead_decrypt`, `crypto_aead/isapa128av20/opt_64/crypto_aead.c` lines 29-61.  `*mlen` is re-read from memory
wherever the code does; `clen - 16` is modulo `2^64`.  The local array `tag[16]` is a Lean value. -/
def decrypt (I : Impl) (m mlen _nsec c : Ptr) (clen : Nat) (ad : Ptr) (adlen : Nat) (npub k : Ptr) : CM Int := do
  storeLen mlen (clen + (2 ^ 64 - 16))
  let l ← loadLen mlen
  let tag ← I.mac k npub ad adlen c l
  let eqCnt ← forN 16 0 (fun i (cnt : Nat) => do
    let l ← loadLen mlen
    let b ← load8 (c + (l + i))
    pure (cnt + if tag.getD i 0 = b then 1 else 0)) 0
  let ok ← branch (eqCnt = 16)
  if ok then
    let l ← loadLen mlen
    ifThen (l > 0) do
      let l ← loadLen mlen
      I.enc k npub c l m
    pure 0
  else
    pure (-1)

end Model
