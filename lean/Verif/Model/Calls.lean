import Verif.Model.Api
import Verif.C.Valid
/-!
# The public API: argument lists and valid calls
-/

namespace Model
open C

/-- Arguments of `crypto_aead_encrypt` (`crypto_aead.c` lines 5-13). -/
structure EncArgs where
  c : Ptr
  clen : Ptr
  m : Ptr
  mlen : Nat
  ad : Ptr
  adlen : Nat
  nsec : Ptr
  npub : Ptr
  k : Ptr

/-- Arguments of `crypto_aead_decrypt` (`crypto_aead.c` lines 29-37). -/
structure DecArgs where
  m : Ptr
  mlen : Ptr
  nsec : Ptr
  c : Ptr
  clen : Nat
  ad : Ptr
  adlen : Nat
  npub : Ptr
  k : Ptr

/-- An implementation of the AEAD API.  The two functions of `crypto_aead.c` lines 5-61. -/
structure Aead where
  encrypt : EncArgs → CM Int
  decrypt : DecArgs → CM Int

/-- The API of an implementation whose `crypto_aead.c` is the common one. -/
def Impl.aead (I : Impl) : Aead where
  encrypt a := Model.encrypt I a.c a.clen a.m a.mlen a.ad a.adlen a.nsec a.npub a.k
  decrypt a := Model.decrypt I a.m a.mlen a.nsec a.c a.clen a.ad a.adlen a.npub a.k

/-- A valid call of `crypto_aead_encrypt`: buffers of the documented sizes (no requirement on a pointer whose length is 0,
nor on `nsec`); the outputs do not overlap the inputs, except that `c` may be `m` or start before it.  No counterpart in
`/repo`: it says which calls of the function in `crypto_aead.c` lines 5-27 are considered. -/
structure ValidEnc (e : Env) (a : EncArgs) : Prop where
  k : Readable e a.k 16
  npub : Readable e a.npub 16
  ad : Readable e a.ad a.adlen
  m : Readable e a.m a.mlen
  c : Writable e a.c (a.mlen + 16)
  clen : Writable e a.clen 8
  adlen_lt : a.adlen < 2 ^ 64
  mlen_lt : a.mlen + 16 < 2 ^ 64
  c_m : OverlapOK a.c a.m a.mlen
  c_ad : Disjoint a.c (a.mlen + 16) a.ad a.adlen
  c_npub : Disjoint a.c (a.mlen + 16) a.npub 16
  c_k : Disjoint a.c (a.mlen + 16) a.k 16
  clen_c : Disjoint a.clen 8 a.c (a.mlen + 16)
  clen_m : Disjoint a.clen 8 a.m a.mlen
  clen_ad : Disjoint a.clen 8 a.ad a.adlen
  clen_npub : Disjoint a.clen 8 a.npub 16
  clen_k : Disjoint a.clen 8 a.k 16

/-- The inputs and the length cell of a valid call of `crypto_aead_decrypt`; nothing is said about `m`.  No counterpart in
`/repo`: it says which calls of the function in `crypto_aead.c` lines 29-61 are considered. -/
structure ValidDecIn (e : Env) (a : DecArgs) : Prop where
  k : Readable e a.k 16
  npub : Readable e a.npub 16
  ad : Readable e a.ad a.adlen
  c : Readable e a.c a.clen
  mlen : Writable e a.mlen 8
  adlen_lt : a.adlen < 2 ^ 64
  clen_lt : a.clen < 2 ^ 64
  clen_ge : 16 ≤ a.clen
  mlen_c : Disjoint a.mlen 8 a.c a.clen
  mlen_ad : Disjoint a.mlen 8 a.ad a.adlen
  mlen_npub : Disjoint a.mlen 8 a.npub 16
  mlen_k : Disjoint a.mlen 8 a.k 16

/-- A valid call of `crypto_aead_decrypt`; `m` may be `c` or start before it.  No counterpart in `/repo`: it says which
calls of the function in `crypto_aead.c` lines 29-61 are considered. -/
structure ValidDec (e : Env) (a : DecArgs) : Prop extends ValidDecIn e a where
  m : Writable e a.m (a.clen - 16)
  m_c : OverlapOK a.m a.c (a.clen - 16)
  mlen_m : Disjoint a.mlen 8 a.m (a.clen - 16)

/-- Limits of an implementation.  No counterpart in `/repo`: what the code does not say about the calls it supports. -/
structure Limits where
  /-- alignment requirement for the caller's buffers (1: none; 0: needs a platform that tolerates misaligned accesses) -/
  al : Nat
  /-- alignment requirement for the place of the tag in encryption -/
  tal : Nat
  /-- bound (exclusive) below which its length type does not truncate -/
  maxLen : Nat
  /-- number of bytes it may read of a buffer of `n` bytes of associated data or ciphertext -/
  ext : Nat → Nat

/-- Code that accesses memory by single bytes and takes 64-bit lengths.  For example `isapa128av20/ref/isap.c`. -/
abbrev Limits.byBytes : Limits := ⟨1, 1, 2 ^ 64, id⟩

/-- Code that accesses memory by words of 8 bytes, but stores the tag by bytes, and takes 64-bit lengths.  For example
`isapa128av20/opt_64/isap.c` lines 13, 58-62, 139-142. -/
abbrev Limits.byWords : Limits := ⟨8, 1, 2 ^ 64, id⟩
/-- Code that also stores the tag by 8-byte words.  For example `isapa128v20/opt_64/isap.c` lines 194-242. -/
abbrev Limits.byWordsTag : Limits := ⟨8, 8, 2 ^ 64, id⟩

/-- The call respects the limits of the implementation.  No counterpart in `/repo`: see `Limits`. -/
structure Limits.Enc (L : Limits) (e : Env) (a : EncArgs) : Prop where
  k : Aligned e L.al a.k 16
  npub : Aligned e L.al a.npub 16
  ad : Aligned e L.al a.ad a.adlen
  m : Aligned e L.al a.m a.mlen
  c : Aligned e L.al a.c a.mlen
  tag : Aligned e L.tal (a.c + a.mlen) 16
  adlen_lt : a.adlen < L.maxLen
  mlen_lt : a.mlen < L.maxLen
  over : Readable e a.ad (L.ext a.adlen)

/-- The call respects the limits of the implementation.  No counterpart in `/repo`: see `Limits`. -/
structure Limits.Dec (L : Limits) (e : Env) (a : DecArgs) : Prop where
  k : Aligned e L.al a.k 16
  npub : Aligned e L.al a.npub 16
  ad : Aligned e L.al a.ad a.adlen
  m : Aligned e L.al a.m (a.clen - 16)
  c : Aligned e L.al a.c (a.clen - 16)
  adlen_lt : a.adlen < L.maxLen
  clen_lt : a.clen - 16 < L.maxLen
  over : Readable e a.ad (L.ext a.adlen)

end Model
