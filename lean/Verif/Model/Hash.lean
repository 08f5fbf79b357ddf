import Verif.Model.Targets
/-!
# Model of `crypto_hash`

`isap.c` lines 195-224 of the optimized ISAP-A-128a implementations (stp variants: lines 245-274), compiled when
`ENABLE_HASH` is 1, as in `/repo/crypto_aead_hash/isapa128av20/*/config.h`.  All other files there are symbolic links to
`/repo/crypto_aead`, except for `opt_32_compact/asconp.h`, which defines one macro more (`ROTR`) than the original.
-/

namespace Model.Opt
open C

/-- `ASCON_HASH_IV`, `config.h` line 14. -/
def hashIV : List Byte := [0x00, 0x40, 0x0c, 0x00, 0x00, 0x00, 0x01, 0x00]

variable (D : Prims)

/-- One iteration of the squeezing loop, lines 213-221. -/
def squeezeStep (out : Ptr) (i : Nat) (s : State) : CM State := do
  store64 (out + 8 * i) (D.fromWord s.x0)
  let b ← branch (i < 3)
  if b then D.pH s else pure s

/-- `crypto_hash`, lines 197-224. -/
def cryptoHash (out inp : Ptr) (inlen : Nat) : CM Int := do
  let s ← D.pH ⟨D.toWord (le64 hashIV), 0, 0, 0, 0⟩
  let s ← absorbLanes D s inp inlen
  let _ ← forN 4 0 (squeezeStep D out) s
  pure 0

end Model.Opt

namespace Model
open C

/-- The macros of `asconp.h` for the implementations in `crypto_aead_hash/isapa128av20`. -/
def Target.hashPrims : Target → Option Opt.Prims
  | .a128aOpt64 => some Opt.Opt64.prims
  | .a128aOpt32 => some Opt.Opt32.prims
  | .a128aOpt32Compact => some Opt.Opt32.primsCompact
  | .a128aOpt32Tiny => some Opt.Opt32.primsTiny
  | .a128aOpt32Stp => some Opt.Opt32.primsStp.toPrims
  | .a128aOpt8 => some Opt.Opt8.prims
  | .a128aOpt8Tiny => some Opt.Opt8.primsTiny
  | .a128aBi8 => some Opt.Bi8.prims
  | .a128aBi32 => some Opt.Bi32.prims
  | .a128aBi32Compact => some Opt.Bi32.primsCompact
  | .a128aBi32Stp => some Opt.Bi32.primsStp.toPrims
  | .a128aBi32Armv6 => some Opt.Armv6.prims
  | .a128aBi32Armv6m => some Opt.Armv6m.prims
  | .a128aBi32Armv6mCompact => some Opt.Armv6m.primsCompact
  | .a128aBi32Armv6mStp => some Opt.Armv6m.primsStp.toPrims
  | .a128aBi32Armv7m => some Opt.Armv7m.prims
  | _ => none

/-- `crypto_hash`, for the implementations that have it.  `isap.c` lines 195-224 (stp variants: lines 245-274). -/
def Target.hash (t : Target) : Option (Ptr → Ptr → Nat → CM Int) := t.hashPrims.map Opt.cryptoHash

/-- Arguments of `crypto_hash`.  `isap.c` line 195. -/
structure HashArgs where
  out : Ptr
  inp : Ptr
  inlen : Nat

/-- A valid call: `inlen` readable bytes and 32 writable bytes, which may overlap in any way.  No counterpart in `/repo`:
it says which calls of the function in `isap.c` lines 195-224 are considered. -/
structure ValidHash (e : Env) (a : HashArgs) : Prop where
  inp : Readable e a.inp a.inlen
  out : Writable e a.out 32
  inlen_lt : a.inlen < 2 ^ 64

/-- `crypto_hash` accesses its buffers by words of 8 bytes.  `isap.c` lines 13, 216. -/
structure AlignedHash (e : Env) (a : HashArgs) : Prop where
  inp : Aligned e 8 a.inp a.inlen
  out : Aligned e 8 a.out 32

end Model
