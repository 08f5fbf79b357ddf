import Verif.Spec.Isap
import Verif.Model.AsconRef
import Verif.Model.KeccakRef
import Verif.Model.Stp
import Verif.Model.A128
import Verif.Model.A128aAvx
import Verif.Model.K128
import Verif.Model.K128Arm
/-!
# The implementations in the repository

Every constructor is a directory below `/repo/crypto_aead` (for `x`: `isapxv20/ref`, compiled for one of the four parameter
sets).  The variants in `/repo/crypto_aead_hash` have the same source files except for `config.h`.
-/

namespace Model
open C

/-- The four parameter sets of ISAP v2.0.  The directories `crypto_aead/isapa128av20`, `isapa128v20`, `isapk128av20`,
`isapk128v20`; in `isapxv20/ref/isap.h` a choice of macros. -/
inductive ParamSet where
  | a128a
  | a128
  | k128a
  | k128
deriving DecidableEq

/-- Their specification.  No counterpart in `/repo`: the specification is independent of the code; the numbers also stand
in `isap.h`. -/
def ParamSet.spec : ParamSet → Spec.Params
  | .a128a => Spec.isapA128a
  | .a128 => Spec.isapA128
  | .k128a => Spec.isapK128a
  | .k128 => Spec.isapK128

/-- The configuration of the reference code.  `ref/isap.h` and `ref/isap.c` lines 7-9. -/
def ParamSet.cfg : ParamSet → Ref.Cfg
  | .a128a => AsconRef.cfgA128a
  | .a128 => AsconRef.cfgA128
  | .k128a => KeccakRef.cfgK128a
  | .k128 => KeccakRef.cfgK128

/-- Implementations.  One for every directory in `crypto_aead`; those in `crypto_aead_hash` have the same `isap.c` and
`asconp.h`. -/
inductive Target where
  /-- `isap*v20/ref` -/
  | ref (p : ParamSet)
  /-- `isapxv20/ref`; the wrappers in `permutation.c` are inlined, `DEBUG` is 0 -/
  | x (p : ParamSet)
  /-- `isapa128av20/opt_64`, ... -/
  | a128aOpt64
  | a128aOpt32
  | a128aOpt32Compact
  | a128aOpt32Tiny
  | a128aOpt32Stp
  | a128aOpt8
  | a128aOpt8Tiny
  | a128aBi8
  | a128aBi32
  | a128aBi32Compact
  | a128aBi32Stp
  | a128aBi32Armv6
  | a128aBi32Armv6m
  | a128aBi32Armv6mCompact
  | a128aBi32Armv6mStp
  | a128aBi32Armv7m
  | a128aAvx512 (d : DataModel)
  /-- `isapa128v20/opt_64`, ... -/
  | a128Opt64 (d : DataModel)
  | a128Opt32
  | a128Opt32Armv67m
  /-- `isapk128av20/opt_64`, `isapk128v20/opt_64` -/
  | k128aOpt64
  | k128Opt64
  /-- `isapk128av20/avx512`; `j` is what its uninitialized lanes contain -/
  | k128aAvx512 (j : K128.Avx.Junk)
  /-- `isapk128av20/opt_32_armv6m`, ... -/
  | k128aOpt32Armv6m
  | k128aOpt32Armv7m
  | k128Opt32Armv6m
  | k128Opt32Armv7m
deriving DecidableEq

namespace Target

/-- The parameter set an implementation is meant for.  The directory it is in. -/
def set : Target → ParamSet
  | ref p | x p => p
  | a128Opt64 _ | a128Opt32 | a128Opt32Armv67m => .a128
  | k128aOpt64 | k128aAvx512 _ | k128aOpt32Armv6m | k128aOpt32Armv7m => .k128a
  | k128Opt64 | k128Opt32Armv6m | k128Opt32Armv7m => .k128
  | _ => .a128a

/-- The functions `crypto_aead_encrypt`, `crypto_aead_decrypt`.  `crypto_aead.c` lines 5-61. -/
def aead : Target → Aead
  | ref p => (Ref.impl p.cfg).aead
  | x p => (Ref.impl p.cfg).aead
  | a128aOpt64 => (Opt.impl Opt.Opt64.prims).aead
  | a128aOpt32 => (Opt.impl Opt.Opt32.prims).aead
  | a128aOpt32Compact => (Opt.impl Opt.Opt32.primsCompact).aead
  | a128aOpt32Tiny => (Opt.impl Opt.Opt32.primsTiny).aead
  | a128aOpt32Stp => Opt.Stp.aead Opt.Opt32.primsStp
  | a128aOpt8 => (Opt.impl Opt.Opt8.prims).aead
  | a128aOpt8Tiny => (Opt.impl Opt.Opt8.primsTiny).aead
  | a128aBi8 => (Opt.impl Opt.Bi8.prims).aead
  | a128aBi32 => (Opt.impl Opt.Bi32.prims).aead
  | a128aBi32Compact => (Opt.impl Opt.Bi32.primsCompact).aead
  | a128aBi32Stp => Opt.Stp.aead Opt.Bi32.primsStp
  | a128aBi32Armv6 => (Opt.impl Opt.Armv6.prims).aead
  | a128aBi32Armv6m => (Opt.impl Opt.Armv6m.prims).aead
  | a128aBi32Armv6mCompact => (Opt.impl Opt.Armv6m.primsCompact).aead
  | a128aBi32Armv6mStp => Opt.Stp.aead Opt.Armv6m.primsStp
  | a128aBi32Armv7m => (Opt.impl Opt.Armv7m.prims).aead
  | a128aAvx512 d => A128.Avx.aead d
  | a128Opt64 d => (A128.Opt64.impl (A128.Opt64.cfg d)).aead
  | a128Opt32 => (A128.Opt32.impl A128.Opt32.prims).aead
  | a128Opt32Armv67m => (A128.Opt32.impl A128.Opt32.primsArm).aead
  | k128aOpt64 => (K128.impl K128.Opt64.primsK128a).aead
  | k128Opt64 => (K128.impl K128.Opt64.primsK128).aead
  | k128aAvx512 j => (K128.impl (K128.Avx.prims j)).aead
  | k128aOpt32Armv6m => (K128.Arm.impl K128.Arm.primsK128aV6).aead
  | k128aOpt32Armv7m => (K128.Arm.impl K128.Arm.primsK128aV7).aead
  | k128Opt32Armv6m => (K128.Arm.impl K128.Arm.primsK128V6).aead
  | k128Opt32Armv7m => (K128.Arm.impl K128.Arm.primsK128V7).aead

/-- Is it one of the variants that compare tags through the permutation?  `isap.c` of these defines `pvp`, lines 157-193. -/
def stp : Target → Bool
  | a128aOpt32Stp | a128aBi32Stp | a128aBi32Armv6mStp => true
  | _ => false

/-- Does it implement its parameter set?  bi_32_armv7m does not: see `Opt.Armv7m`.  `bi_32_armv7m/asconp.h` lines 95-162. -/
def conforming : Target → Bool
  | a128aBi32Armv7m => false
  | _ => true

/-- Limits under which an implementation works: the reference code accesses memory by single bytes and takes 64-bit lengths;
the optimized versions access it by 8-byte words.  Those of ISAP-A-128 also store the tag by 8-byte words.  Those of
ISAP-K-128(a) for 64-bit platforms read 8-byte words at every even address, so that no alignment of the buffers avoids
misaligned accesses; they also read up to 6 bytes beyond a buffer.  Those for ARM take lengths modulo `2 ^ 32`.  The AVX-512
version of ISAP-A-128a also stores the tag by words, and keeps the length of the message in a signed 64-bit variable.  It and
the 64-bit version of ISAP-A-128 have lengths and indices of type `unsigned long`. They follow from the types and casts in the
files `isap.c`. -/
def limits : Target → Limits
  | ref _ | x _ => .byBytes
  | a128Opt32 | a128Opt32Armv67m => .byWordsTag
  | a128Opt64 d => ⟨8, 8, d.ulong, id⟩
  | a128aAvx512 d => ⟨8, 8, min (2 ^ 63) d.ulong, id⟩
  | k128aOpt64 | k128Opt64 => ⟨0, 2, 2 ^ 64, K128.Opt64.ext⟩
  | k128aAvx512 _ => ⟨2, 1, 2 ^ 64, id⟩
  | k128aOpt32Armv6m | k128aOpt32Armv7m | k128Opt32Armv6m | k128Opt32Armv7m => ⟨2, 1, 2 ^ 32, id⟩
  | _ => .byWords

end Target
end Model
