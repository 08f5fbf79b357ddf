import Verif.Model.BoundsRef
import Verif.Model.BoundsA128
import Verif.Model.BoundsK128
import Verif.Model.Hash
/-!
# The implementations with checked accesses to their arrays and tables
-/

namespace Model
open C

/-- The configuration of the reference code.  `ref/isap.c` lines 7-9, `ref/isap.h`. -/
def ParamSet.cfgChk : ParamSet → Ref.Chk.Cfg
  | .a128a => AsconRef.Chk.cfgA128a
  | .a128 => AsconRef.Chk.cfgA128
  | .k128a => KeccakRef.Chk.cfgK128a
  | .k128 => KeccakRef.Chk.cfgK128

namespace Target

/-- As `Target.aead`, with checked accesses.  `crypto_aead.c` lines 5-61. -/
def aeadChk : Target → Aead
  | ref p => Chk.aead (Ref.Chk.impl p.cfgChk)
  | x p => Chk.aead (Ref.Chk.impl p.cfgChk)
  | a128aOpt64 => Chk.aead (Opt.Chk.impl Opt.Opt64.prims)
  | a128aOpt32 => Chk.aead (Opt.Chk.impl Opt.Opt32.prims)
  | a128aOpt32Compact => Chk.aead (Opt.Chk.impl Opt.Opt32.primsCompact)
  | a128aOpt32Tiny => Chk.aead (Opt.Chk.impl Opt.Opt32.primsTiny)
  | a128aOpt32Stp => Opt.Stp.Chk.aead Opt.Opt32.primsStp
  | a128aOpt8 => Chk.aead (Opt.Chk.impl Opt.Opt8.prims)
  | a128aOpt8Tiny => Chk.aead (Opt.Chk.impl Opt.Opt8.primsTiny)
  | a128aBi8 => Chk.aead (Opt.Chk.impl Opt.Bi8.prims)
  | a128aBi32 => Chk.aead (Opt.Chk.impl Opt.Bi32.prims)
  | a128aBi32Compact => Chk.aead (Opt.Chk.impl Opt.Bi32.primsCompact)
  | a128aBi32Stp => Opt.Stp.Chk.aead Opt.Bi32.primsStp
  | a128aBi32Armv6 => Chk.aead (Opt.Chk.impl Opt.Armv6.prims)
  | a128aBi32Armv6m => Chk.aead (Opt.Chk.impl Opt.Armv6m.prims)
  | a128aBi32Armv6mCompact => Chk.aead (Opt.Chk.impl Opt.Armv6m.primsCompact)
  | a128aBi32Armv6mStp => Opt.Stp.Chk.aead Opt.Armv6m.primsStp
  | a128aBi32Armv7m => Chk.aead (Opt.Chk.impl Opt.Armv7m.prims)
  | a128aAvx512 d => A128.Avx.Chk.aead d
  | a128Opt64 d => Chk.aead (A128.Opt64.Chk.impl (A128.Opt64.cfg d))
  | a128Opt32 => Chk.aead (A128.Opt32.Chk.impl A128.Opt32.Chk.prims)
  | a128Opt32Armv67m => Chk.aead (A128.Opt32.Chk.impl A128.Opt32.Chk.primsArm)
  | k128aOpt64 => Chk.aead (K128.Chk.impl K128.Chk.primsK128a)
  | k128Opt64 => Chk.aead (K128.Chk.impl K128.Chk.primsK128)
  | k128aAvx512 j => Chk.aead (K128.Chk.impl (K128.Chk.primsAvx j))
  | k128aOpt32Armv6m => Chk.aead (K128.Arm.Chk.impl K128.Arm.Chk.primsK128aV6)
  | k128aOpt32Armv7m => Chk.aead (K128.Arm.Chk.impl K128.Arm.Chk.primsK128aV7)
  | k128Opt32Armv6m => Chk.aead (K128.Arm.Chk.impl K128.Arm.Chk.primsK128V6)
  | k128Opt32Armv7m => Chk.aead (K128.Arm.Chk.impl K128.Arm.Chk.primsK128V7)

/-- As `Target.hash`, with checked accesses.  `isapa128av20/opt_64/isap.c` lines 195-224. -/
def hashChk (t : Target) : Option (Ptr → Ptr → Nat → CM Int) := t.hashPrims.map Opt.Chk.cryptoHash

end Target
end Model
