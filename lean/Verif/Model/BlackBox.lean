import Verif.Model.Targets
/-!
# The mode code linked with another permutation

The files `isap.c` call the permutation through macros or functions that other files (`asconp.h`, `Ascon-reference.c`,
`KeccakP-400-*.c`, ...) define, or that are defined at the top of the file itself.  Here these are replaced by an arbitrary
function on strings of `n` bytes: the words of the state, in the representation of the implementation, are converted to
bytes, the function is applied, and the result is converted back.  Everything else is the code of `Model.Targets`.
-/

namespace Model
open C

namespace Opt

/-- The bytes of a state whose lanes are converted by `fromWord`.  Loads and stores as in `isapa128av20/opt_64/isap.c`
lines 58-62, 139-142. -/
def stateBytes (fromWord : BitVec 64 → BitVec 64) (S : State) : List Byte :=
  toLe64 (fromWord S.x0) ++ toLe64 (fromWord S.x1) ++ toLe64 (fromWord S.x2) ++ toLe64 (fromWord S.x3) ++ toLe64 (fromWord S.x4)

/-- The state with lanes converted by `toWord` from its bytes.  Loads as in `isapa128av20/opt_64/isap.c` lines 58-62. -/
def bytesState (toWord : BitVec 64 → BitVec 64) (b : List Byte) : State :=
  ⟨toWord (le64 (b.take 8)), toWord (le64 ((b.drop 8).take 8)), toWord (le64 ((b.drop 16).take 8)),
   toWord (le64 ((b.drop 24).take 8)), toWord (le64 ((b.drop 32).take 8))⟩

/-- A function on bytes as a function on lanes.  No counterpart in `/repo`: a permutation given on bytes, used where
`P_sH`, ... stand in `isapa128av20/opt_64/isap.c`. -/
def onLanes (toWord fromWord : BitVec 64 → BitVec 64) (f : List Byte → List Byte) (S : State) : State :=
  bytesState toWord (f (stateBytes fromWord S))

/-- `P_sH`, `P_sB`, `P_sE`, `P_sK` replaced by `perm 12`, `perm 1`, `perm 6`, `perm 12`.  `isapa128av20/opt_64/asconp.h`
lines 24-27. -/
def Prims.linked (D : Prims) (perm : Nat → List Byte → List Byte) : Prims :=
  { D with
    pH := fun S => pure (onLanes D.toWord D.fromWord (perm 12) S)
    pB := fun S => pure (onLanes D.toWord D.fromWord (perm 1) S)
    pE := fun S => pure (onLanes D.toWord D.fromWord (perm 6) S)
    pK := fun S => pure (onLanes D.toWord D.fromWord (perm 12) S) }

/-- ... and `P_PVP` by `perm 7`.  `isapa128av20/bi_32_stp/asconp.h` line 28. -/
def StpPrims.linked (D : StpPrims) (perm : Nat → List Byte → List Byte) : StpPrims :=
  { D.toPrims.linked perm with pPVP := fun S => pure (onLanes D.toWord D.fromWord (perm 7) S) }

end Opt

namespace A128

/-- opt_64: `P12`.  `isapa128v20/opt_64/isap.c` lines 75-101. -/
def Opt64.Cfg.linked (D : Opt64.Cfg) (perm : Nat → List Byte → List Byte) : Opt64.Cfg :=
  { D with
    pH := Opt.onLanes Opt64.u64big Opt64.u64big (perm 12)
    pB := Opt.onLanes Opt64.u64big Opt64.u64big (perm 12)
    pE := Opt.onLanes Opt64.u64big Opt64.u64big (perm 12) }

/-- opt_32, opt_32_armv67m: both forms of the permutation.  `isapa128v20/opt_32/isap.c` lines 9-12, `opt_32_armv67m/isap.c`
lines 9-15. -/
def Opt32.linked (perm : Nat → List Byte → List Byte) : Opt32.Prims :=
  ⟨fun S => pure (Opt.onLanes Opt32.toWord Opt32.fromWord (perm 12) S),
   fun S => pure (Opt.onLanes Opt32.toWord Opt32.fromWord (perm 12) S)⟩

end A128

namespace K128

/-- On the first 50 bytes of the object representation of the state.  `union State`, `isapk128av20/opt_64/isap.c` lines
18-49, `avx512/isap.c` lines 19-51. -/
def onFront (f : List Byte → List Byte) (S : List Byte) : List Byte := f (S.take 50) ++ S.drop 50

/-- `PermuteRoundsHX`, ... replaced by `perm` with the round numbers `h`, `b`, `e`, `k`.  `isapk128av20/opt_64/isap.c`
lines 51-54. -/
def Prims.linked (D : Prims) (h b e k : Nat) (perm : Nat → List Byte → List Byte) : Prims :=
  { D with pH := onFront (perm h), pB := onFront (perm b), pE := onFront (perm e), pK := onFront (perm k) }

/-- `KeccakP400_Permute_Nrounds` replaced by `perm`.  Called in `isapk128av20/opt_32_armv7m/isap.c` lines 27, 35, 39. -/
def Arm.Prims.linked (D : Arm.Prims) (perm : Nat → List Byte → List Byte) : Arm.Prims :=
  { D with permute := fun n A => pure (KeccakRef.words (perm n (KeccakRef.unwords A))) }

end K128

/-- `X_Permute_Nrounds` replaced by `perm`.  Called in `isapa128av20/ref/isap.c` lines 28, 36, 40. -/
def Ref.Cfg.linked (G : Ref.Cfg) (perm : Nat → List Byte → List Byte) : Ref.Cfg :=
  { G with permute := fun S n => pure (perm n S) }

/-- The functions `crypto_aead_encrypt`, `crypto_aead_decrypt` of an implementation linked with another permutation.  This does
not make sense for `isapa128av20/avx_512`, in which `crypto_aead_encrypt` works on the halves of a 12-round permutation,
together with two 6-round permutations of another state.  `crypto_aead.c` lines 5-61. -/
def Target.aeadWith (perm : Nat → List Byte → List Byte) : Target → Option Aead
  | .ref p => some (Ref.impl (p.cfg.linked perm)).aead
  | .x p => some (Ref.impl (p.cfg.linked perm)).aead
  | .a128aOpt64 => some (Opt.impl (Opt.Opt64.prims.linked perm)).aead
  | .a128aOpt32 => some (Opt.impl (Opt.Opt32.prims.linked perm)).aead
  | .a128aOpt32Compact => some (Opt.impl (Opt.Opt32.primsCompact.linked perm)).aead
  | .a128aOpt32Tiny => some (Opt.impl (Opt.Opt32.primsTiny.linked perm)).aead
  | .a128aOpt32Stp => some (Opt.Stp.aead (Opt.Opt32.primsStp.linked perm))
  | .a128aOpt8 => some (Opt.impl (Opt.Opt8.prims.linked perm)).aead
  | .a128aOpt8Tiny => some (Opt.impl (Opt.Opt8.primsTiny.linked perm)).aead
  | .a128aBi8 => some (Opt.impl (Opt.Bi8.prims.linked perm)).aead
  | .a128aBi32 => some (Opt.impl (Opt.Bi32.prims.linked perm)).aead
  | .a128aBi32Compact => some (Opt.impl (Opt.Bi32.primsCompact.linked perm)).aead
  | .a128aBi32Stp => some (Opt.Stp.aead (Opt.Bi32.primsStp.linked perm))
  | .a128aBi32Armv6 => some (Opt.impl (Opt.Armv6.prims.linked perm)).aead
  | .a128aBi32Armv6m => some (Opt.impl (Opt.Armv6m.prims.linked perm)).aead
  | .a128aBi32Armv6mCompact => some (Opt.impl (Opt.Armv6m.primsCompact.linked perm)).aead
  | .a128aBi32Armv6mStp => some (Opt.Stp.aead (Opt.Armv6m.primsStp.linked perm))
  | .a128aBi32Armv7m => some (Opt.impl (Opt.Armv7m.prims.linked perm)).aead
  | .a128aAvx512 _ => none
  | .a128Opt64 d => some (A128.Opt64.impl ((A128.Opt64.cfg d).linked perm)).aead
  | .a128Opt32 => some (A128.Opt32.impl (A128.Opt32.linked perm)).aead
  | .a128Opt32Armv67m => some (A128.Opt32.impl (A128.Opt32.linked perm)).aead
  | .k128aOpt64 => some (K128.impl (K128.Opt64.primsK128a.linked 16 1 8 8 perm)).aead
  | .k128Opt64 => some (K128.impl (K128.Opt64.primsK128.linked 20 12 12 12 perm)).aead
  | .k128aAvx512 j => some (K128.impl ((K128.Avx.prims j).linked 16 1 8 8 perm)).aead
  | .k128aOpt32Armv6m => some (K128.Arm.impl (K128.Arm.primsK128aV6.linked perm)).aead
  | .k128aOpt32Armv7m => some (K128.Arm.impl (K128.Arm.primsK128aV7.linked perm)).aead
  | .k128Opt32Armv6m => some (K128.Arm.impl (K128.Arm.primsK128V6.linked perm)).aead
  | .k128Opt32Armv7m => some (K128.Arm.impl (K128.Arm.primsK128V7.linked perm)).aead

end Model
