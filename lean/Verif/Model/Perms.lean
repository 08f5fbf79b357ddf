import Verif.Model.Targets
/-!
# The permutations of all implementations

For every implementation the list of the permutations in its code, as functions on the bytes of the state: the lanes are
loaded from bytes the way the code loads a block of the message, and stored the way it stores the tag.
-/

namespace Model
open C

/-- A permutation on five lanes (`U64TOWORD` on each loaded lane, then the permutation, then `WORDTOU64`), for example
`isapa128av20/opt_64/isap.c` lines 84-97 and 115-116. -/
def onBytes (toWord fromWord : BitVec 64 → BitVec 64) (f : Opt.State → CM Opt.State) (B : List Byte) : CM (List Byte) := do
  let S ← f ⟨toWord (le64 (B.take 8)), toWord (le64 ((B.drop 8).take 8)), toWord (le64 ((B.drop 16).take 8)),
    toWord (le64 ((B.drop 24).take 8)), toWord (le64 ((B.drop 32).take 8))⟩
  pure (toLe64 (fromWord S.x0) ++ toLe64 (fromWord S.x1) ++ toLe64 (fromWord S.x2) ++ toLe64 (fromWord S.x3) ++
    toLe64 (fromWord S.x4))

/-- A permutation of the code with its number of rounds.  No counterpart in `/repo`: it lists what the files `asconp.h`,
`isap.c` and `*-reference.c` define. -/
abbrev Perms := List (Nat × (List Byte → CM (List Byte)))

/-- `P_sH`, `P_sB`, `P_sE`, `P_sK` of an optimized ISAP-A-128a implementation: `isapa128av20/opt_64/asconp.h` lines 24-27. -/
def Opt.Prims.perms (D : Opt.Prims) : Perms :=
  [(12, onBytes D.toWord D.fromWord D.pH), (1, onBytes D.toWord D.fromWord D.pB), (6, onBytes D.toWord D.fromWord D.pE),
   (12, onBytes D.toWord D.fromWord D.pK)]

/-- Those and `P_PVP`: `isapa128av20/bi_32_stp/asconp.h` lines 24-28. -/
def Opt.StpPrims.perms (D : Opt.StpPrims) : Perms :=
  D.toPrims.perms ++ [(7, onBytes D.toWord D.fromWord D.pPVP)]

/-- `PROUNDS(s, nr)` of `isapa128av20/opt_32_tiny/asconp.h` lines 91-99 (opt_8_tiny: lines 152-160) for all `nr` from 1 to 12. -/
def Opt.tinyPerms (D : Opt.Prims) (round : Opt.State → Byte → Opt.State) : Perms :=
  D.perms ++ (List.range 12).map fun i => (i + 1, onBytes D.toWord D.fromWord (Opt.tinyRounds round (i + 1)))

/-- The permutations of an optimized ISAP-K implementation (`isapk128av20/opt_64/isap.c` lines 8-10, 51-54).  The state may be
followed by further bytes in a register: its unused lanes. -/
def K128.Prims.perms (D : K128.Prims) (sH sB sE sK : Nat) : Perms :=
  [(sH, fun B => pure ((D.pH (B ++ D.padMac)).take 50)), (sB, fun B => pure ((D.pB (B ++ D.padRk 2)).take 50)),
   (sE, fun B => pure ((D.pE (B ++ D.padEnc)).take 50)), (sK, fun B => pure ((D.pK (B ++ D.padRk 2)).take 50)),
   (sB, fun B => pure ((D.pB (B ++ D.padRk 3)).take 50)), (sK, fun B => pure ((D.pK (B ++ D.padRk 3)).take 50))]

/-- All permutations of an implementation.  Each is cited at its definition with its lines in `asconp.h`, `isap.c` or the
reference files. -/
def Target.perms : Target → Perms
  | ref .a128a | x .a128a | ref .a128 | x .a128 => (List.range 13).map fun n => (n, fun B => AsconRef.permute B n)
  | ref .k128a | x .k128a | ref .k128 | x .k128 => (List.range 21).map fun n => (n, fun B => KeccakRef.permute B n)
  | a128aOpt64 => Opt.Opt64.prims.perms
  | a128aOpt32 => Opt.Opt32.prims.perms
  | a128aOpt32Compact => Opt.Opt32.primsCompact.perms
  | a128aOpt32Tiny => Opt.tinyPerms Opt.Opt32.primsTiny Opt.Opt32.round
  | a128aOpt32Stp => Opt.Opt32.primsStp.perms
  | a128aOpt8 => Opt.Opt8.prims.perms
  | a128aOpt8Tiny => Opt.tinyPerms Opt.Opt8.primsTiny Opt.Opt8.round
  | a128aBi8 => Opt.Bi8.prims.perms
  | a128aBi32 => Opt.Bi32.prims.perms
  | a128aBi32Compact => Opt.Bi32.primsCompact.perms
  | a128aBi32Stp => Opt.Bi32.primsStp.perms
  | a128aBi32Armv6 => Opt.Armv6.prims.perms
  | a128aBi32Armv6m => Opt.Armv6m.prims.perms
  | a128aBi32Armv6mCompact => Opt.Armv6m.primsCompact.perms
  | a128aBi32Armv6mStp => Opt.Armv6m.primsStp.perms
  | a128aBi32Armv7m => Opt.Armv7m.prims.perms
  | a128aAvx512 _ =>
    [(12, onBytes A128.Opt64.u64big A128.Opt64.u64big fun S => pure (A128.Opt64.p12 S)),
     (6, onBytes A128.Opt64.u64big A128.Opt64.u64big fun S => pure (A128.Avx.p6 S)),
     (1, onBytes A128.Opt64.u64big A128.Opt64.u64big fun S => pure (A128.Avx.p1 S))]
  | a128Opt64 _ => [(12, onBytes A128.Opt64.u64big A128.Opt64.u64big fun S => pure (A128.Opt64.p12 S))]
  | a128Opt32 =>
    [(12, onBytes A128.Opt32.toWord A128.Opt32.fromWord A128.Opt32.prims.pL),
     (12, onBytes A128.Opt32.toWord A128.Opt32.fromWord A128.Opt32.prims.pU)]
  | a128Opt32Armv67m =>
    [(12, onBytes A128.Opt32.toWord A128.Opt32.fromWord A128.Opt32.primsArm.pL),
     (12, onBytes A128.Opt32.toWord A128.Opt32.fromWord A128.Opt32.primsArm.pU)]
  | k128aOpt64 => K128.Opt64.primsK128a.perms 16 1 8 8
  | k128Opt64 => K128.Opt64.primsK128.perms 20 12 12 12
  | k128aAvx512 j => (K128.Avx.prims j).perms 16 1 8 8
  | k128aOpt32Armv6m => (List.range 20).map fun i => (i + 1, K128.Arm.primsK128aV6.perm (i + 1))
  | k128aOpt32Armv7m => (List.range 20).map fun i => (i + 1, K128.Arm.primsK128aV7.perm (i + 1))
  | k128Opt32Armv6m => (List.range 20).map fun i => (i + 1, K128.Arm.primsK128V6.perm (i + 1))
  | k128Opt32Armv7m => (List.range 20).map fun i => (i + 1, K128.Arm.primsK128V7.perm (i + 1))

end Model
