import Verif.Model.Calls
import Verif.Model.AsconArm
/-!
# Model of the stp variants of ISAP-A-128a

opt_32_stp, bi_32_stp, bi_32_armv6m_stp in `crypto_aead/isapa128av20`: as opt_32_compact, bi_32_compact and
bi_32_armv6m_compact, but the received tag is compared through the permutation (`pvp`), with data that `isap_mac` leaves in
the global variables `s0`, `s1`.  `isap.c` and `crypto_aead.c` are the same text in the three directories.
-/

namespace Model.Opt
open C

/-- What `isap.c` gets from `asconp.h`. -/
structure StpPrims extends Prims where
  /-- `P_PVP` -/
  pPVP : State → CM State

/-- `PROUNDS` with the additional `case 7`, `bi_32_stp/asconp.h` lines 146-167 (in opt_32_stp lines 87-107). -/
def switchRounds7 {κ : Type} (round : State → κ → State) (c12 c6 c1 : List κ) (nr : Nat) (s : State) : CM State := do
  let b12 ← branch (nr = 12)
  if b12 then
    pure (seqRounds round (c12 ++ c6 ++ c1) s)
  else
    let b7 ← branch (nr = 7)
    if b7 then
      pure (seqRounds round (c12.drop 5 ++ c6 ++ c1) s)
    else
      let b6 ← branch (nr = 6)
      if b6 then
        pure (seqRounds round (c6 ++ c1) s)
      else
        pure (seqRounds round c1 s)

/-- The permutations as calls of `PROUNDS`, `bi_32_stp/asconp.h` lines 24-28. -/
def viaProunds7 (prounds : Nat → State → CM State) (toWord fromWord toBI : BitVec 64 → BitVec 64) : StpPrims :=
  { viaProunds prounds toWord fromWord toBI with pPVP := prounds 7 }

/-- opt_32_stp: `opt_32_stp/asconp.h` lines 24-37 -/
def Opt32.primsStp : StpPrims := viaProunds7 (switchRounds7 Opt32.round c12 c6 c1) u64big u64big id
/-- bi_32_stp: `bi_32_stp/asconp.h` lines 24-37 -/
def Bi32.primsStp : StpPrims := viaProunds7 (switchRounds7 Bi32.round k12 k6 k1) toWord fromWord toBI
/-- bi_32_armv6m_stp: `bi_32_armv6m_stp/asconp.h` lines 24-37 -/
def Armv6m.primsStp : StpPrims :=
  viaProunds7 (switchRounds7 Armv6m.round Bi32.k12 Bi32.k6 Bi32.k1) Bi32.toWord Bi32.fromWord Bi32.toBI

namespace Stp
variable (D : StpPrims)

/-- `isap_mac`, `bi_32_stp/isap.c` lines 108-150: as in the other variants, with the assignments in lines 136-137. -/
def isapMac (k npub ad : Ptr) (adlen : Nat) (c : Ptr) (clen : Nat) : CM (List Byte) := do
  let s ← macAbsorb D.toPrims npub ad adlen c clen
  setg .s0 s.x0
  setg .s1 s.x1
  let s := { s with x0 := D.fromWord s.x0, x1 := D.fromWord s.x1 }
  let s ← isapRk D.toPrims k (iv 2) (.loc (toLe64 s.x0 ++ toLe64 s.x1)) s 16
  let s ← D.pH s
  pure (toLe64 (D.fromWord s.x0) ++ toLe64 (D.fromWord s.x1))

/-- One half of `pvp`, `bi_32_stp/isap.c` lines 163-169 and 174-180: the permutation of the tag and the globals.  The local
array `T` is read through a `lane_t` pointer; its alignment is not modelled. -/
def pvpHalf (T : List Byte) : CM State := do
  let s0 ← getg .s0
  let s1 ← getg .s1
  D.pPVP ⟨D.toWord (le64 T), D.toWord (le64 (T.drop 8)), s0, s1, 0⟩

/-- `pvp`, `bi_32_stp/isap.c` lines 157-193: number of equal bytes. -/
def pvp (T Tstar : List Byte) : CM Nat := do
  let u ← pvpHalf D T
  let s ← pvpHalf D Tstar
  let cnt ← forN 8 0 (fun i (cnt : Nat) => pure (cnt + if byteOf s.x0 i = byteOf u.x0 i then 1 else 0)) 0
  forN 8 0 (fun i (cnt : Nat) => pure (cnt + if byteOf s.x1 i = byteOf u.x1 i then 1 else 0)) cnt

/-- The two functions that encryption uses.  `bi_32_stp/isap.c` lines 108-150, 199-237. -/
def impl : Impl where
  enc := isapEnc D.toPrims
  mac := isapMac D
  tagAlign := 1

/-- `crypto_aead_decrypt`, `bi_32_stp/crypto_aead.c` lines 30-68. -/
def decrypt (m mlen _nsec c : Ptr) (clen : Nat) (ad : Ptr) (adlen : Nat) (npub k : Ptr) : CM Int := do
  storeLen mlen (clen + (2 ^ 64 - 16))
  let l ← loadLen mlen
  let T ← isapMac D k npub ad adlen c l
  let Tstar ← forN 16 0 (fun i (t : List Byte) => do
    let l ← loadLen mlen
    let b ← load8 (c + (l + i))
    pure (t ++ [b])) []
  let eqCnt ← pvp D T Tstar
  let ok ← branch (eqCnt = 16)
  if ok then
    let l ← loadLen mlen
    ifThen (l > 0) do
      let l ← loadLen mlen
      isapEnc D.toPrims k npub c l m
    pure 0
  else
    pure (-1)

/-- The API; `crypto_aead_encrypt` is the common one (`bi_32_stp/crypto_aead.c` lines 5-28). -/
def aead : Aead where
  encrypt := (impl D).aead.encrypt
  decrypt a := decrypt D a.m a.mlen a.nsec a.c a.clen a.ad a.adlen a.npub a.k

end Stp
end Model.Opt
