import Verif.Model.Api
import Verif.Spec.Ascon
/-!
# Model of the optimized ISAP-A-128a mode

`crypto_aead/isapa128av20/opt_64/isap.c`; the same text in opt_32, opt_32_compact, opt_32_tiny, opt_8, opt_8_tiny, bi_8,
bi_32, bi_32_compact, bi_32_armv6, bi_32_armv6m, bi_32_armv6m_compact, bi_32_armv7m and, apart from `config.h`, in
`crypto_aead_hash/isapa128av20`.  What differs is `asconp.h`: the word representation and the permutation.

The union `state_t` is modelled by its five 64-bit words `x[5]`; accesses through `b` and `w` are the corresponding
operations on a little-endian machine.  The tables `ISAP_IV_A`, ... are constants; that they are suitably aligned for the
`lane_t` casts is assumed.
-/

namespace Model.Opt
open C

/-- `state_t` (`asconp.h` lines 14-20): five 64-bit words. -/
abbrev State := Spec.Ascon.State

/-- What `isap.c` gets from `asconp.h`. -/
structure Prims where
  /-- `U64TOWORD` -/
  toWord : BitVec 64 → BitVec 64
  /-- `WORDTOU64` -/
  fromWord : BitVec 64 → BitVec 64
  /-- `TOBI` -/
  toBI : BitVec 64 → BitVec 64
  /-- `P_sH` -/
  pH : State → CM State
  /-- `P_sB` -/
  pB : State → CM State
  /-- `P_sE` -/
  pE : State → CM State
  /-- `P_sK` -/
  pK : State → CM State

/-- `x.b[j] ^= v` on a `lane_t` (little-endian).  The union `lane_t`, `opt_64/asconp.h` lines 7-12. -/
def xorByte (x : BitVec 64) (j : Nat) (v : Byte) : BitVec 64 := x ^^^ (v.setWidth 64 <<< (8 * j))

/-- `x.b[j]` on a `lane_t` (little-endian).  The union `lane_t`, `opt_64/asconp.h` lines 7-12. -/
def byteOf (x : BitVec 64) (j : Nat) : Byte := (x >>> (8 * j)).setWidth 8

/-- `s->b[0][7] ^= v`: `opt_64/isap.c` lines 38, 69-83 -/
def xorTop (s : State) (v : Byte) : State := { s with x0 := xorByte s.x0 7 v }

/-- The constant tables of `config.h` lines 9-11 (`ISAP_IV_A`, `ISAP_IV_KA`, `ISAP_IV_KE` for `i` = 1, 2, 3) with the
macros of `isap.h` lines 7-28. -/
def iv (i : Nat) : List Byte := [BitVec.ofNat 8 i, 128, 64, 1, 12, 1, 6, 12]

variable (D : Prims)

/-- Second half of `ABSORB_LANES`, lines 20-40: the last `len < 8` bytes and the padding. -/
def absorbTail (s : State) (src : Ptr) (len : Nat) : CM State := do
  let b ← branch (len > 0)
  if b then
    let t0 ← forN len 0 (fun i (t0 : BitVec 64) => do
      let d ← load8 (src + i)
      pure (xorByte t0 (7 - i) d)) 0
    let t0 := xorByte t0 (7 - len) 0x80
    D.pH { s with x0 := s.x0 ^^^ D.toBI t0 }
  else
    D.pH (xorTop s 0x80)

/-- `ABSORB_LANES`, lines 8-41.  Local copies of `src` and `len` are advanced by 8 per full lane. -/
def absorbLanes (s : State) (src : Ptr) (len : Nat) : CM State := do
  let s ← whileGe 8 (by decide) len 0 (fun i (s : State) => do
    let t0 ← load64 (src + 8 * i)
    D.pH { s with x0 := s.x0 ^^^ D.toWord t0 }) s
  absorbTail D s (src + 8 * (len / 8)) (len % 8)

/-- One iteration of the loop of `isap_rk`, lines 66-90. -/
def rkStep (y : Src) (i : Nat) (s : State) : CM State := do
  let yb ← y.get i
  let s ← D.pB (xorTop s ((yb &&& 0x80) <<< 0))
  let s ← D.pB (xorTop s ((yb &&& 0x40) <<< 1))
  let s ← D.pB (xorTop s ((yb &&& 0x20) <<< 2))
  let s ← D.pB (xorTop s ((yb &&& 0x10) <<< 3))
  let s ← D.pB (xorTop s ((yb &&& 0x08) <<< 4))
  let s ← D.pB (xorTop s ((yb &&& 0x04) <<< 5))
  let s ← D.pB (xorTop s ((yb &&& 0x02) <<< 6))
  let s := xorTop s ((yb &&& 0x01) <<< 7)
  let b ← branch (i ≠ 15)
  if b then D.pB s else pure s

/-- The last three words of `isap_rk`, lines 94-99: copy to `out`. -/
def rkOut (s out : State) (outlen : Nat) : CM State := do
  let out := { out with x0 := s.x0, x1 := s.x1 }
  let b ← branch (outlen > 16)
  if b then pure { out with x2 := s.x2 } else pure out

/-- `isap_rk`, lines 47-99.  Returns the new value of `*out`. -/
def isapRk (k : Ptr) (iv : List Byte) (y : Src) (out : State) (outlen : Nat) : CM State := do
  let k0 ← load64 (k + 0)
  let k1 ← load64 (k + 8)
  let s ← D.pK ⟨D.toWord k0, D.toWord k1, D.toWord (le64 iv), 0, 0⟩
  let s ← forN 16 0 (rkStep D y) s
  let s ← D.pK s
  rkOut s out outlen

/-- The first part of `isap_mac`, lines 112-131: everything up to the absorbed ciphertext. -/
def macAbsorb (npub ad : Ptr) (adlen : Nat) (c : Ptr) (clen : Nat) : CM State := do
  let n0 ← load64 (npub + 0)
  let n1 ← load64 (npub + 8)
  let s ← D.pH ⟨D.toWord n0, D.toWord n1, D.toWord (le64 (iv 1)), 0, 0⟩
  let s ← absorbLanes D s ad adlen
  let s := { s with x4 := s.x4 ^^^ 1 }
  absorbLanes D s c clen

/-- `isap_mac`, lines 105-143.  `y` points to the words `x[0]`, `x[1]` of the state, which `isap_rk` overwrites only
after it has read them. -/
def isapMac (k npub ad : Ptr) (adlen : Nat) (c : Ptr) (clen : Nat) : CM (List Byte) := do
  let s ← macAbsorb D npub ad adlen c clen
  let s := { s with x0 := D.fromWord s.x0, x1 := D.fromWord s.x1 }
  let s ← isapRk D k (iv 2) (.loc (toLe64 s.x0 ++ toLe64 s.x1)) s 16
  let s ← D.pH s
  pure (toLe64 (D.fromWord s.x0) ++ toLe64 (D.fromWord s.x1))

/-- The last part of `isap_enc`, lines 174-186: fewer than 8 bytes. -/
def encTail (s : State) (m : Ptr) (mlen : Nat) (c : Ptr) : CM Unit :=
  ifThen (mlen > 0) do
    let s ← D.pE s
    let t0 := D.fromWord s.x0
    forN mlen 0 (fun i (_ : Unit) => do
      let d ← load8 (m + i)
      store8 (c + i) (d ^^^ byteOf t0 i)) ()

/-- `isap_enc`, lines 149-187.  The words `x[3]`, `x[4]` of the uninitialised local `state` are not read before they
are set; they are 0 here. -/
def isapEnc (k npub m : Ptr) (mlen : Nat) (c : Ptr) : CM Unit := do
  let s ← isapRk D k (iv 3) (.ext npub) ⟨0, 0, 0, 0, 0⟩ 24
  let n0 ← load64 (npub + 0)
  let n1 ← load64 (npub + 8)
  let s := { s with x3 := D.toWord n0, x4 := D.toWord n1 }
  let s ← whileGe 8 (by decide) mlen 0 (fun i (s : State) => do
    let s ← D.pE s
    let t0 := D.fromWord s.x0
    let d ← load64 (m + 8 * i)
    store64 (c + 8 * i) (d ^^^ t0)
    pure s) s
  encTail D s (m + 8 * (mlen / 8)) (mlen % 8) (c + 8 * (mlen / 8))

/-- The implementation.  `opt_64/isap.c` lines 105-187. -/
def impl : Impl where
  enc := isapEnc D
  mac := isapMac D
  tagAlign := 1

end Model.Opt
