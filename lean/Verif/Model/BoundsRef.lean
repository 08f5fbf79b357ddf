import Verif.C.Array
import Verif.Model.AsconRef
import Verif.Model.KeccakRef
/-!
# The reference implementation with checked accesses to its local arrays and tables

The same functions as in `Model/RefMode.lean`, `Model/AsconRef.lean` and `Model/KeccakRef.lean`, but every array declared in
the C functions is an `Arr` of exactly the declared size, every access to it is checked, and an element that is read before it
is written is an error too.  In particular the size of the state array (`ISAP_STATE_SZ` in `isap.h`) and the size the
permutation file assumes (the literals 40 and 50 there) are two separate numbers here.
-/

namespace Model.Ref.Chk
open C

/-- As `Ref.Cfg`, with the number the permutation file uses for the size of the state and the checked permutation.
`ref/isap.c` lines 7-9, `ref/Ascon-reference.c` lines 32-56, `ref/KeccakP-400-reference.c` lines 24-25. -/
structure Cfg extends Ref.Cfg where
  /-- the literal `40` in `ref/Ascon-reference.c`, the literal `50` and `nrLanes * sizeof(tKeccakLane)` in
  `ref/KeccakP-400-reference.c` -/
  libSz : Nat
  /-- `X_Permute_Nrounds(state, rounds)` on an array -/
  permuteChk : Arr Byte → Nat → CM (Arr Byte)

/-- `X_Initialize`: `ref/Ascon-reference.c` lines 32-34, `ref/KeccakP-400-reference.c` lines 63-66. -/
def initState (G : Cfg) (state : Arr Byte) : CM (Arr Byte) := awrites state 0 (List.replicate G.libSz 0)

/-- `X_AddBytes`: `ref/Ascon-reference.c` lines 38-45, `ref/KeccakP-400-reference.c` lines 78-86. -/
def addBytes (G : Cfg) (state : Arr Byte) (data : CSrc) (offset length : Nat) : CM (Arr Byte) := do
  assert (offset < G.libSz)
  assert (offset + length ≤ G.libSz)
  forN length 0 (fun i st => do
    let d ← data.get i
    let x ← aget st (offset + i)
    aset st (offset + i) (x ^^^ d)) state

/-- `X_OverwriteBytes`: `ref/Ascon-reference.c` lines 49-56, `ref/KeccakP-400-reference.c` lines 90-95. -/
def overwriteBytes (G : Cfg) (state : Arr Byte) (data : CSrc) (offset length : Nat) : CM (Arr Byte) := do
  assert (offset < G.libSz)
  assert (offset + length ≤ G.libSz)
  forN length 0 (fun i st => do
    let d ← data.get i
    aset st (offset + i) d) state

/-- `X_ExtractBytes` up to the destination: `ref/Ascon-reference.c` lines 97-101, `ref/KeccakP-400-reference.c`
lines 219-224; the bytes `memcpy` reads. -/
def extractBytes (G : Cfg) (state : Arr Byte) (offset length : Nat) : CM (List Byte) := do
  assert (offset < G.libSz)
  assert (offset + length ≤ G.libSz)
  areads state offset length

/-- `isap_rk`: `ref/isap.c` lines 15-44; `out` is an array of the caller. -/
def isapRk (G : Cfg) (k : Ptr) (iv : List Byte) (inp : CSrc) (inlen : Nat) (out : Arr Byte) (outlen : Nat) :
    CM (Arr Byte) := do
  let state ← initState G (Arr.new G.stateSz)
  let state ← addBytes G state (.ext k) 0 16
  let state ← addBytes G state (.arr (Arr.of iv)) 16 8
  let state ← G.permuteChk state G.sK
  let state ← forN (inlen * 8 - 1) 0 (fun i state => do
    let b ← inp.get (i / 8)
    let state ← addBytes G state (.arr (Arr.of [curBit b (7 - i % 8)])) 0 1
    G.permuteChk state G.sB) state
  let b ← inp.get (inlen - 1)
  let state ← addBytes G state (.arr (Arr.of [curBit b 0])) 0 1
  let state ← G.permuteChk state G.sK
  let bs ← extractBytes G state 0 outlen
  awrites out 0 bs

/-- `if(avail == 0){ permute(state, rounds); avail = ISAP_rH_SZ; }`: `ref/isap.c` lines 68-71, 78-81, 97-100, 137-140. -/
def refill (G : Cfg) (rounds : Nat) (state : Arr Byte) (avail : Nat) : CM (Arr Byte × Nat) := do
  let b ← branch (avail = 0)
  if b then do
    let st ← G.permuteChk state rounds
    pure (st, G.rHsz)
  else pure (state, avail)

/-- Absorption of the associated data: `ref/isap.c` lines 64-75. -/
def absorbAd (G : Cfg) (state : Arr Byte) (ad : Ptr) (adlen : Nat) : CM (Arr Byte × Nat) :=
  forN adlen 0 (fun i x => do
    let x ← refill G G.sH x.1 x.2
    let d ← load8 (ad + i)
    let state ← addBytes G x.1 (.arr (Arr.of [d])) (G.rHsz - x.2) 1
    pure (state, x.2 - 1)) (state, G.rHsz)

/-- Absorption of the ciphertext: `ref/isap.c` lines 90-101. -/
def absorbC (G : Cfg) (state : Arr Byte) (c : Ptr) (clen : Nat) : CM (Arr Byte × Nat) :=
  forN clen 0 (fun i x => do
    let d ← load8 (c + i)
    let state ← addBytes G x.1 (.arr (Arr.of [d])) (G.rHsz - x.2) 1
    refill G G.sH state (x.2 - 1)) (state, G.rHsz)

/-- `isap_mac`: `ref/isap.c` lines 50-118. -/
def isapMac (G : Cfg) (k npub ad : Ptr) (adlen : Nat) (c : Ptr) (clen : Nat) : CM (List Byte) := do
  let state ← initState G (Arr.new G.stateSz)
  let state ← addBytes G state (.ext npub) 0 16
  let state ← addBytes G state (.arr (Arr.of (G.iv 1))) 16 8
  let state ← G.permuteChk state G.sH
  let x ← absorbAd G state ad adlen
  let x ← refill G G.sH x.1 x.2
  let state ← addBytes G x.1 (.arr (Arr.of [0x80])) (G.rHsz - x.2) 1
  let state ← G.permuteChk state G.sH
  let state ← addBytes G state (.arr (Arr.of [0x01])) (G.stateSz - 1) 1
  let x ← absorbC G state c clen
  let state ← addBytes G x.1 (.arr (Arr.of [0x80])) (G.rHsz - x.2) 1
  let state ← G.permuteChk state G.sH
  let bs ← extractBytes G state 0 16
  let y ← awrites (Arr.new 16) 0 bs
  let kaStar ← isapRk G k (G.iv 2) (.arr y) 16 (Arr.new 16) 16
  let state ← overwriteBytes G state (.arr kaStar) 0 16
  let state ← G.permuteChk state G.sH
  extractBytes G state 0 16

/-- `isap_enc`: `ref/isap.c` lines 124-147. -/
def isapEnc (G : Cfg) (k npub m : Ptr) (mlen : Nat) (c : Ptr) : CM Unit := do
  let state ← isapRk G k (G.iv 3) (.ext npub) 16 (Arr.new G.stateSz) (G.stateSz - 16)
  let state ← overwriteBytes G state (.ext npub) (G.stateSz - 16) 16
  let _ ← forN mlen 0 (fun i x => do
    let x ← refill G G.sE x.1 x.2
    let bs ← extractBytes G x.1 (i % G.rHsz) 1
    let keybyte ← awrites (Arr.new 1) 0 bs
    let d ← load8 (m + i)
    let kb ← aget keybyte 0
    store8 (c + i) (d ^^^ kb)
    pure (x.1, x.2 - 1)) (state, 0)
  pure ()

/-- The reference implementation for a configuration.  `ref/isap.c` lines 50-147. -/
def impl (G : Cfg) : Impl := { enc := isapEnc G, mac := isapMac G, tagAlign := 1 }

end Model.Ref.Chk

namespace Model.AsconRef.Chk
open C

/-- `load64(&x, S + o)`: `ref/Ascon-reference.c` lines 15-20 -/
def load64 (S : Arr Byte) (o : Nat) : CM (BitVec 64) :=
  loopN 8 0 (fun i x => do
    let b ← aget S (o + i)
    pure (x ||| (b.setWidth 64 <<< (56 - i * 8)))) 0

/-- `store64(S + o, x)`: `ref/Ascon-reference.c` lines 24-28 -/
def store64 (S : Arr Byte) (o : Nat) (x : BitVec 64) : CM (Arr Byte) :=
  loopN 8 0 (fun i S => do
    let b ← pure ((x >>> (56 - i * 8)).setWidth 8)
    aset S (o + i) b) S

/-- `Ascon_Permute_Nrounds`: `ref/Ascon-reference.c` lines 60-93 -/
def permute (S : Arr Byte) (rounds : Nat) : CM (Arr Byte) := do
  assert (rounds ≤ 12)
  let x0 ← load64 S 0
  let x1 ← load64 S 8
  let x2 ← load64 S 16
  let x3 ← load64 S 24
  let x4 ← load64 S 32
  let s := roundLoop (12 - rounds) rounds ⟨x0, x1, x2, x3, x4⟩
  let S ← store64 S 0 s.x0
  let S ← store64 S 8 s.x1
  let S ← store64 S 16 s.x2
  let S ← store64 S 24 s.x3
  store64 S 32 s.x4

/-- `isapa128av20/ref/isap.h` with `Ascon-reference.c` -/
def cfgA128a : Ref.Chk.Cfg := { AsconRef.cfgA128a with libSz := 40, permuteChk := permute }
/-- `isapa128v20/ref/isap.h` with `Ascon-reference.c` -/
def cfgA128 : Ref.Chk.Cfg := { AsconRef.cfgA128 with libSz := 40, permuteChk := permute }

end Model.AsconRef.Chk

namespace Model.KeccakRef.Chk
open C

/-- `tKeccakLane *A`: `ref/KeccakP-400-reference.c` lines 109-113 -/
abbrev LArr := Arr (BitVec 16)

/-- `for(x=0; x<5; x++) for(y=0; y<5; y++)`: `ref/KeccakP-400-reference.c` lines 175-176, 184-185, 193-196 -/
def forXY (f : Nat → Nat → LArr → CM LArr) (A : LArr) : CM LArr :=
  loopN 5 0 (fun x A => loopN 5 0 (fun y A => f x y A) A) A

/-- `theta`: `ref/KeccakP-400-reference.c` lines 163-178 -/
def theta (A : LArr) : CM LArr := do
  let C ← loopN 5 0 (fun x C => do
    let C ← aset C x 0
    loopN 5 0 (fun y C => do
      let c ← aget C x
      let a ← aget A (index x y)
      aset C x (c ^^^ a)) C) (Arr.new 5)
  let D ← loopN 5 0 (fun x D => do
    let v ← (do
      let c1 ← aget C ((x + 1) % 5)
      let c4 ← aget C ((x + 4) % 5)
      pure (rol16 c1 1 ^^^ c4))
    aset D (0 + x) v) (Arr.new 5)
  forXY (fun x y A => do
    let a ← aget A (index x y)
    let d ← aget D x
    aset A (index x y) (a ^^^ d)) A

/-- `rho`: lines 180-186 -/
def rho (A : LArr) : CM LArr :=
  forXY (fun x y A => do
    let a ← aget A (index x y)
    let r ← aget (Arr.of rhoOffsets) (index x y)
    aset A (index x y) (rol16 a r)) A

/-- `pi`: lines 188-197 -/
def pi (A : LArr) : CM LArr := do
  let tempA ← forXY (fun x y T => do
    let a ← aget A (index x y)
    aset T (index x y) a) (Arr.new 25)
  forXY (fun x y A => do
    let t ← aget tempA (index x y)
    aset A (index (0 * x + 1 * y) (2 * x + 3 * y)) t) A

/-- Body of the loop of `chi`: lines 204-209; `C` is declared once and filled again for every `y`. -/
def chiRow (y : Nat) (A C : LArr) : CM (LArr × LArr) := do
  let C ← loopN 5 0 (fun x C => do
    let v ← (do
      let a ← aget A (index x y)
      let a1 ← aget A (index (x + 1) y)
      let a2 ← aget A (index (x + 2) y)
      pure (a ^^^ (~~~ a1 &&& a2)))
    aset C (0 + x) v) C
  let A ← loopN 5 0 (fun x A => do
    let c ← aget C x
    aset A (index x y) c) A
  pure (A, C)

/-- `chi`: lines 199-210 -/
def chi (A : LArr) : CM LArr := do
  let r ← loopN 5 0 (fun y (r : LArr × LArr) => chiRow y r.1 r.2) (A, Arr.new 5)
  pure r.1

/-- `iota`: lines 212-215 -/
def iota (A : LArr) (indexRound : Nat) : CM LArr := do
  let a ← aget A (index 0 0)
  let c ← aget (Arr.of roundConstants) indexRound
  aset A (index 0 0) (a ^^^ c)

/-- `KeccakP400Round`: lines 152-159 -/
def round (indexRound : Nat) (A : LArr) : CM LArr := do
  let A ← theta A
  let A ← rho A
  let A ← pi A
  let A ← chi A
  iota A indexRound

/-- `KeccakP400_Permute_Nrounds` and `KeccakP400OnWords`: lines 115-128, 145-150.  The conversion between the bytes of the
state and its lanes reads and writes all 50 bytes. -/
def permute (S : Arr Byte) (nrounds : Nat) : CM (Arr Byte) := do
  let bs ← areads S 0 50
  let A := Arr.of (words bs).toList
  let A ← if nrounds ≤ 20 then loopN nrounds (20 - nrounds) round A else pure A
  let ls ← areads A 0 25
  awrites S 0 (ls.flatMap fun (l : BitVec 16) => [l.setWidth 8, (l >>> 8).setWidth 8])

/-- `isapk128av20/ref/isap.h` with `KeccakP-400-reference.c` -/
def cfgK128a : Ref.Chk.Cfg := { KeccakRef.cfgK128a with libSz := 50, permuteChk := permute }
/-- `isapk128v20/ref/isap.h` with `KeccakP-400-reference.c` -/
def cfgK128 : Ref.Chk.Cfg := { KeccakRef.cfgK128 with libSz := 50, permuteChk := permute }

end Model.KeccakRef.Chk
