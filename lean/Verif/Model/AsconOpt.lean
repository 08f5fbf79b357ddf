import Verif.Model.OptMode
/-!
# Models of the C versions of `crypto_aead/isapa128av20/*/asconp.h`

opt_64, opt_32, opt_32_compact, opt_32_tiny, opt_8, opt_8_tiny, bi_8, bi_32, bi_32_compact.  The files in
`crypto_aead_hash/isapa128av20` are the same, except for an unused macro in opt_32_compact.
-/

namespace Model.Opt
open C

/-- `U64BIG`, `opt_64/asconp.h` lines 41-48 (same text in all directories). -/
def u64big (x : BitVec 64) : BitVec 64 :=
  ((x &&& 0x00000000000000FF) <<< 56) ||| ((x &&& 0x000000000000FF00) <<< 40) |||
  ((x &&& 0x0000000000FF0000) <<< 24) ||| ((x &&& 0x00000000FF000000) <<< 8) |||
  ((x &&& 0x000000FF00000000) >>> 8) ||| ((x &&& 0x0000FF0000000000) >>> 24) |||
  ((x &&& 0x00FF000000000000) >>> 40) ||| ((x &&& 0xFF00000000000000) >>> 56)

/-- A straight sequence of calls `ROUND(s, c)`.  `opt_64/asconp.h` lines 89-122. -/
def seqRounds {κ : Type} (round : State → κ → State) (cs : List κ) (s : State) : State := cs.foldl round s

/-- Round constants as in `opt_64/asconp.h` lines 91-102 (of type `uint8_t`): the first six, the middle five, the last. -/
def c12 : List Byte := [0xf0, 0xe1, 0xd2, 0xc3, 0xb4, 0xa5]
/-- The middle five of them, lines 97-101. -/
def c6 : List Byte := [0x96, 0x87, 0x78, 0x69, 0x5a]
/-- The last, line 102. -/
def c1 : List Byte := [0x4b]

/-- `P12ROUNDS`, `P6ROUNDS`, `P1ROUNDS` as straight sequences (`opt_64/asconp.h` lines 89-124). -/
def unrolled {κ : Type} (round : State → κ → State) (c12 c6 c1 : List κ) (toWord fromWord toBI : BitVec 64 → BitVec 64) :
    Prims where
  toWord := toWord
  fromWord := fromWord
  toBI := toBI
  pH s := pure (seqRounds round (c12 ++ c6 ++ c1) s)
  pB s := pure (seqRounds round c1 s)
  pE s := pure (seqRounds round (c6 ++ c1) s)
  pK s := pure (seqRounds round (c12 ++ c6 ++ c1) s)

/-- `PROUNDS(s, nr)` as a `switch` with fall-through (`opt_32_compact/asconp.h` lines 86-106). -/
def switchRounds {κ : Type} (round : State → κ → State) (c12 c6 c1 : List κ) (nr : Nat) (s : State) : CM State := do
  let b12 ← branch (nr = 12)
  if b12 then
    pure (seqRounds round (c12 ++ c6 ++ c1) s)
  else
    let b6 ← branch (nr = 6)
    if b6 then
      pure (seqRounds round (c6 ++ c1) s)
    else
      pure (seqRounds round c1 s)

/-- The permutations `P_sH`, ... as calls of `PROUNDS` (`opt_32_compact/asconp.h` lines 24-27). -/
def viaProunds (prounds : Nat → State → CM State) (toWord fromWord toBI : BitVec 64 → BitVec 64) : Prims where
  toWord := toWord
  fromWord := fromWord
  toBI := toBI
  pH := prounds 12
  pB := prounds 1
  pE := prounds 6
  pK := prounds 12

/-- The loop of `PROUNDS` in `opt_32_tiny/asconp.h` lines 94-98: `do { ROUND(s, i); i += INC; } while (i != END);` with
`INC = -0x0f`, `END = 0x3c` (lines 86-89).  `ROUND` takes a `uint8_t`.  The loop of the code has no bound; here it is cut
off, as an error, after `fuel` iterations. -/
def tinyLoop (round : State → Byte → State) : (fuel : Nat) → (i : Int) → State → CM State
  | 0, _, _ => ub .diverges
  | fuel + 1, i, s => do
    let s := round s (BitVec.ofInt 8 i)
    let i := i + (-0x0f)
    let b ← branch (i ≠ 0x3c)
    if b then tinyLoop round fuel i s else pure s

/-- `PROUNDS` in `opt_32_tiny/asconp.h` lines 86-99, `START(n) = (3 + n) << 4 | (12 - n)`. -/
def tinyRounds (round : State → Byte → State) (nr : Nat) (s : State) : CM State :=
  tinyLoop round 100 (((3 + nr) <<< 4 ||| (12 - nr) : Nat) : Int) s

/-! ## opt_64 -/

namespace Opt64

/-- `ROR`, `opt_64/asconp.h` line 52 (`0 < n < 64`). -/
def ror (x : BitVec 64) (n : Nat) : BitVec 64 := (x >>> n) ||| (x <<< (64 - n))

/-- `ROUND`, `opt_64/asconp.h` lines 56-85, parameterised by `ROR`; bi_32 has the same text (lines 112-141). -/
def roundWith (ror : BitVec 64 → Nat → BitVec 64) (s : State) (c : BitVec 64) : State :=
  let s2 := s.x2 ^^^ c
  let s0 := s.x0 ^^^ s.x4
  let s4 := s.x4 ^^^ s.x3
  let s2 := s2 ^^^ s.x1
  let s1 := s.x1
  let s3 := s.x3
  let t0 := s0 ^^^ (~~~ s1 &&& s2)
  let t2 := s2 ^^^ (~~~ s3 &&& s4)
  let t4 := s4 ^^^ (~~~ s0 &&& s1)
  let t1 := s1 ^^^ (~~~ s2 &&& s3)
  let t3 := s3 ^^^ (~~~ s4 &&& s0)
  let t1 := t1 ^^^ t0
  let t3 := t3 ^^^ t2
  let t0 := t0 ^^^ t4
  let s2 := t2 ^^^ ror t2 (6 - 1)
  let s3 := t3 ^^^ ror t3 (17 - 10)
  let s4 := t4 ^^^ ror t4 (41 - 7)
  let s0 := t0 ^^^ ror t0 (28 - 19)
  let s1 := t1 ^^^ ror t1 (61 - 39)
  let s2 := t2 ^^^ ror s2 1
  let s3 := t3 ^^^ ror s3 10
  let s4 := t4 ^^^ ror s4 7
  let s0 := t0 ^^^ ror s0 19
  let s1 := t1 ^^^ ror s1 39
  let s2 := ~~~ s2
  ⟨s0, s1, s2, s3, s4⟩

/-- `ROUND` with its `uint8_t` constant.  `opt_64/asconp.h` lines 56-85. -/
def round (s : State) (c : Byte) : State := roundWith ror s (c.setWidth 64)

/-- opt_64: `opt_64/asconp.h` lines 24-37 -/
def prims : Prims := unrolled round c12 c6 c1 u64big u64big id

end Opt64

/-! ## opt_32, opt_32_compact, opt_32_tiny -/

namespace Opt32

/-- Substitution layer with round constant, `opt_32/asconp.h` lines 54-70. -/
def sbox (s : State) (c : BitVec 64) : State :=
  let s2 := s.x2 ^^^ c
  let s0 := s.x0 ^^^ s.x4
  let s4 := s.x4 ^^^ s.x3
  let s2 := s2 ^^^ s.x1
  let s1 := s.x1
  let s3 := s.x3
  let xtemp := s0 &&& ~~~ s4
  let s0 := s0 ^^^ (s2 &&& ~~~ s1)
  let s2 := s2 ^^^ (s4 &&& ~~~ s3)
  let s4 := s4 ^^^ (s1 &&& ~~~ s0)
  let s1 := s1 ^^^ (s3 &&& ~~~ s2)
  let s3 := s3 ^^^ xtemp
  let s1 := s1 ^^^ s0
  let s3 := s3 ^^^ s2
  let s0 := s0 ^^^ s4
  let s2 := ~~~ s2
  ⟨s0, s1, s2, s3, s4⟩

/-- `ROUND`, `opt_32/asconp.h` lines 52-82. -/
def round (s : State) (c : Byte) : State :=
  let s := sbox s (c.setWidth 64)
  ⟨s.x0 ^^^ ((s.x0 >>> 19) ^^^ (s.x0 <<< 45) ^^^ (s.x0 >>> 28) ^^^ (s.x0 <<< 36)),
   s.x1 ^^^ ((s.x1 >>> 61) ^^^ (s.x1 <<< 3) ^^^ (s.x1 >>> 39) ^^^ (s.x1 <<< 25)),
   s.x2 ^^^ ((s.x2 >>> 1) ^^^ (s.x2 <<< 63) ^^^ (s.x2 >>> 6) ^^^ (s.x2 <<< 58)),
   s.x3 ^^^ ((s.x3 >>> 10) ^^^ (s.x3 <<< 54) ^^^ (s.x3 >>> 17) ^^^ (s.x3 <<< 47)),
   s.x4 ^^^ ((s.x4 >>> 7) ^^^ (s.x4 <<< 57) ^^^ (s.x4 >>> 41) ^^^ (s.x4 <<< 23))⟩

/-- opt_32: `opt_32/asconp.h` lines 24-37 -/
def prims : Prims := unrolled round c12 c6 c1 u64big u64big id
/-- opt_32_compact: `opt_32_compact/asconp.h` lines 24-37 -/
def primsCompact : Prims := viaProunds (switchRounds round c12 c6 c1) u64big u64big id
/-- opt_32_tiny: `opt_32_tiny/asconp.h` lines 24-37 -/
def primsTiny : Prims := viaProunds (tinyRounds round) u64big u64big id

end Opt32

/-! ## opt_8, opt_8_tiny -/

namespace Opt8

/-- `XMUL(i, bit_rol)`, `opt_8/asconp.h` lines 52-58; `b` is the lane written. -/
def xmul (a : BitVec 64) (byteRol bitRol i : Nat) (b : BitVec 64) : BitVec 64 :=
  let tmp : BitVec 16 := (byteOf a i).setWidth 16 * (1 <<< bitRol)
  let b := xorByte b ((byteRol + i) &&& 7) (tmp.setWidth 8)
  xorByte b ((byteRol + i + 1) &&& 7) ((tmp >>> 8).setWidth 8)

/-- `ROR`, `opt_8/asconp.h` lines 60-75. -/
def ror (x : BitVec 64) (n : Nat) : BitVec 64 :=
  let bitRol := (64 - n) &&& 7
  let byteRol := (64 - n) >>> 3
  (List.range 8).foldl (fun b i => xmul x byteRol bitRol i b) 0

/-- `x.b[j] = v`: the union `lane_t`, `opt_8/asconp.h` lines 7-12; used in lines 52-75 and 106-129 -/
def setByte (x : BitVec 64) (j : Nat) (v : Byte) : BitVec 64 := (x &&& ~~~ (0xff#64 <<< (8 * j))) ||| (v.setWidth 64 <<< (8 * j))

/-- `NONLINEAR_LAYER`, `opt_8/asconp.h` lines 106-129: state and `xtemp`. -/
def nonlinear (s : State × BitVec 64) (pos : Nat) : State × BitVec 64 :=
  let a0 := byteOf s.1.x0 pos
  let a1 := byteOf s.1.x1 pos
  let a2 := byteOf s.1.x2 pos
  let a3 := byteOf s.1.x3 pos
  let a4 := byteOf s.1.x4 pos
  let t0 := a1 ^^^ a2
  let t1 := a0 ^^^ a4
  let t2 := a3 ^^^ a4
  let a4 := a3 ||| ~~~ a4
  let a4 := a4 ^^^ t0
  let a3 := a3 ^^^ a1
  let a3 := a3 ||| t0
  let a3 := a3 ^^^ t1
  let a2 := a2 ^^^ t1
  let a2 := a2 ||| a1
  let a2 := a2 ^^^ t2
  let a1 := a1 &&& ~~~ t1
  let a1 := a1 ^^^ t2
  let a0 := a0 ||| t2
  let xt := a0 ^^^ t0
  (⟨setByte s.1.x0 pos a0, setByte s.1.x1 pos a1, setByte s.1.x2 pos a2, setByte s.1.x3 pos a3, setByte s.1.x4 pos a4⟩,
   setByte s.2 pos xt)

/-- `LINEAR_LAYER`, `opt_8/asconp.h` lines 89-102. -/
def linear (s : State) (xtemp : BitVec 64) : State :=
  let temp := s.x2 ^^^ ror s.x2 (28 - 19)
  let x0 := s.x2 ^^^ ror temp 19
  let temp := s.x4 ^^^ ror s.x4 (6 - 1)
  let x2 := s.x4 ^^^ ror temp 1
  let temp := s.x1 ^^^ ror s.x1 (41 - 7)
  let x4 := s.x1 ^^^ ror temp 7
  let temp := s.x3 ^^^ ror s.x3 (61 - 39)
  let x1 := s.x3 ^^^ ror temp 39
  let temp := xtemp ^^^ ror xtemp (17 - 10)
  let x3 := xtemp ^^^ ror temp 10
  ⟨x0, x1, x2, x3, x4⟩

/-- `ROUND`, `opt_8/asconp.h` lines 133-143 (`xtemp` is uninitialised before the loop; all its bytes are set). -/
def round (s : State) (c : Byte) : State :=
  let s := { s with x2 := xorByte s.x2 0 c }
  let r := (List.range 8).foldl nonlinear (s, 0)
  linear r.1 r.2

/-- opt_8: `opt_8/asconp.h` lines 24-37 -/
def prims : Prims := viaProunds (switchRounds round c12 c6 c1) u64big u64big id
/-- opt_8_tiny: `opt_8_tiny/asconp.h` lines 24-37 -/
def primsTiny : Prims := viaProunds (tinyRounds round) u64big u64big id

end Opt8

/-! ## bi_8 -/

namespace Bi8

/-- `ROR8`, `bi_8/asconp.h` line 52 (`0 ≤ n < 8`; computed in `int`, converted to `uint8_t`). -/
def ror8 (a : Byte) (n : Nat) : Byte := (((a.setWidth 32 : BitVec 32) >>> n) ||| (a.setWidth 32 <<< (8 - n))).setWidth 8

/-- `ROR`, `bi_8/asconp.h` lines 56-68. -/
def ror (x : BitVec 64) (n : Nat) : BitVec 64 :=
  (List.range 8).foldl (fun b j => Opt8.setByte b j (ror8 (byteOf x ((n + j) &&& 7)) ((n + j) >>> 3))) 0

/-- First step of `interleave8`, `bi_8/asconp.h` lines 75-76. -/
def il1 (x : BitVec 64) : BitVec 64 :=
  (x &&& 0xaa55aa55aa55aa55) ||| ((x &&& 0x00aa00aa00aa00aa) <<< 7) ||| ((x >>> 7) &&& 0x00aa00aa00aa00aa)
/-- Second step, lines 77-78. -/
def il2 (x : BitVec 64) : BitVec 64 :=
  (x &&& 0xcccc3333cccc3333) ||| ((x &&& 0x0000cccc0000cccc) <<< 14) ||| ((x >>> 14) &&& 0x0000cccc0000cccc)
/-- Third step, lines 79-80. -/
def il3 (x : BitVec 64) : BitVec 64 :=
  (x &&& 0xf0f0f0f00f0f0f0f) ||| ((x &&& 0x00000000f0f0f0f0) <<< 28) ||| ((x >>> 28) &&& 0x00000000f0f0f0f0)
/-- `interleave8`, `bi_8/asconp.h` lines 73-82. -/
def interleave8 (x : BitVec 64) : BitVec 64 := il3 (il2 (il1 x))

/-- `ROUND`, `bi_8/asconp.h` lines 86-116. -/
def round (s : State) (c : BitVec 64) : State :=
  let s2 := s.x2 ^^^ c
  let s0 := s.x0 ^^^ s.x4
  let s4 := s.x4 ^^^ s.x3
  let s2 := s2 ^^^ s.x1
  let s1 := s.x1
  let s3 := s.x3
  let xtemp := s0 &&& ~~~ s4
  let s0 := s0 ^^^ (s2 &&& ~~~ s1)
  let s2 := s2 ^^^ (s4 &&& ~~~ s3)
  let s4 := s4 ^^^ (s1 &&& ~~~ s0)
  let s1 := s1 ^^^ (s3 &&& ~~~ s2)
  let s3 := s3 ^^^ xtemp
  let s1 := s1 ^^^ s0
  let s3 := s3 ^^^ s2
  let s0 := s0 ^^^ s4
  let xtemp := s0 ^^^ ror s0 (28 - 19)
  let s0 := s0 ^^^ ror xtemp 19
  let xtemp := s1 ^^^ ror s1 (61 - 39)
  let s1 := s1 ^^^ ror xtemp 39
  let xtemp := s2 ^^^ ror s2 (6 - 1)
  let s2 := s2 ^^^ ror xtemp 1
  let xtemp := s3 ^^^ ror s3 (17 - 10)
  let s3 := s3 ^^^ ror xtemp 10
  let xtemp := s4 ^^^ ror s4 (41 - 7)
  let s4 := s4 ^^^ ror xtemp 7
  let s2 := ~~~ s2
  ⟨s0, s1, s2, s3, s4⟩

/-- Round constants, `bi_8/asconp.h` lines 125-138. -/
def k12 : List (BitVec 64) := [0x0101010100000000, 0x0101010000000001, 0x0101000100000100, 0x0101000000000101,
  0x0100010100010000, 0x0100010000010001]
/-- The middle five of them, lines 132-136. -/
def k6 : List (BitVec 64) := [0x0100000100010100, 0x0100000000010101, 0x0001010101000000, 0x0001010001000001,
  0x0001000101000100]
/-- The last, line 138. -/
def k1 : List (BitVec 64) := [0x0001000001000101]

/-- bi_8 (`U64TOWORD`, `WORDTOU64`, `TOBI`: lines 31-37) -/
def prims : Prims := viaProunds (switchRounds round k12 k6 k1) (fun x => interleave8 (u64big x))
  (fun x => u64big (interleave8 x)) interleave8

end Bi8

/-! ## bi_32, bi_32_compact -/

namespace Bi32

/-- `x.w[0]`: the union `lane_t`, `bi_32/asconp.h` lines 7-12 (little-endian) -/
def w0 (x : BitVec 64) : BitVec 32 := x.setWidth 32
/-- `x.w[1]`: the union `lane_t`, `bi_32/asconp.h` lines 7-12 (little-endian) -/
def w1 (x : BitVec 64) : BitVec 32 := (x >>> 32).setWidth 32
/-- The lane with words `w[0] = lo`, `w[1] = hi` (little-endian).  The union `lane_t`, `bi_32/asconp.h` lines 7-12. -/
def lane (lo hi : BitVec 32) : BitVec 64 := hi ++ lo

/-- Delta swap `r = (x ^ (x >> n)) & m, x ^= r ^ (r << n)`.  `bi_32/asconp.h` lines 58-65, 80-87. -/
def dswap (n : Nat) (m x : BitVec 32) : BitVec 32 :=
  let r := (x ^^^ (x >>> n)) &&& m
  x ^^^ (r ^^^ (r <<< n))

/-- The four swaps applied to `lo` and to `hi`, `bi_32/asconp.h` lines 58-61, 62-65. -/
def shuffle (x : BitVec 32) : BitVec 32 :=
  dswap 8 0x0000FF00 (dswap 4 0x00F000F0 (dswap 2 0x0C0C0C0C (dswap 1 0x22222222 x)))

/-- The four swaps of `from_bit_interleaving`, `bi_32/asconp.h` lines 80-83, 84-87. -/
def unshuffle (x : BitVec 32) : BitVec 32 :=
  dswap 1 0x22222222 (dswap 2 0x0C0C0C0C (dswap 4 0x00F000F0 (dswap 8 0x0000FF00 x)))

/-- `to_bit_interleaving`, `bi_32/asconp.h` lines 53-70. -/
def toBI (x : BitVec 64) : BitVec 64 :=
  let lo := shuffle (w0 x)
  let hi := shuffle (w1 x)
  lane ((lo &&& 0x0000FFFF#32) ||| (hi <<< 16)) ((lo >>> 16) ||| (hi &&& 0xFFFF0000#32))

/-- `from_bit_interleaving`, `bi_32/asconp.h` lines 75-91. -/
def fromBI (x : BitVec 64) : BitVec 64 :=
  let lo := unshuffle ((w0 x &&& 0x0000FFFF#32) ||| (w1 x <<< 16))
  let hi := unshuffle ((w0 x >>> 16) ||| (w1 x &&& 0xFFFF0000#32))
  (hi.setWidth 64 <<< 32) ||| lo.setWidth 64

/-- `ROR32`, `bi_32/asconp.h` lines 95-98: `x >> n | x << (-n & 31)`. -/
def ror32 (x : BitVec 32) (n : Nat) : BitVec 32 := (x >>> n) ||| (x <<< ((32 - n) &&& 31))

/-- `ROR`, `bi_32/asconp.h` lines 102-108. -/
def ror (x : BitVec 64) (n : Nat) : BitVec 64 :=
  lane (if n % 2 ≠ 0 then ror32 (w1 x) ((n - 1) / 2) else ror32 (w0 x) (n / 2))
    (if n % 2 ≠ 0 then ror32 (w0 x) ((n + 1) / 2) else ror32 (w1 x) (n / 2))

/-- `ROUND`, `bi_32/asconp.h` lines 112-141 (the text of opt_64 with another `ROR`). -/
def round (s : State) (c : BitVec 64) : State := Opt64.roundWith ror s c

/-- Round constants, `bi_32/asconp.h` lines 147-158. -/
def k12 : List (BitVec 64) := [0xc0000000c, 0xc00000009, 0x90000000c, 0x900000009, 0xc00000006, 0xc00000003]
/-- The middle five of them, lines 153-157. -/
def k6 : List (BitVec 64) := [0x900000006, 0x900000003, 0x60000000c, 0x600000009, 0x30000000c]
/-- The last, line 158. -/
def k1 : List (BitVec 64) := [0x300000009]

/-- `U64TOWORD` (line 31) -/
def toWord (x : BitVec 64) : BitVec 64 := toBI (u64big x)
/-- `WORDTOU64` (line 32) -/
def fromWord (x : BitVec 64) : BitVec 64 := u64big (fromBI x)

/-- bi_32: `bi_32/asconp.h` lines 24-37 -/
def prims : Prims := unrolled round k12 k6 k1 toWord fromWord toBI
/-- bi_32_compact: `bi_32_compact/asconp.h` lines 24-37 -/
def primsCompact : Prims := viaProunds (switchRounds round k12 k6 k1) toWord fromWord toBI

end Bi32

end Model.Opt
