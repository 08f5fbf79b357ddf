import Verif.C.Integer
import Verif.Model.AsconRef
import Verif.Model.AsconOpt
import Verif.Model.A128
import Verif.Model.KeccakRef
import Verif.Model.K128
/-!
# The integer expressions of the code

Every expression of the C files with a shift, a product, a negation or a rotation, as an expression of C with its types, so that
integer promotion and undefined cases are visible.  (Not here: macros that are not used, `EXT_BYTE` and `INS_BYTE`, and
exclusive or, and, or, complement of operands that have the type `uint64_t` or `uint32_t`.)  Variables are numbered in the order
of the list after the type.  `x ^= e` is modelled as exclusive or of `x` and of `e` converted to the type of `x`.  The functions return `none` for undefined behaviour.
-/

namespace Model.Arith
open C C.Arith Expr
open Spec.Ascon (State)

variable (P : Platform)

local notation "x₀" => (Expr.var 0)
local notation "x₁" => (Expr.var 1)

/-- A variable of type `int` with a value that is not negative.  For example `int i` in
`isapa128av20/ref/Ascon-reference.c` lines 15-28. -/
abbrev intVal (n : Nat) : Val := ofNat P .int n

/-! ## Bits of the absorbed string -/

/-- `((in[p] >> pos) & 0x01) << 7`: `isapa128av20/ref/isap.c` line 34 and the lines listed below -/
def bitE : Expr := ((x₀ >>> x₁) &&& hex 0x01) <<< (7 : Expr)

/-- `pos = 7-(i%8)` in a variable of type `t`, where `i` has the type `ti`, and then `((in[p] >> pos) & 0x01) << 7` in a variable
of type `r`:
* `isapa128av20/ref/isap.c` lines 32-34, same text in `isapa128v20/ref`, `isapk128av20/ref`, `isapk128v20/ref`, `isapxv20/ref`
  (`size_t`, `size_t`, `unsigned char`);
* `isapa128v20/opt_64/isap.c` lines 171-174, `isapa128av20/avx_512/isap.c` lines 222-225 (`size_t`, `size_t`, `u8`);
* `isapk128av20/opt_64/isap.c` lines 136-139, `isapk128v20/opt_64`, `isapk128av20/avx512` (`UINT64`, `size_t`, `UINT16`);
* `isapk128av20/opt_32_armv6m/isap.c` lines 30-33, same in opt_32_armv7m and in `isapk128v20` (`unsigned long`, `unsigned long`,
  `unsigned char`);
* `isapa128v20/opt_32/isap.c` lines 39-42, `isapa128v20/opt_32_armv67m/isap.c` lines 43-46 (`u8`, `u8`, `u32`). -/
def curBit (ti t r : Ty) (b : Byte) (i : Nat) : Option (BitVec (r.bits P)) := do
  let pos ← assign P t [ofNat P ti i] (7 - x₀ % 8)
  assign P r [u8 b, ⟨t.signed, _, pos⟩] bitE

/-- `((in[inlen-1]) & 0x01) << 7`: `isapa128av20/ref/isap.c` line 38, and after the loop in the other files. -/
def lastBit (r : Ty) (b : Byte) : Option (BitVec (r.bits P)) := assign P r [u8 b] ((x₀ &&& hex 0x01) <<< (7 : Expr))

/-- `((u64)cur_bit) << 56`: `isapa128v20/opt_64/isap.c` lines 175, 179, `isapa128av20/avx_512/isap.c` lines 226, 230. -/
def bit56 (b : Byte) : Option (BitVec 64) := assign P .u64 [u8 b] (cast .u64 x₀ <<< (56 : Expr))

/-- `((u32)cur_bit) << 24` with `cur_bit` of type `u32` (line 43) or `u8` (line 47): `isapa128v20/opt_32/isap.c`,
`isapa128v20/opt_32_armv67m/isap.c` lines 47, 51. -/
def bit24 (v : Val) : Option (BitVec 32) := assign P .u32 [v] (cast .u32 x₀ <<< (24 : Expr))

/-- `(y_byte & m) << k`, converted to `uint8_t` in `s->b[0][7] ^= ...`: `isapa128av20/opt_64/isap.c` lines 69-83, same text in the
other directories of that variant. -/
def yBit (m k : Nat) (b : Byte) : Option Byte := assign P .u8 [u8 b] ((x₀ &&& hex m) <<< dec k)

/-- The masks and amounts in those lines.  `isapa128av20/opt_64/isap.c` lines 69-83. -/
def yBits : List (Nat × Nat) := [(0x80, 0), (0x40, 1), (0x20, 2), (0x10, 3), (0x08, 4), (0x04, 5), (0x02, 6), (0x01, 7)]

/-! ## `isapa128av20/ref/Ascon-reference.c` (same file in `isapa128v20/ref`, `isapxv20/ref`) -/

/-- `ROTR(x,n)`, line 11, with a constant `n`. -/
def rotr (x : BitVec 64) (n : Nat) : Option (BitVec 64) := assign P .u64 [u64 x] ((x₀ >>> dec n) ||| (x₀ <<< (64 - dec n)))

/-- `load64`, lines 15-20; `i` is an `int`. -/
def load64 (S : List Byte) : Option (BitVec 64) :=
  (List.range 8).foldlM (fun x i => do
    let y : BitVec 64 ← assign P .u64 [u8 (S.getD i 0), intVal P i] (cast .u64 x₀ <<< (56 - x₁ * 8))
    pure (x ||| y)) 0

/-- `store64`, lines 24-28. -/
def store64 (x : BitVec 64) : Option (List Byte) :=
  (List.range 8).mapM fun i => assign P .u8 [u64 x, intVal P i] (cast .u8 (x₀ >>> (56 - x₁ * 8)))

/-- `int start = 12 - rounds;`, line 62; `rounds` is an `unsigned int`. -/
def start (rounds : Nat) : Option Val := do castTo P .int (← eval P [ofNat P .uint rounds] (12 - x₀))

/-- `((0xfull - i) << 4) | i`, line 73; `i` is an `unsigned int`. -/
def roundConstant (i : Nat) : Option (BitVec 64) := assign P .u64 [ofNat P .uint i] (((ull 0xf - x₀) <<< (4 : Expr)) ||| x₀)

/-- The body of the loop of `Ascon_Permute_Nrounds`, lines 72-86. -/
def refRound (i : Nat) (s : State) : Option State := do
  let ⟨x0, x1, x2, x3, x4⟩ := s
  let x2 := x2 ^^^ (← roundConstant P i)
  let x0 := x0 ^^^ x4; let x4 := x4 ^^^ x3; let x2 := x2 ^^^ x1
  let t0 := x0; let t1 := x1; let t2 := x2; let t3 := x3; let t4 := x4
  let t0 := ~~~ t0; let t1 := ~~~ t1; let t2 := ~~~ t2; let t3 := ~~~ t3; let t4 := ~~~ t4
  let t0 := t0 &&& x1; let t1 := t1 &&& x2; let t2 := t2 &&& x3; let t3 := t3 &&& x4; let t4 := t4 &&& x0
  let x0 := x0 ^^^ t1; let x1 := x1 ^^^ t2; let x2 := x2 ^^^ t3; let x3 := x3 ^^^ t4; let x4 := x4 ^^^ t0
  let x1 := x1 ^^^ x0; let x0 := x0 ^^^ x4; let x3 := x3 ^^^ x2; let x2 := ~~~ x2
  let x0 := x0 ^^^ ((← rotr P x0 19) ^^^ (← rotr P x0 28))
  let x1 := x1 ^^^ ((← rotr P x1 61) ^^^ (← rotr P x1 39))
  let x2 := x2 ^^^ ((← rotr P x2 1) ^^^ (← rotr P x2 6))
  let x3 := x3 ^^^ ((← rotr P x3 10) ^^^ (← rotr P x3 17))
  let x4 := x4 ^^^ ((← rotr P x4 7) ^^^ (← rotr P x4 41))
  pure ⟨x0, x1, x2, x3, x4⟩

/-! ## `isapa128av20/*/asconp.h` -/

/-- `U64BIG`, `opt_64/asconp.h` lines 41-48 (same text in all directories and in `isapa128v20/opt_32/asconp.h` lines 22-28,
`isapa128v20/opt_32_armv67m/asconp.h`). -/
def u64big (x : BitVec 64) : Option (BitVec 64) :=
  assign P .u64 [u64 x]
    (((x₀ &&& ull 0x00000000000000FF) <<< (56 : Expr)) ||| ((x₀ &&& ull 0x000000000000FF00) <<< (40 : Expr)) |||
     ((x₀ &&& ull 0x0000000000FF0000) <<< (24 : Expr)) ||| ((x₀ &&& ull 0x00000000FF000000) <<< (8 : Expr)) |||
     ((x₀ &&& ull 0x000000FF00000000) >>> (8 : Expr)) ||| ((x₀ &&& ull 0x0000FF0000000000) >>> (24 : Expr)) |||
     ((x₀ &&& ull 0x00FF000000000000) >>> (40 : Expr)) ||| ((x₀ &&& ull 0xFF00000000000000) >>> (56 : Expr)))

/-- `ROUND`, `opt_64/asconp.h` lines 56-85, over a function `ROR`; bi_32 has the same text (lines 112-141). -/
def roundWith (ror : BitVec 64 → Nat → Option (BitVec 64)) (s : State) (c : BitVec 64) : Option State := do
  let s2 := s.x2 ^^^ c
  let s0 := s.x0 ^^^ s.x4
  let s4 := s.x4 ^^^ s.x3
  let s2 := s2 ^^^ s.x1
  let s1 := s.x1
  let s3 := s.x3
  let t0 := s0 ^^^ (~~~ s1 &&& s2)
  let t2 := s2 ^^^ (~~~ s3 &&& s4)
  let t4 := s4 ^^^ (~~~ s0 &&& s1)
  let t1 := s1 ^^^ (~~~ s2 &&& s3)
  let t3 := s3 ^^^ (~~~ s4 &&& s0)
  let t1 := t1 ^^^ t0
  let t3 := t3 ^^^ t2
  let t0 := t0 ^^^ t4
  let s2 := t2 ^^^ (← ror t2 (6 - 1))
  let s3 := t3 ^^^ (← ror t3 (17 - 10))
  let s4 := t4 ^^^ (← ror t4 (41 - 7))
  let s0 := t0 ^^^ (← ror t0 (28 - 19))
  let s1 := t1 ^^^ (← ror t1 (61 - 39))
  let s2 := t2 ^^^ (← ror s2 1)
  let s3 := t3 ^^^ (← ror s3 10)
  let s4 := t4 ^^^ (← ror s4 7)
  let s0 := t0 ^^^ (← ror s0 19)
  let s1 := t1 ^^^ (← ror s1 39)
  let s2 := ~~~ s2
  pure ⟨s0, s1, s2, s3, s4⟩

/-- The amounts in the calls of `ROR`.  `opt_64/asconp.h` lines 74-83. -/
def amounts : List Nat := [6 - 1, 17 - 10, 41 - 7, 28 - 19, 61 - 39, 1, 10, 7, 19, 39]

/-- `ROR`, `opt_64/asconp.h` line 52. -/
def ror64 (x : BitVec 64) (n : Nat) : Option (BitVec 64) :=
  assign P .u64 [u64 x, intVal P n] ((x₀ >>> x₁) ||| (x₀ <<< (-x₁ &&& 63)))

/-- `(x >> a) ^ (x << b) ^ (x >> c) ^ (x << d)`, `opt_32/asconp.h` lines 71-80 (same text in opt_32_compact and opt_32_tiny). -/
def diffuse (x : BitVec 64) (a b c d : Nat) : Option (BitVec 64) := do
  let y : BitVec 64 ← assign P .u64 [u64 x] ((x₀ >>> dec a) ^^^ (x₀ <<< dec b) ^^^ (x₀ >>> dec c) ^^^ (x₀ <<< dec d))
  pure (x ^^^ y)

/-- `ROUND`, `opt_32/asconp.h` lines 52-82; the layers before the shifts have only operands of type `uint64_t`. -/
def round32 (s : State) (c : Byte) : Option State := do
  let s := Opt.Opt32.sbox s (c.setWidth 64)
  pure ⟨← diffuse P s.x0 19 45 28 36, ← diffuse P s.x1 61 3 39 25, ← diffuse P s.x2 1 63 6 58,
    ← diffuse P s.x3 10 54 17 47, ← diffuse P s.x4 7 57 41 23⟩

/-- `int i = START(nr);`, `opt_32_tiny/asconp.h` lines 87, 93; `nr` is a `uint8_t`. -/
def tinyStart (nr : Byte) : Option Val := do castTo P .int (← eval P [u8 nr] (((3 + x₀) <<< (4 : Expr)) ||| (12 - x₀)))

/-- `i += INC;` with `INC = -0x0f`, line 97. -/
def tinyNext (i : Val) : Option Val := do castTo P .int (← eval P [i] (x₀ + -hex 0x0f))

/-! opt_8, opt_8_tiny -/

/-- `tmp = (uint16_t)a.b[i] * (1 << (x));`, `opt_8/asconp.h` line 55. -/
def product (a : Byte) (x : Val) : Option (BitVec 16) := assign P .u16 [u8 a, x] (cast .u16 x₀ * ((1 : Expr) <<< x₁))

/-- `XMUL(i, bit_rol)`, `opt_8/asconp.h` lines 52-58; the indices are of type `int` and so is `bit_rol`. -/
def xmul (a : BitVec 64) (byteRol bitRol : Val) (i : Nat) (b : BitVec 64) : Option (BitVec 64) := do
  let tmp ← product P (Opt.byteOf a i) bitRol
  let j ← eval P [byteRol] ((x₀ + dec i) &&& hex 0x7)
  let v ← assign P .u8 [u16 tmp] (cast .u8 x₀)
  let b := Opt.xorByte b j.b.toNat v
  let j ← eval P [byteRol] ((x₀ + dec i + 1) &&& hex 0x7)
  let v ← assign P .u8 [u16 tmp] (x₀ >>> (8 : Expr))
  pure (Opt.xorByte b j.b.toNat v)

/-- `ROR`, `opt_8/asconp.h` lines 60-75. -/
def ror8bit (x : BitVec 64) (n : Nat) : Option (BitVec 64) := do
  let bitRol ← castTo P .int (← eval P [intVal P n] ((64 - x₀) &&& hex 0x7))
  let byteRol ← castTo P .int (← eval P [intVal P n] ((64 - x₀) >>> (3 : Expr)))
  (List.range 8).foldlM (fun b i => xmul P x byteRol bitRol i b) 0

/-- `NOT8`, `opt_8/asconp.h` line 79. -/
def not8 (a : Byte) : Option Byte := assign P .u8 [u8 a] (~~~ x₀)
/-- `XOR8`, `opt_8/asconp.h` line 81. -/
def xor8 (a b : Byte) : Option Byte := assign P .u8 [u8 a, u8 b] (x₀ ^^^ x₁)
/-- `AND8`, `opt_8/asconp.h` line 83. -/
def and8 (a b : Byte) : Option Byte := assign P .u8 [u8 a, u8 b] (x₀ &&& x₁)
/-- `OR8`, `opt_8/asconp.h` line 85. -/
def or8 (a b : Byte) : Option Byte := assign P .u8 [u8 a, u8 b] (x₀ ||| x₁)

/-! bi_8 -/

/-- `ROR8`, `bi_8/asconp.h` line 52. -/
def ror8 (a : Byte) (n : Val) : Option Byte := assign P .u8 [u8 a, n] ((x₀ >>> x₁) ||| (x₀ <<< (8 - x₁)))

/-- `b.b[j] = ROR8(a.b[(n + j) & 0x7], (n + j) >> 3);`, `bi_8/asconp.h` lines 59-66. -/
def rorByte (x : BitVec 64) (n j : Nat) (b : BitVec 64) : Option (BitVec 64) := do
  let k ← eval P [intVal P n] ((x₀ + dec j) &&& hex 0x7)
  let m ← castTo P .int (← eval P [intVal P n] ((x₀ + dec j) >>> (3 : Expr)))
  let v ← ror8 P (Opt.byteOf x k.b.toNat) m
  pure (Opt.Opt8.setByte b j v)

/-- `ROR`, `bi_8/asconp.h` lines 56-68. -/
def rorBi8 (x : BitVec 64) (n : Nat) : Option (BitVec 64) := (List.range 8).foldlM (fun b j => rorByte P x n j b) 0

/-- `interleave8`, `bi_8/asconp.h` lines 73-82. -/
def interleave8 (x : BitVec 64) : Option (BitVec 64) := do
  let x ← assign P .u64 [u64 x] ((x₀ &&& ull 0xaa55aa55aa55aa55) ||| ((x₀ &&& ull 0x00aa00aa00aa00aa) <<< (7 : Expr)) |||
    ((x₀ >>> (7 : Expr)) &&& ull 0x00aa00aa00aa00aa))
  let x ← assign P .u64 [u64 x] ((x₀ &&& ull 0xcccc3333cccc3333) ||| ((x₀ &&& ull 0x0000cccc0000cccc) <<< (14 : Expr)) |||
    ((x₀ >>> (14 : Expr)) &&& ull 0x0000cccc0000cccc))
  assign P .u64 [u64 x] ((x₀ &&& ull 0xf0f0f0f00f0f0f0f) ||| ((x₀ &&& ull 0x00000000f0f0f0f0) <<< (28 : Expr)) |||
    ((x₀ >>> (28 : Expr)) &&& ull 0x00000000f0f0f0f0))

/-- `ROUND`, `bi_8/asconp.h` lines 86-116. -/
def roundBi8 (s : State) (c : BitVec 64) : Option State := do
  let s2 := s.x2 ^^^ c
  let s0 := s.x0 ^^^ s.x4
  let s4 := s.x4 ^^^ s.x3
  let s2 := s2 ^^^ s.x1
  let s1 := s.x1
  let s3 := s.x3
  let xtemp := s0 &&& ~~~ s4
  let s0 := s0 ^^^ (s2 &&& ~~~ s1)
  let s2 := s2 ^^^ (s4 &&& ~~~ s3)
  let s4 := s4 ^^^ (s1 &&& ~~~ s0)
  let s1 := s1 ^^^ (s3 &&& ~~~ s2)
  let s3 := s3 ^^^ xtemp
  let s1 := s1 ^^^ s0
  let s3 := s3 ^^^ s2
  let s0 := s0 ^^^ s4
  let xtemp := s0 ^^^ (← rorBi8 P s0 (28 - 19))
  let s0 := s0 ^^^ (← rorBi8 P xtemp 19)
  let xtemp := s1 ^^^ (← rorBi8 P s1 (61 - 39))
  let s1 := s1 ^^^ (← rorBi8 P xtemp 39)
  let xtemp := s2 ^^^ (← rorBi8 P s2 (6 - 1))
  let s2 := s2 ^^^ (← rorBi8 P xtemp 1)
  let xtemp := s3 ^^^ (← rorBi8 P s3 (17 - 10))
  let s3 := s3 ^^^ (← rorBi8 P xtemp 10)
  let xtemp := s4 ^^^ (← rorBi8 P s4 (41 - 7))
  let s4 := s4 ^^^ (← rorBi8 P xtemp 7)
  let s2 := ~~~ s2
  pure ⟨s0, s1, s2, s3, s4⟩

/-! bi_32, bi_32_compact (and the ARM directories, whose conversions have the same text), and `isapa128v20/opt_32/asconp.h`,
`isapa128v20/opt_32_armv67m/asconp.h` -/

/-- `r = (x ^ (x >> n)) & m, x ^= r ^ (r << n);`, `bi_32/asconp.h` lines 58-65, 80-87, `isapa128v20/opt_32/asconp.h` lines 38-45,
58-65. -/
def dswap (n m : Nat) (x : BitVec 32) : Option (BitVec 32) := do
  let r ← assign P .u32 [u32 x] ((x₀ ^^^ (x₀ >>> dec n)) &&& hex m)
  let y : BitVec 32 ← assign P .u32 [u32 r] (x₀ ^^^ (x₀ <<< dec n))
  pure (x ^^^ y)

/-- The four swaps of `to_bit_interleaving`, lines 58-61. -/
def shuffle (x : BitVec 32) : Option (BitVec 32) := do
  dswap P 8 0x0000FF00 (← dswap P 4 0x00F000F0 (← dswap P 2 0x0C0C0C0C (← dswap P 1 0x22222222 x)))

/-- The four swaps of `from_bit_interleaving`, lines 80-83. -/
def unshuffle (x : BitVec 32) : Option (BitVec 32) := do
  dswap P 1 0x22222222 (← dswap P 2 0x0C0C0C0C (← dswap P 4 0x00F000F0 (← dswap P 8 0x0000FF00 x)))

/-- `(a & 0x0000FFFF) | (b << 16)`, lines 67, 77. -/
def lowHalves (a b : BitVec 32) : Option (BitVec 32) := assign P .u32 [u32 a, u32 b] ((x₀ &&& hex 0x0000FFFF) ||| (x₁ <<< (16 : Expr)))
/-- `(a >> 16) | (b & 0xFFFF0000)`, lines 68, 78. -/
def highHalves (a b : BitVec 32) : Option (BitVec 32) := assign P .u32 [u32 a, u32 b] ((x₀ >>> (16 : Expr)) ||| (x₁ &&& hex 0xFFFF0000))

/-- `to_bit_interleaving`, `bi_32/asconp.h` lines 53-70; in `isapa128v20/opt_32/asconp.h` lines 33-48 the words are
`(u32)(in)` and `(in) >> 32`. -/
def toBI (x : BitVec 64) : Option (BitVec 64) := do
  let lo ← shuffle P (← assign P .u32 [u64 x] (cast .u32 x₀))
  let hi ← shuffle P (← assign P .u32 [u64 x] (x₀ >>> (32 : Expr)))
  pure (Opt.Bi32.lane (← lowHalves P lo hi) (← highHalves P lo hi))

/-- `from_bit_interleaving`, `bi_32/asconp.h` lines 75-91, `isapa128v20/opt_32/asconp.h` lines 53-67. -/
def fromBI (x : BitVec 64) : Option (BitVec 64) := do
  let lo ← unshuffle P (← lowHalves P (Opt.Bi32.w0 x) (Opt.Bi32.w1 x))
  let hi ← unshuffle P (← highHalves P (Opt.Bi32.w0 x) (Opt.Bi32.w1 x))
  assign P .u64 [u32 hi, u32 lo] ((cast .u64 x₀ <<< (32 : Expr)) ||| x₁)

/-- `ROR32`, `bi_32/asconp.h` lines 95-98. -/
def ror32 (x : BitVec 32) (n : Val) : Option (BitVec 32) := assign P .u32 [u32 x, n] ((x₀ >>> x₁) ||| (x₀ <<< (-x₁ &&& 31)))

/-- `ROR`, `bi_32/asconp.h` lines 102-108. -/
def rorBi32 (x : BitVec 64) (n : Nat) : Option (BitVec 64) := do
  let odd ← eval P [intVal P n] (x₀ % 2)
  let lo ← if odd.toInt ≠ 0 then ror32 P (Opt.Bi32.w1 x) (← eval P [intVal P n] ((x₀ - 1) / 2))
    else ror32 P (Opt.Bi32.w0 x) (← eval P [intVal P n] (x₀ / 2))
  let hi ← if odd.toInt ≠ 0 then ror32 P (Opt.Bi32.w0 x) (← eval P [intVal P n] ((x₀ + 1) / 2))
    else ror32 P (Opt.Bi32.w1 x) (← eval P [intVal P n] (x₀ / 2))
  pure (Opt.Bi32.lane lo hi)

/-! ## `isapa128v20/opt_64/isap.c`, `isapa128av20/avx_512/isap.c`, `isapa128v20/opt_32/asconp.h` -/

/-- `U64BIG`, `isapa128v20/opt_64/isap.c` lines 23-27, `isapa128av20/avx_512/isap.c` lines 24-28. -/
def u64bigRot (x : BitVec 64) : Option (BitVec 64) := do
  let a ← rotr P x 8
  let b ← rotr P x 24
  let c ← rotr P x 40
  let d ← rotr P x 56
  pure ((a &&& 0xFF000000FF000000) ||| (b &&& 0x00FF000000FF0000) ||| (c &&& 0x0000FF000000FF00) ||| (d &&& 0x000000FF000000FF))

/-- `R`, `isapa128v20/opt_64/isap.c` lines 103-105, of type `const int`. -/
def R (i j : Nat) : Nat := (([[19, 28], [39, 61], [1, 6], [10, 17], [7, 41]] : List (List Nat)).getD i []).getD j 0

/-- `ROTR(x, R[i][0])`, lines 46-68. -/
def rotrFirst (x : BitVec 64) (i : Nat) : Option (BitVec 64) :=
  assign P .u64 [u64 x, intVal P (R i 0)] ((x₀ >>> x₁) ||| (x₀ <<< (64 - x₁)))

/-- `ROTR(x, R[i][1] - R[i][0])`, lines 52-71. -/
def rotrSecond (x : BitVec 64) (i : Nat) : Option (BitVec 64) :=
  assign P .u64 [u64 x, intVal P (R i 1), intVal P (R i 0)] ((x₀ >>> (x₁ - var 2)) ||| (x₀ <<< (64 - (x₁ - var 2))))

/-- `(tmpm1 << 8) | ((u64)m[j])`, `isapa128av20/avx_512/isap.c` lines 450, 452. -/
def shiftIn (x : BitVec 64) (b : Byte) : Option (BitVec 64) := assign P .u64 [u64 x, u8 b] ((x₀ <<< (8 : Expr)) ||| cast .u64 x₁)

/-- `ROTR32`, `isapa128v20/opt_32/asconp.h` line 71. -/
def rotr32 (x : BitVec 32) (n : Nat) : Option (BitVec 32) := assign P .u32 [u32 x] ((x₀ >>> dec n) ||| (x₀ <<< (32 - dec n)))

/-- The amounts in lines 115-135. -/
def amounts32 : List Nat := [1, 2, 3, 4, 5, 9, 10, 11, 17, 19, 20]

/-! ## Keccak-p[400] -/

/-- `ROL16` of `isapk128av20/ref/KeccakP-400-reference.c` line 161 (same in `isapk128v20`, `isapxv20`): `offset` is an
`unsigned int`, or the constant 1, and `sizeof(tKeccakLane)` a `size_t`. -/
def rol16Ref (a : BitVec 16) (offset : Val) : Option (BitVec 16) :=
  assign P .u16 [u16 a, offset, ofNat P .size 2]
    (cond x₁ ((cast .u16 x₀ <<< x₁) ^^^ (cast .u16 x₀ >>> (var 2 * 8 - x₁))) x₀)

/-- `ROL16` of `isapk128av20/opt_64/KeccakP-400-64.macros` line 28 (same in `isapk128v20/opt_64`, `isapk128av20/avx512`), with a
constant. -/
def rol16Opt (a : BitVec 16) (offset : Nat) : Option (BitVec 16) :=
  assign P .u16 [u16 a] ((cast .u16 x₀ <<< dec offset) ^^^ (cast .u16 x₀ >>> (16 - dec offset)))

/-- The step of `chi`: `a ^ ((~b) & c)` of operands narrower than `int`: `KeccakP-400-reference.c` line 206,
`KeccakP-400-64.macros` lines 71-75. -/
def chiStep (a b c : BitVec 16) : Option (BitVec 16) := assign P .u16 [u16 a, u16 b, u16 c] (x₀ ^^^ (~~~ x₁ &&& var 2))

/-- `ISAP_IV1[i] | (ISAP_IV1[i+1] << 8)` as a `UINT16`: `isapk128av20/opt_64/isap.c` lines 192-195, same in
`isapk128v20/opt_64`, and `isapk128av20/avx512/isap.c` lines 176-179. -/
def ivWord (lo hi : Byte) : Option (BitVec 16) := assign P .u16 [u8 lo, u8 hi] (x₀ ||| (x₁ <<< (8 : Expr)))

/-- The four words, from the bytes of `ISAP_IV1`.  `isapk128av20/opt_64/isap.c` lines 192-195. -/
def ivWords (iv : List Byte) : Option (List (BitVec 16)) :=
  (List.range 4).mapM fun i => ivWord P (iv.getD (2 * i) 0) (iv.getD (2 * i + 1) 0)

end Model.Arith
