/-!
# Integer expressions of C

Types with their sizes, promotions and conversions (C11 6.3.1), and the operators with their undefined cases (6.5): overflow of a
signed operation, shift of or into the sign bit, shift by a negative amount or by at least the width.  Right shift of a negative
value and conversion to a signed type that cannot represent the value, which are implementation-defined, are treated like
undefined ones, and so is division by or of a negative value, which the code never does.  Signed values are in two's complement.
-/

namespace C.Arith

/-- Implementation-defined sizes in bits. -/
structure Platform where
  int : Nat
  long : Nat
  size : Nat

/-- The platforms considered: 16-bit `int` as on AVR, or 32-bit `int`. -/
inductive Platform.Ok : Platform → Prop where
  | avr : Ok ⟨16, 32, 16⟩
  | ilp32 : Ok ⟨32, 32, 32⟩
  | llp64 : Ok ⟨32, 32, 64⟩
  | lp64 : Ok ⟨32, 64, 64⟩

/-- Integer types: `uint8_t` ... `uint64_t` (or `unsigned char`, `unsigned short`, `unsigned long long`), `int`, `unsigned int`,
`unsigned long`, `size_t`. -/
inductive Ty where
  | u8 | u16 | u32 | u64 | int | uint | ulong | size
  deriving DecidableEq

/-- Width. -/
def Ty.bits (P : Platform) : Ty → Nat
  | .u8 => 8
  | .u16 => 16
  | .u32 => 32
  | .u64 => 64
  | .int => P.int
  | .uint => P.int
  | .ulong => P.long
  | .size => P.size

/-- Only `int` is signed. -/
def Ty.signed : Ty → Bool
  | .int => true
  | _ => false

/-- A value with its type, i.e. its signedness and width. -/
structure Val where
  signed : Bool
  w : Nat
  b : BitVec w
  deriving DecidableEq

/-- The bits of the value, or of the value modulo `2 ^ w`, in a type of width `w`. -/
def Val.bits (w : Nat) (x : Val) : BitVec w := bif x.signed then x.b.signExtend w else x.b.setWidth w

/-- The value in another type. -/
def Val.conv (s : Bool) (w : Nat) (x : Val) : Val := ⟨s, w, x.bits w⟩

/-- The value as an integer. -/
def Val.toInt (x : Val) : Int := bif x.signed then x.b.toInt else x.b.toNat

/-- Integer promotions (6.3.1.1): types narrower than `int` become `int`. -/
def Val.promote (P : Platform) (x : Val) : Val := bif Nat.blt x.w P.int then x.conv true P.int else x

/-- Usual arithmetic conversions (6.3.1.8): to the wider type, of two types of the same width to the unsigned one. -/
def common (P : Platform) (x y : Val) : Bool × Nat :=
  let x := x.promote P
  let y := y.promote P
  bif Nat.blt x.w y.w then (y.signed, y.w) else bif Nat.blt y.w x.w then (x.signed, x.w) else (x.signed && y.signed, x.w)

/-- The type of an unsuffixed constant (6.4.4.1): the first that can represent it of `int`, `long`, `long long`, and, for
hexadecimal constants, the unsigned types between them. -/
def litTy (P : Platform) (hex : Bool) (n : Nat) : Bool × Nat :=
  bif Nat.blt n (2 ^ (P.int - 1)) then (true, P.int)
  else bif hex && Nat.blt n (2 ^ P.int) then (false, P.int)
  else bif Nat.blt n (2 ^ (P.long - 1)) then (true, P.long)
  else bif hex && Nat.blt n (2 ^ P.long) then (false, P.long)
  else bif Nat.blt n (2 ^ 63) then (true, 64) else (false, 64)

inductive BinOp where
  | add | sub | mul | div | rem | and | or | xor | shl | shr

/-- Expressions; `var i` is the `i`-th variable. -/
inductive Expr where
  | var (i : Nat)
  /-- decimal constant -/
  | dec (n : Nat)
  /-- hexadecimal constant -/
  | hex (n : Nat)
  /-- constant with suffix `ull` -/
  | ull (n : Nat)
  | cast (t : Ty) (e : Expr)
  | not (e : Expr)
  | neg (e : Expr)
  | bin (o : BinOp) (a b : Expr)
  /-- `a ? b : c`, where `b` and `c` have the same promoted type -/
  | cond (a b c : Expr)

instance (n : Nat) : OfNat Expr n := ⟨.dec n⟩
instance : Add Expr := ⟨.bin .add⟩
instance : Sub Expr := ⟨.bin .sub⟩
instance : Mul Expr := ⟨.bin .mul⟩
instance : Div Expr := ⟨.bin .div⟩
instance : Mod Expr := ⟨.bin .rem⟩
instance : Neg Expr := ⟨.neg⟩
instance : Complement Expr := ⟨.not⟩
instance : AndOp Expr := ⟨.bin .and⟩
instance : OrOp Expr := ⟨.bin .or⟩
instance : XorOp Expr := ⟨.bin .xor⟩
instance : HShiftLeft Expr Expr Expr := ⟨.bin .shl⟩
instance : HShiftRight Expr Expr Expr := ⟨.bin .shr⟩

/-- `x << n` with promoted operands. -/
def shl (x : Val) (n : Int) : Option Val :=
  if n < 0 ∨ (x.w : Int) ≤ n then none
  else bif x.signed then
    if x.b.msb = true ∨ 2 ^ (x.w - 1) ≤ x.b.toNat * 2 ^ n.toNat then none else some ⟨x.signed, x.w, x.b <<< n.toNat⟩
  else some ⟨x.signed, x.w, x.b <<< n.toNat⟩

/-- `x >> n` with promoted operands. -/
def shr (x : Val) (n : Int) : Option Val :=
  if n < 0 ∨ (x.w : Int) ≤ n ∨ (x.signed && x.b.msb) = true then none else some ⟨x.signed, x.w, x.b >>> n.toNat⟩

/-- The operators after conversion of the operands to the common type with signedness `s`. -/
def binConv (s : Bool) (w : Nat) (a b : BitVec w) : BinOp → Option Val
  | .add => if s = true ∧ a.saddOverflow b then none else some ⟨s, w, a + b⟩
  | .sub => if s = true ∧ a.ssubOverflow b then none else some ⟨s, w, a - b⟩
  | .mul => if s = true ∧ a.smulOverflow b then none else some ⟨s, w, a * b⟩
  | .div => if b = 0 ∨ s = true ∧ (a.msb || b.msb) then none else some ⟨s, w, a / b⟩
  | .rem => if b = 0 ∨ s = true ∧ (a.msb || b.msb) then none else some ⟨s, w, a % b⟩
  | .and => some ⟨s, w, a &&& b⟩
  | .or => some ⟨s, w, a ||| b⟩
  | .xor => some ⟨s, w, a ^^^ b⟩
  | .shl => none
  | .shr => none

/-- The operators for operands with the common type `c`. -/
def binAt (c : Bool × Nat) (x y : Val) (o : BinOp) : Option Val := binConv c.1 c.2 (x.bits c.2) (y.bits c.2) o

/-- Binary operators: shifts promote each operand for itself (6.5.7), the others convert to the common type. -/
def binary (P : Platform) (o : BinOp) (x y : Val) : Option Val :=
  match o with
  | .shl => shl (x.promote P) (y.promote P).toInt
  | .shr => shr (x.promote P) (y.promote P).toInt
  | o => binAt (common P x y) x y o

/-- Conversion to the type `t`, by a cast or an assignment. -/
def castTo (P : Platform) (t : Ty) (x : Val) : Option Val :=
  if t.signed = true ∧ (x.conv t.signed (t.bits P)).toInt ≠ x.toInt then none else some (x.conv t.signed (t.bits P))

/-- Value of an expression; `none` for undefined behaviour. -/
def eval (P : Platform) (ρ : List Val) : Expr → Option Val
  | .var i => ρ[i]?
  | .dec n => some ⟨(litTy P false n).1, (litTy P false n).2, BitVec.ofNat _ n⟩
  | .hex n => some ⟨(litTy P true n).1, (litTy P true n).2, BitVec.ofNat _ n⟩
  | .ull n => some ⟨false, 64, BitVec.ofNat _ n⟩
  | .cast t e => (eval P ρ e).bind (castTo P t)
  | .not e => (eval P ρ e).map fun x => ⟨(x.promote P).signed, (x.promote P).w, ~~~ (x.promote P).b⟩
  | .neg e => (eval P ρ e).bind fun x =>
      if (x.promote P).signed = true ∧ (x.promote P).b.negOverflow = true then none
      else some ⟨(x.promote P).signed, (x.promote P).w, - (x.promote P).b⟩
  | .bin o a b => (eval P ρ a).bind fun x => (eval P ρ b).bind fun y => binary P o x y
  | .cond a b c => (eval P ρ a).bind fun x => bif x.toInt == 0 then (eval P ρ c).map (Val.promote P) else (eval P ρ b).map (Val.promote P)

/-- Variables of the unsigned types. -/
abbrev u8 (x : BitVec 8) : Val := ⟨false, 8, x⟩
abbrev u16 (x : BitVec 16) : Val := ⟨false, 16, x⟩
abbrev u32 (x : BitVec 32) : Val := ⟨false, 32, x⟩
abbrev u64 (x : BitVec 64) : Val := ⟨false, 64, x⟩
/-- Variables whose type has a size that depends on the platform. -/
abbrev ofNat (P : Platform) (t : Ty) (n : Nat) : Val := ⟨t.signed, t.bits P, BitVec.ofNat _ n⟩

/-- Value of an expression after conversion to an unsigned type, as in an assignment. -/
def assign (P : Platform) (t : Ty) (ρ : List Val) (e : Expr) : Option (BitVec (t.bits P)) := (eval P ρ e).map fun x => x.bits (t.bits P)

end C.Arith
