import Verif.Spec.Bytes
/-!
# A processor with the Thumb instructions used by the `.s` files under `/repo`

Registers `r0`-`r12`, `sp`, `lr`, a byte-addressed little-endian memory of 2³² bytes and the flags `Z` and `C` (no modelled
instruction reads `N` or `V`).  The semantics of each instruction is that of the ARMv6-M and ARMv7-M architecture reference manuals,
restricted to the forms that occur.  A program is a list of instructions and labels.  The platform says which addresses may be
read and which may be written; any other access is a fault, and so is a misaligned access where the architecture demands
alignment.  Instruction addresses and encodings are not modelled: a position in the program is the rest of the list.
-/

namespace C.Thumb
open Spec

/-- Registers. -/
inductive Reg where
  | r0 | r1 | r2 | r3 | r4 | r5 | r6 | r7 | r8 | r9 | r10 | r11 | r12 | sp | lr
deriving DecidableEq, Repr

/-- Registers and memory. -/
structure Mach where
  reg : Reg → BitVec 32
  mem : BitVec 32 → Byte
  /-- zero flag -/
  z : Bool
  /-- carry flag; after a subtraction it is clear if there was a borrow -/
  c : Bool

/-- The platform. -/
structure Plat where
  /-- addresses that may be read -/
  rd : BitVec 32 → Bool
  /-- addresses that may be written -/
  wr : BitVec 32 → Bool
  /-- a misaligned `ldrh`, `strh`, `ldr` or `str` is a fault, as on ARMv6-M -/
  strict : Bool

/-- Shifted register operand. -/
inductive Sh where
  | none
  | lsl (n : Nat)
  | lsr (n : Nat)
  | ror (n : Nat)

/-- Second operand. -/
inductive Opd where
  | reg (r : Reg) (s : Sh := .none)
  | imm (n : Nat)

/-- Logical operations. -/
inductive Op where
  | eor | orr | and | bic

/-- Instructions; `L` is the type of labels.  `s` tells whether the instruction sets the flags. -/
inductive Ins (L : Type) where
  /-- `ldrh t, [n, #o]` -/
  | ldrh (t n : Reg) (o : Nat)
  /-- `ldrh t, [n], #o` -/
  | ldrhPost (t n : Reg) (o : Nat)
  /-- `ldr t, [n, #o]` -/
  | ldr (t n : Reg) (o : Nat)
  /-- `ldrb t, [n, m]` -/
  | ldrb (t n m : Reg)
  /-- `strh t, [n, #o]` -/
  | strh (t n : Reg) (o : Nat)
  /-- `strb t, [n, m]` -/
  | strb (t n m : Reg)
  /-- `strb t, [n], #o` -/
  | strbPost (t n : Reg) (o : Nat)
  /-- `str t, [n], #o` -/
  | strPost (t n : Reg) (o : Nat)
  /-- `ldm n!, { … }`; `n` is not in the list -/
  | ldm (n : Reg) (rs : List Reg)
  /-- `stm n!, { … }`; `n` is not in the list -/
  | stm (n : Reg) (rs : List Reg)
  /-- `push { … }` -/
  | push (rs : List Reg)
  /-- `pop { … }` -/
  | pop (rs : List Reg)
  /-- `pop { …, pc }` -/
  | popPc (rs : List Reg)
  /-- `eor d, a, b` and the like -/
  | log (op : Op) (s : Bool) (d a : Reg) (b : Opd)
  /-- `mov d, b` -/
  | mov (s : Bool) (d : Reg) (b : Opd)
  /-- `lsl d, a, #n` with 0 < `n` < 32 -/
  | lsl (s : Bool) (d a : Reg) (n : Nat)
  /-- `lsr d, a, #n` with 0 < `n` < 32 -/
  | lsr (s : Bool) (d a : Reg) (n : Nat)
  /-- `rors d, a, b` -/
  | ror (d a b : Reg)
  /-- `uxth d, a, ROR #n` -/
  | uxth (d a : Reg) (n : Nat := 0)
  /-- `sxth d, a` -/
  | sxth (d a : Reg)
  /-- `rev16 d, a` -/
  | rev16 (d a : Reg)
  /-- `bfi d, a, #16, #16` -/
  | bfi16 (d a : Reg)
  /-- `add d, a, b` -/
  | add (s : Bool) (d a : Reg) (b : Opd)
  /-- `sub d, a, b` -/
  | sub (s : Bool) (d a : Reg) (b : Opd)
  /-- `cmp a, b` -/
  | cmp (a : Reg) (b : Opd)
  /-- `adr d, l` -/
  | adr (d : Reg) (l : L)
  | nop
  /-- `b l` -/
  | b (l : L)
  /-- `beq l` -/
  | beq (l : L)
  /-- `bne l` -/
  | bne (l : L)
  /-- `bcs l` -/
  | bcs (l : L)
  /-- `bcc l` -/
  | bcc (l : L)
  /-- `bx lr` -/
  | bxLr

/-- Write a register. -/
def set (f : Reg → BitVec 32) (d : Reg) (v : BitVec 32) : Reg → BitVec 32 := fun r => if r = d then v else f r

/-! ## Memory -/

/-- The `n` addresses from `a` on are all permitted. -/
def may (ok : BitVec 32 → Bool) (a : BitVec 32) (n : Nat) : Bool := (List.range n).all fun i => ok (a + BitVec.ofNat 32 i)

/-- `a` is a multiple of `n`, or need not be. -/
def aligned (strict : Bool) (a : BitVec 32) (n : Nat) : Bool := !strict || a.toNat % n == 0

/-- Two bytes. -/
def get16 (m : BitVec 32 → Byte) (a : BitVec 32) : BitVec 16 := m (a + 1) ++ m a
/-- Four bytes. -/
def get32 (m : BitVec 32 → Byte) (a : BitVec 32) : BitVec 32 := get16 m (a + 2) ++ get16 m a

/-- Replace a byte. -/
def put8 (m : BitVec 32 → Byte) (a : BitVec 32) (v : Byte) : BitVec 32 → Byte := fun x => if x = a then v else m x
/-- Replace two bytes. -/
def put16 (m : BitVec 32 → Byte) (a : BitVec 32) (v : BitVec 16) : BitVec 32 → Byte :=
  put8 (put8 m a (v.setWidth 8)) (a + 1) ((v >>> 8).setWidth 8)
/-- Replace four bytes. -/
def put32 (m : BitVec 32 → Byte) (a : BitVec 32) (v : BitVec 32) : BitVec 32 → Byte :=
  put16 (put16 m a (v.setWidth 16)) (a + 2) ((v >>> 16).setWidth 16)

/-- Load registers from consecutive words. -/
def loadRegs (m : BitVec 32 → Byte) : BitVec 32 → List Reg → (Reg → BitVec 32) → Reg → BitVec 32
  | _, [], f => f
  | a, r :: rs, f => loadRegs m (a + 4) rs (set f r (get32 m a))

/-- Store registers to consecutive words. -/
def storeRegs (f : Reg → BitVec 32) : BitVec 32 → List Reg → (BitVec 32 → Byte) → BitVec 32 → Byte
  | _, [], m => m
  | a, r :: rs, m => storeRegs f (a + 4) rs (put32 m a (f r))

/-! ## Operands -/

/-- Value of a shifted register. -/
def Sh.val : Sh → BitVec 32 → BitVec 32
  | .none, v => v
  | .lsl n, v => v <<< n
  | .lsr n, v => v >>> n
  | .ror n, v => v.rotateRight n

/-- Value of an operand. -/
def Opd.val (f : Reg → BitVec 32) : Opd → BitVec 32
  | .reg r s => s.val (f r)
  | .imm n => BitVec.ofNat 32 n

/-- Value of a logical operation. -/
def Op.val : Op → BitVec 32 → BitVec 32 → BitVec 32
  | .eor, a, b => a ^^^ b
  | .orr, a, b => a ||| b
  | .and, a, b => a &&& b
  | .bic, a, b => a &&& ~~~ b

/-- `rev16`: swap the bytes of each half. -/
def rev16 (r : BitVec 32) : BitVec 32 :=
  r.extractLsb' 16 8 ++ r.extractLsb' 24 8 ++ r.extractLsb' 0 8 ++ r.extractLsb' 8 8

/-- The zero flag after an instruction with result `v`. -/
def zf (s : Bool) (v : BitVec 32) (old : Bool) : Bool := if s then v == 0 else old

/-- A flag that the instruction sets to `new`. -/
def fl (s new old : Bool) : Bool := if s then new else old

/-! ## Instructions -/

variable {L : Type}

/-- One instruction other than a branch; `none` is a fault (or a branch).  `adr` gives the addresses of labels.  Logical operations
and moves do not change `C`: none of the flag-setting ones has a shifted operand. -/
def exec1 (P : Plat) (adr : L → BitVec 32) : Ins L → Mach → Option Mach
  | .ldrh t n o, ⟨f, m, z, c⟩ =>
    let a := f n + BitVec.ofNat 32 o
    if may P.rd a 2 && aligned P.strict a 2 then some ⟨set f t ((get16 m a).setWidth 32), m, z, c⟩ else none
  | .ldrhPost t n o, ⟨f, m, z, c⟩ =>
    let a := f n
    if may P.rd a 2 && aligned P.strict a 2 then
      some ⟨set (set f n (a + BitVec.ofNat 32 o)) t ((get16 m a).setWidth 32), m, z, c⟩
    else none
  | .ldr t n o, ⟨f, m, z, c⟩ =>
    let a := f n + BitVec.ofNat 32 o
    if may P.rd a 4 && aligned P.strict a 4 then some ⟨set f t (get32 m a), m, z, c⟩ else none
  | .ldrb t n k, ⟨f, m, z, c⟩ =>
    let a := f n + f k
    if may P.rd a 1 then some ⟨set f t ((m a).setWidth 32), m, z, c⟩ else none
  | .strh t n o, ⟨f, m, z, c⟩ =>
    let a := f n + BitVec.ofNat 32 o
    if may P.wr a 2 && aligned P.strict a 2 then some ⟨f, put16 m a ((f t).setWidth 16), z, c⟩ else none
  | .strb t n k, ⟨f, m, z, c⟩ =>
    let a := f n + f k
    if may P.wr a 1 then some ⟨f, put8 m a ((f t).setWidth 8), z, c⟩ else none
  | .strbPost t n o, ⟨f, m, z, c⟩ =>
    let a := f n
    if may P.wr a 1 then some ⟨set f n (a + BitVec.ofNat 32 o), put8 m a ((f t).setWidth 8), z, c⟩ else none
  | .strPost t n o, ⟨f, m, z, c⟩ =>
    let a := f n
    if may P.wr a 4 && aligned P.strict a 4 then some ⟨set f n (a + BitVec.ofNat 32 o), put32 m a (f t), z, c⟩ else none
  | .ldm n rs, ⟨f, m, z, c⟩ =>
    let a := f n
    if may P.rd a (4 * rs.length) && aligned true a 4 then
      some ⟨set (loadRegs m a rs f) n (a + BitVec.ofNat 32 (4 * rs.length)), m, z, c⟩
    else none
  | .stm n rs, ⟨f, m, z, c⟩ =>
    let a := f n
    if may P.wr a (4 * rs.length) && aligned true a 4 then
      some ⟨set f n (a + BitVec.ofNat 32 (4 * rs.length)), storeRegs f a rs m, z, c⟩
    else none
  | .push rs, ⟨f, m, z, c⟩ =>
    let a := f .sp - BitVec.ofNat 32 (4 * rs.length)
    if may P.wr a (4 * rs.length) && aligned true a 4 then some ⟨set f .sp a, storeRegs f a rs m, z, c⟩ else none
  | .pop rs, ⟨f, m, z, c⟩ =>
    let a := f .sp
    if may P.rd a (4 * rs.length) && aligned true a 4 then
      some ⟨set (loadRegs m a rs f) .sp (a + BitVec.ofNat 32 (4 * rs.length)), m, z, c⟩
    else none
  | .log op s d a b, ⟨f, m, z, c⟩ => let v := op.val (f a) (b.val f); some ⟨set f d v, m, zf s v z, c⟩
  | .mov s d b, ⟨f, m, z, c⟩ => let v := b.val f; some ⟨set f d v, m, zf s v z, c⟩
  | .lsl s d a n, ⟨f, m, z, c⟩ => let v := f a <<< n; some ⟨set f d v, m, zf s v z, fl s ((f a).getLsbD (32 - n)) c⟩
  | .lsr s d a n, ⟨f, m, z, c⟩ => let v := f a >>> n; some ⟨set f d v, m, zf s v z, fl s ((f a).getLsbD (n - 1)) c⟩
  | .ror d a b, ⟨f, m, z, c⟩ =>
    let n := (f b).toNat % 256
    let v := (f a).rotateRight n
    some ⟨set f d v, m, zf true v z, fl (n != 0) v.msb c⟩
  | .uxth d a n, ⟨f, m, z, c⟩ => some ⟨set f d ((((f a).rotateRight n).setWidth 16).setWidth 32), m, z, c⟩
  | .sxth d a, ⟨f, m, z, c⟩ => some ⟨set f d (((f a).setWidth 16).signExtend 32), m, z, c⟩
  | .rev16 d a, ⟨f, m, z, c⟩ => some ⟨set f d (rev16 (f a)), m, z, c⟩
  | .bfi16 d a, ⟨f, m, z, c⟩ => some ⟨set f d ((f a).setWidth 16 ++ (f d).setWidth 16), m, z, c⟩
  | .add s d a b, ⟨f, m, z, c⟩ =>
    let v := f a + b.val f
    some ⟨set f d v, m, zf s v z, fl s (decide (2 ^ 32 ≤ (f a).toNat + (b.val f).toNat)) c⟩
  | .sub s d a b, ⟨f, m, z, c⟩ =>
    let v := f a - b.val f
    some ⟨set f d v, m, zf s v z, fl s (decide ((b.val f).toNat ≤ (f a).toNat)) c⟩
  | .cmp a b, ⟨f, m, _, _⟩ => some ⟨f, m, f a - b.val f == 0, decide ((b.val f).toNat ≤ (f a).toNat)⟩
  | .adr d l, ⟨f, m, z, c⟩ => some ⟨set f d (adr l), m, z, c⟩
  | .nop, m => some m
  | _, _ => none

/-! ## Programs -/

/-- A line of a program. -/
inductive Item (L : Type) where
  | lab (l : L)
  | ins (i : Ins L)

/-- The program from the label `l` on. -/
def target [DecidableEq L] : List (Item L) → L → List (Item L)
  | [], _ => []
  | .lab l' :: r, l => if l' = l then r else target r l
  | .ins _ :: r, l => target r l

/-- State of the execution. -/
inductive Cfg (L : Type) where
  /-- the next instruction is the first of the list -/
  | run (rest : List (Item L)) (m : Mach)
  /-- returned to the address `pc` -/
  | ret (pc : BitVec 32) (m : Mach)
  | fault

variable [DecidableEq L]

/-- One step. -/
def step (P : Plat) (adr : L → BitVec 32) (prog : List (Item L)) : Cfg L → Cfg L
  | .run [] _ => .fault
  | .run (.lab _ :: r) m => .run r m
  | .run (.ins (.b l) :: _) m => .run (target prog l) m
  | .run (.ins (.beq l) :: r) m => .run (if m.z then target prog l else r) m
  | .run (.ins (.bne l) :: r) m => .run (if m.z then r else target prog l) m
  | .run (.ins (.bcs l) :: r) m => .run (if m.c then target prog l else r) m
  | .run (.ins (.bcc l) :: r) m => .run (if m.c then r else target prog l) m
  | .run (.ins .bxLr :: _) m => .ret (m.reg .lr) m
  | .run (.ins (.popPc rs) :: _) ⟨f, m, z, c⟩ =>
    let a := f .sp
    if may P.rd a (4 * rs.length + 4) && aligned true a 4 then
      .ret (get32 m (a + BitVec.ofNat 32 (4 * rs.length)))
        ⟨set (loadRegs m a rs f) .sp (a + BitVec.ofNat 32 (4 * rs.length + 4)), m, z, c⟩
    else .fault
  | .run (.ins i :: r) m =>
    match exec1 P adr i m with
    | some m' => .run r m'
    | none => .fault
  | c => c

/-- `n` steps. -/
def steps (P : Plat) (adr : L → BitVec 32) (prog : List (Item L)) : Nat → Cfg L → Cfg L
  | 0, c => c
  | n + 1, c => steps P adr prog n (step P adr prog c)

/-- Call of the function at the label `l`: it returns to the address in `lr`, in machine state `m'`. -/
def Returns (P : Plat) (adr : L → BitVec 32) (prog : List (Item L)) (l : L) (m m' : Mach) : Prop :=
  ∃ n, steps P adr prog n (.run (target prog l) m) = .ret (m.reg .lr) m'

end C.Thumb
