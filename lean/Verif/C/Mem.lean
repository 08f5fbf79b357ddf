import Verif.Spec.Bytes
/-!
# A small C-like semantics

A piece of C code is a value of type `CM α`: a tree of memory accesses, branches and accesses to global variables that ends
in a return value or in undefined behaviour.  `run` executes it from a memory state.  Memory consists of objects (`blk`),
each an array of bytes; a pointer is an object and a byte offset, as in the C abstract machine.  Accessing a byte the caller
did not make available is undefined behaviour, which is the distinct outcome `Out.ub`.  Every access to an object and every
branch is recorded in a trace.

Simplifications: local variables of the C functions are Lean values, not objects; computing an out-of-range pointer
without dereferencing it is not undefined here; the effective-type rule is not modelled.
-/

namespace C

/-- Pointer: object identifier and byte offset. -/
structure Ptr where
  blk : Nat
  off : Nat
deriving DecidableEq, Repr

/-- `p + n` -/
def Ptr.add (p : Ptr) (n : Nat) : Ptr := ⟨p.blk, p.off + n⟩

instance : HAdd Ptr Nat Ptr := ⟨Ptr.add⟩

/-- Kinds of undefined behaviour (or abnormal termination) the model distinguishes. -/
inductive UB where
  /-- read or write outside the memory the caller made available -/
  | oob (p : Ptr) (w : Nat)
  /-- write to memory that must not be modified -/
  | readonly (p : Ptr)
  /-- access through a pointer that is not suitably aligned -/
  | misaligned (p : Ptr) (al : Nat)
  /-- failed `assert` -/
  | assertFail
  /-- a loop that does not end within the bound given in the model -/
  | diverges
  /-- index outside a local array -/
  | localOob
deriving DecidableEq, Repr

/-- The global variables of the stp variants (`stp` `isap.c` lines 106-107 declares `s0`, `s1`). -/
inductive Glob where
  | s0
  | s1
deriving DecidableEq, Repr

/-- Observable events: address and width of each memory access, outcome of each branch, accesses to globals. -/
inductive Ev where
  | rd (p : Ptr) (w : Nat)
  | wr (p : Ptr) (w : Nat)
  | br (b : Bool)
  | grd (g : Glob)
  | gwr (g : Glob)
deriving DecidableEq, Repr

/-- Fixed facts about the memory the caller makes available. -/
structure Env where
  /-- may the byte be read? (false for every byte of an invalid, null or dangling, pointer's object) -/
  rd : Nat → Nat → Bool
  /-- may the byte be written? -/
  wr : Nat → Nat → Bool
  /-- address of the first byte of an object, used for alignment only -/
  base : Nat → Nat
  /-- is a misaligned multi-byte access undefined behaviour? (yes in ISO C, harmless on x86) -/
  strict : Bool

/-- Mutable state: the bytes of all objects, and the two global variables of the stp variants. -/
structure St where
  mem : Nat → Nat → Byte
  s0 : BitVec 64
  s1 : BitVec 64

/-- C code returning an `α`. -/
inductive CM (α : Type) : Type where
  /-- return -/
  | ret (a : α)
  /-- undefined behaviour -/
  | ub (u : UB)
  /-- read `w` bytes at `p` as one access with alignment requirement `al` -/
  | load (al w : Nat) (p : Ptr) (k : List Byte → CM α)
  /-- write the bytes `bs` at `p` as one access with alignment requirement `al` -/
  | store (al : Nat) (p : Ptr) (bs : List Byte) (k : CM α)
  /-- conditional branch (its direction is observable) -/
  | branch (b : Bool) (k : CM α)
  /-- read a global variable -/
  | getg (g : Glob) (k : BitVec 64 → CM α)
  /-- write a global variable -/
  | setg (g : Glob) (v : BitVec 64) (k : CM α)

namespace CM

/-- Sequencing. -/
protected def bind : CM α → (α → CM β) → CM β
  | .ret a, g => g a
  | .ub u, _ => .ub u
  | .load al w p k, g => .load al w p fun bs => (k bs).bind g
  | .store al p bs k, g => .store al p bs (k.bind g)
  | .branch b k, g => .branch b (k.bind g)
  | .getg x k, g => .getg x fun v => (k v).bind g
  | .setg x v k, g => .setg x v (k.bind g)

instance : Monad CM where
  pure := CM.ret
  bind := CM.bind

end CM

/-- Undefined behaviour. -/
def ub (u : UB) : CM α := .ub u

/-- `assert(b)` -/
def assert (b : Bool) : CM Unit := if b then .ret () else .ub .assertFail

/-- A conditional branch on `b`. -/
def branch (b : Bool) : CM Bool := .branch b (.ret b)

/-- `if (b) f;` -/
def ifThen (b : Bool) (f : CM Unit) : CM Unit := do
  let b ← branch b
  if b then f else pure ()

/-- Read `w` bytes at `p` as one access with alignment requirement `al`. -/
def load (al w : Nat) (p : Ptr) : CM (List Byte) := .load al w p .ret

/-- Write the bytes `bs` at `p` as one access with alignment requirement `al`. -/
def store (al : Nat) (p : Ptr) (bs : List Byte) : CM Unit := .store al p bs (.ret ())

/-- Read a global variable. -/
def getg (g : Glob) : CM (BitVec 64) := .getg g .ret

/-- Write a global variable. -/
def setg (g : Glob) (v : BitVec 64) : CM Unit := .setg g v (.ret ())

/-- `*(unsigned char *)p` -/
def load8 (p : Ptr) : CM Byte := do
  let bs ← load 1 1 p
  pure (bs.getD 0 0)

/-- `*(unsigned char *)p = b` -/
def store8 (p : Ptr) (b : Byte) : CM Unit := store 1 p [b]

/-- Value of a little-endian 64-bit integer stored as `bs`. -/
def le64 (bs : List Byte) : BitVec 64 :=
  (bs.getD 7 0) ++ (bs.getD 6 0) ++ (bs.getD 5 0) ++ (bs.getD 4 0) ++
  (bs.getD 3 0) ++ (bs.getD 2 0) ++ (bs.getD 1 0) ++ (bs.getD 0 0)

/-- Bytes of a little-endian 64-bit integer. -/
def toLe64 (x : BitVec 64) : List Byte := (List.range 8).map fun i => (x >>> (8 * i)).setWidth 8

/-- `*(uint64_t *)p` on a little-endian machine. -/
def load64 (p : Ptr) : CM (BitVec 64) := do
  let bs ← load 8 8 p
  pure (le64 bs)

/-- `*(uint64_t *)p = x` on a little-endian machine. -/
def store64 (p : Ptr) (x : BitVec 64) : CM Unit := store 8 p (toLe64 x)

/-- The length cells of the API, of type `unsigned long long`; the caller passes a properly aligned
object of that type, so no alignment condition is attached. -/
def loadLen (p : Ptr) : CM Nat := do
  let bs ← load 1 8 p
  pure (le64 bs).toNat

/-- Data models of 64-bit platforms: the type `unsigned long` has 64 bits (LP64: Linux, macOS) or 32 bits (LLP64: Windows). -/
inductive DataModel where
  | lp64
  | llp64
  deriving DecidableEq

/-- `ULONG_MAX + 1` -/
def DataModel.ulong : DataModel → Nat
  | lp64 => 2 ^ 64
  | llp64 => 2 ^ 32

/-- `*p = n` for an `unsigned long long` (reduction modulo `2^64`). -/
def storeLen (p : Ptr) (n : Nat) : CM Unit := store 1 p (toLe64 (BitVec.ofNat 64 n))

/-- A read-only byte array argument: an object of the caller or a local array / constant table. -/
inductive Src where
  | ext (p : Ptr)
  | loc (bs : List Byte)

/-- `src[i]` -/
def Src.get (src : Src) (i : Nat) : CM Byte :=
  match src with
  | .ext p => load8 (p + i)
  | .loc bs => if i < bs.length then pure (bs.getD i 0) else ub .localOob

/-- `for (i = i0; n times; i++) body` threading the local variables `σ`. -/
def forN {σ : Type} : (n i : Nat) → (Nat → σ → CM σ) → σ → CM σ
  | 0, _, _, s => do
    let _ ← branch false
    pure s
  | n + 1, i, f, s => do
    let _ ← branch true
    let s' ← f i s
    forN n (i + 1) f s'

/-- `while (len >= r) { body; len -= r; }`; the body knows the number `i` of iterations before it. -/
def whileGe {σ : Type} (r : Nat) (hr : 0 < r) (len i : Nat) (body : Nat → σ → CM σ) (s : σ) : CM σ :=
  if len ≥ r then do
    let _ ← branch true
    let s ← body i s
    whileGe r hr (len - r) (i + 1) body s
  else do
    let _ ← branch false
    pure s
termination_by len

/-- `while (1) { if (rem > r) { full; rem -= r; } else if (rem == r) { last; break; } else { part; break; } }`; the blocks
know the number `i` of iterations before them, `part` also the number of remaining bytes. -/
def whileRem {σ : Type} (r : Nat) (hr : 0 < r) (rem i : Nat) (full last : Nat → σ → CM σ) (part : Nat → Nat → σ → CM σ)
    (s : σ) : CM σ :=
  if rem > r then do
    let _ ← branch true
    let s ← full i s
    whileRem r hr (rem - r) (i + 1) full last part s
  else do
    let _ ← branch false
    let b ← branch (rem = r)
    if b then last i s else part i rem s
termination_by rem

/-! ## Execution -/

/-- Result of running a piece of code. -/
inductive Out (α : Type) where
  | ok (a : α) (s : St) (tr : List Ev)
  | ub (u : UB)

/-- Prepend an event. -/
def Out.cons (ev : Ev) : Out α → Out α
  | .ok a s tr => .ok a s (ev :: tr)
  | .ub u => .ub u

/-- May the `w` bytes at `p` be read? -/
def canRead (e : Env) (p : Ptr) (w : Nat) : Bool := (List.range w).all fun i => e.rd p.blk (p.off + i)

/-- May the `w` bytes at `p` be written? -/
def canWrite (e : Env) (p : Ptr) (w : Nat) : Bool := (List.range w).all fun i => e.wr p.blk (p.off + i)

/-- Is an access with alignment requirement `al` at `p` acceptable? -/
def alignedOk (e : Env) (p : Ptr) (al : Nat) : Bool := !e.strict || (e.base p.blk + p.off) % al == 0

/-- The `n` bytes at `p`. -/
def bytesAt (s : St) (p : Ptr) (n : Nat) : List Byte := (List.range n).map fun i => s.mem p.blk (p.off + i)

/-- Memory after storing the bytes `bs` at `p`. -/
def putBytes (s : St) (p : Ptr) (bs : List Byte) : St :=
  { s with mem := fun b o =>
      if b = p.blk ∧ p.off ≤ o ∧ o < p.off + bs.length then bs.getD (o - p.off) 0 else s.mem b o }

/-- Value of a global variable. -/
def St.getg (s : St) : Glob → BitVec 64
  | .s0 => s.s0
  | .s1 => s.s1

/-- Assignment to a global variable. -/
def St.setg (s : St) : Glob → BitVec 64 → St
  | .s0, v => { s with s0 := v }
  | .s1, v => { s with s1 := v }

/-- Execution. -/
def run : CM α → Env → St → Out α
  | .ret a, _, s => .ok a s []
  | .ub u, _, _ => .ub u
  | .load al w p k, e, s =>
    if canRead e p w then
      if alignedOk e p al then (run (k (bytesAt s p w)) e s).cons (.rd p w) else .ub (.misaligned p al)
    else .ub (.oob p w)
  | .store al p bs k, e, s =>
    if canRead e p bs.length then
      if alignedOk e p al then
        if canWrite e p bs.length then (run k e (putBytes s p bs)).cons (.wr p bs.length) else .ub (.readonly p)
      else .ub (.misaligned p al)
    else .ub (.oob p bs.length)
  | .branch b k, e, s => (run k e s).cons (.br b)
  | .getg g k, e, s => (run (k (s.getg g)) e s).cons (.grd g)
  | .setg g v k, e, s => (run k e (s.setg g v)).cons (.gwr g)

/-- `f` terminates normally from `s` with value `a` and final state `s'`. -/
def Runs (f : CM α) (e : Env) (s : St) (a : α) (s' : St) : Prop := ∃ tr, run f e s = .ok a s' tr

/-- `f` runs into undefined behaviour from `s`. -/
def IsUB (f : CM α) (e : Env) (s : St) : Prop := ∃ u, run f e s = .ub u

end C
