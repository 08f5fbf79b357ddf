import Verif.C.Thumb
import Verif.Spec.Keccak
/-!
# Calling the assembler routines

What the caller of `KeccakP400_Permute_Nrounds` and of the other routines in the assembler files has to provide, and what it can rely
on afterwards.
-/

namespace C.Thumb
open Spec

/-- The `n` bytes from `p` on. -/
def In (p : BitVec 32) (n : Nat) (a : BitVec 32) : Prop := ∃ i < n, a = p + BitVec.ofNat 32 i

/-- Two areas without a common byte. -/
def Sep (p : BitVec 32) (n : Nat) (q : BitVec 32) (k : Nat) : Prop := ∀ a, In p n a → ¬ In q k a

/-- Nothing changed outside an area. -/
def Only (R : BitVec 32 → Prop) (m m' : BitVec 32 → Byte) : Prop := ∀ a, ¬ R a → m' a = m a

/-- The `n` bytes from `p` on may be read. -/
def CanLoad (P : Plat) (p : BitVec 32) (n : Nat) : Prop := ∀ a, In p n a → P.rd a = true

/-- The `n` bytes from `p` on may be written. -/
def CanStore (P : Plat) (p : BitVec 32) (n : Nat) : Prop := ∀ a, In p n a → P.wr a = true

/-- The `n` bytes from `p` on. -/
def bytes (m : BitVec 32 → Byte) (p : BitVec 32) (n : Nat) : List Byte := (List.range n).map fun i => m (p + BitVec.ofNat 32 i)

/-- The memory at the call of a permutation routine: a state at `p`, room for `frame` bytes below the stack pointer, and the constants
`tab`, of 16 bits each, at `t`. -/
structure Areas (P : Plat) (m : Mach) (p : BitVec 32) (frame : Nat) (t : BitVec 32) (tab : List (BitVec 16)) : Prop where
  /-- The state may be read and written, and its address is a multiple of 4. -/
  stateRd : CanLoad P p 50
  stateWr : CanStore P p 50
  stateAl : p.toNat % 4 = 0
  /-- So may the stack, and the stack pointer is a multiple of 4. -/
  stackRd : CanLoad P (m.reg .sp - BitVec.ofNat 32 frame) frame
  stackWr : CanStore P (m.reg .sp - BitVec.ofNat 32 frame) frame
  stackAl : (m.reg .sp).toNat % 4 = 0
  /-- The table may be read, its address is even, and it contains the constants. -/
  tableRd : CanLoad P t (2 * tab.length)
  tableAl : t.toNat % 2 = 0
  tableIs : ∀ i < tab.length, get16 m.mem (t + BitVec.ofNat 32 (2 * i)) = tab.getD i 0
  /-- They do not overlap. -/
  stateStack : Sep p 50 (m.reg .sp - BitVec.ofNat 32 frame) frame
  tableState : Sep t (2 * tab.length) p 50
  tableStack : Sep t (2 * tab.length) (m.reg .sp - BitVec.ofNat 32 frame) frame

/-- The memory at the call of `AddBytes`: `n` bytes of the state at `q`, as many bytes of data at `d`, 8 bytes of stack. -/
structure AddArgs (P : Plat) (sp q d : BitVec 32) (n : Nat) : Prop where
  stateRd : CanLoad P q n
  stateWr : CanStore P q n
  dataRd : CanLoad P d n
  stackRd : CanLoad P (sp - BitVec.ofNat 32 8) 8
  stackWr : CanStore P (sp - BitVec.ofNat 32 8) 8
  stackAl : sp.toNat % 4 = 0
  stateData : Sep q n d n
  stateStack : Sep q n (sp - BitVec.ofNat 32 8) 8
  dataStack : Sep d n (sp - BitVec.ofNat 32 8) 8

/-- The memory at the call of `OverwriteBytes` and `ExtractBytes`: `n` bytes to read at `d`, as many to write at `q`. -/
structure CopyArgs (P : Plat) (q d : BitVec 32) (n : Nat) : Prop where
  dstWr : CanStore P q n
  srcRd : CanLoad P d n
  sep : Sep q n d n

/-- The memory at the call of `ExtractAndAddBytes`: `n` bytes of the state at `q`, as many of input at `d`, as many of output at `o`
(the same bytes or others), 8 bytes of stack below the stack pointer and the last argument above. -/
structure ExtractAddArgs (P : Plat) (sp q d o : BitVec 32) (n : Nat) : Prop where
  stateRd : CanLoad P q n
  inRd : CanLoad P d n
  outWr : CanStore P o n
  stackRd : CanLoad P (sp - BitVec.ofNat 32 8) 12
  stackWr : CanStore P (sp - BitVec.ofNat 32 8) 8
  stackAl : sp.toNat % 4 = 0
  stateOut : Sep q n o n
  inOut : d = o ∨ Sep d n o n
  outStack : Sep o n (sp - BitVec.ofNat 32 8) 12
  stateStack : Sep q n (sp - BitVec.ofNat 32 8) 8
  inStack : Sep d n (sp - BitVec.ofNat 32 8) 8

/-- The registers that a routine has to preserve (Procedure Call Standard for the Arm Architecture, section 6.1.1): `r4`-`r11` and
`sp`. -/
structure CalleeSaved (f f' : Reg → BitVec 32) : Prop where
  r4 : f' .r4 = f .r4
  r5 : f' .r5 = f .r5
  r6 : f' .r6 = f .r6
  r7 : f' .r7 = f .r7
  r8 : f' .r8 = f .r8
  r9 : f' .r9 = f .r9
  r10 : f' .r10 = f .r10
  r11 : f' .r11 = f .r11
  sp : f' .sp = f .sp

end C.Thumb
