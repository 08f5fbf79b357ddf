import Verif.Model.AsconOpt
import Verif.C.InlineAsm
/-!
# Models of the assembly versions of `crypto_aead/isapa128av20/*/asconp.h`

bi_32_armv6, bi_32_armv6m, bi_32_armv6m_compact, bi_32_armv7m.  The conversions and round constants are the ones of bi_32
(`asconp.h` lines 31-91, same text).  Each `ROUND` is one block of inline assembly, given here as a list of instructions
on its named operands.  The operands `x0_e`, ... are both inputs and outputs, bound to `s->w[0][0]`, ...; the
temporaries are outputs with an unspecified value before the block (0 here; they are written before they are read; C41 is about
other values and about the assignment of machine registers).  `C_e` and `C_o` are inputs.
-/

namespace Model.Opt
open C

namespace Arm

/-- Operands of the assembly blocks.  `bi_32_armv6m/asconp.h` lines 95-244. -/
inductive Reg where
  | x0e | x0o | x1e | x1o | x2e | x2o | x3e | x3o | x4e | x4o | tmp0 | tmp1 | tmp2 | tmp3 | ce | co
deriving DecidableEq

/-- Input operands (`bi_32_armv6/asconp.h` lines 157-163). -/
def load (s : State) (c : BitVec 64) : Reg → BitVec 32
  | .x0e => Bi32.w0 s.x0
  | .x0o => Bi32.w1 s.x0
  | .x1e => Bi32.w0 s.x1
  | .x1o => Bi32.w1 s.x1
  | .x2e => Bi32.w0 s.x2
  | .x2o => Bi32.w1 s.x2
  | .x3e => Bi32.w0 s.x3
  | .x3o => Bi32.w1 s.x3
  | .x4e => Bi32.w0 s.x4
  | .x4o => Bi32.w1 s.x4
  | .ce => c.setWidth 32
  | .co => (c >>> 32).setWidth 32
  | _ => 0

/-- Output operands.  `bi_32_armv6m/asconp.h` lines 95-244. -/
def store (f : Reg → BitVec 32) : State :=
  ⟨Bi32.lane (f .x0e) (f .x0o), Bi32.lane (f .x1e) (f .x1o), Bi32.lane (f .x2e) (f .x2o), Bi32.lane (f .x3e) (f .x3o),
   Bi32.lane (f .x4e) (f .x4o)⟩

/-- The operands that hold the state.  `bi_32_armv6m/asconp.h` lines 95-244. -/
def words : List Reg := [.x0e, .x0o, .x1e, .x1o, .x2e, .x2o, .x3e, .x3o, .x4e, .x4o]

/-- An assembly block with the constant operands `C_e`, `C_o`.  `ROUND` of `bi_32_armv6m/asconp.h` lines 95-244. -/
def block (prog : List (C.Arm.Ins Reg)) (s : State) (c : BitVec 64) : State := store (C.Arm.exec prog (load s c))

end Arm

namespace Armv6

/-- `bi_32_armv6/asconp.h` lines 99-136. -/
def prog1 : List (C.Arm.Ins Arm.Reg) :=
  [.eor .x0e .x0e (.reg .x4e), .eor .x4e .x4e (.reg .x3e), .eor .x2e .x2e (.reg .x1e), .mvn .tmp0 (.reg .x0e),
   .orr .tmp0 .x4e (.reg .tmp0), .eor .x2e .x2e (.reg .ce), .bic .tmp1 .x2e (.reg .x1e), .eor .x0e .x0e (.reg .tmp1),
   .mvn .tmp1 (.reg .x4e), .orr .tmp1 .x3e (.reg .tmp1), .eor .x2e .x2e (.reg .tmp1), .bic .tmp1 .x1e (.reg .x0e),
   .eor .x4e .x4e (.reg .tmp1), .and .tmp1 .x3e (.reg .x2e), .eor .x1e .x1e (.reg .tmp1),
   .eor .x3e .x3e (.reg .tmp0), .eor .x1e .x1e (.reg .x0e), .eor .x3e .x3e (.reg .x2e), .eor .x0e .x0e (.reg .x4e),
   .eor .x0o .x0o (.reg .x4o), .eor .x4o .x4o (.reg .x3o), .eor .x2o .x2o (.reg .co), .eor .x2o .x2o (.reg .x1o),
   .mvn .tmp0 (.reg .x0o), .orr .tmp0 .x4o (.reg .tmp0), .bic .tmp1 .x2o (.reg .x1o), .eor .x0o .x0o (.reg .tmp1),
   .mvn .tmp1 (.reg .x4o), .orr .tmp1 .x3o (.reg .tmp1), .eor .x2o .x2o (.reg .tmp1), .bic .tmp1 .x1o (.reg .x0o),
   .eor .x4o .x4o (.reg .tmp1), .and .tmp1 .x3o (.reg .x2o), .eor .x1o .x1o (.reg .tmp1),
   .eor .x3o .x3o (.reg .tmp0), .eor .x1o .x1o (.reg .x0o), .eor .x3o .x3o (.reg .x2o), .eor .x0o .x0o (.reg .x4o)]

/-- `bi_32_armv6/asconp.h` lines 137-156. -/
def prog2 : List (C.Arm.Ins Arm.Reg) :=
  [.eor .tmp0 .x0e (.ror .x0o 4), .eor .tmp1 .x0o (.ror .x0e 5), .eor .x0o .x0o (.ror .tmp0 10),
   .eor .x0e .x0e (.ror .tmp1 9), .eor .tmp0 .x1e (.ror .x1e 11), .eor .tmp1 .x1o (.ror .x1o 11),
   .eor .x1o .x1o (.ror .tmp0 20), .eor .x1e .x1e (.ror .tmp1 19), .eor .tmp0 .x2e (.ror .x2o 2),
   .eor .tmp1 .x2o (.ror .x2e 3), .eor .x2o .x2o (.ror .tmp0 1), .eor .x2e .x2e (.reg .tmp1),
   .eor .tmp0 .x3e (.ror .x3o 3), .eor .tmp1 .x3o (.ror .x3e 4), .eor .x3e .x3e (.ror .tmp0 5),
   .eor .x3o .x3o (.ror .tmp1 5), .eor .tmp0 .x4e (.ror .x4e 17), .eor .tmp1 .x4o (.ror .x4o 17),
   .eor .x4o .x4o (.ror .tmp0 4), .eor .x4e .x4e (.ror .tmp1 3)]

/-- The `asm` statement of `ROUND`, `bi_32_armv6/asconp.h` lines 98-164. -/
def asm : C.Arm.Asm Arm.Reg :=
  { inout := Arm.words, temps := [.tmp0, .tmp1], low := []
    inputs := [(.ce, .i), (.co, .i)], code := prog1 ++ prog2 }

/-- `ROUND`, `bi_32_armv6/asconp.h` lines 95-165. -/
def round : State → BitVec 64 → State := Arm.block asm.code

/-- bi_32_armv6: `bi_32_armv6/asconp.h` lines 24-37 -/
def prims : Prims := unrolled round Bi32.k12 Bi32.k6 Bi32.k1 Bi32.toWord Bi32.fromWord Bi32.toBI

end Armv6

namespace Armv6m

/-- `bi_32_armv6m/asconp.h` lines 100-157. -/
def prog1 : List (C.Arm.Ins Arm.Reg) :=
  [.mov .tmp1 (.reg .ce), .eor .x2e .x2e (.reg .tmp1), .eor .x0e .x0e (.reg .x4e), .eor .x4e .x4e (.reg .x3e),
   .eor .x2e .x2e (.reg .x1e), .mov .tmp0 (.reg .x0e), .bic .tmp0 .tmp0 (.reg .x4e), .mov .tmp1 (.reg .x2e),
   .bic .tmp1 .tmp1 (.reg .x1e), .eor .x0e .x0e (.reg .tmp1), .mov .tmp1 (.reg .x4e), .bic .tmp1 .tmp1 (.reg .x3e),
   .eor .x2e .x2e (.reg .tmp1), .mov .tmp2 (.reg .x1e), .bic .tmp2 .tmp2 (.reg .x0e), .eor .tmp2 .x4e (.reg .tmp2),
   .mov .tmp1 (.reg .x3e), .bic .tmp1 .tmp1 (.reg .x2e), .eor .tmp1 .x1e (.reg .tmp1), .eor .tmp0 .x3e (.reg .tmp0),
   .eor .tmp0 .tmp0 (.reg .x2e), .eor .tmp1 .tmp1 (.reg .x0e), .eor .x0e .x0e (.reg .tmp2), .mov .x4e (.reg .x4o),
   .mov .x1e (.reg .x1o), .mov .x3e (.reg .x3o), .mov .x3o (.reg .tmp0), .mov .x1o (.reg .tmp1),
   .mov .tmp0 (.reg .x0o), .mov .tmp1 (.reg .x2o), .mov .x0o (.reg .x0e), .mov .x2o (.reg .x2e), .mov .x0e (.reg .co),
   .eor .tmp1 .tmp1 (.reg .x0e), .eor .tmp0 .tmp0 (.reg .x4e), .eor .x4e .x4e (.reg .x3e),
   .eor .tmp1 .tmp1 (.reg .x1e), .mov .x0e (.reg .tmp0), .bic .x0e .x0e (.reg .x4e), .mov .x2e (.reg .tmp1),
   .bic .x2e .x2e (.reg .x1e), .eor .tmp0 .tmp0 (.reg .x2e), .mov .x2e (.reg .x4e), .bic .x2e .x2e (.reg .x3e),
   .eor .tmp1 .tmp1 (.reg .x2e), .mov .x2e (.reg .x1e), .bic .x2e .x2e (.reg .tmp0), .eor .x4e .x4e (.reg .x2e),
   .mov .x2e (.reg .x3e), .bic .x2e .x2e (.reg .tmp1), .eor .x1e .x1e (.reg .x2e), .eor .x3e .x3e (.reg .x0e),
   .eor .x3e .x3e (.reg .tmp1), .eor .x1e .x1e (.reg .tmp0), .eor .tmp0 .tmp0 (.reg .x4e), .mov .x4o (.reg .tmp1),
   .mov .x2e (.reg .x3o), .mov .x3o (.reg .x1e)]

/-- `bi_32_armv6m/asconp.h` lines 158-235. -/
def prog2 : List (C.Arm.Ins Arm.Reg) :=
  [.mov .tmp1 (.imm 17), .mov .x0e (.reg .tmp2), .ror .x0e .x0e .tmp1, .eor .x0e .tmp2 (.reg .x0e),
   .mov .x1e (.reg .x4e), .ror .x1e .x1e .tmp1, .eor .x1e .x4e (.reg .x1e), .mov .tmp1 (.imm 3),
   .ror .x1e .x1e .tmp1, .eor .tmp2 .tmp2 (.reg .x1e), .mov .tmp1 (.imm 4), .ror .x0e .x0e .tmp1,
   .eor .x4e .x4e (.reg .x0e), .mov .x1e (.reg .x2e), .ror .x1e .x1e .tmp1, .eor .x1e .x3e (.reg .x1e),
   .mov .tmp1 (.imm 3), .mov .x0e (.reg .x3e), .ror .x0e .x0e .tmp1, .eor .x0e .x2e (.reg .x0e), .mov .tmp1 (.imm 5),
   .ror .x0e .x0e .tmp1, .eor .x2e .x2e (.reg .x0e), .ror .x1e .x1e .tmp1, .eor .x3e .x3e (.reg .x1e),
   .mov .x0e (.reg .x0o), .mov .x1e (.reg .x1o), .mov .x1o (.reg .x2e), .mov .x0o (.reg .tmp2),
   .mov .tmp2 (.reg .x4o), .mov .x4o (.reg .x4e), .mov .x4e (.reg .x3o), .mov .x3o (.reg .x3e),
   .mov .x3e (.reg .x0e), .ror .x3e .x3e .tmp1, .eor .x3e .tmp0 (.reg .x3e), .mov .tmp1 (.imm 4),
   .mov .x2e (.reg .tmp0), .ror .x2e .x2e .tmp1, .eor .x2e .x0e (.reg .x2e), .mov .tmp1 (.imm 9),
   .ror .x3e .x3e .tmp1, .eor .x0e .x0e (.reg .x3e), .mov .tmp1 (.imm 10), .ror .x2e .x2e .tmp1,
   .eor .tmp0 .tmp0 (.reg .x2e), .mov .tmp1 (.imm 11), .mov .x2e (.reg .x1e), .ror .x2e .x2e .tmp1,
   .eor .x2e .x1e (.reg .x2e), .mov .x3e (.reg .x4e), .ror .x3e .x3e .tmp1, .eor .x3e .x4e (.reg .x3e),
   .mov .tmp1 (.imm 19), .ror .x3e .x3e .tmp1, .eor .x1e .x1e (.reg .x3e), .mov .tmp1 (.imm 20),
   .ror .x2e .x2e .tmp1, .eor .x4e .x4e (.reg .x2e), .mov .x2e (.reg .x2o), .mov .x3e (.reg .x1o),
   .mov .x1o (.reg .x4e), .mov .x2o (.reg .tmp0), .mov .x4e (.imm 2), .mvn .tmp0 (.reg .tmp2), .ror .tmp0 .tmp0 .x4e,
   .eor .tmp0 .x2e (.reg .tmp0), .mov .x4e (.imm 3), .mvn .tmp1 (.reg .x2e), .ror .tmp1 .tmp1 .x4e,
   .eor .tmp1 .tmp2 (.reg .tmp1), .eor .x2e .x2e (.reg .tmp1), .mov .x4e (.imm 1), .ror .tmp0 .tmp0 .x4e,
   .eor .tmp2 .tmp2 (.reg .tmp0), .mov .x4e (.reg .x0o), .mov .x0o (.reg .x2o), .mov .x2o (.reg .tmp2)]

/-- The `asm` statement of `ROUND`, `bi_32_armv6m/asconp.h` lines 98-243. -/
def asm : C.Arm.Asm Arm.Reg :=
  { inout := Arm.words, temps := [.tmp0, .tmp1, .tmp2], low := [.x0e, .x1e, .x2e, .x3e, .x4e, .tmp0, .tmp1, .tmp2]
    inputs := [(.ce, .ri), (.co, .ri)], code := prog1 ++ prog2 }

/-- `ROUND`, `bi_32_armv6m/asconp.h` lines 95-244. -/
def round : State → BitVec 64 → State := Arm.block asm.code

/-- bi_32_armv6m: `bi_32_armv6m/asconp.h` lines 24-37 -/
def prims : Prims := unrolled round Bi32.k12 Bi32.k6 Bi32.k1 Bi32.toWord Bi32.fromWord Bi32.toBI
/-- bi_32_armv6m_compact: `bi_32_armv6m_compact/asconp.h` lines 24-37 -/
def primsCompact : Prims :=
  viaProunds (switchRounds round Bi32.k12 Bi32.k6 Bi32.k1) Bi32.toWord Bi32.fromWord Bi32.toBI

end Armv6m

namespace Armv7m

/-- `bi_32_armv7m/asconp.h` lines 102-133. -/
def prog1 : List (C.Arm.Ins Arm.Reg) :=
  [.eor .x2e .x2e (.reg .ce), .eor .tmp0 .x1e (.reg .x2e), .eor .tmp1 .x0e (.reg .x4e), .eor .tmp2 .x3e (.reg .x4e),
   .orn .x4e .x3e (.reg .x4e), .eor .x4e .x4e (.reg .tmp0), .eor .x3e .x3e (.reg .x1e), .orr .x3e .x3e (.reg .tmp0),
   .eor .x3e .x3e (.reg .tmp1), .eor .x2e .x2e (.reg .tmp1), .orr .x2e .x2e (.reg .x1e), .eor .x2e .x2e (.reg .tmp2),
   .bic .x1e .x1e (.reg .tmp1), .eor .x1e .x1e (.reg .tmp2), .orr .x0e .x0e (.reg .tmp2),
   .eor .x0e .x0e (.reg .tmp0), .eor .x2o .x2o (.reg .co), .eor .tmp0 .x1o (.reg .x2o), .eor .tmp1 .x0o (.reg .x4o),
   .eor .tmp2 .x3o (.reg .x4o), .orn .x4o .x3o (.reg .x4o), .eor .x4o .x4o (.reg .tmp0), .eor .x3o .x3o (.reg .x1o),
   .orr .x3o .x3o (.reg .tmp0), .eor .x3o .x3o (.reg .tmp1), .eor .x2o .x2o (.reg .tmp1), .orr .x2o .x2o (.reg .x1o),
   .eor .x2o .x2o (.reg .tmp2), .bic .x1o .x1o (.reg .tmp1), .eor .x1o .x1o (.reg .tmp2),
   .orr .x0o .x0o (.reg .tmp2), .eor .x0o .x0o (.reg .tmp0)]

/-- `bi_32_armv7m/asconp.h` lines 134-153. -/
def prog2 : List (C.Arm.Ins Arm.Reg) :=
  [.eor .tmp0 .x2e (.ror .x2o 4), .eor .tmp1 .x2o (.ror .x2e 5), .eor .x2o .x2o (.ror .tmp0 10),
   .eor .x2e .x2e (.ror .tmp1 9), .eor .tmp0 .x3e (.ror .x3e 11), .eor .tmp1 .x3o (.ror .x3o 11),
   .eor .x3o .x3o (.ror .tmp0 20), .eor .x3e .x3e (.ror .tmp1 19), .eor .tmp0 .x4e (.ror .x4o 2),
   .eor .tmp1 .x4o (.ror .x4e 3), .eor .x4o .x4o (.ror .tmp0 1), .eor .x4e .x4e (.reg .tmp1),
   .eor .tmp0 .x0e (.ror .x0o 3), .eor .tmp1 .x0o (.ror .x0e 4), .eor .x0e .x0e (.ror .tmp0 5),
   .eor .x0o .x0o (.ror .tmp1 5), .eor .tmp0 .x1e (.ror .x1e 17), .eor .tmp1 .x1o (.ror .x1o 17),
   .eor .x1o .x1o (.ror .tmp0 4), .eor .x1e .x1e (.ror .tmp1 3)]

/-- The `asm` statement of `ROUND`, `bi_32_armv7m/asconp.h` lines 101-161. -/
def asm : C.Arm.Asm Arm.Reg :=
  { inout := Arm.words, temps := [.tmp0, .tmp1, .tmp2], low := []
    inputs := [(.ce, .i), (.co, .i)], code := prog1 ++ prog2 }

/-- `ROUND`, `bi_32_armv7m/asconp.h` lines 95-162. -/
def round : State → BitVec 64 → State := Arm.block asm.code

/-- bi_32_armv7m: `bi_32_armv7m/asconp.h` lines 24-37 -/
def prims : Prims := unrolled round Bi32.k12 Bi32.k6 Bi32.k1 Bi32.toWord Bi32.fromWord Bi32.toBI

end Armv7m

end Model.Opt
