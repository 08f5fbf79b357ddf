import Verif.C.Thumb
/-!
# The assembler files of the ISAP-K implementations for ARM, instruction by instruction

`KeccakP-400-armv6m-le-gcc.s` and `KeccakP-400-armv7m-le-gcc.s`, the same text under `isapk128av20` and `isapk128v20`.  Macros are
functions from their arguments to lists of instructions; `_ba`, `_be`, ... (`.equ` directives) are replaced by their values.  The
tables of round constants are kept apart from the instructions: their addresses are the parameter `adr` of `C.Thumb.step`.
-/

namespace Model.KeccakAsm
open C.Thumb

/-! ## `KeccakP-400-armv6m-le-gcc.s` -/

namespace V6

/-- The labels of `KeccakP-400-armv6m-le-gcc.s`. -/
inductive Label where
  | staticInitialize
  | init
  | addByte
  | addBytes
  | addBytesLoop
  | addBytesExit
  | overwriteBytes
  | overwriteBytesLoop
  | overwriteBytesExit
  | overwriteWithZeroes
  | overwriteWithZeroesLoopBytes
  | overwriteWithZeroesExit
  | extractBytes
  | extractBytesLoop
  | extractBytesExit
  | extractAndAddBytes
  | extractAndAddBytesLoop
  | extractAndAddBytesExit
  | permuteNrounds
  | permuteNroundsGoRoundLoop
  | permute20rounds
  | roundConstants20
  | roundConstants
  | permuteRoundLoop
  | permuteRoundOdd
  | permuteDone
deriving DecidableEq

/-- Lines 53-63. -/
def xor5 (result ptr : Reg) (b g k m s : Nat) : List (Ins Label) :=
  [.ldrh result ptr b, .ldrh .r7 ptr g, .log .eor true result result (.reg .r7), .ldrh .r7 ptr k,
   .log .eor true result result (.reg .r7), .ldrh .r7 ptr m, .log .eor true result result (.reg .r7), .ldrh .r7 ptr s,
   .log .eor true result result (.reg .r7)]

/-- Lines 65-74. -/
def xorrol (b yy : Reg) (rr : Nat) : List (Ins Label) :=
  [.mov false .r7 (.reg yy), .log .eor true b b (.reg .r7)] ++
  (if rr ≠ 0 then [.lsl true .r7 b rr, .lsr true b b (16 - rr), .log .orr true b b (.reg .r7), .uxth b b] else [])

/-- Lines 76-82. -/
def rolxor (d a b rot : Reg) : List (Ins Label) :=
  [.sxth .r7 b, .ror .r7 .r7 rot, .log .eor true .r7 .r7 (.reg a), .uxth .r7 .r7, .mov false d (.reg .r7)]

/-- Lines 84-89. -/
def xandnot (resptr : Reg) (resofs : Nat) (aa bb cc temp : Reg) : List (Ins Label) :=
  [.mov false temp (.reg cc), .log .bic true temp temp (.reg bb), .log .eor true temp temp (.reg aa), .strh temp resptr resofs]

/-- Lines 91-98. -/
def xandnotRC (resptr : Reg) (resofs : Nat) (aa bb cc : Reg) (rco : Nat) : List (Ins Label) :=
  [.log .bic true cc cc (.reg bb), .log .eor true cc cc (.reg aa), .mov false .r7 (.reg .r8), .ldrh bb .r7 rco,
   .log .eor true cc cc (.reg bb), .strh cc resptr resofs]

/-- Lines 100-197. -/
def keccakRound (sOut sIn : Reg) (rco : Nat) : List (Ins Label) :=
  [.push [sOut], .mov true sOut (.imm 31)] ++ xor5 .r1 sIn (0*2) (5*2) (10*2) (15*2) (20*2) ++
  xor5 .r2 sIn (1*2) (6*2) (11*2) (16*2) (21*2) ++ xor5 .r3 sIn (2*2) (7*2) (12*2) (17*2) (22*2) ++
  xor5 .r4 sIn (3*2) (8*2) (13*2) (18*2) (23*2) ++ xor5 .r5 sIn (4*2) (9*2) (14*2) (19*2) (24*2) ++ rolxor .r9 .r5 .r2 sOut ++
  rolxor .r10 .r1 .r3 sOut ++ rolxor .r11 .r2 .r4 sOut ++ rolxor .r12 .r3 .r5 sOut ++ rolxor .lr .r4 .r1 sOut ++
  [.pop [sOut], .ldrh .r1 sIn (3*2), .ldrh .r2 sIn (9*2), .ldrh .r3 sIn (10*2), .ldrh .r4 sIn (16*2), .ldrh .r5 sIn (22*2)] ++
  xorrol .r1 .r12 12 ++ xorrol .r2 .lr 4 ++ xorrol .r3 .r9 3 ++ xorrol .r4 .r10 13 ++ xorrol .r5 .r11 13 ++
  xandnot sOut (5*2) .r1 .r2 .r3 .r7 ++ xandnot sOut (6*2) .r2 .r3 .r4 .r7 ++ xandnot sOut (7*2) .r3 .r4 .r5 .r7 ++
  xandnot sOut (8*2) .r4 .r5 .r1 .r7 ++ xandnot sOut (9*2) .r5 .r1 .r2 .r7 ++
  [.ldrh .r1 sIn (1*2), .ldrh .r2 sIn (7*2), .ldrh .r3 sIn (13*2), .ldrh .r4 sIn (19*2), .ldrh .r5 sIn (20*2)] ++
  xorrol .r1 .r10 1 ++ xorrol .r2 .r11 6 ++ xorrol .r3 .r12 9 ++ xorrol .r4 .lr 8 ++ xorrol .r5 .r9 2 ++
  xandnot sOut (10*2) .r1 .r2 .r3 .r7 ++ xandnot sOut (11*2) .r2 .r3 .r4 .r7 ++ xandnot sOut (12*2) .r3 .r4 .r5 .r7 ++
  xandnot sOut (13*2) .r4 .r5 .r1 .r7 ++ xandnot sOut (14*2) .r5 .r1 .r2 .r7 ++
  [.ldrh .r1 sIn (4*2), .ldrh .r2 sIn (5*2), .ldrh .r3 sIn (11*2), .ldrh .r4 sIn (17*2), .ldrh .r5 sIn (23*2)] ++
  xorrol .r1 .lr 11 ++ xorrol .r2 .r9 4 ++ xorrol .r3 .r10 10 ++ xorrol .r4 .r11 15 ++ xorrol .r5 .r12 8 ++
  xandnot sOut (15*2) .r1 .r2 .r3 .r7 ++ xandnot sOut (16*2) .r2 .r3 .r4 .r7 ++ xandnot sOut (17*2) .r3 .r4 .r5 .r7 ++
  xandnot sOut (18*2) .r4 .r5 .r1 .r7 ++ xandnot sOut (19*2) .r5 .r1 .r2 .r7 ++
  [.ldrh .r1 sIn (2*2), .ldrh .r2 sIn (8*2), .ldrh .r3 sIn (14*2), .ldrh .r4 sIn (15*2), .ldrh .r5 sIn (21*2)] ++
  xorrol .r1 .r11 14 ++ xorrol .r2 .r12 7 ++ xorrol .r3 .lr 7 ++ xorrol .r4 .r9 9 ++ xorrol .r5 .r10 2 ++
  xandnot sOut (20*2) .r1 .r2 .r3 .r7 ++ xandnot sOut (21*2) .r2 .r3 .r4 .r7 ++ xandnot sOut (22*2) .r3 .r4 .r5 .r7 ++
  xandnot sOut (23*2) .r4 .r5 .r1 .r7 ++ xandnot sOut (24*2) .r5 .r1 .r2 .r7 ++
  [.ldrh .r1 sIn (0*2), .ldrh .r2 sIn (6*2), .ldrh .r3 sIn (12*2), .ldrh .r4 sIn (18*2), .ldrh .r5 sIn (24*2)] ++
  xorrol .r1 .r9 0 ++ xorrol .r2 .r10 12 ++ xorrol .r3 .r11 11 ++ xorrol .r4 .r12 5 ++ xorrol .r5 .lr 14 ++
  xandnot sOut (1*2) .r2 .r3 .r4 .r7 ++ xandnot sOut (2*2) .r3 .r4 .r5 .r7 ++ xandnot sOut (3*2) .r4 .r5 .r1 .r7 ++
  xandnot sOut (4*2) .r5 .r1 .r2 .r7 ++ xandnotRC sOut (0*2) .r1 .r2 .r3 rco

/-- Lines 206-207. -/
def staticInitialize : List (Item Label) :=
  [.lab .staticInitialize, .ins (.bxLr)]

/-- Lines 217-226. -/
def init : List (Item Label) :=
  [.lab .init, .ins (.mov true .r1 (.imm 0)), .ins (.mov true .r2 (.imm 0)), .ins (.mov true .r3 (.imm 0)),
   .ins (.stm .r0 [.r1, .r2, .r3]), .ins (.stm .r0 [.r1, .r2, .r3]), .ins (.stm .r0 [.r1, .r2, .r3]),
   .ins (.stm .r0 [.r1, .r2, .r3]), .ins (.strh .r1 .r0 0), .ins (.bxLr)]

/-- Lines 236-240. -/
def addByte : List (Item Label) :=
  [.lab .addByte, .ins (.ldrb .r3 .r0 .r2), .ins (.log .eor true .r3 .r3 (.reg .r1)), .ins (.strb .r3 .r0 .r2), .ins (.bxLr)]

/-- Lines 250-264. -/
def addBytes : List (Item Label) :=
  [.lab .addBytes, .ins (.sub true .r3 .r3 (.imm 1)), .ins (.bcc .addBytesExit), .ins (.add true .r0 .r0 (.reg .r2)),
   .ins (.push [.r4, .lr]), .lab .addBytesLoop, .ins (.ldrb .r2 .r1 .r3), .ins (.ldrb .r4 .r0 .r3),
   .ins (.log .eor true .r2 .r2 (.reg .r4)), .ins (.strb .r2 .r0 .r3), .ins (.sub true .r3 .r3 (.imm 1)),
   .ins (.bcs .addBytesLoop), .ins (.popPc [.r4]), .lab .addBytesExit, .ins (.bxLr)]

/-- Lines 274-284. -/
def overwriteBytes : List (Item Label) :=
  [.lab .overwriteBytes, .ins (.sub true .r3 .r3 (.imm 1)), .ins (.bcc .overwriteBytesExit),
   .ins (.add true .r0 .r0 (.reg .r2)), .lab .overwriteBytesLoop, .ins (.ldrb .r2 .r1 .r3), .ins (.strb .r2 .r0 .r3),
   .ins (.sub true .r3 .r3 (.imm 1)), .ins (.bcs .overwriteBytesLoop), .lab .overwriteBytesExit, .ins (.bxLr)]

/-- Lines 294-303. -/
def overwriteWithZeroes : List (Item Label) :=
  [.lab .overwriteWithZeroes, .ins (.mov true .r3 (.imm 0)), .ins (.cmp .r1 (.imm 0)), .ins (.beq .overwriteWithZeroesExit),
   .lab .overwriteWithZeroesLoopBytes, .ins (.sub true .r1 .r1 (.imm 1)), .ins (.strb .r3 .r0 .r1),
   .ins (.bne .overwriteWithZeroesLoopBytes), .lab .overwriteWithZeroesExit, .ins (.bxLr)]

/-- Lines 313-323. -/
def extractBytes : List (Item Label) :=
  [.lab .extractBytes, .ins (.sub true .r3 .r3 (.imm 1)), .ins (.bcc .extractBytesExit), .ins (.add true .r0 .r0 (.reg .r2)),
   .lab .extractBytesLoop, .ins (.ldrb .r2 .r0 .r3), .ins (.strb .r2 .r1 .r3), .ins (.sub true .r3 .r3 (.imm 1)),
   .ins (.bcs .extractBytesLoop), .lab .extractBytesExit, .ins (.bxLr)]

/-- Lines 333-348. -/
def extractAndAddBytes : List (Item Label) :=
  [.lab .extractAndAddBytes, .ins (.push [.r4, .r5]), .ins (.add true .r0 .r0 (.reg .r3)), .ins (.ldr .r3 .sp 8),
   .ins (.sub true .r3 .r3 (.imm 1)), .ins (.bcc .extractAndAddBytesExit), .lab .extractAndAddBytesLoop,
   .ins (.ldrb .r5 .r0 .r3), .ins (.ldrb .r4 .r1 .r3), .ins (.log .eor true .r5 .r5 (.reg .r4)), .ins (.strb .r5 .r2 .r3),
   .ins (.sub true .r3 .r3 (.imm 1)), .ins (.bcs .extractAndAddBytesLoop), .lab .extractAndAddBytesExit, .ins (.pop [.r4, .r5]),
   .ins (.bxLr)]

/-- Lines 358-386. -/
def permuteNrounds : List (Item Label) :=
  [.lab .permuteNrounds, .ins (.push [.r4, .r5, .r6, .lr]), .ins (.mov false .r2 (.reg .r8)), .ins (.mov false .r3 (.reg .r9)),
   .ins (.mov false .r4 (.reg .r10)), .ins (.mov false .r5 (.reg .r11)), .ins (.mov false .r6 (.reg .r12)),
   .ins (.push [.r2, .r3, .r4, .r5, .r6, .r7]), .ins (.sub false .sp .sp (.imm (25*2 + 6))), .ins (.mov false .r6 (.reg .sp)),
   .ins (.adr .r7 .roundConstants), .ins (.sub true .r7 .r7 (.reg .r1)), .ins (.sub true .r7 .r7 (.reg .r1)),
   .ins (.lsl true .r1 .r1 31), .ins (.beq .permuteNroundsGoRoundLoop), .ins (.sub true .r7 .r7 (.imm 2)),
   .ins (.mov false .r8 (.reg .r7)), .ins (.ldm .r0 [.r1, .r2, .r3, .r4, .r5, .r7]),
   .ins (.stm .r6 [.r1, .r2, .r3, .r4, .r5, .r7]), .ins (.ldm .r0 [.r1, .r2, .r3, .r4, .r5, .r7]),
   .ins (.stm .r6 [.r1, .r2, .r3, .r4, .r5, .r7]), .ins (.sub true .r0 .r0 (.imm 48)), .ins (.sub true .r6 .r6 (.imm 48)),
   .ins (.ldrh .r1 .r0 (24*2)), .ins (.strh .r1 .r6 (24*2)), .ins (.b .permuteRoundOdd), .lab .permuteNroundsGoRoundLoop,
   .ins (.b .permuteRoundLoop), .ins (.nop)]

/-- Lines 396-451. -/
def permute20rounds : List (Item Label) :=
  [.lab .permute20rounds, .ins (.push [.r4, .r5, .r6, .lr]), .ins (.mov false .r2 (.reg .r8)), .ins (.mov false .r3 (.reg .r9)),
   .ins (.mov false .r4 (.reg .r10)), .ins (.mov false .r5 (.reg .r11)), .ins (.mov false .r6 (.reg .r12)),
   .ins (.push [.r2, .r3, .r4, .r5, .r6, .r7]), .ins (.sub false .sp .sp (.imm (25*2 + 6))), .ins (.mov false .r6 (.reg .sp)),
   .ins (.adr .r7 .roundConstants20), .ins (.b .permuteRoundLoop), .lab .roundConstants20, .lab .roundConstants,
   .lab .permuteRoundLoop, .ins (.mov false .r8 (.reg .r7))] ++
  (keccakRound .r6 .r0 0).map .ins ++
  [.lab .permuteRoundOdd] ++
  (keccakRound .r0 .r6 2).map .ins ++
  [.ins (.add true .r7 .r7 (.imm 4)), .ins (.ldrh .r1 .r7 0), .ins (.cmp .r1 (.imm 0xFF)), .ins (.beq .permuteDone),
   .ins (.b .permuteRoundLoop), .lab .permuteDone, .ins (.add false .sp .sp (.imm (25*2 + 6))),
   .ins (.pop [.r1, .r2, .r3, .r4, .r5, .r7]), .ins (.mov false .r8 (.reg .r1)), .ins (.mov false .r9 (.reg .r2)),
   .ins (.mov false .r10 (.reg .r3)), .ins (.mov false .r11 (.reg .r4)), .ins (.mov false .r12 (.reg .r5)),
   .ins (.popPc [.r4, .r5, .r6])]

/-- The tables of round constants: lines 410-431. -/
def table : List (BitVec 16) :=
  [0x0001, 0x8082, 0x808a, 0x8000, 0x808b, 0x0001, 0x8081, 0x8009, 0x008a, 0x0088, 0x8009, 0x000a, 0x808b, 0x008b, 0x8089,
   0x8003, 0x8002, 0x0080, 0x800a, 0x000a, 0xFF]

/-- The whole file.  `KeccakP-400-armv6m-le-gcc.s` lines 200-454. -/
def prog : List (Item Label) :=
  staticInitialize ++ init ++ addByte ++ addBytes ++ overwriteBytes ++ overwriteWithZeroes ++ extractBytes ++
  extractAndAddBytes ++ permuteNrounds ++ permute20rounds

end V6

/-! ## `KeccakP-400-armv7m-le-gcc.s` -/

namespace V7

/-- The labels of `KeccakP-400-armv7m-le-gcc.s`. -/
inductive Label where
  | staticInitialize
  | init
  | addByte
  | addBytes
  | addBytesLoop
  | addBytesExit
  | overwriteBytes
  | overwriteBytesLoop
  | overwriteBytesExit
  | overwriteWithZeroes
  | overwriteWithZeroesLoop2Lanes
  | overwriteWithZeroesBytes
  | overwriteWithZeroesLoopBytes
  | overwriteWithZeroesExit
  | extractBytes
  | extractBytesLoop
  | extractBytesExit
  | extractAndAddBytes
  | extractAndAddBytesLoop
  | extractAndAddBytesExit
  | permuteNrounds
  | permute20rounds
  | permuteIntern
  | permuteRoundLoop
  | permuteRoundOdd
  | roundConstants20
  | roundConstants
deriving DecidableEq

/-- Lines 55-64. -/
def xor5 (result ptr : Reg) (b g k m : Nat) (rs : Reg) : List (Ins Label) :=
  [.ldrh result ptr b, .ldrh .r6 ptr g, .log .eor false result result (.reg rs), .ldrh rs ptr k,
   .log .eor false result result (.reg .r6), .ldrh .r6 ptr m, .log .eor false result result (.reg rs),
   .log .eor false result result (.reg .r6)]

/-- Lines 66-78. -/
def xor5D (resultL resultH ptr : Reg) (b g k m : Nat) (rsL rsH : Reg) : List (Ins Label) :=
  [.bfi16 rsL rsH, .ldr resultL ptr b, .ldr .r6 ptr g, .log .eor false resultL resultL (.reg rsL), .ldr rsL ptr k,
   .log .eor false resultL resultL (.reg .r6), .ldr .r6 ptr m, .log .eor false resultL resultL (.reg rsL),
   .log .eor false resultL resultL (.reg .r6), .lsr false resultH resultL 16, .uxth resultL resultL]

/-- Lines 80-88. -/
def xorrol (b yy : Reg) (rr : Nat) : List (Ins Label) :=
  [.log .eor false b b (.reg yy)] ++
  (if rr ≠ 8 then [.lsl false b b rr, .log .orr false b b (.reg b (.lsr 16))] else [.rev16 b b])

/-- Lines 90-94. -/
def rolxor (d a b : Reg) : List (Ins Label) :=
  [.log .eor false d a (.reg b (.lsl 1)), .log .eor false d d (.reg b (.lsr 15)), .uxth d d]

/-- Lines 96-100. -/
def xandnot (resptr : Reg) (resofs : Nat) (aa bb cc temp : Reg) : List (Ins Label) :=
  [.log .bic false temp cc (.reg bb), .log .eor false temp temp (.reg aa), .strh temp resptr resofs]

/-- Lines 102-108. -/
def xandnotRC (resptr : Reg) (resofs : Nat) (aa bb cc : Reg) : List (Ins Label) :=
  [.ldrhPost .r6 .r8 2, .log .bic false cc cc (.reg bb), .log .eor false cc cc (.reg .r6), .log .eor false cc cc (.reg aa),
   .strh cc resptr resofs]

/-- Lines 110-207. -/
def keccakRound (sOut sIn : Reg) : List (Ins Label) :=
  xor5D .r1 .r2 sIn (0*2) (5*2) (10*2) (15*2) .r9 .r10 ++ xor5D .r3 .r4 sIn (2*2) (7*2) (12*2) (17*2) .r11 .r12 ++
  rolxor .r9 .r7 .r2 ++ rolxor .r10 .r1 .r3 ++ rolxor .r11 .r2 .r4 ++ rolxor .r12 .r3 .r7 ++ rolxor .lr .r4 .r1 ++
  [.ldrh .r1 sIn (0*2), .ldrh .r2 sIn (6*2), .ldrh .r3 sIn (12*2), .ldrh .r4 sIn (18*2), .log .eor false .r1 .r1 (.reg .r9)] ++
  xorrol .r2 .r10 12 ++ xorrol .r3 .r11 11 ++ xorrol .r4 .r12 5 ++ xorrol .r5 .lr 14 ++ xandnot sOut (1*2) .r2 .r3 .r4 .r6 ++
  xandnot sOut (2*2) .r3 .r4 .r5 .r6 ++ xandnot sOut (3*2) .r4 .r5 .r1 .r6 ++ xandnot sOut (4*2) .r5 .r1 .r2 .r7 ++
  xandnotRC sOut (0*2) .r1 .r2 .r3 ++
  [.ldrh .r1 sIn (3*2), .ldrh .r2 sIn (9*2), .ldrh .r3 sIn (10*2), .ldrh .r4 sIn (16*2), .ldrh .r5 sIn (22*2)] ++
  xorrol .r1 .r12 12 ++ xorrol .r2 .lr 4 ++ xorrol .r3 .r9 3 ++ xorrol .r4 .r10 13 ++ xorrol .r5 .r11 13 ++
  xandnot sOut (5*2) .r1 .r2 .r3 .r6 ++ xandnot sOut (6*2) .r2 .r3 .r4 .r6 ++ xandnot sOut (7*2) .r3 .r4 .r5 .r6 ++
  xandnot sOut (8*2) .r4 .r5 .r1 .r6 ++ xandnot sOut (9*2) .r5 .r1 .r2 .r6 ++
  [.log .eor false .r7 .r7 (.reg .r6), .ldrh .r1 sIn (1*2), .ldrh .r2 sIn (7*2), .ldrh .r3 sIn (13*2), .ldrh .r4 sIn (19*2),
   .ldrh .r5 sIn (20*2)] ++
  xorrol .r1 .r10 1 ++ xorrol .r2 .r11 6 ++ xorrol .r3 .r12 9 ++ xorrol .r4 .lr 8 ++ xorrol .r5 .r9 2 ++
  xandnot sOut (10*2) .r1 .r2 .r3 .r6 ++ xandnot sOut (11*2) .r2 .r3 .r4 .r6 ++ xandnot sOut (12*2) .r3 .r4 .r5 .r6 ++
  xandnot sOut (13*2) .r4 .r5 .r1 .r6 ++ xandnot sOut (14*2) .r5 .r1 .r2 .r6 ++
  [.log .eor false .r7 .r7 (.reg .r6), .ldrh .r1 sIn (4*2), .ldrh .r2 sIn (5*2), .ldrh .r3 sIn (11*2), .ldrh .r4 sIn (17*2),
   .ldrh .r5 sIn (23*2)] ++
  xorrol .r1 .lr 11 ++ xorrol .r2 .r9 4 ++ xorrol .r3 .r10 10 ++ xorrol .r4 .r11 15 ++ xorrol .r5 .r12 8 ++
  xandnot sOut (15*2) .r1 .r2 .r3 .r6 ++ xandnot sOut (16*2) .r2 .r3 .r4 .r6 ++ xandnot sOut (17*2) .r3 .r4 .r5 .r6 ++
  xandnot sOut (18*2) .r4 .r5 .r1 .r6 ++ xandnot sOut (19*2) .r5 .r1 .r2 .r6 ++
  [.log .eor false .r7 .r7 (.reg .r6), .ldrh .r1 sIn (2*2), .ldrh .r2 sIn (8*2), .ldrh .r3 sIn (14*2), .ldrh .r4 sIn (15*2),
   .ldrh .r5 sIn (21*2)] ++
  xorrol .r1 .r11 14 ++ xorrol .r2 .r12 7 ++ xorrol .r3 .lr 7 ++ xorrol .r4 .r9 9 ++ xorrol .r5 .r10 2 ++
  xandnot sOut (20*2) .r1 .r2 .r3 .r9 ++ xandnot sOut (21*2) .r2 .r3 .r4 .r10 ++ xandnot sOut (22*2) .r3 .r4 .r5 .r11 ++
  xandnot sOut (23*2) .r4 .r5 .r1 .r12 ++
  [.log .bic false .r1 .r2 (.reg .r1), .log .eor false .r5 .r5 (.reg .r1), .log .eor false .r7 .r7 (.reg .r5), .uxth .r7 .r7,
   .strh .r5 sOut (24*2), .uxth .r5 .r5]

/-- Lines 216-217. -/
def staticInitialize : List (Item Label) :=
  [.lab .staticInitialize, .ins (.bxLr)]

/-- Lines 227-236. -/
def init : List (Item Label) :=
  [.lab .init, .ins (.mov true .r1 (.imm 0)), .ins (.mov true .r2 (.imm 0)), .ins (.mov true .r3 (.imm 0)),
   .ins (.stm .r0 [.r1, .r2, .r3]), .ins (.stm .r0 [.r1, .r2, .r3]), .ins (.stm .r0 [.r1, .r2, .r3]),
   .ins (.stm .r0 [.r1, .r2, .r3]), .ins (.strh .r1 .r0 0), .ins (.bxLr)]

/-- Lines 246-250. -/
def addByte : List (Item Label) :=
  [.lab .addByte, .ins (.ldrb .r3 .r0 .r2), .ins (.log .eor true .r3 .r3 (.reg .r1)), .ins (.strb .r3 .r0 .r2), .ins (.bxLr)]

/-- Lines 261-275. -/
def addBytes : List (Item Label) :=
  [.lab .addBytes, .ins (.sub true .r3 .r3 (.imm 1)), .ins (.bcc .addBytesExit), .ins (.add true .r0 .r0 (.reg .r2)),
   .ins (.push [.r4, .lr]), .lab .addBytesLoop, .ins (.ldrb .r2 .r1 .r3), .ins (.ldrb .r4 .r0 .r3),
   .ins (.log .eor true .r2 .r2 (.reg .r4)), .ins (.strb .r2 .r0 .r3), .ins (.sub true .r3 .r3 (.imm 1)),
   .ins (.bcs .addBytesLoop), .ins (.popPc [.r4]), .lab .addBytesExit, .ins (.bxLr)]

/-- Lines 285-295. -/
def overwriteBytes : List (Item Label) :=
  [.lab .overwriteBytes, .ins (.sub true .r3 .r3 (.imm 1)), .ins (.bcc .overwriteBytesExit),
   .ins (.add true .r0 .r0 (.reg .r2)), .lab .overwriteBytesLoop, .ins (.ldrb .r2 .r1 .r3), .ins (.strb .r2 .r0 .r3),
   .ins (.sub true .r3 .r3 (.imm 1)), .ins (.bcs .overwriteBytesLoop), .lab .overwriteBytesExit, .ins (.bxLr)]

/-- Lines 305-321. -/
def overwriteWithZeroes : List (Item Label) :=
  [.lab .overwriteWithZeroes, .ins (.mov true .r3 (.imm 0)), .ins (.lsr true .r2 .r1 2), .ins (.beq .overwriteWithZeroesBytes),
   .lab .overwriteWithZeroesLoop2Lanes, .ins (.strPost .r3 .r0 4), .ins (.sub true .r2 .r2 (.imm 1)),
   .ins (.bne .overwriteWithZeroesLoop2Lanes), .lab .overwriteWithZeroesBytes, .ins (.log .and true .r1 .r1 (.imm 3)),
   .ins (.beq .overwriteWithZeroesExit), .lab .overwriteWithZeroesLoopBytes, .ins (.strbPost .r3 .r0 1),
   .ins (.sub true .r1 .r1 (.imm 1)), .ins (.bne .overwriteWithZeroesLoopBytes), .lab .overwriteWithZeroesExit, .ins (.bxLr)]

/-- Lines 331-341. -/
def extractBytes : List (Item Label) :=
  [.lab .extractBytes, .ins (.sub true .r3 .r3 (.imm 1)), .ins (.bcc .extractBytesExit), .ins (.add true .r0 .r0 (.reg .r2)),
   .lab .extractBytesLoop, .ins (.ldrb .r2 .r0 .r3), .ins (.strb .r2 .r1 .r3), .ins (.sub true .r3 .r3 (.imm 1)),
   .ins (.bcs .extractBytesLoop), .lab .extractBytesExit, .ins (.bxLr)]

/-- Lines 351-366. -/
def extractAndAddBytes : List (Item Label) :=
  [.lab .extractAndAddBytes, .ins (.push [.r4, .r5]), .ins (.add true .r0 .r0 (.reg .r3)), .ins (.ldr .r3 .sp 8),
   .ins (.sub true .r3 .r3 (.imm 1)), .ins (.bcc .extractAndAddBytesExit), .lab .extractAndAddBytesLoop,
   .ins (.ldrb .r5 .r0 .r3), .ins (.ldrb .r4 .r1 .r3), .ins (.log .eor true .r5 .r5 (.reg .r4)), .ins (.strb .r5 .r2 .r3),
   .ins (.sub true .r3 .r3 (.imm 1)), .ins (.bcs .extractAndAddBytesLoop), .lab .extractAndAddBytesExit, .ins (.pop [.r4, .r5]),
   .ins (.bxLr)]

/-- Lines 376-397. -/
def permuteNrounds : List (Item Label) :=
  [.lab .permuteNrounds, .ins (.push [.r4, .r5, .r6, .r7, .r8, .r9, .r10, .r11, .r12, .lr]),
   .ins (.sub false .sp .sp (.imm (2*25 + 6))), .ins (.adr .r8 .roundConstants), .ins (.sub false .r8 .r8 (.reg .r1 (.lsl 1))),
   .ins (.lsl true .r1 .r1 31), .ins (.beq .permuteIntern), .ins (.mov false .r1 (.reg .sp)),
   .ins (.ldm .r0 [.r2, .r3, .r4, .r5, .r11, .r12]), .ins (.stm .r1 [.r2, .r3, .r4, .r5, .r11, .r12]),
   .ins (.ldm .r0 [.r2, .r3, .r4, .r5, .r11, .r12]), .ins (.stm .r1 [.r2, .r3, .r4, .r5, .r11, .r12]),
   .ins (.sub false .r0 .r0 (.imm (2*24))), .ins (.ldrh .lr .r0 (24*2)), .ins (.strh .lr .sp (24*2)), .ins (.uxth .r9 .r11),
   .ins (.uxth .r10 .r11 16), .ins (.uxth .r11 .r12), .ins (.lsr false .r12 .r12 16), .ins (.mov false .r5 (.reg .lr))] ++
  (xor5 .r7 .r0 (4*2) (9*2) (14*2) (19*2) .lr).map .ins ++
  [.ins (.b .permuteRoundOdd)]

/-- Lines 407-450. -/
def permute20rounds : List (Item Label) :=
  [.lab .permute20rounds, .ins (.push [.r4, .r5, .r6, .r7, .r8, .r9, .r10, .r11, .r12, .lr]),
   .ins (.sub false .sp .sp (.imm (2*25 + 6))), .ins (.adr .r8 .roundConstants20), .lab .permuteIntern,
   .ins (.ldrh .r9 .r0 (20*2)), .ins (.ldrh .r10 .r0 (21*2)), .ins (.ldrh .r11 .r0 (22*2)), .ins (.ldrh .lr .r0 (24*2)),
   .ins (.ldrh .r12 .r0 (23*2)), .ins (.mov false .r5 (.reg .lr))] ++
  (xor5 .r7 .r0 (4*2) (9*2) (14*2) (19*2) .lr).map .ins ++
  [.lab .permuteRoundLoop] ++
  (keccakRound .sp .r0).map .ins ++
  [.lab .permuteRoundOdd] ++
  (keccakRound .r0 .sp).map .ins ++
  [.ins (.ldrh .r3 .r8 0), .ins (.cmp .r3 (.imm 0)), .ins (.bne .permuteRoundLoop), .ins (.add false .sp .sp (.imm (2*25 + 6))),
   .ins (.popPc [.r4, .r5, .r6, .r7, .r8, .r9, .r10, .r11, .r12]), .lab .roundConstants20, .lab .roundConstants]

/-- The tables of round constants: lines 430-451. -/
def table : List (BitVec 16) :=
  [0x0001, 0x8082, 0x808a, 0x8000, 0x808b, 0x0001, 0x8081, 0x8009, 0x008a, 0x0088, 0x8009, 0x000a, 0x808b, 0x008b, 0x8089,
   0x8003, 0x8002, 0x0080, 0x800a, 0x000a, 0]

/-- The whole file.  `KeccakP-400-armv7m-le-gcc.s` lines 210-453. -/
def prog : List (Item Label) :=
  staticInitialize ++ init ++ addByte ++ addBytes ++ overwriteBytes ++ overwriteWithZeroes ++ extractBytes ++
  extractAndAddBytes ++ permuteNrounds ++ permute20rounds

end V7

end Model.KeccakAsm
