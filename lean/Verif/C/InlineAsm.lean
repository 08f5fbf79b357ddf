import Verif.C.Arm
/-!
# Inline assembly

The instructions of an `asm` statement name the operands of the statement.  The compiler decides in which machine register each operand
is, or that a constant operand is written into the instruction, and puts that in place of the names.
-/

namespace C.Arm

variable {κ ρ : Type}

/-- What the compiler writes in place of the name of an operand: a register or an immediate value. -/
inductive Loc (ρ : Type) where
  | reg (r : ρ)
  | imm (v : BitVec 32)
deriving DecidableEq

/-- The value of an operand when the registers are `f`. -/
def Loc.val (f : ρ → BitVec 32) : Loc ρ → BitVec 32
  | .reg r => f r
  | .imm v => v

/-- The register of an operand; `none`: there is none. -/
def Loc.toReg : Loc ρ → Option ρ
  | .reg r => some r
  | .imm _ => none

/-- The second operand of an instruction, with names replaced.  The assembler accepts a rotation only of a register. -/
def Opd.place (l : κ → Loc ρ) : Opd κ → Option (Opd ρ)
  | .reg x => some (match l x with | .reg r => .reg r | .imm v => .imm v)
  | .imm v => some (.imm v)
  | .ror x n => (l x).toReg.map fun r => .ror r n

/-- An instruction with names replaced; `none`: an immediate value stands where the assembler requires a register. -/
def Ins.place (l : κ → Loc ρ) : Ins κ → Option (Ins ρ)
  | .eor d a b => do return .eor (← (l d).toReg) (← (l a).toReg) (← b.place l)
  | .and d a b => do return .and (← (l d).toReg) (← (l a).toReg) (← b.place l)
  | .orr d a b => do return .orr (← (l d).toReg) (← (l a).toReg) (← b.place l)
  | .bic d a b => do return .bic (← (l d).toReg) (← (l a).toReg) (← b.place l)
  | .orn d a b => do return .orn (← (l d).toReg) (← (l a).toReg) (← b.place l)
  | .mvn d b => do return .mvn (← (l d).toReg) (← b.place l)
  | .mov d b => do return .mov (← (l d).toReg) (← b.place l)
  | .ror d a b => do return .ror (← (l d).toReg) (← (l a).toReg) (← (l b).toReg)

/-- The instructions that the assembler gets. -/
def assemble (l : κ → Loc ρ) : List (Ins κ) → Option (List (Ins ρ))
  | [] => some []
  | i :: p => do return (← i.place l) :: (← assemble l p)

/-- Constraint of an input operand that is not also an output. -/
inductive Constr where
  /-- `"i"`: an immediate value -/
  | i
  /-- `"ri"`: a register or an immediate value -/
  | ri
deriving DecidableEq

/-- An `asm` statement. -/
structure Asm (κ : Type) where
  /-- operands with `"+r"` or `"+l"`: read and written -/
  inout : List κ
  /-- operands with `"=r"` or `"=l"`: written; there is no early clobber mark -/
  temps : List κ
  /-- those of these operands that have `l`: in registers 0 to 7 -/
  low : List κ
  /-- other inputs -/
  inputs : List (κ × Constr)
  /-- instructions -/
  code : List (Ins κ)

/-- The placements that the constraints of a statement permit.  Outputs are in registers, no two of them in the same one.  An input may
be in any register, also in one of an output: without an early clobber mark the compiler may assume that the inputs are read before
any output is written.  `isLow` tells which registers `l` admits. -/
structure Asm.Permits (A : Asm κ) (isLow : ρ → Bool) (l : κ → Loc ρ) : Prop where
  out : ∀ x ∈ A.inout ++ A.temps, ∃ r, l x = .reg r
  inj : ∀ x ∈ A.inout ++ A.temps, ∀ y ∈ A.inout ++ A.temps, l x = l y → x = y
  low : ∀ x ∈ A.low, ∀ r, l x = .reg r → isLow r = true
  imm : ∀ x, (x, Constr.i) ∈ A.inputs → ∃ v, l x = .imm v

/-- The registers `f` hold the values `v` of the operands that the statement reads.  Nothing is said about temporaries and other
registers. -/
def Asm.Entry (A : Asm κ) (l : κ → Loc ρ) (v : κ → BitVec 32) (f : ρ → BitVec 32) : Prop :=
  ∀ x ∈ A.inout ++ A.inputs.map Prod.fst, (l x).val f = v x

/-- Input `x` is an immediate value or in a register that no output uses. -/
def Asm.Apart (A : Asm κ) (l : κ → Loc ρ) (x : κ) : Prop := ∀ y ∈ A.inout ++ A.temps, l x ≠ l y

end C.Arm
