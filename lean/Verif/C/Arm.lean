import Verif.C.Mem
/-!
# ARM data-processing instructions

The part of the A32/T32 instruction sets used by the assembly under `/repo`, on 32-bit registers.  Flags are not modelled:
none of the modelled blocks reads them.  `ρ` is the type of register names.
-/

namespace C.Arm

/-- Second operand of an instruction. -/
inductive Opd (ρ : Type) where
  /-- register -/
  | reg (r : ρ)
  /-- immediate value -/
  | imm (v : BitVec 32)
  /-- register rotated right by a constant -/
  | ror (r : ρ) (n : Nat)

/-- Instructions. -/
inductive Ins (ρ : Type) where
  /-- `eor d, a, b`: `d = a ^ b` -/
  | eor (d a : ρ) (b : Opd ρ)
  /-- `and d, a, b`: `d = a & b` -/
  | and (d a : ρ) (b : Opd ρ)
  /-- `orr d, a, b`: `d = a | b` -/
  | orr (d a : ρ) (b : Opd ρ)
  /-- `bic d, a, b`: `d = a & ~b` -/
  | bic (d a : ρ) (b : Opd ρ)
  /-- `orn d, a, b`: `d = a | ~b` -/
  | orn (d a : ρ) (b : Opd ρ)
  /-- `mvn d, b`: `d = ~b` -/
  | mvn (d : ρ) (b : Opd ρ)
  /-- `movs d, b`: `d = b` -/
  | mov (d : ρ) (b : Opd ρ)
  /-- `ror d, a, b`: `d` = `a` rotated right by the last byte of `b` -/
  | ror (d a b : ρ)

variable {ρ : Type}

/-- Value of an operand. -/
def Opd.val (f : ρ → BitVec 32) : Opd ρ → BitVec 32
  | .reg r => f r
  | .imm v => v
  | .ror r n => (f r).rotateRight n

variable [DecidableEq ρ]

/-- Write a register. -/
def set (f : ρ → BitVec 32) (d : ρ) (v : BitVec 32) : ρ → BitVec 32 := fun r => if r = d then v else f r

/-- Effect of an instruction on the registers. -/
def step (f : ρ → BitVec 32) : Ins ρ → ρ → BitVec 32
  | .eor d a b => set f d (f a ^^^ b.val f)
  | .and d a b => set f d (f a &&& b.val f)
  | .orr d a b => set f d (f a ||| b.val f)
  | .bic d a b => set f d (f a &&& ~~~ b.val f)
  | .orn d a b => set f d (f a ||| ~~~ b.val f)
  | .mvn d b => set f d (~~~ b.val f)
  | .mov d b => set f d (b.val f)
  | .ror d a b => set f d ((f a).rotateRight ((f b).toNat % 256))

/-- A sequence of instructions. -/
def exec (prog : List (Ins ρ)) (f : ρ → BitVec 32) : ρ → BitVec 32 := prog.foldl step f

theorem exec_append (p q : List (Ins ρ)) (f : ρ → BitVec 32) : exec (p ++ q) f = exec q (exec p f) := by
  simp [exec]

theorem exec_nil (f : ρ → BitVec 32) : exec [] f = f := rfl

theorem exec_cons (i : Ins ρ) (p : List (Ins ρ)) (f : ρ → BitVec 32) : exec (i :: p) f = exec p (step f i) := rfl

end C.Arm
