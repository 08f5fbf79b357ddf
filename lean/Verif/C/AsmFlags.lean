import Verif.C.InlineAsm
/-!
# The flags and inline assembly

The list after the third colon of an `asm` statement (the clobbers) names what the instructions change besides the outputs; it is empty
in all statements under `/repo`.  Without `"cc"` in it the compiler may keep a value in the flags across the statement.
-/

namespace C.Arm

variable {ρ : Type}

/-- The flags that data-processing instructions with the suffix `s` set: negative and zero. -/
structure Flags where
  n : Bool
  z : Bool
deriving DecidableEq

/-- The flags after an instruction, from the registers `f` after it: `movs` sets them; the other instructions appear without the suffix
`s`.  `thumb1` is for the instruction set of ARMv6-M, in which `eor`, `bic`, `mvn` and `ror` of low registers set them as well. -/
def flagStep (thumb1 : Bool) (f : ρ → BitVec 32) (fl : Flags) : Ins ρ → Flags
  | .mov d _ => ⟨(f d).msb, f d == 0⟩
  | .eor d _ _ | .and d _ _ | .orr d _ _ | .bic d _ _ | .orn d _ _ | .mvn d _ | .ror d _ _ =>
    if thumb1 then ⟨(f d).msb, f d == 0⟩ else fl

/-- The flags after a sequence of instructions. -/
def execFlags [DecidableEq ρ] (thumb1 : Bool) : List (Ins ρ) → (ρ → BitVec 32) → Flags → Flags
  | [], _, fl => fl
  | i :: p, f, fl => execFlags thumb1 p (step f i) (flagStep thumb1 (step f i) fl i)

end C.Arm
