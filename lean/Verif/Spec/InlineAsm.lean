import Verif.C.InlineAsm
import Verif.Model.AsconArm
import Verif.Spec.Ascon
/-!
# What the inline assembly of the Ascon round has to compute
-/

namespace Spec.InlineAsm
open C Spec.Ascon

/-- `e` has the bits of `x` at even positions, `o` those at odd positions. -/
def Split (e o : BitVec 32) (x : BitVec 64) : Prop :=
  ∀ j < 32, e.getLsbD j = x.getLsbD (2 * j) ∧ o.getLsbD j = x.getLsbD (2 * j + 1)

instance (e o : BitVec 32) (x : BitVec 64) : Decidable (Split e o x) := inferInstanceAs (Decidable (∀ j < 32, _))

/-- The ten operands hold the five lanes. -/
structure Holds (v : Model.Opt.Arm.Reg → BitVec 32) (S : State) : Prop where
  h0 : Split (v .x0e) (v .x0o) S.x0
  h1 : Split (v .x1e) (v .x1o) S.x1
  h2 : Split (v .x2e) (v .x2o) S.x2
  h3 : Split (v .x3e) (v .x3o) S.x3
  h4 : Split (v .x4e) (v .x4o) S.x4

/-- The Ascon round with round constant `c`: addition of the constant, substitution layer, linear layer. -/
def roundWith (c : BitVec 64) (S : State) : State := lin (sub { S with x2 := S.x2 ^^^ c })

theorem roundWith_rc (i : Nat) (S : State) : roundWith (rc i) S = round i S := rfl

/-- An `asm` statement computes `g`, however the compiler places its operands, as long as the placement satisfies `ok`: if the operands hold
a state `S` and the round constant `c` before it, the instructions are ones that the assembler accepts, the operands hold `g c S`
afterwards, and no register that is not an output has changed. -/
def Computes (A : Arm.Asm Model.Opt.Arm.Reg) (ok : (ρ : Type) → (Model.Opt.Arm.Reg → Arm.Loc ρ) → Prop)
    (g : BitVec 64 → State → State) : Prop :=
  ∀ (ρ : Type) [DecidableEq ρ] (isLow : ρ → Bool) (l : Model.Opt.Arm.Reg → Arm.Loc ρ) (f : ρ → BitVec 32)
    (v : Model.Opt.Arm.Reg → BitVec 32) (S : State) (c : BitVec 64),
    A.Permits isLow l → ok ρ l → A.Entry l v f → Holds v S → Split (v .ce) (v .co) c →
    ∃ p, Arm.assemble l A.code = some p ∧ Holds (fun x => (l x).val (Arm.exec p f)) (g c S) ∧
      ∀ r, (∀ x ∈ A.inout ++ A.temps, l x ≠ .reg r) → Arm.exec p f r = f r

/-- An `asm` statement has the effect `R` on the words of the state, however the compiler places its operands, as long as the placement
satisfies `ok`. -/
def Same (A : Arm.Asm Model.Opt.Arm.Reg) (ok : (ρ : Type) → (Model.Opt.Arm.Reg → Arm.Loc ρ) → Prop)
    (R : State → BitVec 64 → State) : Prop :=
  ∀ (ρ : Type) [DecidableEq ρ] (isLow : ρ → Bool) (l : Model.Opt.Arm.Reg → Arm.Loc ρ) (f : ρ → BitVec 32) (s : State) (c : BitVec 64),
    A.Permits isLow l → ok ρ l → A.Entry l (Model.Opt.Arm.load s c) f →
    ∃ p, Arm.assemble l A.code = some p ∧ Model.Opt.Arm.store (fun x => (l x).val (Arm.exec p f)) = R s c

end Spec.InlineAsm
