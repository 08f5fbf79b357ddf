import Verif.Proof.InlineAsm
/-!
# C41: the inline assembly and the compiler's choice of registers

The `asm` statements state for each operand where the compiler may put it.  C41 says that the Ascon round is computed for every choice
that the constraints permit.  The statements of bi_32_armv6, bi_32_armv7m (which computes a different round, see C22) and opt_32_armv67m
have this property.  Those of bi_32_armv6m, bi_32_armv6m_compact and bi_32_armv6m_stp, which have the same text, have it if the compiler
does not put the constant `C_o` in a register that it also uses for an output; their constraints permit that.
-/

namespace Props
open C C.Arm Model Spec Spec.Ascon Spec.InlineAsm

/-- **C41**, bi_32_armv6: the Ascon round for every permitted placement of the operands. -/
theorem C41_armv6 : Computes Opt.Armv6.asm (fun _ _ => True) roundWith := Opt.Arm.armv6

/-- **C41**, isapa128v20/opt_32_armv67m: the substitution and the linear layer for every permitted placement of the operands.  (The
constant is added before.) -/
theorem C41_armv67m : Computes A128.Opt32.asm (fun _ _ => True) (fun _ S => lin (sub S)) := by
  have h := Opt.Arm.armv67m
  have e : (fun (_ : BitVec 64) (S : State) => roundWith 0 S) = fun _ S => lin (sub S) := by
    funext _ S
    have z : S.x2 ^^^ 0 = S.x2 := BitVec.xor_zero
    rw [roundWith, z]
  rwa [e] at h

/-- **C41**, bi_32_armv7m: the same function for every permitted placement of the operands.  This function is the Ascon round followed
by an exchange of lanes. -/
theorem C41_armv7m : Computes Opt.Armv7m.asm (fun _ _ => True) (fun c S =>
    let T := roundWith c S
    ⟨T.x3, T.x4, T.x0, T.x1, T.x2⟩) := Opt.Arm.armv7m

/-- **C41**, bi_32_armv6m, bi_32_armv6m_compact, bi_32_armv6m_stp: the Ascon round for every permitted placement of the operands in which
`C_o` is an immediate value or in a register of its own.  Missing: the other placements, for which it is false. -/
theorem C41_armv6m_partial : Computes Opt.Armv6m.asm (fun _ l => Opt.Armv6m.asm.Apart l .co) roundWith := Opt.Arm.armv6m

/-- The models of the implementations, which the properties of the API are about, have the effect of these statements: for
every permitted placement the words of the state change as they do in the model. -/
theorem C41_models : Same Opt.Armv6.asm (fun _ _ => True) Opt.Armv6.round ∧ Same Opt.Armv7m.asm (fun _ _ => True) Opt.Armv7m.round ∧
    Same Opt.Armv6m.asm (fun _ l => Opt.Armv6m.asm.Apart l .co) Opt.Armv6m.round ∧
    Same A128.Opt32.asm (fun _ _ => True) (fun s _ => A128.Opt32.roundArm s 0 0) :=
  ⟨Opt.Arm.armv6_same, Opt.Arm.armv7m_same, Opt.Arm.armv6m_same, Opt.Arm.armv67m_same⟩

namespace AsmPlacement

/-- Registers 0 to 15; 13 to 15 are the stack pointer, the link register and the program counter. -/
abbrev R := Fin 16

/-- Registers 0 to 7. -/
def isLow (r : R) : Bool := r.val < 8

/-- A placement that uses registers 0 to 12 and 14, given those of the constants. -/
def place (ce co : Loc R) : Opt.Arm.Reg → Loc R
  | .x0e => .reg 0 | .x1e => .reg 1 | .x2e => .reg 2 | .x3e => .reg 3 | .x4e => .reg 4
  | .x0o => .reg 8 | .x1o => .reg 9 | .x2o => .reg 10 | .x3o => .reg 11 | .x4o => .reg 12
  | .tmp0 => .reg 5 | .tmp1 => .reg 6 | .tmp2 => .reg 7 | .tmp3 => .reg 14
  | .ce => ce | .co => co

/-- A state. -/
def S : State := ⟨0x8040_0c06_0000_0003, 1, 2, 3, 4⟩

/-- Its words and those of the constant `0xf0` of the first round. -/
def v : Opt.Arm.Reg → BitVec 32
  | .x0e => 0x08220001 | .x0o => 0x80210001
  | .x1e => 1 | .x1o => 0
  | .x2e => 0 | .x2o => 1
  | .x3e => 1 | .x3o => 1
  | .x4e => 2 | .x4o => 0
  | .ce => 0xc | .co => 0xc
  | _ => 0

/-- The registers before the statement. -/
def f (r : R) : BitVec 32 :=
  [0x08220001, 1, 0, 1, 2, 0xc, 0x1234, 0x5678, 0x80210001, 0, 1, 1, 0, 0x20001000, 0xc, 0x8000].getD r.val 0

theorem holds : Holds v S := ⟨by decide, by decide, by decide, by decide, by decide⟩

theorem const : Split (v .ce) (v .co) (rc 0) := by decide

/-- The placement for bi_32_armv6: constants are immediate values. -/
theorem permits6 : Opt.Armv6.asm.Permits isLow (place (.imm 0xc) (.imm 0xc)) where
  out := by simp only [Opt.Armv6.asm, Opt.Arm.words, List.cons_append, List.nil_append, List.forall_mem_cons]; simp [place]
  inj := by decide
  low := fun x hx => absurd hx (List.not_mem_nil)
  imm := fun x hx => by
    simp only [Opt.Armv6.asm, List.mem_cons, Prod.mk.injEq, and_true, List.not_mem_nil, or_false] at hx
    rcases hx with rfl | rfl <;> exact ⟨_, rfl⟩

theorem permits7 : Opt.Armv7m.asm.Permits isLow (place (.imm 0xc) (.imm 0xc)) where
  out := by simp only [Opt.Armv7m.asm, Opt.Arm.words, List.cons_append, List.nil_append, List.forall_mem_cons]; simp [place]
  inj := by decide
  low := fun x hx => absurd hx (List.not_mem_nil)
  imm := fun x hx => by
    simp only [Opt.Armv7m.asm, List.mem_cons, Prod.mk.injEq, and_true, List.not_mem_nil, or_false] at hx
    rcases hx with rfl | rfl <;> exact ⟨_, rfl⟩

theorem permits67 (ce co : Loc R) : A128.Opt32.asm.Permits isLow (place ce co) where
  out := by simp only [A128.Opt32.asm, Opt.Arm.words, List.cons_append, List.nil_append, List.forall_mem_cons]; simp [place]
  inj := by
    have h : ∀ x ∈ A128.Opt32.asm.inout ++ A128.Opt32.asm.temps, ∀ y ∈ A128.Opt32.asm.inout ++ A128.Opt32.asm.temps,
      place (.imm 0) (.imm 0) x = place (.imm 0) (.imm 0) y → x = y := by decide
    have k : ∀ x ∈ A128.Opt32.asm.inout ++ A128.Opt32.asm.temps, place ce co x = place (.imm 0) (.imm 0) x := by
      simp only [A128.Opt32.asm, Opt.Arm.words, List.cons_append, List.nil_append, List.forall_mem_cons]; simp [place]
    intro x hx y hy e
    rw [k x hx, k y hy] at e
    exact h x hx y hy e
  low := fun x hx => absurd hx (List.not_mem_nil)
  imm := fun x hx => absurd hx (List.not_mem_nil)

/-- For bi_32_armv6m any placement of the constants is permitted; the other operands with `l` are in registers 0 to 7. -/
theorem permits6m (ce co : Loc R) : Opt.Armv6m.asm.Permits isLow (place ce co) where
  out := by simp only [Opt.Armv6m.asm, Opt.Arm.words, List.cons_append, List.nil_append, List.forall_mem_cons]; simp [place]
  inj := by
    intro x hx y hy e
    refine (permits67 ce co).inj x ?_ y ?_ e
    · revert hx; cases x <;> decide
    · revert hy; cases y <;> decide
  low := by
    simp only [Opt.Armv6m.asm, List.forall_mem_cons, place, Loc.reg.injEq, forall_eq']
    exact ⟨rfl, rfl, rfl, rfl, rfl, rfl, rfl, rfl, fun x hx => absurd hx (List.not_mem_nil)⟩
  imm := fun x hx => by
    simp only [Opt.Armv6m.asm, List.mem_cons, Prod.mk.injEq, reduceCtorEq, and_false, List.not_mem_nil, or_false] at hx

/-- `C_o` in register 14: a register of its own in bi_32_armv6m. -/
theorem apart6m : Opt.Armv6m.asm.Apart (place (.imm 0xc) (.reg 14)) .co := by unfold Asm.Apart; decide

end AsmPlacement

/-! The hypotheses are met by a concrete state, registers and placements. -/

open AsmPlacement in
example : ∃ p, assemble (place (.imm 0xc) (.imm 0xc)) Opt.Armv6.asm.code = some p ∧
    Holds (fun x => (place (.imm 0xc) (.imm 0xc) x).val (exec p f)) (Ascon.round 0 S) ∧ exec p f 13 = f 13 := by
  obtain ⟨p, h1, h2, h3⟩ := C41_armv6 R isLow (place (.imm 0xc) (.imm 0xc)) f v S (rc 0) permits6 trivial (by unfold Asm.Entry; decide) holds const
  exact ⟨p, h1, h2, h3 13 (by decide)⟩

open AsmPlacement in
example : ∃ p, assemble (place (.imm 0xc) (.imm 0xc)) A128.Opt32.asm.code = some p ∧ exec p f 13 = f 13 := by
  obtain ⟨p, h1, h2, h3⟩ :=
    C41_armv67m R isLow (place (.imm 0xc) (.imm 0xc)) f v S (rc 0) (permits67 _ _) trivial (by unfold Asm.Entry; decide) holds const
  exact ⟨p, h1, h3 13 (by decide)⟩

open AsmPlacement in
example : ∃ p, assemble (place (.imm 0xc) (.imm 0xc)) Opt.Armv7m.asm.code = some p ∧ exec p f 14 = f 14 := by
  obtain ⟨p, h1, h2, h3⟩ :=
    C41_armv7m R isLow (place (.imm 0xc) (.imm 0xc)) f v S (rc 0) permits7 trivial (by unfold Asm.Entry; decide) holds const
  exact ⟨p, h1, h3 14 (by decide)⟩

open AsmPlacement in
example : ∃ p, assemble (place (.imm 0xc) (.reg 14)) Opt.Armv6m.asm.code = some p ∧
    Holds (fun x => (place (.imm 0xc) (.reg 14) x).val (exec p f)) (Ascon.round 0 S) ∧ exec p f 14 = f 14 := by
  obtain ⟨p, h1, h2, h3⟩ :=
    C41_armv6m_partial R isLow (place (.imm 0xc) (.reg 14)) f v S (rc 0) (permits6m _ _) apart6m (by unfold Asm.Entry; decide) holds const
  exact ⟨p, h1, h2, h3 14 (by decide)⟩

open AsmPlacement in
example : ∃ p, assemble (place (.imm 0xc) (.imm 0xc)) Opt.Armv6.asm.code = some p ∧
    Opt.Arm.store (fun x => (place (.imm 0xc) (.imm 0xc) x).val (exec p f)) = Opt.Armv6.round (Opt.Arm.store v) 0xc0000000c :=
  C41_models.1 R isLow _ f _ _ permits6 trivial (by unfold Asm.Entry; decide)

/-- **C41**, what goes wrong in bi_32_armv6m, bi_32_armv6m_compact and bi_32_armv6m_stp: `"=l"` without an early clobber mark and `"ri"` permit
the compiler to put `C_o` in the register of `tmp0`, which is written before `C_o` is read.  Then the round uses the word `x0_o` of
the state as the odd half of the constant. -/
theorem C41_armv6m_shared {ρ : Type} [DecidableEq ρ] (isLow : ρ → Bool) (l : Opt.Arm.Reg → Loc ρ) (f : ρ → BitVec 32)
    (v : Opt.Arm.Reg → BitVec 32) (S : State) (c : BitVec 64) (hp : Opt.Armv6m.asm.Permits isLow l) (hce : Opt.Armv6m.asm.Apart l .ce)
    (hco : l .co = l .tmp0) (he : Opt.Armv6m.asm.Entry l v f) (hS : Holds v S) (hc : Split (v .ce) (v .x0o) c) :
    ∃ p, assemble l Opt.Armv6m.asm.code = some p ∧ Holds (fun x => (l x).val (exec p f)) (roundWith c S) :=
  Opt.Arm.armv6m_alias isLow l f v S c hp hce hco he hS hc

namespace AsmPlacement

/-- `C_o` in the register of `tmp0`. -/
theorem entry_shared : Opt.Armv6m.asm.Entry (place (.imm 0xc) (.reg 5)) v f := by unfold Asm.Entry; decide

theorem apart_shared : Opt.Armv6m.asm.Apart (place (.imm 0xc) (.reg 5)) .ce := by unfold Asm.Apart; decide

/-- The constant that is used instead. -/
def c' : BitVec 64 := 0x8000080200000052

theorem const' : Split (v .ce) (v .x0o) c' := by decide

theorem differ : roundWith c' S ≠ roundWith (rc 0) S := by
  intro h
  have : (roundWith c' S).x0.getLsbD 1 = (roundWith (rc 0) S).x0.getLsbD 1 := by rw [h]
  revert this
  decide +kernel

end AsmPlacement

open AsmPlacement in
example : ∃ p, assemble (place (.imm 0xc) (.reg 5)) Opt.Armv6m.asm.code = some p ∧
    Holds (fun x => (place (.imm 0xc) (.reg 5) x).val (exec p f)) (roundWith c' S) :=
  C41_armv6m_shared isLow _ f v S c' (permits6m _ _) apart_shared rfl entry_shared holds const'

open AsmPlacement in
/-- **C41** is false of bi_32_armv6m, bi_32_armv6m_compact and bi_32_armv6m_stp: there is a permitted placement, a state and a constant for
which the result is not that of the Ascon round. -/
theorem C41_not_armv6m : ¬ Computes Opt.Armv6m.asm (fun _ _ => True) roundWith := by
  intro h
  obtain ⟨p, h1, h2, _⟩ := h R isLow (place (.imm 0xc) (.reg 5)) f v S (rc 0) (permits6m _ _) trivial entry_shared holds const
  obtain ⟨q, h3, h4⟩ := C41_armv6m_shared isLow (place (.imm 0xc) (.reg 5)) f v S c' (permits6m _ _) apart_shared rfl entry_shared
    holds const'
  rw [h1] at h3
  cases h3
  exact differ (Opt.Arm.holds_unique h4 h2)

#print axioms C41_armv6
#print axioms C41_armv67m
#print axioms C41_armv7m
#print axioms C41_armv6m_partial
#print axioms C41_models
#print axioms C41_armv6m_shared
#print axioms C41_not_armv6m

end Props
