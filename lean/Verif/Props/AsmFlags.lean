import Verif.Proof.AsmFlags
import Verif.Props.InlineAsm
/-!
# C41: inline assembly and the flags
-/

namespace Props
open C C.Arm Model Spec Spec.Ascon Spec.InlineAsm

/-- **C41**, the flags: the statements of bi_32_armv6, bi_32_armv7m and isapa128v20/opt_32_armv67m keep them, for every placement of
the operands. -/
theorem C41_flags_kept {ρ : Type} [DecidableEq ρ] (A : Asm Opt.Arm.Reg) (hA : A ∈ [Opt.Armv6.asm, Opt.Armv7m.asm, A128.Opt32.asm])
    (l : Opt.Arm.Reg → Loc ρ) (p : List (Ins ρ)) (h : assemble l A.code = some p) (f : ρ → BitVec 32) (fl : Flags) :
    execFlags false p f fl = fl := by
  refine execFlags_keep l A.code ?_ p f fl h
  simp only [List.mem_cons, List.not_mem_nil, or_false] at hA
  rcases hA with rfl | rfl | rfl <;> decide

/-- **C41**, the flags: the statement of bi_32_armv6m, bi_32_armv6m_compact and bi_32_armv6m_stp sets them, for every placement of the
operands, according to the new value of `x2_o`, whatever they were before. -/
theorem C41_armv6m_flags {ρ : Type} [DecidableEq ρ] (l : Opt.Arm.Reg → Loc ρ) (p : List (Ins ρ))
    (h : assemble l Opt.Armv6m.asm.code = some p) (r : ρ) (hr : l .x2o = .reg r) (thumb1 : Bool) (f : ρ → BitVec 32) (fl : Flags) :
    execFlags thumb1 p f fl = ⟨(exec p f r).msb, exec p f r == 0⟩ := by
  have hc : Opt.Armv6m.asm.code = Opt.Armv6m.asm.code.dropLast ++ [.mov .x2o (.reg .tmp2)] := (rfl)
  rw [hc] at h
  exact execFlags_last hr h thumb1 f fl

open AsmPlacement in
/-- **C41** is false of these also for the flags: with constants as immediate values and operands in registers of their own, the
registers end as they should, but the flags change although the statement does not declare it. -/
theorem C41_not_armv6m_flags : ∃ p, assemble (place (.imm 0xc) (.imm 0xc)) Opt.Armv6m.asm.code = some p ∧
    ∀ thumb1, ∃ fl, execFlags thumb1 p f fl ≠ fl := by
  obtain ⟨p, h1, _, _⟩ := C41_armv6m_partial R isLow (place (.imm 0xc) (.imm 0xc)) f v S (rc 0) (permits6m _ _)
    (by unfold Asm.Apart; decide) (by unfold Asm.Entry; decide) holds const
  refine ⟨p, h1, fun t => ⟨⟨!(exec p f 10).msb, false⟩, fun h => ?_⟩⟩
  rw [C41_armv6m_flags _ p h1 10 rfl] at h
  have := congrArg Flags.n h
  simp at this

open AsmPlacement in
/-- The hypotheses can be met. -/
example : ∃ p, assemble (place (.imm 0xc) (.imm 0xc)) Opt.Armv6.asm.code = some p ∧ ∀ fl, execFlags false p f fl = fl := by
  obtain ⟨p, h1, _, _⟩ := C41_armv6 R isLow (place (.imm 0xc) (.imm 0xc)) f v S (rc 0) permits6 trivial (by unfold Asm.Entry; decide) holds const
  exact ⟨p, h1, fun fl => C41_flags_kept _ (List.mem_cons_self ..) _ p h1 f fl⟩

end Props
